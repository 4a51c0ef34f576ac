import Verif.Props.Bounded
/-
C101: a majority of measurements near the truth prevails over grossly wrong ones.
-/

namespace RPGO.Spec
variable {G C K T N : Type} [Group G]

/-- The measurement has Gaussian noise, and its error is of the kind `E` and at least `α` (translation) or at least `β` (rotation). -/
def Gross [Field K] [LinearOrder K] (E : G → Prop) (tn rn : G → K) (α β : K) (truth : Key → G) (b : Btw G N) : Prop :=
  b.noise.isSome ∧ E (errorOf truth b) ∧ (α ≤ tn (errorOf truth b) ∨ β ≤ rn (errorOf truth b))

/-- `Gross`, and from robot `a` to robot `b`. -/
def GrossFrom [Field K] [LinearOrder K] (E : G → Prop) (tn rn : G → K) (α β : K) (truth : Key → G) (a b : Chr) (x : Btw G N) : Prop :=
  Gross E tn rn α β truth x ∧ chr x.k1 = a ∧ chr x.k2 = b

end RPGO.Spec

namespace RPGO
open Spec

section
variable {G C K N : Type} [Group G] [Field K] [LinearOrder K] [IsStrictOrderedRing K] {E : G → Prop} {tn rn : G → K} {η ρ : K}

/-- If a measurement, together with `m` measurements near the truth, closes a loop up to `g`, its error is at most that of the others and the mismatch. -/
theorem Walk.error (hE : Kind E) (ht : Sizes E tn) (hr : Sizes E rn) {u w v : G} {m n : Nat} {P Q y g : G} (wP : Walk E tn rn η ρ u w m P) (wQ : Walk E tn rn η ρ w v n Q)
    (hy : E (v⁻¹ * u * y)) (e : y = P * g * Q) :
    E g ∧ tn (v⁻¹ * u * y) ≤ (m + n : Nat) * η + tn g ∧ rn (v⁻¹ * u * y) ≤ (m + n : Nat) * ρ + rn g := by
  have wk := Walk.mul hE ht hr wP wQ
  have e1 : v⁻¹ * u * y = (v⁻¹ * u * (P * Q)) * (Q⁻¹ * g * Q⁻¹⁻¹) := by rw [e]; group
  have k1 : E (Q⁻¹ * g * Q⁻¹⁻¹) := by
    have : Q⁻¹ * g * Q⁻¹⁻¹ = (v⁻¹ * u * (P * Q))⁻¹ * (v⁻¹ * u * y) := by rw [e]; group
    rw [this]
    exact hE.mul _ _ (hE.inv _ wk.kind) hy
  have k2 : E g := by
    have := hE.conj Q _ k1
    rwa [show Q * (Q⁻¹ * g * Q⁻¹⁻¹) * Q⁻¹ = g by group] at this
  rw [e1]
  refine ⟨k2, ?_, ?_⟩
  · refine (ht.mul _ _ wk.kind k1).trans ?_
    rw [ht.conj _ _ k2]
    exact add_le_add wk.tr le_rfl
  · refine (hr.mul _ _ wk.kind k1).trans ?_
    rw [hr.conj _ _ k2]
    exact add_le_add wk.ro le_rfl

omit [Group G] in
/-- So if the loop is accepted, the measurement is not grossly wrong. -/
theorem not_gross {n M : Nat} {g : G} {t r τ σ : K} (h0 : 0 ≤ η) (h0' : 0 ≤ ρ) (ht0 : 0 ≤ t) (hr0 : 0 ≤ r) {P : Prop} (hP : P) (b : Spec.Below tn rn t r g (n + 1) P) (hM : n + 1 ≤ M)
    (w1 : τ ≤ n * η + tn g) (w2 : σ ≤ n * ρ + rn g) : τ < M * (t + η) ∧ σ < M * (r + ρ) := by
  have pos : (0 : K) < ((n + 1 : Nat) : K) := by exact_mod_cast Nat.succ_pos n
  obtain ⟨b1, b2, -⟩ := b
  have b2 := b2 hP
  rw [div_lt_iff₀ pos] at b1 b2
  have hM' : ((n + 1 : Nat) : K) ≤ M := by exact_mod_cast hM
  have hn : (n : K) ≤ ((n + 1 : Nat) : K) := by exact_mod_cast Nat.le_succ n
  constructor
  · have a1 : t * ((n + 1 : Nat) : K) ≤ t * M := mul_le_mul_of_nonneg_left hM' ht0
    have a2 : (n : K) * η ≤ M * η := mul_le_mul_of_nonneg_right (hn.trans hM') h0
    linarith
  · have a1 : r * ((n + 1 : Nat) : K) ≤ r * M := mul_le_mul_of_nonneg_left hM' hr0
    have a2 : (n : K) * ρ ≤ M * ρ := mul_le_mul_of_nonneg_right (hn.trans hM') h0'
    linarith

theorem hops_le {i j n : Nat} (hi : i ≤ n) (hj : j ≤ n) : hops i j ≤ n := by unfold hops; omega

omit [Group G] [Field K] [LinearOrder K] [IsStrictOrderedRing K] in
theorem rot_take {L : List (Btw G (GNoise C))} (h : Rot L) (n : Nat) : Rot (L.take n) := fun b hb => h b (List.mem_of_mem_take hb)

/-- A closure within one robot that is grossly wrong fails the odometry check. -/
theorem gross_odometry (p : Params K) (signed : Bool) (hm : p.method ≠ .none) (hE : Kind E) (ht : Sizes E tn) (hr : Sizes E rn) (h0 : 0 ≤ η) (h0' : 0 ≤ ρ)
    (h1 : 0 ≤ p.odomT) (h2 : 0 ≤ p.odomR) (hoc : (p.cfgSimple C tn rn signed).odomCheck = true) {env : Env G (GNoise C)} {h : List (Op G (GNoise C))} {s : St G (PNode G) (GNoise C)}
    (r : ReachOk (p.cfgSimple C tn rn signed) env h s) {start : Chr → Key} (hc : Chains (p.cfgSimple C tn rn signed) start h) {truth : Key → G} {c : Chr}
    (ho : ∀ x ∈ robotOdom (p.cfgSimple C tn rn signed) c h, Near E tn rn η ρ truth x) (hR : Rot (robotOdom (p.cfgSimple C tn rn signed) c h)) {b : Btw G (GNoise C)}
    (c1 : chr b.k1 = c) (c2 : chr b.k2 = c) (o1 : OnChain (p.cfgSimple C tn rn signed) start h b.k1) (o2 : OnChain (p.cfgSimple C tn rn signed) start h b.k2) (hRb : Rot [b])
    {M : Nat} (hM : (robotOdom (p.cfgSimple C tn rn signed) c h).length + 1 ≤ M)
    (hb : Gross E tn rn (M * (p.odomT + η)) (M * (p.odomR + ρ)) truth b) : OdomCheck (p.cfgSimple C tn rn signed) s b false := by
  obtain ⟨i, hi, ei⟩ := o1
  obtain ⟨j, hj, ej⟩ := o2
  rw [c1] at hi ei
  rw [c2] at hj ej
  obtain ⟨v, hv, iff⟩ := Props.C50_odometry_check p tn rn signed hm r hc rfl (b := b) ⟨c1, hi, ei⟩ ⟨c2, hj, ej⟩ hb.1
  cases v with
  | false => exact hv
  | true =>
    exfalso
    rcases iff.1 rfl with q | q
    · rw [hoc] at q; cases q
    · have hy := hb.2.1
      have wR := Walk.rel hE ht hr (hc c).2.1 ho hi hj
      rw [← ei, ← ej] at wR
      obtain ⟨kg, w1, w2⟩ := Walk.error hE ht hr (Walk.refl hE ht hr (truth b.k1) (η := η) (ρ := ρ)) wR hy (y := b.m)
        (g := (Spec.rel (robotOdom (p.cfgSimple C tn rn signed) c h) i j * b.m⁻¹)⁻¹) (by group)
      have kg' := hE.inv _ kg
      rw [inv_inv] at kg'
      rw [ht.inv _ kg', Nat.zero_add] at w1
      rw [hr.inv _ kg', Nat.zero_add] at w2
      have hh := hops_le hi hj
      obtain ⟨g1, g2⟩ := not_gross h0 h0' h1 h2 ⟨rot_take hR _, hRb⟩ q (by omega : hops i j + 1 ≤ M) w1 w2
      rcases hb.2.2 with q | q
      · exact absurd q (not_le.2 g1)
      · exact absurd q (not_le.2 g2)

/-- Of two closures from robot `a` to robot `b`, one near the truth and one grossly wrong, the pairwise check fails. -/
theorem gross_pair (p : Params K) (signed : Bool) (hm : p.method ≠ .none) (hE : Kind E) (ht : Sizes E tn) (hr : Sizes E rn) (h0 : 0 ≤ η) (h0' : 0 ≤ ρ)
    (h1 : 0 ≤ p.distT) (h2 : 0 ≤ p.distR) (hl : (p.cfgSimple C tn rn signed).loopCheck = true) {env : Env G (GNoise C)} {h : List (Op G (GNoise C))} {s : St G (PNode G) (GNoise C)}
    (r : ReachOk (p.cfgSimple C tn rn signed) env h s) {start : Chr → Key} (hc : Chains (p.cfgSimple C tn rn signed) start h) {truth : Key → G} {a b : Chr}
    (ho : ∀ c, c = a ∨ c = b → ∀ x ∈ robotOdom (p.cfgSimple C tn rn signed) c h, Near E tn rn η ρ truth x)
    (hR : ∀ c, c = a ∨ c = b → Rot (robotOdom (p.cfgSimple C tn rn signed) c h)) {x y : Btw G (GNoise C)} (hRx : Rot [x]) (hRy : Rot [y])
    (ox : OnChain (p.cfgSimple C tn rn signed) start h x.k1 ∧ OnChain (p.cfgSimple C tn rn signed) start h x.k2)
    (oy : OnChain (p.cfgSimple C tn rn signed) start h y.k1 ∧ OnChain (p.cfgSimple C tn rn signed) start h y.k2) {M : Nat}
    (hM : (robotOdom (p.cfgSimple C tn rn signed) a h).length + (robotOdom (p.cfgSimple C tn rn signed) b h).length + 2 ≤ M)
    (hx : NearFrom E tn rn η ρ truth a b x) (hy : GrossFrom E tn rn (M * (p.distT + η)) (M * (p.distR + ρ)) truth a b y) :
    ¬ PairCheck (p.cfgSimple C tn rn signed) s x y true ∧ ¬ PairCheck (p.cfgSimple C tn rn signed) s y x true := by
  obtain ⟨hx, x1, x2⟩ := hx
  obtain ⟨hy, y1, y2⟩ := hy
  obtain ⟨⟨i, hi, ei⟩, j, hj, ej⟩ := ox
  obtain ⟨⟨k, hk, ek⟩, l, hl', el⟩ := oy
  rw [x1] at hi ei
  rw [x2] at hj ej
  rw [y1] at hk ek
  rw [y2] at hl' el
  have wx := Near.walk hx
  have b1 := hops_le hi hk
  have b2 := hops_le hj hl'
  have fin : ∀ {g : G} {n : Nat} {P : Prop}, P → n + 1 ≤ M → Spec.Below tn rn p.distT p.distR g (n + 1) P → tn (errorOf truth y) ≤ n * η + tn g → rn (errorOf truth y) ≤ n * ρ + rn g → False := by
    intro g n P hP hn hb a1 a2
    obtain ⟨g1, g2⟩ := not_gross h0 h0' h1 h2 hP hb hn a1 a2
    rcases hy.2.2 with q | q
    · exact absurd q (not_le.2 g1)
    · exact absurd q (not_le.2 g2)
  have two : Rot [x, y] := fun z hz => by
    rcases List.mem_cons.1 hz with rfl | hz
    · exact hRx z (by simp)
    · exact hRy z hz
  have two' : Rot [y, x] := fun z hz => by
    rcases List.mem_cons.1 hz with rfl | hz
    · exact hRy z (by simp)
    · exact hRx z hz
  constructor
  · intro hv
    obtain ⟨v, hv', iff⟩ := Props.C51_pairwise_check p tn rn signed hm r hc rfl rfl (x := x) (y := y) ⟨x1, hi, ei⟩ ⟨x2, hj, ej⟩ ⟨y1, hk, ek⟩ ⟨y2, hl', el⟩ hx.1 hy.1
    have hvt : v = true := (pairCheck_val hv').trans (pairCheck_val hv).symm
    rcases iff.1 hvt with q | q
    · rw [hl] at q; cases q
    · rw [show hops i k + hops j l + 2 = (hops i k + 1 + hops j l) + 1 by omega] at q
      rw [ei, ej] at wx
      have wP := Walk.mul hE ht hr (Walk.mul hE ht hr (Walk.inv hE ht hr (Walk.rel hE ht hr (hc a).2.1 (ho a (Or.inl rfl)) hi hk)) wx)
        (Walk.rel hE ht hr (hc b).2.1 (ho b (Or.inr rfl)) hj hl')
      rw [← ek, ← el] at wP
      obtain ⟨kg, w1, w2⟩ := Walk.error hE ht hr wP (Walk.refl hE ht hr _) hy.2.1 (y := y.m)
        (g := ((Spec.rel (robotOdom (p.cfgSimple C tn rn signed) a h) i k * y.m)⁻¹ * x.m * Spec.rel (robotOdom (p.cfgSimple C tn rn signed) b h) j l)⁻¹) (by group)
      have kg' := hE.inv _ kg
      rw [inv_inv] at kg'
      rw [ht.inv _ kg', Nat.add_zero] at w1
      rw [hr.inv _ kg', Nat.add_zero] at w2
      exact fin ⟨rot_take (hR a (Or.inl rfl)) _, rot_take (hR b (Or.inr rfl)) _, two⟩ (by omega) q w1 w2
  · intro hv
    obtain ⟨v, hv', iff⟩ := Props.C51_pairwise_check p tn rn signed hm r hc rfl rfl (x := y) (y := x) ⟨y1, hk, ek⟩ ⟨y2, hl', el⟩ ⟨x1, hi, ei⟩ ⟨x2, hj, ej⟩ hy.1 hx.1
    have hvt : v = true := (pairCheck_val hv').trans (pairCheck_val hv).symm
    rcases iff.1 hvt with q | q
    · rw [hl] at q; cases q
    · rw [show hops k i + hops l j + 2 = (hops k i + 1 + hops l j) + 1 by omega] at q
      rw [ei, ej] at wx
      have wP := Walk.mul hE ht hr (Walk.rel hE ht hr (hc a).2.1 (ho a (Or.inl rfl)) hk hi) wx
      have wQ := Walk.inv hE ht hr (Walk.rel hE ht hr (hc b).2.1 (ho b (Or.inr rfl)) hl' hj)
      rw [← ek] at wP
      rw [← el] at wQ
      obtain ⟨kg, w1, w2⟩ := Walk.error hE ht hr wP wQ hy.2.1 (y := y.m)
        (g := (Spec.rel (robotOdom (p.cfgSimple C tn rn signed) a h) k i * x.m)⁻¹ * y.m * Spec.rel (robotOdom (p.cfgSimple C tn rn signed) b h) l j) (by group)
      have k1 := hops_le hk hi
      have k2 := hops_le hl' hj
      exact fin ⟨rot_take (hR a (Or.inl rfl)) _, rot_take (hR b (Or.inr rfl)) _, two'⟩ (by omega) q w1 w2

/-- Of two observations of a landmark, one near the truth and one grossly wrong, the check fails. -/
theorem gross_land (p : Params K) (signed : Bool) (hm : p.method ≠ .none) (hE : Kind E) (ht : Sizes E tn) (hr : Sizes E rn) (h0 : 0 ≤ η) (h0' : 0 ≤ ρ)
    (h1 : 0 ≤ p.distT) (h2 : 0 ≤ p.distR) {env : Env G (GNoise C)} {h : List (Op G (GNoise C))} {s : St G (PNode G) (GNoise C)}
    (r : ReachOk (p.cfgSimple C tn rn signed) env h s) {start : Chr → Key} (hc : Chains (p.cfgSimple C tn rn signed) start h) {truth : Key → G} {c : Chr}
    (ho : ∀ x ∈ robotOdom (p.cfgSimple C tn rn signed) c h, Near E tn rn η ρ truth x) (hR : Rot (robotOdom (p.cfgSimple C tn rn signed) c h))
    {x y : Btw G (GNoise C)} (hRx : Rot [x]) (hRy : Rot [y])
    (cx : chr x.k1 = c) (cy : chr y.k1 = c) (ox : OnChain (p.cfgSimple C tn rn signed) start h x.k1) (oy : OnChain (p.cfgSimple C tn rn signed) start h y.k1) {M : Nat}
    (hM : (robotOdom (p.cfgSimple C tn rn signed) c h).length + 2 ≤ M) (e : x.k2 = y.k2) (hx : Near E tn rn η ρ truth x)
    (hy : Gross E tn rn (M * (p.distT + η)) (M * (p.distR + ρ)) truth y) :
    ¬ LandCheck (p.cfgSimple C tn rn signed) s x y true ∧ ¬ LandCheck (p.cfgSimple C tn rn signed) s y x true := by
  obtain ⟨i, hi, ei⟩ := ox
  obtain ⟨k, hk, ek⟩ := oy
  rw [cx] at hi ei
  rw [cy] at hk ek
  have wx := Near.walk hx
  have b1 := hops_le hi hk
  have b2 := hops_le hk hi
  have fin : ∀ {g : G} {n : Nat} {P : Prop}, P → n + 1 ≤ M → Spec.Below tn rn p.distT p.distR g (n + 1) P → tn (errorOf truth y) ≤ n * η + tn g → rn (errorOf truth y) ≤ n * ρ + rn g → False := by
    intro g n P hP hn hb a1 a2
    obtain ⟨g1, g2⟩ := not_gross h0 h0' h1 h2 hP hb hn a1 a2
    rcases hy.2.2 with q | q
    · exact absurd q (not_le.2 g1)
    · exact absurd q (not_le.2 g2)
  have two : Rot [x, y] := fun z hz => by
    rcases List.mem_cons.1 hz with rfl | hz
    · exact hRx z (by simp)
    · exact hRy z hz
  have two' : Rot [y, x] := fun z hz => by
    rcases List.mem_cons.1 hz with rfl | hz
    · exact hRy z (by simp)
    · exact hRx z hz
  rw [ei, e] at wx
  constructor
  · intro hv
    obtain ⟨v, hv', iff⟩ := Props.C52_check_partial p tn rn signed hm r hc rfl (x := x) (y := y) ⟨cx, hi, ei⟩ ⟨cy, hk, ek⟩ hx.1 hy.1
    have hvt : v = true := (landCheck_val hv').trans (landCheck_val hv).symm
    have q := iff.1 hvt
    have wP := Walk.mul hE ht hr (Walk.inv hE ht hr (Walk.rel hE ht hr (hc c).2.1 ho hi hk)) wx
    rw [← ek] at wP
    obtain ⟨kg, w1, w2⟩ := Walk.error hE ht hr wP (Walk.refl hE ht hr _) hy.2.1 (y := y.m)
      (g := ((Spec.rel (robotOdom (p.cfgSimple C tn rn signed) c h) i k * y.m)⁻¹ * x.m)⁻¹) (by group)
    have kg' := hE.inv _ kg
    rw [inv_inv] at kg'
    rw [ht.inv _ kg', Nat.add_zero] at w1
    rw [hr.inv _ kg', Nat.add_zero] at w2
    exact fin ⟨rot_take hR _, two⟩ (by omega) q w1 w2
  · intro hv
    obtain ⟨v, hv', iff⟩ := Props.C52_check_partial p tn rn signed hm r hc rfl (x := y) (y := x) ⟨cy, hk, ek⟩ ⟨cx, hi, ei⟩ hy.1 hx.1
    have hvt : v = true := (landCheck_val hv').trans (landCheck_val hv).symm
    have q := iff.1 hvt
    have wP := Walk.mul hE ht hr (Walk.rel hE ht hr (hc c).2.1 ho hk hi) wx
    rw [← ek] at wP
    obtain ⟨kg, w1, w2⟩ := Walk.error hE ht hr wP (Walk.refl hE ht hr _) hy.2.1 (y := y.m)
      (g := (Spec.rel (robotOdom (p.cfgSimple C tn rn signed) c h) k i * x.m)⁻¹ * y.m) (by group)
    rw [Nat.add_zero] at w1 w2
    exact fin ⟨rot_take hR _, two'⟩ (by omega) q w1 w2

theorem positions_length {α : Type} (p : α → Bool) (l : List α) : (positions p l).length = (l.filter p).length := by
  have := congrArg List.length (positions_map p l)
  simpa using this

end
end RPGO

namespace RPGO.Props
open Spec
variable {G C K : Type} [Group G] [Field K] [LinearOrder K] [IsStrictOrderedRing K] {E : G → Prop} {tn rn : G → K} {η ρ : K}

/-- C101: a grossly wrong closure within a robot is not even registered. -/
theorem C101_unregistered (p : Params K) (signed : Bool) (hm : p.method ≠ .none) (hE : Kind E) (ht : Sizes E tn) (hr : Sizes E rn) (h0 : 0 ≤ η) (h0' : 0 ≤ ρ)
    (h1 : 0 ≤ p.odomT) (h2 : 0 ≤ p.odomR) (hoc : (p.cfgSimple C tn rn signed).odomCheck = true) {env : Env G (GNoise C)} {h : List (Op G (GNoise C))} {s : St G (PNode G) (GNoise C)}
    (r : ReachOk (p.cfgSimple C tn rn signed) env h s) {start : Chr → Key} (hc : Chains (p.cfgSimple C tn rn signed) start h) {a : Chr}
    (hf : PairFed (p.cfgSimple C tn rn signed) start a a h) {truth : Key → G}
    (ho : ∀ x ∈ robotOdom (p.cfgSimple C tn rn signed) a h, Near E tn rn η ρ truth x) (hR : Rot (robotOdom (p.cfgSimple C tn rn signed) a h)) {M : Nat}
    (hM : (robotOdom (p.cfgSimple C tn rn signed) a h).length + 1 ≤ M) {x : Btw G (GNoise C)} (hRx : Rot [x])
    (hx : GrossFrom E tn rn (M * (p.odomT + η)) (M * (p.odomR + ρ)) truth a a x) : x ∉ registered s ⟨a, a⟩ := by
  have hrej : (p.cfgSimple C tn rn signed).rejection = true := by simp [Params.cfgSimple, Params.cfg, hm]
  intro hx'
  have f := registered_fine (node_startFree tn rn _ _ _ _) hrej r hf hx'
  have g := gross_odometry p signed hm hE ht hr h0 h0' h1 h2 hoc r hc ho hR hx.2.1 hx.2.2 f.2.1 f.2.2.1 hRx hM hx.1
  rw [pair_registered (node_startFree tn rn _ _ _ _) hrej r hf] at hx'
  have := (List.mem_filter.1 hx').2
  rw [← odomCheck_val g, hx.2.1, hx.2.2] at this
  simp at this

open Classical in
/-- C101: if more than half of the closures supplied from `a` to `b` have errors, like the odometry, below the thresholds, and the others are grossly wrong, exactly the former are
accepted, each once. Grossly wrong is an error of at least M times the threshold and the bound of the good errors, where M is the number of measurements in the longest loop. -/
theorem C101_majority (p : Params K) (signed : Bool) (hm : p.method ≠ .none) (hE : Kind E) (ht : Sizes E tn) (hr : Sizes E rn) (h0 : 0 ≤ η) (h0' : 0 ≤ ρ)
    (h1 : η < p.odomT ∧ η < p.distT) (h2 : ρ < p.odomR ∧ ρ < p.distR) (hl : (p.cfgSimple C tn rn signed).loopCheck = true) {env : Env G (GNoise C)}
    {h : List (Op G (GNoise C))} {s : St G (PNode G) (GNoise C)} (r : ReachOk (p.cfgSimple C tn rn signed) env h s) {start : Chr → Key}
    (hc : Chains (p.cfgSimple C tn rn signed) start h) {a b : Chr} (hf : PairFed (p.cfgSimple C tn rn signed) start a b h) {truth : Key → G}
    (ho : ∀ c, c = a ∨ c = b → ∀ x ∈ robotOdom (p.cfgSimple C tn rn signed) c h, Near E tn rn η ρ truth x)
    (hR : ∀ c, c = a ∨ c = b → Rot (robotOdom (p.cfgSimple C tn rn signed) c h)) (hRc : Rot (pairGroups (p.cfgSimple C tn rn signed) a b h).flatten) {M : Nat}
    (hM : (robotOdom (p.cfgSimple C tn rn signed) a h).length + (robotOdom (p.cfgSimple C tn rn signed) b h).length + 2 ≤ M)
    (hx : ∀ x ∈ (pairGroups (p.cfgSimple C tn rn signed) a b h).flatten,
      NearFrom E tn rn η ρ truth a b x ∨ GrossFrom E tn rn (M * (p.distT + η)) (M * (p.distR + ρ)) truth a b x)
    (more : (pairGroups (p.cfgSimple C tn rn signed) a b h).flatten.length <
      2 * ((pairGroups (p.cfgSimple C tn rn signed) a b h).flatten.filter fun x => decide (NearFrom E tn rn η ρ truth a b x)).length) :
    (selected s ⟨a, b⟩).Perm ((pairGroups (p.cfgSimple C tn rn signed) a b h).flatten.filter fun x => decide (NearFrom E tn rn η ρ truth a b x)) := by
  have hrej : (p.cfgSimple C tn rn signed).rejection = true := by simp [Params.cfgSimple, Params.cfg, hm]
  have hs := node_startFree (C := C) tn rn p.odomT p.odomR p.distT p.distR
  have ereg := pair_registered hs hrej r hf
  have sub : (registered s ⟨a, b⟩).Sublist (pairGroups (p.cfgSimple C tn rn signed) a b h).flatten := by rw [ereg]; exact List.filter_sublist
  have near : (registered s ⟨a, b⟩).filter (fun x => decide (NearFrom E tn rn η ρ truth a b x)) =
      (pairGroups (p.cfgSimple C tn rn signed) a b h).flatten.filter fun x => decide (NearFrom E tn rn η ρ truth a b x) := by
    refine List.Sublist.antisymm (sub.filter _) ?_
    have k := C100_registered p signed hm hE ht hr h0' h1.1 h2.1 r hc hf ho
    have k' := k.filter fun x => decide (NearFrom E tn rn η ρ truth a b x)
    rw [List.filter_filter] at k'
    have ef : (pairGroups (p.cfgSimple C tn rn signed) a b h).flatten.filter (fun x => decide (NearFrom E tn rn η ρ truth a b x)) =
        (pairGroups (p.cfgSimple C tn rn signed) a b h).flatten.filter fun x => decide (NearFrom E tn rn η ρ truth a b x) && decide (Near E tn rn η ρ truth x) :=
      List.filter_congr fun x _ => ?_
    · rw [ef]; exact k'
    by_cases q : NearFrom E tn rn η ρ truth a b x
    · simp [q, q.1]
    · simp [q]
  have reg : ∀ {i : Nat} {x : Btw G (GNoise C)}, (registered s ⟨a, b⟩)[i]? = some x → x ∈ registered s ⟨a, b⟩ := fun e => List.mem_of_getElem? e
  have rot1 : ∀ {x : Btw G (GNoise C)}, x ∈ registered s ⟨a, b⟩ → Rot [x] := fun {x} hx z hz => by
    rw [List.mem_singleton] at hz
    subst hz
    exact hRc z (sub.subset hx)
  rw [← near]
  refine C100_outliers p signed hm hE ht hr h0' h1.2 h2.2 hl r hc hf ho ?_ ?_
  · intro i j x y ex ey nx ny ag
    have gy : GrossFrom E tn rn (M * (p.distT + η)) (M * (p.distR + ρ)) truth a b y := (hx y (sub.subset (reg ey))).resolve_left ny
    have fx := registered_fine hs hrej r hf (reg ex)
    have fy := registered_fine hs hrej r hf (reg ey)
    have g := gross_pair p signed hm hE ht hr h0 h0' (h0.trans h1.2.le) (h0'.trans h2.2.le) hl r hc ho hR (rot1 (reg ex)) (rot1 (reg ey)) ⟨fx.2.1, fx.2.2.1⟩ ⟨fy.2.1, fy.2.2.1⟩ hM nx gy
    rcases Nat.lt_trichotomy i j with q | q | q
    · exact g.1 ((agree_of_check hs hrej hl r hf q ex ey).1 ag)
    · subst q
      rw [ex] at ey
      cases ey
      exact ny nx
    · exact g.2 ((agree_of_check hs hrej hl r hf q ey ex).1 (Agree.symm ag))
  · intro l hlg hn
    have b1 : l.length ≤ (positions (fun x => !decide (NearFrom E tn rn η ρ truth a b x)) (registered s ⟨a, b⟩)).length :=
      length_le_of_nodup_subset hlg.1 fun i hi => mem_positions.2 ⟨_, List.getElem?_eq_getElem (hlg.2.1 i hi), by
        simpa using hn i hi _ (List.getElem?_eq_getElem (hlg.2.1 i hi))⟩
    rw [positions_length] at b1
    have b2 := List.length_eq_length_filter_add (l := registered s ⟨a, b⟩) (fun x => decide (NearFrom E tn rn η ρ truth a b x))
    have b3 := sub.length_le
    rw [near] at b2 ⊢
    omega

open Classical in
/-- C101 for landmarks: if more than half of the registered observations of a landmark, by one robot and from its poses, have errors below the thresholds, like the odometry of the
robot, and the others are grossly wrong, exactly the former are accepted, each once. -/
theorem C101_observations (p : Params K) (signed : Bool) (hm : p.method ≠ .none) (hE : Kind E) (ht : Sizes E tn) (hr : Sizes E rn) (h0 : 0 ≤ η) (h0' : 0 ≤ ρ)
    (h1 : η < p.distT) (h2 : ρ < p.distR) {env : Env G (GNoise C)} {h : List (Op G (GNoise C))} {s : St G (PNode G) (GNoise C)}
    (r : ReachOk (p.cfgSimple C tn rn signed) env h s) {start : Chr → Key} (hc : Chains (p.cfgSimple C tn rn signed) start h) {c : Chr} {l : Key}
    (hf : LandFed (p.cfgSimple C tn rn signed) start c l h) {truth : Key → G} (ho : ∀ x ∈ robotOdom (p.cfgSimple C tn rn signed) c h, Near E tn rn η ρ truth x)
    (hR : Rot (robotOdom (p.cfgSimple C tn rn signed) c h)) {M : Nat} (hM : (robotOdom (p.cfgSimple C tn rn signed) c h).length + 2 ≤ M)
    (hsp : chr l ∈ p.special) (hn : ∀ x ∈ lmSoFar (p.cfgSimple C tn rn signed) l h, chr x.2.k1 ∉ p.special ∧ Rot [x.2] ∧
      (Near E tn rn η ρ truth x.2 ∨ Gross E tn rn (M * (p.distT + η)) (M * (p.distR + ρ)) truth x.2))
    (more : (observed s l).length < 2 * ((observed s l).filter fun x => decide (Near E tn rn η ρ truth x)).length) :
    (acceptedOf s l).Perm ((observed s l).filter fun x => decide (Near E tn rn η ρ truth x)) := by
  have hrej : (p.cfgSimple C tn rn signed).rejection = true := by simp [Params.cfgSimple, Params.cfg, hm]
  have hs := node_startFree (C := C) tn rn p.odomT p.odomR p.distT p.distR
  have mem : ∀ b ∈ observed s l, ∃ x ∈ lmSoFar (p.cfgSimple C tn rn signed) l h, x.2 = b := fun b hb => by
    obtain ⟨m0, bs, _, _, h3, e⟩ := landFold_since (p.cfgSimple C tn rn signed) (lk (p.cfgSimple C tn rn signed) s.pcm) l (lmSoFar (p.cfgSimple C tn rn signed) l h)
    have hb : b ∈ (lmOf s.pcm l).factors := hb
    rw [(r.landState hrej hs hf).1, e, growLms_factors] at hb
    exact h3 b hb
  have all : ∀ b ∈ observed s l, b.k1 ≠ l ∧ b.k2 = l ∧ chr b.k1 = c ∧ OnChain (p.cfgSimple C tn rn signed) start h b.k1 ∧ Rot [b] ∧
      (Near E tn rn η ρ truth b ∨ Gross E tn rn (M * (p.distT + η)) (M * (p.distR + ρ)) truth b) := fun b hb => by
    obtain ⟨x, hx, rfl⟩ := mem b hb
    obtain ⟨n1, n2⟩ := hn x hx
    obtain ⟨f1, f2⟩ := LandFed.fine hf x hx
    have n1' : chr x.2.k1 ∉ (p.cfgSimple C tn rn signed).special := n1
    unfold landmarkOf at f1
    rw [if_neg n1'] at f1
    exact ⟨fun e => n1 (by rw [e]; exact hsp), f1, (f2 n1').1, (f2 n1').2, n2⟩
  have fw : Fwd l (observed s l) := fun b hb => (all b hb).1
  have val : ∀ {i j : Nat} {x y : Btw G (GNoise C)}, i < j → (observed s l)[i]? = some x → (observed s l)[j]? = some y →
      (ObsAgree s l i j ↔ landVerdict (p.cfgSimple C tn rn signed) (lk (p.cfgSimple C tn rn signed) s.pcm) x y = true) := fun {i j x y} hij ex ey => by
    obtain ⟨v, sy⟩ := land_judged hs hrej r hf fw hij ex ey
    unfold ObsAgree
    rw [Nat.max_eq_right (Nat.le_of_lt hij), Nat.min_eq_left (Nat.le_of_lt hij), sy, v]
    exact ⟨fun q => q.2.2.2, fun q => ⟨(List.getElem?_eq_some_iff.1 ex).1, (List.getElem?_eq_some_iff.1 ey).1, Nat.ne_of_lt hij, q⟩⟩
  have symm : ∀ {i j : Nat}, ObsAgree s l i j → ObsAgree s l j i := fun ⟨a1, a2, a3, a4⟩ => ⟨a2, a1, a3.symm, by rw [Nat.max_comm, Nat.min_comm]; exact a4⟩
  have good : ∀ {i j : Nat} {x y : Btw G (GNoise C)}, i < j → (observed s l)[i]? = some x → (observed s l)[j]? = some y →
      Near E tn rn η ρ truth x → Near E tn rn η ρ truth y → ObsAgree s l i j := fun {i j x y} hij ex ey nx ny => by
    obtain ⟨_, x2, x3, x4, _⟩ := all _ (List.mem_of_getElem? ex)
    obtain ⟨_, y2, y3, y4, _⟩ := all _ (List.mem_of_getElem? ey)
    rw [val hij ex ey, ← landCheck_val (near_land p signed hm hE ht hr h0' h1 h2 r hc ho x3 y3 x4 y4 (x2.trans y2.symm) nx ny)]
  have bad : ∀ {i j : Nat} {x y : Btw G (GNoise C)}, (observed s l)[i]? = some x → (observed s l)[j]? = some y →
      Near E tn rn η ρ truth x → ¬ Near E tn rn η ρ truth y → ¬ ObsAgree s l i j := fun {i j x y} ex ey nx ny ag => by
    obtain ⟨_, x2, x3, x4, x5, _⟩ := all _ (List.mem_of_getElem? ex)
    obtain ⟨_, y2, y3, y4, y5, y6⟩ := all _ (List.mem_of_getElem? ey)
    have gy := y6.resolve_left ny
    have g := gross_land p signed hm hE ht hr h0 h0' (h0.trans h1.le) (h0'.trans h2.le) r hc ho hR x5 y5 x3 y3 x4 y4 hM (x2.trans y2.symm) nx gy
    rcases Nat.lt_trichotomy i j with q | q | q
    · refine g.1 ?_
      have := landCheck_of (cfg := p.cfgSimple C tn rn signed) (s := s) nx.1 gy.1
      rwa [(val q ex ey).1 ag] at this
    · exact ag.2.2.1 q
    · refine g.2 ?_
      have := landCheck_of (cfg := p.cfgSimple C tn rn signed) (s := s) gy.1 nx.1
      rwa [(val q ey ex).1 (symm ag)] at this
  have lead : ObsLeadingGroup s l (positions (fun x => decide (Near E tn rn η ρ truth x)) (observed s l)) := by
    refine ⟨⟨nodup_positions _ _, fun i hi => ?_, fun i hi j hj hij => ?_⟩, fun i hi j hij => ?_, fun m hmg hd => ?_⟩
    · obtain ⟨x, hx, _⟩ := mem_positions.1 hi
      exact (List.getElem?_eq_some_iff.1 hx).1
    · obtain ⟨x, ex, nx⟩ := mem_positions.1 hi
      obtain ⟨y, ey, ny⟩ := mem_positions.1 hj
      rcases Nat.lt_or_gt_of_ne hij with q | q
      · exact good q ex ey (of_decide_eq_true nx) (of_decide_eq_true ny)
      · exact symm (good q ey ex (of_decide_eq_true ny) (of_decide_eq_true nx))
    · obtain ⟨x, ex, nx⟩ := mem_positions.1 hi
      have ey := List.getElem?_eq_getElem hij.2.1
      by_contra hj
      refine bad ex ey (of_decide_eq_true nx) (fun ny => hj (mem_positions.2 ⟨_, ey, decide_eq_true ny⟩)) hij
    · have b1 : m.length ≤ (positions (fun x => !decide (Near E tn rn η ρ truth x)) (observed s l)).length :=
        length_le_of_nodup_subset hmg.1 fun i hi => mem_positions.2 ⟨_, List.getElem?_eq_getElem (hmg.2.1 i hi), by
          have := hd i hi
          rw [mem_positions] at this
          by_contra q
          exact this ⟨_, List.getElem?_eq_getElem (hmg.2.1 i hi), by simpa using q⟩⟩
      rw [positions_length] at b1 ⊢
      have b2 := List.length_eq_length_filter_add (l := observed s l) (fun x => decide (Near E tn rn η ρ truth x))
      omega
  obtain ⟨idx, hp, ha⟩ := C74_observations hrej r fw lead
  have h3 : ((acceptedOf s l).map some).Perm (((observed s l).filter fun x => decide (Near E tn rn η ρ truth x)).map some) := by
    rw [ha, ← positions_map]
    exact hp.map _
  exact (List.map_perm_map_iff (Option.some_injective _)).1 h3

section
open Plane

/-- `erring`, with a wrong closure between the robots, one within robot `a`, and a wrong observation. -/
def erringMore : List (Op Pose Plane.Ns) := erringAndWrong ++ [.update [measuredF (Demo.b 1) (Demo.l 0) (tr (-12) 0)] [] true]

instance (α β : ℚ) (x : Btw Pose Plane.Ns) : Decidable (Gross Shift ceilLen ang α β trulyAt x) := by
  unfold Gross; infer_instance

instance (α β : ℚ) (a b : Chr) (x : Btw Pose Plane.Ns) : Decidable (GrossFrom Shift ceilLen ang α β trulyAt a b x) := by
  unfold GrossFrom Gross; infer_instance

theorem rot_all {L : List (Btw Pose Plane.Ns)} (h : (L.all fun b => b.noise.all fun n => !n.rotNaN) = true) : Rot L := fun b hb n e => by
  have := List.all_eq_true.1 h b hb
  rw [e] at this
  simpa using this

set_option maxRecDepth 100000 in
/-- The hypotheses of `C101_majority`, `C101_observations` and `C101_unregistered` are met by a run with robots that turn, and their conclusions are seen in it. -/
example : ∃ s, ReachOk (shiftP.cfgSimple Unit ceilLen ang true) Plane.env erringMore s ∧ (registered s ⟨97, 98⟩).length = 4 ∧ (selected s ⟨97, 98⟩).length = 3 ∧
    (observed s (Demo.l 0)).length = 3 ∧ (acceptedOf s (Demo.l 0)).length = 2 ∧
    (selected s ⟨97, 98⟩).Perm ((pairGroups (shiftP.cfgSimple Unit ceilLen ang true) 97 98 erringMore).flatten.filter fun x => decide (NearFrom Shift ceilLen ang 1 0 trulyAt 97 98 x)) ∧
    (acceptedOf s (Demo.l 0)).Perm ((observed s (Demo.l 0)).filter fun x => decide (Near Shift ceilLen ang 1 0 trulyAt x)) ∧
    measured (Demo.a 0) (Demo.a 1) (tr 0 40) ∉ registered s ⟨97, 97⟩ := by
  obtain ⟨s, r, hs⟩ := Demo.runs_reach (cfg := shiftP.cfgSimple Unit ceilLen ang true) (env := Plane.env) (ops := erringMore)
    (P := fun s => decide ((registered s ⟨97, 98⟩).length = 4 ∧ (selected s ⟨97, 98⟩).length = 3 ∧ (observed s (Demo.l 0)).length = 3 ∧ (acceptedOf s (Demo.l 0)).length = 2 ∧
      ((observed s (Demo.l 0)).filter fun x => decide (Near Shift ceilLen ang 1 0 trulyAt x)).length = 2)) (by decide +kernel)
  obtain ⟨s1, s2, s3, s4, s5⟩ := of_decide_eq_true hs
  have hm : ∀ op ∈ erringMore, ¬ Removes op := by
    intro op ho
    simp [erringMore, erringAndWrong, erring] at ho
    rcases ho with rfl | rfl | rfl | rfl | rfl | rfl | rfl | rfl | rfl | rfl | rfl <;> exact id
  have hc : Chains (shiftP.cfgSimple Unit ceilLen ang true) (fun c => symKey c 0) erringMore := chains_of (by decide +kernel)
  have ho : OnOdometry (shiftP.cfgSimple Unit ceilLen ang true) (fun c => symKey c 0) erringMore := onOdometry_of (by decide +kernel)
  have hk : KeysKnown (shiftP.cfgSimple Unit ceilLen ang true) erringMore := keysKnown_of (by decide +kernel)
  have hob : OneObserver (shiftP.cfgSimple Unit ceilLen ang true) (fun _ => 98) erringMore := by unfold OneObserver; decide +kernel
  have odo : ∀ c, c = 97 ∨ c = 98 → ∀ x ∈ robotOdom (shiftP.cfgSimple Unit ceilLen ang true) c erringMore, Near Shift ceilLen ang 1 0 trulyAt x := by
    rintro c (rfl | rfl) <;> decide +kernel
  have hR : ∀ c, c = 97 ∨ c = 98 → Rot (robotOdom (shiftP.cfgSimple Unit ceilLen ang true) c erringMore) := by
    rintro c (rfl | rfl) <;> exact rot_all (by decide +kernel)
  have lm : ∀ x ∈ lmSoFar (shiftP.cfgSimple Unit ceilLen ang true) (Demo.l 0) erringMore, chr x.2.k1 ∉ shiftP.special ∧ ([x.2].all fun b => b.noise.all fun n => !n.rotNaN) = true ∧
      (Near Shift ceilLen ang 1 0 trulyAt x.2 ∨ Gross Shift ceilLen ang (3 * (shiftP.distT + 1)) (3 * (shiftP.distR + 0)) trulyAt x.2) := by decide +kernel
  refine ⟨s, r, s1, s2, s3, s4, ?_, ?_, ?_⟩
  · have e : ((pairGroups (shiftP.cfgSimple Unit ceilLen ang true) 97 98 erringMore).flatten.filter fun x => decide (NearFrom Shift ceilLen ang 1 0 trulyAt 97 98 x)).length = 3 ∧
        (pairGroups (shiftP.cfgSimple Unit ceilLen ang true) 97 98 erringMore).flatten.length = 4 := by decide +kernel
    have := C101_majority shiftP true (by decide) shift_kind ceilLen_sizes ang_sizes (η := 1) (ρ := 0) (by decide +kernel) le_rfl (by decide +kernel) (by decide +kernel) (by decide +kernel) r hc
      (pairFed_global (a := 97) (b := 98) hc ho hk hm (by decide) (by decide)) odo hR (rot_all (by decide +kernel)) (M := 5) (by decide +kernel) (by decide +kernel) (by
        rw [e.2]
        refine lt_of_lt_of_eq (by decide : 4 < 2 * 3) ?_
        rw [← e.1]
        congr 3
        funext x
        congr)
    convert this
  · have := C101_observations shiftP true (by decide) shift_kind ceilLen_sizes ang_sizes (η := 1) (ρ := 0) (by decide +kernel) le_rfl (by decide +kernel) (by decide +kernel) r hc
      (landFed_global hc ho hk hob (Demo.l 0)) (odo 98 (Or.inr rfl)) (hR 98 (Or.inr rfl)) (M := 3) (by decide +kernel) (by decide +kernel)
      (fun x hx => ⟨(lm x hx).1, rot_all (lm x hx).2.1, (lm x hx).2.2⟩) (by
        rw [s3]
        refine lt_of_lt_of_eq (by decide : 3 < 2 * 2) ?_
        rw [← s5]
        congr 3
        funext x
        congr)
    convert this
  · exact C101_unregistered shiftP true (by decide) shift_kind ceilLen_sizes ang_sizes (η := 1) (ρ := 0) (by decide +kernel) le_rfl (by decide +kernel) (by decide +kernel) (by decide +kernel) r hc
      (pairFed_global (a := 97) (b := 97) hc ho hk hm (by decide) (by decide)) (odo 97 (Or.inl rfl)) (hR 97 (Or.inl rfl)) (M := 3) (by decide +kernel) (rot_all (by decide +kernel))
      (by decide +kernel)

/-- Four exact steps, then a closure that is wrong by 8. -/
def diluted : List (Op Pose Plane.Ns) :=
  [.update [edge (Demo.a 0) (Demo.a 1) (tr 1 0)] [pose (Demo.a 0) 1, pose (Demo.a 1) 1] true, .update [edge (Demo.a 1) (Demo.a 2) (tr 1 0)] [pose (Demo.a 2) 1] true,
   .update [edge (Demo.a 2) (Demo.a 3) (tr 1 0)] [pose (Demo.a 3) 1] true, .update [edge (Demo.a 3) (Demo.a 4) (tr 1 0)] [pose (Demo.a 4) 1] true,
   .update [edge (Demo.a 0) (Demo.a 4) (tr 12 0)] [] true]

set_option maxRecDepth 100000 in
/-- The factor M is needed: the mismatch is averaged over the loop, so a closure whose error is four times the threshold is accepted if the loop is long, although the odometry
is exact. -/
theorem C101_false_diluted : ∃ s, ReachOk (shiftP.cfgSimple Unit ceilLen ang true) Plane.env diluted s ∧ shiftP.odomT = 2 ∧
    (∀ x ∈ robotOdom (shiftP.cfgSimple Unit ceilLen ang true) 97 diluted, errorOf (fun k => tr ((index k).toNat : ℚ) 0) x = 1) ∧
    ceilLen (errorOf (fun k => tr ((index k).toNat : ℚ) 0) (btw (Demo.a 0) (Demo.a 4) (tr 12 0))) = 4 * shiftP.odomT ∧
    edge (Demo.a 0) (Demo.a 4) (tr 12 0) ∈ s.nfg := by
  obtain ⟨s, r, hs⟩ := Demo.runs_reach (cfg := shiftP.cfgSimple Unit ceilLen ang true) (env := Plane.env) (ops := diluted)
    (P := fun s => decide (edge (Demo.a 0) (Demo.a 4) (tr 12 0) ∈ s.nfg)) (by decide +kernel)
  exact ⟨s, r, by decide +kernel, by decide +kernel, by decide +kernel, of_decide_eq_true hs⟩

end

end RPGO.Props
