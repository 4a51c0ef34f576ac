import Verif.Props.Arrival
import Verif.Props.Robust
import Verif.Props.Looser
import Verif.Props.Restart
import Verif.Props.LandMatrix
import Verif.Props.Plane
import Verif.Props.OwnAxes
import Verif.Props.Modes
/-
C100: measurements whose errors are below the thresholds are kept.
-/

namespace RPGO.Spec
variable {G C K T N : Type} [Group G]

/-- A kind of errors: closed under composition, inversion and change of the place from which they are seen. -/
structure Kind (E : G → Prop) : Prop where
  one : E 1
  mul : ∀ a b, E a → E b → E (a * b)
  inv : ∀ a, E a → E a⁻¹
  conj : ∀ x a, E a → E (x * a * x⁻¹)

/-- `f` measures the size of errors of the kind `E`, and does so alike from everywhere. -/
structure Sizes [Field K] [LinearOrder K] (E : G → Prop) (f : G → K) : Prop where
  one : f 1 = 0
  mul : ∀ a b, E a → E b → f (a * b) ≤ f a + f b
  inv : ∀ a, E a → f a⁻¹ = f a
  conj : ∀ x a, E a → f (x * a * x⁻¹) = f a

/-- The error of a measurement, if `truth` are the true poses. -/
def errorOf (truth : Key → G) (b : Btw G N) : G := (truth b.k2)⁻¹ * truth b.k1 * b.m

/-- The measurement has Gaussian noise, and its error is of the kind `E` and at most `η` (translation) and `ρ` (rotation). -/
def Near [Field K] [LinearOrder K] (E : G → Prop) (tn rn : G → K) (η ρ : K) (truth : Key → G) (b : Btw G N) : Prop :=
  b.noise.isSome ∧ E (errorOf truth b) ∧ tn (errorOf truth b) ≤ η ∧ rn (errorOf truth b) ≤ ρ

/-- `Near`, and from robot `a` to robot `b`. -/
def NearFrom [Field K] [LinearOrder K] (E : G → Prop) (tn rn : G → K) (η ρ : K) (truth : Key → G) (a b : Chr) (x : Btw G N) : Prop :=
  Near E tn rn η ρ truth x ∧ chr x.k1 = a ∧ chr x.k2 = b

end RPGO.Spec

namespace RPGO
open Spec

section
variable {G C K N : Type} [Group G] [Field K] [LinearOrder K] [IsStrictOrderedRing K]

/-- `g` leads from `u` to `v` up to `n` errors. -/
structure Walk (E : G → Prop) (tn rn : G → K) (η ρ : K) (u v : G) (n : Nat) (g : G) : Prop where
  kind : E (v⁻¹ * u * g)
  tr : tn (v⁻¹ * u * g) ≤ n * η
  ro : rn (v⁻¹ * u * g) ≤ n * ρ

variable {E : G → Prop} {tn rn : G → K} {η ρ : K} (hE : Kind E) (ht : Sizes E tn) (hr : Sizes E rn)
include hE ht hr

theorem Walk.refl (u : G) : Walk E tn rn η ρ u u 0 1 := by
  refine ⟨?_, ?_, ?_⟩
  · simpa using hE.one
  · simp [ht.one]
  · simp [hr.one]

theorem Walk.mul {u v w : G} {m n : Nat} {g g' : G} (a : Walk E tn rn η ρ u v m g) (b : Walk E tn rn η ρ v w n g') :
    Walk E tn rn η ρ u w (m + n) (g * g') := by
  have e : w⁻¹ * u * (g * g') = ((w⁻¹ * v) * (v⁻¹ * u * g) * (w⁻¹ * v)⁻¹) * (w⁻¹ * v * g') := by group
  have k := hE.conj (w⁻¹ * v) _ a.kind
  refine ⟨?_, ?_, ?_⟩
  · rw [e]; exact hE.mul _ _ k b.kind
  · rw [e]
    refine (ht.mul _ _ k b.kind).trans ?_
    rw [ht.conj _ _ a.kind]
    have := add_le_add a.tr b.tr
    push_cast; linarith
  · rw [e]
    refine (hr.mul _ _ k b.kind).trans ?_
    rw [hr.conj _ _ a.kind]
    have := add_le_add a.ro b.ro
    push_cast; linarith

theorem Walk.inv {u v : G} {n : Nat} {g : G} (a : Walk E tn rn η ρ u v n g) : Walk E tn rn η ρ v u n g⁻¹ := by
  have e : u⁻¹ * v * g⁻¹ = (u⁻¹ * v) * (v⁻¹ * u * g)⁻¹ * (u⁻¹ * v)⁻¹ := by group
  have k := hE.inv _ a.kind
  refine ⟨?_, ?_, ?_⟩
  · rw [e]; exact hE.conj _ _ k
  · rw [e, ht.conj _ _ k, ht.inv _ a.kind]; exact a.tr
  · rw [e, hr.conj _ _ k, hr.inv _ a.kind]; exact a.ro

omit hE ht hr in
theorem Near.walk {truth : Key → G} {b : Btw G N} (h : Near E tn rn η ρ truth b) : Walk E tn rn η ρ (truth b.k1) (truth b.k2) 1 b.m :=
  ⟨h.2.1, by rw [Nat.cast_one, one_mul]; exact h.2.2.1, by rw [Nat.cast_one, one_mul]; exact h.2.2.2⟩

theorem Walk.chain {truth : Key → G} {L : List (Btw G N)} {k : Key} (hc : Chain k L) (hn : ∀ b ∈ L, Near E tn rn η ρ truth b) :
    Walk E tn rn η ρ (truth k) (truth (after k L.length)) L.length (measProd L) := by
  induction L generalizing k with
  | nil => simpa [measProd, after] using Walk.refl hE ht hr (truth k)
  | cons b L ih =>
    obtain ⟨e1, e2, hc⟩ := hc
    have a := Near.walk (hn b (by simp))
    rw [e1, e2] at a
    have := Walk.mul hE ht hr a (ih hc fun x hx => hn x (by simp [hx]))
    have ek : after (k + 1) L.length = after k (b :: L).length := by
      unfold after
      rw [List.length_cons, BitVec.ofNat_add, BitVec.add_assoc, BitVec.add_comm (BitVec.ofNat 64 L.length)]
      rfl
    rw [ek, Nat.add_comm] at this
    simpa [measProd] using this

omit [Group G] [Field K] [LinearOrder K] [IsStrictOrderedRing K] hE ht hr in
theorem Chain.drop {k : Key} {L : List (Btw G N)} (hc : Chain k L) (i : Nat) (hi : i ≤ L.length) : Chain (after k i) (L.drop i) := by
  induction i generalizing k L with
  | zero => simpa [after] using hc
  | succ i ih =>
    cases L with
    | nil => simp at hi
    | cons b L =>
      have := ih hc.2.2 (by simpa using hi)
      have ek : after (k + 1) i = after k (i + 1) := by
        unfold after
        rw [BitVec.ofNat_add, BitVec.add_assoc, BitVec.add_comm (BitVec.ofNat 64 i)]
        rfl
      rw [ek] at this
      simpa using this

theorem Walk.rel {truth : Key → G} {L : List (Btw G N)} {k : Key} (hc : Chain k L) (hn : ∀ b ∈ L, Near E tn rn η ρ truth b) {i j : Nat}
    (hi : i ≤ L.length) (hj : j ≤ L.length) : Walk E tn rn η ρ (truth (after k i)) (truth (after k j)) (hops i j) (Spec.rel L i j) := by
  have key : ∀ i j, i ≤ j → j ≤ L.length → Walk E tn rn η ρ (truth (after k i)) (truth (after k j)) (j - i) (measProd (seg L i j)) := by
    intro i j hij hj
    have c1 : Chain k (L.take j) := by
      refine Chain.prefix (cs := L.drop j) ?_
      rw [List.take_append_drop]; exact hc
    have c2 := Chain.drop c1 i (by rw [List.length_take]; omega)
    have := Walk.chain hE ht hr c2 (fun b hb => hn b (List.mem_of_mem_take (List.mem_of_mem_drop hb)))
    have el : ((L.take j).drop i).length = j - i := by rw [List.length_drop, List.length_take]; omega
    rw [el] at this
    have ek : after (after k i) (j - i) = after k j := by
      unfold after
      rw [BitVec.add_assoc, ← BitVec.ofNat_add]
      congr 2; omega
    rw [ek] at this
    exact this
  unfold Spec.rel hops
  split
  · next h =>
    have := key i j h hj
    have e : i - j = 0 := by omega
    rwa [e, Nat.add_zero]
  · next h =>
    have := Walk.inv hE ht hr (key j i (by omega) hi)
    have e : j - i = 0 := by omega
    rwa [e, Nat.zero_add]

omit hE ht hr in
theorem Walk.below {u g : G} {n : Nat} (w : Walk E tn rn η ρ u u (n + 1) g) {t r : K} (h1 : η < t) (h2 : ρ < r) (h0 : 0 ≤ ρ) (P : Prop) :
    Spec.Below tn rn t r g (n + 1) P := by
  have k1 := w.tr
  have k2 := w.ro
  rw [inv_mul_cancel, one_mul] at k1 k2
  have pos : (0 : K) < ((n + 1 : Nat) : K) := by exact_mod_cast Nat.succ_pos n
  refine ⟨?_, fun _ => ?_, fun _ => lt_of_le_of_lt h0 h2⟩
  · rw [div_lt_iff₀ pos]
    refine lt_of_le_of_lt k1 ?_
    rw [mul_comm]; exact mul_lt_mul_of_pos_right h1 pos
  · rw [div_lt_iff₀ pos]
    refine lt_of_le_of_lt k2 ?_
    rw [mul_comm]; exact mul_lt_mul_of_pos_right h2 pos

end

section
variable {G C K : Type} [Group G] [Field K] [LinearOrder K] [IsStrictOrderedRing K] {E : G → Prop} {tn rn : G → K} {η ρ : K}

/-- A closure within one robot that is near the truth passes the odometry check. -/
theorem near_odometry (p : Params K) (signed : Bool) (hm : p.method ≠ .none) (hE : Kind E) (ht : Sizes E tn) (hr : Sizes E rn) (h0 : 0 ≤ ρ)
    (h1 : η < p.odomT) (h2 : ρ < p.odomR) {env : Env G (GNoise C)} {h : List (Op G (GNoise C))} {s : St G (PNode G) (GNoise C)}
    (r : ReachOk (p.cfgSimple C tn rn signed) env h s) {start : Chr → Key} (hc : Chains (p.cfgSimple C tn rn signed) start h) {truth : Key → G} {c : Chr}
    (ho : ∀ x ∈ robotOdom (p.cfgSimple C tn rn signed) c h, Near E tn rn η ρ truth x) {b : Btw G (GNoise C)}
    (c1 : chr b.k1 = c) (c2 : chr b.k2 = c) (o1 : OnChain (p.cfgSimple C tn rn signed) start h b.k1) (o2 : OnChain (p.cfgSimple C tn rn signed) start h b.k2)
    (hb : Near E tn rn η ρ truth b) : OdomCheck (p.cfgSimple C tn rn signed) s b true := by
  obtain ⟨i, hi, ei⟩ := o1
  obtain ⟨j, hj, ej⟩ := o2
  rw [c1] at hi ei
  rw [c2] at hj ej
  obtain ⟨v, hv, iff⟩ := Props.C50_odometry_check p tn rn signed hm r hc rfl (b := b) ⟨c1, hi, ei⟩ ⟨c2, hj, ej⟩ hb.1
  have w := Walk.mul hE ht hr (Walk.rel hE ht hr (hc c).2.1 ho hi hj) (by
    have := Walk.inv hE ht hr (Near.walk hb)
    rw [ei, ej] at this
    exact this)
  rw [show v = true from iff.2 (Or.inr (w.below h1 h2 h0 _))] at hv
  exact hv

/-- Two closures from robot `a` to robot `b` that are near the truth pass the pairwise check. -/
theorem near_pair (p : Params K) (signed : Bool) (hm : p.method ≠ .none) (hE : Kind E) (ht : Sizes E tn) (hr : Sizes E rn) (h0 : 0 ≤ ρ)
    (h1 : η < p.distT) (h2 : ρ < p.distR) {env : Env G (GNoise C)} {h : List (Op G (GNoise C))} {s : St G (PNode G) (GNoise C)}
    (r : ReachOk (p.cfgSimple C tn rn signed) env h s) {start : Chr → Key} (hc : Chains (p.cfgSimple C tn rn signed) start h) {truth : Key → G} {a b : Chr}
    (ho : ∀ c, c = a ∨ c = b → ∀ x ∈ robotOdom (p.cfgSimple C tn rn signed) c h, Near E tn rn η ρ truth x) {x y : Btw G (GNoise C)}
    (ox : OnChain (p.cfgSimple C tn rn signed) start h x.k1 ∧ OnChain (p.cfgSimple C tn rn signed) start h x.k2)
    (oy : OnChain (p.cfgSimple C tn rn signed) start h y.k1 ∧ OnChain (p.cfgSimple C tn rn signed) start h y.k2)
    (hx : NearFrom E tn rn η ρ truth a b x) (hy : NearFrom E tn rn η ρ truth a b y) : PairCheck (p.cfgSimple C tn rn signed) s x y true := by
  obtain ⟨hx, x1, x2⟩ := hx
  obtain ⟨hy, y1, y2⟩ := hy
  obtain ⟨⟨i, hi, ei⟩, j, hj, ej⟩ := ox
  obtain ⟨⟨k, hk, ek⟩, l, hl, el⟩ := oy
  rw [x1] at hi ei
  rw [x2] at hj ej
  rw [y1] at hk ek
  rw [y2] at hl el
  obtain ⟨v, hv, iff⟩ := Props.C51_pairwise_check p tn rn signed hm r hc rfl rfl (x := x) (y := y) ⟨x1, hi, ei⟩ ⟨x2, hj, ej⟩ ⟨y1, hk, ek⟩ ⟨y2, hl, el⟩ hx.1 hy.1
  have wx := Near.walk hx
  have wy := Near.walk hy
  rw [ei, ej] at wx
  rw [ek, el] at wy
  have w := Walk.mul hE ht hr (Walk.mul hE ht hr (Walk.inv hE ht hr (Walk.mul hE ht hr (Walk.rel hE ht hr (hc a).2.1 (ho a (Or.inl rfl)) hi hk) wy)) wx)
    (Walk.rel hE ht hr (hc b).2.1 (ho b (Or.inr rfl)) hj hl)
  have en : hops i k + 1 + 1 + hops j l = (hops i k + hops j l + 1) + 1 := by omega
  rw [en] at w
  rw [show v = true from iff.2 (Or.inr (w.below h1 h2 h0 _))] at hv
  exact hv

/-- Two observations of a landmark that are near the truth pass the check. -/
theorem near_land (p : Params K) (signed : Bool) (hm : p.method ≠ .none) (hE : Kind E) (ht : Sizes E tn) (hr : Sizes E rn) (h0 : 0 ≤ ρ)
    (h1 : η < p.distT) (h2 : ρ < p.distR) {env : Env G (GNoise C)} {h : List (Op G (GNoise C))} {s : St G (PNode G) (GNoise C)}
    (r : ReachOk (p.cfgSimple C tn rn signed) env h s) {start : Chr → Key} (hc : Chains (p.cfgSimple C tn rn signed) start h) {truth : Key → G} {c : Chr}
    (ho : ∀ x ∈ robotOdom (p.cfgSimple C tn rn signed) c h, Near E tn rn η ρ truth x) {x y : Btw G (GNoise C)}
    (cx : chr x.k1 = c) (cy : chr y.k1 = c) (ox : OnChain (p.cfgSimple C tn rn signed) start h x.k1) (oy : OnChain (p.cfgSimple C tn rn signed) start h y.k1)
    (e : x.k2 = y.k2) (hx : Near E tn rn η ρ truth x) (hy : Near E tn rn η ρ truth y) : LandCheck (p.cfgSimple C tn rn signed) s x y true := by
  obtain ⟨i, hi, ei⟩ := ox
  obtain ⟨j, hj, ej⟩ := oy
  rw [cx] at hi ei
  rw [cy] at hj ej
  obtain ⟨v, hv, iff⟩ := Props.C52_check_partial p tn rn signed hm r hc rfl (x := x) (y := y) ⟨cx, hi, ei⟩ ⟨cy, hj, ej⟩ hx.1 hy.1
  have wx := Near.walk hx
  have wy := Near.walk hy
  rw [ei, e] at wx
  rw [ej] at wy
  have w := Walk.mul hE ht hr (Walk.inv hE ht hr (Walk.mul hE ht hr (Walk.rel hE ht hr (hc c).2.1 ho hi hj) wy)) wx
  rw [show v = true from iff.2 (w.below h1 h2 h0 _)] at hv
  exact hv

end

section
variable {G T N : Type}

/-- After the last restart, the observations were added one by one. -/
theorem landFold_since [Mul G] [Inv G] [One G] (cfg : Cfg G T N) (f : Chr → Key → T) (l : Key) (xs : List (Bool × Btw G N)) :
    ∃ (m0 : Meas G N) (bs : List (Btw G N)), LmSound m0 ∧ m0.factors.length ≤ 1 ∧ (∀ b ∈ m0.factors ++ bs, ∃ x ∈ xs, x.2 = b) ∧
      xs.foldl (landStep cfg f l) Meas.empty = bs.foldl (fun m b => growLm cfg f l b m) m0 := by
  induction xs using List.reverseRecOn with
  | nil => exact ⟨Meas.empty, [], LmSound.empty, Nat.zero_le _, by simp [Meas.empty], rfl⟩
  | append_singleton xs x ih =>
    obtain ⟨m0, bs, h1, h2, h3, e⟩ := ih
    rw [List.foldl_append, List.foldl_cons, List.foldl_nil, e]
    by_cases hx : x.1 = true
    · exact ⟨⟨[x.2], [x.2], Mat.zero 1⟩, [], LmSound.first x.2, Nat.le_refl _, fun b hb => ⟨x, by simp, by simpa [eq_comm] using hb⟩, by simp [landStep, hx]⟩
    · refine ⟨m0, bs ++ [x.2], h1, h2, fun b hb => ?_, by simp [landStep, hx]⟩
      rw [← List.append_assoc] at hb
      rcases List.mem_append.1 hb with hb | hb
      · obtain ⟨y, hy, ey⟩ := h3 b hb
        exact ⟨y, by simp [hy], ey⟩
      · exact ⟨x, by simp, by simpa [eq_comm] using hb⟩

theorem growLms_factors (cfg : Cfg G T N) (f : Chr → Key → T) (l : Key) (bs : List (Btw G N)) (m : Meas G N) :
    (bs.foldl (fun m b => growLm cfg f l b m) m).factors = m.factors ++ bs := by
  induction bs generalizing m with
  | nil => simp
  | cons b bs ih => rw [List.foldl_cons, ih]; simp [growLm]

/-- The matrix of a landmark in terms of the verdicts of the present trajectory. -/
theorem land_judged [Group G] {cfg : Cfg G T N} (hs : StartFree cfg.ops) {env : Env G N} (hr : cfg.rejection = true)
    {h : List (Op G N)} {s : St G T N} (r : ReachOk cfg env h s) {start : Chr → Key} {c : Chr} {l : Key}
    (hf : LandFed cfg start c l h) (fw : Fwd l (observed s l)) {i j : Nat} (hij : i < j) {x y : Btw G N}
    (hx : (observed s l)[i]? = some x) (hy : (observed s l)[j]? = some y) :
    (landMatrix s l).e i j = landVerdict cfg (lk cfg s.pcm) x y ∧ (landMatrix s l).e j i = (landMatrix s l).e i j := by
  obtain ⟨b1, b2⟩ := r.landState hr hs hf
  obtain ⟨m0, bs, h1, h2, _, e⟩ := landFold_since cfg (lk cfg s.pcm) l (lmSoFar cfg l h)
  rw [e] at b1 b2
  have ff := growLms_factors cfg (lk cfg s.pcm) l bs
  have fw' : Fwd l (m0.factors ++ bs) := by
    rw [← ff, ← b1]; exact fw
  have g := GrownLm.fold cfg (lk cfg s.pcm) l h1 bs fw'
  have hx' : (bs.foldl (fun m b => growLm cfg (lk cfg s.pcm) l b m) m0).factors[i]? = some x := by rw [← b1]; exact hx
  have hy' : (bs.foldl (fun m b => growLm cfg (lk cfg s.pcm) l b m) m0).factors[j]? = some y := by rw [← b1]; exact hy
  have v := g.new i j x y hij (by omega) hx' hy'
  have em : landMatrix s l = (bs.foldl (fun m b => growLm cfg (lk cfg s.pcm) l b m) m0).adj := b2
  rw [em]
  exact ⟨v, g.sound.sym j i (List.getElem?_eq_some_iff.1 hy').1 (List.getElem?_eq_some_iff.1 hx').1⟩

end
end RPGO

namespace RPGO.Props
open Spec
variable {G C K : Type} [Group G] [Field K] [LinearOrder K] [IsStrictOrderedRing K] {E : G → Prop} {tn rn : G → K} {η ρ : K}

open Classical in
/-- C100: a closure whose error, like that of the odometry, is below the thresholds is registered, whatever else is supplied. -/
theorem C100_registered (p : Params K) (signed : Bool) (hm : p.method ≠ .none) (hE : Kind E) (ht : Sizes E tn) (hr : Sizes E rn) (h0 : 0 ≤ ρ)
    (h1 : η < p.odomT) (h2 : ρ < p.odomR) {env : Env G (GNoise C)} {h : List (Op G (GNoise C))} {s : St G (PNode G) (GNoise C)}
    (r : ReachOk (p.cfgSimple C tn rn signed) env h s) {start : Chr → Key} (hc : Chains (p.cfgSimple C tn rn signed) start h) {a b : Chr}
    (hf : PairFed (p.cfgSimple C tn rn signed) start a b h) {truth : Key → G}
    (ho : ∀ c, c = a ∨ c = b → ∀ x ∈ robotOdom (p.cfgSimple C tn rn signed) c h, Near E tn rn η ρ truth x) :
    ((pairGroups (p.cfgSimple C tn rn signed) a b h).flatten.filter fun x => decide (Near E tn rn η ρ truth x)).Sublist (registered s ⟨a, b⟩) := by
  have hrej : (p.cfgSimple C tn rn signed).rejection = true := by simp [Params.cfgSimple, Params.cfg, hm]
  rw [pair_registered (node_startFree tn rn _ _ _ _) hrej r hf]
  refine filter_sub fun x hx nx => ?_
  have nx : Near E tn rn η ρ truth x := of_decide_eq_true nx
  by_cases hd : chr x.k1 = chr x.k2
  · obtain ⟨bs, hbs, hxb⟩ := List.mem_flatten.1 hx
    obtain ⟨g1, op, g2, e, rfl⟩ := mem_pairGroups hbs
    obtain ⟨hcon, o1, o2, _⟩ := PairFed.fine hf e hxb
    have hab : chr x.k1 = a ∧ chr x.k2 = a := by
      unfold connects at hcon
      have := of_decide_eq_true hcon
      rcases this with ⟨u, v⟩ | ⟨u, v⟩
      · exact ⟨u, hd ▸ u⟩
      · exact ⟨hd.trans v, v⟩
    have := near_odometry p signed hm hE ht hr h0 h1 h2 r hc (ho a (Or.inl rfl)) hab.1 hab.2 o1 o2 nx
    rw [← odomCheck_val this]
    simp
  · simp [hd]

open Classical in
/-- C100, with outliers: if the closures from `a` to `b` whose errors are below the thresholds agree with no other closure of the pair and the others contain no equally large set of
agreeing closures, exactly these closures are accepted, each once. -/
theorem C100_outliers (p : Params K) (signed : Bool) (hm : p.method ≠ .none) (hE : Kind E) (ht : Sizes E tn) (hr : Sizes E rn) (h0 : 0 ≤ ρ)
    (h1 : η < p.distT) (h2 : ρ < p.distR) (hl : (p.cfgSimple C tn rn signed).loopCheck = true) {env : Env G (GNoise C)} {h : List (Op G (GNoise C))}
    {s : St G (PNode G) (GNoise C)} (r : ReachOk (p.cfgSimple C tn rn signed) env h s) {start : Chr → Key} (hc : Chains (p.cfgSimple C tn rn signed) start h) {a b : Chr}
    (hf : PairFed (p.cfgSimple C tn rn signed) start a b h) {truth : Key → G}
    (ho : ∀ c, c = a ∨ c = b → ∀ x ∈ robotOdom (p.cfgSimple C tn rn signed) c h, Near E tn rn η ρ truth x)
    (alone : ∀ i j x y, (registered s ⟨a, b⟩)[i]? = some x → (registered s ⟨a, b⟩)[j]? = some y → NearFrom E tn rn η ρ truth a b x →
      ¬ NearFrom E tn rn η ρ truth a b y → ¬ Agree s ⟨a, b⟩ i j)
    (lead : ∀ l, Agreeing s ⟨a, b⟩ l → (∀ i ∈ l, ∀ x, (registered s ⟨a, b⟩)[i]? = some x → ¬ NearFrom E tn rn η ρ truth a b x) →
      l.length < ((registered s ⟨a, b⟩).filter fun x => decide (NearFrom E tn rn η ρ truth a b x)).length) :
    (selected s ⟨a, b⟩).Perm ((registered s ⟨a, b⟩).filter fun x => decide (NearFrom E tn rn η ρ truth a b x)) := by
  have hrej : (p.cfgSimple C tn rn signed).rejection = true := by simp [Params.cfgSimple, Params.cfg, hm]
  have on : ∀ x ∈ registered s ⟨a, b⟩, OnChain (p.cfgSimple C tn rn signed) start h x.k1 ∧ OnChain (p.cfgSimple C tn rn signed) start h x.k2 := fun x hx =>
    have f := registered_fine (node_startFree tn rn _ _ _ _) hrej r hf hx
    ⟨f.2.1, f.2.2.1⟩
  have ef : (registered s ⟨a, b⟩).filter (fun x => decide (NearFrom E tn rn η ρ truth a b x)) = (registered s ⟨a, b⟩).filter (fun x => decide (NearFrom E tn rn η ρ truth a b x ∧
      OnChain (p.cfgSimple C tn rn signed) start h x.k1 ∧ OnChain (p.cfgSimple C tn rn signed) start h x.k2)) := by
    refine List.filter_congr fun x hx => ?_
    have := on x hx
    simp [this]
  have at_ : ∀ {i : Nat} {x : Btw G (GNoise C)}, (registered s ⟨a, b⟩)[i]? = some x → OnChain (p.cfgSimple C tn rn signed) start h x.k1 ∧
      OnChain (p.cfgSimple C tn rn signed) start h x.k2 := fun e => on _ (List.mem_of_getElem? e)
  rw [ef] at lead ⊢
  exact accepted_checked (node_startFree tn rn _ _ _ _) hrej hl r hf
    (P := fun x => NearFrom E tn rn η ρ truth a b x ∧ OnChain (p.cfgSimple C tn rn signed) start h x.k1 ∧ OnChain (p.cfgSimple C tn rn signed) start h x.k2)
    (fun x y _ _ hx hy => near_pair p signed hm hE ht hr h0 h1 h2 r hc ho hx.2 hy.2 hx.1 hy.1)
    (fun i j x y ex ey hx hy => alone i j x y ex ey hx.1 fun q => hy ⟨q, at_ ey⟩)
    (fun l hl hn => lead l hl fun i hi x ex q => hn i hi x ex ⟨q, at_ ex⟩)

/-- C100: if all closures supplied between two robots lead from `a` to `b` and have errors, like the odometry, below the thresholds, all of them are registered and accepted, each once. -/
theorem C100_all_accepted (p : Params K) (signed : Bool) (hm : p.method ≠ .none) (hE : Kind E) (ht : Sizes E tn) (hr : Sizes E rn) (h0 : 0 ≤ ρ)
    (h1 : η < p.odomT ∧ η < p.distT) (h2 : ρ < p.odomR ∧ ρ < p.distR) (hl : (p.cfgSimple C tn rn signed).loopCheck = true) {env : Env G (GNoise C)}
    {h : List (Op G (GNoise C))} {s : St G (PNode G) (GNoise C)} (r : ReachOk (p.cfgSimple C tn rn signed) env h s) {start : Chr → Key}
    (hc : Chains (p.cfgSimple C tn rn signed) start h) {a b : Chr} (hf : PairFed (p.cfgSimple C tn rn signed) start a b h) {truth : Key → G}
    (ho : ∀ c, c = a ∨ c = b → ∀ x ∈ robotOdom (p.cfgSimple C tn rn signed) c h, Near E tn rn η ρ truth x)
    (hn : ∀ x ∈ (pairGroups (p.cfgSimple C tn rn signed) a b h).flatten, NearFrom E tn rn η ρ truth a b x) :
    registered s ⟨a, b⟩ = (pairGroups (p.cfgSimple C tn rn signed) a b h).flatten ∧
      (selected s ⟨a, b⟩).Perm (pairGroups (p.cfgSimple C tn rn signed) a b h).flatten := by
  classical
  have hrej : (p.cfgSimple C tn rn signed).rejection = true := by simp [Params.cfgSimple, Params.cfg, hm]
  have e : registered s ⟨a, b⟩ = (pairGroups (p.cfgSimple C tn rn signed) a b h).flatten := by
    have sub := C100_registered p signed hm hE ht hr h0 h1.1 h2.1 r hc hf ho
    rw [List.filter_eq_self.2 fun x hx => decide_eq_true (hn x hx).1] at sub
    have e1 := pair_registered (node_startFree tn rn _ _ _ _) hrej r hf
    rw [e1] at sub ⊢
    exact List.Sublist.antisymm List.filter_sublist sub
  refine ⟨e, ?_⟩
  rw [← e]
  refine C64_all hrej hl r ⟨a, b⟩ fun i j hi hj hij => ?_
  have key : ∀ i j, i < j → j < (registered s ⟨a, b⟩).length → Agree s ⟨a, b⟩ i j := fun i j hij hj => by
    have hi : i < (registered s ⟨a, b⟩).length := by omega
    refine (agree_of_check (node_startFree tn rn _ _ _ _) hrej hl r hf hij (List.getElem?_eq_getElem hi) (List.getElem?_eq_getElem hj)).2 ?_
    have fi := registered_fine (node_startFree tn rn _ _ _ _) hrej r hf (List.getElem_mem hi)
    have fj := registered_fine (node_startFree tn rn _ _ _ _) hrej r hf (List.getElem_mem hj)
    exact near_pair p signed hm hE ht hr h0 h1.2 h2.2 r hc ho ⟨fi.2.1, fi.2.2.1⟩ ⟨fj.2.1, fj.2.2.1⟩ (hn _ (e ▸ List.getElem_mem hi)) (hn _ (e ▸ List.getElem_mem hj))
  rcases Nat.lt_or_gt_of_ne hij with q | q
  · exact key i j q hj
  · exact Agree.symm (key j i q hi)

/-- C100 for landmarks: if the observations of a landmark, by one robot and from its poses, and the odometry of the robot have errors below the thresholds, all the registered
observations are accepted, each once. -/
theorem C100_observations (p : Params K) (signed : Bool) (hm : p.method ≠ .none) (hE : Kind E) (ht : Sizes E tn) (hr : Sizes E rn) (h0 : 0 ≤ ρ)
    (h1 : η < p.distT) (h2 : ρ < p.distR) {env : Env G (GNoise C)} {h : List (Op G (GNoise C))} {s : St G (PNode G) (GNoise C)}
    (r : ReachOk (p.cfgSimple C tn rn signed) env h s) {start : Chr → Key} (hc : Chains (p.cfgSimple C tn rn signed) start h) {c : Chr} {l : Key}
    (hf : LandFed (p.cfgSimple C tn rn signed) start c l h) {truth : Key → G} (ho : ∀ x ∈ robotOdom (p.cfgSimple C tn rn signed) c h, Near E tn rn η ρ truth x)
    (hsp : chr l ∈ p.special) (hn : ∀ x ∈ lmSoFar (p.cfgSimple C tn rn signed) l h, chr x.2.k1 ∉ p.special ∧ Near E tn rn η ρ truth x.2) : (acceptedOf s l).Perm (observed s l) := by
  have hrej : (p.cfgSimple C tn rn signed).rejection = true := by simp [Params.cfgSimple, Params.cfg, hm]
  have hs := node_startFree (C := C) tn rn p.odomT p.odomR p.distT p.distR
  have mem : ∀ b ∈ observed s l, ∃ x ∈ lmSoFar (p.cfgSimple C tn rn signed) l h, x.2 = b := fun b hb => by
    obtain ⟨m0, bs, _, _, h3, e⟩ := landFold_since (p.cfgSimple C tn rn signed) (lk (p.cfgSimple C tn rn signed) s.pcm) l (lmSoFar (p.cfgSimple C tn rn signed) l h)
    have hb : b ∈ (lmOf s.pcm l).factors := hb
    rw [(r.landState hrej hs hf).1, e, growLms_factors] at hb
    exact h3 b hb
  have all : ∀ b ∈ observed s l, b.k1 ≠ l ∧ b.k2 = l ∧ chr b.k1 = c ∧ OnChain (p.cfgSimple C tn rn signed) start h b.k1 ∧ Near E tn rn η ρ truth b := fun b hb => by
    obtain ⟨x, hx, rfl⟩ := mem b hb
    obtain ⟨n1, n2⟩ := hn x hx
    obtain ⟨f1, f2⟩ := LandFed.fine hf x hx
    have n1' : chr x.2.k1 ∉ (p.cfgSimple C tn rn signed).special := n1
    unfold landmarkOf at f1
    rw [if_neg n1'] at f1
    exact ⟨fun e => n1 (by rw [e]; exact hsp), f1, (f2 n1').1, (f2 n1').2, n2⟩
  have fw : Fwd l (observed s l) := fun b hb => (all b hb).1
  refine C69_all hrej r fw fun i j hi hj hij => ?_
  have key : ∀ i j, i < j → j < (observed s l).length → ObsAgree s l i j := fun i j hij hj => by
    have hi : i < (observed s l).length := by omega
    obtain ⟨v, sy⟩ := land_judged hs hrej r hf fw hij (List.getElem?_eq_getElem hi) (List.getElem?_eq_getElem hj)
    obtain ⟨_, x2, x3, x4, x5⟩ := all _ (List.getElem_mem hi)
    obtain ⟨_, y2, y3, y4, y5⟩ := all _ (List.getElem_mem hj)
    have ck := near_land p signed hm hE ht hr h0 h1 h2 r hc ho x3 y3 x4 y4 (x2.trans y2.symm) x5 y5
    refine ⟨hi, hj, Nat.ne_of_lt hij, ?_⟩
    rw [Nat.max_eq_right (Nat.le_of_lt hij), Nat.min_eq_left (Nat.le_of_lt hij), sy, v, ← landCheck_val ck]
  rcases Nat.lt_or_gt_of_ne hij with q | q
  · exact key i j q hj
  · obtain ⟨a1, a2, a3, a4⟩ := key j i q hi
    exact ⟨a2, a1, a3.symm, by rw [Nat.max_comm, Nat.min_comm]; exact a4⟩

/-- C100: if all closures supplied between two robots that are not ignored lead from `a` to `b` and have errors, like the odometry, below the thresholds, the graph contains all of
them, and all the odometry. -/
theorem C100_nothing_lost (p : Params K) (signed : Bool) (hm : p.method ≠ .none) (hE : Kind E) (ht : Sizes E tn) (hr : Sizes E rn) (h0 : 0 ≤ ρ)
    (h1 : η < p.odomT ∧ η < p.distT) (h2 : ρ < p.odomR ∧ ρ < p.distR) (hl : (p.cfgSimple C tn rn signed).loopCheck = true) {env : Env G (GNoise C)} (he : env.Ok)
    {h : List (Op G (GNoise C))} {s : St G (PNode G) (GNoise C)} (r : ReachOk (p.cfgSimple C tn rn signed) env h s) (hmg : ∀ op ∈ h, Managed op) {start : Chr → Key}
    (hc : Chains (p.cfgSimple C tn rn signed) start h) {a b : Chr} (hf : PairFed (p.cfgSimple C tn rn signed) start a b h)
    (hi : a ∉ getIgnored (p.cfgSimple C tn rn signed) s ∧ b ∉ getIgnored (p.cfgSimple C tn rn signed) s) {truth : Key → G}
    (ho : ∀ c, c = a ∨ c = b → ∀ x ∈ robotOdom (p.cfgSimple C tn rn signed) c h, Near E tn rn η ρ truth x)
    (hn : ∀ x ∈ (pairGroups (p.cfgSimple C tn rn signed) a b h).flatten, NearFrom E tn rn η ρ truth a b x) :
    (∀ x ∈ (pairGroups (p.cfgSimple C tn rn signed) a b h).flatten, some (.btw x) ∈ s.nfg) ∧ ∀ x ∈ odomSoFar (p.cfgSimple C tn rn signed) h, some (.btw x) ∈ s.nfg := by
  have hrej : (p.cfgSimple C tn rn signed).rejection = true := by simp [Params.cfgSimple, Params.cfg, hm]
  obtain ⟨l1, l2, -⟩ := r.lists he hrej hmg
  have hg : getIgnored (p.cfgSimple C tn rn signed) s = s.pcm.ignored := by simp [getIgnored, hrej]
  rw [hg] at hi
  rw [l1]
  refine ⟨fun x hx => ?_, fun x hx => ?_⟩
  · have hx1 := (C100_all_accepted p signed hm hE ht hr h0 h1 h2 hl r hc hf ho hn).2.mem_iff.2 hx
    have e := lcPart_pair he hrej r.reach a b
    rw [if_pos (by simp [hi.1, hi.2])] at e
    rw [← e] at hx1
    have hx2 := (List.mem_filter.1 hx1).1
    unfold lcPart at hx2
    obtain ⟨y, hy, hxy⟩ := List.mem_flatMap.1 hx2
    unfold buildGraph
    refine List.mem_append_left _ (List.mem_append_right _ (List.mem_flatMap.2 ⟨y, hy, ?_⟩))
    split at hxy
    · rename_i q
      rw [if_pos q]
      exact List.mem_map.2 ⟨x, hxy, rfl⟩
    · cases hxy
  · unfold buildGraph
    rw [l2]
    simp only [List.mem_append, List.mem_map]
    exact Or.inl (Or.inl (Or.inl ⟨x, hx, rfl⟩))

section
open Plane

/-- Pure translations. -/
def Shift (g : Pose) : Prop := g.c = 1 ∧ g.s = 0

instance (g : Pose) : Decidable (Shift g) := by unfold Shift; infer_instance

/-- The smallest number, at most `n`, whose square is at least `q`. -/
def rootUp (q : ℚ) : Nat → Nat
  | 0 => 0
  | n + 1 => if q ≤ (n : ℚ) * n then rootUp q n else n + 1

/-- The length of the translation, rounded up. -/
def ceilLen (g : Pose) : ℚ := rootUp (g.x * g.x + g.y * g.y) ⌈g.x * g.x + g.y * g.y⌉₊

theorem rootUp_le {q : ℚ} {n m : Nat} (hn : q ≤ (n : ℚ) * n) : rootUp q n ≤ m ↔ q ≤ (m : ℚ) * m := by
  induction n with
  | zero => exact ⟨fun _ => hn.trans (by simpa using mul_self_nonneg (m : ℚ)), fun _ => Nat.zero_le _⟩
  | succ n ih =>
    unfold rootUp
    by_cases h : q ≤ (n : ℚ) * n
    · rw [if_pos h]; exact ih h
    · rw [if_neg h]
      refine ⟨fun k => hn.trans ?_, fun k => ?_⟩
      · have : ((n + 1 : ℕ) : ℚ) ≤ m := by exact_mod_cast k
        exact mul_self_le_mul_self (by positivity) this
      · by_contra hm
        have : (m : ℚ) ≤ n := by exact_mod_cast (by omega : m ≤ n)
        exact h (k.trans (mul_self_le_mul_self (by positivity) this))

theorem ceilLen_le (g : Pose) (m : Nat) : ceilLen g ≤ m ↔ g.x * g.x + g.y * g.y ≤ (m : ℚ) * m := by
  unfold ceilLen
  rw [Nat.cast_le]
  refine rootUp_le ?_
  have h1 := Nat.le_ceil (g.x * g.x + g.y * g.y)
  have h2 : (⌈g.x * g.x + g.y * g.y⌉₊ : ℚ) ≤ (⌈g.x * g.x + g.y * g.y⌉₊ : ℚ) * ⌈g.x * g.x + g.y * g.y⌉₊ := by
    exact_mod_cast Nat.le_mul_self _
  exact h1.trans h2

theorem ceilLen_congr {g g' : Pose} (h : g.x * g.x + g.y * g.y = g'.x * g'.x + g'.y * g'.y) : ceilLen g = ceilLen g' := by
  unfold ceilLen
  rw [h]

theorem shift_kind : Kind Shift := by
  refine ⟨⟨rfl, rfl⟩, fun a b ⟨a1, a2⟩ ⟨b1, b2⟩ => ⟨?_, ?_⟩, fun a ⟨a1, a2⟩ => ⟨?_, ?_⟩, fun x a ⟨a1, a2⟩ => ⟨?_, ?_⟩⟩
  · simp [mul_c, a1, a2, b1, b2]
  · simp [mul_s, a1, a2, b1, b2]
  · simp [inv_c, a1]
  · simp [inv_s, a2]
  · simp only [mul_c, mul_s, inv_c, inv_s, a1, a2]; have := x.unit; nlinarith
  · simp only [mul_c, mul_s, inv_c, inv_s, a1, a2]; ring

theorem ceilLen_sizes : Sizes Shift ceilLen := by
  refine ⟨by decide +kernel, fun a b ⟨a1, a2⟩ ⟨b1, b2⟩ => ?_, fun a ⟨a1, a2⟩ => ceilLen_congr ?_, fun x a ⟨a1, a2⟩ => ceilLen_congr ?_⟩
  · obtain ⟨n, hn⟩ : ∃ n : ℕ, ceilLen a = n := ⟨_, rfl⟩
    obtain ⟨m, hm⟩ : ∃ m : ℕ, ceilLen b = m := ⟨_, rfl⟩
    have h1 := (ceilLen_le a n).1 hn.le
    have h2 := (ceilLen_le b m).1 hm.le
    rw [hn, hm, ← Nat.cast_add, ceilLen_le]
    simp only [mul_x, mul_y, a1, a2]
    push_cast
    have n0 : (0 : ℚ) ≤ n := by positivity
    have m0 : (0 : ℚ) ≤ m := by positivity
    have key : a.x * b.x + a.y * b.y ≤ n * m := by
      by_contra q
      have q : n * m < a.x * b.x + a.y * b.y := not_le.1 q
      have : (n * m : ℚ) * (n * m) < (a.x * b.x + a.y * b.y) * (a.x * b.x + a.y * b.y) := mul_self_lt_mul_self (by positivity) q
      nlinarith [mul_self_nonneg (a.x * b.y - a.y * b.x), mul_nonneg (mul_self_nonneg a.x) (mul_self_nonneg b.x),
        mul_le_mul h1 h2 (add_nonneg (mul_self_nonneg b.x) (mul_self_nonneg b.y)) (mul_nonneg n0 n0)]
    nlinarith
  · simp only [inv_x, inv_y, a1, a2]; ring
  · simp only [mul_x, mul_y, mul_c, mul_s, inv_x, inv_y, a1, a2]
    have e : x.x + x.c * a.x - x.s * a.y + (x.c * 1 - x.s * 0) * -(x.c * x.x + x.s * x.y) - (x.s * 1 + x.c * 0) * (x.s * x.x - x.c * x.y) =
      x.c * a.x - x.s * a.y + x.x * (1 - (x.c * x.c + x.s * x.s)) := by ring
    have e' : x.y + x.s * a.x + x.c * a.y + (x.s * 1 + x.c * 0) * -(x.c * x.x + x.s * x.y) + (x.c * 1 - x.s * 0) * (x.s * x.x - x.c * x.y) =
      x.s * a.x + x.c * a.y + x.y * (1 - (x.c * x.c + x.s * x.s)) := by ring
    rw [e, e', x.unit]
    linear_combination (a.x * a.x + a.y * a.y) * x.unit

theorem ang_sizes : Sizes Shift ang := by
  refine ⟨by decide +kernel, fun a b ha hb => ?_, fun a _ => rfl, fun x a ha => ?_⟩
  · have := shift_kind.mul a b ha hb
    simp [ang, this.1, ha.1, hb.1]
  · have := shift_kind.conj x a ha
    simp [ang, this.1, ha.1]

/-- Thresholds 2; `l` is a landmark prefix. -/
def shiftP : Params ℚ := { Params.default.apply (.simple3D 2 2 .quiet) with special := [108] }

/-- The true poses: both robots turn. -/
def trulyAt (k : Key) : Pose :=
  if k = Demo.a 1 then turned 3 0 else if k = Demo.a 2 then turned 3 0 * turned 2 1 else if k = Demo.b 0 then turned 5 5 else
  if k = Demo.b 1 then turned 5 5 * tr 2 0 else if k = Demo.l 0 then tr 9 9 else 1

/-- The true measurement from `k1` to `k2`, followed by an error. -/
def measured (k1 k2 : Key) (e : Pose) : Btw Pose Plane.Ns := btw k1 k2 ((trulyAt k1)⁻¹ * trulyAt k2 * e)
def measuredF (k1 k2 : Key) (e : Pose) : Option (Factor Pose Plane.Ns) := some (.btw (measured k1 k2 e))

/-- Two robots, every measurement with an error of a length up to 1: odometry, closures within and between robots, observations of a landmark. -/
def erring : List (Op Pose Plane.Ns) :=
  [.update [measuredF (Demo.a 0) (Demo.a 1) (tr (3 / 5) (4 / 5))] [pose (Demo.a 0) 1, pose (Demo.a 1) 1] true,
   .update [measuredF (Demo.a 1) (Demo.a 2) (tr 0 1)] [pose (Demo.a 2) 1] true,
   .update [measuredF (Demo.b 0) (Demo.b 1) (tr (-1) 0)] [pose (Demo.b 0) 1, pose (Demo.b 1) 1] true,
   .update [measuredF (Demo.a 2) (Demo.a 0) (tr (3 / 5) (-4 / 5)), measuredF (Demo.a 0) (Demo.a 2) (tr 0 1)] [] true,
   .update [measuredF (Demo.a 0) (Demo.b 0) (tr (1 / 2) (1 / 2)), measuredF (Demo.a 2) (Demo.b 1) (tr 0 (-1))] [] true,
   .update [measuredF (Demo.a 2) (Demo.b 0) (tr (-1) 0)] [] true,
   .update [measuredF (Demo.b 0) (Demo.l 0) (tr 1 0)] [pose (Demo.l 0) 1] true,
   .update [measuredF (Demo.b 1) (Demo.l 0) (tr (3 / 5) (4 / 5))] [] true]

instance (a b : Chr) (x : Btw Pose Plane.Ns) : Decidable (NearFrom Shift ceilLen ang 1 0 trulyAt a b x) := by
  unfold NearFrom Near; infer_instance

instance (x : Btw Pose Plane.Ns) : Decidable (Near Shift ceilLen ang 1 0 trulyAt x) := by
  unfold Near; infer_instance

set_option maxRecDepth 100000 in
/-- The hypotheses of `C100_nothing_lost` and `C100_observations` are met by a run with robots that turn, and their conclusions are seen in it. -/
example : ∃ s, ReachOk (shiftP.cfgSimple Unit ceilLen ang true) Plane.env erring s ∧ (registered s ⟨97, 98⟩).length = 3 ∧ (observed s (Demo.l 0)).length = 2 ∧ s.nfg.length = 10 ∧
    (selected s ⟨97, 98⟩).Perm (pairGroups (shiftP.cfgSimple Unit ceilLen ang true) 97 98 erring).flatten ∧
    (∀ x ∈ (pairGroups (shiftP.cfgSimple Unit ceilLen ang true) 97 97 erring).flatten, some (.btw x) ∈ s.nfg) ∧
    (∀ x ∈ (pairGroups (shiftP.cfgSimple Unit ceilLen ang true) 97 98 erring).flatten, some (.btw x) ∈ s.nfg) ∧ (acceptedOf s (Demo.l 0)).Perm (observed s (Demo.l 0)) := by
  obtain ⟨s, r, hs⟩ := Demo.runs_reach (cfg := shiftP.cfgSimple Unit ceilLen ang true) (env := Plane.env) (ops := erring)
    (P := fun s => decide ((registered s ⟨97, 98⟩).length = 3 ∧ (observed s (Demo.l 0)).length = 2 ∧ s.nfg.length = 10 ∧ s.pcm.ignored = [])) (by decide +kernel)
  obtain ⟨s1, s2, s3, s4⟩ := of_decide_eq_true hs
  have hm : ∀ op ∈ erring, Managed op ∧ ¬ Removes op := by
    intro op ho
    simp [erring] at ho
    rcases ho with rfl | rfl | rfl | rfl | rfl | rfl | rfl | rfl <;> exact ⟨trivial, id⟩
  have hc : Chains (shiftP.cfgSimple Unit ceilLen ang true) (fun c => symKey c 0) erring := chains_of (by decide +kernel)
  have ho : OnOdometry (shiftP.cfgSimple Unit ceilLen ang true) (fun c => symKey c 0) erring := onOdometry_of (by decide +kernel)
  have hk : KeysKnown (shiftP.cfgSimple Unit ceilLen ang true) erring := keysKnown_of (by decide +kernel)
  have hob : OneObserver (shiftP.cfgSimple Unit ceilLen ang true) (fun _ => 98) erring := by unfold OneObserver; decide +kernel
  have fed : ∀ b : Chr, b ∉ shiftP.special → PairFed (shiftP.cfgSimple Unit ceilLen ang true) (fun c => symKey c 0) 97 b erring := fun b hb =>
    pairFed_global hc ho hk (fun op m => (hm op m).2) (by decide) hb
  have odo : ∀ c, c = 97 ∨ c = 98 → ∀ x ∈ robotOdom (shiftP.cfgSimple Unit ceilLen ang true) c erring, Near Shift ceilLen ang 1 0 trulyAt x := by
    rintro c (rfl | rfl) <;> decide +kernel
  have ig : getIgnored (shiftP.cfgSimple Unit ceilLen ang true) s = [] := by
    unfold getIgnored; rw [s4]; split <;> rfl
  refine ⟨s, r, s1, s2, s3, ?_, ?_, ?_, ?_⟩
  · exact (C100_all_accepted shiftP true (by decide) shift_kind ceilLen_sizes ang_sizes le_rfl (η := 1) (by decide +kernel) (by decide +kernel) (by decide +kernel) r hc
      (fed 98 (by decide)) odo (by decide +kernel)).2
  · exact (C100_nothing_lost shiftP true (by decide) shift_kind ceilLen_sizes ang_sizes le_rfl (η := 1) (by decide +kernel) (by decide +kernel) (by decide +kernel) plane_ok r
      (fun op m => (hm op m).1) hc (fed 97 (by decide)) (by rw [ig]; decide) (fun c hc => odo c (Or.inl (hc.elim id id))) (by decide +kernel)).1
  · exact (C100_nothing_lost shiftP true (by decide) shift_kind ceilLen_sizes ang_sizes le_rfl (η := 1) (by decide +kernel) (by decide +kernel) (by decide +kernel) plane_ok r
      (fun op m => (hm op m).1) hc (fed 98 (by decide)) (by rw [ig]; decide) odo (by decide +kernel)).1
  · exact C100_observations shiftP true (by decide) shift_kind ceilLen_sizes ang_sizes le_rfl (η := 1) (by decide +kernel) (by decide +kernel) r hc
      (landFed_global hc ho hk hob (Demo.l 0)) (odo 98 (Or.inr rfl)) (by decide +kernel) (by decide +kernel)

/-- The same with a wrong closure between the robots and a wrong one within `a`. -/
def erringAndWrong : List (Op Pose Plane.Ns) :=
  erring ++ [.update [measuredF (Demo.a 1) (Demo.b 1) (tr 40 0)] [] true, .update [measuredF (Demo.a 0) (Demo.a 1) (tr 0 40)] [] true]

set_option maxRecDepth 100000 in
/-- The hypotheses of `C100_registered` and `C100_outliers` are met, and their conclusions are seen. -/
example : ∃ s, ReachOk (shiftP.cfgSimple Unit ceilLen ang true) Plane.env erringAndWrong s ∧
    ((pairGroups (shiftP.cfgSimple Unit ceilLen ang true) 97 97 erringAndWrong).flatten.filter fun x => decide (Near Shift ceilLen ang 1 0 trulyAt x)).Sublist (registered s ⟨97, 97⟩) ∧
    (registered s ⟨97, 97⟩).length = 2 ∧ (registered s ⟨97, 98⟩).length = 4 ∧ (selected s ⟨97, 98⟩).length = 3 ∧
    (selected s ⟨97, 98⟩).Perm ((registered s ⟨97, 98⟩).filter fun x => decide (NearFrom Shift ceilLen ang 1 0 trulyAt 97 98 x)) := by
  obtain ⟨s, r, hs⟩ := Demo.runs_reach (cfg := shiftP.cfgSimple Unit ceilLen ang true) (env := Plane.env) (ops := erringAndWrong)
    (P := fun s => decide ((registered s ⟨97, 97⟩).length = 2 ∧ (selected s ⟨97, 98⟩).length = 3 ∧ (∀ i ∈ List.range 4, ¬ Agree s ⟨97, 98⟩ i 3) ∧
      registered s ⟨97, 98⟩ = [measured (Demo.a 0) (Demo.b 0) (tr (1 / 2) (1 / 2)), measured (Demo.a 2) (Demo.b 1) (tr 0 (-1)), measured (Demo.a 2) (Demo.b 0) (tr (-1) 0),
        measured (Demo.a 1) (Demo.b 1) (tr 40 0)])) (by decide +kernel)
  obtain ⟨s1, s2, s3, s4⟩ := of_decide_eq_true hs
  have hm : ∀ op ∈ erringAndWrong, ¬ Removes op := by
    intro op ho
    simp [erringAndWrong, erring] at ho
    rcases ho with rfl | rfl | rfl | rfl | rfl | rfl | rfl | rfl | rfl | rfl <;> exact id
  have hc : Chains (shiftP.cfgSimple Unit ceilLen ang true) (fun c => symKey c 0) erringAndWrong := chains_of (by decide +kernel)
  have ho : OnOdometry (shiftP.cfgSimple Unit ceilLen ang true) (fun c => symKey c 0) erringAndWrong := onOdometry_of (by decide +kernel)
  have hk : KeysKnown (shiftP.cfgSimple Unit ceilLen ang true) erringAndWrong := keysKnown_of (by decide +kernel)
  have odo : ∀ c, c = 97 ∨ c = 98 → ∀ x ∈ robotOdom (shiftP.cfgSimple Unit ceilLen ang true) c erringAndWrong, Near Shift ceilLen ang 1 0 trulyAt x := by
    rintro c (rfl | rfl) <;> decide +kernel
  have good : ∀ i, i < 3 → ∃ x, (registered s ⟨97, 98⟩)[i]? = some x ∧ NearFrom Shift ceilLen ang 1 0 trulyAt 97 98 x := by
    rw [s4]
    intro i hi
    match i, hi with
    | 0, _ => exact ⟨_, rfl, by decide +kernel⟩
    | 1, _ => exact ⟨_, rfl, by decide +kernel⟩
    | 2, _ => exact ⟨_, rfl, by decide +kernel⟩
  have three : ∀ {j : Nat} {y : Btw Pose Plane.Ns}, (registered s ⟨97, 98⟩)[j]? = some y → ¬ NearFrom Shift ceilLen ang 1 0 trulyAt 97 98 y → j = 3 := by
    intro j y e q
    have hj : j < 4 := by
      have := (List.getElem?_eq_some_iff.1 e).1
      rw [s4] at this
      simpa using this
    by_contra hne
    obtain ⟨x, ex, hx⟩ := good j (by omega)
    rw [ex] at e
    cases e
    exact q hx
  have len4 : (registered s ⟨97, 98⟩).length = 4 := by rw [s4]; rfl
  refine ⟨s, r, ?_, s1, len4, s2, ?_⟩
  · have := C100_registered shiftP true (by decide) shift_kind ceilLen_sizes ang_sizes le_rfl (η := 1) (by decide +kernel) (by decide +kernel) r hc
      (pairFed_global (a := 97) (b := 97) hc ho hk hm (by decide) (by decide)) (fun c hc => odo c (Or.inl (hc.elim id id)))
    convert this
  · have := C100_outliers shiftP true (by decide) shift_kind ceilLen_sizes ang_sizes le_rfl (η := 1) (by decide +kernel) (by decide +kernel) (by decide +kernel) r hc
      (pairFed_global (a := 97) (b := 98) hc ho hk hm (by decide) (by decide)) odo ?_ ?_
    · convert this
    · intro i j x y ei ej hx hy
      obtain rfl := three ej hy
      refine s3 i ?_
      have := (List.getElem?_eq_some_iff.1 ei).1
      rw [len4] at this
      exact List.mem_range.2 this
    · intro l hl hn
      have : l.length ≤ [3].length := length_le_of_nodup_subset hl.1 fun i hi => by
        have h4 : i < 4 := by have := hl.2.1 i hi; rwa [len4] at this
        have := three (List.getElem?_eq_getElem (hl.2.1 i hi)) (hn i hi _ (List.getElem?_eq_getElem (hl.2.1 i hi)))
        simp [this]
      refine Nat.lt_of_le_of_lt this ?_
      rw [s4]
      have e : ([measured (Demo.a 0) (Demo.b 0) (tr (1 / 2) (1 / 2)), measured (Demo.a 2) (Demo.b 1) (tr 0 (-1)), measured (Demo.a 2) (Demo.b 0) (tr (-1) 0),
        measured (Demo.a 1) (Demo.b 1) (tr 40 0)].filter fun x => decide (NearFrom Shift ceilLen ang 1 0 trulyAt 97 98 x)).length = 3 := by decide +kernel
      have e' : ∀ n : Nat, n = 3 → [3].length < n := by intro n hn; subst hn; decide
      refine e' _ ?_
      rw [← e]
      congr 2
      funext x
      congr

/-- A turn with cosine 4/5. -/
def wobble : Pose := ⟨0, 0, 4 / 5, 3 / 5, by decide +kernel⟩

/-- Far steps; the first is measured with a wrong heading at its end. -/
def lever : List (Op Pose Plane.Ns) :=
  [.update [edge (Demo.a 0) (Demo.a 1) (tr 100 0 * wobble)] [pose (Demo.a 0) 1, pose (Demo.a 1) 1] true,
   .update [edge (Demo.a 1) (Demo.a 2) (tr 100 0)] [pose (Demo.a 2) 1] true,
   .update [edge (Demo.a 0) (Demo.a 2) (tr 200 0)] [] true]

set_option maxRecDepth 100000 in
/-- C100 does not hold for errors whose size depends on where they are seen from: here one measurement has a wrong heading, no error is larger than 0 in translation and 1/5 in
rotation, the thresholds are 2, and a correct closure is dropped: the wrong heading, times the distance, is a wrong position. -/
theorem C100_false_lever : ∃ s, ReachOk (shiftP.cfgSimple Unit ceilLen ang true) Plane.env lever s ∧ shiftP.odomT = 2 ∧ shiftP.odomR = 2 ∧
    (∀ x ∈ lever.flatMap opBtws, Near (fun _ => True) ceilLen ang 0 (1 / 5) (fun k => if k = Demo.a 1 then tr 100 0 else if k = Demo.a 2 then tr 200 0 else 1) x) ∧
    edge (Demo.a 0) (Demo.a 2) (tr 200 0) ∉ s.nfg ∧ registered s ⟨97, 97⟩ = [] := by
  obtain ⟨s, r, hs⟩ := Demo.runs_reach (cfg := shiftP.cfgSimple Unit ceilLen ang true) (env := Plane.env) (ops := lever)
    (P := fun s => decide (edge (Demo.a 0) (Demo.a 2) (tr 200 0) ∉ s.nfg ∧ registered s ⟨97, 97⟩ = [])) (by decide +kernel)
  exact ⟨s, r, by decide +kernel, by decide +kernel, by unfold Near; decide +kernel, of_decide_eq_true hs⟩

end
end RPGO.Props
