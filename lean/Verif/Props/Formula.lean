import Verif.Props.Thresholds
import Verif.Props.Matrix
/-
C50 the odometry check as a formula; C51 the pairwise check as a formula.
-/

namespace RPGO.Spec
variable {G T N : Type}

/-- Relative pose from position `i` to position `j` of a chain of measurements. -/
def rel [Group G] (L : List (Btw G N)) (i j : Nat) : G :=
  if i ≤ j then measProd (seg L i j) else (measProd (seg L j i))⁻¹

/-- Number of factors between positions `i` and `j`. -/
def hops (i j : Nat) : Nat := (j - i) + (i - j)

/-- Does every factor carry rotation information? -/
def Rot {C : Type} (bs : List (Btw G (GNoise C))) : Prop := ∀ b ∈ bs, ∀ n, b.noise = some n → n.rotNaN = false

/-- The error `g`, averaged over `n` measurements, is below both thresholds; without rotation information the rotation
error counts as zero. -/
def Below {K : Type} [Field K] [LinearOrder K] (tn rn : G → K) (tThr rThr : K) (g : G) (n : Nat) (rot : Prop) : Prop :=
  tn g / (n : K) < tThr ∧ (rot → rn g / (n : K) < rThr) ∧ (¬ rot → 0 < rThr)

/-- Key `k` is at position `i` of the chain `L` of robot `c` that starts at `k0`. -/
def At (c : Chr) (k0 : Key) (L : List (Btw G N)) (k : Key) (i : Nat) : Prop :=
  chr k = c ∧ i ≤ L.length ∧ k = after k0 i

end RPGO.Spec

namespace RPGO
variable {G : Type} [Mul G] [Inv G] [One G] {C K : Type} [Field K] [LinearOrder K]

theorem rotAll_iff (bs : List (Btw G (GNoise C))) : rotAll bs = true ↔ Spec.Rot bs := by
  unfold rotAll Spec.Rot
  rw [List.all_eq_true]
  refine forall_congr' fun b => forall_congr' fun _ => ?_
  cases b.noise with
  | none => simp
  | some n => simp

theorem rotAll_append (xs ys : List (Btw G (GNoise C))) : rotAll (xs ++ ys) = (rotAll xs && rotAll ys) := by
  simp [rotAll]

/-- The pose reported between two positions of a chain, in full. -/
theorem ReachOk.rel {G : Type} [Group G] {p : Params K} {tn rn : G → K} {signed : Bool} (hm : p.method ≠ .none)
    {env : Env G (GNoise C)} {h : List (Op G (GNoise C))} {s : St G (PNode G) (GNoise C)}
    (r : ReachOk (p.cfgSimple C tn rn signed) env h s) {start : Chr → Key}
    (hc : Spec.Chains (p.cfgSimple C tn rn signed) start h) {c : Chr} {a b : Key} {i j : Nat}
    (ha : Spec.At c (start c) (Spec.robotOdom (p.cfgSimple C tn rn signed) c h) a i)
    (hb : Spec.At c (start c) (Spec.robotOdom (p.cfgSimple C tn rn signed) c h) b j) :
    btwn (p.cfgSimple C tn rn signed).ops (lk (p.cfgSimple C tn rn signed) s.pcm c) a b =
      ⟨Spec.rel (Spec.robotOdom (p.cfgSimple C tn rn signed) c h) i j, Spec.hops i j,
        rotAll ((Spec.robotOdom (p.cfgSimple C tn rn signed) c h).take (max i j))⟩ := by
  have hr : (p.cfgSimple C tn rn signed).rejection = true := by simp [Params.cfgSimple, Params.cfg, hm]
  obtain ⟨hca, hi, rfl⟩ := ha
  obtain ⟨hcb, hj, rfl⟩ := hb
  obtain ⟨h0, ch, hl⟩ := hc c
  obtain ⟨w, u⟩ := r.walked hr c (start c) ch hl
  have hwn := fun t (bs : List (Btw G (GNoise C))) hn => walk_node (p.cfgSimple C tn rn signed).ops rfl rfl t bs hn
  set L := Spec.robotOdom (p.cfgSimple C tn rn signed) c h with hLd
  obtain ⟨t0, ht0, hw⟩ : ∃ t0 : PNode G, (t0.node = 0 ∧ t0.rot = true) ∧ ∀ j, j ≤ L.length →
      lk (p.cfgSimple C tn rn signed) s.pcm c (Spec.after (start c) j) = walk (p.cfgSimple C tn rn signed).ops t0 (L.take j) := by
    by_cases hL : L = []
    · refine ⟨PNode.dflt, ⟨rfl, rfl⟩, fun j _ => ?_⟩
      rw [u hL, hL]
      simp [walk]
      rfl
    · obtain ⟨t0, ht, hw⟩ := w.walk
      refine ⟨t0, ?_, hw⟩
      rcases ht hL with rfl | ⟨g, rfl⟩
      · exact ⟨rfl, rfl⟩
      · exact ⟨rfl, rfl⟩
  unfold btwn
  rw [if_pos (hca.trans hcb.symm), hw i hi, hw j hj]
  show PNode.between _ _ = _
  rcases Nat.le_total i j with hij | hij
  · rw [max_eq_right hij, take_seg L hij, walk_append, hwn t0 _ (fun b hb => w.noise b (List.mem_of_mem_take hb)),
      hwn _ _ (fun b hb => w.noise b (mem_seg hb)), rotAll_append, seg_length hj, ht0.1, ht0.2]
    unfold PNode.between Spec.rel Spec.hops
    rw [if_pos hij]
    congr 1
    · group
    · dsimp only
      rw [abs_of_nonneg (by omega)]
      omega
    · cases rotAll (L.take i) <;> simp
  · rw [max_eq_left hij, take_seg L hij, walk_append, hwn t0 _ (fun b hb => w.noise b (List.mem_of_mem_take hb)),
      hwn _ _ (fun b hb => w.noise b (mem_seg hb)), rotAll_append, seg_length hi, ht0.1, ht0.2]
    unfold PNode.between Spec.rel Spec.hops
    rcases Nat.eq_or_lt_of_le hij with rfl | hlt
    · rw [if_pos (le_refl _)]
      simp [Spec.seg, Spec.measProd, rotAll]
    · rw [if_neg (by omega)]
      congr 1
      · group
      · dsimp only
        rw [abs_of_nonpos (by omega)]
        omega
      · cases rotAll (L.take j) <;> simp

/-- The check on a pose with a positive count. -/
theorem check_iff (tn rn : G → K) (tThr rThr : K) (g : G) (n : Nat) (hn : 0 < n) (rot : Bool) :
    PNode.check tn rn tThr rThr ⟨g, (n : Int), rot⟩ = true ↔ Spec.Below tn rn tThr rThr g n (rot = true) := by
  have h0 : (n : Int) ≠ 0 := by omega
  unfold PNode.check PNode.avgTrans PNode.avgRot PNode.quot Spec.Below
  rw [if_neg h0, if_neg h0, Bool.and_eq_true]
  cases rot <;> simp [ltThr]

end RPGO

namespace RPGO.Props
open RPGO
variable {G : Type} [Mul G] [Inv G] [One G] {C K : Type} [Field K] [LinearOrder K]

/-- C50: take a closure within robot `c` between positions `i` and `j` of its odometry. The odometry check accepts it
exactly if the check is disabled or the mismatch between the product of the odometry measurements and the closure,
averaged over those measurements and the closure, is below both odometry thresholds. The rotation is not compared if
the closure or any odometry up to the later position lacks rotation information. -/
theorem C50_odometry_check {G : Type} [Group G] (p : Params K) (tn rn : G → K) (signed : Bool) (hm : p.method ≠ .none)
    {env : Env G (GNoise C)} {h : List (Op G (GNoise C))} {s : St G (PNode G) (GNoise C)}
    (r : ReachOk (p.cfgSimple C tn rn signed) env h s) {start : Chr → Key}
    (hc : Spec.Chains (p.cfgSimple C tn rn signed) start h) {c : Chr} {L : List (Btw G (GNoise C))}
    (hL : L = Spec.robotOdom (p.cfgSimple C tn rn signed) c h) {b : Btw G (GNoise C)} {i j : Nat}
    (h1 : Spec.At c (start c) L b.k1 i) (h2 : Spec.At c (start c) L b.k2 j) (hn : b.noise.isSome) :
    ∃ v, Spec.OdomCheck (p.cfgSimple C tn rn signed) s b v ∧
      (v = true ↔ (p.cfgSimple C tn rn signed).odomCheck = false ∨
        Spec.Below tn rn p.odomT p.odomR (Spec.rel L i j * b.m⁻¹) (Spec.hops i j + 1)
          (Spec.Rot (L.take (max i j)) ∧ Spec.Rot [b])) := by
  subst hL
  refine ⟨_, odomCheck_of hn, ?_⟩
  obtain ⟨n, hn'⟩ := Option.isSome_iff_exists.1 hn
  unfold odomVerdict
  rw [hn', Bool.or_eq_true]
  simp only [Bool.not_eq_true']
  refine or_congr Iff.rfl ?_
  have e : odomErr (p.cfgSimple C tn rn signed) (lk (p.cfgSimple C tn rn signed) s.pcm) b n =
      (⟨Spec.rel (Spec.robotOdom (p.cfgSimple C tn rn signed) c h) i j * b.m⁻¹, ((Spec.hops i j + 1 : Nat) : Int),
        rotAll ((Spec.robotOdom (p.cfgSimple C tn rn signed) c h).take (max i j)) && !n.rotNaN⟩ : PNode G) := by
    unfold odomErr
    rw [h1.1, r.rel hm hc h1 h2]
    rfl
  rw [e]
  have := check_iff tn rn p.odomT p.odomR (Spec.rel (Spec.robotOdom (p.cfgSimple C tn rn signed) c h) i j * b.m⁻¹)
    (Spec.hops i j + 1) (by omega) (rotAll ((Spec.robotOdom (p.cfgSimple C tn rn signed) c h).take (max i j)) && !n.rotNaN)
  refine this.trans ?_
  have hrot : ((rotAll ((Spec.robotOdom (p.cfgSimple C tn rn signed) c h).take (max i j)) && !n.rotNaN) = true) =
      (Spec.Rot ((Spec.robotOdom (p.cfgSimple C tn rn signed) c h).take (max i j)) ∧ Spec.Rot [b]) := by
    rw [Bool.and_eq_true, rotAll_iff]
    simp [Spec.Rot, hn']
  rw [hrot]

/-- C51: take two closures `x`, `y` from robot `c` to robot `d` (possibly the same), between positions `i → j` and
`k → l` of their odometry. The pairwise check accepts them exactly if the mismatch around the cycle
`c_k → c_i → d_j → d_l → c_k`, averaged over its measurements, is below both pairwise thresholds. -/
theorem C51_pairwise_check {G : Type} [Group G] (p : Params K) (tn rn : G → K) (signed : Bool) (hm : p.method ≠ .none)
    {env : Env G (GNoise C)} {h : List (Op G (GNoise C))} {s : St G (PNode G) (GNoise C)}
    (r : ReachOk (p.cfgSimple C tn rn signed) env h s) {start : Chr → Key}
    (hc : Spec.Chains (p.cfgSimple C tn rn signed) start h) {c d : Chr} {L M : List (Btw G (GNoise C))}
    (hL : L = Spec.robotOdom (p.cfgSimple C tn rn signed) c h) (hM : M = Spec.robotOdom (p.cfgSimple C tn rn signed) d h)
    {x y : Btw G (GNoise C)} {i j k l : Nat}
    (hi : Spec.At c (start c) L x.k1 i) (hj : Spec.At d (start d) M x.k2 j)
    (hk : Spec.At c (start c) L y.k1 k) (hl : Spec.At d (start d) M y.k2 l) (hx : x.noise.isSome) (hy : y.noise.isSome) :
    ∃ v, Spec.PairCheck (p.cfgSimple C tn rn signed) s x y v ∧
      (v = true ↔ (p.cfgSimple C tn rn signed).loopCheck = false ∨
        Spec.Below tn rn p.distT p.distR ((Spec.rel L i k * y.m)⁻¹ * x.m * Spec.rel M j l) (Spec.hops i k + Spec.hops j l + 2)
          (Spec.Rot (L.take (max i k)) ∧ Spec.Rot (M.take (max j l)) ∧ Spec.Rot [x, y])) := by
  subst hL; subst hM
  refine ⟨_, pairCheck_of hx hy, ?_⟩
  obtain ⟨nx, ex⟩ := Option.isSome_iff_exists.1 hx
  obtain ⟨ny, ey⟩ := Option.isSome_iff_exists.1 hy
  unfold loopVerdict
  rw [ex, ey, Bool.or_eq_true]
  simp only [Bool.not_eq_true']
  refine or_congr Iff.rfl ?_
  have hcc : chr x.k1 = chr y.k1 := hi.1.trans hk.1.symm
  set L := Spec.robotOdom (p.cfgSimple C tn rn signed) c h with hL
  set M := Spec.robotOdom (p.cfgSimple C tn rn signed) d h with hM
  have e : loopErr (p.cfgSimple C tn rn signed) (lk (p.cfgSimple C tn rn signed) s.pcm) x y nx ny =
      (⟨(Spec.rel L i k * y.m)⁻¹ * x.m * Spec.rel M j l, ((Spec.hops i k + Spec.hops j l + 2 : Nat) : Int),
        rotAll (L.take (max i k)) && !ny.rotNaN && !nx.rotNaN && rotAll (M.take (max j l))⟩ : PNode G) := by
    unfold loopErr
    simp only [hcc, ne_eq, not_true_eq_false, if_false]
    rw [hk.1, hj.1, r.rel hm hc hi hk, r.rel hm hc hj hl]
    show (⟨_, _, _⟩ : PNode G) = _
    congr 1
    show ((Spec.hops i k : Int) + 1 + 1 + (Spec.hops j l : Int)) = _
    omega
  rw [e]
  refine (check_iff tn rn p.distT p.distR _ (Spec.hops i k + Spec.hops j l + 2) (by omega) _).trans ?_
  have hrot : ((rotAll (L.take (max i k)) && !ny.rotNaN && !nx.rotNaN && rotAll (M.take (max j l))) = true) =
      (Spec.Rot (L.take (max i k)) ∧ Spec.Rot (M.take (max j l)) ∧ Spec.Rot [x, y]) := by
    simp only [Bool.and_eq_true, rotAll_iff]
    simp [Spec.Rot, ex, ey]
    tauto
  rw [hrot]

/-- C51 for closures in opposite directions, `x` from robot `c` to another robot `d` and `y` from `d` back to `c`: the
check goes around the same cycle, but uses the measurement `y` as it stands where going around the cycle would need its
inverse. This is the disagreement shown by `C13_false`. -/
theorem C51_opposite_direction {G : Type} [Group G] (p : Params K) (tn rn : G → K) (signed : Bool) (hm : p.method ≠ .none)
    {env : Env G (GNoise C)} {h : List (Op G (GNoise C))} {s : St G (PNode G) (GNoise C)}
    (r : ReachOk (p.cfgSimple C tn rn signed) env h s) {start : Chr → Key}
    (hc : Spec.Chains (p.cfgSimple C tn rn signed) start h) {c d : Chr} {L M : List (Btw G (GNoise C))}
    (hL : L = Spec.robotOdom (p.cfgSimple C tn rn signed) c h) (hM : M = Spec.robotOdom (p.cfgSimple C tn rn signed) d h)
    {x y : Btw G (GNoise C)} {i j k l : Nat}
    (hi : Spec.At c (start c) L x.k1 i) (hj : Spec.At d (start d) M x.k2 j)
    (hk : Spec.At c (start c) L y.k2 k) (hl : Spec.At d (start d) M y.k1 l) (hcd : c ≠ d) (hx : x.noise.isSome) (hy : y.noise.isSome) :
    ∃ v, Spec.PairCheck (p.cfgSimple C tn rn signed) s x y v ∧
      (v = true ↔ (p.cfgSimple C tn rn signed).loopCheck = false ∨
        Spec.Below tn rn p.distT p.distR ((Spec.rel L i k * y.m)⁻¹ * x.m * Spec.rel M j l) (Spec.hops i k + Spec.hops j l + 2)
          (Spec.Rot (L.take (max i k)) ∧ Spec.Rot (M.take (max j l)) ∧ Spec.Rot [x, y])) := by
  subst hL; subst hM
  refine ⟨_, pairCheck_of hx hy, ?_⟩
  obtain ⟨nx, ex⟩ := Option.isSome_iff_exists.1 hx
  obtain ⟨ny, ey⟩ := Option.isSome_iff_exists.1 hy
  unfold loopVerdict
  rw [ex, ey, Bool.or_eq_true]
  simp only [Bool.not_eq_true']
  refine or_congr Iff.rfl ?_
  have hcc : chr x.k1 ≠ chr y.k1 := by rw [hi.1, hl.1]; exact hcd
  set L := Spec.robotOdom (p.cfgSimple C tn rn signed) c h with hL
  set M := Spec.robotOdom (p.cfgSimple C tn rn signed) d h with hM
  have e : loopErr (p.cfgSimple C tn rn signed) (lk (p.cfgSimple C tn rn signed) s.pcm) x y nx ny =
      (⟨(Spec.rel L i k * y.m)⁻¹ * x.m * Spec.rel M j l, ((Spec.hops i k + Spec.hops j l + 2 : Nat) : Int),
        rotAll (L.take (max i k)) && !ny.rotNaN && !nx.rotNaN && rotAll (M.take (max j l))⟩ : PNode G) := by
    unfold loopErr
    simp only [hcc, ne_eq, not_false_eq_true, if_true]
    rw [hi.1, hj.1, r.rel hm hc hi hk, r.rel hm hc hj hl]
    show (⟨_, _, _⟩ : PNode G) = _
    congr 1
    show ((Spec.hops i k : Int) + 1 + 1 + (Spec.hops j l : Int)) = _
    omega
  rw [e]
  refine (check_iff tn rn p.distT p.distR _ (Spec.hops i k + Spec.hops j l + 2) (by omega) _).trans ?_
  have hrot : ((rotAll (L.take (max i k)) && !ny.rotNaN && !nx.rotNaN && rotAll (M.take (max j l))) = true) =
      (Spec.Rot (L.take (max i k)) ∧ Spec.Rot (M.take (max j l)) ∧ Spec.Rot [x, y]) := by
    simp only [Bool.and_eq_true, rotAll_iff]
    simp [Spec.Rot, ex, ey]
    tauto
  rw [hrot]

/-- C50, at the level of calls: a call that brings a single closure candidate `b` within robot `c` registers it
exactly if it passes the formula, with the odometry including that of the call. -/
theorem C50_registered {G : Type} [Group G] (p : Params K) (tn rn : G → K) (signed : Bool) (hm : p.method ≠ .none)
    {env : Env G (GNoise C)} {h : List (Op G (GNoise C))} {op : Op G (GNoise C)} {s s' : St G (PNode G) (GNoise C)} {x : Ret}
    (r : ReachOk (p.cfgSimple C tn rn signed) env h s) (e : exec (p.cfgSimple C tn rn signed) env op s = .ok s' x)
    {fs : Graph G (GNoise C)} {vs : Vals G} (hb : Spec.batch op = some (fs, vs)) {b : Btw G (GNoise C)}
    (hb1 : Spec.cands (p.cfgSimple C tn rn signed) vs fs = [b]) (hlm : Spec.isLandmark (p.cfgSimple C tn rn signed) b = false)
    (hv1 : b.k1 ∈ s'.values.keys) (hv2 : b.k2 ∈ s'.values.keys) {start : Chr → Key}
    (hc : Spec.Chains (p.cfgSimple C tn rn signed) start (h ++ [op])) {c : Chr} {L : List (Btw G (GNoise C))}
    (hL : L = Spec.robotOdom (p.cfgSimple C tn rn signed) c (h ++ [op])) {i j : Nat}
    (h1 : Spec.At c (start c) L b.k1 i) (h2 : Spec.At c (start c) L b.k2 j) (hn : b.noise.isSome) :
    ((p.cfgSimple C tn rn signed).odomCheck = false ∨
        Spec.Below tn rn p.odomT p.odomR (Spec.rel L i j * b.m⁻¹) (Spec.hops i j + 1)
          (Spec.Rot (L.take (max i j)) ∧ Spec.Rot [b]) →
      Spec.registered s' ⟨c, c⟩ = Spec.registered s ⟨c, c⟩ ++ [b]) ∧
    (¬ ((p.cfgSimple C tn rn signed).odomCheck = false ∨
        Spec.Below tn rn p.odomT p.odomR (Spec.rel L i j * b.m⁻¹) (Spec.hops i j + 1)
          (Spec.Rot (L.take (max i j)) ∧ Spec.Rot [b])) →
      Spec.registered s' ⟨c, c⟩ = Spec.registered s ⟨c, c⟩) := by
  have hr : (p.cfgSimple C tn rn signed).rejection = true := by simp [Params.cfgSimple, Params.cfg, hm]
  obtain ⟨_, _, hreg, _⟩ := C18_effect hr hb e
  obtain ⟨v, hv, hiff⟩ := C50_odometry_check p tn rn signed hm (r.step e) hc hL h1 h2 hn
  have hv := odomCheck_val hv
  have hreg := hreg ⟨c, c⟩
  rw [hb1] at hreg
  have hcc : chr b.k1 = chr b.k2 := h1.1.trans h2.1.symm
  have ha : (Spec.acceptable (p.cfgSimple C tn rn signed) s' b && !Spec.isLandmark (p.cfgSimple C tn rn signed) b &&
      (ObsId.mk (chr b.k1) (chr b.k2)).eqv ⟨c, c⟩) = v := by
    unfold Spec.acceptable
    rw [checkOdom_eq, ← hv, hlm, h1.1, h2.1]
    simp [hv1, hv2, ObsId.eqv]
  rw [← hiff]
  rw [List.filter_cons, ha] at hreg
  cases v with
  | true => exact ⟨(fun _ => by simpa using hreg), fun q => absurd rfl q⟩
  | false => exact ⟨fun q => (Bool.false_ne_true q).elim, fun _ => by simpa using hreg⟩

/-- C51, at the level of calls: when a call registers closure `y` from robot `c` to robot `d` as number `n`, its entry
against an earlier closure `x` from `c` to `d` is one exactly if the pair passes the formula, with the odometry
including that of the call. -/
theorem C51_matrix {G : Type} [Group G] (p : Params K) (tn rn : G → K) (signed : Bool) (hm : p.method ≠ .none)
    (hlc : (p.cfgSimple C tn rn signed).loopCheck = true)
    {env : Env G (GNoise C)} {h : List (Op G (GNoise C))} {op : Op G (GNoise C)} {s s' : St G (PNode G) (GNoise C)} {q : Ret}
    (r : ReachOk (p.cfgSimple C tn rn signed) env h s) (e : exec (p.cfgSimple C tn rn signed) env op s = .ok s' q)
    (hrm : ∀ o ∈ h ++ [op], ¬ Spec.Removes o) {start : Chr → Key}
    (hc : Spec.Chains (p.cfgSimple C tn rn signed) start (h ++ [op])) {c d : Chr} {L M : List (Btw G (GNoise C))}
    (hL : L = Spec.robotOdom (p.cfgSimple C tn rn signed) c (h ++ [op]))
    (hM : M = Spec.robotOdom (p.cfgSimple C tn rn signed) d (h ++ [op]))
    {x y : Btw G (GNoise C)} {m n : Nat} (hmn : m < n) (hn : (Spec.registered s ⟨c, d⟩).length ≤ n)
    (ex : (Spec.registered s' ⟨c, d⟩)[m]? = some x) (ey : (Spec.registered s' ⟨c, d⟩)[n]? = some y)
    {i j k l : Nat} (hi : Spec.At c (start c) L x.k1 i) (hj : Spec.At d (start d) M x.k2 j)
    (hk : Spec.At c (start c) L y.k1 k) (hl : Spec.At d (start d) M y.k2 l) :
    (Spec.matrix s' ⟨c, d⟩).e m n = true ↔
      Spec.Below tn rn p.distT p.distR ((Spec.rel L i k * y.m)⁻¹ * x.m * Spec.rel M j l) (Spec.hops i k + Spec.hops j l + 2)
        (Spec.Rot (L.take (max i k)) ∧ Spec.Rot (M.take (max j l)) ∧ Spec.Rot [x, y]) := by
  have hr : (p.cfgSimple C tn rn signed).rejection = true := by simp [Params.cfgSimple, Params.cfg, hm]
  have hs := (r.step e).reach.shape hr hlc ⟨c, d⟩
  obtain ⟨hi', rfl⟩ := List.getElem?_eq_some_iff.1 ex
  obtain ⟨hj', rfl⟩ := List.getElem?_eq_some_iff.1 ey
  have h2 : 2 ≤ (lcOf s'.pcm ⟨c, d⟩).factors.length := by
    have : n < (lcOf s'.pcm ⟨c, d⟩).factors.length := hj'
    omega
  obtain ⟨v, hv, hiff⟩ := C51_pairwise_check p tn rn signed hm (r.step e) hc hL hM hi hj hk hl
    (hs.noise h2 _ (List.getElem_mem _)) (hs.noise h2 _ (List.getElem_mem _))
  have st := exec_step (env := env) hr op s
  rw [e] at st
  obtain ⟨_, _, _, hd⟩ := PcmStep.grown hlc (hrm op (by simp)) st ⟨c, d⟩
    (r.reach.tight hr hlc (fun o ho => hrm o (by simp [ho])) _)
  have := hd m n _ _ hmn hn ex ey
  rw [show (Spec.matrix s' ⟨c, d⟩).e m n = v from this.trans (pairCheck_val hv).symm, hiff]
  simp [hlc]

/-- A decidable form of `Spec.Chain`. -/
def chainB {G N : Type} : Key → List (Btw G N) → Bool
  | _, [] => true
  | k, b :: bs => decide (b.k1 = k) && decide (b.k2 = k + 1) && chainB (k + 1) bs

theorem chainB_ok {G N : Type} {k : Key} {bs : List (Btw G N)} (h : chainB k bs = true) : Spec.Chain k bs := by
  induction bs generalizing k with
  | nil => trivial
  | cons b bs ih =>
    simp only [chainB, Bool.and_eq_true, decide_eq_true_eq] at h
    exact ⟨h.1.1, h.1.2, ih h.2⟩

/-- A decidable form of `Spec.Chains` for robots that start at index 0. -/
theorem chains_of {G T N : Type} [Mul G] [Inv G] [One G] {cfg : Cfg G T N} {h : List (Op G N)}
    (hd : ∀ c : Fin 256, (decide (chr (symKey (BitVec.ofFin c) 0) = BitVec.ofFin c) &&
      chainB (symKey (BitVec.ofFin c) 0) (Spec.robotOdom cfg (BitVec.ofFin c) h) &&
      decide ((symKey (BitVec.ofFin c) 0).toNat + (Spec.robotOdom cfg (BitVec.ofFin c) h).length < 2 ^ 64)) = true) :
    Spec.Chains cfg (fun c => symKey c 0) h := by
  intro c
  have := hd c.toFin
  simp only [Bool.and_eq_true, decide_eq_true_eq] at this
  exact ⟨this.1.1, chainB_ok this.1.2, this.2⟩

set_option maxRecDepth 100000 in
/-- The hypotheses of `C50_registered` and `C51_matrix`: the last call of the history brings the closures a0 → a2 and
a0 → a3 of a robot with three odometry steps; a further call brings a1 → a3 of length 4, which is registered because
its error of 2 is spread over three measurements. -/
example : ∃ s s', ReachOk Demo.cfg Demo.env Demo.h1 s ∧
    exec Demo.cfg Demo.env (.update [Demo.edge (Demo.a 1) (Demo.a 3) 4] [] true) s = .ok s' .unit ∧
    Spec.Chains Demo.cfg (fun c => symKey c 0) (Demo.h1 ++ [.update [Demo.edge (Demo.a 1) (Demo.a 3) 4] [] true]) ∧
    Spec.At 97 (Demo.a 0) (Spec.robotOdom Demo.cfg 97 (Demo.h1 ++ [.update [Demo.edge (Demo.a 1) (Demo.a 3) 4] [] true]))
      (Demo.a 3) 3 ∧
    Spec.registered s' ⟨97, 97⟩ = Spec.registered s ⟨97, 97⟩ ++ [Demo.btw (Demo.a 1) (Demo.a 3) 4] ∧
    (Spec.registered s ⟨97, 97⟩).length = 2 ∧ (Spec.matrix s' ⟨97, 97⟩).e 0 2 = true := by
  obtain ⟨s, r, h⟩ := Demo.runs_reach (cfg := Demo.cfg) (env := Demo.env) (ops := Demo.h1)
    (P := fun s => match exec Demo.cfg Demo.env (.update [Demo.edge (Demo.a 1) (Demo.a 3) 4] [] true) s with
      | .ok s' r => decide (r = .unit ∧
          Spec.registered s' ⟨97, 97⟩ = Spec.registered s ⟨97, 97⟩ ++ [Demo.btw (Demo.a 1) (Demo.a 3) 4] ∧
          (Spec.registered s ⟨97, 97⟩).length = 2 ∧ (Spec.matrix s' ⟨97, 97⟩).e 0 2 = true)
      | _ => false) (by decide +kernel)
  refine ⟨s, ?_⟩
  split at h
  · rename_i s' r' e
    simp only [decide_eq_true_eq] at h
    exact ⟨s', r, by rw [e, h.1], chains_of (by decide +kernel), ⟨by decide, by decide +kernel, by decide +kernel⟩, h.2⟩
  · cases h

end RPGO.Props
