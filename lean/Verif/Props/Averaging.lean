import Verif.Model.Averaging
import Verif.Props.Align
import Verif.Props.Norms
import Mathlib.Algebra.Order.BigOperators.Group.List
import Mathlib.Tactic.Linarith
import Mathlib.Tactic.FieldSimp
/-
C66: what the averaging of frame offsets is asked to minimise.
-/

namespace RPGO.Spec
variable {G K : Type} [Group G]

/-- Squared length. -/
def sq [Field K] (v : List K) : K := (v.map fun e => e * e).sum

/-- The difference between two poses, in the component order of the pose type: `ω` is the rotation part and `v` the
translation part. -/
def differ (d : Dim) (ω v : G → List K) (x g : G) : List K := d.logmap (ω (x⁻¹ * g)) (v (x⁻¹ * g))

/-- The weighted squared distance between frame offset `x` and the offset `g` suggested by a closure: rotation in units of
0.1 rad, translation in units of 0.5 m. -/
def offsetError [Field K] (ω v : G → List K) (x g : G) : K :=
  sq (ω (x⁻¹ * g)) / (1 / 10) ^ 2 + sq (v (x⁻¹ * g)) / (5 / 10) ^ 2

/-- An optimizer that minimises the sum of the costs when no threshold limits them. -/
def FindsLeast [Field K] [LinearOrder K] (loc : G → G → List K) (solve : AvgProblem G K → Option G) : Prop :=
  ∀ P X, P.threshold = .unlimited → solve P = some X → ∀ Y, P.cost loc X ≤ P.cost loc Y

/-- An optimizer that finds a pose of cost zero if there is one. -/
def FindsExact [Field K] (loc : G → G → List K) (solve : AvgProblem G K → Option G) : Prop :=
  ∀ P X Y, solve P = some X → P.cost loc Y = 0 → P.cost loc X = 0

/-- Rotation and translation part of the right sizes that vanish at the identity only. -/
structure Chart [Zero K] (d : Dim) (ω v : G → List K) : Prop extends Tangent d ω v where
  zero : ∀ g, (∀ e ∈ ω g, e = 0) → (∀ e ∈ v g, e = 0) → g = 1
  rot_one : ∀ e ∈ ω 1, e = 0
  trans_one : ∀ e ∈ v 1, e = 0

end RPGO.Spec

namespace RPGO
variable {G K : Type}

theorem avgSigmas_eq [Zero K] (d : Dim) (r t : K) : avgSigmas d r t = List.replicate d.rot r ++ List.replicate d.trans t := by
  cases d <;> rfl

theorem sq_nonneg' [Field K] [LinearOrder K] [IsStrictOrderedRing K] (l : List K) : 0 ≤ (l.map fun e => e * e).sum :=
  List.sum_nonneg fun y hy => by
    obtain ⟨e, _, rfl⟩ := List.mem_map.1 hy
    exact mul_self_nonneg e

theorem sq_eq_zero' [Field K] [LinearOrder K] [IsStrictOrderedRing K] {l : List K} (h : (l.map fun e => e * e).sum = 0) :
    ∀ e ∈ l, e = 0 := by
  induction l with
  | nil => simp
  | cons a l ih =>
    rw [List.map_cons, List.sum_cons] at h
    have h1 := mul_self_nonneg a
    have h2 := sq_nonneg' l
    intro e he
    rcases List.mem_cons.1 he with rfl | he
    · exact mul_self_eq_zero.1 (by linarith)
    · exact ih (by linarith) e he

theorem sq_of_zero [Field K] {l : List K} (h : ∀ e ∈ l, e = 0) : (l.map fun e => e * e).sum = 0 := by
  induction l with
  | nil => rfl
  | cons a l ih =>
    rw [List.map_cons, List.sum_cons, h a (by simp), ih fun e he => h e (by simp [he])]
    simp

/-- Dividing every component by the same number. -/
theorem zipWith_replicate [Field K] (l : List K) (c : K) :
    ((List.zipWith (· / ·) l (List.replicate l.length c)).map fun e => e * e).sum = (l.map fun e => e * e).sum / c ^ 2 := by
  induction l with
  | nil => simp
  | cons a l ih =>
    rw [List.length_cons, List.replicate_succ, List.zipWith_cons_cons, List.map_cons, List.sum_cons, ih, List.map_cons, List.sum_cons]
    rw [add_div, div_mul_div_comm, pow_two]

variable [Group G]

theorem cost_three [Field K] {ω v : G → List K} (ht : Spec.Tangent .three ω v) (x g : G) :
    (AvgFactor.mk g (avgSigmas .three (1 / 10) (5 / 10) : List K)).cost (Spec.differ .three ω v) x =
      Spec.offsetError ω v x g := by
  have h1 := ht.rot (x⁻¹ * g)
  have h2 := ht.trans (x⁻¹ * g)
  rw [avgSigmas_eq]
  unfold AvgFactor.cost AvgFactor.whitened Spec.differ Dim.logmap Spec.offsetError Spec.sq
  rw [List.zipWith_append (by rw [h1, List.length_replicate]), List.map_append, List.sum_append, ← h1, ← h2,
    zipWith_replicate, zipWith_replicate]

/-- A factor costs nothing exactly at its own pose, in 2D as in 3D. -/
theorem cost_zero [Field K] [LinearOrder K] [IsStrictOrderedRing K] {d : Dim} {ω v : G → List K} (hc : Spec.Chart d ω v) (x g : G) :
    0 ≤ (AvgFactor.mk g (avgSigmas d (1 / 10) (5 / 10) : List K)).cost (Spec.differ d ω v) x ∧
    ((AvgFactor.mk g (avgSigmas d (1 / 10) (5 / 10) : List K)).cost (Spec.differ d ω v) x = 0 ↔ x = g) := by
  refine ⟨sq_nonneg' _, ?_, ?_⟩
  · intro h
    have hz := sq_eq_zero' h
    have key : ∀ e ∈ Spec.differ d ω v x g, e = 0 := by
      have hlen : (Spec.differ d ω v x g).length = (avgSigmas d (1 / 10) (5 / 10) : List K).length := by
        have h1 := hc.rot (x⁻¹ * g)
        have h2 := hc.trans (x⁻¹ * g)
        rw [avgSigmas_eq]
        cases d <;> simp [Spec.differ, Dim.logmap, h1, h2, Dim.rot, Dim.trans]
      have hs : ∀ s ∈ (avgSigmas d (1 / 10) (5 / 10) : List K), s ≠ 0 := by
        intro s hs
        rw [avgSigmas_eq, List.mem_append, List.mem_replicate, List.mem_replicate] at hs
        rcases hs with ⟨_, rfl⟩ | ⟨_, rfl⟩ <;> norm_num
      unfold AvgFactor.whitened at hz
      simp only at hz
      generalize Spec.differ d ω v x g = l at hz hlen ⊢
      generalize (avgSigmas d (1 / 10) (5 / 10) : List K) = m at hz hlen hs
      clear h
      induction l generalizing m with
      | nil => simp
      | cons a l ih =>
        match m with
        | [] => simp at hlen
        | b :: m =>
          rw [List.zipWith_cons_cons] at hz
          intro e he
          rcases List.mem_cons.1 he with rfl | he
          · have := hz (e / b) (by simp)
            rcases div_eq_zero_iff.1 this with h | h
            · exact h
            · exact absurd h (hs b (by simp))
          · exact ih m (fun e he => hz e (by simp [he])) (by simpa using hlen) (fun s hs' => hs s (by simp [hs'])) e he
    have h1 : x⁻¹ * g = 1 := by
      apply hc.zero
      · intro e he; apply key; cases d <;> simp [Spec.differ, Dim.logmap, he]
      · intro e he; apply key; cases d <;> simp [Spec.differ, Dim.logmap, he]
    exact (inv_mul_eq_one.1 h1)
  · rintro rfl
    apply sq_of_zero
    intro e he
    unfold AvgFactor.whitened at he
    have hz : ∀ e ∈ Spec.differ d ω v x x, e = 0 := by
      intro e he
      unfold Spec.differ at he
      rw [inv_mul_cancel] at he
      cases d <;> simp only [Dim.logmap, List.mem_append] at he <;> rcases he with he | he
      · exact hc.trans_one e he
      · exact hc.rot_one e he
      · exact hc.rot_one e he
      · exact hc.trans_one e he
    simp only at he
    generalize Spec.differ d ω v x x = l at he hz
    generalize (avgSigmas d (1 / 10) (5 / 10) : List K) = m at he
    induction l generalizing m with
    | nil => simp at he
    | cons a l ih =>
      match m with
      | [] => simp at he
      | b :: m =>
        rw [List.zipWith_cons_cons] at he
        rcases List.mem_cons.1 he with rfl | he
        · rw [hz a (by simp), zero_div]
        · exact ih (fun e he => hz e (by simp [he])) m he

end RPGO

namespace RPGO.Props
open RPGO
variable {G T N K : Type} [Group G] [Field K] {cfg : Cfg G T N} {env : Env G N}

/-- C66 in 3D (part of the property, the rest is false): a call that aligns frames moves robot `c` by a result of the
optimizer for a problem in which every accepted closure between `c` and the reference robot counts once, as the weighted
distance to the offset it suggests, from any pose; the problem starts at the identity, with no limit on the costs for
method L2 and the limit at the given probability for method GNC. Missing: 2D (false, `C66_false_2d`); fleets other than
those of `C30_partial`. -/
theorem C66_average_partial (laws : Spec.PoseLaws cfg.ops) (hr : cfg.rejection = true) (ha : cfg.align = true)
    {ω v : G → List K} (ht : Spec.Tangent .three ω v) (method : AlignMethod) (prob : K) (solve : AvgProblem G K → Option G)
    {owner : Key → Chr} {start : Chr → Key} {h : List (Op G N)} {fs : Graph G N} {vs : Vals G} {s s' : St G T N} {x : Ret}
    (henv : ∃ env0 : Env G N, env = env0.averaging .three method prob solve)
    (r : ReachOk cfg env h s) (e : exec cfg env (.update fs vs false) s = .ok s' x) (hne : fs ≠ [])
    (H : List (Op G N)) (hH : H = h ++ [.update fs vs false]) (hf : Spec.Fleet cfg owner start H)
    {r0 : Chr} (h7 : r0.toNat < 128) (href : Spec.Reference cfg r0 H) (g : Chr → G)
    (hg : ∀ c, Spec.robotOdom cfg c H ≠ [] → Spec.StartPose cfg env c (start c) H (g c))
    (c : Chr) (hc : c ≠ r0) (hod : Spec.robotOdom cfg c H ≠ []) (hreg : Spec.registered s' ⟨r0, c⟩ ≠ [])
    (O : Key → G) (hO : O = Spec.odomPose cfg start g H)
    (hon : ∀ b ∈ Spec.selected s' ⟨r0, c⟩, Spec.OnChain cfg start H b.k1 ∧ Spec.OnChain cfg start H b.k2) :
    ∃ P X, solve P = some X ∧
      (∀ k, chr k = c → Spec.OnChain cfg start H k → s'.values.find? k = some (.pose (X * O k))) ∧
      P.init = 1 ∧ (method = .l2 → P.threshold = .unlimited) ∧ (method = .gnc → P.threshold = .atProbability prob) ∧
      ∀ y, P.factors.map (fun f => f.cost (Spec.differ .three ω v) y) =
        (Spec.selected s' ⟨r0, c⟩).map fun b => Spec.offsetError ω v y (Spec.offset r0 O b) := by
  subst hO
  obtain ⟨env0, rfl⟩ := henv
  obtain ⟨X, hX, hv⟩ := ((C30_partial laws hr ha r e hne H hH hf href g hg).2 c hc hod).2.2 h7 hreg hon
  refine ⟨avgProblem .three method prob _, X, hX, hv, rfl, ?_, ?_, fun y => ?_⟩
  · rintro rfl; rfl
  · rintro rfl; rfl
  · simp only [avgProblem, List.map_map]
    exact List.map_congr_left fun b _ => cost_three ht y _

/-- C66 in 3D with method L2: the robot is moved by a transform that minimises the sum, over the accepted closures to the
reference robot, of the weighted distance to the suggested offset, if the optimizer does what it is asked. -/
theorem C66_l2_partial [LinearOrder K] (laws : Spec.PoseLaws cfg.ops) (hr : cfg.rejection = true) (ha : cfg.align = true)
    {ω v : G → List K} (ht : Spec.Tangent .three ω v) (prob : K) (solve : AvgProblem G K → Option G)
    (hs : Spec.FindsLeast (Spec.differ .three ω v) solve)
    {owner : Key → Chr} {start : Chr → Key} {h : List (Op G N)} {fs : Graph G N} {vs : Vals G} {s s' : St G T N} {x : Ret}
    (henv : ∃ env0 : Env G N, env = env0.averaging .three .l2 prob solve)
    (r : ReachOk cfg env h s) (e : exec cfg env (.update fs vs false) s = .ok s' x) (hne : fs ≠ [])
    (H : List (Op G N)) (hH : H = h ++ [.update fs vs false]) (hf : Spec.Fleet cfg owner start H)
    {r0 : Chr} (h7 : r0.toNat < 128) (href : Spec.Reference cfg r0 H) (g : Chr → G)
    (hg : ∀ c, Spec.robotOdom cfg c H ≠ [] → Spec.StartPose cfg env c (start c) H (g c))
    (c : Chr) (hc : c ≠ r0) (hod : Spec.robotOdom cfg c H ≠ []) (hreg : Spec.registered s' ⟨r0, c⟩ ≠ [])
    (O : Key → G) (hO : O = Spec.odomPose cfg start g H)
    (hon : ∀ b ∈ Spec.selected s' ⟨r0, c⟩, Spec.OnChain cfg start H b.k1 ∧ Spec.OnChain cfg start H b.k2) :
    ∃ X, (∀ k, chr k = c → Spec.OnChain cfg start H k → s'.values.find? k = some (.pose (X * O k))) ∧
      ∀ Y, ((Spec.selected s' ⟨r0, c⟩).map fun b => Spec.offsetError ω v X (Spec.offset r0 O b)).sum ≤
        ((Spec.selected s' ⟨r0, c⟩).map fun b => Spec.offsetError ω v Y (Spec.offset r0 O b)).sum := by
  obtain ⟨P, X, hP, hv, _, ht', _, hcost⟩ :=
    C66_average_partial laws hr ha ht .l2 prob solve henv r e hne H hH hf h7 href g hg c hc hod hreg O hO hon
  refine ⟨X, hv, fun Y => ?_⟩
  rw [← hcost X, ← hcost Y]
  exact hs P X (ht' rfl) hP Y

/-- C66, exact data, in 2D and in 3D and with both methods: if every accepted closure between robot `c` and the reference
robot agrees with frame offset `X`, whatever its direction, and one was accepted, the robot is moved by exactly `X`, if
the optimizer finds a pose of cost zero when there is one. -/
theorem C66_exact [LinearOrder K] [IsStrictOrderedRing K]
    (laws : Spec.PoseLaws cfg.ops) (hr : cfg.rejection = true) (ha : cfg.align = true)
    {d : Dim} {ω v : G → List K} (hch : Spec.Chart d ω v) (method : AlignMethod) (prob : K) (solve : AvgProblem G K → Option G)
    (hs : Spec.FindsExact (Spec.differ d ω v) solve)
    {owner : Key → Chr} {start : Chr → Key} {h : List (Op G N)} {fs : Graph G N} {vs : Vals G} {s s' : St G T N} {x : Ret}
    (henv : ∃ env0 : Env G N, env = env0.averaging d method prob solve)
    (r : ReachOk cfg env h s) (e : exec cfg env (.update fs vs false) s = .ok s' x) (hne : fs ≠ [])
    (H : List (Op G N)) (hH : H = h ++ [.update fs vs false]) (hf : Spec.Fleet cfg owner start H)
    {r0 : Chr} (h7 : r0.toNat < 128) (href : Spec.Reference cfg r0 H) (g : Chr → G)
    (hg : ∀ c, Spec.robotOdom cfg c H ≠ [] → Spec.StartPose cfg env c (start c) H (g c))
    (c : Chr) (hc : c ≠ r0) (hod : Spec.robotOdom cfg c H ≠ [])
    (hreg : Spec.registered s' ⟨r0, c⟩ ≠ []) (hsel : Spec.selected s' ⟨r0, c⟩ ≠ [])
    (O : Key → G) (hO : O = Spec.odomPose cfg start g H) (X : G)
    (hX : ∀ b ∈ Spec.selected s' ⟨r0, c⟩, Spec.OnChain cfg start H b.k1 ∧ Spec.OnChain cfg start H b.k2 ∧
      (chr b.k1 = r0 → b.m = (O b.k1)⁻¹ * (X * O b.k2)) ∧ (chr b.k1 ≠ r0 → b.m = (X * O b.k1)⁻¹ * O b.k2)) :
    ∀ k, chr k = c → Spec.OnChain cfg start H k → s'.values.find? k = some (.pose (X * O k)) := by
  obtain ⟨env0, rfl⟩ := henv
  obtain ⟨Y, hY, hv⟩ := C31_partial laws hr ha r e hne H hH hf h7 href g hg c hc hod hreg O hO X hX
  have hY : solve (avgProblem d method prob (List.replicate (Spec.selected s' ⟨r0, c⟩).length X)) = some Y := hY
  have hcost : ∀ y, (avgProblem d method prob (List.replicate (Spec.selected s' ⟨r0, c⟩).length X)).cost (Spec.differ d ω v) y =
      (Spec.selected s' ⟨r0, c⟩).length • (AvgFactor.mk X (avgSigmas d (1 / 10) (5 / 10) : List K)).cost (Spec.differ d ω v) y := by
    intro y
    simp only [AvgProblem.cost, avgProblem, List.map_map, List.map_replicate, List.sum_replicate]
  have h0 := hs _ Y X hY (by rw [hcost, ((cost_zero hch X X).2.2 rfl), smul_zero])
  rw [hcost] at h0
  have hlen : (Spec.selected s' ⟨r0, c⟩).length ≠ 0 := by simpa using hsel
  have h1 := (smul_eq_zero.1 h0).resolve_left hlen
  rw [(cost_zero hch Y X).2.1 h1] at hv
  exact hv

omit [Field K] in
/-- What a closure counts in 2D: its error along x is measured in units of 0.1, its error along y and its rotation error
in units of 0.5. -/
theorem C66_cost_2d [Field K] {ω v : G → List K} (method : AlignMethod) (prob : K) (cs : List G) (y : G)
    (tx ty θ : G → K) (hv : ∀ g, v g = [tx g, ty g]) (hw : ∀ g, ω g = [θ g]) :
    (avgProblem .two method prob cs).factors.map (fun f => f.cost (Spec.differ .two ω v) y) =
      cs.map fun g => tx (y⁻¹ * g) ^ 2 / (1 / 10) ^ 2 + ty (y⁻¹ * g) ^ 2 / (5 / 10) ^ 2 + θ (y⁻¹ * g) ^ 2 / (5 / 10) ^ 2 := by
  simp only [avgProblem, List.map_map]
  refine List.map_congr_left fun g _ => ?_
  simp only [Function.comp, AvgFactor.cost, AvgFactor.whitened, Spec.differ, Dim.logmap, hv, hw, avgSigmas_eq, Dim.rot, Dim.trans,
    List.replicate_succ, List.replicate_zero, List.cons_append, List.nil_append, List.zipWith_cons_cons,
    List.zipWith_nil_left, List.map_cons, List.map_nil, List.sum_cons, List.sum_nil, div_mul_div_comm, pow_two, add_zero, add_assoc]

/-- C66 is false of the code in 2D, with either method: for a closure that suggests offset `g`, an offset that differs from
`g` by a rotation of 1 rad (10 standard deviations) is taken for better than one that differs by 1 m along x (2 standard
deviations): the costs are 4 and 100 where 100 and 4 are meant. -/
theorem C66_false_2d [LinearOrder K] [IsStrictOrderedRing K] {ω v : G → List K} (method : AlignMethod) (prob : K) (g X Y : G)
    (tx ty θ : G → K) (hv : ∀ g, v g = [tx g, ty g]) (hw : ∀ g, ω g = [θ g])
    (hX : tx (X⁻¹ * g) = 1 ∧ ty (X⁻¹ * g) = 0 ∧ θ (X⁻¹ * g) = 0)
    (hY : tx (Y⁻¹ * g) = 0 ∧ ty (Y⁻¹ * g) = 0 ∧ θ (Y⁻¹ * g) = 1) :
    Spec.offsetError ω v X g = 4 ∧ Spec.offsetError ω v Y g = 100 ∧
    (avgProblem .two method prob [g]).cost (Spec.differ .two ω v) X = 100 ∧
    (avgProblem .two method prob [g]).cost (Spec.differ .two ω v) Y = 4 := by
  obtain ⟨x1, x2, x3⟩ := hX
  obtain ⟨y1, y2, y3⟩ := hY
  refine ⟨?_, ?_, ?_, ?_⟩
  · simp only [Spec.offsetError, Spec.sq, hv, hw, x1, x2, x3]; norm_num
  · simp only [Spec.offsetError, Spec.sq, hv, hw, y1, y2, y3]; norm_num
  · unfold AvgProblem.cost
    rw [C66_cost_2d method prob [g] X tx ty θ hv hw]
    simp [x1, x2, x3]; norm_num
  · unfold AvgProblem.cost
    rw [C66_cost_2d method prob [g] Y tx ty θ hv hw]
    simp [y1, y2, y3]; norm_num

/-! ### A run -/

/-- Robots on a line in space. -/
def lineRot (_ : Demo.Z) : List ℚ := [0, 0, 0]
def lineTrans (g : Demo.Z) : List ℚ := [((Multiplicative.toAdd g : ℤ) : ℚ), 0, 0]

theorem line_chart : Spec.Chart .three lineRot lineTrans where
  rot _ := rfl
  trans _ := rfl
  zero g _ h := by
    have := h _ (List.mem_cons_self)
    have h0 : (Multiplicative.toAdd g : ℤ) = 0 := by exact_mod_cast this
    exact h0
  rot_one := by decide +kernel
  trans_one := by decide +kernel

/-- An optimizer that returns the pose on which all factors agree, and throws if they do not. -/
def agreeing (P : AvgProblem Demo.Z ℚ) : Option Demo.Z :=
  match P.factors with
  | [] => some 1
  | f :: fs => if fs.all (fun f' => f'.pose == f.pose) && (f :: fs).all (fun f' => f'.sigmas == avgSigmas .three (1 / 10) (5 / 10))
      then some f.pose else none

theorem agreeing_cost {P : AvgProblem Demo.Z ℚ} {X : Demo.Z} (h : agreeing P = some X) :
    P.cost (Spec.differ .three lineRot lineTrans) X = 0 := by
  unfold agreeing at h
  unfold AvgProblem.cost
  cases hP : P.factors with
  | nil => rfl
  | cons f fs =>
    rw [hP] at h
    simp only at h
    split at h
    · rename_i hall
      cases h
      rw [Bool.and_eq_true, List.all_eq_true, List.all_eq_true] at hall
      have key : ∀ f' ∈ f :: fs, f'.cost (Spec.differ .three lineRot lineTrans) f.pose = 0 := by
        intro f' hf
        have h2 : f'.sigmas = avgSigmas .three (1 / 10) (5 / 10) := by simpa using hall.2 f' hf
        have h1 : f'.pose = f.pose := by
          rcases List.mem_cons.1 hf with rfl | hf
          · rfl
          · simpa using hall.1 f' hf
        have : f' = ⟨f.pose, avgSigmas .three (1 / 10) (5 / 10)⟩ := by
          cases f'; simp only at h1 h2; rw [h1, h2]
        rw [this]
        exact (cost_zero line_chart _ _).2.2 rfl
      exact List.sum_eq_zero fun y hy => by
        obtain ⟨f', hf, rfl⟩ := List.mem_map.1 hy
        exact key f' hf
    · cases h

theorem cost_nonneg (P : AvgProblem Demo.Z ℚ) (loc : Demo.Z → Demo.Z → List ℚ) (Y : Demo.Z) : 0 ≤ P.cost loc Y :=
  List.sum_nonneg fun y hy => by
    obtain ⟨f, _, rfl⟩ := List.mem_map.1 hy
    exact sq_nonneg' _

theorem agreeing_least : Spec.FindsLeast (Spec.differ .three lineRot lineTrans) agreeing :=
  fun P X _ h Y => by rw [agreeing_cost h]; exact cost_nonneg P _ Y

theorem agreeing_exact : Spec.FindsExact (Spec.differ .three lineRot lineTrans) agreeing :=
  fun _ _ _ h _ => agreeing_cost h

/-- The demonstration environment with this averaging. -/
def avgEnv (m : AlignMethod) : Env Demo.Z Demo.Ns := Demo.env.averaging .three m (99 / 100) agreeing

set_option maxRecDepth 100000 in
/-- The hypotheses of the theorems are met: the run of two robots of which the second is moved by 5; the fleet, the
reference robot and the odometry positions of the closures are as required. -/
example : ∃ s, ReachOk Demo.cfgA (avgEnv .l2) [Demo.twoOdom Demo.a Demo.b, Demo.twoLoops Demo.a Demo.b] s ∧
    (Spec.selected s ⟨97, 98⟩ = [Demo.btw (Demo.b 1) (Demo.a 1) (-5), Demo.btw (Demo.b 0) (Demo.a 0) (-5)] ∧
    s.values.find? (Demo.b 0) = some (.pose (Demo.z 5)) ∧ s.values.find? (Demo.b 1) = some (.pose (Demo.z 6))) ∧
    Spec.FindsLeast (Spec.differ .three lineRot lineTrans) agreeing ∧
    Spec.Fleet Demo.cfgA (fun _ => 0) Demo.start [Demo.twoOdom Demo.a Demo.b, Demo.twoLoops Demo.a Demo.b] ∧
    Spec.Reference Demo.cfgA 97 [Demo.twoOdom Demo.a Demo.b, Demo.twoLoops Demo.a Demo.b] := by
  obtain ⟨s, r, h⟩ := Demo.runs_reach (cfg := Demo.cfgA) (env := avgEnv .l2)
    (ops := [Demo.twoOdom Demo.a Demo.b, Demo.twoLoops Demo.a Demo.b])
    (P := fun s => decide (Spec.selected s ⟨97, 98⟩ = [Demo.btw (Demo.b 1) (Demo.a 1) (-5), Demo.btw (Demo.b 0) (Demo.a 0) (-5)] ∧
      s.values.find? (Demo.b 0) = some (.pose (Demo.z 5)) ∧ s.values.find? (Demo.b 1) = some (.pose (Demo.z 6)))) (by decide +kernel)
  exact ⟨s, r, of_decide_eq_true h, agreeing_least, fleet_demo, reference_demo⟩

set_option maxRecDepth 100000 in
/-- Their start poses. -/
example (m : AlignMethod) (c : Chr)
    (hc : Spec.robotOdom Demo.cfgA c [Demo.twoOdom Demo.a Demo.b, Demo.twoLoops Demo.a Demo.b] ≠ []) :
    Spec.StartPose Demo.cfgA (avgEnv m) c (Demo.start c) [Demo.twoOdom Demo.a Demo.b, Demo.twoLoops Demo.a Demo.b] (Demo.z 0) := by
  have two : c = 97 ∨ c = 98 := by
    rw [fleet_odom] at hc
    by_cases h1 : c = 97
    · exact Or.inl h1
    · by_cases h2 : c = 98
      · exact Or.inr h2
      · rw [if_neg h1, if_neg h2] at hc; exact absurd rfl hc
  refine ⟨[], Demo.twoOdom Demo.a Demo.b, [Demo.twoLoops Demo.a Demo.b], St.init, _, _, rfl, .init, rfl, rfl, ?_, Or.inr ?_⟩
  · rcases two with rfl | rfl
    · show Spec.robotOdom Demo.cfgA 97 [Demo.twoOdom Demo.a Demo.b] ≠ []
      decide +kernel
    · show Spec.robotOdom Demo.cfgA 98 [Demo.twoOdom Demo.a Demo.b] ≠ []
      decide +kernel
  · rcases two with rfl | rfl <;> decide +kernel

/-- The hypotheses of `C66_false_2d` are met: offsets in the plane as triples (x, y, θ). -/
example : ∃ (g X Y : Multiplicative (ℤ × ℤ × ℤ)) (tx ty θ : Multiplicative (ℤ × ℤ × ℤ) → ℚ),
    (tx (X⁻¹ * g) = 1 ∧ ty (X⁻¹ * g) = 0 ∧ θ (X⁻¹ * g) = 0) ∧ (tx (Y⁻¹ * g) = 0 ∧ ty (Y⁻¹ * g) = 0 ∧ θ (Y⁻¹ * g) = 1) :=
  ⟨Multiplicative.ofAdd (7, 8, 9), Multiplicative.ofAdd (6, 8, 9), Multiplicative.ofAdd (7, 8, 8),
    fun g => ((Multiplicative.toAdd g).1 : ℤ), fun g => ((Multiplicative.toAdd g).2.1 : ℤ), fun g => ((Multiplicative.toAdd g).2.2 : ℤ),
    by decide +kernel⟩

end RPGO.Props
