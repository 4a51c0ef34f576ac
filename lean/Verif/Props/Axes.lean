import Verif.Props.Units
import Verif.Props.Plane
import Mathlib.LinearAlgebra.UnitaryGroup
/-
C97: the choice of coordinate axes does not matter.
-/

namespace RPGO.Spec
variable {G K C : Type} [Group G]

/-- The pose `g` when the axes of all frames, those of the world and those carried along, are turned by `r`. -/
def inAxes (r : G) : G →* G := (MulAut.conj r).toMonoidHom

/-- Turning the axes by `r` does not change the sizes of the rotation part `ω` and of the translation part `v` of a pose, as measured by `nrm`. -/
structure KeepsSizes (nrm : List K → K) (ω v : G → List K) (r : G) : Prop where
  rot : ∀ g, nrm (ω (r * g * r⁻¹)) = nrm (ω g)
  trans : ∀ g, nrm (v (r * g * r⁻¹)) = nrm (v g)

/-- A noise model in the turned axes: its covariance is transported by the adjoint of `r`. -/
def noiseInAxes (ad : G → C → C) (r : G) (n : GNoise C) : GNoise C := ⟨ad r n.cov, n.rotNaN⟩

/-- What is used of covariances: they are transported by a linear action of the poses, and turning the axes by `r` keeps positive definiteness,
commutes with taking the translation part, and keeps the Mahalanobis norms of a pose turned along. -/
structure KeepsNorms [Add C] [Zero C] (ce : CovEnv G C K) (r : G) : Prop where
  zero : ce.ad r 0 = 0
  add : ∀ S R, ce.ad r (S + R) = ce.ad r S + ce.ad r R
  one : ∀ S, ce.ad 1 S = S
  mul : ∀ g h S, ce.ad (g * h) S = ce.ad g (ce.ad h S)
  posDef : ∀ S, ce.posDef (ce.ad r S) = ce.posDef S
  transPart : ∀ S, ce.transPart (ce.ad r S) = ce.ad r (ce.transPart S)
  maha : ∀ g S, ce.maha (r * g * r⁻¹) (ce.ad r S) = ce.maha g S
  mahaT : ∀ g S, ce.mahaT (r * g * r⁻¹) (ce.ad r S) = ce.mahaT g S

end RPGO.Spec

namespace RPGO.Props
open RPGO Spec

section
variable {G K C : Type} [Group G] [Field K] [LinearOrder K] [IsStrictOrderedRing K]

/-- C97 (PCM_Simple3D): let the axes of all frames be turned by one rotation `r`, so that every measurement and every value `g` is written
`r g r⁻¹`. Then every history of calls leaves a solver with the same contents, counts and weights, written in these axes, and every further call
returns the same, raises the same exception or is undefined as before; and there are no other histories. It is assumed that the optimizer (and,
if frames are aligned, the averaging) treats the converted problem in the same way. -/
theorem C97_axes (p : Params K) (nrm : List K → K) {ω v : G → List K} (ht : Tangent .three ω v) {r : G} (hr : KeepsSizes nrm ω v r)
    {ν : GNoise C → GNoise C} (hν : SameRot ν) (signed : Bool) {env env' : Env G (GNoise C)} (he : Converted (inAxes r) ν p.align env env')
    {h : List (Op G (GNoise C))} :
    (∀ s, Reach (poseCfg p .three C nrm ω v signed) env h s →
      ∃ s', Reach (poseCfg p .three C nrm ω v signed) env' (h.map (cvOp (inAxes r) ν)) s' ∧ ShowsSame (inAxes r) ν s s' ∧
        ∀ op, EndsAlike (inAxes r) ν (exec (poseCfg p .three C nrm ω v signed) env op s)
          (exec (poseCfg p .three C nrm ω v signed) env' (cvOp (inAxes r) ν op) s')) ∧
    ∀ s', Reach (poseCfg p .three C nrm ω v signed) env' (h.map (cvOp (inAxes r) ν)) s' →
      ∃ s, Reach (poseCfg p .three C nrm ω v signed) env h s ∧ ShowsSame (inAxes r) ν s s' := by
  have hh : CfgHom (inAxes r) ν (fun a => ⟨inAxes r a.pose, a.node, a.rot⟩) (poseCfg p .three C nrm ω v signed) (poseCfg p .three C nrm ω v signed) := by
    have hp : inUnits 1 p = p := by unfold inUnits; rw [one_mul, one_mul]
    have := simple_hom (C := C) (C' := C) (c := (1 : K)) one_pos (φ := inAxes r) hν
      (tn := tnOf .three nrm fun g => Dim.three.logmap (ω g) (v g)) (tn' := tnOf .three nrm fun g => Dim.three.logmap (ω g) (v g))
      (rn := rnOf .three nrm fun g => Dim.three.logmap (ω g) (v g)) (rn' := rnOf .three nrm fun g => Dim.three.logmap (ω g) (v g))
      (fun g => by rw [(C54_norms_3d nrm ht _).1, (C54_norms_3d nrm ht _).1, one_mul]; exact hr.trans g)
      (fun g => by rw [(C54_norms_3d nrm ht _).2, (C54_norms_3d nrm ht _).2]; exact hr.rot g) p signed
    rw [hp] at this
    exact this
  refine ⟨fun s r => ⟨_, reach_cv hh he r, showsSame_cv s, fun op => endsAlike_cv hh he op s⟩, fun s' r => ?_⟩
  obtain ⟨s, r0, rfl⟩ := reach_back hh he r h rfl
  exact ⟨s, r0, showsSame_cv s⟩

omit [IsStrictOrderedRing K] in
/-- C97 (PCM2D and PCM3D): the same with covariances, which are turned along. -/
theorem C97_axes_cov [AddGroup C] (p : Params K) {ce : CovEnv G C K} {r : G} (hr : KeepsNorms ce r) (signed : Bool)
    {env env' : Env G (GNoise C)} (he : Converted (inAxes r) (noiseInAxes ce.ad r) p.align env env') {h : List (Op G (GNoise C))} :
    (∀ s, Reach (p.cfgCov ce signed) env h s →
      ∃ s', Reach (p.cfgCov ce signed) env' (h.map (cvOp (inAxes r) (noiseInAxes ce.ad r))) s' ∧
        ShowsSame (inAxes r) (noiseInAxes ce.ad r) s s' ∧
        ∀ op, EndsAlike (inAxes r) (noiseInAxes ce.ad r) (exec (p.cfgCov ce signed) env op s)
          (exec (p.cfgCov ce signed) env' (cvOp (inAxes r) (noiseInAxes ce.ad r) op) s')) ∧
    ∀ s', Reach (p.cfgCov ce signed) env' (h.map (cvOp (inAxes r) (noiseInAxes ce.ad r))) s' →
      ∃ s, Reach (p.cfgCov ce signed) env h s ∧ ShowsSame (inAxes r) (noiseInAxes ce.ad r) s s' := by
  have hs : CovRescaled (inAxes r) (ce.ad r) ce ce := by
    refine ⟨hr.zero, hr.add, fun g S => ?_, hr.posDef, hr.transPart, hr.maha, hr.mahaT⟩
    show ce.ad (r * g * r⁻¹) (ce.ad r S) = _
    rw [hr.mul, ← hr.mul r⁻¹ r, inv_mul_cancel, hr.one, hr.mul]
  exact C82_units_cov p hs signed he

end

section
open Matrix

/-- The hypothesis of `C97_axes` is met by rotations: if the rotation and translation parts of `Logmap` of the turned pose are the
parts of the pose, turned by orthogonal matrices, their Euclidean norms stay. -/
theorem C97_rotation {G : Type} [Group G] {a b : G → Fin 3 → ℝ} {r : G} {O Q : Matrix (Fin 3) (Fin 3) ℝ}
    (hO : O ∈ Matrix.orthogonalGroup (Fin 3) ℝ) (hQ : Q ∈ Matrix.orthogonalGroup (Fin 3) ℝ)
    (ha : ∀ g, a (r * g * r⁻¹) = O *ᵥ a g) (hb : ∀ g, b (r * g * r⁻¹) = Q *ᵥ b g) :
    Tangent .three (fun g => List.ofFn (a g)) (fun g => List.ofFn (b g)) ∧
    KeepsSizes (fun l => Real.sqrt (Spec.sq l)) (fun g => List.ofFn (a g)) (fun g => List.ofFn (b g)) r := by
  have hsq : ∀ x : Fin 3 → ℝ, Spec.sq (List.ofFn x) = x ⬝ᵥ x := by
    intro x
    simp [Spec.sq, dotProduct, Fin.sum_univ_three]
    ring
  have key : ∀ {O : Matrix (Fin 3) (Fin 3) ℝ}, O ∈ Matrix.orthogonalGroup (Fin 3) ℝ → ∀ x : Fin 3 → ℝ, (O *ᵥ x) ⬝ᵥ (O *ᵥ x) = x ⬝ᵥ x := by
    intro O hO x
    have h : Oᵀ * O = 1 := (Matrix.mem_orthogonalGroup_iff' (Fin 3) ℝ).1 hO
    rw [Matrix.dotProduct_mulVec, ← Matrix.mulVec_transpose, Matrix.mulVec_mulVec, h, Matrix.one_mulVec]
  refine ⟨⟨fun _ => List.length_ofFn, fun _ => List.length_ofFn⟩, fun g => ?_, fun g => ?_⟩
  · show Real.sqrt (Spec.sq _) = Real.sqrt (Spec.sq _)
    rw [hsq, hsq, ha, key hO]
  · show Real.sqrt (Spec.sq _) = Real.sqrt (Spec.sq _)
    rw [hsq, hsq, hb, key hQ]

variable {G n : Type} [Group G] [Fintype n] [DecidableEq n]

/-- The hypothesis of `C97_axes_cov` is met by real covariance matrices if `r` is a rotation: its adjoint matrix does not mix translation
components (`t i`) with rotation components. -/
theorem C97_matrices {Ad : G →* Matrix n n ℝ} (t : n → Bool) {log : G → n → ℝ} {r : G}
    (hl : ∀ g, log (r * g * r⁻¹) = Ad r *ᵥ log g) (hr : ∀ i j, t i ≠ t j → Ad r i j = 0) :
    KeepsNorms (matEnv (K := ℝ) Ad t (fun g S => some (log g ⬝ᵥ S⁻¹ *ᵥ log g))
        fun g S => some ((fun i : { i // t i } => log g i) ⬝ᵥ (S.submatrix (↑) (↑) : Matrix { i // t i } { i // t i } ℝ)⁻¹ *ᵥ fun i : { i // t i } => log g i)) r := by
  have key : ∀ {m : Type} [Fintype m] [DecidableEq m] (A B : Matrix m m ℝ), B * A = 1 → ∀ (S : Matrix m m ℝ) (x : m → ℝ),
      (A *ᵥ x) ⬝ᵥ (A * S * Aᵀ)⁻¹ *ᵥ (A *ᵥ x) = x ⬝ᵥ S⁻¹ *ᵥ x := by
    intro m _ _ A B hBA S x
    have hAB : A * B = 1 := mul_eq_one_comm.1 hBA
    have hi : A⁻¹ = B := Matrix.inv_eq_left_inv hBA
    have hit : Aᵀ⁻¹ = Bᵀ := by rw [← Matrix.transpose_nonsing_inv, hi]
    rw [Matrix.mul_inv_rev, Matrix.mul_inv_rev, hi, hit, Matrix.mulVec_mulVec, Matrix.mul_assoc, Matrix.mul_assoc, hBA, Matrix.mul_one,
      ← Matrix.mulVec_mulVec, Matrix.dotProduct_mulVec, ← Matrix.mulVec_transpose, Matrix.transpose_transpose, Matrix.mulVec_mulVec, hBA,
      Matrix.one_mulVec]
  have hinv : Ad r⁻¹ * Ad r = 1 := by rw [← map_mul, inv_mul_cancel, map_one]
  have hinv' : Ad r * Ad r⁻¹ = 1 := by rw [← map_mul, mul_inv_cancel, map_one]
  refine ⟨?_, ?_, ?_, ?_, ?_, ?_, ?_, ?_⟩
  · show Ad r * 0 * _ = 0
    simp
  · intro S R
    show Ad r * (S + R) * _ = Ad r * S * _ + Ad r * R * _
    rw [Matrix.mul_add, Matrix.add_mul]
  · intro S
    show Ad 1 * S * (Ad 1)ᵀ = S
    simp
  · intro g h S
    show Ad (g * h) * S * (Ad (g * h))ᵀ = Ad g * (Ad h * S * (Ad h)ᵀ) * (Ad g)ᵀ
    simp [map_mul, Matrix.mul_assoc]
  · intro S
    simp only [matEnv]
    refine decide_eq_decide.2 ?_
    have hu : IsUnit (Ad r) := ⟨⟨Ad r, Ad r⁻¹, hinv', hinv⟩, rfl⟩
    have := Matrix.IsUnit.posDef_star_right_conjugate_iff (x := S) hu
    simpa [star_eq_conjTranspose] using this
  · intro S
    ext i j
    simp only [matEnv, Matrix.of_apply, Matrix.mul_apply, Matrix.transpose_apply]
    by_cases hi : t i = true
    · by_cases hj : t j = true
      · simp only [hi, hj, Bool.and_self, if_true]
        refine Finset.sum_congr rfl fun l _ => ?_
        by_cases hl : t l = true
        · simp only [hl, Bool.and_true]
          congr 1
          refine Finset.sum_congr rfl fun k _ => ?_
          by_cases hk : t k = true
          · simp [hk]
          · rw [hr i k (by rw [hi]; exact fun h => hk h.symm)]; simp
        · rw [hr j l (by rw [hj]; exact fun h => hl h.symm)]; simp
      · simp only [hi, hj, Bool.and_false]
        refine (Finset.sum_eq_zero fun l _ => ?_).symm
        by_cases hl : t l = true
        · rw [hr j l (by rw [hl]; exact hj)]; simp
        · simp [hl]
    · simp only [hi, Bool.false_and]
      refine (Finset.sum_eq_zero fun l _ => ?_).symm
      refine mul_eq_zero_of_left (Finset.sum_eq_zero fun k _ => ?_) _
      by_cases hk : t k = true
      · rw [hr i k (by rw [hk]; exact hi)]; simp
      · simp [hk]
  · intro g S
    show some (log (r * g * r⁻¹) ⬝ᵥ (Ad r * S * (Ad r)ᵀ)⁻¹ *ᵥ log (r * g * r⁻¹)) = some _
    rw [hl, key (Ad r) (Ad r⁻¹) hinv]
  · intro g S
    have sum : ∀ f : n → ℝ, (∀ k, t k ≠ true → f k = 0) → ∑ k, f k = ∑ k : { i // t i }, f k := by
      intro f hf
      rw [← Fintype.sum_subtype_add_sum_subtype (fun k => t k = true) f,
        Finset.sum_eq_zero (s := Finset.univ) (f := fun k : { k // ¬ t k = true } => f k) (fun k _ => hf k k.2), add_zero]
    have subL : ∀ (A B : Matrix n n ℝ), (∀ i j, t i ≠ t j → A i j = 0) →
        ((A * B).submatrix (↑) (↑) : Matrix { i // t i } { i // t i } ℝ) = A.submatrix (↑) (↑) * B.submatrix (↑) (↑) := by
      intro A B hA
      ext i j
      simp only [Matrix.submatrix_apply, Matrix.mul_apply]
      exact sum _ fun k hk => by rw [hA i k (by rw [i.2]; exact fun h => hk h.symm), zero_mul]
    have subR : ∀ (A B : Matrix n n ℝ), (∀ i j, t i ≠ t j → B i j = 0) →
        ((A * B).submatrix (↑) (↑) : Matrix { i // t i } { i // t i } ℝ) = A.submatrix (↑) (↑) * B.submatrix (↑) (↑) := by
      intro A B hB
      ext i j
      simp only [Matrix.submatrix_apply, Matrix.mul_apply]
      exact sum _ fun k hk => by rw [hB k j (by rw [j.2]; exact hk), mul_zero]
    have hv : (fun i : { i // t i } => log (r * g * r⁻¹) i) =
        ((Ad r).submatrix (↑) (↑) : Matrix { i // t i } { i // t i } ℝ) *ᵥ fun i : { i // t i } => log g i := by
      funext i
      rw [hl]
      exact sum (fun k => Ad r i k * log g k) fun k hk => by
        show Ad r i k * log g k = 0
        rw [hr i k (by rw [i.2]; exact fun h => hk h.symm), zero_mul]
    have hm : ((Ad r * S * (Ad r)ᵀ).submatrix (↑) (↑) : Matrix { i // t i } { i // t i } ℝ) =
        (Ad r).submatrix (↑) (↑) * S.submatrix (↑) (↑) * ((Ad r).submatrix (↑) (↑))ᵀ := by
      rw [subR _ (Ad r)ᵀ fun i j h => hr j i h.symm, subL _ _ hr]
      rfl
    have h1 : ((Ad r⁻¹).submatrix (↑) (↑) : Matrix { i // t i } { i // t i } ℝ) * (Ad r).submatrix (↑) (↑) = 1 := by
      rw [← subR _ _ hr, hinv]
      exact Matrix.submatrix_one _ Subtype.val_injective
    show some ((fun i : { i // t i } => log (r * g * r⁻¹) i) ⬝ᵥ
      ((Ad r * S * (Ad r)ᵀ).submatrix (↑) (↑) : Matrix { i // t i } { i // t i } ℝ)⁻¹ *ᵥ fun i : { i // t i } => log (r * g * r⁻¹) i) = some _
    rw [hv, hm, key _ _ h1]

end

/-- The averaging of the code (3D) meets the condition of `C97_axes`: what it minimizes stays when candidates and result are turned along, and so
does its threshold. -/
theorem C97_average {G K : Type} [Group G] [Field K] {ω v : G → List K} (ht : Tangent .three ω v) {r : G} (hr : KeepsSizes Spec.sq ω v r)
    (method : AlignMethod) (prob : K) (cs : List G) (x : G) :
    (avgProblem .three method prob (cs.map (inAxes r))).cost (differ .three ω v) (inAxes r x) =
      (avgProblem .three method prob cs).cost (differ .three ω v) x ∧
    (avgProblem .three method prob (cs.map (inAxes r))).threshold = (avgProblem .three method prob cs).threshold := by
  refine ⟨?_, rfl⟩
  have one : ∀ g : G, (AvgFactor.mk (inAxes r g) (avgSigmas .three (1 / 10) (5 / 10) : List K)).cost (differ .three ω v) (inAxes r x) =
      (AvgFactor.mk g (avgSigmas .three (1 / 10) (5 / 10) : List K)).cost (differ .three ω v) x := by
    intro g
    have e : (inAxes r x)⁻¹ * inAxes r g = r * (x⁻¹ * g) * r⁻¹ := by rw [← map_inv, ← map_mul]; rfl
    rw [cost_three ht, cost_three ht, offsetError, offsetError, e, hr.rot, hr.trans]
  induction cs with
  | nil => rfl
  | cons g cs ih =>
    show _ + _ = _ + _
    exact congrArg₂ (· + ·) (one g) ih

/-! ### In the plane -/

open Plane in
/-- A quarter turn. -/
def quarter : Pose := ⟨0, 0, 0, 1, by decide +kernel⟩

open Plane in
/-- Planar poses in space: rotation about the vertical axis (one minus its cosine), translation in the plane. -/
def flat : Cfg Pose Plane.Tp Plane.Ns :=
  poseCfg (Params.default.apply (.simple3D 1 1 .quiet)) .three Unit norm1 (fun g => [0, 0, 1 - g.c]) (fun g => [g.x, g.y, 0]) true

open Plane in
theorem quarter_keeps : KeepsSizes norm1 (fun g : Pose => [0, 0, 1 - g.c]) (fun g => [g.x, g.y, 0]) quarter := by
  refine ⟨fun g => ?_, fun g => ?_⟩
  · have : (quarter * g * quarter⁻¹).c = g.c := by
      simp only [mul_c, mul_s, inv_c, inv_s, quarter]; ring
    show norm1 [0, 0, 1 - (quarter * g * quarter⁻¹).c] = _
    rw [this]
  · have hx : (quarter * g * quarter⁻¹).x = -g.y := by
      simp only [mul_x, mul_c, mul_s, inv_x, inv_y, quarter]; ring
    have hy : (quarter * g * quarter⁻¹).y = g.x := by
      simp only [mul_y, mul_c, mul_s, inv_x, inv_y, quarter]; ring
    show norm1 [(quarter * g * quarter⁻¹).x, (quarter * g * quarter⁻¹).y, 0] = _
    rw [hx, hy]
    simp [norm1, add_comm]

open Plane in
theorem plane_axes (r : Pose) (align : Bool) : Converted (inAxes r) id align Plane.env Plane.env := by
  refine ⟨fun _ _ => rfl, fun g v _ _ => ?_, fun _ l => ?_, fun _ => rfl, fun _ => rfl⟩
  · show some (_, List.replicate (cvGraph (inAxes r) id g).length 1) = some (_, List.replicate g.length 1)
    rw [show (cvGraph (inAxes r) id g).length = g.length from List.length_map _]
  · cases l <;> rfl

open Plane in
/-- Three turns, a closure that fits and one that does not. -/
def threeTurns : List (Op Pose Plane.Ns) :=
  [.update [edge (Demo.a 0) (Demo.a 1) (turned 1 0)] [pose (Demo.a 0) 1, pose (Demo.a 1) (turned 1 0)] true,
   .update [edge (Demo.a 1) (Demo.a 2) (turned 1 2)] [pose (Demo.a 2) (turned 1 0 * turned 1 2)] true,
   .update [edge (Demo.a 0) (Demo.a 2) (turned 1 0 * turned 1 2), edge (Demo.a 0) (Demo.a 2) (tr 30 0)] [] true]

set_option maxRecDepth 100000 in
open Plane in
/-- The hypotheses of `C97_axes` are met by a run with an accepted and a rejected closure, and its conclusion is seen in it. -/
example : ∃ s s', Reach flat Plane.env threeTurns s ∧ Reach flat Plane.env (threeTurns.map (cvOp (inAxes quarter) id)) s' ∧
    ShowsSame (inAxes quarter) id s s' ∧
    registered s' ⟨97, 97⟩ = [btw (Demo.a 0) (Demo.a 2) (quarter * (turned 1 0 * turned 1 2) * quarter⁻¹)] := by
  obtain ⟨s', r', h'⟩ := Demo.runs_reach (cfg := flat) (env := Plane.env) (ops := threeTurns.map (cvOp (inAxes quarter) id))
    (P := fun s => decide (registered s ⟨97, 97⟩ = [btw (Demo.a 0) (Demo.a 2) (quarter * (turned 1 0 * turned 1 2) * quarter⁻¹)]))
    (by decide +kernel)
  obtain ⟨s, r, hs⟩ := (C97_axes (C := Unit) (Params.default.apply (.simple3D 1 1 .quiet)) norm1
    ⟨fun _ => rfl, fun _ => rfl⟩ quarter_keeps (ν := id) (fun _ => rfl) true (plane_axes quarter _) (h := threeTurns)).2 s' r'.reach
  exact ⟨s, s', r, r'.reach, hs, of_decide_eq_true h'⟩

open Plane in
/-- Two unit steps and a closure that is off by 48 in the direction of travel. -/
def longStep : List (Op Pose Plane.Ns) :=
  [.update [edge (Demo.a 0) (Demo.a 1) (tr 1 0)] [pose (Demo.a 0) 1, pose (Demo.a 1) (tr 1 0)] true,
   .update [edge (Demo.a 1) (Demo.a 2) (tr 1 0)] [pose (Demo.a 2) (tr 2 0)] true,
   .update [edge (Demo.a 0) (Demo.a 2) (tr 50 0)] [] true]

open Plane in
/-- `setPcmSimple2DParams(1, 100)` for planar poses. -/
def flat2 : Cfg Pose Plane.Tp Plane.Ns :=
  poseCfg (Params.default.apply (.simple2D 1 100 .quiet)) .two Unit norm1 (fun g => [1 - g.c]) (fun g => [g.x, g.y]) true

set_option maxRecDepth 100000 in
open Plane in
/-- C97 is false with PCM_Simple2D, where the rotation threshold is compared with the x component (C54): a closure that is accepted is rejected
when all axes are turned by a quarter. -/
theorem C97_false_2d : KeepsSizes norm1 (fun g : Pose => [1 - g.c]) (fun g => [g.x, g.y]) quarter ∧ ∃ s s',
    ReachOk flat2 Plane.env longStep s ∧ ReachOk flat2 Plane.env (longStep.map (cvOp (inAxes quarter) id)) s' ∧
    registered s ⟨97, 97⟩ = [btw (Demo.a 0) (Demo.a 2) (tr 50 0)] ∧ registered s' ⟨97, 97⟩ = [] := by
  obtain ⟨s, r, h⟩ := Demo.runs_reach (cfg := flat2) (env := Plane.env) (ops := longStep)
    (P := fun s => decide (registered s ⟨97, 97⟩ = [btw (Demo.a 0) (Demo.a 2) (tr 50 0)])) (by decide +kernel)
  obtain ⟨s', r', h'⟩ := Demo.runs_reach (cfg := flat2) (env := Plane.env) (ops := longStep.map (cvOp (inAxes quarter) id))
    (P := fun s => decide (registered s ⟨97, 97⟩ = [])) (by decide +kernel)
  refine ⟨⟨fun g => ?_, fun g => ?_⟩, s, s', r, r', of_decide_eq_true h, of_decide_eq_true h'⟩
  · have := quarter_keeps.rot g
    simpa [norm1] using this
  · have := quarter_keeps.trans g
    simpa [norm1] using this

open Plane in
/-- Two unit steps and a closure with the right position and another heading. -/
def otherHeading : List (Op Pose Plane.Ns) :=
  [.update [edge (Demo.a 0) (Demo.a 1) (tr 1 0)] [pose (Demo.a 0) 1, pose (Demo.a 1) (tr 1 0)] true,
   .update [edge (Demo.a 1) (Demo.a 2) (tr 1 0)] [pose (Demo.a 2) (tr 2 0)] true,
   .update [edge (Demo.a 0) (Demo.a 2) (turned 2 0)] [] true]

set_option maxRecDepth 100000 in
open Plane in
/-- C97 is about the axes: if the origins of the frames are moved (by 100 to the side), a closure that is accepted is rejected, because an
error of the heading becomes an error of the position. -/
theorem C97_false_origin : ∃ s s',
    ReachOk flat Plane.env otherHeading s ∧ ReachOk flat Plane.env (otherHeading.map (cvOp (inAxes (tr 0 100)) id)) s' ∧
    registered s ⟨97, 97⟩ = [btw (Demo.a 0) (Demo.a 2) (turned 2 0)] ∧ registered s' ⟨97, 97⟩ = [] := by
  obtain ⟨s, r, h⟩ := Demo.runs_reach (cfg := flat) (env := Plane.env) (ops := otherHeading)
    (P := fun s => decide (registered s ⟨97, 97⟩ = [btw (Demo.a 0) (Demo.a 2) (turned 2 0)])) (by decide +kernel)
  obtain ⟨s', r', h'⟩ := Demo.runs_reach (cfg := flat) (env := Plane.env) (ops := otherHeading.map (cvOp (inAxes (tr 0 100)) id))
    (P := fun s => decide (registered s ⟨97, 97⟩ = [])) (by decide +kernel)
  exact ⟨s, s', r, r', of_decide_eq_true h, of_decide_eq_true h'⟩

end RPGO.Props
