import Verif.Proofs.Convert
import Verif.Props.Norms
import Verif.Props.FormulaCov
import Verif.Props.Averaging
import Mathlib.GroupTheory.SemidirectProduct
/-
C82: the unit of length does not matter.
-/

namespace RPGO.Spec
variable {G G' K C C' : Type}

/-- The parameters with both translation thresholds expressed in a unit in which lengths are `c` times as large. -/
def inUnits [Mul K] (c : K) (p : Params K) : Params K := { p with odomT := c * p.odomT, distT := c * p.distT }

/-- The same poses in another unit: `φ` keeps the rotation and multiplies the translation by `c`. -/
structure Rescaled [Mul K] (c : K) (φ : G → G') (ω v : G → List K) (ω' v' : G' → List K) : Prop where
  rot : ∀ g, ω' (φ g) = ω g
  trans : ∀ g, v' (φ g) = (v g).map (c * ·)

/-- The same noise in another unit: what is known about the rotation stays. -/
def SameRot (ν : GNoise C → GNoise C') : Prop := ∀ n, (ν n).rotNaN = n.rotNaN

/-- The same covariances in another unit (`ψ`): transporting, adding, testing and taking the translation part commute with the conversion, and
Mahalanobis norms, which have no unit, stay. -/
structure CovRescaled [Add C] [Add C'] [Zero C] [Zero C'] (φ : G → G') (ψ : C → C') (ce : CovEnv G C K) (ce' : CovEnv G' C' K) : Prop where
  zero : ψ 0 = 0
  add : ∀ S R, ψ (S + R) = ψ S + ψ R
  ad : ∀ g S, ce'.ad (φ g) (ψ S) = ψ (ce.ad g S)
  posDef : ∀ S, ce'.posDef (ψ S) = ce.posDef S
  transPart : ∀ S, ce'.transPart (ψ S) = ψ (ce.transPart S)
  maha : ∀ g S, ce'.maha (φ g) (ψ S) = ce.maha g S
  mahaT : ∀ g S, ce'.mahaT (φ g) (ψ S) = ce.mahaT g S

end RPGO.Spec

namespace RPGO
open Spec
variable {G G' K C C' : Type} [Group G] [Group G'] [Field K] [LinearOrder K] [IsStrictOrderedRing K]

theorem quot_scaled {c : K} (hc : 0 < c) (x : K) (n : Int) (t : K) :
    ltThr (PNode.quot (c * x) n) (c * t) = ltThr (PNode.quot x n) t := by
  unfold PNode.quot
  split
  · rfl
  · show decide (c * x / n < c * t) = decide (x / n < t)
    rw [mul_div_assoc]
    exact decide_eq_decide.2 (mul_lt_mul_iff_right₀ hc)

theorem check_scaled {c : K} (hc : 0 < c) {φ : G → G'} {tn rn : G → K} {tn' rn' : G' → K} (ht : ∀ g, tn' (φ g) = c * tn g)
    (hr : ∀ g, rn' (φ g) = rn g) (t r : K) (a : PNode G) :
    PNode.check tn' rn' (c * t) r ⟨φ a.pose, a.node, a.rot⟩ = PNode.check tn rn t r a := by
  unfold PNode.check PNode.avgTrans PNode.avgRot
  rw [ht, hr, quot_scaled hc]

theorem check_sign {c : K} (hc : 0 < c) (t : K) : decide (c * t < 0) = decide (t < 0) :=
  decide_eq_decide.2 (by constructor <;> intro h <;> nlinarith)

theorem simple_hom {c : K} (hc : 0 < c) {φ : G →* G'} {ν : GNoise C → GNoise C'} (hν : SameRot ν) {tn rn : G → K} {tn' rn' : G' → K}
    (ht : ∀ g, tn' (φ g) = c * tn g) (hr : ∀ g, rn' (φ g) = rn g) (p : Params K) (signed : Bool) :
    CfgHom φ ν (fun a => ⟨φ a.pose, a.node, a.rot⟩) (p.cfgSimple C tn rn signed) ((inUnits c p).cfgSimple C' tn' rn' signed) where
  ops := {
    dflt := by show PNode.dflt = _; simp [PNode.dflt, Params.cfgSimple, Params.cfg, PNode.ops]
    ofPose := fun g => rfl
    ofFactor := fun g n => by
      show (⟨φ g, 1, !(ν n).rotNaN⟩ : PNode G') = ⟨φ g, 1, !n.rotNaN⟩
      rw [hν]
    compose := fun a b => by
      show (⟨φ a.pose * φ b.pose, _, _⟩ : PNode G') = ⟨φ (a.pose * b.pose), _, _⟩
      rw [map_mul]; rfl
    inverse := fun a => by
      show (⟨(φ a.pose)⁻¹, _, _⟩ : PNode G') = ⟨φ (a.pose⁻¹), _, _⟩
      rw [map_inv]; rfl
    between := fun a b => by
      show (⟨(φ a.pose)⁻¹ * φ b.pose, _, _⟩ : PNode G') = ⟨φ (a.pose⁻¹ * b.pose), _, _⟩
      rw [map_mul, map_inv]; rfl
    pose := fun a => rfl
    odomOk := fun a => check_scaled hc ht hr _ _ a
    loopOk := fun a => check_scaled hc ht hr _ _ a }
  rejection := rfl
  special := rfl
  odomCheck := by
    show (!(_ || _ || decide (c * p.odomT < 0))) = _
    rw [check_sign hc]; rfl
  loopCheck := by
    show (!(_ || _ || decide (c * p.distT < 0))) = _
    rw [check_sign hc]; rfl
  incremental := rfl
  align := rfl
  lm := rfl
  debug := rfl
  log := rfl
  useGnc := rfl
  fixPrev := rfl
  biasOdom := rfl
  charSigned := rfl

omit [Field K] [IsStrictOrderedRing K] in
theorem cov_hom [Field K] [AddGroup C] [AddGroup C'] {φ : G →* G'} {ψ : C → C'} {ce : CovEnv G C K} {ce' : CovEnv G' C' K}
    (hs : CovRescaled φ ψ ce ce') (p : Params K) (signed : Bool) :
    CfgHom φ (fun n => ⟨ψ n.cov, n.rotNaN⟩) (fun a => ⟨φ a.pose, ψ a.cov, a.rot⟩) (p.cfgCov ce signed) (p.cfgCov ce' signed) := by
  have hsub : ∀ S R, ψ (S - R) = ψ S - ψ R := (AddMonoidHom.mk' ψ hs.add).map_sub
  have chk : ∀ (thr : K) (a : PCov G C), PCov.check ce' thr ⟨φ a.pose, ψ a.cov, a.rot⟩ = PCov.check ce thr a := by
    intro thr a
    unfold PCov.check PCov.norm
    dsimp only
    rw [hs.maha, hs.mahaT]
  refine { ops := ?_, rejection := rfl, special := rfl, odomCheck := rfl, loopCheck := rfl, incremental := rfl, align := rfl, lm := rfl, debug := rfl, log := rfl, useGnc := rfl, fixPrev := rfl, biasOdom := rfl, charSigned := rfl }
  refine { dflt := ?_, ofPose := ?_, ofFactor := ?_, compose := ?_, inverse := ?_, between := ?_, pose := fun _ => rfl, odomOk := chk _, loopOk := chk _ }
  · show (⟨1, 0, true⟩ : PCov G' C') = ⟨φ 1, ψ 0, true⟩
    rw [map_one, hs.zero]
  · intro g
    show (⟨φ g, 0, true⟩ : PCov G' C') = ⟨φ g, ψ 0, true⟩
    rw [hs.zero]
  · intro g n
    show PCov.ofFactor ce' (φ g) ⟨ψ n.cov, n.rotNaN⟩ = ⟨φ (PCov.ofFactor ce g n).pose, ψ (PCov.ofFactor ce g n).cov, (PCov.ofFactor ce g n).rot⟩
    unfold PCov.ofFactor
    dsimp only
    split
    · rw [hs.transPart]
    · rfl
  · intro a b
    show (⟨φ a.pose * φ b.pose, ce'.ad (φ b.pose)⁻¹ (ψ a.cov) + ψ b.cov, _⟩ : PCov G' C') = ⟨φ (a.pose * b.pose), ψ (ce.ad b.pose⁻¹ a.cov + b.cov), _⟩
    rw [map_mul, ← map_inv, hs.ad, hs.add]; rfl
  · intro a
    show (⟨(φ a.pose)⁻¹, _, _⟩ : PCov G' C') = ⟨φ (a.pose⁻¹), _, _⟩
    rw [map_inv]; rfl
  · intro a b
    show PCov.between ce' ⟨φ a.pose, ψ a.cov, a.rot⟩ ⟨φ b.pose, ψ b.cov, b.rot⟩ =
      ⟨φ (PCov.between ce a b).pose, ψ (PCov.between ce a b).cov, (PCov.between ce a b).rot⟩
    unfold PCov.between
    dsimp only
    have e1 : (φ a.pose)⁻¹ * φ b.pose = φ (a.pose⁻¹ * b.pose) := by rw [map_mul, map_inv]
    have e2 : (φ b.pose)⁻¹ * φ a.pose = φ (b.pose⁻¹ * a.pose) := by rw [map_mul, map_inv]
    rw [e1, e2, ← map_inv, ← map_inv, hs.ad, hs.ad, ← hsub, ← hsub, hs.posDef]
    split <;> rfl

end RPGO

namespace RPGO.Props
open RPGO Spec

section
variable {G G' K C C' : Type} [Group G] [Group G'] [Field K] [LinearOrder K] [IsStrictOrderedRing K]

/-- C82 (PCM_Simple3D): if all measurements and initial values are expressed in a unit in which lengths are `c` times as large, and so are
the two translation thresholds, then every history of calls leaves a solver with the same contents, counts and weights, expressed in that
unit, and every further call returns the same, raises the same exception or is undefined as before; and there are no other histories. It is
assumed that the optimizer (and, if frames are aligned, the averaging) treats the converted problem in the same way. `nrm` is the norm of
tangent vectors, `ω` and `v` are the rotation and translation parts of `Logmap`. -/
theorem C82_units (p : Params K) {c : K} (hc : 0 < c) (nrm : List K → K) (hn : ∀ l, nrm (l.map (c * ·)) = c * nrm l)
    {ω v : G → List K} (ht : Tangent .three ω v) {ω' v' : G' → List K} (ht' : Tangent .three ω' v') {φ : G →* G'}
    (hs : Rescaled c φ ω v ω' v') {ν : GNoise C → GNoise C'} (hν : SameRot ν) (signed : Bool)
    {env : Env G (GNoise C)} {env' : Env G' (GNoise C')} (he : Converted φ ν p.align env env') {h : List (Op G (GNoise C))} :
    (∀ s, Reach (poseCfg p .three C nrm ω v signed) env h s →
      ∃ s', Reach (poseCfg (inUnits c p) .three C' nrm ω' v' signed) env' (h.map (cvOp φ ν)) s' ∧ ShowsSame φ ν s s' ∧
        ∀ op, EndsAlike φ ν (exec (poseCfg p .three C nrm ω v signed) env op s)
          (exec (poseCfg (inUnits c p) .three C' nrm ω' v' signed) env' (cvOp φ ν op) s')) ∧
    ∀ s', Reach (poseCfg (inUnits c p) .three C' nrm ω' v' signed) env' (h.map (cvOp φ ν)) s' →
      ∃ s, Reach (poseCfg p .three C nrm ω v signed) env h s ∧ ShowsSame φ ν s s' := by
  have hh : CfgHom φ ν (fun a => ⟨φ a.pose, a.node, a.rot⟩) (poseCfg p .three C nrm ω v signed) (poseCfg (inUnits c p) .three C' nrm ω' v' signed) := by
    refine simple_hom hc hν (fun g => ?_) (fun g => ?_) p signed
    · rw [(C54_norms_3d nrm ht' (φ g)).1, (C54_norms_3d nrm ht g).1, hs.trans, hn]
    · rw [(C54_norms_3d nrm ht' (φ g)).2, (C54_norms_3d nrm ht g).2, hs.rot]
  refine ⟨fun s r => ⟨_, reach_cv hh he r, showsSame_cv s, fun op => endsAlike_cv hh he op s⟩, fun s' r => ?_⟩
  obtain ⟨s, r0, rfl⟩ := reach_back hh he r h rfl
  exact ⟨s, r0, showsSame_cv s⟩

omit [IsStrictOrderedRing K] in
/-- C82 (PCM2D and PCM3D): the same with covariances, which are converted by `ψ`; the thresholds are Mahalanobis distances and stay. -/
theorem C82_units_cov [AddGroup C] [AddGroup C'] (p : Params K) {φ : G →* G'} {ψ : C → C'} {ce : CovEnv G C K} {ce' : CovEnv G' C' K}
    (hs : CovRescaled φ ψ ce ce') (signed : Bool) {env : Env G (GNoise C)} {env' : Env G' (GNoise C')}
    (he : Converted φ (fun n => ⟨ψ n.cov, n.rotNaN⟩) p.align env env') {h : List (Op G (GNoise C))} :
    (∀ s, Reach (p.cfgCov ce signed) env h s →
      ∃ s', Reach (p.cfgCov ce' signed) env' (h.map (cvOp φ fun n => ⟨ψ n.cov, n.rotNaN⟩)) s' ∧
        ShowsSame φ (fun n => ⟨ψ n.cov, n.rotNaN⟩) s s' ∧
        ∀ op, EndsAlike φ (fun n => ⟨ψ n.cov, n.rotNaN⟩) (exec (p.cfgCov ce signed) env op s)
          (exec (p.cfgCov ce' signed) env' (cvOp φ (fun n => ⟨ψ n.cov, n.rotNaN⟩) op) s')) ∧
    ∀ s', Reach (p.cfgCov ce' signed) env' (h.map (cvOp φ fun n => ⟨ψ n.cov, n.rotNaN⟩)) s' →
      ∃ s, Reach (p.cfgCov ce signed) env h s ∧ ShowsSame φ (fun n => ⟨ψ n.cov, n.rotNaN⟩) s s' := by
  have hh := cov_hom hs p signed
  refine ⟨fun s r => ⟨_, reach_cv hh he r, showsSame_cv s, fun op => endsAlike_cv hh he op s⟩, fun s' r => ?_⟩
  obtain ⟨s, r0, rfl⟩ := reach_back hh he r h rfl
  exact ⟨s, r0, showsSame_cv s⟩

end

section
open Matrix
variable {G G' K n : Type} [Group G] [Group G'] [Fintype n] [DecidableEq n]

/-- The hypotheses of `C82_units_cov` are met by real covariance matrices: component `i` of a tangent vector is multiplied by `d i` (the
factor of the unit for a translation component, 1 for a rotation component), entries of covariances are multiplied by `d i * d j`, the adjoint
representations are related accordingly, and the Mahalanobis norms are those of a tangent vector `log g` with respect to a matrix and its
restriction to the translation components (in 2D the components the code takes for them, see C54). -/
theorem C82_matrices (d : n → ℝ) (hd : ∀ i, d i ≠ 0) {φ : G →* G'} {Ad : G →* Matrix n n ℝ} {Ad' : G' →* Matrix n n ℝ}
    (ha : ∀ g i j, Ad' (φ g) i j = d i * Ad g i j / d j) (t : n → Bool) {log : G → n → ℝ} {log' : G' → n → ℝ}
    (hl : ∀ g i, log' (φ g) i = d i * log g i) :
    CovRescaled φ (fun S => Matrix.of fun i j => d i * S i j * d j)
      (matEnv (K := ℝ) Ad t (fun g S => some (log g ⬝ᵥ S⁻¹ *ᵥ log g))
        fun g S => some ((fun i : { i // t i } => log g i) ⬝ᵥ (S.submatrix (↑) (↑) : Matrix { i // t i } { i // t i } ℝ)⁻¹ *ᵥ fun i : { i // t i } => log g i))
      (matEnv (K := ℝ) Ad' t (fun g S => some (log' g ⬝ᵥ S⁻¹ *ᵥ log' g))
        fun g S => some ((fun i : { i // t i } => log' g i) ⬝ᵥ (S.submatrix (↑) (↑) : Matrix { i // t i } { i // t i } ℝ)⁻¹ *ᵥ fun i : { i // t i } => log' g i)) := by
  have key : ∀ {m : Type} [Fintype m] [DecidableEq m] (e : m → ℝ), (∀ i, e i ≠ 0) → ∀ (S : Matrix m m ℝ) (x : m → ℝ),
      (fun i => e i * x i) ⬝ᵥ (diagonal e * S * diagonal e)⁻¹ *ᵥ (fun i => e i * x i) = x ⬝ᵥ S⁻¹ *ᵥ x := by
    intro m _ _ e he S x
    have hx : (fun i => e i * x i) = diagonal e *ᵥ x := by funext i; simp [mulVec_diagonal]
    have hu : IsUnit (diagonal e).det := by
      rw [det_diagonal]; exact isUnit_iff_ne_zero.2 (Finset.prod_ne_zero_iff.2 fun i _ => he i)
    have hi : (diagonal e * S * diagonal e)⁻¹ = (diagonal e)⁻¹ * (S⁻¹ * (diagonal e)⁻¹) := by
      rw [Matrix.mul_inv_rev, Matrix.mul_inv_rev]
    have hT : (diagonal e)ᵀ = diagonal e := diagonal_transpose e
    rw [hx, hi, Matrix.dotProduct_mulVec, Matrix.dotProduct_mulVec, ← Matrix.vecMul_vecMul, ← Matrix.vecMul_vecMul]
    have h1 : (diagonal e *ᵥ x) ᵥ* (diagonal e)⁻¹ = x := by
      rw [show diagonal e *ᵥ x = x ᵥ* diagonal e from by rw [← Matrix.vecMul_transpose, hT], Matrix.vecMul_vecMul,
        Matrix.mul_nonsing_inv _ hu, Matrix.vecMul_one]
    rw [h1, Matrix.dotProduct_mulVec, Matrix.vecMul_vecMul, Matrix.nonsing_inv_mul _ hu, Matrix.vecMul_one]
  have hψ : ∀ S : Matrix n n ℝ, (Matrix.of fun i j => d i * S i j * d j) = diagonal d * S * diagonal d := by
    intro S; ext i j; simp [Matrix.mul_diagonal, Matrix.diagonal_mul]
  refine ⟨?_, ?_, ?_, ?_, ?_, ?_, ?_⟩
  · ext i j; simp
  · intro S R; ext i j; simp; ring
  · intro g S
    show Ad' (φ g) * _ * (Ad' (φ g))ᵀ = _
    have hA : Ad' (φ g) = diagonal d * Ad g * diagonal fun i => (d i)⁻¹ := by
      ext i j; rw [ha]; simp [Matrix.mul_diagonal, Matrix.diagonal_mul, div_eq_mul_inv]
    have hD : (diagonal (fun i => (d i)⁻¹) : Matrix n n ℝ) * diagonal d = 1 := by
      rw [diagonal_mul_diagonal, ← diagonal_one]; congr 1; funext i; exact inv_mul_cancel₀ (hd i)
    have hD' : (diagonal d : Matrix n n ℝ) * diagonal (fun i => (d i)⁻¹) = 1 := by
      rw [diagonal_mul_diagonal, ← diagonal_one]; congr 1; funext i; exact mul_inv_cancel₀ (hd i)
    rw [hψ, hψ, hA, Matrix.transpose_mul, Matrix.transpose_mul, diagonal_transpose, diagonal_transpose]
    show _ = diagonal d * (Ad g * S * (Ad g)ᵀ) * diagonal d
    calc diagonal d * Ad g * diagonal (fun i => (d i)⁻¹) * (diagonal d * S * diagonal d) * (diagonal (fun i => (d i)⁻¹) * ((Ad g)ᵀ * diagonal d))
        = diagonal d * Ad g * (diagonal (fun i => (d i)⁻¹) * diagonal d) * S * (diagonal d * diagonal (fun i => (d i)⁻¹)) * (Ad g)ᵀ * diagonal d := by
          simp only [Matrix.mul_assoc]
      _ = _ := by rw [hD, hD']; simp only [Matrix.mul_one, Matrix.mul_assoc]
  · intro S
    simp only [matEnv]
    refine decide_eq_decide.2 ?_
    rw [hψ]
    have hu : IsUnit (diagonal d) := by
      rw [Matrix.isUnit_iff_isUnit_det, det_diagonal]; exact isUnit_iff_ne_zero.2 (Finset.prod_ne_zero_iff.2 fun i _ => hd i)
    have := Matrix.IsUnit.posDef_star_right_conjugate_iff (x := S) hu
    simpa [star_eq_conjTranspose, diagonal_conjTranspose] using this
  · intro S
    ext i j
    simp only [matEnv, Matrix.of_apply]
    split <;> simp
  · intro g S
    show some _ = some _
    rw [hψ, show log' (φ g) = fun i => d i * log g i from funext (hl g), key d hd]
  · intro g S
    show some _ = some _
    have := key (fun i : { i // t i } => d i) (fun i => hd i) (S.submatrix (↑) (↑)) fun i => log g i
    rw [← this]
    have h1 : (fun i : { i // t i } => log' (φ g) i) = fun i : { i // t i } => d i * log g i := funext fun i => hl g i
    rw [h1]
    congr 4
    ext i j
    simp [Matrix.mul_diagonal, Matrix.diagonal_mul]

end

section
variable {K V R : Type} [Field K] [AddCommGroup V] [Module K V] [Group R]

/-- A group acting linearly, as a group acting on the translations. -/
def acting (ρ : R →* (V ≃ₗ[K] V)) : R →* MulAut (Multiplicative V) where
  toFun r := AddEquiv.toMultiplicative (ρ r).toAddEquiv
  map_one' := by ext x; simp
  map_mul' r q := by ext x; simp

/-- Multiplying the translation of a rigid motion by `c`. -/
def rescale (ρ : R →* (V ≃ₗ[K] V)) (c : K) : Multiplicative V ⋊[acting ρ] R →* Multiplicative V ⋊[acting ρ] R :=
  SemidirectProduct.map (AddMonoidHom.toMultiplicative ((LinearMap.lsmul K V c).toAddMonoidHom)) (MonoidHom.id R) fun r => by
    ext x
    show c • ρ r x = ρ r (c • x)
    rw [map_smul]

/-- The hypotheses of `C82_units` are met by rigid motions: translations in a vector space with rotations acting linearly. The rotation part of
`Logmap` depends on the rotation only, and its translation part is a linear function, given by the rotation, of the translation. -/
theorem C82_rigid (ρ : R →* (V ≃ₗ[K] V)) (c : K) (w : R → List K) (L : R → V → List K) (hL : ∀ r x, L r (c • x) = (L r x).map (c * ·)) :
    (∀ g, (rescale ρ c g).right = g.right ∧ (rescale ρ c g).left.toAdd = c • g.left.toAdd) ∧
    Rescaled c (rescale ρ c) (fun g => w g.right) (fun g => L g.right g.left.toAdd) (fun g => w g.right) (fun g => L g.right g.left.toAdd) :=
  ⟨fun _ => ⟨rfl, rfl⟩, fun _ => rfl, fun g => hL g.right g.left.toAdd⟩

end

/-- The run of the demo and a closure that is far off. -/
def withStray : List (Op Demo.Z Demo.Ns) := Demo.h1 ++ [.update [Demo.edge (Demo.a 1) (Demo.a 3) 9] [] true]

/-- Three unit steps and a closure that is off by 2. -/
def withOff : List (Op Demo.Z Demo.Ns) := Demo.h1.take 3 ++ [.update [Demo.edge (Demo.a 0) (Demo.a 2) 4] [] true]

/-- Lengths doubled. -/
def doubled : Demo.Z →* Demo.Z := powMonoidHom 2

theorem demo_doubled (align : Bool) : Converted doubled id align Demo.env Demo.env := by
  refine ⟨fun _ _ => rfl, fun g v _ _ => ?_, fun _ l => ?_, fun _ => rfl, fun _ => rfl⟩
  · show some (_, List.replicate (cvGraph doubled id g).length 1) = some (_, List.replicate g.length 1)
    rw [show (cvGraph doubled id g).length = g.length from List.length_map _]
  · cases l <;> rfl

theorem norm1_doubled (l : List ℚ) : norm1 (l.map (2 * ·)) = 2 * norm1 l := by
  unfold norm1
  induction l with
  | nil => simp
  | cons a l ih =>
    rw [List.map_cons, List.map_cons, List.sum_cons, List.map_cons, List.sum_cons, ih, abs_mul]
    norm_num
    ring

theorem line_doubled : Rescaled (2 : ℚ) doubled (fun _ => [0, 0, 0]) (fun g : Demo.Z => [((Multiplicative.toAdd g : ℤ) : ℚ), 0, 0])
    (fun _ => [0, 0, 0]) (fun g => [((Multiplicative.toAdd g : ℤ) : ℚ), 0, 0]) := by
  refine ⟨fun _ => rfl, fun g => ?_⟩
  show [(((2 : ℕ) • Multiplicative.toAdd g : ℤ) : ℚ), 0, 0] = [2 * _, 2 * 0, 2 * 0]
  simp

set_option maxRecDepth 100000 in
/-- The hypotheses of `C82_units` are met by a run with accepted and rejected closures, and its conclusion is seen in it. -/
example : ∃ s s', Reach (spatial 1 1) Demo.env withStray s ∧
    Reach (poseCfg (inUnits 2 (Params.default.apply (.simple3D 1 1 .quiet))) .three Unit norm1 (fun _ => [0, 0, 0])
      (fun g => [((Multiplicative.toAdd g : ℤ) : ℚ), 0, 0]) true) Demo.env
      (withStray.map (cvOp doubled id)) s' ∧
    ShowsSame doubled id s s' ∧ registered s' ⟨97, 97⟩ = [Demo.btw (Demo.a 0) (Demo.a 2) 4, Demo.btw (Demo.a 0) (Demo.a 3) 6] := by
  obtain ⟨s', r', h'⟩ := Demo.runs_reach
    (cfg := poseCfg (inUnits 2 (Params.default.apply (.simple3D 1 1 .quiet))) .three Unit norm1 (fun _ => [0, 0, 0])
      (fun g : Demo.Z => [((Multiplicative.toAdd g : ℤ) : ℚ), 0, 0]) true) (env := Demo.env)
    (ops := withStray.map (cvOp doubled id))
    (P := fun s => decide (registered s ⟨97, 97⟩ = [Demo.btw (Demo.a 0) (Demo.a 2) 4, Demo.btw (Demo.a 0) (Demo.a 3) 6])) (by decide +kernel)
  obtain ⟨s, r, hs⟩ := (C82_units (C := Unit) (C' := Unit) (Params.default.apply (.simple3D 1 1 .quiet)) (by norm_num) norm1 norm1_doubled
    ⟨fun _ => rfl, fun _ => rfl⟩ ⟨fun _ => rfl, fun _ => rfl⟩ line_doubled (fun _ => rfl) true (demo_doubled _)).2 s' r'.reach
  exact ⟨s, s', r, r'.reach, hs, of_decide_eq_true h'⟩

set_option maxRecDepth 100000 in
/-- C82 is false with PCM_Simple2D, where the rotation threshold is compared with the x component (C54): a closure that is accepted is rejected
when the same data and translation thresholds are expressed in a unit half as long. -/
theorem C82_false_2d : ∃ s s',
    ReachOk (planar 1) Demo.env withOff s ∧
    ReachOk (poseCfg (inUnits 2 (Params.default.apply (.simple2D 1 1 .quiet))) .two Unit norm1 (fun _ => [0])
      (fun g => [((Multiplicative.toAdd g : ℤ) : ℚ), 0]) true) Demo.env
      (withOff.map (cvOp doubled id)) s' ∧
    Rescaled (2 : ℚ) doubled (fun _ => [0]) (fun g : Demo.Z => [((Multiplicative.toAdd g : ℤ) : ℚ), 0])
      (fun _ => [0]) (fun g => [((Multiplicative.toAdd g : ℤ) : ℚ), 0]) ∧
    registered s ⟨97, 97⟩ = [Demo.btw (Demo.a 0) (Demo.a 2) 4] ∧ registered s' ⟨97, 97⟩ = [] := by
  obtain ⟨s, r, h⟩ := Demo.runs_reach (cfg := planar 1) (env := Demo.env)
    (ops := withOff)
    (P := fun s => decide (registered s ⟨97, 97⟩ = [Demo.btw (Demo.a 0) (Demo.a 2) 4])) (by decide +kernel)
  obtain ⟨s', r', h'⟩ := Demo.runs_reach
    (cfg := poseCfg (inUnits 2 (Params.default.apply (.simple2D 1 1 .quiet))) .two Unit norm1 (fun _ => [0])
      (fun g : Demo.Z => [((Multiplicative.toAdd g : ℤ) : ℚ), 0]) true) (env := Demo.env)
    (ops := withOff.map (cvOp doubled id))
    (P := fun s => decide (registered s ⟨97, 97⟩ = [])) (by decide +kernel)
  refine ⟨s, s', r, r', ⟨fun _ => rfl, fun g => ?_⟩, of_decide_eq_true h, of_decide_eq_true h'⟩
  show [(((2 : ℕ) • Multiplicative.toAdd g : ℤ) : ℚ), 0] = [2 * _, 2 * 0]
  simp

/-- What the averaging minimizes in another unit: translations count `c ^ 2` times as much, rotations as before, and the threshold stays. -/
theorem C82_average {G G' K : Type} [Group G] [Group G'] [Field K] {c : K} {ω v : G → List K} (ht : Tangent .three ω v) {ω' v' : G' → List K}
    (ht' : Tangent .three ω' v') {φ : G →* G'} (hs : Rescaled c φ ω v ω' v') (method : AlignMethod) (prob : K) (g x : G) :
    (avgProblem .three method prob [φ g]).cost (differ .three ω' v') (φ x) =
      Spec.sq (ω (x⁻¹ * g)) / (1 / 10) ^ 2 + c ^ 2 * (Spec.sq (v (x⁻¹ * g)) / (5 / 10) ^ 2) ∧
    (avgProblem .three method prob [φ g]).threshold = (avgProblem .three method prob [g]).threshold := by
  refine ⟨?_, rfl⟩
  have hsq : ∀ l : List K, Spec.sq (l.map (c * ·)) = c ^ 2 * Spec.sq l := by
    intro l
    unfold Spec.sq
    induction l with
    | nil => simp
    | cons a l ih => rw [List.map_cons, List.map_cons, List.sum_cons, ih, List.map_cons, List.sum_cons]; ring
  show ((AvgFactor.mk (φ g) (avgSigmas .three (1 / 10) (5 / 10) : List K)).cost (differ .three ω' v') (φ x) + 0) = _
  rw [cost_three ht', add_zero, offsetError, ← map_inv, ← map_mul, hs.rot, hs.trans, hsq]
  ring

/-- Poses with an angle and a position on a line, both of which add up. -/
abbrev Screw := Multiplicative (ℚ × ℚ)

/-- The position multiplied by `c`. -/
def stretched (c : ℚ) : Screw →* Screw :=
  AddMonoidHom.toMultiplicative (AddMonoidHom.prodMap (AddMonoidHom.id ℚ) (AddMonoidHom.mulLeft c))

/-- C82 needs the condition on the averaging, and the averaging of the code does not meet it, because its two standard deviations are numbers
(0.1 and 0.5) and not parameters: of two poses the first fits a candidate better in one unit, the second in the other. -/
theorem C82_false_alignment : ∃ ω v : Screw → List ℚ, Tangent .three ω v ∧ Rescaled 2 (stretched 2) ω v ω v ∧
    ∃ g X Y : Screw, ∀ method prob,
      (avgProblem .three method prob [g]).cost (differ .three ω v) X < (avgProblem .three method prob [g]).cost (differ .three ω v) Y ∧
      (avgProblem .three method prob [stretched 2 g]).cost (differ .three ω v) (stretched 2 Y) <
        (avgProblem .three method prob [stretched 2 g]).cost (differ .three ω v) (stretched 2 X) := by
  refine ⟨fun g => [g.toAdd.1, 0, 0], fun g => [g.toAdd.2, 0, 0], ⟨fun _ => rfl, fun _ => rfl⟩, ⟨fun _ => rfl, fun g => ?_⟩,
    1, Multiplicative.ofAdd (0, 1), Multiplicative.ofAdd (3 / 10, 0), fun method prob => ?_⟩
  · simp [stretched]
  · constructor <;> simp only [avgProblem, AvgProblem.cost, List.map_cons, List.map_nil] <;> decide +kernel

end RPGO.Props
