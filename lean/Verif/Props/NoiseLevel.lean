import Verif.Props.Units
import Verif.Props.FormulaRot
/-
C106: with covariance thresholds, only the ratio of the standard deviations to the thresholds matters.
-/

namespace RPGO.Spec
variable {G K C : Type}

/-- The parameters with both Mahalanobis thresholds divided by `c`. -/
def stricter [Div K] (c : K) (p : Params K) : Params K := { p with odomThr := p.odomThr / c, lcThr := p.lcThr / c }

/-- Standard deviations `c` times as large (`ψ` multiplies covariances by `c ^ 2`): transporting, adding, testing and taking the translation
part commute with the change, and Mahalanobis norms become `c` times as small. -/
structure CovScaled [Div K] [Add C] [Zero C] (c : K) (ψ : C → C) (ce : CovEnv G C K) : Prop where
  zero : ψ 0 = 0
  add : ∀ S R, ψ (S + R) = ψ S + ψ R
  ad : ∀ g S, ce.ad g (ψ S) = ψ (ce.ad g S)
  posDef : ∀ S, ce.posDef (ψ S) = ce.posDef S
  transPart : ∀ S, ce.transPart (ψ S) = ψ (ce.transPart S)
  maha : ∀ g S, ce.maha g (ψ S) = (ce.maha g S).map (· / c)
  mahaT : ∀ g S, ce.mahaT g (ψ S) = (ce.mahaT g S).map (· / c)

end RPGO.Spec

namespace RPGO
open Spec
variable {G K C : Type} [Group G] [Field K] [LinearOrder K] [IsStrictOrderedRing K]

/-- The same covariances with all norms multiplied by `c`. -/
def CovEnv.louder (c : K) (ce : CovEnv G C K) : CovEnv G C K :=
  { ce with maha := fun g S => (ce.maha g S).map (c * ·), mahaT := fun g S => (ce.mahaT g S).map (c * ·) }

omit [LinearOrder K] [IsStrictOrderedRing K] in
theorem CovScaled.rescaled [AddGroup C] {c : K} (hc : c ≠ 0) {ψ : C → C} {ce : CovEnv G C K} (h : CovScaled c ψ ce) :
    CovRescaled (MonoidHom.id G) ψ ce (ce.louder c) := by
  have key : ∀ o : Option K, (o.map (· / c)).map (c * ·) = o := by
    intro o
    cases o with
    | none => rfl
    | some x => show some (c * (x / c)) = some x; rw [mul_div_cancel₀ x hc]
  refine ⟨h.zero, h.add, h.ad, h.posDef, h.transPart, fun g S => ?_, fun g S => ?_⟩
  · show (ce.maha g (ψ S)).map (c * ·) = _
    rw [h.maha, key]
  · show (ce.mahaT g (ψ S)).map (c * ·) = _
    rw [h.mahaT, key]

theorem stricter_cfg [AddGroup C] {c : K} (hc : 0 < c) (p : Params K) (ce : CovEnv G C K) (signed : Bool) :
    p.cfgCov (ce.louder c) signed = (stricter c p).cfgCov ce signed := by
  have lt : ∀ (o : Option K) (t : K), ltThr (o.map (c * ·)) t = ltThr o (t / c) := by
    intro o t
    cases o with
    | none => rfl
    | some x => exact decide_eq_decide.2 (by rw [lt_div_iff₀ hc, mul_comm])
  have ck : ∀ t, PCov.check (G := G) (ce.louder c) t = PCov.check ce (t / c) := by
    intro t
    funext a
    unfold PCov.check
    rw [← lt]
    unfold PCov.norm
    split <;> rfl
  have nn : ∀ t : K, 0 ≤ t / c ↔ 0 ≤ t := fun t => by rw [le_div_iff₀ hc, zero_mul]
  have ln : ∀ t : K, t / c < 0 ↔ t < 0 := fun t => by rw [div_lt_iff₀ hc, zero_mul]
  have ho : PCov.ops (ce.louder c) p.odomThr p.lcThr = PCov.ops ce (p.odomThr / c) (p.lcThr / c) := by
    unfold PCov.ops
    rw [ck, ck]; rfl
  unfold Params.cfgCov
  show p.cfg (PCov.ops (ce.louder c) p.odomThr p.lcThr) signed = (stricter c p).cfg (PCov.ops ce (p.odomThr / c) (p.lcThr / c)) signed
  rw [ho]
  unfold Params.cfg
  have o1 : (stricter c p).odomCheck = p.odomCheck := by
    unfold Params.odomCheck stricter
    simp only [nn, ln]
  have o2 : (stricter c p).loopCheck = p.loopCheck := by
    unfold Params.loopCheck stricter
    simp only [nn, ln]
  rw [o1, o2]
  rfl

end RPGO

namespace RPGO.Props
open RPGO Spec

section
variable {G K C : Type} [Group G] [Field K] [LinearOrder K] [IsStrictOrderedRing K]

/-- C106 (PCM2D and PCM3D): if all standard deviations are multiplied by `c` and both thresholds divided by it, then every history of calls
leaves a solver with the same contents (but for the noise models), counts and weights, and every further call returns the same, raises the
same exception or is undefined as before; and there are no other histories. It is assumed that the optimizer treats the changed problem in
the same way. -/
theorem C106_level [AddGroup C] (p : Params K) {c : K} (hc : 0 < c) {ψ : C → C} {ce : CovEnv G C K} (hs : CovScaled c ψ ce) (signed : Bool)
    {env env' : Env G (GNoise C)} (he : Converted (MonoidHom.id G) (fun n => ⟨ψ n.cov, n.rotNaN⟩) p.align env env')
    {h : List (Op G (GNoise C))} :
    (∀ s, Reach (p.cfgCov ce signed) env h s →
      ∃ s', Reach ((stricter c p).cfgCov ce signed) env' (h.map (cvOp (MonoidHom.id G) fun n => ⟨ψ n.cov, n.rotNaN⟩)) s' ∧
        ShowsSame (MonoidHom.id G) (fun n => ⟨ψ n.cov, n.rotNaN⟩) s s' ∧
        ∀ op, EndsAlike (MonoidHom.id G) (fun n => ⟨ψ n.cov, n.rotNaN⟩) (exec (p.cfgCov ce signed) env op s)
          (exec ((stricter c p).cfgCov ce signed) env' (cvOp (MonoidHom.id G) (fun n => ⟨ψ n.cov, n.rotNaN⟩) op) s')) ∧
    ∀ s', Reach ((stricter c p).cfgCov ce signed) env' (h.map (cvOp (MonoidHom.id G) fun n => ⟨ψ n.cov, n.rotNaN⟩)) s' →
      ∃ s, Reach (p.cfgCov ce signed) env h s ∧ ShowsSame (MonoidHom.id G) (fun n => ⟨ψ n.cov, n.rotNaN⟩) s s' := by
  have := C82_units_cov p (CovScaled.rescaled hc.ne' hs) signed he (h := h)
  rw [stricter_cfg hc] at this
  exact this

end

section
open Matrix
variable {G n : Type} [Group G] [Fintype n] [DecidableEq n]

/-- The hypothesis of `C106_level` is met by real covariance matrices with the Mahalanobis norms of the code: the square root of
`log g ⬝ S⁻¹ log g`, over all components or, without rotation information, over the translation components. -/
theorem C106_matrices {c : ℝ} (hc : 0 < c) (Ad : G →* Matrix n n ℝ) (t : n → Bool) (log : G → n → ℝ) :
    CovScaled c (fun S => (c ^ 2) • S)
      (matEnv (K := ℝ) Ad t (fun g S => some (Real.sqrt (log g ⬝ᵥ S⁻¹ *ᵥ log g)))
        fun g S => some (Real.sqrt ((fun i : { i // t i } => log g i) ⬝ᵥ (S.submatrix (↑) (↑) : Matrix { i // t i } { i // t i } ℝ)⁻¹ *ᵥ
          fun i : { i // t i } => log g i))) := by
  have h2 : (0 : ℝ) < c ^ 2 := by positivity
  have key : ∀ {m : Type} [Fintype m] [DecidableEq m] (S : Matrix m m ℝ) (x : m → ℝ),
      Real.sqrt (x ⬝ᵥ ((c ^ 2) • S)⁻¹ *ᵥ x) = Real.sqrt (x ⬝ᵥ S⁻¹ *ᵥ x) / c := by
    intro m _ _ S x
    have hi : ((c ^ 2) • S)⁻¹ = (c ^ 2)⁻¹ • S⁻¹ := by
      by_cases hS : IsUnit S.det
      · have := Matrix.inv_smul' (A := S) (Units.mk0 (c ^ 2) h2.ne') hS
        simpa [Units.smul_def] using this
      · have hS' : ¬ IsUnit ((c ^ 2) • S).det := by
          rw [det_smul, isUnit_iff_ne_zero, not_not]
          rw [isUnit_iff_ne_zero, not_not] at hS
          rw [hS, mul_zero]
        rw [nonsing_inv_apply_not_isUnit _ hS', nonsing_inv_apply_not_isUnit _ hS, smul_zero]
    rw [hi, Matrix.smul_mulVec, dotProduct_smul, smul_eq_mul, mul_comm, ← div_eq_mul_inv, Real.sqrt_div' _ h2.le,
      Real.sqrt_sq hc.le]
  refine ⟨smul_zero _, fun S R => smul_add _ _ _, fun g S => ?_, fun S => ?_, fun S => ?_, fun g S => ?_, fun g S => ?_⟩
  · show Ad g * ((c ^ 2) • S) * (Ad g)ᵀ = (c ^ 2) • (Ad g * S * (Ad g)ᵀ)
    rw [Matrix.mul_smul, Matrix.smul_mul]
  · simp only [matEnv]
    refine decide_eq_decide.2 ⟨fun h => ?_, fun h => h.smul h2⟩
    have := h.smul (inv_pos.2 h2)
    rwa [smul_smul, inv_mul_cancel₀ h2.ne', one_smul] at this
  · ext i j
    simp only [matEnv, Matrix.of_apply, Matrix.smul_apply]
    split <;> simp
  · show some _ = some _
    rw [key]
  · show some _ = some (_ / c)
    rw [← key]; rfl

end

/-- Variances four times as large; the example's norms are squared, so they become four times as small. -/
theorem heading_scaled : CovScaled (4 : ℚ) (fun S => (4 : ℚ) • S) headingCov := by
  refine ⟨smul_zero _, fun S R => smul_add _ _ _, fun g S => rfl, fun S => ?_, fun S => ?_, fun g S => ?_, fun g S => ?_⟩
  · refine decide_eq_decide.2 ?_
    simp only [Matrix.smul_apply, smul_eq_mul]
    constructor
    · rintro ⟨h1, h2⟩; exact ⟨by linarith, by nlinarith⟩
    · rintro ⟨h1, h2⟩; exact ⟨by linarith, by nlinarith⟩
  · ext i j
    fin_cases i <;> fin_cases j <;> simp [headingCov]
  all_goals
    simp only [headingCov, Matrix.smul_apply, smul_eq_mul]
    by_cases h : 0 < S 1 1
    · rw [if_pos h, if_pos (by linarith)]
      simp only [Option.map_some]
      congr 1
      rw [div_div, mul_comm]
    · rw [if_neg h, if_neg (by linarith)]
      rfl

/-- Twice the standard deviation. -/
def noisier (n : GNoise (Matrix (Fin 2) (Fin 2) ℚ)) : GNoise (Matrix (Fin 2) (Fin 2) ℚ) := ⟨(4 : ℚ) • n.cov, n.rotNaN⟩

theorem heading_converted (align : Bool) : Converted (MonoidHom.id Demo.Z) noisier align headingEnv headingEnv := by
  refine ⟨fun _ _ => rfl, fun g v _ _ => ?_, fun _ l => ?_, fun _ => rfl, fun _ => rfl⟩
  · show some (_, List.replicate (cvGraph (MonoidHom.id Demo.Z) noisier g).length 1) = some (_, List.replicate g.length 1)
    rw [show (cvGraph (MonoidHom.id Demo.Z) noisier g).length = g.length from List.length_map _]
  · cases l <;> rfl

set_option maxRecDepth 100000 in
/-- The hypotheses of `C106_level` are met by runs in which a closure is accepted. -/
example : ∃ s s', Reach headingCfg headingEnv (headingRun true (edgeH (Demo.a 0) (Demo.a 2) 3 true)) s ∧
    Reach ((stricter 4 (Params.default.apply (.pcm3D 1 1 .quiet))).cfgCov headingCov true) headingEnv
      ((headingRun true (edgeH (Demo.a 0) (Demo.a 2) 3 true)).map (cvOp (MonoidHom.id Demo.Z) noisier)) s' ∧
    ShowsSame (MonoidHom.id Demo.Z) noisier s s' ∧ (registered s' ⟨97, 97⟩).length = 1 := by
  obtain ⟨s', r', h'⟩ := Demo.runs_reach
    (cfg := (stricter 4 (Params.default.apply (.pcm3D 1 1 .quiet))).cfgCov headingCov true) (env := headingEnv)
    (ops := (headingRun true (edgeH (Demo.a 0) (Demo.a 2) 3 true)).map (cvOp (MonoidHom.id Demo.Z) noisier))
    (P := fun s => decide ((registered s ⟨97, 97⟩).length = 1)) (by decide +kernel)
  obtain ⟨s, r, hs⟩ := (C106_level (Params.default.apply (.pcm3D 1 1 .quiet)) (by norm_num) heading_scaled true
    (heading_converted _)).2 s' r'.reach
  exact ⟨s, s', r, r'.reach, hs, of_decide_eq_true h'⟩

set_option maxRecDepth 100000 in
/-- The thresholds do matter: with larger covariances and the same thresholds a closure that is rejected is accepted. -/
theorem C106_false_same_thresholds :
    (∃ s, ReachOk headingCfg headingEnv (headingRun true (edgeH (Demo.a 0) (Demo.a 2) 4 true)) s ∧ registered s ⟨97, 97⟩ = []) ∧
    ∃ s, ReachOk headingCfg headingEnv ((headingRun true (edgeH (Demo.a 0) (Demo.a 2) 4 true)).map (cvOp (MonoidHom.id Demo.Z) noisier)) s ∧
      (registered s ⟨97, 97⟩).length = 1 := by
  refine ⟨?_, ?_⟩
  · obtain ⟨s, r, h⟩ := Demo.runs_reach (cfg := headingCfg) (env := headingEnv)
      (ops := headingRun true (edgeH (Demo.a 0) (Demo.a 2) 4 true))
      (P := fun s => decide (registered s ⟨97, 97⟩ = [])) (by decide +kernel)
    exact ⟨s, r, of_decide_eq_true h⟩
  · obtain ⟨s, r, h⟩ := Demo.runs_reach (cfg := headingCfg) (env := headingEnv)
      (ops := (headingRun true (edgeH (Demo.a 0) (Demo.a 2) 4 true)).map (cvOp (MonoidHom.id Demo.Z) noisier))
      (P := fun s => decide ((registered s ⟨97, 97⟩).length = 1)) (by decide +kernel)
    exact ⟨s, r, of_decide_eq_true h⟩

end RPGO.Props
