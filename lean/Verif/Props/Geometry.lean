import Verif.Spec.Covariance
import Mathlib.Tactic.Ring
import Mathlib.Tactic.Positivity
import Mathlib.Algebra.Group.Int.Defs
import Mathlib.Algebra.Order.Star.Real
/-
C08 pose-with-node-count algebra; C14 covariance bookkeeping.
-/

namespace RPGO.Props
open RPGO Matrix

/-! ### C08 -/

section C08
variable {G : Type} [Group G]

/-- C08: composition is associative and the default pose is its identity. -/
theorem C08_compose_monoid (a b c : PNode G) :
    (a.compose b).compose c = a.compose (b.compose c) ∧ PNode.dflt.compose a = a ∧ a.compose PNode.dflt = a := by
  refine ⟨?_, ?_, ?_⟩ <;> simp [PNode.compose, PNode.dflt, mul_assoc, Int.add_assoc, Bool.and_assoc]

/-- C08: inverse undoes the pose on both sides, keeps the node count, and is an involution. -/
theorem C08_inverse (a b : PNode G) :
    (a.compose a.inverse).pose = 1 ∧ (a.inverse.compose a).pose = 1 ∧ a.inverse.inverse = a ∧
      a.inverse.node = a.node ∧ (a.compose b).inverse.pose = (b.inverse.compose a.inverse).pose := by
  refine ⟨?_, ?_, ?_, ?_, ?_⟩ <;> simp [PNode.compose, PNode.inverse]

/-- C08: `between(a, a∘b)` recovers pose and node count of `b`, and `between(a∘b, a)` its inverse; node counts
of between are never negative. -/
theorem C08_between_compose (a b : PNode G) (hb : 0 ≤ b.node) :
    (a.between (a.compose b)).pose = b.pose ∧ (a.between (a.compose b)).node = b.node ∧
      ((a.compose b).between a).pose = b.pose⁻¹ ∧ ((a.compose b).between a).node = b.node := by
  refine ⟨?_, ?_, ?_, ?_⟩
  · simp [PNode.compose, PNode.between]
  · simp [PNode.compose, PNode.between, abs_of_nonneg hb]
  · simp [PNode.compose, PNode.between]
  · simp [PNode.compose, PNode.between, abs_of_nonneg hb]

theorem C08_between_node_nonneg (a b : PNode G) : 0 ≤ (a.between b).node := abs_nonneg _

/-- C08: a result has rotation information only if every operand has. -/
theorem C08_rotation_loss_kept (a b : PNode G) :
    ((a.compose b).rot = true ↔ a.rot = true ∧ b.rot = true) ∧
      ((a.between b).rot = true ↔ a.rot = true ∧ b.rot = true) ∧ (a.inverse.rot = true ↔ a.rot = true) := by
  simp [PNode.compose, PNode.between, PNode.inverse]

omit [Group G] in
/-- A measurement without rotation information has the flag off. -/
theorem C08_rotation_flag {C : Type} (g : G) (n : GNoise C) :
    (PNode.ofFactor g n).rot = true ↔ n.rotNaN = false := by
  simp [PNode.ofFactor]

example : (PNode.mk (Multiplicative.ofAdd (2 : ℤ)) 3 true).between
    ((PNode.mk (Multiplicative.ofAdd (2 : ℤ)) 3 true).compose ⟨Multiplicative.ofAdd 5, 4, false⟩) =
    ⟨Multiplicative.ofAdd 5, 4, false⟩ := by decide

end C08

/-! ### C14 -/

section C14
variable {G K n : Type} [Group G] [Fintype n] [DecidableEq n]
variable (Ad : G →* Matrix n n ℝ) (t : n → Bool) (maha mahaT : G → Matrix n n ℝ → Option K)

local notation "E" => matEnv Ad t maha mahaT

theorem ad_mul (g h : G) (S : Matrix n n ℝ) : (E).ad g ((E).ad h S) = (E).ad (g * h) S := by
  simp only [matEnv, map_mul, Matrix.transpose_mul, Matrix.mul_assoc]

theorem ad_one (S : Matrix n n ℝ) : (E).ad 1 S = S := by
  simp [matEnv]

theorem ad_add (g : G) (S S' : Matrix n n ℝ) : (E).ad g (S + S') = (E).ad g S + (E).ad g S' := by
  simp [matEnv, Matrix.mul_add, Matrix.add_mul]

/-- C14: `between(a, a∘d)` has exactly the pose and the covariance of `d`, if the covariance of `d` is
positive definite. -/
theorem C14_between_compose (a d : PCov G (Matrix n n ℝ)) (hd : d.cov.PosDef) :
    ((a.between (E) (a.compose (E) d))).pose = d.pose ∧ ((a.between (E) (a.compose (E) d))).cov = d.cov := by
  have hr : a.pose⁻¹ * (a.pose * d.pose) = d.pose := by group
  have hc : (E).ad d.pose⁻¹ a.cov + d.cov - (E).ad d.pose⁻¹ a.cov = d.cov := by abel
  constructor
  · simp [PCov.between, PCov.compose]
  · simp only [PCov.between, PCov.compose, hr, hc]
    rw [if_pos]
    simp [matEnv, hd]

/-- C14: going backwards, `between(a∘d, a)` has the inverse pose and the covariance of `d`. -/
theorem C14_between_backwards (a d : PCov G (Matrix n n ℝ)) (hd : d.cov.PosDef) :
    ((a.compose (E) d).between (E) a).pose = d.pose⁻¹ ∧ ((a.compose (E) d).between (E) a).cov = d.cov := by
  have hr : (a.pose * d.pose)⁻¹ * a.pose = d.pose⁻¹ := by group
  have hr' : a.pose⁻¹ * (a.pose * d.pose) = d.pose := by group
  constructor
  · simp only [PCov.between, PCov.compose, hr]
  · simp only [PCov.between, PCov.compose, hr, hr', inv_inv]
    have h1 : a.cov - (E).ad d.pose ((E).ad d.pose⁻¹ a.cov + d.cov) = - (E).ad d.pose d.cov := by
      rw [ad_add, ad_mul, mul_inv_cancel, ad_one]; abel
    have h2 : (E).ad d.pose⁻¹ a.cov + d.cov - (E).ad d.pose⁻¹ a.cov = d.cov := by abel
    rw [h1, h2]
    by_cases hp : (E).posDef (-(E).ad d.pose d.cov) = true
    · -- both `-(Ad d Adᵀ)` and `Ad d Adᵀ` positive: only possible in dimension 0
      have hpd : (-(E).ad d.pose d.cov).PosDef := by simpa [matEnv] using hp
      have hps : ((E).ad d.pose d.cov).PosSemidef := by
        have := hd.posSemidef.mul_mul_conjTranspose_same (Ad d.pose)
        simpa [matEnv] using this
      rcases isEmpty_or_nonempty n with hn | ⟨⟨i⟩⟩
      · exact Subsingleton.elim _ _
      · exfalso
        have h3 := hpd.diag_pos (i := i)
        have h4 := hps.diag_nonneg (i := i)
        rw [Matrix.neg_apply] at h3
        linarith
    · simp [hp]

/-- C14: composition is associative. -/
theorem C14_compose_assoc (a b c : PCov G (Matrix n n ℝ)) :
    (a.compose (E) b).compose (E) c = a.compose (E) (b.compose (E) c) := by
  have : (E).ad c.pose⁻¹ ((E).ad b.pose⁻¹ a.cov + b.cov) + c.cov =
      (E).ad (b.pose * c.pose)⁻¹ a.cov + ((E).ad c.pose⁻¹ b.cov + c.cov) := by
    rw [ad_add, ad_mul, _root_.mul_inv_rev]; abel
  simp only [PCov.compose, this, mul_assoc, Bool.and_assoc]

/-- C14: covariances stay symmetric positive semidefinite: for the default pose, a pose without measurement, a
measurement, a composition and an inverse. -/
theorem C14_posSemidef (a b : PCov G (Matrix n n ℝ)) (ha : a.cov.PosSemidef) (hb : b.cov.PosSemidef) :
    (a.compose (E) b).cov.PosSemidef ∧ a.inverse.cov.PosSemidef ∧
      (PCov.dflt : PCov G (Matrix n n ℝ)).cov.PosSemidef := by
  refine ⟨?_, ha, Matrix.PosSemidef.zero⟩
  have := ha.mul_mul_conjTranspose_same (Ad b.pose⁻¹)
  have h : ((E).ad b.pose⁻¹ a.cov).PosSemidef := by simpa [matEnv] using this
  exact h.add hb

/-- C14: the covariance taken from a factor is positive semidefinite if the factor's covariance is. -/
theorem C14_ofFactor_posSemidef (g : G) (m : GNoise (Matrix n n ℝ)) (h : m.cov.PosSemidef) :
    (PCov.ofFactor (E) g m).cov.PosSemidef := by
  unfold PCov.ofFactor
  split
  · have hd : (E).transPart m.cov = (Matrix.diagonal fun i => if t i then (1 : ℝ) else 0) * m.cov *
        (Matrix.diagonal fun i => if t i then (1 : ℝ) else 0)ᴴ := by
      ext i j
      simp only [matEnv, Matrix.of_apply, Matrix.diagonal_conjTranspose, Matrix.mul_diagonal, Matrix.diagonal_mul,
        star_trivial]
      cases t i <;> cases t j <;> simp
    simp only
    rw [hd]
    exact h.mul_mul_conjTranspose_same _
  · exact h

/-- C14: composing with a measurement of positive definite covariance gives a positive definite covariance. -/
theorem C14_posDef (a d : PCov G (Matrix n n ℝ)) (ha : a.cov.PosSemidef) (hd : d.cov.PosDef) :
    (a.compose (E) d).cov.PosDef := by
  have := ha.mul_mul_conjTranspose_same (Ad d.pose⁻¹)
  have h : ((E).ad d.pose⁻¹ a.cov).PosSemidef := by simpa [matEnv] using this
  exact Matrix.PosDef.posSemidef_add h hd

omit [Fintype n] [DecidableEq n] in
/-- C14: a result has rotation information only if every operand has. -/
theorem C14_rotation_loss_kept {C : Type} [AddGroup C] (ce : CovEnv G C K) (a b : PCov G C) :
    ((a.compose ce b).rot = true ↔ a.rot = true ∧ b.rot = true) ∧
      ((a.between ce b).rot = true ↔ a.rot = true ∧ b.rot = true) ∧ (a.inverse.rot = true ↔ a.rot = true) := by
  simp [PCov.compose, PCov.between, PCov.inverse]

end C14

/-- The identity covariance is positive definite, so the hypotheses of C14 are met in every dimension. -/
example (m : ℕ) : (1 : Matrix (Fin m) (Fin m) ℝ).PosDef := Matrix.PosDef.one

end RPGO.Props
