import Verif.Props.Bounded
import Mathlib.Analysis.Normed.Affine.Isometry
import Mathlib.Analysis.InnerProductSpace.PiL2

/-
C100: pure translations in any normed space meet the condition on the errors.
-/

namespace RPGO.Props
open Spec
variable {V : Type} [NormedAddCommGroup V] [NormedSpace ℝ V]

/-- Rigid motions of `V` that do not turn. -/
def Translation (g : V ≃ᵃⁱ[ℝ] V) : Prop := g.linearIsometryEquiv = 1

theorem rigid_apply (g : V ≃ᵃⁱ[ℝ] V) (x : V) : g x = g.linearIsometryEquiv x + g 0 := by
  have := g.map_vadd 0 x
  simpa using this

theorem lin_mul (g h : V ≃ᵃⁱ[ℝ] V) : (g * h).linearIsometryEquiv = g.linearIsometryEquiv * h.linearIsometryEquiv := by
  ext x
  rfl

theorem lin_inv (g : V ≃ᵃⁱ[ℝ] V) : (g⁻¹).linearIsometryEquiv = (g.linearIsometryEquiv)⁻¹ := rfl

theorem translation_kind : Kind (Translation (V := V)) := by
  refine ⟨rfl, fun a b ha hb => ?_, fun a ha => ?_, fun x a ha => ?_⟩
  · unfold Translation at *; rw [lin_mul, ha, hb, one_mul]
  · unfold Translation at *; rw [lin_inv, ha, inv_one]
  · unfold Translation at *; rw [lin_mul, lin_mul, lin_inv, ha, mul_one, mul_inv_cancel]

/-- Any way to measure translations that gives pure translations their length. -/
theorem length_sizes {f : (V ≃ᵃⁱ[ℝ] V) → ℝ} (hf : ∀ g, Translation g → f g = ‖g 0‖) : Sizes Translation f := by
  have k := translation_kind (V := V)
  have shift : ∀ {g : V ≃ᵃⁱ[ℝ] V}, Translation g → ∀ x, g x = x + g 0 := fun {g} hg x => by
    rw [rigid_apply g x, show g.linearIsometryEquiv = 1 from hg]; rfl
  have mulz : ∀ (a b : V ≃ᵃⁱ[ℝ] V) (x : V), (a * b) x = a (b x) := fun _ _ _ => rfl
  refine ⟨?_, fun a b ha hb => ?_, fun a ha => ?_, fun x a ha => ?_⟩
  · rw [hf _ k.one]; simp
  · rw [hf _ (k.mul a b ha hb), hf a ha, hf b hb, mulz, shift ha, add_comm]
    exact norm_add_le _ _
  · rw [hf _ (k.inv a ha), hf a ha]
    have : (a⁻¹ : V ≃ᵃⁱ[ℝ] V) 0 = - a 0 := by
      have h1 : (a * a⁻¹) 0 = (0 : V) := by rw [mul_inv_cancel]; rfl
      rw [mulz, shift ha] at h1
      exact eq_neg_of_add_eq_zero_left h1
    rw [this, norm_neg]
  · rw [hf _ (k.conj x a ha), hf a ha]
    have : (x * a * x⁻¹) 0 = x.linearIsometryEquiv (a 0) := by
      rw [mulz, mulz, shift ha, rigid_apply x]
      have h1 : (x * x⁻¹) 0 = (0 : V) := by rw [mul_inv_cancel]; rfl
      rw [mulz, rigid_apply x] at h1
      rw [map_add, add_right_comm, h1, zero_add]
    rw [this, LinearIsometryEquiv.norm_map]

/-- Any way to measure rotations that gives pure translations none. -/
theorem turn_sizes {f : (V ≃ᵃⁱ[ℝ] V) → ℝ} (hf : ∀ g, Translation g → f g = 0) : Sizes Translation f := by
  have k := translation_kind (V := V)
  refine ⟨hf _ k.one, fun a b ha hb => ?_, fun a ha => ?_, fun x a ha => ?_⟩
  · rw [hf _ (k.mul a b ha hb), hf a ha, hf b hb, add_zero]
  · rw [hf _ (k.inv a ha), hf a ha]
  · rw [hf _ (k.conj x a ha), hf a ha]

/-- C100: the condition on the errors is met by pure translations in 2D, 3D or any number of dimensions, if translation errors are measured by their length and
pure translations have no rotation error (for the logarithm the code computes both is so). -/
theorem C100_lengths {tn rn : (V ≃ᵃⁱ[ℝ] V) → ℝ} (ht : ∀ g, Translation g → tn g = ‖g 0‖) (hr : ∀ g, Translation g → rn g = 0) :
    Kind (Translation (V := V)) ∧ Sizes Translation tn ∧ Sizes Translation rn :=
  ⟨translation_kind, length_sizes ht, turn_sizes hr⟩

open Classical in
/-- In three dimensions, with the distance by which the origin moves and the largest distance by which a direction turns. -/
example : Kind (Translation (V := EuclideanSpace ℝ (Fin 3))) ∧ Sizes (Translation (V := EuclideanSpace ℝ (Fin 3))) (fun g => ‖g 0‖) ∧
    Sizes (Translation (V := EuclideanSpace ℝ (Fin 3))) (fun g => ‖(g.linearIsometryEquiv : EuclideanSpace ℝ (Fin 3) →L[ℝ] EuclideanSpace ℝ (Fin 3)) - 1‖) :=
  C100_lengths (fun _ _ => rfl) fun g h => by
    have : g.linearIsometryEquiv = 1 := h
    rw [this, norm_eq_zero, sub_eq_zero]
    rfl

end RPGO.Props
