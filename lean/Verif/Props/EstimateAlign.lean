import Verif.Props.Defer
import Verif.Props.Align
/-
C59 with frame alignment.
-/

namespace RPGO.Props
variable {G T N : Type} [Mul G] [Inv G] [One G]

/-- C59, also with frame alignment: from any state, an update that optimizes first does what it does without optimization
(this may align the frames, see C30, C31 and C66); its estimate is then the result of one optimizer run on the whole
resulting graph and the temporary factors, started from the estimate `t.values` that this leaves. -/
theorem C59_aligned {cfg : Cfg G T N} {env : Env G N} (hf : cfg.fixPrev = false) {fs : Graph G N} {vs : Vals G} {op : Op G N}
    (hop : (op = .update fs vs true ∧ Spec.optimizes cfg op = true) ∨ op = .forceUpdate fs vs) {s s' : St G T N} {x : Ret}
    (e : exec cfg env op s = .ok s' x) :
    ∃ t y, exec cfg env (.update fs vs false) s = .ok t y ∧ Spec.Optimized cfg env (.forceUpdate [] []) t s' := by
  have e' : exec cfg env (.forceUpdate fs vs) s = .ok s' x := by
    rcases hop with ⟨rfl, ho⟩ | rfl
    · rw [← (C79_asked cfg env fs vs s).1 ho]; exact e
    · exact e
  rw [C79_postponed] at e'
  unfold Spec.thenCall at e'
  cases e0 : exec cfg env (.update fs vs false) s with
  | throw _ _ => rw [e0] at e'; cases e'
  | ub _ => rw [e0] at e'; cases e'
  | ok t y =>
    rw [e0] at e'
    have h := C59_estimate (Or.inr (Or.inr rfl)) hf (op := .forceUpdate [] []) rfl (show exec cfg env (.forceUpdate [] []) t = _ from e')
    rw [if_pos (by unfold Spec.optimizes; split <;> rfl)] at h
    exact ⟨t, y, rfl, h⟩

open RPGO.Demo in
set_option maxRecDepth 100000 in
/-- An instance with frame alignment: two robots, a forced update with the closures between them. -/
example : cfgA.align = true ∧ cfgA.fixPrev = false ∧ ∃ s s' x, ReachOk cfgA Demo.env [twoOdom a b] s ∧
    exec cfgA Demo.env (.forceUpdate [edge (b 1) (a 1) (-5), edge (b 0) (a 0) (-5)] []) s = .ok s' x := by
  refine ⟨rfl, rfl, ?_⟩
  obtain ⟨s, r, h⟩ := Demo.runs_reach (cfg := cfgA) (env := Demo.env) (ops := [twoOdom a b])
    (P := fun s => match exec cfgA Demo.env (.forceUpdate [edge (b 1) (a 1) (-5), edge (b 0) (a 0) (-5)] []) s with
      | .ok _ _ => true | _ => false) (by decide +kernel)
  cases e : exec cfgA Demo.env (.forceUpdate [edge (b 1) (a 1) (-5), edge (b 0) (a 0) (-5)] []) s with
  | ok s' x => exact ⟨s, s', x, r, e⟩
  | throw _ _ => rw [e] at h; cases h
  | ub _ => rw [e] at h; cases h

end RPGO.Props
