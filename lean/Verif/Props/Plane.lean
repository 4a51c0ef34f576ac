import Verif.Spec.Plane
import Verif.Props.Thresholds
import Verif.Props.Matrix
/-
Runs with planar poses, which do not commute: C13 fails also if both closures are reversed; C12 and C31 with turning robots.
-/

namespace RPGO.Props
open RPGO Plane

/-- Two robots; `a` drives straight, `b` turns. -/
def planeRobots : List (Op Pose Plane.Ns) :=
  [.update [edge (Demo.a 0) (Demo.a 1) (tr 1 0), edge (Demo.b 0) (Demo.b 1) (turned 1 0)]
     [pose (Demo.a 0) 1, pose (Demo.a 1) (tr 1 0), pose (Demo.b 0) 1, pose (Demo.b 1) (turned 1 0)] true]

/-- Two measurements of `b0` from `a0`: the same place 10 ahead, but different headings. -/
def ahead : Btw Pose Plane.Ns := btw (Demo.a 0) (Demo.b 0) (tr 10 0)
def aheadTurned : Btw Pose Plane.Ns := btw (Demo.a 0) (Demo.b 0) (turned 10 0)

set_option maxRecDepth 100000 in
/-- C13 is false even if both closures are reversed together: two closures a0 → b0 that agree on the position of `b0` and differ in
its heading by an angle below the rotation threshold are consistent, and both are accepted; the same two closures expressed from b0 to
a0 disagree on the position of `a0` (the angle times the distance), and only one is accepted. -/
theorem C13_false_both :
    (∃ s, ReachOk Plane.cfg Plane.env planeRobots s ∧ Spec.PairCheck Plane.cfg s ahead aheadTurned true ∧
      Spec.PairCheck Plane.cfg s (Spec.reversed ahead) (Spec.reversed aheadTurned) false) ∧
    (∃ s, ReachOk Plane.cfg Plane.env (planeRobots ++ [.update [some (.btw ahead), some (.btw aheadTurned)] [] true]) s ∧
      Spec.selected s ⟨97, 98⟩ = [ahead, aheadTurned]) ∧
    (∃ s, ReachOk Plane.cfg Plane.env
        (planeRobots ++ [.update [some (.btw (Spec.reversed ahead)), some (.btw (Spec.reversed aheadTurned))] [] true]) s ∧
      Spec.selected s ⟨97, 98⟩ = [Spec.reversed ahead]) := by
  have conv : ∀ {x y : Btw Pose Plane.Ns} {v : Bool} {s : St Pose Plane.Tp Plane.Ns},
      (match areLoopsConsistent Plane.cfg x y s.pcm with | .ok _ w => w == v | _ => false) = true → Spec.PairCheck Plane.cfg s x y v := by
    intro x y v s h
    split at h
    · rename_i q w e
      have : w = v := by simpa using h
      rw [this] at e
      exact ⟨_, e⟩
    · cases h
  refine ⟨?_, ?_, ?_⟩
  · obtain ⟨s, r, h⟩ := Demo.runs_reach (cfg := Plane.cfg) (env := Plane.env) (ops := planeRobots)
      (P := fun s => (match areLoopsConsistent Plane.cfg ahead aheadTurned s.pcm with | .ok _ w => w == true | _ => false) &&
        (match areLoopsConsistent Plane.cfg (Spec.reversed ahead) (Spec.reversed aheadTurned) s.pcm with | .ok _ w => w == false | _ => false))
      (by decide +kernel)
    rw [Bool.and_eq_true] at h
    exact ⟨s, r, conv h.1, conv h.2⟩
  · obtain ⟨s, r, h⟩ := Demo.runs_reach (cfg := Plane.cfg) (env := Plane.env)
      (ops := planeRobots ++ [.update [some (.btw ahead), some (.btw aheadTurned)] [] true])
      (P := fun s => decide (Spec.selected s ⟨97, 98⟩ = [ahead, aheadTurned])) (by decide +kernel)
    exact ⟨s, r, of_decide_eq_true h⟩
  · obtain ⟨s, r, h⟩ := Demo.runs_reach (cfg := Plane.cfg) (env := Plane.env)
      (ops := planeRobots ++ [.update [some (.btw (Spec.reversed ahead)), some (.btw (Spec.reversed aheadTurned))] [] true])
      (P := fun s => decide (Spec.selected s ⟨97, 98⟩ = [Spec.reversed ahead])) (by decide +kernel)
    exact ⟨s, r, of_decide_eq_true h⟩

/-- Three turns, then the exact closure in both directions, and a wrong one. -/
def planeLoop : List (Op Pose Plane.Ns) :=
  [.update [edge (Demo.a 0) (Demo.a 1) (turned 1 0)] [pose (Demo.a 0) 1, pose (Demo.a 1) (turned 1 0)] true,
   .update [edge (Demo.a 1) (Demo.a 2) (turned 1 2)] [pose (Demo.a 2) (turned 1 0 * turned 1 2)] true,
   .update [edge (Demo.a 2) (Demo.a 3) (turned 0 3)] [pose (Demo.a 3) (turned 1 0 * turned 1 2 * turned 0 3)] true,
   .update [edge (Demo.a 0) (Demo.a 3) (turned 1 0 * turned 1 2 * turned 0 3),
     edge (Demo.a 3) (Demo.a 0) (turned 1 0 * turned 1 2 * turned 0 3)⁻¹,
     edge (Demo.a 0) (Demo.a 3) (turned 0 3 * turned 1 2 * turned 1 0)] [] true]

set_option maxRecDepth 100000 in
/-- C09, C12 with a robot that turns: the closures that measure the product of the odometry, in the order of the steps, are registered
and accepted; the product in the other order is not. -/
example : ∃ s, ReachOk Plane.cfg Plane.env planeLoop s ∧ Spec.registered s ⟨97, 97⟩ =
      [btw (Demo.a 0) (Demo.a 3) (turned 1 0 * turned 1 2 * turned 0 3),
       btw (Demo.a 3) (Demo.a 0) (turned 1 0 * turned 1 2 * turned 0 3)⁻¹] ∧
    Spec.selected s ⟨97, 97⟩ = Spec.registered s ⟨97, 97⟩ := by
  obtain ⟨s, r, h⟩ := Demo.runs_reach (cfg := Plane.cfg) (env := Plane.env) (ops := planeLoop)
    (P := fun s => decide (Spec.registered s ⟨97, 97⟩ =
      [btw (Demo.a 0) (Demo.a 3) (turned 1 0 * turned 1 2 * turned 0 3),
       btw (Demo.a 3) (Demo.a 0) (turned 1 0 * turned 1 2 * turned 0 3)⁻¹] ∧
    Spec.selected s ⟨97, 97⟩ = Spec.registered s ⟨97, 97⟩)) (by decide +kernel)
  exact ⟨s, r, of_decide_eq_true h⟩

/-- Robot `b` starts at `turned 5 2` in the frame of `a`; one exact closure per direction. -/
def planeFleet : List (Op Pose Plane.Ns) :=
  [.update [edge (Demo.a 0) (Demo.a 1) (turned 1 0), edge (Demo.b 0) (Demo.b 1) (turned 2 1)]
     [pose (Demo.a 0) 1, pose (Demo.a 1) (turned 1 0), pose (Demo.b 0) 1, pose (Demo.b 1) (turned 2 1)] true,
   .update [edge (Demo.a 1) (Demo.b 1) ((turned 1 0)⁻¹ * (turned 5 2 * turned 2 1))] [] false,
   .update [edge (Demo.b 0) (Demo.a 0) (turned 5 2)⁻¹] [] false]

set_option maxRecDepth 100000 in
/-- C31 with robots that turn: frame alignment moves `b` to its place in the frame of `a`. -/
example : ∃ s, ReachOk { Plane.cfg with align := true } Plane.env planeFleet s ∧
    s.values.find? (Demo.a 1) = some (.pose (turned 1 0)) ∧ s.values.find? (Demo.b 0) = some (.pose (turned 5 2)) ∧
    s.values.find? (Demo.b 1) = some (.pose (turned 5 2 * turned 2 1)) := by
  obtain ⟨s, r, h⟩ := Demo.runs_reach (cfg := { Plane.cfg with align := true }) (env := Plane.env) (ops := planeFleet)
    (P := fun s => decide (s.values.find? (Demo.a 1) = some (.pose (turned 1 0)) ∧
      s.values.find? (Demo.b 0) = some (.pose (turned 5 2)) ∧
      s.values.find? (Demo.b 1) = some (.pose (turned 5 2 * turned 2 1)))) (by decide +kernel)
  exact ⟨s, r, of_decide_eq_true h⟩

end RPGO.Props
