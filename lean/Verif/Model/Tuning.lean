import Verif.Model.Params
import Verif.Model.Averaging
/-
Model of the tuning numbers of /repo/include/KimeraRPGO/SolverParams.h and of how /repo/src/RobustSolver.cpp:123-166 and
220-260 hand them to GTSAM's optimizers. The optimizers are external.
-/

namespace RPGO

/-- `GncThresholdMode` and `gnc_inlier_threshold_`, SolverParams.h:69-71. -/
inductive GncThreshold (K : Type) where
  | cost (c : K)
  | probability (p : K)
deriving DecidableEq

/-- The members of `GncParams` and `RobustSolverParams` that only external code reads, SolverParams.h:60-79, 293-297. -/
structure Tuning (K : Type) where
  threshold : GncThreshold K
  maxIterations : Nat
  muStep : K
  relCostTol : K
  weightsTol : K
  damping : Bool
  alignMethod : AlignMethod
  alignProb : K

/-- A call of one of the two GNC setters, SolverParams.h:213-255. -/
structure GncCall (K : Type) where
  threshold : GncThreshold K
  maxIterations : Nat
  muStep : K
  relCostTol : K
  weightsTol : K
  fix : Bool
  bias : Bool

/-- Calls of the setters of `RobustSolverParams`. `basic` are those that set no tuning number. -/
inductive SetCall (K : Type) where
  | gnc (c : GncCall K)
  | damping (on : Bool)
  | align (m : AlignMethod)
  | alignProb (p : K)
  | basic (x : Params.Setter K)

namespace Tuning
variable {K : Type}

/-- Default constructors, SolverParams.h:60-68, 91-93. -/
def default [Field K] : Tuning K where
  threshold := .probability (9 / 10)
  maxIterations := 100
  muStep := 14 / 10
  relCostTol := 1 / 100000
  weightsTol := 1 / 10000
  damping := true
  alignMethod := .none
  alignProb := 99 / 100

/-- SolverParams.h:109-111 (damping), 214-231, 235-252 (gnc), 264-266 (align), 270-272 (probability). -/
def apply (t : Tuning K) : SetCall K → Tuning K
  | .gnc c => { t with
      threshold := c.threshold
      maxIterations := c.maxIterations
      muStep := c.muStep
      relCostTol := c.relCostTol
      weightsTol := c.weightsTol }
  | .damping on => { t with damping := on }
  | .align m => { t with alignMethod := m }
  | .alignProb p => { t with alignProb := p }
  | .basic _ => t

end Tuning

/-- What a call does to the other members. -/
def Params.call {K : Type} (p : Params K) : SetCall K → Params K
  | .gnc c => p.apply (.gnc c.fix c.bias)
  | .damping _ => p
  | .align m => p.apply (.alignMethod (decide (m ≠ .none)))
  | .alignProb _ => p
  | .basic x => p.apply x

/-- Parameters after a sequence of calls. -/
def Params.calls {K : Type} (p : Params K) (cs : List (SetCall K)) : Params K := cs.foldl Params.call p
/-- Tuning after a sequence of calls. -/
def Tuning.calls {K : Type} (t : Tuning K) (cs : List (SetCall K)) : Tuning K := cs.foldl Tuning.apply t

/-- The base optimizer's parameters: Levenberg-Marquardt with or without diagonal damping (RobustSolver.cpp:124-125) or
Gauss-Newton (line 220). -/
inductive BaseOpt where
  | lm (damping : Bool)
  | gn
deriving DecidableEq

/-- All that GTSAM's GNC optimizer is given: RobustSolver.cpp:133-166 (LM), 228-260 (GN). -/
structure GncRun (G N K : Type) where
  base : BaseOpt
  graph : Graph G N
  values : Vals G
  known : List Nat
  maxIterations : Nat
  muStep : K
  relCostTol : K
  weightsTol : K
  weights : Option (List Rat)
  threshold : GncThreshold K

/-- All that the plain optimizer is given: RobustSolver.cpp:198-199, 290-291. -/
structure PlainRun (G N : Type) where
  base : BaseOpt
  graph : Graph G N
  values : Vals G

/-- `lmParams` or `gnParams`, RobustSolver.cpp:123-125, 219-220. -/
def Tuning.base {K : Type} (t : Tuning K) (lm : Bool) : BaseOpt := if lm then .lm t.damping else .gn

/-- The environment of a solver with these tuning numbers, from GTSAM's optimizers `gnc`, `plain` and `average`. -/
def Env.tuned {G N K : Type} [One G] [Field K] (env : Env G N) (d : Dim) (t : Tuning K) (lm : Bool)
    (gnc : GncRun G N K → Option (Vals G × List Rat)) (plain : PlainRun G N → Option (Vals G))
    (average : AvgProblem G K → Option G) : Env G N :=
  { env with
    gnc := fun graph values known weights =>
      gnc ⟨t.base lm, graph, values, known, t.maxIterations, t.muStep, t.relCostTol, t.weightsTol, weights, t.threshold⟩
    opt := fun graph values => plain ⟨t.base lm, graph, values⟩
    avg := fun cs => average (avgProblem d t.alignMethod t.alignProb cs) }

end RPGO
