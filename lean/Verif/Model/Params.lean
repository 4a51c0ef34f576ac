import Verif.Model.State
/-
Model of /repo/include/KimeraRPGO/SolverParams.h and of the constructors that consume it
(RobustSolver.cpp:29-103, Pcm.h:58-83). Thresholds live in a linearly ordered field `K`.
Verbosity matters only through `debug_` of the solver (RobustSolver.cpp:75-89, GenericSolver.h:92).
GNC tuning numbers are handed to the external optimizer and are left out here (Model/Tuning has them).
-/

namespace RPGO

/-- `OutlierRemovalMethod`, SolverParams.h:16-22. -/
inductive Method where
  | none | pcm2D | pcm3D | simple2D | simple3D
deriving DecidableEq, Repr

/-- `Verbosity`, SolverParams.h:24. -/
inductive Verbosity where
  | update | quiet | verbose
deriving DecidableEq, Repr

/-- `PcmParams`, `GncParams` and `RobustSolverParams`, SolverParams.h:33-56, 58-78, 80-299. -/
structure Params (K : Type) where
  odomThr : K
  lcThr : K
  odomT : K
  odomR : K
  distT : K
  distR : K
  incremental : Bool
  fixPrev : Bool
  biasOdom : Bool
  lm : Bool
  method : Method
  special : List Chr
  verbosity : Verbosity
  log : Bool
  align : Bool
  useGnc : Bool

namespace Params
variable {K : Type}

/-- Default constructors, SolverParams.h:35-42, 60-68, 82-94. -/
def default [Field K] : Params K where
  odomThr := 10
  lcThr := 5
  odomT := 5 / 100
  odomR := 5 / 1000
  distT := 1 / 100
  distR := 1 / 1000
  incremental := false
  fixPrev := false
  biasOdom := false
  lm := true
  method := .pcm3D
  special := []
  verbosity := .update
  log := false
  align := false
  useGnc := false

/-- Calls of the setters. -/
inductive Setter (K : Type) where
  | noRejection (v : Verbosity)
  | incremental
  | pcm2D (odom lc : K) (v : Verbosity)
  | pcm3D (odom lc : K) (v : Verbosity)
  | simple2D (t r : K) (v : Verbosity)
  | simple3D (t r : K) (v : Verbosity)
  | simple2D' (ot or_ pt pr : K) (v : Verbosity)
  | simple3D' (ot or_ pt pr : K) (v : Verbosity)
  | gnc (fix bias : Bool)
  | gncFixInliers
  | gncBiasOdom
  | alignMethod (on : Bool)
  | logOutput

/-- SolverParams.h:97-100 (noRejection), 104 (incremental), 119-126, 134-141 (pcm), 148-157, 164-173,
180-191, 198-209 (simple), 213-230, 234-251 (gnc), 255, 260 (fix, bias), 264-266 (align), 276-279 (log). -/
def apply (p : Params K) : Setter K → Params K
  | .noRejection v => { p with method := .none, verbosity := v }
  | .incremental => { p with incremental := true }
  | .pcm2D o l v => { p with method := .pcm2D, odomThr := o, lcThr := l, verbosity := v }
  | .pcm3D o l v => { p with method := .pcm3D, odomThr := o, lcThr := l, verbosity := v }
  | .simple2D t r v =>
    { p with method := .simple2D, odomT := t, odomR := r, distT := t, distR := r, verbosity := v }
  | .simple3D t r v =>
    { p with method := .simple3D, odomT := t, odomR := r, distT := t, distR := r, verbosity := v }
  | .simple2D' ot o pt pr v =>
    { p with method := .simple2D, odomT := ot, odomR := o, distT := pt, distR := pr, verbosity := v }
  | .simple3D' ot o pt pr v =>
    { p with method := .simple3D, odomT := ot, odomR := o, distT := pt, distR := pr, verbosity := v }
  | .gnc f b => { p with useGnc := true, fixPrev := f, biasOdom := b }
  | .gncFixInliers => { p with fixPrev := true }
  | .gncBiasOdom => { p with biasOdom := true }
  | .alignMethod on => { p with align := on }
  | .logOutput => { p with log := true }

/-- A sequence of setter calls. -/
def applyAll (p : Params K) (ss : List (Setter K)) : Params K := ss.foldl apply p

variable [Field K] [LinearOrder K]

/-- `odom_check_`, Pcm.h:74-77. -/
def odomCheck (p : Params K) : Bool := !(decide (p.odomThr < 0) || decide (p.odomR < 0) || decide (p.odomT < 0))

/-- `loop_consistency_check_`, Pcm.h:79-82. -/
def loopCheck (p : Params K) : Bool := !(decide (p.lcThr < 0) || decide (p.distR < 0) || decide (p.distT < 0))

/-- The constructed solver, RobustSolver.cpp:29-103, with the operations of its pose type. -/
def cfg {G T N : Type} (p : Params K) (ops : Ops G T N) (charSigned : Bool) : Cfg G T N where
  ops := ops
  rejection := decide (p.method ≠ .none)
  special := p.special
  odomCheck := p.odomCheck
  loopCheck := p.loopCheck
  incremental := p.incremental
  align := p.align
  lm := p.lm
  debug := decide (p.verbosity ≠ .quiet)
  log := p.log
  useGnc := p.useGnc
  fixPrev := p.fixPrev
  biasOdom := p.biasOdom
  charSigned := charSigned

variable {G C : Type} [Mul G] [Inv G] [One G]

/-- A solver with method PCM_Simple2D / PCM_Simple3D; `tn`, `rn` are the norms of the translation and rotation
parts of `Logmap`. -/
def cfgSimple (p : Params K) (C : Type) (tn rn : G → K) (signed : Bool) : Cfg G (PNode G) (GNoise C) :=
  p.cfg (PNode.ops C tn rn p.odomT p.odomR p.distT p.distR) signed

/-- A solver with method PCM2D / PCM3D. -/
def cfgCov [AddGroup C] (p : Params K) (env : CovEnv G C K) (signed : Bool) : Cfg G (PCov G C) (GNoise C) :=
  p.cfg (PCov.ops env p.odomThr p.lcThr) signed

end Params

end RPGO
