import Verif.Model.Print
import Verif.Model.Params
/-
The part of the constructor of `RobustSolver` that deals with the verbosity, RobustSolver.cpp:73-92.
-/

namespace RPGO

/-- What the constructor writes. -/
inductive StartMsg where
  /-- "Starting RobustSolver.", RobustSolver.cpp:85 -/
  | starting
  /-- "Unrecognized verbosity. Automatically setting to UPDATE. ", RobustSolver.cpp:88 -/
  | unrecognized
deriving DecidableEq, Repr

/-- The number of an enumerator of `Verbosity`, SolverParams.h:24. -/
def Verbosity.code : Verbosity → Nat
  | .update => 0
  | .quiet => 1
  | .verbose => 2

/-- What the constructor makes of a verbosity, given as the number behind the enumeration, which may be none of its enumerators. -/
structure Voice where
  /-- `debug_` of the solver, `true` at first (GenericSolver.cpp:27) -/
  solver : Bool
  /-- `debug_` of the rejection object, `true` at first (OutlierRemoval.h:99) -/
  rejection : Bool
  said : List StartMsg
deriving DecidableEq

/-- The switch over the verbosity, RobustSolver.cpp:75-90. -/
def voice : Nat → Voice
  | 0 => ⟨true, false, []⟩                                                          -- lines 76-78
  | 1 => ⟨false, false, []⟩                                                         -- lines 79-83
  | 2 => ⟨true, true, [.starting]⟩                                                  -- lines 84-86
  | _ => ⟨true, true, [.unrecognized]⟩                                              -- lines 87-89, no `setQuiet`

variable {K : Type} [Field K] [LinearOrder K] {G T N : Type}

/-- The solver made from the parameters `p` with the verbosity of number `n`: RobustSolver.cpp:29-103. -/
def Params.cfgVoice (p : Params K) (ops : Ops G T N) (charSigned : Bool) (n : Nat) : Cfg G T N :=
  { p.cfg ops charSigned with debug := (voice n).solver }

end RPGO
