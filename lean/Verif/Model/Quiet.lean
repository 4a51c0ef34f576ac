import Verif.Model.Print
/-
A session in which the solver may be silenced: the calls of `Model/Solver.lean` together with `setQuiet` (GenericSolver.h:69).
-/

namespace RPGO
variable {G T N : Type}

/-- The flag `debug_` of the solver (GenericSolver.h:92), cleared or not; the flag of the rejection object is another one. -/
def Cfg.talk (cfg : Cfg G T N) (d : Bool) : Cfg G T N := { cfg with debug := d }

/-- A call of a session. -/
inductive Act (G N : Type) where
  /-- any call of the model -/
  | call (op : Op G N)
  /-- `setQuiet()`, GenericSolver.h:69 -/
  | setQuiet

/-- Is the call `setQuiet()`? -/
def Act.quiets : Act G N → Bool
  | .setQuiet => true
  | .call _ => false

/-- The calls of a session other than `setQuiet`. -/
def Act.ops : List (Act G N) → List (Op G N)
  | [] => []
  | .call op :: h => op :: ops h
  | .setQuiet :: h => ops h

/-- The solver in a session: its state, the flag `debug_` (GenericSolver.h:92), and what has been written so far. -/
structure Sess (G T N : Type) where
  st : St G T N
  debug : Bool
  said : List Msg

/-- The end of a call with the flag `d`. -/
def Out.sess {α : Type} (d : Bool) : Out (Talk (St G T N)) α → Out (Sess G T N) α
  | .ok p r => .ok ⟨p.1, d, p.2⟩ r
  | .throw p e => .throw ⟨p.1, d, p.2⟩ e
  | .ub u => .ub u

/-- One call of a session. `setQuiet`: GenericSolver.h:69. Any other call reads the flag: RobustSolver.cpp:126, 175, 212, 221, 270,
GenericSolver.cpp:91, 100. `v` is `debug_` of the rejection object, which `setQuiet` does not touch. -/
def act [Mul G] [Inv G] [One G] (cfg : Cfg G T N) (v : Bool) (env : Env G N) : Act G N → M (Sess G T N) Ret
  | .setQuiet => fun q => .ok { q with debug := false } .unit
  | .call op => fun q => (execT (cfg.talk q.debug) v env op (q.st, q.said)).sess q.debug

/-- `RobustSolver::getIgnoredPrefixes`, RobustSolver.cpp:436-446, as `getIgnored`, with the warning of lines 440-442. -/
def getIgnoredT (cfg : Cfg G T N) : M (Talk (St G T N)) (List Chr) := do
  say (!cfg.rejection) .notImplemented
  let q ← M.get
  M.pure (getIgnored cfg q.1)

/-- Sessions of a new solver. A call that throws leaves the solver in use. -/
inductive Session [Mul G] [Inv G] [One G] (cfg : Cfg G T N) (v : Bool) (env : Env G N) : List (Act G N) → Sess G T N → Prop where
  | init : Session cfg v env [] ⟨St.init, cfg.debug, []⟩
  | ok {h q a q' r} : Session cfg v env h q → act cfg v env a q = .ok q' r → Session cfg v env (h ++ [a]) q'
  | throw {h q a q' e} : Session cfg v env h q → act cfg v env a q = .throw q' e → Session cfg v env (h ++ [a]) q'

end RPGO
