import Verif.Model.Print
import Verif.Spec.Provenance
/-
Specification vocabulary: the messages on the terminal.
-/

namespace RPGO.Spec
variable {G T N : Type} [Mul G] [Inv G] [One G]

/-- The call, made in state `s`, returns normally in state `s'` and writes the messages `ms`; `v` says whether the solver is in mode
VERBOSE. -/
def Says (cfg : Cfg G T N) (v : Bool) (env : Env G N) (op : Op G N) (s s' : St G T N) (ms : List Msg) : Prop :=
  ∃ r, execT cfg v env op (s, []) = .ok (s', ms) r

/-- The message says that a measurement was registered. -/
def registers : Msg → Bool
  | .newLandmark | .withLandmark _ | .between .. => true
  | _ => false

/-- The message says that a measurement was refused. -/
def refuses : Msg → Bool
  | .self | .missingKeys | .discarded => true
  | _ => false

/-- The message is a warning. -/
def warns : Msg → Bool
  | .self | .missingKeys | .backwards | .apart | .noClosures .. | .notImplemented => true
  | _ => false

/-- Warnings about observations of a landmark that cannot be compared. -/
def aside : Msg → Bool
  | .backwards | .apart => true
  | _ => false

def isSpin : Msg → Bool
  | .spin .. => true
  | _ => false

/-- The keys named by a message about a registered closure. -/
def closure? : Msg → Option (Key × Key)
  | .between k1 k2 => some (k1, k2)
  | _ => none

/-- The landmark named by a message about a further observation. -/
def landmark? : Msg → Option Key
  | .withLandmark l => some l
  | _ => none

/-- Among the calls given no batch, those documented to optimize. -/
def optimizesToo : Op G N → Bool
  | .ignore _ | .revive _ | .removeLast | .removeLastPair .. => true
  | .removePriors _ opt => opt
  | _ => false

/-- Do both keys have a value? -/
def valued (s : St G T N) (b : Btw G N) : Bool := decide (b.k1 ∈ s.values.keys) && decide (b.k2 ∈ s.values.keys)

end RPGO.Spec
