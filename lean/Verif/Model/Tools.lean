import Verif.Model.Params
import Verif.Model.Solver
/-
Model of the example programs /repo/examples/RpgoReadG2o.cpp and /repo/examples/RpgoReadG2oIncremental.cpp: which calls
they make on the solver for the graph and the values read from a file, and with which parameters. Their arguments are in
Verif/Model/Main.lean. Reading the file (`gtsam::load2D`, `load3D`), the messages and the zero noise of the prior are not
modelled.
-/

namespace RPGO.Tools
variable {G N : Type}

/-- The first key of the first factor and its pose, RpgoReadG2o.cpp:44-50, RpgoReadG2oIncremental.cpp:43-49:
`nfg[0]` throws on an empty graph, `->front()` needs a factor with a key, `values.at<T>` throws if the key has no value or
a value of another type. -/
def anchor (g : Graph G N) (v : Vals G) : Out Unit (Key × G) :=
  match g with
  | [] => .throw () .outOfRange
  | none :: _ => .ub .nullDeref
  | some f :: _ =>
    match f.keys with
    | [] => .ub .iterRange
    | k :: _ =>
      match v.find? k with
      | none => .throw () .keyMissing
      | some (.other _) => .throw () .wrongType
      | some (.pose x) => .ok () (k, x)

/-- The calls on the solver once the prior is known, RpgoReadG2o.cpp:49-54. -/
def batchCalls (g : Graph G N) (v : Vals G) (k : Key) (x : G) : List (Op G N) :=
  [.update (g ++ [some (.prior k x)]) v true, .saveData]

/-- `Simulate`, RpgoReadG2o.cpp:28-55: the calls it makes on the solver it constructs. -/
def simulate (g : Graph G N) (v : Vals G) : Out Unit (List (Op G N)) :=
  match anchor g v with
  | .ok _ (k, x) => .ok () (batchCalls g v k x)
  | .throw _ e => .throw () e
  | .ub u => .ub u

/-- The test that sends a factor to `lc_factors`, RpgoReadG2oIncremental.cpp:55-62: a between factor that does not go
from a key to its successor. A null pointer is not a between factor. -/
def isLc : Option (Factor G N) → Bool
  | some (.btw b) => decide (¬ b.k1 + 1 = b.k2)
  | _ => false

/-- `non_lc_factors`, RpgoReadG2oIncremental.cpp:53-67. -/
def nonLc (g : Graph G N) : Graph G N := g.filter fun f => !isLc f

/-- `lc_factors`, RpgoReadG2oIncremental.cpp:53-67. -/
def lc (g : Graph G N) : Graph G N := g.filter isLc

/-- The calls on the solver once the prior is known, RpgoReadG2oIncremental.cpp:48-77. -/
def incrementalCalls (g : Graph G N) (v : Vals G) (k : Key) (x : G) : List (Op G N) :=
  .update (nonLc (g ++ [some (.prior k x)])) v true ::
    (lc (g ++ [some (.prior k x)])).map (fun f => .update [f] [] false) ++ [.saveData]

/-- `SimulateIncremental`, RpgoReadG2oIncremental.cpp:27-78. -/
def simulateIncremental (g : Graph G N) (v : Vals G) : Out Unit (List (Op G N)) :=
  match anchor g v with
  | .ok _ (k, x) => .ok () (incrementalCalls g v k x)
  | .throw _ e => .throw () e
  | .ub u => .ub u

variable {K : Type}

/-- The verbosity both programs choose, RpgoReadG2o.cpp:125-126, RpgoReadG2oIncremental.cpp:207-208. -/
def verbosity (verbose : Bool) : Verbosity := if verbose then .verbose else .quiet

/-- Parameters set by `main` of RpgoReadG2o, RpgoReadG2o.cpp:121-146. `setLmDiagonalDamping` (2d) tunes the external
optimizer and is left out, as are the numbers given to GNC. -/
def batchParams [Field K] (twoD verbose : Bool) (t r : K) : Params K :=
  Params.default.applyAll
    [.logOutput, if twoD then .simple2D t r (verbosity verbose) else .simple3D t r (verbosity verbose), .gnc false false]

/-- Parameters set by `main` of RpgoReadG2oIncremental from numeric arguments, or `none` if it refuses them,
RpgoReadG2oIncremental.cpp:101-227. `inc` and `frame` are the values of `stoi`; `gnc`, `t`, `r` those of `stod`, `stof`. -/
def incrementalParams [Field K] [LinearOrder K] (twoD verbose : Bool) (inc : Int) (gnc : K) (frame : Int) (t r : K) :
    Option (Params K) :=
  if (inc ≠ 0 ∧ inc ≠ 1) ∨ (gnc < 0 ∨ gnc > 1) ∨ (frame ≠ 0 ∧ frame ≠ 1) ∨ (t = -1 ∧ inc = 1) ∨ (r = -1 ∧ inc = 1) then none
  else some <| Params.default.applyAll <|
    [.logOutput] ++ (if inc = 1 then [.incremental] else []) ++
    (if gnc > 0 ∧ gnc < 1 then [.gnc false false] else []) ++
    (if frame = 1 then [.alignMethod true] else []) ++
    [if twoD then .simple2D t r (verbosity verbose) else .simple3D t r (verbosity verbose)]

end RPGO.Tools
