import Verif.Model.Tools
import Verif.Model.Tuning
/-
Model of `main` of /repo/examples/RpgoReadG2o.cpp, RpgoReadG2oIncremental.cpp and GenerateTrajectories.cpp: which argument
vectors are refused, which end the program, and what the accepted ones say. `stoi`, `stof`, `stod` are external; numbers
are elements of an ordered field (no NaN). The messages are not modelled.
-/

namespace RPGO.Tools

/-- What `stoi`, `stof` or `stod` does on a text: a number, or `std::invalid_argument`, or `std::out_of_range`. -/
inductive Num (α : Type) where
  | val (a : α)
  | invalid
  | range
deriving DecidableEq

/-- The three conversions. -/
structure Reader (K : Type) where
  stoi : String → Num Int
  stof : String → Num K
  stod : String → Num K

/-- How `main` goes on: it prints the input warning and returns 0, it ends by an uncaught exception, it runs an undefined
operation, or it reads the file `file` as 2D or 3D data and runs the solver whose parameters are set by `calls`, with output
in `folder`. -/
inductive Exit (K : Type) where
  | warned
  | died
  | undef (u : UB)
  | runs (twoD : Bool) (file folder : String) (calls : List (SetCall K))

/-- One `try { x = sto.(argv[i]); if (bad) throw invalid_argument } catch (invalid_argument)` block: the variable (initial
value `d`) and `valid_input` after it, or `none` if `out_of_range` escapes. RpgoReadG2o.cpp:83-105,
RpgoReadG2oIncremental.cpp:104-142. -/
def readNum {α : Type} (c : Num α) (d : α) (bad : α → Bool) (valid : Bool) : Option (α × Bool) :=
  match c with
  | .val a => some (a, valid && !bad a)
  | .invalid => some (d, false)
  | .range => none

variable {K : Type} [Field K]

/-- The default arguments of the GNC setters, SolverParams.h:214-221, 235-241. -/
def gncCall (t : GncThreshold K) : SetCall K := .gnc ⟨t, 100, 14 / 10, 1 / 100000, 1 / 10000, false, false⟩

/-- `argc > i && argv[i] == "v"`, RpgoReadG2o.cpp:115-119, RpgoReadG2oIncremental.cpp:187-191. -/
def verboseFlag (args : List String) (i : Nat) : Bool := decide (args.length > i) && args.getD i "" == "v"

/-- `main` of RpgoReadG2o, RpgoReadG2o.cpp:68-153. `args` is `argv`, its length `argc`. -/
def batchMain (rd : Reader K) (args : List String) : Exit K :=
  if args.length < 7 then .warned else
  match readNum (rd.stof (args.getD 3 "")) 0 (fun _ => false) true with
  | none => .died
  | some (t, v1) =>
  match readNum (rd.stof (args.getD 4 "")) 0 (fun _ => false) v1 with
  | none => .died
  | some (r, v2) =>
  match readNum (rd.stof (args.getD 5 "")) 0 (fun _ => false) v2 with
  | none => .died
  | some (c, v3) =>
  if !v3 then .warned else
  let v := verbosity (verboseFlag args 7)
  if args.getD 1 "" == "2d" then
    .runs true (args.getD 2 "") (args.getD 6 "")
      [.basic .logOutput, .basic (.simple2D t r v), gncCall (.cost c), .damping false]
  else if args.getD 1 "" == "3d" then
    .runs false (args.getD 2 "") (args.getD 6 "") [.basic .logOutput, .basic (.simple3D t r v), gncCall (.cost c)]
  else .warned

variable [LinearOrder K]

/-- `main` of RpgoReadG2oIncremental, RpgoReadG2oIncremental.cpp:91-232. -/
def incrementalMain (rd : Reader K) (args : List String) : Exit K :=
  if args.length < 8 then .warned else
  match readNum (rd.stoi (args.getD 3 "")) 0 (fun i => decide (i ≠ 0 ∧ i ≠ 1)) true with
  | none => .died
  | some (inc, v1) =>
  match readNum (rd.stod (args.getD 4 "")) 0 (fun g => decide (g < 0 ∨ g > 1)) v1 with
  | none => .died
  | some (gnc, v2) =>
  match readNum (rd.stoi (args.getD 5 "")) 0 (fun i => decide (i ≠ 0 ∧ i ≠ 1)) v2 with
  | none => .died
  | some (frame, v3) =>
  match readNum (rd.stof (args.getD 6 "")) 0 (fun t => decide (t = -1 ∧ inc = 1)) v3 with
  | none => .died
  | some (t, v4) =>
  match readNum (rd.stof (args.getD 7 "")) 0 (fun r => decide (r = -1 ∧ inc = 1)) v4 with
  | none => .died
  | some (r, v5) =>
  if !v5 then .warned else
  let folder := if args.length > 8 then args.getD 8 "" else "."
  let v := verbosity (verboseFlag args 9)
  let calls := [.basic .logOutput] ++ (if inc = 1 then [.basic .incremental] else []) ++
    (if gnc > 0 ∧ gnc < 1 then [gncCall (.probability gnc)] else []) ++ (if frame = 1 then [.align .gnc] else [])
  if args.getD 1 "" == "2d" then .runs true (args.getD 2 "") folder (calls ++ [.basic (.simple2D t r v)])
  else if args.getD 1 "" == "3d" then .runs false (args.getD 2 "") folder (calls ++ [.basic (.simple3D t r v)])
  else .warned

omit K in
/-- The arguments `main` of GenerateTrajectories reads, GenerateTrajectories.cpp:20-23: input file and output folder. Their
number is not checked: a `std::string` is made of the null pointer `argv[argc]`, or of what lies behind it. -/
def trajectoriesMain (args : List String) : Out Unit (String × String) :=
  if args.length < 3 then .ub .nullDeref else .ok () (args.getD 1 "", args.getD 2 "")

end RPGO.Tools
