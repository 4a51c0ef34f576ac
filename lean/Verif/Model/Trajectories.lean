import Verif.Model.State
/-
Model of the example program /repo/examples/GenerateTrajectories.cpp: the vertices of a g2o file are written to
one csv file per robot. Reading the file (`gtsam::load3D`), the number of arguments and the names of the files
beyond the robot's character are not modelled.
-/

namespace RPGO.Trajectories
variable {G R : Type}

/-- `f(m[c])` in place on a `std::map<char, Values>`: entries ascending by the value of the character;
`operator[]` inserts an empty `Values` if there is none. -/
def upd (signed : Bool) : List (Chr × Vals G) → Chr → (Vals G → Vals G) → List (Chr × Vals G)
  | [], c, f => [(c, f [])]
  | (c', v) :: t, c, f =>
    if c' = c then (c', f v) :: t
    else if charVal signed c < charVal signed c' then (c, f []) :: (c', v) :: t
    else (c', v) :: upd signed t c f

/-- The loop over the keys, GenerateTrajectories.cpp:28-35. `Values::insert` throws on a key that is already
there; the keys of `all_values` are distinct, so it is an insertion at the sorted position. -/
def split (signed : Bool) (all : Vals G) : List (Chr × Vals G) :=
  all.foldl (fun m e => upd signed m (chr e.1) (fun t => t.set e.1 e.2)) []

/-- The files: robot character and rows, in the order in which they are opened. -/
abbrev Files (R : Type) := List (Chr × List R)

/-- Append a row to the file opened last. -/
def putRow (r : R) (d : Files R) : Files R :=
  match d.getLast? with
  | none => d
  | some f => d.dropLast ++ [(f.1, f.2 ++ [r])]

/-- The rows of one file, GenerateTrajectories.cpp:45-54: `at<Pose3>` throws on a value of another type. `row`
gives the position and the quaternion of a pose; the leading "0" is left out. -/
def writeRows (row : G → R) : Vals G → M (Files R) Unit
  | [] => M.pure ()
  | (_, .pose x) :: t => M.bind (M.modify (putRow (row x))) fun _ => writeRows row t
  | (_, .other _) :: _ => M.raise .wrongType

/-- One robot, GenerateTrajectories.cpp:37-56; opening a file empties it. The header line is left out. -/
def writeRobot (row : G → R) (e : Chr × Vals G) : M (Files R) Unit :=
  M.bind (M.modify (fun d => d ++ [(e.1, [])])) fun _ => writeRows row e.2

/-- `main`, GenerateTrajectories.cpp:20-57, after reading the vertices `all`, on an empty output folder. -/
def main (signed : Bool) (row : G → R) (all : Vals G) : Out (Files R) Unit :=
  M.forEach (writeRobot row) (split signed all) []

end RPGO.Trajectories
