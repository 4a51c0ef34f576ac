import Verif.Model.State
import Mathlib.Data.Matrix.Mul
/-
The g2o file written by `writeG2o`.
-/

namespace RPGO

/-- The four kinds of vertex records. -/
inductive VKind where
  | se2 | se3 | xy | xyz
deriving DecidableEq, Repr

/-- One line of the file: a vertex (kind, key, numbers) or an edge (3D?, keys, numbers of the measurement, entries of
the information matrix). The tag and the separators are left out. -/
inductive Line (K : Type) where
  | vertex (kind : VKind) (k : Key) (nums : List K)
  | edge (three : Bool) (k1 k2 : Key) (nums info : List K)
deriving DecidableEq, Repr

/-- What `writeG2o` takes from GTSAM: the dimension of the solver's poses; the numbers of a pose (`x y theta`, or
`x y z qx qy qz qw`); for a value that is not such a pose, its kind and numbers (`none`: not written at all); the
square-root information matrix of a Gaussian noise model; and the number a printed number denotes (`stream <<` prints
six significant digits). -/
structure Writer (G N K : Type) where
  three : Bool
  nums : G → List K
  other : Nat → Option (VKind × List K)
  sqrt3 : N → Matrix (Fin 3) (Fin 3) K
  sqrt6 : N → Matrix (Fin 6) (Fin 6) K
  fmt : K → K

variable {G N K : Type}

/-- The double loop `for i < n, for j = i .. n-1` over the entries of a matrix, Logger.cpp:123-127 and 154-158. -/
def upper {n : Nat} (A : Matrix (Fin n) (Fin n) K) : List K :=
  (List.finRange n).flatMap fun i => ((List.finRange n).filter fun j => decide (i ≤ j)).map fun j => A i j

/-- `InfoG2o` as a function of `Info`, Logger.cpp:148-152: the diagonal blocks are exchanged, the off-diagonal blocks
are copied to the same place. -/
def swapBlocks (A : Matrix (Fin 6) (Fin 6) K) : Matrix (Fin 6) (Fin 6) K := fun i j =>
  if i.val < 3 ∧ j.val < 3 then A (i + 3) (j + 3)
  else if 3 ≤ i.val ∧ 3 ≤ j.val then A (i - 3) (j - 3)
  else A i j

/-- The entries of the information matrix in an edge record, Logger.cpp:119-127 and 140-158. -/
def infoEntries [Semiring K] (w : Writer G N K) (n : N) : List K :=
  (if w.three then upper (swapBlocks ((w.sqrt6 n).transpose * w.sqrt6 n))
   else upper ((w.sqrt3 n).transpose * w.sqrt3 n)).map w.fmt

/-- Kind and numbers of a value. -/
def valueKind (w : Writer G N K) : Val G → Option (VKind × List K)
  | .pose g => some (if w.three then .se3 else .se2, (w.nums g).map w.fmt)
  | .other tag => (w.other tag).map fun x => (x.1, x.2.map w.fmt)

/-- One of the four loops over the estimate, Logger.cpp:69-76, 78-89, 91-99, 101-109. -/
def vertexPass (w : Writer G N K) (kind : VKind) : Vals G → M (List (Line K)) Unit
  | [] => M.pure ()
  | (k, v) :: t => fun file =>
    match valueKind w v with
    | some (kind', nums) => vertexPass w kind t (if kind' = kind then file ++ [.vertex kind k nums] else file)
    | none => vertexPass w kind t file

/-- The loop over the factors, Logger.cpp:111-161. Null pointers and factors other than between factors of poses are
skipped; the model has between factors of one dimension only. A null noise model pointer (undefined behaviour at lines
116, 137) is not modelled: a noise model that is not Gaussian throws. -/
def edgePass [Semiring K] (w : Writer G N K) : Graph G N → M (List (Line K)) Unit
  | [] => M.pure ()
  | some (.btw b) :: t => fun file =>
    match b.noise with
    | none => .throw file .invalidArg
    | some n => edgePass w t (file ++ [.edge w.three b.k1 b.k2 ((w.nums b.m).map w.fmt) (infoEntries w n)])
  | _ :: t => edgePass w t

/-- `writeG2o`, Logger.cpp:64-163, on a fresh file. -/
def writeG2o [Semiring K] (w : Writer G N K) (g : Graph G N) (v : Vals G) : M (List (Line K)) Unit := do
  vertexPass w .se2 v
  vertexPass w .se3 v
  vertexPass w .xy v
  vertexPass w .xyz v
  edgePass w g

end RPGO
