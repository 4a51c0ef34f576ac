/-
Common vocabulary of the model of the solver and of the outlier-rejection code:
outcomes of C++ calls, keys and symbols, `std::map` / `std::unordered_map` as association lists.
-/

namespace RPGO

/-- C++ exceptions that can leave a public method. -/
inductive Exn where
  /-- `gtsam::ValuesKeyAlreadyExists` -/
  | keyExists
  /-- `gtsam::ValuesKeyDoesNotExist` -/
  | keyMissing
  /-- `gtsam::ValuesIncorrectType` -/
  | wrongType
  /-- `std::out_of_range`, e.g. from `FactorGraph::operator[]`, `at` -/
  | outOfRange
  /-- `std::invalid_argument` -/
  | invalidArg
  /-- any exception raised by a numerical optimizer -/
  | optimizer
deriving DecidableEq, Repr

/-- Undefined behaviour (an Eigen size assertion that is compiled out in release builds counts as such). -/
inductive UB where
  /-- Eigen size mismatch or out-of-range block / coefficient -/
  | eigen
  /-- dereference of a null pointer -/
  | nullDeref
  /-- iterator past the end -/
  | iterRange
  /-- `std::vector::operator[]` out of range -/
  | vecIndex
deriving DecidableEq, Repr

/-- Outcome of a C++ call that works on a state `σ` and returns an `α`: normal return, exception (with the
state left behind), or undefined behaviour. -/
inductive Out (σ α : Type) where
  | ok (s : σ) (a : α)
  | throw (s : σ) (e : Exn)
  | ub (u : UB)

/-- A C++ procedure on a mutable state. -/
def M (σ α : Type) := σ → Out σ α

namespace M
variable {σ α β : Type}

def pure (a : α) : M σ α := fun s => .ok s a
def bind (m : M σ α) (f : α → M σ β) : M σ β := fun s =>
  match m s with
  | .ok s' a => f a s'
  | .throw s' e => .throw s' e
  | .ub u => .ub u

instance : Monad (M σ) where
  pure := M.pure
  bind := M.bind

def get : M σ σ := fun s => .ok s s
def modify (f : σ → σ) : M σ Unit := fun s => .ok (f s) ()
/-- `throw e` -/
def raise (e : Exn) : M σ α := fun s => .throw s e
/-- undefined behaviour -/
def undef (u : UB) : M σ α := fun _ => .ub u

/-- `for (x : xs) body(x)` -/
def forEach (f : α → M σ Unit) : List α → M σ Unit
  | [] => M.pure ()
  | x :: xs => M.bind (f x) fun _ => forEach f xs

/-- `if (c) m` -/
def when (c : Bool) (m : M σ Unit) : M σ Unit := if c then m else M.pure ()

/-- `c ? m1 : m2` -/
def cond (c : Bool) (m1 m2 : M σ α) : M σ α := if c then m1 else m2

/-- Run a procedure on a component of the state. -/
def zoom {τ : Type} (g : σ → τ) (u : τ → σ → σ) (m : M τ α) : M σ α := fun s =>
  match m (g s) with
  | .ok t a => .ok (u t s) a
  | .throw t e => .throw (u t s) e
  | .ub b => .ub b

end M

/-- `gtsam::Key`, a 64-bit unsigned integer. -/
abbrev Key := BitVec 64
/-- A character. -/
abbrev Chr := BitVec 8

/-- `gtsam::Symbol(key).chr()`: the top 8 of the 64 bits. -/
def chr (k : Key) : Chr := k.extractLsb' 56 8

/-- `gtsam::Symbol(key).index()`: the low 56 bits. -/
def index (k : Key) : BitVec 56 := k.extractLsb' 0 56

/-- `gtsam::Symbol(c, 0)` converted to a key. -/
def rootKey (c : Chr) : Key := c.zeroExtend 64 <<< 56

/-- `gtsam::Symbol(c, i)` converted to a key, `i < 2 ^ 56`. -/
def symKey (c : Chr) (i : BitVec 56) : Key := c ++ i

/-- Value of a `char` in an integer comparison; `signed` says whether plain `char` is signed on the
platform (it is on x86-64). -/
def charVal (signed : Bool) (c : Chr) : Int := if signed then c.toInt else (c.toNat : Int)

/-- Value of an `unsigned char` (the type of `Symbol::chr()`) in an integer comparison. -/
def ucharVal (c : Chr) : Int := (c.toNat : Int)

/-! ### `std::map<Key, V>`: association list sorted by key -/

abbrev KMap (V : Type) := List (Key × V)

namespace KMap
variable {V : Type}

/-- `find` -/
def find? : KMap V → Key → Option V
  | [], _ => none
  | (k', v) :: t, k => if k' = k then some v else find? t k

/-- `exists` -/
def has (m : KMap V) (k : Key) : Bool := (find? m k).isSome

/-- `m[k] = v`: overwrite, or insert at the sorted position. -/
def set : KMap V → Key → V → KMap V
  | [], k, v => [(k, v)]
  | (k', v') :: t, k, v =>
    if k' = k then (k, v) :: t
    else if k.toNat < k'.toNat then (k, v) :: (k', v') :: t
    else (k', v') :: set t k v

/-- The keys, ascending. -/
def keys (m : KMap V) : List Key := m.map Prod.fst

end KMap

/-! ### `std::unordered_map`: association list in insertion order

`eq` is the key equality. Entries are never erased by the modelled code, so the iteration order of the
real container is a function of the sequence of insertions. -/

namespace AList
variable {κ V : Type}

/-- `find` -/
def get? (eq : κ → κ → Bool) : List (κ × V) → κ → Option V
  | [], _ => none
  | (k', v) :: t, k => if eq k' k then some v else get? eq t k

/-- `f(m[k])` in place, where `operator[]` inserts the default `d` if the key is missing. -/
def upd (eq : κ → κ → Bool) (d : V) : List (κ × V) → κ → (V → V) → List (κ × V)
  | [], k, f => [(k, f d)]
  | (k', v) :: t, k, f => if eq k' k then (k', f v) :: t else (k', v) :: upd eq d t k f

end AList

/-! ### Robot pairs -/

/-- `ObservationId`, /repo/include/KimeraRPGO/utils/TypeUtils.h:44-58. -/
structure ObsId where
  id1 : Chr
  id2 : Chr
deriving DecidableEq, Repr

/-- `ObservationId::operator==`, TypeUtils.h:53-57. -/
def ObsId.eqv (a b : ObsId) : Bool :=
  if a.id1 = b.id1 ∧ a.id2 = b.id2 then true
  else if a.id2 = b.id1 ∧ a.id1 = b.id2 then true
  else false

/-- `std::hash<ObservationId>`, TypeUtils.h:79-88, in 64-bit arithmetic; `h` is `std::hash<char>`. -/
def ObsId.hash (h : Chr → BitVec 64) (a : ObsId) : BitVec 64 := h a.id1 + h a.id2 + h a.id1 * h a.id2

end RPGO
