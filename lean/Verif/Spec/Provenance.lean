import Verif.Spec.History
/-
Specification vocabulary: where the loop closures and landmark observations of a solver came from.
-/

namespace RPGO
variable {G T N : Type} [Mul G] [Inv G] [One G]

namespace Spec

/-- `b` is one of the between factors of some call of the history. -/
def Supplied (h : List (Op G N)) (b : Btw G N) : Prop := ∃ op ∈ h, b ∈ opBtws op

/-- `b` was supplied by one of the calls, and not as odometry: as a loop closure or an observation of a landmark. -/
def Checked (cfg : Cfg G T N) (h : List (Op G N)) (b : Btw G N) : Prop := ∃ op ∈ h, b ∈ opBtws op ∧ b ∉ opOdom cfg op

/-- The key has a value once the values `vs` are added to those of `s`. -/
def Known (s : St G T N) (vs : Vals G) (k : Key) : Prop := k ∈ s.values.keys ∨ k ∈ vs.keys

/-- `b` was supplied by some call of the history as a loop-closure candidate, between two different keys that
both had a value; if it joins two poses of one robot and the odometry check is on, the check, made with the
odometry received up to and including that call, accepts it. -/
def Accepted (cfg : Cfg G T N) (env : Env G N) (h : List (Op G N)) (b : Btw G N) : Prop :=
  ∃ h1 op h2 fs vs s1 s2, h = h1 ++ op :: h2 ∧ Reach cfg env h1 s1 ∧ Call cfg env op s1 s2 ∧
    batch op = some (fs, vs) ∧ b ∈ cands cfg vs fs ∧ b.k1 ≠ b.k2 ∧ Known s1 vs b.k1 ∧ Known s1 vs b.k2 ∧
    (isLandmark cfg b = false → cfg.odomCheck = true → chr b.k1 = chr b.k2 →
      ∃ p, isOdomConsistent cfg b s2.pcm = .ok p true)

/-- `b` was supplied by some call of the history as a first observation of a landmark. -/
def FirstObserved (cfg : Cfg G T N) (h : List (Op G N)) (b : Btw G N) : Prop :=
  ∃ op ∈ h, ∃ fs vs, batch op = some (fs, vs) ∧ b ∈ firsts cfg vs fs

end Spec
end RPGO

namespace RPGO
variable {G T N : Type} [Mul G] [Inv G] [One G]

namespace Spec

/-- A between factor as an element of a factor graph. -/
def elem (b : Btw G N) : Option (Factor G N) := some (.btw b)

/-- The closures between robots `id.id1` and `id.id2` (either direction) registered with the solver, in order. -/
def registered (s : St G T N) (id : ObsId) : List (Btw G N) := (lcOf s.pcm id).factors

/-- The observations of landmark `l` registered with the solver, in order. -/
def observed (s : St G T N) (l : Key) : List (Btw G N) := (lmOf s.pcm l).factors

/-- The landmark a factor observes. -/
def landmarkOf (cfg : Cfg G T N) (b : Btw G N) : Key := if chr b.k1 ∈ cfg.special then b.k1 else b.k2

/-- Does the odometry check, made with the odometry the solver now has, accept the factor? -/
def checkOdom (cfg : Cfg G T N) (s : St G T N) (b : Btw G N) : Bool :=
  match isOdomConsistent cfg b s.pcm with
  | .ok _ v => v
  | _ => false

/-- A candidate that is not to be dropped: both keys have a value, and if it joins two poses of one robot the
odometry check accepts it. -/
def acceptable (cfg : Cfg G T N) (s : St G T N) (b : Btw G N) : Bool :=
  decide (b.k1 ∈ s.values.keys) && decide (b.k2 ∈ s.values.keys) &&
    (isLandmark cfg b || decide (chr b.k1 ≠ chr b.k2) || checkOdom cfg s b)

/-- The number returned by `getNumLC()` is `n`. -/
def NumLC (cfg : Cfg G T N) (env : Env G N) (s : St G T N) (n : Nat) : Prop := exec cfg env .getNumLC s = .ok s (.num n)

/-- The number returned by `getNumLCInliers()` is `n`. -/
def NumInliers (cfg : Cfg G T N) (env : Env G N) (s : St G T N) (n : Nat) : Prop :=
  exec cfg env .getNumLCInliers s = .ok s (.num n)

/-- Between factors that join a key to itself and are not landmark observations. -/
def selfs (cfg : Cfg G T N) (vs : Vals G) (fs : Graph G N) : List (Btw G N) :=
  (btws fs).filter fun b => !isOdom cfg vs b && !isFirstObs cfg vs b && decide (b.k1 = b.k2)

end Spec
end RPGO
