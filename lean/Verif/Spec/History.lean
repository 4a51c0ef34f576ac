import Verif.Model.Solver
/-
Specification vocabulary for call histories: what the user supplied, sorted by what it is. Only the keys of the
factors, the prefixes declared special and the supplied values are mentioned.
-/

namespace RPGO
variable {G T N : Type}

/-- Same configuration, other optimizer settings. -/
def Cfg.withOpt (cfg : Cfg G T N) (lm debug log useGnc fixPrev biasOdom : Bool) : Cfg G T N :=
  { cfg with lm := lm, debug := debug, log := log, useGnc := useGnc, fixPrev := fixPrev, biasOdom := biasOdom }

namespace Spec

/-- A between factor that has a landmark end. -/
def isLandmark (cfg : Cfg G T N) (b : Btw G N) : Bool := decide (chr b.k1 ∈ cfg.special ∨ chr b.k2 ∈ cfg.special)

/-- Odometry: from a pose to the next key, and the next key is new in this batch. -/
def isOdom (cfg : Cfg G T N) (vs : Vals G) (b : Btw G N) : Bool :=
  decide (chr b.k1 ∉ cfg.special ∧ chr b.k2 ∉ cfg.special ∧ b.k2 = b.k1 + 1 ∧ b.k2 ∈ vs.keys)

/-- First observation of a landmark: one end is a landmark and one end is new in this batch. -/
def isFirstObs (cfg : Cfg G T N) (vs : Vals G) (b : Btw G N) : Bool :=
  isLandmark cfg b && decide (b.k1 ∈ vs.keys ∨ b.k2 ∈ vs.keys)

/-- Any other between factor of two different keys: a loop-closure candidate. -/
def isCand (cfg : Cfg G T N) (vs : Vals G) (b : Btw G N) : Bool :=
  !isOdom cfg vs b && !isFirstObs cfg vs b && decide (b.k1 ≠ b.k2)

/-- The between factors of a batch. -/
def btws (fs : Graph G N) : List (Btw G N) :=
  fs.filterMap fun f => match f with
    | some (.btw b) => some b
    | _ => none

/-- The factors of a batch that are not between factors. -/
def specials (fs : Graph G N) : List (Factor G N) :=
  fs.filterMap fun f => match f with
    | some (.btw _) => none
    | f => f

def odoms (cfg : Cfg G T N) (vs : Vals G) (fs : Graph G N) : List (Btw G N) := (btws fs).filter (isOdom cfg vs)
def firsts (cfg : Cfg G T N) (vs : Vals G) (fs : Graph G N) : List (Btw G N) := (btws fs).filter (isFirstObs cfg vs)
def cands (cfg : Cfg G T N) (vs : Vals G) (fs : Graph G N) : List (Btw G N) := (btws fs).filter (isCand cfg vs)

/-- The batch carried by a call. -/
def batch : Op G N → Option (Graph G N × Vals G)
  | .update fs vs _ => some (fs, vs)
  | .forceUpdate fs vs => some (fs, vs)
  | _ => none

/-- The odometry factors supplied by one call. -/
def opOdom (cfg : Cfg G T N) (op : Op G N) : List (Btw G N) :=
  match batch op with
  | some (fs, vs) => odoms cfg vs fs
  | none => []

/-- All odometry factors supplied, in order. -/
def odomSoFar (cfg : Cfg G T N) (h : List (Op G N)) : List (Btw G N) := h.flatMap (opOdom cfg)

/-- Does prior removal for prefix `c` concern a key with prefix `d`? On a platform with signed `char` a
prefix above 127 never matches. -/
def prefixHit (signed : Bool) (c d : Chr) : Bool := decide (d = c) && (!signed || decide (c.toNat < 128))

/-- The non-between factors held after one more call. -/
def specialStep (cfg : Cfg G T N) (l : List (Factor G N)) (op : Op G N) : List (Factor G N) :=
  match op with
  | .update fs _ _ => l ++ specials fs
  | .forceUpdate fs _ => l ++ specials fs
  | .removePriors c _ => l.filter fun f =>
      match f with
      | .prior k _ => !prefixHit cfg.charSigned c (chr k)
      | _ => true
  | _ => l

/-- All non-between factors supplied and not removed, in order. -/
def specialSoFar (cfg : Cfg G T N) (h : List (Op G N)) : List (Factor G N) := h.foldl (specialStep cfg) []

/-- The loop-closure candidates of one call. -/
def opCands (cfg : Cfg G T N) (op : Op G N) : List (Btw G N) :=
  match batch op with
  | some (fs, vs) => cands cfg vs fs
  | none => []

/-- The between factors of one call. -/
def opBtws (op : Op G N) : List (Btw G N) :=
  match batch op with
  | some (fs, _) => btws fs
  | none => []

/-- The keys a call adds: those of its values if it is one of the update calls. -/
def opKeys : Op G N → List Key
  | .update _ vs _ => vs.keys
  | .forceUpdate _ vs => vs.keys
  | .genericUpdate _ vs _ => vs.keys
  | _ => []

/-- The factors a call supplies. -/
def opFactors : Op G N → Graph G N
  | .update fs _ _ => fs
  | .forceUpdate fs _ => fs
  | .genericUpdate fs _ _ => fs
  | _ => []

/-- The factor list with the factors at the given positions replaced by null pointers. -/
def nulled (l : Graph G N) (is : List Nat) : Graph G N := l.mapIdx fun i f => if i ∈ is then none else f

/-- The factor list without the pose priors (of either dimension) on keys with prefix `c`. -/
def dropPriors (signed : Bool) (c : Chr) (l : Graph G N) : Graph G N :=
  l.filter fun f =>
    match f with
    | some (.prior k _) => !prefixHit signed c (chr k)
    | some (.priorAlt k _) => !prefixHit signed c (chr k)
    | _ => true

/-- The factor list held after one more call by a solver that rejects nothing. -/
def plainStep (cfg : Cfg G T N) (l : Graph G N) : Op G N → Graph G N
  | .update fs _ _ => l ++ fs
  | .forceUpdate fs _ => l ++ fs
  | .genericUpdate fs _ rm => nulled l rm ++ fs
  | .removePriors c _ => dropPriors cfg.charSigned c l
  | .removePriorsGeneric c => dropPriors cfg.charSigned c l
  | .removeLastPair _ _ => l.dropLast
  | .removeLast => l.dropLast
  | .removeLastFactor => l.dropLast
  | .removeFactors is => nulled l is
  | _ => l

/-- Calls that edit existing factors of a solver without outlier rejection. -/
def Edits : Op G N → Prop
  | .genericUpdate _ _ rm => rm ≠ []
  | .removePriors _ _ => True
  | .removePriorsGeneric _ => True
  | .removeLastPair _ _ => True
  | .removeLast => True
  | .removeLastFactor => True
  | .removeFactors _ => True
  | _ => False

/-- Calls that are within the contract of a solver without outlier rejection holding the factors `l`: closure
counts are not asked for, a batch is not a single null pointer, and the last factor is removed only if there is
one and it involves a variable. -/
def PlainSafe (cfg : Cfg G T N) (l : Graph G N) : Op G N → Prop
  | .update fs _ _ => fs ≠ [none]
  | .forceUpdate fs _ => fs ≠ [none]
  | .genericUpdate fs _ _ => fs ≠ [none]
  | .removeLastPair _ _ => ∃ f, l.getLast? = some (some f) ∧ f.keys ≠ []
  | .removeLast => ∃ f, l.getLast? = some (some f) ∧ f.keys ≠ []
  | .removeLastFactor => ∃ f, l.getLast? = some (some f) ∧ f.keys ≠ []
  | .getNumLC => False
  | .getNumLCInliers => cfg.useGnc = true
  | _ => True

/-- Calls that remove loop closures. -/
def Removes : Op G N → Prop
  | .removeLastPair _ _ => True
  | .removeLast => True
  | _ => False

/-- A between factor with Gaussian noise that, if it observes a landmark, goes from the pose to the landmark. -/
def Fair (cfg : Cfg G T N) (b : Btw G N) : Prop :=
  b.noise.isSome ∧ (isLandmark cfg b = true → chr b.k1 ∉ cfg.special)

/-- Calls that do not edit the factor graph behind the back of the outlier-rejection object. -/
def Managed : Op G N → Prop
  | .removeFactors _ => False
  | .removeLastFactor => False
  | .removePriorsGeneric _ => False
  | .genericUpdate _ _ _ => False
  | _ => True

/-- Calls that do the same to the factor graph: the same call, or `update` / `forceUpdate` with the same batch
whatever the optimization flag, or the same prior removal with another flag. -/
def SameOp (o1 o2 : Op G N) : Prop :=
  o1 = o2 ∨ (∃ b, batch o1 = some b ∧ batch o2 = some b) ∨ ∃ c x y, o1 = .removePriors c x ∧ o2 = .removePriors c y

/-- Calls that are not about factors: queries, saving, overwriting estimates, temporary factors and values. -/
def Silent : Op G N → Prop
  | .getNumLC => True
  | .getNumLCInliers => True
  | .saveData => True
  | .updateValues _ => True
  | .tempUpdate _ _ => True
  | .tempReplace _ _ => True
  | .tempClear => True
  | _ => False

/-- Two histories that supply the same factors and values in the same order; they may differ in optimization
flags and in calls that are not about factors. -/
inductive SameCalls : List (Op G N) → List (Op G N) → Prop where
  | nil : SameCalls [] []
  | both {h1 h2 o1 o2} : SameCalls h1 h2 → SameOp o1 o2 → SameCalls (h1 ++ [o1]) (h2 ++ [o2])
  | left {h1 h2 o} : SameCalls h1 h2 → Silent o → SameCalls (h1 ++ [o]) h2
  | right {h1 h2 o} : SameCalls h1 h2 → Silent o → SameCalls h1 (h2 ++ [o])

/-- The value of the key where a robot's odometry starts is supplied together with the first odometry factor of
that robot. -/
def StartsGiven (cfg : Cfg G T N) (h : List (Op G N)) : Prop :=
  ∀ h1 op h2 fs vs fs1 b fs2, h = h1 ++ op :: h2 → batch op = some (fs, vs) → fs = fs1 ++ some (.btw b) :: fs2 →
    isOdom cfg vs b = true →
    b.k1 ∈ vs.keys ∨ ∃ b' ∈ odomSoFar cfg h1 ++ odoms cfg vs fs1, chr b'.k2 = chr b.k2

end Spec

/-- One call, whether it returned normally or threw: from state `s` to state `s'`. -/
def Spec.Call [Mul G] [Inv G] [One G] (cfg : Cfg G T N) (env : Env G N) (op : Op G N) (s s' : St G T N) : Prop :=
  (∃ r, exec cfg env op s = .ok s' r) ∨ (∃ x, exec cfg env op s = .throw s' x)

/-- A sequence of calls, each of which returned normally or threw. -/
inductive Spec.Steps [Mul G] [Inv G] [One G] (cfg : Cfg G T N) (env : Env G N) (s0 : St G T N) : List (Op G N) → St G T N → Prop where
  | nil : Spec.Steps cfg env s0 [] s0
  | snoc {h s op s'} : Spec.Steps cfg env s0 h s → Spec.Call cfg env op s s' → Spec.Steps cfg env s0 (h ++ [op]) s'

/-- `ReachOk cfg env h s`: the calls `h` all returned normally and left the solver in state `s`. -/
inductive ReachOk [Mul G] [Inv G] [One G] (cfg : Cfg G T N) (env : Env G N) : List (Op G N) → St G T N → Prop where
  | init : ReachOk cfg env [] St.init
  | step {h s op s' r} : ReachOk cfg env h s → exec cfg env op s = .ok s' r → ReachOk cfg env (h ++ [op]) s'

theorem ReachOk.reach [Mul G] [Inv G] [One G] {cfg : Cfg G T N} {env : Env G N} {h : List (Op G N)} {s : St G T N}
    (r : ReachOk cfg env h s) : Reach cfg env h s := by
  induction r with
  | init => exact .init
  | step _ e ih => exact .ok ih e

theorem Reach.call [Mul G] [Inv G] [One G] {cfg : Cfg G T N} {env : Env G N} {h : List (Op G N)} {s s' : St G T N} {op : Op G N}
    (r : Reach cfg env h s) (c : Spec.Call cfg env op s s') : Reach cfg env (h ++ [op]) s' := by
  rcases c with ⟨_, e⟩ | ⟨_, e⟩
  · exact .ok r e
  · exact .throw r e

end RPGO
