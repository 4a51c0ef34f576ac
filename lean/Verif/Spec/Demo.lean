import Verif.Model.Params
import Verif.Spec.History
import Mathlib.Algebra.Group.TypeTags.Basic
import Mathlib.Algebra.Order.Group.Unbundled.Int
import Mathlib.Algebra.Field.Rat
import Mathlib.Algebra.Order.Ring.Rat
/-
Concrete solvers used to show that the hypotheses of the theorems are met, and as counterexamples: robots on a
line (poses are integers), the node-count pose type, rational thresholds.
-/

namespace RPGO.Demo
open RPGO

/-- Poses: the integers under addition. -/
abbrev Z := Multiplicative ℤ

/-- The pose at `i`. -/
def z (i : ℤ) : Z := Multiplicative.ofAdd i

/-- Length of a translation. -/
def len (g : Z) : ℚ := (|Multiplicative.toAdd g| : ℤ)

abbrev Tp := PNode Z
abbrev Ns := GNoise Unit

/-- Parameters after `setPcmSimple3DParams(1, 1, 1, 1, QUIET)`. -/
def params : Params ℚ := Params.default.apply (.simple3D 1 1 .quiet)

/-- The solver made from parameters. -/
def mk (p : Params ℚ) : Cfg Z Tp Ns := p.cfgSimple Unit len (fun _ => 0) true

/-- Thresholds 1, both checks on, no landmarks, batch selection. -/
def cfg : Cfg Z Tp Ns := mk params

/-- An optimizer that returns its initial values and weights 1, averaging that returns the first candidate,
iteration in insertion order. -/
def env : Env Z Ns where
  opt _ v := some v
  gnc g v _ _ := some (v, List.replicate g.length 1)
  avg l := l.head?
  iterLC l := l
  iterLM l := l

theorem env_ok : env.Ok := ⟨fun _ => List.Perm.refl _, fun _ => List.Perm.refl _⟩

/-- Key `i` of robot `a`, `b`, of landmark `l`. -/
def a (i : BitVec 56) : Key := symKey 97 i
def b (i : BitVec 56) : Key := symKey 98 i
def l (i : BitVec 56) : Key := symKey 108 i

/-- A between factor of length `d` with Gaussian noise. -/
def btw (k1 k2 : Key) (d : ℤ) : Btw Z Ns := ⟨k1, k2, z d, some ⟨(), false⟩⟩
def edge (k1 k2 : Key) (d : ℤ) : Option (Factor Z Ns) := some (.btw (btw k1 k2 d))
def pose (k : Key) (x : ℤ) : Key × Val Z := (k, .pose (z x))

/-- Run calls that all return normally. -/
def runFrom {G T N : Type} [Mul G] [Inv G] [One G] (cfg : Cfg G T N) (env : Env G N) : List (Op G N) → St G T N → Option (St G T N)
  | [], s => some s
  | op :: ops, s =>
    match exec cfg env op s with
    | .ok s' _ => runFrom cfg env ops s'
    | _ => none

/-- Does running the calls from a fresh solver succeed with a state satisfying `P`? -/
def runs {G T N : Type} [Mul G] [Inv G] [One G] (cfg : Cfg G T N) (env : Env G N) (ops : List (Op G N)) (P : St G T N → Bool) : Bool :=
  match runFrom cfg env ops St.init with
  | some s => P s
  | none => false

theorem runFrom_reach {G T N : Type} [Mul G] [Inv G] [One G] {cfg : Cfg G T N} {env : Env G N} {ops h : List (Op G N)}
    {s s' : St G T N} (r : ReachOk cfg env h s) (e : runFrom cfg env ops s = some s') :
    ReachOk cfg env (h ++ ops) s' := by
  induction ops generalizing h s with
  | nil => cases e; simpa using r
  | cons op ops ih =>
    unfold runFrom at e
    cases he : exec cfg env op s with
    | ok s1 x =>
      rw [he] at e
      have := ih (r.step he) e
      simpa using this
    | throw s1 x => rw [he] at e; cases e
    | ub u => rw [he] at e; cases e

/-- A successful run is a reachable state. -/
theorem runs_reach {G T N : Type} [Mul G] [Inv G] [One G] {cfg : Cfg G T N} {env : Env G N} {ops : List (Op G N)}
    {P : St G T N → Bool} (h : runs cfg env ops P = true) : ∃ s, ReachOk cfg env ops s ∧ P s = true := by
  unfold runs at h
  cases e : runFrom cfg env ops St.init with
  | none => rw [e] at h; cases h
  | some s => rw [e] at h; exact ⟨s, by simpa using runFrom_reach .init e, h⟩

/-- Odometry a0 → a1 → a2 → a3 of unit steps, a prior on a0, then two consistent closures. -/
def h1 : List (Op Z Ns) :=
  [.update [some (.prior (a 0) (z 0)), edge (a 0) (a 1) 1] [pose (a 0) 0, pose (a 1) 1] true,
   .update [edge (a 1) (a 2) 1] [pose (a 2) 2] true,
   .update [edge (a 2) (a 3) 1] [pose (a 3) 3] true,
   .update [edge (a 0) (a 2) 2, edge (a 0) (a 3) 3] [] true]

set_option maxRecDepth 100000 in
example : runs cfg env h1 (fun s => decide (s.nfg.length = 6 ∧ s.pcm.totalLc = 2 ∧ s.pcm.totalGood = 2)) = true := by
  decide +kernel

end RPGO.Demo
