import Verif.Model.MatrixMarket
import Verif.Spec.Clique
/-
Specification vocabulary for graphs read from files: which files are well formed and which graph such a
file describes. Mentions only the contents of the file.
-/

namespace RPGO.Spec
open RPGO

/-- The lines of the entry part that count: as many as the size line announces. -/
def counted (b : MMBody) : List MMLine := b.lines.take b.entries.toNat

/-- The value is greater than the bound; no bound is given by `none`. -/
def exceeds : Option Rat → Rat → Bool
  | none, _ => true
  | some t, x => decide (x > t)

/-- The line states an edge between vertices `i` and `j` (counted from 0) whose value, if values are used,
is above the bound. -/
def states (pattern : Bool) (conn : Option Rat) (i j : Int) : MMLine → Bool
  | .blank => false
  | .entry r c v =>
    (decide (r = i + 1 ∧ c = j + 1) || decide (r = j + 1 ∧ c = i + 1)) && (pattern || v.any (exceeds conn))

/-- The line has both indices in `1 … n` and, if values are used, a value. -/
def goodLine (pattern : Bool) (n : Nat) : MMLine → Bool
  | .blank => true
  | .entry r c v => decide (1 ≤ r ∧ r ≤ n ∧ 1 ≤ c ∧ c ≤ n) && (pattern || v.isSome)

/-- A well-formed MatrixMarket file of an `n × n` matrix with entry part `b`. -/
structure GoodGraphFile (f : MMFile) (b : MMBody) (n : Nat) : Prop where
  banner : f.bannerLen < 256 ∧ f.bannerWords = true
  body : f.body = some b
  size : b.rows = n ∧ b.cols = n
  lines : ∀ x ∈ counted b, goodLine f.pattern n x = true

/-- The undirected graph the file describes, as a matrix: `i` and `j` are joined if some counted line
states an edge between them, in either direction. -/
def fileGraph (f : MMFile) (b : MMBody) (conn : Option Rat) (n : Nat) : Mat :=
  ⟨n, fun i j => (counted b).any (states f.pattern conn i j)⟩

/-- Part `lo … hi` of the edge array. -/
def slice (g : GIO) (lo hi : Nat) : List Int := (g.edges.drop lo).take (hi - lo)

/-- The object represents the graph of `M`: one offset per vertex and one more; the offsets cut the edge
array, without remainder, into one slice per vertex, which lists the vertices joined to it once each. -/
structure Represents (g : GIO) (M : Mat) : Prop where
  count : g.vertices.length = M.n + 1
  first : g.vertices[0]? = some 0
  last : g.vertices[M.n]? = some g.edges.length
  slices : ∀ v < M.n, ∃ lo hi, g.vertices[v]? = some lo ∧ g.vertices[v + 1]? = some hi ∧ lo ≤ hi ∧
    (slice g lo hi).Nodup ∧ ∀ z : Int, z ∈ slice g lo hi ↔ ∃ u : Nat, z = u ∧ Joined M v u

end RPGO.Spec
