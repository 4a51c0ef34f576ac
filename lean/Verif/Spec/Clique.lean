import Verif.Model.GraphIO
/-
Specification vocabulary for graphs and cliques. Independent of the modelled algorithms: it only
mentions the entries of the adjacency matrix.
-/

namespace RPGO

/-- `a` and `b` are joined in the graph of `M`: two different rows whose lower-triangle entry
(larger index = row, smaller index = column) is non-zero. -/
def Joined (M : Mat) (a b : Nat) : Prop :=
  a < M.n ∧ b < M.n ∧ a ≠ b ∧ M.e (max a b) (min a b) = true

instance (M : Mat) (a b : Nat) : Decidable (Joined M a b) := by unfold Joined; infer_instance

/-- Neighbours of `v` in increasing order. -/
def nbrs (M : Mat) (v : Nat) : List Nat := (List.range M.n).filter (fun u => decide (Joined M v u))

/-- The vertices in `l` are distinct rows of `M` and pairwise joined. -/
def IsClique (M : Mat) (l : List Nat) : Prop :=
  l.Nodup ∧ (∀ a ∈ l, a < M.n) ∧ ∀ a ∈ l, ∀ b ∈ l, a ≠ b → Joined M a b

instance (M : Mat) (l : List Nat) : Decidable (IsClique M l) := by unfold IsClique; infer_instance

/-- A clique that no further row can join: no row is joined to all its members. -/
def IsMaximalClique (M : Mat) (l : List Nat) : Prop :=
  IsClique M l ∧ ¬ ∃ w, ∀ a ∈ l, Joined M w a

/-- `k` is the size of a largest clique of `M`. -/
def IsMaxCliqueSize (M : Mat) (k : Nat) : Prop :=
  (∃ l, IsClique M l ∧ l.length = k) ∧ ∀ l, IsClique M l → l.length ≤ k

/-- The graph is a disjoint union of complete graphs. -/
def IsClusterGraph (M : Mat) : Prop :=
  ∀ a b c, Joined M a b → Joined M b c → a ≠ c → Joined M a c

end RPGO
