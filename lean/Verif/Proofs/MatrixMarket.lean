import Verif.Spec.MatrixMarket
import Verif.Proofs.MaxCliqueHeu
import Mathlib.Algebra.BigOperators.Group.Finset.Piecewise
import Mathlib.Algebra.BigOperators.Group.Finset.Sigma
import Mathlib.Data.Finset.Prod
import Mathlib.Data.List.Forall2

namespace RPGO
open Spec

/-- What the entry loop has built after the lines `done`. -/
structure MMInv (pattern : Bool) (conn : Option Rat) (done : List MMLine) (s : MMSt) : Prop where
  mem : ∀ i j : Int, j ∈ s.nl i ↔ i ≠ j ∧ ∃ x ∈ done, states pattern conn i j x = true
  nodup : ∀ i, (s.nl i).Nodup
  vals : pattern = false → ∀ i, List.Forall₂ (fun j x => ∃ r c, MMLine.entry r c (some x) ∈ done ∧
    states pattern conn i j (.entry r c (some x)) = true) (s.nl i) (s.vl i)

theorem states_symm (pattern : Bool) (conn : Option Rat) (i j : Int) (x : MMLine) :
    states pattern conn i j x = states pattern conn j i x := by
  cases x with
  | blank => rfl
  | entry r c v => simp only [states]; rw [Bool.or_comm]

theorem pushAt_self {α : Type} (m : Int → List α) (i : Int) (x : α) : pushAt m i x i = m i ++ [x] := by
  simp [pushAt]

theorem pushAt_ne {α : Type} (m : Int → List α) {i k : Int} (x : α) (h : k ≠ i) : pushAt m i x k = m k := by
  simp [pushAt, h]

/-- Adding the edge `r – c` to neighbour lists that do not have it. -/
theorem push_mem (nl : Int → List Int) {r c : Int} (hrc : r ≠ c) (i j : Int) :
    j ∈ pushAt (pushAt nl r c) c r i ↔ j ∈ nl i ∨ (i = r ∧ j = c) ∨ (i = c ∧ j = r) := by
  by_cases h1 : i = c
  · subst h1
    rw [pushAt_self, pushAt_ne nl i (fun e => hrc e.symm)]
    simp [Ne.symm hrc]
  · rw [pushAt_ne _ _ h1]
    by_cases h2 : i = r
    · subst h2; rw [pushAt_self]; simp [h1]
    · rw [pushAt_ne _ _ h2]; simp [h1, h2]

theorem exceeds_eq (conn : Option Rat) (x : Rat) : exceeds conn x = above conn x := by cases conn <;> rfl

/-- The lists have no repetition if the edge was not there in either direction. -/
theorem push_nodup (nl : Int → List Int) {r c : Int} (hrc : r ≠ c) (hn : ∀ i, (nl i).Nodup)
    (h1 : c ∉ nl r) (h2 : r ∉ nl c) (i : Int) : (pushAt (pushAt nl r c) c r i).Nodup := by
  by_cases e1 : i = c
  · subst e1
    rw [pushAt_self, pushAt_ne nl i (fun e => hrc e.symm), List.nodup_append]
    refine ⟨hn i, by simp, fun a ha b hb e => ?_⟩
    simp at hb; subst hb; subst e; exact h2 ha
  · rw [pushAt_ne _ _ e1]
    by_cases e2 : i = r
    · subst e2
      rw [pushAt_self, List.nodup_append]
      refine ⟨hn i, by simp, fun a ha b hb e => ?_⟩
      simp at hb; subst hb; subst e; exact h1 ha
    · rw [pushAt_ne _ _ e2]; exact hn i

theorem mmStep_inv {pattern : Bool} {conn : Option Rat} {n : Nat} {done : List MMLine} {s : MMSt}
    (inv : MMInv pattern conn done s) {x : MMLine} (hx : goodLine pattern n x = true) :
    ∃ s', mmStep pattern conn s x = some s' ∧ MMInv pattern conn (done ++ [x]) s' := by
  have weak : ∀ (s' : MMSt), s'.nl = s.nl → s'.vl = s.vl →
      (∀ i j, i ≠ j → states pattern conn i j x = true → j ∈ s.nl i) → MMInv pattern conn (done ++ [x]) s' := by
    intro s' h1 h2 h3
    refine ⟨?_, by rw [h1]; exact inv.nodup, ?_⟩
    · intro i j
      rw [h1]
      constructor
      · intro h
        obtain ⟨a, y, hy, b⟩ := (inv.mem i j).1 h
        exact ⟨a, y, by simp [hy], b⟩
      · rintro ⟨a, y, hy, b⟩
        rcases List.mem_append.1 hy with h | h
        · exact (inv.mem i j).2 ⟨a, y, h, b⟩
        · simp at h; subst h; exact h3 i j a b
    · intro hp i
      rw [h1, h2]
      exact (inv.vals hp i).imp (fun j v ⟨r, c, hm, hs⟩ => ⟨r, c, by simp [hm], hs⟩)
  cases x with
  | blank => exact ⟨s, rfl, weak s rfl rfl (fun i j _ h => by simp [states] at h)⟩
  | entry row col v =>
    simp only [goodLine, Bool.and_eq_true, decide_eq_true_eq] at hx
    have hst : ∀ i j, states pattern conn i j (.entry row col v) = true ↔
        ((i = row - 1 ∧ j = col - 1) ∨ (i = col - 1 ∧ j = row - 1)) ∧
          (pattern || v.any (exceeds conn)) = true := by
      intro i j
      simp only [states, Bool.and_eq_true, Bool.or_eq_true, decide_eq_true_eq]
      refine and_congr_left (fun _ => ?_)
      constructor
      · rintro (h | h)
        · left; omega
        · right; omega
      · rintro (h | h)
        · left; omega
        · right; omega
    unfold mmStep
    simp only
    by_cases hrc : row - 1 = col - 1
    · rw [if_pos hrc]
      refine ⟨_, rfl, weak _ rfl rfl ?_⟩
      intro i j hij h
      obtain ⟨h | h, _⟩ := (hst i j).1 h <;> exact absurd (by omega) hij
    · rw [if_neg hrc]
      by_cases hex : (s.nl (row - 1)).contains (col - 1) = true
      · rw [if_pos hex]
        have hex' : col - 1 ∈ s.nl (row - 1) := by simpa using hex
        refine ⟨_, rfl, weak _ rfl rfl ?_⟩
        intro i j hij h
        obtain ⟨h | h, _⟩ := (hst i j).1 h
        · rw [h.1, h.2]; exact hex'
        · rw [h.1, h.2]
          obtain ⟨a, y, hy, b⟩ := (inv.mem _ _).1 hex'
          exact (inv.mem _ _).2 ⟨fun e => a e.symm, y, hy, by rw [states_symm]; exact b⟩
      · rw [if_neg hex]
        have hn1 : col - 1 ∉ s.nl (row - 1) := by simpa using hex
        have hn2 : row - 1 ∉ s.nl (col - 1) := by
          intro h
          obtain ⟨a, y, hy, b⟩ := (inv.mem _ _).1 h
          exact hn1 ((inv.mem _ _).2 ⟨fun e => a e.symm, y, hy, by rw [states_symm]; exact b⟩)
        have add : (pattern || v.any (exceeds conn)) = true → ∀ i j,
            j ∈ pushAt (pushAt s.nl (row - 1) (col - 1)) (col - 1) (row - 1) i ↔
              i ≠ j ∧ ∃ x ∈ done ++ [MMLine.entry row col v], states pattern conn i j x = true := by
          intro hok i j
          rw [push_mem s.nl hrc]
          constructor
          · rintro (h | h | h)
            · obtain ⟨a, y, hy, b⟩ := (inv.mem i j).1 h
              exact ⟨a, y, by simp [hy], b⟩
            · exact ⟨by rw [h.1, h.2]; exact hrc, _, by simp, (hst i j).2 ⟨Or.inl h, hok⟩⟩
            · exact ⟨by rw [h.1, h.2]; exact fun e => hrc e.symm, _, by simp, (hst i j).2 ⟨Or.inr h, hok⟩⟩
          · rintro ⟨a, y, hy, b⟩
            rcases List.mem_append.1 hy with h | h
            · exact Or.inl ((inv.mem i j).2 ⟨a, y, h, b⟩)
            · simp at h; subst h
              exact Or.inr ((hst i j).1 b).1
        by_cases hp : pattern = true
        · rw [if_pos hp]
          refine ⟨_, rfl, add (by simp [hp]), push_nodup s.nl hrc inv.nodup hn1 hn2, ?_⟩
          intro hf; rw [hp] at hf; exact absurd hf (by simp)
        · rw [if_neg hp]
          have hpf : pattern = false := by simpa using hp
          subst hpf
          simp only [Bool.false_or] at hx hst add
          obtain ⟨w, rfl⟩ := Option.isSome_iff_exists.1 hx.2
          simp only [Option.some_or]
          by_cases hab : above conn w = true
          · rw [if_pos hab]
            refine ⟨_, rfl, add (by simpa using (exceeds_eq conn w).trans hab), push_nodup s.nl hrc inv.nodup hn1 hn2, ?_⟩
            intro _ i
            have old : ∀ i, List.Forall₂ (fun j x => ∃ r c, MMLine.entry r c (some x) ∈
                done ++ [MMLine.entry row col (some w)] ∧
                states false conn i j (.entry r c (some x)) = true) (s.nl i) (s.vl i) := fun i =>
              (inv.vals rfl i).imp (fun j v ⟨r, c, hm, hs⟩ => ⟨r, c, by simp [hm], hs⟩)
            by_cases e1 : i = col - 1
            · subst e1
              simp only
              rw [pushAt_self, pushAt_self, pushAt_ne _ _ (fun e => hrc e.symm), pushAt_ne _ _ (fun e => hrc e.symm)]
              exact List.rel_append (old _) (.cons ⟨row, col, by simp, (hst _ _).2 ⟨Or.inr ⟨rfl, rfl⟩, by simpa using (exceeds_eq conn w).trans hab⟩⟩ .nil)
            · simp only
              rw [pushAt_ne _ _ e1, pushAt_ne _ _ e1]
              by_cases e2 : i = row - 1
              · subst e2
                rw [pushAt_self, pushAt_self]
                exact List.rel_append (old _) (.cons ⟨row, col, by simp, (hst _ _).2 ⟨Or.inl ⟨rfl, rfl⟩, by simpa using (exceeds_eq conn w).trans hab⟩⟩ .nil)
              · rw [pushAt_ne _ _ e2, pushAt_ne _ _ e2]
                exact old i
          · rw [if_neg hab]
            refine ⟨_, rfl, weak _ rfl rfl ?_⟩
            intro i j _ h
            have := ((hst i j).1 h).2
            simp only [Option.any_some] at this
            exact absurd this (exceeds_eq _ _ ▸ hab)

theorem mmLoop_inv {pattern : Bool} {conn : Option Rat} {n : Nat} (l : List MMLine) :
    ∀ {done : List MMLine} {s : MMSt}, MMInv pattern conn done s → (∀ x ∈ l, goodLine pattern n x = true) →
      ∃ s', l.foldlM (mmStep pattern conn) s = some s' ∧ MMInv pattern conn (done ++ l) s' := by
  induction l with
  | nil => intro done s inv _; exact ⟨s, rfl, by simpa using inv⟩
  | cons x l ih =>
    intro done s inv h
    obtain ⟨s1, e1, i1⟩ := mmStep_inv inv (h x (by simp))
    obtain ⟨s2, e2, i2⟩ := ih i1 (fun y hy => h y (by simp [hy]))
    exact ⟨s2, by rw [List.foldlM_cons, e1]; exact e2, by simpa using i2⟩

/-- The object holds exactly the neighbour lists `nl` of `n` vertices. -/
structure GRepr (g : GIO) (nl : NodeList) (n : Nat) : Prop where
  vs : g.vertices = (List.range (n + 1)).map (off nl)
  es : g.edges = ((List.range n).flatMap nl).map Int.ofNat
  rng : ∀ v < n, ∀ u ∈ nl v, u < n

theorem GRepr.repr {g : GIO} {nl : NodeList} {n : Nat} (G : GRepr g nl n) (d : Int) :
    Repr ⟨g.vertices, (List.range n).flatMap nl, d⟩ nl n := ⟨G.vs, rfl, G.rng⟩

/-- Minimum of the degrees, −1 if there are no vertices. -/
def minDegOf (nl : NodeList) (n : Nat) : Int :=
  (List.range n).foldl (fun m i => if m = -1 then ((nl i).length : Int)
    else if m > ((nl i).length : Int) then ((nl i).length : Int) else m) (-1)

theorem minDegOf_succ (nl : NodeList) (n : Nat) : minDegOf nl (n + 1) =
    if minDegOf nl n = -1 then ((nl n).length : Int)
    else if minDegOf nl n > ((nl n).length : Int) then ((nl n).length : Int) else minDegOf nl n := by
  unfold minDegOf
  rw [List.range_succ, List.foldl_append]
  rfl

theorem minDegOf_spec (nl : NodeList) (n : Nat) (h : 0 < n) :
    (∀ v < n, minDegOf nl n ≤ ((nl v).length : Int)) ∧ ∃ v < n, minDegOf nl n = ((nl v).length : Int) := by
  induction n with
  | zero => omega
  | succ n ih =>
    rw [minDegOf_succ]
    by_cases hn : n = 0
    · subst hn
      have h0 : minDegOf nl 0 = -1 := rfl
      rw [if_pos h0]
      exact ⟨fun v hv => by have : v = 0 := by omega
                            rw [this], 0, by omega, rfl⟩
    · obtain ⟨h1, w, hw, h2⟩ := ih (by omega)
      rw [if_neg (by omega)]
      by_cases hc : minDegOf nl n > ((nl n).length : Int)
      · rw [if_pos hc]
        refine ⟨fun v hv => ?_, n, by omega, rfl⟩
        by_cases e : v = n
        · rw [e]
        · have := h1 v (by omega); omega
      · rw [if_neg hc]
        refine ⟨fun v hv => ?_, w, by omega, h2⟩
        by_cases e : v = n
        · rw [e]; omega
        · exact h1 v (by omega)

theorem GRepr.degrees {g : GIO} {nl : NodeList} {n : Nat} (G : GRepr g nl n) :
    g.degrees = some (maxDegOf nl n, minDegOf nl n,
      if n = 0 then none else some ((g.edges.length : Rat) / (n : Rat))) := by
  have R := G.repr 0
  have hlen : g.vertices.length - 1 = n := by have := R.len; simp at this; omega
  unfold GIO.degrees
  rw [hlen]
  have : ∀ (l : List Nat) (m : Int × Int), (∀ i ∈ l, i < n) →
      l.foldlM (fun (m : Int × Int) i => do
        let d ← RPGO.degree g.vertices i
        return (if m.1 < d then d else m.1, if m.2 = -1 then d else if m.2 > d then d else m.2)) m
        = some (l.foldl (fun m i => if m < ((nl i).length : Int) then ((nl i).length : Int) else m) m.1,
            l.foldl (fun m i => if m = -1 then ((nl i).length : Int)
              else if m > ((nl i).length : Int) then ((nl i).length : Int) else m) m.2) := by
    intro l
    induction l with
    | nil => intro m _; rfl
    | cons a l ih =>
      intro m hl
      simp only [List.foldlM_cons, List.foldl_cons]
      have := R.degree (hl a (by simp))
      simp only at this
      rw [this]
      exact ih _ (fun i hi => hl i (by simp [hi]))
  rw [this _ _ (fun i hi => by simpa using hi)]
  rfl

theorem mapM_nonneg (l : List Nat) :
    (l.map Int.ofNat).mapM (fun z : Int => if 0 ≤ z then some z.toNat else none) = some l := by
  induction l with
  | nil => rfl
  | cons a l ih =>
    rw [List.map_cons, List.mapM_cons, ih]
    simp

theorem GRepr.csr {g : GIO} {nl : NodeList} {n : Nat} (G : GRepr g nl n) :
    g.csr = some ⟨g.vertices, (List.range n).flatMap nl, maxDegOf nl n⟩ := by
  unfold GIO.csr
  rw [G.es, mapM_nonneg, G.degrees]
  rfl

/-- Number of slots: every edge is stored at both ends. -/
theorem slots_count {M : Mat} {nl : NodeList} (A : Adj M nl) :
    ((List.range M.n).flatMap nl).length
      = 2 * ((Finset.range M.n ×ˢ Finset.range M.n).filter (fun p => p.1 < p.2 ∧ Joined M p.1 p.2)).card := by
  have h1 : ((List.range M.n).flatMap nl).length = ∑ v ∈ Finset.range M.n, (nl v).length := by
    generalize M.n = n
    induction n with
    | zero => simp
    | succ n ih => rw [List.range_succ, List.flatMap_append, List.length_append, ih, Finset.sum_range_succ]; simp
  have h2 : ∀ v ∈ Finset.range M.n, (nl v).length
      = ((Finset.range M.n).filter (fun u => Joined M v u)).card := by
    intro v _
    rw [← List.toFinset_card_of_nodup (A.nodup v)]
    congr 1
    ext u
    simp only [List.mem_toFinset, Finset.mem_filter, Finset.mem_range]
    exact ⟨fun h => ⟨(A.mem.1 h).2.1, A.mem.1 h⟩, fun h => A.mem.2 h.2⟩
  have h3 : ∑ v ∈ Finset.range M.n, ((Finset.range M.n).filter (fun u => Joined M v u)).card
      = ((Finset.range M.n ×ˢ Finset.range M.n).filter (fun p => Joined M p.1 p.2)).card := by
    rw [Finset.card_filter, Finset.sum_product]
    apply Finset.sum_congr rfl
    intro v _
    rw [Finset.card_filter]
  rw [h1, Finset.sum_congr rfl h2, h3]
  have h4 : ((Finset.range M.n ×ˢ Finset.range M.n).filter (fun p => Joined M p.1 p.2))
      = ((Finset.range M.n ×ˢ Finset.range M.n).filter (fun p => p.1 < p.2 ∧ Joined M p.1 p.2)) ∪
        ((Finset.range M.n ×ˢ Finset.range M.n).filter (fun p => p.2 < p.1 ∧ Joined M p.1 p.2)) := by
    ext p
    simp only [Finset.mem_filter, Finset.mem_union]
    constructor
    · rintro ⟨a, b⟩
      have := b.2.2.1
      rcases Nat.lt_or_gt_of_ne this with h | h
      · exact Or.inl ⟨a, h, b⟩
      · exact Or.inr ⟨a, h, b⟩
    · rintro (⟨a, _, b⟩ | ⟨a, _, b⟩) <;> exact ⟨a, b⟩
  have h5 : ((Finset.range M.n ×ˢ Finset.range M.n).filter (fun p => p.2 < p.1 ∧ Joined M p.1 p.2)).card
      = ((Finset.range M.n ×ˢ Finset.range M.n).filter (fun p => p.1 < p.2 ∧ Joined M p.1 p.2)).card := by
    refine Finset.card_bij (fun p _ => (p.2, p.1)) ?_ ?_ ?_
    · intro p hp
      simp only [Finset.mem_filter, Finset.mem_product] at hp ⊢
      exact ⟨⟨hp.1.2, hp.1.1⟩, hp.2.1, hp.2.2.symm⟩
    · intro p _ q _ e
      simp only [Prod.mk.injEq] at e
      exact Prod.ext e.2 e.1
    · intro p hp
      simp only [Finset.mem_filter, Finset.mem_product] at hp
      exact ⟨(p.2, p.1), by simp only [Finset.mem_filter, Finset.mem_product]; exact ⟨⟨hp.1.2, hp.1.1⟩, hp.2.1, hp.2.2.symm⟩, rfl⟩
  rw [h4, Finset.card_union_of_disjoint, h5, Nat.two_mul]
  rw [Finset.disjoint_left]
  intro p hp hq
  simp only [Finset.mem_filter] at hp hq
  omega

/-- Appending the neighbour lists of a graph to an empty object. -/
theorem pushRows_repr {nl : NodeList} {n : Nat} (hr : ∀ v < n, ∀ u ∈ nl v, u < n) (inl : Int → List Int)
    (h : ∀ v < n, inl (v : Int) = (nl v).map Int.ofNat) (vals : List Rat) :
    GRepr ⟨(pushRows [] [] inl n).1, (pushRows [] [] inl n).2, vals⟩ nl n := by
  have key : ∀ k ≤ n, pushRows [] [] inl k = ((flatten nl k).1, (flatten nl k).2.map Int.ofNat) := by
    intro k
    unfold pushRows flatten
    induction k with
    | zero => intro _; rfl
    | succ k ih =>
      intro hk
      rw [List.range_succ, List.foldl_append, List.foldl_append, ih (by omega)]
      simp [h k (by omega)]
  rw [key n le_rfl, flatten_eq]
  exact ⟨rfl, rfl, hr⟩

end RPGO
