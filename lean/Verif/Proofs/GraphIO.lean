import Verif.Spec.Clique
import Mathlib.Data.List.Sort
import Mathlib.Data.List.Range
import Mathlib.Tactic.Linarith
import Mathlib.Tactic.SplitIfs

namespace RPGO

theorem Joined.symm {M : Mat} {a b : Nat} (h : Joined M a b) : Joined M b a := by
  obtain ⟨h1, h2, h3, h4⟩ := h
  exact ⟨h2, h1, fun e => h3 e.symm, by rw [max_comm, min_comm]; exact h4⟩

theorem joined_comm {M : Mat} {a b : Nat} : Joined M a b ↔ Joined M b a := ⟨.symm, .symm⟩

theorem Joined.irrefl {M : Mat} {a : Nat} (h : Joined M a a) : False := h.2.2.1 rfl

theorem mem_nbrs {M : Mat} {v u : Nat} : u ∈ nbrs M v ↔ Joined M v u := by
  simp only [nbrs, List.mem_filter, List.mem_range, decide_eq_true_eq]
  exact ⟨fun h => h.2, fun h => ⟨h.2.1, h⟩⟩

/-- How far the neighbour list of `v` is complete when column `j` has been scanned down to row `i`. -/
private def bd (n j i v : Nat) : Nat :=
  if v < j then n else if v = j then i else if v < i then j + 1 else j

private def part (M : Mat) (b v : Nat) : List Nat := (List.range b).filter (fun u => decide (Joined M v u))

private theorem part_succ (M : Mat) (b v : Nat) :
    part M (b + 1) v = part M b v ++ if Joined M v b then [b] else [] := by
  unfold part
  rw [List.range_succ, List.filter_append]
  congr 1
  by_cases h : Joined M v b <;> simp [h]

private theorem part_out (M : Mat) (b v : Nat) (h : M.n ≤ v) : part M b v = [] := by
  unfold part
  rw [List.filter_eq_nil_iff]
  intro a _ h2
  have := (of_decide_eq_true h2).1
  omega

private theorem readStep_part (M : Mat) (j i : Nat) (hji : j ≤ i) (hi : i < M.n) (nl : NodeList)
    (h : ∀ v, nl v = part M (bd M.n j i v) v) (v : Nat) :
    readStep M j nl i v = part M (bd M.n j (i + 1) v) v := by
  have hmax : max j i = i := by omega
  have hmin : min j i = j := by omega
  by_cases hJ : Joined M j i
  · have hne : i ≠ j := fun e => hJ.2.2.1 e.symm
    have he : M.e i j = true := by have := hJ.2.2.2; rwa [hmax, hmin] at this
    have hc : (nl i).contains j = false := by
      rw [h i]
      simp [part, bd]
      intro hlt
      split at hlt <;> omega
    have hJ' : Joined M i j := hJ.symm
    unfold readStep
    rw [if_neg (by simp [hne, he]), if_neg (by rw [hc]; simp)]
    simp only [NodeList.push]
    by_cases hvj : v = j
    · subst hvj
      have hvi : v ≠ i := fun e => hne e.symm
      simp only [if_neg hvi, if_true]
      rw [h v]
      have e1 : bd M.n v i v = i := by simp [bd]
      have e2 : bd M.n v (i + 1) v = i + 1 := by simp [bd]
      rw [e1, e2, part_succ, if_pos hJ]
    · by_cases hvi : v = i
      · subst hvi
        simp only [if_neg hvj, if_true]
        rw [h v]
        have e1 : bd M.n j v v = j := by unfold bd; split_ifs <;> omega
        have e2 : bd M.n j (v + 1) v = j + 1 := by unfold bd; split_ifs <;> omega
        rw [e1, e2, part_succ, if_pos hJ']
      · simp only [if_neg hvj, if_neg hvi]
        rw [h v]
        congr 1
        unfold bd
        split_ifs <;> omega
  · have hskip : i = j ∨ M.e i j = false := by
      by_contra hc
      have hc1 : i ≠ j := fun e => hc (Or.inl e)
      have hc2 : M.e i j = true := by
        cases hm : M.e i j
        · exact absurd (Or.inr hm) hc
        · rfl
      exact hJ ⟨by omega, hi, fun e => hc1 e.symm, by rw [hmax, hmin]; exact hc2⟩
    have hJ' : ¬ Joined M i j := fun h => hJ h.symm
    unfold readStep
    rw [if_pos hskip, h v]
    by_cases hvj : v = j
    · subst hvj
      have e1 : bd M.n v i v = i := by simp [bd]
      have e2 : bd M.n v (i + 1) v = i + 1 := by simp [bd]
      rw [e1, e2, part_succ, if_neg hJ, List.append_nil]
    · by_cases hvi : v = i
      · subst hvi
        have e1 : bd M.n j v v = j := by unfold bd; split_ifs <;> omega
        have e2 : bd M.n j (v + 1) v = j + 1 := by unfold bd; split_ifs <;> omega
        rw [e1, e2, part_succ, if_neg hJ', List.append_nil]
      · congr 1
        unfold bd
        split_ifs <;> omega

private theorem column_part (M : Mat) (j k : Nat) (hk : j + k ≤ M.n) (nl : NodeList)
    (h : ∀ v, nl v = part M (bd M.n j j v) v) (v : Nat) :
    (List.range' j k).foldl (readStep M j) nl v = part M (bd M.n j (j + k) v) v := by
  induction k generalizing v with
  | zero => simpa using h v
  | succ k ih =>
    rw [List.range'_1_concat, List.foldl_append]
    simp only [List.foldl_cons, List.foldl_nil]
    exact readStep_part M j (j + k) (by omega) (by omega) _ (fun v => ih (by omega) v) v

private theorem outer_part (M : Mat) (j : Nat) (hj : j ≤ M.n) (v : Nat) :
    (List.range j).foldl (fun nl j => (List.range' j (M.n - j)).foldl (readStep M j) nl)
      (fun _ => []) v = part M (bd M.n j j v) v := by
  induction j generalizing v with
  | zero =>
    have : bd M.n 0 0 v = 0 := by simp [bd]
    simp [this, part]
  | succ j ih =>
    rw [List.range_succ, List.foldl_append]
    simp only [List.foldl_cons, List.foldl_nil]
    rw [column_part M j (M.n - j) (by omega) _ (fun v => ih (by omega) v) v]
    by_cases hv : M.n ≤ v
    · rw [part_out _ _ _ hv, part_out _ _ _ hv]
    · congr 1
      have : j + (M.n - j) = M.n := by omega
      rw [this]
      unfold bd
      split_ifs <;> omega

/-- The node lists built by the double loop are the sorted neighbour lists. -/
theorem readLoop_eq (M : Mat) (v : Nat) : readLoop M v = nbrs M v := by
  unfold readLoop
  rw [outer_part M M.n le_rfl v]
  by_cases hv : M.n ≤ v
  · rw [part_out _ _ _ hv]
    symm
    have := part_out M M.n v hv
    exact this
  · have : bd M.n M.n M.n v = M.n := by unfold bd; rw [if_pos (by omega)]
    rw [this]; rfl

/-- Offset of vertex `v` in the edge array. -/
def off (nl : NodeList) (v : Nat) : Nat := ((List.range v).flatMap nl).length

theorem off_succ (nl : NodeList) (v : Nat) : off nl (v + 1) = off nl v + (nl v).length := by
  simp [off, List.range_succ]

theorem flatten_eq (nl : NodeList) (n : Nat) :
    flatten nl n = ((List.range (n + 1)).map (off nl), (List.range n).flatMap nl) := by
  unfold flatten
  induction n with
  | zero => simp [off]
  | succ n ih =>
    rw [List.range_succ, List.foldl_append, ih]
    simp only [List.foldl_cons, List.foldl_nil]
    rw [List.range_succ (n := n + 1)]
    simp [off, List.range_succ]

/-- The CSR structure represents the neighbour lists `nl` of `n` vertices. -/
structure Repr (g : CSR) (nl : NodeList) (n : Nat) : Prop where
  vs : g.vertices = (List.range (n + 1)).map (off nl)
  es : g.edges = (List.range n).flatMap nl
  rng : ∀ v < n, ∀ u ∈ nl v, u < n

theorem Repr.rd_vertices {g : CSR} {nl : NodeList} {n : Nat} (R : Repr g nl n) {v : Nat} (h : v ≤ n) :
    rd g.vertices v = some (off nl v) := by
  rw [rd, R.vs]
  simp [List.getElem?_map, List.getElem?_range (show v < n + 1 by omega)]

theorem Repr.len {g : CSR} {nl : NodeList} {n : Nat} (R : Repr g nl n) : g.vertices.length = n + 1 := by
  rw [R.vs]; simp

theorem Repr.degree {g : CSR} {nl : NodeList} {n : Nat} (R : Repr g nl n) {v : Nat} (h : v < n) :
    degree g.vertices v = some ((nl v).length : Int) := by
  unfold RPGO.degree
  rw [R.rd_vertices (by omega : v + 1 ≤ n), R.rd_vertices (by omega : v ≤ n), off_succ]
  simp

theorem flatMap_range_getElem? (nl : NodeList) (n v k : Nat) (hv : v < n) (hk : k < (nl v).length) :
    ((List.range n).flatMap nl)[off nl v + k]? = some (nl v)[k] := by
  induction n with
  | zero => omega
  | succ n ih =>
    rw [List.range_succ, List.flatMap_append]
    by_cases hvn : v = n
    · subst hvn
      rw [List.getElem?_append_right (by simp [off])]
      simp [off, hk]
    · have hlt : off nl v + k < ((List.range n).flatMap nl).length := by
        have : ∀ m, v + 1 ≤ m → off nl (v + 1) ≤ off nl m := by
          intro m hm
          induction m with
          | zero => omega
          | succ m ihm =>
            by_cases e : v + 1 = m + 1
            · rw [e]
            · rw [off_succ nl m]; have := ihm (by omega); omega
        have h2 := this n (by omega)
        rw [off_succ] at h2
        change _ < off nl n
        omega
      rw [List.getElem?_append_left hlt]
      exact ih (by omega)

theorem Repr.slots {g : CSR} {nl : NodeList} {n : Nat} (R : Repr g nl n) {v : Nat} (h : v < n) :
    g.slots v = some (List.range' (off nl v) (nl v).length) := by
  unfold CSR.slots
  rw [R.rd_vertices (by omega : v + 1 ≤ n), R.rd_vertices (by omega : v ≤ n), off_succ]
  simp

theorem Repr.rd_edges {g : CSR} {nl : NodeList} {n : Nat} (R : Repr g nl n) {v k : Nat} (h : v < n)
    (hk : k < (nl v).length) : rd g.edges (off nl v + k) = some (nl v)[k] := by
  rw [rd, R.es]; exact flatMap_range_getElem? nl n v k h hk

/-- Folding over the slots of a vertex is folding over its neighbour list. -/
theorem foldlM_slots {β : Type} {g : CSR} {nl : NodeList} {n : Nat} (R : Repr g nl n) {v : Nat} (h : v < n)
    (f : β → Nat → Option β) (init : β) :
    (List.range' (off nl v) (nl v).length).foldlM (fun acc j => (rd g.edges j).bind (f acc)) init
      = (nl v).foldlM f init := by
  have key : ∀ (m s : Nat) (init : β), s + m = (nl v).length →
      (List.range' (off nl v + s) m).foldlM (fun acc j => (rd g.edges j).bind (f acc)) init
        = ((nl v).drop s).foldlM f init := by
    intro m
    induction m with
    | zero =>
      intro s init hs
      rw [List.drop_eq_nil_of_le (by omega)]
      rfl
    | succ m ih =>
      intro s init hs
      rw [List.range'_succ, List.drop_eq_getElem_cons (by omega : s < (nl v).length)]
      simp only [List.foldlM_cons]
      rw [R.rd_edges h (by omega : s < (nl v).length)]
      simp only [Option.bind_some]
      cases f init (nl v)[s] with
      | none => rfl
      | some b => exact ih (s + 1) b (by omega)
  have := key (nl v).length 0 init (by omega)
  simpa using this

theorem foldlM_some {α β : Type} {f : β → α → Option β} {g : β → α → β} {l : List α}
    (h : ∀ acc, ∀ x ∈ l, f acc x = some (g acc x)) (init : β) : l.foldlM f init = some (l.foldl g init) := by
  induction l generalizing init with
  | nil => rfl
  | cons a l ih =>
    simp only [List.foldlM_cons, List.foldl_cons, h init a (by simp)]
    exact ih (fun acc x hx => h acc x (by simp [hx])) _

theorem foldl_filter {α : Type} (p : α → Bool) (l acc : List α) :
    l.foldl (fun acc e => if p e then acc ++ [e] else acc) acc = acc ++ l.filter p := by
  induction l generalizing acc with
  | nil => simp
  | cons a l ih =>
    simp only [List.foldl_cons]
    rw [ih]
    by_cases h : p a <;> simp [h]

/-- Maximum of the degrees, −1 if there are no vertices. -/
def maxDegOf (nl : NodeList) (n : Nat) : Int :=
  (List.range n).foldl (fun m i => if m < ((nl i).length : Int) then ((nl i).length : Int) else m) (-1)

theorem calcMaxDegree_eq {g : CSR} {nl : NodeList} {n : Nat} (R : Repr g nl n) :
    calcMaxDegree g.vertices = some (maxDegOf nl n) := by
  unfold calcMaxDegree maxDegOf
  rw [R.len]
  have : ∀ (l : List Nat) (m : Int), (∀ i ∈ l, i < n) →
      l.foldlM (fun m i => do let d ← RPGO.degree g.vertices i; return if m < d then d else m) m
        = some (l.foldl (fun m i => if m < ((nl i).length : Int) then ((nl i).length : Int) else m) m) := by
    intro l
    induction l with
    | nil => intro m _; rfl
    | cons a l ih =>
      intro m hl
      simp only [List.foldlM_cons, List.foldl_cons]
      rw [R.degree (hl a (by simp))]
      exact ih _ (fun i hi => hl i (by simp [hi]))
  exact this _ _ (fun i hi => by simpa using hi)

theorem maxDegOf_ge (nl : NodeList) (n v : Nat) (h : v < n) : ((nl v).length : Int) ≤ maxDegOf nl n := by
  induction n with
  | zero => omega
  | succ n ih =>
    unfold maxDegOf
    rw [List.range_succ, List.foldl_append]
    simp only [List.foldl_cons, List.foldl_nil]
    by_cases hvn : v = n
    · subst hvn; split <;> omega
    · have := ih (by omega)
      unfold maxDegOf at this
      split <;> omega

theorem maxDegOf_attained (nl : NodeList) (n : Nat) (h : 0 < n) :
    ∃ v < n, maxDegOf nl n = (nl v).length := by
  induction n with
  | zero => omega
  | succ n ih =>
    have hs : maxDegOf nl (n + 1) =
        if maxDegOf nl n < ((nl n).length : Int) then ((nl n).length : Int) else maxDegOf nl n := by
      unfold maxDegOf
      rw [List.range_succ, List.foldl_append]
      rfl
    rw [hs]
    split
    · exact ⟨n, by omega, rfl⟩
    · rename_i hlt
      by_cases hn : n = 0
      · subst hn
        simp [maxDegOf] at hlt
        omega
      · obtain ⟨v, hv, e⟩ := ih (by omega)
        exact ⟨v, by omega, e⟩

/-- Reading a matrix always succeeds and represents the neighbour lists of the graph. -/
theorem readEigen_eq (M : Mat) : ∃ g, readEigen M = some g ∧ Repr g (nbrs M) M.n ∧
    g.maxDeg = maxDegOf (nbrs M) M.n := by
  have hnl : readLoop M = nbrs M := funext (readLoop_eq M)
  have R : ∀ md, Repr ⟨(List.range (M.n + 1)).map (off (nbrs M)), (List.range M.n).flatMap (nbrs M), md⟩
      (nbrs M) M.n := fun md => ⟨rfl, rfl, fun v _ u hu => (mem_nbrs.1 hu).2.1⟩
  refine ⟨⟨_, _, maxDegOf (nbrs M) M.n⟩, ?_, R _, rfl⟩
  unfold readEigen
  rw [hnl, flatten_eq]
  have := calcMaxDegree_eq (R 0)
  simp only at this
  simp [this]

theorem nbrs_sorted (M : Mat) (v : Nat) : (nbrs M v).Pairwise (· < ·) :=
  List.Pairwise.filter _ List.pairwise_lt_range

theorem nbrs_nodup (M : Mat) (v : Nat) : (nbrs M v).Nodup :=
  (nbrs_sorted M v).imp (fun h => by omega)

/-- The neighbour lists `nl` describe the graph of `M`: each holds exactly the vertices joined to its own,
without repetition, in any order. -/
structure Adj (M : Mat) (nl : NodeList) : Prop where
  mem : ∀ {v u : Nat}, u ∈ nl v ↔ Joined M v u
  nodup : ∀ v, (nl v).Nodup

theorem nbrs_adj (M : Mat) : Adj M (nbrs M) := ⟨mem_nbrs, nbrs_nodup M⟩

end RPGO
