import Verif.Proofs.MaxCliqueHeu
import Verif.Model.MaxClique
/-
Property theorems for the maximum-clique finders: C01 – C07.
Specification vocabulary: Verif/Spec/Clique.lean (`Joined`, `IsClique`, `IsMaxCliqueSize`, `IsClusterGraph`).
A result `some …` means that the run terminated and performed no out-of-range access.
-/

namespace RPGO.Props
open RPGO

/-- The graph on `n` vertices with the given edges, as a symmetric matrix; used in examples only. -/
def ofEdges (n : Nat) (l : List (Nat × Nat)) : Mat := ⟨n, fun i j => l.contains (i, j) || l.contains (j, i)⟩

/-- The 5-vertex "bowtie plus pendant" used in examples. -/
def bowtie : Mat := ofEdges 6 [(0, 1), (0, 2), (1, 2), (2, 3), (2, 4), (3, 4), (4, 5)]

/-- C01. For every matrix, `findMaxClique` terminates without an out-of-range access and returns the size
of a largest clique; for a non-empty matrix the output vector is exactly a clique of that size, whatever
the output vector held before. -/
theorem C01_findMaxClique_exact (M : Mat) (out0 : List Nat) :
    ∃ k out, findMaxClique M out0 = some (k, out) ∧ IsMaxCliqueSize M k ∧
      (0 < M.n → IsClique M out ∧ out.length = k) := by
  obtain ⟨k, out, h1, h2, h3, _⟩ := findMaxClique_spec M out0
  exact ⟨k, out, h1, h2, h3⟩

/-- C01, usable form: any result the function gives is right. -/
theorem C01_findMaxClique_result (M : Mat) (out0 : List Nat) (k : Nat) (out : List Nat)
    (h : findMaxClique M out0 = some (k, out)) :
    IsMaxCliqueSize M k ∧ (0 < M.n → IsClique M out ∧ out.length = k) := by
  obtain ⟨k', out', h1, h2, h3, _⟩ := findMaxClique_spec M out0
  rw [h1] at h
  obtain ⟨rfl, rfl⟩ := Prod.mk.injEq .. ▸ Option.some.inj h
  exact ⟨h2, h3⟩

example : findMaxClique bowtie [7, 7] = some (3, [2, 3, 4]) := by decide
example : 0 < bowtie.n ∧ IsClique bowtie [2, 3, 4] ∧ ¬ IsClique bowtie [0, 1, 3] := by decide

/-- C02. Reading any matrix succeeds; the offsets cut the edge array into one slice per vertex; the slice
of `v` is the strictly increasing list of the vertices joined to `v`; the reported maximum degree is the
length of a longest slice (−1 for the empty matrix). -/
theorem C02_read_faithful (M : Mat) :
    ∃ g, readEigen M = some g ∧ g.vertices.length = M.n + 1 ∧
      (∀ v < M.n, ∃ lo hi, g.vertices[v]? = some lo ∧ g.vertices[v + 1]? = some hi ∧ lo ≤ hi ∧
        hi ≤ g.edges.length ∧
        ((g.edges.drop lo).take (hi - lo)).Pairwise (· < ·) ∧
        (∀ u, u ∈ (g.edges.drop lo).take (hi - lo) ↔ Joined M v u) ∧
        ((hi - lo : Nat) : Int) ≤ g.maxDeg) ∧
      (M.n = 0 → g.maxDeg = -1) ∧
      (0 < M.n → ∃ v < M.n, ∃ lo hi, g.vertices[v]? = some lo ∧ g.vertices[v + 1]? = some hi ∧
        g.maxDeg = ((hi - lo : Nat) : Int)) := by
  obtain ⟨g, eg, R, hm⟩ := readEigen_eq M
  have hlo : ∀ v, v ≤ M.n → g.vertices[v]? = some (off (nbrs M) v) := fun v hv => R.rd_vertices hv
  have hmono : ∀ v, v ≤ M.n → off (nbrs M) v ≤ g.edges.length := by
    intro v hv
    rw [R.es]
    change off (nbrs M) v ≤ off (nbrs M) M.n
    have : ∀ m, v ≤ m → off (nbrs M) v ≤ off (nbrs M) m := by
      intro m hm
      induction m with
      | zero => have : v = 0 := by omega
                rw [this]
      | succ m ih =>
        by_cases e : v = m + 1
        · rw [e]
        · rw [off_succ]; have := ih (by omega); omega
    exact this _ hv
  have hsl : ∀ v, v < M.n →
      (g.edges.drop (off (nbrs M) v)).take (off (nbrs M) (v + 1) - off (nbrs M) v) = nbrs M v := by
    intro v hv
    rw [off_succ, Nat.add_sub_cancel_left]
    apply List.ext_getElem?
    intro k
    by_cases hk : k < (nbrs M v).length
    · rw [List.getElem?_take_of_lt hk, List.getElem?_drop]
      have := R.rd_edges hv hk
      unfold rd at this
      rw [this]; simp [hk]
    · rw [List.getElem?_take_eq_none (by omega)]
      symm; apply List.getElem?_eq_none; omega
  refine ⟨g, eg, R.len, ?_, ?_, ?_⟩
  · intro v hv
    refine ⟨_, _, hlo v (by omega), hlo (v + 1) (by omega), by rw [off_succ]; omega, hmono _ (by omega), ?_, ?_, ?_⟩
    · rw [hsl v hv]; exact nbrs_sorted M v
    · intro u; rw [hsl v hv]; exact mem_nbrs
    · rw [off_succ, Nat.add_sub_cancel_left, hm]; exact maxDegOf_ge (nbrs M) M.n v hv
  · intro h; rw [hm, h]; rfl
  · intro h
    obtain ⟨v, hv, e⟩ := maxDegOf_attained (nbrs M) M.n h
    refine ⟨v, hv, _, _, hlo v (by omega), hlo (v + 1) (by omega), ?_⟩
    rw [hm, e, off_succ, Nat.add_sub_cancel_left]

/-- C02: the relation read is symmetric and irreflexive even if the matrix is not symmetric or has a
non-zero diagonal. -/
theorem C02_joined_symm_irrefl (M : Mat) :
    (∀ a b, Joined M a b → Joined M b a) ∧ ∀ a, ¬ Joined M a a :=
  ⟨fun _ _ h => h.symm, fun _ h => h.irrefl⟩

example : (readEigen bowtie).map (fun g => (g.vertices, g.edges, g.maxDeg))
    = some ([0, 2, 4, 8, 10, 13, 14], [1, 2, 0, 2, 0, 1, 3, 4, 2, 4, 2, 3, 5, 4], 4) := by decide
/-- A non-symmetric matrix with a full diagonal: only the lower triangle counts. -/
example : (readEigen ⟨3, fun i j => i == j || (i == 0 && j == 1) || (i == 2 && j == 1)⟩).map
    (fun g => (g.vertices, g.edges)) = some ([0, 0, 1, 2], [2, 1]) := by decide

/-- C03. On a non-empty matrix the heuristic terminates without an out-of-range access and returns the size
of some clique to which no further row can be added: at least 1, at least 2 if two rows are joined, never
more than the maximum. -/
theorem C03_heuristic_size (M : Mat) (out0 : List Nat) (hn : 0 < M.n) :
    ∃ (k : Nat) (out : List Nat), findMaxCliqueHeu M out0 = some ((k : Int), out) ∧
      (∃ c, IsMaximalClique M c ∧ c.length = k) ∧ 1 ≤ k ∧ ((∃ a b, Joined M a b) → 2 ≤ k) ∧
      ∀ m, IsMaxCliqueSize M m → k ≤ m := by
  obtain ⟨k, out, h1, hb, h2, _⟩ := findMaxCliqueHeu_spec M out0 hn
  refine ⟨k, out, h1, hb.clique, hb.pos, h2, ?_⟩
  intro m hm
  obtain ⟨c, hc, e⟩ := hb.clique
  rw [← e]; exact hm.2 c hc.1

example : 0 < bowtie.n ∧ findMaxCliqueHeu bowtie [] = some (3, [0, 1, 2, 0, 0]) := by decide

/-- A clique that can and one that cannot be extended. -/
example : IsClique bowtie [0, 1] ∧ ¬ IsMaximalClique bowtie [0, 1] ∧ IsMaximalClique bowtie [4, 5] := by
  refine ⟨by decide, fun h => h.2 ⟨2, by decide⟩, by decide, ?_⟩
  rintro ⟨w, hw⟩
  have h : ∀ w < 6, ¬ ∀ a ∈ [4, 5], Joined bowtie w a := by decide
  exact h w (hw 4 (by simp)).1 hw

/-- Full statement of C04: the first `k` entries of the output vector form a clique. -/
def C04_statement : Prop :=
  ∀ (M : Mat) (k : Nat) (out : List Nat), 0 < M.n → findMaxCliqueHeu M [] = some ((k : Int), out) →
    IsClique M (out.take k)

/-- C04 is false of the code: with edges 0-1, 0-2, 0-3, 2-3 the heuristic reports size 3 with the index
list 0, 2, 2 (a duplicate). -/
theorem C04_false_duplicate :
    findMaxCliqueHeu (ofEdges 4 [(0, 1), (0, 2), (0, 3), (2, 3)]) [] = some (3, [0, 2, 2, 3]) ∧
    ¬ C04_statement := by
  have h : findMaxCliqueHeu (ofEdges 4 [(0, 1), (0, 2), (0, 3), (2, 3)]) [] = some (3, [0, 2, 2, 3]) := by decide
  refine ⟨h, fun hs => ?_⟩
  have := hs _ 3 _ (by decide) h
  revert this
  decide

/-- C04 is false of the code, second way: with edges 0-1 … 0-4, 3-4 the index list is 0, 3, 2 and
3, 2 are not joined. -/
theorem C04_false_not_joined :
    let M := ofEdges 5 [(0, 1), (0, 2), (0, 3), (0, 4), (3, 4)]
    findMaxCliqueHeu M [] = some (3, [0, 3, 2, 3, 4]) ∧ ¬ Joined M 3 2 := by decide

/-- C04, the part that holds: the output vector has at least `k` entries; the first is a row `v` and every
other of the first `k` entries is a row joined to `v`; so for `k ≤ 2` they are a clique. Missing: for
`k ≥ 3` the entries after the first need not be distinct or joined to each other. -/
theorem C04_heuristic_indices_partial (M : Mat) (out0 : List Nat) (hn : 0 < M.n) :
    ∃ (k : Nat) (out : List Nat), findMaxCliqueHeu M out0 = some ((k : Int), out) ∧ k ≤ out.length ∧
      (∃ v t, v < M.n ∧ out.take k = v :: t ∧ ∀ u ∈ t, Joined M v u) ∧
      (k ≤ 2 → IsClique M (out.take k)) := by
  obtain ⟨k, out, h1, hb, _, _⟩ := findMaxCliqueHeu_spec M out0 hn
  refine ⟨k, out, h1, hb.len, hb.star, ?_⟩
  intro hk
  obtain ⟨v, t, hv, ht, hJ⟩ := hb.star
  rw [ht]
  have hlen : t.length + 1 ≤ 2 := by
    have : (out.take k).length ≤ k := by simp
    rw [ht] at this; simp at this; omega
  match t, hlen, hJ with
  | [], _, _ => exact isClique_single hv
  | [u], _, hJ =>
    have huv := hJ u (by simp)
    refine ⟨?_, ?_, ?_⟩
    · simp; exact fun e => huv.2.2.1 e
    · intro a ha; simp at ha; rcases ha with rfl | rfl
      · exact hv
      · exact huv.2.1
    · intro a ha b hb hne
      simp at ha hb
      rcases ha with rfl | rfl <;> rcases hb with rfl | rfl
      · exact absurd rfl hne
      · exact huv
      · exact huv.symm
      · exact absurd rfl hne

/-- C05. If consistency is transitive the heuristic is exact and its indices are a largest clique. -/
theorem C05_cluster_exact (M : Mat) (out0 : List Nat) (hn : 0 < M.n) (hM : IsClusterGraph M) :
    ∃ (k : Nat) (out : List Nat), findMaxCliqueHeu M out0 = some ((k : Int), out) ∧ IsMaxCliqueSize M k ∧
      IsClique M (out.take k) ∧ (out.take k).length = k := by
  obtain ⟨k, out, h1, hb, _, h3⟩ := findMaxCliqueHeu_spec M out0 hn
  refine ⟨k, out, h1, (h3 hM).1, (h3 hM).2, ?_⟩
  have := hb.len
  simp; omega

/-- C05. If all rows are pairwise joined, all of them are returned. -/
theorem C05_all_consistent (M : Mat) (out0 : List Nat) (hn : 0 < M.n)
    (hall : ∀ a < M.n, ∀ b < M.n, a ≠ b → Joined M a b) :
    ∃ out, findMaxCliqueHeu M out0 = some ((M.n : Int), out) ∧
      ∀ a, a ∈ out.take M.n ↔ a < M.n := by
  obtain ⟨k, out, h1, h2, h3, h4⟩ := C05_cluster_exact M out0 hn
    (fun a b c hab hbc hne => hall a hab.1 c hbc.2.1 hne)
  have hr : IsClique M (List.range M.n) :=
    ⟨List.nodup_range, fun a ha => by simpa using ha,
      fun a ha b hb => hall a (by simpa using ha) b (by simpa using hb)⟩
  have hge := h2.2 _ hr
  have hle : k ≤ M.n := by
    have := length_le_of_nodup_subset (m := List.range M.n) h3.1 (fun x hx => by simpa using h3.2.1 x hx)
    simpa [h4] using this
  have hk : k = M.n := by simp at hge; omega
  subst hk
  refine ⟨out, h1, fun a => ⟨fun ha => h3.2.1 a ha, fun ha => ?_⟩⟩
  by_contra hna
  have h5 : ((out.take M.n) ++ [a]).length ≤ (List.range M.n).length := by
    apply length_le_of_nodup_subset
    · rw [List.nodup_append]
      exact ⟨h3.1, by simp, fun x hx y hy e => by simp at hy; subst hy; subst e; exact hna hx⟩
    · intro x hx
      rcases List.mem_append.1 hx with h | h
      · simpa using h3.2.1 x h
      · simp at h; subst h; simpa using ha
  rw [List.length_append, h4] at h5
  simp at h5

/-- Two groups {0,1,4} and {2,3}: a cluster graph in the sense of C05. -/
def twoGroups : Mat := ofEdges 5 [(0, 1), (0, 4), (1, 4), (2, 3)]
example : findMaxCliqueHeu twoGroups [] = some (3, [0, 1, 4]) := by decide
example : 0 < twoGroups.n ∧ IsClusterGraph twoGroups := by
  refine ⟨by decide, ?_⟩
  have h : ∀ a b c : Fin 5, (Joined twoGroups a b ∧ Joined twoGroups b c) ∧ a ≠ c →
      Joined twoGroups a c := by decide
  intro a b c hab hbc hne
  exact h ⟨a, hab.1⟩ ⟨b, hab.2.1⟩ ⟨c, hbc.2.1⟩ ⟨⟨hab, hbc⟩, fun e => hne (congrArg Fin.val e)⟩

/-- C06. None of the three finders accesses a work buffer, the offsets or the edges out of range (a result
`some`), and each leaves at least as many indices as the size it returns, all of them rows of the matrix. -/
theorem C06_no_out_of_range (M : Mat) (out0 : List Nat) (numNew prev : Nat) (hn : 0 < M.n) :
    (∃ k out, findMaxClique M out0 = some (k, out) ∧ k ≤ out.length ∧ ∀ a ∈ out.take k, a < M.n) ∧
    (∃ (k : Nat) (out : List Nat), findMaxCliqueHeu M out0 = some ((k : Int), out) ∧ k ≤ out.length ∧
      ∀ a ∈ out.take k, a < M.n) ∧
    (∃ k out, findMaxCliqueHeuIncremental M numNew prev out0 = some (k, out) ∧ k ≤ out.length ∧
      ∀ a ∈ out.take k, a < M.n) := by
  have hstar : ∀ {k : Nat} {out : List Nat}, Backed M k out → ∀ a ∈ out.take k, a < M.n := by
    intro k out hb a ha
    obtain ⟨v, t, hv, ht, hJ⟩ := hb.star
    rw [ht] at ha
    rcases List.mem_cons.1 ha with h | h
    · omega
    · exact (hJ a h).2.1
  refine ⟨?_, ?_, ?_⟩
  · obtain ⟨k, out, h1, _, h3, _⟩ := findMaxClique_spec M out0
    exact ⟨k, out, h1, le_of_eq (h3 hn).2.symm, fun a ha => (h3 hn).1.2.1 a (List.mem_of_mem_take ha)⟩
  · obtain ⟨k, out, h1, hb, _, _⟩ := findMaxCliqueHeu_spec M out0 hn
    exact ⟨k, out, h1, hb.len, hstar hb⟩
  · obtain ⟨k, out, h1, h2, _⟩ := findMaxCliqueHeuIncremental_spec M numNew prev out0
    refine ⟨k, out, h1, ?_, ?_⟩
    · rcases h2 with rfl | ⟨_, hb⟩
      · omega
      · exact hb.len
    · rcases h2 with rfl | ⟨_, hb⟩
      · simp
      · exact hstar hb

/-- C06, the excluded case: on the empty matrix the heuristic returns −1 (which callers convert to
`size_t`). -/
theorem C06_empty_matrix (e : Nat → Nat → Bool) (out0 : List Nat) :
    findMaxCliqueHeu ⟨0, e⟩ out0 = some (-1, out0) := by
  obtain ⟨g, s, eg, hl, es, inv⟩ := heu_run ⟨0, e⟩ (-1) out0 [] (by simp)
  unfold findMaxCliqueHeu maxCliqueHeu
  rw [eg]
  simp only [Option.bind_eq_bind, Option.bind_some, hl]
  rfl

/-- C07. The incremental search returns 0 or the size of an actual clique that is strictly larger than
the previous one and to which no further row can be added. -/
theorem C07_incremental_zero_or_larger (M : Mat) (numNew prev : Nat) (out0 : List Nat) :
    ∃ k out, findMaxCliqueHeuIncremental M numNew prev out0 = some (k, out) ∧
      (k = 0 ∨ (prev < k ∧ ∃ c, IsMaximalClique M c ∧ c.length = k)) := by
  obtain ⟨k, out, h1, h2, _⟩ := findMaxCliqueHeuIncremental_spec M numNew prev out0
  refine ⟨k, out, h1, ?_⟩
  rcases h2 with h | ⟨h, hb⟩
  · exact Or.inl h
  · exact Or.inr ⟨h, hb.clique⟩

/-- C07. Asking for at least one and at most `n` new rows with no previous clique never returns 0. -/
theorem C07_incremental_first (M : Mat) (numNew : Nat) (out0 : List Nat) (h1 : 1 ≤ numNew) (h2 : numNew ≤ M.n) :
    ∃ k out, findMaxCliqueHeuIncremental M numNew 0 out0 = some (k, out) ∧ 1 ≤ k := by
  obtain ⟨k, out, e, _, _, h3, _⟩ := findMaxCliqueHeuIncremental_spec M numNew 0 out0
  refine ⟨k, out, e, h3 ?_ rfl⟩
  unfold incVertices
  simp only [incStart, if_pos (show numNew + 1 ≤ M.n + 1 by omega)]
  intro h
  simp at h
  omega

/-- C05 in incremental mode. If consistency is transitive, then every clique that contains one of the
`numNew` last rows and is larger than the previous one is matched by the result: the incremental finder
returns at least its size and its indices are a clique. -/
theorem C05_incremental_cluster (M : Mat) (numNew prev : Nat) (out0 : List Nat) (hM : IsClusterGraph M)
    (h1 : numNew ≤ M.n) :
    ∃ k out, findMaxCliqueHeuIncremental M numNew prev out0 = some (k, out) ∧
      (k ≠ 0 → IsClique M (out.take k)) ∧
      ∀ l, IsClique M l → prev < l.length → (∃ v ∈ l, M.n - numNew ≤ v) → l.length ≤ k := by
  obtain ⟨k, out, e, h2, _, _, h5⟩ := findMaxCliqueHeuIncremental_spec M numNew prev out0
  refine ⟨k, out, e, (h5 hM).1, ?_⟩
  rintro l hl hp ⟨v, hv, hn⟩
  have hd := hl.length_le_degree (nbrs_adj M) (e := v) hv
  have hvn := hl.2.1 v hv
  have := (h5 hM).2 v (by
    unfold incVertices
    simp only [incStart, if_pos (show numNew + 1 ≤ M.n + 1 by omega), List.mem_range'_1]
    omega) (by omega)
  omega

example : IsClusterGraph twoGroups → ∃ l, IsClique twoGroups l ∧ 2 < l.length ∧ ∃ v ∈ l, twoGroups.n - 1 ≤ v :=
  fun _ => ⟨[0, 1, 4], by decide, by decide, 4, by decide, by decide⟩

example : findMaxCliqueHeuIncremental bowtie 2 2 [] = some (3, [4, 2, 3, 0, 0]) := by decide
example : findMaxCliqueHeuIncremental bowtie 2 3 [] = some (0, []) := by decide

/-- C07: asking for more new rows than the matrix has wraps the start index around and finds nothing. -/
theorem C07_too_many_new (M : Mat) (numNew prev : Nat) (out0 : List Nat) (h : M.n < numNew)
    (h64 : numNew < 2 ^ 64) (hn : numNew + M.n < 2 ^ 64) :
    findMaxCliqueHeuIncremental M numNew prev out0 = some (0, out0) := by
  have hv : incVertices M.n numNew = [] := by
    unfold incVertices incStart
    rw [if_neg (by omega)]
    have : (2 ^ 64 + (M.n + 1) - (numNew + 1)) % 2 ^ 64 = 2 ^ 64 + (M.n + 1) - (numNew + 1) :=
      Nat.mod_eq_of_lt (by omega)
    rw [this]
    simp; omega
  obtain ⟨g, s, eg, hl, es, inv⟩ := heu_run M (prev : Int) out0 (incVertices M.n numNew) (by rw [hv]; simp)
  unfold findMaxCliqueHeuIncremental maxCliqueHeuIncremental
  rw [eg]
  simp only [Option.bind_eq_bind, Option.bind_some, hl, Nat.add_sub_cancel]
  unfold incVertices at es hv
  simp only at es hv
  rw [hv] at es ⊢
  rw [es]
  simp only [List.foldlM_nil, Option.pure_def, Option.some.injEq] at es
  subst es
  simp [heuStart]

example : findMaxCliqueHeuIncremental (ofEdges 1 []) 2 0 [] = some (0, []) := by decide

end RPGO.Props
