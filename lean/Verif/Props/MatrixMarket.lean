import Verif.Proofs.MatrixMarket
/-
Property theorems C62: graphs read from files.
Specification vocabulary: Verif/Spec/MatrixMarket.lean and Verif/Spec/Clique.lean.
-/

namespace RPGO
open Spec

theorem off_mono (nl : NodeList) {a b : Nat} (h : a ≤ b) : off nl a ≤ off nl b := by
  induction b with
  | zero => have : a = 0 := by omega
            rw [this]
  | succ b ih =>
    by_cases e : a = b + 1
    · rw [e]
    · rw [off_succ]; have := ih (by omega); omega

theorem GRepr.slice_eq {g : GIO} {nl : NodeList} {n : Nat} (G : GRepr g nl n) {v : Nat} (hv : v < n) :
    slice g (off nl v) (off nl (v + 1)) = (nl v).map Int.ofNat := by
  unfold slice
  rw [off_succ, Nat.add_sub_cancel_left, G.es, ← List.map_drop, ← List.map_take]
  congr 1
  apply List.ext_getElem?
  intro k
  by_cases hk : k < (nl v).length
  · rw [List.getElem?_take_of_lt hk, List.getElem?_drop]
    have := (G.repr 0).rd_edges hv hk
    unfold rd at this
    rw [this]; simp [hk]
  · rw [List.getElem?_take_eq_none (by omega)]
    symm; apply List.getElem?_eq_none; omega

theorem GRepr.represents {g : GIO} {M : Mat} {nl : NodeList} (G : GRepr g nl M.n) (A : Adj M nl) :
    Represents g M := by
  have hlo : ∀ v, v ≤ M.n → g.vertices[v]? = some (off nl v) := fun v hv => (G.repr 0).rd_vertices hv
  refine ⟨(G.repr 0).len, hlo 0 (by omega), ?_, ?_⟩
  · rw [hlo M.n le_rfl, G.es]; simp [off]
  · intro v hv
    refine ⟨_, _, hlo v (by omega), hlo (v + 1) (by omega), off_mono nl (by omega), ?_, ?_⟩
    · rw [G.slice_eq hv]
      exact (A.nodup v).map (fun a b e => Int.ofNat.inj e)
    · intro z
      rw [G.slice_eq hv, List.mem_map]
      constructor
      · rintro ⟨u, hu, rfl⟩; exact ⟨u, rfl, A.mem.1 hu⟩
      · rintro ⟨u, rfl, hu⟩; exact ⟨u, A.mem.2 hu, rfl⟩

/-- The neighbour lists that a well-formed file leads to. -/
theorem goodFile_read {f : MMFile} {b : MMBody} {n : Nat} (hf : GoodGraphFile f b n) (conn : Option Rat) :
    ∃ g nl, readMatrixMarket {} conn f = .read g ∧ Adj (fileGraph f b conn n) nl ∧ GRepr g nl n ∧
      (f.pattern = true → g.values = []) ∧
      (f.pattern = false → ∃ vl : Nat → List Rat, g.values = (List.range n).flatMap vl ∧
        ∀ v < n, List.Forall₂ (fun u x => ∃ r c, MMLine.entry r c (some x) ∈ counted b ∧
          states f.pattern conn v (u : Nat) (.entry r c (some x)) = true) (nl v) (vl v)) := by
  have inv0 : MMInv f.pattern conn [] ⟨fun _ => [], fun _ => [], none⟩ :=
    ⟨by simp, by simp, by simp⟩
  obtain ⟨s, es, inv⟩ := mmLoop_inv (conn := conn) (counted b) inv0 hf.lines
  rw [List.nil_append] at inv
  have hin : ∀ i j : Int, j ∈ s.nl i → 0 ≤ i ∧ i < n ∧ 0 ≤ j ∧ j < n := by
    intro i j h
    obtain ⟨_, x, hx, hs⟩ := (inv.mem i j).1 h
    have hg := hf.lines x hx
    cases x with
    | blank => simp [states] at hs
    | entry r c v =>
      simp only [states, goodLine, Bool.and_eq_true, Bool.or_eq_true, decide_eq_true_eq] at hs hg
      obtain ⟨h | h, _⟩ := hs <;> omega
  have hnat : ∀ v : Nat, s.nl (v : Int) = ((s.nl (v : Int)).map Int.toNat).map Int.ofNat := by
    intro v
    rw [List.map_map]
    conv_lhs => rw [← List.map_id (s.nl (v : Int))]
    apply List.map_congr_left
    intro z hz
    have := (hin _ _ hz).2.2.1
    simp [this]
  have A : Adj (fileGraph f b conn n) (fun v => (s.nl (v : Int)).map Int.toNat) := by
    refine ⟨?_, ?_⟩
    · intro v u
      have hmem : u ∈ (s.nl (v : Int)).map Int.toNat ↔ (u : Int) ∈ s.nl (v : Int) := by
        rw [List.mem_map]
        constructor
        · rintro ⟨z, hz, rfl⟩
          have := (hin _ _ hz).2.2.1
          rwa [Int.toNat_of_nonneg this]
        · intro h; exact ⟨u, h, by simp⟩
      rw [hmem]
      constructor
      · intro h
        obtain ⟨a, x, hx, hs⟩ := (inv.mem _ _).1 h
        have := hin _ _ h
        refine ⟨by simp only [fileGraph]; omega, by simp only [fileGraph]; omega, by intro e; exact a (by rw [e]), ?_⟩
        simp only [fileGraph]
        rw [List.any_eq_true]
        refine ⟨x, hx, ?_⟩
        rcases Nat.le_total v u with h | h
        · rw [Nat.max_eq_right h, Nat.min_eq_left h, states_symm]; exact hs
        · rw [Nat.max_eq_left h, Nat.min_eq_right h]; exact hs
      · rintro ⟨_, _, hne, he⟩
        simp only [fileGraph] at he
        rw [List.any_eq_true] at he
        obtain ⟨x, hx, hs⟩ := he
        refine (inv.mem _ _).2 ⟨by omega, x, hx, ?_⟩
        rcases Nat.le_total v u with h | h
        · rw [Nat.max_eq_right h, Nat.min_eq_left h, states_symm] at hs; exact hs
        · rw [Nat.max_eq_left h, Nat.min_eq_right h] at hs; exact hs
    · intro v
      have := inv.nodup (v : Int)
      rw [hnat v] at this
      exact this.of_map
  have hn : b.rows.toNat = n := by rw [hf.size.1]; simp
  refine ⟨⟨(pushRows [] [] s.nl n).1, (pushRows [] [] s.nl n).2,
      if f.pattern then [] else (List.range n).flatMap (fun (i : Nat) => s.vl (i : Int))⟩,
    fun v => (s.nl (v : Int)).map Int.toNat, ?_, A, ?_, ?_, ?_⟩
  · unfold readMatrixMarket
    rw [if_neg (by have := hf.banner.1; omega), hf.banner.2]
    simp only [Bool.true_eq_false, if_false, hf.body]
    rw [if_neg (by rw [hf.size.1, hf.size.2]; simp)]
    change (match (counted b).foldlM (mmStep f.pattern conn) _ with | none => _ | some s => _) = _
    rw [es]
    simp [hn]
  · exact pushRows_repr (fun v hv u hu => (A.mem.1 hu).2.1) s.nl (fun v _ => hnat v) _
  · intro h; simp [h]
  · intro h
    refine ⟨fun v => s.vl (v : Int), by simp [h], ?_⟩
    intro v _
    have := inv.vals h (v : Int)
    rw [hnat v, List.forall₂_map_left_iff] at this
    exact this

end RPGO

namespace RPGO.Props
open RPGO Spec

/-- Example: a 4 × 4 file with values: an edge in both directions, a loop, a blank line, an edge below the
bound 1 that is repeated above it, and one more line than announced. -/
def demoMM : MMFile := ⟨45, true, false, some ⟨4, 4, 7,
  [.entry 2 1 (some 3), .entry 1 2 (some 5), .entry 3 3 (some 9), .blank, .entry 4 2 (some (1 / 2)),
   .entry 2 4 (some 2), .entry 4 1 (some 8), .entry 4 3 (some 7)]⟩⟩

/-- The entry part of `demoMM`. -/
def demoMMBody : MMBody := ⟨4, 4, 7,
  [.entry 2 1 (some 3), .entry 1 2 (some 5), .entry 3 3 (some 9), .blank, .entry 4 2 (some (1 / 2)),
   .entry 2 4 (some 2), .entry 4 1 (some 8), .entry 4 3 (some 7)]⟩

theorem demoMM_good : GoodGraphFile demoMM demoMMBody 4 := ⟨by decide, rfl, by decide, by decide +kernel⟩

/-- C62. A well-formed file is read into an empty object as exactly the undirected graph it describes.
Missing: other files and used objects, see the `C62_false` theorems. -/
theorem C62_file_read_partial {f : MMFile} {b : MMBody} {n : Nat} (hf : GoodGraphFile f b n) (conn : Option Rat) :
    ∃ g, readMatrixMarket {} conn f = .read g ∧ g.vertexCount = n ∧ Represents g (fileGraph f b conn n) := by
  obtain ⟨g, nl, e, A, G, _⟩ := goodFile_read hf conn
  refine ⟨g, e, ?_, GRepr.represents (M := fileGraph f b conn n) G A⟩
  have := (G.repr 0).len
  simp only at this
  simp [GIO.vertexCount, this]

example : GoodGraphFile demoMM demoMMBody 4 ∧
    readMatrixMarket {} (some 1) demoMM = .read ⟨[0, 2, 4, 4, 6], [1, 3, 0, 3, 1, 0], [3, 8, 3, 2, 2, 8]⟩ :=
  ⟨demoMM_good, by decide +kernel⟩

/-- C62. If values are used, the value array is parallel to the edge array: each slot of the edge array
holds the value of a line of the file that states that edge. Missing: other files and used objects. -/
theorem C62_values_partial {f : MMFile} {b : MMBody} {n : Nat} (hf : GoodGraphFile f b n) (hp : f.pattern = false)
    (conn : Option Rat) :
    ∃ g, readMatrixMarket {} conn f = .read g ∧ g.values.length = g.edges.length ∧
      ∀ v < n, ∀ lo hi, g.vertices[v]? = some lo → g.vertices[v + 1]? = some hi → ∀ k, lo ≤ k → k < hi →
        ∃ u x r c, g.edges[k]? = some u ∧ g.values[k]? = some x ∧ MMLine.entry r c (some x) ∈ counted b ∧
          states f.pattern conn v u (.entry r c (some x)) = true := by
  obtain ⟨g, nl, e, A, G, _, hv⟩ := goodFile_read hf conn
  obtain ⟨vl, hvl, hrel⟩ := hv hp
  have key : ∀ m ≤ n, List.Forall₂ (fun (_ : Int) (_ : Rat) => True)
      (((List.range m).flatMap nl).map Int.ofNat) ((List.range m).flatMap vl) := by
    intro m hm
    induction m with
    | zero => simp
    | succ m ih =>
      rw [List.range_succ, List.flatMap_append, List.flatMap_append, List.map_append]
      refine List.rel_append (ih (by omega)) ?_
      simp only [List.flatMap_cons, List.flatMap_nil, List.append_nil]
      rw [List.forall₂_map_left_iff]
      exact (hrel m (by omega)).imp (fun _ _ _ => trivial)
  have hoff : ∀ m ≤ n, ((List.range m).flatMap vl).length = off nl m := by
    intro m hm
    have := (key m hm).length_eq
    rw [← this]; simp [off]
  refine ⟨g, e, ?_, ?_⟩
  · rw [hvl, G.es]; exact (key n le_rfl).length_eq.symm
  · intro v hvn lo hi h1 h2 k hk1 hk2
    have e1 : g.vertices[v]? = some (off nl v) := (G.repr 0).rd_vertices (by omega)
    have e2 : g.vertices[v + 1]? = some (off nl (v + 1)) := (G.repr 0).rd_vertices (by omega)
    rw [e1] at h1; rw [e2] at h2
    obtain rfl := Option.some.inj h1
    obtain rfl := Option.some.inj h2
    rw [off_succ] at hk2
    obtain ⟨i, rfl⟩ := Nat.exists_eq_add_of_le hk1
    have hi : i < (nl v).length := by omega
    have hlen := (hrel v hvn).length_eq
    have hx := (List.forall₂_iff_get.1 (hrel v hvn)).2 i hi (by omega)
    obtain ⟨r, c, hm, hs⟩ := hx
    refine ⟨((nl v)[i] : Nat), (vl v)[i]'(by omega), r, c, ?_, ?_, hm, hs⟩
    · have := (G.repr 0).rd_edges hvn hi
      unfold rd at this
      simp only at this
      rw [G.es, List.getElem?_map, this]; rfl
    · rw [hvl]
      have hsplit : (List.range n).flatMap vl = (List.range v).flatMap vl ++ (vl v ++
          (List.range' (v + 1) (n - (v + 1))).flatMap vl) := by
        have : List.range n = List.range v ++ (v :: List.range' (v + 1) (n - (v + 1))) := by
          have h3 := List.range'_append_1 (s := 0) (m := v) (n := n - (v + 1) + 1)
          rw [Nat.zero_add] at h3
          rw [List.range_eq_range', List.range_eq_range', ← List.range'_succ, h3]
          congr 1
          omega
        rw [this, List.flatMap_append, List.flatMap_cons]
      rw [hsplit, ← hoff v (by omega), List.getElem?_append_right (by omega), Nat.add_sub_cancel_left,
        List.getElem?_append_left (by omega)]
      simp

example : demoMM.pattern = false ∧ demoMM.body = some demoMMBody := ⟨rfl, rfl⟩

/-- C62. Degree statistics and edge count of a graph read from a well-formed file: the maximum and minimum
over the vertices of the number of joined vertices, the number of unordered joined pairs, and twice that
divided by the number of vertices. Missing: other files and used objects. -/
theorem C62_statistics_partial {f : MMFile} {b : MMBody} {n : Nat} (hf : GoodGraphFile f b n) (hn : 0 < n)
    (conn : Option Rat) :
    ∃ g mx mn, readMatrixMarket {} conn f = .read g ∧
      g.edgeCount = ((Finset.range n ×ˢ Finset.range n).filter
        (fun p => p.1 < p.2 ∧ Joined (fileGraph f b conn n) p.1 p.2)).card ∧
      g.degrees = some (mx, mn, some ((2 * g.edgeCount : Nat) / (n : Rat))) ∧
      (∀ v < n, mn ≤ ((nbrs (fileGraph f b conn n) v).length : Int) ∧
        ((nbrs (fileGraph f b conn n) v).length : Int) ≤ mx) ∧
      (∃ v < n, ((nbrs (fileGraph f b conn n) v).length : Int) = mx) ∧
      (∃ v < n, ((nbrs (fileGraph f b conn n) v).length : Int) = mn) := by
  obtain ⟨g, nl, e, A, G, _⟩ := goodFile_read hf conn
  have hlen : ∀ v, (nl v).length = (nbrs (fileGraph f b conn n) v).length := by
    intro v
    apply le_antisymm
    · exact length_le_of_nodup_subset (A.nodup v) (fun x hx => mem_nbrs.2 (A.mem.1 hx))
    · exact length_le_of_nodup_subset (nbrs_nodup _ v) (fun x hx => A.mem.2 (mem_nbrs.1 hx))
  have hcnt : g.edges.length = 2 * ((Finset.range n ×ˢ Finset.range n).filter
        (fun p => p.1 < p.2 ∧ Joined (fileGraph f b conn n) p.1 p.2)).card := by
    rw [G.es, List.length_map]
    exact slots_count A
  have hec : g.edgeCount = ((Finset.range n ×ˢ Finset.range n).filter
        (fun p => p.1 < p.2 ∧ Joined (fileGraph f b conn n) p.1 p.2)).card := by
    rw [GIO.edgeCount, hcnt]; omega
  obtain ⟨hmn, w, hw, hmn'⟩ := minDegOf_spec nl n hn
  obtain ⟨u, hu, hmx'⟩ := maxDegOf_attained nl n hn
  refine ⟨g, maxDegOf nl n, minDegOf nl n, e, hec, ?_, ?_, ⟨u, hu, ?_⟩, w, hw, ?_⟩
  · rw [G.degrees, if_neg (by omega), hec, hcnt]
  · intro v hv
    rw [← hlen v]
    exact ⟨hmn v hv, maxDegOf_ge nl n v hv⟩
  · rw [← hlen u, hmx']
  · rw [← hlen w, hmn']

example : (match readMatrixMarket {} (some 1) demoMM with
    | .read g => g.degrees.map (fun d => (d.1, d.2.1, d.2.2, g.edgeCount)) | _ => none)
    = some (2, 0, some (3 / 2), 3) := by decide +kernel

/-- C62. The finders work on a graph read from a well-formed file as on the matrix of that graph. The exact
search from lower bound `lb` returns the larger of `lb` and the size of a largest clique, with such a clique
if it beats the bound; the heuristic search returns the size of a clique that cannot be extended.
Missing: other files and used objects. -/
theorem C62_finders_partial {f : MMFile} {b : MMBody} {n : Nat} (hf : GoodGraphFile f b n) (hn : 0 < n)
    (conn : Option Rat) (lb : Nat) (out0 : List Nat) :
    ∃ g c, readMatrixMarket {} conn f = .read g ∧ g.csr = some c ∧
      (∃ k out, maxClique c lb out0 = some (k, out) ∧
        (∀ m, IsMaxCliqueSize (fileGraph f b conn n) m → k = max lb m) ∧
        (lb < k → IsClique (fileGraph f b conn n) out ∧ out.length = k) ∧ (k = lb → out = out0)) ∧
      ∃ (k : Nat) (out : List Nat), maxCliqueHeu c out0 = some ((k : Int), out) ∧ k ≤ out.length ∧
        ∃ q, IsMaximalClique (fileGraph f b conn n) q ∧ q.length = k := by
  obtain ⟨g, nl, e, A, G, _⟩ := goodFile_read hf conn
  refine ⟨g, _, e, G.csr, ?_, ?_⟩
  · obtain ⟨k, out, e1, h1, h2, h3, h4⟩ :=
      maxClique_spec A (M := fileGraph f b conn n) (G.repr (maxDegOf nl n)) lb out0
    refine ⟨k, out, e1, ?_, h3, h4⟩
    rintro m ⟨⟨l, hl, hlm⟩, hm⟩
    have := h2 l hl
    rcases Nat.lt_or_ge lb k with h | h
    · obtain ⟨hc, hk⟩ := h3 h
      have := hm out hc
      omega
    · omega
  · obtain ⟨k, out, e1, hb, _⟩ :=
      maxCliqueHeu_spec A (M := fileGraph f b conn n) (G.repr (maxDegOf nl n)) rfl out0 hn
    exact ⟨k, out, e1, hb.len, hb.clique⟩

example : (match readMatrixMarket {} (some 1) demoMM with
    | .read g => (g.csr.bind fun c => maxClique c 2 [9]) | _ => none) = some (3, [1, 0, 3]) := by decide +kernel
example : (match readMatrixMarket {} (some 1) demoMM with
    | .read g => (g.csr.bind fun c => maxClique c 3 [9]) | _ => none) = some (3, [9]) := by decide +kernel

/-- C62. A matrix read into an empty object represents the graph of the matrix; so the same graph given as
a file or as a matrix is the same to a user. Edge values read earlier into the object stay. -/
theorem C62_matrix_read (M : Mat) : Represents (readEigenInto {} M) M ∧ ∀ g0 : GIO, (readEigenInto g0 M).values = g0.values := by
  refine ⟨?_, fun _ => rfl⟩
  have hnl : readLoop M = nbrs M := funext (readLoop_eq M)
  have G : GRepr (readEigenInto {} M) (nbrs M) M.n := by
    unfold readEigenInto
    simp only [hnl]
    exact pushRows_repr (fun v hv u hu => (mem_nbrs.1 hu).2.1) _ (fun v _ => by simp) _
  exact G.represents (nbrs_adj M)

example : readEigenInto {} (fileGraph demoMM demoMMBody (some 1) 4)
    = ⟨[0, 2, 4, 4, 6], [1, 3, 0, 3, 0, 1], []⟩ := by decide +kernel

/-- C62. The extension is what follows the last dot of the name, and nothing if there is no dot. -/
theorem C62_extension (name : List Char) :
    ('.' ∈ name → ∃ p, name = p ++ '.' :: fileExtension name ∧ '.' ∉ fileExtension name) ∧
    ('.' ∉ name → fileExtension name = []) := by
  constructor
  · intro h
    have h' : name.contains '.' = true := by simpa using h
    unfold fileExtension
    rw [if_pos h']
    have hsplit := List.takeWhile_append_dropWhile (p := fun c => c != '.') (l := name.reverse)
    have hno : '.' ∉ name.reverse.takeWhile (fun c => c != '.') := by
      intro hm
      have := List.all_eq_true.1 List.all_takeWhile _ hm
      simp at this
    cases hd : name.reverse.dropWhile (fun c => c != '.') with
    | nil =>
      rw [hd, List.append_nil] at hsplit
      rw [hsplit] at hno
      exact absurd (by simpa using h) hno
    | cons a l =>
      have ha : a = '.' := by
        have := List.head_dropWhile_not (fun c => c != '.') (l := name.reverse) (by rw [hd]; simp)
        simp only [hd, List.head_cons] at this
        simpa using this
      subst ha
      refine ⟨l.reverse, ?_, by simpa using hno⟩
      rw [hd] at hsplit
      have := congrArg List.reverse hsplit
      simpa using this.symm
  · intro h
    unfold fileExtension
    rw [if_neg (by simpa using h)]

example : fileExtension ['a', '.', 'b', '.', 'm', 't', 'x'] = ['m', 't', 'x'] ∧ fileExtension ['m', 't', 'x'] = [] := by
  decide

/-- C62. `readGraph` reads `.mtx` files only: a file with any other extension is refused, except `.gr`. -/
theorem C62_readGraph (disk : List Char → Option MMFile) (g0 : GIO) (conn : Option Rat) (name : List Char) :
    (fileExtension name = ['m', 't', 'x'] → ∀ f, disk name = some f →
      readGraph disk g0 conn name = readMatrixMarket g0 conn f) ∧
    (fileExtension name = ['m', 't', 'x'] → disk name = none → readGraph disk g0 conn name = .refused) ∧
    (fileExtension name ≠ ['m', 't', 'x'] → fileExtension name ≠ ['g', 'r'] →
      readGraph disk g0 conn name = .refused) := by
  refine ⟨?_, ?_, ?_⟩
  · intro h f hf; unfold readGraph; rw [if_pos h, hf]
  · intro h hf; unfold readGraph; rw [if_pos h, hf]
  · intro h1 h2; unfold readGraph; rw [if_neg h1, if_neg h2]

/-- C62. A file is refused exactly if its first line has not five words or the matrix is not square. -/
theorem C62_refused_iff (g0 : GIO) (conn : Option Rat) (f : MMFile) (h : f.bannerLen < 256) :
    readMatrixMarket g0 conn f = .refused ↔
      f.bannerWords = false ∨ ∃ b, f.body = some b ∧ b.rows ≠ b.cols := by
  unfold readMatrixMarket
  rw [if_neg (by omega)]
  cases hw : f.bannerWords with
  | false => simp
  | true =>
    cases hb : f.body with
    | none => simp
    | some b =>
      by_cases hsq : b.rows = b.cols
      · simp only [Bool.true_eq_false, if_false, hsq, ne_eq, not_true_eq_false, Option.some.injEq, false_or]
        constructor
        · intro h1; split at h1 <;> cases h1
        · rintro ⟨b', rfl, hne⟩; exact absurd hsq hne
      · simp [hsq]

/-- C62 is false for `.gr` files: the call returns `true` without reading anything; on an empty object the
vertex count is then −1. -/
theorem C62_false_gr (disk : List Char → Option MMFile) (conn : Option Rat) :
    readGraph disk {} conn ['a', '.', 'g', 'r'] = .read {} ∧ GIO.vertexCount {} = -1 := ⟨rfl, rfl⟩

/-- C62 is false for a file with an index out of range: it is accepted, with a message, and the exact
search then accesses memory out of range. -/
theorem C62_false_index :
    ∃ g c, readMatrixMarket {} none ⟨45, true, true, some ⟨2, 2, 1, [.entry 3 1 none]⟩⟩ = .read g ∧
      g.csr = some c ∧ maxClique c 0 [] = none :=
  ⟨⟨[0, 1, 1], [2], []⟩, ⟨[0, 1, 1], [2], 1⟩, by decide +kernel, rfl, by decide +kernel⟩

/-- C62 is false for a file with a missing value: the value of an earlier line is used. Here the edge 2 – 3
has no value and is taken, with the value 5 of the line before. -/
theorem C62_false_missing_value :
    readMatrixMarket {} (some 1) ⟨45, true, false, some ⟨3, 3, 2, [.entry 2 1 (some 5), .entry 3 2 none]⟩⟩
      = .read ⟨[0, 1, 3, 4], [1, 0, 2, 1], [5, 5, 5, 5]⟩ ∧
    readMatrixMarket {} (some 1) ⟨45, true, false, some ⟨2, 2, 1, [.entry 2 1 none]⟩⟩ = .ub := by
  decide +kernel

/-- C62 is false for an object that has been used before: reading the one-edge graph a second time does
not give that graph but one with five vertices; the same with a matrix. -/
theorem C62_false_twice :
    let f : MMFile := ⟨45, true, true, some ⟨2, 2, 1, [.entry 2 1 none]⟩⟩
    let M : Mat := ⟨2, fun _ _ => true⟩
    (∃ g, readMatrixMarket {} none f = .read g ∧ g.vertexCount = 2 ∧
      ∃ g', readMatrixMarket g none f = .read g' ∧ g'.vertexCount = 5) ∧
    (readEigenInto {} M).vertexCount = 2 ∧ (readEigenInto (readEigenInto {} M) M).vertexCount = 5 :=
  ⟨⟨⟨[0, 1, 2], [1, 0], []⟩, by decide +kernel, by decide, ⟨[0, 1, 2, 2, 3, 4], [1, 0, 1, 0], []⟩,
    by decide +kernel, by decide⟩, by decide +kernel, by decide +kernel⟩

/-- C62: two files on which reading does not end well whatever the object holds. A first line of 256
characters or more overflows a buffer. A file that ends with a comment line without a newline, before any
size line, is read forever. -/
theorem C62_false_header (g0 : GIO) (conn : Option Rat) (f : MMFile) :
    (256 ≤ f.bannerLen → readMatrixMarket g0 conn f = .ub) ∧
    (f.bannerLen < 256 → f.bannerWords = true → f.body = none → readMatrixMarket g0 conn f = .hang) := by
  constructor
  · intro h; unfold readMatrixMarket; rw [if_pos h]
  · intro h1 h2 h3
    unfold readMatrixMarket
    rw [if_neg (by omega), h2, h3]
    rfl

end RPGO.Props
