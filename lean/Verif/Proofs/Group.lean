import Verif.Proofs.Select
/-
A group of rows that are all joined to each other and to nothing else, larger than every clique outside it, is what the
heuristic returns.
-/

namespace RPGO

/-- The rows in `I` are pairwise joined, joined to no other row, and more than the members of any clique outside `I`. -/
structure IsLeadingGroup (M : Mat) (I : List Nat) : Prop where
  clique : IsClique M I
  closed : ∀ i ∈ I, ∀ j, Joined M i j → j ∈ I
  leads : ∀ l, IsClique M l → (∀ a ∈ l, a ∉ I) → l.length < I.length

theorem IsLeadingGroup.pos {M : Mat} {I : List Nat} (h : IsLeadingGroup M I) : 0 < I.length := by
  have := h.leads [] (isClique_nil M) (by simp)
  simpa using this

/-- A clique with a member in the group is inside the group. -/
theorem IsLeadingGroup.inside {M : Mat} {I l : List Nat} (h : IsLeadingGroup M I) (hl : IsClique M l) {a : Nat} (ha : a ∈ l)
    (hi : a ∈ I) : ∀ b ∈ l, b ∈ I := by
  intro b hb
  by_cases e : a = b
  · rw [← e]; exact hi
  · exact h.closed a hi b (hl.2.2 a ha b hb e)

theorem IsLeadingGroup.max {M : Mat} {I l : List Nat} (h : IsLeadingGroup M I) (hl : IsClique M l) : l.length ≤ I.length := by
  by_cases hx : ∃ a ∈ l, a ∈ I
  · obtain ⟨a, ha, hi⟩ := hx
    exact length_le_of_nodup_subset hl.1 (h.inside hl ha hi)
  · have := h.leads l hl (fun a ha hi => hx ⟨a, ha, hi⟩)
    omega

/-- A clique that misses a member of the group is smaller. -/
theorem IsLeadingGroup.less {M : Mat} {I l : List Nat} (h : IsLeadingGroup M I) (hl : IsClique M l) {i : Nat} (hi : i ∈ I)
    (hn : i ∉ l) : l.length < I.length := by
  by_cases hx : ∃ a ∈ l, a ∈ I
  · obtain ⟨a, ha, hai⟩ := hx
    have hs := h.inside hl ha hai
    have := length_le_of_nodup_subset (l := i :: l) (m := I) (by simp [hn, hl.1]) (by
      intro x hx
      rcases List.mem_cons.1 hx with rfl | hx
      · exact hi
      · exact hs x hx)
    simpa using this
  · exact h.leads l hl (fun a ha hai => hx ⟨a, ha, hai⟩)

/-- The neighbours of a member are the other members. -/
theorem IsLeadingGroup.nbrs {M : Mat} {I : List Nat} (h : IsLeadingGroup M I) {nl : NodeList} (A : Adj M nl) {v : Nat} (hv : v ∈ I) :
    (v :: nl v).Perm I := by
  have hnd : (v :: nl v).Nodup := List.nodup_cons.2 ⟨fun h => (A.mem.1 h).irrefl, A.nodup v⟩
  refine (List.perm_ext_iff_of_nodup hnd h.clique.1).2 fun x => ?_
  constructor
  · intro hx
    rcases List.mem_cons.1 hx with rfl | hx
    · exact hv
    · exact h.closed v hv x (A.mem.1 hx)
  · intro hx
    by_cases e : x = v
    · simp [e]
    · exact List.mem_cons_of_mem _ (A.mem.2 (h.clique.2.2 v hv x hx (fun q => e q.symm)))

/-- One candidate: the count is that of a clique the candidate is in. -/
theorem heuRun_clique_at {M : Mat} {nl : NodeList} (A : Adj M nl) {mc : Int} {S : List Nat} {v : Nat} (hv : v < M.n)
    (hS : (nl v).length + 1 ≤ S.length) (hd : ¬ mc > ((nl v).length : Int)) :
    ∃ c, IsClique M c ∧ v ∈ c ∧ c.length = (heuRun M nl mc S v).2 := by
  set t := (nl v).filter (fun x => decide (mc ≤ ((nl x).length : Int))) with ht
  have hc : cands nl mc v = v :: t := rfl
  have hcl := cands_length_le nl mc v
  have hJ : ∀ u ∈ t, Joined M v u := fun u hu => A.mem.1 (List.mem_of_mem_filter hu)
  rw [hc] at hcl
  simp only [List.length_cons] at hcl
  obtain ⟨ch, hcq, hcs, hce, hmx⟩ := rounds_clique M nl mc (S.length + 1) (v :: t)
    ((v :: t) ++ S.drop (v :: t).length) 0 (by rw [← hc]; exact cands_rng A hv) (by simp; omega)
  refine ⟨ch, hcq, ?_, ?_⟩
  · by_contra hn
    refine hmx v (by simp) (by omega) (fun a ha => ?_)
    rcases List.mem_cons.1 (hcs a ha) with h | h
    · exact absurd (h ▸ ha) hn
    · exact hJ a h
  · unfold heuRun
    rw [hc, hce]
    omega

/-- One candidate whose neighbours are all joined to each other: all of them are returned. -/
theorem heuRun_group {M : Mat} {nl : NodeList} (A : Adj M nl) {mc : Int} {S : List Nat} {v : Nat}
    (hS : (nl v).length + 1 ≤ S.length) (hd : ¬ mc > ((nl v).length : Int))
    (hN : ∀ x y, Joined M v x → Joined M v y → x ≠ y → Joined M x y) :
    (heuRun M nl mc S v).2 = (nl v).length + 1 ∧
      (heuRun M nl mc S v).1.take (heuRun M nl mc S v).2 = v :: nl v := by
  have hdeg : ∀ u, Joined M v u → (nl v).length ≤ (nl u).length := by
    intro u hu
    have hsub : ∀ x ∈ (v :: (nl v).erase u), x ∈ nl u := by
      intro x hx
      rcases List.mem_cons.1 hx with h | h
      · subst h; exact A.mem.2 hu.symm
      · have h2 := ((A.nodup v).mem_erase_iff).1 h
        exact A.mem.2 (hN u x hu (A.mem.1 h2.2) (fun e => h2.1 e.symm))
    have hnd : (v :: (nl v).erase u).Nodup := by
      rw [List.nodup_cons]
      exact ⟨fun h => (A.mem.1 (List.mem_of_mem_erase h)).irrefl, (A.nodup v).erase u⟩
    have := length_le_of_nodup_subset hnd hsub
    rw [List.length_cons, List.length_erase_of_mem (A.mem.2 hu)] at this
    have := List.length_pos_of_mem (A.mem.2 hu)
    omega
  have hc : cands nl mc v = v :: nl v := by
    unfold cands
    congr 1
    apply List.filter_eq_self.2
    intro u hu
    have := hdeg u (A.mem.1 hu)
    simp; omega
  have hr := rounds_all M nl mc (S.length + 1) (cands nl mc v)
    (cands nl mc v ++ S.drop (cands nl mc v).length) 0 (by rw [hc]; simp; omega) (List.prefix_append _ _)
    (by
      rw [hc]
      intro x hx y hy hne
      have hxy : Joined M x y := by
        rcases List.mem_cons.1 hx with h | h <;> rcases List.mem_cons.1 hy with h' | h'
        · omega
        · subst h; exact A.mem.1 h'
        · subst h'; exact (A.mem.1 h).symm
        · exact hN x y (A.mem.1 h) (A.mem.1 h') hne
      have hdy : (nl v).length ≤ (nl y).length := by
        rcases List.mem_cons.1 hy with h' | h'
        · subst h'; exact le_rfl
        · exact hdeg y (A.mem.1 h')
      simp [keep, hxy]; omega)
    (by
      rw [hc, List.nodup_cons]
      exact ⟨fun h => (A.mem.1 h).irrefl, A.nodup v⟩)
  unfold heuRun
  rw [hr, hc]
  refine ⟨by simp, ?_⟩
  simp

/-- Main-loop invariant for a leading group, after the vertices in `done`. -/
structure GroupInv (I : List Nat) (L : Nat) (done : List Nat) (s : HeuSt) : Prop where
  lS : s.S.length = L
  lS1 : s.S1.length = L
  before : (∀ v ∈ done, v ∉ I) → s.mc < (I.length : Int)
  after : ∀ v ∈ done, v ∈ I → s.mc = (I.length : Int) ∧ (s.data.take I.length).Perm I

theorem heuStep_group {M : Mat} {nl : NodeList} (A : Adj M nl) {g : CSR} (R : Repr g nl M.n) {I : List Nat}
    (hI : IsLeadingGroup M I) {L : Nat} {done : List Nat} {s : HeuSt} (inv : GroupInv I L done s) {v : Nat} (hv : v < M.n)
    (hL : (nl v).length + 1 ≤ L) :
    ∃ s', heuStep g s v = some s' ∧ GroupInv I L (done ++ [v]) s' := by
  obtain ⟨S1', hl1, he⟩ := heuStep_eq A R hv (by rw [inv.lS]; exact hL) (by rw [inv.lS, inv.lS1])
  rw [he]
  have hdeg : v ∈ I → (nl v).length + 1 = I.length := fun h => by
    have := (hI.nbrs A h).length_eq
    simpa using this
  by_cases hdone : ∃ w ∈ done, w ∈ I
  · -- the group is found: nothing replaces it
    obtain ⟨w, hw, hwI⟩ := hdone
    obtain ⟨hmc, hdata⟩ := inv.after w hw hwI
    by_cases hd : s.mc > ((nl v).length : Int)
    · rw [if_pos hd]
      exact ⟨s, rfl, inv.lS, inv.lS1, fun h => absurd hwI (h w (by simp [hw])), fun _ _ _ => ⟨hmc, hdata⟩⟩
    · rw [if_neg hd]
      have ok := heuRun_ok A (M := M) (mc := s.mc) (S := s.S) hv (by rw [inv.lS]; exact hL) hd
      obtain ⟨c, hc1, _, hc2⟩ := heuRun_clique_at A (M := M) (mc := s.mc) (S := s.S) hv (by rw [inv.lS]; exact hL) hd
      have := hI.max hc1
      rw [if_neg (by omega)]
      exact ⟨_, rfl, by simp only; rw [ok.len, inv.lS], by simp only; rw [hl1, inv.lS],
        fun h => absurd hwI (h w (by simp [hw])), fun _ _ _ => ⟨hmc, hdata⟩⟩
  · have hno : ∀ w ∈ done, w ∉ I := fun w h h' => hdone ⟨w, h, h'⟩
    have hlt := inv.before hno
    by_cases hvI : v ∈ I
    · have hd : ¬ s.mc > ((nl v).length : Int) := by have := hdeg hvI; omega
      rw [if_neg hd]
      have ok := heuRun_ok A (M := M) (mc := s.mc) (S := s.S) hv (by rw [inv.lS]; exact hL) hd
      obtain ⟨h1, h2⟩ := heuRun_group A (M := M) (mc := s.mc) (S := s.S) (by rw [inv.lS]; exact hL) hd
        (fun x y hx hy hne => hI.clique.2.2 x (hI.closed v hvI x hx) y (hI.closed v hvI y hy) hne)
      rw [h1] at h2
      rw [h1, hdeg hvI]
      rw [if_pos hlt]
      refine ⟨_, rfl, by simp only; rw [ok.len, inv.lS], by simp only; rw [hl1, inv.lS],
        fun h => absurd hvI (h v (by simp)), fun _ _ _ => ⟨rfl, ?_⟩⟩
      simp only
      rw [← hdeg hvI, h2]
      exact hI.nbrs A hvI
    · have hafter : ∀ {P : Prop}, ∀ w ∈ done ++ [v], w ∈ I → P := by
        intro P w hw hwI
        rcases List.mem_append.1 hw with h | h
        · exact absurd hwI (hno w h)
        · rw [List.mem_singleton.1 h] at hwI; exact absurd hwI hvI
      by_cases hd : s.mc > ((nl v).length : Int)
      · rw [if_pos hd]
        exact ⟨s, rfl, inv.lS, inv.lS1, fun _ => hlt, fun w h h' => hafter w h h'⟩
      · rw [if_neg hd]
        have ok := heuRun_ok A (M := M) (mc := s.mc) (S := s.S) hv (by rw [inv.lS]; exact hL) hd
        obtain ⟨c, hc1, hcv, hc2⟩ := heuRun_clique_at A (M := M) (mc := s.mc) (S := s.S) hv (by rw [inv.lS]; exact hL) hd
        have hcl := hI.leads c hc1 (fun a ha haI => hvI (hI.inside hc1 ha haI v hcv))
        split
        · exact ⟨_, rfl, by simp only; rw [ok.len, inv.lS], by simp only; rw [hl1, inv.lS],
            fun _ => by simp only; omega, fun w h h' => hafter w h h'⟩
        · exact ⟨_, rfl, by simp only; rw [ok.len, inv.lS], by simp only; rw [hl1, inv.lS],
            fun _ => hlt, fun w h h' => hafter w h h'⟩

theorem heu_run_group {M : Mat} {I : List Nat} (hI : IsLeadingGroup M I) (mc0 : Int) (h0 : mc0 < (I.length : Int)) (data0 vs : List Nat)
    (hvs : ∀ v ∈ vs, v < M.n) : ∃ g s', readEigen M = some g ∧ g.vertices.length = M.n + 1 ∧
      vs.foldlM (heuStep g) (heuStart g mc0 data0) = some s' ∧
      GroupInv I (maxDegOf (nbrs M) M.n + 1).toNat vs s' := by
  obtain ⟨g, eg, R, hm⟩ := readEigen_eq M
  have A := nbrs_adj M
  have hst : GroupInv I (maxDegOf (nbrs M) M.n + 1).toNat [] (heuStart g mc0 data0) :=
    ⟨by simp [heuStart, hm], by simp [heuStart, hm], fun _ => h0, by simp⟩
  have loop : ∀ (vs done : List Nat) (s : HeuSt), GroupInv I (maxDegOf (nbrs M) M.n + 1).toNat done s → (∀ v ∈ vs, v < M.n) →
      ∃ s', vs.foldlM (heuStep g) s = some s' ∧ GroupInv I (maxDegOf (nbrs M) M.n + 1).toNat (done ++ vs) s' := by
    intro vs
    induction vs with
    | nil => intro done s inv _; exact ⟨s, rfl, by simpa using inv⟩
    | cons v vs ih =>
      intro done s inv h
      obtain ⟨s1, e1, i1⟩ := heuStep_group A R hI inv (h v (by simp)) (by
        have := maxDegOf_ge (nbrs M) M.n v (h v (by simp))
        omega)
      obtain ⟨s2, e2, i2⟩ := ih (done ++ [v]) s1 i1 (fun w hw => h w (by simp [hw]))
      refine ⟨s2, ?_, by simpa using i2⟩
      simp only [List.foldlM_cons, e1]
      exact e2
  obtain ⟨s', e, inv⟩ := loop vs [] _ hst hvs
  exact ⟨g, s', eg, R.len, e, by simpa using inv⟩

/-- The heuristic returns a leading group. -/
theorem findMaxCliqueHeu_group {M : Mat} {I : List Nat} (hI : IsLeadingGroup M I) (out0 : List Nat) :
    ∃ out, findMaxCliqueHeu M out0 = some ((I.length : Int), out) ∧ (out.take I.length).Perm I := by
  obtain ⟨g, s, eg, hl, e, inv⟩ := heu_run_group hI (-1) (by omega) out0 (List.range M.n) (fun v hv => by simpa using hv)
  obtain ⟨i, hi⟩ := List.exists_mem_of_length_pos hI.pos
  obtain ⟨h1, h2⟩ := inv.after i (by simpa using hI.clique.2.1 i hi) hi
  refine ⟨s.data, ?_, h2⟩
  unfold findMaxCliqueHeu maxCliqueHeu
  rw [eg]
  simp only [Option.bind_eq_bind, Option.bind_some, hl, Nat.add_sub_cancel]
  rw [e, ← h1]; rfl

/-- The incremental heuristic returns a leading group with a member among the rows searched, if the bound is smaller. -/
theorem findMaxCliqueHeuIncremental_group {M : Mat} {I : List Nat} (hI : IsLeadingGroup M I) (numNew prev : Nat) (out0 : List Nat)
    (hp : prev < I.length) (hx : ∃ v ∈ incVertices M.n numNew, v ∈ I) :
    ∃ out, findMaxCliqueHeuIncremental M numNew prev out0 = some (I.length, out) ∧ (out.take I.length).Perm I := by
  obtain ⟨g, s, eg, hl, e, inv⟩ := heu_run_group hI (prev : Int) (by omega) out0 (incVertices M.n numNew) (by
    intro v hv
    simp only [incVertices, List.mem_range'_1] at hv
    omega)
  obtain ⟨v, hv, hvI⟩ := hx
  obtain ⟨h1, h2⟩ := inv.after v hv hvI
  refine ⟨s.data, ?_, h2⟩
  unfold findMaxCliqueHeuIncremental maxCliqueHeuIncremental
  rw [eg]
  simp only [Option.bind_eq_bind, Option.bind_some, hl, Nat.add_sub_cancel]
  unfold incVertices at e
  simp only at e
  rw [e]
  simp [h1, hp]


/-! ### Over call histories -/

variable {G T N : Type}

/-- The invariant at call boundaries. -/
structure Grouped (m : Meas G N) : Prop where
  settled : Settled m
  lead : 2 ≤ m.factors.length → ∀ I, IsLeadingGroup m.adj I → ∃ idx, Picked m idx ∧ idx.Perm I

theorem Chosen.grouped {m : Meas G N} (h : Chosen m) : Grouped m := by
  refine ⟨h.settled, fun hl I hI => ?_⟩
  obtain ⟨k, idx, hn, e, hb, hp⟩ := h.many hl
  obtain ⟨out, e', hperm⟩ := findMaxCliqueHeu_group hI []
  rw [e] at e'
  obtain ⟨h1, rfl⟩ : (k : Int) = I.length ∧ idx = out := by
    injection e' with e'
    exact ⟨congrArg Prod.fst e', congrArg Prod.snd e'⟩
  have : k = I.length := by omega
  subst this
  exact ⟨_, hp, hperm⟩

theorem removeLastMeas_grouped {m m' : Meas G N} {q : EdgePtr} (hm : Grouped m) (h : removeLastMeas m = .ok m' q) :
    Grouped m' := by
  unfold removeLastMeas at h
  split at h
  · cases h; exact hm
  · split at h
    · cases h
    · rename_i last hlast
      simp only at h
      split at h
      · rename_i hl
        cases h
        exact ⟨⟨fun _ => rfl, fun h => absurd h (by simp only at hl ⊢; omega)⟩,
          fun h => absurd h (by simp only at hl ⊢; omega)⟩
      · split at h
        · rename_i m1 n e
          cases h
          exact (measInliers_chosen e).grouped
        · cases h
        · cases h

theorem atIdx_length {α : Type} {fs : List α} {idx : List Nat} (hr : ∀ i ∈ idx, i < fs.length) :
    (idx.filterMap fun i => fs[i]?).length = idx.length := by
  induction idx with
  | nil => rfl
  | cons i t ih =>
    have hi := hr i (by simp)
    have := ih (fun j hj => hr j (by simp [hj]))
    simp only [List.filterMap_cons, List.getElem?_eq_getElem hi, List.length_cons]
    omega

theorem Picked.length {m : Meas G N} {idx : List Nat} (h : Picked m idx) : m.cons.length = idx.length := by
  rw [h.cons]
  exact atIdx_length h.range

theorem incInliers_grouped {m0 m m' : Meas G N} {bs : List (Btw G N)} (hx : Ext m0 m bs) (hb : bs ≠ []) (h0 : Grouped m0)
    (h : incInliers bs.length m = .ok m' ()) : Grouped m' := by
  refine ⟨incInliers_settled hx hb h0.settled h, fun hl2 I hI => ?_⟩
  have hn := hx.size hb
  have hlen : m.factors.length = m0.factors.length + bs.length := by rw [hx.factors]; simp
  have hbpos : 0 < bs.length := List.length_pos_iff.2 hb
  obtain ⟨k, idx, e, hk⟩ := incInliers_spec bs.length m
  have hadj : m'.adj = m.adj ∧ m'.factors = m.factors := by
    rcases hk with ⟨rfl, e2⟩ | ⟨_, _, ⟨m1, e2, rfl, _, _⟩ | ⟨c, e2, _⟩⟩
    · rw [e2] at h; injection h with h _; subst h; exact ⟨rfl, rfl⟩
    · rw [e2] at h; injection h with h _; subst h; exact ⟨rfl, rfl⟩
    · rw [e2] at h; cases h
  rw [hadj.1] at hI
  have hmem : ∀ v, v ∈ incVertices m.adj.n bs.length ↔ m0.factors.length ≤ v ∧ v < m.adj.n := by
    intro v
    unfold incVertices
    simp only [incStart, if_pos (show bs.length + 1 ≤ m.adj.n + 1 by omega), List.mem_range'_1]
    omega
  have hsub : m0.factors ≠ [] → m0.adj.n = m0.factors.length ∧ m0.adj.n ≤ m.adj.n ∧
      ∀ i j, i < m0.adj.n → j < m0.adj.n → m.adj.e i j = m0.adj.e i j := by
    intro hne
    obtain ⟨a1, a2⟩ := hx.old hb hne
    exact ⟨a1, by omega, fun i j hi hj => a2 i j (by omega) (by omega)⟩
  by_cases hnew : ∃ i ∈ I, m0.factors.length ≤ i
  · -- the group has a new member
    obtain ⟨i, hi, hge⟩ := hnew
    have hprev : m.cons.length < I.length := by
      rw [hx.cons]
      by_cases hne : m0.factors = []
      · rw [h0.settled.few (by simp [hne]), hne]; exact hI.pos
      · obtain ⟨a1, s1, s2⟩ := hsub hne
        obtain ⟨idx0, hp0, hg0⟩ := h0.settled.pick hne a1
        obtain ⟨c, hc, hcl⟩ := hg0.clique
        rw [hp0.length, ← hcl]
        refine hI.less (i := i) ⟨hc.1, fun a ha => by have := hc.2.1 a ha; omega, fun a ha b hb hab => ?_⟩ hi ?_
        · exact (Joined.sub s1 s2 (hc.2.1 a ha) (hc.2.1 b hb)).2 (hc.2.2 a ha b hb hab)
        · intro hic
          have := hc.2.1 i hic
          omega
    obtain ⟨out, e', hperm⟩ := findMaxCliqueHeuIncremental_group hI bs.length m.cons.length [] hprev
      ⟨i, (hmem i).2 ⟨hge, hI.clique.2.1 i hi⟩, hi⟩
    rw [e] at e'
    obtain ⟨rfl, rfl⟩ : k = I.length ∧ idx = out := by
      injection e' with e'
      exact ⟨congrArg Prod.fst e', congrArg Prod.snd e'⟩
    rcases hk with ⟨h1, _⟩ | ⟨_, _, ⟨m1, e2, rfl, h3, h4⟩ | ⟨c, e2, _⟩⟩
    · have := hI.pos; omega
    · rw [e2] at h
      injection h with h _
      subst h
      exact ⟨_, ⟨rfl, h4⟩, hperm⟩
    · rw [e2] at h; cases h
  · -- the group was there before
    have hold : ∀ i ∈ I, i < m0.factors.length := by
      intro i hi
      by_contra hge
      exact hnew ⟨i, hi, by omega⟩
    obtain ⟨i0, hi0⟩ := List.exists_mem_of_length_pos hI.pos
    have hne : m0.factors ≠ [] := by
      intro hne
      have := hold i0 hi0
      rw [hne] at this; simp at this
    obtain ⟨a1, s1, s2⟩ := hsub hne
    have hI0 : IsLeadingGroup m0.adj I := by
      refine ⟨⟨hI.clique.1, fun a ha => by have := hold a ha; omega, fun a ha b hb hab => ?_⟩, fun i hi j hj => ?_, fun l hl hd => ?_⟩
      · exact (Joined.sub s1 s2 (by have := hold a ha; omega) (by have := hold b hb; omega)).1 (hI.clique.2.2 a ha b hb hab)
      · exact hI.closed i hi j ((Joined.sub s1 s2 hj.1 hj.2.1).2 hj)
      · exact hI.leads l ⟨hl.1, fun a ha => by have := hl.2.1 a ha; omega, fun a ha b hb hab =>
          (Joined.sub s1 s2 (hl.2.1 a ha) (hl.2.1 b hb)).2 (hl.2.2 a ha b hb hab)⟩ hd
    obtain ⟨idx0, hp0, hperm⟩ : ∃ idx, Picked m0 idx ∧ idx.Perm I := by
      by_cases hl : 2 ≤ m0.factors.length
      · exact h0.lead hl I hI0
      · have h1 : m0.factors.length = 1 := by have := List.length_pos_iff.2 hne; omega
        refine ⟨[0], ⟨?_, by simp [h1]⟩, ?_⟩
        · rw [h0.settled.few (by omega)]
          match hm : m0.factors, h1 with
          | [f], _ => rfl
        · refine (List.perm_ext_iff_of_nodup (by simp) hI.clique.1).2 fun x => ?_
          have hz : ∀ i ∈ I, i = 0 := fun i hi => by have := hold i hi; omega
          constructor
          · intro hx
            rw [List.mem_singleton.1 hx, ← hz i0 hi0]; exact hi0
          · intro hx; simp [hz x hx]
    have hprev : m.cons.length = I.length := by rw [hx.cons, hp0.length, hperm.length_eq]
    rcases hk with ⟨rfl, e2⟩ | ⟨hlt, hB, _⟩
    · rw [e2] at h
      injection h with h _
      subst h
      refine ⟨idx0, ⟨?_, fun i hi => by have := hp0.range i hi; omega⟩, hperm⟩
      rw [hx.cons, hp0.cons, hx.factors]
      unfold atIdx
      refine List.filterMap_congr fun i hi => ?_
      rw [List.getElem?_append_left (hp0.range i hi)]
    · exfalso
      obtain ⟨c, hc, hcl⟩ := hB.clique
      have := hI.max hc.1
      omega

variable [Mul G] [Inv G] [One G]

/-- Both modes: the invariant at every call boundary. -/
theorem ReachOk.grouped {cfg : Cfg G T N} {env : Env G N} (hr : cfg.rejection = true) (hl : cfg.loopCheck = true)
    {h : List (Op G N)} {s : St G T N} (r : ReachOk cfg env h s) (id : ObsId) : Grouped (lcOf s.pcm id) := by
  cases hi : cfg.incremental with
  | false => exact (r.chosen hr hl hi id).grouped
  | true =>
    exact r.inc_induct hr hl hi ⟨Settled.empty, fun h => by simp [Meas.empty] at h⟩ removeLastMeas_grouped incInliers_grouped id

end RPGO
