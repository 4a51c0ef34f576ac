import Verif.Proofs.Select
import Verif.Proofs.Removal
/-
What stays of the measurements of a robot pair while closures are added behind them and removed again.
-/

namespace RPGO
variable {G T N : Type}

/-- The heuristic search reads the rows and columns of the matrix only. -/
theorem findMaxCliqueHeu_congr {M M' : Mat} (hn : M.n = M'.n) (he : ∀ i j, i < M.n → j < M.n → M.e i j = M'.e i j)
    (out : List Nat) : findMaxCliqueHeu M out = findMaxCliqueHeu M' out := by
  have h1 : readLoop M = readLoop M' := by
    funext v
    rw [readLoop_eq, readLoop_eq]
    unfold nbrs
    rw [← hn]
    apply List.filter_congr
    intro u hu
    have hu := List.mem_range.1 hu
    rw [decide_eq_decide]
    unfold Joined
    by_cases hv : v < M.n
    · have hx : M.e (max v u) (min v u) = M'.e (max v u) (min v u) := he _ _ (by omega) (by omega)
      rw [hx, hn]
    · simp [← hn, hv]
  unfold findMaxCliqueHeu readEigen
  rw [h1, hn]

/-- `m` has the closures `F` with their entries `A`, perhaps followed by more closures. -/
structure Below (F : List (Btw G N)) (A : Mat) (m : Meas G N) : Prop where
  pre : F <+: m.factors
  adj : 2 ≤ F.length → m.adj.n = m.factors.length ∧
    ∀ i j, i < F.length → j < F.length → m.adj.e i j = A.e i j

theorem Below.ext {F : List (Btw G N)} {A : Mat} {m m' : Meas G N} {bs : List (Btw G N)} (h : Below F A m)
    (hx : Ext m m' bs) : Below F A m' := by
  by_cases hb : bs = []
  · rw [hx.same hb]; exact h
  · refine ⟨by rw [hx.factors]; exact h.pre.trans (List.prefix_append _ _), fun h2 => ⟨hx.size hb, fun i j hi hj => ?_⟩⟩
    have hl := h.pre.length_le
    have hne : m.factors ≠ [] := by intro e; rw [e, List.length_nil] at hl; omega
    rw [(hx.old hb hne).2 i j (by omega) (by omega)]
    exact (h.adj h2).2 i j hi hj

theorem Below.sel {F : List (Btw G N)} {A : Mat} {m m' : Meas G N} (h : Below F A m) (hs : Sel m m') : Below F A m' :=
  ⟨by rw [hs.factors]; exact h.pre, fun h2 => by rw [hs.adj, hs.factors]; exact h.adj h2⟩

theorem Below.rem {F : List (Btw G N)} {A : Mat} {m m' : Meas G N} (h : Below F A m) (hs : RemMeas m m')
    (hl : F.length ≤ m'.factors.length) : Below F A m' := by
  cases hs with
  | same => exact h
  | @few init last hf hlt =>
    simp only at hl
    refine ⟨List.prefix_of_prefix_length_le h.pre (by rw [hf]; exact List.prefix_append _ _) hl, fun h2 => ?_⟩
    omega
  | @many init last c hf h2 hc hn hn2 =>
    simp only at hl
    refine ⟨List.prefix_of_prefix_length_le h.pre (by rw [hf]; exact List.prefix_append _ _) hl, fun h3 => ?_⟩
    obtain ⟨a, b⟩ := h.adj h3
    refine ⟨?_, b⟩
    show m.adj.n - 1 = init.length
    rw [a, hf]; simp

section
variable [Mul G] [Inv G] [One G]

/-- With two closures or more, the matrix of a pair has one row for each of them. -/
theorem Reach.sized {cfg : Cfg G T N} {env : Env G N} (hr : cfg.rejection = true) (hl : cfg.loopCheck = true)
    {h : List (Op G N)} {s : St G T N} (r : Reach cfg env h s) (id : ObsId) :
    2 ≤ (lcOf s.pcm id).factors.length → (lcOf s.pcm id).adj.n = (lcOf s.pcm id).factors.length := by
  refine r.meas hr (Q := fun m => 2 ≤ m.factors.length → m.adj.n = m.factors.length) (by simp [Meas.empty]) ?_ ?_ ?_ id
  · intro f b m _ hfit h2
    by_cases he : m.factors = []
    · simp [growLc, he] at h2
    · rcases hfit hl with h' | ⟨h', _⟩
      · exact absurd h' he
      · simp [growLc, hl, he, Mat.grow_n, h']
  · intro m m' hs hm
    rw [hs.factors, hs.adj]; exact hm
  · intro _ m m' hs hm
    cases hs with
    | same => exact hm
    | few hf hlt => intro h2; simp only at h2; omega
    | @many init last c hf h2 hc hn hn2 =>
      intro _
      show m.adj.n - 1 = init.length
      rw [hm (by rw [hf]; simp; omega), hf]; simp

theorem exec_below {cfg : Cfg G T N} {env : Env G N} (hr : cfg.rejection = true) (hl : cfg.loopCheck = true) {op : Op G N}
    {s s' : St G T N} {x : Ret} (e : exec cfg env op s = .ok s' x) (id : ObsId) {F : List (Btw G N)} {A : Mat}
    (h : Below F A (lcOf s.pcm id)) (hF : F.length ≤ (lcOf s'.pcm id).factors.length) : Below F A (lcOf s'.pcm id) := by
  cases hb : Spec.batch op with
  | none =>
    rcases ((exec_other cfg env hr op hb s).of_ok e).pcm.meas id with e1 | ⟨_, e1⟩
    · rw [e1]; exact h
    · exact h.rem e1 hF
  | some y =>
    obtain ⟨fs, vs⟩ := y
    cases (exec_batch env hr hb s).1 s' x e with
    | empty _ _ hf => rw [hf.pcm]; exact h
    | full hne hi1 hS h1 h2 ha hf =>
      rename_i v1 p1 p2 s1
      have hp : s'.pcm = { p2 with robotOrder := s1.pcm.robotOrder } := by rw [hf.pcm, ha.eq]
      have hlc : lcOf s'.pcm id = lcOf p2 id := by rw [hp]; rfl
      have h0 : Below F A (lcOf p1 id) := by rw [lcOf_lcs hS.lcs]; exact h
      rw [hlc]
      by_cases hc : Spec.cands cfg vs fs = []
      · rw [h1 hc]; exact h0
      · have h3 := h2 hc
        unfold processCands at h3
        simp only [M.bind_eq] at h3
        obtain ⟨q, num, h4, _⟩ := M.bind_eq_ok.1 h3
        obtain ⟨bs, hx⟩ : ∃ bs, Ext (lcOf p1 id) (lcOf q id) bs :=
          parseLoops_at id (Q := fun m => ∃ bs, Ext (lcOf p1 id) m bs)
            (fun f b m ⟨bs, hx⟩ hfit => ⟨bs ++ [b], hx.grow hl f b ((hfit hl).imp_right fun h => h.1)⟩)
            _ _ _ _ _ h4 ⟨[], rfl, by simp, fun _ => rfl, fun h => absurd rfl h, fun h => absurd rfl h⟩
        obtain ⟨_, hp2⟩ := M.bind_eq_ok.1 h3
        have he := processCands_ends cfg v1 (Spec.cands cfg vs fs) p1
        rw [h2 hc] at he
        obtain ⟨q', hq', hs', _⟩ := he
        obtain ⟨rfl, t⟩ := parseLoops_ok h4
        have h6 : lcOf q id = lcOf q' id := by
          rw [t.lcOf, hq'.lcOf]
        have h7 : Sel (lcOf q' id) (lcOf p2 id) :=
          Table.lcOf_rel (R := Sel) (Sel.refl _) hs'.lcs id
        exact (h0.ext hx).sel (h6 ▸ h7)

/-- What is selected of a pair depends only on its closures and their agreements. -/
theorem chosen_eq {m m' : Meas G N} (h : Chosen m) (h' : Chosen m') (hf : m'.factors = m.factors)
    (ha : 2 ≤ m.factors.length → m'.adj.n = m.adj.n ∧ m.adj.n = m.factors.length ∧
      ∀ i j, i < m.factors.length → j < m.factors.length → m'.adj.e i j = m.adj.e i j) : m'.cons = m.cons := by
  by_cases h2 : 2 ≤ m.factors.length
  · obtain ⟨k, idx, _, e, _, hp⟩ := h.many h2
    obtain ⟨k', idx', _, e', _, hp'⟩ := h'.many (by rw [hf]; exact h2)
    obtain ⟨a, b, c⟩ := ha h2
    rw [findMaxCliqueHeu_congr a (fun i j hi hj => c i j (by omega) (by omega)), e] at e'
    injection e' with e'
    injection e' with e1 e2
    have : k = k' := by simpa using e1
    subst this; subst e2
    rw [hp.cons, hp'.cons, hf]
  · rw [h.few (by omega), h'.few (by rw [hf]; omega), hf]

/-- What is selected depends only on the measurements and their matrix. -/
theorem chosen_adj {m m' : Meas G N} (h : Chosen m) (h' : Chosen m') (hf : m'.factors = m.factors) (ha : m'.adj = m.adj) :
    m' = m := by
  have hc : m'.cons = m.cons := by
    by_cases h2 : 2 ≤ m.factors.length
    · obtain ⟨k, idx, _, e, _, hp⟩ := h.many h2
      obtain ⟨k', idx', _, e', _, hp'⟩ := h'.many (by rw [hf]; exact h2)
      rw [ha, e] at e'
      injection e' with e'
      injection e' with e1 e2
      have : k = k' := by simpa using e1
      subst this; subst e2
      rw [hp.cons, hp'.cons, hf]
    · rw [h.few (by omega), h'.few (by rw [hf]; omega), hf]
  cases m; cases m'
  simp only at hf ha hc
  rw [hf, ha, hc]

/-! ### Landmarks -/

omit [Mul G] [Inv G] [One G] in
theorem measInliers_table {l l' : List (Key × Meas G N)}
    (h : Table (fun m m' => measInliers m = .ok m' m'.cons.length) l l') : ∀ e ∈ l', Chosen e.2 := by
  unfold Table at h
  induction h with
  | nil => intro e he; cases he
  | cons a _ ih =>
    intro e he
    rcases List.mem_cons.1 he with rfl | he
    · exact measInliers_chosen a.2
    · exact ih e he

omit [Mul G] [Inv G] [One G] in
theorem fileFirst_chosen (cfg : Cfg G T N) (bs : List (Btw G N)) (l : List (Key × Meas G N)) (h : ∀ e ∈ l, Chosen e.2) :
    ∀ e ∈ bs.foldl (fileFirst cfg) l, Chosen e.2 := by
  induction bs generalizing l with
  | nil => exact h
  | cons b bs ih =>
    rw [List.foldl_cons]
    refine ih _ fun e he => ?_
    have hb : Chosen (⟨[b], [b], Mat.zero 1⟩ : Meas G N) := ⟨fun _ => rfl, fun h => by simp at h⟩
    rcases AList.mem_upd he with he | ⟨rfl, _⟩ | ⟨v, _, _, h2, _⟩
    · exact h e he
    · exact hb
    · rw [h2]; exact hb

/-- What one call with a batch does to the landmarks: first observations are filed, observations are registered, and if
there were candidates the selection is made anew. -/
theorem exec_landmarks {cfg : Cfg G T N} {env : Env G N} (hr : cfg.rejection = true) {op : Op G N}
    {s s' : St G T N} {x : Ret} (e : exec cfg env op s = .ok s' x) {fs : Graph G N} {vs : Vals G}
    (hb : Spec.batch op = some (fs, vs)) :
    ∃ l, l = (Spec.firsts cfg vs fs).foldl (fileFirst cfg) s.pcm.landmarks ∧
      ((Spec.cands cfg vs fs = [] ∧ s'.pcm.landmarks = l) ∨
       ∃ (q : Pcm G T N) (p1 : Pcm G T N) (v1 : Vals G), p1.landmarks = l ∧
        q.landmarks = ((Spec.cands cfg vs fs).foldl (parseStep cfg v1 (lk cfg p1)) p1).landmarks ∧
        Table (fun m m' => measInliers m = .ok m' m'.cons.length) q.landmarks s'.pcm.landmarks) := by
  refine ⟨_, rfl, ?_⟩
  cases (exec_batch env hr hb s).1 s' x e with
  | empty hn _ hf =>
    left
    subst hn
    rw [hf.pcm]
    exact ⟨rfl, rfl⟩
  | full hne hi1 hS h1 h2 ha hf =>
    rename_i v1 p1 p2 s1
    have hp : s'.pcm.landmarks = p2.landmarks := by rw [hf.pcm, ha.eq]
    rw [hp, ← hS.landmarks]
    by_cases hc : Spec.cands cfg vs fs = []
    · exact Or.inl ⟨hc, by rw [h1 hc]⟩
    · right
      have h3 := h2 hc
      unfold processCands at h3
      simp only [M.bind_eq] at h3
      obtain ⟨q, num, h4, h5⟩ := M.bind_eq_ok.1 h3
      obtain ⟨rfl, t⟩ := parseLoops_ok h4
      refine ⟨q, p1, v1, rfl, by rw [t.eq], ?_⟩
      unfold M.cond at h5
      split at h5
      · exact (findInliersIncremental_ok (bumps_registered t) h5).2.2.1
      · exact (findInliers_ok h5).2.2.1

/-- After calls that returned normally, the selection among the observations of each landmark is that of the search. -/
theorem ReachOk.landChosen {cfg : Cfg G T N} {env : Env G N} (hr : cfg.rejection = true) {h : List (Op G N)}
    {s : St G T N} (r : ReachOk cfg env h s) : ∀ e ∈ s.pcm.landmarks, Chosen e.2 := by
  induction r with
  | init => intro e he; cases he
  | @step h s op s' x r e ih =>
    cases hb : Spec.batch op with
    | none =>
      rw [((exec_other cfg env hr op hb s).of_ok e).pcm.landmarks]; exact ih
    | some y =>
      obtain ⟨fs, vs⟩ := y
      obtain ⟨l, hl, ⟨_, h1⟩ | ⟨q, p1, v1, _, _, ht⟩⟩ := exec_landmarks hr e hb
      · rw [h1, hl]; exact fileFirst_chosen cfg _ _ ih
      · exact measInliers_table ht

/-- A call whose candidates observe no landmark, and that has no first observation, leaves all landmarks as they are. -/
theorem exec_landmarks_same {cfg : Cfg G T N} {env : Env G N} (hr : cfg.rejection = true) {h : List (Op G N)} {op : Op G N}
    {s s' : St G T N} {x : Ret} (r : ReachOk cfg env h s) (e : exec cfg env op s = .ok s' x)
    (hn : ∀ b ∈ Spec.opBtws op, Spec.isLandmark cfg b = false) : s'.pcm.landmarks = s.pcm.landmarks := by
  cases hb : Spec.batch op with
  | none => exact ((exec_other cfg env hr op hb s).of_ok e).pcm.landmarks
  | some y =>
    obtain ⟨fs, vs⟩ := y
    have hn' : ∀ b ∈ Spec.btws fs, Spec.isLandmark cfg b = false := by
      intro b hb'; apply hn; unfold Spec.opBtws; rw [hb]; exact hb'
    have hf : Spec.firsts cfg vs fs = [] := by
      unfold Spec.firsts
      rw [List.filter_eq_nil_iff]
      intro b hb'
      unfold Spec.isFirstObs
      rw [hn' b hb']
      simp
    obtain ⟨l, hl, ⟨_, h1⟩ | ⟨q, p1, v1, hp1, hq, ht⟩⟩ := exec_landmarks hr e hb
    · rw [h1, hl, hf]; rfl
    · rw [hf] at hl
      have hfold : ∀ (bs : List (Btw G N)) (p : Pcm G T N), (∀ b ∈ bs, Spec.isLandmark cfg b = false) →
          (bs.foldl (parseStep cfg v1 (lk cfg p1)) p).landmarks = p.landmarks := by
        intro bs
        induction bs with
        | nil => intro p _; rfl
        | cons b bs ih =>
          intro p hb
          rw [List.foldl_cons, ih _ fun x hx => hb x (by simp [hx])]
          unfold parseStep
          split
          · rfl
          · rw [if_neg]
            unfold acceptLm
            rw [hb b (by simp)]
            simp
      have hq2 : q.landmarks = s.pcm.landmarks := by
        rw [hq, hfold (Spec.cands cfg vs fs) _ fun b hb' => hn' b (List.mem_filter.1 hb').1, hp1, hl]; rfl
      rw [hq2] at ht
      have hall := r.landChosen hr
      generalize s.pcm.landmarks = l0 at ht hall
      generalize s'.pcm.landmarks = l1 at ht
      unfold Table at ht
      clear hq2 hq
      induction ht with
      | nil => rfl
      | @cons a b l0 l1 ha _ ih =>
        have hsel := measInliers_sel a.2
        rw [ha.2] at hsel
        have h1 : b.2 = a.2 := chosen_adj (hall a (by simp)) (measInliers_chosen ha.2) hsel.factors hsel.adj
        rw [ih fun e he => hall e (by simp [he])]
        congr 1
        exact Prod.ext ha.1 h1

/-! ### The table of closures -/

/-- Entries of the table of closures keep their place. -/
theorem exec_keys {cfg : Cfg G T N} {env : Env G N} (hr : cfg.rejection = true) {op : Op G N}
    {s s' : St G T N} {x : Ret} (e : exec cfg env op s = .ok s' x) :
    s.pcm.lcs.map (·.1) <+: s'.pcm.lcs.map (·.1) := by
  have upd : ∀ (l : List (ObsId × Meas G N)) k f, l.map (·.1) <+: (AList.upd ObsId.eqv Meas.empty l k f).map (·.1) := by
    intro l k f
    rcases AList.upd_keys (eq := ObsId.eqv) (d := Meas.empty) (l := l) (k := k) (f := f) with ⟨_, e⟩ | ⟨_, e⟩
    · rw [e]
    · rw [e]; exact List.prefix_append _ _
  cases hb : Spec.batch op with
  | none =>
    have ho := ((exec_other cfg env hr op hb s).of_ok e).pcm
    generalize s.pcm = p at ho ⊢
    generalize s'.pcm = p' at ho ⊢
    cases ho with
    | same => exact List.prefix_refl _
    | priors => exact List.prefix_refl _
    | ignore => split <;> exact List.prefix_refl _
    | revive => exact List.prefix_refl _
    | pair hm hr => exact upd _ _ _
    | pop _ => exact List.prefix_refl _
    | last _ hm hr => exact upd _ _ _
  | some y =>
    obtain ⟨fs, vs⟩ := y
    cases (exec_batch env hr hb s).1 s' x e with
    | empty _ _ hf => rw [hf.pcm]
    | full hne hi1 hS h1 h2 ha hf =>
      rename_i v1 p1 p2 s1
      have hp : s'.pcm.lcs = p2.lcs := by rw [hf.pcm, ha.eq]
      rw [hp, ← hS.lcs]
      by_cases hc : Spec.cands cfg vs fs = []
      · rw [h1 hc]
      · have he := processCands_ends cfg v1 (Spec.cands cfg vs fs) p1
        rw [h2 hc] at he
        obtain ⟨q', hq', hs', _⟩ := he
        rw [Table.keys hs'.lcs, hq'.eq]
        refine parseFold_induct (Inv := fun p : Pcm G T N => List.IsPrefix (List.map (fun e => e.1) p1.lcs) (List.map (fun e => e.1) p.lcs)) (Spec.cands cfg vs fs)
          ?_ ?_ ?_
        · exact List.prefix_refl _
        · exact fun p hp b _ _ => hp.trans (upd _ _ _)
        · exact fun p hp b _ _ => hp

end
end RPGO
