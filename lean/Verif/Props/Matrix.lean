import Verif.Proofs.Register
import Verif.Props.Checks
import Verif.Props.Graph
/-
C22 the matrix kept for a robot pair; C27 adding closures after removals; C45 pairwise check disabled; C07 over
call histories.
-/

namespace RPGO.Spec
variable {G T N : Type}

/-- The consistency matrix kept for the pair of robots `id`. -/
def matrix (s : St G T N) (id : ObsId) : Mat := (lcOf s.pcm id).adj

/-- The closures of the pair `id` currently selected as inliers. -/
def selected (s : St G T N) (id : ObsId) : List (Btw G N) := (lcOf s.pcm id).cons

end RPGO.Spec

namespace RPGO
variable {G T N : Type} [Mul G] [Inv G] [One G]

theorem Steps.snoc' {cfg : Cfg G T N} {env : Env G N} {s s1 s2 : St G T N} {h : List (Op G N)} {op : Op G N}
    (h1 : Spec.Steps cfg env s h s1) (h2 : Spec.Call cfg env op s1 s2) : Spec.Steps cfg env s (h ++ [op]) s2 := .snoc h1 h2

/-- Where an entry of the matrix comes from. -/
def Origin (cfg : Cfg G T N) (env : Env G N) (h : List (Op G N)) (s : St G T N) (id : ObsId) (i j : Nat)
    (x y : Btw G N) (v : Bool) : Prop :=
  ∃ h1 op h2 s1 s2, h = h1 ++ op :: h2 ∧ Reach cfg env h1 s1 ∧ Spec.Call cfg env op s1 s2 ∧ Spec.Steps cfg env s2 h2 s ∧
    (Spec.registered s1 id).length ≤ j ∧ (Spec.registered s2 id)[i]? = some x ∧ (Spec.registered s2 id)[j]? = some y ∧
    v = loopVerdict cfg (lk cfg s2.pcm) x y

theorem prefix_get {α : Type} {l l' : List α} (h : l <+: l') {i : Nat} (hi : i < l.length) : l[i]? = l'[i]? := by
  obtain ⟨t, rfl⟩ := h
  rw [List.getElem?_append_left hi]

theorem Reach.origin {cfg : Cfg G T N} {env : Env G N} (hr : cfg.rejection = true) (hl : cfg.loopCheck = true)
    {h : List (Op G N)} (hn : ∀ op ∈ h, ¬ Spec.Removes op) {s : St G T N} (r : Reach cfg env h s) (id : ObsId)
    (i j : Nat) (x y : Btw G N) (hij : i < j) (hx : (Spec.registered s id)[i]? = some x)
    (hy : (Spec.registered s id)[j]? = some y) : Origin cfg env h s id i j x y ((Spec.matrix s id).e i j) := by
  have step : ∀ (h : List (Op G N)) (s : St G T N) (op : Op G N) (s' : St G T N), ¬ Spec.Removes op →
      Reach cfg env h s → Spec.Call cfg env op s s' → (∀ o ∈ h, ¬ Spec.Removes o) → PcmStep cfg op s s'.pcm →
      (∀ i j x y, i < j → (Spec.registered s id)[i]? = some x → (Spec.registered s id)[j]? = some y →
        Origin cfg env h s id i j x y ((Spec.matrix s id).e i j)) →
      ∀ i j x y, i < j → (Spec.registered s' id)[i]? = some x → (Spec.registered s' id)[j]? = some y →
        Origin cfg env (h ++ [op]) s' id i j x y ((Spec.matrix s' id).e i j) := by
    intro h s op s' ho r c hn st ih i j x y hij hx hy
    obtain ⟨a, _, b, d⟩ := st.grown hl ho id (r.tight hr hl hn id)
    rcases Nat.lt_or_ge j (Spec.registered s id).length with hj | hj
    · have a : Spec.registered s id <+: Spec.registered s' id := a
      rw [← prefix_get a (hij.trans hj)] at hx
      rw [← prefix_get a hj] at hy
      obtain ⟨h1, op1, h2, s1, s2, e1, r1, c1, st1, l1, x1, y1, v1⟩ := ih i j x y hij hx hy
      refine ⟨h1, op1, h2 ++ [op], s1, s2, by rw [e1]; simp, r1, c1, st1.snoc c, l1, x1, y1, ?_⟩
      rw [← v1]
      exact b i j (hij.trans hj) hj
    · exact ⟨h, op, [], s, s', rfl, r, c, .nil, hj, hx, hy, d i j x y hij hj hx hy⟩
  induction r generalizing i j x y with
  | init => simp [Spec.registered, lcOf, St.init, AList.get?, Meas.empty] at hx
  | @ok h s op s' _ r e ih =>
    have st := exec_step (env := env) hr op s
    rw [e] at st
    exact step h s op s' (hn op (by simp)) r (Or.inl ⟨_, e⟩) (fun o ho => hn o (by simp [ho])) st
      (ih (fun o ho => hn o (by simp [ho]))) i j x y hij hx hy
  | @throw h s op s' _ r e ih =>
    have st := exec_step (env := env) hr op s
    rw [e] at st
    exact step h s op s' (hn op (by simp)) r (Or.inr ⟨_, e⟩) (fun o ho => hn o (by simp [ho])) st
      (ih (fun o ho => hn o (by simp [ho]))) i j x y hij hx hy

/-! ### Pairwise check disabled -/

theorem Reach.one {cfg : Cfg G T N} {env : Env G N} (hr : cfg.rejection = true) (hl : cfg.loopCheck = false)
    {h : List (Op G N)} {s : St G T N} (r : Reach cfg env h s) (id : ObsId) : (lcOf s.pcm id).adj.n = 1 := by
  refine Reach.meas (Q := fun m => m.adj.n = 1) hr rfl ?_ ?_ ?_ r id
  · intro f b m hm _; simpa [growLc, hl] using hm
  · intro m m' h hm; rw [h.adj]; exact hm
  · intro _ m m' h hm
    cases h with
    | same => exact hm
    | few => exact hm
    | many _ _ _ _ h2 => omega

/-- With the pairwise check off every closure is selected. -/
theorem ReachOk.allSelected {cfg : Cfg G T N} {env : Env G N} (hr : cfg.rejection = true) (hl : cfg.loopCheck = false)
    (hi : cfg.incremental = false) {h : List (Op G N)} {s : St G T N} (r : ReachOk cfg env h s) (id : ObsId) :
    (lcOf s.pcm id).cons = (lcOf s.pcm id).factors := by
  induction r generalizing id with
  | init => rfl
  | @step h s op s' x r e ih =>
    cases hb : Spec.batch op with
    | none =>
      have ho := (exec_other cfg env hr op hb s).of_ok e
      rcases ho.pcm.meas id with e1 | ⟨_, hm⟩
      · rw [e1]; exact ih id
      · have h1 := r.reach.one hr hl id
        have h2 := ih id
        generalize lcOf s'.pcm id = m' at hm
        cases hm with
        | same => exact h2
        | few => rfl
        | many _ _ _ _ h2 => omega
    | some y =>
      obtain ⟨fs, vs⟩ := y
      have hd := (exec_batch env hr hb s).1 s' x e
      cases hd with
      | empty _ _ hf => rw [hf.pcm]; exact ih id
      | full hne hi1 hS h1 h2 ha hf =>
        rename_i v1 p1 p2 s1
        have hp : s'.pcm = { p2 with robotOrder := s1.pcm.robotOrder } := by rw [hf.pcm, ha.eq]
        have hlc : lcOf s'.pcm id = lcOf p2 id := by rw [hp]; rfl
        rw [hlc]
        by_cases hc : Spec.cands cfg vs fs = []
        · rw [h1 hc, lcOf_lcs hS.lcs]; exact ih id
        · have h3 := h2 hc
          unfold processCands at h3
          simp only [M.bind_eq] at h3
          obtain ⟨q, num, _, h5⟩ := M.bind_eq_ok.1 h3
          unfold M.cond at h5
          rw [hi] at h5
          simp only [Bool.false_eq_true, if_false] at h5
          obtain ⟨_, ht, _⟩ := findInliers_ok h5
          refine Table.lcOf_rel (R := fun _ m' => m'.cons = m'.factors) rfl (ht.mono ?_) id
          intro m m' hm
          unfold lcInliers at hm
          rw [hl] at hm
          cases hm
          rfl

theorem sublist_flatMap {α β : Type} {f : α → List β} {l : List α} {a : α} (h : a ∈ l) : (f a).Sublist (l.flatMap f) := by
  induction l with
  | nil => cases h
  | cons x l ih =>
    rw [List.flatMap_cons]
    rcases List.mem_cons.1 h with rfl | h
    · exact List.sublist_append_left _ _
    · exact (ih h).trans (List.sublist_append_right _ _)

/-- The selected closures of a pair that is not ignored are in the graph. -/
theorem selected_sublist {env : Env G N} (he : env.Ok) (p : Pcm G T N) (id : ObsId) (h1 : id.id1 ∉ p.ignored)
    (h2 : id.id2 ∉ p.ignored) : ((lcOf p id).cons.map Spec.elem).Sublist (buildGraph env p) := by
  unfold lcOf
  cases hg : AList.get? ObsId.eqv p.lcs id with
  | none => exact List.nil_sublist _
  | some m =>
    obtain ⟨k, hk, hm⟩ := AList.get?_mem hg
    have hm' := (he.lc p.lcs).mem_iff.2 hm
    have hk1 : k.id1 ∉ p.ignored ∧ k.id2 ∉ p.ignored := by
      rcases (ObsId.eqv_iff _ _).1 hk with ⟨a, b⟩ | ⟨a, b⟩ <;> rw [a, b] <;> exact ⟨by assumption, by assumption⟩
    have := sublist_flatMap (f := fun e : ObsId × Meas G N =>
      if !p.ignored.contains e.1.id1 && !p.ignored.contains e.1.id2 then
        e.2.cons.map (fun b => (some (.btw b) : Option (Factor G N))) else []) hm'
    simp only [List.contains_eq_mem, hk1.1, hk1.2, decide_false, Bool.not_false, Bool.and_self, if_true] at this
    unfold buildGraph
    refine List.Sublist.trans ?_ (List.sublist_append_left _ _)
    refine List.Sublist.trans ?_ (List.sublist_append_right _ _)
    simp only [List.contains_eq_mem]
    exact this

/-! ### Incremental selection -/

theorem growLc_fold_cons (cfg : Cfg G T N) (f : Chr → Key → T) (bs : List (Btw G N)) (m : Meas G N) :
    (bs.foldl (fun m b => growLc cfg f b m) m).cons = m.cons := by
  induction bs generalizing m with
  | nil => rfl
  | cons b bs ih => rw [List.foldl_cons, ih]; rfl

/-- In incremental mode a call that removes nothing keeps at least as many closures of a pair. -/
theorem exec_selected {cfg : Cfg G T N} {env : Env G N} (hr : cfg.rejection = true) (hi : cfg.incremental = true)
    {op : Op G N} (ho : ¬ Spec.Removes op) {s s' : St G T N} {x : Ret} (e : exec cfg env op s = .ok s' x) (id : ObsId) :
    (lcOf s.pcm id).cons.length ≤ (lcOf s'.pcm id).cons.length := by
  cases hb : Spec.batch op with
  | none =>
    have hf := (exec_other cfg env hr op hb s).of_ok e
    rcases hf.pcm.meas id with e1 | ⟨h, _⟩
    · rw [e1]
    · exact absurd h ho
  | some y =>
    obtain ⟨fs, vs⟩ := y
    have hd := (exec_batch env hr hb s).1 s' x e
    cases hd with
    | empty _ _ hf => rw [hf.pcm]
    | full hne hi1 hS h1 h2 ha hf =>
      rename_i v1 p1 p2 s1
      have hp : s'.pcm = { p2 with robotOrder := s1.pcm.robotOrder } := by rw [hf.pcm, ha.eq]
      have hlc : lcOf s'.pcm id = lcOf p2 id := by rw [hp]; rfl
      rw [hlc, ← lcOf_lcs hS.lcs]
      by_cases hc : Spec.cands cfg vs fs = []
      · rw [h1 hc]
      · have h3 := h2 hc
        unfold processCands at h3
        simp only [M.bind_eq] at h3
        obtain ⟨q, num, h4, h5⟩ := M.bind_eq_ok.1 h3
        obtain ⟨rfl, t⟩ := parseLoops_ok h4
        unfold M.cond at h5
        rw [hi] at h5
        simp only [if_true] at h5
        obtain ⟨_, ht, _⟩ := findInliersIncremental_ok (bumps_registered t) h5
        have h6 := Table.lcOf_rel (R := fun m m' => m.cons.length ≤ m'.cons.length) (Nat.le_refl _)
          (ht.mono fun m m' h => h.2) id
        rw [t.lcOf, parseFold_lcOf, growLc_fold_cons] at h6
        exact h6

end RPGO

namespace RPGO.Props
open RPGO
variable {G T N : Type} [Mul G] [Inv G] [One G]

/-- C22: as long as no closure is removed, the matrix of a robot pair that has closures has one row per closure, is
symmetric with zero diagonal, and its entry `(i, j)` with `i < j` is the verdict of the pairwise check of closure
`i` against closure `j` in the state after the call that registered closure `j`. Calls that threw are included. -/
theorem C22_matrix {cfg : Cfg G T N} {env : Env G N} (hr : cfg.rejection = true) (hl : cfg.loopCheck = true)
    {h : List (Op G N)} (hn : ∀ op ∈ h, ¬ Spec.Removes op) {s : St G T N} (r : Reach cfg env h s) (id : ObsId)
    (hne : Spec.registered s id ≠ []) :
    (Spec.matrix s id).n = (Spec.registered s id).length ∧
    (∀ i j, i < (Spec.registered s id).length → j < (Spec.registered s id).length →
      (Spec.matrix s id).e i j = (Spec.matrix s id).e j i) ∧
    (∀ i, i < (Spec.registered s id).length → (Spec.matrix s id).e i i = false) ∧
    ∀ i j x y, i < j → (Spec.registered s id)[i]? = some x → (Spec.registered s id)[j]? = some y →
      ∃ h1 op h2 s1 s2, h = h1 ++ op :: h2 ∧ Reach cfg env h1 s1 ∧ Spec.Call cfg env op s1 s2 ∧
        Spec.Steps cfg env s2 h2 s ∧ (Spec.registered s1 id).length ≤ j ∧ (Spec.registered s2 id)[i]? = some x ∧
        (Spec.registered s2 id)[j]? = some y ∧ Spec.PairCheck cfg s2 x y ((Spec.matrix s id).e i j) := by
  have hs := r.shape hr hl id
  refine ⟨?_, hs.sym, hs.diag, ?_⟩
  · rcases r.tight hr hl hn id with h0 | h0
    · exact absurd h0 hne
    · exact h0
  · intro i j x y hij hx hy
    obtain ⟨h1, op, h2, s1, s2, a, b, c, d, e, f, g, v⟩ := r.origin hr hl hn id i j x y hij hx hy
    refine ⟨h1, op, h2, s1, s2, a, b, c, d, e, f, g, ?_⟩
    rw [v]
    obtain ⟨hi, rfl⟩ := List.getElem?_eq_some_iff.1 hx
    obtain ⟨hj, rfl⟩ := List.getElem?_eq_some_iff.1 hy
    have h2 : 2 ≤ (lcOf s.pcm id).factors.length := by
      have : j < (lcOf s.pcm id).factors.length := hj
      omega
    exact pairCheck_of (hs.noise h2 _ (List.getElem_mem _)) (hs.noise h2 _ (List.getElem_mem _))

set_option maxRecDepth 100000 in
/-- The hypotheses of `C22_matrix` are met by a pair with three closures, two of which contradict each other. -/
example : ∃ s, ReachOk Demo.cfg Demo.env (Demo.h1 ++ [.update [Demo.edge (Demo.a 1) (Demo.a 3) 3] [] true]) s ∧
    (Spec.registered s ⟨97, 97⟩).length = 3 ∧ (Spec.matrix s ⟨97, 97⟩).e 0 1 = true ∧
    (Spec.matrix s ⟨97, 97⟩).e 0 2 = true := by
  obtain ⟨s, r, h⟩ := Demo.runs_reach (cfg := Demo.cfg) (env := Demo.env)
    (ops := Demo.h1 ++ [.update [Demo.edge (Demo.a 1) (Demo.a 3) 3] [] true])
    (P := fun s => decide ((Spec.registered s ⟨97, 97⟩).length = 3 ∧ (Spec.matrix s ⟨97, 97⟩).e 0 1 = true ∧
      (Spec.matrix s ⟨97, 97⟩).e 0 2 = true)) (by decide +kernel)
  exact ⟨s, r, of_decide_eq_true h⟩

/-- C45, without incremental selection: with the pairwise check disabled, all registered closures of a pair none of
whose prefixes is ignored are in the graph, in order. Removals are included. -/
theorem C45_keeps_all_partial {cfg : Cfg G T N} {env : Env G N} (he : env.Ok) (hr : cfg.rejection = true)
    (hl : cfg.loopCheck = false) (hi : cfg.incremental = false) {h : List (Op G N)} {s : St G T N}
    (r : ReachOk cfg env h s) (hm : ∀ op ∈ h, Spec.Managed op) (id : ObsId) (h1 : id.id1 ∉ getIgnored cfg s)
    (h2 : id.id2 ∉ getIgnored cfg s) :
    Spec.selected s id = Spec.registered s id ∧ ((Spec.registered s id).map Spec.elem).Sublist s.nfg := by
  have h3 := r.allSelected hr hl hi id
  refine ⟨h3, ?_⟩
  unfold Spec.registered
  rw [← h3, (r.lists he hr hm).1]
  unfold getIgnored at h1 h2
  rw [if_pos hr] at h1 h2
  exact selected_sublist he s.pcm id h1 h2

/-- A negative pairwise threshold is what disables the check. -/
theorem C45_negative {K C : Type} [Field K] [LinearOrder K] (p : Params K) (tn rn : G → K) (signed : Bool)
    (h : p.lcThr < 0 ∨ p.distT < 0 ∨ p.distR < 0) : (p.cfgSimple C tn rn signed).loopCheck = false := by
  show p.loopCheck = false
  unfold Params.loopCheck
  rcases h with h | h | h <;> simp [h]

/-- Two closures that contradict each other. -/
def contradict : List (Op Demo.Z Demo.Ns) :=
  Demo.h1.take 3 ++ [.update [Demo.edge (Demo.a 0) (Demo.a 2) 2, Demo.edge (Demo.a 0) (Demo.a 3) 50] [] true]

/-- The demo solver with both checks disabled, with or without incremental selection. -/
def unchecked (incremental : Bool) : Cfg Demo.Z Demo.Tp Demo.Ns :=
  Demo.mk { (Params.default.apply (.simple3D' (-1) (-1) (-1) (-1) .quiet)) with incremental := incremental }

set_option maxRecDepth 100000 in
/-- C45 is false with incremental selection: two closures are registered with the pairwise check disabled, and only
one of them is in the graph. -/
theorem C45_false_incremental : ∃ s, ReachOk (unchecked true) Demo.env contradict s ∧
    (unchecked true).loopCheck = false ∧ Spec.NumLC (unchecked true) Demo.env s 2 ∧
    Spec.elem (Demo.btw (Demo.a 0) (Demo.a 2) 2) ∉ s.nfg := by
  obtain ⟨s, r, h⟩ := Demo.runs_reach (cfg := unchecked true) (env := Demo.env) (ops := contradict)
    (P := fun s => decide ((unchecked true).loopCheck = false ∧ s.pcm.totalLc = 2 ∧
      Spec.elem (Demo.btw (Demo.a 0) (Demo.a 2) 2) ∉ s.nfg)) (by decide +kernel)
  obtain ⟨h1, h2, h3⟩ := of_decide_eq_true h
  exact ⟨s, r, h1, (numLC_iff (by decide)).2 h2.symm, h3⟩

set_option maxRecDepth 100000 in
/-- The hypotheses of `C45_keeps_all_partial` are met with two closures that contradict each other. -/
example : (unchecked false).loopCheck = false ∧ (unchecked false).incremental = false ∧
    ∃ s, ReachOk (unchecked false) Demo.env contradict s ∧ (Spec.registered s ⟨97, 97⟩).length = 2 ∧
      (97 : Chr) ∉ getIgnored (unchecked false) s := by
  refine ⟨by decide +kernel, by decide +kernel, ?_⟩
  obtain ⟨s, r, h⟩ := Demo.runs_reach (cfg := unchecked false) (env := Demo.env) (ops := contradict)
    (P := fun s => decide ((Spec.registered s ⟨97, 97⟩).length = 2 ∧ (97 : Chr) ∉ getIgnored (unchecked false) s))
    (by decide +kernel)
  exact ⟨s, r, of_decide_eq_true h⟩

/-- C07 over call histories: in incremental mode, a call that removes no closure and returns normally leaves at least
as many closures of every pair selected as before. -/
theorem C07_history_monotone {cfg : Cfg G T N} {env : Env G N} (hr : cfg.rejection = true) (hi : cfg.incremental = true)
    {op : Op G N} (ho : ¬ Spec.Removes op) {s s' : St G T N} {x : Ret} (e : exec cfg env op s = .ok s' x) (id : ObsId) :
    (Spec.selected s id).length ≤ (Spec.selected s' id).length := exec_selected hr hi ho e id

/-- The demo solver with incremental selection. -/
def incrementally : Cfg Demo.Z Demo.Tp Demo.Ns := Demo.mk { Demo.params with incremental := true }

set_option maxRecDepth 100000 in
/-- The hypotheses of `C07_history_monotone` are met by a call that raises the number of selected closures to two. -/
example : incrementally.rejection = true ∧ incrementally.incremental = true ∧
    ∃ s, ReachOk incrementally Demo.env Demo.h1 s ∧ (Spec.selected s ⟨97, 97⟩).length = 2 := by
  refine ⟨rfl, rfl, ?_⟩
  obtain ⟨s, r, h⟩ := Demo.runs_reach (cfg := incrementally) (env := Demo.env) (ops := Demo.h1)
    (P := fun s => decide ((Spec.selected s ⟨97, 97⟩).length = 2)) (by decide +kernel)
  exact ⟨s, r, of_decide_eq_true h⟩

end RPGO.Props
