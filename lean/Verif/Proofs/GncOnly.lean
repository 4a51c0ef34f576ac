import Verif.Proofs.OptSafe
/-
A solver whose pairwise check is disabled keeps every closure in the graph; weights of closures stay in place.
-/

namespace RPGO
variable {G T N : Type}

/-- Every registered closure is selected and counted once; there are no landmarks and no ignored prefixes. -/
structure Whole (p : Pcm G T N) : Prop where
  landmarks : p.landmarks = []
  ignored : p.ignored = []
  all : ∀ e ∈ p.lcs, e.2.cons = e.2.factors
  count : wt (fun m => m.factors.length) p.lcs = p.totalLc

theorem wt_upd_succ {κ : Type} {eq : κ → κ → Bool} {f : Meas G N → Nat} {l : List (κ × Meas G N)} {k : κ}
    {g : Meas G N → Meas G N} (h0 : f (g Meas.empty) = 1) (h1 : ∀ m, f (g m) = f m + 1) :
    wt f (AList.upd eq Meas.empty l k g) = wt f l + 1 := by
  induction l with
  | nil => simpa [AList.upd, wt] using h0
  | cons e t ih =>
    obtain ⟨k0, m⟩ := e
    unfold AList.upd
    split
    · rw [wt_cons, wt_cons]; have := h1 m; simp only; omega
    · rw [wt_cons, wt_cons]; simp only; omega

theorem wt_table_eq {κ : Type} {f : Meas G N → Nat} {R : Meas G N → Meas G N → Prop} (h : ∀ m m', R m m' → f m' = f m)
    {l l' : List (κ × Meas G N)} (ht : Table R l l') : wt f l' = wt f l := by
  unfold Table at ht
  induction ht with
  | nil => rfl
  | cons he _ ih => rw [wt_cons, wt_cons, h _ _ he.2, ih]

theorem isLandmark_nil {cfg : Cfg G T N} (hs : cfg.special = []) (b : Btw G N) : Spec.isLandmark cfg b = false := by
  unfold Spec.isLandmark; rw [hs]; simp

theorem firsts_nil {cfg : Cfg G T N} (hs : cfg.special = []) (vs : Vals G) (fs : Graph G N) : Spec.firsts cfg vs fs = [] := by
  unfold Spec.firsts
  rw [List.filter_eq_nil_iff]
  intro b _
  unfold Spec.isFirstObs
  simp [isLandmark_nil hs]

/-- Registration without landmarks. -/
theorem parseFold_whole {cfg : Cfg G T N} (hs : cfg.special = []) (vals : Vals G) (f : Chr → Key → T)
    (bs : List (Btw G N)) (p : Pcm G T N) (hw : wt (fun m => m.factors.length) p.lcs = p.totalLc) (hlm : p.landmarks = []) :
    let p' := bs.foldl (parseStep cfg vals f) p
    p'.landmarks = [] ∧ wt (fun m => m.factors.length) p'.lcs = p'.totalLc ∧ p.totalLc ≤ p'.totalLc ∧
      (p'.totalLc = p.totalLc → p'.lcs = p.lcs) := by
  induction bs generalizing p with
  | nil => exact ⟨hlm, hw, Nat.le_refl _, fun _ => rfl⟩
  | cons b bs ih =>
    rw [List.foldl_cons]
    have hno : acceptLm cfg vals b = false := by unfold acceptLm; rw [isLandmark_nil hs]; simp
    by_cases ha : acceptLc cfg vals f b = true
    · have hp : parseStep cfg vals f p b = regLc cfg f p b := by unfold parseStep; rw [if_pos ha]
      rw [hp]
      obtain ⟨h1, h2, h3, h4⟩ := ih (regLc cfg f p b)
        (by
          show wt _ (AList.upd ObsId.eqv Meas.empty p.lcs (pairOf b) (growLc cfg f b)) = p.totalLc + 1
          rw [wt_upd_succ (by simp [growLc, Meas.empty]) (by intro m; simp [growLc]), hw]) hlm
      have e : (regLc cfg f p b).totalLc = p.totalLc + 1 := rfl
      rw [e] at h3
      exact ⟨h1, h2, by omega, fun h => by omega⟩
    · have hp : parseStep cfg vals f p b = p := by unfold parseStep; rw [if_neg ha, if_neg (by simp [hno])]
      rw [hp]
      exact ih p hw hlm

theorem Table.mem {κ : Type} {R : Meas G N → Meas G N → Prop} {l l' : List (κ × Meas G N)} (h : Table R l l')
    {e' : κ × Meas G N} (he : e' ∈ l') : ∃ e ∈ l, e'.1 = e.1 ∧ R e.2 e'.2 := by
  unfold Table at h
  induction h with
  | nil => cases he
  | cons h1 _ ih =>
    rcases List.mem_cons.1 he with rfl | he
    · exact ⟨_, by simp, h1⟩
    · obtain ⟨e, he, h2⟩ := ih he
      exact ⟨e, by simp [he], h2⟩

theorem Table.eq_of {κ : Type} {R : Meas G N → Meas G N → Prop} {l l' : List (κ × Meas G N)} (h : Table R l l')
    (hr : ∀ e ∈ l, ∀ m, R e.2 m → m = e.2) : l' = l := by
  unfold Table at h
  induction h with
  | nil => rfl
  | @cons e e' l l' h1 _ ih =>
    rw [ih fun e he => hr e (by simp [he])]
    have := hr e (by simp) _ h1.2
    rw [show e' = e from Prod.ext h1.1 this]

section
variable [Mul G] [Inv G] [One G]

/-- The first phase of a call that keeps all closures. -/
theorem phase1_whole {cfg : Cfg G T N} {env : Env G N} (hr : cfg.rejection = true) (hl : cfg.loopCheck = false)
    (hi : cfg.incremental = false) (hs : cfg.special = []) {op : Op G N} (hk : Spec.KeepsAll op) {s s1 : St G T N}
    {x : Ret × Bool} (h : phase1 cfg env op s = .ok s1 x) (hw : Whole s.pcm) :
    Whole s1.pcm ∧ s.pcm.totalLc ≤ s1.pcm.totalLc ∧ (s1.pcm.totalLc = s.pcm.totalLc → s1.pcm.lcs = s.pcm.lcs) := by
  obtain ⟨hm, hnr, hni⟩ := hk
  have same : ∀ {q : Pcm G T N}, q.lcs = s.pcm.lcs → q.landmarks = s.pcm.landmarks → q.ignored = [] →
      q.totalLc = s.pcm.totalLc → Whole q ∧ s.pcm.totalLc ≤ q.totalLc ∧ (q.totalLc = s.pcm.totalLc → q.lcs = s.pcm.lcs) := by
    intro q a b c d
    exact ⟨⟨b.trans hw.landmarks, c, by rw [a]; exact hw.all, by rw [a, d]; exact hw.count⟩, by omega, fun _ => a⟩
  have batch : ∀ {fs : Graph G N} {vs : Vals G}, Spec.batch op = some (fs, vs) →
      Whole s1.pcm ∧ s.pcm.totalLc ≤ s1.pcm.totalLc ∧ (s1.pcm.totalLc = s.pcm.totalLc → s1.pcm.lcs = s.pcm.lcs) := by
    intro fs vs hb
    have hd := (exec_batch env hr (op := .update fs vs false) rfl s).1 _ _ (phase1_update_false hr hb h)
    cases hd with
    | empty _ _ hf => rw [hf.pcm]; exact same rfl rfl hw.ignored rfl
    | full hne hins hS h1 h2 ha hf =>
      rename_i v1 p1 p2 s2
      have hp : s1.pcm = { p2 with robotOrder := s2.pcm.robotOrder } := by rw [hf.pcm, ha.eq]
      rw [hp]
      have hS1 : p1.landmarks = [] := by rw [hS.landmarks, firsts_nil hs]; exact hw.landmarks
      have hS2 : p1.totalLc = s.pcm.totalLc := by rw [hS.totalLc, firsts_nil hs]; rfl
      by_cases hc : Spec.cands cfg vs fs = []
      · rw [h1 hc]
        exact same hS.lcs (hS1.trans hw.landmarks.symm) (hS.ignored.trans hw.ignored) hS2
      · have hpc := h2 hc
        unfold processCands at hpc
        simp only [M.bind_eq] at hpc
        obtain ⟨q, num, g1, g2⟩ := M.bind_eq_ok.1 hpc
        obtain ⟨_, ht⟩ := parseLoops_ok g1
        unfold M.cond at g2
        rw [if_neg (by simp [hi])] at g2
        obtain ⟨e1, e2, e3, _⟩ := findInliers_ok g2
        have hwt : wt (fun m => m.factors.length) p1.lcs = p1.totalLc := by rw [hS.lcs, hw.count, hS2]
        have hfold := parseFold_whole hs v1 (lk cfg p1) (Spec.cands cfg vs fs) p1 hwt hS1
        simp only at hfold
        obtain ⟨f1, f2, f3, f4⟩ := hfold
        have hq1 : q.lcs = ((Spec.cands cfg vs fs).foldl (parseStep cfg v1 (lk cfg p1)) p1).lcs := by rw [ht.eq]
        have hq2 : q.landmarks = [] := by rw [ht.eq]; exact f1
        have hq3 : q.totalLc = ((Spec.cands cfg vs fs).foldl (parseStep cfg v1 (lk cfg p1)) p1).totalLc := by rw [ht.eq]
        have hq4 : q.ignored = [] := by
          have : q.ignored = ((Spec.cands cfg vs fs).foldl (parseStep cfg v1 (lk cfg p1)) p1).ignored := by rw [ht.eq]
          rw [this, (parseFold_frame cfg v1 (lk cfg p1) (Spec.cands cfg vs fs) p1).2.2.1, hS.ignored, hw.ignored]
        have hin : ∀ m m' : Meas G N, lcInliers cfg m = .ok m' m'.cons.length →
            m'.factors = m.factors ∧ m'.cons = m.factors ∧ m'.adj = m.adj := by
          intro m m' h
          unfold lcInliers at h
          rw [if_neg (by simp [hl])] at h
          injection h with h
          rw [← h]; exact ⟨rfl, rfl, rfl⟩
        have t1 : p2.totalLc = q.totalLc := by rw [e1]
        refine ⟨⟨?_, ?_, ?_, ?_⟩, ?_, ?_⟩
        · show p2.landmarks = []
          rw [hq2] at e3
          unfold Table at e3
          generalize p2.landmarks = l at e3
          cases e3 with
          | nil => rfl
        · show p2.ignored = []
          rw [e1]; exact hq4
        · intro e he
          obtain ⟨e0, _, _, hR⟩ := Table.mem e2 he
          obtain ⟨a, b, _⟩ := hin _ _ hR
          rw [b, a]
        · show wt _ p2.lcs = p2.totalLc
          rw [wt_table_eq (fun m m' h => by rw [(hin m m' h).1]) e2, hq1, f2, t1, hq3]
        · show s.pcm.totalLc ≤ p2.totalLc
          omega
        · intro heq
          have heq' : p2.totalLc = s.pcm.totalLc := heq
          show p2.lcs = s.pcm.lcs
          have hlcs : q.lcs = s.pcm.lcs := by rw [hq1, f4 (by omega), hS.lcs]
          rw [← hlcs]
          refine Table.eq_of e2 fun e he m hR => ?_
          obtain ⟨a, b, c⟩ := hin _ _ hR
          have hall := hw.all e (by rw [← hlcs]; exact he)
          rcases m with ⟨mf, mc, ma⟩
          rcases e with ⟨id, ⟨ef, ec, ea⟩⟩
          simp only at a b c hall
          subst a b c hall
          rfl
  have silent : ∀ {o : Op G N}, Spec.Silent o → ∀ {f : Ret → Ret × Bool}, (exec cfg env o).ret f s = .ok s1 x →
      Whole s1.pcm ∧ s.pcm.totalLc ≤ s1.pcm.totalLc ∧ (s1.pcm.totalLc = s.pcm.totalLc → s1.pcm.lcs = s.pcm.lcs) := by
    intro o ho f h
    obtain ⟨s2, r, h1, h2⟩ := M.bind_eq_ok.1 h
    cases h2
    have hb : Spec.batch o = none := by cases o <;> first | rfl | exact absurd ho (by simp [Spec.Silent])
    have hf := ((exec_other cfg env hr o hb s).of_ok h1).pcm
    have : s1.pcm = s.pcm := by
      generalize s1.pcm = q at hf
      cases hf <;> first | rfl | exact absurd ho (by simp [Spec.Silent])
    rw [this]
    exact same rfl rfl hw.ignored rfl
  cases op with
  | update fs vs o => exact batch rfl
  | forceUpdate fs vs => exact batch rfl
  | removePriors c o => cases h; exact same rfl rfl hw.ignored rfl
  | removeLastPair a b => exact absurd trivial hnr
  | removeLast => exact absurd trivial hnr
  | ignore c => exact absurd rfl (hni c)
  | revive c =>
    cases h
    refine same rfl rfl ?_ rfl
    show List.filter _ s.pcm.ignored = []
    rw [hw.ignored]; rfl
  | getNumLC => exact silent (o := .getNumLC) trivial h
  | getNumLCInliers => exact silent (o := .getNumLCInliers) trivial h
  | saveData => exact silent (o := .saveData) trivial h
  | updateValues vs => exact silent (o := .updateValues vs) trivial h
  | tempUpdate fs vs => exact silent (o := .tempUpdate fs vs) trivial h
  | tempReplace fs vs => exact silent (o := .tempReplace fs vs) trivial h
  | tempClear => exact silent (o := .tempClear) trivial h
  | removeFactors _ => exact absurd hm (by simp [Spec.Managed])
  | removeLastFactor => exact absurd hm (by simp [Spec.Managed])
  | removePriorsGeneric _ => exact absurd hm (by simp [Spec.Managed])
  | genericUpdate _ _ _ => exact absurd hm (by simp [Spec.Managed])

theorem ReachOk.whole {cfg : Cfg G T N} {env : Env G N} (hr : cfg.rejection = true) (hl : cfg.loopCheck = false)
    (hi : cfg.incremental = false) (hs : cfg.special = []) {h : List (Op G N)} {s : St G T N} (r : ReachOk cfg env h s)
    (hk : ∀ op ∈ h, Spec.KeepsAll op) : Whole s.pcm := by
  induction r with
  | init => exact ⟨rfl, rfl, (by intro e he; cases he), rfl⟩
  | @step h s op s' x r e ih =>
    obtain ⟨s1, o, h1, h2⟩ := exec_ok_phase hr e
    have := (phase1_whole hr hl hi hs (hk op (by simp)) h1 (ih fun o ho => hk o (by simp [ho]))).1
    rcases h2 with ⟨_, ho⟩ | ⟨_, rfl⟩
    · rw [((optimize_frame cfg env).of_ok ho).pcm]; exact this
    · exact this

/-- The closures of the graph when nothing is ignored. -/
def closureFactors (env : Env G N) (l : List (ObsId × Meas G N)) : Graph G N :=
  (env.iterLC l).flatMap fun e => e.2.cons.map fun b => some (.btw b)

omit [Mul G] [Inv G] [One G] in
theorem flatMap_cons_length (l : List (ObsId × Meas G N)) :
    (l.flatMap fun e => e.2.cons.map fun b => (some (.btw b) : Option (Factor G N))).length = wt (fun m => m.cons.length) l := by
  induction l with
  | nil => rfl
  | cons e t ih => rw [List.flatMap_cons, List.length_append, List.length_map, wt_cons, ih]

omit [Mul G] [Inv G] [One G] in
theorem Whole.graph {env : Env G N} (he : env.Ok) {p : Pcm G T N} (h : Whole p) :
    buildGraph env p = p.odom.map (fun b => some (.btw b)) ++ p.special.map some ++ closureFactors env p.lcs ∧
      (closureFactors env p.lcs).length = p.totalLc := by
  constructor
  · unfold buildGraph closureFactors
    have : env.iterLM p.landmarks = [] := by rw [h.landmarks]; exact (he.lm []).eq_nil
    rw [this, h.ignored]
    simp
  · unfold closureFactors
    rw [flatMap_cons_length]
    have hp : wt (fun m => m.cons.length) (env.iterLC p.lcs) = wt (fun m => m.cons.length) p.lcs := by
      unfold wt
      exact ((he.lc p.lcs).map _).sum_eq
    rw [hp, ← h.count]
    unfold wt
    congr 1
    apply List.map_congr_left
    intro e he
    show e.2.cons.length = e.2.factors.length
    rw [h.all e he]

end

theorem fixedFactors_kept (k : Nat) (ws : List Rat) (i : Nat) (l : Graph G N) (h : k + i + ws.length ≤ l.length) :
    fixedFactors l k ws i = some (Spec.kept (l.drop (k + i)) ws) := by
  induction ws generalizing i with
  | nil => simp [fixedFactors, Spec.kept]
  | cons w ws ih =>
    rw [List.length_cons] at h
    have hlt : k + i < l.length := by omega
    have ih := ih (i + 1) (by omega)
    have hd : l.drop (k + i) = l[k + i] :: l.drop (k + (i + 1)) := by
      rw [List.drop_eq_getElem_cons hlt]; rfl
    unfold fixedFactors
    rw [hd]
    by_cases hw : w > 1 / 2
    · rw [if_pos hw, List.getElem?_eq_getElem hlt]
      simp only
      rw [ih]
      simp only [Spec.kept, List.zip_cons_cons, List.filter_cons]
      rw [if_pos (by simpa using hw)]
      rfl
    · rw [if_neg hw, ih]
      simp only [Spec.kept, List.zip_cons_cons, List.filter_cons]
      rw [if_neg (by simpa using hw)]

section
variable [Mul G] [Inv G] [One G]

theorem ReachOk.weightedAll {cfg : Cfg G T N} {env : Env G N} (he : env.Ok) (hr : cfg.rejection = true)
    (hl : cfg.loopCheck = false) (hi : cfg.incremental = false) (hs : cfg.special = []) {h : List (Op G N)} {s : St G T N}
    (r : ReachOk cfg env h s) (hk : ∀ op ∈ h, Spec.KeepsAll op) : Weighted s := by
  induction r with
  | init => exact ⟨Nat.le_refl _, Nat.le_refl _⟩
  | @step h s op s' x r e ih =>
    have ih := ih fun o ho => hk o (by simp [ho])
    obtain ⟨s1, o, h1, h2⟩ := exec_ok_phase hr e
    obtain ⟨hw1, hw2, -⟩ := (phase1_sameW cfg env (hk op (by simp)).1).of_ok h1
    obtain ⟨g1, g2, g3⟩ := phase1_size he hr r (fun o ho => (hk o ho).1) h1
    obtain ⟨wh, hle, _⟩ := phase1_whole hr hl hi hs (hk op (by simp)) h1 (r.whole hr hl hi hs fun o ho => hk o (by simp [ho]))
    rcases h2 with ⟨_, ho⟩ | ⟨_, rfl⟩
    · obtain ⟨w1, w2, w3⟩ := optimize_weights hr ho
      have hf := (optimize_frame cfg env).of_ok ho
      refine ⟨by omega, ?_⟩
      obtain ⟨q1, q2⟩ := wh.graph he
      rw [w1, w3, hf.nfg, hf.pcm, g1, q1, List.length_append, q2]
      omega
    · exact ⟨by rw [hw2]; exact ih.counted.trans hle, by rw [hw1, hw2]; exact ih.weights⟩

/-- A history of normal returns determines the state. -/
theorem ReachOk.det {cfg : Cfg G T N} {env : Env G N} {h : List (Op G N)} {s s' : St G T N} (r : ReachOk cfg env h s)
    (r' : ReachOk cfg env h s') : s' = s := by
  induction r generalizing s' with
  | init =>
    generalize hh : ([] : List (Op G N)) = h at r'
    cases r' with
    | init => rfl
    | step _ _ => simp at hh
  | @step h s op s1 x r e ih =>
    obtain ⟨s0, y, r0, e0⟩ := r'.snoc_inv
    have := ih r0
    subst this
    rw [e0] at e
    cases e
    rfl

/-- Between two optimizations the weights stay, and as long as no closure is registered the table of closures stays. -/
theorem quiet_calls {cfg : Cfg G T N} {env : Env G N} (hr : cfg.rejection = true) (hl : cfg.loopCheck = false)
    (hi : cfg.incremental = false) (hs : cfg.special = []) {h h1 : List (Op G N)} {s0 s : St G T N}
    (r0 : ReachOk cfg env h s0) (r : ReachOk cfg env (h ++ h1) s) (hk : ∀ op ∈ h ++ h1, Spec.KeepsAll op)
    (hn : ∀ op ∈ h1, Spec.Optimizes cfg op = false) :
    SameW s0 s ∧ s0.pcm.totalLc ≤ s.pcm.totalLc ∧ (s.pcm.totalLc = s0.pcm.totalLc → s.pcm.lcs = s0.pcm.lcs) := by
  induction h1 using List.reverseRecOn generalizing s with
  | nil =>
    rw [List.append_nil] at r
    rw [r0.det r]
    exact ⟨SameW.refl _, Nat.le_refl _, fun _ => rfl⟩
  | append_singleton h1 op ih =>
    rw [← List.append_assoc] at r hk
    obtain ⟨s1, x, r1, e⟩ := r.snoc_inv
    obtain ⟨i1, i2, i3⟩ := ih r1 (fun o ho => hk o (by simp at ho ⊢; tauto)) (fun o ho => hn o (by simp [ho]))
    obtain ⟨s2, o, h2, h3⟩ := exec_ok_phase hr e
    have hflag : o = false := by rw [phase1_flag h2]; exact hn op (by simp)
    subst hflag
    rcases h3 with ⟨h3, _⟩ | ⟨_, rfl⟩
    · cases h3
    · have hw := (phase1_sameW cfg env (hk op (by simp)).1).of_ok h2
      have hwh := phase1_whole hr hl hi hs (hk op (by simp)) h2
        (r1.whole hr hl hi hs fun o ho => hk o (by simp at ho ⊢; tauto))
      refine ⟨SameW.trans _ _ _ i1 hw, i2.trans hwh.2.1, fun h => ?_⟩
      have h4 := hwh.2.1
      rw [hwh.2.2 (by omega), i3 (by omega)]

end

end RPGO
