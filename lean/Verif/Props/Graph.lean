import Verif.Proofs.Count
/-
C16 graph layout; C17 provenance of closures; C18 classification; C19 and C20 counters.
-/

namespace RPGO.Props
open RPGO
variable {G T N : Type} [Mul G] [Inv G] [One G]

/-! ### C16 -/

/-- What the rebuilt graph consists of. -/
theorem buildGraph_split {env : Env G N} (he : env.Ok) (p : Pcm G T N) :
    ∃ lc lm : List (Btw G N), buildGraph env p =
        p.odom.map Spec.elem ++ p.special.map some ++ lc.map Spec.elem ++ lm.map Spec.elem ∧
      (∀ b ∈ lc, ∃ e ∈ p.lcs, b ∈ e.2.cons ∧ e.1.id1 ∉ p.ignored ∧ e.1.id2 ∉ p.ignored) ∧
      (∀ b ∈ lm, ∃ e ∈ p.landmarks, b ∈ e.2.cons) := by
  refine ⟨(env.iterLC p.lcs).flatMap (fun e =>
      if !p.ignored.contains e.1.id1 && !p.ignored.contains e.1.id2 then e.2.cons else []),
    (env.iterLM p.landmarks).flatMap (fun e => e.2.cons), ?_, ?_, ?_⟩
  · unfold buildGraph
    rw [List.map_flatMap, List.map_flatMap]
    congr 1
    congr 1
    congr 1
    funext e
    split <;> rfl
  · intro b hb
    rw [List.mem_flatMap] at hb
    obtain ⟨e, h1, h2⟩ := hb
    split at h2
    · rename_i hc
      simp at hc
      exact ⟨e, (he.lc _).mem_iff.1 h1, h2, hc.1, hc.2⟩
    · cases h2
  · intro b hb
    rw [List.mem_flatMap] at hb
    obtain ⟨e, h1, h2⟩ := hb
    exact ⟨e, (he.lm _).mem_iff.1 h1, h2⟩

/-- C16: after any history of calls that returned normally, the graph is: all odometry factors supplied, in order;
all non-between factors supplied and not removed, in order; loop closures between poses; landmark
observations. The closures and observations were supplied by the user. -/
theorem C16_layout {cfg : Cfg G T N} {env : Env G N} (he : env.Ok) (hr : cfg.rejection = true) {h : List (Op G N)}
    {s : St G T N} (r : ReachOk cfg env h s) (hm : ∀ op ∈ h, Spec.Managed op) :
    ∃ lc lm : List (Btw G N), s.nfg = (Spec.odomSoFar cfg h).map Spec.elem ++ (Spec.specialSoFar cfg h).map some ++
        lc.map Spec.elem ++ lm.map Spec.elem ∧
      (∀ b ∈ lc, Spec.isLandmark cfg b = false ∧ Spec.Supplied h b) ∧
      (∀ b ∈ lm, Spec.isLandmark cfg b = true ∧ Spec.Supplied h b) := by
  obtain ⟨h1, h2, h3⟩ := r.lists he hr hm
  obtain ⟨lc, lm, e, hlc, hlm⟩ := buildGraph_split he s.pcm
  have hp := r.reach.prov hr
  have hsup : ∀ b, Spec.Accepted cfg env h b → Spec.Supplied h b := by
    rintro b ⟨g1, op, g2, fs, vs, s1, s2, rfl, _, _, hb, hc, _⟩
    refine ⟨op, by simp, ?_⟩
    unfold Spec.opBtws
    rw [hb]
    exact List.mem_of_mem_filter hc
  refine ⟨lc, lm, by rw [h1, e, h2, h3], ?_, ?_⟩
  · intro b hb
    obtain ⟨x, hx, hc, _⟩ := hlc b hb
    have := (hp.lcs x hx).2 b hc
    exact ⟨this.2, hsup b this.1⟩
  · intro b hb
    obtain ⟨x, hx, hc⟩ := hlm b hb
    have := (hp.landmarks x hx).2 b hc
    refine ⟨this.2, ?_⟩
    rcases this.1 with ha | ⟨op, ho, fs, vs, hb', hf⟩
    · exact hsup b ha
    · refine ⟨op, ho, ?_⟩
      unfold Spec.opBtws
      rw [hb']
      exact List.mem_of_mem_filter hf

theorem odom_prefix {cfg : Cfg G T N} {op : Op G N} {s : St G T N} {p' : Pcm G T N} (st : PcmStep cfg op s p') :
    s.pcm.odom <+: p'.odom := by
  cases st with
  | other _ he =>
    have : p'.odom = s.pcm.odom := by
      cases he <;> try rfl
      split <;> rfl
    rw [this]; exact List.prefix_rfl
  | none _ => exact List.prefix_rfl
  | sort hb hi hfs ho hS _ _ =>
    simp only [hS.odom]
    rw [List.append_assoc]; exact List.prefix_append _ _
  | cands hb hne hi hS ht hsel hg hro =>
    have := (processed_frame ht hsel).1
    simp only [this, hS.odom]
    exact List.prefix_append _ _

/-- C16: odometry is never dropped. All odometry of a call that returned normally is in the graph, in order,
right after it and after every later sequence of calls, including calls that throw. -/
theorem C16_odometry_kept {cfg : Cfg G T N} {env : Env G N} (he : env.Ok) (hr : cfg.rejection = true)
    {op : Op G N} {fs : Graph G N} {vs : Vals G} {s s1 s2 : St G T N} {r : Ret} {ops : List (Op G N)}
    (hb : Spec.batch op = some (fs, vs)) (e : exec cfg env op s = .ok s1 r) (st : Spec.Steps cfg env s1 ops s2)
    (hm : ∀ op ∈ ops, Spec.Managed op) :
    ((Spec.opOdom cfg op).map Spec.elem).Sublist s2.nfg := by
  by_cases hf : fs = []
  · have : Spec.opOdom cfg op = [] := by
      unfold Spec.opOdom; rw [hb, hf]; rfl
    rw [this]; exact List.nil_sublist _
  have hd := (exec_batch env hr hb s).1 s1 r e
  have h1 : s1.nfg = buildGraph env s1.pcm := by
    cases hd with
    | empty hn _ _ => exact absurd hn hf
    | full hne hi hS h1 h2 ha hf => rw [hf.nfg, hf.pcm, ha.eq]; rfl
  have h2 : (Spec.opOdom cfg op).Sublist s1.pcm.odom := by
    have : Spec.opOdom cfg op = Spec.odoms cfg vs fs := by unfold Spec.opOdom; rw [hb]
    rw [this, hd.lists.1]
    exact List.sublist_append_right _ _
  have main : s1.pcm.odom <+: s2.pcm.odom ∧ (s1.pcm.odom.map Spec.elem).Sublist s2.nfg := by
    have hbg : ∀ p : Pcm G T N, (p.odom.map Spec.elem).Sublist (buildGraph env p) := by
      intro p
      obtain ⟨lc, lm, e, _⟩ := buildGraph_split he p
      rw [e, List.append_assoc, List.append_assoc]
      exact List.sublist_append_left _ _
    induction st with
    | nil => exact ⟨List.prefix_rfl, by rw [h1]; exact hbg _⟩
    | @snoc h s3 op' s4 r c ih =>
      obtain ⟨i1, i2⟩ := ih (fun op ho => hm op (by simp [ho]))
      have st := exec_step (env := env) hr op' s3
      have sn := exec_nfg he hr op' (hm op' (by simp)) s3
      have hst : PcmStep cfg op' s3 s4.pcm ∧ (s4.nfg = s3.nfg ∨ s4.nfg = buildGraph env s4.pcm) := by
        rcases c with ⟨_, e⟩ | ⟨_, e⟩
        · exact ⟨st.of_ok e, sn.of_ok e⟩
        · exact ⟨st.of_throw e, sn.of_throw e⟩
      have hpre := i1.trans (odom_prefix hst.1)
      refine ⟨hpre, ?_⟩
      rcases hst.2 with e | e
      · rw [e]; exact i2
      · rw [e]
        exact (hpre.sublist.map _).trans (hbg _)
  exact (h2.map _).trans main.2

set_option maxRecDepth 100000 in
/-- A history as in `C16_layout`: odometry, a prior, two closures. -/
example : ∃ s, ReachOk Demo.cfg Demo.env Demo.h1 s ∧ (∀ op ∈ Demo.h1, Spec.Managed op) ∧ s.nfg.length = 6 ∧
    Spec.odomSoFar Demo.cfg Demo.h1 =
      [Demo.btw (Demo.a 0) (Demo.a 1) 1, Demo.btw (Demo.a 1) (Demo.a 2) 1, Demo.btw (Demo.a 2) (Demo.a 3) 1] ∧
    Spec.specialSoFar Demo.cfg Demo.h1 = [.prior (Demo.a 0) (Demo.z 0)] := by
  obtain ⟨s, r, h⟩ := Demo.runs_reach (cfg := Demo.cfg) (env := Demo.env) (ops := Demo.h1)
    (P := fun s => decide (s.nfg.length = 6)) (by decide +kernel)
  refine ⟨s, r, ?_, by simpa using h, by decide +kernel, by decide +kernel⟩
  intro op ho
  simp only [Demo.h1, List.mem_cons, List.not_mem_nil, or_false] at ho
  rcases ho with rfl | rfl | rfl | rfl <;> trivial

/-! ### C17 -/

/-- The odometry held was supplied. -/
theorem reach_odom {cfg : Cfg G T N} {env : Env G N} (hr : cfg.rejection = true) {h : List (Op G N)} {s : St G T N}
    (r : Reach cfg env h s) : ∀ b ∈ s.pcm.odom, ∃ op ∈ h, b ∈ Spec.opOdom cfg op := by
  refine Reach.induct (Inv := fun h p => ∀ b ∈ p.odom, ∃ op ∈ h, b ∈ Spec.opOdom cfg op) hr ?_ ?_ r
  · intro b hb; cases hb
  · intro h s op s' r c ih st b hb
    have old : b ∈ s.pcm.odom → ∃ o ∈ h ++ [op], b ∈ Spec.opOdom cfg o := fun hb => by
      obtain ⟨o, ho, hx⟩ := ih b hb
      exact ⟨o, by simp [ho], hx⟩
    generalize s'.pcm = q at st hb
    cases st with
    | other _ heff =>
      have : q.odom = s.pcm.odom := by
        cases heff <;> try rfl
        split <;> rfl
      rw [this] at hb; exact old hb
    | none _ => exact old hb
    | sort hbt hi hfs ho hS hx1 hx2 =>
      rename_i fs vs v1 fs1 b1 fs2 p1
      have hin : ∀ x ∈ Spec.odoms cfg vs fs1 ++ [b1], x ∈ Spec.odoms cfg vs fs := by
        intro x hx
        unfold Spec.odoms at hx ⊢
        rw [hfs]
        rcases List.mem_append.1 hx with hx | hx
        · rw [List.mem_filter, mem_btws] at hx ⊢
          exact ⟨by simp [hx.1], hx.2⟩
        · rw [List.mem_singleton] at hx; subst hx
          rw [List.mem_filter, mem_btws]
          exact ⟨by simp, ho⟩
      simp only [hS.odom, List.append_assoc] at hb
      rcases List.mem_append.1 hb with hb | hb
      · exact old hb
      · refine ⟨op, by simp, ?_⟩
        unfold Spec.opOdom; rw [hbt]; exact hin b hb
    | cands hbt hne hi hS ht hsel hg hro =>
      simp only [(processed_frame ht hsel).1, hS.odom] at hb
      rcases List.mem_append.1 hb with hb | hb
      · exact old hb
      · refine ⟨op, by simp, ?_⟩
        unfold Spec.opOdom; rw [hbt]; exact hb

/-- The special factors held are not between factors. -/
theorem reach_special {cfg : Cfg G T N} {env : Env G N} (hr : cfg.rejection = true) {h : List (Op G N)} {s : St G T N}
    (r : Reach cfg env h s) : ∀ b, Factor.btw b ∉ s.pcm.special := by
  have hspf : ∀ (fs : Graph G N) (b : Btw G N), Factor.btw b ∉ Spec.specials fs := by
    intro fs b hm
    unfold Spec.specials at hm
    rw [List.mem_filterMap] at hm
    obtain ⟨f, hf, e⟩ := hm
    cases f with
    | none => cases e
    | some f => cases f <;> simp at e
  refine Reach.induct (Inv := fun _ p => ∀ b, Factor.btw b ∉ p.special) hr ?_ ?_ r
  · intro b hb; cases hb
  · intro h s op s' r c ih st b hb
    generalize s'.pcm = q at st hb
    cases st with
    | other _ heff =>
      cases heff with
      | priors => exact ih b (List.mem_of_mem_filter hb)
      | ignore => split at hb <;> exact ih b hb
      | _ => exact ih b hb
    | none _ => exact ih b hb
    | sort hbt hi hfs ho hS hx1 hx2 =>
      simp only [hS.special] at hb
      rcases List.mem_append.1 hb with hb | hb
      · exact ih b hb
      · exact hspf _ b hb
    | cands hbt hne hi hS ht hsel hg hro =>
      simp only [(processed_frame ht hsel).2.1, hS.special] at hb
      rcases List.mem_append.1 hb with hb | hb
      · exact ih b hb
      · exact hspf _ b hb

/-- C17, part: every between factor in the graph is odometry supplied by the user; or a closure or landmark
re-observation the user supplied between two different known keys and that, if it joins poses of one robot,
passed the odometry check; or a first observation of a landmark supplied by the user. This holds after any
history, including calls that threw.
Missing: for a first observation of a landmark nothing is checked (see `C17_false_first_observation`). -/
theorem C17_provenance_partial {cfg : Cfg G T N} {env : Env G N} (he : env.Ok) (hr : cfg.rejection = true)
    {h : List (Op G N)} {s : St G T N} (r : Reach cfg env h s) (hm : ∀ op ∈ h, Spec.Managed op) (b : Btw G N)
    (hb : some (.btw b) ∈ s.nfg) :
    (∃ op ∈ h, b ∈ Spec.opOdom cfg op) ∨ Spec.Accepted cfg env h b ∨ Spec.FirstObserved cfg h b := by
  -- the graph
  induction r with
  | init => cases hb
  | @ok h s op s' _ r e ih =>
    rcases (exec_nfg he hr op (hm op (by simp)) s).of_ok e with hn | hn
    · rw [hn] at hb
      rcases ih (fun op ho => hm op (by simp [ho])) hb with ⟨o, ho, hx⟩ | ha | ha
      · exact Or.inl ⟨o, by simp [ho], hx⟩
      · exact Or.inr (Or.inl (Accepted.mono ha))
      · exact Or.inr (Or.inr (FirstObserved.mono ha))
    · have r' := r.ok e
      exact prov_of_graph he hn (reach_odom hr r') (reach_special hr r') (r'.prov hr) hb
  | @throw h s op s' _ r e ih =>
    rcases (exec_nfg he hr op (hm op (by simp)) s).of_throw e with hn | hn
    · rw [hn] at hb
      rcases ih (fun op ho => hm op (by simp [ho])) hb with ⟨o, ho, hx⟩ | ha | ha
      · exact Or.inl ⟨o, by simp [ho], hx⟩
      · exact Or.inr (Or.inl (Accepted.mono ha))
      · exact Or.inr (Or.inr (FirstObserved.mono ha))
    · have r' := r.throw e
      exact prov_of_graph he hn (reach_odom hr r') (reach_special hr r') (r'.prov hr) hb
where
  prov_of_graph {cfg : Cfg G T N} {env : Env G N} (he : env.Ok) {h : List (Op G N)} {s : St G T N}
      (hn : s.nfg = buildGraph env s.pcm) (hod : ∀ b ∈ s.pcm.odom, ∃ op ∈ h, b ∈ Spec.opOdom cfg op)
      (hsp : ∀ b, Factor.btw b ∉ s.pcm.special) (hp : Prov cfg env h s.pcm) {b : Btw G N} (hb : some (.btw b) ∈ s.nfg) :
      (∃ op ∈ h, b ∈ Spec.opOdom cfg op) ∨ Spec.Accepted cfg env h b ∨ Spec.FirstObserved cfg h b := by
    obtain ⟨lc, lm, e, hlc, hlm⟩ := buildGraph_split he s.pcm
    rw [hn, e] at hb
    simp only [List.mem_append, List.mem_map, Spec.elem, Option.some.injEq, Factor.btw.injEq, exists_eq_right] at hb
    rcases hb with ((hb | hb) | hb) | hb
    · exact Or.inl (hod b hb)
    · exact absurd hb (hsp b)
    · obtain ⟨x, hx, hc, _⟩ := hlc b hb
      exact Or.inr (Or.inl ((hp.lcs x hx).2 b hc).1)
    · obtain ⟨x, hx, hc⟩ := hlm b hb
      exact Or.inr ((hp.landmarks x hx).2 b hc).1

/-- A solver with landmarks whose prefix is `l`. -/
def demoLandmarks : Cfg Demo.Z Demo.Tp Demo.Ns := { Demo.cfg with special := [108] }

set_option maxRecDepth 100000 in
/-- C17 is false for first observations of landmarks: a first observation made from a pose that has no value is
put in the graph. -/
theorem C17_false_first_observation :
    ∃ s, ReachOk demoLandmarks Demo.env
        [.update [Demo.edge (Demo.a 5) (Demo.l 1) 1] [Demo.pose (Demo.l 1) 1] true] s ∧
      Demo.edge (Demo.a 5) (Demo.l 1) 1 ∈ s.nfg ∧ Demo.a 5 ∉ s.values.keys := by
  obtain ⟨s, r, h⟩ := Demo.runs_reach (cfg := demoLandmarks) (env := Demo.env)
    (ops := [.update [Demo.edge (Demo.a 5) (Demo.l 1) 1] [Demo.pose (Demo.l 1) 1] true])
    (P := fun s => decide (Demo.edge (Demo.a 5) (Demo.l 1) 1 ∈ s.nfg ∧ Demo.a 5 ∉ s.values.keys)) (by decide +kernel)
  exact ⟨s, r, by simpa using h⟩

set_option maxRecDepth 100000 in
/-- A closure in the graph of a reachable state. -/
example : ∃ s, Reach Demo.cfg Demo.env Demo.h1 s ∧ Demo.edge (Demo.a 0) (Demo.a 3) 3 ∈ s.nfg ∧
    ¬ ∃ op ∈ Demo.h1, Demo.btw (Demo.a 0) (Demo.a 3) 3 ∈ Spec.opOdom Demo.cfg op := by
  obtain ⟨s, r, h⟩ := Demo.runs_reach (cfg := Demo.cfg) (env := Demo.env) (ops := Demo.h1)
    (P := fun s => decide (Demo.edge (Demo.a 0) (Demo.a 3) 3 ∈ s.nfg)) (by decide +kernel)
  refine ⟨s, r.reach, by simpa using h, ?_⟩
  rintro ⟨op, ho, hx⟩
  have : Demo.btw (Demo.a 0) (Demo.a 3) 3 ∈ Spec.odomSoFar Demo.cfg Demo.h1 := by
    unfold Spec.odomSoFar; rw [List.mem_flatMap]; exact ⟨op, ho, hx⟩
  exact absurd this (by decide +kernel)

/-! ### C18 -/

/-- C18: the non-null factors of a batch are divided into five classes without overlap or omission. -/
theorem C18_partition (cfg : Cfg G T N) (vs : Vals G) (fs : Graph G N) :
    (fs.filterMap id).Perm
      ((Spec.odoms cfg vs fs ++ Spec.firsts cfg vs fs ++ Spec.cands cfg vs fs ++ Spec.selfs cfg vs fs).map Factor.btw ++
        Spec.specials fs) := by
  have h1 : (fs.filterMap id).Perm ((Spec.btws fs).map Factor.btw ++ Spec.specials fs) := by
    induction fs with
    | nil => exact List.Perm.refl _
    | cons f fs ih =>
      cases f with
      | none => exact ih
      | some f =>
        cases f with
        | btw b => exact ih.cons _
        | _ => exact (ih.cons _).trans List.perm_middle.symm
  have h2 : (Spec.btws fs).Perm
      (Spec.odoms cfg vs fs ++ Spec.firsts cfg vs fs ++ Spec.cands cfg vs fs ++ Spec.selfs cfg vs fs) := by
    unfold Spec.odoms Spec.firsts Spec.cands Spec.selfs
    generalize Spec.btws fs = l
    induction l with
    | nil => exact List.Perm.refl _
    | cons b l ih =>
      by_cases ho : Spec.isOdom cfg vs b = true
      · have hf := isOdom_not_first ho
        simp only [List.filter_cons, ho, hf, Spec.isCand, if_true, Bool.not_true, Bool.false_and, Bool.false_eq_true, if_false,
          List.cons_append]
        exact ih.cons _
      · have ho' : Spec.isOdom cfg vs b = false := by simpa using ho
        by_cases hf : Spec.isFirstObs cfg vs b = true
        · simp only [List.filter_cons, ho', hf, Spec.isCand, if_true, Bool.not_true, Bool.and_false, Bool.false_and,
            Bool.false_eq_true, if_false, List.append_assoc, List.cons_append]
          refine (ih.cons _).trans ?_
          simp only [List.append_assoc]
          exact List.perm_middle.symm
        · have hf' : Spec.isFirstObs cfg vs b = false := by simpa using hf
          by_cases hk : b.k1 = b.k2
          · simp only [List.filter_cons, ho', hf', Spec.isCand, hk, ne_eq, not_true_eq_false, decide_false, decide_true,
              Bool.and_false, Bool.not_false, Bool.and_self, if_true, Bool.false_eq_true, if_false]
            refine (ih.cons _).trans ?_
            exact List.perm_middle.symm
          · simp only [List.filter_cons, ho', hf', Spec.isCand, hk, ne_eq, not_false_eq_true, decide_false, decide_true,
              Bool.and_false, Bool.not_false, Bool.and_self, if_true, Bool.false_eq_true, if_false, List.append_assoc,
              List.cons_append]
            refine (ih.cons _).trans ?_
            simp only [List.append_assoc]
            refine List.Perm.trans ?_ (List.Perm.append_left _ List.perm_middle.symm)
            exact List.perm_middle.symm
  exact h1.trans ((h2.map _).append_right _)

theorem landmarkKey_eq (cfg : Cfg G T N) (b : Btw G N) : landmarkKey cfg b = Spec.landmarkOf cfg b := by
  unfold landmarkKey Spec.landmarkOf
  by_cases h : chr b.k1 ∈ cfg.special
  · rw [if_pos h, if_pos ((isSpecial_iff cfg _).2 h)]
  · rw [if_neg h, if_neg (fun hh => h ((isSpecial_iff cfg _).1 hh))]

theorem checkOdom_eq (cfg : Cfg G T N) (s : St G T N) (b : Btw G N) :
    Spec.checkOdom cfg s b = odomVerdict cfg (lk cfg s.pcm) b := by
  unfold Spec.checkOdom
  rcases isOdomConsistent_spec cfg b s.pcm with ⟨hc, hn, e⟩ | ⟨_, p', e, _⟩
  · rw [e]; simp [odomVerdict, hc, hn]
  · rw [e]

/-- The state after a batch in terms of registration. -/
theorem BatchDone.registration {cfg : Cfg G T N} {env : Env G N} {fs : Graph G N} {vs : Vals G} {s s' : St G T N}
    (h : BatchDone cfg env fs vs s s') :
    ∃ v1 p1 q p2, insertVals vs s.values = .ok v1 () ∧ (∀ k, s'.values.has k = v1.has k) ∧
      p1.lcs = s.pcm.lcs ∧ p1.landmarks = (Spec.firsts cfg vs fs).foldl (fileFirst cfg) s.pcm.landmarks ∧
      p1.totalLc = s.pcm.totalLc + (Spec.firsts cfg vs fs).length ∧
      TrajOnly cfg ((Spec.cands cfg vs fs).foldl (parseStep cfg v1 (lk cfg p1)) p1) q ∧ SelPcm q p2 ∧
      lk cfg s'.pcm = lk cfg p1 ∧ s'.pcm = { p2 with robotOrder := s'.pcm.robotOrder } := by
  cases h with
  | empty hn hi hf =>
    rename_i v1
    subst hn
    refine ⟨v1, s.pcm, s.pcm, s.pcm, hi, fun k => hf.values.has k, rfl, rfl, rfl, TrajOnly.refl _, SelPcm.refl _, ?_, ?_⟩
    · rw [hf.pcm]
    · rw [hf.pcm]
  | full hne hi hS h1 h2 ha hf =>
    rename_i v1 p1 p2 s1
    have hv : ∀ k, s'.values.has k = v1.has k := fun k => by rw [hf.values.has, ha.values.has]
    have hp : s'.pcm = { p2 with robotOrder := s'.pcm.robotOrder } := by
      rw [hf.pcm, ha.eq]
    have hq : ∃ q, TrajOnly cfg ((Spec.cands cfg vs fs).foldl (parseStep cfg v1 (lk cfg p1)) p1) q ∧ SelPcm q p2 := by
      by_cases hc : Spec.cands cfg vs fs = []
      · rw [h1 hc, hc]; exact ⟨p1, TrajOnly.refl _, SelPcm.refl _⟩
      · have he := processCands_ends cfg v1 (Spec.cands cfg vs fs) p1
        rw [h2 hc] at he
        obtain ⟨q, hq, hs, _⟩ := he
        exact ⟨q, hq, hs⟩
    obtain ⟨q, ht, hs⟩ := hq
    refine ⟨v1, p1, q, p2, hi, hv, hS.lcs, hS.landmarks, hS.totalLc, ht, hs, ?_, hp⟩
    have hl : lk cfg s'.pcm = lk cfg p2 := by rw [hp]; rfl
    rw [hl]
    exact processed_lk ht hs

theorem acceptable_eq {cfg : Cfg G T N} {v1 : Vals G} {s' : St G T N} {p1 : Pcm G T N}
    (hv : ∀ k, s'.values.has k = v1.has k) (hl : lk cfg s'.pcm = lk cfg p1) (b : Btw G N) :
    (acceptLc cfg v1 (lk cfg p1) b = (Spec.acceptable cfg s' b && !Spec.isLandmark cfg b)) ∧
    (acceptLm cfg v1 b = (Spec.acceptable cfg s' b && Spec.isLandmark cfg b)) := by
  have hk : ∀ k, decide (k ∈ s'.values.keys) = v1.has k := by
    intro k
    rw [Bool.eq_iff_iff, decide_eq_true_eq, KMap.mem_keys_iff, hv]
  unfold acceptLc acceptLm known Spec.acceptable
  rw [hk, hk, checkOdom_eq, hl]
  cases v1.has b.k1 <;> cases v1.has b.k2 <;> cases Spec.isLandmark cfg b <;>
    simp

/-- C18: what a call that carries a batch and returns normally does with each class: odometry and non-between
factors are appended in order; the acceptable candidates between poses are appended to the closures of their
robot pair, in order, and no others; a first observation of a landmark starts its list of observations, and
acceptable candidates observing it are appended. -/
theorem C18_effect {cfg : Cfg G T N} {env : Env G N} (hr : cfg.rejection = true) {op : Op G N} {fs : Graph G N}
    {vs : Vals G} {s s' : St G T N} {r : Ret} (hb : Spec.batch op = some (fs, vs)) (e : exec cfg env op s = .ok s' r) :
    s'.pcm.odom = s.pcm.odom ++ Spec.odoms cfg vs fs ∧
    s'.pcm.special = s.pcm.special ++ Spec.specials fs ∧
    (∀ id, Spec.registered s' id = Spec.registered s id ++ (Spec.cands cfg vs fs).filter fun b =>
      Spec.acceptable cfg s' b && !Spec.isLandmark cfg b && (ObsId.mk (chr b.k1) (chr b.k2)).eqv id) ∧
    (∀ l, Spec.observed s' l =
      (match ((Spec.firsts cfg vs fs).filter fun b => decide (Spec.landmarkOf cfg b = l)).getLast? with
        | some b => [b]
        | none => Spec.observed s l) ++
      (Spec.cands cfg vs fs).filter fun b =>
        Spec.acceptable cfg s' b && Spec.isLandmark cfg b && decide (Spec.landmarkOf cfg b = l)) := by
  have hd := (exec_batch env hr hb s).1 s' r e
  refine ⟨hd.lists.1, hd.lists.2.1, ?_, ?_⟩
  · obtain ⟨v1, p1, q, p2, hi, hv, hlcs, hlms, htot, ht, hs, hlk, hp⟩ := BatchDone.registration hd
    intro id
    unfold Spec.registered
    have h1 : lcOf s'.pcm id = lcOf p2 id := by rw [hp]; rfl
    have h2 : Sel (lcOf q id) (lcOf p2 id) := Table.lcOf_rel (Sel.refl _) hs.lcs id
    have h3 : lcOf q id = lcOf ((Spec.cands cfg vs fs).foldl (parseStep cfg v1 (lk cfg p1)) p1) id := ht.lcOf id
    have h4 : lcOf p1 id = lcOf s.pcm id := by unfold lcOf; rw [hlcs]
    rw [h1, h2.factors, h3, parseFold_lcOf, growLc_fold_factors, h4]
    congr 1
    apply List.filter_congr
    intro b _
    rw [(acceptable_eq hv hlk b).1]
    rfl
  · obtain ⟨v1, p1, q, p2, hi, hv, hlcs, hlms, htot, ht, hs, hlk, hp⟩ := BatchDone.registration hd
    intro l
    unfold Spec.observed
    have h1 : lmOf s'.pcm l = lmOf p2 l := by rw [hp]; rfl
    have h2 : Sel (lmOf q l) (lmOf p2 l) := Table.lmOf_rel (Sel.refl _) hs.landmarks l
    have h3 : lmOf q l = lmOf ((Spec.cands cfg vs fs).foldl (parseStep cfg v1 (lk cfg p1)) p1) l := ht.lmOf l
    have h4 : (lmOf p1 l).factors =
        match ((Spec.firsts cfg vs fs).filter fun b => decide (Spec.landmarkOf cfg b = l)).getLast? with
        | some b => [b]
        | none => (lmOf s.pcm l).factors := by
      unfold lmOf
      rw [hlms]
      exact fileFirst_factors cfg _ _ l
    rw [h1, h2.factors, h3, parseFold_lmOf, growLm_fold_factors, h4]
    congr 1
    apply List.filter_congr
    intro b _
    rw [(acceptable_eq hv hlk b).2, landmarkKey_eq]
where
  fileFirst_factors (cfg : Cfg G T N) (bs : List (Btw G N)) (lm : List (Key × Meas G N)) (l : Key) :
      ((AList.get? (· == ·) (bs.foldl (fileFirst cfg) lm) l).getD Meas.empty).factors =
        match (bs.filter fun b => decide (Spec.landmarkOf cfg b = l)).getLast? with
        | some b => [b]
        | none => ((AList.get? (· == ·) lm l).getD Meas.empty).factors := by
    induction bs generalizing lm with
    | nil => rfl
    | cons b bs ih =>
      rw [List.foldl_cons, ih, List.filter_cons]
      by_cases h : Spec.landmarkOf cfg b = l
      · rw [if_pos (by simpa using h)]
        cases hl : (bs.filter fun b => decide (Spec.landmarkOf cfg b = l)).getLast? with
        | some x => rw [List.getLast?_cons, hl]; rfl
        | none =>
          rw [List.getLast?_cons, hl]
          simp only [Option.getD_none]
          unfold fileFirst
          rw [landmarkKey_eq, h, AList.get?_upd_self AList.isEqv_beq]
          rfl
      · rw [if_neg (by simpa using h)]
        cases hl : (bs.filter fun b => decide (Spec.landmarkOf cfg b = l)).getLast? with
        | some x => rfl
        | none =>
          simp only
          unfold fileFirst
          rw [landmarkKey_eq, AList.get?_upd_other AList.isEqv_beq _ _ _ _ _ (by simpa using h)]

set_option maxRecDepth 100000 in
/-- The last call of the history registers both its closures. -/
example : ∃ s s', ReachOk Demo.cfg Demo.env (Demo.h1.take 3) s ∧
    exec Demo.cfg Demo.env (.update [Demo.edge (Demo.a 0) (Demo.a 2) 2, Demo.edge (Demo.a 0) (Demo.a 3) 3] [] true) s =
      .ok s' .unit ∧
    Spec.registered s' ⟨97, 97⟩ = [Demo.btw (Demo.a 0) (Demo.a 2) 2, Demo.btw (Demo.a 0) (Demo.a 3) 3] := by
  obtain ⟨s, r, h⟩ := Demo.runs_reach (cfg := Demo.cfg) (env := Demo.env) (ops := Demo.h1.take 3)
    (P := fun s => match exec Demo.cfg Demo.env
        (.update [Demo.edge (Demo.a 0) (Demo.a 2) 2, Demo.edge (Demo.a 0) (Demo.a 3) 3] [] true) s with
      | .ok s' r => decide (r = .unit ∧ Spec.registered s' ⟨97, 97⟩ =
          [Demo.btw (Demo.a 0) (Demo.a 2) 2, Demo.btw (Demo.a 0) (Demo.a 3) 3])
      | _ => false) (by decide +kernel)
  refine ⟨s, ?_⟩
  split at h
  · rename_i s' r' e
    simp only [decide_eq_true_eq] at h
    exact ⟨s', r, by rw [e, h.1], h.2⟩
  · cases h

/-! ### C19 -/

theorem numLC_iff {cfg : Cfg G T N} {env : Env G N} (hr : cfg.rejection = true) {s : St G T N} {n : Nat} :
    Spec.NumLC cfg env s n ↔ n = s.pcm.totalLc := by
  unfold Spec.NumLC exec M.ret getNumLC
  simp only [M.bind, hr, if_true, M.pure]
  constructor
  · intro h; simp only [Out.ok.injEq, Ret.num.injEq, true_and] at h; exact h.symm
  · rintro rfl; rfl

/-- C19: a call that carries a batch and returns normally increases `getNumLC()` by the number of first landmark
observations plus the number of acceptable candidates. -/
theorem C19_batch {cfg : Cfg G T N} {env : Env G N} (hr : cfg.rejection = true) {op : Op G N} {fs : Graph G N}
    {vs : Vals G} {s s' : St G T N} {r : Ret} (hb : Spec.batch op = some (fs, vs)) (e : exec cfg env op s = .ok s' r)
    {n : Nat} (hn : Spec.NumLC cfg env s n) :
    Spec.NumLC cfg env s' (n + (Spec.firsts cfg vs fs).length +
      ((Spec.cands cfg vs fs).filter (Spec.acceptable cfg s')).length) := by
  rw [numLC_iff hr] at hn ⊢
  obtain ⟨v1, p1, q, p2, hi, hv, hlcs, hlms, htot, ht, hs, hlk, hp⟩ :=
    BatchDone.registration ((exec_batch env hr hb s).1 s' r e)
  have h1 : s'.pcm.totalLc = p2.totalLc := by rw [hp]
  rw [h1, (processed_counts ht hs).1, htot, hn]
  congr 2
  apply List.filter_congr
  intro b _
  rw [(acceptable_eq hv hlk b).1, (acceptable_eq hv hlk b).2]
  cases Spec.acceptable cfg s' b <;> cases Spec.isLandmark cfg b <;> rfl

/-- C19: every other call, returning normally or throwing, leaves `getNumLC()` unchanged. -/
theorem C19_other {cfg : Cfg G T N} {env : Env G N} (hr : cfg.rejection = true) {op : Op G N} {s s' : St G T N}
    (hb : Spec.batch op = none) (c : Spec.Call cfg env op s s') {n : Nat} (hn : Spec.NumLC cfg env s n) :
    Spec.NumLC cfg env s' n := by
  rw [numLC_iff hr] at hn ⊢
  have hf : OtherFrame cfg env op s s' := by
    rcases c with ⟨_, e⟩ | ⟨_, e⟩
    · exact (exec_other cfg env hr op hb s).of_ok e
    · exact (exec_other cfg env hr op hb s).of_throw e
  rw [hn, hf.pcm.counts.1]

/-- C19: `getNumLC()` never decreases, whatever calls are made and whether or not they throw. -/
theorem C19_never_decreases {cfg : Cfg G T N} {env : Env G N} (hr : cfg.rejection = true) {ops h : List (Op G N)}
    {s s' : St G T N} (r : Reach cfg env h s) (st : Spec.Steps cfg env s ops s') {n n' : Nat}
    (hn : Spec.NumLC cfg env s n) (hn' : Spec.NumLC cfg env s' n') : n ≤ n' := by
  rw [numLC_iff hr] at hn hn'
  subst hn hn'
  exact (Steps.induct (Inv := fun _ p => Counts p ∧ s.pcm.totalLc ≤ p.totalLc) hr ⟨r.counts hr, Nat.le_refl _⟩
    (fun _ _ _ _ _ _ ih st => ⟨(st.counts ih.1).1, ih.2.trans (st.counts ih.1).2⟩) st).2

/-! ### C20 -/

theorem numInliers_iff {cfg : Cfg G T N} {env : Env G N} (hr : cfg.rejection = true) (hg : cfg.useGnc = false)
    {s : St G T N} {n : Nat} : Spec.NumInliers cfg env s n ↔ n = s.pcm.totalGood := by
  unfold Spec.NumInliers exec M.ret getNumLCInliers
  simp only [M.bind, hr, hg, if_true, M.pure, Bool.false_eq_true, if_false]
  constructor
  · intro h; simp only [Out.ok.injEq, Ret.num.injEq, true_and] at h; exact h.symm
  · rintro rfl; rfl

/-- C20: without GNC the number of inliers never exceeds the number of closures. -/
theorem C20_inliers_le_closures {cfg : Cfg G T N} {env : Env G N} (hr : cfg.rejection = true) (hg : cfg.useGnc = false)
    {h : List (Op G N)} {s : St G T N} (r : Reach cfg env h s) {n m : Nat} (hn : Spec.NumInliers cfg env s n)
    (hm : Spec.NumLC cfg env s m) : n ≤ m := by
  rw [numInliers_iff hr hg] at hn
  rw [numLC_iff hr] at hm
  subst hn hm
  exact (r.counts hr).good

theorem buildGraph_length {env : Env G N} (he : env.Ok) (p : Pcm G T N) (hi : p.ignored = []) :
    (buildGraph env p).length = p.odom.length + p.special.length + consSum p.lcs + consSum p.landmarks := by
  unfold buildGraph
  simp only [hi, List.contains_nil, Bool.not_false, Bool.and_self, if_true, List.length_append, List.length_map,
    List.length_flatMap]
  have h1 : ((env.iterLC p.lcs).map fun e => e.2.cons.length).sum = consSum p.lcs := ((he.lc p.lcs).map _).sum_nat
  have h2 : ((env.iterLM p.landmarks).map fun e => e.2.cons.length).sum = consSum p.landmarks :=
    ((he.lm p.landmarks).map _).sum_nat
  rw [h1, h2]

/-- C20: right after a call that carried a loop-closure candidate and returned normally, with no prefix ignored, the
graph consists of the odometry, the non-between factors and as many closures as `getNumLCInliers()` reports. -/
theorem C20_graph_size {cfg : Cfg G T N} {env : Env G N} (he : env.Ok) (hr : cfg.rejection = true) (hg : cfg.useGnc = false)
    {h : List (Op G N)} {op : Op G N} {s s' : St G T N} {r : Ret} (rs : ReachOk cfg env h s)
    (hm : ∀ op ∈ h, Spec.Managed op) (hc : Spec.opCands cfg op ≠ []) (e : exec cfg env op s = .ok s' r)
    (hi : getIgnored cfg s = []) {n : Nat} (hn : Spec.NumInliers cfg env s' n) :
    s'.nfg.length = (Spec.odomSoFar cfg (h ++ [op])).length + (Spec.specialSoFar cfg (h ++ [op])).length + n := by
  rw [numInliers_iff hr hg] at hn
  have hman : Spec.Managed op := by
    cases op <;> simp_all [Spec.opCands, Spec.batch, Spec.Managed]
  have hm' : ∀ o ∈ h ++ [op], Spec.Managed o := by
    intro o ho
    rcases List.mem_append.1 ho with ho | ho
    · exact hm o ho
    · rw [List.mem_singleton] at ho; rw [ho]; exact hman
  have rs' := rs.step e
  obtain ⟨h1, h2, h3⟩ := rs'.lists he hr hm'
  cases hb : Spec.batch op with
  | none => simp [Spec.opCands, hb] at hc
  | some x =>
    obtain ⟨fs, vs⟩ := x
    have hd := (exec_batch env hr hb s).1 s' r e
    have hig : s'.pcm.ignored = [] := by
      rw [hd.lists.2.2]
      unfold getIgnored at hi
      rwa [if_pos hr] at hi
    have hcands : Spec.cands cfg vs fs ≠ [] := by
      unfold Spec.opCands at hc; rw [hb] at hc; exact hc
    have hgood : s'.pcm.totalGood = consSum s'.pcm.lcs + consSum s'.pcm.landmarks := by
      cases hd with
      | empty hn _ _ => exact absurd hn (Sorted.fs_ne hcands)
      | full hne hi hS g1 g2 ha hf =>
        rename_i v1 p1 p2 s1
        have hp : s'.pcm = { p2 with robotOrder := s'.pcm.robotOrder } := by rw [hf.pcm, ha.eq]
        have := g2 hcands
        have hok : p2.totalGood = consSum p2.lcs + consSum p2.landmarks := by
          unfold processCands at this
          simp only [M.bind_eq] at this
          obtain ⟨q, num, e1, e2⟩ := M.bind_eq_ok.1 this
          obtain ⟨rfl, ht⟩ := parseLoops_ok e1
          unfold M.cond at e2
          split at e2
          · exact (findInliersIncremental_ok (bumps_registered ht) e2).2.2.2
          · exact (findInliers_ok e2).2.2.2
        rw [hp]; exact hok
    rw [h1, buildGraph_length he _ hig, ← h2, ← h3, hn, hgood]
    omega

set_option maxRecDepth 100000 in
/-- The last call of the history meets the hypotheses of `C20_graph_size`. -/
example : ∃ s s', ReachOk Demo.cfg Demo.env (Demo.h1.take 3) s ∧ getIgnored Demo.cfg s = [] ∧
    exec Demo.cfg Demo.env (.update [Demo.edge (Demo.a 0) (Demo.a 2) 2, Demo.edge (Demo.a 0) (Demo.a 3) 3] [] true) s =
      .ok s' .unit ∧ Spec.NumInliers Demo.cfg Demo.env s' 2 ∧
    Spec.opCands Demo.cfg (.update [Demo.edge (Demo.a 0) (Demo.a 2) 2, Demo.edge (Demo.a 0) (Demo.a 3) 3] [] true) ≠ [] := by
  obtain ⟨s, r, h⟩ := Demo.runs_reach (cfg := Demo.cfg) (env := Demo.env) (ops := Demo.h1.take 3)
    (P := fun s => match exec Demo.cfg Demo.env
        (.update [Demo.edge (Demo.a 0) (Demo.a 2) 2, Demo.edge (Demo.a 0) (Demo.a 3) 3] [] true) s with
      | .ok s' r => decide (r = .unit ∧ s.pcm.ignored = [] ∧ s'.pcm.totalGood = 2)
      | _ => false) (by decide +kernel)
  refine ⟨s, ?_⟩
  split at h
  · rename_i s' r' e
    simp only [decide_eq_true_eq] at h
    refine ⟨s', r, ?_, by rw [e, h.1], ?_, by decide +kernel⟩
    · unfold getIgnored; rw [if_pos (by rfl)]; exact h.2.1
    · exact (numInliers_iff rfl rfl).2 h.2.2.symm
  · cases h

end RPGO.Props
