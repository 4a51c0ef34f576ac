import Verif.Model.Log
import Verif.Props.Save
import Verif.Proofs.GncOnly
import Verif.Props.GncCount
/-
C61: what the log files say.
-/

namespace RPGO.Spec
variable {G T N K : Type} [Mul G] [Inv G] [One G]

/-- The outcome of a call without the files. -/
def forget {α : Type} : Out (LSt G T N K) α → Out (St G T N) α
  | .ok p a => .ok p.1 a
  | .throw p e => .throw p.1 e
  | .ub u => .ub u

/-- A new solver, the calls `h` with normal returns, and the state and files after them. -/
inductive LogRun [Semiring K] (cfg : Cfg G T N) (env : Env G N) (w : Writer G N K) : List (Op G N) → LSt G T N K → Prop where
  | init : LogRun cfg env w [] (St.init, {})
  | step {h p op p' r} : LogRun cfg env w h p → execL cfg env w op p = .ok p' r → LogRun cfg env w (h ++ [op]) p'

/-- Updates that may optimize: these are logged. -/
def logged : Op G N → Bool
  | .update _ _ o => o
  | .forceUpdate _ _ => true
  | _ => false

/-- Updates with at least one factor. -/
def hasFactors (op : Op G N) : Bool :=
  match batch op with
  | some (fs, _) => !fs.isEmpty
  | none => false

end RPGO.Spec

namespace RPGO
variable {G T N K : Type} [Mul G] [Inv G] [One G]

theorem forget_quiet {α : Type} (m : M (St G T N) α) (p : LSt G T N K) : Spec.forget (quiet m p) = m p.1 := by
  unfold quiet M.zoom
  cases m p.1 <;> rfl

theorem forget_bind {α β : Type} {m : M (LSt G T N K) α} {f : α → M (LSt G T N K) β} {m' : M (St G T N) α}
    {f' : α → M (St G T N) β} {p : LSt G T N K} (h : Spec.forget (m p) = m' p.1)
    (hf : ∀ a p, Spec.forget (f a p) = f' a p.1) : Spec.forget (M.bind m f p) = M.bind m' f' p.1 := by
  unfold M.bind
  rw [← h]
  cases m p with
  | ok p1 a => exact hf a p1
  | throw _ _ => rfl
  | ub _ => rfl

theorem forget_when {c : Bool} {m : M (LSt G T N K) Unit} {m' : M (St G T N) Unit} {p : LSt G T N K}
    (h : Spec.forget (m p) = m' p.1) : Spec.forget (M.when c m p) = M.when c m' p.1 := by
  cases c with
  | true => exact h
  | false => rfl

theorem forget_removeOutliers (cfg : Cfg G T N) (env : Env G N) (fs : Graph G N) (vs : Vals G) (p : LSt G T N K) :
    Spec.forget (removeOutliersL cfg env fs vs p) = removeOutliers cfg env fs vs p.1 := by
  unfold removeOutliersL removeOutliers
  simp only [M.bind_eq]
  refine forget_bind (forget_quiet _ _) fun _ p => ?_
  unfold M.cond
  split
  · rfl
  · have : processFactors cfg env fs vs p.1 = M.bind (processFactors cfg env fs vs) (fun r => M.bind (M.pure ()) fun _ => M.pure r) p.1 := by
      unfold M.bind
      cases processFactors cfg env fs vs p.1 <;> rfl
    rw [this]
    refine forget_bind (forget_quiet _ _) fun r p => forget_bind ?_ fun _ p => rfl
    unfold M.when
    split <;> rfl

theorem g2oOk_btws (g : Graph G N) : g2oOk g = true ↔ ∀ b ∈ Spec.btws g, b.noise.isSome := by
  induction g with
  | nil => simp [g2oOk, Spec.btws]
  | cons f t ih =>
    match f with
    | none => exact ih
    | some (.btw b) => rw [btws_cons_btw]; simp only [g2oOk, Bool.and_eq_true, ih, List.forall_mem_cons]
    | some (.prior ..) => exact ih
    | some (.priorAlt ..) => exact ih
    | some (.other ..) => exact ih

variable [Semiring K]

theorem writeG2o_cases (w : Writer G N K) (g : Graph G N) (v : Vals G) :
    (g2oOk g = true ∧ ∃ f, writeG2o w g v [] = .ok f ()) ∨ (g2oOk g = false ∧ ∃ f, writeG2o w g v [] = .throw f .invalidArg) := by
  rw [writeG2o_eq]
  rcases edgePass_eq w g (vertexLines w v) with ⟨hn, e⟩ | ⟨g1, b, g2, hgr, hb, _, e⟩
  · exact Or.inl ⟨(g2oOk_btws g).2 hn, _, e⟩
  · refine Or.inr ⟨?_, _, e⟩
    cases h : g2oOk g with
    | false => rfl
    | true =>
      have := (g2oOk_btws g).1 h b (by rw [hgr]; exact mem_btws.2 (by simp))
      rw [hb] at this; cases this

theorem forget_saveFolder (cfg : Cfg G T N) (w : Writer G N K) (get : Disk K → Folder K) (put : Folder K → Disk K → Disk K)
    (p : LSt G T N K) : Spec.forget (saveFolder cfg w get put p) = saveData p.1 := by
  unfold saveFolder saveData
  rcases writeG2o_cases w p.1.nfg p.1.values with ⟨h, f, e⟩ | ⟨h, f, e⟩
  · rw [e, h]; rfl
  · rw [e, h]; rfl

theorem forget_logStatus (cfg : Cfg G T N) (w : Writer G N K) (p : LSt G T N K) :
    Spec.forget (logStatusL cfg w p) = logStatus cfg p.1 := by
  unfold logStatusL logStatus
  simp only [M.bind_eq]
  refine forget_bind (forget_quiet _ _) fun _ p => forget_bind (forget_quiet _ _) fun _ p => ?_
  exact forget_bind (m' := M.pure ()) (f' := fun _ => saveData) rfl fun _ p => forget_saveFolder cfg w _ _ p

theorem forget_batch (cfg : Cfg G T N) (env : Env G N) (fs : Graph G N) (vs : Vals G) (p : LSt G T N K) :
    Spec.forget (M.cond cfg.rejection (removeOutliersL cfg env fs vs) (quiet (addAndCheck fs vs)) p) =
      M.cond cfg.rejection (removeOutliers cfg env fs vs) (addAndCheck fs vs) p.1 := by
  unfold M.cond
  split
  · exact forget_removeOutliers ..
  · exact forget_quiet _ _

/-! ### What a call writes -/

theorem quiet_ok {α : Type} {m : M (St G T N) α} {s s' : St G T N} {d d' : Disk K} {a : α}
    (h : quiet m (s, d) = .ok (s', d') a) : m s = .ok s' a ∧ d' = d := by
  obtain ⟨t, h1, h2⟩ := M.zoom_eq_ok.1 h
  cases h2
  exact ⟨h1, rfl⟩

/-- The files after a batch was processed. -/
def spun (cfg : Cfg G T N) (env : Env G N) (fs : Graph G N) (p : Pcm G T N) (d : Disk K) : Disk K :=
  if cfg.log && cfg.rejection && !fs.isEmpty then
    { d with adj := writeAdjacency (env.iterLC p.lcs) d.adj, spin := d.spin ++ [(p.totalLc, p.totalGood)] }
  else d

theorem removeOutliersL_ok {cfg : Cfg G T N} {env : Env G N} {fs : Graph G N} {vs : Vals G} {s s' : St G T N} {d d' : Disk K}
    {r : Bool} (h : M.cond cfg.rejection (removeOutliersL cfg env fs vs) (quiet (addAndCheck fs vs)) (s, d) = .ok (s', d') r) :
    d' = spun cfg env fs s'.pcm d := by
  unfold M.cond at h
  split at h
  · rename_i hr
    unfold removeOutliersL at h
    simp only [M.bind_eq] at h
    obtain ⟨⟨s1, d1⟩, _, h1, h2⟩ := M.bind_eq_ok.1 h
    obtain ⟨h1, rfl⟩ := quiet_ok h1
    unfold spun
    unfold M.cond at h2
    split at h2
    · rename_i hf
      have hf := of_decide_eq_true hf
      have : fs.isEmpty = true := by simpa using hf
      rw [this, Bool.not_true, Bool.and_false, if_neg (by simp)]
      cases h2; rfl
    · rename_i hf
      have : fs.isEmpty = false := by cases fs with
        | nil => simp at hf
        | cons _ _ => rfl
      rw [this, hr]
      obtain ⟨⟨s2, d2⟩, b, h3, h4⟩ := M.bind_eq_ok.1 h2
      obtain ⟨h3, rfl⟩ := quiet_ok h3
      obtain ⟨⟨s3, d3⟩, _, h5, h6⟩ := M.bind_eq_ok.1 h4
      cases h6
      cases hl : cfg.log with
      | true =>
        rw [hl] at h5
        simp only [Bool.not_false, Bool.and_self, if_true]
        cases h5; rfl
      | false =>
        rw [hl] at h5
        simp only [Bool.false_and, Bool.false_eq_true, if_false]
        cases h5; rfl
  · rename_i hr
    obtain ⟨_, rfl⟩ := quiet_ok h
    unfold spun
    have : cfg.rejection = false := by simpa using hr
    rw [this]
    simp

theorem logStatusL_ok {cfg : Cfg G T N} {w : Writer G N K} {s s' : St G T N} {d d' : Disk K} {u : Unit}
    (h : logStatusL cfg w (s, d) = .ok (s', d') u) :
    s' = s ∧ ∃ n k f, getNumLC cfg s = .ok s n ∧ getNumLCInliers cfg s = .ok s k ∧ writeG2o w s.nfg s.values [] = .ok f () ∧
      d' = { d with
        status := d.status ++ [(s.nfg.length, n, k)]
        log := { g2o := some f, weights := if cfg.useGnc then some s.gncW else d.log.weights } } := by
  unfold logStatusL at h
  simp only [M.bind_eq] at h
  obtain ⟨⟨s1, d1⟩, n, h1, h2⟩ := M.bind_eq_ok.1 h
  obtain ⟨g1, rfl⟩ := quiet_ok h1
  obtain ⟨⟨s2, d2⟩, k, h3, h4⟩ := M.bind_eq_ok.1 h2
  obtain ⟨g3, rfl⟩ := quiet_ok h3
  obtain ⟨⟨s3, d3⟩, _, h5, h6⟩ := M.bind_eq_ok.1 h4
  cases h5
  have e1 : s1 = s := by
    unfold getNumLC at g1
    split at g1
    · cases g1; rfl
    · cases g1
  subst e1
  have e2 : s2 = s1 := by
    unfold getNumLCInliers at g3
    split at g3
    · cases g3; rfl
    · split at g3
      · cases g3; rfl
      · cases g3
  subst e2
  unfold saveFolder at h6
  rcases writeG2o_cases w s2.nfg s2.values with ⟨_, f, e⟩ | ⟨_, f, e⟩
  · rw [e] at h6
    cases h6
    exact ⟨rfl, n, k, f, g1, g3, e, rfl⟩
  · rw [e] at h6
    cases h6

/-- The effect of one call on the files. -/
structure Wrote (cfg : Cfg G T N) (env : Env G N) (w : Writer G N K) (op : Op G N) (s' : St G T N) (d d' : Disk K) : Prop where
  status : if cfg.log && Spec.logged op then ∃ n k, Spec.NumLC cfg env s' n ∧ Spec.NumInliers cfg env s' k ∧
      d'.status = d.status ++ [(s'.nfg.length, n, k)] else d'.status = d.status
  log : if cfg.log && Spec.logged op then (∃ f, writeG2o w s'.nfg s'.values [] = .ok f () ∧ d'.log.g2o = some f) ∧
      d'.log.weights = (if cfg.useGnc then some s'.gncW else d.log.weights) else d'.log = d.log
  spin : d'.spin = d.spin ++ if cfg.log && cfg.rejection && Spec.hasFactors op then [(s'.pcm.totalLc, s'.pcm.totalGood)] else []
  adj : d'.adj = if cfg.log && cfg.rejection && Spec.hasFactors op then writeAdjacency (env.iterLC s'.pcm.lcs) d.adj else d.adj

theorem wrote_batch {cfg : Cfg G T N} {env : Env G N} {w : Writer G N K} {op : Op G N} {fs : Graph G N} {vs : Vals G}
    (hb : Spec.batch op = some (fs, vs)) {s1 s' : St G T N} {d d1 d' : Disk K} {u : Unit} (h1 : d1 = spun cfg env fs s1.pcm d)
    (h2 : OptFrame s1 s') {s'' : St G T N} (h3 : M.when (cfg.log && Spec.logged op) (logStatusL cfg w) (s', d1) = .ok (s'', d') u) :
    Wrote cfg env w op s'' d d' := by
  have hf : Spec.hasFactors op = !fs.isEmpty := by unfold Spec.hasFactors; rw [hb]
  have hspin : d1.spin = d.spin ++ (if cfg.log && cfg.rejection && Spec.hasFactors op then [(s'.pcm.totalLc, s'.pcm.totalGood)] else []) ∧
      d1.adj = (if cfg.log && cfg.rejection && Spec.hasFactors op then writeAdjacency (env.iterLC s'.pcm.lcs) d.adj else d.adj) ∧
      d1.status = d.status ∧ d1.log = d.log := by
    rw [h1, hf, h2.pcm]
    unfold spun
    split
    · exact ⟨rfl, rfl, rfl, rfl⟩
    · exact ⟨(List.append_nil _).symm, rfl, rfl, rfl⟩
  obtain ⟨a, b, c, e⟩ := hspin
  cases hl : cfg.log && Spec.logged op with
  | true =>
    rw [hl] at h3
    obtain ⟨rfl, n, k, f, q1, q2, q3, rfl⟩ := logStatusL_ok (show logStatusL cfg w (s', d1) = _ from h3)
    refine ⟨?_, ?_, a, b⟩
    · rw [hl, if_pos rfl]
      refine ⟨n, k, ?_, ?_, by rw [← c]⟩
      · show (getNumLC cfg).ret Ret.num _ = _
        unfold M.ret; rw [M.bind_ok q1]; rfl
      · show (getNumLCInliers cfg).ret Ret.num _ = _
        unfold M.ret; rw [M.bind_ok q2]; rfl
    · rw [hl, if_pos rfl]
      exact ⟨⟨f, q3, rfl⟩, by rw [← e]⟩
  | false =>
    rw [hl] at h3
    cases h3
    exact ⟨by rw [hl, if_neg (by simp)]; exact c, by rw [hl, if_neg (by simp)]; exact e, a, b⟩

theorem execL_wrote {cfg : Cfg G T N} {env : Env G N} {w : Writer G N K} {op : Op G N} {s s' : St G T N} {d d' : Disk K}
    {r : Ret} (h : execL cfg env w op (s, d) = .ok (s', d') r) : Wrote cfg env w op s' d d' := by
  have other : ∀ {op : Op G N}, Spec.batch op = none → d'.status = d.status → d'.log = d.log → d'.spin = d.spin → d'.adj = d.adj →
      Wrote cfg env w op s' d d' := by
    intro op hb h1 h2 h3 h4
    have hl : Spec.logged op = false := by cases op <;> first | rfl | cases hb
    have hf : Spec.hasFactors op = false := by unfold Spec.hasFactors; rw [hb]
    exact ⟨by rw [hl, Bool.and_false, if_neg (by simp)]; exact h1, by rw [hl, Bool.and_false, if_neg (by simp)]; exact h2,
      by rw [hf, Bool.and_false, if_neg (by simp), List.append_nil]; exact h3, by rw [hf, Bool.and_false, if_neg (by simp)]; exact h4⟩
  cases op with
  | update fs vs o =>
    obtain ⟨⟨s1, d1⟩, _, h1, h2⟩ := M.bind_eq_ok.1 (show (updateL cfg env w fs vs o).ret (fun _ => Ret.unit) (s, d) = _ from h)
    cases h2
    unfold updateL at h1
    simp only [M.bind_eq] at h1
    obtain ⟨⟨s2, d2⟩, b, h3, h4⟩ := M.bind_eq_ok.1 h1
    have h3 := removeOutliersL_ok h3
    obtain ⟨⟨s3, d3⟩, _, h5, h6⟩ := M.bind_eq_ok.1 h4
    have h5 : OptFrame s2 s3 ∧ d3 = d2 := by
      unfold M.when at h5
      split at h5
      · obtain ⟨h7, h8⟩ := quiet_ok h5
        exact ⟨(optimize_frame cfg env).of_ok h7, h8⟩
      · cases h5; exact ⟨OptFrame.refl _, rfl⟩
    exact wrote_batch (op := .update fs vs o) rfl (h5.2.trans h3) h5.1 h6
  | forceUpdate fs vs =>
    obtain ⟨⟨s1, d1⟩, _, h1, h2⟩ := M.bind_eq_ok.1 (show (forceUpdateL cfg env w fs vs).ret (fun _ => Ret.unit) (s, d) = _ from h)
    cases h2
    unfold forceUpdateL at h1
    simp only [M.bind_eq] at h1
    obtain ⟨⟨s2, d2⟩, b, h3, h4⟩ := M.bind_eq_ok.1 h1
    have h3 := removeOutliersL_ok h3
    obtain ⟨⟨s3, d3⟩, _, h5, h6⟩ := M.bind_eq_ok.1 h4
    obtain ⟨h7, h8⟩ := quiet_ok h5
    refine wrote_batch (op := .forceUpdate fs vs) rfl (h8.trans h3) ((optimize_frame cfg env).of_ok h7) (u := ()) ?_
    show M.when (cfg.log && true) _ _ = _
    rw [Bool.and_true]
    exact h6
  | saveData =>
    obtain ⟨⟨s1, d1⟩, _, h1, h2⟩ := M.bind_eq_ok.1
      (show (saveFolder cfg w (fun d => d.user) (fun f d => { d with user := f })).ret (fun _ => Ret.unit) (s, d) = _ from h)
    cases h2
    unfold saveFolder at h1
    split at h1
    · cases h1; exact other rfl rfl rfl rfl rfl
    · cases h1
    · cases h1
  | _ =>
    obtain ⟨_, rfl⟩ := quiet_ok h
    exact other rfl rfl rfl rfl rfl

/-! ### Adjacency files -/

theorem writeAdjacency_other {l : List (ObsId × Meas G N)} {f : ObsId → Option Mat} {id : ObsId} (h : id ∉ l.map (·.1)) :
    writeAdjacency l f id = f id := by
  induction l generalizing f with
  | nil => rfl
  | cons e l ih =>
    rw [List.map_cons, List.mem_cons, not_or] at h
    show writeAdjacency l _ id = _
    rw [ih h.2]
    exact if_neg h.1

theorem writeAdjacency_mem {l : List (ObsId × Meas G N)} {f : ObsId → Option Mat} (hn : (l.map (·.1)).Nodup)
    {e : ObsId × Meas G N} (he : e ∈ l) : writeAdjacency l f e.1 = some e.2.adj := by
  induction l generalizing f with
  | nil => cases he
  | cons e0 l ih =>
    rw [List.map_cons, List.nodup_cons] at hn
    show writeAdjacency l _ e.1 = _
    rcases List.mem_cons.1 he with rfl | he
    · rw [writeAdjacency_other hn.1]
      exact if_pos rfl
    · exact ih hn.2 he

omit [Mul G] [Inv G] [One G] in
theorem Distinct.nodup {l : List (ObsId × Meas G N)} (h : Distinct l) : (l.map (·.1)).Nodup := by
  refine List.Pairwise.imp (fun {x y} hxy e => ?_) h
  rw [e, ObsId.isEqv.refl] at hxy
  cases hxy

theorem AList.upd_keys_sub {κ V : Type} {eq : κ → κ → Bool} {d : V} {l : List (κ × V)} {k : κ} {f : V → V} :
    l.map (·.1) ⊆ (upd eq d l k f).map (·.1) := by
  rcases upd_keys (eq := eq) (d := d) (l := l) (k := k) (f := f) with ⟨_, e⟩ | ⟨_, e⟩
  · rw [e]; exact List.Subset.refl _
  · rw [e]; exact List.subset_append_left _ _

/-- Robot pairs are never forgotten, and keep their names. -/
theorem PcmStep.names {cfg : Cfg G T N} {op : Op G N} {s : St G T N} {q : Pcm G T N} (st : PcmStep cfg op s q) :
    s.pcm.lcs.map (·.1) ⊆ q.lcs.map (·.1) := by
  cases st with
  | other _ he =>
    generalize s.pcm = p at he
    cases he with
    | same => exact List.Subset.refl _
    | priors => exact List.Subset.refl _
    | ignore => split <;> exact List.Subset.refl _
    | revive => exact List.Subset.refl _
    | pair hm hr => exact AList.upd_keys_sub
    | pop _ => exact List.Subset.refl _
    | last _ hm hr => exact AList.upd_keys_sub
  | none _ => exact List.Subset.refl _
  | sort hb hi hfs ho hS hx1 hx2 =>
    show s.pcm.lcs.map (·.1) ⊆ List.map (·.1) (Pcm.lcs _)
    rw [hS.lcs]; exact List.Subset.refl _
  | cands hb hne hi hS ht hsel hg hro =>
    rename_i fs vs v1 p1 q p2 ro
    show s.pcm.lcs.map (·.1) ⊆ p2.lcs.map (·.1)
    rw [Table.keys hsel.lcs, ht.eq]
    refine parseFold_induct (Inv := fun p => s.pcm.lcs.map (fun e => e.1) ⊆ p.lcs.map (fun e => e.1)) (Spec.cands cfg vs fs)
      (by rw [hS.lcs]; exact List.Subset.refl _) (fun p hp b hbm _ => List.Subset.trans hp AList.upd_keys_sub)
      (fun p hp b _ _ => ?_)
    exact hp

end RPGO

namespace RPGO.Props
variable {G T N K : Type} [Mul G] [Inv G] [One G] [Semiring K]

/-- C61: the files have no influence on the solver. Whatever is logged, a call returns, throws or runs undefined
operations as it does in the model without files, with the same state. -/
theorem C61_transparent (cfg : Cfg G T N) (env : Env G N) (w : Writer G N K) (op : Op G N) (p : LSt G T N K) :
    Spec.forget (execL cfg env w op p) = exec cfg env op p.1 := by
  cases op with
  | update fs vs o =>
    show Spec.forget (M.bind (updateL cfg env w fs vs o) _ p) = M.bind (update cfg env fs vs o) _ p.1
    refine forget_bind ?_ fun _ _ => rfl
    unfold updateL update
    simp only [M.bind_eq]
    exact forget_bind (forget_batch ..) fun _ _ => forget_bind (forget_when (forget_quiet _ _)) fun _ _ =>
      forget_when (forget_logStatus _ _ _)
  | forceUpdate fs vs =>
    show Spec.forget (M.bind (forceUpdateL cfg env w fs vs) _ p) = M.bind (forceUpdate cfg env fs vs) _ p.1
    refine forget_bind ?_ fun _ _ => rfl
    unfold forceUpdateL forceUpdate
    simp only [M.bind_eq]
    exact forget_bind (forget_batch ..) fun _ _ => forget_bind (forget_quiet _ _) fun _ _ =>
      forget_when (forget_logStatus _ _ _)
  | saveData =>
    show Spec.forget (M.bind (saveFolder cfg w _ _) _ p) = M.bind saveData _ p.1
    exact forget_bind (forget_saveFolder ..) fun _ _ => rfl
  | _ => exact forget_quiet _ _

/-- Every run with files is a run without, and conversely. -/
theorem logRun_reach {cfg : Cfg G T N} {env : Env G N} {w : Writer G N K} {h : List (Op G N)} {p : LSt G T N K}
    (r : Spec.LogRun cfg env w h p) : ReachOk cfg env h p.1 := by
  induction r with
  | init => exact .init
  | @step h p op p' x r e ih =>
    refine ih.step (r := x) ?_
    have := C61_transparent cfg env w op p
    rw [e] at this
    exact this.symm

theorem reach_logRun {cfg : Cfg G T N} {env : Env G N} (w : Writer G N K) {h : List (Op G N)} {s : St G T N}
    (r : ReachOk cfg env h s) : ∃ d, Spec.LogRun cfg env w h (s, d) := by
  induction r with
  | init => exact ⟨_, .init⟩
  | @step h s op s' x r e ih =>
    obtain ⟨d, l⟩ := ih
    have := C61_transparent cfg env w op (s, d)
    rw [show (s, d).1 = s from rfl, e] at this
    cases hx : execL cfg env w op (s, d) with
    | ok p y =>
      rw [hx] at this
      cases this
      exact ⟨p.2, l.step hx⟩
    | throw _ _ => rw [hx] at this; cases this
    | ub _ => rw [hx] at this; cases this

/-- C61, `rpgo_status.csv`: with logging on, one row per update that may optimize, in order; each row has the size of the
graph and the numbers of closures and inliers right after its call. -/
theorem C61_status {cfg : Cfg G T N} {env : Env G N} {w : Writer G N K} (hl : cfg.log = true) {h : List (Op G N)}
    {p : LSt G T N K} (r : Spec.LogRun cfg env w h p) :
    p.2.status.length = h.countP Spec.logged ∧
    ∀ h1 op h2, h = h1 ++ [op] ++ h2 → Spec.logged op = true →
      ∃ s1 n k, ReachOk cfg env (h1 ++ [op]) s1 ∧ Spec.NumLC cfg env s1 n ∧ Spec.NumInliers cfg env s1 k ∧
        p.2.status[h1.countP Spec.logged]? = some (s1.nfg.length, n, k) := by
  induction r with
  | init => exact ⟨rfl, fun h1 op h2 e => by simp at e⟩
  | @step h p op p' x r e ih =>
    obtain ⟨s, d⟩ := p
    obtain ⟨s', d'⟩ := p'
    have hw := (execL_wrote e).status
    have hreach := logRun_reach (r.step e)
    rw [hl, Bool.true_and] at hw
    cases ho : Spec.logged op with
    | true =>
      rw [ho, if_pos rfl] at hw
      obtain ⟨n, k, q1, q2, q3⟩ := hw
      refine ⟨?_, fun h1 op1 h2 e1 ho1 => ?_⟩
      · rw [q3, List.length_append, ih.1, List.countP_append]
        simp [ho]
      · rcases List.eq_nil_or_concat h2 with rfl | ⟨h2', o2, rfl⟩
        · rw [List.append_nil] at e1
          obtain ⟨rfl, e2⟩ := List.append_inj' e1 rfl
          cases e2
          refine ⟨s', n, k, hreach, q1, q2, ?_⟩
          rw [q3, ← ih.1]
          simp
        · rw [List.concat_eq_append, ← List.append_assoc] at e1
          obtain ⟨rfl, e2⟩ := List.append_inj' e1 rfl
          obtain ⟨s1, n1, k1, a, b, c, f⟩ := ih.2 h1 op1 h2' rfl ho1
          refine ⟨s1, n1, k1, a, b, c, ?_⟩
          rw [q3, List.getElem?_append_left]
          · exact f
          · exact (List.getElem?_eq_some_iff.1 f).1
    | false =>
      rw [ho, if_neg (by simp)] at hw
      refine ⟨?_, fun h1 op1 h2 e1 ho1 => ?_⟩
      · rw [hw, ih.1, List.countP_append]
        simp [ho]
      · rcases List.eq_nil_or_concat h2 with rfl | ⟨h2', o2, rfl⟩
        · rw [List.append_nil] at e1
          obtain ⟨rfl, e2⟩ := List.append_inj' e1 rfl
          cases e2
          rw [ho] at ho1; cases ho1
        · rw [List.concat_eq_append, ← List.append_assoc] at e1
          obtain ⟨rfl, e2⟩ := List.append_inj' e1 rfl
          rw [hw]
          exact ih.2 h1 op1 h2' rfl ho1

/-- C61, `outlier_rejection_status.txt`: one row per update with at least one factor, in order, with the number of closures
and the number of inliers of the pairwise check (what `getNumLCInliers()` returns without GNC). -/
theorem C61_rejection {cfg : Cfg G T N} {env : Env G N} {w : Writer G N K} (hl : cfg.log = true) (hr : cfg.rejection = true)
    {h : List (Op G N)} {p : LSt G T N K} (r : Spec.LogRun cfg env w h p) :
    p.2.spin.length = h.countP Spec.hasFactors ∧
    ∀ h1 op h2, h = h1 ++ [op] ++ h2 → Spec.hasFactors op = true →
      ∃ s1 n k, ReachOk cfg env (h1 ++ [op]) s1 ∧ Spec.NumLC cfg env s1 n ∧ Spec.NumInliers { cfg with useGnc := false } env s1 k ∧
        p.2.spin[h1.countP Spec.hasFactors]? = some (n, k) := by
  induction r with
  | init => exact ⟨rfl, fun h1 op h2 e => by simp at e⟩
  | @step h p op p' x r e ih =>
    obtain ⟨s, d⟩ := p
    obtain ⟨s', d'⟩ := p'
    have hw := (execL_wrote e).spin
    have hreach := logRun_reach (r.step e)
    rw [hl, hr, Bool.true_and, Bool.true_and] at hw
    have q1 : Spec.NumLC cfg env s' s'.pcm.totalLc := (numLC_iff hr).2 rfl
    have q2 : Spec.NumInliers { cfg with useGnc := false } env s' s'.pcm.totalGood :=
      (numInliers_iff (cfg := { cfg with useGnc := false }) hr rfl).2 rfl
    cases ho : Spec.hasFactors op with
    | true =>
      rw [ho, if_pos rfl] at hw
      refine ⟨?_, fun h1 op1 h2 e1 ho1 => ?_⟩
      · rw [hw, List.length_append, ih.1, List.countP_append]
        simp [ho]
      · rcases List.eq_nil_or_concat h2 with rfl | ⟨h2', o2, rfl⟩
        · rw [List.append_nil] at e1
          obtain ⟨rfl, e2⟩ := List.append_inj' e1 rfl
          cases e2
          refine ⟨s', _, _, hreach, q1, q2, ?_⟩
          rw [hw, ← ih.1]
          simp
        · rw [List.concat_eq_append, ← List.append_assoc] at e1
          obtain ⟨rfl, e2⟩ := List.append_inj' e1 rfl
          obtain ⟨s1, n1, k1, a, b, c, f⟩ := ih.2 h1 op1 h2' rfl ho1
          refine ⟨s1, n1, k1, a, b, c, ?_⟩
          rw [hw, List.getElem?_append_left]
          · exact f
          · exact (List.getElem?_eq_some_iff.1 f).1
    | false =>
      rw [ho, if_neg (by simp), List.append_nil] at hw
      refine ⟨?_, fun h1 op1 h2 e1 ho1 => ?_⟩
      · rw [hw, ih.1, List.countP_append]
        simp [ho]
      · rcases List.eq_nil_or_concat h2 with rfl | ⟨h2', o2, rfl⟩
        · rw [List.append_nil] at e1
          obtain ⟨rfl, e2⟩ := List.append_inj' e1 rfl
          cases e2
          rw [ho] at ho1; cases ho1
        · rw [List.concat_eq_append, ← List.append_assoc] at e1
          obtain ⟨rfl, e2⟩ := List.append_inj' e1 rfl
          rw [hw]
          exact ih.2 h1 op1 h2' rfl ho1

/-- C61, `result.g2o` and `gnc_weights.csv` in the log folder: graph, estimate and weights as they were after the last update
that may optimize. Missing: the state now, see `C61_false_stale`. -/
theorem C61_result_partial {cfg : Cfg G T N} {env : Env G N} {w : Writer G N K} (hl : cfg.log = true) {h : List (Op G N)}
    {p : LSt G T N K} (r : Spec.LogRun cfg env w h p) :
    ((∀ op ∈ h, Spec.logged op = false) → p.2.log.g2o = none ∧ p.2.log.weights = none) ∧
    ∀ h1 op h2, h = h1 ++ [op] ++ h2 → Spec.logged op = true → (∀ o ∈ h2, Spec.logged o = false) →
      ∃ s1 f, ReachOk cfg env (h1 ++ [op]) s1 ∧ writeG2o w s1.nfg s1.values [] = .ok f () ∧ p.2.log.g2o = some f ∧
        p.2.log.weights = if cfg.useGnc then some s1.gncW else none := by
  have hgnc : cfg.useGnc = false → p.2.log.weights = none := by
    intro hg
    induction r with
    | init => rfl
    | @step h p op p' x r e ih =>
      obtain ⟨s, d⟩ := p
      obtain ⟨s', d'⟩ := p'
      have hw := (execL_wrote e).log
      split at hw
      · rw [hw.2, hg, if_neg (by simp)]; exact ih
      · rw [hw]; exact ih
  induction r with
  | init => exact ⟨fun _ => ⟨rfl, rfl⟩, fun h1 op h2 e => by simp at e⟩
  | @step h p op p' x r e ih =>
    obtain ⟨s, d⟩ := p
    obtain ⟨s', d'⟩ := p'
    have hw := (execL_wrote e).log
    have hreach := logRun_reach (r.step e)
    rw [hl, Bool.true_and] at hw
    have ih := ih (by
      intro hg
      have := hgnc hg
      split at hw
      · rw [hw.2, hg, if_neg (by simp)] at this; exact this
      · rw [hw] at this; exact this)
    cases ho : Spec.logged op with
    | true =>
      rw [ho, if_pos rfl] at hw
      obtain ⟨⟨f, q1, q2⟩, q3⟩ := hw
      refine ⟨fun hn => (by have := hn op (by simp); rw [ho] at this; cases this), fun h1 op1 h2 e1 ho1 hn => ?_⟩
      rcases List.eq_nil_or_concat h2 with rfl | ⟨h2', o2, rfl⟩
      · rw [List.append_nil] at e1
        obtain ⟨rfl, e2⟩ := List.append_inj' e1 rfl
        cases e2
        refine ⟨s', f, hreach, q1, q2, ?_⟩
        rw [q3]
        cases hg : cfg.useGnc with
        | true => rfl
        | false =>
          have := hgnc hg
          rw [q3, hg] at this
          exact this
      · rw [List.concat_eq_append, ← List.append_assoc] at e1
        obtain ⟨rfl, e2⟩ := List.append_inj' e1 rfl
        cases e2
        have := hn op (by simp)
        rw [ho] at this; cases this
    | false =>
      rw [ho, if_neg (by simp)] at hw
      refine ⟨fun hn => by rw [hw]; exact ih.1 fun o ho => hn o (by simp [ho]), fun h1 op1 h2 e1 ho1 hn => ?_⟩
      rcases List.eq_nil_or_concat h2 with rfl | ⟨h2', o2, rfl⟩
      · rw [List.append_nil] at e1
        obtain ⟨rfl, e2⟩ := List.append_inj' e1 rfl
        cases e2
        rw [ho] at ho1; cases ho1
      · rw [List.concat_eq_append, ← List.append_assoc] at e1
        obtain ⟨rfl, e2⟩ := List.append_inj' e1 rfl
        rw [hw]
        exact ih.2 h1 op1 h2' rfl ho1 fun o ho => hn o (by simp [List.concat_eq_append, ho])

/-- Files exist only under the names of known robot pairs. -/
theorem adj_names {cfg : Cfg G T N} {env : Env G N} (he : env.Ok) {w : Writer G N K} (hr : cfg.rejection = true)
    {h : List (Op G N)} {p : LSt G T N K} (r : Spec.LogRun cfg env w h p) (id : ObsId) (hid : p.2.adj id ≠ none) :
    id ∈ p.1.pcm.lcs.map (·.1) := by
  induction r with
  | init => exact absurd rfl hid
  | @step h p op p' x r e ih =>
    obtain ⟨s, d⟩ := p
    obtain ⟨s', d'⟩ := p'
    have hw := (execL_wrote e).adj
    have hs : s.pcm.lcs.map (·.1) ⊆ s'.pcm.lcs.map (·.1) := by
      have := exec_step (env := env) hr op s
      have e2 := C61_transparent cfg env w op (s, d)
      rw [e] at e2
      rw [← (show Out.ok s' x = exec cfg env op s from e2)] at this
      exact PcmStep.names this
    have hid : d'.adj id ≠ none := hid
    rw [hw] at hid
    split at hid
    · by_cases hm : id ∈ (env.iterLC s'.pcm.lcs).map (·.1)
      · exact ((he.lc s'.pcm.lcs).map (·.1)).mem_iff.1 hm
      · rw [writeAdjacency_other hm] at hid
        exact hs (ih hid)
    · exact hs (ih hid)

/-- C61, the adjacency files: for every robot pair with closures there is one file, named after the pair in one of the two
orders, and it contains the matrix of the pair as it was after the last update with factors. Missing: the state now, see
`C61_false_stale`. -/
theorem C61_adjacency_partial {cfg : Cfg G T N} {env : Env G N} (he : env.Ok) {w : Writer G N K} (hl : cfg.log = true)
    (hr : cfg.rejection = true) {h : List (Op G N)} {p : LSt G T N K} (r : Spec.LogRun cfg env w h p)
    {h1 : List (Op G N)} {op : Op G N} {h2 : List (Op G N)} (hh : h = h1 ++ [op] ++ h2) (ho : Spec.hasFactors op = true)
    (hn : ∀ o ∈ h2, Spec.hasFactors o = false) :
    ∃ s1, ReachOk cfg env (h1 ++ [op]) s1 ∧ ∀ a b, Spec.registered s1 ⟨a, b⟩ ≠ [] →
      (p.2.adj ⟨a, b⟩ = some (Spec.matrix s1 ⟨a, b⟩) ∧ (a ≠ b → p.2.adj ⟨b, a⟩ = none)) ∨
      (p.2.adj ⟨b, a⟩ = some (Spec.matrix s1 ⟨a, b⟩) ∧ (a ≠ b → p.2.adj ⟨a, b⟩ = none)) := by
  induction r generalizing h2 with
  | init => simp at hh
  | @step h p op1 p' x r e ih =>
    have hrun := r.step e
    have hreach := logRun_reach hrun
    obtain ⟨s, d⟩ := p
    obtain ⟨s', d'⟩ := p'
    have hw := (execL_wrote e).adj
    rw [hl, hr, Bool.true_and, Bool.true_and] at hw
    rcases List.eq_nil_or_concat h2 with rfl | ⟨h2', o2, rfl⟩
    · rw [List.append_nil] at hh
      obtain ⟨rfl, e2⟩ := List.append_inj' hh rfl
      cases e2
      rw [ho, if_pos rfl] at hw
      refine ⟨s', hreach, fun a b hne => ?_⟩
      have hd := (Reach.distinct hr hreach.reach).1
      cases hg : AList.get? ObsId.eqv s'.pcm.lcs ⟨a, b⟩ with
      | none =>
        refine absurd ?_ hne
        show (lcOf s'.pcm ⟨a, b⟩).factors = []
        unfold lcOf
        rw [hg]; rfl
      | some m =>
        obtain ⟨k, hk, hkm⟩ := AList.get?_mem hg
        have hmat : Spec.matrix s' ⟨a, b⟩ = m.adj := by
          show (lcOf s'.pcm ⟨a, b⟩).adj = _
          rw [lcOf_of_get? hg]
        have hfile : d'.adj k = some m.adj := by
          rw [hw]
          exact writeAdjacency_mem (e := (k, m)) (((he.lc s'.pcm.lcs).map (·.1)).nodup_iff.2 hd.nodup)
            ((he.lc s'.pcm.lcs).mem_iff.2 hkm)
        have hnone : ∀ k', k' ≠ k → k'.eqv k = true → d'.adj k' = none := by
          intro k' hne' heq
          by_cases hx : d'.adj k' = none
          · exact hx
          · exfalso
            have hm := adj_names he hr hrun k' hx
            obtain ⟨⟨k1, m1⟩, hm1, hk1⟩ := List.mem_map.1 hm
            have hk1 : k1 = k' := hk1
            subst hk1
            have : ∀ {l : List (ObsId × Meas G N)}, Distinct l → (k1, m1) ∈ l → (k, m) ∈ l → False := by
              intro l hdl
              unfold Distinct at hdl
              induction l with
              | nil => intro h; cases h
              | cons e0 l ih =>
                rw [List.map_cons, List.pairwise_cons] at hdl
                intro q1 q2
                rcases List.mem_cons.1 q1 with q1 | q1
                · rcases List.mem_cons.1 q2 with q2 | q2
                  · rw [← q1] at q2; cases q2; exact hne' rfl
                  · have := hdl.1 k (List.mem_map.2 ⟨_, q2, rfl⟩)
                    rw [← q1] at this
                    rw [show ((k1, m1).1 : ObsId).eqv k = k1.eqv k from rfl, heq] at this
                    cases this
                · rcases List.mem_cons.1 q2 with q2 | q2
                  · have := hdl.1 k1 (List.mem_map.2 ⟨_, q1, rfl⟩)
                    rw [← q2] at this
                    rw [show ((k, m).1 : ObsId).eqv k1 = k.eqv k1 from rfl, ObsId.isEqv.symm _ _ heq] at this
                    cases this
                  · exact ih hdl.2 q1 q2
            exact this hd hm1 hkm
        rw [hmat]
        obtain ⟨x1, x2⟩ := k
        have hk' := hk
        unfold ObsId.eqv at hk'
        split at hk'
        · rename_i hc
          obtain ⟨rfl, rfl⟩ := hc
          refine Or.inl ⟨hfile, fun hne' => hnone ⟨x2, x1⟩ (fun e => hne' (by cases e; rfl)) ?_⟩
          unfold ObsId.eqv
          split
          · rfl
          · rw [if_pos ⟨rfl, rfl⟩]
        · split at hk'
          · rename_i hc
            obtain ⟨rfl, rfl⟩ := hc
            refine Or.inr ⟨hfile, fun hne' => hnone ⟨x2, x1⟩ (fun e => hne' (by cases e; rfl)) ?_⟩
            unfold ObsId.eqv
            split
            · rfl
            · rw [if_pos ⟨rfl, rfl⟩]
          · cases hk'
    · rw [List.concat_eq_append, ← List.append_assoc] at hh
      obtain ⟨rfl, e2⟩ := List.append_inj' hh rfl
      cases e2
      rw [hn op1 (by simp), if_neg (by simp)] at hw
      obtain ⟨s1, hs1, hall⟩ := ih rfl fun o ho => hn o (by simp [List.concat_eq_append, ho])
      refine ⟨s1, hs1, ?_⟩
      show ∀ a b, _ → (d'.adj _ = _ ∧ _) ∨ _
      rw [hw]
      exact hall

/-- C61: without logging no log file is ever written. -/
theorem C61_off {cfg : Cfg G T N} {env : Env G N} {w : Writer G N K} (hl : cfg.log = false) {h : List (Op G N)}
    {p : LSt G T N K} (r : Spec.LogRun cfg env w h p) :
    p.2.status = [] ∧ p.2.spin = [] ∧ (∀ id, p.2.adj id = none) ∧ p.2.log.g2o = none ∧ p.2.log.weights = none := by
  induction r with
  | init => exact ⟨rfl, rfl, fun _ => rfl, rfl, rfl⟩
  | @step h p op p' x r e ih =>
    obtain ⟨s, d⟩ := p
    obtain ⟨s', d'⟩ := p'
    have hw := execL_wrote e
    have h1 := hw.status
    have h2 := hw.log
    have h3 := hw.spin
    have h4 := hw.adj
    rw [hl, Bool.false_and, if_neg (by simp)] at h1 h2
    rw [hl, Bool.false_and, Bool.false_and, if_neg (by simp)] at h3 h4
    rw [List.append_nil] at h3
    exact ⟨h1.trans ih.1, h3.trans ih.2.1, fun id => (congrFun h4 id).trans (ih.2.2.1 id), (congrArg _ h2).trans ih.2.2.2.1,
      (congrArg _ h2).trans ih.2.2.2.2⟩

/-- C61: `saveData` writes graph, estimate and weights of now into the folder it is given, and no log file. -/
theorem C61_save {cfg : Cfg G T N} {env : Env G N} {w : Writer G N K} {p p' : LSt G T N K} {x : Ret}
    (e : execL cfg env w .saveData p = .ok p' x) :
    (∃ f, writeG2o w p.1.nfg p.1.values [] = .ok f () ∧ p'.2.user.g2o = some f) ∧
    (cfg.useGnc = true → p'.2.user.weights = some p.1.gncW) ∧ (cfg.useGnc = false → p'.2.user.weights = p.2.user.weights) ∧
    p'.2.status = p.2.status ∧ p'.2.spin = p.2.spin ∧ p'.2.adj = p.2.adj ∧ p'.2.log = p.2.log := by
  obtain ⟨p1, _, h1, h2⟩ := M.bind_eq_ok.1
    (show (saveFolder cfg w (fun d => d.user) (fun f d => { d with user := f })).ret (fun _ => Ret.unit) p = _ from e)
  cases h2
  unfold saveFolder at h1
  rcases writeG2o_cases w p.1.nfg p.1.values with ⟨_, f, e1⟩ | ⟨_, f, e1⟩
  · rw [e1] at h1
    cases h1
    refine ⟨⟨f, e1, rfl⟩, fun hg => ?_, fun hg => ?_, rfl, rfl, rfl, rfl⟩ <;> simp [hg]
  · rw [e1] at h1; cases h1

/-! ### Cases -/
section
open Demo

/-- The demonstration parameters with logging. -/
def logCfg : Cfg Z Tp Ns := { Demo.cfg with log := true }

set_option maxRecDepth 100000 in
theorem logged_h1 : ∃ s, ReachOk logCfg Demo.env Demo.h1 s ∧ (s.nfg.length = 6 ∧ s.pcm.totalLc = 2 ∧ s.pcm.totalGood = 2 ∧
    (Spec.matrix s ⟨97, 97⟩).n = 2 ∧ (Spec.registered s ⟨97, 97⟩).length = 2 ∧
    (lines (writeG2o (writer coupled) s.nfg s.values [])).length = 9) := by
  obtain ⟨s, r, h⟩ := runs_reach (cfg := logCfg) (env := Demo.env) (ops := Demo.h1) (P := fun s => decide (
    s.nfg.length = 6 ∧ s.pcm.totalLc = 2 ∧ s.pcm.totalGood = 2 ∧
    (Spec.matrix s ⟨97, 97⟩).n = 2 ∧ (Spec.registered s ⟨97, 97⟩).length = 2 ∧
    (lines (writeG2o (writer coupled) s.nfg s.values [])).length = 9)) (by decide +kernel)
  exact ⟨s, r, of_decide_eq_true h⟩

/-- The hypotheses of the theorems are met by `Demo.h1`: four rows in each log, the last with six factors, two closures and
two inliers, a g2o file of nine lines and a matrix with two rows. -/
example : ∃ p, Spec.LogRun logCfg Demo.env (writer coupled) Demo.h1 p ∧
    p.2.status.length = 4 ∧ p.2.status[3]? = some (6, 2, 2) ∧ p.2.spin.length = 4 ∧ p.2.spin[3]? = some (2, 2) ∧
    (p.2.adj ⟨97, 97⟩).map (fun m => m.n) = some 2 ∧ (p.2.log.g2o.map fun f => f.length) = some 9 := by
  obtain ⟨s, r, h1, h2, h3, h4, h5, h6⟩ := logged_h1
  obtain ⟨d, l⟩ := reach_logRun (writer coupled) r
  refine ⟨_, l, (C61_status rfl l).1, ?_, (C61_rejection rfl rfl l).1, ?_, ?_, ?_⟩
  · obtain ⟨s1, n, k, r1, e1, e2, e⟩ := (C61_status rfl l).2 (Demo.h1.take 3) _ [] rfl rfl
    cases r.det r1
    rw [(numLC_iff rfl).1 e1, (numInliers_iff rfl rfl).1 e2, h1, h2, h3] at e
    exact e
  · obtain ⟨s1, n, k, r1, e1, e2, e⟩ := (C61_rejection rfl rfl l).2 (Demo.h1.take 3) _ [] rfl rfl
    cases r.det r1
    rw [(numLC_iff rfl).1 e1, (numInliers_iff rfl rfl).1 e2, h2, h3] at e
    exact e
  · obtain ⟨s1, r1, e⟩ := C61_adjacency_partial Demo.env_ok rfl rfl l (h1 := Demo.h1.take 3) (h2 := []) rfl rfl (by simp)
    cases r.det r1
    have hne : Spec.registered s ⟨97, 97⟩ ≠ [] := fun e => by rw [e] at h5; cases h5
    rcases e 97 97 hne with ⟨e, _⟩ | ⟨e, _⟩ <;> rw [e, Option.map_some, h4]
  · obtain ⟨s1, f, r1, e1, e2, _⟩ := (C61_result_partial rfl l).2 (Demo.h1.take 3) _ [] rfl rfl (by simp)
    cases r.det r1
    rw [e1] at h6
    rw [e2]
    exact congrArg some h6

set_option maxRecDepth 100000 in
theorem removed_h1 : ∃ s, ReachOk logCfg Demo.env (Demo.h1 ++ [.removeLast]) s ∧ (Spec.registered s ⟨97, 97⟩).length = 1 ∧
    g2oOk s.nfg = true ∧ (lines (writeG2o (writer coupled) s.nfg s.values [])).length = 8 := by
  obtain ⟨s, r, h⟩ := runs_reach (cfg := logCfg) (env := Demo.env) (ops := Demo.h1 ++ [.removeLast]) (P := fun s => decide (
    (Spec.registered s ⟨97, 97⟩).length = 1 ∧ g2oOk s.nfg = true ∧
    (lines (writeG2o (writer coupled) s.nfg s.values [])).length = 8)) (by decide +kernel)
  exact ⟨s, r, of_decide_eq_true h⟩

/-- C61, false part: the files can disagree with the solver. After `removeLastLoopClosure()` the log folder has the
graph and the matrix with the removed closure (two rows for the one closure left). -/
theorem C61_false_stale : ∃ (h : List (Op Z Ns)) (p : LSt Z Tp Ns ℚ), Spec.LogRun logCfg Demo.env (writer coupled) h p ∧
    (∃ f f', writeG2o (writer coupled) p.1.nfg p.1.values [] = .ok f () ∧ p.2.log.g2o = some f' ∧ f'.length = f.length + 1) ∧
    (p.2.adj ⟨97, 97⟩).map (fun m => m.n) = some 2 ∧ (Spec.registered p.1 ⟨97, 97⟩).length = 1 := by
  obtain ⟨s, r, _, _, _, h4, h5, h6⟩ := logged_h1
  obtain ⟨s', r', g1, g2, g3⟩ := removed_h1
  obtain ⟨d, l⟩ := reach_logRun (writer coupled) r'
  refine ⟨_, _, l, ?_, ?_, g1⟩
  · obtain ⟨s1, f', r1, e1, e2, _⟩ := (C61_result_partial rfl l).2 (Demo.h1.take 3) (Demo.h1[3]'(by decide)) [.removeLast] rfl rfl (by simp [Spec.logged])
    cases r.det r1
    rw [e1] at h6
    rcases writeG2o_cases (writer coupled) s'.nfg s'.values with ⟨_, f, e⟩ | ⟨hx, _⟩
    · refine ⟨f, f', e, e2, ?_⟩
      rw [e] at g3
      have g3 : f.length = 8 := g3
      have h6 : f'.length = 9 := h6
      omega
    · rw [g2] at hx; cases hx
  · obtain ⟨s1, r1, e⟩ := C61_adjacency_partial Demo.env_ok rfl rfl l (h1 := Demo.h1.take 3) (op := Demo.h1[3]'(by decide)) (h2 := [.removeLast]) rfl rfl
      (by simp [Spec.hasFactors, Spec.batch])
    cases r.det r1
    have hne : Spec.registered s ⟨97, 97⟩ ≠ [] := fun e => by rw [e] at h5; cases h5
    rcases e 97 97 hne with ⟨e, _⟩ | ⟨e, _⟩ <;> rw [e, Option.map_some, h4]

/-- An optimizer that fails. -/
def noOpt : Env Z Ns := { Demo.env with opt := fun _ _ => none }

/-- The files of a call that throws satisfy `P`. -/
def throwsWith (P : Disk ℚ → Bool) : Out (LSt Z Tp Ns ℚ) Ret → Bool
  | .throw p _ => P p.2
  | _ => false

set_option maxRecDepth 100000 in
/-- C61, false part: if the optimizer throws, the log of the outlier rejection has a row for the update and the status log
has none. -/
theorem C61_false_rows : ∃ (op : Op Z Ns) (p : LSt Z Tp Ns ℚ) (x : Exn),
    execL logCfg noOpt (writer coupled) op (St.init, {}) = .throw p x ∧ p.2.spin.length = 1 ∧ p.2.status.length = 0 := by
  have h : throwsWith (fun d => decide (d.spin.length = 1 ∧ d.status.length = 0)) (execL logCfg noOpt (writer coupled)
      (.forceUpdate [some (.prior (a 0) (z 0)), edge (a 0) (a 1) 1] [pose (a 0) 0, pose (a 1) 1]) (St.init, {})) = true := by
    decide +kernel
  refine ⟨.forceUpdate [some (.prior (a 0) (z 0)), edge (a 0) (a 1) 1] [pose (a 0) 0, pose (a 1) 1], ?_⟩
  cases e : execL logCfg noOpt (writer coupled)
      (.forceUpdate [some (.prior (a 0) (z 0)), edge (a 0) (a 1) 1] [pose (a 0) 0, pose (a 1) 1]) (St.init, {}) with
  | throw p x =>
    rw [e] at h
    exact ⟨p, x, rfl, of_decide_eq_true h⟩
  | ok _ _ => rw [e] at h; cases h
  | ub _ => rw [e] at h; cases h

end

end RPGO.Props
