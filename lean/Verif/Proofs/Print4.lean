import Verif.Proofs.Print3
/-
The messages of a call that carries a batch.
-/

namespace RPGO
open Spec (hush single)
variable {G T N : Type} {σ τ α β : Type}

theorem onPcmT_ok {m : M (Talk (Pcm G T N)) α} {q q' : Talk (St G T N)} {a : α} (h : onPcmT m q = .ok q' a) :
    m (q.1.pcm, q.2) = .ok (q'.1.pcm, q'.2) a ∧ q'.1 = { q.1 with pcm := q'.1.pcm } := by
  obtain ⟨t, h1, h2⟩ := M.zoom_eq_ok.1 h
  subst h2
  exact ⟨h1, rfl⟩

theorem processCandsT_says {cfg : Cfg G T N} {v : Bool} {vals : Vals G} {bs : List (Btw G N)} {q q' : Talk (Pcm G T N)}
    (h : processCandsT cfg v vals bs q = .ok q' ()) :
    q'.2 = q.2 ++ candMsgs cfg v vals (lk cfg q.1) (obsOf q.1) bs ++ tells v (.registered q'.1.totalLc) ++ tells v (.inliers q'.1.totalGood) := by
  obtain ⟨q1, num, h1, h⟩ := M.bind_eq_ok.1 h
  obtain ⟨q2, _, h2, h⟩ := M.bind_eq_ok.1 h
  obtain ⟨q3, _, h3, h4⟩ := M.bind_eq_ok.1 h
  have hp := hush_ok h1
  rw [hush_parseLoops] at hp
  obtain ⟨hn, t⟩ := parseLoops_ok hp
  obtain ⟨a1, a2⟩ := tell_ok h2
  obtain ⟨b1, b2⟩ := mute_ok h3
  obtain ⟨c1, c2⟩ := tell_ok h4
  have hl : q3.1.totalLc = q1.1.totalLc := by
    rw [a1] at b1
    unfold M.cond at b1
    split at b1
    · have := findInliersIncremental_ok (by rw [hn]; exact bumps_registered t) b1
      rw [this.1]
    · rw [(findInliers_ok b1).1]
  rw [c2, b2, a2, parseLoopsT_says bs h1, c1, hl]

section
variable [Mul G] [Inv G] [One G]

/-- The warnings of the frame alignment. -/
def alignMsgs (cfg : Cfg G T N) (p : Pcm G T N) : List Msg :=
  if cfg.align && decide (1 < p.robotOrder.length) then
    match sortRobots cfg.charSigned p.robotOrder with
    | [] => []
    | r0 :: rs => (rs.filter (passedOver cfg p r0)).map (Msg.noClosures r0)
  else []

theorem forEach_says {f : β → M (Talk σ) Unit} {g : β → List Msg} (h : ∀ b q q', f b q = .ok q' () → q'.2 = q.2 ++ g b) (l : List β)
    {q q' : Talk σ} (e : M.forEach f l q = .ok q' ()) : q'.2 = q.2 ++ l.flatMap g := by
  induction l generalizing q with
  | nil => cases e; simp
  | cons b l ih =>
    obtain ⟨q1, _, h1, h2⟩ := M.bind_eq_ok.1 e
    rw [ih h2, h b q q1 h1, List.append_assoc]
    rfl

theorem passedOver_robots (cfg : Cfg G T N) (p : Pcm G T N) (o : List Chr) (r0 ri : Chr) :
    passedOver cfg { p with robotOrder := o } r0 ri = passedOver cfg p r0 ri := by
  unfold passedOver
  have h : ∀ l, alignCandidates cfg { p with robotOrder := o } r0 ri l = alignCandidates cfg p r0 ri l := by
    intro l
    induction l with
    | nil => rfl
    | cons b l ih => unfold alignCandidates; rw [ih]; rfl
  show (match AList.get? ObsId.eqv p.lcs ⟨r0, ri⟩ with | none => true | some m => _) = _
  cases AList.get? ObsId.eqv p.lcs ⟨r0, ri⟩ with
  | none => rfl
  | some m => simp only [h]

theorem filter_flat {l : List α} {c : α → Bool} {f : α → Msg} : l.flatMap (fun a => tells (c a) (f a)) = (l.filter c).map f := by
  induction l with
  | nil => rfl
  | cons a l ih =>
    rw [List.flatMap_cons, ih, List.filter_cons]
    unfold tells
    cases c a <;> rfl

theorem alignStepT_says {cfg : Cfg G T N} {env : Env G N} {q q' : Talk (St G T N)} (h : alignStepT cfg env q = .ok q' ()) :
    q'.1.pcm = { q.1.pcm with robotOrder := q'.1.pcm.robotOrder } ∧ q'.2 = q.2 ++ alignMsgs cfg q.1.pcm := by
  unfold alignStepT at h
  unfold alignMsgs
  split at h
  · rename_i hc
    rw [if_pos hc]
    simp only at h
    split at h
    · rename_i w _ e
      cases h
      refine ⟨rfl, ?_⟩
      generalize hp : ({ q.1.pcm with robotOrder := sortRobots cfg.charSigned q.1.pcm.robotOrder } : Pcm G T N) = p' at e
      cases ho : sortRobots cfg.charSigned q.1.pcm.robotOrder with
      | nil => rw [ho] at e; cases e; simp
      | cons r0 rs =>
        rw [ho] at e
        obtain ⟨q1, _, h1, h2⟩ := M.bind_eq_ok.1 e
        have := forEach_says (g := fun ri => tells (passedOver cfg q.1.pcm r0 ri) (.noClosures r0 ri)) (fun ri a b hh => by
          obtain ⟨a1, _, g1, g2⟩ := M.bind_eq_ok.1 hh
          rw [(say_ok g2).2, (mute_ok g1).2, ← hp, passedOver_robots]) rs h2
        show w.2 = _
        rw [this, (mute_ok h1).2, filter_flat]
    · cases h
    · cases h
  · rename_i hc
    cases h
    rw [if_neg hc]
    simp

/-- What was said and done for a batch with at least one factor. -/
structure Told (cfg : Cfg G T N) (v : Bool) (fs : Graph G N) (vs : Vals G) (q q' : Talk (St G T N)) (v1 : Vals G) (p1 p2 : Pcm G T N) : Prop where
  sorted : Sorted cfg vs v1 fs q.1.pcm p1
  none : Spec.cands cfg vs fs = [] → p2 = p1
  some : Spec.cands cfg vs fs ≠ [] → processCands cfg v1 (Spec.cands cfg vs fs) p1 = .ok p2 ()
  pcm : q'.1.pcm = { p2 with robotOrder := q'.1.pcm.robotOrder }
  keys : KeysSame v1 q'.1.values
  order : q'.1.pcm.robotOrder.Perm p2.robotOrder
  said : q'.2 = q.2 ++ (fs.flatMap (sortMsg cfg v vs) ++ (candMsgs cfg v v1 (lk cfg p1) (obsOf p1) (Spec.cands cfg vs fs) ++
    (if Spec.cands cfg vs fs = [] then [] else tells v (.registered p2.totalLc) ++ tells v (.inliers p2.totalGood)) ++
    alignMsgs cfg p2 ++
    tells (v && (!(Spec.specials fs).isEmpty || !(Spec.cands cfg vs fs).isEmpty)) (.spin p2.totalLc p2.totalGood)))

theorem processFactorsT_says {cfg : Cfg G T N} {v : Bool} {env : Env G N} {fs : Graph G N} {vs : Vals G} {q q' : Talk (St G T N)}
    {r : Bool} (h : processFactorsT cfg v env fs vs q = .ok q' r) :
    r = (!(Spec.specials fs).isEmpty || !(Spec.cands cfg vs fs).isEmpty) ∧ ∃ p1 p2, Told cfg v fs vs q q' q.1.values p1 p2 := by
  unfold processFactorsT at h
  simp only [M.bind_eq] at h
  rw [M.bind_ok (M.get_apply _)] at h
  obtain ⟨q1, rr, h1, h⟩ := M.bind_eq_ok.1 h
  obtain ⟨q2, _, h2, h⟩ := M.bind_eq_ok.1 h
  obtain ⟨q3, _, h3, h⟩ := M.bind_eq_ok.1 h
  obtain ⟨q4, _, h4, h⟩ := M.bind_eq_ok.1 h
  obtain ⟨q5, _, h5, h6⟩ := M.bind_eq_ok.1 h
  cases h6
  obtain ⟨g1, e1⟩ := onPcmT_ok h1
  have hs := hush_ok g1
  rw [hush_sortFactors] at hs
  obtain ⟨hS, hr1, hr2⟩ := sortFactors_ok _ _ _ _ _ _ _ _ _ hs
  rw [List.nil_append] at hr1
  have m1 := sortFactorsT_says fs g1
  simp only at m1
  obtain ⟨g3, m3⟩ := mute_ok h3
  have e3 : q3.1.pcm = q2.1.pcm := by rw [← (Out.ok.inj g3).1]
  obtain ⟨e4, m4⟩ := alignStepT_says h4
  obtain ⟨e5, m5⟩ := tell_ok h5
  have hr : (rr.2 || decide (rr.1.length > 0)) = (!(Spec.specials fs).isEmpty || !(Spec.cands cfg vs fs).isEmpty) := by
    rw [hr2, hr1]
    cases Spec.cands cfg vs fs <;> simp
  have hq4 : q4.1.pcm.totalLc = q2.1.pcm.totalLc ∧ q4.1.pcm.totalGood = q2.1.pcm.totalGood := by rw [e4, ← e3]; exact ⟨rfl, rfl⟩
  have hkeys : KeysSame q.1.values q'.1.values := by
    have b1 : q1.1.values = q.1.values := by rw [e1]
    have b2 : q2.1.values = q1.1.values := by
      unfold M.when at h2
      split at h2
      · rw [(onPcmT_ok h2).2]
      · cases h2; rfl
    have b3 : q3.1.values = q2.1.values := by rw [← (Out.ok.inj g3).1]
    have b4 := hush_ok h4
    rw [hush_alignStep] at b4
    have := ((alignStep_frame cfg env).of_ok b4).values
    rw [b3, b2, b1] at this
    rw [e5]; exact this
  have hord : q'.1.pcm.robotOrder.Perm q2.1.pcm.robotOrder := by
    have b4 := hush_ok h4
    rw [hush_alignStep] at b4
    have := ((alignStep_frame cfg env).of_ok b4).order
    rw [e3] at this
    rw [e5]; exact this
  refine ⟨hr, q1.1.pcm, q2.1.pcm, hS, ?_, ?_, ?_, hkeys, hord, ?_⟩
  · intro hc
    rw [hr1, hc] at h2
    cases h2; rfl
  · intro hc
    have hlen : decide (rr.1.length > 0) = true := by
      rw [hr1]
      cases hcc : Spec.cands cfg vs fs
      · exact absurd hcc hc
      · simp
    unfold M.when at h2
    rw [if_pos hlen, hr1] at h2
    have hh := hush_ok (onPcmT_ok h2).1
    rw [hush_processCands] at hh
    exact hh
  · rw [e5, e4, e3]
  · rw [m5, hq4.1, hq4.2, hr, m4, e3, m3]
    unfold M.when at h2
    by_cases hc : Spec.cands cfg vs fs = []
    · rw [hr1, hc] at h2
      cases h2
      rw [hc, m1]
      simp [candMsgs]
    · have hlen : decide (rr.1.length > 0) = true := by
        rw [hr1]
        cases hcc : Spec.cands cfg vs fs
        · exact absurd hcc hc
        · simp
      rw [if_pos hlen, hr1] at h2
      have := processCandsT_says (onPcmT_ok h2).1
      simp only at this
      rw [this, m1, if_neg hc]
      simp

theorem applyResult_gncNum (vs : Vals G) : M.Pres (fun a b : St G T N => b.gncNum = a.gncNum) (applyResult vs) := by
  induction vs with
  | nil => exact fun _ => rfl
  | cons e t ih =>
    obtain ⟨k, v⟩ := e
    intro s
    unfold applyResult
    split
    · split
      · exact M.Ends.mono (fun s' h => h.trans rfl) (ih _)
      · rfl
    · split
      · split
        · exact M.Ends.mono (fun s' h => h.trans rfl) (ih _)
        · rfl
      · exact ih s

/-- The messages of an optimization that ended in `s`. -/
def optMsgs (cfg : Cfg G T N) (gnc : Bool) (s : St G T N) : List Msg :=
  tells cfg.debug (.running cfg.lm) ++
    if gnc then tells cfg.debug (.gncOptimized s.pcm.totalGood s.gncNum)
    else tells (cfg.lm && cfg.debug) (.optimized s.pcm.totalLc (shownInliers cfg s))

theorem optimizeT_says {cfg : Cfg G T N} {env : Env G N} {q q' : Talk (St G T N)} (h : optimizeT cfg env q = .ok q' ()) :
    OptFrame q.1 q'.1 ∧ q'.2 = q.2 ++ optMsgs cfg (useGncNow cfg q.1) q'.1 := by
  have hf := hush_ok h
  rw [hush_optimize] at hf
  refine ⟨(optimize_frame cfg env).of_ok hf, ?_⟩
  unfold optimizeT at h
  simp only [M.bind_eq] at h
  rw [M.bind_ok (M.get_apply _)] at h
  cases hm : mergeVals q.1.values q.1.tempValues with
  | none => rw [hm] at h; cases h
  | some full =>
    rw [hm] at h
    simp only at h
    obtain ⟨q1, _, h1, h⟩ := M.bind_eq_ok.1 h
    obtain ⟨q2, res, h2, h⟩ := M.bind_eq_ok.1 h
    obtain ⟨q3, _, h3, h4⟩ := M.bind_eq_ok.1 h
    obtain ⟨a1, a2⟩ := say_ok h1
    obtain ⟨c1, c2⟩ := mute_ok h3
    obtain ⟨d1, d2⟩ := mute_ok h4
    have e1 : q3.1.pcm = q2.1.pcm ∧ q3.1.gncNum = q2.1.gncNum :=
      ⟨((applyResult_frame res).of_ok c1).pcm, (applyResult_gncNum res).of_ok c1⟩
    have e2 : q'.1.pcm = q3.1.pcm ∧ q'.1.gncNum = q3.1.gncNum := by
      unfold M.when at d1
      split at d1
      · rw [← (Out.ok.inj d1).1]; exact ⟨rfl, rfl⟩
      · rw [← (Out.ok.inj d1).1]; exact ⟨rfl, rfl⟩
    have e3 : q'.1.pcm = q2.1.pcm := e2.1.trans e1.1
    have e4 : q'.1.gncNum = q2.1.gncNum := e2.2.trans e1.2
    rw [d2, c2]
    unfold optMsgs
    unfold M.cond at h2
    split at h2
    · rename_i hu
      rw [if_pos hu]
      obtain ⟨q4, _, g1, h2⟩ := M.bind_eq_ok.1 h2
      obtain ⟨q5, _, g2, g3⟩ := M.bind_eq_ok.1 h2
      cases g3
      obtain ⟨b1, b2⟩ := tell_ok g2
      rw [b2, (mute_ok g1).2, a2, e3, e4, b1, List.append_assoc]
    · rename_i hu
      rw [if_neg hu]
      obtain ⟨q4, _, g1, h2⟩ := M.bind_eq_ok.1 h2
      obtain ⟨q5, _, g2, g3⟩ := M.bind_eq_ok.1 h2
      cases g3
      obtain ⟨b1, b2⟩ := tell_ok g2
      have : shownInliers cfg q'.1 = shownInliers cfg q4.1 := by unfold shownInliers; rw [e3, e4, b1]
      rw [b2, (mute_ok g1).2, a2, e3, this, b1, List.append_assoc]

theorem execT_batch {cfg : Cfg G T N} {v : Bool} {env : Env G N} (hr : cfg.rejection = true) {op : Op G N} {fs : Graph G N}
    {vs : Vals G} (hb : Spec.batch op = some (fs, vs)) {q q' : Talk (St G T N)} {r : Ret} (h : execT cfg v env op q = .ok q' r) :
    ∃ q1 d, removeOutliersT cfg v env fs vs q = .ok q1 d ∧ OptFrame q1.1 q'.1 ∧
      (q'.2 = q1.2 ∨ ∃ g, q'.2 = q1.2 ++ optMsgs cfg g q'.1) := by
  have hcond : M.cond cfg.rejection (removeOutliersT cfg v env fs vs) (mute (addAndCheck fs vs)) = removeOutliersT cfg v env fs vs := by
    unfold M.cond; rw [if_pos hr]
  have hlog : ∀ {c : Bool} {a b : Talk (St G T N)}, mute (M.when c (logStatus cfg)) a = .ok b () → b = a := by
    intro c a b hh
    obtain ⟨x, y⟩ := mute_ok hh
    unfold M.when at x
    split at x
    · exact Prod.ext ((logStatus_same cfg).of_ok x) y
    · exact Prod.ext (Out.ok.inj x).1.symm y
  cases op <;> simp only [Spec.batch, Option.some.injEq, Prod.mk.injEq, reduceCtorEq] at hb
  · obtain ⟨rfl, rfl⟩ := hb
    obtain ⟨q3, _, h0, h4⟩ := M.bind_eq_ok.1 h
    cases h4
    clear h
    have h := h0
    unfold updateT at h
    simp only [M.bind_eq] at h
    rw [hcond] at h
    obtain ⟨q1, d, h1, h⟩ := M.bind_eq_ok.1 h
    obtain ⟨q2, _, h2, h3⟩ := M.bind_eq_ok.1 h
    have e := hlog h3
    subst e
    unfold M.when at h2
    split at h2
    · obtain ⟨a, b⟩ := optimizeT_says h2
      exact ⟨q1, d, h1, a, Or.inr ⟨_, b⟩⟩
    · cases h2
      exact ⟨_, d, h1, OptFrame.refl _, Or.inl rfl⟩
  · obtain ⟨rfl, rfl⟩ := hb
    obtain ⟨q3, _, h0, h4⟩ := M.bind_eq_ok.1 h
    cases h4
    clear h
    have h := h0
    unfold forceUpdateT at h
    simp only [M.bind_eq] at h
    rw [hcond] at h
    obtain ⟨q1, d, h1, h⟩ := M.bind_eq_ok.1 h
    obtain ⟨q2, _, h2, h3⟩ := M.bind_eq_ok.1 h
    have e := hlog h3
    subst e
    obtain ⟨a, b⟩ := optimizeT_says h2
    exact ⟨q1, d, h1, a, Or.inr ⟨_, b⟩⟩

end

end RPGO
