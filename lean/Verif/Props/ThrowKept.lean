import Verif.Props.Defer
import Verif.Proofs.Caught
import Verif.Props.FailureOpt
import Verif.Props.Align
import Verif.Props.Progress
import Verif.Props.Caught
/-
C104 a call that throws leaves no half-written estimate.
-/

namespace RPGO.Spec
variable {G T N : Type}

/-- Whatever result an optimizer returns, if any: it is about keys it was given values for, and does not change their types. -/
structure KeepsTypes (env : Env G N) : Prop where
  opt : ∀ g v r, env.opt g v = some r → ∀ e ∈ r, ∃ y, v.find? e.1 = some y ∧ y.sameType e.2 = true
  gnc : ∀ g v known init r w, env.gnc g v known init = some (r, w) →
    ∀ e ∈ r, ∃ y, v.find? e.1 = some y ∧ y.sameType e.2 = true

/-- The estimates that existed before are as they were. -/
def EarlierKept (s s' : St G T N) : Prop := ∀ k ∈ s.values.keys, s'.values.find? k = s.values.find? k

end RPGO.Spec

namespace RPGO
variable {G T N : Type} [Mul G] [Inv G] [One G]

theorem stored_total {full : Vals G} {s s1 : St G T N} (hm : mergeVals s.values s.tempValues = some full)
    (h1 : s1.values = s.values) (h2 : s1.tempValues = s.tempValues) {r : Vals G}
    (h : ∀ e ∈ r, ∃ y, full.find? e.1 = some y ∧ y.sameType e.2 = true) : ∃ s', applyResult r s1 = .ok s' () := by
  have hfind : ∀ k, full.find? k = if s.values.has k = true then s.values.find? k else s.tempValues.find? k := by
    unfold mergeVals at hm
    split at hm
    · rename_i v _ e; cases hm; exact (insertVals_ok e).1
    · cases hm
  refine applyResult_split r s1 fun e he => ?_
  obtain ⟨y, hy, hs⟩ := h e he
  refine ⟨y, ?_, hs⟩
  rw [h1, h2]
  rw [hfind] at hy
  unfold KMap.has at hy
  cases hx : s.values.find? e.1 with
  | none => rw [hx] at hy; exact Or.inr ⟨rfl, by simpa using hy⟩
  | some z => rw [hx] at hy; exact Or.inl (by simpa using hy)

/-- An optimization that throws has changed nothing. -/
theorem optimize_throw_same {cfg : Cfg G T N} {env : Env G N} (ht : Spec.KeepsTypes env) {s s' : St G T N} {x : Exn}
    (h : optimize cfg env s = .throw s' x) : s' = s := by
  unfold optimize at h
  simp only [M.bind_eq] at h
  rw [M.bind_ok (M.get_apply _)] at h
  cases hv : mergeVals s.values s.tempValues with
  | none => rw [hv] at h; cases h; rfl
  | some full =>
    rw [hv] at h
    simp only at h
    rcases M.bind_eq_throw.1 h with h | ⟨s1, res, h1, h⟩
    · unfold M.cond at h
      split at h
      · exact gncOptimize_throw h
      · exact plainOptimize_throw h
    · rcases M.bind_eq_throw.1 h with h | ⟨s2, u, h2, h⟩
      · exfalso
        have : ∃ s', applyResult res s1 = .ok s' () := by
          unfold M.cond at h1
          split at h1
          · obtain ⟨w, e, -, -, rfl⟩ := gncOptimize_ok h1
            refine stored_total (s := s) hv ?_ ?_ (ht.gnc _ _ _ _ _ _ e) <;> rfl
          · obtain ⟨g, -, e, -, -, rfl⟩ := plainOptimize_ok h1
            refine stored_total (s := s) hv ?_ ?_ (ht.opt _ _ _ e) <;> rfl
        obtain ⟨s2, e⟩ := this
        rw [e] at h; cases h
      · unfold M.when at h
        split at h <;> cases h

/-- The end of a call throws: it changed nothing, or all that is missing is the log. -/
theorem wrapUp_throw {cfg : Cfg G T N} {env : Env G N} (ht : Spec.KeepsTypes env) {b l : Bool} {s s' : St G T N} {x : Exn}
    (h : wrapUp cfg env b l s = .throw s' x) :
    s' = s ∨ (x = .invalidArg ∧ l = true ∧ wrapUp cfg env b false s = .ok s' .unit) := by
  unfold wrapUp at h
  rcases M.bind_eq_throw.1 h with h | ⟨s1, u, h1, h⟩
  · rcases M.bind_eq_throw.1 h with h | ⟨s1, u, h1, h⟩
    · left
      cases b with
      | false => cases h
      | true => exact optimize_throw_same ht h
    · right
      cases l with
      | false => cases h
      | true =>
        have h : logStatus cfg s1 = .throw s' x := h
        have e := (logStatus_same cfg).of_throw h
        subst e
        refine ⟨logStatus_throw h, rfl, ?_⟩
        unfold wrapUp
        rw [M.bind_apply, M.bind_ok h1]
        rfl
  · cases h

omit [Mul G] [Inv G] [One G] in
theorem addAndCheck_kept (fs : Graph G N) (vs : Vals G) : M.Pres Spec.EarlierKept (addAndCheck fs vs : M (St G T N) Bool) := by
  intro s
  unfold addAndCheck
  simp only [M.bind_eq]
  rw [M.bind_ok (M.modify_apply _ _), M.bind_apply]
  unfold onValues M.zoom
  cases hi : insertVals vs s.values with
  | ub u => trivial
  | throw v y => exact Props.insert_kept (Or.inr ⟨_, hi⟩)
  | ok v y =>
    have hk : Spec.EarlierKept s ({ s with nfg := s.nfg ++ fs, values := v } : St G T N) := Props.insert_kept (Or.inl ⟨_, hi⟩)
    rcases fs with _ | ⟨_ | f, _ | ⟨g, t⟩⟩
    · exact hk
    · trivial
    · exact hk
    · exact hk
    · exact hk

theorem takeIn_kept {cfg : Cfg G T N} {env : Env G N} {fs : Graph G N} {vs : Vals G} {s s' : St G T N} {x : Exn}
    (h : M.cond cfg.rejection (removeOutliers cfg env fs vs) (addAndCheck fs vs) s = .throw s' x) : Spec.EarlierKept s s' := by
  unfold M.cond at h
  split at h
  · have := Props.removeOutliers_throw cfg env fs vs s
    rw [h] at this
    exact this
  · exact (addAndCheck_kept fs vs).of_throw h

end RPGO

namespace RPGO.Props
variable {G T N : Type} [Mul G] [Inv G] [One G]

/-- C104: what a call that throws has done to the estimate, from any state and in any configuration, unless it is
`updateValues`. Either every estimate that existed before is as it was. Or the call is an update, its optimization failed,
and the estimate is the one which the same update without optimization leaves (this differs from the first case only with
frame alignment). Or all that failed is the status log, and the call has done what it does without. In particular no call
leaves a part of an optimizer's result. -/
theorem C104_throw {cfg : Cfg G T N} {env : Env G N} (ht : Spec.KeepsTypes env) {op : Op G N} (hu : ∀ vs, op ≠ .updateValues vs)
    {s s' : St G T N} {x : Exn} (e : exec cfg env op s = .throw s' x) :
    Spec.EarlierKept s s' ∨
    (∃ fs vs t, Spec.batch op = some (fs, vs) ∧ exec cfg env (.update fs vs false) s = .ok t .unit ∧ s'.values = t.values) ∨
    (x = .invalidArg ∧ cfg.log = true ∧ (Spec.batch op).isSome ∧
      exec { cfg with log := false } env op s = .ok s' .unit) := by
  have same : ∀ {s1 : St G T N}, s1.values = s.values → Spec.EarlierKept s s1 := fun h k _ => by rw [h]
  have two : ∀ {α : Type} {m : M (St G T N) α}, M.Pres SameV m → ∀ {f : α → Ret} {b : Bool},
      M.bind (M.bind m fun a => M.bind (M.when b (optimize cfg env)) fun _ => M.pure a) (fun a => M.pure (f a)) s = .throw s' x →
      Spec.EarlierKept s s' := by
    intro α m hm f b h
    rcases M.bind_eq_throw.1 h with h | ⟨s1, u, h1, h⟩
    · rcases M.bind_eq_throw.1 h with h | ⟨s1, u, h1, h⟩
      · exact same (hm.of_throw h).1
      · rcases M.bind_eq_throw.1 h with h | ⟨s2, u, h2, h⟩
        · cases b with
          | false => cases h
          | true => rw [optimize_throw_same ht h]; exact same (hm.of_ok h1).1
        · cases h
    · cases h
  have one : ∀ {m : M (St G T N) Unit}, M.Pres SameV m → ∀ {b : Bool},
      M.bind (M.bind m fun _ => M.when b (optimize cfg env)) (fun _ => M.pure Ret.unit) s = .throw s' x → Spec.EarlierKept s s' := by
    intro m hm b h
    rcases M.bind_eq_throw.1 h with h | ⟨s1, u, h1, h⟩
    · rcases M.bind_eq_throw.1 h with h | ⟨s1, u, h1, h⟩
      · exact same (hm.of_throw h).1
      · cases b with
        | false => cases h
        | true => rw [optimize_throw_same ht h]; exact same (hm.of_ok h1).1
    · cases h
  have upd : ∀ fs vs (b : Bool → Bool) (l : Bool), Spec.batch op = some (fs, vs) →
      (M.cond cfg.rejection (removeOutliers cfg env fs vs) (addAndCheck fs vs)).bind (fun d => wrapUp cfg env (b d) l) s = .throw s' x →
      (l = true → cfg.log = true) →
      (∀ t d, M.cond cfg.rejection (removeOutliers cfg env fs vs) (addAndCheck fs vs) s = .ok t d →
        exec { cfg with log := false } env op s = wrapUp cfg env (b d) false t) →
      Spec.EarlierKept s s' ∨
      (∃ fs vs t, Spec.batch op = some (fs, vs) ∧ exec cfg env (.update fs vs false) s = .ok t .unit ∧ s'.values = t.values) ∨
      (x = .invalidArg ∧ cfg.log = true ∧ (Spec.batch op).isSome ∧
        exec { cfg with log := false } env op s = .ok s' .unit) := by
    intro fs vs b l hb h hl hq
    rcases M.bind_eq_throw.1 h with h | ⟨t, d, h1, h⟩
    · exact Or.inl (takeIn_kept h)
    · rcases wrapUp_throw ht h with rfl | ⟨hx, h2, h3⟩
      · exact Or.inr (Or.inl ⟨fs, vs, _, hb, exec_work.2 ⟨rfl, d, h1⟩, rfl⟩)
      · exact Or.inr (Or.inr ⟨hx, hl h2, by rw [hb]; rfl, by rw [hq t d h1]; exact h3⟩)
  have hw : ({ cfg with log := false } : Cfg G T N) =
      cfg.withOpt cfg.lm cfg.debug false cfg.useGnc cfg.fixPrev cfg.biasOdom := rfl
  cases op with
  | update fs vs o =>
    rw [update_eq] at e
    refine upd fs vs (fun d => d && o) _ rfl e (by simp; intro h _; exact h) fun t d h1 => ?_
    rw [update_eq, hw, removeOutliers_withOpt]
    exact (M.bind_ok h1).trans rfl
  | forceUpdate fs vs =>
    rw [force_eq] at e
    refine upd fs vs (fun _ => true) _ rfl e id fun t d h1 => ?_
    rw [force_eq, hw, removeOutliers_withOpt]
    exact (M.bind_ok h1).trans rfl
  | removePriors c o =>
    left
    refine one (m := M.cond cfg.rejection (removePriorsPcm cfg env c) (removePriorsGeneric cfg c)) ?_ (b := o) e
    refine M.Pres.cond ?_ (M.Pres.modify fun _ => ⟨rfl, rfl, rfl⟩)
    unfold removePriorsPcm
    exact M.Pres.bind SameV.trans (onPcm_sameV _) fun _ => rebuild_sameV env
  | removeLastPair a b =>
    left
    exact two (m := M.cond cfg.rejection (removeLastOfPair env ⟨a, b⟩) removeLastFactor)
      (M.Pres.cond (removeLastOfPair_sameV env _) removeLastFactor_sameV) (b := true) (f := .edge) e
  | removeLast =>
    left
    refine two (m := M.cond cfg.rejection (removeLastPcm env) removeLastFactor) (M.Pres.cond ?_ removeLastFactor_sameV)
      (b := true) (f := .edge) e
    unfold removeLastPcm
    refine M.Pres.bind SameV.trans (M.Pres.get SameV.refl) fun s => ?_
    split
    · exact M.Pres.pure SameV.refl _
    · exact M.Pres.bind SameV.trans (onPcm_sameV _) fun _ => removeLastOfPair_sameV env _
  | ignore c =>
    left
    refine one (m := M.when cfg.rejection (ignorePcm env c)) ?_ (b := true) e
    unfold ignorePcm
    exact M.Pres.when SameV.refl (M.Pres.bind SameV.trans (onPcm_sameV _) fun _ => rebuild_sameV env)
  | revive c =>
    left
    refine one (m := M.when cfg.rejection (revivePcm env c)) ?_ (b := true) e
    unfold revivePcm
    exact M.Pres.when SameV.refl (M.Pres.bind SameV.trans (onPcm_sameV _) fun _ => rebuild_sameV env)
  | getNumLC =>
    rcases M.bind_eq_throw.1 e with e | ⟨s1, u, h1, e⟩
    · unfold getNumLC at e; split at e <;> cases e
    · cases e
  | getNumLCInliers =>
    rcases M.bind_eq_throw.1 e with e | ⟨s1, u, h1, e⟩
    · unfold getNumLCInliers at e
      split at e
      · cases e
      · split at e <;> cases e
    · cases e
  | saveData =>
    rcases M.bind_eq_throw.1 e with e | ⟨s1, u, h1, e⟩
    · unfold saveData at e
      split at e
      · cases e
      · cases e; exact Or.inl (same rfl)
    · cases e
  | removeFactors is =>
    rcases M.bind_eq_throw.1 e with e | ⟨s1, u, h1, e⟩
    · exact Or.inl (same ((removeFactors_sameV is).of_throw e).1)
    · cases e
  | removeLastFactor =>
    rcases M.bind_eq_throw.1 e with e | ⟨s1, u, h1, e⟩
    · exact Or.inl (same (removeLastFactor_sameV.of_throw e).1)
    · cases e
  | removePriorsGeneric c => cases e
  | updateValues vs => exact absurd rfl (hu vs)
  | genericUpdate fs vs rm =>
    left
    rcases M.bind_eq_throw.1 e with e | ⟨s1, u, h1, e⟩
    · unfold genericUpdate at e
      simp only [M.bind_eq] at e
      rcases M.bind_eq_throw.1 e with e | ⟨s1, u, h1, e⟩
      · exact same ((removeFactors_sameV rm).of_throw e).1
      · have v1 : s1.values = s.values := ((removeFactors_sameV rm).of_ok h1).1
        rcases M.bind_eq_throw.1 e with e | ⟨s2, d, h2, e⟩
        · intro k hk
          rw [← v1] at hk ⊢
          exact (addAndCheck_kept fs vs).of_throw e k hk
        · have k2 : Spec.EarlierKept s s2 := by
            intro k hk
            rw [← v1] at hk ⊢
            exact (addAndCheck_kept fs vs).of_ok h2 k hk
          split at e
          · rw [M.bind_ok (M.get_apply _)] at e
            cases hm : mergeVals s2.values s2.tempValues with
            | none => rw [hm] at e; cases e; exact k2
            | some full =>
              rw [hm] at e
              simp only at e
              cases ho : env.opt (s2.nfg ++ s2.tempNfg) full with
              | none => rw [ho] at e; cases e; exact k2
              | some res =>
                rw [ho] at e
                obtain ⟨s3, e3⟩ := stored_total (s := s2) hm rfl rfl (ht.opt _ _ _ ho)
                rw [show applyResult res s2 = _ from e] at e3
                cases e3
          · cases e
    · cases e
  | tempUpdate fs vs =>
    left
    rcases M.bind_eq_throw.1 (show M.bind (M.zoom (fun s : St G T N => s.tempValues) (fun v s => { s with tempValues := v })
      (insertVals vs)) (fun _ => M.pure Ret.unit) { s with tempNfg := s.tempNfg ++ fs } = .throw s' x from e) with e | ⟨s1, u, h1, e⟩
    · unfold M.zoom at e
      split at e <;> cases e
      exact same rfl
    · cases e
  | tempReplace fs vs => cases e
  | tempClear => cases e

/-- C104: without frame alignment (or with a call that carries no factors) and without status log, a call that throws leaves
every estimate that existed before as it was, whatever the call, the state and the cause. -/
theorem C104_kept {cfg : Cfg G T N} {env : Env G N} (ht : Spec.KeepsTypes env) (hl : cfg.log = false) {op : Op G N}
    (hal : cfg.align = false ∨ cfg.rejection = false ∨ Spec.opFactors op = []) (hu : ∀ vs, op ≠ .updateValues vs)
    {s s' : St G T N} {x : Exn} (e : exec cfg env op s = .throw s' x) :
    ∀ k ∈ s.values.keys, s'.values.find? k = s.values.find? k := by
  rcases C104_throw ht hu e with h | ⟨fs, vs, t, hb, h, hv⟩ | ⟨-, h, -⟩
  · exact h
  · intro k hk
    have hc : Completes (.update fs vs false) s t := by
      cases hr : cfg.rejection with
      | true =>
        have ha : cfg.align = false ∨ Spec.opFactors (.update fs vs false : Op G N) = [] := by
          rcases hal with h1 | h1 | h1
          · exact Or.inl h1
          · rw [hr] at h1; cases h1
          · right
            cases op <;> cases hb <;> exact h1
        obtain ⟨s1, h1, ⟨h2, -⟩ | ⟨-, rfl⟩⟩ := exec_stages_pcm hr ha (op := .update fs vs false) ⟨fun _ h => (nomatch h), fun _ _ _ h => (nomatch h)⟩ h
        · cases h2
        · exact h1
      | false =>
        obtain ⟨s1, h1, ⟨h2, -⟩ | ⟨-, rfl⟩⟩ := exec_stages_plain hr (op := .update fs vs false) ⟨fun _ h => (nomatch h), fun _ _ _ h => (nomatch h)⟩ h
        · cases h2
        · exact h1
    rw [hv, hc.1 k]
    unfold Spec.completed
    rw [if_pos hk]
  · rw [hl] at h; cases h

/-- The optimizers fail, averaging works. -/
def failingAlign : Env Demo.Z Demo.Ns := { alignEnv with opt := fun _ _ => none, gnc := fun _ _ _ _ => none }

theorem keepsTypes_of_fails {G N : Type} {env : Env G N} (h1 : ∀ g v, env.opt g v = none) (h2 : ∀ g v k i, env.gnc g v k i = none) :
    Spec.KeepsTypes env := by
  constructor
  · intro g v r h; rw [h1] at h; cases h
  · intro g v k i r w h; rw [h2] at h; cases h

set_option maxRecDepth 100000 in
/-- The hypotheses of `C104_kept` are met: a forced update with odometry, whose optimization fails; the keys it supplied have
their values, the earlier ones are as they were. -/
example : Spec.KeepsTypes failing ∧ ∃ s s', ReachOk Demo.cfg failing [.update [] [Demo.pose (Demo.a 0) 7] false] s ∧
    exec Demo.cfg failing (.forceUpdate [Demo.edge (Demo.a 0) (Demo.a 1) 1] [Demo.pose (Demo.a 1) 1]) s = .throw s' .optimizer ∧
    s'.values.find? (Demo.a 0) = some (.pose (Demo.z 7)) ∧ s'.values.find? (Demo.a 1) = some (.pose (Demo.z 1)) := by
  refine ⟨keepsTypes_of_fails (fun _ _ => rfl) (fun _ _ _ _ => rfl), ?_⟩
  obtain ⟨s, r, h⟩ := Demo.runs_reach (cfg := Demo.cfg) (env := failing) (ops := [.update [] [Demo.pose (Demo.a 0) 7] false])
    (P := fun s => throwsThen .optimizer (fun s' : St Demo.Z Demo.Tp Demo.Ns => decide (s'.values.find? (Demo.a 0) = some (.pose (Demo.z 7)) ∧
      s'.values.find? (Demo.a 1) = some (.pose (Demo.z 1))))
      (exec Demo.cfg failing (.forceUpdate [Demo.edge (Demo.a 0) (Demo.a 1) 1] [Demo.pose (Demo.a 1) 1]) s)) (by decide +kernel)
  obtain ⟨s', e, h'⟩ := throwsThen_iff h
  exact ⟨s, s', r, e, of_decide_eq_true h'⟩

open RPGO.Demo in
set_option maxRecDepth 100000 in
/-- The second case of `C104_throw` is needed: with frame alignment, a forced update whose optimization fails has moved the
second robot already. -/
theorem C104_false_aligned : Spec.KeepsTypes failingAlign ∧ ∃ s s', ReachOk cfgA failingAlign [twoOdom a b] s ∧
    exec cfgA failingAlign (.forceUpdate [edge (b 1) (a 1) (-5), edge (b 0) (a 0) (-5)] []) s = .throw s' .optimizer ∧
    s.values.find? (b 0) = some (.pose (z 0)) ∧ s'.values.find? (b 0) = some (.pose (z 5)) := by
  refine ⟨keepsTypes_of_fails (fun _ _ => rfl) (fun _ _ _ _ => rfl), ?_⟩
  obtain ⟨s, r, h⟩ := Demo.runs_reach (cfg := cfgA) (env := failingAlign) (ops := [twoOdom a b])
    (P := fun s => decide (s.values.find? (b 0) = some (.pose (z 0))) &&
      throwsThen .optimizer (fun s' : St Demo.Z Demo.Tp Demo.Ns => decide (s'.values.find? (b 0) = some (.pose (z 5))))
      (exec cfgA failingAlign (.forceUpdate [edge (b 1) (a 1) (-5), edge (b 0) (a 0) (-5)] []) s)) (by decide +kernel)
  rw [Bool.and_eq_true] at h
  obtain ⟨s', e, h'⟩ := throwsThen_iff h.2
  exact ⟨s, s', r, e, of_decide_eq_true h.1, of_decide_eq_true h'⟩

/-- An optimizer that returns a value of another type for the second key. -/
def confused : Env Demo.Z Demo.Ns :=
  { Demo.env with opt := fun _ _ => some [(Demo.a 0, .pose (Demo.z 9)), (Demo.a 1, .other 0)] }

set_option maxRecDepth 100000 in
/-- The conditions are needed: `updateValues` with a value of a wrong type throws after it has stored the values before it,
and so does an optimization if the optimizer returns such a value. -/
theorem C104_false_half : ∃ s, ReachOk Demo.cfg confused [.update [] [Demo.pose (Demo.a 0) 0, Demo.pose (Demo.a 1) 1] false] s ∧
    (∃ s', exec Demo.cfg confused (.updateValues [(Demo.a 0, .pose (Demo.z 9)), (Demo.a 1, .other 0)]) s = .throw s' .wrongType ∧
      s'.values.find? (Demo.a 0) = some (.pose (Demo.z 9)) ∧ s'.values.find? (Demo.a 1) = some (.pose (Demo.z 1))) ∧
    ∃ s', exec Demo.cfg confused (.forceUpdate [] []) s = .throw s' .wrongType ∧
      s'.values.find? (Demo.a 0) = some (.pose (Demo.z 9)) ∧ s'.values.find? (Demo.a 1) = some (.pose (Demo.z 1)) := by
  obtain ⟨s, r, h⟩ := Demo.runs_reach (cfg := Demo.cfg) (env := confused)
    (ops := [.update [] [Demo.pose (Demo.a 0) 0, Demo.pose (Demo.a 1) 1] false])
    (P := fun s =>
      throwsThen .wrongType (fun s' : St Demo.Z Demo.Tp Demo.Ns => decide (s'.values.find? (Demo.a 0) = some (.pose (Demo.z 9)) ∧
        s'.values.find? (Demo.a 1) = some (.pose (Demo.z 1))))
        (exec Demo.cfg confused (.updateValues [(Demo.a 0, .pose (Demo.z 9)), (Demo.a 1, .other 0)]) s) &&
      throwsThen .wrongType (fun s' : St Demo.Z Demo.Tp Demo.Ns => decide (s'.values.find? (Demo.a 0) = some (.pose (Demo.z 9)) ∧
        s'.values.find? (Demo.a 1) = some (.pose (Demo.z 1))))
        (exec Demo.cfg confused (.forceUpdate [] []) s)) (by decide +kernel)
  rw [Bool.and_eq_true] at h
  obtain ⟨s1, e1, h1⟩ := throwsThen_iff h.1
  obtain ⟨s2, e2, h2⟩ := throwsThen_iff h.2
  exact ⟨s, r, ⟨s1, e1, of_decide_eq_true h1⟩, s2, e2, of_decide_eq_true h2⟩

open RPGO.Demo in
set_option maxRecDepth 100000 in
/-- The third case of `C104_throw` occurs: with status log and checks switched off, a closure without usable covariance is accepted;
the update optimizes and then fails to write its log. -/
example : ∃ s s', ReachOk { Demo.cfg with log := true, odomCheck := false, loopCheck := false } Demo.env
      [.update [edge (a 0) (a 1) 1] [pose (a 0) 0, pose (a 1) 1] false] s ∧
    exec { Demo.cfg with log := true, odomCheck := false, loopCheck := false } Demo.env
      (.forceUpdate [some (.btw { btw (a 0) (a 1) 1 with noise := none })] []) s = .throw s' .invalidArg := by
  obtain ⟨s, r, h⟩ := Demo.runs_reach (cfg := { Demo.cfg with log := true, odomCheck := false, loopCheck := false }) (env := Demo.env)
    (ops := [.update [edge (a 0) (a 1) 1] [pose (a 0) 0, pose (a 1) 1] false])
    (P := fun s => throwsThen .invalidArg (fun _ => true) (exec { Demo.cfg with log := true, odomCheck := false, loopCheck := false }
      Demo.env (.forceUpdate [some (.btw { btw (a 0) (a 1) 1 with noise := none })] []) s)) (by decide +kernel)
  obtain ⟨s', e, -⟩ := throwsThen_iff h
  exact ⟨s, s', r, e⟩

end RPGO.Props
