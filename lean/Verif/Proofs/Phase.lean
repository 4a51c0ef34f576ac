import Verif.Proofs.Opt
import Verif.Proofs.Tidy
/-
Every call of the solver as three phases: work on the factors, optional optimization, optional status log.
-/

namespace RPGO
variable {G T N : Type} [Mul G] [Inv G] [One G]

theorem M.bind_assoc' {σ α β γ : Type} (m : M σ α) (f : α → M σ β) (g : β → M σ γ) :
    M.bind (M.bind m f) g = M.bind m fun a => M.bind (f a) g := by
  funext s
  unfold M.bind
  cases m s <;> rfl

theorem M.pure_bind' {σ α β : Type} (a : α) (f : α → M σ β) : M.bind (M.pure a) f = f a := rfl

/-- First phase of a call: everything before the optimization; the result says what the call returns and whether it
optimizes. -/
def phase1 (cfg : Cfg G T N) (env : Env G N) : Op G N → M (St G T N) (Ret × Bool)
  | .update fs vs o => (removeOutliers cfg env fs vs).ret fun d => (.unit, d && o)
  | .forceUpdate fs vs => (removeOutliers cfg env fs vs).ret fun _ => (.unit, true)
  | .removePriors c o => (removePriorsPcm cfg env c).ret fun _ => (.unit, o)
  | .removeLastPair a b => (removeLastOfPair env ⟨a, b⟩).ret fun e => (.edge e, true)
  | .removeLast => (removeLastPcm env).ret fun e => (.edge e, true)
  | .ignore c => (ignorePcm env c).ret fun _ => (.unit, true)
  | .revive c => (revivePcm env c).ret fun _ => (.unit, true)
  | op => (exec cfg env op).ret fun r => (r, false)

/-- Does the call write a status line at the end? -/
def logs (cfg : Cfg G T N) : Op G N → Bool
  | .update _ _ o => cfg.log && o
  | .forceUpdate _ _ => cfg.log
  | _ => false

theorem exec_phase {cfg : Cfg G T N} (env : Env G N) (hr : cfg.rejection = true) (op : Op G N) :
    exec cfg env op = M.bind (phase1 cfg env op) fun x => M.bind (M.when x.2 (optimize cfg env)) fun _ =>
      M.bind (M.when (logs cfg op) (logStatus cfg)) fun _ => M.pure x.1 := by
  have hw : ∀ m : M (St G T N) Unit, M.when true m = m := fun _ => rfl
  have hb : ∀ (m : M (St G T N) Ret), M.bind m M.pure = m := fun m => by
    funext s; unfold M.bind; cases m s <;> rfl
  cases op with
  | update fs vs o =>
    show M.bind (update cfg env fs vs o) _ = _
    unfold update
    simp only [M.bind_eq, phase1, logs, M.ret, M.bind_assoc', M.pure_bind', RPGO.cond_true hr]
  | forceUpdate fs vs =>
    show M.bind (forceUpdate cfg env fs vs) _ = _
    unfold forceUpdate
    simp only [M.bind_eq, phase1, logs, M.ret, M.bind_assoc', M.pure_bind', RPGO.cond_true hr, hw]
  | removePriors c o =>
    show M.bind (removePriors cfg env c o) _ = _
    unfold removePriors
    simp only [M.bind_eq, phase1, logs, M.ret, M.bind_assoc', M.pure_bind', RPGO.cond_true hr]
    rfl
  | removeLastPair a b =>
    show M.bind (removeLastLC2 cfg env a b) _ = _
    unfold removeLastLC2
    simp only [M.bind_eq, phase1, logs, M.ret, M.bind_assoc', M.pure_bind', RPGO.cond_true hr, M.pure_eq]
    rfl
  | removeLast =>
    show M.bind (removeLastLC cfg env) _ = _
    unfold removeLastLC
    simp only [M.bind_eq, phase1, logs, M.ret, M.bind_assoc', M.pure_bind', RPGO.cond_true hr, M.pure_eq]
    rfl
  | ignore c =>
    show M.bind (ignorePrefix cfg env c) _ = _
    unfold ignorePrefix
    simp only [M.bind_eq, phase1, logs, M.ret, M.bind_assoc', M.pure_bind', hr, hw]
    rfl
  | revive c =>
    show M.bind (revivePrefix cfg env c) _ = _
    unfold revivePrefix
    simp only [M.bind_eq, phase1, logs, M.ret, M.bind_assoc', M.pure_bind', hr, hw]
    rfl
  | _ =>
    simp only [phase1, logs]
    unfold M.ret
    rw [M.bind_assoc']
    exact (hb _).symm

/-- A call that returns normally, phase by phase. -/
theorem exec_ok_phase {cfg : Cfg G T N} {env : Env G N} (hr : cfg.rejection = true) {op : Op G N} {s s' : St G T N} {r : Ret}
    (h : exec cfg env op s = .ok s' r) :
    ∃ s1 o, phase1 cfg env op s = .ok s1 (r, o) ∧
      ((o = true ∧ optimize cfg env s1 = .ok s' ()) ∨ (o = false ∧ s' = s1)) := by
  rw [exec_phase env hr] at h
  obtain ⟨s1, ⟨r', o⟩, h1, h2⟩ := M.bind_eq_ok.1 h
  obtain ⟨s2, _, h3, h4⟩ := M.bind_eq_ok.1 h2
  obtain ⟨s3, _, h5, h6⟩ := M.bind_eq_ok.1 h4
  have e : s3 = s2 := by
    unfold M.when at h5
    split at h5
    · exact (logStatus_same cfg).of_ok h5
    · cases h5; rfl
  cases h6
  subst e
  refine ⟨s1, o, h1, ?_⟩
  unfold M.when at h3
  cases o with
  | true => exact Or.inl ⟨rfl, h3⟩
  | false => cases h3; exact Or.inr ⟨rfl, rfl⟩

/-! ### The first phase leaves the weights alone -/

/-- Weights, the inlier count of GNC and the number of closures at the last optimization are unchanged. -/
def SameW (s s' : St G T N) : Prop := s'.gncW = s.gncW ∧ s'.latest = s.latest ∧ s'.gncNum = s.gncNum

theorem SameW.refl (s : St G T N) : SameW s s := ⟨rfl, rfl, rfl⟩
theorem SameW.trans (a b c : St G T N) (h : SameW a b) (h' : SameW b c) : SameW a c :=
  ⟨h'.1.trans h.1, h'.2.1.trans h.2.1, h'.2.2.trans h.2.2⟩

theorem pres_top {σ α : Type} (m : M σ α) : M.Pres (fun _ _ => True) m := fun s => by
  unfold M.Ends
  cases m s <;> trivial

theorem onPcm_sameW {α : Type} (m : M (Pcm G T N) α) : M.Pres SameW (onPcm m) :=
  M.Pres.zoom (pres_top m) fun _ _ _ => ⟨rfl, rfl, rfl⟩

theorem rebuild_sameW (env : Env G N) : M.Pres SameW (rebuild env : M (St G T N) Unit) :=
  M.Pres.modify fun _ => ⟨rfl, rfl, rfl⟩

theorem alignStep_sameW (cfg : Cfg G T N) (env : Env G N) : M.Pres SameW (alignStep cfg env) :=
  M.Pres.mono (fun s t h => by rw [h.eq]; exact ⟨rfl, rfl, rfl⟩) (alignStep_frame cfg env)

theorem removeOutliers_sameW (cfg : Cfg G T N) (env : Env G N) (fs : Graph G N) (vs : Vals G) :
    M.Pres SameW (removeOutliers cfg env fs vs) := by
  unfold removeOutliers
  simp only [M.bind_eq]
  refine M.Pres.bind SameW.trans (M.Pres.zoom (pres_top _) fun _ _ _ => ⟨rfl, rfl, rfl⟩) fun _ => ?_
  refine M.Pres.cond (M.Pres.pure SameW.refl _) ?_
  unfold processFactors
  simp only [M.bind_eq]
  refine M.Pres.bind SameW.trans (M.Pres.get SameW.refl) fun s => ?_
  refine M.Pres.bind SameW.trans (onPcm_sameW _) fun r => ?_
  refine M.Pres.bind SameW.trans (M.Pres.when SameW.refl (onPcm_sameW _)) fun _ => ?_
  refine M.Pres.bind SameW.trans (rebuild_sameW env) fun _ => ?_
  exact M.Pres.bind SameW.trans (alignStep_sameW cfg env) fun _ => M.Pres.pure SameW.refl _

theorem removeLastOfPair_sameW (env : Env G N) (id : ObsId) :
    M.Pres SameW (removeLastOfPair env id : M (St G T N) EdgePtr) := by
  unfold removeLastOfPair
  simp only [M.bind_eq]
  refine M.Pres.bind SameW.trans (M.Pres.get SameW.refl) fun s => ?_
  split
  · exact M.Pres.pure SameW.refl _
  · refine M.Pres.bind SameW.trans (onPcm_sameW _) fun e => ?_
    cases e with
    | none => exact M.Pres.pure SameW.refl _
    | some e => exact M.Pres.bind SameW.trans (rebuild_sameW env) fun _ => M.Pres.pure SameW.refl _

theorem applyResult_sameW (vs : Vals G) : M.Pres SameW (applyResult vs : M (St G T N) Unit) := by
  induction vs with
  | nil => exact M.Pres.pure SameW.refl _
  | cons e t ih =>
    obtain ⟨k, v⟩ := e
    intro s
    unfold applyResult
    split
    · split
      · exact M.Ends.mono (fun _ h => SameW.trans _ _ _ ⟨rfl, rfl, rfl⟩ h) (ih _)
      · exact SameW.refl s
    · split
      · split
        · exact M.Ends.mono (fun _ h => SameW.trans _ _ _ ⟨rfl, rfl, rfl⟩ h) (ih _)
        · exact SameW.refl s
      · exact ih s

theorem phase1_sameW (cfg : Cfg G T N) (env : Env G N) {op : Op G N} (hm : Spec.Managed op) :
    M.Pres SameW (phase1 cfg env op) := by
  have ret : ∀ {α β : Type} {m : M (St G T N) α} {f : α → β}, M.Pres SameW m → M.Pres SameW (m.ret f) :=
    fun h => M.Pres.bind SameW.trans h fun _ => M.Pres.pure SameW.refl _
  cases op with
  | update fs vs o => exact ret (removeOutliers_sameW cfg env fs vs)
  | forceUpdate fs vs => exact ret (removeOutliers_sameW cfg env fs vs)
  | removePriors c o =>
    refine ret ?_
    unfold removePriorsPcm
    exact M.Pres.bind SameW.trans (onPcm_sameW _) fun _ => rebuild_sameW env
  | removeLastPair a b => exact ret (removeLastOfPair_sameW env _)
  | removeLast =>
    refine ret ?_
    unfold removeLastPcm
    simp only [M.bind_eq]
    refine M.Pres.bind SameW.trans (M.Pres.get SameW.refl) fun s => ?_
    split
    · exact M.Pres.pure SameW.refl _
    · exact M.Pres.bind SameW.trans (onPcm_sameW _) fun _ => removeLastOfPair_sameW env _
  | ignore c =>
    refine ret ?_
    unfold ignorePcm
    exact M.Pres.bind SameW.trans (onPcm_sameW _) fun _ => rebuild_sameW env
  | revive c =>
    refine ret ?_
    unfold revivePcm
    exact M.Pres.bind SameW.trans (onPcm_sameW _) fun _ => rebuild_sameW env
  | getNumLC =>
    refine ret (ret fun s => ?_)
    unfold getNumLC
    split
    · exact SameW.refl s
    · trivial
  | getNumLCInliers =>
    refine ret (ret fun s => ?_)
    unfold getNumLCInliers
    split
    · exact SameW.refl s
    · split
      · exact SameW.refl s
      · trivial
  | saveData =>
    refine ret (ret fun s => ?_)
    unfold saveData
    split <;> exact SameW.refl s
  | updateValues vs => exact ret (ret (applyResult_sameW vs))
  | tempUpdate fs vs =>
    refine ret ?_
    show M.Pres SameW (M.bind (M.modify fun s : St G T N => { s with tempNfg := s.tempNfg ++ fs }) fun _ =>
      (M.zoom (fun s => s.tempValues) (fun v s => { s with tempValues := v }) (insertVals vs)).ret fun _ => Ret.unit)
    refine M.Pres.bind SameW.trans (M.Pres.modify (R := SameW) fun _ => ⟨rfl, rfl, rfl⟩) fun _ => ?_
    exact ret (M.Pres.zoom (pres_top (insertVals vs)) fun _ _ _ => ⟨rfl, rfl, rfl⟩)
  | tempReplace fs vs => exact ret (ret (M.Pres.modify fun _ => ⟨rfl, rfl, rfl⟩))
  | tempClear => exact ret (ret (M.Pres.modify fun _ => ⟨rfl, rfl, rfl⟩))
  | removeFactors _ => exact absurd hm (by simp [Spec.Managed])
  | removeLastFactor => exact absurd hm (by simp [Spec.Managed])
  | removePriorsGeneric _ => exact absurd hm (by simp [Spec.Managed])
  | genericUpdate _ _ _ => exact absurd hm (by simp [Spec.Managed])

/-! ### Graph after the first phase -/

/-- The first phase of a batch is the same batch without optimization. -/
theorem phase1_update_false {cfg : Cfg G T N} {env : Env G N} (hr : cfg.rejection = true) {op : Op G N} {fs : Graph G N}
    {vs : Vals G} (hb : Spec.batch op = some (fs, vs)) {s s1 : St G T N} {x : Ret × Bool}
    (h : phase1 cfg env op s = .ok s1 x) : exec cfg env (.update fs vs false) s = .ok s1 .unit := by
  have key : ∀ {α : Type} {f : Bool → α} {y : α}, (removeOutliers cfg env fs vs).ret f s = .ok s1 y →
      exec cfg env (.update fs vs false) s = .ok s1 .unit := by
    intro α f y h
    obtain ⟨s2, d, h1, h2⟩ := M.bind_eq_ok.1 h
    obtain rfl : s2 = s1 := by cases h2; rfl
    rw [exec_phase env hr]
    have : phase1 cfg env (.update fs vs false) s = .ok s2 (.unit, d && false) := by
      show (removeOutliers cfg env fs vs).ret _ s = _
      unfold M.ret
      rw [M.bind_ok h1]; rfl
    rw [M.bind_ok this]
    simp only [Bool.and_false, logs]
    rfl
  cases op with
  | update fs' vs' o => cases hb; exact key h
  | forceUpdate fs' vs' => cases hb; exact key h
  | _ => cases hb

theorem phase1_lists {cfg : Cfg G T N} {env : Env G N} (hr : cfg.rejection = true) {op : Op G N} (hm : Spec.Managed op)
    {s s1 : St G T N} {x : Ret × Bool} (h : phase1 cfg env op s = .ok s1 x) (hb : s.nfg = buildGraph env s.pcm) :
    s1.nfg = buildGraph env s1.pcm ∧ s1.pcm.odom = s.pcm.odom ++ Spec.opOdom cfg op ∧
      s1.pcm.special = Spec.specialStep cfg s.pcm.special op := by
  have other : ∀ {op : Op G N}, Spec.Managed op → ∀ {f : Ret → Ret × Bool}, (exec cfg env op).ret f s = .ok s1 x →
      s1.nfg = buildGraph env s1.pcm ∧ s1.pcm.odom = s.pcm.odom ++ Spec.opOdom cfg op ∧
      s1.pcm.special = Spec.specialStep cfg s.pcm.special op := by
    intro op hm f h
    obtain ⟨s2, r, h1, h2⟩ := M.bind_eq_ok.1 h
    cases h2
    exact exec_ok_lists hr hm h1 hb
  cases op with
  | update fs vs o => exact exec_ok_lists hr (op := .update fs vs false) trivial (phase1_update_false hr (op := .update fs vs o) rfl h) hb
  | forceUpdate fs vs => exact exec_ok_lists hr (op := .update fs vs false) trivial (phase1_update_false hr (op := .forceUpdate fs vs) rfl h) hb
  | removePriors c o =>
    have : exec cfg env (.removePriors c false) s = .ok s1 .unit := by
      obtain ⟨s2, _, h1, h2⟩ := M.bind_eq_ok.1 (show (removePriorsPcm cfg env c).ret (fun _ => (Ret.unit, o)) s = _ from h)
      obtain rfl : s2 = s1 := by cases h2; rfl
      rw [exec_phase env hr]
      have : phase1 cfg env (.removePriors c false) s = .ok s2 (.unit, false) := by
        show (removePriorsPcm cfg env c).ret _ s = _
        unfold M.ret
        rw [M.bind_ok h1]; rfl
      rw [M.bind_ok this]
      rfl
    exact exec_ok_lists hr (op := .removePriors c false) trivial this hb
  | removeLastPair a b =>
    obtain ⟨s2, _, h1, h2⟩ := M.bind_eq_ok.1 h
    cases h2
    have hg := removeLastOfPair_graph h1 hb
    exact ⟨hg.1, by rw [hg.2.1]; simp [Spec.opOdom, Spec.batch], by rw [hg.2.2]; rfl⟩
  | removeLast =>
    obtain ⟨s2, _, h1, h2⟩ := M.bind_eq_ok.1 h
    cases h2
    rw [removeLastPcm_eq] at h1
    have hg : s1.nfg = buildGraph env s1.pcm ∧ s1.pcm.odom = s.pcm.odom ∧ s1.pcm.special = s.pcm.special := by
      cases hl : s.pcm.inOrder.getLast? with
      | none => rw [hl] at h1; cases h1; exact ⟨hb, rfl, rfl⟩
      | some id =>
        rw [hl] at h1
        exact removeLastOfPair_graph
          (s := { s with pcm := { s.pcm with inOrder := s.pcm.inOrder.dropLast } }) h1 hb
    exact ⟨hg.1, by rw [hg.2.1]; simp [Spec.opOdom, Spec.batch], by rw [hg.2.2]; rfl⟩
  | ignore c =>
    cases h
    refine ⟨rfl, ?_, ?_⟩
    · simp only [Spec.opOdom, Spec.batch, List.append_nil]; split <;> rfl
    · simp only [Spec.specialStep]; split <;> rfl
  | revive c =>
    cases h
    exact ⟨rfl, by simp [Spec.opOdom, Spec.batch], rfl⟩
  | getNumLC => exact other hm h
  | getNumLCInliers => exact other hm h
  | saveData => exact other hm h
  | updateValues vs => exact other hm h
  | tempUpdate fs vs => exact other hm h
  | tempReplace fs vs => exact other hm h
  | tempClear => exact other hm h
  | removeFactors _ => exact absurd hm (by simp [Spec.Managed])
  | removeLastFactor => exact absurd hm (by simp [Spec.Managed])
  | removePriorsGeneric _ => exact absurd hm (by simp [Spec.Managed])
  | genericUpdate _ _ _ => exact absurd hm (by simp [Spec.Managed])

end RPGO
