import Verif.Proofs.Prefix
/-
Which calls add keys to the estimates; what a normal return of a batch did, as equations.
-/

namespace RPGO
variable {G T N : Type}

/-- The estimates grew, by keys of `ks` at most. -/
structure VGrow (ks : List Key) (s s' : St G T N) : Prop where
  sorted : s.values.Sorted → s'.values.Sorted
  mono : ∀ k, s.values.has k = true → s'.values.has k = true
  only : ∀ k, s'.values.has k = true → s.values.has k = true ∨ k ∈ ks

namespace VGrow
theorem refl (ks : List Key) (s : St G T N) : VGrow ks s s := ⟨id, fun _ h => h, fun _ h => Or.inl h⟩

theorem trans (ks : List Key) (a b c : St G T N) (h1 : VGrow ks a b) (h2 : VGrow ks b c) : VGrow ks a c :=
  ⟨fun h => h2.sorted (h1.sorted h), fun k h => h2.mono k (h1.mono k h), fun k h => by
    rcases h2.only k h with h | h
    · exact h1.only k h
    · exact Or.inr h⟩

theorem of_same {ks : List Key} {s s' : St G T N} (h : KeysSame s.values s'.values) : VGrow ks s s' :=
  ⟨fun hs => (h.keys hs).1, fun k hk => by rw [h.has]; exact hk, fun k hk => Or.inl (by rw [← h.has]; exact hk)⟩

theorem of_eq {ks : List Key} {s s' : St G T N} (h : s'.values = s.values) : VGrow ks s s' :=
  of_same (by rw [h]; exact .refl _)

theorem nil {ks : List Key} {s s' : St G T N} (h : VGrow [] s s') : VGrow ks s s' :=
  ⟨h.sorted, h.mono, fun k hk => (h.only k hk).imp id (by simp)⟩
end VGrow

/-- A procedure that adds keys of `ks` at most, and all of them if it returns normally. -/
def AddsKeys {α : Type} (ks : List Key) (m : M (St G T N) α) : Prop :=
  ∀ s, M.Ends (VGrow ks s) (m s) ∧ ∀ s' a, m s = .ok s' a → ∀ k ∈ ks, s'.values.has k = true

namespace AddsKeys
variable {α β : Type} {ks : List Key}

theorem of_pres {m : M (St G T N) α} (h : M.Pres (VGrow []) m) : AddsKeys [] m :=
  fun s => ⟨h s, fun _ _ _ k hk => by simp at hk⟩

theorem pres {m : M (St G T N) α} (h : AddsKeys [] m) : M.Pres (VGrow []) m := fun s => (h s).1

theorem of_frame {m : M (St G T N) α} (h : M.Pres OptFrame m) : M.Pres (VGrow []) m :=
  M.Pres.mono (fun _ _ h => VGrow.of_same h.values) h

theorem bind_left {m : M (St G T N) α} {f : α → M (St G T N) β} (hm : AddsKeys ks m)
    (hf : ∀ a, M.Pres (VGrow []) (f a)) : AddsKeys ks (M.bind m f) := by
  intro s
  obtain ⟨h1, h2⟩ := hm s
  refine ⟨ends_bind h1 (fun _ h => h) fun s' a _ h => M.Ends.mono (fun s'' hx => VGrow.trans _ _ _ _ h hx.nil) (hf a s'), ?_⟩
  intro s' a h k hk
  obtain ⟨s1, a1, e1, e2⟩ := M.bind_eq_ok.1 h
  exact ((hf a1).of_ok e2).mono k (h2 s1 a1 e1 k hk)

theorem bind_right {m : M (St G T N) α} {f : α → M (St G T N) β} (hm : M.Pres (VGrow []) m)
    (hf : ∀ a, AddsKeys ks (f a)) : AddsKeys ks (M.bind m f) := by
  intro s
  refine ⟨ends_bind (hm s) (fun _ h => h.nil) fun s' a _ h => M.Ends.mono (fun s'' hx => VGrow.trans _ _ _ _ h.nil hx) ((hf a s').1), ?_⟩
  intro s' a h k hk
  obtain ⟨s1, a1, e1, e2⟩ := M.bind_eq_ok.1 h
  exact (hf a1 s1).2 s' a e2 k hk

theorem ret {m : M (St G T N) α} {f : α → β} (hm : AddsKeys ks m) : AddsKeys ks (m.ret f) :=
  bind_left hm fun _ => M.Pres.pure (VGrow.refl _) _

theorem cond {c : Bool} {m1 m2 : M (St G T N) α} (h1 : AddsKeys ks m1) (h2 : AddsKeys ks m2) : AddsKeys ks (M.cond c m1 m2) := by
  unfold M.cond; split <;> assumption
end AddsKeys

theorem onValues_adds (vs : Vals G) : AddsKeys vs.keys (onValues (insertVals vs) : M (St G T N) Unit) := by
  intro s
  have he := insertVals_ends vs s.values
  unfold onValues M.zoom
  cases h : insertVals vs s.values with
  | ub u => exact ⟨trivial, fun _ _ h => by cases h⟩
  | throw v x =>
    rw [h] at he
    obtain ⟨h1, h2, h3⟩ := he
    refine ⟨⟨h1, fun k hk => ?_, h3⟩, fun _ _ h => by cases h⟩
    show (v.find? k).isSome = true
    rw [h2 k hk]; exact hk
  | ok v x =>
    rw [h] at he
    obtain ⟨h1, h2, h3⟩ := he
    refine ⟨⟨h1, fun k hk => ?_, h3⟩, ?_⟩
    · show (v.find? k).isSome = true
      rw [h2 k hk]; exact hk
    · intro s' a e k hk
      cases e
      obtain ⟨i1, i2, _⟩ := insertVals_ok h
      show (v.find? k).isSome = true
      rw [i1, if_neg (by simp [i2 k hk])]
      exact (KMap.mem_keys_iff _ _).1 hk

section
variable [Mul G] [Inv G] [One G]

theorem alignStep_values (cfg : Cfg G T N) (env : Env G N) : M.Pres (VGrow []) (alignStep cfg env) :=
  M.Pres.mono (fun _ _ h => VGrow.of_same h.values) (alignStep_frame cfg env)

theorem onPcm_values {α : Type} (m : M (Pcm G T N) α) : M.Pres (VGrow []) (onPcm m) := by
  intro s
  rw [onPcm_apply]
  cases m s.pcm <;> first | exact VGrow.of_eq rfl | trivial

theorem rebuild_values (env : Env G N) : M.Pres (VGrow []) (rebuild env : M (St G T N) Unit) :=
  fun _ => VGrow.of_eq rfl

theorem removeOutliers_adds (cfg : Cfg G T N) (env : Env G N) (fs : Graph G N) (vs : Vals G) :
    AddsKeys vs.keys (removeOutliers cfg env fs vs) := by
  unfold removeOutliers
  refine AddsKeys.bind_left (onValues_adds vs) fun _ => ?_
  refine M.Pres.cond (M.Pres.pure (VGrow.refl _) _) ?_
  unfold processFactors
  refine M.Pres.bind (VGrow.trans _) (M.Pres.get (VGrow.refl _)) fun s => ?_
  refine M.Pres.bind (VGrow.trans _) (onPcm_values _) fun r => ?_
  refine M.Pres.bind (VGrow.trans _) (M.Pres.when (VGrow.refl _) (onPcm_values _)) fun _ => ?_
  refine M.Pres.bind (VGrow.trans _) (M.Pres.modify fun _ => VGrow.of_eq rfl) fun _ => ?_
  exact M.Pres.bind (VGrow.trans _) (alignStep_values cfg env) fun _ => M.Pres.pure (VGrow.refl _) _

omit [Mul G] [Inv G] [One G] in
theorem addAndCheck_adds (fs : Graph G N) (vs : Vals G) :
    AddsKeys vs.keys (addAndCheck fs vs : M (St G T N) Bool) := by
  unfold addAndCheck
  refine AddsKeys.bind_right (M.Pres.modify fun _ => VGrow.of_eq rfl) fun _ => ?_
  refine AddsKeys.bind_left (onValues_adds vs) fun _ => ?_
  split
  · exact M.Pres.pure (VGrow.refl _) _
  · exact M.Pres.undef _
  · exact M.Pres.pure (VGrow.refl _) _
  · exact M.Pres.pure (VGrow.refl _) _

omit [Mul G] [Inv G] [One G] in
theorem AddsKeys.same {α : Type} {m : M (St G T N) α} (h : M.Pres (fun s s' : St G T N => s'.values = s.values) m) :
    M.Pres (VGrow []) m := M.Pres.mono (fun _ _ h => VGrow.of_eq h) h

theorem removeLastOfPair_values (env : Env G N) (id : ObsId) :
    M.Pres (fun s s' : St G T N => s'.values = s.values) (removeLastOfPair env id) := by
  intro s
  rw [removeLastOfPair_eq]
  cases AList.get? ObsId.eqv s.pcm.lcs id with
  | none => exact rfl
  | some m =>
    simp only
    cases removeLastMeas m with
    | ub u => trivial
    | throw m' x => exact rfl
    | ok m' e => cases e <;> exact rfl

theorem removeLastFactor_frame :
    M.Pres (fun s s' : St G T N => s' = { s with nfg := s'.nfg }) removeLastFactor := by
  intro s
  unfold removeLastFactor
  split
  · exact rfl
  · trivial
  · split
    · exact rfl
    · trivial

omit [Mul G] [Inv G] [One G] in
theorem VGrow.of_nfg {ks : List Key} {s s' : St G T N} (h : s' = { s with nfg := s'.nfg }) : VGrow ks s s' := of_eq (by rw [h])

/-- Every call adds exactly the keys of the values it carries; it may add fewer only if it throws. -/
theorem exec_adds (cfg : Cfg G T N) (env : Env G N) (op : Op G N) : AddsKeys (Spec.opKeys op) (exec cfg env op) := by
  have hopt := AddsKeys.of_frame (optimize_frame cfg env)
  have hlog := AddsKeys.of_frame (logStatus_frame cfg)
  have hr : ∀ ks, ∀ s : St G T N, VGrow ks s s := VGrow.refl
  have ht : ∀ ks, ∀ a b c : St G T N, VGrow ks a b → VGrow ks b c → VGrow ks a c := VGrow.trans
  cases op with
  | update fs vs o =>
    refine AddsKeys.ret ?_
    refine AddsKeys.bind_left (AddsKeys.cond (removeOutliers_adds cfg env fs vs) (addAndCheck_adds fs vs)) fun _ => ?_
    exact M.Pres.bind (ht _) (M.Pres.when (hr _) hopt) fun _ => M.Pres.when (hr _) hlog
  | forceUpdate fs vs =>
    refine AddsKeys.ret ?_
    refine AddsKeys.bind_left (AddsKeys.cond (removeOutliers_adds cfg env fs vs) (addAndCheck_adds fs vs)) fun _ => ?_
    exact M.Pres.bind (ht _) hopt fun _ => M.Pres.when (hr _) hlog
  | removePriors c o =>
    refine AddsKeys.ret (AddsKeys.of_pres ?_)
    refine M.Pres.bind (ht _) (M.Pres.cond ?_ (M.Pres.modify fun _ => VGrow.of_eq rfl)) fun _ => M.Pres.when (hr _) hopt
    first | unfold removePriorsPcm | unfold ignorePcm | unfold revivePcm
    exact M.Pres.bind (ht _) (onPcm_values _) fun _ => rebuild_values env
  | removeLastPair a b =>
    refine AddsKeys.ret (AddsKeys.of_pres ?_)
    refine M.Pres.bind (ht _) (M.Pres.cond (AddsKeys.same (removeLastOfPair_values env _))
      (M.Pres.mono (fun _ _ h => VGrow.of_nfg h) removeLastFactor_frame)) fun _ => ?_
    exact M.Pres.bind (ht _) hopt fun _ => M.Pres.pure (hr _) _
  | removeLast =>
    refine AddsKeys.ret (AddsKeys.of_pres ?_)
    refine M.Pres.bind (ht _) (M.Pres.cond (AddsKeys.same ?_)
      (M.Pres.mono (fun _ _ h => VGrow.of_nfg h) removeLastFactor_frame)) fun _ => ?_
    · intro s
      rw [removeLastPcm_eq]
      cases s.pcm.inOrder.getLast? with
      | none => exact rfl
      | some id => exact removeLastOfPair_values env id _
    · exact M.Pres.bind (ht _) hopt fun _ => M.Pres.pure (hr _) _
  | ignore c =>
    refine AddsKeys.ret (AddsKeys.of_pres ?_)
    refine M.Pres.bind (ht _) (M.Pres.when (hr _) ?_) fun _ => hopt
    first | unfold removePriorsPcm | unfold ignorePcm | unfold revivePcm
    exact M.Pres.bind (ht _) (onPcm_values _) fun _ => rebuild_values env
  | revive c =>
    refine AddsKeys.ret (AddsKeys.of_pres ?_)
    refine M.Pres.bind (ht _) (M.Pres.when (hr _) ?_) fun _ => hopt
    first | unfold removePriorsPcm | unfold ignorePcm | unfold revivePcm
    exact M.Pres.bind (ht _) (onPcm_values _) fun _ => rebuild_values env
  | getNumLC =>
    refine AddsKeys.ret (AddsKeys.of_pres fun s => ?_)
    unfold getNumLC; split; exact hr _ s; trivial
  | getNumLCInliers =>
    refine AddsKeys.ret (AddsKeys.of_pres fun s => ?_)
    unfold getNumLCInliers; split; exact hr _ s; split; exact hr _ s; trivial
  | saveData =>
    refine AddsKeys.ret (AddsKeys.of_pres fun s => ?_)
    unfold saveData; split <;> exact hr _ s
  | removeFactors is => exact AddsKeys.ret (AddsKeys.of_pres (M.Pres.mono (fun _ _ h => VGrow.of_nfg h) (removeFactors_pres is)))
  | removeLastFactor => exact AddsKeys.ret (AddsKeys.of_pres (M.Pres.mono (fun _ _ h => VGrow.of_nfg h) removeLastFactor_frame))
  | removePriorsGeneric c => exact AddsKeys.ret (AddsKeys.of_pres (M.Pres.modify fun _ => VGrow.of_eq rfl))
  | updateValues vs => exact AddsKeys.ret (AddsKeys.of_pres (AddsKeys.of_frame (applyResult_frame vs)))
  | genericUpdate fs vs rm =>
    refine AddsKeys.ret ?_
    refine AddsKeys.bind_right (M.Pres.mono (fun _ _ h => VGrow.of_nfg h) (removeFactors_pres rm)) fun _ => ?_
    refine AddsKeys.bind_left (addAndCheck_adds fs vs) fun lc => ?_
    split
    · refine M.Pres.bind (ht _) (M.Pres.get (hr _)) fun s => ?_
      split
      · exact M.Pres.raise (hr _) _
      · split
        · exact M.Pres.raise (hr _) _
        · exact AddsKeys.of_frame (applyResult_frame _)
    · exact M.Pres.pure (hr _) _
  | tempUpdate fs vs =>
    refine AddsKeys.of_pres fun s => ?_
    show M.Ends (VGrow [] s)
      (((M.zoom (fun s => s.tempValues) (fun v s => { s with tempValues := v }) (insertVals vs) : M (St G T N) Unit).ret
        fun _ => Ret.unit) { s with tempNfg := s.tempNfg ++ fs })
    refine ends_ret ?_
    unfold M.zoom
    simp only
    cases insertVals vs s.tempValues with
    | ub u => trivial
    | ok v _ => exact VGrow.of_eq rfl
    | throw v _ => exact VGrow.of_eq rfl
  | tempReplace fs vs => exact AddsKeys.ret (AddsKeys.of_pres (M.Pres.modify fun _ => VGrow.of_eq rfl))
  | tempClear => exact AddsKeys.ret (AddsKeys.of_pres (M.Pres.modify fun _ => VGrow.of_eq rfl))

theorem reach_values {cfg : Cfg G T N} {env : Env G N} {h : List (Op G N)} {s : St G T N} (r : Reach cfg env h s) :
    s.values.Sorted ∧ ∀ k, s.values.has k = true → ∃ op ∈ h, k ∈ Spec.opKeys op := by
  have step : ∀ {h : List (Op G N)} {s : St G T N} {op : Op G N} {s' : St G T N}, (s.values.Sorted ∧ ∀ k, s.values.has k = true → ∃ op ∈ h, k ∈ Spec.opKeys op) →
      VGrow (Spec.opKeys op) s s' →
      (s'.values.Sorted ∧ ∀ k, s'.values.has k = true → ∃ o ∈ h ++ [op], k ∈ Spec.opKeys o) := by
    rintro h s op s' ⟨h1, h2⟩ hv
    refine ⟨hv.sorted h1, fun k hk => ?_⟩
    rcases hv.only k hk with hk | hk
    · obtain ⟨o, ho, hk⟩ := h2 k hk
      exact ⟨o, by simp [ho], hk⟩
    · exact ⟨op, by simp, hk⟩
  induction r with
  | init => exact ⟨List.Pairwise.nil, by simp [St.init, KMap.has, KMap.find?]⟩
  | @ok _ s op _ _ _ e ih =>
    have := (exec_adds cfg env op s).1
    rw [e] at this
    exact step ih this
  | @throw _ s op _ _ _ e ih =>
    have := (exec_adds cfg env op s).1
    rw [e] at this
    exact step ih this

theorem reachOk_values {cfg : Cfg G T N} {env : Env G N} {h : List (Op G N)} {s : St G T N} (r : ReachOk cfg env h s) :
    ∀ k, (∃ op ∈ h, k ∈ Spec.opKeys op) → s.values.has k = true := by
  induction r with
  | init => rintro k ⟨_, h, _⟩; simp at h
  | @step _ s op s' _ _ e ih =>
    rintro k ⟨o, ho, hk⟩
    obtain ⟨h1, h2⟩ := exec_adds cfg env op s
    rw [e] at h1
    rcases List.mem_append.1 ho with ho | ho
    · exact VGrow.mono h1 k (ih k ⟨o, ho, hk⟩)
    · simp only [List.mem_singleton] at ho
      subst ho
      exact h2 _ _ e k hk

end
end RPGO
