import Verif.Proofs.Values
import Verif.Proofs.Progress
/-
The types of the entries of the estimate: no call changes the type of an entry.
-/

namespace RPGO

namespace Spec
variable {G N : Type}

/-- The values a call adds to the estimate. -/
def opGiven : Op G N → Vals G
  | .update _ vs _ => vs
  | .forceUpdate _ vs => vs
  | .genericUpdate _ vs _ => vs
  | _ => []

end Spec

variable {G T N : Type}

/-- Every entry of the later estimate has the type of an entry of the earlier one, or of a value in `vs`, for its key. -/
def TGrow (vs : Vals G) (s s' : St G T N) : Prop :=
  ∀ k y, s'.values.find? k = some y → ∃ x, (s.values.find? k = some x ∨ (k, x) ∈ vs) ∧ x.sameType y = true

namespace TGrow
variable {vs : Vals G}

theorem refl (s : St G T N) : TGrow vs s s := fun _ y h => ⟨y, Or.inl h, y.sameType_refl⟩

theorem trans (a b c : St G T N) (h1 : TGrow vs a b) (h2 : TGrow vs b c) : TGrow vs a c := fun k z hz => by
  obtain ⟨y, hy, t⟩ := h2 k z hz
  rcases hy with hy | hy
  · obtain ⟨x, hx, t'⟩ := h1 k y hy
    exact ⟨x, hx, Val.sameType_trans t' t⟩
  · exact ⟨y, Or.inr hy, t⟩

theorem of_eq {s s' : St G T N} (h : s'.values = s.values) : TGrow vs s s' := fun k y hy =>
  ⟨y, Or.inl (h ▸ hy), y.sameType_refl⟩

theorem of_nfg {s s' : St G T N} (h : s' = { s with nfg := s'.nfg }) : TGrow vs s s' := of_eq (by rw [h])

theorem of_types {s s' : St G T N} (h : KeysSame s.values s'.values) (t : SameTypes s.values s'.values) : TGrow vs s s' := by
  intro k y hy
  have hk : s.values.has k = true := by rw [← h.has]; unfold KMap.has; rw [hy]; rfl
  obtain ⟨x, hx⟩ := Option.isSome_iff_exists.1 hk
  obtain ⟨y', hy', t'⟩ := t k x hx
  rw [hy] at hy'
  cases hy'
  exact ⟨x, Or.inl hx, t'⟩

end TGrow

theorem applyResult_typed {vs : Vals G} (r : Vals G) : M.Pres (TGrow (T := T) (N := N) vs) (applyResult r) := by
  induction r with
  | nil => exact M.Pres.pure TGrow.refl ()
  | cons e t ih =>
    obtain ⟨k, v⟩ := e
    intro s
    unfold applyResult
    cases h : s.values.find? k with
    | some v' =>
      simp only
      split
      · rename_i ht
        refine M.Ends.mono (fun s' h' => TGrow.trans _ _ _ ?_ h') (ih _)
        exact TGrow.of_types (KeysSame.set h v) (SameTypes.set h ht)
      · exact TGrow.refl s
    | none =>
      simp only
      cases h' : s.tempValues.find? k with
      | some v' =>
        simp only
        split
        · exact M.Ends.mono (fun s' h'' => TGrow.trans _ _ _ (TGrow.of_eq rfl) h'') (ih _)
        · exact TGrow.refl s
      | none => exact ih s

/-- What leaves the values alone, leaves their types alone. -/
theorem typed_same {α : Type} {vs : Vals G} {m : M (St G T N) α}
    (h : M.Pres (fun s s' : St G T N => s'.values = s.values) m) : M.Pres (TGrow vs) m :=
  M.Pres.mono (fun _ _ h => TGrow.of_eq h) h

theorem plainGraph_vals (cfg : Cfg G T N) : M.Pres (fun s s' : St G T N => s'.values = s.values) (plainGraph cfg) := by
  intro s
  unfold plainGraph
  split
  · split
    · trivial
    · simp only
      split
      · trivial
      · split
        · trivial
        · split <;> rfl
  · rfl

theorem plainOptimize_typed {vs : Vals G} (cfg : Cfg G T N) (env : Env G N) (full : Vals G) :
    M.Pres (TGrow vs) (plainOptimize cfg env full) := by
  unfold plainOptimize
  refine M.Pres.bind TGrow.trans (typed_same (plainGraph_vals cfg)) fun g => ?_
  split
  · exact M.Pres.raise TGrow.refl _
  · refine M.Pres.bind TGrow.trans (M.Pres.get TGrow.refl) fun s => ?_
    split
    · exact M.Pres.undef _
    · split
      · exact M.Pres.undef _
      · refine M.Pres.bind TGrow.trans (M.Pres.modify fun s => TGrow.of_eq rfl) fun _ => ?_
        split
        · exact M.Pres.undef _
        · exact M.Pres.pure TGrow.refl _

theorem gncOptimize_typed {vs : Vals G} (cfg : Cfg G T N) (env : Env G N) (full : Vals G) :
    M.Pres (TGrow vs) (gncOptimize cfg env full) := by
  unfold gncOptimize
  refine M.Pres.bind TGrow.trans (M.Pres.get TGrow.refl) fun s => ?_
  simp only
  split
  · exact M.Pres.undef _
  · split
    · exact M.Pres.raise TGrow.refl _
    · split
      · exact M.Pres.undef _
      · exact M.Pres.bind TGrow.trans (M.Pres.modify fun s => TGrow.of_eq rfl) fun _ => M.Pres.pure TGrow.refl _

theorem optimize_typed {vs : Vals G} (cfg : Cfg G T N) (env : Env G N) : M.Pres (TGrow vs) (optimize cfg env) := by
  unfold optimize
  refine M.Pres.bind TGrow.trans (M.Pres.get TGrow.refl) fun s => ?_
  split
  · exact M.Pres.raise TGrow.refl _
  · refine M.Pres.bind TGrow.trans (M.Pres.cond (gncOptimize_typed _ _ _) (plainOptimize_typed _ _ _)) fun r => ?_
    refine M.Pres.bind TGrow.trans (applyResult_typed r) fun _ => ?_
    exact M.Pres.when TGrow.refl (M.Pres.modify fun s => TGrow.of_eq rfl)

theorem logStatus_typed {vs : Vals G} (cfg : Cfg G T N) : M.Pres (TGrow vs) (logStatus cfg) := by
  unfold logStatus
  refine M.Pres.bind TGrow.trans ?_ fun _ => M.Pres.bind TGrow.trans ?_ fun _ => ?_
  · intro s; unfold getNumLC; split; exact TGrow.refl s; trivial
  · intro s; unfold getNumLCInliers; split; exact TGrow.refl s; split; exact TGrow.refl s; trivial
  · intro s; unfold saveData; split <;> exact TGrow.refl s

theorem find?_of_mem {k : Key} {y : Val G} {vs : Vals G} (h : vs.find? k = some y) : (k, y) ∈ vs := by
  induction vs with
  | nil => cases h
  | cons e t ih =>
    obtain ⟨k', y'⟩ := e
    unfold KMap.find? at h
    split at h
    · rename_i hk
      cases h
      simp_all
    · exact List.mem_cons_of_mem _ (ih h)

/-- The entries after values were inserted, also if an exception stopped that. -/
theorem insertVals_typed (vs : Vals G) (v : Vals G) :
    M.Ends (fun v' : Vals G => ∀ k y, v'.find? k = some y → v.find? k = some y ∨ (k, y) ∈ vs) (insertVals vs v) := by
  induction vs generalizing v with
  | nil => exact fun k y h => Or.inl h
  | cons e t ih =>
    obtain ⟨k, x⟩ := e
    unfold insertVals
    split
    · exact fun k y h => Or.inl h
    · refine M.Ends.mono (fun v' h' => ?_) (ih _)
      intro k' y hy
      rcases h' k' y hy with h | h
      · rw [KMap.find?_set] at h
        split at h
        · rename_i hk
          cases h
          subst hk
          exact Or.inr (by simp)
        · exact Or.inl h
      · exact Or.inr (List.mem_cons_of_mem _ h)

theorem onValues_typed (vs : Vals G) : M.Pres (TGrow vs) (onValues (insertVals vs) : M (St G T N) Unit) := by
  intro s
  have he := insertVals_typed vs s.values
  unfold onValues M.zoom
  cases h : insertVals vs s.values with
  | ub u => trivial
  | throw v x =>
    rw [h] at he
    exact fun k y hy => ⟨y, he k y hy, y.sameType_refl⟩
  | ok v x =>
    rw [h] at he
    exact fun k y hy => ⟨y, he k y hy, y.sameType_refl⟩

section
variable [Mul G] [Inv G] [One G]

theorem alignStep_typed {vs : Vals G} (cfg : Cfg G T N) (env : Env G N) : M.Pres (TGrow vs) (alignStep cfg env) := by
  intro s
  have hf := alignStep_frame cfg env s
  cases h : alignStep cfg env s with
  | ub u => trivial
  | ok s' x =>
    rw [h] at hf
    have hf : AlignFrame s s' := hf
    exact TGrow.of_types hf.values (alignStep_types h)
  | throw s' x =>
    unfold alignStep at h
    split at h
    · simp only at h
      split at h
      · cases h
      · cases h; exact TGrow.of_eq rfl
      · cases h
    · cases h

theorem onPcm_typed {α : Type} {vs : Vals G} (m : M (Pcm G T N) α) : M.Pres (TGrow vs) (onPcm m) := by
  intro s
  rw [onPcm_apply]
  cases m s.pcm <;> first | exact TGrow.of_eq rfl | trivial

theorem rebuild_typed {vs : Vals G} (env : Env G N) : M.Pres (TGrow vs) (rebuild env : M (St G T N) Unit) :=
  fun _ => TGrow.of_eq rfl

theorem removeOutliers_typed (cfg : Cfg G T N) (env : Env G N) (fs : Graph G N) (vs : Vals G) :
    M.Pres (TGrow vs) (removeOutliers cfg env fs vs) := by
  unfold removeOutliers
  refine M.Pres.bind TGrow.trans (onValues_typed vs) fun _ => ?_
  refine M.Pres.cond (M.Pres.pure TGrow.refl _) ?_
  unfold processFactors
  refine M.Pres.bind TGrow.trans (M.Pres.get TGrow.refl) fun s => ?_
  refine M.Pres.bind TGrow.trans (onPcm_typed _) fun r => ?_
  refine M.Pres.bind TGrow.trans (M.Pres.when TGrow.refl (onPcm_typed _)) fun _ => ?_
  refine M.Pres.bind TGrow.trans (rebuild_typed env) fun _ => ?_
  exact M.Pres.bind TGrow.trans (alignStep_typed cfg env) fun _ => M.Pres.pure TGrow.refl _

omit [Mul G] [Inv G] [One G] in
theorem addAndCheck_typed (fs : Graph G N) (vs : Vals G) : M.Pres (TGrow vs) (addAndCheck fs vs : M (St G T N) Bool) := by
  unfold addAndCheck
  refine M.Pres.bind TGrow.trans (M.Pres.modify fun _ => TGrow.of_eq rfl) fun _ => ?_
  refine M.Pres.bind TGrow.trans (onValues_typed vs) fun _ => ?_
  split
  · exact M.Pres.pure TGrow.refl _
  · exact M.Pres.undef _
  · exact M.Pres.pure TGrow.refl _
  · exact M.Pres.pure TGrow.refl _

theorem exec_typed (cfg : Cfg G T N) (env : Env G N) (op : Op G N) : M.Pres (TGrow (Spec.opGiven op)) (exec cfg env op) := by
  have hopt : ∀ vs : Vals G, M.Pres (TGrow vs) (optimize cfg env) := fun _ => optimize_typed cfg env
  have hlog : ∀ vs : Vals G, M.Pres (TGrow vs) (logStatus cfg) := fun _ => logStatus_typed cfg
  have ret : ∀ {α β : Type} {vs : Vals G} {m : M (St G T N) α} {f : α → β}, M.Pres (TGrow vs) m → M.Pres (TGrow vs) (m.ret f) :=
    fun hm => M.Pres.bind TGrow.trans hm fun _ => M.Pres.pure TGrow.refl _
  cases op with
  | update fs vs o =>
    refine ret ?_
    refine M.Pres.bind TGrow.trans (M.Pres.cond (removeOutliers_typed cfg env fs vs) (addAndCheck_typed fs vs)) fun _ => ?_
    exact M.Pres.bind TGrow.trans (M.Pres.when TGrow.refl (hopt _)) fun _ => M.Pres.when TGrow.refl (hlog _)
  | forceUpdate fs vs =>
    refine ret ?_
    refine M.Pres.bind TGrow.trans (M.Pres.cond (removeOutliers_typed cfg env fs vs) (addAndCheck_typed fs vs)) fun _ => ?_
    exact M.Pres.bind TGrow.trans (hopt _) fun _ => M.Pres.when TGrow.refl (hlog _)
  | removePriors c o =>
    refine ret ?_
    refine M.Pres.bind TGrow.trans (M.Pres.cond ?_ (M.Pres.modify fun _ => TGrow.of_eq rfl)) fun _ => M.Pres.when TGrow.refl (hopt _)
    unfold removePriorsPcm
    exact M.Pres.bind TGrow.trans (onPcm_typed _) fun _ => rebuild_typed env
  | removeLastPair a b =>
    refine ret ?_
    refine M.Pres.bind TGrow.trans (M.Pres.cond (typed_same (removeLastOfPair_values env _))
      (M.Pres.mono (fun _ _ h => TGrow.of_nfg h) removeLastFactor_frame)) fun _ => ?_
    exact M.Pres.bind TGrow.trans (hopt _) fun _ => M.Pres.pure TGrow.refl _
  | removeLast =>
    refine ret ?_
    refine M.Pres.bind TGrow.trans (M.Pres.cond (typed_same ?_)
      (M.Pres.mono (fun _ _ h => TGrow.of_nfg h) removeLastFactor_frame)) fun _ => ?_
    · intro s
      rw [removeLastPcm_eq]
      cases s.pcm.inOrder.getLast? with
      | none => exact rfl
      | some id => exact removeLastOfPair_values env id _
    · exact M.Pres.bind TGrow.trans (hopt _) fun _ => M.Pres.pure TGrow.refl _
  | ignore c =>
    refine ret ?_
    refine M.Pres.bind TGrow.trans (M.Pres.when TGrow.refl ?_) fun _ => hopt _
    unfold ignorePcm
    exact M.Pres.bind TGrow.trans (onPcm_typed _) fun _ => rebuild_typed env
  | revive c =>
    refine ret ?_
    refine M.Pres.bind TGrow.trans (M.Pres.when TGrow.refl ?_) fun _ => hopt _
    unfold revivePcm
    exact M.Pres.bind TGrow.trans (onPcm_typed _) fun _ => rebuild_typed env
  | getNumLC =>
    refine ret fun s => ?_
    unfold getNumLC; split; exact TGrow.refl s; trivial
  | getNumLCInliers =>
    refine ret fun s => ?_
    unfold getNumLCInliers; split; exact TGrow.refl s; split; exact TGrow.refl s; trivial
  | saveData =>
    refine ret fun s => ?_
    unfold saveData; split <;> exact TGrow.refl s
  | removeFactors is => exact ret (M.Pres.mono (fun _ _ h => TGrow.of_nfg h) (removeFactors_pres is))
  | removeLastFactor => exact ret (M.Pres.mono (fun _ _ h => TGrow.of_nfg h) removeLastFactor_frame)
  | removePriorsGeneric c => exact ret (M.Pres.modify fun _ => TGrow.of_eq rfl)
  | updateValues vs => exact ret (applyResult_typed vs)
  | genericUpdate fs vs rm =>
    refine ret ?_
    refine M.Pres.bind TGrow.trans (M.Pres.mono (fun _ _ h => TGrow.of_nfg h) (removeFactors_pres rm)) fun _ => ?_
    refine M.Pres.bind TGrow.trans (addAndCheck_typed fs vs) fun lc => ?_
    split
    · refine M.Pres.bind TGrow.trans (M.Pres.get TGrow.refl) fun s => ?_
      split
      · exact M.Pres.raise TGrow.refl _
      · split
        · exact M.Pres.raise TGrow.refl _
        · exact applyResult_typed _
    · exact M.Pres.pure TGrow.refl _
  | tempUpdate fs vs =>
    intro s
    show M.Ends (TGrow [] s)
      (((M.zoom (fun s => s.tempValues) (fun v s => { s with tempValues := v }) (insertVals vs) : M (St G T N) Unit).ret
        fun _ => Ret.unit) { s with tempNfg := s.tempNfg ++ fs })
    refine ends_ret ?_
    unfold M.zoom
    simp only
    cases insertVals vs s.tempValues with
    | ub u => trivial
    | ok v _ => exact TGrow.of_eq rfl
    | throw v _ => exact TGrow.of_eq rfl
  | tempReplace fs vs => exact ret (M.Pres.modify fun _ => TGrow.of_eq rfl)
  | tempClear => exact ret (M.Pres.modify fun _ => TGrow.of_eq rfl)

/-- Every entry of the estimate has the type of a value supplied for its key. -/
theorem reach_typed {cfg : Cfg G T N} {env : Env G N} {h : List (Op G N)} {s : St G T N} (r : Reach cfg env h s)
    {k : Key} {y : Val G} (hy : s.values.find? k = some y) : ∃ op ∈ h, ∃ x, (k, x) ∈ Spec.opGiven op ∧ x.sameType y = true := by
  have step : ∀ {h : List (Op G N)} {s : St G T N} {op : Op G N} {s' : St G T N},
      (∀ k y, s.values.find? k = some y → ∃ op ∈ h, ∃ x, (k, x) ∈ Spec.opGiven op ∧ x.sameType y = true) →
      TGrow (Spec.opGiven op) s s' →
      ∀ k y, s'.values.find? k = some y → ∃ o ∈ h ++ [op], ∃ x, (k, x) ∈ Spec.opGiven o ∧ x.sameType y = true := by
    intro h s op s' h1 hv k y hy
    obtain ⟨x, hx | hx, t⟩ := hv k y hy
    · obtain ⟨o, ho, z, hz, t'⟩ := h1 k x hx
      exact ⟨o, by simp [ho], z, hz, Val.sameType_trans t' t⟩
    · exact ⟨op, by simp, x, hx, t⟩
  induction r generalizing k y with
  | init => simp [St.init, KMap.find?] at hy
  | @ok _ s op _ _ _ e ih =>
    have := exec_typed cfg env op s
    rw [e] at this
    exact step (fun k y hy => ih hy) this k y hy
  | @throw _ s op _ _ _ e ih =>
    have := exec_typed cfg env op s
    rw [e] at this
    exact step (fun k y hy => ih hy) this k y hy

end

end RPGO
