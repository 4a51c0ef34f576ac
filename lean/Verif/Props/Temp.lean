import Verif.Props.Values
/-
C36, fifth part: which temporary factors and values there are after any history.
-/

namespace RPGO.Spec
variable {G T N : Type}

/-- The temporary factors after a call: added, replaced, cleared. -/
def tempStep : Graph G N → Op G N → Graph G N
  | g, .tempUpdate fs _ => g ++ fs
  | _, .tempReplace fs _ => fs
  | _, .tempClear => []
  | g, _ => g

/-- The temporary factors after a history. -/
def tempSoFar (h : List (Op G N)) : Graph G N := h.foldl tempStep []

/-- The keys with a temporary value after a call. -/
def tempKeyStep : List Key → Op G N → List Key
  | ks, .tempUpdate _ vs => ks ++ vs.keys
  | _, .tempReplace _ vs => vs.keys
  | _, .tempClear => []
  | ks, _ => ks

/-- The keys with a temporary value after a history. -/
def tempKeys (h : List (Op G N)) : List Key := h.foldl tempKeyStep []

end RPGO.Spec

namespace RPGO
variable {G T N : Type}

/-- The temporary part has the same factors and keys. -/
structure TempSame (s s' : St G T N) : Prop where
  nfg : s'.tempNfg = s.tempNfg
  has : ∀ k, s'.tempValues.has k = s.tempValues.has k

namespace TempSame
theorem refl (s : St G T N) : TempSame s s := ⟨rfl, fun _ => rfl⟩
theorem trans (a b c : St G T N) (h1 : TempSame a b) (h2 : TempSame b c) : TempSame a c :=
  ⟨h2.nfg.trans h1.nfg, fun k => (h2.has k).trans (h1.has k)⟩
theorem of_eq {s s' : St G T N} (h : s'.tempNfg = s.tempNfg) (h2 : s'.tempValues = s.tempValues) : TempSame s s' :=
  ⟨h, fun k => by rw [h2]⟩
theorem of_nfg {s s' : St G T N} (h : s' = { s with nfg := s'.nfg }) : TempSame s s' := by
  rw [h]; exact ⟨rfl, fun _ => rfl⟩
theorem of_frame {α : Type} {m : M (St G T N) α} (h : M.Pres OptFrame m) : M.Pres TempSame m :=
  M.Pres.mono (fun _ _ h => ⟨h.tempNfg, h.temp.has⟩) h
theorem ret {α β : Type} {m : M (St G T N) α} {f : α → β} (h : M.Pres TempSame m) : M.Pres TempSame (m.ret f) :=
  M.Pres.bind trans h fun _ => M.Pres.pure refl _
end TempSame

theorem onPcm_temp [Mul G] [Inv G] [One G] {α : Type} (m : M (Pcm G T N) α) : M.Pres TempSame (onPcm m) := by
  intro s
  rw [onPcm_apply]
  cases m s.pcm <;> first | exact TempSame.of_eq rfl rfl | trivial

theorem onValues_temp (vs : Vals G) : M.Pres TempSame (onValues (insertVals vs) : M (St G T N) Unit) := by
  intro s
  unfold onValues M.zoom
  cases insertVals vs s.values <;> first | exact TempSame.of_eq rfl rfl | trivial

theorem rebuild_temp (env : Env G N) : M.Pres TempSame (rebuild env : M (St G T N) Unit) := fun _ => TempSame.of_eq rfl rfl

section
variable [Mul G] [Inv G] [One G]

theorem removeOutliers_temp (cfg : Cfg G T N) (env : Env G N) (fs : Graph G N) (vs : Vals G) :
    M.Pres TempSame (removeOutliers cfg env fs vs) := by
  unfold removeOutliers
  refine M.Pres.bind TempSame.trans (onValues_temp vs) fun _ => ?_
  refine M.Pres.cond (M.Pres.pure TempSame.refl _) ?_
  unfold processFactors
  refine M.Pres.bind TempSame.trans (M.Pres.get TempSame.refl) fun s => ?_
  refine M.Pres.bind TempSame.trans (onPcm_temp _) fun r => ?_
  refine M.Pres.bind TempSame.trans (M.Pres.when TempSame.refl (onPcm_temp _)) fun _ => ?_
  refine M.Pres.bind TempSame.trans (M.Pres.modify fun _ => TempSame.of_eq rfl rfl) fun _ => ?_
  refine M.Pres.bind TempSame.trans (M.Pres.mono (fun _ _ h => ?_) (alignStep_frame cfg env)) fun _ => M.Pres.pure TempSame.refl _
  rw [h.eq]
  exact TempSame.of_eq rfl rfl

omit [Mul G] [Inv G] [One G] in
theorem addAndCheck_temp (fs : Graph G N) (vs : Vals G) : M.Pres TempSame (addAndCheck fs vs : M (St G T N) Bool) := by
  unfold addAndCheck
  refine M.Pres.bind TempSame.trans (M.Pres.modify fun _ => TempSame.of_eq rfl rfl) fun _ => ?_
  refine M.Pres.bind TempSame.trans (onValues_temp vs) fun _ => ?_
  split
  · exact M.Pres.pure TempSame.refl _
  · exact M.Pres.undef _
  · exact M.Pres.pure TempSame.refl _
  · exact M.Pres.pure TempSame.refl _

theorem removeLastOfPair_temp (env : Env G N) (id : ObsId) : M.Pres (TempSame (G := G) (T := T) (N := N)) (removeLastOfPair env id) := by
  intro s
  rw [removeLastOfPair_eq]
  cases AList.get? ObsId.eqv s.pcm.lcs id with
  | none => exact TempSame.refl _
  | some m =>
    simp only
    cases removeLastMeas m with
    | ub u => trivial
    | throw m' x => exact TempSame.of_eq rfl rfl
    | ok m' e => cases e <;> exact TempSame.of_eq rfl rfl

/-- Every call that does not concern the temporary part keeps its factors and keys, whether it returns or throws. -/
theorem exec_temp (cfg : Cfg G T N) (env : Env G N) (op : Op G N) (ho : Props.isTemp op = false) :
    M.Pres TempSame (exec cfg env op) := by
  have hopt := TempSame.of_frame (optimize_frame cfg env)
  have hlog := TempSame.of_frame (logStatus_frame cfg)
  have hr := TempSame.refl (G := G) (T := T) (N := N)
  have ht := TempSame.trans (G := G) (T := T) (N := N)
  cases op with
  | update fs vs o =>
    refine TempSame.ret (M.Pres.bind ht (M.Pres.cond (removeOutliers_temp cfg env fs vs) (addAndCheck_temp fs vs)) fun _ => ?_)
    exact M.Pres.bind ht (M.Pres.when hr hopt) fun _ => M.Pres.when hr hlog
  | forceUpdate fs vs =>
    refine TempSame.ret (M.Pres.bind ht (M.Pres.cond (removeOutliers_temp cfg env fs vs) (addAndCheck_temp fs vs)) fun _ => ?_)
    exact M.Pres.bind ht hopt fun _ => M.Pres.when hr hlog
  | removePriors c o =>
    refine TempSame.ret ?_
    refine M.Pres.bind ht (M.Pres.cond ?_ (M.Pres.modify fun _ => TempSame.of_eq rfl rfl)) fun _ => M.Pres.when hr hopt
    unfold removePriorsPcm
    exact M.Pres.bind ht (onPcm_temp _) fun _ => rebuild_temp env
  | removeLastPair a b =>
    refine TempSame.ret ?_
    refine M.Pres.bind ht (M.Pres.cond (removeLastOfPair_temp env _)
      (M.Pres.mono (fun _ _ h => TempSame.of_nfg h) removeLastFactor_frame)) fun _ => ?_
    exact M.Pres.bind ht hopt fun _ => M.Pres.pure hr _
  | removeLast =>
    refine TempSame.ret ?_
    refine M.Pres.bind ht (M.Pres.cond ?_
      (M.Pres.mono (fun _ _ h => TempSame.of_nfg h) removeLastFactor_frame)) fun _ => ?_
    · intro s
      rw [removeLastPcm_eq]
      cases s.pcm.inOrder.getLast? with
      | none => exact hr _
      | some id =>
        refine M.Ends.mono (fun s' h => ht _ _ _ ?_ h) (removeLastOfPair_temp env id _)
        exact TempSame.of_eq rfl rfl
    · exact M.Pres.bind ht hopt fun _ => M.Pres.pure hr _
  | ignore c =>
    refine TempSame.ret (M.Pres.bind ht (M.Pres.when hr ?_) fun _ => hopt)
    unfold ignorePcm
    exact M.Pres.bind ht (onPcm_temp _) fun _ => rebuild_temp env
  | revive c =>
    refine TempSame.ret (M.Pres.bind ht (M.Pres.when hr ?_) fun _ => hopt)
    unfold revivePcm
    exact M.Pres.bind ht (onPcm_temp _) fun _ => rebuild_temp env
  | getNumLC =>
    refine TempSame.ret fun s => ?_
    unfold getNumLC; split; exact hr s; trivial
  | getNumLCInliers =>
    refine TempSame.ret fun s => ?_
    unfold getNumLCInliers; split; exact hr s; split; exact hr s; trivial
  | saveData =>
    refine TempSame.ret fun s => ?_
    unfold saveData; split <;> exact hr s
  | removeFactors is => exact TempSame.ret (M.Pres.mono (fun _ _ h => TempSame.of_nfg h) (removeFactors_pres is))
  | removeLastFactor => exact TempSame.ret (M.Pres.mono (fun _ _ h => TempSame.of_nfg h) removeLastFactor_frame)
  | removePriorsGeneric c => exact TempSame.ret (M.Pres.modify fun _ => TempSame.of_eq rfl rfl)
  | updateValues vs => exact TempSame.ret (TempSame.of_frame (applyResult_frame vs))
  | genericUpdate fs vs rm =>
    refine TempSame.ret ?_
    refine M.Pres.bind ht (M.Pres.mono (fun _ _ h => TempSame.of_nfg h) (removeFactors_pres rm)) fun _ => ?_
    refine M.Pres.bind ht (addAndCheck_temp fs vs) fun lc => ?_
    split
    · refine M.Pres.bind ht (M.Pres.get hr) fun s => ?_
      split
      · exact M.Pres.raise hr _
      · split
        · exact M.Pres.raise hr _
        · exact TempSame.of_frame (applyResult_frame _)
    · exact M.Pres.pure hr _
  | _ => cases ho

omit [Mul G] [Inv G] [One G] in
theorem tempStep_other {op : Op G N} (ho : Props.isTemp op = false) (g : Graph G N) (ks : List Key) :
    Spec.tempStep g op = g ∧ Spec.tempKeyStep ks op = ks := by
  cases op <;> first | exact ⟨rfl, rfl⟩ | cases ho

end

namespace Props
variable [Mul G] [Inv G] [One G]

/-- C36, fifth part: after any history, with failed calls, the temporary factors are exactly those added since the last
replacement or clearing, in order (a failed `updateTempFactorsValues` has added its factors). No other call, in particular
no optimization, removes or adds any. -/
theorem C36_temp_factors {cfg : Cfg G T N} {env : Env G N} {h : List (Op G N)} {s : St G T N} (r : Reach cfg env h s) :
    s.tempNfg = Spec.tempSoFar h := by
  have step : ∀ {h : List (Op G N)} {s s' : St G T N} {op : Op G N}, s.tempNfg = Spec.tempSoFar h →
      Spec.Call cfg env op s s' → s'.tempNfg = Spec.tempSoFar (h ++ [op]) := by
    intro h s s' op ih c
    unfold Spec.tempSoFar at *
    rw [List.foldl_append, ← ih]
    show _ = Spec.tempStep s.tempNfg op
    cases ho : isTemp op with
    | false =>
      rw [(tempStep_other ho s.tempNfg []).1]
      exact (call_ends c (P := fun s' => TempSame s s') (exec_temp cfg env op ho s)).nfg
    | true =>
      cases op with
      | tempUpdate fs vs =>
        refine call_ends c (P := fun s' => s'.tempNfg = s.tempNfg ++ fs) ?_
        show M.Ends _ (((M.zoom (fun s => s.tempValues) (fun v s => { s with tempValues := v }) (insertVals vs) : M (St G T N) Unit).ret
            fun _ => Ret.unit) { s with tempNfg := s.tempNfg ++ fs })
        refine ends_ret ?_
        unfold M.zoom
        cases insertVals vs s.tempValues with
        | ub u => trivial
        | throw v x => exact rfl
        | ok v x => exact rfl
      | tempReplace fs vs =>
        rcases c with ⟨_, e⟩ | ⟨_, e⟩ <;> cases e
        rfl
      | tempClear =>
        rcases c with ⟨_, e⟩ | ⟨_, e⟩ <;> cases e
        rfl
      | _ => cases ho
  induction r with
  | init => rfl
  | ok _ e ih => exact step ih (Or.inl ⟨_, e⟩)
  | throw _ e ih => exact step ih (Or.inr ⟨_, e⟩)

/-- C36, sixth part: after calls that returned normally, the temporary values are those of the keys added since the last
replacement or clearing. -/
theorem C36_temp_keys {cfg : Cfg G T N} {env : Env G N} {h : List (Op G N)} {s : St G T N} (r : ReachOk cfg env h s) (k : Key) :
    k ∈ s.tempValues.keys ↔ k ∈ Spec.tempKeys h := by
  induction r with
  | init => rfl
  | @step h s op s' x _ e ih =>
    unfold Spec.tempKeys at *
    rw [List.foldl_append]
    show _ ↔ k ∈ Spec.tempKeyStep (h.foldl Spec.tempKeyStep []) op
    cases ho : isTemp op with
    | false =>
      rw [(tempStep_other ho [] _).2, ← ih, KMap.mem_keys_iff, KMap.mem_keys_iff,
        (M.Pres.of_ok (exec_temp cfg env op ho) e).has k]
    | true =>
      cases op with
      | tempUpdate fs vs =>
        obtain ⟨s2, _, h1, h2⟩ := M.bind_eq_ok.1
          (show (((M.zoom (fun s => s.tempValues) (fun v s => { s with tempValues := v }) (insertVals vs) : M (St G T N) Unit).ret
            fun _ => Ret.unit) { s with tempNfg := s.tempNfg ++ fs }) = _ from e)
        cases h2
        obtain ⟨v, hv, rfl⟩ := M.zoom_eq_ok.1 h1
        obtain ⟨i1, i2, _⟩ := insertVals_ok hv
        show k ∈ KMap.keys v ↔ k ∈ _ ++ vs.keys
        rw [List.mem_append, ← ih, KMap.mem_keys_iff, KMap.mem_keys_iff, KMap.mem_keys_iff]
        unfold KMap.has
        rw [i1 k]
        split
        · rename_i hk
          unfold KMap.has at hk
          simp [hk]
        · rename_i hk
          unfold KMap.has at hk
          simp [hk]
      | tempReplace fs vs => cases e; rfl
      | tempClear => cases e; rfl
      | _ => cases ho

set_option maxRecDepth 100000 in
/-- Adding twice, replacing, adding, and an update in between. -/
example : ∃ s, ReachOk Demo.cfg Demo.env (Demo.h1 ++
      [.tempUpdate [Demo.edge (Demo.a 0) (Demo.b 0) 7] [Demo.pose (Demo.b 0) 7],
       .tempReplace [Demo.edge (Demo.a 0) (Demo.b 1) 7] [Demo.pose (Demo.b 1) 7],
       .forceUpdate [] [],
       .tempUpdate [Demo.edge (Demo.a 0) (Demo.b 2) 7] [Demo.pose (Demo.b 2) 7]]) s ∧
    s.tempNfg = [Demo.edge (Demo.a 0) (Demo.b 1) 7, Demo.edge (Demo.a 0) (Demo.b 2) 7] := by
  obtain ⟨s, r, h⟩ := Demo.runs_reach (cfg := Demo.cfg) (env := Demo.env) (ops := Demo.h1 ++
      [.tempUpdate [Demo.edge (Demo.a 0) (Demo.b 0) 7] [Demo.pose (Demo.b 0) 7],
       .tempReplace [Demo.edge (Demo.a 0) (Demo.b 1) 7] [Demo.pose (Demo.b 1) 7],
       .forceUpdate [] [],
       .tempUpdate [Demo.edge (Demo.a 0) (Demo.b 2) 7] [Demo.pose (Demo.b 2) 7]])
    (P := fun s => decide (s.tempNfg = [Demo.edge (Demo.a 0) (Demo.b 1) 7, Demo.edge (Demo.a 0) (Demo.b 2) 7])) (by decide +kernel)
  exact ⟨s, r, of_decide_eq_true h⟩

end Props
end RPGO
