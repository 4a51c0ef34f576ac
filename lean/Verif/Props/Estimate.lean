import Verif.Proofs.OptSafe
import Verif.Props.Values
/-
C59: what the estimate is after a call.
-/

namespace RPGO.Spec
variable {G T N : Type}

/-- The values a call supplies for new keys. -/
def opVals : Op G N → Vals G
  | .update _ vs _ => vs
  | .forceUpdate _ vs => vs
  | _ => []

/-- The estimate completed by the supplied values: existing entries stay. -/
def completed (v vs : Vals G) (k : Key) : Option (Val G) := if k ∈ v.keys then v.find? k else vs.find? k

/-- Batches that make a solver without outlier rejection optimize: all but the empty one and one factor on two keys
with one value (odometry). -/
def worthwhile : Graph G N → Vals G → Bool
  | [], vs => !vs.isEmpty
  | [some f], vs => !(decide (f.keys.length = 2) && decide (vs.length = 1))
  | _, _ => true

/-- Does a call on a solver without outlier rejection optimize? -/
def OptimizesPlain : Op G N → Bool
  | .update fs vs o => o && worthwhile fs vs
  | .forceUpdate _ _ => true
  | .removePriors _ o => o
  | .removeLastPair _ _ => true
  | .removeLast => true
  | .ignore _ => true
  | .revive _ => true
  | _ => false

/-- Does a normal return of the call include an optimization? -/
def optimizes (cfg : Cfg G T N) (op : Op G N) : Bool := if cfg.rejection then Optimizes cfg op else OptimizesPlain op

/-- The call optimized: the optimizer (GNC if it is on, otherwise the plain one) was given the whole resulting graph
followed by the temporary factors, started from the estimate completed by the supplied and by the temporary values (stored
by increasing key, as the estimate is), and
its result replaced the entries of the estimate and of the temporary values; entries without result stay. -/
def Optimized (cfg : Cfg G T N) (env : Env G N) (op : Op G N) (s s' : St G T N) : Prop :=
  ∃ full res : Vals G,
    (∀ k, full.find? k = (completed s.values (opVals op) k).or (s.tempValues.find? k)) ∧
    (s.values.keys.Pairwise (fun a b => a.toNat < b.toNat) → full.keys.Pairwise fun a b => a.toNat < b.toNat) ∧
    (if cfg.useGnc && cfg.rejection then
      ∃ known init w, env.gnc (s'.nfg ++ s.tempNfg) full known init = some (res, w)
     else env.opt (s'.nfg ++ s.tempNfg) full = some res) ∧
    (res.keys.Nodup →
      (∀ k, s'.values.find? k = (completed s.values (opVals op) k).map fun v => (res.find? k).getD v) ∧
      ∀ k, s'.tempValues.find? k = (s.tempValues.find? k).map fun v => (res.find? k).getD v)

end RPGO.Spec

namespace RPGO
variable {G T N : Type} [Mul G] [Inv G] [One G]

/-- Estimate and temporary part are unchanged. -/
def SameV (s s' : St G T N) : Prop := s'.values = s.values ∧ s'.tempValues = s.tempValues ∧ s'.tempNfg = s.tempNfg

theorem SameV.refl (s : St G T N) : SameV s s := ⟨rfl, rfl, rfl⟩
theorem SameV.trans (a b c : St G T N) (h : SameV a b) (h' : SameV b c) : SameV a c :=
  ⟨h'.1.trans h.1, h'.2.1.trans h.2.1, h'.2.2.trans h.2.2⟩

theorem onPcm_sameV {α : Type} (m : M (Pcm G T N) α) : M.Pres SameV (onPcm m) :=
  M.Pres.zoom (pres_top m) fun _ _ _ => ⟨rfl, rfl, rfl⟩

theorem rebuild_sameV (env : Env G N) : M.Pres SameV (rebuild env : M (St G T N) Unit) :=
  M.Pres.modify fun _ => ⟨rfl, rfl, rfl⟩

theorem removeLastOfPair_sameV (env : Env G N) (id : ObsId) :
    M.Pres SameV (removeLastOfPair env id : M (St G T N) EdgePtr) := by
  unfold removeLastOfPair
  simp only [M.bind_eq]
  refine M.Pres.bind SameV.trans (M.Pres.get SameV.refl) fun s => ?_
  split
  · exact M.Pres.pure SameV.refl _
  · refine M.Pres.bind SameV.trans (onPcm_sameV _) fun e => ?_
    cases e with
    | none => exact M.Pres.pure SameV.refl _
    | some e => exact M.Pres.bind SameV.trans (rebuild_sameV env) fun _ => M.Pres.pure SameV.refl _

theorem removeLastFactor_sameV : M.Pres SameV (removeLastFactor : M (St G T N) EdgePtr) := by
  intro s
  unfold removeLastFactor
  split
  · exact SameV.refl s
  · trivial
  · split
    · exact ⟨rfl, rfl, rfl⟩
    · trivial

theorem removeFactors_sameV (is : List Nat) : M.Pres SameV (removeFactors is : M (St G T N) Unit) := by
  induction is with
  | nil => exact M.Pres.pure SameV.refl _
  | cons i is ih =>
    intro s
    unfold removeFactors
    split
    · exact M.Ends.mono (fun _ h => SameV.trans _ _ _ ⟨rfl, rfl, rfl⟩ h) (ih _)
    · exact SameV.refl s

/-- What a call does to the estimate before it optimizes. -/
def Completes (op : Op G N) (s s' : St G T N) : Prop :=
  (∀ k, s'.values.find? k = Spec.completed s.values (Spec.opVals op) k) ∧
    (Props.isTemp op = false → s'.tempValues = s.tempValues ∧ s'.tempNfg = s.tempNfg) ∧
    (s.values.Sorted → s'.values.Sorted)

theorem Completes.of_same {op : Op G N} {s s' : St G T N} (ho : Spec.opVals op = []) (h : SameV s s') :
    Completes op s s' := by
  refine ⟨fun k => ?_, fun _ => h.2, fun hs => by rw [h.1]; exact hs⟩
  rw [h.1, ho]
  unfold Spec.completed
  split
  · rfl
  · rename_i hk
    have : ¬ KMap.has s.values k = true := fun h => hk ((KMap.mem_keys_iff _ _).2 h)
    unfold KMap.has at this
    cases e : KMap.find? s.values k with
    | none => rfl
    | some v => rw [e] at this; simp at this

theorem insert_completed {vs v v1 : Vals G} (h : insertVals vs v = .ok v1 ()) (k : Key) :
    v1.find? k = Spec.completed v vs k := by
  rw [(insertVals_ok h).1 k]
  unfold Spec.completed
  simp only [KMap.mem_keys_iff]

theorem insert_sorted {vs v v1 : Vals G} (h : insertVals vs v = .ok v1 ()) (hs : v.Sorted) : v1.Sorted := by
  induction vs generalizing v with
  | nil => unfold insertVals at h; cases h; exact hs
  | cons e t ih =>
    unfold insertVals at h
    split at h
    · cases h
    · exact ih h (hs.set _ _)

theorem removeOutliers_completes {cfg : Cfg G T N} {env : Env G N} {fs : Graph G N} (hal : cfg.align = false ∨ fs = [])
    {vs : Vals G} {s s' : St G T N} {r : Bool} (h : removeOutliers cfg env fs vs s = .ok s' r) :
    (∀ k, s'.values.find? k = Spec.completed s.values vs k) ∧ (s'.tempValues = s.tempValues ∧ s'.tempNfg = s.tempNfg) ∧
      (s.values.Sorted → s'.values.Sorted) := by
  obtain ⟨v1, h1, _, ⟨_, rfl⟩ | ⟨hne, p1, p2, o, _, _, _, _, ha⟩⟩ := removeOutliers_ok h
  · exact ⟨insert_completed h1, ⟨rfl, rfl⟩, insert_sorted h1⟩
  · rw [alignStep_off (Or.inl (hal.resolve_right hne))] at ha
    cases ha
    exact ⟨insert_completed h1, ⟨rfl, rfl⟩, insert_sorted h1⟩

theorem addAndCheck_ok {fs : Graph G N} {vs : Vals G} {s s' : St G T N} {r : Bool}
    (h : addAndCheck fs vs s = .ok s' r) :
    (∀ k, s'.values.find? k = Spec.completed s.values vs k) ∧ s'.tempValues = s.tempValues ∧ s'.tempNfg = s.tempNfg ∧
      r = Spec.worthwhile fs vs ∧ (s.values.Sorted → s'.values.Sorted) := by
  unfold addAndCheck at h
  simp only [M.bind_eq] at h
  obtain ⟨s1, _, h1, h2⟩ := M.bind_eq_ok.1 h
  cases h1
  obtain ⟨s2, _, h3, h4⟩ := M.bind_eq_ok.1 h2
  obtain ⟨v1, e1, rfl⟩ := M.zoom_eq_ok.1 h3
  match fs, h4 with
  | [], h4 => cases h4; exact ⟨insert_completed e1, rfl, rfl, by cases vs <;> simp [Spec.worthwhile], insert_sorted e1⟩
  | [none], h4 => cases h4
  | [some f], h4 => cases h4; exact ⟨insert_completed e1, rfl, rfl, rfl, insert_sorted e1⟩
  | none :: g :: t, h4 => cases h4; exact ⟨insert_completed e1, rfl, rfl, rfl, insert_sorted e1⟩
  | some f :: g :: t, h4 => cases h4; exact ⟨insert_completed e1, rfl, rfl, rfl, insert_sorted e1⟩

/-- Calls covered here: not the overwriting of the estimate and not the update of the base class. -/
def Ordinary (op : Op G N) : Prop := (∀ vs, op ≠ .updateValues vs) ∧ ∀ fs vs rm, op ≠ .genericUpdate fs vs rm

theorem query_sameV {cfg : Cfg G T N} {env : Env G N} {op : Op G N} (ho : op = .getNumLC ∨ op = .getNumLCInliers ∨
    op = .saveData ∨ (∃ is, op = .removeFactors is) ∨ op = .removeLastFactor ∨ ∃ c, op = .removePriorsGeneric c)
    {s s' : St G T N} {x : Ret} (e : exec cfg env op s = .ok s' x) : SameV s s' := by
  have ret : ∀ {α β : Type} {m : M (St G T N) α} {f : α → β}, M.Pres SameV m → M.Pres SameV (m.ret f) :=
    fun h => M.Pres.bind SameV.trans h fun _ => M.Pres.pure SameV.refl _
  refine M.Pres.of_ok (R := SameV) (m := exec cfg env op) ?_ e
  rcases ho with rfl | rfl | rfl | ⟨is, rfl⟩ | rfl | ⟨c, rfl⟩
  · refine ret fun s => ?_
    unfold getNumLC
    split
    · exact SameV.refl s
    · trivial
  · refine ret fun s => ?_
    unfold getNumLCInliers
    split
    · exact SameV.refl s
    · split
      · exact SameV.refl s
      · trivial
  · refine ret fun s => ?_
    unfold saveData
    split <;> exact SameV.refl s
  · exact ret (removeFactors_sameV is)
  · exact ret removeLastFactor_sameV
  · exact ret (M.Pres.modify fun _ => ⟨rfl, rfl, rfl⟩)

theorem temp_values {cfg : Cfg G T N} {env : Env G N} {op : Op G N} (ho : Props.isTemp op = true) {s s' : St G T N} {x : Ret}
    (e : exec cfg env op s = .ok s' x) : Completes op s s' := by
  have hv : s'.values = s.values := by rw [Props.temp_frame ho (Or.inl ⟨x, e⟩)]
  have hs : SameV s { s' with tempValues := s.tempValues, tempNfg := s.tempNfg } := ⟨hv, rfl, rfl⟩
  refine ⟨(Completes.of_same (op := op) ?_ hs).1, (fun h => by rw [ho] at h; cases h), fun hso => by rw [hv]; exact hso⟩
  cases op <;> first | rfl | cases ho

theorem exec_stages_pcm {cfg : Cfg G T N} {env : Env G N} (hr : cfg.rejection = true)
    {op : Op G N} (hal : cfg.align = false ∨ Spec.opFactors op = []) (ho : Ordinary op) {s s' : St G T N} {x : Ret} (e : exec cfg env op s = .ok s' x) :
    ∃ s1, Completes op s s1 ∧ ((Spec.Optimizes cfg op = true ∧ optimize cfg env s1 = .ok s' ()) ∨
      (Spec.Optimizes cfg op = false ∧ s' = s1)) := by
  obtain ⟨s1, o, h1, h2⟩ := exec_ok_phase hr e
  have hf := phase1_flag h1
  refine ⟨s1, ?_, by rw [← hf]; exact h2⟩
  have unret : ∀ {α β : Type} {m : M (St G T N) α} {f : α → β} {s s1 : St G T N} {y : β}, m.ret f s = .ok s1 y →
      ∃ a, m s = .ok s1 a := by
    intro α β m f s s1 y h
    obtain ⟨s2, a, h1, h2⟩ := M.bind_eq_ok.1 h
    cases h2
    exact ⟨a, h1⟩
  cases op with
  | update fs vs o =>
    obtain ⟨_, h⟩ := unret (show (removeOutliers cfg env fs vs).ret _ s = _ from h1)
    have := removeOutliers_completes hal h
    exact ⟨this.1, fun _ => this.2.1, this.2.2⟩
  | forceUpdate fs vs =>
    obtain ⟨_, h⟩ := unret (show (removeOutliers cfg env fs vs).ret _ s = _ from h1)
    have := removeOutliers_completes hal h
    exact ⟨this.1, fun _ => this.2.1, this.2.2⟩
  | removePriors c o =>
    obtain ⟨_, h⟩ := unret (show (removePriorsPcm cfg env c).ret _ s = _ from h1)
    refine Completes.of_same rfl (M.Pres.of_ok (R := SameV) ?_ h)
    unfold removePriorsPcm
    exact M.Pres.bind SameV.trans (onPcm_sameV _) fun _ => rebuild_sameV env
  | removeLastPair a b =>
    obtain ⟨_, h⟩ := unret (show (removeLastOfPair env ⟨a, b⟩).ret _ s = _ from h1)
    exact Completes.of_same rfl ((removeLastOfPair_sameV env _).of_ok h)
  | removeLast =>
    obtain ⟨_, h⟩ := unret (show (removeLastPcm env).ret _ s = _ from h1)
    refine Completes.of_same rfl (M.Pres.of_ok (R := SameV) ?_ h)
    unfold removeLastPcm
    simp only [M.bind_eq]
    refine M.Pres.bind SameV.trans (M.Pres.get SameV.refl) fun s => ?_
    split
    · exact M.Pres.pure SameV.refl _
    · exact M.Pres.bind SameV.trans (onPcm_sameV _) fun _ => removeLastOfPair_sameV env _
  | ignore c =>
    obtain ⟨_, h⟩ := unret (show (ignorePcm env c).ret _ s = _ from h1)
    refine Completes.of_same rfl (M.Pres.of_ok (R := SameV) ?_ h)
    unfold ignorePcm
    exact M.Pres.bind SameV.trans (onPcm_sameV _) fun _ => rebuild_sameV env
  | revive c =>
    obtain ⟨_, h⟩ := unret (show (revivePcm env c).ret _ s = _ from h1)
    refine Completes.of_same rfl (M.Pres.of_ok (R := SameV) ?_ h)
    unfold revivePcm
    exact M.Pres.bind SameV.trans (onPcm_sameV _) fun _ => rebuild_sameV env
  | updateValues vs => exact absurd rfl (ho.1 vs)
  | genericUpdate fs vs rm => exact absurd rfl (ho.2 fs vs rm)
  | tempUpdate fs vs =>
    obtain ⟨_, h⟩ := unret (show (exec cfg env (.tempUpdate fs vs)).ret _ s = _ from h1)
    exact temp_values rfl h
  | tempReplace fs vs =>
    obtain ⟨_, h⟩ := unret (show (exec cfg env (.tempReplace fs vs)).ret _ s = _ from h1)
    exact temp_values rfl h
  | tempClear =>
    obtain ⟨_, h⟩ := unret (show (exec cfg env .tempClear).ret _ s = _ from h1)
    exact temp_values rfl h
  | getNumLC =>
    obtain ⟨_, h⟩ := unret (show (exec cfg env .getNumLC).ret _ s = _ from h1)
    exact Completes.of_same rfl (query_sameV (by simp) h)
  | getNumLCInliers =>
    obtain ⟨_, h⟩ := unret (show (exec cfg env .getNumLCInliers).ret _ s = _ from h1)
    exact Completes.of_same rfl (query_sameV (by simp) h)
  | saveData =>
    obtain ⟨_, h⟩ := unret (show (exec cfg env .saveData).ret _ s = _ from h1)
    exact Completes.of_same rfl (query_sameV (by simp) h)
  | removeFactors is =>
    obtain ⟨_, h⟩ := unret (show (exec cfg env (.removeFactors is)).ret _ s = _ from h1)
    exact Completes.of_same rfl (query_sameV (by simp) h)
  | removeLastFactor =>
    obtain ⟨_, h⟩ := unret (show (exec cfg env .removeLastFactor).ret _ s = _ from h1)
    exact Completes.of_same rfl (query_sameV (by simp) h)
  | removePriorsGeneric c =>
    obtain ⟨_, h⟩ := unret (show (exec cfg env (.removePriorsGeneric c)).ret _ s = _ from h1)
    exact Completes.of_same rfl (query_sameV (by simp) h)

theorem exec_stages_plain {cfg : Cfg G T N} {env : Env G N} (hr : cfg.rejection = false)
    {op : Op G N} (ho : Ordinary op) {s s' : St G T N} {x : Ret} (e : exec cfg env op s = .ok s' x) :
    ∃ s1, Completes op s s1 ∧ ((Spec.OptimizesPlain op = true ∧ optimize cfg env s1 = .ok s' ()) ∨
      (Spec.OptimizesPlain op = false ∧ s' = s1)) := by
  have unret : ∀ {α β : Type} {m : M (St G T N) α} {f : α → β} {s s1 : St G T N} {y : β}, m.ret f s = .ok s1 y →
      ∃ a, m s = .ok s1 a := by
    intro α β m f s s1 y h
    obtain ⟨s2, a, h1, h2⟩ := M.bind_eq_ok.1 h
    cases h2
    exact ⟨a, h1⟩
  have hw : M.when cfg.rejection = fun _ : M (St G T N) Unit => M.pure () := by
    funext m; unfold M.when; rw [if_neg (by simp [hr])]
  have hlog : ∀ {c : Bool} {s s1 : St G T N}, M.when c (logStatus cfg) s = .ok s1 () → s1 = s := by
    intro c s s1 h
    unfold M.when at h
    split at h
    · exact (logStatus_same cfg).of_ok h
    · cases h; rfl
  cases op with
  | update fs vs o =>
    obtain ⟨_, h⟩ := unret (show (update cfg env fs vs o).ret _ s = _ from e)
    unfold update at h
    rw [cond_false hr] at h
    simp only [M.bind_eq] at h
    obtain ⟨s1, d, h1, h2⟩ := M.bind_eq_ok.1 h
    obtain ⟨s2, _, h3, h4⟩ := M.bind_eq_ok.1 h2
    obtain ⟨a, b, c, hd, hso⟩ := addAndCheck_ok h1
    have := hlog h4
    subst this
    refine ⟨s1, ⟨a, fun _ => ⟨b, c⟩, hso⟩, ?_⟩
    have hfl : Spec.OptimizesPlain (.update fs vs o : Op G N) = (d && o) := by
      unfold Spec.OptimizesPlain
      rw [hd, Bool.and_comm]
    rw [hfl]
    unfold M.when at h3
    cases hdo : (d && o) with
    | true => rw [hdo] at h3; exact Or.inl ⟨rfl, h3⟩
    | false => rw [hdo] at h3; cases h3; exact Or.inr ⟨rfl, rfl⟩
  | forceUpdate fs vs =>
    obtain ⟨_, h⟩ := unret (show (forceUpdate cfg env fs vs).ret _ s = _ from e)
    unfold forceUpdate at h
    rw [cond_false hr] at h
    simp only [M.bind_eq] at h
    obtain ⟨s1, d, h1, h2⟩ := M.bind_eq_ok.1 h
    obtain ⟨s2, _, h3, h4⟩ := M.bind_eq_ok.1 h2
    obtain ⟨a, b, c, hd, hso⟩ := addAndCheck_ok h1
    have := hlog h4
    subst this
    exact ⟨s1, ⟨a, fun _ => ⟨b, c⟩, hso⟩, Or.inl ⟨rfl, h3⟩⟩
  | removePriors c o =>
    obtain ⟨_, h⟩ := unret (show (removePriors cfg env c o).ret _ s = _ from e)
    unfold removePriors at h
    rw [cond_false hr] at h
    simp only [M.bind_eq] at h
    obtain ⟨s1, d, h1, h2⟩ := M.bind_eq_ok.1 h
    have hs : SameV s s1 := by cases h1; exact ⟨rfl, rfl, rfl⟩
    refine ⟨s1, Completes.of_same rfl hs, ?_⟩
    unfold M.when at h2
    cases o with
    | true => exact Or.inl ⟨rfl, h2⟩
    | false => cases h2; exact Or.inr ⟨rfl, rfl⟩
  | removeLastPair a b =>
    obtain ⟨_, h⟩ := unret (show (removeLastLC2 cfg env a b).ret _ s = _ from e)
    unfold removeLastLC2 at h
    rw [cond_false hr] at h
    simp only [M.bind_eq] at h
    obtain ⟨s1, d, h1, h2⟩ := M.bind_eq_ok.1 h
    obtain ⟨s2, _, h3, h4⟩ := M.bind_eq_ok.1 h2
    cases h4
    exact ⟨s1, Completes.of_same rfl (removeLastFactor_sameV.of_ok h1), Or.inl ⟨rfl, h3⟩⟩
  | removeLast =>
    obtain ⟨_, h⟩ := unret (show (removeLastLC cfg env).ret _ s = _ from e)
    unfold removeLastLC at h
    rw [cond_false hr] at h
    simp only [M.bind_eq] at h
    obtain ⟨s1, d, h1, h2⟩ := M.bind_eq_ok.1 h
    obtain ⟨s2, _, h3, h4⟩ := M.bind_eq_ok.1 h2
    cases h4
    exact ⟨s1, Completes.of_same rfl (removeLastFactor_sameV.of_ok h1), Or.inl ⟨rfl, h3⟩⟩
  | ignore c =>
    obtain ⟨_, h⟩ := unret (show (ignorePrefix cfg env c).ret _ s = _ from e)
    unfold ignorePrefix at h
    rw [hw] at h
    exact ⟨s, Completes.of_same rfl (SameV.refl s), Or.inl ⟨rfl, h⟩⟩
  | revive c =>
    obtain ⟨_, h⟩ := unret (show (revivePrefix cfg env c).ret _ s = _ from e)
    unfold revivePrefix at h
    rw [hw] at h
    exact ⟨s, Completes.of_same rfl (SameV.refl s), Or.inl ⟨rfl, h⟩⟩
  | updateValues vs => exact absurd rfl (ho.1 vs)
  | genericUpdate fs vs rm => exact absurd rfl (ho.2 fs vs rm)
  | tempUpdate fs vs => exact ⟨s', temp_values rfl e, Or.inr ⟨rfl, rfl⟩⟩
  | tempReplace fs vs => exact ⟨s', temp_values rfl e, Or.inr ⟨rfl, rfl⟩⟩
  | tempClear => exact ⟨s', temp_values rfl e, Or.inr ⟨rfl, rfl⟩⟩
  | getNumLC => exact ⟨s', Completes.of_same rfl (query_sameV (by simp) e), Or.inr ⟨rfl, rfl⟩⟩
  | getNumLCInliers => exact ⟨s', Completes.of_same rfl (query_sameV (by simp) e), Or.inr ⟨rfl, rfl⟩⟩
  | saveData => exact ⟨s', Completes.of_same rfl (query_sameV (by simp) e), Or.inr ⟨rfl, rfl⟩⟩
  | removeFactors is => exact ⟨s', Completes.of_same rfl (query_sameV (by simp) e), Or.inr ⟨rfl, rfl⟩⟩
  | removeLastFactor => exact ⟨s', Completes.of_same rfl (query_sameV (by simp) e), Or.inr ⟨rfl, rfl⟩⟩
  | removePriorsGeneric c => exact ⟨s', Completes.of_same rfl (query_sameV (by simp) e), Or.inr ⟨rfl, rfl⟩⟩

theorem find?_cons_eq (k0 k : Key) (v0 : Val G) (t : Vals G) :
    KMap.find? ((k0, v0) :: t) k = if k0 = k then some v0 else KMap.find? t k := by
  by_cases e : k0 = k
  · simp [KMap.find?, e]
  · simp [KMap.find?, e]

theorem find?_none_of {t : Vals G} {k : Key} (h : k ∉ KMap.keys t) : KMap.find? t k = none := by
  cases e : KMap.find? t k with
  | none => rfl
  | some v => exact absurd ((KMap.mem_keys_iff _ _).2 (by unfold KMap.has; rw [e]; rfl)) h

/-- Which values replace which entries. -/
theorem applyResult_both {res : Vals G} {s s' : St G T N} (h : applyResult res s = .ok s' ()) (hn : res.keys.Nodup) :
    (∀ k, s'.values.find? k = (s.values.find? k).map fun v => (res.find? k).getD v) ∧
    ∀ k, s'.tempValues.find? k = (s.tempValues.find? k).map fun v =>
      if (s.values.find? k).isSome then v else (res.find? k).getD v := by
  induction res generalizing s with
  | nil =>
    cases h
    refine ⟨fun k => ?_, fun k => ?_⟩
    · cases s'.values.find? k <;> simp [KMap.find?]
    · cases s'.tempValues.find? k <;> simp [KMap.find?]
  | cons e t ih =>
    obtain ⟨k0, v0⟩ := e
    simp only [KMap.keys, List.map_cons, List.nodup_cons] at hn
    have ht : KMap.find? t k0 = none := find?_none_of hn.1
    unfold applyResult at h
    cases h0 : s.values.find? k0 with
    | some v' =>
      rw [h0] at h
      simp only at h
      split at h
      · obtain ⟨i1, i2⟩ := ih h hn.2
        refine ⟨fun k => ?_, fun k => ?_⟩
        · rw [i1 k, find?_cons_eq]
          by_cases e : k0 = k
          · subst e; rw [KMap.find?_set_self, h0, ht]; simp
          · rw [KMap.find?_set_ne _ _ e, if_neg e]
        · rw [i2 k, find?_cons_eq]
          by_cases e : k0 = k
          · subst e; simp [h0, KMap.find?_set_self]
          · rw [KMap.find?_set_ne _ _ e, if_neg e]
      · cases h
    | none =>
      rw [h0] at h
      simp only at h
      cases h1 : s.tempValues.find? k0 with
      | some v' =>
        rw [h1] at h
        simp only at h
        split at h
        · obtain ⟨i1, i2⟩ := ih h hn.2
          refine ⟨fun k => ?_, fun k => ?_⟩
          · rw [i1 k, find?_cons_eq]
            by_cases e : k0 = k
            · subst e; simp [h0]
            · rw [if_neg e]
          · rw [i2 k, find?_cons_eq]
            by_cases e : k0 = k
            · subst e; simp [h0, h1, KMap.find?_set_self, ht]
            · rw [KMap.find?_set_ne _ _ e, if_neg e]
        · cases h
      | none =>
        rw [h1] at h
        obtain ⟨i1, i2⟩ := ih h hn.2
        refine ⟨fun k => ?_, fun k => ?_⟩
        · rw [i1 k, find?_cons_eq]
          by_cases e : k0 = k
          · subst e; simp [h0]
          · rw [if_neg e]
        · rw [i2 k, find?_cons_eq]
          by_cases e : k0 = k
          · subst e; simp [h1]
          · rw [if_neg e]

theorem merge_sorted {v t full : Vals G} (h : mergeVals v t = some full) (hs : v.Sorted) : full.Sorted := by
  unfold mergeVals at h
  split at h
  · rename_i e
    cases h
    exact insert_sorted e hs
  · cases h

theorem optimized_of {cfg : Cfg G T N} {env : Env G N} (hf : cfg.fixPrev = false) {op : Op G N} {s s1 s' : St G T N}
    (ht : Props.isTemp op = false) (hc : Completes op s s1) (h : optimize cfg env s1 = .ok s' ()) :
    Spec.Optimized cfg env op s s' := by
  have hfr := (optimize_frame cfg env).of_ok h
  obtain ⟨full, res, s2, s3, hm, hrun, ha, hs'⟩ := optimize_ok h
  obtain ⟨hc1, hc2, hc4⟩ := hc
  obtain ⟨hc2, hc3⟩ := hc2 ht
  have hv1 : s2.values = s1.values ∧ s2.tempValues = s1.tempValues := by
    rcases hrun with ⟨_, e⟩ | ⟨_, e⟩
    · obtain ⟨w, _, _, _, e1⟩ := gncOptimize_ok e
      rw [e1]; exact ⟨rfl, rfl⟩
    · obtain ⟨g, _, _, _, _, e1⟩ := plainOptimize_ok e
      rw [e1]; exact ⟨rfl, rfl⟩
  obtain ⟨m1, m2⟩ := Props.mergeVals_find hm
  refine ⟨full, res, fun k => ?_, fun hso => merge_sorted hm (hc4 hso), ?_, fun hn => ?_⟩
  · rw [m1 k, ← hc1 k, ← hc2]
    by_cases hk : k ∈ s1.values.keys
    · rw [if_pos hk]
      have := (KMap.mem_keys_iff _ _).1 hk
      unfold KMap.has at this
      cases e : KMap.find? s1.values k with
      | none => rw [e] at this; cases this
      | some v => rfl
    · rw [if_neg hk, find?_none_of hk]; rfl
  · rw [hfr.nfg, ← hc3]
    have hu : useGncNow cfg s1 = (cfg.useGnc && cfg.rejection) := by unfold useGncNow; rw [hf]; simp
    rcases hrun with ⟨hg, e⟩ | ⟨hg, e⟩
    · obtain ⟨w, e1, _⟩ := gncOptimize_ok e
      rw [← hu, if_pos hg]
      exact ⟨_, _, w, e1⟩
    · obtain ⟨g, e1, e2, _⟩ := plainOptimize_ok e
      rw [← hu, if_neg (by simp [hg])]
      rcases (plainGraph_ok e1).2 with ⟨_, rfl⟩ | ⟨h2, _⟩
      · exact e2
      · rw [hf] at h2; cases h2
  · have hv : s'.values = s3.values ∧ s'.tempValues = s3.tempValues := by rw [hs']; split <;> exact ⟨rfl, rfl⟩
    obtain ⟨a1, a2⟩ := applyResult_both ha hn
    refine ⟨fun k => ?_, fun k => ?_⟩
    · rw [hv.1, a1 k, hv1.1, hc1 k]
    · rw [hv.2, a2 k, hv1.2, hv1.1, hc2]
      cases e : KMap.find? s.tempValues k with
      | none => rfl
      | some v =>
        have hk : k ∈ s1.tempValues.keys := (KMap.mem_keys_iff _ _).2 (by unfold KMap.has; rw [hc2, e]; rfl)
        rw [find?_none_of (m2 k hk)]
        simp

end RPGO

namespace RPGO.Props
open RPGO
variable {G T N : Type} [Mul G] [Inv G] [One G]

/-- Calls on the public interface of the robust solver other than the overwriting of the estimate (see
`C59_overwrite`). -/
def isOrdinary : Op G N → Bool
  | .updateValues _ => false
  | .genericUpdate _ _ _ => false
  | _ => true

/-- C59: without frame alignment (or if the call carries no factors) and without fixed previous inliers, whatever the state, after a call that returned
normally the estimate is the estimate before, completed by the supplied values, if the call does not optimize; if it
does, it is the result of one optimizer run on the whole resulting graph (and the temporary factors) started from there.
Which calls optimize is told by `Spec.Optimizes` (with outlier rejection) and `Spec.OptimizesPlain` (without). -/
theorem C59_estimate {cfg : Cfg G T N} {env : Env G N} {op : Op G N}
    (hal : cfg.align = false ∨ cfg.rejection = false ∨ Spec.opFactors op = []) (hf : cfg.fixPrev = false) (ho : isOrdinary op = true) {s s' : St G T N} {x : Ret}
    (e : exec cfg env op s = .ok s' x) :
    if Spec.optimizes cfg op then Spec.Optimized cfg env op s s'
    else ∀ k, s'.values.find? k = Spec.completed s.values (Spec.opVals op) k := by
  have ho' : Ordinary op := by
    constructor
    · rintro vs rfl; cases ho
    · rintro fs vs rm rfl; cases ho
  have key : ∃ s1, Completes op s s1 ∧ ((Spec.optimizes cfg op = true ∧ optimize cfg env s1 = .ok s' ()) ∨
      (Spec.optimizes cfg op = false ∧ s' = s1)) := by
    unfold Spec.optimizes
    cases hr : cfg.rejection with
    | true =>
      rw [if_pos rfl]
      exact exec_stages_pcm hr (hal.imp id fun h => h.resolve_left (by simp [hr])) ho' e
    | false =>
      rw [if_neg (by simp)]
      exact exec_stages_plain hr ho' e
  obtain ⟨s1, hc, ⟨h1, h2⟩ | ⟨h1, rfl⟩⟩ := key
  · rw [if_pos h1]
    refine optimized_of hf ?_ hc h2
    unfold Spec.optimizes at h1
    cases op <;> first | rfl | (split at h1 <;> cases h1)
  · rw [if_neg (by simp [h1])]
    exact hc.1

/-- C59, overwriting: `updateValues` replaces the entries of the estimate, and of the temporary values, for which it
is given a value, and adds none. -/
theorem C59_overwrite {cfg : Cfg G T N} {env : Env G N} {vs : Vals G} (hn : vs.keys.Nodup) {s s' : St G T N} {x : Ret}
    (e : exec cfg env (.updateValues vs) s = .ok s' x) :
    (∀ k, s'.values.find? k = (s.values.find? k).map fun v => (vs.find? k).getD v) ∧
    (∀ k, s'.tempValues.find? k = (s.tempValues.find? k).map fun v =>
      if (s.values.find? k).isSome then v else (vs.find? k).getD v) ∧ s'.nfg = s.nfg := by
  obtain ⟨s2, _, h1, h2⟩ := M.bind_eq_ok.1 (show (applyResult vs).ret (fun _ => Ret.unit) s = _ from e)
  cases h2
  obtain ⟨a, b⟩ := applyResult_both h1 hn
  exact ⟨a, b, ((applyResult_frame vs).of_ok h1).nfg⟩

/-- C59, `GenericSolver::update`: with removals, or with a batch that is not just odometry, the plain optimizer runs on
the whole resulting graph and the temporary factors; otherwise the supplied values are added. -/
theorem C59_generic {cfg : Cfg G T N} {env : Env G N} {fs : Graph G N} {vs : Vals G} {rm : List Nat}
    {s s' : St G T N} {x : Ret} (e : exec cfg env (.genericUpdate fs vs rm) s = .ok s' x) :
    if Spec.worthwhile fs vs || !rm.isEmpty then
      ∃ full res : Vals G, (∀ k, full.find? k = (Spec.completed s.values vs k).or (s.tempValues.find? k)) ∧
        (s.values.keys.Pairwise (fun a b => a.toNat < b.toNat) → full.keys.Pairwise fun a b => a.toNat < b.toNat) ∧
        env.opt (s'.nfg ++ s.tempNfg) full = some res ∧
        (res.keys.Nodup → (∀ k, s'.values.find? k = (Spec.completed s.values vs k).map fun v => (res.find? k).getD v) ∧
          ∀ k, s'.tempValues.find? k = (s.tempValues.find? k).map fun v => (res.find? k).getD v)
    else ∀ k, s'.values.find? k = Spec.completed s.values vs k := by
  obtain ⟨s0, _, h, h'⟩ := M.bind_eq_ok.1 (show (genericUpdate env fs vs rm).ret (fun _ => Ret.unit) s = _ from e)
  cases h'
  unfold genericUpdate at h
  simp only [M.bind_eq] at h
  obtain ⟨s1, _, h1, h2⟩ := M.bind_eq_ok.1 h
  obtain ⟨v1, v2, v3⟩ := (removeFactors_sameV rm).of_ok h1
  obtain ⟨s2, d, h3, h4⟩ := M.bind_eq_ok.1 h2
  obtain ⟨a, b, c, hd, hso⟩ := addAndCheck_ok h3
  rw [v1] at a
  rw [v2] at b
  rw [v3] at c
  have hrm : (decide (rm.length > 0)) = !rm.isEmpty := by cases rm <;> simp
  rw [← hd, ← hrm]
  by_cases hc : (d || decide (rm.length > 0)) = true
  · rw [if_pos hc] at h4 ⊢
    rw [M.bind_ok (M.get_apply _)] at h4
    cases hm : mergeVals s2.values s2.tempValues with
    | none => rw [hm] at h4; cases h4
    | some full =>
      rw [hm] at h4
      simp only at h4
      cases ho : env.opt (s2.nfg ++ s2.tempNfg) full with
      | none => rw [ho] at h4; cases h4
      | some res =>
        rw [ho] at h4
        simp only at h4
        have hfr := (applyResult_frame res).of_ok h4
        obtain ⟨m1, m2⟩ := mergeVals_find hm
        refine ⟨full, res, fun k => ?_, fun hs => merge_sorted hm (hso (by rw [v1]; exact hs)), ?_, fun hn => ?_⟩
        · rw [m1 k, ← a k, ← b]
          by_cases hk : k ∈ s2.values.keys
          · rw [if_pos hk]
            have := (KMap.mem_keys_iff _ _).1 hk
            unfold KMap.has at this
            cases e : KMap.find? s2.values k with
            | none => rw [e] at this; cases this
            | some v => rfl
          · rw [if_neg hk, find?_none_of hk]; rfl
        · rw [hfr.nfg, ← c]; exact ho
        · obtain ⟨a1, a2⟩ := applyResult_both h4 hn
          refine ⟨fun k => by rw [a1 k, a k], fun k => ?_⟩
          rw [a2 k, b]
          cases e : KMap.find? s.tempValues k with
          | none => rfl
          | some v =>
            have hk : k ∈ s2.tempValues.keys := (KMap.mem_keys_iff _ _).2 (by unfold KMap.has; rw [b, e]; rfl)
            rw [find?_none_of (m2 k hk)]
            simp
  · rw [if_neg hc] at h4 ⊢
    cases h4
    exact a

/-! ### C40, estimates after a failure -/

/-- The outcome, if it is an exception, leaves a state with `P`. -/
def OnThrow {σ α : Type} (P : σ → Prop) : Out σ α → Prop
  | .throw s _ => P s
  | _ => True

theorem OnThrow.bind {σ α β : Type} {P : σ → Prop} {m : M σ α} {f : α → M σ β} {s : σ} (h1 : OnThrow P (m s))
    (h2 : ∀ s1 a, m s = .ok s1 a → OnThrow P (f a s1)) : OnThrow P (M.bind m f s) := by
  unfold M.bind
  cases e : m s with
  | ok s1 a => exact h2 s1 a e
  | throw s1 x => rw [e] at h1; exact h1
  | ub u => trivial

theorem alignStep_throw (cfg : Cfg G T N) (env : Env G N) (s : St G T N) :
    OnThrow (fun s' : St G T N => s'.values = s.values) (alignStep cfg env s) := by
  unfold alignStep
  split
  · simp only
    split
    · trivial
    · rfl
    · trivial
  · trivial

theorem removeOutliers_throw (cfg : Cfg G T N) (env : Env G N) (fs : Graph G N) (vs : Vals G) (s : St G T N) :
    OnThrow (fun s' : St G T N => ∀ k ∈ s.values.keys, s'.values.find? k = s.values.find? k)
      (removeOutliers cfg env fs vs s) := by
  unfold removeOutliers
  simp only [M.bind_eq]
  refine OnThrow.bind ?_ ?_
  · unfold onValues M.zoom
    cases hi : insertVals vs s.values with
    | ok v x => trivial
    | ub u => trivial
    | throw v x => exact insert_kept (Or.inr ⟨x, hi⟩)
  · intro s1 _ h1
    obtain ⟨v1, e1, rfl⟩ := M.zoom_eq_ok.1 h1
    have hk := insert_kept (Or.inl ⟨_, e1⟩)
    have key : ∀ {s2 : St G T N} {α : Type} {o : Out (St G T N) α}, s2.values = v1 →
        OnThrow (fun s' : St G T N => s'.values = s2.values) o →
        OnThrow (fun s' : St G T N => ∀ k ∈ s.values.keys, s'.values.find? k = s.values.find? k) o := by
      intro s2 α o e h
      cases o with
      | ok _ _ => trivial
      | ub _ => trivial
      | throw s' x =>
        intro k hk'
        have h : s'.values = s2.values := h
        rw [h, e]
        exact hk k hk'
    have hpcm : ∀ {α : Type} (m : M (Pcm G T N) α) (s2 : St G T N),
        OnThrow (fun s' : St G T N => s'.values = s2.values) (onPcm m s2) := by
      intro α m s2
      unfold onPcm M.zoom
      cases m s2.pcm <;> first | trivial | rfl
    unfold M.cond
    split
    · trivial
    · unfold processFactors
      simp only [M.bind_eq]
      refine OnThrow.bind trivial fun s2 a h2 => ?_
      cases h2
      refine OnThrow.bind (key rfl (hpcm _ _)) fun s2 a h2 => ?_
      have e2 : s2.values = v1 := ((onPcm_sameV _).of_ok h2).1
      refine OnThrow.bind ?_ fun s3 a h3 => ?_
      · unfold M.when
        split
        · exact key e2 (hpcm _ _)
        · trivial
      · have e3 : s3.values = v1 := ((M.Pres.when SameV.refl (onPcm_sameV _)).of_ok h3).1.trans e2
        refine OnThrow.bind trivial fun s4 a h4 => ?_
        have e4 : s4.values = v1 := ((rebuild_sameV env).of_ok h4).1.trans e3
        exact OnThrow.bind (key e4 (alignStep_throw cfg env s4)) fun _ _ _ => trivial

/-- C40 (part): an update that is not asked to optimize and throws leaves every estimate that existed before as it was,
whatever the batch and the cause, with or without outlier rejection and frame alignment. -/
theorem C40_estimate_kept {cfg : Cfg G T N} {env : Env G N} {fs : Graph G N} {vs : Vals G} {s s' : St G T N} {x : Exn}
    (e : exec cfg env (.update fs vs false) s = .throw s' x) :
    ∀ k ∈ s.values.keys, s'.values.find? k = s.values.find? k := by
  have h : OnThrow (fun s' : St G T N => ∀ k ∈ s.values.keys, s'.values.find? k = s.values.find? k)
      (exec cfg env (.update fs vs false) s) := by
    show OnThrow _ ((update cfg env fs vs false).ret (fun _ => Ret.unit) s)
    refine OnThrow.bind ?_ fun _ _ _ => trivial
    unfold update
    simp only [M.bind_eq]
    refine OnThrow.bind ?_ fun s1 d h1 => ?_
    · unfold M.cond
      split
      · exact removeOutliers_throw cfg env fs vs s
      · unfold addAndCheck
        simp only [M.bind_eq]
        refine OnThrow.bind trivial fun s1 _ h1 => ?_
        cases h1
        refine OnThrow.bind ?_ fun s1 _ h1 => ?_
        · unfold onValues M.zoom
          cases hi : insertVals vs s.values with
          | ok v x => trivial
          | ub u => trivial
          | throw v x =>
            exact insert_kept (Or.inr ⟨x, hi⟩)
        · split <;> trivial
    · rw [Bool.and_false, Bool.and_false]
      trivial
  rw [e] at h
  exact h

set_option maxRecDepth 100000 in
/-- Both cases occur on the demo history: the third update (odometry) only adds its value, the fourth (closures) makes
the optimizer run, here one that moves `a0` to 100. -/
example : Demo.cfg.align = false ∧ Demo.cfg.fixPrev = false ∧
    (Demo.h1.map fun op => Spec.optimizes Demo.cfg op) = [true, false, false, true] ∧
    ∃ s, ReachOk Demo.cfg mover Demo.h1 s ∧ s.values.find? (Demo.a 0) = some (.pose (Demo.z 100)) ∧
      s.values.find? (Demo.a 3) = some (.pose (Demo.z 3)) := by
  refine ⟨rfl, rfl, by decide +kernel, ?_⟩
  obtain ⟨s, r, h⟩ := Demo.runs_reach (cfg := Demo.cfg) (env := mover) (ops := Demo.h1)
    (P := fun s => decide (s.values.find? (Demo.a 0) = some (.pose (Demo.z 100)) ∧
      s.values.find? (Demo.a 3) = some (.pose (Demo.z 3)))) (by decide +kernel)
  exact ⟨s, r, of_decide_eq_true h⟩

set_option maxRecDepth 100000 in
/-- A throwing update (its second key already has a value) after the demo history, and a generic update with a removal that
makes the optimizer run on a batch of odometry. -/
example : ∃ s, ReachOk Demo.cfg mover Demo.h1 s ∧
    (∃ s' x, exec Demo.cfg mover (.update [] [(Demo.a 9, .pose (Demo.z 9)), (Demo.a 0, .pose (Demo.z 7))] false) s =
      .throw s' x ∧ s'.values.find? (Demo.a 0) = some (.pose (Demo.z 100))) ∧
    ∃ s', exec Demo.cfg mover (.genericUpdate [] [] [0]) s = .ok s' .unit := by
  obtain ⟨s, r, h⟩ := Demo.runs_reach (cfg := Demo.cfg) (env := mover) (ops := Demo.h1)
    (P := fun s =>
      (match exec Demo.cfg mover (.update [] [(Demo.a 9, .pose (Demo.z 9)), (Demo.a 0, .pose (Demo.z 7))] false) s with
        | .throw s' _ => decide (s'.values.find? (Demo.a 0) = some (.pose (Demo.z 100)))
        | _ => false) &&
      match exec Demo.cfg mover (.genericUpdate [] [] [0]) s with
        | .ok _ .unit => true
        | _ => false) (by decide +kernel)
  simp only [Bool.and_eq_true] at h
  obtain ⟨h1, h2⟩ := h
  refine ⟨s, r, ?_, ?_⟩
  · revert h1
    cases exec Demo.cfg mover (.update [] [(Demo.a 9, .pose (Demo.z 9)), (Demo.a 0, .pose (Demo.z 7))] false) s with
    | throw s' x => exact fun h => ⟨s', x, rfl, of_decide_eq_true h⟩
    | ok _ _ => exact fun h => by cases h
    | ub _ => exact fun h => by cases h
  · revert h2
    cases exec Demo.cfg mover (.genericUpdate [] [] [0]) s with
    | ok s' x => cases x <;> first | exact fun _ => ⟨s', rfl⟩ | exact fun h => by cases h
    | throw _ _ => exact fun h => by cases h
    | ub _ => exact fun h => by cases h

end RPGO.Props
