import Verif.Proofs.Inlier
/-
What optimization leaves alone.
-/

namespace RPGO
variable {G T N : Type}

/-- Same keys. -/
structure KeysSame (v v' : Vals G) : Prop where
  has : ∀ k, v'.has k = v.has k
  keys : v.Sorted → v'.Sorted ∧ v'.keys = v.keys

theorem KeysSame.refl (v : Vals G) : KeysSame v v := ⟨fun _ => rfl, fun h => ⟨h, rfl⟩⟩

theorem KeysSame.trans {a b c : Vals G} (h1 : KeysSame a b) (h2 : KeysSame b c) : KeysSame a c :=
  ⟨fun k => (h2.has k).trans (h1.has k), fun h =>
    ⟨(h2.keys (h1.keys h).1).1, (h2.keys (h1.keys h).1).2.trans (h1.keys h).2⟩⟩

theorem KeysSame.set {v : Vals G} {k : Key} {x : Val G} (h : v.find? k = some x) (y : Val G) : KeysSame v (v.set k y) := by
  have hk : v.has k = true := by simp [KMap.has, h]
  refine ⟨fun k' => ?_, fun hs => ⟨hs.set k y, KMap.keys_set_of_has hs hk y⟩⟩
  rw [KMap.has_set]
  by_cases e : k = k'
  · subst e; simp [hk]
  · simp [e]

/-- `optimize` may change estimates (not their keys), weights and the counter of closures seen. -/
structure OptFrame (s s' : St G T N) : Prop where
  pcm : s'.pcm = s.pcm
  nfg : s'.nfg = s.nfg
  tempNfg : s'.tempNfg = s.tempNfg
  values : KeysSame s.values s'.values
  temp : KeysSame s.tempValues s'.tempValues
  latest : s'.latest = s.latest ∨ s'.latest = s.pcm.totalLc

namespace OptFrame
theorem refl (s : St G T N) : OptFrame s s := ⟨rfl, rfl, rfl, .refl _, .refl _, Or.inl rfl⟩

theorem trans (a b c : St G T N) (h1 : OptFrame a b) (h2 : OptFrame b c) : OptFrame a c :=
  ⟨h2.pcm.trans h1.pcm, h2.nfg.trans h1.nfg, h2.tempNfg.trans h1.tempNfg, h1.values.trans h2.values,
    h1.temp.trans h2.temp, by
      rcases h2.latest with h | h
      · rw [h]; exact h1.latest
      · right; rw [h, h1.pcm]⟩
end OptFrame

theorem applyResult_frame (vs : Vals G) : M.Pres (OptFrame (T := T) (N := N)) (applyResult vs) := by
  induction vs with
  | nil => exact M.Pres.pure OptFrame.refl ()
  | cons e t ih =>
    obtain ⟨k, v⟩ := e
    intro s
    unfold applyResult
    cases h : s.values.find? k with
    | some v' =>
      simp only
      split
      · refine M.Ends.mono (fun s' h' => OptFrame.trans _ _ _ ?_ h') (ih _)
        exact ⟨rfl, rfl, rfl, KeysSame.set h v, .refl _, Or.inl rfl⟩
      · exact OptFrame.refl s
    | none =>
      simp only
      cases h' : s.tempValues.find? k with
      | some v' =>
        simp only
        split
        · refine M.Ends.mono (fun s' h'' => OptFrame.trans _ _ _ ?_ h'') (ih _)
          exact ⟨rfl, rfl, rfl, .refl _, KeysSame.set h' v, Or.inl rfl⟩
        · exact OptFrame.refl s
      | none => exact ih s

theorem plainGraph_frame (cfg : Cfg G T N) : M.Pres OptFrame (plainGraph cfg) := by
  intro s
  unfold plainGraph
  split
  · split
    · trivial
    · simp only
      split
      · trivial
      · split
        · trivial
        · split
          · exact OptFrame.refl s
          · exact OptFrame.refl s
  · exact OptFrame.refl s

theorem plainOptimize_frame (cfg : Cfg G T N) (env : Env G N) (full : Vals G) :
    M.Pres OptFrame (plainOptimize cfg env full) := by
  unfold plainOptimize
  refine M.Pres.bind OptFrame.trans (plainGraph_frame cfg) fun g => ?_
  split
  · exact M.Pres.raise OptFrame.refl _
  · refine M.Pres.bind OptFrame.trans (M.Pres.get OptFrame.refl) fun s => ?_
    split
    · exact M.Pres.undef _
    · split
      · exact M.Pres.undef _
      · refine M.Pres.bind OptFrame.trans (M.Pres.modify fun s => ⟨rfl, rfl, rfl, .refl _, .refl _, Or.inl rfl⟩) fun _ => ?_
        split
        · exact M.Pres.undef _
        · exact M.Pres.pure OptFrame.refl _

theorem gncOptimize_frame (cfg : Cfg G T N) (env : Env G N) (full : Vals G) :
    M.Pres OptFrame (gncOptimize cfg env full) := by
  unfold gncOptimize
  refine M.Pres.bind OptFrame.trans (M.Pres.get OptFrame.refl) fun s => ?_
  simp only
  split
  · exact M.Pres.undef _
  · split
    · exact M.Pres.raise OptFrame.refl _
    · split
      · exact M.Pres.undef _
      · exact M.Pres.bind OptFrame.trans (M.Pres.modify fun s => ⟨rfl, rfl, rfl, .refl _, .refl _, Or.inl rfl⟩)
          fun _ => M.Pres.pure OptFrame.refl _

theorem M.Pres.cond {σ α : Type} {R : σ → σ → Prop} {c : Bool} {m1 m2 : M σ α} (h1 : M.Pres R m1) (h2 : M.Pres R m2) :
    M.Pres R (M.cond c m1 m2) := by unfold M.cond; split <;> assumption

theorem M.Pres.when {σ : Type} {R : σ → σ → Prop} {c : Bool} {m : M σ Unit} (hr : ∀ s, R s s) (h : M.Pres R m) :
    M.Pres R (M.when c m) := by unfold M.when; split; assumption; exact M.Pres.pure hr ()

theorem optimize_frame (cfg : Cfg G T N) (env : Env G N) : M.Pres OptFrame (optimize cfg env) := by
  unfold optimize
  refine M.Pres.bind OptFrame.trans (M.Pres.get OptFrame.refl) fun s => ?_
  split
  · exact M.Pres.raise OptFrame.refl _
  · refine M.Pres.bind OptFrame.trans (M.Pres.cond (gncOptimize_frame _ _ _) (plainOptimize_frame _ _ _)) fun r => ?_
    refine M.Pres.bind OptFrame.trans (applyResult_frame r) fun _ => ?_
    exact M.Pres.when OptFrame.refl (M.Pres.modify fun s => ⟨rfl, rfl, rfl, .refl _, .refl _, Or.inr rfl⟩)

theorem logStatus_frame (cfg : Cfg G T N) : M.Pres OptFrame (logStatus cfg) := by
  unfold logStatus
  refine M.Pres.bind OptFrame.trans ?_ fun _ => M.Pres.bind OptFrame.trans ?_ fun _ => ?_
  · intro s; unfold getNumLC; split; exact OptFrame.refl s; trivial
  · intro s; unfold getNumLCInliers; split; exact OptFrame.refl s; split; exact OptFrame.refl s; trivial
  · intro s; unfold saveData; split <;> exact OptFrame.refl s

/-- `M.Pres` of the equality: nothing changes. -/
theorem logStatus_same (cfg : Cfg G T N) : M.Pres (fun s s' : St G T N => s' = s) (logStatus cfg) := by
  have ht : ∀ a b c : St G T N, b = a → c = b → c = a := fun a b c h1 h2 => h2.trans h1
  unfold logStatus
  refine M.Pres.bind ht ?_ fun _ => M.Pres.bind ht ?_ fun _ => ?_
  · intro s; unfold getNumLC; split; exact rfl; trivial
  · intro s; unfold getNumLCInliers; split; exact rfl; split; exact rfl; trivial
  · intro s; unfold saveData; split <;> exact rfl

/-! ### Inserting and updating values -/

theorem insertVals_cons (k : Key) (x : Val G) (t v : Vals G) :
    insertVals ((k, x) :: t) v = if v.has k then .throw v .keyExists else insertVals t (v.set k x) := rfl

theorem insertVals_ends (vs v : Vals G) :
    M.Ends (fun v' => (v.Sorted → v'.Sorted) ∧ (∀ k, v.has k = true → v'.find? k = v.find? k) ∧
      ∀ k, v'.has k = true → v.has k = true ∨ k ∈ vs.keys) (insertVals vs v) := by
  induction vs generalizing v with
  | nil => exact ⟨id, fun _ _ => rfl, fun k h => Or.inl h⟩
  | cons e t ih =>
    obtain ⟨k, x⟩ := e
    rw [insertVals_cons]
    split
    · exact ⟨id, fun _ _ => rfl, fun k h => Or.inl h⟩
    · rename_i hk
      refine M.Ends.mono ?_ (ih _)
      rintro v' ⟨h1, h2, h3⟩
      refine ⟨fun h => h1 (h.set k x), fun k' h => ?_, fun k' h => ?_⟩
      · have hne : k ≠ k' := by rintro rfl; exact hk h
        rw [h2 k' (by rw [KMap.has_set]; simp [h]), KMap.find?_set_ne _ _ hne]
      · rcases h3 k' h with h | h
        · rw [KMap.has_set] at h
          by_cases e : k = k'
          · subst e; exact Or.inr (by simp [KMap.keys])
          · simp [e] at h; exact Or.inl h
        · exact Or.inr (by simp only [KMap.keys, List.map_cons, List.mem_cons]; exact Or.inr h)

/-- A normal return of `insert` added exactly the supplied entries. -/
theorem insertVals_ok {vs v v' : Vals G} (h : insertVals vs v = .ok v' ()) :
    (∀ k, v'.find? k = if v.has k then v.find? k else vs.find? k) ∧ (∀ k ∈ vs.keys, v.has k = false) ∧
      vs.keys.Nodup := by
  induction vs generalizing v with
  | nil =>
    cases h
    refine ⟨fun k => ?_, by simp [KMap.keys], by simp [KMap.keys]⟩
    unfold KMap.has
    cases hv : KMap.find? v' k <;> simp [KMap.find?]
  | cons e t ih =>
    obtain ⟨k, x⟩ := e
    rw [insertVals_cons] at h
    split at h
    · cases h
    · rename_i hk
      have hk : v.has k = false := by simpa using hk
      obtain ⟨h1, h2, h3⟩ := ih h
      refine ⟨fun k' => ?_, ?_, ?_⟩
      · rw [h1, KMap.has_set, KMap.find?_set, KMap.find?_cons]
        by_cases e : k = k'
        · subst e; simp [hk]
        · simp [e]
      · intro k' hk'
        simp only [KMap.keys, List.map_cons, List.mem_cons] at hk'
        rcases hk' with rfl | hk'
        · exact hk
        · have := h2 k' hk'
          rw [KMap.has_set] at this
          simp at this; exact this.2
      · simp only [KMap.keys, List.map_cons, List.nodup_cons]
        refine ⟨fun hm => ?_, h3⟩
        have := h2 k hm
        rw [KMap.has_set] at this
        simp at this

theorem insertVals_total {vs v : Vals G} (h : ∀ k ∈ vs.keys, v.has k = false) (hn : vs.keys.Nodup) :
    ∃ v', insertVals vs v = .ok v' () := by
  induction vs generalizing v with
  | nil => exact ⟨v, rfl⟩
  | cons e t ih =>
    obtain ⟨k, x⟩ := e
    simp only [KMap.keys, List.map_cons, List.nodup_cons] at hn
    have hk := h k (by simp [KMap.keys])
    rw [insertVals_cons, if_neg (by simp [hk])]
    refine ih (v := v.set k x) ?_ hn.2
    intro k' hk'
    rw [KMap.has_set, h k' (by simp only [KMap.keys, List.map_cons, List.mem_cons]; exact Or.inr hk')]
    simp
    rintro rfl
    exact hn.1 hk'

theorem insertVals_not_ub (vs v : Vals G) (u : UB) : insertVals vs v ≠ .ub u := by
  induction vs generalizing v with
  | nil => intro h; cases h
  | cons e t ih =>
    obtain ⟨k, x⟩ := e
    rw [insertVals_cons]
    split
    · intro h; cases h
    · exact ih _

theorem insertVals_throw {vs v v' : Vals G} {x : Exn} (h : insertVals vs v = .throw v' x) : x = .keyExists := by
  induction vs generalizing v with
  | nil => cases h
  | cons e t ih =>
    obtain ⟨k, y⟩ := e
    rw [insertVals_cons] at h
    split at h
    · cases h; rfl
    · exact ih h

theorem updateVals_frame (vs : Vals G) : M.Pres (KeysSame (G := G)) (updateVals vs) := by
  induction vs with
  | nil => exact M.Pres.pure KeysSame.refl ()
  | cons e t ih =>
    obtain ⟨k, x⟩ := e
    intro v
    unfold updateVals
    cases h : v.find? k with
    | none => exact KeysSame.refl v
    | some y =>
      simp only
      split
      · exact M.Ends.mono (fun v' h' => (KeysSame.set h x).trans h') (ih _)
      · exact KeysSame.refl v

section
variable [Mul G] [Inv G] [One G]

theorem alignValues_frame (cfg : Cfg G T N) (env : Env G N) (p : Pcm G T N) (rs : List Chr) :
    M.Pres (KeysSame (G := G)) (alignValues cfg env p rs) := by
  have ht : ∀ a b c : Vals G, KeysSame a b → KeysSame b c → KeysSame a c := fun _ _ _ => KeysSame.trans
  cases rs with
  | nil => exact M.Pres.pure KeysSame.refl ()
  | cons r0 rs =>
    refine M.Pres.bind ht (updateVals_frame _) fun _ => M.Pres.forEach KeysSame.refl ht (fun ri => ?_) rs
    intro v
    unfold alignRobot
    split
    · exact KeysSame.refl v
    · split
      · exact KeysSame.refl v
      · split
        · exact KeysSame.refl v
        · exact updateVals_frame _ v

/-- Frame of the alignment step. -/
structure AlignFrame (s s' : St G T N) : Prop where
  eq : s' = { s with values := s'.values, pcm := { s.pcm with robotOrder := s'.pcm.robotOrder } }
  values : KeysSame s.values s'.values
  order : s'.pcm.robotOrder.Perm s.pcm.robotOrder

omit [Mul G] [Inv G] [One G] in
theorem insertRobot_perm (sg : Bool) (c : Chr) (l : List Chr) : (insertRobot sg c l).Perm (c :: l) := by
  induction l with
  | nil => exact List.Perm.refl _
  | cons d t ih =>
    unfold insertRobot
    split
    · exact List.Perm.refl _
    · exact (ih.cons d).trans (List.Perm.swap _ _ _)

omit [Mul G] [Inv G] [One G] in
theorem sortRobots_perm (sg : Bool) (l : List Chr) : (sortRobots sg l).Perm l := by
  induction l with
  | nil => exact List.Perm.refl _
  | cons c t ih => exact (insertRobot_perm sg c _).trans (ih.cons c)

theorem alignStep_frame (cfg : Cfg G T N) (env : Env G N) : M.Pres AlignFrame (alignStep cfg env) := by
  intro s
  unfold alignStep
  split
  · simp only
    have h := alignValues_frame cfg env { s.pcm with robotOrder := sortRobots cfg.charSigned s.pcm.robotOrder }
      (sortRobots cfg.charSigned s.pcm.robotOrder) s.values
    split
    · rename_i v _ e
      rw [e] at h
      exact ⟨rfl, h, sortRobots_perm _ _⟩
    · exact ⟨rfl, KeysSame.refl _, sortRobots_perm _ _⟩
    · trivial
  · exact ⟨rfl, KeysSame.refl _, List.Perm.refl _⟩

end

end RPGO
