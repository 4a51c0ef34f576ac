import Verif.Proofs.Values
/-
Two runs that receive the same factors and values but optimize differently.
-/

namespace RPGO
variable {G T N : Type}
section
variable (cfg : Cfg G T N) (a b c d e f : Bool)

theorem updateOdom_withOpt : updateOdom (cfg.withOpt a b c d e f) = updateOdom cfg := rfl
theorem classify_withOpt : classify (cfg.withOpt a b c d e f) = classify cfg := rfl

theorem sortFactors_withOpt : sortFactors (cfg.withOpt a b c d e f) = sortFactors cfg := by
  funext nv vals fs
  induction fs with
  | nil => rfl
  | cons x fs ih =>
    funext lcs opt
    cases x with
    | none => unfold sortFactors; rw [ih]
    | some x =>
      unfold sortFactors
      rw [ih, classify_withOpt, updateOdom_withOpt]
      rfl

theorem pairVerdicts_withOpt : pairVerdicts (cfg.withOpt a b c d e f) = pairVerdicts cfg := by
  funext y l
  induction l with
  | nil => rfl
  | cons x l ih => unfold pairVerdicts; rw [ih]; rfl

theorem landmarkVerdicts_withOpt : landmarkVerdicts (cfg.withOpt a b c d e f) = landmarkVerdicts cfg := by
  funext k y l
  induction l with
  | nil => rfl
  | cons x l ih => unfold landmarkVerdicts; rw [ih]; rfl

theorem registerLc_withOpt : registerLc (cfg.withOpt a b c d e f) = registerLc cfg := by
  funext y
  unfold registerLc incrementAdj
  rw [pairVerdicts_withOpt]
  rfl

theorem registerLm_withOpt : registerLm (cfg.withOpt a b c d e f) = registerLm cfg := by
  funext y
  unfold registerLm incrementLandmarkAdj
  rw [landmarkVerdicts_withOpt]
  rfl

theorem parseLoops_withOpt : parseLoops (cfg.withOpt a b c d e f) = parseLoops cfg := by
  funext vals l
  induction l with
  | nil => rfl
  | cons x l ih => funext num; unfold parseLoops; rw [ih, registerLc_withOpt, registerLm_withOpt]; rfl

theorem processCands_withOpt : processCands (cfg.withOpt a b c d e f) = processCands cfg := by
  funext vals l
  unfold processCands
  rw [parseLoops_withOpt]
  rfl

variable [Mul G] [Inv G] [One G]

theorem alignCandidates_withOpt : alignCandidates (cfg.withOpt a b c d e f) = alignCandidates cfg := by
  funext p r0 ri l
  induction l with
  | nil => rfl
  | cons x l ih => unfold alignCandidates; rw [ih]; rfl

theorem alignStep_withOpt : alignStep (cfg.withOpt a b c d e f) = alignStep cfg := by
  have h : alignValues (cfg.withOpt a b c d e f) = alignValues cfg := by
    funext env p l
    cases l with
    | nil => rfl
    | cons r l =>
      unfold alignValues alignRobot
      rw [alignCandidates_withOpt]
      rfl
  funext env s
  unfold alignStep
  rw [h]
  rfl

theorem removeOutliers_withOpt : removeOutliers (cfg.withOpt a b c d e f) = removeOutliers cfg := by
  funext env fs vs
  unfold removeOutliers processFactors
  rw [sortFactors_withOpt, processCands_withOpt, alignStep_withOpt]
end

/-! ### Two states with the same factors -/

/-- Same factors and known keys; estimates, weights and temporaries may differ. -/
structure Sim (s1 s2 : St G T N) : Prop where
  pcm : s1.pcm = s2.pcm
  nfg : s1.nfg = s2.nfg
  has : ∀ k, s1.values.has k = s2.values.has k

/-- If both outcomes are normal returns the states are similar and the results related. -/
def SimO {α β : Type} (R : α → β → Prop) (o1 : Out (St G T N) α) (o2 : Out (St G T N) β) : Prop :=
  ∀ s1 a s2 b, o1 = .ok s1 a → o2 = .ok s2 b → Sim s1 s2 ∧ R a b

namespace SimO
variable {α β γ δ : Type}

theorem bind {R : α → β → Prop} {Q : γ → δ → Prop} {m1 : M (St G T N) α} {m2 : M (St G T N) β}
    {f : α → M (St G T N) γ} {g : β → M (St G T N) δ} {s1 s2 : St G T N} (hm : SimO R (m1 s1) (m2 s2))
    (hf : ∀ a b t1 t2, m1 s1 = .ok t1 a → m2 s2 = .ok t2 b → Sim t1 t2 → R a b → SimO Q (f a t1) (g b t2)) :
    SimO Q (M.bind m1 f s1) (M.bind m2 g s2) := by
  intro s1' a s2' b h1 h2
  obtain ⟨t1, a1, e1, e1'⟩ := M.bind_eq_ok.1 h1
  obtain ⟨t2, a2, e2, e2'⟩ := M.bind_eq_ok.1 h2
  obtain ⟨hs, hr⟩ := hm _ _ _ _ e1 e2
  exact hf _ _ _ _ e1 e2 hs hr _ _ _ _ e1' e2'

theorem ok {R : α → β → Prop} {s1 s2 : St G T N} {a : α} {b : β} (hs : Sim s1 s2) (hr : R a b) :
    SimO R (.ok s1 a) (.ok s2 b) := by
  intro s1' a' s2' b' h1 h2
  cases h1; cases h2
  exact ⟨hs, hr⟩

theorem ret {R : α → β → Prop} {m1 : M (St G T N) α} {m2 : M (St G T N) β} {f : α → γ} {g : β → δ} {s1 s2 : St G T N}
    (hm : SimO R (m1 s1) (m2 s2)) : SimO (fun _ _ => True) (m1.ret f s1) (m2.ret g s2) :=
  bind hm fun _ _ _ _ _ _ hs _ => ok hs trivial

theorem frame {m1 : M (St G T N) α} {m2 : M (St G T N) β} (h1 : M.Pres OptFrame m1) (h2 : M.Pres OptFrame m2)
    {s1 s2 : St G T N} (hs : Sim s1 s2) : SimO (fun _ _ => True) (m1 s1) (m2 s2) := by
  intro s1' a s2' b e1 e2
  have f1 := h1.of_ok e1
  have f2 := h2.of_ok e2
  exact ⟨⟨by rw [f1.pcm, f2.pcm, hs.pcm], by rw [f1.nfg, f2.nfg, hs.nfg], fun k => by
    rw [f1.values.has, f2.values.has, hs.has]⟩, trivial⟩

theorem cond {R : α → β → Prop} {c : Bool} {m1 m1' : M (St G T N) α} {m2 m2' : M (St G T N) β} {s1 s2 : St G T N}
    (h : c = true → SimO R (m1 s1) (m2 s2)) (h' : c = false → SimO R (m1' s1) (m2' s2)) :
    SimO R (M.cond c m1 m1' s1) (M.cond c m2 m2' s2) := by
  unfold M.cond
  cases c
  · exact h' rfl
  · exact h rfl

theorem mono {R Q : α → β → Prop} {o1 : Out (St G T N) α} {o2 : Out (St G T N) β} (h : SimO R o1 o2)
    (hr : ∀ a b, R a b → Q a b) : SimO Q o1 o2 := fun _ _ _ _ h1 h2 =>
  ⟨(h _ _ _ _ h1 h2).1, hr _ _ (h _ _ _ _ h1 h2).2⟩

theorem onPcm {m1 m2 : M (Pcm G T N) α} {s1 s2 : St G T N} (hs : Sim s1 s2) (hm : m1 s1.pcm = m2 s1.pcm) :
    SimO Eq (onPcm m1 s1) (onPcm m2 s2) := by
  intro s1' a s2' b h1 h2
  obtain ⟨p1, e1, rfl⟩ := M.zoom_eq_ok.1 h1
  obtain ⟨p2, e2, rfl⟩ := M.zoom_eq_ok.1 h2
  rw [← hs.pcm, ← hm, e1] at e2
  cases e2
  exact ⟨⟨rfl, hs.nfg, hs.has⟩, rfl⟩
end SimO

theorem insertVals_sim {vs v w v' w' : Vals G} (hv : ∀ k, v.has k = w.has k) (h1 : insertVals vs v = .ok v' ())
    (h2 : insertVals vs w = .ok w' ()) : (∀ k, v'.has k = w'.has k) ∧ ∀ k ∈ vs.keys, v'.find? k = w'.find? k := by
  obtain ⟨a1, a2, _⟩ := insertVals_ok h1
  obtain ⟨b1, b2, _⟩ := insertVals_ok h2
  refine ⟨fun k => ?_, fun k hk => ?_⟩
  · unfold KMap.has
    rw [a1, b1]
    have := hv k
    unfold KMap.has at this ⊢
    rw [this]
    split
    · exact this
    · rfl
  · rw [a1, b1, if_neg (by simp [a2 k hk]), if_neg (by simp [b2 k hk])]

theorem onValues_sim (vs : Vals G) {s1 s2 : St G T N} (hs : Sim s1 s2) :
    SimO (fun _ _ => True) ((onValues (insertVals vs) : M (St G T N) Unit) s1) ((onValues (insertVals vs) : M (St G T N) Unit) s2) := by
  intro s1' a s2' b h1 h2
  obtain ⟨v1, e1, rfl⟩ := M.zoom_eq_ok.1 h1
  obtain ⟨v2, e2, rfl⟩ := M.zoom_eq_ok.1 h2
  exact ⟨⟨hs.pcm, hs.nfg, (insertVals_sim hs.has e1 e2).1⟩, trivial⟩

/-! ### Dependence of the loop over the new factors on the estimates -/

theorem hasTraj_congr {p q : Pcm G T N} (h : p.trajs = q.trajs) (c : Chr) : hasTraj p c = hasTraj q c := by
  unfold hasTraj; rw [h]

theorem updateOdom_congr (cfg : Cfg G T N) {vals vals' : Vals G} (b : Btw G N) (p : Pcm G T N)
    (h : vals.find? b.k1 = vals'.find? b.k1 ∨ hasTraj p (chr b.k2) = true) :
    updateOdom cfg vals b p = updateOdom cfg vals' b p := by
  unfold updateOdom
  simp only [M.bind_eq]
  rw [M.bind_ok (M.modify_apply _ _), M.bind_ok (M.modify_apply _ _)]
  cases hn : b.noise with
  | none => simp only [toT, hn]; rfl
  | some n =>
    simp only [toT, hn]
    rw [M.bind_ok (M.pure_apply _ _), M.bind_ok (M.pure_apply _ _), M.bind_ok (M.get_apply _), M.bind_ok (M.get_apply _)]
    cases ht : AList.get? (· == ·) p.trajs (chr b.k2) with
    | some tr => rfl
    | none =>
      rcases h with h | h
      · simp only [h]
      · simp [hasTraj, ht] at h

section
variable [Mul G] [Inv G] [One G]

/-- The estimates matter to the loop over the new factors only at the start of a trajectory. -/
theorem sortFactors_congr (cfg : Cfg G T N) {nv vals vals' : Vals G} (fs : Graph G N) (lcs : List (Btw G N)) (opt : Bool)
    (p : Pcm G T N)
    (H : ∀ fs1 b fs2, fs = fs1 ++ some (.btw b) :: fs2 → Spec.isOdom cfg nv b = true →
      vals.find? b.k1 = vals'.find? b.k1 ∨ hasTraj p (chr b.k2) = true ∨
        ∃ b' ∈ Spec.odoms cfg nv fs1, chr b'.k2 = chr b.k2) :
    sortFactors cfg nv vals fs lcs opt p = sortFactors cfg nv vals' fs lcs opt p := by
  induction fs generalizing lcs opt p with
  | nil => rfl
  | cons f fs ih =>
    have next : ∀ lcs' opt' (p' : Pcm G T N), (∀ c, hasTraj p c = true → hasTraj p' c = true) →
        (∀ b, f = some (.btw b) → Spec.isOdom cfg nv b = true → hasTraj p' (chr b.k2) = true) →
        sortFactors cfg nv vals fs lcs' opt' p' = sortFactors cfg nv vals' fs lcs' opt' p' := by
      intro lcs' opt' p' hp hf
      refine ih _ _ _ ?_
      intro fs1 b fs2 e ho
      rcases H (f :: fs1) b fs2 (by rw [e]; rfl) ho with h | h | ⟨b', hb', hc⟩
      · exact Or.inl h
      · exact Or.inr (Or.inl (hp _ h))
      · have hb'' := List.mem_filter.1 hb'
        rcases List.mem_cons.1 (mem_btws.1 hb''.1) with h | h
        · right; left
          rw [← hc]
          exact hf b' h.symm hb''.2
        · exact Or.inr (Or.inr ⟨b', List.mem_filter.2 ⟨mem_btws.2 h, hb''.2⟩, hc⟩)
    cases f with
    | none => exact next _ _ _ (fun _ h => h) (by simp)
    | some f =>
      cases f with
      | btw b =>
        unfold sortFactors
        rw [classify_btw]
        by_cases h1 : Spec.isFirstObs cfg nv b = true
        · have h2 : Spec.isOdom cfg nv b = false := by
            cases hh : Spec.isOdom cfg nv b
            · rfl
            · rw [isOdom_not_first hh] at h1; cases h1
          simp only [h1, if_true, M.bind_eq]
          rw [M.bind_ok (M.modify_apply _ _), M.bind_ok (M.modify_apply _ _)]
          refine next _ _ _ (fun _ h => h) ?_
          intro b' hb' ho
          cases hb'; rw [h2] at ho; cases ho
        · by_cases h2 : Spec.isOdom cfg nv b = true
          · simp only [h1, h2, if_true, M.bind_eq]
            rw [if_neg (by simp)]
            have hu : updateOdom cfg vals b p = updateOdom cfg vals' b p := by
              refine updateOdom_congr cfg b p ?_
              rcases H [] b fs rfl h2 with h | h | ⟨_, h, _⟩
              · exact Or.inl h
              · exact Or.inr h
              · simp [Spec.odoms, Spec.btws] at h
            simp only []
            rw [M.bind_apply, M.bind_apply, ← hu]
            rcases updateOdom_cases cfg vals b p with ⟨_, e⟩ | ⟨_, _, _, x, e, _⟩ | ⟨n, p1, e, st⟩
            · rw [e]
            · rw [e]
            · rw [e]
              simp only
              refine next _ _ _ (fun c h => ?_) ?_
              · rw [st.has, h]; simp
              · intro b' hb' _
                cases hb'
                rw [st.has]; simp
          · simp only [h1, h2]
            rw [if_neg (by simp), if_neg (by simp)]
            simp only
            have hn : ∀ b', some (Factor.btw b : Factor G N) = some (.btw b') → Spec.isOdom cfg nv b' = true →
                hasTraj p (chr b'.k2) = true := by
              intro b' hb' ho
              cases hb'; exact absurd ho h2
            split
            · exact next _ _ _ (fun _ h => h) hn
            · exact next _ _ _ (fun _ h => h) hn
      | prior k m => exact next _ _ { p with special := p.special ++ [.prior k m] } (fun _ h => h) (by simp)
      | priorAlt k t => exact next _ _ { p with special := p.special ++ [.priorAlt k t] } (fun _ h => h) (by simp)
      | other ks t => exact next _ _ { p with special := p.special ++ [.other ks t] } (fun _ h => h) (by simp)

theorem parseLoops_congr (cfg : Cfg G T N) {vals vals' : Vals G} (h : ∀ k, vals.has k = vals'.has k)
    (bs : List (Btw G N)) (num : List (ObsId × Nat)) : parseLoops cfg vals bs num = parseLoops cfg vals' bs num := by
  induction bs generalizing num with
  | nil => rfl
  | cons b bs ih =>
    unfold parseLoops
    rw [h, h, ih]
    have : ∀ n, parseLoops cfg vals bs n = parseLoops cfg vals' bs n := fun n => ih n
    simp only [this]

theorem processCands_congr (cfg : Cfg G T N) {vals vals' : Vals G} (h : ∀ k, vals.has k = vals'.has k)
    (bs : List (Btw G N)) : processCands cfg vals bs = processCands cfg vals' bs := by
  unfold processCands
  rw [parseLoops_congr cfg h]

/-! ### Trajectories exist once there is odometry -/

theorem OdomRun.has {cfg : Cfg G T N} {vals : Vals G} {bs : List (Btw G N)} {p p' : Pcm G T N}
    (h : OdomRun cfg vals bs p p') :
    (∀ c, hasTraj p c = true → hasTraj p' c = true) ∧ ∀ b ∈ bs, hasTraj p' (chr b.k2) = true := by
  induction h with
  | nil p => exact ⟨fun _ h => h, by simp⟩
  | @cons b n p p1 p1' p2 bs st ht _ _ ih =>
    have hp : ∀ c, hasTraj p1 c = true → hasTraj p1' c = true := fun c h => by rw [hasTraj_congr ht]; exact h
    refine ⟨fun c hc => ih.1 c (hp c (by rw [st.has, hc]; simp)), ?_⟩
    intro x hx
    rcases List.mem_cons.1 hx with rfl | hx
    · exact ih.1 _ (hp _ (by rw [st.has]; simp))
    · exact ih.2 x hx
  | other ht _ _ ih =>
    exact ⟨fun c hc => ih.1 c (by rw [hasTraj_congr ht]; exact hc), ih.2⟩

theorem parseFold_trajs (cfg : Cfg G T N) (vals : Vals G) (f : Chr → Key → T) (bs : List (Btw G N)) (p : Pcm G T N) :
    (bs.foldl (parseStep cfg vals f) p).trajs = p.trajs := by
  refine parseFold_induct (Inv := fun q : Pcm G T N => q.trajs = p.trajs) bs rfl ?_ ?_
  · intro q hq b _ _; exact hq
  · intro q hq b _ _; exact hq

theorem PcmEff.trajs {cfg : Cfg G T N} {op : Op G N} {p p' : Pcm G T N} (h : PcmEff cfg op p p') : p'.trajs = p.trajs := by
  cases h with
  | ignore => split <;> rfl
  | _ => rfl

theorem processCands_has {cfg : Cfg G T N} {vals : Vals G} {bs : List (Btw G N)} {p p2 : Pcm G T N}
    (h : processCands cfg vals bs p = .ok p2 ()) (c : Chr) (hc : hasTraj p c = true) : hasTraj p2 c = true := by
  have he := processCands_ends cfg vals bs p
  rw [h] at he
  obtain ⟨q, hq, hs, _⟩ := he
  rw [hasTraj_congr hs.trajs]
  refine hq.has c ?_
  rw [hasTraj_congr (parseFold_trajs _ _ _ _ _)]
  exact hc

/-- After normal returns every robot with odometry has a trajectory. -/
theorem ReachOk.hasTraj {cfg : Cfg G T N} {env : Env G N} (hr : cfg.rejection = true) {h : List (Op G N)} {s : St G T N}
    (r : ReachOk cfg env h s) : ∀ b ∈ Spec.odomSoFar cfg h, hasTraj s.pcm (chr b.k2) = true := by
  induction r with
  | init => simp [Spec.odomSoFar]
  | @step h s op s' x _ e ih =>
    intro b hb
    unfold Spec.odomSoFar at hb
    rw [List.flatMap_append, List.mem_append] at hb
    cases hbt : Spec.batch op with
    | none =>
      have ho : Spec.opOdom cfg op = [] := by simp [Spec.opOdom, hbt]
      simp only [List.flatMap_cons, List.flatMap_nil, ho, List.append_nil, List.not_mem_nil, or_false] at hb
      have := exec_other cfg env hr op hbt s
      rw [e] at this
      rw [hasTraj_congr (OtherFrame.pcm this).trajs]
      exact ih b hb
    | some y =>
      obtain ⟨fs, vs⟩ := y
      have ho : Spec.opOdom cfg op = Spec.odoms cfg vs fs := by simp [Spec.opOdom, hbt]
      simp only [List.flatMap_cons, List.flatMap_nil, ho, List.append_nil] at hb
      have hd := (exec_batch env hr hbt s).1 _ _ e
      cases hd with
      | empty hf _ hfr =>
        subst hf
        rw [hfr.pcm]
        rcases hb with hb | hb
        · exact ih b hb
        · simp [Spec.odoms, Spec.btws] at hb
      | full hne hi hS h1 h2 ha hfr =>
        rename_i v1 p1 p2 s1
        obtain ⟨r1, r2⟩ := hS.run.has
        have hp1 : RPGO.hasTraj p1 (chr b.k2) = true := by
          rcases hb with hb | hb
          · exact r1 _ (ih b hb)
          · exact r2 b hb
        have hp2 : RPGO.hasTraj p2 (chr b.k2) = true := by
          by_cases hc : Spec.cands cfg vs fs = []
          · rw [h1 hc]; exact hp1
          · exact processCands_has (h2 hc) _ hp1
        have : s'.pcm.trajs = p2.trajs := by rw [hfr.pcm, ha.eq]
        rw [hasTraj_congr this]
        exact hp2

/-! ### The simulation -/

/-- Environments that differ at most in the numerical functions. -/
def SameIter (e1 e2 : Env G N) : Prop := e1.iterLC = e2.iterLC ∧ e1.iterLM = e2.iterLM

theorem buildGraph_iter {e1 e2 : Env G N} (h : SameIter e1 e2) (p : Pcm G T N) : buildGraph e1 p = buildGraph e2 p := by
  unfold buildGraph; rw [h.1, h.2]

theorem rebuild_sim {e1 e2 : Env G N} (h : SameIter e1 e2) {s1 s2 : St G T N} (hs : Sim s1 s2) :
    SimO (fun _ _ => True) ((rebuild e1 : M (St G T N) Unit) s1) ((rebuild e2 : M (St G T N) Unit) s2) :=
  SimO.ok ⟨hs.pcm, by simp only [hs.pcm]; exact buildGraph_iter h _, hs.has⟩ trivial

theorem alignStep_sim (cfg : Cfg G T N) (e1 e2 : Env G N) {s1 s2 : St G T N} (hs : Sim s1 s2) :
    SimO (fun _ _ => True) (alignStep cfg e1 s1) (alignStep cfg e2 s2) := by
  have key : ∀ (e : Env G N) (s s' : St G T N) (x : Unit), alignStep cfg e s = .ok s' x →
      s'.nfg = s.nfg ∧ (∀ k, s'.values.has k = s.values.has k) ∧
      s'.pcm = if cfg.align && decide (1 < s.pcm.robotOrder.length) then
        { s.pcm with robotOrder := sortRobots cfg.charSigned s.pcm.robotOrder } else s.pcm := by
    intro e s s' x h
    have hf := (alignStep_frame cfg e).of_ok h
    refine ⟨by rw [hf.eq], hf.values.has, ?_⟩
    unfold alignStep at h
    by_cases hc : (cfg.align && decide (1 < s.pcm.robotOrder.length)) = true
    · rw [if_pos hc] at h
      rw [if_pos hc]
      simp only at h
      split at h
      · cases h; rfl
      · cases h
      · cases h
    · rw [if_neg hc] at h
      rw [if_neg hc]
      cases h; rfl
  intro s1' a s2' b h1 h2
  obtain ⟨a1, a2, a3⟩ := key _ _ _ _ h1
  obtain ⟨b1, b2, b3⟩ := key _ _ _ _ h2
  refine ⟨⟨?_, by rw [a1, b1, hs.nfg], fun k => by rw [a2, b2, hs.has]⟩, trivial⟩
  rw [a3, b3, hs.pcm]

theorem removeOutliers_sim (cfg : Cfg G T N) {e1 e2 : Env G N} (he : SameIter e1 e2) (fs : Graph G N) (vs : Vals G)
    {s1 s2 : St G T N} (hs : Sim s1 s2)
    (H : ∀ fs1 b fs2, fs = fs1 ++ some (.btw b) :: fs2 → Spec.isOdom cfg vs b = true →
      b.k1 ∈ vs.keys ∨ hasTraj s1.pcm (chr b.k2) = true ∨ ∃ b' ∈ Spec.odoms cfg vs fs1, chr b'.k2 = chr b.k2) :
    SimO (fun _ _ => True) (removeOutliers cfg e1 fs vs s1) (removeOutliers cfg e2 fs vs s2) := by
  unfold removeOutliers
  refine SimO.bind (onValues_sim vs hs) ?_
  intro _ _ t1 t2 h1 h2 ht _
  obtain ⟨v1, i1, rfl⟩ := M.zoom_eq_ok.1 h1
  obtain ⟨v2, i2, rfl⟩ := M.zoom_eq_ok.1 h2
  obtain ⟨hh, hf⟩ := insertVals_sim hs.has i1 i2
  refine SimO.cond (fun _ => SimO.ok ht trivial) fun _ => ?_
  unfold processFactors
  simp only [M.bind_eq]
  rw [M.bind_ok (M.get_apply _), M.bind_ok (M.get_apply _)]
  refine SimO.bind (R := Eq) (SimO.onPcm ht ?_) ?_
  · refine sortFactors_congr cfg fs [] false _ ?_
    intro fs1 b fs2 e ho
    rcases H fs1 b fs2 e ho with h | h
    · exact Or.inl (hf _ h)
    · exact Or.inr h
  · rintro r _ t1 t2 _ _ ht rfl
    refine SimO.bind (R := fun _ _ => True) ?_ ?_
    · unfold M.when
      split
      · rw [processCands_congr cfg (vals := v1) (vals' := v2) hh]
        exact (SimO.onPcm ht rfl).mono fun _ _ _ => trivial
      · exact SimO.ok ht trivial
    · intro _ _ t1 t2 _ _ ht _
      refine SimO.bind (rebuild_sim he ht) ?_
      intro _ _ t1 t2 _ _ ht _
      refine SimO.bind (alignStep_sim cfg e1 e2 ht) ?_
      intro _ _ t1 t2 _ _ ht _
      exact SimO.ok ht trivial

theorem addAndCheck_sim (fs : Graph G N) (vs : Vals G) {s1 s2 : St G T N} (hs : Sim s1 s2) :
    SimO (fun _ _ => True) ((addAndCheck fs vs : M (St G T N) Bool) s1) ((addAndCheck fs vs : M (St G T N) Bool) s2) := by
  unfold addAndCheck
  simp only [M.bind_eq]
  rw [M.bind_ok (M.modify_apply _ _), M.bind_ok (M.modify_apply _ _)]
  refine SimO.bind (onValues_sim vs ⟨hs.pcm, by simp only [hs.nfg], hs.has⟩) ?_
  intro _ _ t1 t2 _ _ ht _
  split
  · exact SimO.ok ht trivial
  · intro _ _ _ _ h; cases h
  · exact SimO.ok ht trivial
  · exact SimO.ok ht trivial

theorem removeFactors_sim (is : List Nat) {s1 s2 : St G T N} (hs : Sim s1 s2) :
    SimO (fun _ _ => True) (removeFactors is s1) (removeFactors is s2) := by
  induction is generalizing s1 s2 with
  | nil => exact SimO.ok hs trivial
  | cons i is ih =>
    unfold removeFactors
    rw [hs.nfg]
    split
    · exact ih ⟨hs.pcm, rfl, hs.has⟩
    · intro _ _ _ _ h; cases h

theorem removeLastFactor_sim {s1 s2 : St G T N} (hs : Sim s1 s2) :
    SimO Eq ((removeLastFactor : M (St G T N) EdgePtr) s1) (removeLastFactor s2) := by
  unfold removeLastFactor
  rw [hs.nfg]
  split
  · intro _ _ _ _ h; cases h
  · intro _ _ _ _ h; cases h
  · split
    · exact SimO.ok ⟨hs.pcm, rfl, hs.has⟩ rfl
    · intro _ _ _ _ h; cases h

theorem removeLastOfPair_sim {e1 e2 : Env G N} (he : SameIter e1 e2) (id : ObsId) {s1 s2 : St G T N} (hs : Sim s1 s2) :
    SimO Eq (removeLastOfPair e1 id s1) (removeLastOfPair e2 id s2) := by
  rw [removeLastOfPair_eq, removeLastOfPair_eq, hs.pcm]
  cases AList.get? ObsId.eqv s2.pcm.lcs id with
  | none => exact SimO.ok hs rfl
  | some m =>
    simp only
    cases removeLastMeas m with
    | ub u => intro _ _ _ _ h; cases h
    | throw m' x => intro _ _ _ _ h; cases h
    | ok m' e =>
      cases e with
      | none => exact SimO.ok ⟨rfl, hs.nfg, hs.has⟩ rfl
      | some e => exact SimO.ok ⟨rfl, buildGraph_iter he _, hs.has⟩ rfl

theorem removeLastPcm_sim {e1 e2 : Env G N} (he : SameIter e1 e2) {s1 s2 : St G T N} (hs : Sim s1 s2) :
    SimO Eq (removeLastPcm e1 s1) (removeLastPcm e2 s2) := by
  rw [removeLastPcm_eq, removeLastPcm_eq, hs.pcm]
  cases s2.pcm.inOrder.getLast? with
  | none => exact SimO.ok hs rfl
  | some id => exact removeLastOfPair_sim he id ⟨rfl, hs.nfg, hs.has⟩

theorem when_frame {cfg : Cfg G T N} {env : Env G N} (c : Bool) : M.Pres OptFrame (M.when c (optimize cfg env)) :=
  M.Pres.when OptFrame.refl (optimize_frame cfg env)

theorem Sim.trans {a b c : St G T N} (h1 : Sim a b) (h2 : Sim b c) : Sim a c :=
  ⟨h1.pcm.trans h2.pcm, h1.nfg.trans h2.nfg, fun k => (h1.has k).trans (h2.has k)⟩

theorem Sim.symm {a b : St G T N} (h : Sim a b) : Sim b a := ⟨h.pcm.symm, h.nfg.symm, fun k => (h.has k).symm⟩

/-- A call that is not about factors. -/
theorem exec_silent {cfg : Cfg G T N} {env : Env G N} {op : Op G N} (ho : Spec.Silent op) (s : St G T N) :
    M.Ends (Sim s) (exec cfg env op s) := by
  have fr : ∀ s' : St G T N, OptFrame s s' → Sim s s' := fun s' h => ⟨h.pcm.symm, h.nfg.symm, fun k => (h.values.has k).symm⟩
  cases op <;> simp only [Spec.Silent] at ho
  · refine ends_ret ?_
    unfold getNumLC; split; exact fr s (.refl s); trivial
  · refine ends_ret ?_
    unfold getNumLCInliers; split; exact fr s (.refl s); split; exact fr s (.refl s); trivial
  · refine ends_ret ?_
    unfold saveData; split <;> exact fr s (.refl s)
  · exact ends_ret (M.Ends.mono (fun s' h => fr s' h) (applyResult_frame _ s))
  · rename_i fs vs
    show M.Ends (Sim s)
      (((M.zoom (fun s => s.tempValues) (fun v s => { s with tempValues := v }) (insertVals vs) : M (St G T N) Unit).ret
        fun _ => Ret.unit) { s with tempNfg := s.tempNfg ++ fs })
    refine ends_ret ?_
    unfold M.zoom
    simp only
    cases insertVals vs s.tempValues with
    | ub u => trivial
    | ok v _ => exact ⟨rfl, rfl, fun _ => rfl⟩
    | throw v _ => exact ⟨rfl, rfl, fun _ => rfl⟩
  · exact ⟨rfl, rfl, fun _ => rfl⟩
  · exact ⟨rfl, rfl, fun _ => rfl⟩

/-- One call on each side. -/
theorem exec_sim {cfg : Cfg G T N} {e1 e2 : Env G N} (he : SameIter e1 e2) (a b c d e f : Bool) {o1 o2 : Op G N}
    (ho : Spec.SameOp o1 o2) {s1 s2 : St G T N} (hs : Sim s1 s2)
    (H : cfg.rejection = true → ∀ fs vs fs1 b fs2, Spec.batch o1 = some (fs, vs) → fs = fs1 ++ some (.btw b) :: fs2 →
      Spec.isOdom cfg vs b = true →
      b.k1 ∈ vs.keys ∨ hasTraj s1.pcm (chr b.k2) = true ∨ ∃ b' ∈ Spec.odoms cfg vs fs1, chr b'.k2 = chr b.k2) :
    SimO (fun _ _ => True) (exec cfg e1 o1 s1) (exec (cfg.withOpt a b c d e f) e2 o2 s2) := by
  have hrej : (cfg.withOpt a b c d e f).rejection = cfg.rejection := rfl
  -- processing of a batch, then anything that only optimizes
  have batch : ∀ (fs : Graph G N) (vs : Vals G) (t1 t2 : Bool → M (St G T N) Unit), Spec.batch o1 = some (fs, vs) →
      (∀ x, M.Pres OptFrame (t1 x)) → (∀ x, M.Pres OptFrame (t2 x)) → ∀ (g1 g2 : Unit → Ret),
      SimO (fun _ _ => True)
        ((M.bind (M.cond cfg.rejection (removeOutliers cfg e1 fs vs) (addAndCheck fs vs)) t1).ret g1 s1)
        ((M.bind (M.cond cfg.rejection (removeOutliers (cfg.withOpt a b c d e f) e2 fs vs) (addAndCheck fs vs)) t2).ret
          g2 s2) := by
    intro fs vs t1 t2 hb h1 h2 g1 g2
    rw [removeOutliers_withOpt cfg a b c d e f]
    refine SimO.ret (R := fun _ _ => True) (SimO.bind (R := fun _ _ => True) (SimO.cond ?_ ?_) ?_)
    · intro hr; exact removeOutliers_sim cfg he fs vs hs fun fs1 b fs2 e' ho => H hr fs vs fs1 b fs2 hb e' ho
    · intro _; exact addAndCheck_sim fs vs hs
    · intro x y t1' t2' _ _ ht _
      exact SimO.frame (h1 x) (h2 y) ht
  have tailU : ∀ (cfg : Cfg G T N) (env : Env G N) (o x : Bool), M.Pres OptFrame
      (M.bind (M.when (x && o) (optimize cfg env)) fun _ => M.when (cfg.log && o) (logStatus cfg)) := fun cfg env o x =>
    M.Pres.bind OptFrame.trans (when_frame _) fun _ => M.Pres.when OptFrame.refl (logStatus_frame cfg)
  have tailF : ∀ (cfg : Cfg G T N) (env : Env G N) (_ : Bool), M.Pres OptFrame
      (M.bind (optimize cfg env) fun _ => M.when cfg.log (logStatus cfg)) := fun cfg env _ =>
    M.Pres.bind OptFrame.trans (optimize_frame cfg env) fun _ => M.Pres.when OptFrame.refl (logStatus_frame cfg)
  have both : ∀ (y : Graph G N × Vals G), Spec.batch o1 = some y → Spec.batch o2 = some y →
      SimO (fun _ _ => True) (exec cfg e1 o1 s1) (exec (cfg.withOpt a b c d e f) e2 o2 s2) := by
    rintro ⟨fs, vs⟩ h1 h2
    have hb := batch fs vs
    have hb := fun t1 t2 => hb t1 t2 h1
    cases o1 <;> simp only [Spec.batch, Option.some.injEq, Prod.mk.injEq, reduceCtorEq] at h1 <;>
      cases o2 <;> simp only [Spec.batch, Option.some.injEq, Prod.mk.injEq, reduceCtorEq] at h2
    all_goals
      obtain ⟨rfl, rfl⟩ := h1
      obtain ⟨rfl, rfl⟩ := h2
    · exact hb _ _ rfl (tailU _ _ _) (tailU _ _ _) _ _
    · exact hb _ _ rfl (tailU _ _ _) (tailF _ _) _ _
    · exact hb _ _ rfl (tailF _ _) (tailU _ _ _) _ _
    · exact hb _ _ rfl (tailF _ _) (tailF _ _) _ _
  have priors : ∀ ch x y, SimO (fun _ _ => True) (exec cfg e1 (.removePriors ch x) s1)
      (exec (cfg.withOpt a b c d e f) e2 (.removePriors ch y) s2) := by
    intro ch x y
    refine SimO.ret (R := fun _ _ => True) (SimO.bind (R := fun _ _ => True) (SimO.cond ?_ ?_) ?_)
    · intro _
      unfold removePriorsPcm
      refine SimO.bind (R := Eq) (SimO.onPcm hs rfl) ?_
      intro _ _ t1 t2 _ _ ht _
      exact rebuild_sim he ht
    · intro _
      exact SimO.ok ⟨hs.pcm, by simp only [hs.nfg]; rfl, hs.has⟩ trivial
    · intro _ _ t1 t2 _ _ ht _
      exact SimO.frame (when_frame _) (when_frame _) ht
  rcases ho with rfl | ⟨y, h1, h2⟩ | ⟨ch, x, y, rfl, rfl⟩
  · cases o1 with
    | update fs vs o => exact both _ rfl rfl
    | forceUpdate fs vs => exact both _ rfl rfl
    | removePriors ch x => exact priors ch x x
    | removeLastPair x y =>
      refine SimO.ret (R := fun _ _ => True) (SimO.bind (R := Eq) (SimO.cond ?_ ?_) ?_)
      · intro _; exact removeLastOfPair_sim he _ hs
      · intro _; exact removeLastFactor_sim hs
      · intro _ _ t1 t2 _ _ ht _
        refine SimO.bind (R := fun _ _ => True) (SimO.frame (optimize_frame _ _) (optimize_frame _ _) ht) ?_
        intro _ _ t1 t2 _ _ ht _
        exact SimO.ok ht trivial
    | removeLast =>
      refine SimO.ret (R := fun _ _ => True) (SimO.bind (R := Eq) (SimO.cond ?_ ?_) ?_)
      · intro _; exact removeLastPcm_sim he hs
      · intro _; exact removeLastFactor_sim hs
      · intro _ _ t1 t2 _ _ ht _
        refine SimO.bind (R := fun _ _ => True) (SimO.frame (optimize_frame _ _) (optimize_frame _ _) ht) ?_
        intro _ _ t1 t2 _ _ ht _
        exact SimO.ok ht trivial
    | ignore ch =>
      refine SimO.ret (R := fun _ _ => True) (SimO.bind (R := fun _ _ => True) ?_ ?_)
      · unfold M.when
        rw [hrej]
        split
        · unfold ignorePcm
          refine SimO.bind (R := Eq) (SimO.onPcm hs rfl) ?_
          intro _ _ t1 t2 _ _ ht _
          exact rebuild_sim he ht
        · exact SimO.ok hs trivial
      · intro _ _ t1 t2 _ _ ht _
        exact SimO.frame (optimize_frame _ _) (optimize_frame _ _) ht
    | revive ch =>
      refine SimO.ret (R := fun _ _ => True) (SimO.bind (R := fun _ _ => True) ?_ ?_)
      · unfold M.when
        rw [hrej]
        split
        · unfold revivePcm
          refine SimO.bind (R := Eq) (SimO.onPcm hs rfl) ?_
          intro _ _ t1 t2 _ _ ht _
          exact rebuild_sim he ht
        · exact SimO.ok hs trivial
      · intro _ _ t1 t2 _ _ ht _
        exact SimO.frame (optimize_frame _ _) (optimize_frame _ _) ht
    | getNumLC =>
      refine SimO.ret (R := fun _ _ => True) (SimO.frame ?_ ?_ hs) <;>
        · intro s; unfold getNumLC; split; exact OptFrame.refl s; trivial
    | getNumLCInliers =>
      refine SimO.ret (R := fun _ _ => True) (SimO.frame ?_ ?_ hs) <;>
        · intro s; unfold getNumLCInliers; split; exact OptFrame.refl s; split; exact OptFrame.refl s; trivial
    | saveData =>
      refine SimO.ret (R := fun _ _ => True) (SimO.frame ?_ ?_ hs) <;>
        · intro s; unfold saveData; split <;> exact OptFrame.refl s
    | removeFactors is => exact SimO.ret (removeFactors_sim is hs)
    | removeLastFactor => exact SimO.ret (removeLastFactor_sim hs)
    | removePriorsGeneric ch => exact SimO.ok ⟨hs.pcm, by simp only [hs.nfg]; rfl, hs.has⟩ trivial
    | updateValues vs => exact SimO.ret (SimO.frame (applyResult_frame vs) (applyResult_frame vs) hs)
    | genericUpdate fs vs rm =>
      refine SimO.ret (R := fun _ _ => True) ?_
      unfold genericUpdate
      simp only [M.bind_eq]
      refine SimO.bind (removeFactors_sim rm hs) ?_
      intro _ _ t1 t2 _ _ ht _
      refine SimO.bind (addAndCheck_sim fs vs ht) ?_
      intro x y t1 t2 _ _ ht _
      have fr : ∀ (e : Env G N) (x : Bool), M.Pres OptFrame ((if x || decide (rm.length > 0) then M.bind M.get fun s =>
          match mergeVals s.values s.tempValues with
          | none => M.raise Exn.keyExists
          | some full =>
            match e.opt (s.nfg ++ s.tempNfg) full with
            | none => M.raise Exn.optimizer
            | some result => applyResult result
        else M.pure () : M (St G T N) Unit)) := by
        intro e x
        split
        · refine M.Pres.bind OptFrame.trans (M.Pres.get OptFrame.refl) fun s => ?_
          split
          · exact M.Pres.raise OptFrame.refl _
          · split
            · exact M.Pres.raise OptFrame.refl _
            · exact applyResult_frame _
        · exact M.Pres.pure OptFrame.refl _
      exact SimO.frame (fr e1 x) (fr e2 y) ht
    | tempUpdate fs vs =>
      intro s1' x s2' y h1 h2
      have g1 := exec_silent (cfg := cfg) (env := e1) (op := .tempUpdate fs vs) trivial s1
      have g2 := exec_silent (cfg := cfg.withOpt a b c d e f) (env := e2) (op := .tempUpdate fs vs) trivial s2
      rw [h1] at g1
      rw [h2] at g2
      exact ⟨(Sim.symm g1).trans (hs.trans g2), trivial⟩
    | tempReplace fs vs => exact SimO.ok ⟨hs.pcm, hs.nfg, hs.has⟩ trivial
    | tempClear => exact SimO.ok ⟨hs.pcm, hs.nfg, hs.has⟩ trivial
  · exact both y h1 h2
  · exact priors ch x y

theorem ReachOk.snoc_inv {cfg : Cfg G T N} {env : Env G N} {h : List (Op G N)} {op : Op G N} {s : St G T N}
    (r : ReachOk cfg env (h ++ [op]) s) : ∃ s0 x, ReachOk cfg env h s0 ∧ exec cfg env op s0 = .ok s x := by
  generalize hh : h ++ [op] = h' at r
  cases r with
  | init => simp at hh
  | @step h0 s0 op0 _ x r e =>
    obtain ⟨rfl, h2⟩ := List.append_inj' hh rfl
    cases h2
    exact ⟨s0, x, r, e⟩

theorem StartsGiven.init {cfg : Cfg G T N} {h : List (Op G N)} {op : Op G N} (hs : Spec.StartsGiven cfg (h ++ [op])) :
    Spec.StartsGiven cfg h := by
  intro h1 o h2 fs vs fs1 b fs2 e hb hf ho
  exact hs h1 o (h2 ++ [op]) fs vs fs1 b fs2 (by rw [e]; simp) hb hf ho

theorem sameCalls_sim {cfg : Cfg G T N} {e1 e2 : Env G N} (he : SameIter e1 e2) (a b c d e f : Bool)
    {h1 h2 : List (Op G N)} (hc : Spec.SameCalls h1 h2) (hg : cfg.rejection = true → Spec.StartsGiven cfg h1) {s1 s2 : St G T N}
    (r1 : ReachOk cfg e1 h1 s1) (r2 : ReachOk (cfg.withOpt a b c d e f) e2 h2 s2) : Sim s1 s2 := by
  induction hc generalizing s1 s2 with
  | nil =>
    have k1 : ∀ {cfg : Cfg G T N} {e : Env G N} {s : St G T N}, ReachOk cfg e [] s → s = St.init := by
      intro cfg e s r
      generalize hh : ([] : List (Op G N)) = h' at r
      cases r with
      | init => rfl
      | step => simp at hh
    rw [k1 r1, k1 r2]
    exact ⟨rfl, rfl, fun _ => rfl⟩
  | @both h1 h2 o1 o2 _ ho ih =>
    obtain ⟨t1, x1, r1, x1'⟩ := r1.snoc_inv
    obtain ⟨t2, x2, r2, x2'⟩ := r2.snoc_inv
    have hs := ih (fun hr => StartsGiven.init (hg hr)) r1 r2
    refine (exec_sim he a b c d e f ho hs ?_ _ _ _ _ x1' x2').1
    intro hr fs vs fs1 b fs2 hb hf ho
    rcases hg hr h1 o1 [] fs vs fs1 b fs2 rfl hb hf ho with h | ⟨b', hb', hc⟩
    · exact Or.inl h
    · rcases List.mem_append.1 hb' with hb' | hb'
      · right; left
        rw [← hc]
        exact r1.hasTraj hr b' hb'
      · exact Or.inr (Or.inr ⟨b', hb', hc⟩)
  | @left h1 h2 o _ ho ih =>
    obtain ⟨t1, x1, r1, x1'⟩ := r1.snoc_inv
    have hs := ih (fun hr => StartsGiven.init (hg hr)) r1 r2
    have := exec_silent (cfg := cfg) (env := e1) ho t1
    rw [x1'] at this
    exact (Sim.symm this).trans hs
  | @right h1 h2 o _ ho ih =>
    obtain ⟨t2, x2, r2, x2'⟩ := r2.snoc_inv
    have hs := ih hg r1 r2
    have := exec_silent (cfg := cfg.withOpt a b c d e f) (env := e2) ho t2
    rw [x2'] at this
    exact hs.trans this

end
end RPGO
