import Verif.Proofs.Tidy
import Verif.Proofs.Batch
import Verif.Proofs.Sim
import Verif.Proofs.Align
import Verif.Proofs.OptSafe
import Verif.Spec.WellFormed
/-
When a batch is processed to the end.
-/

namespace RPGO
variable {G T N : Type}

theorem odoms_btw_cons (cfg : Cfg G T N) (vs : Vals G) (b : Btw G N) (fs : Graph G N) :
    Spec.odoms cfg vs (some (.btw b) :: fs) = (if Spec.isOdom cfg vs b then [b] else []) ++ Spec.odoms cfg vs fs := by
  unfold Spec.odoms
  rw [btws_btw, List.filter_cons]
  split <;> rfl

/-- The loop over the new factors stops at the first odometry factor that cannot be attached. -/
theorem sortFactors_rootless (cfg : Cfg G T N) (nv vals : Vals G) (fs : Graph G N) (lcs : List (Btw G N)) (opt : Bool)
    (p : Pcm G T N) (h : ∀ b ∈ Spec.btws fs, b.noise.isSome) :
    (∃ p' x, sortFactors cfg nv vals fs lcs opt p = .ok p' x ∧
      ∀ pre x post, Spec.odoms cfg nv fs = pre ++ x :: post → hasTraj p (chr x.k2) = true ∨
        (∃ y ∈ pre, chr y.k2 = chr x.k2) ∨ ∃ g, vals.find? x.k1 = some (.pose g)) ∨
    ∃ pre x post p' e, Spec.odoms cfg nv fs = pre ++ x :: post ∧ hasTraj p (chr x.k2) = false ∧
      (∀ y ∈ pre, chr y.k2 ≠ chr x.k2) ∧ (∀ g, vals.find? x.k1 ≠ some (.pose g)) ∧
      sortFactors cfg nv vals fs lcs opt p = .throw p' e ∧
      ((e = .keyMissing ∧ vals.find? x.k1 = none) ∨ (e = .wrongType ∧ (vals.find? x.k1).isSome)) := by
  induction fs generalizing lcs opt p with
  | nil => exact Or.inl ⟨_, _, rfl, fun pre x post e => by simp [Spec.odoms, Spec.btws] at e⟩
  | cons f fs ih =>
    cases f with
    | none => exact ih _ _ _ h
    | some f =>
      cases f with
      | btw b =>
        have hb : b.noise.isSome := h b (by simp [btws_btw])
        have ht : ∀ b' ∈ Spec.btws fs, b'.noise.isSome := fun b' hb' => h b' (by simp [btws_btw, hb'])
        rw [odoms_btw_cons]
        unfold sortFactors
        rw [classify_btw]
        by_cases h1 : Spec.isFirstObs cfg nv b = true
        · have h2 : Spec.isOdom cfg nv b = false := by
            cases h2 : Spec.isOdom cfg nv b with
            | false => rfl
            | true =>
              unfold Spec.isOdom at h2
              unfold Spec.isFirstObs Spec.isLandmark at h1
              simp only [decide_eq_true_eq, Bool.and_eq_true] at h1 h2
              simp [h2.1, h2.2.1] at h1
          simp only [h1, h2, if_true, M.bind_eq]
          rw [M.bind_ok (M.modify_apply _ _)]
          exact ih _ _ _ ht
        · by_cases h2 : Spec.isOdom cfg nv b = true
          · simp only [h1, h2, if_true, M.bind_eq]
            rw [if_neg (by simp)]
            show (∃ p' x, M.bind (updateOdom cfg vals b) (fun _ => sortFactors cfg nv vals fs lcs opt) p = .ok p' x ∧ _) ∨
              ∃ pre x post p' e, _ ∧ _ ∧ _ ∧ _ ∧ M.bind (updateOdom cfg vals b) (fun _ => sortFactors cfg nv vals fs lcs opt) p = .throw p' e ∧ _
            rcases updateOdom_cases cfg vals b p with ⟨hn, _⟩ | ⟨_, hno, hnp, e, he, hk⟩ | ⟨n, p', e, st⟩
            · rw [hn] at hb; cases hb
            · exact Or.inr ⟨[], b, Spec.odoms cfg nv fs, _, e, rfl, hno, by simp, hnp, M.bind_throw he, hk⟩
            · rw [M.bind_ok e]
              have hob : hasTraj p (chr b.k2) = true ∨ ∃ g, vals.find? b.k1 = some (.pose g) := by
                rcases st.step with ⟨h, _⟩ | ⟨_, _, g, hg, _⟩
                · exact Or.inl h
                · exact Or.inr ⟨g, hg⟩
              rcases ih lcs opt p' ht with ⟨p2, x2, e2, hall⟩ | ⟨pre, x, post, p2, e2, h3, h4, h5, h6, h7, h8⟩
              · refine Or.inl ⟨p2, x2, e2, ?_⟩
                intro pre x post hx
                cases pre with
                | nil =>
                  simp only [List.singleton_append, List.nil_append, List.cons.injEq] at hx
                  rw [← hx.1]
                  exact hob.imp id Or.inr
                | cons y pre =>
                  simp only [List.singleton_append, List.cons_append, List.cons.injEq] at hx
                  rcases hall pre x post hx.2 with h | ⟨z, hz, hc⟩ | h
                  · rw [st.has, Bool.or_eq_true, decide_eq_true_eq] at h
                    rcases h with h | h
                    · exact Or.inr (Or.inl ⟨y, by simp, by rw [← hx.1, h]⟩)
                    · exact Or.inl h
                  · exact Or.inr (Or.inl ⟨z, by simp [hz], hc⟩)
                  · exact Or.inr (Or.inr h)
              · rw [st.has, Bool.or_eq_false_iff, decide_eq_false_iff_not] at h4
                refine Or.inr ⟨b :: pre, x, post, p2, e2, by rw [h3]; rfl, h4.2, ?_, h6, h7, h8⟩
                intro y hy
                rcases List.mem_cons.1 hy with rfl | hy
                · exact fun q => h4.1 q.symm
                · exact h5 y hy
          · simp only [h1, h2]
            rw [if_neg (by simp), if_neg (by simp)]
            simp only
            split
            · exact ih _ _ _ ht
            · exact ih _ _ _ ht
      | prior k m => exact ih _ _ _ h
      | priorAlt k t => exact ih _ _ _ h
      | other ks t => exact ih _ _ _ h

/-- The loop over the new factors returns if every odometry factor has Gaussian noise and either a trajectory to
extend or a pose to start from. -/
theorem sortFactors_total (cfg : Cfg G T N) (nv vals : Vals G) (fs : Graph G N) (lcs : List (Btw G N)) (opt : Bool)
    (p : Pcm G T N) (h : ∀ b ∈ Spec.btws fs, b.noise.isSome)
    (ho : ∀ b ∈ Spec.odoms cfg nv fs, hasTraj p (chr b.k2) = true ∨ ∃ g, vals.find? b.k1 = some (.pose g)) :
    ∃ p' x, sortFactors cfg nv vals fs lcs opt p = .ok p' x := by
  induction fs generalizing lcs opt p with
  | nil => exact ⟨_, _, rfl⟩
  | cons f fs ih =>
    cases f with
    | none => exact ih _ _ _ h ho
    | some f =>
      cases f with
      | btw b =>
        have hb : b.noise.isSome := h b (by simp [btws_btw])
        have ht : ∀ b' ∈ Spec.btws fs, b'.noise.isSome := fun b' hb' => h b' (by simp [btws_btw, hb'])
        have ho' : ∀ b' ∈ Spec.odoms cfg nv fs, hasTraj p (chr b'.k2) = true ∨ ∃ g, vals.find? b'.k1 = some (.pose g) := by
          intro b' hb'
          refine ho b' ?_
          unfold Spec.odoms at hb' ⊢
          rw [List.mem_filter] at hb' ⊢
          exact ⟨by simp [btws_btw, hb'.1], hb'.2⟩
        unfold sortFactors
        rw [classify_btw]
        by_cases h1 : Spec.isFirstObs cfg nv b = true
        · simp only [h1, if_true, M.bind_eq]
          rw [M.bind_ok (M.modify_apply _ _)]
          exact ih _ _ _ ht ho'
        · by_cases h2 : Spec.isOdom cfg nv b = true
          · simp only [h1, h2, if_true, M.bind_eq]
            rw [if_neg (by simp)]
            have hob := ho b (by
              unfold Spec.odoms
              rw [List.mem_filter]
              exact ⟨by simp [btws_btw], h2⟩)
            rcases updateOdom_cases cfg vals b p with ⟨hn, _⟩ | ⟨_, hno, hnp, _⟩ | ⟨n, p', e, st⟩
            · rw [hn] at hb; cases hb
            · rcases hob with hob | ⟨g, hg⟩
              · rw [hno] at hob; cases hob
              · exact absurd hg (hnp g)
            · show ∃ p' x, M.bind (updateOdom cfg vals b) (fun _ => sortFactors cfg nv vals fs lcs opt) p = .ok p' x
              rw [M.bind_ok e]
              exact ih _ _ _ ht fun b' hb' => (ho' b' hb').imp (fun hx => by rw [st.has, hx]; simp) id
          · simp only [h1, h2]
            rw [if_neg (by simp), if_neg (by simp)]
            simp only
            split
            · exact ih _ _ _ ht ho'
            · exact ih _ _ _ ht ho'
      | prior k m => exact ih _ _ _ h ho
      | priorAlt k t => exact ih _ _ _ h ho
      | other ks t => exact ih _ _ _ h ho

theorem Val.sameType_trans {a b c : Val G} (h : a.sameType b = true) (h' : b.sameType c = true) : a.sameType c = true := by
  cases a <;> cases b <;> cases c <;> simp_all [Val.sameType]

theorem Val.sameType_refl (a : Val G) : a.sameType a = true := by cases a <;> rfl

/-- Every stored value is still there, perhaps changed, with the same type. -/
def SameTypes (v v' : Vals G) : Prop := ∀ k x, v.find? k = some x → ∃ y, v'.find? k = some y ∧ x.sameType y = true

theorem SameTypes.refl (v : Vals G) : SameTypes v v := fun _ x h => ⟨x, h, x.sameType_refl⟩

theorem SameTypes.trans {u v w : Vals G} (h : SameTypes u v) (h' : SameTypes v w) : SameTypes u w := fun k x hx => by
  obtain ⟨y, hy, h1⟩ := h k x hx
  obtain ⟨z, hz, h2⟩ := h' k y hy
  exact ⟨z, hz, Val.sameType_trans h1 h2⟩

theorem SameTypes.set {v : Vals G} {k : Key} {x y : Val G} (hy : v.find? k = some y) (hs : y.sameType x = true) :
    SameTypes v (v.set k x) := by
  intro k' z hz
  rw [KMap.find?_set]
  split
  · rename_i hk
    subst hk
    rw [hy] at hz
    cases hz
    exact ⟨x, rfl, hs⟩
  · exact ⟨z, hz, z.sameType_refl⟩

/-! ### Frame alignment -/

theorem updateVals_types {us v v' : Vals G} (h : updateVals us v = .ok v' ()) : SameTypes v v' := by
  induction us generalizing v with
  | nil => cases h; exact .refl _
  | cons e t ih =>
    obtain ⟨k, x⟩ := e
    rw [updateVals_cons] at h
    cases hf : v.find? k with
    | none => rw [hf] at h; cases h
    | some y =>
      rw [hf] at h
      simp only at h
      split at h
      · exact (SameTypes.set hf ‹_›).trans (ih h)
      · cases h

theorem updateVals_total {us v : Vals G} (h : ∀ e ∈ us, ∃ y, v.find? e.1 = some y ∧ y.sameType e.2 = true) :
    ∃ v', updateVals us v = .ok v' () := by
  induction us generalizing v with
  | nil => exact ⟨v, rfl⟩
  | cons e t ih =>
    obtain ⟨k, x⟩ := e
    obtain ⟨y, hy, hs⟩ := h (k, x) (by simp)
    simp only at hy hs
    rw [updateVals_cons, hy]
    simp only [hs, if_true]
    refine ih fun e he => ?_
    obtain ⟨y1, hy1, hs1⟩ := h e (by simp [he])
    obtain ⟨y2, hy2, hs2⟩ := SameTypes.set hy hs _ _ hy1
    refine ⟨y2, hy2, ?_⟩
    revert hs1 hs2
    cases y1 <;> cases y2 <;> cases e.2 <;> simp [Val.sameType]

variable [Mul G] [Inv G] [One G]

/-- Every key of the trajectory of a robot has a pose. -/
theorem odomValues_total {cfg : Cfg G T N} {tr : KMap T} {v : Vals G} (X : G)
    (h : ∀ k, tr.has k = true → ∃ g, v.find? k = some (.pose g)) : ∃ v', updateVals (robotOdomValues cfg tr X) v = .ok v' () := by
  refine updateVals_total fun e he => ?_
  unfold robotOdomValues at he
  obtain ⟨⟨k, t⟩, ht, rfl⟩ := List.mem_map.1 he
  obtain ⟨g, hg⟩ := h k ((KMap.mem_keys_iff tr k).1 (List.mem_map.2 ⟨_, ht, rfl⟩))
  exact ⟨_, hg, rfl⟩

theorem alignStep_types {cfg : Cfg G T N} {env : Env G N} {s s' : St G T N} (h : alignStep cfg env s = .ok s' ()) :
    SameTypes s.values s'.values := by
  unfold alignStep at h
  split at h
  · simp only at h
    split at h
    · rename_i v _ e
      cases h
      simp only
      generalize sortRobots cfg.charSigned s.pcm.robotOrder = l at e
      cases l with
      | nil => cases e; exact .refl _
      | cons r0 rs =>
        obtain ⟨v1, _, h1, h2⟩ := M.bind_eq_ok.1 e
        refine (updateVals_types h1).trans ?_
        clear h1 e
        revert h2
        generalize ({ s.pcm with robotOrder := r0 :: rs } : Pcm G T N) = q
        generalize rs = rs'
        induction rs' generalizing v1 with
        | nil => intro h2; cases h2; exact .refl _
        | cons ri rs' ih =>
          intro h2
          obtain ⟨v2, _, h3, h4⟩ := M.bind_eq_ok.1 h2
          refine SameTypes.trans ?_ (ih v2 h4)
          unfold alignRobot at h3
          split at h3
          · cases h3; exact .refl _
          · split at h3
            · cases h3; exact .refl _
            · split at h3
              · cases h3
              · exact updateVals_types h3
    · cases h
    · cases h
  · cases h; exact .refl _

/-- Alignment returns if every key of a trajectory has a pose and averaging does not fail. -/
theorem alignStep_total {cfg : Cfg G T N} {env : Env G N} (hav : ∀ l, (env.avg l).isSome) {s : St G T N}
    (hV : ∀ c k, (trajOf s.pcm c).has k = true → ∃ g, s.values.find? k = some (.pose g)) :
    ∃ s', alignStep cfg env s = .ok s' () := by
  unfold alignStep
  split
  · simp only
    generalize hl : sortRobots cfg.charSigned s.pcm.robotOrder = l
    have key : ∃ v, alignValues cfg env { s.pcm with robotOrder := l } l s.values = .ok v () := by
      have hT : ∀ c, trajOf ({ s.pcm with robotOrder := l } : Pcm G T N) c = trajOf s.pcm c := fun _ => rfl
      cases l with
      | nil => exact ⟨_, rfl⟩
      | cons r0 rs =>
        unfold alignValues
        simp only [M.bind_eq]
        obtain ⟨v1, h1⟩ := odomValues_total (cfg := cfg) (v := s.values) 1 (fun k hk => hV r0 k hk)
        rw [hT, M.bind_ok h1]
        have hV1 : ∀ c k, (trajOf s.pcm c).has k = true → ∃ g, v1.find? k = some (.pose g) := by
          intro c k hk
          obtain ⟨g, hg⟩ := hV c k hk
          obtain ⟨y, hy, hs⟩ := updateVals_types h1 k _ hg
          cases y with
          | pose g' => exact ⟨g', hy⟩
          | other t => cases hs
        clear h1
        generalize ({ s.pcm with robotOrder := r0 :: rs } : Pcm G T N) = q at hT
        clear hl
        induction rs generalizing v1 with
        | nil => exact ⟨_, rfl⟩
        | cons ri rs ih =>
          have step : ∃ v2, alignRobot cfg env q r0 ri v1 = .ok v2 () ∧ SameTypes v1 v2 := by
            unfold alignRobot
            split
            · exact ⟨_, rfl, .refl _⟩
            · split
              · exact ⟨_, rfl, .refl _⟩
              · rename_i cs _
                obtain ⟨X, hX⟩ := Option.isSome_iff_exists.1 (hav cs)
                rw [hX]
                obtain ⟨v2, h2⟩ := odomValues_total (cfg := cfg) (v := v1) X (fun k hk => hV1 ri k hk)
                simp only
                rw [hT]
                exact ⟨v2, h2, updateVals_types h2⟩
          obtain ⟨v2, h2, h3⟩ := step
          show ∃ v, M.bind (alignRobot cfg env q r0 ri) (fun _ => M.forEach (alignRobot cfg env q r0) rs) v1 = _
          rw [M.bind_ok h2]
          refine ih v2 ?_
          intro c k hk
          obtain ⟨g, hg⟩ := hV1 c k hk
          obtain ⟨y, hy, hs⟩ := h3 k _ hg
          cases y with
          | pose g' => exact ⟨g', hy⟩
          | other t => cases hs
    obtain ⟨v, hv⟩ := key
    rw [hv]
    exact ⟨_, rfl⟩
  · exact ⟨_, rfl⟩

/-- A batch processed from a tidy state returns, if its keys are new and distinct, its measurements are Gaussian and
the loop over its factors returns. -/
theorem removeOutliers_total {cfg : Cfg G T N} (env : Env G N) {fs : Graph G N} {vs : Vals G} {s : St G T N}
    (ha : ∀ v1 p1 p2, insertVals vs s.values = .ok v1 () → Sorted cfg vs v1 fs s.pcm p1 →
      (p2 = p1 ∨ processCands cfg v1 (Spec.cands cfg vs fs) p1 = .ok p2 ()) →
      ∃ s', alignStep cfg env { s with values := v1, pcm := p2, nfg := buildGraph env p2 } = .ok s' ())
    (h : Tidy cfg s.pcm) (hb : ∀ b ∈ Spec.btws fs, Spec.Fair cfg b)
    (hk : ∀ k ∈ vs.keys, s.values.has k = false) (hn : vs.keys.Nodup)
    (ho : ∀ v1, insertVals vs s.values = .ok v1 () → ∃ p1 x, sortFactors cfg vs v1 fs [] false s.pcm = .ok p1 x) :
    ∃ s' x, removeOutliers cfg env fs vs s = .ok s' x := by
  obtain ⟨v1, hv⟩ := insertVals_total hk hn
  unfold removeOutliers
  simp only [M.bind_eq]
  have e1 : (onValues (insertVals vs) : M (St G T N) Unit) s = .ok { s with values := v1 } () := by
    unfold onValues M.zoom; simp only [hv]
  rw [M.bind_ok e1]
  unfold M.cond
  split
  · exact ⟨_, _, rfl⟩
  · unfold processFactors
    simp only [M.bind_eq]
    rw [M.bind_ok (M.get_apply _)]
    obtain ⟨p1, x, hp1⟩ := ho v1 hv
    obtain ⟨hS, hr, _⟩ := sortFactors_ok _ _ _ _ _ _ _ _ _ hp1
    have e2 : (onPcm (sortFactors cfg vs v1 fs [] false) : M (St G T N) _)
        { s with values := v1 } = .ok { s with values := v1, pcm := p1 } x := by
      unfold onPcm M.zoom; simp only [hp1]
    rw [M.bind_ok e2]
    have ht : Tidy cfg p1 := by
      refine ⟨by rw [hS.lcs]; exact h.lc, by rw [hS.lcs]; exact h.lcN, ?_⟩
      rw [hS.landmarks]
      refine fileFirst_tidy _ (fun b hb' => ?_) h.lm
      unfold Spec.firsts at hb'
      rw [List.mem_filter] at hb'
      refine ⟨hb b hb'.1, ?_⟩
      have := hb'.2
      unfold Spec.isFirstObs at this
      rw [Bool.and_eq_true] at this
      exact this.1
    obtain ⟨p2, e⟩ := processCands_tidy (vals := v1) x.1 p1 ht (fun b hb' => by
      rw [hr] at hb'
      simp only [List.nil_append, Spec.cands, List.mem_filter] at hb'
      exact hb b hb'.1)
    have hreb : ∀ s : St G T N, (rebuild env : M (St G T N) Unit) s = .ok { s with nfg := buildGraph env s.pcm } () := fun _ => rfl
    unfold M.when
    split
    · have e3 : (onPcm (processCands cfg v1 x.1) : M (St G T N) _)
          { s with values := v1, pcm := p1 } = .ok { s with values := v1, pcm := p2 } () := by
        unfold onPcm M.zoom; simp only [e]
      obtain ⟨s', ha⟩ := ha v1 p1 p2 hv hS (Or.inr (by rw [hr] at e; simpa using e))
      rw [M.bind_ok e3, M.bind_ok (hreb _), M.bind_ok ha]
      exact ⟨_, _, rfl⟩
    · obtain ⟨s', ha⟩ := ha v1 p1 p1 hv hS (Or.inl rfl)
      rw [M.bind_ok (M.pure_apply _ _), M.bind_ok (hreb _), M.bind_ok ha]
      exact ⟨_, _, rfl⟩

/-! ### Optimization -/

theorem applyResult_total (r : Vals G) (s : St G T N) (ht : s.tempValues = [])
    (h : ∀ e ∈ r, ∃ y, s.values.find? e.1 = some y ∧ y.sameType e.2 = true) :
    ∃ s', applyResult r s = .ok s' () ∧ s'.tempValues = [] ∧ SameTypes s.values s'.values := by
  induction r generalizing s with
  | nil => exact ⟨s, rfl, ht, .refl _⟩
  | cons e t ih =>
    obtain ⟨k, v⟩ := e
    obtain ⟨y, hy, hs⟩ := h (k, v) (by simp)
    simp only at hy hs
    have e1 : applyResult ((k, v) :: t) s = applyResult t { s with values := s.values.set k v } := by
      show (match s.values.find? k with | some v' => _ | none => _) = _
      rw [hy]
      simp only [hs, if_true]
    have hst : SameTypes s.values (s.values.set k v) := by
      intro k' x hx
      rw [KMap.find?_set]
      split
      · rename_i hk
        subst hk
        rw [hy] at hx
        cases hx
        exact ⟨v, rfl, hs⟩
      · exact ⟨x, hx, x.sameType_refl⟩
    obtain ⟨s', h1, h2, h3⟩ := ih { s with values := s.values.set k v } ht (fun e he => by
      obtain ⟨y1, hy1, hs1⟩ := h e (by simp [he])
      obtain ⟨y2, hy2, hs2⟩ := hst _ _ hy1
      refine ⟨y2, hy2, ?_⟩
      revert hs1 hs2
      cases y1 <;> cases y2 <;> cases e.2 <;> simp [Val.sameType])
    exact ⟨s', by rw [e1]; exact h1, h2, hst.trans h3⟩

theorem plainGraph_off {cfg : Cfg G T N} (hf : cfg.fixPrev = false) (s : St G T N) : ∃ g, plainGraph cfg s = .ok s g :=
  ⟨s.nfg ++ s.tempNfg, by unfold plainGraph; rw [hf]; rfl⟩

theorem optimize_total {cfg : Cfg G T N} {env : Env G N} {s : St G T N} (hr : cfg.rejection = true)
    (hf : useGncNow cfg s = false → ∃ g, plainGraph cfg s = .ok s g)
    (hw : env.Works) (hv : s.values.Sorted) (hl : useGncNow cfg s = false → s.latest ≤ s.gncW.length)
    (hl' : useGncNow cfg s = false → s.latest ≤ s.nfg.length)
    (hk : s.pcm.odom.length + s.pcm.special.length ≤ s.nfg.length) (ht : s.tempValues = []) :
    ∃ s', optimize cfg env s = .ok s' () ∧ s'.tempValues = [] ∧ SameTypes s.values s'.values := by
  unfold optimize
  simp only [M.bind_eq]
  rw [M.bind_ok (M.get_apply _)]
  have hm : mergeVals s.values s.tempValues = some s.values := by rw [ht]; rfl
  rw [hm]
  simp only
  have key : ∀ s1 res, s1.values = s.values → s1.tempValues = s.tempValues →
      (∀ e ∈ res, ∃ y, s.values.find? e.1 = some y ∧ y.sameType e.2 = true) →
      M.cond (useGncNow cfg s) (gncOptimize cfg env s.values) (plainOptimize cfg env s.values) s = .ok s1 res →
      ∃ s', M.bind (M.cond (useGncNow cfg s) (gncOptimize cfg env s.values) (plainOptimize cfg env s.values)) (fun result =>
        M.bind (applyResult result) fun _ => M.when cfg.rejection (M.modify fun s => { s with latest := s.pcm.totalLc })) s
          = .ok s' () ∧ s'.tempValues = [] ∧ SameTypes s.values s'.values := by
    intro s1 res h1 h2 h3 h4
    rw [M.bind_ok h4]
    obtain ⟨s2, e, a, b⟩ := applyResult_total res s1 (by rw [h2, ht]) (by rw [h1]; exact h3)
    rw [M.bind_ok e, hr]
    exact ⟨{ s2 with latest := s2.pcm.totalLc }, rfl, a, by rw [← h1]; exact b⟩
  by_cases hu : useGncNow cfg s = true
  · obtain ⟨res, w, hg, hkeep, hlen⟩ := hw.gnc (s.nfg ++ s.tempNfg) s.values hv
      (List.range (s.pcm.odom.length + s.pcm.special.length))
      (if cfg.biasOdom then some (List.replicate (List.range (s.pcm.odom.length + s.pcm.special.length)).length 1 ++
        List.replicate ((s.nfg ++ s.tempNfg).length - (List.range (s.pcm.odom.length + s.pcm.special.length)).length) 0) else none)
    refine key { s with
        gncW := w.take s.nfg.length
        gncTW := w.drop (w.length - s.tempNfg.length)
        gncNum := inlierCount (w.take s.nfg.length) (List.range (s.pcm.odom.length + s.pcm.special.length)).length }
      res rfl rfl hkeep ?_
    · unfold M.cond
      rw [if_pos hu]
      unfold gncOptimize
      simp only [M.bind_eq]
      rw [M.bind_ok (M.get_apply _)]
      rw [if_neg (by simp; intro _; omega), hg]
      simp only
      rw [List.length_append] at hlen
      rw [if_neg (by omega), M.bind_ok (M.modify_apply _ _)]
      rfl
  · have hl := hl (by simpa using hu)
    have hl' := hl' (by simpa using hu)
    obtain ⟨g, e1⟩ := hf (by simpa using hu)
    obtain ⟨res, hg, hkeep⟩ := hw.opt g s.values hv
    refine key { s with
        gncW := List.replicate (s.nfg.length - s.latest) 1 ++ s.gncW.drop (s.gncW.length - s.latest)
        gncTW := List.replicate s.tempNfg.length 1 } res rfl rfl hkeep ?_
    · unfold M.cond
      rw [if_neg hu]
      unfold plainOptimize
      simp only [M.bind_eq]
      rw [M.bind_ok e1, hg]
      simp only
      rw [M.bind_ok (M.get_apply _), if_neg (by omega), if_neg (by omega), M.bind_ok (M.modify_apply _ _), hr]
      simp only [Bool.not_true, Bool.and_false, Bool.false_eq_true, if_false]
      rfl

end RPGO
