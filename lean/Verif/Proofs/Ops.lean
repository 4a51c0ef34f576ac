import Verif.Proofs.Frame
/-
What each public call does to the state, with outlier rejection: normal and exceptional ends.
-/

namespace RPGO
variable {G T N : Type}

/-! ### The loop over the new factors: exceptional end -/

theorem sortFactors_throw (cfg : Cfg G T N) (nv vals : Vals G) (fs : Graph G N) (lcs : List (Btw G N)) (opt : Bool)
    (p p' : Pcm G T N) (x : Exn) (h : sortFactors cfg nv vals fs lcs opt p = .throw p' x) :
    ∃ fs1 b fs2 p1, fs = fs1 ++ some (.btw b) :: fs2 ∧ Spec.isOdom cfg nv b = true ∧
      Sorted cfg nv vals fs1 p p1 ∧ hasTraj p1 (chr b.k2) = false ∧ (∀ g, vals.find? b.k1 ≠ some (.pose g)) ∧
      p' = { p1 with odom := p1.odom ++ [b] } := by
  have key : ∀ (fs : Graph G N) (lcs : List (Btw G N)) (opt : Bool) (p : Pcm G T N),
      sortFactors cfg nv vals fs lcs opt p = .throw p' x →
      ∃ fs1 b fs2 p1 lcs' opt', fs = fs1 ++ some (.btw b) :: fs2 ∧ Spec.isOdom cfg nv b = true ∧
        sortFactors cfg nv vals fs1 lcs opt p = .ok p1 (lcs', opt') ∧
        hasTraj p1 (chr b.k2) = false ∧ (∀ g, vals.find? b.k1 ≠ some (.pose g)) ∧
        p' = { p1 with odom := p1.odom ++ [b] } := by
    intro fs
    induction fs with
    | nil => intro lcs opt p h; cases h
    | cons f fs ih =>
      intro lcs opt p h
      have lift : ∀ lcs1 opt1 p1, sortFactors cfg nv vals fs lcs1 opt1 p1 = .throw p' x →
          (∀ gs, sortFactors cfg nv vals (f :: gs) lcs opt p = sortFactors cfg nv vals gs lcs1 opt1 p1) → 
          ∃ fs1 b fs2 p1 lcs' opt', f :: fs = fs1 ++ some (.btw b) :: fs2 ∧ Spec.isOdom cfg nv b = true ∧
            sortFactors cfg nv vals fs1 lcs opt p = .ok p1 (lcs', opt') ∧
            hasTraj p1 (chr b.k2) = false ∧ (∀ g, vals.find? b.k1 ≠ some (.pose g)) ∧
            p' = { p1 with odom := p1.odom ++ [b] } := by
        intro lcs1 opt1 p1 h1 h2
        obtain ⟨fs1, b, fs2, p2, l2, o2, e1, e2, e3, e4⟩ := ih _ _ _ h1
        exact ⟨f :: fs1, b, fs2, p2, l2, o2, by rw [e1]; rfl, e2, by rw [h2]; exact e3, e4⟩
      cases f with
      | none => exact lift lcs opt p h (fun _ => rfl)
      | some f =>
        cases f with
        | btw b =>
          have hdef : ∀ gs, sortFactors cfg nv vals (some (.btw b) :: gs) lcs opt p =
              if Spec.isFirstObs cfg nv b then
                sortFactors cfg nv vals gs lcs opt
                  { updLm p (landmarkKey cfg b) (fun _ => ⟨[b], [b], Mat.zero 1⟩) with totalLc := p.totalLc + 1 }
              else if Spec.isOdom cfg nv b then
                M.bind (updateOdom cfg vals b) (fun _ => sortFactors cfg nv vals gs lcs opt) p
              else if b.k1 ≠ b.k2 then sortFactors cfg nv vals gs (lcs ++ [b]) opt p
              else sortFactors cfg nv vals gs lcs opt p := by
            intro gs
            conv => lhs; unfold sortFactors
            rw [classify_btw]
            by_cases h1 : Spec.isFirstObs cfg nv b = true
            · simp only [h1, if_true, M.bind_eq]
              rw [M.bind_ok (M.modify_apply _ _)]
            · by_cases h2 : Spec.isOdom cfg nv b = true
              · simp only [h1, h2, if_true, M.bind_eq]
                rw [if_neg (by simp), if_neg (by simp)]
              · simp only [h1, h2]
                rw [if_neg (by simp), if_neg (by simp), if_neg (by simp), if_neg (by simp)]
                simp only
                split <;> rfl
          by_cases h1 : Spec.isFirstObs cfg nv b = true
          · exact lift _ _ _ (by rw [hdef, if_pos h1] at h; exact h) (fun gs => by rw [hdef, if_pos h1])
          · by_cases h2 : Spec.isOdom cfg nv b = true
            · rw [hdef, if_neg h1, if_pos h2] at h
              rcases updateOdom_cases cfg vals b p with ⟨_, e⟩ | ⟨_, ht, hv, y, e, _⟩ | ⟨n, p1, e, _⟩
              · rw [M.bind_apply, e] at h; cases h
              · rw [M.bind_throw e] at h
                cases h
                exact ⟨[], b, fs, p, lcs, opt, rfl, h2, rfl, ht, hv, rfl⟩
              · rw [M.bind_ok e] at h
                exact lift _ _ _ h (fun gs => by rw [hdef, if_neg h1, if_pos h2, M.bind_ok e])
            · by_cases h3 : b.k1 ≠ b.k2
              · rw [hdef, if_neg h1, if_neg h2, if_pos h3] at h
                exact lift _ _ _ h (fun gs => by rw [hdef, if_neg h1, if_neg h2, if_pos h3])
              · rw [hdef, if_neg h1, if_neg h2, if_neg h3] at h
                exact lift _ _ _ h (fun gs => by rw [hdef, if_neg h1, if_neg h2, if_neg h3])
        | prior k m => exact lift lcs true _ h (fun _ => rfl)
        | priorAlt k t => exact lift lcs true _ h (fun _ => rfl)
        | other ks t => exact lift lcs true _ h (fun _ => rfl)
  obtain ⟨fs1, b, fs2, p1, l', o', e1, e2, e3, e4, e5, e6⟩ := key fs lcs opt p h
  exact ⟨fs1, b, fs2, p1, e1, e2, (sortFactors_ok cfg nv vals fs1 lcs opt p p1 _ e3).1, e4, e5, e6⟩

section
variable [Mul G] [Inv G] [One G]

/-! ### Batches -/

/-- A batch of factors and values that was processed completely (the optimizer may still have thrown). -/
inductive BatchDone (cfg : Cfg G T N) (env : Env G N) (fs : Graph G N) (vs : Vals G) (s : St G T N) : St G T N → Prop where
  | empty {v1 s'} : fs = [] → insertVals vs s.values = .ok v1 () → OptFrame { s with values := v1 } s' →
      BatchDone cfg env fs vs s s'
  | full {v1 p1 p2 s1 s'} : fs ≠ [] → insertVals vs s.values = .ok v1 () → Sorted cfg vs v1 fs s.pcm p1 →
      (Spec.cands cfg vs fs = [] → p2 = p1) →
      (Spec.cands cfg vs fs ≠ [] → processCands cfg v1 (Spec.cands cfg vs fs) p1 = .ok p2 ()) →
      AlignFrame { s with values := v1, pcm := p2, nfg := buildGraph env p2 } s1 → OptFrame s1 s' →
      BatchDone cfg env fs vs s s'

/-- A batch whose processing stopped with an exception. -/
inductive BatchFail (cfg : Cfg G T N) (fs : Graph G N) (vs : Vals G) (s : St G T N) : St G T N → Prop where
  | dup {v'} : insertVals vs s.values = .throw v' .keyExists → BatchFail cfg fs vs s { s with values := v' }
  | sort {v1 fs1 b fs2 p1} : insertVals vs s.values = .ok v1 () → fs = fs1 ++ some (.btw b) :: fs2 →
      Spec.isOdom cfg vs b = true → Sorted cfg vs v1 fs1 s.pcm p1 → hasTraj p1 (chr b.k2) = false →
      (∀ g, v1.find? b.k1 ≠ some (.pose g)) →
      BatchFail cfg fs vs s { s with values := v1, pcm := { p1 with odom := p1.odom ++ [b] } }
  | cands {v1 p1 p2 x} : insertVals vs s.values = .ok v1 () → Sorted cfg vs v1 fs s.pcm p1 →
      Spec.cands cfg vs fs ≠ [] → processCands cfg v1 (Spec.cands cfg vs fs) p1 = .throw p2 x →
      BatchFail cfg fs vs s { s with values := v1, pcm := p2 }

theorem onValues_ok {v1 : Vals G} {vs : Vals G} {s : St G T N} (h : insertVals vs s.values = .ok v1 ()) :
    (onValues (insertVals vs) : M (St G T N) Unit) s = .ok { s with values := v1 } () := by
  unfold onValues M.zoom; rw [h]

theorem onPcm_apply {α : Type} (m : M (Pcm G T N) α) (s : St G T N) :
    onPcm m s = match m s.pcm with
      | .ok p a => .ok { s with pcm := p } a
      | .throw p e => .throw { s with pcm := p } e
      | .ub u => .ub u := by
  unfold onPcm M.zoom
  cases m s.pcm <;> rfl

/-- Outcomes of `removeOutliers`: an intermediate state `s1` after the graph was rebuilt, or a failure. -/
theorem removeOutliers_cases (cfg : Cfg G T N) (env : Env G N) (fs : Graph G N) (vs : Vals G) (s : St G T N) :
    (∃ u, removeOutliers cfg env fs vs s = .ub u) ∨
    (∃ s' x, removeOutliers cfg env fs vs s = .throw s' x ∧ (BatchFail cfg fs vs s s' ∨ BatchDone cfg env fs vs s s')) ∨
    (∃ s' r, removeOutliers cfg env fs vs s = .ok s' r ∧ BatchDone cfg env fs vs s s' ∧
      r = (!(Spec.specials fs).isEmpty || !(Spec.cands cfg vs fs).isEmpty)) := by
  unfold removeOutliers
  simp only [M.bind_eq]
  cases hi : insertVals vs s.values with
  | ub u => exact absurd hi (insertVals_not_ub _ _ _)
  | throw v' x =>
    right; left
    have := insertVals_throw hi
    subst this
    refine ⟨_, .keyExists, ?_, Or.inl (.dup hi)⟩
    rw [M.bind_apply]
    unfold onValues M.zoom
    rw [hi]
  | ok v1 _ =>
    rw [M.bind_ok (onValues_ok hi)]
    unfold M.cond
    cases fs with
    | nil =>
      right; right
      refine ⟨_, _, rfl, .empty rfl hi (OptFrame.refl _), ?_⟩
      simp [Spec.specials, Spec.cands, Spec.btws]
    | cons f fs =>
      simp only [List.length_cons, Nat.add_eq_zero_iff, Nat.one_ne_zero, and_false, decide_false, Bool.false_eq_true,
        if_false]
      generalize hfs : f :: fs = fs'
      have hne : fs' ≠ [] := by rw [← hfs]; simp
      unfold processFactors
      simp only [M.bind_eq]
      rw [M.bind_ok (M.get_apply _)]
      simp only
      cases hs : sortFactors cfg vs v1 fs' [] false s.pcm with
      | ub u =>
        left; refine ⟨u, ?_⟩
        rw [M.bind_apply, onPcm_apply]; simp only [hs]
      | throw p' x =>
        right; left
        obtain ⟨fs1, b, fs2, p1, e1, e2, e3, e4, e5, rfl⟩ := sortFactors_throw _ _ _ _ _ _ _ _ _ hs
        refine ⟨_, x, ?_, Or.inl (.sort hi e1 e2 e3 e4 e5)⟩
        rw [M.bind_apply, onPcm_apply]; simp only [hs]
      | ok p1 r =>
        obtain ⟨hS, hr1, hr2⟩ := sortFactors_ok _ _ _ _ _ _ _ _ _ hs
        have hb : (onPcm (sortFactors cfg vs v1 fs' [] false) : M (St G T N) _) { s with values := v1 } =
            .ok { s with values := v1, pcm := p1 } r := by rw [onPcm_apply]; simp only [hs]
        rw [M.bind_ok hb]
        have hr1 : r.1 = Spec.cands cfg vs fs' := by rw [hr1]; simp
        -- the rest, once candidates are processed
        have rest : ∀ p2, (Spec.cands cfg vs fs' = [] → p2 = p1) →
            (Spec.cands cfg vs fs' ≠ [] → processCands cfg v1 (Spec.cands cfg vs fs') p1 = .ok p2 ()) →
            M.when (decide (r.1.length > 0)) (onPcm (processCands cfg v1 r.1)) { s with values := v1, pcm := p1 } =
              .ok { s with values := v1, pcm := p2 } () →
            ∀ o, (M.bind (M.when (decide (r.1.length > 0)) (onPcm (processCands cfg v1 r.1))) fun _ =>
                M.bind (rebuild env) fun _ => M.bind (alignStep cfg env) fun _ =>
                  M.pure (r.2 || decide (r.1.length > 0))) { s with values := v1, pcm := p1 } = o →
            (∃ u, o = .ub u) ∨
            (∃ s' x, o = .throw s' x ∧ (BatchFail cfg fs' vs s s' ∨ BatchDone cfg env fs' vs s s')) ∨
            (∃ s' r, o = .ok s' r ∧ BatchDone cfg env fs' vs s s' ∧
              r = (!(Spec.specials fs').isEmpty || !(Spec.cands cfg vs fs').isEmpty)) := by
          intro p2 ha hb' hw o ho
          rw [M.bind_ok hw] at ho
          have hreb : (rebuild env : M (St G T N) Unit) { s with values := v1, pcm := p2 } =
              .ok { s with values := v1, pcm := p2, nfg := buildGraph env p2 } () := rfl
          rw [M.bind_ok hreb] at ho
          have hal := alignStep_frame cfg env { s with values := v1, pcm := p2, nfg := buildGraph env p2 }
          cases hx : alignStep cfg env { s with values := v1, pcm := p2, nfg := buildGraph env p2 } with
          | ub u => left; refine ⟨u, ?_⟩; rw [← ho, M.bind_apply, hx]
          | throw s' x =>
            right; left
            rw [hx] at hal
            refine ⟨s', x, ?_, Or.inr (.full hne hi hS ha hb' hal (OptFrame.refl _))⟩
            rw [← ho, M.bind_throw hx]
          | ok s' _ =>
            right; right
            rw [hx] at hal
            refine ⟨s', (r.2 || decide (r.1.length > 0)), ?_, .full hne hi hS ha hb' hal (OptFrame.refl _), ?_⟩
            · rw [← ho, M.bind_ok hx]; rfl
            · rw [hr2, hr1]
              cases Spec.cands cfg vs fs' <;> simp
        by_cases hc : Spec.cands cfg vs fs' = []
        · refine rest p1 (fun _ => rfl) (fun h => absurd hc h) ?_ _ rfl
          rw [hr1, hc]; rfl
        · have hlen : decide (r.1.length > 0) = true := by
            rw [hr1]
            cases hcc : Spec.cands cfg vs fs'
            · exact absurd hcc hc
            · simp
          cases hp : processCands cfg v1 (Spec.cands cfg vs fs') p1 with
          | ub u =>
            left; refine ⟨u, ?_⟩
            rw [M.bind_apply]
            unfold M.when
            rw [if_pos hlen, onPcm_apply, hr1]; simp only [hp]
          | throw p2 x =>
            right; left
            refine ⟨_, x, ?_, Or.inl (.cands hi hS hc hp)⟩
            rw [M.bind_apply]
            unfold M.when
            rw [if_pos hlen, onPcm_apply, hr1]; simp only [hp]
          | ok p2 _ =>
            refine rest p2 (fun h => absurd h hc) (fun _ => hp) ?_ _ rfl
            unfold M.when
            rw [if_pos hlen, onPcm_apply, hr1]; simp only [hp]

theorem BatchDone.frame {cfg : Cfg G T N} {env : Env G N} {fs : Graph G N} {vs : Vals G} {s s1 s2 : St G T N}
    (h : BatchDone cfg env fs vs s s1) (hf : OptFrame s1 s2) : BatchDone cfg env fs vs s s2 := by
  cases h with
  | empty a b c => exact .empty a b (OptFrame.trans _ _ _ c hf)
  | full a b c d e f g => exact .full a b c d e f (OptFrame.trans _ _ _ g hf)

/-- A call that carries a batch. -/
theorem exec_batch {cfg : Cfg G T N} (env : Env G N) (hr : cfg.rejection = true) {op : Op G N} {fs : Graph G N}
    {vs : Vals G} (hb : Spec.batch op = some (fs, vs)) (s : St G T N) :
    (∀ s' r, exec cfg env op s = .ok s' r → BatchDone cfg env fs vs s s') ∧
    (∀ s' x, exec cfg env op s = .throw s' x → BatchFail cfg fs vs s s' ∨ BatchDone cfg env fs vs s s') := by
  have main : ∀ (tail : Bool → M (St G T N) Unit) (ht : ∀ b, M.Pres OptFrame (tail b)) (f : Unit → Ret),
      (∀ s' r, ((M.bind (M.cond cfg.rejection (removeOutliers cfg env fs vs) (addAndCheck fs vs)) tail).ret f) s = .ok s' r →
        BatchDone cfg env fs vs s s') ∧
      (∀ s' x, ((M.bind (M.cond cfg.rejection (removeOutliers cfg env fs vs) (addAndCheck fs vs)) tail).ret f) s = .throw s' x →
        BatchFail cfg fs vs s s' ∨ BatchDone cfg env fs vs s s') := by
    intro tail ht f
    have hc : M.cond cfg.rejection (removeOutliers cfg env fs vs) (addAndCheck fs vs) = removeOutliers cfg env fs vs := by
      unfold M.cond; rw [if_pos hr]
    rw [hc]
    constructor
    · intro s' r h
      obtain ⟨s2, a2, h2, h3⟩ := M.bind_eq_ok.1 h
      cases h3
      obtain ⟨s1, a1, h1, h2⟩ := M.bind_eq_ok.1 h2
      rcases removeOutliers_cases cfg env fs vs s with ⟨u, e⟩ | ⟨_, _, e, _⟩ | ⟨s1', r', e, hd, _⟩
      · rw [e] at h1; cases h1
      · rw [e] at h1; cases h1
      · rw [e] at h1; cases h1
        exact hd.frame ((ht _).of_ok h2)
    · intro s' x h
      rcases M.bind_eq_throw.1 h with h | ⟨_, _, _, h⟩
      · rcases removeOutliers_cases cfg env fs vs s with ⟨u, e⟩ | ⟨_, _, e, hd⟩ | ⟨s1', r', e, hd, _⟩
        · rw [M.bind_apply, e] at h; cases h
        · rw [M.bind_apply, e] at h; cases h; exact hd
        · rw [M.bind_ok e] at h
          exact Or.inr (hd.frame ((ht _).of_throw h))
      · cases h
  cases op <;> simp only [Spec.batch, Option.some.injEq, Prod.mk.injEq, reduceCtorEq] at hb
  · obtain ⟨rfl, rfl⟩ := hb
    refine main (fun doOpt => M.bind (M.when (doOpt && _) (optimize cfg env)) fun _ => M.when (cfg.log && _) (logStatus cfg)) ?_ _
    intro b
    exact M.Pres.bind OptFrame.trans (M.Pres.when OptFrame.refl (optimize_frame cfg env)) fun _ =>
      M.Pres.when OptFrame.refl (logStatus_frame cfg)
  · obtain ⟨rfl, rfl⟩ := hb
    refine main (fun _ => M.bind (optimize cfg env) fun _ => M.when cfg.log (logStatus cfg)) ?_ _
    intro b
    exact M.Pres.bind OptFrame.trans (optimize_frame cfg env) fun _ => M.Pres.when OptFrame.refl (logStatus_frame cfg)

end

end RPGO
