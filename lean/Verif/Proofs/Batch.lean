import Verif.Proofs.Sim
import Verif.Proofs.Plain
/-
Normal returns of batch processing as equations; the list of robots.
-/

namespace RPGO
variable {G T N : Type} [Mul G] [Inv G] [One G]

/-- A normal return of `removeOutliers`, step by step. -/
theorem removeOutliers_ok {cfg : Cfg G T N} {env : Env G N} {fs : Graph G N} {vs : Vals G} {s s' : St G T N} {r : Bool}
    (h : removeOutliers cfg env fs vs s = .ok s' r) :
    ∃ v1, insertVals vs s.values = .ok v1 () ∧ r = (!(Spec.specials fs).isEmpty || !(Spec.cands cfg vs fs).isEmpty) ∧
      ((fs = [] ∧ s' = { s with values := v1 }) ∨
       (fs ≠ [] ∧ ∃ p1 p2 o, sortFactors cfg vs v1 fs [] false s.pcm = .ok p1 (Spec.cands cfg vs fs, o) ∧
        Sorted cfg vs v1 fs s.pcm p1 ∧ (Spec.cands cfg vs fs = [] → p2 = p1) ∧
        (Spec.cands cfg vs fs ≠ [] → processCands cfg v1 (Spec.cands cfg vs fs) p1 = .ok p2 ()) ∧
        alignStep cfg env { s with values := v1, pcm := p2, nfg := buildGraph env p2 } = .ok s' ())) := by
  have hr : r = (!(Spec.specials fs).isEmpty || !(Spec.cands cfg vs fs).isEmpty) := by
    rcases removeOutliers_cases cfg env fs vs s with ⟨u, e⟩ | ⟨_, _, e, _⟩ | ⟨s2, r2, e, _, hr⟩
    · rw [h] at e; cases e
    · rw [h] at e; cases e
    · rw [h] at e; cases e; exact hr
  unfold removeOutliers at h
  simp only [M.bind_eq] at h
  obtain ⟨s1, _, h1, h2⟩ := M.bind_eq_ok.1 h
  obtain ⟨v1, e1, rfl⟩ := M.zoom_eq_ok.1 h1
  refine ⟨v1, e1, hr, ?_⟩
  unfold M.cond at h2
  cases fs with
  | nil => left; cases h2; exact ⟨rfl, rfl⟩
  | cons f fs =>
    right
    refine ⟨by simp, ?_⟩
    rw [if_neg (by simp)] at h2
    generalize f :: fs = fs' at *
    unfold processFactors at h2
    simp only [M.bind_eq] at h2
    rw [M.bind_ok (M.get_apply _)] at h2
    obtain ⟨s2, x, h3, h4⟩ := M.bind_eq_ok.1 h2
    obtain ⟨p1, e2, rfl⟩ := M.zoom_eq_ok.1 h3
    obtain ⟨hS, hx1, hx2⟩ := sortFactors_ok _ _ _ _ _ _ _ _ _ e2
    obtain ⟨x1, x2⟩ := x
    simp only [List.nil_append] at hx1
    subst hx1
    obtain ⟨s3, _, h5, h6⟩ := M.bind_eq_ok.1 h4
    have hreb : ∀ s : St G T N, (rebuild env : M (St G T N) Unit) s = .ok { s with nfg := buildGraph env s.pcm } () := fun _ => rfl
    rw [M.bind_ok (hreb _)] at h6
    obtain ⟨s4, _, h7, h8⟩ := M.bind_eq_ok.1 h6
    cases h8
    refine ⟨p1, s3.pcm, x2, e2, hS, ?_, ?_, ?_⟩
    · intro hc
      rw [hc] at h5
      cases h5
      rfl
    · intro hc
      unfold M.when at h5
      rw [if_pos (by
        cases hcc : Spec.cands cfg vs fs'
        · exact absurd hcc hc
        · simp)] at h5
      obtain ⟨p2, e3, rfl⟩ := M.zoom_eq_ok.1 h5
      exact e3
    · have hs3 : s3 = { s with values := v1, pcm := s3.pcm } := by
        unfold M.when at h5
        split at h5
        · obtain ⟨p2, e3, rfl⟩ := M.zoom_eq_ok.1 h5
          rfl
        · cases h5; rfl
      rw [hs3] at h7
      exact h7

theorem alignStep_off {cfg : Cfg G T N} {env : Env G N} {s : St G T N} (h : cfg.align = false ∨ s.pcm.robotOrder.length ≤ 1) :
    alignStep cfg env s = .ok s () := by
  unfold alignStep
  rw [if_neg]
  simp only [Bool.and_eq_true, decide_eq_true_eq]
  rintro ⟨h1, h2⟩
  rcases h with h | h
  · rw [h] at h1; cases h1
  · omega

theorem cond_true {cfg : Cfg G T N} (hr : cfg.rejection = true) {α : Type} (m1 m2 : M (St G T N) α) :
    M.cond cfg.rejection m1 m2 = m1 := by unfold M.cond; rw [if_pos hr]

theorem cond_false {cfg : Cfg G T N} (hr : cfg.rejection = false) {α : Type} (m1 m2 : M (St G T N) α) :
    M.cond cfg.rejection m1 m2 = m2 := by unfold M.cond; rw [if_neg (by simp [hr])]

/-- A call carrying a batch that returned normally first processed the batch. -/
theorem exec_batch_ok {cfg : Cfg G T N} {env : Env G N} (hr : cfg.rejection = true) {op : Op G N} {fs : Graph G N} {vs : Vals G}
    (hb : Spec.batch op = some (fs, vs)) {s s' : St G T N} {x : Ret} (h : exec cfg env op s = .ok s' x) :
    ∃ s1 r, removeOutliers cfg env fs vs s = .ok s1 r ∧ OptFrame s1 s' ∧
      (∀ o, op = .update fs vs o → (r && o) = false → s' = s1) := by
  cases op <;> simp only [Spec.batch, Option.some.injEq, Prod.mk.injEq, reduceCtorEq] at hb
  · rename_i fs' vs' o
    obtain ⟨rfl, rfl⟩ := hb
    obtain ⟨s2, _, h2, h3⟩ := M.bind_eq_ok.1 h
    cases h3
    unfold update at h2
    rw [cond_true hr] at h2
    simp only [M.bind_eq] at h2
    obtain ⟨s1, r, h3, h4⟩ := M.bind_eq_ok.1 h2
    obtain ⟨s3, _, h5, h6⟩ := M.bind_eq_ok.1 h4
    have hlog : s' = s3 := by
      unfold M.when at h6
      split at h6
      · exact (logStatus_same cfg).of_ok h6
      · cases h6; rfl
    refine ⟨s1, r, h3, ?_, ?_⟩
    · rw [hlog]
      exact (M.Pres.when OptFrame.refl (optimize_frame cfg env)).of_ok h5
    · intro o' e hro
      cases e
      rw [hlog]
      unfold M.when at h5
      rw [if_neg (by simp [hro])] at h5
      cases h5; rfl
  · rename_i fs' vs'
    obtain ⟨rfl, rfl⟩ := hb
    obtain ⟨s2, _, h2, h3⟩ := M.bind_eq_ok.1 h
    cases h3
    unfold forceUpdate at h2
    rw [cond_true hr] at h2
    simp only [M.bind_eq] at h2
    obtain ⟨s1, r, h3, h4⟩ := M.bind_eq_ok.1 h2
    refine ⟨s1, r, h3, ?_, fun o e => by cases e⟩
    exact (M.Pres.bind OptFrame.trans (optimize_frame cfg env) fun _ => M.Pres.when OptFrame.refl (logStatus_frame cfg)).of_ok h4

/-! ### The list of robots -/

/-- The robots in the list of known robots: each once, each with a trajectory. -/
structure Robots (cfg : Cfg G T N) (h : List (Op G N)) (p : Pcm G T N) : Prop where
  nodup : p.robotOrder.Nodup
  traj : ∀ c ∈ p.robotOrder, hasTraj p c = true
  odom : ∀ c ∈ p.robotOrder, ∃ op ∈ h, ∃ b ∈ Spec.opOdom cfg op, chr b.k2 = c

theorem OdomRun.robots {cfg : Cfg G T N} {vals : Vals G} {bs : List (Btw G N)} {p p' : Pcm G T N}
    (h : OdomRun cfg vals bs p p') (h1 : p.robotOrder.Nodup) (h2 : ∀ c ∈ p.robotOrder, hasTraj p c = true) :
    p'.robotOrder.Nodup ∧ (∀ c ∈ p'.robotOrder, hasTraj p' c = true) ∧
      (∀ c ∈ p'.robotOrder, c ∈ p.robotOrder ∨ ∃ b ∈ bs, chr b.k2 = c) := by
  induction h with
  | nil p => exact ⟨h1, h2, fun c h => Or.inl h⟩
  | @cons b n p p1 p1' p2 bs st ht hro _ ih =>
    have key : p1.robotOrder.Nodup ∧ (∀ c ∈ p1.robotOrder, hasTraj p1 c = true) ∧
        ∀ c ∈ p1.robotOrder, c ∈ p.robotOrder ∨ chr b.k2 = c := by
      have hm : ∀ c, hasTraj p c = true → hasTraj p1 c = true := fun c h => by rw [st.has, h]; simp
      rcases st.step with ⟨_, e, _⟩ | ⟨hn, e, _⟩
      · rw [e]
        exact ⟨h1, fun c hc => hm c (h2 c hc), fun c hc => Or.inl hc⟩
      · rw [e]
        refine ⟨?_, ?_, ?_⟩
        · rw [List.nodup_append]
          refine ⟨h1, by simp, ?_⟩
          intro x hx y hy hxy
          simp only [List.mem_singleton] at hy
          subst hy; subst hxy
          rw [h2 _ hx] at hn; cases hn
        · intro c hc
          rcases List.mem_append.1 hc with hc | hc
          · exact hm c (h2 c hc)
          · simp only [List.mem_singleton] at hc
            subst hc
            rw [st.has]; simp
        · intro c hc
          rcases List.mem_append.1 hc with hc | hc
          · exact Or.inl hc
          · simp only [List.mem_singleton] at hc
            exact Or.inr hc.symm
    obtain ⟨k1, k2, k3⟩ := key
    obtain ⟨i1, i2, i3⟩ := ih (by rw [hro]; exact k1) (fun c hc => by rw [hasTraj_congr ht]; rw [hro] at hc; exact k2 c hc)
    refine ⟨i1, i2, fun c hc => ?_⟩
    rcases i3 c hc with hc | ⟨b', hb', e⟩
    · rw [hro] at hc
      rcases k3 c hc with hc | hc
      · exact Or.inl hc
      · exact Or.inr ⟨b, by simp, hc⟩
    · exact Or.inr ⟨b', by simp [hb'], e⟩
  | other ht hro _ ih =>
    obtain ⟨i1, i2, i3⟩ := ih (by rw [hro]; exact h1) (fun c hc => by rw [hasTraj_congr ht]; rw [hro] at hc; exact h2 c hc)
    exact ⟨i1, i2, fun c hc => (i3 c hc).imp (fun h => by rw [hro] at h; exact h) id⟩

theorem PcmEff.robotOrder {cfg : Cfg G T N} {op : Op G N} {p p' : Pcm G T N} (h : PcmEff cfg op p p') :
    p'.robotOrder = p.robotOrder := by
  cases h with
  | ignore => split <;> rfl
  | _ => rfl

theorem processed_robots {cfg : Cfg G T N} {vals : Vals G} {f : Chr → Key → T} {bs : List (Btw G N)} {p q p2 : Pcm G T N}
    (ht : TrajOnly cfg (bs.foldl (parseStep cfg vals f) p) q) (hs : SelPcm q p2) :
    p2.robotOrder = p.robotOrder ∧ ∀ c, hasTraj p c = true → hasTraj p2 c = true := by
  have h := parseFold_frame cfg vals f bs p
  refine ⟨?_, fun c hc => ?_⟩
  · rw [hs.robotOrder, ht.eq]; exact h.2.2.2.2.1
  · rw [hasTraj_congr hs.trajs]
    refine ht.has c ?_
    rw [hasTraj_congr h.2.2.2.1]
    exact hc

theorem Reach.robots {cfg : Cfg G T N} {env : Env G N} (hr : cfg.rejection = true) {h : List (Op G N)} {s : St G T N}
    (r : Reach cfg env h s) : Robots cfg h s.pcm := by
  refine Reach.induct (Inv := Robots cfg) hr ⟨List.nodup_nil, by simp, by simp⟩ ?_ r
  intro h s op s' _ _ ih st
  have odomOf : ∀ fs vs, Spec.batch op = some (fs, vs) → Spec.opOdom cfg op = Spec.odoms cfg vs fs := by
    intro fs vs hb; simp [Spec.opOdom, hb]
  have old : ∀ c, (∃ op ∈ h, ∃ b ∈ Spec.opOdom cfg op, chr b.k2 = c) →
      ∃ o ∈ h ++ [op], ∃ b ∈ Spec.opOdom cfg o, chr b.k2 = c := by
    rintro c ⟨o, ho, b, hb, e⟩
    exact ⟨o, by simp [ho], b, hb, e⟩
  generalize s'.pcm = q at st
  cases st with
  | other _ he =>
    refine ⟨by rw [he.robotOrder]; exact ih.nodup, fun c hc => ?_, fun c hc => old c (ih.odom c (by rw [← he.robotOrder]; exact hc))⟩
    rw [hasTraj_congr he.trajs]
    exact ih.traj c (by rw [← he.robotOrder]; exact hc)
  | none _ => exact ⟨ih.nodup, ih.traj, fun c hc => old c (ih.odom c hc)⟩
  | sort hb hi hfs ho hS hx1 hx2 =>
    rename_i fs vs v1 fs1 b fs2 p1
    obtain ⟨i1, i2, i3⟩ := hS.run.robots ih.nodup ih.traj
    refine ⟨i1, i2, fun c hc => ?_⟩
    rcases i3 c hc with hc | ⟨b', hb', e⟩
    · exact old c (ih.odom c hc)
    · refine ⟨op, by simp, b', ?_, e⟩
      rw [odomOf fs vs hb, hfs]
      have := List.mem_filter.1 hb'
      refine List.mem_filter.2 ⟨?_, this.2⟩
      rw [mem_btws] at this ⊢
      exact List.mem_append_left _ this.1
  | cands hb hne hi hS ht hsel hg hro =>
    rename_i fs vs v1 p1 q p2 ro
    obtain ⟨i1, i2, i3⟩ := hS.run.robots ih.nodup ih.traj
    obtain ⟨j1, j2⟩ := processed_robots ht hsel
    refine ⟨?_, ?_, ?_⟩
    · show ro.Nodup
      rw [hro.nodup_iff, j1]; exact i1
    · intro c hc
      have hc : c ∈ p2.robotOrder := hro.mem_iff.1 hc
      rw [j1] at hc
      exact j2 c (i2 c hc)
    · intro c hc
      have hc : c ∈ p2.robotOrder := hro.mem_iff.1 hc
      rw [j1] at hc
      rcases i3 c hc with hc | ⟨b', hb', e⟩
      · exact old c (ih.odom c hc)
      · exact ⟨op, by simp, b', by rw [odomOf fs vs hb]; exact hb', e⟩

/-- With odometry of one robot only, at most one robot is listed. -/
theorem one_robot {l : List Chr} (hn : l.Nodup) {c : Chr} (h : ∀ x ∈ l, x = c) : l.length ≤ 1 := by
  cases l with
  | nil => simp
  | cons a t =>
    cases t with
    | nil => simp
    | cons b t =>
      have h1 := h a (by simp)
      have h2 := h b (by simp)
      subst h1
      rw [h2] at hn
      simp at hn

end RPGO
