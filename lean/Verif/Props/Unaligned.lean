import Verif.Props.Print
import Verif.Props.Align
/-
C102: the warning that a robot is not aligned.
-/

namespace RPGO
variable {G T N : Type} [Group G] {cfg : Cfg G T N} {env : Env G N}

theorem noClosures_other {v : Bool} {fs : Graph G N} {vs v1 : Vals G} {f : Chr → Key → T} {r0 ri : Chr} :
    (∀ L bs, Msg.noClosures r0 ri ∉ candMsgs cfg v v1 f L bs) ∧ Msg.noClosures r0 ri ∉ fs.flatMap (sortMsg cfg v vs) ∧
      ∀ g (s : St G T N), Msg.noClosures r0 ri ∉ optMsgs cfg g s := by
  refine ⟨?_, ?_, ?_⟩
  · intro L bs
    induction bs generalizing L with
    | nil => unfold candMsgs; simp
    | cons b bs ih =>
      unfold candMsgs
      intro h
      rcases List.mem_append.1 h with h | h
      · rcases List.mem_append.1 h with h | h
        · unfold candMsg at h
          split at h
          · split at h
            · cases (mem_tells h).2
            · split at h <;> cases (mem_tells h).2
          · cases List.mem_singleton.1 h
        · unfold candWarn at h
          split at h
          · rcases landmarkWarnings_loud _ _ _ h with h | h <;> cases h
          · cases h
      · exact ih _ h
  · intro h
    obtain ⟨x, _, h⟩ := List.mem_flatMap.1 h
    unfold sortMsg at h
    split at h
    · split at h
      · cases (mem_tells h).2
      · split at h
        · cases h
        · split at h
          · cases List.mem_singleton.1 h
          · cases h
    · cases h
  · intro g s h
    unfold optMsgs at h
    rcases List.mem_append.1 h with h | h
    · cases (mem_tells h).2
    · split at h <;> cases (mem_tells h).2

/-- Which of the warnings are written. -/
theorem heard_align {v : Bool} (hr : cfg.rejection = true) {op : Op G N} {fs : Graph G N} (hne : fs ≠ [])
    {vs : Vals G} (hb : Spec.batch op = some (fs, vs)) {s s' : St G T N} {ms : List Msg} (h : Spec.Says cfg v env op s s' ms) :
    ∃ p2 : Pcm G T N, s'.pcm = { p2 with robotOrder := s'.pcm.robotOrder } ∧ s'.pcm.robotOrder.Perm p2.robotOrder ∧
      ∀ r0 ri, Msg.noClosures r0 ri ∈ ms ↔ Msg.noClosures r0 ri ∈ alignMsgs cfg p2 := by
  obtain ⟨r, h⟩ := h
  obtain ⟨q1, d, h1, hf, hm⟩ := execT_batch hr hb h
  unfold removeOutliersT at h1
  simp only [M.bind_eq] at h1
  obtain ⟨q0, _, g0, h2⟩ := M.bind_eq_ok.1 h1
  clear h1
  obtain ⟨_, g2⟩ := mute_ok g0
  simp only at g2
  unfold M.cond at h2
  split at h2
  · rename_i hl
    exact absurd (List.length_eq_zero_iff.1 (of_decide_eq_true hl)) hne
  · obtain ⟨_, p1, p2, t⟩ := processFactorsT_says h2
    have hp : s'.pcm = { p2 with robotOrder := s'.pcm.robotOrder } := by rw [hf.pcm, t.pcm]
    have ho : s'.pcm.robotOrder.Perm p2.robotOrder := by rw [hf.pcm]; exact t.order
    refine ⟨p2, hp, ho, fun r0 ri => ?_⟩
    have hn := noClosures_other (cfg := cfg) (v := v) (fs := fs) (vs := vs) (v1 := q0.1.values) (f := lk cfg p1) (r0 := r0) (ri := ri)
    have hc : Msg.noClosures r0 ri ∉
        (if Spec.cands cfg vs fs = [] then [] else tells v (.registered p2.totalLc) ++ tells v (.inliers p2.totalGood)) := by
      intro h
      split at h
      · cases h
      · rcases List.mem_append.1 h with h | h <;> cases (mem_tells h).2
    have hq : Msg.noClosures r0 ri ∈ q1.2 ↔ Msg.noClosures r0 ri ∈ alignMsgs cfg p2 := by
      rw [t.said, g2]
      simp only [List.nil_append, List.mem_append]
      constructor
      · rintro (h | ((h | h) | h) | h)
        · exact absurd h hn.2.1
        · exact absurd h (hn.1 _ _)
        · exact absurd h hc
        · exact h
        · cases (mem_tells h).2
      · exact fun h => .inr (.inl (.inr h))
    rcases hm with hm | ⟨g, hm⟩
    · exact (by rw [show ms = q1.2 from hm]; exact hq)
    · rw [show ms = _ from hm, List.mem_append]
      constructor
      · rintro (h | h)
        · exact hq.1 h
        · exact absurd h (hn.2.2 _ _)
      · exact fun h => .inl (hq.2 h)

theorem offsetOf_none {p : Pcm G T N} {r0 c : Chr} (h : passedOver cfg p r0 c = true) : offsetOf cfg env p r0 c = none := by
  unfold passedOver at h
  unfold offsetOf
  split at h
  · rename_i e; rw [e]
  · rename_i m e
    rw [e]
    simp only [Option.isNone_iff_eq_none.1 h]

theorem offsetOf_some {p : Pcm G T N} {r0 c : Chr} (h : passedOver cfg p r0 c = false) (ha : Averaged cfg env p r0 c) :
    ∃ X, offsetOf cfg env p r0 c = some X := by
  unfold passedOver at h
  unfold offsetOf
  split at h
  · cases h
  · rename_i m e
    rw [e]
    cases hc : alignCandidates cfg p r0 c m.cons with
    | none => rw [hc] at h; cases h
    | some cs =>
      obtain ⟨X, hX⟩ := Option.isSome_iff_exists.1 (ha m cs e hc)
      exact ⟨X, by simpa only [hc] using hX⟩

namespace Props

/-- C102: with frame alignment on, a call that sends factors without asking for an optimization warns that a robot has no
closures to the reference robot exactly if it leaves that robot where it was. Fleet, reference robot and start poses as in
C30. -/
theorem C102_unaligned (laws : Spec.PoseLaws cfg.ops) (hr : cfg.rejection = true) (ha : cfg.align = true) {v : Bool}
    {owner : Key → Chr} {start : Chr → Key} {h : List (Op G N)} {fs : Graph G N} {vs : Vals G} {s s' : St G T N} {ms : List Msg}
    (r : ReachOk cfg env h s) (e : Spec.Says cfg v env (.update fs vs false) s s' ms) (hne : fs ≠ [])
    (H : List (Op G N)) (hH : H = h ++ [.update fs vs false]) (hf : Spec.Fleet cfg owner start H)
    {r0 : Chr} (href : Spec.Reference cfg r0 H) (g : Chr → G)
    (hg : ∀ c, Spec.robotOdom cfg c H ≠ [] → Spec.StartPose cfg env c (start c) H (g c)) :
    -- the warning names the reference robot and another robot with odometry
    (∀ p q, Msg.noClosures p q ∈ ms → p = r0 ∧ q ≠ r0 ∧ Spec.robotOdom cfg q H ≠ []) ∧
    ∀ c, c ≠ r0 → Spec.robotOdom cfg c H ≠ [] →
      -- a robot that it names is not moved
      (Msg.noClosures r0 c ∈ ms → ∀ k, chr k = c → s'.values.find? k = Spec.held s.values vs k) ∧
      -- every other one is its own odometry moved by one transform
      (Msg.noClosures r0 c ∉ ms → ∃ X, ∀ k, chr k = c → Spec.OnChain cfg start H k →
        s'.values.find? k = some (.pose (X * Spec.odomPose cfg start g H k))) ∧
      -- it names every robot for which no closure to the reference robot was sent
      ((∀ op ∈ H, ∀ b ∈ Spec.opBtws op, ¬ (ObsId.mk (chr b.k1) (chr b.k2)).eqv ⟨r0, c⟩ = true) → Msg.noClosures r0 c ∈ ms) := by
  subst hH
  obtain ⟨p2, hp, ho, hms⟩ := heard_align hr hne (op := .update fs vs false) rfl e
  have he : ∃ x, exec cfg env (.update fs vs false) s = .ok s' x := by
    obtain ⟨x, e⟩ := e
    have he := hush_ok e
    rw [hush_exec] at he
    exact ⟨x, he⟩
  obtain ⟨x, he⟩ := he
  have r' := r.step he
  obtain ⟨_, _, a2⟩ := align_core hr ha r he hne hf href
  have hin := order_iff hr r' hf
  have hnd := ho.nodup_iff.1 (r'.reach.robots hr).nodup
  have hlc : s'.pcm.lcs = p2.lcs := by rw [hp]
  have htr : s'.pcm.trajs = p2.trajs := by rw [hp]
  have hpo : ∀ c, passedOver cfg p2 r0 c = passedOver cfg s'.pcm r0 c := by
    intro c
    unfold passedOver
    rw [← hlc]
    cases AList.get? ObsId.eqv s'.pcm.lcs ⟨r0, c⟩ with
    | none => rfl
    | some m => simp only [alignCandidates_congr htr]
  have hlen : 1 < p2.robotOrder.length := by
    obtain ⟨c, hc, hc'⟩ := href.other
    have m1 := ho.subset ((hin c).2 hc')
    have m2 := ho.subset ((hin r0).2 href.odom)
    match hh : p2.robotOrder with
    | [] => rw [hh] at m1; cases m1
    | [a] =>
      rw [hh] at m1 m2
      simp only [List.mem_singleton] at m1 m2
      exact absurd (m1.trans m2.symm) hc
    | a :: b :: t => simp
  have key : ∀ p q, Msg.noClosures p q ∈ ms ↔ p = r0 ∧ q ≠ r0 ∧ Spec.robotOdom cfg q (h ++ [.update fs vs false]) ≠ [] ∧
      passedOver cfg s'.pcm r0 q = true := by
    intro p q
    rw [hms]
    unfold alignMsgs
    rw [if_pos (by simp [ha, hlen])]
    have sp := sortRobots_perm cfg.charSigned p2.robotOrder
    have ss := sortRobots_sorted cfg.charSigned p2.robotOrder
    generalize sortRobots cfg.charSigned p2.robotOrder = l at sp ss
    cases l with
    | nil => rw [← sp.length_eq] at hlen; simp at hlen
    | cons q0 rs =>
      obtain ⟨hn0, _⟩ := List.nodup_cons.1 (sp.nodup_iff.2 hnd)
      have hmem : ∀ c, c ∈ q0 :: rs ↔ Spec.robotOdom cfg c (h ++ [.update fs vs false]) ≠ [] := fun c => by
        rw [sp.mem_iff, ← ho.mem_iff, hin]
      have hq0 : q0 = r0 := by
        refine charVal_inj (sg := cfg.charSigned) (Int.le_antisymm ?_ ?_)
        · rcases List.mem_cons.1 ((hmem r0).2 href.odom) with hh | hh
          · rw [hh]
          · exact (List.pairwise_cons.1 ss).1 _ hh
        · exact href.least q0 ((hmem q0).1 (by simp))
      subst hq0
      simp only [List.mem_map, List.mem_filter]
      constructor
      · rintro ⟨c, ⟨hc, hc'⟩, he⟩
        cases he
        exact ⟨rfl, fun hh => hn0 (hh ▸ hc), (hmem _).1 (by simp [hc]), by rw [← hpo]; exact hc'⟩
      · rintro ⟨rfl, h2, h3, h4⟩
        refine ⟨q, ⟨?_, by rw [hpo]; exact h4⟩, rfl⟩
        rcases List.mem_cons.1 ((hmem q).2 h3) with hh | hh
        · exact absurd hh h2
        · exact hh
  refine ⟨fun p q hpq => ?_, fun c hc hod => ?_⟩
  · obtain ⟨h1, h2, h3, _⟩ := (key p q).1 hpq
    exact ⟨h1, h2, h3⟩
  · obtain ⟨b2, hav⟩ := a2 c hc hod
    refine ⟨fun hm k hk => ?_, fun hm => ?_, fun hno => ?_⟩
    · have := b2 k hk
      rw [offsetOf_none ((key r0 c).1 hm).2.2.2] at this
      exact this
    · have hpass : passedOver cfg s'.pcm r0 c = false := by
        rw [Bool.eq_false_iff]
        exact fun hh => hm ((key r0 c).2 ⟨rfl, hc, hod, hh⟩)
      obtain ⟨X, hX⟩ := offsetOf_some hpass hav
      refine ⟨X, fun k hk hon => ?_⟩
      have := b2 k hk
      subst hk
      obtain ⟨p1, p2⟩ := odomPose_eq laws hr r' hf.chains (g := g) (hg _ hod) ((hin _).2 hod) hon
      rw [this, hX]
      simp only
      rw [if_pos p1, p2]
    · refine (key r0 c).2 ⟨rfl, hc, hod, ?_⟩
      unfold passedOver
      cases hm : AList.get? ObsId.eqv s'.pcm.lcs ⟨r0, c⟩ with
      | none => rfl
      | some m =>
        exfalso
        obtain ⟨id, hid, he⟩ := AList.get?_mem hm
        obtain ⟨op, hop, b, hb, heq⟩ := r'.filed hr _ he
        exact hno op hop b hb (ObsId.isEqv.trans _ _ _ heq hid)

section
open Demo

/-- The hypotheses of `C102_unaligned` met: the two robots of the cases of C30, before and after their closures are sent. The
warning is written by the first call only. -/
example : (∃ s s', ReachOk cfgA Demo.env [] s ∧ Spec.Says cfgA false Demo.env (twoOdom a b) s s' [.noClosures 97 98] ∧
      decide (s'.values.find? (b 1) = some (.pose (z 1))) = true) ∧
    ∃ s s', ReachOk cfgA Demo.env [twoOdom a b] s ∧ Spec.Says cfgA false Demo.env (twoLoops a b) s s' [] ∧
      decide (s'.values.find? (b 1) = some (.pose (z 6))) = true :=
  ⟨talk_says (by decide +kernel), talk_says (by decide +kernel)⟩

set_option maxRecDepth 100000 in
/-- C102, what the text of the warning says is false of the code where `char` is signed and the prefix byte of the reference
robot is 128 or more: robot `a` has an accepted closure to the reference robot, and the warning that there is none is written. -/
theorem C102_false_unaligned : ∃ s s', ReachOk cfgA Demo.env [twoOdom hi a] s ∧
    Spec.Says cfgA false Demo.env (oneLoop hi a) s s' [.noClosures 200 97] ∧ Spec.selected s' ⟨200, 97⟩ = [btw (hi 1) (a 1) 5] := by
  obtain ⟨s, s', h1, h2, h3⟩ := talk_says (cfg := cfgA) (v := false) (ops := [twoOdom hi a]) (op := oneLoop hi a)
    (ms := [.noClosures 200 97]) (P := fun s => decide (Spec.selected s ⟨200, 97⟩ = [btw (hi 1) (a 1) 5])) (by decide +kernel)
  exact ⟨s, s', h1, h2, of_decide_eq_true h3⟩

end
end Props
end RPGO
