import Verif.Props.Align
import Verif.Props.Values
import Verif.Props.Defer
/-
C92 with frame alignment an update with factors redraws the estimate: what earlier optimizations or overwritten
estimates left there is forgotten.
-/

namespace RPGO.Spec
variable {G T N : Type} [Group G]

/-- The accepted closures between robot `c` and the reference robot `r0` tie `c` to it: some closure between them is
registered, and both ends of each accepted one are reached by the odometry. -/
def Tied (cfg : Cfg G T N) (start : Chr → Key) (h : List (Op G N)) (s : St G T N) (r0 c : Chr) : Prop :=
  registered s ⟨r0, c⟩ ≠ [] ∧ ∀ b ∈ selected s ⟨r0, c⟩, OnChain cfg start h b.k1 ∧ OnChain cfg start h b.k2

/-- Pose `k` is reached by the odometry of the reference robot, or of a robot tied to it. -/
def Redrawn (cfg : Cfg G T N) (start : Chr → Key) (h : List (Op G N)) (s : St G T N) (r0 : Chr) (k : Key) : Prop :=
  robotOdom cfg (chr k) h ≠ [] ∧ OnChain cfg start h k ∧ (chr k = r0 ∨ Tied cfg start h s r0 (chr k))

end RPGO.Spec

namespace RPGO
variable {G T N : Type} [Group G] {cfg : Cfg G T N} {env : Env G N}

/-- What an update with factors and alignment writes, in terms of the final selection state. -/
theorem aligned_values (hr : cfg.rejection = true) (ha : cfg.align = true) {fs : Graph G N} {vs : Vals G} {s s' : St G T N}
    {x : Ret} (e : exec cfg env (.update fs vs false) s = .ok s' x) (hne : fs ≠ [])
    (hlen : 1 < s'.pcm.robotOrder.length) (hnd : s'.pcm.robotOrder.Nodup) (hs : ∀ c, (trajOf s'.pcm c).Sorted)
    (ho : ∀ c k, (trajOf s'.pcm c).has k = true → chr k = c) :
    ∃ r0 rs, s'.pcm.robotOrder = r0 :: rs ∧
      (∀ c ∈ s'.pcm.robotOrder, charVal cfg.charSigned r0 ≤ charVal cfg.charSigned c) ∧
      (∀ k, (trajOf s'.pcm r0).has k = true → s'.values.find? k = some (.pose (cfg.ops.pose (lk cfg s'.pcm r0 k)))) ∧
      ∀ c ∈ rs, (∀ k X, chr k = c → offsetOf cfg env s'.pcm r0 c = some X → (trajOf s'.pcm c).has k = true →
        s'.values.find? k = some (.pose (X * cfg.ops.pose (lk cfg s'.pcm c k)))) ∧ Averaged cfg env s'.pcm r0 c := by
  obtain ⟨s1, rb, h1, _, h3⟩ := exec_batch_ok hr (op := .update fs vs false) rfl e
  have := h3 false rfl (by simp)
  subst this
  obtain ⟨v1, hi, _, h4⟩ := removeOutliers_ok h1
  rcases h4 with ⟨h4, _⟩ | ⟨_, p1, p2, o, _, _, _, _, hal⟩
  · exact absurd h4 hne
  have hfr := alignStep_frame cfg env { s with values := v1, pcm := p2, nfg := buildGraph env p2 }
  rw [hal] at hfr
  have hfr : AlignFrame _ s' := hfr
  have hp : s'.pcm = { p2 with robotOrder := s'.pcm.robotOrder } := congrArg St.pcm hfr.eq
  have htr : s'.pcm.trajs = p2.trajs := by rw [hp]
  have hlc : s'.pcm.lcs = p2.lcs := by rw [hp]
  have htj : ∀ c, trajOf s'.pcm c = trajOf p2 c := by intro c; unfold trajOf; rw [htr]
  have hord : s'.pcm.robotOrder.Perm p2.robotOrder := hfr.order
  have hlk : lk cfg s'.pcm = lk cfg p2 := lk_congr htr
  obtain ⟨q0, rs, ho', hperm, hleast, hq, hrs, _, hav⟩ := alignStep_ok hal ha (by rw [← hord.length_eq]; exact hlen)
    (hord.nodup_iff.1 hnd) (fun c => by rw [← htj]; exact hs c) (fun c k hk => ho c k (by rw [htj]; exact hk))
  refine ⟨q0, rs, ho', fun c hc => hleast c (hord.subset hc), ?_, ?_⟩
  · intro k hk
    rw [htj] at hk
    rw [hlk]
    exact hq k hk
  · intro c hc
    refine ⟨?_, fun m cs hm hcs => hav c hc m cs (hlc ▸ hm) (by rw [← alignCandidates_congr htr]; exact hcs)⟩
    intro k X hk hX hh
    have := hrs c hc k hk
    rw [offsetOf_congr (p := s'.pcm) (q := p2) hlc htr] at hX
    rw [htj] at hh
    rw [this, hX, hlk]
    exact if_pos hh

/-- A tied robot has an offset. -/
theorem tied_offset (laws : Spec.PoseLaws cfg.ops) (hr : cfg.rejection = true) {owner : Key → Chr} {start : Chr → Key}
    {H : List (Op G N)} {s : St G T N} (r : ReachOk cfg env H s) (hf : Spec.Fleet cfg owner start H) {r0 c : Chr}
    (h7 : r0.toNat < 128) (h0 : r0 ∈ s.pcm.robotOrder) (hc : c ∈ s.pcm.robotOrder) (hne : c ≠ r0)
    (hav : Averaged cfg env s.pcm r0 c) (ht : Spec.Tied cfg start H s r0 c) :
    ∃ X, offsetOf cfg env s.pcm r0 c = some X := by
  have hstart : ∀ c, ∃ g, Spec.robotOdom cfg c H ≠ [] → Spec.StartPose cfg env c (start c) H g := by
    intro c
    by_cases h0 : Spec.robotOdom cfg c H = []
    · exact ⟨1, fun h => absurd h0 h⟩
    · obtain ⟨_, ch, hl⟩ := hf.chains c
      obtain ⟨g, hg, _⟩ := r.started hr c (start c) ch hl ((order_iff hr r hf c).2 h0)
      exact ⟨g, fun _ => hg⟩
  choose g hg using hstart
  obtain ⟨hreg, hon⟩ := ht
  cases hm : AList.get? ObsId.eqv s.pcm.lcs ⟨r0, c⟩ with
  | none =>
    exfalso
    apply hreg
    unfold Spec.registered lcOf
    rw [hm]; rfl
  | some m =>
    have hsel : Spec.selected s ⟨r0, c⟩ = m.cons := by
      unfold Spec.selected
      rw [lcOf_of_get? hm]
    rw [hsel] at hon
    obtain ⟨id, hid, he⟩ := AList.get?_mem hm
    have hids : ∀ b ∈ m.cons, (ObsId.mk (chr b.k1) (chr b.k2)).eqv ⟨r0, c⟩ = true := by
      intro b hb
      exact ObsId.isEqv.trans _ _ _ (r.reach.filed hr _ he b (Or.inr hb)) hid
    have hz : charVal cfg.charSigned r0 = ucharVal r0 := by
      unfold charVal ucharVal
      split
      · rw [BitVec.toInt_eq_toNat_cond, if_pos (by omega)]
      · rfl
    have hcs := candidates_eq laws hr r hf.chains hg hne h0 hc hz m.cons (fun b hb => ⟨hids b hb, hon b hb⟩)
    obtain ⟨X, hX⟩ := Option.isSome_iff_exists.1 (hav m _ hm hcs)
    refine ⟨X, ?_⟩
    unfold offsetOf
    rw [hm]
    simp only [hcs, hX]

theorem applyResult_agree {vs : Vals G} {s1 s2 t1 t2 : St G T N} (hv : s1.values = s2.values)
    (ht : s1.tempValues = s2.tempValues) (h1 : applyResult vs s1 = .ok t1 ()) (h2 : applyResult vs s2 = .ok t2 ()) :
    t1.values = t2.values ∧ t1.tempValues = t2.tempValues := by
  induction vs generalizing s1 s2 with
  | nil => cases h1; cases h2; exact ⟨hv, ht⟩
  | cons e t ih =>
    obtain ⟨k, v⟩ := e
    unfold applyResult at h1 h2
    rw [← hv, ← ht] at h2
    cases e1 : s1.values.find? k with
    | some v' =>
      simp only [e1] at h1 h2
      by_cases hc : v'.sameType v = true
      · rw [if_pos hc] at h1 h2
        exact ih (s1 := { s1 with values := KMap.set s1.values k v })
          (s2 := { s2 with values := KMap.set s1.values k v, tempValues := s1.tempValues }) rfl rfl h1 h2
      · rw [if_neg hc] at h1; cases h1
    | none =>
      simp only [e1] at h1 h2
      cases e2 : s1.tempValues.find? k with
      | some v' =>
        simp only [e2] at h1 h2
        by_cases hc : v'.sameType v = true
        · rw [if_pos hc] at h1 h2
          exact ih (s1 := { s1 with tempValues := KMap.set s1.tempValues k v })
            (s2 := { s2 with values := s1.values, tempValues := KMap.set s1.tempValues k v }) rfl rfl h1 h2
        · rw [if_neg hc] at h1; cases h1
      | none =>
        simp only [e2] at h1 h2
        exact ih hv ht h1 h2

/-- Without fixed inliers the estimate an optimization writes depends on the graph, the estimate and the temporary
factors and values. -/
theorem optimize_agree (hf : cfg.fixPrev = false) {s1 s2 t1 t2 : St G T N} (hv : s1.values = s2.values)
    (ht : s1.tempValues = s2.tempValues) (hn : s1.nfg = s2.nfg) (htn : s1.tempNfg = s2.tempNfg) (hp : s1.pcm = s2.pcm)
    (h1 : optimize cfg env s1 = .ok t1 ()) (h2 : optimize cfg env s2 = .ok t2 ()) :
    t1.values = t2.values ∧ t1.tempValues = t2.tempValues := by
  obtain ⟨f1, q1, u1, w1, a1, b1, c1, d1⟩ := optimize_ok h1
  obtain ⟨f2, q2, u2, w2, a2, b2, c2, d2⟩ := optimize_ok h2
  rw [hv, ht, a2] at a1
  cases a1
  have hu : ∀ s : St G T N, useGncNow cfg s = (cfg.useGnc && cfg.rejection) := by
    intro s; unfold useGncNow; rw [hf]; simp
  rw [hu] at b1 b2
  have out : ∀ {w t : St G T N}, t = (if cfg.rejection then { w with latest := w.pcm.totalLc } else w) →
      t.values = w.values ∧ t.tempValues = w.tempValues := by
    intro w t h
    subst h
    split <;> exact ⟨rfl, rfl⟩
  have fin : q1 = q2 → u1.values = u2.values → u1.tempValues = u2.tempValues →
      t1.values = t2.values ∧ t1.tempValues = t2.tempValues := by
    intro hq x y
    subst hq
    obtain ⟨x1, x2⟩ := applyResult_agree x y c1 c2
    exact ⟨(out d1).1.trans (x1.trans (out d2).1.symm), (out d1).2.trans (x2.trans (out d2).2.symm)⟩
  rcases b1 with ⟨y1, b1⟩ | ⟨y1, b1⟩ <;> rcases b2 with ⟨y2, b2⟩ | ⟨y2, b2⟩
  · obtain ⟨_, g1, _, _, rfl⟩ := gncOptimize_ok b1
    obtain ⟨_, g2, _, _, rfl⟩ := gncOptimize_ok b2
    have hk : gncKnown s1 = gncKnown s2 := by unfold gncKnown; rw [hp]
    have hi : gncInit cfg s1 = gncInit cfg s2 := by unfold gncInit; rw [hk, hn, htn]
    rw [hk, hi, hn, htn, g2] at g1
    cases g1
    exact fin rfl hv ht
  · rw [y1] at y2; cases y2
  · rw [y1] at y2; cases y2
  · obtain ⟨_, g1, o1, _, _, rfl⟩ := plainOptimize_ok b1
    obtain ⟨_, g2, o2, _, _, rfl⟩ := plainOptimize_ok b2
    unfold plainGraph at g1 g2
    rw [hf] at g1 g2
    cases g1
    cases g2
    rw [hn, htn, o2] at o1
    cases o1
    exact fin rfl hv ht

end RPGO

namespace RPGO.Props
variable {G T N : Type} [Group G] {cfg : Cfg G T N}

/-- C92. Two runs of the same calls, with other optimization flags, optimizers, optimizer settings, overwritten estimates
or temporary factors in between: after the same update with factors (no optimization in it) each pose that the odometry of
the reference robot, or of a robot tied to it by accepted closures, reaches has the same estimate in both. For fleets as in
C30 whose first poses are supplied with their odometry and whose reference prefix is below 128. -/
theorem C92_redrawn (laws : Spec.PoseLaws cfg.ops) (hr : cfg.rejection = true) (ha : cfg.align = true) {env1 env2 : Env G N}
    (hlc : env1.iterLC = env2.iterLC) (hlm : env1.iterLM = env2.iterLM) (havg : env1.avg = env2.avg)
    (lm debug log useGnc fixPrev biasOdom : Bool) {h1 h2 : List (Op G N)} (hc : Spec.SameCalls h1 h2)
    {fs : Graph G N} {vs : Vals G} (hne : fs ≠ []) {s1 s1' s2 s2' : St G T N} {x1 x2 : Ret}
    (r1 : ReachOk cfg env1 h1 s1) (e1 : exec cfg env1 (.update fs vs false) s1 = .ok s1' x1)
    (r2 : ReachOk (cfg.withOpt lm debug log useGnc fixPrev biasOdom) env2 h2 s2)
    (e2 : exec (cfg.withOpt lm debug log useGnc fixPrev biasOdom) env2 (.update fs vs false) s2 = .ok s2' x2)
    (H : List (Op G N)) (hH : H = h1 ++ [.update fs vs false]) (hg : Spec.StartsGiven cfg H)
    {owner : Key → Chr} {start : Chr → Key} (hf : Spec.Fleet cfg owner start H)
    {r0 : Chr} (h7 : r0.toNat < 128) (href : Spec.Reference cfg r0 H)
    (k : Key) (hk : Spec.Redrawn cfg start H s1' r0 k) : s1'.values.find? k = s2'.values.find? k := by
  subst hH
  have r1' := r1.step e1
  have r2' := r2.step e2
  have sim := sameCalls_sim ⟨hlc, hlm⟩ lm debug log useGnc fixPrev biasOdom
    (.both hc (Or.inl rfl) : Spec.SameCalls (h1 ++ [.update fs vs false]) (h2 ++ [.update fs vs false])) (fun _ => hg) r1' r2'
  have own := r1'.reach.own_all hr (C := fun _ => True) hf.separate (fun _ _ _ _ _ => ⟨trivial, trivial⟩)
  have hrob := r1'.reach.robots hr
  have hin := order_iff hr r1' hf
  have hlen : 1 < s1'.pcm.robotOrder.length := by
    obtain ⟨c, hc, hc'⟩ := href.other
    have m1 := (hin c).2 hc'
    have m2 := (hin r0).2 href.odom
    match hh : s1'.pcm.robotOrder with
    | [] => rw [hh] at m1; cases m1
    | [a] =>
      rw [hh] at m1 m2
      simp only [List.mem_singleton] at m1 m2
      exact absurd (m1.trans m2.symm) hc
    | a :: b :: t => simp
  have hs : ∀ c, (trajOf s1'.pcm c).Sorted := own.sorted
  have ho : ∀ c k, (trajOf s1'.pcm c).has k = true → chr k = c := fun c k hk => (own.own c k hk).1
  obtain ⟨q0, rs, ho1, hl1, a1, b1⟩ := aligned_values hr ha e1 hne hlen hrob.nodup hs ho
  obtain ⟨p0, ps, ho2, hl2, a2, b2⟩ := aligned_values (cfg := cfg.withOpt lm debug log useGnc fixPrev biasOdom) hr ha e2 hne
    (sim.pcm ▸ hlen) (sim.pcm ▸ hrob.nodup) (fun c => sim.pcm ▸ hs c) (fun c k => sim.pcm ▸ ho c k)
  rw [← sim.pcm] at ho2 a2 b2
  rw [ho1] at ho2
  obtain ⟨rfl, rfl⟩ := List.cons.inj ho2
  have hq0 : q0 = r0 := by
    refine charVal_inj (sg := cfg.charSigned) (Int.le_antisymm ?_ ?_)
    · exact hl1 r0 ((hin r0).2 href.odom)
    · exact href.least q0 ((hin q0).1 (by rw [ho1]; simp))
  subst hq0
  obtain ⟨hod, hon, hk⟩ := hk
  have hmem := (hin _).2 hod
  have hhas : (trajOf s1'.pcm (chr k)).has k = true := by
    obtain ⟨_, ch, hl⟩ := hf.chains (chr k)
    obtain ⟨g, hg, _⟩ := r1'.started hr (chr k) (start (chr k)) ch hl hmem
    exact (odomPose_eq laws hr r1' hf.chains (g := fun _ => g) hg hmem hon).1
  by_cases h0 : chr k = q0
  · rw [h0] at hhas
    rw [a1 k hhas, a2 k hhas]
    rfl
  · have hkr : chr k ∈ rs := by
      rw [ho1] at hmem
      exact (List.mem_cons.1 hmem).resolve_left h0
    obtain ⟨X, hX⟩ := tied_offset laws hr r1' hf h7 ((hin q0).2 href.odom) hmem h0 (b1 _ hkr).2 (hk.resolve_left h0)
    have hX2 : offsetOf (cfg.withOpt lm debug log useGnc fixPrev biasOdom) env2 s1'.pcm q0 (chr k) = some X := by
      rw [← hX]
      have hcand : ∀ l, alignCandidates (cfg.withOpt lm debug log useGnc fixPrev biasOdom) s1'.pcm q0 (chr k) l =
          alignCandidates cfg s1'.pcm q0 (chr k) l := by
        intro l
        induction l with
        | nil => rfl
        | cons b t ih => unfold alignCandidates; rw [ih]; rfl
      unfold offsetOf
      simp only [hcand, havg]
    rw [(b1 _ hkr).1 k X rfl hX hhas, (b2 _ hkr).1 k X rfl hX2 hhas]
    rfl

/-- C92. If every key of the estimate is such a pose, the whole estimate is the same. -/
theorem C92_estimate (laws : Spec.PoseLaws cfg.ops) (hr : cfg.rejection = true) (ha : cfg.align = true) {env1 env2 : Env G N}
    (hlc : env1.iterLC = env2.iterLC) (hlm : env1.iterLM = env2.iterLM) (havg : env1.avg = env2.avg)
    (lm debug log useGnc fixPrev biasOdom : Bool) {h1 h2 : List (Op G N)} (hc : Spec.SameCalls h1 h2)
    {fs : Graph G N} {vs : Vals G} (hne : fs ≠ []) {s1 s1' s2 s2' : St G T N} {x1 x2 : Ret}
    (r1 : ReachOk cfg env1 h1 s1) (e1 : exec cfg env1 (.update fs vs false) s1 = .ok s1' x1)
    (r2 : ReachOk (cfg.withOpt lm debug log useGnc fixPrev biasOdom) env2 h2 s2)
    (e2 : exec (cfg.withOpt lm debug log useGnc fixPrev biasOdom) env2 (.update fs vs false) s2 = .ok s2' x2)
    (H : List (Op G N)) (hH : H = h1 ++ [.update fs vs false]) (hg : Spec.StartsGiven cfg H)
    {owner : Key → Chr} {start : Chr → Key} (hf : Spec.Fleet cfg owner start H)
    {r0 : Chr} (h7 : r0.toNat < 128) (href : Spec.Reference cfg r0 H)
    (hall : ∀ k ∈ s1'.values.keys, Spec.Redrawn cfg start H s1' r0 k) : s1'.values = s2'.values := by
  have sim := sameCalls_sim ⟨hlc, hlm⟩ lm debug log useGnc fixPrev biasOdom
    (.both hc (Or.inl rfl) : Spec.SameCalls (h1 ++ [.update fs vs false]) (h2 ++ [.update fs vs false]))
    (fun _ => hH ▸ hg) (r1.step e1) (r2.step e2)
  refine KMap.Sorted.ext (reach_values (r1.step e1).reach).1 (reach_values (r2.step e2).reach).1 fun k => ?_
  by_cases hk : s1'.values.has k = true
  · exact C92_redrawn laws hr ha hlc hlm havg lm debug log useGnc fixPrev biasOdom hc hne r1 e1 r2 e2 H hH hg hf h7 href k
      (hall k ((KMap.mem_keys_iff _ _).2 hk))
  · have hk2 := hk
    rw [sim.has] at hk2
    unfold KMap.has at hk hk2
    rw [Bool.not_eq_true, Option.isSome_eq_false_iff, Option.isNone_iff_eq_none] at hk hk2
    rw [hk, hk2]

/-- C92. The same for a forced update, if earlier inliers are not fixed and the same temporary factors and values are
present: the estimate after it does not depend on what earlier optimizations or overwritten estimates left behind.
`t` is the state after the same update without optimization. -/
theorem C92_forced (laws : Spec.PoseLaws cfg.ops) (hr : cfg.rejection = true) (ha : cfg.align = true)
    (hfix : cfg.fixPrev = false) {env : Env G N} {h1 h2 : List (Op G N)} (hc : Spec.SameCalls h1 h2)
    {fs : Graph G N} {vs : Vals G} (hne : fs ≠ []) {s1 s1' s2 s2' t : St G T N} {x1 x2 y : Ret}
    (r1 : ReachOk cfg env h1 s1) (e1 : exec cfg env (.forceUpdate fs vs) s1 = .ok s1' x1)
    (r2 : ReachOk cfg env h2 s2) (e2 : exec cfg env (.forceUpdate fs vs) s2 = .ok s2' x2)
    (htn : s1.tempNfg = s2.tempNfg) (htv : s1.tempValues = s2.tempValues)
    (et : exec cfg env (.update fs vs false) s1 = .ok t y)
    (H : List (Op G N)) (hH : H = h1 ++ [.update fs vs false]) (hg : Spec.StartsGiven cfg H)
    {owner : Key → Chr} {start : Chr → Key} (hf : Spec.Fleet cfg owner start H)
    {r0 : Chr} (h7 : r0.toNat < 128) (href : Spec.Reference cfg r0 H)
    (hall : ∀ k ∈ t.values.keys, Spec.Redrawn cfg start H t r0 k) : s1'.values = s2'.values := by
  have wrap : ∀ {a b : St G T N} {z : Ret}, exec cfg env (.forceUpdate [] []) a = .ok b z →
      optimize cfg env a = .ok b () := by
    intro a b z h
    rw [force_nil] at h
    obtain ⟨c, _, h1, h2⟩ := M.bind_eq_ok.1 h
    obtain ⟨d, _, h3, h4⟩ := M.bind_eq_ok.1 h1
    cases h2
    cases hl : cfg.log with
    | false => rw [hl] at h4; cases h4; exact h3
    | true =>
      rw [hl] at h4
      have := (logStatus_same cfg).of_ok (show logStatus cfg d = _ from h4)
      rw [this]
      exact h3
  have temps : ∀ {a b : St G T N} {z : Ret}, exec cfg env (.update fs vs false) a = .ok b z →
      b.tempNfg = a.tempNfg ∧ b.tempValues = a.tempValues := by
    intro a b z h
    obtain ⟨s0, rb, h0, _, h3⟩ := exec_batch_ok hr (op := .update fs vs false) rfl h
    have := h3 false rfl (by simp)
    subst this
    obtain ⟨v1, hi, _, h4⟩ := removeOutliers_ok h0
    rcases h4 with ⟨_, rfl⟩ | ⟨_, p1, p2, o, _, _, _, _, hal⟩
    · exact ⟨rfl, rfl⟩
    · have hfr := alignStep_frame cfg env { a with values := v1, pcm := p2, nfg := buildGraph env p2 }
      rw [hal] at hfr
      have hfr : AlignFrame _ b := hfr
      have h1 : b.tempNfg = _ := congrArg St.tempNfg hfr.eq
      have h2 : b.tempValues = _ := congrArg St.tempValues hfr.eq
      exact ⟨h1, h2⟩
  rw [C79_postponed] at e1 e2
  unfold Spec.thenCall at e1 e2
  rw [et] at e1
  have o1 := wrap (show exec cfg env (.forceUpdate [] []) t = _ from e1)
  cases et2 : exec cfg env (.update fs vs false) s2 with
  | throw _ _ => rw [et2] at e2; cases e2
  | ub _ => rw [et2] at e2; cases e2
  | ok t2 y2 =>
    rw [et2] at e2
    have o2 := wrap (show exec cfg env (.forceUpdate [] []) t2 = _ from e2)
    have hv : t.values = t2.values := C92_estimate laws hr ha rfl rfl rfl cfg.lm cfg.debug cfg.log cfg.useGnc cfg.fixPrev
      cfg.biasOdom hc hne r1 et r2 et2 H hH hg hf h7 href hall
    have sim := sameCalls_sim ⟨rfl, rfl⟩ cfg.lm cfg.debug cfg.log cfg.useGnc cfg.fixPrev cfg.biasOdom
      (.both hc (Or.inl rfl) : Spec.SameCalls (h1 ++ [.update fs vs false]) (h2 ++ [.update fs vs false]))
      (fun _ => hH ▸ hg) (r1.step et) (r2.step et2)
    have p1 := temps et
    have p2 := temps et2
    exact (optimize_agree hfix hv (p1.2.trans (htv.trans p2.2.symm)) sim.nfg (p1.1.trans (htn.trans p2.1.symm)) sim.pcm o1 o2).1

/-! ### An instance, and what happens outside the conditions -/

open RPGO.Demo

/-- The estimate of robots `a` and `b` is overwritten between odometry and closures. -/
def overwritten : List (Op Z Ns) := [twoOdom a b, .updateValues [pose (a 1) 70, pose (b 0) 80]]

theorem overwritten_same : Spec.SameCalls [twoOdom a b] overwritten :=
  .right (h2 := [_]) (.both (h1 := []) (h2 := []) .nil (Or.inl rfl)) trivial

set_option maxRecDepth 100000 in
/-- Both runs succeed, the conditions of C92 hold, and the closures redraw the estimate: 70 and 80 are gone. -/
example : ∃ s1 s1' s2 s2' x1 x2, ReachOk cfgA Demo.env [twoOdom a b] s1 ∧
    exec cfgA Demo.env (twoLoops a b) s1 = .ok s1' x1 ∧ ReachOk cfgA Demo.env overwritten s2 ∧
    exec cfgA Demo.env (twoLoops a b) s2 = .ok s2' x2 ∧ s2.values.find? (b 0) = some (.pose (z 80)) ∧
    (∀ k ∈ s1'.values.keys, Spec.Redrawn cfgA Demo.start [twoOdom a b, twoLoops a b] s1' 97 k) ∧
    s1'.values = s2'.values ∧ s2'.values.find? (b 0) = some (.pose (z 5)) := by
  have hg : Spec.StartsGiven cfgA [twoOdom a b, twoLoops a b] := starts_sound (by decide +kernel)
  obtain ⟨s1', r1', c1⟩ := Demo.runs_reach (cfg := cfgA) (env := Demo.env) (ops := [twoOdom a b] ++ [twoLoops a b])
    (P := fun s => decide (s.values.keys = [a 0, a 1, b 0, b 1] ∧ Spec.registered s ⟨97, 98⟩ ≠ [] ∧
      Spec.selected s ⟨97, 98⟩ = [btw (b 1) (a 1) (-5), btw (b 0) (a 0) (-5)] ∧
      s.values.find? (b 0) = some (.pose (z 5)))) (by decide +kernel)
  obtain ⟨s2', r2', c2⟩ := Demo.runs_reach (cfg := cfgA) (env := Demo.env) (ops := overwritten ++ [twoLoops a b])
    (P := fun s => true) (by decide +kernel)
  obtain ⟨s3, r3, c3⟩ := Demo.runs_reach (cfg := cfgA) (env := Demo.env) (ops := overwritten)
    (P := fun s => decide (s.values.find? (b 0) = some (.pose (z 80)))) (by decide +kernel)
  obtain ⟨s1, x1, r1, e1⟩ := r1'.snoc_inv
  obtain ⟨s2, x2, r2, e2⟩ := r2'.snoc_inv
  have := r3.det r2
  subst this
  simp only [decide_eq_true_eq] at c1 c3
  obtain ⟨k1, k2, k3, k4⟩ := c1
  have on : ∀ k ∈ [a 0, a 1, b 0, b 1], Spec.robotOdom cfgA (chr k) [twoOdom a b, twoLoops a b] ≠ [] ∧
      Spec.OnChain cfgA Demo.start [twoOdom a b, twoLoops a b] k ∧ (chr k = 97 ∨ chr k = 98) := by
    have h0 : ∀ i : Fin 2, Spec.robotOdom cfgA (chr (a i.1)) [twoOdom a b, twoLoops a b] ≠ [] ∧
        i.1 ≤ (Spec.robotOdom cfgA (chr (a i.1)) [twoOdom a b, twoLoops a b]).length ∧
        a i.1 = Spec.after (Demo.start (chr (a i.1))) i.1 ∧ chr (a i.1) = 97 := by decide +kernel
    have h1 : ∀ i : Fin 2, Spec.robotOdom cfgA (chr (b i.1)) [twoOdom a b, twoLoops a b] ≠ [] ∧
        i.1 ≤ (Spec.robotOdom cfgA (chr (b i.1)) [twoOdom a b, twoLoops a b]).length ∧
        b i.1 = Spec.after (Demo.start (chr (b i.1))) i.1 ∧ chr (b i.1) = 98 := by decide +kernel
    intro k hk
    simp only [List.mem_cons, List.not_mem_nil, or_false] at hk
    rcases hk with rfl | rfl | rfl | rfl
    · obtain ⟨p, q, t, u⟩ := h0 0; exact ⟨p, ⟨_, q, t⟩, Or.inl u⟩
    · obtain ⟨p, q, t, u⟩ := h0 1; exact ⟨p, ⟨_, q, t⟩, Or.inl u⟩
    · obtain ⟨p, q, t, u⟩ := h1 0; exact ⟨p, ⟨_, q, t⟩, Or.inr u⟩
    · obtain ⟨p, q, t, u⟩ := h1 1; exact ⟨p, ⟨_, q, t⟩, Or.inr u⟩
  have all : ∀ k ∈ s1'.values.keys, Spec.Redrawn cfgA Demo.start [twoOdom a b, twoLoops a b] s1' 97 k := by
    intro k hk
    rw [k1] at hk
    obtain ⟨p, q, u⟩ := on k hk
    refine ⟨p, q, u.imp id fun u => ?_⟩
    rw [u]
    refine ⟨k2, ?_⟩
    rw [k3]
    intro e he
    simp only [List.mem_cons, List.not_mem_nil, or_false] at he
    rcases he with rfl | rfl
    · exact ⟨(on (b 1) (by simp)).2.1, (on (a 1) (by simp)).2.1⟩
    · exact ⟨(on (b 0) (by simp)).2.1, (on (a 0) (by simp)).2.1⟩
  have hv := C92_estimate (C30_laws_simple _ _ _ _) rfl rfl rfl rfl rfl cfgA.lm cfgA.debug cfgA.log cfgA.useGnc cfgA.fixPrev
    cfgA.biasOdom overwritten_same (by simp) r1 e1 r2 e2 _ rfl hg fleet_demo (by decide) reference_demo all
  exact ⟨s1, s1', s2, s2', x1, x2, r1, e1, r2, e2, c3, all, hv, hv ▸ k4⟩

/-- A closure inside robot `a` only: robot `b` is not tied to the reference robot. -/
def ownLoop : Op Z Ns := .update [edge (a 0) (a 1) 1] [] false

set_option maxRecDepth 100000 in
/-- C92 is false for a robot without closures to the reference robot: the reference robot is redrawn, the overwritten
estimate of the other one stays. -/
theorem C92_false_untied : ∃ s1 s2, ReachOk cfgA Demo.env [twoOdom a b, ownLoop] s1 ∧
    ReachOk cfgA Demo.env (overwritten ++ [ownLoop]) s2 ∧ s1.values.find? (a 1) = s2.values.find? (a 1) ∧
    s1.values.find? (b 0) = some (.pose (z 0)) ∧ s2.values.find? (b 0) = some (.pose (z 80)) := by
  obtain ⟨s1, r1, c1⟩ := Demo.runs_reach (cfg := cfgA) (env := Demo.env) (ops := [twoOdom a b, ownLoop])
    (P := fun s => decide (s.values.find? (a 1) = some (.pose (z 1)) ∧ s.values.find? (b 0) = some (.pose (z 0)))) (by decide +kernel)
  obtain ⟨s2, r2, c2⟩ := Demo.runs_reach (cfg := cfgA) (env := Demo.env) (ops := overwritten ++ [ownLoop])
    (P := fun s => decide (s.values.find? (a 1) = some (.pose (z 1)) ∧ s.values.find? (b 0) = some (.pose (z 80)))) (by decide +kernel)
  simp only [decide_eq_true_eq] at c1 c2
  exact ⟨s1, s2, r1, r2, c1.1.trans c2.1.symm, c1.2, c2.2⟩

set_option maxRecDepth 100000 in
/-- C92 is false for an update without factors: it redraws nothing. -/
theorem C92_false_no_factors : ∃ s1 s2, ReachOk cfgA Demo.env [twoOdom a b, .update [] [] false] s1 ∧
    ReachOk cfgA Demo.env (overwritten ++ [.update [] [] false]) s2 ∧
    s1.values.find? (a 1) = some (.pose (z 1)) ∧ s2.values.find? (a 1) = some (.pose (z 70)) := by
  obtain ⟨s1, r1, c1⟩ := Demo.runs_reach (cfg := cfgA) (env := Demo.env) (ops := [twoOdom a b, .update [] [] false])
    (P := fun s => decide (s.values.find? (a 1) = some (.pose (z 1)))) (by decide +kernel)
  obtain ⟨s2, r2, c2⟩ := Demo.runs_reach (cfg := cfgA) (env := Demo.env) (ops := overwritten ++ [.update [] [] false])
    (P := fun s => decide (s.values.find? (a 1) = some (.pose (z 70)))) (by decide +kernel)
  exact ⟨s1, s2, r1, r2, of_decide_eq_true c1, of_decide_eq_true c2⟩

end RPGO.Props
