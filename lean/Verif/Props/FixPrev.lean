import Verif.Props.GncCount
import Verif.Props.Removal
/-
C57: re-optimizing with fixed previous inliers when consistency checks are on.
-/

namespace RPGO
variable {G T N : Type}

namespace Spec

/-- Calls that bring no closure candidate and no landmark observation, remove nothing and ignore or revive nothing. -/
def Quiet (cfg : Cfg G T N) (op : Op G N) : Prop :=
  Managed op ∧ ¬ Removes op ∧ (∀ c, op ≠ .ignore c ∧ op ≠ .revive c) ∧
  ∀ fs vs, batch op = some (fs, vs) → cands cfg vs fs = [] ∧ firsts cfg vs fs = []

end Spec

variable [Mul G] [Inv G] [One G]

/-- What a quiet call leaves alone. -/
structure Still (p p' : Pcm G T N) : Prop where
  lcs : p'.lcs = p.lcs
  landmarks : p'.landmarks = p.landmarks
  ignored : p'.ignored = p.ignored
  totalLc : p'.totalLc = p.totalLc

theorem Still.rfl' (p : Pcm G T N) : Still p p := ⟨rfl, rfl, rfl, rfl⟩

theorem Still.trans {p q r : Pcm G T N} (h : Still p q) (k : Still q r) : Still p r :=
  ⟨k.lcs.trans h.lcs, k.landmarks.trans h.landmarks, k.ignored.trans h.ignored, k.totalLc.trans h.totalLc⟩

theorem phase1_still {cfg : Cfg G T N} {env : Env G N} (hr : cfg.rejection = true) {op : Op G N} (hk : Spec.Quiet cfg op)
    {s s1 : St G T N} {x : Ret × Bool} (h : phase1 cfg env op s = .ok s1 x) : Still s.pcm s1.pcm := by
  obtain ⟨hm, hnr, hni, hq⟩ := hk
  have batch : ∀ {fs : Graph G N} {vs : Vals G}, Spec.batch op = some (fs, vs) → Still s.pcm s1.pcm := by
    intro fs vs hb
    obtain ⟨hc, hf0⟩ := hq fs vs hb
    have hd := (exec_batch env hr (op := .update fs vs false) rfl s).1 _ _ (phase1_update_false hr hb h)
    cases hd with
    | empty _ _ hf => rw [hf.pcm]; exact Still.rfl' _
    | full hne hins hS h1 h2 ha hf =>
      rename_i v1 p1 p2 s2
      have hp : s1.pcm = { p2 with robotOrder := s2.pcm.robotOrder } := by rw [hf.pcm, ha.eq]
      rw [hp, h1 hc]
      exact ⟨hS.lcs, by rw [show ∀ (q : Pcm G T N) o, ({ q with robotOrder := o } : Pcm G T N).landmarks = q.landmarks from
        fun _ _ => rfl, hS.landmarks, hf0]; rfl, hS.ignored, by
        rw [show ∀ (q : Pcm G T N) o, ({ q with robotOrder := o } : Pcm G T N).totalLc = q.totalLc from
          fun _ _ => rfl, hS.totalLc, hf0]; rfl⟩
  have silent : ∀ {o : Op G N}, Spec.Silent o → ∀ {f : Ret → Ret × Bool}, (exec cfg env o).ret f s = .ok s1 x →
      Still s.pcm s1.pcm := by
    intro o ho f h
    obtain ⟨s2, r, h1, h2⟩ := M.bind_eq_ok.1 h
    cases h2
    have hb : Spec.batch o = none := by cases o <;> first | rfl | exact absurd ho (by simp [Spec.Silent])
    have hf := ((exec_other cfg env hr o hb s).of_ok h1).pcm
    have : s1.pcm = s.pcm := by
      generalize s1.pcm = q at hf
      cases hf <;> first | rfl | exact absurd ho (by simp [Spec.Silent])
    rw [this]
    exact Still.rfl' _
  cases op with
  | update fs vs o => exact batch rfl
  | forceUpdate fs vs => exact batch rfl
  | removePriors c o => cases h; exact ⟨rfl, rfl, rfl, rfl⟩
  | removeLastPair a b => exact absurd trivial hnr
  | removeLast => exact absurd trivial hnr
  | ignore c => exact absurd rfl (hni c).1
  | revive c => exact absurd rfl (hni c).2
  | getNumLC => exact silent (o := .getNumLC) trivial h
  | getNumLCInliers => exact silent (o := .getNumLCInliers) trivial h
  | saveData => exact silent (o := .saveData) trivial h
  | updateValues vs => exact silent (o := .updateValues vs) trivial h
  | tempUpdate fs vs => exact silent (o := .tempUpdate fs vs) trivial h
  | tempReplace fs vs => exact silent (o := .tempReplace fs vs) trivial h
  | tempClear => exact silent (o := .tempClear) trivial h
  | removeFactors _ => exact absurd hm (by simp [Spec.Managed])
  | removeLastFactor => exact absurd hm (by simp [Spec.Managed])
  | removePriorsGeneric _ => exact absurd hm (by simp [Spec.Managed])
  | genericUpdate _ _ _ => exact absurd hm (by simp [Spec.Managed])

/-- A run of quiet calls that do not optimize. -/
theorem quiet_run {cfg : Cfg G T N} {env : Env G N} (hr : cfg.rejection = true) {h h1 : List (Op G N)} {s0 s : St G T N}
    (r0 : ReachOk cfg env h s0) (r : ReachOk cfg env (h ++ h1) s) (hk : ∀ op ∈ h1, Spec.Quiet cfg op)
    (hn : ∀ op ∈ h1, Spec.Optimizes cfg op = false) : SameW s0 s ∧ Still s0.pcm s.pcm := by
  induction h1 using List.reverseRecOn generalizing s with
  | nil =>
    rw [List.append_nil] at r
    rw [r0.det r]
    exact ⟨SameW.refl _, Still.rfl' _⟩
  | append_singleton h1 op ih =>
    rw [← List.append_assoc] at r
    obtain ⟨s1, x, r1, e⟩ := r.snoc_inv
    obtain ⟨i1, i2⟩ := ih r1 (fun o ho => hk o (by simp [ho])) (fun o ho => hn o (by simp [ho]))
    obtain ⟨s2, o, h2, h3⟩ := exec_ok_phase hr e
    have hflag : o = false := by rw [phase1_flag h2]; exact hn op (by simp)
    subst hflag
    rcases h3 with ⟨h3, _⟩ | ⟨_, rfl⟩
    · cases h3
    · have hw := (phase1_sameW cfg env (hk op (by simp)).1).of_ok h2
      exact ⟨SameW.trans _ _ _ i1 hw, i2.trans (phase1_still hr (hk op (by simp)) h2)⟩

omit [Mul G] [Inv G] [One G] in
/-- The part of the graph after the odometry factors and priors. -/
theorem buildGraph_drop (env : Env G N) {p q : Pcm G T N} (hl : q.lcs = p.lcs) (hm : q.landmarks = p.landmarks)
    (hi : q.ignored = p.ignored) : (buildGraph env q).drop (q.odom.length + q.special.length) =
      (buildGraph env p).drop (p.odom.length + p.special.length) := by
  have key : ∀ p : Pcm G T N, (buildGraph env p).drop (p.odom.length + p.special.length) =
      ((env.iterLC p.lcs).flatMap fun e =>
        if !p.ignored.contains e.1.id1 && !p.ignored.contains e.1.id2 then e.2.cons.map (fun b => some (.btw b)) else []) ++
      (env.iterLM p.landmarks).flatMap (fun e => e.2.cons.map (fun b => some (.btw b))) := by
    intro p
    unfold buildGraph
    rw [List.append_assoc, List.append_assoc, ← List.append_assoc, List.drop_append_of_le_length (by simp),
      List.drop_of_length_le (by simp), List.nil_append]
  rw [key, key, hl, hm, hi]

namespace Props

/-- C57, partial: previous inliers are fixed. Some call optimizes and leaves state `s0` with every registered closure in the
graph; calls that bring no closures follow, the last of which optimizes. This last optimization runs on exactly: all
odometry factors and other non-closure factors supplied so far, those closures whose weight in `s0` is above one half, and
the temporary factors. The closures keep their weights. Missing: states in which a registered closure is not in the graph,
where the claim is false (`C57_false_readmits`, `C57_false_out_of_range`, `C57_false_removal`). -/
theorem C57_reoptimize_partial {cfg : Cfg G T N} {env : Env G N} (he : env.Ok) (hr : cfg.rejection = true)
    (hfp : cfg.fixPrev = true) {h h1 : List (Op G N)} {op0 op : Op G N} {s0 s s' : St G T N} {x : Ret}
    (hm : ∀ o ∈ h ++ [op0], Spec.Managed o) (hk : ∀ o ∈ h1 ++ [op], Spec.Quiet cfg o)
    (r0 : ReachOk cfg env (h ++ [op0]) s0) (ho0 : Spec.Optimizes cfg op0 = true)
    (r : ReachOk cfg env (h ++ [op0] ++ h1) s) (hn : ∀ o ∈ h1, Spec.Optimizes cfg o = false)
    (e : exec cfg env op s = .ok s' x) (ho : Spec.Optimizes cfg op = true) {n : Nat} (n0 : Spec.NumLC cfg env s0 n)
    (hall : s0.nfg.length = (Spec.odomSoFar cfg (h ++ [op0])).length + (Spec.specialSoFar cfg (h ++ [op0])).length + n) :
    let H0 := h ++ [op0]
    let k0 := (Spec.odomSoFar cfg H0).length + (Spec.specialSoFar cfg H0).length
    let H := h ++ [op0] ++ h1 ++ [op]
    let k := (Spec.odomSoFar cfg H).length + (Spec.specialSoFar cfg H).length
    (∃ full res, env.opt ((Spec.odomSoFar cfg H).map Spec.elem ++ (Spec.specialSoFar cfg H).map some ++
      Spec.kept (s0.nfg.drop k0) (s0.gncW.drop k0) ++ s'.tempNfg) full = some res) ∧
    (s0.gncW.drop k0).length = n ∧
    s'.nfg.drop k = s0.nfg.drop k0 ∧ s'.gncW.drop k = s0.gncW.drop k0 := by
  intro H0 k0 H k
  rw [numLC_iff hr] at n0
  have hmH : ∀ o ∈ h ++ [op0] ++ h1 ++ [op], Spec.Managed o := by
    intro o ho
    rw [List.append_assoc] at ho
    rcases List.mem_append.1 ho with ho | ho
    · exact hm o ho
    · exact (hk o ho).1
  obtain ⟨l1, l2, l3⟩ := r0.lists he hr hm
  have hW0 : s0.gncW.length = s0.nfg.length ∧ s0.latest = s0.pcm.totalLc := by
    obtain ⟨sa, y, ra, ea⟩ := r0.snoc_inv
    obtain ⟨sb, o, hb1, hb2⟩ := exec_ok_phase hr ea
    rcases hb2 with ⟨_, hb2⟩ | ⟨hf, _⟩
    · exact ⟨(optimize_weights hr hb2).1, (optimize_weights hr hb2).2.2⟩
    · rw [← phase1_flag hb1, hf] at ho0; cases ho0
  have hlen0 : s0.nfg.length = k0 + n := hall
  obtain ⟨⟨c1, c2, -⟩, c3⟩ := quiet_run hr r0 r (fun o ho => hk o (by simp [ho])) hn
  obtain ⟨s1, o, h2, h3⟩ := exec_ok_phase hr e
  have hflag : o = true := by rw [phase1_flag h2]; exact ho
  subst hflag
  rcases h3 with ⟨_, h3⟩ | ⟨h3, _⟩
  swap
  · cases h3
  have hfr := (optimize_frame cfg env).of_ok h3
  obtain ⟨w1, w2, -⟩ := (phase1_sameW cfg env (hk op (by simp)).1).of_ok h2
  obtain ⟨g1, g2, g3⟩ := phase1_size he hr r hmH h2
  have c4 := c3.trans (phase1_still hr (hk op (by simp)) h2)
  have hkk : s1.pcm.odom.length + s1.pcm.special.length = k := by rw [g2, g3]
  have hkk0 : s0.pcm.odom.length + s0.pcm.special.length = k0 := by rw [l2, l3]
  have hd1 : s1.nfg.drop k = s0.nfg.drop k0 := by
    rw [g1, l1, ← hkk, ← hkk0]
    exact buildGraph_drop env c4.lcs c4.landmarks c4.ignored
  have ht1 : s1.nfg.take k = (Spec.odomSoFar cfg H).map Spec.elem ++ (Spec.specialSoFar cfg H).map some := by
    have := (buildGraph_known env s1.pcm).2
    rw [g1]
    rw [g2, g3] at this
    exact this
  have hlen1 : s1.nfg.length = k + n := by
    have h1 : k ≤ s1.nfg.length := by rw [g1, ← hkk]; exact (buildGraph_known env s1.pcm).1
    have h2 := congrArg List.length hd1
    rw [List.length_drop, List.length_drop, hlen0] at h2
    omega
  have hlat : s1.latest = n := by rw [w2, c2, hW0.2, n0]
  have hgw : s1.gncW = s0.gncW := by rw [w1, c1]
  have htail : s1.gncW.drop (s1.gncW.length - s1.latest) = s0.gncW.drop k0 := by
    rw [hgw, hlat, hW0.1, hlen0, Nat.add_sub_cancel]
  have hwl : (s0.gncW.drop k0).length = n := by rw [List.length_drop, hW0.1, hlen0]; omega
  obtain ⟨full, res, s2, s3, _, hc, ha, hs'⟩ := optimize_ok h3
  have huse : useGncNow cfg s1 = false := by
    unfold useGncNow
    rw [hfp]
    have : (s1.pcm.totalLc == s1.latest) = true := by rw [hlat, c4.totalLc, ← n0]; simp
    rw [this]; simp
  rcases hc with ⟨hc, _⟩ | ⟨_, hc⟩
  · rw [huse] at hc; cases hc
  obtain ⟨g, hg1, hg2, hg3, hg4, rfl⟩ := plainOptimize_ok hc
  obtain ⟨_, hg⟩ := plainGraph_ok hg1
  rcases hg with ⟨hg, _⟩ | ⟨_, _, _, l, hfx, rfl⟩
  · rw [hfp] at hg; cases hg
  rw [hkk, htail, fixedFactors_kept _ _ _ _ (by omega), Nat.add_zero, hd1] at hfx
  refine ⟨⟨full, res, ?_⟩, hwl, ?_, ?_⟩
  · rw [hfr.tempNfg, ← ht1]
    injection hfx with hfx
    rw [hkk, ← hfx] at hg2
    exact hg2
  · rw [hfr.nfg, hd1]
  · have hwv := (applyResult_sameW res).of_ok ha
    rw [hs', if_pos hr]
    show s3.gncW.drop k = _
    rw [hwv.1]
    show (List.replicate (s1.nfg.length - s1.latest) (1 : Rat) ++ s1.gncW.drop (s1.gncW.length - s1.latest)).drop k = _
    rw [htail, hlen1, hlat, Nat.add_sub_cancel]
    rw [List.drop_append_of_le_length (by simp), List.drop_of_length_le (by simp), List.nil_append]

/-- GNC on with previous inliers fixed, both consistency checks on. -/
def gncFix : Cfg Demo.Z Demo.Tp Demo.Ns := Demo.mk (Demo.params.apply (.gnc true false))

/-- Two robots with two odometry steps each, then three closures between them, the last of which contradicts the others. -/
def oneRejected (d : ℤ) : List (Op Demo.Z Demo.Ns) :=
  [.update [Demo.edge (Demo.a 0) (Demo.a 1) 1, Demo.edge (Demo.a 1) (Demo.a 2) 1]
     [Demo.pose (Demo.a 0) 0, Demo.pose (Demo.a 1) 1, Demo.pose (Demo.a 2) 2] true,
   .update [Demo.edge (Demo.b 0) (Demo.b 1) 1, Demo.edge (Demo.b 1) (Demo.b 2) 1]
     [Demo.pose (Demo.b 0) 0, Demo.pose (Demo.b 1) 1, Demo.pose (Demo.b 2) 2] true,
   .update [Demo.edge (Demo.a 0) (Demo.b 0) 0, Demo.edge (Demo.a 1) (Demo.b 1) 0, Demo.edge (Demo.a 2) (Demo.b 2) d] [] true]

/-- An optimizer that fails unless it is given `n` factors; GNC discards the last factor. -/
def needs (n : Nat) : Env Demo.Z Demo.Ns := { dropLast with opt := fun g v => if g.length = n then some v else none }

set_option maxRecDepth 100000 in
/-- The hypotheses of `C57_reoptimize_partial` are met: three consistent closures, of which GNC discards the third; the
forced update then optimizes six factors. -/
example : gncFix.rejection = true ∧ gncFix.fixPrev = true ∧ gncFix.loopCheck = true ∧ (needs 6).Ok ∧
    Spec.Quiet gncFix (.forceUpdate [] [] : Op Demo.Z Demo.Ns) ∧
    ∃ h op0, oneRejected 0 = h ++ [op0] ∧ (∀ o ∈ h ++ [op0], Spec.Managed o) ∧ Spec.Optimizes gncFix op0 = true ∧
    ∃ s0 s' x, ReachOk gncFix (needs 6) (h ++ [op0]) s0 ∧ exec gncFix (needs 6) (.forceUpdate [] []) s0 = .ok s' x ∧
      Spec.NumLC gncFix (needs 6) s0 3 ∧ s0.nfg.length = 7 ∧ (Spec.odomSoFar gncFix (h ++ [op0])).length = 4 ∧
      (Spec.specialSoFar gncFix (h ++ [op0])).length = 0 ∧ s0.gncW.drop 4 = [1, 1, 0] := by
  refine ⟨by decide +kernel, by decide +kernel, by decide +kernel, ⟨fun _ => List.Perm.refl _, fun _ => List.Perm.refl _⟩,
    ⟨trivial, not_false, by intro c; constructor <;> (intro h; cases h), by intro fs vs h; cases h; exact ⟨rfl, rfl⟩⟩,
    (oneRejected 0).take 2, _, rfl, ?_, by decide +kernel, ?_⟩
  · intro o ho
    simp [oneRejected] at ho
    rcases ho with rfl | rfl | rfl <;> trivial
  · obtain ⟨s', r, _⟩ := Demo.runs_reach (cfg := gncFix) (env := needs 6) (ops := oneRejected 0 ++ [.forceUpdate [] []])
      (P := fun _ => true) (by decide +kernel)
    obtain ⟨s0, x, r0, e⟩ := r.snoc_inv
    obtain ⟨s00, r00, h00⟩ := Demo.runs_reach (cfg := gncFix) (env := needs 6) (ops := oneRejected 0)
      (P := fun s => decide (s.pcm.totalLc = 3 ∧ s.nfg.length = 7 ∧ s.gncW.drop 4 = [1, 1, 0])) (by decide +kernel)
    obtain rfl := r00.det r0
    obtain ⟨a, b, c⟩ := of_decide_eq_true h00
    exact ⟨_, s', x, r0, e, (numLC_iff (by decide)).2 a.symm, b, by decide +kernel, by decide +kernel, c⟩

set_option maxRecDepth 100000 in
/-- C57 is false of the code: of three closures the pairwise check rejects one, so six factors remain, and GNC discards
the last of them. The next optimization nevertheless runs on all six factors (with five it would fail): the discarded
closure is readmitted. -/
theorem C57_false_readmits : ∃ s s' x, ReachOk gncFix (needs 6) (oneRejected 50) s ∧ s.nfg.length = 6 ∧
    s.gncW = [1, 1, 1, 1, 1, 0] ∧ s.tempNfg = [] ∧ exec gncFix (needs 6) (.forceUpdate [] []) s = .ok s' x ∧
    s'.nfg = s.nfg := by
  obtain ⟨s, r, h⟩ := Demo.runs_reach (cfg := gncFix) (env := needs 6) (ops := oneRejected 50)
    (P := fun s => decide (s.nfg.length = 6 ∧ s.gncW = [1, 1, 1, 1, 1, 0] ∧ s.tempNfg.length = 0) &&
      match exec gncFix (needs 6) (.forceUpdate [] []) s with
      | .ok s' _ => decide (s'.nfg = s.nfg)
      | _ => false) (by decide +kernel)
  rw [Bool.and_eq_true] at h
  obtain ⟨a, b, c⟩ := of_decide_eq_true h.1
  have h2 := h.2
  cases e : exec gncFix (needs 6) (.forceUpdate [] []) s with
  | ok s' x => rw [e] at h2; exact ⟨s, s', x, r, a, b, List.length_eq_zero_iff.1 c, e, of_decide_eq_true h2⟩
  | throw _ _ => rw [e] at h2; cases h2
  | ub _ => rw [e] at h2; cases h2

set_option maxRecDepth 100000 in
/-- C57 is false of the code: the same closures, all accepted by GNC. The next optimization throws an out-of-range
exception. -/
theorem C57_false_out_of_range : ∃ s s', ReachOk gncFix Demo.env (oneRejected 50) s ∧ s.nfg.length = 6 ∧
    s.gncW = [1, 1, 1, 1, 1, 1] ∧ exec gncFix Demo.env (.forceUpdate [] []) s = .throw s' .outOfRange := by
  obtain ⟨s, r, h⟩ := Demo.runs_reach (cfg := gncFix) (env := Demo.env) (ops := oneRejected 50)
    (P := fun s => decide (s.nfg.length = 6 ∧ s.gncW = [1, 1, 1, 1, 1, 1]) &&
      isRange (exec gncFix Demo.env (.forceUpdate [] []) s)) (by decide +kernel)
  rw [Bool.and_eq_true] at h
  obtain ⟨a, b⟩ := of_decide_eq_true h.1
  obtain ⟨s', e⟩ := of_isRange h.2
  exact ⟨s, s', r, a, b, e⟩

set_option maxRecDepth 100000 in
/-- C57 (and C26 with fixed previous inliers) is false of the code: removing the last closure, which GNC had accepted,
throws an out-of-range exception. The closure is gone from the graph, and `getNumLCInliers()` still counts it. -/
theorem C57_false_removal : ∃ s s', ReachOk gncFix Demo.env Demo.h1 s ∧ Spec.NumInliers gncFix Demo.env s 2 ∧
    exec gncFix Demo.env .removeLast s = .throw s' .outOfRange ∧
    s'.nfg.drop 4 = [Spec.elem (Demo.btw (Demo.a 0) (Demo.a 2) 2)] ∧ Spec.NumInliers gncFix Demo.env s' 2 := by
  obtain ⟨s, r, h⟩ := Demo.runs_reach (cfg := gncFix) (env := Demo.env) (ops := Demo.h1)
    (P := fun s => decide (s.gncNum = 2) &&
      match exec gncFix Demo.env .removeLast s with
      | .throw s' .outOfRange => decide (s'.nfg.drop 4 = [Spec.elem (Demo.btw (Demo.a 0) (Demo.a 2) 2)] ∧ s'.gncNum = 2)
      | _ => false) (by decide +kernel)
  rw [Bool.and_eq_true] at h
  have h2 := h.2
  cases e : exec gncFix Demo.env .removeLast s with
  | ok _ _ => rw [e] at h2; cases h2
  | ub _ => rw [e] at h2; cases h2
  | throw s' x =>
    rw [e] at h2
    cases x <;> first | cases h2 | skip
    obtain ⟨a, b⟩ := of_decide_eq_true h2
    exact ⟨s, s', r, (numInliers_gnc rfl).2 (of_decide_eq_true h.1).symm, e, a, (numInliers_gnc rfl).2 b.symm⟩

end Props
end RPGO
