import Verif.Proofs.GncOnly
import Verif.Props.Safety
/-
C37 weights and known inliers; C38 memory safety of optimizations; C47 GNC on its own.
-/

namespace RPGO.Props
open RPGO
variable {G T N : Type} [Mul G] [Inv G] [One G]

/-! ### C37 -/

/-- C37, first half: after every call that includes an optimization and returns normally there is exactly one weight
per factor of the graph and one per temporary factor. -/
theorem C37_one_weight_per_factor {cfg : Cfg G T N} {env : Env G N} (hr : cfg.rejection = true) {op : Op G N}
    (ho : Spec.Optimizes cfg op = true) {s s' : St G T N} {x : Ret} (e : exec cfg env op s = .ok s' x) :
    s'.gncW.length = s'.nfg.length ∧ s'.gncTW.length = s'.tempNfg.length := by
  obtain ⟨s1, o, h1, h2⟩ := exec_ok_phase hr e
  rcases h2 with ⟨_, h2⟩ | ⟨hf, _⟩
  · exact ⟨(optimize_weights hr h2).1, (optimize_weights hr h2).2.1⟩
  · rw [← phase1_flag h1, hf] at ho; cases ho

/-- C37, second half: if the call uses GNC (GNC is on and, if previous inliers are fixed, closures were registered
since the last optimization), then GNC was run on the graph followed by the temporary factors, the declared known
inliers are the first positions, these hold exactly the odometry factors and then the other non-closure factors, and
the weights it returned were stored in this order. -/
theorem C37_known_inliers {cfg : Cfg G T N} {env : Env G N} (he : env.Ok) (hz : env.Sized) (hr : cfg.rejection = true)
    (hg : cfg.useGnc = true) {h : List (Op G N)} {op : Op G N} (hm : ∀ o ∈ h ++ [op], Spec.Managed o) {s s' : St G T N}
    (r : ReachOk cfg env h s) (ho : Spec.Optimizes cfg op = true) {x : Ret} (e : exec cfg env op s = .ok s' x)
    (hfix : cfg.fixPrev = true → s.latest ≠ s'.pcm.totalLc) :
    ∃ full init res w, env.gnc (s'.nfg ++ s'.tempNfg) full
        (List.range ((Spec.odomSoFar cfg (h ++ [op])).length + (Spec.specialSoFar cfg (h ++ [op])).length)) init = some (res, w) ∧
      s'.nfg.take ((Spec.odomSoFar cfg (h ++ [op])).length + (Spec.specialSoFar cfg (h ++ [op])).length) =
        (Spec.odomSoFar cfg (h ++ [op])).map Spec.elem ++ (Spec.specialSoFar cfg (h ++ [op])).map some ∧
      s'.gncW ++ s'.gncTW = w ∧ s'.gncW.length = s'.nfg.length := by
  obtain ⟨s1, o, h1, h2⟩ := exec_ok_phase hr e
  rcases h2 with ⟨_, h2⟩ | ⟨hf, _⟩
  · obtain ⟨g1, g2, g3⟩ := phase1_size he hr r hm h1
    obtain ⟨_, hlat, -⟩ := (phase1_sameW cfg env (hm op (by simp))).of_ok h1
    have hfr := (optimize_frame cfg env).of_ok h2
    have hlen := (optimize_weights hr h2).1
    obtain ⟨full, res, s2, s3, _, hc, ha, hs'⟩ := optimize_ok h2
    have huse : useGncNow cfg s1 = true := by
      unfold useGncNow
      rw [hg, hr]
      cases hfx : cfg.fixPrev with
      | false => rfl
      | true =>
        have := hfix hfx
        rw [hfr.pcm, ← hlat] at this
        simp only [Bool.true_and, Bool.not_eq_true', beq_eq_false_iff_ne]
        exact fun h => this h.symm
    rcases hc with ⟨_, hc⟩ | ⟨hc, _⟩
    · obtain ⟨w, hw, l1, l2, rfl⟩ := gncOptimize_ok hc
      refine ⟨full, gncInit cfg s1, res, w, ?_, ?_, ?_, hlen⟩
      · rw [hfr.nfg, hfr.tempNfg, ← g2, ← g3]
        exact hw
      · rw [hfr.nfg, g1, ← g2, ← g3]
        exact (buildGraph_known env s1.pcm).2
      · have hsz := hz _ _ _ _ _ _ hw
        rw [List.length_append] at hsz
        have hwv := (applyResult_sameW res).of_ok ha
        have htw := (applyResult_sameTW res).of_ok ha
        rw [hs', if_pos hr]
        show s3.gncW ++ s3.gncTW = w
        rw [hwv.1, htw]
        show w.take s1.nfg.length ++ w.drop (w.length - s1.tempNfg.length) = w
        rw [show w.length - s1.tempNfg.length = s1.nfg.length by omega, List.take_append_drop]
    · rw [huse] at hc; cases hc
  · rw [← phase1_flag h1, hf] at ho; cases ho

/-- The demo solver with GNC. -/
def gncOn : Cfg Demo.Z Demo.Tp Demo.Ns := Demo.mk (Demo.params.apply (.gnc false false))

theorem sized_demo : Demo.env.Sized := by
  intro g v known init r w h
  injection h with h
  injection h with _ h
  subst h
  simp

set_option maxRecDepth 100000 in
/-- The hypotheses of `C37_one_weight_per_factor` and `C37_known_inliers` are met: a prior, three odometry factors and
two closures, GNC on, a forced update. -/
example : gncOn.rejection = true ∧ gncOn.useGnc = true ∧ gncOn.fixPrev = false ∧
    Spec.Optimizes gncOn (.forceUpdate [] []) = true ∧ (∀ o ∈ Demo.h1 ++ [.forceUpdate [] []], Spec.Managed o) ∧
    ∃ s s' x, ReachOk gncOn Demo.env Demo.h1 s ∧ exec gncOn Demo.env (.forceUpdate [] []) s = .ok s' x ∧
      s'.nfg.length = 6 ∧ s'.gncW.length = 6 := by
  refine ⟨by decide +kernel, by decide +kernel, by decide +kernel, rfl, ?_, ?_⟩
  · intro o ho
    simp [Demo.h1] at ho
    rcases ho with rfl | rfl | rfl | rfl | rfl <;> trivial
  · obtain ⟨s, r, h⟩ := Demo.runs_reach (cfg := gncOn) (env := Demo.env) (ops := Demo.h1 ++ [.forceUpdate [] []])
      (P := fun s => decide (s.nfg.length = 6 ∧ s.gncW.length = 6)) (by decide +kernel)
    obtain ⟨s0, x, r0, e⟩ := r.snoc_inv
    exact ⟨s0, s, x, r0, e, of_decide_eq_true h⟩

/-! ### C38 -/

/-- C38, partial. After any history of normal returns, if every optimization runs GNC or if, whenever two calls optimize, at
most as many closure candidates and landmark sightings were supplied up to the earlier call as there are odometry factors and
priors after it and after the later call, no managed call runs an undefined operation. In addition it throws no out-of-range exception unless previous inliers are fixed or the call removes closures. The
measurements have Gaussian noise and landmarks are observed from poses; GNC returns one weight per factor; when the call
supplies factors the pairs still have their closures (as in C27); when it removes closures the pairwise check is on.
Missing: histories without GNC and with more closures than that, where the claim is false (`C38_false_many_closures`,
`C38_false_ignore`). -/
theorem C38_optimize_partial {cfg : Cfg G T N} {env : Env G N} (he : env.Ok) (hz : env.Sized) (hr : cfg.rejection = true)
    {h : List (Op G N)} {op : Op G N} {s : St G T N} (r : ReachOk cfg env h s) (hm : ∀ o ∈ h ++ [op], Spec.Managed o)
    (hmod : Spec.Covered cfg (h ++ [op])) (hf : ∀ o ∈ h ++ [op], ∀ b ∈ Spec.opBtws o, Spec.Fair cfg b)
    (hc : Spec.batch op ≠ none → (cfg.loopCheck = false ∧ cfg.incremental = false) ∨ (∀ o ∈ h, ¬ Spec.Removes o) ∨
      ∀ o ∈ h, ∀ b ∈ Spec.opCands cfg o, 2 ≤ (Spec.registered s ⟨chr b.k1, chr b.k2⟩).length)
    (hrem : Spec.Removes op → cfg.loopCheck = true) :
    (∀ u, exec cfg env op s ≠ .ub u) ∧
    (cfg.fixPrev = false → ¬ Spec.Removes op → ∀ s', exec cfg env op s ≠ .throw s' .outOfRange) := by
  have hopt : ∀ {b : Bool}, (b = true → cfg.fixPrev = false) → ∀ s1 x, phase1 cfg env op s = .ok s1 (x, true) →
      Mild b (optimize cfg env s1) := by
    intro b hb s1 x e1
    obtain ⟨g1, -, -⟩ := phase1_size he hr r hm e1
    refine optimize_mild hr hz (fun hu => (r.enough he hr hm hmod e1 hu).1) (fun hu => (r.enough he hr hm hmod e1 hu).2)
      (by rw [g1]; exact (buildGraph_known env s1.pcm).1) ?_
    · intro _ hfp hb'
      rw [hb hb'] at hfp; cases hfp
  constructor
  · intro u
    by_cases hn : Spec.Removes op
    · refine (exec_mild (b := false) hr ?_ (hopt (by simp))).noUB u
      refine phase1_removes_mild hn fun id m hg => ?_
      have hsh := r.reach.shape hr (hrem hn) id
      rw [lcOf_of_get? hg] at hsh
      cases hx : removeLastMeas m with
      | ok _ _ => trivial
      | throw _ _ => intro h; cases h
      | ub u => exact removeLastMeas_noUB hsh u hx
    · refine (exec_mild (b := false) hr (Mild.of_clean ?_) (hopt (by simp))).noUB u
      exact phase1_clean hr (hm op (by simp)) hn
        (fun hb => r.reach.tidy hr (fun o ho => hf o (by simp [ho])) (hc hb)) (hf op (by simp))
  · intro hfp hn s' e
    have := (exec_mild (b := true) hr (Mild.of_clean (phase1_clean hr (hm op (by simp)) hn
        (fun hb => r.reach.tidy hr (fun o ho => hf o (by simp [ho])) (hc hb)) (hf op (by simp)))) (hopt fun _ => hfp)).clean
    rw [e] at this
    exact this rfl

/-- Is the outcome an Eigen access out of range? -/
def isEigen {σ α : Type} : Out σ α → Bool
  | .ub .eigen => true
  | _ => false

theorem of_isEigen {σ α : Type} {o : Out σ α} (h : isEigen o = true) : o = .ub .eigen := by
  cases o with
  | ok _ _ => cases h
  | throw _ _ => cases h
  | ub u => cases u <;> first | rfl | cases h

/-- Two robots with one odometry step each, then five closures between them in one batch, `d` apart. -/
def fiveClosures (d : ℤ) : List (Op Demo.Z Demo.Ns) :=
  [.update [Demo.edge (Demo.a 0) (Demo.a 1) 1] [Demo.pose (Demo.a 0) 0, Demo.pose (Demo.a 1) 1] true,
   .update [Demo.edge (Demo.b 0) (Demo.b 1) 1] [Demo.pose (Demo.b 0) 0, Demo.pose (Demo.b 1) 1] true,
   .update [Demo.edge (Demo.a 0) (Demo.b 0) 0, Demo.edge (Demo.a 0) (Demo.b 0) d, Demo.edge (Demo.a 0) (Demo.b 0) (2 * d),
     Demo.edge (Demo.a 0) (Demo.b 0) (3 * d), Demo.edge (Demo.a 0) (Demo.b 0) (4 * d)] [] true]

set_option maxRecDepth 100000 in
/-- C38 is false of the code: after five closures of which one is selected, the graph has three factors; the next
optimization, without GNC, reads five trailing entries of a weight vector of length three. -/
theorem C38_false_many_closures : ∃ s, ReachOk Demo.cfg Demo.env (fiveClosures 50) s ∧ s.nfg.length = 3 ∧
    s.gncW.length = 3 ∧ Spec.NumLC Demo.cfg Demo.env s 5 ∧
    exec Demo.cfg Demo.env (.forceUpdate [] []) s = .ub .eigen := by
  obtain ⟨s, r, h⟩ := Demo.runs_reach (cfg := Demo.cfg) (env := Demo.env) (ops := fiveClosures 50)
    (P := fun s => decide (s.nfg.length = 3 ∧ s.gncW.length = 3 ∧ s.pcm.totalLc = 5) &&
      isEigen (exec Demo.cfg Demo.env (.forceUpdate [] []) s)) (by decide +kernel)
  rw [Bool.and_eq_true] at h
  obtain ⟨h1, h2, h3⟩ := of_decide_eq_true h.1
  exact ⟨s, r, h1, h2, (numLC_iff (by decide)).2 h3.symm, of_isEigen h.2⟩

set_option maxRecDepth 100000 in
/-- C38 is false of the code: five closures that agree are all selected and the graph has seven factors; ignoring one
of the two robots leaves two factors, and the optimization that follows addresses the last five of them. -/
theorem C38_false_ignore : ∃ s, ReachOk Demo.cfg Demo.env (fiveClosures 0) s ∧ s.nfg.length = 7 ∧
    exec Demo.cfg Demo.env (.ignore 98) s = .ub .eigen := by
  obtain ⟨s, r, h⟩ := Demo.runs_reach (cfg := Demo.cfg) (env := Demo.env) (ops := fiveClosures 0)
    (P := fun s => decide (s.nfg.length = 7) &&
      isEigen (exec Demo.cfg Demo.env (.ignore 98) s)) (by decide +kernel)
  rw [Bool.and_eq_true] at h
  exact ⟨s, r, of_decide_eq_true h.1, of_isEigen h.2⟩

/-- It is enough to look at the initial segments one by one. -/
theorem modest_of {cfg : Cfg G T N} {h : List (Op G N)}
    (H : ∀ h1 ∈ h.inits, Spec.supplied cfg h1 ≤ (Spec.odomSoFar cfg h1).length + (Spec.specialSoFar cfg h1).length) :
    Spec.Modest cfg h := by
  intro h1 o1 h2 o2 hp _ _
  have a1 := H (h1 ++ [o1]) ((List.mem_inits _ _).2 ((by rw [List.append_assoc]; exact List.prefix_append _ _ : h1 ++ [o1] <+: h1 ++ [o1] ++ h2 ++ [o2]).trans hp))
  have a2 := H (h1 ++ [o1] ++ h2 ++ [o2]) ((List.mem_inits _ _).2 hp)
  refine ⟨a1, Nat.le_trans ?_ a2⟩
  simp [Spec.supplied]

set_option maxRecDepth 100000 in
/-- The hypotheses of `C38_optimize_partial` are met by a call that ignores a robot after two closures were registered. -/
example : Spec.Modest Demo.cfg (Demo.h1 ++ [.ignore 97]) ∧
    (∀ o ∈ Demo.h1 ++ [.ignore 97], Spec.Managed o ∧ ¬ Spec.Removes o ∧ ∀ b ∈ Spec.opBtws o, Spec.Fair Demo.cfg b) ∧
    ∃ s, ReachOk Demo.cfg Demo.env Demo.h1 s ∧ s.gncW.length = 6 ∧ s.latest = 2 := by
  refine ⟨modest_of (by decide +kernel), ?_, ?_⟩
  · intro o ho
    simp [Demo.h1] at ho
    rcases ho with rfl | rfl | rfl | rfl | rfl <;>
      exact ⟨trivial, not_false, by intro b hb; exact ⟨by revert b; decide +kernel, by revert b; decide +kernel⟩⟩
  · obtain ⟨s, r, h⟩ := Demo.runs_reach (cfg := Demo.cfg) (env := Demo.env) (ops := Demo.h1)
      (P := fun s => decide (s.gncW.length = 6 ∧ s.latest = 2)) (by decide +kernel)
    exact ⟨s, r, of_decide_eq_true h⟩

/-! ### C47 -/

/-- C47, safety: with the pairwise check disabled (batch selection, no landmark prefixes), over any history without
removals and ignored prefixes, whatever the other parameters (GNC on or off, previous inliers fixed or not), a further
such call runs no undefined operation and throws no out-of-range exception. Measurements have Gaussian noise, and GNC
returns one weight per factor. -/
theorem C47_safe {cfg : Cfg G T N} {env : Env G N} (he : env.Ok) (hz : env.Sized) (hr : cfg.rejection = true)
    (hl : cfg.loopCheck = false) (hi : cfg.incremental = false) (hs : cfg.special = []) {h : List (Op G N)} {op : Op G N}
    {s : St G T N} (r : ReachOk cfg env h s) (hk : ∀ o ∈ h ++ [op], Spec.KeepsAll o)
    (hf : ∀ o ∈ h ++ [op], ∀ b ∈ Spec.opBtws o, b.noise.isSome) :
    (∀ u, exec cfg env op s ≠ .ub u) ∧ ∀ s', exec cfg env op s ≠ .throw s' .outOfRange := by
  have hfair : ∀ o ∈ h ++ [op], ∀ b ∈ Spec.opBtws o, Spec.Fair cfg b := fun o ho b hb =>
    ⟨hf o ho b hb, fun hlm => by rw [isLandmark_nil hs] at hlm; cases hlm⟩
  have hkh : ∀ o ∈ h, Spec.KeepsAll o := fun o ho => hk o (by simp [ho])
  have hop := hk op (by simp)
  have key : Clean (exec cfg env op s) := by
    refine (exec_mild (b := true) hr (Mild.of_clean (phase1_clean hr hop.1 hop.2.1
      (fun _ => r.reach.tidy hr (fun o ho => hfair o (by simp [ho])) (Or.inl ⟨hl, hi⟩)) (hfair op (by simp)))) ?_).clean
    intro s1 x e1
    obtain ⟨w1, w2, -⟩ := (phase1_sameW cfg env hop.1).of_ok e1
    obtain ⟨g1, _, _⟩ := phase1_size he hr r (fun o ho => (hk o ho).1) e1
    obtain ⟨hwh, hle, _⟩ := phase1_whole hr hl hi hs hop e1 (r.whole hr hl hi hs hkh)
    obtain ⟨q1, q2⟩ := hwh.graph he
    have hlen : s1.nfg.length = s1.pcm.odom.length + s1.pcm.special.length + s1.pcm.totalLc := by
      rw [g1, q1]; simp [q2]; omega
    have hwt := r.weightedAll he hr hl hi hs hkh
    have hc := hwt.counted
    have hw := hwt.weights
    refine optimize_mild hr hz (fun _ => by rw [w1, w2]; exact hw) (fun _ => by rw [w2]; omega) (by omega) ?_
    intro _ _ _
    rw [fixedFactors_kept]
    · simp
    · rw [List.length_drop, w1, w2]
      omega
  exact ⟨fun u => key.noUB u, fun s' e => by rw [e] at key; exact key rfl⟩

/-- C47, re-optimization: previous inliers are fixed, GNC and the rest as above. Some call optimizes and leaves state
`s0`; calls that do not optimize follow; then a call optimizes and the number of registered closures is still the same.
This last optimization runs on exactly: all odometry factors and other non-closure factors supplied so far, those closures
of the graph in `s0` whose weight in `s0` is above one half, and the temporary factors. The closures keep their weights. -/
theorem C47_reoptimize {cfg : Cfg G T N} {env : Env G N} (he : env.Ok) (hr : cfg.rejection = true)
    (hfp : cfg.fixPrev = true) (hl : cfg.loopCheck = false) (hi : cfg.incremental = false) (hs : cfg.special = [])
    {h h1 : List (Op G N)} {op0 op : Op G N} {s0 s s' : St G T N} {x : Ret}
    (hk : ∀ o ∈ h ++ [op0] ++ h1 ++ [op], Spec.KeepsAll o)
    (r0 : ReachOk cfg env (h ++ [op0]) s0) (ho0 : Spec.Optimizes cfg op0 = true)
    (r : ReachOk cfg env (h ++ [op0] ++ h1) s) (hn : ∀ o ∈ h1, Spec.Optimizes cfg o = false)
    (e : exec cfg env op s = .ok s' x) (ho : Spec.Optimizes cfg op = true)
    {n : Nat} (n0 : Spec.NumLC cfg env s0 n) (n1 : Spec.NumLC cfg env s' n) :
    let H0 := h ++ [op0]
    let k0 := (Spec.odomSoFar cfg H0).length + (Spec.specialSoFar cfg H0).length
    let H := h ++ [op0] ++ h1 ++ [op]
    let k := (Spec.odomSoFar cfg H).length + (Spec.specialSoFar cfg H).length
    (∃ full res, env.opt ((Spec.odomSoFar cfg H).map Spec.elem ++ (Spec.specialSoFar cfg H).map some ++
      Spec.kept (s0.nfg.drop k0) (s0.gncW.drop k0) ++ s'.tempNfg) full = some res) ∧
    (s0.nfg.drop k0).length = n ∧ (s0.gncW.drop k0).length = n ∧
    s'.nfg.drop k = s0.nfg.drop k0 ∧ s'.gncW.drop k = s0.gncW.drop k0 := by
  intro H0 k0 H k
  rw [numLC_iff hr] at n0 n1
  have hk0 : ∀ o ∈ H0, Spec.KeepsAll o := fun o ho => hk o (by simp [H0] at ho ⊢; tauto)
  have hks : ∀ o ∈ h ++ [op0] ++ h1, Spec.KeepsAll o := fun o ho => hk o (by simp at ho ⊢; tauto)
  have hop := hk op (by simp)
  -- the graph and the weights in `s0`
  have wh0 := r0.whole hr hl hi hs hk0
  obtain ⟨q1, q2⟩ := wh0.graph he
  obtain ⟨l1, l2, l3⟩ := r0.lists he hr fun o ho => (hk0 o ho).1
  have hd0 : s0.nfg.drop k0 = closureFactors env s0.pcm.lcs := by
    rw [l1, q1, l2, l3]
    rw [List.drop_append_of_le_length (by simp [k0, H0]), List.drop_of_length_le (by simp [k0, H0]), List.nil_append]
  have hW0 : s0.gncW.length = s0.nfg.length ∧ s0.latest = s0.pcm.totalLc := by
    obtain ⟨sa, y, ra, ea⟩ := r0.snoc_inv
    obtain ⟨sb, o, hb1, hb2⟩ := exec_ok_phase hr ea
    rcases hb2 with ⟨_, hb2⟩ | ⟨hf, _⟩
    · exact ⟨(optimize_weights hr hb2).1, (optimize_weights hr hb2).2.2⟩
    · rw [← phase1_flag hb1, hf] at ho0; cases ho0
  have hlen0 : s0.nfg.length = k0 + n := by
    rw [l1, q1, n0, ← q2, l2, l3]; simp [k0, H0]; omega
  -- quiet calls
  obtain ⟨⟨c1, c2, -⟩, c3, c4⟩ := quiet_calls hr hl hi hs r0 r hks hn
  -- the last call
  obtain ⟨s1, o, h2, h3⟩ := exec_ok_phase hr e
  have hflag : o = true := by rw [phase1_flag h2]; exact ho
  subst hflag
  rcases h3 with ⟨_, h3⟩ | ⟨h3, _⟩
  swap
  · cases h3
  have hfr := (optimize_frame cfg env).of_ok h3
  obtain ⟨w1, w2, -⟩ := (phase1_sameW cfg env hop.1).of_ok h2
  obtain ⟨g1, g2, g3⟩ := phase1_size he hr r (fun o ho => (hk o ho).1) h2
  obtain ⟨wh1, m1, m2⟩ := phase1_whole hr hl hi hs hop h2 (r.whole hr hl hi hs hks)
  have hcount : s1.pcm.totalLc = s0.pcm.totalLc := by rw [← n0, n1, hfr.pcm]
  have hlcs : s1.pcm.lcs = s0.pcm.lcs := by rw [m2 (by omega), c4 (by omega)]
  obtain ⟨p1, p2⟩ := wh1.graph he
  have hd1 : s1.nfg.drop k = closureFactors env s0.pcm.lcs := by
    rw [g1, p1, g2, g3, hlcs]
    rw [List.drop_append_of_le_length (by simp [k, H]), List.drop_of_length_le (by simp [k, H]), List.nil_append]
  have ht1 : s1.nfg.take k = (Spec.odomSoFar cfg H).map Spec.elem ++ (Spec.specialSoFar cfg H).map some := by
    have := (buildGraph_known env s1.pcm).2
    rw [g1]
    rw [g2, g3] at this
    exact this
  have hlen1 : s1.nfg.length = k + n := by
    have : s1.nfg.length = s1.pcm.odom.length + s1.pcm.special.length + s1.pcm.totalLc := by
      rw [g1, p1]; simp [p2]; omega
    rw [this, g2, g3, hcount, ← n0]
  have hlat : s1.latest = n := by rw [w2, c2, hW0.2, n0]
  have hgw : s1.gncW = s0.gncW := by rw [w1, c1]
  have htail : s1.gncW.drop (s1.gncW.length - s1.latest) = s0.gncW.drop k0 := by
    rw [hgw, hlat, hW0.1, hlen0, Nat.add_sub_cancel]
  have hwl : (s0.gncW.drop k0).length = n := by rw [List.length_drop, hW0.1, hlen0]; omega
  obtain ⟨full, res, s2, s3, _, hc, ha, hs'⟩ := optimize_ok h3
  have huse : useGncNow cfg s1 = false := by
    unfold useGncNow
    rw [hfp]
    have : (s1.pcm.totalLc == s1.latest) = true := by rw [hlat, hcount, ← n0]; simp
    rw [this]; simp
  rcases hc with ⟨hc, _⟩ | ⟨_, hc⟩
  · rw [huse] at hc; cases hc
  obtain ⟨g, hg1, hg2, hg3, hg4, rfl⟩ := plainOptimize_ok hc
  obtain ⟨_, hg⟩ := plainGraph_ok hg1
  rcases hg with ⟨hg, _⟩ | ⟨_, _, _, l, hfx, rfl⟩
  · rw [hfp] at hg; cases hg
  have hkk : s1.pcm.odom.length + s1.pcm.special.length = k := by rw [g2, g3]
  rw [hkk, htail, fixedFactors_kept _ _ _ _ (by omega), Nat.add_zero, hd1, ← hd0] at hfx
  refine ⟨⟨full, res, ?_⟩, ?_, hwl, ?_, ?_⟩
  · rw [hfr.tempNfg, ← ht1]
    injection hfx with hfx
    rw [hkk, ← hfx] at hg2
    exact hg2
  · rw [List.length_drop, hlen0]; omega
  · rw [hfr.nfg, hd1, hd0]
  · have hwv := (applyResult_sameW res).of_ok ha
    rw [hs', if_pos hr]
    show s3.gncW.drop k = _
    rw [hwv.1]
    show (List.replicate (s1.nfg.length - s1.latest) (1 : Rat) ++ s1.gncW.drop (s1.gncW.length - s1.latest)).drop k = _
    rw [htail, hlen1, hlat, Nat.add_sub_cancel]
    rw [List.drop_append_of_le_length (by simp), List.drop_of_length_le (by simp), List.nil_append]

/-- Both checks disabled, GNC on, previous inliers fixed. -/
def gncOnly : Cfg Demo.Z Demo.Tp Demo.Ns :=
  Demo.mk ((Params.default.apply (.simple3D' (-1) (-1) (-1) (-1) .quiet)).apply (.gnc true false))

/-- GNC that gives the last factor weight zero. -/
def dropLast : Env Demo.Z Demo.Ns :=
  { Demo.env with gnc := fun g v _ _ => some (v, (List.range g.length).map fun i => if i + 1 = g.length then 0 else 1) }

theorem sized_dropLast : dropLast.Sized := by
  intro g v known init r w h
  injection h with h
  injection h with _ h
  subst h
  simp

set_option maxRecDepth 100000 in
/-- The hypotheses of `C47_safe` and `C47_reoptimize` are met: two closures that contradict each other are optimized,
GNC discards the second one, an update without optimization adds odometry, and a forced update follows. One of the two
closures is kept. -/
example : gncOnly.rejection = true ∧ gncOnly.fixPrev = true ∧ gncOnly.loopCheck = false ∧ gncOnly.incremental = false ∧
    gncOnly.special = [] ∧
    let h1 : List (Op Demo.Z Demo.Ns) := [.update [Demo.edge (Demo.a 3) (Demo.a 4) 1] [Demo.pose (Demo.a 4) 4] true]
    (∀ o ∈ contradict ++ h1 ++ [.forceUpdate [] []], Spec.KeepsAll o ∧ ∀ b ∈ Spec.opBtws o, b.noise.isSome) ∧
    (∀ o ∈ h1, Spec.Optimizes gncOnly o = false) ∧ Spec.Optimizes gncOnly (.forceUpdate [] []) = true ∧
    (∃ op0, contradict = Demo.h1.take 3 ++ [op0] ∧ Spec.Optimizes gncOnly op0 = true) ∧
    ∃ s0 s s' x, ReachOk gncOnly dropLast contradict s0 ∧ ReachOk gncOnly dropLast (contradict ++ h1) s ∧
      exec gncOnly dropLast (.forceUpdate [] []) s = .ok s' x ∧ Spec.NumLC gncOnly dropLast s0 2 ∧
      Spec.NumLC gncOnly dropLast s' 2 ∧
      Spec.kept (s0.nfg.drop 4) (s0.gncW.drop 4) = [Spec.elem (Demo.btw (Demo.a 0) (Demo.a 2) 2)] := by
  refine ⟨by decide +kernel, by decide +kernel, by decide +kernel, by decide +kernel, rfl, ?_⟩
  intro h1
  refine ⟨?_, ?_, rfl, ⟨_, rfl, by decide +kernel⟩, ?_⟩
  · intro o ho
    simp [contradict, h1, Demo.h1] at ho
    rcases ho with rfl | rfl | rfl | rfl | rfl | rfl <;>
      exact ⟨⟨trivial, not_false, by intro c h; cases h⟩, by decide +kernel⟩
  · intro o ho
    simp [h1] at ho
    subst ho
    decide +kernel
  · obtain ⟨s', r, h⟩ := Demo.runs_reach (cfg := gncOnly) (env := dropLast) (ops := contradict ++ h1 ++ [.forceUpdate [] []])
      (P := fun s => decide (s.pcm.totalLc = 2)) (by decide +kernel)
    obtain ⟨s, x, r1, e⟩ := r.snoc_inv
    obtain ⟨s0, y, r0, e0⟩ := r1.snoc_inv
    obtain ⟨s00, r00, h00⟩ := Demo.runs_reach (cfg := gncOnly) (env := dropLast) (ops := contradict)
      (P := fun s => decide (s.pcm.totalLc = 2 ∧
        Spec.kept (s.nfg.drop 4) (s.gncW.drop 4) = [Spec.elem (Demo.btw (Demo.a 0) (Demo.a 2) 2)])) (by decide +kernel)
    have := of_decide_eq_true h00
    exact ⟨s00, s, s', x, r00, r1, e, (numLC_iff (by decide)).2 this.1.symm,
      (numLC_iff (by decide)).2 (of_decide_eq_true h).symm, this.2⟩

end RPGO.Props
