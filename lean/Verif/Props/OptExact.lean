import Verif.Props.Optimize
import Verif.Props.Progress
import Verif.Proofs.GncOnly
/-
C38: exactly when an optimization without GNC runs an undefined operation.
-/

namespace RPGO.Spec
variable {G T N : Type}

/-- `op` is the call `op'` followed by an optimization. -/
inductive Then (cfg : Cfg G T N) : Op G N → Op G N → Prop where
  | update (fs : Graph G N) (vs : Vals G) (h : specials fs ≠ [] ∨ cands cfg vs fs ≠ []) :
      Then cfg (.update fs vs true) (.update fs vs false)
  | force (fs : Graph G N) (vs : Vals G) : Then cfg (.forceUpdate fs vs) (.update fs vs false)
  | priors (c : Chr) : Then cfg (.removePriors c true) (.removePriors c false)

end RPGO.Spec

namespace RPGO
variable {G T N : Type} [Mul G] [Inv G] [One G]

/-- Without GNC and without fixed inliers, optimizers that return: undefined exactly if the weight vector or the graph is
shorter than the number of closures at the last optimization. -/
theorem plain_ub {cfg : Cfg G T N} {env : Env G N} {s : St G T N} (hr : cfg.rejection = true) (hg : cfg.useGnc = false)
    (hf : cfg.fixPrev = false) (hw : env.Works) (hv : s.values.Sorted) (ht : s.tempValues = [])
    (hk : s.pcm.odom.length + s.pcm.special.length ≤ s.nfg.length) :
    (s.latest ≤ s.gncW.length ∧ s.latest ≤ s.nfg.length ∧ ∃ s', optimize cfg env s = .ok s' ()) ∨
    ((s.gncW.length < s.latest ∨ s.nfg.length < s.latest) ∧ optimize cfg env s = .ub .eigen) := by
  by_cases h : s.latest ≤ s.gncW.length ∧ s.latest ≤ s.nfg.length
  · obtain ⟨s', e, -⟩ := optimize_total hr (fun _ => plainGraph_off hf s) hw hv (fun _ => h.1) (fun _ => h.2) hk ht
    exact Or.inl ⟨h.1, h.2, s', e⟩
  · refine Or.inr ⟨by omega, ?_⟩
    unfold optimize
    simp only [M.bind_eq]
    rw [M.bind_ok (M.get_apply _)]
    have hm : mergeVals s.values s.tempValues = some s.values := by rw [ht]; rfl
    have hu : useGncNow cfg s = false := by unfold useGncNow; rw [hg]; rfl
    rw [hm, hu]
    obtain ⟨res, ho, -⟩ := hw.opt (s.nfg ++ s.tempNfg) s.values hv
    have hp : plainGraph cfg s = .ok s (s.nfg ++ s.tempNfg) := by
      unfold plainGraph
      rw [hf]
      rfl
    have : plainOptimize cfg env s.values s = .ub .eigen := by
      unfold plainOptimize
      simp only [M.bind_eq]
      rw [M.bind_ok hp, ho]
      simp only
      rw [M.bind_ok (M.get_apply _)]
      by_cases h1 : s.gncW.length < s.latest
      · rw [if_pos h1]; rfl
      · rw [if_neg h1, if_pos (by omega)]; rfl
    show M.bind (plainOptimize cfg env s.values) _ s = _
    unfold M.bind
    rw [this]

/-- Calls that do not optimize leave the weights as the last optimization left them. -/
theorem weights_kept {cfg : Cfg G T N} {env : Env G N} (hr : cfg.rejection = true) {h1 : List (Op G N)} {s1 : St G T N}
    (r1 : ReachOk cfg env h1 s1) : ∀ (h2 : List (Op G N)) {s : St G T N}, ReachOk cfg env (h1 ++ h2) s →
      (∀ o ∈ h2, Spec.Managed o ∧ Spec.Optimizes cfg o = false) → SameW s1 s := by
  intro h2
  induction h2 using List.reverseRecOn with
  | nil =>
    intro s r _
    rw [List.append_nil] at r
    rw [r.det r1]
    exact SameW.refl _
  | append_singleton h2 op ih =>
    intro s r hn
    rw [← List.append_assoc] at r
    obtain ⟨s0, x, r0, e⟩ := r.snoc_inv
    obtain ⟨s2, o, e1, e2⟩ := exec_ok_phase hr e
    obtain ⟨hm, ho⟩ := hn op (by simp)
    have hfl := phase1_flag e1
    rcases e2 with ⟨h, -⟩ | ⟨-, rfl⟩
    · rw [hfl, ho] at h; cases h
    · exact (ih r0 fun o ho => hn o (by simp [ho])).trans _ _ _ ((phase1_sameW cfg env hm).of_ok e1)

/-- The first phase of a call that optimizes is the call without optimization. -/
theorem then_phase {cfg : Cfg G T N} {env : Env G N} (hr : cfg.rejection = true) {op op' : Op G N} (ht : Spec.Then cfg op op')
    {s s2 : St G T N} {x : Ret} (e : exec cfg env op' s = .ok s2 x) :
    ∃ y, phase1 cfg env op s = .ok s2 (y, true) := by
  obtain ⟨s3, o, e1, e2⟩ := exec_ok_phase hr e
  have hfl := phase1_flag e1
  have : s3 = s2 := by
    cases ht <;> (rcases e2 with ⟨h, -⟩ | ⟨-, rfl⟩ <;> first | rfl | (rw [hfl] at h; cases h))
  subst this
  cases ht with
  | update fs vs h =>
    obtain ⟨s2, d, h1, h2⟩ := M.bind_eq_ok.1 (show (removeOutliers cfg env fs vs).ret (fun d => (Ret.unit, d && false)) s = _ from e1)
    obtain rfl : s2 = s3 := by cases h2; rfl
    have : phase1 cfg env (.update fs vs true) s = .ok s2 (.unit, d && true) := by
      show (removeOutliers cfg env fs vs).ret _ s = _
      unfold M.ret
      rw [M.bind_ok h1]; rfl
    have hf := phase1_flag this
    refine ⟨.unit, ?_⟩
    rw [this, hf]
    have : Spec.Optimizes cfg (.update fs vs true) = true := by
      unfold Spec.Optimizes
      rcases h with h | h <;> simp [h]
    rw [this]
  | force fs vs =>
    obtain ⟨s2, d, h1, h2⟩ := M.bind_eq_ok.1 (show (removeOutliers cfg env fs vs).ret (fun d => (Ret.unit, d && false)) s = _ from e1)
    obtain rfl : s2 = s3 := by cases h2; rfl
    refine ⟨.unit, ?_⟩
    show (removeOutliers cfg env fs vs).ret _ s = _
    unfold M.ret
    rw [M.bind_ok h1]; rfl
  | priors c =>
    obtain ⟨s2, d, h1, h2⟩ := M.bind_eq_ok.1 (show (removePriorsPcm cfg env c).ret (fun _ => (Ret.unit, false)) s = _ from e1)
    obtain rfl : s2 = s3 := by cases h2; rfl
    refine ⟨.unit, ?_⟩
    show (removePriorsPcm cfg env c).ret _ s = _
    unfold M.ret
    rw [M.bind_ok h1]; rfl

/-- The call returned normally and the state satisfies `P`. -/
def Demo.isOkWith {σ α : Type} (o : Out σ α) (P : σ → Bool) : Bool :=
  match o with
  | .ok s _ => P s
  | _ => false

theorem Demo.of_isOkWith {σ α : Type} {o : Out σ α} {P : σ → Bool} (h : Demo.isOkWith o P = true) :
    ∃ s x, o = .ok s x ∧ P s = true := by
  cases o with
  | ok s x => exact ⟨s, x, rfl, h⟩
  | throw _ _ => cases h
  | ub _ => cases h

end RPGO

namespace RPGO.Props
variable {G T N : Type} [Mul G] [Inv G] [One G]

/-- C38, exactly. Without GNC and without temporary values, with optimizers that return: let `s1` be the state after the last
optimizing call `o1`, and let the next optimizing call reach state `s2` before it optimizes. It runs an undefined operation
exactly if the number of registered closures at `s1` exceeds the number of factors in the graph at `s1` or at `s2`. -/
theorem C38_exact {cfg : Cfg G T N} {env : Env G N} (he : env.Ok) (hw : env.Works) (hr : cfg.rejection = true)
    (hg : cfg.useGnc = false) (hf : cfg.fixPrev = false) {h1 h2 : List (Op G N)} {o1 op op' : Op G N} {s1 s s2 : St G T N}
    {x : Ret} (r1 : ReachOk cfg env (h1 ++ [o1]) s1) (r : ReachOk cfg env (h1 ++ [o1] ++ h2) s)
    (hm : ∀ o ∈ h1 ++ [o1] ++ h2, Spec.Managed o) (ho : Spec.Optimizes cfg o1 = true)
    (hn : ∀ o ∈ h2, Spec.Optimizes cfg o = false) (ht : Spec.Then cfg op op') (e : exec cfg env op' s = .ok s2 x)
    (htmp : s2.tempValues = []) {n : Nat} (hnum : Spec.NumLC cfg env s1 n) :
    (∃ u, exec cfg env op s = .ub u) ↔ s1.nfg.length < n ∨ s2.nfg.length < n := by
  obtain ⟨y, e1⟩ := then_phase hr ht e
  have hop : Spec.Managed op ∧ Spec.Managed op' := by cases ht <;> exact ⟨trivial, trivial⟩
  have hm' : ∀ o ∈ h1 ++ [o1] ++ h2 ++ [op], Spec.Managed o := by
    intro o ho
    rcases List.mem_append.1 ho with h | h
    · exact hm o h
    · rw [List.mem_singleton] at h; rw [h]; exact hop.1
  obtain ⟨w1, w2, -⟩ := (phase1_sameW cfg env hop.1).of_ok e1
  obtain ⟨v1, v2, -⟩ := weights_kept hr r1 h2 r fun o ho => ⟨hm o (by simp [ho]), hn o ho⟩
  obtain ⟨g1, -, -⟩ := phase1_size he hr r hm' e1
  have hnum := (numLC_iff hr).1 hnum
  have hlast : s1.gncW.length = s1.nfg.length ∧ s1.latest = n := by
    obtain ⟨s0, x0, r0, e0⟩ := r1.snoc_inv
    obtain ⟨s3, o, q1, q2⟩ := exec_ok_phase hr e0
    have hfl := phase1_flag q1
    rcases q2 with ⟨-, q⟩ | ⟨h, -⟩
    · obtain ⟨a, -, b⟩ := optimize_weights hr q
      exact ⟨a, by rw [b, hnum]⟩
    · rw [hfl, ho] at h; cases h
  have hl : s2.latest = n := by rw [w2, v2, hlast.2]
  have hgw : s2.gncW.length = s1.nfg.length := by rw [w1, v1, hlast.1]
  have hsorted : s2.values.Sorted := (reach_values (r.step e).reach).1
  have hk : s2.pcm.odom.length + s2.pcm.special.length ≤ s2.nfg.length := by rw [g1]; exact (buildGraph_known env s2.pcm).1
  have ex := exec_phase env hr op
  rcases plain_ub hr hg hf hw hsorted htmp hk with ⟨a, b, s', q⟩ | ⟨a, q⟩
  · rw [hl, hgw] at a
    rw [hl] at b
    refine ⟨fun ⟨u, hu⟩ => ?_, fun h => by omega⟩
    exfalso
    refine (exec_mild (b := false) hr (op := op) (s := s) (by rw [e1]; trivial) ?_).noUB u hu
    intro s3 r3 q3
    rw [e1] at q3
    cases q3
    rw [q]; trivial
  · rw [hl, hgw] at a
    refine ⟨fun _ => a, fun _ => ⟨.eigen, ?_⟩⟩
    rw [ex, M.bind_ok e1]
    show M.bind (optimize cfg env) _ s2 = _
    unfold M.bind
    rw [q]

set_option maxRecDepth 100000 in
/-- The hypotheses are met, and both cases occur: with five closures that contradict each other and a further odometry
factor the call is undefined, with five that agree it is not. -/
example : ∀ d : ℤ, d = 50 ∨ d = 0 →
    ∃ s1 s2 x, ReachOk Demo.cfg Demo.env (fiveClosures d) s1 ∧ Spec.NumLC Demo.cfg Demo.env s1 5 ∧
      exec Demo.cfg Demo.env (.update [Demo.edge (Demo.a 1) (Demo.a 2) 1] [Demo.pose (Demo.a 2) 2] false) s1 = .ok s2 x ∧
      s2.tempValues = [] ∧ ((d = 50 ∧ s1.nfg.length = 3 ∧ s2.nfg.length = 4) ∨ (d = 0 ∧ s1.nfg.length = 7 ∧ s2.nfg.length = 8)) ∧
      ((∃ u, exec Demo.cfg Demo.env (.forceUpdate [Demo.edge (Demo.a 1) (Demo.a 2) 1] [Demo.pose (Demo.a 2) 2]) s1 = .ub u) ↔
        d = 50) := by
  have key : ∀ d : ℤ, ∀ m : Nat, Demo.runs Demo.cfg Demo.env (fiveClosures d) (fun s => decide (s.pcm.totalLc = 5 ∧ s.nfg.length = m) &&
      Demo.isOkWith (exec Demo.cfg Demo.env (.update [Demo.edge (Demo.a 1) (Demo.a 2) 1] [Demo.pose (Demo.a 2) 2] false) s)
        (fun s2 => decide (s2.tempValues.length = 0 ∧ s2.nfg.length = m + 1))) = true →
      ∃ s1 s2 x, ReachOk Demo.cfg Demo.env (fiveClosures d) s1 ∧ Spec.NumLC Demo.cfg Demo.env s1 5 ∧
      exec Demo.cfg Demo.env (.update [Demo.edge (Demo.a 1) (Demo.a 2) 1] [Demo.pose (Demo.a 2) 2] false) s1 = .ok s2 x ∧
      s2.tempValues = [] ∧ s1.nfg.length = m ∧ s2.nfg.length = m + 1 ∧
      ((∃ u, exec Demo.cfg Demo.env (.forceUpdate [Demo.edge (Demo.a 1) (Demo.a 2) 1] [Demo.pose (Demo.a 2) 2]) s1 = .ub u) ↔
        m < 5 ∨ m + 1 < 5) := by
    intro d m hrun
    obtain ⟨s1, r, h⟩ := Demo.runs_reach hrun
    rw [Bool.and_eq_true] at h
    obtain ⟨h1, h2⟩ := of_decide_eq_true h.1
    obtain ⟨s2, x, e, h3⟩ := Demo.of_isOkWith h.2
    obtain ⟨h4, h5⟩ := of_decide_eq_true h3
    have hnum : Spec.NumLC Demo.cfg Demo.env s1 5 := (numLC_iff (by decide)).2 h1.symm
    refine ⟨s1, s2, x, r, hnum, e, List.eq_nil_of_length_eq_zero h4, h2, h5, ?_⟩
    rw [← h5, ← h2]
    exact C38_exact Demo.env_ok Demo.env_works rfl rfl rfl (h1 := (fiveClosures d).take 2)
      (o1 := .update [Demo.edge (Demo.a 0) (Demo.b 0) 0, Demo.edge (Demo.a 0) (Demo.b 0) d, Demo.edge (Demo.a 0) (Demo.b 0) (2 * d),
        Demo.edge (Demo.a 0) (Demo.b 0) (3 * d), Demo.edge (Demo.a 0) (Demo.b 0) (4 * d)] [] true) (h2 := [])
      r r (by simp [fiveClosures, Spec.Managed]) rfl (by simp) (.force _ _) e (List.eq_nil_of_length_eq_zero h4) hnum
  rintro d (rfl | rfl)
  · obtain ⟨s1, s2, x, a, b, c, d', e, f, g⟩ := key 50 3 (by decide +kernel)
    exact ⟨s1, s2, x, a, b, c, d', Or.inl ⟨rfl, e, f⟩, by rw [g]; decide⟩
  · obtain ⟨s1, s2, x, a, b, c, d', e, f, g⟩ := key 0 7 (by decide +kernel)
    exact ⟨s1, s2, x, a, b, c, d', Or.inr ⟨rfl, e, f⟩, by rw [g]; decide⟩

end RPGO.Props
