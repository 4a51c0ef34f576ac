import Verif.Props.Ahead
import Verif.Props.Estimate
import Verif.Props.OptExact
/-
C79 optimization can be postponed.
-/

namespace RPGO.Spec
variable {G T N : Type} [Mul G] [Inv G] [One G]

/-- One call, and then another if the first returned normally. -/
def thenCall (cfg : Cfg G T N) (env : Env G N) (op1 op2 : Op G N) (s : St G T N) : Out (St G T N) Ret :=
  match exec cfg env op1 s with
  | .ok s1 _ => exec cfg env op2 s1
  | .throw t e => .throw t e
  | .ub u => .ub u

/-- The optimizers assign a value to every key they are given and to no other, and run again from their own result they
return it unchanged. -/
structure Settles (env : Env G N) : Prop where
  opt : ∀ g v r, env.opt g v = some r → r.keys = v.keys ∧ env.opt g r = some r
  gnc : ∀ g v known init r w, env.gnc g v known init = some (r, w) → r.keys = v.keys ∧ env.gnc g r known init = some (r, w)

end RPGO.Spec

namespace RPGO
variable {G T N : Type} [Mul G] [Inv G] [One G]

/-- An empty call takes nothing in. -/
theorem takeIn_nil (cfg : Cfg G T N) (env : Env G N) (s : St G T N) :
    M.cond cfg.rejection (removeOutliers cfg env [] []) (addAndCheck [] []) s = .ok s false := by
  cases cfg.rejection with
  | true => rfl
  | false =>
    show addAndCheck [] [] s = _
    rw [addAndCheck_eq]
    show Out.ok ({ s with nfg := s.nfg ++ [] } : St G T N) false = _
    rw [List.append_nil]

/-- What a call does once the measurements are taken in. -/
def wrapUp (cfg : Cfg G T N) (env : Env G N) (b l : Bool) : M (St G T N) Ret :=
  ((M.when b (optimize cfg env)).bind fun _ => M.when l (logStatus cfg)).bind fun _ => M.pure .unit

theorem force_eq (cfg : Cfg G T N) (env : Env G N) (fs : Graph G N) (v : Vals G) (s : St G T N) :
    exec cfg env (.forceUpdate fs v) s =
      (M.cond cfg.rejection (removeOutliers cfg env fs v) (addAndCheck fs v)).bind (fun _ => wrapUp cfg env true cfg.log) s := by
  show ((M.cond _ _ _).bind _).bind _ s = _
  rw [M.bind_apply, M.bind_apply, M.bind_apply]
  cases M.cond cfg.rejection (removeOutliers cfg env fs v) (addAndCheck fs v) s <;> rfl

theorem update_eq (cfg : Cfg G T N) (env : Env G N) (fs : Graph G N) (v : Vals G) (o : Bool) (s : St G T N) :
    exec cfg env (.update fs v o) s =
      (M.cond cfg.rejection (removeOutliers cfg env fs v) (addAndCheck fs v)).bind
        (fun b => wrapUp cfg env (b && o) (cfg.log && o)) s := by
  show ((M.cond _ _ _).bind _).bind _ s = _
  rw [M.bind_apply, M.bind_apply, M.bind_apply]
  cases M.cond cfg.rejection (removeOutliers cfg env fs v) (addAndCheck fs v) s <;> rfl

theorem force_nil (cfg : Cfg G T N) (env : Env G N) (s : St G T N) :
    exec cfg env (.forceUpdate [] []) s = wrapUp cfg env true cfg.log s := by
  rw [force_eq, M.bind_apply, takeIn_nil]

/-- Whether the measurements taken in demand an optimization. -/
theorem takeIn_flag {cfg : Cfg G T N} {env : Env G N} {fs : Graph G N} {v : Vals G} {s t : St G T N} {b : Bool}
    (h : M.cond cfg.rejection (removeOutliers cfg env fs v) (addAndCheck fs v) s = .ok t b) :
    b = Spec.optimizes cfg (.update fs v true) := by
  unfold Spec.optimizes
  cases hr : cfg.rejection with
  | true =>
    rw [hr] at h
    have : phase1 cfg env (.update fs v true) s = .ok t (.unit, b && true) := by
      show (removeOutliers cfg env fs v).ret _ s = _
      unfold M.ret
      rw [M.bind_ok (show removeOutliers cfg env fs v s = _ from h)]; rfl
    have := phase1_flag this
    rw [Bool.and_true] at this
    exact this
  | false =>
    rw [hr] at h
    obtain ⟨_, _, _, h4, _⟩ := addAndCheck_ok (show addAndCheck fs v s = _ from h)
    rw [h4]; rfl

/-- What the optimizers make of `full`. -/
def optRes (cfg : Cfg G T N) (env : Env G N) (s : St G T N) (full : Vals G) : Option (Vals G) :=
  if cfg.useGnc && cfg.rejection then
    (env.gnc (s.nfg ++ s.tempNfg) full (gncKnown s) (gncInit cfg s)).map Prod.fst
  else env.opt (s.nfg ++ s.tempNfg) full

theorem optimize_run {cfg : Cfg G T N} {env : Env G N} (hf : cfg.fixPrev = false) {s s' : St G T N}
    (h : optimize cfg env s = .ok s' ()) :
    ∃ full res, mergeVals s.values s.tempValues = some full ∧ optRes cfg env s full = some res ∧
      (res.keys.Nodup → (∀ k, s'.values.find? k = (s.values.find? k).map fun v => (res.find? k).getD v) ∧
        ∀ k, s'.tempValues.find? k = (s.tempValues.find? k).map fun v =>
          if (s.values.find? k).isSome then v else (res.find? k).getD v) := by
  obtain ⟨full, res, s2, s3, hm, hrun, ha, hs'⟩ := optimize_ok h
  have hu : useGncNow cfg s = (cfg.useGnc && cfg.rejection) := by unfold useGncNow; rw [hf]; simp
  have hv : s'.values = s3.values ∧ s'.tempValues = s3.tempValues := by rw [hs']; split <;> exact ⟨rfl, rfl⟩
  have key : s2.values = s.values ∧ s2.tempValues = s.tempValues ∧ optRes cfg env s full = some res := by
    unfold optRes
    rcases hrun with ⟨hg, e⟩ | ⟨hg, e⟩
    · obtain ⟨w, e0, _, _, e1⟩ := gncOptimize_ok e
      rw [← hu, if_pos hg, e0, e1]; exact ⟨rfl, rfl, rfl⟩
    · obtain ⟨g, e1, e2, _, _, e3⟩ := plainOptimize_ok e
      rw [← hu, if_neg (by simp [hg]), e3]
      rcases (plainGraph_ok e1).2 with ⟨_, rfl⟩ | ⟨h2, _⟩
      · exact ⟨rfl, rfl, e2⟩
      · rw [hf] at h2; cases h2
  refine ⟨full, res, hm, key.2.2, fun hn => ?_⟩
  obtain ⟨a1, a2⟩ := applyResult_both ha hn
  rw [key.1] at a1
  rw [key.1, key.2.1] at a2
  exact ⟨fun k => by rw [hv.1]; exact a1 k, fun k => by rw [hv.2]; exact a2 k⟩

theorem found_of_keys {m m' : Vals G} (h : m.keys = m'.keys) (k : Key) : (m.find? k).isSome = (m'.find? k).isSome := by
  have h1 := KMap.mem_keys_iff m k
  have h2 := KMap.mem_keys_iff m' k
  rw [h] at h1
  exact Bool.eq_iff_iff.2 (h1.symm.trans h2)

/-- Optimizing again with optimizers that settle changes neither the estimate nor the temporary values. -/
theorem optimize_again {cfg : Cfg G T N} {env : Env G N} (hf : cfg.fixPrev = false) (he : Spec.Settles env) {s s' s'' : St G T N}
    (hs : s.values.Sorted) (h : optimize cfg env s = .ok s' ()) (h' : optimize cfg env s' = .ok s'' ()) :
    (∀ k, s''.values.find? k = s'.values.find? k) ∧ (∀ k, s''.tempValues.find? k = s'.tempValues.find? k) := by
  have fr := (optimize_frame cfg env).of_ok h
  obtain ⟨full, res, hm, hres, hA⟩ := optimize_run hf h
  obtain ⟨full', res', hm', hres', hA'⟩ := optimize_run hf h'
  have hsame : optRes cfg env s' = optRes cfg env s := by
    funext v
    unfold optRes gncInit gncKnown
    rw [fr.nfg, fr.tempNfg, fr.pcm]
  rw [hsame] at hres'
  have key : res.keys = full.keys ∧ optRes cfg env s res = some res := by
    unfold optRes at hres ⊢
    split at hres
    · cases hg : env.gnc (s.nfg ++ s.tempNfg) full (gncKnown s) (gncInit cfg s) with
      | none => rw [hg] at hres; cases hres
      | some rw' =>
        obtain ⟨r, w⟩ := rw'
        rw [hg] at hres
        cases hres
        obtain ⟨a, b⟩ := he.gnc _ _ _ _ _ _ hg
        rw [b]
        exact ⟨a, by rename_i hc; rw [if_pos hc]; rfl⟩
    · obtain ⟨a, b⟩ := he.opt _ _ _ hres
      exact ⟨a, by rename_i hc; rw [if_neg hc]; exact b⟩
  have hso : full.Sorted := merge_sorted hm hs
  have hrs : res.Sorted := by unfold KMap.Sorted; rw [key.1]; exact hso
  have hnd : res.keys.Nodup := by
    refine List.Pairwise.imp ?_ hrs
    intro a b hab e
    rw [e] at hab
    exact Nat.lt_irrefl _ hab
  obtain ⟨m1, m2⟩ := Props.mergeVals_find hm
  obtain ⟨m1', m2'⟩ := Props.mergeVals_find hm'
  obtain ⟨a1, a2⟩ := hA hnd
  have hs' : s'.values.Sorted := (fr.values.keys hs).1
  have hfull : full' = res := by
    refine KMap.Sorted.ext (merge_sorted hm' hs') hrs fun k => ?_
    have hk := found_of_keys key.1 k
    rw [m1' k]
    have hin : k ∈ s'.values.keys ↔ (s.values.find? k).isSome := by
      rw [KMap.mem_keys_iff]
      unfold KMap.has
      rw [a1 k, Option.isSome_map]
    have hin1 : k ∈ s.values.keys ↔ (s.values.find? k).isSome := KMap.mem_keys_iff _ _
    have hk1 := m1 k
    cases hv : s.values.find? k with
    | some v =>
      rw [if_pos (hin1.2 (by rw [hv]; rfl)), hv] at hk1
      rw [if_pos (hin.2 (by rw [hv]; rfl)), a1 k, hv]
      rw [hk1] at hk
      cases hr : KMap.find? res k with
      | none => rw [hr] at hk; cases hk
      | some r => rfl
    | none =>
      rw [if_neg (fun t => by have := hin1.1 t; rw [hv] at this; cases this)] at hk1
      rw [if_neg (fun t => by have := hin.1 t; rw [hv] at this; cases this), a2 k, hv]
      rw [hk1] at hk
      cases ht : s.tempValues.find? k with
      | none =>
        rw [ht] at hk
        cases hr : KMap.find? res k with
        | none => rfl
        | some r => rw [hr] at hk; cases hk
      | some v =>
        rw [ht] at hk
        cases hr : KMap.find? res k with
        | none => rw [hr] at hk; cases hk
        | some r => rfl
  subst hfull
  rw [key.2] at hres'
  cases hres'
  obtain ⟨b1, b2⟩ := hA' hnd
  refine ⟨fun k => ?_, fun k => ?_⟩
  · rw [b1 k, a1 k]
    cases s.values.find? k with
    | none => rfl
    | some v => cases KMap.find? full' k <;> rfl
  · rw [b2 k, a2 k, a1 k]
    cases s.tempValues.find? k with
    | none => rfl
    | some v =>
      cases s.values.find? k with
      | none => cases KMap.find? full' k <;> rfl
      | some _ => rfl

end RPGO

namespace RPGO.Props
variable {G T N : Type} [Mul G] [Inv G] [One G]

/-- C79. From any state, a forced update does exactly what the same update without optimization followed by an empty forced
update does: the same resulting state, the same exception, or the same undefined operation. -/
theorem C79_postponed (cfg : Cfg G T N) (env : Env G N) (fs : Graph G N) (vs : Vals G) (s : St G T N) :
    exec cfg env (.forceUpdate fs vs) s = Spec.thenCall cfg env (.update fs vs false) (.forceUpdate [] []) s := by
  unfold Spec.thenCall
  rw [force_eq, update_eq, M.bind_apply, M.bind_apply]
  cases M.cond cfg.rejection (removeOutliers cfg env fs vs) (addAndCheck fs vs) s with
  | ok t b =>
    simp only [Bool.and_false]
    show _ = exec cfg env (.forceUpdate [] []) t
    rw [force_nil]
  | throw t e => rfl
  | ub u => rfl

/-- C79. An update that asks for optimization does exactly what a forced update does if the factors and values supplied
demand an optimization; otherwise, without status logging, exactly what an update without optimization does. -/
theorem C79_asked (cfg : Cfg G T N) (env : Env G N) (fs : Graph G N) (vs : Vals G) (s : St G T N) :
    (Spec.optimizes cfg (.update fs vs true) = true →
      exec cfg env (.update fs vs true) s = exec cfg env (.forceUpdate fs vs) s) ∧
    (Spec.optimizes cfg (.update fs vs true) = false → cfg.log = false →
      exec cfg env (.update fs vs true) s = exec cfg env (.update fs vs false) s) := by
  rw [force_eq, update_eq, update_eq, M.bind_apply, M.bind_apply, M.bind_apply]
  cases h : M.cond cfg.rejection (removeOutliers cfg env fs vs) (addAndCheck fs vs) s with
  | ok t b =>
    rw [takeIn_flag h]
    refine ⟨fun ho => ?_, fun ho hl => ?_⟩
    · simp only [ho, Bool.and_true]
    · simp only [ho, hl, Bool.and_true, Bool.and_false]
  | throw t e => exact ⟨fun _ => rfl, fun _ _ => rfl⟩
  | ub u => exact ⟨fun _ => rfl, fun _ _ => rfl⟩

/-- C79. Likewise, without status logging, removing priors with optimization is removing them without, followed by an empty forced
update. -/
theorem C79_priors {cfg : Cfg G T N} (hl : cfg.log = false) (env : Env G N) (c : Chr) (s : St G T N) :
    exec cfg env (.removePriors c true) s = Spec.thenCall cfg env (.removePriors c false) (.forceUpdate [] []) s := by
  unfold Spec.thenCall
  have e : ∀ o, exec cfg env (.removePriors c o) s =
      (M.cond cfg.rejection (removePriorsPcm cfg env c) (removePriorsGeneric cfg c)).bind (fun _ => wrapUp cfg env o false) s := by
    intro o
    show ((M.cond _ _ _).bind _).bind _ s = _
    rw [M.bind_apply, M.bind_apply, M.bind_apply]
    cases M.cond cfg.rejection (removePriorsPcm cfg env c) (removePriorsGeneric cfg c) s with
    | ok t _ =>
      show (M.when o (optimize cfg env)).bind _ t = M.bind _ _ t
      rw [M.bind_apply, M.bind_apply, M.bind_apply]
      cases M.when o (optimize cfg env) t <;> rfl
    | throw _ _ => rfl
    | ub _ => rfl
  rw [e, e, M.bind_apply, M.bind_apply]
  cases M.cond cfg.rejection (removePriorsPcm cfg env c) (removePriorsGeneric cfg c) s with
  | ok t b =>
    show _ = exec cfg env (.forceUpdate [] []) t
    rw [force_nil, hl]
  | throw t e => rfl
  | ub u => rfl

/-- C79. Optimizers that settle (`Spec.Settles`), previous inliers not fixed: after a forced update, forcing another
optimization changes neither the estimate, nor the graph, nor the temporary values. -/
theorem C79_again {cfg : Cfg G T N} {env : Env G N} (hf : cfg.fixPrev = false) (he : Spec.Settles env) {h : List (Op G N)}
    {s s1 s2 : St G T N} (r : Reach cfg env h s) {fs : Graph G N} {vs : Vals G} {x y : Ret}
    (e1 : exec cfg env (.forceUpdate fs vs) s = .ok s1 x) (e2 : exec cfg env (.forceUpdate [] []) s1 = .ok s2 y) :
    s2.values = s1.values ∧ s2.nfg = s1.nfg ∧ s2.tempNfg = s1.tempNfg ∧ ∀ k, s2.tempValues.find? k = s1.tempValues.find? k := by
  have wrap : ∀ {t t' : St G T N} {z : Ret}, wrapUp cfg env true cfg.log t = .ok t' z → optimize cfg env t = .ok t' () := by
    intro t t' z h
    obtain ⟨a, _, h1, h2⟩ := M.bind_eq_ok.1 (show M.bind _ _ t = _ from h)
    cases h2
    obtain ⟨b, _, h3, h4⟩ := M.bind_eq_ok.1 h1
    have h3' : optimize cfg env t = .ok b () := h3
    rw [h3']
    cases hl : cfg.log with
    | false => rw [hl] at h4; cases h4; rfl
    | true =>
      rw [hl] at h4
      have := (logStatus_same cfg).of_ok (show logStatus cfg b = _ from h4)
      rw [this]
  have r1 := Reach.ok r e1
  have hs1 := (reach_values r1).1
  rw [C79_postponed] at e1
  unfold Spec.thenCall at e1
  cases e0 : exec cfg env (.update fs vs false) s with
  | throw _ _ => rw [e0] at e1; cases e1
  | ub _ => rw [e0] at e1; cases e1
  | ok t z =>
    rw [e0] at e1
    have e1' : exec cfg env (.forceUpdate [] []) t = .ok s1 x := e1
    rw [force_nil] at e1' e2
    have o1 := wrap e1'
    have o2 := wrap e2
    have fr := (optimize_frame cfg env).of_ok o2
    obtain ⟨q1, q2⟩ := optimize_again hf he (reach_values (Reach.ok r e0)).1 o1 o2
    exact ⟨KMap.Sorted.ext (fr.values.keys hs1).1 hs1 q1, fr.nfg, fr.tempNfg, q2⟩

/-- Optimizers that move every pose to 7. -/
def settleEnv : Env Demo.Z Demo.Ns :=
  { Demo.env with
    opt := fun _ v => some (v.map fun e => (e.1, .pose (Demo.z 7)))
    gnc := fun g v _ _ => some (v.map fun e => (e.1, .pose (Demo.z 7)), List.replicate g.length 1) }

theorem settleEnv_settles : Spec.Settles settleEnv where
  opt g v r h := by
    cases h
    exact ⟨by simp [KMap.keys], by simp [settleEnv]⟩
  gnc g v known init r w h := by
    cases h
    exact ⟨by simp [KMap.keys], by simp [settleEnv]⟩

set_option maxRecDepth 100000 in
/-- The hypotheses of `C79_again` are met with a closure accepted, and the first optimization does change the estimate. -/
example : ∃ s s1 s2, ReachOk Demo.cfg settleEnv (Demo.h1.take 3) s ∧
    exec Demo.cfg settleEnv (.forceUpdate [Demo.edge (Demo.a 0) (Demo.a 2) 2] []) s = .ok s1 .unit ∧
    exec Demo.cfg settleEnv (.forceUpdate [] []) s1 = .ok s2 .unit ∧
    s1.nfg.length = s.nfg.length + 1 ∧ s1.values ≠ s.values := by
  obtain ⟨s, r, h⟩ := Demo.runs_reach (cfg := Demo.cfg) (env := settleEnv) (ops := Demo.h1.take 3)
    (P := fun s => match exec Demo.cfg settleEnv (.forceUpdate [Demo.edge (Demo.a 0) (Demo.a 2) 2] []) s with
      | .ok s1 .unit => (match exec Demo.cfg settleEnv (.forceUpdate [] []) s1 with
        | .ok _ .unit => decide (s1.nfg.length = s.nfg.length + 1 ∧ s1.values ≠ s.values)
        | _ => false)
      | _ => false) (by decide +kernel)
  split at h
  · rename_i s1 e1
    split at h
    · rename_i s2 e2
      exact ⟨s, s1, s2, r, e1, e2, of_decide_eq_true h⟩
    · cases h
  · cases h

set_option maxRecDepth 100000 in
/-- Both cases of `C79_asked` occur: a closure demands an optimization, a step of odometry does not. -/
example : Spec.optimizes Demo.cfg (.update [Demo.edge (Demo.a 0) (Demo.a 2) 2] [] true) = true ∧
    Spec.optimizes Demo.cfg (.update [Demo.edge (Demo.a 1) (Demo.a 2) 1] [Demo.pose (Demo.a 2) 2] true) = false := by
  decide +kernel

end RPGO.Props
