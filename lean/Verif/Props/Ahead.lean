import Verif.Props.Observations
import Verif.Props.Symmetry
/-
C77 values may be supplied ahead of the factors, except those by which the factors are recognized.
-/

namespace RPGO.Spec
variable {G T N : Type}

/-- Key `k` decides how `f` is recognized: `f` is a between factor, and either it observes a landmark and names `k`, or it
leads to `k` from the key before. -/
def Marks (cfg : Cfg G T N) (k : Key) : Option (Factor G N) → Prop
  | some (.btw b) =>
    if cfg.isSpecial (chr b.k1) || cfg.isSpecial (chr b.k2) then k = b.k1 ∨ k = b.k2 else b.k1 + 1 = b.k2 ∧ k = b.k2
  | _ => False

end RPGO.Spec

namespace RPGO
variable {G T N : Type} [Mul G] [Inv G] [One G]

theorem insertVals_append (v1 v2 v w : Vals G) (h : insertVals v1 v = .ok w ()) : insertVals (v1 ++ v2) v = insertVals v2 w := by
  induction v1 generalizing v with
  | nil => cases h; rfl
  | cons e t ih =>
    obtain ⟨k, x⟩ := e
    rw [List.cons_append, insertVals_cons]
    rw [insertVals_cons] at h
    split at h
    · cases h
    · rw [if_neg (by assumption)]
      exact ih _ h

theorem vals_has_append (v1 v2 : Vals G) (k : Key) : KMap.has (v1 ++ v2) k = (KMap.has v1 k || KMap.has v2 k) := by
  rw [Bool.eq_iff_iff, Bool.or_eq_true, ← KMap.mem_keys_iff, ← KMap.mem_keys_iff, ← KMap.mem_keys_iff]
  unfold KMap.keys
  simp [List.map_append]

theorem classify_ahead {cfg : Cfg G T N} {v1 v2 : Vals G} {f : Factor G N} (h : ∀ k ∈ v1.keys, ¬ Spec.Marks cfg k (some f)) :
    classify cfg (v1 ++ v2) f = classify cfg v2 f := by
  cases f with
  | btw b =>
    have no : ∀ k, Spec.Marks cfg k (some (.btw b)) → KMap.has v1 k = false := fun k hk => by
      by_contra hc
      rw [Bool.not_eq_false, ← KMap.mem_keys_iff] at hc
      exact h k hc hk
    unfold classify
    dsimp only
    by_cases hs : (cfg.isSpecial (chr b.k1) || cfg.isSpecial (chr b.k2)) = true
    · have e1 := no b.k1 (by unfold Spec.Marks; dsimp only; rw [if_pos hs]; exact Or.inl rfl)
      have e2 := no b.k2 (by unfold Spec.Marks; dsimp only; rw [if_pos hs]; exact Or.inr rfl)
      rw [if_pos hs, if_pos hs, vals_has_append, vals_has_append, e1, e2, Bool.false_or, Bool.false_or]
    · rw [if_neg hs, if_neg hs]
      by_cases hk : b.k1 + 1 = b.k2
      · have e2 := no b.k2 (by unfold Spec.Marks; dsimp only; rw [if_neg hs]; exact ⟨hk, rfl⟩)
        rw [vals_has_append, e2, Bool.false_or]
      · rw [if_neg (fun t => hk t.1), if_neg (fun t => hk t.1)]
  | _ => rfl

theorem sortFactors_ahead {cfg : Cfg G T N} {v1 v2 : Vals G} (vals : Vals G) {fs : Graph G N}
    (h : ∀ k ∈ v1.keys, ∀ f ∈ fs, ¬ Spec.Marks cfg k f) (lcs : List (Btw G N)) (opt : Bool) :
    sortFactors cfg (v1 ++ v2) vals fs lcs opt = sortFactors cfg v2 vals fs lcs opt := by
  induction fs generalizing lcs opt with
  | nil => rfl
  | cons f fs ih =>
    have ih' := fun lcs opt => ih (fun k hk f hf => h k hk f (List.mem_cons_of_mem _ hf)) lcs opt
    cases f with
    | none => exact ih' lcs opt
    | some f =>
      have e := classify_ahead (v2 := v2) (f := f) (fun k hk => h k hk _ List.mem_cons_self)
      unfold sortFactors
      rw [e]
      simp only [ih']

theorem onValues_ahead {v1 v2 : Vals G} {s : St G T N} {v : Vals G} (hi : insertVals v1 s.values = .ok v ()) :
    (onValues (insertVals (v1 ++ v2)) : M (St G T N) Unit) s = (onValues (insertVals v2) : M (St G T N) Unit) { s with values := v } := by
  have hi' := insertVals_append v1 v2 s.values v hi
  unfold onValues M.zoom
  rw [hi']

theorem removeOutliers_ahead {cfg : Cfg G T N} (env : Env G N) {fs : Graph G N} {v1 v2 : Vals G}
    (h : ∀ k ∈ v1.keys, ∀ f ∈ fs, ¬ Spec.Marks cfg k f) {s : St G T N} {v : Vals G} (hi : insertVals v1 s.values = .ok v ()) :
    removeOutliers cfg env fs (v1 ++ v2) s = removeOutliers cfg env fs v2 { s with values := v } := by
  unfold removeOutliers
  rw [M.bind_eq, M.bind_eq, M.bind_apply, M.bind_apply]
  have p : processFactors cfg env fs (v1 ++ v2) = processFactors cfg env fs v2 := by
    unfold processFactors
    simp only [sortFactors_ahead _ h]
  rw [onValues_ahead hi, p]

/-- The decision of `addAndCheck`. -/
def worthIt (fs : Graph G N) (n : Nat) : M (St G T N) Bool :=
  match fs with
  | [] => M.pure (decide (n ≠ 0))
  | [none] => M.undef .nullDeref
  | [some f] => M.pure (!(decide (f.keys.length = 2) && decide (n = 1)))
  | _ => M.pure true

omit [Mul G] [Inv G] [One G] in
theorem addAndCheck_eq (fs : Graph G N) (vs : Vals G) (s : St G T N) :
    addAndCheck fs vs s = (onValues (insertVals vs)).bind (fun _ => worthIt fs vs.length) { s with nfg := s.nfg ++ fs } := by
  unfold addAndCheck
  show M.bind _ _ _ = _
  rw [M.bind_apply]
  rfl

theorem addAndCheck_ahead {fs : Graph G N} {v1 v2 : Vals G} {s : St G T N} {v : Vals G}
    (hi : insertVals v1 s.values = .ok v ()) {α : Type} (k k' : Bool → M (St G T N) α)
    (hk : (worthIt fs (v1 ++ v2).length).bind k = (worthIt fs v2.length).bind k') :
    (addAndCheck fs (v1 ++ v2)).bind k s = (addAndCheck fs v2).bind k' { s with values := v } := by
  have e := onValues_ahead (T := T) (N := N) (v2 := v2) (s := { s with nfg := s.nfg ++ fs }) hi
  rw [M.bind_apply, M.bind_apply, addAndCheck_eq, addAndCheck_eq, M.bind_apply, M.bind_apply, e]
  cases h : (onValues (insertVals v2) : M (St G T N) Unit) { { s with values := v } with nfg := s.nfg ++ fs } with
  | ok t _ => exact congrFun hk t
  | throw t x => rfl
  | ub u => rfl

theorem exec_values {cfg : Cfg G T N} {env : Env G N} {v : Vals G} {o : Bool} (hr : cfg.rejection = true ∨ o = false)
    {s s1 : St G T N} {x : Ret} (h : exec cfg env (.update [] v o) s = .ok s1 x) :
    ∃ w, insertVals v s.values = .ok w () ∧ s1 = { s with values := w } := by
  obtain ⟨t0, _, hu, h0⟩ := M.bind_eq_ok.1 (show (update cfg env [] v o).bind _ s = _ from h)
  clear h
  cases h0
  obtain ⟨t, b, h1, h⟩ := M.bind_eq_ok.1 (show (M.cond _ _ _).bind _ _ = _ from hu)
  obtain ⟨t', _, h2, h⟩ := M.bind_eq_ok.1 h
  have key : (b && o) = false ∧ ∃ w, insertVals v s.values = .ok w () ∧ t = { s with values := w } := by
    cases hc : cfg.rejection with
    | true =>
      rw [hc] at h1
      obtain ⟨q, _, g1, g2⟩ := M.bind_eq_ok.1 (show M.bind _ _ _ = _ from h1)
      cases g2
      obtain ⟨w, gw, rfl⟩ := M.zoom_eq_ok.1 g1
      exact ⟨rfl, w, gw, rfl⟩
    | false =>
      rw [hc] at h1
      rcases hr with hr | rfl
      · rw [hc] at hr; cases hr
      have h1' : addAndCheck [] v s = .ok t b := h1
      rw [addAndCheck_eq] at h1'
      obtain ⟨q, _, g1, g2⟩ := M.bind_eq_ok.1 h1'
      cases g2
      obtain ⟨w, gw, rfl⟩ := M.zoom_eq_ok.1 g1
      refine ⟨Bool.and_false _, w, gw, ?_⟩
      show ({ s with nfg := s.nfg ++ [], values := w } : St G T N) = _
      rw [List.append_nil]
  obtain ⟨k1, w, gw, rfl⟩ := key
  rw [k1] at h2
  cases h2
  refine ⟨w, gw, ?_⟩
  cases hl : (cfg.log && o) with
  | false => rw [hl] at h; cases h; rfl
  | true =>
    rw [hl] at h
    have := logStatus_same cfg { s with values := w }
    rw [show logStatus cfg _ = _ from h] at this
    exact this

/-- The rest of an update after the measurements have been taken in. -/
theorem update_same {cfg : Cfg G T N} {env : Env G N} {fs : Graph G N} {v v' : Vals G} {o : Bool} {s s' : St G T N}
    (h : (M.cond cfg.rejection (removeOutliers cfg env fs v) (addAndCheck fs v)) s =
      (M.cond cfg.rejection (removeOutliers cfg env fs v') (addAndCheck fs v')) s') :
    exec cfg env (.update fs v o) s = exec cfg env (.update fs v' o) s' ∧
      exec cfg env (.forceUpdate fs v) s = exec cfg env (.forceUpdate fs v') s' := by
  constructor
  · show ((M.cond _ _ _).bind _).bind _ s = ((M.cond _ _ _).bind _).bind _ s'
    simp only [M.bind_apply, h]
  · show ((M.cond _ _ _).bind _).bind _ s = ((M.cond _ _ _).bind _).bind _ s'
    simp only [M.bind_apply, h]

theorem update_plain {cfg : Cfg G T N} (env : Env G N) (hr : cfg.rejection = false) (fs : Graph G N) (v : Vals G) (o : Bool) :
    exec cfg env (.update fs v o) = (addAndCheck fs v).bind fun b => ((M.when (b && o) (optimize cfg env)).bind fun _ =>
      M.when (cfg.log && o) (logStatus cfg)).bind fun _ => M.pure .unit := by
  funext s
  show ((M.cond _ _ _).bind _).bind _ s = _
  rw [hr]
  show ((addAndCheck fs v).bind _).bind _ s = _
  rw [M.bind_apply, M.bind_apply, M.bind_apply]
  cases addAndCheck fs v s <;> rfl

theorem forceUpdate_plain {cfg : Cfg G T N} (env : Env G N) (hr : cfg.rejection = false) (fs : Graph G N) (v : Vals G) :
    exec cfg env (.forceUpdate fs v) = (addAndCheck fs v).bind fun _ => ((optimize cfg env).bind fun _ =>
      M.when cfg.log (logStatus cfg)).bind fun _ => M.pure .unit := by
  funext s
  show ((M.cond _ _ _).bind _).bind _ s = _
  rw [hr]
  show ((addAndCheck fs v).bind _).bind _ s = _
  rw [M.bind_apply, M.bind_apply, M.bind_apply]
  cases addAndCheck fs v s <;> rfl

end RPGO

namespace RPGO.Props
variable {G T N : Type} [Mul G] [Inv G] [One G]

/-- C77. With outlier rejection, values may be supplied in an earlier call than the factors: if no key of `v1` decides how
a factor of `fs` is recognized, a call that only brings the values `v1`, followed by a call with `fs` and `v2`, does exactly
what a single call with `fs` and all the values does, from any state, whether it returns or throws, and whether or not the
calls ask for optimization. -/
theorem C77_ahead {cfg : Cfg G T N} (env : Env G N) (hr : cfg.rejection = true) {fs : Graph G N} {v1 v2 : Vals G}
    (hm : ∀ k ∈ v1.keys, ∀ f ∈ fs, ¬ Spec.Marks cfg k f) {s s1 : St G T N} {o : Bool} {x : Ret}
    (h : exec cfg env (.update [] v1 o) s = .ok s1 x) :
    (∀ o', exec cfg env (.update fs v2 o') s1 = exec cfg env (.update fs (v1 ++ v2) o') s) ∧
      exec cfg env (.forceUpdate fs v2) s1 = exec cfg env (.forceUpdate fs (v1 ++ v2)) s := by
  obtain ⟨w, hw, rfl⟩ := exec_values (Or.inl hr) h
  have e : M.cond cfg.rejection (removeOutliers cfg env fs v2) (addAndCheck fs v2) { s with values := w } =
      M.cond cfg.rejection (removeOutliers cfg env fs (v1 ++ v2)) (addAndCheck fs (v1 ++ v2)) s := by
    rw [hr]
    exact (removeOutliers_ahead env hm hw).symm
  exact ⟨fun o' => (update_same e).1, (update_same (o := true) e).2⟩

/-- C77. Without outlier rejection any values may be supplied ahead, if the calls do not ask for optimization. -/
theorem C77_ahead_plain {cfg : Cfg G T N} (env : Env G N) (hr : cfg.rejection = false) (fs : Graph G N) {v1 : Vals G} (v2 : Vals G)
    {s s1 : St G T N} {x : Ret} (h : exec cfg env (.update [] v1 false) s = .ok s1 x) :
    exec cfg env (.update fs v2 false) s1 = exec cfg env (.update fs (v1 ++ v2) false) s := by
  obtain ⟨w, hw, rfl⟩ := exec_values (Or.inr rfl) h
  rw [update_plain env hr, update_plain env hr]
  refine (addAndCheck_ahead hw _ _ ?_).symm
  match fs with
  | [] => simp only [Bool.and_false]; rfl
  | [none] => rfl
  | [some f] => simp only [Bool.and_false]; rfl
  | f :: f' :: t => cases f <;> rfl

/-- C77. Without outlier rejection any values may be supplied ahead of two or more factors, and of a forced update. -/
theorem C77_ahead_plain_many {cfg : Cfg G T N} (env : Env G N) (hr : cfg.rejection = false) {fs : Graph G N} {v1 : Vals G} (v2 : Vals G)
    {s s1 : St G T N} {x : Ret} (h : exec cfg env (.update [] v1 false) s = .ok s1 x) :
    (2 ≤ fs.length → exec cfg env (.update fs v2 true) s1 = exec cfg env (.update fs (v1 ++ v2) true) s) ∧
      exec cfg env (.forceUpdate fs v2) s1 = exec cfg env (.forceUpdate fs (v1 ++ v2)) s := by
  obtain ⟨w, hw, rfl⟩ := exec_values (Or.inr rfl) h
  constructor
  · intro hn
    rw [update_plain env hr, update_plain env hr]
    refine (addAndCheck_ahead hw _ _ ?_).symm
    match fs, hn with
    | f :: f' :: t, _ => cases f <;> rfl
  · rw [forceUpdate_plain env hr, forceUpdate_plain env hr]
    refine (addAndCheck_ahead hw _ _ ?_).symm
    match fs with
    | [] => rfl
    | [none] => rfl
    | [some f] => rfl
    | f :: f' :: t => cases f <;> rfl

/-- A robot makes one step. -/
def ahead0 : List (Op Demo.Z Demo.Ns) :=
  [.update [some (.prior (Demo.a 0) (Demo.z 0)), Demo.edge (Demo.a 0) (Demo.a 1) 1] [Demo.pose (Demo.a 0) 0, Demo.pose (Demo.a 1) 1] true]

set_option maxRecDepth 100000 in
/-- C77 is false for the value of the pose an odometry edge leads to: supplied with the edge, the edge is odometry and in
the graph; supplied one call earlier, the same edge is not recognized, and is neither in the graph nor counted. -/
theorem C77_false_odometry :
    (∃ s, ReachOk Demo.cfg Demo.env (ahead0 ++ [.update [Demo.edge (Demo.a 1) (Demo.a 2) 1] [Demo.pose (Demo.a 2) 2] true]) s ∧
      s.nfg.length = 3 ∧ Demo.edge (Demo.a 1) (Demo.a 2) 1 ∈ s.nfg) ∧
    (∃ s, ReachOk Demo.cfg Demo.env (ahead0 ++ [.update [] [Demo.pose (Demo.a 2) 2] true,
        .update [Demo.edge (Demo.a 1) (Demo.a 2) 1] [] true]) s ∧
      s.nfg.length = 2 ∧ Demo.edge (Demo.a 1) (Demo.a 2) 1 ∉ s.nfg ∧ s.pcm.totalLc = 0) := by
  constructor
  · obtain ⟨s, r, h⟩ := Demo.runs_reach (cfg := Demo.cfg) (env := Demo.env)
      (ops := ahead0 ++ [.update [Demo.edge (Demo.a 1) (Demo.a 2) 1] [Demo.pose (Demo.a 2) 2] true])
      (P := fun s => decide (s.nfg.length = 3 ∧ Demo.edge (Demo.a 1) (Demo.a 2) 1 ∈ s.nfg)) (by decide +kernel)
    exact ⟨s, r, of_decide_eq_true h⟩
  · obtain ⟨s, r, h⟩ := Demo.runs_reach (cfg := Demo.cfg) (env := Demo.env)
      (ops := ahead0 ++ [.update [] [Demo.pose (Demo.a 2) 2] true, .update [Demo.edge (Demo.a 1) (Demo.a 2) 1] [] true])
      (P := fun s => decide (s.nfg.length = 2 ∧ Demo.edge (Demo.a 1) (Demo.a 2) 1 ∉ s.nfg ∧ s.pcm.totalLc = 0)) (by decide +kernel)
    exact ⟨s, r, of_decide_eq_true h⟩

set_option maxRecDepth 100000 in
/-- C77 is false for the value of an observed landmark: supplied one call earlier, the first observation is counted as
an inlier; supplied with it, it is not (the observation is in the graph either way). -/
theorem C77_false_landmark :
    (∃ s, ReachOk (thrLm 1 1) Demo.env (ahead0 ++ [.update [Demo.edge (Demo.a 0) (Demo.l 1) 5] [Demo.pose (Demo.l 1) 5] true]) s ∧
      Demo.edge (Demo.a 0) (Demo.l 1) 5 ∈ s.nfg ∧ getNumLCInliers (thrLm 1 1) s = .ok s 0) ∧
    (∃ s, ReachOk (thrLm 1 1) Demo.env (ahead0 ++ [.update [] [Demo.pose (Demo.l 1) 5] true,
        .update [Demo.edge (Demo.a 0) (Demo.l 1) 5] [] true]) s ∧
      Demo.edge (Demo.a 0) (Demo.l 1) 5 ∈ s.nfg ∧ getNumLCInliers (thrLm 1 1) s = .ok s 1) := by
  constructor
  · obtain ⟨s, r, h⟩ := Demo.runs_reach (cfg := thrLm 1 1) (env := Demo.env)
      (ops := ahead0 ++ [.update [Demo.edge (Demo.a 0) (Demo.l 1) 5] [Demo.pose (Demo.l 1) 5] true])
      (P := fun s => decide (Demo.edge (Demo.a 0) (Demo.l 1) 5 ∈ s.nfg ∧ s.pcm.totalGood = 0)) (by decide +kernel)
    obtain ⟨h1, h2⟩ := of_decide_eq_true h
    exact ⟨s, r, h1, congrArg (Out.ok s) h2⟩
  · obtain ⟨s, r, h⟩ := Demo.runs_reach (cfg := thrLm 1 1) (env := Demo.env)
      (ops := ahead0 ++ [.update [] [Demo.pose (Demo.l 1) 5] true, .update [Demo.edge (Demo.a 0) (Demo.l 1) 5] [] true])
      (P := fun s => decide (Demo.edge (Demo.a 0) (Demo.l 1) 5 ∈ s.nfg ∧ s.pcm.totalGood = 1)) (by decide +kernel)
    obtain ⟨h1, h2⟩ := of_decide_eq_true h
    exact ⟨s, r, h1, congrArg (Out.ok s) h2⟩

set_option maxRecDepth 100000 in
/-- C77 is false for the value of the pose a landmark is seen from: a second observation of a landmark from a new pose,
supplied with the pose's value, discards the first observation; with the value supplied one call earlier both are kept. -/
theorem C77_false_observer :
    (∃ s, ReachOk (thrLm 1 1) Demo.env (ahead0 ++ [.update [Demo.edge (Demo.a 0) (Demo.l 1) 5] [Demo.pose (Demo.l 1) 5] true,
        .update [Demo.edge (Demo.a 1) (Demo.a 2) 1] [Demo.pose (Demo.a 2) 2] true,
        .update [Demo.edge (Demo.b 0) (Demo.l 1) 3] [Demo.pose (Demo.b 0) 2] true]) s ∧
      Demo.edge (Demo.a 0) (Demo.l 1) 5 ∉ s.nfg ∧ Demo.edge (Demo.b 0) (Demo.l 1) 3 ∈ s.nfg) ∧
    (∃ s, ReachOk (thrLm 1 1) Demo.env (ahead0 ++ [.update [Demo.edge (Demo.a 0) (Demo.l 1) 5] [Demo.pose (Demo.l 1) 5] true,
        .update [Demo.edge (Demo.a 1) (Demo.a 2) 1] [Demo.pose (Demo.a 2) 2] true,
        .update [] [Demo.pose (Demo.b 0) 2] true, .update [Demo.edge (Demo.b 0) (Demo.l 1) 3] [] true]) s ∧
      Demo.edge (Demo.a 0) (Demo.l 1) 5 ∈ s.nfg) := by
  constructor
  · obtain ⟨s, r, h⟩ := Demo.runs_reach (cfg := thrLm 1 1) (env := Demo.env)
      (ops := ahead0 ++ [.update [Demo.edge (Demo.a 0) (Demo.l 1) 5] [Demo.pose (Demo.l 1) 5] true,
        .update [Demo.edge (Demo.a 1) (Demo.a 2) 1] [Demo.pose (Demo.a 2) 2] true,
        .update [Demo.edge (Demo.b 0) (Demo.l 1) 3] [Demo.pose (Demo.b 0) 2] true])
      (P := fun s => decide (Demo.edge (Demo.a 0) (Demo.l 1) 5 ∉ s.nfg ∧ Demo.edge (Demo.b 0) (Demo.l 1) 3 ∈ s.nfg)) (by decide +kernel)
    exact ⟨s, r, of_decide_eq_true h⟩
  · obtain ⟨s, r, h⟩ := Demo.runs_reach (cfg := thrLm 1 1) (env := Demo.env)
      (ops := ahead0 ++ [.update [Demo.edge (Demo.a 0) (Demo.l 1) 5] [Demo.pose (Demo.l 1) 5] true,
        .update [Demo.edge (Demo.a 1) (Demo.a 2) 1] [Demo.pose (Demo.a 2) 2] true,
        .update [] [Demo.pose (Demo.b 0) 2] true, .update [Demo.edge (Demo.b 0) (Demo.l 1) 3] [] true])
      (P := fun s => decide (Demo.edge (Demo.a 0) (Demo.l 1) 5 ∈ s.nfg)) (by decide +kernel)
    exact ⟨s, r, of_decide_eq_true h⟩

/-- No rejection, and an optimizer that moves every pose to 7. -/
def plainCfg : Cfg Demo.Z Demo.Tp Demo.Ns := { Demo.cfg with rejection := false }
def sevenEnv : Env Demo.Z Demo.Ns := { Demo.env with opt := fun _ v => some (v.map fun e => (e.1, .pose (Demo.z 7))) }

set_option maxRecDepth 100000 in
/-- C77 is false without rejection for a single factor when the call asks for optimization: supplied with its one value, the
factor does not lead to an optimization; with the value supplied ahead, it does. -/
theorem C77_false_trigger :
    (∃ s, ReachOk plainCfg sevenEnv [.update [] [Demo.pose (Demo.a 0) 0] false,
        .update [Demo.edge (Demo.a 0) (Demo.a 1) 1] [Demo.pose (Demo.a 1) 1] true] s ∧
      s.values = [Demo.pose (Demo.a 0) 0, Demo.pose (Demo.a 1) 1]) ∧
    (∃ s, ReachOk plainCfg sevenEnv [.update [] [Demo.pose (Demo.a 0) 0] false, .update [] [Demo.pose (Demo.a 1) 1] false,
        .update [Demo.edge (Demo.a 0) (Demo.a 1) 1] [] true] s ∧
      s.values = [Demo.pose (Demo.a 0) 7, Demo.pose (Demo.a 1) 7]) := by
  constructor
  · obtain ⟨s, r, h⟩ := Demo.runs_reach (cfg := plainCfg) (env := sevenEnv) (ops := [.update [] [Demo.pose (Demo.a 0) 0] false,
        .update [Demo.edge (Demo.a 0) (Demo.a 1) 1] [Demo.pose (Demo.a 1) 1] true])
      (P := fun s => decide (s.values = [Demo.pose (Demo.a 0) 0, Demo.pose (Demo.a 1) 1])) (by decide +kernel)
    exact ⟨s, r, of_decide_eq_true h⟩
  · obtain ⟨s, r, h⟩ := Demo.runs_reach (cfg := plainCfg) (env := sevenEnv) (ops := [.update [] [Demo.pose (Demo.a 0) 0] false,
        .update [] [Demo.pose (Demo.a 1) 1] false, .update [Demo.edge (Demo.a 0) (Demo.a 1) 1] [] true])
      (P := fun s => decide (s.values = [Demo.pose (Demo.a 0) 7, Demo.pose (Demo.a 1) 7])) (by decide +kernel)
    exact ⟨s, r, of_decide_eq_true h⟩

set_option maxRecDepth 100000 in
/-- The hypotheses of `C77_ahead` are met by a call with a step of robot a, a closure to robot b and a prior, of which the
value of b's pose is supplied ahead. -/
example : (∀ k ∈ KMap.keys [Demo.pose (Demo.b 0) 2],
      ∀ f ∈ [Demo.edge (Demo.a 1) (Demo.a 2) 1, Demo.edge (Demo.a 1) (Demo.b 0) 1, some (.prior (Demo.b 0) (Demo.z 2))],
        ¬ Spec.Marks Demo.cfg k f) ∧
    ∃ s s1, ReachOk Demo.cfg Demo.env ahead0 s ∧
      exec Demo.cfg Demo.env (.update [] [Demo.pose (Demo.b 0) 2] true) s = .ok s1 .unit ∧ s1.values.length = 3 := by
  constructor
  · intro k hk f hf
    obtain rfl : k = Demo.b 0 := by simpa [KMap.keys, Demo.pose] using hk
    rcases List.mem_cons.1 hf with rfl | hf
    · simp only [Spec.Marks, Demo.edge]
      decide +kernel
    rcases List.mem_cons.1 hf with rfl | hf
    · simp only [Spec.Marks, Demo.edge]
      decide +kernel
    · obtain rfl := List.mem_singleton.1 hf
      exact id
  · obtain ⟨s, r, h⟩ := Demo.runs_reach (cfg := Demo.cfg) (env := Demo.env) (ops := ahead0)
      (P := fun s => match exec Demo.cfg Demo.env (.update [] [Demo.pose (Demo.b 0) 2] true) s with
        | .ok s1 .unit => decide (s1.values.length = 3) | _ => false) (by decide +kernel)
    split at h
    · rename_i s1 e
      exact ⟨s, s1, r, e, of_decide_eq_true h⟩
    · cases h

end RPGO.Props
