import Verif.Props.FailureOpt
import Verif.Props.Progress
/-
C85 with frame alignment: instances, and what happens otherwise. C34: the types of the entries of the estimate.
-/

namespace RPGO.Props
variable {G T N : Type} [Mul G] [Inv G] [One G]

/-- C34: no call, whether it returns or throws, changes the type of an entry of the estimate: every entry has the type of a
value supplied for its key; if all those are poses, it is a pose. -/
theorem C34_types {cfg : Cfg G T N} {env : Env G N} {h : List (Op G N)} {s : St G T N} (r : Reach cfg env h s) {k : Key} {y : Val G}
    (hy : s.values.find? k = some y) :
    (∃ op ∈ h, ∃ x, (k, x) ∈ Spec.opGiven op ∧ x.sameType y = true) ∧
    ((∀ op ∈ h, ∀ x, (k, x) ∈ Spec.opGiven op → ∃ g, x = .pose g) → ∃ g, y = .pose g) := by
  obtain ⟨op, hop, x, hx, t⟩ := reach_typed r hy
  refine ⟨⟨op, hop, x, hx, t⟩, fun hp => ?_⟩
  obtain ⟨g, rfl⟩ := hp op hop x hx
  cases y with
  | pose g' => exact ⟨g', rfl⟩
  | other _ => cases t

open RPGO.Demo in
/-- An instance: after an optimization the entry of `a2` is still the pose it was given as. -/
example : ∃ s y, Reach Demo.cfg Demo.env (Demo.h1 ++ [.forceUpdate [] []]) s ∧ s.values.find? (a 2) = some y ∧ ∃ g, y = .pose g := by
  obtain ⟨s, r, h⟩ := Demo.runs_reach (cfg := Demo.cfg) (env := Demo.env) (ops := Demo.h1 ++ [.forceUpdate [] []])
    (P := fun s => s.values.has (a 2)) (by decide +kernel)
  obtain ⟨y, hy⟩ := Option.isSome_iff_exists.1 h
  refine ⟨s, y, r.reach, hy, (C34_types r.reach hy).2 fun op hop x hx => ?_⟩
  have : ((Demo.h1 ++ [Op.forceUpdate [] []]).flatMap Spec.opGiven).all (fun e => match e.2 with | .pose _ => true | .other _ => false) = true := by
    decide +kernel
  have := List.all_eq_true.1 this (a 2, x) (List.mem_flatMap.2 ⟨op, hop, hx⟩)
  cases x with
  | pose g => exact ⟨g, rfl⟩
  | other _ => cases this

theorem sited_of {cfg : Cfg Demo.Z Demo.Tp Demo.Ns} {env : Env Demo.Z Demo.Ns} {owner : Key → Chr} {h : List (Op Demo.Z Demo.Ns)}
    (hs : cfg.special = []) (h0 : ∀ l, (env.avg l).isSome)
    (h1 : (h.flatMap Spec.opGiven).all (fun e => match e.2 with | .pose _ => true | .other _ => false) = true)
    (h2 : (Spec.odomSoFar cfg h).all (fun y => decide (chr y.k1 = chr y.k2) && (h.flatMap Spec.opKeys).contains y.k1) = true) :
    Spec.Sited cfg env owner h := by
  refine ⟨h0, fun op hop k x hx _ => ?_, fun op hop x hx => ?_, fun op hop x _ h => ?_⟩
  · have := List.all_eq_true.1 h1 (k, x) (List.mem_flatMap.2 ⟨op, hop, hx⟩)
    cases x with
    | pose g => exact ⟨g, rfl⟩
    | other _ => cases this
  · have := List.all_eq_true.1 h2 x (List.mem_flatMap.2 ⟨op, hop, hx⟩)
    rw [Bool.and_eq_true] at this
    obtain ⟨o, ho, hk⟩ := List.mem_flatMap.1 (List.contains_iff_mem.1 this.2)
    exact ⟨of_decide_eq_true this.1, o, ho, hk⟩
  · rw [hs] at h; cases h

open RPGO.Demo in
/-- The hypotheses of `C85_outcome` are met with frame alignment: two robots, closures between them, and more odometry of the
second one. -/
example : cfgA.align = true ∧ (∃ s, ReachOk cfgA alignEnv [twoOdom a b, twoLoops a b] s) ∧
    Spec.Sited cfgA alignEnv (fun _ => 0)
      ([twoOdom a b, twoLoops a b] ++ [.update [edge (b 1) (b 2) 1] [pose (b 2) 2] false]) ∧
    Spec.Grounded cfgA (fun _ => 0) [twoOdom a b, twoLoops a b] ∧
    ∃ s s', ReachOk cfgA alignEnv [twoOdom a b, twoLoops a b] s ∧
      exec cfgA alignEnv (.update [edge (b 1) (b 2) 1] [pose (b 2) 2] false) s = .ok s' .unit := by
  obtain ⟨s, r, _⟩ := Demo.runs_reach (cfg := cfgA) (env := alignEnv) (ops := [twoOdom a b, twoLoops a b])
    (P := fun _ => true) (by decide +kernel)
  have hs : Spec.Sited cfgA alignEnv (fun _ => 0)
      ([twoOdom a b, twoLoops a b] ++ [.update [edge (b 1) (b 2) 1] [pose (b 2) 2] false]) :=
    sited_of rfl (fun _ => rfl) (by decide +kernel) (by decide +kernel)
  have hg : Spec.Grounded cfgA (fun _ => 0) [twoOdom a b, twoLoops a b] :=
    grounded_of (by decide +kernel) (by decide +kernel) (by decide +kernel)
  have hb : ∀ x ∈ Spec.btws [edge (b 1) (b 2) 1], Spec.Fair cfgA x :=
    fair_of (cfg := cfgA) (h := [.update [edge (b 1) (b 2) 1] [] false]) (by decide +kernel) _ (List.mem_singleton.2 rfl)
  have hrem : ∀ op ∈ [twoOdom a b, twoLoops a b], ¬ Spec.Removes op := by
    intro op hop
    simp only [List.mem_cons, List.not_mem_nil, or_false] at hop
    rcases hop with rfl | rfl <;> exact id
  refine ⟨rfl, ⟨s, r⟩, hs, hg, s, ?_⟩
  have hno : ∀ x, ¬ Spec.Rootless cfgA [twoOdom a b, twoLoops a b] s.values [edge (b 1) (b 2) 1] [pose (b 2) 2] x := by
    rintro x ⟨pre, post, h1, h2, -⟩
    have ho : Spec.odoms cfgA [pose (b 2) 2] [edge (b 1) (b 2) 1] = [btw (b 1) (b 2) 1] := by decide +kernel
    rw [ho] at h1
    rcases pre with _ | ⟨y, pre⟩
    · simp only [List.nil_append, List.cons.injEq] at h1
      rw [← h1.1] at h2
      exact h2 (btw (b 0) (b 1) 1) (by decide +kernel) (by decide +kernel)
    · simp at h1
  obtain ⟨s', e⟩ := (C85_outcome rfl r (fair_of (by decide +kernel)) (Or.inr (Or.inl hrem)) hg hb [pose (b 2) 2] (fun _ => hs)).2.2
    (noClash_of (by decide +kernel) (by decide +kernel)) hno
  exact ⟨s', r, e⟩

open RPGO.Demo in
set_option maxRecDepth 100000 in
/-- With frame alignment the condition `Spec.Sited` is needed. An odometry factor ends at a key with a value that is not a
pose: with one robot the update returns; once there are two, every update with factors throws because of the type, after its
factors were added to the graph. Without alignment the same update returns. -/
theorem C85_false_unsited :
    (∃ s s', ReachOk Demo.cfg Demo.env [twoOdom a b] s ∧
      exec Demo.cfg Demo.env (.update [edge (a 1) (a 2) 1] [(a 2, .other 0)] false) s = .ok s' .unit) ∧
    ∃ s s', ReachOk cfgA Demo.env [twoOdom a b] s ∧ ¬ Spec.Clash [twoOdom a b] ([(a 2, .other 0)] : Vals Demo.Z) ∧
      (∀ x, ¬ Spec.Rootless cfgA [twoOdom a b] s.values [edge (a 1) (a 2) 1] [(a 2, .other 0)] x) ∧
      exec cfgA Demo.env (.update [edge (a 1) (a 2) 1] [(a 2, .other 0)] false) s = .throw s' .wrongType ∧
      edge (a 1) (a 2) 1 ∈ s'.nfg := by
  refine ⟨?_, ?_⟩
  · obtain ⟨s, r, h⟩ := Demo.runs_reach (cfg := Demo.cfg) (env := Demo.env) (ops := [twoOdom a b])
      (P := fun s => match exec Demo.cfg Demo.env (.update [edge (a 1) (a 2) 1] [(a 2, .other 0)] false) s with
        | .ok _ .unit => true | _ => false) (by decide +kernel)
    cases e : exec Demo.cfg Demo.env (.update [edge (a 1) (a 2) 1] [(a 2, .other 0)] false) s with
    | ok s' x =>
      rw [e] at h
      cases x with
      | unit => exact ⟨s, s', r, e⟩
      | _ => cases h
    | throw _ _ => rw [e] at h; cases h
    | ub _ => rw [e] at h; cases h
  · obtain ⟨s, r, h⟩ := Demo.runs_reach (cfg := cfgA) (env := Demo.env) (ops := [twoOdom a b])
      (P := fun s => match exec cfgA Demo.env (.update [edge (a 1) (a 2) 1] [(a 2, .other 0)] false) s with
        | .throw s' .wrongType => decide (edge (a 1) (a 2) 1 ∈ s'.nfg) | _ => false) (by decide +kernel)
    have hno : ∀ x, ¬ Spec.Rootless cfgA [twoOdom a b] s.values [edge (a 1) (a 2) 1] [(a 2, .other 0)] x := by
      rintro x ⟨pre, post, h1, h2, -⟩
      have ho : Spec.odoms cfgA [((a 2, .other 0) : Key × Val Demo.Z)] [edge (a 1) (a 2) 1] = [btw (a 1) (a 2) 1] := by decide +kernel
      rw [ho] at h1
      rcases pre with _ | ⟨y, pre⟩
      · simp only [List.nil_append, List.cons.injEq] at h1
        rw [← h1.1] at h2
        exact h2 (btw (a 0) (a 1) 1) (by decide +kernel) (by decide +kernel)
      · simp at h1
    cases e : exec cfgA Demo.env (.update [edge (a 1) (a 2) 1] [(a 2, .other 0)] false) s with
    | throw s' x =>
      rw [e] at h
      cases x with
      | wrongType => exact ⟨s, s', r, noClash_of (by decide +kernel) (by decide +kernel), hno, e, of_decide_eq_true h⟩
      | _ => cases h
    | ok _ _ => rw [e] at h; cases h
    | ub _ => rw [e] at h; cases h

end RPGO.Props
