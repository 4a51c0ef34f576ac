import Verif.Proofs.Opt
import Verif.Props.Prefix
/-
C21 odometry-only updates; C34 keys of the estimate; C35 optimization and the graph; C36 temporary factors.
-/

namespace RPGO.Props
open RPGO
variable {G T N : Type} [Mul G] [Inv G] [One G]

/-! ### C34 -/

/-- C34: after any history of calls that returned normally, the estimate has an entry for exactly the keys supplied by
update calls, in increasing order and once each. No assumption is made on the optimizer or on the averaging. -/
theorem C34_estimate_keys {cfg : Cfg G T N} {env : Env G N} {h : List (Op G N)} {s : St G T N} (r : ReachOk cfg env h s) :
    (∀ k, k ∈ s.values.keys ↔ ∃ op ∈ h, k ∈ Spec.opKeys op) ∧ s.values.keys.Pairwise (fun a b => a.toNat < b.toNat) := by
  obtain ⟨h1, h2⟩ := reach_values r.reach
  refine ⟨fun k => ⟨fun hk => h2 k ((KMap.mem_keys_iff _ _).1 hk), fun hk => (KMap.mem_keys_iff _ _).2 (reachOk_values r k hk)⟩, h1⟩

/-- C34, with calls that threw: the keys of the estimate are among the keys supplied, and no call, whether it returns
or throws, loses a key or adds a key it did not supply. -/
theorem C34_keys_with_failures {cfg : Cfg G T N} {env : Env G N} {h : List (Op G N)} {s : St G T N} (r : Reach cfg env h s) :
    (∀ k ∈ s.values.keys, ∃ op ∈ h, k ∈ Spec.opKeys op) ∧
    ∀ op s', Spec.Call cfg env op s s' →
      (∀ k ∈ s.values.keys, k ∈ s'.values.keys) ∧ (∀ k ∈ s'.values.keys, k ∈ s.values.keys ∨ k ∈ Spec.opKeys op) := by
  obtain ⟨h1, h2⟩ := reach_values r
  refine ⟨fun k hk => h2 k ((KMap.mem_keys_iff _ _).1 hk), fun op s' c => ?_⟩
  have hv : VGrow (Spec.opKeys op) s s' := call_ends c (exec_adds cfg env op s).1
  refine ⟨fun k hk => (KMap.mem_keys_iff _ _).2 (hv.mono k ((KMap.mem_keys_iff _ _).1 hk)), fun k hk => ?_⟩
  exact (hv.only k ((KMap.mem_keys_iff _ _).1 hk)).imp (fun h => (KMap.mem_keys_iff _ _).2 h) id

set_option maxRecDepth 100000 in
/-- Four poses, a closure, temporary values and a removal. -/
example : ∃ s, ReachOk Demo.cfg Demo.env (Demo.h1 ++ [.tempUpdate [] [Demo.pose (Demo.b 0) 0], .removeLast]) s ∧
    s.values.keys = [Demo.a 0, Demo.a 1, Demo.a 2, Demo.a 3] := by
  obtain ⟨s, r, h⟩ := Demo.runs_reach (cfg := Demo.cfg) (env := Demo.env)
    (ops := Demo.h1 ++ [.tempUpdate [] [Demo.pose (Demo.b 0) 0], .removeLast])
    (P := fun s => decide (s.values.keys = [Demo.a 0, Demo.a 1, Demo.a 2, Demo.a 3])) (by decide +kernel)
  exact ⟨s, r, by simpa using h⟩

/-! ### C35 -/

/-- C35 (part): two runs of the same calls that both succeed have the same factor graph and the same estimate keys,
whatever the optimizer returns, whichever optimizer settings are chosen, whatever the optimize flags are (`update` may
even be replaced by `forceUpdate`) and whatever queries, overwritten estimates or temporary factors are interspersed —
provided the first pose of each robot is supplied together with the first odometry factor of that robot (`StartsGiven`).
Missing: histories where it is not; for them the claim is false, see `C35_false_late_start`. -/
theorem C35_same_graph_partial {cfg : Cfg G T N} {e1 e2 : Env G N} (hlc : e1.iterLC = e2.iterLC) (hlm : e1.iterLM = e2.iterLM)
    (lm debug log useGnc fixPrev biasOdom : Bool) {h1 h2 : List (Op G N)} (hc : Spec.SameCalls h1 h2)
    (hg : Spec.StartsGiven cfg h1) {s1 s2 : St G T N} (r1 : ReachOk cfg e1 h1 s1)
    (r2 : ReachOk (cfg.withOpt lm debug log useGnc fixPrev biasOdom) e2 h2 s2) :
    s1.nfg = s2.nfg ∧ s1.values.keys = s2.values.keys := by
  have hs := sameCalls_sim ⟨hlc, hlm⟩ lm debug log useGnc fixPrev biasOdom hc (fun _ => hg) r1 r2
  refine ⟨hs.nfg, ?_⟩
  have k1 := (reach_values r1.reach).1
  have k2 := (reach_values r2.reach).1
  refine List.Pairwise.eq_of_mem_iff (r := fun a b : Key => a.toNat < b.toNat) k1 k2 (fun k => ?_)
  rw [KMap.mem_keys_iff, KMap.mem_keys_iff, hs.has]

/-! A check of `StartsGiven` for concrete histories. -/

def startsFs (cfg : Cfg G T N) (vs : Vals G) : List Chr → Graph G N → Bool
  | _, [] => true
  | seen, some (.btw b) :: t =>
    if Spec.isOdom cfg vs b then (decide (b.k1 ∈ vs.keys) || decide (chr b.k2 ∈ seen)) && startsFs cfg vs (chr b.k2 :: seen) t
    else startsFs cfg vs seen t
  | seen, _ :: t => startsFs cfg vs seen t

def starts (cfg : Cfg G T N) : List Chr → List (Op G N) → Bool
  | _, [] => true
  | seen, op :: t =>
    (match Spec.batch op with
      | some (fs, vs) => startsFs cfg vs seen fs
      | none => true) && starts cfg (seen ++ (Spec.opOdom cfg op).map fun b => chr b.k2) t

theorem startsFs_sound {cfg : Cfg G T N} {vs : Vals G} {seen : List Chr} {fs : Graph G N} (h : startsFs cfg vs seen fs = true) :
    ∀ fs1 b fs2, fs = fs1 ++ some (.btw b) :: fs2 → Spec.isOdom cfg vs b = true →
      b.k1 ∈ vs.keys ∨ chr b.k2 ∈ seen ∨ ∃ b' ∈ Spec.odoms cfg vs fs1, chr b'.k2 = chr b.k2 := by
  induction fs generalizing seen with
  | nil => intro fs1 b fs2 e; simp at e
  | cons f t ih =>
    intro fs1 b fs2 e ho
    cases fs1 with
    | nil =>
      simp only [List.nil_append, List.cons.injEq] at e
      obtain ⟨rfl, rfl⟩ := e
      simp only [startsFs, ho, if_true, Bool.and_eq_true, Bool.or_eq_true, decide_eq_true_eq] at h
      rcases h.1 with h | h
      · exact Or.inl h
      · exact Or.inr (Or.inl h)
    | cons g fs1 =>
      simp only [List.cons_append, List.cons.injEq] at e
      obtain ⟨rfl, rfl⟩ := e
      have mono : ∀ b' ∈ Spec.odoms cfg vs fs1, b' ∈ Spec.odoms cfg vs (f :: fs1) := by
        intro b' hb'
        unfold Spec.odoms at hb' ⊢
        rw [List.mem_filter] at hb' ⊢
        refine ⟨?_, hb'.2⟩
        have := hb'.1
        rw [mem_btws] at this ⊢
        exact List.mem_cons_of_mem _ this
      match f, h with
      | none, h =>
        rcases ih h fs1 b fs2 rfl ho with h | h | ⟨b', h1, h2⟩
        · exact Or.inl h
        · exact Or.inr (Or.inl h)
        · exact Or.inr (Or.inr ⟨b', mono b' h1, h2⟩)
      | some (.prior _ _), h | some (.priorAlt _ _), h | some (.other _ _), h =>
        rcases ih h fs1 b fs2 rfl ho with h | h | ⟨b', h1, h2⟩
        · exact Or.inl h
        · exact Or.inr (Or.inl h)
        · exact Or.inr (Or.inr ⟨b', mono b' h1, h2⟩)
      | some (.btw b0), h =>
        simp only [startsFs] at h
        split at h
        · rename_i h0
          rw [Bool.and_eq_true] at h
          rcases ih h.2 fs1 b fs2 rfl ho with h | h | ⟨b', h1, h2⟩
          · exact Or.inl h
          · rcases List.mem_cons.1 h with h | h
            · refine Or.inr (Or.inr ⟨b0, ?_, h.symm⟩)
              unfold Spec.odoms
              rw [List.mem_filter]
              exact ⟨by rw [mem_btws]; simp, h0⟩
            · exact Or.inr (Or.inl h)
          · exact Or.inr (Or.inr ⟨b', mono b' h1, h2⟩)
        · rcases ih h fs1 b fs2 rfl ho with h | h | ⟨b', h1, h2⟩
          · exact Or.inl h
          · exact Or.inr (Or.inl h)
          · exact Or.inr (Or.inr ⟨b', mono b' h1, h2⟩)

theorem starts_sound {cfg : Cfg G T N} {h : List (Op G N)} (hs : starts cfg [] h = true) : Spec.StartsGiven cfg h := by
  have key : ∀ (h : List (Op G N)) (seen : List Chr), starts cfg seen h = true →
      ∀ h1 op h2 fs vs fs1 b fs2, h = h1 ++ op :: h2 → Spec.batch op = some (fs, vs) → fs = fs1 ++ some (.btw b) :: fs2 →
        Spec.isOdom cfg vs b = true →
        b.k1 ∈ vs.keys ∨ chr b.k2 ∈ seen ∨ ∃ b' ∈ Spec.odomSoFar cfg h1 ++ Spec.odoms cfg vs fs1, chr b'.k2 = chr b.k2 := by
    intro h
    induction h with
    | nil => intro _ _ h1 op h2 fs vs fs1 b fs2 e; simp at e
    | cons o t ih =>
      intro seen hs h1 op h2 fs vs fs1 b fs2 e hb hfs ho
      unfold starts at hs
      rw [Bool.and_eq_true] at hs
      cases h1 with
      | nil =>
        simp only [List.nil_append, List.cons.injEq] at e
        obtain ⟨rfl, rfl⟩ := e
        have h0 := hs.1
        rw [hb] at h0
        rcases startsFs_sound h0 fs1 b fs2 hfs ho with h | h | ⟨b', h1, h2⟩
        · exact Or.inl h
        · exact Or.inr (Or.inl h)
        · exact Or.inr (Or.inr ⟨b', by simp [h1], h2⟩)
      | cons o' h1 =>
        simp only [List.cons_append, List.cons.injEq] at e
        obtain ⟨rfl, rfl⟩ := e
        rcases ih _ hs.2 h1 op h2 fs vs fs1 b fs2 rfl hb hfs ho with h | h | ⟨b', h1, h2⟩
        · exact Or.inl h
        · rcases List.mem_append.1 h with h | h
          · exact Or.inr (Or.inl h)
          · obtain ⟨b', hb', e'⟩ := List.mem_map.1 h
            exact Or.inr (Or.inr ⟨b', by simp [Spec.odomSoFar, hb'], e'⟩)
        · refine Or.inr (Or.inr ⟨b', ?_, h2⟩)
          rcases List.mem_append.1 h1 with h1 | h1
          · unfold Spec.odomSoFar at h1 ⊢
            simp only [List.flatMap_cons, List.mem_append]
            exact Or.inl (Or.inr h1)
          · exact List.mem_append_right _ h1
  intro h1 op h2 fs vs fs1 b fs2 e hb hfs ho
  rcases key h [] hs h1 op h2 fs vs fs1 b fs2 e hb hfs ho with h | h | h
  · exact Or.inl h
  · simp at h
  · exact Or.inr h

/-- An optimizer that moves `a0` to 100. -/
def mover : Env Demo.Z Demo.Ns := { Demo.env with opt := fun _ v => some (v.set (Demo.a 0) (.pose (Demo.z 100))) }

set_option maxRecDepth 100000 in
/-- The demo history, and the same with other optimize flags, a `forceUpdate`, temporary factors, another optimizer and
other optimizer settings: both succeed, `C35_same_graph_partial` applies. -/
example : ∃ s1 s2, ReachOk Demo.cfg Demo.env Demo.h1 s1 ∧
    ReachOk (Demo.cfg.withOpt false false true false false true) mover
      [.update [some (.prior (Demo.a 0) (Demo.z 0)), Demo.edge (Demo.a 0) (Demo.a 1) 1]
        [Demo.pose (Demo.a 0) 0, Demo.pose (Demo.a 1) 1] false,
       .tempUpdate [Demo.edge (Demo.a 0) (Demo.a 1) 7] [],
       .update [Demo.edge (Demo.a 1) (Demo.a 2) 1] [Demo.pose (Demo.a 2) 2] false,
       .forceUpdate [Demo.edge (Demo.a 2) (Demo.a 3) 1] [Demo.pose (Demo.a 3) 3],
       .update [Demo.edge (Demo.a 0) (Demo.a 2) 2, Demo.edge (Demo.a 0) (Demo.a 3) 3] [] true] s2 ∧
    s1.nfg = s2.nfg ∧ s1.values ≠ s2.values ∧ Spec.StartsGiven Demo.cfg Demo.h1 := by
  obtain ⟨s1, r1, e1⟩ := Demo.runs_reach (cfg := Demo.cfg) (env := Demo.env) (ops := Demo.h1)
    (P := fun s => decide (s.values.find? (Demo.a 0) = some (.pose (Demo.z 0)))) (by decide +kernel)
  obtain ⟨s2, r2, e2⟩ := Demo.runs_reach (cfg := Demo.cfg.withOpt false false true false false true) (env := mover) (ops :=
      [.update [some (.prior (Demo.a 0) (Demo.z 0)), Demo.edge (Demo.a 0) (Demo.a 1) 1]
        [Demo.pose (Demo.a 0) 0, Demo.pose (Demo.a 1) 1] false,
       .tempUpdate [Demo.edge (Demo.a 0) (Demo.a 1) 7] [],
       .update [Demo.edge (Demo.a 1) (Demo.a 2) 1] [Demo.pose (Demo.a 2) 2] false,
       .forceUpdate [Demo.edge (Demo.a 2) (Demo.a 3) 1] [Demo.pose (Demo.a 3) 3],
       .update [Demo.edge (Demo.a 0) (Demo.a 2) 2, Demo.edge (Demo.a 0) (Demo.a 3) 3] [] true])
    (P := fun s => decide (s.values.find? (Demo.a 0) = some (.pose (Demo.z 100)))) (by decide +kernel)
  have hg : Spec.StartsGiven Demo.cfg Demo.h1 := starts_sound (by decide +kernel)
  have hc : Spec.SameCalls Demo.h1
      [.update [some (.prior (Demo.a 0) (Demo.z 0)), Demo.edge (Demo.a 0) (Demo.a 1) 1]
        [Demo.pose (Demo.a 0) 0, Demo.pose (Demo.a 1) 1] false,
       .tempUpdate [Demo.edge (Demo.a 0) (Demo.a 1) 7] [],
       .update [Demo.edge (Demo.a 1) (Demo.a 2) 1] [Demo.pose (Demo.a 2) 2] false,
       .forceUpdate [Demo.edge (Demo.a 2) (Demo.a 3) 1] [Demo.pose (Demo.a 3) 3],
       .update [Demo.edge (Demo.a 0) (Demo.a 2) 2, Demo.edge (Demo.a 0) (Demo.a 3) 3] [] true] :=
    .both (h1 := _) (h2 := [_, _, _, _]) (.both (h1 := [_, _]) (h2 := [_, _, _]) (.both (h1 := [_]) (h2 := [_, _])
      (.right (h2 := [_]) (o := .tempUpdate _ _) (.both (h1 := []) (h2 := []) .nil (Or.inr (Or.inl ⟨_, rfl, rfl⟩))) trivial)
      (Or.inr (Or.inl ⟨_, rfl, rfl⟩))) (Or.inr (Or.inl ⟨_, rfl, rfl⟩))) (Or.inr (Or.inl ⟨_, rfl, rfl⟩))
  refine ⟨s1, s2, r1, r2, (C35_same_graph_partial (e1 := Demo.env) (e2 := mover) rfl rfl _ _ _ _ _ _ hc hg r1 r2).1, ?_, hg⟩
  intro e
  simp only [decide_eq_true_eq] at e1 e2
  rw [e, e2] at e1
  exact absurd e1 (by decide +kernel)

/-- A robot whose first pose is supplied, with a prior, one update before its first odometry factor; then a closure to
a pose that has a value but no odometry. -/
def lateStart (o : Bool) : List (Op Demo.Z Demo.Ns) :=
  [.update [some (.prior (Demo.a 0) (Demo.z 0))] [Demo.pose (Demo.a 0) 0] o,
   .update [Demo.edge (Demo.a 0) (Demo.a 1) 1] [Demo.pose (Demo.a 1) 1] false,
   .update [Demo.edge (Demo.a 0) (Demo.a 7) 0] [Demo.pose (Demo.a 7) 0] false]

set_option maxRecDepth 100000 in
/-- C35 is false in general: the trajectory of a robot starts at the current estimate of its first pose, so an
optimization before the first odometry factor can decide whether a later closure passes. -/
theorem C35_false_late_start :
    ∃ s1 s2, ReachOk Demo.cfg mover (lateStart true) s1 ∧ ReachOk Demo.cfg mover (lateStart false) s2 ∧
      Demo.edge (Demo.a 0) (Demo.a 7) 0 ∉ s1.nfg ∧ Demo.edge (Demo.a 0) (Demo.a 7) 0 ∈ s2.nfg := by
  obtain ⟨s1, r1, e1⟩ := Demo.runs_reach (cfg := Demo.cfg) (env := mover) (ops := lateStart true)
    (P := fun s => decide (Demo.edge (Demo.a 0) (Demo.a 7) 0 ∉ s.nfg)) (by decide +kernel)
  obtain ⟨s2, r2, e2⟩ := Demo.runs_reach (cfg := Demo.cfg) (env := mover) (ops := lateStart false)
    (P := fun s => decide (Demo.edge (Demo.a 0) (Demo.a 7) 0 ∈ s.nfg)) (by decide +kernel)
  exact ⟨s1, s2, r1, r2, by simpa using e1, by simpa using e2⟩

/-! ### C21 -/

/-- C21, first half: with outlier rejection an update without loop-closure candidates and without other factors (so only
odometry and first landmark observations) does the same whatever the optimizers do: they are not run. -/
theorem C21_optimizer_not_run {cfg : Cfg G T N} {env : Env G N} (hr : cfg.rejection = true) {fs : Graph G N} {vs : Vals G}
    (h1 : Spec.cands cfg vs fs = []) (h2 : Spec.specials fs = []) (o : Bool) (s : St G T N)
    (opt : Graph G N → Vals G → Option (Vals G))
    (gnc : Graph G N → Vals G → List Nat → Option (List Rat) → Option (Vals G × List Rat)) :
    exec cfg { env with opt := opt, gnc := gnc } (.update fs vs o) s = exec cfg env (.update fs vs o) s := by
  show ((update cfg { env with opt := opt, gnc := gnc } fs vs o).ret fun _ => Ret.unit) s = ((update cfg env fs vs o).ret fun _ => Ret.unit) s
  unfold update
  rw [cond_true hr, cond_true hr]
  unfold M.ret
  simp only [M.bind_eq]
  simp only [M.bind_apply]
  have hsame : removeOutliers cfg { env with opt := opt, gnc := gnc } fs vs s = removeOutliers cfg env fs vs s := rfl
  rw [hsame]
  cases e : removeOutliers cfg env fs vs s with
  | ub u => rfl
  | throw s1 x => rfl
  | ok s1 r =>
    obtain ⟨_, _, hr, _⟩ := removeOutliers_ok e
    rw [h1, h2] at hr
    simp only [List.isEmpty_nil, Bool.not_true, Bool.or_false] at hr
    subst hr
    rfl

/-- Existing estimates are kept. -/
def Kept (s s' : St G T N) : Prop := ∀ k ∈ s.values.keys, s'.values.find? k = s.values.find? k

omit [Mul G] [Inv G] [One G] in
theorem insert_kept {vs v v' : Vals G} (h : (∃ a, insertVals vs v = .ok v' a) ∨ ∃ x, insertVals vs v = .throw v' x) :
    ∀ k ∈ v.keys, v'.find? k = v.find? k := by
  have hE := insertVals_ends vs v
  intro k hk
  have hk := (KMap.mem_keys_iff _ _).1 hk
  rcases h with ⟨_, e⟩ | ⟨_, e⟩
  · exact (hE.of_ok e).2.1 k hk
  · exact (hE.of_throw e).2.1 k hk

theorem removeOutliers_kept {cfg : Cfg G T N} {env : Env G N} {fs : Graph G N} {vs : Vals G} {s : St G T N}
    (h1 : Spec.cands cfg vs fs = [])
    (ha : cfg.align = false ∨ ∀ v1 p1, Sorted cfg vs v1 fs s.pcm p1 → p1.robotOrder.length ≤ 1) :
    M.Ends (Kept s) (removeOutliers cfg env fs vs s) := by
  unfold removeOutliers
  simp only [M.bind_eq]
  refine ends_bind (P := fun s1 : St G T N => s1.pcm = s.pcm ∧ Kept s s1) ?_ (fun _ h => h.2) ?_
  · unfold onValues M.zoom
    cases h : insertVals vs s.values with
    | ub u => trivial
    | throw v x => exact ⟨rfl, insert_kept (Or.inr ⟨_, h⟩)⟩
    | ok v x => exact ⟨rfl, insert_kept (Or.inl ⟨_, h⟩)⟩
  · rintro s1 - - ⟨hp, hk⟩
    unfold M.cond
    split
    · exact hk
    · unfold processFactors
      simp only [M.bind_eq]
      rw [M.bind_ok (M.get_apply _)]
      rw [M.bind_apply, onPcm_apply]
      cases h : sortFactors cfg vs s1.values fs [] false s1.pcm with
      | ub u => trivial
      | throw p x => exact hk
      | ok p x =>
        obtain ⟨x1, x2⟩ := x
        obtain ⟨hS, hx1, hx2⟩ := sortFactors_ok _ _ _ _ _ _ _ _ _ h
        simp only [h1, List.append_nil, List.nil_append] at hx1
        subst hx1
        simp only
        have hreb : ∀ s : St G T N, (rebuild env : M (St G T N) Unit) s = .ok { s with nfg := buildGraph env s.pcm } () := fun _ => rfl
        have hw : (M.when (decide (([] : List (Btw G N)).length > 0)) (onPcm (processCands cfg s1.values [])) : M (St G T N) Unit)
          { s1 with pcm := p } = .ok { s1 with pcm := p } () := rfl
        rw [M.bind_ok hw, M.bind_ok (hreb _)]
        rw [M.bind_ok (alignStep_off (by
          rcases ha with ha | ha
          · exact Or.inl ha
          · exact Or.inr (ha s1.values p (hp ▸ hS))))]
        exact hk

/-- The tail of `update` does nothing to the state if there is nothing to optimize. -/
theorem update_quiet {cfg : Cfg G T N} {env : Env G N} (hr : cfg.rejection = true) {fs : Graph G N} {vs : Vals G}
    (h1 : Spec.cands cfg vs fs = []) (h2 : Spec.specials fs = []) (o : Bool) {s : St G T N} {P : St G T N → Prop}
    (h : M.Ends P (removeOutliers cfg env fs vs s)) : M.Ends P (exec cfg env (.update fs vs o) s) := by
  show M.Ends P (((update cfg env fs vs o).ret fun _ => Ret.unit) s)
  unfold update
  rw [cond_true hr]
  simp only [M.bind_eq]
  refine ends_ret ?_
  refine ends_bind h (fun _ h => h) ?_
  intro s1 r e hP
  obtain ⟨_, _, hr, _⟩ := removeOutliers_ok e
  rw [h1, h2] at hr
  simp only [List.isEmpty_nil, Bool.not_true, Bool.or_false] at hr
  subst hr
  refine ends_bind (P := P) hP (fun _ h => h) ?_
  intro s2 _ _ hP2
  unfold M.when
  split
  · exact M.Ends.mono (fun s' e => by rw [e]; exact hP2) (logStatus_same cfg s2)
  · exact hP2

/-- C21, second half, without frame alignment: such an update leaves every existing estimate unchanged, also if it
throws, and if it returns it adds exactly the supplied values.
Missing: frame alignment, see `C21_estimates_kept_one_robot_partial` and `C21_false_alignment`. -/
theorem C21_estimates_kept_partial {cfg : Cfg G T N} {env : Env G N} (hr : cfg.rejection = true) (ha : cfg.align = false)
    {fs : Graph G N} {vs : Vals G} (h1 : Spec.cands cfg vs fs = []) (h2 : Spec.specials fs = []) (o : Bool) {s s' : St G T N}
    (c : Spec.Call cfg env (.update fs vs o) s s') :
    (∀ k ∈ s.values.keys, s'.values.find? k = s.values.find? k) ∧
    ((∃ x, exec cfg env (.update fs vs o) s = .ok s' x) → ∀ k ∉ s.values.keys, s'.values.find? k = vs.find? k) := by
  refine ⟨call_ends c (update_quiet hr h1 h2 o (removeOutliers_kept h1 (Or.inl ha))), ?_⟩
  rintro ⟨x, e⟩ k hk
  obtain ⟨s1, r, e1, _, h4⟩ := exec_batch_ok hr (op := .update fs vs o) rfl e
  obtain ⟨v1, hi, hr', hcase⟩ := removeOutliers_ok e1
  rw [h1, h2] at hr'
  simp only [List.isEmpty_nil, Bool.not_true, Bool.or_false] at hr'
  have := h4 o rfl (by rw [hr']; rfl)
  subst this
  have hv : s'.values = v1 := by
    rcases hcase with ⟨_, e⟩ | ⟨_, p1, p2, o, _, _, _, _, e⟩
    · rw [e]
    · rw [alignStep_off (Or.inl ha)] at e
      cases e; rfl
  rw [hv, (insertVals_ok hi).1 k, if_neg]
  rw [KMap.mem_keys_iff] at hk
  exact hk

/-- C21, second half, with frame alignment: the same as long as all odometry supplied so far, including this batch, is of
one robot. Missing: two robots, for which it is false, see `C21_false_alignment`. -/
theorem C21_estimates_kept_one_robot_partial {cfg : Cfg G T N} {env : Env G N} (hr : cfg.rejection = true) {h : List (Op G N)}
    {fs : Graph G N} {vs : Vals G} (h1 : Spec.cands cfg vs fs = []) (h2 : Spec.specials fs = []) (o : Bool) {s s' : St G T N}
    (r : Reach cfg env h s) {c : Chr} (hc : ∀ op ∈ h ++ [.update fs vs o], ∀ b ∈ Spec.opOdom cfg op, chr b.k2 = c)
    (cl : Spec.Call cfg env (.update fs vs o) s s') :
    (∀ k ∈ s.values.keys, s'.values.find? k = s.values.find? k) ∧
    ((∃ x, exec cfg env (.update fs vs o) s = .ok s' x) → ∀ k ∉ s.values.keys, s'.values.find? k = vs.find? k) := by
  have one : ∀ v1 p1, Sorted cfg vs v1 fs s.pcm p1 → p1.robotOrder.length ≤ 1 := by
    intro v1 p1 hS
    have hR := r.robots hr
    obtain ⟨i1, i2, i3⟩ := hS.run.robots hR.nodup hR.traj
    refine one_robot i1 (c := c) fun x hx => ?_
    rcases i3 x hx with hx | ⟨b, hb, e⟩
    · obtain ⟨op, ho, b, hb, e⟩ := hR.odom x hx
      rw [← e]
      exact hc op (by simp [ho]) b hb
    · rw [← e]
      exact hc (.update fs vs o) (by simp) b hb
  refine ⟨call_ends cl (update_quiet hr h1 h2 o (removeOutliers_kept h1 (Or.inr one))), ?_⟩
  rintro ⟨x, e⟩ k hk
  obtain ⟨s1, r, e1, _, h4⟩ := exec_batch_ok hr (op := .update fs vs o) rfl e
  obtain ⟨v1, hi, hr', hcase⟩ := removeOutliers_ok e1
  rw [h1, h2] at hr'
  simp only [List.isEmpty_nil, Bool.not_true, Bool.or_false] at hr'
  have := h4 o rfl (by rw [hr']; rfl)
  subst this
  have hv : s'.values = v1 := by
    rcases hcase with ⟨_, e⟩ | ⟨_, p1, p2, o, _, hS, hp, _, e⟩
    · rw [e]
    · rw [alignStep_off (Or.inr (by rw [hp h1]; exact one v1 p1 hS))] at e
      cases e; rfl
  rw [hv, (insertVals_ok hi).1 k, if_neg]
  rw [KMap.mem_keys_iff] at hk
  exact hk

/-- The demo solver with frame alignment. -/
def demoAlign : Cfg Demo.Z Demo.Tp Demo.Ns := { Demo.cfg with align := true }

set_option maxRecDepth 100000 in
/-- A successful odometry update after closures, with alignment: the hypotheses are met. -/
example : ∃ s s', ReachOk demoAlign Demo.env Demo.h1 s ∧
    (∃ x, exec demoAlign Demo.env (.update [Demo.edge (Demo.a 3) (Demo.a 4) 1] [Demo.pose (Demo.a 4) 9] true) s = .ok s' x) ∧
    (∀ op ∈ Demo.h1 ++ [.update [Demo.edge (Demo.a 3) (Demo.a 4) 1] [Demo.pose (Demo.a 4) 9] true],
      ∀ b ∈ Spec.opOdom demoAlign op, chr b.k2 = 97) ∧
    s'.values.find? (Demo.a 4) = some (.pose (Demo.z 9)) := by
  obtain ⟨s, r, h⟩ := Demo.runs_reach (cfg := demoAlign) (env := Demo.env) (ops := Demo.h1)
    (P := fun s => match exec demoAlign Demo.env (.update [Demo.edge (Demo.a 3) (Demo.a 4) 1] [Demo.pose (Demo.a 4) 9] true) s with
      | .ok s' _ => decide (s'.values.find? (Demo.a 4) = some (.pose (Demo.z 9)))
      | _ => false) (by decide +kernel)
  split at h
  · rename_i s' x e
    exact ⟨s, s', r, ⟨x, e⟩, by decide +kernel, by simpa using h⟩
  · cases h

set_option maxRecDepth 100000 in
/-- C21 is false with frame alignment and two robots: the first odometry factor of robot `b` moves `a1` from the supplied
value 5 to 1, where the odometry of `a` puts it. -/
theorem C21_false_alignment :
    ∃ s s', ReachOk demoAlign Demo.env
        [.update [Demo.edge (Demo.a 0) (Demo.a 1) 1] [Demo.pose (Demo.a 0) 0, Demo.pose (Demo.a 1) 5] true] s ∧
      Spec.Call demoAlign Demo.env
        (.update [Demo.edge (Demo.b 0) (Demo.b 1) 1] [Demo.pose (Demo.b 0) 0, Demo.pose (Demo.b 1) 1] true) s s' ∧
      s.values.find? (Demo.a 1) = some (.pose (Demo.z 5)) ∧ s'.values.find? (Demo.a 1) = some (.pose (Demo.z 1)) := by
  obtain ⟨s, r, h⟩ := Demo.runs_reach (cfg := demoAlign) (env := Demo.env)
    (ops := [.update [Demo.edge (Demo.a 0) (Demo.a 1) 1] [Demo.pose (Demo.a 0) 0, Demo.pose (Demo.a 1) 5] true])
    (P := fun s => match exec demoAlign Demo.env
        (.update [Demo.edge (Demo.b 0) (Demo.b 1) 1] [Demo.pose (Demo.b 0) 0, Demo.pose (Demo.b 1) 1] true) s with
      | .ok s' _ => decide (s.values.find? (Demo.a 1) = some (.pose (Demo.z 5)) ∧
          s'.values.find? (Demo.a 1) = some (.pose (Demo.z 1)))
      | _ => false) (by decide +kernel)
  split at h
  · rename_i s' x e
    simp only [decide_eq_true_eq] at h
    exact ⟨s, s', r, Or.inl ⟨x, e⟩, h⟩
  · cases h

/-! ### C36 -/

/-- Calls that only concern temporary factors and values. -/
def isTemp : Op G N → Bool
  | .tempUpdate _ _ => true
  | .tempReplace _ _ => true
  | .tempClear => true
  | _ => false

theorem temp_frame {cfg : Cfg G T N} {env : Env G N} {op : Op G N} (ho : isTemp op = true) {s s' : St G T N}
    (c : Spec.Call cfg env op s s') : s' = { s with tempNfg := s'.tempNfg, tempValues := s'.tempValues } := by
  cases op with
  | tempUpdate fs vs =>
    refine call_ends c (P := fun s' => s' = { s with tempNfg := s'.tempNfg, tempValues := s'.tempValues }) ?_
    show M.Ends _ (((M.zoom (fun s => s.tempValues) (fun v s => { s with tempValues := v }) (insertVals vs) : M (St G T N) Unit).ret
        fun _ => Ret.unit) { s with tempNfg := s.tempNfg ++ fs })
    refine ends_ret ?_
    unfold M.zoom
    cases insertVals vs s.tempValues with
    | ub u => trivial
    | throw v x => exact rfl
    | ok v x => exact rfl
  | tempReplace fs vs =>
    rcases c with ⟨_, e⟩ | ⟨_, e⟩ <;> cases e
    rfl
  | tempClear =>
    rcases c with ⟨_, e⟩ | ⟨_, e⟩ <;> cases e
    rfl
  | _ => cases ho

/-- C36, first part: after any number of calls that add or replace temporary factors and values, whether they return or
throw, nothing but the temporary part has changed: the factor graph, the estimate and everything else is as before. -/
theorem C36_temp_isolated {cfg : Cfg G T N} {env : Env G N} {s s1 : St G T N} {ops : List (Op G N)}
    (ho : ∀ op ∈ ops, isTemp op = true) (c : Spec.Steps cfg env s ops s1) :
    s1 = { s with tempNfg := s1.tempNfg, tempValues := s1.tempValues } := by
  induction c with
  | nil => rfl
  | @snoc h s1 op s2 _ c ih =>
    have e1 := ih (fun op hop => ho op (by simp [hop]))
    have e2 := temp_frame (ho op (by simp)) c
    rw [e2, e1]

/-- C36, second part: clearing removes the temporary factors and values completely: afterwards the solver is as if they
had never been supplied. -/
theorem C36_clear_undoes {cfg : Cfg G T N} {env : Env G N} {s s1 s2 : St G T N} {ops : List (Op G N)}
    (ho : ∀ op ∈ ops, isTemp op = true) (hs : s.tempNfg = [] ∧ s.tempValues = []) (c : Spec.Steps cfg env s (ops ++ [.tempClear]) s2) :
    s2 = s := by
  have e := C36_temp_isolated (ops := ops ++ [.tempClear])
    (by intro op hop; rcases List.mem_append.1 hop with h | h; exact ho op h; rw [List.mem_singleton] at h; rw [h]; rfl) c
  have hz : s2.tempNfg = [] ∧ s2.tempValues = [] := by
    generalize hh : ops ++ [Op.tempClear] = l at c
    cases c with
    | nil => simp at hh
    | snoc _ c =>
      obtain ⟨_, e2⟩ := List.append_inj' hh rfl
      simp only [List.cons.injEq, and_true] at e2
      subst e2
      rcases c with ⟨_, e⟩ | ⟨_, e⟩ <;> cases e
      exact ⟨rfl, rfl⟩
  rw [e, hz.1, hz.2]
  obtain ⟨h1, h2⟩ := hs
  cases s
  simp only at h1 h2
  subst h1; subst h2
  rfl

/-- C36, third part: what is in the factor graph was supplied by an update call (never by a temporary one), and
likewise for the keys of the estimate, after any history. -/
theorem C36_never_enter {cfg : Cfg G T N} {env : Env G N} (he : env.Ok) {h : List (Op G N)} {s : St G T N}
    (r : Reach cfg env h s) :
    (∀ f, some f ∈ s.nfg → ∃ op ∈ h, isTemp op = false ∧ some f ∈ Spec.opFactors op) ∧
    (∀ k ∈ s.values.keys, ∃ op ∈ h, isTemp op = false ∧ k ∈ Spec.opKeys op) := by
  constructor
  · intro f hf
    rcases reach_supplied he r _ hf with e | ⟨op, ho, hx⟩
    · cases e
    · refine ⟨op, ho, ?_, hx⟩
      cases op <;> first | rfl | (simp [Spec.opFactors] at hx)
  · intro k hk
    obtain ⟨op, ho, hx⟩ := (C34_keys_with_failures r).1 k hk
    refine ⟨op, ho, ?_, hx⟩
    cases op <;> first | rfl | (simp [Spec.opKeys] at hx)

/-- Merging of the temporary values into the estimate. -/
theorem mergeVals_find {v t full : Vals G} (h : mergeVals v t = some full) :
    (∀ k, full.find? k = if k ∈ v.keys then v.find? k else t.find? k) ∧ ∀ k ∈ t.keys, k ∉ v.keys := by
  unfold mergeVals at h
  cases e : insertVals t v with
  | ub u => rw [e] at h; cases h
  | throw v' x => rw [e] at h; cases h
  | ok v' x =>
    rw [e] at h
    cases h
    obtain ⟨h1, h2, _⟩ := insertVals_ok e
    refine ⟨fun k => ?_, fun k hk hk' => ?_⟩
    · rw [h1 k]
      by_cases hk : KMap.has v k = true
      · rw [if_pos hk, if_pos ((KMap.mem_keys_iff _ _).2 hk)]
      · rw [if_neg hk, if_neg (fun h => hk ((KMap.mem_keys_iff _ _).1 h))]
    · rw [KMap.mem_keys_iff, h2 k hk] at hk'
      cases hk'

/-- Which value of the result list ends up at a key: the last one. -/
theorem applyResult_find {res : Vals G} {s s' : St G T N} (h : applyResult res s = .ok s' ()) (hn : res.keys.Nodup) :
    (∀ k, s'.values.find? k = if k ∈ s.values.keys ∧ k ∈ res.keys then res.find? k else s.values.find? k) ∧
    s' = { s with values := s'.values, tempValues := s'.tempValues } := by
  induction res generalizing s with
  | nil => cases h; exact ⟨fun k => by simp [KMap.keys], rfl⟩
  | cons e t ih =>
    obtain ⟨k0, v0⟩ := e
    simp only [KMap.keys, List.map_cons, List.nodup_cons] at hn
    unfold applyResult at h
    have hmem : ∀ (s : St G T N) k, k ∈ s.values.keys ↔ ∃ v, s.values.find? k = some v := by
      intro s k
      rw [KMap.mem_keys_iff]
      unfold KMap.has
      cases KMap.find? s.values k <;> simp
    cases h0 : s.values.find? k0 with
    | some v' =>
      rw [h0] at h
      simp only at h
      split at h
      · obtain ⟨i1, i2⟩ := ih h hn.2
        refine ⟨fun k => ?_, by rw [i2]⟩
        rw [i1 k]
        have hks : k ∈ (s.values.set k0 v0).keys ↔ k ∈ s.values.keys := by
          rw [KMap.mem_keys_iff, KMap.mem_keys_iff, KMap.has_set]
          by_cases e : k0 = k
          · subst e; simp [KMap.has, h0]
          · simp [e]
        simp only [hks]
        by_cases e : k0 = k
        · subst e
          have h2 : k0 ∉ KMap.keys t := hn.1
          have h3 : k0 ∈ KMap.keys ((k0, v0) :: t) := by simp [KMap.keys]
          have h4 : k0 ∈ s.values.keys := (hmem s k0).2 ⟨_, h0⟩
          rw [if_neg (fun h => h2 h.2), if_pos ⟨h4, h3⟩, KMap.find?_set_self]
          simp [KMap.find?]
        · have h3 : k ∈ KMap.keys ((k0, v0) :: t) ↔ k ∈ KMap.keys t := by
            simp only [KMap.keys, List.map_cons, List.mem_cons]
            exact ⟨fun h => h.resolve_left (fun h => e h.symm), Or.inr⟩
          rw [KMap.find?_set_ne _ _ e]
          have h5 : KMap.find? ((k0, v0) :: t) k = KMap.find? t k := by
            simp [KMap.find?, e]
          rw [h5]
          simp only [h3]
      · cases h
    | none =>
      rw [h0] at h
      simp only at h
      have hother : ∀ s1 : St G T N, s1.values = s.values → s1 = { s with values := s1.values, tempValues := s1.tempValues } →
          applyResult t s1 = .ok s' () →
          (∀ k, s'.values.find? k = if k ∈ s.values.keys ∧ k ∈ KMap.keys ((k0, v0) :: t) then KMap.find? ((k0, v0) :: t) k else s.values.find? k) ∧
            s' = { s with values := s'.values, tempValues := s'.tempValues } := by
        intro s1 hv hs1 h
        obtain ⟨i1, i2⟩ := ih h hn.2
        refine ⟨fun k => ?_, by rw [i2, hs1]⟩
        rw [i1 k, hv]
        by_cases e : k0 = k
        · subst e
          have h4 : k0 ∉ s.values.keys := fun h => by
            obtain ⟨v, hv⟩ := (hmem s k0).1 h
            rw [h0] at hv; cases hv
          rw [if_neg (fun h => h4 h.1), if_neg (fun h => h4 h.1)]
        · have h3 : k ∈ KMap.keys ((k0, v0) :: t) ↔ k ∈ KMap.keys t := by
            simp only [KMap.keys, List.map_cons, List.mem_cons]
            exact ⟨fun h => h.resolve_left (fun h => e h.symm), Or.inr⟩
          have h5 : KMap.find? ((k0, v0) :: t) k = KMap.find? t k := by
            simp [KMap.find?, e]
          rw [h5]
          simp only [h3]
      cases h1 : s.tempValues.find? k0 with
      | some v' =>
        rw [h1] at h
        simp only at h
        split at h
        · exact hother _ (by simp) (by simp) h
        · cases h
      | none =>
        rw [h1] at h
        exact hother _ rfl rfl h

/-- C36, fourth part: temporary factors and values take part in optimization. When a forced optimization (without fixed
previous inliers) succeeds, the optimizer was given the factor graph followed by the temporary factors, and the estimate
completed by the temporary values, which have other keys; its result replaces the estimates, and only those. -/
theorem C36_temp_optimized {cfg : Cfg G T N} {env : Env G N} (hf : cfg.fixPrev = false) {s s' : St G T N} {x : Ret}
    (h : exec cfg env (.forceUpdate [] []) s = .ok s' x) :
    ∃ full res : Vals G,
      (∀ k, full.find? k = if k ∈ s.values.keys then s.values.find? k else s.tempValues.find? k) ∧
      (∀ k ∈ s.tempValues.keys, k ∉ s.values.keys) ∧
      (env.opt (s.nfg ++ s.tempNfg) full = some res ∨
        ∃ known init w, env.gnc (s.nfg ++ s.tempNfg) full known init = some (res, w)) ∧
      (res.keys.Nodup → ∀ k, s'.values.find? k =
        if k ∈ s.values.keys ∧ k ∈ res.keys then res.find? k else s.values.find? k) ∧
      s'.nfg = s.nfg ∧ s'.tempNfg = s.tempNfg := by
  have ho := forceUpdate_nil h
  have hfr := (optimize_frame cfg env).of_ok ho
  obtain ⟨full, res, s1, s2, hm, hrun, ha, hs'⟩ := optimize_ok ho
  refine ⟨full, res, (mergeVals_find hm).1, (mergeVals_find hm).2, ?_, ?_, hfr.nfg, hfr.tempNfg⟩
  · rcases hrun with ⟨_, e⟩ | ⟨_, e⟩
    · obtain ⟨w, e1, _⟩ := gncOptimize_ok e
      exact Or.inr ⟨_, _, w, e1⟩
    · obtain ⟨g, e1, e2, _⟩ := plainOptimize_ok e
      rcases (plainGraph_ok e1).2 with ⟨_, rfl⟩ | ⟨h2, _⟩
      · exact Or.inl e2
      · rw [hf] at h2; cases h2
  · intro hn k
    have hv : s'.values = s2.values := by rw [hs']; split <;> rfl
    have hv1 : s1.values = s.values := by
      rcases hrun with ⟨_, e⟩ | ⟨_, e⟩
      · obtain ⟨w, _, _, _, e1⟩ := gncOptimize_ok e
        rw [e1]
      · obtain ⟨g, _, _, _, _, e1⟩ := plainOptimize_ok e
        rw [e1]; rfl
    rw [hv, (applyResult_find ha hn).1 k, hv1]

set_option maxRecDepth 100000 in
/-- A temporary factor and value, an optimization, and clearing. -/
example : ∃ s s', ReachOk Demo.cfg Demo.env (Demo.h1 ++ [.tempUpdate [Demo.edge (Demo.a 0) (Demo.b 0) 7] [Demo.pose (Demo.b 0) 7]]) s ∧
    (∃ x, exec Demo.cfg Demo.env (.forceUpdate [] []) s = .ok s' x) ∧ s.tempNfg.length = 1 ∧ s.tempValues.length = 1 ∧
    s'.nfg.length = 6 ∧ s'.gncTW.length = 1 := by
  obtain ⟨s, r, h⟩ := Demo.runs_reach (cfg := Demo.cfg) (env := Demo.env)
    (ops := Demo.h1 ++ [.tempUpdate [Demo.edge (Demo.a 0) (Demo.b 0) 7] [Demo.pose (Demo.b 0) 7]])
    (P := fun s => match exec Demo.cfg Demo.env (.forceUpdate [] []) s with
      | .ok s' _ => decide (s.tempNfg.length = 1 ∧ s.tempValues.length = 1 ∧ s'.nfg.length = 6 ∧ s'.gncTW.length = 1)
      | _ => false) (by decide +kernel)
  split at h
  · rename_i s' x e
    simp only [decide_eq_true_eq] at h
    exact ⟨s, s', r, ⟨x, e⟩, h⟩
  · cases h

end RPGO.Props
