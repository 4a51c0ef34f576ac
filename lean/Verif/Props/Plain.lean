import Verif.Props.Values
/-
C39 solver without outlier rejection; C40 failed updates; C41 forced updates; C44 removal by index.
-/

namespace RPGO.Props
open RPGO
variable {G T N : Type} [Mul G] [Inv G] [One G]

/-! ### C39 -/

/-- C39, first half: without outlier rejection the factor graph after a history of calls that returned is the supplied
factors in order, edited only by the removal calls, each of which does what it says (`Spec.plainStep`). -/
theorem C39_graph {cfg : Cfg G T N} {env : Env G N} (hr : cfg.rejection = false) {h : List (Op G N)} {s : St G T N}
    (r : ReachOk cfg env h s) : s.nfg = h.foldl (Spec.plainStep cfg) [] := by
  induction r with
  | init => rfl
  | @step _ s op s' _ _ e ih =>
    rw [List.foldl_append, List.foldl_cons, List.foldl_nil, ← ih]
    exact (exec_plain cfg env hr op s).2 _ _ e

theorem plain_noedit (cfg : Cfg G T N) (h : List (Op G N)) (hn : ∀ op ∈ h, ¬ Spec.Edits op) (l : Graph G N) :
    h.foldl (Spec.plainStep cfg) l = l ++ h.flatMap Spec.opFactors := by
  induction h generalizing l with
  | nil => simp
  | cons op t ih =>
    have hop := hn op (by simp)
    rw [List.foldl_cons, ih (fun o ho => hn o (by simp [ho])), List.flatMap_cons, ← List.append_assoc]
    congr 1
    cases op <;> simp [Spec.Edits] at hop <;> simp [Spec.plainStep, Spec.opFactors]
    rw [hop, nulled_nil]

/-- C39, first half, if no removal is called: every supplied factor is kept, in order, and nothing else. -/
theorem C39_keeps_everything {cfg : Cfg G T N} {env : Env G N} (hr : cfg.rejection = false) {h : List (Op G N)} {s : St G T N}
    (r : ReachOk cfg env h s) (hn : ∀ op ∈ h, ¬ Spec.Edits op) : s.nfg = h.flatMap Spec.opFactors := by
  rw [C39_graph hr r, plain_noedit cfg h hn, List.nil_append]

/-- C39, second half (part): without outlier rejection the public methods have no undefined behaviour after any history,
including failed calls, provided nothing is logged, previous inliers are not fixed, the LM solver is not verbose, and the
call is within the limits of `Spec.PlainSafe` (closure counts are not asked for, the last factor is removed only if there
is one). Missing: these exceptions, for which the claim is false; see `C39_false_getNumLC`, `C39_false_verbose` and
`C39_false_remove_last`. -/
theorem C39_no_undefined_behaviour_partial {cfg : Cfg G T N} {env : Env G N} (hr : cfg.rejection = false) (hl : cfg.log = false)
    (hf : cfg.fixPrev = false) (hd : cfg.lm = false ∨ cfg.debug = false) {h : List (Op G N)} {s : St G T N}
    (r : Reach cfg env h s) {op : Op G N} (ho : Spec.PlainSafe cfg s.nfg op) : ∀ u, exec cfg env op s ≠ .ub u := by
  obtain ⟨h1, h2⟩ := plain_state hr r
  exact exec_plain_noUB env hr hl hf hd h2 h1 ho

/-- Solver after `setNoRejection(QUIET)` / `setNoRejection()` (default verbosity). -/
def demoPlain : Cfg Demo.Z Demo.Tp Demo.Ns := Demo.mk (Params.default.apply (.noRejection .quiet))
def demoPlainVerbose : Cfg Demo.Z Demo.Tp Demo.Ns := Demo.mk (Params.default.apply (.noRejection .update))

set_option maxRecDepth 100000 in
/-- A bad closure is kept; a factor is removed by index; the hypotheses of the theorems are met. -/
example : ∃ s, ReachOk demoPlain Demo.env (Demo.h1 ++ [.update [Demo.edge (Demo.a 0) (Demo.a 3) 50] [] true, .removeFactors [1]]) s ∧
    s.nfg.length = 7 ∧ Demo.edge (Demo.a 0) (Demo.a 3) 50 ∈ s.nfg ∧ s.nfg[1]? = some none ∧
    demoPlain.rejection = false ∧ demoPlain.log = false ∧ demoPlain.fixPrev = false ∧ demoPlain.debug = false := by
  obtain ⟨s, r, h⟩ := Demo.runs_reach (cfg := demoPlain) (env := Demo.env)
    (ops := Demo.h1 ++ [.update [Demo.edge (Demo.a 0) (Demo.a 3) 50] [] true, .removeFactors [1]])
    (P := fun s => decide (s.nfg.length = 7 ∧ Demo.edge (Demo.a 0) (Demo.a 3) 50 ∈ s.nfg ∧ s.nfg[1]? = some none ∧
      demoPlain.rejection = false ∧ demoPlain.log = false ∧ demoPlain.fixPrev = false ∧ demoPlain.debug = false)) (by decide +kernel)
  exact ⟨s, r, by simpa using h⟩

/-- C39 is false for `getNumLC`: without outlier rejection it dereferences a null pointer in every state. -/
theorem C39_false_getNumLC {cfg : Cfg G T N} {env : Env G N} (hr : cfg.rejection = false) (s : St G T N) :
    exec cfg env .getNumLC s = .ub .nullDeref := by
  show ((getNumLC cfg).ret Ret.num) s = _
  unfold M.ret M.bind getNumLC
  rw [if_neg (by simp [hr])]

set_option maxRecDepth 100000 in
/-- C39 is false with the verbosity that is the default of `setNoRejection`: the first optimization dereferences a null
pointer. -/
theorem C39_false_verbose :
    ∃ fs vs, exec demoPlainVerbose Demo.env (.update fs vs true) St.init = .ub .nullDeref := by
  have key : (match exec demoPlainVerbose Demo.env (.update [some (.prior (Demo.a 0) (Demo.z 0))] [Demo.pose (Demo.a 0) 0] true) St.init with
    | .ub .nullDeref => true
    | _ => false) = true := by decide +kernel
  refine ⟨[some (.prior (Demo.a 0) (Demo.z 0))], [Demo.pose (Demo.a 0) 0], ?_⟩
  split at key
  · rename_i e; exact e
  · cases key

/-- C39 is false for removing the last factor when the last pointer was nulled by `removeFactors`. -/
theorem C39_false_remove_last {cfg : Cfg G T N} {env : Env G N} (hr : cfg.rejection = false) (s : St G T N)
    (h : s.nfg.getLast? = some none) : exec cfg env .removeLast s = .ub .nullDeref := by
  show ((removeLastLC cfg env).ret Ret.edge) s = _
  unfold M.ret removeLastLC
  rw [cond_false hr]
  simp only [M.bind_eq]
  unfold M.bind removeLastFactor
  rw [h]

set_option maxRecDepth 100000 in
/-- Such a state is reachable. -/
example : ∃ s, ReachOk demoPlain Demo.env (Demo.h1 ++ [.removeFactors [5]]) s ∧ s.nfg.getLast? = some none := by
  obtain ⟨s, r, h⟩ := Demo.runs_reach (cfg := demoPlain) (env := Demo.env) (ops := Demo.h1 ++ [.removeFactors [5]])
    (P := fun s => decide (s.nfg.getLast? = some none)) (by decide +kernel)
  exact ⟨s, r, by simpa using h⟩

theorem removeLastFactor_ret {s s' : St G T N} {x : EdgePtr} (e : removeLastFactor s = .ok s' x) :
    ∃ f a b, s.nfg.getLast? = some (some f) ∧ f.keys.head? = some a ∧ f.keys.getLast? = some b ∧ x = some (a, b) := by
  unfold removeLastFactor at e
  cases h : s.nfg.getLast? with
  | none => rw [h] at e; cases e
  | some o =>
    cases o with
    | none => rw [h] at e; cases e
    | some f =>
      rw [h] at e
      simp only at e
      cases h1 : f.keys.head? with
      | none => rw [h1] at e; cases e
      | some a =>
        cases h2 : f.keys.getLast? with
        | none => rw [h1, h2] at e; cases e
        | some b =>
          rw [h1, h2] at e
          cases e
          exact ⟨f, a, b, rfl, h1, h2, rfl⟩

/-- C39: without outlier rejection, `removeLastLoopClosure()`, `removeLastLoopClosure(p, q)` and `removeLastFactor()`
return the first and the last key of the factor that was last in the graph (the one they remove, `C39_graph`), whatever
the prefixes given. -/
theorem C39_removed_edge {cfg : Cfg G T N} {env : Env G N} (hr : cfg.rejection = false) {op : Op G N}
    (ho : op = .removeLast ∨ op = .removeLastFactor ∨ ∃ p q, op = .removeLastPair p q) {s s' : St G T N} {x : Ret}
    (e : exec cfg env op s = .ok s' x) :
    ∃ f a b, s.nfg.getLast? = some (some f) ∧ f.keys.head? = some a ∧ f.keys.getLast? = some b ∧
      x = .edge (some (a, b)) := by
  rcases ho with rfl | rfl | ⟨p, q, rfl⟩
  · have e : (removeLastLC cfg env).ret .edge s = .ok s' x := e
    obtain ⟨s2, y, h2, h3⟩ := M.bind_eq_ok.1 e
    cases h3
    unfold removeLastLC at h2
    simp only [M.bind_eq] at h2
    rw [cond_false hr] at h2
    obtain ⟨s3, y', h4, h5⟩ := M.bind_eq_ok.1 h2
    obtain ⟨s4, _, h6, h7⟩ := M.bind_eq_ok.1 h5
    cases h7
    obtain ⟨f, a, b, k1, k2, k3, rfl⟩ := removeLastFactor_ret h4
    exact ⟨f, a, b, k1, k2, k3, rfl⟩
  · have e : removeLastFactor.ret .edge s = .ok s' x := e
    obtain ⟨s2, y, h2, h3⟩ := M.bind_eq_ok.1 e
    cases h3
    obtain ⟨f, a, b, k1, k2, k3, rfl⟩ := removeLastFactor_ret h2
    exact ⟨f, a, b, k1, k2, k3, rfl⟩
  · have e : (removeLastLC2 cfg env p q).ret .edge s = .ok s' x := e
    obtain ⟨s2, y, h2, h3⟩ := M.bind_eq_ok.1 e
    cases h3
    unfold removeLastLC2 at h2
    simp only [M.bind_eq] at h2
    rw [cond_false hr] at h2
    obtain ⟨s3, y', h4, h5⟩ := M.bind_eq_ok.1 h2
    obtain ⟨s4, _, h6, h7⟩ := M.bind_eq_ok.1 h5
    cases h7
    obtain ⟨f, a, b, k1, k2, k3, rfl⟩ := removeLastFactor_ret h4
    exact ⟨f, a, b, k1, k2, k3, rfl⟩

set_option maxRecDepth 100000 in
/-- The call returns normally on the demo history, with the edge of its last closure. -/
example : (match Demo.runFrom demoPlain Demo.env Demo.h1 St.init with
    | some s => match exec demoPlain Demo.env (.removeLastPair 120 121) s with
      | .ok _ x => decide (x = .edge (some (Demo.a 0, Demo.a 3)))
      | _ => false
    | none => false) = true := by decide +kernel

/-! ### C40 -/

theorem insertVals_dup {vs v : Vals G} (h : (∃ k ∈ vs.keys, k ∈ v.keys) ∨ ¬ vs.keys.Nodup) :
    ∃ v', insertVals vs v = .throw v' .keyExists := by
  cases e : insertVals vs v with
  | ub u => exact absurd e (insertVals_not_ub vs v u)
  | throw v' x => rw [insertVals_throw e]; exact ⟨v', rfl⟩
  | ok v' a =>
    obtain ⟨_, h1, h2⟩ := insertVals_ok e
    rcases h with ⟨k, hk, hk'⟩ | h
    · rw [KMap.mem_keys_iff, h1 k hk] at hk'; cases hk'
    · exact absurd h2 h

/-- C40 (part): with outlier rejection, an update carrying a key that already has a value throws "key exists" and changes
nothing but the estimate, where the existing entries are unchanged and only supplied keys may have been added: the factor
graph and everything remembered about closures is as before. Missing: solvers without outlier rejection, for which the
claim is false, see `C40_false_no_rejection`; and the supplied values are not rolled back, see `C40_retry_fails`. -/
theorem C40_duplicate_key_partial {cfg : Cfg G T N} {env : Env G N} (hr : cfg.rejection = true) {op : Op G N} {fs : Graph G N}
    {vs : Vals G} (hb : Spec.batch op = some (fs, vs)) {s : St G T N} (hk : ∃ k ∈ vs.keys, k ∈ s.values.keys) :
    ∃ v', exec cfg env op s = .throw { s with values := v' } .keyExists ∧
      (∀ k ∈ s.values.keys, v'.find? k = s.values.find? k) ∧ (∀ k ∈ v'.keys, k ∈ s.values.keys ∨ k ∈ vs.keys) := by
  obtain ⟨v', e⟩ := insertVals_dup (Or.inl hk)
  refine ⟨v', ?_, insert_kept (Or.inr ⟨_, e⟩), ?_⟩
  · have h1 : removeOutliers cfg env fs vs s = .throw { s with values := v' } .keyExists := by
      unfold removeOutliers
      simp only [M.bind_eq]
      refine M.bind_throw ?_
      unfold onValues M.zoom
      rw [e]
    cases op <;> simp only [Spec.batch, Option.some.injEq, Prod.mk.injEq, reduceCtorEq] at hb
    · obtain ⟨rfl, rfl⟩ := hb
      refine M.bind_throw ?_
      unfold update
      rw [cond_true hr]
      exact M.bind_throw h1
    · obtain ⟨rfl, rfl⟩ := hb
      refine M.bind_throw ?_
      unfold forceUpdate
      rw [cond_true hr]
      exact M.bind_throw h1
  · intro k hk
    have hE := (insertVals_ends vs s.values).of_throw e
    exact (hE.2.2 k ((KMap.mem_keys_iff _ _).1 hk)).imp (fun h => (KMap.mem_keys_iff _ _).2 h) id

/-- C40 is false without outlier rejection: in every state, an update carrying a key that already has a value throws and
leaves the new factors in the graph. -/
theorem C40_false_no_rejection {cfg : Cfg G T N} {env : Env G N} (hr : cfg.rejection = false) {fs : Graph G N}
    {vs : Vals G} (o : Bool) {s : St G T N} (hk : ∃ k ∈ vs.keys, k ∈ s.values.keys) :
    ∃ v', exec cfg env (.update fs vs o) s = .throw { s with values := v', nfg := s.nfg ++ fs } .keyExists := by
  obtain ⟨v', e⟩ := insertVals_dup (Or.inl hk)
  refine ⟨v', M.bind_throw ?_⟩
  unfold update
  rw [cond_false hr]
  refine M.bind_throw ?_
  have hmod : (M.modify fun s : St G T N => { s with nfg := s.nfg ++ fs }) s = .ok { s with nfg := s.nfg ++ fs } () := rfl
  unfold addAndCheck
  simp only [M.bind_eq]
  rw [M.bind_ok hmod]
  refine M.bind_throw ?_
  unfold onValues M.zoom
  rw [e]

set_option maxRecDepth 100000 in
/-- After a failed update, the same batch without the offending value still fails: the first value was kept. The
hypotheses of the theorems above are met on the way. -/
theorem C40_retry_fails :
    ∃ s s1 s2, ReachOk Demo.cfg Demo.env
        [.update [Demo.edge (Demo.a 0) (Demo.a 1) 1] [Demo.pose (Demo.a 0) 0, Demo.pose (Demo.a 1) 1, Demo.pose (Demo.a 5) 5] true] s ∧
      exec Demo.cfg Demo.env (.update [Demo.edge (Demo.a 1) (Demo.a 2) 1] [Demo.pose (Demo.a 2) 2, Demo.pose (Demo.a 5) 5] true) s =
        .throw s1 .keyExists ∧
      exec Demo.cfg Demo.env (.update [Demo.edge (Demo.a 1) (Demo.a 2) 1] [Demo.pose (Demo.a 2) 2] true) s1 = .throw s2 .keyExists ∧
      s1.nfg = s.nfg := by
  obtain ⟨s, r, h⟩ := Demo.runs_reach (cfg := Demo.cfg) (env := Demo.env)
    (ops := [.update [Demo.edge (Demo.a 0) (Demo.a 1) 1] [Demo.pose (Demo.a 0) 0, Demo.pose (Demo.a 1) 1, Demo.pose (Demo.a 5) 5] true])
    (P := fun s => match exec Demo.cfg Demo.env
        (.update [Demo.edge (Demo.a 1) (Demo.a 2) 1] [Demo.pose (Demo.a 2) 2, Demo.pose (Demo.a 5) 5] true) s with
      | .throw s1 x => match exec Demo.cfg Demo.env (.update [Demo.edge (Demo.a 1) (Demo.a 2) 1] [Demo.pose (Demo.a 2) 2] true) s1 with
        | .throw _ y => decide (x = .keyExists ∧ y = .keyExists ∧ s1.nfg = s.nfg)
        | _ => false
      | _ => false) (by decide +kernel)
  split at h
  · rename_i s1 x e
    split at h
    · rename_i s2 y e2
      simp only [decide_eq_true_eq] at h
      obtain ⟨rfl, rfl, h⟩ := h
      exact ⟨s, s1, s2, r, e, e2, h⟩
    · cases h
  · cases h

/-! ### C41 -/

/-- C41 (part): with outlier rejection `forceUpdate` leaves the same graph as `update` with the same batch (so it rejects
the same closures); without outlier rejection it adds all the new factors. Missing: the claim with outlier rejection, which
is false, see `C41_false_rejects`. -/
theorem C41_force_update_partial {cfg : Cfg G T N} {env : Env G N} {fs : Graph G N} {vs : Vals G} {s s' : St G T N} {x : Ret}
    (h : exec cfg env (.forceUpdate fs vs) s = .ok s' x) :
    (cfg.rejection = false → s'.nfg = s.nfg ++ fs) ∧
    (cfg.rejection = true → ∀ o s1 y, exec cfg env (.update fs vs o) s = .ok s1 y → s'.nfg = s1.nfg) := by
  refine ⟨fun hr => (exec_plain cfg env hr _ s).2 _ _ h, ?_⟩
  intro hr o s1 y h1
  obtain ⟨t, r, e, f, _⟩ := exec_batch_ok hr (op := .forceUpdate fs vs) rfl h
  obtain ⟨t', r', e', f', _⟩ := exec_batch_ok hr (op := .update fs vs o) rfl h1
  rw [e] at e'
  cases e'
  rw [f.nfg, f'.nfg]

set_option maxRecDepth 100000 in
/-- C41 is false with outlier rejection: a forced closure that contradicts odometry is dropped. -/
theorem C41_false_rejects :
    ∃ s s', ReachOk Demo.cfg Demo.env Demo.h1 s ∧
      (∃ x, exec Demo.cfg Demo.env (.forceUpdate [Demo.edge (Demo.a 0) (Demo.a 3) 50] []) s = .ok s' x) ∧
      Demo.edge (Demo.a 0) (Demo.a 3) 50 ∉ s'.nfg := by
  obtain ⟨s, r, h⟩ := Demo.runs_reach (cfg := Demo.cfg) (env := Demo.env) (ops := Demo.h1)
    (P := fun s => match exec Demo.cfg Demo.env (.forceUpdate [Demo.edge (Demo.a 0) (Demo.a 3) 50] []) s with
      | .ok s' _ => decide (Demo.edge (Demo.a 0) (Demo.a 3) 50 ∉ s'.nfg)
      | _ => false) (by decide +kernel)
  split at h
  · rename_i s' x e
    simp only [decide_eq_true_eq] at h
    exact ⟨s, s', r, ⟨x, e⟩, h⟩
  · cases h

set_option maxRecDepth 100000 in
/-- Without outlier rejection the forced closure is kept. -/
example : ∃ s s', ReachOk demoPlain Demo.env Demo.h1 s ∧
      (∃ x, exec demoPlain Demo.env (.forceUpdate [Demo.edge (Demo.a 0) (Demo.a 3) 50] []) s = .ok s' x) ∧
      Demo.edge (Demo.a 0) (Demo.a 3) 50 ∈ s'.nfg := by
  obtain ⟨s, r, h⟩ := Demo.runs_reach (cfg := demoPlain) (env := Demo.env) (ops := Demo.h1)
    (P := fun s => match exec demoPlain Demo.env (.forceUpdate [Demo.edge (Demo.a 0) (Demo.a 3) 50] []) s with
      | .ok s' _ => decide (Demo.edge (Demo.a 0) (Demo.a 3) 50 ∈ s'.nfg)
      | _ => false) (by decide +kernel)
  split at h
  · rename_i s' x e
    simp only [decide_eq_true_eq] at h
    exact ⟨s, s', r, ⟨x, e⟩, h⟩
  · cases h

/-! ### C44 -/

/-- C44, first half: in every state, removing factors by index succeeds if all indices are in range; it nulls exactly the
factors at these indices, keeps the number of factors and all other factors, and changes nothing else. Otherwise it throws
"out of range" after having done so for the indices before the first bad one. -/
theorem C44_remove_by_index (cfg : Cfg G T N) (env : Env G N) (is : List Nat) (s : St G T N) :
    ((∀ i ∈ is, i < s.nfg.length) → ∃ s', exec cfg env (.removeFactors is) s = .ok s' .unit ∧
      s' = { s with nfg := s'.nfg } ∧ s'.nfg.length = s.nfg.length ∧
      ∀ i < s.nfg.length, s'.nfg[i]? = if i ∈ is then some none else s.nfg[i]?) ∧
    ((∃ i ∈ is, s.nfg.length ≤ i) → ∃ s' is' i is'', exec cfg env (.removeFactors is) s = .throw s' .outOfRange ∧
      is = is' ++ i :: is'' ∧ s.nfg.length ≤ i ∧ s' = { s with nfg := s'.nfg } ∧ s'.nfg.length = s.nfg.length ∧
      ∀ j < s.nfg.length, s'.nfg[j]? = if j ∈ is' then some none else s.nfg[j]?) := by
  have hnul : ∀ (l : Graph G N) (js : List Nat), ∀ i < l.length, (Spec.nulled l js)[i]? = if i ∈ js then some none else l[i]? := by
    intro l js i hi
    unfold Spec.nulled
    rw [List.getElem?_mapIdx, List.getElem?_eq_getElem hi]
    simp only [Option.map_some]
    split <;> rfl
  obtain ⟨h1, h2⟩ := removeFactors_eq is s
  constructor
  · intro h
    refine ⟨{ s with nfg := Spec.nulled s.nfg is }, ?_, rfl, nulled_length _ _, hnul _ _⟩
    show ((removeFactors is).ret fun _ => Ret.unit) s = _
    unfold M.ret
    rw [M.bind_ok (h1 h)]
    rfl
  · intro h
    obtain ⟨is', i, is'', e, _, hi, e2⟩ := h2 h
    refine ⟨{ s with nfg := Spec.nulled s.nfg is' }, is', i, is'', ?_, e, hi, rfl, nulled_length _ _, hnul _ _⟩
    show ((removeFactors is).ret fun _ => Ret.unit) s = _
    unfold M.ret
    rw [M.bind_throw e2]

/-- C44, second half (part): without outlier rejection, removed factors stay out through all later calls other than
removals (which shift or remove further factors). Missing: with outlier rejection, where they come back, see
`C44_false_rebuild`. -/
theorem C44_stay_out_partial {cfg : Cfg G T N} {env : Env G N} (hr : cfg.rejection = false) {h1 h2 : List (Op G N)} {is : List Nat}
    {s : St G T N} (r : ReachOk cfg env (h1 ++ .removeFactors is :: h2) s) (hn : ∀ op ∈ h2, ¬ Spec.Edits op) :
    ∀ i ∈ is, i < (h1.foldl (Spec.plainStep cfg) []).length → s.nfg[i]? = some none := by
  intro i hi hl
  rw [C39_graph hr r, List.foldl_append, List.foldl_cons, plain_noedit cfg h2 hn]
  have : Spec.plainStep cfg (h1.foldl (Spec.plainStep cfg) []) (.removeFactors is) = Spec.nulled (h1.foldl (Spec.plainStep cfg) []) is := rfl
  rw [this, List.getElem?_append_left (by rw [nulled_length]; exact hl)]
  unfold Spec.nulled
  rw [List.getElem?_mapIdx, List.getElem?_eq_getElem hl]
  simp [hi]

set_option maxRecDepth 100000 in
/-- C44 is false with outlier rejection: a factor removed by index is back after the next call that rebuilds the graph. -/
theorem C44_false_rebuild :
    ∃ s s', ReachOk Demo.cfg Demo.env (Demo.h1 ++ [.removeFactors [4]]) s ∧
      Spec.Call Demo.cfg Demo.env (.ignore 98) s s' ∧
      Demo.edge (Demo.a 0) (Demo.a 2) 2 ∉ s.nfg ∧ Demo.edge (Demo.a 0) (Demo.a 2) 2 ∈ s'.nfg := by
  obtain ⟨s, r, h⟩ := Demo.runs_reach (cfg := Demo.cfg) (env := Demo.env) (ops := Demo.h1 ++ [.removeFactors [4]])
    (P := fun s => match exec Demo.cfg Demo.env (.ignore 98) s with
      | .ok s' _ => decide (Demo.edge (Demo.a 0) (Demo.a 2) 2 ∉ s.nfg ∧ Demo.edge (Demo.a 0) (Demo.a 2) 2 ∈ s'.nfg)
      | _ => false) (by decide +kernel)
  split at h
  · rename_i s' x e
    simp only [decide_eq_true_eq] at h
    exact ⟨s, s', r, Or.inl ⟨x, e⟩, h⟩
  · cases h

set_option maxRecDepth 100000 in
/-- The hypotheses of `C44_stay_out_partial` are met. -/
example : ∃ s, ReachOk demoPlain Demo.env (Demo.h1 ++ .removeFactors [4, 1] :: [.ignore 98, .forceUpdate [] []]) s ∧
    s.nfg[4]? = some none ∧ s.nfg[1]? = some none := by
  obtain ⟨s, r, h⟩ := Demo.runs_reach (cfg := demoPlain) (env := Demo.env)
    (ops := Demo.h1 ++ .removeFactors [4, 1] :: [.ignore 98, .forceUpdate [] []])
    (P := fun s => decide (s.nfg[4]? = some none ∧ s.nfg[1]? = some none)) (by decide +kernel)
  exact ⟨s, r, by simpa using h⟩

end RPGO.Props
