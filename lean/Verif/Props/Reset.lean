import Verif.Proofs.Plain
import Verif.Props.Plain
import Verif.Props.Ahead
/-
C90: with outlier rejection, edits of the factor graph from outside last only until the solver builds the graph anew.
-/

namespace RPGO.Spec
variable {G N : Type}

/-- Calls of the generic solver that edit the factor graph and nothing else. -/
def EditsGraph : Op G N → Prop
  | .removeFactors _ => True
  | .removeLastFactor => True
  | .removePriorsGeneric _ => True
  | _ => False

/-- Calls that, with outlier rejection, build the factor graph anew if they return `x`: updates with at least one factor, removing
priors, ignoring and reviving, and removals of a loop closure that found one. -/
def BuildsAnew : Op G N → Ret → Prop
  | .update fs _ _, _ => fs ≠ []
  | .forceUpdate fs _, _ => fs ≠ []
  | .removePriors _ _, _ => True
  | .ignore _, _ => True
  | .revive _, _ => True
  | .removeLastPair _ _, x => x ≠ .edge none
  | .removeLast, x => x ≠ .edge none
  | _, _ => False

instance : DecidablePred (EditsGraph (G := G) (N := N)) := fun op => by
  cases op <;> first | exact isTrue trivial | exact isFalse id

/-- Every edit of the graph is followed, before any other call, by a call that builds the graph anew. -/
def Superseded (h : List (Op G N)) : Prop :=
  h.IsChain (fun o o' => EditsGraph o → EditsGraph o' ∨ ∀ x, BuildsAnew o' x) ∧ ∀ o ∈ h.getLast?, ¬ EditsGraph o

end RPGO.Spec

namespace RPGO
variable {G T N : Type} [Mul G] [Inv G] [One G]

theorem editsGraph_ends {cfg : Cfg G T N} {env : Env G N} {op : Op G N} (h : Spec.EditsGraph op) (s : St G T N) :
    M.Ends (fun t => t = { s with nfg := t.nfg }) (exec cfg env op s) := by
  cases op with
  | removeFactors is =>
    obtain ⟨h1, h2⟩ := Props.C44_remove_by_index cfg env is s
    by_cases hc : ∀ i ∈ is, i < s.nfg.length
    · obtain ⟨t, e, ht, -⟩ := h1 hc
      rw [e]; exact ht
    · push Not at hc
      obtain ⟨t, _, _, _, e, _, _, ht, -⟩ := h2 hc
      rw [e]; exact ht
  | removeLastFactor =>
    show M.Ends _ (M.bind removeLastFactor _ s)
    unfold M.bind removeLastFactor
    cases s.nfg.getLast? with
    | none => rfl
    | some f =>
      cases f with
      | none => trivial
      | some f =>
        simp only
        cases f.keys.head? <;> cases f.keys.getLast? <;> first | trivial | rfl
  | removePriorsGeneric c => rfl
  | _ => exact absurd h id

theorem removeOutliers_anew {cfg : Cfg G T N} {env : Env G N} {fs : Graph G N} (hf : fs ≠ []) {vs : Vals G} {s t : St G T N} {g : Graph G N}
    {d : Bool} (h : removeOutliers cfg env fs vs { s with nfg := g } = .ok t d) : removeOutliers cfg env fs vs s = .ok t d := by
  have hd : decide (fs.length = 0) = false := decide_eq_false (by simpa using hf)
  unfold removeOutliers processFactors at h ⊢
  simp only [M.bind_eq, hd] at h ⊢
  obtain ⟨s1, _, h1, h⟩ := M.bind_eq_ok.1 h
  obtain ⟨v, i1, rfl⟩ := M.zoom_eq_ok.1 h1
  refine M.bind_eq_ok.2 ⟨{ s with values := v }, (), M.zoom_eq_ok.2 ⟨v, i1, rfl⟩, ?_⟩
  obtain ⟨s1, r, h1, h⟩ := M.bind_eq_ok.1 h
  obtain ⟨p, i1, rfl⟩ := M.zoom_eq_ok.1 h1
  refine M.bind_eq_ok.2 ⟨{ s with values := v, pcm := p }, r, M.zoom_eq_ok.2 ⟨p, i1, rfl⟩, ?_⟩
  obtain ⟨s1, _, h1, h⟩ := M.bind_eq_ok.1 h
  by_cases hb : r.1.length > 0
  · have h1' : onPcm (processCands cfg v r.1) { s with values := v, nfg := g, pcm := p } = .ok s1 () := by
      rw [decide_eq_true hb] at h1; exact h1
    obtain ⟨q, i1, rfl⟩ := M.zoom_eq_ok.1 h1'
    refine M.bind_eq_ok.2 ⟨{ s with values := v, pcm := q }, (), ?_, h⟩
    rw [decide_eq_true hb]
    show onPcm (processCands cfg v r.1) { s with values := v, pcm := p } = _
    exact M.zoom_eq_ok.2 ⟨q, i1, rfl⟩
  · have h1' : s1 = { s with values := v, nfg := g, pcm := p } := by
      rw [decide_eq_false hb] at h1; cases h1; rfl
    subst h1'
    refine M.bind_eq_ok.2 ⟨{ s with values := v, pcm := p }, (), ?_, h⟩
    rw [decide_eq_false hb]
    rfl

theorem removeLastOfPair_anew {env : Env G N} {id : ObsId} {s t : St G T N} {g : Graph G N} {e : Key × Key}
    (h : removeLastOfPair env id { s with nfg := g } = .ok t (some e)) : removeLastOfPair env id s = .ok t (some e) := by
  unfold removeLastOfPair at h ⊢
  simp only [M.bind_eq] at h ⊢
  obtain ⟨s1, _, h1, h⟩ := M.bind_eq_ok.1 h
  cases h1
  refine M.bind_eq_ok.2 ⟨_, _, rfl, ?_⟩
  simp only at h ⊢
  cases hm : AList.get? ObsId.eqv s.pcm.lcs id with
  | none => rw [hm] at h; cases h
  | some m =>
    rw [hm] at h
    simp only [M.bind_eq] at h ⊢
    obtain ⟨s1, r, h1, h⟩ := M.bind_eq_ok.1 h
    obtain ⟨p, i1, rfl⟩ := M.zoom_eq_ok.1 h1
    refine M.bind_eq_ok.2 ⟨_, r, M.zoom_eq_ok.2 ⟨p, i1, rfl⟩, ?_⟩
    cases r with
    | none => cases h
    | some e' => exact h

theorem removeLastPcm_anew {env : Env G N} {s t : St G T N} {g : Graph G N} {e : Key × Key}
    (h : removeLastPcm env { s with nfg := g } = .ok t (some e)) : removeLastPcm env s = .ok t (some e) := by
  unfold removeLastPcm at h ⊢
  simp only [M.bind_eq] at h ⊢
  obtain ⟨s1, _, h1, h⟩ := M.bind_eq_ok.1 h
  cases h1
  refine M.bind_eq_ok.2 ⟨_, _, rfl, ?_⟩
  simp only at h ⊢
  cases hm : s.pcm.inOrder.getLast? with
  | none => rw [hm] at h; cases h
  | some m =>
    rw [hm] at h
    simp only [M.bind_eq] at h ⊢
    obtain ⟨s1, r, h1, h⟩ := M.bind_eq_ok.1 h
    obtain ⟨p, i1, rfl⟩ := M.zoom_eq_ok.1 h1
    refine M.bind_eq_ok.2 ⟨_, r, M.zoom_eq_ok.2 ⟨p, i1, rfl⟩, ?_⟩
    exact removeLastOfPair_anew (s := { s with pcm := p }) (g := g) h

theorem exec_anew {cfg : Cfg G T N} {env : Env G N} (hr : cfg.rejection = true) {op : Op G N} {s t : St G T N} {g : Graph G N} {x : Ret}
    (hb : Spec.BuildsAnew op x) (h : exec cfg env op { s with nfg := g } = .ok t x) : exec cfg env op s = .ok t x := by
  cases op with
  | update fs vs o =>
    obtain ⟨s1, _, h1, h2⟩ := M.bind_eq_ok.1 h
    unfold update at h1
    simp only [M.bind_eq, hr] at h1
    obtain ⟨s2, d, h3, h4⟩ := M.bind_eq_ok.1 h1
    refine M.bind_eq_ok.2 ⟨s1, (), ?_, h2⟩
    unfold update
    simp only [M.bind_eq, hr]
    exact M.bind_eq_ok.2 ⟨s2, d, removeOutliers_anew hb h3, h4⟩
  | forceUpdate fs vs =>
    obtain ⟨s1, _, h1, h2⟩ := M.bind_eq_ok.1 h
    unfold forceUpdate at h1
    simp only [M.bind_eq, hr] at h1
    obtain ⟨s2, d, h3, h4⟩ := M.bind_eq_ok.1 h1
    refine M.bind_eq_ok.2 ⟨s1, (), ?_, h2⟩
    unfold forceUpdate
    simp only [M.bind_eq, hr]
    exact M.bind_eq_ok.2 ⟨s2, d, removeOutliers_anew hb h3, h4⟩
  | removePriors c o =>
    rw [← h]
    show M.bind (removePriors cfg env c o) _ _ = M.bind (removePriors cfg env c o) _ _
    unfold removePriors
    simp only [hr]
    rfl
  | ignore c =>
    rw [← h]
    show M.bind (ignorePrefix cfg env c) _ _ = M.bind (ignorePrefix cfg env c) _ _
    unfold ignorePrefix
    simp only [hr]
    rfl
  | revive c =>
    rw [← h]
    show M.bind (revivePrefix cfg env c) _ _ = M.bind (revivePrefix cfg env c) _ _
    unfold revivePrefix
    simp only [hr]
    rfl
  | removeLastPair a b =>
    obtain ⟨s1, e, h1, h2⟩ := M.bind_eq_ok.1 h
    cases h2
    unfold removeLastLC2 at h1
    simp only [M.bind_eq, hr] at h1
    obtain ⟨s2, e', h3, h4⟩ := M.bind_eq_ok.1 h1
    obtain ⟨s3, _, h5, h6⟩ := M.bind_eq_ok.1 h4
    cases h6
    cases e with
    | none => exact absurd rfl hb
    | some e =>
      refine M.bind_eq_ok.2 ⟨_, _, ?_, rfl⟩
      unfold removeLastLC2
      simp only [M.bind_eq, hr]
      exact M.bind_eq_ok.2 ⟨_, _, removeLastOfPair_anew h3, h4⟩
  | removeLast =>
    obtain ⟨s1, e, h1, h2⟩ := M.bind_eq_ok.1 h
    cases h2
    unfold removeLastLC at h1
    simp only [M.bind_eq, hr] at h1
    obtain ⟨s2, e', h3, h4⟩ := M.bind_eq_ok.1 h1
    obtain ⟨s3, _, h5, h6⟩ := M.bind_eq_ok.1 h4
    cases h6
    cases e with
    | none => exact absurd rfl hb
    | some e =>
      refine M.bind_eq_ok.2 ⟨_, _, ?_, rfl⟩
      unfold removeLastLC
      simp only [M.bind_eq, hr]
      exact M.bind_eq_ok.2 ⟨_, _, removeLastPcm_anew h3, h4⟩
  | _ => exact absurd hb id

theorem superseded_aux {cfg : Cfg G T N} {env : Env G N} (hr : cfg.rejection = true) {h : List (Op G N)} {s : St G T N} (r : ReachOk cfg env h s)
    (hc : h.IsChain (fun o o' => Spec.EditsGraph o → Spec.EditsGraph o' ∨ ∀ x, Spec.BuildsAnew o' x)) :
    ∃ s', ReachOk cfg env (h.filter fun o => ¬ Spec.EditsGraph o) s' ∧ s = { s' with nfg := s.nfg } ∧
      ((∀ o ∈ h.getLast?, ¬ Spec.EditsGraph o) → s' = s) := by
  induction r with
  | init => exact ⟨_, .init, rfl, fun _ => rfl⟩
  | @step h s o t x r e ih =>
    rw [List.isChain_append] at hc
    obtain ⟨hc, -, hl⟩ := hc
    obtain ⟨s', r', hs, hq⟩ := ih hc
    by_cases ho : Spec.EditsGraph o
    · have := editsGraph_ends (cfg := cfg) (env := env) ho s
      rw [e] at this
      refine ⟨s', ?_, ?_, fun h => absurd ho (h o (by simp))⟩
      · rw [List.filter_append, List.filter_cons_of_neg (by simp [ho])]
        simpa using r'
      · have this : t = { s with nfg := t.nfg } := this
        rw [this, hs]
    · have e' : exec cfg env o s' = .ok t x := by
        by_cases hg : ∀ o ∈ h.getLast?, ¬ Spec.EditsGraph o
        · rw [hq hg]; exact e
        · push Not at hg
          obtain ⟨o', m, ho'⟩ := hg
          rcases hl o' m o (by simp) ho' with h | h
          · exact absurd h ho
          · rw [hs] at e
            exact exec_anew hr (h x) e
      refine ⟨t, ?_, rfl, fun _ => rfl⟩
      rw [List.filter_append, List.filter_cons_of_pos (by simp [ho])]
      exact r'.step e'

end RPGO

namespace RPGO.Props
variable {G T N : Type} [Mul G] [Inv G] [One G]

/-- C90: with outlier rejection, suppose that calls which only edit the graph (removing factors by index, the last factor, or priors
through the generic solver) led from `s` to `s1`, each returning normally or throwing. If the next call builds the graph anew and
returns normally, it returns the same, and leaves the solver in exactly the same state, as if it had been made in `s`. -/
theorem C90_no_trace {cfg : Cfg G T N} {env : Env G N} (hr : cfg.rejection = true) {es : List (Op G N)} (he : ∀ e ∈ es, Spec.EditsGraph e)
    {s s1 : St G T N} (st : Spec.Steps cfg env s es s1) {op : Op G N} {t : St G T N} {x : Ret} (hb : Spec.BuildsAnew op x)
    (e : exec cfg env op s1 = .ok t x) : exec cfg env op s = .ok t x := by
  have : s1 = { s with nfg := s1.nfg } := by
    clear e
    induction st with
    | nil => rfl
    | @snoc h a o b _ c ih =>
      have ih := ih (fun e m => he e (by simp [m]))
      have := editsGraph_ends (cfg := cfg) (env := env) (he o (by simp)) a
      rcases c with ⟨_, c⟩ | ⟨_, c⟩ <;> rw [c] at this <;> rw [this, ih]
  rw [this] at e
  exact exec_anew hr hb e

/-- C90 over histories: with outlier rejection, if every edit of the graph is followed, before any other call, by one that builds the
graph anew, then the history without the edits leaves the solver in exactly the same state. -/
theorem C90_history {cfg : Cfg G T N} {env : Env G N} (hr : cfg.rejection = true) {h : List (Op G N)} {s : St G T N} (r : ReachOk cfg env h s)
    (hh : Spec.Superseded h) : ReachOk cfg env (h.filter fun o => ¬ Spec.EditsGraph o) s := by
  obtain ⟨s', r', -, hq⟩ := superseded_aux hr r hh.1
  rw [← hq hh.2]
  exact r'

/-- The demo history, then three edits of the graph, and then a prefix is ignored. -/
def edited : List (Op Demo.Z Demo.Ns) :=
  Demo.h1 ++ [.removeFactors [4], .removeLastFactor, .removePriorsGeneric 97, .ignore 98]

set_option maxRecDepth 100000 in
/-- The hypotheses of `C90_history` (and with it those of `C90_no_trace`) are met by a history with edits that remove a prior and
both loop closures from the graph. -/
example : Demo.cfg.rejection = true ∧ Spec.Superseded edited ∧
    (∃ s, ReachOk Demo.cfg Demo.env (edited.take 7) s ∧ s.nfg.length = 4 ∧ (s.nfg.filter Option.isSome).length = 3) ∧
    ∃ s, ReachOk Demo.cfg Demo.env edited s ∧ (s.nfg.filter Option.isSome).length = 6 := by
  refine ⟨by decide +kernel, ⟨?_, ?_⟩, ?_, ?_⟩
  · show List.IsChain _ _
    simp only [edited, Demo.h1, List.cons_append, List.nil_append, List.isChain_cons_cons, List.isChain_singleton, Spec.EditsGraph,
      Spec.BuildsAnew, false_imp_iff, true_imp_iff, true_or, or_true, and_true, implies_true]
  · intro o m
    simp only [edited, Demo.h1, List.cons_append, List.nil_append, List.getLast?_cons_cons, List.getLast?_singleton,
      Option.mem_some_iff] at m
    subst m
    exact id
  · obtain ⟨s, r, h⟩ := Demo.runs_reach (cfg := Demo.cfg) (env := Demo.env) (ops := edited.take 7)
      (P := fun s => decide (s.nfg.length = 4 ∧ (s.nfg.filter Option.isSome).length = 3)) (by decide +kernel)
    exact ⟨s, r, of_decide_eq_true h⟩
  · obtain ⟨s, r, h⟩ := Demo.runs_reach (cfg := Demo.cfg) (env := Demo.env) (ops := edited)
      (P := fun s => decide ((s.nfg.filter Option.isSome).length = 6)) (by decide +kernel)
    exact ⟨s, r, of_decide_eq_true h⟩

/-- An optimizer that moves every variable to the number of factors. -/
def countingEnv : Env Demo.Z Demo.Ns :=
  { Demo.env with opt := fun g v => some (v.map fun x => (x.1, .pose (Demo.z (g.filter Option.isSome).length))) }

set_option maxRecDepth 100000 in
/-- That no other call comes between is needed: an optimization of the edited graph can leave its trace in the estimate, although the
graph has been built anew since. -/
theorem C90_false_between :
    (∃ s, ReachOk Demo.cfg countingEnv (Demo.h1 ++ [.forceUpdate [] [], .removePriors 98 false]) s ∧
      s.values.find? (Demo.a 0) = some (.pose (Demo.z 6)) ∧ (s.nfg.filter Option.isSome).length = 6) ∧
    ∃ s, ReachOk Demo.cfg countingEnv (Demo.h1 ++ [.removeFactors [4], .forceUpdate [] [], .removePriors 98 false]) s ∧
      s.values.find? (Demo.a 0) = some (.pose (Demo.z 5)) ∧ (s.nfg.filter Option.isSome).length = 6 := by
  constructor
  · obtain ⟨s, r, h⟩ := Demo.runs_reach (cfg := Demo.cfg) (env := countingEnv)
      (ops := Demo.h1 ++ [.forceUpdate [] [], .removePriors 98 false])
      (P := fun s => decide (s.values.find? (Demo.a 0) = some (.pose (Demo.z 6)) ∧ (s.nfg.filter Option.isSome).length = 6))
      (by decide +kernel)
    exact ⟨s, r, of_decide_eq_true h⟩
  · obtain ⟨s, r, h⟩ := Demo.runs_reach (cfg := Demo.cfg) (env := countingEnv)
      (ops := Demo.h1 ++ [.removeFactors [4], .forceUpdate [] [], .removePriors 98 false])
      (P := fun s => decide (s.values.find? (Demo.a 0) = some (.pose (Demo.z 5)) ∧ (s.nfg.filter Option.isSome).length = 6))
      (by decide +kernel)
    exact ⟨s, r, of_decide_eq_true h⟩

set_option maxRecDepth 100000 in
/-- Outlier rejection is needed: without it, ignoring a prefix does not bring a removed factor back. -/
theorem C90_false_plain : ∃ s, ReachOk plainCfg Demo.env (Demo.h1 ++ [.removeFactors [4], .ignore 98]) s ∧
    (s.nfg.filter Option.isSome).length = 5 := by
  obtain ⟨s, r, h⟩ := Demo.runs_reach (cfg := plainCfg) (env := Demo.env) (ops := Demo.h1 ++ [.removeFactors [4], .ignore 98])
    (P := fun s => decide ((s.nfg.filter Option.isSome).length = 5)) (by decide +kernel)
  exact ⟨s, r, of_decide_eq_true h⟩

end RPGO.Props
