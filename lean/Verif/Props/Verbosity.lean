import Verif.Model.Verbosity
import Verif.Props.Quiet
/-
C108: the verbosity chosen in the parameters.
-/

namespace RPGO
variable {K : Type} [Field K] [LinearOrder K] {G T N : Type} [Mul G] [Inv G] [One G]

theorem cfgVoice_talk (p : Params K) (ops : Ops G T N) (c : Bool) (n : Nat) (d : Bool) :
    (p.cfgVoice ops c n).talk d = (p.cfg ops c).talk d := rfl

theorem cfgVoice_eq (p : Params K) (ops : Ops G T N) (c : Bool) (n : Nat) : p.cfgVoice ops c n = (p.cfg ops c).talk (voice n).solver := rfl

theorem reach_talk {cfg : Cfg G T N} {env : Env G N} {h : List (Op G N)} {s : St G T N} (r : Reach cfg env h s) : Reach (cfg.talk false) env h s := by
  induction r with
  | init => exact .init
  | @ok h s op s' x _ e ih =>
    rcases (Props.C107_call cfg env op s).2 with hc | hc
    · exact .ok ih (hc.trans e)
    · rw [hc] at e; cases e
  | @throw h s op s' x _ e ih =>
    rcases (Props.C107_call cfg env op s).2 with hc | hc
    · exact .throw ih (hc.trans e)
    · rw [hc] at e; cases e

theorem reach_untalk {cfg : Cfg G T N} (hc : cfg.rejection = true ∨ cfg.lm = false) {env : Env G N} {h : List (Op G N)} {s : St G T N}
    (r : Reach (cfg.talk false) env h s) : Reach cfg env h s := by
  induction r with
  | init => exact .init
  | @ok h s op s' x _ e ih => exact .ok ih (((Props.C107_call cfg env op s).1 hc).symm.trans e)
  | @throw h s op s' x _ e ih => exact .throw ih (((Props.C107_call cfg env op s).1 hc).symm.trans e)

namespace Spec

/-- The arguments `v` of the setters that have one, in order. -/
def verbosities : List (Params.Setter K) → List Verbosity
  | [] => []
  | .noRejection v :: l | .pcm2D _ _ v :: l | .pcm3D _ _ v :: l | .simple2D _ _ v :: l | .simple3D _ _ v :: l | .simple2D' _ _ _ _ v :: l
  | .simple3D' _ _ _ _ v :: l => v :: verbosities l
  | _ :: l => verbosities l

/-- A new solver is given the calls `h`; all return, the last one in state `s`, and `ms` are the messages of all of them, in order. -/
inductive Transcript (cfg : Cfg G T N) (v : Bool) (env : Env G N) : List (Op G N) → St G T N → List Msg → Prop where
  | new : Transcript cfg v env [] St.init []
  | call {h s ms op s' w} : Transcript cfg v env h s ms → Says cfg v env op s s' w → Transcript cfg v env (h ++ [op]) s' (ms ++ w)

end Spec

namespace Props

/-- The model of the constructor used for the other properties has the flag this switch gives. -/
theorem C108_flag (p : Params K) (ops : Ops G T N) (c : Bool) : p.cfgVoice ops c p.verbosity.code = p.cfg ops c := by
  have : (voice p.verbosity.code).solver = decide (p.verbosity ≠ .quiet) := by cases p.verbosity <;> rfl
  unfold Params.cfgVoice
  rw [this]
  rfl

/-- C108: the verbosity is that of the last setter that has one as argument, and UPDATE if there was none. -/
theorem C108_last (ss : List (Params.Setter K)) :
    ((Params.default : Params K).applyAll ss).verbosity = (Spec.verbosities ss).getLastD .update := by
  have key : ∀ (ss : List (Params.Setter K)) (p : Params K), (p.applyAll ss).verbosity = (Spec.verbosities ss).getLastD p.verbosity := by
    intro ss
    induction ss with
    | nil => intro p; rfl
    | cons x ss ih =>
      intro p
      show ((p.apply x).applyAll ss).verbosity = _
      rw [ih]
      cases x <;> first | rfl | exact (List.getLastD_cons ..).symm
  exact key ss _

/-- C108: with outlier rejection or Gauss-Newton, solvers that differ in the verbosity only do the same: the same histories of calls are
possible and end in the same states, and every further call has the same outcome. -/
theorem C108_same (p : Params K) (ops : Ops G T N) (c : Bool) (n n' : Nat) (hp : p.method ≠ .none ∨ p.lm = false) (env : Env G N) :
    (∀ h s, Reach (p.cfgVoice ops c n) env h s ↔ Reach (p.cfgVoice ops c n') env h s) ∧
    ∀ op s, exec (p.cfgVoice ops c n) env op s = exec (p.cfgVoice ops c n') env op s := by
  have hc : ∀ n, (p.cfgVoice ops c n).rejection = true ∨ (p.cfgVoice ops c n).lm = false := by
    intro n
    rcases hp with hp | hp
    · exact .inl (decide_eq_true hp)
    · exact .inr hp
  refine ⟨fun h s => ⟨fun r => reach_untalk (hc n') ?_, fun r => reach_untalk (hc n) ?_⟩, fun op s => ?_⟩
  · exact reach_talk (cfg := p.cfgVoice ops c n) r
  · exact reach_talk (cfg := p.cfgVoice ops c n') r
  · rw [← (C107_call _ env op s).1 (hc n), ← (C107_call _ env op s).1 (hc n')]
    rfl

/-- C108: without any condition, what a solver of any verbosity does a QUIET one does. -/
theorem C108_quiet_same (p : Params K) (ops : Ops G T N) (c : Bool) (n : Nat) {env : Env G N} {h : List (Op G N)} {s : St G T N}
    (r : Reach (p.cfgVoice ops c n) env h s) : Reach (p.cfgVoice ops c Verbosity.quiet.code) env h s :=
  reach_talk (cfg := p.cfgVoice ops c n) r

/-- C108: the messages of one call. UPDATE leaves out the messages of the rejection object that are not warnings, QUIET also those of the
optimization: what is left are the warnings, and these are never left out. -/
theorem C108_messages {p : Params K} {ops : Ops G T N} {c : Bool} {env : Env G N} {op : Op G N} {s s' : St G T N} {ms : List Msg}
    (h : Spec.Says (p.cfgVoice ops c Verbosity.verbose.code) (voice Verbosity.verbose.code).rejection env op s s' ms) :
    Spec.Says (p.cfgVoice ops c Verbosity.update.code) (voice Verbosity.update.code).rejection env op s s'
      (ms.filter fun m => Spec.warns m || Spec.bySolver m) ∧
    Spec.Says (p.cfgVoice ops c Verbosity.quiet.code) (voice Verbosity.quiet.code).rejection env op s s' (ms.filter Spec.warns) := by
  have h1 := C102_quiet h
  have e1 : (fun m => Spec.warns m || Spec.bySolver m) = Spec.loud := by funext m; cases m <;> rfl
  have e2 : (ms.filter Spec.loud).filter (fun m => !Spec.bySolver m) = ms.filter Spec.warns := by
    rw [List.filter_filter]
    congr 1
    funext m
    cases m <;> rfl
  rw [e1]
  refine ⟨h1, ?_⟩
  have h2 := C107_rest h1
  rw [e2] at h2
  exact h2

/-- C108: the messages of all calls since the solver was made, at the three verbosities. -/
theorem C108_transcript {p : Params K} {ops : Ops G T N} {c : Bool} {env : Env G N} {h : List (Op G N)} {s : St G T N} {ms : List Msg}
    (t : Spec.Transcript (p.cfgVoice ops c Verbosity.verbose.code) (voice Verbosity.verbose.code).rejection env h s ms) :
    Spec.Transcript (p.cfgVoice ops c Verbosity.update.code) (voice Verbosity.update.code).rejection env h s
      (ms.filter fun m => Spec.warns m || Spec.bySolver m) ∧
    Spec.Transcript (p.cfgVoice ops c Verbosity.quiet.code) (voice Verbosity.quiet.code).rejection env h s (ms.filter Spec.warns) := by
  induction t with
  | new => exact ⟨.new, .new⟩
  | call _ e ih =>
    rw [List.filter_append, List.filter_append]
    exact ⟨.call ih.1 (C108_messages e).1, .call ih.2 (C108_messages e).2⟩

/-- C108: making a solver prints nothing at UPDATE and QUIET and one message at VERBOSE; any other number gives the warning, whatever it is. -/
theorem C108_construction (n : Nat) :
    ((voice n).said = [] ↔ n = Verbosity.update.code ∨ n = Verbosity.quiet.code) ∧
    ((voice n).said = [.starting] ↔ n = Verbosity.verbose.code) ∧
    ((voice n).said = [.unrecognized] ↔ ∀ v : Verbosity, v.code ≠ n) := by
  match n with
  | 0 => exact ⟨by decide, by decide, ⟨fun h => (by cases h), fun h => absurd rfl (h .update)⟩⟩
  | 1 => exact ⟨by decide, by decide, ⟨fun h => (by cases h), fun h => absurd rfl (h .quiet)⟩⟩
  | 2 => exact ⟨by decide, by decide, ⟨fun h => (by cases h), fun h => absurd rfl (h .verbose)⟩⟩
  | n + 3 =>
    refine ⟨⟨fun h => (by cases h), fun h => ?_⟩, ⟨fun h => (by cases h), fun h => ?_⟩, ⟨fun _ v => ?_, fun _ => rfl⟩⟩
    · simp [Verbosity.code] at h
    · simp [Verbosity.code] at h
    · cases v <;> simp [Verbosity.code]

/-- A number that is no enumerator is announced as UPDATE, but the solver made is the one made for VERBOSE. -/
theorem C108_false_update (n : Nat) (hn : ∀ v : Verbosity, v.code ≠ n) :
    (voice n).said = [.unrecognized] ∧ (voice n).rejection = (voice Verbosity.verbose.code).rejection ∧
    (voice n).rejection ≠ (voice Verbosity.update.code).rejection ∧
    ∀ (p : Params K) (ops : Ops G T N) (c : Bool), p.cfgVoice ops c n = p.cfgVoice ops c Verbosity.verbose.code := by
  match n, hn with
  | 0, hn => exact absurd rfl (hn .update)
  | 1, hn => exact absurd rfl (hn .quiet)
  | 2, hn => exact absurd rfl (hn .verbose)
  | _ + 3, _ => exact ⟨rfl, rfl, fun h => Bool.noConfusion h, fun _ _ _ => rfl⟩

example : ∀ v : Verbosity, v.code ≠ 7 := by intro v; cases v <;> decide

/-- A setter that is called without a verbosity passes UPDATE, so an earlier QUIET is lost. -/
example (t r : K) : ((Params.default : Params K).applyAll [.noRejection .quiet, .incremental, .simple3D t r .update]).verbosity = .update := rfl

set_option maxRecDepth 100000 in
/-- The batch with all kinds of measurements at the three verbosities. -/
example : ∃ s s', Reach (Demo.params.cfgVoice Demo.cfg.ops true Verbosity.verbose.code) Demo.env (Demo.h1.take 3) s ∧
    Spec.Says (Demo.params.cfgVoice Demo.cfg.ops true Verbosity.verbose.code) true Demo.env mixed s s'
      [.self, .between (Demo.a 0) (Demo.a 2), .discarded, .missingKeys, .registered 1, .inliers 1, .spin 1 1, .running true, .optimized 1 1] ∧
    Spec.Says (Demo.params.cfgVoice Demo.cfg.ops true Verbosity.update.code) false Demo.env mixed s s'
      [.self, .missingKeys, .running true, .optimized 1 1] ∧
    Spec.Says (Demo.params.cfgVoice Demo.cfg.ops true Verbosity.quiet.code) false Demo.env mixed s s' [.self, .missingKeys] := by
  have e : Demo.params.cfgVoice Demo.cfg.ops true Verbosity.verbose.code = { Demo.cfg with debug := true } := rfl
  obtain ⟨s, s', h1, h2, _⟩ := talk_says (cfg := { Demo.cfg with debug := true }) (v := true) (ops := Demo.h1.take 3) (op := mixed)
    (ms := [.self, .between (Demo.a 0) (Demo.a 2), .discarded, .missingKeys, .registered 1, .inliers 1, .spin 1 1, .running true, .optimized 1 1])
    (P := fun _ => true) (by decide +kernel)
  rw [← e] at h1 h2
  have h3 := C108_messages h2
  exact ⟨s, s', h1.reach, h2, h3.1, h3.2⟩

/-- All calls in order, for the example. -/
private def runAll (cfg : Cfg G T N) (v : Bool) (env : Env G N) : List (Op G N) → St G T N → List Msg → Option (St G T N × List Msg)
  | [], s, ms => some (s, ms)
  | op :: l, s, ms => match execT cfg v env op (s, []) with
    | .ok (s', w) _ => runAll cfg v env l s' (ms ++ w)
    | _ => none

private theorem runAll_transcript {cfg : Cfg G T N} {v : Bool} {env : Env G N} :
    ∀ (l : List (Op G N)) {h : List (Op G N)} {s : St G T N} {ms : List Msg} {r : St G T N × List Msg}, Spec.Transcript cfg v env h s ms →
      runAll cfg v env l s ms = some r → Spec.Transcript cfg v env (h ++ l) r.1 r.2 := by
  intro l
  induction l with
  | nil => intro h s ms r t e; cases e; simpa using t
  | cons op l ih =>
    intro h s ms r t e
    unfold runAll at e
    split at e
    · next s' w x he =>
      have := ih (t.call ⟨x, he⟩) e
      simpa using this
    · cases e

set_option maxRecDepth 100000 in
/-- Four calls of a new solver: twelve messages at VERBOSE, two at QUIET. -/
example : ∃ s ms, Spec.Transcript (Demo.params.cfgVoice Demo.cfg.ops true Verbosity.verbose.code) true Demo.env (Demo.h1.take 3 ++ [mixed]) s ms ∧
    ms.length = 12 ∧
    Spec.Transcript (Demo.params.cfgVoice Demo.cfg.ops true Verbosity.quiet.code) false Demo.env (Demo.h1.take 3 ++ [mixed]) s
      [.self, .missingKeys] := by
  generalize hl : Demo.h1.take 3 ++ [mixed] = l
  have h : ((runAll (Demo.params.cfgVoice Demo.cfg.ops true Verbosity.verbose.code) true Demo.env l St.init []).map
      fun r => (decide (r.2.length = 12) && decide (r.2.filter Spec.warns = [.self, .missingKeys]))) = some true := by
    rw [← hl]
    decide +kernel
  obtain ⟨r, hr, hd⟩ := Option.map_eq_some_iff.mp h
  have hd := Bool.and_eq_true_iff.mp hd
  have ht := runAll_transcript l .new hr
  rw [List.nil_append] at ht
  have hq := (C108_transcript ht).2
  rw [of_decide_eq_true hd.2] at hq
  exact ⟨r.1, r.2, ht, of_decide_eq_true hd.1, hq⟩

end Props

end RPGO
