import Verif.Proofs.Quiet
import Verif.Props.Print
import Verif.Props.FailureOpt
/-
C107: silencing the solver.
-/

namespace RPGO
variable {G T N : Type} [Mul G] [Inv G] [One G]

theorem attach_hush {σ α : Type} (l : List Msg) (p : Out σ α) : Spec.hush (attach l p) = p := by cases p <;> rfl

theorem talk_talk (cfg : Cfg G T N) (d d' : Bool) : (cfg.talk d).talk d' = cfg.talk d' := rfl
theorem talk_self (cfg : Cfg G T N) : cfg.talk cfg.debug = cfg := rfl

/-- What any call of the silent solver does, compared to the talking one. -/
theorem exec_lower (cfg : Cfg G T N) (d v : Bool) (env : Env G N) (op : Op G N) (s : St G T N) (l l' : List Msg) :
    (∃ p w, execT (cfg.talk d) v env op (s, l) = attach (l ++ w) p ∧ execT (cfg.talk false) v env op (s, l') = attach (l' ++ others w) p) ∨
      (cfg.lm = true ∧ d = true ∧ cfg.rejection = false) ∧ execT (cfg.talk d) v env op (s, l) = .ub .nullDeref :=
  Lowers.exec (cfg.talk d) v env op s l l'

theorem sess_ok {α : Type} {d : Bool} {o : Out (Talk (St G T N)) α} {q' : Sess G T N} {r : α} (h : o.sess d = .ok q' r) :
    o = .ok (q'.st, q'.said) r ∧ q'.debug = d := by
  cases o with
  | ok p a => cases h; exact ⟨rfl, rfl⟩
  | throw _ _ => cases h
  | ub _ => cases h

theorem sess_throw {α : Type} {d : Bool} {o : Out (Talk (St G T N)) α} {q' : Sess G T N} {e : Exn} (h : o.sess d = .throw q' e) :
    o = .throw (q'.st, q'.said) e ∧ q'.debug = d := by
  cases o with
  | ok p a => cases h
  | throw _ _ => cases h; exact ⟨rfl, rfl⟩
  | ub _ => cases h

/-- The silent solver follows. -/
theorem exec_talk (cfg : Cfg G T N) (d : Bool) (env : Env G N) (op : Op G N) (s : St G T N) :
    exec (cfg.talk false) env op s = exec (cfg.talk d) env op s ∨
      (cfg.lm = true ∧ d = true ∧ cfg.rejection = false) ∧ exec (cfg.talk d) env op s = .ub .nullDeref := by
  have e1 := hush_exec (cfg.talk d) false env op (s, [])
  have e2 := hush_exec (cfg.talk false) false env op (s, [])
  rcases exec_lower cfg d false env op s [] [] with ⟨p, w, h1, h2⟩ | ⟨hB, h⟩
  · left
    rw [h1, attach_hush] at e1
    rw [h2, attach_hush] at e2
    exact e2.symm.trans e1
  · right
    rw [h] at e1
    exact ⟨hB, e1.symm⟩

theorem ops_append (h : List (Act G N)) (a : Act G N) : Act.ops (h ++ [a]) = Act.ops h ++ Act.ops [a] := by
  induction h with
  | nil => rfl
  | cons b h ih => cases b <;> simp [Act.ops, ih]

theorem Session.flag {cfg : Cfg G T N} {v : Bool} {env : Env G N} {h : List (Act G N)} {q : Sess G T N} (r : Session cfg v env h q) :
    q.debug = (cfg.debug && decide (∀ a ∈ h, a.quiets = false)) := by
  have key : ∀ (h : List (Act G N)) (a : Act G N) (d d' : Bool), d = (cfg.debug && decide (∀ a ∈ h, a.quiets = false)) →
      d' = (d && !a.quiets) → d' = (cfg.debug && decide (∀ b ∈ h ++ [a], b.quiets = false)) := by
    intro h a d d' hd hd'
    rw [hd', hd]
    rw [Bool.eq_iff_iff]
    simp only [Bool.and_eq_true, decide_eq_true_eq, Bool.not_eq_true', List.mem_append, List.mem_singleton]
    constructor
    · rintro ⟨⟨h1, h2⟩, h3⟩
      refine ⟨h1, ?_⟩
      rintro b (hb | rfl)
      · exact h2 b hb
      · exact h3
    · rintro ⟨h1, h2⟩
      exact ⟨⟨h1, fun b hb => h2 b (.inl hb)⟩, h2 a (.inr rfl)⟩
  induction r with
  | init => simp
  | @ok h q a q' x _ e ih =>
    refine key h a q.debug _ ih ?_
    cases a with
    | setQuiet => cases e; simp [Act.quiets]
    | call op => rw [(sess_ok e).2]; simp [Act.quiets]
  | @throw h q a q' x _ e ih =>
    refine key h a q.debug _ ih ?_
    cases a with
    | setQuiet => cases e
    | call op => rw [(sess_throw e).2]; simp [Act.quiets]

namespace Props

/-- C107: one call. With `setQuiet()` it does exactly what it does without (same result, same exception, same state), unless the solver optimizes with
Levenberg-Marquardt and has no outlier rejection: then the talking solver's call may be undefined. -/
theorem C107_call (cfg : Cfg G T N) (env : Env G N) (op : Op G N) (s : St G T N) :
    (cfg.rejection = true ∨ cfg.lm = false → exec (cfg.talk false) env op s = exec cfg env op s) ∧
    (exec (cfg.talk false) env op s = exec cfg env op s ∨ exec cfg env op s = .ub .nullDeref) := by
  have h := exec_talk cfg cfg.debug env op s
  rw [talk_self] at h
  refine ⟨fun hc => ?_, h.imp_right fun h => h.2⟩
  rcases h with h | ⟨⟨h1, _, h3⟩, _⟩
  · exact h
  · rcases hc with hc | hc
    · rw [hc] at h3; cases h3
    · rw [hc] at h1; cases h1

/-- C107: whenever and how often `setQuiet()` is called, a session ends in the state in which the same other calls leave a solver that was silent
from the start. -/
theorem C107_session {cfg : Cfg G T N} {v : Bool} {env : Env G N} {h : List (Act G N)} {q : Sess G T N} (r : Session cfg v env h q) :
    Reach (cfg.talk false) env (Act.ops h) q.st := by
  induction r with
  | init => exact Reach.init
  | @ok h q a q' x _ e ih =>
    rw [ops_append]
    cases a with
    | setQuiet => cases e; simpa [Act.ops] using ih
    | call op =>
      have e1 := hush_exec (cfg.talk q.debug) v env op (q.st, q.said)
      rw [(sess_ok e).1] at e1
      rcases exec_talk cfg q.debug env op q.st with h | ⟨_, h⟩
      · exact Reach.ok ih (h.trans e1.symm)
      · rw [h] at e1; cases e1
  | @throw h q a q' x _ e ih =>
    rw [ops_append]
    cases a with
    | setQuiet => cases e
    | call op =>
      have e1 := hush_exec (cfg.talk q.debug) v env op (q.st, q.said)
      rw [(sess_throw e).1] at e1
      rcases exec_talk cfg q.debug env op q.st with h | ⟨_, h⟩
      · exact Reach.throw ih (h.trans e1.symm)
      · rw [h] at e1; cases e1

/-- C107: and a sequence of calls that works without `setQuiet()` works, with the same end, however `setQuiet()` is mixed into it. -/
theorem C107_mixed {cfg : Cfg G T N} (v : Bool) {env : Env G N} {ops : List (Op G N)} {s : St G T N} (r : Reach cfg env ops s)
    {h : List (Act G N)} (hh : Act.ops h = ops) : ∃ q, Session cfg v env h q ∧ q.st = s := by
  have flag : ∀ {h : List (Act G N)} {q : Sess G T N}, Session cfg v env h q → q.debug = cfg.debug ∨ q.debug = false := by
    intro h q r
    rw [r.flag]
    cases cfg.debug
    · exact .inr rfl
    · cases decide (∀ a ∈ h, a.quiets = false)
      · exact .inr rfl
      · exact .inl rfl
  have same : ∀ {d : Bool} {op : Op G N} {s : St G T N}, d = cfg.debug ∨ d = false → (exec cfg env op s ≠ .ub .nullDeref) →
      exec (cfg.talk d) env op s = exec cfg env op s := by
    intro d op s hd hu
    rcases hd with rfl | rfl
    · rfl
    · exact ((C107_call cfg env op s).2).resolve_right hu
  -- sessions can be extended by `setQuiet`
  have key : ∀ (n : Nat) (h : List (Act G N)) (ops : List (Op G N)) (s : St G T N), h.length = n → Act.ops h = ops → Reach cfg env ops s →
      ∃ q, Session cfg v env h q ∧ q.st = s := by
    intro n
    induction n with
    | zero =>
      intro h ops s hn hh r
      rw [List.length_eq_zero_iff] at hn
      subst hn
      subst hh
      generalize ho : Act.ops ([] : List (Act G N)) = o at r
      cases r with
      | init => exact ⟨_, Session.init, rfl⟩
      | ok _ _ => exact absurd ho (by simp [Act.ops])
      | throw _ _ => exact absurd ho (by simp [Act.ops])
    | succ n ih =>
      intro h ops s hn hh r
      obtain ⟨h0, a, rfl⟩ : ∃ h0 a, h = h0 ++ [a] := by
        rcases List.eq_nil_or_concat h with rfl | ⟨h0, a, rfl⟩
        · cases hn
        · exact ⟨h0, a, by simp⟩
      have hl : h0.length = n := by simpa using hn
      rw [ops_append] at hh
      cases a with
      | setQuiet =>
        obtain ⟨q, rq, eq⟩ := ih h0 ops s hl (by simpa [Act.ops] using hh) r
        exact ⟨{ q with debug := false }, Session.ok rq rfl, eq⟩
      | call op =>
        subst hh
        generalize ho : Act.ops h0 ++ Act.ops [Act.call op] = o at r
        cases r with
        | init => exact absurd ho (by simp [Act.ops])
        | @ok h1 s1 op1 s' x r1 e1 =>
          have hj := List.append_inj' (show Act.ops h0 ++ [op] = h1 ++ [op1] from ho) rfl
          obtain ⟨rfl, hop⟩ := hj
          cases hop
          obtain ⟨q, rq, rfl⟩ := ih h0 _ s1 hl rfl r1
          have e2 := same (flag rq) (by rw [e1]; simp) |>.trans e1
          have e3 := hush_exec (cfg.talk q.debug) v env op (q.st, q.said)
          rw [e2] at e3
          cases hx : execT (cfg.talk q.debug) v env op (q.st, q.said) with
          | ok p a =>
            rw [hx] at e3
            cases e3
            exact ⟨⟨p.1, q.debug, p.2⟩, Session.ok rq (by show Out.sess _ _ = _; rw [hx]; rfl), rfl⟩
          | throw _ _ => rw [hx] at e3; cases e3
          | ub _ => rw [hx] at e3; cases e3
        | @throw h1 s1 op1 s' x r1 e1 =>
          have hj := List.append_inj' (show Act.ops h0 ++ [op] = h1 ++ [op1] from ho) rfl
          obtain ⟨rfl, hop⟩ := hj
          cases hop
          obtain ⟨q, rq, rfl⟩ := ih h0 _ s1 hl rfl r1
          have e2 := same (flag rq) (by rw [e1]; simp) |>.trans e1
          have e3 := hush_exec (cfg.talk q.debug) v env op (q.st, q.said)
          rw [e2] at e3
          cases hx : execT (cfg.talk q.debug) v env op (q.st, q.said) with
          | ok _ _ => rw [hx] at e3; cases e3
          | throw p a =>
            rw [hx] at e3
            cases e3
            exact ⟨⟨p.1, q.debug, p.2⟩, Session.throw rq (by show Out.sess _ _ = _; rw [hx]; rfl), rfl⟩
          | ub _ => rw [hx] at e3; cases e3
  exact key _ h ops s rfl hh r

/-- C107: after `setQuiet()` no call prints what the solver itself prints; what was printed before stays. -/
theorem C107_silent {cfg : Cfg G T N} {v : Bool} {env : Env G N} {h : List (Act G N)} {q : Sess G T N} (r : Session cfg v env h q)
    (hq : .setQuiet ∈ h) (a : Act G N) {q' : Sess G T N} (e : (∃ x, act cfg v env a q = .ok q' x) ∨ ∃ x, act cfg v env a q = .throw q' x) :
    ∃ w, q'.said = q.said ++ w ∧ ∀ m ∈ w, Spec.bySolver m = false := by
  have hd : q.debug = false := by
    rw [r.flag]
    have : ¬ ∀ a ∈ h, a.quiets = false := fun hh => absurd (hh _ hq) (by simp [Act.quiets])
    simp [this]
  cases a with
  | setQuiet =>
    rcases e with ⟨x, e⟩ | ⟨x, e⟩
    · cases e; exact ⟨[], by simp, by simp⟩
    · cases e
  | call op =>
    rcases exec_lower cfg false v env op q.st q.said q.said with ⟨p, w, h1, h2⟩ | ⟨⟨_, hf, _⟩, _⟩
    · rcases e with ⟨x, e⟩ | ⟨x, e⟩
      · have e1 := (sess_ok e).1
        rw [hd, h2] at e1
        cases p with
        | ok s a =>
          refine ⟨others w, (Prod.mk.inj (Out.ok.inj e1).1).2.symm, fun m hm => ?_⟩
          simpa using (List.mem_filter.1 hm).2
        | throw _ _ => cases e1
        | ub _ => cases e1
      · have e1 := (sess_throw e).1
        rw [hd, h2] at e1
        cases p with
        | ok _ _ => cases e1
        | throw s a =>
          refine ⟨others w, (Prod.mk.inj (Out.throw.inj e1).1).2.symm, fun m hm => ?_⟩
          simpa using (List.mem_filter.1 hm).2
        | ub _ => cases e1
    · cases hf

/-- C107: and everything else is printed as before: the warnings and the messages of the rejection object. -/
theorem C107_rest {cfg : Cfg G T N} {v : Bool} {env : Env G N} {op : Op G N} {s s' : St G T N} {ms : List Msg} (h : Spec.Says cfg v env op s s' ms) :
    Spec.Says (cfg.talk false) v env op s s' (ms.filter fun m => !Spec.bySolver m) := by
  obtain ⟨x, h⟩ := h
  rcases exec_lower cfg cfg.debug v env op s [] [] with ⟨p, w, h1, h2⟩ | ⟨_, h1⟩
  · rw [talk_self, h] at h1
    cases p with
    | ok s1 a =>
      cases h1
      exact ⟨x, h2⟩
    | throw _ _ => cases h1
    | ub _ => cases h1
  · rw [talk_self, h] at h1
    cases h1

/-- C102: without outlier rejection, `ignorePrefix` and `revivePrefix` do nothing to the graph and say so, at any verbosity, before they optimize. -/
theorem C102_unrejected {cfg : Cfg G T N} {v : Bool} {env : Env G N} (hr : cfg.rejection = false) {op : Op G N} {c : Chr}
    (ho : op = .ignore c ∨ op = .revive c) {s s' : St G T N} {ms : List Msg} (h : Spec.Says cfg v env op s s' ms) :
    s'.nfg = s.nfg ∧ ∃ rest, ms = .notImplemented :: rest ∧ ∀ m ∈ rest, Spec.bySolver m = true := by
  obtain ⟨r, h⟩ := h
  have key : ∀ {m : M (St G T N) Unit} {q : Talk (St G T N)}, M.bind (mute (M.when cfg.rejection m)) (fun _ => M.bind (say (!cfg.rejection) .notImplemented)
      fun _ => optimizeT cfg env) (s, []) = .ok q () → q.1.nfg = s.nfg ∧ ∃ rest, q.2 = .notImplemented :: rest ∧ ∀ m ∈ rest, Spec.bySolver m = true := by
    intro m q hm
    obtain ⟨q1, _, h1, h2⟩ := M.bind_eq_ok.1 hm
    obtain ⟨q2, _, h3, h4⟩ := M.bind_eq_ok.1 h2
    obtain ⟨a1, a2⟩ := mute_ok h1
    obtain ⟨b1, b2⟩ := say_ok h3
    obtain ⟨f, hq⟩ := optimizeT_says h4
    rw [hr] at a1 b2
    have e1 : q1.1 = s := by cases a1; rfl
    refine ⟨by rw [f.nfg, b1, e1], optMsgs cfg (useGncNow cfg q2.1) q.1, by rw [hq, b2, a2]; rfl, fun m hm => ?_⟩
    unfold optMsgs at hm
    rcases List.mem_append.1 hm with hm | hm
    · rw [(mem_tells hm).2]; rfl
    · split at hm <;> rw [(mem_tells hm).2] <;> rfl
  rcases ho with rfl | rfl
  all_goals
    obtain ⟨q1, _, h1, h2⟩ := M.bind_eq_ok.1 h
    cases h2
    exact key h1

/-- C102: asking for the ignored prefixes changes nothing; without outlier rejection the answer is empty, with the same warning, otherwise there is no
message. -/
theorem C102_asked (cfg : Cfg G T N) (s : St G T N) (ms : List Msg) :
    (cfg.rejection = true → getIgnoredT cfg (s, ms) = .ok (s, ms) (getIgnored cfg s)) ∧
    (cfg.rejection = false → getIgnoredT cfg (s, ms) = .ok (s, ms ++ [.notImplemented]) []) := by
  constructor <;> intro h
  · have e : getIgnoredT cfg (s, ms) = (M.bind (say (!cfg.rejection) .notImplemented) fun _ => M.bind M.get fun q => M.pure (getIgnored cfg q.1)) (s, ms) := rfl
    rw [e, h]
    rfl
  · have e : getIgnoredT cfg (s, ms) = (M.bind (say (!cfg.rejection) .notImplemented) fun _ => M.bind M.get fun q => M.pure (getIgnored cfg q.1)) (s, ms) := rfl
    have g : ∀ s : St G T N, getIgnored cfg s = [] := by intro s; unfold getIgnored; rw [h]; rfl
    rw [e, h]
    simp only [g]
    rfl

set_option maxRecDepth 100000 in
/-- The warning at verbosity QUIET. -/
example : ∃ s s', ReachOk { Demo.cfg with rejection := false } Demo.env (Demo.h1.take 3) s ∧
    Spec.Says { Demo.cfg with rejection := false } false Demo.env (.ignore 97) s s' [.notImplemented] := by
  obtain ⟨s, s', h1, h2, _⟩ := talk_says (cfg := { Demo.cfg with rejection := false }) (v := false) (ops := Demo.h1.take 3) (op := .ignore 97)
    (ms := [.notImplemented]) (P := fun _ => true) (by decide +kernel)
  exact ⟨s, s', h1, h2⟩

/-- A session of a new solver, if every call returns. -/
def sessionOf (cfg : Cfg Demo.Z Demo.Tp Demo.Ns) (v : Bool) : List (Act Demo.Z Demo.Ns) → Sess Demo.Z Demo.Tp Demo.Ns → Option (Sess Demo.Z Demo.Tp Demo.Ns)
  | [], q => some q
  | a :: h, q => match act cfg v Demo.env a q with
    | .ok q' _ => sessionOf cfg v h q'
    | _ => none

theorem sessionOf_session {cfg : Cfg Demo.Z Demo.Tp Demo.Ns} {v : Bool} {h : List (Act Demo.Z Demo.Ns)} :
    ∀ {h0 : List (Act Demo.Z Demo.Ns)} {q q' : Sess Demo.Z Demo.Tp Demo.Ns}, Session cfg v Demo.env h0 q → sessionOf cfg v h q = some q' →
      Session cfg v Demo.env (h0 ++ h) q' := by
  induction h with
  | nil => intro h0 q q' r e; cases e; simpa using r
  | cons a h ih =>
    intro h0 q q' r e
    unfold sessionOf at e
    cases ha : act cfg v Demo.env a q with
    | ok q1 x =>
      rw [ha] at e
      have := ih (Session.ok r ha) e
      simpa using this
    | throw _ _ => rw [ha] at e; cases e
    | ub _ => rw [ha] at e; cases e

theorem sessionOf_said {cfg : Cfg Demo.Z Demo.Tp Demo.Ns} {v : Bool} {h : List (Act Demo.Z Demo.Ns)} {P : Sess Demo.Z Demo.Tp Demo.Ns → Bool}
    (e : (match sessionOf cfg v h ⟨St.init, cfg.debug, []⟩ with | some q => P q | none => false) = true) :
    ∃ q, Session cfg v Demo.env h q ∧ P q = true := by
  cases hs : sessionOf cfg v h ⟨St.init, cfg.debug, []⟩ with
  | none => rw [hs] at e; cases e
  | some q =>
    rw [hs] at e
    exact ⟨q, by simpa using sessionOf_session Session.init hs, e⟩

set_option maxRecDepth 100000 in
/-- The same batch before and after `setQuiet()`: the two messages of the solver are gone. In mode VERBOSE `setQuiet()` does not silence the solver as
a whole: all messages of the rejection object are still there. -/
theorem C107_false_quiet :
    (∃ q, Session { Demo.cfg with debug := true } true Demo.env ((Demo.h1.take 3).map .call ++ [.call mixed]) q ∧
      q.said.drop (q.said.length - 9) = [.self, .between (Demo.a 0) (Demo.a 2), .discarded, .missingKeys, .registered 1, .inliers 1, .spin 1 1,
        .running true, .optimized 1 1]) ∧
    ∃ q, Session { Demo.cfg with debug := true } true Demo.env ((Demo.h1.take 3).map .call ++ [.setQuiet, .call mixed]) q ∧
      q.said.drop (q.said.length - 7) = [.self, .between (Demo.a 0) (Demo.a 2), .discarded, .missingKeys, .registered 1, .inliers 1, .spin 1 1] := by
  constructor
  · obtain ⟨q, h1, h2⟩ := sessionOf_said (cfg := { Demo.cfg with debug := true }) (v := true) (h := (Demo.h1.take 3).map .call ++ [.call mixed])
      (P := fun q => decide (q.said.drop (q.said.length - 9) = [.self, .between (Demo.a 0) (Demo.a 2), .discarded, .missingKeys, .registered 1,
        .inliers 1, .spin 1 1, .running true, .optimized 1 1])) (by decide +kernel)
    exact ⟨q, h1, of_decide_eq_true h2⟩
  · obtain ⟨q, h1, h2⟩ := sessionOf_said (cfg := { Demo.cfg with debug := true }) (v := true)
      (h := (Demo.h1.take 3).map .call ++ [.setQuiet, .call mixed])
      (P := fun q => decide (q.said.drop (q.said.length - 7) = [.self, .between (Demo.a 0) (Demo.a 2), .discarded, .missingKeys, .registered 1,
        .inliers 1, .spin 1 1])) (by decide +kernel)
    exact ⟨q, h1, of_decide_eq_true h2⟩

/-- A pose and a step from it. -/
def poseAndStep : List (Op Demo.Z Demo.Ns) :=
  [.update [] [Demo.pose (Demo.a 0) 0] false, .update [Demo.edge (Demo.a 0) (Demo.a 1) 1] [Demo.pose (Demo.a 1) 1] true]

set_option maxRecDepth 100000 in
/-- The exception of C107_call: with Levenberg-Marquardt and without outlier rejection, the message after the optimization asks the missing rejection
object for the number of closures, so `forceUpdate` is undefined; after `setQuiet()` the same call is fine. -/
theorem C107_false_same :
    (∃ q, Session { Demo.cfg with debug := true, rejection := false } false Demo.env (poseAndStep.map .call) q ∧
      act { Demo.cfg with debug := true, rejection := false } false Demo.env (.call (.forceUpdate [] [])) q = .ub .nullDeref) ∧
    ∃ q, Session { Demo.cfg with debug := true, rejection := false } false Demo.env
      (poseAndStep.map .call ++ [.setQuiet, .call (.forceUpdate [] [])]) q := by
  constructor
  · obtain ⟨q, h1, h2⟩ := sessionOf_said (cfg := { Demo.cfg with debug := true, rejection := false }) (v := false) (h := poseAndStep.map .call)
      (P := fun q => match act { Demo.cfg with debug := true, rejection := false } false Demo.env (.call (.forceUpdate [] [])) q with
        | .ub .nullDeref => true
        | _ => false) (by decide +kernel)
    refine ⟨q, h1, ?_⟩
    split at h2
    · assumption
    · cases h2
  · obtain ⟨q, h1, _⟩ := sessionOf_said (cfg := { Demo.cfg with debug := true, rejection := false }) (v := false)
      (h := poseAndStep.map .call ++ [.setQuiet, .call (.forceUpdate [] [])]) (P := fun _ => true) (by decide +kernel)
    exact ⟨q, h1⟩

end Props

end RPGO
