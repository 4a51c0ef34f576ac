import Verif.Model.Tuning
import Verif.Props.Optimize
import Verif.Props.Averaging
/-
C67: the settings the optimizers run with.
-/

namespace RPGO.Spec
variable {K : Type}

/-- `basic` is only used for setters without tuning numbers. -/
def Proper : SetCall K → Prop
  | .basic (.gnc _ _) | .basic (.alignMethod _) => False
  | _ => True

/-- Is the call one of the two GNC setters? -/
def isGnc : SetCall K → Bool
  | .gnc _ => true
  | _ => false

/-- What `setLmDiagonalDamping`, `setMultiRobotAlignMethod` and `setMultiRobotGncAlignProbability` set. -/
def setsDamping : SetCall K → Option Bool
  | .damping on => some on
  | _ => none
def setsAlign : SetCall K → Option AlignMethod
  | .align m => some m
  | _ => none
def setsAlignProb : SetCall K → Option K
  | .alignProb p => some p
  | _ => none

/-- The value set by the last call of `setLmDiagonalDamping`, on if there is none. -/
def lastDamping (cs : List (SetCall K)) : Bool :=
  (cs.filterMap setsDamping).getLast?.getD true

/-- The method set by the last call of `setMultiRobotAlignMethod`, none if there is none. -/
def lastAlign (cs : List (SetCall K)) : AlignMethod :=
  (cs.filterMap setsAlign).getLast?.getD .none

/-- The probability set by the last call of `setMultiRobotGncAlignProbability`, 0.99 if there is none. -/
def lastAlignProb [Field K] (cs : List (SetCall K)) : K :=
  (cs.filterMap setsAlignProb).getLast?.getD (99 / 100)

end RPGO.Spec

namespace RPGO
variable {K : Type}

/-- Members that calls other than the GNC setters leave alone. -/
theorem tuning_post {t : Tuning K} {cs : List (SetCall K)} (h : ∀ c ∈ cs, Spec.isGnc c = false) :
    (t.calls cs).threshold = t.threshold ∧ (t.calls cs).maxIterations = t.maxIterations ∧ (t.calls cs).muStep = t.muStep ∧
    (t.calls cs).relCostTol = t.relCostTol ∧ (t.calls cs).weightsTol = t.weightsTol := by
  induction cs generalizing t with
  | nil => exact ⟨rfl, rfl, rfl, rfl, rfl⟩
  | cons c cs ih =>
    obtain ⟨a1, a2, a3, a4, a5⟩ := ih (t := t.apply c) fun x hx => h x (by simp [hx])
    have hc := h c (by simp)
    cases c with
    | gnc _ => cases hc
    | _ => exact ⟨a1, a2, a3, a4, a5⟩

theorem Tuning.calls_append (t : Tuning K) (l l' : List (SetCall K)) : t.calls (l ++ l') = (t.calls l).calls l' :=
  List.foldl_append

theorem Params.calls_append (p : Params K) (l l' : List (SetCall K)) : p.calls (l ++ l') = (p.calls l).calls l' :=
  List.foldl_append

/-- A member that one kind of call sets. -/
theorem last_set {α : Type} (f : Tuning K → α) (sel : SetCall K → Option α)
    (hs : ∀ t c, f (t.apply c) = (sel c).getD (f t)) (cs : List (SetCall K)) (t : Tuning K) :
    f (t.calls cs) = (cs.filterMap sel).getLast?.getD (f t) := by
  induction cs generalizing t with
  | nil => rfl
  | cons c cs ih =>
    show f ((t.apply c).calls cs) = _
    rw [ih, hs]
    cases hc : sel c with
    | none => rw [List.filterMap_cons_none hc]; rfl
    | some a =>
      rw [List.filterMap_cons_some hc]
      cases hl : cs.filterMap sel with
      | nil => rfl
      | cons b l => rw [List.getLast?_cons_cons]; simp [List.getLast?_eq_getLast_of_ne_nil]

theorem damping_last [Field K] (cs : List (SetCall K)) : (Tuning.default.calls cs).damping = Spec.lastDamping cs := by
  unfold Spec.lastDamping
  exact last_set Tuning.damping Spec.setsDamping (by intro t c; cases c <;> rfl) cs _

theorem align_last [Field K] (cs : List (SetCall K)) : (Tuning.default.calls cs).alignMethod = Spec.lastAlign cs := by
  unfold Spec.lastAlign
  exact last_set Tuning.alignMethod Spec.setsAlign (by intro t c; cases c <;> rfl) cs _

theorem alignProb_last [Field K] (cs : List (SetCall K)) : (Tuning.default.calls cs).alignProb = Spec.lastAlignProb cs := by
  unfold Spec.lastAlignProb
  exact last_set Tuning.alignProb Spec.setsAlignProb (by intro t c; cases c <;> rfl) cs _

/-- The solver type and whether frames are aligned. -/
theorem params_calls {p : Params K} {t : Tuning K} {cs : List (SetCall K)} (hp : ∀ c ∈ cs, Spec.Proper c)
    (ha : p.align = decide (t.alignMethod ≠ .none)) :
    (p.calls cs).lm = p.lm ∧ (p.calls cs).align = decide ((t.calls cs).alignMethod ≠ .none) := by
  induction cs generalizing p t with
  | nil => exact ⟨rfl, ha⟩
  | cons c cs ih =>
    have hc := hp c (by simp)
    have key : (p.call c).lm = p.lm ∧ (p.call c).align = decide ((t.apply c).alignMethod ≠ .none) := by
      cases c with
      | basic x => cases x <;> first | exact ⟨rfl, ha⟩ | exact absurd hc id
      | align m => exact ⟨rfl, rfl⟩
      | _ => exact ⟨rfl, ha⟩
    obtain ⟨h1, h2⟩ := ih (p := p.call c) (t := t.apply c) (fun x hx => hp x (by simp [hx])) key.2
    exact ⟨h1.trans key.1, h2⟩

/-- GNC is on only after one of its setters. -/
theorem useGnc_calls {p : Params K} {cs : List (SetCall K)} (hp : ∀ c ∈ cs, Spec.Proper c) (h : ∀ c ∈ cs, Spec.isGnc c = false) :
    (p.calls cs).useGnc = p.useGnc := by
  induction cs generalizing p with
  | nil => rfl
  | cons c cs ih =>
    refine (ih (p := p.call c) (fun x hx => hp x (by simp [hx])) (fun x hx => h x (by simp [hx]))).trans ?_
    have h1 := hp c (by simp)
    have h2 := h c (by simp)
    cases c with
    | basic x => cases x <;> first | rfl | exact absurd h1 id
    | gnc _ => cases h2
    | _ => rfl

/-- The two switches after calls that are not GNC setters. -/
theorem switches_calls {p : Params K} {cs : List (SetCall K)} (hp : ∀ c ∈ cs, Spec.Proper c) (h : ∀ c ∈ cs, Spec.isGnc c = false) :
    ((p.calls cs).biasOdom = true ↔ p.biasOdom = true ∨ SetCall.basic .gncBiasOdom ∈ cs) ∧
    ((p.calls cs).fixPrev = true ↔ p.fixPrev = true ∨ SetCall.basic .gncFixInliers ∈ cs) := by
  induction cs generalizing p with
  | nil => exact ⟨by simp [Params.calls], by simp [Params.calls]⟩
  | cons c cs ih =>
    obtain ⟨h1, h2⟩ := ih (p := p.call c) (fun x hx => hp x (by simp [hx])) (fun x hx => h x (by simp [hx]))
    have a1 := hp c (by simp)
    have a2 := h c (by simp)
    have e : p.calls (c :: cs) = (p.call c).calls cs := rfl
    rw [e, h1, h2, List.mem_cons, List.mem_cons]
    cases c with
    | basic x =>
      cases x <;> first
        | exact absurd a1 id
        | exact ⟨by simp [Params.call, Params.apply], by simp [Params.call, Params.apply]⟩
    | gnc _ => cases a2
    | align m => exact ⟨by simp [Params.call, Params.apply], by simp [Params.call, Params.apply]⟩
    | _ => exact ⟨by simp [Params.call], by simp [Params.call]⟩

end RPGO

namespace RPGO.Props
open RPGO
variable {G T N K : Type} [Mul G] [Inv G] [One G] [Field K] [LinearOrder K]

/-- C67, settings of GNC (part of the property, the rest is false): if the last GNC setter called is `c`, then every
call that returns normally and whose optimization uses GNC ran it with the threshold kind and value, the number of
iterations, the step and the two tolerances of `c`, on Levenberg-Marquardt with the damping last set, on the graph followed
by the temporary factors; initial weights were given exactly if `c` asked for a bias towards odometry or `gncBiasOdom` was
called later. Missing: switches set by `gncFixInliers` and `gncBiasOdom` before `c` (false, `C67_false_switches`). -/
theorem C67_gnc_partial (pre post : List (SetCall K)) (c : GncCall K) (hp : ∀ x ∈ pre ++ .gnc c :: post, Spec.Proper x)
    (hpost : ∀ x ∈ post, Spec.isGnc x = false) (cs : List (SetCall K)) (hcs : cs = pre ++ .gnc c :: post)
    (ops : Ops G T N) (signed : Bool) (cfg : Cfg G T N) (hcfg : cfg = (Params.default.calls cs).cfg ops signed)
    (d : Dim) (gnc : GncRun G N K → Option (Vals G × List Rat)) (plain : PlainRun G N → Option (Vals G))
    (average : AvgProblem G K → Option G) (env0 env : Env G N)
    (henv : env = env0.tuned d (Tuning.default.calls cs) cfg.lm gnc plain average)
    (hr : cfg.rejection = true) {op : Op G N} {s s' : St G T N} (ho : Spec.Optimizes cfg op = true) {x : Ret}
    (e : exec cfg env op s = .ok s' x) (hm : Spec.Managed op) (hfix : cfg.fixPrev = true → s.latest ≠ s'.pcm.totalLc) :
    ∃ run res w, gnc run = some (res, w) ∧ run.graph = s'.nfg ++ s'.tempNfg ∧
      run.threshold = c.threshold ∧ run.maxIterations = c.maxIterations ∧ run.muStep = c.muStep ∧
      run.relCostTol = c.relCostTol ∧ run.weightsTol = c.weightsTol ∧ run.base = .lm (Spec.lastDamping cs) ∧
      (run.weights.isSome ↔ c.bias = true ∨ SetCall.basic .gncBiasOdom ∈ post) := by
  have hT : (Tuning.default.calls cs : Tuning K) = ((Tuning.default.calls pre).apply (.gnc c)).calls post := by
    rw [hcs, Tuning.calls_append]; rfl
  have hP : (Params.default.calls cs : Params K) = ((Params.default.calls pre).call (.gnc c)).calls post := by
    rw [hcs, Params.calls_append]; rfl
  obtain ⟨t1, t2, t3, t4, t5⟩ := tuning_post (t := ((Tuning.default : Tuning K).calls pre).apply (.gnc c)) hpost
  rw [← hT] at t1 t2 t3 t4 t5
  have hpp : ∀ x ∈ post, Spec.Proper x := fun x hx => hp x (by simp [hx])
  have hg : cfg.useGnc = true := by
    rw [hcfg]
    show (Params.default.calls cs).useGnc = true
    rw [hP, useGnc_calls hpp hpost]
    rfl
  have hlm : cfg.lm = true := by
    rw [hcfg]
    exact (params_calls (t := Tuning.default) (by rw [hcs]; exact hp) rfl).1
  have hb : cfg.biasOdom = true ↔ c.bias = true ∨ SetCall.basic .gncBiasOdom ∈ post := by
    rw [hcfg]
    show (Params.default.calls cs).biasOdom = true ↔ _
    rw [hP]
    exact (switches_calls hpp hpost).1
  obtain ⟨s1, o, h1, h2⟩ := exec_ok_phase hr e
  rcases h2 with ⟨_, h2⟩ | ⟨hf, _⟩
  · obtain ⟨_, hlat, -⟩ := (phase1_sameW cfg env hm).of_ok h1
    have hfr := (optimize_frame cfg env).of_ok h2
    obtain ⟨full, res, s2, s3, _, hc, ha, hs'⟩ := optimize_ok h2
    have huse : useGncNow cfg s1 = true := by
      unfold useGncNow
      rw [hg, hr]
      cases hfx : cfg.fixPrev with
      | false => rfl
      | true =>
        have := hfix hfx
        rw [hfr.pcm, ← hlat] at this
        simp only [Bool.true_and, Bool.not_eq_true', beq_eq_false_iff_ne]
        exact fun h => this h.symm
    rcases hc with ⟨_, hc⟩ | ⟨hc, _⟩
    · obtain ⟨w, hw, _, _, _⟩ := gncOptimize_ok hc
      rw [henv] at hw
      refine ⟨_, res, w, hw, ?_, t1, t2, t3, t4, t5, ?_, ?_⟩
      · rw [hfr.nfg, hfr.tempNfg]
      · show (Tuning.default.calls cs).base cfg.lm = _
        rw [hlm, ← damping_last]
        rfl
      · show (gncInit cfg s1).isSome ↔ _
        rw [← hb]
        unfold gncInit
        cases cfg.biasOdom <;> simp
    · rw [huse] at hc; cases hc
  · rw [← phase1_flag h1, hf] at ho; cases ho

/-- C67: without a call of a GNC setter, whatever the other calls, GNC is off, and an optimization is a run of
Levenberg-Marquardt with the damping last set. -/
theorem C67_plain (cs : List (SetCall K)) (hp : ∀ x ∈ cs, Spec.Proper x) (hno : ∀ x ∈ cs, Spec.isGnc x = false)
    (ops : Ops G T N) (signed : Bool) (cfg : Cfg G T N) (hcfg : cfg = (Params.default.calls cs).cfg ops signed)
    (d : Dim) (gnc : GncRun G N K → Option (Vals G × List Rat)) (plain : PlainRun G N → Option (Vals G))
    (average : AvgProblem G K → Option G) (env0 env : Env G N)
    (henv : env = env0.tuned d (Tuning.default.calls cs) cfg.lm gnc plain average)
    (hr : cfg.rejection = true) {op : Op G N} {s s' : St G T N} (ho : Spec.Optimizes cfg op = true) {x : Ret}
    (e : exec cfg env op s = .ok s' x) :
    ∃ run res, plain run = some res ∧ run.base = .lm (Spec.lastDamping cs) := by
  have hg : cfg.useGnc = false := by
    rw [hcfg]
    show (Params.default.calls cs).useGnc = false
    rw [useGnc_calls hp hno]
    rfl
  have hlm : cfg.lm = true := by
    rw [hcfg]
    exact (params_calls (t := Tuning.default) hp rfl).1
  obtain ⟨s1, o, h1, h2⟩ := exec_ok_phase hr e
  rcases h2 with ⟨_, h2⟩ | ⟨hf, _⟩
  · obtain ⟨full, res, s2, s3, _, hc, ha, hs'⟩ := optimize_ok h2
    rcases hc with ⟨hc, _⟩ | ⟨_, hc⟩
    · unfold useGncNow at hc
      rw [hg] at hc
      cases hc
    · unfold plainOptimize at hc
      simp only [M.bind_eq] at hc
      obtain ⟨sg, graph, hg1, hc⟩ := M.bind_eq_ok.1 hc
      cases ho' : env.opt graph full with
      | none => rw [ho'] at hc; cases hc
      | some r =>
        rw [henv] at ho'
        refine ⟨_, r, ho', ?_⟩
        show (Tuning.default.calls cs).base cfg.lm = _
        rw [hlm, ← damping_last]
        rfl
  · rw [← phase1_flag h1, hf] at ho; cases ho

/-- C67: frames are aligned exactly if the last alignment method set is not `NONE`, and the averaging then runs with this
method and the probability last set (`C66_average_partial` says what it is given). -/
theorem C67_align (cs : List (SetCall K)) (hp : ∀ x ∈ cs, Spec.Proper x) (ops : Ops G T N) (signed : Bool)
    (d : Dim) (gnc : GncRun G N K → Option (Vals G × List Rat)) (plain : PlainRun G N → Option (Vals G))
    (average : AvgProblem G K → Option G) (env0 env : Env G N) (lm : Bool)
    (henv : env = env0.tuned d (Tuning.default.calls cs) lm gnc plain average) :
    (((Params.default.calls cs).cfg ops signed).align = true ↔ Spec.lastAlign cs ≠ .none) ∧
    ∃ env1 : Env G N, env = env1.averaging d (Spec.lastAlign cs) (Spec.lastAlignProb cs) average := by
  refine ⟨?_, env, ?_⟩
  · have := (params_calls (p := Params.default) (t := (Tuning.default : Tuning K)) hp rfl).2
    show (Params.default.calls cs).align = true ↔ _
    rw [this, ← align_last]
    simp
  · rw [← align_last, ← alignProb_last, henv]
    rfl

omit [LinearOrder K] in
/-- C67 is false of the switches: after `gncFixInliers()` and `gncBiasOdom()` followed by a GNC setter with its default
switches, both are off, whatever was called before. -/
theorem C67_false_switches (pre : List (SetCall K)) (c : GncCall K) (hf : c.fix = false) (hb : c.bias = false) :
    ((Params.default : Params K).calls (pre ++ [.basic .gncFixInliers, .basic .gncBiasOdom])).fixPrev = true ∧
    ((Params.default : Params K).calls (pre ++ [.basic .gncFixInliers, .basic .gncBiasOdom])).biasOdom = true ∧
    ((Params.default : Params K).calls (pre ++ [.basic .gncFixInliers, .basic .gncBiasOdom, .gnc c])).fixPrev = false ∧
    ((Params.default : Params K).calls (pre ++ [.basic .gncFixInliers, .basic .gncBiasOdom, .gnc c])).biasOdom = false := by
  rw [Params.calls_append, Params.calls_append]
  exact ⟨rfl, rfl, hf, hb⟩

/-! ### A run -/

/-- Two GNC setters with different settings, damping off, bias on: the second one counts. -/
def tuneCalls : List (SetCall ℚ) :=
  [.gnc ⟨.cost 3, 7, 2, 1 / 10, 1 / 10, true, false⟩, .basic (.simple3D 1 1 .quiet), .damping false,
   .gnc ⟨.probability (1 / 2), 50, 14 / 10, 1 / 100, 1 / 1000, false, false⟩, .basic .gncBiasOdom]

def tuneCfg : Cfg Demo.Z Demo.Tp Demo.Ns := (Params.default.calls tuneCalls).cfgSimple Unit Demo.len (fun _ => 0) true

/-- An optimizer that fails unless it gets the settings of the second call. -/
def picky (r : GncRun Demo.Z Demo.Ns ℚ) : Option (Vals Demo.Z × List Rat) :=
  if r.maxIterations = 50 ∧ r.threshold = .probability (1 / 2) ∧ r.base = .lm false ∧ r.weights.isSome then
    some (r.values, List.replicate r.graph.length 1) else none

def tuneEnv : Env Demo.Z Demo.Ns :=
  Demo.env.tuned .three (Tuning.default.calls tuneCalls) true picky (fun r => some r.values) agreeing

set_option maxRecDepth 100000 in
example : ∃ s, ReachOk tuneCfg tuneEnv [.update [Demo.edge (Demo.a 0) (Demo.a 1) 1] [Demo.pose (Demo.a 0) 0, Demo.pose (Demo.a 1) 1] false,
      .update [Demo.edge (Demo.a 1) (Demo.a 0) (-1)] [] true] s ∧ (s.gncW.length = 2 ∧ tuneCfg.rejection = true) := by
  obtain ⟨s, r, h⟩ := Demo.runs_reach (cfg := tuneCfg) (env := tuneEnv)
    (ops := [.update [Demo.edge (Demo.a 0) (Demo.a 1) 1] [Demo.pose (Demo.a 0) 0, Demo.pose (Demo.a 1) 1] false,
      .update [Demo.edge (Demo.a 1) (Demo.a 0) (-1)] [] true])
    (P := fun s => decide (s.gncW.length = 2 ∧ tuneCfg.rejection = true)) (by decide +kernel)
  exact ⟨s, r, of_decide_eq_true h⟩

example : ∀ x ∈ tuneCalls, Spec.Proper x := by
  intro x hx
  simp only [tuneCalls, List.mem_cons, List.not_mem_nil, or_false] at hx
  rcases hx with rfl | rfl | rfl | rfl | rfl <;> trivial

end RPGO.Props
