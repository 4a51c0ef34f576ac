import Verif.Proofs.Rename
import Verif.Props.Values
import Verif.Proofs.GncOnly
import Mathlib.Logic.Equiv.Basic
/-
C80: the names of robots and landmarks do not matter. C91: their numbers do not matter either.
-/

namespace RPGO.Props
open RPGO RPGO.Spec
variable {G T N : Type} [Mul G] [Inv G] [One G] 

/-- C91: give the robots and landmarks other names and their poses other numbers, in all calls and in the parameters. If the original
calls returned, the new ones return; the two solvers show the same graph, values, weights and counts up to names and numbers, and every
further call ends in the same way. -/
theorem C91_numbers {π : Naming} {ow : Key → Chr} {cfg : Cfg G T N} (ha : cfg.align = false ∨ ∀ c, π c = c) (hc : CharsFit π cfg)
    {env env' : Env G N} (he : Renamed π env env') {h : List (Op G N)} {s : St G T N} (hr : ReachOk cfg env h s)
    (hreg : ∀ op ∈ h, Numbered π cfg ow op) :
    ∃ s', ReachOk (reCfg π cfg) env' (h.map (reOp π)) s' ∧ SameShown π s s' ∧
      ∀ op, Numbered π cfg ow op → SameEnd π cfg.align (exec cfg env op s) (exec (reCfg π cfg) env' (reOp π op) s') := by
  have ha' : cfg.align = true → ∀ c, π c = c := fun h => ha.resolve_left (by rw [h]; exact Bool.noConfusion)
  obtain ⟨h1, h2⟩ := reachOk_sv ha' hc he hr hreg
  refine ⟨reSt π s, h2, ⟨rfl, reMap_find _, rfl, reMap_find _, rfl, rfl, rfl, rfl, rfl, rfl⟩, fun op ho => ?_⟩
  have := exec_re ha' hc he ho s h1
  cases e : exec cfg env op s with
  | ok t r => rw [e] at this; exact ⟨_, this.2⟩
  | throw t x => rw [e] at this; exact this
  | ub u => rw [e] at this; exact this

/-- C91, for the whole history: whether the calls all return does not depend on names and numbers. -/
theorem C91_returns {π : Naming} {ow : Key → Chr} {cfg : Cfg G T N} (ha : cfg.align = false ∨ ∀ c, π c = c) (hc : CharsFit π cfg)
    {env env' : Env G N} (he : Renamed π env env') (h : List (Op G N)) (hreg : ∀ op ∈ h, Numbered π cfg ow op) :
    (∃ s, ReachOk cfg env h s) ↔ ∃ s', ReachOk (reCfg π cfg) env' (h.map (reOp π)) s' := by
  constructor
  · rintro ⟨s, hr⟩
    obtain ⟨s', h1, _⟩ := C91_numbers ha hc he hr hreg
    exact ⟨s', h1⟩
  · intro hex
    suffices H : ∀ (h : List (Op G N)), (∀ op ∈ h, Numbered π cfg ow op) → (∃ s', ReachOk (reCfg π cfg) env' (h.map (reOp π)) s') →
        ∃ s, ReachOk cfg env h s from H h hreg hex
    clear hex hreg h
    intro h
    induction h using List.reverseRecOn with
    | nil => intro _ _; exact ⟨_, .init⟩
    | append_singleton h op ih =>
      rintro hreg ⟨s', hr'⟩
      rw [List.map_append] at hr'
      obtain ⟨t', r', q1, q2⟩ := lastCall hr'
      obtain ⟨s, hs⟩ := ih (fun o ho => hreg o (List.mem_append_left _ ho)) ⟨t', q1⟩
      obtain ⟨t2, w1, _, w2⟩ := C91_numbers ha hc he hs fun o ho => hreg o (List.mem_append_left _ ho)
      have := w2 op (hreg op (List.mem_append_right _ List.mem_cons_self))
      rw [sameEnd w1 q1, q2] at this
      cases e : exec cfg env op s with
      | ok t r => exact ⟨t, .step hs e⟩
      | throw t x => rw [e] at this; obtain ⟨_, _, hh, _⟩ := this; cases hh
      | ub u => rw [e] at this; cases this
where
  lastCall {cfg : Cfg G T N} {env : Env G N} {h : List (Op G N)} {op : Op G N} {s : St G T N} (hr : ReachOk cfg env (h ++ [op]) s) :
      ∃ t r, ReachOk cfg env h t ∧ exec cfg env op t = .ok s r := by
    generalize hh : h ++ [op] = l at hr
    cases hr with
    | init => simp at hh
    | step hr e =>
      obtain ⟨rfl, hop⟩ := List.append_inj' hh rfl
      cases hop
      exact ⟨_, _, hr, e⟩
  sameEnd {cfg : Cfg G T N} {env : Env G N} {h : List (Op G N)} {s t : St G T N} (h1 : ReachOk cfg env h s) (h2 : ReachOk cfg env h t) :
      s = t := by
    induction h1 generalizing t with
    | init =>
      generalize hh : ([] : List (Op G N)) = l at h2
      cases h2 with
      | init => rfl
      | step _ _ => simp at hh
    | step hr e ih =>
      obtain ⟨u, r, q1, q2⟩ := lastCall h2
      rw [ih q1, q2] at e
      cases e; rfl

/-- Names only: keys that follow each other still do. -/
theorem ofNames_numbered {π : Chr ≃ Chr} {cfg : Cfg G T N} {op : Op G N} (h : Regular op) :
    Numbered (.ofNames π) cfg (fun _ => 0) op := by
  have key : ∀ {g : Graph G N}, NotLast g → Successive (.ofNames π) g ∧ ZeroOrOne (.ofNames π) cfg (fun _ => 0) g := by
    intro g hg
    exact ⟨fun b hb => ofNames_next (hg b hb), Or.inl fun _ => rfl⟩
  cases op with
  | update _ _ _ => exact ⟨key h.1, h.2⟩
  | forceUpdate _ _ => exact ⟨key h.1, h.2⟩
  | _ => exact h
where
  ofNames_next {a : Key} (h : (index a).toNat + 1 < 2 ^ 56) : reKey (.ofNames π) (a + 1) = reKey (.ofNames π) a + 1 := by
    have ha : a.toNat < 2 ^ 64 := a.isLt
    rw [index_toNat] at h
    have n1 : (a + 1).toNat = a.toNat + 1 := by
      rw [BitVec.toNat_add]
      simp
      omega
    have hc : chr (a + 1) = chr a := by
      apply BitVec.eq_of_toNat_eq
      rw [chr_toNat, chr_toNat, n1]
      omega
    apply BitVec.eq_of_toNat_eq
    show (symKey (π (chr (a + 1))) (index (a + 1))).toNat = (symKey (π (chr a)) (index a) + 1).toNat
    rw [BitVec.toNat_add, symKey_toNat, symKey_toNat, hc, index_toNat, index_toNat, n1]
    have : (π (chr a)).toNat < 2 ^ 8 := (π (chr a)).isLt
    simp
    omega

/-- C80: give every robot and landmark another name, in all calls and in the parameters. If the original calls returned, the renamed ones
return; the two solvers show the same graph, values, weights and counts up to names, and every further call ends in the same way. -/
theorem C80_renaming {π : Chr ≃ Chr} {cfg : Cfg G T N} (ha : cfg.align = false) (hc : CharsFit (.ofNames π) cfg) {env env' : Env G N}
    (he : Renamed (.ofNames π) env env') {h : List (Op G N)} {s : St G T N} (hr : ReachOk cfg env h s) (hreg : ∀ op ∈ h, Regular op) :
    ∃ s', ReachOk (reCfg (.ofNames π) cfg) env' (h.map (reOp (.ofNames π))) s' ∧ SameShown (.ofNames π) s s' ∧
      ∀ op, Regular op → SameEnd (.ofNames π) false (exec cfg env op s) (exec (reCfg (.ofNames π) cfg) env' (reOp (.ofNames π) op) s') := by
  obtain ⟨s', h1, h2, h3⟩ := C91_numbers (Or.inl ha) hc he hr fun op ho => ofNames_numbered (hreg op ho)
  exact ⟨s', h1, h2, fun op ho => ha ▸ h3 op (ofNames_numbered ho)⟩

/-- C80, for the whole history: whether the calls all return does not depend on the names. -/
theorem C80_returns {π : Chr ≃ Chr} {cfg : Cfg G T N} (ha : cfg.align = false) (hc : CharsFit (.ofNames π) cfg) {env env' : Env G N}
    (he : Renamed (.ofNames π) env env') (h : List (Op G N)) (hreg : ∀ op ∈ h, Regular op) :
    (∃ s, ReachOk cfg env h s) ↔ ∃ s', ReachOk (reCfg (.ofNames π) cfg) env' (h.map (reOp (.ofNames π))) s' :=
  C91_returns (Or.inl ha) hc he h fun op ho => ofNames_numbered (hreg op ho)

/-- C91, for robots that start counting at another number, with or without frame alignment. No number exceeds the 56 bits, and each
landmark is observed by one robot. -/
theorem C91_start {cfg : Cfg G T N} {ow : Key → Chr} (n : Chr → BitVec 56) {env env' : Env G N} (he : Renamed (.startAt n) env env')
    {h : List (Op G N)} {s : St G T N} (hr : ReachOk cfg env h s) (hreg : ∀ op ∈ h, Regular op)
    (hroom : ∀ op ∈ h, ∀ fs vs, batch op = some (fs, vs) → ∀ b : Btw G N, some (.btw b) ∈ fs →
      (index b.k1).toNat + (n (chr b.k1)).toNat + 1 < 2 ^ 56)
    (hone : ∀ op ∈ h, ∀ fs vs, batch op = some (fs, vs) → ∀ b : Btw G N, some (.btw b) ∈ fs →
      chr b.k2 ∈ cfg.special → chr b.k1 ∉ cfg.special → chr b.k1 = ow b.k2) :
    ∃ s', ReachOk (reCfg (.startAt n) cfg) env' (h.map (reOp (.startAt n))) s' ∧ SameShown (.startAt n) s s' := by
  have hnum : ∀ op ∈ h, Numbered (.startAt n) cfg ow op := by
    intro op ho
    have h1 := hreg op ho
    have h2 := hroom op ho
    have h3 := hone op ho
    cases op with
    | update fs vs o => exact ⟨⟨fun b hb => next (h2 fs vs rfl b hb), Or.inr fun b hb => h3 fs vs rfl b hb⟩, h1.2⟩
    | forceUpdate fs vs => exact ⟨⟨fun b hb => next (h2 fs vs rfl b hb), Or.inr fun b hb => h3 fs vs rfl b hb⟩, h1.2⟩
    | _ => exact h1
  obtain ⟨s', h1, h2, _⟩ := C91_numbers (Or.inr fun _ => rfl) (Or.inr fun _ => Iff.rfl) he hr hnum
  exact ⟨s', h1, h2⟩
where
  next {a : Key} (h : (index a).toNat + (n (chr a)).toNat + 1 < 2 ^ 56) : reKey (.startAt n) (a + 1) = reKey (.startAt n) a + 1 := by
    have ha : a.toNat < 2 ^ 64 := a.isLt
    rw [index_toNat] at h
    have n1 : (a + 1).toNat = a.toNat + 1 := by
      rw [BitVec.toNat_add]
      simp
      omega
    have hc : chr (a + 1) = chr a := by
      apply BitVec.eq_of_toNat_eq
      rw [chr_toNat, chr_toNat, n1]
      omega
    apply BitVec.eq_of_toNat_eq
    show (symKey (chr (a + 1)) (index (a + 1) + n (chr (a + 1)))).toNat = (symKey (chr a) (index a + n (chr a)) + 1).toNat
    rw [BitVec.toNat_add, symKey_toNat, symKey_toNat, hc, BitVec.toNat_add, BitVec.toNat_add, index_toNat, index_toNat, n1]
    have : (chr a).toNat < 2 ^ 8 := (chr a).isLt
    simp
    omega

/-! ### A concrete case -/

/-- `a` and `b` swap their names. -/
def swapAB : Naming := .ofNames <| Equiv.swap 97 98

theorem demo_renamed (π : Naming) : Renamed π Demo.env Demo.env where
  opt _ _ _ := rfl
  optMap := by rintro g v r hv h; cases h; exact hv
  gnc g v _ _ _ := by
    show some (reMap π v, List.replicate (reGraph π g).length 1) = _
    rw [reGraph_length]
    rfl
  gncMap := by rintro g v _ _ r w hv h; cases h; exact hv
  avg := rfl
  lc _ := rfl
  lm _ := rfl

theorem notLast_of {g : Graph Demo.Z Demo.Ns}
    (h : (g.all fun f => match f with | some (.btw b) => decide ((index b.k1).toNat + 1 < 2 ^ 56) | _ => true) = true) : NotLast g := by
  intro b hb
  have := List.all_eq_true.1 h _ hb
  exact of_decide_eq_true this

/-- Two robots with odometry and a closure between them. -/
def twoNames : List (Op Demo.Z Demo.Ns) :=
  [.update [Demo.edge (Demo.a 0) (Demo.a 1) 1] [Demo.pose (Demo.a 0) 0, Demo.pose (Demo.a 1) 1] true,
   .update [Demo.edge (Demo.b 0) (Demo.b 1) 1] [Demo.pose (Demo.b 0) 10, Demo.pose (Demo.b 1) 11] true,
   .update [Demo.edge (Demo.a 0) (Demo.b 0) 5, Demo.edge (Demo.a 1) (Demo.b 1) 5] [] true]

theorem twoNames_regular : ∀ op ∈ twoNames, Regular op := by
  intro op hop
  simp only [twoNames, List.mem_cons, List.not_mem_nil, or_false] at hop
  rcases hop with rfl | rfl | rfl
  all_goals exact ⟨notLast_of (by decide +kernel), by decide +kernel⟩

set_option maxRecDepth 100000 in
/-- The hypotheses are met: the solver with the names of `a` and `b` swapped. -/
example : ∃ s, ReachOk Demo.cfg Demo.env twoNames s ∧ s.pcm.totalGood = 2 ∧
    ∃ s', ReachOk (reCfg swapAB Demo.cfg) Demo.env (twoNames.map (reOp swapAB)) s' ∧ SameShown swapAB s s' := by
  obtain ⟨s, r, h⟩ := Demo.runs_reach (cfg := Demo.cfg) (env := Demo.env) (ops := twoNames)
    (P := fun s => decide (s.pcm.totalGood = 2)) (by decide +kernel)
  obtain ⟨s', h1, h2, _⟩ := C80_renaming (π := Equiv.swap 97 98) (by decide +kernel)
    (Or.inr (by decide +kernel)) (demo_renamed _) r twoNames_regular
  exact ⟨s, r, of_decide_eq_true h, s', h1, h2⟩

/-! ### The conditions are needed -/

set_option maxRecDepth 100000 in
/-- With frame alignment the names matter: the robot with the smallest prefix keeps its frame. After swapping the names the other robot's
poses move. -/
theorem C80_false_alignment :
    ∃ s s', ReachOk demoAlign Demo.env twoNames s ∧ ReachOk (reCfg swapAB demoAlign) Demo.env (twoNames.map (reOp swapAB)) s' ∧
      ¬ SameShown swapAB s s' := by
  obtain ⟨s, r, h⟩ := Demo.runs_reach (cfg := demoAlign) (env := Demo.env) (ops := twoNames)
    (P := fun s => decide (s.values.find? (Demo.a 0) = some (.pose (Demo.z 0)))) (by decide +kernel)
  obtain ⟨s', r', h'⟩ := Demo.runs_reach (cfg := reCfg swapAB demoAlign) (env := Demo.env) (ops := twoNames.map (reOp swapAB))
    (P := fun s => decide (s.values.find? (reKey swapAB (Demo.a 0)) = some (.pose (Demo.z 5)))) (by decide +kernel)
  refine ⟨s, s', r, r', fun hh => ?_⟩
  have := hh.values (Demo.a 0)
  rw [of_decide_eq_true h, of_decide_eq_true h'] at this
  exact absurd this (by decide +kernel)

/-- `a` and `c` swap their names. -/
def swapAC : Naming := .ofNames <| Equiv.swap 97 99

/-- A factor from the last pose number of `a` to the first of `b`. -/
def lastPose : List (Op Demo.Z Demo.Ns) :=
  [.update [] [Demo.pose (symKey 97 (BitVec.ofNat 56 (2 ^ 56 - 1))) 0] true,
   .update [Demo.edge (symKey 97 (BitVec.ofNat 56 (2 ^ 56 - 1))) (Demo.b 0) 1] [Demo.pose (Demo.b 0) 1] true]

set_option maxRecDepth 100000 in
/-- The key after the last pose number of `a` is the first of `b`. A factor between them that brings the value of the second counts as
odometry; after renaming `a` to `c` it is a loop closure. -/
theorem C80_false_last :
    ∃ s s', ReachOk Demo.cfg Demo.env lastPose s ∧ ReachOk (reCfg swapAC Demo.cfg) Demo.env (lastPose.map (reOp swapAC)) s' ∧
      s.pcm.totalLc = 0 ∧ s'.pcm.totalLc = 1 := by
  obtain ⟨s, r, h⟩ := Demo.runs_reach (cfg := Demo.cfg) (env := Demo.env) (ops := lastPose)
    (P := fun s => decide (s.pcm.totalLc = 0)) (by decide +kernel)
  obtain ⟨s', r', h'⟩ := Demo.runs_reach (cfg := reCfg swapAC Demo.cfg) (env := Demo.env) (ops := lastPose.map (reOp swapAC))
    (P := fun s => decide (s.pcm.totalLc = 1)) (by decide +kernel)
  exact ⟨s, s', r, r', of_decide_eq_true h, of_decide_eq_true h'⟩

/-- `a` and a prefix above 127 swap their names. -/
def swapHigh : Naming := .ofNames <| Equiv.swap 97 200

/-- A prior on `a0`, and its removal. -/
def priorGone : List (Op Demo.Z Demo.Ns) :=
  [.update [some (.prior (Demo.a 0) (Demo.z 0))] [Demo.pose (Demo.a 0) 0] true, .removePriors 97 true]

set_option maxRecDepth 100000 in
/-- With a signed `char`, the priors of a robot with a prefix above 127 cannot be removed. -/
theorem C80_false_signed :
    ∃ s s', ReachOk Demo.cfg Demo.env priorGone s ∧ ReachOk (reCfg swapHigh Demo.cfg) Demo.env (priorGone.map (reOp swapHigh)) s' ∧
      s.nfg.length = 0 ∧ s'.nfg.length = 1 := by
  obtain ⟨s, r, h⟩ := Demo.runs_reach (cfg := Demo.cfg) (env := Demo.env) (ops := priorGone)
    (P := fun s => decide (s.nfg.length = 0)) (by decide +kernel)
  obtain ⟨s', r', h'⟩ := Demo.runs_reach (cfg := reCfg swapHigh Demo.cfg) (env := Demo.env) (ops := priorGone.map (reOp swapHigh))
    (P := fun s => decide (s.nfg.length = 1)) (by decide +kernel)
  exact ⟨s, s', r, r', of_decide_eq_true h, of_decide_eq_true h'⟩

/-! ### Numbers: a concrete case, and the conditions -/

/-- Robot `a` starts counting at 5, `b` at 7. -/
def later : Chr → BitVec 56 := fun c => if c = 97 then 5 else if c = 98 then 7 else 0

set_option maxRecDepth 100000 in
/-- The hypotheses are met, with frame alignment: the same calls by robots that start counting later. -/
example : ∃ s, ReachOk demoAlign Demo.env twoNames s ∧ s.pcm.totalGood = 2 ∧
    ∃ s', ReachOk (reCfg (.startAt later) demoAlign) Demo.env (twoNames.map (reOp (.startAt later))) s' ∧ SameShown (.startAt later) s s' ∧
      s'.values.keys = [Demo.a 5, Demo.a 6, Demo.b 7, Demo.b 8] := by
  obtain ⟨s, r, h⟩ := Demo.runs_reach (cfg := demoAlign) (env := Demo.env) (ops := twoNames)
    (P := fun s => decide (s.pcm.totalGood = 2)) (by decide +kernel)
  have room : ∀ op ∈ twoNames, ∀ fs vs, batch op = some (fs, vs) → ∀ b : Btw Demo.Z Demo.Ns, some (.btw b) ∈ fs →
      (index b.k1).toNat + (later (chr b.k1)).toNat + 1 < 2 ^ 56 := by
    have hb : (twoNames.all fun op => match batch op with
        | some (fs, _) => fs.all fun f => match f with
          | some (.btw b) => decide ((index b.k1).toNat + (later (chr b.k1)).toNat + 1 < 2 ^ 56)
          | _ => true
        | none => true) = true := by decide +kernel
    intro op ho fs vs hbat b hm
    have := List.all_eq_true.1 hb op ho
    rw [hbat] at this
    exact of_decide_eq_true (List.all_eq_true.1 this _ hm)
  obtain ⟨s', h1, h2⟩ := C91_start (ow := fun _ => 0) later (demo_renamed _) r twoNames_regular room
    (fun _ _ _ _ _ b _ hs _ => by change _ ∈ ([] : List Chr) at hs; cases hs)
  obtain ⟨s2, r2, hk⟩ := Demo.runs_reach (cfg := reCfg (.startAt later) demoAlign) (env := Demo.env) (ops := twoNames.map (reOp (.startAt later)))
    (P := fun s => decide (s.values.keys = [Demo.a 5, Demo.a 6, Demo.b 7, Demo.b 8])) (by decide +kernel)
  exact ⟨s, r, of_decide_eq_true h, s', h1, h2, by rw [← ReachOk.det h1 r2]; exact of_decide_eq_true hk⟩

/-- Numbers 1 and 2 of every robot are swapped. -/
def swapNumbers : Naming := .ofNumbers fun _ => Equiv.swap 1 2

set_option maxRecDepth 100000 in
/-- Keys that follow each other must still do so: otherwise odometry becomes a loop closure, here one that is not accepted. -/
theorem C91_false_apart :
    ∃ s s', ReachOk Demo.cfg Demo.env (twoNames.take 1) s ∧
      ReachOk (reCfg swapNumbers Demo.cfg) Demo.env ((twoNames.take 1).map (reOp swapNumbers)) s' ∧
      s.nfg.length = 1 ∧ s'.nfg.length = 0 := by
  obtain ⟨s, r, h⟩ := Demo.runs_reach (cfg := Demo.cfg) (env := Demo.env) (ops := twoNames.take 1)
    (P := fun s => decide (s.nfg.length = 1)) (by decide +kernel)
  obtain ⟨s', r', h'⟩ := Demo.runs_reach (cfg := reCfg swapNumbers Demo.cfg) (env := Demo.env) (ops := (twoNames.take 1).map (reOp swapNumbers))
    (P := fun s => decide (s.nfg.length = 0)) (by decide +kernel)
  exact ⟨s, s', r, r', of_decide_eq_true h, of_decide_eq_true h'⟩

/-- Two robots observe the landmark `l0`. -/
def bothSee : List (Op Demo.Z Demo.Ns) :=
  [.update [Demo.edge (Demo.a 0) (Demo.a 1) 1, Demo.edge (Demo.b 0) (Demo.b 1) 1, Demo.edge (Demo.a 1) (Demo.l 0) 1]
     [Demo.pose (Demo.a 0) 0, Demo.pose (Demo.a 1) 1, Demo.pose (Demo.b 0) 0, Demo.pose (Demo.b 1) 1, Demo.pose (Demo.l 0) 2] true,
   .update [Demo.edge (Demo.b 1) (Demo.l 0) 1] [] true]

/-- A history all of whose calls return can be run. -/
theorem reach_runs {cfg : Cfg G T N} {env : Env G N} {h : List (Op G N)} {s : St G T N} (r : ReachOk cfg env h s) :
    Demo.runFrom cfg env h St.init = some s := by
  have app : ∀ (h1 h2 : List (Op G N)) (s : St G T N),
      Demo.runFrom cfg env (h1 ++ h2) s = (Demo.runFrom cfg env h1 s).bind (Demo.runFrom cfg env h2) := by
    intro h1
    induction h1 with
    | nil => intro h2 s; rfl
    | cons op h1 ih =>
      intro h2 s
      rw [List.cons_append, Demo.runFrom, Demo.runFrom]
      cases exec cfg env op s with
      | ok s' _ => exact ih _ _
      | throw _ _ => rfl
      | ub _ => rfl
  induction r with
  | init => rfl
  | step r e ih =>
    rw [app, ih, Option.bind_some]
    unfold Demo.runFrom
    rw [e]
    rfl

set_option maxRecDepth 100000 in
/-- If two robots observe a landmark, number 0 must stay number 0: comparing the two observations looks up number 0 of both robots and thereby
creates it, and frame alignment then fails because it has no value. -/
theorem C91_false_zero :
    (∃ s, ReachOk { demoLandmarks with align := true } Demo.env bothSee s) ∧
    ¬ ∃ s', ReachOk (reCfg (.startAt later) { demoLandmarks with align := true }) Demo.env (bothSee.map (reOp (.startAt later))) s' := by
  refine ⟨?_, ?_⟩
  · obtain ⟨s, r, _⟩ := Demo.runs_reach (cfg := { demoLandmarks with align := true }) (env := Demo.env) (ops := bothSee)
      (P := fun _ => true) (by decide +kernel)
    exact ⟨s, r⟩
  · rintro ⟨s', r⟩
    have : Demo.runs (reCfg (.startAt later) { demoLandmarks with align := true }) Demo.env (bothSee.map (reOp (.startAt later)))
        (fun _ => true) = false := by decide +kernel
    unfold Demo.runs at this
    rw [reach_runs r] at this
    cases this

/-- Two robots; `a` gets an odometry factor to a pose whose value is not a pose, and one from a pose without value. -/
def twoFaults : Op Demo.Z Demo.Ns :=
  .update [Demo.edge (Demo.a 0) (Demo.a 1) 1, Demo.edge (Demo.a 5) (Demo.a 6) 1, Demo.edge (Demo.b 0) (Demo.b 1) 1]
    [Demo.pose (Demo.a 0) 0, (Demo.a 1, .other 0), Demo.pose (Demo.a 6) 1, Demo.pose (Demo.b 0) 0, Demo.pose (Demo.b 1) 1] true

/-- Numbers 0 and 1 change places with 5 and 6. -/
def swapFive : Naming := .ofNumbers fun _ => (Equiv.swap 0 5).trans (Equiv.swap 1 6)

set_option maxRecDepth 100000 in
/-- With frame alignment, which exception is raised may depend on the numbers. -/
theorem C91_false_exception :
    (∃ t, exec demoAlign Demo.env twoFaults St.init = .throw t .wrongType) ∧
    ∃ t, exec (reCfg swapFive demoAlign) Demo.env (reOp swapFive twoFaults) St.init = .throw t .keyMissing := by
  have conv : ∀ {o : Out (St Demo.Z Demo.Tp Demo.Ns) Ret} {e : Exn}, (match o with | .throw _ x => decide (x = e) | _ => false) = true →
      ∃ t, o = .throw t e := by
    intro o e h
    cases o with
    | ok _ _ => cases h
    | ub _ => cases h
    | throw t x => exact ⟨t, by rw [of_decide_eq_true h]⟩
  exact ⟨conv (by decide +kernel), conv (by decide +kernel)⟩

end RPGO.Props
