import Verif.Model.Main
import Mathlib.Algebra.Order.Field.Rat
import Mathlib.Tactic.Ring
import Mathlib.Tactic.NormNum
import Mathlib.Tactic.Linarith
/-
C93: the arguments of the example programs.
-/

namespace RPGO.Spec
open RPGO.Tools
variable {K : Type}

/-- Argument `i` is there and the conversion `f` makes `c` of it. -/
def Arg {α : Type} (args : List String) (i : Nat) (f : String → Num α) (c : Num α) : Prop := ∃ x, args[i]? = some x ∧ f x = c

/-- The usage of RpgoReadG2o: `<2d or 3d> <g2o file> <pcm thresh translation> <pcm thresh rotation> <gnc barcsq>
<output_folder> [opt: v for messages]`, after the name of the program. -/
structure BatchArgs (rd : Reader K) (args : List String) (twoD : Bool) (file folder : String) (t r c : K)
    (verbose : Bool) : Prop where
  dim : args[1]? = some (if twoD then "2d" else "3d")
  g2o : args[2]? = some file
  trans : Arg args 3 rd.stof (.val t)
  rot : Arg args 4 rd.stof (.val r)
  cost : Arg args 5 rd.stof (.val c)
  out : args[6]? = some folder
  msg : verbose = true ↔ args[7]? = some "v"

/-- The usage of RpgoReadG2oIncremental: `<2d or 3d> <g2o file> <1 or 0 (incremental)> <0 to 1 (gnc)> <0 or 1 (frame
alignment)> <trans thresh (-1 to disable)> <rot thresh (-1 to disable)> <opt: output_folder> <opt: v for messages>`. -/
structure IncArgs [Field K] [LinearOrder K] (rd : Reader K) (args : List String) (twoD : Bool) (file : String) (inc : Bool)
    (gnc : K) (frame : Bool) (t r : K) (folder : String) (verbose : Bool) : Prop where
  dim : args[1]? = some (if twoD then "2d" else "3d")
  g2o : args[2]? = some file
  incr : Arg args 3 rd.stoi (.val (if inc then 1 else 0))
  prob : Arg args 4 rd.stod (.val gnc)
  unit : 0 ≤ gnc ∧ gnc ≤ 1
  align : Arg args 5 rd.stoi (.val (if frame then 1 else 0))
  trans : Arg args 6 rd.stof (.val t)
  rot : Arg args 7 rd.stof (.val r)
  enabled : inc = true → t ≠ -1 ∧ r ≠ -1
  out : folder = (args[8]?).getD "."
  msg : verbose = true ↔ args[9]? = some "v"

/-- Some numeric argument of RpgoReadG2o is out of range. -/
def BatchRange (rd : Reader K) (args : List String) : Prop :=
  Arg args 3 rd.stof .range ∨ Arg args 4 rd.stof .range ∨ Arg args 5 rd.stof .range

/-- Some numeric argument of RpgoReadG2oIncremental is out of range. -/
def IncRange (rd : Reader K) (args : List String) : Prop :=
  Arg args 3 rd.stoi .range ∨ Arg args 4 rd.stod .range ∨ Arg args 5 rd.stoi .range ∨ Arg args 6 rd.stof .range ∨
    Arg args 7 rd.stof .range

/-- The parameters the arguments ask for, on top of the defaults: one pair of thresholds for both checks. -/
def asked [Field K] (twoD inc gnc frame verbose : Bool) (t r : K) : Params K :=
  { Params.default with
    method := if twoD then .simple2D else .simple3D
    odomT := t, odomR := r, distT := t, distR := r
    incremental := inc
    useGnc := gnc
    align := frame
    verbosity := if verbose then .verbose else .quiet
    log := true }

end RPGO.Spec

namespace RPGO
open Tools
variable {K : Type}

theorem getD_some {args : List String} {i : Nat} {x : String} (h : args[i]? = some x) (d : String) : args.getD i d = x := by
  rw [List.getD_eq_getElem?_getD, h]; rfl

theorem lt_some {args : List String} {i : Nat} {x : String} (h : args[i]? = some x) : i < args.length :=
  (List.getElem?_eq_some_iff.1 h).1

theorem some_getD {args : List String} {i : Nat} (h : i < args.length) : args[i]? = some (args.getD i "") := by
  rw [List.getD_eq_getElem?_getD, List.getElem?_eq_getElem h]; rfl

theorem arg_iff {α : Type} {args : List String} {i : Nat} {f : String → Num α} {c : Num α} (hl : i < args.length) :
    Spec.Arg args i f c ↔ f (args.getD i "") = c := by
  unfold Spec.Arg
  rw [some_getD hl]
  constructor
  · rintro ⟨x, h, q⟩; cases h; exact q
  · exact fun h => ⟨_, rfl, h⟩

theorem verboseFlag_iff {args : List String} {i : Nat} : verboseFlag args i = true ↔ args[i]? = some "v" := by
  unfold verboseFlag
  by_cases h : i < args.length
  · rw [some_getD h]
    simp [h]
  · rw [List.getElem?_eq_none (by omega)]
    simp [h]

theorem folder_eq {args : List String} : (if args.length > 8 then args.getD 8 "" else ".") = (args[8]?).getD "." := by
  by_cases h : 8 < args.length
  · rw [if_pos h, some_getD h]; rfl
  · rw [if_neg h, List.getElem?_eq_none (by omega)]; rfl

theorem dim_eq {args : List String} {twoD : Bool} (h : args[1]? = some (if twoD then "2d" else "3d")) :
    args.getD 1 "" = if twoD then "2d" else "3d" := getD_some h ""

end RPGO

namespace RPGO.Props
open Tools
variable {K : Type} [Field K]

/-- C93 (accepted): with arguments as the usage says, RpgoReadG2o reads that file, writes to that folder and sets exactly
the parameters asked for: the thresholds for both checks, GNC with the inlier cost `c`, and damping only in 3d. -/
theorem C93_batch_runs {rd : Reader K} {args : List String} {twoD : Bool} {file folder : String} {t r c : K} {verbose : Bool}
    (h : Spec.BatchArgs rd args twoD file folder t r c verbose) :
    ∃ calls, batchMain rd args = .runs twoD file folder calls ∧
      Params.default.calls calls = Spec.asked twoD false true false verbose t r ∧
      Params.default.calls calls = batchParams twoD verbose t r ∧
      Tuning.default.calls calls = { Tuning.default with threshold := .cost c, damping := !twoD } := by
  have hl := lt_some h.out
  have e3 := (arg_iff (by omega)).1 h.trans
  have e4 := (arg_iff (by omega)).1 h.rot
  have e5 := (arg_iff (by omega)).1 h.cost
  have ev : verboseFlag args 7 = verbose := by
    have := verboseFlag_iff (args := args) (i := 7)
    rw [← h.msg] at this
    cases verbose <;> cases h7 : verboseFlag args 7 <;> simp_all
  unfold batchMain
  rw [if_neg (by omega), e3, e4, e5, ev, dim_eq h.dim, getD_some h.g2o, getD_some h.out]
  cases twoD <;> refine ⟨_, rfl, ?_, ?_, ?_⟩ <;> cases verbose <;> rfl

/-- C93 (out of range): with enough arguments, a number out of range ends RpgoReadG2o by an uncaught exception. -/
theorem C93_batch_dies {rd : Reader K} {args : List String} (hl : 7 ≤ args.length) (h : Spec.BatchRange rd args) :
    batchMain rd args = .died := by
  unfold Spec.BatchRange at h
  rw [arg_iff (by omega), arg_iff (by omega), arg_iff (by omega)] at h
  unfold batchMain
  rw [if_neg (by omega)]
  cases e3 : rd.stof (args.getD 3 "") <;> cases e4 : rd.stof (args.getD 4 "") <;> cases e5 : rd.stof (args.getD 5 "") <;>
    simp_all [readNum]

/-- C93 (refused): in every other case RpgoReadG2o prints the input warning and makes no call on a solver. -/
theorem C93_batch_warns {rd : Reader K} {args : List String}
    (h : ∀ twoD file folder t r c verbose, ¬ Spec.BatchArgs rd args twoD file folder t r c verbose)
    (hr : args.length < 7 ∨ ¬ Spec.BatchRange rd args) : batchMain rd args = .warned := by
  unfold batchMain
  by_cases hl : args.length < 7
  · rw [if_pos hl]
  rw [if_neg hl]
  have hr := hr.resolve_left hl
  unfold Spec.BatchRange at hr
  rw [arg_iff (by omega), arg_iff (by omega), arg_iff (by omega)] at hr
  push Not at hr
  have key : ∀ (twoD : Bool) (t r c : K), rd.stof (args.getD 3 "") = .val t → rd.stof (args.getD 4 "") = .val r →
      rd.stof (args.getD 5 "") = .val c → args.getD 1 "" ≠ if twoD then "2d" else "3d" := fun twoD t r c a b d e =>
    h twoD (args.getD 2 "") (args.getD 6 "") t r c (verboseFlag args 7)
      ⟨by rw [some_getD (by omega), e], some_getD (by omega), (arg_iff (by omega)).2 a, (arg_iff (by omega)).2 b,
        (arg_iff (by omega)).2 d, some_getD (by omega), verboseFlag_iff⟩
  cases e3 : rd.stof (args.getD 3 "") with
  | range => exact absurd e3 hr.1
  | invalid =>
    cases e4 : rd.stof (args.getD 4 "") <;> cases e5 : rd.stof (args.getD 5 "") <;> simp_all [readNum]
  | val t =>
    cases e4 : rd.stof (args.getD 4 "") with
    | range => exact absurd e4 hr.2.1
    | invalid => cases e5 : rd.stof (args.getD 5 "") <;> simp_all [readNum]
    | val r =>
      cases e5 : rd.stof (args.getD 5 "") with
      | range => exact absurd e5 hr.2.2
      | invalid => simp [readNum]
      | val c =>
        have h2 := key true t r c e3 e4 e5
        have h3 := key false t r c e3 e4 e5
        simp only [readNum, Bool.not_false, Bool.and_true, Bool.not_true, if_true, if_false, Bool.false_eq_true,
          beq_iff_eq] at h2 h3 ⊢
        rw [if_neg h2, if_neg h3]

variable [LinearOrder K]

/-- C93 (accepted): with arguments as the usage says, RpgoReadG2oIncremental reads that file, writes to that folder (the
current one if none is given) and sets exactly the parameters asked for; GNC is used iff its argument lies strictly between
0 and 1, and that argument is then its inlier probability. -/
theorem C93_incremental_runs {rd : Reader K} {args : List String} {twoD : Bool} {file folder : String} {inc frame : Bool}
    {gnc t r : K} {verbose : Bool} (h : Spec.IncArgs rd args twoD file inc gnc frame t r folder verbose) :
    ∃ calls, incrementalMain rd args = .runs twoD file folder calls ∧
      Params.default.calls calls = Spec.asked twoD inc (decide (0 < gnc ∧ gnc < 1)) frame verbose t r ∧
      incrementalParams twoD verbose (if inc then 1 else 0) gnc (if frame then 1 else 0) t r = some (Params.default.calls calls) ∧
      Tuning.default.calls calls = { Tuning.default with
        threshold := if 0 < gnc ∧ gnc < 1 then .probability gnc else Tuning.default.threshold
        alignMethod := if frame then .gnc else .none } := by
  obtain ⟨x, hx, -⟩ := h.rot
  have hl := lt_some hx
  have e3 := (arg_iff (by omega)).1 h.incr
  have e4 := (arg_iff (by omega)).1 h.prob
  have e5 := (arg_iff (by omega)).1 h.align
  have e6 := (arg_iff (by omega)).1 h.trans
  have e7 := (arg_iff (by omega)).1 h.rot
  have ev : verboseFlag args 9 = verbose := by
    have := verboseFlag_iff (args := args) (i := 9)
    rw [← h.msg] at this
    cases verbose <;> cases h7 : verboseFlag args 9 <;> simp_all
  have hen := h.enabled
  have hu : ¬ (gnc < 0 ∨ gnc > 1) := by rintro (a | a); exacts [absurd h.unit.1 (not_le.2 a), absurd h.unit.2 (not_le.2 a)]
  have hp : ∀ i : Bool, ¬ ((if i then (1 : Int) else 0) ≠ 0 ∧ (if i then (1 : Int) else 0) ≠ 1) := by decide
  have ht : ¬ (t = -1 ∧ (if inc then (1 : Int) else 0) = 1) := by
    cases inc <;> simp_all
  have hr : ¬ (r = -1 ∧ (if inc then (1 : Int) else 0) = 1) := by
    cases inc <;> simp_all
  have rn : ∀ {α : Type} (a d : α) (bad : α → Bool), bad a = false → readNum (.val a) d bad true = some (a, true) := by
    intro α a d bad h
    unfold readNum
    dsimp only
    rw [h]
    rfl
  have n : ¬ (((if inc then (1 : Int) else 0) ≠ 0 ∧ (if inc then (1 : Int) else 0) ≠ 1) ∨ (gnc < 0 ∨ gnc > 1) ∨
      ((if frame then (1 : Int) else 0) ≠ 0 ∧ (if frame then (1 : Int) else 0) ≠ 1) ∨
      (t = -1 ∧ (if inc then (1 : Int) else 0) = 1) ∨ (r = -1 ∧ (if inc then (1 : Int) else 0) = 1)) := by
    rintro (a | a | a | a | a)
    exacts [hp _ a, hu a, hp _ a, ht a, hr a]
  unfold incrementalMain incrementalParams
  rw [if_neg n, if_neg (show ¬ args.length < 8 by omega), e3, e4, e5, e6, e7, ev, dim_eq h.dim, getD_some h.g2o, folder_eq,
    ← h.out, rn (if inc then (1 : Int) else 0) _ _ (decide_eq_false (hp inc))]
  dsimp only
  rw [rn gnc _ _ (decide_eq_false hu)]
  dsimp only
  rw [rn (if frame then (1 : Int) else 0) _ _ (decide_eq_false (hp frame))]
  dsimp only
  rw [rn t _ _ (decide_eq_false ht)]
  dsimp only
  rw [rn r _ _ (decide_eq_false hr)]
  dsimp only
  by_cases hg : 0 < gnc ∧ gnc < 1
  · rw [if_pos hg, if_pos hg, if_pos hg, decide_eq_true hg]
    cases twoD <;> refine ⟨_, rfl, ?_, ?_, ?_⟩ <;> cases verbose <;> cases inc <;> cases frame <;> rfl
  · rw [if_neg hg, if_neg hg, if_neg hg, decide_eq_false hg]
    cases twoD <;> refine ⟨_, rfl, ?_, ?_, ?_⟩ <;> cases verbose <;> cases inc <;> cases frame <;> rfl

/-- C93 (out of range): with enough arguments, a number out of range ends RpgoReadG2oIncremental by an uncaught
exception. -/
theorem C93_incremental_dies {rd : Reader K} {args : List String} (hl : 8 ≤ args.length) (h : Spec.IncRange rd args) :
    incrementalMain rd args = .died := by
  unfold Spec.IncRange at h
  rw [arg_iff (by omega), arg_iff (by omega), arg_iff (by omega), arg_iff (by omega), arg_iff (by omega)] at h
  unfold incrementalMain
  rw [if_neg (by omega)]
  rcases h with e | e | e | e | e
  · rw [e]; rfl
  · rw [e]; split <;> rfl
  · rw [e]; split
    · rfl
    · split <;> rfl
  · rw [e]; split
    · rfl
    · split
      · rfl
      · split <;> rfl
  · rw [e]; split
    · rfl
    · split
      · rfl
      · split
        · rfl
        · split <;> rfl

/-- C93 (refused): in every other case RpgoReadG2oIncremental prints the input warning and makes no call on a solver. -/
theorem C93_incremental_warns {rd : Reader K} {args : List String}
    (h : ∀ twoD file inc gnc frame t r folder verbose, ¬ Spec.IncArgs rd args twoD file inc gnc frame t r folder verbose)
    (hr : args.length < 8 ∨ ¬ Spec.IncRange rd args) : incrementalMain rd args = .warned := by
  by_cases hl : args.length < 8
  · unfold incrementalMain
    rw [if_pos hl]
  have hr := hr.resolve_left hl
  unfold Spec.IncRange at hr
  rw [arg_iff (by omega), arg_iff (by omega), arg_iff (by omega), arg_iff (by omega), arg_iff (by omega)] at hr
  push Not at hr
  obtain ⟨h3, h4, h5, h6, h7⟩ := hr
  have rn : ∀ {α : Type} (c : Num α) (d : α) (bad : α → Bool) (v : Bool), c ≠ .range →
      ∃ a w, readNum c d bad v = some (a, w) ∧ (w = true → v = true ∧ c = .val a ∧ bad a = false) := by
    intro α c d bad v hc
    cases c with
    | range => exact absurd rfl hc
    | invalid => exact ⟨d, false, rfl, fun h => by cases h⟩
    | val a =>
      refine ⟨a, _, rfl, fun h => ?_⟩
      rw [Bool.and_eq_true, Bool.not_eq_true'] at h
      exact ⟨h.1, rfl, h.2⟩
  unfold incrementalMain
  rw [if_neg hl]
  obtain ⟨inc, v1, q1, w1⟩ := rn _ 0 (fun i => decide (i ≠ 0 ∧ i ≠ 1)) true h3
  obtain ⟨gnc, v2, q2, w2⟩ := rn _ 0 (fun g => decide (g < 0 ∨ g > 1)) v1 h4
  obtain ⟨frame, v3, q3, w3⟩ := rn _ 0 (fun i => decide (i ≠ 0 ∧ i ≠ 1)) v2 h5
  obtain ⟨t, v4, q4, w4⟩ := rn _ 0 (fun t => decide (t = -1 ∧ inc = 1)) v3 h6
  obtain ⟨r, v5, q5, w5⟩ := rn _ 0 (fun t => decide (t = -1 ∧ inc = 1)) v4 h7
  rw [q1]
  dsimp only
  rw [q2]
  dsimp only
  rw [q3]
  dsimp only
  rw [q4]
  dsimp only
  rw [q5]
  dsimp only
  cases v5 with
  | false => rfl
  | true =>
    obtain ⟨rfl, a5, b5⟩ := w5 rfl
    obtain ⟨rfl, a4, b4⟩ := w4 rfl
    obtain ⟨rfl, a3, b3⟩ := w3 rfl
    obtain ⟨rfl, a2, b2⟩ := w2 rfl
    obtain ⟨-, a1, b1⟩ := w1 rfl
    have bit : ∀ i : Int, decide (i ≠ 0 ∧ i ≠ 1) = false → i = if decide (i = 1) then 1 else 0 := by
      intro i hi
      have := of_decide_eq_false hi
      by_cases h1 : i = 1
      · simp [h1]
      · by_cases h0 : i = 0
        · simp [h0]
        · exact absurd ⟨h0, h1⟩ this
    have key : ∀ twoD : Bool, args.getD 1 "" ≠ if twoD then "2d" else "3d" := fun twoD e =>
      h twoD (args.getD 2 "") (decide (inc = 1)) gnc (decide (frame = 1)) t r _ (verboseFlag args 9)
        { dim := by rw [some_getD (by omega), e]
          g2o := some_getD (by omega)
          incr := (arg_iff (by omega)).2 (by rw [← bit inc b1, a1])
          prob := (arg_iff (by omega)).2 a2
          unit := by
            have := of_decide_eq_false b2
            push Not at this
            exact this
          align := (arg_iff (by omega)).2 (by rw [← bit frame b3, a3])
          trans := (arg_iff (by omega)).2 a4
          rot := (arg_iff (by omega)).2 a5
          enabled := fun hi => by
            have hi := of_decide_eq_true hi
            have c4 := of_decide_eq_false b4
            have c5 := of_decide_eq_false b5
            exact ⟨fun q => c4 ⟨q, hi⟩, fun q => c5 ⟨q, hi⟩⟩
          out := rfl
          msg := verboseFlag_iff }
    have k2 := key true
    have k3 := key false
    simp only [if_true, if_false, Bool.false_eq_true, beq_iff_eq, Bool.not_true] at k2 k3 ⊢
    rw [if_neg k2, if_neg k3]

/-- C93 (disagreement): the check of incremental selection against switched off thresholds tests for -1 alone. With -2 the
program runs incremental selection with both consistency checks off. -/
theorem C93_false_disabled [IsStrictOrderedRing K] {rd : Reader K} {args : List String} {twoD : Bool} {file folder : String}
    {gnc t r : K} {frame verbose : Bool} (h : Spec.IncArgs rd args twoD file true gnc frame t r folder verbose)
    (ht : t < 0 ∨ r < 0) :
    ∃ calls, incrementalMain rd args = .runs twoD file folder calls ∧ (Params.default.calls calls).incremental = true ∧
      (Params.default.calls calls).odomCheck = false ∧ (Params.default.calls calls).loopCheck = false := by
  obtain ⟨calls, h1, h2, -⟩ := C93_incremental_runs h
  refine ⟨calls, h1, ?_, ?_, ?_⟩ <;> rw [h2]
  · rfl
  · unfold Params.odomCheck Spec.asked
    rcases ht with ht | ht <;> simp [ht]
  · unfold Params.loopCheck Spec.asked
    rcases ht with ht | ht <;> simp [ht]

omit [Field K] [LinearOrder K] K in
/-- C93 (GenerateTrajectories): its arguments are not checked; with less than two the run is undefined, with two or more
they are the file and the folder. -/
theorem C93_trajectories (args : List String) :
    (args.length < 3 → ∃ u, trajectoriesMain args = .ub u) ∧
      ∀ file folder, args[1]? = some file → args[2]? = some folder → trajectoriesMain args = .ok () (file, folder) := by
  unfold trajectoriesMain
  refine ⟨fun h => ⟨_, if_pos h⟩, fun file folder h1 h2 => ?_⟩
  rw [if_neg (by have := lt_some h2; omega), getD_some h1, getD_some h2]

/-- Conversions for the examples: `5`, `-2`, `0`, `1` and `0.9` are numbers, `1e99` is out of the range of a float. -/
def demoReader : Reader ℚ where
  stoi s := if s = "0" then .val 0 else if s = "1" then .val 1 else if s = "5" then .val 5 else .invalid
  stof s := if s = "5" then .val 5 else if s = "-2" then .val (-2) else if s = "-1" then .val (-1) else if s = "1e99" then .range else .invalid
  stod s := if s = "0" then .val 0 else if s = "0.9" then .val (9 / 10) else .invalid

example : Spec.BatchArgs demoReader ["p", "2d", "f", "5", "-2", "5", "out", "v"] true "f" "out" 5 (-2) 5 true :=
  ⟨rfl, rfl, ⟨_, rfl, rfl⟩, ⟨_, rfl, rfl⟩, ⟨_, rfl, rfl⟩, rfl, by simp⟩

example : Spec.BatchRange demoReader ["p", "2d", "f", "x", "1e99", "5", "out"] := .inr (.inl ⟨_, rfl, rfl⟩)

example : batchMain demoReader ["p", "2d", "f", "5", "x", "5", "out"] = .warned := by rfl

example : Spec.IncArgs demoReader ["p", "3d", "f", "1", "0.9", "0", "-2", "5"] false "f" true (9 / 10) false (-2) 5 "." false :=
  ⟨rfl, rfl, ⟨_, rfl, rfl⟩, ⟨_, rfl, rfl⟩, by norm_num, ⟨_, rfl, rfl⟩, ⟨_, rfl, rfl⟩, ⟨_, rfl, rfl⟩, by norm_num, rfl, by simp⟩

example : Spec.IncRange demoReader ["p", "3d", "f", "1", "0.9", "0", "-2", "1e99"] := .inr (.inr (.inr (.inr ⟨_, rfl, rfl⟩)))

end RPGO.Props
