import Verif.Model.Print
import Verif.Proofs.Frame
import Verif.Proofs.Graph
/-
The messages do not influence the run, and what they are.
-/

namespace RPGO.Spec

/-- The outcome without the messages. -/
def hush {σ α : Type} : Out (Talk σ) α → Out σ α
  | .ok p a => .ok p.1 a
  | .throw p e => .throw p.1 e
  | .ub u => .ub u

/-- Warnings, and what the solver itself prints: the messages that do not depend on the mode of the rejection object. -/
def loud : Msg → Bool
  | .self | .missingKeys | .backwards | .apart | .noClosures .. | .notImplemented | .running .. | .optimized .. | .gncOptimized .. => true
  | _ => false

/-- The outcome with the loud messages only. -/
def thin {σ α : Type} : Out (Talk σ) α → Out (Talk σ) α
  | .ok p a => .ok (p.1, p.2.filter loud) a
  | .throw p e => .throw (p.1, p.2.filter loud) e
  | .ub u => .ub u

end RPGO.Spec

namespace RPGO
open Spec (hush thin loud)
variable {G T N : Type} {σ τ α β : Type}

/-! ### The run without the messages -/

theorem hush_mute (m : M σ α) (q : Talk σ) : hush (mute m q) = m q.1 := by
  unfold mute M.zoom
  cases m q.1 <;> rfl

theorem hush_tell (c : Bool) (f : σ → Msg) (q : Talk σ) : hush (tell c f q) = (M.pure () : M σ Unit) q.1 := by
  unfold tell M.when
  cases c <;> rfl

theorem hush_say (c : Bool) (m : Msg) (q : Talk σ) : hush (say c m q) = (M.pure () : M σ Unit) q.1 := hush_tell c (fun _ => m) q

theorem hush_bind {m : M (Talk σ) α} {f : α → M (Talk σ) β} {m' : M σ α} {f' : α → M σ β} {q : Talk σ}
    (h : hush (m q) = m' q.1) (hf : ∀ a q, hush (f a q) = f' a q.1) : hush (M.bind m f q) = M.bind m' f' q.1 := by
  unfold M.bind
  rw [← h]
  cases m q with
  | ok p1 a => exact hf a p1
  | throw _ _ => rfl
  | ub _ => rfl

/-- A message in front changes nothing. -/
theorem hush_tell_bind {c : Bool} {g : σ → Msg} {f : Unit → M (Talk σ) β} {m' : M σ β} {q : Talk σ}
    (hf : ∀ a q, hush (f a q) = m' q.1) : hush (M.bind (tell c g) f q) = m' q.1 :=
  hush_bind (m' := M.pure ()) (f' := fun _ => m') (hush_tell c g q) hf

theorem hush_say_bind {c : Bool} {g : Msg} {f : Unit → M (Talk σ) β} {m' : M σ β} {q : Talk σ}
    (hf : ∀ a q, hush (f a q) = m' q.1) : hush (M.bind (say c g) f q) = m' q.1 := hush_tell_bind (g := fun _ => g) hf

theorem hush_when {c : Bool} {m : M (Talk σ) Unit} {m' : M σ Unit} {q : Talk σ}
    (h : hush (m q) = m' q.1) : hush (M.when c m q) = M.when c m' q.1 := by
  cases c with
  | true => exact h
  | false => rfl

theorem hush_cond {c : Bool} {m1 m2 : M (Talk σ) α} {m1' m2' : M σ α} {q : Talk σ}
    (h1 : hush (m1 q) = m1' q.1) (h2 : hush (m2 q) = m2' q.1) : hush (M.cond c m1 m2 q) = M.cond c m1' m2' q.1 := by
  cases c with
  | true => exact h1
  | false => exact h2

theorem hush_pure (a : α) (q : Talk σ) : hush ((M.pure a : M (Talk σ) α) q) = (M.pure a : M σ α) q.1 := rfl

theorem hush_onPcm {m : M (Talk (Pcm G T N)) α} {m' : M (Pcm G T N) α} (h : ∀ q, hush (m q) = m' q.1) (q : Talk (St G T N)) :
    hush (onPcmT m q) = onPcm m' q.1 := by
  unfold onPcmT onPcm M.zoom
  rw [← h (q.1.pcm, q.2)]
  cases m (q.1.pcm, q.2) <;> rfl

theorem hush_sortFactors (cfg : Cfg G T N) (v : Bool) (nv vals : Vals G) (fs : Graph G N) :
    ∀ (lcs : List (Btw G N)) (opt : Bool) (q : Talk (Pcm G T N)),
    hush (sortFactorsT cfg v nv vals fs lcs opt q) = sortFactors cfg nv vals fs lcs opt q.1 := by
  induction fs with
  | nil => intro _ _ _; rfl
  | cons f fs ih =>
    intro lcs opt q
    cases f with
    | none => exact ih lcs opt q
    | some f =>
      unfold sortFactorsT sortFactors
      simp only [M.bind_eq]
      have special : hush (M.bind (mute (M.modify fun p => { p with special := p.special ++ [f] })) (fun _ => sortFactorsT cfg v nv vals fs lcs true) q) =
          M.bind (M.modify fun p => { p with special := p.special ++ [f] }) (fun _ => sortFactors cfg nv vals fs lcs true) q.1 :=
        hush_bind (hush_mute _ _) fun _ q => ih lcs true q
      cases f with
      | btw b =>
        cases classify cfg nv (.btw b) with
        | odometry => exact hush_bind (hush_mute _ _) fun _ q => ih lcs opt q
        | firstLandmark => exact hush_say_bind fun _ q => hush_bind (hush_mute _ _) fun _ q => ih lcs opt q
        | loopClosure =>
          simp only
          split
          · exact ih _ opt q
          · exact hush_say_bind fun _ q => ih lcs opt q
        | nonBetween => exact special
      | _ => exact special

theorem hush_parseLoops (cfg : Cfg G T N) (v : Bool) (vals : Vals G) (bs : List (Btw G N)) :
    ∀ (num : List (ObsId × Nat)) (q : Talk (Pcm G T N)),
    hush (parseLoopsT cfg v vals bs num q) = parseLoops cfg vals bs num q.1 := by
  induction bs with
  | nil => intro _ _; rfl
  | cons b bs ih =>
    intro num q
    unfold parseLoopsT parseLoops
    simp only [M.bind_eq]
    split
    · exact hush_say_bind fun _ q => ih num q
    · split
      · exact hush_say_bind fun _ q => hush_bind (hush_mute _ _) fun _ q =>
          hush_bind (m := warnLandmark _ _) (m' := M.pure ()) (f' := fun _ => parseLoops cfg vals bs num) rfl fun _ q => ih num q
      · refine hush_bind (hush_mute _ _) fun ok q => ?_
        cases ok with
        | true => exact hush_say_bind fun _ q => hush_bind (hush_mute _ _) fun _ q => ih _ q
        | false => exact hush_say_bind fun _ q => ih num q

theorem M.bind_pure_unit (m : M σ Unit) : M.bind m (fun _ => M.pure ()) = m := by
  funext s
  unfold M.bind
  cases m s <;> rfl

theorem hush_processCands (cfg : Cfg G T N) (v : Bool) (vals : Vals G) (bs : List (Btw G N)) (q : Talk (Pcm G T N)) :
    hush (processCandsT cfg v vals bs q) = processCands cfg vals bs q.1 := by
  unfold processCandsT processCands
  simp only [M.bind_eq]
  refine hush_bind (hush_parseLoops _ _ _ _ _ _) fun num q => hush_tell_bind fun _ q => ?_
  rw [← M.bind_pure_unit (M.cond cfg.incremental _ _)]
  refine hush_bind ?_ fun _ q => hush_tell _ _ _
  rw [M.bind_pure_unit]
  exact hush_mute _ _

section
variable [Mul G] [Inv G] [One G]

theorem hush_alignRobot (cfg : Cfg G T N) (env : Env G N) (p : Pcm G T N) (r0 ri : Chr) (q : Talk (Vals G)) :
    hush (alignRobotT cfg env p r0 ri q) = alignRobot cfg env p r0 ri q.1 := by
  unfold alignRobotT
  simp only [M.bind_eq]
  rw [← M.bind_pure_unit (alignRobot cfg env p r0 ri)]
  refine hush_bind ?_ fun _ q => hush_say _ _ _
  rw [M.bind_pure_unit]
  exact hush_mute _ _

theorem hush_forEach {f : β → M (Talk σ) Unit} {f' : β → M σ Unit} (h : ∀ b q, hush (f b q) = f' b q.1) (l : List β) (q : Talk σ) :
    hush (M.forEach f l q) = M.forEach f' l q.1 := by
  induction l generalizing q with
  | nil => rfl
  | cons b l ih => exact hush_bind (h b q) fun _ q => ih q

theorem hush_alignValues (cfg : Cfg G T N) (env : Env G N) (p : Pcm G T N) (rs : List Chr) (q : Talk (Vals G)) :
    hush (alignValuesT cfg env p rs q) = alignValues cfg env p rs q.1 := by
  cases rs with
  | nil => rfl
  | cons r0 rs => exact hush_bind (hush_mute _ _) fun _ q => hush_forEach (fun ri q => hush_alignRobot cfg env p r0 ri q) rs q

theorem hush_alignStep (cfg : Cfg G T N) (env : Env G N) (q : Talk (St G T N)) :
    hush (alignStepT cfg env q) = alignStep cfg env q.1 := by
  unfold alignStepT alignStep
  split
  · simp only
    rw [← hush_alignValues cfg env _ _ (q.1.values, q.2)]
    cases alignValuesT cfg env _ _ (q.1.values, q.2) <;> rfl
  · rfl

theorem hush_processFactors (cfg : Cfg G T N) (v : Bool) (env : Env G N) (fs : Graph G N) (vs : Vals G) (q : Talk (St G T N)) :
    hush (processFactorsT cfg v env fs vs q) = processFactors cfg env fs vs q.1 := by
  unfold processFactorsT processFactors
  simp only [M.bind_eq]
  rw [M.bind_ok (M.get_apply _), M.bind_ok (M.get_apply _)]
  refine hush_bind (hush_onPcm (hush_sortFactors _ _ _ _ _ _ _) _) fun r q => ?_
  refine hush_bind (hush_when (hush_onPcm (hush_processCands _ _ _ _) _)) fun _ q => ?_
  refine hush_bind (hush_mute _ _) fun _ q => ?_
  exact hush_bind (hush_alignStep _ _ _) fun _ q => hush_tell_bind fun _ q => rfl

theorem hush_removeOutliers (cfg : Cfg G T N) (v : Bool) (env : Env G N) (fs : Graph G N) (vs : Vals G) (q : Talk (St G T N)) :
    hush (removeOutliersT cfg v env fs vs q) = removeOutliers cfg env fs vs q.1 := by
  unfold removeOutliersT removeOutliers
  simp only [M.bind_eq]
  exact hush_bind (hush_mute _ _) fun _ q => hush_cond rfl (hush_processFactors _ _ _ _ _ _)

theorem M.bind_pure_self {σ α : Type} (m : M σ α) : M.bind m M.pure = m := by
  funext s
  unfold M.bind
  cases m s <;> rfl

theorem hush_optimize (cfg : Cfg G T N) (env : Env G N) (q : Talk (St G T N)) :
    hush (optimizeT cfg env q) = optimize cfg env q.1 := by
  unfold optimizeT optimize
  simp only [M.bind_eq]
  rw [M.bind_ok (M.get_apply _), M.bind_ok (M.get_apply _)]
  cases mergeVals q.1.values q.1.tempValues with
  | none => rfl
  | some full =>
    simp only
    refine hush_say_bind fun _ q => hush_bind (hush_cond ?_ ?_) fun r q => ?_
    · conv => rhs; rw [← M.bind_pure_self (gncOptimize cfg env full)]
      exact hush_bind (hush_mute _ _) fun _ q => hush_tell_bind fun _ q => rfl
    · conv => rhs; rw [← M.bind_pure_self (plainOptimize cfg env full)]
      exact hush_bind (hush_mute _ _) fun _ q => hush_tell_bind fun _ q => rfl
    · exact hush_bind (hush_mute _ _) fun _ q => hush_mute _ _

theorem hush_exec (cfg : Cfg G T N) (v : Bool) (env : Env G N) (op : Op G N) (q : Talk (St G T N)) :
    hush (execT cfg v env op q) = exec cfg env op q.1 := by
  cases op with
  | update fs vs opt =>
    refine hush_bind ?_ fun _ q => rfl
    unfold updateT update
    simp only [M.bind_eq]
    refine hush_bind (hush_cond (hush_removeOutliers _ _ _ _ _ _) (hush_mute _ _)) fun r q => ?_
    exact hush_bind (hush_when (hush_optimize _ _ _)) fun _ q => hush_mute _ _
  | forceUpdate fs vs =>
    refine hush_bind ?_ fun _ q => rfl
    unfold forceUpdateT forceUpdate
    simp only [M.bind_eq]
    refine hush_bind (hush_cond (hush_removeOutliers _ _ _ _ _ _) (hush_mute _ _)) fun r q => ?_
    exact hush_bind (hush_optimize _ _ _) fun _ q => hush_mute _ _
  | removePriors c opt =>
    refine hush_bind ?_ fun _ q => rfl
    unfold removePriorsT removePriors
    simp only [M.bind_eq]
    exact hush_bind (hush_mute _ _) fun _ q => hush_when (hush_optimize _ _ _)
  | removeLastPair a b =>
    refine hush_bind ?_ fun _ q => rfl
    unfold removeLastLC2T removeLastLC2
    simp only [M.bind_eq]
    exact hush_bind (hush_mute _ _) fun _ q => hush_bind (hush_optimize _ _ _) fun _ q => rfl
  | removeLast =>
    refine hush_bind ?_ fun _ q => rfl
    unfold removeLastLCT removeLastLC
    simp only [M.bind_eq]
    exact hush_bind (hush_mute _ _) fun _ q => hush_bind (hush_optimize _ _ _) fun _ q => rfl
  | ignore c =>
    refine hush_bind ?_ fun _ q => rfl
    unfold ignorePrefixT ignorePrefix
    simp only [M.bind_eq]
    exact hush_bind (hush_mute _ _) fun _ q => hush_say_bind fun _ q => hush_optimize _ _ _
  | revive c =>
    refine hush_bind ?_ fun _ q => rfl
    unfold revivePrefixT revivePrefix
    simp only [M.bind_eq]
    exact hush_bind (hush_mute _ _) fun _ q => hush_say_bind fun _ q => hush_optimize _ _ _
  | genericUpdate fs vs rm =>
    refine hush_bind ?_ fun _ q => rfl
    unfold genericUpdateT genericUpdate
    simp only [M.bind_eq]
    refine hush_bind (hush_mute _ _) fun _ q => hush_bind (hush_mute _ _) fun lc q => ?_
    split
    · rw [M.bind_ok (M.get_apply _), M.bind_ok (M.get_apply _)]
      cases mergeVals q.1.values q.1.tempValues with
      | none => rfl
      | some full =>
        simp only
        refine hush_say_bind fun _ q => ?_
        cases env.opt _ full with
        | none => rfl
        | some r => exact hush_mute _ _
    · rfl
  | _ => exact hush_mute _ _

end

end RPGO
