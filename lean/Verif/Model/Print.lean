import Verif.Model.Solver
/-
The messages written to the terminal through `log<INFO>` and `log<WARNING>` (Logger.h:17-43). The procedures of
`Model/Pcm.lean` and `Model/Solver.lean` again, with the list of the messages written so far as part of the state. Durations
and the distances of the consistency checks (Pcm.h:567-569, 587-590) are left out of the messages, and so is what GTSAM's
optimizers print themselves, and the warnings about values outside the enumerations (the one about the verbosity is in `Model/Verbosity`, the one of
`getIgnoredPrefixes` in `Model/Quiet`; RobustSolver.cpp:69, 162, 257, 299, Pcm.h:1125 are left out). The
warnings at Pcm.h:549, 616, 701, 707, 1015 and TypeUtils.h:26 cannot be reached. `v` is `debug_` of the rejection object: set in mode VERBOSE only (RobustSolver.cpp:73-89).
-/

namespace RPGO
variable {G T N : Type}

/-- A message. -/
inductive Msg where
  /-- "New landmark observed", Pcm.h:210 -/
  | newLandmark
  /-- "Attempting to close loop against self", Pcm.h:226 -/
  | self
  /-- "Cannot add loop closure with non-existing keys", Pcm.h:433 -/
  | missingKeys
  /-- "loop closing with landmark …", Pcm.h:448 -/
  | withLandmark (l : Key)
  /-- "Landmark observations should be connected pose -> landmark, discarding", Pcm.h:804-806 -/
  | backwards
  /-- "Attempting to get odometry between different trajectories", Pcm.h:820-821 -/
  | apart
  /-- "loop closure between keys … and …", Pcm.h:468-471 -/
  | between (k1 k2 : Key)
  /-- "Discarded loop closure (inconsistent with odometry)", Pcm.h:489-490 -/
  | discarded
  /-- "total loop closures registered: …", Pcm.h:853, 909 -/
  | registered (n : Nat)
  /-- "number of inliers: …", Pcm.h:897, 968 -/
  | inliers (n : Nat)
  /-- "PCM spin took … Detected … total loop closures with … inliers.", Pcm.h:271-274 -/
  | spin (n k : Nat)
  /-- "No inter-robot loop closures between robots with prefix … and … for multirobot frame alignment.", Pcm.h:1068-1070 -/
  | noClosures (r0 ri : Chr)
  /-- "Running LM" or "Running GN", RobustSolver.cpp:128, 223, GenericSolver.cpp:93, 102 -/
  | running (lm : Bool)
  /-- "Optimize took … loop closures with … inliers.", RobustSolver.cpp:213-216 -/
  | optimized (n k : Nat)
  /-- "GNC optimize took … loop closures with … inliers.", RobustSolver.cpp:176-179, 271-274 -/
  | gncOptimized (n k : Nat)
  /-- "… currently not implemented for no outlier rejection case", RobustSolver.cpp:414-416, 427-429 -/
  | notImplemented
deriving DecidableEq, Repr

/-- A state with the messages written so far. -/
abbrev Talk (σ : Type) := σ × List Msg

/-- A procedure that writes no message. -/
def mute {σ α : Type} (m : M σ α) : M (Talk σ) α := M.zoom (fun p => p.1) (fun s p => (s, p.2)) m

/-- `if (c) log<…>() << m` -/
def say {σ : Type} (c : Bool) (m : Msg) : M (Talk σ) Unit :=
  M.when c (M.modify fun p => (p.1, p.2 ++ [m]))

/-- A message that depends on the state. -/
def tell {σ : Type} (c : Bool) (f : σ → Msg) : M (Talk σ) Unit :=
  M.when c (M.modify fun p => (p.1, p.2 ++ [f p.1]))

/-- Run a talking procedure of the rejection object, as `onPcm`. -/
def onPcmT {α : Type} (m : M (Talk (Pcm G T N)) α) : M (Talk (St G T N)) α :=
  M.zoom (fun p => (p.1.pcm, p.2)) (fun q p => ({ p.1 with pcm := q.1 }, q.2)) m

/-- The loop over the new factors, Pcm.h:164-240, as `sortFactors`. -/
def sortFactorsT (cfg : Cfg G T N) (v : Bool) (newVals vals : Vals G) :
    Graph G N → List (Btw G N) → Bool → M (Talk (Pcm G T N)) (List (Btw G N) × Bool)
  | [], lcs, opt => M.pure (lcs, opt)
  | none :: fs, lcs, opt => sortFactorsT cfg v newVals vals fs lcs opt
  | some f :: fs, lcs, opt =>
    match classify cfg newVals f, f with
    | .odometry, .btw b => do
      mute (updateOdom cfg vals b)
      sortFactorsT cfg v newVals vals fs lcs opt
    | .firstLandmark, .btw b => do
      say v .newLandmark                                                            -- line 210
      mute (M.modify fun p =>
        { updLm p (landmarkKey cfg b) (fun _ => ⟨[b], [b], Mat.zero 1⟩) with totalLc := p.totalLc + 1 })
      sortFactorsT cfg v newVals vals fs lcs opt
    | .loopClosure, .btw b =>
      if b.k1 ≠ b.k2 then sortFactorsT cfg v newVals vals fs (lcs ++ [b]) opt
      else do
        say true .self                                                              -- line 227
        sortFactorsT cfg v newVals vals fs lcs opt
    | _, f => do
      mute (M.modify fun p => { p with special := p.special ++ [f] })
      sortFactorsT cfg v newVals vals fs lcs true

/-- The warnings of the loop over the earlier observations `xs` of landmark `l` in `incrementLandmarkAdjMatrix`, Pcm.h:794-822. -/
def landmarkWarnings (l : Key) (y : Btw G N) : List (Btw G N) → List Msg
  | [] => []
  | x :: xs =>
    if x.k1 = l ∨ y.k1 = l then [.backwards]                                        -- lines 803-808, `return`
    else (if chr x.k1 ≠ chr y.k1 then [.apart] else []) ++ landmarkWarnings l y xs  -- lines 819-822

/-- Write the warnings about the last observation of landmark `l`; here after the matrix has been filled. -/
def warnLandmark (l : Key) (y : Btw G N) : M (Talk (Pcm G T N)) Unit :=
  M.modify fun q => (q.1, q.2 ++ landmarkWarnings l y (lmOf q.1 l).factors.dropLast)

/-- `parseAndIncrementAdjMatrix`, Pcm.h:414-502, as `parseLoops`. -/
def parseLoopsT (cfg : Cfg G T N) (v : Bool) (vals : Vals G) :
    List (Btw G N) → List (ObsId × Nat) → M (Talk (Pcm G T N)) (List (ObsId × Nat))
  | [], num => M.pure num
  | b :: bs, num =>
    if !(vals.has b.k1) || !(vals.has b.k2) then do
      say true .missingKeys                                                         -- line 433
      parseLoopsT cfg v vals bs num
    else if cfg.isSpecial (chr b.k1) || cfg.isSpecial (chr b.k2) then do
      say v (.withLandmark (landmarkKey cfg b))                                     -- lines 447-450
      mute (registerLm cfg b)
      warnLandmark (landmarkKey cfg b) b
      parseLoopsT cfg v vals bs num
    else do
      let ok ← mute (M.cond (chr b.k1 == chr b.k2) (isOdomConsistent cfg b) (M.pure true))
      if ok then do
        say v (.between b.k1 b.k2)                                                  -- lines 467-471
        mute (registerLc cfg b)
        parseLoopsT cfg v vals bs (bump ⟨chr b.k1, chr b.k2⟩ num)
      else do
        say v .discarded                                                            -- lines 488-490
        parseLoopsT cfg v vals bs num

/-- Pcm.h:242-259, as `processCands`; the two messages of `findInliers` (lines 852-854, 896-898) and of
`findInliersIncremental` (lines 908-910, 967-969) are the same. -/
def processCandsT (cfg : Cfg G T N) (v : Bool) (vals : Vals G) (cands : List (Btw G N)) : M (Talk (Pcm G T N)) Unit := do
  let num ← parseLoopsT cfg v vals cands []
  tell v fun p => .registered p.totalLc
  mute (M.cond cfg.incremental (findInliersIncremental num) (findInliers cfg))
  tell v fun p => .inliers p.totalGood

section
variable [Mul G] [Inv G] [One G]

/-- Is robot `ri` passed over by the loop of `multirobotValueInitialization`? The `out_of_range` caught in Pcm.h:1067. -/
def passedOver (cfg : Cfg G T N) (p : Pcm G T N) (r0 ri : Chr) : Bool :=
  match AList.get? ObsId.eqv p.lcs ⟨r0, ri⟩ with
  | none => true
  | some m => (alignCandidates cfg p r0 ri m.cons).isNone

/-- One iteration of the loop over the other robots, Pcm.h:1027-1071, as `alignRobot`. -/
def alignRobotT (cfg : Cfg G T N) (env : Env G N) (p : Pcm G T N) (r0 ri : Chr) : M (Talk (Vals G)) Unit := do
  mute (alignRobot cfg env p r0 ri)
  say (passedOver cfg p r0 ri) (.noClosures r0 ri)                                  -- lines 1068-1070

/-- `multirobotValueInitialization`, Pcm.h:1011-1074, as `alignValues`. -/
def alignValuesT (cfg : Cfg G T N) (env : Env G N) (p : Pcm G T N) : List Chr → M (Talk (Vals G)) Unit
  | [] => M.pure ()
  | r0 :: rs => do
    mute (updateVals (robotOdomValues cfg (trajOf p r0) 1))
    M.forEach (alignRobotT cfg env p r0) rs

/-- Pcm.h:261-264, as `alignStep`. -/
def alignStepT (cfg : Cfg G T N) (env : Env G N) : M (Talk (St G T N)) Unit := fun q =>
  if cfg.align && decide (1 < q.1.pcm.robotOrder.length) then
    let order := sortRobots cfg.charSigned q.1.pcm.robotOrder
    let s := { q.1 with pcm := { q.1.pcm with robotOrder := order } }
    match alignValuesT cfg env s.pcm order (s.values, q.2) with
    | .ok w _ => .ok ({ s with values := w.1 }, w.2) ()
    | .throw w e => .throw (s, w.2) e
    | .ub u => .ub u
  else .ok q ()

/-- `Pcm::removeOutliers`, Pcm.h:160-281, as `processFactors`. -/
def processFactorsT (cfg : Cfg G T N) (v : Bool) (env : Env G N) (fs : Graph G N) (vs : Vals G) : M (Talk (St G T N)) Bool := do
  let q ← M.get
  let r ← onPcmT (sortFactorsT cfg v vs q.1.values fs [] false)
  M.when (decide (r.1.length > 0)) (onPcmT (processCandsT cfg v q.1.values r.1))
  mute (rebuild env)
  alignStepT cfg env
  tell (v && (r.2 || decide (r.1.length > 0))) fun s => .spin s.pcm.totalLc s.pcm.totalGood     -- lines 270-274
  M.pure (r.2 || decide (r.1.length > 0))

/-- `Pcm::removeOutliers`, Pcm.h:148-281, as `removeOutliers`. -/
def removeOutliersT (cfg : Cfg G T N) (v : Bool) (env : Env G N) (fs : Graph G N) (vs : Vals G) : M (Talk (St G T N)) Bool := do
  mute (onValues (insertVals vs))
  M.cond (decide (fs.length = 0)) (M.pure false) (processFactorsT cfg v env fs vs)

/-- What `getNumLCInliers` returns in the message of RobustSolver.cpp:215 (RobustSolver.h:41-47). -/
def shownInliers (cfg : Cfg G T N) (s : St G T N) : Nat := if cfg.useGnc then s.gncNum else s.pcm.totalGood

/-- `RobustSolver::optimize`, RobustSolver.cpp:115-306, as `optimize`. -/
def optimizeT (cfg : Cfg G T N) (env : Env G N) : M (Talk (St G T N)) Unit := do
  let q ← M.get
  match mergeVals q.1.values q.1.tempValues with
  | none => M.raise .keyExists
  | some full => do
    say cfg.debug (.running cfg.lm)                                                 -- lines 126-129, 221-224
    let result ← M.cond (useGncNow cfg q.1)
      (do
        let r ← mute (gncOptimize cfg env full)
        tell cfg.debug fun s => .gncOptimized s.pcm.totalGood s.gncNum              -- lines 175-180, 270-275
        M.pure r)
      (do
        let r ← mute (plainOptimize cfg env full)
        tell (cfg.lm && cfg.debug) fun s => .optimized s.pcm.totalLc (shownInliers cfg s)       -- lines 212-217
        M.pure r)
    mute (applyResult result)
    mute (M.when cfg.rejection (M.modify fun s => { s with latest := s.pcm.totalLc }))

/-- `RobustSolver::update`, RobustSolver.cpp:337-369, as `update`. -/
def updateT (cfg : Cfg G T N) (v : Bool) (env : Env G N) (fs : Graph G N) (vs : Vals G) (opt : Bool) : M (Talk (St G T N)) Unit := do
  let doOpt ← M.cond cfg.rejection (removeOutliersT cfg v env fs vs) (mute (addAndCheck fs vs))
  M.when (doOpt && opt) (optimizeT cfg env)
  mute (M.when (cfg.log && opt) (logStatus cfg))

/-- `RobustSolver::forceUpdate`, RobustSolver.cpp:308-335, as `forceUpdate`. -/
def forceUpdateT (cfg : Cfg G T N) (v : Bool) (env : Env G N) (fs : Graph G N) (vs : Vals G) : M (Talk (St G T N)) Unit := do
  let _ ← M.cond cfg.rejection (removeOutliersT cfg v env fs vs) (mute (addAndCheck fs vs))
  optimizeT cfg env
  mute (M.when cfg.log (logStatus cfg))

/-- `RobustSolver::removePriorFactorsWithPrefix`, RobustSolver.cpp:371-381, as `removePriors`. -/
def removePriorsT (cfg : Cfg G T N) (env : Env G N) (c : Chr) (opt : Bool) : M (Talk (St G T N)) Unit := do
  mute (M.cond cfg.rejection (removePriorsPcm cfg env c) (removePriorsGeneric cfg c))
  M.when opt (optimizeT cfg env)

/-- `GenericSolver::update`, GenericSolver.cpp:67-112, as `genericUpdate`. -/
def genericUpdateT (cfg : Cfg G T N) (env : Env G N) (fs : Graph G N) (vs : Vals G) (rm : List Nat) : M (Talk (St G T N)) Unit := do
  mute (removeFactors rm)
  let lc ← mute (addAndCheck fs vs)
  if lc || decide (rm.length > 0) then do
    let q ← M.get
    match mergeVals q.1.values q.1.tempValues with
    | none => M.raise .keyExists
    | some full => do
      say cfg.debug (.running cfg.lm)                                               -- lines 91-94, 100-103
      match env.opt (q.1.nfg ++ q.1.tempNfg) full with
      | none => M.raise .optimizer
      | some result => mute (applyResult result)
  else M.pure ()

/-- `RobustSolver::removeLastLoopClosure(p, q)`, RobustSolver.cpp:383-395, as `removeLastLC2`. -/
def removeLastLC2T (cfg : Cfg G T N) (env : Env G N) (a b : Chr) : M (Talk (St G T N)) EdgePtr := do
  let e ← mute (M.cond cfg.rejection (removeLastOfPair env ⟨a, b⟩) removeLastFactor)
  optimizeT cfg env
  M.pure e

/-- `RobustSolver::removeLastLoopClosure()`, RobustSolver.cpp:397-408, as `removeLastLC`. -/
def removeLastLCT (cfg : Cfg G T N) (env : Env G N) : M (Talk (St G T N)) EdgePtr := do
  let e ← mute (M.cond cfg.rejection (removeLastPcm env) removeLastFactor)
  optimizeT cfg env
  M.pure e

/-- `RobustSolver::ignorePrefix`, RobustSolver.cpp:410-421, as `ignorePrefix`. -/
def ignorePrefixT (cfg : Cfg G T N) (env : Env G N) (c : Chr) : M (Talk (St G T N)) Unit := do
  mute (M.when cfg.rejection (ignorePcm env c))
  say (!cfg.rejection) .notImplemented                                              -- lines 414-416
  optimizeT cfg env

/-- `RobustSolver::revivePrefix`, RobustSolver.cpp:423-434, as `revivePrefix`. -/
def revivePrefixT (cfg : Cfg G T N) (env : Env G N) (c : Chr) : M (Talk (St G T N)) Unit := do
  mute (M.when cfg.rejection (revivePcm env c))
  say (!cfg.rejection) .notImplemented                                              -- lines 427-429
  optimizeT cfg env

/-- Execution of one call, with the messages it writes: only these functions write any. -/
def execT (cfg : Cfg G T N) (v : Bool) (env : Env G N) : Op G N → M (Talk (St G T N)) Ret
  | .update fs vs opt => (updateT cfg v env fs vs opt).ret fun _ => .unit
  | .forceUpdate fs vs => (forceUpdateT cfg v env fs vs).ret fun _ => .unit
  | .removePriors c opt => (removePriorsT cfg env c opt).ret fun _ => .unit
  | .removeLastPair a b => (removeLastLC2T cfg env a b).ret .edge
  | .removeLast => (removeLastLCT cfg env).ret .edge
  | .ignore c => (ignorePrefixT cfg env c).ret fun _ => .unit
  | .revive c => (revivePrefixT cfg env c).ret fun _ => .unit
  | .genericUpdate fs vs rm => (genericUpdateT cfg env fs vs rm).ret fun _ => .unit
  | op => mute (exec cfg env op)

end

end RPGO
