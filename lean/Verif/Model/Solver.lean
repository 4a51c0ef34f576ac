import Verif.Model.Pcm
/-
Model of the public interface: `Pcm::removeOutliers` and the other overrides of `OutlierRemoval`
(/repo/include/KimeraRPGO/outlier/Pcm.h), `GenericSolver` (/repo/src/GenericSolver.cpp, GenericSolver.h) and
`RobustSolver` (/repo/src/RobustSolver.cpp, RobustSolver.h). Messages, timing and text logs are left out.
-/

namespace RPGO
variable {G T N : Type} [Mul G] [Inv G] [One G]

/-- Run a procedure of the outlier-rejection object. -/
def onPcm {α : Type} (m : M (Pcm G T N) α) : M (St G T N) α :=
  M.zoom (fun s => s.pcm) (fun p s => { s with pcm := p }) m

/-- Run a procedure on `values_`. -/
def onValues {α : Type} (m : M (Vals G) α) : M (St G T N) α :=
  M.zoom (fun s => s.values) (fun v s => { s with values := v }) m

/-- `*output_nfg = buildGraphToOptimize()` -/
def rebuild (env : Env G N) : M (St G T N) Unit := M.modify fun s => { s with nfg := buildGraph env s.pcm }

/-- `*output_values = multirobotValueInitialization(*output_values)`, Pcm.h:261-264: `robot_order_` is sorted
in place; the values are a copy that is assigned only on success. -/
def alignStep (cfg : Cfg G T N) (env : Env G N) : M (St G T N) Unit := fun s =>
  if cfg.align && decide (1 < s.pcm.robotOrder.length) then
    let order := sortRobots cfg.charSigned s.pcm.robotOrder
    let s := { s with pcm := { s.pcm with robotOrder := order } }
    match alignValues cfg env s.pcm order s.values with
    | .ok v _ => .ok { s with values := v } ()
    | .throw _ e => .throw s e
    | .ub u => .ub u
  else .ok s ()

/-- Registration and inlier selection for the loop-closure candidates of a batch, Pcm.h:242-259. -/
def processCands (cfg : Cfg G T N) (vals : Vals G) (cands : List (Btw G N)) : M (Pcm G T N) Unit := do
  let num ← parseLoops cfg vals cands []
  M.cond cfg.incremental (findInliersIncremental num) (findInliers cfg)

/-- `Pcm::removeOutliers`, Pcm.h:148-281, after the values have been inserted and if there are new factors. -/
def processFactors (cfg : Cfg G T N) (env : Env G N) (fs : Graph G N) (vs : Vals G) : M (St G T N) Bool := do
  let s ← M.get
  let r ← onPcm (sortFactors cfg vs s.values fs [] false)               -- lines 163-240
  M.when (decide (r.1.length > 0)) (onPcm (processCands cfg s.values r.1))
  rebuild env                                                           -- line 260
  alignStep cfg env                                                     -- lines 261-264
  M.pure (r.2 || decide (r.1.length > 0))

/-- `Pcm::removeOutliers`, Pcm.h:148-281; returns `do_optimize`. -/
def removeOutliers (cfg : Cfg G T N) (env : Env G N) (fs : Graph G N) (vs : Vals G) : M (St G T N) Bool := do
  onValues (insertVals vs)                                              -- line 155
  M.cond (decide (fs.length = 0)) (M.pure false)                        -- lines 156-159
    (processFactors cfg env fs vs)

/-! ### Optimization -/

/-- `GenericSolver::updateValues`, GenericSolver.cpp:37-45. -/
def applyResult : Vals G → M (St G T N) Unit
  | [] => M.pure ()
  | (k, v) :: t => fun s =>
    match s.values.find? k with
    | some v' =>
      if v'.sameType v then applyResult t { s with values := s.values.set k v } else .throw s .wrongType
    | none =>
      match s.tempValues.find? k with
      | some v' =>
        if v'.sameType v then applyResult t { s with tempValues := s.tempValues.set k v }
        else .throw s .wrongType
      | none => applyResult t s

/-- `full_values.insert(temp_values_)`: the merged values, or `none` if a key occurs in both. -/
def mergeVals (vals temp : Vals G) : Option (Vals G) :=
  match insertVals temp vals with
  | .ok v _ => some v
  | _ => none

/-- `static_cast<size_t>(gnc_weights_.sum()) - n`, RobustSolver.cpp:170-171, in 64-bit arithmetic. -/
def inlierCount (w : List Rat) (n : Nat) : Nat := (w.sum.floor.toNat + 2 ^ 64 - n % 2 ^ 64) % 2 ^ 64

/-- The factors used when previous inliers are fixed, RobustSolver.cpp:183-196 (and 278-289): the first `k`
factors, and for every `i < latest` with previous weight above 0.5 the factor `nfg_.at(k + i)`. `w` lists the
last `latest` entries of the weight vector. -/
def fixedFactors (nfg : Graph G N) (k : Nat) : List Rat → Nat → Option (Graph G N)
  | [], _ => some []
  | w :: ws, i =>
    if w > 1 / 2 then
      match nfg[k + i]? with
      | none => none
      | some f => (fixedFactors nfg k ws (i + 1)).map (f :: ·)
    else fixedFactors nfg k ws (i + 1)

/-- `full_nfg` of the branch without GNC, RobustSolver.cpp:183-196 (and 278-289). -/
def plainGraph (cfg : Cfg G T N) : M (St G T N) (Graph G N) := fun s =>
  if cfg.fixPrev then
    if !cfg.rejection then .ub .nullDeref                                           -- line 187
    else
      let k := s.pcm.odom.length + s.pcm.special.length
      if s.nfg.length < k then .ub .iterRange                                       -- line 189
      else if s.gncW.length < s.latest then .ub .eigen                              -- line 191, wrapped index
      else match fixedFactors s.nfg k (s.gncW.drop (s.gncW.length - s.latest)) 0 with
        | none => .throw s .outOfRange                                              -- line 192
        | some l => .ok s (s.nfg.take k ++ l ++ s.tempNfg)
  else .ok s (s.nfg ++ s.tempNfg)

/-- The branch without GNC, RobustSolver.cpp:181-218 (LM) and 276-296 (GN). -/
def plainOptimize (cfg : Cfg G T N) (env : Env G N) (full : Vals G) : M (St G T N) (Vals G) := do
  let graph ← plainGraph cfg
  match env.opt graph full with
  | none => M.raise .optimizer
  | some result => do
    let s ← M.get
    if s.gncW.length < s.latest then M.undef .eigen                                 -- line 202
    else if s.nfg.length < s.latest then M.undef .eigen                             -- line 206
    else do
      M.modify fun s =>
        { s with
          gncW := List.replicate (s.nfg.length - s.latest) 1 ++ s.gncW.drop (s.gncW.length - s.latest)
          gncTW := List.replicate s.tempNfg.length 1 }
      if cfg.lm && cfg.debug && !cfg.rejection then M.undef .nullDeref              -- line 214
      else M.pure result

/-- The branch with GNC, RobustSolver.cpp:130-180 (LM) and 225-275 (GN). `known` are the indices of
`getGncKnownInliers` (lines 105-113). -/
def gncOptimize (cfg : Cfg G T N) (env : Env G N) (full : Vals G) : M (St G T N) (Vals G) := do
  let s ← M.get
  let known := List.range (s.pcm.odom.length + s.pcm.special.length)
  let graph := s.nfg ++ s.tempNfg
  if cfg.biasOdom && decide (graph.length < known.length) then M.undef .eigen       -- line 148
  else do
    let init := if cfg.biasOdom then
        some (List.replicate known.length 1 ++ List.replicate (graph.length - known.length) 0) else none
    match env.gnc graph full known init with
    | none => M.raise .optimizer
    | some (result, w) =>
      if w.length < s.nfg.length ∨ w.length < s.tempNfg.length then M.undef .eigen  -- lines 168-169
      else do
        let gw := w.take s.nfg.length
        M.modify fun s =>
          { s with
            gncW := gw
            gncTW := w.drop (w.length - s.tempNfg.length)
            gncNum := inlierCount gw known.length }
        M.pure result

/-- Is the GNC branch taken? RobustSolver.cpp:130-132, 225-227. -/
def useGncNow (cfg : Cfg G T N) (s : St G T N) : Bool :=
  cfg.useGnc && cfg.rejection && !(cfg.fixPrev && s.pcm.totalLc == s.latest)

/-- `RobustSolver::optimize`, RobustSolver.cpp:115-306. -/
def optimize (cfg : Cfg G T N) (env : Env G N) : M (St G T N) Unit := do
  let s ← M.get
  match mergeVals s.values s.tempValues with                                        -- line 120
  | none => M.raise .keyExists
  | some full => do
    let result ← M.cond (useGncNow cfg s) (gncOptimize cfg env full) (plainOptimize cfg env full)
    applyResult result                                                              -- line 302
    M.when cfg.rejection (M.modify fun s => { s with latest := s.pcm.totalLc })     -- lines 303-305

/-! ### Queries that can fail -/

/-- `RobustSolver::getNumLC`, RobustSolver.h:39. -/
def getNumLC (cfg : Cfg G T N) : M (St G T N) Nat := fun s =>
  if cfg.rejection then .ok s s.pcm.totalLc else .ub .nullDeref

/-- `RobustSolver::getNumLCInliers`, RobustSolver.h:41-47. -/
def getNumLCInliers (cfg : Cfg G T N) : M (St G T N) Nat := fun s =>
  if cfg.useGnc then .ok s s.gncNum
  else if cfg.rejection then .ok s s.pcm.totalGood else .ub .nullDeref

/-- `writeG2o` refuses a between factor whose noise is not Gaussian, Logger.cpp:115-118, 136-139. -/
def g2oOk : Graph G N → Bool
  | [] => true
  | some (.btw b) :: t => b.noise.isSome && g2oOk t
  | _ :: t => g2oOk t

/-- `RobustSolver::saveData`, RobustSolver.cpp:448-465, as far as it can fail. -/
def saveData : M (St G T N) Unit := fun s => if g2oOk s.nfg then .ok s () else .throw s .invalidArg

/-- Status logging at the end of `update` / `forceUpdate`, RobustSolver.cpp:326-334, 359-367. -/
def logStatus (cfg : Cfg G T N) : M (St G T N) Unit := do
  let _ ← getNumLC cfg
  let _ ← getNumLCInliers cfg
  saveData

/-! ### Updates -/

/-- `GenericSolver::addAndCheckIfOptimize`, GenericSolver.cpp:47-65. -/
def addAndCheck (fs : Graph G N) (vs : Vals G) : M (St G T N) Bool := do
  M.modify fun s => { s with nfg := s.nfg ++ fs }                                   -- line 51
  onValues (insertVals vs)                                                          -- line 52
  match fs with
  | [] => M.pure (decide (vs.length ≠ 0))
  | [none] => M.undef .nullDeref                                                    -- line 55
  | [some f] => M.pure (!(decide (f.keys.length = 2) && decide (vs.length = 1)))
  | _ => M.pure true

/-- `RobustSolver::update`, RobustSolver.cpp:337-369. -/
def update (cfg : Cfg G T N) (env : Env G N) (fs : Graph G N) (vs : Vals G) (opt : Bool) : M (St G T N) Unit := do
  let doOpt ← M.cond cfg.rejection (removeOutliers cfg env fs vs) (addAndCheck fs vs)
  M.when (doOpt && opt) (optimize cfg env)
  M.when (cfg.log && opt) (logStatus cfg)

/-- `RobustSolver::forceUpdate`, RobustSolver.cpp:308-335. -/
def forceUpdate (cfg : Cfg G T N) (env : Env G N) (fs : Graph G N) (vs : Vals G) : M (St G T N) Unit := do
  let _ ← M.cond cfg.rejection (removeOutliers cfg env fs vs) (addAndCheck fs vs)
  optimize cfg env
  M.when cfg.log (logStatus cfg)

/-- `GenericSolver::removeFactorsNoUpdate`, GenericSolver.cpp:114-120 (and the loop at 76-78). -/
def removeFactors : List Nat → M (St G T N) Unit
  | [] => M.pure ()
  | i :: is => fun s =>
    if i < s.nfg.length then removeFactors is { s with nfg := s.nfg.set i none } else .throw s .outOfRange

/-- `GenericSolver::update`, GenericSolver.cpp:67-112 (hidden by `RobustSolver::update`, callable on a plain
`GenericSolver` or by a qualified name). -/
def genericUpdate (env : Env G N) (fs : Graph G N) (vs : Vals G) (rm : List Nat) : M (St G T N) Unit := do
  removeFactors rm
  let lc ← addAndCheck fs vs
  if lc || decide (rm.length > 0) then do
    let s ← M.get
    match mergeVals s.values s.tempValues with
    | none => M.raise .keyExists
    | some full =>
      match env.opt (s.nfg ++ s.tempNfg) full with
      | none => M.raise .optimizer
      | some result => applyResult result
  else M.pure ()

/-! ### Removing factors -/

/-- An edge returned by the removal functions: `Edge`, TypeUtils.h:35-41; `none` is the null pointer. -/
abbrev EdgePtr := Option (Key × Key)

/-- `GenericSolver::removeLastFactor`, GenericSolver.cpp:122-128. -/
def removeLastFactor : M (St G T N) EdgePtr := fun s =>
  match s.nfg.getLast? with
  | none => .throw s .outOfRange
  | some none => .ub .nullDeref
  | some (some f) =>
    match f.keys.head?, f.keys.getLast? with
    | some a, some b => .ok { s with nfg := s.nfg.dropLast } (some (a, b))
    | _, _ => .ub .vecIndex

/-- Is the factor a pose prior on a key with this prefix? `node.chr() != prefix` compares an `unsigned char`
with a `char`. -/
def isPriorOf (signed : Bool) (p : Chr) (k : Key) : Bool := decide (ucharVal (chr k) = charVal signed p)

/-- `GenericSolver::removePriorsWithPrefix`, GenericSolver.cpp:130-160: priors of both dimensions. -/
def removePriorsGeneric (cfg : Cfg G T N) (c : Chr) : M (St G T N) Unit := M.modify fun s =>
  { s with nfg := s.nfg.filter fun f =>
      match f with
      | some (.prior k _) => !isPriorOf cfg.charSigned c k
      | some (.priorAlt k _) => !isPriorOf cfg.charSigned c k
      | _ => true }

/-- `Pcm::removePriorFactorsWithPrefix`, Pcm.h:387-408: priors of the solver's own pose type. -/
def removePriorsPcm (cfg : Cfg G T N) (env : Env G N) (c : Chr) : M (St G T N) Unit := do
  onPcm (M.modify fun p =>
    { p with special := p.special.filter fun f =>
        match f with
        | .prior k _ => !isPriorOf cfg.charSigned c k
        | _ => true })
  rebuild env

/-- `RobustSolver::removePriorFactorsWithPrefix`, RobustSolver.cpp:371-381. -/
def removePriors (cfg : Cfg G T N) (env : Env G N) (c : Chr) (opt : Bool) : M (St G T N) Unit := do
  M.cond cfg.rejection (removePriorsPcm cfg env c) (removePriorsGeneric cfg c)
  M.when opt (optimize cfg env)

/-- The part of `Pcm::removeLastLoopClosure(id, …)` that works on `loop_closures_[id]`, Pcm.h:306-336;
`none` result: return NULL without rebuilding. -/
def removeLastMeas : M (Meas G N) EdgePtr := fun m =>
  if m.adj.n = 0 then .ok m none                                                    -- lines 306-309
  else match m.factors.getLast? with
    | none => .throw m .outOfRange                                                  -- line 311: factors[-1]
    | some last =>
      let m := { m with factors := m.factors.dropLast }                             -- line 314
      if m.factors.length < 2 then .ok { m with cons := m.factors } (some (last.k1, last.k2))
      else
        match measInliers { m with adj := ⟨m.adj.n - 1, m.adj.e⟩ } with             -- lines 320-335
        | .ok m _ => .ok m (some (last.k1, last.k2))
        | .throw m e => .throw m e
        | .ub u => .ub u

/-- `Pcm::removeLastLoopClosure(id, …)`, Pcm.h:299-340. -/
def removeLastOfPair (env : Env G N) (id : ObsId) : M (St G T N) EdgePtr := do
  let s ← M.get
  match AList.get? ObsId.eqv s.pcm.lcs id with                                      -- lines 302-304
  | none => M.pure none
  | some _ => do
    let e ← onPcm (M.zoom (fun p => lcOf p id) (fun m p => updLc p id (fun _ => m)) removeLastMeas)
    match e with
    | none => M.pure none
    | some e => do
      rebuild env
      M.pure (some e)

/-- `Pcm::removeLastLoopClosure(…)`, Pcm.h:346-353. -/
def removeLastPcm (env : Env G N) : M (St G T N) EdgePtr := do
  let s ← M.get
  match s.pcm.inOrder.getLast? with
  | none => M.pure none
  | some id => do
    onPcm (M.modify fun p => { p with inOrder := p.inOrder.dropLast })
    removeLastOfPair env id

/-- `RobustSolver::removeLastLoopClosure(p, q)`, RobustSolver.cpp:383-395. -/
def removeLastLC2 (cfg : Cfg G T N) (env : Env G N) (a b : Chr) : M (St G T N) EdgePtr := do
  let e ← M.cond cfg.rejection (removeLastOfPair env ⟨a, b⟩) removeLastFactor
  optimize cfg env
  M.pure e

/-- `RobustSolver::removeLastLoopClosure()`, RobustSolver.cpp:397-408. -/
def removeLastLC (cfg : Cfg G T N) (env : Env G N) : M (St G T N) EdgePtr := do
  let e ← M.cond cfg.rejection (removeLastPcm env) removeLastFactor
  optimize cfg env
  M.pure e

/-- `Pcm::ignoreLoopClosureWithPrefix`, Pcm.h:357-365. -/
def ignorePcm (env : Env G N) (c : Chr) : M (St G T N) Unit := do
  onPcm (M.modify fun p =>
    if p.ignored.contains c then p else { p with ignored := p.ignored ++ [c] })
  rebuild env

/-- `RobustSolver::ignorePrefix`, RobustSolver.cpp:410-421. -/
def ignorePrefix (cfg : Cfg G T N) (env : Env G N) (c : Chr) : M (St G T N) Unit := do
  M.when cfg.rejection (ignorePcm env c)
  optimize cfg env

/-- `Pcm::reviveLoopClosureWithPrefix`, Pcm.h:369-377. -/
def revivePcm (env : Env G N) (c : Chr) : M (St G T N) Unit := do
  onPcm (M.modify fun p => { p with ignored := p.ignored.filter (fun x => !(x == c)) })
  rebuild env

/-- `RobustSolver::revivePrefix`, RobustSolver.cpp:423-434. -/
def revivePrefix (cfg : Cfg G T N) (env : Env G N) (c : Chr) : M (St G T N) Unit := do
  M.when cfg.rejection (revivePcm env c)
  optimize cfg env

/-- `RobustSolver::getIgnoredPrefixes`, RobustSolver.cpp:436-446. -/
def getIgnored (cfg : Cfg G T N) (s : St G T N) : List Chr := if cfg.rejection then s.pcm.ignored else []

/-! ### Public interface as operations -/

/-- Calls on a `RobustSolver`, including the public functions inherited from `GenericSolver`. -/
inductive Op (G N : Type) where
  | update (fs : Graph G N) (vs : Vals G) (opt : Bool)
  | forceUpdate (fs : Graph G N) (vs : Vals G)
  | removePriors (c : Chr) (opt : Bool)
  | removeLastPair (a b : Chr)
  | removeLast
  | ignore (c : Chr)
  | revive (c : Chr)
  | getNumLC
  | getNumLCInliers
  | saveData
  | removeFactors (is : List Nat)
  | removeLastFactor
  | removePriorsGeneric (c : Chr)
  | updateValues (vs : Vals G)
  | genericUpdate (fs : Graph G N) (vs : Vals G) (rm : List Nat)
  /-- `updateTempFactorsValues`, GenericSolver.h:50-55 -/
  | tempUpdate (fs : Graph G N) (vs : Vals G)
  /-- `replaceTempFactorsValues`, GenericSolver.h:56-61 -/
  | tempReplace (fs : Graph G N) (vs : Vals G)
  /-- `clearTempFactorsValues`, GenericSolver.h:62-65 -/
  | tempClear

/-- Value returned by a call. -/
inductive Ret where
  | unit
  | num (n : Nat)
  | edge (e : EdgePtr)
deriving DecidableEq, Repr

/-- Replace the returned value. -/
def M.ret {σ α β : Type} (m : M σ α) (f : α → β) : M σ β := M.bind m fun a => M.pure (f a)

/-- Execution of one call. -/
def exec (cfg : Cfg G T N) (env : Env G N) : Op G N → M (St G T N) Ret
  | .update fs vs opt => (update cfg env fs vs opt).ret fun _ => .unit
  | .forceUpdate fs vs => (forceUpdate cfg env fs vs).ret fun _ => .unit
  | .removePriors c opt => (removePriors cfg env c opt).ret fun _ => .unit
  | .removeLastPair a b => (removeLastLC2 cfg env a b).ret .edge
  | .removeLast => (removeLastLC cfg env).ret .edge
  | .ignore c => (ignorePrefix cfg env c).ret fun _ => .unit
  | .revive c => (revivePrefix cfg env c).ret fun _ => .unit
  | .getNumLC => (getNumLC cfg).ret .num
  | .getNumLCInliers => (getNumLCInliers cfg).ret .num
  | .saveData => saveData.ret fun _ => .unit
  | .removeFactors is => (removeFactors is).ret fun _ => .unit
  | .removeLastFactor => removeLastFactor.ret .edge
  | .removePriorsGeneric c => (removePriorsGeneric cfg c).ret fun _ => .unit
  | .updateValues vs => (applyResult vs).ret fun _ => .unit
  | .genericUpdate fs vs rm => (genericUpdate env fs vs rm).ret fun _ => .unit
  | .tempUpdate fs vs => M.bind (M.modify fun s => { s with tempNfg := s.tempNfg ++ fs }) fun _ =>
      (M.zoom (fun s => s.tempValues) (fun v s => { s with tempValues := v }) (insertVals vs)).ret fun _ => .unit
  | .tempReplace fs vs => (M.modify fun s => { s with tempNfg := fs, tempValues := vs }).ret fun _ => .unit
  | .tempClear => (M.modify fun s => { s with tempNfg := [], tempValues := [] }).ret fun _ => .unit

/-- A freshly constructed solver, RobustSolver.cpp:29-34, GenericSolver.cpp:21-28. -/
def St.init : St G T N := {}

/-- `Reach cfg env h s`: the calls `h` (in order) can leave a solver in state `s`. Calls that threw an exception
are included, with the state they left behind. -/
inductive Reach (cfg : Cfg G T N) (env : Env G N) : List (Op G N) → St G T N → Prop where
  | init : Reach cfg env [] St.init
  | ok {h s op s' r} : Reach cfg env h s → exec cfg env op s = .ok s' r → Reach cfg env (h ++ [op]) s'
  | throw {h s op s' e} : Reach cfg env h s → exec cfg env op s = .throw s' e → Reach cfg env (h ++ [op]) s'

end RPGO
