import Verif.Model.State
/-
Model of /repo/include/KimeraRPGO/outlier/Pcm.h and of `Trajectory` in utils/GraphUtils.h.
Messages, timing and log files are left out.
-/

namespace RPGO
variable {G T N : Type}

/-- `isSpecialSymbol`, Pcm.h:506-511 -/
def Cfg.isSpecial (cfg : Cfg G T N) (c : Chr) : Bool := cfg.special.any (fun x => x == c)

/-! ### Trajectories -/

/-- Value of `poses[k]`: `std::map::operator[]` yields a default-constructed pose for a missing key. -/
def look (ops : Ops G T N) (tr : KMap T) (k : Key) : T := (tr.find? k).getD ops.dflt

/-- Effect of `poses[k]` on the map: a missing key is inserted with a default-constructed pose. -/
def touch (ops : Ops G T N) (tr : KMap T) (k : Key) : KMap T :=
  match tr.find? k with
  | some _ => tr
  | none => tr.set k ops.dflt

/-- `Trajectory::getBetween`, GraphUtils.h:37-58: the map afterwards and the result. -/
def getBetween (ops : Ops G T N) (tr : KMap T) (a b : Key) : KMap T × T :=
  if chr a = chr b then
    (touch ops (touch ops tr a) b, ops.between (look ops tr a) (look ops tr b))
  else
    let a0 := rootKey (chr a)
    let b0 := rootKey (chr b)
    let poseA := ops.between (look ops tr a0) (look ops tr a)
    let poseB := ops.between (look ops tr b0) (look ops tr b)
    let poseA0B0 := ops.between (look ops tr a0) (look ops tr b0)
    (touch ops (touch ops (touch ops (touch ops tr a0) a) b0) b,
      ops.compose (ops.compose (ops.inverse poseA) poseA0B0) poseB)

/-- `odom_trajectories_[c]` as a value. -/
def trajOf (p : Pcm G T N) (c : Chr) : KMap T := (AList.get? (· == ·) p.trajs c).getD []

/-- `odom_trajectories_[c] = tr`. -/
def setTraj (p : Pcm G T N) (c : Chr) (tr : KMap T) : Pcm G T N :=
  { p with trajs := AList.upd (· == ·) [] p.trajs c (fun _ => tr) }

/-- `odom_trajectories_[c].getBetween(a, b)`; `c` is inserted if missing. -/
def trajBetween (cfg : Cfg G T N) (c : Chr) (a b : Key) : M (Pcm G T N) T := fun p =>
  let r := getBetween cfg.ops (trajOf p c) a b
  .ok (setTraj p c r.1) r.2

/-- `T<poseT>(factor)`: the noise model is cast to `noiseModel::Gaussian` without a null check
(GeometryUtils.h:93-96, 223-226). -/
def toT (cfg : Cfg G T N) (b : Btw G N) : M (Pcm G T N) T :=
  match b.noise with
  | none => M.undef .nullDeref
  | some n => M.pure (cfg.ops.ofFactor b.m n)

/-- `updateOdom`, Pcm.h:516-557; `vals` is `output_values`. -/
def updateOdom (cfg : Cfg G T N) (vals : Vals G) (b : Btw G N) : M (Pcm G T N) Unit := do
  M.modify fun p => { p with odom := p.odom ++ [b] }                    -- line 522
  let c := chr b.k2                                                     -- lines 528-529
  let delta ← toT cfg b                                                 -- line 532
  let p ← M.get
  match AList.get? (· == ·) p.trajs c with                              -- line 534
  | some _ => M.pure ()
  | none =>
    match vals.find? b.k1 with                                          -- line 537, Values::at
    | none => M.raise .keyMissing
    | some (.other _) => M.raise .wrongType
    | some (.pose g) =>
      M.modify fun p =>
        { setTraj p c [(b.k1, cfg.ops.ofPose g)] with                   -- line 539
          robotOrder := p.robotOrder ++ [c] }                           -- line 541
  M.modify fun p =>
    let tr := touch cfg.ops (trajOf p c) b.k1                           -- line 547
    let prev := look cfg.ops tr b.k1
    setTraj p c (tr.set b.k2 (cfg.ops.compose prev delta))              -- lines 553-556

/-! ### Consistency checks -/

/-- `isOdomConsistent`, Pcm.h:604-629. -/
def isOdomConsistent (cfg : Cfg G T N) (b : Btw G N) : M (Pcm G T N) Bool :=
  if !cfg.odomCheck then M.pure true else do
  let pij ← trajBetween cfg (chr b.k1) b.k1 b.k2
  let lc ← toT cfg b
  M.pure (cfg.ops.odomOk (cfg.ops.compose pij (cfg.ops.inverse lc)))

/-- `areLoopsConsistent`, Pcm.h:670-718. -/
def areLoopsConsistent (cfg : Cfg G T N) (x y : Btw G N) : M (Pcm G T N) Bool :=
  if !cfg.loopCheck then M.pure true else do
  let ab ← toT cfg x
  let cd ← toT cfg y
  let a := x.k1
  let b := x.k2
  -- lines 691-698: exchange the keys (not the measurement) if the prefixes of a and c differ
  let c := if chr a ≠ chr y.k1 then y.k2 else y.k1
  let d := if chr a ≠ chr y.k1 then y.k1 else y.k2
  let ac ← trajBetween cfg (chr a) a c
  let bd ← trajBetween cfg (chr b) b d
  let ad := cfg.ops.compose ac cd
  let db := cfg.ops.compose (cfg.ops.inverse ad) ab
  M.pure (cfg.ops.loopOk (cfg.ops.compose db bd))

/-- Check every factor of a list against `y`, in order. -/
def pairVerdicts (cfg : Cfg G T N) (y : Btw G N) : List (Btw G N) → M (Pcm G T N) (List Bool)
  | [] => M.pure []
  | x :: xs => do
    let v ← areLoopsConsistent cfg x y
    let vs ← pairVerdicts cfg y xs
    M.pure (v :: vs)

/-- `MatrixXd::Zero(n, n)` -/
def Mat.zero (n : Nat) : Mat := ⟨n, fun _ _ => false⟩

/-- The matrix grown by one row and column holding the verdicts, Pcm.h:739-766 and 778-842: the top-left
corner is the old matrix; entries `(n, i)` and `(i, n)` are 1 iff verdict `i` is true; all others are 0. -/
def Mat.grow (A : Mat) (vs : List Bool) : Mat :=
  ⟨A.n + 1, fun i j =>
    if i < A.n then
      (if j < A.n then A.e i j else if j = A.n then vs[i]? == some true else false)
    else if i = A.n then vs[j]? == some true
    else false⟩

/-- `loop_closures_[id]` as a value -/
def lcOf (p : Pcm G T N) (id : ObsId) : Meas G N := (AList.get? ObsId.eqv p.lcs id).getD Meas.empty

/-- in-place update of `loop_closures_[id]` -/
def updLc (p : Pcm G T N) (id : ObsId) (f : Meas G N → Meas G N) : Pcm G T N :=
  { p with lcs := AList.upd ObsId.eqv Meas.empty p.lcs id f }

/-- `landmarks_[k]` as a value -/
def lmOf (p : Pcm G T N) (k : Key) : Meas G N := (AList.get? (· == ·) p.landmarks k).getD Meas.empty

/-- in-place update of `landmarks_[k]` -/
def updLm (p : Pcm G T N) (k : Key) (f : Meas G N → Meas G N) : Pcm G T N :=
  { p with landmarks := AList.upd (· == ·) Meas.empty p.landmarks k f }

/-- `incrementAdjMatrix`, Pcm.h:725-768; called after `y` has been added to `loop_closures_[id].factors`.
Assigning a matrix to a corner of a different size (line 743) is undefined. -/
def incrementAdj (cfg : Cfg G T N) (id : ObsId) (y : Btw G N) : M (Pcm G T N) Unit := do
  let p ← M.get
  let m := lcOf p id
  let num := m.factors.length
  if num ≤ 1 then M.modify fun p => updLc p id fun m => { m with adj := Mat.zero num }
  else if m.adj.n ≠ num - 1 then M.undef .eigen
  else do
    let vs ← pairVerdicts cfg y (m.factors.take (num - 1))
    M.modify fun p => updLc p id fun m => { m with adj := m.adj.grow vs }

/-- Body of the loop over the earlier observations in `incrementLandmarkAdjMatrix`, Pcm.h:794-840; `none` is
the early `return` at line 807. -/
def landmarkVerdicts (cfg : Cfg G T N) (l : Key) (y : Btw G N) :
    List (Btw G N) → M (Pcm G T N) (Option (List Bool))
  | [] => M.pure (some [])
  | x :: xs =>
    if x.k1 = l ∨ y.k1 = l then M.pure none
    else do
      let il ← toT cfg x
      let jl ← toT cfg y
      let ij ← trajBetween cfg (chr x.k1) x.k1 y.k1
      let path := cfg.ops.compose ij jl
      let v := cfg.ops.loopOk (cfg.ops.compose (cfg.ops.inverse path) il)
      let vs ← landmarkVerdicts cfg l y xs
      M.pure (vs.map (v :: ·))

/-- `incrementLandmarkAdjMatrix`, Pcm.h:775-844. -/
def incrementLandmarkAdj (cfg : Cfg G T N) (l : Key) : M (Pcm G T N) Unit := do
  let p ← M.get
  let m := lmOf p l
  let num := m.factors.length
  match m.factors.getLast? with
  | none => M.modify fun p => updLm p l fun m => { m with adj := Mat.zero num }
  | some y =>
    if num ≤ 1 then M.modify fun p => updLm p l fun m => { m with adj := Mat.zero num }
    else if m.adj.n ≠ num - 1 then M.undef .eigen                        -- line 782
    else do
      let r ← landmarkVerdicts cfg l y (m.factors.take (num - 1))
      match r with
      | none => M.pure ()                                               -- early return: matrix not stored
      | some vs => M.modify fun p => updLm p l fun m => { m with adj := m.adj.grow vs }

/-! ### Inlier selection -/

/-- `for (i < n) consistent_factors.add(factors[inliers_idx[i]])`: `inliers_idx[i]` out of range is
undefined, `factors[…]` out of range throws. `acc` holds the consistent factors added so far. -/
def pick (factors : List (Btw G N)) (n : Nat) : List Nat → List (Btw G N) → Out (List (Btw G N)) Unit
  | [], acc => if n = acc.length then .ok acc () else .ub .vecIndex
  | i :: is, acc =>
    if n = acc.length then .ok acc ()
    else match factors[i]? with
      | none => .throw acc .outOfRange
      | some f => pick factors n is (acc ++ [f])

/-- `size_t num = findMaxCliqueHeu(adj, &idx)`, then rebuild `consistent_factors`: Pcm.h:862-869, 882-892,
326-335, 953-963. A result of −1 becomes 2⁶⁴ − 1. Returns the number. -/
def measInliers (m : Meas G N) : Out (Meas G N) Nat :=
  match findMaxCliqueHeu m.adj [] with
  | none => .ub .vecIndex
  | some (k, idx) =>
    let num := if k < 0 then 2 ^ 64 - k.natAbs else k.toNat
    match pick m.factors num idx [] with
    | .ok c _ => .ok { m with cons := c } num
    | .throw c e => .throw { m with cons := c } e
    | .ub u => .ub u

/-- Loop-closure part of the body of `findInliers`, Pcm.h:861-873. -/
def lcInliers (cfg : Cfg G T N) (m : Meas G N) : Out (Meas G N) Nat :=
  if cfg.loopCheck then measInliers m
  else .ok { m with cons := m.factors } m.factors.length

/-- `while (it != map.end()) { …; total_good_lc_ += num; }`, Pcm.h:857-876, 879-895, 950-966. The entries are
visited in insertion order here; since each iteration touches only its own entry, another order makes a
difference only to which entries have been recomputed when an exception leaves the loop. -/
def inlierPass {κ : Type} (f : Meas G N → Out (Meas G N) Nat) :
    List (κ × Meas G N) → Nat → Out (List (κ × Meas G N) × Nat) Unit
  | [], good => .ok ([], good) ()
  | (k, m) :: t, good =>
    match f m with
    | .ub u => .ub u
    | .throw m' e => .throw ((k, m') :: t, good) e
    | .ok m' n =>
      match inlierPass f t (good + n) with
      | .ub u => .ub u
      | .throw (t', g') e => .throw ((k, m') :: t', g') e
      | .ok (t', g') _ => .ok ((k, m') :: t', g') ()

/-- The pass over `loop_closures_`. -/
def lcPass (cfg : Cfg G T N) : M (Pcm G T N) Unit :=
  M.zoom (fun p => (p.lcs, p.totalGood)) (fun r p => { p with lcs := r.1, totalGood := r.2 })
    fun r => inlierPass (lcInliers cfg) r.1 r.2

/-- The pass over `landmarks_`. -/
def lmPass : M (Pcm G T N) Unit :=
  M.zoom (fun p => (p.landmarks, p.totalGood)) (fun r p => { p with landmarks := r.1, totalGood := r.2 })
    fun r => inlierPass measInliers r.1 r.2

/-- `findInliers`, Pcm.h:851-899. -/
def findInliers (cfg : Cfg G T N) : M (Pcm G T N) Unit := do
  M.modify fun p => { p with totalGood := 0 }
  lcPass cfg
  lmPass

/-- Body of the first loop of `findInliersIncremental`, Pcm.h:916-940, for one robot pair with `numNew` new
closures. -/
def incInliers (numNew : Nat) (m : Meas G N) : Out (Meas G N) Unit :=
  match findMaxCliqueHeuIncremental m.adj numNew m.cons.length [] with
  | none => .ub .vecIndex
  | some (num, idx) =>
    if num > 0 then
      match pick m.factors num idx [] with
      | .ok c _ => .ok { m with cons := c } ()
      | .throw c e => .throw { m with cons := c } e
      | .ub u => .ub u
    else .ok m ()

/-- `findInliersIncremental`, Pcm.h:906-970. -/
def findInliersIncremental (numNew : List (ObsId × Nat)) : M (Pcm G T N) Unit := do
  M.modify fun p => { p with totalGood := 0 }
  M.forEach
    (fun (idn : ObsId × Nat) =>
      M.zoom (fun p => lcOf p idn.1) (fun m p => updLc p idn.1 (fun _ => m)) (incInliers idn.2))
    numNew
  M.modify fun p => { p with totalGood := p.totalGood + (p.lcs.map (fun e => e.2.cons.length)).sum }
  lmPass

/-! ### The graph handed to the optimizer -/

/-- `buildGraphToOptimize`, Pcm.h:977-1005. -/
def buildGraph (env : Env G N) (p : Pcm G T N) : Graph G N :=
  p.odom.map (fun b => some (.btw b)) ++
  p.special.map some ++
  (env.iterLC p.lcs).flatMap (fun e =>
    if !p.ignored.contains e.1.id1 && !p.ignored.contains e.1.id2 then
      e.2.cons.map (fun b => some (.btw b)) else []) ++
  (env.iterLM p.landmarks).flatMap (fun e => e.2.cons.map (fun b => some (.btw b)))

/-! ### Processing new measurements -/

/-- `FactorType`, Pcm.h:43-50 (`UNCLASSIFIED` never survives the classification). -/
inductive FType where
  | odometry | firstLandmark | loopClosure | nonBetween
deriving DecidableEq, Repr

/-- Classification of a non-null factor, Pcm.h:167-198. -/
def classify (cfg : Cfg G T N) (newVals : Vals G) : Factor G N → FType
  | .btw b =>
    if cfg.isSpecial (chr b.k1) || cfg.isSpecial (chr b.k2) then
      (if newVals.has b.k1 || newVals.has b.k2 then .firstLandmark else .loopClosure)
    else if b.k1 + 1 = b.k2 ∧ newVals.has b.k2 then .odometry
    else .loopClosure
  | _ => .nonBetween

/-- The key under which a landmark observation is filed, Pcm.h:214-217 and 443-445. -/
def landmarkKey (cfg : Cfg G T N) (b : Btw G N) : Key := if cfg.isSpecial (chr b.k1) then b.k1 else b.k2

/-- The loop over the new factors, Pcm.h:164-240; `vals` is `*output_values`. Carries the candidates collected
so far and `do_optimize`. -/
def sortFactors (cfg : Cfg G T N) (newVals vals : Vals G) :
    Graph G N → List (Btw G N) → Bool → M (Pcm G T N) (List (Btw G N) × Bool)
  | [], lcs, opt => M.pure (lcs, opt)
  | none :: fs, lcs, opt => sortFactors cfg newVals vals fs lcs opt
  | some f :: fs, lcs, opt =>
    match classify cfg newVals f, f with
    | .odometry, .btw b => do
      updateOdom cfg vals b
      sortFactors cfg newVals vals fs lcs opt
    | .firstLandmark, .btw b => do
      M.modify fun p =>
        { updLm p (landmarkKey cfg b) (fun _ => ⟨[b], [b], Mat.zero 1⟩) with totalLc := p.totalLc + 1 }
      sortFactors cfg newVals vals fs lcs opt
    | .loopClosure, .btw b =>
      if b.k1 ≠ b.k2 then sortFactors cfg newVals vals fs (lcs ++ [b]) opt
      else sortFactors cfg newVals vals fs lcs opt
    | _, f => do
      M.modify fun p => { p with special := p.special ++ [f] }
      sortFactors cfg newVals vals fs lcs true

/-- `num_new_loopclosures` incremented for `id`, Pcm.h:474-480. -/
def bump (id : ObsId) (l : List (ObsId × Nat)) : List (ObsId × Nat) := AList.upd ObsId.eqv 0 l id (· + 1)

/-- Registration of a landmark observation, Pcm.h:437-455. -/
def registerLm (cfg : Cfg G T N) (b : Btw G N) : M (Pcm G T N) Unit := do
  M.modify fun p =>
    { updLm p (landmarkKey cfg b) (fun m => { m with factors := m.factors ++ [b] }) with totalLc := p.totalLc + 1 }
  incrementLandmarkAdj cfg (landmarkKey cfg b)

/-- Registration of a loop closure between poses, Pcm.h:466-488. -/
def registerLc (cfg : Cfg G T N) (b : Btw G N) : M (Pcm G T N) Unit := do
  M.modify fun p =>
    { updLc p ⟨chr b.k1, chr b.k2⟩ (fun m => { m with factors := m.factors ++ [b] }) with
      inOrder := p.inOrder ++ [⟨chr b.k1, chr b.k2⟩]
      totalLc := p.totalLc + 1 }
  M.when cfg.loopCheck (incrementAdj cfg ⟨chr b.k1, chr b.k2⟩ b)

/-- `parseAndIncrementAdjMatrix`, Pcm.h:414-502; carries `num_new_loopclosures`. -/
def parseLoops (cfg : Cfg G T N) (vals : Vals G) :
    List (Btw G N) → List (ObsId × Nat) → M (Pcm G T N) (List (ObsId × Nat))
  | [], num => M.pure num
  | b :: bs, num =>
    if !(vals.has b.k1) || !(vals.has b.k2) then parseLoops cfg vals bs num           -- lines 431-435
    else if cfg.isSpecial (chr b.k1) || cfg.isSpecial (chr b.k2) then do
      registerLm cfg b
      parseLoops cfg vals bs num
    else do
      let ok ← M.cond (chr b.k1 == chr b.k2) (isOdomConsistent cfg b) (M.pure true)   -- lines 455-464
      if ok then do
        registerLc cfg b
        parseLoops cfg vals bs (bump ⟨chr b.k1, chr b.k2⟩ num)
      else parseLoops cfg vals bs num

/-! ### Values -/

/-- `Values::insert(const Values&)`: inserts entry by entry, throws at the first key that exists. -/
def insertVals : Vals G → M (Vals G) Unit
  | [] => M.pure ()
  | (k, v) :: t => fun vals =>
    if vals.has k then .throw vals .keyExists else insertVals t (vals.set k v)

/-- Do two stored values have the same type? -/
def Val.sameType : Val G → Val G → Bool
  | .pose _, .pose _ => true
  | .other _, .other _ => true
  | _, _ => false

/-- `Values::update(const Values&)`: entry by entry; throws if a key is missing or the type differs. -/
def updateVals : Vals G → M (Vals G) Unit
  | [] => M.pure ()
  | (k, v) :: t => fun vals =>
    match vals.find? k with
    | none => .throw vals .keyMissing
    | some v' => if v'.sameType v then updateVals t (vals.set k v) else .throw vals .wrongType

/-! ### Multi-robot frame alignment -/

section Align
variable [Mul G] [Inv G] [One G]

/-- `getRobotOdomValues(c, X)`, Pcm.h:1080-1088, for a robot whose trajectory is `tr`. -/
def robotOdomValues (cfg : Cfg G T N) (tr : KMap T) (X : G) : Vals G :=
  tr.map (fun e => (e.1, .pose (X * cfg.ops.pose e.2)))

/-- The candidate offset given by one closure, Pcm.h:1042-1061; `none`: `poses.at` throws `out_of_range`. -/
def alignCandidate (cfg : Cfg G T N) (p : Pcm G T N) (r0 ri : Chr) (b : Btw G N) : Option G :=
  let swap : Bool := ucharVal (chr b.k1) ≠ charVal cfg.charSigned r0            -- line 1047
  let front := if swap then b.k2 else b.k1
  let back := if swap then b.k1 else b.k2
  let Tfb := if swap then b.m⁻¹ else b.m
  match (trajOf p r0).find? front, (trajOf p ri).find? back with
  | some f, some k => some (cfg.ops.pose f * Tfb * (cfg.ops.pose k)⁻¹)
  | _, _ => none

/-- All candidates of a list of closures; `none` if any lookup throws. -/
def alignCandidates (cfg : Cfg G T N) (p : Pcm G T N) (r0 ri : Chr) : List (Btw G N) → Option (List G)
  | [] => some []
  | b :: bs =>
    match alignCandidate cfg p r0 ri b, alignCandidates cfg p r0 ri bs with
    | some g, some gs => some (g :: gs)
    | _, _ => none

/-- Insertion of a robot in the order of `char` comparison. -/
def insertRobot (signed : Bool) (c : Chr) : List Chr → List Chr
  | [] => [c]
  | d :: t => if charVal signed c ≤ charVal signed d then c :: d :: t else d :: insertRobot signed c t

/-- `std::sort(robot_order_)`, Pcm.h:1019 -/
def sortRobots (signed : Bool) (l : List Chr) : List Chr := l.foldr (insertRobot signed) []

/-- One iteration of the loop over the other robots, Pcm.h:1027-1071, on `initialized_values`. The exception
`out_of_range` of a missing pair or pose is caught; others leave the function. -/
def alignRobot (cfg : Cfg G T N) (env : Env G N) (p : Pcm G T N) (r0 ri : Chr) : M (Vals G) Unit := fun vals =>
  match AList.get? ObsId.eqv p.lcs ⟨r0, ri⟩ with
  | none => .ok vals ()
  | some m =>
    match alignCandidates cfg p r0 ri m.cons with
    | none => .ok vals ()
    | some cs =>
      match env.avg cs with
      | none => .throw vals .optimizer
      | some X => updateVals (robotOdomValues cfg (trajOf p ri) X) vals

/-- `multirobotValueInitialization`, Pcm.h:1011-1074, given the sorted robot order. -/
def alignValues (cfg : Cfg G T N) (env : Env G N) (p : Pcm G T N) : List Chr → M (Vals G) Unit
  | [] => M.pure ()
  | r0 :: rs => do
    updateVals (robotOdomValues cfg (trajOf p r0) 1)
    M.forEach (alignRobot cfg env p r0) rs

end Align

end RPGO
