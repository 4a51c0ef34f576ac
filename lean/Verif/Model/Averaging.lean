import Verif.Model.Norms
/-
Model of `gncRobustPoseAveraging`, /repo/include/KimeraRPGO/outlier/Pcm.h:1093-1131: the averaging problem handed to GTSAM's
GNC optimizer. The optimizer itself is external.
-/

namespace RPGO

/-- `MultiRobotAlignMethod`, SolverParams.h:26-30. -/
inductive AlignMethod where
  | none | l2 | gnc
deriving DecidableEq, Repr

/-- `v.head(n).setConstant(c)` -/
def setHead {K : Type} (n : Nat) (c : K) (v : List K) : List K := List.replicate n c ++ v.drop n
/-- `v.tail(n).setConstant(c)` -/
def setTail {K : Type} (n : Nat) (c : K) (v : List K) : List K := v.take (v.length - n) ++ List.replicate n c

/-- `getDim<T>()`, GeometryUtils.h:44-50: 3 for `Pose2`, 6 for `Pose3`. -/
def Dim.dim : Dim → Nat
  | .two => 3
  | .three => 6

/-- The standard deviations, Pcm.h:1103-1106. The entries after `resize` are unspecified; `0` stands for them. -/
def avgSigmas {K : Type} [Zero K] (d : Dim) (rot trans : K) : List K :=
  setTail d.trans trans (setHead d.rot rot (List.replicate d.dim 0))

/-- `PriorFactor<poseT>(0, pose, Diagonal::Sigmas(sigmas))`, Pcm.h:1111: the measured pose and the standard deviations. -/
structure AvgFactor (G K : Type) where
  pose : G
  sigmas : List K
deriving DecidableEq

/-- How the largest cost of an inlier is set: `setInlierCostThresholds(max double)`, which no cost exceeds, or
`setInlierCostThresholdsAtProbability(p)`. -/
inductive AvgThreshold (K : Type) where
  | unlimited
  | atProbability (p : K)
deriving DecidableEq

/-- What the optimizer is given: initial pose, factors, threshold. -/
structure AvgProblem (G K : Type) where
  init : G
  factors : List (AvgFactor G K)
  threshold : AvgThreshold K

/-- `gncRobustPoseAveraging(input_poses)` with its default arguments 0.1 and 0.5, Pcm.h:1093-1127. For a method that is
neither L2 nor GNC the threshold stays as GTSAM's constructor sets it, probability 0.99. -/
def avgProblem {G K : Type} [One G] [Field K] (d : Dim) (method : AlignMethod) (prob : K) (poses : List G) : AvgProblem G K where
  init := 1
  factors := poses.map fun g => ⟨g, avgSigmas d (1 / 10) (5 / 10)⟩
  threshold := match method with
    | .l2 => .unlimited
    | .gnc => .atProbability prob
    | .none => .atProbability (99 / 100)

/-- The environment whose averaging is `gncRobustPoseAveraging` with optimizer `solve` (`none`: it throws). -/
def Env.averaging {G N K : Type} [One G] [Field K] (env : Env G N) (d : Dim) (method : AlignMethod) (prob : K)
    (solve : AvgProblem G K → Option G) : Env G N :=
  { env with avg := fun cs => solve (avgProblem d method prob cs) }

/-- The whitened error of a factor at pose `x`: the components of `traits<T>::Local(x, pose)` divided by the standard
deviations (GTSAM's `PriorFactor::evaluateError` and `Diagonal::whiten`; the sign of the error does not matter below).
External to the repository. -/
def AvgFactor.whitened {G K : Type} [Field K] (f : AvgFactor G K) (loc : G → G → List K) (x : G) : List K :=
  List.zipWith (· / ·) (loc x f.pose) f.sigmas

/-- Twice `NonlinearFactor::error`: the squared length of the whitened error. External to the repository. -/
def AvgFactor.cost {G K : Type} [Field K] (f : AvgFactor G K) (loc : G → G → List K) (x : G) : K :=
  ((f.whitened loc x).map fun e => e * e).sum

/-- The cost of all factors. -/
def AvgProblem.cost {G K : Type} [Field K] (P : AvgProblem G K) (loc : G → G → List K) (x : G) : K :=
  (P.factors.map fun f => f.cost loc x).sum

end RPGO
