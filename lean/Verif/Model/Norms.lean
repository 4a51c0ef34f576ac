import Verif.Model.Params
/-
Model of the error norms of /repo/include/KimeraRPGO/utils/GeometryUtils.h in terms of tangent vectors, for the two pose
types. A tangent vector is the list of its components in the order in which GTSAM stores them.
-/

namespace RPGO

/-- The pose types the library is instantiated with, Pcm.h:1168-1171. -/
inductive Dim where
  | two | three
deriving DecidableEq, Repr

namespace Dim
/-- `getRotationDim<T>()`, GeometryUtils.h:28-34: 1 for `Pose2`, 3 for `Pose3`. -/
def rot : Dim → Nat
  | two => 1
  | three => 3
/-- `getTranslationDim<T>()`, GeometryUtils.h:36-42: 2 for `Pose2`, 3 for `Pose3`. -/
def trans : Dim → Nat
  | two => 2
  | three => 3
/-- The result of GTSAM's `T::Logmap` from its rotation and its translation part: `Pose2::Logmap` returns the translation
first (x, y, θ), `Pose3::Logmap` the rotation first (ω, v). External to the repository. -/
def logmap {K : Type} (d : Dim) (rot trans : List K) : List K :=
  match d with
  | two => trans ++ rot
  | three => rot ++ trans
end Dim

/-- `log.head(n)` -/
def vecHead {K : Type} (n : Nat) (v : List K) : List K := v.take n
/-- `log.tail(n)` -/
def vecTail {K : Type} (n : Nat) (v : List K) : List K := v.drop (v.length - n)

/-- The numerator of `avg_trans_norm`, GeometryUtils.h:275-280; `nrm v` is `sqrt(v.transpose() * v)`. -/
def tnOf {G K : Type} (d : Dim) (nrm : List K → K) (log : G → List K) (g : G) : K := nrm (vecTail d.trans (log g))
/-- The numerator of `avg_rot_norm`, GeometryUtils.h:282-288. -/
def rnOf {G K : Type} (d : Dim) (nrm : List K → K) (log : G → List K) (g : G) : K := nrm (vecHead d.rot (log g))

/-- The index set of the covariance block that is tested for NaN to find out whether a measurement has rotation
information, GeometryUtils.h:103 and 233: `covar.block(0, 0, r_dim, r_dim)`. -/
def Dim.nanBlock (d : Dim) : List Nat := List.range d.rot
/-- The index set of the block that is kept as translation part, GeometryUtils.h:110-111 and 179-180:
`block(r_dim, r_dim, t_dim, t_dim)`. -/
def Dim.keptBlock (d : Dim) : List Nat := (List.range d.trans).map (d.rot + ·)

end RPGO
