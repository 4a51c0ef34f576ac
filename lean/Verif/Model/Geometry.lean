import Mathlib.Algebra.Group.Basic
import Mathlib.Algebra.Order.Field.Basic
/-
Model of /repo/include/KimeraRPGO/utils/GeometryUtils.h.
Poses (`gtsam::Pose2`, `Pose3`) are elements of an arbitrary group `G`: `compose` is `*`, `inverse` is `⁻¹`,
`between(a, b)` is `a⁻¹ * b`, `T()` is `1`. Distances and thresholds live in an arbitrary linearly ordered
field `K` (doubles without rounding). `none` stands for a distance that is NaN or infinite; every `<`
comparison with it is false, as for the IEEE values.
-/

namespace RPGO

/-- Gaussian noise of a between factor, as far as the code looks at it: the covariance (type `C`) and
whether the trace of its rotation block is NaN (GeometryUtils.h:103, 233). -/
structure GNoise (C : Type) where
  cov : C
  rotNaN : Bool
deriving DecidableEq, Repr

/-- What the outlier-rejection template needs from its pose type `T<poseT>` (Pcm.h:55): the template
parameter, as a record. `N` is the Gaussian noise of a factor. -/
structure Ops (G T N : Type) where
  /-- default constructor -/
  dflt : T
  /-- default constructor, then `pose = g` (Pcm.h:536-537) -/
  ofPose : G → T
  /-- constructor from a between factor with measurement and Gaussian noise -/
  ofFactor : G → N → T
  compose : T → T → T
  inverse : T → T
  /-- `a.between(b)` -/
  between : T → T → T
  pose : T → G
  /-- `checkOdomConsistent` (Pcm.h:564-596) -/
  odomOk : T → Bool
  /-- `checkLoopConsistent` (Pcm.h:638-662) -/
  loopOk : T → Bool

/-- `d < thr` for a double `d` that may be NaN or infinite. -/
def ltThr {K : Type} [LT K] [DecidableLT K] (d : Option K) (thr : K) : Bool :=
  match d with
  | none => false
  | some x => decide (x < thr)

/-- `PoseWithNode`, GeometryUtils.h:193-199. `node` is a C++ `int`, here an unbounded
integer; Props/Overflow.lean shows that it does not overflow in any run with fewer than 357 913 941 odometry factors. -/
structure PNode (G : Type) where
  pose : G
  node : Int
  rot : Bool
deriving DecidableEq, Repr

namespace PNode
variable {G : Type} [Mul G] [Inv G] [One G]

/-- GeometryUtils.h:202-205 -/
def dflt : PNode G := ⟨1, 0, true⟩
/-- GeometryUtils.h:202-205, then assignment of `pose` -/
def ofPose (g : G) : PNode G := ⟨g, 0, true⟩
/-- GeometryUtils.h:221-237 -/
def ofFactor {C : Type} (g : G) (n : GNoise C) : PNode G := ⟨g, 1, !n.rotNaN⟩
/-- GeometryUtils.h:241-249 -/
def compose (a b : PNode G) : PNode G := ⟨a.pose * b.pose, a.node + b.node, a.rot && b.rot⟩
/-- GeometryUtils.h:253-261 -/
def inverse (a : PNode G) : PNode G := ⟨a.pose⁻¹, a.node, a.rot⟩
/-- GeometryUtils.h:265-273 -/
def between (a b : PNode G) : PNode G := ⟨a.pose⁻¹ * b.pose, |b.node - a.node|, a.rot && b.rot⟩

variable {K : Type} [Field K] [LinearOrder K]

/-- A quotient `x / node` computed in double arithmetic: NaN or infinite if `node == 0`. -/
def quot (x : K) (node : Int) : Option K := if node = 0 then none else some (x / (node : K))

/-- GeometryUtils.h:275-280; `tn` is the norm of what the code takes for the translation part of `Logmap` (for `Pose2` the
components are ordered differently, see Model/Norms.lean). -/
def avgTrans (tn : G → K) (a : PNode G) : Option K := quot (tn a.pose) a.node
/-- GeometryUtils.h:282-288; `rn` is the norm of the rotation part of `Logmap`. -/
def avgRot (rn : G → K) (a : PNode G) : Option K := if a.rot then quot (rn a.pose) a.node else some 0

/-- Pcm.h:582-596 and 654-662 (the two functions differ only in the thresholds used). -/
def check (tn rn : G → K) (tThr rThr : K) (a : PNode G) : Bool :=
  ltThr (avgTrans tn a) tThr && ltThr (avgRot rn a) rThr

/-- `T = PoseWithNode`: the operations used by PcmSimple2D / PcmSimple3D. -/
def ops (C : Type) (tn rn : G → K) (odomT odomR distT distR : K) : Ops G (PNode G) (GNoise C) where
  dflt := dflt
  ofPose := ofPose
  ofFactor := ofFactor
  compose := compose
  inverse := inverse
  between := between
  pose := PNode.pose
  odomOk := check tn rn odomT odomR
  loopOk := check tn rn distT distR

end PNode

/-- `PoseWithCovariance`, GeometryUtils.h:57-62. -/
structure PCov (G C : Type) where
  pose : G
  cov : C
  rot : Bool
deriving DecidableEq, Repr

/-- What is external about covariances: `ad g S` is `Ad_g S Ad_gᵀ`, `posDef` the success of the Cholesky
factorisation, `transPart` keeps the translation block and zeroes the rest, `maha` and `mahaT` are the
Mahalanobis norms over all components and over the translation components (`none`: NaN or infinite). -/
structure CovEnv (G C K : Type) where
  ad : G → C → C
  posDef : C → Bool
  transPart : C → C
  maha : G → C → Option K
  mahaT : G → C → Option K

namespace PCov
variable {G C K : Type} [Mul G] [Inv G] [One G] [AddGroup C]

/-- GeometryUtils.h:65-71 -/
def dflt : PCov G C := ⟨1, 0, true⟩
/-- GeometryUtils.h:65-71, then assignment of `pose` -/
def ofPose (g : G) : PCov G C := ⟨g, 0, true⟩
/-- GeometryUtils.h:91-115 -/
def ofFactor (env : CovEnv G C K) (g : G) (n : GNoise C) : PCov G C :=
  if n.rotNaN then ⟨g, env.transPart n.cov, false⟩ else ⟨g, n.cov, true⟩
/-- GeometryUtils.h:119-129. GTSAM's Jacobians of `compose` are `Ha = Ad(other⁻¹)`, `Hb = I`. -/
def compose (env : CovEnv G C K) (a b : PCov G C) : PCov G C :=
  ⟨a.pose * b.pose, env.ad b.pose⁻¹ a.cov + b.cov, a.rot && b.rot⟩
/-- GeometryUtils.h:133-139 (the covariance is copied, not transported) -/
def inverse (a : PCov G C) : PCov G C := ⟨a.pose⁻¹, a.cov, a.rot⟩
/-- GeometryUtils.h:143-170. GTSAM's Jacobian of `between` is `Ha = -Ad(between⁻¹)`; the sign cancels in
`Ha * S * Haᵀ`. If the difference is not positive definite the roles of the two poses are exchanged for the
covariance only. -/
def between (env : CovEnv G C K) (a b : PCov G C) : PCov G C :=
  let r := a.pose⁻¹ * b.pose
  let c1 := b.cov - env.ad r⁻¹ a.cov
  let r' := b.pose⁻¹ * a.pose
  let c2 := a.cov - env.ad r'⁻¹ b.cov
  ⟨r, if env.posDef c1 then c1 else c2, a.rot && b.rot⟩
/-- GeometryUtils.h:172-186 -/
def norm (env : CovEnv G C K) (a : PCov G C) : Option K :=
  if a.rot then env.maha a.pose a.cov else env.mahaT a.pose a.cov

variable [LT K] [DecidableLT K]

/-- Pcm.h:564-575 and 638-645 (the two functions differ only in the threshold used). -/
def check (env : CovEnv G C K) (thr : K) (a : PCov G C) : Bool := ltThr (norm env a) thr

/-- `T = PoseWithCovariance`: the operations used by Pcm2D / Pcm3D. -/
def ops (env : CovEnv G C K) (odomThr lcThr : K) : Ops G (PCov G C) (GNoise C) where
  dflt := dflt
  ofPose := ofPose
  ofFactor := ofFactor env
  compose := compose env
  inverse := inverse
  between := between env
  pose := PCov.pose
  odomOk := check env odomThr
  loopOk := check env lcThr

end PCov

end RPGO
