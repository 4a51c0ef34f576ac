import Verif.Model.Geometry
import Mathlib.LinearAlgebra.Matrix.PosDef
import Mathlib.Analysis.RCLike.Basic
/-
The covariance operations with actual matrices: covariances are real `n × n` matrices, poses act on them
through their adjoint representation `Ad`, a homomorphism into the `n × n` matrices.
-/

namespace RPGO
open Matrix

/-- `CovEnv` for real matrices. `t i` says that component `i` is a translation component (GeometryUtils.h:
100-112). The Mahalanobis norms stay arbitrary. -/
noncomputable def matEnv {G K n : Type} [Group G] [Fintype n] [DecidableEq n] (Ad : G →* Matrix n n ℝ)
    (t : n → Bool) (maha mahaT : G → Matrix n n ℝ → Option K) : CovEnv G (Matrix n n ℝ) K where
  ad g S := Ad g * S * (Ad g)ᵀ
  posDef S := by classical exact decide S.PosDef
  transPart S := Matrix.of fun i j => if t i && t j then S i j else 0
  maha := maha
  mahaT := mahaT

end RPGO
