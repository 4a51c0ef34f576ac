import Verif.Model.Basic
import Verif.Model.Geometry
import Verif.Model.MaxCliqueHeu
/-
Data of the solver: factors, values, the state of the outlier-rejection object (`Pcm`) and of the solver, the
configuration, and the external functions.
-/

namespace RPGO

/-- `gtsam::BetweenFactor<poseT>` for the solver's pose type: keys, measurement and noise
(`none`: a noise model that is not `noiseModel::Gaussian`, e.g. a robust one). -/
structure Btw (G N : Type) where
  k1 : Key
  k2 : Key
  m : G
  noise : Option N
deriving DecidableEq, Repr

/-- A nonlinear factor. `prior` is `PriorFactor<poseT>`, `priorAlt` the prior of the other dimension (Pose2
for a 3D solver and conversely), `other` any other factor (`tag` identifies it); it is neither a prior on a
pose nor a between factor of poses of either dimension. -/
inductive Factor (G N : Type) where
  | btw (b : Btw G N)
  | prior (k : Key) (m : G)
  | priorAlt (k : Key) (tag : Nat)
  | other (keys : List Key) (tag : Nat)
deriving DecidableEq, Repr

/-- `Factor::keys()` -/
def Factor.keys {G N : Type} : Factor G N → List Key
  | .btw b => [b.k1, b.k2]
  | .prior k _ => [k]
  | .priorAlt k _ => [k]
  | .other ks _ => ks

/-- `gtsam::NonlinearFactorGraph`: a vector of possibly null factor pointers. -/
abbrev Graph (G N : Type) := List (Option (Factor G N))

/-- A value stored in `gtsam::Values`: a pose, or something else. -/
inductive Val (G : Type) where
  | pose (g : G)
  | other (tag : Nat)
deriving DecidableEq, Repr

/-- `gtsam::Values` -/
abbrev Vals (G : Type) := KMap (Val G)

/-- `Measurements`, TypeUtils.h:16-33. `dist_matrix` always has the size of `adj_matrix` and is never read;
it is left out. -/
structure Meas (G N : Type) where
  factors : List (Btw G N)
  cons : List (Btw G N)
  adj : Mat

/-- `Measurements()`, TypeUtils.h:22-32. -/
def Meas.empty {G N : Type} : Meas G N := ⟨[], [], ⟨1, fun _ _ => false⟩⟩

/-- The members of `Pcm`, Pcm.h:91-132, that are not constant. The members at lines 119-122 are never used. -/
structure Pcm (G T N : Type) where
  /-- `nfg_odom_` -/
  odom : List (Btw G N) := []
  /-- `nfg_special_` -/
  special : List (Factor G N) := []
  /-- `loop_closures_` -/
  lcs : List (ObsId × Meas G N) := []
  /-- `odom_trajectories_` (GraphUtils.h:29-31: a `std::map` of poses per robot) -/
  trajs : List (Chr × KMap T) := []
  /-- `landmarks_` -/
  landmarks : List (Key × Meas G N) := []
  /-- `loop_closures_in_order_` -/
  inOrder : List ObsId := []
  /-- `total_lc_` (a `size_t`; overflow is not modelled) -/
  totalLc : Nat := 0
  /-- `total_good_lc_` -/
  totalGood : Nat := 0
  /-- `ignored_prefixes_` -/
  ignored : List Chr := []
  /-- `robot_order_` -/
  robotOrder : List Chr := []

/-- The state of a `RobustSolver`: GenericSolver.h:84-95 and RobustSolver.h:111-130. When the solver is
configured without outlier rejection the `pcm` component is not used and stays empty; an access through the
null pointer `outlier_removal_` is modelled as undefined behaviour. -/
structure St (G T N : Type) where
  /-- `values_` -/
  values : Vals G := []
  /-- `nfg_` -/
  nfg : Graph G N := []
  /-- `temp_values_` -/
  tempValues : Vals G := []
  /-- `temp_nfg_` -/
  tempNfg : Graph G N := []
  /-- `gnc_weights_` -/
  gncW : List Rat := []
  /-- `gnc_temp_weights_` -/
  gncTW : List Rat := []
  /-- `gnc_num_inliers_` -/
  gncNum : Nat := 0
  /-- `latest_num_lc_` -/
  latest : Nat := 0
  /-- `*outlier_removal_` -/
  pcm : Pcm G T N := {}

/-- Everything that is fixed when a `RobustSolver` is constructed (RobustSolver.cpp:29-103, Pcm.h:58-83). -/
structure Cfg (G T N : Type) where
  ops : Ops G T N
  /-- `outlier_removal_ != nullptr` -/
  rejection : Bool
  /-- `special_symbols_` -/
  special : List Chr
  /-- `odom_check_` -/
  odomCheck : Bool
  /-- `loop_consistency_check_` -/
  loopCheck : Bool
  /-- `params_.incremental` -/
  incremental : Bool
  /-- `multirobot_align_method_ != NONE` -/
  align : Bool
  /-- `solver_type_ == Solver::LM` (otherwise GN) -/
  lm : Bool
  /-- `debug_` of the solver -/
  debug : Bool
  /-- `log_` -/
  log : Bool
  /-- `use_gnc_` -/
  useGnc : Bool
  /-- `fix_prev_inliers_` -/
  fixPrev : Bool
  /-- `bias_odom_` -/
  biasOdom : Bool
  /-- platform: is plain `char` signed? -/
  charSigned : Bool

/-- External functions. Each may be any function.
* `opt`: the LM or GN optimizer on graph and initial values; `none`: it throws.
* `gnc`: the GNC optimizer, given known-inlier indices and optional initial weights; returns the values and
  the weights; `none`: it throws.
* `avg`: robust averaging of candidate frame offsets; `none`: it throws.
* `iterLC`, `iterLM`: iteration order of the two `unordered_map`s, as a function of the insertion history. -/
structure Env (G N : Type) where
  opt : Graph G N → Vals G → Option (Vals G)
  gnc : Graph G N → Vals G → List Nat → Option (List Rat) → Option (Vals G × List Rat)
  avg : List G → Option G
  iterLC : List (ObsId × Meas G N) → List (ObsId × Meas G N)
  iterLM : List (Key × Meas G N) → List (Key × Meas G N)

/-- The iteration orders visit every entry exactly once. -/
structure Env.Ok {G N : Type} (env : Env G N) : Prop where
  lc : ∀ l, (env.iterLC l).Perm l
  lm : ∀ l, (env.iterLM l).Perm l

end RPGO
