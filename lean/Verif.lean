import Verif.Model.GraphIO
import Verif.Model.MaxClique
import Verif.Model.MaxCliqueHeu
import Verif.Proofs.GraphIO
import Verif.Proofs.MaxClique
import Verif.Proofs.MaxCliqueHeu
import Verif.Props.Clique
import Verif.Model.Basic
import Verif.Model.Geometry
import Verif.Model.State
import Verif.Model.Pcm
import Verif.Model.Solver
import Verif.Proofs.Basic
import Verif.Model.Params
import Verif.Spec.Covariance
import Verif.Spec.History
import Verif.Proofs.Traj
import Verif.Proofs.Sort
import Verif.Proofs.Parse
import Verif.Props.Keys
import Verif.Props.Geometry
import Verif.Proofs.Inlier
import Verif.Proofs.Frame
import Verif.Proofs.Ops
import Verif.Proofs.Ops2
import Verif.Proofs.Step
import Verif.Spec.Provenance
import Verif.Proofs.Prov
import Verif.Proofs.Count
import Verif.Props.Graph
import Verif.Proofs.Prefix
import Verif.Props.Prefix
import Verif.Proofs.Values
import Verif.Proofs.Sim
import Verif.Proofs.Batch
import Verif.Proofs.Plain
import Verif.Proofs.Opt
import Verif.Props.Values
import Verif.Props.Plain
import Verif.Proofs.Chain
import Verif.Props.Checks
import Verif.Props.Thresholds
import Verif.Proofs.Register
import Verif.Props.Matrix
import Verif.Proofs.Safe
import Verif.Proofs.Tidy
import Verif.Props.Safety
import Verif.Spec.Weights
import Verif.Proofs.Phase
import Verif.Proofs.OptSafe
import Verif.Proofs.GncOnly
import Verif.Props.Optimize
import Verif.Props.OptExact
import Verif.Spec.Removal
import Verif.Proofs.Removal
import Verif.Props.Removal
import Verif.Props.Landmarks
import Verif.Proofs.Own
import Verif.Proofs.Align
import Verif.Props.Align
import Verif.Model.Save
import Verif.Props.Save
import Verif.Props.Split
import Verif.Props.Formula
import Verif.Proofs.LandMatrix
import Verif.Props.LandMatrix
import Verif.Model.Norms
import Verif.Props.Norms
import Verif.Props.FormulaCov
import Verif.Props.Progress
import Verif.Props.GncCount
import Verif.Props.Fleet
import Verif.Props.Failure
import Verif.Props.FailureOpt
import Verif.Props.Modes
import Verif.Props.Stuck
import Verif.Props.FixPrev
import Verif.Proofs.Gauge
import Verif.Props.Gauge
import Verif.Props.Estimate
import Verif.Props.AnySplit
import Verif.Model.Tools
import Verif.Props.Tools
import Verif.Props.Temp
import Verif.Model.Log
import Verif.Props.Log
import Verif.Model.MatrixMarket
import Verif.Spec.MatrixMarket
import Verif.Proofs.MatrixMarket
import Verif.Props.MatrixMarket
import Verif.Model.Trajectories
import Verif.Props.Trajectories
import Verif.Proofs.Select
import Verif.Props.Selection
import Verif.Proofs.PairState
import Verif.Props.Pair
import Verif.Model.Averaging
import Verif.Model.Tuning
import Verif.Props.Averaging
import Verif.Props.Tuning
import Verif.Proofs.Undo
import Verif.Props.Undo
import Verif.Props.Observations
import Verif.Props.Order
import Verif.Props.Caught
import Verif.Proofs.LandState
import Verif.Proofs.Arrival
import Verif.Proofs.Group
import Verif.Props.Alone
import Verif.Props.Arrival
import Verif.Props.Robust
import Verif.Props.Rounding
import Verif.Props.Symmetry
import Verif.Props.Ahead
import Verif.Props.Overflow
import Verif.Props.Defer
import Verif.Spec.Rename
import Verif.Proofs.Rename
import Verif.Props.Rename
import Verif.Props.Restart
import Verif.Spec.Convert
import Verif.Proofs.Convert
import Verif.Props.Units
import Verif.Props.Noise
import Verif.Props.Ignoring
import Verif.Props.Looser
import Verif.Props.Forget
import Verif.Props.Unchecked
import Verif.Props.Reset
import Verif.Props.Gaussian
import Verif.Props.Plane
import Verif.Props.Realign
import Verif.Props.Main
import Verif.Props.FormulaRot
import Verif.Props.Ints
import Verif.Props.Decided
import Verif.Props.Axes
import Verif.Spec.Reframe
import Verif.Proofs.Reframe
import Verif.Props.OwnAxes
import Verif.Props.Alike
import Verif.Props.Bounded
import Verif.Props.Rigid
import Verif.Props.Majority
import Verif.Props.Print
import Verif.Props.Unaligned
import Verif.Props.Slip
import Verif.Proofs.Types
import Verif.Props.FailureAlign
import Verif.Props.EstimateAlign
import Verif.Props.ThrowKept
import Verif.Props.Anchors
import Verif.Props.NoiseLevel
import Verif.Props.Quiet
import Verif.Props.Verbosity
