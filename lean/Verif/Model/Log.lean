import Verif.Model.Solver
import Verif.Model.Save
/-
The files written by the solver: status log, log of the outlier rejection, adjacency matrices, g2o file and weights.
The procedures of `Model/Solver.lean` again, with these files as part of the state. Times are left out of the rows, headers
out of the files.
-/

namespace RPGO
variable {G T N K : Type} [Mul G] [Inv G] [One G]

/-- What `saveData` leaves in a folder: `result.g2o` and `gnc_weights.csv` (`none`: no such file). -/
structure Folder (K : Type) where
  g2o : Option (List (Line K)) := none
  weights : Option (List Rat) := none

/-- The files. `status`: rows of `rpgo_status.csv` (graph size, closures, inliers). `spin`: rows of
`outlier_rejection_status.txt` (closures, inliers). `adj id`: the file `<id1>-<id2>_adj_matrix.txt`. `log`: the g2o file and
weights in the log folder. `user`: those in another folder, given to `saveData`. -/
structure Disk (K : Type) where
  status : List (Nat × Nat × Nat) := []
  spin : List (Nat × Nat) := []
  adj : ObsId → Option Mat := fun _ => none
  log : Folder K := {}
  user : Folder K := {}

/-- A solver with its files. -/
abbrev LSt (G T N K : Type) := St G T N × Disk K

/-- A procedure that touches no file. -/
def quiet {α : Type} (m : M (St G T N) α) : M (LSt G T N K) α := M.zoom (fun s => s.1) (fun s p => (s, p.2)) m

/-- `Pcm::saveAdjacencyMatrix`, Pcm.h:1136-1149: one file per entry of `loop_closures_`, overwritten. -/
def writeAdjacency (l : List (ObsId × Meas G N)) (f : ObsId → Option Mat) : ObsId → Option Mat :=
  l.foldl (fun f e => fun id => if id = e.1 then some e.2.adj else f id) f

/-- The end of `Pcm::removeOutliers` with `log_output_`, Pcm.h:275-279; `logSpinStatus`, Pcm.h:1154-1165. -/
def logSpin (env : Env G N) : M (LSt G T N K) Unit := M.modify fun p =>
  (p.1, { p.2 with
    adj := writeAdjacency (env.iterLC p.1.pcm.lcs) p.2.adj
    spin := p.2.spin ++ [(p.1.pcm.totalLc, p.1.pcm.totalGood)] })

/-- `Pcm::removeOutliers`, Pcm.h:148-281, with its log. `log_output_` is set together with `log_`,
RobustSolver.cpp:92-101. -/
def removeOutliersL (cfg : Cfg G T N) (env : Env G N) (fs : Graph G N) (vs : Vals G) : M (LSt G T N K) Bool := do
  quiet (onValues (insertVals vs))                                      -- line 155
  M.cond (decide (fs.length = 0)) (M.pure false) do                     -- lines 156-159
    let r ← quiet (processFactors cfg env fs vs)                        -- lines 160-274
    M.when cfg.log (logSpin env)                                        -- lines 275-279
    M.pure r

variable [Semiring K]

/-- `RobustSolver::saveData`, RobustSolver.cpp:448-465, on a folder given by its place on the disk. The g2o file is opened
before anything is written, so a refused noise model leaves an incomplete file. -/
def saveFolder (cfg : Cfg G T N) (w : Writer G N K) (get : Disk K → Folder K) (put : Folder K → Disk K → Disk K) :
    M (LSt G T N K) Unit := fun p =>
  match writeG2o w p.1.nfg p.1.values [] with                                       -- line 450
  | .ok file _ =>
    .ok (p.1, put { g2o := some file, weights := if cfg.useGnc then some p.1.gncW else (get p.2).weights } p.2) ()
  | .throw file e => .throw (p.1, put { get p.2 with g2o := some file } p.2) e
  | .ub u => .ub u

/-- Status logging at the end of `update` / `forceUpdate`, RobustSolver.cpp:326-334, 359-367. -/
def logStatusL (cfg : Cfg G T N) (w : Writer G N K) : M (LSt G T N K) Unit := do
  let n ← quiet (getNumLC cfg)
  let k ← quiet (getNumLCInliers cfg)
  M.modify fun p => (p.1, { p.2 with status := p.2.status ++ [(p.1.nfg.length, n, k)] })
  saveFolder cfg w (fun d => d.log) (fun f d => { d with log := f })

/-- `RobustSolver::update`, RobustSolver.cpp:337-369. -/
def updateL (cfg : Cfg G T N) (env : Env G N) (w : Writer G N K) (fs : Graph G N) (vs : Vals G) (opt : Bool) :
    M (LSt G T N K) Unit := do
  let doOpt ← M.cond cfg.rejection (removeOutliersL cfg env fs vs) (quiet (addAndCheck fs vs))
  M.when (doOpt && opt) (quiet (optimize cfg env))
  M.when (cfg.log && opt) (logStatusL cfg w)

/-- `RobustSolver::forceUpdate`, RobustSolver.cpp:308-335. -/
def forceUpdateL (cfg : Cfg G T N) (env : Env G N) (w : Writer G N K) (fs : Graph G N) (vs : Vals G) :
    M (LSt G T N K) Unit := do
  let _ ← M.cond cfg.rejection (removeOutliersL cfg env fs vs) (quiet (addAndCheck fs vs))
  quiet (optimize cfg env)
  M.when cfg.log (logStatusL cfg w)

/-- Execution of one call, with its effect on the files: only these three functions write any. -/
def execL (cfg : Cfg G T N) (env : Env G N) (w : Writer G N K) : Op G N → M (LSt G T N K) Ret
  | .update fs vs opt => (updateL cfg env w fs vs opt).ret fun _ => .unit
  | .forceUpdate fs vs => (forceUpdateL cfg env w fs vs).ret fun _ => .unit
  | .saveData => (saveFolder cfg w (fun d => d.user) (fun f d => { d with user := f })).ret fun _ => .unit
  | op => quiet (exec cfg env op)

end RPGO
