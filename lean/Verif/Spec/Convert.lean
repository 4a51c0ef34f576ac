import Verif.Model.Solver
/-
What it means to express the same data differently: every pose `g` is written as `φ g` and every Gaussian noise `n` as `ν n`. Keys, types of
factors and order stay.
-/

namespace RPGO.Spec
variable {G T N G' T' N' V V' : Type} (φ : G → G') (ν : N → N')

def cvBtw (b : Btw G N) : Btw G' N' := ⟨b.k1, b.k2, φ b.m, b.noise.map ν⟩

def cvFactor : Factor G N → Factor G' N'
  | .btw b => .btw (cvBtw φ ν b)
  | .prior k m => .prior k (φ m)
  | .priorAlt k t => .priorAlt k t
  | .other ks t => .other ks t

def cvGraph (g : Graph G N) : Graph G' N' := g.map (Option.map (cvFactor φ ν))

def cvVal : Val G → Val G'
  | .pose g => .pose (φ g)
  | .other t => .other t

def cvMap (f : V → V') (m : KMap V) : KMap V' := m.map fun e => (e.1, f e.2)

def cvVals (v : Vals G) : Vals G' := cvMap (cvVal φ) v

def cvOp : Op G N → Op G' N'
  | .update fs vs o => .update (cvGraph φ ν fs) (cvVals φ vs) o
  | .forceUpdate fs vs => .forceUpdate (cvGraph φ ν fs) (cvVals φ vs)
  | .removePriors c o => .removePriors c o
  | .removeLastPair a b => .removeLastPair a b
  | .removeLast => .removeLast
  | .ignore c => .ignore c
  | .revive c => .revive c
  | .getNumLC => .getNumLC
  | .getNumLCInliers => .getNumLCInliers
  | .saveData => .saveData
  | .removeFactors is => .removeFactors is
  | .removeLastFactor => .removeLastFactor
  | .removePriorsGeneric c => .removePriorsGeneric c
  | .updateValues vs => .updateValues (cvVals φ vs)
  | .genericUpdate fs vs rm => .genericUpdate (cvGraph φ ν fs) (cvVals φ vs) rm
  | .tempUpdate fs vs => .tempUpdate (cvGraph φ ν fs) (cvVals φ vs)
  | .tempReplace fs vs => .tempReplace (cvGraph φ ν fs) (cvVals φ vs)
  | .tempClear => .tempClear

def cvMeas (m : Meas G N) : Meas G' N' := ⟨m.factors.map (cvBtw φ ν), m.cons.map (cvBtw φ ν), m.adj⟩

/-- The external functions give, on the converted problem, the converted result; of the averaging this is asked only if it is used
(`align`: frames are aligned). The two hash tables are traversed in the corresponding order. -/
structure Converted (align : Bool) (env : Env G N) (env' : Env G' N') : Prop where
  opt : ∀ g v, env'.opt (cvGraph φ ν g) (cvVals φ v) = (env.opt g v).map (cvVals φ)
  gnc : ∀ g v known init, env'.gnc (cvGraph φ ν g) (cvVals φ v) known init = (env.gnc g v known init).map fun r => (cvVals φ r.1, r.2)
  avg : align = true → ∀ l, env'.avg (l.map φ) = (env.avg l).map φ
  lc : ∀ l, env'.iterLC (l.map fun e => (e.1, cvMeas φ ν e.2)) = (env.iterLC l).map fun e => (e.1, cvMeas φ ν e.2)
  lm : ∀ l, env'.iterLM (l.map fun e => (e.1, cvMeas φ ν e.2)) = (env.iterLM l).map fun e => (e.1, cvMeas φ ν e.2)

/-- The two solvers show the same, up to conversion. -/
structure ShowsSame (s : St G T N) (s' : St G' T' N') : Prop where
  graph : s'.nfg = cvGraph φ ν s.nfg
  values : s'.values = cvVals φ s.values
  tempGraph : s'.tempNfg = cvGraph φ ν s.tempNfg
  tempValues : s'.tempValues = cvVals φ s.tempValues
  weights : s'.gncW = s.gncW
  tempWeights : s'.gncTW = s.gncTW
  numLC : s'.pcm.totalLc = s.pcm.totalLc
  numInliers : s'.pcm.totalGood = s.pcm.totalGood
  numGnc : s'.gncNum = s.gncNum
  ignored : s'.pcm.ignored = s.pcm.ignored

/-- Two calls end in the same way: both return the same, both raise the same exception, or both are undefined for the same reason. -/
def EndsAlike : Out (St G T N) Ret → Out (St G' T' N') Ret → Prop
  | .ok s r, o => ∃ t, o = .ok t r ∧ ShowsSame φ ν s t
  | .throw s e, o => ∃ t, o = .throw t e ∧ ShowsSame φ ν s t
  | .ub u, o => o = .ub u

end RPGO.Spec
