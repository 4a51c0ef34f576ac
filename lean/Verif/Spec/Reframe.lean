import Verif.Spec.Convert
/-
The same data when the conversion depends on the keys: each robot may write its poses differently.
-/

namespace RPGO.Spec
variable {G N G' N' : Type}

/-- How measurements between two keys, poses and priors of a key, and noise models of a measurement between two keys are written anew. -/
structure KeyConv (G N G' N' : Type) where
  meas : Key → Key → G → G'
  pose : Key → G → G'
  noise : Key → Key → N → N'

variable (f : KeyConv G N G' N')

def kvBtw (b : Btw G N) : Btw G' N' := ⟨b.k1, b.k2, f.meas b.k1 b.k2 b.m, b.noise.map (f.noise b.k1 b.k2)⟩

def kvFactor : Factor G N → Factor G' N'
  | .btw b => .btw (kvBtw f b)
  | .prior k m => .prior k (f.pose k m)
  | .priorAlt k t => .priorAlt k t
  | .other ks t => .other ks t

def kvGraph (g : Graph G N) : Graph G' N' := g.map (Option.map (kvFactor f))

def kvVal (k : Key) : Val G → Val G'
  | .pose g => .pose (f.pose k g)
  | .other t => .other t

def kvVals (v : Vals G) : Vals G' := v.map fun e => (e.1, kvVal f e.1 e.2)

def kvOp : Op G N → Op G' N'
  | .update fs vs o => .update (kvGraph f fs) (kvVals f vs) o
  | .forceUpdate fs vs => .forceUpdate (kvGraph f fs) (kvVals f vs)
  | .removePriors c o => .removePriors c o
  | .removeLastPair a b => .removeLastPair a b
  | .removeLast => .removeLast
  | .ignore c => .ignore c
  | .revive c => .revive c
  | .getNumLC => .getNumLC
  | .getNumLCInliers => .getNumLCInliers
  | .saveData => .saveData
  | .removeFactors is => .removeFactors is
  | .removeLastFactor => .removeLastFactor
  | .removePriorsGeneric c => .removePriorsGeneric c
  | .updateValues vs => .updateValues (kvVals f vs)
  | .genericUpdate fs vs rm => .genericUpdate (kvGraph f fs) (kvVals f vs) rm
  | .tempUpdate fs vs => .tempUpdate (kvGraph f fs) (kvVals f vs)
  | .tempReplace fs vs => .tempReplace (kvGraph f fs) (kvVals f vs)
  | .tempClear => .tempClear

def kvMeas (m : Meas G N) : Meas G' N' := ⟨m.factors.map (kvBtw f), m.cons.map (kvBtw f), m.adj⟩

end RPGO.Spec
