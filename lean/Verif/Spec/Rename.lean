import Verif.Model.Solver
import Mathlib.Logic.Equiv.Defs
/-
What it means to give the robots (and landmarks) other names and their poses other numbers.
-/

namespace RPGO.Spec

/-- New names and numbers: prefix `c` becomes `chrs c`, and number `i` of `c` becomes `nums c i`. -/
structure Naming where
  chrs : Chr ≃ Chr
  nums : Chr → BitVec 56 ≃ BitVec 56

instance : CoeFun Naming (fun _ => Chr → Chr) := ⟨fun π => π.chrs⟩

/-- New names; the numbers stay. -/
def Naming.ofNames (π : Chr ≃ Chr) : Naming := ⟨π, fun _ => Equiv.refl _⟩

/-- New numbers; the names stay. -/
def Naming.ofNumbers (ν : Chr → BitVec 56 ≃ BitVec 56) : Naming := ⟨Equiv.refl _, ν⟩

/-- Robot `c` starts counting at `n c` instead of 0. -/
def Naming.startAt (n : Chr → BitVec 56) : Naming :=
  .ofNumbers fun c => ⟨(· + n c), (· - n c), fun i => BitVec.add_sub_cancel i (n c), fun i => BitVec.sub_add_cancel i (n c)⟩

variable {G T N V : Type} (π : Naming)

/-- The key under the new name and with the new number. -/
def reKey (k : Key) : Key := symKey (π (chr k)) (π.nums (chr k) (index k))

/-- Number 0 stays number 0. -/
def Naming.Roots : Prop := ∀ c : Chr, π.nums c 0 = 0

def reBtw (b : Btw G N) : Btw G N := { b with k1 := reKey π b.k1, k2 := reKey π b.k2 }

def reFactor : Factor G N → Factor G N
  | .btw b => .btw (reBtw π b)
  | .prior k m => .prior (reKey π k) m
  | .priorAlt k t => .priorAlt (reKey π k) t
  | .other ks t => .other (ks.map (reKey π)) t

def reGraph (g : Graph G N) : Graph G N := g.map (Option.map (reFactor π))

/-- The map with renamed keys, sorted anew. -/
def reMap (m : KMap V) : KMap V := m.foldr (fun e acc => KMap.set acc (reKey π e.1) e.2) []

def reOp : Op G N → Op G N
  | .update fs vs o => .update (reGraph π fs) (reMap π vs) o
  | .forceUpdate fs vs => .forceUpdate (reGraph π fs) (reMap π vs)
  | .removePriors c o => .removePriors (π c) o
  | .removeLastPair a b => .removeLastPair (π a) (π b)
  | .removeLast => .removeLast
  | .ignore c => .ignore (π c)
  | .revive c => .revive (π c)
  | .getNumLC => .getNumLC
  | .getNumLCInliers => .getNumLCInliers
  | .saveData => .saveData
  | .removeFactors is => .removeFactors is
  | .removeLastFactor => .removeLastFactor
  | .removePriorsGeneric c => .removePriorsGeneric (π c)
  | .updateValues vs => .updateValues (reMap π vs)
  | .genericUpdate fs vs rm => .genericUpdate (reGraph π fs) (reMap π vs) rm
  | .tempUpdate fs vs => .tempUpdate (reGraph π fs) (reMap π vs)
  | .tempReplace fs vs => .tempReplace (reGraph π fs) (reMap π vs)
  | .tempClear => .tempClear

/-- What a call returns: the keys of a removed factor are renamed. -/
def reRet : Ret → Ret
  | .edge (some e) => .edge (some (reKey π e.1, reKey π e.2))
  | r => r

/-- The landmark prefixes are renamed; all other parameters stay. -/
def reCfg (cfg : Cfg G T N) : Cfg G T N := { cfg with special := cfg.special.map π }

def reMeas (m : Meas G N) : Meas G N := { m with factors := m.factors.map (reBtw π), cons := m.cons.map (reBtw π) }

def reId (i : ObsId) : ObsId := ⟨π i.id1, π i.id2⟩

/-- The optimizers do not look at names: on the renamed problem they do the same. Given maps, they return maps. The two hash tables are
traversed in the corresponding order. -/
structure Renamed (env env' : Env G N) : Prop where
  opt : ∀ g v, v.keys.Pairwise (fun a b => a.toNat < b.toNat) → env'.opt (reGraph π g) (reMap π v) = (env.opt g v).map (reMap π)
  optMap : ∀ g v r, v.keys.Pairwise (fun a b => a.toNat < b.toNat) → env.opt g v = some r → r.keys.Pairwise fun a b => a.toNat < b.toNat
  gnc : ∀ g v known init, v.keys.Pairwise (fun a b => a.toNat < b.toNat) →
    env'.gnc (reGraph π g) (reMap π v) known init = (env.gnc g v known init).map fun r => (reMap π r.1, r.2)
  gncMap : ∀ g v known init r w, v.keys.Pairwise (fun a b => a.toNat < b.toNat) → env.gnc g v known init = some (r, w) → r.keys.Pairwise fun a b => a.toNat < b.toNat
  avg : env'.avg = env.avg
  lc : ∀ l, env'.iterLC (l.map fun e => (reId π e.1, reMeas π e.2)) = (env.iterLC l).map fun e => (reId π e.1, reMeas π e.2)
  lm : ∀ l, env'.iterLM (l.map fun e => (reKey π e.1, reMeas π e.2)) = (env.iterLM l).map fun e => (reKey π e.1, reMeas π e.2)

/-- No between factor starts at the last of the 2⁵⁶ pose numbers of a robot. -/
def NotLast (g : Graph G N) : Prop := ∀ b : Btw G N, some (.btw b) ∈ g → (index b.k1).toNat + 1 < 2 ^ 56

/-- The call is given maps, and no between factor from the last pose number. -/
def Regular : Op G N → Prop
  | .update fs vs _ => NotLast fs ∧ vs.keys.Pairwise fun a b => a.toNat < b.toNat
  | .forceUpdate fs vs => NotLast fs ∧ vs.keys.Pairwise fun a b => a.toNat < b.toNat
  | .updateValues vs => vs.keys.Pairwise fun a b => a.toNat < b.toNat
  | .genericUpdate _ vs _ => vs.keys.Pairwise fun a b => a.toNat < b.toNat
  | .tempUpdate _ vs => vs.keys.Pairwise fun a b => a.toNat < b.toNat
  | .tempReplace _ vs => vs.keys.Pairwise fun a b => a.toNat < b.toNat
  | _ => True

/-- For every between factor: the key that followed its first key still follows it. -/
def Successive (g : Graph G N) : Prop := ∀ b : Btw G N, some (.btw b) ∈ g → reKey π (b.k1 + 1) = reKey π b.k1 + 1

/-- Number 0 stays number 0, or each landmark `l` is observed by one robot only, `ow l`. -/
def ZeroOrOne (cfg : Cfg G T N) (ow : Key → Chr) (g : Graph G N) : Prop :=
  π.Roots ∨ ∀ b : Btw G N, some (.btw b) ∈ g → chr b.k2 ∈ cfg.special → chr b.k1 ∉ cfg.special → chr b.k1 = ow b.k2

/-- The call is given maps, keys that follow each other still do, and number 0 stays or each landmark has one observer. -/
def Numbered (cfg : Cfg G T N) (ow : Key → Chr) : Op G N → Prop
  | .update fs vs _ => (Successive π fs ∧ ZeroOrOne π cfg ow fs) ∧ vs.keys.Pairwise fun a b => a.toNat < b.toNat
  | .forceUpdate fs vs => (Successive π fs ∧ ZeroOrOne π cfg ow fs) ∧ vs.keys.Pairwise fun a b => a.toNat < b.toNat
  | .updateValues vs => vs.keys.Pairwise fun a b => a.toNat < b.toNat
  | .genericUpdate _ vs _ => vs.keys.Pairwise fun a b => a.toNat < b.toNat
  | .tempUpdate _ vs => vs.keys.Pairwise fun a b => a.toNat < b.toNat
  | .tempReplace _ vs => vs.keys.Pairwise fun a b => a.toNat < b.toNat
  | _ => True

/-- The two solvers show the same, up to names. -/
structure SameShown (s s' : St G T N) : Prop where
  graph : s'.nfg = reGraph π s.nfg
  values : ∀ k, s'.values.find? (reKey π k) = s.values.find? k
  tempGraph : s'.tempNfg = reGraph π s.tempNfg
  tempValues : ∀ k, s'.tempValues.find? (reKey π k) = s.tempValues.find? k
  weights : s'.gncW = s.gncW
  tempWeights : s'.gncTW = s.gncTW
  numLC : s'.pcm.totalLc = s.pcm.totalLc
  numInliers : s'.pcm.totalGood = s.pcm.totalGood
  numGnc : s'.gncNum = s.gncNum
  ignored : s'.pcm.ignored = s.pcm.ignored.map π

/-- Two calls end in the same way: both return the same (up to names), both raise an exception, or both are undefined for the same
reason. Without frame alignment (`al`) the two exceptions are the same. -/
def SameEnd (al : Bool) : Out (St G T N) Ret → Out (St G T N) Ret → Prop
  | .ok _ r, o => ∃ t, o = .ok t (reRet π r)
  | .throw _ e, o => ∃ t e', o = .throw t e' ∧ (al = false → e' = e)
  | .ub u, o => o = .ub u

/-- If plain `char` is signed: ASCII prefixes are renamed to ASCII prefixes and others to others. -/
def CharsFit (cfg : Cfg G T N) : Prop := cfg.charSigned = false ∨ ∀ c, (π c).toNat < 128 ↔ c.toNat < 128

end RPGO.Spec
