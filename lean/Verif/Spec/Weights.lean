import Verif.Spec.History
/-
Vocabulary about optimizations and the weights they leave.
-/

namespace RPGO
variable {G T N : Type}

/-- The graduated non-convexity optimizer returns one weight per factor it was given (`getWeights`). -/
def Env.Sized (env : Env G N) : Prop :=
  ∀ g v known init r w, env.gnc g v known init = some (r, w) → w.length = g.length

namespace Spec

/-- How many landmark sightings and loop-closure candidates one call supplies. -/
def opSupply (cfg : Cfg G T N) (op : Op G N) : Nat :=
  match batch op with
  | some (fs, vs) => (firsts cfg vs fs).length + (cands cfg vs fs).length
  | none => 0

/-- How many landmark sightings and loop-closure candidates were supplied in all. -/
def supplied (cfg : Cfg G T N) (h : List (Op G N)) : Nat := (h.map (opSupply cfg)).sum

/-- Does a normal return of the call include an optimization? `update` optimizes if asked to and if the batch has a
loop-closure candidate or a factor that is not a between factor. -/
def Optimizes (cfg : Cfg G T N) : Op G N → Bool
  | .update fs vs o => o && (decide (specials fs ≠ []) || decide (cands cfg vs fs ≠ []))
  | .forceUpdate _ _ => true
  | .removePriors _ o => o
  | .removeLastPair _ _ => true
  | .removeLast => true
  | .ignore _ => true
  | .revive _ => true
  | _ => false

/-- How many odometry and other factors that are not between factors were supplied and not removed. -/
def known (cfg : Cfg G T N) (h : List (Op G N)) : Nat := (odomSoFar cfg h).length + (specialSoFar cfg h).length

/-- Whenever two calls optimize, at most as many closure candidates and landmark sightings were supplied up to the earlier
call as there are odometry factors and priors after the earlier call, and after the later call. -/
def Modest (cfg : Cfg G T N) (h : List (Op G N)) : Prop :=
  ∀ h1 o1 h2 o2, h1 ++ [o1] ++ h2 ++ [o2] <+: h → Optimizes cfg o1 = true → Optimizes cfg o2 = true →
    supplied cfg (h1 ++ [o1]) ≤ known cfg (h1 ++ [o1]) ∧ supplied cfg (h1 ++ [o1]) ≤ known cfg (h1 ++ [o1] ++ h2 ++ [o2])

/-- Every optimization runs GNC, which computes all weights anew, or the history is modest. -/
def Covered (cfg : Cfg G T N) (h : List (Op G N)) : Prop := (cfg.useGnc = true ∧ cfg.fixPrev = false) ∨ Modest cfg h

/-- Calls that neither remove closures nor ignore a prefix nor edit the graph directly. -/
def KeepsAll (op : Op G N) : Prop := Managed op ∧ ¬ Removes op ∧ ∀ c, op ≠ .ignore c

/-- The factors kept because their weight exceeds one half. -/
def kept (fs : Graph G N) (w : List Rat) : Graph G N := ((fs.zip w).filter fun x => decide (x.2 > 1 / 2)).map Prod.fst

end Spec
end RPGO
