import Verif.Model.GraphIO
/-
Model of the heuristic maximum-clique searches.
  /repo/include/KimeraRPGO/max_clique_finder/findCliqueHeu.cpp
`none` means an out-of-range vector access, or that the loop budget was exhausted.
-/

namespace RPGO

/-- Initial candidate list, findCliqueHeu.cpp:59-71 (and 151-163): write the candidate vertex, then its
neighbours of degree at least `maxClq` (pruning 3), to the front of `v_i_S`. Returns `v_i_S` and `iPos`. -/
def heuInit (g : CSR) (mc : Int) (S : List Nat) (v : Nat) : Option (List Nat × Nat) := do
  let S ← wr S 0 v
  let js ← g.slots v
  js.foldlM
    (fun (sp : List Nat × Nat) j => do
      let e ← rd g.edges j
      let d ← degree g.vertices e
      if mc ≤ d then
        let S ← wr sp.1 sp.2 e
        return (S, sp.2 + 1)
      else return sp)
    (S, 1)

/-- The search `for k … if (v_i_S[j] == Edges[k] && maxClq <= deg(Edges[k])) { …; break; }`,
findCliqueHeu.cpp:90-99 (and 182-191): does some position `k` in the list hit? -/
def heuHit (g : CSR) (mc : Int) (x : Nat) : List Nat → Option Bool
  | [] => some false
  | k :: ks => do
    let e ← rd g.edges k
    let d ← degree g.vertices e
    if x = e ∧ mc ≤ d then return true else heuHit g mc x ks

/-- The loop over `j < iPos`, findCliqueHeu.cpp:88-100 (and 180-192): copy to `v_i_S1` the members of
`v_i_S` that are neighbours of `m`. Returns `v_i_S1` and `iPos1`. -/
def heuIntersect (g : CSR) (mc : Int) (S S1 : List Nat) (iPos m : Nat) : Option (List Nat × Nat) :=
  (List.range iPos).foldlM
    (fun (sp : List Nat × Nat) j => do
      let ks ← g.slots m
      let x ← rd S j
      let hit ← heuHit g mc x ks
      if hit then
        let S1 ← wr sp.1 sp.2 x
        return (S1, sp.2 + 1)
      else return sp)
    (S1, 0)

/-- Copy back, findCliqueHeu.cpp:102 (and 194): `for j < iPos1: v_i_S[j] = v_i_S1[j]`. -/
def heuCopy (S S1 : List Nat) (iPos1 : Nat) : Option (List Nat) :=
  (List.range iPos1).foldlM
    (fun S j => do
      let x ← rd S1 j
      wr S j x)
    S

/-- The `while (iPos > 0)` loop, findCliqueHeu.cpp:75-108 (and 167-200). Returns `v_i_S`, `v_i_S1`, `icc`.
The first argument bounds the number of iterations. -/
def heuWhile (g : CSR) (mc : Int) : Nat → List Nat → List Nat → Nat → Nat → Option (List Nat × List Nat × Nat)
  | 0, S, S1, iPos, icc => if iPos = 0 then some (S, S1, icc) else none
  | fuel + 1, S, S1, iPos, icc =>
    if iPos = 0 then some (S, S1, icc) else do
      let m ← rd S (iPos - 1)
      let (S1, iPos1) ← heuIntersect g mc S S1 iPos m
      let S ← heuCopy S S1 iPos1
      heuWhile g mc fuel S S1 iPos1 (icc + 1)

/-- State of the main loop: `maxClq`, the two work buffers, `*max_clique_data`. -/
structure HeuSt where
  mc : Int
  S : List Nat
  S1 : List Nat
  data : List Nat

/-- One iteration of the main loop, findCliqueHeu.cpp:49-114 (and 141-206). -/
def heuStep (g : CSR) (s : HeuSt) (v : Nat) : Option HeuSt := do
  let d ← degree g.vertices v
  if s.mc > d then return s                                   -- pruning 1
  let (S, iPos) ← heuInit g s.mc s.S v
  let (S, S1, icc) ← heuWhile g s.mc (S.length + 1) S s.S1 iPos 0
  if s.mc < (icc : Int) then return ⟨icc, S, S1, S⟩
  else return ⟨s.mc, S, S1, s.data⟩

/-- Initial state: buffers of `maxDegree + 1` zeros (findCliqueHeu.cpp:37-42, 127-133). -/
def heuStart (g : CSR) (mc : Int) (data : List Nat) : HeuSt :=
  let b := List.replicate (g.maxDeg + 1).toNat 0
  ⟨mc, b, b, data⟩

/-- `maxCliqueHeu(gio, data)`, findCliqueHeu.cpp:32-117. -/
def maxCliqueHeu (g : CSR) (data : List Nat) : Option (Int × List Nat) := do
  let s ← (List.range (g.vertices.length - 1)).foldlM (heuStep g) (heuStart g (-1) data)
  return (s.mc, s.data)

/-- `findMaxCliqueHeu(adjMatrix, &out)`, /repo/src/utils/GraphUtils.cpp:19-27. -/
def findMaxCliqueHeu (M : Mat) (out0 : List Nat := []) : Option (Int × List Nat) := do
  let g ← readEigen M
  maxCliqueHeu g out0

/-- `Vertices.size() - num_new_lc - 1` in 64-bit `size_t` arithmetic (findCliqueHeu.cpp:141), for
`numNew < 2 ^ 64`. -/
def incStart (vsize numNew : Nat) : Nat :=
  if numNew + 1 ≤ vsize then vsize - numNew - 1 else (2 ^ 64 + vsize - (numNew + 1)) % 2 ^ 64

/-- `maxCliqueHeuIncremental(gio, num_new_lc, prev, data)`, findCliqueHeu.cpp:119-209. -/
def maxCliqueHeuIncremental (g : CSR) (numNew prev : Nat) (data : List Nat) : Option (Int × List Nat) := do
  let start := incStart g.vertices.length numNew
  let s ← (List.range' start (g.vertices.length - 1 - start)).foldlM (heuStep g)
    (heuStart g (prev : Int) data)
  return (s.mc, s.data)

/-- `findMaxCliqueHeuIncremental`, /repo/src/utils/GraphUtils.cpp:30-44. -/
def findMaxCliqueHeuIncremental (M : Mat) (numNew prev : Nat) (out0 : List Nat := []) :
    Option (Nat × List Nat) := do
  let g ← readEigen M
  let (k, data) ← maxCliqueHeuIncremental g numNew prev out0
  return (if prev < k.toNat then k.toNat else 0, data)

end RPGO
