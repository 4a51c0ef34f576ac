import Verif.Model.GraphIO
/-
Model of the exact maximum-clique search.
  /repo/include/KimeraRPGO/max_clique_finder/findClique.cpp
`none` means an out-of-range vector access, or that the loop budget was exhausted.
-/

namespace RPGO

/-- The candidate filter of one branch, findClique.cpp:58-66: for every neighbour `e` of `index` whose
degree is at least `maxClq` (pruning 5), push it once per occurrence in `U`. -/
def branchCands (g : CSR) (mc : Nat) (U : List Nat) (index : Nat) : Option (List Nat) := do
  let js ← g.slots index
  js.foldlM
    (fun acc j => do
      let e ← rd g.edges j
      let d ← degree g.vertices e
      return if (mc : Int) ≤ d then acc ++ (U.filter (fun x => e == x)) else acc)
    []

/-- The `while (U->size() > 0)` loop of `maxCliqueHelper`, findClique.cpp:50-76, with the recursive call
inlined (a call on an empty candidate set is the leaf case, lines 42-48). State: `maxClq` and
`max_clique_data_inter`. The first argument bounds the number of iterations plus recursion depth. -/
def helperLoop (g : CSR) : Nat → List Nat → Nat → Nat → List Nat → Option (Nat × List Nat)
  | 0, _, _, _, _ => none
  | fuel + 1, U, size, mc, inter =>
    match U.getLast? with
    | none => some (mc, inter)                               -- U->size() == 0
    | some index =>
      if size + U.length ≤ mc then some (mc, inter) else      -- old pruning, line 52
      let U' := U.dropLast                                    -- pop_back, line 55
      match branchCands g mc U' index with
      | none => none
      | some Unew =>
        let r :=
          if Unew.isEmpty then                                 -- leaf, lines 42-48
            (if size + 1 > mc then some (size + 1, []) else some (mc, inter))
          else helperLoop g fuel Unew (size + 1) mc inter
        match r with
        | none => none
        | some (mc', inter') =>
          let inter'' := if mc' > mc then inter' ++ [index] else inter'   -- line 73
          helperLoop g fuel U' size mc' inter''

/-- `maxCliqueHelper`, findClique.cpp:31-77. -/
def maxCliqueHelper (g : CSR) (U : List Nat) (size mc : Nat) (inter : List Nat) :
    Option (Nat × List Nat) :=
  if U.isEmpty then (if size > mc then some (size, []) else some (mc, inter))
  else helperLoop g (U.length + 1) U size mc inter

/-- Initial candidate set of vertex `i`, findClique.cpp:112-123: neighbours not yet considered
(pruning 2) with degree at least `maxClq` (pruning 3). -/
def rootCands (g : CSR) (bitVec : List Nat) (mc : Nat) (i : Nat) : Option (List Nat) := do
  let js ← g.slots i
  js.foldlM
    (fun acc j => do
      let e ← rd g.edges j
      let b ← rd bitVec e
      if b ≠ 1 then
        let d ← degree g.vertices e
        return if (mc : Int) ≤ d then acc ++ [e] else acc
      else return acc)
    []

/-- State of the main loop: `bitVec`, `maxClq`, `*max_clique_data`. (`max_clique_data_inter` is empty at
the start of every iteration, lines 131.) -/
structure ExactSt where
  bitVec : List Nat
  mc : Nat
  data : List Nat

/-- One iteration of the main loop, findClique.cpp:101-132. -/
def exactStep (g : CSR) (s : ExactSt) (i : Nat) : Option ExactSt := do
  let bitVec ← wr s.bitVec i 1
  let d ← degree g.vertices i
  if d < (s.mc : Int) then return { s with bitVec := bitVec }     -- pruning 1
  let U ← rootCands g bitVec s.mc i
  let (mc', inter) ← maxCliqueHelper g U 1 s.mc []
  return ⟨bitVec, mc', if mc' > s.mc then inter ++ [i] else s.data⟩

/-- `maxClique(gio, l_bound, data)`, findClique.cpp:80-145. -/
def maxClique (g : CSR) (lBound : Nat) (data : List Nat) : Option (Nat × List Nat) := do
  let s ← (List.range g.count).reverse.foldlM (exactStep g) ⟨List.replicate g.count 0, lBound, data⟩
  return (s.mc, s.data)

/-- `findMaxClique(adjMatrix, &out)`, /repo/src/utils/GraphUtils.cpp:9-17; returns the size and `out`
(whose initial contents are `out0`). -/
def findMaxClique (M : Mat) (out0 : List Nat := []) : Option (Nat × List Nat) := do
  let g ← readEigen M
  maxClique g 0 out0

end RPGO
