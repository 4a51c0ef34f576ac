/-
Model of the graph representation used by the maximum-clique finders.
  /repo/include/KimeraRPGO/max_clique_finder/graphIO.cpp, graphIO.h, utils.cpp
C++ `int` and `size_t` counters are unbounded here unless a comment says otherwise (C95: up to 46 341 vertices they all fit).
-/

namespace RPGO

/-- A square `Eigen::MatrixXd` used as adjacency matrix: `n` rows and columns; `e i j` is
`adjMatrix(i, j) != 0`. Simplification: only whether an entry is zero is kept, because that is all
that the code reads (graphIO.cpp:199); entries outside `n × n` are never read by the model. -/
structure Mat where
  n : Nat
  e : Nat → Nat → Bool

/-- `vector<int>::operator[]` used as an rvalue; `none` is an out-of-range access. -/
def rd (xs : List Nat) (i : Nat) : Option Nat := xs[i]?

/-- `vector<int>::operator[]` used as an lvalue; `none` is an out-of-range access. -/
def wr (xs : List Nat) (i v : Nat) : Option (List Nat) :=
  if i < xs.length then some (xs.set i v) else none

/-- `map<int, vector<int>> nodeList` (graphIO.cpp:189). `operator[]` on a missing key yields an empty
vector, so a total function is exact. -/
abbrev NodeList := Nat → List Nat

/-- `nodeList[i].push_back(j)`. -/
def NodeList.push (nl : NodeList) (i j : Nat) : NodeList :=
  fun k => if k = i then nl k ++ [j] else nl k

/-- Body of the double loop, graphIO.cpp:199-216. -/
def readStep (M : Mat) (j : Nat) (nl : NodeList) (i : Nat) : NodeList :=
  if i = j ∨ M.e i j = false then nl
  else if (nl i).contains j then nl            -- `exists == 1`, lines 203-212
  else (nl.push i j).push j i                  -- lines 214-215

/-- The double loop `for j < col, for i = j .. row-1`, graphIO.cpp:197-218. -/
def readLoop (M : Mat) : NodeList :=
  (List.range M.n).foldl (fun nl j => (List.range' j (M.n - j)).foldl (readStep M j) nl) (fun _ => [])

/-- `CGraphIO` after reading: `m_vi_Vertices` (offsets), `m_vi_Edges` and the maximum degree
(graphIO.h:64-72). Minimum and average degree are never read by the finders and are left out. -/
structure CSR where
  vertices : List Nat
  edges : List Nat
  maxDeg : Int

/-- Flattening loop, graphIO.cpp:220-225. -/
def flatten (nl : NodeList) (n : Nat) : List Nat × List Nat :=
  (List.range n).foldl
    (fun (ve : List Nat × List Nat) i =>
      let edges := ve.2 ++ nl i
      (ve.1 ++ [edges.length], edges))
    ([0], [])

/-- Vertex degree as computed everywhere from the offsets: utils.cpp:48-50 `getDegree`, and the
same expression inlined in findCliqueHeu.cpp and graphIO.cpp:241. -/
def degree (vertices : List Nat) (v : Nat) : Option Int := do
  let hi ← rd vertices (v + 1)
  let lo ← rd vertices v
  return (hi : Int) - (lo : Int)

/-- `CalculateVertexDegrees`, graphIO.cpp:234-252 (maximum degree only). -/
def calcMaxDegree (vertices : List Nat) : Option Int :=
  (List.range (vertices.length - 1)).foldlM
    (fun m i => do
      let d ← degree vertices i
      return if m < d then d else m)
    (-1)

/-- `CGraphIO::ReadEigenAdjacencyMatrix`, graphIO.cpp:188-230. -/
def readEigen (M : Mat) : Option CSR := do
  let (vs, es) := flatten (readLoop M) M.n
  let md ← calcMaxDegree vs
  return ⟨vs, es, md⟩

/-- `GetVertexCount`, graphIO.h:53. -/
def CSR.count (g : CSR) : Nat := g.vertices.length - 1

/-- The slice of `m_vi_Edges` scanned by every `for (j = Vertices[v]; j < Vertices[v+1]; j++)` loop,
as the list of positions `j`. -/
def CSR.slots (g : CSR) (v : Nat) : Option (List Nat) := do
  let lo ← rd g.vertices v
  let hi ← rd g.vertices (v + 1)
  return List.range' lo (hi - lo)

end RPGO
