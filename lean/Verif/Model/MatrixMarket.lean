import Verif.Model.MaxClique
import Verif.Model.MaxCliqueHeu
/-
Model of reading a graph from a file into a `CGraphIO` object, and of its statistics.
  /repo/include/KimeraRPGO/max_clique_finder/graphIO.cpp, graphIO.h
A file is modelled after tokenising: lines of the entry part are blank or hold two integers and possibly a
number. Lines that hold fewer than two integers are not modelled.
-/

namespace RPGO

/-- A line of the entry part of a MatrixMarket file (graphIO.cpp:113-122): empty, or row and column
(counted from 1) and, if present, the value. Simplification: values are exact rationals; they are only
compared and copied. -/
inductive MMLine where
  | blank
  | entry (row col : Int) (value : Option Rat)
  deriving DecidableEq

/-- The part of the file after the comment lines: the size line (graphIO.cpp:98-99) and the lines below. -/
structure MMBody where
  rows : Int
  cols : Int
  entries : Int
  lines : List MMLine

/-- A MatrixMarket file. `bannerLen` is the length of the first line, `bannerWords` whether it has five
words, `pattern` whether the fourth word is "pattern" in any case (graphIO.cpp:73-92). `body = none` is a
file whose last line is a comment that is not ended by a newline, with no other line between it and the
banner. -/
structure MMFile where
  bannerLen : Nat
  bannerWords : Bool
  pattern : Bool
  body : Option MMBody

/-- `m_vi_Vertices`, `m_vi_Edges`, `m_vd_Values` (graphIO.h:70-73). `m_vi_OrderedVertices` is never filled. -/
structure GIO where
  vertices : List Nat := []
  edges : List Int := []
  values : List Rat := []
  deriving DecidableEq

/-- Outcome of a reading function: it returns `false`, it returns `true` and leaves the given object, it
does not return, or it performs an undefined operation. -/
inductive MMOut where
  | refused
  | read (g : GIO)
  | hang
  | ub
  deriving DecidableEq

/-- Locals of the entry loop: `nodeList`, `valueList` (graphIO.cpp:51-52) and `value` (line 55), which is
not initialised and keeps its content if a line has no value. -/
structure MMSt where
  nl : Int → List Int
  vl : Int → List Rat
  value : Option Rat

/-- `m[i].push_back(x)` on a `map<int, vector<…>>`. -/
def pushAt {α : Type} (m : Int → List α) (i : Int) (x : α) : Int → List α :=
  fun k => if k = i then m k ++ [x] else m k

/-- `value > connStrength` (graphIO.cpp:150, 159); `none` is the default bound −DBL_MAX, which is below
every float (graphIO.h:45). -/
def above (conn : Option Rat) (x : Rat) : Bool :=
  match conn with
  | none => true
  | some t => decide (t < x)

/-- Body of the entry loop, graphIO.cpp:113-164. The two range messages (124-130) have no other effect.
`none` is a read of the uninitialised `value`. -/
def mmStep (pattern : Bool) (conn : Option Rat) (s : MMSt) : MMLine → Option MMSt
  | .blank => some s
  | .entry row col v =>
    let r := row - 1                                            -- line 121
    let c := col - 1                                            -- line 122
    let s := { s with value := v.or s.value }
    if r = c then some s                                        -- line 132
    else if (s.nl r).contains c then some s                     -- lines 138-147
    else if pattern then
      some { s with nl := pushAt (pushAt s.nl r c) c r }        -- lines 154-157
    else match s.value with
      | none => none
      | some x =>
        if above conn x then                                    -- lines 149-153, 159-162
          some { s with nl := pushAt (pushAt s.nl r c) c r, vl := pushAt (pushAt s.vl r x) c x }
        else some s

/-- Appending the neighbour lists to the object, graphIO.cpp:168-173 (and 220-225). -/
def pushRows (vs : List Nat) (es : List Int) (nl : Int → List Int) (n : Nat) : List Nat × List Int :=
  (List.range n).foldl
    (fun (ve : List Nat × List Int) (i : Nat) =>
      let edges := ve.2 ++ nl (i : Int)
      (ve.1 ++ [edges.length], edges))
    (vs ++ [es.length], es)

/-- `CGraphIO::ReadMatrixMarketAdjacencyGraph` on an object holding `g0`, graphIO.cpp:47-186, for a file
that can be opened. The `while` loop of line 95 reads lines as long as they start with `%`; at the end of
the file `getline` leaves the line as it is, so a last comment line without newline is read forever. -/
def readMatrixMarket (g0 : GIO) (conn : Option Rat) (f : MMFile) : MMOut :=
  if 256 ≤ f.bannerLen then .ub                                 -- strcpy into data[256], line 75
  else if f.bannerWords = false then .refused                   -- lines 77-86
  else match f.body with
    | none => .hang                                             -- lines 94-96
    | some b =>
      if b.rows ≠ b.cols then .refused                          -- lines 101-106
      else match (b.lines.take b.entries.toNat).foldlM (mmStep f.pattern conn) ⟨fun _ => [], fun _ => [], none⟩ with
        | none => .ub
        | some s =>
          let (vs, es) := pushRows g0.vertices g0.edges s.nl b.rows.toNat
          .read ⟨vs, es,
            if f.pattern then g0.values                         -- lines 175-180
            else g0.values ++ (List.range b.rows.toNat).flatMap (fun (i : Nat) => s.vl (i : Int))⟩

/-- `CGraphIO::ReadEigenAdjacencyMatrix` on an object holding `g0`, graphIO.cpp:188-230. -/
def readEigenInto (g0 : GIO) (M : Mat) : GIO :=
  let (vs, es) := pushRows g0.vertices g0.edges (fun i => (readLoop M i.toNat).map Int.ofNat) M.n
  { g0 with vertices := vs, edges := es }

/-- `getFileExtension`, graphIO.cpp:259-289: what follows the last dot, nothing if there is no dot. -/
def fileExtension (name : List Char) : List Char :=
  if name.contains '.' then (name.reverse.takeWhile (fun c => c != '.')).reverse else []

/-- `CGraphIO::readGraph`, graphIO.cpp:35-45, with `ReadMeTiSAdjacencyGraph` (line 232), which does nothing
and returns `true`. `disk` gives the files that can be opened (lines 57-61). -/
def readGraph (disk : List Char → Option MMFile) (g0 : GIO) (conn : Option Rat) (name : List Char) : MMOut :=
  if fileExtension name = ['m', 't', 'x'] then
    match disk name with
    | none => .refused
    | some f => readMatrixMarket g0 conn f
  else if fileExtension name = ['g', 'r'] then .read g0
  else .refused

/-- `GetVertexCount`, graphIO.h:53: `m_vi_Vertices.size() - 1` converted to `int`. -/
def GIO.vertexCount (g : GIO) : Int := (g.vertices.length : Int) - 1

/-- `GetEdgeCount`, graphIO.h:54. -/
def GIO.edgeCount (g : GIO) : Nat := g.edges.length / 2

/-- `CalculateVertexDegrees`, graphIO.cpp:234-257: maximum, minimum and average degree. The average is a
floating-point quotient that is not a number for zero vertices (`none`). -/
def GIO.degrees (g : GIO) : Option (Int × Int × Option Rat) := do
  let (mx, mn) ← (List.range (g.vertices.length - 1)).foldlM
    (fun (m : Int × Int) i => do
      let d ← degree g.vertices i
      return (if m.1 < d then d else m.1,
              if m.2 = -1 then d else if m.2 > d then d else m.2))
    (-1, -1)
  return (mx, mn, if g.vertices.length - 1 = 0 then none
    else some ((g.edges.length : Rat) / ((g.vertices.length - 1 : Nat) : Rat)))

/-- The object as the finders see it. A negative neighbour index is an out-of-range access in every finder
(`none`); one that is too large is kept. -/
def GIO.csr (g : GIO) : Option CSR := do
  let es ← g.edges.mapM (fun z => if 0 ≤ z then some z.toNat else none)
  let d ← g.degrees
  return ⟨g.vertices, es, d.1⟩

end RPGO
