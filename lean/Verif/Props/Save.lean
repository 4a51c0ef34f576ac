import Verif.Model.Save
import Verif.Model.Solver
import Verif.Spec.Demo
import Verif.Proofs.Basic
import Verif.Proofs.Prov
import Mathlib.Data.Fintype.Fin
import Mathlib.LinearAlgebra.Matrix.Symmetric
import Mathlib.LinearAlgebra.Matrix.Notation
import Mathlib.Tactic.FinCases
import Mathlib.Algebra.BigOperators.Fin
/-
C43 what the saved g2o file contains; C49 the order of the information matrix in it.
-/

namespace RPGO.Spec
variable {G N K : Type}

/-- The vertex record of a value: its kind, its key, its numbers as printed. `none`: neither a pose nor a point. -/
def vertexRec (w : Writer G N K) (e : Key × Val G) : Option (Line K) :=
  match e.2 with
  | .pose g => some (.vertex (if w.three then .se3 else .se2) e.1 ((w.nums g).map w.fmt))
  | .other t => (w.other t).map fun x => .vertex x.1 e.1 (x.2.map w.fmt)

def isVertex : Line K → Bool
  | .vertex .. => true
  | .edge .. => false

/-- Is the line a vertex record of key `k`? -/
def isVertexOf (k : Key) : Line K → Bool
  | .vertex _ k' _ => k' == k
  | .edge .. => false

/-- The information matrix a 3D (2D) Gaussian noise model stands for. -/
def info6 [Semiring K] (w : Writer G N K) (n : N) : Matrix (Fin 6) (Fin 6) K := (w.sqrt6 n).transpose * w.sqrt6 n
def info3 [Semiring K] (w : Writer G N K) (n : N) : Matrix (Fin 3) (Fin 3) K := (w.sqrt3 n).transpose * w.sqrt3 n

/-- Does `l` describe the between factor `b`: its keys, its measurement and some list of numbers? -/
def edgeRec (w : Writer G N K) (b : Btw G N) (l : Line K) : Prop :=
  ∃ info, l = .edge w.three b.k1 b.k2 ((w.nums b.m).map w.fmt) info

/-- The symmetric matrix whose upper triangle, row by row, is `l`. -/
def readUpper [Zero K] (n : Nat) (l : List K) : Matrix (Fin n) (Fin n) K := fun i j =>
  let a := min i.val j.val
  let b := max i.val j.val
  l.getD (a * n - a * (a - 1) / 2 + (b - a)) 0

/-- GTSAM orders the coordinates of a 3D pose rotation first, g2o translation first. -/
def g2oOrder (A : Matrix (Fin 6) (Fin 6) K) : Matrix (Fin 6) (Fin 6) K := fun i j => A (i + 3) (j + 3)

end RPGO.Spec

namespace RPGO
variable {G N K : Type}

theorem vertexPass_eq (w : Writer G N K) (kind : VKind) (v : Vals G) (file : List (Line K)) :
    vertexPass w kind v file = .ok (file ++ (v.filterMap (Spec.vertexRec w)).filter
      fun l => match l with | .vertex k' _ _ => decide (k' = kind) | .edge .. => false) () := by
  induction v generalizing file with
  | nil => simp [vertexPass, M.pure]
  | cons e t ih =>
    obtain ⟨k, x⟩ := e
    unfold vertexPass
    cases x with
    | pose g =>
      simp only [valueKind, Spec.vertexRec, List.filterMap_cons]
      rw [ih]
      generalize (if w.three = true then VKind.se3 else VKind.se2) = kk
      by_cases h : kk = kind <;> simp [h]
    | other tag =>
      simp only [valueKind, Spec.vertexRec, List.filterMap_cons]
      cases w.other tag with
      | none => simp only [Option.map_none]; rw [ih]
      | some y =>
        simp only [Option.map_some]
        rw [ih]
        by_cases h : y.1 = kind <;> simp [h]

/-- The edge records, up to the first factor whose noise is not Gaussian. -/
def edgeLines [Semiring K] (w : Writer G N K) (g : Graph G N) : List (Line K) :=
  (Spec.btws g).filterMap fun b => b.noise.map fun n =>
    .edge w.three b.k1 b.k2 ((w.nums b.m).map w.fmt) (infoEntries w n)

theorem btws_cons_btw (b : Btw G N) (t : Graph G N) : Spec.btws (some (.btw b) :: t) = b :: Spec.btws t := rfl

theorem edgePass_btw [Semiring K] (w : Writer G N K) (b : Btw G N) (t : Graph G N) (file : List (Line K)) :
    edgePass w (some (.btw b) :: t) file = match b.noise with
      | none => .throw file .invalidArg
      | some n => edgePass w t (file ++ [.edge w.three b.k1 b.k2 ((w.nums b.m).map w.fmt) (infoEntries w n)]) := rfl

theorem edgePass_eq [Semiring K] (w : Writer G N K) (g : Graph G N) (file : List (Line K)) :
    ((∀ b ∈ Spec.btws g, b.noise.isSome) ∧ edgePass w g file = .ok (file ++ edgeLines w g) ()) ∨
    ∃ g1 b g2, g = g1 ++ some (.btw b) :: g2 ∧ b.noise = none ∧ (∀ b ∈ Spec.btws g1, b.noise.isSome) ∧
      edgePass w g file = .throw (file ++ edgeLines w g1) .invalidArg := by
  have skip : ∀ (f : Option (Factor G N)) (t : Graph G N), (∀ b, f ≠ some (.btw b)) →
      edgePass w (f :: t) = edgePass w t ∧ Spec.btws (f :: t) = Spec.btws t := by
    intro f t hf
    match f with
    | none => exact ⟨rfl, rfl⟩
    | some (.btw b) => exact absurd rfl (hf b)
    | some (.prior ..) => exact ⟨rfl, rfl⟩
    | some (.priorAlt ..) => exact ⟨rfl, rfl⟩
    | some (.other ..) => exact ⟨rfl, rfl⟩
  induction g generalizing file with
  | nil =>
    left
    refine ⟨by simp [Spec.btws], ?_⟩
    show Out.ok file () = _
    simp [edgeLines, Spec.btws]
  | cons f t ih =>
    by_cases hf : ∃ b, f = some (.btw b)
    · obtain ⟨b, rfl⟩ := hf
      rw [edgePass_btw]
      cases hn : b.noise with
      | none =>
        right
        refine ⟨[], b, t, rfl, hn, by simp [Spec.btws], ?_⟩
        simp [edgeLines, Spec.btws]
      | some n =>
        simp only
        rcases ih (file ++ [.edge w.three b.k1 b.k2 ((w.nums b.m).map w.fmt) (infoEntries w n)]) with
          ⟨h1, h2⟩ | ⟨g1, b', g2, rfl, h1, h2, h3⟩
        · left
          refine ⟨?_, ?_⟩
          · intro x hx
            rw [btws_cons_btw] at hx
            rcases List.mem_cons.1 hx with rfl | hx
            · rw [hn]; rfl
            · exact h1 x hx
          · rw [h2]
            simp [edgeLines, btws_cons_btw, hn]
        · right
          refine ⟨some (.btw b) :: g1, b', g2, rfl, h1, ?_, ?_⟩
          · intro x hx
            rw [btws_cons_btw] at hx
            rcases List.mem_cons.1 hx with rfl | hx
            · rw [hn]; rfl
            · exact h2 x hx
          · rw [h3]
            simp [edgeLines, btws_cons_btw, hn]
    · have hf : ∀ b, f ≠ some (.btw b) := fun b e => hf ⟨b, e⟩
      obtain ⟨e1, e2⟩ := skip f t hf
      rw [e1]
      rcases ih file with ⟨h1, h2⟩ | ⟨g1, b', g2, rfl, h1, h2, h3⟩
      · left
        rw [e2]
        refine ⟨h1, ?_⟩
        rw [h2]; unfold edgeLines; rw [e2]
      · right
        have e3 := (skip f g1 hf).2
        refine ⟨f :: g1, b', g2, rfl, h1, by rw [e3]; exact h2, ?_⟩
        rw [h3]; unfold edgeLines; rw [e3]

/-- The vertex records in the order of the file. -/
def vertexLines (w : Writer G N K) (v : Vals G) : List (Line K) :=
  [VKind.se2, .se3, .xy, .xyz].flatMap fun kind => (v.filterMap (Spec.vertexRec w)).filter
    fun l => match l with | .vertex k' _ _ => decide (k' = kind) | .edge .. => false

theorem writeG2o_eq [Semiring K] (w : Writer G N K) (g : Graph G N) (v : Vals G) :
    writeG2o w g v [] = edgePass w g (vertexLines w v) := by
  unfold writeG2o
  simp only [Bind.bind, M.bind, vertexPass_eq]
  congr 1
  simp [vertexLines]

theorem vertexLines_perm (w : Writer G N K) (v : Vals G) : (vertexLines w v).Perm (v.filterMap (Spec.vertexRec w)) := by
  have key : ∀ l : List (Line K), (∀ x ∈ l, Spec.isVertex x = true) →
      ([VKind.se2, .se3, .xy, .xyz].flatMap fun kind => l.filter
        fun l => match l with | .vertex k' _ _ => decide (k' = kind) | .edge .. => false).Perm l := by
    intro l hl
    induction l with
    | nil => simp
    | cons x l ih =>
      have hx := hl x (by simp)
      have ih := ih fun y hy => hl y (by simp [hy])
      simp only [List.flatMap_cons, List.flatMap_nil, List.append_nil] at ih ⊢
      cases x with
      | edge => cases hx
      | vertex kind k nums =>
        cases kind
        · simpa [List.filter_cons] using ih
        · simp only [List.filter_cons, reduceCtorEq, decide_false, decide_true, if_true, Bool.false_eq_true, if_false]
          refine List.perm_middle.trans (List.Perm.cons _ ?_)
          simpa using ih
        · simp only [List.filter_cons, reduceCtorEq, decide_false, decide_true, if_true, Bool.false_eq_true, if_false]
          rw [← List.append_assoc]
          refine List.perm_middle.trans (List.Perm.cons _ ?_)
          simpa using ih
        · simp only [List.filter_cons, reduceCtorEq, decide_false, decide_true, if_true, Bool.false_eq_true, if_false]
          rw [← List.append_assoc, ← List.append_assoc]
          refine List.perm_middle.trans (List.Perm.cons _ ?_)
          simpa using ih
  refine key _ ?_
  intro x hx
  obtain ⟨e, _, he⟩ := List.mem_filterMap.1 hx
  unfold Spec.vertexRec at he
  split at he
  · cases he; rfl
  · obtain ⟨y, _, rfl⟩ := Option.map_eq_some_iff.1 he; rfl

theorem vertexLines_vertex (w : Writer G N K) (v : Vals G) : ∀ l ∈ vertexLines w v, Spec.isVertex l = true := by
  intro l hl
  obtain ⟨e, _, he⟩ := List.mem_filterMap.1 ((vertexLines_perm w v).subset hl)
  unfold Spec.vertexRec at he
  split at he
  · cases he; rfl
  · obtain ⟨y, _, rfl⟩ := Option.map_eq_some_iff.1 he; rfl

theorem edgeLines_edge [Semiring K] (w : Writer G N K) (g : Graph G N) : ∀ l ∈ edgeLines w g, Spec.isVertex l = false := by
  intro l hl
  obtain ⟨b, _, hb⟩ := List.mem_filterMap.1 hl
  obtain ⟨n, _, rfl⟩ := Option.map_eq_some_iff.1 hb
  rfl

/-! ### Matrices -/

theorem upper3 (A : Matrix (Fin 3) (Fin 3) K) : upper A = [A 0 0, A 0 1, A 0 2, A 1 1, A 1 2, A 2 2] := rfl

theorem upper6 (A : Matrix (Fin 6) (Fin 6) K) : upper A =
    [A 0 0, A 0 1, A 0 2, A 0 3, A 0 4, A 0 5, A 1 1, A 1 2, A 1 3, A 1 4, A 1 5, A 2 2, A 2 3, A 2 4, A 2 5,
     A 3 3, A 3 4, A 3 5, A 4 4, A 4 5, A 5 5] := rfl

theorem readUpper3 [Zero K] (A : Matrix (Fin 3) (Fin 3) K) (h : A.IsSymm) : Spec.readUpper 3 (upper A) = A := by
  have h : ∀ i j, A j i = A i j := fun i j => congrFun (congrFun h i) j
  rw [upper3]
  ext i j
  fin_cases i <;> fin_cases j <;> first | rfl | exact h _ _

theorem readUpper6 [Zero K] (A : Matrix (Fin 6) (Fin 6) K) (h : A.IsSymm) : Spec.readUpper 6 (upper A) = A := by
  have h : ∀ i j, A j i = A i j := fun i j => congrFun (congrFun h i) j
  rw [upper6]
  ext i j
  fin_cases i <;> fin_cases j <;> first | rfl | exact h _ _

theorem info6_symm [CommSemiring K] (w : Writer G N K) (n : N) : (Spec.info6 w n).IsSymm := by
  unfold Spec.info6 Matrix.IsSymm
  rw [Matrix.transpose_mul, Matrix.transpose_transpose]

theorem info3_symm [CommSemiring K] (w : Writer G N K) (n : N) : (Spec.info3 w n).IsSymm := by
  unfold Spec.info3 Matrix.IsSymm
  rw [Matrix.transpose_mul, Matrix.transpose_transpose]

theorem swapBlocks_symm {A : Matrix (Fin 6) (Fin 6) K} (h : A.IsSymm) : (swapBlocks A).IsSymm := by
  have h : ∀ i j, A j i = A i j := fun i j => congrFun (congrFun h i) j
  ext i j
  fin_cases i <;> fin_cases j <;> exact h _ _

theorem upper_map {n : Nat} (f : K → K) (A : Matrix (Fin n) (Fin n) K) : (upper A).map f = upper (A.map f) := by
  unfold upper
  rw [List.map_flatMap]
  congr 1
  funext i
  rw [List.map_map]
  rfl

theorem swapBlocks_map (f : K → K) (A : Matrix (Fin 6) (Fin 6) K) : (swapBlocks A).map f = swapBlocks (A.map f) := by
  ext i j
  rw [Matrix.map_apply]
  fin_cases i <;> fin_cases j <;> rfl

namespace Props

/-- C43: the vertex records of the file are one record per pose or point of the estimate, whether or not the writer
throws later; the keys of the estimate are distinct, so a pose at `k` has exactly one record with key `k`. -/
theorem C43_vertices [Semiring K] (w : Writer G N K) (g : Graph G N) (v : Vals G) {file : List (Line K)}
    (h : writeG2o w g v [] = .ok file () ∨ ∃ x, writeG2o w g v [] = .throw file x) :
    (file.filter Spec.isVertex).Perm (v.filterMap (Spec.vertexRec w)) ∧
    ∀ k x, v.Sorted → v.find? k = some (.pose x) →
      file.filter (Spec.isVertexOf k) = [.vertex (if w.three then .se3 else .se2) k ((w.nums x).map w.fmt)] := by
  have hf : ∃ g', file = vertexLines w v ++ edgeLines w g' := by
    rw [writeG2o_eq] at h
    rcases edgePass_eq w g (vertexLines w v) with ⟨_, e⟩ | ⟨g1, _, _, _, _, _, e⟩
    · rw [e] at h
      rcases h with h | ⟨x, h⟩
      · cases h; exact ⟨g, rfl⟩
      · cases h
    · rw [e] at h
      rcases h with h | ⟨x, h⟩
      · cases h
      · cases h; exact ⟨g1, rfl⟩
  obtain ⟨g', rfl⟩ := hf
  have h1 : (vertexLines w v ++ edgeLines w g').filter Spec.isVertex = vertexLines w v := by
    rw [List.filter_append, List.filter_eq_self.2 (vertexLines_vertex w v), List.filter_eq_nil_iff.2, List.append_nil]
    intro l hl
    rw [edgeLines_edge w g' l hl]; simp
  refine ⟨by rw [h1]; exact vertexLines_perm w v, ?_⟩
  intro k x hs hk
  have h2 : (vertexLines w v ++ edgeLines w g').filter (Spec.isVertexOf k) = (vertexLines w v).filter (Spec.isVertexOf k) := by
    rw [List.filter_append, (List.filter_eq_nil_iff (l := edgeLines w g')).2, List.append_nil]
    intro l hl
    have := edgeLines_edge w g' l hl
    cases l with
    | vertex => cases this
    | edge => simp [Spec.isVertexOf]
  rw [h2]
  have h3 := (vertexLines_perm w v).filter (Spec.isVertexOf k)
  have h4 : (v.filterMap (Spec.vertexRec w)).filter (Spec.isVertexOf k) =
      [.vertex (if w.three then .se3 else .se2) k ((w.nums x).map w.fmt)] := by
    clear h h1 h2 h3
    induction v with
    | nil => cases hk
    | cons e t ih =>
      obtain ⟨k0, y⟩ := e
      obtain ⟨s1, s2⟩ := List.pairwise_cons.1 hs
      have hrest : k0 = k → (t.filterMap (Spec.vertexRec w)).filter (Spec.isVertexOf k) = [] := by
        rintro rfl
        rw [List.filter_eq_nil_iff]
        intro l hl
        obtain ⟨e, he, hr⟩ := List.mem_filterMap.1 hl
        have hlt := s1 e.1 (List.mem_map.2 ⟨e, he, rfl⟩)
        have hne : e.1 ≠ k0 := by intro h; rw [h] at hlt; exact absurd hlt (Nat.lt_irrefl _)
        unfold Spec.vertexRec at hr
        split at hr
        · cases hr; simpa [Spec.isVertexOf] using hne
        · obtain ⟨z, _, rfl⟩ := Option.map_eq_some_iff.1 hr; simpa [Spec.isVertexOf] using hne
      rw [KMap.find?_cons] at hk
      split at hk
      · rename_i hkk
        cases hk
        rw [List.filterMap_cons]
        simp only [Spec.vertexRec]
        rw [List.filter_cons, if_pos (by simpa [Spec.isVertexOf] using hkk)]
        rw [hrest hkk, hkk]
      · rename_i hkk
        rw [List.filterMap_cons]
        have ih := ih s2 hk
        cases hr : Spec.vertexRec w (k0, y) with
        | none => exact ih
        | some l =>
          simp only
          rw [List.filter_cons, if_neg, ih]
          unfold Spec.vertexRec at hr
          split at hr
          · cases hr; simpa [Spec.isVertexOf] using hkk
          · obtain ⟨z, _, rfl⟩ := Option.map_eq_some_iff.1 hr; simpa [Spec.isVertexOf] using hkk
  rw [h4] at h3
  exact List.perm_singleton.1 h3

/-- C43: if the writer returns normally, the edge records are, in order, one record per between factor of the graph. -/
theorem C43_edges [Semiring K] (w : Writer G N K) (g : Graph G N) (v : Vals G) {file : List (Line K)}
    (h : writeG2o w g v [] = .ok file ()) :
    List.Forall₂ (Spec.edgeRec w) (Spec.btws g) (file.filter fun l => !Spec.isVertex l) := by
  rw [writeG2o_eq] at h
  rcases edgePass_eq w g (vertexLines w v) with ⟨hn, e⟩ | ⟨g1, _, _, _, _, _, e⟩
  · rw [e] at h
    cases h
    rw [List.filter_append, (List.filter_eq_nil_iff (l := vertexLines w v)).2, List.nil_append, List.filter_eq_self.2]
    · unfold edgeLines
      revert hn
      generalize Spec.btws g = bs
      intro hn
      induction bs with
      | nil => exact .nil
      | cons b bs ih =>
        obtain ⟨n, hb⟩ := Option.isSome_iff_exists.1 (hn b (by simp))
        rw [List.filterMap_cons, hb]
        exact .cons ⟨_, rfl⟩ (ih fun x hx => hn x (by simp [hx]))
    · intro l hl; rw [edgeLines_edge w g l hl]; rfl
    · intro l hl; rw [vertexLines_vertex w v l hl]; simp
  · rw [e] at h; cases h

/-- C43: the writer refuses exactly the graphs with a between factor whose noise is not Gaussian, and `saveData` fails
exactly then. -/
theorem C43_refuses [Semiring K] {T : Type} [Mul G] [Inv G] [One G] (cfg : Cfg G T N) (env : Env G N) (w : Writer G N K) (s : St G T N) :
    ((∃ b ∈ Spec.btws s.nfg, b.noise = none) ↔ ∃ file, writeG2o w s.nfg s.values [] = .throw file .invalidArg) ∧
    ((∀ b ∈ Spec.btws s.nfg, b.noise.isSome) ↔ ∃ file, writeG2o w s.nfg s.values [] = .ok file ()) ∧
    ((∃ file, writeG2o w s.nfg s.values [] = .ok file ()) ↔ exec cfg env .saveData s = .ok s .unit) ∧
    ((∃ file, writeG2o w s.nfg s.values [] = .throw file .invalidArg) ↔ exec cfg env .saveData s = .throw s .invalidArg) := by
  have hg : ∀ g : Graph G N, g2oOk g = true ↔ ∀ b ∈ Spec.btws g, b.noise.isSome := by
    intro g
    induction g with
    | nil => simp [g2oOk, Spec.btws]
    | cons f t ih =>
      match f with
      | none => exact ih
      | some (.btw b) => rw [btws_cons_btw]; simp only [g2oOk, Bool.and_eq_true, ih, List.forall_mem_cons]
      | some (.prior ..) => exact ih
      | some (.priorAlt ..) => exact ih
      | some (.other ..) => exact ih
  have hx : exec cfg env .saveData s = if g2oOk s.nfg then .ok s .unit else .throw s .invalidArg := by
    show (saveData.ret fun _ => Ret.unit) s = _
    cases hs : g2oOk s.nfg <;> simp [M.ret, M.bind, saveData, hs, M.pure]
  rw [writeG2o_eq, hx]
  rcases edgePass_eq w s.nfg (vertexLines w s.values) with ⟨hn, e⟩ | ⟨g1, b, g2, hgr, hb, _, e⟩
  · rw [e, if_pos ((hg _).2 hn)]
    refine ⟨⟨?_, ?_⟩, ⟨fun _ => ⟨_, rfl⟩, fun _ => hn⟩, ⟨fun _ => rfl, fun _ => ⟨_, rfl⟩⟩, ⟨?_, ?_⟩⟩
    · rintro ⟨b, hb, h0⟩; have := hn b hb; rw [h0] at this; cases this
    · rintro ⟨_, h⟩; cases h
    · rintro ⟨_, h⟩; cases h
    · intro h; cases h
  · have hmem : b ∈ Spec.btws s.nfg := by rw [hgr]; exact mem_btws.2 (by simp)
    have hno : ¬ ∀ b ∈ Spec.btws s.nfg, b.noise.isSome := by
      intro h; have := h b hmem; rw [hb] at this; cases this
    rw [e, if_neg (by rw [hg]; exact hno)]
    refine ⟨⟨fun _ => ⟨_, rfl⟩, fun _ => ⟨b, hmem, hb⟩⟩, ⟨fun h => absurd h hno, ?_⟩, ⟨?_, ?_⟩, ⟨fun _ => rfl, fun _ => ⟨_, rfl⟩⟩⟩
    · rintro ⟨_, h⟩; cases h
    · rintro ⟨_, h⟩; cases h
    · intro h; cases h

/-- C43: the block exchange is its own inverse, and keeps symmetric matrices symmetric. -/
theorem C43_swap (A : Matrix (Fin 6) (Fin 6) K) : swapBlocks (swapBlocks A) = A ∧ (A.IsSymm → (swapBlocks A).IsSymm) := by
  refine ⟨?_, swapBlocks_symm⟩
  ext i j
  fin_cases i <;> fin_cases j <;> rfl

/-- C43: the numbers after the measurement of an edge are 21 (6) entries that determine the information matrix: reading
them back as the upper triangle of a symmetric matrix, and exchanging the blocks in 3D, gives it back entry by entry, as
printed. -/
theorem C43_info [CommSemiring K] (w : Writer G N K) (n : N) :
    (w.three = true → (infoEntries w n).length = 21 ∧
      swapBlocks (Spec.readUpper 6 (infoEntries w n)) = (Spec.info6 w n).map w.fmt) ∧
    (w.three = false → (infoEntries w n).length = 6 ∧
      Spec.readUpper 3 (infoEntries w n) = (Spec.info3 w n).map w.fmt) := by
  refine ⟨fun h => ?_, fun h => ?_⟩
  · have e : infoEntries w n = upper (swapBlocks ((Spec.info6 w n).map w.fmt)) := by
      unfold infoEntries
      rw [if_pos h, upper_map, swapBlocks_map]
      rfl
    rw [e]
    refine ⟨by rw [upper6]; rfl, ?_⟩
    rw [readUpper6, (C43_swap _).1]
    refine swapBlocks_symm ?_
    exact (info6_symm w n).map w.fmt
  · have e : infoEntries w n = upper ((Spec.info3 w n).map w.fmt) := by
      unfold infoEntries
      rw [if_neg (by simp [h]), upper_map]
      rfl
    rw [e]
    exact ⟨by rw [upper3]; rfl, readUpper3 _ ((info3_symm w n).map w.fmt)⟩

/-- C43: every edge record carries the entries of its own factor's noise. -/
theorem C43_edge_info [Semiring K] (w : Writer G N K) (g : Graph G N) (v : Vals G) {file : List (Line K)}
    (h : writeG2o w g v [] = .ok file ()) {three : Bool} {k1 k2 : Key} {nums info : List K}
    (hl : Line.edge three k1 k2 nums info ∈ file) :
    ∃ b ∈ Spec.btws g, ∃ n, b.noise = some n ∧ three = w.three ∧ k1 = b.k1 ∧ k2 = b.k2 ∧
      nums = (w.nums b.m).map w.fmt ∧ info = infoEntries w n := by
  rw [writeG2o_eq] at h
  rcases edgePass_eq w g (vertexLines w v) with ⟨hn, e⟩ | ⟨g1, _, _, _, _, _, e⟩
  · rw [e] at h
    cases h
    rcases List.mem_append.1 hl with hl | hl
    · have := vertexLines_vertex w v _ hl; cases this
    · obtain ⟨b, hb, he⟩ := List.mem_filterMap.1 hl
      obtain ⟨n, hn, he⟩ := Option.map_eq_some_iff.1 he
      cases he
      exact ⟨b, hb, n, hn, rfl, rfl, rfl, rfl, rfl⟩
  · rw [e] at h; cases h

/-- C49, partial: if the block of the information matrix that couples rotation and translation is symmetric (for
example zero), the entries of a 3D edge are the upper triangle of the matrix in g2o order. Missing: other matrices,
where the claim is false (`C49_false`). -/
theorem C49_partial [CommSemiring K] (w : Writer G N K) (n : N) (h3 : w.three = true)
    (hs : ∀ i j : Fin 3, Spec.info6 w n (i.castAdd 3) (j.natAdd 3) = Spec.info6 w n (j.castAdd 3) (i.natAdd 3)) :
    Spec.readUpper 6 (infoEntries w n) = (Spec.g2oOrder (Spec.info6 w n)).map w.fmt := by
  have hsym : ∀ i j, Spec.info6 w n j i = Spec.info6 w n i j := fun i j => congrFun (congrFun (info6_symm w n) i) j
  have e : Spec.readUpper 6 (infoEntries w n) = swapBlocks ((Spec.info6 w n).map w.fmt) := by
    rw [← ((C43_info w n).1 h3).2, (C43_swap _).1]
  rw [e, ← swapBlocks_map]
  congr 1
  have key : ∀ A : Matrix (Fin 6) (Fin 6) K, (∀ i j, A j i = A i j) →
      (∀ i j : Fin 3, A (i.castAdd 3) (j.natAdd 3) = A (j.castAdd 3) (i.natAdd 3)) → swapBlocks A = Spec.g2oOrder A := by
    intro A hA hB
    ext i j
    fin_cases i <;> fin_cases j <;>
      first
        | rfl
        | exact (hA _ _)
        | exact (hB 0 1).trans (hA _ _)
        | exact (hB 1 0).trans (hA _ _)
        | exact (hB 0 2).trans (hA _ _)
        | exact (hB 2 0).trans (hA _ _)
        | exact (hB 1 2).trans (hA _ _)
        | exact (hB 2 1).trans (hA _ _)
        | exact (hA _ _).trans ((hB 0 1).trans rfl)
        | exact (hA _ _).trans ((hB 1 0).trans rfl)
        | exact (hA _ _).trans ((hB 0 2).trans rfl)
        | exact (hA _ _).trans ((hB 2 0).trans rfl)
        | exact (hA _ _).trans ((hB 1 2).trans rfl)
        | exact (hA _ _).trans ((hB 2 1).trans rfl)
  exact key _ hsym hs

end Props

namespace Demo

/-- A 3D writer on poses that are integers; the noise is a square-root information matrix. -/
def writer (R : Matrix (Fin 6) (Fin 6) ℚ) : Writer Z Ns ℚ where
  three := true
  nums g := [(Multiplicative.toAdd g : ℤ), 0, 0, 0, 0, 0, 1]
  other t := if t = 0 then none else some (.xyz, [t, 0, 0])
  sqrt3 _ := 1
  sqrt6 _ := R
  fmt := id

/-- Square-root information of a pose whose first rotation and second translation coordinates are correlated. -/
def coupled : Matrix (Fin 6) (Fin 6) ℚ := fun i j =>
  if i = 0 ∧ j = 0 then 2 else if i = 0 ∧ j = 4 then 2 else if i = j then 1 else 0

end Demo

namespace Props
open Demo

/-- C49 is false of the code: the rotation-translation block is written without transposing it. For this noise the
matrix read from the file is not the information matrix in g2o order, and is not even positive semidefinite: the vector
(1, 0, 0, 0, -1, 0) gets information -6. -/
theorem C49_false : Spec.readUpper 6 (infoEntries (writer coupled) ⟨(), false⟩) ≠ Spec.g2oOrder (Spec.info6 (writer coupled) ⟨(), false⟩) ∧
    let B := Spec.readUpper 6 (infoEntries (writer coupled) ⟨(), false⟩)
    let x : Fin 6 → ℚ := ![1, 0, 0, 0, -1, 0]
    ∑ i, ∑ j, x i * B i j * x j = -6 := by
  refine ⟨fun h => ?_, ?_⟩
  · have := congrFun (congrFun h 0) 4
    revert this
    decide +kernel
  · decide +kernel

/-- A file: two poses, a point, a value that is not written, a prior and two edges. -/
def file1 : Out (List (Line ℚ)) Unit :=
  writeG2o (writer coupled) [some (.prior (a 0) (z 0)), edge (a 0) (a 1) 1, none, edge (a 1) (a 0) (-1)]
    [pose (a 0) 0, pose (a 1) 1, (l 0, .other 7), (l 1, .other 0)] []

/-- The lines of an outcome that is normal. -/
def lines : Out (List (Line ℚ)) Unit → List (Line ℚ)
  | .ok f _ => f
  | _ => []

example : lines file1 =
    [.vertex .se3 (a 0) [0, 0, 0, 0, 0, 0, 1], .vertex .se3 (a 1) [1, 0, 0, 0, 0, 0, 1], .vertex .xyz (l 0) [7, 0, 0],
      .edge true (a 0) (a 1) [1, 0, 0, 0, 0, 0, 1] [1, 0, 0, 0, 4, 0, 5, 0, 0, 0, 0, 1, 0, 0, 0, 4, 0, 0, 1, 0, 1],
      .edge true (a 1) (a 0) [-1, 0, 0, 0, 0, 0, 1] [1, 0, 0, 0, 4, 0, 5, 0, 0, 0, 0, 1, 0, 0, 0, 4, 0, 0, 1, 0, 1]] := by
  decide +kernel

/-- `C43_edges` and `C43_vertices` apply to it. -/
example : ∃ f, file1 = .ok f () := by
  have h := (C43_refuses Demo.cfg Demo.env (writer coupled) { (St.init : St Z Tp Ns) with
    nfg := [some (.prior (a 0) (z 0)), edge (a 0) (a 1) 1, none, edge (a 1) (a 0) (-1)],
    values := [pose (a 0) 0, pose (a 1) 1, (l 0, .other 7), (l 1, .other 0)] }).2.1.1 (by decide +kernel)
  exact h

/-- `C49_partial` applies to an uncorrelated noise with different precisions. -/
example : let R : Matrix (Fin 6) (Fin 6) ℚ := fun i j => if i = j then (i.val : ℚ) + 1 else 0
    (∀ i j : Fin 3, Spec.info6 (writer R) ⟨(), false⟩ (i.castAdd 3) (j.natAdd 3) =
      Spec.info6 (writer R) ⟨(), false⟩ (j.castAdd 3) (i.natAdd 3)) ∧
    infoEntries (writer R) ⟨(), false⟩ = [16, 0, 0, 0, 0, 0, 25, 0, 0, 0, 0, 36, 0, 0, 0, 1, 0, 0, 4, 0, 9] := by
  decide +kernel

end Props
end RPGO
