import Verif.Props.Clique
import Verif.Props.LandMatrix
import Verif.Props.Matrix
import Verif.Spec.Demo
/-
C95: the numbers of the clique search fit into `int`.
-/

namespace RPGO.Spec
/-- A value of a 32-bit `int`. -/
def IsInt (x : Int) : Prop := -2 ^ 31 ≤ x ∧ x < 2 ^ 31

/-- Every number in the graph the clique search works on is a value of an `int`, and so is every degree and every position in
the edge array up to one behind its end (what the loops count to). -/
def FitsInt (g : CSR) : Prop :=
  (∀ x ∈ g.vertices, IsInt x) ∧ (∀ x ∈ g.edges, IsInt x) ∧ IsInt g.maxDeg ∧ IsInt g.edges.length ∧ IsInt g.vertices.length ∧
    ∀ v d, degree g.vertices v = some d → IsInt d

end RPGO.Spec

namespace RPGO

theorem off_le (M : Mat) (v : Nat) : off (nbrs M) v ≤ v * (M.n - 1) := by
  induction v with
  | zero => simp [off]
  | succ v ih =>
    rw [off_succ, Nat.succ_mul]
    have : (nbrs M v).length ≤ M.n - 1 := by
      have hsub : (nbrs M v) ⊆ (List.range M.n).erase v := by
        intro u hu
        obtain ⟨_, hu2, hne, _⟩ := mem_nbrs.1 hu
        exact (List.mem_erase_of_ne (fun e => hne e.symm)).2 (List.mem_range.2 hu2)
      by_cases hv : v < M.n
      · have := ((nbrs_nodup M v).subperm hsub).length_le
        rwa [List.length_erase_of_mem (List.mem_range.2 hv), List.length_range] at this
      · have : nbrs M v = [] := by
          rw [List.eq_nil_iff_forall_not_mem]
          intro u hu
          exact hv (mem_nbrs.1 hu).1
        rw [this]; simp
    omega

/-- In the graph in which all vertices are joined the offsets are multiples of `n - 1`. -/
theorem off_complete (M : Mat) (hc : ∀ i j, i < M.n → j < M.n → i ≠ j → Joined M i j) {v : Nat} (hv : v ≤ M.n) :
    off (nbrs M) v = v * (M.n - 1) := by
  induction v with
  | zero => simp [off]
  | succ v ih =>
    rw [off_succ, ih (by omega), Nat.succ_mul]
    congr 1
    have hp : (nbrs M v).Perm ((List.range M.n).erase v) := by
      refine (List.perm_ext_iff_of_nodup (nbrs_nodup M v) (List.nodup_range.erase v)).2 fun u => ?_
      rw [mem_nbrs, List.nodup_range.mem_erase_iff, List.mem_range]
      constructor
      · intro h; exact ⟨fun e => h.2.2.1 e.symm, h.2.1⟩
      · intro h; exact hc v u (by omega) h.2 (fun e => h.1 e.symm)
    rw [hp.length_eq, List.length_erase_of_mem (List.mem_range.2 (by omega)), List.length_range]

theorem off_edges (M : Mat) : ((List.range M.n).flatMap (nbrs M)).length = off (nbrs M) M.n := rfl

end RPGO

namespace RPGO.Props
open RPGO
variable {G T N : Type} [Mul G] [Inv G] [One G]

/-- C95: up to 46 341 vertices every number of the graph fits into an `int`, whatever the matrix. -/
theorem C95_fits (M : Mat) (hn : M.n ≤ 46341) : ∃ g, readEigen M = some g ∧ Spec.FitsInt g := by
  obtain ⟨g, eg, R, hm⟩ := readEigen_eq M
  have hmax : M.n * (M.n - 1) < 2 ^ 31 := by
    calc M.n * (M.n - 1) ≤ 46341 * 46340 := Nat.mul_le_mul hn (by omega)
      _ < 2 ^ 31 := by norm_num
  have hoff : ∀ v ≤ M.n, off (nbrs M) v < 2 ^ 31 := fun v hv =>
    lt_of_le_of_lt ((off_le M v).trans (Nat.mul_le_mul_right _ hv)) hmax
  have hint : ∀ x : Nat, x < 2 ^ 31 → Spec.IsInt x := fun x hx => by
    unfold Spec.IsInt
    constructor
    · have : (0 : Int) ≤ x := Int.natCast_nonneg x
      omega
    · exact_mod_cast hx
  have hdeg : ∀ v < M.n, (nbrs M v).length < 2 ^ 31 := fun v hv => by
    have := hoff (v + 1) (by omega)
    rw [off_succ] at this
    omega
  refine ⟨g, eg, ?_, ?_, ?_, ?_, ?_, ?_⟩
  · intro x hx
    rw [R.vs] at hx
    obtain ⟨v, hv, rfl⟩ := List.mem_map.1 hx
    exact hint _ (hoff v (by have := List.mem_range.1 hv; omega))
  · intro x hx
    rw [R.es] at hx
    obtain ⟨v, hv, hx⟩ := List.mem_flatMap.1 hx
    exact hint _ (lt_of_lt_of_le (R.rng v (List.mem_range.1 hv) x hx) (by omega))
  · rw [hm]
    rcases Nat.eq_zero_or_pos M.n with h0 | h0
    · rw [h0]
      have : maxDegOf (nbrs M) 0 = -1 := rfl
      rw [this]
      exact ⟨by decide, by decide⟩
    · obtain ⟨v, hv, e⟩ := maxDegOf_attained (nbrs M) M.n h0
      rw [e]; exact hint _ (hdeg v hv)
  · rw [R.es, off_edges]; exact hint _ (hoff _ le_rfl)
  · rw [R.len]; exact hint _ (by omega)
  · intro v d hd
    by_cases hv : v < M.n
    · rw [R.degree hv] at hd
      cases hd
      exact hint _ (hdeg v hv)
    · unfold degree rd at hd
      rw [List.getElem?_eq_none (by rw [R.len]; omega)] at hd
      cases hd

/-- C95: the bound is exact. With more vertices, all joined, the offset behind the last vertex does not fit. -/
theorem C95_bound_exact (M : Mat) (hn : 46342 ≤ M.n) (hc : ∀ i j, i < M.n → j < M.n → i ≠ j → Joined M i j) :
    ∃ g, readEigen M = some g ∧ ∃ x ∈ g.vertices, ¬ Spec.IsInt x := by
  obtain ⟨g, eg, R, _⟩ := readEigen_eq M
  refine ⟨g, eg, off (nbrs M) M.n, ?_, ?_⟩
  · rw [R.vs]; exact List.mem_map.2 ⟨M.n, List.mem_range.2 (by omega), rfl⟩
  · rw [off_complete M hc le_rfl]
    intro h
    have h2 : M.n * (M.n - 1) < 2 ^ 31 := by exact_mod_cast h.2
    have : 46342 * 46341 ≤ M.n * (M.n - 1) := Nat.mul_le_mul hn (by omega)
    omega

/-- C95, for the solver: after any calls, as long as a robot pair has between one and 46 341 closures, the search among them
works on numbers that fit into an `int`. -/
theorem C95_closures {cfg : Cfg G T N} {env : Env G N} (hr : cfg.rejection = true) (hl : cfg.loopCheck = true)
    {h : List (Op G N)} {s : St G T N} (r : Reach cfg env h s) (id : ObsId) (h1 : 1 ≤ (Spec.registered s id).length)
    (hn : (Spec.registered s id).length ≤ 46341) : ∃ g, readEigen (Spec.matrix s id) = some g ∧ Spec.FitsInt g := by
  have hs := r.shape hr hl id
  refine C95_fits _ ?_
  show (lcOf s.pcm id).adj.n ≤ 46341
  have h1 : 1 ≤ (lcOf s.pcm id).factors.length := h1
  have hn : (lcOf s.pcm id).factors.length ≤ 46341 := hn
  by_cases h2 : 2 ≤ (lcOf s.pcm id).factors.length
  · rw [hs.size h2]; exact hn
  · rcases hs.one (by omega) with e | e <;> omega

/-- C95, for landmarks: as long as a landmark has at most 46 341 observations, none of them written from the landmark to the
pose, the search among them works on numbers that fit into an `int`. -/
theorem C95_observations {cfg : Cfg G T N} {env : Env G N} (hr : cfg.rejection = true)
    {h : List (Op G N)} {s : St G T N} (r : Reach cfg env h s) (l : Key)
    (hf : ∀ x ∈ Spec.observed s l, x.k1 ≠ l ∧ x.noise.isSome) (h1 : 1 ≤ (Spec.observed s l).length)
    (hn : (Spec.observed s l).length ≤ 46341) : ∃ g, readEigen (Spec.landMatrix s l) = some g ∧ Spec.FitsInt g := by
  refine C95_fits _ ?_
  rw [(C52_matrix_partial hr r l hf (by intro e; rw [e] at h1; simp at h1)).1]
  exact hn

/-- The graph of `C95_bound_exact` exists: 46 342 closures that all agree. -/
example : ∃ M : Mat, 46342 ≤ M.n ∧ ∀ i j, i < M.n → j < M.n → i ≠ j → Joined M i j :=
  ⟨⟨46342, fun _ _ => true⟩, le_rfl, fun _ _ hi hj hne => ⟨hi, hj, hne, rfl⟩⟩

set_option maxRecDepth 100000 in
/-- The hypotheses of `C95_closures` are met: two closures of robot `a`. -/
example : ∃ s, ReachOk Demo.cfg Demo.env Demo.h1 s ∧ Demo.cfg.rejection = true ∧ Demo.cfg.loopCheck = true ∧
    (Spec.registered s ⟨97, 97⟩).length = 2 := by
  obtain ⟨s, r, h⟩ := Demo.runs_reach (cfg := Demo.cfg) (env := Demo.env) (ops := Demo.h1)
    (P := fun s => decide ((Spec.registered s ⟨97, 97⟩).length = 2)) (by decide +kernel)
  exact ⟨s, r, rfl, rfl, of_decide_eq_true h⟩

end RPGO.Props
