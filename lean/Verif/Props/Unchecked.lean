import Verif.Props.Matrix
import Verif.Proofs.PairState
/-
C45 with incremental selection and the pairwise check disabled: exactly what is accepted.
-/

namespace RPGO
variable {G T N : Type}

theorem one_vertex {M : Mat} (h : M.n = 1) (n prev : Nat) (hn : n < 2 ^ 64) (h0 : n ≠ 0) :
    findMaxCliqueHeuIncremental M n prev [] = some (if n = 1 ∧ prev = 0 then (1, [0]) else (0, [])) := by
  obtain ⟨_, e⟩ := M
  cases h
  have hg : readEigen ⟨1, e⟩ = some ⟨[0, 0], [], 0⟩ := rfl
  have run : ∀ (s : HeuSt) (l : List Nat), s.data = [] → s.mc = (prev : Int) →
      l.foldlM (heuStep ⟨[0, 0], [], 0⟩) (heuStart ⟨[0, 0], [], 0⟩ (prev : Int) []) = some s →
      l = List.range' (incStart 2 n) (1 - incStart 2 n) →
      findMaxCliqueHeuIncremental ⟨1, e⟩ n prev [] = some (0, []) := by
    intro s l hd hc hf hl
    unfold findMaxCliqueHeuIncremental
    rw [hg]
    simp only [Option.bind_eq_bind, Option.bind_some]
    unfold maxCliqueHeuIncremental
    have e1 : List.range' (incStart ([0, 0] : List Nat).length n) (([0, 0] : List Nat).length - 1 - incStart ([0, 0] : List Nat).length n) = l := by
      rw [hl]; rfl
    simp only [e1, hf, Option.bind_eq_bind, Option.bind_some, Option.pure_def, hd, hc]
    rw [if_neg (by simp)]
  by_cases h1 : n = 1
  · subst h1
    cases prev with
    | zero => rfl
    | succ k =>
      rw [if_neg (fun h => absurd h.2 (Nat.succ_ne_zero k))]
      refine run (heuStart ⟨[0, 0], [], 0⟩ ((k + 1 : Nat) : Int) []) [0] rfl rfl ?_ rfl
      have hd : degree [0, 0] 0 = some 0 := rfl
      rw [List.foldlM_cons]
      unfold heuStep
      simp only [hd, Option.bind_eq_bind, Option.bind_some]
      rw [if_pos (by show ((k + 1 : Nat) : Int) > 0; omega)]
      rfl
  · rw [if_neg (fun h => h1 h.1)]
    refine run (heuStart ⟨[0, 0], [], 0⟩ (prev : Int) []) [] rfl rfl rfl ?_
    have : 1 - incStart 2 n = 0 := by
      unfold incStart
      rw [if_neg (by omega), Nat.mod_eq_of_lt (by omega)]
      omega
    rw [this]
    rfl

variable [Mul G] [Inv G] [One G]

/-- One call in incremental mode, seen by one pair of robots. -/
theorem exec_pair_inc {cfg : Cfg G T N} {env : Env G N} (hr : cfg.rejection = true) (hi : cfg.incremental = true)
    {op : Op G N} (ho : ¬ Spec.Removes op) {s s' : St G T N} {x : Ret} (e : exec cfg env op s = .ok s' x) (a b : Chr) :
    ∃ new : List (Btw G N), new.length ≤ (Spec.opFactors op).length ∧ lcOf s'.pcm ⟨a, b⟩ =
      if new = [] then lcOf s.pcm ⟨a, b⟩
      else selectPair cfg new.length (new.foldl (fun m y => growLc cfg (lk cfg s'.pcm) y m) (lcOf s.pcm ⟨a, b⟩)) := by
  cases hb : Spec.batch op with
  | none =>
    have hf := (exec_other cfg env hr op hb s).of_ok e
    rcases hf.pcm.meas ⟨a, b⟩ with e1 | ⟨h, _⟩
    · exact ⟨[], Nat.zero_le _, by rw [e1, if_pos rfl]⟩
    · exact absurd h ho
  | some y =>
    obtain ⟨fs, vs⟩ := y
    have hfs : Spec.opFactors op = fs := by
      cases op <;> first | (cases hb; rfl) | cases hb | (simp only [Spec.batch, Option.some.injEq, Prod.mk.injEq] at hb; exact hb.1)
    have hd := (exec_batch env hr hb s).1 s' x e
    cases hd with
    | empty _ _ hf => exact ⟨[], Nat.zero_le _, by rw [hf.pcm, if_pos rfl]⟩
    | full hne hi1 hS h1 h2 ha hf =>
      rename_i v1 p1 p2 s1
      have hp : s'.pcm = { p2 with robotOrder := s1.pcm.robotOrder } := by rw [hf.pcm, ha.eq]
      have hlc : lcOf s'.pcm ⟨a, b⟩ = lcOf p2 ⟨a, b⟩ := by rw [hp]; rfl
      have h0 : lcOf p1 ⟨a, b⟩ = lcOf s.pcm ⟨a, b⟩ := lcOf_lcs hS.lcs _
      by_cases hc : Spec.cands cfg vs fs = []
      · exact ⟨[], Nat.zero_le _, by rw [hlc, h1 hc, h0, if_pos rfl]⟩
      · have h3 := h2 hc
        have hlk : lk cfg s'.pcm = lk cfg p1 := by
          have h4 : lk cfg s'.pcm = lk cfg p2 := by rw [hp]; rfl
          obtain ⟨q, t, hsel, _⟩ := (processCands_ends cfg v1 (Spec.cands cfg vs fs) p1).of_ok h3
          rw [h4]
          exact processed_lk t hsel
        unfold processCands at h3
        simp only [M.bind_eq] at h3
        obtain ⟨q, num, h4, h5⟩ := M.bind_eq_ok.1 h3
        obtain ⟨rfl, t⟩ := parseLoops_ok h4
        have hq : lcOf q ⟨a, b⟩ = ((Spec.cands cfg vs fs).filter
            (fun b' => acceptLc cfg v1 (lk cfg p1) b' && (pairOf b').eqv ⟨a, b⟩)).foldl
            (fun m b => growLc cfg (lk cfg s'.pcm) b m) (lcOf s.pcm ⟨a, b⟩) := by
          rw [t.lcOf, parseFold_lcOf, h0, hlk]
        refine ⟨(Spec.cands cfg vs fs).filter (fun b' => acceptLc cfg v1 (lk cfg p1) b' && (pairOf b').eqv ⟨a, b⟩), ?_, ?_⟩
        · rw [hfs]
          refine (List.length_filter_le _ _).trans ((List.length_filter_le _ _).trans ?_)
          unfold Spec.btws
          exact List.length_filterMap_le _ _
        · rw [hlc]
          unfold M.cond at h5
          rw [hi] at h5
          simp only [if_true] at h5
          unfold findInliersIncremental at h5
          simp only [M.bind_eq] at h5
          rw [M.bind_ok (M.modify_apply _ _), M.bind_eq_ok] at h5
          obtain ⟨q1, _, h6, h7⟩ := h5
          rw [M.bind_ok (M.modify_apply _ _)] at h7
          obtain ⟨r2, g2, rfl⟩ := M.zoom_eq_ok.1 h7
          show lcOf q1 ⟨a, b⟩ = _
          have hget := bumps_get ((Spec.cands cfg vs fs).filter (acceptLc cfg v1 (lk cfg p1))) [] ⟨a, b⟩
          rw [filter_eq_nil_of] at hget
          rcases incLoop_at _ (bumps_distinct _ [] (by simp)) _ _ h6 ⟨a, b⟩ with ⟨hn, e1⟩ | ⟨n, hn, e1⟩
          · rw [hn] at hget
            split at hget
            · rename_i hnil
              rw [if_pos hnil, e1]
              show lcOf q ⟨a, b⟩ = _
              rw [hq, hnil]; rfl
            · cases hget
          · rw [hn] at hget
            split at hget
            · cases hget
            · rename_i hnil
              simp only [AList.get?, Option.getD_none, Nat.zero_add, Option.some.injEq] at hget
              rw [if_neg hnil]
              have e2 : incInliers n (lcOf q ⟨a, b⟩) = .ok (lcOf q1 ⟨a, b⟩) () := e1
              unfold selectPair
              rw [hi, if_pos rfl, ← hq, ← hget, e2]

theorem growFold_unchecked {cfg : Cfg G T N} (hl : cfg.loopCheck = false) (f : Chr → Key → T) (l : List (Btw G N)) (m : Meas G N) :
    l.foldl (fun m y => growLc cfg f y m) m = { m with factors := m.factors ++ l } := by
  induction l generalizing m with
  | nil => simp
  | cons y l ih =>
    rw [List.foldl_cons, ih]
    simp [growLc, hl]

theorem selectPair_unchecked {cfg : Cfg G T N} (hi : cfg.incremental = true) {m : Meas G N} (hm : m.adj.n = 1) {n : Nat}
    (h0 : n ≠ 0) (hn : n < 2 ^ 64) (hf : m.factors ≠ []) :
    selectPair cfg n m = { m with cons := if n = 1 ∧ m.cons = [] then m.factors.take 1 else m.cons } := by
  unfold selectPair incInliers
  rw [if_pos hi, one_vertex hm n _ hn h0]
  by_cases hc : n = 1 ∧ m.cons = []
  · rw [if_pos (by simpa using hc), if_pos hc]
    cases hfs : m.factors with
    | nil => exact absurd hfs hf
    | cons y l => simp [pick]
  · rw [if_neg (by simpa using hc), if_neg hc]
    simp

end RPGO

namespace RPGO.Props
variable {G T N : Type} [Mul G] [Inv G] [One G]

/-- C45 with incremental selection, exactly: with the pairwise check disabled, a call that removes nothing leaves the accepted
closures of a pair as they are, except that the first registered closure of the pair becomes accepted if none was and the call
registers exactly one closure of the pair. (As many factors as there are 64-bit words are assumed not to fit in one call.) -/
theorem C45_incremental_call {cfg : Cfg G T N} {env : Env G N} (hr : cfg.rejection = true) (hl : cfg.loopCheck = false)
    (hi : cfg.incremental = true) {h : List (Op G N)} {s : St G T N} (r : Reach cfg env h s) {op : Op G N} (ho : ¬ Spec.Removes op)
    (hsz : (Spec.opFactors op).length < 2 ^ 64) {s' : St G T N} {x : Ret} (e : exec cfg env op s = .ok s' x) (id : ObsId) :
    Spec.selected s' id =
      if (Spec.registered s' id).length = (Spec.registered s id).length + 1 ∧ Spec.selected s id = []
      then (Spec.registered s' id).take 1 else Spec.selected s id := by
  obtain ⟨a, b⟩ := id
  obtain ⟨new, hlen, e1⟩ := exec_pair_inc hr hi ho e a b
  unfold Spec.selected Spec.registered
  by_cases hn : new = []
  · rw [if_pos hn] at e1
    rw [e1, if_neg (by rintro ⟨a, _⟩; omega)]
  · rw [if_neg hn, growFold_unchecked hl, selectPair_unchecked hi (m := { lcOf s.pcm ⟨a, b⟩ with factors := (lcOf s.pcm ⟨a, b⟩).factors ++ new })
      (r.one hr hl ⟨a, b⟩) (by simpa using hn) (by omega)
      (by simp [hn])] at e1
    rw [e1]
    simp only [List.length_append, Nat.add_left_cancel_iff]

/-- C45 with incremental selection: with the pairwise check disabled at most one closure of a pair is ever accepted, the first
one registered. -/
theorem C45_incremental_one {cfg : Cfg G T N} {env : Env G N} (hr : cfg.rejection = true) (hl : cfg.loopCheck = false)
    (hi : cfg.incremental = true) {h : List (Op G N)} {s : St G T N} (r : ReachOk cfg env h s) (hn : ∀ op ∈ h, ¬ Spec.Removes op)
    (hsz : ∀ op ∈ h, (Spec.opFactors op).length < 2 ^ 64) (id : ObsId) :
    Spec.selected s id = [] ∨ Spec.selected s id = (Spec.registered s id).take 1 := by
  induction r with
  | init => left; rfl
  | @step h s op s' x r e ih =>
    have ih := ih (fun o m => hn o (by simp [m])) (fun o m => hsz o (by simp [m]))
    have ho := hn op (by simp)
    have hz := hsz op (by simp)
    rw [C45_incremental_call hr hl hi r.reach ho hz e id]
    split
    · exact Or.inr rfl
    · rcases ih with ih | ih
      · exact Or.inl ih
      · obtain ⟨a, b⟩ := id
        obtain ⟨new, hlen, e1⟩ := exec_pair_inc hr hi ho e a b
        unfold Spec.selected Spec.registered at *
        by_cases hn : new = []
        · rw [if_pos hn] at e1
          rw [e1]; exact Or.inr ih
        · rw [if_neg hn, growFold_unchecked hl, selectPair_unchecked hi (m := { lcOf s.pcm ⟨a, b⟩ with factors := (lcOf s.pcm ⟨a, b⟩).factors ++ new })
      (r.reach.one hr hl ⟨a, b⟩) (by simpa using hn) (by omega)
            (by simp [hn])] at e1
          rw [e1, ih]
          simp only
          cases (lcOf s.pcm ⟨a, b⟩).factors with
          | nil => left; rfl
          | cons y l => right; rfl

/-- Three closures of one pair that arrive one by one with the pairwise check disabled; the second contradicts the first. -/
def threeSingly : List (Op Demo.Z Demo.Ns) :=
  Demo.h1.take 3 ++ [.update [Demo.edge (Demo.a 0) (Demo.a 2) 2] [] true, .update [Demo.edge (Demo.a 0) (Demo.a 3) 50] [] true,
    .update [Demo.edge (Demo.a 1) (Demo.a 3) 3] [] true]

set_option maxRecDepth 100000 in
/-- The hypotheses of `C45_incremental_call` and `C45_incremental_one` are met by a history in which the first of three closures
is accepted and stays the only one. -/
example : (unchecked true).rejection = true ∧ (unchecked true).loopCheck = false ∧ (unchecked true).incremental = true ∧
    (∀ op ∈ threeSingly, ¬ Spec.Removes op) ∧ (∀ op ∈ threeSingly, (Spec.opFactors op).length < 2 ^ 64) ∧
    ∃ s, ReachOk (unchecked true) Demo.env threeSingly s ∧ (Spec.registered s ⟨97, 97⟩).length = 3 ∧
      Spec.selected s ⟨97, 97⟩ = (Spec.registered s ⟨97, 97⟩).take 1 := by
  refine ⟨by decide +kernel, by decide +kernel, by decide +kernel, ?_, by decide +kernel, ?_⟩
  · intro op m
    simp only [threeSingly, Demo.h1, List.take, List.cons_append, List.nil_append, List.mem_cons, List.not_mem_nil, or_false] at m
    rcases m with rfl | rfl | rfl | rfl | rfl | rfl <;> exact id
  obtain ⟨s, r, h⟩ := Demo.runs_reach (cfg := unchecked true) (env := Demo.env) (ops := threeSingly)
    (P := fun s => decide ((Spec.registered s ⟨97, 97⟩).length = 3 ∧
      Spec.selected s ⟨97, 97⟩ = (Spec.registered s ⟨97, 97⟩).take 1)) (by decide +kernel)
  exact ⟨s, r, of_decide_eq_true h⟩

set_option maxRecDepth 100000 in
/-- They are also met by two closures that arrive in one call, and then none is accepted. -/
example : ∃ s, ReachOk (unchecked true) Demo.env contradict s ∧ (Spec.registered s ⟨97, 97⟩).length = 2 ∧
    Spec.selected s ⟨97, 97⟩ = [] := by
  obtain ⟨s, r, h⟩ := Demo.runs_reach (cfg := unchecked true) (env := Demo.env) (ops := contradict)
    (P := fun s => decide ((Spec.registered s ⟨97, 97⟩).length = 2 ∧ Spec.selected s ⟨97, 97⟩ = [])) (by decide +kernel)
  exact ⟨s, r, of_decide_eq_true h⟩

end RPGO.Props
