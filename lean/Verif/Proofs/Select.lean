import Verif.Proofs.Removal
import Verif.Proofs.Tidy
import Verif.Props.Matrix
/-
Which closures are selected from the matrix of a pair, over call histories.
-/

namespace RPGO
variable {G T N : Type}

/-- Result of a normal return of the selection on one entry. -/
structure Picked (m : Meas G N) (idx : List Nat) : Prop where
  cons : m.cons = atIdx m.factors idx
  range : ∀ i ∈ idx, i < m.factors.length

theorem measInliers_picked {m m' : Meas G N} {n : Nat} (h : measInliers m = .ok m' n) :
    m'.factors = m.factors ∧ m'.adj = m.adj ∧ ∃ (k : Nat) (idx : List Nat), 0 < m.adj.n ∧
      findMaxCliqueHeu m.adj [] = some ((k : Int), idx) ∧ Backed m.adj k idx ∧ Picked m' (idx.take k) := by
  rcases measInliers_spec m with ⟨_, e⟩ | ⟨hn, k, idx, e1, hb, ⟨m1, e2, rfl, e3, e4⟩ | ⟨c, e2, _⟩⟩
  · rw [e] at h; cases h
  · rw [e2] at h
    injection h with h _
    subst h
    exact ⟨rfl, rfl, k, idx, hn, e1, hb, rfl, e4⟩
  · rw [e2] at h; cases h

/-- What batch selection leaves for a pair. -/
structure Chosen (m : Meas G N) : Prop where
  few : m.factors.length ≤ 1 → m.cons = m.factors
  many : 2 ≤ m.factors.length → ∃ (k : Nat) (idx : List Nat), 0 < m.adj.n ∧
    findMaxCliqueHeu m.adj [] = some ((k : Int), idx) ∧ Backed m.adj k idx ∧ Picked m (idx.take k)

theorem Chosen.empty : Chosen (Meas.empty : Meas G N) := ⟨fun _ => rfl, fun h => by simp [Meas.empty] at h⟩

theorem measInliers_chosen {m m' : Meas G N} {n : Nat} (h : measInliers m = .ok m' n) : Chosen m' := by
  obtain ⟨h1, h2, k, idx, hn, e, hb, hp⟩ := measInliers_picked h
  refine ⟨fun hl => ?_, fun _ => ⟨k, idx, by rw [h2]; exact hn, by rw [h2]; exact e, by rw [h2]; exact hb, hp⟩⟩
  obtain ⟨v, t, hv, ht, hJ⟩ := hb.star
  rw [ht] at hp
  have hr := hp.range
  have hv0 : v < m'.factors.length := hr v (by simp)
  obtain ⟨f, hf⟩ : ∃ f, m'.factors = [f] := by
    cases hm : m'.factors with
    | nil => rw [hm] at hv0; simp at hv0
    | cons f t' =>
      rw [hm] at hl
      cases t' with
      | nil => exact ⟨f, rfl⟩
      | cons _ _ => simp at hl
  have ht0 : t = [] := by
    cases t with
    | nil => rfl
    | cons u t' =>
      exfalso
      have hu := hr u (by simp)
      have := hJ u (by simp)
      have : v = u := by rw [hf] at hu hv0; simp at hu hv0; omega
      subst this
      exact (hJ _ (by simp)).2.2.1 rfl
  rw [hp.cons, ht0, hf]
  have : v = 0 := by rw [hf] at hv0; simpa using hv0
  subst this
  rfl

theorem removeLastMeas_chosen {m m' : Meas G N} {q : EdgePtr} (hm : Chosen m) (h : removeLastMeas m = .ok m' q) :
    Chosen m' := by
  unfold removeLastMeas at h
  split at h
  · cases h; exact hm
  · split at h
    · cases h
    · rename_i last hlast
      simp only at h
      split at h
      · rename_i hl
        cases h
        exact ⟨fun _ => rfl, fun h => absurd h (by simp only at hl ⊢; omega)⟩
      · split at h
        · rename_i m1 n e
          cases h
          exact measInliers_chosen e
        · cases h
        · cases h

variable [Mul G] [Inv G] [One G]

theorem removeLastOfPair_meas {env : Env G N} {id0 : ObsId} {s s' : St G T N} {q : EdgePtr}
    (h : removeLastOfPair env id0 s = .ok s' q) (id : ObsId) :
    lcOf s'.pcm id = lcOf s.pcm id ∨ ∃ q, removeLastMeas (lcOf s.pcm id) = .ok (lcOf s'.pcm id) q := by
  rw [removeLastOfPair_eq] at h
  cases hg : AList.get? ObsId.eqv s.pcm.lcs id0 with
  | none => rw [hg] at h; cases h; exact Or.inl rfl
  | some m =>
    rw [hg] at h
    simp only at h
    have key : ∀ m' q, removeLastMeas m = .ok m' q →
        lcOf (updLc s.pcm id0 fun _ => m') id = lcOf s.pcm id ∨
          ∃ q, removeLastMeas (lcOf s.pcm id) = .ok (lcOf (updLc s.pcm id0 fun _ => m') id) q := by
      intro m' q hx
      rw [lcOf_updLc]
      split
      · rename_i hid
        right
        have : lcOf s.pcm id = m := by
          have h2 : lcOf s.pcm id = lcOf s.pcm id0 := by
            unfold lcOf
            rw [AList.get?_congr ObsId.isEqv _ hid]
          rw [h2, lcOf_some hg]
        rw [this]
        exact ⟨q, hx⟩
      · exact Or.inl rfl
    cases hx : removeLastMeas m with
    | ok m' e =>
      rw [hx] at h
      cases e with
      | none => cases h; exact key m' _ hx
      | some e => cases h; exact key m' _ hx
    | throw m' e => rw [hx] at h; cases h
    | ub u => rw [hx] at h; cases h

theorem removeLastPcm_meas {env : Env G N} {s s' : St G T N} {q : EdgePtr}
    (h : removeLastPcm env s = .ok s' q) (id : ObsId) :
    lcOf s'.pcm id = lcOf s.pcm id ∨ ∃ q, removeLastMeas (lcOf s.pcm id) = .ok (lcOf s'.pcm id) q := by
  rw [removeLastPcm_eq] at h
  cases hl : s.pcm.inOrder.getLast? with
  | none => rw [hl] at h; cases h; exact Or.inl rfl
  | some id0 =>
    rw [hl] at h
    exact removeLastOfPair_meas h id

theorem exec_removes_meas {cfg : Cfg G T N} {env : Env G N} (hr : cfg.rejection = true) {op : Op G N}
    (ho : Spec.Removes op) {s s' : St G T N} {x : Ret} (e : exec cfg env op s = .ok s' x) (id : ObsId) :
    lcOf s'.pcm id = lcOf s.pcm id ∨ ∃ q, removeLastMeas (lcOf s.pcm id) = .ok (lcOf s'.pcm id) q := by
  cases op <;> simp only [Spec.Removes] at ho
  · have e : (removeLastLC2 cfg env _ _).ret .edge s = .ok s' x := e
    obtain ⟨s2, q, h2, h3⟩ := M.bind_eq_ok.1 e
    cases h3
    unfold removeLastLC2 at h2
    simp only [M.bind_eq] at h2
    rw [RPGO.cond_true hr] at h2
    obtain ⟨s3, q', h4, h5⟩ := M.bind_eq_ok.1 h2
    obtain ⟨s4, _, h6, h7⟩ := M.bind_eq_ok.1 h5
    cases h7
    have hf := (optimize_frame cfg env).of_ok h6
    rw [hf.pcm]
    exact removeLastOfPair_meas h4 id
  · obtain ⟨s1, q, h1, h2, _⟩ := exec_removeLast hr e
    have hf := (optimize_frame cfg env).of_ok h2
    rw [hf.pcm]
    exact removeLastPcm_meas h1 id

/-- Batch selection: the invariant at every call boundary. -/
theorem ReachOk.chosen {cfg : Cfg G T N} {env : Env G N} (hr : cfg.rejection = true) (hl : cfg.loopCheck = true)
    (hi : cfg.incremental = false) {h : List (Op G N)} {s : St G T N} (r : ReachOk cfg env h s) (id : ObsId) :
    Chosen (lcOf s.pcm id) := by
  induction r generalizing id with
  | init => exact Chosen.empty
  | @step h s op s' x r e ih =>
    cases hb : Spec.batch op with
    | none =>
      have ho := (exec_other cfg env hr op hb s).of_ok e
      rcases ho.pcm.meas id with e1 | ⟨hrem, _⟩
      · rw [e1]; exact ih id
      · rcases exec_removes_meas hr hrem e id with e1 | ⟨q, e1⟩
        · rw [e1]; exact ih id
        · exact removeLastMeas_chosen (ih id) e1
    | some y =>
      obtain ⟨fs, vs⟩ := y
      have hd := (exec_batch env hr hb s).1 s' x e
      cases hd with
      | empty _ _ hf => rw [hf.pcm]; exact ih id
      | full hne hi1 hS h1 h2 ha hf =>
        rename_i v1 p1 p2 s1
        have hp : s'.pcm = { p2 with robotOrder := s1.pcm.robotOrder } := by rw [hf.pcm, ha.eq]
        have hlc : lcOf s'.pcm id = lcOf p2 id := by rw [hp]; rfl
        rw [hlc]
        by_cases hc : Spec.cands cfg vs fs = []
        · rw [h1 hc, lcOf_lcs hS.lcs]; exact ih id
        · have h3 := h2 hc
          unfold processCands at h3
          simp only [M.bind_eq] at h3
          obtain ⟨q, num, _, h5⟩ := M.bind_eq_ok.1 h3
          unfold M.cond at h5
          rw [hi] at h5
          simp only [Bool.false_eq_true, if_false] at h5
          obtain ⟨_, ht, _⟩ := findInliers_ok h5
          refine Table.lcOf_rel (R := fun _ m' => Chosen m') Chosen.empty (ht.mono ?_) id
          intro m m' hm
          unfold lcInliers at hm
          rw [hl] at hm
          exact measInliers_chosen hm


/-! ### Incremental selection -/

omit [Mul G] [Inv G] [One G] in
/-- Registration of candidates, as an invariant of the measurements of one pair. -/
theorem parseLoops_at {cfg : Cfg G T N} {vals : Vals G} (id : ObsId) {Q : Meas G N → Prop}
    (grow : ∀ f b m, Q m → (cfg.loopCheck = true → m.factors = [] ∨
      (m.adj.n = m.factors.length ∧ ∀ x ∈ m.factors, x.noise.isSome ∧ b.noise.isSome)) → Q (growLc cfg f b m))
    (bs : List (Btw G N)) (num num' : List (ObsId × Nat)) (p q : Pcm G T N)
    (h : parseLoops cfg vals bs num p = .ok q num') (hp : Q (lcOf p id)) : Q (lcOf q id) := by
  induction bs generalizing num p with
  | nil => unfold parseLoops at h; cases h; exact hp
  | cons b bs ih =>
    rcases parseLoops_cons cfg vals b bs num p with ⟨u, e, _⟩ | ⟨p1, t, e, hfit, _⟩
    · rw [e] at h; cases h
    · rw [e] at h
      refine ih _ _ h ?_
      rw [t.lcOf]
      unfold parseStep
      by_cases ha : acceptLc cfg vals (lk cfg p) b = true
      · rw [if_pos ha]
        have : lcOf (regLc cfg (lk cfg p) p b) id = lcOf (updLc p (pairOf b) (growLc cfg (lk cfg p) b)) id := rfl
        rw [this, lcOf_updLc]
        split
        · rename_i hid
          have h2 : lcOf p id = lcOf p (pairOf b) := by
            unfold lcOf
            rw [AList.get?_congr ObsId.isEqv _ hid]
          refine grow _ _ _ hp (fun hl => ?_)
          rw [h2]
          exact hfit ha hl
        · exact hp
      · rw [if_neg ha]
        split
        · exact hp
        · exact hp

/-- `m` is `m0` after registering more closures. -/
structure Ext (m0 m : Meas G N) (bs : List (Btw G N)) : Prop where
  cons : m.cons = m0.cons
  factors : m.factors = m0.factors ++ bs
  same : bs = [] → m = m0
  size : bs ≠ [] → m.adj.n = m.factors.length
  old : bs ≠ [] → m0.factors ≠ [] → m0.adj.n = m0.factors.length ∧
    ∀ i j, i < m0.factors.length → j < m0.factors.length → m.adj.e i j = m0.adj.e i j

omit [Mul G] [Inv G] [One G] in
theorem Ext.grow {cfg : Cfg G T N} (hl : cfg.loopCheck = true) {m0 m : Meas G N} {bs : List (Btw G N)} (h : Ext m0 m bs)
    (f : Chr → Key → T) (b : Btw G N) (hfit : m.factors = [] ∨ m.adj.n = m.factors.length) :
    Ext m0 (growLc cfg f b m) (bs ++ [b]) := by
  refine ⟨h.cons, by simp [growLc, h.factors], fun e => by simp at e, fun _ => ?_, fun _ h0 => ?_⟩
  · by_cases he : m.factors = []
    · simp [growLc, hl, he, Mat.zero]
    · rcases hfit with h' | h'
      · exact absurd h' he
      · simp [growLc, hl, he, Mat.grow_n, h']
  · have hne : m.factors ≠ [] := by rw [h.factors]; simp [h0]
    have hn : m.adj.n = m.factors.length := by
      rcases hfit with h' | h'
      · exact absurd h' hne
      · exact h'
    have hle : m0.factors.length ≤ m.adj.n := by rw [hn, h.factors]; simp
    have hg : ∀ i j, i < m.adj.n → j < m.adj.n → (growLc cfg f b m).adj.e i j = m.adj.e i j := by
      intro i j hi hj
      simp only [growLc, hl, if_true, if_neg hne]
      exact Mat.grow_old _ _ hi hj
    by_cases hb : bs = []
    · have := h.same hb
      subst this
      exact ⟨hn, fun i j hi hj => hg i j (by omega) (by omega)⟩
    · obtain ⟨a1, a2⟩ := h.old hb h0
      exact ⟨a1, fun i j hi hj => (hg i j (by omega) (by omega)).trans (a2 i j hi hj)⟩

/-- What is known of the positions selected from a matrix. -/
structure GoodPick (M : Mat) (idx : List Nat) : Prop where
  star : ∃ v t, idx = v :: t ∧ v < M.n ∧ ∀ u ∈ t, Joined M v u
  clique : ∃ c, IsClique M c ∧ c.length = idx.length
  cluster : IsClusterGraph M → IsClique M idx ∧ IsMaxCliqueSize M idx.length

theorem GoodPick.one {M : Mat} (h : M.n = 1) : GoodPick M [0] := by
  have hc : IsClique M [0] := ⟨by simp, by simp [h], by simp⟩
  refine ⟨⟨0, [], rfl, by omega, by simp⟩, ⟨[0], hc, rfl⟩, fun _ => ⟨hc, ⟨[0], hc, rfl⟩, fun l hl => ?_⟩⟩
  have := length_le_of_nodup_subset (m := [0]) hl.1 (fun x hx => by
    have := hl.2.1 x hx
    simp; omega)
  simpa using this

theorem Backed.good {M : Mat} {k : Nat} {idx : List Nat} (h : Backed M k idx)
    (hc : IsClusterGraph M → IsClique M (idx.take k) ∧ IsMaxCliqueSize M k) : GoodPick M (idx.take k) := by
  have hlen : (idx.take k).length = k := by have := h.len; simp; omega
  refine ⟨?_, ?_, ?_⟩
  · obtain ⟨v, t, h1, h2, h3⟩ := h.star
    exact ⟨v, t, h2, h1, h3⟩
  · obtain ⟨c, h1, h2⟩ := h.clique
    exact ⟨c, h1.1, by rw [h2, hlen]⟩
  · intro hM
    rw [hlen]
    exact hc hM

/-- The invariant at call boundaries. -/
structure Settled (m : Meas G N) : Prop where
  few : m.factors.length ≤ 1 → m.cons = m.factors
  many : 2 ≤ m.factors.length → ∃ idx, Picked m idx ∧ GoodPick m.adj idx

omit [Mul G] [Inv G] [One G] in
theorem Settled.empty : Settled (Meas.empty : Meas G N) := ⟨fun _ => rfl, fun h => by simp [Meas.empty] at h⟩

omit [Mul G] [Inv G] [One G] in
theorem Chosen.settled {m : Meas G N} (h : Chosen m) : Settled m := by
  refine ⟨h.few, fun hl => ?_⟩
  obtain ⟨k, idx, hn, e, hb, hp⟩ := h.many hl
  obtain ⟨k', out, e', _, _, hc⟩ := findMaxCliqueHeu_spec m.adj [] hn
  rw [e] at e'
  obtain ⟨h1, rfl⟩ : (k : Int) = k' ∧ idx = out := by
    injection e' with e'
    exact ⟨congrArg Prod.fst e', congrArg Prod.snd e'⟩
  have : k = k' := by omega
  subst this
  exact ⟨idx.take k, hp, hb.good fun hM => (hc hM).symm⟩

omit [Mul G] [Inv G] [One G] in
theorem removeLastMeas_settled {m m' : Meas G N} {q : EdgePtr} (hm : Settled m) (h : removeLastMeas m = .ok m' q) :
    Settled m' := by
  unfold removeLastMeas at h
  split at h
  · cases h; exact hm
  · split at h
    · cases h
    · rename_i last hlast
      simp only at h
      split at h
      · rename_i hl
        cases h
        exact ⟨fun _ => rfl, fun h => absurd h (by simp only at hl ⊢; omega)⟩
      · split at h
        · rename_i m1 n e
          cases h
          exact (measInliers_chosen e).settled
        · cases h
        · cases h

omit [Mul G] [Inv G] [One G] in
/-- A pair with a matrix of the right size has a good selection. -/
theorem Settled.pick {m : Meas G N} (h : Settled m) (h0 : m.factors ≠ []) (hn : m.adj.n = m.factors.length) :
    ∃ idx, Picked m idx ∧ GoodPick m.adj idx := by
  by_cases hl : 2 ≤ m.factors.length
  · exact h.many hl
  · have h1 : m.factors.length = 1 := by have := List.length_pos_iff.2 h0; omega
    refine ⟨[0], ⟨?_, by simp [h1]⟩, GoodPick.one (by omega)⟩
    rw [h.few (by omega)]
    match hm : m.factors, h1 with
    | [f], _ => rfl

theorem Joined.sub {M M' : Mat} (hn : M.n ≤ M'.n) (he : ∀ i j, i < M.n → j < M.n → M'.e i j = M.e i j) {a b : Nat}
    (ha : a < M.n) (hb : b < M.n) : Joined M' a b ↔ Joined M a b := by
  unfold Joined
  rw [he _ _ (by omega) (by omega)]
  constructor
  · rintro ⟨_, _, h3, h4⟩; exact ⟨ha, hb, h3, h4⟩
  · rintro ⟨_, _, h3, h4⟩; exact ⟨by omega, by omega, h3, h4⟩

omit [Mul G] [Inv G] [One G] in
theorem incInliers_settled {m0 m m' : Meas G N} {bs : List (Btw G N)} (hx : Ext m0 m bs) (hb : bs ≠ []) (h0 : Settled m0)
    (h : incInliers bs.length m = .ok m' ()) : Settled m' := by
  have hn := hx.size hb
  have hlen : m.factors.length = m0.factors.length + bs.length := by rw [hx.factors]; simp
  have hbpos : 0 < bs.length := List.length_pos_iff.2 hb
  obtain ⟨k, idx, e, hk⟩ := incInliers_spec bs.length m
  obtain ⟨k', idx', e', _, _, hfirst, hcl⟩ := findMaxCliqueHeuIncremental_spec m.adj bs.length m.cons.length []
  rw [e] at e'
  obtain ⟨rfl, rfl⟩ : k = k' ∧ idx = idx' := by
    injection e' with e'
    exact ⟨congrArg Prod.fst e', congrArg Prod.snd e'⟩
  have hmem : ∀ v, v ∈ incVertices m.adj.n bs.length ↔ m0.factors.length ≤ v ∧ v < m.adj.n := by
    intro v
    unfold incVertices
    simp only [incStart, if_pos (show bs.length + 1 ≤ m.adj.n + 1 by omega), List.mem_range'_1]
    omega
  have hsub : m0.factors ≠ [] → m0.adj.n ≤ m.adj.n ∧ ∀ i j, i < m0.adj.n → j < m0.adj.n → m.adj.e i j = m0.adj.e i j := by
    intro hne
    obtain ⟨a1, a2⟩ := hx.old hb hne
    exact ⟨by omega, fun i j hi hj => a2 i j (by omega) (by omega)⟩
  -- a clique inside the old rows is no larger than the old selection
  have hold : IsClusterGraph m.adj → ∀ l, IsClique m.adj l → (∀ a ∈ l, a < m0.factors.length) → l.length ≤ m.cons.length := by
    intro hM l hl ha
    by_cases hne : m0.factors = []
    · cases l with
      | nil => simp
      | cons a t => have := ha a (by simp); rw [hne] at this; simp at this
    · obtain ⟨a1, _⟩ := hx.old hb hne
      obtain ⟨s1, s2⟩ := hsub hne
      obtain ⟨idx0, hp0, hg0⟩ := h0.pick hne a1
      have hM0 : IsClusterGraph m0.adj := by
        intro a b c hab hbc hac
        have h1 := (Joined.sub s1 s2 hab.1 hab.2.1).2 hab
        have h2 := (Joined.sub s1 s2 hbc.1 hbc.2.1).2 hbc
        exact (Joined.sub s1 s2 hab.1 hbc.2.1).1 (hM a b c h1 h2 hac)
      have hl0 : IsClique m0.adj l := ⟨hl.1, fun a h => by have := ha a h; omega, fun a h b h' hab =>
        (Joined.sub s1 s2 (by have := ha a h; omega) (by have := ha b h'; omega)).1 (hl.2.2 a h b h' hab)⟩
      have := (hg0.cluster hM0).2.2 l hl0
      rw [hx.cons, hp0.cons]
      have : (atIdx m0.factors idx0).length = idx0.length := by
        have hr := hp0.range
        clear hp0 hg0 this
        induction idx0 with
        | nil => rfl
        | cons i t ih =>
          have hi := hr i (by simp)
          have := ih (fun j hj => hr j (by simp [hj]))
          simp only [atIdx, List.filterMap_cons, List.getElem?_eq_getElem hi, List.length_cons] at this ⊢
          omega
      omega
  have hnew : IsClusterGraph m.adj → ∀ l, IsClique m.adj l → ∀ v ∈ l, m0.factors.length ≤ v → l.length ≤ max m.cons.length k := by
    intro hM l hl v hv hge
    have hd := hl.length_le_degree (nbrs_adj m.adj) (e := v) hv
    by_cases hp : m.cons.length < (nbrs m.adj v).length + 1
    · have := (hcl hM).2 v ((hmem v).2 ⟨hge, hl.2.1 v hv⟩) hp
      omega
    · omega
  have hall : IsClusterGraph m.adj → ∀ l, IsClique m.adj l → l.length ≤ max m.cons.length k := by
    intro hM l hl
    by_cases hv : ∃ v ∈ l, m0.factors.length ≤ v
    · obtain ⟨v, hv, hge⟩ := hv
      exact hnew hM l hl v hv hge
    · have := hold hM l hl (fun a ha => by
        by_contra hge
        exact hv ⟨a, ha, by omega⟩)
      omega
  rcases hk with ⟨rfl, e2⟩ | ⟨hlt, hB, ⟨m1, e2, rfl, h3, h4⟩ | ⟨c, e2, _⟩⟩
  · -- the old selection stays
    rw [e2] at h
    injection h with h _
    subst h
    have hne : m0.factors ≠ [] := by
      intro hne
      have hc0 : m.cons.length = 0 := by
        rw [hx.cons, h0.few (by rw [hne]; simp), hne]; rfl
      have := hfirst (by
        intro he
        have : m0.factors.length ∈ incVertices m.adj.n bs.length := (hmem _).2 ⟨by omega, by omega⟩
        rw [he] at this; cases this) hc0
      omega
    have hpos := List.length_pos_iff.2 hne
    refine ⟨fun hl => by omega, fun _ => ?_⟩
    obtain ⟨a1, _⟩ := hx.old hb hne
    obtain ⟨s1, s2⟩ := hsub hne
    obtain ⟨idx0, hp0, hg0⟩ := h0.pick hne a1
    have hlen0 : idx0.length = m.cons.length := by
      rw [hx.cons, hp0.cons]
      have hr := hp0.range
      clear hp0 hg0
      induction idx0 with
      | nil => rfl
      | cons i t ih =>
        have hi := hr i (by simp)
        have := ih (fun j hj => hr j (by simp [hj]))
        simp only [atIdx, List.filterMap_cons, List.getElem?_eq_getElem hi, List.length_cons] at this ⊢
        omega
    have lift : ∀ l, IsClique m0.adj l → IsClique m.adj l := fun l hl =>
      ⟨hl.1, fun a h => by have := hl.2.1 a h; omega, fun a h b h' hab =>
        (Joined.sub s1 s2 (hl.2.1 a h) (hl.2.1 b h')).2 (hl.2.2 a h b h' hab)⟩
    refine ⟨idx0, ⟨?_, fun i hi => by have := hp0.range i hi; omega⟩, ?_, ?_, ?_⟩
    · rw [hx.cons, hp0.cons, hx.factors]
      unfold atIdx
      refine List.filterMap_congr fun i hi => ?_
      rw [List.getElem?_append_left (hp0.range i hi)]
    · obtain ⟨v, t, h1, h2, h3⟩ := hg0.star
      exact ⟨v, t, h1, by omega, fun u hu => (Joined.sub s1 s2 h2 (h3 u hu).2.1).2 (h3 u hu)⟩
    · obtain ⟨c, h1, h2⟩ := hg0.clique
      exact ⟨c, lift c h1, h2⟩
    · intro hM
      have hM0 : IsClusterGraph m0.adj := by
        intro a b c hab hbc hac
        have h1 := (Joined.sub s1 s2 hab.1 hab.2.1).2 hab
        have h2 := (Joined.sub s1 s2 hbc.1 hbc.2.1).2 hbc
        exact (Joined.sub s1 s2 hab.1 hbc.2.1).1 (hM a b c h1 h2 hac)
      have hc := lift _ (hg0.cluster hM0).1
      refine ⟨hc, ⟨idx0, hc, rfl⟩, fun l hl => ?_⟩
      have := hall hM l hl
      omega
  · -- a larger selection
    rw [e2] at h
    injection h with h _
    subst h
    have hp : Picked ({ m with cons := atIdx m.factors (idx.take k) } : Meas G N) (idx.take k) := ⟨rfl, h4⟩
    refine ⟨fun hl => ?_, fun _ => ⟨idx.take k, hp, hB.good fun hM => ?_⟩⟩
    · simp only at hl
      obtain ⟨v, t, hv, ht, hJ⟩ := hB.star
      have h1 : m.factors.length = 1 := by omega
      have hn1 : m.adj.n = 1 := by omega
      have ht0 : t = [] := by
        cases t with
        | nil => rfl
        | cons u t' =>
          have := hJ u (by simp)
          have := this.1; have := (hJ u (by simp)).2.1; have := (hJ u (by simp)).2.2.1
          omega
      show atIdx m.factors (idx.take k) = m.factors
      rw [ht, ht0]
      have : v = 0 := by omega
      subst this
      match hm : m.factors, h1 with
      | [f], _ => rfl
    · have hc := (hcl hM).1 (by omega)
      refine ⟨hc, ⟨idx.take k, hc, ?_⟩, fun l hl => ?_⟩
      · have := hB.len; simp; omega
      · have := hall hM l hl
        omega
  · rw [e2] at h; cases h

omit [Mul G] [Inv G] [One G] in
theorem get?_some_entry {κ V : Type} {eq : κ → κ → Bool} {l : List (κ × V)} {k : κ} {v : V}
    (h : AList.get? eq l k = some v) : ∃ e ∈ l, eq e.1 k = true := by
  induction l with
  | nil => cases h
  | cons e0 t ih =>
    obtain ⟨k0, v0⟩ := e0
    unfold AList.get? at h
    split at h
    · rename_i hk; exact ⟨(k0, v0), by simp, hk⟩
    · obtain ⟨e, he, hk⟩ := ih h
      exact ⟨e, by simp [he], hk⟩

omit [Mul G] [Inv G] [One G] in
/-- Normal return of the incremental loop, for one pair. -/
theorem incLoop_at (num : List (ObsId × Nat)) (hd : (num.map (·.1)).Pairwise fun a b => a.eqv b = false) (p p' : Pcm G T N)
    (hr : (M.forEach (fun (idn : ObsId × Nat) =>
        M.zoom (fun p => lcOf p idn.1) (fun m p => updLc p idn.1 (fun _ => m)) (incInliers idn.2)) num : M (Pcm G T N) Unit) p
          = .ok p' ()) (id : ObsId) :
    (AList.get? ObsId.eqv num id = none ∧ lcOf p' id = lcOf p id) ∨
    ∃ n, AList.get? ObsId.eqv num id = some n ∧ incInliers n (lcOf p id) = .ok (lcOf p' id) () := by
  induction num generalizing p with
  | nil => cases hr; exact Or.inl ⟨rfl, rfl⟩
  | cons idn num ih =>
    unfold M.forEach at hr
    rw [M.bind_eq_ok] at hr
    obtain ⟨p1, _, h1, h2⟩ := hr
    obtain ⟨m', hi, rfl⟩ := M.zoom_eq_ok.1 h1
    rw [List.map_cons, List.pairwise_cons] at hd
    have ih := ih hd.2 _ h2
    obtain ⟨id0, n⟩ := idn
    unfold AList.get?
    by_cases hid : id0.eqv id = true
    · right
      rw [if_pos hid]
      refine ⟨n, rfl, ?_⟩
      have hno : AList.get? ObsId.eqv num id = none := by
        cases hg : AList.get? ObsId.eqv num id with
        | none => rfl
        | some n' =>
          exfalso
          obtain ⟨e, he, hk⟩ := get?_some_entry hg
          have h3 := hd.1 e.1 (List.mem_map.2 ⟨e, he, rfl⟩)
          have h4 := ObsId.isEqv.trans _ _ _ hid (ObsId.isEqv.symm _ _ hk)
          rw [h3] at h4; cases h4
      rcases ih with ⟨_, e⟩ | ⟨n', e, _⟩
      · rw [e, lcOf_updLc, if_pos hid]
        have h2 : lcOf p id = lcOf p id0 := by
          unfold lcOf
          rw [AList.get?_congr ObsId.isEqv _ hid]
        rw [h2]
        exact hi
      · rw [hno] at e; cases e
    · rw [if_neg hid]
      rw [lcOf_updLc, if_neg hid] at ih
      exact ih

theorem bumps_distinct (bs : List (Btw G N)) (num : List (ObsId × Nat))
    (hd : (num.map (·.1)).Pairwise fun a b => a.eqv b = false) :
    ((bumps bs num).map (·.1)).Pairwise fun a b => a.eqv b = false := by
  unfold bumps
  induction bs generalizing num with
  | nil => exact hd
  | cons b bs ih =>
    rw [List.foldl_cons]
    refine ih _ ?_
    unfold bump
    rcases AList.upd_keys (eq := ObsId.eqv) (d := 0) (l := num) (k := pairOf b) (f := (· + 1)) with ⟨_, e⟩ | ⟨hn, e⟩
    · rw [e]; exact hd
    · rw [e, List.pairwise_append]
      refine ⟨hd, by simp, fun a ha b hb => ?_⟩
      rw [List.mem_singleton.1 hb]
      exact get?_none_entry hn a ha

theorem bumps_get (bs : List (Btw G N)) (num : List (ObsId × Nat)) (id : ObsId) :
    AList.get? ObsId.eqv (bumps bs num) id =
      if bs.filter (fun b => (pairOf b).eqv id) = [] then AList.get? ObsId.eqv num id
      else some ((AList.get? ObsId.eqv num id).getD 0 + (bs.filter fun b => (pairOf b).eqv id).length) := by
  unfold bumps
  induction bs generalizing num with
  | nil => rfl
  | cons b bs ih =>
    rw [List.foldl_cons, ih]
    unfold bump
    by_cases h : (pairOf b).eqv id = true
    · have h1 : AList.get? ObsId.eqv (AList.upd ObsId.eqv 0 num (pairOf b) (· + 1)) id =
          some ((AList.get? ObsId.eqv num id).getD 0 + 1) := by
        rw [← AList.get?_congr ObsId.isEqv _ h, AList.get?_upd_self ObsId.isEqv, AList.get?_congr ObsId.isEqv _ h]
      rw [h1, List.filter_cons_of_pos (by simpa using h)]
      simp only [Option.getD_some, List.length_cons, reduceCtorEq, if_false]
      split
      · rename_i h2; rw [h2]; rfl
      · congr 1; omega
    · rw [AList.get?_upd_other ObsId.isEqv _ _ _ _ _ (by simpa using h), List.filter_cons_of_neg (by simpa using h)]

omit [Mul G] [Inv G] [One G] in
theorem filter_eq_nil_of {α : Type} {p q : α → Bool} {l : List α} :
    (l.filter p).filter q = l.filter fun a => p a && q a := by
  rw [List.filter_filter]
  congr 1
  funext a
  exact Bool.and_comm _ _

/-- Incremental selection: induction over the calls, for the measurements of one pair. -/
theorem ReachOk.inc_induct {cfg : Cfg G T N} {env : Env G N} (hr : cfg.rejection = true) (hl : cfg.loopCheck = true)
    (hi : cfg.incremental = true) {P : Meas G N → Prop} (h00 : P Meas.empty)
    (hrm : ∀ {m m' : Meas G N} {q : EdgePtr}, P m → removeLastMeas m = .ok m' q → P m')
    (hinc : ∀ {m0 m m' : Meas G N} {bs : List (Btw G N)}, Ext m0 m bs → bs ≠ [] → P m0 →
      incInliers bs.length m = .ok m' () → P m')
    {h : List (Op G N)} {s : St G T N} (r : ReachOk cfg env h s) (id : ObsId) : P (lcOf s.pcm id) := by
  induction r generalizing id with
  | init => exact h00
  | @step h s op s' x r e ih =>
    cases hb : Spec.batch op with
    | none =>
      have ho := (exec_other cfg env hr op hb s).of_ok e
      rcases ho.pcm.meas id with e1 | ⟨hrem, _⟩
      · rw [e1]; exact ih id
      · rcases exec_removes_meas hr hrem e id with e1 | ⟨q, e1⟩
        · rw [e1]; exact ih id
        · exact hrm (ih id) e1
    | some y =>
      obtain ⟨fs, vs⟩ := y
      have hd := (exec_batch env hr hb s).1 s' x e
      cases hd with
      | empty _ _ hf => rw [hf.pcm]; exact ih id
      | full hne hi1 hS h1 h2 ha hf =>
        rename_i v1 p1 p2 s1
        have hp : s'.pcm = { p2 with robotOrder := s1.pcm.robotOrder } := by rw [hf.pcm, ha.eq]
        have hlc : lcOf s'.pcm id = lcOf p2 id := by rw [hp]; rfl
        have h0 : P (lcOf p1 id) := by rw [lcOf_lcs hS.lcs]; exact ih id
        rw [hlc]
        by_cases hc : Spec.cands cfg vs fs = []
        · rw [h1 hc]; exact h0
        · have h3 := h2 hc
          unfold processCands at h3
          simp only [M.bind_eq] at h3
          obtain ⟨q, num, h4, h5⟩ := M.bind_eq_ok.1 h3
          have hext : ∃ bs, Ext (lcOf p1 id) (lcOf q id) bs :=
            parseLoops_at id (Q := fun m => ∃ bs, Ext (lcOf p1 id) m bs)
              (fun f b m ⟨bs, hx⟩ hfit => ⟨bs ++ [b], hx.grow hl f b ((hfit hl).imp_right fun h => h.1)⟩)
              _ _ _ _ _ h4 ⟨[], rfl, by simp, fun _ => rfl, fun h => absurd rfl h, fun h => absurd rfl h⟩
          obtain ⟨bs, hx⟩ := hext
          obtain ⟨rfl, t⟩ := parseLoops_ok h4
          have hbs : bs.length = ((Spec.cands cfg vs fs).filter fun b =>
              acceptLc cfg v1 (lk cfg p1) b && (pairOf b).eqv id).length := by
            have h6 : lcOf q id = _ := t.lcOf id
            rw [parseFold_lcOf] at h6
            have h7 : ∀ (l : List (Btw G N)) (m : Meas G N),
                (l.foldl (fun m b => growLc cfg (lk cfg p1) b m) m).factors = m.factors ++ l := by
              intro l
              induction l with
              | nil => intro m; simp
              | cons b l ihl => intro m; rw [List.foldl_cons, ihl]; simp [growLc]
            have h8 := congrArg (fun m => m.factors.length) h6
            simp only [h7, hx.factors, List.length_append] at h8
            omega
          unfold M.cond at h5
          rw [hi] at h5
          simp only [if_true] at h5
          unfold findInliersIncremental at h5
          simp only [M.bind_eq] at h5
          rw [M.bind_ok (M.modify_apply _ _), M.bind_eq_ok] at h5
          obtain ⟨q1, _, h6, h7⟩ := h5
          rw [M.bind_ok (M.modify_apply _ _)] at h7
          obtain ⟨r2, g2, rfl⟩ := M.zoom_eq_ok.1 h7
          show P (lcOf q1 id)
          have hget := bumps_get ((Spec.cands cfg vs fs).filter (acceptLc cfg v1 (lk cfg p1))) [] id
          rw [filter_eq_nil_of] at hget
          rcases incLoop_at _ (bumps_distinct _ [] (by simp)) _ _ h6 id with ⟨hn, e1⟩ | ⟨n, hn, e1⟩
          · rw [hn] at hget
            have hnil : (Spec.cands cfg vs fs).filter (fun b => acceptLc cfg v1 (lk cfg p1) b && (pairOf b).eqv id) = [] := by
              by_contra hne
              rw [if_neg hne] at hget; cases hget
            rw [hnil] at hbs
            rw [e1]
            show P (lcOf q id)
            rw [hx.same (List.length_eq_zero_iff.1 hbs)]
            exact h0
          · rw [hn] at hget
            by_cases hnil : (Spec.cands cfg vs fs).filter (fun b => acceptLc cfg v1 (lk cfg p1) b && (pairOf b).eqv id) = []
            · rw [if_pos hnil] at hget; cases hget
            · rw [if_neg hnil] at hget
              simp only [AList.get?, Option.getD_none, Nat.zero_add, Option.some.injEq] at hget
              rw [hget, ← hbs] at e1
              refine hinc hx ?_ h0 e1
              rintro rfl
              exact hnil (List.length_eq_zero_iff.1 hbs.symm)

/-- Both modes: the invariant at every call boundary. -/
theorem ReachOk.settled {cfg : Cfg G T N} {env : Env G N} (hr : cfg.rejection = true) (hl : cfg.loopCheck = true)
    {h : List (Op G N)} {s : St G T N} (r : ReachOk cfg env h s) (id : ObsId) : Settled (lcOf s.pcm id) := by
  cases hi : cfg.incremental with
  | false => exact (r.chosen hr hl hi id).settled
  | true => exact r.inc_induct hr hl hi Settled.empty removeLastMeas_settled incInliers_settled id

end RPGO
