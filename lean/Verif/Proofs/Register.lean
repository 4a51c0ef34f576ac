import Verif.Proofs.Chain
import Mathlib.Tactic.Set
/-
Invariants of the measurements stored for one robot pair or one landmark, over all call histories.
-/

namespace RPGO
variable {G T N : Type}

/-- Registration of candidates, as an invariant of the measurements of every robot pair. -/
theorem parseLoops_meas {cfg : Cfg G T N} {vals : Vals G} {Q : Meas G N → Prop}
    (grow : ∀ f b m, Q m → (cfg.loopCheck = true → m.factors = [] ∨
      (m.adj.n = m.factors.length ∧ ∀ x ∈ m.factors, x.noise.isSome ∧ b.noise.isSome)) → Q (growLc cfg f b m))
    (bs : List (Btw G N)) (num num' : List (ObsId × Nat)) (p q : Pcm G T N)
    (h : parseLoops cfg vals bs num p = .ok q num') (hp : ∀ id, Q (lcOf p id)) (id : ObsId) : Q (lcOf q id) := by
  induction bs generalizing num p with
  | nil => unfold parseLoops at h; cases h; exact hp id
  | cons b bs ih =>
    rcases parseLoops_cons cfg vals b bs num p with ⟨u, e, _⟩ | ⟨p1, t, e, hfit, _⟩
    · rw [e] at h; cases h
    · rw [e] at h
      refine ih _ _ h fun id' => ?_
      rw [t.lcOf]
      unfold parseStep
      by_cases ha : acceptLc cfg vals (lk cfg p) b = true
      · rw [if_pos ha]
        have : lcOf (regLc cfg (lk cfg p) p b) id' = lcOf (updLc p (pairOf b) (growLc cfg (lk cfg p) b)) id' := rfl
        rw [this, lcOf_updLc]
        split
        · rename_i hid
          have h2 : lcOf p id' = lcOf p (pairOf b) := by
            unfold lcOf
            rw [AList.get?_congr ObsId.isEqv _ hid]
          rw [h2]
          exact grow _ _ _ (hp _) (fun hl => hfit ha hl)
        · exact hp id'
      · rw [if_neg ha]
        split
        · exact hp id'
        · exact hp id'

/-- Registration of candidates, as an invariant of the observations of every landmark. -/
theorem parseLoops_land {cfg : Cfg G T N} {vals : Vals G} {Q : Key → Meas G N → Prop}
    (bs : List (Btw G N))
    (grow : ∀ f, ∀ b ∈ bs, ∀ m, acceptLm cfg vals b = true → Q (landmarkKey cfg b) m → (m.factors = [] ∨
      m.adj.n = m.factors.length) → Q (landmarkKey cfg b) (growLm cfg f (landmarkKey cfg b) b m))
    (num num' : List (ObsId × Nat)) (p q : Pcm G T N)
    (h : parseLoops cfg vals bs num p = .ok q num') (hp : ∀ l, Q l (lmOf p l)) (l : Key) : Q l (lmOf q l) := by
  induction bs generalizing num p with
  | nil => unfold parseLoops at h; cases h; exact hp l
  | cons b bs ih =>
    rcases parseLoops_cons cfg vals b bs num p with ⟨u, e, _⟩ | ⟨p1, t, e, _, hfit⟩
    · rw [e] at h; cases h
    · rw [e] at h
      refine ih (fun f b' hb' => grow f b' (by simp [hb'])) _ _ h fun l' => ?_
      rw [t.lmOf]
      unfold parseStep
      split
      · exact hp l'
      · split
        · rename_i ha
          have : lmOf (regLm cfg (lk cfg p) p b) l' =
            lmOf (updLm p (landmarkKey cfg b) (growLm cfg (lk cfg p) (landmarkKey cfg b) b)) l' := rfl
          rw [this, lmOf_updLm]
          split
          · rename_i hid
            subst hid
            exact grow _ b (by simp) _ ha (hp _) (hfit ha)
          · exact hp l'
        · exact hp l'

/-- Processing candidates is registration followed by selection. -/
theorem processCands_parse (cfg : Cfg G T N) (vals : Vals G) (bs : List (Btw G N)) (p : Pcm G T N) :
    M.Ends (fun p' => ∃ q num, parseLoops cfg vals bs [] p = .ok q num ∧ SelPcm q p') (processCands cfg vals bs p) := by
  unfold processCands
  simp only [M.bind_eq]
  rcases parseLoops_outcome cfg vals bs [] p with ⟨u, e⟩ | ⟨p1, e, t⟩
  · rw [M.bind_apply, e]; trivial
  · rw [M.bind_ok e]
    unfold M.cond
    split
    · exact M.Ends.mono (fun p' h => ⟨p1, _, e, h.1⟩) (findInliersIncremental_ends _ p1 (bumps_registered t))
    · exact M.Ends.mono (fun p' h => ⟨p1, _, e, h.1⟩) (findInliers_ends cfg p1)

variable [Mul G] [Inv G] [One G]

/-- A batch, as far as registration is concerned. -/
inductive BatchReg (cfg : Cfg G T N) (fs : Graph G N) (vs : Vals G) (s : St G T N) : Pcm G T N → Prop where
  | keep : BatchReg cfg fs vs s s.pcm
  | sort {v1 fs1 fs2 p1 p'} : insertVals vs s.values = .ok v1 () → fs = fs1 ++ fs2 → Sorted cfg vs v1 fs1 s.pcm p1 →
      p'.lcs = p1.lcs → p'.landmarks = p1.landmarks → p'.inOrder = p1.inOrder → BatchReg cfg fs vs s p'
  | cands {v1 p1 q num p2 p'} : insertVals vs s.values = .ok v1 () → Sorted cfg vs v1 fs s.pcm p1 →
      parseLoops cfg v1 (Spec.cands cfg vs fs) [] p1 = .ok q num → SelPcm q p2 →
      p'.lcs = p2.lcs → p'.landmarks = p2.landmarks → p'.inOrder = p2.inOrder → BatchReg cfg fs vs s p'

theorem exec_reg {cfg : Cfg G T N} {env : Env G N} (hr : cfg.rejection = true) (op : Op G N) {fs : Graph G N} {vs : Vals G}
    (hb : Spec.batch op = some (fs, vs)) (s : St G T N) :
    M.Ends (fun s' => BatchReg cfg fs vs s s'.pcm) (exec cfg env op s) := by
  obtain ⟨h1, h2⟩ := exec_batch env hr hb s
  have hdone : ∀ s', BatchDone cfg env fs vs s s' → BatchReg cfg fs vs s s'.pcm := by
    intro s' h
    cases h with
    | empty _ _ hf => rw [hf.pcm]; exact .keep
    | full hne hi hS h1 h2 ha hf =>
      rename_i v1 p1 p2 s1
      have hp : s'.pcm = { p2 with robotOrder := s1.pcm.robotOrder } := by rw [hf.pcm, ha.eq]
      rw [hp]
      by_cases hc : Spec.cands cfg vs fs = []
      · rw [h1 hc]
        exact .sort hi (List.append_nil _).symm hS rfl rfl rfl
      · have he := processCands_parse cfg v1 (Spec.cands cfg vs fs) p1
        rw [h2 hc] at he
        obtain ⟨q, num, hq, hs⟩ := he
        exact .cands hi hS hq hs rfl rfl rfl
  have hfail : ∀ s', BatchFail cfg fs vs s s' → BatchReg cfg fs vs s s'.pcm := by
    intro s' h
    cases h with
    | dup _ => exact .keep
    | sort a b c d e f => exact .sort a b d rfl rfl rfl
    | cands hi hS hc hp =>
      rename_i v1 p1 p2 x
      have he := processCands_parse cfg v1 (Spec.cands cfg vs fs) p1
      rw [hp] at he
      obtain ⟨q, num, hq, hs⟩ := he
      exact .cands hi hS hq hs rfl rfl rfl
  cases he : exec cfg env op s with
  | ub u => trivial
  | ok s' r => exact hdone _ (h1 s' r he)
  | throw s' x =>
    rcases h2 s' x he with h | h
    · exact hfail _ h
    · exact hdone _ h

theorem lcOf_lcs {p p' : Pcm G T N} (h : p'.lcs = p.lcs) (id : ObsId) : lcOf p' id = lcOf p id := by unfold lcOf; rw [h]
theorem lmOf_lms {p p' : Pcm G T N} (h : p'.landmarks = p.landmarks) (l : Key) : lmOf p' l = lmOf p l := by
  unfold lmOf; rw [h]

theorem lcOf_some {p : Pcm G T N} {id : ObsId} {m : Meas G N} (h : AList.get? ObsId.eqv p.lcs id = some m) :
    lcOf p id = m := by unfold lcOf; rw [h]; rfl

/-- How one call without batch changes the measurements of a pair. -/
theorem PcmEff.meas {cfg : Cfg G T N} {op : Op G N} {p p' : Pcm G T N} (h : PcmEff cfg op p p') (id : ObsId) :
    lcOf p' id = lcOf p id ∨ (Spec.Removes op ∧ RemMeas (lcOf p id) (lcOf p' id)) := by
  have key : ∀ (p : Pcm G T N) (id0 : ObsId) (m m' : Meas G N), AList.get? ObsId.eqv p.lcs id0 = some m → RemMeas m m' →
      lcOf (updLc p id0 fun _ => m') id = lcOf p id ∨ RemMeas (lcOf p id) (lcOf (updLc p id0 fun _ => m') id) := by
    intro p id0 m m' hm hr
    rw [lcOf_updLc]
    split
    · rename_i hid
      right
      have : lcOf p id = m := by
        have h2 : lcOf p id = lcOf p id0 := by
          unfold lcOf
          rw [AList.get?_congr ObsId.isEqv _ hid]
        rw [h2, lcOf_some hm]
      rw [this]; exact hr
    · exact Or.inl rfl
  cases h with
  | same => exact Or.inl rfl
  | priors => exact Or.inl rfl
  | ignore => left; split <;> rfl
  | revive => exact Or.inl rfl
  | pair hm hr => rcases key _ _ _ _ hm hr with h | h; exacts [Or.inl h, Or.inr ⟨trivial, h⟩]
  | pop _ => exact Or.inl rfl
  | @last p id0 m m' _ hm hr =>
    rcases key { p with inOrder := p.inOrder.dropLast } id0 _ _ hm hr with h | h
    exacts [Or.inl h, Or.inr ⟨trivial, h⟩]

theorem PcmEff.landmarks {cfg : Cfg G T N} {op : Op G N} {p p' : Pcm G T N} (h : PcmEff cfg op p p') :
    p'.landmarks = p.landmarks := by
  cases h with
  | ignore => split <;> rfl
  | _ => rfl

/-- An invariant of the measurements of every robot pair, over all histories. -/
theorem Reach.meas {cfg : Cfg G T N} {env : Env G N} (hr : cfg.rejection = true) {Q : Meas G N → Prop}
    (init : Q Meas.empty)
    (grow : ∀ f b m, Q m → (cfg.loopCheck = true → m.factors = [] ∨
      (m.adj.n = m.factors.length ∧ ∀ x ∈ m.factors, x.noise.isSome ∧ b.noise.isSome)) → Q (growLc cfg f b m))
    (sel : ∀ m m', Sel m m' → Q m → Q m')
    {h : List (Op G N)} (rem : (∃ op ∈ h, Spec.Removes op) → ∀ m m', RemMeas m m' → Q m → Q m')
    {s : St G T N} (r : Reach cfg env h s) (id : ObsId) : Q (lcOf s.pcm id) := by
  have step : ∀ (op : Op G N) (s : St G T N), (Spec.Removes op → ∀ m m', RemMeas m m' → Q m → Q m') →
      (∀ id, Q (lcOf s.pcm id)) → M.Ends (fun s' => ∀ id, Q (lcOf s'.pcm id)) (exec cfg env op s) := by
    intro op s hrem ih
    cases hb : Spec.batch op with
    | none =>
      refine M.Ends.mono (fun s' ho id => ?_) (exec_other cfg env hr op hb s)
      rcases ho.pcm.meas id with e | ⟨hm, e⟩
      · rw [e]; exact ih id
      · exact hrem hm _ _ e (ih id)
    | some x =>
      obtain ⟨fs, vs⟩ := x
      refine M.Ends.mono (fun s' ho => ?_) (exec_reg (env := env) hr op hb s)
      generalize s'.pcm = p' at ho
      cases ho with
      | keep => exact ih
      | sort _ _ hS h1 _ _ =>
        intro id
        rw [lcOf_lcs h1, lcOf_lcs hS.lcs]; exact ih id
      | cands _ hS hq hsel h1 _ _ =>
        intro id
        rw [lcOf_lcs h1]
        refine Table.lcOf_rel (R := fun m m' => Q m → Q m') (fun h => h) (hsel.lcs.mono fun m m' h => sel m m' h) id ?_
        refine parseLoops_meas grow _ _ _ _ _ hq (fun id => ?_) id
        rw [lcOf_lcs hS.lcs]; exact ih id
  induction r generalizing id with
  | init => exact init
  | @ok h s op s' x r e ih =>
    have := step op s (fun ho => rem ⟨op, by simp, ho⟩)
      (fun id => ih (fun ⟨o, ho, hr⟩ => rem ⟨o, by simp [ho], hr⟩) id)
    rw [e] at this
    exact this id
  | @throw h s op s' x r e ih =>
    have := step op s (fun ho => rem ⟨op, by simp, ho⟩)
      (fun id => ih (fun ⟨o, ho, hr⟩ => rem ⟨o, by simp [ho], hr⟩) id)
    rw [e] at this
    exact this id

/-! ### Shape of the matrix of a pair -/

theorem Mat.grow_n (A : Mat) (vs : List Bool) : (A.grow vs).n = A.n + 1 := rfl

theorem Mat.grow_old (A : Mat) (vs : List Bool) {i j : Nat} (hi : i < A.n) (hj : j < A.n) :
    (A.grow vs).e i j = A.e i j := by simp [Mat.grow, hi, hj]

theorem Mat.grow_row (A : Mat) (vs : List Bool) (j : Nat) : (A.grow vs).e A.n j = (vs[j]? == some true) := by
  simp [Mat.grow]

theorem Mat.grow_col (A : Mat) (vs : List Bool) {i : Nat} (hi : i < A.n) : (A.grow vs).e i A.n = (vs[i]? == some true) := by
  simp [Mat.grow, hi]

/-- What holds of the measurements of a pair at any time, removals included, when the pairwise check is on. -/
structure Shape (m : Meas G N) : Prop where
  size : 2 ≤ m.factors.length → m.adj.n = m.factors.length
  one : m.factors.length = 1 → m.adj.n = 1 ∨ m.adj.n = 2
  noise : 2 ≤ m.factors.length → ∀ x ∈ m.factors, x.noise.isSome
  sym : ∀ i j, i < m.factors.length → j < m.factors.length → m.adj.e i j = m.adj.e j i
  diag : ∀ i, i < m.factors.length → m.adj.e i i = false

theorem Shape.empty : Shape (Meas.empty : Meas G N) :=
  ⟨by simp [Meas.empty], by simp [Meas.empty], by simp [Meas.empty], by simp [Meas.empty], by simp [Meas.empty]⟩

theorem Shape.sel {m m' : Meas G N} (h : Sel m m') (hm : Shape m) : Shape m' := by
  obtain ⟨a, b, c, d, e⟩ := hm
  refine ⟨?_, ?_, ?_, ?_, ?_⟩ <;> rw [h.factors] <;> (try rw [h.adj]) <;> assumption

theorem Shape.rem {m m' : Meas G N} (h : RemMeas m m') (hm : Shape m) : Shape m' := by
  obtain ⟨a, b, c, d, e⟩ := hm
  cases h with
  | same => exact ⟨a, b, c, d, e⟩
  | @few init last hf hl =>
    have hlen : m.factors.length = init.length + 1 := by rw [hf]; simp
    refine ⟨fun h => absurd h (by simp only; omega), fun h => ?_, fun h => absurd h (by simp only; omega),
      fun i j hi hj => d i j (by simp only at hi; omega) (by simp only at hj; omega),
      fun i hi => e i (by simp only at hi; omega)⟩
    simp only at h ⊢
    right
    rw [a (by omega)]; omega
  | @many init last c' hf hl hc hn _ =>
    have hlen : m.factors.length = init.length + 1 := by rw [hf]; simp
    have hn : m.adj.n = init.length + 1 := by rw [a (by omega)]; exact hlen
    refine ⟨fun _ => by simp only; omega, fun h => absurd h (by simp only; omega), fun _ x hx => ?_,
      fun i j hi hj => d i j (by simp only at hi; omega) (by simp only at hj; omega),
      fun i hi => e i (by simp only at hi; omega)⟩
    exact c (by omega) x (by rw [hf]; simp at hx ⊢; exact Or.inl hx)

theorem Shape.grow {cfg : Cfg G T N} (hl : cfg.loopCheck = true) (f : Chr → Key → T) (b : Btw G N) {m : Meas G N}
    (hm : Shape m) (hfit : cfg.loopCheck = true → m.factors = [] ∨
      (m.adj.n = m.factors.length ∧ ∀ x ∈ m.factors, x.noise.isSome ∧ b.noise.isSome)) : Shape (growLc cfg f b m) := by
  by_cases h0 : m.factors = []
  · have : growLc cfg f b m = ⟨[b], m.cons, Mat.zero 1⟩ := by simp [growLc, hl, h0]
    rw [this]
    exact ⟨by simp, fun _ => Or.inl rfl, by simp, fun _ _ _ _ => rfl, fun _ _ => rfl⟩
  · rcases hfit hl with h | ⟨hn, hnoise⟩
    · exact absurd h h0
    obtain ⟨a, b', c, d, e⟩ := hm
    set vs := m.factors.map fun x => loopVerdict cfg f x b with hvs
    have hg : growLc cfg f b m = ⟨m.factors ++ [b], m.cons, m.adj.grow vs⟩ := by simp [growLc, hl, h0, hvs]
    have hpos : 0 < m.factors.length := List.length_pos_iff.2 h0
    rw [hg]
    refine ⟨fun _ => ?_, fun h => ?_, fun _ x hx => ?_, fun i j hi hj => ?_, fun i hi => ?_⟩
    · simp [Mat.grow_n, hn]
    · simp at h; exact absurd h h0
    · obtain ⟨y, hy⟩ := List.exists_mem_of_ne_nil _ h0
      simp only [List.mem_append, List.mem_singleton] at hx
      rcases hx with hx | rfl
      · exact (hnoise x hx).1
      · exact (hnoise y hy).2
    · simp only [List.length_append, List.length_singleton] at hi hj
      rcases Nat.lt_or_ge i m.adj.n with h1 | h1 <;> rcases Nat.lt_or_ge j m.adj.n with h2 | h2
      · rw [Mat.grow_old _ _ h1 h2, Mat.grow_old _ _ h2 h1]
        exact d i j (by omega) (by omega)
      · have : j = m.adj.n := by omega
        subst this
        rw [Mat.grow_col _ _ h1, Mat.grow_row]
      · have : i = m.adj.n := by omega
        subst this
        rw [Mat.grow_row, Mat.grow_col _ _ h2]
      · have : i = m.adj.n := by omega
        have : j = m.adj.n := by omega
        subst_vars; rfl
    · simp only [List.length_append, List.length_singleton] at hi
      rcases Nat.lt_or_ge i m.adj.n with h1 | h1
      · rw [Mat.grow_old _ _ h1 h1]; exact e i (by omega)
      · have : i = m.adj.n := by omega
        subst this
        rw [Mat.grow_row, hn]
        simp [hvs]

theorem Reach.shape {cfg : Cfg G T N} {env : Env G N} (hr : cfg.rejection = true) (hl : cfg.loopCheck = true)
    {h : List (Op G N)} {s : St G T N} (r : Reach cfg env h s) (id : ObsId) : Shape (lcOf s.pcm id) :=
  Reach.meas hr Shape.empty (fun f b m hm hf => Shape.grow hl f b hm hf) (fun _ _ h => Shape.sel h)
    (fun _ _ _ h => Shape.rem h) r id

/-- Without removals the matrix has exactly one row per closure. -/
theorem Reach.tight {cfg : Cfg G T N} {env : Env G N} (hr : cfg.rejection = true) (hl : cfg.loopCheck = true)
    {h : List (Op G N)} (hn : ∀ op ∈ h, ¬ Spec.Removes op) {s : St G T N} (r : Reach cfg env h s) (id : ObsId) :
    (lcOf s.pcm id).factors = [] ∨ (lcOf s.pcm id).adj.n = (lcOf s.pcm id).factors.length := by
  refine Reach.meas (Q := fun m => m.factors = [] ∨ m.adj.n = m.factors.length) hr (Or.inl rfl) ?_ ?_ ?_ r id
  · intro f b m hm hf
    right
    by_cases h0 : m.factors = []
    · simp [growLc, hl, h0, Mat.zero]
    · rcases hf hl with h | ⟨h, _⟩
      · exact absurd h h0
      · simp [growLc, hl, h0, Mat.grow_n, h]
  · intro m m' h hm; rw [h.factors, h.adj]; exact hm
  · rintro ⟨op, ho, hrem⟩; exact absurd hrem (hn op ho)

/-- How the matrix of a pair grows when closures are appended. -/
structure Grown (cfg : Cfg G T N) (f : Chr → Key → T) (m m' : Meas G N) : Prop where
  pre : m.factors <+: m'.factors
  tight : m'.factors = [] ∨ m'.adj.n = m'.factors.length
  old : ∀ i j, i < m.factors.length → j < m.factors.length → m'.adj.e i j = m.adj.e i j
  new : ∀ i j x y, i < j → m.factors.length ≤ j → m'.factors[i]? = some x → m'.factors[j]? = some y →
    m'.adj.e i j = loopVerdict cfg f x y

theorem Grown.refl (cfg : Cfg G T N) (f : Chr → Key → T) {m : Meas G N} (h : m.factors = [] ∨ m.adj.n = m.factors.length) :
    Grown cfg f m m := by
  refine ⟨List.prefix_refl _, h, fun _ _ _ _ => rfl, fun i j x y _ hj _ h2 => ?_⟩
  rw [List.getElem?_eq_none hj] at h2; cases h2

theorem Grown.step {cfg : Cfg G T N} (hl : cfg.loopCheck = true) {f : Chr → Key → T} {m m' : Meas G N} (b : Btw G N)
    (h : Grown cfg f m m') : Grown cfg f m (growLc cfg f b m') := by
  obtain ⟨hp, ht, ho, hn⟩ := h
  by_cases h0 : m'.factors = []
  · have hg : growLc cfg f b m' = ⟨[b], m'.cons, Mat.zero 1⟩ := by simp [growLc, hl, h0]
    have hm0 : m.factors = [] := by rw [h0] at hp; exact List.prefix_nil.1 hp
    rw [hg]
    refine ⟨by rw [hm0]; exact List.nil_prefix, Or.inr rfl, fun i j hi _ => ?_, fun i j x y hij _ h1 h2 => ?_⟩
    · rw [hm0] at hi; cases hi
    · obtain ⟨hj, _⟩ := List.getElem?_eq_some_iff.1 h2
      simp only [List.length_singleton] at hj; omega
  · have hn' : m'.adj.n = m'.factors.length := by
      rcases ht with h | h
      · exact absurd h h0
      · exact h
    set vs := m'.factors.map fun x => loopVerdict cfg f x b with hvs
    have hg : growLc cfg f b m' = ⟨m'.factors ++ [b], m'.cons, m'.adj.grow vs⟩ := by simp [growLc, hl, h0, hvs]
    have hle := hp.length_le
    rw [hg]
    refine ⟨hp.trans (List.prefix_append _ _), Or.inr (by simp [Mat.grow_n, hn']), fun i j hi hj => ?_,
      fun i j x y hij hj h1 h2 => ?_⟩
    · simp only
      rw [Mat.grow_old _ _ (by omega) (by omega)]
      exact ho i j hi hj
    · simp only at h1 h2 ⊢
      obtain ⟨hj', _⟩ := List.getElem?_eq_some_iff.1 h2
      simp only [List.length_append, List.length_singleton] at hj'
      have hi' : i < m'.factors.length := by omega
      rw [List.getElem?_append_left hi'] at h1
      rcases Nat.lt_or_ge j m'.factors.length with h3 | h3
      · rw [List.getElem?_append_left h3] at h2
        rw [Mat.grow_old _ _ (by omega) (by omega)]
        exact hn i j x y hij hj h1 h2
      · have hj2 : j = m'.adj.n := by omega
        subst hj2
        rw [Mat.grow_col _ _ (by omega), hvs, List.getElem?_map, h1]
        rw [List.getElem?_append_right h3] at h2
        simp [hn'] at h2
        subst h2
        rw [Option.map_some]
        cases loopVerdict cfg f x b <;> rfl

theorem Grown.fold {cfg : Cfg G T N} (hl : cfg.loopCheck = true) {f : Chr → Key → T} {m m' : Meas G N}
    (bs : List (Btw G N)) (h : Grown cfg f m m') : Grown cfg f m (bs.foldl (fun m b => growLc cfg f b m) m') := by
  induction bs generalizing m' with
  | nil => exact h
  | cons b bs ih => exact ih (h.step hl b)

/-- One call that is no removal, as growth of the matrix of every pair. -/
theorem PcmStep.grown {cfg : Cfg G T N} (hl : cfg.loopCheck = true) {op : Op G N} (ho : ¬ Spec.Removes op)
    {s : St G T N} {p' : Pcm G T N} (st : PcmStep cfg op s p') (id : ObsId)
    (ht : (lcOf s.pcm id).factors = [] ∨ (lcOf s.pcm id).adj.n = (lcOf s.pcm id).factors.length) :
    Grown cfg (lk cfg p') (lcOf s.pcm id) (lcOf p' id) := by
  cases st with
  | other _ he =>
    rcases he.meas id with e | ⟨hm, _⟩
    · rw [e]; exact Grown.refl _ _ ht
    · exact absurd hm ho
  | none _ => exact Grown.refl _ _ ht
  | sort hb hi hfs ho hS hx1 hx2 =>
    rename_i b _ p1
    have h1 : lcOf ({ p1 with odom := p1.odom ++ [b] } : Pcm G T N) id = lcOf s.pcm id := lcOf_lcs hS.lcs id
    rw [h1]
    exact Grown.refl _ _ ht
  | cands hb hne hi hS ht1 hsel hg hro =>
    rename_i fs vs v1 p1 q p2 ro
    have hlk : lk cfg ({ p2 with robotOrder := ro } : Pcm G T N) = lk cfg p1 :=
      Eq.trans (b := lk cfg p2) (lk_congr rfl) (processed_lk ht1 hsel)
    have h1 : lcOf ({ p2 with robotOrder := ro } : Pcm G T N) id = lcOf p2 id := rfl
    rw [hlk, h1]
    have h2 := Table.lcOf_rel (Sel.refl _) hsel.lcs id
    rw [ht1.lcOf, parseFold_lcOf] at h2
    have h3 : lcOf p1 id = lcOf s.pcm id := lcOf_lcs hS.lcs id
    rw [h3] at h2
    obtain ⟨a, b, c, d⟩ := Grown.fold hl ((Spec.cands cfg vs fs).filter fun b =>
      acceptLc cfg v1 (lk cfg p1) b && (pairOf b).eqv id) (Grown.refl cfg (lk cfg p1) ht)
    refine ⟨?_, ?_, ?_, ?_⟩ <;> simp only [h2.factors, h2.adj] <;> assumption

end RPGO
