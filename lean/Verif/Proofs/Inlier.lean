import Verif.Proofs.Parse
import Verif.Proofs.MaxCliqueHeu
import Verif.Props.Clique
/-
The inlier-selection passes: they change nothing but the lists of consistent factors and the inlier counter.
-/

namespace RPGO
variable {G T N : Type}

/-- Entry `m'` is entry `m` after a selection: same closures and matrix; the consistent list is the old one, or
consists of registered closures and is no longer than the matrix or the list of closures. -/
structure Sel (m m' : Meas G N) : Prop where
  factors : m'.factors = m.factors
  adj : m'.adj = m.adj
  cons : m'.cons = m.cons ∨ ((∀ b ∈ m'.cons, b ∈ m.factors) ∧ m'.cons.length ≤ max m.adj.n m.factors.length)

theorem Sel.refl (m : Meas G N) : Sel m m := ⟨rfl, rfl, Or.inl rfl⟩

theorem Sel.trans {a b c : Meas G N} (h1 : Sel a b) (h2 : Sel b c) : Sel a c := by
  refine ⟨h2.factors.trans h1.factors, h2.adj.trans h1.adj, ?_⟩
  rcases h2.cons with e | ⟨h, l⟩
  · rw [e]; exact h1.cons
  · rw [h1.factors, h1.adj] at *; exact Or.inr ⟨h, l⟩

/-- The factors at the positions listed. -/
def atIdx (fs : List (Btw G N)) (idx : List Nat) : List (Btw G N) := idx.filterMap fun i => fs[i]?

theorem mem_atIdx {fs : List (Btw G N)} {idx : List Nat} {b : Btw G N} (h : b ∈ atIdx fs idx) : b ∈ fs := by
  simp only [atIdx, List.mem_filterMap] at h
  obtain ⟨i, _, h⟩ := h
  exact List.mem_of_getElem? h

theorem pick_spec (fs : List (Btw G N)) (n : Nat) (idx : List Nat) (acc : List (Btw G N)) (hl : acc.length ≤ n) :
    (∃ c, pick fs n idx acc = .ok c () ∧ c = acc ++ atIdx fs (idx.take (n - acc.length)) ∧ c.length = n ∧
      n - acc.length ≤ idx.length ∧ (∀ i ∈ idx.take (n - acc.length), i < fs.length)) ∨
    (∃ c, pick fs n idx acc = .throw c .outOfRange ∧ (∃ t, c = acc ++ t ∧ ∀ b ∈ t, b ∈ fs) ∧ c.length ≤ n ∧
      (∃ i ∈ idx.take (n - acc.length), fs.length ≤ i)) ∨
    (pick fs n idx acc = .ub .vecIndex ∧ idx.length < n - acc.length) := by
  induction idx generalizing acc with
  | nil =>
    unfold pick
    by_cases h : n = acc.length
    · left; refine ⟨acc, by simp [h], by simp [atIdx], h.symm, by simp [h], by simp⟩
    · right; right; refine ⟨by simp [h], by simp; omega⟩
  | cons i is ih =>
    unfold pick
    by_cases h : n = acc.length
    · left; refine ⟨acc, by simp [h], by simp [h, atIdx], h.symm, by simp [h], by simp [h]⟩
    · rw [if_neg h]
      have h1 : n - acc.length = (n - (acc.length + 1)) + 1 := by omega
      cases hf : fs[i]? with
      | none =>
        right; left
        refine ⟨acc, rfl, ⟨[], by simp, by simp⟩, hl, i, ?_, ?_⟩
        · rw [h1, List.take_succ_cons]; simp
        · simpa using hf
      | some f =>
        have hi : i < fs.length := by
          rcases Nat.lt_or_ge i fs.length with h | h
          · exact h
          · rw [List.getElem?_eq_none h] at hf; cases hf
        simp only
        rcases ih (acc ++ [f]) (by simp; omega) with ⟨c, e, e2, e3, e4, e5⟩ | ⟨c, e, ⟨t, e2, e3⟩, e4, j, e5, e6⟩ | ⟨e, e2⟩
        · left
          simp only [List.length_append, List.length_singleton] at e2 e4 e5
          refine ⟨c, e, ?_, e3, by simp; omega, ?_⟩
          · rw [h1, List.take_succ_cons, e2]; simp [atIdx, hf]
          · rw [h1, List.take_succ_cons]
            intro j hj
            rcases List.mem_cons.1 hj with rfl | hj
            · exact hi
            · exact e5 j hj
        · right; left
          simp only [List.length_append, List.length_singleton] at e5
          refine ⟨c, e, ⟨f :: t, by rw [e2]; simp, ?_⟩, e4, j, ?_, e6⟩
          · intro b hb
            rcases List.mem_cons.1 hb with rfl | hb
            · exact List.mem_of_getElem? hf
            · exact e3 b hb
          · rw [h1, List.take_succ_cons]; exact List.mem_cons_of_mem _ e5
        · right; right
          simp only [List.length_append, List.length_singleton] at e2
          exact ⟨e, by simp; omega⟩

theorem IsClique.length_le {M : Mat} {l : List Nat} (h : IsClique M l) : l.length ≤ M.n := by
  have hs : l ⊆ List.range M.n := fun a ha => by simpa using h.2.1 a ha
  have := (h.1.subperm hs).length_le
  simpa using this

theorem Backed.le {M : Mat} {k : Nat} {out : List Nat} (h : Backed M k out) : k ≤ M.n := by
  obtain ⟨c, hc, e⟩ := h.clique
  rw [← e]
  exact hc.1.length_le

theorem Backed.lt {M : Mat} {k : Nat} {out : List Nat} (h : Backed M k out) : ∀ a ∈ out.take k, a < M.n := by
  intro a ha
  obtain ⟨v, t, hv, ht, hJ⟩ := h.star
  rw [ht] at ha
  rcases List.mem_cons.1 ha with rfl | ha
  · exact hv
  · exact (hJ a ha).2.1

/-- Outcome of the heuristic selection on one entry. -/
theorem measInliers_spec (m : Meas G N) :
    (m.adj.n = 0 ∧ measInliers m = .ub .vecIndex) ∨
    (0 < m.adj.n ∧ ∃ (k : Nat) (idx : List Nat), findMaxCliqueHeu m.adj [] = some ((k : Int), idx) ∧ Backed m.adj k idx ∧
      ((∃ m', measInliers m = .ok m' k ∧ m' = { m with cons := atIdx m.factors (idx.take k) } ∧
          m'.cons.length = k ∧ ∀ i ∈ idx.take k, i < m.factors.length) ∨
       (∃ c, measInliers m = .throw { m with cons := c } .outOfRange ∧ (∀ b ∈ c, b ∈ m.factors) ∧ c.length ≤ k ∧
          ∃ i ∈ idx.take k, m.factors.length ≤ i))) := by
  rcases Nat.eq_zero_or_pos m.adj.n with h0 | hn
  · left
    refine ⟨h0, ?_⟩
    unfold measInliers
    have : m.adj = ⟨0, m.adj.e⟩ := by rw [← h0]
    rw [this, Props.C06_empty_matrix]
    rfl
  · right
    obtain ⟨k, idx, e, hb, _⟩ := findMaxCliqueHeu_spec m.adj [] hn
    refine ⟨hn, k, idx, e, hb, ?_⟩
    have hk : (if (k : Int) < 0 then 2 ^ 64 - (k : Int).natAbs else (k : Int).toNat) = k := by
      rw [if_neg (by omega)]; simp
    unfold measInliers
    rw [e]
    simp only [hk]
    rcases pick_spec m.factors k idx [] (by simp) with ⟨c, e1, e2, e3, _, e5⟩ | ⟨c, e1, ⟨t, e2, e3⟩, e4, i, e5, e6⟩ | ⟨_, e2⟩
    · left
      rw [e1]
      simp only [List.nil_append, List.length_nil, Nat.sub_zero] at e2 e5
      refine ⟨{ m with cons := c }, rfl, by rw [e2], e3, e5⟩
    · right
      rw [e1]
      simp only [List.nil_append, List.length_nil, Nat.sub_zero] at e2 e5
      subst e2
      exact ⟨c, rfl, e3, e4, i, e5, e6⟩
    · exfalso
      have := hb.len
      simp at e2
      omega

theorem measInliers_sel (m : Meas G N) : M.Ends (Sel m) (measInliers m) := by
  rcases measInliers_spec m with ⟨_, e⟩ | ⟨_, k, idx, _, hb, h⟩
  · rw [e]; trivial
  · rcases h with ⟨m', e, rfl, h2, _⟩ | ⟨c, e, h1, h2, _⟩
    · rw [e]
      refine ⟨rfl, rfl, Or.inr ⟨fun b hb => mem_atIdx hb, ?_⟩⟩
      rw [h2]; have := hb.le; omega
    · rw [e]
      refine ⟨rfl, rfl, Or.inr ⟨h1, ?_⟩⟩
      show c.length ≤ _
      have := hb.le; omega

theorem lcInliers_sel (cfg : Cfg G T N) (m : Meas G N) : M.Ends (Sel m) (lcInliers cfg m) := by
  unfold lcInliers
  split
  · exact measInliers_sel m
  · exact ⟨rfl, rfl, Or.inr ⟨fun b hb => hb, by simp⟩⟩

theorem measInliers_num {m m' : Meas G N} {n : Nat} (h : measInliers m = .ok m' n) : m'.cons.length = n := by
  rcases measInliers_spec m with ⟨_, e⟩ | ⟨_, k, idx, _, hb, ⟨m1, e, _, h2, _⟩ | ⟨c, e, _⟩⟩
  · rw [e] at h; cases h
  · rw [e] at h; cases h; exact h2
  · rw [e] at h; cases h

theorem lcInliers_num {cfg : Cfg G T N} {m m' : Meas G N} {n : Nat} (h : lcInliers cfg m = .ok m' n) :
    m'.cons.length = n := by
  unfold lcInliers at h
  split at h
  · exact measInliers_num h
  · cases h; rfl

/-- Sum of the sizes of the consistent lists. -/
def consSum {κ : Type} (l : List (κ × Meas G N)) : Nat := (l.map fun e => e.2.cons.length).sum

@[simp] theorem consSum_cons {κ : Type} (e : κ × Meas G N) (l : List (κ × Meas G N)) :
    consSum (e :: l) = e.2.cons.length + consSum l := by simp [consSum]

@[simp] theorem consSum_nil {κ : Type} : consSum ([] : List (κ × Meas G N)) = 0 := rfl

/-- Two tables with the same keys and entries related by `R`. -/
def Table {κ : Type} (R : Meas G N → Meas G N → Prop) (l l' : List (κ × Meas G N)) : Prop :=
  List.Forall₂ (fun e e' => e'.1 = e.1 ∧ R e.2 e'.2) l l'

theorem Table.refl {κ : Type} {R : Meas G N → Meas G N → Prop} (h : ∀ m, R m m) (l : List (κ × Meas G N)) :
    Table R l l := by
  induction l with
  | nil => exact .nil
  | cons e l ih => exact .cons ⟨rfl, h _⟩ ih

theorem Table.trans {κ : Type} {R : Meas G N → Meas G N → Prop} (h : ∀ a b c, R a b → R b c → R a c)
    {l l' l'' : List (κ × Meas G N)} (h1 : Table R l l') (h2 : Table R l' l'') : Table R l l'' := by
  induction h1 generalizing l'' with
  | nil => exact h2
  | cons e _ ih =>
    cases h2 with
    | cons e' h2 => exact .cons ⟨e'.1.trans e.1, h _ _ _ e.2 e'.2⟩ (ih h2)

theorem Table.mono {κ : Type} {R R' : Meas G N → Meas G N → Prop} (h : ∀ a b, R a b → R' a b)
    {l l' : List (κ × Meas G N)} (h1 : Table R l l') : Table R' l l' :=
  List.Forall₂.imp (fun _ _ e => ⟨e.1, h _ _ e.2⟩) h1

/-- Outcomes of a pass. -/
theorem inlierPass_ends {κ : Type} {f : Meas G N → Out (Meas G N) Nat} (hs : ∀ m, M.Ends (Sel m) (f m))
    (hn : ∀ m m' n, f m = .ok m' n → m'.cons.length = n) (l : List (κ × Meas G N)) (g : Nat) :
    M.Ends (fun r => Table Sel l r.1 ∧ r.2 ≤ g + consSum r.1) (inlierPass f l g) := by
  induction l generalizing g with
  | nil => exact ⟨.nil, by simp⟩
  | cons e l ih =>
    obtain ⟨k, m⟩ := e
    unfold inlierPass
    have h1 := hs m
    cases hf : f m with
    | ub u => trivial
    | throw m' x =>
      rw [hf] at h1
      exact ⟨.cons ⟨rfl, h1⟩ (Table.refl Sel.refl l), by simp⟩
    | ok m' n =>
      rw [hf] at h1
      have h2 := ih (g + n)
      have h3 := hn m m' n hf
      simp only
      cases hp : inlierPass f l (g + n) with
      | ub u => trivial
      | throw r x =>
        rw [hp] at h2
        refine ⟨.cons ⟨rfl, h1⟩ h2.1, ?_⟩
        have := h2.2
        simp only [consSum_cons]; omega
      | ok r x =>
        rw [hp] at h2
        refine ⟨.cons ⟨rfl, h1⟩ h2.1, ?_⟩
        have := h2.2
        simp only [consSum_cons]; omega

/-- A pass that returned normally applied `f` to every entry, and counted exactly. -/
theorem inlierPass_ok {κ : Type} {f : Meas G N → Out (Meas G N) Nat}
    (hn : ∀ m m' n, f m = .ok m' n → m'.cons.length = n) (l : List (κ × Meas G N)) (g : Nat)
    (r : List (κ × Meas G N) × Nat) (h : inlierPass f l g = .ok r ()) :
    Table (fun m m' => f m = .ok m' m'.cons.length) l r.1 ∧ r.2 = g + consSum r.1 := by
  induction l generalizing g r with
  | nil => cases h; exact ⟨.nil, by simp⟩
  | cons e l ih =>
    obtain ⟨k, m⟩ := e
    unfold inlierPass at h
    cases hf : f m with
    | ub u => rw [hf] at h; cases h
    | throw m' x => rw [hf] at h; cases h
    | ok m' n =>
      rw [hf] at h
      simp only at h
      have h3 := hn m m' n hf
      cases hp : inlierPass f l (g + n) with
      | ub u => rw [hp] at h; cases h
      | throw r' x => rw [hp] at h; cases h
      | ok r' x =>
        rw [hp] at h
        cases h
        obtain ⟨a, b⟩ := ih _ _ hp
        refine ⟨.cons ⟨rfl, by subst h3; exact hf⟩ a, ?_⟩
        simp only [consSum_cons, b]; omega

/-- A pass whose entries all succeed returns normally. -/
theorem inlierPass_safe {κ : Type} {f : Meas G N → Out (Meas G N) Nat} (l : List (κ × Meas G N)) (g : Nat)
    (h : ∀ e ∈ l, ∃ m' n, f e.2 = .ok m' n) : ∃ r, inlierPass f l g = .ok r () := by
  induction l generalizing g with
  | nil => exact ⟨_, rfl⟩
  | cons e l ih =>
    obtain ⟨k, m⟩ := e
    obtain ⟨m', n, hf⟩ := h (k, m) (by simp)
    obtain ⟨r, hr⟩ := ih (g + n) (fun e he => h e (by simp [he]))
    refine ⟨((k, m') :: r.1, r.2), ?_⟩
    unfold inlierPass
    rw [hf]
    simp only [hr]

/-- What selection may change in the outlier-rejection object. -/
structure SelPcm (p p' : Pcm G T N) : Prop where
  eq : p' = { p with lcs := p'.lcs, landmarks := p'.landmarks, totalGood := p'.totalGood }
  lcs : Table Sel p.lcs p'.lcs
  landmarks : Table Sel p.landmarks p'.landmarks

theorem SelPcm.refl (p : Pcm G T N) : SelPcm p p :=
  ⟨rfl, Table.refl Sel.refl _, Table.refl Sel.refl _⟩

theorem SelPcm.trans {a b c : Pcm G T N} (h1 : SelPcm a b) (h2 : SelPcm b c) : SelPcm a c := by
  refine ⟨?_, Table.trans (R := Sel) (fun _ _ _ a b => Sel.trans a b) h1.lcs h2.lcs,
    Table.trans (R := Sel) (fun _ _ _ a b => Sel.trans a b) h1.landmarks h2.landmarks⟩
  rw [h2.eq, h1.eq]

theorem lcPass_ends (cfg : Cfg G T N) (p : Pcm G T N) :
    M.Ends (fun p' => SelPcm p p' ∧ p'.landmarks = p.landmarks ∧ p'.totalGood ≤ p.totalGood + consSum p'.lcs) (lcPass cfg p) := by
  have h := inlierPass_ends (lcInliers_sel cfg) (fun m m' n => lcInliers_num) p.lcs p.totalGood
  unfold lcPass M.zoom
  cases e : inlierPass (lcInliers cfg) p.lcs p.totalGood with
  | ub => simp only [e]; trivial
  | ok r a => rw [e] at h; simp only [e]; exact ⟨⟨rfl, h.1, Table.refl Sel.refl _⟩, rfl, h.2⟩
  | throw r a => rw [e] at h; simp only [e]; exact ⟨⟨rfl, h.1, Table.refl Sel.refl _⟩, rfl, h.2⟩

theorem lmPass_ends (p : Pcm G T N) :
    M.Ends (fun p' => SelPcm p p' ∧ p'.lcs = p.lcs ∧ p'.totalGood ≤ p.totalGood + consSum p'.landmarks)
      (lmPass (G := G) (T := T) (N := N) p) := by
  have h := inlierPass_ends measInliers_sel (fun m m' n => measInliers_num) p.landmarks p.totalGood
  unfold lmPass M.zoom
  cases e : inlierPass measInliers p.landmarks p.totalGood with
  | ub => simp only [e]; trivial
  | ok r a => rw [e] at h; simp only [e]; exact ⟨⟨rfl, Table.refl Sel.refl _, h.1⟩, rfl, h.2⟩
  | throw r a => rw [e] at h; simp only [e]; exact ⟨⟨rfl, Table.refl Sel.refl _, h.1⟩, rfl, h.2⟩

theorem findInliers_ends (cfg : Cfg G T N) (p : Pcm G T N) :
    M.Ends (fun p' => SelPcm p p' ∧ p'.totalGood ≤ consSum p'.lcs + consSum p'.landmarks) (findInliers cfg p) := by
  unfold findInliers
  simp only [M.bind_eq]
  rw [M.bind_ok (M.modify_apply _ _), M.bind_apply]
  have h0 : SelPcm p { p with totalGood := 0 } := ⟨rfl, Table.refl Sel.refl _, Table.refl Sel.refl _⟩
  have h1 := lcPass_ends cfg { p with totalGood := 0 }
  cases e : lcPass cfg { p with totalGood := 0 } with
  | ub u => trivial
  | throw p1 x =>
    rw [e] at h1
    exact ⟨h0.trans h1.1, by have := h1.2.2; simp at this; omega⟩
  | ok p1 x =>
    rw [e] at h1
    simp only
    refine M.Ends.mono ?_ (lmPass_ends p1)
    intro p2 h2
    refine ⟨(h0.trans h1.1).trans h2.1, ?_⟩
    have a := h1.2.2; have b := h2.2.2
    simp at a
    rw [h2.2.1]; omega

/-- Normal return of the batch selection. -/
theorem findInliers_ok {cfg : Cfg G T N} {p p' : Pcm G T N} (h : findInliers cfg p = .ok p' ()) :
    p' = { p with lcs := p'.lcs, landmarks := p'.landmarks, totalGood := p'.totalGood } ∧
    Table (fun m m' => lcInliers cfg m = .ok m' m'.cons.length) p.lcs p'.lcs ∧
    Table (fun m m' => measInliers m = .ok m' m'.cons.length) p.landmarks p'.landmarks ∧
    p'.totalGood = consSum p'.lcs + consSum p'.landmarks := by
  unfold findInliers at h
  simp only [M.bind_eq] at h
  rw [M.bind_ok (M.modify_apply _ _), M.bind_eq_ok] at h
  obtain ⟨p1, _, h1, h2⟩ := h
  obtain ⟨r1, g1, rfl⟩ := M.zoom_eq_ok.1 h1
  obtain ⟨r2, g2, rfl⟩ := M.zoom_eq_ok.1 h2
  obtain ⟨a1, b1⟩ := inlierPass_ok (fun m m' n => lcInliers_num) _ _ _ g1
  obtain ⟨a2, b2⟩ := inlierPass_ok (fun m m' n => measInliers_num) _ _ _ g2
  refine ⟨rfl, a1, a2, ?_⟩
  simp only at b1 b2 ⊢
  rw [b2, b1]; omega

/-! ### Incremental selection -/

/-- Outcome of the incremental selection on one entry. -/
theorem incInliers_spec (numNew : Nat) (m : Meas G N) :
    ∃ (k : Nat) (idx : List Nat), findMaxCliqueHeuIncremental m.adj numNew m.cons.length [] = some (k, idx) ∧
      ((k = 0 ∧ incInliers numNew m = .ok m ()) ∨
       (m.cons.length < k ∧ Backed m.adj k idx ∧
        ((∃ m', incInliers numNew m = .ok m' () ∧ m' = { m with cons := atIdx m.factors (idx.take k) } ∧
            m'.cons.length = k ∧ ∀ i ∈ idx.take k, i < m.factors.length) ∨
         (∃ c, incInliers numNew m = .throw { m with cons := c } .outOfRange ∧ (∀ b ∈ c, b ∈ m.factors) ∧
            c.length ≤ k ∧ ∃ i ∈ idx.take k, m.factors.length ≤ i)))) := by
  obtain ⟨k, idx, e, h, _⟩ := findMaxCliqueHeuIncremental_spec m.adj numNew m.cons.length []
  refine ⟨k, idx, e, ?_⟩
  unfold incInliers
  rw [e]
  simp only
  rcases h with rfl | ⟨h, hb⟩
  · left; simp
  · right
    refine ⟨h, hb, ?_⟩
    rw [if_pos (by omega)]
    rcases pick_spec m.factors k idx [] (by simp) with ⟨c, e1, e2, e3, _, e5⟩ | ⟨c, e1, ⟨t, e2, e3⟩, e4, i, e5, e6⟩ | ⟨_, e2⟩
    · left
      rw [e1]
      simp only [List.nil_append, List.length_nil, Nat.sub_zero] at e2 e5
      refine ⟨{ m with cons := c }, rfl, by rw [e2], e3, e5⟩
    · right
      rw [e1]
      simp only [List.nil_append, List.length_nil, Nat.sub_zero] at e2 e5
      subst e2
      exact ⟨c, rfl, e3, e4, i, e5, e6⟩
    · exfalso
      have := hb.len
      simp at e2
      omega

theorem incInliers_sel (numNew : Nat) (m : Meas G N) : M.Ends (Sel m) (incInliers numNew m) := by
  obtain ⟨k, idx, _, h⟩ := incInliers_spec numNew m
  rcases h with ⟨_, e⟩ | ⟨_, hb, ⟨m', e, rfl, h2, _⟩ | ⟨c, e, h1, h2, _⟩⟩
  · rw [e]; exact Sel.refl m
  · rw [e]
    refine ⟨rfl, rfl, Or.inr ⟨fun b hb => mem_atIdx hb, ?_⟩⟩
    rw [h2]; have := hb.le; omega
  · rw [e]
    refine ⟨rfl, rfl, Or.inr ⟨h1, ?_⟩⟩
    show c.length ≤ _
    have := hb.le; omega

theorem Table.upd {κ : Type} {eq : κ → κ → Bool} {R : Meas G N → Meas G N → Prop} (hr : ∀ m, R m m) {d : Meas G N}
    {l : List (κ × Meas G N)} {k : κ} {m m' : Meas G N} (h : AList.get? eq l k = some m) (hm : R m m') :
    Table R l (AList.upd eq d l k (fun _ => m')) := by
  induction l with
  | nil => simp [AList.get?] at h
  | cons e l ih =>
    obtain ⟨k0, v0⟩ := e
    unfold AList.get? at h
    unfold AList.upd
    by_cases hk : eq k0 k = true
    · rw [if_pos hk] at h ⊢
      cases h
      exact .cons ⟨rfl, hm⟩ (Table.refl hr l)
    · rw [if_neg hk] at h ⊢
      exact .cons ⟨rfl, hr _⟩ (ih h)

theorem Table.isSome {κ : Type} {eq : κ → κ → Bool} {R : Meas G N → Meas G N → Prop} {l l' : List (κ × Meas G N)}
    (h : Table R l l') (k : κ) : (AList.get? eq l' k).isSome = (AList.get? eq l k).isSome := by
  induction h with
  | nil => rfl
  | cons e _ ih =>
    rename_i a b _ _ _
    obtain ⟨k0, v0⟩ := a
    obtain ⟨k1, v1⟩ := b
    obtain ⟨rfl, _⟩ := e
    unfold AList.get?
    by_cases hk : eq k1 k = true
    · simp [hk]
    · simp [hk, ih]

/-- Entries of related tables. -/
theorem Table.get? {κ : Type} {eq : κ → κ → Bool} {R : Meas G N → Meas G N → Prop} {l l' : List (κ × Meas G N)}
    (h : Table R l l') {k : κ} {m : Meas G N} (hm : AList.get? eq l k = some m) :
    ∃ m', AList.get? eq l' k = some m' ∧ R m m' := by
  induction h with
  | nil => simp [AList.get?] at hm
  | cons e _ ih =>
    rename_i a b _ _ _
    obtain ⟨k0, v0⟩ := a
    obtain ⟨k1, v1⟩ := b
    obtain ⟨rfl, h1⟩ := e
    unfold AList.get? at hm ⊢
    by_cases hk : eq k1 k = true
    · simp only [hk, if_true, Option.some.injEq] at hm ⊢
      subst hm
      exact ⟨v1, rfl, h1⟩
    · simp only [hk] at hm ⊢
      exact ih hm

theorem lcOf_of_get? {p : Pcm G T N} {id : ObsId} {m : Meas G N} (h : AList.get? ObsId.eqv p.lcs id = some m) :
    lcOf p id = m := by simp [lcOf, h]

/-- One step of the incremental loop, for a registered pair. -/
theorem incStep_ends (idn : ObsId × Nat) (p : Pcm G T N) (h : (AList.get? ObsId.eqv p.lcs idn.1).isSome) :
    M.Ends (fun p' => SelPcm p p' ∧ p'.landmarks = p.landmarks ∧ p'.totalGood = p.totalGood)
      ((M.zoom (fun p => lcOf p idn.1) (fun m p => updLc p idn.1 (fun _ => m)) (incInliers idn.2) : M (Pcm G T N) Unit) p) := by
  obtain ⟨m, hm⟩ := Option.isSome_iff_exists.1 h
  have hl := lcOf_of_get? hm
  have hs := incInliers_sel idn.2 m
  unfold M.zoom
  simp only [hl]
  cases e : incInliers idn.2 m with
  | ub u => trivial
  | ok m' x =>
    rw [e] at hs
    exact ⟨⟨rfl, Table.upd Sel.refl hm hs, Table.refl Sel.refl _⟩, rfl, rfl⟩
  | throw m' x =>
    rw [e] at hs
    exact ⟨⟨rfl, Table.upd Sel.refl hm hs, Table.refl Sel.refl _⟩, rfl, rfl⟩

theorem incLoop_ends (num : List (ObsId × Nat)) (p : Pcm G T N)
    (h : ∀ idn ∈ num, (AList.get? ObsId.eqv p.lcs idn.1).isSome) :
    M.Ends (fun p' => SelPcm p p' ∧ p'.landmarks = p.landmarks ∧ p'.totalGood = p.totalGood)
      ((M.forEach (fun (idn : ObsId × Nat) =>
        M.zoom (fun p => lcOf p idn.1) (fun m p => updLc p idn.1 (fun _ => m)) (incInliers idn.2)) num : M (Pcm G T N) Unit) p) := by
  induction num generalizing p with
  | nil => exact ⟨SelPcm.refl p, rfl, rfl⟩
  | cons idn num ih =>
    unfold M.forEach
    rw [M.bind_apply]
    have h1 := incStep_ends idn p (h idn (by simp))
    cases e : (M.zoom (fun p => lcOf p idn.1) (fun m p => updLc p idn.1 (fun _ => m)) (incInliers idn.2) : M (Pcm G T N) Unit) p with
    | ub u => trivial
    | throw p1 x => rw [e] at h1; exact h1
    | ok p1 x =>
      rw [e] at h1
      simp only
      refine M.Ends.mono ?_ (ih p1 ?_)
      · intro p2 h2
        exact ⟨h1.1.trans h2.1, h2.2.1.trans h1.2.1, h2.2.2.trans h1.2.2⟩
      · intro idn' hi
        rw [h1.1.lcs.isSome]
        exact h idn' (by simp [hi])

theorem findInliersIncremental_ends (num : List (ObsId × Nat)) (p : Pcm G T N)
    (h : ∀ idn ∈ num, (AList.get? ObsId.eqv p.lcs idn.1).isSome) :
    M.Ends (fun p' => SelPcm p p' ∧ p'.totalGood ≤ consSum p'.lcs + consSum p'.landmarks)
      (findInliersIncremental num p) := by
  unfold findInliersIncremental
  simp only [M.bind_eq]
  rw [M.bind_ok (M.modify_apply _ _), M.bind_apply]
  have h0 : SelPcm p { p with totalGood := 0 } := ⟨rfl, Table.refl Sel.refl _, Table.refl Sel.refl _⟩
  have h1 := incLoop_ends num { p with totalGood := 0 } h
  cases e : (M.forEach (fun (idn : ObsId × Nat) =>
        M.zoom (fun p => lcOf p idn.1) (fun m p => updLc p idn.1 (fun _ => m)) (incInliers idn.2)) num : M (Pcm G T N) Unit)
        { p with totalGood := 0 } with
  | ub u => trivial
  | throw p1 x =>
    rw [e] at h1
    exact ⟨h0.trans h1.1, by rw [h1.2.2]; simp⟩
  | ok p1 x =>
    rw [e] at h1
    simp only
    rw [M.bind_ok (M.modify_apply _ _)]
    refine M.Ends.mono ?_ (lmPass_ends _)
    intro p2 h2
    have h3 : SelPcm p1 { p1 with totalGood := p1.totalGood + (p1.lcs.map (fun e => e.2.cons.length)).sum } :=
      ⟨rfl, Table.refl Sel.refl _, Table.refl Sel.refl _⟩
    refine ⟨((h0.trans h1.1).trans h3).trans h2.1, ?_⟩
    have b := h2.2.2
    have c : p1.totalGood = 0 := h1.2.2
    simp only [c] at b
    rw [h2.2.1]
    unfold consSum at b ⊢
    simp only at b ⊢
    omega

/-- Normal return of one step of the incremental loop. -/
theorem incLoop_ok (num : List (ObsId × Nat)) (p p' : Pcm G T N)
    (h : ∀ idn ∈ num, (AList.get? ObsId.eqv p.lcs idn.1).isSome)
    (hr : (M.forEach (fun (idn : ObsId × Nat) =>
        M.zoom (fun p => lcOf p idn.1) (fun m p => updLc p idn.1 (fun _ => m)) (incInliers idn.2)) num : M (Pcm G T N) Unit) p
          = .ok p' ()) :
    p' = { p with lcs := p'.lcs } ∧
      Table (fun m m' => Sel m m' ∧ m.cons.length ≤ m'.cons.length) p.lcs p'.lcs := by
  induction num generalizing p with
  | nil => cases hr; exact ⟨rfl, Table.refl (fun m => ⟨Sel.refl m, Nat.le_refl _⟩) _⟩
  | cons idn num ih =>
    unfold M.forEach at hr
    rw [M.bind_eq_ok] at hr
    obtain ⟨p1, _, h1, h2⟩ := hr
    have hs := incStep_ends idn p (h idn (by simp))
    rw [h1] at hs
    obtain ⟨m', hi, rfl⟩ := M.zoom_eq_ok.1 h1
    obtain ⟨m, hm⟩ := Option.isSome_iff_exists.1 (h idn (by simp))
    rw [lcOf_of_get? hm] at hi
    have hle : Sel m m' ∧ m.cons.length ≤ m'.cons.length := by
      have := incInliers_sel idn.2 m
      rw [hi] at this
      refine ⟨this, ?_⟩
      obtain ⟨k, idx, _, hk⟩ := incInliers_spec idn.2 m
      rcases hk with ⟨_, e⟩ | ⟨hk, _, ⟨m1, e, _, h2, _⟩ | ⟨c, e, _⟩⟩
      · rw [e] at hi; cases hi; exact Nat.le_refl _
      · rw [e] at hi; cases hi; omega
      · rw [e] at hi; cases hi
    obtain ⟨a, b⟩ := ih _ (fun idn' hi' => by rw [hs.1.lcs.isSome]; exact h idn' (by simp [hi'])) h2
    refine ⟨by rw [a]; rfl, Table.trans ?_ (Table.upd (fun m => ⟨Sel.refl m, Nat.le_refl _⟩) hm hle) b⟩
    rintro x y z ⟨h1, h2⟩ ⟨h3, h4⟩
    exact ⟨h1.trans h3, by omega⟩

theorem findInliersIncremental_ok {num : List (ObsId × Nat)} {p p' : Pcm G T N}
    (h : ∀ idn ∈ num, (AList.get? ObsId.eqv p.lcs idn.1).isSome) (hr : findInliersIncremental num p = .ok p' ()) :
    p' = { p with lcs := p'.lcs, landmarks := p'.landmarks, totalGood := p'.totalGood } ∧
    Table (fun m m' => Sel m m' ∧ m.cons.length ≤ m'.cons.length) p.lcs p'.lcs ∧
    Table (fun m m' => measInliers m = .ok m' m'.cons.length) p.landmarks p'.landmarks ∧
    p'.totalGood = consSum p'.lcs + consSum p'.landmarks := by
  unfold findInliersIncremental at hr
  simp only [M.bind_eq] at hr
  rw [M.bind_ok (M.modify_apply _ _), M.bind_eq_ok] at hr
  obtain ⟨p1, _, h1, h2⟩ := hr
  obtain ⟨a, b⟩ := incLoop_ok num { p with totalGood := 0 } p1 h h1
  rw [M.bind_ok (M.modify_apply _ _)] at h2
  obtain ⟨r2, g2, rfl⟩ := M.zoom_eq_ok.1 h2
  obtain ⟨a2, b2⟩ := inlierPass_ok (fun m m' n => measInliers_num) _ _ _ g2
  have c1 : p1.totalGood = 0 := by rw [a]
  have c2 : p1.landmarks = p.landmarks := by rw [a]
  refine ⟨by rw [a], b, by rw [← c2]; exact a2, ?_⟩
  simp only at b2 ⊢
  rw [b2, c1]; simp [consSum]

/-! ### Registered pairs -/

theorem isSome_upd {κ V : Type} {eq : κ → κ → Bool} (he : AList.IsEqv eq) (d : V) (l : List (κ × V)) (k k' : κ) (f : V → V) :
    (AList.get? eq (AList.upd eq d l k f) k').isSome = (eq k k' || (AList.get? eq l k').isSome) := by
  cases h : eq k k' with
  | true =>
    rw [← AList.get?_congr he _ h, AList.get?_upd_self he]; simp
  | false => rw [AList.get?_upd_other he _ _ _ _ _ h]; simp

theorem parseStep_isSome {cfg : Cfg G T N} {vals : Vals G} {f : Chr → Key → T} {p : Pcm G T N} {b : Btw G N} {id : ObsId}
    (h : (AList.get? ObsId.eqv p.lcs id).isSome) :
    (AList.get? ObsId.eqv (parseStep cfg vals f p b).lcs id).isSome := by
  unfold parseStep
  split
  · simp only [regLc, updLc]; rw [isSome_upd ObsId.isEqv, h]; simp
  · split
    · exact h
    · exact h

theorem parseFold_isSome {cfg : Cfg G T N} {vals : Vals G} {f : Chr → Key → T} (bs : List (Btw G N)) {p : Pcm G T N} {id : ObsId}
    (h : (AList.get? ObsId.eqv p.lcs id).isSome) :
    (AList.get? ObsId.eqv (bs.foldl (parseStep cfg vals f) p).lcs id).isSome := by
  induction bs generalizing p with
  | nil => exact h
  | cons b bs ih => exact ih (parseStep_isSome h)

/-- Every accepted closure has an entry afterwards. -/
theorem parseFold_registered {cfg : Cfg G T N} {vals : Vals G} {f : Chr → Key → T} (bs : List (Btw G N)) (p : Pcm G T N)
    {b : Btw G N} (hb : b ∈ bs.filter (acceptLc cfg vals f)) :
    (AList.get? ObsId.eqv (bs.foldl (parseStep cfg vals f) p).lcs (pairOf b)).isSome := by
  induction bs generalizing p with
  | nil => simp at hb
  | cons b' bs ih =>
    rw [List.foldl_cons]
    by_cases e : b ∈ bs.filter (acceptLc cfg vals f)
    · exact ih _ e
    · simp only [List.mem_filter, List.mem_cons] at hb e
      obtain ⟨h1 | h1, h2⟩ := hb
      · subst h1
        apply parseFold_isSome
        unfold parseStep
        rw [if_pos h2]
        simp only [regLc, updLc]
        rw [isSome_upd ObsId.isEqv, ObsId.isEqv.refl]; rfl
      · exact absurd ⟨h1, h2⟩ e

theorem mem_bump {id : ObsId} {l : List (ObsId × Nat)} {e : ObsId × Nat} (h : e ∈ bump id l) :
    e.1 = id ∨ ∃ e' ∈ l, e'.1 = e.1 := by
  unfold bump at h
  rcases AList.mem_upd h with h | ⟨rfl, _⟩ | ⟨v, _, _, _, h⟩
  · exact Or.inr ⟨e, h, rfl⟩
  · exact Or.inl rfl
  · exact Or.inr ⟨_, h, rfl⟩

theorem mem_bumps {bs : List (Btw G N)} {l : List (ObsId × Nat)} {e : ObsId × Nat} (h : e ∈ bumps bs l) :
    (∃ b ∈ bs, e.1 = pairOf b) ∨ ∃ e' ∈ l, e'.1 = e.1 := by
  unfold bumps at h
  induction bs generalizing l with
  | nil => exact Or.inr ⟨e, h, rfl⟩
  | cons b bs ih =>
    rw [List.foldl_cons] at h
    rcases ih h with ⟨b', hb', e'⟩ | ⟨e', he', e2⟩
    · exact Or.inl ⟨b', by simp [hb'], e'⟩
    · rcases mem_bump he' with h1 | ⟨e3, h3, h4⟩
      · exact Or.inl ⟨b, by simp, by rw [← e2, h1]⟩
      · exact Or.inr ⟨e3, h3, h4.trans e2⟩

/-- The pairs counted by the registration loop are registered. -/
theorem bumps_registered {cfg : Cfg G T N} {vals : Vals G} {f : Chr → Key → T} {bs : List (Btw G N)} {p p' : Pcm G T N}
    (ht : TrajOnly cfg (bs.foldl (parseStep cfg vals f) p) p') :
    ∀ idn ∈ bumps (bs.filter (acceptLc cfg vals f)) [], (AList.get? ObsId.eqv p'.lcs idn.1).isSome := by
  intro idn hi
  rcases mem_bumps hi with ⟨b, hb, e⟩ | ⟨_, h, _⟩
  · rw [e, ht.eq]
    exact parseFold_registered bs p hb
  · cases h

/-- Registration and selection, normal or exceptional end. -/
theorem processCands_ends (cfg : Cfg G T N) (vals : Vals G) (bs : List (Btw G N)) (p : Pcm G T N) :
    M.Ends (fun p' => ∃ p1, TrajOnly cfg (bs.foldl (parseStep cfg vals (lk cfg p)) p) p1 ∧ SelPcm p1 p' ∧
      p'.totalGood ≤ consSum p'.lcs + consSum p'.landmarks) (processCands cfg vals bs p) := by
  unfold processCands
  simp only [M.bind_eq]
  rcases parseLoops_outcome cfg vals bs [] p with ⟨u, e⟩ | ⟨p1, e, t⟩
  · rw [M.bind_apply, e]; trivial
  · rw [M.bind_ok e]
    unfold M.cond
    split
    · exact M.Ends.mono (fun p' h => ⟨p1, t, h⟩) (findInliersIncremental_ends _ p1 (bumps_registered t))
    · exact M.Ends.mono (fun p' h => ⟨p1, t, h⟩) (findInliers_ends cfg p1)

end RPGO
