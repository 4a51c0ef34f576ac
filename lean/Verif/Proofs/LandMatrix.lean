import Verif.Props.Landmarks
import Verif.Props.Matrix
/-
The consistency matrix of the observations of a landmark over call histories.
-/

namespace RPGO
variable {G T N : Type}

/-- No observation is written from the landmark to the pose. -/
def Fwd (l : Key) (xs : List (Btw G N)) : Prop := ∀ x ∈ xs, x.k1 ≠ l

/-- Size, symmetry and diagonal of the matrix. -/
structure LmSound (m : Meas G N) : Prop where
  size : m.factors = [] ∨ m.adj.n = m.factors.length
  sym : ∀ i j, i < m.factors.length → j < m.factors.length → m.adj.e i j = m.adj.e j i
  diag : ∀ i, i < m.factors.length → m.adj.e i i = false

theorem LmSound.empty : LmSound (Meas.empty : Meas G N) :=
  ⟨Or.inl rfl, fun i j hi _ => absurd hi (by simp [Meas.empty]), fun i hi => absurd hi (by simp [Meas.empty])⟩

theorem LmSound.first (b : Btw G N) : LmSound (⟨[b], [b], Mat.zero 1⟩ : Meas G N) :=
  ⟨Or.inr rfl, fun _ _ _ _ => rfl, fun _ _ => rfl⟩

theorem growLm_fwd (cfg : Cfg G T N) (f : Chr → Key → T) (l : Key) (b : Btw G N) (m : Meas G N)
    (h : Fwd l (m.factors ++ [b])) (h0 : m.factors ≠ []) :
    growLm cfg f l b m = ⟨m.factors ++ [b], m.cons, m.adj.grow (m.factors.map fun x => landVerdict cfg f x b)⟩ := by
  have : m.factors.any (fun x => decide (x.k1 = l ∨ b.k1 = l)) = false := by
    rw [List.any_eq_false]
    intro x hx
    have h1 := h x (by simp [hx])
    have h2 := h b (by simp)
    simp [h1, h2]
  unfold growLm
  rw [if_neg h0, this]
  rfl

theorem LmSound.grow (cfg : Cfg G T N) (f : Chr → Key → T) (l : Key) (b : Btw G N) {m : Meas G N} (hm : LmSound m)
    (h : Fwd l (m.factors ++ [b])) : LmSound (growLm cfg f l b m) := by
  by_cases h0 : m.factors = []
  · have : growLm cfg f l b m = ⟨[b], m.cons, Mat.zero 1⟩ := by simp [growLm, h0]
    rw [this]
    exact ⟨Or.inr rfl, fun _ _ _ _ => rfl, fun _ _ => rfl⟩
  · obtain ⟨a, d, e⟩ := hm
    have hn : m.adj.n = m.factors.length := a.resolve_left h0
    rw [growLm_fwd cfg f l b m h h0]
    set vs := m.factors.map fun x => landVerdict cfg f x b with hvs
    refine ⟨Or.inr (by simp [Mat.grow_n, hn]), fun i j hi hj => ?_, fun i hi => ?_⟩
    · simp only [List.length_append, List.length_singleton] at hi hj
      rcases Nat.lt_or_ge i m.adj.n with h1 | h1 <;> rcases Nat.lt_or_ge j m.adj.n with h2 | h2
      · rw [Mat.grow_old _ _ h1 h2, Mat.grow_old _ _ h2 h1]
        exact d i j (by omega) (by omega)
      · have : j = m.adj.n := by omega
        subst this
        rw [Mat.grow_col _ _ h1, Mat.grow_row]
      · have : i = m.adj.n := by omega
        subst this
        rw [Mat.grow_row, Mat.grow_col _ _ h2]
      · have : i = m.adj.n := by omega
        have : j = m.adj.n := by omega
        subst_vars; rfl
    · simp only [List.length_append, List.length_singleton] at hi
      rcases Nat.lt_or_ge i m.adj.n with h1 | h1
      · rw [Mat.grow_old _ _ h1 h1]; exact e i (by omega)
      · have : i = m.adj.n := by omega
        subst this
        rw [Mat.grow_row, hn]
        simp [hvs]

/-- What registration of the observations `bs` does to the measurements of landmark `l`. -/
structure GrownLm (cfg : Cfg G T N) (f : Chr → Key → T) (bs : List (Btw G N)) (m m' : Meas G N) : Prop where
  facs : m'.factors = m.factors ++ bs
  sound : LmSound m'
  old : ∀ i j, i < m.factors.length → j < m.factors.length → m'.adj.e i j = m.adj.e i j
  new : ∀ i j x y, i < j → m.factors.length ≤ j → m'.factors[i]? = some x → m'.factors[j]? = some y →
    m'.adj.e i j = landVerdict cfg f x y

theorem GrownLm.refl (cfg : Cfg G T N) (f : Chr → Key → T) {m : Meas G N} (h : LmSound m) : GrownLm cfg f [] m m := by
  refine ⟨by simp, h, fun _ _ _ _ => rfl, fun i j x y _ hj _ h2 => ?_⟩
  rw [List.getElem?_eq_none hj] at h2; cases h2

theorem GrownLm.fold (cfg : Cfg G T N) (f : Chr → Key → T) (l : Key) {m : Meas G N} (hm : LmSound m) (bs : List (Btw G N))
    (h : Fwd l (m.factors ++ bs)) : GrownLm cfg f bs m (bs.foldl (fun m b => growLm cfg f l b m) m) := by
  induction bs using List.reverseRecOn with
  | nil => exact GrownLm.refl cfg f hm
  | append_singleton bs b ih =>
    have ih := ih fun x hx => h x (by
      rcases List.mem_append.1 hx with hx | hx
      · simp [hx]
      · simp [hx])
    rw [List.foldl_append, List.foldl_cons, List.foldl_nil]
    generalize bs.foldl (fun m b => growLm cfg f l b m) m = m' at ih
    obtain ⟨hp, hs, ho, hn⟩ := ih
    have hf : Fwd l (m'.factors ++ [b]) := by rw [hp, List.append_assoc]; exact h
    have hfac : (growLm cfg f l b m').factors = m.factors ++ (bs ++ [b]) := by simp [growLm, hp]
    refine ⟨hfac, hs.grow cfg f l b hf, ?_, ?_⟩
    · intro i j hi hj
      by_cases h0 : m'.factors = []
      · rw [h0] at hp
        have := (List.append_eq_nil_iff.1 hp.symm).1
        rw [this] at hi; cases hi
      · have hsz := hs.size.resolve_left h0
        have hl : m'.factors.length = m.factors.length + bs.length := by rw [hp]; simp
        rw [growLm_fwd cfg f l b m' hf h0]
        simp only
        rw [Mat.grow_old _ _ (by omega) (by omega)]
        exact ho i j hi hj
    · intro i j x y hij hj h1 h2
      by_cases h0 : m'.factors = []
      · have : growLm cfg f l b m' = ⟨[b], m'.cons, Mat.zero 1⟩ := by simp [growLm, h0]
        rw [this] at h2
        obtain ⟨hj, _⟩ := List.getElem?_eq_some_iff.1 h2
        simp only [List.length_singleton] at hj; omega
      · have hsz := hs.size.resolve_left h0
        have hl : m'.factors.length = m.factors.length + bs.length := by rw [hp]; simp
        rw [growLm_fwd cfg f l b m' hf h0] at h1 h2 ⊢
        simp only at h1 h2 ⊢
        obtain ⟨hj', _⟩ := List.getElem?_eq_some_iff.1 h2
        simp only [List.length_append, List.length_singleton] at hj'
        have hi' : i < m'.factors.length := by omega
        rw [List.getElem?_append_left hi'] at h1
        rcases Nat.lt_or_ge j m'.factors.length with h3 | h3
        · rw [List.getElem?_append_left h3] at h2
          rw [Mat.grow_old _ _ (by omega) (by omega)]
          exact hn i j x y hij hj h1 h2
        · have hj2 : j = m'.adj.n := by omega
          subst hj2
          rw [Mat.grow_col _ _ (by omega), List.getElem?_map, h1]
          rw [List.getElem?_append_right h3] at h2
          simp [hsz] at h2
          subst h2
          rw [Option.map_some]
          cases landVerdict cfg f x b <;> rfl

variable [Mul G] [Inv G] [One G]

/-- The measurements of a landmark after the first observations of a batch. -/
theorem fileFirst_get (cfg : Cfg G T N) (bs : List (Btw G N)) (lm : List (Key × Meas G N)) (l : Key) :
    (AList.get? (· == ·) (bs.foldl (fileFirst cfg) lm) l).getD Meas.empty = (AList.get? (· == ·) lm l).getD Meas.empty ∨
    ∃ b ∈ bs, (AList.get? (· == ·) (bs.foldl (fileFirst cfg) lm) l).getD Meas.empty = ⟨[b], [b], Mat.zero 1⟩ := by
  induction bs generalizing lm with
  | nil => exact Or.inl rfl
  | cons b bs ih =>
    rw [List.foldl_cons]
    rcases ih (fileFirst cfg lm b) with h | ⟨b', hb', h⟩
    · rw [h]
      by_cases hk : landmarkKey cfg b = l
      · right
        refine ⟨b, by simp, ?_⟩
        unfold fileFirst
        rw [hk, AList.get?_upd_self AList.isEqv_beq]
        rfl
      · left
        unfold fileFirst
        rw [AList.get?_upd_other AList.isEqv_beq _ _ _ _ _ (by simpa using hk)]
    · exact Or.inr ⟨b', by simp [hb'], h⟩

/-- One call, as growth of the matrix of a landmark, possibly after a restart. -/
theorem PcmStep.grownLm {cfg : Cfg G T N} {op : Op G N} {s : St G T N} {p' : Pcm G T N} (st : PcmStep cfg op s p') (l : Key)
    (hf : Fwd l (lmOf p' l).factors) (hm : Fwd l (lmOf s.pcm l).factors → LmSound (lmOf s.pcm l)) :
    ∃ m0 bs, (m0 = lmOf s.pcm l ∨ ∃ b, m0 = ⟨[b], [b], Mat.zero 1⟩) ∧ (∀ b ∈ bs, b ∈ Spec.opBtws op) ∧
      GrownLm cfg (lk cfg p') bs m0 (lmOf p' l) := by
  cases st with
  | other _ he =>
    rw [lmOf_lms he.landmarks] at hf ⊢
    exact ⟨_, [], Or.inl rfl, by simp, GrownLm.refl _ _ (hm hf)⟩
  | none _ => exact ⟨_, [], Or.inl rfl, by simp, GrownLm.refl _ _ (hm hf)⟩
  | sort hb hi hfs ho hS hx1 hx2 =>
    rename_i fs vs v1 fs1 b fs2 p1
    have h1 : lmOf ({ p1 with odom := p1.odom ++ [b] } : Pcm G T N) l = lmOf p1 l := rfl
    rw [h1] at hf ⊢
    have h2 := fileFirst_get cfg (Spec.firsts cfg vs fs1) s.pcm.landmarks l
    have h3 : lmOf p1 l = (AList.get? (· == ·) ((Spec.firsts cfg vs fs1).foldl (fileFirst cfg) s.pcm.landmarks) l).getD Meas.empty := by
      unfold lmOf; rw [hS.landmarks]
    rw [← h3] at h2
    rcases h2 with h2 | ⟨b', _, h2⟩
    · rw [h2] at hf ⊢
      exact ⟨_, [], Or.inl rfl, by simp, GrownLm.refl _ _ (hm hf)⟩
    · rw [h2]
      exact ⟨_, [], Or.inr ⟨b', rfl⟩, by simp, GrownLm.refl _ _ (LmSound.first b')⟩
  | cands hb hne hi hS ht hsel hg hro =>
    rename_i fs vs v1 p1 q p2 ro
    have hlk : lk cfg ({ p2 with robotOrder := ro } : Pcm G T N) = lk cfg p1 :=
      Eq.trans (b := lk cfg p2) (lk_congr rfl) (processed_lk ht hsel)
    have h1 : lmOf ({ p2 with robotOrder := ro } : Pcm G T N) l = lmOf p2 l := rfl
    rw [hlk]
    rw [h1] at hf ⊢
    have h2 : Sel (lmOf q l) (lmOf p2 l) := Table.lmOf_rel (Sel.refl _) hsel.landmarks l
    rw [ht.lmOf, parseFold_lmOf] at h2
    have h2' := fileFirst_get cfg (Spec.firsts cfg vs fs) s.pcm.landmarks l
    have h3 : lmOf p1 l = (AList.get? (· == ·) ((Spec.firsts cfg vs fs).foldl (fileFirst cfg) s.pcm.landmarks) l).getD Meas.empty := by
      unfold lmOf; rw [hS.landmarks]
    rw [← h3] at h2'
    have hfac := h2.factors
    rw [growLm_fold_factors] at hfac
    rw [hfac] at hf
    have hs1 : LmSound (lmOf p1 l) := by
      rcases h2' with h | ⟨b', _, h⟩
      · rw [h] at hf ⊢
        exact hm fun x hx => hf x (List.mem_append_left _ hx)
      · rw [h]; exact LmSound.first b'
    obtain ⟨a, b, c, d⟩ := GrownLm.fold cfg (lk cfg p1) l hs1 _ hf
    refine ⟨lmOf p1 l, (Spec.cands cfg vs fs).filter fun b => acceptLm cfg v1 b && decide (landmarkKey cfg b = l), ?_, ?_,
      ⟨?_, ?_, ?_, ?_⟩⟩
    · rcases h2' with h | ⟨b', _, h⟩
      · exact Or.inl h
      · exact Or.inr ⟨b', h⟩
    · intro b hb'
      have : b ∈ Spec.btws fs := List.mem_of_mem_filter (List.mem_of_mem_filter hb')
      unfold Spec.opBtws
      rw [hb]
      exact this
    · rw [h2.factors]; exact a
    · exact ⟨by rw [h2.factors, h2.adj]; exact b.size, by rw [h2.factors, h2.adj]; exact b.sym,
        by rw [h2.factors, h2.adj]; exact b.diag⟩
    · rw [h2.adj]; exact c
    · rw [h2.adj, h2.factors]; exact d

/-- Where an entry of the matrix of a landmark comes from. -/
def LmOrigin (cfg : Cfg G T N) (env : Env G N) (h : List (Op G N)) (s : St G T N) (l : Key) (i j : Nat)
    (x y : Btw G N) (v : Bool) : Prop :=
  ∃ h1 op h2 s1 s2, h = h1 ++ op :: h2 ∧ Reach cfg env h1 s1 ∧ Spec.Call cfg env op s1 s2 ∧ Spec.Steps cfg env s2 h2 s ∧
    y ∈ Spec.opBtws op ∧ (Spec.observed s2 l)[i]? = some x ∧ (Spec.observed s2 l)[j]? = some y ∧
    v = landVerdict cfg (lk cfg s2.pcm) x y

theorem Reach.landMatrix {cfg : Cfg G T N} {env : Env G N} (hr : cfg.rejection = true)
    {h : List (Op G N)} {s : St G T N} (r : Reach cfg env h s) (l : Key) (hf : Fwd l (Spec.observed s l)) :
    LmSound (lmOf s.pcm l) ∧ ∀ i j x y, i < j → (Spec.observed s l)[i]? = some x → (Spec.observed s l)[j]? = some y →
      LmOrigin cfg env h s l i j x y ((lmOf s.pcm l).adj.e i j) := by
  have step : ∀ (h : List (Op G N)) (s : St G T N) (op : Op G N) (s' : St G T N),
      Reach cfg env h s → Spec.Call cfg env op s s' → PcmStep cfg op s s'.pcm →
      (Fwd l (Spec.observed s l) → LmSound (lmOf s.pcm l) ∧ ∀ i j x y, i < j → (Spec.observed s l)[i]? = some x →
        (Spec.observed s l)[j]? = some y → LmOrigin cfg env h s l i j x y ((lmOf s.pcm l).adj.e i j)) →
      Fwd l (Spec.observed s' l) → LmSound (lmOf s'.pcm l) ∧ ∀ i j x y, i < j → (Spec.observed s' l)[i]? = some x →
        (Spec.observed s' l)[j]? = some y → LmOrigin cfg env (h ++ [op]) s' l i j x y ((lmOf s'.pcm l).adj.e i j) := by
    intro h s op s' r c st ih hf
    obtain ⟨m0, bs, hm0, hbs, hg, hs, ho, hn⟩ := st.grownLm l hf fun q => (ih q).1
    refine ⟨hs, fun i j x y hij hx hy => ?_⟩
    have hg : Spec.observed s' l = m0.factors ++ bs := hg
    rcases Nat.lt_or_ge j m0.factors.length with hj | hj
    · rcases hm0 with rfl | ⟨b, rfl⟩
      · rw [hg, List.getElem?_append_left (hij.trans hj)] at hx
        rw [hg, List.getElem?_append_left hj] at hy
        have hf' : Fwd l (Spec.observed s l) := fun x hx => hf x (by rw [hg]; exact List.mem_append_left _ hx)
        obtain ⟨h1, op1, h2, s1, s2, e1, r1, c1, st1, l1, x1, y1, v1⟩ := (ih hf').2 i j x y hij hx hy
        refine ⟨h1, op1, h2 ++ [op], s1, s2, by rw [e1]; simp, r1, c1, st1.snoc c, l1, x1, y1, ?_⟩
        rw [← v1]
        exact ho i j (hij.trans hj) hj
      · simp only [List.length_singleton] at hj; omega
    · refine ⟨h, op, [], s, s', rfl, r, c, .nil, ?_, hx, hy, hn i j x y hij hj hx hy⟩
      rw [hg, List.getElem?_append_right hj] at hy
      exact hbs y (List.mem_of_getElem? hy)
  induction r with
  | init =>
    refine ⟨LmSound.empty, fun i j x y _ hx => ?_⟩
    simp [Spec.observed, lmOf, St.init, AList.get?, Meas.empty] at hx
  | @ok h s op s' _ r e ih =>
    have st := exec_step (env := env) hr op s
    rw [e] at st
    exact step h s op s' r (Or.inl ⟨_, e⟩) st ih hf
  | @throw h s op s' _ r e ih =>
    have st := exec_step (env := env) hr op s
    rw [e] at st
    exact step h s op s' r (Or.inr ⟨_, e⟩) st ih hf

end RPGO
