import Verif.Proofs.Prov
/-
Counting registered closures and inliers.
-/

namespace RPGO
variable {G T N : Type}

/-- Bound for the inliers of one entry, now and after any later selection. -/
def cap (m : Meas G N) : Nat := max (max m.adj.n m.factors.length) m.cons.length

/-- Sum of a weight over the entries. -/
def wt {κ : Type} (f : Meas G N → Nat) (l : List (κ × Meas G N)) : Nat := (l.map fun e => f e.2).sum

theorem wt_cons {κ : Type} (f : Meas G N → Nat) (e : κ × Meas G N) (l : List (κ × Meas G N)) :
    wt f (e :: l) = f e.2 + wt f l := by simp [wt]

theorem wt_upd_le {κ : Type} {eq : κ → κ → Bool} {f : Meas G N → Nat} {l : List (κ × Meas G N)} {k : κ}
    {g : Meas G N → Meas G N} (h0 : f (g Meas.empty) ≤ 1) (h1 : ∀ m, f (g m) ≤ f m + 1) :
    wt f (AList.upd eq Meas.empty l k g) ≤ wt f l + 1 := by
  induction l with
  | nil => simpa [AList.upd, wt] using h0
  | cons e t ih =>
    obtain ⟨k0, m⟩ := e
    unfold AList.upd
    split
    · rw [wt_cons, wt_cons]; have := h1 m; simp only; omega
    · rw [wt_cons, wt_cons]; simp only; omega

theorem wt_upd_some {κ : Type} {eq : κ → κ → Bool} {f : Meas G N → Nat} {l : List (κ × Meas G N)} {k : κ}
    {m m' : Meas G N} (hm : AList.get? eq l k = some m) (h : f m' ≤ f m) :
    wt f (AList.upd eq Meas.empty l k fun _ => m') ≤ wt f l := by
  induction l with
  | nil => simp [AList.get?] at hm
  | cons e t ih =>
    obtain ⟨k0, m0⟩ := e
    unfold AList.get? at hm
    unfold AList.upd
    by_cases hk : eq k0 k = true
    · rw [if_pos hk] at hm ⊢
      cases hm
      rw [wt_cons, wt_cons]; simp only; omega
    · rw [if_neg hk] at hm ⊢
      rw [wt_cons, wt_cons]; have := ih hm; simp only; omega

theorem wt_table {κ : Type} {f : Meas G N → Nat} {R : Meas G N → Meas G N → Prop} (h : ∀ m m', R m m' → f m' ≤ f m)
    {l l' : List (κ × Meas G N)} (ht : Table R l l') : wt f l' ≤ wt f l := by
  unfold Table at ht
  induction ht with
  | nil => exact Nat.le_refl _
  | cons he _ ih => rw [wt_cons, wt_cons]; have := h _ _ he.2; omega

theorem consSum_le_cap {κ : Type} (l : List (κ × Meas G N)) : consSum l ≤ wt cap l := by
  induction l with
  | nil => simp [consSum, wt]
  | cons e t ih =>
    rw [wt_cons]
    have : consSum (e :: t) = e.2.cons.length + consSum t := by simp [consSum]
    rw [this]
    have : e.2.cons.length ≤ cap e.2 := le_max_right _ _
    omega

theorem cap_sel {m m' : Meas G N} (h : Sel m m') : cap m' ≤ cap m := by
  unfold cap
  rw [h.adj, h.factors]
  rcases h.cons with hc | ⟨_, hc⟩
  · rw [hc]
  · omega

theorem cap_rem {m m' : Meas G N} (h : RemMeas m m') : cap m' ≤ cap m := by
  cases h with
  | same => exact Nat.le_refl _
  | few hf hl => unfold cap; rw [hf]; simp; omega
  | many hf h2 _ hc _ => unfold cap; rw [hf]; simp; omega

theorem cap_growLc (cfg : Cfg G T N) (f : Chr → Key → T) (b : Btw G N) (m : Meas G N) :
    cap (growLc cfg f b m) ≤ cap m + 1 := by
  unfold cap growLc
  simp only [List.length_append, List.length_singleton]
  split
  · split
    · simp only [Mat.zero]; omega
    · simp only [Mat.grow]; omega
  · omega

theorem cap_growLm (cfg : Cfg G T N) (f : Chr → Key → T) (l : Key) (b : Btw G N) (m : Meas G N) :
    cap (growLm cfg f l b m) ≤ cap m + 1 := by
  unfold cap growLm
  simp only [List.length_append, List.length_singleton]
  split
  · simp only [Mat.zero]; omega
  · split
    · omega
    · simp only [Mat.grow]; omega

theorem cap_growLc_empty (cfg : Cfg G T N) (f : Chr → Key → T) (b : Btw G N) :
    cap (growLc cfg f b Meas.empty) ≤ 1 := by
  unfold cap growLc Meas.empty
  simp only [List.nil_append, List.length_singleton, List.length_nil, if_true]
  split <;> simp [Mat.zero]

theorem cap_growLm_empty (cfg : Cfg G T N) (f : Chr → Key → T) (l : Key) (b : Btw G N) :
    cap (growLm cfg f l b Meas.empty) ≤ 1 := by
  unfold cap growLm Meas.empty
  simp [Mat.zero]

/-- Total capacity of the tables. -/
def phi (p : Pcm G T N) : Nat := wt cap p.lcs + wt cap p.landmarks

theorem fileFirst_phi {cfg : Cfg G T N} (bs : List (Btw G N)) (l : List (Key × Meas G N)) :
    wt cap (bs.foldl (fileFirst cfg) l) ≤ wt cap l + bs.length := by
  induction bs generalizing l with
  | nil => simp
  | cons b bs ih =>
    rw [List.foldl_cons]
    have h1 := ih (fileFirst cfg l b)
    have h2 : wt cap (fileFirst cfg l b) ≤ wt cap l + 1 := by
      unfold fileFirst
      exact wt_upd_le (by simp [cap, Mat.zero]) (fun m => by simp [cap, Mat.zero])
    simp only [List.length_cons]; omega

theorem parseStep_phi (cfg : Cfg G T N) (vals : Vals G) (f : Chr → Key → T) (p : Pcm G T N) (b : Btw G N) :
    phi (parseStep cfg vals f p b) + p.totalLc ≤ phi p + (parseStep cfg vals f p b).totalLc := by
  unfold parseStep
  split
  · have : wt cap (AList.upd ObsId.eqv Meas.empty p.lcs (pairOf b) (growLc cfg f b)) ≤ wt cap p.lcs + 1 :=
      wt_upd_le (cap_growLc_empty _ _ _) (cap_growLc _ _ _)
    simp only [phi, regLc, updLc]; omega
  · split
    · have : wt cap (AList.upd (· == ·) Meas.empty p.landmarks (landmarkKey cfg b) (growLm cfg f (landmarkKey cfg b) b)) ≤
          wt cap p.landmarks + 1 :=
        wt_upd_le (cap_growLm_empty _ _ _ _) (cap_growLm _ _ _ _)
      simp only [phi, regLm, updLm]; omega
    · exact Nat.le_refl _

theorem parseFold_phi (cfg : Cfg G T N) (vals : Vals G) (f : Chr → Key → T) (bs : List (Btw G N)) (p : Pcm G T N) :
    phi (bs.foldl (parseStep cfg vals f) p) + p.totalLc ≤ phi p + (bs.foldl (parseStep cfg vals f) p).totalLc := by
  induction bs generalizing p with
  | nil => exact Nat.le_refl _
  | cons b bs ih =>
    rw [List.foldl_cons]
    have h1 := parseStep_phi cfg vals f p b
    have h2 := ih (parseStep cfg vals f p b)
    omega

/-- The number of candidates registered. -/
theorem parseStep_totalLc (cfg : Cfg G T N) (vals : Vals G) (f : Chr → Key → T) (p : Pcm G T N) (b : Btw G N) :
    (parseStep cfg vals f p b).totalLc =
      p.totalLc + if (acceptLc cfg vals f b || acceptLm cfg vals b) = true then 1 else 0 := by
  unfold parseStep
  by_cases h1 : acceptLc cfg vals f b = true
  · simp [h1, regLc]
  · by_cases h2 : acceptLm cfg vals b = true
    · simp [h1, h2, regLm]
    · simp [h1, h2]

theorem parseFold_totalLc (cfg : Cfg G T N) (vals : Vals G) (f : Chr → Key → T) (bs : List (Btw G N)) (p : Pcm G T N) :
    (bs.foldl (parseStep cfg vals f) p).totalLc =
      p.totalLc + (bs.filter fun b => acceptLc cfg vals f b || acceptLm cfg vals b).length := by
  induction bs generalizing p with
  | nil => simp
  | cons b bs ih =>
    rw [List.foldl_cons, ih, parseStep_totalLc]
    by_cases h : (acceptLc cfg vals f b || acceptLm cfg vals b) = true
    · simp only [h, if_true, List.filter_cons_of_pos, List.length_cons]; omega
    · simp only [h, Bool.false_eq_true, if_false]
      rw [List.filter_cons, if_neg h]; omega

/-! ### Entry of one robot pair after registration -/

theorem lcOf_updLc (p : Pcm G T N) (id id' : ObsId) (f : Meas G N → Meas G N) :
    lcOf (updLc p id f) id' = if id.eqv id' then f (lcOf p id') else lcOf p id' := by
  by_cases h : id.eqv id' = true
  · rw [if_pos h]
    have h1 : lcOf (updLc p id f) id' = lcOf (updLc p id f) id := by
      unfold lcOf
      rw [AList.get?_congr ObsId.isEqv _ h]
    have h2 : lcOf p id' = lcOf p id := by
      unfold lcOf
      rw [AList.get?_congr ObsId.isEqv _ h]
    rw [h1, h2, lcOf_updLc_self]
  · rw [if_neg h]
    unfold lcOf updLc
    simp only
    rw [AList.get?_upd_other ObsId.isEqv _ _ _ _ _ (by simpa using h)]

theorem lmOf_updLm (p : Pcm G T N) (k k' : Key) (f : Meas G N → Meas G N) :
    lmOf (updLm p k f) k' = if k = k' then f (lmOf p k') else lmOf p k' := by
  by_cases h : k = k'
  · subst h; rw [if_pos rfl, lmOf_updLm_self]
  · rw [if_neg h]
    unfold lmOf updLm
    simp only
    rw [AList.get?_upd_other AList.isEqv_beq _ _ _ _ _ (by simpa using h)]

theorem parseFold_lcOf (cfg : Cfg G T N) (vals : Vals G) (f : Chr → Key → T) (bs : List (Btw G N)) (p : Pcm G T N)
    (id : ObsId) :
    lcOf (bs.foldl (parseStep cfg vals f) p) id =
      (bs.filter fun b => acceptLc cfg vals f b && (pairOf b).eqv id).foldl (fun m b => growLc cfg f b m) (lcOf p id) := by
  induction bs generalizing p with
  | nil => rfl
  | cons b bs ih =>
    rw [List.foldl_cons, ih]
    have : lcOf (parseStep cfg vals f p b) id =
        if (acceptLc cfg vals f b && (pairOf b).eqv id) = true then growLc cfg f b (lcOf p id) else lcOf p id := by
      unfold parseStep
      by_cases h1 : acceptLc cfg vals f b = true
      · rw [if_pos h1]
        have : lcOf (regLc cfg f p b) id = lcOf (updLc p (pairOf b) (growLc cfg f b)) id := rfl
        rw [this, lcOf_updLc]
        simp [h1]
      · have h1' : acceptLc cfg vals f b = false := by simpa using h1
        rw [if_neg h1]
        simp only [h1', Bool.false_and, Bool.false_eq_true, if_false]
        split <;> rfl
    rw [this]
    by_cases h : (acceptLc cfg vals f b && (pairOf b).eqv id) = true
    · rw [if_pos h, List.filter_cons, if_pos h, List.foldl_cons]
    · rw [if_neg h, List.filter_cons, if_neg h]

theorem parseFold_lmOf (cfg : Cfg G T N) (vals : Vals G) (f : Chr → Key → T) (bs : List (Btw G N)) (p : Pcm G T N)
    (l : Key) :
    lmOf (bs.foldl (parseStep cfg vals f) p) l =
      (bs.filter fun b => acceptLm cfg vals b && decide (landmarkKey cfg b = l)).foldl
        (fun m b => growLm cfg f l b m) (lmOf p l) := by
  induction bs generalizing p with
  | nil => rfl
  | cons b bs ih =>
    rw [List.foldl_cons, ih]
    have : lmOf (parseStep cfg vals f p b) l =
        if (acceptLm cfg vals b && decide (landmarkKey cfg b = l)) = true then growLm cfg f l b (lmOf p l)
        else lmOf p l := by
      unfold parseStep
      by_cases h1 : acceptLc cfg vals f b = true
      · rw [if_pos h1]
        have h2 : acceptLm cfg vals b = false := by
          unfold acceptLc at h1; unfold acceptLm
          simp only [Bool.and_eq_true, Bool.not_eq_true'] at h1
          rw [h1.1.2]; simp
        rw [h2]
        simp only [Bool.false_and, Bool.false_eq_true, if_false]
        rfl
      · rw [if_neg h1]
        by_cases h2 : acceptLm cfg vals b = true
        · rw [if_pos h2]
          have : lmOf (regLm cfg f p b) l = lmOf (updLm p (landmarkKey cfg b) (growLm cfg f (landmarkKey cfg b) b)) l := rfl
          rw [this, lmOf_updLm]
          by_cases h3 : landmarkKey cfg b = l
          · subst h3; simp [h2]
          · simp [h3]
        · rw [if_neg h2]; simp [h2]
    rw [this]
    by_cases h : (acceptLm cfg vals b && decide (landmarkKey cfg b = l)) = true
    · rw [if_pos h, List.filter_cons, if_pos h, List.foldl_cons]
    · rw [if_neg h, List.filter_cons, if_neg h]

theorem growLc_fold_factors (cfg : Cfg G T N) (f : Chr → Key → T) (bs : List (Btw G N)) (m : Meas G N) :
    (bs.foldl (fun m b => growLc cfg f b m) m).factors = m.factors ++ bs := by
  induction bs generalizing m with
  | nil => simp
  | cons b bs ih => rw [List.foldl_cons, ih]; simp [growLc]

theorem growLm_fold_factors (cfg : Cfg G T N) (f : Chr → Key → T) (l : Key) (bs : List (Btw G N)) (m : Meas G N) :
    (bs.foldl (fun m b => growLm cfg f l b m) m).factors = m.factors ++ bs := by
  induction bs generalizing m with
  | nil => simp
  | cons b bs ih => rw [List.foldl_cons, ih]; simp [growLm]

theorem Table.lcOf_rel {R : Meas G N → Meas G N → Prop} (hd : R Meas.empty Meas.empty) {p p' : Pcm G T N}
    (h : Table R p.lcs p'.lcs) (id : ObsId) : R (lcOf p id) (lcOf p' id) := by
  have hs := Table.isSome (eq := ObsId.eqv) h id
  unfold lcOf
  cases hg : AList.get? ObsId.eqv p.lcs id with
  | some m =>
    obtain ⟨m', e, hr⟩ := h.get? hg
    rw [e]; exact hr
  | none =>
    rw [hg] at hs
    have : AList.get? ObsId.eqv p'.lcs id = none := by
      cases hh : AList.get? ObsId.eqv p'.lcs id with
      | none => rfl
      | some x => rw [hh] at hs; cases hs
    rw [this]; exact hd

theorem Table.lmOf_rel {R : Meas G N → Meas G N → Prop} (hd : R Meas.empty Meas.empty) {p p' : Pcm G T N}
    (h : Table R p.landmarks p'.landmarks) (l : Key) : R (lmOf p l) (lmOf p' l) := by
  have hs := Table.isSome (eq := (· == ·)) h l
  unfold lmOf
  cases hg : AList.get? (· == ·) p.landmarks l with
  | some m =>
    obtain ⟨m', e, hr⟩ := h.get? hg
    rw [e]; exact hr
  | none =>
    rw [hg] at hs
    have : AList.get? (· == ·) p'.landmarks l = none := by
      cases hh : AList.get? (· == ·) p'.landmarks l with
      | none => rfl
      | some x => rw [hh] at hs; cases hs
    rw [this]; exact hd

variable [Mul G] [Inv G] [One G]

/-! ### Invariants over all histories -/

theorem PcmEff.counts {cfg : Cfg G T N} {op : Op G N} {p p' : Pcm G T N} (h : PcmEff cfg op p p') :
    p'.totalLc = p.totalLc ∧ p'.totalGood = p.totalGood ∧ phi p' ≤ phi p := by
  cases h with
  | same => exact ⟨rfl, rfl, Nat.le_refl _⟩
  | priors => exact ⟨rfl, rfl, Nat.le_refl _⟩
  | ignore => split <;> exact ⟨rfl, rfl, Nat.le_refl _⟩
  | revive => exact ⟨rfl, rfl, Nat.le_refl _⟩
  | pair hm hr =>
    refine ⟨rfl, rfl, ?_⟩
    have := wt_upd_some (f := cap) hm (cap_rem hr)
    unfold phi updLc; simp only; omega
  | pop _ => exact ⟨rfl, rfl, Nat.le_refl _⟩
  | last _ hm hr =>
    refine ⟨rfl, rfl, ?_⟩
    have := wt_upd_some (f := cap) hm (cap_rem hr)
    unfold phi updLc; simp only; omega

theorem processed_counts {cfg : Cfg G T N} {vals : Vals G} {f : Chr → Key → T} {bs : List (Btw G N)} {p q p2 : Pcm G T N}
    (ht : TrajOnly cfg (bs.foldl (parseStep cfg vals f) p) q) (hs : SelPcm q p2) :
    p2.totalLc = p.totalLc + (bs.filter fun b => acceptLc cfg vals f b || acceptLm cfg vals b).length ∧
      phi p2 + p.totalLc ≤ phi p + p2.totalLc := by
  have h1 : p2.totalLc = (bs.foldl (parseStep cfg vals f) p).totalLc := by rw [hs.totalLc, ht.eq]
  have h2 : phi p2 ≤ phi q := by
    have a := wt_table (f := cap) (fun _ _ h => cap_sel h) hs.lcs
    have b := wt_table (f := cap) (fun _ _ h => cap_sel h) hs.landmarks
    unfold phi; omega
  have h3 : phi q = phi (bs.foldl (parseStep cfg vals f) p) := by rw [ht.eq]; rfl
  have h4 := parseFold_phi cfg vals f bs p
  refine ⟨by rw [h1, parseFold_totalLc], by omega⟩

/-- Counters of the outlier-rejection object. -/
structure Counts (p : Pcm G T N) : Prop where
  phi : phi p ≤ p.totalLc
  good : p.totalGood ≤ p.totalLc

theorem Sorted.phi {cfg : Cfg G T N} {nv vals : Vals G} {fs : Graph G N} {p p' : Pcm G T N}
    (h : Sorted cfg nv vals fs p p') : phi p' + p.totalLc ≤ phi p + p'.totalLc := by
  have h1 := fileFirst_phi (cfg := cfg) (Spec.firsts cfg nv fs) p.landmarks
  unfold RPGO.phi
  rw [h.lcs, h.landmarks, h.totalLc]
  omega

/-- A step never decreases `totalLc`, and keeps the counters in order. -/
theorem PcmStep.counts {cfg : Cfg G T N} {op : Op G N} {s : St G T N} {p' : Pcm G T N} (st : PcmStep cfg op s p')
    (h : Counts s.pcm) : Counts p' ∧ s.pcm.totalLc ≤ p'.totalLc := by
  cases st with
  | other _ he =>
    obtain ⟨a, b, c⟩ := he.counts
    exact ⟨⟨by rw [a]; exact c.trans h.phi, by rw [a, b]; exact h.good⟩, by rw [a]⟩
  | none _ => exact ⟨h, Nat.le_refl _⟩
  | sort hb hi hfs ho hS _ _ =>
    have h1 := hS.phi
    have h2 := hS.totalLc
    have h3 := hS.totalGood
    have h4 := h.phi
    have h5 := h.good
    refine ⟨⟨?_, ?_⟩, ?_⟩
    · show RPGO.phi _ ≤ _
      unfold RPGO.phi at *; simp only; omega
    · simp only; omega
    · simp only; omega
  | cands hb hne hi hS ht hsel hg hro =>
    rename_i fs vs v1 p1 q p2 ro
    obtain ⟨a, b⟩ := processed_counts ht hsel
    have h1 := hS.phi
    have h2 := hS.totalLc
    have h3 := hS.totalGood
    have h4 := h.phi
    have h5 := h.good
    have h6 := consSum_le_cap p2.lcs
    have h7 := consSum_le_cap p2.landmarks
    have h8 : p2.totalGood ≤ p2.totalLc := by
      unfold RPGO.phi at *
      rcases hg with hg | hg <;> omega
    refine ⟨⟨?_, ?_⟩, ?_⟩
    · show RPGO.phi _ ≤ _
      unfold RPGO.phi at *; simp only; omega
    · exact h8
    · simp only; omega

theorem Reach.counts {cfg : Cfg G T N} {env : Env G N} (hr : cfg.rejection = true) {h : List (Op G N)} {s : St G T N}
    (r : Reach cfg env h s) : Counts s.pcm :=
  Reach.induct (Inv := fun _ p => Counts p) hr ⟨Nat.le_refl _, Nat.le_refl _⟩ (fun _ _ _ _ _ _ ih st => (st.counts ih).1) r

end RPGO
