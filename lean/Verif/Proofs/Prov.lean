import Verif.Proofs.Graph
import Verif.Spec.Provenance
/-
Where the registered closures and observations came from.
-/

namespace RPGO
variable {G T N : Type}

/-- Every factor of every entry satisfies `P`. -/
def AllIn {κ : Type} (P : Btw G N → Prop) (l : List (κ × Meas G N)) : Prop :=
  ∀ e ∈ l, (∀ b ∈ e.2.factors, P b) ∧ ∀ b ∈ e.2.cons, P b

namespace AllIn
variable {κ : Type} {P Q : Btw G N → Prop} {l l' : List (κ × Meas G N)}

theorem mono (h : AllIn P l) (hPQ : ∀ b, P b → Q b) : AllIn Q l :=
  fun e he => ⟨fun b hb => hPQ b ((h e he).1 b hb), fun b hb => hPQ b ((h e he).2 b hb)⟩

theorem upd {eq : κ → κ → Bool} {k : κ} {f : Meas G N → Meas G N} (h : AllIn P l)
    (hf : ∀ m, ((∀ b ∈ m.factors, P b) ∧ ∀ b ∈ m.cons, P b) → (∀ b ∈ (f m).factors, P b) ∧ ∀ b ∈ (f m).cons, P b) :
    AllIn P (AList.upd eq Meas.empty l k f) := by
  intro e he
  rcases AList.mem_upd he with he | ⟨rfl, _⟩ | ⟨v, _, _, h2, h3⟩
  · exact h e he
  · exact hf _ ⟨by simp [Meas.empty], by simp [Meas.empty]⟩
  · rw [h2]; exact hf _ (h _ h3)

/-- Update of an existing entry. -/
theorem updSome {eq : κ → κ → Bool} {k : κ} {m m' : Meas G N} (h : AllIn P l) (hm : AList.get? eq l k = some m)
    (hf : ((∀ b ∈ m.factors, P b) ∧ ∀ b ∈ m.cons, P b) → (∀ b ∈ m'.factors, P b) ∧ ∀ b ∈ m'.cons, P b) :
    AllIn P (AList.upd eq Meas.empty l k (fun _ => m')) := by
  intro e he
  rcases AList.mem_upd he with he | ⟨rfl, hn⟩ | ⟨v, hv, _, h2, h3⟩
  · exact h e he
  · rw [hm] at hn; cases hn
  · rw [hm] at hv; cases hv
    rw [h2]; exact hf (h _ h3)

theorem table (h : AllIn P l) (ht : Table Sel l l') : AllIn P l' := by
  unfold Table at ht
  induction ht with
  | nil => exact h
  | @cons e e' t t' he _ ih =>
    intro x hx
    rcases List.mem_cons.1 hx with rfl | hx
    · have h0 := h e (by simp)
      refine ⟨?_, ?_⟩
      · rw [he.2.factors]; exact h0.1
      · rcases he.2.cons with hc | ⟨hc, _⟩
        · rw [hc]; exact h0.2
        · exact fun b hb => h0.1 b (hc b hb)
    · exact ih (fun e he => h e (by simp [he])) x hx

end AllIn

theorem RemMeas.all {P : Btw G N → Prop} {m m' : Meas G N} (h : RemMeas m m')
    (hm : (∀ b ∈ m.factors, P b) ∧ ∀ b ∈ m.cons, P b) : (∀ b ∈ m'.factors, P b) ∧ ∀ b ∈ m'.cons, P b := by
  cases h with
  | same => exact hm
  | few hf _ =>
    rw [hf] at hm
    exact ⟨fun b hb => hm.1 b (by simp [hb]), fun b hb => hm.1 b (by simp [hb])⟩
  | many hf _ hc _ _ =>
    rw [hf] at hm
    exact ⟨fun b hb => hm.1 b (by simp [hb]), fun b hb => hm.1 b (by simp [hc b hb])⟩

/-- A property of the registered closures that calls without a batch preserve. -/
theorem PcmEff.all {cfg : Cfg G T N} {op : Op G N} {p p' : Pcm G T N} (h : PcmEff cfg op p p') {P Q : Btw G N → Prop}
    (h1 : AllIn P p.lcs) (h2 : AllIn Q p.landmarks) : AllIn P p'.lcs ∧ AllIn Q p'.landmarks := by
  cases h with
  | same => exact ⟨h1, h2⟩
  | priors => exact ⟨h1, h2⟩
  | ignore => split <;> exact ⟨h1, h2⟩
  | revive => exact ⟨h1, h2⟩
  | pair hm hr => exact ⟨h1.updSome hm hr.all, h2⟩
  | pop _ => exact ⟨h1, h2⟩
  | last _ hm hr => exact ⟨h1.updSome hm hr.all, h2⟩

variable [Mul G] [Inv G] [One G] in
theorem fileFirst_all {cfg : Cfg G T N} {P : Btw G N → Prop} {l : List (Key × Meas G N)} (bs : List (Btw G N))
    (h : AllIn P l) (hb : ∀ b ∈ bs, P b) : AllIn P (bs.foldl (fileFirst cfg) l) := by
  refine fileFirst_induct bs h ?_
  intro l hl b hb'
  exact hl.upd fun m _ => by simp [hb b hb']

theorem growLc_all {cfg : Cfg G T N} {f : Chr → Key → T} {b : Btw G N} {P : Btw G N → Prop} (hb : P b) (m : Meas G N)
    (h : (∀ b ∈ m.factors, P b) ∧ ∀ b ∈ m.cons, P b) :
    (∀ x ∈ (growLc cfg f b m).factors, P x) ∧ ∀ x ∈ (growLc cfg f b m).cons, P x := by
  refine ⟨?_, h.2⟩
  intro x hx
  simp only [growLc, List.mem_append, List.mem_singleton] at hx
  rcases hx with hx | rfl
  · exact h.1 x hx
  · exact hb

theorem growLm_all {cfg : Cfg G T N} {f : Chr → Key → T} {l : Key} {b : Btw G N} {P : Btw G N → Prop} (hb : P b) (m : Meas G N)
    (h : (∀ b ∈ m.factors, P b) ∧ ∀ b ∈ m.cons, P b) :
    (∀ x ∈ (growLm cfg f l b m).factors, P x) ∧ ∀ x ∈ (growLm cfg f l b m).cons, P x := by
  refine ⟨?_, h.2⟩
  intro x hx
  simp only [growLm, List.mem_append, List.mem_singleton] at hx
  rcases hx with hx | rfl
  · exact h.1 x hx
  · exact hb

variable [Mul G] [Inv G] [One G]

theorem parseFold_all {cfg : Cfg G T N} {vals : Vals G} {f : Chr → Key → T} {P Q : Btw G N → Prop} (bs : List (Btw G N))
    {p : Pcm G T N} (h1 : AllIn P p.lcs) (h2 : AllIn Q p.landmarks)
    (hlc : ∀ b ∈ bs, acceptLc cfg vals f b = true → P b) (hlm : ∀ b ∈ bs, acceptLm cfg vals b = true → Q b) :
    AllIn P (bs.foldl (parseStep cfg vals f) p).lcs ∧ AllIn Q (bs.foldl (parseStep cfg vals f) p).landmarks := by
  refine parseFold_induct (Inv := fun p => AllIn P p.lcs ∧ AllIn Q p.landmarks) bs ⟨h1, h2⟩ ?_ ?_
  · intro p hp b hb ha
    exact ⟨hp.1.upd (growLc_all (hlc b hb ha)), hp.2⟩
  · intro p hp b hb ha
    exact ⟨hp.1, hp.2.upd (growLm_all (hlm b hb ha))⟩

/-- The lookups after registration and selection are those after the odometry was filed. -/
theorem processed_lk {cfg : Cfg G T N} {vals : Vals G} {f : Chr → Key → T} {bs : List (Btw G N)} {p q p2 : Pcm G T N}
    (ht : TrajOnly cfg (bs.foldl (parseStep cfg vals f) p) q) (hs : SelPcm q p2) : lk cfg p2 = lk cfg p := by
  have h1 : lk cfg (bs.foldl (parseStep cfg vals f) p) = lk cfg p := by
    unfold lk trajOf
    rw [(parseFold_frame cfg vals f bs p).2.2.2.1]
  have h2 : lk cfg p2 = lk cfg q := by
    unfold lk trajOf
    rw [hs.trajs]
  rw [h2, ht.lk, h1]

theorem known_of_has {s : St G T N} {vs v1 : Vals G} (hi : insertVals vs s.values = .ok v1 ()) {k : Key}
    (h : v1.has k = true) : Spec.Known s vs k := by
  have := insertVals_ends vs s.values
  rw [hi] at this
  rcases this.2.2 k h with h | h
  · exact Or.inl ((KMap.mem_keys_iff _ _).2 h)
  · exact Or.inr h

theorem mem_btws {fs : Graph G N} {b : Btw G N} : b ∈ Spec.btws fs ↔ some (.btw b) ∈ fs := by
  unfold Spec.btws
  rw [List.mem_filterMap]
  constructor
  · rintro ⟨f, hf, e⟩
    split at e
    · cases e; exact hf
    · cases e
  · intro h; exact ⟨_, h, rfl⟩

theorem Accepted.mono {cfg : Cfg G T N} {env : Env G N} {h : List (Op G N)} {op : Op G N} {b : Btw G N}
    (ha : Spec.Accepted cfg env h b) : Spec.Accepted cfg env (h ++ [op]) b := by
  obtain ⟨h1, op', h2, fs, vs, s1, s2, rfl, r⟩ := ha
  exact ⟨h1, op', h2 ++ [op], fs, vs, s1, s2, by simp, r⟩

theorem FirstObserved.mono {cfg : Cfg G T N} {h : List (Op G N)} {op : Op G N} {b : Btw G N}
    (ha : Spec.FirstObserved cfg h b) : Spec.FirstObserved cfg (h ++ [op]) b := by
  obtain ⟨op', ho, r⟩ := ha
  exact ⟨op', by simp [ho], r⟩

/-- Provenance of everything registered. -/
structure Prov (cfg : Cfg G T N) (env : Env G N) (h : List (Op G N)) (p : Pcm G T N) : Prop where
  lcs : AllIn (fun b => Spec.Accepted cfg env h b ∧ Spec.isLandmark cfg b = false) p.lcs
  landmarks : AllIn (fun b => (Spec.Accepted cfg env h b ∨ Spec.FirstObserved cfg h b) ∧ Spec.isLandmark cfg b = true)
    p.landmarks

theorem isLandmark_of_first {cfg : Cfg G T N} {vs : Vals G} {fs : Graph G N} {b : Btw G N} (h : b ∈ Spec.firsts cfg vs fs) :
    Spec.isLandmark cfg b = true := by
  unfold Spec.firsts at h
  have := (List.mem_filter.1 h).2
  unfold Spec.isFirstObs at this
  exact (Bool.and_eq_true _ _ ▸ this).1

theorem cands_ne {cfg : Cfg G T N} {vs : Vals G} {fs : Graph G N} {b : Btw G N} (h : b ∈ Spec.cands cfg vs fs) :
    b.k1 ≠ b.k2 := by
  have := (List.mem_filter.1 h).2
  unfold Spec.isCand at this
  simp only [Bool.and_eq_true, decide_eq_true_eq] at this
  exact this.2

theorem odomVerdict_check {cfg : Cfg G T N} {b : Btw G N} {p : Pcm G T N} (hc : cfg.odomCheck = true)
    (hv : odomVerdict cfg (lk cfg p) b = true) : ∃ p', isOdomConsistent cfg b p = .ok p' true := by
  rcases isOdomConsistent_spec cfg b p with ⟨_, hn, _⟩ | ⟨_, p', e, _⟩
  · rw [odomVerdict, hc, hn] at hv; simp at hv
  · exact ⟨p', by rw [e, hv]⟩

theorem Reach.prov {cfg : Cfg G T N} {env : Env G N} (hr : cfg.rejection = true) {h : List (Op G N)} {s : St G T N}
    (r : Reach cfg env h s) : Prov cfg env h s.pcm := by
  refine Reach.induct (Inv := Prov cfg env) hr ⟨?_, ?_⟩ ?_ r
  · intro e he; cases he
  · intro e he; cases he
  · intro h s op s' r c ih st
    have ih1 : AllIn (fun b => Spec.Accepted cfg env (h ++ [op]) b ∧ Spec.isLandmark cfg b = false) s.pcm.lcs :=
      ih.lcs.mono fun b hb => ⟨Accepted.mono hb.1, hb.2⟩
    have ih2 : AllIn (fun b => (Spec.Accepted cfg env (h ++ [op]) b ∨ Spec.FirstObserved cfg (h ++ [op]) b) ∧
        Spec.isLandmark cfg b = true) s.pcm.landmarks :=
      ih.landmarks.mono fun b hb => ⟨hb.1.imp Accepted.mono FirstObserved.mono, hb.2⟩
    have hfirst : ∀ fs vs, Spec.batch op = some (fs, vs) → ∀ b ∈ Spec.firsts cfg vs fs,
        (Spec.Accepted cfg env (h ++ [op]) b ∨ Spec.FirstObserved cfg (h ++ [op]) b) ∧ Spec.isLandmark cfg b = true :=
      fun fs vs hb b hm => ⟨Or.inr ⟨op, by simp, fs, vs, hb, hm⟩, isLandmark_of_first hm⟩
    generalize hpp : s'.pcm = q at st
    cases st with
    | other _ he => have := he.all ih1 ih2; exact ⟨this.1, this.2⟩
    | none _ => exact ⟨ih1, ih2⟩
    | sort hb hi hfs ho hS hx1 hx2 =>
      rename_i fs vs v1 fs1 b fs2 p1
      refine ⟨?_, ?_⟩
      · show AllIn _ p1.lcs
        rw [hS.lcs]; exact ih1
      · show AllIn _ p1.landmarks
        rw [hS.landmarks]
        refine fileFirst_all _ ih2 fun x hx => hfirst fs vs hb x ?_
        unfold Spec.firsts at hx ⊢
        rw [List.mem_filter] at hx ⊢
        refine ⟨?_, hx.2⟩
        rw [mem_btws] at hx ⊢
        rw [hfs]; simp [hx.1]
    | cands hb hne hi hS ht hsel hg hro =>
      rename_i fs vs v1 p1 q p2 ro
      have e1 : AllIn (fun b => Spec.Accepted cfg env (h ++ [op]) b ∧ Spec.isLandmark cfg b = false) p1.lcs := by
        rw [hS.lcs]; exact ih1
      have e2 : AllIn (fun b => (Spec.Accepted cfg env (h ++ [op]) b ∨ Spec.FirstObserved cfg (h ++ [op]) b) ∧
          Spec.isLandmark cfg b = true) p1.landmarks := by
        rw [hS.landmarks]
        exact fileFirst_all _ ih2 fun x hx => hfirst fs vs hb x hx
      have hacc : ∀ b ∈ Spec.cands cfg vs fs, known v1 b = true →
          (Spec.isLandmark cfg b = false → cfg.odomCheck = true → chr b.k1 = chr b.k2 →
            odomVerdict cfg (lk cfg p1) b = true) → Spec.Accepted cfg env (h ++ [op]) b := by
        intro b hbm hk hv
        unfold known at hk
        rw [Bool.and_eq_true] at hk
        refine ⟨h, op, [], fs, vs, s, s', rfl, r, c, hb, hbm, cands_ne hbm, known_of_has hi hk.1, known_of_has hi hk.2, ?_⟩
        intro hl hoc hch
        refine odomVerdict_check hoc ?_
        rw [hpp]
        show odomVerdict cfg (lk cfg { p2 with robotOrder := ro }) b = true
        have : lk cfg { p2 with robotOrder := ro } = lk cfg p2 := rfl
        rw [this, processed_lk ht hsel]
        exact hv hl hoc hch
      have hf := parseFold_all (cfg := cfg) (vals := v1) (f := lk cfg p1) (Spec.cands cfg vs fs) e1 e2
        (fun b hbm ha => by
          unfold acceptLc at ha
          simp only [Bool.and_eq_true, Bool.not_eq_true', Bool.or_eq_true, decide_eq_true_eq] at ha
          exact ⟨hacc b hbm ha.1.1 fun _ _ hch => ha.2.resolve_left fun hne => hne hch, ha.1.2⟩)
        (fun b hbm ha => by
          unfold acceptLm at ha
          simp only [Bool.and_eq_true] at ha
          exact ⟨Or.inl (hacc b hbm ha.1 fun hl => by rw [hl] at ha; exact absurd ha.2 (by simp)), ha.2⟩)
      have hq1 : q.lcs = ((Spec.cands cfg vs fs).foldl (parseStep cfg v1 (lk cfg p1)) p1).lcs := by rw [ht.eq]
      have hq2 : q.landmarks = ((Spec.cands cfg vs fs).foldl (parseStep cfg v1 (lk cfg p1)) p1).landmarks := by rw [ht.eq]
      refine ⟨?_, ?_⟩
      · exact AllIn.table (by rw [hq1]; exact hf.1) hsel.lcs
      · exact AllIn.table (by rw [hq2]; exact hf.2) hsel.landmarks

end RPGO
