import Verif.Proofs.Safe
import Verif.Props.Matrix
/-
Reachable states are tidy as long as closures are not removed, or enough of them are left.
-/

namespace RPGO
variable {G T N : Type}

/-! ### Distinct entries -/

/-- No two entries for the same robot pair. -/
def Distinct (l : List (ObsId × Meas G N)) : Prop := (l.map (·.1)).Pairwise fun a b => a.eqv b = false

theorem AList.upd_keys {κ V : Type} {eq : κ → κ → Bool} {d : V} {l : List (κ × V)} {k : κ} {f : V → V} :
    ((get? eq l k).isSome ∧ (upd eq d l k f).map (·.1) = l.map (·.1)) ∨
    (get? eq l k = none ∧ (upd eq d l k f).map (·.1) = l.map (·.1) ++ [k]) := by
  induction l with
  | nil => exact Or.inr ⟨rfl, rfl⟩
  | cons e l ih =>
    obtain ⟨k0, v0⟩ := e
    unfold get? upd
    by_cases h : eq k0 k = true
    · left; simp [h]
    · rw [if_neg h, if_neg h]
      rcases ih with ⟨h1, h2⟩ | ⟨h1, h2⟩
      · left; exact ⟨h1, by simp [h2]⟩
      · right; exact ⟨h1, by simp [h2]⟩

theorem get?_none_entry {κ V : Type} {eq : κ → κ → Bool} {l : List (κ × V)} {k : κ} (h : AList.get? eq l k = none) :
    ∀ k' ∈ l.map (·.1), eq k' k = false := by
  induction l with
  | nil => intro k' hk; cases hk
  | cons e l ih =>
    obtain ⟨k0, v0⟩ := e
    unfold AList.get? at h
    split at h
    · cases h
    · rename_i hk
      intro k' hk'
      rcases List.mem_cons.1 hk' with rfl | hk'
      · simpa using hk
      · exact ih h k' hk'

theorem Distinct.upd {l : List (ObsId × Meas G N)} (h : Distinct l) (k : ObsId) (f : Meas G N → Meas G N) :
    Distinct (AList.upd ObsId.eqv Meas.empty l k f) := by
  unfold Distinct
  rcases AList.upd_keys (eq := ObsId.eqv) (d := Meas.empty) (l := l) (k := k) (f := f) with ⟨_, e⟩ | ⟨hn, e⟩
  · rw [e]; exact h
  · rw [e, List.pairwise_append]
    refine ⟨h, by simp, fun a ha b hb => ?_⟩
    rw [List.mem_singleton.1 hb]
    exact get?_none_entry hn a ha

theorem Table.keys {κ : Type} {R : Meas G N → Meas G N → Prop} {l l' : List (κ × Meas G N)} (h : Table R l l') :
    l'.map (·.1) = l.map (·.1) := by
  unfold Table at h
  induction h with
  | nil => rfl
  | cons he _ ih => simp [he.1, ih]

theorem Distinct.get {l : List (ObsId × Meas G N)} (h : Distinct l) {e : ObsId × Meas G N} (he : e ∈ l) :
    AList.get? ObsId.eqv l e.1 = some e.2 := by
  induction l with
  | nil => cases he
  | cons e0 l ih =>
    obtain ⟨k0, v0⟩ := e0
    unfold Distinct at h
    rw [List.map_cons, List.pairwise_cons] at h
    unfold AList.get?
    rcases List.mem_cons.1 he with rfl | he
    · rw [if_pos (ObsId.isEqv.refl _)]
    · rw [if_neg (by rw [h.1 e.1 (List.mem_map.2 ⟨e, he, rfl⟩)]; simp)]
      exact ih h.2 he

/-! ### Every entry has a candidate in the history -/

/-- The pair of every entry was named by a candidate, and without removals the entry is not empty. -/
def Stocked (cfg : Cfg G T N) (h : List (Op G N)) (l : List (ObsId × Meas G N)) : Prop :=
  ∀ e ∈ l, (∃ op ∈ h, ∃ b ∈ Spec.opCands cfg op, (pairOf b).eqv e.1 = true) ∧
    ((∀ op ∈ h, ¬ Spec.Removes op) → e.2.factors ≠ [])

theorem Stocked.mono {cfg : Cfg G T N} {h : List (Op G N)} {op : Op G N} {l : List (ObsId × Meas G N)} (hl : Stocked cfg h l) :
    Stocked cfg (h ++ [op]) l := by
  intro e he
  obtain ⟨⟨o, ho, b, hb, h1⟩, h2⟩ := hl e he
  exact ⟨⟨o, by simp [ho], b, hb, h1⟩, fun hn => h2 fun o ho => hn o (by simp [ho])⟩

theorem Stocked.table {cfg : Cfg G T N} {h : List (Op G N)} {l l' : List (ObsId × Meas G N)} (hl : Stocked cfg h l)
    (ht : Table Sel l l') : Stocked cfg h l' := by
  unfold Table at ht
  induction ht with
  | nil => exact hl
  | @cons e e' t t' he _ ih =>
    intro x hx
    rcases List.mem_cons.1 hx with rfl | hx
    · have h0 := hl e (by simp)
      rw [he.1, he.2.factors]
      exact h0
    · exact ih (fun e he => hl e (by simp [he])) x hx

theorem Stocked.updRem {cfg : Cfg G T N} {h : List (Op G N)} {l : List (ObsId × Meas G N)} (hl : Stocked cfg h l)
    (hn : ¬ ∀ op ∈ h, ¬ Spec.Removes op) {k : ObsId} {m m' : Meas G N} (hm : AList.get? ObsId.eqv l k = some m) :
    Stocked cfg h (AList.upd ObsId.eqv Meas.empty l k fun _ => m') := by
  intro e he
  rcases AList.mem_upd he with he | ⟨_, h0⟩ | ⟨v, _, _, h2, h3⟩
  · exact hl e he
  · rw [hm] at h0; cases h0
  · exact ⟨(hl _ h3).1, fun h' => absurd h' hn⟩

section
variable [Mul G] [Inv G] [One G]

theorem Reach.distinct {cfg : Cfg G T N} {env : Env G N} (hr : cfg.rejection = true) {h : List (Op G N)} {s : St G T N}
    (r : Reach cfg env h s) : Distinct s.pcm.lcs ∧ Stocked cfg h s.pcm.lcs := by
  refine Reach.induct (Inv := fun h p => Distinct p.lcs ∧ Stocked cfg h p.lcs) hr
    ⟨List.Pairwise.nil, by intro e he; cases he⟩ ?_ r
  intro h s op s' r c ih st
  generalize s'.pcm = q at st
  have ih2 : Stocked cfg (h ++ [op]) s.pcm.lcs := ih.2.mono
  have hrem : Spec.Removes op → ¬ ∀ o ∈ h ++ [op], ¬ Spec.Removes o := fun ho hn => hn op (by simp) ho
  cases st with
  | other _ he =>
    cases he with
    | same => exact ⟨ih.1, ih2⟩
    | priors => exact ⟨ih.1, ih2⟩
    | ignore => split <;> exact ⟨ih.1, ih2⟩
    | revive => exact ⟨ih.1, ih2⟩
    | pair hm hr => exact ⟨ih.1.upd _ _, ih2.updRem (hrem trivial) hm⟩
    | pop _ => exact ⟨ih.1, ih2⟩
    | last _ hm hr => exact ⟨ih.1.upd _ _, ih2.updRem (hrem trivial) hm⟩
  | none _ => exact ⟨ih.1, ih2⟩
  | sort hb hi hfs ho hS hx1 hx2 =>
    show Distinct _ ∧ Stocked _ _ _
    rw [hS.lcs]; exact ⟨ih.1, ih2⟩
  | cands hb hne hi hS ht hsel hg hro =>
    rename_i fs vs v1 p1 q p2 ro
    have hq : Distinct q.lcs ∧ Stocked cfg (h ++ [op]) q.lcs := by
      rw [ht.eq]
      refine parseFold_induct (Inv := fun p => Distinct p.lcs ∧ Stocked cfg (h ++ [op]) p.lcs) (Spec.cands cfg vs fs)
        (by rw [hS.lcs]; exact ⟨ih.1, ih2⟩) (fun p hp b hbm _ => ⟨hp.1.upd _ _, fun e he => ?_⟩) (fun p hp b _ _ => hp)
      have hb' : b ∈ Spec.opCands cfg op := by unfold Spec.opCands; rw [hb]; exact hbm
      have hne' : ∀ m : Meas G N, (growLc cfg (lk cfg p1) b m).factors ≠ [] := fun m => by simp [growLc]
      rcases AList.mem_upd he with he | ⟨rfl, _⟩ | ⟨v, _, hk, h2, h3⟩
      · exact hp.2 e he
      · exact ⟨⟨op, by simp, b, hb', ObsId.isEqv.refl _⟩, fun _ => hne' _⟩
      · exact ⟨⟨op, by simp, b, hb', ObsId.isEqv.symm _ _ hk⟩, fun _ => by rw [h2]; exact hne' _⟩
    refine ⟨?_, hq.2.table hsel.lcs⟩
    unfold Distinct
    rw [Table.keys hsel.lcs]
    exact hq.1

/-! ### Landmarks -/

/-- Landmark tables whose matrices fit. -/
def LmTidy (l : List (Key × Meas G N)) : Prop :=
  ∀ e ∈ l, Fits true e.2 ∧ ∀ x ∈ e.2.factors, x.noise.isSome ∧ x.k1 ≠ e.1

theorem LmTidy.table {l l' : List (Key × Meas G N)} (hl : LmTidy l) (ht : Table Sel l l') : LmTidy l' := by
  unfold Table at ht
  induction ht with
  | nil => exact hl
  | @cons e e' t t' he _ ih =>
    intro x hx
    rcases List.mem_cons.1 hx with rfl | hx
    · have h0 := hl e (by simp)
      rw [he.1, he.2.factors]
      refine ⟨⟨?_, ?_, ?_⟩, h0.2⟩
      · rw [he.2.factors]; exact h0.1.ne
      · rw [he.2.factors, he.2.adj]; exact h0.1.le
      · rw [he.2.factors, he.2.adj]; exact h0.1.eq
    · exact ih (fun e he => hl e (by simp [he])) x hx

theorem firsts_fair {cfg : Cfg G T N} {vs : Vals G} {fs : Graph G N} (hb : ∀ b ∈ Spec.btws fs, Spec.Fair cfg b) :
    ∀ b ∈ Spec.firsts cfg vs fs, Spec.Fair cfg b ∧ Spec.isLandmark cfg b = true := by
  intro b hb'
  unfold Spec.firsts at hb'
  rw [List.mem_filter] at hb'
  refine ⟨hb b hb'.1, ?_⟩
  have := hb'.2
  unfold Spec.isFirstObs at this
  rw [Bool.and_eq_true] at this
  exact this.1

theorem Reach.landmarks {cfg : Cfg G T N} {env : Env G N} (hr : cfg.rejection = true) {h : List (Op G N)} {s : St G T N}
    (r : Reach cfg env h s) (hf : ∀ op ∈ h, ∀ b ∈ Spec.opBtws op, Spec.Fair cfg b) : LmTidy s.pcm.landmarks := by
  refine Reach.induct (Inv := fun h p => (∀ op ∈ h, ∀ b ∈ Spec.opBtws op, Spec.Fair cfg b) → LmTidy p.landmarks) hr
    (fun _ e he => by cases he) ?_ r hf
  intro h s op s' r c ih st hf
  have ih := ih fun o ho => hf o (by simp [ho])
  have hop := hf op (by simp)
  generalize s'.pcm = q at st
  cases st with
  | other _ he => rw [he.landmarks]; exact ih
  | none _ => exact ih
  | sort hb hi hfs ho hS hx1 hx2 =>
    rename_i fs vs v1 fs1 b fs2 p1
    show LmTidy p1.landmarks
    rw [hS.landmarks]
    refine fileFirst_tidy _ (firsts_fair fun x hx => hop x ?_) ih
    unfold Spec.opBtws; rw [hb]
    rw [mem_btws] at hx ⊢
    rw [hfs]; simp [hx]
  | cands hb hne hi hS ht hsel hg hro =>
    rename_i fs vs v1 p1 q p2 ro
    have hfair : ∀ b ∈ Spec.btws fs, Spec.Fair cfg b := fun x hx => hop x (by unfold Spec.opBtws; rw [hb]; exact hx)
    refine LmTidy.table ?_ hsel.landmarks
    rw [ht.eq]
    refine parseFold_induct (Inv := fun p => LmTidy p.landmarks) (Spec.cands cfg vs fs) ?_
      (fun p hp b _ _ => hp) (fun p hp b hbm ha => ?_)
    · rw [hS.landmarks]; exact fileFirst_tidy _ (firsts_fair hfair) ih
    · have hbf : Spec.Fair cfg b := hfair b (by simp only [Spec.cands, List.mem_filter] at hbm; exact hbm.1)
      have hk : b.k1 ≠ landmarkKey cfg b := by
        unfold acceptLm at ha
        rw [Bool.and_eq_true] at ha
        exact fair_key hbf ha.2
      exact regLm_tidy hp hbf.1 hk

theorem Reach.gaussian {cfg : Cfg G T N} {env : Env G N} (hr : cfg.rejection = true) {h : List (Op G N)} {s : St G T N}
    (r : Reach cfg env h s) (hf : ∀ op ∈ h, ∀ b ∈ Spec.opBtws op, Spec.Fair cfg b) :
    ∀ e ∈ s.pcm.lcs, ∀ x ∈ e.2.factors, x.noise.isSome := by
  intro e he x hx
  obtain ⟨⟨h1, op, h2, fs, vs, s1, s2, rfl, _, _, hb, hm, _⟩, _⟩ := ((r.prov hr).lcs e he).1 x hx
  refine (hf op (by simp) x ?_).1
  unfold Spec.opBtws; rw [hb]
  simp only [Spec.cands, List.mem_filter] at hm
  exact hm.1

/-- Every robot pair of a candidate received so far still has at least two closures. -/
def Ample (cfg : Cfg G T N) (h : List (Op G N)) (s : St G T N) : Prop :=
  ∀ op ∈ h, ∀ b ∈ Spec.opCands cfg op, 2 ≤ (Spec.registered s (pairOf b)).length

theorem Reach.tidy {cfg : Cfg G T N} {env : Env G N} (hr : cfg.rejection = true) {h : List (Op G N)} {s : St G T N}
    (r : Reach cfg env h s) (hf : ∀ op ∈ h, ∀ b ∈ Spec.opBtws op, Spec.Fair cfg b)
    (hc : (cfg.loopCheck = false ∧ cfg.incremental = false) ∨ (∀ op ∈ h, ¬ Spec.Removes op) ∨ Ample cfg h s) :
    Tidy cfg s.pcm := by
  refine ⟨fun ho e he => ?_, r.gaussian hr hf, r.landmarks hr hf⟩
  obtain ⟨hd, hs⟩ := r.distinct hr
  have hm : lcOf s.pcm e.1 = e.2 := lcOf_of_get? (hd.get he)
  obtain ⟨⟨op, hop, b, hb, hk⟩, hne⟩ := hs e he
  have hfac : e.2.factors ≠ [] := by
    rcases hc with ⟨h1, h2⟩ | hc | hc
    · rcases ho with ho | ho
      · rw [h1] at ho; cases ho
      · rw [h2] at ho; cases ho
    · exact hne hc
    · have := hc op hop b hb
      unfold Spec.registered at this
      have h2 : lcOf s.pcm (pairOf b) = lcOf s.pcm e.1 := by
        unfold lcOf
        rw [AList.get?_congr ObsId.isEqv _ hk]
      rw [h2, hm] at this
      intro h0; rw [h0] at this; simp at this
  by_cases hl : cfg.loopCheck = true
  · have key : e.2.adj.n = e.2.factors.length := by
      rcases hc with ⟨h1, _⟩ | hc | hc
      · rw [h1] at hl; cases hl
      · rcases r.tight hr hl hc e.1 with h0 | h0
        · rw [hm] at h0; exact absurd h0 hfac
        · rw [hm] at h0; exact h0
      · have := (r.shape hr hl e.1).size
        rw [hm] at this
        apply this
        have := hc op hop b hb
        unfold Spec.registered at this
        have h2 : lcOf s.pcm (pairOf b) = lcOf s.pcm e.1 := by
          unfold lcOf
          rw [AList.get?_congr ObsId.isEqv _ hk]
        rw [h2, hm] at this
        exact this
    exact ⟨hfac, key.le, fun _ => key⟩
  · have hl' : cfg.loopCheck = false := by simpa using hl
    have h1 := r.one hr hl' e.1
    rw [hm] at h1
    have := List.length_pos_iff.2 hfac
    exact ⟨hfac, by omega, fun h => absurd h hl⟩

end

end RPGO
