import Verif.Proofs.Prefix
import Verif.Proofs.GncOnly
import Verif.Proofs.Own
import Verif.Props.Checks
import Verif.Props.Graph
/-
Two runs that receive the same factors with different values.
-/

namespace RPGO
variable {G T N : Type}

/-- Same factors, closures, matrices, selection and counters; the trajectories and the robot order may differ. -/
structure Twin (p q : Pcm G T N) : Prop where
  odom : p.odom = q.odom
  special : p.special = q.special
  lcs : p.lcs = q.lcs
  landmarks : p.landmarks = q.landmarks
  inOrder : p.inOrder = q.inOrder
  totalLc : p.totalLc = q.totalLc
  totalGood : p.totalGood = q.totalGood
  ignored : p.ignored = q.ignored

namespace Twin
variable {p q r : Pcm G T N}
theorem refl (p : Pcm G T N) : Twin p p := ⟨rfl, rfl, rfl, rfl, rfl, rfl, rfl, rfl⟩
theorem of_eq (h : p = q) : Twin p q := h ▸ refl p
theorem symm (h : Twin p q) : Twin q p :=
  ⟨h.1.symm, h.2.symm, h.3.symm, h.4.symm, h.5.symm, h.6.symm, h.7.symm, h.8.symm⟩
theorem trans (h : Twin p q) (h' : Twin q r) : Twin p r :=
  ⟨h.1.trans h'.1, h.2.trans h'.2, h.3.trans h'.3, h.4.trans h'.4, h.5.trans h'.5, h.6.trans h'.6, h.7.trans h'.7,
    h.8.trans h'.8⟩
theorem of_traj {cfg : Cfg G T N} (h : TrajOnly cfg p q) : Twin p q := by
  rw [h.eq]; exact ⟨rfl, rfl, rfl, rfl, rfl, rfl, rfl, rfl⟩
theorem updLc (h : Twin p q) (id : ObsId) (f : Meas G N → Meas G N) : Twin (RPGO.updLc p id f) (RPGO.updLc q id f) :=
  ⟨h.odom, h.special, by show AList.upd _ _ p.lcs _ _ = AList.upd _ _ q.lcs _ _; rw [h.lcs], h.landmarks, h.inOrder, h.totalLc,
    h.totalGood, h.ignored⟩
theorem updLm (h : Twin p q) (k : Key) (f : Meas G N → Meas G N) : Twin (RPGO.updLm p k f) (RPGO.updLm q k f) :=
  ⟨h.odom, h.special, h.lcs, by show AList.upd _ _ p.landmarks _ _ = AList.upd _ _ q.landmarks _ _; rw [h.landmarks],
    h.inOrder, h.totalLc, h.totalGood, h.ignored⟩
end Twin

/-- A procedure that does not look at the trajectories. -/
def Blind {α : Type} (m : M (Pcm G T N) α) : Prop :=
  ∀ p q, Twin p q → ∀ p' a q' b, m p = .ok p' a → m q = .ok q' b → Twin p' q' ∧ a = b

namespace Blind
variable {α β : Type}

theorem bind {m : M (Pcm G T N) α} {f : α → M (Pcm G T N) β} (hm : Blind m) (hf : ∀ a, Blind (f a)) :
    Blind (M.bind m f) := by
  intro p q h p' a q' b h1 h2
  obtain ⟨t1, a1, e1, e1'⟩ := M.bind_eq_ok.1 h1
  obtain ⟨t2, a2, e2, e2'⟩ := M.bind_eq_ok.1 h2
  obtain ⟨ht, rfl⟩ := hm _ _ h _ _ _ _ e1 e2
  exact hf _ _ _ ht _ _ _ _ e1' e2'

theorem modify {f : Pcm G T N → Pcm G T N} (hf : ∀ p q, Twin p q → Twin (f p) (f q)) : Blind (M.modify f) := by
  intro p q h p' a q' b h1 h2
  cases h1; cases h2
  exact ⟨hf _ _ h, rfl⟩

theorem pure (a : α) : Blind (M.pure a : M (Pcm G T N) α) := by
  intro p q h p' a q' b h1 h2
  cases h1; cases h2
  exact ⟨h, rfl⟩

theorem zoom {τ : Type} {g : Pcm G T N → τ} {u : τ → Pcm G T N → Pcm G T N} (m : M τ α)
    (hg : ∀ p q, Twin p q → g p = g q) (hu : ∀ t p q, Twin p q → Twin (u t p) (u t q)) : Blind (M.zoom g u m) := by
  intro p q h p' a q' b h1 h2
  obtain ⟨t1, e1, rfl⟩ := M.zoom_eq_ok.1 h1
  obtain ⟨t2, e2, rfl⟩ := M.zoom_eq_ok.1 h2
  rw [← hg _ _ h, e1] at e2
  cases e2
  exact ⟨hu _ _ _ h, rfl⟩

theorem forEach {f : α → M (Pcm G T N) Unit} (hf : ∀ a, Blind (f a)) (l : List α) : Blind (M.forEach f l) := by
  induction l with
  | nil => exact pure ()
  | cons x l ih => exact bind (hf x) fun _ => ih

end Blind

theorem lcPass_blind (cfg : Cfg G T N) : Blind (lcPass cfg) := by
  refine Blind.zoom _ (fun p q h => ?_) (fun t p q h => ?_)
  · rw [h.lcs, h.totalGood]
  · exact Twin.mk h.odom h.special rfl h.landmarks h.inOrder h.totalLc rfl h.ignored

theorem lmPass_blind : Blind (lmPass : M (Pcm G T N) Unit) := by
  refine Blind.zoom _ (fun p q h => ?_) (fun t p q h => ?_)
  · rw [h.landmarks, h.totalGood]
  · exact Twin.mk h.odom h.special h.lcs rfl h.inOrder h.totalLc rfl h.ignored

theorem zeroGood_blind : Blind (M.modify fun p : Pcm G T N => { p with totalGood := 0 }) :=
  Blind.modify fun _ _ h => Twin.mk h.odom h.special h.lcs h.landmarks h.inOrder h.totalLc rfl h.ignored

theorem findInliers_blind (cfg : Cfg G T N) : Blind (findInliers cfg) :=
  zeroGood_blind.bind fun _ => (lcPass_blind cfg).bind fun _ => lmPass_blind

theorem findInliersIncremental_blind (num : List (ObsId × Nat)) : Blind (findInliersIncremental num : M (Pcm G T N) Unit) := by
  refine zeroGood_blind.bind fun _ => Blind.bind (Blind.forEach (fun idn => ?_) _) fun _ => Blind.bind ?_ fun _ => lmPass_blind
  · refine Blind.zoom _ (fun p q h => ?_) (fun t p q h => h.updLc _ _)
    unfold lcOf; rw [h.lcs]
  · refine Blind.modify fun p q h => Twin.mk h.odom h.special h.lcs h.landmarks h.inOrder h.totalLc ?_ h.ignored
    rw [h.totalGood, h.lcs]

/-- The same configuration with other consistency checks. -/
def Cfg.recheck (cfg : Cfg G T N) (o l : T → Bool) : Cfg G T N := { cfg with ops := { cfg.ops with odomOk := o, loopOk := l } }

/-! ### Registration -/

theorem twin_regLc {cfg : Cfg G T N} {co cl : T → Bool} {f g : Chr → Key → T} {p q : Pcm G T N} (h : Twin p q) (b : Btw G N)
    (hv : ∀ x ∈ (lcOf p (pairOf b)).factors, loopVerdict cfg f x b = loopVerdict (cfg.recheck co cl) g x b) :
    Twin (regLc cfg f p b) (regLc (cfg.recheck co cl) g q b) := by
  have e : updLc p (pairOf b) (growLc cfg f b) = updLc p (pairOf b) (growLc (cfg.recheck co cl) g b) := by
    refine updLc_ext ?_
    unfold growLc
    rw [List.map_congr_left hv]
    rfl
  have h' := h.updLc (pairOf b) (growLc (cfg.recheck co cl) g b)
  rw [← e] at h'
  refine Twin.mk h'.odom h'.special h'.lcs h'.landmarks ?_ ?_ h'.totalGood h'.ignored
  · show p.inOrder ++ _ = q.inOrder ++ _
    rw [h.inOrder]
  · show p.totalLc + 1 = q.totalLc + 1
    rw [h.totalLc]

theorem twin_regLm {cfg : Cfg G T N} {co cl : T → Bool} {f g : Chr → Key → T} {p q : Pcm G T N} (h : Twin p q) (b : Btw G N)
    (hv : ∀ x ∈ (lmOf p (landmarkKey cfg b)).factors, x.k1 ≠ landmarkKey cfg b → b.k1 ≠ landmarkKey cfg b →
      landVerdict cfg f x b = landVerdict (cfg.recheck co cl) g x b) :
    Twin (regLm cfg f p b) (regLm (cfg.recheck co cl) g q b) := by
  have e : updLm p (landmarkKey cfg b) (growLm cfg f (landmarkKey cfg b) b) =
      updLm p (landmarkKey cfg b) (growLm (cfg.recheck co cl) g (landmarkKey cfg b) b) := by
    refine updLm_ext ?_
    unfold growLm
    by_cases ha : (lmOf p (landmarkKey cfg b)).factors.any
        (fun x => decide (x.k1 = landmarkKey cfg b ∨ b.k1 = landmarkKey cfg b)) = true
    · simp only [ha, if_true]
    · have hv' : (lmOf p (landmarkKey cfg b)).factors.map (fun x => landVerdict cfg f x b) =
          (lmOf p (landmarkKey cfg b)).factors.map (fun x => landVerdict (cfg.recheck co cl) g x b) := by
        refine List.map_congr_left fun x hx => ?_
        have hno : ¬ (x.k1 = landmarkKey cfg b ∨ b.k1 = landmarkKey cfg b) := fun hx' =>
          ha (List.any_eq_true.2 ⟨x, hx, decide_eq_true hx'⟩)
        exact hv x hx (fun e => hno (Or.inl e)) (fun e => hno (Or.inr e))
      rw [hv']
  have h' := h.updLm (landmarkKey cfg b) (growLm (cfg.recheck co cl) g (landmarkKey cfg b) b)
  rw [← e] at h'
  refine Twin.mk h'.odom h'.special h'.lcs h'.landmarks h'.inOrder ?_ h'.totalGood h'.ignored
  show p.totalLc + 1 = q.totalLc + 1
  rw [h.totalLc]

/-- Every landmark observation is filed under a key it fits. -/
def LmIn (Q : Key → Btw G N → Prop) (l : List (Key × Meas G N)) : Prop := ∀ e ∈ l, ∀ x ∈ e.2.factors, Q e.1 x

theorem LmIn.reg {cfg : Cfg G T N} {f : Chr → Key → T} {Q : Key → Btw G N → Prop} {p : Pcm G T N} (h : LmIn Q p.landmarks)
    {b : Btw G N} (hb : Q (landmarkKey cfg b) b) : LmIn Q (regLm cfg f p b).landmarks := by
  intro e he x hx
  have hin : ∀ (l : Key) (m : Meas G N), x ∈ (growLm cfg f l b m).factors → x = b ∨ x ∈ m.factors := by
    intro l m hx
    have : x ∈ m.factors ++ [b] := hx
    simp only [List.mem_append, List.mem_singleton] at this
    exact this.symm
  rcases AList.mem_upd he with he | ⟨rfl, _⟩ | ⟨v, hv, hk, h2, h3⟩
  · exact h e he x hx
  · rcases hin _ _ hx with rfl | hx
    · exact hb
    · simp [Meas.empty] at hx
  · rw [h2] at hx
    have hk : e.1 = landmarkKey cfg b := by simpa using hk
    rcases hin _ _ hx with rfl | hx
    · rw [hk]; exact hb
    · exact h _ h3 x hx

theorem LmIn.lmOf {Q : Key → Btw G N → Prop} {p : Pcm G T N} (h : LmIn Q p.landmarks) (l : Key) :
    ∀ x ∈ (lmOf p l).factors, Q l x := by
  intro x hx
  unfold RPGO.lmOf at hx
  cases e : AList.get? (· == ·) p.landmarks l with
  | none => rw [e] at hx; simp [Meas.empty] at hx
  | some m =>
    rw [e] at hx
    obtain ⟨k, hk, hm⟩ := AList.get?_mem e
    have hk : k = l := by simpa using hk
    rw [← hk]
    exact h _ hm x hx

theorem acceptLc_congr {cfg : Cfg G T N} {co cl : T → Bool} {v w : Vals G} {f g : Chr → Key → T} {b : Btw G N} (hk : ∀ k, v.has k = w.has k)
    (ho : chr b.k1 = chr b.k2 → odomVerdict cfg f b = odomVerdict (cfg.recheck co cl) g b) :
    acceptLc cfg v f b = acceptLc (cfg.recheck co cl) w g b := by
  unfold acceptLc known
  rw [hk, hk, show Spec.isLandmark (cfg.recheck co cl) b = Spec.isLandmark cfg b from rfl]
  by_cases hc : chr b.k1 = chr b.k2
  · rw [ho hc]
  · simp [hc]

theorem lcOf_all {P : Btw G N → Prop} {p : Pcm G T N} (h : AllIn P p.lcs) (hf : Filed p.lcs) (id : ObsId) :
    ∀ x ∈ (lcOf p id).factors, P x ∧ (pairOf x).eqv id = true := by
  intro x hx
  unfold lcOf at hx
  cases e : AList.get? ObsId.eqv p.lcs id with
  | none => rw [e] at hx; simp [Meas.empty] at hx
  | some m =>
    rw [e] at hx
    obtain ⟨k, hk, hm⟩ := AList.get?_mem e
    exact ⟨(h _ hm).1 x hx, ObsId.isEqv.trans _ _ _ (hf _ hm x (Or.inl hx)) hk⟩

theorem samePair_of {x y : Btw G N} (h : (pairOf x).eqv (pairOf y) = true) : Spec.SamePair x y := by
  unfold ObsId.eqv pairOf at h
  unfold Spec.SamePair
  simpa [and_comm (a := chr x.k1 = chr y.k2)] using h

theorem parseFold_twin [Mul G] [Inv G] [One G] {cfg : Cfg G T N} {co cl : T → Bool} {v w : Vals G} {f g : Chr → Key → T}
    {P : Btw G N → Prop} {Q : Key → Btw G N → Prop} (hk : ∀ k, v.has k = w.has k) (bs : List (Btw G N))
    (hP : ∀ b ∈ bs, Spec.isLandmark cfg b = false → P b)
    (hQ : ∀ b ∈ bs, Spec.isLandmark cfg b = true → Q (landmarkKey cfg b) b)
    (ho : ∀ b, P b → chr b.k1 = chr b.k2 → odomVerdict cfg f b = odomVerdict (cfg.recheck co cl) g b)
    (hl : ∀ x y, P x → P y → Spec.SamePair x y → loopVerdict cfg f x y = loopVerdict (cfg.recheck co cl) g x y)
    (hll : ∀ l x y, Q l x → Q l y → x.k1 ≠ l → y.k1 ≠ l → landVerdict cfg f x y = landVerdict (cfg.recheck co cl) g x y)
    {p q : Pcm G T N} (h : Twin p q) (hA : AllIn P p.lcs) (hF : Filed p.lcs) (hL : LmIn Q p.landmarks) :
    Twin (bs.foldl (parseStep cfg v f) p) (bs.foldl (parseStep (cfg.recheck co cl) w g) q) := by
  induction bs generalizing p q with
  | nil => exact h
  | cons b bs ih =>
    have ih := @ih (fun x hx => hP x (by simp [hx])) (fun x hx => hQ x (by simp [hx]))
    rw [List.foldl_cons, List.foldl_cons]
    have hlm : acceptLm cfg v b = acceptLm (cfg.recheck co cl) w b := by unfold acceptLm known; rw [hk, hk]; rfl
    cases hb : Spec.isLandmark cfg b with
    | true =>
      have hno : ∀ (v : Vals G) f, acceptLc cfg v f b = false := fun v f => by unfold acceptLc; rw [hb]; simp
      have hno' : ∀ (v : Vals G) f, acceptLc (cfg.recheck co cl) v f b = false := fun v f => by
        unfold acceptLc; rw [show Spec.isLandmark (cfg.recheck co cl) b = Spec.isLandmark cfg b from rfl, hb]; simp
      by_cases ha : acceptLm cfg v b = true
      · have e1 : parseStep cfg v f p b = regLm cfg f p b := by
          unfold parseStep; rw [hno, if_neg Bool.false_ne_true, if_pos ha]
        have e2 : parseStep (cfg.recheck co cl) w g q b = regLm (cfg.recheck co cl) g q b := by
          unfold parseStep; rw [hno', if_neg Bool.false_ne_true, if_pos (hlm ▸ ha)]
        rw [e1, e2]
        have hq := hQ b (by simp) hb
        refine ih (twin_regLm h b ?_) hA hF (hL.reg hq)
        intro x hx h1 h2
        exact hll _ x b (hL.lmOf _ x hx) hq h1 h2
      · have e1 : parseStep cfg v f p b = p := by
          unfold parseStep; rw [hno, if_neg Bool.false_ne_true, if_neg ha]
        have e2 : parseStep (cfg.recheck co cl) w g q b = q := by
          unfold parseStep; rw [hno', if_neg Bool.false_ne_true, if_neg (hlm ▸ ha)]
        rw [e1, e2]
        exact ih h hA hF hL
    | false =>
      have hp := hP b (by simp) hb
      have hacc : acceptLc cfg v f b = acceptLc (cfg.recheck co cl) w g b := acceptLc_congr hk (ho b hp)
      have hno : ∀ v : Vals G, acceptLm cfg v b = false := fun v => by unfold acceptLm; rw [hb]; simp
      have hno' : ∀ v : Vals G, acceptLm (cfg.recheck co cl) v b = false := hno
      unfold parseStep
      rw [← hacc, hno, hno']
      by_cases ha : acceptLc cfg v f b = true
      · rw [if_pos ha, if_pos ha]
        refine ih (twin_regLc h b ?_) ?_ (hF.reg b) hL
        · intro x hx
          obtain ⟨h1, h2⟩ := lcOf_all hA hF _ x hx
          exact hl x b h1 hp (samePair_of h2)
        · exact hA.upd (growLc_all hp)
      · rw [if_neg ha, if_neg ha]
        exact ih h hA hF hL

/-- Candidates processed with lookups that give the same verdicts. -/
theorem processCands_twin [Mul G] [Inv G] [One G] {cfg : Cfg G T N} {co cl : T → Bool} {v w : Vals G}
    {P : Btw G N → Prop} {Q : Key → Btw G N → Prop} (hk : ∀ k, v.has k = w.has k) {bs : List (Btw G N)}
    (hP : ∀ b ∈ bs, Spec.isLandmark cfg b = false → P b)
    (hQ : ∀ b ∈ bs, Spec.isLandmark cfg b = true → Q (landmarkKey cfg b) b) {p q p' q' : Pcm G T N}
    (ho : ∀ b, P b → chr b.k1 = chr b.k2 → odomVerdict cfg (lk cfg p) b = odomVerdict (cfg.recheck co cl) (lk cfg q) b)
    (hl : ∀ x y, P x → P y → Spec.SamePair x y → loopVerdict cfg (lk cfg p) x y = loopVerdict (cfg.recheck co cl) (lk cfg q) x y)
    (hll : ∀ l x y, Q l x → Q l y → x.k1 ≠ l → y.k1 ≠ l →
      landVerdict cfg (lk cfg p) x y = landVerdict (cfg.recheck co cl) (lk cfg q) x y)
    (h : Twin p q) (hA : AllIn P p.lcs) (hF : Filed p.lcs) (hL : LmIn Q p.landmarks)
    (h1 : processCands cfg v bs p = .ok p' ())
    (h2 : processCands (cfg.recheck co cl) w bs q = .ok q' ()) : Twin p' q' := by
  unfold processCands at h1 h2
  simp only [M.bind_eq] at h1 h2
  obtain ⟨p1, n1, e1, e1'⟩ := M.bind_eq_ok.1 h1
  obtain ⟨q1, n2, e2, e2'⟩ := M.bind_eq_ok.1 h2
  obtain ⟨rfl, t1⟩ := parseLoops_ok e1
  obtain ⟨rfl, t2⟩ := parseLoops_ok e2
  have hf := parseFold_twin hk bs hP hQ ho hl hll h hA hF hL
  have ht : Twin p1 q1 := (Twin.of_traj t1).symm.trans (hf.trans (Twin.of_traj t2))
  have hn : bs.filter (acceptLc cfg v (lk cfg p)) = bs.filter (acceptLc (cfg.recheck co cl) w (lk (cfg.recheck co cl) q)) := by
    refine List.filter_congr fun b hb => ?_
    cases hb' : Spec.isLandmark cfg b with
    | true =>
      unfold acceptLc
      rw [show Spec.isLandmark (cfg.recheck co cl) b = Spec.isLandmark cfg b from rfl, hb']; simp
    | false => exact acceptLc_congr hk (ho b (hP b hb hb'))
  rw [← hn] at e2'
  unfold M.cond at e1' e2'
  split at e1'
  · rename_i hi
    rw [if_pos (show (cfg.recheck co cl).incremental = true from hi)] at e2'
    exact (findInliersIncremental_blind _ _ _ ht _ _ _ _ e1' e2').1
  · rename_i hi
    rw [if_neg (show ¬ (cfg.recheck co cl).incremental = true from hi)] at e2'
    exact (findInliers_blind cfg _ _ ht _ _ _ _ e1' e2').1

section
variable [Mul G] [Inv G] [One G]

theorem removeLastOfPair_twin {e1 e2 : Env G N} (id : ObsId) {s1 s2 t1 t2 : St G T N} {a b : EdgePtr}
    (hs : Twin s1.pcm s2.pcm) (h1 : removeLastOfPair e1 id s1 = .ok t1 a) (h2 : removeLastOfPair e2 id s2 = .ok t2 b) :
    Twin t1.pcm t2.pcm := by
  rw [removeLastOfPair_eq] at h1 h2
  rw [hs.lcs] at h1
  cases hm : AList.get? ObsId.eqv s2.pcm.lcs id with
  | none => rw [hm] at h1 h2; cases h1; cases h2; exact hs
  | some m =>
    rw [hm] at h1 h2
    simp only at h1 h2
    cases hr : removeLastMeas m with
    | ub u => rw [hr] at h1; cases h1
    | throw m' x => rw [hr] at h1; cases h1
    | ok m' e =>
      rw [hr] at h1 h2
      cases e <;> · cases h1; cases h2; exact hs.updLc _ _

/-- The part of a call before the optimization; `priors` with any flag. -/
theorem phase1_twin {cfg : Cfg G T N} {co cl : T → Bool} {e1 e2 : Env G N} (hr : cfg.rejection = true) {op : Op G N}
    (hm : Spec.Managed op) (hb : Spec.batch op = none) {s1 s2 t1 t2 : St G T N} {a b : Ret × Bool}
    (hs : Twin s1.pcm s2.pcm) (h1 : phase1 cfg e1 op s1 = .ok t1 a) (h2 : phase1 (cfg.recheck co cl) e2 op s2 = .ok t2 b) :
    Twin t1.pcm t2.pcm := by
  have silent : ∀ {cfg : Cfg G T N} {e : Env G N} {s t : St G T N} {a : Ret × Bool}, Spec.Silent op →
      ((exec cfg e op).ret fun r => (r, false)) s = .ok t a → Twin s.pcm t.pcm := by
    intro cfg e s t a ho h
    obtain ⟨t', _, h3, h4⟩ := M.bind_eq_ok.1 h
    cases h4
    have := exec_silent (cfg := cfg) (env := e) ho s
    rw [h3] at this
    exact Twin.of_eq this.pcm
  cases op with
  | update => cases hb
  | forceUpdate => cases hb
  | removePriors c o =>
    cases h1; cases h2
    exact ⟨hs.odom, by simp only [hs.special, show (cfg.recheck co cl).charSigned = cfg.charSigned from rfl], hs.lcs, hs.landmarks, hs.inOrder, hs.totalLc, hs.totalGood, hs.ignored⟩
  | ignore c =>
    cases h1; cases h2
    show Twin (if _ then _ else _) (if _ then _ else _)
    rw [hs.ignored]
    split
    · exact hs
    · exact ⟨hs.odom, hs.special, hs.lcs, hs.landmarks, hs.inOrder, hs.totalLc, hs.totalGood, by simp only [hs.ignored]⟩
  | revive c =>
    cases h1; cases h2
    exact ⟨hs.odom, hs.special, hs.lcs, hs.landmarks, hs.inOrder, hs.totalLc, hs.totalGood, by simp only [hs.ignored]⟩
  | removeLastPair x y =>
    obtain ⟨t1', _, h3, h4⟩ := M.bind_eq_ok.1 h1
    obtain ⟨t2', _, h5, h6⟩ := M.bind_eq_ok.1 h2
    cases h4; cases h6
    exact removeLastOfPair_twin _ hs h3 h5
  | removeLast =>
    obtain ⟨t1', _, h3, h4⟩ := M.bind_eq_ok.1 h1
    obtain ⟨t2', _, h5, h6⟩ := M.bind_eq_ok.1 h2
    cases h4; cases h6
    rw [removeLastPcm_eq] at h3 h5
    rw [hs.inOrder] at h3
    cases hl : s2.pcm.inOrder.getLast? with
    | none => rw [hl] at h3 h5; cases h3; cases h5; exact hs
    | some id =>
      rw [hl] at h3 h5
      refine removeLastOfPair_twin id ?_ h3 h5
      exact ⟨hs.odom, hs.special, hs.lcs, hs.landmarks, by simp only [hs.inOrder], hs.totalLc, hs.totalGood, hs.ignored⟩
  | removeFactors _ => exact hm.elim
  | removeLastFactor => exact hm.elim
  | removePriorsGeneric _ => exact hm.elim
  | genericUpdate _ _ _ => exact hm.elim
  | _ => exact (silent (by trivial) h1).symm.trans (hs.trans (silent (by trivial) h2))

end
end RPGO
