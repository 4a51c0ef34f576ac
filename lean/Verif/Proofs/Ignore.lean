import Verif.Proofs.Sim
import Verif.Proofs.Convert
/-
The ignored prefixes are read by nothing but the construction of the graph.
-/

namespace RPGO
variable {G T N : Type}

/-- The same, with other ignored prefixes. -/
def ign (I : List Chr) (p : Pcm G T N) : Pcm G T N := { p with ignored := I }

/-- A procedure that does not look at the ignored prefixes. -/
def Deaf {α : Type} (m : M (Pcm G T N) α) : Prop := ∀ I, Conv (ign I) id m m

namespace Deaf
variable {α β : Type}
theorem pure (a : α) : Deaf (M.pure a : M (Pcm G T N) α) := fun _ => Conv.pure rfl
theorem raise (e : Exn) : Deaf (M.raise e : M (Pcm G T N) α) := fun _ => Conv.raise e
theorem undef (u : UB) : Deaf (M.undef u : M (Pcm G T N) α) := fun _ => Conv.undef u
theorem bind {m : M (Pcm G T N) α} {f : α → M (Pcm G T N) β} (h : Deaf m) (hf : ∀ a, Deaf (f a)) : Deaf (m.bind f) :=
  fun I => Conv.bind (h I) fun a => hf a I
theorem modify {f : Pcm G T N → Pcm G T N} (h : ∀ I p, f (ign I p) = ign I (f p)) : Deaf (M.modify f) :=
  fun I => Conv.modify (h I)
theorem cond {c : Bool} {m m' : M (Pcm G T N) α} (h : Deaf m) (h' : Deaf m') : Deaf (M.cond c m m') :=
  fun I => Conv.cond rfl (h I) (h' I)
theorem when {c : Bool} {m : M (Pcm G T N) Unit} (h : Deaf m) : Deaf (M.when c m) := fun I => Conv.when rfl (h I)
theorem ite {c : Prop} [Decidable c] {m m' : M (Pcm G T N) α} (h : Deaf m) (h' : Deaf m') : Deaf (if c then m else m') :=
  fun I => Conv.ite Iff.rfl (h I) (h' I)
theorem get {f : Pcm G T N → M (Pcm G T N) α} (hf : ∀ I p, f (ign I p) = f p) (h : ∀ p, Deaf (f p)) : Deaf (M.get.bind f) :=
  fun I => Conv.get fun p => by rw [hf]; exact h p I
theorem forEach {κ : Type} {f : κ → M (Pcm G T N) Unit} (h : ∀ a, Deaf (f a)) (l : List κ) : Deaf (M.forEach f l) :=
  fun I => Conv.forEach (fun a => h a I) l
theorem zoom {τ : Type} {g : Pcm G T N → τ} {u : τ → Pcm G T N → Pcm G T N} (m : M τ α) (hg : ∀ I p, g (ign I p) = g p)
    (hu : ∀ I t p, u t (ign I p) = ign I (u t p)) : Deaf (M.zoom g u m) := by
  intro I
  refine Conv.zoom (rt := id) (fun s => ?_) (fun s => hg I s) fun s t => hu I t s
  show m s = cvOut id id (m s)
  cases m s <;> rfl
end Deaf

section
variable (cfg : Cfg G T N)

theorem toT_deaf (b : Btw G N) : Deaf (toT cfg b) := by
  unfold toT; split
  · exact .undef _
  · exact .pure _

theorem trajBetween_deaf (c : Chr) (a b : Key) : Deaf (trajBetween cfg c a b) := fun _ _ => rfl

theorem updateOdom_deaf (vals : Vals G) (b : Btw G N) : Deaf (updateOdom cfg vals b) := by
  unfold updateOdom
  simp only [M.bind_eq]
  refine .bind (.modify fun _ _ => rfl) fun _ => .bind (toT_deaf cfg b) fun d => ?_
  refine Deaf.get (fun _ _ => rfl) fun p => ?_
  split
  · exact .bind (.pure _) fun _ => .modify fun _ _ => rfl
  · split
    · exact .bind (.raise _) fun _ => .modify fun _ _ => rfl
    · exact .bind (.raise _) fun _ => .modify fun _ _ => rfl
    · exact .bind (.modify fun _ _ => rfl) fun _ => .modify fun _ _ => rfl

theorem isOdomConsistent_deaf (b : Btw G N) : Deaf (isOdomConsistent cfg b) :=
  .ite (.pure _) (.bind (trajBetween_deaf cfg _ _ _) fun _ => .bind (toT_deaf cfg b) fun _ => .pure _)

theorem areLoopsConsistent_deaf (x y : Btw G N) : Deaf (areLoopsConsistent cfg x y) :=
  .ite (.pure _) (.bind (toT_deaf cfg x) fun _ => .bind (toT_deaf cfg y) fun _ => .bind (trajBetween_deaf cfg _ _ _) fun _ =>
    .bind (trajBetween_deaf cfg _ _ _) fun _ => .pure _)

theorem pairVerdicts_deaf (y : Btw G N) (l : List (Btw G N)) : Deaf (pairVerdicts cfg y l) := by
  induction l with
  | nil => exact .pure _
  | cons x l ih => exact .bind (areLoopsConsistent_deaf cfg x y) fun _ => .bind ih fun _ => .pure _

theorem landmarkVerdicts_deaf (k : Key) (y : Btw G N) (l : List (Btw G N)) : Deaf (landmarkVerdicts cfg k y l) := by
  induction l with
  | nil => exact .pure _
  | cons x l ih =>
    exact .ite (.pure _) (.bind (toT_deaf cfg x) fun _ => .bind (toT_deaf cfg y) fun _ =>
      .bind (trajBetween_deaf cfg _ _ _) fun _ => .bind ih fun _ => .pure _)

theorem incrementAdj_deaf (id : ObsId) (y : Btw G N) : Deaf (incrementAdj cfg id y) := by
  unfold incrementAdj
  simp only [M.bind_eq]
  refine Deaf.get (fun _ _ => rfl) fun p => ?_
  refine .ite (.modify fun _ _ => rfl) (.ite (.undef _) (.bind (pairVerdicts_deaf cfg _ _) fun _ => ?_))
  exact .modify fun _ _ => rfl

theorem incrementLandmarkAdj_deaf (k : Key) : Deaf (incrementLandmarkAdj cfg k) := by
  unfold incrementLandmarkAdj
  simp only [M.bind_eq]
  refine Deaf.get (fun _ _ => rfl) fun p => ?_
  split
  · exact .modify fun _ _ => rfl
  · refine .ite (.modify fun _ _ => rfl) (.ite (.undef _) (.bind (landmarkVerdicts_deaf cfg _ _ _) fun r => ?_))
    split
    · exact .pure _
    · exact .modify fun _ _ => rfl

theorem registerLc_deaf (b : Btw G N) : Deaf (registerLc cfg b) :=
  .bind (.modify fun _ _ => rfl) fun _ => .when (incrementAdj_deaf cfg _ _)

theorem registerLm_deaf (b : Btw G N) : Deaf (registerLm cfg b) :=
  .bind (.modify fun _ _ => rfl) fun _ => incrementLandmarkAdj_deaf cfg _

theorem parseLoops_deaf (vals : Vals G) (bs : List (Btw G N)) (num : List (ObsId × Nat)) : Deaf (parseLoops cfg vals bs num) := by
  induction bs generalizing num with
  | nil => exact .pure _
  | cons b bs ih =>
    exact .ite (ih _) (.ite (.bind (registerLm_deaf cfg b) fun _ => ih _)
      (.bind (.cond (isOdomConsistent_deaf cfg b) (.pure _)) fun _ => .ite (.bind (registerLc_deaf cfg b) fun _ => ih _) (ih _)))

theorem sortFactors_deaf (nv vals : Vals G) (fs : Graph G N) (lcs : List (Btw G N)) (opt : Bool) :
    Deaf (sortFactors cfg nv vals fs lcs opt) := by
  induction fs generalizing lcs opt with
  | nil => exact .pure _
  | cons f fs ih =>
    cases f with
    | none => exact ih _ _
    | some f =>
      unfold sortFactors
      split
      · exact .bind (updateOdom_deaf cfg _ _) fun _ => ih _ _
      · exact .bind (.modify fun _ _ => rfl) fun _ => ih _ _
      · exact .ite (ih _ _) (ih _ _)
      · exact .bind (.modify fun _ _ => rfl) fun _ => ih _ _

theorem lmPass_deaf : Deaf (lmPass : M (Pcm G T N) Unit) := .zoom _ (fun _ _ => rfl) fun _ _ _ => rfl

theorem findInliers_deaf : Deaf (findInliers cfg) :=
  Deaf.bind (m := M.modify _) (.modify fun _ _ => rfl) fun _ =>
    Deaf.bind (m := lcPass cfg) (.zoom _ (fun _ _ => rfl) fun _ _ _ => rfl) fun _ => lmPass_deaf

theorem findInliersIncremental_deaf (num : List (ObsId × Nat)) : Deaf (findInliersIncremental num : M (Pcm G T N) Unit) := by
  unfold findInliersIncremental
  simp only [M.bind_eq]
  refine .bind (.modify fun _ _ => rfl) fun _ => .bind (.forEach (fun i => ?_) _) fun _ => .bind ?_ fun _ => lmPass_deaf
  · exact .zoom _ (fun _ _ => rfl) fun _ _ _ => rfl
  · exact .modify fun _ _ => rfl

theorem processCands_deaf (vals : Vals G) (bs : List (Btw G N)) : Deaf (processCands cfg vals bs) :=
  .bind (parseLoops_deaf cfg _ _ _) fun _ => .cond (findInliersIncremental_deaf _) (findInliers_deaf cfg)

end

/-! ### Two states that differ in what is ignored -/

/-- The same except for the ignored prefixes. -/
def AlikeI (p q : Pcm G T N) : Prop := ign [] p = ign [] q

namespace AlikeI
theorem refl (p : Pcm G T N) : AlikeI p p := rfl
theorem trans {p q r : Pcm G T N} (h : AlikeI p q) (h' : AlikeI q r) : AlikeI p r := Eq.trans h h'
theorem symm {p q : Pcm G T N} (h : AlikeI p q) : AlikeI q p := Eq.symm h
theorem ign (I : List Chr) (p : Pcm G T N) : AlikeI p (ign I p) := rfl
theorem eq {p q : Pcm G T N} (h : AlikeI p q) : q = RPGO.ign q.ignored p := by
  have : RPGO.ign q.ignored (RPGO.ign [] p) = RPGO.ign q.ignored (RPGO.ign [] q) := by rw [show RPGO.ign [] p = _ from h]
  exact this.symm

theorem run {α : Type} {m : M (Pcm G T N) α} (hm : Deaf m) {p q p' q' : Pcm G T N} {a b : α} (h : AlikeI p q)
    (e1 : m p = .ok p' a) (e2 : m q = .ok q' b) : AlikeI p' q' ∧ a = b := by
  rw [h.eq, hm q.ignored p, e1] at e2
  cases e2
  exact ⟨AlikeI.ign _ _, rfl⟩
end AlikeI

theorem ign_trajs {p q : Pcm G T N} (h : AlikeI p q) : p.trajs = q.trajs := by rw [h.eq]; rfl

/-- The same except for the graph, the estimates and the ignored prefixes. -/
structure NearI (s1 s2 : St G T N) : Prop where
  pcm : AlikeI s1.pcm s2.pcm
  has : ∀ k, s1.values.has k = s2.values.has k

theorem NearI.trans {a b c : St G T N} (h : NearI a b) (h' : NearI b c) : NearI a c :=
  ⟨h.pcm.trans h'.pcm, fun k => (h.has k).trans (h'.has k)⟩
theorem NearI.symm {a b : St G T N} (h : NearI a b) : NearI b a := ⟨h.pcm.symm, fun k => (h.has k).symm⟩

variable [Mul G] [Inv G] [One G]

theorem NearI.of_frame {s t : St G T N} (h : OptFrame s t) : NearI s t :=
  ⟨by rw [h.pcm]; exact .refl _, fun k => (h.values.has k).symm⟩

theorem NearI.frames {s1 s2 t1 t2 : St G T N} (h : NearI s1 s2) (h1 : OptFrame s1 t1) (h2 : OptFrame s2 t2) : NearI t1 t2 :=
  (NearI.of_frame h1).symm.trans (h.trans (.of_frame h2))

theorem alignStep_nearI (cfg : Cfg G T N) {e1 e2 : Env G N} {s1 s2 t1 t2 : St G T N} (hs : NearI s1 s2)
    (h1 : alignStep cfg e1 s1 = .ok t1 ()) (h2 : alignStep cfg e2 s2 = .ok t2 ()) : NearI t1 t2 := by
  have key : ∀ (e : Env G N) (s s' : St G T N), alignStep cfg e s = .ok s' () →
      (∀ k, s'.values.has k = s.values.has k) ∧
      s'.pcm = if cfg.align && decide (1 < s.pcm.robotOrder.length) then
        { s.pcm with robotOrder := sortRobots cfg.charSigned s.pcm.robotOrder } else s.pcm := by
    intro e s s' h
    have hf := (alignStep_frame cfg e).of_ok h
    refine ⟨hf.values.has, ?_⟩
    unfold alignStep at h
    by_cases hc : (cfg.align && decide (1 < s.pcm.robotOrder.length)) = true
    · rw [if_pos hc] at h
      rw [if_pos hc]
      simp only at h
      split at h
      · cases h; rfl
      · cases h
      · cases h
    · rw [if_neg hc] at h
      rw [if_neg hc]
      cases h; rfl
  obtain ⟨a2, a3⟩ := key _ _ _ h1
  obtain ⟨b2, b3⟩ := key _ _ _ h2
  refine ⟨?_, fun k => by rw [a2, b2, hs.has]⟩
  rw [a3, b3, hs.pcm.eq]
  show AlikeI (if _ then _ else _) (if _ then _ else _)
  have e : (ign s2.pcm.ignored s1.pcm).robotOrder = s1.pcm.robotOrder := rfl
  rw [e]
  split
  · rfl
  · rfl

theorem removeOutliers_nearI (cfg : Cfg G T N) {e1 e2 : Env G N} (fs : Graph G N) (vs : Vals G)
    {s1 s2 t1 t2 : St G T N} {x1 x2 : Bool} (hs : NearI s1 s2)
    (H : ∀ fs1 b fs2, fs = fs1 ++ some (.btw b) :: fs2 → Spec.isOdom cfg vs b = true →
      b.k1 ∈ vs.keys ∨ hasTraj s1.pcm (chr b.k2) = true ∨ ∃ b' ∈ Spec.odoms cfg vs fs1, chr b'.k2 = chr b.k2)
    (h1 : removeOutliers cfg e1 fs vs s1 = .ok t1 x1) (h2 : removeOutliers cfg e2 fs vs s2 = .ok t2 x2) : NearI t1 t2 := by
  obtain ⟨_, _, g1, k1⟩ := M.bind_eq_ok.1 h1
  obtain ⟨_, _, g2, k2⟩ := M.bind_eq_ok.1 h2
  obtain ⟨v1, i1, rfl⟩ := M.zoom_eq_ok.1 g1
  obtain ⟨v2, i2, rfl⟩ := M.zoom_eq_ok.1 g2
  obtain ⟨hh, hf⟩ := insertVals_sim hs.has i1 i2
  unfold M.cond at k1 k2
  split at k1
  · rw [if_pos (by assumption)] at k2
    cases k1; cases k2
    exact ⟨hs.pcm, hh⟩
  rw [if_neg (by assumption)] at k2
  unfold processFactors at k1 k2
  simp only [M.bind_eq] at k1 k2
  obtain ⟨_, r1, g1, k1⟩ := M.bind_eq_ok.1 k1
  obtain ⟨_, r2, g2, k2⟩ := M.bind_eq_ok.1 k2
  cases g1; cases g2
  obtain ⟨_, r1, g1, k1⟩ := M.bind_eq_ok.1 k1
  obtain ⟨_, r2, g2, k2⟩ := M.bind_eq_ok.1 k2
  obtain ⟨p1, j1, rfl⟩ := M.zoom_eq_ok.1 g1
  obtain ⟨p2, j2, rfl⟩ := M.zoom_eq_ok.1 g2
  have j2' : sortFactors cfg vs v1 fs [] false s2.pcm = .ok p2 r2 := by
    rw [← j2]
    refine sortFactors_congr cfg fs [] false _ ?_
    intro fs1 b fs2 e ho
    rcases H fs1 b fs2 e ho with h | h | h
    · exact Or.inl (hf _ h)
    · exact Or.inr (Or.inl (by rw [← hasTraj_congr (ign_trajs hs.pcm)]; exact h))
    · exact Or.inr (Or.inr h)
  obtain ⟨hp, rfl⟩ := hs.pcm.run (sortFactors_deaf cfg _ _ _ _ _) j1 j2'
  obtain ⟨u1, _, g1, k1⟩ := M.bind_eq_ok.1 k1
  obtain ⟨u2, _, g2, k2⟩ := M.bind_eq_ok.1 k2
  have hu : NearI u1 u2 := by
    unfold M.when at g1 g2
    split at g1
    · rw [if_pos (by assumption)] at g2
      obtain ⟨q1, j1, rfl⟩ := M.zoom_eq_ok.1 g1
      obtain ⟨q2, j2, rfl⟩ := M.zoom_eq_ok.1 g2
      have j2' : processCands cfg v2 r1.1 p2 = .ok q2 () := j2
      have j1' : processCands cfg v1 r1.1 p1 = .ok q1 () := j1
      rw [← processCands_congr cfg hh] at j2'
      exact ⟨(hp.run (processCands_deaf cfg _ _) j1' j2').1, hh⟩
    · rw [if_neg (by assumption)] at g2
      cases g1; cases g2
      exact ⟨hp, hh⟩
  obtain ⟨_, _, g1, k1⟩ := M.bind_eq_ok.1 k1
  obtain ⟨_, _, g2, k2⟩ := M.bind_eq_ok.1 k2
  cases g1; cases g2
  obtain ⟨w1, _, g1, k1⟩ := M.bind_eq_ok.1 k1
  obtain ⟨w2, _, g2, k2⟩ := M.bind_eq_ok.1 k2
  cases k1; cases k2
  exact alignStep_nearI cfg (e1 := e1) (e2 := e2) (s1 := { u1 with nfg := buildGraph e1 u1.pcm }) (s2 := { u2 with nfg := buildGraph e2 u2.pcm })
    ⟨hu.pcm, hu.has⟩ g1 g2

theorem removeLastOfPair_nearI {e1 e2 : Env G N} (id : ObsId) {s1 s2 t1 t2 : St G T N} {x1 x2 : EdgePtr} (hs : NearI s1 s2)
    (h1 : removeLastOfPair e1 id s1 = .ok t1 x1) (h2 : removeLastOfPair e2 id s2 = .ok t2 x2) : NearI t1 t2 ∧ x1 = x2 := by
  rw [removeLastOfPair_eq] at h1 h2
  have hl : s2.pcm.lcs = s1.pcm.lcs := by rw [hs.pcm.eq]; rfl
  rw [hl] at h2
  have hu : ∀ m', AlikeI (updLc s1.pcm id fun _ => m') (updLc s2.pcm id fun _ => m') := fun m' => by rw [hs.pcm.eq]; rfl
  cases hg : AList.get? ObsId.eqv s1.pcm.lcs id with
  | none => rw [hg] at h1 h2; cases h1; cases h2; exact ⟨hs, rfl⟩
  | some m =>
    rw [hg] at h1 h2
    simp only at h1 h2
    cases hm : removeLastMeas m with
    | ub u => rw [hm] at h1; cases h1
    | throw m' x => rw [hm] at h1; cases h1
    | ok m' e =>
      rw [hm] at h1 h2
      cases e with
      | none => cases h1; cases h2; exact ⟨⟨hu _, hs.has⟩, rfl⟩
      | some e => cases h1; cases h2; exact ⟨⟨hu _, hs.has⟩, rfl⟩

theorem removeLastPcm_nearI {e1 e2 : Env G N} {s1 s2 t1 t2 : St G T N} {x1 x2 : EdgePtr} (hs : NearI s1 s2)
    (h1 : removeLastPcm e1 s1 = .ok t1 x1) (h2 : removeLastPcm e2 s2 = .ok t2 x2) : NearI t1 t2 ∧ x1 = x2 := by
  rw [removeLastPcm_eq] at h1 h2
  have hl : s2.pcm.inOrder = s1.pcm.inOrder := by rw [hs.pcm.eq]; rfl
  rw [hl] at h2
  cases hg : s1.pcm.inOrder.getLast? with
  | none => rw [hg] at h1 h2; cases h1; cases h2; exact ⟨hs, rfl⟩
  | some id =>
    rw [hg] at h1 h2
    refine removeLastOfPair_nearI (e1 := e1) (e2 := e2) (s1 := { s1 with pcm := { s1.pcm with inOrder := s1.pcm.inOrder.dropLast } })
      (s2 := { s2 with pcm := { s2.pcm with inOrder := s1.pcm.inOrder.dropLast } }) id ⟨?_, hs.has⟩ h1 h2
    show AlikeI { s1.pcm with inOrder := s1.pcm.inOrder.dropLast } { s2.pcm with inOrder := s1.pcm.inOrder.dropLast }
    rw [hs.pcm.eq]; rfl

end RPGO
