import Verif.Proofs.Ignore
/-
The factors that are not measurements between poses are read by nothing but the construction of the graph.
-/

namespace RPGO
variable {G T N : Type}

/-- The same, with further factors that are not measurements in front. -/
def anch (I : List (Factor G N)) (p : Pcm G T N) : Pcm G T N := { p with special := I ++ p.special }

/-- A procedure that does not look at those factors. -/
def Heedless {α : Type} (m : M (Pcm G T N) α) : Prop := ∀ I, Conv (anch I) id m m

namespace Heedless
variable {α β : Type}
theorem pure (a : α) : Heedless (M.pure a : M (Pcm G T N) α) := fun _ => Conv.pure rfl
theorem raise (e : Exn) : Heedless (M.raise e : M (Pcm G T N) α) := fun _ => Conv.raise e
theorem undef (u : UB) : Heedless (M.undef u : M (Pcm G T N) α) := fun _ => Conv.undef u
theorem bind {m : M (Pcm G T N) α} {f : α → M (Pcm G T N) β} (h : Heedless m) (hf : ∀ a, Heedless (f a)) : Heedless (m.bind f) :=
  fun I => Conv.bind (h I) fun a => hf a I
theorem modify {f : Pcm G T N → Pcm G T N} (h : ∀ I p, f (anch I p) = anch I (f p)) : Heedless (M.modify f) :=
  fun I => Conv.modify (h I)
theorem cond {c : Bool} {m m' : M (Pcm G T N) α} (h : Heedless m) (h' : Heedless m') : Heedless (M.cond c m m') :=
  fun I => Conv.cond rfl (h I) (h' I)
theorem when {c : Bool} {m : M (Pcm G T N) Unit} (h : Heedless m) : Heedless (M.when c m) := fun I => Conv.when rfl (h I)
theorem ite {c : Prop} [Decidable c] {m m' : M (Pcm G T N) α} (h : Heedless m) (h' : Heedless m') : Heedless (if c then m else m') :=
  fun I => Conv.ite Iff.rfl (h I) (h' I)
theorem get {f : Pcm G T N → M (Pcm G T N) α} (hf : ∀ I p, f (anch I p) = f p) (h : ∀ p, Heedless (f p)) : Heedless (M.get.bind f) :=
  fun I => Conv.get fun p => by rw [hf]; exact h p I
theorem forEach {κ : Type} {f : κ → M (Pcm G T N) Unit} (h : ∀ a, Heedless (f a)) (l : List κ) : Heedless (M.forEach f l) :=
  fun I => Conv.forEach (fun a => h a I) l
theorem zoom {τ : Type} {g : Pcm G T N → τ} {u : τ → Pcm G T N → Pcm G T N} (m : M τ α) (hg : ∀ I p, g (anch I p) = g p)
    (hu : ∀ I t p, u t (anch I p) = anch I (u t p)) : Heedless (M.zoom g u m) := by
  intro I
  refine Conv.zoom (rt := id) (fun s => ?_) (fun s => hg I s) fun s t => hu I t s
  show m s = cvOut id id (m s)
  cases m s <;> rfl
end Heedless

section
variable (cfg : Cfg G T N)

theorem toT_heedless (b : Btw G N) : Heedless (toT cfg b) := by
  unfold toT; split
  · exact .undef _
  · exact .pure _

theorem trajBetween_heedless (c : Chr) (a b : Key) : Heedless (trajBetween cfg c a b) := fun _ _ => rfl

theorem updateOdom_heedless (vals : Vals G) (b : Btw G N) : Heedless (updateOdom cfg vals b) := by
  unfold updateOdom
  simp only [M.bind_eq]
  refine .bind (.modify fun _ _ => rfl) fun _ => .bind (toT_heedless cfg b) fun d => ?_
  refine Heedless.get (fun _ _ => rfl) fun p => ?_
  split
  · exact .bind (.pure _) fun _ => .modify fun _ _ => rfl
  · split
    · exact .bind (.raise _) fun _ => .modify fun _ _ => rfl
    · exact .bind (.raise _) fun _ => .modify fun _ _ => rfl
    · exact .bind (.modify fun _ _ => rfl) fun _ => .modify fun _ _ => rfl

theorem isOdomConsistent_heedless (b : Btw G N) : Heedless (isOdomConsistent cfg b) :=
  .ite (.pure _) (.bind (trajBetween_heedless cfg _ _ _) fun _ => .bind (toT_heedless cfg b) fun _ => .pure _)

theorem areLoopsConsistent_heedless (x y : Btw G N) : Heedless (areLoopsConsistent cfg x y) :=
  .ite (.pure _) (.bind (toT_heedless cfg x) fun _ => .bind (toT_heedless cfg y) fun _ => .bind (trajBetween_heedless cfg _ _ _) fun _ =>
    .bind (trajBetween_heedless cfg _ _ _) fun _ => .pure _)

theorem pairVerdicts_heedless (y : Btw G N) (l : List (Btw G N)) : Heedless (pairVerdicts cfg y l) := by
  induction l with
  | nil => exact .pure _
  | cons x l ih => exact .bind (areLoopsConsistent_heedless cfg x y) fun _ => .bind ih fun _ => .pure _

theorem landmarkVerdicts_heedless (k : Key) (y : Btw G N) (l : List (Btw G N)) : Heedless (landmarkVerdicts cfg k y l) := by
  induction l with
  | nil => exact .pure _
  | cons x l ih =>
    exact .ite (.pure _) (.bind (toT_heedless cfg x) fun _ => .bind (toT_heedless cfg y) fun _ =>
      .bind (trajBetween_heedless cfg _ _ _) fun _ => .bind ih fun _ => .pure _)

theorem incrementAdj_heedless (id : ObsId) (y : Btw G N) : Heedless (incrementAdj cfg id y) := by
  unfold incrementAdj
  simp only [M.bind_eq]
  refine Heedless.get (fun _ _ => rfl) fun p => ?_
  refine .ite (.modify fun _ _ => rfl) (.ite (.undef _) (.bind (pairVerdicts_heedless cfg _ _) fun _ => ?_))
  exact .modify fun _ _ => rfl

theorem incrementLandmarkAdj_heedless (k : Key) : Heedless (incrementLandmarkAdj cfg k) := by
  unfold incrementLandmarkAdj
  simp only [M.bind_eq]
  refine Heedless.get (fun _ _ => rfl) fun p => ?_
  split
  · exact .modify fun _ _ => rfl
  · refine .ite (.modify fun _ _ => rfl) (.ite (.undef _) (.bind (landmarkVerdicts_heedless cfg _ _ _) fun r => ?_))
    split
    · exact .pure _
    · exact .modify fun _ _ => rfl

theorem registerLc_heedless (b : Btw G N) : Heedless (registerLc cfg b) :=
  .bind (.modify fun _ _ => rfl) fun _ => .when (incrementAdj_heedless cfg _ _)

theorem registerLm_heedless (b : Btw G N) : Heedless (registerLm cfg b) :=
  .bind (.modify fun _ _ => rfl) fun _ => incrementLandmarkAdj_heedless cfg _

theorem parseLoops_heedless (vals : Vals G) (bs : List (Btw G N)) (num : List (ObsId × Nat)) : Heedless (parseLoops cfg vals bs num) := by
  induction bs generalizing num with
  | nil => exact .pure _
  | cons b bs ih =>
    exact .ite (ih _) (.ite (.bind (registerLm_heedless cfg b) fun _ => ih _)
      (.bind (.cond (isOdomConsistent_heedless cfg b) (.pure _)) fun _ => .ite (.bind (registerLc_heedless cfg b) fun _ => ih _) (ih _)))

theorem sortFactors_heedless (nv vals : Vals G) (fs : Graph G N) (lcs : List (Btw G N)) (opt : Bool) :
    Heedless (sortFactors cfg nv vals fs lcs opt) := by
  induction fs generalizing lcs opt with
  | nil => exact .pure _
  | cons f fs ih =>
    cases f with
    | none => exact ih _ _
    | some f =>
      unfold sortFactors
      split
      · exact .bind (updateOdom_heedless cfg _ _) fun _ => ih _ _
      · exact .bind (.modify fun _ _ => rfl) fun _ => ih _ _
      · exact .ite (ih _ _) (ih _ _)
      · exact .bind (.modify fun _ _ => by unfold anch; simp) fun _ => ih _ _

theorem lmPass_heedless : Heedless (lmPass : M (Pcm G T N) Unit) := .zoom _ (fun _ _ => rfl) fun _ _ _ => rfl

theorem findInliers_heedless : Heedless (findInliers cfg) :=
  Heedless.bind (m := M.modify _) (.modify fun _ _ => rfl) fun _ =>
    Heedless.bind (m := lcPass cfg) (.zoom _ (fun _ _ => rfl) fun _ _ _ => rfl) fun _ => lmPass_heedless

theorem findInliersIncremental_heedless (num : List (ObsId × Nat)) : Heedless (findInliersIncremental num : M (Pcm G T N) Unit) := by
  unfold findInliersIncremental
  simp only [M.bind_eq]
  refine .bind (.modify fun _ _ => rfl) fun _ => .bind (.forEach (fun i => ?_) _) fun _ => .bind ?_ fun _ => lmPass_heedless
  · exact .zoom _ (fun _ _ => rfl) fun _ _ _ => rfl
  · exact .modify fun _ _ => rfl

theorem processCands_heedless (vals : Vals G) (bs : List (Btw G N)) : Heedless (processCands cfg vals bs) :=
  .bind (parseLoops_heedless cfg _ _ _) fun _ => .cond (findInliersIncremental_heedless _) (findInliers_heedless cfg)

end

/-! ### Two states that differ in the factors that are not measurements -/

/-- Without those factors. -/
def bare (p : Pcm G T N) : Pcm G T N := { p with special := [] }

theorem anch_bare (p : Pcm G T N) : anch p.special (bare p) = p := by
  unfold anch bare; simp

/-- The same except for the factors that are not measurements. -/
def AlikeS (p q : Pcm G T N) : Prop := bare p = bare q

namespace AlikeS
theorem refl (p : Pcm G T N) : AlikeS p p := rfl
theorem trans {p q r : Pcm G T N} (h : AlikeS p q) (h' : AlikeS q r) : AlikeS p r := Eq.trans h h'
theorem symm {p q : Pcm G T N} (h : AlikeS p q) : AlikeS q p := Eq.symm h
theorem other (l : List (Factor G N)) (p : Pcm G T N) : AlikeS p { p with special := l } := rfl
theorem eq {p q : Pcm G T N} (h : AlikeS p q) : q = { p with special := q.special } := by
  have : anch q.special (bare p) = anch q.special (bare q) := by rw [show bare p = _ from h]
  rw [anch_bare] at this
  rw [← this]
  unfold anch bare
  simp

theorem run {α : Type} {m : M (Pcm G T N) α} (hm : Heedless m) {p q p' q' : Pcm G T N} {a b : α} (h : AlikeS p q)
    (e1 : m p = .ok p' a) (e2 : m q = .ok q' b) : AlikeS p' q' ∧ a = b := by
  rw [← anch_bare p, hm p.special (bare p)] at e1
  rw [← anch_bare q, hm q.special (bare q), ← show bare p = _ from h] at e2
  cases hr : m (bare p) with
  | ok r c =>
    rw [hr] at e1 e2
    cases e1; cases e2
    exact ⟨rfl, rfl⟩
  | throw _ _ => rw [hr] at e1; cases e1
  | ub _ => rw [hr] at e1; cases e1
end AlikeS

theorem anch_trajs {p q : Pcm G T N} (h : AlikeS p q) : p.trajs = q.trajs := by rw [h.eq]

/-- The same except for the graph, the estimates and the factors that are not measurements. -/
structure NearS (s1 s2 : St G T N) : Prop where
  pcm : AlikeS s1.pcm s2.pcm
  has : ∀ k, s1.values.has k = s2.values.has k

theorem NearS.trans {a b c : St G T N} (h : NearS a b) (h' : NearS b c) : NearS a c :=
  ⟨h.pcm.trans h'.pcm, fun k => (h.has k).trans (h'.has k)⟩
theorem NearS.symm {a b : St G T N} (h : NearS a b) : NearS b a := ⟨h.pcm.symm, fun k => (h.has k).symm⟩

variable [Mul G] [Inv G] [One G]

theorem NearS.of_frame {s t : St G T N} (h : OptFrame s t) : NearS s t :=
  ⟨by rw [h.pcm]; exact .refl _, fun k => (h.values.has k).symm⟩

theorem NearS.frames {s1 s2 t1 t2 : St G T N} (h : NearS s1 s2) (h1 : OptFrame s1 t1) (h2 : OptFrame s2 t2) : NearS t1 t2 :=
  (NearS.of_frame h1).symm.trans (h.trans (.of_frame h2))

theorem alignStep_nearS (cfg : Cfg G T N) {e1 e2 : Env G N} {s1 s2 t1 t2 : St G T N} (hs : NearS s1 s2)
    (h1 : alignStep cfg e1 s1 = .ok t1 ()) (h2 : alignStep cfg e2 s2 = .ok t2 ()) : NearS t1 t2 := by
  have key : ∀ (e : Env G N) (s s' : St G T N), alignStep cfg e s = .ok s' () →
      (∀ k, s'.values.has k = s.values.has k) ∧
      s'.pcm = if cfg.align && decide (1 < s.pcm.robotOrder.length) then
        { s.pcm with robotOrder := sortRobots cfg.charSigned s.pcm.robotOrder } else s.pcm := by
    intro e s s' h
    have hf := (alignStep_frame cfg e).of_ok h
    refine ⟨hf.values.has, ?_⟩
    unfold alignStep at h
    by_cases hc : (cfg.align && decide (1 < s.pcm.robotOrder.length)) = true
    · rw [if_pos hc] at h
      rw [if_pos hc]
      simp only at h
      split at h
      · cases h; rfl
      · cases h
      · cases h
    · rw [if_neg hc] at h
      rw [if_neg hc]
      cases h; rfl
  obtain ⟨a2, a3⟩ := key _ _ _ h1
  obtain ⟨b2, b3⟩ := key _ _ _ h2
  refine ⟨?_, fun k => by rw [a2, b2, hs.has]⟩
  rw [a3, b3, hs.pcm.eq]
  show AlikeS (if _ then _ else _) (if _ then _ else _)
  split
  · rfl
  · rfl


theorem AlikeS.fwd {α : Type} {m : M (Pcm G T N) α} (hm : Heedless m) {p q p' : Pcm G T N} {a : α} (h : AlikeS p q)
    (e1 : m p = .ok p' a) : ∃ q', m q = .ok q' a ∧ AlikeS p' q' := by
  rw [← anch_bare p, hm p.special (bare p)] at e1
  cases hr : m (bare p) with
  | ok r c =>
    rw [hr] at e1
    cases e1
    refine ⟨anch q.special r, ?_, rfl⟩
    have e := hm q.special (bare q)
    rw [anch_bare, ← show bare p = bare q from h, hr] at e
    exact e
  | throw _ _ => rw [hr] at e1; cases e1
  | ub _ => rw [hr] at e1; cases e1

omit [Mul G] [Inv G] [One G] in
/-- The loop over the new factors does the same with the between factors alone. -/
theorem sortFactors_btws [Mul G] [Inv G] [One G] (cfg : Cfg G T N) (nv vals : Vals G) (fs : Graph G N) (lcs : List (Btw G N)) (o o' : Bool)
    {p q p' : Pcm G T N} {r : List (Btw G N) × Bool} (h : AlikeS p q) (e : sortFactors cfg nv vals fs lcs o p = .ok p' r) :
    ∃ q' x, sortFactors cfg nv vals ((Spec.btws fs).map fun b => some (.btw b)) lcs o' q = .ok q' (r.1, x) ∧ AlikeS p' q' := by
  induction fs generalizing lcs o o' p q with
  | nil => cases e; exact ⟨q, o', rfl, h⟩
  | cons f fs ih =>
    have other : ∀ g : Factor G N, (M.modify fun p : Pcm G T N => { p with special := p.special ++ [g] }).bind
        (fun _ => sortFactors cfg nv vals fs lcs true) p = .ok p' r →
        ∃ q' x, sortFactors cfg nv vals ((Spec.btws fs).map fun b => some (.btw b)) lcs o' q = .ok q' (r.1, x) ∧ AlikeS p' q' := by
      intro g e
      rw [M.bind_ok (M.modify_apply _ _)] at e
      exact ih lcs true o' ((AlikeS.other _ p).symm.trans h) e
    cases f with
    | none => exact ih lcs o o' h e
    | some f =>
      cases f with
      | btw b =>
        show ∃ q' x, sortFactors cfg nv vals (some (.btw b) :: (Spec.btws fs).map fun b => some (.btw b)) lcs o' q = .ok q' (r.1, x) ∧ AlikeS p' q'
        have hb : ∀ (m : M (Pcm G T N) Unit) (x : Bool) (x' : Bool), Heedless m → m.bind (fun _ => sortFactors cfg nv vals fs lcs x) p = .ok p' r →
            ∃ q' y, m.bind (fun _ => sortFactors cfg nv vals ((Spec.btws fs).map fun b => some (.btw b)) lcs x') q = .ok q' (r.1, y) ∧ AlikeS p' q' := by
          intro m x x' hm e
          obtain ⟨p1, _, e1, e2⟩ := M.bind_eq_ok.1 e
          obtain ⟨q1, f1, h1⟩ := h.fwd hm e1
          obtain ⟨q', y, f2, h2⟩ := ih lcs x x' h1 e2
          exact ⟨q', y, by rw [M.bind_ok f1]; exact f2, h2⟩
        unfold sortFactors at e ⊢
        cases hc : classify cfg nv (.btw b) with
        | odometry =>
          rw [hc] at e
          exact hb _ _ _ (updateOdom_heedless cfg vals b) e
        | firstLandmark =>
          rw [hc] at e
          exact hb _ _ _ (.modify fun _ _ => rfl) e
        | loopClosure =>
          rw [hc] at e
          simp only at e ⊢
          by_cases hk : b.k1 ≠ b.k2
          · rw [if_pos hk] at e ⊢; exact ih _ _ _ h e
          · rw [if_neg hk] at e ⊢; exact ih _ _ _ h e
        | nonBetween =>
          rw [hc] at e
          exact hb _ _ _ (.modify fun _ _ => by unfold anch; simp) e
      | _ => exact other _ e

/-- Taking in a batch without measurements changes nothing but the other factors. -/
theorem idle_nearS {cfg : Cfg G T N} {env : Env G N} (ha : cfg.align = false) {fs : Graph G N} {vs : Vals G} {s t : St G T N}
    {x : Bool} (hb : Spec.btws fs = []) (e : processFactors cfg env fs vs s = .ok t x) : NearS s t := by
  unfold processFactors at e
  simp only [M.bind_eq] at e
  rw [M.bind_ok (M.get_apply _)] at e
  obtain ⟨_, r1, g1, k1⟩ := M.bind_eq_ok.1 e
  obtain ⟨p1, j1, rfl⟩ := M.zoom_eq_ok.1 g1
  obtain ⟨q, y, f1, hp⟩ := sortFactors_btws cfg _ _ fs [] false false (.refl _) j1
  rw [hb] at f1
  have hr : r1.1 = [] := by injection f1 with _ b; exact (Prod.mk.inj b).1.symm
  have hq : q = s.pcm := by injection f1 with a _; exact a.symm
  subst hq
  rw [hr] at k1
  obtain ⟨u1, _, g1, k1⟩ := M.bind_eq_ok.1 k1
  cases g1
  obtain ⟨_, _, g1, k1⟩ := M.bind_eq_ok.1 k1
  cases g1
  obtain ⟨w1, _, g1, k1⟩ := M.bind_eq_ok.1 k1
  cases k1
  unfold alignStep at g1
  rw [ha] at g1
  cases g1
  exact ⟨hp.symm, fun _ => rfl⟩

theorem removeOutliers_nearS (cfg : Cfg G T N) {e1 e2 : Env G N} (fs fs' : Graph G N) (vs : Vals G)
    (hb : Spec.btws fs = Spec.btws fs') (hal : cfg.align = true → (fs = [] ↔ fs' = []))
    {s1 s2 t1 t2 : St G T N} {x1 x2 : Bool} (hs : NearS s1 s2)
    (H : ∀ fs1 b fs2, fs = fs1 ++ some (.btw b) :: fs2 → Spec.isOdom cfg vs b = true →
      b.k1 ∈ vs.keys ∨ hasTraj s1.pcm (chr b.k2) = true ∨ ∃ b' ∈ Spec.odoms cfg vs fs1, chr b'.k2 = chr b.k2)
    (h1 : removeOutliers cfg e1 fs vs s1 = .ok t1 x1) (h2 : removeOutliers cfg e2 fs' vs s2 = .ok t2 x2) : NearS t1 t2 := by
  obtain ⟨_, _, g1, k1⟩ := M.bind_eq_ok.1 h1
  obtain ⟨_, _, g2, k2⟩ := M.bind_eq_ok.1 h2
  obtain ⟨v1, i1, rfl⟩ := M.zoom_eq_ok.1 g1
  obtain ⟨v2, i2, rfl⟩ := M.zoom_eq_ok.1 g2
  obtain ⟨hh, hf⟩ := insertVals_sim hs.has i1 i2
  have hs' : NearS { s1 with values := v1 } { s2 with values := v2 } := ⟨hs.pcm, hh⟩
  have hne : ∀ {l : Graph G N}, ¬ l.length = 0 → l ≠ [] := fun h e => h (by rw [e]; rfl)
  unfold M.cond at k1 k2
  by_cases l1 : fs.length = 0
  · rw [if_pos (by simpa using l1)] at k1
    cases k1
    by_cases l2 : fs'.length = 0
    · rw [if_pos (by simpa using l2)] at k2
      cases k2
      exact hs'
    · rw [if_neg (by simpa using l2)] at k2
      have ha : cfg.align = false := by
        cases h : cfg.align with
        | false => rfl
        | true => exact absurd ((hal h).1 (List.length_eq_zero_iff.1 l1)) (hne l2)
      refine hs'.trans (idle_nearS ha ?_ k2)
      rw [← hb, List.length_eq_zero_iff.1 l1]; rfl
  rw [if_neg (by simpa using l1)] at k1
  by_cases l2 : fs'.length = 0
  · rw [if_pos (by simpa using l2)] at k2
    cases k2
    have ha : cfg.align = false := by
      cases h : cfg.align with
      | false => rfl
      | true => exact absurd ((hal h).2 (List.length_eq_zero_iff.1 l2)) (hne l1)
    refine (idle_nearS ha ?_ k1).symm.trans hs'
    rw [hb, List.length_eq_zero_iff.1 l2]; rfl
  rw [if_neg (by simpa using l2)] at k2
  unfold processFactors at k1 k2
  simp only [M.bind_eq] at k1 k2
  obtain ⟨_, r1, g1, k1⟩ := M.bind_eq_ok.1 k1
  obtain ⟨_, r2, g2, k2⟩ := M.bind_eq_ok.1 k2
  cases g1; cases g2
  obtain ⟨_, r1, g1, k1⟩ := M.bind_eq_ok.1 k1
  obtain ⟨_, r2, g2, k2⟩ := M.bind_eq_ok.1 k2
  obtain ⟨p1, j1, rfl⟩ := M.zoom_eq_ok.1 g1
  obtain ⟨p2, j2, rfl⟩ := M.zoom_eq_ok.1 g2
  have j1' : sortFactors cfg vs v2 fs [] false s1.pcm = .ok p1 r1 := by
    rw [← sortFactors_congr cfg fs [] false s1.pcm ?_]
    · exact j1
    intro fs1 b fs2 e ho
    rcases H fs1 b fs2 e ho with h | h | h
    · exact Or.inl (hf _ h)
    · exact Or.inr (Or.inl h)
    · exact Or.inr (Or.inr h)
  obtain ⟨q1, y1, f1, a1⟩ := sortFactors_btws cfg vs v2 fs [] false false (.refl _) j1'
  obtain ⟨q2, y2, f2, a2⟩ := sortFactors_btws cfg vs v2 fs' [] false false (.refl _) (show sortFactors cfg vs v2 fs' [] false s2.pcm = _ from j2)
  rw [← hb] at f2
  obtain ⟨hq, hxy⟩ := hs.pcm.run (sortFactors_heedless cfg _ _ _ _ _) f1 f2
  have hp : AlikeS p1 p2 := a1.trans (hq.trans a2.symm)
  have hr : r1.1 = r2.1 := (Prod.mk.inj hxy).1
  rw [← hr] at k2
  obtain ⟨u1, _, g1, k1⟩ := M.bind_eq_ok.1 k1
  obtain ⟨u2, _, g2, k2⟩ := M.bind_eq_ok.1 k2
  have hu : NearS u1 u2 := by
    unfold M.when at g1 g2
    split at g1
    · rw [if_pos (by assumption)] at g2
      obtain ⟨q1, j1, rfl⟩ := M.zoom_eq_ok.1 g1
      obtain ⟨q2, j2, rfl⟩ := M.zoom_eq_ok.1 g2
      have j2' : processCands cfg v2 r1.1 p2 = .ok q2 () := j2
      have j1' : processCands cfg v1 r1.1 p1 = .ok q1 () := j1
      rw [← processCands_congr cfg hh] at j2'
      exact ⟨(hp.run (processCands_heedless cfg _ _) j1' j2').1, hh⟩
    · rw [if_neg (by assumption)] at g2
      cases g1; cases g2
      exact ⟨hp, hh⟩
  obtain ⟨_, _, g1, k1⟩ := M.bind_eq_ok.1 k1
  obtain ⟨_, _, g2, k2⟩ := M.bind_eq_ok.1 k2
  cases g1; cases g2
  obtain ⟨w1, _, g1, k1⟩ := M.bind_eq_ok.1 k1
  obtain ⟨w2, _, g2, k2⟩ := M.bind_eq_ok.1 k2
  cases k1; cases k2
  exact alignStep_nearS cfg (e1 := e1) (e2 := e2) (s1 := { u1 with nfg := buildGraph e1 u1.pcm }) (s2 := { u2 with nfg := buildGraph e2 u2.pcm })
    ⟨hu.pcm, hu.has⟩ g1 g2

theorem removeLastOfPair_nearS {e1 e2 : Env G N} (id : ObsId) {s1 s2 t1 t2 : St G T N} {x1 x2 : EdgePtr} (hs : NearS s1 s2)
    (h1 : removeLastOfPair e1 id s1 = .ok t1 x1) (h2 : removeLastOfPair e2 id s2 = .ok t2 x2) : NearS t1 t2 ∧ x1 = x2 := by
  rw [removeLastOfPair_eq] at h1 h2
  have hl : s2.pcm.lcs = s1.pcm.lcs := by rw [hs.pcm.eq]
  rw [hl] at h2
  have hu : ∀ m', AlikeS (updLc s1.pcm id fun _ => m') (updLc s2.pcm id fun _ => m') := fun m' => by rw [hs.pcm.eq]; rfl
  cases hg : AList.get? ObsId.eqv s1.pcm.lcs id with
  | none => rw [hg] at h1 h2; cases h1; cases h2; exact ⟨hs, rfl⟩
  | some m =>
    rw [hg] at h1 h2
    simp only at h1 h2
    cases hm : removeLastMeas m with
    | ub u => rw [hm] at h1; cases h1
    | throw m' x => rw [hm] at h1; cases h1
    | ok m' e =>
      rw [hm] at h1 h2
      cases e with
      | none => cases h1; cases h2; exact ⟨⟨hu _, hs.has⟩, rfl⟩
      | some e => cases h1; cases h2; exact ⟨⟨hu _, hs.has⟩, rfl⟩

theorem removeLastPcm_nearS {e1 e2 : Env G N} {s1 s2 t1 t2 : St G T N} {x1 x2 : EdgePtr} (hs : NearS s1 s2)
    (h1 : removeLastPcm e1 s1 = .ok t1 x1) (h2 : removeLastPcm e2 s2 = .ok t2 x2) : NearS t1 t2 ∧ x1 = x2 := by
  rw [removeLastPcm_eq] at h1 h2
  have hl : s2.pcm.inOrder = s1.pcm.inOrder := by rw [hs.pcm.eq]
  rw [hl] at h2
  cases hg : s1.pcm.inOrder.getLast? with
  | none => rw [hg] at h1 h2; cases h1; cases h2; exact ⟨hs, rfl⟩
  | some id =>
    rw [hg] at h1 h2
    refine removeLastOfPair_nearS (e1 := e1) (e2 := e2) (s1 := { s1 with pcm := { s1.pcm with inOrder := s1.pcm.inOrder.dropLast } })
      (s2 := { s2 with pcm := { s2.pcm with inOrder := s1.pcm.inOrder.dropLast } }) id ⟨?_, hs.has⟩ h1 h2
    show AlikeS { s1.pcm with inOrder := s1.pcm.inOrder.dropLast } { s2.pcm with inOrder := s1.pcm.inOrder.dropLast }
    rw [hs.pcm.eq]; rfl

end RPGO
