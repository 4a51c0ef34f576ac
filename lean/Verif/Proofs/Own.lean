import Verif.Proofs.Chain
import Verif.Proofs.Batch
import Verif.Proofs.Prov
import Verif.Proofs.Values
/-
The keys of the stored trajectories: the trajectory of a robot holds keys of that robot only, provided odometry does
not cross robots and every landmark is observed by one robot.
-/

namespace RPGO
variable {G T N : Type}

namespace Spec

/-- Odometry factors stay inside a robot, and all forward observations of a landmark `l` come from the robot
`owner l`. -/
structure Separate (cfg : Cfg G T N) (owner : Key → Chr) (h : List (Op G N)) : Prop where
  odom : ∀ op ∈ h, ∀ b ∈ opOdom cfg op, chr b.k1 = chr b.k2
  landmark : ∀ op ∈ h, ∀ b ∈ opBtws op, chr b.k2 ∈ cfg.special → chr b.k1 ∉ cfg.special → chr b.k1 = owner b.k2

end Spec

/-- Keys of the trajectories; `C k` says that `k` occurs in a closure or landmark observation, `O k` that `k` occurs in
an odometry factor. -/
structure Own (cfg : Cfg G T N) (owner : Key → Chr) (C O : Key → Prop) (p : Pcm G T N) : Prop where
  own : ∀ c k, (trajOf p c).has k = true → chr k = c ∧ (C k ∨ O k)
  sorted : ∀ c, (trajOf p c).Sorted
  lc : ∀ e ∈ p.lcs, ∀ x ∈ e.2.factors, (ObsId.mk (chr x.k1) (chr x.k2)).eqv e.1 = true ∧ C x.k1 ∧ C x.k2
  lm : ∀ e ∈ p.landmarks, ∀ x ∈ e.2.factors, x.k1 ≠ e.1 → chr x.k1 = owner e.1 ∧ C x.k1
  born : ∀ c, hasTraj p c = true → c ∈ p.robotOrder ∨ ∃ k, chr k = c ∧ C k

variable {cfg : Cfg G T N} {owner : Key → Chr} {C O : Key → Prop}

theorem Own.congr {p q : Pcm G T N} (h : Own cfg owner C O p) (h1 : q.trajs = p.trajs) (h2 : q.lcs = p.lcs)
    (h3 : q.landmarks = p.landmarks) (h4 : ∀ c ∈ p.robotOrder, c ∈ q.robotOrder) : Own cfg owner C O q := by
  have ht : ∀ c, trajOf q c = trajOf p c := fun c => by unfold trajOf; rw [h1]
  refine ⟨fun c k => ?_, fun c => ?_, ?_, ?_, ?_⟩
  · rw [ht]; exact h.own c k
  · rw [ht]; exact h.sorted c
  · rw [h2]; exact h.lc
  · rw [h3]; exact h.lm
  · intro c hc
    rw [hasTraj_congr h1] at hc
    exact (h.born c hc).imp (h4 c) id

theorem Own.trajBetween {p : Pcm G T N} (h : Own cfg owner C O p) {c : Chr} {a b : Key} (ha : chr a = c) (hb : chr b = c)
    (hC : C a ∧ C b) : M.Ends (fun p' => Own cfg owner C O p' ∧ p'.lcs = p.lcs ∧ p'.landmarks = p.landmarks) (trajBetween cfg c a b p) := by
  unfold RPGO.trajBetween
  have hg : (getBetween cfg.ops (trajOf p c) a b).1 = touch cfg.ops (touch cfg.ops (trajOf p c) a) b := by
    unfold getBetween
    rw [if_pos (ha.trans hb.symm)]
  refine ⟨⟨?_, ?_, h.lc, h.lm, ?_⟩, rfl, rfl⟩
  · intro c' k hk
    rw [trajOf_setTraj, hg] at hk
    split at hk
    · rename_i e
      subst e
      rw [has_touch_iff, has_touch_iff] at hk
      simp only [Bool.or_eq_true, decide_eq_true_eq] at hk
      rcases hk with rfl | rfl | hk
      · exact ⟨hb, Or.inl hC.2⟩
      · exact ⟨ha, Or.inl hC.1⟩
      · exact h.own _ _ hk
    · exact h.own _ _ hk
  · intro c'
    rw [trajOf_setTraj]
    split
    · rename_i e; subst e; exact getBetween_sorted _ _ _ (h.sorted c)
    · exact h.sorted c'
  · intro c' hc'
    rw [hasTraj_setTraj] at hc'
    simp only [Bool.or_eq_true, decide_eq_true_eq] at hc'
    rcases hc' with rfl | hc'
    · exact Or.inr ⟨a, ha, hC.1⟩
    · exact h.born c' hc'

/-- The post-condition of a check. -/
def OwnSame (cfg : Cfg G T N) (owner : Key → Chr) (C O : Key → Prop) (p p' : Pcm G T N) : Prop :=
  Own cfg owner C O p' ∧ p'.lcs = p.lcs ∧ p'.landmarks = p.landmarks

theorem OwnSame.refl {p : Pcm G T N} (h : Own cfg owner C O p) : OwnSame cfg owner C O p p := ⟨h, rfl, rfl⟩

theorem OwnSame.step {p q r : Pcm G T N} (h1 : OwnSame cfg owner C O p q) (h2 : OwnSame cfg owner C O q r) :
    OwnSame cfg owner C O p r := ⟨h2.1, h2.2.1.trans h1.2.1, h2.2.2.trans h1.2.2⟩

theorem OwnSame.bind {α β : Type} {p : Pcm G T N} {m : M (Pcm G T N) α} {f : α → M (Pcm G T N) β}
    (h : M.Ends (OwnSame cfg owner C O p) (m p))
    (hf : ∀ q a, Own cfg owner C O q → q.lcs = p.lcs → q.landmarks = p.landmarks → M.Ends (OwnSame cfg owner C O q) (f a q)) :
    M.Ends (OwnSame cfg owner C O p) (M.bind m f p) :=
  ends_bind h (fun _ h => h) fun q a _ hq => M.Ends.mono (fun _ hr => hq.step hr) (hf q a hq.1 hq.2.1 hq.2.2)

theorem Own.toT {p : Pcm G T N} (h : Own cfg owner C O p) (b : Btw G N) :
    M.Ends (OwnSame cfg owner C O p) (toT cfg b p) := by
  unfold RPGO.toT
  cases b.noise with
  | none => trivial
  | some n => exact OwnSame.refl h

theorem Own.isOdomConsistent {p : Pcm G T N} (h : Own cfg owner C O p) {b : Btw G N} (hb : chr b.k1 = chr b.k2)
    (hC : C b.k1 ∧ C b.k2) : M.Ends (OwnSame cfg owner C O p) (isOdomConsistent cfg b p) := by
  unfold RPGO.isOdomConsistent
  split
  · exact OwnSame.refl h
  · exact OwnSame.bind (h.trajBetween rfl hb.symm hC) fun q _ hq _ _ =>
      OwnSame.bind (hq.toT b) fun q _ hq _ _ => OwnSame.refl hq

theorem Own.areLoopsConsistent {p : Pcm G T N} (h : Own cfg owner C O p) {x y : Btw G N}
    (hxy : (ObsId.mk (chr x.k1) (chr x.k2)).eqv ⟨chr y.k1, chr y.k2⟩ = true) (hC : C x.k1 ∧ C x.k2) (hC' : C y.k1 ∧ C y.k2) :
    M.Ends (OwnSame cfg owner C O p) (areLoopsConsistent cfg x y p) := by
  rw [ObsId.eqv_iff] at hxy
  simp only at hxy
  unfold RPGO.areLoopsConsistent
  split
  · exact OwnSame.refl h
  · refine OwnSame.bind (h.toT x) fun q _ hq _ _ => OwnSame.bind (hq.toT y) fun q _ hq _ _ => ?_
    refine OwnSame.bind (hq.trajBetween rfl ?_ ⟨hC.1, ?_⟩) fun q _ hq _ _ => OwnSame.bind (hq.trajBetween rfl ?_ ⟨hC.2, ?_⟩)
      fun q _ hq _ _ => OwnSame.refl hq
    · split
      · rename_i hne
        rcases hxy with ⟨e1, e2⟩ | ⟨e1, e2⟩
        · exact absurd e1 hne
        · exact e2.symm
      · rename_i he
        exact (Classical.not_not.1 he).symm
    · split <;> [exact hC'.2; exact hC'.1]
    · split
      · rename_i hne
        rcases hxy with ⟨e1, e2⟩ | ⟨e1, e2⟩
        · exact absurd e1 hne
        · exact e1.symm
      · rename_i he
        have he := Classical.not_not.1 he
        rcases hxy with ⟨e1, e2⟩ | ⟨e1, e2⟩
        · exact e2.symm
        · rw [e1, ← he]; exact e2.symm
    · split <;> [exact hC'.1; exact hC'.2]

theorem Own.pairVerdicts {y : Btw G N} (xs : List (Btw G N)) {p : Pcm G T N} (h : Own cfg owner C O p)
    (hxs : ∀ x ∈ xs, (ObsId.mk (chr x.k1) (chr x.k2)).eqv ⟨chr y.k1, chr y.k2⟩ = true)
    (hC : ∀ x ∈ xs, C x.k1 ∧ C x.k2) (hC' : C y.k1 ∧ C y.k2) : M.Ends (OwnSame cfg owner C O p) (pairVerdicts cfg y xs p) := by
  induction xs generalizing p with
  | nil => exact OwnSame.refl h
  | cons x xs ih =>
    unfold RPGO.pairVerdicts
    refine OwnSame.bind (h.areLoopsConsistent (hxs x (by simp)) (hC x (by simp)) hC') fun q _ hq _ _ =>
      OwnSame.bind (ih hq (fun z hz => hxs z (by simp [hz])) (fun z hz => hC z (by simp [hz]))) fun q _ hq _ _ => OwnSame.refl hq

theorem Own.landmarkVerdicts {l : Key} {y : Btw G N} (hy : y.k1 ≠ l → chr y.k1 = owner l ∧ C y.k1) (xs : List (Btw G N))
    {p : Pcm G T N} (h : Own cfg owner C O p) (hxs : ∀ x ∈ xs, x.k1 ≠ l → chr x.k1 = owner l ∧ C x.k1) : M.Ends (OwnSame cfg owner C O p) (landmarkVerdicts cfg l y xs p) := by
  induction xs generalizing p with
  | nil => exact OwnSame.refl h
  | cons x xs ih =>
    unfold RPGO.landmarkVerdicts
    split
    · exact OwnSame.refl h
    · rename_i hn
      simp only [not_or] at hn
      refine OwnSame.bind (h.toT x) fun q _ hq _ _ => OwnSame.bind (hq.toT y) fun q _ hq _ _ => ?_
      refine OwnSame.bind (hq.trajBetween rfl ?_ ⟨(hxs x (by simp) hn.1).2, (hy hn.2).2⟩) fun q _ hq _ _ =>
        OwnSame.bind (ih hq fun z hz => hxs z (by simp [hz])) fun q _ hq _ _ => OwnSame.refl hq
      rw [(hy hn.2).1, (hxs x (by simp) hn.1).1]

/-- Entries of a pair may be replaced by entries of the same pair. -/
theorem Own.updLc {p : Pcm G T N} (h : Own cfg owner C O p) {id : ObsId} {f : Meas G N → Meas G N}
    (hf : ∀ m : Meas G N, (∀ x ∈ m.factors, (ObsId.mk (chr x.k1) (chr x.k2)).eqv id = true ∧ C x.k1 ∧ C x.k2) →
      ∀ x ∈ (f m).factors, (ObsId.mk (chr x.k1) (chr x.k2)).eqv id = true ∧ C x.k1 ∧ C x.k2) :
    Own cfg owner C O (updLc p id f) := by
  have key : ∀ e ∈ (RPGO.updLc p id f).lcs, ∀ x ∈ e.2.factors,
      (ObsId.mk (chr x.k1) (chr x.k2)).eqv e.1 = true ∧ C x.k1 ∧ C x.k2 := by
    intro e he x hx
    rcases AList.mem_upd he with he | ⟨rfl, _⟩ | ⟨m, _, hk, he2, hm⟩
    · exact h.lc e he x hx
    · exact hf Meas.empty (by simp [Meas.empty]) x hx
    · rw [he2] at hx
      have := hf m (fun z hz => ⟨ObsId.isEqv.trans _ _ _ (h.lc _ hm z hz).1 hk, (h.lc _ hm z hz).2⟩) x hx
      exact ⟨ObsId.isEqv.trans _ _ _ this.1 (ObsId.isEqv.symm _ _ hk), this.2⟩
  exact ⟨h.own, h.sorted, key, h.lm, h.born⟩

theorem Own.updLm {p : Pcm G T N} (h : Own cfg owner C O p) {l : Key} {f : Meas G N → Meas G N}
    (hf : ∀ m : Meas G N, (∀ x ∈ m.factors, (x.k1 ≠ l → chr x.k1 = owner l ∧ C x.k1)) →
      ∀ x ∈ (f m).factors, (x.k1 ≠ l → chr x.k1 = owner l ∧ C x.k1)) : Own cfg owner C O (updLm p l f) := by
  have key : ∀ e ∈ (RPGO.updLm p l f).landmarks, ∀ x ∈ e.2.factors,
      (x.k1 ≠ e.1 → chr x.k1 = owner e.1 ∧ C x.k1) := by
    intro e he x hx
    rcases AList.mem_upd he with he | ⟨rfl, _⟩ | ⟨m, _, hk, he2, hm⟩
    · exact h.lm e he x hx
    · exact hf Meas.empty (by simp [Meas.empty]) x hx
    · have hk : e.1 = l := by simpa using hk
      rw [he2] at hx
      rw [hk]
      refine hf m (fun z hz => ?_) x hx
      have := h.lm _ hm z hz
      rw [hk] at this
      exact this
  exact ⟨h.own, h.sorted, h.lc, key, h.born⟩

theorem Own.lcOf {p : Pcm G T N} (h : Own cfg owner C O p) (id : ObsId) :
    ∀ x ∈ (lcOf p id).factors, (ObsId.mk (chr x.k1) (chr x.k2)).eqv id = true ∧ C x.k1 ∧ C x.k2 := by
  intro x hx
  unfold RPGO.lcOf at hx
  cases e : AList.get? ObsId.eqv p.lcs id with
  | none => rw [e] at hx; simp [Meas.empty] at hx
  | some m =>
    rw [e] at hx
    obtain ⟨k, hk, hm⟩ := AList.get?_mem e
    exact ⟨ObsId.isEqv.trans _ _ _ (h.lc _ hm x hx).1 hk, (h.lc _ hm x hx).2⟩

theorem Own.lmOf {p : Pcm G T N} (h : Own cfg owner C O p) (l : Key) :
    ∀ x ∈ (lmOf p l).factors, (x.k1 ≠ l → chr x.k1 = owner l ∧ C x.k1) := by
  intro x hx
  unfold RPGO.lmOf at hx
  cases e : AList.get? (· == ·) p.landmarks l with
  | none => rw [e] at hx; simp [Meas.empty] at hx
  | some m =>
    rw [e] at hx
    obtain ⟨k, hk, hm⟩ := AList.get?_mem e
    have hk : k = l := by simpa using hk
    have := h.lm _ hm x hx
    rw [hk] at this
    exact this

/-- Only the invariant, for calls that change the entries. -/
theorem Own.bind {α β : Type} {p : Pcm G T N} {m : M (Pcm G T N) α} {f : α → M (Pcm G T N) β}
    (h : M.Ends (Own cfg owner C O) (m p)) (hf : ∀ q a, Own cfg owner C O q → M.Ends (Own cfg owner C O) (f a q)) :
    M.Ends (Own cfg owner C O) (M.bind m f p) :=
  ends_bind h (fun _ h => h) fun q a _ hq => hf q a hq

theorem Own.registerLc {p : Pcm G T N} (h : Own cfg owner C O p) (b : Btw G N) (hC : C b.k1 ∧ C b.k2) :
    M.Ends (Own cfg owner C O) (registerLc cfg b p) := by
  unfold RPGO.registerLc
  have h1 : Own cfg owner C O
      { RPGO.updLc p ⟨chr b.k1, chr b.k2⟩ (fun m => { m with factors := m.factors ++ [b] }) with
        inOrder := p.inOrder ++ [⟨chr b.k1, chr b.k2⟩]
        totalLc := p.totalLc + 1 } := by
    refine Own.congr (h.updLc (id := ⟨chr b.k1, chr b.k2⟩) (f := fun m => { m with factors := m.factors ++ [b] }) ?_) rfl rfl rfl fun _ h => h
    intro m hm x hx
    rcases List.mem_append.1 hx with hx | hx
    · exact hm x hx
    · rw [List.mem_singleton.1 hx]; exact ⟨ObsId.isEqv.refl _, hC⟩
  refine Own.bind (show M.Ends (Own cfg owner C O) (.ok _ ()) from h1) fun q _ hq => ?_
  unfold M.when
  split
  · unfold incrementAdj
    simp only [M.bind_eq]
    rw [M.bind_ok (M.get_apply _)]
    split
    · exact hq.updLc fun m hm => hm
    · split
      · trivial
      · refine ends_bind (hq.pairVerdicts _ (fun x hx => (hq.lcOf _ x (List.mem_of_mem_take hx)).1)
          (fun x hx => (hq.lcOf _ x (List.mem_of_mem_take hx)).2) hC) (fun _ h => h.1)
          fun q' _ _ hq' => hq'.1.updLc fun m hm => hm
  · exact hq

theorem Own.registerLm {p : Pcm G T N} (h : Own cfg owner C O p) {b : Btw G N}
    (hb : b.k1 ≠ landmarkKey cfg b → chr b.k1 = owner (landmarkKey cfg b) ∧ C b.k1) :
    M.Ends (Own cfg owner C O) (registerLm cfg b p) := by
  unfold RPGO.registerLm
  generalize landmarkKey cfg b = l at *
  have h1 : Own cfg owner C O
      { RPGO.updLm p l (fun m => { m with factors := m.factors ++ [b] }) with totalLc := p.totalLc + 1 } := by
    refine Own.congr (h.updLm (l := l) (f := fun m => { m with factors := m.factors ++ [b] }) ?_) rfl rfl rfl fun _ h => h
    intro m hm x hx
    rcases List.mem_append.1 hx with hx | hx
    · exact hm x hx
    · rw [List.mem_singleton.1 hx]; exact hb
  refine Own.bind (show M.Ends (Own cfg owner C O) (.ok _ ()) from h1) fun q _ hq => ?_
  unfold incrementLandmarkAdj
  simp only [M.bind_eq]
  rw [M.bind_ok (M.get_apply _)]
  cases e : (RPGO.lmOf q l).factors.getLast? with
  | none => exact hq.updLm fun m hm => hm
  | some y =>
    simp only
    have hy := hq.lmOf l y (List.mem_of_getLast? e)
    split
    · exact hq.updLm fun m hm => hm
    · split
      · trivial
      · refine ends_bind (hq.landmarkVerdicts hy _ fun x hx => hq.lmOf l x (List.mem_of_mem_take hx)) (fun _ h => h.1)
          fun q' a _ hq' => ?_
        cases a with
        | none => exact hq'.1
        | some vs => exact hq'.1.updLm fun m hm => hm

/-- What is required of the closures and landmark observations of a batch; `D` are the keys that have a value. -/
def Observed (cfg : Cfg G T N) (owner : Key → Chr) (C D : Key → Prop) (b : Btw G N) : Prop :=
  (Spec.isLandmark cfg b = false → D b.k1 → D b.k2 → C b.k1 ∧ C b.k2) ∧
  (chr b.k2 ∈ cfg.special → chr b.k1 ∉ cfg.special → chr b.k1 = owner b.k2 ∧ C b.k1)

theorem Observed.key {D : Key → Prop} {b : Btw G N} (h : Observed cfg owner C D b) (hl : cfg.isSpecial (chr b.k1) || cfg.isSpecial (chr b.k2)) :
    b.k1 ≠ landmarkKey cfg b → chr b.k1 = owner (landmarkKey cfg b) ∧ C b.k1 := by
  unfold landmarkKey
  split
  · intro hn; exact absurd rfl hn
  · rename_i hs
    intro _
    refine h.2 ?_ ?_
    · simp only [Bool.or_eq_true] at hl
      rcases hl with hl | hl
      · exact absurd hl hs
      · simpa [Cfg.isSpecial] using hl
    · simpa [Cfg.isSpecial] using hs

theorem Own.parseLoops {vals : Vals G} (bs : List (Btw G N)) (num : List (ObsId × Nat)) {p : Pcm G T N}
    (h : Own cfg owner C O p) (hbs : ∀ b ∈ bs, Observed cfg owner C (fun k => vals.has k = true) b) :
    M.Ends (Own cfg owner C O) (parseLoops cfg vals bs num p) := by
  induction bs generalizing num p with
  | nil => exact h
  | cons b bs ih =>
    have ih := fun num {p : Pcm G T N} h => ih (p := p) num h fun b hb => hbs b (by simp [hb])
    unfold RPGO.parseLoops
    split
    · exact ih _ h
    · rename_i hv
      split
      · rename_i hl
        exact Own.bind (h.registerLm ((hbs b (by simp)).key hl)) fun q _ hq => ih _ hq
      · rename_i hl
        have hCb : C b.k1 ∧ C b.k2 := by
          simp only [Bool.or_eq_true, Bool.not_eq_true', not_or, Bool.not_eq_false] at hv
          refine (hbs b (by simp)).1 ?_ hv.1 hv.2
          simpa [Spec.isLandmark, Cfg.isSpecial] using hl
        refine Own.bind ?_ fun q a hq => ?_
        · unfold M.cond
          split
          · rename_i he
            exact M.Ends.mono (fun _ h => h.1) (h.isOdomConsistent (by simpa using he) hCb)
          · exact h
        · split
          · exact Own.bind (hq.registerLc b hCb) fun q _ hq => ih _ hq
          · exact ih _ hq

theorem Table.mem {κ : Type} {R : Meas G N → Meas G N → Prop} {l l' : List (κ × Meas G N)} (h : Table R l l')
    {e' : κ × Meas G N} (he : e' ∈ l') : ∃ e ∈ l, e'.1 = e.1 ∧ R e.2 e'.2 := by
  unfold Table at h
  induction h with
  | nil => cases he
  | @cons a b l l' hab _ ih =>
    rcases List.mem_cons.1 he with rfl | he
    · exact ⟨a, by simp, hab⟩
    · obtain ⟨e, h1, h2⟩ := ih he
      exact ⟨e, by simp [h1], h2⟩

theorem Own.sel [Mul G] [Inv G] [One G] {p q : Pcm G T N} (h : Own cfg owner C O p) (hs : SelPcm p q) : Own cfg owner C O q := by
  have ht : ∀ c, trajOf q c = trajOf p c := fun c => by rw [hs.eq]; rfl
  refine ⟨fun c k => by rw [ht]; exact h.own c k, fun c => by rw [ht]; exact h.sorted c, ?_, ?_, ?_⟩
  · intro e he x hx
    obtain ⟨e', he', h1, h2⟩ := Table.mem hs.lcs he
    rw [h1]
    rw [h2.factors] at hx
    exact h.lc e' he' x hx
  · intro e he x hx
    obtain ⟨e', he', h1, h2⟩ := Table.mem hs.landmarks he
    rw [h1]
    rw [h2.factors] at hx
    exact h.lm e' he' x hx
  · intro c hc
    rw [hasTraj_congr hs.trajs] at hc
    rw [hs.robotOrder]
    exact h.born c hc

theorem Own.processCands [Mul G] [Inv G] [One G] {vals : Vals G} {bs : List (Btw G N)} {p : Pcm G T N} (h : Own cfg owner C O p)
    (hbs : ∀ b ∈ bs, Observed cfg owner C (fun k => vals.has k = true) b) : M.Ends (Own cfg owner C O) (processCands cfg vals bs p) := by
  unfold RPGO.processCands
  simp only [M.bind_eq]
  have hp := h.parseLoops (vals := vals) bs [] hbs
  rcases parseLoops_outcome cfg vals bs [] p with ⟨u, e⟩ | ⟨p1, e, t⟩
  · rw [M.bind_apply, e]; trivial
  · rw [M.bind_ok e]
    rw [e] at hp
    unfold M.cond
    split
    · exact M.Ends.mono (fun p' h => Own.sel hp h.1) (findInliersIncremental_ends _ p1 (bumps_registered t))
    · exact M.Ends.mono (fun p' h => Own.sel hp h.1) (findInliers_ends cfg p1)

theorem Own.odomRun {vals : Vals G} {bs : List (Btw G N)} {p p' : Pcm G T N} (r : OdomRun cfg vals bs p p')
    (hbs : ∀ b ∈ bs, chr b.k1 = chr b.k2 ∧ O b.k1 ∧ O b.k2)
    (h1 : ∀ c k, (trajOf p c).has k = true → chr k = c ∧ (C k ∨ O k))
    (h2 : ∀ c, (trajOf p c).Sorted) (h3 : ∀ c, hasTraj p c = true → c ∈ p.robotOrder ∨ ∃ k, chr k = c ∧ C k) :
    (∀ c k, (trajOf p' c).has k = true → chr k = c ∧ (C k ∨ O k)) ∧ (∀ c, (trajOf p' c).Sorted) ∧
      ∀ c, hasTraj p' c = true → c ∈ p'.robotOrder ∨ ∃ k, chr k = c ∧ C k := by
  have tr : ∀ {p q : Pcm G T N}, q.trajs = p.trajs → ∀ c, trajOf q c = trajOf p c := fun e c => by unfold trajOf; rw [e]
  induction r with
  | nil => exact ⟨h1, h2, h3⟩
  | cons st ht hord _ ih =>
    refine ih (fun b hb => hbs b (by simp [hb])) ?_ ?_ ?_
    · intro c k hk
      rw [tr ht, st.keys] at hk
      simp only [Bool.or_eq_true, decide_eq_true_eq] at hk
      rcases hk with ⟨rfl, rfl | rfl⟩ | hk
      · exact ⟨(hbs _ (by simp)).1, Or.inr (hbs _ (by simp)).2.1⟩
      · exact ⟨rfl, Or.inr (hbs _ (by simp)).2.2⟩
      · exact h1 c k hk
    · intro c
      rw [tr ht]
      exact st.sorted c (h2 c)
    · intro c hc
      rw [hasTraj_congr ht, st.has] at hc
      simp only [Bool.or_eq_true, decide_eq_true_eq] at hc
      rw [hord]
      rcases st.step with ⟨e1, e2, _⟩ | ⟨e1, e2, _⟩
      · rw [e2]
        rcases hc with rfl | hc
        · exact h3 _ e1
        · exact h3 _ hc
      · rw [e2]
        rcases hc with rfl | hc
        · simp
        · exact (h3 _ hc).imp (fun h => by simp [h]) id
  | other ht hord _ ih =>
    refine ih hbs (fun c k hk => h1 c k (by rw [tr ht] at hk; exact hk)) (fun c => by rw [tr ht]; exact h2 c) ?_
    intro c hc
    rw [hasTraj_congr ht] at hc
    rw [hord]
    exact h3 c hc

theorem Own.sortedBatch {nv vals : Vals G} {fs : Graph G N} {p p' : Pcm G T N} {D : Key → Prop} (h : Own cfg owner C O p)
    (hS : RPGO.Sorted cfg nv vals fs p p') (h1 : ∀ b ∈ Spec.odoms cfg nv fs, chr b.k1 = chr b.k2 ∧ O b.k1 ∧ O b.k2)
    (h2 : ∀ b ∈ Spec.btws fs, Spec.isOdom cfg nv b = false → Observed cfg owner C D b) : Own cfg owner C O p' := by
  obtain ⟨a, b, c⟩ := Own.odomRun hS.run h1 h.own h.sorted h.born
  have key : ∀ e ∈ p'.landmarks, ∀ x ∈ e.2.factors, (x.k1 ≠ e.1 → chr x.k1 = owner e.1 ∧ C x.k1) := by
    rw [hS.landmarks]
    have hf : ∀ b ∈ Spec.firsts cfg nv fs,
        b.k1 ≠ landmarkKey cfg b → chr b.k1 = owner (landmarkKey cfg b) ∧ C b.k1 := by
      intro b hb
      obtain ⟨hb1, hb2⟩ := List.mem_filter.1 hb
      have hno : Spec.isOdom cfg nv b = false := by
        cases hh : Spec.isOdom cfg nv b
        · rfl
        · rw [isOdom_not_first hh] at hb2; cases hb2
      refine (h2 b hb1 hno).key ?_
      unfold Spec.isFirstObs at hb2
      simp only [Bool.and_eq_true] at hb2
      have := hb2.1
      simpa [Spec.isLandmark, Cfg.isSpecial] using this
    have hlm : ∀ e ∈ p.landmarks, ∀ x ∈ e.2.factors, (x.k1 ≠ e.1 → chr x.k1 = owner e.1 ∧ C x.k1) :=
      h.lm
    generalize p.landmarks = l at hlm
    generalize Spec.firsts cfg nv fs = bs at hf
    induction bs generalizing l with
    | nil => exact hlm
    | cons b bs ih =>
      refine ih (fileFirst cfg l b) ?_ (fun x hx => hf x (by simp [hx]))
      intro e he x hx
      rcases AList.mem_upd he with he | ⟨rfl, _⟩ | ⟨m, _, hk, he2, hm⟩
      · exact hlm e he x hx
      · simp only [List.mem_singleton] at hx
        subst hx
        exact hf x (by simp)
      · have hk : e.1 = landmarkKey cfg b := by simpa using hk
        rw [he2] at hx
        simp only [List.mem_singleton] at hx
        subst hx
        rw [hk]
        exact hf x (by simp)
  exact ⟨a, b, by rw [hS.lcs]; exact h.lc, key, c⟩

theorem Own.eff [Mul G] [Inv G] [One G] {op : Op G N} {p p' : Pcm G T N} (h : Own cfg owner C O p) (e : PcmEff cfg op p p') : Own cfg owner C O p' := by
  have rem : ∀ (p : Pcm G T N) id m m', Own cfg owner C O p → AList.get? ObsId.eqv p.lcs id = some m → RemMeas m m' →
      Own cfg owner C O (RPGO.updLc p id fun _ => m') := by
    intro p id m m' h hm hr
    have hx := h.lcOf id
    rw [lcOf_of_get? hm] at hx
    refine h.updLc fun _ _ x hx' => hx x ?_
    cases hr with
    | same => exact hx'
    | few hf _ => rw [hf]; simp only at hx'; simp [hx']
    | many hf _ _ _ _ => rw [hf]; simp only at hx'; simp [hx']
  cases e with
  | same => exact h
  | priors => exact h.congr rfl rfl rfl fun _ h => h
  | ignore => split <;> [exact h; exact h.congr rfl rfl rfl fun _ h => h]
  | revive => exact h.congr rfl rfl rfl fun _ h => h
  | pair hm hr => exact rem _ _ _ _ h hm hr
  | pop _ => exact h.congr rfl rfl rfl fun _ h => h
  | last _ hm hr => exact rem _ _ _ _ (h.congr rfl rfl rfl fun _ h => h) hm hr

/-- The keys of the trajectories, over all histories. -/
theorem Reach.own [Mul G] [Inv G] [One G] {env : Env G N} (hr : cfg.rejection = true) {h : List (Op G N)} {s : St G T N}
    (r : Reach cfg env h s) (hsep : Spec.Separate cfg owner h)
    (hO : ∀ op ∈ h, ∀ b ∈ Spec.opOdom cfg op, O b.k1 ∧ O b.k2)
    (hL : ∀ op ∈ h, ∀ b ∈ Spec.opBtws op, b ∉ Spec.opOdom cfg op → chr b.k2 ∈ cfg.special → chr b.k1 ∉ cfg.special → C b.k1)
    (hC : ∀ op ∈ h, ∀ b ∈ Spec.opBtws op, b ∉ Spec.opOdom cfg op → Spec.isLandmark cfg b = false →
      (∃ o ∈ h, b.k1 ∈ Spec.opKeys o) → (∃ o ∈ h, b.k2 ∈ Spec.opKeys o) → C b.k1 ∧ C b.k2) : Own cfg owner C O s.pcm := by
  have step : ∀ (s : St G T N) (op : Op G N) (D : Key → Prop), Own cfg owner C O s.pcm →
      (∀ b ∈ Spec.opOdom cfg op, chr b.k1 = chr b.k2 ∧ O b.k1 ∧ O b.k2) →
      (∀ k, s.values.has k = true ∨ k ∈ Spec.opKeys op → D k) →
      (∀ b ∈ Spec.opBtws op, b ∉ Spec.opOdom cfg op → Observed cfg owner C D b) → M.Ends (fun s' => Own cfg owner C O s'.pcm) (exec cfg env op s) := by
    intro s op D ih ho hD hl
    cases hb : Spec.batch op with
    | none => exact M.Ends.mono (fun s' h => ih.eff h.pcm) (exec_other cfg env hr op hb s)
    | some y =>
      obtain ⟨fs, vs⟩ := y
      have ho : ∀ b ∈ Spec.odoms cfg vs fs, chr b.k1 = chr b.k2 ∧ O b.k1 ∧ O b.k2 := by
        intro b hb'; exact ho b (by simp [Spec.opOdom, hb, hb'])
      have hl : ∀ b ∈ Spec.btws fs, Spec.isOdom cfg vs b = false → Observed cfg owner C D b := by
        intro b hb' hno
        refine hl b (by simp [Spec.opBtws, hb, hb']) ?_
        simp [Spec.opOdom, hb, Spec.odoms, hno]
      have hlc : ∀ v1, insertVals vs s.values = .ok v1 () →
          ∀ b ∈ Spec.cands cfg vs fs, Observed cfg owner C (fun k => v1.has k = true) b := fun v1 hi b hb' => by
        obtain ⟨h1, h2⟩ := List.mem_filter.1 hb'
        have hno : Spec.isOdom cfg vs b = false := by
          unfold Spec.isCand at h2
          simp only [Bool.and_eq_true, Bool.not_eq_true'] at h2
          simp_all
        have hv : ∀ k, v1.has k = true → D k := by
          intro k hk
          refine hD k ?_
          by_cases hs : s.values.has k = true
          · exact Or.inl hs
          · right
            have e := (insertVals_ok hi).1 k
            rw [if_neg hs] at e
            unfold KMap.has at hk
            rw [e] at hk
            have hk := (KMap.mem_keys_iff vs k).2 hk
            cases op <;> cases hb <;> exact hk
        exact ⟨fun hn a b' => (hl b h1 hno).1 hn (hv _ a) (hv _ b'), (hl b h1 hno).2⟩
      have hdone : ∀ s', BatchDone cfg env fs vs s s' → Own cfg owner C O s'.pcm := by
        intro s' hd
        cases hd with
        | empty _ _ hf => rw [hf.pcm]; exact ih
        | full hne hi hS h1 h2 ha hf =>
          rename_i v1 p1 p2 s1
          have hp : s'.pcm = { p2 with robotOrder := s1.pcm.robotOrder } := by rw [hf.pcm, ha.eq]
          rw [hp]
          have hown := ih.sortedBatch hS ho hl
          by_cases hc : Spec.cands cfg vs fs = []
          · rw [h1 hc]; exact hown.congr rfl rfl rfl fun c hc' => ha.order.symm.subset (by rw [h1 hc]; exact hc')
          · have := hown.processCands (vals := v1) (hlc v1 hi)
            rw [h2 hc] at this
            exact Own.congr this rfl rfl rfl fun c hc' => ha.order.symm.subset hc'
      have hfail : ∀ s', BatchFail cfg fs vs s s' → Own cfg owner C O s'.pcm := by
        intro s' hd
        cases hd with
        | dup _ => exact ih
        | sort hi e _ hS _ _ =>
          rename_i v1 fs1 b fs2 p1
          refine (ih.sortedBatch hS (fun x hx => ho x ?_) fun x hx => hl x ?_).congr rfl rfl rfl fun _ h => h
          · rw [e]
            unfold Spec.odoms Spec.btws at hx ⊢
            rw [List.filterMap_append, List.filter_append]
            exact List.mem_append_left _ hx
          · rw [e]
            unfold Spec.btws at hx ⊢
            rw [List.filterMap_append]
            exact List.mem_append_left _ hx
        | cands hi hS hc hp =>
          rename_i v1 p1 p2 x
          have := (ih.sortedBatch hS ho hl).processCands (vals := v1) (hlc v1 hi)
          rw [hp] at this
          exact this
      obtain ⟨h1, h2⟩ := exec_batch env hr hb s
      cases he : exec cfg env op s with
      | ub u => trivial
      | ok s' x => exact hdone _ (h1 _ _ he)
      | throw s' x => exact (h2 _ _ he).elim (hfail _) (hdone _)
  have all : ∀ (h' : List (Op G N)) (s : St G T N), Reach cfg env h' s → (∀ o ∈ h', o ∈ h) → Own cfg owner C O s.pcm := by
    intro h' s r
    have key : ∀ {h' : List (Op G N)} {s : St G T N} {op : Op G N}, Reach cfg env h' s → (∀ o ∈ h' ++ [op], o ∈ h) →
        Own cfg owner C O s.pcm → M.Ends (fun s' => Own cfg owner C O s'.pcm) (exec cfg env op s) := by
      intro h' s op r hsub ih
      have hop := hsub op (by simp)
      refine step s op (fun k => ∃ o ∈ h, k ∈ Spec.opKeys o) ih (fun b hb => ⟨hsep.odom op hop b hb, hO op hop b hb⟩) ?_
        fun b hb hn => ⟨hC op hop b hb hn, fun h1 h2 => ⟨hsep.landmark op hop b hb h1 h2, hL op hop b hb hn h1 h2⟩⟩
      rintro k (hk | hk)
      · obtain ⟨o, ho, hk⟩ := (reach_values r).2 k hk
        exact ⟨o, hsub o (by simp [ho]), hk⟩
      · exact ⟨op, hop, hk⟩
    induction r with
    | init =>
      intro _
      exact ⟨fun c k hk => by simp [trajOf, St.init, AList.get?, KMap.has] at hk, fun c => List.Pairwise.nil,
        fun e he => by simp [St.init] at he, fun e he => by simp [St.init] at he,
        fun c hc => by simp [hasTraj, St.init, AList.get?] at hc⟩
    | @ok h' s op s' x r e ih =>
      intro hsub
      have := key r hsub (ih fun o ho => hsub o (by simp [ho]))
      rw [e] at this
      exact this
    | @throw h' s op s' x r e ih =>
      intro hsub
      have := key r hsub (ih fun o ho => hsub o (by simp [ho]))
      rw [e] at this
      exact this
  exact all h s r fun _ h => h

/-- The same with nothing asked of the keys of odometry factors. -/
theorem Reach.own_all [Mul G] [Inv G] [One G] {env : Env G N} (hr : cfg.rejection = true) {h : List (Op G N)} {s : St G T N}
    (r : Reach cfg env h s) (hsep : Spec.Separate cfg owner h)
    (hC : ∀ op ∈ h, ∀ b ∈ Spec.opBtws op, b ∉ Spec.opOdom cfg op → C b.k1 ∧ C b.k2) :
    Own cfg owner C (fun _ => True) s.pcm :=
  r.own hr hsep (fun _ _ _ _ => ⟨trivial, trivial⟩) (fun op hop b hb hn _ _ => (hC op hop b hb hn).1)
    fun op hop b hb hn _ _ _ => hC op hop b hb hn

/-! ### Which keys the trajectories do contain -/

/-- Both ends of every odometry factor are in the trajectory of its robot. -/
def Tracked (p : Pcm G T N) : Prop :=
  ∀ b ∈ p.odom, (trajOf p (chr b.k2)).has b.k1 = true ∧ (trajOf p (chr b.k2)).has b.k2 = true

theorem OdomRun.tracked {vals : Vals G} {bs : List (Btw G N)} {p p' : Pcm G T N} (r : OdomRun cfg vals bs p p') :
    (∀ c k, (trajOf p c).has k = true → (trajOf p' c).has k = true) ∧
    ∀ b ∈ bs, (trajOf p' (chr b.k2)).has b.k1 = true ∧ (trajOf p' (chr b.k2)).has b.k2 = true := by
  have tr : ∀ {p q : Pcm G T N}, q.trajs = p.trajs → ∀ c, trajOf q c = trajOf p c := fun e c => by unfold trajOf; rw [e]
  induction r with
  | nil => exact ⟨fun _ _ h => h, by simp⟩
  | cons st ht _ _ ih =>
    refine ⟨fun c k hk => ih.1 c k (by rw [tr ht, st.keys, hk]; simp), ?_⟩
    intro x hx
    rcases List.mem_cons.1 hx with rfl | hx
    · exact ⟨ih.1 _ _ (by rw [tr ht, st.keys]; simp), ih.1 _ _ (by rw [tr ht, st.keys]; simp)⟩
    · exact ih.2 x hx
  | other ht _ _ ih => exact ⟨fun c k hk => ih.1 c k (by rw [tr ht]; exact hk), ih.2⟩

/-- After normal returns every odometry key is in the trajectory of its robot. -/
theorem ReachOk.tracked [Mul G] [Inv G] [One G] {env : Env G N} (hr : cfg.rejection = true) {h : List (Op G N)} {s : St G T N}
    (r : ReachOk cfg env h s) : Tracked s.pcm := by
  refine ReachOk.induct (Inv := fun _ p => Tracked p) hr (by intro b hb; simp at hb) ?_ r
  intro h s op s' x _ _ ih st
  generalize s'.pcm = q at st
  cases st with
  | other hb he =>
    have h1 : q.odom = s.pcm.odom ∧ q.trajs = s.pcm.trajs := by
      cases he with
      | ignore => constructor <;> split <;> rfl
      | _ => exact ⟨rfl, rfl⟩
    intro b hb
    rw [h1.1] at hb
    have := ih b hb
    unfold trajOf at this ⊢
    rw [h1.2]
    exact this
  | none _ => exact ih
  | cands hb hne hi hS ht hsel hro =>
    rename_i fs vs v1 p1 q p2 ro
    obtain ⟨k1, k2⟩ := hS.run.tracked
    have hk : ∀ c k, (trajOf p1 c).has k = true → (trajOf ({ p2 with robotOrder := ro } : Pcm G T N) c).has k = true := by
      intro c k h
      have h0 := (parseFold_frame cfg v1 (lk cfg p1) (Spec.cands cfg vs fs) p1).2.2.2.1
      have h3 := ht.keep c k (by unfold trajOf at h ⊢; rw [h0]; exact h)
      unfold trajOf at h3 ⊢
      rw [hsel.eq]
      exact h3
    intro b hb'
    have ho : ({ p2 with robotOrder := ro } : Pcm G T N).odom = p1.odom := (processed_frame ht hsel).1
    rw [ho, hS.odom] at hb'
    rcases List.mem_append.1 hb' with hb' | hb'
    · exact ⟨hk _ _ (k1 _ _ (ih b hb').1), hk _ _ (k1 _ _ (ih b hb').2)⟩
    · exact ⟨hk _ _ (k2 b hb').1, hk _ _ (k2 b hb').2⟩

/-! ### Where a robot starts -/

namespace Spec

/-- Robot `c` started at pose `g` of key `k0`: when its first odometry factor was handed over, `g` was the estimate
of `k0`, stored already or supplied by that very call. -/
def StartPose [Mul G] [Inv G] [One G] (cfg : Cfg G T N) (env : Env G N) (c : Chr) (k0 : Key) (h : List (Op G N)) (g : G) : Prop :=
  ∃ h1 op h2 s1 fs vs, h = h1 ++ op :: h2 ∧ ReachOk cfg env h1 s1 ∧ batch op = some (fs, vs) ∧
    robotOdom cfg c h1 = [] ∧ robotOdom cfg c (h1 ++ [op]) ≠ [] ∧
    (s1.values.find? k0 = some (.pose g) ∨ vs.find? k0 = some (.pose g))

end Spec

theorem key_succ_ne (k : Key) : k ≠ k + 1 := by
  intro h
  have h := congrArg BitVec.toNat h
  have := k.isLt
  rw [BitVec.toNat_add, show (1 : Key).toNat = 1 from rfl] at h
  by_cases hk : k.toNat + 1 = 2 ^ 64
  · rw [hk, Nat.mod_self] at h; omega
  · rw [Nat.mod_eq_of_lt (by omega)] at h; omega

theorem OdomRun.start {vals : Vals G} {bs : List (Btw G N)} {p p' : Pcm G T N} (r : OdomRun cfg vals bs p p')
    (c : Chr) (k0 : Key) (L : List (Btw G N)) (hL : L ≠ [] → hasTraj p c = true)
    (ch : Spec.Chain k0 (L ++ bs.filter fun b => chr b.k2 == c))
    (hl : k0.toNat + (L ++ bs.filter fun b => chr b.k2 == c).length < 2 ^ 64) (hro : ∀ c ∈ p.robotOrder, hasTraj p c = true) :
    (hasTraj p c = true → lk cfg p' c k0 = lk cfg p c k0 ∧ (c ∈ p'.robotOrder → c ∈ p.robotOrder)) ∧
    (c ∈ p'.robotOrder → c ∉ p.robotOrder → L = [] ∧ (bs.filter fun b => chr b.k2 == c) ≠ [] ∧
      ∃ g, vals.find? k0 = some (.pose g) ∧ lk cfg p' c k0 = cfg.ops.ofPose g) := by
  induction r generalizing L with
  | nil => exact ⟨fun _ => ⟨rfl, id⟩, fun h1 h2 => absurd h1 h2⟩
  | @cons b n p p1 p1' p2 bs st ht hord _ ih =>
    have hro1 : ∀ d ∈ p1'.robotOrder, hasTraj p1' d = true := by
      intro d hd
      rw [hasTraj_congr ht, st.has]
      rw [hord] at hd
      rcases st.step with ⟨_, e, _⟩ | ⟨_, e, _⟩
      · rw [e] at hd; simp [hro d hd]
      · rw [e] at hd
        rcases List.mem_append.1 hd with hd | hd
        · simp [hro d hd]
        · simp [List.mem_singleton.1 hd]
    by_cases hc : chr b.k2 = c
    · have e : (b :: bs).filter (fun b => chr b.k2 == c) = [b] ++ bs.filter fun b => chr b.k2 == c := by
        rw [List.filter_cons, if_pos (by simpa using hc)]; rfl
      rw [e, ← List.append_assoc] at ch hl
      obtain ⟨hk1, hk2⟩ := Chain.get (Chain.prefix ch) L.length (b := b) (by simp)
      have hne : k0 ≠ b.k2 := by
        intro e
        have e : Spec.after k0 0 = Spec.after k0 (L.length + 1) := by
          rw [← hk2, ← e]; simp [Spec.after]
        simp only [List.length_append, List.length_singleton] at hl
        have := after_inj (by omega) (by omega) e
        omega
      have hp1 : hasTraj p1' c = true := by rw [hasTraj_congr ht, st.has]; simp [hc]
      obtain ⟨i1, i2⟩ := ih (L ++ [b]) (fun _ => hp1) ch hl hro1
      obtain ⟨i3, i4⟩ := i1 hp1
      rw [hord] at i4
      rw [lk_congr ht] at i3
      constructor
      · intro hp
        rcases st.step with ⟨_, e1, e2⟩ | ⟨e1, _⟩
        · rw [i3, e2]
          refine ⟨?_, fun h => by rw [← e1]; exact i4 h⟩
          simp [odomLk, hne]
        · rw [hc, hp] at e1; cases e1
      · intro h1 h2
        have h3 := i4 h1
        rcases st.step with ⟨_, e1, _⟩ | ⟨e1, e2, g, hg, e3⟩
        · rw [e1] at h3; exact absurd h3 h2
        · rw [hc] at e1
          have hL0 : L = [] := Classical.byContradiction fun h => by rw [hL h] at e1; cases e1
          subst hL0
          have hk1 : b.k1 = k0 := by rw [hk1]; simp [Spec.after]
          refine ⟨rfl, by rw [e]; simp, g, by rw [← hk1]; exact hg, ?_⟩
          rw [i3, e3]
          simp [odomLk, hne, hc, hk1]
    · have e : (b :: bs).filter (fun b => chr b.k2 == c) = bs.filter fun b => chr b.k2 == c := by
        rw [List.filter_cons, if_neg (by simpa using hc)]
      rw [e] at ch hl ⊢
      have hh : hasTraj p1' c = hasTraj p c := by rw [hasTraj_congr ht, st.has]; simp [Ne.symm hc]
      have hlk : lk cfg p1' c k0 = lk cfg p c k0 := by rw [lk_congr ht]; exact st.other hc k0
      have hord' : c ∈ p1'.robotOrder ↔ c ∈ p.robotOrder := by
        rw [hord]
        rcases st.step with ⟨_, e1, _⟩ | ⟨_, e1, _⟩
        · rw [e1]
        · rw [e1]; simp [Ne.symm hc]
      have := ih L (fun h => by rw [hh]; exact hL h) ch hl hro1
      rw [hh, hlk, hord'] at this
      exact this
  | @other p p1 p2 bs ht hord _ ih =>
    have := ih L (fun h => by rw [hasTraj_congr ht]; exact hL h) ch hl
      (fun d hd => by rw [hasTraj_congr ht]; rw [hord] at hd; exact hro d hd)
    rw [hasTraj_congr ht, lk_congr ht, hord] at this
    exact this

end RPGO
