import Verif.Proofs.Sim
/-
Two pose types whose operations agree on small arguments: the solver does not see the difference as long as the
arguments stay small.
-/

namespace RPGO
variable {G T N : Type}

/-- `o` and `o'` agree, and sizes add up, for arguments whose sizes do not exceed `L`. `B n x`: `x` has size at most `n`. -/
structure Within (B : Nat → T → Prop) (L : Nat) (o o' : Ops G T N) : Prop where
  mono : ∀ {m n x}, m ≤ n → B m x → B n x
  dflt : o'.dflt = o.dflt ∧ B 0 o.dflt
  ofPose : ∀ g, o'.ofPose g = o.ofPose g ∧ B 0 (o.ofPose g)
  ofFactor : ∀ g n, o'.ofFactor g n = o.ofFactor g n ∧ B 1 (o.ofFactor g n)
  compose : ∀ {m n x y}, B m x → B n y → m + n ≤ L → o'.compose x y = o.compose x y ∧ B (m + n) (o.compose x y)
  inverse : ∀ {n x}, B n x → o'.inverse x = o.inverse x ∧ B n (o.inverse x)
  between : ∀ {n x y}, B n x → B n y → n ≤ L → o'.between x y = o.between x y ∧ B n (o.between x y)
  pose : o'.pose = o.pose
  odomOk : o'.odomOk = o.odomOk
  loopOk : o'.loopOk = o.loopOk

/-- All stored poses have size at most `n`. -/
def Small (B : Nat → T → Prop) (n : Nat) (p : Pcm G T N) : Prop := ∀ c k x, (trajOf p c).find? k = some x → B n x

/-- From states satisfying `P` the two programs do the same, and end in states satisfying `R`. -/
def SameRun {σ α : Type} (P R : σ → Prop) (Q : α → Prop) (m m' : M σ α) : Prop :=
  ∀ s, P s → m' s = m s ∧ (∀ t a, m s = .ok t a → R t ∧ Q a) ∧ (∀ t e, m s = .throw t e → R t)

namespace SameRun
variable {σ α β : Type} {P R S : σ → Prop} {Q : α → Prop} {Q' : β → Prop}

theorem bind {m m' : M σ α} {f f' : α → M σ β} (hm : SameRun P R Q m m') (hf : ∀ a, Q a → SameRun R S Q' (f a) (f' a))
    (hs : ∀ s, R s → S s) : SameRun P S Q' (m.bind f) (m'.bind f') := by
  intro s hp
  obtain ⟨h1, h2, h3⟩ := hm s hp
  rw [M.bind_apply, M.bind_apply, h1]
  cases e : m s with
  | ok t a =>
    obtain ⟨ht, ha⟩ := h2 t a e
    exact hf a ha t ht
  | throw t x => exact ⟨rfl, fun _ _ h => (by cases h), fun t' e' h => by cases h; exact hs _ (h3 t x e)⟩
  | ub u => exact ⟨rfl, fun _ _ h => (by cases h), fun _ _ h => by cases h⟩

theorem pure {a : α} (h : Q a) : SameRun P P Q (M.pure a) (M.pure a) :=
  fun s hp => ⟨rfl, fun t b e => (by cases e; exact ⟨hp, h⟩), fun t x e => by cases e⟩

theorem undef (u : UB) : SameRun P R Q (M.undef u) (M.undef u) :=
  fun s _ => ⟨rfl, fun t b e => (by cases e), fun t x e => by cases e⟩

theorem raise (x : Exn) : SameRun P P Q (M.raise x : M σ α) (M.raise x) :=
  fun s hp => ⟨rfl, fun t b e => (by cases e), fun t x e => by cases e; exact hp⟩

theorem modify {f : σ → σ} (h : ∀ s, P s → R (f s)) : SameRun P R (fun _ : Unit => True) (M.modify f) (M.modify f) :=
  fun s hp => ⟨rfl, fun t b e => (by cases e; exact ⟨h s hp, trivial⟩), fun t x e => by cases e⟩

theorem cond {m1 m1' m2 m2' : M σ α} (c : Bool) (h1 : SameRun P R Q m1 m1') (h2 : SameRun P R Q m2 m2') :
    SameRun P R Q (M.cond c m1 m2) (M.cond c m1' m2') := by
  cases c
  · exact h2
  · exact h1

theorem when {m m' : M σ Unit} (c : Bool) (h : SameRun P P (fun _ => True) m m') :
    SameRun P P (fun _ => True) (M.when c m) (M.when c m') := by
  cases c
  · exact pure trivial
  · exact h

theorem ite {c : Prop} [Decidable c] {m1 m1' m2 m2' : M σ α} (h1 : SameRun P R Q m1 m1') (h2 : SameRun P R Q m2 m2') :
    SameRun P R Q (if c then m1 else m2) (if c then m1' else m2') := by
  by_cases h : c
  · rw [if_pos h, if_pos h]; exact h1
  · rw [if_neg h, if_neg h]; exact h2

/-- Reading the state. -/
theorem get {f f' : σ → M σ α} (h : ∀ s, P s → SameRun P R Q (f s) (f' s)) : SameRun P R Q (M.get.bind f) (M.get.bind f') :=
  fun s hp => h s hp s hp

theorem of_eq {m m' : M σ α} (h : ∀ s, P s → m' s = m s) (hp : ∀ s, P s → M.Ends P (m s)) : SameRun P P (fun _ => True) m m' := by
  intro s hs
  have := hp s hs
  refine ⟨h s hs, fun t a e => ?_, fun t x e => ?_⟩ <;> (rw [e] at this; first | exact ⟨this, trivial⟩ | exact this)

theorem weaken {P' : σ → Prop} {Q0 : α → Prop} {m m' : M σ α} (h : SameRun P R Q m m') (hp : ∀ s, P' s → P s) (hr : ∀ s, R s → S s)
    (hq : ∀ a, Q a → Q0 a) : SameRun P' S Q0 m m' := fun s hs =>
  let ⟨h1, h2, h3⟩ := h s (hp s hs)
  ⟨h1, fun t a e => ⟨hr _ (h2 t a e).1, hq _ (h2 t a e).2⟩, fun t x e => hr _ (h3 t x e)⟩

end SameRun

variable {B : Nat → T → Prop} {L : Nat} {o : Ops G T N} {cfg : Cfg G T N}

theorem Small.congr {n : Nat} {p q : Pcm G T N} (h : Small B n p) (e : q.trajs = p.trajs) : Small B n q := by
  intro c k x hx
  unfold trajOf at hx
  rw [e] at hx
  exact h c k x hx

theorem Small.look {n : Nat} {p : Pcm G T N} (w : Within B L cfg.ops o) (h : Small B n p) (c : Chr) (k : Key) :
    B n (look cfg.ops (trajOf p c) k) := by
  unfold RPGO.look
  cases e : (trajOf p c).find? k with
  | none => exact w.mono (Nat.zero_le _) w.dflt.2
  | some x => exact h c k x e

theorem look_within (w : Within B L cfg.ops o) (tr : KMap T) (k : Key) : look o tr k = look cfg.ops tr k := by
  unfold look
  rw [w.dflt.1]

theorem touch_within (w : Within B L cfg.ops o) (tr : KMap T) (k : Key) : touch o tr k = touch cfg.ops tr k := by
  unfold touch
  rw [w.dflt.1]

theorem touch_small {n : Nat} (w : Within B L cfg.ops o) {tr : KMap T} (h : ∀ k x, tr.find? k = some x → B n x) (a : Key) :
    ∀ k x, (touch cfg.ops tr a).find? k = some x → B n x := by
  intro k x hx
  unfold touch at hx
  split at hx
  · exact h k x hx
  · rw [KMap.find?_set] at hx
    split at hx
    · cases hx; exact w.mono (Nat.zero_le _) w.dflt.2
    · exact h k x hx

theorem Small.setTraj {n : Nat} {p : Pcm G T N} (h : Small B n p) (c : Chr) {tr : KMap T} (ht : ∀ k x, tr.find? k = some x → B n x) :
    Small B n (setTraj p c tr) := by
  intro c' k x hx
  rw [trajOf_setTraj] at hx
  split at hx
  · exact ht k x hx
  · exact h c' k x hx

theorem getBetween_within {n : Nat} (w : Within B L cfg.ops o) (hL : 3 * n ≤ L) {p : Pcm G T N} (h : Small B n p) (c : Chr) (a b : Key) :
    getBetween o (trajOf p c) a b = getBetween cfg.ops (trajOf p c) a b ∧
      (∀ k x, (getBetween cfg.ops (trajOf p c) a b).1.find? k = some x → B n x) ∧ B (3 * n) (getBetween cfg.ops (trajOf p c) a b).2 := by
  have bt := fun k k' => w.between (h.look w c k) (h.look w c k') (by omega)
  unfold getBetween
  simp only [look_within w, touch_within w]
  split
  · refine ⟨by rw [(bt a b).1], touch_small w (touch_small w (h c) a) b, w.mono (by omega) (bt a b).2⟩
  · have i1 := w.inverse (bt (rootKey (chr a)) a).2
    have c1 := w.compose i1.2 (bt (rootKey (chr a)) (rootKey (chr b))).2 (by omega)
    have c2 := w.compose c1.2 (bt (rootKey (chr b)) b).2 (by omega)
    refine ⟨by simp only [(bt _ _).1, i1.1, c1.1, c2.1], ?_, w.mono (by omega) c2.2⟩
    exact touch_small w (touch_small w (touch_small w (touch_small w (h c) _) _) _) _

theorem trajBetween_sameRun {n : Nat} (w : Within B L cfg.ops o) (hL : 3 * n ≤ L) (c : Chr) (a b : Key) :
    SameRun (Small B n) (Small B n) (B (3 * n)) (trajBetween cfg c a b) (trajBetween { cfg with ops := o } c a b) := by
  intro p hp
  obtain ⟨h1, h2, h3⟩ := getBetween_within w hL hp c a b
  refine ⟨?_, fun t x e => ?_, fun t x e => by cases e⟩
  · unfold trajBetween
    simp only [h1]
  · cases e
    exact ⟨hp.setTraj c h2, h3⟩

theorem toT_sameRun {P : Pcm G T N → Prop} (w : Within B L cfg.ops o) (b : Btw G N) : SameRun P P (B 1) (toT cfg b) (toT { cfg with ops := o } b) := by
  unfold toT
  cases b.noise with
  | none => exact SameRun.undef _
  | some n =>
    show SameRun P P (B 1) (M.pure (cfg.ops.ofFactor b.m n)) (M.pure (o.ofFactor b.m n))
    rw [(w.ofFactor b.m n).1]
    exact SameRun.pure (w.ofFactor b.m n).2

theorem updateOdom_sameRun {n : Nat} (w : Within B L cfg.ops o) (hL : n + 1 ≤ L) (vals : Vals G) (b : Btw G N) :
    SameRun (Small B n) (Small B (n + 1)) (fun _ => True) (updateOdom cfg vals b) (updateOdom { cfg with ops := o } vals b) := by
  have up : ∀ p : Pcm G T N, Small B n p → Small B (n + 1) p := fun p h c k x e => w.mono (by omega) (h c k x e)
  unfold updateOdom
  refine SameRun.bind (R := Small B n) (SameRun.modify fun p h => h.congr rfl) (fun _ _ => ?_) up
  refine SameRun.bind (toT_sameRun w b) (fun delta hd => ?_) up
  refine SameRun.get fun p hp => ?_
  have last : SameRun (Small B n) (Small B (n + 1)) (fun _ => True)
      (M.modify fun p : Pcm G T N => setTraj p (chr b.k2) ((touch cfg.ops (trajOf p (chr b.k2)) b.k1).set b.k2
        (cfg.ops.compose (look cfg.ops (touch cfg.ops (trajOf p (chr b.k2)) b.k1) b.k1) delta)))
      (M.modify fun p : Pcm G T N => setTraj p (chr b.k2) ((touch o (trajOf p (chr b.k2)) b.k1).set b.k2
        (o.compose (look o (touch o (trajOf p (chr b.k2)) b.k1) b.k1) delta))) := by
    intro q hq
    have hc := w.compose (hq.look w (chr b.k2) b.k1) hd hL
    refine ⟨?_, fun t a e => ?_, fun t x e => by cases e⟩
    · simp only [M.modify, look_within w, touch_within w, look_touch, hc.1]
    · injection e with e _
      subst e
      refine ⟨(up _ hq).setTraj _ fun k x hx => ?_, trivial⟩
      rw [KMap.find?_set] at hx
      split at hx
      · cases hx
        rw [look_touch]
        exact hc.2
      · exact w.mono (by omega) (touch_small w (hq (chr b.k2)) b.k1 k x hx)
  dsimp only
  cases AList.get? (· == ·) p.trajs (chr b.k2) with
  | some _ => exact SameRun.bind (R := Small B n) (Q := fun _ => True) (SameRun.pure trivial) (fun _ _ => last) up
  | none =>
    dsimp only
    cases vals.find? b.k1 with
    | none => exact SameRun.bind (R := Small B n) (Q := fun _ => True) (SameRun.raise _) (fun _ _ => last) up
    | some v =>
      cases v with
      | other _ => exact SameRun.bind (R := Small B n) (Q := fun _ => True) (SameRun.raise _) (fun _ _ => last) up
      | pose g =>
        refine SameRun.bind (R := Small B n) (Q := fun _ => True) ?_ (fun _ _ => last) up
        rw [(w.ofPose g).1]
        refine SameRun.modify fun p hp => ?_
        refine Small.congr (p := setTraj p (chr b.k2) [(b.k1, cfg.ops.ofPose g)]) (hp.setTraj _ fun k x hx => ?_) rfl
        have : x = cfg.ops.ofPose g := by
          rw [KMap.find?_cons] at hx
          split at hx
          · cases hx; rfl
          · cases hx
        rw [this]
        exact w.mono (Nat.zero_le _) (w.ofPose g).2

theorem isOdomConsistent_sameRun {n : Nat} (w : Within B L cfg.ops o) (hL : 3 * n + 1 ≤ L) (b : Btw G N) :
    SameRun (Small B n) (Small B n) (fun _ => True) (isOdomConsistent cfg b) (isOdomConsistent { cfg with ops := o } b) := by
  unfold isOdomConsistent
  refine SameRun.ite (SameRun.pure trivial) ?_
  · refine SameRun.bind (trajBetween_sameRun (n := n) w (by omega) _ _ _) (fun x hx => ?_) (fun _ h => h)
    refine SameRun.bind (toT_sameRun w b) (fun y hy => ?_) (fun _ h => h)
    have hi := w.inverse hy
    have hc := w.compose hx hi.2 hL
    dsimp only
    rw [hi.1, hc.1, w.odomOk]
    exact SameRun.pure trivial

theorem areLoopsConsistent_sameRun {n : Nat} (w : Within B L cfg.ops o) (hL : 6 * n + 2 ≤ L) (x y : Btw G N) :
    SameRun (Small B n) (Small B n) (fun _ => True) (areLoopsConsistent cfg x y) (areLoopsConsistent { cfg with ops := o } x y) := by
  unfold areLoopsConsistent
  refine SameRun.ite (SameRun.pure trivial) ?_
  · refine SameRun.bind (toT_sameRun w x) (fun ab hab => ?_) (fun _ h => h)
    refine SameRun.bind (toT_sameRun w y) (fun cd hcd => ?_) (fun _ h => h)
    refine SameRun.bind (trajBetween_sameRun w (by omega) _ _ _) (fun ac hac => ?_) (fun _ h => h)
    refine SameRun.bind (trajBetween_sameRun w (by omega) _ _ _) (fun bd hbd => ?_) (fun _ h => h)
    have h1 := w.compose hac hcd (by omega)
    have h2 := w.inverse h1.2
    have h3 := w.compose h2.2 hab (by omega)
    have h4 := w.compose h3.2 hbd (by omega)
    dsimp only
    rw [h1.1, h2.1, h3.1, h4.1, w.loopOk]
    exact SameRun.pure trivial

theorem pairVerdicts_sameRun {n : Nat} (w : Within B L cfg.ops o) (hL : 6 * n + 2 ≤ L) (y : Btw G N) (xs : List (Btw G N)) :
    SameRun (Small B n) (Small B n) (fun _ => True) (pairVerdicts cfg y xs) (pairVerdicts { cfg with ops := o } y xs) := by
  induction xs with
  | nil => exact SameRun.pure trivial
  | cons x xs ih =>
    refine SameRun.bind (areLoopsConsistent_sameRun w hL x y) (fun v _ => ?_) (fun _ h => h)
    refine SameRun.bind ih (fun vs _ => ?_) (fun _ h => h)
    exact SameRun.pure trivial

theorem incrementAdj_sameRun {n : Nat} (w : Within B L cfg.ops o) (hL : 6 * n + 2 ≤ L) (id : ObsId) (y : Btw G N) :
    SameRun (Small B n) (Small B n) (fun _ => True) (incrementAdj cfg id y) (incrementAdj { cfg with ops := o } id y) := by
  unfold incrementAdj
  refine SameRun.get fun p hp => ?_
  dsimp only
  split
  · exact SameRun.modify fun p h => h.congr rfl
  · split
    · exact SameRun.undef _
    · refine SameRun.bind (pairVerdicts_sameRun w hL y _) (fun vs _ => ?_) (fun _ h => h)
      exact SameRun.modify fun p h => h.congr rfl

theorem landmarkVerdicts_sameRun {n : Nat} (w : Within B L cfg.ops o) (hL : 6 * n + 2 ≤ L) (l : Key) (y : Btw G N) (xs : List (Btw G N)) :
    SameRun (Small B n) (Small B n) (fun _ => True) (landmarkVerdicts cfg l y xs) (landmarkVerdicts { cfg with ops := o } l y xs) := by
  induction xs with
  | nil => exact SameRun.pure trivial
  | cons x xs ih =>
    unfold landmarkVerdicts
    split
    · exact SameRun.pure trivial
    · refine SameRun.bind (toT_sameRun w x) (fun il hil => ?_) (fun _ h => h)
      refine SameRun.bind (toT_sameRun w y) (fun jl hjl => ?_) (fun _ h => h)
      refine SameRun.bind (trajBetween_sameRun w (by omega) _ _ _) (fun ij hij => ?_) (fun _ h => h)
      have h1 := w.compose hij hjl (by omega)
      have h2 := w.inverse h1.2
      have h3 := w.compose h2.2 hil (by omega)
      dsimp only
      rw [h1.1, h2.1, h3.1, w.loopOk]
      refine SameRun.bind ih (fun vs _ => ?_) (fun _ h => h)
      exact SameRun.pure trivial

theorem incrementLandmarkAdj_sameRun {n : Nat} (w : Within B L cfg.ops o) (hL : 6 * n + 2 ≤ L) (l : Key) :
    SameRun (Small B n) (Small B n) (fun _ => True) (incrementLandmarkAdj cfg l) (incrementLandmarkAdj { cfg with ops := o } l) := by
  unfold incrementLandmarkAdj
  refine SameRun.get fun p hp => ?_
  dsimp only
  split
  · exact SameRun.modify fun p h => h.congr rfl
  · split
    · exact SameRun.modify fun p h => h.congr rfl
    · split
      · exact SameRun.undef _
      · refine SameRun.bind (landmarkVerdicts_sameRun w hL l _ _) (fun r _ => ?_) (fun _ h => h)
        cases r with
        | none => exact SameRun.pure trivial
        | some vs => exact SameRun.modify fun p h => h.congr rfl

theorem registerLm_sameRun {n : Nat} (w : Within B L cfg.ops o) (hL : 6 * n + 2 ≤ L) (b : Btw G N) :
    SameRun (Small B n) (Small B n) (fun _ => True) (registerLm cfg b) (registerLm { cfg with ops := o } b) := by
  unfold registerLm
  refine SameRun.bind (R := Small B n) (SameRun.modify fun p h => h.congr rfl) (fun _ _ => ?_) (fun _ h => h)
  exact incrementLandmarkAdj_sameRun w hL _

theorem registerLc_sameRun {n : Nat} (w : Within B L cfg.ops o) (hL : 6 * n + 2 ≤ L) (b : Btw G N) :
    SameRun (Small B n) (Small B n) (fun _ => True) (registerLc cfg b) (registerLc { cfg with ops := o } b) := by
  unfold registerLc
  refine SameRun.bind (R := Small B n) (SameRun.modify fun p h => h.congr rfl) (fun _ _ => ?_) (fun _ h => h)
  exact SameRun.when _ (incrementAdj_sameRun w hL _ _)

theorem parseLoops_sameRun {n : Nat} (w : Within B L cfg.ops o) (hL : 6 * n + 2 ≤ L) (vals : Vals G) (bs : List (Btw G N))
    (num : List (ObsId × Nat)) :
    SameRun (Small B n) (Small B n) (fun _ => True) (parseLoops cfg vals bs num) (parseLoops { cfg with ops := o } vals bs num) := by
  induction bs generalizing num with
  | nil => exact SameRun.pure trivial
  | cons b bs ih =>
    unfold parseLoops
    refine SameRun.ite (ih num) (SameRun.ite ?_ ?_)
    · refine SameRun.bind (registerLm_sameRun w hL b) (fun _ _ => ih num) (fun _ h => h)
    · refine SameRun.bind (Q := fun _ => True) (SameRun.cond _ (isOdomConsistent_sameRun w (by omega) b) (SameRun.pure trivial)) (fun ok _ => ?_) (fun _ h => h)
      cases ok with
      | false => exact ih num
      | true => exact SameRun.bind (registerLc_sameRun w hL b) (fun _ _ => ih _) (fun _ h => h)

theorem odoms_cons (cfg : Cfg G T N) (vs : Vals G) (b : Btw G N) (fs : Graph G N) :
    Spec.odoms cfg vs (some (.btw b) :: fs) = if Spec.isOdom cfg vs b then b :: Spec.odoms cfg vs fs else Spec.odoms cfg vs fs := by
  unfold Spec.odoms Spec.btws
  rw [List.filterMap_cons]
  dsimp only
  rw [List.filter_cons]

theorem sortFactors_sameRun {n : Nat} (w : Within B L cfg.ops o) (vs vals : Vals G) (fs : Graph G N) (lcs : List (Btw G N)) (opt : Bool)
    (hL : n + (Spec.odoms cfg vs fs).length ≤ L) :
    SameRun (Small B n) (Small B (n + (Spec.odoms cfg vs fs).length)) (fun _ => True) (sortFactors cfg vs vals fs lcs opt)
      (sortFactors { cfg with ops := o } vs vals fs lcs opt) := by
  induction fs generalizing n lcs opt with
  | nil => exact SameRun.pure trivial
  | cons f fs ih =>
    have up : ∀ {m k : Nat} (p : Pcm G T N), m ≤ k → Small B m p → Small B k p := fun p h hp c k x e => w.mono h (hp c k x e)
    cases f with
    | none => exact ih lcs opt hL
    | some f =>
      cases f with
      | btw b =>
        have hc : classify { cfg with ops := o } vs (.btw b) = classify cfg vs (.btw b) := rfl
        have hcl := classify_btw cfg vs b
        unfold sortFactors
        rw [hc]
        by_cases h1 : Spec.isFirstObs cfg vs b = true
        · have e : Spec.odoms cfg vs (some (.btw b) :: fs) = Spec.odoms cfg vs fs := by
            rw [odoms_cons, if_neg]
            intro h
            simp only [Spec.isOdom, Spec.isFirstObs, Spec.isLandmark, Bool.and_eq_true, decide_eq_true_eq] at h h1
            rcases h1.1 with g | g
            · exact h.1 g
            · exact h.2.1 g
          rw [e] at hL ⊢
          rw [if_pos h1] at hcl
          rw [hcl]
          refine SameRun.bind (R := Small B n) (SameRun.modify fun p h => h.congr rfl) (fun _ _ => ih _ _ hL) (fun p h => up p (by omega) h)
        · rw [if_neg h1] at hcl
          by_cases h2 : Spec.isOdom cfg vs b = true
          · have e : Spec.odoms cfg vs (some (.btw b) :: fs) = b :: Spec.odoms cfg vs fs := by rw [odoms_cons, if_pos h2]
            rw [e, List.length_cons] at hL ⊢
            rw [if_pos h2] at hcl
            rw [hcl]
            have := ih (n := n + 1) lcs opt (by omega)
            rw [show n + 1 + (Spec.odoms cfg vs fs).length = n + ((Spec.odoms cfg vs fs).length + 1) by omega] at this
            exact SameRun.bind (updateOdom_sameRun w (by omega) vals b) (fun _ _ => this) (fun p h => up p (by omega) h)
          · have e : Spec.odoms cfg vs (some (.btw b) :: fs) = Spec.odoms cfg vs fs := by rw [odoms_cons, if_neg h2]
            rw [e] at hL ⊢
            rw [if_neg h2] at hcl
            rw [hcl]
            dsimp only
            split
            · exact ih _ _ hL
            · exact ih _ _ hL
      | _ =>
        exact SameRun.bind (R := Small B n) (SameRun.modify fun p h => h.congr rfl) (fun _ _ => ih _ _ hL) (fun p h => up p (Nat.le_add_right _ _) h)

theorem any_pres {σ α : Type} (m : M σ α) : M.Pres (fun _ _ => True) m := by
  intro s
  cases m s <;> trivial

theorem findInliersIncremental_trajs (num : List (ObsId × Nat)) :
    M.Pres (fun p q : Pcm G T N => q.trajs = p.trajs) (findInliersIncremental num) := by
  have ht : ∀ a b c : Pcm G T N, b.trajs = a.trajs → c.trajs = b.trajs → c.trajs = a.trajs := fun _ _ _ h h' => h'.trans h
  unfold findInliersIncremental
  simp only [M.bind_eq]
  refine M.Pres.bind ht (M.Pres.modify fun _ => rfl) fun _ => M.Pres.bind ht (M.Pres.forEach (R := fun p q : Pcm G T N => q.trajs = p.trajs) (fun _ => rfl) ht (fun idn => ?_) _) fun _ =>
    M.Pres.bind ht (M.Pres.modify fun _ => rfl) fun _ => ?_
  · exact M.Pres.zoom (any_pres _) fun _ _ _ => rfl
  · exact M.Pres.zoom (any_pres _) fun _ _ _ => rfl

theorem findInliers_trajs (cfg : Cfg G T N) : M.Pres (fun p q : Pcm G T N => q.trajs = p.trajs) (findInliers cfg) := by
  have ht : ∀ a b c : Pcm G T N, b.trajs = a.trajs → c.trajs = b.trajs → c.trajs = a.trajs := fun _ _ _ h h' => h'.trans h
  unfold findInliers
  simp only [M.bind_eq]
  refine M.Pres.bind ht (M.Pres.modify fun _ => rfl) fun _ => M.Pres.bind ht ?_ fun _ => ?_
  · exact M.Pres.zoom (any_pres _) fun _ _ _ => rfl
  · exact M.Pres.zoom (any_pres _) fun _ _ _ => rfl

theorem processCands_sameRun {n : Nat} (w : Within B L cfg.ops o) (hL : 6 * n + 2 ≤ L) (vals : Vals G) (bs : List (Btw G N)) :
    SameRun (Small B n) (Small B n) (fun _ => True) (processCands cfg vals bs) (processCands { cfg with ops := o } vals bs) := by
  unfold processCands
  refine SameRun.bind (parseLoops_sameRun w hL vals bs []) (fun num _ => ?_) (fun _ h => h)
  refine SameRun.cond _ (SameRun.of_eq (fun _ _ => rfl) fun s hs => ?_) (SameRun.of_eq (fun _ _ => rfl) fun s hs => ?_)
  · exact M.Ends.mono (fun t ht => hs.congr ht) (findInliersIncremental_trajs num s)
  · exact M.Ends.mono (fun t ht => hs.congr ht) (findInliers_trajs cfg s)

theorem SameRun.onPcm {α : Type} {P R : Pcm G T N → Prop} {Q : α → Prop} {m m' : M (Pcm G T N) α} (h : SameRun P R Q m m') :
    SameRun (fun s : St G T N => P s.pcm) (fun s => R s.pcm) Q (onPcm m) (onPcm m') := by
  intro s hs
  obtain ⟨h1, h2, h3⟩ := h s.pcm hs
  unfold RPGO.onPcm
  refine ⟨?_, fun t a e => ?_, fun t x e => ?_⟩
  · unfold M.zoom
    rw [h1]
  · obtain ⟨q, g, rfl⟩ := M.zoom_eq_ok.1 e
    exact h2 q a g
  · obtain ⟨q, g, rfl⟩ := M.zoom_eq_throw.1 e
    exact h3 q x g

variable [Mul G] [Inv G] [One G]

theorem alignStep_within (w : Within B L cfg.ops o) (env : Env G N) : alignStep { cfg with ops := o } env = alignStep cfg env := by
  have hc : alignCandidates { cfg with ops := o } = alignCandidates cfg := by
    funext p r0 ri l
    induction l with
    | nil => rfl
    | cons x l ih =>
      unfold alignCandidates
      rw [ih]
      unfold alignCandidate
      simp only [w.pose]
  have ho : robotOdomValues { cfg with ops := o } = robotOdomValues cfg := by
    funext tr X
    unfold robotOdomValues
    simp only [w.pose]
  have h : alignValues { cfg with ops := o } = alignValues cfg := by
    funext env p l
    cases l with
    | nil => rfl
    | cons r l =>
      unfold alignValues alignRobot
      rw [hc, ho]
  funext s
  unfold alignStep
  rw [h]

theorem removeOutliers_sameRun {n : Nat} (w : Within B L cfg.ops o) (env : Env G N) (fs : Graph G N) (vs : Vals G)
    (hL : 6 * (n + (Spec.odoms cfg vs fs).length) + 2 ≤ L) :
    SameRun (fun s : St G T N => Small B n s.pcm) (fun s => Small B (n + (Spec.odoms cfg vs fs).length) s.pcm) (fun _ => True)
      (removeOutliers cfg env fs vs) (removeOutliers { cfg with ops := o } env fs vs) := by
  have up : ∀ {m k : Nat} (p : Pcm G T N), m ≤ k → Small B m p → Small B k p := fun p h hp c k x e => w.mono h (hp c k x e)
  unfold removeOutliers
  refine SameRun.bind (R := fun s : St G T N => Small B n s.pcm) (Q := fun _ => True) (SameRun.of_eq (fun _ _ => rfl) fun s hs => ?_) (fun _ _ => ?_)
    (fun s h => up _ (by omega) h)
  · have : M.Pres (fun s t : St G T N => t.pcm = s.pcm) (onValues (insertVals vs)) := by
      intro s
      unfold onValues M.zoom
      cases insertVals vs s.values <;> first | rfl | trivial
    exact M.Ends.mono (fun t ht => by rw [ht]; exact hs) (this s)
  · cases hd : decide (fs.length = 0) with
    | true =>
      exact SameRun.weaken (SameRun.pure (Q := fun _ => True) trivial) (fun _ h => h) (fun s h => up _ (by omega) h) (fun _ _ => trivial)
    | false =>
      show SameRun _ _ _ (processFactors cfg env fs vs) (processFactors _ env fs vs)
      unfold processFactors
      refine SameRun.get fun s hs => ?_
      refine SameRun.bind (SameRun.onPcm (sortFactors_sameRun w vs s.values fs [] false (by omega))) (fun r _ => ?_) (fun _ h => h)
      refine SameRun.bind (SameRun.when _ (SameRun.onPcm (processCands_sameRun w (by omega) s.values r.1))) (fun _ _ => ?_) (fun _ h => h)
      refine SameRun.bind (R := fun s : St G T N => Small B (n + (Spec.odoms cfg vs fs).length) s.pcm) (SameRun.modify fun s h => h) (fun _ _ => ?_) (fun _ h => h)
      refine SameRun.bind (Q := fun _ => True) (SameRun.of_eq (fun _ _ => by rw [alignStep_within w]) fun s hs => ?_) (fun _ _ => SameRun.pure trivial) (fun _ h => h)
      exact M.Ends.mono (fun t ht => Small.congr hs (by rw [ht.eq])) (alignStep_frame cfg env s)

theorem exec_sameRun {n : Nat} (w : Within B L cfg.ops o) (env : Env G N) (hr : cfg.rejection = true) (op : Op G N)
    (hL : 6 * (n + (Spec.opOdom cfg op).length) + 2 ≤ L) :
    SameRun (fun s : St G T N => Small B n s.pcm) (fun s => Small B (n + (Spec.opOdom cfg op).length) s.pcm) (fun _ => True)
      (exec cfg env op) (exec { cfg with ops := o } env op) := by
  have opt : ∀ k, SameRun (fun s : St G T N => Small B k s.pcm) (fun s => Small B k s.pcm) (fun _ => True) (optimize cfg env)
      (optimize { cfg with ops := o } env) := fun k =>
    SameRun.of_eq (fun _ _ => rfl) fun s hs => M.Ends.mono (fun t ht => by rw [ht.pcm]; exact hs) (optimize_frame cfg env s)
  have log : ∀ k, SameRun (fun s : St G T N => Small B k s.pcm) (fun s => Small B k s.pcm) (fun _ => True) (logStatus cfg)
      (logStatus { cfg with ops := o }) := fun k =>
    SameRun.of_eq (fun _ _ => rfl) fun s hs => M.Ends.mono (fun t ht => by rw [ht]; exact hs) (logStatus_same cfg s)
  cases hb : Spec.batch op with
  | none =>
    have e : Spec.opOdom cfg op = [] := by simp [Spec.opOdom, hb]
    rw [e]
    refine SameRun.of_eq (fun s _ => ?_) fun s hs => ?_
    · cases op <;> first | rfl | cases hb
    · exact M.Ends.mono (fun t ht => Small.congr hs (OtherFrame.pcm ht).trajs) (exec_other cfg env hr op hb s)
  | some x =>
    obtain ⟨fs, vs⟩ := x
    have e : Spec.opOdom cfg op = Spec.odoms cfg vs fs := by simp [Spec.opOdom, hb]
    rw [e] at hL ⊢
    have base : ∀ m, SameRun _ _ _ (M.cond cfg.rejection (removeOutliers cfg env fs vs) m)
        (M.cond cfg.rejection (removeOutliers { cfg with ops := o } env fs vs) m) := fun m => by
      have e1 : ∀ m1 m2 : M (St G T N) Bool, M.cond cfg.rejection m1 m2 = m1 := fun m1 m2 => by rw [hr]; rfl
      rw [e1, e1]
      exact removeOutliers_sameRun w env fs vs hL
    cases op with
    | update fs' vs' ob =>
      cases hb
      refine SameRun.bind (Q := fun _ => True) ?_ (fun _ _ => SameRun.pure trivial) (fun _ h => h)
      unfold update
      exact SameRun.bind (base _) (fun b _ => SameRun.bind (SameRun.when _ (opt _)) (fun _ _ => SameRun.when _ (log _)) (fun _ h => h)) (fun _ h => h)
    | forceUpdate fs' vs' =>
      cases hb
      refine SameRun.bind (Q := fun _ => True) ?_ (fun _ _ => SameRun.pure trivial) (fun _ h => h)
      unfold forceUpdate
      exact SameRun.bind (base _) (fun b _ => SameRun.bind (opt _) (fun _ _ => SameRun.when _ (log _)) (fun _ h => h)) (fun _ h => h)
    | _ => cases hb

/-- Whatever calls were made, and whether or not they threw, the stored poses are no larger than the number of odometry
factors received. -/
theorem Reach.small (w : Within B L cfg.ops o) {env : Env G N} (hr : cfg.rejection = true) {h : List (Op G N)} {s : St G T N}
    (r : Reach cfg env h s) (hL : 6 * (Spec.odomSoFar cfg h).length + 2 ≤ L) : Small B (Spec.odomSoFar cfg h).length s.pcm := by
  induction r with
  | init => intro c k x hx; cases hx
  | @ok h s op s' x _ e ih =>
    have el : (Spec.odomSoFar cfg (h ++ [op])).length = (Spec.odomSoFar cfg h).length + (Spec.opOdom cfg op).length := by
      simp [Spec.odomSoFar, List.flatMap_append]
    rw [el] at hL ⊢
    exact ((exec_sameRun w env hr op hL s (ih (by omega))).2.1 _ _ e).1
  | @throw h s op s' x _ e ih =>
    have el : (Spec.odomSoFar cfg (h ++ [op])).length = (Spec.odomSoFar cfg h).length + (Spec.opOdom cfg op).length := by
      simp [Spec.odomSoFar, List.flatMap_append]
    rw [el] at hL ⊢
    exact (exec_sameRun w env hr op hL s (ih (by omega))).2.2 _ _ e

/-- The two solvers reach the same states. -/
theorem Reach.within (w : Within B L cfg.ops o) {env : Env G N} (hr : cfg.rejection = true) {h : List (Op G N)}
    (hL : 6 * (Spec.odomSoFar cfg h).length + 2 ≤ L) (s : St G T N) :
    Reach { cfg with ops := o } env h s ↔ Reach cfg env h s := by
  constructor
  · intro r
    induction r with
    | init => exact .init
    | @ok h s op s' x _ e ih =>
      have el : (Spec.odomSoFar cfg (h ++ [op])).length = (Spec.odomSoFar cfg h).length + (Spec.opOdom cfg op).length := by
        simp [Spec.odomSoFar, List.flatMap_append]
      rw [el] at hL
      have ih' := ih (by omega)
      exact .ok ih' (by rw [← (exec_sameRun w env hr op hL s (ih'.small w hr (by omega))).1]; exact e)
    | @throw h s op s' x _ e ih =>
      have el : (Spec.odomSoFar cfg (h ++ [op])).length = (Spec.odomSoFar cfg h).length + (Spec.opOdom cfg op).length := by
        simp [Spec.odomSoFar, List.flatMap_append]
      rw [el] at hL
      have ih' := ih (by omega)
      exact .throw ih' (by rw [← (exec_sameRun w env hr op hL s (ih'.small w hr (by omega))).1]; exact e)
  · intro r
    induction r with
    | init => exact .init
    | @ok h s op s' x r e ih =>
      have el : (Spec.odomSoFar cfg (h ++ [op])).length = (Spec.odomSoFar cfg h).length + (Spec.opOdom cfg op).length := by
        simp [Spec.odomSoFar, List.flatMap_append]
      rw [el] at hL
      exact .ok (ih (by omega)) (by rw [(exec_sameRun w env hr op hL s (r.small w hr (by omega))).1]; exact e)
    | @throw h s op s' x r e ih =>
      have el : (Spec.odomSoFar cfg (h ++ [op])).length = (Spec.odomSoFar cfg h).length + (Spec.opOdom cfg op).length := by
        simp [Spec.odomSoFar, List.flatMap_append]
      rw [el] at hL
      exact .throw (ih (by omega)) (by rw [(exec_sameRun w env hr op hL s (r.small w hr (by omega))).1]; exact e)

end RPGO
