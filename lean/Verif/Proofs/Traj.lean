import Verif.Model.Pcm
import Verif.Proofs.Basic
/-
What the consistency checks compute, and that they change nothing but default entries of the trajectories.
-/

namespace RPGO
variable {G T N : Type}

/-- The pose of key `k` in the trajectory of robot `c`, default if missing. -/
def lk (cfg : Cfg G T N) (p : Pcm G T N) (c : Chr) (k : Key) : T := look cfg.ops (trajOf p c) k

theorem look_touch (ops : Ops G T N) (tr : KMap T) (a k : Key) : look ops (touch ops tr a) k = look ops tr k := by
  unfold look touch
  cases h : tr.find? a with
  | some v => rfl
  | none =>
    simp only
    rw [KMap.find?_set]
    by_cases e : a = k
    · subst e; simp [h]
    · simp [e]

theorem look_getBetween (ops : Ops G T N) (tr : KMap T) (a b k : Key) :
    look ops (getBetween ops tr a b).1 k = look ops tr k := by
  unfold getBetween
  split <;> simp only [look_touch]

/-- Relative pose computed from a pose assignment. -/
def btwn (ops : Ops G T N) (f : Key → T) (a b : Key) : T :=
  if chr a = chr b then ops.between (f a) (f b)
  else
    ops.compose
      (ops.compose (ops.inverse (ops.between (f (rootKey (chr a))) (f a)))
        (ops.between (f (rootKey (chr a))) (f (rootKey (chr b)))))
      (ops.between (f (rootKey (chr b))) (f b))

theorem getBetween_snd (ops : Ops G T N) (tr : KMap T) (a b : Key) :
    (getBetween ops tr a b).2 = btwn ops (look ops tr) a b := by
  unfold getBetween btwn
  split <;> rfl

theorem trajOf_setTraj (p : Pcm G T N) (c c' : Chr) (tr : KMap T) :
    trajOf (setTraj p c tr) c' = if c = c' then tr else trajOf p c' := by
  unfold trajOf setTraj
  simp only
  by_cases h : c = c'
  · subst h
    rw [AList.get?_upd_self AList.isEqv_beq]
    simp
  · rw [AList.get?_upd_other AList.isEqv_beq _ _ _ _ _ (by simpa using h)]
    simp [h]

/-- Does the trajectory of robot `c` exist? -/
def hasTraj (p : Pcm G T N) (c : Chr) : Bool := (AList.get? (· == ·) p.trajs c).isSome

theorem hasTraj_setTraj (p : Pcm G T N) (c c' : Chr) (tr : KMap T) :
    hasTraj (setTraj p c tr) c' = (decide (c' = c) || hasTraj p c') := by
  unfold hasTraj setTraj
  simp only
  by_cases h : c = c'
  · subst h
    rw [AList.get?_upd_self AList.isEqv_beq]; simp
  · rw [AList.get?_upd_other AList.isEqv_beq _ _ _ _ _ (by simpa using h)]
    simp [Ne.symm h]

theorem has_touch (ops : Ops G T N) (tr : KMap T) (a k : Key) (h : tr.has k = true) : (touch ops tr a).has k = true := by
  unfold touch
  split
  · exact h
  · rw [KMap.has_set, h]; simp

theorem has_getBetween (ops : Ops G T N) (tr : KMap T) (a b k : Key) (h : tr.has k = true) :
    (getBetween ops tr a b).1.has k = true := by
  unfold getBetween
  split
  · exact has_touch _ _ _ _ (has_touch _ _ _ _ h)
  · exact has_touch _ _ _ _ (has_touch _ _ _ _ (has_touch _ _ _ _ (has_touch _ _ _ _ h)))

theorem touch_sorted (ops : Ops G T N) {tr : KMap T} (a : Key) (h : tr.Sorted) : (touch ops tr a).Sorted := by
  unfold touch
  split
  · exact h
  · exact h.set _ _

theorem getBetween_sorted (ops : Ops G T N) {tr : KMap T} (a b : Key) (h : tr.Sorted) :
    (getBetween ops tr a b).1.Sorted := by
  unfold getBetween
  split
  · exact touch_sorted _ _ (touch_sorted _ _ h)
  · exact touch_sorted _ _ (touch_sorted _ _ (touch_sorted _ _ (touch_sorted _ _ h)))

/-- Only trajectories changed, and no pose lookup; nothing was removed. -/
structure TrajOnly (cfg : Cfg G T N) (p p' : Pcm G T N) : Prop where
  eq : p' = { p with trajs := p'.trajs }
  lk : lk cfg p' = lk cfg p
  has : ∀ c, hasTraj p c = true → hasTraj p' c = true
  keep : ∀ c k, (trajOf p c).has k = true → (trajOf p' c).has k = true
  sorted : ∀ c, (trajOf p c).Sorted → (trajOf p' c).Sorted

namespace TrajOnly
variable {cfg : Cfg G T N}

theorem refl (p : Pcm G T N) : TrajOnly cfg p p :=
  ⟨rfl, rfl, fun _ h => h, fun _ _ h => h, fun _ h => h⟩

theorem trans {p q r : Pcm G T N} (h1 : TrajOnly cfg p q) (h2 : TrajOnly cfg q r) : TrajOnly cfg p r := by
  refine ⟨?_, h2.lk.trans h1.lk, fun c h => h2.has c (h1.has c h), fun c k h => h2.keep c k (h1.keep c k h),
    fun c h => h2.sorted c (h1.sorted c h)⟩
  rw [h2.eq, h1.eq]

theorem setTraj (p : Pcm G T N) (c : Chr) (tr : KMap T) (h : ∀ k, look cfg.ops tr k = RPGO.lk cfg p c k)
    (hk : ∀ k, (trajOf p c).has k = true → tr.has k = true) (hs : (trajOf p c).Sorted → tr.Sorted) :
    TrajOnly cfg p (RPGO.setTraj p c tr) := by
  refine ⟨rfl, ?_, ?_, ?_, ?_⟩
  · funext c' k
    unfold RPGO.lk
    rw [trajOf_setTraj]
    split
    · rename_i e; subst e; exact h k
    · rfl
  · intro c' hc; rw [hasTraj_setTraj, hc]; simp
  · intro c' k hc
    rw [trajOf_setTraj]
    split
    · rename_i e; subst e; exact hk k hc
    · exact hc
  · intro c' hc
    rw [trajOf_setTraj]
    split
    · rename_i e; subst e; exact hs hc
    · exact hc

end TrajOnly

theorem trajBetween_spec (cfg : Cfg G T N) (c : Chr) (a b : Key) (p : Pcm G T N) :
    ∃ p', trajBetween cfg c a b p = .ok p' (btwn cfg.ops (lk cfg p c) a b) ∧ TrajOnly cfg p p' := by
  refine ⟨_, ?_, TrajOnly.setTraj p c (getBetween cfg.ops (trajOf p c) a b).1 ?_
    (fun k => has_getBetween _ _ _ _ k) (getBetween_sorted _ _ _)⟩
  · unfold trajBetween
    simp only [getBetween_snd]
    rfl
  · intro k; exact look_getBetween _ _ _ _ _

/-- The pose handed to the odometry check for a closure with noise `n`. -/
def odomErr (cfg : Cfg G T N) (f : Chr → Key → T) (b : Btw G N) (n : N) : T :=
  cfg.ops.compose (btwn cfg.ops (f (chr b.k1)) b.k1 b.k2) (cfg.ops.inverse (cfg.ops.ofFactor b.m n))

/-- Verdict of the odometry check, as a function of the pose lookups. -/
def odomVerdict (cfg : Cfg G T N) (f : Chr → Key → T) (b : Btw G N) : Bool :=
  !cfg.odomCheck ||
    match b.noise with
    | none => false
    | some n => cfg.ops.odomOk (odomErr cfg f b n)

theorem toT_some (cfg : Cfg G T N) {b : Btw G N} {n : N} (h : b.noise = some n) :
    toT cfg b = M.pure (cfg.ops.ofFactor b.m n) := by
  unfold toT; rw [h]

theorem toT_none (cfg : Cfg G T N) {b : Btw G N} (h : b.noise = none) : toT cfg b = M.undef .nullDeref := by
  unfold toT; rw [h]

theorem isOdomConsistent_spec (cfg : Cfg G T N) (b : Btw G N) (p : Pcm G T N) :
    (cfg.odomCheck = true ∧ b.noise = none ∧ isOdomConsistent cfg b p = .ub .nullDeref) ∨
    ((cfg.odomCheck = true → b.noise.isSome) ∧
      ∃ p', isOdomConsistent cfg b p = .ok p' (odomVerdict cfg (lk cfg p) b) ∧ TrajOnly cfg p p') := by
  unfold isOdomConsistent
  cases hc : cfg.odomCheck with
  | false =>
    refine Or.inr ⟨by simp, p, ?_, TrajOnly.refl p⟩
    simp [odomVerdict, hc]
  | true =>
    obtain ⟨p', h1, h2⟩ := trajBetween_spec cfg (chr b.k1) b.k1 b.k2 p
    cases hn : b.noise with
    | none =>
      refine Or.inl ⟨rfl, rfl, ?_⟩
      simp only [Bool.not_true, Bool.false_eq_true, if_false, M.bind_eq, M.bind_ok h1, toT_none cfg hn]
      rfl
    | some n =>
      refine Or.inr ⟨by simp, p', ?_, h2⟩
      simp only [Bool.not_true, Bool.false_eq_true, if_false, M.bind_eq, M.bind_ok h1, toT_some cfg hn]
      simp [M.bind_apply, odomVerdict, hc, hn, odomErr]

/-- The pose handed to the pairwise check of `x` against `y`. -/
def loopErr (cfg : Cfg G T N) (f : Chr → Key → T) (x y : Btw G N) (nx ny : N) : T :=
  let c := if chr x.k1 ≠ chr y.k1 then y.k2 else y.k1
  let d := if chr x.k1 ≠ chr y.k1 then y.k1 else y.k2
  cfg.ops.compose
    (cfg.ops.compose
      (cfg.ops.inverse (cfg.ops.compose (btwn cfg.ops (f (chr x.k1)) x.k1 c) (cfg.ops.ofFactor y.m ny)))
      (cfg.ops.ofFactor x.m nx))
    (btwn cfg.ops (f (chr x.k2)) x.k2 d)

/-- Verdict of the pairwise check, as a function of the pose lookups. -/
def loopVerdict (cfg : Cfg G T N) (f : Chr → Key → T) (x y : Btw G N) : Bool :=
  !cfg.loopCheck ||
    match x.noise, y.noise with
    | some nx, some ny => cfg.ops.loopOk (loopErr cfg f x y nx ny)
    | _, _ => false

theorem areLoopsConsistent_spec (cfg : Cfg G T N) (x y : Btw G N) (p : Pcm G T N) :
    (cfg.loopCheck = true ∧ (x.noise = none ∨ y.noise = none) ∧
      areLoopsConsistent cfg x y p = .ub .nullDeref) ∨
    ((cfg.loopCheck = true → x.noise.isSome ∧ y.noise.isSome) ∧
      ∃ p', areLoopsConsistent cfg x y p = .ok p' (loopVerdict cfg (lk cfg p) x y) ∧ TrajOnly cfg p p') := by
  unfold areLoopsConsistent
  cases hc : cfg.loopCheck with
  | false =>
    refine Or.inr ⟨by simp, p, ?_, TrajOnly.refl p⟩
    simp [loopVerdict, hc]
  | true =>
    cases hx : x.noise with
    | none =>
      refine Or.inl ⟨rfl, Or.inl rfl, ?_⟩
      simp only [Bool.not_true, Bool.false_eq_true, if_false, M.bind_eq, toT_none cfg hx]
      rfl
    | some nx =>
      cases hy : y.noise with
      | none =>
        refine Or.inl ⟨rfl, Or.inr rfl, ?_⟩
        simp only [Bool.not_true, Bool.false_eq_true, if_false, M.bind_eq, toT_none cfg hy, toT_some cfg hx]
        rfl
      | some ny =>
        obtain ⟨p1, h1, t1⟩ := trajBetween_spec cfg (chr x.k1) x.k1 (if chr x.k1 ≠ chr y.k1 then y.k2 else y.k1) p
        obtain ⟨p2, h2, t2⟩ := trajBetween_spec cfg (chr x.k2) x.k2 (if chr x.k1 ≠ chr y.k1 then y.k1 else y.k2) p1
        refine Or.inr ⟨by simp, p2, ?_, t1.trans t2⟩
        simp only [Bool.not_true, Bool.false_eq_true, if_false, M.bind_eq, toT_some cfg hx, toT_some cfg hy]
        rw [M.bind_ok (M.pure_apply _ _), M.bind_ok (M.pure_apply _ _), M.bind_ok h1, M.bind_ok h2]
        simp only [M.pure_eq, M.pure_apply, loopVerdict, hc, hx, hy, loopErr, t1.lk, Bool.not_true, Bool.false_or]

theorem pairVerdicts_spec (cfg : Cfg G T N) (y : Btw G N) (xs : List (Btw G N)) (p : Pcm G T N) :
    (cfg.loopCheck = true ∧ (∃ x ∈ xs, x.noise = none ∨ y.noise = none) ∧ pairVerdicts cfg y xs p = .ub .nullDeref) ∨
    ((cfg.loopCheck = true → ∀ x ∈ xs, x.noise.isSome ∧ y.noise.isSome) ∧
      ∃ p', pairVerdicts cfg y xs p = .ok p' (xs.map fun x => loopVerdict cfg (lk cfg p) x y) ∧
        TrajOnly cfg p p') := by
  induction xs generalizing p with
  | nil => exact Or.inr ⟨by simp, p, rfl, TrajOnly.refl p⟩
  | cons x xs ih =>
    unfold pairVerdicts
    simp only [M.bind_eq]
    rcases areLoopsConsistent_spec cfg x y p with ⟨a, b, e⟩ | ⟨a, p1, e1, t1⟩
    · refine Or.inl ⟨a, ⟨x, by simp, b⟩, ?_⟩
      rw [M.bind_apply, e]
    · rw [M.bind_ok e1]
      rcases ih p1 with ⟨a', ⟨x', hx', b'⟩, e'⟩ | ⟨a', p2, e2, t2⟩
      · refine Or.inl ⟨a', ⟨x', by simp [hx'], b'⟩, ?_⟩
        rw [M.bind_apply, e']
      · refine Or.inr ⟨?_, p2, ?_, t1.trans t2⟩
        · intro hc x' hx'
          rcases List.mem_cons.1 hx' with rfl | hx'
          · exact a hc
          · exact a' hc x' hx'
        · rw [M.bind_ok e2, t1.lk]
          rfl

/-- The pose handed to the check of landmark observation `x` against observation `y`. -/
def landErr (cfg : Cfg G T N) (f : Chr → Key → T) (x y : Btw G N) (nx ny : N) : T :=
  cfg.ops.compose
    (cfg.ops.inverse (cfg.ops.compose (btwn cfg.ops (f (chr x.k1)) x.k1 y.k1) (cfg.ops.ofFactor y.m ny)))
    (cfg.ops.ofFactor x.m nx)

/-- Verdict of the check of two observations of a landmark. -/
def landVerdict (cfg : Cfg G T N) (f : Chr → Key → T) (x y : Btw G N) : Bool :=
  match x.noise, y.noise with
  | some nx, some ny => cfg.ops.loopOk (landErr cfg f x y nx ny)
  | _, _ => false

theorem landmarkVerdicts_spec (cfg : Cfg G T N) (l : Key) (y : Btw G N) (xs : List (Btw G N)) (p : Pcm G T N) :
    (∃ u, landmarkVerdicts cfg l y xs p = .ub u ∧ ∃ x ∈ xs, x.noise = none ∨ y.noise = none) ∨
    (∃ p', TrajOnly cfg p p' ∧ landmarkVerdicts cfg l y xs p = .ok p'
        (if xs.any (fun x => decide (x.k1 = l ∨ y.k1 = l)) then none
          else some (xs.map fun x => landVerdict cfg (lk cfg p) x y))) := by
  induction xs generalizing p with
  | nil => exact Or.inr ⟨p, TrajOnly.refl p, rfl⟩
  | cons x xs ih =>
    unfold landmarkVerdicts
    by_cases hl : x.k1 = l ∨ y.k1 = l
    · refine Or.inr ⟨p, TrajOnly.refl p, ?_⟩
      simp [hl]
    · simp only [hl, if_false, M.bind_eq]
      cases hx : x.noise with
      | none => exact Or.inl ⟨.nullDeref, by rw [toT_none cfg hx]; rfl, x, by simp, Or.inl hx⟩
      | some nx =>
        cases hy : y.noise with
        | none =>
          exact Or.inl ⟨.nullDeref, by rw [toT_some cfg hx, toT_none cfg hy]; rfl, x, by simp, Or.inr rfl⟩
        | some ny =>
          obtain ⟨p1, h1, t1⟩ := trajBetween_spec cfg (chr x.k1) x.k1 y.k1 p
          rw [toT_some cfg hx, toT_some cfg hy, M.bind_ok (M.pure_apply _ _), M.bind_ok (M.pure_apply _ _),
            M.bind_ok h1]
          rcases ih p1 with ⟨u, e, x', hx', hn⟩ | ⟨p2, t2, e⟩
          · exact Or.inl ⟨u, by rw [M.bind_apply, e], x', by simp [hx'], by rw [← hy]; exact hn⟩
          · refine Or.inr ⟨p2, t1.trans t2, ?_⟩
            rw [M.bind_ok e]
            simp only [M.pure_eq, M.pure_apply, List.any_cons, hl, decide_false, Bool.false_or, List.map_cons, t1.lk]
            have hv : cfg.ops.loopOk (cfg.ops.compose (cfg.ops.inverse (cfg.ops.compose
                (btwn cfg.ops (lk cfg p (chr x.k1)) x.k1 y.k1) (cfg.ops.ofFactor y.m ny)))
                (cfg.ops.ofFactor x.m nx)) = landVerdict cfg (lk cfg p) x y := by
              simp only [landVerdict, hx, hy, landErr]
            rw [hv]
            split <;> simp

end RPGO
