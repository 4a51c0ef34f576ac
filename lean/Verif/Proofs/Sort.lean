import Verif.Proofs.Traj
import Verif.Spec.History
/-
The classification of new factors and the odometry bookkeeping.
-/

namespace RPGO
variable {G T N : Type}

theorem isSpecial_iff (cfg : Cfg G T N) (c : Chr) : cfg.isSpecial c = true ↔ c ∈ cfg.special := by
  simp [Cfg.isSpecial]

theorem classify_btw (cfg : Cfg G T N) (vs : Vals G) (b : Btw G N) :
    classify cfg vs (.btw b) =
      if Spec.isFirstObs cfg vs b then .firstLandmark
      else if Spec.isOdom cfg vs b then .odometry
      else .loopClosure := by
  simp only [classify, Spec.isFirstObs, Spec.isOdom, Spec.isLandmark, Bool.or_eq_true, isSpecial_iff,
    KMap.mem_keys_iff, Bool.and_eq_true, decide_eq_true_eq]
  by_cases h1 : chr b.k1 ∈ cfg.special ∨ chr b.k2 ∈ cfg.special
  · by_cases h2 : vs.has b.k1 = true ∨ vs.has b.k2 = true
    · simp [h1, h2]
    · have : ¬(chr b.k1 ∉ cfg.special ∧ chr b.k2 ∉ cfg.special ∧ b.k2 = b.k1 + 1 ∧ vs.has b.k2 = true) := by
        rintro ⟨a, c, _⟩; exact h1.elim a c
      rw [if_pos h1, if_neg h2, if_neg (fun h => h2 h.2), if_neg this]
  · have h1' : chr b.k1 ∉ cfg.special ∧ chr b.k2 ∉ cfg.special := by simpa using h1
    simp only [h1, if_false, false_and]
    by_cases h3 : b.k1 + 1 = b.k2 ∧ vs.has b.k2 = true
    · rw [if_pos h3, if_pos ⟨h1'.1, h1'.2, h3.1.symm, h3.2⟩]
    · have : ¬(chr b.k1 ∉ cfg.special ∧ chr b.k2 ∉ cfg.special ∧ b.k2 = b.k1 + 1 ∧ vs.has b.k2 = true) := by
        rintro ⟨_, _, a, c⟩; exact h3 ⟨a.symm, c⟩
      rw [if_neg h3, if_neg this]

theorem isOdom_not_first {cfg : Cfg G T N} {vs : Vals G} {b : Btw G N} (h : Spec.isOdom cfg vs b = true) :
    Spec.isFirstObs cfg vs b = false := by
  simp only [Spec.isOdom, decide_eq_true_eq] at h
  simp [Spec.isFirstObs, Spec.isLandmark, h.1, h.2.1]

theorem odom_keys_ne {k1 k2 : Key} (h : k2 = k1 + 1) : k1 ≠ k2 := by
  intro e
  rw [← e] at h
  have := congrArg BitVec.toNat h
  rw [BitVec.toNat_add] at this
  have h1 : (1 : Key).toNat = 1 := rfl
  have := k1.isLt
  omega

/-- Effect of a completed odometry step on the lookups: `f0` is the lookup before the new pose is stored. -/
def odomLk (cfg : Cfg G T N) (f0 : Chr → Key → T) (b : Btw G N) (n : N) : Chr → Key → T :=
  fun c k => if c = chr b.k2 ∧ k = b.k2 then cfg.ops.compose (f0 c b.k1) (cfg.ops.ofFactor b.m n) else f0 c k

/-- What a normal return of `updateOdom` did. -/
structure OdomStep (cfg : Cfg G T N) (vals : Vals G) (b : Btw G N) (n : N) (p p' : Pcm G T N) : Prop where
  noise : b.noise = some n
  eq : p' = { p with odom := p.odom ++ [b], trajs := p'.trajs, robotOrder := p'.robotOrder }
  step : (hasTraj p (chr b.k2) = true ∧ p'.robotOrder = p.robotOrder ∧ lk cfg p' = odomLk cfg (lk cfg p) b n) ∨
    (hasTraj p (chr b.k2) = false ∧ p'.robotOrder = p.robotOrder ++ [chr b.k2] ∧
      ∃ g, vals.find? b.k1 = some (.pose g) ∧
        lk cfg p' = odomLk cfg (fun c k => if c = chr b.k2 ∧ k = b.k1 then cfg.ops.ofPose g else lk cfg p c k) b n)
  has : ∀ c, hasTraj p' c = (decide (c = chr b.k2) || hasTraj p c)
  keys : ∀ c k, (trajOf p' c).has k = (decide (c = chr b.k2 ∧ (k = b.k1 ∨ k = b.k2)) || (trajOf p c).has k)
  sorted : ∀ c, (trajOf p c).Sorted → (trajOf p' c).Sorted

/-- The state after the new pose is stored. -/
def odomSet (cfg : Cfg G T N) (p : Pcm G T N) (b : Btw G N) (n : N) : Pcm G T N :=
  setTraj p (chr b.k2) ((touch cfg.ops (trajOf p (chr b.k2)) b.k1).set b.k2
    (cfg.ops.compose (look cfg.ops (touch cfg.ops (trajOf p (chr b.k2)) b.k1) b.k1) (cfg.ops.ofFactor b.m n)))

theorem lk_odomSet (cfg : Cfg G T N) (p : Pcm G T N) (b : Btw G N) (n : N) :
    lk cfg (odomSet cfg p b n) = odomLk cfg (lk cfg p) b n := by
  funext c k
  unfold lk odomLk odomSet
  rw [trajOf_setTraj]
  by_cases h : chr b.k2 = c
  · subst h
    simp only [if_true, true_and]
    unfold look
    rw [KMap.find?_set]
    by_cases hk : b.k2 = k
    · subst hk
      simp only [if_true, Option.getD_some]
      have := look_touch cfg.ops (trajOf p (chr b.k2)) b.k1 b.k1
      unfold look at this
      rw [this]
    · simp only [hk, if_false, Ne.symm hk]
      have := look_touch cfg.ops (trajOf p (chr b.k2)) b.k1 k
      unfold look at this
      exact this
  · simp [h, Ne.symm h]

theorem has_touch_iff (ops : Ops G T N) (tr : KMap T) (a k : Key) :
    (touch ops tr a).has k = (decide (k = a) || tr.has k) := by
  unfold touch
  cases e : tr.find? a with
  | some v =>
    simp only
    by_cases h : k = a
    · subst h; simp [KMap.has, e]
    · simp [h]
  | none =>
    simp only
    rw [KMap.has_set]
    by_cases h : k = a
    · simp [h]
    · simp [h, Ne.symm h]

theorem odomSet_keys (cfg : Cfg G T N) (p : Pcm G T N) (b : Btw G N) (n : N) (c : Chr) (k : Key) :
    (trajOf (odomSet cfg p b n) c).has k =
      (decide (c = chr b.k2 ∧ (k = b.k1 ∨ k = b.k2)) || (trajOf p c).has k) := by
  unfold odomSet
  rw [trajOf_setTraj]
  by_cases h : chr b.k2 = c
  · subst h
    rw [if_pos rfl, KMap.has_set, has_touch_iff]
    by_cases h1 : k = b.k1 <;> by_cases h2 : k = b.k2 <;> simp [h1, h2, eq_comm] <;> simp_all [eq_comm]
  · rw [if_neg h]; simp [Ne.symm h]

theorem odomSet_sorted (cfg : Cfg G T N) (p : Pcm G T N) (b : Btw G N) (n : N) (c : Chr) (h : (trajOf p c).Sorted) :
    (trajOf (odomSet cfg p b n) c).Sorted := by
  unfold odomSet
  rw [trajOf_setTraj]
  split
  · rename_i e; subst e; exact (touch_sorted _ _ h).set _ _
  · exact h

theorem updateOdom_cases (cfg : Cfg G T N) (vals : Vals G) (b : Btw G N) (p : Pcm G T N) :
    (b.noise = none ∧ updateOdom cfg vals b p = .ub .nullDeref) ∨
    (b.noise.isSome ∧ hasTraj p (chr b.k2) = false ∧ (∀ g, vals.find? b.k1 ≠ some (.pose g)) ∧
      ∃ e, updateOdom cfg vals b p = .throw { p with odom := p.odom ++ [b] } e ∧
        ((e = .keyMissing ∧ vals.find? b.k1 = none) ∨ (e = .wrongType ∧ (vals.find? b.k1).isSome))) ∨
    (∃ n p', updateOdom cfg vals b p = .ok p' () ∧ OdomStep cfg vals b n p p') := by
  unfold updateOdom
  simp only [M.bind_eq]
  rw [M.bind_ok (M.modify_apply _ _)]
  cases hn : b.noise with
  | none =>
    left
    refine ⟨rfl, ?_⟩
    rw [toT_none cfg hn]
    rfl
  | some n =>
    right
    rw [toT_some cfg hn, M.bind_ok (M.pure_apply _ _), M.bind_ok (M.get_apply _)]
    simp only
    cases ht : AList.get? (· == ·) p.trajs (chr b.k2) with
    | some tr =>
      right
      refine ⟨n, odomSet cfg { p with odom := p.odom ++ [b] } b n, ?_, ⟨hn, ?_, Or.inl ⟨by simp [hasTraj, ht], ?_, ?_⟩, ?_, ?_, ?_⟩⟩
      · simp only [M.pure_eq]
        rw [M.bind_ok (M.pure_apply _ _), M.modify_apply]
        rfl
      · simp only [odomSet, setTraj]
      · simp only [odomSet, setTraj]
      · exact lk_odomSet cfg { p with odom := p.odom ++ [b] } b n
      · intro c; exact hasTraj_setTraj _ _ _ _
      · intro c k; exact odomSet_keys cfg { p with odom := p.odom ++ [b] } b n c k
      · intro c hc; exact odomSet_sorted cfg { p with odom := p.odom ++ [b] } b n c hc
    | none =>
      cases hv : vals.find? b.k1 with
      | none =>
        left
        exact ⟨rfl, by simp [hasTraj, ht], by simp, .keyMissing, rfl, Or.inl ⟨rfl, rfl⟩⟩
      | some v =>
        cases v with
        | other t =>
          left
          exact ⟨rfl, by simp [hasTraj, ht], by simp, .wrongType, rfl, Or.inr ⟨rfl, rfl⟩⟩
        | pose g =>
          right
          refine ⟨n, odomSet cfg { setTraj { p with odom := p.odom ++ [b] } (chr b.k2) [(b.k1, cfg.ops.ofPose g)] with
            robotOrder := p.robotOrder ++ [chr b.k2] } b n, ?_, ⟨hn, ?_, Or.inr ⟨by simp [hasTraj, ht], ?_, g, hv, ?_⟩, ?_, ?_, ?_⟩⟩
          · simp only
            rw [M.bind_ok (M.modify_apply _ _), M.modify_apply]
            rfl
          · simp only [odomSet, setTraj]
          · simp only [odomSet, setTraj]
          · refine Eq.trans (lk_odomSet cfg _ b n) ?_
            congr 1
            funext c k
            unfold lk
            show look cfg.ops (trajOf (setTraj p (chr b.k2) [(b.k1, cfg.ops.ofPose g)]) c) k = _
            rw [trajOf_setTraj]
            have h0 : trajOf p (chr b.k2) = [] := by simp [trajOf, ht]
            by_cases hc : chr b.k2 = c
            · subst hc
              simp only [if_true, true_and, h0]
              by_cases hk : b.k1 = k
              · subst hk; simp [look, KMap.find?_cons]
              · simp [look, KMap.find?_cons, hk, Ne.symm hk]
            · simp [hc, Ne.symm hc]
          · intro c
            unfold odomSet
            rw [hasTraj_setTraj]
            show (decide (c = chr b.k2) || hasTraj (setTraj p (chr b.k2) [(b.k1, cfg.ops.ofPose g)]) c) = _
            rw [hasTraj_setTraj]
            cases decide (c = chr b.k2) <;> simp
          · intro c k
            refine (odomSet_keys cfg _ b n c k).trans ?_
            show (_ || (trajOf (setTraj p (chr b.k2) [(b.k1, cfg.ops.ofPose g)]) c).has k) = _
            rw [trajOf_setTraj]
            have h0 : trajOf p (chr b.k2) = [] := by simp [trajOf, ht]
            by_cases hc : chr b.k2 = c
            · subst hc
              rw [if_pos rfl, h0]
              by_cases hk : b.k1 = k
              · subst hk; simp
              · simp [KMap.has, KMap.find?_cons, hk]
            · rw [if_neg hc]
          · intro c hc
            refine odomSet_sorted cfg _ b n c ?_
            show (trajOf (setTraj p (chr b.k2) [(b.k1, cfg.ops.ofPose g)]) c).Sorted
            rw [trajOf_setTraj]
            split
            · exact List.pairwise_singleton _ _
            · exact hc

/-! ### The loop over the new factors -/

/-- Filing of a first landmark observation. -/
def fileFirst (cfg : Cfg G T N) (l : List (Key × Meas G N)) (b : Btw G N) : List (Key × Meas G N) :=
  AList.upd (· == ·) Meas.empty l (landmarkKey cfg b) (fun _ => ⟨[b], [b], Mat.zero 1⟩)

/-- A sequence of completed odometry steps, with the other members free. -/
inductive OdomRun (cfg : Cfg G T N) (vals : Vals G) : List (Btw G N) → Pcm G T N → Pcm G T N → Prop where
  | nil (p : Pcm G T N) : OdomRun cfg vals [] p p
  | cons {b n p p1 p1' p2 bs} : OdomStep cfg vals b n p p1 → p1'.trajs = p1.trajs → p1'.robotOrder = p1.robotOrder →
      OdomRun cfg vals bs p1' p2 → OdomRun cfg vals (b :: bs) p p2
  | other {p p1 p2 bs} : p1.trajs = p.trajs → p1.robotOrder = p.robotOrder → OdomRun cfg vals bs p1 p2 →
      OdomRun cfg vals bs p p2

/-- What a normal return of the loop over new factors did. -/
structure Sorted (cfg : Cfg G T N) (nv vals : Vals G) (fs : Graph G N) (p p' : Pcm G T N) : Prop where
  odom : p'.odom = p.odom ++ Spec.odoms cfg nv fs
  special : p'.special = p.special ++ Spec.specials fs
  lcs : p'.lcs = p.lcs
  landmarks : p'.landmarks = (Spec.firsts cfg nv fs).foldl (fileFirst cfg) p.landmarks
  inOrder : p'.inOrder = p.inOrder
  totalLc : p'.totalLc = p.totalLc + (Spec.firsts cfg nv fs).length
  totalGood : p'.totalGood = p.totalGood
  ignored : p'.ignored = p.ignored
  run : OdomRun cfg vals (Spec.odoms cfg nv fs) p p'

theorem btws_none (fs : Graph G N) : Spec.btws (none :: fs) = Spec.btws fs := rfl
theorem btws_btw (b : Btw G N) (fs : Graph G N) : Spec.btws (some (.btw b) :: fs) = b :: Spec.btws fs := rfl
theorem specials_none (fs : Graph G N) : Spec.specials (none :: fs) = Spec.specials fs := rfl
theorem specials_btw (b : Btw G N) (fs : Graph G N) : Spec.specials (some (.btw b) :: fs) = Spec.specials fs := rfl

theorem sortFactors_ok (cfg : Cfg G T N) (nv vals : Vals G) (fs : Graph G N) (lcs : List (Btw G N)) (opt : Bool)
    (p p' : Pcm G T N) (r : List (Btw G N) × Bool) (h : sortFactors cfg nv vals fs lcs opt p = .ok p' r) :
    Sorted cfg nv vals fs p p' ∧ r.1 = lcs ++ Spec.cands cfg nv fs ∧
      r.2 = (opt || !(Spec.specials fs).isEmpty) := by
  induction fs generalizing lcs opt p with
  | nil =>
    simp only [sortFactors, M.pure_apply, Out.ok.injEq] at h
    obtain ⟨rfl, rfl⟩ := h
    refine ⟨⟨by simp [Spec.odoms, Spec.btws], by simp [Spec.specials], rfl, rfl, rfl, rfl, rfl, rfl, .nil _⟩, ?_, ?_⟩
    · simp [Spec.cands, Spec.btws]
    · simp [Spec.specials]
  | cons f fs ih =>
    cases f with
    | none =>
      obtain ⟨a, b, c⟩ := ih _ _ _ h
      exact ⟨⟨a.odom, a.special, a.lcs, a.landmarks, a.inOrder, a.totalLc, a.totalGood, a.ignored, a.run⟩, b, c⟩
    | some f =>
      cases f with
      | btw b =>
        unfold sortFactors at h
        rw [classify_btw] at h
        by_cases h1 : Spec.isFirstObs cfg nv b = true
        · have h2 : Spec.isOdom cfg nv b = false := by
            cases hh : Spec.isOdom cfg nv b
            · rfl
            · rw [isOdom_not_first hh] at h1; cases h1
          simp only [h1, if_true, M.bind_eq] at h
          rw [M.bind_ok (M.modify_apply _ _)] at h
          obtain ⟨a, bb, c⟩ := ih _ _ _ h
          refine ⟨⟨?_, ?_, ?_, ?_, ?_, ?_, ?_, ?_, ?_⟩, ?_, ?_⟩
          · rw [a.odom]; simp [Spec.odoms, btws_btw, h2, updLm]
          · rw [a.special]; simp [specials_btw, updLm]
          · rw [a.lcs]; simp [updLm]
          · rw [a.landmarks]; simp [Spec.firsts, btws_btw, h1, updLm, fileFirst]
          · rw [a.inOrder]; simp [updLm]
          · rw [a.totalLc]; simp [Spec.firsts, btws_btw, h1]; omega
          · rw [a.totalGood]; simp [updLm]
          · rw [a.ignored]; simp [updLm]
          · have : Spec.odoms cfg nv (some (.btw b) :: fs) = Spec.odoms cfg nv fs := by
              simp [Spec.odoms, btws_btw, h2]
            rw [this]
            exact OdomRun.other (by simp [updLm]) (by simp [updLm]) a.run
          · rw [bb]; simp [Spec.cands, btws_btw, Spec.isCand, h1]
          · rw [c]; simp [specials_btw]
        · by_cases h2 : Spec.isOdom cfg nv b = true
          · simp only [h1, h2, if_true, M.bind_eq] at h
            rw [if_neg (by simp)] at h
            rcases updateOdom_cases cfg vals b p with ⟨_, e⟩ | ⟨_, _, _, x, e, _⟩ | ⟨n, p1, e, st⟩
            · simp only [] at h; rw [M.bind_apply, e] at h; cases h
            · simp only [] at h; rw [M.bind_apply, e] at h; cases h
            · simp only [] at h
              rw [M.bind_ok e] at h
              obtain ⟨a, bb, c⟩ := ih _ _ _ h
              have ho : Spec.odoms cfg nv (some (.btw b) :: fs) = b :: Spec.odoms cfg nv fs := by
                simp [Spec.odoms, btws_btw, h2]
              have hf : Spec.firsts cfg nv (some (.btw b) :: fs) = Spec.firsts cfg nv fs := by
                simp [Spec.firsts, btws_btw, h1]
              have hp := st.eq
              refine ⟨⟨?_, ?_, ?_, ?_, ?_, ?_, ?_, ?_, ?_⟩, ?_, ?_⟩
              · rw [a.odom, ho, hp]; simp
              · rw [a.special, specials_btw, hp]
              · rw [a.lcs, hp]
              · rw [a.landmarks, hf, hp]
              · rw [a.inOrder, hp]
              · rw [a.totalLc, hf, hp]
              · rw [a.totalGood, hp]
              · rw [a.ignored, hp]
              · rw [ho]; exact OdomRun.cons st rfl rfl a.run
              · rw [bb]; simp [Spec.cands, btws_btw, Spec.isCand, h2]
              · rw [c]; simp [specials_btw]
          · simp only [h1, h2] at h
            have ho : Spec.odoms cfg nv (some (.btw b) :: fs) = Spec.odoms cfg nv fs := by
              simp [Spec.odoms, btws_btw, h2]
            have hf : Spec.firsts cfg nv (some (.btw b) :: fs) = Spec.firsts cfg nv fs := by
              simp [Spec.firsts, btws_btw, h1]
            have hsub : ∀ l, sortFactors cfg nv vals fs l opt p = .ok p' r →
                Sorted cfg nv vals (some (.btw b) :: fs) p p' := by
              intro l hl
              obtain ⟨a, _, _⟩ := ih _ _ _ hl
              exact ⟨by rw [ho]; exact a.odom, by rw [specials_btw]; exact a.special, a.lcs,
                by rw [hf]; exact a.landmarks, a.inOrder, by rw [hf]; exact a.totalLc, a.totalGood, a.ignored,
                by rw [ho]; exact a.run⟩
            by_cases h3 : b.k1 = b.k2
            · rw [if_neg (by simp), if_neg (by simp)] at h
              simp only [h3, ne_eq, not_true_eq_false, if_false] at h
              obtain ⟨_, bb, c⟩ := ih _ _ _ h
              refine ⟨hsub _ h, ?_, ?_⟩
              · rw [bb]; simp [Spec.cands, btws_btw, Spec.isCand, h3]
              · rw [c]; simp [specials_btw]
            · rw [if_neg (by simp), if_neg (by simp)] at h
              simp only [ne_eq, h3, not_false_eq_true, if_true] at h
              obtain ⟨_, bb, c⟩ := ih _ _ _ h
              refine ⟨hsub _ h, ?_, ?_⟩
              · rw [bb]; simp [Spec.cands, btws_btw, Spec.isCand, h1, h2, h3]
              · rw [c]; simp [specials_btw]
      | _ =>
        all_goals
          unfold sortFactors at h
          simp only [classify, M.bind_eq] at h
          rw [M.bind_ok (M.modify_apply _ _)] at h
          obtain ⟨a, bb, c⟩ := ih _ _ _ h
          refine ⟨⟨a.odom, ?_, a.lcs, a.landmarks, a.inOrder, a.totalLc, a.totalGood, a.ignored, ?_⟩, bb, ?_⟩
          · rw [a.special]; simp [Spec.specials]
          · exact OdomRun.other (p1 := { p with special := p.special ++ [_] }) rfl rfl a.run
          · rw [c]; simp [Spec.specials]

end RPGO
