import Verif.Proofs.Gauge
import Verif.Props.Values
import Verif.Props.Formula
/-
C58: the graph that is built does not depend on the initial guess.
-/

namespace RPGO.Spec
variable {G T N : Type}

/-- Calls that supply the same factors: the same call, or updates with the same factors and values for the same keys,
whatever the values and the optimization flag, or the same prior removal with another flag. -/
def SameFactors (o1 o2 : Op G N) : Prop :=
  o1 = o2 ∨
  (∃ fs v1 v2, batch o1 = some (fs, v1) ∧ batch o2 = some (fs, v2) ∧ ∀ k, k ∈ v1.keys ↔ k ∈ v2.keys) ∨
  ∃ c x y, o1 = .removePriors c x ∧ o2 = .removePriors c y

/-- Two histories that supply the same factors in the same order, with values for the same keys; the values, the
optimization flags and the calls that are not about factors may differ. -/
inductive SameGraphCalls : List (Op G N) → List (Op G N) → Prop where
  | nil : SameGraphCalls [] []
  | both {h1 h2 o1 o2} : SameGraphCalls h1 h2 → SameFactors o1 o2 → SameGraphCalls (h1 ++ [o1]) (h2 ++ [o2])
  | left {h1 h2 o} : SameGraphCalls h1 h2 → Silent o → SameGraphCalls (h1 ++ [o]) h2
  | right {h1 h2 o} : SameGraphCalls h1 h2 → Silent o → SameGraphCalls h1 (h2 ++ [o])

/-- When a loop-closure candidate arrives, the odometry of its robots (including that of the same call) reaches both
of its keys; when a landmark observation arrives, the odometry reaches the pose it was made from. -/
structure OnOdometry (cfg : Cfg G T N) (start : Chr → Key) (h : List (Op G N)) : Prop where
  closures : ∀ h1 op h2, h = h1 ++ op :: h2 → ∀ b ∈ opCands cfg op, isLandmark cfg b = false →
    OnChain cfg start (h1 ++ [op]) b.k1 ∧ OnChain cfg start (h1 ++ [op]) b.k2
  landmarks : ∀ h1 op h2, h = h1 ++ op :: h2 → ∀ b ∈ opBtws op, isLandmark cfg b = true → chr b.k1 ∉ cfg.special →
    OnChain cfg start (h1 ++ [op]) b.k1

/-- Each landmark is observed by one robot: landmark `l` only by robot `owner l`. -/
def OneObserver (cfg : Cfg G T N) (owner : Key → Chr) (h : List (Op G N)) : Prop :=
  ∀ op ∈ h, ∀ b ∈ opBtws op, chr b.k2 ∈ cfg.special → chr b.k1 ∉ cfg.special → chr b.k1 = owner b.k2

/-- The same calls with every supplied pose moved by `g` from the left. -/
def movedVals [Mul G] [Inv G] [One G] (g : G) (vs : Vals G) : Vals G :=
  vs.map fun e => (e.1, match e.2 with | .pose x => .pose (g * x) | v => v)

/-- The same call with the poses of its values moved by `g`. -/
def moved [Mul G] [Inv G] [One G] (g : G) : Op G N → Op G N
  | .update fs vs o => .update fs (movedVals g vs) o
  | .forceUpdate fs vs => .forceUpdate fs (movedVals g vs)
  | op => op

end RPGO.Spec

namespace RPGO
variable {G T N : Type}

theorem cands_keys {cfg : Cfg G T N} {v w : Vals G} (h : ∀ k, k ∈ v.keys ↔ k ∈ w.keys) (fs : Graph G N) :
    Spec.cands cfg v fs = Spec.cands cfg w fs ∧ Spec.odoms cfg v fs = Spec.odoms cfg w fs ∧
      Spec.firsts cfg v fs = Spec.firsts cfg w fs := by
  have h1 : Spec.isOdom cfg v = (Spec.isOdom cfg w : Btw G N → Bool) := by funext b; unfold Spec.isOdom; simp only [h]
  have h2 : Spec.isFirstObs cfg v = (Spec.isFirstObs cfg w : Btw G N → Bool) := by
    funext b; unfold Spec.isFirstObs; simp only [h]
  have h3 : Spec.isCand cfg v = (Spec.isCand cfg w : Btw G N → Bool) := by funext b; unfold Spec.isCand; rw [h1, h2]
  exact ⟨by unfold Spec.cands; rw [h3], by unfold Spec.odoms; rw [h1], by unfold Spec.firsts; rw [h2]⟩

theorem insertVals_has {vs v v' : Vals G} (h : insertVals vs v = .ok v' ()) (k : Key) :
    v'.has k = (v.has k || decide (k ∈ vs.keys)) := by
  have h1 := (insertVals_ok h).1 k
  unfold KMap.has at h1 ⊢
  rw [h1]
  by_cases hv : (v.find? k).isSome = true
  · simp [hv]
  · rw [if_neg hv, Bool.eq_false_iff.2 hv, Bool.false_or]
    have := KMap.mem_keys_iff vs k
    unfold KMap.has at this
    by_cases hk : k ∈ vs.keys
    · simp [hk, this.1 hk]
    · rw [decide_eq_false hk]
      exact Bool.eq_false_iff.2 fun e => hk (this.2 e)

theorem silent_odom {cfg : Cfg G T N} {op : Op G N} (h : Spec.Silent op) :
    Spec.opOdom cfg op = [] ∧ Spec.opKeys op = [] := by
  cases op <;> first | exact h.elim | exact ⟨rfl, rfl⟩

theorem sameFactors_odom {cfg : Cfg G T N} {o1 o2 : Op G N} (h : Spec.SameFactors o1 o2) :
    Spec.opOdom cfg o1 = Spec.opOdom cfg o2 ∧ ∀ k, k ∈ Spec.opKeys o1 ↔ k ∈ Spec.opKeys o2 := by
  rcases h with rfl | ⟨fs, v1, v2, h1, h2, hk⟩ | ⟨c, x, y, rfl, rfl⟩
  · exact ⟨rfl, fun _ => Iff.rfl⟩
  · refine ⟨?_, ?_⟩
    · unfold Spec.opOdom
      rw [h1, h2]
      exact (cands_keys hk fs).2.1
    · intro k
      cases o1 <;> simp only [Spec.batch, Option.some.injEq, Prod.mk.injEq, reduceCtorEq] at h1 <;>
        cases o2 <;> simp only [Spec.batch, Option.some.injEq, Prod.mk.injEq, reduceCtorEq] at h2 <;>
        · obtain ⟨rfl, rfl⟩ := h1
          obtain ⟨rfl, rfl⟩ := h2
          exact hk k
  · exact ⟨rfl, fun _ => Iff.rfl⟩

theorem sameGraph_odom {cfg : Cfg G T N} {h1 h2 : List (Op G N)} (h : Spec.SameGraphCalls h1 h2) :
    Spec.odomSoFar cfg h1 = Spec.odomSoFar cfg h2 ∧
      ∀ k, (∃ op ∈ h1, k ∈ Spec.opKeys op) ↔ ∃ op ∈ h2, k ∈ Spec.opKeys op := by
  have snoc : ∀ (h : List (Op G N)) op, Spec.odomSoFar cfg (h ++ [op]) = Spec.odomSoFar cfg h ++ Spec.opOdom cfg op := by
    intro h op; unfold Spec.odomSoFar; simp
  have ex : ∀ (h : List (Op G N)) op (k : Key), (∃ o ∈ h ++ [op], k ∈ Spec.opKeys o) ↔
      (∃ o ∈ h, k ∈ Spec.opKeys o) ∨ k ∈ Spec.opKeys op := by
    intro h op k
    constructor
    · rintro ⟨o, ho, hk⟩
      rcases List.mem_append.1 ho with ho | ho
      · exact Or.inl ⟨o, ho, hk⟩
      · rw [List.mem_singleton] at ho; subst ho; exact Or.inr hk
    · rintro (⟨o, ho, hk⟩ | hk)
      · exact ⟨o, by simp [ho], hk⟩
      · exact ⟨op, by simp, hk⟩
  induction h with
  | nil => exact ⟨rfl, fun _ => Iff.rfl⟩
  | both _ ho ih =>
    obtain ⟨a, b⟩ := sameFactors_odom (cfg := cfg) ho
    refine ⟨by rw [snoc, snoc, ih.1, a], fun k => ?_⟩
    rw [ex, ex, ih.2 k, b k]
  | left _ ho ih =>
    obtain ⟨a, b⟩ := silent_odom (cfg := cfg) ho
    refine ⟨by rw [snoc, a, List.append_nil, ih.1], fun k => ?_⟩
    rw [ex, b, ih.2 k]; simp
  | right _ ho ih =>
    obtain ⟨a, b⟩ := silent_odom (cfg := cfg) ho
    refine ⟨by rw [snoc, a, List.append_nil, ih.1], fun k => ?_⟩
    rw [ex, b, ih.2 k]; simp

theorem OnChain.mono {cfg : Cfg G T N} {start : Chr → Key} {h h' : List (Op G N)} {k : Key}
    (ho : Spec.OnChain cfg start h k) : Spec.OnChain cfg start (h ++ h') k := by
  obtain ⟨i, hi, e⟩ := ho
  refine ⟨i, Nat.le_trans hi ?_, e⟩
  unfold Spec.robotOdom Spec.odomSoFar
  rw [List.flatMap_append, List.filter_append, List.length_append]
  exact Nat.le_add_right _ _

theorem Chains.init {cfg : Cfg G T N} {start : Chr → Key} {h : List (Op G N)} {op : Op G N}
    (hc : Spec.Chains cfg start (h ++ [op])) : Spec.Chains cfg start h := by
  intro c
  obtain ⟨a, b, d⟩ := hc c
  rw [robotOdom_snoc] at b d
  refine ⟨a, Chain.prefix b, ?_⟩
  rw [List.length_append] at d
  omega

theorem OnOdometry.init {cfg : Cfg G T N} {start : Chr → Key} {h : List (Op G N)} {op : Op G N}
    (hc : Spec.OnOdometry cfg start (h ++ [op])) : Spec.OnOdometry cfg start h where
  closures h1 o h2 e b hb := hc.closures h1 o (h2 ++ [op]) (by rw [e]; simp) b hb
  landmarks h1 o h2 e b hb := hc.landmarks h1 o (h2 ++ [op]) (by rw [e]; simp) b hb

theorem chains_separate {cfg : Cfg G T N} {start : Chr → Key} {owner : Key → Chr} {h : List (Op G N)}
    (hc : Spec.Chains cfg start h) (ho : Spec.OneObserver cfg owner h) : Spec.Separate cfg owner h := by
  refine ⟨?_, ho⟩
  intro op hop b hb
  obtain ⟨h0, ch, _⟩ := hc (chr b.k2)
  have hm : b ∈ Spec.robotOdom cfg (chr b.k2) h :=
    List.mem_filter.2 ⟨List.mem_flatMap.2 ⟨op, hop, hb⟩, by simp⟩
  obtain ⟨i, hi, e⟩ := List.getElem_of_mem hm
  have e' : (Spec.robotOdom cfg (chr b.k2) h)[i]? = some b := by rw [List.getElem?_eq_getElem hi, e]
  rw [(Chain.get ch i e').1]
  cases i with
  | zero => simpa [Spec.after] using h0
  | succ j =>
    have hj : (Spec.robotOdom cfg (chr b.k2) h)[j]? = some (Spec.robotOdom cfg (chr b.k2) h)[j] :=
      List.getElem?_eq_getElem (by omega)
    rw [← (Chain.get ch j hj).2]
    simpa using (List.mem_filter.1 (List.getElem_mem (show j < (Spec.robotOdom cfg (chr b.k2) h).length by omega))).2

section
variable [Mul G] [Inv G] [One G]

theorem verdicts_same {G : Type} [Group G] {cfg : Cfg G T N} (hs : StartFree cfg.ops) {env env' : Env G N}
    (hr : cfg.rejection = true) {h h' : List (Op G N)} {s s' : St G T N} (r : ReachOk cfg env h s)
    (r' : ReachOk cfg env' h' s') {start : Chr → Key} (hc : Spec.Chains cfg start h)
    (same : Spec.odomSoFar cfg h = Spec.odomSoFar cfg h') :
    (∀ b : Btw G N, chr b.k1 = chr b.k2 → Spec.OnChain cfg start h b.k1 → Spec.OnChain cfg start h b.k2 →
      odomVerdict cfg (lk cfg s.pcm) b = odomVerdict cfg (lk cfg s'.pcm) b) ∧
    (∀ x y : Btw G N, Spec.SamePair x y → (∀ k ∈ [x.k1, x.k2, y.k1, y.k2], Spec.OnChain cfg start h k) →
      loopVerdict cfg (lk cfg s.pcm) x y = loopVerdict cfg (lk cfg s'.pcm) x y) ∧
    (∀ x y : Btw G N, chr x.k1 = chr y.k1 → Spec.OnChain cfg start h x.k1 → Spec.OnChain cfg start h y.k1 →
      landVerdict cfg (lk cfg s.pcm) x y = landVerdict cfg (lk cfg s'.pcm) x y) := by
  obtain ⟨c1, c2⟩ := r.sameChecks hs hr r' hc (fun c => by unfold Spec.robotOdom; rw [same])
  refine ⟨fun b hk h1 h2 => ?_, fun x y hp hon => ?_, fun x y hk hx hy => ?_⟩
  · cases hn : b.noise with
    | none => unfold odomVerdict; rw [hn]
    | some n =>
      obtain ⟨v, v1, v2⟩ := c1 b (by rw [hn]; rfl) hk h1 h2
      rw [← odomCheck_val v1, ← odomCheck_val v2]
  · cases hx : x.noise with
    | none => unfold loopVerdict; rw [hx]
    | some n =>
      cases hy : y.noise with
      | none => unfold loopVerdict; rw [hx, hy]
      | some m =>
        obtain ⟨v, v1, v2⟩ := c2 x y (by rw [hx]; rfl) (by rw [hy]; rfl) hp hon
        rw [← pairCheck_val v1, ← pairCheck_val v2]
  · unfold landVerdict landErr
    rw [r.onChain hs hr r' hc (fun c => by unfold Spec.robotOdom; rw [same]) hk hx hy]

/-- Everything registered lies on odometry. -/
theorem lcs_onChain {cfg : Cfg G T N} {env : Env G N} (hr : cfg.rejection = true) {h : List (Op G N)} {s : St G T N}
    (r : Reach cfg env h s) {start : Chr → Key} (ho : Spec.OnOdometry cfg start h) (h' : List (Op G N)) :
    AllIn (fun b => Spec.OnChain cfg start (h ++ h') b.k1 ∧ Spec.OnChain cfg start (h ++ h') b.k2) s.pcm.lcs := by
  refine (r.prov hr).lcs.mono fun b hb => ?_
  obtain ⟨⟨h1, op, h2, fs, vs, s1, s2, e, _, _, hbt, hbc, _⟩, hl⟩ := hb
  have := ho.closures h1 op h2 e b (by unfold Spec.opCands; rw [hbt]; exact hbc) hl
  have e' : h ++ h' = (h1 ++ [op]) ++ (h2 ++ h') := by rw [e]; simp
  rw [e']
  exact ⟨OnChain.mono this.1, OnChain.mono this.2⟩

theorem landmarks_onChain {cfg : Cfg G T N} {env : Env G N} (hr : cfg.rejection = true) {h : List (Op G N)} {s : St G T N}
    (r : Reach cfg env h s) {start : Chr → Key} (ho : Spec.OnOdometry cfg start h) (h' : List (Op G N)) :
    AllIn (fun b => chr b.k1 ∉ cfg.special → Spec.OnChain cfg start (h ++ h') b.k1) s.pcm.landmarks := by
  refine (r.prov hr).landmarks.mono fun b hb hsp => ?_
  have : ∃ h1 op h2, h = h1 ++ op :: h2 ∧ b ∈ Spec.opBtws op := by
    rcases hb.1 with ⟨h1, op, h2, fs, vs, s1, s2, e, _, _, hbt, hbc, _⟩ | ⟨op, hop, fs, vs, hbt, hbf⟩
    · exact ⟨h1, op, h2, e, by unfold Spec.opBtws; rw [hbt]; exact (List.mem_filter.1 hbc).1⟩
    · obtain ⟨h1, h2, e⟩ := List.append_of_mem hop
      exact ⟨h1, op, h2, e, by unfold Spec.opBtws; rw [hbt]; exact (List.mem_filter.1 hbf).1⟩
  obtain ⟨h1, op, h2, e, hbm⟩ := this
  have := ho.landmarks h1 op h2 e b hbm hb.2 hsp
  have e' : h ++ h' = (h1 ++ [op]) ++ (h2 ++ h') := by rw [e]; simp
  rw [e']
  exact OnChain.mono this

theorem LmIn.first {cfg : Cfg G T N} {Q : Key → Btw G N → Prop} {l : List (Key × Meas G N)} (h : LmIn Q l) (bs : List (Btw G N))
    (hb : ∀ b ∈ bs, Q (landmarkKey cfg b) b) : LmIn Q (bs.foldl (fileFirst cfg) l) := by
  refine fileFirst_induct bs h fun l hl b hm e he x hx => ?_
  rcases AList.mem_upd he with he | ⟨rfl, _⟩ | ⟨v, hv, hk, h2, h3⟩
  · exact hl e he x hx
  · rw [List.mem_singleton.1 hx]; exact hb b hm
  · have hk : e.1 = landmarkKey cfg b := by simpa using hk
    rw [h2] at hx
    rw [List.mem_singleton.1 hx, hk]
    exact hb b hm

/-- Every landmark observation is filed under its landmark. -/
theorem Reach.lmFiled {cfg : Cfg G T N} {env : Env G N} (hr : cfg.rejection = true) {h : List (Op G N)} {s : St G T N}
    (r : Reach cfg env h s) : LmIn (fun l b => landmarkKey cfg b = l) s.pcm.landmarks := by
  refine Reach.induct (Inv := fun _ p => LmIn (fun l b => landmarkKey cfg b = l) p.landmarks) hr (by intro e he; cases he) ?_ r
  intro h s op s' r c ih st
  generalize s'.pcm = q at st
  cases st with
  | other _ he =>
    cases he with
    | same => exact ih
    | priors => exact ih
    | ignore => split <;> exact ih
    | revive => exact ih
    | pair hm hr => exact ih
    | pop _ => exact ih
    | last _ hm hr => exact ih
  | none _ => exact ih
  | sort hb hi hfs ho hS hx1 hx2 =>
    show LmIn _ _
    rw [hS.landmarks]; exact ih.first _ fun _ _ => rfl
  | cands hb hne hi hS ht hsel hg hro =>
    rename_i fs vs v1 p1 q p2 ro
    have hq : LmIn (fun l b => landmarkKey cfg b = l) q.landmarks := by
      rw [ht.eq]
      exact parseFold_induct (Inv := fun p => LmIn (fun l b => landmarkKey cfg b = l) p.landmarks) (Spec.cands cfg vs fs)
        (by rw [hS.landmarks]; exact ih.first _ fun _ _ => rfl) (fun p hp b _ _ => hp) (fun p hp b _ _ => hp.reg rfl)
    intro e he x hx
    obtain ⟨e', he', h1, h2⟩ := Table.mem hsel.landmarks he
    rw [h1]
    rw [h2.factors] at hx
    exact hq e' he' x hx

/-- Everything registered was supplied. -/
theorem lcs_supplied {cfg : Cfg G T N} {env : Env G N} (hr : cfg.rejection = true) {h : List (Op G N)} {s : St G T N}
    (r : Reach cfg env h s) : AllIn (fun b => ∃ op ∈ h, b ∈ Spec.opBtws op) s.pcm.lcs := by
  refine (r.prov hr).lcs.mono fun b hb => ?_
  obtain ⟨⟨h1, op, h2, fs, vs, s1, s2, e, _, _, hbt, hbc, _⟩, hl⟩ := hb
  exact ⟨op, by rw [e]; simp, by unfold Spec.opBtws; rw [hbt]; exact (List.mem_filter.1 hbc).1⟩

theorem landmarks_supplied {cfg : Cfg G T N} {env : Env G N} (hr : cfg.rejection = true) {h : List (Op G N)} {s : St G T N}
    (r : Reach cfg env h s) : AllIn (fun b => ∃ op ∈ h, b ∈ Spec.opBtws op) s.pcm.landmarks := by
  refine (r.prov hr).landmarks.mono fun b hb => ?_
  rcases hb.1 with ⟨h1, op, h2, fs, vs, s1, s2, e, _, _, hbt, hbc, _⟩ | ⟨op, hop, fs, vs, hbt, hbf⟩
  · exact ⟨op, by rw [e]; simp, by unfold Spec.opBtws; rw [hbt]; exact (List.mem_filter.1 hbc).1⟩
  · exact ⟨op, hop, by unfold Spec.opBtws; rw [hbt]; exact (List.mem_filter.1 hbf).1⟩

theorem checked_of_cand {cfg : Cfg G T N} {op : Op G N} {fs : Graph G N} {vs : Vals G} {b : Btw G N} (hb : Spec.batch op = some (fs, vs))
    (h : b ∈ Spec.cands cfg vs fs) : b ∈ Spec.opBtws op ∧ b ∉ Spec.opOdom cfg op := by
  obtain ⟨h1, h2⟩ := List.mem_filter.1 h
  unfold Spec.opBtws Spec.opOdom
  rw [hb]
  refine ⟨h1, fun h3 => ?_⟩
  have := (List.mem_filter.1 h3).2
  unfold Spec.isCand at h2
  rw [this] at h2
  simp at h2

theorem checked_of_first {cfg : Cfg G T N} {op : Op G N} {fs : Graph G N} {vs : Vals G} {b : Btw G N} (hb : Spec.batch op = some (fs, vs))
    (h : b ∈ Spec.firsts cfg vs fs) : b ∈ Spec.opBtws op ∧ b ∉ Spec.opOdom cfg op := by
  obtain ⟨h1, h2⟩ := List.mem_filter.1 h
  unfold Spec.opBtws Spec.opOdom
  rw [hb]
  refine ⟨h1, fun h3 => ?_⟩
  have := of_decide_eq_true (List.mem_filter.1 h3).2
  have hl := isLandmark_of_first h
  simp [Spec.isLandmark, this.1, this.2.1] at hl

/-- Everything registered was supplied, and not as odometry. -/
theorem lcs_checked {cfg : Cfg G T N} {env : Env G N} (hr : cfg.rejection = true) {h : List (Op G N)} {s : St G T N}
    (r : Reach cfg env h s) : AllIn (Spec.Checked cfg h) s.pcm.lcs := by
  refine (r.prov hr).lcs.mono fun b hb => ?_
  obtain ⟨⟨h1, op, h2, fs, vs, s1, s2, e, _, _, hbt, hbc, _⟩, hl⟩ := hb
  exact ⟨op, by rw [e]; simp, checked_of_cand hbt hbc⟩

theorem landmarks_checked {cfg : Cfg G T N} {env : Env G N} (hr : cfg.rejection = true) {h : List (Op G N)} {s : St G T N}
    (r : Reach cfg env h s) : AllIn (Spec.Checked cfg h) s.pcm.landmarks := by
  refine (r.prov hr).landmarks.mono fun b hb => ?_
  rcases hb.1 with ⟨h1, op, h2, fs, vs, s1, s2, e, _, _, hbt, hbc, _⟩ | ⟨op, hop, fs, vs, hbt, hbf⟩
  · exact ⟨op, by rw [e]; simp, checked_of_cand hbt hbc⟩
  · exact ⟨op, hop, checked_of_first hbt hbf⟩

/-- The checks of two solvers give the same verdicts on the measurements in `D` that lie on odometry. -/
structure SameVerdicts (cfg cfg' : Cfg G T N) (start : Chr → Key) (h : List (Op G N)) (D : Btw G N → Prop) (p q : Pcm G T N) : Prop where
  odom : ∀ b, D b → chr b.k1 = chr b.k2 → Spec.OnChain cfg start h b.k1 → Spec.OnChain cfg start h b.k2 →
    odomVerdict cfg (lk cfg p) b = odomVerdict cfg' (lk cfg q) b
  loop : ∀ x y, D x → D y → Spec.isLandmark cfg x = false → Spec.isLandmark cfg y = false → Spec.SamePair x y → (∀ k ∈ [x.k1, x.k2, y.k1, y.k2], Spec.OnChain cfg start h k) →
    loopVerdict cfg (lk cfg p) x y = loopVerdict cfg' (lk cfg q) x y
  land : ∀ l x y, D x → D y → x.k2 = l → y.k2 = l → chr x.k1 = chr y.k1 → Spec.OnChain cfg start h x.k1 → Spec.OnChain cfg start h y.k1 →
    landVerdict cfg (lk cfg p) x y = landVerdict cfg' (lk cfg q) x y

/-- Two solvers whose checks give the same verdicts register the same. -/
theorem twin_of_verdicts {cfg : Cfg G T N} {co cl : T → Bool} {e1 e2 : Env G N} (hr : cfg.rejection = true)
    {owner : Key → Chr} (hown : ∀ l, owner l ∉ cfg.special) {h1 h2 : List (Op G N)} (hc : Spec.SameGraphCalls h1 h2)
    (hm : ∀ op ∈ h1, Spec.Managed op) (hob : Spec.OneObserver cfg owner h1) {start : Chr → Key} (hch : Spec.Chains cfg start h1)
    (hon : Spec.OnOdometry cfg start h1) {s1 s2 : St G T N} (r1 : ReachOk cfg e1 h1 s1) (r2 : ReachOk (cfg.recheck co cl) e2 h2 s2)
    (hv : ∀ g1 g2 t1 t2, g1 <+: h1 → Spec.SameGraphCalls g1 g2 → Spec.Chains cfg start g1 → ReachOk cfg e1 g1 t1 →
      ReachOk (cfg.recheck co cl) e2 g2 t2 →
      SameVerdicts cfg (cfg.recheck co cl) start g1 (Spec.Checked cfg g1) t1.pcm t2.pcm) :
    Twin s1.pcm s2.pcm := by
  have hr' : (cfg.recheck co cl).rejection = true := hr
  induction hc generalizing s1 s2 with
  | nil =>
    have k1 : ∀ {cfg : Cfg G T N} {e : Env G N} {s : St G T N}, ReachOk cfg e [] s → s = St.init := by
      intro cfg e s r
      generalize hh : ([] : List (Op G N)) = h' at r
      cases r with
      | init => rfl
      | step => simp at hh
    rw [k1 r1, k1 r2]
    exact Twin.refl _
  | @both h1 h2 o1 o2 hc ho ih =>
    have hall : Spec.SameGraphCalls (h1 ++ [o1]) (h2 ++ [o2]) := .both hc ho
    obtain ⟨t1, x1, q1, y1⟩ := r1.snoc_inv
    obtain ⟨t2, x2, q2, y2⟩ := r2.snoc_inv
    have ht := ih (fun op h => hm op (by simp [h])) (fun op h => hob op (by simp [h])) (Chains.init hch) (OnOdometry.init hon) q1 q2
      fun g1 g2 t1 t2 hp => hv g1 g2 t1 t2 (hp.trans (List.prefix_append _ _))
    have hm1 : Spec.Managed o1 := hm o1 (by simp)
    have other : ∀ o2 : Op G N, Spec.batch o1 = none → exec (cfg.recheck co cl) e2 o2 t2 = .ok s2 x2 → (o2 = o1 ∨
        ∃ c x y, o1 = .removePriors c x ∧ o2 = .removePriors c y) → Twin s1.pcm s2.pcm := by
      intro o2 hb y2 ho
      obtain ⟨u1, a1, p1, z1⟩ := exec_ok_phase hr y1
      obtain ⟨u2, a2, p2, z2⟩ := exec_ok_phase hr' y2
      have fr : ∀ {cfg : Cfg G T N} {e : Env G N} {s u : St G T N} {o : Bool},
          ((o = true ∧ optimize cfg e u = .ok s ()) ∨ (o = false ∧ s = u)) → s.pcm = u.pcm := by
        rintro cfg e s u o (⟨_, h⟩ | ⟨_, rfl⟩)
        · exact ((optimize_frame cfg e).of_ok h).pcm
        · rfl
      rw [fr z1, fr z2]
      rcases ho with rfl | ⟨c, x, y, rfl, rfl⟩
      · exact phase1_twin hr hm1 hb ht p1 p2
      · have : phase1 (cfg.recheck co cl) e2 (.removePriors c x) t2 = .ok u2 (.unit, x) := by
          cases p2; rfl
        exact phase1_twin hr hm1 hb ht p1 this
    have batch : ∀ fs v1 v2, Spec.batch o1 = some (fs, v1) → Spec.batch o2 = some (fs, v2) →
        (∀ k, k ∈ v1.keys ↔ k ∈ v2.keys) → Twin s1.pcm s2.pcm := by
      intro fs v1 v2 hb1 hb2 hk
      have hd1 := (exec_batch e1 hr hb1 t1).1 _ _ y1
      have hd2 := (exec_batch e2 hr' hb2 t2).1 _ _ y2
      obtain ⟨kc, ko, kf⟩ := cands_keys (cfg := cfg) hk fs
      cases hd1 with
      | empty hf _ hfr =>
        cases hd2 with
        | empty _ _ hfr2 => rw [hfr.pcm, hfr2.pcm]; exact ht
        | full hne => exact absurd hf hne
      | full hne hi hS n1 c1 ha hfr =>
        cases hd2 with
        | empty hf => exact absurd hf hne
        | full hne' hi' hS' n1' c1' ha' hfr' =>
          rename_i w1 p1 p2 u1 w2 q1' q2' u2
          have hp : s1.pcm = { p2 with robotOrder := u1.pcm.robotOrder } := by rw [hfr.pcm, ha.eq]
          have hp' : s2.pcm = { q2' with robotOrder := u2.pcm.robotOrder } := by rw [hfr'.pcm, ha'.eq]
          have hst : Twin p1 q1' := by
            refine ⟨?_, ?_, ?_, ?_, ?_, ?_, ?_, ?_⟩
            · rw [hS.odom, hS'.odom, ht.odom, ko]; rfl
            · rw [hS.special, hS'.special, ht.special]
            · rw [hS.lcs, hS'.lcs, ht.lcs]
            · rw [hS.landmarks, hS'.landmarks, ht.landmarks, kf]; rfl
            · rw [hS.inOrder, hS'.inOrder, ht.inOrder]
            · rw [hS.totalLc, hS'.totalLc, ht.totalLc, kf]; rfl
            · rw [hS.totalGood, hS'.totalGood, ht.totalGood]
            · rw [hS.ignored, hS'.ignored, ht.ignored]
          have goal : Twin p2 q2' := by
            by_cases hcs : Spec.cands cfg v1 fs = []
            · rw [n1 hcs, n1' (show Spec.cands cfg v2 fs = [] by rw [← kc, hcs])]
              exact hst
            · have g1 := c1 hcs
              have g2 := c1' (show Spec.cands cfg v2 fs ≠ [] by rw [← kc]; exact hcs)
              rw [show Spec.cands (cfg.recheck co cl) v2 fs = Spec.cands cfg v1 fs from kc.symm] at g2
              have lks : ∀ {cfg : Cfg G T N} {v : Vals G} {bs : List (Btw G N)} {p p' : Pcm G T N}, processCands cfg v bs p = .ok p' () →
                  lk cfg p' = lk cfg p := by
                intro cfg v bs p p' h
                have he := processCands_ends cfg v bs p
                rw [h] at he
                obtain ⟨q, hq, hsel, _⟩ := he
                exact processed_lk hq hsel
              have l1 : lk cfg p1 = lk cfg s1.pcm := by rw [hp, ← lks g1]; rfl
              have l2 : lk cfg q1' = lk cfg s2.pcm := by
                rw [hp', show lk cfg q1' = lk (cfg.recheck co cl) q1' from rfl, ← lks g2]; rfl
              obtain ⟨vo, vl, vm⟩ := hv _ _ _ _ (List.prefix_refl _) hall hch r1 r2
              have hhas : ∀ k, t1.values.has k = t2.values.has k := by
                intro k
                rw [Bool.eq_iff_iff]
                have hk := (sameGraph_odom (cfg := cfg) hc).2 k
                exact ⟨fun h => reachOk_values q2 k (hk.1 ((reach_values q1.reach).2 k h)),
                  fun h => reachOk_values q1 k (hk.2 ((reach_values q2.reach).2 k h))⟩
              have sep := chains_separate hch hob
              have own0 : Own cfg owner (fun _ => True) (fun _ => True) t1.pcm :=
                q1.reach.own_all hr (chains_separate (Chains.init hch) fun op h => hob op (by simp [h]))
                  fun _ _ _ _ _ => ⟨trivial, trivial⟩
              have obs : ∀ b ∈ Spec.btws fs, Observed cfg owner (fun _ => True) (fun _ => True) b := by
                intro b hb
                exact ⟨fun _ _ _ => ⟨trivial, trivial⟩, fun h1 h2 => ⟨hob o1 (by simp) b (by unfold Spec.opBtws; rw [hb1]; exact hb) h1 h2, trivial⟩⟩
              have own1 : Own cfg owner (fun _ => True) (fun _ => True) p1 :=
                own0.sortedBatch hS (fun b hb => ⟨sep.odom o1 (by simp) b (by unfold Spec.opOdom; rw [hb1]; exact hb), trivial, trivial⟩)
                  fun b hb _ => obs b hb
              have lmOn : ∀ b ∈ Spec.btws fs, Spec.isLandmark cfg b = true → chr b.k1 ∉ cfg.special →
                  Spec.OnChain cfg start (h1 ++ [o1]) b.k1 := fun b hb =>
                hon.landmarks h1 o1 [] rfl b (by unfold Spec.opBtws; rw [hb1]; exact hb)
              have on1 : AllIn (fun b => chr b.k1 ∉ cfg.special → Spec.OnChain cfg start (h1 ++ [o1]) b.k1) p1.landmarks := by
                rw [hS.landmarks]
                refine fileFirst_all _ (landmarks_onChain hr q1.reach (OnOdometry.init hon) _) ?_
                intro b hb
                exact lmOn b (List.mem_filter.1 hb).1 (isLandmark_of_first hb)
              refine processCands_twin (P := fun b => (Spec.OnChain cfg start (h1 ++ [o1]) b.k1 ∧
                Spec.OnChain cfg start (h1 ++ [o1]) b.k2) ∧ Spec.Checked cfg (h1 ++ [o1]) b ∧ Spec.isLandmark cfg b = false)
                (Q := fun l b => b.k1 ≠ l → (chr b.k1 = owner l ∧ Spec.OnChain cfg start (h1 ++ [o1]) b.k1) ∧
                  b.k2 = l ∧ Spec.Checked cfg (h1 ++ [o1]) b) ?_ ?_ ?_ ?_ ?_ ?_ hst ?_ ?_ ?_ g1 g2
              · intro k
                rw [insertVals_has hi, insertVals_has hi', hhas k]
                simp only [hk k]
              · intro b hb hl
                exact ⟨hon.closures h1 o1 [] rfl b (by unfold Spec.opCands; rw [hb1]; exact hb) hl,
                  ⟨o1, by simp, checked_of_cand hb1 hb⟩, hl⟩
              · intro b hb hl hne
                have hbm := (List.mem_filter.1 hb).1
                have := (obs b hbm).key (by simpa [Spec.isLandmark, Cfg.isSpecial] using hl) hne
                refine ⟨⟨this.1, lmOn b hbm hl (by rw [this.1]; exact hown _)⟩, ?_, o1, by simp, checked_of_cand hb1 hb⟩
                unfold landmarkKey at hne ⊢
                split
                · rename_i hs; rw [if_pos hs] at hne; exact absurd rfl hne
                · rfl
              · intro b hb hch'
                rw [l1, l2]
                exact vo b hb.2.1 hch' hb.1.1 hb.1.2
              · intro x y hx hy hp
                rw [l1, l2]
                refine vl x y hx.2.1 hy.2.1 hx.2.2 hy.2.2 hp ?_
                simp only [List.mem_cons, List.not_mem_nil, or_false, forall_eq_or_imp, forall_eq]
                exact ⟨hx.1.1, hx.1.2, hy.1.1, hy.1.2⟩
              · intro l x y hx hy hxl hyl
                rw [l1, l2]
                exact vm l x y (hx hxl).2.2 (hy hyl).2.2 (hx hxl).2.1 (hy hyl).2.1 ((hx hxl).1.1.trans (hy hyl).1.1.symm) (hx hxl).1.2 (hy hyl).1.2
              · rw [hS.lcs]
                intro e he
                have a1 := lcs_onChain hr q1.reach (OnOdometry.init hon) [o1] e he
                have a2 := lcs_checked hr q1.reach e he
                have a3 := (q1.reach.prov hr).lcs e he
                have up : ∀ b, Spec.Checked cfg h1 b → Spec.Checked cfg (h1 ++ [o1]) b :=
                  fun b ⟨op, ho, hb⟩ => ⟨op, by simp [ho], hb⟩
                exact ⟨fun b hb => ⟨a1.1 b hb, up b (a2.1 b hb), (a3.1 b hb).2⟩, fun b hb => ⟨a1.2 b hb, up b (a2.2 b hb), (a3.2 b hb).2⟩⟩
              · rw [hS.lcs]
                exact q1.reach.filed hr
              · intro e he x hx hne
                have := own1.lm e he x hx hne
                have sup : AllIn (Spec.Checked cfg (h1 ++ [o1])) p1.landmarks := by
                  rw [hS.landmarks]
                  refine fileFirst_all _ ((landmarks_checked hr q1.reach).mono fun b ⟨op, ho, hb⟩ => ⟨op, by simp [ho], hb⟩) ?_
                  exact fun b hb => ⟨o1, by simp, checked_of_first hb1 hb⟩
                have fld : LmIn (fun l b => landmarkKey cfg b = l) p1.landmarks := by
                  rw [hS.landmarks]
                  exact (q1.reach.lmFiled hr).first _ fun _ _ => rfl
                refine ⟨⟨this.1, (on1 e he).1 x hx (by rw [this.1]; exact hown _)⟩, ?_, (sup e he).1 x hx⟩
                have hf : landmarkKey cfg x = e.1 := fld e he x hx
                unfold landmarkKey at hf
                split at hf
                · exact absurd hf hne
                · exact hf
          rw [hp, hp']
          exact ⟨goal.1, goal.2, goal.3, goal.4, goal.5, goal.6, goal.7, goal.8⟩
    rcases ho with rfl | ⟨fs, v1, v2, hb1, hb2, hk⟩ | ⟨c, x, y, rfl, rfl⟩
    · cases hb : Spec.batch o1 with
      | none => exact other o1 hb y2 (Or.inl rfl)
      | some z => exact batch z.1 z.2 z.2 hb hb fun _ => Iff.rfl
    · exact batch fs v1 v2 hb1 hb2 hk
    · exact other _ rfl y2 (Or.inr ⟨c, x, y, rfl, rfl⟩)
  | @left h1 h2 o _ ho ih =>
    obtain ⟨t1, x1, q1, y1⟩ := r1.snoc_inv
    have ht := ih (fun op h => hm op (by simp [h])) (fun op h => hob op (by simp [h])) (Chains.init hch) (OnOdometry.init hon) q1 r2
      fun g1 g2 t1 t2 hp => hv g1 g2 t1 t2 (hp.trans (List.prefix_append _ _))
    have := exec_silent (cfg := cfg) (env := e1) ho t1
    rw [y1] at this
    rw [← this.pcm]
    exact ht
  | @right h1 h2 o _ ho ih =>
    obtain ⟨t2, x2, q2, y2⟩ := r2.snoc_inv
    have ht := ih hm hob hch hon r1 q2 hv
    have := exec_silent (cfg := cfg.recheck co cl) (env := e2) ho t2
    rw [y2] at this
    rw [← this.pcm]
    exact ht

theorem sameGraph_twin {G : Type} [Group G] {cfg : Cfg G T N} {e1 e2 : Env G N} (hr : cfg.rejection = true) (hs : StartFree cfg.ops)
    {owner : Key → Chr} (hown : ∀ l, owner l ∉ cfg.special) {h1 h2 : List (Op G N)} (hc : Spec.SameGraphCalls h1 h2)
    (hm : ∀ op ∈ h1, Spec.Managed op) (hob : Spec.OneObserver cfg owner h1) {start : Chr → Key} (hch : Spec.Chains cfg start h1)
    (hon : Spec.OnOdometry cfg start h1) {s1 s2 : St G T N} (r1 : ReachOk cfg e1 h1 s1) (r2 : ReachOk cfg e2 h2 s2) :
    Twin s1.pcm s2.pcm :=
  twin_of_verdicts (co := cfg.ops.odomOk) (cl := cfg.ops.loopOk) hr hown hc hm hob hch hon r1 r2 fun g1 g2 t1 t2 _ hg hch q1 q2 => by
    obtain ⟨a, b, c⟩ := verdicts_same hs hr q1 (show ReachOk cfg e2 g2 t2 from q2) hch (sameGraph_odom hg).1
    exact ⟨fun x _ => a x, fun x y _ _ _ _ => b x y, fun _ x y _ _ _ _ => c x y⟩

omit [Mul G] [Inv G] [One G] in
theorem sameGraph_managed {h1 h2 : List (Op G N)} (hc : Spec.SameGraphCalls h1 h2) (hm : ∀ op ∈ h1, Spec.Managed op) :
    ∀ op ∈ h2, Spec.Managed op := by
  have bt : ∀ {op : Op G N} {x}, Spec.batch op = some x → Spec.Managed op := fun {op x} h => by
    cases op <;> first | trivial | cases h
  have sl : ∀ {op : Op G N}, Spec.Silent op → Spec.Managed op := fun {op} h => by
    cases op <;> first | exact h.elim | trivial
  induction hc with
  | nil => exact hm
  | @both h1 h2 o1 o2 _ ho ih =>
    intro op hop
    rcases List.mem_append.1 hop with hop | hop
    · exact ih (fun op h => hm op (by simp [h])) op hop
    · rw [List.mem_singleton] at hop
      subst hop
      rcases ho with rfl | ⟨_, _, _, _, h2, _⟩ | ⟨_, _, _, _, rfl⟩
      · exact hm _ (by simp)
      · exact bt h2
      · trivial
  | left _ _ ih => exact ih fun op h => hm op (by simp [h])
  | right _ ho ih =>
    intro op hop
    rcases List.mem_append.1 hop with hop | hop
    · exact ih hm op hop
    · rw [List.mem_singleton] at hop
      subst hop
      exact sl ho

/-- Two solvers hold the same factor graph, the same registered closures for every pair of robots and estimates for the
same keys, and report the same counts. -/
def Spec.SameResult (cfg : Cfg G T N) (e1 e2 : Env G N) (s1 s2 : St G T N) : Prop :=
  s1.nfg = s2.nfg ∧ (∀ id, Spec.registered s1 id = Spec.registered s2 id) ∧ s1.values.keys = s2.values.keys ∧
    (∀ n, Spec.NumLC cfg e1 s1 n ↔ Spec.NumLC cfg e2 s2 n) ∧
    (cfg.useGnc = false → ∀ n, Spec.NumInliers cfg e1 s1 n ↔ Spec.NumInliers cfg e2 s2 n)

theorem sameGraph_result {G : Type} [Group G] {cfg : Cfg G T N} {e1 e2 : Env G N} (he : SameIter e1 e2) (he1 : e1.Ok) (he2 : e2.Ok)
    (hr : cfg.rejection = true) (hs : StartFree cfg.ops)
    {owner : Key → Chr} (hown : ∀ l, owner l ∉ cfg.special) {h1 h2 : List (Op G N)} (hc : Spec.SameGraphCalls h1 h2)
    (hm : ∀ op ∈ h1, Spec.Managed op) (hob : Spec.OneObserver cfg owner h1) {start : Chr → Key} (hch : Spec.Chains cfg start h1)
    (hon : Spec.OnOdometry cfg start h1) {s1 s2 : St G T N} (r1 : ReachOk cfg e1 h1 s1) (r2 : ReachOk cfg e2 h2 s2) :
    Spec.SameResult cfg e1 e2 s1 s2 := by
  have ht := sameGraph_twin hr hs hown hc hm hob hch hon r1 r2
  have hm2 := sameGraph_managed hc hm
  refine ⟨?_, ?_, ?_, ?_, ?_⟩
  · rw [(r1.lists he1 hr hm).1, (r2.lists he2 hr hm2).1, buildGraph_iter he]
    unfold buildGraph
    rw [ht.odom, ht.special, ht.lcs, ht.landmarks, ht.ignored]
  · intro id
    unfold Spec.registered lcOf
    rw [ht.lcs]
  · obtain ⟨a1, a2⟩ := Props.C34_estimate_keys r1
    obtain ⟨b1, b2⟩ := Props.C34_estimate_keys r2
    have hk : ∀ k, k ∈ s1.values.keys ↔ k ∈ s2.values.keys := fun k => by
      rw [a1 k, b1 k, (sameGraph_odom (cfg := cfg) hc).2 k]
    have nd : ∀ {l : List Key}, l.Pairwise (fun a b => a.toNat < b.toNat) → l.Nodup :=
      fun h => h.imp fun {a b} hab e => by subst e; exact Nat.lt_irrefl _ hab
    exact ((List.perm_ext_iff_of_nodup (nd a2) (nd b2)).2 hk).eq_of_pairwise
      (fun a b _ _ h1 h2 => absurd h1 (Nat.lt_asymm h2)) a2 b2
  · intro n
    rw [Props.numLC_iff hr, Props.numLC_iff hr, ht.totalLc]
  · intro hg n
    rw [Props.numInliers_iff hr hg, Props.numInliers_iff hr hg, ht.totalGood]

end
end RPGO

namespace RPGO.Spec
variable {G T N : Type}

theorem movedVals_keys [Mul G] [Inv G] [One G] (g : G) (vs : Vals G) : (movedVals g vs).keys = vs.keys := by
  unfold movedVals KMap.keys
  rw [List.map_map]
  rfl

theorem moved_same [Mul G] [Inv G] [One G] (g : G) (h : List (Op G N)) : SameGraphCalls h (h.map (moved g)) := by
  induction h using List.reverseRecOn with
  | nil => exact .nil
  | append_singleton h op ih =>
    rw [List.map_append]
    refine .both ih ?_
    cases op with
    | update fs vs o => exact Or.inr (Or.inl ⟨fs, vs, _, rfl, rfl, fun k => by rw [movedVals_keys]⟩)
    | forceUpdate fs vs => exact Or.inr (Or.inl ⟨fs, vs, _, rfl, rfl, fun k => by rw [movedVals_keys]⟩)
    | _ => exact Or.inl rfl

end RPGO.Spec

namespace RPGO.Props
open RPGO

section
variable {G : Type} [Mul G] [Inv G] [One G] {C K : Type} [Field K] [LinearOrder K]

/-- C58 (PCM_Simple2D / 3D), for robots and landmarks each observed by one robot: two histories that hand over the same factors in the same order end
with the same graph, the same registered closures and the same counts, whatever values they supply for the keys,
whatever the optimizers return, whether or not they optimize and whatever estimates are overwritten in between,
provided the odometry of every robot is a chain and reaches the keys of each candidate, and the pose of each landmark
observation, when it arrives. -/
theorem C58_guess_irrelevant_partial {G : Type} [Group G] (p : Params K) (tn rn : G → K) (signed : Bool) (hm : p.method ≠ .none)
    (owner : Key → Chr) (hown : ∀ l, owner l ∉ p.special) {e1 e2 : Env G (GNoise C)} (he1 : e1.Ok) (he2 : e2.Ok) (hi : SameIter e1 e2)
    {h1 h2 : List (Op G (GNoise C))} (hc : Spec.SameGraphCalls h1 h2) (hman : ∀ op ∈ h1, Spec.Managed op)
    (hob : Spec.OneObserver (p.cfgSimple C tn rn signed) owner h1) (start : Chr → Key) (hch : Spec.Chains (p.cfgSimple C tn rn signed) start h1)
    (hon : Spec.OnOdometry (p.cfgSimple C tn rn signed) start h1) {s1 s2 : St G (PNode G) (GNoise C)}
    (r1 : ReachOk (p.cfgSimple C tn rn signed) e1 h1 s1) (r2 : ReachOk (p.cfgSimple C tn rn signed) e2 h2 s2) :
    Spec.SameResult (p.cfgSimple C tn rn signed) e1 e2 s1 s2 :=
  sameGraph_result hi he1 he2 (by simp [Params.cfgSimple, Params.cfg, hm]) (node_startFree tn rn _ _ _ _) hown hc hman hob hch hon
    r1 r2

/-- C58 for PCM2D / PCM3D. -/
theorem C58_guess_irrelevant_cov_partial {G : Type} [Group G] [AddGroup C] (p : Params K) (ce : CovEnv G C K) (signed : Bool)
    (hm : p.method ≠ .none) (owner : Key → Chr) (hown : ∀ l, owner l ∉ p.special) {e1 e2 : Env G (GNoise C)} (he1 : e1.Ok) (he2 : e2.Ok)
    (hi : SameIter e1 e2) {h1 h2 : List (Op G (GNoise C))} (hc : Spec.SameGraphCalls h1 h2)
    (hman : ∀ op ∈ h1, Spec.Managed op) (hob : Spec.OneObserver (p.cfgCov ce signed) owner h1) (start : Chr → Key) (hch : Spec.Chains (p.cfgCov ce signed) start h1)
    (hon : Spec.OnOdometry (p.cfgCov ce signed) start h1) {s1 s2 : St G (PCov G C) (GNoise C)}
    (r1 : ReachOk (p.cfgCov ce signed) e1 h1 s1) (r2 : ReachOk (p.cfgCov ce signed) e2 h2 s2) :
    Spec.SameResult (p.cfgCov ce signed) e1 e2 s1 s2 :=
  sameGraph_result hi he1 he2 (by simp [Params.cfgCov, Params.cfg, hm]) (cov_startFree ce _ _) hown hc hman hob hch hon r1 r2

/-- C58, change of coordinates: moving all supplied poses by one transformation changes nothing in the graph. -/
theorem C58_gauge_partial {G : Type} [Group G] (p : Params K) (tn rn : G → K) (signed : Bool) (hm : p.method ≠ .none) (owner : Key → Chr) (hown : ∀ l, owner l ∉ p.special)
    {e1 e2 : Env G (GNoise C)} (he1 : e1.Ok) (he2 : e2.Ok) (hi : SameIter e1 e2) {h : List (Op G (GNoise C))}
    (hman : ∀ op ∈ h, Spec.Managed op) (hob : Spec.OneObserver (p.cfgSimple C tn rn signed) owner h) (start : Chr → Key) (hch : Spec.Chains (p.cfgSimple C tn rn signed) start h)
    (hon : Spec.OnOdometry (p.cfgSimple C tn rn signed) start h) (g : G) {s1 s2 : St G (PNode G) (GNoise C)}
    (r1 : ReachOk (p.cfgSimple C tn rn signed) e1 h s1)
    (r2 : ReachOk (p.cfgSimple C tn rn signed) e2 (h.map (Spec.moved g)) s2) :
    Spec.SameResult (p.cfgSimple C tn rn signed) e1 e2 s1 s2 :=
  C58_guess_irrelevant_partial p tn rn signed hm owner hown he1 he2 hi (Spec.moved_same g h) hman hob start hch hon r1 r2

/-- C58, change of coordinates, for PCM2D / PCM3D. -/
theorem C58_gauge_cov_partial {G : Type} [Group G] [AddGroup C] (p : Params K) (ce : CovEnv G C K) (signed : Bool)
    (hm : p.method ≠ .none) (owner : Key → Chr) (hown : ∀ l, owner l ∉ p.special)
    {e1 e2 : Env G (GNoise C)} (he1 : e1.Ok) (he2 : e2.Ok) (hi : SameIter e1 e2) {h : List (Op G (GNoise C))}
    (hman : ∀ op ∈ h, Spec.Managed op) (hob : Spec.OneObserver (p.cfgCov ce signed) owner h) (start : Chr → Key)
    (hch : Spec.Chains (p.cfgCov ce signed) start h) (hon : Spec.OnOdometry (p.cfgCov ce signed) start h) (g : G)
    {s1 s2 : St G (PCov G C) (GNoise C)} (r1 : ReachOk (p.cfgCov ce signed) e1 h s1)
    (r2 : ReachOk (p.cfgCov ce signed) e2 (h.map (Spec.moved g)) s2) :
    Spec.SameResult (p.cfgCov ce signed) e1 e2 s1 s2 :=
  C58_guess_irrelevant_cov_partial p ce signed hm owner hown he1 he2 hi (Spec.moved_same g h) hman hob start hch hon r1 r2

end

/-- A decidable form of `Spec.OnChain`. -/
def onChainB {G T N : Type} (cfg : Cfg G T N) (start : Chr → Key) (h : List (Op G N)) (k : Key) : Bool :=
  (List.range ((Spec.robotOdom cfg (chr k) h).length + 1)).any fun i => k == Spec.after (start (chr k)) i

theorem onChain_of {G T N : Type} {cfg : Cfg G T N} {start : Chr → Key} {h : List (Op G N)} {k : Key}
    (hb : onChainB cfg start h k = true) : Spec.OnChain cfg start h k := by
  obtain ⟨i, hi, e⟩ := List.any_eq_true.1 hb
  exact ⟨i, Nat.lt_succ_iff.1 (List.mem_range.1 hi), by simpa using e⟩

/-- A decidable form of `Spec.OnOdometry`. -/
def onOdometryB {G T N : Type} (cfg : Cfg G T N) (start : Chr → Key) : List (Op G N) → List (Op G N) → Bool
  | _, [] => true
  | pre, op :: t =>
    ((Spec.opCands cfg op).all fun b => Spec.isLandmark cfg b ||
      (onChainB cfg start (pre ++ [op]) b.k1 && onChainB cfg start (pre ++ [op]) b.k2)) &&
    ((Spec.opBtws op).all fun b => !Spec.isLandmark cfg b || decide (chr b.k1 ∈ cfg.special) ||
      onChainB cfg start (pre ++ [op]) b.k1) &&
    onOdometryB cfg start (pre ++ [op]) t

theorem onOdometry_of {G T N : Type} {cfg : Cfg G T N} {start : Chr → Key} {h : List (Op G N)}
    (hb : onOdometryB cfg start [] h = true) : Spec.OnOdometry cfg start h := by
  have key : ∀ (t pre : List (Op G N)), onOdometryB cfg start pre t = true → ∀ h1 op h2, t = h1 ++ op :: h2 →
      (∀ b ∈ Spec.opCands cfg op, Spec.isLandmark cfg b = false →
        Spec.OnChain cfg start (pre ++ h1 ++ [op]) b.k1 ∧ Spec.OnChain cfg start (pre ++ h1 ++ [op]) b.k2) ∧
      ∀ b ∈ Spec.opBtws op, Spec.isLandmark cfg b = true → chr b.k1 ∉ cfg.special →
        Spec.OnChain cfg start (pre ++ h1 ++ [op]) b.k1 := by
    intro t
    induction t with
    | nil => intro pre _ h1 op h2 e; simp at e
    | cons o t ih =>
      intro pre hb h1 op h2 e
      unfold onOdometryB at hb
      rw [Bool.and_eq_true, Bool.and_eq_true] at hb
      cases h1 with
      | nil =>
        simp only [List.nil_append, List.cons.injEq] at e
        obtain ⟨rfl, rfl⟩ := e
        rw [List.append_nil]
        constructor
        · intro b hbc hl
          have := List.all_eq_true.1 hb.1.1 b hbc
          rw [hl, Bool.false_or, Bool.and_eq_true] at this
          exact ⟨onChain_of this.1, onChain_of this.2⟩
        · intro b hbc hl hs
          have := List.all_eq_true.1 hb.1.2 b hbc
          rw [hl, decide_eq_false hs] at this
          exact onChain_of (by simpa using this)
      | cons x h1 =>
        simp only [List.cons_append, List.cons.injEq] at e
        obtain ⟨rfl, rfl⟩ := e
        have := ih (pre ++ [o]) hb.2 h1 op h2 rfl
        simpa using this
  exact ⟨fun h1 op h2 e => by simpa using (key h [] hb h1 op h2 e).1,
    fun h1 op h2 e => by simpa using (key h [] hb h1 op h2 e).2⟩

/-- The demo history, then an outlier and one more consistent closure, then four observations of a landmark by robot
`a`, one of them an outlier. -/
def outlierToo : List (Op Demo.Z Demo.Ns) :=
  Demo.h1 ++ [.update [Demo.edge (Demo.a 1) (Demo.a 3) 9, Demo.edge (Demo.a 3) (Demo.a 1) (-2)] [] true,
    .update [Demo.edge (Demo.a 1) (Demo.l 0) 5] [Demo.pose (Demo.l 0) 6] false,
    .update [Demo.edge (Demo.a 2) (Demo.l 0) 4, Demo.edge (Demo.a 3) (Demo.l 0) 40, Demo.edge (Demo.a 3) (Demo.l 0) 3] [] true]

set_option maxRecDepth 100000 in
/-- The hypotheses are met by histories with accepted and rejected closures and landmark observations whose values
differ by a translation. -/
example : demoLandmarks = Demo.mk { Demo.params with special := [108] } ∧ Demo.params.method ≠ .none ∧
    (∀ l : Key, (fun _ => 97 : Key → Chr) l ∉ [(108 : Chr)]) ∧ (∀ op ∈ outlierToo, Spec.Managed op) ∧
    Spec.OneObserver demoLandmarks (fun _ => 97) outlierToo ∧
    Spec.Chains demoLandmarks (fun c => symKey c 0) outlierToo ∧
    Spec.OnOdometry demoLandmarks (fun c => symKey c 0) outlierToo ∧
    (∃ s, ReachOk demoLandmarks Demo.env outlierToo s ∧ s.nfg.length = 10) ∧
    ∃ s, ReachOk demoLandmarks Demo.env (outlierToo.map (Spec.moved (Demo.z 7))) s ∧ s.nfg.length = 10 := by
  refine ⟨rfl, by decide, fun _ => by simp, ?_, by unfold Spec.OneObserver; decide +kernel, chains_of (by decide +kernel),
    onOdometry_of (by decide +kernel), ?_, ?_⟩
  · intro op ho
    simp [outlierToo, Demo.h1] at ho
    rcases ho with rfl | rfl | rfl | rfl | rfl | rfl | rfl <;> trivial
  · obtain ⟨s, r, h⟩ := Demo.runs_reach (cfg := demoLandmarks) (env := Demo.env) (ops := outlierToo)
      (P := fun s => decide (s.nfg.length = 10)) (by decide +kernel)
    exact ⟨s, r, of_decide_eq_true h⟩
  · obtain ⟨s, r, h⟩ := Demo.runs_reach (cfg := demoLandmarks) (env := Demo.env)
      (ops := outlierToo.map (Spec.moved (Demo.z 7))) (P := fun s => decide (s.nfg.length = 10)) (by decide +kernel)
    exact ⟨s, r, of_decide_eq_true h⟩

/-- Odometry a0 → a1, a value for a9, and a closure to a9, which no odometry reaches. -/
def strayClosure : List (Op Demo.Z Demo.Ns) := guess 0 ++ [.update [Demo.edge (Demo.a 0) (Demo.a 9) 0] [] false]

set_option maxRecDepth 100000 in
/-- C58 needs closures that odometry reaches: moving all supplied poses by 50 makes a closure disappear from the
graph. -/
theorem C58_false_stray_closure :
    (∃ s, ReachOk Demo.cfg Demo.env strayClosure s ∧ s.nfg.length = 2) ∧
    ∃ s, ReachOk Demo.cfg Demo.env (strayClosure.map (Spec.moved (Demo.z 50))) s ∧ s.nfg.length = 1 := by
  constructor
  · obtain ⟨s, r, h⟩ := Demo.runs_reach (cfg := Demo.cfg) (env := Demo.env) (ops := strayClosure)
      (P := fun s => decide (s.nfg.length = 2)) (by decide +kernel)
    exact ⟨s, r, of_decide_eq_true h⟩
  · obtain ⟨s, r, h⟩ := Demo.runs_reach (cfg := Demo.cfg) (env := Demo.env) (ops := strayClosure.map (Spec.moved (Demo.z 50)))
      (P := fun s => decide (s.nfg.length = 1)) (by decide +kernel)
    exact ⟨s, r, of_decide_eq_true h⟩

/-- Odometry of robots `a` and `b`, and one observation of the same landmark by each; everything agrees. -/
def sharedLandmark : List (Op Demo.Z Demo.Ns) :=
  [.update [Demo.edge (Demo.a 0) (Demo.a 1) 1] [Demo.pose (Demo.a 0) 0, Demo.pose (Demo.a 1) 1] false,
   .update [Demo.edge (Demo.b 0) (Demo.b 1) 1] [Demo.pose (Demo.b 0) 0, Demo.pose (Demo.b 1) 1] false,
   .update [Demo.edge (Demo.a 0) (Demo.l 0) 5] [Demo.pose (Demo.l 0) 5] false,
   .update [Demo.edge (Demo.b 0) (Demo.l 0) 5] [] false]

set_option maxRecDepth 100000 in
/-- C58 needs landmarks observed by one robot: moving all supplied poses by 50 makes the observation by the second robot
disappear from the graph. -/
theorem C58_false_two_observers :
    Spec.Chains demoLandmarks (fun c => symKey c 0) sharedLandmark ∧
    Spec.OnOdometry demoLandmarks (fun c => symKey c 0) sharedLandmark ∧
    (∃ s, ReachOk demoLandmarks Demo.env sharedLandmark s ∧ s.nfg = [Demo.edge (Demo.a 0) (Demo.a 1) 1,
      Demo.edge (Demo.b 0) (Demo.b 1) 1, Demo.edge (Demo.a 0) (Demo.l 0) 5, Demo.edge (Demo.b 0) (Demo.l 0) 5]) ∧
    ∃ s, ReachOk demoLandmarks Demo.env (sharedLandmark.map (Spec.moved (Demo.z 50))) s ∧
      s.nfg = [Demo.edge (Demo.a 0) (Demo.a 1) 1, Demo.edge (Demo.b 0) (Demo.b 1) 1, Demo.edge (Demo.a 0) (Demo.l 0) 5] := by
  refine ⟨chains_of (by decide +kernel), onOdometry_of (by decide +kernel), ?_, ?_⟩
  · obtain ⟨s, r, h⟩ := Demo.runs_reach (cfg := demoLandmarks) (env := Demo.env) (ops := sharedLandmark)
      (P := fun s => decide (s.nfg = [Demo.edge (Demo.a 0) (Demo.a 1) 1,
      Demo.edge (Demo.b 0) (Demo.b 1) 1, Demo.edge (Demo.a 0) (Demo.l 0) 5, Demo.edge (Demo.b 0) (Demo.l 0) 5])) (by decide +kernel)
    exact ⟨s, r, of_decide_eq_true h⟩
  · obtain ⟨s, r, h⟩ := Demo.runs_reach (cfg := demoLandmarks) (env := Demo.env)
      (ops := sharedLandmark.map (Spec.moved (Demo.z 50)))
      (P := fun s => decide (s.nfg = [Demo.edge (Demo.a 0) (Demo.a 1) 1, Demo.edge (Demo.b 0) (Demo.b 1) 1,
        Demo.edge (Demo.a 0) (Demo.l 0) 5])) (by decide +kernel)
    exact ⟨s, r, of_decide_eq_true h⟩

end RPGO.Props
