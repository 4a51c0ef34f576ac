import Verif.Props.Gauge
import Verif.Props.Split
/-
C46: any division of the measurements into updates, with odometry and closures interleaved in any way.
-/

namespace RPGO.Spec
variable {G T N : Type}

/-- The loop-closure candidates supplied, in order. -/
def candsSoFar (cfg : Cfg G T N) (h : List (Op G N)) : List (Btw G N) := h.flatMap (opCands cfg)

/-- Only updates (with or without optimization) and calls that are not about factors. -/
def OnlyUpdates (h : List (Op G N)) : Prop := ∀ op ∈ h, (batch op).isSome ∨ Silent op

/-- No between factor has a landmark end. -/
def NoLandmarks (cfg : Cfg G T N) (h : List (Op G N)) : Prop := ∀ op ∈ h, ∀ b ∈ opBtws op, isLandmark cfg b = false

/-- When a loop-closure candidate arrives, values for both of its keys have been supplied, in that call or before. -/
def KeysKnown (cfg : Cfg G T N) (h : List (Op G N)) : Prop :=
  ∀ h1 op h2, h = h1 ++ op :: h2 → ∀ b ∈ opCands cfg op,
    (∃ o ∈ h1 ++ [op], b.k1 ∈ opKeys o) ∧ ∃ o ∈ h1 ++ [op], b.k2 ∈ opKeys o

/-- Two histories that supply the same odometry, the same loop-closure candidates and the same other factors, each in
the same order, and values for the same keys. How these are divided into calls, and how odometry, closures and other
factors are interleaved, may differ. -/
structure SameData (cfg : Cfg G T N) (h1 h2 : List (Op G N)) : Prop where
  odometry : odomSoFar cfg h1 = odomSoFar cfg h2
  closures : candsSoFar cfg h1 = candsSoFar cfg h2
  others : specialSoFar cfg h1 = specialSoFar cfg h2
  keys : ∀ k, (∃ op ∈ h1, k ∈ opKeys op) ↔ ∃ op ∈ h2, k ∈ opKeys op

end RPGO.Spec

namespace RPGO
variable {G T N : Type}

theorem lcInliers_idem {cfg : Cfg G T N} {m m' : Meas G N} (h : lcInliers cfg m = .ok m' m'.cons.length) :
    Bare m m' ∧ lcInliers cfg m' = .ok m' m'.cons.length := by
  have hb : Bare m m' := by
    have := lcInliers_sel cfg m
    rw [h] at this
    exact ⟨this.factors, this.adj⟩
  refine ⟨hb, ?_⟩
  obtain ⟨f, c, j⟩ := m
  obtain ⟨f', c', j'⟩ := m'
  obtain ⟨e1, e2⟩ := hb
  simp only at e1 e2
  subst e1 e2
  exact h

/-- Same registered closures up to the selection. -/
structure Tab (p q : Pcm G T N) : Prop where
  lcs : Table Bare p.lcs q.lcs
  inOrder : q.inOrder = p.inOrder
  totalLc : q.totalLc = p.totalLc

theorem Tab.trans {p q r : Pcm G T N} (h1 : Tab p q) (h2 : Tab q r) : Tab p r :=
  ⟨Table.trans (R := Bare) (fun _ _ _ a b => Bare.trans a b) h1.lcs h2.lcs, h2.inOrder.trans h1.inOrder,
    h2.totalLc.trans h1.totalLc⟩

theorem Tab.symm {p q : Pcm G T N} (h : Tab p q) : Tab q p :=
  ⟨Table.symm (fun _ _ a => ⟨a.1.symm, a.2.symm⟩) h.lcs, h.inOrder.symm, h.totalLc.symm⟩

theorem Like.tab {cfg : Cfg G T N} {p q : Pcm G T N} (h : Like cfg p q) : Tab p q := ⟨h.lcs, h.inOrder, h.totalLc⟩

theorem Tab.parseStep {cfg : Cfg G T N} {vals : Vals G} {f : Chr → Key → T} {p q : Pcm G T N} (h : Tab p q) (b : Btw G N) :
    Tab (RPGO.parseStep cfg vals f p b) (RPGO.parseStep cfg vals f q b) := by
  have hb : Bare (Meas.empty : Meas G N) Meas.empty := Bare.refl _
  unfold RPGO.parseStep
  split
  · refine ⟨Table.upd_both ?_ hb h.lcs _, ?_, ?_⟩
    · intro m m' e
      refine ⟨?_, ?_⟩
      · simp only [growLc, e.1]
      · simp only [growLc, e.1, e.2]
    · show q.inOrder ++ _ = p.inOrder ++ _; rw [h.inOrder]
    · show q.totalLc + 1 = p.totalLc + 1; rw [h.totalLc]
  · split
    · refine ⟨h.lcs, h.inOrder, ?_⟩
      show q.totalLc + 1 = p.totalLc + 1; rw [h.totalLc]
    · exact h

theorem Tab.parseFold {cfg : Cfg G T N} {vals : Vals G} {f : Chr → Key → T} (bs : List (Btw G N)) {p q : Pcm G T N} (h : Tab p q) :
    Tab (bs.foldl (RPGO.parseStep cfg vals f) p) (bs.foldl (RPGO.parseStep cfg vals f) q) := by
  induction bs generalizing p q with
  | nil => exact h
  | cons b bs ih => exact ih (h.parseStep b)

/-- The same candidates, known in both value sets, with lookups that give the same verdicts. -/
theorem parseFold_eq {cfg : Cfg G T N} {v w : Vals G} {f g : Chr → Key → T} {P : Btw G N → Prop} [Mul G] [Inv G] [One G] (bs : List (Btw G N))
    (hlm : ∀ b ∈ bs, Spec.isLandmark cfg b = false) (hv : ∀ b ∈ bs, known v b = true) (hw : ∀ b ∈ bs, known w b = true)
    (hP : ∀ b ∈ bs, P b)
    (ho : ∀ b, P b → chr b.k1 = chr b.k2 → odomVerdict cfg f b = odomVerdict cfg g b)
    (hl : ∀ x y, P x → P y → Spec.SamePair x y → loopVerdict cfg f x y = loopVerdict cfg g x y)
    {p : Pcm G T N} (hA : AllIn P p.lcs) (hF : Filed p.lcs) :
    bs.foldl (parseStep cfg v f) p = bs.foldl (parseStep cfg w g) p := by
  induction bs generalizing p with
  | nil => rfl
  | cons b bs ih =>
    have ih := @ih (fun x hx => hlm x (by simp [hx])) (fun x hx => hv x (by simp [hx])) (fun x hx => hw x (by simp [hx]))
      (fun x hx => hP x (by simp [hx]))
    rw [List.foldl_cons, List.foldl_cons]
    have hb := hlm b (by simp)
    have hp := hP b (by simp)
    have hno : ∀ v : Vals G, acceptLm cfg v b = false := fun v => by unfold acceptLm; rw [hb]; simp
    have hacc : acceptLc cfg v f b = acceptLc cfg w g b := by
      unfold acceptLc
      rw [hv b (by simp), hw b (by simp)]
      by_cases hc : chr b.k1 = chr b.k2
      · rw [ho b hp hc]
      · simp [hc]
    unfold parseStep
    rw [← hacc, hno, hno]
    by_cases ha : acceptLc cfg v f b = true
    · rw [if_pos ha, if_pos ha]
      have e : regLc cfg f p b = regLc cfg g p b := by
        unfold regLc
        rw [updLc_ext (f := growLc cfg f b) (g := growLc cfg g b)]
        unfold growLc
        have : (lcOf p (pairOf b)).factors.map (fun x => loopVerdict cfg f x b) =
            (lcOf p (pairOf b)).factors.map (fun x => loopVerdict cfg g x b) := by
          refine List.map_congr_left fun x hx => ?_
          obtain ⟨h1, h2⟩ := lcOf_all hA hF _ x hx
          exact hl x b h1 hp (samePair_of h2)
        rw [this]
      rw [← e]
      exact ih (p := regLc cfg f p b) (hA.upd (growLc_all hp)) (hF.reg b)
    · rw [if_neg ha, if_neg ha]
      exact ih hA hF

section
variable [Mul G] [Inv G] [One G]

/-- The relative pose of two keys of a robot does not change when the odometry of that robot goes on. -/
theorem ReachOk.onChain_robot {cfg : Cfg G T N} (hs : StartFree cfg.ops) {env env' : Env G N}
    (hr : cfg.rejection = true) {h h' : List (Op G N)} {s s' : St G T N} (r : ReachOk cfg env h s)
    {lm debug log useGnc fixPrev biasOdom : Bool}
    (r' : ReachOk (cfg.withOpt lm debug log useGnc fixPrev biasOdom) env' h' s') {start : Chr → Key} {a b : Key}
    (ch : Spec.Chain (start (chr a)) (Spec.robotOdom cfg (chr a) h'))
    (hl : (start (chr a)).toNat + (Spec.robotOdom cfg (chr a) h').length < 2 ^ 64)
    (pre : Spec.robotOdom cfg (chr a) h <+: Spec.robotOdom cfg (chr a) h') (hab : chr a = chr b)
    (ha : Spec.OnChain cfg start h a) (hb : Spec.OnChain cfg start h b) :
    btwn cfg.ops (lk cfg s.pcm (chr a)) a b = btwn cfg.ops (lk cfg s'.pcm (chr a)) a b := by
  have st : ∀ (a1 a2 a3 a4 a5 a6 : Bool) {env : Env G N} {h1 : List (Op G N)} {s1 : St G T N},
      ReachOk (cfg.withOpt a1 a2 a3 a4 a5 a6) env h1 s1 →
      Spec.robotOdom cfg (chr a) h1 <+: Spec.robotOdom cfg (chr a) h' →
      ∃ t0, IsStart cfg.ops t0 ∧ ∀ j, j ≤ (Spec.robotOdom cfg (chr a) h1).length →
        lk cfg s1.pcm (chr a) (Spec.after (start (chr a)) j) = walk cfg.ops t0 ((Spec.robotOdom cfg (chr a) h').take j) := by
    intro a1 a2 a3 a4 a5 a6 env h1 s1 r1 e
    obtain ⟨t, e⟩ := e
    have ch1 : Spec.Chain (start (chr a)) (Spec.robotOdom cfg (chr a) h1) := by
      rw [← e] at ch; exact Chain.prefix ch
    have hl1 : (start (chr a)).toNat + (Spec.robotOdom cfg (chr a) h1).length < 2 ^ 64 := by
      rw [← e, List.length_append] at hl; omega
    obtain ⟨w, u⟩ : Walked cfg (chr a) (start (chr a)) (Spec.robotOdom cfg (chr a) h1) s1.pcm ∧
        Untouched cfg (chr a) (Spec.robotOdom cfg (chr a) h1) s1.pcm := by
      obtain ⟨w, u⟩ := ReachOk.walked (cfg := cfg.withOpt a1 a2 a3 a4 a5 a6) hr r1 (chr a) (start (chr a)) ch1 hl1
      exact ⟨⟨w.1, w.2, w.3⟩, u⟩
    by_cases hL : Spec.robotOdom cfg (chr a) h1 = []
    · refine ⟨cfg.ops.dflt, Or.inl rfl, ?_⟩
      intro j hj
      rw [hL] at hj
      have hj : j = 0 := by simpa using hj
      subst hj
      rw [u hL]
      simp [walk]
    · obtain ⟨t0, ht, hw⟩ := w.walk
      refine ⟨t0, ht hL, fun j hj => ?_⟩
      rw [hw j hj, ← e, List.take_append_of_le_length hj]
  obtain ⟨t0, ht0, hw⟩ := st cfg.lm cfg.debug cfg.log cfg.useGnc cfg.fixPrev cfg.biasOdom r pre
  obtain ⟨t1, ht1, hw'⟩ := st lm debug log useGnc fixPrev biasOdom r' (List.prefix_refl _)
  have hlen : (Spec.robotOdom cfg (chr a) h).length ≤ (Spec.robotOdom cfg (chr a) h').length := pre.length_le
  obtain ⟨i, hi, ea⟩ := ha
  obtain ⟨j, hj, eb⟩ := hb
  rw [← hab] at hj eb
  unfold btwn
  rw [if_pos hab, if_pos hab]
  have e1 := hw i hi
  have e2 := hw j hj
  have e3 := hw' i (by omega)
  have e4 := hw' j (by omega)
  rw [← ea] at e1 e3
  rw [← eb] at e2 e4
  rw [e1, e2, e3, e4]
  exact hs t0 t1 ht0 ht1 _ _

/-- The relative pose of two keys does not change when the odometry goes on. -/
theorem ReachOk.onChain_prefix {cfg : Cfg G T N} (hs : StartFree cfg.ops) {env env' : Env G N}
    (hr : cfg.rejection = true) {h h' : List (Op G N)} {s s' : St G T N} (r : ReachOk cfg env h s)
    {lm debug log useGnc fixPrev biasOdom : Bool}
    (r' : ReachOk (cfg.withOpt lm debug log useGnc fixPrev biasOdom) env' h' s') {start : Chr → Key} (hc : Spec.Chains cfg start h')
    (pre : ∀ c, Spec.robotOdom cfg c h <+: Spec.robotOdom cfg c h') {a b : Key} (hab : chr a = chr b)
    (ha : Spec.OnChain cfg start h a) (hb : Spec.OnChain cfg start h b) :
    btwn cfg.ops (lk cfg s.pcm (chr a)) a b = btwn cfg.ops (lk cfg s'.pcm (chr a)) a b := by
  obtain ⟨_, ch, hl⟩ := hc (chr a)
  exact r.onChain_robot hs hr r' ch hl (pre _) hab ha hb

/-- Verdicts on closures of a pair of robots do not change when the odometry of these two robots goes on. -/
theorem verdicts_pair {cfg : Cfg G T N} (hs : StartFree cfg.ops) {env env' : Env G N}
    (hr : cfg.rejection = true) {h h' : List (Op G N)} {s s' : St G T N} (r : ReachOk cfg env h s)
    {lm debug log useGnc fixPrev biasOdom : Bool}
    (r' : ReachOk (cfg.withOpt lm debug log useGnc fixPrev biasOdom) env' h' s') {start : Chr → Key} {D : Chr → Prop}
    (ch : ∀ c, D c → Spec.Chain (start c) (Spec.robotOdom cfg c h'))
    (hl : ∀ c, D c → (start c).toNat + (Spec.robotOdom cfg c h').length < 2 ^ 64)
    (pre : ∀ c, D c → Spec.robotOdom cfg c h <+: Spec.robotOdom cfg c h') :
    (∀ b : Btw G N, D (chr b.k1) → chr b.k1 = chr b.k2 → Spec.OnChain cfg start h b.k1 → Spec.OnChain cfg start h b.k2 →
      odomVerdict cfg (lk cfg s.pcm) b = odomVerdict cfg (lk cfg s'.pcm) b) ∧
    (∀ x y : Btw G N, D (chr x.k1) → D (chr x.k2) → Spec.SamePair x y →
      (∀ k ∈ [x.k1, x.k2, y.k1, y.k2], Spec.OnChain cfg start h k) →
      loopVerdict cfg (lk cfg s.pcm) x y = loopVerdict cfg (lk cfg s'.pcm) x y) := by
  have key : ∀ {a b : Key}, D (chr a) → chr a = chr b → Spec.OnChain cfg start h a → Spec.OnChain cfg start h b →
      btwn cfg.ops (lk cfg s.pcm (chr a)) a b = btwn cfg.ops (lk cfg s'.pcm (chr a)) a b := fun hd hab ha hb =>
    r.onChain_robot hs hr r' (ch _ hd) (hl _ hd) (pre _ hd) hab ha hb
  constructor
  · intro b hd hk h1 h2
    unfold odomVerdict odomErr
    rw [key hd hk h1 h2]
  · intro x y d1 d2 hp hon
    simp only [List.mem_cons, List.not_mem_nil, or_false, forall_eq_or_imp, forall_eq] at hon
    obtain ⟨o1, o2, o3, o4⟩ := hon
    unfold loopVerdict loopErr
    by_cases hsw : chr x.k1 = chr y.k1
    · have h2 : chr x.k2 = chr y.k2 := by
        rcases hp with hp | hp
        · exact hp.2
        · rw [hp.2, ← hsw, hp.1]
      simp only [hsw, ne_eq, not_true_eq_false, if_false]
      rw [← hsw, key d1 hsw o1 o3, key d2 h2 o2 o4]
    · have h1 : chr x.k1 = chr y.k2 ∧ chr x.k2 = chr y.k1 := by
        rcases hp with hp | hp
        · exact absurd hp.1 hsw
        · exact hp
      simp only [hsw, ne_eq, not_false_eq_true, if_true]
      rw [key d1 h1.1 o1 o4, key d2 h1.2 o2 o3]

/-- Verdicts do not change when the odometry goes on. -/
theorem verdicts_prefix {cfg : Cfg G T N} (hs : StartFree cfg.ops) {env env' : Env G N}
    (hr : cfg.rejection = true) {h h' : List (Op G N)} {s s' : St G T N} (r : ReachOk cfg env h s)
    {lm debug log useGnc fixPrev biasOdom : Bool}
    (r' : ReachOk (cfg.withOpt lm debug log useGnc fixPrev biasOdom) env' h' s') {start : Chr → Key} (hc : Spec.Chains cfg start h')
    (pre : ∀ c, Spec.robotOdom cfg c h <+: Spec.robotOdom cfg c h') :
    (∀ b : Btw G N, chr b.k1 = chr b.k2 → Spec.OnChain cfg start h b.k1 → Spec.OnChain cfg start h b.k2 →
      odomVerdict cfg (lk cfg s.pcm) b = odomVerdict cfg (lk cfg s'.pcm) b) ∧
    (∀ x y : Btw G N, Spec.SamePair x y → (∀ k ∈ [x.k1, x.k2, y.k1, y.k2], Spec.OnChain cfg start h k) →
      loopVerdict cfg (lk cfg s.pcm) x y = loopVerdict cfg (lk cfg s'.pcm) x y) := by
  obtain ⟨h1, h2⟩ := verdicts_pair (D := fun _ => True) hs hr r r' (fun c _ => (hc c).2.1) (fun c _ => (hc c).2.2)
    (fun c _ => pre c)
  exact ⟨fun b => h1 b trivial, fun x y => h2 x y trivial trivial⟩

theorem robotOdom_prefix (cfg : Cfg G T N) (c : Chr) (h : List (Op G N)) (op : Op G N) :
    Spec.robotOdom cfg c h <+: Spec.robotOdom cfg c (h ++ [op]) := by
  rw [robotOdom_snoc]
  exact List.prefix_append _ _

theorem candsSoFar_snoc (cfg : Cfg G T N) (h : List (Op G N)) (op : Op G N) :
    Spec.candsSoFar cfg (h ++ [op]) = Spec.candsSoFar cfg h ++ Spec.opCands cfg op := by
  simp [Spec.candsSoFar]

theorem mem_candsSoFar {cfg : Cfg G T N} {h : List (Op G N)} {b : Btw G N} (hb : b ∈ Spec.candsSoFar cfg h) :
    ∃ h1 op h2, h = h1 ++ op :: h2 ∧ b ∈ Spec.opCands cfg op := by
  obtain ⟨op, ho, hb⟩ := List.mem_flatMap.1 hb
  obtain ⟨h1, h2, e⟩ := List.append_of_mem ho
  exact ⟨h1, op, h2, e, hb⟩

theorem opCands_btws {cfg : Cfg G T N} {op : Op G N} {b : Btw G N} (hb : b ∈ Spec.opCands cfg op) : b ∈ Spec.opBtws op := by
  unfold Spec.opCands at hb
  unfold Spec.opBtws
  split at hb
  · exact (List.mem_filter.1 hb).1
  · cases hb

/-- What holds of the candidates so far. -/
structure CandsOk (cfg : Cfg G T N) (start : Chr → Key) (h : List (Op G N)) : Prop where
  chain : ∀ b ∈ Spec.candsSoFar cfg h, Spec.OnChain cfg start h b.k1 ∧ Spec.OnChain cfg start h b.k2
  pose : ∀ b ∈ Spec.candsSoFar cfg h, Spec.isLandmark cfg b = false
  keys : ∀ b ∈ Spec.candsSoFar cfg h, (∃ o ∈ h, b.k1 ∈ Spec.opKeys o) ∧ ∃ o ∈ h, b.k2 ∈ Spec.opKeys o

theorem candsOk {cfg : Cfg G T N} {start : Chr → Key} {h : List (Op G N)} (hn : Spec.NoLandmarks cfg h)
    (ho : Spec.OnOdometry cfg start h) (hk : Spec.KeysKnown cfg h) : CandsOk cfg start h := by
  have pose : ∀ b ∈ Spec.candsSoFar cfg h, Spec.isLandmark cfg b = false := by
    intro b hb
    obtain ⟨h1, op, h2, e, hb⟩ := mem_candsSoFar hb
    exact hn op (by rw [e]; simp) b (opCands_btws hb)
  refine ⟨?_, pose, ?_⟩
  · intro b hb
    have hl := pose b hb
    obtain ⟨h1, op, h2, e, hb⟩ := mem_candsSoFar hb
    have e' : h = (h1 ++ [op]) ++ h2 := by rw [e]; simp
    have := ho.closures h1 op h2 e b hb hl
    rw [e']
    exact ⟨OnChain.mono this.1, OnChain.mono this.2⟩
  · intro b hb
    obtain ⟨h1, op, h2, e, hb⟩ := mem_candsSoFar hb
    have e' : h = (h1 ++ [op]) ++ h2 := by rw [e]; simp
    obtain ⟨⟨o1, m1, k1⟩, o2, m2, k2⟩ := hk h1 op h2 e b hb
    rw [e']
    exact ⟨⟨o1, List.mem_append_left _ m1, k1⟩, o2, List.mem_append_left _ m2, k2⟩

theorem CandsOk.known {cfg : Cfg G T N} {env : Env G N} {start : Chr → Key} {h : List (Op G N)} {s : St G T N} (hc : CandsOk cfg start h)
    (r : ReachOk cfg env h s) : ∀ b ∈ Spec.candsSoFar cfg h, RPGO.known s.values b = true := by
  intro b hb
  obtain ⟨k1, k2⟩ := hc.keys b hb
  unfold RPGO.known
  rw [reachOk_values r _ k1, reachOk_values r _ k2]
  rfl

theorem KeysKnown.init {cfg : Cfg G T N} {h : List (Op G N)} {op : Op G N} (hc : Spec.KeysKnown cfg (h ++ [op])) :
    Spec.KeysKnown cfg h := fun h1 o h2 e b hb => hc h1 o (h2 ++ [op]) (by rw [e]; simp) b hb

/-- The registered closures are those of one pass over all candidates with the present odometry, and the selection is
that of what is registered. -/
structure Canon (cfg : Cfg G T N) (h : List (Op G N)) (s : St G T N) : Prop where
  tab : Tab ((Spec.candsSoFar cfg h).foldl (parseStep cfg s.values (lk cfg s.pcm)) {}) s.pcm
  landmarks : s.pcm.landmarks = []
  chosen : Table (fun m m' => lcInliers cfg m = .ok m' m'.cons.length) s.pcm.lcs s.pcm.lcs
  good : s.pcm.totalGood = consSum s.pcm.lcs
  ignored : s.pcm.ignored = []

theorem ReachOk.canon {cfg : Cfg G T N} {env : Env G N} (hr : cfg.rejection = true) (hi : cfg.incremental = false)
    (hs : StartFree cfg.ops) {h : List (Op G N)} {s : St G T N} (r : ReachOk cfg env h s) (hu : Spec.OnlyUpdates h)
    (hn : Spec.NoLandmarks cfg h) {start : Chr → Key} (hc : Spec.Chains cfg start h) (ho : Spec.OnOdometry cfg start h)
    (hk : Spec.KeysKnown cfg h) : Canon cfg h s := by
  induction r with
  | init => exact ⟨⟨.nil, rfl, rfl⟩, rfl, .nil, rfl, rfl⟩
  | @step h s op s' x r e ih =>
    have c := ih (fun o m => hu o (by simp [m])) (fun o m => hn o (by simp [m])) (Chains.init hc) (OnOdometry.init ho)
      (KeysKnown.init hk)
    have r' : ReachOk cfg env (h ++ [op]) s' := .step r e
    have c0 := candsOk (fun o m => hn o (by simp [m])) (OnOdometry.init ho) (KeysKnown.init hk)
    have c1 := candsOk hn ho hk
    obtain ⟨vo, vl⟩ := verdicts_prefix (lm := cfg.lm) (debug := cfg.debug) (log := cfg.log) (useGnc := cfg.useGnc)
      (fixPrev := cfg.fixPrev) (biasOdom := cfg.biasOdom) hs hr r r' hc (fun d => robotOdom_prefix cfg d h op)
    have k0 : ∀ b ∈ Spec.candsSoFar cfg h, known s'.values b = true := fun b hb =>
      c1.known r' b (by rw [candsSoFar_snoc]; simp [hb])
    -- the old candidates, looked at with the new odometry
    have old : Tab ((Spec.candsSoFar cfg h).foldl (parseStep cfg s'.values (lk cfg s'.pcm)) {}) s.pcm := by
      rw [← parseFold_eq (P := fun b => Spec.OnChain cfg start h b.k1 ∧ Spec.OnChain cfg start h b.k2)
        (Spec.candsSoFar cfg h) c0.pose (c0.known r) k0 c0.chain (fun b hb hch => vo b hch hb.1 hb.2)
        (fun x y hx hy hp => vl x y hp (by
          simp only [List.mem_cons, List.not_mem_nil, or_false, forall_eq_or_imp, forall_eq]
          exact ⟨hx.1, hx.2, hy.1, hy.2⟩)) (by intro e he; cases he) (by intro e he; cases he)]
      exact c.tab
    rcases hu op (by simp) with hb | hsil
    · obtain ⟨⟨fs, vs⟩, hb⟩ := Option.isSome_iff_exists.1 hb
      have hd := (exec_batch env hr hb s).1 _ _ e
      have hop : Spec.opCands cfg op = Spec.cands cfg vs fs := by unfold Spec.opCands; rw [hb]
      have hf : Spec.firsts cfg vs fs = [] := by
        unfold Spec.firsts
        rw [List.filter_eq_nil_iff]
        intro b hb'
        have := hn op (by simp) b (by unfold Spec.opBtws; rw [hb]; exact hb')
        simp [Spec.isFirstObs, this]
      cases hd with
      | empty h0 hv hf' =>
        subst h0
        have hz : Spec.opCands cfg op = [] := hop
        refine ⟨?_, by rw [hf'.pcm]; exact c.landmarks, by rw [hf'.pcm]; exact c.chosen, by rw [hf'.pcm]; exact c.good,
          by rw [hf'.pcm]; exact c.ignored⟩
        rw [candsSoFar_snoc, hz, List.append_nil]
        rw [hf'.pcm] at old ⊢
        exact old
      | full hne hv hS hn0 hp ha hfr =>
        rename_i v1 p1 p2 u1
        have ep : s'.pcm = { p2 with robotOrder := u1.pcm.robotOrder } := by rw [hfr.pcm, ha.eq]
        have ev : ∀ k, s'.values.has k = v1.has k := fun k => (ha.values.trans hfr.values).has k
        have lm1 : p1.landmarks = [] := by rw [hS.landmarks, hf]; exact c.landmarks
        have t1 : Tab s.pcm p1 := ⟨by rw [hS.lcs]; exact Table.refl Bare.refl _, hS.inOrder, by rw [hS.totalLc, hf]; rfl⟩
        by_cases hz : Spec.cands cfg vs fs = []
        · have e2 := hn0 hz
          rw [e2] at ep
          refine ⟨?_, ?_, ?_, ?_, ?_⟩
          · rw [candsSoFar_snoc, hop, hz, List.append_nil]
            refine (old.trans t1).trans ?_
            rw [ep]
            exact ⟨Table.refl Bare.refl _, rfl, rfl⟩
          · rw [ep]; exact lm1
          · rw [ep]; show Table _ p1.lcs p1.lcs; rw [hS.lcs]; exact c.chosen
          · rw [ep]; show p1.totalGood = consSum p1.lcs; rw [hS.lcs, hS.totalGood]; exact c.good
          · rw [ep]; show p1.ignored = []; rw [hS.ignored]; exact c.ignored
        · have hpc := hp hz
          have hlk : lk cfg s'.pcm = lk cfg p1 := by
            rw [ep]
            have he := processCands_ends cfg v1 (Spec.cands cfg vs fs) p1
            rw [hpc] at he
            obtain ⟨q, hq, hsel, _⟩ := he
            exact (processed_lk hq hsel : lk cfg p2 = lk cfg p1)
          obtain ⟨q1, ht, hfi⟩ := processCands_parts hi hpc
          obtain ⟨f0, f1, f2, f3⟩ := findInliers_ok hfi
          have hfold : ∀ (bs : List (Btw G N)) (p : Pcm G T N), (∀ b ∈ bs, Spec.isLandmark cfg b = false) →
              (bs.foldl (parseStep cfg v1 (lk cfg p1)) p).landmarks = p.landmarks := by
            intro bs
            induction bs with
            | nil => intro p _; rfl
            | cons b bs ih =>
              intro p hb
              rw [List.foldl_cons, ih _ fun x hx => hb x (by simp [hx])]
              unfold parseStep
              split
              · rfl
              · rw [if_neg]
                unfold acceptLm
                rw [hb b (by simp)]
                simp
          have hlm : ∀ b ∈ Spec.cands cfg vs fs, Spec.isLandmark cfg b = false := fun b hb' =>
            hn op (by simp) b (by unfold Spec.opBtws; rw [hb]; exact (List.mem_filter.1 hb').1)
          have lq : q1.landmarks = [] := by rw [ht.eq]; simp only; rw [hfold _ _ hlm, lm1]
          have l2 : p2.landmarks = [] := by
            rw [lq] at f2
            cases h2 : p2.landmarks with
            | nil => rfl
            | cons => rw [h2] at f2; cases f2
          refine ⟨?_, ?_, ?_, ?_, ?_⟩
          · rw [candsSoFar_snoc, List.foldl_append, hop, hlk, parseStep_congr ev]
            rw [hlk, parseStep_congr ev] at old
            have e1 := (old.trans t1).parseFold (cfg := cfg) (vals := v1) (f := lk cfg p1) (Spec.cands cfg vs fs)
            have e2 := (processCands_like hi hpc).tab
            refine (e1.trans e2).trans ?_
            rw [ep]
            exact ⟨Table.refl Bare.refl _, rfl, rfl⟩
          · rw [ep]; exact l2
          · rw [ep]
            show Table _ p2.lcs p2.lcs
            have : ∀ l l' : List (ObsId × Meas G N), Table (fun m m' => lcInliers cfg m = .ok m' m'.cons.length) l l' →
                Table (fun m m' => lcInliers cfg m = .ok m' m'.cons.length) l' l' := by
              intro l l' t
              unfold Table at t ⊢
              induction t with
              | nil => exact .nil
              | cons a _ ih => exact .cons ⟨rfl, (lcInliers_idem a.2).2⟩ ih
            exact this _ _ f1
          · rw [ep]; show p2.totalGood = consSum p2.lcs; rw [f3, l2]; rfl
          · rw [ep]; show p2.ignored = []
            rw [f0]; simp only
            rw [ht.eq]; simp only
            rw [(parseFold_frame cfg v1 (lk cfg p1) (Spec.cands cfg vs fs) p1).2.2.1, hS.ignored]
            exact c.ignored
    · have hz : Spec.opCands cfg op = [] := by
        unfold Spec.opCands
        cases op <;> first | exact hsil.elim | rfl
      have hsim := exec_silent (cfg := cfg) (env := env) hsil s
      rw [e] at hsim
      have ep : s'.pcm = s.pcm := hsim.pcm.symm
      refine ⟨?_, by rw [ep]; exact c.landmarks, by rw [ep]; exact c.chosen, by rw [ep]; exact c.good,
          by rw [ep]; exact c.ignored⟩
      rw [candsSoFar_snoc, hz, List.append_nil]
      rw [ep] at old ⊢
      exact old

theorem anySplit_twin {cfg : Cfg G T N} {e1 e2 : Env G N} (hr : cfg.rejection = true) (hi : cfg.incremental = false)
    (hs : StartFree cfg.ops) {h1 h2 : List (Op G N)} (hd : Spec.SameData cfg h1 h2) {s1 s2 : St G T N}
    {lm debug log useGnc fixPrev biasOdom : Bool} (he1 : e1.Ok) (he2 : e2.Ok)
    (r1 : ReachOk cfg e1 h1 s1) (r2 : ReachOk (cfg.withOpt lm debug log useGnc fixPrev biasOdom) e2 h2 s2) (u1 : Spec.OnlyUpdates h1) (u2 : Spec.OnlyUpdates h2)
    (n1 : Spec.NoLandmarks cfg h1) (n2 : Spec.NoLandmarks cfg h2) {start : Chr → Key} (hc : Spec.Chains cfg start h1)
    (o1 : Spec.OnOdometry cfg start h1) (o2 : Spec.OnOdometry cfg start h2) (k1 : Spec.KeysKnown cfg h1)
    (k2 : Spec.KeysKnown cfg h2) : Twin s1.pcm s2.pcm := by
  have hro : ∀ c, Spec.robotOdom cfg c h1 = Spec.robotOdom cfg c h2 := fun c => by
    unfold Spec.robotOdom; rw [hd.odometry]
  have hc2 : Spec.Chains cfg start h2 := fun c => by rw [← hro c]; exact hc c
  have c1 := r1.canon hr hi hs u1 n1 hc o1 k1
  have c2 : Canon cfg h2 s2 := by
    obtain ⟨⟨x1, x2, x3⟩, y, z, w, u⟩ := ReachOk.canon (cfg := cfg.withOpt lm debug log useGnc fixPrev biasOdom) hr hi hs r2 u2 n2 hc2 ⟨o2.1, o2.2⟩ k2
    exact ⟨⟨x1, x2, x3⟩, y, z, w, u⟩
  have d1 := candsOk n1 o1 k1
  have d2 := candsOk n2 o2 k2
  obtain ⟨vo, vl⟩ := verdicts_prefix hs hr r1 r2 hc2 (fun c => by rw [hro c])
  have hk2 : ∀ b ∈ Spec.candsSoFar cfg h2, RPGO.known s2.values b = true :=
    CandsOk.known (cfg := cfg.withOpt lm debug log useGnc fixPrev biasOdom) ⟨d2.1, d2.2, d2.3⟩ r2
  have eq : (Spec.candsSoFar cfg h1).foldl (parseStep cfg s1.values (lk cfg s1.pcm)) ({} : Pcm G T N) =
      (Spec.candsSoFar cfg h2).foldl (parseStep cfg s2.values (lk cfg s2.pcm)) {} := by
    rw [← hd.closures]
    exact parseFold_eq (P := fun b => Spec.OnChain cfg start h1 b.k1 ∧ Spec.OnChain cfg start h1 b.k2)
        (Spec.candsSoFar cfg h1) d1.pose (d1.known r1) (by rw [hd.closures]; exact hk2) d1.chain
        (fun b hb hch => vo b hch hb.1 hb.2)
        (fun x y hx hy hp => vl x y hp (by
          simp only [List.mem_cons, List.not_mem_nil, or_false, forall_eq_or_imp, forall_eq]
          exact ⟨hx.1, hx.2, hy.1, hy.2⟩)) (by intro e he; cases he) (by intro e he; cases he)
  have t : Tab s1.pcm s2.pcm := by
    refine c1.tab.symm.trans ?_
    rw [eq]
    exact c2.tab
  have el : s2.pcm.lcs = s1.pcm.lcs := Table.det (R := Bare) (Q := fun m m' => lcInliers cfg m = .ok m' m'.cons.length)
    (fun _ _ _ _ r x y => lcInliers_bare r x y) t.lcs c1.chosen c2.chosen
  have mg : ∀ {h : List (Op G N)}, Spec.OnlyUpdates h → ∀ op ∈ h, Spec.Managed op := by
    intro h hu op ho
    rcases hu op ho with hb | hb
    · cases op <;> trivial
    · cases op <;> first | exact hb.elim | trivial
  obtain ⟨_, a2, a3⟩ := r1.lists he1 hr (mg u1)
  obtain ⟨b2, b3⟩ : s2.pcm.odom = Spec.odomSoFar cfg h2 ∧ s2.pcm.special = Spec.specialSoFar cfg h2 :=
    (ReachOk.lists (cfg := cfg.withOpt lm debug log useGnc fixPrev biasOdom) he2 hr r2 (mg u2)).2
  exact ⟨by rw [a2, b2, hd.odometry], by rw [a3, b3, hd.others], el.symm, by rw [c1.landmarks, c2.landmarks], t.inOrder.symm,
    t.totalLc.symm, by rw [c1.good, c2.good, el], by rw [c1.ignored, c2.ignored]⟩

end
end RPGO

namespace RPGO
variable {G T N : Type} [Mul G] [Inv G] [One G]

theorem anySplit_result {cfg : Cfg G T N} {e1 e2 : Env G N} (he : SameIter e1 e2) (he1 : e1.Ok) (he2 : e2.Ok)
    (hr : cfg.rejection = true) (hi : cfg.incremental = false)
    (hs : StartFree cfg.ops) {h1 h2 : List (Op G N)} (hd : Spec.SameData cfg h1 h2) {s1 s2 : St G T N}
    (r1 : ReachOk cfg e1 h1 s1) (r2 : ReachOk cfg e2 h2 s2) (u1 : Spec.OnlyUpdates h1) (u2 : Spec.OnlyUpdates h2)
    (n1 : Spec.NoLandmarks cfg h1) (n2 : Spec.NoLandmarks cfg h2) {start : Chr → Key} (hc : Spec.Chains cfg start h1)
    (o1 : Spec.OnOdometry cfg start h1) (o2 : Spec.OnOdometry cfg start h2) (k1 : Spec.KeysKnown cfg h1)
    (k2 : Spec.KeysKnown cfg h2) :
    Spec.SameResult cfg e1 e2 s1 s2 ∧
      ∀ id, Spec.matrix s1 id = Spec.matrix s2 id ∧ Spec.selected s1 id = Spec.selected s2 id := by
  have ht := anySplit_twin (lm := cfg.lm) (debug := cfg.debug) (log := cfg.log) (useGnc := cfg.useGnc)
    (fixPrev := cfg.fixPrev) (biasOdom := cfg.biasOdom) hr hi hs hd he1 he2 r1 r2 u1 u2 n1 n2 hc o1 o2 k1 k2
  have mg : ∀ {h : List (Op G N)}, Spec.OnlyUpdates h → ∀ op ∈ h, Spec.Managed op := by
    intro h hu op ho
    rcases hu op ho with hb | hb
    · cases op <;> trivial
    · cases op <;> first | exact hb.elim | trivial
  refine ⟨⟨?_, ?_, ?_, ?_, ?_⟩, fun id => ?_⟩
  · rw [(r1.lists he1 hr (mg u1)).1, (r2.lists he2 hr (mg u2)).1, buildGraph_iter he]
    unfold buildGraph
    rw [ht.odom, ht.special, ht.lcs, ht.landmarks, ht.ignored]
  · intro id
    unfold Spec.registered lcOf
    rw [ht.lcs]
  · obtain ⟨a1, a2⟩ := Props.C34_estimate_keys r1
    obtain ⟨b1, b2⟩ := Props.C34_estimate_keys r2
    have hk : ∀ k, k ∈ s1.values.keys ↔ k ∈ s2.values.keys := fun k => by
      rw [a1 k, b1 k, hd.keys k]
    have nd : ∀ {l : List Key}, l.Pairwise (fun a b => a.toNat < b.toNat) → l.Nodup :=
      fun h => h.imp fun {a b} hab e => by subst e; exact Nat.lt_irrefl _ hab
    exact ((List.perm_ext_iff_of_nodup (nd a2) (nd b2)).2 hk).eq_of_pairwise
      (fun a b _ _ h1 h2 => absurd h1 (Nat.lt_asymm h2)) a2 b2
  · intro n
    rw [Props.numLC_iff hr, Props.numLC_iff hr, ht.totalLc]
  · intro hg n
    rw [Props.numInliers_iff hr hg, Props.numInliers_iff hr hg, ht.totalGood]
  · unfold Spec.matrix Spec.selected lcOf
    rw [ht.lcs]
    exact ⟨rfl, rfl⟩

end RPGO

namespace RPGO.Props
open RPGO

section
variable {G : Type} [Mul G] [Inv G] [One G] {C K : Type} [Field K] [LinearOrder K]

/-- C46 (PCM_Simple2D / 3D), any division: two histories of updates that supply the same odometry, the same closures and
the same other factors, each in the same order, end with the same graph, registered closures, matrices, selected closures
and counts, however the measurements are divided into updates and however odometry and closures are interleaved,
whatever the values, the optimization flags and the optimizers. The odometry of each robot is a chain; when a closure
arrives, odometry has reached its keys and they have values. Batch selection, no landmarks. -/
theorem C46_any_split {G : Type} [Group G] (p : Params K) (tn rn : G → K) (signed : Bool) (hm : p.method ≠ .none) (hinc : p.incremental = false)
    {e1 e2 : Env G (GNoise C)} (he1 : e1.Ok) (he2 : e2.Ok) (hi : SameIter e1 e2) {h1 h2 : List (Op G (GNoise C))}
    (hd : Spec.SameData (p.cfgSimple C tn rn signed) h1 h2) (u1 : Spec.OnlyUpdates h1) (u2 : Spec.OnlyUpdates h2)
    (n1 : Spec.NoLandmarks (p.cfgSimple C tn rn signed) h1) (n2 : Spec.NoLandmarks (p.cfgSimple C tn rn signed) h2)
    (start : Chr → Key) (hch : Spec.Chains (p.cfgSimple C tn rn signed) start h1)
    (o1 : Spec.OnOdometry (p.cfgSimple C tn rn signed) start h1) (o2 : Spec.OnOdometry (p.cfgSimple C tn rn signed) start h2)
    (k1 : Spec.KeysKnown (p.cfgSimple C tn rn signed) h1) (k2 : Spec.KeysKnown (p.cfgSimple C tn rn signed) h2)
    {s1 s2 : St G (PNode G) (GNoise C)}
    (r1 : ReachOk (p.cfgSimple C tn rn signed) e1 h1 s1) (r2 : ReachOk (p.cfgSimple C tn rn signed) e2 h2 s2) :
    Spec.SameResult (p.cfgSimple C tn rn signed) e1 e2 s1 s2 ∧
      ∀ id, Spec.matrix s1 id = Spec.matrix s2 id ∧ Spec.selected s1 id = Spec.selected s2 id :=
  anySplit_result hi he1 he2 (by simp [Params.cfgSimple, Params.cfg, hm]) (by simpa [Params.cfgSimple, Params.cfg] using hinc)
    (node_startFree tn rn _ _ _ _) hd r1 r2 u1 u2 n1 n2 hch o1 o2 k1 k2

/-- C46, any division, for PCM2D / PCM3D. -/
theorem C46_any_split_cov {G : Type} [Group G] [AddGroup C] (p : Params K) (ce : CovEnv G C K) (signed : Bool) (hm : p.method ≠ .none)
    (hinc : p.incremental = false)
    {e1 e2 : Env G (GNoise C)} (he1 : e1.Ok) (he2 : e2.Ok) (hi : SameIter e1 e2) {h1 h2 : List (Op G (GNoise C))}
    (hd : Spec.SameData (p.cfgCov ce signed) h1 h2) (u1 : Spec.OnlyUpdates h1) (u2 : Spec.OnlyUpdates h2)
    (n1 : Spec.NoLandmarks (p.cfgCov ce signed) h1) (n2 : Spec.NoLandmarks (p.cfgCov ce signed) h2)
    (start : Chr → Key) (hch : Spec.Chains (p.cfgCov ce signed) start h1)
    (o1 : Spec.OnOdometry (p.cfgCov ce signed) start h1) (o2 : Spec.OnOdometry (p.cfgCov ce signed) start h2)
    (k1 : Spec.KeysKnown (p.cfgCov ce signed) h1) (k2 : Spec.KeysKnown (p.cfgCov ce signed) h2)
    {s1 s2 : St G (PCov G C) (GNoise C)}
    (r1 : ReachOk (p.cfgCov ce signed) e1 h1 s1) (r2 : ReachOk (p.cfgCov ce signed) e2 h2 s2) :
    Spec.SameResult (p.cfgCov ce signed) e1 e2 s1 s2 ∧
      ∀ id, Spec.matrix s1 id = Spec.matrix s2 id ∧ Spec.selected s1 id = Spec.selected s2 id :=
  anySplit_result hi he1 he2 (by simp [Params.cfgCov, Params.cfg, hm]) (by simpa [Params.cfgCov, Params.cfg] using hinc)
    (cov_startFree ce _ _) hd r1 r2 u1 u2 n1 n2 hch o1 o2 k1 k2

end

/-- Odometry of two robots and four closures between them in one update. -/
def atOnce : List (Op Demo.Z Demo.Ns) :=
  [.update [some (.prior (Demo.a 0) (Demo.z 0)), Demo.edge (Demo.a 0) (Demo.a 1) 1, Demo.edge (Demo.b 0) (Demo.b 1) 1,
      Demo.edge (Demo.a 0) (Demo.b 0) 1, Demo.edge (Demo.a 1) (Demo.a 2) 1, Demo.edge (Demo.a 1) (Demo.b 1) 3,
      Demo.edge (Demo.b 1) (Demo.b 2) 1, Demo.edge (Demo.a 2) (Demo.b 2) 3, Demo.edge (Demo.b 0) (Demo.a 0) (-1)]
    [Demo.pose (Demo.a 0) 0, Demo.pose (Demo.a 1) 1, Demo.pose (Demo.a 2) 2, Demo.pose (Demo.b 0) 5, Demo.pose (Demo.b 1) 6,
      Demo.pose (Demo.b 2) 7] true]

/-- The same measurements in five updates, with other values; the odometry comes before, between and after closures. -/
def byAndBy : List (Op Demo.Z Demo.Ns) :=
  [.update [some (.prior (Demo.a 0) (Demo.z 0)), Demo.edge (Demo.a 0) (Demo.a 1) 1]
      [Demo.pose (Demo.a 0) 3, Demo.pose (Demo.a 1) 3] false,
   .forceUpdate [Demo.edge (Demo.b 0) (Demo.b 1) 1, Demo.edge (Demo.a 0) (Demo.b 0) 1] [Demo.pose (Demo.b 0) 0, Demo.pose (Demo.b 1) 0],
   .update [Demo.edge (Demo.a 1) (Demo.b 1) 3] [] true,
   .getNumLC,
   .update [Demo.edge (Demo.a 1) (Demo.a 2) 1, Demo.edge (Demo.b 1) (Demo.b 2) 1] [Demo.pose (Demo.a 2) 9, Demo.pose (Demo.b 2) 9] false,
   .update [Demo.edge (Demo.a 2) (Demo.b 2) 3, Demo.edge (Demo.b 0) (Demo.a 0) (-1)] [] true]

/-- A decidable form of `Spec.KeysKnown`. -/
def keysKnownB {G T N : Type} (cfg : Cfg G T N) : List (Op G N) → List (Op G N) → Bool
  | _, [] => true
  | pre, op :: t =>
    ((Spec.opCands cfg op).all fun b => ((pre ++ [op]).any fun o => decide (b.k1 ∈ Spec.opKeys o)) &&
      ((pre ++ [op]).any fun o => decide (b.k2 ∈ Spec.opKeys o))) && keysKnownB cfg (pre ++ [op]) t

theorem keysKnown_of {G T N : Type} {cfg : Cfg G T N} {h : List (Op G N)} (hb : keysKnownB cfg [] h = true) :
    Spec.KeysKnown cfg h := by
  have key : ∀ (t pre : List (Op G N)), keysKnownB cfg pre t = true → ∀ h1 op h2, t = h1 ++ op :: h2 →
      ∀ b ∈ Spec.opCands cfg op, (∃ o ∈ pre ++ h1 ++ [op], b.k1 ∈ Spec.opKeys o) ∧
        ∃ o ∈ pre ++ h1 ++ [op], b.k2 ∈ Spec.opKeys o := by
    intro t
    induction t with
    | nil => intro pre _ h1 op h2 e; simp at e
    | cons o t ih =>
      intro pre hb h1 op h2 e
      unfold keysKnownB at hb
      rw [Bool.and_eq_true] at hb
      cases h1 with
      | nil =>
        simp only [List.nil_append, List.cons.injEq] at e
        obtain ⟨rfl, rfl⟩ := e
        rw [List.append_nil]
        intro b hbc
        have := List.all_eq_true.1 hb.1 b hbc
        rw [Bool.and_eq_true] at this
        obtain ⟨o1, m1, e1⟩ := List.any_eq_true.1 this.1
        obtain ⟨o2, m2, e2⟩ := List.any_eq_true.1 this.2
        exact ⟨⟨o1, m1, of_decide_eq_true e1⟩, o2, m2, of_decide_eq_true e2⟩
      | cons x h1 =>
        simp only [List.cons_append, List.cons.injEq] at e
        obtain ⟨rfl, rfl⟩ := e
        have := ih (pre ++ [o]) hb.2 h1 op h2 rfl
        simpa using this
  exact fun h1 op h2 e => by simpa using key h [] hb h1 op h2 e

/-- The keys supplied by the calls. -/
theorem keys_iff_of {G N : Type} {h1 h2 : List (Op G N)}
    (h : (h1.flatMap Spec.opKeys).all (fun k => decide (k ∈ h2.flatMap Spec.opKeys)) = true)
    (h' : (h2.flatMap Spec.opKeys).all (fun k => decide (k ∈ h1.flatMap Spec.opKeys)) = true) :
    ∀ k, (∃ op ∈ h1, k ∈ Spec.opKeys op) ↔ ∃ op ∈ h2, k ∈ Spec.opKeys op := by
  intro k
  have e : ∀ h : List (Op G N), (∃ op ∈ h, k ∈ Spec.opKeys op) ↔ k ∈ h.flatMap Spec.opKeys := fun h => by
    rw [List.mem_flatMap]
  rw [e, e]
  exact ⟨fun m => of_decide_eq_true (List.all_eq_true.1 h k m), fun m => of_decide_eq_true (List.all_eq_true.1 h' k m)⟩

set_option maxRecDepth 100000 in
/-- The hypotheses of `C46_any_split` are met by `atOnce` and `byAndBy`; three of four closures are selected in both. -/
example : Demo.cfg = Demo.params.cfgSimple Unit Demo.len (fun _ => 0) true ∧ Demo.params.method ≠ .none ∧
    Demo.params.incremental = false ∧ Spec.SameData Demo.cfg atOnce byAndBy ∧ Spec.OnlyUpdates atOnce ∧
    Spec.OnlyUpdates byAndBy ∧ Spec.NoLandmarks Demo.cfg atOnce ∧ Spec.NoLandmarks Demo.cfg byAndBy ∧
    Spec.Chains Demo.cfg (fun c => symKey c 0) atOnce ∧ Spec.OnOdometry Demo.cfg (fun c => symKey c 0) atOnce ∧
    Spec.OnOdometry Demo.cfg (fun c => symKey c 0) byAndBy ∧ Spec.KeysKnown Demo.cfg atOnce ∧ Spec.KeysKnown Demo.cfg byAndBy ∧
    (∃ s, ReachOk Demo.cfg Demo.env atOnce s ∧ s.nfg.length = 8 ∧ s.pcm.totalLc = 4) ∧
    ∃ s, ReachOk Demo.cfg Demo.env byAndBy s ∧ s.nfg.length = 8 ∧ s.pcm.totalLc = 4 := by
  refine ⟨rfl, by decide, by decide, ⟨by decide +kernel, by decide +kernel, by decide +kernel,
    keys_iff_of (by decide +kernel) (by decide +kernel)⟩, ?_, ?_, by unfold Spec.NoLandmarks; decide +kernel,
    by unfold Spec.NoLandmarks; decide +kernel, chains_of (by decide +kernel), onOdometry_of (by decide +kernel),
    onOdometry_of (by decide +kernel), keysKnown_of (by decide +kernel), keysKnown_of (by decide +kernel), ?_, ?_⟩
  · intro op ho
    simp [atOnce] at ho
    subst ho
    exact Or.inl rfl
  · intro op ho
    simp [byAndBy] at ho
    rcases ho with rfl | rfl | rfl | rfl | rfl | rfl
    · exact Or.inl rfl
    · exact Or.inl rfl
    · exact Or.inl rfl
    · exact Or.inr trivial
    · exact Or.inl rfl
    · exact Or.inl rfl
  · obtain ⟨s, r, h⟩ := Demo.runs_reach (cfg := Demo.cfg) (env := Demo.env) (ops := atOnce)
      (P := fun s => decide (s.nfg.length = 8 ∧ s.pcm.totalLc = 4)) (by decide +kernel)
    exact ⟨s, r, of_decide_eq_true h⟩
  · obtain ⟨s, r, h⟩ := Demo.runs_reach (cfg := Demo.cfg) (env := Demo.env) (ops := byAndBy)
      (P := fun s => decide (s.nfg.length = 8 ∧ s.pcm.totalLc = 4)) (by decide +kernel)
    exact ⟨s, r, of_decide_eq_true h⟩

/-- Incremental selection. -/
def demoInc : Cfg Demo.Z Demo.Tp Demo.Ns := Demo.mk { Demo.params with incremental := true }

/-- Odometry of two robots, without closures. -/
def duoOdometry : List (Op Demo.Z Demo.Ns) :=
  [.update [Demo.edge (Demo.a 0) (Demo.a 1) 1, Demo.edge (Demo.a 1) (Demo.a 2) 1, Demo.edge (Demo.a 2) (Demo.a 3) 1,
      Demo.edge (Demo.b 0) (Demo.b 1) 1, Demo.edge (Demo.b 1) (Demo.b 2) 1, Demo.edge (Demo.b 2) (Demo.b 3) 1]
    [Demo.pose (Demo.a 0) 0, Demo.pose (Demo.a 1) 1, Demo.pose (Demo.a 2) 2, Demo.pose (Demo.a 3) 3,
      Demo.pose (Demo.b 0) 0, Demo.pose (Demo.b 1) 1, Demo.pose (Demo.b 2) 2, Demo.pose (Demo.b 3) 3] false]

/-- Four measurements of the same relative pose: the first agrees with the last, the second with the third. -/
def four : List (Btw Demo.Z Demo.Ns) :=
  [Demo.btw (Demo.a 0) (Demo.b 0) 1, Demo.btw (Demo.a 0) (Demo.b 0) 3, Demo.btw (Demo.a 0) (Demo.b 0) 3,
    Demo.btw (Demo.a 0) (Demo.b 0) 1]

set_option maxRecDepth 100000 in
/-- C46 needs batch selection: with incremental selection the same four closures in one update and in four updates leave
different closures selected. -/
theorem C46_false_incremental :
    (∃ s, ReachOk demoInc Demo.env (duoOdometry ++ [.update (four.map fun b => some (.btw b)) [] false]) s ∧
      Spec.selected s ⟨97, 98⟩ = [Demo.btw (Demo.a 0) (Demo.b 0) 1, Demo.btw (Demo.a 0) (Demo.b 0) 1]) ∧
    ∃ s, ReachOk demoInc Demo.env (duoOdometry ++ four.map fun b => .update [some (.btw b)] [] false) s ∧
      Spec.selected s ⟨97, 98⟩ = [Demo.btw (Demo.a 0) (Demo.b 0) 3, Demo.btw (Demo.a 0) (Demo.b 0) 3] := by
  constructor
  · obtain ⟨s, r, h⟩ := Demo.runs_reach (cfg := demoInc) (env := Demo.env)
      (ops := duoOdometry ++ [.update (four.map fun b => some (.btw b)) [] false])
      (P := fun s => decide (Spec.selected s ⟨97, 98⟩ = [Demo.btw (Demo.a 0) (Demo.b 0) 1, Demo.btw (Demo.a 0) (Demo.b 0) 1]))
      (by decide +kernel)
    exact ⟨s, r, of_decide_eq_true h⟩
  · obtain ⟨s, r, h⟩ := Demo.runs_reach (cfg := demoInc) (env := Demo.env)
      (ops := duoOdometry ++ four.map fun b => .update [some (.btw b)] [] false)
      (P := fun s => decide (Spec.selected s ⟨97, 98⟩ = [Demo.btw (Demo.a 0) (Demo.b 0) 3, Demo.btw (Demo.a 0) (Demo.b 0) 3]))
      (by decide +kernel)
    exact ⟨s, r, of_decide_eq_true h⟩

end RPGO.Props
