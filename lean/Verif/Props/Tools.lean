import Verif.Model.Tools
import Verif.Props.AnySplit
import Verif.Props.Estimate
import Verif.Props.Progress
/-
C60: what the example programs RpgoReadG2o and RpgoReadG2oIncremental save.
-/

namespace RPGO.Spec
variable {G T N : Type}

/-- The between factors of a file that go from a key of robot `c` to its successor, in order. -/
def steps (c : Chr) (g : Graph G N) : List (Btw G N) := (btws g).filter fun b => decide (b.k2 = b.k1 + 1) && chr b.k2 == c

/-- A file as pose-graph tools write it: every key of an edge has a vertex; the edges from a key to its successor form, for
each robot, a chain from key `start c`; every other edge joins keys of these chains. -/
structure GoodFile (start : Chr → Key) (g : Graph G N) (v : Vals G) : Prop where
  vertices : ∀ b ∈ btws g, b.k1 ∈ v.keys ∧ b.k2 ∈ v.keys
  chains : ∀ c, chr (start c) = c ∧ Chain (start c) (steps c g) ∧ (start c).toNat + (steps c g).length < 2 ^ 64
  reached : ∀ b ∈ btws g, b.k2 ≠ b.k1 + 1 → ∀ k ∈ [b.k1, b.k2],
    ∃ i, i ≤ (steps (chr k) g).length ∧ k = after (start (chr k)) i

/-- `f` is an edge that does not go from a key to its successor: a loop closure. -/
def IsClosure (f : Option (Factor G N)) : Prop := ∃ b, f = some (.btw b) ∧ b.k2 ≠ b.k1 + 1

/-- `est` is the result of one run of the configured optimizer (GNC if it is on) on the graph `gr`, started from the
values `v` (stored by increasing key); entries for which the optimizer returned nothing stay. -/
def ResultOf (cfg : Cfg G T N) (env : Env G N) (gr : Graph G N) (v est : Vals G) : Prop :=
  ∃ full res : Vals G, (∀ k, full.find? k = v.find? k) ∧ full.keys.Pairwise (fun a b => a.toNat < b.toNat) ∧
    (if cfg.useGnc then ∃ known init w, env.gnc gr full known init = some (res, w) else env.opt gr full = some res) ∧
    (res.keys.Nodup → ∀ k, est.find? k = (v.find? k).map fun y => (res.find? k).getD y)

end RPGO.Spec

namespace RPGO
variable {G T N : Type}

theorem isLc_btw (b : Btw G N) : Tools.isLc (some (.btw b)) = !decide (b.k2 = b.k1 + 1) := by
  show decide (¬ b.k1 + 1 = b.k2) = _
  by_cases h : b.k2 = b.k1 + 1
  · rw [decide_eq_true h, decide_eq_false (not_not_intro h.symm)]; rfl
  · rw [decide_eq_false h, decide_eq_true (Ne.symm h : ¬ _ = _)]; rfl

theorem btws_prior (g : Graph G N) (k : Key) (x : G) : Spec.btws (g ++ [some (.prior k x)]) = Spec.btws g := by
  unfold Spec.btws; rw [List.filterMap_append]; simp

theorem btws_nonLc (g : Graph G N) :
    Spec.btws (Tools.nonLc g) = (Spec.btws g).filter fun b => decide (b.k2 = b.k1 + 1) := by
  unfold Tools.nonLc
  induction g with
  | nil => rfl
  | cons f g ih =>
    match f with
    | none => exact ih
    | some (.prior _ _) => exact ih
    | some (.priorAlt _ _) => exact ih
    | some (.other _ _) => exact ih
    | some (.btw b) =>
      rw [btws_btw]
      by_cases h : b.k2 = b.k1 + 1
      · rw [List.filter_cons_of_pos (by rw [isLc_btw]; simp only [decide_eq_true h]; decide), btws_btw, ih, List.filter_cons_of_pos (by simp [h])]
      · rw [List.filter_cons_of_neg (by rw [isLc_btw]; simp only [decide_eq_false h]; decide), ih, List.filter_cons_of_neg (by simp only [h]; simp)]

theorem specials_nonLc (g : Graph G N) : Spec.specials (Tools.nonLc g) = Spec.specials g := by
  unfold Tools.nonLc
  induction g with
  | nil => rfl
  | cons f g ih =>
    match f with
    | none => exact ih
    | some (.prior _ _) => exact congrArg (_ :: ·) ih
    | some (.priorAlt _ _) => exact congrArg (_ :: ·) ih
    | some (.other _ _) => exact congrArg (_ :: ·) ih
    | some (.btw b) =>
      rw [specials_btw]
      by_cases h : b.k2 = b.k1 + 1
      · rw [List.filter_cons_of_pos (by rw [isLc_btw]; simp only [decide_eq_true h]; decide), specials_btw, ih]
      · rw [List.filter_cons_of_neg (by rw [isLc_btw]; simp only [decide_eq_false h]; decide), ih]

/-- The updates with one closure each. -/
def closing (g : Graph G N) : List (Op G N) := (Tools.lc g).map fun f => .update [f] [] false

theorem mem_lc {g : Graph G N} {f : Option (Factor G N)} (h : f ∈ Tools.lc g) :
    ∃ b, f = some (.btw b) ∧ b ∈ Spec.btws g ∧ b.k2 ≠ b.k1 + 1 := by
  obtain ⟨h1, h2⟩ := List.mem_filter.1 h
  match f, h1, h2 with
  | some (.btw b), h1, h2 =>
    refine ⟨b, rfl, List.mem_filterMap.2 ⟨_, h1, rfl⟩, ?_⟩
    have : ¬ b.k1 + 1 = b.k2 := by simpa [Tools.isLc] using h2
    exact fun e => this e.symm

theorem mem_closing {g : Graph G N} {op : Op G N} (h : op ∈ closing g) :
    ∃ b, op = .update [some (.btw b)] [] false ∧ b ∈ Spec.btws g ∧ b.k2 ≠ b.k1 + 1 := by
  obtain ⟨f, hf, rfl⟩ := List.mem_map.1 h
  obtain ⟨b, rfl, h1, h2⟩ := mem_lc hf
  exact ⟨b, rfl, h1, h2⟩

theorem odomSoFar_closing (cfg : Cfg G T N) (g : Graph G N) : Spec.odomSoFar cfg (closing g) = [] := by
  unfold Spec.odomSoFar
  rw [List.flatMap_eq_nil_iff]
  intro op ho
  obtain ⟨b, rfl, _, _⟩ := mem_closing ho
  simp [Spec.opOdom, Spec.batch, Spec.odoms, Spec.isOdom, KMap.keys]

theorem candsSoFar_closing {cfg : Cfg G T N} (hs : cfg.special = []) (g : Graph G N) :
    Spec.candsSoFar cfg (closing g) =
      (Spec.btws g).filter fun b => decide (¬ b.k2 = b.k1 + 1) && decide (b.k1 ≠ b.k2) := by
  unfold closing Tools.lc Spec.candsSoFar
  induction g with
  | nil => rfl
  | cons f g ih =>
    match f with
    | none => exact ih
    | some (.prior _ _) => exact ih
    | some (.priorAlt _ _) => exact ih
    | some (.other _ _) => exact ih
    | some (.btw b) =>
      rw [btws_btw]
      by_cases h : b.k2 = b.k1 + 1
      · rw [List.filter_cons_of_neg (by rw [isLc_btw]; simp only [decide_eq_true h]; decide), ih, List.filter_cons_of_neg (by simp only [h]; simp)]
      · rw [List.filter_cons_of_pos (by rw [isLc_btw]; simp only [decide_eq_false h]; decide), List.map_cons, List.flatMap_cons, ih]
        have e : Spec.opCands cfg (.update [some (.btw b)] [] false) = if b.k1 ≠ b.k2 then [b] else [] := by
          show Spec.cands cfg [] _ = _
          unfold Spec.cands
          rw [btws_btw]
          have : Spec.isCand cfg [] b = decide (b.k1 ≠ b.k2) := by
            unfold Spec.isCand Spec.isOdom Spec.isFirstObs
            rw [isLandmark_nil hs]
            simp [KMap.keys]
          rw [show Spec.btws ([] : Graph G N) = [] from rfl]
          by_cases hk : b.k1 = b.k2
          · rw [List.filter_cons_of_neg (by rw [this]; simp [hk]), if_neg (by simp [hk])]; rfl
          · rw [List.filter_cons_of_pos (by rw [this]; simp [hk]), if_pos hk]; rfl
        rw [e]
        by_cases hk : b.k1 = b.k2
        · rw [if_neg (by simp [hk]), List.filter_cons_of_neg (by simp [hk])]; rfl
        · rw [if_pos hk, List.filter_cons_of_pos (by rw [decide_eq_true h, decide_eq_true hk]; rfl)]; rfl

theorem specialSoFar_closing (cfg : Cfg G T N) (g : Graph G N) (l : List (Factor G N)) :
    (closing g).foldl (Spec.specialStep cfg) l = l := by
  have : ∀ (ops : List (Op G N)), (∀ op ∈ ops, ∃ b : Btw G N, op = .update [some (.btw b)] [] false) →
      ops.foldl (Spec.specialStep cfg) l = l := by
    intro ops
    induction ops with
    | nil => intro _; rfl
    | cons op ops ih =>
      intro h
      obtain ⟨b, rfl⟩ := h op (by simp)
      rw [List.foldl_cons]
      have : Spec.specialStep cfg l (.update [some (.btw b)] [] false) = l := by
        show l ++ Spec.specials [some (.btw b)] = l
        simp [Spec.specials]
      rw [this]
      exact ih fun o ho => h o (by simp [ho])
  exact this _ fun op ho => (mem_closing ho).imp fun _ h => h.1

theorem odoms_good {cfg : Cfg G T N} (hs : cfg.special = []) {v : Vals G} {g : Graph G N}
    (hv : ∀ b ∈ Spec.btws g, b.k1 ∈ v.keys ∧ b.k2 ∈ v.keys) :
    Spec.odoms cfg v g = (Spec.btws g).filter fun b => decide (b.k2 = b.k1 + 1) := by
  unfold Spec.odoms
  refine List.filter_congr fun b hb => ?_
  simp [Spec.isOdom, hs, (hv b hb).2]

theorem cands_good {cfg : Cfg G T N} (hs : cfg.special = []) {v : Vals G} {g : Graph G N}
    (hv : ∀ b ∈ Spec.btws g, b.k1 ∈ v.keys ∧ b.k2 ∈ v.keys) :
    Spec.cands cfg v g = (Spec.btws g).filter fun b => decide (¬ b.k2 = b.k1 + 1) && decide (b.k1 ≠ b.k2) := by
  unfold Spec.cands
  refine List.filter_congr fun b hb => ?_
  simp [Spec.isCand, Spec.isOdom, Spec.isFirstObs, isLandmark_nil hs, hs, (hv b hb).2]

/-- The two sequences of calls supply the same data. -/
theorem tools_sameData {cfg : Cfg G T N} (hs : cfg.special = []) {v : Vals G} {g : Graph G N}
    (hv : ∀ b ∈ Spec.btws g, b.k1 ∈ v.keys ∧ b.k2 ∈ v.keys) (k : Key) (x : G) :
    Spec.SameData cfg (Tools.batchCalls g v k x) (Tools.incrementalCalls g v k x) := by
  have hv' : ∀ b ∈ Spec.btws (g ++ [some (.prior k x)]), b.k1 ∈ v.keys ∧ b.k2 ∈ v.keys := by rw [btws_prior]; exact hv
  have hv2 : ∀ b ∈ Spec.btws (Tools.nonLc (g ++ [some (.prior k x)])), b.k1 ∈ v.keys ∧ b.k2 ∈ v.keys := by
    rw [btws_nonLc]; exact fun b hb => hv' b (List.mem_filter.1 hb).1
  generalize hG : g ++ [some (.prior k x)] = G' at hv' hv2
  have eb : Tools.batchCalls g v k x = [.update G' v true, .saveData] := by unfold Tools.batchCalls; rw [hG]
  have ei : Tools.incrementalCalls g v k x = [.update (Tools.nonLc G') v true] ++ (closing G' ++ [.saveData]) := by
    unfold Tools.incrementalCalls closing; rw [hG]; rfl
  rw [eb, ei]
  refine ⟨?_, ?_, ?_, ?_⟩
  · have : Spec.odomSoFar cfg ([.update (Tools.nonLc G') v true] ++ (closing G' ++ [.saveData])) =
        Spec.odoms cfg v (Tools.nonLc G') := by
      have h := odomSoFar_closing cfg G'
      unfold Spec.odomSoFar at h ⊢
      rw [List.flatMap_append, List.flatMap_append, h]
      simp [Spec.opOdom, Spec.batch]
    rw [this, odoms_good hs hv2, btws_nonLc, List.filter_filter]
    simp only [Bool.and_self]
    rw [← odoms_good hs hv']
    simp [Spec.odomSoFar, Spec.opOdom, Spec.batch]
  · have h0 : Spec.cands cfg v (Tools.nonLc G') = [] := by
      rw [cands_good hs hv2, btws_nonLc, List.filter_filter, List.filter_eq_nil_iff]
      intro b _
      by_cases h : b.k2 = b.k1 + 1
      · rw [decide_eq_true h, decide_eq_false (fun n => n h)]; simp
      · rw [decide_eq_false h]; simp
    have : Spec.candsSoFar cfg ([.update (Tools.nonLc G') v true] ++ (closing G' ++ [.saveData])) =
        Spec.candsSoFar cfg (closing G') := by
      unfold Spec.candsSoFar
      rw [List.flatMap_append, List.flatMap_append]
      simp [Spec.opCands, Spec.batch, h0]
    rw [this, candsSoFar_closing hs, ← cands_good hs hv']
    simp [Spec.candsSoFar, Spec.opCands, Spec.batch]
  · unfold Spec.specialSoFar
    rw [List.foldl_append, List.foldl_append, specialSoFar_closing]
    show [] ++ Spec.specials G' = [] ++ Spec.specials (Tools.nonLc G')
    rw [specials_nonLc]
  · intro k
    constructor
    · rintro ⟨op, ho, hk⟩
      refine ⟨.update (Tools.nonLc G') v true, by simp, ?_⟩
      rcases List.mem_cons.1 ho with rfl | ho
      · exact hk
      · rw [List.mem_singleton] at ho
        subst ho
        cases hk
    · rintro ⟨op, ho, hk⟩
      refine ⟨.update G' v true, by simp, ?_⟩
      rcases List.mem_append.1 ho with ho | ho
      · rw [List.mem_singleton] at ho
        subst ho
        exact hk
      · rcases List.mem_append.1 ho with ho | ho
        · obtain ⟨b, rfl, _, _⟩ := mem_closing ho
          cases hk
        · rw [List.mem_singleton] at ho
          subst ho
          cases hk

/-- A history whose first call supplies all odometry and values. -/
theorem firstCall_onOdometry {cfg : Cfg G T N} (hs : cfg.special = []) {start : Chr → Key} {first : Op G N} {rest : List (Op G N)}
    (h : ∀ op ∈ first :: rest, ∀ b ∈ Spec.opCands cfg op, (Spec.OnChain cfg start [first] b.k1 ∧ Spec.OnChain cfg start [first] b.k2) ∧
      b.k1 ∈ Spec.opKeys first ∧ b.k2 ∈ Spec.opKeys first) :
    Spec.OnOdometry cfg start (first :: rest) ∧ Spec.KeysKnown cfg (first :: rest) := by
  have pre : ∀ h1 op h2, first :: rest = h1 ++ op :: h2 → ∃ t, h1 ++ [op] = [first] ++ t := by
    intro h1 op h2 e
    cases h1 with
    | nil => cases e; exact ⟨[], rfl⟩
    | cons o h1 => cases e; exact ⟨h1 ++ [op], rfl⟩
  refine ⟨⟨?_, ?_⟩, ?_⟩
  · intro h1 op h2 e b hb _
    obtain ⟨c1, c2⟩ := (h op (by rw [e]; simp) b hb).1
    obtain ⟨t, ht⟩ := pre h1 op h2 e
    rw [ht]
    exact ⟨OnChain.mono c1, OnChain.mono c2⟩
  · intro h1 op h2 e b hb hl
    rw [isLandmark_nil hs] at hl
    cases hl
  · intro h1 op h2 e b hb
    obtain ⟨c1, c2⟩ := (h op (by rw [e]; simp) b hb).2
    obtain ⟨t, ht⟩ := pre h1 op h2 e
    rw [ht]
    exact ⟨⟨first, by simp, c1⟩, first, by simp, c2⟩

theorem steps_prior (c : Chr) (g : Graph G N) (k : Key) (x : G) : Spec.steps c (g ++ [some (.prior k x)]) = Spec.steps c g := by
  unfold Spec.steps; rw [btws_prior]

section
variable [Mul G] [Inv G] [One G]

theorem tools_ready {cfg : Cfg G T N} (hs : cfg.special = []) {start : Chr → Key} {v : Vals G} {g : Graph G N}
    (hg : Spec.GoodFile start g v) (k : Key) (x : G) :
    Spec.Chains cfg start (Tools.batchCalls g v k x) ∧
    (Spec.OnOdometry cfg start (Tools.batchCalls g v k x) ∧ Spec.KeysKnown cfg (Tools.batchCalls g v k x)) ∧
    (Spec.OnOdometry cfg start (Tools.incrementalCalls g v k x) ∧ Spec.KeysKnown cfg (Tools.incrementalCalls g v k x)) := by
  have hv' : ∀ b ∈ Spec.btws (g ++ [some (.prior k x)]), b.k1 ∈ v.keys ∧ b.k2 ∈ v.keys := by rw [btws_prior]; exact hg.vertices
  have hr' : ∀ b ∈ Spec.btws (g ++ [some (.prior k x)]), b.k2 ≠ b.k1 + 1 → ∀ i ∈ [b.k1, b.k2],
      ∃ n, n ≤ (Spec.steps (chr i) (g ++ [some (.prior k x)])).length ∧ i = Spec.after (start (chr i)) n := by
    rw [btws_prior]; intro b hb h i hi; rw [steps_prior]; exact hg.reached b hb h i hi
  have hc' : ∀ c, chr (start c) = c ∧ Spec.Chain (start c) (Spec.steps c (g ++ [some (.prior k x)])) ∧
      (start c).toNat + (Spec.steps c (g ++ [some (.prior k x)])).length < 2 ^ 64 := by
    intro c; rw [steps_prior]; exact hg.chains c
  have hv2 : ∀ b ∈ Spec.btws (Tools.nonLc (g ++ [some (.prior k x)])), b.k1 ∈ v.keys ∧ b.k2 ∈ v.keys := by
    rw [btws_nonLc]; exact fun b hb => hv' b (List.mem_filter.1 hb).1
  generalize hG : g ++ [some (.prior k x)] = G' at hv' hv2 hr' hc'
  have eb : Tools.batchCalls g v k x = [.update G' v true, .saveData] := by unfold Tools.batchCalls; rw [hG]
  have ei : Tools.incrementalCalls g v k x = .update (Tools.nonLc G') v true :: (closing G' ++ [.saveData]) := by
    unfold Tools.incrementalCalls closing; rw [hG]; rfl
  have ro1 : ∀ c, Spec.robotOdom cfg c [.update G' v true] = Spec.steps c G' := by
    intro c
    unfold Spec.robotOdom Spec.steps
    have : Spec.odomSoFar cfg [.update G' v true] = Spec.odoms cfg v G' := by simp [Spec.odomSoFar, Spec.opOdom, Spec.batch]
    rw [this, odoms_good hs hv', List.filter_filter]
    refine List.filter_congr fun b _ => Bool.and_comm _ _
  have ro2 : ∀ c, Spec.robotOdom cfg c [.update (Tools.nonLc G') v true] = Spec.steps c G' := by
    intro c
    unfold Spec.robotOdom Spec.steps
    have : Spec.odomSoFar cfg [.update (Tools.nonLc G') v true] = Spec.odoms cfg v (Tools.nonLc G') := by
      simp [Spec.odomSoFar, Spec.opOdom, Spec.batch]
    rw [this, odoms_good hs hv2, btws_nonLc, List.filter_filter, List.filter_filter]
    refine List.filter_congr fun b _ => ?_
    rw [Bool.and_assoc, Bool.and_self, Bool.and_comm]
  rw [eb, ei]
  refine ⟨?_, ?_, ?_⟩
  · intro c
    have : Spec.robotOdom cfg c [.update G' v true, .saveData] = Spec.robotOdom cfg c [.update G' v true] := by
      simp [Spec.robotOdom, Spec.odomSoFar, Spec.opOdom, Spec.batch]
    rw [this, ro1]
    exact hc' c
  · refine firstCall_onOdometry hs ?_
    intro op ho b hb
    rcases List.mem_cons.1 ho with rfl | ho
    · have hb' : b ∈ Spec.cands cfg v G' := hb
      rw [cands_good hs hv'] at hb'
      obtain ⟨m, hb'⟩ := List.mem_filter.1 hb'
      simp only [Bool.and_eq_true, decide_eq_true_eq] at hb'
      refine ⟨⟨?_, ?_⟩, hv' b m⟩
      · obtain ⟨n, h1, h2⟩ := hr' b m hb'.1 b.k1 (by simp)
        exact ⟨n, by rw [ro1]; exact h1, h2⟩
      · obtain ⟨n, h1, h2⟩ := hr' b m hb'.1 b.k2 (by simp)
        exact ⟨n, by rw [ro1]; exact h1, h2⟩
    · rw [List.mem_singleton] at ho
      subst ho
      cases hb
  · refine firstCall_onOdometry hs ?_
    intro op ho b hb
    have key : ∀ b ∈ Spec.btws G', b.k2 ≠ b.k1 + 1 →
        (Spec.OnChain cfg start [.update (Tools.nonLc G') v true] b.k1 ∧ Spec.OnChain cfg start [.update (Tools.nonLc G') v true] b.k2) ∧
        b.k1 ∈ v.keys ∧ b.k2 ∈ v.keys := by
      intro b m hne
      refine ⟨⟨?_, ?_⟩, hv' b m⟩
      · obtain ⟨n, h1, h2⟩ := hr' b m hne b.k1 (by simp)
        exact ⟨n, by rw [ro2]; exact h1, h2⟩
      · obtain ⟨n, h1, h2⟩ := hr' b m hne b.k2 (by simp)
        exact ⟨n, by rw [ro2]; exact h1, h2⟩
    rcases List.mem_cons.1 ho with rfl | ho
    · have hb' : b ∈ Spec.cands cfg v (Tools.nonLc G') := hb
      rw [cands_good hs hv2, btws_nonLc, List.filter_filter] at hb'
      obtain ⟨m, hb'⟩ := List.mem_filter.1 hb'
      simp only [Bool.and_eq_true, decide_eq_true_eq] at hb'
      exact key b m hb'.1.1
    · rcases List.mem_append.1 ho with ho | ho
      · obtain ⟨b', rfl, m, hne⟩ := mem_closing ho
        have : b ∈ Spec.opBtws (.update [some (.btw b')] [] false : Op G N) := opCands_btws hb
        have : b = b' := by simpa [Spec.opBtws, Spec.batch, Spec.btws] using this
        subst this
        exact key b m hne
      · rw [List.mem_singleton] at ho
        subst ho
        cases hb

theorem tools_onlyUpdates (g : Graph G N) (v : Vals G) (k : Key) (x : G) :
    Spec.OnlyUpdates (Tools.batchCalls g v k x) ∧ Spec.OnlyUpdates (Tools.incrementalCalls g v k x) := by
  constructor
  · intro op ho
    rcases List.mem_cons.1 ho with rfl | ho
    · exact Or.inl rfl
    · rw [List.mem_singleton] at ho
      subst ho
      exact Or.inr trivial
  · intro op ho
    rcases List.mem_append.1 ho with ho | ho
    · rcases List.mem_cons.1 ho with rfl | ho
      · exact Or.inl rfl
      · obtain ⟨f, _, rfl⟩ := List.mem_map.1 ho
        exact Or.inl rfl
    · rw [List.mem_singleton] at ho
      subst ho
      exact Or.inr trivial

theorem simulate_ok {g : Graph G N} {v : Vals G} {ops : List (Op G N)} (h : Tools.simulate g v = .ok () ops) :
    ∃ k x, Tools.anchor g v = .ok () (k, x) ∧ ops = Tools.batchCalls g v k x := by
  unfold Tools.simulate at h
  cases e : Tools.anchor g v with
  | ok _ r => rw [e] at h; cases h; exact ⟨r.1, r.2, rfl, rfl⟩
  | throw _ _ => rw [e] at h; cases h
  | ub _ => rw [e] at h; cases h

theorem simulateIncremental_ok {g : Graph G N} {v : Vals G} {ops : List (Op G N)}
    (h : Tools.simulateIncremental g v = .ok () ops) :
    ∃ k x, Tools.anchor g v = .ok () (k, x) ∧ ops = Tools.incrementalCalls g v k x := by
  unfold Tools.simulateIncremental at h
  cases e : Tools.anchor g v with
  | ok _ r => rw [e] at h; cases h; exact ⟨r.1, r.2, rfl, rfl⟩
  | throw _ _ => rw [e] at h; cases h
  | ub _ => rw [e] at h; cases h

end
end RPGO

namespace RPGO
variable {G T N : Type} [Mul G] [Inv G] [One G]

theorem tools_same {cfg : Cfg G T N} (hsf : StartFree cfg.ops) (hr : cfg.rejection = true) (hi : cfg.incremental = false)
    (hs : cfg.special = []) {e1 e2 : Env G N} (he1 : e1.Ok) (he2 : e2.Ok) (he : SameIter e1 e2)
    {lm debug log useGnc fixPrev biasOdom : Bool} {start : Chr → Key} {g : Graph G N} {v : Vals G}
    (hg : Spec.GoodFile start g v) {c1 c2 : List (Op G N)} (h1 : Tools.simulate g v = .ok () c1)
    (h2 : Tools.simulateIncremental g v = .ok () c2) {s1 s2 : St G T N} (r1 : ReachOk cfg e1 c1 s1)
    (r2 : ReachOk (cfg.withOpt lm debug log useGnc fixPrev biasOdom) e2 c2 s2) :
    s1.nfg = s2.nfg ∧ s1.values.keys = s2.values.keys ∧
      ∀ id, Spec.registered s1 id = Spec.registered s2 id ∧ Spec.matrix s1 id = Spec.matrix s2 id ∧
        Spec.selected s1 id = Spec.selected s2 id := by
  obtain ⟨k, x, e, rfl⟩ := simulate_ok h1
  obtain ⟨k', x', e', rfl⟩ := simulateIncremental_ok h2
  rw [e] at e'
  cases e'
  obtain ⟨hc, ⟨o1, k1⟩, o2, k2⟩ := tools_ready hs hg k x
  obtain ⟨u1, u2⟩ := tools_onlyUpdates g v k x
  have hd := tools_sameData hs hg.vertices k x
  have nl : ∀ h : List (Op G N), Spec.NoLandmarks cfg h := fun h op _ b _ => isLandmark_nil hs b
  have ht := anySplit_twin hr hi hsf hd he1 he2 r1 r2 u1 u2 (nl _) (nl _) hc o1 o2 k1 k2
  have mg : ∀ {h : List (Op G N)}, Spec.OnlyUpdates h → ∀ op ∈ h, Spec.Managed op := by
    intro h hu op ho
    rcases hu op ho with hb | hb
    · cases op <;> trivial
    · cases op <;> first | exact hb.elim | trivial
  have n2 : s2.nfg = buildGraph e2 s2.pcm :=
    (ReachOk.lists (cfg := cfg.withOpt lm debug log useGnc fixPrev biasOdom) he2 hr r2 (mg u2)).1
  refine ⟨?_, ?_, fun id => ?_⟩
  · rw [(r1.lists he1 hr (mg u1)).1, n2, buildGraph_iter he]
    unfold buildGraph
    rw [ht.odom, ht.special, ht.lcs, ht.landmarks, ht.ignored]
  · obtain ⟨a1, a2⟩ := Props.C34_estimate_keys r1
    obtain ⟨b1, b2⟩ := Props.C34_estimate_keys r2
    have hk : ∀ k, k ∈ s1.values.keys ↔ k ∈ s2.values.keys := fun k => by
      rw [a1 k, b1 k, hd.keys k]
    have nd : ∀ {l : List Key}, l.Pairwise (fun a b => a.toNat < b.toNat) → l.Nodup :=
      fun h => h.imp fun {a b} hab e => by subst e; exact Nat.lt_irrefl _ hab
    exact ((List.perm_ext_iff_of_nodup (nd a2) (nd b2)).2 hk).eq_of_pairwise
      (fun a b _ _ h1 h2 => absurd h1 (Nat.lt_asymm h2)) a2 b2
  · unfold Spec.registered Spec.matrix Spec.selected lcOf
    rw [ht.lcs]
    exact ⟨rfl, rfl, rfl⟩


theorem reach_nil {cfg : Cfg G T N} {env : Env G N} {h : List (Op G N)} {s : St G T N} (r : ReachOk cfg env h s)
    (e : h = []) : s = St.init := by
  cases r with
  | init => rfl
  | step _ _ => simp at e

/-- The first call of either program. -/
theorem firstUpdate_result {cfg : Cfg G T N} {env : Env G N} (hr : cfg.rejection = true) (hal : cfg.align = false)
    (hf : cfg.fixPrev = false) {fs : Graph G N} {v : Vals G} (hsp : Spec.specials fs ≠ []) {s : St G T N} {x : Ret}
    (e : exec cfg env (.update fs v true) St.init = .ok s x) : Spec.ResultOf cfg env s.nfg v s.values := by
  have h := Props.C59_estimate (Or.inl hal) hf (op := .update fs v true) rfl e
  have ho : Spec.optimizes cfg (.update fs v true : Op G N) = true := by
    unfold Spec.optimizes
    rw [if_pos hr]
    simp [Spec.Optimizes, hsp]
  rw [if_pos ho] at h
  obtain ⟨full, res, h1, hso, h2, h3⟩ := h
  have hc : ∀ k, Spec.completed (St.init : St G T N).values (Spec.opVals (.update fs v true : Op G N)) k = v.find? k := fun k => rfl
  refine ⟨full, res, ?_, hso List.Pairwise.nil, ?_, ?_⟩
  · intro k
    rw [h1 k, hc]
    cases v.find? k <;> rfl
  · rw [hr, Bool.and_true] at h2
    have e0 : s.nfg ++ (St.init : St G T N).tempNfg = s.nfg := List.append_nil _
    rw [e0] at h2
    exact h2
  · intro hn k
    rw [(h3 hn).1 k, hc]

theorem saveData_same {cfg : Cfg G T N} {env : Env G N} {s s' : St G T N} {x : Ret}
    (e : exec cfg env .saveData s = .ok s' x) : s' = s := by
  obtain ⟨s2, _, h1, h2⟩ := M.bind_eq_ok.1 (show (saveData).ret (fun _ => Ret.unit) s = _ from e)
  cases h2
  unfold saveData at h1
  split at h1
  · cases h1; rfl
  · cases h1

theorem specials_prior_ne (g : Graph G N) (k : Key) (x : G) : Spec.specials (g ++ [some (.prior k x)]) ≠ [] := by
  unfold Spec.specials
  rw [List.filterMap_append]
  simp

/-- The updates with one closure each leave the estimate alone. -/
theorem closing_values {cfg : Cfg G T N} {env : Env G N} (hr : cfg.rejection = true) (hal : cfg.align = false)
    (hf : cfg.fixPrev = false) {g : Graph G N} {h0 : List (Op G N)} (ops : List (Op G N)) (hops : ∀ op ∈ ops, op ∈ closing g)
    {s : St G T N} (r : ReachOk cfg env (h0 ++ ops) s) :
    ∃ s0, ReachOk cfg env h0 s0 ∧ ∀ k, s.values.find? k = s0.values.find? k := by
  induction ops using List.reverseRecOn generalizing s with
  | nil => rw [List.append_nil] at r; exact ⟨s, r, fun _ => rfl⟩
  | append_singleton ops op ih =>
    rw [← List.append_assoc] at r
    obtain ⟨s1, x, r1, e⟩ := r.snoc_inv
    obtain ⟨s0, r0, h⟩ := ih (fun o ho => hops o (by simp [ho])) r1
    refine ⟨s0, r0, fun k => ?_⟩
    rw [← h k]
    obtain ⟨b, rfl, _, _⟩ := mem_closing (hops op (by simp))
    have h := Props.C59_estimate (Or.inl hal) hf (op := .update [some (.btw b)] [] false) rfl e
    have ho : ¬ Spec.optimizes cfg (.update [some (.btw b)] [] false : Op G N) = true := by
      unfold Spec.optimizes
      rw [if_pos hr]
      simp [Spec.Optimizes]
    rw [if_neg ho] at h
    rw [h k]
    unfold Spec.completed
    split
    · rfl
    · rename_i hk
      rw [KMap.mem_keys_iff] at hk
      show (KMap.find? ([] : Vals G) k) = _
      have : s1.values.find? k = none := by
        cases hh : s1.values.find? k with
        | none => rfl
        | some y => exact absurd (by simp [KMap.has, hh]) hk
      rw [this]
      rfl

/-- After an update without closure candidates on a new solver, the graph holds the odometry and the other factors. -/
theorem firstUpdate_graph {cfg : Cfg G T N} {env : Env G N} (he : env.Ok) (hr : cfg.rejection = true) (hs : cfg.special = [])
    {fs : Graph G N} {v : Vals G} {o : Bool} (hne : fs ≠ []) (hc : Spec.cands cfg v fs = []) {s : St G T N} {x : Ret}
    (e : exec cfg env (.update fs v o) St.init = .ok s x) :
    s.nfg = (Spec.odoms cfg v fs).map Spec.elem ++ (Spec.specials fs).map some := by
  have r : ReachOk cfg env [.update fs v o] s := .step (h := []) .init e
  obtain ⟨a1, a2, a3⟩ := r.lists he hr (by simp [Spec.Managed])
  have hd := (exec_batch env hr (op := .update fs v o) rfl St.init).1 _ _ e
  have hl : s.pcm.lcs = [] ∧ s.pcm.landmarks = [] := by
    cases hd with
    | empty h0 => exact absurd h0 hne
    | full hne hv hS hn0 hp ha hfr =>
      rename_i v1 p1 p2 u1
      have ep : s.pcm = { p2 with robotOrder := u1.pcm.robotOrder } := by rw [hfr.pcm, ha.eq]
      rw [hn0 hc] at ep
      rw [ep]
      refine ⟨?_, ?_⟩
      · show p1.lcs = []; rw [hS.lcs]; rfl
      · show p1.landmarks = []; rw [hS.landmarks, firsts_nil hs]; rfl
  rw [a1]
  obtain ⟨lc, lm, eb, h1, h2⟩ := Props.buildGraph_split he s.pcm
  have e1 : lc = [] := by
    cases lc with
    | nil => rfl
    | cons b _ => obtain ⟨y, hy, _⟩ := h1 b (by simp); rw [hl.1] at hy; cases hy
  have e2 : lm = [] := by
    cases lm with
    | nil => rfl
    | cons b _ => obtain ⟨y, hy, _⟩ := h2 b (by simp); rw [hl.2] at hy; cases hy
  rw [eb, e1, e2, a2, a3]
  simp [Spec.odomSoFar, Spec.opOdom, Spec.batch, Spec.specialSoFar, Spec.specialStep]

theorem g2oOk_of {g : Graph G N} (h : ∀ b ∈ Spec.btws g, b.noise.isSome = true) : g2oOk g = true := by
  induction g with
  | nil => rfl
  | cons f g ih =>
    match f with
    | none => exact ih h
    | some (.prior _ _) => exact ih h
    | some (.priorAlt _ _) => exact ih h
    | some (.other _ _) => exact ih h
    | some (.btw b) =>
      show (b.noise.isSome && g2oOk g) = true
      rw [h b (by rw [btws_btw]; simp), ih fun x hx => h x (by rw [btws_btw]; simp [hx])]
      rfl

theorem saveData_runs {cfg : Cfg G T N} {env : Env G N} (he : env.Ok) (hr : cfg.rejection = true) {h : List (Op G N)}
    {s : St G T N} (r : ReachOk cfg env h s) (hm : ∀ op ∈ h, Spec.Managed op)
    (hn : ∀ op ∈ h, ∀ b ∈ Spec.opBtws op, b.noise.isSome = true) : ReachOk cfg env (h ++ [.saveData]) s := by
  refine .step (r := .unit) r ?_
  show (saveData.ret fun _ => Ret.unit) s = _
  have : g2oOk s.nfg = true := by
    obtain ⟨lc, lm, e, h1, h2⟩ := Props.C16_layout he hr r hm
    refine g2oOk_of fun b hb => ?_
    have hb : some (.btw b) ∈ s.nfg := by
      obtain ⟨f, hf, e⟩ := List.mem_filterMap.1 hb
      match f, e with
      | some (.btw b'), e => cases e; exact hf
    have key : Spec.Supplied h b := by
      rw [e] at hb
      simp only [List.mem_append, List.mem_map] at hb
      rcases hb with ((⟨y, hy, e⟩ | ⟨y, hy, e⟩) | ⟨y, hy, e⟩) | ⟨y, hy, e⟩
      · cases e
        obtain ⟨op, ho, hy⟩ := List.mem_flatMap.1 hy
        refine ⟨op, ho, ?_⟩
        unfold Spec.opOdom at hy
        unfold Spec.opBtws
        split at hy
        · exact (List.mem_filter.1 hy).1
        · cases hy
      · cases e
        exact absurd hy (by
          intro hy
          have : ∀ (l : List (Op G N)) (acc : List (Factor G N)), (.btw b) ∉ acc → (.btw b) ∉ l.foldl (Spec.specialStep cfg) acc := by
            intro l
            induction l with
            | nil => exact fun _ h => h
            | cons o l ih =>
              intro acc h
              refine ih _ ?_
              have hsp : ∀ fs : Graph G N, Factor.btw b ∉ Spec.specials fs := by
                intro fs hm
                obtain ⟨f, _, e⟩ := List.mem_filterMap.1 hm
                match f, e with
                | some (.btw _), e => cases e
                | some (.prior _ _), e => cases e
                | some (.priorAlt _ _), e => cases e
                | some (.other _ _), e => cases e
              unfold Spec.specialStep
              split
              · simp [h, hsp]
              · simp [h, hsp]
              · exact fun hm => h (List.mem_filter.1 hm).1
              · exact h
          exact this h [] (by simp) hy)
      · cases e; exact (h1 _ hy).2
      · cases e; exact (h2 _ hy).2
    obtain ⟨op, ho, hb⟩ := key
    exact hn op ho b hb
  simp only [M.ret, M.bind_eq]
  rw [M.bind_ok (show saveData s = .ok s () by unfold saveData; rw [if_pos this])]
  rfl

/-- A history in which only the first call may optimize is modest. -/
theorem modest_first {cfg : Cfg G T N} {op : Op G N} {h : List (Op G N)} (H : ∀ o ∈ h, Spec.Optimizes cfg o = false) :
    Spec.Modest cfg (op :: h) := by
  intro h1 o1 h2 o2 hp _ ho
  exfalso
  have hm : o2 ∈ h := by
    obtain ⟨t, e⟩ := hp
    cases h1 with
    | nil =>
      simp only [List.nil_append, List.cons_append, List.cons.injEq] at e
      rw [← e.2]; simp
    | cons _ h1 =>
      simp only [List.cons_append, List.cons.injEq] at e
      rw [← e.2]; simp
  rw [H o2 hm] at ho
  cases ho

theorem tools_run {cfg : Cfg G T N} {env : Env G N} (he : env.Ok) (hw : env.Works) (hr : cfg.rejection = true)
    (hf : cfg.fixPrev = false) (hs : cfg.special = []) {g : Graph G N} {v : Vals G}
    (hal : cfg.align = true → (∀ l, (env.avg l).isSome) ∧ ∀ b ∈ Spec.btws g, b.k2 = b.k1 + 1 → chr b.k1 = chr b.k2)
    (hv : ∀ b ∈ Spec.btws g, b.k1 ∈ v.keys ∧ b.k2 ∈ v.keys)
    (hn : ∀ b ∈ Spec.btws g, b.noise.isSome = true) (hnd : v.keys.Nodup) (hp : ∀ e ∈ v, ∃ y, e.2 = Val.pose y)
    (k : Key) (x : G) :
    (∃ s, ReachOk cfg env (Tools.batchCalls g v k x) s) ∧ ∃ s, ReachOk cfg env (Tools.incrementalCalls g v k x) s := by
  have hpose : ∀ i ∈ v.keys, ∃ y, (i, Val.pose y) ∈ v := by
    intro i hi
    obtain ⟨e, hm, rfl⟩ := List.mem_map.1 hi
    obtain ⟨y, hy⟩ := hp e hm
    exact ⟨y, by rw [← hy]; exact hm⟩
  have hv' : ∀ b ∈ Spec.btws (g ++ [some (.prior k x)]), b.k1 ∈ v.keys ∧ b.k2 ∈ v.keys := by rw [btws_prior]; exact hv
  have hn' : ∀ b ∈ Spec.btws (g ++ [some (.prior k x)]), b.noise.isSome = true := by rw [btws_prior]; exact hn
  have hv2 : ∀ b ∈ Spec.btws (Tools.nonLc (g ++ [some (.prior k x)])), b.k1 ∈ v.keys ∧ b.k2 ∈ v.keys := by
    rw [btws_nonLc]; exact fun b hb => hv' b (List.mem_filter.1 hb).1
  have hc' : cfg.align = true → (∀ l, (env.avg l).isSome) ∧ ∀ b ∈ Spec.btws (g ++ [some (.prior k x)]), b.k2 = b.k1 + 1 →
      chr b.k1 = chr b.k2 := by rw [btws_prior]; exact hal
  have hpo : ∀ i y, (i, y) ∈ v → ∃ g, y = Val.pose g := fun i y hm => hp _ hm
  generalize hG : g ++ [some (.prior k x)] = G' at hv' hv2 hn' hc'
  have eb : Tools.batchCalls g v k x = [.update G' v true] ++ [.saveData] := by unfold Tools.batchCalls; rw [hG]; rfl
  have ei : Tools.incrementalCalls g v k x = (.update (Tools.nonLc G') v true :: closing G') ++ [.saveData] := by
    unfold Tools.incrementalCalls closing; rw [hG]
  have fair : ∀ b ∈ Spec.btws G', Spec.Fair cfg b := fun b hb => ⟨hn' b hb, fun h => by rw [isLandmark_nil hs] at h; cases h⟩
  constructor
  · obtain ⟨s, r⟩ := Props.C55_updates_succeed_partial he hw hr (bs := [(G', v, true)]) (by
      refine ⟨by simpa [Spec.given] using hnd, ?_, ?_⟩
      · intro b hb y hy
        rw [List.mem_singleton] at hb
        subst hb
        exact fair y hy
      · intro bs1 fs vs o bs2 e pre y post hx
        have hy : y ∈ Spec.odoms cfg vs fs := by rw [hx]; simp
        cases bs1 with
        | cons _ t => simp at e
        | nil =>
          cases e
          left
          exact hpose _ (hv' y (List.mem_filter.1 hy).1).1) (fun ha => ⟨(hc' ha).1, fun _ => 0, by
      refine ⟨fun i y hm _ => hpo i y (by simpa [Spec.given] using hm), ?_, fun _ _ _ _ _ _ _ _ h => by rw [hs] at h; cases h⟩
      intro bs1 fs vs o bs2 e y hy
      cases bs1 with
      | cons _ t => simp at e
      | nil =>
        cases e
        have hm := (List.mem_filter.1 hy).1
        have hod := (List.mem_filter.1 hy).2
        unfold Spec.isOdom at hod
        simp only [decide_eq_true_eq] at hod
        exact ⟨(hc' ha).2 y hm hod.2.2.1, (hv' y hm).1⟩⟩) (by
      intro _
      exact Or.inl ⟨hf, Or.inr (modest_first (by simp))⟩)
    refine ⟨s, ?_⟩
    rw [eb]
    refine saveData_runs he hr r (by simp [Spec.Managed]) ?_
    intro op ho b hb
    rw [List.mem_singleton] at ho
    subst ho
    exact hn' b hb
  · have eu : Spec.updates ((Tools.nonLc G', v, true) :: (Tools.lc G').map fun f => ([f], [], false)) =
        .update (Tools.nonLc G') v true :: closing G' := by
      simp [Spec.updates, closing]
    obtain ⟨s, r⟩ := Props.C55_updates_succeed_partial he hw hr
        (bs := (Tools.nonLc G', v, true) :: (Tools.lc G').map fun f => ([f], [], false)) (by
      refine ⟨?_, ?_, ?_⟩
      · have : Spec.given ((Tools.nonLc G', v, true) :: (Tools.lc G').map fun f => ([f], [], false)) = v := by
          simp [Spec.given, List.flatMap_map]
        rw [this]; exact hnd
      · intro b hb y hy
        rcases List.mem_cons.1 hb with rfl | hb
        · simp only at hy
          rw [btws_nonLc] at hy
          exact fair y (List.mem_filter.1 hy).1
        · obtain ⟨f, hf, rfl⟩ := List.mem_map.1 hb
          obtain ⟨b, rfl, hb, _⟩ := mem_lc hf
          have : y = b := by simpa [Spec.btws] using hy
          subst this
          exact fair y hb
      · intro bs1 fs vs o bs2 e pre y post hx
        have hy : y ∈ Spec.odoms cfg vs fs := by rw [hx]; simp
        cases bs1 with
        | nil =>
          cases e
          left
          exact hpose _ (hv2 y (List.mem_filter.1 hy).1).1
        | cons _ t =>
          simp only [List.cons_append, List.cons.injEq] at e
          have : (fs, vs, o) ∈ (Tools.lc G').map fun f => ([f], ([] : Vals G), false) := by rw [e.2]; simp
          obtain ⟨f, _, hh⟩ := List.mem_map.1 this
          cases hh
          have := (List.mem_filter.1 hy).2
          simp [Spec.isOdom, KMap.keys] at this) (fun ha => ⟨(hc' ha).1, fun _ => 0, by
      refine ⟨fun i y hm _ => hpo i y (by simpa [Spec.given, List.flatMap_map] using hm), ?_,
        fun _ _ _ _ _ _ _ _ h => by rw [hs] at h; cases h⟩
      intro bs1 fs vs o bs2 e y hy
      cases bs1 with
      | nil =>
        cases e
        have hm := (List.mem_filter.1 hy).1
        have hod := (List.mem_filter.1 hy).2
        unfold Spec.isOdom at hod
        simp only [decide_eq_true_eq] at hod
        refine ⟨(hc' ha).2 y ?_ hod.2.2.1, (hv2 y hm).1⟩
        rw [btws_nonLc] at hm
        exact (List.mem_filter.1 hm).1
      | cons _ t =>
        simp only [List.cons_append, List.cons.injEq] at e
        have : (fs, vs, o) ∈ (Tools.lc G').map fun f => ([f], ([] : Vals G), false) := by rw [e.2]; simp
        obtain ⟨f, _, hh⟩ := List.mem_map.1 this
        cases hh
        have := (List.mem_filter.1 hy).2
        simp [Spec.isOdom, KMap.keys] at this⟩) (by
      intro _
      rw [eu]
      refine Or.inl ⟨hf, Or.inr (modest_first fun o ho => ?_)⟩
      obtain ⟨b, rfl, _, _⟩ := mem_closing ho
      rfl)
    rw [eu] at r
    refine ⟨s, ?_⟩
    rw [ei]
    refine saveData_runs he hr r ?_ ?_
    · intro op ho
      rcases List.mem_cons.1 ho with rfl | ho
      · trivial
      · obtain ⟨b, rfl, _, _⟩ := mem_closing ho
        trivial
    · intro op ho b hb
      rcases List.mem_cons.1 ho with rfl | ho
      · have hb : b ∈ Spec.btws (Tools.nonLc G') := hb
        rw [btws_nonLc] at hb
        exact hn' b (List.mem_filter.1 hb).1
      · obtain ⟨b', rfl, hb', _⟩ := mem_closing ho
        have : b = b' := by simpa [Spec.opBtws, Spec.batch, Spec.btws] using hb
        subst this
        exact hn' b hb'

end RPGO

namespace RPGO.Props
open RPGO

section
variable {G : Type} [Mul G] [Inv G] [One G] {C K : Type} [Field K] [LinearOrder K]

/-- What `main` of RpgoReadG2o configures. -/
abbrev batchCfg (C : Type) (tn rn : G → K) (signed twoD verbose : Bool) (t r : K) : Cfg G (PNode G) (GNoise C) :=
  (Tools.batchParams twoD verbose t r).cfgSimple C tn rn signed

/-- The two programs differ in verbosity and GNC only. -/
theorem incrementalParams_eq {twoD v2 : Bool} (v1 : Bool) {t r gnc : K} {p : Params K}
    (hp : Tools.incrementalParams twoD v2 0 gnc 0 t r = some p) :
    p = { Tools.batchParams twoD v1 t r with verbosity := Tools.verbosity v2, useGnc := decide (gnc > 0 ∧ gnc < 1) } := by
  unfold Tools.incrementalParams at hp
  split at hp
  · cases hp
  · injection hp with hp
    subst hp
    by_cases h : gnc > 0 ∧ gnc < 1
    · rw [if_neg (by decide), if_pos h, if_neg (by decide), decide_eq_true h]
      cases twoD <;> rfl
    · rw [if_neg (by decide), if_neg h, if_neg (by decide), decide_eq_false h]
      cases twoD <;> rfl

/-- C60 (same edges): run on the same file with the same thresholds, RpgoReadG2o and RpgoReadG2oIncremental (not
incremental, without frame alignment, with or without GNC) hand the same graph to the writer, in the same order, with
vertices for the same keys, and have registered and selected the same closures, whatever the optimizers return. -/
theorem C60_same_graph {G : Type} [Group G] (tn rn : G → K) (signed twoD v1 v2 : Bool) (t r gnc : K) {p : Params K}
    (hp : Tools.incrementalParams twoD v2 0 gnc 0 t r = some p)
    {e1 e2 : Env G (GNoise C)} (he1 : e1.Ok) (he2 : e2.Ok) (he : SameIter e1 e2)
    {start : Chr → Key} {g : Graph G (GNoise C)} {v : Vals G} (hg : Spec.GoodFile start g v)
    {c1 c2 : List (Op G (GNoise C))} (h1 : Tools.simulate g v = .ok () c1) (h2 : Tools.simulateIncremental g v = .ok () c2)
    {s1 s2 : St G (PNode G) (GNoise C)} (r1 : ReachOk (batchCfg C tn rn signed twoD v1 t r) e1 c1 s1)
    (r2 : ReachOk (p.cfgSimple C tn rn signed) e2 c2 s2) :
    s1.nfg = s2.nfg ∧ s1.values.keys = s2.values.keys ∧
      ∀ id, Spec.registered s1 id = Spec.registered s2 id ∧ Spec.matrix s1 id = Spec.matrix s2 id ∧
        Spec.selected s1 id = Spec.selected s2 id := by
  have hc : p.cfgSimple C tn rn signed = (batchCfg C tn rn signed twoD v1 t r).withOpt true
      (decide (Tools.verbosity v2 ≠ .quiet)) true (decide (gnc > 0 ∧ gnc < 1)) false false := by
    rw [incrementalParams_eq v1 hp]
    cases twoD <;> rfl
  rw [hc] at r2
  refine tools_same (cfg := batchCfg C tn rn signed twoD v1 t r) ?_ ?_ ?_ ?_ he1 he2 he hg h1 h2 r1 r2
  · exact node_startFree tn rn _ _ _ _
  · cases twoD <;> rfl
  · cases twoD <;> rfl
  · cases twoD <;> rfl

/-- C60 (RpgoReadG2o): the saved estimate is the result of one GNC run on the saved graph, started from the vertices of
the file. -/
theorem C60_batch_estimate (tn rn : G → K) (signed twoD v1 : Bool) (t r : K) {env : Env G (GNoise C)}
    {g : Graph G (GNoise C)} {v : Vals G} {c1 : List (Op G (GNoise C))} (h1 : Tools.simulate g v = .ok () c1)
    {s : St G (PNode G) (GNoise C)} (r1 : ReachOk (batchCfg C tn rn signed twoD v1 t r) env c1 s) :
    (batchCfg C tn rn signed twoD v1 t r).useGnc = true ∧
      Spec.ResultOf (batchCfg C tn rn signed twoD v1 t r) env s.nfg v s.values := by
  obtain ⟨k, x, _, rfl⟩ := simulate_ok h1
  have r1' : ReachOk (batchCfg C tn rn signed twoD v1 t r) env ([.update (g ++ [some (.prior k x)]) v true] ++ [.saveData]) s := r1
  obtain ⟨s1, y, r0, e⟩ := r1'.snoc_inv
  rw [saveData_same e]
  have r0' : ReachOk (batchCfg C tn rn signed twoD v1 t r) env ([] ++ [.update (g ++ [some (.prior k x)]) v true]) s1 := r0
  obtain ⟨s0, y0, ri, e0⟩ := r0'.snoc_inv
  obtain rfl : s0 = St.init := reach_nil ri rfl
  refine ⟨by cases twoD <;> rfl, firstUpdate_result ?_ ?_ ?_ (specials_prior_ne _ _ _) e0⟩ <;> cases twoD <;> rfl

/-- The factors of a file that are not between factors. -/
abbrev rest {N : Type} (g : Graph G N) : Graph G N := (Spec.specials g).map some

/-- C60 (RpgoReadG2oIncremental, not incremental, without alignment): the saved estimate is the result of one optimizer
run on the steps from a key to its successor, the factors that are not edges and the prior: no loop closure of the file
takes part in it. Missing: the estimate of the saved graph, see `C60_false_stale`. -/
theorem C60_incremental_estimate_partial (tn rn : G → K) (signed twoD v2 : Bool) (t r gnc : K) {p : Params K}
    (hp : Tools.incrementalParams twoD v2 0 gnc 0 t r = some p) {env : Env G (GNoise C)} (he : env.Ok)
    {g : Graph G (GNoise C)} {v : Vals G} (hv : ∀ b ∈ Spec.btws g, b.k1 ∈ v.keys ∧ b.k2 ∈ v.keys)
    {c2 : List (Op G (GNoise C))} (h2 : Tools.simulateIncremental g v = .ok () c2)
    {s : St G (PNode G) (GNoise C)} (r2 : ReachOk (p.cfgSimple C tn rn signed) env c2 s) :
    ∃ k x, Tools.anchor g v = .ok () (k, x) ∧
      Spec.ResultOf (p.cfgSimple C tn rn signed) env
        ((((Spec.btws g).filter fun b => decide (b.k2 = b.k1 + 1)).map fun b => some (.btw b)) ++ rest g ++ [some (.prior k x)])
        v s.values := by
  have hr : (p.cfgSimple C tn rn signed).rejection = true := by rw [incrementalParams_eq true hp]; cases twoD <;> rfl
  have hal : (p.cfgSimple C tn rn signed).align = false := by rw [incrementalParams_eq true hp]; cases twoD <;> rfl
  have hf : (p.cfgSimple C tn rn signed).fixPrev = false := by rw [incrementalParams_eq true hp]; cases twoD <;> rfl
  have hs : (p.cfgSimple C tn rn signed).special = [] := by rw [incrementalParams_eq true hp]; cases twoD <;> rfl
  generalize p.cfgSimple C tn rn signed = cfg at *
  obtain ⟨k, x, ha, rfl⟩ := simulateIncremental_ok h2
  refine ⟨k, x, ha, ?_⟩
  have r2' : ReachOk cfg env ((([.update (Tools.nonLc (g ++ [some (.prior k x)])) v true] : List (Op G (GNoise C))) ++
      closing (g ++ [some (.prior k x)])) ++ [.saveData]) s := r2
  obtain ⟨s1, y, r0, e⟩ := r2'.snoc_inv
  rw [saveData_same e]
  obtain ⟨s0, rf, hval⟩ := closing_values hr hal hf _ (fun _ h => h) r0
  have rf' : ReachOk cfg env ([] ++ [.update (Tools.nonLc (g ++ [some (.prior k x)])) v true]) s0 := rf
  obtain ⟨si, y0, ri, e0⟩ := rf'.snoc_inv
  obtain rfl : si = St.init := reach_nil ri rfl
  have hsp : Spec.specials (Tools.nonLc (g ++ [some (.prior k x)])) = Spec.specials g ++ [.prior k x] := by
    rw [specials_nonLc]; unfold Spec.specials; rw [List.filterMap_append]; rfl
  have hv2 : ∀ b ∈ Spec.btws (Tools.nonLc (g ++ [some (.prior k x)])), b.k1 ∈ v.keys ∧ b.k2 ∈ v.keys := by
    rw [btws_nonLc, btws_prior]; exact fun b hb => hv b (List.mem_filter.1 hb).1
  have c0 : Spec.cands cfg v (Tools.nonLc (g ++ [some (.prior k x)])) = [] := by
    rw [cands_good hs hv2, btws_nonLc, List.filter_filter, List.filter_eq_nil_iff]
    intro b _
    by_cases h : b.k2 = b.k1 + 1
    · rw [decide_eq_true h, decide_eq_false (fun n => n h)]; simp
    · rw [decide_eq_false h]; simp
  have hg := firstUpdate_graph he hr hs (by intro h; rw [h] at hsp; simp [Spec.specials] at hsp) c0 e0
  have hres := firstUpdate_result hr hal hf (by rw [hsp]; simp) e0
  rw [hg, odoms_good hs hv2, btws_nonLc, btws_prior, List.filter_filter, hsp] at hres
  simp only [Bool.and_self, List.map_append, List.map_cons, List.map_nil] at hres
  rw [← List.append_assoc] at hres
  obtain ⟨full, res, q1, q2, q3, q4⟩ := hres
  exact ⟨full, res, q1, q2, q3, fun hn k => by rw [hval k, q4 hn k]⟩

/-- The settings of the second program that decide whether it comes to its end. -/
theorem incrementalParams_cfg (tn rn : G → K) (signed : Bool) {twoD v2 : Bool} {inc align : Int} {t r gnc : K} {p : Params K}
    (hp : Tools.incrementalParams twoD v2 inc gnc align t r = some p) :
    (p.cfgSimple C tn rn signed).rejection = true ∧ (p.cfgSimple C tn rn signed).fixPrev = false ∧
      (p.cfgSimple C tn rn signed).special = [] ∧ ((p.cfgSimple C tn rn signed).align = true → align = 1) := by
  unfold Tools.incrementalParams at hp
  split at hp
  · cases hp
  · injection hp with hp
    subst hp
    by_cases h1 : inc = 1 <;> by_cases h2 : gnc > 0 ∧ gnc < 1 <;> by_cases h3 : align = 1 <;>
      simp only [h1, h2, h3, if_true, if_false] <;> cases twoD <;> simp [Params.applyAll, Params.apply, Params.cfgSimple, Params.cfg, Params.default]

/-- C60 (both programs come to their end): on a file with one vertex per key and Gaussian noise, with optimizers that
return, with or without incremental selection and GNC and however many closures the file has. With frame alignment the
averaging must return as well, and no step from a key to its successor may go from one robot to another. -/
theorem C60_both_run (tn rn : G → K) (signed twoD v1 v2 : Bool) (inc align : Int) (t r gnc : K) {p : Params K}
    (hp : Tools.incrementalParams twoD v2 inc gnc align t r = some p) {env : Env G (GNoise C)} (he : env.Ok) (hw : env.Works)
    {g : Graph G (GNoise C)} {v : Vals G} (hv : ∀ b ∈ Spec.btws g, b.k1 ∈ v.keys ∧ b.k2 ∈ v.keys)
    (hal : align = 1 → (∀ l, (env.avg l).isSome) ∧ ∀ b ∈ Spec.btws g, b.k2 = b.k1 + 1 → chr b.k1 = chr b.k2)
    (hn : ∀ b ∈ Spec.btws g, b.noise.isSome = true) (hnd : v.keys.Nodup) (hpo : ∀ e ∈ v, ∃ y, e.2 = Val.pose y)
    {k : Key} {x : G} (ha : Tools.anchor g v = .ok () (k, x)) :
    (∃ c1 s1, Tools.simulate g v = .ok () c1 ∧ ReachOk (batchCfg C tn rn signed twoD v1 t r) env c1 s1) ∧
    ∃ c2 s2, Tools.simulateIncremental g v = .ok () c2 ∧ ReachOk (p.cfgSimple C tn rn signed) env c2 s2 := by
  constructor
  · obtain ⟨s, q⟩ := (tools_run (cfg := batchCfg C tn rn signed twoD v1 t r) he hw (by cases twoD <;> rfl)
      (by cases twoD <;> rfl) (by cases twoD <;> rfl) (fun h => by cases twoD <;> cases h) hv hn hnd hpo k x).1
    exact ⟨_, s, by unfold Tools.simulate; rw [ha], q⟩
  · obtain ⟨a1, a2, a3, a4⟩ := incrementalParams_cfg (C := C) tn rn signed hp
    obtain ⟨s, q⟩ := (tools_run (cfg := p.cfgSimple C tn rn signed) he hw a1 a2 a3 (fun h => hal (a4 h)) hv hn hnd hpo k x).2
    exact ⟨_, s, by unfold Tools.simulateIncremental; rw [ha], q⟩

/-- C60 (arguments): the second program refuses exactly -1 as a threshold of incremental selection; with any other
negative translation threshold it runs incremental selection with both checks off (C45). -/
theorem C60_false_disabled [IsStrictOrderedRing K] (twoD verbose : Bool) (t r : K) (ht : t < 0) (h1 : t ≠ -1) (hr : r ≠ -1) :
    ∃ p, Tools.incrementalParams twoD verbose 1 0 0 t r = some p ∧ p.incremental = true ∧ p.loopCheck = false ∧
      p.odomCheck = false := by
  unfold Tools.incrementalParams
  rw [if_neg (by simp [h1, hr])]
  refine ⟨_, rfl, ?_, ?_, ?_⟩
  · cases twoD <;> simp [Params.applyAll, Params.apply]
  · cases twoD <;> simp [Params.applyAll, Params.apply, Params.loopCheck, ht]
  · cases twoD <;> simp [Params.applyAll, Params.apply, Params.odomCheck, ht]

end

/-- A file: a0 → a1 → a2 → a3 in unit steps, the closure a0 → a3 of length 3 and the wrong closure a0 → a2 of length 9
between the steps. -/
def demoFile : Graph Demo.Z Demo.Ns :=
  [Demo.edge (Demo.a 0) (Demo.a 1) 1, Demo.edge (Demo.a 0) (Demo.a 3) 3, Demo.edge (Demo.a 1) (Demo.a 2) 1,
    Demo.edge (Demo.a 0) (Demo.a 2) 9, Demo.edge (Demo.a 2) (Demo.a 3) 1]

/-- Its vertices. -/
def demoVertices : Vals Demo.Z := [Demo.pose (Demo.a 0) 0, Demo.pose (Demo.a 1) 1, Demo.pose (Demo.a 2) 2, Demo.pose (Demo.a 3) 3]

/-- The solver of RpgoReadG2o with thresholds 1. -/
abbrev demoBatch : Cfg Demo.Z Demo.Tp Demo.Ns := batchCfg Unit Demo.len (fun _ => 0) true false false 1 1

/-- Parameters of RpgoReadG2oIncremental with thresholds 1, without GNC. -/
def demoIncParams : Params ℚ := Params.default.applyAll [.logOutput, .simple3D 1 1 .quiet]

theorem demoIncParams_eq : Tools.incrementalParams (K := ℚ) false false 0 0 0 1 1 = some demoIncParams := by
  unfold Tools.incrementalParams
  rw [if_neg (by norm_num), if_neg (by decide), if_neg (by norm_num), if_neg (by decide)]
  rfl

theorem demoFile_good : Spec.GoodFile (fun c => symKey c 0) demoFile demoVertices where
  vertices := by decide +kernel
  chains := by
    intro c
    have : ∀ c : Fin 256, (decide (chr (symKey (BitVec.ofFin c) 0) = BitVec.ofFin c) &&
        chainB (symKey (BitVec.ofFin c) 0) (Spec.steps (BitVec.ofFin c) demoFile) &&
        decide ((symKey (BitVec.ofFin c) 0).toNat + (Spec.steps (BitVec.ofFin c) demoFile).length < 2 ^ 64)) = true := by
      decide +kernel
    have := this c.toFin
    simp only [Bool.and_eq_true, decide_eq_true_eq] at this
    exact ⟨this.1.1, chainB_ok this.1.2, this.2⟩
  reached := by
    have : ((Spec.btws demoFile).all fun b => decide (b.k2 = b.k1 + 1) || [b.k1, b.k2].all fun k =>
        (List.range ((Spec.steps (chr k) demoFile).length + 1)).any fun i => decide (k = Spec.after (symKey (chr k) 0) i)) = true := by
      decide +kernel
    intro b hb hne k hk
    have := List.all_eq_true.1 this b hb
    rw [decide_eq_false hne, Bool.false_or] at this
    obtain ⟨i, hi, e⟩ := List.any_eq_true.1 (List.all_eq_true.1 this k hk)
    exact ⟨i, Nat.le_of_lt_succ (List.mem_range.1 hi), of_decide_eq_true e⟩

/-- An optimizer whose result depends on the graph: it puts a0 at the number of factors. -/
def counting : Env Demo.Z Demo.Ns :=
  { Demo.env with
    opt := fun g v => some (v.set (Demo.a 0) (.pose (Demo.z g.length)))
    gnc := fun g v _ _ => some (v.set (Demo.a 0) (.pose (Demo.z g.length)), List.replicate g.length 1) }

set_option maxRecDepth 100000 in
/-- The hypotheses of the theorems of C60: both programs come to their end on the file; both save five factors, without the
wrong closure. -/
example : Demo.env.Ok ∧ Demo.env.Works ∧ Spec.GoodFile (fun c => symKey c 0) demoFile demoVertices ∧
    Tools.incrementalParams (K := ℚ) false false 0 0 0 1 1 = some demoIncParams ∧
    (∀ b ∈ Spec.btws demoFile, b.noise.isSome = true) ∧ demoVertices.keys.Nodup ∧ (∀ e ∈ demoVertices, ∃ y, e.2 = Val.pose y) ∧
    Tools.anchor demoFile demoVertices = .ok () (Demo.a 0, Demo.z 0) ∧
    ((Spec.btws demoFile).filter fun b => decide (b.k2 ≠ b.k1 + 1)).length ≤
      ((Spec.btws demoFile).filter fun b => decide (b.k2 = b.k1 + 1)).length ∧
    (∃ c1 s1, Tools.simulate demoFile demoVertices = .ok () c1 ∧ ReachOk demoBatch Demo.env c1 s1 ∧ s1.nfg.length = 5 ∧
      Demo.edge (Demo.a 0) (Demo.a 2) 9 ∉ s1.nfg) ∧
    ∃ c2 s2, Tools.simulateIncremental demoFile demoVertices = .ok () c2 ∧ ReachOk (Demo.mk demoIncParams) Demo.env c2 s2 ∧
      s2.nfg.length = 5 ∧ Demo.edge (Demo.a 0) (Demo.a 2) 9 ∉ s2.nfg := by
  refine ⟨Demo.env_ok, Demo.env_works, demoFile_good, demoIncParams_eq, by decide +kernel, by decide +kernel,
    by intro e he; simp [demoVertices, Demo.pose] at he; rcases he with rfl | rfl | rfl | rfl <;> exact ⟨_, rfl⟩,
    rfl, by decide +kernel, ?_, ?_⟩
  · obtain ⟨s, r, h⟩ := Demo.runs_reach (cfg := demoBatch) (env := Demo.env)
      (ops := Tools.batchCalls demoFile demoVertices (Demo.a 0) (Demo.z 0))
      (P := fun s => decide (s.nfg.length = 5 ∧ Demo.edge (Demo.a 0) (Demo.a 2) 9 ∉ s.nfg)) (by decide +kernel)
    exact ⟨_, s, rfl, r, of_decide_eq_true h⟩
  · obtain ⟨s, r, h⟩ := Demo.runs_reach (cfg := Demo.mk demoIncParams) (env := Demo.env)
      (ops := Tools.incrementalCalls demoFile demoVertices (Demo.a 0) (Demo.z 0))
      (P := fun s => decide (s.nfg.length = 5 ∧ Demo.edge (Demo.a 0) (Demo.a 2) 9 ∉ s.nfg)) (by decide +kernel)
    exact ⟨_, s, rfl, r, of_decide_eq_true h⟩

/-- A file with two robots and a closure between them. -/
def demoPair : Graph Demo.Z Demo.Ns :=
  [Demo.edge (Demo.a 0) (Demo.a 1) 1, Demo.edge (Demo.b 0) (Demo.b 1) 1, Demo.edge (Demo.a 1) (Demo.b 1) 4]

/-- Its vertices. -/
def demoPairVertices : Vals Demo.Z := [Demo.pose (Demo.a 0) 0, Demo.pose (Demo.a 1) 1, Demo.pose (Demo.b 0) 4, Demo.pose (Demo.b 1) 5]

/-- The hypotheses of `C60_both_run` with incremental selection and frame alignment. -/
example : ∃ p, Tools.incrementalParams (K := ℚ) false false 1 0 1 1 1 = some p ∧ p.incremental = true ∧ p.align = true ∧
    ∃ c2 s2, Tools.simulateIncremental demoPair demoPairVertices = .ok () c2 ∧ ReachOk (Demo.mk p) alignEnv c2 s2 := by
  refine ⟨Params.default.applyAll [.logOutput, .incremental, .alignMethod true, .simple3D 1 1 .quiet], ?_, rfl, rfl, ?_⟩
  · unfold Tools.incrementalParams
    rw [if_neg (by norm_num), if_pos rfl, if_neg (by norm_num), if_pos rfl]
    rfl
  · refine (C60_both_run (C := Unit) Demo.len (fun _ => 0) true false false false 1 1 1 1 0 (p := Params.default.applyAll
      [.logOutput, .incremental, .alignMethod true, .simple3D 1 1 .quiet]) ?_ alignEnv_ok
      alignEnv_works (g := demoPair) (v := demoPairVertices) (by decide +kernel) (fun _ => ⟨fun _ => rfl, by decide +kernel⟩)
      (by decide +kernel) (by decide +kernel)
      (by intro e he; simp [demoPairVertices, Demo.pose] at he; rcases he with rfl | rfl | rfl | rfl <;> exact ⟨_, rfl⟩)
      (k := Demo.a 0) (x := Demo.z 0) rfl).2
    unfold Tools.incrementalParams
    rw [if_neg (by norm_num), if_pos rfl, if_neg (by norm_num), if_pos rfl]
    rfl

set_option maxRecDepth 100000 in
/-- C60 is false for the estimate of RpgoReadG2oIncremental: the estimate it saves is not the result of optimizing the
graph it saves, because it never optimizes after the closures. -/
theorem C60_false_stale :
    ∃ c2 s2, Tools.simulateIncremental demoFile demoVertices = .ok () c2 ∧ ReachOk (Demo.mk demoIncParams) counting c2 s2 ∧
      ¬ Spec.ResultOf (Demo.mk demoIncParams) counting s2.nfg demoVertices s2.values := by
  obtain ⟨s, r, h⟩ := Demo.runs_reach (cfg := Demo.mk demoIncParams) (env := counting)
    (ops := Tools.incrementalCalls demoFile demoVertices (Demo.a 0) (Demo.z 0))
    (P := fun s => decide (s.nfg.length = 5 ∧ s.values.find? (Demo.a 0) = some (.pose (Demo.z 4)))) (by decide +kernel)
  have h := of_decide_eq_true h
  refine ⟨_, s, rfl, r, ?_⟩
  rintro ⟨full, res, q1, q2, q3, q4⟩
  have hfull : full = demoVertices := KMap.Sorted.ext q2 (by unfold KMap.Sorted; decide +kernel) q1
  subst hfull
  have e3 : res = KMap.set demoVertices (Demo.a 0) (.pose (Demo.z 5)) := by
    have : counting.opt s.nfg demoVertices = some res := q3
    have h5 : counting.opt s.nfg demoVertices = some (KMap.set demoVertices (Demo.a 0) (.pose (Demo.z s.nfg.length))) := rfl
    rw [h.1] at h5
    rw [h5] at this
    exact (Option.some.inj this).symm
  subst e3
  have := q4 (by decide +kernel) (Demo.a 0)
  rw [h.2] at this
  exact absurd this (by decide +kernel)

/-- The hypotheses of `C60_false_disabled`: a translation threshold of -2. -/
example : ((-2 : ℚ) < 0) ∧ (-2 : ℚ) ≠ -1 ∧ (1 : ℚ) ≠ -1 := by norm_num

end RPGO.Props
