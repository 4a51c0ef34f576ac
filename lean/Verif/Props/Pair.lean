import Verif.Proofs.PairState
import Verif.Props.Selection
/-
C65 what is accepted between two robots depends only on these two robots.
-/

namespace RPGO.Spec
variable {G T N : Type}

/-- A key of robot `a` or `b`. -/
def ofRobots (a b : Chr) (k : Key) : Bool := chr k == a || chr k == b

/-- The factors of a batch that are only about robots `a` and `b`. -/
def onlyFactors (a b : Chr) (fs : Graph G N) : Graph G N :=
  fs.filter fun f => match f with
    | some f => f.keys.all (ofRobots a b)
    | none => true

/-- The values for keys of robots `a` and `b`. -/
def onlyVals (a b : Chr) (vs : Vals G) : Vals G := vs.filter fun e => ofRobots a b e.1

/-- The update as it would be if there were no other robots than `a` and `b`. -/
def only (a b : Chr) : Op G N → Op G N
  | .update fs vs o => .update (onlyFactors a b fs) (onlyVals a b vs) o
  | .forceUpdate fs vs => .forceUpdate (onlyFactors a b fs) (onlyVals a b vs)
  | op => op

/-- The same closures between `a` and `b` are registered, with the same matrix, and the same are accepted. -/
structure SamePairResult (a b : Chr) (s1 s2 : St G T N) : Prop where
  registered : registered s1 ⟨a, b⟩ = registered s2 ⟨a, b⟩
  matrix : matrix s1 ⟨a, b⟩ = matrix s2 ⟨a, b⟩
  selected : selected s1 ⟨a, b⟩ = selected s2 ⟨a, b⟩

end RPGO.Spec

namespace RPGO
variable {G T N : Type}

theorem samePair_result {a b : Chr} {s1 s2 : St G T N} (h : lcOf s1.pcm ⟨a, b⟩ = lcOf s2.pcm ⟨a, b⟩) :
    Spec.SamePairResult a b s1 s2 := by
  refine ⟨?_, ?_, ?_⟩
  · unfold Spec.registered; rw [h]
  · unfold Spec.matrix; rw [h]
  · unfold Spec.selected; rw [h]

theorem mem_onlyVals {a b : Chr} {vs : Vals G} {k : Key} (hk : Spec.ofRobots a b k = true) :
    k ∈ (Spec.onlyVals a b vs).keys ↔ k ∈ vs.keys := by
  unfold Spec.onlyVals KMap.keys
  simp only [List.mem_map, List.mem_filter]
  constructor
  · rintro ⟨e, ⟨h1, _⟩, h3⟩; exact ⟨e, h1, h3⟩
  · rintro ⟨e, h1, rfl⟩; exact ⟨e, ⟨h1, hk⟩, rfl⟩

theorem btws_only (a b : Chr) (fs : Graph G N) :
    Spec.btws (Spec.onlyFactors a b fs) =
      (Spec.btws fs).filter fun x => Spec.ofRobots a b x.k1 && Spec.ofRobots a b x.k2 := by
  unfold Spec.btws Spec.onlyFactors
  induction fs with
  | nil => rfl
  | cons f fs ih =>
    cases f with
    | none =>
      rw [List.filter_cons_of_pos (by rfl), List.filterMap_cons, List.filterMap_cons]
      exact ih
    | some f =>
      by_cases hk : f.keys.all (Spec.ofRobots a b) = true
      · rw [List.filter_cons_of_pos (by exact hk), List.filterMap_cons, List.filterMap_cons]
        cases f with
        | btw x =>
          simp only [Factor.keys, List.all_cons, List.all_nil, Bool.and_true] at hk
          rw [List.filter_cons_of_pos (by exact hk)]
          simp only
          rw [ih]
        | prior => exact ih
        | priorAlt => exact ih
        | other => exact ih
      · rw [List.filter_cons_of_neg (by exact hk), List.filterMap_cons]
        cases f with
        | btw x =>
          simp only [Factor.keys, List.all_cons, List.all_nil, Bool.and_true] at hk
          rw [List.filter_cons_of_neg (by exact hk)]
          exact ih
        | prior => exact ih
        | priorAlt => exact ih
        | other => exact ih

theorem isOdom_only {cfg : Cfg G T N} {a b : Chr} {vs : Vals G} {x : Btw G N} (hk : Spec.ofRobots a b x.k2 = true) :
    Spec.isOdom cfg (Spec.onlyVals a b vs) x = Spec.isOdom cfg vs x := by
  unfold Spec.isOdom
  rw [decide_eq_decide, mem_onlyVals hk]

theorem isCand_only {cfg : Cfg G T N} {a b : Chr} {vs : Vals G} {x : Btw G N} (h1 : Spec.ofRobots a b x.k1 = true)
    (h2 : Spec.ofRobots a b x.k2 = true) : Spec.isCand cfg (Spec.onlyVals a b vs) x = Spec.isCand cfg vs x := by
  unfold Spec.isCand Spec.isFirstObs
  have : decide (x.k1 ∈ (Spec.onlyVals a b vs).keys ∨ x.k2 ∈ (Spec.onlyVals a b vs).keys) =
      decide (x.k1 ∈ vs.keys ∨ x.k2 ∈ vs.keys) := by
    rw [decide_eq_decide, mem_onlyVals h1, mem_onlyVals h2]
  rw [isOdom_only h2, this]

theorem connects_of {a b : Chr} {x : Btw G N} (h : Spec.connects a b x = true) :
    Spec.ofRobots a b x.k1 = true ∧ Spec.ofRobots a b x.k2 = true := by
  unfold Spec.connects at h
  unfold Spec.ofRobots
  rcases of_decide_eq_true h with h | h <;> simp [h.1, h.2]

theorem pairCands_only (cfg : Cfg G T N) (a b : Chr) (op : Op G N) :
    Spec.pairCands cfg a b (Spec.only a b op) = Spec.pairCands cfg a b op := by
  have key : ∀ (fs : Graph G N) (vs : Vals G),
      (Spec.cands cfg (Spec.onlyVals a b vs) (Spec.onlyFactors a b fs)).filter (Spec.connects a b) =
        (Spec.cands cfg vs fs).filter (Spec.connects a b) := by
    intro fs vs
    unfold Spec.cands
    rw [btws_only, List.filter_filter, List.filter_filter, List.filter_filter]
    refine List.filter_congr fun x _ => ?_
    by_cases hx : Spec.connects a b x = true
    · obtain ⟨h1, h2⟩ := connects_of hx
      rw [hx, isCand_only h1 h2, h1, h2]; simp
    · simp [hx]
  unfold Spec.pairCands Spec.opCands
  cases op <;> first | exact key _ _ | rfl

theorem opOdom_only {cfg : Cfg G T N} {a b c : Chr} (hc : c = a ∨ c = b) {op : Op G N}
    (h : ∀ x ∈ Spec.opOdom cfg op, chr x.k2 = c → chr x.k1 = c) :
    (Spec.opOdom cfg (Spec.only a b op)).filter (fun x => chr x.k2 == c) = (Spec.opOdom cfg op).filter fun x => chr x.k2 == c := by
  have key : ∀ (fs : Graph G N) (vs : Vals G), (∀ x ∈ Spec.odoms cfg vs fs, chr x.k2 = c → chr x.k1 = c) →
      (Spec.odoms cfg (Spec.onlyVals a b vs) (Spec.onlyFactors a b fs)).filter (fun x => chr x.k2 == c) =
        (Spec.odoms cfg vs fs).filter fun x => chr x.k2 == c := by
    intro fs vs h
    unfold Spec.odoms at h ⊢
    rw [btws_only, List.filter_filter, List.filter_filter, List.filter_filter]
    refine List.filter_congr fun x hx => ?_
    by_cases h2 : chr x.k2 = c
    · have hk : Spec.ofRobots a b x.k2 = true := by
        unfold Spec.ofRobots; rw [h2]; rcases hc with rfl | rfl <;> simp
      rw [isOdom_only hk, hk]
      cases ho : Spec.isOdom cfg vs x with
      | false => simp
      | true =>
        have h1 := h x (List.mem_filter.2 ⟨hx, ho⟩) h2
        have hk1 : Spec.ofRobots a b x.k1 = true := by
          unfold Spec.ofRobots; rw [h1]; rcases hc with rfl | rfl <;> simp
        rw [hk1]; simp
    · have h3 : (chr x.k2 == c) = false := by simpa using h2
      simp only [h3, Bool.false_and]
  unfold Spec.opOdom at h ⊢
  cases op <;> first | exact key _ _ h | rfl

theorem robotOdom_only {cfg : Cfg G T N} {a b c : Chr} (hc : c = a ∨ c = b) {h : List (Op G N)}
    (hh : ∀ op ∈ h, ∀ x ∈ Spec.opOdom cfg op, chr x.k2 = c → chr x.k1 = c) :
    Spec.robotOdom cfg c (h.map (Spec.only a b)) = Spec.robotOdom cfg c h := by
  unfold Spec.robotOdom Spec.odomSoFar
  induction h with
  | nil => rfl
  | cons op h ih =>
    rw [List.map_cons, List.flatMap_cons, List.flatMap_cons, List.filter_append, List.filter_append,
      opOdom_only hc (hh op (by simp)), ih fun o ho => hh o (by simp [ho])]

theorem opKeys_only {a b : Chr} {op : Op G N} {k : Key} (hk : Spec.ofRobots a b k = true) (h : k ∈ Spec.opKeys op) :
    k ∈ Spec.opKeys (Spec.only a b op) := by
  cases op <;> first | exact (mem_onlyVals hk).2 h | exact h

theorem chain_ends {c : Chr} {k : Key} {l : List (Btw G N)} (hk : chr k = c) (h : Spec.Chain k l) (hl : ∀ x ∈ l, chr x.k2 = c) :
    ∀ x ∈ l, chr x.k1 = c := by
  induction l generalizing k with
  | nil => simp
  | cons x l ih =>
    obtain ⟨e1, e2, h⟩ := h
    intro y hy
    rcases List.mem_cons.1 hy with rfl | hy
    · rw [e1]; exact hk
    · exact ih (by rw [← e2]; exact hl x (by simp)) h (fun z hz => hl z (by simp [hz])) y hy

theorem PairFed.inside {cfg : Cfg G T N} {start : Chr → Key} {a b : Chr} {h : List (Op G N)} (hf : Spec.PairFed cfg start a b h)
    {c : Chr} (hc : c = a ∨ c = b) : ∀ op ∈ h, ∀ x ∈ Spec.opOdom cfg op, chr x.k2 = c → chr x.k1 = c := by
  intro op ho x hx h2
  refine chain_ends (hf.begins c hc) (hf.chains c hc) (fun y hy => ?_) x ?_
  · have := (List.mem_filter.1 hy).2
    simpa using this
  · refine List.mem_filter.2 ⟨List.mem_flatMap.2 ⟨op, ho, hx⟩, by simp [h2]⟩

theorem PairFed.only {cfg : Cfg G T N} {start : Chr → Key} {a b : Chr} {h : List (Op G N)} (hf : Spec.PairFed cfg start a b h) :
    Spec.PairFed cfg start a b (h.map (Spec.only a b)) ∧
    (∀ c, c = a ∨ c = b → Spec.robotOdom cfg c (h.map (Spec.only a b)) = Spec.robotOdom cfg c h) ∧
    Spec.pairGroups cfg a b (h.map (Spec.only a b)) = Spec.pairGroups cfg a b h := by
  have hod : ∀ c, c = a ∨ c = b → Spec.robotOdom cfg c (h.map (Spec.only a b)) = Spec.robotOdom cfg c h := fun c hc =>
    robotOdom_only hc (PairFed.inside hf hc)
  have hsplit : ∀ h1 op h2, h.map (Spec.only a b) = h1 ++ op :: h2 →
      ∃ g1 o g2, h = g1 ++ o :: g2 ∧ h1 = g1.map (Spec.only a b) ∧ op = Spec.only a b o := by
    intro h1 op h2 e
    obtain ⟨g1, t, e1, e2, e3⟩ := List.map_eq_append_iff.1 e
    obtain ⟨o, g2, e4, e5, e6⟩ := List.map_eq_cons_iff.1 e3
    exact ⟨g1, o, g2, by rw [e1, e4], e2.symm, e5.symm⟩
  refine ⟨⟨?_, hf.poses, hf.begins, ?_, ?_, ?_, ?_⟩, hod, ?_⟩
  · intro op ho
    obtain ⟨o, ho', rfl⟩ := List.mem_map.1 ho
    have := hf.spares o ho'
    cases o <;> exact this
  · intro c hc; rw [hod c hc]; exact hf.chains c hc
  · intro c hc; rw [hod c hc]; exact hf.short c hc
  · intro h1 op h2 e x hx
    obtain ⟨g1, o, g2, e1, rfl, rfl⟩ := hsplit h1 op h2 e
    rw [pairCands_only] at hx
    have hon := hf.reached g1 o g2 e1 x hx
    have hx' := (List.mem_filter.1 hx).2
    obtain ⟨k1, k2⟩ := connects_of hx'
    have conv : ∀ k, Spec.ofRobots a b k = true → Spec.OnChain cfg start (g1 ++ [o]) k →
        Spec.OnChain cfg start (g1.map (Spec.only a b) ++ [Spec.only a b o]) k := by
      intro k hk hon
      have hc : chr k = a ∨ chr k = b := by simpa [Spec.ofRobots] using hk
      unfold Spec.OnChain at hon ⊢
      have : Spec.robotOdom cfg (chr k) (g1.map (Spec.only a b) ++ [Spec.only a b o]) = Spec.robotOdom cfg (chr k) (g1 ++ [o]) := by
        have := robotOdom_only (cfg := cfg) (a := a) (b := b) hc (h := g1 ++ [o]) (fun op hop => PairFed.inside hf hc op (by
          rw [e1]
          rcases List.mem_append.1 hop with hm | hm
          · exact List.mem_append_left _ hm
          · rw [List.mem_singleton.1 hm]; simp))
        rw [List.map_append] at this
        exact this
      rw [this]; exact hon
    exact ⟨conv _ k1 hon.1, conv _ k2 hon.2⟩
  · intro h1 op h2 e x hx
    obtain ⟨g1, o, g2, e1, rfl, rfl⟩ := hsplit h1 op h2 e
    rw [pairCands_only] at hx
    obtain ⟨⟨o1, m1, q1⟩, o2, m2, q2⟩ := hf.known g1 o g2 e1 x hx
    obtain ⟨k1, k2⟩ := connects_of (List.mem_filter.1 hx).2
    have mm : ∀ o', o' ∈ g1 ++ [o] → Spec.only a b o' ∈ g1.map (Spec.only a b) ++ [Spec.only a b o] := by
      intro o' ho'
      have := List.mem_map_of_mem (f := Spec.only a b) ho'
      rwa [List.map_append] at this
    exact ⟨⟨_, mm _ m1, opKeys_only k1 q1⟩, _, mm _ m2, opKeys_only k2 q2⟩
  · unfold Spec.pairGroups
    rw [List.map_map]
    congr 1
    refine List.map_congr_left fun op _ => ?_
    exact pairCands_only cfg a b op

end RPGO

namespace RPGO.Props
variable {G C K : Type} [Mul G] [Inv G] [One G] [Field K] [LinearOrder K]

/-- C65: two histories that supply the same groups of closures between robots `a` and `b`, where the odometry of `a` and
`b` in the first is an initial part of that in the second, leave the same closures between `a` and `b` registered, with
the same matrix, and accepted, in both selection modes: whatever is supplied or removed about other robots, whatever the
values, the other factors, the optimizers and the optimization flags. -/
theorem C65_only_the_pair_matters {G : Type} [Group G] (p : Params K) (tn rn : G → K) (signed : Bool) (hm : p.method ≠ .none)
    {e1 e2 : Env G (GNoise C)} {a b : Chr} {start : Chr → Key} {h1 h2 : List (Op G (GNoise C))}
    (f1 : Spec.PairFed (p.cfgSimple C tn rn signed) start a b h1) (f2 : Spec.PairFed (p.cfgSimple C tn rn signed) start a b h2)
    (odo : ∀ c, c = a ∨ c = b →
      Spec.robotOdom (p.cfgSimple C tn rn signed) c h1 <+: Spec.robotOdom (p.cfgSimple C tn rn signed) c h2)
    (clo : Spec.pairGroups (p.cfgSimple C tn rn signed) a b h1 = Spec.pairGroups (p.cfgSimple C tn rn signed) a b h2)
    {s1 s2 : St G (PNode G) (GNoise C)} (r1 : ReachOk (p.cfgSimple C tn rn signed) e1 h1 s1)
    (r2 : ReachOk (p.cfgSimple C tn rn signed) e2 h2 s2) : Spec.SamePairResult a b s1 s2 :=
  samePair_result (pair_same (node_startFree tn rn _ _ _ _) (by simp [Params.cfgSimple, Params.cfg, hm]) r1 r2 f1 f2 odo clo)

/-- C65 for PCM2D / PCM3D. -/
theorem C65_only_the_pair_matters_cov {G : Type} [Group G] [AddGroup C] (p : Params K) (ce : CovEnv G C K) (signed : Bool) (hm : p.method ≠ .none)
    {e1 e2 : Env G (GNoise C)} {a b : Chr} {start : Chr → Key} {h1 h2 : List (Op G (GNoise C))}
    (f1 : Spec.PairFed (p.cfgCov ce signed) start a b h1) (f2 : Spec.PairFed (p.cfgCov ce signed) start a b h2)
    (odo : ∀ c, c = a ∨ c = b → Spec.robotOdom (p.cfgCov ce signed) c h1 <+: Spec.robotOdom (p.cfgCov ce signed) c h2)
    (clo : Spec.pairGroups (p.cfgCov ce signed) a b h1 = Spec.pairGroups (p.cfgCov ce signed) a b h2)
    {s1 s2 : St G (PCov G C) (GNoise C)} (r1 : ReachOk (p.cfgCov ce signed) e1 h1 s1)
    (r2 : ReachOk (p.cfgCov ce signed) e2 h2 s2) : Spec.SamePairResult a b s1 s2 :=
  samePair_result (pair_same (cov_startFree ce _ _) (by simp [Params.cfgCov, Params.cfg, hm]) r1 r2 f1 f2 odo clo)

/-- C65, batch selection: the division of the closures between `a` and `b` into calls does not matter either. -/
theorem C65_batch {G : Type} [Group G] (p : Params K) (tn rn : G → K) (signed : Bool) (hm : p.method ≠ .none) (hi : p.incremental = false)
    {e1 e2 : Env G (GNoise C)} {a b : Chr} {start : Chr → Key} {h1 h2 : List (Op G (GNoise C))}
    (f1 : Spec.PairFed (p.cfgSimple C tn rn signed) start a b h1) (f2 : Spec.PairFed (p.cfgSimple C tn rn signed) start a b h2)
    (odo : ∀ c, c = a ∨ c = b →
      Spec.robotOdom (p.cfgSimple C tn rn signed) c h1 <+: Spec.robotOdom (p.cfgSimple C tn rn signed) c h2)
    (clo : (Spec.pairGroups (p.cfgSimple C tn rn signed) a b h1).flatten =
      (Spec.pairGroups (p.cfgSimple C tn rn signed) a b h2).flatten)
    {s1 s2 : St G (PNode G) (GNoise C)} (r1 : ReachOk (p.cfgSimple C tn rn signed) e1 h1 s1)
    (r2 : ReachOk (p.cfgSimple C tn rn signed) e2 h2 s2) : Spec.SamePairResult a b s1 s2 :=
  samePair_result (pair_same_batch (node_startFree tn rn _ _ _ _) (by simp [Params.cfgSimple, Params.cfg, hm])
    (by simpa [Params.cfgSimple, Params.cfg] using hi) r1 r2 f1 f2 odo clo)

/-- C65, batch selection, for PCM2D / PCM3D. -/
theorem C65_batch_cov {G : Type} [Group G] [AddGroup C] (p : Params K) (ce : CovEnv G C K) (signed : Bool) (hm : p.method ≠ .none)
    (hi : p.incremental = false)
    {e1 e2 : Env G (GNoise C)} {a b : Chr} {start : Chr → Key} {h1 h2 : List (Op G (GNoise C))}
    (f1 : Spec.PairFed (p.cfgCov ce signed) start a b h1) (f2 : Spec.PairFed (p.cfgCov ce signed) start a b h2)
    (odo : ∀ c, c = a ∨ c = b → Spec.robotOdom (p.cfgCov ce signed) c h1 <+: Spec.robotOdom (p.cfgCov ce signed) c h2)
    (clo : (Spec.pairGroups (p.cfgCov ce signed) a b h1).flatten = (Spec.pairGroups (p.cfgCov ce signed) a b h2).flatten)
    {s1 s2 : St G (PCov G C) (GNoise C)} (r1 : ReachOk (p.cfgCov ce signed) e1 h1 s1)
    (r2 : ReachOk (p.cfgCov ce signed) e2 h2 s2) : Spec.SamePairResult a b s1 s2 :=
  samePair_result (pair_same_batch (cov_startFree ce _ _) (by simp [Params.cfgCov, Params.cfg, hm])
    (by simpa [Params.cfgCov, Params.cfg] using hi) r1 r2 f1 f2 odo clo)

/-- C65: dropping from every update all factors and values that are about other robots changes nothing between `a` and
`b`, in both selection modes. -/
theorem C65_without_the_others {G : Type} [Group G] (p : Params K) (tn rn : G → K) (signed : Bool) (hm : p.method ≠ .none)
    {e1 e2 : Env G (GNoise C)} {a b : Chr} {start : Chr → Key} {h : List (Op G (GNoise C))}
    (f : Spec.PairFed (p.cfgSimple C tn rn signed) start a b h)
    {s1 s2 : St G (PNode G) (GNoise C)} (r1 : ReachOk (p.cfgSimple C tn rn signed) e1 h s1)
    (r2 : ReachOk (p.cfgSimple C tn rn signed) e2 (h.map (Spec.only a b)) s2) : Spec.SamePairResult a b s1 s2 := by
  obtain ⟨f2, o2, g2⟩ := PairFed.only f
  refine C65_only_the_pair_matters p tn rn signed hm f f2 (fun c hc => ?_) g2.symm r1 r2
  rw [o2 c hc]

/-- C65 without the others, for PCM2D / PCM3D. -/
theorem C65_without_the_others_cov {G : Type} [Group G] [AddGroup C] (p : Params K) (ce : CovEnv G C K) (signed : Bool) (hm : p.method ≠ .none)
    {e1 e2 : Env G (GNoise C)} {a b : Chr} {start : Chr → Key} {h : List (Op G (GNoise C))}
    (f : Spec.PairFed (p.cfgCov ce signed) start a b h)
    {s1 s2 : St G (PCov G C) (GNoise C)} (r1 : ReachOk (p.cfgCov ce signed) e1 h s1)
    (r2 : ReachOk (p.cfgCov ce signed) e2 (h.map (Spec.only a b)) s2) : Spec.SamePairResult a b s1 s2 := by
  obtain ⟨f2, o2, g2⟩ := PairFed.only f
  refine C65_only_the_pair_matters_cov p ce signed hm f f2 (fun c hc => ?_) g2.symm r1 r2
  rw [o2 c hc]

/-- A decidable form of the last two conditions of `Spec.PairFed`. -/
def pairFedB {G T N : Type} (cfg : Cfg G T N) (start : Chr → Key) (a b : Chr) : List (Op G N) → List (Op G N) → Bool
  | _, [] => true
  | pre, op :: t =>
    ((Spec.pairCands cfg a b op).all fun x =>
      (onChainB cfg start (pre ++ [op]) x.k1 && onChainB cfg start (pre ++ [op]) x.k2) &&
      (((pre ++ [op]).any fun o => decide (x.k1 ∈ Spec.opKeys o)) && (pre ++ [op]).any fun o => decide (x.k2 ∈ Spec.opKeys o))) &&
    pairFedB cfg start a b (pre ++ [op]) t

theorem pairFed_of {G T N : Type} {cfg : Cfg G T N} {start : Chr → Key} {a b : Chr} {h : List (Op G N)}
    (hb : pairFedB cfg start a b [] h = true) :
    (∀ h1 op h2, h = h1 ++ op :: h2 → ∀ x ∈ Spec.pairCands cfg a b op,
      Spec.OnChain cfg start (h1 ++ [op]) x.k1 ∧ Spec.OnChain cfg start (h1 ++ [op]) x.k2) ∧
    ∀ h1 op h2, h = h1 ++ op :: h2 → ∀ x ∈ Spec.pairCands cfg a b op,
      (∃ o ∈ h1 ++ [op], x.k1 ∈ Spec.opKeys o) ∧ ∃ o ∈ h1 ++ [op], x.k2 ∈ Spec.opKeys o := by
  have key : ∀ (t pre : List (Op G N)), pairFedB cfg start a b pre t = true → ∀ h1 op h2, t = h1 ++ op :: h2 →
      ∀ x ∈ Spec.pairCands cfg a b op,
        (Spec.OnChain cfg start (pre ++ h1 ++ [op]) x.k1 ∧ Spec.OnChain cfg start (pre ++ h1 ++ [op]) x.k2) ∧
        (∃ o ∈ pre ++ h1 ++ [op], x.k1 ∈ Spec.opKeys o) ∧ ∃ o ∈ pre ++ h1 ++ [op], x.k2 ∈ Spec.opKeys o := by
    intro t
    induction t with
    | nil => intro pre _ h1 op h2 e; simp at e
    | cons o t ih =>
      intro pre hb h1 op h2 e
      unfold pairFedB at hb
      rw [Bool.and_eq_true] at hb
      cases h1 with
      | nil =>
        simp only [List.nil_append, List.cons.injEq] at e
        obtain ⟨rfl, rfl⟩ := e
        rw [List.append_nil]
        intro x hx
        have := List.all_eq_true.1 hb.1 x hx
        rw [Bool.and_eq_true, Bool.and_eq_true, Bool.and_eq_true] at this
        obtain ⟨⟨c1, c2⟩, d1, d2⟩ := this
        obtain ⟨o1, m1, e1⟩ := List.any_eq_true.1 d1
        obtain ⟨o2, m2, e2⟩ := List.any_eq_true.1 d2
        exact ⟨⟨onChain_of c1, onChain_of c2⟩, ⟨o1, m1, of_decide_eq_true e1⟩, o2, m2, of_decide_eq_true e2⟩
      | cons y h1 =>
        simp only [List.cons_append, List.cons.injEq] at e
        obtain ⟨rfl, rfl⟩ := e
        have := ih (pre ++ [o]) hb.2 h1 op h2 rfl
        simpa using this
  exact ⟨fun h1 op h2 e x hx => (by simpa using key h [] hb h1 op h2 e x hx : _ ∧ _).1,
    fun h1 op h2 e x hx => (by simpa using key h [] hb h1 op h2 e x hx : _ ∧ _).2⟩

/-- Key `i` of robot `c`. -/
def keyC (i : BitVec 56) : Key := symKey 99 i

/-- Three robots. Between `a` and `b`: four closures in two groups, of which two pairs agree. Robot `c` jumps from c1 to c5;
it has closures with `a` and `b` to keys its odometry does not reach, one of which is removed again. -/
def crowd : List (Op Demo.Z Demo.Ns) :=
  [.update [some (.prior (Demo.a 0) (Demo.z 0)), Demo.edge (Demo.a 0) (Demo.a 1) 1, Demo.edge (Demo.a 1) (Demo.a 2) 1,
      Demo.edge (Demo.b 0) (Demo.b 1) 1, Demo.edge (Demo.b 1) (Demo.b 2) 1, Demo.edge (keyC 0) (keyC 1) 1]
    [Demo.pose (Demo.a 0) 0, Demo.pose (Demo.a 1) 1, Demo.pose (Demo.a 2) 2, Demo.pose (Demo.b 0) 0, Demo.pose (Demo.b 1) 1,
      Demo.pose (Demo.b 2) 2, Demo.pose (keyC 0) 0, Demo.pose (keyC 1) 1] true,
   .update [Demo.edge (Demo.a 0) (keyC 0) 7, Demo.edge (Demo.a 0) (Demo.b 0) 1, Demo.edge (Demo.a 1) (keyC 1) 7,
     Demo.edge (Demo.a 1) (Demo.b 1) 5] [] true,
   .update [Demo.edge (keyC 5) (keyC 6) 1, Demo.edge (keyC 6) (Demo.b 0) 2] [Demo.pose (keyC 5) 9, Demo.pose (keyC 6) 9] false,
   .update [Demo.edge (Demo.b 0) (Demo.a 0) (-1), Demo.edge (keyC 5) (Demo.a 2) 4, Demo.edge (Demo.a 2) (Demo.b 2) 1] [] true,
   .removeLastPair 98 99,
   .ignore 99]

/-- The closures between `a` and `b` that are accepted in `crowd`, with batch and with incremental selection. -/
def crowdPick : List (Btw Demo.Z Demo.Ns) := [Demo.btw (Demo.a 0) (Demo.b 0) 1, Demo.btw (Demo.a 2) (Demo.b 2) 1]
def crowdPickInc : List (Btw Demo.Z Demo.Ns) := [Demo.btw (Demo.b 0) (Demo.a 0) (-1), Demo.btw (Demo.a 2) (Demo.b 2) 1]

set_option maxRecDepth 100000 in
/-- The hypotheses of C65 are met: by `crowd`, and by `crowd` without robot `c`, in both selection modes. Four closures
are registered and two accepted. -/
example : Demo.cfg = Demo.params.cfgSimple Unit Demo.len (fun _ => 0) true ∧ Demo.params.method ≠ .none ∧
    Spec.PairFed Demo.cfg (fun c => symKey c 0) 97 98 crowd ∧
    (∃ s, ReachOk Demo.cfg Demo.env crowd s ∧ (Spec.registered s ⟨97, 98⟩).length = 4 ∧ (Spec.selected s ⟨97, 98⟩).Perm crowdPick) ∧
    (∃ s, ReachOk Demo.cfg Demo.env (crowd.map (Spec.only 97 98)) s ∧ (Spec.selected s ⟨97, 98⟩).Perm crowdPick) ∧
    (∃ s, ReachOk demoInc Demo.env crowd s ∧ (Spec.selected s ⟨97, 98⟩).Perm crowdPickInc) ∧
    ∃ s, ReachOk demoInc Demo.env (crowd.map (Spec.only 97 98)) s ∧ (Spec.selected s ⟨97, 98⟩).Perm crowdPickInc := by
  refine ⟨rfl, by decide, ?_, ?_, ?_, ?_, ?_⟩
  · obtain ⟨h1, h2⟩ := pairFed_of (cfg := Demo.cfg) (start := fun c => symKey c 0) (a := 97) (b := 98) (h := crowd) (by decide +kernel)
    refine ⟨?_, by decide, ?_, ?_, ?_, h1, h2⟩
    · intro op ho
      simp [crowd] at ho
      rcases ho with rfl | rfl | rfl | rfl | rfl | rfl <;> first | trivial | simp [Spec.Spares]
    · rintro c (rfl | rfl) <;> decide +kernel
    · rintro c (rfl | rfl)
      · simp only [Spec.Chain, show Spec.robotOdom Demo.cfg 97 crowd = [Demo.btw (Demo.a 0) (Demo.a 1) 1, Demo.btw (Demo.a 1) (Demo.a 2) 1] by decide +kernel]
        decide +kernel
      · simp only [Spec.Chain, show Spec.robotOdom Demo.cfg 98 crowd = [Demo.btw (Demo.b 0) (Demo.b 1) 1, Demo.btw (Demo.b 1) (Demo.b 2) 1] by decide +kernel]
        decide +kernel
    · rintro c (rfl | rfl) <;> decide +kernel
  · obtain ⟨s, r, h⟩ := Demo.runs_reach (cfg := Demo.cfg) (env := Demo.env) (ops := crowd)
      (P := fun s => decide ((Spec.registered s ⟨97, 98⟩).length = 4 ∧ (Spec.selected s ⟨97, 98⟩).Perm crowdPick)) (by decide +kernel)
    exact ⟨s, r, of_decide_eq_true h⟩
  · obtain ⟨s, r, h⟩ := Demo.runs_reach (cfg := Demo.cfg) (env := Demo.env) (ops := crowd.map (Spec.only 97 98))
      (P := fun s => decide ((Spec.selected s ⟨97, 98⟩).Perm crowdPick)) (by decide +kernel)
    exact ⟨s, r, of_decide_eq_true h⟩
  · obtain ⟨s, r, h⟩ := Demo.runs_reach (cfg := demoInc) (env := Demo.env) (ops := crowd)
      (P := fun s => decide ((Spec.selected s ⟨97, 98⟩).Perm crowdPickInc)) (by decide +kernel)
    exact ⟨s, r, of_decide_eq_true h⟩
  · obtain ⟨s, r, h⟩ := Demo.runs_reach (cfg := demoInc) (env := Demo.env) (ops := crowd.map (Spec.only 97 98))
      (P := fun s => decide ((Spec.selected s ⟨97, 98⟩).Perm crowdPickInc)) (by decide +kernel)
    exact ⟨s, r, of_decide_eq_true h⟩

/-- Odometry of `a` and `b`, a closure between them, a closure between `a` and `c`. -/
def meddled : List (Op Demo.Z Demo.Ns) :=
  [.update [Demo.edge (Demo.a 0) (Demo.a 1) 1, Demo.edge (Demo.b 0) (Demo.b 1) 1, Demo.edge (Demo.a 0) (Demo.b 0) 1,
      Demo.edge (keyC 0) (Demo.a 0) 1]
    [Demo.pose (Demo.a 0) 0, Demo.pose (Demo.a 1) 1, Demo.pose (Demo.b 0) 0, Demo.pose (Demo.b 1) 1, Demo.pose (keyC 0) 0] false]

set_option maxRecDepth 100000 in
/-- C65 is about calls that return normally, and whether they do can depend on other robots: if the only closure between
`a` and `c` is removed, the update that brings the next closure between `a` and `b` throws, and the closure does not get
into the graph; without the removal the same update returns and leaves two more factors in the graph. -/
theorem C65_false_removal :
    (∃ s s', ReachOk Demo.cfg Demo.env (meddled ++ [.removeLastPair 97 99]) s ∧
      exec Demo.cfg Demo.env (.update [Demo.edge (Demo.a 1) (Demo.b 1) 1] [] false) s = .throw s' .outOfRange ∧
      s'.nfg.length = 3) ∧
    ∃ s, ReachOk Demo.cfg Demo.env (meddled ++ [.update [Demo.edge (Demo.a 1) (Demo.b 1) 1] [] false]) s ∧ s.nfg.length = 5 := by
  constructor
  · obtain ⟨s, r, h⟩ := Demo.runs_reach (cfg := Demo.cfg) (env := Demo.env) (ops := meddled ++ [.removeLastPair 97 99])
      (P := fun s => match exec Demo.cfg Demo.env (.update [Demo.edge (Demo.a 1) (Demo.b 1) 1] [] false) s with
        | .throw s' .outOfRange => decide (s'.nfg.length = 3)
        | _ => false) (by decide +kernel)
    cases e : exec Demo.cfg Demo.env (.update [Demo.edge (Demo.a 1) (Demo.b 1) 1] [] false) s with
    | ok s' x => rw [e] at h; cases h
    | ub u => rw [e] at h; cases h
    | throw s' x =>
      rw [e] at h
      cases x with
      | outOfRange => exact ⟨s, s', r, e, of_decide_eq_true h⟩
      | _ => cases h
  · obtain ⟨s, r, h⟩ := Demo.runs_reach (cfg := Demo.cfg) (env := Demo.env)
      (ops := meddled ++ [.update [Demo.edge (Demo.a 1) (Demo.b 1) 1] [] false])
      (P := fun s => decide (s.nfg.length = 5)) (by decide +kernel)
    exact ⟨s, r, of_decide_eq_true h⟩

end RPGO.Props
