import Verif.Proofs.LandState
import Verif.Props.Pair
/-
C72 what is accepted of a landmark depends only on its observations and on the odometry of the robot observing it.
-/

namespace RPGO.Spec
variable {G T N : Type}

/-- The factors of a batch all of whose keys satisfy `q`. -/
def keepFactors (q : Key → Bool) (fs : Graph G N) : Graph G N :=
  fs.filter fun f => match f with
    | some f => f.keys.all q
    | none => true

/-- The values for keys that satisfy `q`. -/
def keepVals (q : Key → Bool) (vs : Vals G) : Vals G := vs.filter fun e => q e.1

/-- The call without anything about other keys than those that satisfy `q`. -/
def keep (q : Key → Bool) : Op G N → Op G N
  | .update fs vs o => .update (keepFactors q fs) (keepVals q vs) o
  | .forceUpdate fs vs => .forceUpdate (keepFactors q fs) (keepVals q vs)
  | .updateValues vs => .updateValues (keepVals q vs)
  | op => op

/-- A key of robot `c`, or the landmark `l`. -/
def ofObserver (c : Chr) (l : Key) (k : Key) : Bool := chr k == c || k == l

/-- The same observations of landmark `l` are registered, with the same matrix, and the same are accepted. -/
structure SameLandmark (l : Key) (s1 s2 : St G T N) : Prop where
  observed : observed s1 l = observed s2 l
  matrix : landMatrix s1 l = landMatrix s2 l
  accepted : acceptedOf s1 l = acceptedOf s2 l

end RPGO.Spec

namespace RPGO
variable {G T N : Type}

theorem sameLandmark_of {l : Key} {s1 s2 : St G T N} (h : lmOf s1.pcm l = lmOf s2.pcm l) : Spec.SameLandmark l s1 s2 := by
  refine ⟨?_, ?_, ?_⟩
  · unfold Spec.observed; rw [h]
  · unfold Spec.landMatrix; rw [h]
  · unfold Spec.acceptedOf; rw [h]

theorem mem_keepVals {q : Key → Bool} {vs : Vals G} {k : Key} (hk : q k = true) :
    k ∈ (Spec.keepVals q vs).keys ↔ k ∈ vs.keys := by
  unfold Spec.keepVals KMap.keys
  simp only [List.mem_map, List.mem_filter]
  constructor
  · rintro ⟨e, ⟨h1, _⟩, h3⟩; exact ⟨e, h1, h3⟩
  · rintro ⟨e, h1, rfl⟩; exact ⟨e, ⟨h1, hk⟩, rfl⟩

theorem btws_keep (q : Key → Bool) (fs : Graph G N) :
    Spec.btws (Spec.keepFactors q fs) = (Spec.btws fs).filter fun x => q x.k1 && q x.k2 := by
  unfold Spec.btws Spec.keepFactors
  induction fs with
  | nil => rfl
  | cons f fs ih =>
    cases f with
    | none =>
      rw [List.filter_cons_of_pos (by rfl), List.filterMap_cons, List.filterMap_cons]
      exact ih
    | some f =>
      by_cases hk : f.keys.all q = true
      · rw [List.filter_cons_of_pos (by exact hk), List.filterMap_cons, List.filterMap_cons]
        cases f with
        | btw x =>
          simp only [Factor.keys, List.all_cons, List.all_nil, Bool.and_true] at hk
          rw [List.filter_cons_of_pos (by exact hk)]
          simp only
          rw [ih]
        | prior => exact ih
        | priorAlt => exact ih
        | other => exact ih
      · rw [List.filter_cons_of_neg (by exact hk), List.filterMap_cons]
        cases f with
        | btw x =>
          simp only [Factor.keys, List.all_cons, List.all_nil, Bool.and_true] at hk
          rw [List.filter_cons_of_neg (by exact hk)]
          exact ih
        | prior => exact ih
        | priorAlt => exact ih
        | other => exact ih

theorem isOdom_keep {cfg : Cfg G T N} {q : Key → Bool} {vs : Vals G} {x : Btw G N} (hk : q x.k2 = true) :
    Spec.isOdom cfg (Spec.keepVals q vs) x = Spec.isOdom cfg vs x := by
  unfold Spec.isOdom
  rw [decide_eq_decide, mem_keepVals hk]

theorem isFirst_keep {cfg : Cfg G T N} {q : Key → Bool} {vs : Vals G} {x : Btw G N} (h1 : q x.k1 = true)
    (h2 : q x.k2 = true) : Spec.isFirstObs cfg (Spec.keepVals q vs) x = Spec.isFirstObs cfg vs x := by
  unfold Spec.isFirstObs
  have : decide (x.k1 ∈ (Spec.keepVals q vs).keys ∨ x.k2 ∈ (Spec.keepVals q vs).keys) =
      decide (x.k1 ∈ vs.keys ∨ x.k2 ∈ vs.keys) := by
    rw [decide_eq_decide, mem_keepVals h1, mem_keepVals h2]
  rw [this]

theorem isCand_keep {cfg : Cfg G T N} {q : Key → Bool} {vs : Vals G} {x : Btw G N} (h1 : q x.k1 = true)
    (h2 : q x.k2 = true) : Spec.isCand cfg (Spec.keepVals q vs) x = Spec.isCand cfg vs x := by
  unfold Spec.isCand
  rw [isOdom_keep h2, isFirst_keep h1 h2]

theorem filter_both {α : Type} {l : List α} {k p p' r : α → Bool} (hr : ∀ x ∈ l, r x = true → p x = true → k x = true)
    (hp : ∀ x ∈ l, r x = true → k x = true → p' x = p x) :
    ((l.filter k).filter p').filter r = (l.filter p).filter r := by
  rw [List.filter_filter, List.filter_filter, List.filter_filter]
  refine List.filter_congr fun x hx => ?_
  by_cases h : r x = true
  · by_cases h2 : k x = true
    · rw [hp x hx h h2, h2]; simp
    · have h3 : p x = false := by
        cases h3 : p x with
        | false => rfl
        | true => exact absurd (hr x hx h h3) h2
      simp [h2, h3]
  · simp [h]

/-- What is about landmark `l` is about the landmark or its observer. -/
def LandOwn (cfg : Cfg G T N) (c : Chr) (l : Key) (op : Op G N) : Prop :=
  ∀ x ∈ Spec.opBtws op, Spec.isLandmark cfg x = true → Spec.landmarkOf cfg x = l →
    Spec.ofObserver c l x.k1 = true ∧ Spec.ofObserver c l x.k2 = true

theorem lmSeen_keep {cfg : Cfg G T N} {c : Chr} {l : Key} {op : Op G N} (h : LandOwn cfg c l op) :
    Spec.lmSeen cfg l (Spec.keep (Spec.ofObserver c l) op) = Spec.lmSeen cfg l op := by
  have k1 : ∀ (fs : Graph G N) (vs : Vals G), (∀ x ∈ Spec.btws fs, Spec.isLandmark cfg x = true → Spec.landmarkOf cfg x = l →
      Spec.ofObserver c l x.k1 = true ∧ Spec.ofObserver c l x.k2 = true) →
      (Spec.firsts cfg (Spec.keepVals (Spec.ofObserver c l) vs) (Spec.keepFactors (Spec.ofObserver c l) fs)).filter
          (fun b => decide (Spec.landmarkOf cfg b = l)) =
        (Spec.firsts cfg vs fs).filter fun b => decide (Spec.landmarkOf cfg b = l) := by
    intro fs vs h
    unfold Spec.firsts
    rw [btws_keep]
    refine filter_both (fun x hx hl hf => ?_) (fun x _ _ hk => ?_)
    · have hl := of_decide_eq_true hl
      unfold Spec.isFirstObs at hf
      rw [Bool.and_eq_true] at hf
      obtain ⟨a, b⟩ := h x hx hf.1 hl
      rw [a, b]; rfl
    · rw [Bool.and_eq_true] at hk
      exact isFirst_keep hk.1 hk.2
  have k2 : ∀ (fs : Graph G N) (vs : Vals G), (∀ x ∈ Spec.btws fs, Spec.isLandmark cfg x = true → Spec.landmarkOf cfg x = l →
      Spec.ofObserver c l x.k1 = true ∧ Spec.ofObserver c l x.k2 = true) →
      (Spec.cands cfg (Spec.keepVals (Spec.ofObserver c l) vs) (Spec.keepFactors (Spec.ofObserver c l) fs)).filter
          (fun b => Spec.isLandmark cfg b && decide (Spec.landmarkOf cfg b = l)) =
        (Spec.cands cfg vs fs).filter fun b => Spec.isLandmark cfg b && decide (Spec.landmarkOf cfg b = l) := by
    intro fs vs h
    unfold Spec.cands
    rw [btws_keep]
    refine filter_both (fun x hx hl _ => ?_) (fun x _ _ hk => ?_)
    · rw [Bool.and_eq_true] at hl
      obtain ⟨a, b⟩ := h x hx hl.1 (of_decide_eq_true hl.2)
      rw [a, b]; rfl
    · rw [Bool.and_eq_true] at hk
      exact isCand_keep hk.1 hk.2
  unfold Spec.lmSeen Spec.lmFirsts Spec.lmCands Spec.opCands
  cases op with
  | update fs vs o =>
    show (List.filter _ (Spec.firsts cfg (Spec.keepVals _ vs) (Spec.keepFactors _ fs))).map _ ++ (List.filter _ (Spec.cands cfg (Spec.keepVals _ vs) (Spec.keepFactors _ fs))).map _ = _
    rw [k1 fs vs h, k2 fs vs h]; rfl
  | forceUpdate fs vs =>
    show (List.filter _ (Spec.firsts cfg (Spec.keepVals _ vs) (Spec.keepFactors _ fs))).map _ ++ (List.filter _ (Spec.cands cfg (Spec.keepVals _ vs) (Spec.keepFactors _ fs))).map _ = _
    rw [k1 fs vs h, k2 fs vs h]; rfl
  | _ => rfl

theorem robotOdom_keep {cfg : Cfg G T N} {c : Chr} {l : Key} {h : List (Op G N)}
    (hh : ∀ op ∈ h, ∀ x ∈ Spec.opOdom cfg op, chr x.k2 = c → chr x.k1 = c) :
    Spec.robotOdom cfg c (h.map (Spec.keep (Spec.ofObserver c l))) = Spec.robotOdom cfg c h := by
  have key : ∀ (fs : Graph G N) (vs : Vals G), (∀ x ∈ Spec.odoms cfg vs fs, chr x.k2 = c → chr x.k1 = c) →
      (Spec.odoms cfg (Spec.keepVals (Spec.ofObserver c l) vs) (Spec.keepFactors (Spec.ofObserver c l) fs)).filter
          (fun x => chr x.k2 == c) = (Spec.odoms cfg vs fs).filter fun x => chr x.k2 == c := by
    intro fs vs h
    unfold Spec.odoms at h ⊢
    rw [btws_keep]
    refine filter_both (fun x hx hc ho => ?_) (fun x _ _ hk => ?_)
    · have h2 : chr x.k2 = c := by simpa using hc
      have h1 := h x (List.mem_filter.2 ⟨hx, ho⟩) h2
      unfold Spec.ofObserver
      simp [h1, h2]
    · rw [Bool.and_eq_true] at hk
      exact isOdom_keep hk.2
  unfold Spec.robotOdom Spec.odomSoFar
  induction h with
  | nil => rfl
  | cons op h ih =>
    rw [List.map_cons, List.flatMap_cons, List.flatMap_cons, List.filter_append, List.filter_append,
      ih fun o ho => hh o (by simp [ho])]
    congr 1
    have h0 := hh op (by simp)
    unfold Spec.opOdom at h0 ⊢
    cases op <;> first | exact key _ _ h0 | rfl

theorem opKeys_keep {q : Key → Bool} {op : Op G N} {k : Key} (hk : q k = true) (h : k ∈ Spec.opKeys op) :
    k ∈ Spec.opKeys (Spec.keep q op) := by
  cases op <;> first | exact (mem_keepVals hk).2 h | exact h

theorem LandFed.inside {cfg : Cfg G T N} {start : Chr → Key} {c : Chr} {l : Key} {h : List (Op G N)}
    (hf : Spec.LandFed cfg start c l h) : ∀ op ∈ h, ∀ x ∈ Spec.opOdom cfg op, chr x.k2 = c → chr x.k1 = c := by
  intro op ho x hx h2
  refine chain_ends hf.begins hf.chain (fun y hy => ?_) x ?_
  · have := (List.mem_filter.1 hy).2
    simpa using this
  · exact List.mem_filter.2 ⟨List.mem_flatMap.2 ⟨op, ho, hx⟩, by simp [h2]⟩

theorem LandFed.keep [Mul G] [Inv G] [One G] {cfg : Cfg G T N} {start : Chr → Key} {c : Chr} {l : Key} {h : List (Op G N)}
    (hf : Spec.LandFed cfg start c l h) (ho : ∀ op ∈ h, LandOwn cfg c l op) :
    Spec.LandFed cfg start c l (h.map (Spec.keep (Spec.ofObserver c l))) ∧
    Spec.robotOdom cfg c (h.map (Spec.keep (Spec.ofObserver c l))) = Spec.robotOdom cfg c h ∧
    Spec.lmSoFar cfg l (h.map (Spec.keep (Spec.ofObserver c l))) = Spec.lmSoFar cfg l h := by
  have hod := robotOdom_keep (l := l) (LandFed.inside hf)
  have hsplit : ∀ h1 op h2, h.map (Spec.keep (Spec.ofObserver c l)) = h1 ++ op :: h2 →
      ∃ g1 o g2, h = g1 ++ o :: g2 ∧ h1 = g1.map (Spec.keep (Spec.ofObserver c l)) ∧ op = Spec.keep (Spec.ofObserver c l) o := by
    intro h1 op h2 e
    obtain ⟨g1, t, e1, e2, e3⟩ := List.map_eq_append_iff.1 e
    obtain ⟨o, g2, e4, e5, e6⟩ := List.map_eq_cons_iff.1 e3
    exact ⟨g1, o, g2, by rw [e1, e4], e2.symm, e5.symm⟩
  refine ⟨⟨hf.begins, by rw [hod]; exact hf.chain, by rw [hod]; exact hf.short, ?_, ?_⟩, hod, ?_⟩
  · intro h1 op h2 e x hx hs
    obtain ⟨g1, o, g2, e1, rfl, rfl⟩ := hsplit h1 op h2 e
    rw [lmSeen_keep (ho o (by rw [e1]; simp))] at hx
    obtain ⟨a, b⟩ := hf.reached g1 o g2 e1 x hx hs
    refine ⟨a, ?_⟩
    unfold Spec.OnChain at b ⊢
    have : Spec.robotOdom cfg c (g1.map (Spec.keep (Spec.ofObserver c l)) ++ [Spec.keep (Spec.ofObserver c l) o]) =
        Spec.robotOdom cfg c (g1 ++ [o]) := by
      have := robotOdom_keep (cfg := cfg) (c := c) (l := l) (h := g1 ++ [o]) (fun op hop => LandFed.inside hf op (by
        rw [e1]
        rcases List.mem_append.1 hop with hm | hm
        · exact List.mem_append_left _ hm
        · rw [List.mem_singleton.1 hm]; simp))
      rw [List.map_append] at this
      exact this
    rw [a] at b ⊢
    rw [this]; exact b
  · intro h1 op h2 e x hx
    obtain ⟨g1, o, g2, e1, rfl, rfl⟩ := hsplit h1 op h2 e
    have hx' : x ∈ Spec.lmCands cfg l o := by
      have : (false, x) ∈ Spec.lmSeen cfg l (Spec.keep (Spec.ofObserver c l) o) :=
        List.mem_append_right _ (List.mem_map.2 ⟨x, hx, rfl⟩)
      rw [lmSeen_keep (ho o (by rw [e1]; simp))] at this
      rcases List.mem_append.1 this with h | h
      · obtain ⟨_, _, h⟩ := List.mem_map.1 h; cases h
      · obtain ⟨_, h', h⟩ := List.mem_map.1 h; cases h; exact h'
    obtain ⟨⟨o1, m1, q1⟩, o2, m2, q2⟩ := hf.known g1 o g2 e1 x hx'
    have hb : x ∈ Spec.opBtws o := opCands_btws (List.mem_filter.1 hx').1
    have hl := (List.mem_filter.1 hx').2
    rw [Bool.and_eq_true] at hl
    obtain ⟨k1, k2⟩ := ho o (by rw [e1]; simp) x hb hl.1 (of_decide_eq_true hl.2)
    have mm : ∀ o', o' ∈ g1 ++ [o] → Spec.keep (Spec.ofObserver c l) o' ∈ g1.map (Spec.keep (Spec.ofObserver c l)) ++ [Spec.keep (Spec.ofObserver c l) o] := by
      intro o' ho'
      have := List.mem_map_of_mem (f := Spec.keep (Spec.ofObserver c l)) ho'
      rwa [List.map_append] at this
    exact ⟨⟨_, mm _ m1, opKeys_keep k1 q1⟩, _, mm _ m2, opKeys_keep k2 q2⟩
  · unfold Spec.lmSoFar
    clear hod hsplit hf
    induction h with
    | nil => rfl
    | cons op h ih =>
      rw [List.map_cons, List.flatMap_cons, List.flatMap_cons, lmSeen_keep (ho op (by simp)), ih fun o hm => ho o (by simp [hm])]

end RPGO

namespace RPGO.Props
variable {G C K : Type} [Mul G] [Inv G] [One G] [Field K] [LinearOrder K]

/-- C72 (part): two histories that supply the same observations of landmark `l` by robot `c`, in the same order but divided
into calls in any way, where the odometry of `c` in the first is an initial part of that in the second, leave the same
observations of `l` registered, with the same matrix, and accepted: whatever is supplied, removed or ignored about other
robots and other landmarks, whatever the closures, the values, the optimizers and the optimization settings. Missing:
landmarks observed by several robots, for which it is false, see `C58_false_two_observers`. -/
theorem C72_only_the_observer_matters_partial {G : Type} [Group G] (p : Params K) (tn rn : G → K) (signed : Bool) (hm : p.method ≠ .none)
    {e1 e2 : Env G (GNoise C)} {c : Chr} {l : Key} {start : Chr → Key} {h1 h2 : List (Op G (GNoise C))}
    (f1 : Spec.LandFed (p.cfgSimple C tn rn signed) start c l h1) (f2 : Spec.LandFed (p.cfgSimple C tn rn signed) start c l h2)
    (odo : Spec.robotOdom (p.cfgSimple C tn rn signed) c h1 <+: Spec.robotOdom (p.cfgSimple C tn rn signed) c h2)
    (obs : Spec.lmSoFar (p.cfgSimple C tn rn signed) l h1 = Spec.lmSoFar (p.cfgSimple C tn rn signed) l h2)
    (lm debug log useGnc fixPrev biasOdom : Bool)
    {s1 s2 : St G (PNode G) (GNoise C)} (r1 : ReachOk (p.cfgSimple C tn rn signed) e1 h1 s1)
    (r2 : ReachOk ((p.cfgSimple C tn rn signed).withOpt lm debug log useGnc fixPrev biasOdom) e2 h2 s2) : Spec.SameLandmark l s1 s2 :=
  sameLandmark_of (land_alone (node_startFree tn rn _ _ _ _) (by simp [Params.cfgSimple, Params.cfg, hm]) r1 r2 f1 f2 odo obs)

/-- C72 for PCM2D / PCM3D. -/
theorem C72_only_the_observer_matters_cov_partial {G : Type} [Group G] [AddGroup C] (p : Params K) (ce : CovEnv G C K) (signed : Bool) (hm : p.method ≠ .none)
    {e1 e2 : Env G (GNoise C)} {c : Chr} {l : Key} {start : Chr → Key} {h1 h2 : List (Op G (GNoise C))}
    (f1 : Spec.LandFed (p.cfgCov ce signed) start c l h1) (f2 : Spec.LandFed (p.cfgCov ce signed) start c l h2)
    (odo : Spec.robotOdom (p.cfgCov ce signed) c h1 <+: Spec.robotOdom (p.cfgCov ce signed) c h2)
    (obs : Spec.lmSoFar (p.cfgCov ce signed) l h1 = Spec.lmSoFar (p.cfgCov ce signed) l h2)
    (lm debug log useGnc fixPrev biasOdom : Bool)
    {s1 s2 : St G (PCov G C) (GNoise C)} (r1 : ReachOk (p.cfgCov ce signed) e1 h1 s1)
    (r2 : ReachOk ((p.cfgCov ce signed).withOpt lm debug log useGnc fixPrev biasOdom) e2 h2 s2) : Spec.SameLandmark l s1 s2 :=
  sameLandmark_of (land_alone (cov_startFree ce _ _) (by simp [Params.cfgCov, Params.cfg, hm]) r1 r2 f1 f2 odo obs)

/-- The factors that observe landmark `l` are between the landmark and a pose of robot `c`. -/
def OwnObservations {G T N : Type} (cfg : Cfg G T N) (c : Chr) (l : Key) (h : List (Op G N)) : Prop :=
  ∀ op ∈ h, ∀ x ∈ Spec.opBtws op, Spec.isLandmark cfg x = true → Spec.landmarkOf cfg x = l →
    Spec.ofObserver c l x.k1 = true ∧ Spec.ofObserver c l x.k2 = true

/-- C72: dropping from every update all factors and values that are about other robots or other landmarks changes nothing
for landmark `l`. Missing: landmarks observed by several robots. -/
theorem C72_without_the_others_partial {G : Type} [Group G] (p : Params K) (tn rn : G → K) (signed : Bool) (hm : p.method ≠ .none)
    {e1 e2 : Env G (GNoise C)} {c : Chr} {l : Key} {start : Chr → Key} {h : List (Op G (GNoise C))}
    (f : Spec.LandFed (p.cfgSimple C tn rn signed) start c l h) (ho : OwnObservations (p.cfgSimple C tn rn signed) c l h)
    {s1 s2 : St G (PNode G) (GNoise C)} (r1 : ReachOk (p.cfgSimple C tn rn signed) e1 h s1)
    (r2 : ReachOk (p.cfgSimple C tn rn signed) e2 (h.map (Spec.keep (Spec.ofObserver c l))) s2) : Spec.SameLandmark l s1 s2 := by
  obtain ⟨f2, o2, g2⟩ := LandFed.keep f ho
  exact C72_only_the_observer_matters_partial p tn rn signed hm f f2 (by rw [o2]) g2.symm p.lm (p.cfgSimple C tn rn signed).debug
    (p.cfgSimple C tn rn signed).log (p.cfgSimple C tn rn signed).useGnc (p.cfgSimple C tn rn signed).fixPrev
    (p.cfgSimple C tn rn signed).biasOdom r1 r2

/-- C72 without the others, for PCM2D / PCM3D. Missing: landmarks observed by several robots. -/
theorem C72_without_the_others_cov_partial {G : Type} [Group G] [AddGroup C] (p : Params K) (ce : CovEnv G C K) (signed : Bool) (hm : p.method ≠ .none)
    {e1 e2 : Env G (GNoise C)} {c : Chr} {l : Key} {start : Chr → Key} {h : List (Op G (GNoise C))}
    (f : Spec.LandFed (p.cfgCov ce signed) start c l h) (ho : OwnObservations (p.cfgCov ce signed) c l h)
    {s1 s2 : St G (PCov G C) (GNoise C)} (r1 : ReachOk (p.cfgCov ce signed) e1 h s1)
    (r2 : ReachOk (p.cfgCov ce signed) e2 (h.map (Spec.keep (Spec.ofObserver c l))) s2) : Spec.SameLandmark l s1 s2 := by
  obtain ⟨f2, o2, g2⟩ := LandFed.keep f ho
  exact C72_only_the_observer_matters_cov_partial p ce signed hm f f2 (by rw [o2]) g2.symm (p.cfgCov ce signed).lm (p.cfgCov ce signed).debug
    (p.cfgCov ce signed).log (p.cfgCov ce signed).useGnc (p.cfgCov ce signed).fixPrev (p.cfgCov ce signed).biasOdom r1 r2

/-- A decidable form of the last two conditions of `Spec.LandFed`. -/
def landFedB {G T N : Type} (cfg : Cfg G T N) (start : Chr → Key) (c : Chr) (l : Key) : List (Op G N) → List (Op G N) → Bool
  | _, [] => true
  | pre, op :: t =>
    (((Spec.lmSeen cfg l op).all fun x =>
      decide (chr x.2.k1 ∈ cfg.special) || (decide (chr x.2.k1 = c) && onChainB cfg start (pre ++ [op]) x.2.k1)) &&
     (Spec.lmCands cfg l op).all fun x =>
      ((pre ++ [op]).any fun o => decide (x.k1 ∈ Spec.opKeys o)) && (pre ++ [op]).any fun o => decide (x.k2 ∈ Spec.opKeys o)) &&
    landFedB cfg start c l (pre ++ [op]) t

theorem landFed_of {G T N : Type} {cfg : Cfg G T N} {start : Chr → Key} {c : Chr} {l : Key} {h : List (Op G N)}
    (hb : landFedB cfg start c l [] h = true) :
    (∀ h1 op h2, h = h1 ++ op :: h2 → ∀ x ∈ Spec.lmSeen cfg l op,
      chr x.2.k1 ∉ cfg.special → chr x.2.k1 = c ∧ Spec.OnChain cfg start (h1 ++ [op]) x.2.k1) ∧
    ∀ h1 op h2, h = h1 ++ op :: h2 → ∀ x ∈ Spec.lmCands cfg l op,
      (∃ o ∈ h1 ++ [op], x.k1 ∈ Spec.opKeys o) ∧ ∃ o ∈ h1 ++ [op], x.k2 ∈ Spec.opKeys o := by
  have key : ∀ (t pre : List (Op G N)), landFedB cfg start c l pre t = true → ∀ h1 op h2, t = h1 ++ op :: h2 →
      (∀ x ∈ Spec.lmSeen cfg l op,
        chr x.2.k1 ∉ cfg.special → chr x.2.k1 = c ∧ Spec.OnChain cfg start (pre ++ h1 ++ [op]) x.2.k1) ∧
      ∀ x ∈ Spec.lmCands cfg l op,
        (∃ o ∈ pre ++ h1 ++ [op], x.k1 ∈ Spec.opKeys o) ∧ ∃ o ∈ pre ++ h1 ++ [op], x.k2 ∈ Spec.opKeys o := by
    intro t
    induction t with
    | nil => intro pre _ h1 op h2 e; simp at e
    | cons o t ih =>
      intro pre hb h1 op h2 e
      unfold landFedB at hb
      rw [Bool.and_eq_true, Bool.and_eq_true] at hb
      cases h1 with
      | nil =>
        simp only [List.nil_append, List.cons.injEq] at e
        obtain ⟨rfl, rfl⟩ := e
        rw [List.append_nil]
        constructor
        · intro x hx hs
          have := List.all_eq_true.1 hb.1.1 x hx
          rw [Bool.or_eq_true, Bool.and_eq_true] at this
          rcases this with h | h
          · exact absurd (of_decide_eq_true h) hs
          · exact ⟨of_decide_eq_true h.1, onChain_of h.2⟩
        · intro x hx
          have := List.all_eq_true.1 hb.1.2 x hx
          rw [Bool.and_eq_true] at this
          obtain ⟨o1, m1, e1⟩ := List.any_eq_true.1 this.1
          obtain ⟨o2, m2, e2⟩ := List.any_eq_true.1 this.2
          exact ⟨⟨o1, m1, of_decide_eq_true e1⟩, o2, m2, of_decide_eq_true e2⟩
      | cons y h1 =>
        simp only [List.cons_append, List.cons.injEq] at e
        obtain ⟨rfl, rfl⟩ := e
        have := ih (pre ++ [o]) hb.2 h1 op h2 rfl
        simpa using this
  exact ⟨fun h1 op h2 e => (by simpa using (key h [] hb h1 op h2 e).1), fun h1 op h2 e => (by simpa using (key h [] hb h1 op h2 e).2)⟩

/-- `sightings` divided differently, with other initial values, together with a robot `b`, its landmark, closures between
the robots, and further odometry of `a`. -/
def busy (d0 d1 d2 d3 : ℤ) : List (Op Demo.Z Demo.Ns) :=
  [.update [Demo.edge (Demo.a 0) (Demo.a 1) 1, Demo.edge (Demo.a 1) (Demo.a 2) 1, Demo.edge (Demo.b 0) (Demo.b 1) 1]
     [Demo.pose (Demo.a 0) 7, Demo.pose (Demo.a 1) 7, Demo.pose (Demo.a 2) 9, Demo.pose (Demo.b 0) 0, Demo.pose (Demo.b 1) 1] true,
   .update [Demo.edge (Demo.a 0) (Demo.l 0) d0, Demo.edge (Demo.b 0) (Demo.l 1) 4] [Demo.pose (Demo.l 0) 5, Demo.pose (Demo.l 1) 5] true,
   .update [Demo.edge (Demo.a 1) (Demo.l 0) d1, Demo.edge (Demo.a 0) (Demo.b 0) 3, Demo.edge (Demo.a 1) (Demo.b 1) 3] [] false,
   .update [Demo.edge (Demo.a 2) (Demo.a 3) 1, Demo.edge (Demo.b 1) (Demo.l 1) 9] [Demo.pose (Demo.a 3) 3] true,
   .update [Demo.edge (Demo.a 2) (Demo.l 0) d2] [] true,
   .ignore 98,
   .update [Demo.edge (Demo.a 3) (Demo.l 0) d3, Demo.edge (Demo.a 3) (Demo.a 4) 1] [Demo.pose (Demo.a 4) 3] true,
   .removeLastPair 97 98]

/-- The settings of the examples, with landmarks. -/
def landParams : Params ℚ := { Demo.params with special := [108] }

/-- What is accepted of the landmark. -/
def busyPick : List (Btw Demo.Z Demo.Ns) := [Demo.btw (Demo.a 0) (Demo.l 0) 2, Demo.btw (Demo.a 1) (Demo.l 0) 1,
  Demo.btw (Demo.a 3) (Demo.l 0) (-1)]

set_option maxRecDepth 100000 in
/-- The hypotheses of C72 are met: by `sightings` and `busy`, and by `busy` without robot `b` and its landmark. Four
observations are registered and three accepted. -/
example : demoLandmarks = landParams.cfgSimple Unit Demo.len (fun _ => 0) true ∧ landParams.method ≠ .none ∧
    Spec.LandFed demoLandmarks (fun c => symKey c 0) 97 (Demo.l 0) (sightings 2 1 30 (-1)) ∧
    Spec.LandFed demoLandmarks (fun c => symKey c 0) 97 (Demo.l 0) (busy 2 1 30 (-1)) ∧
    Spec.robotOdom demoLandmarks 97 (sightings 2 1 30 (-1)) <+: Spec.robotOdom demoLandmarks 97 (busy 2 1 30 (-1)) ∧
    Spec.lmSoFar demoLandmarks (Demo.l 0) (sightings 2 1 30 (-1)) = Spec.lmSoFar demoLandmarks (Demo.l 0) (busy 2 1 30 (-1)) ∧
    OwnObservations demoLandmarks 97 (Demo.l 0) (busy 2 1 30 (-1)) ∧
    (∃ s, ReachOk demoLandmarks Demo.env (sightings 2 1 30 (-1)) s ∧ Spec.acceptedOf s (Demo.l 0) = busyPick) ∧
    (∃ s, ReachOk demoLandmarks Demo.env (busy 2 1 30 (-1)) s ∧ Spec.acceptedOf s (Demo.l 0) = busyPick) ∧
    ∃ s, ReachOk demoLandmarks Demo.env ((busy 2 1 30 (-1)).map (Spec.keep (Spec.ofObserver 97 (Demo.l 0)))) s ∧
      Spec.acceptedOf s (Demo.l 0) = busyPick := by
  have o1 : Spec.robotOdom demoLandmarks 97 (sightings 2 1 30 (-1)) = [Demo.btw (Demo.a 0) (Demo.a 1) 1, Demo.btw (Demo.a 1) (Demo.a 2) 1,
    Demo.btw (Demo.a 2) (Demo.a 3) 1] := by decide +kernel
  have o2 : Spec.robotOdom demoLandmarks 97 (busy 2 1 30 (-1)) = [Demo.btw (Demo.a 0) (Demo.a 1) 1, Demo.btw (Demo.a 1) (Demo.a 2) 1,
    Demo.btw (Demo.a 2) (Demo.a 3) 1, Demo.btw (Demo.a 3) (Demo.a 4) 1] := by decide +kernel
  refine ⟨rfl, by decide, ?_, ?_, ?_, by decide +kernel, ?_, ?_, ?_, ?_⟩
  · obtain ⟨h1, h2⟩ := landFed_of (cfg := demoLandmarks) (start := fun c => symKey c 0) (c := 97) (l := Demo.l 0)
      (h := sightings 2 1 30 (-1)) (by decide +kernel)
    refine ⟨by decide +kernel, ?_, ?_, h1, h2⟩
    · rw [o1]; simp only [Spec.Chain]; decide +kernel
    · rw [o1]; decide +kernel
  · obtain ⟨h1, h2⟩ := landFed_of (cfg := demoLandmarks) (start := fun c => symKey c 0) (c := 97) (l := Demo.l 0)
      (h := busy 2 1 30 (-1)) (by decide +kernel)
    refine ⟨by decide +kernel, ?_, ?_, h1, h2⟩
    · rw [o2]; simp only [Spec.Chain]; decide +kernel
    · rw [o2]; decide +kernel
  · rw [o1, o2]; exact ⟨[Demo.btw (Demo.a 3) (Demo.a 4) 1], rfl⟩
  · have hb : (busy 2 1 30 (-1)).all (fun op => (Spec.opBtws op).all fun x =>
        !(Spec.isLandmark demoLandmarks x && decide (Spec.landmarkOf demoLandmarks x = Demo.l 0)) ||
        (Spec.ofObserver 97 (Demo.l 0) x.k1 && Spec.ofObserver 97 (Demo.l 0) x.k2)) = true := by decide +kernel
    intro op ho x hx h1 h2
    have := List.all_eq_true.1 (List.all_eq_true.1 hb op ho) x hx
    simpa [h1, h2] using this
  · obtain ⟨s, r, h⟩ := Demo.runs_reach (cfg := demoLandmarks) (env := Demo.env) (ops := sightings 2 1 30 (-1))
      (P := fun s => decide (Spec.acceptedOf s (Demo.l 0) = busyPick)) (by decide +kernel)
    exact ⟨s, r, of_decide_eq_true h⟩
  · obtain ⟨s, r, h⟩ := Demo.runs_reach (cfg := demoLandmarks) (env := Demo.env) (ops := busy 2 1 30 (-1))
      (P := fun s => decide (Spec.acceptedOf s (Demo.l 0) = busyPick)) (by decide +kernel)
    exact ⟨s, r, of_decide_eq_true h⟩
  · obtain ⟨s, r, h⟩ := Demo.runs_reach (cfg := demoLandmarks) (env := Demo.env)
      (ops := (busy 2 1 30 (-1)).map (Spec.keep (Spec.ofObserver 97 (Demo.l 0))))
      (P := fun s => decide (Spec.acceptedOf s (Demo.l 0) = busyPick)) (by decide +kernel)
    exact ⟨s, r, of_decide_eq_true h⟩

end RPGO.Props
