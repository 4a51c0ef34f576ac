import Verif.Props.OwnAxes
import Verif.Props.Observations
/-
C99: data whose errors are judged alike give the same result.
-/

namespace RPGO.Spec
variable {G G' C C' K T N : Type}

/-- Of two data sets, given side by side, the first. -/
def nFst (n : GNoise (C × C')) : GNoise C := ⟨n.cov.1, n.rotNaN⟩
/-- Of two data sets, given side by side, the second. -/
def nSnd (n : GNoise (C × C')) : GNoise C' := ⟨n.cov.2, n.rotNaN⟩

/-- The calls with the first of two data sets. -/
def firstOf (h : List (Op (G × G') (GNoise (C × C')))) : List (Op G (GNoise C)) := h.map (cvOp Prod.fst nFst)
/-- The calls with the second of two data sets. -/
def secondOf (h : List (Op (G × G') (GNoise (C × C')))) : List (Op G' (GNoise C')) := h.map (cvOp Prod.snd nSnd)

/-- The configuration with two data sets side by side (only the special symbols matter). -/
def sideBySide [Mul G] [Inv G] [One G] [Mul G'] [Inv G'] [One G'] [Field K] [LinearOrder K] (p : Params K) (C C' : Type) (tn rn : G → K) (signed : Bool) :
    Cfg (G × G') (PNode (G × G')) (GNoise (C × C')) :=
  p.cfgSimple (C × C') (fun g => tn g.1) (fun g => rn g.1) signed

/-- Every error the checks can ask for, of a closure against the odometry, of two closures of the same robots and of two observations of a landmark, is below the thresholds
in both data sets or in neither (`L a`: the odometry of robot `a`; `D`: the closures and observations). -/
structure JudgedAlike [Group G] [Group G'] [Field K] [LinearOrder K] (p : Params K) (tn rn : G → K) (tn' rn' : G' → K) (start : Chr → Key)
    (L : Chr → List (Btw (G × G') (GNoise (C × C')))) (D : Btw (G × G') (GNoise (C × C')) → Prop) : Prop where
  odometry : ∀ a (b : Btw (G × G') (GNoise (C × C'))) i j, D b → At a (start a) (L a) b.k1 i → At a (start a) (L a) b.k2 j →
    (Below tn rn p.odomT p.odomR (rel (L a) i j * b.m⁻¹).1 (hops i j + 1) (Rot ((L a).take (max i j)) ∧ Rot [b]) ↔
      Below tn' rn' p.odomT p.odomR (rel (L a) i j * b.m⁻¹).2 (hops i j + 1) (Rot ((L a).take (max i j)) ∧ Rot [b]))
  closures : ∀ a d (x y : Btw (G × G') (GNoise (C × C'))) i j k l, D x → D y → At a (start a) (L a) x.k1 i → At d (start d) (L d) x.k2 j →
    (At a (start a) (L a) y.k1 k ∧ At d (start d) (L d) y.k2 l ∨ a ≠ d ∧ At a (start a) (L a) y.k2 k ∧ At d (start d) (L d) y.k1 l) →
    (Below tn rn p.distT p.distR ((rel (L a) i k * y.m)⁻¹ * x.m * rel (L d) j l).1 (hops i k + hops j l + 2)
        (Rot ((L a).take (max i k)) ∧ Rot ((L d).take (max j l)) ∧ Rot [x, y]) ↔
      Below tn' rn' p.distT p.distR ((rel (L a) i k * y.m)⁻¹ * x.m * rel (L d) j l).2 (hops i k + hops j l + 2)
        (Rot ((L a).take (max i k)) ∧ Rot ((L d).take (max j l)) ∧ Rot [x, y]))
  landmarks : ∀ a (x y : Btw (G × G') (GNoise (C × C'))) i j, D x → D y → x.k2 = y.k2 → At a (start a) (L a) x.k1 i → At a (start a) (L a) y.k1 j →
    (Below tn rn p.distT p.distR ((rel (L a) i j * y.m)⁻¹ * x.m).1 (hops i j + 2) (Rot ((L a).take (max i j)) ∧ Rot [x, y]) ↔
      Below tn' rn' p.distT p.distR ((rel (L a) i j * y.m)⁻¹ * x.m).2 (hops i j + 2) (Rot ((L a).take (max i j)) ∧ Rot [x, y]))

/-- The averaged error `X` (over `n` measurements) changes by at most `δ` (translation) and `ε` (rotation) from the first data set to the second, and in the first it is further than
that from the thresholds. -/
def Clear [Field K] [LinearOrder K] (tn rn : G → K) (tn' rn' : G' → K) (δ ε t r : K) (X : G × G') (n : Nat) : Prop :=
  (|tn X.1 / (n : K) - tn' X.2 / (n : K)| ≤ δ ∧ δ < |tn X.1 / (n : K) - t|) ∧ |rn X.1 / (n : K) - rn' X.2 / (n : K)| ≤ ε ∧ ε < |rn X.1 / (n : K) - r|

/-- All the errors the checks can ask for are clear in this sense. -/
structure SmallChanges [Group G] [Group G'] [Field K] [LinearOrder K] (p : Params K) (tn rn : G → K) (tn' rn' : G' → K) (δ ε : K) (start : Chr → Key)
    (L : Chr → List (Btw (G × G') (GNoise (C × C')))) (D : Btw (G × G') (GNoise (C × C')) → Prop) : Prop where
  odometry : ∀ a (b : Btw (G × G') (GNoise (C × C'))) i j, D b → At a (start a) (L a) b.k1 i → At a (start a) (L a) b.k2 j →
    Clear tn rn tn' rn' δ ε p.odomT p.odomR (rel (L a) i j * b.m⁻¹) (hops i j + 1)
  closures : ∀ a d (x y : Btw (G × G') (GNoise (C × C'))) i j k l, D x → D y → At a (start a) (L a) x.k1 i → At d (start d) (L d) x.k2 j →
    (At a (start a) (L a) y.k1 k ∧ At d (start d) (L d) y.k2 l ∨ a ≠ d ∧ At a (start a) (L a) y.k2 k ∧ At d (start d) (L d) y.k1 l) →
    Clear tn rn tn' rn' δ ε p.distT p.distR ((rel (L a) i k * y.m)⁻¹ * x.m * rel (L d) j l) (hops i k + hops j l + 2)
  landmarks : ∀ a (x y : Btw (G × G') (GNoise (C × C'))) i j, D x → D y → x.k2 = y.k2 → At a (start a) (L a) x.k1 i → At a (start a) (L a) y.k1 j →
    Clear tn rn tn' rn' δ ε p.distT p.distR ((rel (L a) i j * y.m)⁻¹ * x.m) (hops i j + 2)

/-- The two hash tables are traversed in the same order. -/
structure SameOrder (env : Env G (GNoise C)) (env' : Env G' (GNoise C')) : Prop where
  lc : ∀ l : List (ObsId × Meas (G × G') (GNoise (C × C'))), ∃ l', l.Perm l' ∧
    env.iterLC (l.map fun e => (e.1, cvMeas Prod.fst nFst e.2)) = (l'.map fun e => (e.1, cvMeas Prod.fst nFst e.2)) ∧
    env'.iterLC (l.map fun e => (e.1, cvMeas Prod.snd nSnd e.2)) = l'.map fun e => (e.1, cvMeas Prod.snd nSnd e.2)
  lm : ∀ l : List (Key × Meas (G × G') (GNoise (C × C'))), ∃ l', l.Perm l' ∧
    env.iterLM (l.map fun e => (e.1, cvMeas Prod.fst nFst e.2)) = (l'.map fun e => (e.1, cvMeas Prod.fst nFst e.2)) ∧
    env'.iterLM (l.map fun e => (e.1, cvMeas Prod.snd nSnd e.2)) = l'.map fun e => (e.1, cvMeas Prod.snd nSnd e.2)

/-- Two lists of factors have corresponding entries, supplied side by side in `D`. -/
def Corr (D : Btw (G × G') (GNoise (C × C')) → Prop) (l : List (Btw G (GNoise C))) (l' : List (Btw G' (GNoise C'))) : Prop :=
  ∃ m : List (Btw (G × G') (GNoise (C × C'))), (∀ b ∈ m, D b) ∧ l = m.map (cvBtw Prod.fst nFst) ∧ l' = m.map (cvBtw Prod.snd nSnd)

/-- Two solvers, given two data sets side by side, hold corresponding data and report the same counts (`D`: the closures and observations). -/
structure Correspond {T' : Type} [Mul G] [Inv G] [One G] [Mul G'] [Inv G'] [One G'] (cfg : Cfg G T (GNoise C)) (cfg' : Cfg G' T' (GNoise C')) (env : Env G (GNoise C)) (env' : Env G' (GNoise C'))
    (h : List (Op (G × G') (GNoise (C × C')))) (D : Btw (G × G') (GNoise (C × C')) → Prop) (s : St G T (GNoise C)) (s' : St G' T' (GNoise C')) : Prop where
  graph : ∃ g : Graph (G × G') (GNoise (C × C')), (∀ b, some (.btw b) ∈ g → Supplied h b) ∧ s.nfg = cvGraph Prod.fst nFst g ∧ s'.nfg = cvGraph Prod.snd nSnd g
  registered : ∀ id, Corr D (registered s id) (registered s' id)
  selected : ∀ id, Corr D (selected s id) (selected s' id)
  matrix : ∀ id, matrix s' id = matrix s id
  observed : ∀ l, Corr D (observed s l) (observed s' l)
  accepted : ∀ l, Corr D (acceptedOf s l) (acceptedOf s' l)
  landMatrix : ∀ l, landMatrix s' l = landMatrix s l
  keys : s'.values.keys = s.values.keys
  numLC : ∀ n, NumLC cfg' env' s' n ↔ NumLC cfg env s n
  numInliers : cfg.useGnc = false → ∀ n, NumInliers cfg' env' s' n ↔ NumInliers cfg env s n

end RPGO.Spec

namespace RPGO
open Spec

section
variable {G G' N N' : Type} (φ : G → G') (ν : N → N')

/-- The conversion that is the same for all keys. -/
def constConv : KeyConv G N G' N' := ⟨fun _ _ => φ, fun _ => φ, fun _ _ => ν⟩

theorem kvGraph_const (g : Graph G N) : kvGraph (constConv φ ν) g = cvGraph φ ν g := by
  unfold kvGraph cvGraph
  refine List.map_congr_left fun x _ => ?_
  cases x with
  | none => rfl
  | some x => cases x <;> rfl

theorem special_const (l : List (Factor G N)) : l.map (cvFactor φ ν) = l.map (kvFactor (constConv φ ν)) :=
  List.map_congr_left fun x _ => by cases x <;> rfl

theorem cvKeys (v : Vals G) : (cvVals φ v).keys = v.keys := by
  unfold cvVals cvMap KMap.keys
  rw [List.map_map]; rfl
end

section
variable {G T N : Type}

theorem opOdom_sub {cfg : Cfg G T N} {op : Op G N} {b : Btw G N} (h : b ∈ opOdom cfg op) : b ∈ opBtws op := by
  unfold opOdom at h
  unfold opBtws
  split at h
  · exact (List.mem_filter.1 h).1
  · simp at h

theorem specialSoFar_noBtw (cfg : Cfg G T N) (h : List (Op G N)) (b : Btw G N) : .btw b ∉ specialSoFar cfg h := by
  have sp : ∀ fs : Graph G N, .btw b ∉ specials fs := fun fs => by
    unfold specials
    intro hb
    obtain ⟨x, hx, e⟩ := List.mem_filterMap.1 hb
    split at e <;> simp_all
  induction h using List.reverseRecOn with
  | nil => exact List.not_mem_nil
  | append_singleton h op ih =>
    rw [show specialSoFar cfg (h ++ [op]) = specialStep cfg (specialSoFar cfg h) op by simp [specialSoFar]]
    cases op <;> simp only [specialStep, List.mem_append, not_or, List.mem_filter, not_and] <;> first | exact ⟨ih, sp _⟩ | exact ih | exact fun h => absurd h ih

theorem robotOdom_pre {cfg : Cfg G T N} {g h : List (Op G N)} (hp : g <+: h) (a : Chr) : robotOdom cfg a g <+: robotOdom cfg a h := by
  obtain ⟨t, rfl⟩ := hp
  unfold robotOdom odomSoFar
  rw [List.flatMap_append, List.filter_append]
  exact ⟨_, rfl⟩

theorem take_pre {L M : List (Btw G N)} (hp : L <+: M) {i : Nat} (hi : i ≤ L.length) : M.take i = L.take i := by
  obtain ⟨t, rfl⟩ := hp
  exact List.take_append_of_le_length hi

theorem rel_pre [Group G] {L M : List (Btw G N)} (hp : L <+: M) {i j : Nat} (hi : i ≤ L.length) (hj : j ≤ L.length) : rel M i j = rel L i j := by
  unfold rel seg
  rw [take_pre hp hi, take_pre hp hj]

theorem at_pre {L M : List (Btw G N)} (hp : L <+: M) {c : Chr} {k0 k : Key} {i : Nat} (h : At c k0 L k i) : At c k0 M k i :=
  ⟨h.1, h.2.1.trans hp.length_le, h.2.2⟩
end

section
variable {G G' C C' K : Type} [Group G] [Group G'] [Field K] [LinearOrder K] {p : Params K} {tn rn : G → K} {tn' rn' : G' → K} {signed : Bool}

theorem alike_verdicts (hm : p.method ≠ .none) {start : Chr → Key} {h : List (Op (G × G') (GNoise (C × C')))} (ha : JudgedAlike p tn rn tn' rn' start (fun a => robotOdom (sideBySide p C C' tn rn signed) a h) (Checked (sideBySide p C C' tn rn signed) h))
    {e1 e2 : Env (G × G') (GNoise (C × C'))} {g1 g2 : List (Op (G × G') (GNoise (C × C')))} {t1 t2 : St (G × G') (PNode (G × G')) (GNoise (C × C'))}
    (hp : g1 <+: h) (hc : SameGraphCalls g1 g2)
    (hch : Chains (p.cfgSimple (C × C') (fun g : G × G' => tn g.1) (fun g => rn g.1) signed) start g1)
    (r1 : ReachOk (p.cfgSimple (C × C') (fun g : G × G' => tn g.1) (fun g => rn g.1) signed) e1 g1 t1)
    (r2 : ReachOk (p.cfgSimple (C × C') (fun g : G × G' => tn' g.2) (fun g => rn' g.2) signed) e2 g2 t2) :
    SameVerdicts (p.cfgSimple (C × C') (fun g : G × G' => tn g.1) (fun g => rn g.1) signed)
      (p.cfgSimple (C × C') (fun g : G × G' => tn' g.2) (fun g => rn' g.2) signed) start g1
      (Checked (p.cfgSimple (C × C') (fun g : G × G' => tn g.1) (fun g => rn g.1) signed) g1) t1.pcm t2.pcm := by
  set A := p.cfgSimple (C × C') (fun g : G × G' => tn g.1) (fun g => rn g.1) signed with hA
  set B := p.cfgSimple (C × C') (fun g : G × G' => tn' g.2) (fun g => rn' g.2) signed with hB
  have hod : ∀ a, robotOdom A a g1 = robotOdom B a g2 := fun a => by
    have := (sameGraph_odom (cfg := A) hc).1
    unfold robotOdom
    rw [this]; rfl
  have hch2 : Chains B start g2 := fun a => by rw [← hod]; exact hch a
  have pre : ∀ a, robotOdom A a g1 <+: robotOdom (sideBySide p C C' tn rn signed) a h := fun a => robotOdom_pre hp a
  have at' : ∀ {k}, OnChain A start g1 k → ∃ i, At (chr k) (start (chr k)) (robotOdom A (chr k) g1) k i :=
    fun {k} ⟨i, hi, e⟩ => ⟨i, rfl, hi, e⟩
  have src : ∀ {b : Btw (G × G') (GNoise (C × C'))}, Checked A g1 b → Checked (sideBySide p C C' tn rn signed) h b :=
    fun {b} ⟨op, hop, hb⟩ => ⟨op, hp.subset hop, hb⟩
  refine ⟨fun b hb hk h1 h2 => ?_, fun x y hx hy lx ly hpair hon => ?_, fun l x y hx hy ex ey hk h1 h2 => ?_⟩
  · cases hn : b.noise with
    | none => unfold odomVerdict; rw [hn]; rfl
    | some n =>
      obtain ⟨i, hi⟩ := at' h1
      obtain ⟨j, hj⟩ := at' h2
      rw [← hk] at hj
      obtain ⟨v, e, hv⟩ := Props.C50_odometry_check p (fun g : G × G' => tn g.1) (fun g => rn g.1) signed hm r1 hch rfl hi hj (by rw [hn]; rfl)
      obtain ⟨w, e', hw'⟩ := Props.C50_odometry_check p (fun g : G × G' => tn' g.2) (fun g => rn' g.2) signed hm r2 hch2 (hod _) hi hj (by rw [hn]; rfl)
      have e1 : v = odomVerdict A (lk A t1.pcm) b := odomCheck_val e
      have e2 : w = odomVerdict B (lk A t2.pcm) b := odomCheck_val e'
      rw [← e1, ← e2, Bool.eq_iff_iff, hv, hw']
      have := ha.odometry _ b i j (src hb) (at_pre (pre _) hi) (at_pre (pre _) hj)
      rw [rel_pre (pre _) hi.2.1 hj.2.1, take_pre (pre _) (max_le hi.2.1 hj.2.1)] at this
      exact or_congr Iff.rfl this
  · cases hnx : x.noise with
    | none => unfold loopVerdict; rw [hnx]; rfl
    | some n =>
      cases hny : y.noise with
      | none => unfold loopVerdict; rw [hnx, hny]; rfl
      | some m =>
        simp only [List.mem_cons, List.not_mem_nil, or_false, forall_eq_or_imp, forall_eq] at hon
        obtain ⟨hon1, hon2, hon3, hon4⟩ := hon
        obtain ⟨i, hi⟩ := at' hon1
        obtain ⟨j, hj⟩ := at' hon2
        by_cases same : chr x.k1 = chr y.k1 ∧ chr x.k2 = chr y.k2
        · obtain ⟨k, hk⟩ := at' hon3
          obtain ⟨l, hl⟩ := at' hon4
          rw [← same.1] at hk
          rw [← same.2] at hl
          obtain ⟨v, e, hv⟩ := Props.C51_pairwise_check p (fun g : G × G' => tn g.1) (fun g => rn g.1) signed hm r1 hch rfl rfl
            hi hj hk hl (by rw [hnx]; rfl) (by rw [hny]; rfl)
          obtain ⟨w, e', hw'⟩ := Props.C51_pairwise_check p (fun g : G × G' => tn' g.2) (fun g => rn' g.2) signed hm r2 hch2 (hod _) (hod _)
            hi hj hk hl (by rw [hnx]; rfl) (by rw [hny]; rfl)
          have e1 : v = loopVerdict A (lk A t1.pcm) _ _ := pairCheck_val e
          have e2 : w = loopVerdict B (lk A t2.pcm) _ _ := pairCheck_val e'
          rw [← e1, ← e2, Bool.eq_iff_iff, hv, hw']
          have := ha.closures _ _ x y i j k l (src hx) (src hy) (at_pre (pre _) hi) (at_pre (pre _) hj) (.inl ⟨at_pre (pre _) hk, at_pre (pre _) hl⟩)
          rw [rel_pre (pre _) hi.2.1 hk.2.1, rel_pre (pre _) hj.2.1 hl.2.1, take_pre (pre _) (max_le hi.2.1 hk.2.1),
            take_pre (pre _) (max_le hj.2.1 hl.2.1)] at this
          exact or_congr Iff.rfl this
        · obtain ⟨s1, s2⟩ : chr x.k1 = chr y.k2 ∧ chr x.k2 = chr y.k1 := hpair.resolve_left same
          have hne : chr x.k1 ≠ chr x.k2 := fun e => same ⟨e.trans s2, e.symm.trans s1⟩
          obtain ⟨k, hk⟩ := at' hon4
          obtain ⟨l, hl⟩ := at' hon3
          rw [← s1] at hk
          rw [← s2] at hl
          obtain ⟨v, e, hv⟩ := Props.C51_opposite_direction p (fun g : G × G' => tn g.1) (fun g => rn g.1) signed hm r1 hch rfl rfl
            hi hj hk hl hne (by rw [hnx]; rfl) (by rw [hny]; rfl)
          obtain ⟨w, e', hw'⟩ := Props.C51_opposite_direction p (fun g : G × G' => tn' g.2) (fun g => rn' g.2) signed hm r2 hch2 (hod _) (hod _)
            hi hj hk hl hne (by rw [hnx]; rfl) (by rw [hny]; rfl)
          have e1 : v = loopVerdict A (lk A t1.pcm) _ _ := pairCheck_val e
          have e2 : w = loopVerdict B (lk A t2.pcm) _ _ := pairCheck_val e'
          rw [← e1, ← e2, Bool.eq_iff_iff, hv, hw']
          have := ha.closures _ _ x y i j k l (src hx) (src hy) (at_pre (pre _) hi) (at_pre (pre _) hj) (.inr ⟨hne, at_pre (pre _) hk, at_pre (pre _) hl⟩)
          rw [rel_pre (pre _) hi.2.1 hk.2.1, rel_pre (pre _) hj.2.1 hl.2.1, take_pre (pre _) (max_le hi.2.1 hk.2.1),
            take_pre (pre _) (max_le hj.2.1 hl.2.1)] at this
          exact or_congr Iff.rfl this
  · cases hnx : x.noise with
    | none => unfold landVerdict; rw [hnx]
    | some n =>
      cases hny : y.noise with
      | none => unfold landVerdict; rw [hnx, hny]
      | some m =>
        obtain ⟨i, hi⟩ := at' h1
        obtain ⟨j, hj⟩ := at' h2
        rw [← hk] at hj
        obtain ⟨v, e, hv⟩ := Props.C52_check_partial p (fun g : G × G' => tn g.1) (fun g => rn g.1) signed hm r1 hch rfl hi hj (by rw [hnx]; rfl) (by rw [hny]; rfl)
        obtain ⟨w, e', hw'⟩ := Props.C52_check_partial p (fun g : G × G' => tn' g.2) (fun g => rn' g.2) signed hm r2 hch2 (hod _) hi hj (by rw [hnx]; rfl) (by rw [hny]; rfl)
        have e1 : v = landVerdict A (lk A t1.pcm) x y := landCheck_val e
        have e2 : w = landVerdict B (lk A t2.pcm) x y := landCheck_val e'
        rw [← e1, ← e2, Bool.eq_iff_iff, hv, hw']
        have := ha.landmarks _ x y i j (src hx) (src hy) (ex.trans ey.symm) (at_pre (pre _) hi) (at_pre (pre _) hj)
        rw [rel_pre (pre _) hi.2.1 hj.2.1, take_pre (pre _) (max_le hi.2.1 hj.2.1)] at this
        exact this

variable [IsStrictOrderedRing K]

theorem alike_result (hm : p.method ≠ .none) {owner : Key → Chr} (hown : ∀ l, owner l ∉ p.special) {env : Env G (GNoise C)} {env' : Env G' (GNoise C')} (he : env.Ok)
    (he' : env'.Ok) (ho : SameOrder env env') {h : List (Op (G × G') (GNoise (C × C')))} (hman : ∀ op ∈ h, Managed op)
    (hob : OneObserver (sideBySide p C C' tn rn signed) owner h) {start : Chr → Key} (hch : Chains (sideBySide p C C' tn rn signed) start h)
    (hon : OnOdometry (sideBySide p C C' tn rn signed) start h)
    (ha : JudgedAlike p tn rn tn' rn' start (fun a => robotOdom (sideBySide p C C' tn rn signed) a h) (Checked (sideBySide p C C' tn rn signed) h)) {s : St G (PNode G) (GNoise C)} {s' : St G' (PNode G') (GNoise C')}
    (r : ReachOk (p.cfgSimple C tn rn signed) env (firstOf h) s) (r' : ReachOk (p.cfgSimple C' tn' rn' signed) env' (secondOf h) s') :
    Correspond (p.cfgSimple C tn rn signed) (p.cfgSimple C' tn' rn' signed) env env' h (Checked (sideBySide p C C' tn rn signed) h) s s' := by
  have hr : (p.cfgSimple C tn rn signed).rejection = true := by simp [Params.cfgSimple, Params.cfg, hm]
  have hr' : (p.cfgSimple C' tn' rn' signed).rejection = true := hr
  have hp : inUnits 1 p = p := by unfold inUnits; rw [one_mul, one_mul]
  have hom1 : CfgHom (MonoidHom.fst G G') nFst (fun a => ⟨a.pose.1, a.node, a.rot⟩)
      (p.cfgSimple (C × C') (fun g : G × G' => tn g.1) (fun g => rn g.1) signed) (p.cfgSimple C tn rn signed) := by
    have := simple_hom (C := C × C') (C' := C) (c := (1 : K)) one_pos (φ := MonoidHom.fst G G') (ν := nFst) (fun _ => rfl)
      (tn := fun g : G × G' => tn g.1) (tn' := tn) (rn := fun g => rn g.1) (rn' := rn) (fun g => by rw [one_mul]; rfl) (fun g => rfl) p signed
    rw [hp] at this
    exact this
  have hom2 : CfgHom (MonoidHom.snd G G') nSnd (fun a => ⟨a.pose.2, a.node, a.rot⟩)
      (p.cfgSimple (C × C') (fun g : G × G' => tn' g.2) (fun g => rn' g.2) signed) (p.cfgSimple C' tn' rn' signed) := by
    have := simple_hom (C := C × C') (C' := C') (c := (1 : K)) one_pos (φ := MonoidHom.snd G G') (ν := nSnd) (fun _ => rfl)
      (tn := fun g : G × G' => tn' g.2) (tn' := tn') (rn := fun g => rn' g.2) (rn' := rn') (fun g => by rw [one_mul]; rfl) (fun g => rfl) p signed
    rw [hp] at this
    exact this
  obtain ⟨E1, ok1, c1⟩ := lift_env (φ := MonoidHom.fst G G') (nFst : GNoise (C × C') → GNoise C) (u := fun x => (x, 1)) (fun _ => rfl) p.align he
  obtain ⟨E2, ok2, c2⟩ := lift_env (φ := MonoidHom.snd G G') (nSnd : GNoise (C × C') → GNoise C') (u := fun x => (1, x)) (fun _ => rfl) p.align he'
  obtain ⟨t1, q1, rfl⟩ := reachOk_back hom1 c1 r _ rfl
  obtain ⟨t2, q2, rfl⟩ := reachOk_back hom2 c2 r' _ rfl
  have tw : Twin t1.pcm t2.pcm := twin_of_verdicts (co := (p.cfgSimple (C × C') (fun g : G × G' => tn' g.2) (fun g => rn' g.2) signed).ops.odomOk)
    (cl := (p.cfgSimple (C × C') (fun g : G × G' => tn' g.2) (fun g => rn' g.2) signed).ops.loopOk)
    (cfg := p.cfgSimple (C × C') (fun g : G × G' => tn g.1) (fun g => rn g.1) signed) hr hown
    (by
      have : ∀ l : List (Op (G × G') (GNoise (C × C'))), SameGraphCalls l l := fun l => by
        induction l using List.reverseRecOn with
        | nil => exact .nil
        | append_singleton l o ih => exact .both ih (Or.inl rfl)
      exact this h)
    hman hob hch hon q1 q2
    (fun g1 g2 u1 u2 hpre hc hch1 x1 x2 => alike_verdicts hm ha hpre hc hch1 x1 x2)
  have hr1 : (p.cfgSimple (C × C') (fun g : G × G' => tn g.1) (fun g => rn g.1) signed).rejection = true := hr
  have inLc := lcs_checked hr1 q1.reach
  have inLm := landmarks_checked hr1 q1.reach
  have sub : ∀ {κ : Type} {eq : κ → κ → Bool} {l : List (κ × Meas (G × G') (GNoise (C × C')))} {k : κ} {m : Meas (G × G') (GNoise (C × C'))},
      AllIn (Checked (sideBySide p C C' tn rn signed) h) l → (AList.get? eq l k).getD .empty = m →
      (∀ b ∈ m.factors, Checked (sideBySide p C C' tn rn signed) h b) ∧ ∀ b ∈ m.cons, Checked (sideBySide p C C' tn rn signed) h b := by
    intro κ eq l k m hl e
    cases hg : AList.get? eq l k with
    | none => rw [hg] at e; subst e; exact ⟨fun b hb => absurd hb (by simp [Meas.empty]), fun b hb => absurd hb (by simp [Meas.empty])⟩
    | some w =>
      rw [hg] at e
      obtain ⟨k', -, hk⟩ := AList.get?_mem hg
      subst e
      exact hl _ hk
  have lc1 := fun id => lcOf_cv (φ := (MonoidHom.fst G G')) (ν := nFst) (τ := fun a : PNode (G × G') => (⟨a.pose.1, a.node, a.rot⟩ : PNode G)) t1.pcm id
  have lc2 := fun id => lcOf_cv (φ := (MonoidHom.snd G G')) (ν := nSnd) (τ := fun a : PNode (G × G') => (⟨a.pose.2, a.node, a.rot⟩ : PNode G')) t2.pcm id
  have lm1 := fun id => lmOf_cv (φ := (MonoidHom.fst G G')) (ν := nFst) (τ := fun a : PNode (G × G') => (⟨a.pose.1, a.node, a.rot⟩ : PNode G)) t1.pcm id
  have lm2 := fun id => lmOf_cv (φ := (MonoidHom.snd G G')) (ν := nSnd) (τ := fun a : PNode (G × G') => (⟨a.pose.2, a.node, a.rot⟩ : PNode G')) t2.pcm id
  have elc : ∀ id, lcOf t2.pcm id = lcOf t1.pcm id := fun id => by unfold lcOf; rw [tw.lcs]
  have elm : ∀ id, lmOf t2.pcm id = lmOf t1.pcm id := fun id => by unfold lmOf; rw [tw.landmarks]
  simp only [elc] at lc2
  simp only [elm] at lm2
  have hfst : ∀ op ∈ firstOf h, Managed op := fun op hop => by
    obtain ⟨o, ho, rfl⟩ := List.mem_map.1 hop
    have := hman o ho
    cases o <;> exact this
  have hsnd : ∀ op ∈ secondOf h, Managed op := fun op hop => by
    obtain ⟨o, ho, rfl⟩ := List.mem_map.1 hop
    have := hman o ho
    cases o <;> exact this
  refine ⟨?_, fun id => ⟨(lcOf t1.pcm id).factors, (sub inLc rfl).1, ?_, ?_⟩, fun id => ⟨(lcOf t1.pcm id).cons, (sub inLc rfl).2, ?_, ?_⟩, fun id => ?_,
    fun l => ⟨(lmOf t1.pcm l).factors, (sub inLm rfl).1, ?_, ?_⟩, fun l => ⟨(lmOf t1.pcm l).cons, (sub inLm rfl).2, ?_, ?_⟩, fun l => ?_, ?_, fun n => ?_, fun hg n => ?_⟩
  · choose oLC pLC h1LC h2LC using ho.lc
    choose oLM pLM h1LM h2LM using ho.lm
    let E : Env (G × G') (GNoise (C × C')) := { E1 with iterLC := oLC, iterLM := oLM }
    obtain ⟨x1, o1, z1⟩ := q1.lists ok1 hr1 hman
    refine ⟨buildGraph E t1.pcm, fun b hb => ?_, ?_, ?_⟩
    · unfold buildGraph at hb
      simp only [List.mem_append, List.mem_map, List.mem_flatMap] at hb
      rcases hb with ((⟨b', hb, e⟩ | ⟨x, hx, e⟩) | ⟨e, he, hb⟩) | ⟨e, he, b', hb, eq⟩
      · cases e
        rw [o1] at hb
        obtain ⟨op, hop, hb⟩ := List.mem_flatMap.1 hb
        exact ⟨op, hop, opOdom_sub hb⟩
      · cases e
        rw [z1] at hx
        exact absurd hx (specialSoFar_noBtw _ _ _)
      · split at hb
        · obtain ⟨b', hb, eq⟩ := List.mem_map.1 hb
          cases eq
          obtain ⟨op, hop, hb, _⟩ := (inLc e ((pLC _).mem_iff.2 he)).2 _ hb
          exact ⟨op, hop, hb⟩
        · simp at hb
      · cases eq
        obtain ⟨op, hop, hb, _⟩ := (inLm e ((pLM _).mem_iff.2 he)).2 _ hb
        exact ⟨op, hop, hb⟩
    · rw [(r.lists he hr hfst).1, ← kvGraph_const]
      exact buildGraph_kv (f := constConv Prod.fst nFst) ⟨h1LC, h1LM⟩ rfl (special_const _ _ _) rfl rfl rfl
    · rw [(r'.lists he' hr' hsnd).1, ← kvGraph_const,
        show buildGraph E t1.pcm = buildGraph E t2.pcm by unfold buildGraph; rw [tw.odom, tw.special, tw.lcs, tw.landmarks, tw.ignored]]
      exact buildGraph_kv (f := constConv Prod.snd nSnd) ⟨h2LC, h2LM⟩ rfl (special_const _ _ _) rfl rfl rfl
  · unfold registered; exact congrArg Meas.factors (lc1 id)
  · unfold registered; exact congrArg Meas.factors (lc2 id)
  · unfold selected; exact congrArg Meas.cons (lc1 id)
  · unfold selected; exact congrArg Meas.cons (lc2 id)
  · exact (congrArg Meas.adj (lc2 id)).trans (congrArg Meas.adj (lc1 id)).symm
  · unfold observed; exact congrArg Meas.factors (lm1 l)
  · unfold observed; exact congrArg Meas.factors (lm2 l)
  · unfold acceptedOf; exact congrArg Meas.cons (lm1 l)
  · unfold acceptedOf; exact congrArg Meas.cons (lm2 l)
  · exact (congrArg Meas.adj (lm2 l)).trans (congrArg Meas.adj (lm1 l)).symm
  · obtain ⟨a1, a2⟩ := Props.C34_estimate_keys r
    obtain ⟨b1, b2⟩ := Props.C34_estimate_keys r'
    refine List.Pairwise.eq_of_mem_iff (r := fun a b : Key => a.toNat < b.toNat) b2 a2 fun k => ?_
    rw [a1 k, b1 k]
    have k1 : ∀ o : Op (G × G') (GNoise (C × C')), opKeys (cvOp Prod.fst nFst o : Op G (GNoise C)) = opKeys o := fun o => by
      cases o <;> first | rfl | exact cvKeys _ _
    have k2 : ∀ o : Op (G × G') (GNoise (C × C')), opKeys (cvOp Prod.snd nSnd o : Op G' (GNoise C')) = opKeys o := fun o => by
      cases o <;> first | rfl | exact cvKeys _ _
    unfold firstOf secondOf
    simp only [List.mem_map, exists_exists_and_eq_and, k1, k2]
  · rw [Props.numLC_iff hr, Props.numLC_iff hr', show (cvSt _ _ _ t2 : St G' (PNode G') (GNoise C')).pcm.totalLc = t1.pcm.totalLc from tw.totalLc.symm]; rfl
  · rw [Props.numInliers_iff hr hg, Props.numInliers_iff hr' hg, show (cvSt _ _ _ t2 : St G' (PNode G') (GNoise C')).pcm.totalGood = t1.pcm.totalGood from tw.totalGood.symm]; rfl

end
end RPGO

namespace RPGO.Props
open RPGO Spec

section
variable {G G' C C' K : Type} [Group G] [Group G'] [Field K] [LinearOrder K] [IsStrictOrderedRing K]

/-- C99 (PCM_Simple): let two data sets be given to two solvers by the same calls, with the same keys. If every error the checks can ask for is below the thresholds in both data
sets or in neither, the two solvers hold corresponding data and report the same counts, whatever the optimizer makes of the values in the one and in the other. -/
theorem C99_judged_alike (p : Params K) (tn rn : G → K) (tn' rn' : G' → K) (signed : Bool) (hm : p.method ≠ .none) (owner : Key → Chr) (hown : ∀ l, owner l ∉ p.special)
    {env : Env G (GNoise C)} {env' : Env G' (GNoise C')} (he : env.Ok) (he' : env'.Ok) (ho : SameOrder env env') {h : List (Op (G × G') (GNoise (C × C')))}
    (hman : ∀ op ∈ h, Managed op) (hob : OneObserver (sideBySide p C C' tn rn signed) owner h) (start : Chr → Key) (hch : Chains (sideBySide p C C' tn rn signed) start h)
    (hon : OnOdometry (sideBySide p C C' tn rn signed) start h)
    (ha : JudgedAlike p tn rn tn' rn' start (fun a => robotOdom (sideBySide p C C' tn rn signed) a h) (Checked (sideBySide p C C' tn rn signed) h)) {s : St G (PNode G) (GNoise C)} {s' : St G' (PNode G') (GNoise C')}
    (r : ReachOk (p.cfgSimple C tn rn signed) env (firstOf h) s) (r' : ReachOk (p.cfgSimple C' tn' rn' signed) env' (secondOf h) s') :
    Correspond (p.cfgSimple C tn rn signed) (p.cfgSimple C' tn' rn' signed) env env' h (Checked (sideBySide p C C' tn rn signed) h) s s' :=
  alike_result hm hown he he' ho hman hob hch hon ha r r'

theorem below_clear {tn rn : G → K} {tn' rn' : G' → K} {δ ε t r : K} {X : G × G'} {n : Nat} (h : Clear tn rn tn' rn' δ ε t r X n) (rot : Prop) :
    Spec.Below tn rn t r X.1 n rot ↔ Spec.Below tn' rn' t r X.2 n rot := by
  have key : ∀ {x y d z : K}, |x - y| ≤ d → d < |x - z| → (x < z ↔ y < z) := by
    intro x y d z h1 h2
    rw [abs_le] at h1
    rcases lt_abs.1 h2 with h2 | h2
    · exact ⟨fun h => by linarith, fun h => by linarith⟩
    · exact ⟨fun h => by linarith, fun h => by linarith⟩
  unfold Spec.Below
  rw [key h.1.1 h.1.2, key h.2.1 h.2.2]

/-- C99, stability: if no averaged error changes by more than `δ` (translation) and `ε` (rotation), and none is that close to its threshold, changes of the measurements do not change
which closures and observations are registered and selected. -/
theorem C99_small_changes (p : Params K) (tn rn : G → K) (tn' rn' : G' → K) (signed : Bool) (hm : p.method ≠ .none) (owner : Key → Chr) (hown : ∀ l, owner l ∉ p.special)
    {env : Env G (GNoise C)} {env' : Env G' (GNoise C')} (he : env.Ok) (he' : env'.Ok) (ho : SameOrder env env') {h : List (Op (G × G') (GNoise (C × C')))}
    (hman : ∀ op ∈ h, Managed op) (hob : OneObserver (sideBySide p C C' tn rn signed) owner h) (start : Chr → Key) (hch : Chains (sideBySide p C C' tn rn signed) start h)
    (hon : OnOdometry (sideBySide p C C' tn rn signed) start h) {δ ε : K}
    (ha : SmallChanges p tn rn tn' rn' δ ε start (fun a => robotOdom (sideBySide p C C' tn rn signed) a h) (Checked (sideBySide p C C' tn rn signed) h)) {s : St G (PNode G) (GNoise C)} {s' : St G' (PNode G') (GNoise C')}
    (r : ReachOk (p.cfgSimple C tn rn signed) env (firstOf h) s) (r' : ReachOk (p.cfgSimple C' tn' rn' signed) env' (secondOf h) s') :
    Correspond (p.cfgSimple C tn rn signed) (p.cfgSimple C' tn' rn' signed) env env' h (Checked (sideBySide p C C' tn rn signed) h) s s' :=
  C99_judged_alike p tn rn tn' rn' signed hm owner hown he he' ho hman hob start hch hon
    ⟨fun a b i j hb h1 h2 => below_clear (ha.odometry a b i j hb h1 h2) _, fun a d x y i j k l hx hy h1 h2 h3 => below_clear (ha.closures a d x y i j k l hx hy h1 h2 h3) _,
      fun a x y i j hx hy e h1 h2 => below_clear (ha.landmarks a x y i j hx hy e h1 h2) _⟩ r r'

end

/-! ### In the plane -/

section
open Plane

instance {G N : Type} (c : Chr) (k0 : Key) (L : List (Btw G N)) (k : Key) (i : Nat) : Decidable (At c k0 L k i) := by unfold At; infer_instance

instance {G G' K : Type} [Field K] [LinearOrder K] (tn rn : G → K) (tn' rn' : G' → K) (δ ε t r : K) (X : G × G') (n : Nat) :
    Decidable (Clear tn rn tn' rn' δ ε t r X n) := by unfold Clear; infer_instance

/-- A decidable form of `SmallChanges`. -/
theorem smallChanges_of {G G' C C' K T : Type} {cfg : Cfg (G × G') T (GNoise (C × C'))} [Group G] [Group G'] [Field K] [LinearOrder K] {p : Params K} {tn rn : G → K} {tn' rn' : G' → K} {δ ε : K} {start : Chr → Key}
    {L : Chr → List (Btw (G × G') (GNoise (C × C')))} {h : List (Op (G × G') (GNoise (C × C')))}
    (h1 : ∀ b ∈ h.flatMap opBtws, ∀ i ∈ List.range ((L (chr b.k1)).length + 1), ∀ j ∈ List.range ((L (chr b.k1)).length + 1),
      At (chr b.k1) (start (chr b.k1)) (L (chr b.k1)) b.k1 i → At (chr b.k1) (start (chr b.k1)) (L (chr b.k1)) b.k2 j →
      Clear tn rn tn' rn' δ ε p.odomT p.odomR (rel (L (chr b.k1)) i j * b.m⁻¹) (hops i j + 1))
    (h2 : ∀ x ∈ h.flatMap opBtws, ∀ i ∈ List.range ((L (chr x.k1)).length + 1), At (chr x.k1) (start (chr x.k1)) (L (chr x.k1)) x.k1 i →
      ∀ j ∈ List.range ((L (chr x.k2)).length + 1), At (chr x.k2) (start (chr x.k2)) (L (chr x.k2)) x.k2 j →
      ∀ y ∈ h.flatMap opBtws, ∀ k ∈ List.range ((L (chr x.k1)).length + 1), ∀ l ∈ List.range ((L (chr x.k2)).length + 1),
      (At (chr x.k1) (start (chr x.k1)) (L (chr x.k1)) y.k1 k ∧ At (chr x.k2) (start (chr x.k2)) (L (chr x.k2)) y.k2 l ∨
        chr x.k1 ≠ chr x.k2 ∧ At (chr x.k1) (start (chr x.k1)) (L (chr x.k1)) y.k2 k ∧ At (chr x.k2) (start (chr x.k2)) (L (chr x.k2)) y.k1 l) →
      Clear tn rn tn' rn' δ ε p.distT p.distR ((rel (L (chr x.k1)) i k * y.m)⁻¹ * x.m * rel (L (chr x.k2)) j l) (hops i k + hops j l + 2))
    (h3 : ∀ x ∈ h.flatMap opBtws, ∀ y ∈ h.flatMap opBtws, x.k2 = y.k2 → ∀ i ∈ List.range ((L (chr x.k1)).length + 1), ∀ j ∈ List.range ((L (chr x.k1)).length + 1),
      At (chr x.k1) (start (chr x.k1)) (L (chr x.k1)) x.k1 i → At (chr x.k1) (start (chr x.k1)) (L (chr x.k1)) y.k1 j →
      Clear tn rn tn' rn' δ ε p.distT p.distR ((rel (L (chr x.k1)) i j * y.m)⁻¹ * x.m) (hops i j + 2)) :
    SmallChanges p tn rn tn' rn' δ ε start L (Checked cfg h) := by
  have sup : ∀ {b : Btw (G × G') (GNoise (C × C'))}, Checked cfg h b → b ∈ h.flatMap opBtws := fun ⟨op, ho, hb, _⟩ => List.mem_flatMap.2 ⟨op, ho, hb⟩
  have rg : ∀ {i n : Nat}, i ≤ n → i ∈ List.range (n + 1) := fun h => List.mem_range.2 (Nat.lt_succ_of_le h)
  refine ⟨fun a b i j hb hi hj => ?_, fun a d x y i j k l hx hy hi hj hkl => ?_, fun a x y i j hx hy e hi hj => ?_⟩
  · obtain rfl := hi.1
    exact h1 b (sup hb) i (rg hi.2.1) j (rg hj.2.1) hi hj
  · obtain rfl := hi.1
    obtain rfl := hj.1
    refine h2 x (sup hx) i (rg hi.2.1) hi j (rg hj.2.1) hj y (sup hy) k ?_ l ?_ hkl
    · rcases hkl with h | h
      · exact rg h.1.2.1
      · exact rg h.2.1.2.1
    · rcases hkl with h | h
      · exact rg h.2.2.1
      · exact rg h.2.2.2.1
  · obtain rfl := hi.1
    exact h3 x (sup hx) y (sup hy) e i (rg hi.2.1) j (rg hj.2.1) hi hj

def edgeBoth (k1 k2 : Key) (m m' : Pose) : Option (Factor (Pose × Pose) (GNoise (Unit × Unit))) := some (.btw ⟨k1, k2, (m, m'), some ⟨((), ()), false⟩⟩)
def poseBoth (k : Key) (m : Pose) : Key × Val (Pose × Pose) := (k, .pose (m, m))

/-- Two robots with a step each, measured with and without a small error; closures between them in both directions, one of them wrong, and observations of a landmark,
one of them wrong. -/
def shaken : List (Op (Pose × Pose) (GNoise (Unit × Unit))) :=
  [.update [edgeBoth (Demo.a 0) (Demo.a 1) (tr 3 0) (tr (31 / 10) 0)] [poseBoth (Demo.a 0) 1, poseBoth (Demo.a 1) (tr 3 0)] true,
   .update [edgeBoth (Demo.b 0) (Demo.b 1) (tr 2 0) (tr 2 (1 / 10))] [poseBoth (Demo.b 0) 1, poseBoth (Demo.b 1) (tr 2 0)] true,
   .update [edgeBoth (Demo.a 0) (Demo.b 0) (tr 5 0) (tr 5 0)] [] true,
   .update [edgeBoth (Demo.a 1) (Demo.b 1) (tr 4 0) (tr (41 / 10) 0), edgeBoth (Demo.a 1) (Demo.b 1) (tr 40 0) (tr (401 / 10) 0)] [] true,
   .update [edgeBoth (Demo.b 1) (Demo.a 1) (tr 40 0) (tr 40 (1 / 10))] [] true,
   .update [edgeBoth (Demo.b 0) (Demo.l 0) (tr 7 0) (tr 7 0)] [poseBoth (Demo.l 0) (tr 7 0)] true,
   .update [edgeBoth (Demo.b 1) (Demo.l 0) (tr 5 0) (tr 5 (1 / 10)), edgeBoth (Demo.b 1) (Demo.l 0) (tr 1 30) (tr 1 (301 / 10))] [] true]

set_option maxRecDepth 100000 in
/-- The hypotheses of `C99_small_changes` are met by a run with closures and observations accepted and rejected, and its conclusion is seen in it. -/
example : ∃ s s', ReachOk (flatL.cfgSimple Unit len ang true) Plane.env (firstOf shaken) s ∧ ReachOk (flatL.cfgSimple Unit len ang true) Plane.env (secondOf shaken) s' ∧
    (registered s' ⟨97, 98⟩).length = 4 ∧ (selected s' ⟨97, 98⟩).length = 2 ∧ (observed s' (Demo.l 0)).length = 3 ∧ s'.nfg.length = 6 ∧ s.nfg ≠ s'.nfg ∧
    Correspond (flatL.cfgSimple Unit len ang true) (flatL.cfgSimple Unit len ang true) Plane.env Plane.env shaken
      (Checked (sideBySide flatL Unit Unit len ang true) shaken) s s' := by
  obtain ⟨s, r, hs⟩ := Demo.runs_reach (cfg := flatL.cfgSimple Unit len ang true) (env := Plane.env) (ops := firstOf shaken)
    (P := fun s => decide (edge (Demo.a 0) (Demo.a 1) (tr 3 0) ∈ s.nfg)) (by decide +kernel)
  obtain ⟨s', r', h'⟩ := Demo.runs_reach (cfg := flatL.cfgSimple Unit len ang true) (env := Plane.env) (ops := secondOf shaken)
    (P := fun s => decide ((registered s ⟨97, 98⟩).length = 4 ∧ (selected s ⟨97, 98⟩).length = 2 ∧ (observed s (Demo.l 0)).length = 3 ∧ s.nfg.length = 6 ∧
      edge (Demo.a 0) (Demo.a 1) (tr 3 0) ∉ s.nfg)) (by decide +kernel)
  obtain ⟨h1, h2, h3, h4, h5⟩ := of_decide_eq_true h'
  refine ⟨s, s', r, r', h1, h2, h3, h4, fun e => h5 (e ▸ of_decide_eq_true hs), C99_small_changes flatL len ang len ang true (by decide) (fun _ => 98)
    (fun _ => by simp [flatL]) plane_ok plane_ok ⟨fun l => ⟨l, .refl _, rfl, rfl⟩, fun l => ⟨l, .refl _, rfl, rfl⟩⟩ ?_ (by unfold OneObserver; decide +kernel)
    (fun c => symKey c 0) (chains_of (by decide +kernel)) (onOdometry_of (by decide +kernel)) (δ := 1 / 4) (ε := 1 / 4)
    (smallChanges_of (by decide +kernel) (by decide +kernel) (by decide +kernel)) r r'⟩
  intro op ho
  simp [shaken] at ho
  rcases ho with rfl | rfl | rfl | rfl | rfl | rfl | rfl <;> trivial

end

end RPGO.Props
