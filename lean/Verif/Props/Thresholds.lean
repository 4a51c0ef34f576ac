import Verif.Props.Checks
import Verif.Props.Graph
/-
C11 division by zero; C12 exact closures; C13 direction; C15 thresholds; C42 parameter setters.
-/

namespace RPGO.Spec
variable {G T N : Type}

/-- The solver with other acceptance tests `o`, `l` in place of the odometry and the pairwise test. -/
def withTests (cfg : Cfg G T N) (o l : T → Bool) : Cfg G T N := { cfg with ops := { cfg.ops with odomOk := o, loopOk := l } }

end RPGO.Spec

namespace RPGO

theorem M.bind_congr_ok {σ α β : Type} {m : M σ α} {f g : α → M σ β} (Q : α → Prop)
    (hQ : ∀ s s' a, m s = .ok s' a → Q a) (h : ∀ a, Q a → f a = g a) : M.bind m f = M.bind m g := by
  funext s
  rw [M.bind_apply, M.bind_apply]
  cases e : m s with
  | ok s' a => simp only [h a (hQ s s' a e)]
  | throw s' x => rfl
  | ub u => rfl

section Node
variable {G : Type} [Mul G] [Inv G] [One G] {C K : Type} [Field K] [LinearOrder K]

theorem btwn_node {ops : Ops G (PNode G) (GNoise C)} (hb : ops.between = PNode.between) (hc : ops.compose = PNode.compose)
    (hi : ops.inverse = PNode.inverse) (f : Key → PNode G) (a b : Key) : 0 ≤ (btwn ops f a b).node := by
  unfold btwn
  rw [hb, hc, hi]
  split
  · exact abs_nonneg _
  · have h1 := abs_nonneg ((f a).node - (f (rootKey (chr a))).node)
    have h2 := abs_nonneg ((f (rootKey (chr b))).node - (f (rootKey (chr a))).node)
    have h3 := abs_nonneg ((f b).node - (f (rootKey (chr b))).node)
    simp only [PNode.compose, PNode.inverse, PNode.between]
    omega

variable {cfg : Cfg G (PNode G) (GNoise C)} (hb : cfg.ops.between = PNode.between) (hc : cfg.ops.compose = PNode.compose)
  (hi : cfg.ops.inverse = PNode.inverse) (hf : cfg.ops.ofFactor = PNode.ofFactor) {o l : PNode G → Bool}
  (ho : ∀ t, 1 ≤ t.node → o t = cfg.ops.odomOk t) (hl : ∀ t, 1 ≤ t.node → l t = cfg.ops.loopOk t)

include hb hc hi hf ho hl

theorem toT_node {b : Btw G (GNoise C)} (s s' : Pcm G (PNode G) (GNoise C)) (t : PNode G)
    (h : toT cfg b s = .ok s' t) : t.node = 1 := by
  clear ho hl
  unfold toT at h
  cases hn : b.noise with
  | none => rw [hn] at h; cases h
  | some n => rw [hn] at h; cases h; rw [hf]; rfl

theorem trajBetween_node {c : Chr} {a b : Key} (s s' : Pcm G (PNode G) (GNoise C)) (t : PNode G)
    (h : trajBetween cfg c a b s = .ok s' t) : 0 ≤ t.node := by
  clear ho hl
  obtain ⟨p', e, _⟩ := trajBetween_spec cfg c a b s
  rw [e] at h
  cases h
  exact btwn_node hb hc hi _ _ _

theorem isOdomConsistent_tests : isOdomConsistent (Spec.withTests cfg o l) = isOdomConsistent cfg := by
  funext b
  unfold isOdomConsistent
  show (if (!cfg.odomCheck) = true then _ else M.bind (trajBetween cfg (chr b.k1) b.k1 b.k2) _) = (if (!cfg.odomCheck) = true then _ else M.bind (trajBetween cfg (chr b.k1) b.k1 b.k2) _)
  split
  · rfl
  · refine M.bind_congr_ok (fun t => 0 ≤ t.node) (trajBetween_node hb hc hi hf ho hl) ?_
    intro t ht
    refine M.bind_congr_ok (m := toT cfg b) (fun t => t.node = 1) (toT_node hb hc hi hf ho hl) ?_
    intro u hu
    show M.pure (o _) = M.pure _
    rw [ho]
    · rfl
    · show 1 ≤ (cfg.ops.compose t (cfg.ops.inverse u)).node
      rw [hc, hi]
      simp only [PNode.compose, PNode.inverse]
      omega

theorem areLoopsConsistent_tests : areLoopsConsistent (Spec.withTests cfg o l) = areLoopsConsistent cfg := by
  funext x y
  unfold areLoopsConsistent
  show (if (!cfg.loopCheck) = true then _ else M.bind (toT cfg x) _) = (if (!cfg.loopCheck) = true then _ else M.bind (toT cfg x) _)
  split
  · rfl
  · refine M.bind_congr_ok (fun t => t.node = 1) (toT_node hb hc hi hf ho hl) ?_
    intro u hu
    refine M.bind_congr_ok (m := toT cfg y) (fun t => t.node = 1) (toT_node hb hc hi hf ho hl) ?_
    intro v hv
    refine M.bind_congr_ok (m := trajBetween cfg _ _ _) (fun t => 0 ≤ t.node) (trajBetween_node hb hc hi hf ho hl) ?_
    intro ac hac
    refine M.bind_congr_ok (m := trajBetween cfg _ _ _) (fun t => 0 ≤ t.node) (trajBetween_node hb hc hi hf ho hl) ?_
    intro bd hbd
    show M.pure (l _) = M.pure _
    rw [hl]
    · rfl
    · show 1 ≤ (cfg.ops.compose (cfg.ops.compose (cfg.ops.inverse (cfg.ops.compose ac v)) u) bd).node
      rw [hc, hi]
      simp only [PNode.compose, PNode.inverse]
      omega

theorem pairVerdicts_tests : pairVerdicts (Spec.withTests cfg o l) = pairVerdicts cfg := by
  funext y xs
  induction xs with
  | nil => rfl
  | cons x xs ih => unfold pairVerdicts; rw [ih, areLoopsConsistent_tests hb hc hi hf ho hl]

theorem landmarkVerdicts_tests : landmarkVerdicts (Spec.withTests cfg o l) = landmarkVerdicts cfg := by
  funext k y xs
  induction xs with
  | nil => rfl
  | cons x xs ih =>
    unfold landmarkVerdicts
    split
    · rfl
    · refine M.bind_congr_ok (m := toT cfg x) (fun t => t.node = 1) (toT_node hb hc hi hf ho hl) ?_
      intro u hu
      refine M.bind_congr_ok (m := toT cfg y) (fun t => t.node = 1) (toT_node hb hc hi hf ho hl) ?_
      intro v hv
      refine M.bind_congr_ok (m := trajBetween cfg _ _ _) (fun t => 0 ≤ t.node) (trajBetween_node hb hc hi hf ho hl) ?_
      intro ij hij
      have e : (Spec.withTests cfg o l).ops.loopOk (cfg.ops.compose (cfg.ops.inverse (cfg.ops.compose ij v)) u) =
          cfg.ops.loopOk (cfg.ops.compose (cfg.ops.inverse (cfg.ops.compose ij v)) u) := by
        refine hl _ ?_
        rw [hc, hi]
        simp only [PNode.compose, PNode.inverse]
        omega
      show M.bind (landmarkVerdicts (Spec.withTests cfg o l) k y xs) _ = M.bind (landmarkVerdicts cfg k y xs) _
      rw [ih]
      congr 1
      funext vs
      show M.pure (vs.map (_ :: ·)) = M.pure (vs.map (_ :: ·))
      rw [← e]
      rfl

theorem exec_tests (env : Env G (GNoise C)) : exec (Spec.withTests cfg o l) env = exec cfg env := by
  have h1 : registerLc (Spec.withTests cfg o l) = registerLc cfg := by
    funext y
    unfold registerLc incrementAdj
    rw [pairVerdicts_tests hb hc hi hf ho hl]
    rfl
  have h2 : registerLm (Spec.withTests cfg o l) = registerLm cfg := by
    funext y
    unfold registerLm incrementLandmarkAdj
    rw [landmarkVerdicts_tests hb hc hi hf ho hl]
    rfl
  have h3 : parseLoops (Spec.withTests cfg o l) = parseLoops cfg := by
    funext vals xs
    induction xs with
    | nil => rfl
    | cons x xs ih =>
      funext num
      unfold parseLoops
      rw [ih, h1, h2, isOdomConsistent_tests hb hc hi hf ho hl]
      rfl
  have h4 : processCands (Spec.withTests cfg o l) = processCands cfg := by
    funext vals xs
    unfold processCands
    rw [h3]
    rfl
  have h5 : sortFactors (Spec.withTests cfg o l) = sortFactors cfg := by
    funext nv vals fs
    induction fs with
    | nil => rfl
    | cons x fs ih =>
      funext lcs opt
      cases x with
      | none => unfold sortFactors; rw [ih]
      | some x => unfold sortFactors; rw [ih]; rfl
  have h6 : alignCandidates (Spec.withTests cfg o l) = alignCandidates cfg := by
    funext p r0 ri xs
    induction xs with
    | nil => rfl
    | cons x xs ih => unfold alignCandidates; rw [ih]; rfl
  have h7 : alignStep (Spec.withTests cfg o l) = alignStep cfg := by
    have h : alignValues (Spec.withTests cfg o l) = alignValues cfg := by
      funext env p xs
      cases xs with
      | nil => rfl
      | cons r xs =>
        unfold alignValues alignRobot
        rw [h6]
        rfl
    funext env s
    unfold alignStep
    rw [h]
    rfl
  have h8 : removeOutliers (Spec.withTests cfg o l) = removeOutliers cfg := by
    funext env fs vs
    unfold removeOutliers processFactors
    rw [h5, h4, h7]
  funext op
  cases op with
  | update fs vs o' =>
    show (update _ _ _ _ _).ret _ = (update _ _ _ _ _).ret _
    unfold update
    rw [h8]
    rfl
  | forceUpdate fs vs =>
    show (forceUpdate _ _ _ _).ret _ = (forceUpdate _ _ _ _).ret _
    unfold forceUpdate
    rw [h8]
    rfl
  | _ => rfl

end Node
end RPGO

namespace RPGO.Props
open RPGO

section C11
variable {G : Type} [Mul G] [Inv G] [One G] {C K : Type} [Field K] [LinearOrder K]

/-- C11: no public method, in any state, ever evaluates a test of average errors on a pose with node count below 1:
replacing the odometry and pairwise tests by any other tests `o`, `l` that agree with them on poses with node
count at least 1 changes nothing (state, result, exception or undefined behaviour). -/
theorem C11_no_division_by_zero (p : Params K) (tn rn : G → K) (signed : Bool) (env : Env G (GNoise C))
    (o l : PNode G → Bool) (ho : ∀ t, 1 ≤ t.node → o t = (p.cfgSimple C tn rn signed).ops.odomOk t)
    (hl : ∀ t, 1 ≤ t.node → l t = (p.cfgSimple C tn rn signed).ops.loopOk t) (op : Op G (GNoise C))
    (s : St G (PNode G) (GNoise C)) :
    exec (Spec.withTests (p.cfgSimple C tn rn signed) o l) env op s = exec (p.cfgSimple C tn rn signed) env op s := by
  rw [exec_tests rfl rfl rfl rfl ho hl]

/-- A test that would accept every pose with node count 0 or less satisfies the hypotheses and differs. -/
example : ∃ o l : PNode Demo.Z → Bool, (∀ t, 1 ≤ t.node → o t = Demo.cfg.ops.odomOk t) ∧
    (∀ t, 1 ≤ t.node → l t = Demo.cfg.ops.loopOk t) ∧ o PNode.dflt ≠ Demo.cfg.ops.odomOk PNode.dflt := by
  refine ⟨fun t => decide (t.node < 1) || Demo.cfg.ops.odomOk t, fun t => decide (t.node < 1) || Demo.cfg.ops.loopOk t,
    ?_, ?_, ?_⟩
  · intro t ht
    have : ¬ t.node < 1 := by omega
    simp [this]
  · intro t ht
    have : ¬ t.node < 1 := by omega
    simp [this]
  · decide +kernel

end C11
end RPGO.Props

namespace RPGO
variable {G T N : Type} [Mul G] [Inv G] [One G]

/-- What the checks need from the pose part of the operations. -/
structure PoseOps (ops : Ops G T N) : Prop where
  compose : ∀ a b, ops.pose (ops.compose a b) = ops.pose a * ops.pose b
  inverse : ∀ a, ops.pose (ops.inverse a) = (ops.pose a)⁻¹
  between : ∀ a b, ops.pose (ops.between a b) = (ops.pose a)⁻¹ * ops.pose b
  factor : ∀ g n, ops.pose (ops.ofFactor g n) = g

theorem poseOps_node {C K : Type} [Field K] [LinearOrder K] (tn rn : G → K) (a b c d : K) :
    PoseOps (PNode.ops C tn rn a b c d) := ⟨fun _ _ => rfl, fun _ => rfl, fun _ _ => rfl, fun _ _ => rfl⟩

theorem poseOps_cov {C K : Type} [AddGroup C] [LT K] [DecidableLT K] (env : CovEnv G C K) (a b : K) :
    PoseOps (PCov.ops env a b) := by
  refine ⟨fun _ _ => rfl, fun _ => rfl, fun _ _ => rfl, fun g n => ?_⟩
  show (PCov.ofFactor env g n).pose = g
  unfold PCov.ofFactor
  split <;> rfl

theorem btwn_pose {ops : Ops G T N} (hp : PoseOps ops) (f : Key → T) {a b : Key} (h : chr a = chr b) :
    ops.pose (btwn ops f a b) = (ops.pose (f a))⁻¹ * ops.pose (f b) := by
  unfold btwn; rw [if_pos h, hp.between]

theorem odomErr_pose {cfg : Cfg G T N} (hp : PoseOps cfg.ops) (f : Chr → Key → T) (b : Btw G N) (n : N) :
    cfg.ops.pose (odomErr cfg f b n) = cfg.ops.pose (btwn cfg.ops (f (chr b.k1)) b.k1 b.k2) * b.m⁻¹ := by
  unfold odomErr; rw [hp.compose, hp.inverse, hp.factor]

/-- Pose of the pairwise error of two closures in the same direction. -/
theorem loopErr_pose {cfg : Cfg G T N} (hp : PoseOps cfg.ops) (f : Chr → Key → T) (x y : Btw G N) (nx ny : N)
    (h : chr x.k1 = chr y.k1) :
    cfg.ops.pose (loopErr cfg f x y nx ny) =
      (cfg.ops.pose (btwn cfg.ops (f (chr x.k1)) x.k1 y.k1) * y.m)⁻¹ * x.m *
        cfg.ops.pose (btwn cfg.ops (f (chr x.k2)) x.k2 y.k2) := by
  unfold loopErr
  simp only [h, ne_eq, not_true_eq_false, if_false]
  rw [hp.compose, hp.compose, hp.inverse, hp.compose, hp.factor, hp.factor]

theorem node_odomErr {C K : Type} [Field K] [LinearOrder K] (p : Params K) (tn rn : G → K) (signed : Bool)
    (f : Chr → Key → PNode G) (b : Btw G (GNoise C)) (n : GNoise C) :
    1 ≤ (odomErr (p.cfgSimple C tn rn signed) f b n).node := by
  have := btwn_node (ops := (p.cfgSimple C tn rn signed).ops) rfl rfl rfl (f (chr b.k1)) b.k1 b.k2
  show (1 : Int) ≤ PNode.node (btwn (p.cfgSimple C tn rn signed).ops (f (chr b.k1)) b.k1 b.k2) + 1
  omega

theorem node_loopErr {C K : Type} [Field K] [LinearOrder K] (p : Params K) (tn rn : G → K) (signed : Bool)
    (f : Chr → Key → PNode G) (x y : Btw G (GNoise C)) (nx ny : GNoise C) :
    1 ≤ (loopErr (p.cfgSimple C tn rn signed) f x y nx ny).node := by
  have h1 := btwn_node (ops := (p.cfgSimple C tn rn signed).ops) rfl rfl rfl (f (chr x.k1)) x.k1
    (if chr x.k1 ≠ chr y.k1 then y.k2 else y.k1)
  have h2 := btwn_node (ops := (p.cfgSimple C tn rn signed).ops) rfl rfl rfl (f (chr x.k2)) x.k2
    (if chr x.k1 ≠ chr y.k1 then y.k1 else y.k2)
  show (1 : Int) ≤ PNode.node (btwn (p.cfgSimple C tn rn signed).ops (f (chr x.k1)) x.k1 _) + 1 + 1 +
    PNode.node (btwn (p.cfgSimple C tn rn signed).ops (f (chr x.k2)) x.k2 _)
  omega

theorem check_one {K : Type} [Field K] [LinearOrder K] {tn rn : G → K} (ht : tn 1 = 0) (hr : rn 1 = 0) {a b : K}
    (ha : 0 < a) (hb : 0 < b) {t : PNode G} (h1 : t.pose = 1) (hn : 1 ≤ t.node) : PNode.check tn rn a b t = true := by
  have h0 : t.node ≠ 0 := by omega
  unfold PNode.check PNode.avgTrans PNode.avgRot PNode.quot
  rw [h1, if_neg h0, ht, hr]
  cases t.rot <;> simp [ltThr, ha, hb, h0]

end RPGO

namespace RPGO.Spec
variable {G T N : Type} [Mul G] [Inv G] [One G]

/-- Closure `b` measures exactly the odometry that state `s` reports between its keys. -/
def Exact (cfg : Cfg G T N) (s : St G T N) (b : Btw G N) : Prop :=
  chr b.k1 = chr b.k2 ∧ ∃ t, Reports cfg s (chr b.k1) b.k1 b.k2 t ∧ b.m = cfg.ops.pose t

/-- Closure `b` from robot `chr a0` to robot `chr b0` measures exactly what their odometry and the offset `X` between
the poses of `a0` and `b0` give. -/
def ExactBetween (cfg : Cfg G T N) (s : St G T N) (a0 b0 : Key) (X : G) (b : Btw G N) : Prop :=
  chr b.k1 = chr a0 ∧ chr b.k2 = chr b0 ∧ ∃ u v, Reports cfg s (chr a0) a0 b.k1 u ∧ Reports cfg s (chr b0) b0 b.k2 v ∧
    b.m = (cfg.ops.pose u)⁻¹ * X * cfg.ops.pose v

end RPGO.Spec

namespace RPGO
variable {G T N : Type} [Mul G] [Inv G] [One G]

theorem exact_odomErr {G : Type} [Group G] {cfg : Cfg G T N} (hp : PoseOps cfg.ops) {s : St G T N} {b : Btw G N} (h : Spec.Exact cfg s b) (n : N) :
    cfg.ops.pose (odomErr cfg (lk cfg s.pcm) b n) = 1 := by
  obtain ⟨_, t, ht, e⟩ := h
  rw [odomErr_pose hp, e, reports_iff.1 ht, mul_inv_cancel]

theorem exact_loopErr {G : Type} [Group G] {cfg : Cfg G T N} (hp : PoseOps cfg.ops) {s : St G T N} {x y : Btw G N} (hx : Spec.Exact cfg s x)
    (hy : Spec.Exact cfg s y) (hxy : chr x.k1 = chr y.k1) (nx ny : N) :
    cfg.ops.pose (loopErr cfg (lk cfg s.pcm) x y nx ny) = 1 := by
  obtain ⟨cx, t, ht, ex⟩ := hx
  obtain ⟨cy, u, hu, ey⟩ := hy
  have h2 : chr x.k2 = chr y.k2 := by rw [← cx, ← cy, hxy]
  rw [loopErr_pose hp _ _ _ _ _ hxy, ex, ey, reports_iff.1 ht, reports_iff.1 hu, btwn_pose hp _ hxy, btwn_pose hp _ h2,
    btwn_pose hp _ cx, btwn_pose hp _ cy, ← cx, ← hxy]
  group

theorem exactBetween_loopErr {G : Type} [Group G] {cfg : Cfg G T N} (hp : PoseOps cfg.ops) {s : St G T N} {a0 b0 : Key} {X : G}
    {x y : Btw G N} (hx : Spec.ExactBetween cfg s a0 b0 X x) (hy : Spec.ExactBetween cfg s a0 b0 X y) (nx ny : N) :
    cfg.ops.pose (loopErr cfg (lk cfg s.pcm) x y nx ny) = 1 := by
  obtain ⟨cx, dx, u, v, hu, hv, ex⟩ := hx
  obtain ⟨cy, dy, u', v', hu', hv', ey⟩ := hy
  rw [loopErr_pose hp _ _ _ _ _ (cx.trans cy.symm), ex, ey, reports_iff.1 hu, reports_iff.1 hu', reports_iff.1 hv,
    reports_iff.1 hv', btwn_pose hp _ (cx.trans cy.symm), btwn_pose hp _ (dx.trans dy.symm), btwn_pose hp _ cx.symm,
    btwn_pose hp _ cy.symm, btwn_pose hp _ dx.symm, btwn_pose hp _ dy.symm, cx, dx]
  group

theorem odomVerdict_of {cfg : Cfg G T N} {f : Chr → Key → T} {b : Btw G N} {n : N} (hn : b.noise = some n)
    (h : cfg.ops.odomOk (odomErr cfg f b n) = true) : odomVerdict cfg f b = true := by
  unfold odomVerdict; rw [hn]; simp [h]

theorem loopVerdict_of {cfg : Cfg G T N} {f : Chr → Key → T} {x y : Btw G N} {nx ny : N} (hx : x.noise = some nx)
    (hy : y.noise = some ny) (h : cfg.ops.loopOk (loopErr cfg f x y nx ny) = true) : loopVerdict cfg f x y = true := by
  unfold loopVerdict; rw [hx, hy]; simp [h]

end RPGO

namespace RPGO.Props
open RPGO

section C12
variable {G : Type} [Mul G] [Inv G] [One G] {C K : Type} [Field K] [LinearOrder K]

/-- C12: in every state, a closure that measures exactly the odometry between its keys passes the odometry check for
every positive threshold. -/
theorem C12_exact_passes_odometry {G : Type} [Group G] (p : Params K) (tn rn : G → K) (signed : Bool) (ht : tn 1 = 0) (hr : rn 1 = 0)
    (h1 : 0 < p.odomT) (h2 : 0 < p.odomR) (s : St G (PNode G) (GNoise C)) (b : Btw G (GNoise C)) (hn : b.noise.isSome)
    (hb : Spec.Exact (p.cfgSimple C tn rn signed) s b) : Spec.OdomCheck (p.cfgSimple C tn rn signed) s b true := by
  obtain ⟨n, hn'⟩ := Option.isSome_iff_exists.1 hn
  have := odomCheck_of (cfg := p.cfgSimple C tn rn signed) (s := s) hn
  rwa [odomVerdict_of hn'] at this
  exact check_one ht hr h1 h2 (exact_odomErr (cfg := p.cfgSimple C tn rn signed) (poseOps_node tn rn _ _ _ _) hb n)
    (node_odomErr p tn rn signed _ b n)

/-- C12: two exact closures of the same robot, in whatever direction each is expressed, pass the pairwise check. -/
theorem C12_exact_pass_pairwise {G : Type} [Group G] (p : Params K) (tn rn : G → K) (signed : Bool) (ht : tn 1 = 0) (hr : rn 1 = 0)
    (h1 : 0 < p.distT) (h2 : 0 < p.distR) (s : St G (PNode G) (GNoise C)) (x y : Btw G (GNoise C))
    (hnx : x.noise.isSome) (hny : y.noise.isSome) (hxy : chr x.k1 = chr y.k1)
    (hx : Spec.Exact (p.cfgSimple C tn rn signed) s x) (hy : Spec.Exact (p.cfgSimple C tn rn signed) s y) :
    Spec.PairCheck (p.cfgSimple C tn rn signed) s x y true := by
  obtain ⟨nx, ex⟩ := Option.isSome_iff_exists.1 hnx
  obtain ⟨ny, ey⟩ := Option.isSome_iff_exists.1 hny
  have := pairCheck_of (cfg := p.cfgSimple C tn rn signed) (s := s) hnx hny
  rwa [loopVerdict_of ex ey] at this
  exact check_one ht hr h1 h2 (exact_loopErr (cfg := p.cfgSimple C tn rn signed) (poseOps_node tn rn _ _ _ _) hx hy hxy nx ny)
    (node_loopErr p tn rn signed _ x y nx ny)

/-- C12: two exact closures of the same two robots in the same direction, for one frame offset `X`, pass the pairwise
check. -/
theorem C12_exact_pass_pairwise_two_robots {G : Type} [Group G] (p : Params K) (tn rn : G → K) (signed : Bool) (ht : tn 1 = 0) (hr : rn 1 = 0)
    (h1 : 0 < p.distT) (h2 : 0 < p.distR) (s : St G (PNode G) (GNoise C)) (x y : Btw G (GNoise C))
    (hnx : x.noise.isSome) (hny : y.noise.isSome) (a0 b0 : Key) (X : G)
    (hx : Spec.ExactBetween (p.cfgSimple C tn rn signed) s a0 b0 X x)
    (hy : Spec.ExactBetween (p.cfgSimple C tn rn signed) s a0 b0 X y) :
    Spec.PairCheck (p.cfgSimple C tn rn signed) s x y true := by
  obtain ⟨nx, ex⟩ := Option.isSome_iff_exists.1 hnx
  obtain ⟨ny, ey⟩ := Option.isSome_iff_exists.1 hny
  have := pairCheck_of (cfg := p.cfgSimple C tn rn signed) (s := s) hnx hny
  rwa [loopVerdict_of ex ey] at this
  exact check_one ht hr h1 h2 (exactBetween_loopErr (cfg := p.cfgSimple C tn rn signed) (poseOps_node tn rn _ _ _ _) hx hy nx ny)
    (node_loopErr p tn rn signed _ x y nx ny)

/-- C12 for PCM2D / PCM3D: the same for every Mahalanobis norm that gives 0 to the zero error. -/
theorem C12_exact_pass_cov {G : Type} [Group G] [AddGroup C] (p : Params K) (ce : CovEnv G C K) (signed : Bool)
    (hz : ∀ S, ce.maha 1 S = some 0 ∧ ce.mahaT 1 S = some 0) (s : St G (PCov G C) (GNoise C)) :
    (0 < p.odomThr → ∀ b : Btw G (GNoise C), b.noise.isSome → Spec.Exact (p.cfgCov ce signed) s b →
      Spec.OdomCheck (p.cfgCov ce signed) s b true) ∧
    (0 < p.lcThr → ∀ x y : Btw G (GNoise C), x.noise.isSome → y.noise.isSome → chr x.k1 = chr y.k1 →
      Spec.Exact (p.cfgCov ce signed) s x → Spec.Exact (p.cfgCov ce signed) s y →
      Spec.PairCheck (p.cfgCov ce signed) s x y true) ∧
    (0 < p.lcThr → ∀ (x y : Btw G (GNoise C)) (a0 b0 : Key) (X : G), x.noise.isSome → y.noise.isSome →
      Spec.ExactBetween (p.cfgCov ce signed) s a0 b0 X x → Spec.ExactBetween (p.cfgCov ce signed) s a0 b0 X y →
      Spec.PairCheck (p.cfgCov ce signed) s x y true) := by
  have hp : PoseOps (p.cfgCov ce signed).ops := poseOps_cov ce _ _
  have key : ∀ (t : PCov G C) (thr : K), 0 < thr → t.pose = 1 → PCov.check ce thr t = true := by
    intro t thr h1 h2
    unfold PCov.check PCov.norm
    rw [h2]
    split
    · rw [(hz t.cov).1]; simp [ltThr, h1]
    · rw [(hz t.cov).2]; simp [ltThr, h1]
  refine ⟨?_, ?_, ?_⟩
  · intro h b hn hb
    obtain ⟨n, hn'⟩ := Option.isSome_iff_exists.1 hn
    have := odomCheck_of (cfg := p.cfgCov ce signed) (s := s) hn
    rwa [odomVerdict_of hn'] at this
    exact key _ _ h (exact_odomErr hp hb n)
  · intro h x y hnx hny hxy hx hy
    obtain ⟨nx, ex⟩ := Option.isSome_iff_exists.1 hnx
    obtain ⟨ny, ey⟩ := Option.isSome_iff_exists.1 hny
    have := pairCheck_of (cfg := p.cfgCov ce signed) (s := s) hnx hny
    rwa [loopVerdict_of ex ey] at this
    exact key _ _ h (exact_loopErr hp hx hy hxy nx ny)
  · intro h x y a0 b0 X hnx hny hx hy
    obtain ⟨nx, ex⟩ := Option.isSome_iff_exists.1 hnx
    obtain ⟨ny, ey⟩ := Option.isSome_iff_exists.1 hny
    have := pairCheck_of (cfg := p.cfgCov ce signed) (s := s) hnx hny
    rwa [loopVerdict_of ex ey] at this
    exact key _ _ h (exactBetween_loopErr hp hx hy nx ny)

end C12
end RPGO.Props

namespace RPGO.Props
open RPGO

/-- Robots a and b with two keys each, one unit apart. -/
def twoRobots : List (Op Demo.Z Demo.Ns) :=
  [.update [Demo.edge (Demo.a 0) (Demo.a 1) 1] [Demo.pose (Demo.a 0) 0, Demo.pose (Demo.a 1) 1] true,
   .update [Demo.edge (Demo.b 0) (Demo.b 1) 1] [Demo.pose (Demo.b 0) 5, Demo.pose (Demo.b 1) 6] true]

/-- A decidable form of the pairwise verdict. -/
def pairIs (cfg : Cfg Demo.Z Demo.Tp Demo.Ns) (x y : Btw Demo.Z Demo.Ns) (v : Bool) (s : St Demo.Z Demo.Tp Demo.Ns) : Bool :=
  match areLoopsConsistent cfg x y s.pcm with
  | .ok _ w => w == v
  | _ => false

theorem pairIs_iff {cfg : Cfg Demo.Z Demo.Tp Demo.Ns} {x y : Btw Demo.Z Demo.Ns} {v : Bool} {s : St Demo.Z Demo.Tp Demo.Ns}
    (h : pairIs cfg x y v s = true) : Spec.PairCheck cfg s x y v := by
  unfold pairIs at h
  split at h
  · rename_i q w e
    have : w = v := by simpa using h
    rw [this] at e
    exact ⟨_, e⟩
  · cases h

/-- A decidable form of the odometry verdict. -/
def odomIs (cfg : Cfg Demo.Z Demo.Tp Demo.Ns) (b : Btw Demo.Z Demo.Ns) (v : Bool) (s : St Demo.Z Demo.Tp Demo.Ns) : Bool :=
  match isOdomConsistent cfg b s.pcm with
  | .ok _ w => w == v
  | _ => false

theorem odomIs_iff {cfg : Cfg Demo.Z Demo.Tp Demo.Ns} {b : Btw Demo.Z Demo.Ns} {v : Bool} {s : St Demo.Z Demo.Tp Demo.Ns}
    (h : odomIs cfg b v s = true) : Spec.OdomCheck cfg s b v := by
  unfold odomIs at h
  split at h
  · rename_i q w e
    have : w = v := by simpa using h
    rw [this] at e
    exact ⟨_, e⟩
  · cases h

set_option maxRecDepth 100000 in
/-- Exact closures exist: a2 → a0 of length -2 in the demo history, and a0 → b0, a1 → b1 for the offset 5. -/
example : (∃ s, ReachOk Demo.cfg Demo.env Demo.h1 s ∧ Spec.Exact Demo.cfg s (Demo.btw (Demo.a 2) (Demo.a 0) (-2))) ∧
    (∃ s, ReachOk Demo.cfg Demo.env twoRobots s ∧
      Spec.ExactBetween Demo.cfg s (Demo.a 0) (Demo.b 0) (Demo.z 5) (Demo.btw (Demo.a 0) (Demo.b 0) 5) ∧
      Spec.ExactBetween Demo.cfg s (Demo.a 0) (Demo.b 0) (Demo.z 5) (Demo.btw (Demo.a 1) (Demo.b 0) 4)) ∧
    Demo.len 1 = 0 ∧ 0 < Demo.params.odomT ∧ 0 < Demo.params.distT := by
  refine ⟨?_, ?_, by decide +kernel, by decide +kernel, by decide +kernel⟩
  · obtain ⟨s, r, h⟩ := Demo.runs_reach (cfg := Demo.cfg) (env := Demo.env) (ops := Demo.h1)
      (P := fun s => decide ((btwn Demo.cfg.ops (lk Demo.cfg s.pcm 97) (Demo.a 2) (Demo.a 0)).pose = Demo.z (-2))) (by decide +kernel)
    exact ⟨s, r, by decide, _, reports_iff.2 rfl, (of_decide_eq_true h).symm⟩
  · obtain ⟨s, r, h⟩ := Demo.runs_reach (cfg := Demo.cfg) (env := Demo.env) (ops := twoRobots)
      (P := fun s => decide (Demo.z 5 = ((btwn Demo.cfg.ops (lk Demo.cfg s.pcm 97) (Demo.a 0) (Demo.a 0)).pose)⁻¹ * Demo.z 5 *
          (btwn Demo.cfg.ops (lk Demo.cfg s.pcm 98) (Demo.b 0) (Demo.b 0)).pose ∧
        Demo.z 4 = ((btwn Demo.cfg.ops (lk Demo.cfg s.pcm 97) (Demo.a 0) (Demo.a 1)).pose)⁻¹ * Demo.z 5 *
          (btwn Demo.cfg.ops (lk Demo.cfg s.pcm 98) (Demo.b 0) (Demo.b 0)).pose)) (by decide +kernel)
    simp only [decide_eq_true_eq] at h
    exact ⟨s, r, ⟨by decide, by decide, _, _, reports_iff.2 rfl, reports_iff.2 rfl, h.1⟩,
      ⟨by decide, by decide, _, _, reports_iff.2 rfl, reports_iff.2 rfl, h.2⟩⟩

/-! ### C13 -/

set_option maxRecDepth 100000 in
/-- C13 is false: a0 → b0 and a1 → b1, both of length 5, are consistent, but a1 → b1 expressed as b1 → a1 of length
-5 is not consistent with a0 → b0. Of the first pair both closures end up in the graph, of the second only one. -/
theorem C13_false :
    (∃ s, ReachOk Demo.cfg Demo.env twoRobots s ∧
      Spec.PairCheck Demo.cfg s (Demo.btw (Demo.a 0) (Demo.b 0) 5) (Demo.btw (Demo.a 1) (Demo.b 1) 5) true ∧
      Spec.PairCheck Demo.cfg s (Demo.btw (Demo.a 0) (Demo.b 0) 5) (Demo.btw (Demo.b 1) (Demo.a 1) (-5)) false) ∧
    (∃ s, ReachOk Demo.cfg Demo.env
        (twoRobots ++ [.update [Demo.edge (Demo.a 0) (Demo.b 0) 5, Demo.edge (Demo.a 1) (Demo.b 1) 5] [] true]) s ∧
      s.nfg.length = 4) ∧
    (∃ s, ReachOk Demo.cfg Demo.env
        (twoRobots ++ [.update [Demo.edge (Demo.a 0) (Demo.b 0) 5, Demo.edge (Demo.b 1) (Demo.a 1) (-5)] [] true]) s ∧
      s.nfg.length = 3) := by
  refine ⟨?_, ?_, ?_⟩
  · obtain ⟨s, r, h⟩ := Demo.runs_reach (cfg := Demo.cfg) (env := Demo.env) (ops := twoRobots)
      (P := fun s => pairIs Demo.cfg (Demo.btw (Demo.a 0) (Demo.b 0) 5) (Demo.btw (Demo.a 1) (Demo.b 1) 5) true s &&
        pairIs Demo.cfg (Demo.btw (Demo.a 0) (Demo.b 0) 5) (Demo.btw (Demo.b 1) (Demo.a 1) (-5)) false s) (by decide +kernel)
    rw [Bool.and_eq_true] at h
    exact ⟨s, r, pairIs_iff h.1, pairIs_iff h.2⟩
  · obtain ⟨s, r, h⟩ := Demo.runs_reach (cfg := Demo.cfg) (env := Demo.env)
      (ops := twoRobots ++ [.update [Demo.edge (Demo.a 0) (Demo.b 0) 5, Demo.edge (Demo.a 1) (Demo.b 1) 5] [] true])
      (P := fun s => decide (s.nfg.length = 4)) (by decide +kernel)
    exact ⟨s, r, by simpa using h⟩
  · obtain ⟨s, r, h⟩ := Demo.runs_reach (cfg := Demo.cfg) (env := Demo.env)
      (ops := twoRobots ++ [.update [Demo.edge (Demo.a 0) (Demo.b 0) 5, Demo.edge (Demo.b 1) (Demo.a 1) (-5)] [] true])
      (P := fun s => decide (s.nfg.length = 3)) (by decide +kernel)
    exact ⟨s, r, by simpa using h⟩

end RPGO.Props

namespace RPGO.Spec
variable {G N : Type} [Mul G] [Inv G] [One G]

/-- The same closure expressed in the other direction. -/
def reversed (b : Btw G N) : Btw G N := ⟨b.k2, b.k1, b.m⁻¹, b.noise⟩

end RPGO.Spec

namespace RPGO.Props
open RPGO

section C13
variable {G : Type} [Mul G] [Inv G] [One G] {C K : Type} [Field K] [LinearOrder K]

/-- C13, proved part: reversing both closures of a pair does not change the verdict, if the distances do not change
under inversion and conjugation (as for rotation angles and pure translations). Missing: reversing one of the two only,
which the full property asks for, changes it (`C13_false`), and so does reversing both if the distances change under conjugation
(`C13_false_both` in `Props/Plane.lean`). -/
theorem C13_both_reversed_partial {G : Type} [Group G] (p : Params K) (tn rn : G → K) (signed : Bool)
    (h1 : ∀ g, tn g⁻¹ = tn g ∧ rn g⁻¹ = rn g) (h2 : ∀ g x, tn (x * g * x⁻¹) = tn g ∧ rn (x * g * x⁻¹) = rn g)
    (s : St G (PNode G) (GNoise C)) (x y : Btw G (GNoise C)) (hx : x.noise.isSome) (hy : y.noise.isSome)
    (hk : chr x.k1 = chr y.k1) (hk' : chr x.k2 = chr y.k2) (v : Bool)
    (h : Spec.PairCheck (p.cfgSimple C tn rn signed) s x y v) :
    Spec.PairCheck (p.cfgSimple C tn rn signed) s (Spec.reversed x) (Spec.reversed y) v := by
  obtain ⟨nx, ex⟩ := Option.isSome_iff_exists.1 hx
  obtain ⟨ny, ey⟩ := Option.isSome_iff_exists.1 hy
  have hp : PoseOps (p.cfgSimple C tn rn signed).ops := poseOps_node tn rn _ _ _ _
  have := pairCheck_of (cfg := p.cfgSimple C tn rn signed) (s := s) (x := Spec.reversed x) (y := Spec.reversed y) hx hy
  rw [pairCheck_val h]
  have e : loopVerdict (p.cfgSimple C tn rn signed) (lk (p.cfgSimple C tn rn signed) s.pcm) (Spec.reversed x) (Spec.reversed y) =
      loopVerdict (p.cfgSimple C tn rn signed) (lk (p.cfgSimple C tn rn signed) s.pcm) x y := by
    unfold loopVerdict
    simp only [Spec.reversed, ex, ey]
    congr 1
    have hpose := loopErr_pose hp (lk (p.cfgSimple C tn rn signed) s.pcm) x y nx ny hk
    have hpose' := loopErr_pose hp (lk (p.cfgSimple C tn rn signed) s.pcm) (Spec.reversed x) (Spec.reversed y) nx ny hk'
    set f := lk (p.cfgSimple C tn rn signed) s.pcm
    set E := loopErr (p.cfgSimple C tn rn signed) f x y nx ny with hE
    have hE' : loopErr (p.cfgSimple C tn rn signed) f ⟨x.k2, x.k1, x.m⁻¹, some nx⟩ ⟨y.k2, y.k1, y.m⁻¹, some ny⟩ nx ny =
        ⟨y.m * E.pose⁻¹ * y.m⁻¹, E.node, E.rot⟩ := by
      have a1 : (loopErr (p.cfgSimple C tn rn signed) f ⟨x.k2, x.k1, x.m⁻¹, some nx⟩ ⟨y.k2, y.k1, y.m⁻¹, some ny⟩ nx ny).pose =
          y.m * E.pose⁻¹ * y.m⁻¹ := by
        have q : E.pose = (p.cfgSimple C tn rn signed).ops.pose E := rfl
        rw [q, hpose]
        refine Eq.trans hpose' ?_
        simp only [Spec.reversed]
        rw [btwn_pose hp _ hk, btwn_pose hp _ hk']
        group
      have a2 : (loopErr (p.cfgSimple C tn rn signed) f ⟨x.k2, x.k1, x.m⁻¹, some nx⟩ ⟨y.k2, y.k1, y.m⁻¹, some ny⟩ nx ny).node = E.node := by
        rw [hE]
        unfold loopErr
        simp only [hk, hk', ne_eq, not_true_eq_false, if_false]
        show PNode.node (btwn _ _ _ _) + 1 + 1 + PNode.node (btwn _ _ _ _) = PNode.node (btwn _ _ _ _) + 1 + 1 + PNode.node (btwn _ _ _ _)
        omega
      have a3 : (loopErr (p.cfgSimple C tn rn signed) f ⟨x.k2, x.k1, x.m⁻¹, some nx⟩ ⟨y.k2, y.k1, y.m⁻¹, some ny⟩ nx ny).rot = E.rot := by
        rw [hE]
        unfold loopErr
        simp only [hk, hk', ne_eq, not_true_eq_false, if_false]
        show (((PNode.rot (btwn _ _ _ _) && !ny.rotNaN) && !nx.rotNaN) && PNode.rot (btwn _ _ _ _)) =
          (((PNode.rot (btwn _ _ _ _) && !ny.rotNaN) && !nx.rotNaN) && PNode.rot (btwn _ _ _ _))
        cases PNode.rot (btwn (p.cfgSimple C tn rn signed).ops (f (chr y.k2)) x.k2 y.k2) <;>
          cases PNode.rot (btwn (p.cfgSimple C tn rn signed).ops (f (chr y.k1)) x.k1 y.k1) <;>
            cases ny.rotNaN <;> cases nx.rotNaN <;> rfl
      rw [← a1, ← a2, ← a3]
    rw [hE']
    show PNode.check tn rn _ _ _ = PNode.check tn rn _ _ _
    unfold PNode.check PNode.avgTrans PNode.avgRot
    simp only [h1, h2]
  rwa [e] at this

end C13

example : (∀ g, Demo.len g⁻¹ = Demo.len g) ∧ ∀ g x, Demo.len (x * g * x⁻¹) = Demo.len g := by
  refine ⟨fun g => ?_, fun g x => ?_⟩
  · show ((|-(Multiplicative.toAdd g)| : ℤ) : ℚ) = _
    rw [abs_neg]; rfl
  · rw [mul_right_comm, mul_inv_cancel, one_mul]

end RPGO.Props

/-! ### C15 -/

namespace RPGO
variable {K : Type} [Field K] [LinearOrder K]

theorem ltThr_mono {d : Option K} {a b : K} (hab : a ≤ b) (h : ltThr d a = true) : ltThr d b = true := by
  unfold ltThr at *
  split at h
  · cases h
  · simp only [decide_eq_true_eq] at h ⊢
    exact lt_of_lt_of_le h hab

theorem ltThr_zero {d : Option K} (h : ∀ x, d = some x → 0 ≤ x) : ltThr d 0 = false := by
  unfold ltThr
  cases d with
  | none => rfl
  | some x => simpa using h x rfl

end RPGO

namespace RPGO.Props
open RPGO

section C15
variable {G : Type} [Mul G] [Inv G] [One G] {C K : Type} [Field K] [LinearOrder K]

/-- C15: a negative threshold disables the corresponding check: every closure passes, in every state, for all four
methods. Missing: landmark observations, for which it is false, see `C15_false_landmarks`. -/
theorem C15_negative_disables_partial {T : Type} (p : Params K) (ops : Ops G T (GNoise C)) (signed : Bool)
    (s : St G T (GNoise C)) :
    (p.odomThr < 0 ∨ p.odomR < 0 ∨ p.odomT < 0 → ∀ b, Spec.OdomCheck (p.cfg ops signed) s b true) ∧
    (p.lcThr < 0 ∨ p.distR < 0 ∨ p.distT < 0 → ∀ x y, Spec.PairCheck (p.cfg ops signed) s x y true) := by
  constructor
  · intro h b
    have hc : (p.cfg ops signed).odomCheck = false := by
      simp only [Params.cfg, Params.odomCheck]
      rcases h with h | h | h <;> simp [h]
    exact ⟨s.pcm, by unfold isOdomConsistent; simp [hc]⟩
  · intro h x y
    have hc : (p.cfg ops signed).loopCheck = false := by
      simp only [Params.cfg, Params.loopCheck]
      rcases h with h | h | h <;> simp [h]
    exact ⟨s.pcm, by unfold areLoopsConsistent; simp [hc]⟩

theorem quot_nonneg [IsStrictOrderedRing K] {x y : K} {n : Int} (hx : 0 ≤ x) (hn : 1 ≤ n) (h : PNode.quot x n = some y) : 0 ≤ y := by
  unfold PNode.quot at h
  split at h
  · cases h
  · cases h
    exact div_nonneg hx (by exact_mod_cast (by omega : (0 : Int) ≤ n))

theorem check_zero [IsStrictOrderedRing K] {tn rn : G → K} (ht : ∀ g, 0 ≤ tn g) (hr : ∀ g, 0 ≤ rn g) {a b : K} (h : a = 0 ∨ b = 0)
    {t : PNode G} (hn : 1 ≤ t.node) : PNode.check tn rn a b t = false := by
  unfold PNode.check
  rw [Bool.and_eq_false_iff]
  rcases h with rfl | rfl
  · left
    exact ltThr_zero fun x hx => quot_nonneg (ht _) hn hx
  · right
    refine ltThr_zero fun x hx => ?_
    unfold PNode.avgRot at hx
    split at hx
    · exact quot_nonneg (hr _) hn hx
    · cases hx; exact le_refl _

/-- C15 (PCM_Simple2D / 3D): with the check on, a translation or rotation threshold of zero rejects every closure,
in every state.
Missing: landmark observations, the first of which is never checked, see `C17_false_first_observation`. -/
theorem C15_zero_rejects_partial [IsStrictOrderedRing K] (p : Params K) (tn rn : G → K) (signed : Bool) (ht : ∀ g, 0 ≤ tn g)
    (hr : ∀ g, 0 ≤ rn g) (s : St G (PNode G) (GNoise C)) :
    (p.odomCheck = true → (p.odomT = 0 ∨ p.odomR = 0) → ∀ b : Btw G (GNoise C), b.noise.isSome →
      Spec.OdomCheck (p.cfgSimple C tn rn signed) s b false) ∧
    (p.loopCheck = true → (p.distT = 0 ∨ p.distR = 0) → ∀ x y : Btw G (GNoise C), x.noise.isSome → y.noise.isSome →
      Spec.PairCheck (p.cfgSimple C tn rn signed) s x y false) := by
  constructor
  · intro hc h b hb
    obtain ⟨n, e⟩ := Option.isSome_iff_exists.1 hb
    have := odomCheck_of (cfg := p.cfgSimple C tn rn signed) (s := s) hb
    have e' : odomVerdict (p.cfgSimple C tn rn signed) (lk (p.cfgSimple C tn rn signed) s.pcm) b = false := by
      unfold odomVerdict
      rw [e]
      have h1 : (p.cfgSimple C tn rn signed).odomCheck = true := hc
      have h2 : (p.cfgSimple C tn rn signed).ops.odomOk (odomErr (p.cfgSimple C tn rn signed)
          (lk (p.cfgSimple C tn rn signed) s.pcm) b n) = false := check_zero ht hr h (node_odomErr p tn rn signed _ b n)
      simp [h1, h2]
    rwa [e'] at this
  · intro hc h x y hx hy
    obtain ⟨nx, ex⟩ := Option.isSome_iff_exists.1 hx
    obtain ⟨ny, ey⟩ := Option.isSome_iff_exists.1 hy
    have := pairCheck_of (cfg := p.cfgSimple C tn rn signed) (s := s) hx hy
    have e' : loopVerdict (p.cfgSimple C tn rn signed) (lk (p.cfgSimple C tn rn signed) s.pcm) x y = false := by
      unfold loopVerdict
      rw [ex, ey]
      have h1 : (p.cfgSimple C tn rn signed).loopCheck = true := hc
      have h2 : (p.cfgSimple C tn rn signed).ops.loopOk (loopErr (p.cfgSimple C tn rn signed)
          (lk (p.cfgSimple C tn rn signed) s.pcm) x y nx ny) = false := check_zero ht hr h (node_loopErr p tn rn signed _ x y nx ny)
      simp [h1, h2]
    rwa [e'] at this

/-- C15 (PCM2D / 3D): with the check on, a threshold of zero rejects every closure. Missing: landmark observations. -/
theorem C15_zero_rejects_cov_partial [AddGroup C] (p : Params K) (ce : CovEnv G C K) (signed : Bool)
    (hz : ∀ g S x, ce.maha g S = some x ∨ ce.mahaT g S = some x → 0 ≤ x) (s : St G (PCov G C) (GNoise C)) :
    (p.odomCheck = true → p.odomThr = 0 → ∀ b : Btw G (GNoise C), b.noise.isSome →
      Spec.OdomCheck (p.cfgCov ce signed) s b false) ∧
    (p.loopCheck = true → p.lcThr = 0 → ∀ x y : Btw G (GNoise C), x.noise.isSome → y.noise.isSome →
      Spec.PairCheck (p.cfgCov ce signed) s x y false) := by
  have key : ∀ t : PCov G C, PCov.check ce 0 t = false := by
    intro t
    refine ltThr_zero fun x hx => ?_
    unfold PCov.norm at hx
    split at hx
    · exact hz _ _ _ (Or.inl hx)
    · exact hz _ _ _ (Or.inr hx)
  constructor
  · intro hc h b hb
    obtain ⟨n, e⟩ := Option.isSome_iff_exists.1 hb
    have := odomCheck_of (cfg := p.cfgCov ce signed) (s := s) hb
    have e' : odomVerdict (p.cfgCov ce signed) (lk (p.cfgCov ce signed) s.pcm) b = false := by
      unfold odomVerdict
      rw [e]
      have h1 : (p.cfgCov ce signed).odomCheck = true := hc
      have h2 : (p.cfgCov ce signed).ops.odomOk (odomErr (p.cfgCov ce signed)
          (lk (p.cfgCov ce signed) s.pcm) b n) = false := by
        show PCov.check ce p.odomThr _ = false
        rw [h]; exact key _
      simp [h1, h2]
    rwa [e'] at this
  · intro hc h x y hx hy
    obtain ⟨nx, ex⟩ := Option.isSome_iff_exists.1 hx
    obtain ⟨ny, ey⟩ := Option.isSome_iff_exists.1 hy
    have := pairCheck_of (cfg := p.cfgCov ce signed) (s := s) hx hy
    have e' : loopVerdict (p.cfgCov ce signed) (lk (p.cfgCov ce signed) s.pcm) x y = false := by
      unfold loopVerdict
      rw [ex, ey]
      have h1 : (p.cfgCov ce signed).loopCheck = true := hc
      have h2 : (p.cfgCov ce signed).ops.loopOk (loopErr (p.cfgCov ce signed)
          (lk (p.cfgCov ce signed) s.pcm) x y nx ny) = false := by
        show PCov.check ce p.lcThr _ = false
        rw [h]; exact key _
      simp [h1, h2]
    rwa [e'] at this

theorem verdict_mono {T : Type} {c c' : Cfg G T (GNoise C)} (hops : c.ops.compose = c'.ops.compose ∧
      c.ops.inverse = c'.ops.inverse ∧ c.ops.between = c'.ops.between ∧ c.ops.ofFactor = c'.ops.ofFactor ∧ c.ops.dflt = c'.ops.dflt)
    (s : St G T (GNoise C)) :
    (c.odomCheck = true → (∀ t, c.ops.odomOk t = true → c'.ops.odomOk t = true) → ∀ b, Spec.OdomCheck c s b true →
      Spec.OdomCheck c' s b true) ∧
    (c.loopCheck = true → (∀ t, c.ops.loopOk t = true → c'.ops.loopOk t = true) → ∀ x y, Spec.PairCheck c s x y true →
      Spec.PairCheck c' s x y true) := by
  obtain ⟨h1, h2, h3, h4, h5⟩ := hops
  have hb : btwn c.ops = btwn c'.ops := by funext f a b; unfold btwn; rw [h1, h2, h3]
  have hlk : lk c s.pcm = lk c' s.pcm := by funext a k; unfold lk look; rw [h5]
  constructor
  · intro hc hm b h
    have hv := odomCheck_val h
    unfold odomVerdict at hv
    rw [hc] at hv
    cases hn : b.noise with
    | none => rw [hn] at hv; simp at hv
    | some n =>
      rw [hn] at hv
      have hv' : c.ops.odomOk (odomErr c (lk c s.pcm) b n) = true := by simpa using hv.symm
      have := odomCheck_of (cfg := c') (s := s) (b := b) (by rw [hn]; rfl)
      rwa [odomVerdict_of hn] at this
      have e : odomErr c' (lk c' s.pcm) b n = odomErr c (lk c s.pcm) b n := by
        unfold odomErr; rw [h1, h2, h4, hb, hlk]
      rw [e]
      exact hm _ hv'
  · intro hc hm x y h
    have hv := pairCheck_val h
    unfold loopVerdict at hv
    rw [hc] at hv
    cases hnx : x.noise with
    | none => rw [hnx] at hv; simp at hv
    | some nx =>
      cases hny : y.noise with
      | none => rw [hnx, hny] at hv; simp at hv
      | some ny =>
        rw [hnx, hny] at hv
        have hv' : c.ops.loopOk (loopErr c (lk c s.pcm) x y nx ny) = true := by simpa using hv.symm
        have := pairCheck_of (cfg := c') (s := s) (x := x) (y := y) (by rw [hnx]; rfl) (by rw [hny]; rfl)
        rwa [loopVerdict_of hnx hny] at this
        have e : loopErr c' (lk c' s.pcm) x y nx ny = loopErr c (lk c s.pcm) x y nx ny := by
          unfold loopErr; rw [h1, h2, h4, hb, hlk]
        rw [e]
        exact hm _ hv'

/-- C15 (PCM_Simple2D / 3D), proved part: as long as the check is on (no threshold negative), raising thresholds
never turns an accepted measurement into a rejected one. Starting from a negative threshold it does:
`C15_false_raising_from_negative`. -/
theorem C15_monotone_partial (p q : Params K) (tn rn : G → K) (signed : Bool) (s : St G (PNode G) (GNoise C)) :
    (p.odomCheck = true → p.odomT ≤ q.odomT → p.odomR ≤ q.odomR → ∀ b,
      Spec.OdomCheck (p.cfgSimple C tn rn signed) s b true → Spec.OdomCheck (q.cfgSimple C tn rn signed) s b true) ∧
    (p.loopCheck = true → p.distT ≤ q.distT → p.distR ≤ q.distR → ∀ x y,
      Spec.PairCheck (p.cfgSimple C tn rn signed) s x y true → Spec.PairCheck (q.cfgSimple C tn rn signed) s x y true) := by
  obtain ⟨m1, m2⟩ := verdict_mono (c := p.cfgSimple C tn rn signed) (c' := q.cfgSimple C tn rn signed)
    ⟨rfl, rfl, rfl, rfl, rfl⟩ s
  have key : ∀ {a a' b b' : K}, a ≤ a' → b ≤ b' → ∀ t, PNode.check tn rn a b t = true → PNode.check tn rn a' b' t = true := by
    intro a a' b b' h1 h2 t h
    unfold PNode.check at *
    rw [Bool.and_eq_true] at *
    exact ⟨ltThr_mono h1 h.1, ltThr_mono h2 h.2⟩
  exact ⟨fun hc h1 h2 b h => m1 hc (key h1 h2) b h, fun hc h1 h2 x y h => m2 hc (key h1 h2) x y h⟩

/-- C15 (PCM2D / 3D), proved part. -/
theorem C15_monotone_cov_partial [AddGroup C] (p q : Params K) (ce : CovEnv G C K) (signed : Bool) (s : St G (PCov G C) (GNoise C)) :
    (p.odomCheck = true → p.odomThr ≤ q.odomThr → ∀ b,
      Spec.OdomCheck (p.cfgCov ce signed) s b true → Spec.OdomCheck (q.cfgCov ce signed) s b true) ∧
    (p.loopCheck = true → p.lcThr ≤ q.lcThr → ∀ x y,
      Spec.PairCheck (p.cfgCov ce signed) s x y true → Spec.PairCheck (q.cfgCov ce signed) s x y true) := by
  obtain ⟨m1, m2⟩ := verdict_mono (c := p.cfgCov ce signed) (c' := q.cfgCov ce signed) ⟨rfl, rfl, rfl, rfl, rfl⟩ s
  have key : ∀ {a a' : K}, a ≤ a' → ∀ t, PCov.check ce a t = true → PCov.check ce a' t = true :=
    fun h1 t h => ltThr_mono h1 h
  exact ⟨fun hc h1 b h => m1 hc (key h1) b h, fun hc h1 x y h => m2 hc (key h1) x y h⟩

end C15

/-- `setPcmSimple3DParams` with one threshold for the odometry and one for the pairwise check. -/
def thr (o d : ℚ) : Cfg Demo.Z Demo.Tp Demo.Ns := Demo.mk (Params.default.apply (.simple3D' o o d d .quiet))

set_option maxRecDepth 100000 in
/-- C15 is false as stated for raising a threshold from a negative value: closure a0 → a2 of length 50 is accepted with
thresholds -1, and rejected with thresholds 0. -/
theorem C15_false_raising_from_negative :
    (∃ s, ReachOk (thr (-1) 1) Demo.env Demo.h1 s ∧ Spec.OdomCheck (thr (-1) 1) s (Demo.btw (Demo.a 0) (Demo.a 2) 50) true) ∧
    (∃ s, ReachOk (thr 0 1) Demo.env Demo.h1 s ∧ Spec.OdomCheck (thr 0 1) s (Demo.btw (Demo.a 0) (Demo.a 2) 50) false) := by
  constructor
  · obtain ⟨s, r, h⟩ := Demo.runs_reach (cfg := thr (-1) 1) (env := Demo.env) (ops := Demo.h1)
      (P := odomIs (thr (-1) 1) (Demo.btw (Demo.a 0) (Demo.a 2) 50) true) (by decide +kernel)
    exact ⟨s, r, odomIs_iff h⟩
  · obtain ⟨s, r, h⟩ := Demo.runs_reach (cfg := thr 0 1) (env := Demo.env) (ops := Demo.h1)
      (P := odomIs (thr 0 1) (Demo.btw (Demo.a 0) (Demo.a 2) 50) false) (by decide +kernel)
    exact ⟨s, r, odomIs_iff h⟩

/-- Landmarks `l…` and thresholds as in `thr`. -/
def thrLm (o d : ℚ) : Cfg Demo.Z Demo.Tp Demo.Ns := { thr o d with special := [108] }

/-- Landmark l1 seen from a0 and again, exactly, from a1. -/
def landmarkTwice : List (Op Demo.Z Demo.Ns) :=
  [.update [Demo.edge (Demo.a 0) (Demo.a 1) 1] [Demo.pose (Demo.a 0) 0, Demo.pose (Demo.a 1) 1] true,
   .update [Demo.edge (Demo.a 0) (Demo.l 1) 5] [Demo.pose (Demo.l 1) 5] true,
   .update [Demo.edge (Demo.a 1) (Demo.l 1) 4] [] true]

set_option maxRecDepth 100000 in
/-- C15 is false for landmarks: negative pairwise thresholds do not disable the check of landmark observations, they
make every pair of observations inconsistent. With thresholds 1 both observations are kept, with -1 only one. -/
theorem C15_false_landmarks :
    (∃ s, ReachOk (thrLm 1 1) Demo.env landmarkTwice s ∧ s.nfg.length = 3) ∧
    (∃ s, ReachOk (thrLm 1 (-1)) Demo.env landmarkTwice s ∧ s.nfg.length = 2) := by
  constructor
  · obtain ⟨s, r, h⟩ := Demo.runs_reach (cfg := thrLm 1 1) (env := Demo.env) (ops := landmarkTwice)
      (P := fun s => decide (s.nfg.length = 3)) (by decide +kernel)
    exact ⟨s, r, of_decide_eq_true h⟩
  · obtain ⟨s, r, h⟩ := Demo.runs_reach (cfg := thrLm 1 (-1)) (env := Demo.env) (ops := landmarkTwice)
      (P := fun s => decide (s.nfg.length = 2)) (by decide +kernel)
    exact ⟨s, r, of_decide_eq_true h⟩

set_option maxRecDepth 100000 in
/-- The hypotheses of `C15_zero_rejects_partial` and `C15_monotone_partial` are met, and the verdict can go either way. -/
example : (Params.default.apply (.simple3D' (0 : ℚ) 0 1 1 .quiet)).odomCheck = true ∧
    (Params.default.apply (.simple3D' (1 : ℚ) 1 1 1 .quiet)).odomCheck = true ∧
    ∃ s, ReachOk (thr 1 1) Demo.env Demo.h1 s ∧ Spec.OdomCheck (thr 1 1) s (Demo.btw (Demo.a 0) (Demo.a 2) 3) true ∧
      Spec.OdomCheck (thr 1 1) s (Demo.btw (Demo.a 0) (Demo.a 2) 50) false := by
  refine ⟨by decide +kernel, by decide +kernel, ?_⟩
  obtain ⟨s, r, h⟩ := Demo.runs_reach (cfg := thr 1 1) (env := Demo.env) (ops := Demo.h1)
    (P := fun s => odomIs (thr 1 1) (Demo.btw (Demo.a 0) (Demo.a 2) 3) true s &&
      odomIs (thr 1 1) (Demo.btw (Demo.a 0) (Demo.a 2) 50) false s) (by decide +kernel)
  rw [Bool.and_eq_true] at h
  exact ⟨s, r, odomIs_iff h.1, odomIs_iff h.2⟩

/-! ### C42 -/

end RPGO.Props

namespace RPGO.Spec
variable {K : Type}

/-- Calls that choose the outlier-rejection method. -/
def decides : Params.Setter K → Bool
  | .noRejection _ | .pcm2D .. | .pcm3D .. | .simple2D .. | .simple3D .. | .simple2D' .. | .simple3D' .. => true
  | _ => false

/-- Does the call choose one of the methods with average errors? -/
def simple : Params.Setter K → Bool
  | .simple2D .. | .simple3D .. | .simple2D' .. | .simple3D' .. => true
  | _ => false

/-- Does the call choose one of the methods with covariances? -/
def withCov : Params.Setter K → Bool
  | .pcm2D .. | .pcm3D .. => true
  | _ => false

/-- No threshold of the call is negative. -/
def nonneg [Zero K] [LE K] : Params.Setter K → Prop
  | .pcm2D o l _ | .pcm3D o l _ => 0 ≤ o ∧ 0 ≤ l
  | .simple2D t r _ | .simple3D t r _ => 0 ≤ t ∧ 0 ≤ r
  | .simple2D' a b c d _ | .simple3D' a b c d _ => 0 ≤ a ∧ 0 ≤ b ∧ 0 ≤ c ∧ 0 ≤ d
  | _ => True

/-- The outlier rejection of two solvers is configured in the same way. -/
structure SameRejection {G T N : Type} (c c' : Cfg G T N) : Prop where
  ops : c.ops = c'.ops
  rejection : c.rejection = c'.rejection
  odomCheck : c.odomCheck = c'.odomCheck
  loopCheck : c.loopCheck = c'.loopCheck
  debug : c.debug = c'.debug

end RPGO.Spec

namespace RPGO
variable {K : Type} [Field K] [LinearOrder K]

/-- No threshold is negative. -/
structure NonnegP (p : Params K) : Prop where
  odomThr : 0 ≤ p.odomThr
  lcThr : 0 ≤ p.lcThr
  odomT : 0 ≤ p.odomT
  odomR : 0 ≤ p.odomR
  distT : 0 ≤ p.distT
  distR : 0 ≤ p.distR

theorem NonnegP.apply {p : Params K} (h : NonnegP p) {x : Params.Setter K} (hx : Spec.nonneg x) : NonnegP (p.apply x) := by
  cases x <;> first
    | exact ⟨h.odomThr, h.lcThr, h.odomT, h.odomR, h.distT, h.distR⟩
    | exact ⟨hx.1, hx.2, h.odomT, h.odomR, h.distT, h.distR⟩
    | exact ⟨h.odomThr, h.lcThr, hx.1, hx.2, hx.1, hx.2⟩
    | exact ⟨h.odomThr, h.lcThr, hx.1, hx.2.1, hx.2.2.1, hx.2.2.2⟩

theorem NonnegP.default [IsStrictOrderedRing K] : NonnegP (Params.default : Params K) := by
  constructor <;> simp only [Params.default] <;> positivity

theorem NonnegP.applyAll {p : Params K} (h : NonnegP p) {xs : List (Params.Setter K)} (hx : ∀ x ∈ xs, Spec.nonneg x) :
    NonnegP (p.applyAll xs) := by
  induction xs generalizing p with
  | nil => exact h
  | cons x xs ih => exact ih (h.apply (hx x (by simp))) (fun y hy => hx y (by simp [hy]))

/-- The members that configure outlier rejection. -/
def rej (p : Params K) : K × K × K × K × K × K × Method × Verbosity :=
  (p.odomThr, p.lcThr, p.odomT, p.odomR, p.distT, p.distR, p.method, p.verbosity)

omit [Field K] [LinearOrder K] in
theorem rej_post {xs : List (Params.Setter K)} (hx : ∀ x ∈ xs, Spec.decides x = false) (p : Params K) :
    rej (p.applyAll xs) = rej p := by
  induction xs generalizing p with
  | nil => rfl
  | cons x xs ih =>
    show rej ((p.apply x).applyAll xs) = _
    rw [ih (fun y hy => hx y (by simp [hy]))]
    have := hx x (by simp)
    cases x <;> first | rfl | cases this

end RPGO

namespace RPGO.Props
open RPGO

section C42
variable {K : Type} [Field K] [LinearOrder K] [IsStrictOrderedRing K] {G C : Type} [Mul G] [Inv G] [One G]

/-- C42, proved part: if no threshold of an earlier call was negative, the method, the thresholds used, which checks
are on and the verbosity are those of the most recent call that chooses a method (whatever its thresholds are),
independently of all calls before it and of the calls after it that do not choose a method. With a negative
threshold in an earlier call this is false: `C42_false`. -/
theorem C42_last_setter_partial (pre post : List (Params.Setter K)) (d : Params.Setter K) (hd : Spec.decides d = true)
    (hpre : ∀ x ∈ pre, Spec.nonneg x) (hpost : ∀ x ∈ post, Spec.decides x = false) (tn rn : G → K) (signed : Bool) :
    ((Params.default.applyAll (pre ++ d :: post)).method = (Params.default.apply d).method) ∧
    (Spec.simple d = true → Spec.SameRejection ((Params.default.applyAll (pre ++ d :: post)).cfgSimple C tn rn signed)
      ((Params.default.apply d).cfgSimple C tn rn signed)) ∧
    (∀ [AddGroup C] (ce : CovEnv G C K), Spec.withCov d = true →
      Spec.SameRejection ((Params.default.applyAll (pre ++ d :: post)).cfgCov ce signed)
        ((Params.default.apply d).cfgCov ce signed)) ∧
    ((∃ v, d = .noRejection v) → ((Params.default.applyAll (pre ++ d :: post)).cfgSimple C tn rn signed).rejection = false) := by
  have hn : NonnegP ((Params.default : Params K).applyAll pre) := NonnegP.default.applyAll hpre
  have hn0 : NonnegP (Params.default : Params K) := NonnegP.default
  have e : (Params.default : Params K).applyAll (pre ++ d :: post) = ((Params.default.applyAll pre).apply d).applyAll post := by
    simp [Params.applyAll]
  have er := rej_post hpost ((Params.default.applyAll pre).apply d)
  rw [← e] at er
  generalize (Params.default : Params K).applyAll (pre ++ d :: post) = q at er
  generalize (Params.default : Params K).applyAll pre = p0 at er hn
  simp only [rej, Prod.mk.injEq] at er
  obtain ⟨e1, e2, e3, e4, e5, e6, e7, e8⟩ := er
  have l1 := not_lt.2 hn.odomThr
  have l2 := not_lt.2 hn.lcThr
  have l3 := not_lt.2 hn.odomT
  have l4 := not_lt.2 hn.odomR
  have l5 := not_lt.2 hn.distT
  have l6 := not_lt.2 hn.distR
  have m1 := not_lt.2 hn0.odomThr
  have m2 := not_lt.2 hn0.lcThr
  have m3 := not_lt.2 hn0.odomT
  have m4 := not_lt.2 hn0.odomR
  have m5 := not_lt.2 hn0.distT
  have m6 := not_lt.2 hn0.distR
  have hv : q.verbosity = (Params.default.apply d).verbosity := by
    rw [e8]; cases d <;> first | rfl | cases hd
  have hdbg : decide (q.verbosity ≠ .quiet) = decide ((Params.default.apply d).verbosity ≠ .quiet) := by rw [hv]
  refine ⟨?_, ?_, ?_, ?_⟩
  · rw [e7]; cases d <;> first | rfl | cases hd
  · intro hs
    cases d <;> first
      | (cases hs; done)
      | (refine ⟨?_, ?_, ?_, ?_, hdbg⟩ <;>
          simp [Params.cfgSimple, Params.cfg, Params.odomCheck, Params.loopCheck, e1, e2, e3, e4, e5, e6, e7, e8,
            Params.apply, l1, l2, m1, m2] <;> rfl)
  · intro _ ce hs
    cases d <;> first
      | (cases hs; done)
      | (refine ⟨?_, ?_, ?_, ?_, hdbg⟩ <;>
          simp [Params.cfgCov, Params.cfg, Params.odomCheck, Params.loopCheck, e1, e2, e3, e4, e5, e6, e7, e8,
            Params.apply, l3, l4, l5, l6, m3, m4, m5, m6] <;> rfl)
  · rintro ⟨v, rfl⟩
    simp [Params.cfgSimple, Params.cfg, e7, Params.apply]

end C42

/-- `setPcm3DParams(-1, 5)`, then `setPcmSimple3DParams(1, 1)`. -/
def leak : Params ℚ := Params.default.applyAll [.pcm3D (-1) 5 .quiet, .simple3D 1 1 .quiet]

set_option maxRecDepth 100000 in
/-- C42 is false: after `setPcm3DParams(-1, 5)` and `setPcmSimple3DParams(1, 1)` a closure a0 → a2 of length 50 over
two unit steps is registered and kept; with the second call only it is rejected. -/
theorem C42_false :
    (∃ s, ReachOk (Demo.mk leak) Demo.env (Demo.h1 ++ [.update [Demo.edge (Demo.a 0) (Demo.a 2) 50] [] true]) s ∧
      Spec.NumLC (Demo.mk leak) Demo.env s 3) ∧
    (∃ s, ReachOk (Demo.mk (Params.default.apply (.simple3D 1 1 .quiet))) Demo.env
        (Demo.h1 ++ [.update [Demo.edge (Demo.a 0) (Demo.a 2) 50] [] true]) s ∧
      Spec.NumLC (Demo.mk (Params.default.apply (.simple3D 1 1 .quiet))) Demo.env s 2) := by
  constructor
  · obtain ⟨s, r, h⟩ := Demo.runs_reach (cfg := Demo.mk leak) (env := Demo.env)
      (ops := Demo.h1 ++ [.update [Demo.edge (Demo.a 0) (Demo.a 2) 50] [] true])
      (P := fun s => decide (s.pcm.totalLc = 3)) (by decide +kernel)
    exact ⟨s, r, (numLC_iff (by decide)).2 (of_decide_eq_true h).symm⟩
  · obtain ⟨s, r, h⟩ := Demo.runs_reach (cfg := Demo.mk (Params.default.apply (.simple3D 1 1 .quiet))) (env := Demo.env)
      (ops := Demo.h1 ++ [.update [Demo.edge (Demo.a 0) (Demo.a 2) 50] [] true])
      (P := fun s => decide (s.pcm.totalLc = 2)) (by decide +kernel)
    exact ⟨s, r, (numLC_iff (by decide)).2 (of_decide_eq_true h).symm⟩

example : (∀ x ∈ [Params.Setter.pcm3D (3 : ℚ) 4 .update, .noRejection .quiet], Spec.nonneg x) ∧
    (∀ x ∈ [Params.Setter.incremental, .gncBiasOdom (K := ℚ)], Spec.decides x = false) := by
  constructor
  · intro x hx
    simp only [List.mem_cons, List.not_mem_nil, or_false] at hx
    rcases hx with rfl | rfl
    · exact ⟨by norm_num, by norm_num⟩
    · trivial
  · intro x hx
    simp only [List.mem_cons, List.not_mem_nil, or_false] at hx
    rcases hx with rfl | rfl <;> rfl

end RPGO.Props
