import Verif.Proofs.LandMatrix
import Verif.Props.Formula
import Verif.Props.Optimize
/-
C52 the consistency of the observations of a landmark.
-/

namespace RPGO.Spec
variable {G T N : Type}

/-- Verdict `v` on the observations `x` and `y` of one landmark in state `s`: go back from the landmark along `y`,
along the odometry from the second observing pose to the first, and along `x` to the landmark again; accept if the
mismatch passes the pairwise thresholds. The odometry is the one reported for the robot of the first pose. -/
def LandCheck (cfg : Cfg G T N) (s : St G T N) (x y : Btw G N) (v : Bool) : Prop :=
  ∃ t nx ny, Reports cfg s (chr x.k1) x.k1 y.k1 t ∧ x.noise = some nx ∧ y.noise = some ny ∧
    v = cfg.ops.loopOk (cfg.ops.compose (cfg.ops.inverse (cfg.ops.compose t (cfg.ops.ofFactor y.m ny))) (cfg.ops.ofFactor x.m nx))

/-- The consistency matrix of landmark `l`. -/
def landMatrix (s : St G T N) (l : Key) : Mat := (lmOf s.pcm l).adj

end RPGO.Spec

namespace RPGO
variable {G T N : Type}

theorem landCheck_of {cfg : Cfg G T N} {s : St G T N} {x y : Btw G N} (hx : x.noise.isSome) (hy : y.noise.isSome) :
    Spec.LandCheck cfg s x y (landVerdict cfg (lk cfg s.pcm) x y) := by
  obtain ⟨nx, ex⟩ := Option.isSome_iff_exists.1 hx
  obtain ⟨ny, ey⟩ := Option.isSome_iff_exists.1 hy
  refine ⟨_, nx, ny, reports_iff.2 rfl, ex, ey, ?_⟩
  simp only [landVerdict, ex, ey, landErr]

theorem landCheck_val {cfg : Cfg G T N} {s : St G T N} {x y : Btw G N} {v : Bool} (h : Spec.LandCheck cfg s x y v) :
    v = landVerdict cfg (lk cfg s.pcm) x y := by
  obtain ⟨t, nx, ny, ht, ex, ey, hv⟩ := h
  rw [hv, reports_iff.1 ht]
  simp only [landVerdict, ex, ey, landErr]

/-- Lookups in the trajectory of a robot at keys of another one are the default pose. -/
theorem OdomRun.foreign {cfg : Cfg G T N} {vals : Vals G} {bs : List (Btw G N)} {p p' : Pcm G T N}
    (h : OdomRun cfg vals bs p p') (hb : ∀ b ∈ bs, chr b.k1 = chr b.k2)
    (hp : ∀ c k, chr k ≠ c → lk cfg p c k = cfg.ops.dflt) : ∀ c k, chr k ≠ c → lk cfg p' c k = cfg.ops.dflt := by
  induction h with
  | nil p => exact hp
  | @cons b n p p1 p1' p2 bs st ht _ _ ih =>
    refine ih (fun b hb' => hb b (by simp [hb'])) fun c k hk => ?_
    rw [lk_congr ht]
    have hb1 := hb b (by simp)
    have h2 : ¬ (c = chr b.k2 ∧ k = b.k2) := by rintro ⟨rfl, rfl⟩; exact hk rfl
    have h1 : ¬ (c = chr b.k2 ∧ k = b.k1) := by rintro ⟨rfl, rfl⟩; exact hk hb1
    rcases st.step with ⟨_, _, e⟩ | ⟨_, _, g, _, e⟩
    · rw [e]; unfold odomLk; rw [if_neg h2]; exact hp c k hk
    · rw [e]; unfold odomLk; rw [if_neg h2]; simp only [if_neg h1]; exact hp c k hk
  | other ht _ _ ih => exact ih hb fun c k hk => by rw [lk_congr ht]; exact hp c k hk

variable [Mul G] [Inv G] [One G]

theorem ReachOk.foreign {cfg : Cfg G T N} {env : Env G N} (hr : cfg.rejection = true) {h : List (Op G N)}
    {s : St G T N} (r : ReachOk cfg env h s) (hb : ∀ b ∈ Spec.odomSoFar cfg h, chr b.k1 = chr b.k2) :
    ∀ c k, chr k ≠ c → lk cfg s.pcm c k = cfg.ops.dflt := by
  revert hb
  refine ReachOk.induct (Inv := fun h p => (∀ b ∈ Spec.odomSoFar cfg h, chr b.k1 = chr b.k2) →
    ∀ c k, chr k ≠ c → lk cfg p c k = cfg.ops.dflt) hr ?_ ?_ r
  · intro _ c k _; rfl
  · intro h s op s' x _ _ ih st hb
    have hso : Spec.odomSoFar cfg (h ++ [op]) = Spec.odomSoFar cfg h ++ Spec.opOdom cfg op := by simp [Spec.odomSoFar]
    rw [hso] at hb
    have ih := ih fun b hb' => hb b (by simp [hb'])
    generalize s'.pcm = q at st
    cases st with
    | other hb he => intro c k hk; rw [lk_congr he.trajs]; exact ih c k hk
    | none hb => exact ih
    | cands hbt hne hi hS ht hsel hro =>
      rename_i fs vs v1 p1 q p2 ro
      have e : Spec.opOdom cfg op = Spec.odoms cfg vs fs := by simp [Spec.opOdom, hbt]
      have hlk : lk cfg { p2 with robotOrder := ro } = lk cfg p1 :=
        Eq.trans (b := lk cfg p2) (lk_congr rfl) (lk_processed ht hsel)
      intro c k hk
      rw [hlk]
      exact hS.run.foreign (fun b hb' => hb b (by rw [e]; exact List.mem_append_right _ hb')) ih c k hk

theorem Chains.inside {G : Type} [Group G] {C T : Type} {cfg : Cfg G T (GNoise C)} {start : Chr → Key} {h : List (Op G (GNoise C))}
    (hc : Spec.Chains cfg start h) : ∀ b ∈ Spec.odomSoFar cfg h, chr b.k1 = chr b.k2 := by
  intro b hb
  obtain ⟨h0, ch, _⟩ := hc (chr b.k2)
  have hm : b ∈ Spec.robotOdom cfg (chr b.k2) h := List.mem_filter.2 ⟨hb, by simp⟩
  obtain ⟨i, hi⟩ := List.mem_iff_getElem?.1 hm
  have hlt := (List.getElem?_eq_some_iff.1 hi).1
  rw [(Chain.get ch i hi).1]
  exact Props.after_chr ch h0 Props.robotOdom_chr (by omega)

end RPGO

namespace RPGO.Props
open RPGO

section
variable {G T N : Type} [Mul G] [Inv G] [One G]

/-- C52, partial: as long as no observation of the landmark is written from the landmark to the pose, its matrix has one
row per observation, is symmetric with zero diagonal, and entry `(i, j)` with `i < j` is the verdict on observations
`i` and `j` in the state after the call that brought observation `j`. Calls that threw are included. Missing:
observations written from the landmark to the pose, for which it is false (`C52_false_reversed`). -/
theorem C52_matrix_partial {cfg : Cfg G T N} {env : Env G N} (hr : cfg.rejection = true)
    {h : List (Op G N)} {s : St G T N} (r : Reach cfg env h s) (l : Key)
    (hf : ∀ x ∈ Spec.observed s l, x.k1 ≠ l ∧ x.noise.isSome) (hne : Spec.observed s l ≠ []) :
    (Spec.landMatrix s l).n = (Spec.observed s l).length ∧
    (∀ i j, i < (Spec.observed s l).length → j < (Spec.observed s l).length →
      (Spec.landMatrix s l).e i j = (Spec.landMatrix s l).e j i) ∧
    (∀ i, i < (Spec.observed s l).length → (Spec.landMatrix s l).e i i = false) ∧
    ∀ i j x y, i < j → (Spec.observed s l)[i]? = some x → (Spec.observed s l)[j]? = some y →
      ∃ h1 op h2 s1 s2, h = h1 ++ op :: h2 ∧ Reach cfg env h1 s1 ∧ Spec.Call cfg env op s1 s2 ∧
        Spec.Steps cfg env s2 h2 s ∧ y ∈ Spec.opBtws op ∧ (Spec.observed s2 l)[i]? = some x ∧
        (Spec.observed s2 l)[j]? = some y ∧ Spec.LandCheck cfg s2 x y ((Spec.landMatrix s l).e i j) := by
  obtain ⟨hs, ho⟩ := r.landMatrix hr l fun x hx => (hf x hx).1
  refine ⟨hs.size.resolve_left hne, hs.sym, hs.diag, fun i j x y hij hx hy => ?_⟩
  obtain ⟨h1, op, h2, s1, s2, a, b, c, d, e, f, g, v⟩ := ho i j x y hij hx hy
  refine ⟨h1, op, h2, s1, s2, a, b, c, d, e, f, g, ?_⟩
  unfold Spec.landMatrix
  rw [v]
  exact landCheck_of (hf x (List.mem_of_getElem? hx)).2 (hf y (List.mem_of_getElem? hy)).2

end

section
variable {G : Type} [Mul G] [Inv G] [One G] {C K : Type} [Field K] [LinearOrder K]

/-- C52, partial: two observations of a landmark by one robot from positions `i` and `j` of its odometry are accepted exactly
if the mismatch around the cycle, averaged over its measurements, is below both pairwise thresholds. Missing: two
observations by different robots (`C52_two_robots`, `C52_false_two_robots`). -/
theorem C52_check_partial {G : Type} [Group G] (p : Params K) (tn rn : G → K) (signed : Bool) (hm : p.method ≠ .none)
    {env : Env G (GNoise C)} {h : List (Op G (GNoise C))} {s : St G (PNode G) (GNoise C)}
    (r : ReachOk (p.cfgSimple C tn rn signed) env h s) {start : Chr → Key}
    (hc : Spec.Chains (p.cfgSimple C tn rn signed) start h) {c : Chr} {L : List (Btw G (GNoise C))}
    (hL : L = Spec.robotOdom (p.cfgSimple C tn rn signed) c h) {x y : Btw G (GNoise C)} {i j : Nat}
    (hi : Spec.At c (start c) L x.k1 i) (hj : Spec.At c (start c) L y.k1 j) (hx : x.noise.isSome) (hy : y.noise.isSome) :
    ∃ v, Spec.LandCheck (p.cfgSimple C tn rn signed) s x y v ∧
      (v = true ↔ Spec.Below tn rn p.distT p.distR ((Spec.rel L i j * y.m)⁻¹ * x.m) (Spec.hops i j + 2)
        (Spec.Rot (L.take (max i j)) ∧ Spec.Rot [x, y])) := by
  subst hL
  refine ⟨_, landCheck_of hx hy, ?_⟩
  obtain ⟨nx, ex⟩ := Option.isSome_iff_exists.1 hx
  obtain ⟨ny, ey⟩ := Option.isSome_iff_exists.1 hy
  unfold landVerdict
  rw [ex, ey]
  set L := Spec.robotOdom (p.cfgSimple C tn rn signed) c h with hL
  have e : landErr (p.cfgSimple C tn rn signed) (lk (p.cfgSimple C tn rn signed) s.pcm) x y nx ny =
      (⟨(Spec.rel L i j * y.m)⁻¹ * x.m, ((Spec.hops i j + 2 : Nat) : Int),
        rotAll (L.take (max i j)) && !ny.rotNaN && !nx.rotNaN⟩ : PNode G) := by
    unfold landErr
    rw [hi.1, r.rel hm hc hi hj]
    show (⟨_, _, _⟩ : PNode G) = _
    congr 1
  simp only
  rw [e]
  refine (check_iff tn rn p.distT p.distR _ (Spec.hops i j + 2) (by omega) _).trans ?_
  have hrot : ((rotAll (L.take (max i j)) && !ny.rotNaN && !nx.rotNaN) = true) =
      (Spec.Rot (L.take (max i j)) ∧ Spec.Rot [x, y]) := by
    simp only [Bool.and_eq_true, rotAll_iff]
    simp [Spec.Rot, ex, ey]
    tauto
  rw [hrot]

/-- C52 for two observations by different robots, as the code does it: the position of the second robot plays no role. The second
observation `y` is taken as if made from the origin, and compared with the first one made from the absolute pose `g0` times
the odometry of the first robot; `g0` is the start of the first robot's trajectory. -/
theorem C52_two_robots {G : Type} [Group G] (p : Params K) (tn rn : G → K) (signed : Bool) (hm : p.method ≠ .none)
    {env : Env G (GNoise C)} {h : List (Op G (GNoise C))} {s : St G (PNode G) (GNoise C)}
    (r : ReachOk (p.cfgSimple C tn rn signed) env h s)
    (hc : Spec.Chains (p.cfgSimple C tn rn signed) (fun c => symKey c 0) h) {c : Chr} {L : List (Btw G (GNoise C))}
    (hL : L = Spec.robotOdom (p.cfgSimple C tn rn signed) c h) :
    ∃ g0, ∀ (x y : Btw G (GNoise C)) (i : Nat), Spec.At c (symKey c 0) L x.k1 i → chr y.k1 ≠ c → x.noise.isSome → y.noise.isSome →
      ∃ v, Spec.LandCheck (p.cfgSimple C tn rn signed) s x y v ∧
        (v = true ↔ Spec.Below tn rn p.distT p.distR (y.m⁻¹ * (g0 * Spec.measProd (L.take i)) * x.m) (i + 2)
          (Spec.Rot (L.take i) ∧ Spec.Rot [x, y])) := by
  subst hL
  have hr : (p.cfgSimple C tn rn signed).rejection = true := by simp [Params.cfgSimple, Params.cfg, hm]
  have hfor := r.foreign hr (Chains.inside hc)
  obtain ⟨h0, ch, hl⟩ := hc c
  obtain ⟨w, u⟩ := r.walked hr c (symKey c 0) ch hl
  have hwn := fun t (bs : List (Btw G (GNoise C))) hn => walk_node (p.cfgSimple C tn rn signed).ops rfl rfl t bs hn
  set L := Spec.robotOdom (p.cfgSimple C tn rn signed) c h with hLd
  obtain ⟨t0, ht0, hw⟩ : ∃ t0 : PNode G, (t0.node = 0 ∧ t0.rot = true) ∧ ∀ j, j ≤ L.length →
      lk (p.cfgSimple C tn rn signed) s.pcm c (Spec.after (symKey c 0) j) = walk (p.cfgSimple C tn rn signed).ops t0 (L.take j) := by
    by_cases hL : L = []
    · refine ⟨PNode.dflt, ⟨rfl, rfl⟩, fun j _ => ?_⟩
      rw [u hL, hL]
      simp [walk]
      rfl
    · obtain ⟨t0, ht, hw⟩ := w.walk
      refine ⟨t0, ?_, hw⟩
      rcases ht hL with rfl | ⟨g, rfl⟩
      · exact ⟨rfl, rfl⟩
      · exact ⟨rfl, rfl⟩
  refine ⟨t0.pose, fun x y i hi hd hx hy => ⟨_, landCheck_of hx hy, ?_⟩⟩
  obtain ⟨nx, ex⟩ := Option.isSome_iff_exists.1 hx
  obtain ⟨ny, ey⟩ := Option.isSome_iff_exists.1 hy
  unfold landVerdict
  rw [ex, ey]
  have hk : ∀ d : Chr, rootKey d = symKey d 0 ∧ chr (symKey d 0) = d := by decide +kernel
  have f1 : lk (p.cfgSimple C tn rn signed) s.pcm c (rootKey c) = t0 := by
    have := hw 0 (Nat.zero_le _)
    have h0 : Spec.after (symKey c 0) 0 = symKey c 0 := by simp [Spec.after]
    rw [h0] at this
    rw [(hk c).1, this]
    rfl
  have f2 : lk (p.cfgSimple C tn rn signed) s.pcm c x.k1 =
      ⟨t0.pose * Spec.measProd (L.take i), (i : Int), rotAll (L.take i)⟩ := by
    rw [hi.2.2, hw i hi.2.1, hwn t0 _ (fun b hb => w.noise b (List.mem_of_mem_take hb)), ht0.1, ht0.2]
    simp [hi.2.1]
  have f3 : lk (p.cfgSimple C tn rn signed) s.pcm c (rootKey (chr y.k1)) = PNode.dflt :=
    hfor c _ (by rw [(hk _).1, (hk _).2]; exact hd)
  have f4 : lk (p.cfgSimple C tn rn signed) s.pcm c y.k1 = PNode.dflt := hfor c _ hd
  have e : landErr (p.cfgSimple C tn rn signed) (lk (p.cfgSimple C tn rn signed) s.pcm) x y nx ny =
      (⟨y.m⁻¹ * (t0.pose * Spec.measProd (L.take i)) * x.m, ((i + 2 : Nat) : Int),
        rotAll (L.take i) && !ny.rotNaN && !nx.rotNaN⟩ : PNode G) := by
    unfold landErr btwn
    rw [hi.1, if_neg (Ne.symm hd), f1, f2, f3, f4]
    show (⟨_, _, _⟩ : PNode G) = _
    obtain ⟨g0, n0, r0⟩ := t0
    obtain ⟨rfl, rfl⟩ := ht0
    congr 1
    · simp [Params.cfgSimple, Params.cfg, PNode.ops, PNode.compose, PNode.inverse, PNode.between, PNode.ofFactor, PNode.dflt]
    · simp [Params.cfgSimple, Params.cfg, PNode.ops, PNode.compose, PNode.inverse, PNode.between, PNode.ofFactor, PNode.dflt]
      omega
    · simp [Params.cfgSimple, Params.cfg, PNode.ops, PNode.compose, PNode.inverse, PNode.between, PNode.ofFactor, PNode.dflt]
  simp only
  rw [e]
  refine (check_iff tn rn p.distT p.distR _ (i + 2) (by omega) _).trans ?_
  have hrot : ((rotAll (L.take i) && !ny.rotNaN && !nx.rotNaN) = true) = (Spec.Rot (L.take i) ∧ Spec.Rot [x, y]) := by
    simp only [Bool.and_eq_true, rotAll_iff]
    simp [Spec.Rot, ex, ey]
    tauto
  rw [hrot]

end

/-- Odometry a0 → a1 → a2, a landmark seen from a0, then seen from a1 with the factor written from the landmark to a1. -/
def seenBackwards : List (Op Demo.Z Demo.Ns) :=
  [.update [Demo.edge (Demo.a 0) (Demo.a 1) 1, Demo.edge (Demo.a 1) (Demo.a 2) 1]
     [Demo.pose (Demo.a 0) 0, Demo.pose (Demo.a 1) 1, Demo.pose (Demo.a 2) 2] true,
   .update [Demo.edge (Demo.a 0) (Demo.l 1) 5] [Demo.pose (Demo.l 1) 5] true,
   .update [Demo.edge (Demo.l 1) (Demo.a 1) (-4)] [] true]

set_option maxRecDepth 100000 in
/-- C52 is false for an observation written from the landmark to the pose: it is registered but gets no row in the matrix, and
the next observation of the landmark makes Eigen access the matrix outside its size. -/
theorem C52_false_reversed : ∃ s, ReachOk demoLandmarks Demo.env seenBackwards s ∧
    (Spec.observed s (Demo.l 1)).length = 2 ∧ (Spec.landMatrix s (Demo.l 1)).n = 1 ∧
    exec demoLandmarks Demo.env (.update [Demo.edge (Demo.a 2) (Demo.l 1) 3] [] true) s = .ub .eigen := by
  obtain ⟨s, r, h⟩ := Demo.runs_reach (cfg := demoLandmarks) (env := Demo.env) (ops := seenBackwards)
    (P := fun s => decide ((Spec.observed s (Demo.l 1)).length = 2 ∧ (Spec.landMatrix s (Demo.l 1)).n = 1) &&
      isEigen (exec demoLandmarks Demo.env (.update [Demo.edge (Demo.a 2) (Demo.l 1) 3] [] true) s)) (by decide +kernel)
  rw [Bool.and_eq_true] at h
  have h1 := of_decide_eq_true h.1
  exact ⟨s, r, h1.1, h1.2, of_isEigen h.2⟩

/-- Robot a at 0 and 1, robot b at 5 and 6, a landmark at 10 seen from a1; then an observation from b1 of length `d`. -/
def seenByTwo (d : ℤ) : List (Op Demo.Z Demo.Ns) :=
  twoRobots ++ [.update [Demo.edge (Demo.a 1) (Demo.l 1) 9] [Demo.pose (Demo.l 1) 10] true,
    .update [Demo.edge (Demo.b 1) (Demo.l 1) d] [] true]

set_option maxRecDepth 100000 in
/-- C52 is false for two robots: the exact observation (length 4) from the second robot is rejected, and one that is wrong by 6
(length 10) is accepted. -/
theorem C52_false_two_robots :
    (∃ s, ReachOk demoLandmarks Demo.env (seenByTwo 4) s ∧ (Spec.observed s (Demo.l 1)).length = 2 ∧
      (Spec.landMatrix s (Demo.l 1)).e 0 1 = false) ∧
    ∃ s, ReachOk demoLandmarks Demo.env (seenByTwo 10) s ∧ (Spec.observed s (Demo.l 1)).length = 2 ∧
      (Spec.landMatrix s (Demo.l 1)).e 0 1 = true := by
  refine ⟨?_, ?_⟩
  · obtain ⟨s, r, h⟩ := Demo.runs_reach (cfg := demoLandmarks) (env := Demo.env) (ops := seenByTwo 4)
      (P := fun s => decide ((Spec.observed s (Demo.l 1)).length = 2 ∧ (Spec.landMatrix s (Demo.l 1)).e 0 1 = false))
      (by decide +kernel)
    exact ⟨s, r, of_decide_eq_true h⟩
  · obtain ⟨s, r, h⟩ := Demo.runs_reach (cfg := demoLandmarks) (env := Demo.env) (ops := seenByTwo 10)
      (P := fun s => decide ((Spec.observed s (Demo.l 1)).length = 2 ∧ (Spec.landMatrix s (Demo.l 1)).e 0 1 = true))
      (by decide +kernel)
    exact ⟨s, r, of_decide_eq_true h⟩

set_option maxRecDepth 100000 in
/-- The hypotheses of `C52_matrix_partial`, `C52_check_partial` and `C52_two_robots`: two observations of a landmark by one robot
whose odometry is a chain from index 0, under parameters with landmark prefix l. -/
example : demoLandmarks = Demo.mk { Demo.params with special := [108] } ∧
    Spec.Chains demoLandmarks (fun c => symKey c 0) seenAgain ∧
    Spec.At 97 (symKey 97 0) (Spec.robotOdom demoLandmarks 97 seenAgain) (Demo.a 1) 1 ∧
    ∃ s, ReachOk demoLandmarks Demo.env seenAgain s ∧
      Spec.observed s (Demo.l 1) = [Demo.btw (Demo.a 0) (Demo.l 1) 5, Demo.btw (Demo.a 1) (Demo.l 1) 4] ∧
      (Spec.landMatrix s (Demo.l 1)).e 0 1 = true := by
  refine ⟨rfl, chains_of (by decide +kernel), ⟨by decide, by decide +kernel, by decide +kernel⟩, ?_⟩
  obtain ⟨s, r, h⟩ := Demo.runs_reach (cfg := demoLandmarks) (env := Demo.env) (ops := seenAgain)
    (P := fun s => decide (Spec.observed s (Demo.l 1) = [Demo.btw (Demo.a 0) (Demo.l 1) 5, Demo.btw (Demo.a 1) (Demo.l 1) 4] ∧
      (Spec.landMatrix s (Demo.l 1)).e 0 1 = true)) (by decide +kernel)
  exact ⟨s, r, of_decide_eq_true h⟩

end RPGO.Props
