import Verif.Proofs.Convert
import Verif.Props.Units
import Verif.Props.Order
/-
C83: with the simple methods the covariances do not influence what is accepted.
-/

namespace RPGO.Spec
variable {G T1 T2 C C1 C2 : Type} [Group G]

/-- The two solvers hold the same measurements, one with covariances `ν1`, the other with covariances `ν2`: the odometry and the factors that are
not closures come first, in the same order, then the same selected closures and observations, possibly in another order. They registered and
accepted the same closures and observations, store the same matrices, know the same keys and return the same counts. -/
structure SameUpToNoise (ν1 : GNoise C → GNoise C1) (ν2 : GNoise C → GNoise C2) (c1 : Cfg G T1 (GNoise C1)) (c2 : Cfg G T2 (GNoise C2))
    (e1 : Env G (GNoise C1)) (e2 : Env G (GNoise C2)) (s1 : St G T1 (GNoise C1)) (s2 : St G T2 (GNoise C2)) : Prop where
  graph : ∃ first rest1 rest2, s1.nfg = cvGraph id ν1 (first ++ rest1) ∧ s2.nfg = cvGraph id ν2 (first ++ rest2) ∧ rest1.Perm rest2 ∧
    first.length = s1.pcm.odom.length + s1.pcm.special.length
  keys : s1.values.keys = s2.values.keys
  registered : ∀ id', ∃ L : List (Btw G (GNoise C)), Spec.registered s1 id' = L.map (cvBtw id ν1) ∧ Spec.registered s2 id' = L.map (cvBtw id ν2)
  matrix : ∀ id', Spec.matrix s1 id' = Spec.matrix s2 id'
  selected : ∀ id', ∃ L : List (Btw G (GNoise C)), Spec.selected s1 id' = L.map (cvBtw id ν1) ∧ Spec.selected s2 id' = L.map (cvBtw id ν2)
  observed : ∀ l, ∃ L : List (Btw G (GNoise C)), Spec.observed s1 l = L.map (cvBtw id ν1) ∧ Spec.observed s2 l = L.map (cvBtw id ν2)
  accepted : ∀ l, ∃ L : List (Btw G (GNoise C)), Spec.acceptedOf s1 l = L.map (cvBtw id ν1) ∧ Spec.acceptedOf s2 l = L.map (cvBtw id ν2)
  count : ∀ n, Spec.NumLC c1 e1 s1 n ↔ Spec.NumLC c2 e2 s2 n
  inliers : c1.useGnc = false → c2.useGnc = false → ∀ n, Spec.NumInliers c1 e1 s1 n ↔ Spec.NumInliers c2 e2 s2 n

end RPGO.Spec

namespace RPGO
open Spec
variable {G T C C' N N' V K : Type}

theorem cvVal_id (v : Val G) : cvVal id v = v := by cases v <;> rfl

theorem cvVals_id (v : Vals G) : cvVals id v = v := by
  unfold cvVals cvMap
  conv_rhs => rw [← List.map_id v]
  refine List.map_congr_left fun e _ => ?_
  rw [cvVal_id]; rfl

/-- Every permutation of an image comes from one of the list. -/
theorem perm_lift {α β : Type} (f : α → β) {m : List β} : ∀ {l : List α}, m.Perm (l.map f) → ∃ l' : List α, l'.Perm l ∧ l'.map f = m := by
  induction m with
  | nil =>
    intro l h
    have : l = [] := by simpa using h.symm.eq_nil
    exact ⟨[], by rw [this], rfl⟩
  | cons b m ih =>
    intro l h
    obtain ⟨a, ha, rfl⟩ := List.mem_map.1 (h.mem_iff.1 List.mem_cons_self)
    obtain ⟨l1, l2, rfl⟩ := List.append_of_mem ha
    have h' : (f a :: m).Perm (f a :: (l1 ++ l2).map f) := by
      refine h.trans ?_
      rw [List.map_append, List.map_cons, List.map_append]
      exact List.perm_middle
    obtain ⟨l', hp, rfl⟩ := ih (List.perm_cons _ |>.1 h')
    exact ⟨a :: l', (hp.cons a).trans List.perm_middle.symm, rfl⟩

/-- External functions on labelled problems that do what those on the relabelled problems do. -/
theorem pull_back (ν : N → N') {e' : Env G N'} (he : e'.Ok) (align : Bool) :
    ∃ e : Env G N, e.Ok ∧ Converted id ν align e e' := by
  classical
  have h1 : ∀ l : List (ObsId × Meas G N), ∃ l' : List (ObsId × Meas G N), l'.Perm l ∧ l'.map (fun e => (e.1, cvMeas id ν e.2)) = e'.iterLC (l.map fun e => (e.1, cvMeas id ν e.2)) :=
    fun l => perm_lift _ (he.lc _)
  have h2 : ∀ l : List (Key × Meas G N), ∃ l' : List (Key × Meas G N), l'.Perm l ∧ l'.map (fun e => (e.1, cvMeas id ν e.2)) = e'.iterLM (l.map fun e => (e.1, cvMeas id ν e.2)) :=
    fun l => perm_lift _ (he.lm _)
  refine ⟨⟨fun g v => e'.opt (cvGraph id ν g) v, fun g v k i => e'.gnc (cvGraph id ν g) v k i, e'.avg,
    fun l => (h1 l).choose, fun l => (h2 l).choose⟩, ⟨fun l => (h1 l).choose_spec.1, fun l => (h2 l).choose_spec.1⟩, ?_⟩
  refine ⟨fun g v => ?_, fun g v k i => ?_, fun _ l => ?_, fun l => (h1 l).choose_spec.2.symm, fun l => (h2 l).choose_spec.2.symm⟩
  · show _ = Option.map (cvVals id) (e'.opt (cvGraph id ν g) v)
    rw [cvVals_id, show (cvVals id : Vals G → Vals G) = id from funext cvVals_id, Option.map_id]; rfl
  · show _ = Option.map _ (e'.gnc (cvGraph id ν g) v k i)
    simp only [cvVals_id]
    cases e'.gnc (cvGraph id ν g) v k i <;> rfl
  · show e'.avg (l.map id) = Option.map id (e'.avg l)
    rw [List.map_id, Option.map_id]; rfl

variable [Group G] [Field K] [LinearOrder K]

theorem noise_hom {ν : GNoise C → GNoise C'} (hν : SameRot ν) (p : Params K) (tn rn : G → K) (signed : Bool) :
    CfgHom (MonoidHom.id G) ν id (p.cfgSimple C tn rn signed) (p.cfgSimple C' tn rn signed) where
  ops := {
    dflt := rfl
    ofPose := fun g => rfl
    ofFactor := fun g n => by
      show (⟨g, 1, !(ν n).rotNaN⟩ : PNode G) = ⟨g, 1, !n.rotNaN⟩
      rw [hν]
    compose := fun a b => rfl
    inverse := fun a => rfl
    between := fun a b => rfl
    pose := fun a => rfl
    odomOk := fun a => rfl
    loopOk := fun a => rfl }
  rejection := rfl
  special := rfl
  odomCheck := rfl
  loopCheck := rfl
  incremental := rfl
  align := rfl
  lm := rfl
  debug := rfl
  log := rfl
  useGnc := rfl
  fixPrev := rfl
  biasOdom := rfl
  charSigned := rfl

end RPGO

namespace RPGO.Props
open RPGO Spec
variable {G C C1 C2 K : Type} [Group G] [Field K] [LinearOrder K]

/-- C83: with PCM_Simple2D / 3D, two solvers that get the same measurements, one with covariances `ν1`, the other with covariances `ν2` (any two
assignments of noise models to labels; every measurement may have a label of its own), register and accept the same closures and observations,
hold the same measurements up to the order of the selected ones, and return the same counts, whatever the optimizer makes of the covariances, the
order in which hash tables are traversed, and the initial values; provided the same measurements have rotation information, and under the
conditions of C58. -/
theorem C83_noise (p : Params K) (tn rn : G → K) (signed : Bool) (hm : p.method ≠ .none) {ν1 : GNoise C → GNoise C1} (hν1 : SameRot ν1)
    {ν2 : GNoise C → GNoise C2} (hν2 : SameRot ν2) (owner : Key → Chr) (hown : ∀ l, owner l ∉ p.special)
    {e1 : Env G (GNoise C1)} {e2 : Env G (GNoise C2)} (he1 : e1.Ok) (he2 : e2.Ok) {h1 h2 : List (Op G (GNoise C))} (hc : SameGraphCalls h1 h2)
    (hman : ∀ op ∈ h1, Managed op) (hob : OneObserver (p.cfgSimple C tn rn signed) owner h1) (start : Chr → Key)
    (hch : Chains (p.cfgSimple C tn rn signed) start h1) (hon : OnOdometry (p.cfgSimple C tn rn signed) start h1)
    {s1 : St G (PNode G) (GNoise C1)} {s2 : St G (PNode G) (GNoise C2)}
    (r1 : ReachOk (p.cfgSimple C1 tn rn signed) e1 (h1.map (cvOp id ν1)) s1)
    (r2 : ReachOk (p.cfgSimple C2 tn rn signed) e2 (h2.map (cvOp id ν2)) s2) :
    SameUpToNoise ν1 ν2 (p.cfgSimple C1 tn rn signed) (p.cfgSimple C2 tn rn signed) e1 e2 s1 s2 := by
  obtain ⟨d1, hd1, cv1⟩ := pull_back ν1 he1 p.align
  obtain ⟨d2, hd2, cv2⟩ := pull_back ν2 he2 p.align
  obtain ⟨t1, q1, rfl⟩ := reachOk_back (noise_hom hν1 p tn rn signed) cv1 r1 h1 rfl
  obtain ⟨t2, q2, rfl⟩ := reachOk_back (noise_hom hν2 p tn rn signed) cv2 r2 h2 rfl
  have h := C70_guess_partial p tn rn signed hm owner hown hd1 hd2 hc hman hob start hch hon q1 q2
  have hr1 : (p.cfgSimple C1 tn rn signed).rejection = true := by simp [Params.cfgSimple, Params.cfg, hm]
  have hr2 : (p.cfgSimple C2 tn rn signed).rejection = true := by simp [Params.cfgSimple, Params.cfg, hm]
  have hr : (p.cfgSimple C tn rn signed).rejection = true := by simp [Params.cfgSimple, Params.cfg, hm]
  obtain ⟨first, rest1, rest2, g1, g2, gp, gl⟩ := h.graph
  have hlc : ∀ {C' : Type} (ν : GNoise C → GNoise C') (t : St G (PNode G) (GNoise C)) (i : ObsId),
      lcOf (cvSt (MonoidHom.id G) ν id t).pcm i = cvMeas id ν (lcOf t.pcm i) := fun ν t i => lcOf_cv t.pcm i
  have hlm : ∀ {C' : Type} (ν : GNoise C → GNoise C') (t : St G (PNode G) (GNoise C)) (k : Key),
      lmOf (cvSt (MonoidHom.id G) ν id t).pcm k = cvMeas id ν (lmOf t.pcm k) := fun ν t k => lmOf_cv t.pcm k
  have hkeys : ∀ {C' : Type} (ν : GNoise C → GNoise C') (t : St G (PNode G) (GNoise C)),
      (cvSt (MonoidHom.id G) ν id t).values = t.values := fun ν t => cvVals_id t.values
  refine ⟨⟨first, rest1, rest2, ?_, ?_, gp, ?_⟩, ?_, fun i => ?_, fun i => ?_, fun i => ?_, fun l => ?_, fun l => ?_, fun n => ?_, fun u1 u2 n => ?_⟩
  · rw [← g1]; rfl
  · rw [← g2]; rfl
  · rw [gl]
    show _ = (t1.pcm.odom.map _).length + (t1.pcm.special.map _).length
    rw [List.length_map, List.length_map]
  · rw [hkeys, hkeys]; exact h.keys
  · refine ⟨Spec.registered t1 i, ?_, ?_⟩
    · unfold Spec.registered; rw [hlc]; rfl
    · rw [h.registered i]; unfold Spec.registered; rw [hlc]; rfl
  · have := h.matrix i
    unfold Spec.matrix at this ⊢
    rw [hlc, hlc]; exact this
  · refine ⟨Spec.selected t1 i, ?_, ?_⟩
    · unfold Spec.selected; rw [hlc]; rfl
    · rw [h.selected i]; unfold Spec.selected; rw [hlc]; rfl
  · refine ⟨Spec.observed t1 l, ?_, ?_⟩
    · unfold Spec.observed; rw [hlm]; rfl
    · rw [h.observed l]; unfold Spec.observed; rw [hlm]; rfl
  · refine ⟨Spec.acceptedOf t1 l, ?_, ?_⟩
    · unfold Spec.acceptedOf; rw [hlm]; rfl
    · rw [h.accepted l]; unfold Spec.acceptedOf; rw [hlm]; rfl
  · have := h.count n
    rw [numLC_iff hr, numLC_iff hr] at this
    rw [numLC_iff hr1, numLC_iff hr2]
    exact this
  · have := h.inliers u1 u2 n
    rw [numInliers_iff hr u1, numInliers_iff hr u2] at this
    rw [numInliers_iff hr1 u1, numInliers_iff hr2 u2]
    exact this

/-- The covariance of measurement `i` is `i` for one user and `5 * i + 1` for the other. -/
def covs1 (n : GNoise ℕ) : GNoise ℚ := ⟨n.cov, n.rotNaN⟩
def covs2 (n : GNoise ℕ) : GNoise ℚ := ⟨5 * n.cov + 1, n.rotNaN⟩

/-- Measurement `i` of length `d`. -/
def labelled (i : ℕ) (k1 k2 : Key) (d : ℤ) : Option (Factor Demo.Z (GNoise ℕ)) := some (.btw ⟨k1, k2, Demo.z d, some ⟨i, false⟩⟩)

/-- Unit steps a0 → a1 → a2 → a3, then two closures that agree and one that is far off. -/
def labelledRun : List (Op Demo.Z (GNoise ℕ)) :=
  [.update [some (.prior (Demo.a 0) (Demo.z 0)), labelled 0 (Demo.a 0) (Demo.a 1) 1, labelled 1 (Demo.a 1) (Demo.a 2) 1,
      labelled 2 (Demo.a 2) (Demo.a 3) 1]
    [Demo.pose (Demo.a 0) 0, Demo.pose (Demo.a 1) 1, Demo.pose (Demo.a 2) 2, Demo.pose (Demo.a 3) 3] true,
   .update [labelled 3 (Demo.a 0) (Demo.a 2) 2, labelled 4 (Demo.a 0) (Demo.a 3) 3, labelled 5 (Demo.a 1) (Demo.a 3) 9] [] true]

/-- An optimizer that returns its initial values. -/
def idleEnv (N : Type) : Env Demo.Z N where
  opt _ v := some v
  gnc g v _ _ := some (v, List.replicate g.length 1)
  avg l := l.head?
  iterLC l := l
  iterLM l := l

theorem idleEnv_ok (N : Type) : (idleEnv N).Ok := ⟨fun _ => List.Perm.refl _, fun _ => List.Perm.refl _⟩

set_option maxRecDepth 100000 in
/-- The hypotheses of `C83_noise` are met by a run with accepted and rejected closures. -/
example : ∃ s1 s2, SameRot covs1 ∧ SameRot covs2 ∧ SameGraphCalls labelledRun labelledRun ∧ (∀ op ∈ labelledRun, Managed op) ∧
    OneObserver (Demo.params.cfgSimple ℕ Demo.len (fun _ => 0) true) (fun _ => 97) labelledRun ∧
    Chains (Demo.params.cfgSimple ℕ Demo.len (fun _ => 0) true) (fun c => symKey c 0) labelledRun ∧
    OnOdometry (Demo.params.cfgSimple ℕ Demo.len (fun _ => 0) true) (fun c => symKey c 0) labelledRun ∧
    ReachOk (Demo.params.cfgSimple ℚ Demo.len (fun _ => 0) true) (idleEnv _) (labelledRun.map (cvOp id covs1)) s1 ∧
    ReachOk (Demo.params.cfgSimple ℚ Demo.len (fun _ => 0) true) (idleEnv _) (labelledRun.map (cvOp id covs2)) s2 ∧
    (registered s1 ⟨97, 97⟩).map (fun b => b.noise.map GNoise.cov) = [some 3, some 4] ∧
    (registered s2 ⟨97, 97⟩).map (fun b => b.noise.map GNoise.cov) = [some 16, some 21] := by
  obtain ⟨s1, r1, e1⟩ := Demo.runs_reach (cfg := Demo.params.cfgSimple ℚ Demo.len (fun _ => 0) true) (env := idleEnv _)
    (ops := labelledRun.map (cvOp id covs1))
    (P := fun s => decide ((registered s ⟨97, 97⟩).map (fun b => b.noise.map GNoise.cov) = [some 3, some 4])) (by decide +kernel)
  obtain ⟨s2, r2, e2⟩ := Demo.runs_reach (cfg := Demo.params.cfgSimple ℚ Demo.len (fun _ => 0) true) (env := idleEnv _)
    (ops := labelledRun.map (cvOp id covs2))
    (P := fun s => decide ((registered s ⟨97, 97⟩).map (fun b => b.noise.map GNoise.cov) = [some 16, some 21])) (by decide +kernel)
  refine ⟨s1, s2, fun _ => rfl, fun _ => rfl,
    .both (h1 := [_]) (h2 := [_]) (.both (h1 := []) (h2 := []) .nil (Or.inl rfl)) (Or.inl rfl), ?_, ?_, chains_of (by decide +kernel),
    onOdometry_of (by decide +kernel), r1, r2, of_decide_eq_true e1, of_decide_eq_true e2⟩
  · intro op ho; simp [labelledRun] at ho; rcases ho with rfl | rfl <;> trivial
  · intro op _ b _ hb
    exact absurd hb (by simp [Params.cfgSimple, Params.cfg, Demo.params, Params.apply, Params.default])

/-- Whether the rotation part of a covariance is NaN for the label 1. -/
def known1 (n : GNoise ℕ) : GNoise ℚ := ⟨1, n.rotNaN⟩
def known2 (n : GNoise ℕ) : GNoise ℚ := ⟨1, n.rotNaN || n.cov == 5⟩

set_option maxRecDepth 100000 in
/-- C83 needs the condition on rotation information: if the rotation part of the covariance of a closure is NaN, its rotation error is taken to
be zero, and the closure is accepted. (Poses are angles here.) -/
theorem C83_false_nan : ∃ s1 s2,
    ReachOk (Demo.params.cfgSimple ℚ (fun _ => 0) Demo.len true) (idleEnv _) (labelledRun.map (cvOp id known1)) s1 ∧
    ReachOk (Demo.params.cfgSimple ℚ (fun _ => 0) Demo.len true) (idleEnv _) (labelledRun.map (cvOp id known2)) s2 ∧
    NumLC (Demo.params.cfgSimple ℚ (fun _ => 0) Demo.len true) (idleEnv _) s1 2 ∧
    NumLC (Demo.params.cfgSimple ℚ (fun _ => 0) Demo.len true) (idleEnv _) s2 3 := by
  obtain ⟨s1, r1, e1⟩ := Demo.runs_reach (cfg := Demo.params.cfgSimple ℚ (fun _ => 0) Demo.len true) (env := idleEnv _)
    (ops := labelledRun.map (cvOp id known1)) (P := fun s => decide (s.pcm.totalLc = 2)) (by decide +kernel)
  obtain ⟨s2, r2, e2⟩ := Demo.runs_reach (cfg := Demo.params.cfgSimple ℚ (fun _ => 0) Demo.len true) (env := idleEnv _)
    (ops := labelledRun.map (cvOp id known2)) (P := fun s => decide (s.pcm.totalLc = 3)) (by decide +kernel)
  exact ⟨s1, s2, r1, r2, (numLC_iff (by decide +kernel)).2 (of_decide_eq_true e1).symm,
    (numLC_iff (by decide +kernel)).2 (of_decide_eq_true e2).symm⟩

/-- Measurements made a hundred times as certain. -/
def certain (n : GNoise (Matrix (Fin 3) (Fin 3) ℚ)) : GNoise (Matrix (Fin 3) (Fin 3) ℚ) := ⟨fun i j => n.cov i j / 100, n.rotNaN⟩

set_option maxRecDepth 100000 in
/-- C83 is about the simple methods: with PCM2D the covariances decide. -/
theorem C83_false_cov : ∃ s1 s2, ReachOk covCfg covEnv covRun s1 ∧ ReachOk covCfg covEnv (covRun.map (cvOp id certain)) s2 ∧
    NumLC covCfg covEnv s1 1 ∧ NumLC covCfg covEnv s2 0 := by
  obtain ⟨s1, r1, e1⟩ := Demo.runs_reach (cfg := covCfg) (env := covEnv) (ops := covRun) (P := fun s => decide (s.pcm.totalLc = 1)) (by decide +kernel)
  obtain ⟨s2, r2, e2⟩ := Demo.runs_reach (cfg := covCfg) (env := covEnv) (ops := covRun.map (cvOp id certain))
    (P := fun s => decide (s.pcm.totalLc = 0)) (by decide +kernel)
  exact ⟨s1, s2, r1, r2, (numLC_iff (by decide +kernel)).2 (of_decide_eq_true e1).symm,
    (numLC_iff (by decide +kernel)).2 (of_decide_eq_true e2).symm⟩

end RPGO.Props
