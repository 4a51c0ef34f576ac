import Verif.Proofs.Order
import Verif.Props.AnySplit
import Verif.Props.Observations
/-
C70: what is accepted does not depend on the order in which the hash tables are visited.
-/

namespace RPGO.Spec
variable {G T N : Type} [Mul G] [Inv G] [One G]

/-- The two solvers hold the same factors: the odometry and the factors that are not closures come first, in the same
order, then the same selected closures and observations as many times, possibly in another order. They have estimates
for the same keys, registered and accepted the same closures and observations with the same stored matrices, and return
the same counts. -/
structure SameUpToOrder (c1 c2 : Cfg G T N) (e1 e2 : Env G N) (s1 s2 : St G T N) : Prop where
  graph : ∃ first rest1 rest2, s1.nfg = first ++ rest1 ∧ s2.nfg = first ++ rest2 ∧ rest1.Perm rest2 ∧
    first.length = s1.pcm.odom.length + s1.pcm.special.length
  keys : s1.values.keys = s2.values.keys
  registered : ∀ id, Spec.registered s1 id = Spec.registered s2 id
  matrix : ∀ id, Spec.matrix s1 id = Spec.matrix s2 id
  selected : ∀ id, Spec.selected s1 id = Spec.selected s2 id
  observed : ∀ l, Spec.observed s1 l = Spec.observed s2 l
  accepted : ∀ l, Spec.acceptedOf s1 l = Spec.acceptedOf s2 l
  count : ∀ n, Spec.NumLC c1 e1 s1 n ↔ Spec.NumLC c2 e2 s2 n
  inliers : c1.useGnc = false → c2.useGnc = false → ∀ n, Spec.NumInliers c1 e1 s1 n ↔ Spec.NumInliers c2 e2 s2 n

end RPGO.Spec

namespace RPGO
variable {G T N : Type}

/-- The graphs of twins, visited in different orders. -/
theorem buildGraph_perms {e1 e2 : Env G N} (he1 : e1.Ok) (he2 : e2.Ok) {p q : Pcm G T N} (ht : Twin p q) :
    ∃ first rest1 rest2, buildGraph e1 p = first ++ rest1 ∧ buildGraph e2 q = first ++ rest2 ∧ rest1.Perm rest2 ∧
      first.length = p.odom.length + p.special.length := by
  have key : ∀ e : Env G N, buildGraph e p = (p.odom.map (fun b => some (.btw b)) ++ p.special.map some) ++
      ((e.iterLC p.lcs).flatMap (fun e =>
        if !p.ignored.contains e.1.id1 && !p.ignored.contains e.1.id2 then
          e.2.cons.map (fun b => some (.btw b)) else []) ++
      (e.iterLM p.landmarks).flatMap (fun e => e.2.cons.map (fun b => some (.btw b)))) := by
    intro e
    unfold buildGraph
    simp only [List.append_assoc]
  have hq : buildGraph e2 q = buildGraph e2 p := by
    unfold buildGraph
    rw [← ht.odom, ← ht.special, ← ht.lcs, ← ht.landmarks, ← ht.ignored]
  refine ⟨_, _, _, key e1, hq.trans (key e2), ?_, by simp⟩
  exact (((he1.lc _).trans (he2.lc _).symm).flatMap_right _).append (((he1.lm _).trans (he2.lm _).symm).flatMap_right _)

variable [Mul G] [Inv G] [One G]

/-- Twins with the same known keys. -/
theorem sameUpToOrder' {c1 c2 : Cfg G T N} {e1 e2 : Env G N} (he1 : e1.Ok) (he2 : e2.Ok) (hr1 : c1.rejection = true)
    (hr2 : c2.rejection = true) {h1 h2 : List (Op G N)} {s1 s2 : St G T N} (b1 : s1.nfg = buildGraph e1 s1.pcm)
    (b2 : s2.nfg = buildGraph e2 s2.pcm) (r1 : Reach c1 e1 h1 s1) (r2 : Reach c2 e2 h2 s2)
    (ht : Twin s1.pcm s2.pcm) (hk : ∀ k, k ∈ s1.values.keys ↔ k ∈ s2.values.keys) :
    Spec.SameUpToOrder c1 c2 e1 e2 s1 s2 := by
  refine ⟨?_, ?_, ?_, ?_, ?_, ?_, ?_, ?_, ?_⟩
  · rw [b1, b2]
    exact buildGraph_perms he1 he2 ht
  · have k1 := (reach_values r1).1
    have k2 := (reach_values r2).1
    exact List.Pairwise.eq_of_mem_iff (r := fun a b : Key => a.toNat < b.toNat) k1 k2 hk
  · intro id; unfold Spec.registered lcOf; rw [ht.lcs]
  · intro id; unfold Spec.matrix lcOf; rw [ht.lcs]
  · intro id; unfold Spec.selected lcOf; rw [ht.lcs]
  · intro l; unfold Spec.observed lmOf; rw [ht.landmarks]
  · intro l; unfold Spec.acceptedOf lmOf; rw [ht.landmarks]
  · intro n
    rw [Props.numLC_iff hr1, Props.numLC_iff hr2, ht.totalLc]
  · intro g1 g2 n
    rw [Props.numInliers_iff hr1 g1, Props.numInliers_iff hr2 g2, ht.totalGood]

theorem sameUpToOrder {c1 c2 : Cfg G T N} {e1 e2 : Env G N} (he1 : e1.Ok) (he2 : e2.Ok) (hr1 : c1.rejection = true)
    (hr2 : c2.rejection = true) {h1 h2 : List (Op G N)} (hm1 : ∀ op ∈ h1, Spec.Managed op)
    (hm2 : ∀ op ∈ h2, Spec.Managed op) {s1 s2 : St G T N} (r1 : ReachOk c1 e1 h1 s1) (r2 : ReachOk c2 e2 h2 s2)
    (ht : Twin s1.pcm s2.pcm) (hk : ∀ k, k ∈ s1.values.keys ↔ k ∈ s2.values.keys) :
    Spec.SameUpToOrder c1 c2 e1 e2 s1 s2 :=
  sameUpToOrder' he1 he2 hr1 hr2 (r1.lists he1 hr1 hm1).1 (r2.lists he2 hr2 hm2).1 r1.reach r2.reach ht hk

end RPGO

namespace RPGO.Props
open RPGO

section
variable {G T N : Type} [Mul G] [Inv G] [One G]

/-- C70 (part): two solvers that get the same calls, iterate over their hash tables in any two orders, and optimize with
any optimizers, settings and flags, register and accept the same closures and observations, hold the same factors up to
the order of the selected ones, and return the same counts; provided the first pose of each robot is supplied together
with its first odometry factor (without that C35 is false already, see `C35_false_late_start`) and factors are not
removed by their position in the graph (see `C70_false_positions`). -/
theorem C70_any_order_partial {cfg : Cfg G T N} (hr : cfg.rejection = true) {e1 e2 : Env G N} (he1 : e1.Ok) (he2 : e2.Ok)
    (lm debug log useGnc fixPrev biasOdom : Bool) {h1 h2 : List (Op G N)} (hc : Spec.SameCalls h1 h2)
    (hm1 : ∀ op ∈ h1, Spec.Managed op) (hm2 : ∀ op ∈ h2, Spec.Managed op)
    (hg : Spec.StartsGiven cfg h1) {s1 s2 : St G T N} (r1 : ReachOk cfg e1 h1 s1)
    (r2 : ReachOk (cfg.withOpt lm debug log useGnc fixPrev biasOdom) e2 h2 s2) :
    Spec.SameUpToOrder cfg (cfg.withOpt lm debug log useGnc fixPrev biasOdom) e1 e2 s1 s2 := by
  have hs := sameCalls_alike hr e1 e2 lm debug log useGnc fixPrev biasOdom hc hm1 hg r1 r2
  refine sameUpToOrder (c2 := cfg.withOpt lm debug log useGnc fixPrev biasOdom) he1 he2 hr hr hm1 hm2 r1 r2 (by rw [hs.pcm]; exact Twin.refl _) fun k => ?_
  rw [KMap.mem_keys_iff, KMap.mem_keys_iff, hs.has]

variable {C K : Type} [Field K] [LinearOrder K]

/-- C70 with other initial values (PCM_Simple2D / 3D): the same for histories with the same factors and other poses,
under the conditions of C58. -/
theorem C70_guess_partial {G : Type} [Group G] (p : Params K) (tn rn : G → K) (signed : Bool) (hm : p.method ≠ .none)
    (owner : Key → Chr) (hown : ∀ l, owner l ∉ p.special) {e1 e2 : Env G (GNoise C)} (he1 : e1.Ok) (he2 : e2.Ok)
    {h1 h2 : List (Op G (GNoise C))} (hc : Spec.SameGraphCalls h1 h2) (hman : ∀ op ∈ h1, Spec.Managed op)
    (hob : Spec.OneObserver (p.cfgSimple C tn rn signed) owner h1) (start : Chr → Key) (hch : Spec.Chains (p.cfgSimple C tn rn signed) start h1)
    (hon : Spec.OnOdometry (p.cfgSimple C tn rn signed) start h1) {s1 s2 : St G (PNode G) (GNoise C)}
    (r1 : ReachOk (p.cfgSimple C tn rn signed) e1 h1 s1) (r2 : ReachOk (p.cfgSimple C tn rn signed) e2 h2 s2) :
    Spec.SameUpToOrder (p.cfgSimple C tn rn signed) (p.cfgSimple C tn rn signed) e1 e2 s1 s2 := by
  have hr : (p.cfgSimple C tn rn signed).rejection = true := by simp [Params.cfgSimple, Params.cfg, hm]
  refine sameUpToOrder he1 he2 hr hr hman (sameGraph_managed hc hman) r1 r2
    (sameGraph_twin hr (node_startFree tn rn _ _ _ _) hown hc hman hob hch hon r1 r2) fun k => ?_
  rw [(C34_estimate_keys r1).1 k, (C34_estimate_keys r2).1 k, (sameGraph_odom (cfg := p.cfgSimple C tn rn signed) hc).2 k]

/-- C70 with other initial values for PCM2D / PCM3D. -/
theorem C70_guess_cov_partial {G : Type} [Group G] [AddGroup C] (p : Params K) (ce : CovEnv G C K) (signed : Bool) (hm : p.method ≠ .none)
    (owner : Key → Chr) (hown : ∀ l, owner l ∉ p.special) {e1 e2 : Env G (GNoise C)} (he1 : e1.Ok) (he2 : e2.Ok)
    {h1 h2 : List (Op G (GNoise C))} (hc : Spec.SameGraphCalls h1 h2) (hman : ∀ op ∈ h1, Spec.Managed op)
    (hob : Spec.OneObserver (p.cfgCov ce signed) owner h1) (start : Chr → Key) (hch : Spec.Chains (p.cfgCov ce signed) start h1)
    (hon : Spec.OnOdometry (p.cfgCov ce signed) start h1) {s1 s2 : St G (PCov G C) (GNoise C)}
    (r1 : ReachOk (p.cfgCov ce signed) e1 h1 s1) (r2 : ReachOk (p.cfgCov ce signed) e2 h2 s2) :
    Spec.SameUpToOrder (p.cfgCov ce signed) (p.cfgCov ce signed) e1 e2 s1 s2 := by
  have hr : (p.cfgCov ce signed).rejection = true := by simp [Params.cfgCov, Params.cfg, hm]
  refine sameUpToOrder he1 he2 hr hr hman (sameGraph_managed hc hman) r1 r2
    (sameGraph_twin hr (cov_startFree ce _ _) hown hc hman hob hch hon r1 r2) fun k => ?_
  rw [(C34_estimate_keys r1).1 k, (C34_estimate_keys r2).1 k, (sameGraph_odom (cfg := p.cfgCov ce signed) hc).2 k]

end

/-- Iteration in the order opposite to insertion. -/
def backwards : Env Demo.Z Demo.Ns := { Demo.env with iterLC := List.reverse, iterLM := List.reverse }

theorem backwards_ok : backwards.Ok := ⟨fun l => List.reverse_perm l, fun l => List.reverse_perm l⟩

/-- Odometry of two robots, then a closure of each with itself. -/
def eachItself (o : Bool) : List (Op Demo.Z Demo.Ns) :=
  [.update [some (.prior (Demo.a 0) (Demo.z 0)), Demo.edge (Demo.a 0) (Demo.a 1) 1, Demo.edge (Demo.a 1) (Demo.a 2) 1,
      Demo.edge (Demo.b 0) (Demo.b 1) 1, Demo.edge (Demo.b 1) (Demo.b 2) 1]
    [Demo.pose (Demo.a 0) 0, Demo.pose (Demo.a 1) 1, Demo.pose (Demo.a 2) 2, Demo.pose (Demo.b 0) 0, Demo.pose (Demo.b 1) 1,
      Demo.pose (Demo.b 2) 2] o,
   .update [Demo.edge (Demo.a 0) (Demo.a 2) 2, Demo.edge (Demo.b 0) (Demo.b 2) 2] [] o]

set_option maxRecDepth 100000 in
/-- The hypotheses are met by two runs whose graphs are in fact in different orders. -/
example : ∃ s1 s2, ReachOk Demo.cfg Demo.env (eachItself true) s1 ∧
    ReachOk (Demo.cfg.withOpt false false true false false true) backwards (eachItself false) s2 ∧
    Spec.SameCalls (eachItself true) (eachItself false) ∧ (∀ op ∈ eachItself true, Spec.Managed op) ∧
    (∀ op ∈ eachItself false, Spec.Managed op) ∧ Spec.StartsGiven Demo.cfg (eachItself true) ∧ s1.nfg ≠ s2.nfg := by
  obtain ⟨s1, r1, e1⟩ := Demo.runs_reach (cfg := Demo.cfg) (env := Demo.env) (ops := eachItself true)
    (P := fun s => decide (s.nfg.getLast? = some (Demo.edge (Demo.b 0) (Demo.b 2) 2))) (by decide +kernel)
  obtain ⟨s2, r2, e2⟩ := Demo.runs_reach (cfg := Demo.cfg.withOpt false false true false false true) (env := backwards)
    (ops := eachItself false)
    (P := fun s => decide (s.nfg.getLast? = some (Demo.edge (Demo.a 0) (Demo.a 2) 2))) (by decide +kernel)
  refine ⟨s1, s2, r1, r2, .both (h1 := [_]) (h2 := [_]) (.both (h1 := []) (h2 := []) .nil (Or.inr (Or.inl ⟨_, rfl, rfl⟩)))
    (Or.inr (Or.inl ⟨_, rfl, rfl⟩)), ?_, ?_, starts_sound (by decide +kernel), ?_⟩
  · intro op ho; simp [eachItself] at ho; rcases ho with rfl | rfl <;> trivial
  · intro op ho; simp [eachItself] at ho; rcases ho with rfl | rfl <;> trivial
  · intro e
    have e1 := of_decide_eq_true e1
    have e2 := of_decide_eq_true e2
    rw [e, e2] at e1
    exact absurd e1 (by decide +kernel)

set_option maxRecDepth 100000 in
/-- The hypotheses of `C70_guess_partial` are met as well (with no landmarks every owner will do). -/
example : Demo.cfg = Demo.params.cfgSimple Unit Demo.len (fun _ => 0) true ∧ Demo.params.method ≠ .none ∧
    (∀ l : Key, (fun _ => 97 : Key → Chr) l ∉ Demo.params.special) ∧
    Spec.SameGraphCalls (eachItself true) ((eachItself true).map (Spec.moved (Demo.z 5))) ∧
    Spec.OneObserver Demo.cfg (fun _ => 97) (eachItself true) ∧ Spec.Chains Demo.cfg (fun c => symKey c 0) (eachItself true) ∧
    Spec.OnOdometry Demo.cfg (fun c => symKey c 0) (eachItself true) := by
  refine ⟨rfl, by decide, by simp [Demo.params, Params.apply, Params.default], Spec.moved_same _ _, ?_, chains_of (by decide +kernel), onOdometry_of (by decide +kernel)⟩
  intro op _ b _ hs
  exact absurd hs (by simp [Demo.cfg, Demo.mk, Params.cfgSimple, Params.cfg, Demo.params, Params.apply, Params.default])

set_option maxRecDepth 100000 in
/-- C70 is false of removal by position: the same calls ending with the removal of the last factor leave different
factors when the tables are visited in different orders, because the positions of the closures differ. -/
theorem C70_false_positions :
    ∃ s1 s2, ReachOk Demo.cfg Demo.env (eachItself true ++ [.removeLastFactor]) s1 ∧
      ReachOk Demo.cfg backwards (eachItself true ++ [.removeLastFactor]) s2 ∧
      Demo.edge (Demo.b 0) (Demo.b 2) 2 ∉ s1.nfg ∧ Demo.edge (Demo.b 0) (Demo.b 2) 2 ∈ s2.nfg := by
  obtain ⟨s1, r1, e1⟩ := Demo.runs_reach (cfg := Demo.cfg) (env := Demo.env) (ops := eachItself true ++ [.removeLastFactor])
    (P := fun s => decide (Demo.edge (Demo.b 0) (Demo.b 2) 2 ∉ s.nfg)) (by decide +kernel)
  obtain ⟨s2, r2, e2⟩ := Demo.runs_reach (cfg := Demo.cfg) (env := backwards) (ops := eachItself true ++ [.removeLastFactor])
    (P := fun s => decide (Demo.edge (Demo.b 0) (Demo.b 2) 2 ∈ s.nfg)) (by decide +kernel)
  exact ⟨s1, s2, r1, r2, of_decide_eq_true e1, of_decide_eq_true e2⟩

end RPGO.Props
