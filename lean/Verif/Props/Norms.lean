import Verif.Model.Norms
import Verif.Props.Formula
import Mathlib.Analysis.Real.Sqrt
/-
C54: the translation thresholds bound translation errors and the rotation thresholds rotation errors.
-/

namespace RPGO.Spec
variable {G K : Type}

/-- Poses of type `d` whose `Logmap` has rotation part `ω g` and translation part `v g`. -/
structure Tangent (d : Dim) (ω v : G → List K) : Prop where
  rot : ∀ g, (ω g).length = d.rot
  trans : ∀ g, (v g).length = d.trans

/-- The solver with method PCM_Simple2D or PCM_Simple3D for poses whose `Logmap` has parts `ω` and `v`. -/
def poseCfg [Field K] [LinearOrder K] [Mul G] [Inv G] [One G] (p : Params K) (d : Dim) (C : Type) (nrm : List K → K) (ω v : G → List K)
    (signed : Bool) : Cfg G (PNode G) (GNoise C) :=
  p.cfgSimple C (tnOf d nrm fun g => d.logmap (ω g) (v g)) (rnOf d nrm fun g => d.logmap (ω g) (v g)) signed

/-- What the property asks of the odometry check for an error `g` over `n` measurements with rotation information. -/
def Within [Field K] [LinearOrder K] (p : Params K) (nrm : List K → K) (ω v : G → List K) (g : G) (n : Nat) : Prop :=
  nrm (v g) / (n : K) < p.odomT ∧ nrm (ω g) / (n : K) < p.odomR

end RPGO.Spec

namespace RPGO.Props
open RPGO
variable {G : Type} [Mul G] [Inv G] [One G] {C K : Type} [Field K] [LinearOrder K]

omit [Mul G] [Inv G] [One G] [Field K] [LinearOrder K] in
/-- C54 in 3D: the two norms are the norms of the translation part and of the rotation part. -/
theorem C54_norms_3d (nrm : List K → K) {ω v : G → List K} (ht : Spec.Tangent .three ω v) (g : G) :
    tnOf .three nrm (fun g => Dim.three.logmap (ω g) (v g)) g = nrm (v g) ∧
    rnOf .three nrm (fun g => Dim.three.logmap (ω g) (v g)) g = nrm (ω g) := by
  have h1 := ht.rot g
  have h2 := ht.trans g
  simp only [Dim.rot, Dim.trans] at h1 h2
  refine ⟨?_, ?_⟩
  · simp [tnOf, vecTail, Dim.logmap, Dim.trans, h1, h2]
  · simp [rnOf, vecHead, Dim.logmap, Dim.rot, ← h1]

omit [Mul G] [Inv G] [One G] [Field K] [LinearOrder K] in
/-- What the two norms are in 2D: the translation norm is computed from y and the rotation angle, the rotation norm from x. -/
theorem C54_norms_2d (nrm : List K → K) {ω v : G → List K} {g : G} {x y θ : K} (hv : v g = [x, y]) (hw : ω g = [θ]) :
    tnOf .two nrm (fun g => Dim.two.logmap (ω g) (v g)) g = nrm [y, θ] ∧
    rnOf .two nrm (fun g => Dim.two.logmap (ω g) (v g)) g = nrm [x] := by
  simp [tnOf, rnOf, vecTail, vecHead, Dim.logmap, Dim.rot, Dim.trans, hv, hw]

/-- C54 in 3D (part of the property, the rest is false): a closure within robot `c` between positions `i` and `j` of its odometry,
all with rotation information, passes the odometry check exactly if the averaged translation error is below the
translation threshold and the averaged rotation error below the rotation threshold. Missing: 2D, see `C54_false_2d`. -/
theorem C54_thresholds_partial {G : Type} [Group G] (p : Params K) (signed : Bool) (nrm : List K → K) {ω v : G → List K}
    (ht : Spec.Tangent .three ω v) (hm : p.method ≠ .none) (hod : p.odomCheck = true)
    {env : Env G (GNoise C)} {h : List (Op G (GNoise C))} {s : St G (PNode G) (GNoise C)}
    (r : ReachOk (Spec.poseCfg p .three C nrm ω v signed) env h s) {start : Chr → Key}
    (hc : Spec.Chains (Spec.poseCfg p .three C nrm ω v signed) start h) {c : Chr} {L : List (Btw G (GNoise C))}
    (hL : L = Spec.robotOdom (Spec.poseCfg p .three C nrm ω v signed) c h) {b : Btw G (GNoise C)} {i j : Nat}
    (h1 : Spec.At c (start c) L b.k1 i) (h2 : Spec.At c (start c) L b.k2 j) (hn : b.noise.isSome)
    (hrot : Spec.Rot (L.take (max i j)) ∧ Spec.Rot [b]) :
    ∃ q, Spec.OdomCheck (Spec.poseCfg p .three C nrm ω v signed) s b q ∧
      (q = true ↔ Spec.Within p nrm ω v (Spec.rel L i j * b.m⁻¹) (Spec.hops i j + 1)) := by
  obtain ⟨q, hq, hiff⟩ := C50_odometry_check p _ _ signed hm r hc hL h1 h2 hn
  refine ⟨q, hq, hiff.trans ?_⟩
  obtain ⟨e1, e2⟩ := C54_norms_3d nrm ht (Spec.rel L i j * b.m⁻¹)
  unfold Spec.Below Spec.Within
  rw [e1, e2]
  have : (p.cfgSimple C (tnOf .three nrm fun g => Dim.three.logmap (ω g) (v g))
    (rnOf .three nrm fun g => Dim.three.logmap (ω g) (v g)) signed).odomCheck = true := hod
  simp [this, hrot]

/-- C54 in 3D for the pairwise check of two closures from robot `c` to robot `d`, all with rotation information. -/
theorem C54_pairwise_partial {G : Type} [Group G] (p : Params K) (signed : Bool) (nrm : List K → K) {ω v : G → List K}
    (ht : Spec.Tangent .three ω v) (hm : p.method ≠ .none) (hlc : p.loopCheck = true)
    {env : Env G (GNoise C)} {h : List (Op G (GNoise C))} {s : St G (PNode G) (GNoise C)}
    (r : ReachOk (Spec.poseCfg p .three C nrm ω v signed) env h s) {start : Chr → Key}
    (hc : Spec.Chains (Spec.poseCfg p .three C nrm ω v signed) start h) {c d : Chr} {L M : List (Btw G (GNoise C))}
    (hL : L = Spec.robotOdom (Spec.poseCfg p .three C nrm ω v signed) c h)
    (hM : M = Spec.robotOdom (Spec.poseCfg p .three C nrm ω v signed) d h)
    {x y : Btw G (GNoise C)} {i j k l : Nat}
    (hi : Spec.At c (start c) L x.k1 i) (hj : Spec.At d (start d) M x.k2 j)
    (hk : Spec.At c (start c) L y.k1 k) (hl : Spec.At d (start d) M y.k2 l) (hx : x.noise.isSome) (hy : y.noise.isSome)
    (hrot : Spec.Rot (L.take (max i k)) ∧ Spec.Rot (M.take (max j l)) ∧ Spec.Rot [x, y]) :
    ∃ q, Spec.PairCheck (Spec.poseCfg p .three C nrm ω v signed) s x y q ∧
      (q = true ↔
        nrm (v ((Spec.rel L i k * y.m)⁻¹ * x.m * Spec.rel M j l)) / ((Spec.hops i k + Spec.hops j l + 2 : Nat) : K) < p.distT ∧
        nrm (ω ((Spec.rel L i k * y.m)⁻¹ * x.m * Spec.rel M j l)) / ((Spec.hops i k + Spec.hops j l + 2 : Nat) : K) < p.distR) := by
  obtain ⟨q, hq, hiff⟩ := C51_pairwise_check p _ _ signed hm r hc hL hM hi hj hk hl hx hy
  refine ⟨q, hq, hiff.trans ?_⟩
  obtain ⟨e1, e2⟩ := C54_norms_3d nrm ht ((Spec.rel L i k * y.m)⁻¹ * x.m * Spec.rel M j l)
  unfold Spec.Below
  rw [e1, e2]
  have : (p.cfgSimple C (tnOf .three nrm fun g => Dim.three.logmap (ω g) (v g))
    (rnOf .three nrm fun g => Dim.three.logmap (ω g) (v g)) signed).loopCheck = true := hlc
  simp [this, hrot]

/-- C54 is false of the code in 2D, for every history and every closure whose error is a shift by `x` along the
x axis without rotation: the translation threshold plays no role as long as it is positive, and the shift is compared with
the rotation threshold. -/
theorem C54_false_2d {G : Type} [Group G] (p : Params K) (signed : Bool) (nrm : List K → K) (h0 : nrm [0, 0] = 0) (h1n : ∀ x, nrm [x] = |x|)
    {ω v : G → List K} (hm : p.method ≠ .none) (hod : p.odomCheck = true) (hpos : 0 < p.odomT)
    {env : Env G (GNoise C)} {h : List (Op G (GNoise C))} {s : St G (PNode G) (GNoise C)}
    (r : ReachOk (Spec.poseCfg p .two C nrm ω v signed) env h s) {start : Chr → Key}
    (hc : Spec.Chains (Spec.poseCfg p .two C nrm ω v signed) start h) {c : Chr} {L : List (Btw G (GNoise C))}
    (hL : L = Spec.robotOdom (Spec.poseCfg p .two C nrm ω v signed) c h) {b : Btw G (GNoise C)} {i j : Nat}
    (h1 : Spec.At c (start c) L b.k1 i) (h2 : Spec.At c (start c) L b.k2 j) (hn : b.noise.isSome)
    (hrot : Spec.Rot (L.take (max i j)) ∧ Spec.Rot [b]) {x : K}
    (hv : v (Spec.rel L i j * b.m⁻¹) = [x, 0]) (hw : ω (Spec.rel L i j * b.m⁻¹) = [0]) :
    ∃ q, Spec.OdomCheck (Spec.poseCfg p .two C nrm ω v signed) s b q ∧
      (q = true ↔ |x| / ((Spec.hops i j + 1 : Nat) : K) < p.odomR) := by
  obtain ⟨q, hq, hiff⟩ := C50_odometry_check p _ _ signed hm r hc hL h1 h2 hn
  refine ⟨q, hq, hiff.trans ?_⟩
  obtain ⟨e1, e2⟩ := C54_norms_2d nrm hv hw
  unfold Spec.Below
  rw [e1, e2, h0, h1n]
  have : (p.cfgSimple C (tnOf .two nrm fun g => Dim.two.logmap (ω g) (v g))
    (rnOf .two nrm fun g => Dim.two.logmap (ω g) (v g)) signed).odomCheck = true := hod
  simp [this, hrot, hpos]

/-- C54, rotation information: in 3D the covariance entries tested for NaN are those of the rotation, and the block kept
otherwise is that of the translation. In 2D the entry tested is that of x and the block kept is that of y and the angle. -/
theorem C54_blocks {K : Type} (ω1 ω2 ω3 x y z θ : K) :
    (Dim.three.nanBlock.filterMap fun i => (Dim.three.logmap [ω1, ω2, ω3] [x, y, z])[i]?) = [ω1, ω2, ω3] ∧
    (Dim.three.keptBlock.filterMap fun i => (Dim.three.logmap [ω1, ω2, ω3] [x, y, z])[i]?) = [x, y, z] ∧
    (Dim.two.nanBlock.filterMap fun i => (Dim.two.logmap [θ] [x, y])[i]?) = [x] ∧
    (Dim.two.keptBlock.filterMap fun i => (Dim.two.logmap [θ] [x, y])[i]?) = [y, θ] := by
  refine ⟨rfl, rfl, rfl, rfl⟩

/-- The Euclidean norm meets the hypotheses of `C54_false_2d`. -/
example : Real.sqrt (([0, 0] : List ℝ).map (· ^ 2)).sum = 0 ∧ ∀ x : ℝ, Real.sqrt (([x] : List ℝ).map (· ^ 2)).sum = |x| := by
  refine ⟨by simp, fun x => by simp [Real.sqrt_sq_eq_abs]⟩

/-- Sum of absolute values: a norm for rational vectors. -/
def norm1 (v : List ℚ) : ℚ := (v.map (|·|)).sum

/-- Robots moving along the x axis of the plane; translation threshold 1, rotation threshold `r`. -/
def planar (r : ℚ) : Cfg Demo.Z Demo.Tp Demo.Ns :=
  Spec.poseCfg (Params.default.apply (.simple2D 1 r .quiet)) .two Unit norm1 (fun _ => [0])
    (fun g => [((Multiplicative.toAdd g : ℤ) : ℚ), 0]) true

set_option maxRecDepth 100000 in
/-- `C54_false_2d` in a run: with rotation threshold 100, closure a0 → a2 of length 50 over two unit steps is registered
although its translation error of 48, spread over three measurements, exceeds the translation threshold 1; with rotation threshold
1/10, closure a0 → a2 of length 3 is rejected although its translation error per measurement, 1/3, is below the
translation threshold and there is no rotation error. -/
theorem C54_false_2d_run :
    (∃ s, ReachOk (planar 100) Demo.env (Demo.h1.take 3 ++ [.update [Demo.edge (Demo.a 0) (Demo.a 2) 50] [] true]) s ∧
      Spec.registered s ⟨97, 97⟩ = [Demo.btw (Demo.a 0) (Demo.a 2) 50]) ∧
    (∃ s, ReachOk (planar (1 / 10)) Demo.env (Demo.h1.take 3 ++ [.update [Demo.edge (Demo.a 0) (Demo.a 2) 3] [] true]) s ∧
      Spec.registered s ⟨97, 97⟩ = []) := by
  constructor
  · obtain ⟨s, r, h⟩ := Demo.runs_reach (cfg := planar 100) (env := Demo.env)
      (ops := Demo.h1.take 3 ++ [.update [Demo.edge (Demo.a 0) (Demo.a 2) 50] [] true])
      (P := fun s => decide (Spec.registered s ⟨97, 97⟩ = [Demo.btw (Demo.a 0) (Demo.a 2) 50])) (by decide +kernel)
    exact ⟨s, r, of_decide_eq_true h⟩
  · obtain ⟨s, r, h⟩ := Demo.runs_reach (cfg := planar (1 / 10)) (env := Demo.env)
      (ops := Demo.h1.take 3 ++ [.update [Demo.edge (Demo.a 0) (Demo.a 2) 3] [] true])
      (P := fun s => decide (Spec.registered s ⟨97, 97⟩ = [])) (by decide +kernel)
    exact ⟨s, r, of_decide_eq_true h⟩

set_option maxRecDepth 100000 in
/-- The hypotheses of `C54_false_2d` are met in that run. -/
example : ∃ s, ReachOk (planar 100) Demo.env (Demo.h1.take 3) s ∧
    Spec.Chains (planar 100) (fun c => symKey c 0) (Demo.h1.take 3) ∧
    Spec.At 97 (Demo.a 0) (Spec.robotOdom (planar 100) 97 (Demo.h1.take 3)) (Demo.a 2) 2 ∧
    (planar 100).odomCheck = true ∧ norm1 [0, 0] = 0 ∧ ∀ x, norm1 [x] = |x| := by
  obtain ⟨s, r, _⟩ := Demo.runs_reach (cfg := planar 100) (env := Demo.env) (ops := Demo.h1.take 3)
    (P := fun _ => true) (by decide +kernel)
  exact ⟨s, r, chains_of (by decide +kernel), ⟨by decide, by decide +kernel, by decide +kernel⟩, by decide +kernel,
    by simp [norm1], fun x => by simp [norm1]⟩

/-- Robots moving along a line in space. -/
def spatial (t r : ℚ) : Cfg Demo.Z Demo.Tp Demo.Ns :=
  Spec.poseCfg (Params.default.apply (.simple3D t r .quiet)) .three Unit norm1 (fun _ => [0, 0, 0])
    (fun g => [((Multiplicative.toAdd g : ℤ) : ℚ), 0, 0]) true

set_option maxRecDepth 100000 in
/-- The hypotheses of `C54_thresholds_partial` are met: a run in 3D in which a closure passes and another one does not. -/
example : ∃ s, ReachOk (spatial 1 (1 / 10)) Demo.env
      (Demo.h1.take 3 ++ [.update [Demo.edge (Demo.a 0) (Demo.a 2) 50, Demo.edge (Demo.a 0) (Demo.a 2) 3] [] true]) s ∧
    Spec.registered s ⟨97, 97⟩ = [Demo.btw (Demo.a 0) (Demo.a 2) 3] ∧
    Spec.Chains (spatial 1 (1 / 10)) (fun c => symKey c 0)
      (Demo.h1.take 3 ++ [.update [Demo.edge (Demo.a 0) (Demo.a 2) 50, Demo.edge (Demo.a 0) (Demo.a 2) 3] [] true]) ∧
    Spec.Tangent (G := Demo.Z) .three (fun _ => [(0 : ℚ), 0, 0]) (fun g => [((Multiplicative.toAdd g : ℤ) : ℚ), 0, 0]) := by
  obtain ⟨s, r, h⟩ := Demo.runs_reach (cfg := spatial 1 (1 / 10)) (env := Demo.env)
    (ops := Demo.h1.take 3 ++ [.update [Demo.edge (Demo.a 0) (Demo.a 2) 50, Demo.edge (Demo.a 0) (Demo.a 2) 3] [] true])
    (P := fun s => decide (Spec.registered s ⟨97, 97⟩ = [Demo.btw (Demo.a 0) (Demo.a 2) 3])) (by decide +kernel)
  exact ⟨s, r, of_decide_eq_true h, chains_of (by decide +kernel), ⟨fun _ => rfl, fun _ => rfl⟩⟩

end RPGO.Props
