import Verif.Proofs.Overflow
import Verif.Spec.Demo
/-
C78 the hop counts do not overflow.
-/

namespace RPGO.Spec
variable {G C : Type} [Mul G] [Inv G] [One G]

/-- `compose` and `between` of poses with hop counts behave as written whenever the C++ `int` counts they compute
(GeometryUtils.h:245 and 269) stay between -(2^31 - 1) and 2^31 - 1; on overflow they may do anything. -/
structure IntOps (compose between : PNode G → PNode G → PNode G) : Prop where
  compose : ∀ x y : PNode G, |x.node + y.node| < 2 ^ 31 → compose x y = PNode.compose x y
  between : ∀ x y : PNode G, |y.node - x.node| < 2 ^ 31 → between x y = PNode.between x y

/-- The solver with its two operations on hop counts replaced. -/
def withCounts {N : Type} (cfg : Cfg G (PNode G) N) (compose between : PNode G → PNode G → PNode G) : Cfg G (PNode G) N :=
  { cfg with ops := { cfg.ops with compose := compose, between := between } }

end RPGO.Spec

namespace RPGO
variable {G C K : Type} [Mul G] [Inv G] [One G] [Field K] [LinearOrder K]

/-- The count of `x` lies between 0 and `n`. -/
def HopsAtMost (n : Nat) (x : PNode G) : Prop := 0 ≤ x.node ∧ x.node ≤ n

theorem hops_within {compose between : PNode G → PNode G → PNode G} (h : Spec.IntOps compose between) (p : Params K) (tn rn : G → K)
    (signed : Bool) : Within HopsAtMost (2 ^ 31 - 1) (p.cfgSimple C tn rn signed).ops
      (Spec.withCounts (p.cfgSimple C tn rn signed) compose between).ops where
  mono hmn hx := ⟨hx.1, by have := hx.2; omega⟩
  dflt := ⟨rfl, Int.le_refl 0, Int.le_refl 0⟩
  ofPose g := ⟨rfl, Int.le_refl 0, Int.le_refl 0⟩
  ofFactor g n := ⟨rfl, Int.one_nonneg, Int.le_refl 1⟩
  compose {m n x y} hx hy hl := by
    obtain ⟨a, b⟩ := hx
    obtain ⟨c, d⟩ := hy
    refine ⟨h.compose x y ?_, ?_, ?_⟩
    · rw [abs_of_nonneg (by omega)]; omega
    · show 0 ≤ x.node + y.node; omega
    · show x.node + y.node ≤ _; push_cast; omega
  inverse hx := ⟨rfl, hx⟩
  between {n x y} hx hy hl := by
    obtain ⟨a, b⟩ := hx
    obtain ⟨c, d⟩ := hy
    refine ⟨h.between x y ?_, ?_, ?_⟩
    · rw [abs_lt]; constructor <;> omega
    · show 0 ≤ |y.node - x.node|; exact abs_nonneg _
    · show |y.node - x.node| ≤ _; rw [abs_le]; constructor <;> omega
  pose := rfl
  odomOk := rfl
  loopOk := rfl

theorem hops_self (p : Params K) (tn rn : G → K) (signed : Bool) (L : Nat) :
    Within HopsAtMost L (p.cfgSimple C tn rn signed).ops (p.cfgSimple C tn rn signed).ops where
  mono hmn hx := ⟨hx.1, by have := hx.2; omega⟩
  dflt := ⟨rfl, Int.le_refl 0, Int.le_refl 0⟩
  ofPose g := ⟨rfl, Int.le_refl 0, Int.le_refl 0⟩
  ofFactor g n := ⟨rfl, Int.one_nonneg, Int.le_refl 1⟩
  compose {m n x y} hx hy hl := by
    obtain ⟨a, b⟩ := hx
    obtain ⟨c, d⟩ := hy
    refine ⟨rfl, ?_, ?_⟩
    · show 0 ≤ x.node + y.node; omega
    · show x.node + y.node ≤ _; push_cast; omega
  inverse hx := ⟨rfl, hx⟩
  between {n x y} hx hy hl := by
    obtain ⟨a, b⟩ := hx
    obtain ⟨c, d⟩ := hy
    refine ⟨rfl, ?_, ?_⟩
    · show 0 ≤ |y.node - x.node|; exact abs_nonneg _
    · show |y.node - x.node| ≤ _; rw [abs_le]; constructor <;> omega
  pose := rfl
  odomOk := rfl
  loopOk := rfl

end RPGO

namespace RPGO.Props
variable {G C K : Type} [Mul G] [Inv G] [One G] [Field K] [LinearOrder K] {tn rn : G → K} {signed : Bool}

/-- C78. As long as fewer than 357 913 941 odometry factors have been received (so that six times their number plus two is
below 2^31), no addition or subtraction of hop counts overflows a 32-bit `int`: replacing the two operations by any others
that agree with them where no overflow occurs leads to the same states, after any calls, including calls that threw. -/
theorem C78_no_overflow (p : Params K) (hr : (p.cfgSimple C tn rn signed).rejection = true) {env : Env G (GNoise C)}
    {compose between : PNode G → PNode G → PNode G} (hi : Spec.IntOps compose between) {h : List (Op G (GNoise C))}
    (hn : 6 * (Spec.odomSoFar (p.cfgSimple C tn rn signed) h).length + 2 < 2 ^ 31) (s : St G (PNode G) (GNoise C)) :
    Reach (Spec.withCounts (p.cfgSimple C tn rn signed) compose between) env h s ↔ Reach (p.cfgSimple C tn rn signed) env h s :=
  Reach.within (hops_within hi p tn rn signed) hr (by omega) s

/-- C78. The call that follows, too, has the same effect and the same outcome. -/
theorem C78_same_outcome (p : Params K) (hr : (p.cfgSimple C tn rn signed).rejection = true) {env : Env G (GNoise C)}
    {compose between : PNode G → PNode G → PNode G} (hi : Spec.IntOps compose between) {h : List (Op G (GNoise C))} {op : Op G (GNoise C)}
    (hn : 6 * (Spec.odomSoFar (p.cfgSimple C tn rn signed) (h ++ [op])).length + 2 < 2 ^ 31) {s : St G (PNode G) (GNoise C)}
    (r : Reach (p.cfgSimple C tn rn signed) env h s) :
    exec (Spec.withCounts (p.cfgSimple C tn rn signed) compose between) env op s = exec (p.cfgSimple C tn rn signed) env op s := by
  have el : (Spec.odomSoFar (p.cfgSimple C tn rn signed) (h ++ [op])).length =
      (Spec.odomSoFar (p.cfgSimple C tn rn signed) h).length + (Spec.opOdom (p.cfgSimple C tn rn signed) op).length := by
    simp [Spec.odomSoFar, List.flatMap_append]
  rw [el] at hn
  have w := hops_within (C := C) hi p tn rn signed
  exact (exec_sameRun w env hr op (by omega) s (r.small w hr (by omega))).1

/-- C78. The stored hop counts lie between 0 and the number of odometry factors received. -/
theorem C78_counts (p : Params K) (hr : (p.cfgSimple C tn rn signed).rejection = true) {env : Env G (GNoise C)}
    {h : List (Op G (GNoise C))} {s : St G (PNode G) (GNoise C)} (r : Reach (p.cfgSimple C tn rn signed) env h s) {c : Chr} {k : Key}
    {x : PNode G} (hx : (trajOf s.pcm c).find? k = some x) :
    0 ≤ x.node ∧ x.node ≤ (Spec.odomSoFar (p.cfgSimple C tn rn signed) h).length :=
  r.small (hops_self p tn rn signed _) hr (le_refl _) c k x hx

/-- The bound is of the right order: one step from count 2^31 - 1 overflows, and operations that differ there exist. -/
example : ∃ compose between : PNode Demo.Z → PNode Demo.Z → PNode Demo.Z, Spec.IntOps compose between ∧
    compose ⟨1, 2 ^ 31 - 1, true⟩ ⟨1, 1, true⟩ ≠ PNode.compose ⟨1, 2 ^ 31 - 1, true⟩ ⟨1, 1, true⟩ := by
  refine ⟨fun x y => if |x.node + y.node| < 2 ^ 31 then PNode.compose x y else ⟨1, - 2 ^ 31, true⟩, PNode.between,
    ⟨fun x y h => if_pos h, fun _ _ _ => rfl⟩, ?_⟩
  decide +kernel

set_option maxRecDepth 100000 in
/-- The hypotheses are met by the run `Demo.h1`. -/
example : Demo.cfg.rejection = true ∧ 6 * (Spec.odomSoFar Demo.cfg Demo.h1).length + 2 < 2 ^ 31 ∧
    ∃ s, Reach Demo.cfg Demo.env Demo.h1 s ∧ (trajOf s.pcm 97).find? (Demo.a 3) = some ⟨Demo.z 3, 3, true⟩ := by
  refine ⟨by decide +kernel, by decide +kernel, ?_⟩
  obtain ⟨s, r, h⟩ := Demo.runs_reach (cfg := Demo.cfg) (env := Demo.env) (ops := Demo.h1)
    (P := fun s => decide ((trajOf s.pcm 97).find? (Demo.a 3) = some ⟨Demo.z 3, 3, true⟩)) (by decide +kernel)
  exact ⟨s, r.reach, of_decide_eq_true h⟩

end RPGO.Props
