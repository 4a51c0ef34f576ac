import Verif.Spec.Demo
import Mathlib.Tactic.LinearCombination
import Mathlib.Tactic.Ring
/-
Concrete solvers in the plane: poses with rational position and heading, which do not commute.
-/

namespace RPGO.Plane
open RPGO

/-- A planar pose: position `(x, y)`, cosine `c` and sine `s` of the heading. -/
@[ext] structure Pose where
  x : ℚ
  y : ℚ
  c : ℚ
  s : ℚ
  unit : c * c + s * s = 1
deriving DecidableEq

/-- Position and heading of the second pose seen from the first. -/
instance : Mul Pose := ⟨fun p q => ⟨p.x + p.c * q.x - p.s * q.y, p.y + p.s * q.x + p.c * q.y, p.c * q.c - p.s * q.s, p.s * q.c + p.c * q.s, by
  linear_combination (q.c * q.c + q.s * q.s) * p.unit + q.unit⟩⟩

instance : One Pose := ⟨⟨0, 0, 1, 0, by ring⟩⟩

instance : Inv Pose := ⟨fun p => ⟨-(p.c * p.x + p.s * p.y), p.s * p.x - p.c * p.y, p.c, -p.s, by
  linear_combination p.unit⟩⟩

theorem mul_x (p q : Pose) : (p * q).x = p.x + p.c * q.x - p.s * q.y := rfl
theorem mul_y (p q : Pose) : (p * q).y = p.y + p.s * q.x + p.c * q.y := rfl
theorem mul_c (p q : Pose) : (p * q).c = p.c * q.c - p.s * q.s := rfl
theorem mul_s (p q : Pose) : (p * q).s = p.s * q.c + p.c * q.s := rfl
theorem one_x : (1 : Pose).x = 0 := rfl
theorem one_y : (1 : Pose).y = 0 := rfl
theorem one_c : (1 : Pose).c = 1 := rfl
theorem one_s : (1 : Pose).s = 0 := rfl
theorem inv_x (p : Pose) : p⁻¹.x = -(p.c * p.x + p.s * p.y) := rfl
theorem inv_y (p : Pose) : p⁻¹.y = p.s * p.x - p.c * p.y := rfl
theorem inv_c (p : Pose) : p⁻¹.c = p.c := rfl
theorem inv_s (p : Pose) : p⁻¹.s = -p.s := rfl

/-- The planar poses form a group. -/
instance : Group Pose where
  mul_assoc p q r := by ext <;> simp only [mul_x, mul_y, mul_c, mul_s] <;> ring
  one_mul p := by ext <;> simp only [mul_x, mul_y, mul_c, mul_s, one_x, one_y, one_c, one_s] <;> ring
  mul_one p := by ext <;> simp only [mul_x, mul_y, mul_c, mul_s, one_x, one_y, one_c, one_s] <;> ring
  inv_mul_cancel p := by
    ext
    · simp only [mul_x, inv_x, inv_c, inv_s, one_x]; ring
    · simp only [mul_y, inv_y, inv_c, inv_s, one_y]; ring
    · simp only [mul_c, inv_c, inv_s, one_c]; linear_combination p.unit
    · simp only [mul_s, inv_c, inv_s, one_s]; ring

/-- A pose without rotation. -/
def tr (x y : ℚ) : Pose := ⟨x, y, 1, 0, by ring⟩

/-- Position `(x, y)`, turned by the angle of the triangle with sides 3, 4, 5. -/
def turned (x y : ℚ) : Pose := ⟨x, y, 3 / 5, 4 / 5, by decide +kernel⟩

/-- Size of a translation: sum of the absolute coordinates. It is zero where the translation part of `Logmap` is, and at most √2 times
its length. -/
def len (p : Pose) : ℚ := |p.x| + |p.y|

/-- Size of a rotation: one minus the cosine of the angle. -/
def ang (p : Pose) : ℚ := 1 - p.c

abbrev Tp := PNode Pose
abbrev Ns := GNoise Unit

/-- The solver made from parameters. -/
def mk (p : Params ℚ) : Cfg Pose Tp Ns := p.cfgSimple Unit len ang true

/-- `setPcmSimple3DParams(1, 1, QUIET)`: translation and rotation thresholds 1. -/
def cfg : Cfg Pose Tp Ns := mk Demo.params

def env : Env Pose Ns where
  opt _ v := some v
  gnc g v _ _ := some (v, List.replicate g.length 1)
  avg l := l.head?
  iterLC l := l
  iterLM l := l

def btw (k1 k2 : Key) (m : Pose) : Btw Pose Ns := ⟨k1, k2, m, some ⟨(), false⟩⟩
def edge (k1 k2 : Key) (m : Pose) : Option (Factor Pose Ns) := some (.btw (btw k1 k2 m))
def pose (k : Key) (m : Pose) : Key × Val Pose := (k, .pose m)

/-- Poses do not commute. -/
example : turned 0 0 * tr 1 0 ≠ tr 1 0 * turned 0 0 := by decide +kernel

end RPGO.Plane
