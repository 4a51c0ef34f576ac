import Verif.Props.Checks
import Verif.Props.Graph
import Verif.Props.Values
/-
Poses with rounded arithmetic. Theorems that ask only for `[Mul G] [Inv G] [One G]` hold of them; those that ask for
`[Group G]` need exact arithmetic, and C10 is an example for which that matters.
-/

namespace RPGO.Rounding
open RPGO

/-- Positions on a line of which only multiples of 4 can be represented from 16 on, as with a short mantissa. -/
structure Rd where
  at' : ℤ
deriving DecidableEq

/-- Rounding towards zero. -/
def rnd (n : ℤ) : Rd := ⟨if 16 ≤ n.natAbs then 4 * (n.tdiv 4) else n⟩

instance : Mul Rd := ⟨fun a b => rnd (a.at' + b.at')⟩
instance : Inv Rd := ⟨fun a => ⟨-a.at'⟩⟩
instance : One Rd := ⟨⟨0⟩⟩

/-- The arithmetic is not associative: 16 + (3 + 3) = 20, (16 + 3) + 3 = 16. -/
theorem not_assoc : (⟨16⟩ : Rd) * (⟨3⟩ * ⟨3⟩) = ⟨20⟩ ∧ (⟨16⟩ : Rd) * ⟨3⟩ * ⟨3⟩ = ⟨16⟩ := by decide +kernel

/-- The solver of `Demo.cfg` with these poses. -/
def cfg : Cfg Rd (PNode Rd) (GNoise Unit) := Demo.params.cfgSimple Unit (fun g => (|g.at'| : ℤ)) (fun _ => 0) true

/-- As `Demo.env`. -/
def env : Env Rd (GNoise Unit) where
  opt _ v := some v
  gnc g v _ _ := some (v, List.replicate g.length 1)
  avg l := l.head?
  iterLC l := l
  iterLM l := l

theorem env_ok : env.Ok := ⟨fun _ => List.Perm.refl _, fun _ => List.Perm.refl _⟩

/-- A measurement of length `d`. -/
def btw (k1 k2 : Key) (d : ℤ) : Btw Rd (GNoise Unit) := ⟨k1, k2, ⟨d⟩, some ⟨(), false⟩⟩

/-- Two steps of length 3 of robot `a` from the guess `x`, then the exact closure a0 → a2 of length 6. -/
def walk (x : ℤ) : List (Op Rd (GNoise Unit)) :=
  [.update [some (.btw (btw (Demo.a 0) (Demo.a 1) 3))] [(Demo.a 0, .pose ⟨x⟩), (Demo.a 1, .pose ⟨x⟩)] false,
   .update [some (.btw (btw (Demo.a 1) (Demo.a 2) 3))] [(Demo.a 2, .pose ⟨x⟩)] false,
   .update [some (.btw (btw (Demo.a 0) (Demo.a 2) 6))] [] false]

end RPGO.Rounding

namespace RPGO.Props
open RPGO

set_option maxRecDepth 100000 in
/-- C10 needs exact arithmetic. The two steps and the closure are the same in both runs; starting from 0 the exact closure is
registered, starting from 100, where a step of length 3 is lost by rounding, it is rejected. -/
theorem C10_false_rounding :
    (∃ s, ReachOk Rounding.cfg Rounding.env (Rounding.walk 0) s ∧
      Spec.registered s ⟨97, 97⟩ = [Rounding.btw (Demo.a 0) (Demo.a 2) 6]) ∧
    (∃ s, ReachOk Rounding.cfg Rounding.env (Rounding.walk 100) s ∧ Spec.registered s ⟨97, 97⟩ = []) ∧
    ∀ c, Spec.robotOdom Rounding.cfg c (Rounding.walk 0) = Spec.robotOdom Rounding.cfg c (Rounding.walk 100) := by
  refine ⟨?_, ?_, ?_⟩
  · obtain ⟨s, r, h⟩ := Demo.runs_reach (cfg := Rounding.cfg) (env := Rounding.env) (ops := Rounding.walk 0)
      (P := fun s => decide (Spec.registered s ⟨97, 97⟩ = [Rounding.btw (Demo.a 0) (Demo.a 2) 6])) (by decide +kernel)
    exact ⟨s, r, of_decide_eq_true h⟩
  · obtain ⟨s, r, h⟩ := Demo.runs_reach (cfg := Rounding.cfg) (env := Rounding.env) (ops := Rounding.walk 100)
      (P := fun s => decide (Spec.registered s ⟨97, 97⟩ = [])) (by decide +kernel)
    exact ⟨s, r, of_decide_eq_true h⟩
  · have : ∀ c : Fin 256, Spec.robotOdom Rounding.cfg (BitVec.ofFin c) (Rounding.walk 0) =
        Spec.robotOdom Rounding.cfg (BitVec.ofFin c) (Rounding.walk 100) := by decide +kernel
    exact fun c => this c.toFin

/-- The layout of the graph (C16) and the keys of the estimate (C34) do not depend on exact arithmetic. -/
example {h : List (Op Rounding.Rd (GNoise Unit))} {s : St Rounding.Rd (PNode Rounding.Rd) (GNoise Unit)}
    (r : ReachOk Rounding.cfg Rounding.env h s) (hm : ∀ op ∈ h, Spec.Managed op) :
    (∃ lc lm : List (Btw Rounding.Rd (GNoise Unit)), s.nfg = (Spec.odomSoFar Rounding.cfg h).map Spec.elem ++ (Spec.specialSoFar Rounding.cfg h).map some ++
      lc.map Spec.elem ++ lm.map Spec.elem) ∧ ∀ k, k ∈ s.values.keys ↔ ∃ op ∈ h, k ∈ Spec.opKeys op := by
  obtain ⟨lc, lm, e, -, -⟩ := C16_layout Rounding.env_ok rfl r hm
  exact ⟨⟨lc, lm, e⟩, (C34_estimate_keys r).1⟩

end RPGO.Props
