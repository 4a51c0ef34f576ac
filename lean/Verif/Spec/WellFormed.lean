import Verif.Spec.Weights
/-
Vocabulary for well-formed input: batches that a solver should be able to process to the end.
-/

namespace RPGO
variable {G T N : Type}

/-- Given values stored by increasing key, the optimizers return a result: values of the same types for keys they were
given, and GNC also one weight per factor. -/
structure Env.Works (env : Env G N) : Prop where
  opt : ∀ g (v : Vals G), v.keys.Pairwise (fun a b => a.toNat < b.toNat) → ∃ r, env.opt g v = some r ∧ ∀ e ∈ r, ∃ y, v.find? e.1 = some y ∧ y.sameType e.2 = true
  gnc : ∀ g (v : Vals G), v.keys.Pairwise (fun a b => a.toNat < b.toNat) → ∀ known init, ∃ r w, env.gnc g v known init = some (r, w) ∧
    (∀ e ∈ r, ∃ y, v.find? e.1 = some y ∧ y.sameType e.2 = true) ∧ w.length = g.length

namespace Spec

/-- A history of `update` calls: new factors, new values, the optimization flag. -/
def updates (bs : List (Graph G N × Vals G × Bool)) : List (Op G N) := bs.map fun b => .update b.1 b.2.1 b.2.2

/-- The values supplied by the batches. -/
def given (bs : List (Graph G N × Vals G × Bool)) : Vals G := bs.flatMap fun b => b.2.1

/-- Well-formed input. Every key is given a value at most once. Between factors have Gaussian noise, and go from the
pose to the landmark when they observe a landmark. Every odometry factor starts at a pose whose value was supplied with
it or before, or belongs to a robot that already has odometry, from earlier batches or earlier in the same one. -/
structure WellFormed (cfg : Cfg G T N) (bs : List (Graph G N × Vals G × Bool)) : Prop where
  once : (given bs).keys.Nodup
  fair : ∀ b ∈ bs, ∀ x ∈ btws b.1, Fair cfg x
  start : ∀ bs1 fs vs o bs2, bs = bs1 ++ (fs, vs, o) :: bs2 → ∀ pre x post, odoms cfg vs fs = pre ++ x :: post →
    (∃ g, (x.k1, .pose g) ∈ given bs1 ++ vs) ∨ ∃ y ∈ odomSoFar cfg (updates bs1) ++ pre, chr y.k2 = chr x.k2

/-- Input that frame alignment can handle as well. The values of poses are poses. Odometry factors and landmark
observations name only poses whose value was supplied with them or before; odometry stays inside a robot, and each
landmark `l` is observed by one robot, `owner l`. -/
structure Placed (cfg : Cfg G T N) (owner : Key → Chr) (bs : List (Graph G N × Vals G × Bool)) : Prop where
  poses : ∀ k x, (k, x) ∈ given bs → chr k ∉ cfg.special → ∃ g, x = .pose g
  odom : ∀ bs1 fs vs o bs2, bs = bs1 ++ (fs, vs, o) :: bs2 → ∀ x ∈ odoms cfg vs fs,
    chr x.k1 = chr x.k2 ∧ x.k1 ∈ (given bs1 ++ vs).keys
  landmark : ∀ bs1 fs vs o bs2, bs = bs1 ++ (fs, vs, o) :: bs2 → ∀ x ∈ btws fs, chr x.k2 ∈ cfg.special →
    chr x.k1 ∉ cfg.special → chr x.k1 = owner x.k2 ∧ x.k1 ∈ (given bs1 ++ vs).keys

end Spec
end RPGO
