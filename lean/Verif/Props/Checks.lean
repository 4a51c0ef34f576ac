import Verif.Proofs.Chain
import Verif.Spec.Demo
import Verif.Props.Geometry
import Mathlib.Tactic.Linarith
/-
C09 odometry as running product; C10 initial guess; C11 division by zero; C12 exact closures; C13 direction;
C15 thresholds; C42 parameter setters.
-/

namespace RPGO.Spec
variable {G T N : Type}

/-- Product of the measurements of a list of factors. -/
def measProd [Group G] (bs : List (Btw G N)) : G := (bs.map Btw.m).prod

/-- The factors of a chain between positions `i` and `j`. -/
def seg (L : List (Btw G N)) (i j : Nat) : List (Btw G N) := (L.take j).drop i

/-- `odom_trajectories_[c].getBetween(a, b)` in state `s` yields `t`. -/
def Reports (cfg : Cfg G T N) (s : St G T N) (c : Chr) (a b : Key) (t : T) : Prop :=
  ∃ p', trajBetween cfg c a b s.pcm = .ok p' t

/-- The factors of a list composed in order, starting from the default pose. -/
def accum (ops : Ops G T N) (bs : List (Btw G N)) : T :=
  bs.foldl (fun t b => match b.noise with | none => t | some n => ops.compose t (ops.ofFactor b.m n)) ops.dflt

/-- Key `k` is one of the keys of the chain of its robot that starts at `start`. -/
def OnChain (cfg : Cfg G T N) (start : Chr → Key) (h : List (Op G N)) (k : Key) : Prop :=
  ∃ i, i ≤ (robotOdom cfg (chr k) h).length ∧ k = after (start (chr k)) i

/-- The odometry of every robot is a chain that starts at key `start c` of that robot. -/
def Chains (cfg : Cfg G T N) (start : Chr → Key) (h : List (Op G N)) : Prop :=
  ∀ c, chr (start c) = c ∧ Chain (start c) (robotOdom cfg c h) ∧ (start c).toNat + (robotOdom cfg c h).length < 2 ^ 64

/-- Two closures between the same two robots (or within the same robot), in either direction. -/
def SamePair (x y : Btw G N) : Prop :=
  (chr x.k1 = chr y.k1 ∧ chr x.k2 = chr y.k2) ∨ (chr x.k1 = chr y.k2 ∧ chr x.k2 = chr y.k1)

/-- Verdict of the odometry check on `b` in state `s`. -/
def OdomCheck (cfg : Cfg G T N) (s : St G T N) (b : Btw G N) (v : Bool) : Prop :=
  ∃ p', isOdomConsistent cfg b s.pcm = .ok p' v

/-- Verdict of the pairwise check of `x` against `y` in state `s`. -/
def PairCheck (cfg : Cfg G T N) (s : St G T N) (x y : Btw G N) (v : Bool) : Prop :=
  ∃ p', areLoopsConsistent cfg x y s.pcm = .ok p' v

end RPGO.Spec

namespace RPGO
variable {G T N : Type}

theorem reports_iff {cfg : Cfg G T N} {s : St G T N} {c : Chr} {a b : Key} {t : T} :
    Spec.Reports cfg s c a b t ↔ t = btwn cfg.ops (lk cfg s.pcm c) a b := by
  obtain ⟨p', e, _⟩ := trajBetween_spec cfg c a b s.pcm
  constructor
  · rintro ⟨q, h⟩; rw [e] at h; cases h; rfl
  · rintro rfl; exact ⟨p', e⟩

theorem odomCheck_of {cfg : Cfg G T N} {s : St G T N} {b : Btw G N} (hn : b.noise.isSome) :
    Spec.OdomCheck cfg s b (odomVerdict cfg (lk cfg s.pcm) b) := by
  rcases isOdomConsistent_spec cfg b s.pcm with ⟨_, h, _⟩ | ⟨_, p', e, _⟩
  · rw [h] at hn; cases hn
  · exact ⟨p', e⟩

theorem odomCheck_val {cfg : Cfg G T N} {s : St G T N} {b : Btw G N} {v : Bool} (h : Spec.OdomCheck cfg s b v) :
    v = odomVerdict cfg (lk cfg s.pcm) b := by
  obtain ⟨q, h⟩ := h
  rcases isOdomConsistent_spec cfg b s.pcm with ⟨_, _, e⟩ | ⟨_, p', e, _⟩
  · rw [e] at h; cases h
  · rw [e] at h; cases h; rfl

theorem pairCheck_of {cfg : Cfg G T N} {s : St G T N} {x y : Btw G N} (hx : x.noise.isSome) (hy : y.noise.isSome) :
    Spec.PairCheck cfg s x y (loopVerdict cfg (lk cfg s.pcm) x y) := by
  rcases areLoopsConsistent_spec cfg x y s.pcm with ⟨_, h, _⟩ | ⟨_, p', e, _⟩
  · rcases h with h | h
    · rw [h] at hx; cases hx
    · rw [h] at hy; cases hy
  · exact ⟨p', e⟩

theorem pairCheck_val {cfg : Cfg G T N} {s : St G T N} {x y : Btw G N} {v : Bool} (h : Spec.PairCheck cfg s x y v) :
    v = loopVerdict cfg (lk cfg s.pcm) x y := by
  obtain ⟨q, h⟩ := h
  rcases areLoopsConsistent_spec cfg x y s.pcm with ⟨_, _, e⟩ | ⟨_, p', e, _⟩
  · rw [e] at h; cases h
  · rw [e] at h; cases h; rfl

theorem seg_zero (L : List (Btw G N)) (i : Nat) : Spec.seg L 0 i = L.take i := by simp [Spec.seg]

theorem take_seg (L : List (Btw G N)) {i j : Nat} (h : i ≤ j) : L.take j = L.take i ++ Spec.seg L i j := by
  unfold Spec.seg
  conv_lhs => rw [← List.take_append_drop i (L.take j)]
  rw [List.take_take, min_eq_left h]

theorem seg_length {L : List (Btw G N)} {i j : Nat} (hj : j ≤ L.length) : (Spec.seg L i j).length = j - i := by
  simp [Spec.seg, hj]

theorem mem_seg {L : List (Btw G N)} {i j : Nat} {b : Btw G N} (h : b ∈ Spec.seg L i j) : b ∈ L :=
  List.mem_of_mem_take (List.mem_of_mem_drop h)

theorem walk_append (ops : Ops G T N) (t : T) (xs ys : List (Btw G N)) :
    walk ops t (xs ++ ys) = walk ops (walk ops t xs) ys := List.foldl_append

theorem walk_cons_some (ops : Ops G T N) (t : T) (xs : List (Btw G N)) {x : Btw G N} {m : N} (h : x.noise = some m) :
    walk ops t (x :: xs) = walk ops (ops.compose t (ops.ofFactor x.m m)) xs := by
  simp [walk, h]

section Node
variable [Group G] {C K : Type} [Field K] [LinearOrder K]

/-- Does every factor carry rotation information? -/
def rotAll (bs : List (Btw G (GNoise C))) : Bool := bs.all fun b => b.noise.all fun n => !n.rotNaN

theorem walk_node (ops : Ops G (PNode G) (GNoise C)) (hc : ops.compose = PNode.compose)
    (hf : ops.ofFactor = PNode.ofFactor) (t : PNode G) (bs : List (Btw G (GNoise C))) (hn : ∀ b ∈ bs, b.noise.isSome) :
    walk ops t bs = ⟨t.pose * Spec.measProd bs, t.node + bs.length, t.rot && rotAll bs⟩ := by
  induction bs generalizing t with
  | nil => simp [walk, Spec.measProd, rotAll]
  | cons b bs ih =>
    have hb := hn b (by simp)
    obtain ⟨n, hb⟩ := Option.isSome_iff_exists.1 hb
    have : walk ops t (b :: bs) = walk ops (t.compose (PNode.ofFactor b.m n)) bs := by
      simp [walk, hb, hc, hf]
    rw [this, ih _ (fun x hx => hn x (by simp [hx]))]
    simp [PNode.compose, PNode.ofFactor, Spec.measProd, rotAll, hb, mul_assoc, Bool.and_assoc]
    omega

end Node

end RPGO

namespace RPGO.Props
open RPGO

section C09
variable {G : Type} [Group G] {C K : Type} [Field K] [LinearOrder K]

theorem after_chr {c : Chr} {k0 : Key} {L : List (Btw G (GNoise C))} (ch : Spec.Chain k0 L) (h0 : chr k0 = c)
    (hL : ∀ b ∈ L, chr b.k2 = c) {j : Nat} (hj : j ≤ L.length) : chr (Spec.after k0 j) = c := by
  cases j with
  | zero => simpa [Spec.after] using h0
  | succ j =>
    have hb : L[j]? = some L[j] := List.getElem?_eq_getElem (by omega)
    rw [← (Chain.get ch j hb).2]
    exact hL _ (List.getElem_mem _)

theorem robotOdom_chr {T N : Type} {cfg : Cfg G T N} {c : Chr} {h : List (Op G N)} :
    ∀ b ∈ Spec.robotOdom cfg c h, chr b.k2 = c := by
  intro b hb
  have := (List.mem_filter.1 hb).2
  simpa using this

/-- C09: if the odometry factors of robot `c` handed over so far form a chain `k0 → k0+1 → …`, the relative pose
reported between the `i`-th and the `j`-th key is the product of the measurements between them, backwards the
inverse of that product, and the hop count is the number of factors between them. -/
theorem C09_running_product (p : Params K) (tn rn : G → K) (signed : Bool) (hm : p.method ≠ .none)
    {env : Env G (GNoise C)} {h : List (Op G (GNoise C))} {s : St G (PNode G) (GNoise C)}
    (r : ReachOk (p.cfgSimple C tn rn signed) env h s) (c : Chr) (k0 : Key) (h0 : chr k0 = c)
    (ch : Spec.Chain k0 (Spec.robotOdom (p.cfgSimple C tn rn signed) c h))
    (hl : k0.toNat + (Spec.robotOdom (p.cfgSimple C tn rn signed) c h).length < 2 ^ 64)
    (i j : Nat) (hij : i ≤ j) (hj : j ≤ (Spec.robotOdom (p.cfgSimple C tn rn signed) c h).length) :
    ∃ x y, Spec.Reports (p.cfgSimple C tn rn signed) s c (Spec.after k0 i) (Spec.after k0 j) x ∧
      Spec.Reports (p.cfgSimple C tn rn signed) s c (Spec.after k0 j) (Spec.after k0 i) y ∧
      x.pose = Spec.measProd (Spec.seg (Spec.robotOdom (p.cfgSimple C tn rn signed) c h) i j) ∧
      y.pose = x.pose⁻¹ ∧ x.node = (j - i : Nat) ∧ y.node = (j - i : Nat) := by
  have hr : (p.cfgSimple C tn rn signed).rejection = true := by simp [Params.cfgSimple, Params.cfg, hm]
  obtain ⟨w, _⟩ := r.walked hr c k0 ch hl
  obtain ⟨t0, _, hw⟩ := w.walk
  have hwn := fun t (bs : List (Btw G (GNoise C))) hn => walk_node (p.cfgSimple C tn rn signed).ops rfl rfl t bs hn
  set L := Spec.robotOdom (p.cfgSimple C tn rn signed) c h with hLd
  have hLk : ∀ b ∈ L, chr b.k2 = c := robotOdom_chr
  refine ⟨_, _, reports_iff.2 rfl, reports_iff.2 rfl, ?_⟩
  have hci : chr (Spec.after k0 i) = c := after_chr ch h0 hLk (by omega)
  have hcj : chr (Spec.after k0 j) = c := after_chr ch h0 hLk hj
  unfold btwn
  rw [if_pos (hci.trans hcj.symm), if_pos (hcj.trans hci.symm), hw i (by omega), hw j hj, take_seg L hij, walk_append,
    hwn t0 _ (fun b hb => w.noise b (List.mem_of_mem_take hb)), hwn _ _ (fun b hb => w.noise b (mem_seg hb))]
  have hlen := seg_length (i := i) hj
  refine ⟨?_, ?_, ?_, ?_⟩
  · show (_ * _)⁻¹ * (_ * _ * _) = _
    group
  · show (_ * _ * _)⁻¹ * (_ * _) = ((_ * _)⁻¹ * (_ * _ * _))⁻¹
    group
  · show |(_ + _ + _ : Int) - (_ + _)| = _
    rw [hlen]
    have : (t0.node + ((L.take i).length : Int) + ((j - i : Nat) : Int)) - (t0.node + ((L.take i).length : Int)) = ((j - i : Nat) : Int) := by
      omega
    rw [this, abs_of_nonneg (by omega)]
  · show |(_ + _ : Int) - (_ + _ + _)| = _
    rw [hlen]
    have : (t0.node + ((L.take i).length : Int)) - (t0.node + ((L.take i).length : Int) + ((j - i : Nat) : Int)) = -((j - i : Nat) : Int) := by
      omega
    rw [this, abs_neg, abs_of_nonneg (by omega)]


end C09

section C09Cov
variable {G n : Type} [Group G] [Fintype n] [DecidableEq n] {K : Type} [Field K] [LinearOrder K]
variable (Ad : G →* Matrix n n ℝ) (t : n → Bool) (maha mahaT : G → Matrix n n ℝ → Option K)

theorem compose_dflt (a : PCov G (Matrix n n ℝ)) : a.compose (matEnv Ad t maha mahaT) PCov.dflt = a := by
  simp [PCov.compose, PCov.dflt, matEnv]

theorem walk_cov (ops : Ops G (PCov G (Matrix n n ℝ)) (GNoise (Matrix n n ℝ)))
    (hc : ops.compose = PCov.compose (matEnv Ad t maha mahaT)) (hd : ops.dflt = PCov.dflt)
    (a b : PCov G (Matrix n n ℝ)) (bs : List (Btw G (GNoise (Matrix n n ℝ)))) :
    walk ops (a.compose (matEnv Ad t maha mahaT) b) bs = a.compose (matEnv Ad t maha mahaT) (walk ops b bs) := by
  induction bs generalizing b with
  | nil => rfl
  | cons x bs ih =>
    cases hx : x.noise with
    | none => simpa [walk, hx] using ih b
    | some m =>
      have := ih (b.compose (matEnv Ad t maha mahaT) (ops.ofFactor x.m m))
      rw [← C14_compose_assoc] at this
      simpa [walk, hx, hc] using this

theorem walk_pose (ops : Ops G (PCov G (Matrix n n ℝ)) (GNoise (Matrix n n ℝ)))
    (hc : ops.compose = PCov.compose (matEnv Ad t maha mahaT)) (hf : ops.ofFactor = PCov.ofFactor (matEnv Ad t maha mahaT))
    (a : PCov G (Matrix n n ℝ)) (bs : List (Btw G (GNoise (Matrix n n ℝ)))) (hn : ∀ b ∈ bs, b.noise.isSome) :
    (walk ops a bs).pose = a.pose * Spec.measProd bs := by
  induction bs generalizing a with
  | nil => simp [walk, Spec.measProd]
  | cons x bs ih =>
    obtain ⟨m, hx⟩ := Option.isSome_iff_exists.1 (hn x (by simp))
    have : walk ops a (x :: bs) = walk ops (a.compose (matEnv Ad t maha mahaT) (PCov.ofFactor (matEnv Ad t maha mahaT) x.m m)) bs := by
      simp [walk, hx, hc, hf]
    rw [this, ih _ (fun y hy => hn y (by simp [hy]))]
    have hp : (PCov.ofFactor (matEnv Ad t maha mahaT) x.m m).pose = x.m := by
      unfold PCov.ofFactor; split <;> rfl
    simp [PCov.compose, Spec.measProd, hp, mul_assoc]

/-- C09 with covariances (PCM2D / PCM3D): the reported pose is the product of the measurements, and its
covariance is the covariance of those measurements composed one after the other, whenever that is positive
definite; the same covariance is reported backwards. -/
theorem C09_running_product_cov (p : Params K) (signed : Bool) (hm : p.method ≠ .none)
    {env : Env G (GNoise (Matrix n n ℝ))} {h : List (Op G (GNoise (Matrix n n ℝ)))}
    {s : St G (PCov G (Matrix n n ℝ)) (GNoise (Matrix n n ℝ))}
    (r : ReachOk (p.cfgCov (matEnv Ad t maha mahaT) signed) env h s) (c : Chr) (k0 : Key) (h0 : chr k0 = c)
    (L : List (Btw G (GNoise (Matrix n n ℝ)))) (hL : L = Spec.robotOdom (p.cfgCov (matEnv Ad t maha mahaT) signed) c h)
    (ch : Spec.Chain k0 L) (hl : k0.toNat + L.length < 2 ^ 64) (i j : Nat) (hij : i ≤ j) (hj : j ≤ L.length)
    (hpd : (Spec.accum (p.cfgCov (matEnv Ad t maha mahaT) signed).ops (Spec.seg L i j)).cov.PosDef) :
    ∃ x y, Spec.Reports (p.cfgCov (matEnv Ad t maha mahaT) signed) s c (Spec.after k0 i) (Spec.after k0 j) x ∧
      Spec.Reports (p.cfgCov (matEnv Ad t maha mahaT) signed) s c (Spec.after k0 j) (Spec.after k0 i) y ∧
      x.pose = Spec.measProd (Spec.seg L i j) ∧ y.pose = x.pose⁻¹ ∧
      x.cov = (Spec.accum (p.cfgCov (matEnv Ad t maha mahaT) signed).ops (Spec.seg L i j)).cov ∧ y.cov = x.cov := by
  have hr : (p.cfgCov (matEnv Ad t maha mahaT) signed).rejection = true := by simp [Params.cfgCov, Params.cfg, hm]
  subst hL
  obtain ⟨w, _⟩ := r.walked hr c k0 ch hl
  obtain ⟨t0, _, hw⟩ := w.walk
  refine ⟨_, _, reports_iff.2 rfl, reports_iff.2 rfl, ?_⟩
  have hLk : ∀ b ∈ Spec.robotOdom (p.cfgCov (matEnv Ad t maha mahaT) signed) c h, chr b.k2 = c := robotOdom_chr
  have hci : chr (Spec.after k0 i) = c := after_chr ch h0 hLk (by omega)
  have hcj : chr (Spec.after k0 j) = c := after_chr ch h0 hLk hj
  have hd : walk (p.cfgCov (matEnv Ad t maha mahaT) signed).ops PCov.dflt (Spec.seg (Spec.robotOdom (p.cfgCov (matEnv Ad t maha mahaT) signed) c h) i j) =
    Spec.accum (p.cfgCov (matEnv Ad t maha mahaT) signed).ops (Spec.seg (Spec.robotOdom (p.cfgCov (matEnv Ad t maha mahaT) signed) c h) i j) := rfl
  unfold btwn
  rw [if_pos (hci.trans hcj.symm), if_pos (hcj.trans hci.symm), hw i (by omega), hw j hj,
    take_seg _ hij, walk_append]
  generalize walk (p.cfgCov (matEnv Ad t maha mahaT) signed).ops t0 _ = a
  have ha : walk (p.cfgCov (matEnv Ad t maha mahaT) signed).ops a
      (Spec.seg (Spec.robotOdom (p.cfgCov (matEnv Ad t maha mahaT) signed) c h) i j) =
      a.compose (matEnv Ad t maha mahaT) (Spec.accum (p.cfgCov (matEnv Ad t maha mahaT) signed).ops
        (Spec.seg (Spec.robotOdom (p.cfgCov (matEnv Ad t maha mahaT) signed) c h) i j)) := by
    rw [← hd, ← walk_cov Ad t maha mahaT _ rfl rfl, compose_dflt]
  have hpose : (Spec.accum (p.cfgCov (matEnv Ad t maha mahaT) signed).ops
        (Spec.seg (Spec.robotOdom (p.cfgCov (matEnv Ad t maha mahaT) signed) c h) i j)).pose =
      Spec.measProd (Spec.seg (Spec.robotOdom (p.cfgCov (matEnv Ad t maha mahaT) signed) c h) i j) := by
    rw [← hd, walk_pose Ad t maha mahaT _ rfl rfl _ _ (fun b hb => w.noise b (mem_seg hb))]
    simp [PCov.dflt]
  rw [ha]
  obtain ⟨f1, f2⟩ := C14_between_compose Ad t maha mahaT a _ hpd
  obtain ⟨b1, b2⟩ := C14_between_backwards Ad t maha mahaT a _ hpd
  refine ⟨f1.trans hpose, ?_, f2, ?_⟩
  · exact b1.trans (by rw [← f1]; rfl)
  · exact b2.trans (by rw [← f2]; rfl)

end C09Cov
end RPGO.Props

namespace RPGO.Props
open RPGO

set_option maxRecDepth 100000 in
/-- The demo history is a chain of three steps, the middle segment of which has product 2 and two hops. -/
example : ∃ s, ReachOk Demo.cfg Demo.env Demo.h1 s ∧ Demo.params.method ≠ .none ∧ chr (Demo.a 0) = 97 ∧
    Spec.Chain (Demo.a 0) (Spec.robotOdom Demo.cfg 97 Demo.h1) ∧
    (Spec.robotOdom Demo.cfg 97 Demo.h1).length = 3 ∧
    Spec.measProd (Spec.seg (Spec.robotOdom Demo.cfg 97 Demo.h1) 1 3) = Demo.z 2 := by
  obtain ⟨s, r, _⟩ := Demo.runs_reach (cfg := Demo.cfg) (env := Demo.env) (ops := Demo.h1) (P := fun _ => true)
    (by decide +kernel)
  refine ⟨s, r, by decide, by decide, ?_, by decide +kernel, by decide +kernel⟩
  have : Spec.robotOdom Demo.cfg 97 Demo.h1 =
      [Demo.btw (Demo.a 0) (Demo.a 1) 1, Demo.btw (Demo.a 1) (Demo.a 2) 1, Demo.btw (Demo.a 2) (Demo.a 3) 1] := by
    decide +kernel
  rw [this]
  refine ⟨rfl, ?_, ?_, ?_, ?_, ?_, trivial⟩ <;> decide

/-! ### C10 -/

end RPGO.Props

namespace RPGO
variable {G T N : Type}

/-- The pose a robot's trajectory can start with. -/
def IsStart (ops : Ops G T N) (t : T) : Prop := t = ops.dflt ∨ ∃ g, t = ops.ofPose g

/-- Relative poses do not see where the trajectory starts. -/
def StartFree (ops : Ops G T N) : Prop :=
  ∀ t t', IsStart ops t → IsStart ops t' → ∀ xs ys : List (Btw G N),
    ops.between (walk ops t xs) (walk ops t ys) = ops.between (walk ops t' xs) (walk ops t' ys)

section
variable [Group G] {C K : Type} [Field K] [LinearOrder K]

theorem node_startFree (tn rn : G → K) (a b c d : K) : StartFree (PNode.ops C tn rn a b c d) := by
  intro t t' ht ht' xs ys
  have key : ∀ t, IsStart (PNode.ops C tn rn a b c d) t → ∀ bs, walk (PNode.ops C tn rn a b c d) t bs =
      ⟨t.pose * (walk (PNode.ops C tn rn a b c d) PNode.dflt bs).pose,
        (walk (PNode.ops C tn rn a b c d) PNode.dflt bs).node, (walk (PNode.ops C tn rn a b c d) PNode.dflt bs).rot⟩ := by
    intro t ht bs
    have gen : ∀ (bs : List (Btw G (GNoise C))) (u v : PNode G) (g : G), u = ⟨g * v.pose, v.node, v.rot⟩ →
        walk (PNode.ops C tn rn a b c d) u bs = ⟨g * (walk (PNode.ops C tn rn a b c d) v bs).pose,
          (walk (PNode.ops C tn rn a b c d) v bs).node, (walk (PNode.ops C tn rn a b c d) v bs).rot⟩ := by
      intro bs
      induction bs with
      | nil => intro u v g h; exact h
      | cons x bs ih =>
        intro u v g h
        cases hx : x.noise with
        | none => simpa [walk, hx] using ih u v g h
        | some m =>
          have := ih (PNode.compose u (PNode.ofFactor x.m m)) (PNode.compose v (PNode.ofFactor x.m m)) g
            (by rw [h]; simp [PNode.compose, mul_assoc])
          rw [walk_cons_some _ _ _ hx, walk_cons_some _ _ _ hx]
          exact this
    refine gen bs t PNode.dflt t.pose ?_
    rcases ht with rfl | ⟨g, rfl⟩
    · simp [PNode.ops, PNode.dflt]
    · simp [PNode.ops, PNode.ofPose, PNode.dflt]
  show PNode.between _ _ = PNode.between _ _
  rw [key t ht xs, key t ht ys, key t' ht' xs, key t' ht' ys]
  simp [PNode.between, mul_assoc]

theorem cov_startFree [AddGroup C] (env : CovEnv G C K) (a b : K) : StartFree (PCov.ops env a b) := by
  intro t t' ht ht' xs ys
  have key : ∀ t, IsStart (PCov.ops env a b) t → ∀ bs, walk (PCov.ops env a b) t bs =
      ⟨t.pose * (walk (PCov.ops env a b) PCov.dflt bs).pose,
        (walk (PCov.ops env a b) PCov.dflt bs).cov, (walk (PCov.ops env a b) PCov.dflt bs).rot⟩ := by
    intro t ht bs
    have gen : ∀ (bs : List (Btw G (GNoise C))) (u v : PCov G C) (g : G), u = ⟨g * v.pose, v.cov, v.rot⟩ →
        walk (PCov.ops env a b) u bs = ⟨g * (walk (PCov.ops env a b) v bs).pose,
          (walk (PCov.ops env a b) v bs).cov, (walk (PCov.ops env a b) v bs).rot⟩ := by
      intro bs
      induction bs with
      | nil => intro u v g h; exact h
      | cons x bs ih =>
        intro u v g h
        cases hx : x.noise with
        | none => simpa [walk, hx] using ih u v g h
        | some m =>
          have := ih (PCov.compose env u (PCov.ofFactor env x.m m)) (PCov.compose env v (PCov.ofFactor env x.m m)) g
            (by rw [h]; simp [PCov.compose, mul_assoc])
          rw [walk_cons_some _ _ _ hx, walk_cons_some _ _ _ hx]
          exact this
    refine gen bs t PCov.dflt t.pose ?_
    rcases ht with rfl | ⟨g, rfl⟩
    · simp [PCov.ops, PCov.dflt]
    · simp [PCov.ops, PCov.ofPose, PCov.dflt]
  show PCov.between env _ _ = PCov.between env _ _
  rw [key t ht xs, key t ht ys, key t' ht' xs, key t' ht' ys]
  simp [PCov.between, mul_assoc]

end

theorem ReachOk.onChain [Group G] {cfg : Cfg G T N} (hs : StartFree cfg.ops) {env env' : Env G N}
    (hr : cfg.rejection = true) {h h' : List (Op G N)} {s s' : St G T N} (r : ReachOk cfg env h s)
    (r' : ReachOk cfg env' h' s') {start : Chr → Key} (hc : Spec.Chains cfg start h)
    (same : ∀ c, Spec.robotOdom cfg c h = Spec.robotOdom cfg c h') {a b : Key} (hab : chr a = chr b)
    (ha : Spec.OnChain cfg start h a) (hb : Spec.OnChain cfg start h b) :
    btwn cfg.ops (lk cfg s.pcm (chr a)) a b = btwn cfg.ops (lk cfg s'.pcm (chr a)) a b := by
  obtain ⟨_, ch, hl⟩ := hc (chr a)
  have st : ∀ {env : Env G N} {h1 : List (Op G N)} {s1 : St G T N}, ReachOk cfg env h1 s1 →
      Spec.robotOdom cfg (chr a) h1 = Spec.robotOdom cfg (chr a) h →
      ∃ t0, IsStart cfg.ops t0 ∧ ∀ j, j ≤ (Spec.robotOdom cfg (chr a) h).length →
        lk cfg s1.pcm (chr a) (Spec.after (start (chr a)) j) = walk cfg.ops t0 ((Spec.robotOdom cfg (chr a) h).take j) := by
    intro env h1 s1 r1 e
    rw [← e] at ch hl ⊢
    obtain ⟨w, u⟩ := r1.walked hr (chr a) (start (chr a)) ch hl
    by_cases hL : Spec.robotOdom cfg (chr a) h1 = []
    · refine ⟨cfg.ops.dflt, Or.inl rfl, ?_⟩
      intro j _
      rw [u hL, hL]
      simp [walk]
    · obtain ⟨t0, ht, hw⟩ := w.walk
      exact ⟨t0, ht hL, hw⟩
  obtain ⟨t0, ht0, hw⟩ := st r rfl
  obtain ⟨t1, ht1, hw'⟩ := st r' (same _).symm
  obtain ⟨i, hi, ea⟩ := ha
  obtain ⟨j, hj, eb⟩ := hb
  rw [← hab] at hj eb
  unfold btwn
  rw [if_pos hab, if_pos hab]
  have e1 := hw i hi
  have e2 := hw j hj
  have e3 := hw' i hi
  have e4 := hw' j hj
  rw [← ea] at e1 e3
  rw [← eb] at e2 e4
  rw [e1, e2, e3, e4]
  exact hs t0 t1 ht0 ht1 _ _

theorem ReachOk.sameChecks [Group G] {cfg : Cfg G T N} (hs : StartFree cfg.ops) {env env' : Env G N}
    (hr : cfg.rejection = true) {h h' : List (Op G N)} {s s' : St G T N} (r : ReachOk cfg env h s)
    (r' : ReachOk cfg env' h' s') {start : Chr → Key} (hc : Spec.Chains cfg start h)
    (same : ∀ c, Spec.robotOdom cfg c h = Spec.robotOdom cfg c h') :
    (∀ b : Btw G N, b.noise.isSome → chr b.k1 = chr b.k2 → Spec.OnChain cfg start h b.k1 →
      Spec.OnChain cfg start h b.k2 → ∃ v, Spec.OdomCheck cfg s b v ∧ Spec.OdomCheck cfg s' b v) ∧
    (∀ x y : Btw G N, x.noise.isSome → y.noise.isSome → Spec.SamePair x y →
      (∀ k ∈ [x.k1, x.k2, y.k1, y.k2], Spec.OnChain cfg start h k) →
      ∃ v, Spec.PairCheck cfg s x y v ∧ Spec.PairCheck cfg s' x y v) := by
  constructor
  · intro b hn hk h1 h2
    refine ⟨_, odomCheck_of hn, ?_⟩
    have e : odomVerdict cfg (lk cfg s.pcm) b = odomVerdict cfg (lk cfg s'.pcm) b := by
      unfold odomVerdict odomErr
      rw [r.onChain hs hr r' hc same hk h1 h2]
    rw [e]
    exact odomCheck_of hn
  · intro x y hx hy hp hon
    refine ⟨_, pairCheck_of hx hy, ?_⟩
    simp only [List.mem_cons, List.not_mem_nil, or_false, forall_eq_or_imp, forall_eq] at hon
    obtain ⟨o1, o2, o3, o4⟩ := hon
    have e : loopVerdict cfg (lk cfg s.pcm) x y = loopVerdict cfg (lk cfg s'.pcm) x y := by
      unfold loopVerdict loopErr
      by_cases hsw : chr x.k1 = chr y.k1
      · have h2 : chr x.k2 = chr y.k2 := by
          rcases hp with hp | hp
          · exact hp.2
          · rw [hp.2, ← hsw, hp.1]
        simp only [hsw, ne_eq, not_true_eq_false, if_false]
        rw [← hsw, r.onChain hs hr r' hc same hsw o1 o3, r.onChain hs hr r' hc same h2 o2 o4]
      · have h1 : chr x.k1 = chr y.k2 ∧ chr x.k2 = chr y.k1 := by
          rcases hp with hp | hp
          · exact absurd hp.1 hsw
          · exact hp
        simp only [hsw, ne_eq, not_false_eq_true, if_true]
        rw [r.onChain hs hr r' hc same h1.1 o1 o4, r.onChain hs hr r' hc same h1.2 o2 o3]
    rw [e]
    exact pairCheck_of hx hy

end RPGO

namespace RPGO.Props
open RPGO

section C10
variable {G : Type} [Group G] {C K : Type} [Field K] [LinearOrder K]

/-- C10 (PCM_Simple2D / 3D): take any two call histories that hand over the same odometry factors, a chain for
every robot. Whatever values they supply and however they optimize, the relative pose reported between two keys of
a robot, every odometry verdict and every pairwise verdict between closures of the same robots are the same.
Missing: keys that have a value but no odometry, for which it is false, see `C10_false_without_odometry`. -/
theorem C10_independent_of_initial_guess_partial (p : Params K) (tn rn : G → K) (signed : Bool) (hm : p.method ≠ .none)
    {env env' : Env G (GNoise C)} {h h' : List (Op G (GNoise C))} {s s' : St G (PNode G) (GNoise C)}
    (r : ReachOk (p.cfgSimple C tn rn signed) env h s) (r' : ReachOk (p.cfgSimple C tn rn signed) env' h' s')
    (start : Chr → Key) (hc : Spec.Chains (p.cfgSimple C tn rn signed) start h)
    (same : ∀ c, Spec.robotOdom (p.cfgSimple C tn rn signed) c h = Spec.robotOdom (p.cfgSimple C tn rn signed) c h') :
    (∀ a b : Key, chr a = chr b → Spec.OnChain (p.cfgSimple C tn rn signed) start h a →
      Spec.OnChain (p.cfgSimple C tn rn signed) start h b → ∀ t t',
      Spec.Reports (p.cfgSimple C tn rn signed) s (chr a) a b t →
      Spec.Reports (p.cfgSimple C tn rn signed) s' (chr a) a b t' → t = t') ∧
    (∀ b : Btw G (GNoise C), b.noise.isSome → chr b.k1 = chr b.k2 →
      Spec.OnChain (p.cfgSimple C tn rn signed) start h b.k1 → Spec.OnChain (p.cfgSimple C tn rn signed) start h b.k2 →
      ∃ v, Spec.OdomCheck (p.cfgSimple C tn rn signed) s b v ∧ Spec.OdomCheck (p.cfgSimple C tn rn signed) s' b v) ∧
    (∀ x y : Btw G (GNoise C), x.noise.isSome → y.noise.isSome → Spec.SamePair x y →
      (∀ k ∈ [x.k1, x.k2, y.k1, y.k2], Spec.OnChain (p.cfgSimple C tn rn signed) start h k) →
      ∃ v, Spec.PairCheck (p.cfgSimple C tn rn signed) s x y v ∧ Spec.PairCheck (p.cfgSimple C tn rn signed) s' x y v) := by
  have hr : (p.cfgSimple C tn rn signed).rejection = true := by simp [Params.cfgSimple, Params.cfg, hm]
  have hs : StartFree (p.cfgSimple C tn rn signed).ops := node_startFree tn rn _ _ _ _
  refine ⟨?_, r.sameChecks hs hr r' hc same⟩
  intro a b hab ha hb t t' ht ht'
  rw [reports_iff.1 ht, reports_iff.1 ht', r.onChain hs hr r' hc same hab ha hb]

/-- C10 for PCM2D / PCM3D. Missing: as for `C10_independent_of_initial_guess_partial`. -/
theorem C10_independent_of_initial_guess_cov_partial [AddGroup C] (p : Params K) (ce : CovEnv G C K) (signed : Bool)
    (hm : p.method ≠ .none) {env env' : Env G (GNoise C)} {h h' : List (Op G (GNoise C))}
    {s s' : St G (PCov G C) (GNoise C)} (r : ReachOk (p.cfgCov ce signed) env h s)
    (r' : ReachOk (p.cfgCov ce signed) env' h' s') (start : Chr → Key)
    (hc : Spec.Chains (p.cfgCov ce signed) start h)
    (same : ∀ c, Spec.robotOdom (p.cfgCov ce signed) c h = Spec.robotOdom (p.cfgCov ce signed) c h') :
    (∀ a b : Key, chr a = chr b → Spec.OnChain (p.cfgCov ce signed) start h a →
      Spec.OnChain (p.cfgCov ce signed) start h b → ∀ t t',
      Spec.Reports (p.cfgCov ce signed) s (chr a) a b t → Spec.Reports (p.cfgCov ce signed) s' (chr a) a b t' → t = t') ∧
    (∀ b : Btw G (GNoise C), b.noise.isSome → chr b.k1 = chr b.k2 →
      Spec.OnChain (p.cfgCov ce signed) start h b.k1 → Spec.OnChain (p.cfgCov ce signed) start h b.k2 →
      ∃ v, Spec.OdomCheck (p.cfgCov ce signed) s b v ∧ Spec.OdomCheck (p.cfgCov ce signed) s' b v) ∧
    (∀ x y : Btw G (GNoise C), x.noise.isSome → y.noise.isSome → Spec.SamePair x y →
      (∀ k ∈ [x.k1, x.k2, y.k1, y.k2], Spec.OnChain (p.cfgCov ce signed) start h k) →
      ∃ v, Spec.PairCheck (p.cfgCov ce signed) s x y v ∧ Spec.PairCheck (p.cfgCov ce signed) s' x y v) := by
  have hr : (p.cfgCov ce signed).rejection = true := by simp [Params.cfgCov, Params.cfg, hm]
  have hs : StartFree (p.cfgCov ce signed).ops := cov_startFree ce _ _
  refine ⟨?_, r.sameChecks hs hr r' hc same⟩
  intro a b hab ha hb t t' ht ht'
  rw [reports_iff.1 ht, reports_iff.1 ht', r.onChain hs hr r' hc same hab ha hb]

end C10

end RPGO.Props

namespace RPGO.Props
open RPGO

/-- The demo history with other values for the robot's keys. -/
def otherGuess : List (Op Demo.Z Demo.Ns) :=
  [.update [some (.prior (Demo.a 0) (Demo.z 0)), Demo.edge (Demo.a 0) (Demo.a 1) 1] [Demo.pose (Demo.a 0) 7, Demo.pose (Demo.a 1) 1] false,
   .update [Demo.edge (Demo.a 1) (Demo.a 2) 1, Demo.edge (Demo.a 2) (Demo.a 3) 1] [Demo.pose (Demo.a 2) (-5), Demo.pose (Demo.a 3) 0] true]

set_option maxRecDepth 100000 in
/-- Two histories with the same odometry and different guesses. -/
example : (∃ s, ReachOk Demo.cfg Demo.env Demo.h1 s) ∧ (∃ s, ReachOk Demo.cfg Demo.env otherGuess s) ∧
    Spec.robotOdom Demo.cfg 97 Demo.h1 = Spec.robotOdom Demo.cfg 97 otherGuess ∧
    (Spec.robotOdom Demo.cfg 97 Demo.h1).length = 3 := by
  obtain ⟨s, r, _⟩ := Demo.runs_reach (cfg := Demo.cfg) (env := Demo.env) (ops := Demo.h1) (P := fun _ => true)
    (by decide +kernel)
  obtain ⟨s', r', _⟩ := Demo.runs_reach (cfg := Demo.cfg) (env := Demo.env) (ops := otherGuess) (P := fun _ => true)
    (by decide +kernel)
  exact ⟨⟨s, r⟩, ⟨s', r'⟩, by decide +kernel, by decide +kernel⟩

/-- Odometry a0 → a1 after the value `x` for a0, and a value for a key a9 that no odometry reaches. -/
def guess (x : ℤ) : List (Op Demo.Z Demo.Ns) :=
  [.update [Demo.edge (Demo.a 0) (Demo.a 1) 1] [Demo.pose (Demo.a 0) x, Demo.pose (Demo.a 1) 1, Demo.pose (Demo.a 9) 9] true]

set_option maxRecDepth 100000 in
/-- C10 needs keys that odometry reaches: the odometry verdict on a closure to a key that only has a value depends
on the guess for the robot's first key. -/
theorem C10_false_without_odometry :
    (∃ s, ReachOk Demo.cfg Demo.env (guess 0) s ∧ Spec.OdomCheck Demo.cfg s (Demo.btw (Demo.a 0) (Demo.a 9) 0) true) ∧
    (∃ s, ReachOk Demo.cfg Demo.env (guess 50) s ∧ Spec.OdomCheck Demo.cfg s (Demo.btw (Demo.a 0) (Demo.a 9) 0) false) := by
  have aux : ∀ x v, Demo.runs Demo.cfg Demo.env (guess x) (fun s =>
      match isOdomConsistent Demo.cfg (Demo.btw (Demo.a 0) (Demo.a 9) 0) s.pcm with
      | .ok _ w => w == v
      | _ => false) = true →
      ∃ s, ReachOk Demo.cfg Demo.env (guess x) s ∧ Spec.OdomCheck Demo.cfg s (Demo.btw (Demo.a 0) (Demo.a 9) 0) v := by
    intro x v h
    obtain ⟨s, r, h⟩ := Demo.runs_reach h
    refine ⟨s, r, ?_⟩
    split at h
    · rename_i q w e
      have : w = v := by simpa using h
      rw [this] at e
      exact ⟨_, e⟩
    · cases h
  exact ⟨aux 0 true (by decide +kernel), aux 50 false (by decide +kernel)⟩

end RPGO.Props
