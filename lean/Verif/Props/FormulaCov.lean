import Verif.Props.Formula
import Verif.Spec.Demo
import Mathlib.LinearAlgebra.Matrix.NonsingularInverse
import Mathlib.LinearAlgebra.Matrix.Notation
/-
C53: the checks with covariances (PCM2D / PCM3D) as formulas.
-/

namespace RPGO.Spec
open Matrix
variable {G n : Type}

/-- The covariance of a measurement. -/
def covOf {C : Type} [Zero C] (b : Btw G (GNoise C)) : C := b.noise.elim 0 GNoise.cov

/-- Does the measurement have rotation information? -/
def rotKnown {C : Type} (b : Btw G (GNoise C)) : Bool := b.noise.elim true fun m => !m.rotNaN

/-- The covariance of a measurement as far as it is used: without rotation information only the translation components, the
others are zero. -/
def covUsed (t : n → Bool) (b : Btw G (GNoise (Matrix n n ℝ))) : Matrix n n ℝ :=
  if rotKnown b then covOf b else Matrix.of fun i j => if t i && t j then covOf b i j else 0

/-- Covariance of the product of measurements with independent errors: the covariance of each is transported by the
measurements after it. `ad g S` is the covariance `S` transported by the pose `g`. -/
def pathCov {C : Type} [Group G] [AddMonoid C] (ad : G → C → C) : List (Btw G (GNoise C)) → C
  | [] => 0
  | b :: bs => ad (measProd bs)⁻¹ (covOf b) + pathCov ad bs

variable [Group G] [Fintype n] [DecidableEq n]

/-- Transport of a covariance matrix by a pose, through the adjoint representation. -/
def conj (Ad : G →* Matrix n n ℝ) (g : G) (S : Matrix n n ℝ) : Matrix n n ℝ := Ad g * S * (Ad g)ᵀ

/-- The factors between two positions. -/
def span {N : Type} (L : List (Btw G N)) (i j : Nat) : List (Btw G N) := seg L (min i j) (max i j)

/-- Every factor has Gaussian noise with rotation information and a positive definite covariance. -/
def Full (bs : List (Btw G (GNoise (Matrix n n ℝ)))) : Prop :=
  ∀ b ∈ bs, ∃ m, b.noise = some m ∧ m.rotNaN = false ∧ m.cov.PosDef

end RPGO.Spec

namespace RPGO.Props
open RPGO Matrix
variable {G n : Type} [Group G] [Fintype n] [DecidableEq n] {K : Type} [Field K] [LinearOrder K]
variable (Ad : G →* Matrix n n ℝ) (t : n → Bool) (maha mahaT : G → Matrix n n ℝ → Option K)

/-- Composing measurements with rotation information. -/
theorem walk_full (ops : Ops G (PCov G (Matrix n n ℝ)) (GNoise (Matrix n n ℝ)))
    (hc : ops.compose = PCov.compose (matEnv Ad t maha mahaT)) (hf : ops.ofFactor = PCov.ofFactor (matEnv Ad t maha mahaT))
    (a : PCov G (Matrix n n ℝ)) {bs : List (Btw G (GNoise (Matrix n n ℝ)))} (hb : Spec.Full bs) :
    walk ops a bs = a.compose (matEnv Ad t maha mahaT) ⟨Spec.measProd bs, Spec.pathCov (Spec.conj Ad) bs, true⟩ := by
  induction bs generalizing a with
  | nil => simp [walk, Spec.measProd, Spec.pathCov, PCov.compose, matEnv]
  | cons x bs ih =>
    obtain ⟨m, hx, hr, _⟩ := hb x (by simp)
    have : walk ops a (x :: bs) = walk ops (a.compose (matEnv Ad t maha mahaT) (PCov.ofFactor (matEnv Ad t maha mahaT) x.m m)) bs := by
      simp [walk, hx, hc, hf]
    rw [this, ih _ (fun y hy => hb y (by simp [hy])), C14_compose_assoc]
    congr 1
    simp [PCov.ofFactor, hr, PCov.compose, Spec.measProd, Spec.pathCov, Spec.covOf, hx, matEnv, Spec.conj]

/-- The covariance along a nonempty path is positive definite. -/
theorem pathCov_posDef {bs : List (Btw G (GNoise (Matrix n n ℝ)))} (hb : Spec.Full bs) :
    (Spec.pathCov (Spec.conj Ad) bs).PosSemidef ∧ (bs ≠ [] → (Spec.pathCov (Spec.conj Ad) bs).PosDef) := by
  induction bs with
  | nil => exact ⟨Matrix.PosSemidef.zero, fun h => absurd rfl h⟩
  | cons x bs ih =>
    obtain ⟨m, hx, _, hp⟩ := hb x (by simp)
    obtain ⟨i1, i2⟩ := ih fun y hy => hb y (by simp [hy])
    have hx' : Spec.covOf x = m.cov := by simp [Spec.covOf, hx]
    have hps : (Spec.conj Ad (Spec.measProd bs)⁻¹ (Spec.covOf x)).PosSemidef := by
      rw [hx']
      simpa [Spec.conj] using hp.posSemidef.mul_mul_conjTranspose_same (Ad (Spec.measProd bs)⁻¹)
    refine ⟨hps.add i1, fun _ => ?_⟩
    by_cases hbs : bs = []
    · subst hbs
      simpa [Spec.pathCov, Spec.measProd, hx', Spec.conj] using hp
    · exact Matrix.PosDef.posSemidef_add hps (i2 hbs)

/-- The pose and covariance reported between two positions of a chain. -/
theorem relCov {p : Params K} {signed : Bool} (hm : p.method ≠ .none)
    {env : Env G (GNoise (Matrix n n ℝ))} {h : List (Op G (GNoise (Matrix n n ℝ)))}
    {s : St G (PCov G (Matrix n n ℝ)) (GNoise (Matrix n n ℝ))}
    (r : ReachOk (p.cfgCov (matEnv Ad t maha mahaT) signed) env h s) {start : Chr → Key}
    (hc : Spec.Chains (p.cfgCov (matEnv Ad t maha mahaT) signed) start h) {c : Chr}
    (hf : Spec.Full (Spec.robotOdom (p.cfgCov (matEnv Ad t maha mahaT) signed) c h)) {a b : Key} {i j : Nat}
    (ha : Spec.At c (start c) (Spec.robotOdom (p.cfgCov (matEnv Ad t maha mahaT) signed) c h) a i)
    (hb : Spec.At c (start c) (Spec.robotOdom (p.cfgCov (matEnv Ad t maha mahaT) signed) c h) b j) :
    btwn (p.cfgCov (matEnv Ad t maha mahaT) signed).ops (lk (p.cfgCov (matEnv Ad t maha mahaT) signed) s.pcm c) a b =
      ⟨Spec.rel (Spec.robotOdom (p.cfgCov (matEnv Ad t maha mahaT) signed) c h) i j,
        Spec.pathCov (Spec.conj Ad) (Spec.span (Spec.robotOdom (p.cfgCov (matEnv Ad t maha mahaT) signed) c h) i j), true⟩ := by
  have hr : (p.cfgCov (matEnv Ad t maha mahaT) signed).rejection = true := by simp [Params.cfgCov, Params.cfg, hm]
  obtain ⟨hca, hi, rfl⟩ := ha
  obtain ⟨hcb, hj, rfl⟩ := hb
  obtain ⟨h0, ch, hl⟩ := hc c
  obtain ⟨w, u⟩ := r.walked hr c (start c) ch hl
  have hwf := fun a {bs : List (Btw G (GNoise (Matrix n n ℝ)))} hb =>
    walk_full Ad t maha mahaT (p.cfgCov (matEnv Ad t maha mahaT) signed).ops rfl rfl a (bs := bs) hb
  generalize Spec.robotOdom (p.cfgCov (matEnv Ad t maha mahaT) signed) c h = L at *
  obtain ⟨t0, ht0, hw⟩ : ∃ t0 : PCov G (Matrix n n ℝ), t0.rot = true ∧ ∀ j, j ≤ L.length →
      lk (p.cfgCov (matEnv Ad t maha mahaT) signed) s.pcm c (Spec.after (start c) j) =
        walk (p.cfgCov (matEnv Ad t maha mahaT) signed).ops t0 (L.take j) := by
    by_cases hL : L = []
    · refine ⟨PCov.dflt, rfl, fun j _ => ?_⟩
      rw [u hL, hL]
      simp [walk]
      rfl
    · obtain ⟨t0, ht, hw⟩ := w.walk
      refine ⟨t0, ?_, hw⟩
      rcases ht hL with rfl | ⟨g, rfl⟩
      · rfl
      · rfl
  have hsub : ∀ {bs}, (∀ b ∈ bs, b ∈ L) → Spec.Full bs := fun h b hb => hf b (h b hb)
  unfold btwn
  rw [if_pos (hca.trans hcb.symm), hw i hi, hw j hj]
  show PCov.between (matEnv Ad t maha mahaT) _ _ = _
  have hrot : ∀ (a : PCov G (Matrix n n ℝ)) {bs : List (Btw G (GNoise (Matrix n n ℝ)))}, a.rot = true → Spec.Full bs →
      (walk (p.cfgCov (matEnv Ad t maha mahaT) signed).ops a bs).rot = true := by
    intro a bs ha hb
    rw [hwf a hb]
    simp [PCov.compose, ha]
  have hR : ∀ k, (walk (p.cfgCov (matEnv Ad t maha mahaT) signed).ops t0 (L.take k)).rot = true :=
    fun k => hrot t0 ht0 (hsub fun b hb => List.mem_of_mem_take hb)
  rcases Nat.lt_trichotomy i j with hij | rfl | hij
  · have hs : Spec.Full (Spec.seg L i j) := hsub fun b hb => mem_seg hb
    have hpd := (pathCov_posDef Ad hs).2 (by
      intro e
      have := seg_length (L := L) (i := i) hj
      rw [e] at this
      simp at this
      omega)
    have hj' := hR j
    rw [take_seg L hij.le, walk_append] at hj' ⊢
    generalize hA : walk (p.cfgCov (matEnv Ad t maha mahaT) signed).ops t0 (L.take i) = A at hj' ⊢
    have hAr : A.rot = true := hA ▸ hR i
    rw [hwf A hs]
    obtain ⟨f1, f2⟩ := C14_between_compose Ad t maha mahaT A ⟨Spec.measProd (Spec.seg L i j), Spec.pathCov (Spec.conj Ad) (Spec.seg L i j), true⟩ hpd
    have f3 : (A.between (matEnv Ad t maha mahaT) (A.compose (matEnv Ad t maha mahaT)
      ⟨Spec.measProd (Spec.seg L i j), Spec.pathCov (Spec.conj Ad) (Spec.seg L i j), true⟩)).rot = true := by
      simp [PCov.between, PCov.compose, hAr]
    generalize A.between (matEnv Ad t maha mahaT) (A.compose (matEnv Ad t maha mahaT)
      ⟨Spec.measProd (Spec.seg L i j), Spec.pathCov (Spec.conj Ad) (Spec.seg L i j), true⟩) = B at f1 f2 f3
    cases B
    simp only at f1 f2 f3
    subst f1 f2 f3
    simp [Spec.rel, Spec.span, hij.le]
  · have hi' := hR i
    generalize walk (p.cfgCov (matEnv Ad t maha mahaT) signed).ops t0 (L.take i) = A at hi'
    have e : (matEnv Ad t maha mahaT).ad (A.pose⁻¹ * A.pose)⁻¹ A.cov = A.cov := by
      rw [inv_mul_cancel, inv_one, ad_one]
    simp only [PCov.between, e, sub_self, ite_self, hi', Bool.and_self]
    simp [Spec.rel, Spec.span, Spec.seg, Spec.measProd, Spec.pathCov]
  · have hs : Spec.Full (Spec.seg L j i) := hsub fun b hb => mem_seg hb
    have hpd := (pathCov_posDef Ad hs).2 (by
      intro e
      have := seg_length (L := L) (i := j) hi
      rw [e] at this
      simp at this
      omega)
    rw [take_seg L hij.le, walk_append]
    generalize hA : walk (p.cfgCov (matEnv Ad t maha mahaT) signed).ops t0 (L.take j) = A
    have hAr : A.rot = true := hA ▸ hR j
    rw [hwf A hs]
    obtain ⟨f1, f2⟩ := C14_between_backwards Ad t maha mahaT A ⟨Spec.measProd (Spec.seg L j i), Spec.pathCov (Spec.conj Ad) (Spec.seg L j i), true⟩ hpd
    have f3 : ((A.compose (matEnv Ad t maha mahaT)
      ⟨Spec.measProd (Spec.seg L j i), Spec.pathCov (Spec.conj Ad) (Spec.seg L j i), true⟩).between (matEnv Ad t maha mahaT) A).rot = true := by
      simp [PCov.between, PCov.compose, hAr]
    generalize (A.compose (matEnv Ad t maha mahaT)
      ⟨Spec.measProd (Spec.seg L j i), Spec.pathCov (Spec.conj Ad) (Spec.seg L j i), true⟩).between (matEnv Ad t maha mahaT) A = B at f1 f2 f3
    cases B
    simp only at f1 f2 f3
    subst f1 f2 f3
    simp [Spec.rel, Spec.span, hij.le, Nat.not_le.2 hij]

omit [Group G] [Fintype n] [DecidableEq n] in
/-- The check on a pose. -/
theorem covCheck_iff {C : Type} (ce : CovEnv G C K) (thr : K) (g : G) (S : C) (rot : Bool) :
    PCov.check ce thr ⟨g, S, rot⟩ = true ↔ ∃ d, (if rot then ce.maha else ce.mahaT) g S = some d ∧ d < thr := by
  unfold PCov.check PCov.norm
  cases rot with
  | true =>
    simp only [if_true]
    cases ce.maha g S with
    | none => simp [ltThr]
    | some d => simp [ltThr]
  | false =>
    simp only [Bool.false_eq_true, if_false]
    cases ce.mahaT g S with
    | none => simp [ltThr]
    | some d => simp [ltThr]

/-- What is read from a measurement. -/
theorem ofFactor_used {b : Btw G (GNoise (Matrix n n ℝ))} {m : GNoise (Matrix n n ℝ)} (hb : b.noise = some m) :
    PCov.ofFactor (matEnv Ad t maha mahaT) b.m m = ⟨b.m, Spec.covUsed t b, Spec.rotKnown b⟩ := by
  unfold PCov.ofFactor Spec.covUsed Spec.rotKnown Spec.covOf
  rw [hb]
  cases h : m.rotNaN <;> simp [h, matEnv]

/-- C53, the odometry check with covariances: take a closure within robot `c` between positions `i` and `j` of its odometry,
the odometry with rotation information and positive definite covariances, the closure with or without rotation information. The
check accepts it exactly if it is disabled or the Mahalanobis norm of the mismatch is below the odometry threshold: the norm over
all components, or over the translation if the closure has no rotation information. The covariance used is that of the odometry
path transported by the closure, plus that of the closure. Missing: the covariance of the closure should be transported as
well, see `C53_false`. -/
theorem C53_odometry_check_partial (p : Params K) (signed : Bool) (hm : p.method ≠ .none)
    {env : Env G (GNoise (Matrix n n ℝ))} {h : List (Op G (GNoise (Matrix n n ℝ)))}
    {s : St G (PCov G (Matrix n n ℝ)) (GNoise (Matrix n n ℝ))}
    (r : ReachOk (p.cfgCov (matEnv Ad t maha mahaT) signed) env h s) {start : Chr → Key}
    (hc : Spec.Chains (p.cfgCov (matEnv Ad t maha mahaT) signed) start h) {c : Chr}
    {L : List (Btw G (GNoise (Matrix n n ℝ)))} (hL : L = Spec.robotOdom (p.cfgCov (matEnv Ad t maha mahaT) signed) c h)
    {b : Btw G (GNoise (Matrix n n ℝ))} (hf : Spec.Full L) (hfb : b.noise.isSome = true) {i j : Nat}
    (h1 : Spec.At c (start c) L b.k1 i) (h2 : Spec.At c (start c) L b.k2 j) :
    ∃ v, Spec.OdomCheck (p.cfgCov (matEnv Ad t maha mahaT) signed) s b v ∧
      (v = true ↔ p.odomCheck = false ∨ ∃ d,
        (if Spec.rotKnown b then maha else mahaT) (Spec.rel L i j * b.m⁻¹)
          (Spec.conj Ad b.m (Spec.pathCov (Spec.conj Ad) (Spec.span L i j)) + Spec.covUsed t b) = some d ∧ d < p.odomThr) := by
  subst hL
  obtain ⟨m, hn'⟩ := Option.isSome_iff_exists.1 hfb
  refine ⟨_, odomCheck_of (by rw [hn']; rfl), ?_⟩
  unfold odomVerdict
  rw [hn', Bool.or_eq_true]
  simp only [Bool.not_eq_true']
  refine or_congr Iff.rfl ?_
  have e : odomErr (p.cfgCov (matEnv Ad t maha mahaT) signed) (lk (p.cfgCov (matEnv Ad t maha mahaT) signed) s.pcm) b m =
      (⟨Spec.rel (Spec.robotOdom (p.cfgCov (matEnv Ad t maha mahaT) signed) c h) i j * b.m⁻¹,
        Spec.conj Ad b.m (Spec.pathCov (Spec.conj Ad) (Spec.span (Spec.robotOdom (p.cfgCov (matEnv Ad t maha mahaT) signed) c h) i j)) +
          Spec.covUsed t b, Spec.rotKnown b⟩ : PCov G (Matrix n n ℝ)) := by
    unfold odomErr
    rw [h1.1, relCov Ad t maha mahaT hm r hc hf h1 h2]
    show PCov.compose _ _ (PCov.inverse (PCov.ofFactor _ b.m m)) = _
    rw [ofFactor_used Ad t maha mahaT hn']
    simp [PCov.compose, PCov.inverse]
    rfl
  rw [e]
  exact covCheck_iff _ _ _ _ _

/-- C53, the pairwise check with covariances, for two closures `x`, `y` from robot `c` to robot `d` (possibly the same), between
positions `i → j` and `k → l`; if one of them has no rotation information only the translation counts. Missing: the covariance of the inverted part (the odometry of `c` and `y`) should be transported by
its pose. -/
theorem C53_pairwise_check_partial (p : Params K) (signed : Bool) (hm : p.method ≠ .none)
    {env : Env G (GNoise (Matrix n n ℝ))} {h : List (Op G (GNoise (Matrix n n ℝ)))}
    {s : St G (PCov G (Matrix n n ℝ)) (GNoise (Matrix n n ℝ))}
    (r : ReachOk (p.cfgCov (matEnv Ad t maha mahaT) signed) env h s) {start : Chr → Key}
    (hc : Spec.Chains (p.cfgCov (matEnv Ad t maha mahaT) signed) start h) {c d : Chr}
    {L M : List (Btw G (GNoise (Matrix n n ℝ)))} (hL : L = Spec.robotOdom (p.cfgCov (matEnv Ad t maha mahaT) signed) c h)
    (hM : M = Spec.robotOdom (p.cfgCov (matEnv Ad t maha mahaT) signed) d h)
    {x y : Btw G (GNoise (Matrix n n ℝ))} (hfL : Spec.Full L) (hfM : Spec.Full M) (hx : x.noise.isSome = true)
    (hy : y.noise.isSome = true) {i j k l : Nat}
    (hi : Spec.At c (start c) L x.k1 i) (hj : Spec.At d (start d) M x.k2 j)
    (hk : Spec.At c (start c) L y.k1 k) (hl : Spec.At d (start d) M y.k2 l) :
    ∃ v, Spec.PairCheck (p.cfgCov (matEnv Ad t maha mahaT) signed) s x y v ∧
      (v = true ↔ p.loopCheck = false ∨ ∃ e,
        (if Spec.rotKnown y && Spec.rotKnown x then maha else mahaT) ((Spec.rel L i k * y.m)⁻¹ * x.m * Spec.rel M j l)
          (Spec.conj Ad (Spec.rel M j l)⁻¹
            (Spec.conj Ad x.m⁻¹ (Spec.conj Ad y.m⁻¹ (Spec.pathCov (Spec.conj Ad) (Spec.span L i k)) + Spec.covUsed t y) + Spec.covUsed t x) +
              Spec.pathCov (Spec.conj Ad) (Spec.span M j l)) = some e ∧ e < p.lcThr) := by
  subst hL; subst hM
  obtain ⟨nx, ex⟩ := Option.isSome_iff_exists.1 hx
  obtain ⟨ny, ey⟩ := Option.isSome_iff_exists.1 hy
  refine ⟨_, pairCheck_of (by rw [ex]; rfl) (by rw [ey]; rfl), ?_⟩
  unfold loopVerdict
  rw [ex, ey, Bool.or_eq_true]
  simp only [Bool.not_eq_true']
  refine or_congr Iff.rfl ?_
  have hcc : chr x.k1 = chr y.k1 := hi.1.trans hk.1.symm
  have hR1 := relCov Ad t maha mahaT hm r hc hfL hi hk
  have hR2 := relCov Ad t maha mahaT hm r hc hfM hj hl
  generalize Spec.robotOdom (p.cfgCov (matEnv Ad t maha mahaT) signed) c h = L at *
  generalize Spec.robotOdom (p.cfgCov (matEnv Ad t maha mahaT) signed) d h = M at *
  have e : loopErr (p.cfgCov (matEnv Ad t maha mahaT) signed) (lk (p.cfgCov (matEnv Ad t maha mahaT) signed) s.pcm) x y nx ny =
      (⟨(Spec.rel L i k * y.m)⁻¹ * x.m * Spec.rel M j l,
        Spec.conj Ad (Spec.rel M j l)⁻¹
            (Spec.conj Ad x.m⁻¹ (Spec.conj Ad y.m⁻¹ (Spec.pathCov (Spec.conj Ad) (Spec.span L i k)) + Spec.covUsed t y) + Spec.covUsed t x) +
              Spec.pathCov (Spec.conj Ad) (Spec.span M j l), Spec.rotKnown y && Spec.rotKnown x⟩ : PCov G (Matrix n n ℝ)) := by
    unfold loopErr
    simp only [hcc, ne_eq, not_true_eq_false, if_false]
    rw [hk.1, hj.1, hR1, hR2]
    show PCov.compose _ (PCov.compose _ (PCov.inverse (PCov.compose _ _ (PCov.ofFactor _ y.m ny))) (PCov.ofFactor _ x.m nx)) _ = _
    rw [ofFactor_used Ad t maha mahaT ex, ofFactor_used Ad t maha mahaT ey]
    simp only [PCov.compose, PCov.inverse, Bool.true_and, Bool.and_true]
    rfl
  rw [e]
  exact covCheck_iff _ _ _ _ _

/-! ### The covariance of an inverse is not transported -/

/-- Poses of a robot that moves in the plane without turning. -/
abbrev Pl := Multiplicative (ℤ × ℤ)

/-- The pose at `(x, y)`. -/
def at2 (x y : ℤ) : Pl := Multiplicative.ofAdd (x, y)

/-- The adjoint of a planar pose without rotation, in the order (x, y, θ) of GTSAM's Pose2. -/
def adj2 (g : Pl) : Matrix (Fin 3) (Fin 3) ℚ :=
  !![1, 0, (g.toAdd.2 : ℚ); 0, 1, -(g.toAdd.1 : ℚ); 0, 0, 1]

/-- The logarithm of a planar pose without rotation. -/
def log2 (g : Pl) : Fin 3 → ℚ := ![(g.toAdd.1 : ℚ), (g.toAdd.2 : ℚ), 0]

/-- Determinant of a 3×3 matrix. -/
def det3 (S : Matrix (Fin 3) (Fin 3) ℚ) : ℚ :=
  S 0 0 * S 1 1 * S 2 2 - S 0 0 * S 1 2 * S 2 1 - S 0 1 * S 1 0 * S 2 2 + S 0 1 * S 1 2 * S 2 0 + S 0 2 * S 1 0 * S 2 1 -
    S 0 2 * S 1 1 * S 2 0

/-- The square of the Mahalanobis norm, for a translation. -/
def sq3 (g : Pl) (S : Matrix (Fin 3) (Fin 3) ℚ) : ℚ :=
  let x := log2 g 0
  let y := log2 g 1
  (x * x * (S 1 1 * S 2 2 - S 1 2 * S 2 1) + x * y * (S 0 2 * S 2 1 - S 0 1 * S 2 2) + y * x * (S 1 2 * S 2 0 - S 1 0 * S 2 2) +
    y * y * (S 0 0 * S 2 2 - S 0 2 * S 2 0)) / det3 S

/-- `sq3` is the usual formula. -/
theorem sq3_eq (g : Pl) (S : Matrix (Fin 3) (Fin 3) ℚ) (h : S.det ≠ 0) : sq3 g S = log2 g ⬝ᵥ (S⁻¹ *ᵥ log2 g) := by
  have hd : det3 S = S.det := (Matrix.det_fin_three S).symm
  rw [Matrix.inv_def, Ring.inverse_eq_inv', Matrix.adjugate_fin_three]
  simp [sq3, log2, hd, Matrix.mulVec, dotProduct, Fin.sum_univ_three]
  field_simp
  ring

/-- Covariances of planar poses: positive definiteness by leading minors. Norms are squared, which makes no difference for a
threshold of 1. -/
def planarCov : CovEnv Pl (Matrix (Fin 3) (Fin 3) ℚ) ℚ where
  ad g S := adj2 g * S * (adj2 g)ᵀ
  posDef S := decide (0 < S 0 0 ∧ 0 < S 0 0 * S 1 1 - S 0 1 * S 1 0 ∧ 0 < det3 S)
  transPart S := S
  maha g S := some (sq3 g S)
  mahaT g S := some (sq3 g S)

/-- Parameters after `setPcm2DParams(1, 1)`. -/
def covCfg : Cfg Pl (PCov Pl (Matrix (Fin 3) (Fin 3) ℚ)) (GNoise (Matrix (Fin 3) (Fin 3) ℚ)) :=
  (Params.default.apply (.pcm2D 1 1 .quiet)).cfgCov planarCov true

/-- An optimizer that returns its initial values. -/
def covEnv : Env Pl (GNoise (Matrix (Fin 3) (Fin 3) ℚ)) where
  opt _ v := some v
  gnc g v _ _ := some (v, List.replicate g.length 1)
  avg l := l.head?
  iterLC l := l
  iterLM l := l

/-- A measurement `(x, y)` with the identity as covariance. -/
def edge2 (k1 k2 : Key) (x y : ℤ) : Btw Pl (GNoise (Matrix (Fin 3) (Fin 3) ℚ)) :=
  ⟨k1, k2, at2 x y, some ⟨1, false⟩⟩

/-- Two steps of length 7 along y, then the closure `(6, 10)` between the ends. -/
def covRun : List (Op Pl (GNoise (Matrix (Fin 3) (Fin 3) ℚ))) :=
  [.update [some (.btw (edge2 (Demo.a 0) (Demo.a 1) 0 7))] [(Demo.a 0, .pose (at2 0 0)), (Demo.a 1, .pose (at2 0 7))] true,
   .update [some (.btw (edge2 (Demo.a 1) (Demo.a 2) 0 7))] [(Demo.a 2, .pose (at2 0 14))] true,
   .update [some (.btw (edge2 (Demo.a 0) (Demo.a 2) 6 10))] [] true]

set_option maxRecDepth 100000 in
/-- C53 is false of the code: the covariance of an inverted pose is copied, not transported. In this run the closure is
registered although the Mahalanobis norm of its mismatch, under the covariance propagated to first order (both the odometry and
the closure transported by the closure), is above twice the threshold 1 (norms are squared here). -/
theorem C53_false : ∃ s, ReachOk covCfg covEnv covRun s ∧
    Spec.registered s ⟨97, 97⟩ = [edge2 (Demo.a 0) (Demo.a 2) 6 10] ∧
    ∃ L, L = Spec.robotOdom covCfg 97 covRun ∧
      4 < sq3 (Spec.rel L 0 2 * (at2 6 10)⁻¹)
        (planarCov.ad (at2 6 10) (Spec.pathCov planarCov.ad (Spec.span L 0 2) + 1)) := by
  obtain ⟨s, r, h⟩ := Demo.runs_reach (cfg := covCfg) (env := covEnv) (ops := covRun)
    (P := fun s => decide (Spec.registered s ⟨97, 97⟩ = [edge2 (Demo.a 0) (Demo.a 2) 6 10])) (by decide +kernel)
  exact ⟨s, r, of_decide_eq_true h, _, rfl, by decide +kernel⟩

/-- When the copied covariance is right: the formula of `C53_odometry_check_partial` is the first-order covariance exactly if
transporting the covariance of the closure by the closure does not change it. -/
theorem C53_inverse_partial (Ad : G →* Matrix n n ℝ) (m : G) (P S : Matrix n n ℝ) :
    Spec.conj Ad m P + S = Spec.conj Ad m (P + S) ↔ Spec.conj Ad m S = S := by
  unfold Spec.conj
  rw [Matrix.mul_add, Matrix.add_mul]
  constructor
  · intro h; exact (add_left_cancel h).symm
  · intro h; rw [h]

/-- Robots on a line, variances as 1×1 matrices, and the same two steps as in `Demo.h1`. -/
noncomputable def lineCfg : Cfg Demo.Z (PCov Demo.Z (Matrix (Fin 1) (Fin 1) ℝ)) (GNoise (Matrix (Fin 1) (Fin 1) ℝ)) :=
  (Params.default.apply (.pcm3D (1 : ℚ) 1 .quiet)).cfgCov
    (matEnv (1 : Demo.Z →* Matrix (Fin 1) (Fin 1) ℝ) (fun _ => true) (fun g _ => some (Demo.len g)) (fun g _ => some (Demo.len g))) true

/-- The environment of these examples. -/
def lineEnv : Env Demo.Z (GNoise (Matrix (Fin 1) (Fin 1) ℝ)) where
  opt _ v := some v
  gnc g v _ _ := some (v, List.replicate g.length 1)
  avg l := l.head?
  iterLC l := l
  iterLM l := l

/-- A unit step with variance 1. -/
noncomputable def step1 (k1 k2 : Key) (d : ℤ) : Btw Demo.Z (GNoise (Matrix (Fin 1) (Fin 1) ℝ)) := ⟨k1, k2, Demo.z d, some ⟨1, false⟩⟩

/-- Two steps of robot `a`. -/
noncomputable def lineRun : List (Op Demo.Z (GNoise (Matrix (Fin 1) (Fin 1) ℝ))) :=
  [.update [some (.btw (step1 (Demo.a 0) (Demo.a 1) 1))] [Demo.pose (Demo.a 0) 0, Demo.pose (Demo.a 1) 1] true,
   .update [some (.btw (step1 (Demo.a 1) (Demo.a 2) 1))] [Demo.pose (Demo.a 2) 2] true]

set_option maxRecDepth 100000 in
/-- The hypotheses of `C53_odometry_check_partial` and `C53_pairwise_check_partial` are met. -/
example : ∃ s, ReachOk lineCfg lineEnv lineRun s ∧ Spec.Chains lineCfg (fun c => symKey c 0) lineRun ∧
    Spec.robotOdom lineCfg 97 lineRun = [step1 (Demo.a 0) (Demo.a 1) 1, step1 (Demo.a 1) (Demo.a 2) 1] ∧
    Spec.Full [step1 (Demo.a 0) (Demo.a 1) 1, step1 (Demo.a 1) (Demo.a 2) 1] ∧
    (step1 (Demo.a 0) (Demo.a 2) 2).noise.isSome = true ∧ Spec.rotKnown (step1 (Demo.a 0) (Demo.a 2) 2) = true ∧
    Spec.rotKnown ({ step1 (Demo.a 0) (Demo.a 2) 2 with noise := some ⟨1, true⟩ } : Btw _ (GNoise (Matrix (Fin 1) (Fin 1) ℝ))) = false ∧
    Spec.At 97 (symKey 97 0) (Spec.robotOdom lineCfg 97 lineRun) (Demo.a 0) 0 ∧
    Spec.At 97 (symKey 97 0) (Spec.robotOdom lineCfg 97 lineRun) (Demo.a 2) 2 := by
  obtain ⟨s, r, _⟩ := Demo.runs_reach (cfg := lineCfg) (env := lineEnv) (ops := lineRun)
    (P := fun _ => true) (by decide +kernel)
  have e : Spec.robotOdom lineCfg 97 lineRun = [step1 (Demo.a 0) (Demo.a 1) 1, step1 (Demo.a 1) (Demo.a 2) 1] := by
    with_unfolding_all rfl
  have hp : ∀ k1 k2 d, Spec.Full [step1 k1 k2 d] := fun k1 k2 d b hb => by
    cases List.mem_singleton.1 hb; exact ⟨_, rfl, rfl, Matrix.PosDef.one⟩
  refine ⟨s, r, chains_of (cfg := lineCfg) (h := lineRun) (by decide +kernel), e, ?_, rfl, rfl, rfl, ⟨by decide, by rw [e]; decide, by decide⟩,
    ⟨by decide, by rw [e]; decide, by decide⟩⟩
  intro b hb
  rcases List.mem_cons.1 hb with h | h
  · exact hp _ _ _ b (List.mem_singleton.2 h)
  · exact hp _ _ _ b h

end RPGO.Props
