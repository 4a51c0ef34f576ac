import Verif.Props.FormulaCov
/-
C94: the checks with covariances (PCM2D / PCM3D) when measurements have no rotation information.
-/

namespace RPGO.Spec
open Matrix
variable {G n : Type} [Group G] [Fintype n] [DecidableEq n]

/-- Covariance of the product of measurements with independent errors, of each measurement only what is known: as `pathCov`,
with `covUsed` for `covOf`. -/
def pathUsed (Ad : G →* Matrix n n ℝ) (t : n → Bool) : List (Btw G (GNoise (Matrix n n ℝ))) → Matrix n n ℝ
  | [] => 0
  | b :: bs => conj Ad (measProd bs)⁻¹ (covUsed t b) + pathUsed Ad t bs

/-- Every factor has Gaussian noise, and what is known of its covariance is positive semidefinite. -/
def Semi (t : n → Bool) (bs : List (Btw G (GNoise (Matrix n n ℝ)))) : Prop :=
  ∀ b ∈ bs, b.noise.isSome ∧ (covUsed t b).PosSemidef

open Classical in
/-- The covariance the code uses for the odometry from position `i` to position `j`: that of the path, but forwards, if that is
singular, minus that of the path, transported by it. -/
noncomputable def relUsed (Ad : G →* Matrix n n ℝ) (t : n → Bool) (L : List (Btw G (GNoise (Matrix n n ℝ)))) (i j : Nat) :
    Matrix n n ℝ :=
  if i < j ∧ ¬ (pathUsed Ad t (span L i j)).PosDef then - conj Ad (rel L i j) (pathUsed Ad t (span L i j))
  else pathUsed Ad t (span L i j)

end RPGO.Spec

namespace RPGO.Props
open RPGO Matrix
variable {G n : Type} [Group G] [Fintype n] [DecidableEq n] {K : Type} [Field K] [LinearOrder K]
variable (Ad : G →* Matrix n n ℝ) (t : n → Bool) (maha mahaT : G → Matrix n n ℝ → Option K)

/-- Composing measurements, with or without rotation information. -/
theorem walk_used (ops : Ops G (PCov G (Matrix n n ℝ)) (GNoise (Matrix n n ℝ)))
    (hc : ops.compose = PCov.compose (matEnv Ad t maha mahaT)) (hf : ops.ofFactor = PCov.ofFactor (matEnv Ad t maha mahaT))
    (a : PCov G (Matrix n n ℝ)) {bs : List (Btw G (GNoise (Matrix n n ℝ)))} (hb : Spec.Semi t bs) :
    walk ops a bs = a.compose (matEnv Ad t maha mahaT) ⟨Spec.measProd bs, Spec.pathUsed Ad t bs, rotAll bs⟩ := by
  induction bs generalizing a with
  | nil => simp [walk, Spec.measProd, Spec.pathUsed, PCov.compose, matEnv, rotAll]
  | cons x bs ih =>
    obtain ⟨m, hx⟩ := Option.isSome_iff_exists.1 (hb x (by simp)).1
    have : walk ops a (x :: bs) = walk ops (a.compose (matEnv Ad t maha mahaT) (PCov.ofFactor (matEnv Ad t maha mahaT) x.m m)) bs := by
      simp [walk, hx, hc, hf]
    rw [this, ih _ (fun y hy => hb y (by simp [hy])), C14_compose_assoc, ofFactor_used Ad t maha mahaT hx]
    congr 1
    simp [PCov.compose, Spec.measProd, Spec.pathUsed, matEnv, Spec.conj, rotAll, Spec.rotKnown, hx]

/-- The covariance known along a path is positive semidefinite. -/
theorem pathUsed_posSemidef {bs : List (Btw G (GNoise (Matrix n n ℝ)))} (hb : Spec.Semi t bs) :
    (Spec.pathUsed Ad t bs).PosSemidef := by
  induction bs with
  | nil => exact Matrix.PosSemidef.zero
  | cons x bs ih =>
    have hps : (Spec.conj Ad (Spec.measProd bs)⁻¹ (Spec.covUsed t x)).PosSemidef := by
      simpa [Spec.conj] using (hb x (by simp)).2.mul_mul_conjTranspose_same (Ad (Spec.measProd bs)⁻¹)
    exact hps.add (ih fun y hy => hb y (by simp [hy]))

open Classical in
/-- Forwards: if the covariance of `d` is singular, minus that covariance comes back, transported by `d`. -/
theorem between_compose_semi (a d : PCov G (Matrix n n ℝ)) :
    a.between (matEnv Ad t maha mahaT) (a.compose (matEnv Ad t maha mahaT) d) =
      ⟨d.pose, if d.cov.PosDef then d.cov else - Spec.conj Ad d.pose d.cov, a.rot && d.rot⟩ := by
  have hr : a.pose⁻¹ * (a.pose * d.pose) = d.pose := by group
  have hr' : (a.pose * d.pose)⁻¹ * a.pose = d.pose⁻¹ := by group
  have hc : (matEnv Ad t maha mahaT).ad d.pose⁻¹ a.cov + d.cov - (matEnv Ad t maha mahaT).ad d.pose⁻¹ a.cov = d.cov := by abel
  have h1 : a.cov - (matEnv Ad t maha mahaT).ad d.pose ((matEnv Ad t maha mahaT).ad d.pose⁻¹ a.cov + d.cov) =
      - Spec.conj Ad d.pose d.cov := by
    rw [ad_add, ad_mul, mul_inv_cancel, ad_one]
    show a.cov - (a.cov + Spec.conj Ad d.pose d.cov) = _
    abel
  simp only [PCov.between, PCov.compose, hr, hr', hc, inv_inv, h1]
  congr 1
  · by_cases hd : d.cov.PosDef
    · rw [if_pos hd, if_pos (by simp [matEnv, hd])]
    · rw [if_neg hd, if_neg (by simp [matEnv, hd])]
  · cases a.rot <;> simp

/-- Backwards: the covariance of `d` comes back. -/
theorem between_backwards_semi (a d : PCov G (Matrix n n ℝ)) (hd : d.cov.PosSemidef) :
    (a.compose (matEnv Ad t maha mahaT) d).between (matEnv Ad t maha mahaT) a = ⟨d.pose⁻¹, d.cov, a.rot && d.rot⟩ := by
  have hr : (a.pose * d.pose)⁻¹ * a.pose = d.pose⁻¹ := by group
  have hr' : a.pose⁻¹ * (a.pose * d.pose) = d.pose := by group
  have h1 : a.cov - (matEnv Ad t maha mahaT).ad d.pose ((matEnv Ad t maha mahaT).ad d.pose⁻¹ a.cov + d.cov) =
      - (matEnv Ad t maha mahaT).ad d.pose d.cov := by
    rw [ad_add, ad_mul, mul_inv_cancel, ad_one]; abel
  have h2 : (matEnv Ad t maha mahaT).ad d.pose⁻¹ a.cov + d.cov - (matEnv Ad t maha mahaT).ad d.pose⁻¹ a.cov = d.cov := by abel
  simp only [PCov.between, PCov.compose, hr, hr', inv_inv, h1, h2]
  congr 1
  · by_cases hp : (matEnv Ad t maha mahaT).posDef (-(matEnv Ad t maha mahaT).ad d.pose d.cov) = true
    · have hpd : (-(matEnv Ad t maha mahaT).ad d.pose d.cov).PosDef := by simpa [matEnv] using hp
      have hps : ((matEnv Ad t maha mahaT).ad d.pose d.cov).PosSemidef := by
        simpa [matEnv] using hd.mul_mul_conjTranspose_same (Ad d.pose)
      rcases isEmpty_or_nonempty n with hn | ⟨⟨i⟩⟩
      · exact Subsingleton.elim _ _
      · exfalso
        have h3 := hpd.diag_pos (i := i)
        have h4 := hps.diag_nonneg (i := i)
        rw [Matrix.neg_apply] at h3
        linarith
    · simp [hp]
  · cases a.rot <;> cases d.rot <;> rfl

/-- The pose, covariance and rotation flag reported between two positions of a chain. -/
theorem relUsed_of {p : Params K} {signed : Bool} (hm : p.method ≠ .none)
    {env : Env G (GNoise (Matrix n n ℝ))} {h : List (Op G (GNoise (Matrix n n ℝ)))}
    {s : St G (PCov G (Matrix n n ℝ)) (GNoise (Matrix n n ℝ))}
    (r : ReachOk (p.cfgCov (matEnv Ad t maha mahaT) signed) env h s) {start : Chr → Key}
    (hc : Spec.Chains (p.cfgCov (matEnv Ad t maha mahaT) signed) start h) {c : Chr}
    (hf : Spec.Semi t (Spec.robotOdom (p.cfgCov (matEnv Ad t maha mahaT) signed) c h)) {a b : Key} {i j : Nat}
    (ha : Spec.At c (start c) (Spec.robotOdom (p.cfgCov (matEnv Ad t maha mahaT) signed) c h) a i)
    (hb : Spec.At c (start c) (Spec.robotOdom (p.cfgCov (matEnv Ad t maha mahaT) signed) c h) b j) :
    btwn (p.cfgCov (matEnv Ad t maha mahaT) signed).ops (lk (p.cfgCov (matEnv Ad t maha mahaT) signed) s.pcm c) a b =
      (⟨Spec.rel (Spec.robotOdom (p.cfgCov (matEnv Ad t maha mahaT) signed) c h) i j,
        Spec.relUsed Ad t (Spec.robotOdom (p.cfgCov (matEnv Ad t maha mahaT) signed) c h) i j,
        rotAll ((Spec.robotOdom (p.cfgCov (matEnv Ad t maha mahaT) signed) c h).take (max i j))⟩ : PCov G (Matrix n n ℝ)) := by
  have hr : (p.cfgCov (matEnv Ad t maha mahaT) signed).rejection = true := by simp [Params.cfgCov, Params.cfg, hm]
  obtain ⟨hca, hi, rfl⟩ := ha
  obtain ⟨hcb, hj, rfl⟩ := hb
  obtain ⟨h0, ch, hl⟩ := hc c
  obtain ⟨w, u⟩ := r.walked hr c (start c) ch hl
  have hwf := fun a {bs : List (Btw G (GNoise (Matrix n n ℝ)))} hb =>
    walk_used Ad t maha mahaT (p.cfgCov (matEnv Ad t maha mahaT) signed).ops rfl rfl a (bs := bs) hb
  generalize Spec.robotOdom (p.cfgCov (matEnv Ad t maha mahaT) signed) c h = L at *
  obtain ⟨t0, ht0, hw⟩ : ∃ t0 : PCov G (Matrix n n ℝ), t0.rot = true ∧ ∀ j, j ≤ L.length →
      lk (p.cfgCov (matEnv Ad t maha mahaT) signed) s.pcm c (Spec.after (start c) j) =
        walk (p.cfgCov (matEnv Ad t maha mahaT) signed).ops t0 (L.take j) := by
    by_cases hL : L = []
    · refine ⟨PCov.dflt, rfl, fun j _ => ?_⟩
      rw [u hL, hL]
      simp [walk]
      rfl
    · obtain ⟨t0, ht, hw⟩ := w.walk
      refine ⟨t0, ?_, hw⟩
      rcases ht hL with rfl | ⟨g, rfl⟩
      · rfl
      · rfl
  have hsub : ∀ {bs}, (∀ b ∈ bs, b ∈ L) → Spec.Semi t bs := fun h b hb => hf b (h b hb)
  have hR : ∀ k, (walk (p.cfgCov (matEnv Ad t maha mahaT) signed).ops t0 (L.take k)).rot = rotAll (L.take k) := fun k => by
    rw [hwf t0 (hsub fun b hb => List.mem_of_mem_take hb)]
    simp [PCov.compose, ht0]
  unfold btwn
  rw [if_pos (hca.trans hcb.symm), hw i hi, hw j hj]
  show PCov.between (matEnv Ad t maha mahaT) _ _ = _
  rcases Nat.lt_trichotomy i j with hij | rfl | hij
  · have hs : Spec.Semi t (Spec.seg L i j) := hsub fun b hb => mem_seg hb
    have hRi := hR i
    rw [max_eq_right hij.le, take_seg L hij.le, walk_append, rotAll_append]
    generalize walk (p.cfgCov (matEnv Ad t maha mahaT) signed).ops t0 (L.take i) = A at hRi ⊢
    rw [hwf A hs, between_compose_semi, hRi]
    have hsp : Spec.span L i j = Spec.seg L i j := by simp [Spec.span, hij.le]
    have hrl : Spec.rel L i j = Spec.measProd (Spec.seg L i j) := by simp [Spec.rel, hij.le]
    unfold Spec.relUsed
    rw [hsp, hrl]
    by_cases hd : (Spec.pathUsed Ad t (Spec.seg L i j)).PosDef
    · rw [if_pos hd, if_neg (fun q => q.2 hd)]
    · rw [if_neg hd, if_pos ⟨hij, hd⟩]
  · have hi' := hR i
    rw [max_self]
    generalize walk (p.cfgCov (matEnv Ad t maha mahaT) signed).ops t0 (L.take i) = A at hi'
    have e : (matEnv Ad t maha mahaT).ad (A.pose⁻¹ * A.pose)⁻¹ A.cov = A.cov := by
      rw [inv_mul_cancel, inv_one, ad_one]
    simp only [PCov.between, e, sub_self, ite_self, hi', Bool.and_self]
    simp [Spec.relUsed, Spec.rel, Spec.span, Spec.seg, Spec.measProd, Spec.pathUsed]
  · have hs : Spec.Semi t (Spec.seg L j i) := hsub fun b hb => mem_seg hb
    have hRj := hR j
    rw [max_eq_left hij.le, take_seg L hij.le, walk_append, rotAll_append]
    generalize walk (p.cfgCov (matEnv Ad t maha mahaT) signed).ops t0 (L.take j) = A at hRj ⊢
    rw [hwf A hs, between_backwards_semi Ad t maha mahaT A _ (pathUsed_posSemidef Ad t hs), hRj]
    simp only [Spec.relUsed, Spec.rel, Spec.span, hij.le, min_eq_right, max_eq_left, Nat.not_le.2 hij, Nat.not_lt.2 hij.le,
      if_false, false_and]

/-- The formula of `C53` is a special case: with rotation information and positive definite covariances the covariance used is
that of the path. -/
theorem relUsed_full {L : List (Btw G (GNoise (Matrix n n ℝ)))} (hf : Spec.Full L) {i j : Nat} (hi : i ≤ L.length) (hj : j ≤ L.length) :
    Spec.relUsed Ad t L i j = Spec.pathCov (Spec.conj Ad) (Spec.span L i j) := by
  have e : ∀ bs : List (Btw G (GNoise (Matrix n n ℝ))), Spec.Full bs → Spec.pathUsed Ad t bs = Spec.pathCov (Spec.conj Ad) bs := by
    intro bs hb
    induction bs with
    | nil => rfl
    | cons x bs ih =>
      obtain ⟨m, hx, hr, _⟩ := hb x (by simp)
      rw [Spec.pathUsed, Spec.pathCov, ih fun y hy => hb y (by simp [hy])]
      simp [Spec.covUsed, Spec.rotKnown, hx, hr]
  have hs : Spec.Full (Spec.span L i j) := fun b hb => hf b (mem_seg hb)
  unfold Spec.relUsed
  rw [e _ hs]
  refine if_neg ?_
  rintro ⟨hij, hp⟩
  refine hp ((pathCov_posDef Ad hs).2 ?_)
  intro e
  have := seg_length (L := L) (i := i) hj
  unfold Spec.span at e
  rw [min_eq_left hij.le, max_eq_right hij.le] at e
  rw [e] at this
  simp at this
  omega

open Classical in
/-- C94, the odometry check with covariances, with or without rotation information: take a closure within robot `c` between
positions `i` and `j` of its odometry. The check accepts it exactly if it is disabled or the norm of the mismatch is below the
odometry threshold. The norm is over all components if the closure and all odometry of the robot up to the later of the two
positions have rotation information, over the translation otherwise. Missing: the covariance of the odometry (`relUsed`) should
be that of the path; forwards, and if it is singular, the code uses minus that, see `C94_false`. -/
theorem C94_odometry_check_partial (p : Params K) (signed : Bool) (hm : p.method ≠ .none)
    {env : Env G (GNoise (Matrix n n ℝ))} {h : List (Op G (GNoise (Matrix n n ℝ)))}
    {s : St G (PCov G (Matrix n n ℝ)) (GNoise (Matrix n n ℝ))}
    (r : ReachOk (p.cfgCov (matEnv Ad t maha mahaT) signed) env h s) {start : Chr → Key}
    (hc : Spec.Chains (p.cfgCov (matEnv Ad t maha mahaT) signed) start h) {c : Chr}
    {L : List (Btw G (GNoise (Matrix n n ℝ)))} (hL : L = Spec.robotOdom (p.cfgCov (matEnv Ad t maha mahaT) signed) c h)
    {b : Btw G (GNoise (Matrix n n ℝ))} (hf : Spec.Semi t L) (hfb : b.noise.isSome = true) {i j : Nat}
    (h1 : Spec.At c (start c) L b.k1 i) (h2 : Spec.At c (start c) L b.k2 j) :
    ∃ v, Spec.OdomCheck (p.cfgCov (matEnv Ad t maha mahaT) signed) s b v ∧
      (v = true ↔ p.odomCheck = false ∨ ∃ d,
        (if Spec.Rot (L.take (max i j)) ∧ Spec.Rot [b] then maha else mahaT) (Spec.rel L i j * b.m⁻¹)
          (Spec.conj Ad b.m (Spec.relUsed Ad t L i j) + Spec.covUsed t b) = some d ∧ d < p.odomThr) := by
  subst hL
  obtain ⟨m, hn'⟩ := Option.isSome_iff_exists.1 hfb
  refine ⟨_, odomCheck_of (by rw [hn']; rfl), ?_⟩
  have hS := relUsed_of Ad t maha mahaT hm r hc hf h1 h2
  generalize Spec.robotOdom (p.cfgCov (matEnv Ad t maha mahaT) signed) c h = L at *
  unfold odomVerdict
  rw [hn', Bool.or_eq_true]
  simp only [Bool.not_eq_true']
  refine or_congr Iff.rfl ?_
  have e : odomErr (p.cfgCov (matEnv Ad t maha mahaT) signed) (lk (p.cfgCov (matEnv Ad t maha mahaT) signed) s.pcm) b m =
      (⟨Spec.rel L i j * b.m⁻¹, Spec.conj Ad b.m (Spec.relUsed Ad t L i j) + Spec.covUsed t b,
        rotAll (L.take (max i j)) && Spec.rotKnown b⟩ : PCov G (Matrix n n ℝ)) := by
    unfold odomErr
    rw [h1.1, hS]
    show PCov.compose _ _ (PCov.inverse (PCov.ofFactor _ b.m m)) = _
    rw [ofFactor_used Ad t maha mahaT hn']
    simp [PCov.compose, PCov.inverse]
    rfl
  rw [e]
  refine (covCheck_iff _ _ _ _ _).trans ?_
  have hrot : ((rotAll (L.take (max i j)) && Spec.rotKnown b) = true) = (Spec.Rot (L.take (max i j)) ∧ Spec.Rot [b]) := by
    rw [Bool.and_eq_true, rotAll_iff]
    simp [Spec.Rot, Spec.rotKnown, hn']
  simp only [hrot]
  rfl

open Classical in
/-- C94, the pairwise check with covariances, for two closures `x`, `y` from robot `c` to robot `d` (possibly the same), between
positions `i → j` and `k → l`: the rotation counts exactly if both closures, all odometry of `c` up to the later of `i`, `k` and
all odometry of `d` up to the later of `j`, `l` have rotation information. Missing: as for the odometry check, and the transport
of the inverted part (`C53`). -/
theorem C94_pairwise_check_partial (p : Params K) (signed : Bool) (hm : p.method ≠ .none)
    {env : Env G (GNoise (Matrix n n ℝ))} {h : List (Op G (GNoise (Matrix n n ℝ)))}
    {s : St G (PCov G (Matrix n n ℝ)) (GNoise (Matrix n n ℝ))}
    (r : ReachOk (p.cfgCov (matEnv Ad t maha mahaT) signed) env h s) {start : Chr → Key}
    (hc : Spec.Chains (p.cfgCov (matEnv Ad t maha mahaT) signed) start h) {c d : Chr}
    {L M : List (Btw G (GNoise (Matrix n n ℝ)))} (hL : L = Spec.robotOdom (p.cfgCov (matEnv Ad t maha mahaT) signed) c h)
    (hM : M = Spec.robotOdom (p.cfgCov (matEnv Ad t maha mahaT) signed) d h)
    {x y : Btw G (GNoise (Matrix n n ℝ))} (hfL : Spec.Semi t L) (hfM : Spec.Semi t M) (hx : x.noise.isSome = true)
    (hy : y.noise.isSome = true) {i j k l : Nat}
    (hi : Spec.At c (start c) L x.k1 i) (hj : Spec.At d (start d) M x.k2 j)
    (hk : Spec.At c (start c) L y.k1 k) (hl : Spec.At d (start d) M y.k2 l) :
    ∃ v, Spec.PairCheck (p.cfgCov (matEnv Ad t maha mahaT) signed) s x y v ∧
      (v = true ↔ p.loopCheck = false ∨ ∃ e,
        (if Spec.Rot (L.take (max i k)) ∧ Spec.Rot (M.take (max j l)) ∧ Spec.Rot [x, y] then maha else mahaT)
          ((Spec.rel L i k * y.m)⁻¹ * x.m * Spec.rel M j l)
          (Spec.conj Ad (Spec.rel M j l)⁻¹
            (Spec.conj Ad x.m⁻¹ (Spec.conj Ad y.m⁻¹ (Spec.relUsed Ad t L i k) + Spec.covUsed t y) + Spec.covUsed t x) +
              Spec.relUsed Ad t M j l) = some e ∧ e < p.lcThr) := by
  subst hL; subst hM
  obtain ⟨nx, ex⟩ := Option.isSome_iff_exists.1 hx
  obtain ⟨ny, ey⟩ := Option.isSome_iff_exists.1 hy
  have hR1 := relUsed_of Ad t maha mahaT hm r hc hfL hi hk
  have hR2 := relUsed_of Ad t maha mahaT hm r hc hfM hj hl
  generalize Spec.robotOdom (p.cfgCov (matEnv Ad t maha mahaT) signed) c h = L at *
  generalize Spec.robotOdom (p.cfgCov (matEnv Ad t maha mahaT) signed) d h = M at *
  refine ⟨_, pairCheck_of (by rw [ex]; rfl) (by rw [ey]; rfl), ?_⟩
  unfold loopVerdict
  rw [ex, ey, Bool.or_eq_true]
  simp only [Bool.not_eq_true']
  refine or_congr Iff.rfl ?_
  have hcc : chr x.k1 = chr y.k1 := hi.1.trans hk.1.symm
  have e : loopErr (p.cfgCov (matEnv Ad t maha mahaT) signed) (lk (p.cfgCov (matEnv Ad t maha mahaT) signed) s.pcm) x y nx ny =
      (⟨(Spec.rel L i k * y.m)⁻¹ * x.m * Spec.rel M j l,
        Spec.conj Ad (Spec.rel M j l)⁻¹
            (Spec.conj Ad x.m⁻¹ (Spec.conj Ad y.m⁻¹ (Spec.relUsed Ad t L i k) + Spec.covUsed t y) + Spec.covUsed t x) +
              Spec.relUsed Ad t M j l,
        rotAll (L.take (max i k)) && Spec.rotKnown y && Spec.rotKnown x && rotAll (M.take (max j l))⟩ : PCov G (Matrix n n ℝ)) := by
    unfold loopErr
    simp only [hcc, ne_eq, not_true_eq_false, if_false]
    rw [hk.1, hj.1, hR1, hR2]
    show PCov.compose _ (PCov.compose _ (PCov.inverse (PCov.compose _ _ (PCov.ofFactor _ y.m ny))) (PCov.ofFactor _ x.m nx)) _ = _
    rw [ofFactor_used Ad t maha mahaT ex, ofFactor_used Ad t maha mahaT ey]
    simp only [PCov.compose, PCov.inverse]
    rfl
  rw [e]
  refine (covCheck_iff _ _ _ _ _).trans ?_
  have hrot : ((rotAll (L.take (max i k)) && Spec.rotKnown y && Spec.rotKnown x && rotAll (M.take (max j l))) = true) =
      (Spec.Rot (L.take (max i k)) ∧ Spec.Rot (M.take (max j l)) ∧ Spec.Rot [x, y]) := by
    simp only [Bool.and_eq_true, rotAll_iff]
    apply propext
    simp [Spec.Rot, Spec.rotKnown, ex, ey]
    tauto
  simp only [hrot]
  rfl

/-- The rotation components of what is known of translation-only measurements stay zero along a path, if the adjoint does not
turn translations into rotations (which is so for `Pose3`). -/
theorem pathUsed_rotation (hAd : ∀ g i j, t i = false → t j = true → Ad g i j = 0)
    {bs : List (Btw G (GNoise (Matrix n n ℝ)))} (hb : ∀ b ∈ bs, Spec.rotKnown b = false) {i : n} (hi : t i = false) (j : n) :
    Spec.pathUsed Ad t bs i j = 0 := by
  induction bs with
  | nil => rfl
  | cons x bs ih =>
    rw [Spec.pathUsed, Matrix.add_apply, ih fun y hy => hb y (by simp [hy]), add_zero]
    have hx := hb x (by simp)
    simp only [Spec.conj, Matrix.mul_apply, Spec.covUsed, hx, Bool.false_eq_true, if_false, Matrix.of_apply]
    refine Finset.sum_eq_zero fun k _ => ?_
    rw [Finset.sum_eq_zero, zero_mul]
    intro l _
    cases hl : t l with
    | true => rw [hAd _ _ _ hi hl, zero_mul]
    | false => simp [hl]

/-- C94: if there is a rotation component, and the adjoint does not turn translations into rotations, then between two positions
with translation-only odometry the code uses minus the covariance of the path forwards, and the covariance of the path
backwards. Missing: both should be the covariance of the path. -/
theorem C94_translation_only_partial (hAd : ∀ g i j, t i = false → t j = true → Ad g i j = 0) {q : n} (hq : t q = false)
    {L : List (Btw G (GNoise (Matrix n n ℝ)))} {i j : Nat} (hij : i < j) (hb : ∀ b ∈ Spec.span L i j, Spec.rotKnown b = false) :
    Spec.relUsed Ad t L i j = - Spec.conj Ad (Spec.rel L i j) (Spec.pathUsed Ad t (Spec.span L i j)) ∧
      Spec.relUsed Ad t L j i = Spec.pathUsed Ad t (Spec.span L i j) := by
  have hd : ¬ (Spec.pathUsed Ad t (Spec.span L i j)).PosDef := fun hd => by
    have := hd.diag_pos (i := q)
    rw [pathUsed_rotation Ad t hAd hb hq] at this
    exact lt_irrefl _ this
  have hsp : Spec.span L j i = Spec.span L i j := by simp [Spec.span, min_comm, max_comm]
  unfold Spec.relUsed
  rw [hsp]
  exact ⟨if_pos ⟨hij, hd⟩, if_neg fun h => by omega⟩

/-! ### Translation-only odometry -/

/-- Poses on a line with a heading, covariances of (heading, position): positive definite by leading minors, norms of the
position squared. The heading is never turned, so transporting changes nothing. -/
def headingCov : CovEnv Demo.Z (Matrix (Fin 2) (Fin 2) ℚ) ℚ where
  ad _ S := S
  posDef S := decide (0 < S 0 0 ∧ 0 < S 0 0 * S 1 1 - S 0 1 * S 1 0)
  transPart S := !![0, 0; 0, S 1 1]
  maha g S := if 0 < S 1 1 then some ((g.toAdd : ℚ) ^ 2 / S 1 1) else none
  mahaT g S := if 0 < S 1 1 then some ((g.toAdd : ℚ) ^ 2 / S 1 1) else none

/-- Parameters after `setPcm3DParams(1, 1)`. -/
def headingCfg : Cfg Demo.Z (PCov Demo.Z (Matrix (Fin 2) (Fin 2) ℚ)) (GNoise (Matrix (Fin 2) (Fin 2) ℚ)) :=
  (Params.default.apply (.pcm3D 1 1 .quiet)).cfgCov headingCov true

/-- An optimizer that returns its initial values. -/
def headingEnv : Env Demo.Z (GNoise (Matrix (Fin 2) (Fin 2) ℚ)) where
  opt _ v := some v
  gnc g v _ _ := some (v, List.replicate g.length 1)
  avg l := l.head?
  iterLC l := l
  iterLM l := l

/-- A displacement `d` with variance 1 and, if `rot` is off, no rotation information. -/
def edgeH (k1 k2 : Key) (d : ℤ) (rot : Bool) : Btw Demo.Z (GNoise (Matrix (Fin 2) (Fin 2) ℚ)) := ⟨k1, k2, Demo.z d, some ⟨1, !rot⟩⟩

/-- Two steps of length 1 with or without rotation information, then a closure. -/
def headingRun (rot : Bool) (b : Btw Demo.Z (GNoise (Matrix (Fin 2) (Fin 2) ℚ))) : List (Op Demo.Z (GNoise (Matrix (Fin 2) (Fin 2) ℚ))) :=
  [.update [some (.btw (edgeH (Demo.a 0) (Demo.a 1) 1 rot))] [Demo.pose (Demo.a 0) 0, Demo.pose (Demo.a 1) 1] true,
   .update [some (.btw (edgeH (Demo.a 1) (Demo.a 2) 1 rot))] [Demo.pose (Demo.a 2) 2] true,
   .update [some (.btw b)] [] true]

set_option maxRecDepth 100000 in
/-- C94 is false of the code: with odometry without rotation information a closure whose mismatch is 1 under a variance of 3 is
rejected at threshold 1, although it is accepted with rotation information and also if it is given in the other direction. -/
theorem C94_false :
    (∃ s, ReachOk headingCfg headingEnv (headingRun false (edgeH (Demo.a 0) (Demo.a 2) 3 false)) s ∧ Spec.registered s ⟨97, 97⟩ = []) ∧
    (∃ s, ReachOk headingCfg headingEnv (headingRun true (edgeH (Demo.a 0) (Demo.a 2) 3 false)) s ∧
      Spec.registered s ⟨97, 97⟩ = [edgeH (Demo.a 0) (Demo.a 2) 3 false]) ∧
    ∃ s, ReachOk headingCfg headingEnv (headingRun false (edgeH (Demo.a 2) (Demo.a 0) (-3) false)) s ∧
      Spec.registered s ⟨97, 97⟩ = [edgeH (Demo.a 2) (Demo.a 0) (-3) false] := by
  refine ⟨?_, ?_, ?_⟩
  · obtain ⟨s, r, h⟩ := Demo.runs_reach (cfg := headingCfg) (env := headingEnv)
      (ops := headingRun false (edgeH (Demo.a 0) (Demo.a 2) 3 false))
      (P := fun s => decide (Spec.registered s ⟨97, 97⟩ = [])) (by decide +kernel)
    exact ⟨s, r, of_decide_eq_true h⟩
  · obtain ⟨s, r, h⟩ := Demo.runs_reach (cfg := headingCfg) (env := headingEnv)
      (ops := headingRun true (edgeH (Demo.a 0) (Demo.a 2) 3 false))
      (P := fun s => decide (Spec.registered s ⟨97, 97⟩ = [edgeH (Demo.a 0) (Demo.a 2) 3 false])) (by decide +kernel)
    exact ⟨s, r, of_decide_eq_true h⟩
  · obtain ⟨s, r, h⟩ := Demo.runs_reach (cfg := headingCfg) (env := headingEnv)
      (ops := headingRun false (edgeH (Demo.a 2) (Demo.a 0) (-3) false))
      (P := fun s => decide (Spec.registered s ⟨97, 97⟩ = [edgeH (Demo.a 2) (Demo.a 0) (-3) false])) (by decide +kernel)
    exact ⟨s, r, of_decide_eq_true h⟩

/-- Poses on a line with a heading, covariances as real matrices of (heading, position). -/
noncomputable def headCfg : Cfg Demo.Z (PCov Demo.Z (Matrix (Fin 2) (Fin 2) ℝ)) (GNoise (Matrix (Fin 2) (Fin 2) ℝ)) :=
  (Params.default.apply (.pcm3D (1 : ℚ) 1 .quiet)).cfgCov
    (matEnv (1 : Demo.Z →* Matrix (Fin 2) (Fin 2) ℝ) (fun i => decide (i = 1)) (fun g _ => some (Demo.len g)) (fun g _ => some (Demo.len g))) true

/-- The environment of this example. -/
def headEnv : Env Demo.Z (GNoise (Matrix (Fin 2) (Fin 2) ℝ)) where
  opt _ v := some v
  gnc g v _ _ := some (v, List.replicate g.length 1)
  avg l := l.head?
  iterLC l := l
  iterLM l := l

/-- A step without rotation information. -/
noncomputable def stepT (k1 k2 : Key) (d : ℤ) : Btw Demo.Z (GNoise (Matrix (Fin 2) (Fin 2) ℝ)) := ⟨k1, k2, Demo.z d, some ⟨1, true⟩⟩

/-- Two steps of robot `a`. -/
noncomputable def headRun : List (Op Demo.Z (GNoise (Matrix (Fin 2) (Fin 2) ℝ))) :=
  [.update [some (.btw (stepT (Demo.a 0) (Demo.a 1) 1))] [Demo.pose (Demo.a 0) 0, Demo.pose (Demo.a 1) 1] true,
   .update [some (.btw (stepT (Demo.a 1) (Demo.a 2) 1))] [Demo.pose (Demo.a 2) 2] true]

set_option maxRecDepth 100000 in
/-- The hypotheses of `C94_odometry_check_partial`, `C94_pairwise_check_partial` and `C94_translation_only_partial` are met. -/
example : ∃ s, ReachOk headCfg headEnv headRun s ∧ Spec.Chains headCfg (fun c => symKey c 0) headRun ∧
    Spec.robotOdom headCfg 97 headRun = [stepT (Demo.a 0) (Demo.a 1) 1, stepT (Demo.a 1) (Demo.a 2) 1] ∧
    Spec.Semi (fun i : Fin 2 => decide (i = 1)) [stepT (Demo.a 0) (Demo.a 1) 1, stepT (Demo.a 1) (Demo.a 2) 1] ∧
    (stepT (Demo.a 0) (Demo.a 2) 2).noise.isSome = true ∧
    (∀ b ∈ Spec.span [stepT (Demo.a 0) (Demo.a 1) 1, stepT (Demo.a 1) (Demo.a 2) 1] 0 2, Spec.rotKnown b = false) ∧
    (∀ (g : Demo.Z) i j, decide (i = (1 : Fin 2)) = false → decide (j = (1 : Fin 2)) = true →
      (1 : Demo.Z →* Matrix (Fin 2) (Fin 2) ℝ) g i j = 0) ∧
    Spec.At 97 (symKey 97 0) (Spec.robotOdom headCfg 97 headRun) (Demo.a 0) 0 ∧
    Spec.At 97 (symKey 97 0) (Spec.robotOdom headCfg 97 headRun) (Demo.a 2) 2 := by
  obtain ⟨s, r, _⟩ := Demo.runs_reach (cfg := headCfg) (env := headEnv) (ops := headRun)
    (P := fun _ => true) (by decide +kernel)
  have e : Spec.robotOdom headCfg 97 headRun = [stepT (Demo.a 0) (Demo.a 1) 1, stepT (Demo.a 1) (Demo.a 2) 1] := by
    with_unfolding_all rfl
  have hp : ∀ k1 k2 d, (Spec.covUsed (fun i : Fin 2 => decide (i = 1)) (stepT k1 k2 d)).PosSemidef := fun k1 k2 d => by
    have := C14_ofFactor_posSemidef (K := ℚ) (1 : Demo.Z →* Matrix (Fin 2) (Fin 2) ℝ) (fun i : Fin 2 => decide (i = 1))
      (fun _ _ => none) (fun _ _ => none) (stepT k1 k2 d).m ⟨1, true⟩ Matrix.PosSemidef.one
    rwa [ofFactor_used (K := ℚ) _ _ _ _ (b := stepT k1 k2 d) rfl] at this
  refine ⟨s, r, chains_of (cfg := headCfg) (h := headRun) (by decide +kernel), e, ?_, rfl, ?_, ?_,
    ⟨by decide, by rw [e]; decide, by decide⟩, ⟨by decide, by rw [e]; decide, by decide⟩⟩
  · intro b hb
    rcases List.mem_cons.1 hb with h | h
    · rw [h]; exact ⟨rfl, hp _ _ _⟩
    · rw [List.mem_singleton.1 h]; exact ⟨rfl, hp _ _ _⟩
  · intro b hb
    rcases List.mem_cons.1 (mem_seg hb) with h | h
    · rw [h]; rfl
    · rw [List.mem_singleton.1 h]; rfl
  · intro g i j hi hj
    have h1 : i ≠ 1 := of_decide_eq_false hi
    have h2 : j = 1 := of_decide_eq_true hj
    rw [MonoidHom.one_apply, Matrix.one_apply_ne (h2 ▸ h1)]

end RPGO.Props
