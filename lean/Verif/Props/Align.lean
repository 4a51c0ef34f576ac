import Verif.Proofs.Align
import Verif.Props.Checks
import Verif.Props.Matrix
import Verif.Proofs.GncOnly
/-
C30 what frame alignment writes; C31 the offsets it averages.
-/

namespace RPGO.Spec
variable {G T N : Type} [Group G]

/-- The pose part of a trajectory element is a homomorphism. -/
structure PoseLaws (ops : Ops G T N) : Prop where
  ofPose : ∀ g, ops.pose (ops.ofPose g) = g
  compose : ∀ a b, ops.pose (ops.compose a b) = ops.pose a * ops.pose b
  ofFactor : ∀ g n, ops.pose (ops.ofFactor g n) = g

omit [Group G] in
/-- Robot `c` sends odometry, and no earlier call has a closure or landmark observation that names it. -/
def Joins (cfg : Cfg G T N) (c : Chr) (h : List (Op G N)) : Prop :=
  ∃ h1 op h2, h = h1 ++ op :: h2 ∧ (∃ b ∈ opOdom cfg op, chr b.k2 = c) ∧
    ∀ o ∈ h1, ∀ b ∈ opBtws o, b ∉ opOdom cfg o → chr b.k1 ≠ c ∧ chr b.k2 ≠ c

/-- Several robots: each robot's odometry is a chain inside the robot that starts at key `start c`, is sent
before closures name the robot, and each landmark is observed by one robot. -/
structure Fleet (cfg : Cfg G T N) (owner : Key → Chr) (start : Chr → Key) (h : List (Op G N)) : Prop where
  separate : Separate cfg owner h
  chains : Chains cfg start h
  joins : ∀ c, robotOdom cfg c h ≠ [] → Joins cfg c h

/-- `r0` is the robot with the smallest prefix (as `char`), and there is another robot. -/
structure Reference (cfg : Cfg G T N) (r0 : Chr) (h : List (Op G N)) : Prop where
  odom : robotOdom cfg r0 h ≠ []
  least : ∀ c, robotOdom cfg c h ≠ [] → charVal cfg.charSigned r0 ≤ charVal cfg.charSigned c
  other : ∃ c, c ≠ r0 ∧ robotOdom cfg c h ≠ []

/-- The pose of key `k` according to its robot's own odometry: the robot's first pose `g c` times the odometry
measurements up to `k`. -/
def odomPose (cfg : Cfg G T N) (start : Chr → Key) (g : Chr → G) (h : List (Op G N)) (k : Key) : G :=
  g (chr k) * measProd ((robotOdom cfg (chr k) h).take (k - start (chr k)).toNat)

/-- The transform from another robot's frame to `r0`'s frame according to closure `b`, given odometry poses `O`. -/
def offset (r0 : Chr) (O : Key → G) (b : Btw G N) : G :=
  if chr b.k1 = r0 then O b.k1 * b.m * (O b.k2)⁻¹ else O b.k2 * b.m⁻¹ * (O b.k1)⁻¹

/-- The initial guess the solver holds for `k` after values `vs` are added to `v`. -/
def held (v vs : Vals G) (k : Key) : Option (Val G) := if v.has k then v.find? k else vs.find? k

end RPGO.Spec

namespace RPGO
variable {G T N : Type} [Group G]

theorem walk_pose {ops : Ops G T N} (l : Spec.PoseLaws ops) (t : T) (bs : List (Btw G N))
    (hn : ∀ b ∈ bs, b.noise.isSome) : ops.pose (walk ops t bs) = ops.pose t * Spec.measProd bs := by
  induction bs generalizing t with
  | nil => simp [walk, Spec.measProd]
  | cons b bs ih =>
    obtain ⟨n, hb⟩ := Option.isSome_iff_exists.1 (hn b (by simp))
    rw [walk_cons_some _ _ _ hb, ih _ (fun x hx => hn x (by simp [hx])), l.compose, l.ofFactor]
    simp [Spec.measProd, mul_assoc]

omit [Group G] in
theorem after_sub (k : Key) {j : Nat} (h : j < 2 ^ 64) : (Spec.after k j - k).toNat = j := by
  unfold Spec.after
  rw [BitVec.add_comm, BitVec.add_sub_cancel]
  simp only [BitVec.toNat_ofNat]
  omega

variable {cfg : Cfg G T N} {env : Env G N}

theorem StartPose.unique {c : Chr} {k0 : Key} {h : List (Op G N)} {g g' : G}
    {s : St G T N} (hr : cfg.rejection = true) (r : ReachOk cfg env h s)
    (a : Spec.StartPose cfg env c k0 h g) (b : Spec.StartPose cfg env c k0 h g') : g = g' := by
  obtain ⟨h1, op, h2, s1, fs, vs, rfl, r1, hb1, e1, n1, f1⟩ := a
  obtain ⟨h1', op', h2', s1', fs', vs', he, r1', hb1', e1', n1', f1'⟩ := b
  have mono : ∀ (x y : List (Op G N)), Spec.robotOdom cfg c x ≠ [] → Spec.robotOdom cfg c (x ++ y) ≠ [] := by
    intro x y hx
    unfold Spec.robotOdom Spec.odomSoFar at hx ⊢
    simp only [List.flatMap_append, List.filter_append]
    intro h0
    exact hx (List.append_eq_nil_iff.1 h0).1
  have key : h1 = h1' ∧ op = op' := by
    rcases List.append_eq_append_iff.1 he with ⟨as, ha, hb⟩ | ⟨as, ha, hb⟩
    · cases as with
      | nil => simp at ha hb; exact ⟨ha.symm, hb.1⟩
      | cons o as =>
        exfalso
        simp only [List.cons_append, List.cons.injEq] at hb
        obtain ⟨rfl, _⟩ := hb
        have := mono _ as n1
        rw [List.append_assoc, List.singleton_append, ← ha] at this
        exact this e1'
    · cases as with
      | nil => simp at ha hb; exact ⟨ha, hb.1.symm⟩
      | cons o as =>
        exfalso
        simp only [List.cons_append, List.cons.injEq] at hb
        obtain ⟨rfl, _⟩ := hb
        have := mono _ as n1'
        rw [List.append_assoc, List.singleton_append, ← ha] at this
        exact this e1
  obtain ⟨rfl, rfl⟩ := key
  have := r1.det r1'
  subst this
  rw [hb1] at hb1'
  cases hb1'
  -- the call returned normally, so no key was inserted twice
  obtain ⟨s2, x2, r2⟩ : ∃ s2 x2, exec cfg env op s1' = .ok s2 x2 := by
    have : ∀ (t : List (Op G N)) (s : St G T N), ReachOk cfg env (h1 ++ op :: t) s → ∃ s2 x2, exec cfg env op s1' = .ok s2 x2 := by
      intro t
      induction t using List.reverseRecOn with
      | nil =>
        intro s r
        obtain ⟨s0, x, r0, e0⟩ := r.snoc_inv
        rw [r1.det r0] at e0
        exact ⟨_, _, e0⟩
      | append_singleton t o ih =>
        intro s r
        rw [← List.cons_append, ← List.append_assoc] at r
        obtain ⟨s0, x, r0, e0⟩ := r.snoc_inv
        exact ih _ r0
    exact this _ _ r
  obtain ⟨s3, x3, h3, _⟩ := exec_batch_ok hr hb1 r2
  obtain ⟨v1, hi, _⟩ := removeOutliers_ok h3
  obtain ⟨_, hd, _⟩ := insertVals_ok hi
  have mix : ∀ x y : G, s1'.values.find? k0 = some (.pose x) → vs.find? k0 = some (.pose y) → False := by
    intro x y hx hy
    have := hd k0 ((KMap.mem_keys_iff vs k0).2 (by unfold KMap.has; rw [hy]; rfl))
    unfold KMap.has at this
    rw [hx] at this
    cases this
  rcases f1 with f1 | f1 <;> rcases f1' with f1' | f1'
  · rw [f1] at f1'; simpa using f1'
  · exact (mix _ _ f1 f1').elim
  · exact (mix _ _ f1' f1).elim
  · rw [f1] at f1'; simpa using f1'

omit [Group G] in
theorem onChain_chr {start : Chr → Key} {h : List (Op G N)} (hch : Spec.Chains cfg start h) (c : Chr) {j : Nat}
    (hj : j ≤ (Spec.robotOdom cfg c h).length) : chr (Spec.after (start c) j) = c := by
  obtain ⟨h0, ch, _⟩ := hch c
  cases j with
  | zero => simpa [Spec.after] using h0
  | succ j =>
    have hb : (Spec.robotOdom cfg c h)[j]? = some (Spec.robotOdom cfg c h)[j] := List.getElem?_eq_getElem (by omega)
    rw [← (Chain.get ch j hb).2]
    have := (List.mem_filter.1 (List.getElem_mem (by omega : j < (Spec.robotOdom cfg c h).length))).2
    simpa using this

/-- The solver's record of a robot that takes part in the alignment is its own odometry. -/
theorem odomPose_eq (laws : Spec.PoseLaws cfg.ops) (hr : cfg.rejection = true) {h : List (Op G N)} {s : St G T N}
    (r : ReachOk cfg env h s) {start : Chr → Key} (hch : Spec.Chains cfg start h) {g : Chr → G} {k : Key}
    (hg : Spec.StartPose cfg env (chr k) (start (chr k)) h (g (chr k))) (hc : chr k ∈ s.pcm.robotOrder)
    (hk : Spec.OnChain cfg start h k) :
    (trajOf s.pcm (chr k)).has k = true ∧
      cfg.ops.pose (lk cfg s.pcm (chr k) k) = Spec.odomPose cfg start g h k := by
  obtain ⟨j, hj, he⟩ := hk
  obtain ⟨_, ch, hl⟩ := hch (chr k)
  obtain ⟨g', hg', h0⟩ := r.started hr (chr k) (start (chr k)) ch hl hc
  have := StartPose.unique hr r hg' hg
  subst this
  obtain ⟨w, _⟩ := r.walked hr (chr k) (start (chr k)) ch hl
  obtain ⟨t0, _, hw⟩ := w.walk
  have e0 := hw 0 (by omega)
  rw [show Spec.after (start (chr k)) 0 = start (chr k) by simp [Spec.after], h0] at e0
  simp only [List.take_zero, walk, List.foldl_nil] at e0
  refine ⟨?_, ?_⟩
  · have htr := r.tracked hr
    have hrob := (r.reach).robots hr
    -- the robot has odometry, so the key is an end of one of its factors
    obtain ⟨op, hop, b0, hb0, hb0c⟩ := hrob.odom _ hc
    have hne : Spec.robotOdom cfg (chr k) h ≠ [] := by
      intro h0
      have : b0 ∈ Spec.robotOdom cfg (chr k) h := by
        unfold Spec.robotOdom Spec.odomSoFar
        refine List.mem_filter.2 ⟨List.mem_flatMap.2 ⟨op, hop, hb0⟩, by simp [hb0c]⟩
      rw [h0] at this; cases this
    have hodom : ∀ b ∈ Spec.robotOdom cfg (chr k) h, b ∈ s.pcm.odom ∧ chr b.k2 = chr k := by
      intro b hb
      obtain ⟨h1, h2⟩ := List.mem_filter.1 hb
      exact ⟨by rw [r.odom_eq hr]; exact h1, by simpa using h2⟩
    have hpos := List.length_pos_iff.2 hne
    cases j with
    | zero =>
      obtain ⟨m1, m2⟩ := hodom _ (List.getElem_mem hpos)
      have := (htr _ m1).1
      rw [m2, (Chain.get ch 0 (List.getElem?_eq_getElem hpos)).1, ← he] at this
      exact this
    | succ j =>
      have hj' : j < (Spec.robotOdom cfg (chr k) h).length := by omega
      obtain ⟨m1, m2⟩ := hodom _ (List.getElem_mem hj')
      have := (htr _ m1).2
      rw [m2, (Chain.get ch j (List.getElem?_eq_getElem hj')).2, ← he] at this
      exact this
  · have ej := hw j hj
    rw [← he] at ej
    rw [ej, walk_pose laws _ _ (fun b hb => w.noise b (List.mem_of_mem_take hb)), ← e0, laws.ofPose]
    unfold Spec.odomPose
    conv_rhs => rw [show (k - start (chr k)).toNat = j from by
      conv_lhs => rw [he]
      rw [onChain_chr hch _ hj]
      exact after_sub _ (by omega)]

omit [Group G] in
theorem charVal_inj {sg : Bool} {a b : Chr} (h : charVal sg a = charVal sg b) : a = b := by
  unfold charVal at h
  cases sg
  · simp only [Bool.false_eq_true, if_false] at h
    exact BitVec.eq_of_toNat_eq (by omega)
  · simp only [if_true] at h
    exact BitVec.eq_of_toInt_eq h

omit [Group G] in
theorem robotOdom_ne_nil {c : Chr} {h : List (Op G N)} :
    Spec.robotOdom cfg c h ≠ [] ↔ ∃ op ∈ h, ∃ b ∈ Spec.opOdom cfg op, chr b.k2 = c := by
  rw [← List.isEmpty_eq_false_iff, List.isEmpty_eq_false_iff_exists_mem]
  unfold Spec.robotOdom Spec.odomSoFar
  simp only [List.mem_filter, List.mem_flatMap, beq_iff_eq]
  constructor
  · rintro ⟨b, ⟨op, h1, h2⟩, h3⟩; exact ⟨op, h1, b, h2, h3⟩
  · rintro ⟨op, h1, b, h2, h3⟩; exact ⟨b, ⟨op, h1, h2⟩, h3⟩

/-- The robots that take part in the alignment are those with odometry. -/
theorem order_iff (hr : cfg.rejection = true) {owner : Key → Chr} {start : Chr → Key} {h : List (Op G N)} {s : St G T N}
    (r : ReachOk cfg env h s) (hf : Spec.Fleet cfg owner start h) (c : Chr) :
    c ∈ s.pcm.robotOrder ↔ Spec.robotOdom cfg c h ≠ [] := by
  constructor
  · intro hc; exact robotOdom_ne_nil.2 ((r.reach.robots hr).odom c hc)
  · intro hc
    obtain ⟨h1, op, h2, rfl, ho, hno⟩ := hf.joins c hc
    refine r.known hr (owner := owner) ⟨?_, ?_⟩ c ho ?_ hno
    · exact fun o ho => hf.separate.odom o (by simp [ho])
    · exact fun o ho => hf.separate.landmark o (by simp [ho])
    · exact hf.separate.odom op (by simp)

/-- What a completed update with alignment did to the values. -/
theorem align_core (hr : cfg.rejection = true) (ha : cfg.align = true) {owner : Key → Chr}
    {start : Chr → Key} {h : List (Op G N)} {fs : Graph G N} {vs : Vals G} {s s' : St G T N} {x : Ret}
    (r : ReachOk cfg env h s) (e : exec cfg env (.update fs vs false) s = .ok s' x) (hne : fs ≠ [])
    (hf : Spec.Fleet cfg owner start (h ++ [.update fs vs false])) {r0 : Chr}
    (href : Spec.Reference cfg r0 (h ++ [.update fs vs false])) :
    (∀ k, s'.values.has k = (s.values.has k || vs.has k)) ∧
    (∀ k, (trajOf s'.pcm r0).has k = true → s'.values.find? k = some (.pose (cfg.ops.pose (lk cfg s'.pcm r0 k)))) ∧
    ∀ c, c ≠ r0 → Spec.robotOdom cfg c (h ++ [.update fs vs false]) ≠ [] → (∀ k, chr k = c →
      s'.values.find? k = match offsetOf cfg env s'.pcm r0 c with
        | none => Spec.held s.values vs k
        | some X => if (trajOf s'.pcm c).has k then some (.pose (X * cfg.ops.pose (lk cfg s'.pcm c k)))
            else Spec.held s.values vs k) ∧
      Averaged cfg env s'.pcm r0 c := by
  have r' := r.step e
  obtain ⟨s1, rb, h1, _, h3⟩ := exec_batch_ok hr (op := .update fs vs false) rfl e
  have := h3 false rfl (by simp)
  subst this
  obtain ⟨v1, hi, _, h4⟩ := removeOutliers_ok h1
  rcases h4 with ⟨h4, _⟩ | ⟨_, p1, p2, o, _, _, _, _, hal⟩
  · exact absurd h4 hne
  have hfr := alignStep_frame cfg env { s with values := v1, pcm := p2, nfg := buildGraph env p2 }
  rw [hal] at hfr
  have hfr : AlignFrame _ s' := hfr
  obtain ⟨hv, _, _⟩ := insertVals_ok hi
  have hp : s'.pcm = { p2 with robotOrder := s'.pcm.robotOrder } := by
    have := congrArg St.pcm hfr.eq
    exact this
  have htr : s'.pcm.trajs = p2.trajs := by rw [hp]
  have hlc : s'.pcm.lcs = p2.lcs := by rw [hp]
  have htj : ∀ c, trajOf s'.pcm c = trajOf p2 c := by intro c; unfold trajOf; rw [htr]
  have own := r'.reach.own_all hr (C := fun _ => True) hf.separate (fun _ _ _ _ _ => ⟨trivial, trivial⟩)
  have hrob := r'.reach.robots hr
  have hord : s'.pcm.robotOrder.Perm p2.robotOrder := hfr.order
  have hin := order_iff hr r' hf
  have hlen : 1 < p2.robotOrder.length := by
    obtain ⟨c, hc, hc'⟩ := href.other
    have m1 := hord.subset ((hin c).2 hc')
    have m2 := hord.subset ((hin r0).2 href.odom)
    match hh : p2.robotOrder with
    | [] => rw [hh] at m1; cases m1
    | [a] =>
      rw [hh] at m1 m2
      simp only [List.mem_singleton] at m1 m2
      exact absurd (m1.trans m2.symm) hc
    | a :: b :: t => simp
  obtain ⟨q0, rs, ho, hperm, hleast, hq, hrs, hout, hav⟩ := alignStep_ok hal ha hlen (hord.nodup_iff.1 hrob.nodup)
    (fun c => by rw [← htj]; exact own.sorted c) (fun c k hk => (own.own c k (by rw [htj]; exact hk)).1)
  have hq0 : q0 = r0 := by
    refine charVal_inj (sg := cfg.charSigned) (Int.le_antisymm ?_ ?_)
    · exact hleast r0 (hord.subset ((hin r0).2 href.odom))
    · exact href.least q0 ((hin q0).1 (by rw [ho]; simp))
  subst hq0
  have hlk : lk cfg s'.pcm = lk cfg p2 := lk_congr htr
  refine ⟨?_, ?_, ?_⟩
  · intro k
    have h2 := hv k
    have : s'.values.has k = v1.has k := hfr.values.has k
    rw [this]
    unfold KMap.has at *
    rw [h2]
    cases hh : KMap.find? s.values k <;> simp
  · intro k hk
    rw [htj] at hk
    rw [hlk]
    exact hq k hk
  · intro c hc hod
    have hcm : c ∈ rs := by
      have := (hin c).2 hod
      rw [ho] at this
      rcases List.mem_cons.1 this with h | h
      · exact absurd h hc
      · exact h
    refine ⟨?_, fun m cs hm hcs => hav c hcm m cs (hlc ▸ hm) (by rw [← alignCandidates_congr htr]; exact hcs)⟩
    intro k hk
    have := hrs c hcm k hk
    rw [offsetOf_congr (p := s'.pcm) (q := p2) hlc htr, htj, hlk]
    rw [this]
    have hh : KMap.find? v1 k = Spec.held s.values vs k := hv k
    cases offsetOf cfg env p2 q0 c with
    | none => exact hh
    | some X => simp only [hh]


/-- The candidates of the closures of a pair whose ends are on the odometry chains. -/
theorem candidates_eq (laws : Spec.PoseLaws cfg.ops) (hr : cfg.rejection = true) {h : List (Op G N)} {s : St G T N}
    (r : ReachOk cfg env h s) {start : Chr → Key} (hch : Spec.Chains cfg start h) {g : Chr → G}
    (hg : ∀ c, Spec.robotOdom cfg c h ≠ [] → Spec.StartPose cfg env c (start c) h (g c)) {r0 c : Chr} (hne : c ≠ r0)
    (h0 : r0 ∈ s.pcm.robotOrder) (hc : c ∈ s.pcm.robotOrder) (hz : charVal cfg.charSigned r0 = ucharVal r0)
    (bs : List (Btw G N))
    (hbs : ∀ b ∈ bs, (ObsId.mk (chr b.k1) (chr b.k2)).eqv ⟨r0, c⟩ = true ∧ Spec.OnChain cfg start h b.k1 ∧
      Spec.OnChain cfg start h b.k2) :
    alignCandidates cfg s.pcm r0 c bs = some (bs.map (Spec.offset r0 (Spec.odomPose cfg start g h))) := by
  have hod : ∀ d ∈ s.pcm.robotOrder, Spec.robotOdom cfg d h ≠ [] :=
    fun d hd => robotOdom_ne_nil.2 ((r.reach.robots hr).odom d hd)
  have lookup : ∀ d k, chr k = d → d ∈ s.pcm.robotOrder → Spec.OnChain cfg start h k →
      ∃ t, (trajOf s.pcm d).find? k = some t ∧ cfg.ops.pose t = Spec.odomPose cfg start g h k := by
    rintro d k rfl hd hk
    obtain ⟨h1, h2⟩ := odomPose_eq laws hr r hch (hg _ (hod _ hd)) hd hk
    exact ⟨_, find?_of_has (cfg := cfg) h1, h2⟩
  have one : ∀ b ∈ bs, alignCandidate cfg s.pcm r0 c b = some (Spec.offset r0 (Spec.odomPose cfg start g h) b) := by
    intro b hb
    obtain ⟨he, k1, k2⟩ := hbs b hb
    have he : (chr b.k1 = r0 ∧ chr b.k2 = c) ∨ (chr b.k1 = c ∧ chr b.k2 = r0) := by
      simpa [ObsId.eqv, and_comm] using he
    unfold alignCandidate Spec.offset
    rcases he with ⟨e1, e2⟩ | ⟨e1, e2⟩
    · have hs : decide (ucharVal (chr b.k1) ≠ charVal cfg.charSigned r0) = false := by
        rw [e1, hz]; simp
      obtain ⟨t1, f1, q1⟩ := lookup r0 b.k1 e1 h0 k1
      obtain ⟨t2, f2, q2⟩ := lookup c b.k2 e2 hc k2
      simp only [hs, Bool.false_eq_true, if_false, f1, f2, q1, q2, if_pos e1]
    · have hs : decide (ucharVal (chr b.k1) ≠ charVal cfg.charSigned r0) = true := by
        rw [e1, hz, decide_eq_true_eq]
        intro h
        unfold ucharVal at h
        exact hne (BitVec.eq_of_toNat_eq (by omega))
      obtain ⟨t1, f1, q1⟩ := lookup c b.k1 e1 hc k1
      obtain ⟨t2, f2, q2⟩ := lookup r0 b.k2 e2 h0 k2
      simp only [hs, if_true, f1, f2, q1, q2, if_neg (show ¬ chr b.k1 = r0 by rw [e1]; exact hne)]
  clear hbs
  induction bs with
  | nil => rfl
  | cons b bs ih =>
    unfold alignCandidates
    rw [one b (by simp), ih (fun x hx => one x (by simp [hx]))]
    rfl

namespace Props

theorem C30_laws_simple {C K : Type} [Field K] [LinearOrder K] (p : Params K) (tn rn : G → K) (signed : Bool) :
    Spec.PoseLaws (p.cfgSimple C tn rn signed).ops := ⟨fun _ => rfl, fun _ _ => rfl, fun _ _ => rfl⟩

theorem C30_laws_cov {C K : Type} [Field K] [LinearOrder K] [AddGroup C] (p : Params K) (env : CovEnv G C K) (signed : Bool) :
    Spec.PoseLaws (p.cfgCov env signed).ops := by
  refine ⟨fun _ => rfl, fun _ _ => rfl, fun g n => ?_⟩
  show (PCov.ofFactor env g n).pose = g
  unfold PCov.ofFactor
  split <;> rfl

/-- C30: no call adds or removes a key by aligning frames. -/
theorem C30_keys (hr : cfg.rejection = true) {fs : Graph G N} {vs : Vals G} {o : Bool} {s s' : St G T N} {x : Ret}
    (e : exec cfg env (.update fs vs o) s = .ok s' x) (k : Key) : s'.values.has k = (s.values.has k || vs.has k) := by
  obtain ⟨s1, rb, h1, hf, _⟩ := exec_batch_ok hr (op := .update fs vs o) rfl e
  obtain ⟨v1, hi, _, h4⟩ := removeOutliers_ok h1
  obtain ⟨hv, _, _⟩ := insertVals_ok hi
  have key : s1.values.has k = v1.has k := by
    rcases h4 with ⟨_, rfl⟩ | ⟨_, p1, p2, o, _, _, _, _, hal⟩
    · rfl
    · have hfr := alignStep_frame cfg env { s with values := v1, pcm := p2, nfg := buildGraph env p2 }
      rw [hal] at hfr
      have hfr : AlignFrame _ s1 := hfr
      exact hfr.values.has k
  rw [hf.values.has k, key]
  have h2 := hv k
  unfold KMap.has at *
  rw [h2]
  cases hh : KMap.find? s.values k <;> simp

/-- C30, partial: what a call with frame alignment writes, for a fleet whose odometry is chained inside each robot and
starts before closures name the robot, and whose landmarks are each observed by one robot. `g c` is the first pose of
robot `c`. Missing: keys that the odometry does not reach (false, `C30_false_orphan`), robots named by closures before
their odometry (false, `C30_false_late`), reference prefixes of 128 and more (false, `C31_false_high_prefix`). -/
theorem C30_partial (laws : Spec.PoseLaws cfg.ops) (hr : cfg.rejection = true) (ha : cfg.align = true)
    {owner : Key → Chr} {start : Chr → Key} {h : List (Op G N)} {fs : Graph G N} {vs : Vals G} {s s' : St G T N} {x : Ret}
    (r : ReachOk cfg env h s) (e : exec cfg env (.update fs vs false) s = .ok s' x) (hne : fs ≠ [])
    (H : List (Op G N)) (hH : H = h ++ [.update fs vs false]) (hf : Spec.Fleet cfg owner start H)
    {r0 : Chr} (href : Spec.Reference cfg r0 H) (g : Chr → G)
    (hg : ∀ c, Spec.robotOdom cfg c H ≠ [] → Spec.StartPose cfg env c (start c) H (g c)) :
    -- the reference robot is its own odometry
    (∀ k, chr k = r0 → Spec.OnChain cfg start H k →
      s'.values.find? k = some (.pose (Spec.odomPose cfg start g H k))) ∧
    ∀ c, c ≠ r0 → Spec.robotOdom cfg c H ≠ [] →
      -- another robot is not moved, or is its own odometry moved by one transform
      ((∀ k, chr k = c → s'.values.find? k = Spec.held s.values vs k) ∨
        ∃ X, ∀ k, chr k = c → Spec.OnChain cfg start H k →
          s'.values.find? k = some (.pose (X * Spec.odomPose cfg start g H k))) ∧
      -- it is not moved if no closure to the reference robot was sent
      ((∀ op ∈ H, ∀ b ∈ Spec.opBtws op, ¬ (ObsId.mk (chr b.k1) (chr b.k2)).eqv ⟨r0, c⟩ = true) →
        ∀ k, chr k = c → s'.values.find? k = Spec.held s.values vs k) ∧
      -- it is moved by the average of the offsets of its inlier closures to the reference robot
      (r0.toNat < 128 → Spec.registered s' ⟨r0, c⟩ ≠ [] →
        (∀ b ∈ Spec.selected s' ⟨r0, c⟩, Spec.OnChain cfg start H b.k1 ∧ Spec.OnChain cfg start H b.k2) →
        ∃ X, env.avg ((Spec.selected s' ⟨r0, c⟩).map (Spec.offset r0 (Spec.odomPose cfg start g H))) = some X ∧
          ∀ k, chr k = c → Spec.OnChain cfg start H k →
            s'.values.find? k = some (.pose (X * Spec.odomPose cfg start g H k))) := by
  subst hH
  have r' := r.step e
  obtain ⟨_, a1, a2⟩ := align_core hr ha r e hne hf href
  have hin := order_iff hr r' hf
  have pose : ∀ k, Spec.robotOdom cfg (chr k) (h ++ [.update fs vs false]) ≠ [] →
      Spec.OnChain cfg start (h ++ [.update fs vs false]) k → _ :=
    fun k hod hk => odomPose_eq laws hr r' hf.chains (g := g) (hg _ hod) ((hin _).2 hod) hk
  refine ⟨?_, ?_⟩
  · rintro k rfl hk
    obtain ⟨p1, p2⟩ := pose k href.odom hk
    rw [a1 k p1, p2]
  · intro c hc hod
    obtain ⟨b2, hav⟩ := a2 c hc hod
    have moved : ∀ X, offsetOf cfg env s'.pcm r0 c = some X → ∀ k, chr k = c →
        Spec.OnChain cfg start (h ++ [.update fs vs false]) k →
        s'.values.find? k = some (.pose (X * Spec.odomPose cfg start g (h ++ [.update fs vs false]) k)) := by
      intro X hX k hk hon
      have := b2 k hk
      subst hk
      obtain ⟨p1, p2⟩ := pose k hod hon
      rw [this, hX]
      simp only
      rw [if_pos p1, p2]
    have still : offsetOf cfg env s'.pcm r0 c = none → ∀ k, chr k = c → s'.values.find? k = Spec.held s.values vs k := by
      intro hX k hk
      have := b2 k hk
      rw [hX] at this
      exact this
    refine ⟨?_, ?_, ?_⟩
    · cases hX : offsetOf cfg env s'.pcm r0 c with
      | none => exact Or.inl (still hX)
      | some X => exact Or.inr ⟨X, moved X hX⟩
    · intro hno
      refine still ?_
      unfold offsetOf
      cases hm : AList.get? ObsId.eqv s'.pcm.lcs ⟨r0, c⟩ with
      | none => rfl
      | some m =>
        exfalso
        obtain ⟨id, hid, he⟩ := AList.get?_mem hm
        obtain ⟨op, hop, b, hb, heq⟩ := r'.filed hr _ he
        exact hno op hop b hb (ObsId.isEqv.trans _ _ _ heq hid)
    · intro h7 hreg hon
      cases hm : AList.get? ObsId.eqv s'.pcm.lcs ⟨r0, c⟩ with
      | none =>
        exfalso
        apply hreg
        unfold Spec.registered lcOf
        rw [hm]; rfl
      | some m =>
        have hsel : Spec.selected s' ⟨r0, c⟩ = m.cons := by
          unfold Spec.selected
          rw [lcOf_of_get? hm]
        rw [hsel] at hon ⊢
        obtain ⟨id, hid, he⟩ := AList.get?_mem hm
        have hids : ∀ b ∈ m.cons, (ObsId.mk (chr b.k1) (chr b.k2)).eqv ⟨r0, c⟩ = true := by
          intro b hb
          exact ObsId.isEqv.trans _ _ _ (r'.reach.filed hr _ he b (Or.inr hb)) hid
        have hz : charVal cfg.charSigned r0 = ucharVal r0 := by
          unfold charVal ucharVal
          split
          · rw [BitVec.toInt_eq_toNat_cond, if_pos (by omega)]
          · rfl
        have hcs := candidates_eq laws hr r' hf.chains hg hc ((hin _).2 href.odom) ((hin _).2 hod) hz m.cons
          (fun b hb => ⟨hids b hb, hon b hb⟩)
        have hof : offsetOf cfg env s'.pcm r0 c =
            env.avg (m.cons.map (Spec.offset r0 (Spec.odomPose cfg start g (h ++ [.update fs vs false])))) := by
          unfold offsetOf
          rw [hm]
          simp only [hcs]
        obtain ⟨X, hX⟩ := Option.isSome_iff_exists.1 (hav m _ hm hcs)
        exact ⟨X, hX, moved X (hof.trans hX)⟩

/-- C30, partial: poses of one robot that was aligned are related to each other by the robot's odometry. -/
theorem C30_relative_partial (laws : Spec.PoseLaws cfg.ops) (hr : cfg.rejection = true) (ha : cfg.align = true)
    {owner : Key → Chr} {start : Chr → Key} {h : List (Op G N)} {fs : Graph G N} {vs : Vals G} {s s' : St G T N} {x : Ret}
    (r : ReachOk cfg env h s) (e : exec cfg env (.update fs vs false) s = .ok s' x) (hne : fs ≠ [])
    (H : List (Op G N)) (hH : H = h ++ [.update fs vs false]) (hf : Spec.Fleet cfg owner start H)
    {r0 : Chr} (h7 : r0.toNat < 128) (href : Spec.Reference cfg r0 H) (c : Chr) (hod : Spec.robotOdom cfg c H ≠ [])
    (hc : c ≠ r0 → Spec.registered s' ⟨r0, c⟩ ≠ [] ∧
      ∀ b ∈ Spec.selected s' ⟨r0, c⟩, Spec.OnChain cfg start H b.k1 ∧ Spec.OnChain cfg start H b.k2)
    (i j : Nat) (hij : i ≤ j) (hj : j ≤ (Spec.robotOdom cfg c H).length) :
    ∃ a b, s'.values.find? (Spec.after (start c) i) = some (.pose a) ∧
      s'.values.find? (Spec.after (start c) j) = some (.pose b) ∧
      a⁻¹ * b = Spec.measProd (Spec.seg (Spec.robotOdom cfg c H) i j) := by
  have r' : ReachOk cfg env H s' := hH ▸ r.step e
  have hstart : ∀ c, ∃ g, Spec.robotOdom cfg c H ≠ [] → Spec.StartPose cfg env c (start c) H g := by
    intro c
    by_cases h0 : Spec.robotOdom cfg c H = []
    · exact ⟨1, fun h => absurd h0 h⟩
    · obtain ⟨_, ch, hl⟩ := hf.chains c
      obtain ⟨g, hg, _⟩ := r'.started hr c (start c) ch hl ((order_iff hr r' hf c).2 h0)
      exact ⟨g, fun _ => hg⟩
  choose g hg using hstart
  obtain ⟨c1, c2⟩ := C30_partial laws hr ha r e hne H hH hf href g hg
  have hl := (hf.chains c).2.2
  have chrk : ∀ n, n ≤ (Spec.robotOdom cfg c H).length → chr (Spec.after (start c) n) = c :=
    fun n hn => onChain_chr hf.chains c hn
  have onk : ∀ n, n ≤ (Spec.robotOdom cfg c H).length → Spec.OnChain cfg start H (Spec.after (start c) n) := by
    intro n hn
    exact ⟨n, by rw [chrk n hn]; exact hn, by rw [chrk n hn]⟩
  have val : ∀ n, n ≤ (Spec.robotOdom cfg c H).length →
      Spec.odomPose cfg start g H (Spec.after (start c) n) = g c * Spec.measProd ((Spec.robotOdom cfg c H).take n) := by
    intro n hn
    unfold Spec.odomPose
    rw [chrk n hn, after_sub _ (by omega)]
  have key : ∃ X, ∀ n, n ≤ (Spec.robotOdom cfg c H).length → s'.values.find? (Spec.after (start c) n) =
      some (.pose (X * Spec.measProd ((Spec.robotOdom cfg c H).take n))) := by
    by_cases h0 : c = r0
    · refine ⟨g c, fun n hn => ?_⟩
      rw [c1 _ ((chrk n hn).trans h0) (onk n hn), val n hn]
    · obtain ⟨X, _, hX⟩ := (c2 c h0 hod).2.2 h7 (hc h0).1 (hc h0).2
      refine ⟨X * g c, fun n hn => ?_⟩
      rw [hX _ (chrk n hn) (onk n hn), val n hn, mul_assoc]
  obtain ⟨X, hX⟩ := key
  refine ⟨_, _, hX i (by omega), hX j hj, ?_⟩
  rw [take_seg _ hij]
  simp only [Spec.measProd, List.map_append, List.prod_append]
  group

/-- C31, partial: if every inlier closure between the reference robot and robot `c` agrees with frame offset `X`,
whatever its direction, the averaging gets a list of `X`s, and its result is what robot `c` is moved by. For fleets as in
`C30_partial`. Missing: reference prefixes of 128 and more (false, `C31_false_high_prefix`). -/
theorem C31_partial (laws : Spec.PoseLaws cfg.ops) (hr : cfg.rejection = true) (ha : cfg.align = true)
    {owner : Key → Chr} {start : Chr → Key} {h : List (Op G N)} {fs : Graph G N} {vs : Vals G} {s s' : St G T N} {x : Ret}
    (r : ReachOk cfg env h s) (e : exec cfg env (.update fs vs false) s = .ok s' x) (hne : fs ≠ [])
    (H : List (Op G N)) (hH : H = h ++ [.update fs vs false]) (hf : Spec.Fleet cfg owner start H)
    {r0 : Chr} (h7 : r0.toNat < 128) (href : Spec.Reference cfg r0 H) (g : Chr → G)
    (hg : ∀ c, Spec.robotOdom cfg c H ≠ [] → Spec.StartPose cfg env c (start c) H (g c))
    (c : Chr) (hc : c ≠ r0) (hod : Spec.robotOdom cfg c H ≠ []) (hreg : Spec.registered s' ⟨r0, c⟩ ≠ [])
    (O : Key → G) (hO : O = Spec.odomPose cfg start g H) (X : G)
    (hX : ∀ b ∈ Spec.selected s' ⟨r0, c⟩, Spec.OnChain cfg start H b.k1 ∧ Spec.OnChain cfg start H b.k2 ∧
      (chr b.k1 = r0 → b.m = (O b.k1)⁻¹ * (X * O b.k2)) ∧ (chr b.k1 ≠ r0 → b.m = (X * O b.k1)⁻¹ * O b.k2)) :
    ∃ Y, env.avg (List.replicate (Spec.selected s' ⟨r0, c⟩).length X) = some Y ∧
      ∀ k, chr k = c → Spec.OnChain cfg start H k → s'.values.find? k = some (.pose (Y * O k)) := by
  subst hO
  obtain ⟨Y, hY, hv⟩ := ((C30_partial laws hr ha r e hne H hH hf href g hg).2 c hc hod).2.2 h7 hreg
    (fun b hb => ⟨(hX b hb).1, (hX b hb).2.1⟩)
  refine ⟨Y, ?_, hv⟩
  have : (Spec.selected s' ⟨r0, c⟩).map (Spec.offset r0 (Spec.odomPose cfg start g H)) =
      List.replicate (Spec.selected s' ⟨r0, c⟩).length X := by
    rw [List.eq_replicate_iff]
    refine ⟨by simp, fun y hy => ?_⟩
    obtain ⟨b, hb, rfl⟩ := List.mem_map.1 hy
    obtain ⟨_, _, h1, h2⟩ := hX b hb
    unfold Spec.offset
    by_cases h0 : chr b.k1 = r0
    · rw [if_pos h0, h1 h0]; group
    · rw [if_neg h0, h2 h0]; group
  rw [this] at hY
  exact hY

end Props

/-! ### A fleet of two robots, and what goes wrong outside such fleets -/

namespace Demo

/-- `params` with frame alignment. -/
def cfgA : Cfg Z Tp Ns := mk (params.apply (.alignMethod true))

/-- Key `i` of the robot with prefix byte 200, `A` and `B`. -/
def hi (i : BitVec 56) : Key := symKey 200 i

/-- Two robots with odometry of unit steps from their own origin. -/
def twoOdom (p q : BitVec 56 → Key) : Op Z Ns :=
  .update [edge (p 0) (p 1) 1, edge (q 0) (q 1) 1] [pose (p 0) 0, pose (p 1) 1, pose (q 0) 0, pose (q 1) 1] false

/-- Two closures between them, expressed from `q` to `p`, that put robot `q` at 5 in the frame of robot `p`. -/
def twoLoops (p q : BitVec 56 → Key) : Op Z Ns := .update [edge (q 1) (p 1) (-5), edge (q 0) (p 0) (-5)] [] false

/-- A closure in the forward direction. -/
def oneLoop (p q : BitVec 56 → Key) : Op Z Ns := .update [edge (p 1) (q 1) 5] [] false

/-- First key of each robot. -/
def start (c : Chr) : Key := symKey c 0

end Demo

namespace Props
open Demo

theorem fleet_odom (c : Chr) : Spec.robotOdom cfgA c [twoOdom a b, twoLoops a b] =
    if c = 97 then [btw (a 0) (a 1) 1] else if c = 98 then [btw (b 0) (b 1) 1] else [] := by
  have h : Spec.odomSoFar cfgA [twoOdom a b, twoLoops a b] = [btw (a 0) (a 1) 1, btw (b 0) (b 1) 1] := by decide +kernel
  unfold Spec.robotOdom
  rw [h]
  have ha : chr (btw (a 0) (a 1) 1).k2 = 97 := by decide +kernel
  have hb : chr (btw (b 0) (b 1) 1).k2 = 98 := by decide +kernel
  simp only [List.filter_cons, ha, hb, List.filter_nil]
  by_cases h1 : c = 97
  · subst h1; rfl
  · by_cases h2 : c = 98
    · subst h2; rfl
    · have e1 : ((97 : Chr) == c) = false := by simpa using Ne.symm h1
      have e2 : ((98 : Chr) == c) = false := by simpa using Ne.symm h2
      rw [e1, e2, if_neg h1, if_neg h2]; rfl

/-- A fleet as in the theorems: two robots, two closures. -/
theorem fleet_demo : Spec.Fleet cfgA (fun _ => 0) start [twoOdom a b, twoLoops a b] where
  separate := by
    have h0 : cfgA.special = [] := rfl
    refine ⟨?_, fun op _ b _ h => ?_⟩
    · have h1 : ∀ b' ∈ Spec.opOdom cfgA (twoOdom a b), chr b'.k1 = chr b'.k2 := by decide +kernel
      have h2 : ∀ b' ∈ Spec.opOdom cfgA (twoLoops a b), chr b'.k1 = chr b'.k2 := by decide +kernel
      intro op hop
      simp only [List.mem_cons, List.not_mem_nil, or_false] at hop
      rcases hop with rfl | rfl
      · exact h1
      · exact h2
    · rw [h0] at h; cases h
  chains := by
    intro c
    refine ⟨?_, ?_⟩
    · have : ∀ c : Chr, chr (start c) = c := by decide +kernel
      exact this c
    · have hs : ∀ c : Chr, (start c).toNat + 1 < 2 ^ 64 := by decide +kernel
      rw [fleet_odom]
      by_cases h1 : c = 97
      · subst h1
        rw [if_pos rfl]
        exact ⟨⟨by decide +kernel, by decide +kernel, trivial⟩, hs 97⟩
      · by_cases h2 : c = 98
        · subst h2
          rw [if_neg h1, if_pos rfl]
          exact ⟨⟨by decide +kernel, by decide +kernel, trivial⟩, hs 98⟩
        · rw [if_neg h1, if_neg h2]
          exact ⟨trivial, by have := hs c; simp only [List.length_nil]; omega⟩
  joins := by
    intro c hc
    refine ⟨[], twoOdom a b, [twoLoops a b], rfl, ?_, by simp⟩
    rw [fleet_odom] at hc
    by_cases h1 : c = 97
    · subst h1; decide +kernel
    · by_cases h2 : c = 98
      · subst h2; decide +kernel
      · rw [if_neg h1, if_neg h2] at hc; exact absurd rfl hc

theorem reference_demo : Spec.Reference cfgA 97 [twoOdom a b, twoLoops a b] where
  odom := by rw [fleet_odom]; simp
  least := by
    intro c hc
    rw [fleet_odom] at hc
    by_cases h1 : c = 97
    · subst h1; exact Int.le_refl _
    · by_cases h2 : c = 98
      · subst h2; decide +kernel
      · rw [if_neg h1, if_neg h2] at hc; exact absurd rfl hc
  other := ⟨98, by decide, by rw [fleet_odom]; decide +kernel⟩

theorem start_demo (c : Chr) (hc : Spec.robotOdom cfgA c [twoOdom a b, twoLoops a b] ≠ []) :
    Spec.StartPose cfgA Demo.env c (start c) [twoOdom a b, twoLoops a b] (z 0) := by
  have two : c = 97 ∨ c = 98 := by
    rw [fleet_odom] at hc
    by_cases h1 : c = 97
    · exact Or.inl h1
    · by_cases h2 : c = 98
      · exact Or.inr h2
      · rw [if_neg h1, if_neg h2] at hc; exact absurd rfl hc
  refine ⟨[], twoOdom a b, [twoLoops a b], St.init, _, _, rfl, .init, rfl, rfl, ?_, Or.inr ?_⟩
  · rcases two with rfl | rfl
    · show Spec.robotOdom cfgA 97 [twoOdom a b] ≠ []
      decide +kernel
    · show Spec.robotOdom cfgA 98 [twoOdom a b] ≠ []
      decide +kernel
  · rcases two with rfl | rfl <;> decide +kernel

set_option maxRecDepth 100000 in
/-- The run: both closures are inliers, and robot `b` is moved to 5. -/
example : ∃ s, ReachOk cfgA Demo.env [twoOdom a b, twoLoops a b] s ∧
    (Spec.registered s ⟨97, 98⟩ = [btw (b 1) (a 1) (-5), btw (b 0) (a 0) (-5)] ∧
      Spec.selected s ⟨97, 98⟩ = [btw (b 1) (a 1) (-5), btw (b 0) (a 0) (-5)]) ∧
    s.values.find? (a 1) = some (.pose (z 1)) ∧ s.values.find? (b 0) = some (.pose (z 5)) ∧
    s.values.find? (b 1) = some (.pose (z 6)) := by
  obtain ⟨s, r, h⟩ := Demo.runs_reach (cfg := cfgA) (env := Demo.env) (ops := [twoOdom a b, twoLoops a b])
    (P := fun s => decide ((Spec.registered s ⟨97, 98⟩ = [btw (b 1) (a 1) (-5), btw (b 0) (a 0) (-5)] ∧
      Spec.selected s ⟨97, 98⟩ = [btw (b 1) (a 1) (-5), btw (b 0) (a 0) (-5)]) ∧
    s.values.find? (a 1) = some (.pose (z 1)) ∧ s.values.find? (b 0) = some (.pose (z 5)) ∧
    s.values.find? (b 1) = some (.pose (z 6)))) (by decide +kernel)
  exact ⟨s, r, of_decide_eq_true h⟩

/-- The hypothesis of C31 on these closures: both put robot `b` at 5. -/
example : ∀ e ∈ [btw (b 1) (a 1) (-5), btw (b 0) (a 0) (-5)],
    (chr e.k1 = 97 → e.m = (Spec.odomPose cfgA start (fun _ => z 0) [twoOdom a b, twoLoops a b] e.k1)⁻¹ *
      (z 5 * Spec.odomPose cfgA start (fun _ => z 0) [twoOdom a b, twoLoops a b] e.k2)) ∧
    (chr e.k1 ≠ 97 → e.m = (z 5 * Spec.odomPose cfgA start (fun _ => z 0) [twoOdom a b, twoLoops a b] e.k1)⁻¹ *
      Spec.odomPose cfgA start (fun _ => z 0) [twoOdom a b, twoLoops a b] e.k2) := by
  decide +kernel

set_option maxRecDepth 100000 in
/-- C31 and C30 are false of the code for a reference robot whose prefix byte is 128 or more where `char` is signed: a
closure in the forward direction is taken for a reversed one, the odometry of its ends is not found, and the other robot
is left where it was, although its accepted closure puts it at 5. -/
theorem C31_false_high_prefix : ∃ s, ReachOk cfgA Demo.env [twoOdom hi a, oneLoop hi a] s ∧
    (Spec.selected s ⟨200, 97⟩ = [btw (hi 1) (a 1) 5] ∧ charVal cfgA.charSigned 200 < charVal cfgA.charSigned 97) ∧
    s.values.find? (hi 1) = some (.pose (z 1)) ∧
    s.values.find? (a 0) = some (.pose (z 0)) ∧ s.values.find? (a 1) = some (.pose (z 1)) := by
  obtain ⟨s, r, h⟩ := Demo.runs_reach (cfg := cfgA) (env := Demo.env) (ops := [twoOdom hi a, oneLoop hi a])
    (P := fun s => decide ((Spec.selected s ⟨200, 97⟩ = [btw (hi 1) (a 1) 5] ∧ charVal cfgA.charSigned 200 < charVal cfgA.charSigned 97) ∧
    s.values.find? (hi 1) = some (.pose (z 1)) ∧
    s.values.find? (a 0) = some (.pose (z 0)) ∧ s.values.find? (a 1) = some (.pose (z 1)))) (by decide +kernel)
  exact ⟨s, r, of_decide_eq_true h⟩

/-- Robot `b` has a key `b7` that its odometry does not reach, with initial guess 42; two closures to it. -/
def orphan : List (Op Z Ns) :=
  [twoOdom a b, .update [some (.prior (b 7) (z 42))] [pose (b 7) 42] false,
   .update [edge (a 0) (b 7) 10, edge (a 1) (b 7) 9] [] false]

set_option maxRecDepth 100000 in
/-- C30 is false of the code when closures name a key that the robot's odometry does not reach: comparing the closures
enters the key with the identity pose, so alignment overwrites its estimate (42) and moves the whole robot by an offset
computed from that pose. -/
theorem C30_false_orphan : ∃ s, ReachOk cfgA Demo.env orphan s ∧
    s.values.find? (b 7) = some (.pose (z 10)) ∧ s.values.find? (b 0) = some (.pose (z 10)) ∧
    s.values.find? (b 1) = some (.pose (z 11)) := by
  obtain ⟨s, r, h⟩ := Demo.runs_reach (cfg := cfgA) (env := Demo.env) (ops := orphan)
    (P := fun s => decide (s.values.find? (b 7) = some (.pose (z 10)) ∧ s.values.find? (b 0) = some (.pose (z 10)) ∧
    s.values.find? (b 1) = some (.pose (z 11)))) (by decide +kernel)
  exact ⟨s, r, of_decide_eq_true h⟩

/-- Closures to robot `b` arrive before its odometry. -/
def late : List (Op Z Ns) :=
  [.update [edge (a 0) (a 1) 1, some (.prior (b 0) (z 0))] [pose (a 0) 0, pose (a 1) 1, pose (b 0) 0] false,
   .update [edge (a 0) (b 0) 5, edge (a 1) (b 0) 4] [] false,
   .update [edge (b 0) (b 1) 1] [pose (b 1) 1] false,
   .update [edge (a 1) (b 1) 5] [] false]

set_option maxRecDepth 100000 in
/-- C30 is false of the code when closures to a robot arrive before its odometry: the robot never takes part in the
alignment, so it stays where it was although its three accepted closures put it at 5. -/
theorem C30_false_late : ∃ s, ReachOk cfgA Demo.env late s ∧
    (Spec.selected s ⟨97, 98⟩).length = 3 ∧ s.values.find? (b 0) = some (.pose (z 0)) ∧
    s.values.find? (b 1) = some (.pose (z 1)) := by
  obtain ⟨s, r, h⟩ := Demo.runs_reach (cfg := cfgA) (env := Demo.env) (ops := late)
    (P := fun s => decide ((Spec.selected s ⟨97, 98⟩).length = 3 ∧ s.values.find? (b 0) = some (.pose (z 0)) ∧
    s.values.find? (b 1) = some (.pose (z 1)))) (by decide +kernel)
  exact ⟨s, r, of_decide_eq_true h⟩

end Props
end RPGO
