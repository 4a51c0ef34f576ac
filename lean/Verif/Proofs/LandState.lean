import Verif.Proofs.PairState
import Verif.Proofs.Undo
import Verif.Props.Observations
/-
The observations of one landmark as a function of what was supplied about it and about the robot that observes it.
-/

namespace RPGO.Spec
variable {G T N : Type}

/-- The first observations of landmark `l` in one call (with a key that is new in that call). -/
def lmFirsts (cfg : Cfg G T N) (l : Key) (op : Op G N) : List (Btw G N) :=
  match batch op with
  | some (fs, vs) => (firsts cfg vs fs).filter fun b => decide (landmarkOf cfg b = l)
  | none => []

/-- The further observations of landmark `l` in one call. -/
def lmCands (cfg : Cfg G T N) (l : Key) (op : Op G N) : List (Btw G N) :=
  (opCands cfg op).filter fun b => isLandmark cfg b && decide (landmarkOf cfg b = l)

/-- The observations of landmark `l` in one call, the first observations before the further ones and marked `true`. -/
def lmSeen (cfg : Cfg G T N) (l : Key) (op : Op G N) : List (Bool × Btw G N) :=
  (lmFirsts cfg l op).map (fun b => (true, b)) ++ (lmCands cfg l op).map fun b => (false, b)

/-- The observations of landmark `l` so far; how they were divided into calls is not recorded. -/
def lmSoFar (cfg : Cfg G T N) (l : Key) (h : List (Op G N)) : List (Bool × Btw G N) := h.flatMap (lmSeen cfg l)

/-- What is asked of the history concerning landmark `l` and robot `c`; nothing is asked concerning other robots and other
landmarks. -/
structure LandFed (cfg : Cfg G T N) (start : Chr → Key) (c : Chr) (l : Key) (h : List (Op G N)) : Prop where
  /-- the odometry of the robot starts at a key of that robot -/
  begins : chr (start c) = c
  /-- and is a chain -/
  chain : Chain (start c) (robotOdom cfg c h)
  /-- which does not run into the next prefix -/
  short : (start c).toNat + (robotOdom cfg c h).length < 2 ^ 64
  /-- the landmark is observed by this robot only, from keys its odometry has reached -/
  reached : ∀ h1 op h2, h = h1 ++ op :: h2 → ∀ x ∈ lmSeen cfg l op,
    chr x.2.k1 ∉ cfg.special → chr x.2.k1 = c ∧ OnChain cfg start (h1 ++ [op]) x.2.k1
  /-- when a further observation arrives, values have been supplied for its keys -/
  known : ∀ h1 op h2, h = h1 ++ op :: h2 → ∀ x ∈ lmCands cfg l op,
    (∃ o ∈ h1 ++ [op], x.k1 ∈ opKeys o) ∧ ∃ o ∈ h1 ++ [op], x.k2 ∈ opKeys o

end RPGO.Spec

namespace RPGO
variable {G T N : Type}

/-- One more observation. -/
def landStep (cfg : Cfg G T N) (f : Chr → Key → T) (l : Key) (m : Meas G N) (x : Bool × Btw G N) : Meas G N :=
  if x.1 then ⟨[x.2], [x.2], Mat.zero 1⟩ else growLm cfg f l x.2 m

/-- The same registered observations with the same matrix. -/
def LandBare (m m' : Meas G N) : Prop := m.factors = m'.factors ∧ m.adj = m'.adj

theorem LandBare.step {cfg : Cfg G T N} {f : Chr → Key → T} {l : Key} {m m' : Meas G N} (h : LandBare m m') (x : Bool × Btw G N) :
    LandBare (landStep cfg f l m x) (landStep cfg f l m' x) := by
  unfold landStep
  split
  · exact ⟨rfl, rfl⟩
  · unfold growLm LandBare
    rw [h.1, h.2]
    exact ⟨rfl, rfl⟩

theorem LandBare.fold {cfg : Cfg G T N} {f : Chr → Key → T} {l : Key} (xs : List (Bool × Btw G N)) {m m' : Meas G N} (h : LandBare m m') :
    LandBare (xs.foldl (landStep cfg f l) m) (xs.foldl (landStep cfg f l) m') := by
  induction xs generalizing m m' with
  | nil => exact h
  | cons x xs ih => exact ih (h.step x)

theorem landFold_congr {cfg : Cfg G T N} {f g : Chr → Key → T} {l : Key} {P : Btw G N → Prop}
    (hv : ∀ x y, P x → P y → x.k1 ≠ l → y.k1 ≠ l → landVerdict cfg f x y = landVerdict cfg g x y)
    (xs : List (Bool × Btw G N)) (hP : ∀ x ∈ xs, P x.2) (m : Meas G N) (hm : ∀ b ∈ m.factors, P b) :
    xs.foldl (landStep cfg f l) m = xs.foldl (landStep cfg g l) m := by
  induction xs generalizing m with
  | nil => rfl
  | cons x xs ih =>
    have hx := hP x (by simp)
    have e : landStep cfg f l m x = landStep cfg g l m x := by
      unfold landStep
      split
      · rfl
      · unfold growLm
        congr 1
        split
        · rfl
        · split
          · rfl
          · rename_i hany
            have : m.factors.map (fun y => landVerdict cfg f y x.2) = m.factors.map (fun y => landVerdict cfg g y x.2) := by
              refine List.map_congr_left fun y hy => ?_
              have h0 : ¬ (y.k1 = l ∨ x.2.k1 = l) := by
                intro hc
                exact hany (List.any_eq_true.2 ⟨y, hy, by simpa using hc⟩)
              exact hv y x.2 (hm y hy) hx (fun hc => h0 (Or.inl hc)) (fun hc => h0 (Or.inr hc))
            rw [this]
    rw [List.foldl_cons, List.foldl_cons, e]
    refine ih (fun y hy => hP y (by simp [hy])) _ ?_
    intro b hb
    unfold landStep at hb
    split at hb
    · rw [List.mem_singleton.1 hb]; exact hx
    · simp only [growLm, List.mem_append, List.mem_singleton] at hb
      rcases hb with hb | rfl
      · exact hm b hb
      · exact hx

theorem fileFirst_fold [Mul G] [Inv G] [One G] (cfg : Cfg G T N) (f : Chr → Key → T) (bs : List (Btw G N)) (lm : List (Key × Meas G N)) (l : Key) :
    (AList.get? (· == ·) (bs.foldl (fileFirst cfg) lm) l).getD Meas.empty =
      ((bs.filter fun b => decide (Spec.landmarkOf cfg b = l)).map fun b => (true, b)).foldl (landStep cfg f l)
        ((AList.get? (· == ·) lm l).getD Meas.empty) := by
  induction bs generalizing lm with
  | nil => rfl
  | cons b bs ih =>
    rw [List.foldl_cons, ih]
    by_cases hk : Spec.landmarkOf cfg b = l
    · rw [List.filter_cons_of_pos (by simpa using hk), List.map_cons, List.foldl_cons]
      congr 1
      unfold fileFirst
      rw [← Props.landmarkKey_eq] at hk
      rw [hk, AList.get?_upd_self AList.isEqv_beq]
      rfl
    · rw [List.filter_cons_of_neg (by simpa using hk)]
      congr 1
      unfold fileFirst
      rw [Props.landmarkKey_eq, AList.get?_upd_other AList.isEqv_beq _ _ _ _ _ (by simpa using hk)]

theorem growLm_landFold (cfg : Cfg G T N) (f : Chr → Key → T) (l : Key) (bs : List (Btw G N)) (m : Meas G N) :
    bs.foldl (fun m b => growLm cfg f l b m) m = (bs.map fun b => (false, b)).foldl (landStep cfg f l) m := by
  induction bs generalizing m with
  | nil => rfl
  | cons b bs ih => rw [List.foldl_cons, ih]; rfl

namespace LandFed

theorem init {cfg : Cfg G T N} {start : Chr → Key} {c : Chr} {l : Key} {h : List (Op G N)} {op : Op G N}
    (hf : Spec.LandFed cfg start c l (h ++ [op])) : Spec.LandFed cfg start c l h := by
  refine ⟨hf.begins, ?_, ?_, fun h1 o h2 e => ?_, fun h1 o h2 e => ?_⟩
  · have := hf.chain
    rw [robotOdom_snoc] at this
    exact Chain.prefix this
  · have := hf.short
    rw [robotOdom_snoc, List.length_append] at this
    omega
  · exact hf.reached h1 o (h2 ++ [op]) (by rw [e]; simp)
  · exact hf.known h1 o (h2 ++ [op]) (by rw [e]; simp)

/-- What holds of every observation of the landmark so far. -/
def Fine (cfg : Cfg G T N) (start : Chr → Key) (c : Chr) (l : Key) (h : List (Op G N)) (x : Btw G N) : Prop :=
  Spec.landmarkOf cfg x = l ∧ (chr x.k1 ∉ cfg.special → chr x.k1 = c ∧ Spec.OnChain cfg start h x.k1)

theorem seen_of {cfg : Cfg G T N} {l : Key} {op : Op G N} {x : Bool × Btw G N} (hx : x ∈ Spec.lmSeen cfg l op) :
    Spec.landmarkOf cfg x.2 = l := by
  unfold Spec.lmSeen at hx
  rcases List.mem_append.1 hx with hx | hx
  · obtain ⟨b, hb, rfl⟩ := List.mem_map.1 hx
    unfold Spec.lmFirsts at hb
    split at hb
    · simpa using (List.mem_filter.1 hb).2
    · cases hb
  · obtain ⟨b, hb, rfl⟩ := List.mem_map.1 hx
    have := (List.mem_filter.1 hb).2
    simp only [Bool.and_eq_true, decide_eq_true_eq] at this
    exact this.2

theorem fine {cfg : Cfg G T N} {start : Chr → Key} {c : Chr} {l : Key} {h : List (Op G N)} (hf : Spec.LandFed cfg start c l h) :
    ∀ x ∈ Spec.lmSoFar cfg l h, Fine cfg start c l h x.2 := by
  intro x hx
  obtain ⟨op, ho, hx⟩ := List.mem_flatMap.1 hx
  obtain ⟨h1, h2, e⟩ := List.append_of_mem ho
  refine ⟨seen_of hx, fun hs => ?_⟩
  obtain ⟨a, b⟩ := hf.reached h1 op h2 e x hx hs
  refine ⟨a, ?_⟩
  have e' : h = (h1 ++ [op]) ++ h2 := by rw [e]; simp
  rw [e']
  exact OnChain.mono b

end LandFed

section
variable [Mul G] [Inv G] [One G]

/-- Two states reached by histories of which the second continues the odometry of the robot judge alike. -/
theorem land_same {cfg : Cfg G T N} (hs : StartFree cfg.ops) {env env' : Env G N} (hr : cfg.rejection = true)
    {h h' : List (Op G N)} {s s' : St G T N} (r : ReachOk cfg env h s) {lm debug log useGnc fixPrev biasOdom : Bool}
    (r' : ReachOk (cfg.withOpt lm debug log useGnc fixPrev biasOdom) env' h' s') {start : Chr → Key}
    {c : Chr} {l : Key} (ch : Spec.Chain (start c) (Spec.robotOdom cfg c h'))
    (hl : (start c).toNat + (Spec.robotOdom cfg c h').length < 2 ^ 64)
    (pre : Spec.robotOdom cfg c h <+: Spec.robotOdom cfg c h') :
    ∀ x y, LandFed.Fine cfg start c l h x → LandFed.Fine cfg start c l h y → x.k1 ≠ l → y.k1 ≠ l →
      landVerdict cfg (lk cfg s.pcm) x y = landVerdict cfg (lk cfg s'.pcm) x y := by
  intro x y hx hy nx ny
  have away : ∀ z : Btw G N, LandFed.Fine cfg start c l h z → z.k1 ≠ l → chr z.k1 = c ∧ Spec.OnChain cfg start h z.k1 := by
    intro z hz nz
    refine hz.2 fun hsp => nz ?_
    have := hz.1
    unfold Spec.landmarkOf at this
    rwa [if_pos hsp] at this
  obtain ⟨cx, ox⟩ := away x hx nx
  obtain ⟨cy, oy⟩ := away y hy ny
  unfold landVerdict landErr
  rw [r.onChain_robot hs hr r' (by rw [cx]; exact ch) (by rw [cx]; exact hl) (by rw [cx]; exact pre) (by rw [cx, cy]) ox oy]

/-- The observations of the landmark, and the matrix, are those of a run over the observations supplied. -/
theorem ReachOk.landState {cfg : Cfg G T N} {env : Env G N} (hr : cfg.rejection = true) (hs : StartFree cfg.ops)
    {h : List (Op G N)} {s : St G T N} (r : ReachOk cfg env h s) {start : Chr → Key} {c : Chr} {l : Key}
    (hf : Spec.LandFed cfg start c l h) :
    LandBare (lmOf s.pcm l) ((Spec.lmSoFar cfg l h).foldl (landStep cfg (lk cfg s.pcm) l) Meas.empty) := by
  induction r with
  | init => exact ⟨rfl, rfl⟩
  | @step h s op s' x r e ih =>
    have hf0 := LandFed.init hf
    have ih := ih hf0
    have r' : ReachOk cfg env (h ++ [op]) s' := .step r e
    have old : (Spec.lmSoFar cfg l h).foldl (landStep cfg (lk cfg s.pcm) l) Meas.empty =
        (Spec.lmSoFar cfg l h).foldl (landStep cfg (lk cfg s'.pcm) l) Meas.empty := by
      refine landFold_congr (P := LandFed.Fine cfg start c l h) ?_ _ (LandFed.fine hf0) _ (by simp [Meas.empty])
      exact land_same (lm := cfg.lm) (debug := cfg.debug) (log := cfg.log) (useGnc := cfg.useGnc) (fixPrev := cfg.fixPrev)
        (biasOdom := cfg.biasOdom) hs hr r r' hf.chain hf.short (robotOdom_prefix cfg c h op)
    rw [old] at ih
    have hsnoc : Spec.lmSoFar cfg l (h ++ [op]) = Spec.lmSoFar cfg l h ++ Spec.lmSeen cfg l op := by
      unfold Spec.lmSoFar; simp
    rw [hsnoc, List.foldl_append]
    suffices hstep : LandBare (lmOf s'.pcm l) ((Spec.lmSeen cfg l op).foldl (landStep cfg (lk cfg s'.pcm) l) (lmOf s.pcm l)) by
      have := LandBare.fold (cfg := cfg) (f := lk cfg s'.pcm) (l := l) (Spec.lmSeen cfg l op) (m := lmOf s.pcm l) ih
      exact ⟨hstep.1.trans this.1, hstep.2.trans this.2⟩
    cases hbt : Spec.batch op with
    | none =>
      have : Spec.lmSeen cfg l op = [] := by unfold Spec.lmSeen Spec.lmFirsts Spec.lmCands Spec.opCands; rw [hbt]; rfl
      rw [this, lmOf_lms ((exec_other cfg env hr op hbt s).of_ok e).pcm.landmarks l]
      exact ⟨rfl, rfl⟩
    | some y =>
      obtain ⟨fs, vs⟩ := y
      have hop : Spec.opCands cfg op = Spec.cands cfg vs fs := by unfold Spec.opCands; rw [hbt]
      have hfi : Spec.lmFirsts cfg l op = (Spec.firsts cfg vs fs).filter fun b => decide (Spec.landmarkOf cfg b = l) := by
        unfold Spec.lmFirsts; rw [hbt]
      have hd := (exec_batch env hr hbt s).1 _ _ e
      cases hd with
      | empty hfs _ hfr =>
        have : Spec.lmSeen cfg l op = [] := by
          unfold Spec.lmSeen Spec.lmCands; rw [hfi, hop, hfs]; rfl
        rw [this, lmOf_lms (by rw [hfr.pcm]) l]
        exact ⟨rfl, rfl⟩
      | full hne hi1 hS h1 h2 hal hfr =>
        rename_i v1 p1 p2 s1
        have hp : s'.pcm = { p2 with robotOrder := s1.pcm.robotOrder } := by rw [hfr.pcm, hal.eq]
        have hlm : lmOf s'.pcm l = lmOf p2 l := by rw [hp]; rfl
        have h0 : ∀ f, lmOf p1 l = ((Spec.lmFirsts cfg l op).map fun b => (true, b)).foldl (landStep cfg f l) (lmOf s.pcm l) := by
          intro f
          unfold lmOf
          rw [hfi, hS.landmarks, fileFirst_fold cfg f]
        by_cases hcs : Spec.cands cfg vs fs = []
        · have hc : Spec.lmCands cfg l op = [] := by unfold Spec.lmCands; rw [hop, hcs]; rfl
          rw [hlm, h1 hcs, h0 (lk cfg s'.pcm)]
          unfold Spec.lmSeen
          rw [hc, List.map_nil, List.append_nil]
          exact ⟨rfl, rfl⟩
        · have h3 := h2 hcs
          have hlk : lk cfg s'.pcm = lk cfg p1 := by
            have h4 : lk cfg s'.pcm = lk cfg p2 := by rw [hp]; rfl
            obtain ⟨q, t, hsel, _⟩ := (processCands_ends cfg v1 (Spec.cands cfg vs fs) p1).of_ok h3
            rw [h4]
            exact processed_lk t hsel
          have hkv : ∀ k, s'.values.has k = v1.has k := by
            intro k
            rw [hfr.values.has, hal.values.has]
          have hv' := reachOk_values r'
          unfold processCands at h3
          simp only [M.bind_eq] at h3
          obtain ⟨q, num, h4, h5⟩ := M.bind_eq_ok.1 h3
          obtain ⟨rfl, t⟩ := parseLoops_ok h4
          have hacc : (Spec.cands cfg vs fs).filter (fun b => acceptLm cfg v1 b && decide (landmarkKey cfg b = l)) =
              Spec.lmCands cfg l op := by
            unfold Spec.lmCands
            rw [hop]
            refine List.filter_congr fun b hb => ?_
            rw [Props.landmarkKey_eq]
            by_cases hbl : (Spec.isLandmark cfg b && decide (Spec.landmarkOf cfg b = l)) = true
            · obtain ⟨k1, k2⟩ := hf.known h op [] (by simp) b (by
                unfold Spec.lmCands; rw [hop]; exact List.mem_filter.2 ⟨hb, hbl⟩)
              have hk : known v1 b = true := by
                unfold known
                rw [← hkv, ← hkv, hv' _ k1, hv' _ k2]; rfl
              unfold acceptLm
              rw [hk, Bool.true_and]
            · have hbl : (Spec.isLandmark cfg b && decide (Spec.landmarkOf cfg b = l)) = false := by simpa using hbl
              unfold acceptLm
              rw [Bool.and_assoc, hbl, Bool.and_false]
          have hq : lmOf q l = (Spec.lmSeen cfg l op).foldl (landStep cfg (lk cfg s'.pcm) l) (lmOf s.pcm l) := by
            have : lmOf q l = lmOf ((Spec.cands cfg vs fs).foldl (parseStep cfg v1 (lk cfg p1)) p1) l := by
              rw [t.eq]; rfl
            rw [this, parseFold_lmOf, hacc, growLm_landFold, h0 (lk cfg s'.pcm), hlk]
            unfold Spec.lmSeen
            rw [List.foldl_append]
          have ht : Table (fun m m' => measInliers m = .ok m' m'.cons.length) q.landmarks p2.landmarks := by
            unfold M.cond at h5
            split at h5
            · exact (findInliersIncremental_ok (bumps_registered t) h5).2.2.1
            · exact (findInliers_ok h5).2.2.1
          rw [hlm, ← hq]
          unfold lmOf
          have hsome := Table.isSome (eq := (· == ·)) ht l
          cases hg : AList.get? (· == ·) q.landmarks l with
          | none =>
            rw [hg] at hsome
            cases hg' : AList.get? (· == ·) p2.landmarks l with
            | none => exact ⟨rfl, rfl⟩
            | some m' => rw [hg'] at hsome; simp at hsome
          | some m =>
            obtain ⟨m', e', hr'⟩ := ht.get? hg
            have hsel := measInliers_sel m
            rw [hr'] at hsel
            rw [e']
            exact ⟨hsel.factors, hsel.adj⟩

/-- The same observations in the same order. -/
theorem land_alone {cfg : Cfg G T N} (hs : StartFree cfg.ops) {env env' : Env G N} (hr : cfg.rejection = true)
    {h h' : List (Op G N)} {s s' : St G T N} (r : ReachOk cfg env h s) {lm debug log useGnc fixPrev biasOdom : Bool}
    (r' : ReachOk (cfg.withOpt lm debug log useGnc fixPrev biasOdom) env' h' s') {start : Chr → Key} {c : Chr} {l : Key}
    (hf : Spec.LandFed cfg start c l h) (hf' : Spec.LandFed cfg start c l h')
    (pre : Spec.robotOdom cfg c h <+: Spec.robotOdom cfg c h')
    (hg : Spec.lmSoFar cfg l h = Spec.lmSoFar cfg l h') : lmOf s.pcm l = lmOf s'.pcm l := by
  have b1 := r.landState hr hs hf
  have b2 := ReachOk.landState (cfg := cfg.withOpt lm debug log useGnc fixPrev biasOdom) hr hs r' (start := start) (c := c) (l := l) ⟨hf'.begins, hf'.chain, hf'.short, hf'.reached, hf'.known⟩
  have e : (Spec.lmSoFar cfg l h).foldl (landStep cfg (lk cfg s.pcm) l) Meas.empty =
      (Spec.lmSoFar cfg l h).foldl (landStep cfg (lk cfg s'.pcm) l) Meas.empty :=
    landFold_congr (P := LandFed.Fine cfg start c l h) (land_same hs hr r r' hf'.chain hf'.short pre) _ (LandFed.fine hf) _ (by simp [Meas.empty])
  rw [e, hg] at b1
  have c1 := r.lmChosen hr l
  have c2 := ReachOk.lmChosen (cfg := cfg.withOpt lm debug log useGnc fixPrev biasOdom) hr r' l
  exact chosen_adj c2 c1 (b1.1.trans b2.1.symm) (b1.2.trans b2.2.symm)

end

end RPGO
