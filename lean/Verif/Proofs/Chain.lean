import Verif.Proofs.Sim
/-
The lookups in the trajectory of a robot whose odometry factors form a chain.
-/

namespace RPGO
variable {G T N : Type}

/-- How a call that returned normally changes the outlier-rejection object. -/
inductive PcmOk (cfg : Cfg G T N) (op : Op G N) (s : St G T N) : Pcm G T N → Prop where
  | other {p'} : Spec.batch op = none → PcmEff cfg op s.pcm p' → PcmOk cfg op s p'
  | none {vs} : Spec.batch op = some ([], vs) → PcmOk cfg op s s.pcm
  | cands {fs vs v1 p1 q p2 ro} : Spec.batch op = some (fs, vs) → fs ≠ [] → insertVals vs s.values = .ok v1 () →
      Sorted cfg vs v1 fs s.pcm p1 →
      TrajOnly cfg ((Spec.cands cfg vs fs).foldl (parseStep cfg v1 (lk cfg p1)) p1) q → SelPcm q p2 →
      ro.Perm p2.robotOrder → PcmOk cfg op s { p2 with robotOrder := ro }

theorem BatchDone.pcmOk [Mul G] [Inv G] [One G] {cfg : Cfg G T N} {env : Env G N} {op : Op G N} {fs : Graph G N} {vs : Vals G}
    {s s' : St G T N} (hb : Spec.batch op = some (fs, vs)) (h : BatchDone cfg env fs vs s s') :
    PcmOk cfg op s s'.pcm := by
  cases h with
  | empty hf _ hfr => subst hf; rw [hfr.pcm]; exact .none hb
  | full hne hi hS h1 h2 ha hf =>
    rename_i v1 p1 p2 s1
    have hp : s'.pcm = { p2 with robotOrder := s1.pcm.robotOrder } := by rw [hf.pcm, ha.eq]
    rw [hp]
    by_cases hc : Spec.cands cfg vs fs = []
    · have := h1 hc
      subst this
      refine .cands hb hne hi hS (q := p2) (p2 := p2) ?_ (SelPcm.refl _) ha.order
      rw [hc]
      exact TrajOnly.refl _
    · have he := processCands_ends cfg v1 (Spec.cands cfg vs fs) p1
      rw [h2 hc] at he
      obtain ⟨q, hq, hs, _⟩ := he
      exact .cands hb hne hi hS hq hs ha.order

/-- Induction over histories in which every call returned normally. -/
theorem ReachOk.induct [Mul G] [Inv G] [One G] {cfg : Cfg G T N} {env : Env G N} (hr : cfg.rejection = true)
    {Inv : List (Op G N) → Pcm G T N → Prop} (init : Inv [] {})
    (step : ∀ h s op s' r, ReachOk cfg env h s → exec cfg env op s = .ok s' r → Inv h s.pcm →
      PcmOk cfg op s s'.pcm → Inv (h ++ [op]) s'.pcm)
    {h : List (Op G N)} {s : St G T N} (r : ReachOk cfg env h s) : Inv h s.pcm := by
  induction r with
  | init => exact init
  | @step h s op s' x r e ih =>
    refine step _ _ _ _ _ r e ih ?_
    cases hb : Spec.batch op with
    | none =>
      have := exec_other cfg env hr op hb s
      rw [e] at this
      exact .other hb (OtherFrame.pcm this)
    | some y =>
      obtain ⟨fs, vs⟩ := y
      exact ((exec_batch env hr hb s).1 _ _ e).pcmOk hb

theorem lk_congr {cfg : Cfg G T N} {p q : Pcm G T N} (h : p.trajs = q.trajs) : lk cfg p = lk cfg q := by
  funext c k; unfold lk trajOf; rw [h]

theorem lk_processed [Mul G] [Inv G] [One G] {cfg : Cfg G T N} {vals : Vals G} {f : Chr → Key → T} {bs : List (Btw G N)}
    {p q p2 : Pcm G T N} (h : TrajOnly cfg (bs.foldl (parseStep cfg vals f) p) q) (hs : SelPcm q p2) :
    lk cfg p2 = lk cfg p := by
  rw [lk_congr hs.trajs, h.lk, lk_congr (parseFold_trajs _ _ _ _ _)]

namespace Spec

/-- `bs` is a chain of odometry steps `k → k+1 → k+2 → …`. -/
def Chain (k : Key) : List (Btw G N) → Prop
  | [] => True
  | b :: bs => b.k1 = k ∧ b.k2 = k + 1 ∧ Chain (k + 1) bs

/-- The odometry factors of robot `c` handed over so far, in order. -/
def robotOdom (cfg : Cfg G T N) (c : Chr) (h : List (Op G N)) : List (Btw G N) :=
  (odomSoFar cfg h).filter fun b => chr b.k2 == c

/-- `i` steps after key `k`. -/
def after (k : Key) (i : Nat) : Key := k + BitVec.ofNat 64 i

end Spec

theorem Chain.get {k : Key} {bs : List (Btw G N)} (h : Spec.Chain k bs) (i : Nat) {b : Btw G N} (hb : bs[i]? = some b) :
    b.k1 = Spec.after k i ∧ b.k2 = Spec.after k (i + 1) := by
  induction bs generalizing k i with
  | nil => simp at hb
  | cons x bs ih =>
    obtain ⟨h1, h2, h3⟩ := h
    cases i with
    | zero =>
      simp only [List.getElem?_cons_zero, Option.some.injEq] at hb
      subst hb
      refine ⟨?_, ?_⟩
      · rw [h1]; simp [Spec.after]
      · rw [h2]; rfl
    | succ i =>
      simp only [List.getElem?_cons_succ] at hb
      obtain ⟨a, c⟩ := ih h3 i hb
      have e : ∀ j, Spec.after (k + 1) j = Spec.after k (j + 1) := by
        intro j
        unfold Spec.after
        rw [BitVec.ofNat_add]
        rw [BitVec.add_assoc, BitVec.add_comm 1]
        rfl
      exact ⟨by rw [a, e], by rw [c, e]⟩

theorem Chain.prefix {k : Key} {bs cs : List (Btw G N)} (h : Spec.Chain k (bs ++ cs)) : Spec.Chain k bs := by
  induction bs generalizing k with
  | nil => trivial
  | cons b bs ih => exact ⟨h.1, h.2.1, ih h.2.2⟩

theorem after_inj {k : Key} {i j : Nat} (hi : k.toNat + i < 2 ^ 64) (hj : k.toNat + j < 2 ^ 64)
    (h : Spec.after k i = Spec.after k j) : i = j := by
  have := congrArg BitVec.toNat h
  unfold Spec.after at this
  simp only [BitVec.toNat_add, BitVec.toNat_ofNat] at this
  omega

/-- Composition of odometry measurements, starting from `t`. -/
def walk (ops : Ops G T N) (t : T) (bs : List (Btw G N)) : T :=
  bs.foldl (fun t b => match b.noise with | none => t | some n => ops.compose t (ops.ofFactor b.m n)) t

/-- The lookups of robot `c` at the keys of a chain are the walk along the chain. -/
structure Walked (cfg : Cfg G T N) (c : Chr) (k0 : Key) (L : List (Btw G N)) (p : Pcm G T N) : Prop where
  noise : ∀ b ∈ L, b.noise.isSome
  traj : L ≠ [] → hasTraj p c = true
  walk : ∃ t0, (L ≠ [] → t0 = cfg.ops.dflt ∨ ∃ g, t0 = cfg.ops.ofPose g) ∧
    ∀ j, j ≤ L.length → lk cfg p c (Spec.after k0 j) = walk cfg.ops t0 (L.take j)

theorem lk_noTraj {cfg : Cfg G T N} {p : Pcm G T N} {c : Chr} (h : hasTraj p c = false) (k : Key) :
    lk cfg p c k = cfg.ops.dflt := by
  unfold hasTraj at h
  unfold lk trajOf
  cases e : AList.get? (· == ·) p.trajs c with
  | some t => rw [e] at h; cases h
  | none => rfl

/-- Lookups of a robot without odometry are the default pose. -/
def Untouched (cfg : Cfg G T N) (c : Chr) (L : List (Btw G N)) (p : Pcm G T N) : Prop :=
  L = [] → ∀ k, lk cfg p c k = cfg.ops.dflt

theorem OdomStep.other {cfg : Cfg G T N} {vals : Vals G} {b : Btw G N} {n : N} {p p' : Pcm G T N}
    (st : OdomStep cfg vals b n p p') {c : Chr} (hc : chr b.k2 ≠ c) (k : Key) : lk cfg p' c k = lk cfg p c k := by
  rcases st.step with ⟨_, _, e⟩ | ⟨_, _, g, _, e⟩
  · rw [e]; simp [odomLk, Ne.symm hc]
  · rw [e]; simp [odomLk, Ne.symm hc]

theorem OdomStep.walked {cfg : Cfg G T N} {vals : Vals G} {b : Btw G N} {n : N} {p p' : Pcm G T N}
    (st : OdomStep cfg vals b n p p') {c : Chr} {k0 : Key} {L : List (Btw G N)} (hc : chr b.k2 = c)
    (w : Walked cfg c k0 L p) (u : Untouched cfg c L p) (ch : Spec.Chain k0 (L ++ [b]))
    (hl : k0.toNat + (L ++ [b]).length < 2 ^ 64) : Walked cfg c k0 (L ++ [b]) p' := by
  obtain ⟨hk1, hk2⟩ := Chain.get ch L.length (b := b) (by simp)
  rw [List.length_append, List.length_singleton] at hl
  have hne : ∀ j, j ≤ L.length → Spec.after k0 j ≠ b.k2 := by
    intro j hj e
    rw [hk2] at e
    have := after_inj (by omega) (by omega) e
    omega
  refine ⟨?_, ?_, ?_⟩
  · intro x hx
    rcases List.mem_append.1 hx with hx | hx
    · exact w.noise x hx
    · rw [List.mem_singleton.1 hx, st.noise]; rfl
  · intro _; rw [st.has]; simp [hc]
  · obtain ⟨t0, ht, hw⟩ := w.walk
    -- the lookup before the new pose is stored
    have key : ∃ t1, (t1 = cfg.ops.dflt ∨ ∃ g, t1 = cfg.ops.ofPose g) ∧ ∃ f0 : Chr → Key → T,
        lk cfg p' = odomLk cfg f0 b n ∧ ∀ j, j ≤ L.length → f0 c (Spec.after k0 j) = RPGO.walk cfg.ops t1 (L.take j) := by
      rcases st.step with ⟨_, _, e⟩ | ⟨hf, _, g, _, e⟩
      · by_cases hL : L = []
        · refine ⟨cfg.ops.dflt, Or.inl rfl, _, e, ?_⟩
          intro j hj
          rw [u hL]
          simp [hL, RPGO.walk]
        · exact ⟨t0, ht hL, _, e, hw⟩
      · have hL : L = [] := by
          apply Classical.byContradiction
          intro hL
          rw [hc, w.traj hL] at hf
          cases hf
        subst hL
        refine ⟨cfg.ops.ofPose g, Or.inr ⟨g, rfl⟩, _, e, ?_⟩
        intro j hj
        have hj0 : j = 0 := by simpa using hj
        subst hj0
        simp only [List.length_nil] at hk1
        rw [if_pos ⟨hc.symm, hk1.symm⟩]
        rfl
    obtain ⟨t1, ht1, f0, e, hf0⟩ := key
    refine ⟨t1, fun _ => ht1, ?_⟩
    intro j hj
    rw [List.length_append, List.length_singleton] at hj
    rw [e]
    unfold odomLk
    by_cases hjL : j ≤ L.length
    · rw [if_neg (fun h => hne j hjL h.2), hf0 j hjL, List.take_append_of_le_length hjL]
    · have hj' : j = L.length + 1 := by omega
      subst hj'
      rw [if_pos ⟨hc.symm, hk2.symm⟩, hk1, hf0 _ (Nat.le_refl _), List.take_length,
        List.take_of_length_le (by simp)]
      unfold RPGO.walk
      rw [List.foldl_append, List.foldl_cons, List.foldl_nil, st.noise]

theorem Walked.congr {cfg : Cfg G T N} {c : Chr} {k0 : Key} {L : List (Btw G N)} {p q : Pcm G T N}
    (w : Walked cfg c k0 L p) (h1 : ∀ k, lk cfg q c k = lk cfg p c k) (h2 : hasTraj p c = true → hasTraj q c = true) :
    Walked cfg c k0 L q := by
  obtain ⟨t0, ht, hw⟩ := w.walk
  exact ⟨w.noise, fun h => h2 (w.traj h), t0, ht, fun j hj => by rw [h1]; exact hw j hj⟩

theorem OdomRun.walked {cfg : Cfg G T N} {vals : Vals G} {bs : List (Btw G N)} {p p' : Pcm G T N}
    (h : OdomRun cfg vals bs p p') (c : Chr) (k0 : Key) (L : List (Btw G N))
    (w : Walked cfg c k0 L p) (u : Untouched cfg c L p)
    (ch : Spec.Chain k0 (L ++ bs.filter fun b => chr b.k2 == c))
    (hl : k0.toNat + (L ++ bs.filter fun b => chr b.k2 == c).length < 2 ^ 64) :
    Walked cfg c k0 (L ++ bs.filter fun b => chr b.k2 == c) p' ∧
      Untouched cfg c (L ++ bs.filter fun b => chr b.k2 == c) p' := by
  induction h generalizing L with
  | nil p => simpa using ⟨w, u⟩
  | @cons b n p p1 p1' p2 bs st ht _ _ ih =>
    by_cases hc : chr b.k2 = c
    · have e : (b :: bs).filter (fun b => chr b.k2 == c) = [b] ++ bs.filter fun b => chr b.k2 == c := by
        rw [List.filter_cons, if_pos (by simpa using hc)]; rfl
      rw [e, ← List.append_assoc] at ch hl ⊢
      refine ih (L ++ [b]) ?_ (fun h => by simp at h) ch hl
      refine Walked.congr (st.walked hc w u (Chain.prefix ch) ?_) (fun k => by rw [lk_congr ht]) (fun h => by rw [hasTraj_congr ht]; exact h)
      simp only [List.length_append, List.length_cons, List.length_nil] at hl ⊢
      omega
    · have e : (b :: bs).filter (fun b => chr b.k2 == c) = bs.filter fun b => chr b.k2 == c := by
        rw [List.filter_cons, if_neg (by simpa using hc)]
      rw [e] at ch hl ⊢
      refine ih L (w.congr (fun k => by rw [lk_congr ht]; exact st.other hc k) ?_) ?_ ch hl
      · intro h; rw [hasTraj_congr ht, st.has, h]; simp
      · intro hL k; rw [lk_congr ht, st.other hc k]; exact u hL k
  | other ht _ _ ih =>
    exact ih L (w.congr (fun k => by rw [lk_congr ht]) (fun h => by rw [hasTraj_congr ht]; exact h))
      (fun hL k => by rw [lk_congr ht]; exact u hL k) ch hl

theorem robotOdom_snoc (cfg : Cfg G T N) (c : Chr) (h : List (Op G N)) (op : Op G N) :
    Spec.robotOdom cfg c (h ++ [op]) =
      Spec.robotOdom cfg c h ++ (Spec.opOdom cfg op).filter fun b => chr b.k2 == c := by
  simp [Spec.robotOdom, Spec.odomSoFar]

/-- After normal returns, the lookups along a chain are the walk along it. -/
theorem ReachOk.walked [Mul G] [Inv G] [One G] {cfg : Cfg G T N} {env : Env G N} (hr : cfg.rejection = true) {h : List (Op G N)}
    {s : St G T N} (r : ReachOk cfg env h s) (c : Chr) (k0 : Key) (ch : Spec.Chain k0 (Spec.robotOdom cfg c h))
    (hl : k0.toNat + (Spec.robotOdom cfg c h).length < 2 ^ 64) :
    Walked cfg c k0 (Spec.robotOdom cfg c h) s.pcm ∧ Untouched cfg c (Spec.robotOdom cfg c h) s.pcm := by
  revert ch hl
  refine ReachOk.induct (Inv := fun h p => Spec.Chain k0 (Spec.robotOdom cfg c h) →
    k0.toNat + (Spec.robotOdom cfg c h).length < 2 ^ 64 →
    Walked cfg c k0 (Spec.robotOdom cfg c h) p ∧ Untouched cfg c (Spec.robotOdom cfg c h) p) hr ?_ ?_ r
  · intro _ _
    refine ⟨⟨by simp [Spec.robotOdom, Spec.odomSoFar], by simp [Spec.robotOdom, Spec.odomSoFar], cfg.ops.dflt,
      by simp, ?_⟩, fun _ k => rfl⟩
    intro j hj
    simp only [Spec.robotOdom, Spec.odomSoFar, List.flatMap_nil, List.filter_nil, List.take_nil]
    rfl
  · intro h s op s' x _ _ ih st ch hl
    rw [robotOdom_snoc] at ch hl ⊢
    have hih := ih (Chain.prefix ch) (by simp only [List.length_append] at hl; omega)
    generalize s'.pcm = q at st
    cases st with
    | other hb he =>
      have e : Spec.opOdom cfg op = [] := by simp [Spec.opOdom, hb]
      rw [e, List.filter_nil, List.append_nil]
      exact ⟨hih.1.congr (fun k => by rw [lk_congr he.trajs]) (fun h => by rw [hasTraj_congr he.trajs]; exact h),
        fun hL k => by rw [lk_congr he.trajs]; exact hih.2 hL k⟩
    | none hb =>
      have e : Spec.opOdom cfg op = [] := by simp [Spec.opOdom, hb, Spec.odoms, Spec.btws]
      rw [e, List.filter_nil, List.append_nil]
      exact hih
    | cands hb hne hi hS ht hsel hro =>
      rename_i fs vs v1 p1 q p2 ro
      have e : Spec.opOdom cfg op = Spec.odoms cfg vs fs := by simp [Spec.opOdom, hb]
      rw [e] at ch hl ⊢
      obtain ⟨w, u⟩ := hS.run.walked c k0 _ hih.1 hih.2 ch hl
      have hlk : lk cfg { p2 with robotOrder := ro } = lk cfg p1 :=
        Eq.trans (b := lk cfg p2) (lk_congr rfl) (lk_processed ht hsel)
      refine ⟨w.congr (fun k => by rw [hlk]) ?_, fun hL k => by rw [hlk]; exact u hL k⟩
      intro h
      rw [hasTraj_congr (show ({ p2 with robotOrder := ro } : Pcm G T N).trajs = q.trajs from hsel.trajs)]
      refine ht.has c ?_
      rw [hasTraj_congr (parseFold_trajs _ _ _ _ _)]
      exact h

end RPGO
