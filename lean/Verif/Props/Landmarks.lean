import Verif.Proofs.Removal
import Verif.Props.Graph
/-
C28 landmark observations.
-/

namespace RPGO.Props
open RPGO
variable {G T N : Type} [Mul G] [Inv G] [One G]

/-- The first observations of landmarks supplied by one call. -/
def opFirsts (cfg : Cfg G T N) (op : Op G N) : List (Btw G N) :=
  match Spec.batch op with
  | some (fs, vs) => Spec.firsts cfg vs fs
  | none => []

theorem fileFirst_other (cfg : Cfg G T N) (bs : List (Btw G N)) (lm : List (Key × Meas G N)) (l : Key)
    (h : ∀ b ∈ bs, landmarkKey cfg b ≠ l) :
    AList.get? (· == ·) (bs.foldl (fileFirst cfg) lm) l = AList.get? (· == ·) lm l := by
  induction bs generalizing lm with
  | nil => rfl
  | cons b bs ih =>
    rw [List.foldl_cons, ih _ fun x hx => h x (by simp [hx])]
    unfold fileFirst
    rw [AList.get?_upd_other AList.isEqv_beq]
    simpa using h b (by simp)

/-- One call that supplies no first observation of the landmark keeps its observations, whether it throws or not. -/
theorem step_observed {cfg : Cfg G T N} {op : Op G N} {s : St G T N} {p' : Pcm G T N} (st : PcmStep cfg op s p') (l : Key)
    (hn : ∀ b ∈ opFirsts cfg op, landmarkKey cfg b ≠ l) : (lmOf s.pcm l).factors <+: (lmOf p' l).factors := by
  cases st with
  | other _ he => rw [lmOf_lms he.landmarks]
  | none _ => exact List.prefix_refl _
  | sort hb hi hfs ho hS hx1 hx2 =>
    rename_i fs vs v1 fs1 b fs2 p1
    have h1 : (lmOf ({ p1 with odom := p1.odom ++ [b] } : Pcm G T N) l).factors = (lmOf s.pcm l).factors := by
      show (lmOf p1 l).factors = _
      unfold lmOf
      rw [hS.landmarks, fileFirst_other]
      intro x hx
      refine hn x ?_
      unfold opFirsts
      rw [hb]
      have hbt : Spec.btws fs = Spec.btws fs1 ++ Spec.btws (some (.btw b) :: fs2) := by
        rw [hfs]; unfold Spec.btws; rw [List.filterMap_append]
      simp only [Spec.firsts]
      rw [hbt, List.filter_append]
      exact List.mem_append_left _ hx
    rw [h1]
  | cands hb hne hi hS ht hsel hg hro =>
    rename_i fs vs v1 p1 q p2 ro
    have h2 : Sel (lmOf q l) (lmOf p2 l) := Table.lmOf_rel (Sel.refl _) hsel.landmarks l
    have h3 : lmOf q l = lmOf ((Spec.cands cfg vs fs).foldl (parseStep cfg v1 (lk cfg p1)) p1) l := ht.lmOf l
    have h4 : (lmOf p1 l).factors = (lmOf s.pcm l).factors := by
      unfold lmOf
      rw [hS.landmarks, fileFirst_other]
      intro x hx
      refine hn x ?_
      unfold opFirsts
      rw [hb]
      exact hx
    show _ <+: (lmOf p2 l).factors
    rw [h2.factors, h3, parseFold_lmOf, growLm_fold_factors, h4]
    exact List.prefix_append _ _

/-- C28, partial: as long as no further first observation of the landmark is supplied, its observations stay registered, in
order, whatever calls are made and whether or not they throw. Missing: batches that contain a first observation of a
landmark that is already known; there the claim is false (`C28_false_overwritten`). -/
theorem C28_kept_partial {cfg : Cfg G T N} {env : Env G N} (hr : cfg.rejection = true) {h : List (Op G N)} {s s' : St G T N}
    (st : Spec.Steps cfg env s h s') {l : Key}
    (hn : ∀ op ∈ h, ∀ fs vs, Spec.batch op = some (fs, vs) → ∀ b ∈ Spec.firsts cfg vs fs, Spec.landmarkOf cfg b ≠ l) :
    Spec.observed s l <+: Spec.observed s' l := by
  induction st with
  | nil => exact List.prefix_refl _
  | @snoc h s1 op s2 _ c ih =>
    have ih := ih fun o ho => hn o (by simp [ho])
    have hst : PcmStep cfg op s1 s2.pcm := by
      rcases c with ⟨_, e⟩ | ⟨_, e⟩
      · exact (exec_step (env := env) hr op s1).of_ok e
      · exact (exec_step (env := env) hr op s1).of_throw e
    refine ih.trans (step_observed hst l fun b hb => ?_)
    rw [landmarkKey_eq]
    unfold opFirsts at hb
    cases hbt : Spec.batch op with
    | none => rw [hbt] at hb; cases hb
    | some x =>
      rw [hbt] at hb
      exact hn op (by simp) x.1 x.2 hbt b hb

/-- C28, partial: an observation of a landmark that is supplied in a call that returns normally — a first observation, or
a candidate whose two keys have values — is registered after any further calls, provided no first observation of
the landmark is supplied after it. -/
theorem C28_survives_partial {cfg : Cfg G T N} {env : Env G N} (hr : cfg.rejection = true) {op : Op G N} {h : List (Op G N)}
    {s s1 s' : St G T N} {x : Ret} (e : exec cfg env op s = .ok s1 x) (st : Spec.Steps cfg env s1 h s')
    {fs1 fs2 : Graph G N} {vs : Vals G} {b : Btw G N} (hb : Spec.batch op = some (fs1 ++ Spec.elem b :: fs2, vs))
    (hl : Spec.isLandmark cfg b = true) (hne : b.k1 ≠ b.k2)
    (hk : b.k1 ∈ s1.values.keys ∧ b.k2 ∈ s1.values.keys)
    (hlast : ∀ b' ∈ Spec.firsts cfg vs fs2, Spec.landmarkOf cfg b' ≠ Spec.landmarkOf cfg b)
    (hn : ∀ op ∈ h, ∀ fs vs, Spec.batch op = some (fs, vs) → ∀ b' ∈ Spec.firsts cfg vs fs,
      Spec.landmarkOf cfg b' ≠ Spec.landmarkOf cfg b) :
    b ∈ Spec.observed s' (Spec.landmarkOf cfg b) := by
  refine (C28_kept_partial hr st hn).subset ?_
  rw [(C18_effect hr hb e).2.2.2]
  have hbt : Spec.btws (fs1 ++ Spec.elem b :: fs2) = Spec.btws fs1 ++ b :: Spec.btws fs2 := by
    unfold Spec.btws; rw [List.filterMap_append]; rfl
  by_cases hf : Spec.isFirstObs cfg vs b = true
  · apply List.mem_append_left
    have : ((Spec.firsts cfg vs (fs1 ++ Spec.elem b :: fs2)).filter fun x => decide (Spec.landmarkOf cfg x = Spec.landmarkOf cfg b)).getLast? = some b := by
      unfold Spec.firsts
      rw [hbt, List.filter_append, List.filter_append, List.filter_cons, if_pos hf, List.filter_cons, if_pos (by simp)]
      have hnil : ((Spec.btws fs2).filter (Spec.isFirstObs cfg vs)).filter (fun x => decide (Spec.landmarkOf cfg x = Spec.landmarkOf cfg b)) = [] := by
        rw [List.filter_eq_nil_iff]
        intro x hx
        simpa using hlast x hx
      rw [hnil]
      simp
    rw [this]
    simp
  · apply List.mem_append_right
    rw [List.mem_filter]
    constructor
    · unfold Spec.cands
      rw [hbt, List.mem_filter]
      refine ⟨by simp, ?_⟩
      have ho : Spec.isOdom cfg vs b = false := by
        unfold Spec.isLandmark at hl
        unfold Spec.isOdom
        have := of_decide_eq_true hl
        rw [decide_eq_false_iff_not]
        rintro ⟨h1, h2, _⟩
        rcases this with h | h
        exacts [h1 h, h2 h]
      unfold Spec.isCand
      rw [ho]
      simp [hf, hne]
    · unfold Spec.acceptable
      simp [hl, hk.1, hk.2]

/-- C28 is false of the code: a call that supplies a first observation of a landmark — one of its two keys is new, for
instance the pose from which a known landmark is seen again — and returns normally discards everything observed of
the landmark before. -/
theorem C28_false_overwritten {cfg : Cfg G T N} {env : Env G N} (hr : cfg.rejection = true) {op : Op G N} {s s' : St G T N}
    {x : Ret} (e : exec cfg env op s = .ok s' x) {fs : Graph G N} {vs : Vals G} (hb : Spec.batch op = some (fs, vs))
    {b : Btw G N} (hf : b ∈ Spec.firsts cfg vs fs) {b' : Btw G N} (hnew : b' ∉ Spec.btws fs) :
    b' ∉ Spec.observed s' (Spec.landmarkOf cfg b) := by
  rw [(C18_effect hr hb e).2.2.2]
  intro h
  rcases List.mem_append.1 h with h | h
  · cases hg : ((Spec.firsts cfg vs fs).filter fun x => decide (Spec.landmarkOf cfg x = Spec.landmarkOf cfg b)).getLast? with
    | none =>
      rw [List.getLast?_eq_none_iff, List.filter_eq_nil_iff] at hg
      exact absurd (by simp) (hg b hf)
    | some y =>
      rw [hg] at h
      have hy := List.mem_of_getLast? hg
      rw [List.mem_singleton.1 h] at hnew
      exact hnew (List.mem_of_mem_filter (List.mem_of_mem_filter hy))
  · exact hnew (List.mem_of_mem_filter (List.mem_of_mem_filter h))

/-- Odometry, a landmark seen from a0, seen again from a1, then again from the new pose a2 in one batch with the odometry. -/
def seenAgain : List (Op Demo.Z Demo.Ns) :=
  [.update [Demo.edge (Demo.a 0) (Demo.a 1) 1] [Demo.pose (Demo.a 0) 0, Demo.pose (Demo.a 1) 1] true,
   .update [Demo.edge (Demo.a 0) (Demo.l 1) 5] [Demo.pose (Demo.l 1) 5] true,
   .update [Demo.edge (Demo.a 1) (Demo.l 1) 4] [] true]

/-- The batch that overwrites: odometry to a2 and an observation of the landmark from a2. -/
def fromNewPose : Op Demo.Z Demo.Ns :=
  .update [Demo.edge (Demo.a 1) (Demo.a 2) 1, Demo.edge (Demo.a 2) (Demo.l 1) 3] [Demo.pose (Demo.a 2) 2] true

set_option maxRecDepth 100000 in
/-- The hypotheses of the theorems of C28 are met: two observations are registered and stay while odometry is added, and
they are gone after the landmark is seen from a pose that is new in the same batch. -/
example : demoLandmarks.rejection = true ∧
    (∃ s, ReachOk demoLandmarks Demo.env (seenAgain ++ [.update [Demo.edge (Demo.a 1) (Demo.a 2) 1] [Demo.pose (Demo.a 2) 2] true]) s ∧
      Spec.observed s (Demo.l 1) = [Demo.btw (Demo.a 0) (Demo.l 1) 5, Demo.btw (Demo.a 1) (Demo.l 1) 4]) ∧
    Demo.btw (Demo.a 2) (Demo.l 1) 3 ∈ Spec.firsts demoLandmarks [Demo.pose (Demo.a 2) 2]
      [Demo.edge (Demo.a 1) (Demo.a 2) 1, Demo.edge (Demo.a 2) (Demo.l 1) 3] ∧
    ∃ s, ReachOk demoLandmarks Demo.env (seenAgain ++ [fromNewPose]) s ∧
      Spec.observed s (Demo.l 1) = [Demo.btw (Demo.a 2) (Demo.l 1) 3] ∧
      Demo.edge (Demo.a 0) (Demo.l 1) 5 ∉ s.nfg := by
  refine ⟨by decide +kernel, ?_, by decide +kernel, ?_⟩
  · obtain ⟨s, r, h⟩ := Demo.runs_reach (cfg := demoLandmarks) (env := Demo.env)
      (ops := seenAgain ++ [.update [Demo.edge (Demo.a 1) (Demo.a 2) 1] [Demo.pose (Demo.a 2) 2] true])
      (P := fun s => decide (Spec.observed s (Demo.l 1) = [Demo.btw (Demo.a 0) (Demo.l 1) 5, Demo.btw (Demo.a 1) (Demo.l 1) 4]))
      (by decide +kernel)
    exact ⟨s, r, of_decide_eq_true h⟩
  · obtain ⟨s, r, h⟩ := Demo.runs_reach (cfg := demoLandmarks) (env := Demo.env) (ops := seenAgain ++ [fromNewPose])
      (P := fun s => decide (Spec.observed s (Demo.l 1) = [Demo.btw (Demo.a 2) (Demo.l 1) 3] ∧
        Demo.edge (Demo.a 0) (Demo.l 1) 5 ∉ s.nfg)) (by decide +kernel)
    exact ⟨s, r, of_decide_eq_true h⟩

end RPGO.Props
