import Verif.Proofs.Undo
import Verif.Props.LandMatrix
/-
C69 which of the registered observations of a landmark are accepted.
-/

namespace RPGO.Spec
variable {G T N : Type}

/-- The accepted observations of landmark `l`. -/
def acceptedOf (s : St G T N) (l : Key) : List (Btw G N) := (lmOf s.pcm l).cons

/-- The accepted observations of landmark `l` are the registered ones at the positions `idx`, in this order. -/
def ObsAcceptedAt (s : St G T N) (l : Key) (idx : List Nat) : Prop :=
  (acceptedOf s l).map some = idx.map fun i => (observed s l)[i]?

/-- The matrix says that the observations of landmark `l` registered at positions `i` and `j` agree with each other. -/
def ObsAgree (s : St G T N) (l : Key) (i j : Nat) : Prop :=
  i < (observed s l).length ∧ j < (observed s l).length ∧ i ≠ j ∧ (landMatrix s l).e (max i j) (min i j) = true

instance (s : St G T N) (l : Key) (i j : Nat) : Decidable (ObsAgree s l i j) := by unfold ObsAgree; infer_instance

/-- Distinct positions of registered observations of landmark `l`, any two of which agree. -/
def ObsAgreeing (s : St G T N) (l : Key) (is : List Nat) : Prop :=
  is.Nodup ∧ (∀ i ∈ is, i < (observed s l).length) ∧ ∀ i ∈ is, ∀ j ∈ is, i ≠ j → ObsAgree s l i j

/-- If two observations both agree with a third one, they agree with each other. -/
def ObsTransitive (s : St G T N) (l : Key) : Prop :=
  ∀ i j k, ObsAgree s l i j → ObsAgree s l j k → i ≠ k → ObsAgree s l i k

/-- No observation of landmark `l` is written from the landmark to the pose. -/
def FromPoses (s : St G T N) (l : Key) : Prop := ∀ x ∈ observed s l, x.k1 ≠ l

end RPGO.Spec

namespace RPGO
variable {G T N : Type} [Mul G] [Inv G] [One G]

omit [Mul G] [Inv G] [One G] in
theorem obs_picked_at {s : St G T N} {l : Key} {idx : List Nat} (h : Picked (lmOf s.pcm l) idx) :
    Spec.ObsAcceptedAt s l idx := by
  unfold Spec.ObsAcceptedAt Spec.acceptedOf Spec.observed
  rw [h.cons]
  have hr := h.range
  generalize (lmOf s.pcm l).factors = fs at hr
  clear h
  induction idx with
  | nil => rfl
  | cons i t ih =>
    have hi : i < fs.length := hr i (by simp)
    have := ih (fun j hj => hr j (by simp [hj]))
    simp only [atIdx, List.filterMap_cons, List.getElem?_eq_getElem hi, List.map_cons] at this ⊢
    rw [this]

omit [Mul G] [Inv G] [One G] in
theorem obsAgree_iff {s : St G T N} {l : Key} (h : (Spec.landMatrix s l).n = (Spec.observed s l).length) (i j : Nat) :
    Joined (Spec.landMatrix s l) i j ↔ Spec.ObsAgree s l i j := by
  unfold Joined Spec.ObsAgree
  rw [h]

omit [Mul G] [Inv G] [One G] in
theorem obsAgreeing_iff {s : St G T N} {l : Key} (h : (Spec.landMatrix s l).n = (Spec.observed s l).length)
    (is : List Nat) : IsClique (Spec.landMatrix s l) is ↔ Spec.ObsAgreeing s l is := by
  unfold IsClique Spec.ObsAgreeing
  simp only [obsAgree_iff h]
  rw [h]

omit [Mul G] [Inv G] [One G] in
theorem obsTransitive_iff {s : St G T N} {l : Key} (h : (Spec.landMatrix s l).n = (Spec.observed s l).length) :
    IsClusterGraph (Spec.landMatrix s l) ↔ Spec.ObsTransitive s l := by
  unfold IsClusterGraph Spec.ObsTransitive
  simp only [obsAgree_iff h]

theorem ReachOk.lmChosen {cfg : Cfg G T N} {env : Env G N} (hr : cfg.rejection = true) {h : List (Op G N)}
    {s : St G T N} (r : ReachOk cfg env h s) (l : Key) : Chosen (lmOf s.pcm l) := by
  unfold lmOf
  cases hg : AList.get? (· == ·) s.pcm.landmarks l with
  | none => exact Chosen.empty
  | some m =>
    obtain ⟨k, _, hm⟩ := AList.get?_mem hg
    exact r.landChosen hr _ hm

theorem ReachOk.lmSize {cfg : Cfg G T N} {env : Env G N} (hr : cfg.rejection = true) {h : List (Op G N)}
    {s : St G T N} (r : ReachOk cfg env h s) {l : Key} (hf : Spec.FromPoses s l) (h2 : 2 ≤ (Spec.observed s l).length) :
    (Spec.landMatrix s l).n = (Spec.observed s l).length :=
  (r.reach.landMatrix hr l hf).1.size.resolve_left (by
    intro h0
    unfold Spec.observed at h2
    rw [h0] at h2
    simp at h2)

end RPGO

namespace RPGO.Props
variable {G T N : Type} [Mul G] [Inv G] [One G]

/-- C69. A single observation of a landmark is accepted. -/
theorem C69_single {cfg : Cfg G T N} {env : Env G N} (hr : cfg.rejection = true)
    {h : List (Op G N)} {s : St G T N} (r : ReachOk cfg env h s) (l : Key)
    (h1 : (Spec.observed s l).length ≤ 1) : Spec.acceptedOf s l = Spec.observed s l :=
  (r.lmChosen hr l).few h1

/-- C69. Whatever the settings and the history: the accepted observations are registered ones, the first accepted one
agrees with every other accepted one, and there are as many accepted ones as in a set of observations that all agree
with each other and that no other observation can join. -/
theorem C69_accepted {cfg : Cfg G T N} {env : Env G N} (hr : cfg.rejection = true)
    {h : List (Op G N)} {s : St G T N} (r : ReachOk cfg env h s) {l : Key} (hf : Spec.FromPoses s l)
    (h2 : 2 ≤ (Spec.observed s l).length) :
    ∃ i t, Spec.ObsAcceptedAt s l (i :: t) ∧ (∀ j ∈ t, Spec.ObsAgree s l i j) ∧
      ∃ c, Spec.ObsAgreeing s l c ∧ (¬ ∃ w, ∀ i ∈ c, Spec.ObsAgree s l w i) ∧ c.length = (Spec.acceptedOf s l).length := by
  have hn := r.lmSize hr hf h2
  obtain ⟨k, idx, _, _, hb, hp⟩ := (r.lmChosen hr l).many h2
  have ha := obs_picked_at hp
  have hlen := congrArg List.length ha
  obtain ⟨i, t, hi, ht, hs⟩ := hb.star
  obtain ⟨c, hc, hc2⟩ := hb.clique
  have hle := hb.len
  rw [ht] at ha
  refine ⟨i, t, ha, fun j hj => (obsAgree_iff hn i j).1 (hs j hj), c, (obsAgreeing_iff hn c).1 hc.1, ?_, ?_⟩
  · rintro ⟨w, hw⟩
    exact hc.2 ⟨w, fun a ha => (obsAgree_iff hn w a).2 (hw a ha)⟩
  · simp only [List.length_map, List.length_take] at hlen
    omega

/-- C69, for transitive agreement: any two accepted observations agree with each other, there is no larger set of
agreeing observations, and every observation that was not accepted disagrees with an accepted one. -/
theorem C69_consistent_partial {cfg : Cfg G T N} {env : Env G N} (hr : cfg.rejection = true)
    {h : List (Op G N)} {s : St G T N} (r : ReachOk cfg env h s) {l : Key} (hf : Spec.FromPoses s l)
    (h2 : 2 ≤ (Spec.observed s l).length) (ht : Spec.ObsTransitive s l) :
    ∃ idx, Spec.ObsAcceptedAt s l idx ∧ Spec.ObsAgreeing s l idx ∧
      (∀ is, Spec.ObsAgreeing s l is → is.length ≤ idx.length) ∧
      ∀ w, w < (Spec.observed s l).length → w ∉ idx → ∃ i ∈ idx, ¬ Spec.ObsAgree s l w i := by
  have hn := r.lmSize hr hf h2
  obtain ⟨idx, hp, hg⟩ := (r.lmChosen hr l).settled.many h2
  obtain ⟨hc, _, hmax⟩ := hg.cluster ((obsTransitive_iff hn).2 ht)
  have hc' := (obsAgreeing_iff hn idx).1 hc
  have hmax' : ∀ is, Spec.ObsAgreeing s l is → is.length ≤ idx.length := fun is hl => hmax is ((obsAgreeing_iff hn is).2 hl)
  refine ⟨idx, obs_picked_at hp, hc', hmax', ?_⟩
  intro w hw hx
  by_contra hno
  have hall : ∀ i ∈ idx, Spec.ObsAgree s l w i := by
    intro i hi
    by_contra hne
    exact hno ⟨i, hi, hne⟩
  have := hmax' (w :: idx) ⟨by simp [hx, hc'.1], by
      intro i hi
      rcases List.mem_cons.1 hi with rfl | hi
      · exact hw
      · exact hc'.2.1 i hi, by
      intro i hi j hj hij
      rcases List.mem_cons.1 hi with hi | hi
      · rcases List.mem_cons.1 hj with hj | hj
        · exact absurd (hi.trans hj.symm) hij
        · rw [hi]; exact hall j hj
      · rcases List.mem_cons.1 hj with hj | hj
        · rw [hj]
          have := hall i hi
          exact ⟨this.2.1, this.1, this.2.2.1.symm, by rw [Nat.max_comm, Nat.min_comm]; exact this.2.2.2⟩
        · exact hc'.2.2 i hi j hj hij⟩
  simp at this

/-- C69. If all registered observations of a landmark agree with each other, all of them are accepted, each once. -/
theorem C69_all {cfg : Cfg G T N} {env : Env G N} (hr : cfg.rejection = true)
    {h : List (Op G N)} {s : St G T N} (r : ReachOk cfg env h s) {l : Key} (hf : Spec.FromPoses s l)
    (ha : ∀ i j, i < (Spec.observed s l).length → j < (Spec.observed s l).length → i ≠ j → Spec.ObsAgree s l i j) :
    (Spec.acceptedOf s l).Perm (Spec.observed s l) := by
  rcases Nat.lt_or_ge (Spec.observed s l).length 2 with h2 | h2
  · rw [C69_single hr r l (by omega)]
  obtain ⟨idx, hat, hc, hmax, _⟩ := C69_consistent_partial hr r hf h2
    (fun i j k hij hjk hne => ha i k hij.1 hjk.2.1 hne)
  have hlen := hmax (List.range (Spec.observed s l).length)
    ⟨List.nodup_range, by simp, fun i hi j hj hne => ha i j (by simpa using hi) (by simpa using hj) hne⟩
  have hp : idx.Perm (List.range (Spec.observed s l).length) :=
    (List.subperm_of_subset hc.1 (fun i hi => by simpa using hc.2.1 i hi)).perm_of_length_le hlen
  have h3 : ((Spec.acceptedOf s l).map some).Perm ((Spec.observed s l).map some) := by
    rw [hat]
    refine (hp.map _).trans ?_
    refine List.Perm.of_eq (List.ext_getElem (by simp) fun i h1 h2 => ?_)
    simp only [List.length_map, List.length_range] at h1
    simp [List.getElem?_eq_getElem h1]
  exact (List.map_perm_map_iff (Option.some_injective _)).1 h3

/-- C69. A call that brings no observation of a landmark leaves its observations and the accepted ones as they are,
although the selection is made anew: whatever else is added, removed, ignored or revived. -/
theorem C69_unaffected {cfg : Cfg G T N} {env : Env G N} (hr : cfg.rejection = true)
    {h : List (Op G N)} {s s' : St G T N} {op : Op G N} {x : Ret} (r : ReachOk cfg env h s)
    (e : exec cfg env op s = .ok s' x) {l : Key}
    (hn : ∀ b ∈ Spec.opBtws op, Spec.isLandmark cfg b = true → Spec.landmarkOf cfg b ≠ l) :
    Spec.observed s' l = Spec.observed s l ∧ Spec.acceptedOf s' l = Spec.acceptedOf s l := by
  suffices hm : lmOf s'.pcm l = lmOf s.pcm l by
    unfold Spec.observed Spec.acceptedOf; rw [hm]; exact ⟨rfl, rfl⟩
  cases hb : Spec.batch op with
  | none => exact lmOf_lms ((exec_other cfg env hr op hb s).of_ok e).pcm.landmarks l
  | some y =>
    obtain ⟨fs, vs⟩ := y
    have hn' : ∀ b ∈ Spec.btws fs, Spec.isLandmark cfg b = true → landmarkKey cfg b ≠ l := by
      intro b hb'; rw [landmarkKey_eq]; apply hn; unfold Spec.opBtws; rw [hb]; exact hb'
    obtain ⟨tab, htab, hcase⟩ := exec_landmarks hr e hb
    have h1 : ∀ p : Pcm G T N, p.landmarks = tab → lmOf p l = lmOf s.pcm l := by
      intro p hp
      unfold lmOf
      rw [hp, htab]
      have hfirst : ∀ b ∈ Spec.firsts cfg vs fs, landmarkKey cfg b ≠ l := by
        intro b hb'
        obtain ⟨h1, h2⟩ := List.mem_filter.1 hb'
        refine hn' b h1 ?_
        unfold Spec.isFirstObs at h2
        simp only [Bool.and_eq_true] at h2
        first | exact h2.1 | exact h2.1.1 | exact h2.1.2
      generalize Spec.firsts cfg vs fs = bs at hfirst
      generalize s.pcm.landmarks = lm
      induction bs generalizing lm with
      | nil => rfl
      | cons b bs ih =>
        rw [List.foldl_cons, ih (fun b hb => hfirst b (by simp [hb]))]
        unfold fileFirst
        rw [AList.get?_upd_other AList.isEqv_beq _ _ _ _ _ (by simpa using hfirst b (by simp))]
    rcases hcase with ⟨_, h2⟩ | ⟨q, p1, v1, hp1, hq, ht⟩
    · exact h1 _ h2
    · have hq2 : lmOf q l = lmOf s.pcm l := by
        rw [lmOf_lms hq, parseFold_lmOf]
        have : (Spec.cands cfg vs fs).filter (fun b => acceptLm cfg v1 b && decide (landmarkKey cfg b = l)) = [] := by
          rw [List.filter_eq_nil_iff]
          intro b hb' h0
          simp only [Bool.and_eq_true, decide_eq_true_eq] at h0
          refine hn' b (List.mem_of_mem_filter hb') ?_ h0.2
          have := h0.1
          unfold acceptLm at this
          simp only [Bool.and_eq_true] at this
          first | exact this.1 | exact this.2 | exact this.1.1 | exact this.1.2
        rw [this]
        exact h1 _ hp1
      unfold lmOf at hq2 ⊢
      have hs := Table.isSome (eq := (· == ·)) ht l
      cases hg : AList.get? (· == ·) q.landmarks l with
      | none =>
        rw [hg] at hs hq2
        cases hg' : AList.get? (· == ·) s'.pcm.landmarks l with
        | none => exact hq2
        | some m' => rw [hg'] at hs; simp at hs
      | some m =>
        obtain ⟨m', e', hr'⟩ := ht.get? hg
        rw [hg] at hq2
        rw [e', ← hq2]
        have hsel := measInliers_sel m
        rw [hr'] at hsel
        have hc := r.lmChosen hr l
        unfold lmOf at hc
        rw [← hq2] at hc
        exact chosen_adj hc (measInliers_chosen hr') hsel.factors hsel.adj

/-- Odometry a0 → a1 → a2 → a3 and a landmark seen from each pose at the given distance. -/
def sightings (d0 d1 d2 d3 : ℤ) : List (Op Demo.Z Demo.Ns) :=
  [.update [Demo.edge (Demo.a 0) (Demo.a 1) 1, Demo.edge (Demo.a 1) (Demo.a 2) 1, Demo.edge (Demo.a 2) (Demo.a 3) 1]
     [Demo.pose (Demo.a 0) 0, Demo.pose (Demo.a 1) 1, Demo.pose (Demo.a 2) 2, Demo.pose (Demo.a 3) 3] true,
   .update [Demo.edge (Demo.a 0) (Demo.l 0) d0] [Demo.pose (Demo.l 0) 5] true,
   .update [Demo.edge (Demo.a 1) (Demo.l 0) d1, Demo.edge (Demo.a 2) (Demo.l 0) d2, Demo.edge (Demo.a 3) (Demo.l 0) d3] [] true]

set_option maxRecDepth 100000 in
/-- The hypotheses of the theorems are met: of four observations three agree with each other and are accepted. -/
example : ∃ s, ReachOk demoLandmarks Demo.env (sightings 2 1 30 (-1)) s ∧ Spec.FromPoses s (Demo.l 0) ∧
    (Spec.observed s (Demo.l 0)).length = 4 ∧
    Spec.ObsAgree s (Demo.l 0) 0 1 ∧ Spec.ObsAgree s (Demo.l 0) 0 3 ∧ Spec.ObsAgree s (Demo.l 0) 1 3 ∧
    ¬ Spec.ObsAgree s (Demo.l 0) 0 2 ∧ ¬ Spec.ObsAgree s (Demo.l 0) 1 2 ∧ ¬ Spec.ObsAgree s (Demo.l 0) 2 3 ∧
    Spec.acceptedOf s (Demo.l 0) = [Demo.btw (Demo.a 0) (Demo.l 0) 2, Demo.btw (Demo.a 1) (Demo.l 0) 1,
      Demo.btw (Demo.a 3) (Demo.l 0) (-1)] := by
  obtain ⟨s, r, h⟩ := Demo.runs_reach (cfg := demoLandmarks) (env := Demo.env) (ops := sightings 2 1 30 (-1))
    (P := fun s => (Spec.observed s (Demo.l 0)).all (fun x => decide (x.k1 ≠ Demo.l 0)) &&
    decide ((Spec.observed s (Demo.l 0)).length = 4 ∧
    Spec.ObsAgree s (Demo.l 0) 0 1 ∧ Spec.ObsAgree s (Demo.l 0) 0 3 ∧ Spec.ObsAgree s (Demo.l 0) 1 3 ∧
    ¬ Spec.ObsAgree s (Demo.l 0) 0 2 ∧ ¬ Spec.ObsAgree s (Demo.l 0) 1 2 ∧ ¬ Spec.ObsAgree s (Demo.l 0) 2 3 ∧
    Spec.acceptedOf s (Demo.l 0) = [Demo.btw (Demo.a 0) (Demo.l 0) 2, Demo.btw (Demo.a 1) (Demo.l 0) 1,
      Demo.btw (Demo.a 3) (Demo.l 0) (-1)])) (by decide +kernel)
  rw [Bool.and_eq_true] at h
  exact ⟨s, r, fun x hx => of_decide_eq_true (List.all_eq_true.1 h.1 x hx), of_decide_eq_true h.2⟩

set_option maxRecDepth 100000 in
/-- A further closure, which agrees with nothing observed of the landmark, meets the hypothesis of `C69_unaffected`. -/
example : (∀ b ∈ Spec.opBtws (.update [Demo.edge (Demo.a 0) (Demo.a 2) 2] [] true : Op Demo.Z Demo.Ns),
      Spec.isLandmark demoLandmarks b = true → Spec.landmarkOf demoLandmarks b ≠ Demo.l 0) ∧
    ∃ s, ReachOk demoLandmarks Demo.env (sightings 2 1 30 (-1) ++ [.update [Demo.edge (Demo.a 0) (Demo.a 2) 2] [] true]) s ∧
      (Spec.registered s ⟨97, 97⟩).length = 1 ∧ (Spec.acceptedOf s (Demo.l 0)).length = 3 := by
  refine ⟨fun b hb hl => ?_, ?_⟩
  · have : b = Demo.btw (Demo.a 0) (Demo.a 2) 2 := by simpa [Spec.opBtws, Spec.batch, Spec.btws, Demo.edge] using hb
    subst this
    exact absurd hl (by decide +kernel)
  · obtain ⟨s, r, h⟩ := Demo.runs_reach (cfg := demoLandmarks) (env := Demo.env)
      (ops := sightings 2 1 30 (-1) ++ [.update [Demo.edge (Demo.a 0) (Demo.a 2) 2] [] true])
      (P := fun s => decide ((Spec.registered s ⟨97, 97⟩).length = 1 ∧ (Spec.acceptedOf s (Demo.l 0)).length = 3))
      (by decide +kernel)
    exact ⟨s, r, of_decide_eq_true h⟩

set_option maxRecDepth 100000 in
/-- C69 is false in general: of four observations the first three are accepted although the second and the third
contradict each other, and the fourth, which agrees with all the others, is not. -/
theorem C69_false_contradiction : ∃ s, ReachOk demoLandmarks Demo.env (sightings 2 1 3 1) s ∧
    Spec.acceptedOf s (Demo.l 0) = [Demo.btw (Demo.a 0) (Demo.l 0) 2, Demo.btw (Demo.a 1) (Demo.l 0) 1,
      Demo.btw (Demo.a 2) (Demo.l 0) 3] ∧
    ¬ Spec.ObsAgree s (Demo.l 0) 1 2 ∧
    Spec.ObsAgree s (Demo.l 0) 3 0 ∧ Spec.ObsAgree s (Demo.l 0) 3 1 ∧ Spec.ObsAgree s (Demo.l 0) 3 2 := by
  obtain ⟨s, r, h⟩ := Demo.runs_reach (cfg := demoLandmarks) (env := Demo.env) (ops := sightings 2 1 3 1)
    (P := fun s => decide (Spec.acceptedOf s (Demo.l 0) = [Demo.btw (Demo.a 0) (Demo.l 0) 2, Demo.btw (Demo.a 1) (Demo.l 0) 1,
      Demo.btw (Demo.a 2) (Demo.l 0) 3] ∧
    ¬ Spec.ObsAgree s (Demo.l 0) 1 2 ∧
    Spec.ObsAgree s (Demo.l 0) 3 0 ∧ Spec.ObsAgree s (Demo.l 0) 3 1 ∧ Spec.ObsAgree s (Demo.l 0) 3 2)) (by decide +kernel)
  exact ⟨s, r, of_decide_eq_true h⟩

set_option maxRecDepth 100000 in
/-- C69 is false in general: one observation is accepted twice, and is in the graph twice, while one that agrees with
all accepted ones is left out. -/
theorem C69_false_doubled : ∃ s, ReachOk demoLandmarks Demo.env (sightings 2 1 2 3) s ∧
    Spec.acceptedOf s (Demo.l 0) = [Demo.btw (Demo.a 0) (Demo.l 0) 2, Demo.btw (Demo.a 2) (Demo.l 0) 2,
      Demo.btw (Demo.a 2) (Demo.l 0) 2] ∧
    s.nfg.count (Demo.edge (Demo.a 2) (Demo.l 0) 2) = 2 ∧
    Spec.ObsAgree s (Demo.l 0) 1 0 ∧ Spec.ObsAgree s (Demo.l 0) 1 2 := by
  obtain ⟨s, r, h⟩ := Demo.runs_reach (cfg := demoLandmarks) (env := Demo.env) (ops := sightings 2 1 2 3)
    (P := fun s => decide (Spec.acceptedOf s (Demo.l 0) = [Demo.btw (Demo.a 0) (Demo.l 0) 2, Demo.btw (Demo.a 2) (Demo.l 0) 2,
      Demo.btw (Demo.a 2) (Demo.l 0) 2] ∧
    s.nfg.count (Demo.edge (Demo.a 2) (Demo.l 0) 2) = 2 ∧
    Spec.ObsAgree s (Demo.l 0) 1 0 ∧ Spec.ObsAgree s (Demo.l 0) 1 2)) (by decide +kernel)
  exact ⟨s, r, of_decide_eq_true h⟩

set_option maxRecDepth 100000 in
/-- C69 is false for an observation written from the landmark to the pose: it agrees exactly with the only other one
(5 from a0, 4 from a1, one apart), and is not accepted. -/
theorem C69_false_reversed : ∃ s, ReachOk demoLandmarks Demo.env seenBackwards s ∧
    Spec.observed s (Demo.l 1) = [Demo.btw (Demo.a 0) (Demo.l 1) 5, Demo.btw (Demo.l 1) (Demo.a 1) (-4)] ∧
    Spec.acceptedOf s (Demo.l 1) = [Demo.btw (Demo.a 0) (Demo.l 1) 5] := by
  obtain ⟨s, r, h⟩ := Demo.runs_reach (cfg := demoLandmarks) (env := Demo.env) (ops := seenBackwards)
    (P := fun s => decide (Spec.observed s (Demo.l 1) = [Demo.btw (Demo.a 0) (Demo.l 1) 5, Demo.btw (Demo.l 1) (Demo.a 1) (-4)] ∧
    Spec.acceptedOf s (Demo.l 1) = [Demo.btw (Demo.a 0) (Demo.l 1) 5])) (by decide +kernel)
  exact ⟨s, r, of_decide_eq_true h⟩

end RPGO.Props
