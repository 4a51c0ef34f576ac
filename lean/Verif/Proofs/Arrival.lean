import Verif.Proofs.LandState
import Verif.Props.Order
/-
Histories that supply the same odometry of every robot, the same closures of every pair of robots and the same observations
of every landmark, interleaved in different ways.
-/

namespace RPGO.Spec
variable {G T N : Type}

/-- The first observations of landmarks in one call. -/
def opFirsts (cfg : Cfg G T N) (op : Op G N) : List (Btw G N) :=
  match batch op with
  | some (fs, vs) => firsts cfg vs fs
  | none => []

/-- The first observations of landmarks so far. -/
def firstsSoFar (cfg : Cfg G T N) (h : List (Op G N)) : List (Btw G N) := h.flatMap (opFirsts cfg)

/-- The two histories supply the same odometry of every robot, the same closures of every pair of robots and the same
observations of every landmark, in each case in the same order, and the same other factors; how measurements of different
robots, pairs and landmarks are interleaved may differ. With incremental selection the closures of a pair come in the
same groups. -/
structure SameByParts (cfg : Cfg G T N) (h1 h2 : List (Op G N)) : Prop where
  robots : ∀ c, robotOdom cfg c h1 = robotOdom cfg c h2
  pairs : ∀ a b, a ∉ cfg.special → b ∉ cfg.special → (pairGroups cfg a b h1).flatten = (pairGroups cfg a b h2).flatten
  groups : cfg.incremental = true → ∀ a b, a ∉ cfg.special → b ∉ cfg.special → pairGroups cfg a b h1 = pairGroups cfg a b h2
  landmarks : ∀ l, lmSoFar cfg l h1 = lmSoFar cfg l h2
  others : (specialSoFar cfg h1).Perm (specialSoFar cfg h2)
  keys : ∀ k, (∃ op ∈ h1, k ∈ opKeys op) ↔ ∃ op ∈ h2, k ∈ opKeys op

end RPGO.Spec

namespace RPGO
variable {G T N : Type}

/-! ### Lists -/

theorem perm_of_parts {α : Type} {l1 l2 : List α} (h : ∀ x, ∃ p : α → Bool, p x = true ∧ l1.filter p = l2.filter p) : l1.Perm l2 := by
  classical
  refine List.perm_iff_count.2 fun x => ?_
  obtain ⟨p, hx, e⟩ := h x
  rw [← List.count_filter hx, e, List.count_filter hx]

/-- Two tables with distinct keys whose entries correspond. -/
theorem table_perm {κ V β : Type} {eq : κ → κ → Bool} (he : AList.IsEqv eq) {F : κ × V → List β} {l1 l2 : List (κ × V)}
    (d1 : (l1.map (·.1)).Pairwise fun a b => eq a b = false) (d2 : (l2.map (·.1)).Pairwise fun a b => eq a b = false)
    (A : ∀ e ∈ l1, F e = [] ∨ ∃ e' ∈ l2, eq e'.1 e.1 = true ∧ F e' = F e)
    (B : ∀ e ∈ l2, F e = [] ∨ ∃ e' ∈ l1, eq e'.1 e.1 = true ∧ F e' = F e) : (l1.flatMap F).Perm (l2.flatMap F) := by
  induction l1 generalizing l2 with
  | nil =>
    have : l2.flatMap F = [] := by
      rw [List.flatMap_eq_nil_iff]
      intro e m
      rcases B e m with h | ⟨_, h, _⟩
      · exact h
      · cases h
    rw [this]; exact List.Perm.refl _
  | cons e t ih =>
    rw [List.map_cons, List.pairwise_cons] at d1
    obtain ⟨de, dt⟩ := d1
    have no : ∀ e0 ∈ t, eq e0.1 e.1 = true → False := by
      intro e0 m h
      have := de e0.1 (List.mem_map_of_mem m)
      rw [he.symm _ _ h] at this
      cases this
    by_cases hex : ∃ e' ∈ l2, eq e'.1 e.1 = true
    · obtain ⟨e', m', q⟩ := hex
      obtain ⟨u, v, rfl⟩ := List.append_of_mem m'
      rw [List.map_append, List.map_cons, List.pairwise_append, List.pairwise_cons] at d2
      obtain ⟨du, ⟨dv1, dv2⟩, duv⟩ := d2
      have no' : ∀ e0 ∈ u ++ v, eq e0.1 e'.1 = true → False := by
        intro e0 m h
        rcases List.mem_append.1 m with m | m
        · have := duv e0.1 (List.mem_map_of_mem m) e'.1 (by simp)
          rw [h] at this; cases this
        · have := dv1 e0.1 (List.mem_map_of_mem m)
          rw [he.symm _ _ h] at this; cases this
      have hF : F e' = F e := by
        rcases B e' m' with h | ⟨e0, m0, q0, f0⟩
        · rcases A e (by simp) with h' | ⟨e1, m1, q1, f1⟩
          · rw [h, h']
          · have : e1 = e' := by
              rcases List.mem_append.1 m1 with m | m
              · exact (no' e1 (by simp [m]) (he.trans _ _ _ q1 (he.symm _ _ q))).elim
              · rcases List.mem_cons.1 m with m | m
                · exact m
                · exact (no' e1 (by simp [m]) (he.trans _ _ _ q1 (he.symm _ _ q))).elim
            rw [← this]; exact f1
        · rcases List.mem_cons.1 m0 with rfl | m0
          · exact f0.symm
          · exact (no e0 m0 (he.trans _ _ _ q0 q)).elim
      have hperm : ((u ++ e' :: v).flatMap F).Perm (F e' ++ (u ++ v).flatMap F) := by
        have := (List.perm_middle (a := e') (l₁ := u) (l₂ := v)).flatMap_right F
        rwa [List.flatMap_cons] at this
      rw [List.flatMap_cons]
      refine List.Perm.trans ?_ hperm.symm
      rw [hF]
      refine List.Perm.append_left _ (ih dt ?_ ?_ ?_)
      · rw [List.map_append, List.pairwise_append]
        exact ⟨du, dv2, fun a ha b hb => duv a ha b (by simp only [List.mem_cons]; exact Or.inr hb)⟩
      · intro e1 m1
        rcases A e1 (by simp [m1]) with h | ⟨e2, m2, q2, f2⟩
        · exact Or.inl h
        · refine Or.inr ⟨e2, ?_, q2, f2⟩
          rcases List.mem_append.1 m2 with m | m
          · simp [m]
          · rcases List.mem_cons.1 m with rfl | m
            · exact (no e1 m1 (he.trans _ _ _ (he.symm _ _ q2) q)).elim
            · simp [m]
      · intro e1 m1
        have m1' : e1 ∈ u ++ e' :: v := by
          rcases List.mem_append.1 m1 with m | m <;> simp [m]
        rcases B e1 m1' with h | ⟨e2, m2, q2, f2⟩
        · exact Or.inl h
        · rcases List.mem_cons.1 m2 with rfl | m2
          · exact (no' e1 m1 (he.symm _ _ (he.trans _ _ _ q q2))).elim
          · exact Or.inr ⟨e2, m2, q2, f2⟩
    · have h0 : F e = [] := by
        rcases A e (by simp) with h | ⟨e', m', q, _⟩
        · exact h
        · exact absurd ⟨e', m', q⟩ hex
      rw [List.flatMap_cons, h0, List.nil_append]
      refine ih dt d2 (fun e1 m1 => A e1 (by simp [m1])) fun e1 m1 => ?_
      rcases B e1 m1 with h | ⟨e2, m2, q2, f2⟩
      · exact Or.inl h
      · rcases List.mem_cons.1 m2 with rfl | m2
        · exact absurd ⟨e1, m1, he.symm _ _ q2⟩ hex
        · exact Or.inr ⟨e2, m2, q2, f2⟩

theorem distinct_get {κ V : Type} {eq : κ → κ → Bool} (he : AList.IsEqv eq) {l : List (κ × V)}
    (h : (l.map (·.1)).Pairwise fun a b => eq a b = false) {e : κ × V} (hm : e ∈ l) : AList.get? eq l e.1 = some e.2 := by
  induction l with
  | nil => cases hm
  | cons e0 l ih =>
    obtain ⟨k0, v0⟩ := e0
    rw [List.map_cons, List.pairwise_cons] at h
    unfold AList.get?
    rcases List.mem_cons.1 hm with rfl | hm
    · rw [if_pos (he.refl _)]
    · rw [if_neg (by rw [h.1 e.1 (List.mem_map.2 ⟨e, hm, rfl⟩)]; simp)]
      exact ih h.2 hm

/-- Two tables with distinct keys and the same content under every key. -/
theorem table_perm_get {κ V β : Type} {eq : κ → κ → Bool} (he : AList.IsEqv eq) {F : κ × V → List β} {d : V} {l1 l2 : List (κ × V)}
    (d1 : (l1.map (·.1)).Pairwise fun a b => eq a b = false) (d2 : (l2.map (·.1)).Pairwise fun a b => eq a b = false)
    (hd : ∀ k, F (k, d) = []) (hF : ∀ k k' v, eq k k' = true → F (k, v) = F (k', v))
    (hg : ∀ k, (AList.get? eq l1 k).getD d = (AList.get? eq l2 k).getD d) : (l1.flatMap F).Perm (l2.flatMap F) := by
  have half : ∀ {l1 l2 : List (κ × V)}, (l1.map (·.1)).Pairwise (fun a b => eq a b = false) →
      (∀ k, (AList.get? eq l1 k).getD d = (AList.get? eq l2 k).getD d) →
      ∀ e ∈ l1, F e = [] ∨ ∃ e' ∈ l2, eq e'.1 e.1 = true ∧ F e' = F e := by
    intro l1 l2 d1 hg e m
    have := hg e.1
    rw [distinct_get he d1 m] at this
    cases h2 : AList.get? eq l2 e.1 with
    | none =>
      rw [h2] at this
      left
      have h3 : e = (e.1, d) := by rw [← show e.2 = d from this]
      rw [h3]; exact hd _
    | some v =>
      rw [h2] at this
      obtain ⟨e', m', ev, q⟩ := get?_entry h2
      right
      refine ⟨e', m', q, ?_⟩
      have h3 : e'.2 = e.2 := by rw [ev]; exact this.symm
      have h4 : e' = (e'.1, e.2) := by rw [← h3]
      rw [h4, hF _ _ _ q]
  exact table_perm he d1 d2 (half d1 hg) (half d2 fun k => (hg k).symm)

/-! ### Keys of the tables -/

section
variable [Mul G] [Inv G] [One G]

/-- Entries for pairs are not about landmark prefixes, and no landmark has two entries. -/
def Keyed (cfg : Cfg G T N) (p : Pcm G T N) : Prop :=
  (∀ k ∈ p.lcs.map (·.1), k.id1 ∉ cfg.special ∧ k.id2 ∉ cfg.special) ∧
    (p.landmarks.map (·.1)).Pairwise fun a b => (a == b) = false

theorem Reach.keyed {cfg : Cfg G T N} {env : Env G N} (hr : cfg.rejection = true) {h : List (Op G N)} {s : St G T N}
    (r : Reach cfg env h s) : Keyed cfg s.pcm := by
  have hfile : ∀ (l : List (Key × Meas G N)) k f, (l.map (·.1)).Pairwise (fun a b => (a == b) = false) →
      ((AList.upd (· == ·) Meas.empty l k f).map (·.1)).Pairwise fun a b => (a == b) = false := by
    intro l k f h
    rcases AList.upd_keys (eq := (· == ·)) (d := Meas.empty) (l := l) (k := k) (f := f) with ⟨_, e⟩ | ⟨hn, e⟩
    · rw [e]; exact h
    · rw [e, List.pairwise_append]
      refine ⟨h, by simp, fun a ha b hb => ?_⟩
      rw [List.mem_singleton.1 hb]
      exact get?_none_entry hn a ha
  have hupd : ∀ (l : List (ObsId × Meas G N)) k f, (∀ k ∈ l.map (·.1), k.id1 ∉ cfg.special ∧ k.id2 ∉ cfg.special) →
      (k.id1 ∉ cfg.special ∧ k.id2 ∉ cfg.special ∨ (AList.get? ObsId.eqv l k).isSome) →
      ∀ i ∈ (AList.upd ObsId.eqv Meas.empty l k f).map (·.1), i.id1 ∉ cfg.special ∧ i.id2 ∉ cfg.special := by
    intro l k f h hk
    rcases AList.upd_keys (eq := ObsId.eqv) (d := Meas.empty) (l := l) (k := k) (f := f) with ⟨_, e⟩ | ⟨hn, e⟩
    · rw [e]; exact h
    · rw [e]
      intro k' hk'
      rcases List.mem_append.1 hk' with h' | h'
      · exact h k' h'
      · rw [List.mem_singleton.1 h']
        rcases hk with hk | hk
        · exact hk
        · rw [hn] at hk; cases hk
  refine Reach.induct (Inv := fun _ p => Keyed cfg p) hr ⟨by simp, by simp⟩ ?_ r
  intro h s op s' r c ih st
  generalize s'.pcm = q at st
  cases st with
  | other _ he =>
    cases he with
    | same => exact ih
    | priors => exact ih
    | ignore => split <;> exact ih
    | revive => exact ih
    | pair hm hr => exact ⟨hupd _ _ _ ih.1 (Or.inr (by rw [hm]; rfl)), ih.2⟩
    | pop _ => exact ih
    | last _ hm hr => exact ⟨hupd _ _ _ ih.1 (Or.inr (by rw [hm]; rfl)), ih.2⟩
  | none _ => exact ih
  | sort hb hi hfs ho hS hx1 hx2 =>
    show (∀ k ∈ _, _) ∧ List.Pairwise _ _
    rw [hS.lcs, hS.landmarks]
    exact ⟨ih.1, fileFirst_induct (Inv := fun l => (l.map (·.1)).Pairwise fun a b => (a == b) = false) _ ih.2
      (fun l hl b _ => hfile _ _ _ hl)⟩
  | cands hb hne hi hS ht hsel hg hro =>
    rename_i fs vs v1 p1 q p2 ro
    have hq : Keyed cfg q := by
      rw [ht.eq]
      refine parseFold_induct (Inv := Keyed cfg) (Spec.cands cfg vs fs)
        ?_ (fun p hp b hbm ha => ⟨hupd p.lcs _ _ hp.1 (Or.inl ?_), hp.2⟩) (fun p hp b _ _ => ⟨hp.1, hfile p.landmarks _ _ hp.2⟩)
      · unfold Keyed
        rw [hS.lcs, hS.landmarks]
        exact ⟨ih.1, fileFirst_induct (Inv := fun l => (l.map (·.1)).Pairwise fun a b => (a == b) = false) _ ih.2
          (fun l hl b _ => hfile _ _ _ hl)⟩
      · unfold acceptLc at ha
        simp only [Bool.and_eq_true, Bool.not_eq_true'] at ha
        have := ha.1.2
        unfold Spec.isLandmark at this
        simp only [decide_eq_false_iff_not, not_or] at this
        exact this
    show (∀ k ∈ p2.lcs.map (·.1), _) ∧ (p2.landmarks.map (·.1)).Pairwise _
    rw [Table.keys hsel.lcs, Table.keys hsel.landmarks]
    exact hq

/-- There are no closures filed for landmark prefixes. -/
theorem Reach.lcOf_special {cfg : Cfg G T N} {env : Env G N} (hr : cfg.rejection = true) {h : List (Op G N)} {s : St G T N}
    (r : Reach cfg env h s) {id : ObsId} (hid : id.id1 ∈ cfg.special ∨ id.id2 ∈ cfg.special) : lcOf s.pcm id = Meas.empty := by
  unfold lcOf
  cases hg : AList.get? ObsId.eqv s.pcm.lcs id with
  | none => rfl
  | some m =>
    obtain ⟨e, he, _, q⟩ := get?_entry hg
    obtain ⟨n1, n2⟩ := (r.keyed hr).1 e.1 (List.mem_map_of_mem he)
    unfold ObsId.eqv at q
    split at q
    · rename_i h; rw [h.1] at n1; rw [h.2] at n2
      rcases hid with hid | hid
      · exact absurd hid n1
      · exact absurd hid n2
    · split at q
      · rename_i h
        rw [h.2] at n1; rw [h.1] at n2
        rcases hid with hid | hid
        · exact absurd hid n2
        · exact absurd hid n1
      · cases q

end

/-! ### Conditions on parts follow from the conditions on the whole -/

theorem pairFed_global {cfg : Cfg G T N} {start : Chr → Key} {h : List (Op G N)} (hc : Spec.Chains cfg start h)
    (ho : Spec.OnOdometry cfg start h) (hk : Spec.KeysKnown cfg h) (hn : ∀ op ∈ h, ¬ Spec.Removes op) {a b : Chr}
    (ha : a ∉ cfg.special) (hb : b ∉ cfg.special) : Spec.PairFed cfg start a b h := by
  refine ⟨fun op m => ?_, ⟨ha, hb⟩, fun c _ => (hc c).1, fun c _ => (hc c).2.1, fun c _ => (hc c).2.2, ?_, ?_⟩
  · have := hn op m
    cases op <;> first | trivial | exact absurd trivial this
  · intro h1 op h2 e x hx
    obtain ⟨m, q⟩ := List.mem_filter.1 hx
    refine ho.closures h1 op h2 e x m ?_
    unfold Spec.connects at q
    unfold Spec.isLandmark
    simp only [decide_eq_false_iff_not, not_or]
    rcases of_decide_eq_true q with q | q
    · rw [q.1, q.2]; exact ⟨ha, hb⟩
    · rw [q.1, q.2]; exact ⟨hb, ha⟩
  · intro h1 op h2 e x hx
    exact hk h1 op h2 e x (List.mem_filter.1 hx).1

theorem opFirsts_btws {cfg : Cfg G T N} {op : Op G N} {b : Btw G N} (hb : b ∈ Spec.opFirsts cfg op) :
    b ∈ Spec.opBtws op ∧ Spec.isLandmark cfg b = true := by
  unfold Spec.opFirsts at hb
  unfold Spec.opBtws
  split at hb
  · rename_i h
    obtain ⟨m, q⟩ := List.mem_filter.1 hb
    unfold Spec.isFirstObs at q
    rw [Bool.and_eq_true] at q
    exact ⟨by rw [h]; exact m, q.1⟩
  · cases hb

theorem lmFirsts_eq (cfg : Cfg G T N) (l : Key) (op : Op G N) :
    Spec.lmFirsts cfg l op = (Spec.opFirsts cfg op).filter fun b => decide (Spec.landmarkOf cfg b = l) := by
  unfold Spec.lmFirsts Spec.opFirsts
  cases Spec.batch op <;> rfl

theorem landFed_global [Mul G] [Inv G] [One G] {cfg : Cfg G T N} {start : Chr → Key} {h : List (Op G N)} (hc : Spec.Chains cfg start h)
    (ho : Spec.OnOdometry cfg start h) (hk : Spec.KeysKnown cfg h) {owner : Key → Chr} (hob : Spec.OneObserver cfg owner h)
    (l : Key) : Spec.LandFed cfg start (owner l) l h := by
  refine ⟨(hc _).1, (hc _).2.1, (hc _).2.2, ?_, ?_⟩
  · intro h1 op h2 e x hx hs
    have hl := LandFed.seen_of hx
    have hm : x.2 ∈ Spec.opBtws op ∧ Spec.isLandmark cfg x.2 = true := by
      unfold Spec.lmSeen at hx
      rcases List.mem_append.1 hx with hx | hx
      · obtain ⟨b, hb, rfl⟩ := List.mem_map.1 hx
        rw [lmFirsts_eq] at hb
        exact opFirsts_btws (List.mem_filter.1 hb).1
      · obtain ⟨b, hb, rfl⟩ := List.mem_map.1 hx
        obtain ⟨m, q⟩ := List.mem_filter.1 hb
        rw [Bool.and_eq_true] at q
        exact ⟨opCands_btws m, q.1⟩
    have hk2 : x.2.k2 = l := by
      unfold Spec.landmarkOf at hl
      rwa [if_neg hs] at hl
    have hs2 : chr x.2.k2 ∈ cfg.special := by
      have := hm.2
      unfold Spec.isLandmark at this
      rcases of_decide_eq_true this with h | h
      · exact absurd h hs
      · exact h
    refine ⟨?_, ho.landmarks h1 op h2 e x.2 hm.1 hm.2 hs⟩
    rw [← hk2]
    exact hob op (by rw [e]; simp) x.2 hm.1 hs2 hs
  · intro h1 op h2 e x hx
    exact hk h1 op h2 e x (List.mem_filter.1 hx).1

/-! ### The supplied measurements are permuted -/

theorem pairGroups_flatten (cfg : Cfg G T N) (a b : Chr) (h : List (Op G N)) :
    (Spec.pairGroups cfg a b h).flatten = (Spec.candsSoFar cfg h).filter (Spec.connects a b) := by
  unfold Spec.pairGroups Spec.candsSoFar
  induction h with
  | nil => rfl
  | cons op h ih =>
    rw [List.map_cons, List.flatMap_cons, List.filter_append, List.filter_cons, ← ih]
    split
    · rw [List.flatten_cons]; rfl
    · rename_i hh
      have : Spec.pairCands cfg a b op = [] := by simpa using hh
      unfold Spec.pairCands at this
      rw [this]; rfl

theorem lmSoFar_first (cfg : Cfg G T N) (l : Key) (h : List (Op G N)) :
    ((Spec.lmSoFar cfg l h).filter fun x => x.1).map (·.2) =
      (Spec.firstsSoFar cfg h).filter fun b => decide (Spec.landmarkOf cfg b = l) := by
  unfold Spec.lmSoFar Spec.firstsSoFar
  induction h with
  | nil => rfl
  | cons op h ih =>
    rw [List.flatMap_cons, List.flatMap_cons, List.filter_append, List.map_append, List.filter_append, ih]
    congr 1
    rw [← lmFirsts_eq]
    unfold Spec.lmSeen
    rw [List.filter_append, List.map_append]
    have e1 : ((Spec.lmFirsts cfg l op).map fun b => (true, b)).filter (fun x => x.1) = (Spec.lmFirsts cfg l op).map fun b => (true, b) :=
      List.filter_eq_self.2 (by simp)
    have e2 : ((Spec.lmCands cfg l op).map fun b => (false, b)).filter (fun x => x.1) = [] :=
      List.filter_eq_nil_iff.2 (by simp)
    rw [e1, e2, List.map_map]
    simp [Function.comp_def]

theorem lmSoFar_cands (cfg : Cfg G T N) (l : Key) (h : List (Op G N)) :
    ((Spec.lmSoFar cfg l h).filter fun x => !x.1).map (·.2) =
      (Spec.candsSoFar cfg h).filter fun b => Spec.isLandmark cfg b && decide (Spec.landmarkOf cfg b = l) := by
  unfold Spec.lmSoFar Spec.candsSoFar
  induction h with
  | nil => rfl
  | cons op h ih =>
    rw [List.flatMap_cons, List.flatMap_cons, List.filter_append, List.map_append, List.filter_append, ih]
    congr 1
    unfold Spec.lmSeen
    rw [List.filter_append, List.map_append]
    have e1 : ((Spec.lmFirsts cfg l op).map fun b => (true, b)).filter (fun x => !x.1) = [] :=
      List.filter_eq_nil_iff.2 (by simp)
    have e2 : ((Spec.lmCands cfg l op).map fun b => (false, b)).filter (fun x => !x.1) = (Spec.lmCands cfg l op).map fun b => (false, b) :=
      List.filter_eq_self.2 (by simp)
    rw [e1, e2, List.map_map]
    simp [Function.comp_def, Spec.lmCands]

theorem connects_self (x : Btw G N) : Spec.connects (chr x.k1) (chr x.k2) x = true := by
  unfold Spec.connects; simp

theorem SameByParts.perms {cfg : Cfg G T N} {h1 h2 : List (Op G N)} (hp : Spec.SameByParts cfg h1 h2) :
    (Spec.odomSoFar cfg h1).Perm (Spec.odomSoFar cfg h2) ∧ (Spec.firstsSoFar cfg h1).Perm (Spec.firstsSoFar cfg h2) ∧
      (Spec.candsSoFar cfg h1).Perm (Spec.candsSoFar cfg h2) := by
  refine ⟨perm_of_parts fun x => ⟨fun y => chr y.k2 == chr x.k2, by simp, hp.robots (chr x.k2)⟩,
    perm_of_parts fun x => ⟨fun y => decide (Spec.landmarkOf cfg y = Spec.landmarkOf cfg x), by simp, ?_⟩,
    perm_of_parts fun x => ?_⟩
  · rw [← lmSoFar_first, ← lmSoFar_first, hp.landmarks]
  · cases hl : Spec.isLandmark cfg x with
    | true =>
      refine ⟨fun y => Spec.isLandmark cfg y && decide (Spec.landmarkOf cfg y = Spec.landmarkOf cfg x), by simp [hl], ?_⟩
      rw [← lmSoFar_cands, ← lmSoFar_cands, hp.landmarks]
    | false =>
      unfold Spec.isLandmark at hl
      simp only [decide_eq_false_iff_not, not_or] at hl
      refine ⟨Spec.connects (chr x.k1) (chr x.k2), connects_self x, ?_⟩
      rw [← pairGroups_flatten, ← pairGroups_flatten, hp.pairs _ _ hl.1 hl.2]

/-! ### Counting -/

section
variable [Mul G] [Inv G] [One G]

/-- What is counted of the candidates, judged by the odometry of state `s`. -/
def countedCand (cfg : Cfg G T N) (s : St G T N) (b : Btw G N) : Bool :=
  Spec.isLandmark cfg b || (decide (chr b.k1 ≠ chr b.k2) || odomVerdict cfg (lk cfg s.pcm) b)

/-- Candidates are judged alike by two states with the same odometry. -/
theorem counted_same {cfg : Cfg G T N} (hs : StartFree cfg.ops) {e1 e2 : Env G N} (hr : cfg.rejection = true) {h1 h2 : List (Op G N)}
    {s1 s2 : St G T N} (r1 : ReachOk cfg e1 h1 s1) (r2 : ReachOk cfg e2 h2 s2) {start : Chr → Key}
    (c2 : Spec.Chains cfg start h2) (o2 : Spec.OnOdometry cfg start h2) (k2 : Spec.KeysKnown cfg h2) (n2 : ∀ op ∈ h2, ¬ Spec.Removes op)
    (pre : ∀ c, Spec.robotOdom cfg c h1 <+: Spec.robotOdom cfg c h2)
    (c1 : Spec.Chains cfg start h1) (o1 : Spec.OnOdometry cfg start h1) (k1 : Spec.KeysKnown cfg h1) (n1 : ∀ op ∈ h1, ¬ Spec.Removes op)
    {x : Btw G N} (hx : x ∈ Spec.candsSoFar cfg h1) : countedCand cfg s1 x = countedCand cfg s2 x := by
  unfold countedCand
  cases hl : Spec.isLandmark cfg x with
  | true => rfl
  | false =>
    unfold Spec.isLandmark at hl
    simp only [decide_eq_false_iff_not, not_or] at hl
    have f2 := pairFed_global c2 o2 k2 n2 hl.1 hl.2
    have f1 := pairFed_global c1 o1 k1 n1 hl.1 hl.2
    obtain ⟨op, hop, hx⟩ := List.mem_flatMap.1 hx
    obtain ⟨u, v, e⟩ := List.append_of_mem hop
    have := (fine_same hs hr r1 r2 f2 (fun c _ => pre c)).1 x
      (PairFed.fine f1 e (List.mem_filter.2 ⟨hx, connects_self x⟩))
    rw [this]

/-- What `getNumLC()` counts. -/
theorem ReachOk.counted {cfg : Cfg G T N} (hs : StartFree cfg.ops) {env : Env G N} (hr : cfg.rejection = true) {h : List (Op G N)}
    {s : St G T N} (r : ReachOk cfg env h s) {start : Chr → Key} (hc : Spec.Chains cfg start h) (ho : Spec.OnOdometry cfg start h)
    (hk : Spec.KeysKnown cfg h) (hn : ∀ op ∈ h, ¬ Spec.Removes op) :
    s.pcm.totalLc = (Spec.firstsSoFar cfg h).length + ((Spec.candsSoFar cfg h).filter (countedCand cfg s)).length := by
  induction r with
  | init => rfl
  | @step h s op s' x r e ih =>
    have hc0 := Chains.init hc
    have ho0 := OnOdometry.init ho
    have hk0 := KeysKnown.init hk
    have hn0 : ∀ op ∈ h, ¬ Spec.Removes op := fun o m => hn o (by simp [m])
    have ih := ih hc0 ho0 hk0 hn0
    have r' : ReachOk cfg env (h ++ [op]) s' := .step r e
    have old : (Spec.candsSoFar cfg h).filter (countedCand cfg s) = (Spec.candsSoFar cfg h).filter (countedCand cfg s') :=
      List.filter_congr fun y hy =>
        counted_same hs hr r r' hc ho hk hn (fun c => robotOdom_prefix cfg c h op) hc0 ho0 hk0 hn0 hy
    rw [old] at ih
    have hf : Spec.firstsSoFar cfg (h ++ [op]) = Spec.firstsSoFar cfg h ++ Spec.opFirsts cfg op := by
      unfold Spec.firstsSoFar; simp
    rw [candsSoFar_snoc, hf, List.filter_append, List.length_append, List.length_append]
    have hn1 : Spec.NumLC cfg env s s.pcm.totalLc := (Props.numLC_iff hr).2 rfl
    cases hbt : Spec.batch op with
    | none =>
      have := (Props.numLC_iff hr).1 (Props.C19_other hr hbt (Or.inl ⟨_, e⟩) hn1)
      have e1 : Spec.opFirsts cfg op = [] := by unfold Spec.opFirsts; rw [hbt]
      have e2 : Spec.opCands cfg op = [] := by unfold Spec.opCands; rw [hbt]
      rw [e1, e2, ← this, ih]; rfl
    | some y =>
      obtain ⟨fs, vs⟩ := y
      have := (Props.numLC_iff hr).1 (Props.C19_batch hr hbt e hn1)
      have e1 : Spec.opFirsts cfg op = Spec.firsts cfg vs fs := by unfold Spec.opFirsts; rw [hbt]
      have e2 : Spec.opCands cfg op = Spec.cands cfg vs fs := by unfold Spec.opCands; rw [hbt]
      have e3 : (Spec.cands cfg vs fs).filter (Spec.acceptable cfg s') = (Spec.cands cfg vs fs).filter (countedCand cfg s') := by
        refine List.filter_congr fun b hb => ?_
        obtain ⟨q1, q2⟩ := hk h op [] (by simp) b (by rw [e2]; exact hb)
        have hv := reachOk_values r'
        have hkn : known s'.values b = true := by
          unfold known; rw [hv _ q1, hv _ q2]; rfl
        obtain ⟨a1, a2⟩ := Props.acceptable_eq (cfg := cfg) (s' := s') (v1 := s'.values) (p1 := s'.pcm) (fun _ => rfl) rfl b
        unfold acceptLc at a1
        unfold acceptLm at a2
        rw [hkn, Bool.true_and] at a1 a2
        unfold countedCand
        revert a1 a2
        cases Spec.isLandmark cfg b <;> cases Spec.acceptable cfg s' b <;> simp
      rw [e1, e2, ← this, ih, e3]
      omega

end
end RPGO
