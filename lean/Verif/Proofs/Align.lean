import Verif.Proofs.Own
/-
What frame alignment writes into the values.
-/

namespace RPGO
variable {G T N : Type}

/-! ### Robots and where they start -/

theorem insertVals_find? {vs v v' : Vals G} (h : insertVals vs v = .ok v' ()) (k : Key) {x : Val G}
    (hx : v'.find? k = some x) : v.find? k = some x ∨ vs.find? k = some x := by
  rw [(insertVals_ok h).1] at hx
  split at hx
  · exact Or.inl hx
  · exact Or.inr hx

theorem OdomRun.order_mono {cfg : Cfg G T N} {vals : Vals G} {bs : List (Btw G N)} {p p' : Pcm G T N}
    (r : OdomRun cfg vals bs p p') {c : Chr} (h : c ∈ p.robotOrder) : c ∈ p'.robotOrder := by
  induction r with
  | nil => exact h
  | cons st _ ho _ ih =>
    refine ih ?_
    rw [ho]
    rcases st.step with ⟨_, e, _⟩ | ⟨_, e, _⟩ <;> rw [e] <;> simp [h]
  | other _ ho _ ih => exact ih (by rw [ho]; exact h)

section
variable [Mul G] [Inv G] [One G] {cfg : Cfg G T N} {env : Env G N}

/-- The pose at which the trajectory of a robot that takes part in the alignment begins. -/
theorem ReachOk.started (hr : cfg.rejection = true) {h : List (Op G N)} {s : St G T N}
    (r : ReachOk cfg env h s) (c : Chr) (k0 : Key) (ch : Spec.Chain k0 (Spec.robotOdom cfg c h))
    (hl : k0.toNat + (Spec.robotOdom cfg c h).length < 2 ^ 64) (hc : c ∈ s.pcm.robotOrder) :
    ∃ g, Spec.StartPose cfg env c k0 h g ∧ lk cfg s.pcm c k0 = cfg.ops.ofPose g := by
  revert ch hl hc
  refine ReachOk.induct (Inv := fun h p => Spec.Chain k0 (Spec.robotOdom cfg c h) →
    k0.toNat + (Spec.robotOdom cfg c h).length < 2 ^ 64 → c ∈ p.robotOrder →
    ∃ g, Spec.StartPose cfg env c k0 h g ∧ lk cfg p c k0 = cfg.ops.ofPose g) hr ?_ ?_ r
  · intro _ _ h; simp at h
  · intro h s op s' x r e ih st ch hl hc
    rw [robotOdom_snoc] at ch hl
    have hch := Chain.prefix ch
    have hlh : k0.toNat + (Spec.robotOdom cfg c h).length < 2 ^ 64 := by simp only [List.length_append] at hl; omega
    have ih := ih hch hlh
    have mono : ∀ g, Spec.StartPose cfg env c k0 h g → Spec.StartPose cfg env c k0 (h ++ [op]) g := by
      rintro g ⟨h1, o, h2, s1, fs, vs, rfl, hrest⟩
      exact ⟨h1, o, h2 ++ [op], s1, fs, vs, by simp, hrest⟩
    generalize s'.pcm = q at st hc ⊢
    cases st with
    | other hb he =>
      rw [he.robotOrder] at hc
      obtain ⟨g, h1, h2⟩ := ih hc
      exact ⟨g, mono g h1, by rw [lk_congr he.trajs]; exact h2⟩
    | none _ =>
      obtain ⟨g, h1, h2⟩ := ih hc
      exact ⟨g, mono g h1, h2⟩
    | cands hb hne hi hS ht hsel hro =>
      rename_i fs vs v1 p1 q p2 ro
      have hop : Spec.opOdom cfg op = Spec.odoms cfg vs fs := by simp [Spec.opOdom, hb]
      rw [hop] at ch hl
      have hc1 : c ∈ p1.robotOrder := by
        have := (processed_robots ht hsel).1
        rw [← this]; exact hro.subset hc
      have hlk : lk cfg ({ p2 with robotOrder := ro } : Pcm G T N) = lk cfg p1 := by
        refine Eq.trans (lk_congr rfl) (Eq.trans (lk_congr hsel.trajs) (ht.lk.trans (lk_congr ?_)))
        exact (parseFold_frame cfg v1 (lk cfg p1) (Spec.cands cfg vs fs) p1).2.2.2.1
      rw [hlk]
      obtain ⟨w, _⟩ := r.walked hr c k0 hch hlh
      have hrob := (r.reach).robots hr
      obtain ⟨h1, h2⟩ := hS.run.start c k0 (Spec.robotOdom cfg c h) w.traj ch hl hrob.traj
      by_cases hold : c ∈ s.pcm.robotOrder
      · obtain ⟨g, h3, h4⟩ := ih hold
        refine ⟨g, mono g h3, ?_⟩
        rw [(h1 (hrob.traj c hold)).1]; exact h4
      · obtain ⟨hL, hne', g, hg, h4⟩ := h2 hc1 hold
        refine ⟨g, ⟨h, op, [], s, fs, vs, rfl, r, hb, hL, ?_, insertVals_find? hi k0 hg⟩, h4⟩
        rw [robotOdom_snoc, hop]
        simp [hne']

/-- A robot takes part in the alignment if its odometry starts before any closure or landmark observation names it. -/
theorem ReachOk.known (hr : cfg.rejection = true) {owner : Key → Chr} {h1 h2 : List (Op G N)} {op : Op G N} {s : St G T N}
    (r : ReachOk cfg env (h1 ++ op :: h2) s) (hsep : Spec.Separate cfg owner h1) (c : Chr)
    (hop : ∃ b ∈ Spec.opOdom cfg op, chr b.k2 = c)  (hsep' : ∀ b ∈ Spec.opOdom cfg op, chr b.k1 = chr b.k2)
    (hno : ∀ o ∈ h1, ∀ b ∈ Spec.opBtws o, b ∉ Spec.opOdom cfg o → chr b.k1 ≠ c ∧ chr b.k2 ≠ c) :
    c ∈ s.pcm.robotOrder := by
  generalize hh : h1 ++ op :: h2 = h at r
  suffices H : ∀ h2, h1 ++ op :: h2 = h → c ∈ s.pcm.robotOrder from H _ hh
  refine ReachOk.induct (Inv := fun h p => ∀ h2, h1 ++ op :: h2 = h → c ∈ p.robotOrder) hr ?_ ?_ r
  · intro h2 hh; simp at hh
  · intro h s o s' x r e ih st h2 hh
    have keep : c ∈ s.pcm.robotOrder → c ∈ s'.pcm.robotOrder := by
      intro hc
      generalize s'.pcm = q at st
      cases st with
      | other hb he => rw [he.robotOrder]; exact hc
      | none _ => exact hc
      | cands hb hne hi hS ht hsel hro =>
        rename_i fs vs v1 p1 q p2 ro
        refine hro.symm.subset ?_
        rw [(processed_robots ht hsel).1]
        exact hS.run.order_mono hc
    rcases List.eq_nil_or_concat h2 with rfl | ⟨h3, o', rfl⟩
    · have := List.append_inj' hh rfl
      obtain ⟨rfl, hoo⟩ := this
      cases hoo
      have hown := (r.reach).own_all hr (C := fun k => chr k ≠ c) hsep hno
      generalize s'.pcm = q at st
      cases st with
      | other hb he => obtain ⟨b, hb', _⟩ := hop; simp [Spec.opOdom, hb] at hb'
      | none hb => obtain ⟨b, hb', _⟩ := hop; simp [Spec.opOdom, hb, Spec.odoms, Spec.btws] at hb'
      | cands hb hne hi hS ht hsel hro =>
        rename_i fs vs v1 p1 q p2 ro
        refine hro.symm.subset ?_
        rw [(processed_robots ht hsel).1]
        obtain ⟨b, hb', rfl⟩ := hop
        have hopo : Spec.opOdom cfg op = Spec.odoms cfg vs fs := by simp [Spec.opOdom, hb]
        rw [hopo] at hb' hsep'
        have hh := (hS.run.tracked.2 b hb').2
        have ht1 : RPGO.hasTraj p1 (chr b.k2) = true := by
          unfold trajOf at hh
          unfold RPGO.hasTraj
          cases e : AList.get? (· == ·) p1.trajs (chr b.k2) with
          | none => rw [e] at hh; simp [KMap.has] at hh
          | some _ => rfl
        rcases (Own.odomRun (C := fun k => chr k ≠ chr b.k2) (O := fun _ => True) hS.run
          (fun x hx => ⟨hsep' x hx, trivial, trivial⟩) hown.own hown.sorted hown.born).2.2 _ ht1 with h | h
        · exact h
        · obtain ⟨k, hk, hk'⟩ := h; exact absurd hk hk'
    · rw [List.concat_eq_append, ← List.cons_append, ← List.append_assoc] at hh
      obtain ⟨h4, _⟩ := List.append_inj' hh rfl
      exact keep (ih h3 h4)

end

/-- The odometry factors kept. -/
theorem ReachOk.odom_eq [Mul G] [Inv G] [One G] {cfg : Cfg G T N} {env : Env G N} (hr : cfg.rejection = true) {h : List (Op G N)}
    {s : St G T N} (r : ReachOk cfg env h s) : s.pcm.odom = Spec.odomSoFar cfg h := by
  refine ReachOk.induct (Inv := fun h p => p.odom = Spec.odomSoFar cfg h) hr rfl ?_ r
  intro h s op s' x r e ih st
  have hsn : Spec.odomSoFar cfg (h ++ [op]) = Spec.odomSoFar cfg h ++ Spec.opOdom cfg op := by simp [Spec.odomSoFar]
  rw [hsn, ← ih]
  generalize s'.pcm = q at st
  cases st with
  | other hb he =>
    have : Spec.opOdom cfg op = [] := by simp [Spec.opOdom, hb]
    rw [this, List.append_nil]
    cases he with
    | ignore => split <;> rfl
    | _ => rfl
  | none hb => simp [Spec.opOdom, hb, Spec.odoms, Spec.btws]
  | cands hb hne hi hS ht hsel hro =>
    rename_i fs vs v1 p1 q p2 ro
    show p2.odom = _
    rw [hsel.eq, ht.eq]
    show ((Spec.cands cfg vs fs).foldl (parseStep cfg v1 (lk cfg p1)) p1).odom = _
    rw [(parseFold_frame cfg v1 (lk cfg p1) (Spec.cands cfg vs fs) p1).1, hS.odom]
    simp [Spec.opOdom, hb]

/-- Every filed pair was named by a closure sent. -/
theorem ReachOk.filed [Mul G] [Inv G] [One G] {cfg : Cfg G T N} {env : Env G N} (hr : cfg.rejection = true) {h : List (Op G N)}
    {s : St G T N} (r : ReachOk cfg env h s) :
    ∀ e ∈ s.pcm.lcs, ∃ op ∈ h, ∃ b ∈ Spec.opBtws op, (pairOf b).eqv e.1 = true := by
  refine ReachOk.induct (Inv := fun h p => ∀ e ∈ p.lcs, ∃ op ∈ h, ∃ b ∈ Spec.opBtws op, (pairOf b).eqv e.1 = true)
    hr (by simp) ?_ r
  intro h s op s' x r e ih st
  have old : ∀ id : ObsId, (∃ o ∈ h, ∃ b ∈ Spec.opBtws o, (pairOf b).eqv id = true) →
      ∃ o ∈ h ++ [op], ∃ b ∈ Spec.opBtws o, (pairOf b).eqv id = true := by
    rintro id ⟨o, ho, hb⟩; exact ⟨o, by simp [ho], hb⟩
  generalize s'.pcm = q at st
  cases st with
  | other hb he =>
    have rem : ∀ (p : Pcm G T N) (id : ObsId) m m', p.lcs = s.pcm.lcs → AList.get? ObsId.eqv p.lcs id = some m →
        ∀ e ∈ (updLc p id fun _ => m').lcs, ∃ o ∈ h ++ [op], ∃ b ∈ Spec.opBtws o, (pairOf b).eqv e.1 = true := by
      intro p id m m' hp hm e he
      rcases AList.mem_upd he with he | ⟨_, hn⟩ | ⟨v, _, _, _, he⟩
      · exact old _ (ih e (hp ▸ he))
      · rw [hm] at hn; cases hn
      · exact old _ (ih (e.1, v) (hp ▸ he))
    cases he with
    | same => exact fun e he => old _ (ih e he)
    | priors => exact fun e he => old _ (ih e he)
    | ignore => split <;> exact fun e he => old _ (ih e he)
    | revive => exact fun e he => old _ (ih e he)
    | pair hm _ => exact rem _ _ _ _ rfl hm
    | pop _ => exact fun e he => old _ (ih e he)
    | last _ hm _ => exact rem _ _ _ _ rfl hm
  | none _ => exact fun e he => old _ (ih e he)
  | cands hb hne hi hS ht hsel hro =>
    rename_i fs vs v1 p1 q p2 ro
    intro e he
    obtain ⟨e1, he1, hk, _⟩ := Table.mem hsel.lcs he
    rw [hk]
    have hq : q.lcs = ((Spec.cands cfg vs fs).foldl (parseStep cfg v1 (lk cfg p1)) p1).lcs := by rw [ht.eq]
    rw [hq] at he1
    revert he1
    refine (parseFold_induct (Inv := fun p => ∀ e ∈ p.lcs, ∃ o ∈ h ++ [op], ∃ b ∈ Spec.opBtws o, (pairOf b).eqv e.1 = true)
      (Spec.cands cfg vs fs) ?_ ?_ ?_ e1)
    · intro e he; exact old _ (ih e (hS.lcs ▸ he))
    · intro p hp b hb' _ e he
      rcases AList.mem_upd he with he | ⟨rfl, _⟩ | ⟨v, _, _, _, he⟩
      · exact hp e he
      · refine ⟨op, by simp, b, ?_, (ObsId.isEqv).refl _⟩
        simp only [Spec.opBtws, hb]
        exact List.mem_of_mem_filter hb'
      · exact hp (e.1, v) he
    · exact fun p hp b _ _ e he => hp e he

/-! ### Values written by the alignment -/

theorem updateVals_cons (k : Key) (x : Val G) (t v : Vals G) :
    updateVals ((k, x) :: t) v = match v.find? k with
      | none => .throw v .keyMissing
      | some y => if y.sameType x then updateVals t (v.set k x) else .throw v .wrongType := rfl

theorem updateVals_ok {us v v' : Vals G} (hs : us.Sorted) (h : updateVals us v = .ok v' ()) (k : Key) :
    v'.find? k = if us.has k then us.find? k else v.find? k := by
  induction us generalizing v with
  | nil => cases h; rfl
  | cons e t ih =>
    obtain ⟨k0, x⟩ := e
    rw [updateVals_cons] at h
    cases hf : v.find? k0 with
    | none => rw [hf] at h; cases h
    | some y =>
      rw [hf] at h
      simp only at h
      split at h
      · have hst : KMap.Sorted t := (List.pairwise_cons.1 hs).2
        rw [ih hst h, KMap.find?_set]
        by_cases hk : k0 = k
        · subst hk
          have hno : KMap.has t k0 = false := by
            cases hh : KMap.has t k0
            · rfl
            · have := (List.pairwise_cons.1 hs).1 k0 ((KMap.mem_keys_iff t k0).2 hh)
              exact absurd this (Nat.lt_irrefl _)
          rw [hno, KMap.find?_cons, if_pos rfl]
          simp [KMap.has, KMap.find?_cons]
        · simp [KMap.has, KMap.find?_cons, hk]
      · cases h

theorem robotOdomValues_find? [Mul G] [Inv G] [One G] (cfg : Cfg G T N) (tr : KMap T) (X : G) (k : Key) :
    KMap.find? (robotOdomValues cfg tr X) k = (tr.find? k).map fun t => .pose (X * cfg.ops.pose t) := by
  unfold robotOdomValues
  induction tr with
  | nil => rfl
  | cons e t ih =>
    obtain ⟨k0, x⟩ := e
    rw [List.map_cons, KMap.find?_cons, KMap.find?_cons]
    split
    · rfl
    · exact ih

theorem robotOdomValues_sorted [Mul G] [Inv G] [One G] (cfg : Cfg G T N) {tr : KMap T} (h : tr.Sorted) (X : G) :
    KMap.Sorted (robotOdomValues cfg tr X) := by
  unfold KMap.Sorted KMap.keys robotOdomValues at *
  rw [List.map_map]
  exact h

theorem find?_of_has {cfg : Cfg G T N} {p : Pcm G T N} {c : Chr} {k : Key} (h : (trajOf p c).has k = true) :
    (trajOf p c).find? k = some (lk cfg p c k) := by
  unfold KMap.has at h
  obtain ⟨t, ht⟩ := Option.isSome_iff_exists.1 h
  unfold lk look
  rw [ht]; rfl

/-- Insertion keeps the robots in order. -/
theorem insertRobot_sorted (sg : Bool) (c : Chr) {l : List Chr} (h : l.Pairwise fun a b => charVal sg a ≤ charVal sg b) :
    (insertRobot sg c l).Pairwise fun a b => charVal sg a ≤ charVal sg b := by
  induction l with
  | nil => exact List.pairwise_singleton _ _
  | cons d t ih =>
    obtain ⟨h1, h2⟩ := List.pairwise_cons.1 h
    unfold insertRobot
    split
    · rename_i hcd
      refine List.pairwise_cons.2 ⟨?_, h⟩
      intro x hx
      rcases List.mem_cons.1 hx with rfl | hx
      · exact hcd
      · exact Int.le_trans hcd (h1 x hx)
    · rename_i hcd
      refine List.pairwise_cons.2 ⟨?_, ih h2⟩
      intro x hx
      rcases List.mem_cons.1 ((insertRobot_perm sg c t).subset hx) with rfl | hx
      · omega
      · exact h1 x hx

theorem sortRobots_sorted (sg : Bool) (l : List Chr) :
    (sortRobots sg l).Pairwise fun a b => charVal sg a ≤ charVal sg b := by
  induction l with
  | nil => exact List.Pairwise.nil
  | cons c t ih => exact insertRobot_sorted sg c ih

section
variable [Mul G] [Inv G] [One G] {cfg : Cfg G T N} {env : Env G N}

/-- What one robot's pose values become: `none` if its closures cannot be used. -/
def offsetOf (cfg : Cfg G T N) (env : Env G N) (p : Pcm G T N) (r0 ri : Chr) : Option G :=
  match AList.get? ObsId.eqv p.lcs ⟨r0, ri⟩ with
  | none => none
  | some m =>
    match alignCandidates cfg p r0 ri m.cons with
    | none => none
    | some cs => env.avg cs

theorem alignCandidates_congr {p q : Pcm G T N} (ht : p.trajs = q.trajs) (r0 ri : Chr) (bs : List (Btw G N)) :
    alignCandidates cfg p r0 ri bs = alignCandidates cfg q r0 ri bs := by
  have h1 : ∀ b, alignCandidate cfg p r0 ri b = alignCandidate cfg q r0 ri b := by
    intro b
    unfold alignCandidate trajOf
    rw [ht]
  induction bs with
  | nil => rfl
  | cons b t ih => unfold alignCandidates; rw [h1, ih]

theorem offsetOf_congr {p q : Pcm G T N} (hl : p.lcs = q.lcs) (ht : p.trajs = q.trajs) (r0 ri : Chr) :
    offsetOf cfg env p r0 ri = offsetOf cfg env q r0 ri := by
  unfold offsetOf
  rw [hl]
  cases AList.get? ObsId.eqv q.lcs ⟨r0, ri⟩ with
  | none => rfl
  | some m => simp only [alignCandidates_congr ht]

theorem alignRobot_ok {p : Pcm G T N} {r0 ri : Chr} {v v' : Vals G} (hs : (trajOf p ri).Sorted)
    (h : alignRobot cfg env p r0 ri v = .ok v' ()) (k : Key) :
    v'.find? k = match offsetOf cfg env p r0 ri with
      | none => v.find? k
      | some X => if (trajOf p ri).has k then some (.pose (X * cfg.ops.pose (lk cfg p ri k))) else v.find? k := by
  unfold alignRobot at h
  unfold offsetOf
  cases h1 : AList.get? ObsId.eqv p.lcs ⟨r0, ri⟩ with
  | none => rw [h1] at h; cases h; rfl
  | some m =>
    rw [h1] at h
    simp only at h ⊢
    cases h2 : alignCandidates cfg p r0 ri m.cons with
    | none => rw [h2] at h; cases h; rfl
    | some cs =>
      rw [h2] at h
      simp only at h ⊢
      cases h3 : env.avg cs with
      | none => rw [h3] at h; cases h
      | some X =>
        rw [h3] at h
        simp only at h ⊢
        rw [updateVals_ok (robotOdomValues_sorted cfg hs X) h]
        have he := robotOdomValues_find? cfg (trajOf p ri) X k
        by_cases hk : (trajOf p ri).has k = true
        · rw [find?_of_has (cfg := cfg) hk] at he
          rw [if_pos hk, if_pos (by unfold KMap.has; rw [he]; rfl), he]; rfl
        · have : (trajOf p ri).find? k = none := by
            cases hh : (trajOf p ri).find? k
            · rfl
            · exact absurd (by unfold KMap.has; rw [hh]; rfl) hk
          rw [this] at he
          rw [if_neg hk, if_neg (by unfold KMap.has; rw [he]; simp)]

/-- Averaging did not fail for robot `ri`. -/
def Averaged (cfg : Cfg G T N) (env : Env G N) (p : Pcm G T N) (r0 ri : Chr) : Prop :=
  ∀ m cs, AList.get? ObsId.eqv p.lcs ⟨r0, ri⟩ = some m → alignCandidates cfg p r0 ri m.cons = some cs → (env.avg cs).isSome

theorem alignRobot_averaged {p : Pcm G T N} {r0 ri : Chr} {v v' : Vals G}
    (h : alignRobot cfg env p r0 ri v = .ok v' ()) : Averaged cfg env p r0 ri := by
  intro m cs hm hc
  unfold alignRobot at h
  rw [hm] at h
  simp only [hc] at h
  cases e : env.avg cs with
  | none => rw [e] at h; cases h
  | some _ => rfl

theorem alignRobots_averaged {p : Pcm G T N} {r0 : Chr} {rs : List Chr} {v v' : Vals G}
    (h : M.forEach (alignRobot cfg env p r0) rs v = .ok v' ()) : ∀ c ∈ rs, Averaged cfg env p r0 c := by
  induction rs generalizing v with
  | nil => simp
  | cons ri rs ih =>
    obtain ⟨v1, _, h1, h2⟩ := M.bind_eq_ok.1 h
    intro c hc
    rcases List.mem_cons.1 hc with rfl | hc
    · exact alignRobot_averaged h1
    · exact ih h2 c hc

/-- The loop over the other robots. -/
theorem alignRobots_ok {p : Pcm G T N} {r0 : Chr} (hs : ∀ c, (trajOf p c).Sorted)
    (ho : ∀ c k, (trajOf p c).has k = true → chr k = c) {rs : List Chr} (hn : rs.Nodup) {v v' : Vals G}
    (h : M.forEach (alignRobot cfg env p r0) rs v = .ok v' ()) :
    (∀ c ∈ rs, ∀ k, chr k = c → v'.find? k = match offsetOf cfg env p r0 c with
      | none => v.find? k
      | some X => if (trajOf p c).has k then some (.pose (X * cfg.ops.pose (lk cfg p c k))) else v.find? k) ∧
    ∀ k, chr k ∉ rs → v'.find? k = v.find? k := by
  induction rs generalizing v with
  | nil => cases h; exact ⟨by simp, fun _ _ => rfl⟩
  | cons ri rs ih =>
    obtain ⟨v1, _, h1, h2⟩ := M.bind_eq_ok.1 h
    obtain ⟨hni, hn⟩ := List.nodup_cons.1 hn
    obtain ⟨i1, i2⟩ := ih hn h2
    have a1 := alignRobot_ok (hs ri) h1
    have a2 : ∀ k, chr k ≠ ri → v1.find? k = v.find? k := by
      intro k hk
      rw [a1]
      cases offsetOf cfg env p r0 ri with
      | none => rfl
      | some X =>
        simp only
        rw [if_neg]
        intro hh
        exact hk (ho _ _ hh)
    refine ⟨?_, ?_⟩
    · intro c hc k hk
      rcases List.mem_cons.1 hc with rfl | hc
      · rw [i2 k (by rw [hk]; exact hni)]; exact a1 k
      · rw [i1 c hc k hk, a2 k]
        rw [hk]; intro e; rw [e] at hc; exact hni hc
    · intro k hk
      rw [List.mem_cons, not_or] at hk
      rw [i2 k hk.2, a2 k hk.1]

/-- A completed alignment: the order of the robots and the values. Poses need not be a group: the reference robot's are
multiplied by the identity. -/
theorem alignStep_ok_mul {s s' : St G T N} (h : alignStep cfg env s = .ok s' ()) (ha : cfg.align = true)
    (hr : 1 < s.pcm.robotOrder.length) (hnd : s.pcm.robotOrder.Nodup) (hs : ∀ c, (trajOf s.pcm c).Sorted)
    (ho : ∀ c k, (trajOf s.pcm c).has k = true → chr k = c) :
    ∃ r0 rs, s'.pcm.robotOrder = r0 :: rs ∧ (r0 :: rs).Perm s.pcm.robotOrder ∧
      (∀ c ∈ s.pcm.robotOrder, charVal cfg.charSigned r0 ≤ charVal cfg.charSigned c) ∧
      (∀ k, (trajOf s.pcm r0).has k = true → s'.values.find? k = some (.pose (1 * cfg.ops.pose (lk cfg s.pcm r0 k)))) ∧
      (∀ c ∈ rs, ∀ k, chr k = c → s'.values.find? k = match offsetOf cfg env s.pcm r0 c with
        | none => s.values.find? k
        | some X => if (trajOf s.pcm c).has k then some (.pose (X * cfg.ops.pose (lk cfg s.pcm c k)))
            else s.values.find? k) ∧
      (∀ k, (chr k ∉ r0 :: rs ∨ (chr k = r0 ∧ (trajOf s.pcm r0).has k = false)) → s'.values.find? k = s.values.find? k) ∧
      ∀ c ∈ rs, Averaged cfg env s.pcm r0 c := by
  unfold alignStep at h
  rw [if_pos (by simp [ha, hr])] at h
  simp only at h
  have hp := sortRobots_perm cfg.charSigned s.pcm.robotOrder
  have hsrt := sortRobots_sorted cfg.charSigned s.pcm.robotOrder
  generalize sortRobots cfg.charSigned s.pcm.robotOrder = l at h hp hsrt
  cases l with
  | nil => rw [← hp.length_eq] at hr; simp at hr
  | cons r0 rs =>
    have hn : (r0 :: rs).Nodup := hp.nodup_iff.2 hnd
    obtain ⟨hn0, hn1⟩ := List.nodup_cons.1 hn
    cases e : alignValues cfg env { s.pcm with robotOrder := r0 :: rs } (r0 :: rs) s.values with
    | throw v x => rw [e] at h; cases h
    | ub u => rw [e] at h; cases h
    | ok v x =>
      rw [e] at h
      cases h
      obtain ⟨v1, _, h1, h2⟩ := M.bind_eq_ok.1 e
      have hu := updateVals_ok (robotOdomValues_sorted cfg (hs r0) 1) h1
      have hf := fun k => robotOdomValues_find? cfg (trajOf s.pcm r0) 1 k
      obtain ⟨i1, i2⟩ := alignRobots_ok (p := { s.pcm with robotOrder := r0 :: rs }) hs ho hn1 h2
      have hin : ∀ k, (trajOf s.pcm r0).has k = true → v1.find? k = some (.pose (1 * cfg.ops.pose (lk cfg s.pcm r0 k))) := by
        intro k hk
        have he := hf k
        rw [find?_of_has (cfg := cfg) hk] at he
        rw [hu, if_pos (by unfold KMap.has; rw [he]; rfl), he]
        simp
      have hout : ∀ k, (trajOf s.pcm r0).has k = false → v1.find? k = s.values.find? k := by
        intro k hk
        have he := hf k
        have : (trajOf s.pcm r0).find? k = none := by
          unfold KMap.has at hk
          cases hh : (trajOf s.pcm r0).find? k
          · rfl
          · rw [hh] at hk; cases hk
        rw [this] at he
        rw [hu, if_neg (by unfold KMap.has; rw [he]; simp)]
      refine ⟨r0, rs, rfl, hp, ?_, ?_, ?_, ?_, ?_⟩
      · intro c hc
        rcases List.mem_cons.1 (hp.symm.subset hc) with rfl | hc
        · exact Int.le_refl _
        · exact (List.pairwise_cons.1 hsrt).1 c hc
      · intro k hk
        show KMap.find? v k = _
        rw [i2 k (by rw [ho _ _ hk]; exact hn0)]
        exact hin k hk
      · intro c hc k hk
        have hno : (trajOf s.pcm r0).has k = false := by
          cases hh : (trajOf s.pcm r0).has k
          · rfl
          · exfalso
            rw [ho _ _ hh] at hk
            rw [hk] at hn0
            exact hn0 hc
        have := i1 c hc k hk
        rw [hout k hno, offsetOf_congr (p := { s.pcm with robotOrder := r0 :: rs }) (q := s.pcm) rfl rfl] at this
        exact this
      · intro k hk
        show KMap.find? v k = _
        rcases hk with hk | ⟨hk, hno⟩
        · rw [List.mem_cons, not_or] at hk
          rw [i2 k hk.2]
          refine hout k ?_
          cases hh : (trajOf s.pcm r0).has k
          · rfl
          · exact absurd (ho _ _ hh) hk.1
        · rw [i2 k (by rw [hk]; exact hn0)]
          exact hout k hno
      · intro c hc m cs hm hcs
        refine alignRobots_averaged h2 c hc m cs hm ?_
        rw [alignCandidates_congr (p := { s.pcm with robotOrder := r0 :: rs }) (q := s.pcm) rfl]
        exact hcs

end

section
variable [Group G] {cfg : Cfg G T N} {env : Env G N}

/-- A completed alignment: the order of the robots and the values. -/
theorem alignStep_ok {s s' : St G T N} (h : alignStep cfg env s = .ok s' ()) (ha : cfg.align = true)
    (hr : 1 < s.pcm.robotOrder.length) (hnd : s.pcm.robotOrder.Nodup) (hs : ∀ c, (trajOf s.pcm c).Sorted)
    (ho : ∀ c k, (trajOf s.pcm c).has k = true → chr k = c) :
    ∃ r0 rs, s'.pcm.robotOrder = r0 :: rs ∧ (r0 :: rs).Perm s.pcm.robotOrder ∧
      (∀ c ∈ s.pcm.robotOrder, charVal cfg.charSigned r0 ≤ charVal cfg.charSigned c) ∧
      (∀ k, (trajOf s.pcm r0).has k = true → s'.values.find? k = some (.pose (cfg.ops.pose (lk cfg s.pcm r0 k)))) ∧
      (∀ c ∈ rs, ∀ k, chr k = c → s'.values.find? k = match offsetOf cfg env s.pcm r0 c with
        | none => s.values.find? k
        | some X => if (trajOf s.pcm c).has k then some (.pose (X * cfg.ops.pose (lk cfg s.pcm c k)))
            else s.values.find? k) ∧
      (∀ k, (chr k ∉ r0 :: rs ∨ (chr k = r0 ∧ (trajOf s.pcm r0).has k = false)) → s'.values.find? k = s.values.find? k) ∧
      ∀ c ∈ rs, Averaged cfg env s.pcm r0 c := by
  have := alignStep_ok_mul h ha hr hnd hs ho
  simp only [one_mul] at this
  exact this

end

end RPGO
