import Verif.Proofs.Arrival
import Verif.Props.Alone
/-
C73 the order in which messages about different robots arrive makes no difference.
-/

namespace RPGO.Spec
variable {G T N : Type} [Mul G] [Inv G] [One G]

/-- The two solvers hold the same factors as many times, have estimates for the same keys, registered and accepted the
same closures and observations with the same stored matrices, and report the same number of closures. -/
structure SameContent (cfg : Cfg G T N) (e1 e2 : Env G N) (s1 s2 : St G T N) : Prop where
  graph : s1.nfg.Perm s2.nfg
  keys : s1.values.keys = s2.values.keys
  registered : ∀ id, Spec.registered s1 id = Spec.registered s2 id
  matrix : ∀ id, Spec.matrix s1 id = Spec.matrix s2 id
  selected : ∀ id, Spec.selected s1 id = Spec.selected s2 id
  observed : ∀ l, Spec.observed s1 l = Spec.observed s2 l
  landMatrix : ∀ l, Spec.landMatrix s1 l = Spec.landMatrix s2 l
  accepted : ∀ l, Spec.acceptedOf s1 l = Spec.acceptedOf s2 l
  count : ∀ n, NumLC cfg e1 s1 n ↔ NumLC cfg e2 s2 n

/-- What is asked of a history: nothing is removed and the graph is not edited from outside; the odometry of each robot is a
chain; when a closure or an observation arrives, odometry has reached the poses it is about, and the keys of a closure or
of a further observation have values; each landmark is observed by one robot. -/
structure WellFed (cfg : Cfg G T N) (start : Chr → Key) (owner : Key → Chr) (h : List (Op G N)) : Prop where
  managed : ∀ op ∈ h, Managed op
  keeps : ∀ op ∈ h, ¬ Removes op
  chains : Chains cfg start h
  reached : OnOdometry cfg start h
  known : KeysKnown cfg h
  observer : OneObserver cfg owner h

/-- Two calls that are not about the same two robots (or the same robot) and not about the same landmark. -/
def Apart (cfg : Cfg G T N) (o1 o2 : Op G N) : Prop :=
  ∀ x ∈ opBtws o1, ∀ y ∈ opBtws o2,
    ¬ SamePair x y ∧ (isLandmark cfg x = true → isLandmark cfg y = true → landmarkOf cfg x ≠ landmarkOf cfg y)

end RPGO.Spec

namespace RPGO
variable {G T N : Type} [Mul G] [Inv G] [One G]

theorem arrival_same {cfg : Cfg G T N} (hs : StartFree cfg.ops) {e1 e2 : Env G N} (he1 : e1.Ok) (he2 : e2.Ok)
    (hr : cfg.rejection = true) {start : Chr → Key} {owner : Key → Chr} {h1 h2 : List (Op G N)}
    (w1 : Spec.WellFed cfg start owner h1) (w2 : Spec.WellFed cfg start owner h2) (hp : Spec.SameByParts cfg h1 h2)
    {s1 s2 : St G T N} (r1 : ReachOk cfg e1 h1 s1) (r2 : ReachOk cfg e2 h2 s2)
    (hig : ∀ c, c ∈ getIgnored cfg s1 ↔ c ∈ getIgnored cfg s2) : Spec.SameContent cfg e1 e2 s1 s2 := by
  have pre : ∀ c, Spec.robotOdom cfg c h1 <+: Spec.robotOdom cfg c h2 := fun c => by rw [hp.robots c]
  have hlc : ∀ id, lcOf s1.pcm id = lcOf s2.pcm id := by
    intro id
    by_cases hid : id.id1 ∈ cfg.special ∨ id.id2 ∈ cfg.special
    · rw [r1.reach.lcOf_special hr hid, r2.reach.lcOf_special hr hid]
    · obtain ⟨n1, n2⟩ := not_or.1 hid
      have f1 := pairFed_global w1.chains w1.reached w1.known w1.keeps n1 n2
      have f2 := pairFed_global w2.chains w2.reached w2.known w2.keeps n1 n2
      cases hi : cfg.incremental with
      | false => exact pair_same_batch hs hr hi r1 r2 f1 f2 (fun c _ => pre c) (hp.pairs _ _ n1 n2)
      | true => exact pair_same hs hr r1 r2 f1 f2 (fun c _ => pre c) (hp.groups hi _ _ n1 n2)
  have hlm : ∀ l, lmOf s1.pcm l = lmOf s2.pcm l := fun l =>
    land_alone (lm := cfg.lm) (debug := cfg.debug) (log := cfg.log) (useGnc := cfg.useGnc) (fixPrev := cfg.fixPrev)
      (biasOdom := cfg.biasOdom) hs hr r1 r2 (landFed_global w1.chains w1.reached w1.known w1.observer l)
      (landFed_global w2.chains w2.reached w2.known w2.observer l) (pre _) (hp.landmarks l)
  obtain ⟨po, pf, pc⟩ := SameByParts.perms hp
  refine ⟨?_, ?_, fun id => ?_, fun id => ?_, fun id => ?_, fun l => ?_, fun l => ?_, fun l => ?_, fun n => ?_⟩
  · obtain ⟨a1, a2, a3⟩ := r1.lists he1 hr w1.managed
    obtain ⟨b1, b2, b3⟩ := r2.lists he2 hr w2.managed
    rw [a1, b1]
    unfold buildGraph
    rw [a2, a3, b2, b3]
    refine (((po.map _).append (hp.others.map _)).append ?_).append ?_
    · have hig' : ∀ c, s1.pcm.ignored.contains c = s2.pcm.ignored.contains c := by
        intro c
        have := hig c
        unfold getIgnored at this
        rw [if_pos hr, if_pos hr] at this
        rw [Bool.eq_iff_iff, List.contains_iff_mem, List.contains_iff_mem]
        exact this
      refine ((he1.lc _).flatMap_right _).trans (List.Perm.trans ?_ ((he2.lc _).symm.flatMap_right _))
      simp only [hig']
      refine table_perm_get ObsId.isEqv (d := Meas.empty) (r1.reach.distinct hr).1 (r2.reach.distinct hr).1 ?_ ?_ hlc
      · intro k; simp [Meas.empty]
      · intro k k' v q
        unfold ObsId.eqv at q
        split at q
        · rename_i h; simp only [h.1, h.2]
        · split at q
          · rename_i h
            simp only [h.1, h.2, Bool.and_comm]
          · cases q
    · refine ((he1.lm _).flatMap_right _).trans (List.Perm.trans ?_ ((he2.lm _).symm.flatMap_right _))
      exact table_perm_get AList.isEqv_beq (d := Meas.empty) (r1.reach.keyed hr).2 (r2.reach.keyed hr).2
        (fun k => by simp [Meas.empty]) (fun k k' v q => rfl) hlm
  · obtain ⟨a1, a2⟩ := Props.C34_estimate_keys r1
    obtain ⟨b1, b2⟩ := Props.C34_estimate_keys r2
    have hk : ∀ k, k ∈ s1.values.keys ↔ k ∈ s2.values.keys := fun k => by rw [a1 k, b1 k, hp.keys k]
    exact List.Pairwise.eq_of_mem_iff (r := fun a b : Key => a.toNat < b.toNat) a2 b2 hk
  · unfold Spec.registered; rw [hlc]
  · unfold Spec.matrix; rw [hlc]
  · unfold Spec.selected; rw [hlc]
  · unfold Spec.observed; rw [hlm]
  · unfold Spec.landMatrix; rw [hlm]
  · unfold Spec.acceptedOf; rw [hlm]
  · rw [Props.numLC_iff hr, Props.numLC_iff hr, r1.counted hs hr w1.chains w1.reached w1.known w1.keeps,
      r2.counted hs hr w2.chains w2.reached w2.known w2.keeps, pf.length_eq]
    have e : (Spec.candsSoFar cfg h1).filter (countedCand cfg s1) = (Spec.candsSoFar cfg h1).filter (countedCand cfg s2) :=
      List.filter_congr fun x hx => counted_same hs hr r1 r2 w2.chains w2.reached w2.known w2.keeps pre w1.chains w1.reached
        w1.known w1.keeps hx
    rw [e, (pc.filter (countedCand cfg s2)).length_eq]

/-- After calls that carried candidates, with nothing ignored, the inlier counts agree too. -/
theorem arrival_inliers {cfg : Cfg G T N} (hs : StartFree cfg.ops) {e1 e2 : Env G N} (he1 : e1.Ok) (he2 : e2.Ok)
    (hr : cfg.rejection = true) (hg : cfg.useGnc = false) {start : Chr → Key} {owner : Key → Chr} {h1 h2 : List (Op G N)} {o1 o2 : Op G N}
    (w1 : Spec.WellFed cfg start owner (h1 ++ [o1])) (w2 : Spec.WellFed cfg start owner (h2 ++ [o2]))
    (hp : Spec.SameByParts cfg (h1 ++ [o1]) (h2 ++ [o2])) (c1 : Spec.opCands cfg o1 ≠ []) (c2 : Spec.opCands cfg o2 ≠ [])
    {s1 s2 : St G T N} (r1 : ReachOk cfg e1 (h1 ++ [o1]) s1) (r2 : ReachOk cfg e2 (h2 ++ [o2]) s2)
    (i1 : getIgnored cfg s1 = []) (i2 : getIgnored cfg s2 = []) (n : Nat) :
    Spec.NumInliers cfg e1 s1 n ↔ Spec.NumInliers cfg e2 s2 n := by
  have hl := (arrival_same hs he1 he2 hr w1 w2 hp r1 r2 (by rw [i1, i2]; simp)).graph.length_eq
  obtain ⟨po, _, _⟩ := SameByParts.perms hp
  have half : ∀ {e : Env G N} {h : List (Op G N)} {o : Op G N} {s : St G T N}, e.Ok → (∀ op ∈ h ++ [o], Spec.Managed op) →
      Spec.opCands cfg o ≠ [] → ReachOk cfg e (h ++ [o]) s → getIgnored cfg s = [] →
      s.nfg.length = (Spec.odomSoFar cfg (h ++ [o])).length + (Spec.specialSoFar cfg (h ++ [o])).length + s.pcm.totalGood := by
    intro e h o s he hm hc r hi
    obtain ⟨s0, x, r0, ex⟩ := r.snoc_inv
    refine Props.C20_graph_size he hr hg r0 (fun op m => hm op (by simp [m])) hc ex ?_ ((Props.numInliers_iff hr hg).2 rfl)
    cases hb : Spec.batch o with
    | none => simp [Spec.opCands, hb] at hc
    | some y =>
      obtain ⟨fs, vs⟩ := y
      unfold getIgnored at hi ⊢
      rw [if_pos hr] at hi ⊢
      rw [← hi, ((exec_batch e hr hb s0).1 s x ex).lists.2.2]
  have a1 := half he1 w1.managed c1 r1 i1
  have a2 := half he2 w2.managed c2 r2 i2
  rw [Props.numInliers_iff hr hg, Props.numInliers_iff hr hg]
  have b1 := po.length_eq
  have b2 := hp.others.length_eq
  have : s1.pcm.totalGood = s2.pcm.totalGood := by omega
  rw [this]

/-! ### Swapping two calls -/

omit [Mul G] [Inv G] [One G] in
theorem flatMap_swap {α β : Type} {f : α → List β} {g t : List α} {o1 o2 : α} (h : f o1 = [] ∨ f o2 = []) :
    (g ++ o1 :: o2 :: t).flatMap f = (g ++ o2 :: o1 :: t).flatMap f := by
  simp only [List.flatMap_append, List.flatMap_cons]
  rcases h with h | h <;> simp [h]

theorem specialFold_perm {cfg : Cfg G T N} (t : List (Op G N)) {l l' : List (Factor G N)} (h : l.Perm l') :
    (t.foldl (Spec.specialStep cfg) l).Perm (t.foldl (Spec.specialStep cfg) l') := by
  induction t generalizing l l' with
  | nil => exact h
  | cons op t ih =>
    refine ih ?_
    unfold Spec.specialStep
    cases op <;> first | exact h | exact h.append_right _ | exact h.filter _

theorem SameByParts.swap {cfg : Cfg G T N} {start : Chr → Key} {g t : List (Op G N)} {o1 o2 : Op G N}
    (hc : Spec.Chains cfg start (g ++ o1 :: o2 :: t)) (b1 : (Spec.batch o1).isSome) (b2 : (Spec.batch o2).isSome)
    (ha : Spec.Apart cfg o1 o2) : Spec.SameByParts cfg (g ++ o1 :: o2 :: t) (g ++ o2 :: o1 :: t) := by
  have hpc : ∀ a b, Spec.pairCands cfg a b o1 = [] ∨ Spec.pairCands cfg a b o2 = [] := by
    intro a b
    by_contra hh
    obtain ⟨n1, n2⟩ := not_or.1 hh
    obtain ⟨x, hx⟩ := List.exists_mem_of_ne_nil _ n1
    obtain ⟨y, hy⟩ := List.exists_mem_of_ne_nil _ n2
    obtain ⟨mx, qx⟩ := List.mem_filter.1 hx
    obtain ⟨my, qy⟩ := List.mem_filter.1 hy
    refine (ha x (opCands_btws mx) y (opCands_btws my)).1 ?_
    unfold Spec.connects at qx qy
    unfold Spec.SamePair
    rcases of_decide_eq_true qx with h | h <;> rcases of_decide_eq_true qy with h' | h'
    · left; rw [h.1, h.2, h'.1, h'.2]; exact ⟨rfl, rfl⟩
    · right; rw [h.1, h.2, h'.1, h'.2]; exact ⟨rfl, rfl⟩
    · right; rw [h.1, h.2, h'.1, h'.2]; exact ⟨rfl, rfl⟩
    · left; rw [h.1, h.2, h'.1, h'.2]; exact ⟨rfl, rfl⟩
  have hgr : ∀ a b, Spec.pairGroups cfg a b (g ++ o1 :: o2 :: t) = Spec.pairGroups cfg a b (g ++ o2 :: o1 :: t) := by
    intro a b
    unfold Spec.pairGroups
    simp only [List.map_append, List.map_cons, List.filter_append, List.filter_cons]
    rcases hpc a b with h | h <;> simp [h]
  refine ⟨?_, fun a b _ _ => by rw [hgr], fun _ a b _ _ => hgr a b, ?_, ?_, ?_⟩
  · intro c
    unfold Spec.robotOdom Spec.odomSoFar
    rw [List.filter_flatMap, List.filter_flatMap]
    refine flatMap_swap ?_
    by_contra hh
    obtain ⟨n1, n2⟩ := not_or.1 hh
    obtain ⟨x, hx⟩ := List.exists_mem_of_ne_nil _ n1
    obtain ⟨y, hy⟩ := List.exists_mem_of_ne_nil _ n2
    obtain ⟨mx, qx⟩ := List.mem_filter.1 hx
    obtain ⟨my, qy⟩ := List.mem_filter.1 hy
    have ends := chain_ends (hc c).1 (hc c).2.1 (fun z hz => by simpa using (List.mem_filter.1 hz).2)
    have inb : ∀ {o : Op G N} {z : Btw G N}, z ∈ Spec.opOdom cfg o → z ∈ Spec.opBtws o := by
      intro o z hz
      unfold Spec.opOdom at hz
      unfold Spec.opBtws
      cases hb : Spec.batch o with
      | none => rw [hb] at hz; cases hz
      | some w => rw [hb] at hz; exact (List.mem_filter.1 hz).1
    have k1 := ends x (List.mem_filter.2 ⟨List.mem_flatMap.2 ⟨o1, by simp, mx⟩, qx⟩)
    have k2 := ends y (List.mem_filter.2 ⟨List.mem_flatMap.2 ⟨o2, by simp, my⟩, qy⟩)
    refine (ha x (inb mx) y (inb my)).1 (Or.inl ⟨by rw [k1, k2], ?_⟩)
    rw [beq_iff_eq] at qx qy
    rw [qx, qy]
  · intro l
    unfold Spec.lmSoFar
    refine flatMap_swap ?_
    by_contra hh
    obtain ⟨n1, n2⟩ := not_or.1 hh
    obtain ⟨x, hx⟩ := List.exists_mem_of_ne_nil _ n1
    obtain ⟨y, hy⟩ := List.exists_mem_of_ne_nil _ n2
    have inb : ∀ {o : Op G N} {z : Bool × Btw G N}, z ∈ Spec.lmSeen cfg l o → z.2 ∈ Spec.opBtws o ∧ Spec.isLandmark cfg z.2 = true := by
      intro o z hz
      unfold Spec.lmSeen at hz
      rcases List.mem_append.1 hz with hz | hz
      · obtain ⟨b, hb, rfl⟩ := List.mem_map.1 hz
        rw [lmFirsts_eq] at hb
        exact opFirsts_btws (List.mem_filter.1 hb).1
      · obtain ⟨b, hb, rfl⟩ := List.mem_map.1 hz
        obtain ⟨m, q⟩ := List.mem_filter.1 hb
        rw [Bool.and_eq_true] at q
        exact ⟨opCands_btws m, q.1⟩
    obtain ⟨bx, lx⟩ := inb hx
    obtain ⟨by', ly⟩ := inb hy
    exact (ha x.2 bx y.2 by').2 lx ly (by rw [LandFed.seen_of hx, LandFed.seen_of hy])
  · unfold Spec.specialSoFar
    rw [List.foldl_append, List.foldl_append, List.foldl_cons, List.foldl_cons, List.foldl_cons, List.foldl_cons]
    refine specialFold_perm t ?_
    generalize g.foldl (Spec.specialStep cfg) [] = l
    have hstep : ∀ {o : Op G N}, (Spec.batch o).isSome → ∃ k, ∀ l, Spec.specialStep cfg l o = l ++ k := by
      intro o ho
      cases o <;> first | exact ⟨_, fun l => rfl⟩ | simp [Spec.batch] at ho
    obtain ⟨k1, q1⟩ := hstep b1
    obtain ⟨k2, q2⟩ := hstep b2
    rw [q1, q2, q2, q1, List.append_assoc, List.append_assoc]
    exact List.Perm.append_left _ List.perm_append_comm
  · intro k
    simp only [List.mem_append, List.mem_cons]
    constructor
    · rintro ⟨op, h | h | h | h, hk⟩
      · exact ⟨op, Or.inl h, hk⟩
      · exact ⟨op, Or.inr (Or.inr (Or.inl h)), hk⟩
      · exact ⟨op, Or.inr (Or.inl h), hk⟩
      · exact ⟨op, Or.inr (Or.inr (Or.inr h)), hk⟩
    · rintro ⟨op, h | h | h | h, hk⟩
      · exact ⟨op, Or.inl h, hk⟩
      · exact ⟨op, Or.inr (Or.inr (Or.inl h)), hk⟩
      · exact ⟨op, Or.inr (Or.inl h), hk⟩
      · exact ⟨op, Or.inr (Or.inr (Or.inr h)), hk⟩

omit [Mul G] [Inv G] [One G] in
theorem SameByParts.trans {cfg : Cfg G T N} {h1 h2 h3 : List (Op G N)} (a : Spec.SameByParts cfg h1 h2)
    (b : Spec.SameByParts cfg h2 h3) : Spec.SameByParts cfg h1 h3 :=
  ⟨fun c => (a.robots c).trans (b.robots c), fun c d h h' => (a.pairs c d h h').trans (b.pairs c d h h'),
    fun hi c d h h' => (a.groups hi c d h h').trans (b.groups hi c d h h'), fun l => (a.landmarks l).trans (b.landmarks l),
    a.others.trans b.others, fun k => (a.keys k).trans (b.keys k)⟩

omit [Mul G] [Inv G] [One G] in
theorem lastCall_filter {α : Type} (p : α → Bool) {x y : α} (hx : p x = true) (hy : p y = true) (h : List α) :
    (∃ h1 h2, h = h1 ++ x :: h2 ∧ y ∉ h2) ↔ ∃ h1 h2, h.filter p = h1 ++ x :: h2 ∧ y ∉ h2 := by
  constructor
  · rintro ⟨h1, h2, rfl, hn⟩
    refine ⟨h1.filter p, h2.filter p, ?_, fun m => hn (List.mem_filter.1 m).1⟩
    rw [List.filter_append, List.filter_cons_of_pos hx]
  · rintro ⟨h1, h2, e, hn⟩
    obtain ⟨u, v, rfl, e1, e2⟩ := List.filter_eq_append_iff.1 e
    obtain ⟨w1, w2, rfl, _, _, e3⟩ := List.filter_eq_cons_iff.1 e2
    refine ⟨u ++ w1, w2, by simp, fun m => hn ?_⟩
    rw [← e3]
    exact List.mem_filter.2 ⟨m, hy⟩

/-- Swapping updates does not change which prefixes are ignored. -/
theorem swap_ignored {cfg : Cfg G T N} (hr : cfg.rejection = true) {e1 e2 : Env G N} {g t : List (Op G N)} {o1 o2 : Op G N}
    (b1 : (Spec.batch o1).isSome) (b2 : (Spec.batch o2).isSome) {s1 s2 : St G T N}
    (r1 : ReachOk cfg e1 (g ++ o1 :: o2 :: t) s1) (r2 : ReachOk cfg e2 (g ++ o2 :: o1 :: t) s2) :
    ∀ c, c ∈ getIgnored cfg s1 ↔ c ∈ getIgnored cfg s2 := by
  intro c
  rw [(Props.C24_ignored_set hr r1.reach).2 c, (Props.C24_ignored_set hr r2.reach).2 c,
    lastCall_filter (fun o => !(Spec.batch o).isSome) rfl rfl (g ++ o1 :: o2 :: t),
    lastCall_filter (fun o => !(Spec.batch o).isSome) rfl rfl (g ++ o2 :: o1 :: t)]
  have : (g ++ o1 :: o2 :: t).filter (fun o => !(Spec.batch o).isSome) = (g ++ o2 :: o1 :: t).filter fun o => !(Spec.batch o).isSome := by
    simp only [List.filter_append, List.filter_cons, b1, b2, Bool.not_true, Bool.false_eq_true, if_false]
  rw [this]

end RPGO

namespace RPGO.Props
variable {G C K : Type} [Mul G] [Inv G] [One G] [Field K] [LinearOrder K]

/-- C73 (PCM_Simple2D / 3D): two histories that supply the same odometry of every robot, the same closures of every pair of
robots and the same observations of every landmark, interleaved in any two ways, leave the same factors in the graph, with
the same estimates keys, closures, matrices and number of closures, whatever the values, the optimizers and the orders in
which the hash tables are visited. Partial: histories are as `Spec.WellFed` says, the number of inliers is not covered. -/
theorem C73_any_arrival_partial {G : Type} [Group G] (p : Params K) (tn rn : G → K) (signed : Bool) (hm : p.method ≠ .none)
    {e1 e2 : Env G (GNoise C)} (he1 : e1.Ok) (he2 : e2.Ok) {start : Chr → Key} {owner : Key → Chr}
    {h1 h2 : List (Op G (GNoise C))} (w1 : Spec.WellFed (p.cfgSimple C tn rn signed) start owner h1)
    (w2 : Spec.WellFed (p.cfgSimple C tn rn signed) start owner h2) (hp : Spec.SameByParts (p.cfgSimple C tn rn signed) h1 h2)
    {s1 s2 : St G (PNode G) (GNoise C)} (r1 : ReachOk (p.cfgSimple C tn rn signed) e1 h1 s1)
    (r2 : ReachOk (p.cfgSimple C tn rn signed) e2 h2 s2)
    (hig : ∀ c, c ∈ getIgnored (p.cfgSimple C tn rn signed) s1 ↔ c ∈ getIgnored (p.cfgSimple C tn rn signed) s2) :
    Spec.SameContent (p.cfgSimple C tn rn signed) e1 e2 s1 s2 :=
  arrival_same (node_startFree tn rn _ _ _ _) he1 he2 (by simp [Params.cfgSimple, Params.cfg, hm]) w1 w2 hp r1 r2 hig

/-- C73 for PCM2D / PCM3D. -/
theorem C73_any_arrival_cov_partial {G : Type} [Group G] [AddGroup C] (p : Params K) (ce : CovEnv G C K) (signed : Bool) (hm : p.method ≠ .none)
    {e1 e2 : Env G (GNoise C)} (he1 : e1.Ok) (he2 : e2.Ok) {start : Chr → Key} {owner : Key → Chr}
    {h1 h2 : List (Op G (GNoise C))} (w1 : Spec.WellFed (p.cfgCov ce signed) start owner h1)
    (w2 : Spec.WellFed (p.cfgCov ce signed) start owner h2) (hp : Spec.SameByParts (p.cfgCov ce signed) h1 h2)
    {s1 s2 : St G (PCov G C) (GNoise C)} (r1 : ReachOk (p.cfgCov ce signed) e1 h1 s1)
    (r2 : ReachOk (p.cfgCov ce signed) e2 h2 s2)
    (hig : ∀ c, c ∈ getIgnored (p.cfgCov ce signed) s1 ↔ c ∈ getIgnored (p.cfgCov ce signed) s2) :
    Spec.SameContent (p.cfgCov ce signed) e1 e2 s1 s2 :=
  arrival_same (cov_startFree ce _ _) he1 he2 (by simp [Params.cfgCov, Params.cfg, hm]) w1 w2 hp r1 r2 hig

/-- C73: if both histories end with a call that carries a loop-closure candidate and nothing is ignored, the numbers of
inliers agree as well (without GNC). -/
theorem C73_inliers_partial {G : Type} [Group G] (p : Params K) (tn rn : G → K) (signed : Bool) (hm : p.method ≠ .none) (hg : p.useGnc = false)
    {e1 e2 : Env G (GNoise C)} (he1 : e1.Ok) (he2 : e2.Ok) {start : Chr → Key} {owner : Key → Chr}
    {h1 h2 : List (Op G (GNoise C))} {o1 o2 : Op G (GNoise C)}
    (w1 : Spec.WellFed (p.cfgSimple C tn rn signed) start owner (h1 ++ [o1]))
    (w2 : Spec.WellFed (p.cfgSimple C tn rn signed) start owner (h2 ++ [o2]))
    (hp : Spec.SameByParts (p.cfgSimple C tn rn signed) (h1 ++ [o1]) (h2 ++ [o2]))
    (c1 : Spec.opCands (p.cfgSimple C tn rn signed) o1 ≠ []) (c2 : Spec.opCands (p.cfgSimple C tn rn signed) o2 ≠ [])
    {s1 s2 : St G (PNode G) (GNoise C)} (r1 : ReachOk (p.cfgSimple C tn rn signed) e1 (h1 ++ [o1]) s1)
    (r2 : ReachOk (p.cfgSimple C tn rn signed) e2 (h2 ++ [o2]) s2)
    (i1 : getIgnored (p.cfgSimple C tn rn signed) s1 = []) (i2 : getIgnored (p.cfgSimple C tn rn signed) s2 = []) (n : Nat) :
    Spec.NumInliers (p.cfgSimple C tn rn signed) e1 s1 n ↔ Spec.NumInliers (p.cfgSimple C tn rn signed) e2 s2 n :=
  arrival_inliers (node_startFree tn rn _ _ _ _) he1 he2 (by simp [Params.cfgSimple, Params.cfg, hm])
    (by simpa [Params.cfgSimple, Params.cfg] using hg) w1 w2 hp c1 c2 r1 r2 i1 i2 n

/-- C73: two updates in a row that are not about the same two robots, nor about the same robot, nor about the same landmark,
may be swapped anywhere in a history. -/
theorem C73_swap_partial {G : Type} [Group G] (p : Params K) (tn rn : G → K) (signed : Bool) (hm : p.method ≠ .none)
    {e1 e2 : Env G (GNoise C)} (he1 : e1.Ok) (he2 : e2.Ok) {start : Chr → Key} {owner : Key → Chr}
    {g t : List (Op G (GNoise C))} {o1 o2 : Op G (GNoise C)} (b1 : (Spec.batch o1).isSome) (b2 : (Spec.batch o2).isSome)
    (ha : Spec.Apart (p.cfgSimple C tn rn signed) o1 o2)
    (w1 : Spec.WellFed (p.cfgSimple C tn rn signed) start owner (g ++ o1 :: o2 :: t))
    (w2 : Spec.WellFed (p.cfgSimple C tn rn signed) start owner (g ++ o2 :: o1 :: t))
    {s1 s2 : St G (PNode G) (GNoise C)} (r1 : ReachOk (p.cfgSimple C tn rn signed) e1 (g ++ o1 :: o2 :: t) s1)
    (r2 : ReachOk (p.cfgSimple C tn rn signed) e2 (g ++ o2 :: o1 :: t) s2) :
    Spec.SameContent (p.cfgSimple C tn rn signed) e1 e2 s1 s2 :=
  have hr : (p.cfgSimple C tn rn signed).rejection = true := by simp [Params.cfgSimple, Params.cfg, hm]
  arrival_same (node_startFree tn rn _ _ _ _) he1 he2 hr w1 w2 (SameByParts.swap w1.chains b1 b2 ha) r1 r2 (swap_ignored hr b1 b2 r1 r2)

/-- C73, swapping two updates, for PCM2D / PCM3D. -/
theorem C73_swap_cov_partial {G : Type} [Group G] [AddGroup C] (p : Params K) (ce : CovEnv G C K) (signed : Bool) (hm : p.method ≠ .none)
    {e1 e2 : Env G (GNoise C)} (he1 : e1.Ok) (he2 : e2.Ok) {start : Chr → Key} {owner : Key → Chr}
    {g t : List (Op G (GNoise C))} {o1 o2 : Op G (GNoise C)} (b1 : (Spec.batch o1).isSome) (b2 : (Spec.batch o2).isSome)
    (ha : Spec.Apart (p.cfgCov ce signed) o1 o2)
    (w1 : Spec.WellFed (p.cfgCov ce signed) start owner (g ++ o1 :: o2 :: t))
    (w2 : Spec.WellFed (p.cfgCov ce signed) start owner (g ++ o2 :: o1 :: t))
    {s1 s2 : St G (PCov G C) (GNoise C)} (r1 : ReachOk (p.cfgCov ce signed) e1 (g ++ o1 :: o2 :: t) s1)
    (r2 : ReachOk (p.cfgCov ce signed) e2 (g ++ o2 :: o1 :: t) s2) :
    Spec.SameContent (p.cfgCov ce signed) e1 e2 s1 s2 :=
  have hr : (p.cfgCov ce signed).rejection = true := by simp [Params.cfgCov, Params.cfg, hm]
  arrival_same (cov_startFree ce _ _) he1 he2 hr w1 w2 (SameByParts.swap w1.chains b1 b2 ha) r1 r2 (swap_ignored hr b1 b2 r1 r2)

/-- Odometry of two robots. -/
def beginning : List (Op Demo.Z Demo.Ns) :=
  [.update [Demo.edge (Demo.a 0) (Demo.a 1) 1, Demo.edge (Demo.a 1) (Demo.a 2) 1, Demo.edge (Demo.b 0) (Demo.b 1) 1]
     [Demo.pose (Demo.a 0) 7, Demo.pose (Demo.a 1) 7, Demo.pose (Demo.a 2) 9, Demo.pose (Demo.b 0) 0, Demo.pose (Demo.b 1) 1] true]

/-- Observations by robot `a` and a closure of robot `a`. -/
def seenByA : Op Demo.Z Demo.Ns :=
  .update [Demo.edge (Demo.a 0) (Demo.l 0) 2, Demo.edge (Demo.a 0) (Demo.a 2) 2] [Demo.pose (Demo.l 0) 5] true

/-- More odometry of `b`, a prior, and closures between the robots. -/
def between : Op Demo.Z Demo.Ns :=
  .update [Demo.edge (Demo.b 1) (Demo.b 2) 1, some (.prior (Demo.b 0) (Demo.z 0)), Demo.edge (Demo.a 0) (Demo.b 0) 3,
    Demo.edge (Demo.b 1) (Demo.a 1) (-3), Demo.edge (Demo.a 0) (Demo.b 1) 50] [Demo.pose (Demo.b 2) 2] false

/-- A further observation and a further closure. -/
def ending : List (Op Demo.Z Demo.Ns) :=
  [.ignore 99, .update [Demo.edge (Demo.a 1) (Demo.l 0) 1, Demo.edge (Demo.a 2) (Demo.b 2) 3] [] true]

set_option maxRecDepth 100000 in
/-- The hypotheses of C73 are met when `seenByA` and `between` are swapped: the graphs hold ten factors each. -/
example : demoLandmarks = landParams.cfgSimple Unit Demo.len (fun _ => 0) true ∧ landParams.method ≠ .none ∧
    Spec.Apart demoLandmarks seenByA between ∧
    Spec.WellFed demoLandmarks (fun c => symKey c 0) (fun _ => 97) (beginning ++ seenByA :: between :: ending) ∧
    Spec.WellFed demoLandmarks (fun c => symKey c 0) (fun _ => 97) (beginning ++ between :: seenByA :: ending) ∧
    (∃ s, ReachOk demoLandmarks Demo.env (beginning ++ seenByA :: between :: ending) s ∧ s.nfg.length = 10) ∧
    ∃ s, ReachOk demoLandmarks Demo.env (beginning ++ between :: seenByA :: ending) s ∧ s.nfg.length = 10 := by
  have hm : ∀ op ∈ beginning ++ [seenByA, between] ++ ending, Spec.Managed op ∧ ¬ Spec.Removes op := by
    intro op ho
    simp [beginning, seenByA, between, ending] at ho
    rcases ho with rfl | rfl | rfl | rfl | rfl <;> exact ⟨trivial, fun h => h⟩
  refine ⟨rfl, by decide, ?_, ⟨fun op ho => (hm op (by simpa using ho)).1, fun op ho => (hm op (by simpa using ho)).2,
      chains_of (by decide +kernel), onOdometry_of (by decide +kernel), keysKnown_of (by decide +kernel),
      by unfold Spec.OneObserver; decide +kernel⟩,
    ⟨fun op ho => (hm op (by simp at ho ⊢; tauto)).1, fun op ho => (hm op (by simp at ho ⊢; tauto)).2,
      chains_of (by decide +kernel), onOdometry_of (by decide +kernel), keysKnown_of (by decide +kernel),
      by unfold Spec.OneObserver; decide +kernel⟩, ?_, ?_⟩
  · unfold Spec.Apart Spec.SamePair; decide +kernel
  · obtain ⟨s, r, h⟩ := Demo.runs_reach (cfg := demoLandmarks) (env := Demo.env) (ops := beginning ++ seenByA :: between :: ending)
      (P := fun s => decide (s.nfg.length = 10)) (by decide +kernel)
    exact ⟨s, r, of_decide_eq_true h⟩
  · obtain ⟨s, r, h⟩ := Demo.runs_reach (cfg := demoLandmarks) (env := Demo.env) (ops := beginning ++ between :: seenByA :: ending)
      (P := fun s => decide (s.nfg.length = 10)) (by decide +kernel)
    exact ⟨s, r, of_decide_eq_true h⟩

/-- The first observation of a landmark alone. -/
def firstOnly : Op Demo.Z Demo.Ns := .update [Demo.edge (Demo.a 0) (Demo.l 0) 2] [Demo.pose (Demo.l 0) 5] true

/-- A closure between the robots alone. -/
def closureOnly : Op Demo.Z Demo.Ns := .update [Demo.edge (Demo.a 0) (Demo.b 0) 3] [] true

set_option maxRecDepth 100000 in
/-- C73, the full claim is false for the number of inliers: when the first observation of a landmark and a closure of other
robots are swapped, `getNumLCInliers()` returns 2 or 1, although the graphs hold the same factors. -/
theorem C73_false_inliers :
    Spec.Apart demoLandmarks firstOnly closureOnly ∧
    Spec.WellFed demoLandmarks (fun c => symKey c 0) (fun _ => 97) (beginning ++ firstOnly :: closureOnly :: []) ∧
    Spec.WellFed demoLandmarks (fun c => symKey c 0) (fun _ => 97) (beginning ++ closureOnly :: firstOnly :: []) ∧
    (∃ s, ReachOk demoLandmarks Demo.env (beginning ++ firstOnly :: closureOnly :: []) s ∧ Spec.NumInliers demoLandmarks Demo.env s 2) ∧
    ∃ s, ReachOk demoLandmarks Demo.env (beginning ++ closureOnly :: firstOnly :: []) s ∧ Spec.NumInliers demoLandmarks Demo.env s 1 := by
  have hm : ∀ op ∈ beginning ++ [firstOnly, closureOnly], Spec.Managed op ∧ ¬ Spec.Removes op := by
    intro op ho
    simp [beginning, firstOnly, closureOnly] at ho
    rcases ho with rfl | rfl | rfl <;> exact ⟨trivial, fun h => h⟩
  refine ⟨by unfold Spec.Apart Spec.SamePair; decide +kernel,
    ⟨fun op ho => (hm op (by simpa using ho)).1, fun op ho => (hm op (by simpa using ho)).2,
      chains_of (by decide +kernel), onOdometry_of (by decide +kernel), keysKnown_of (by decide +kernel),
      by unfold Spec.OneObserver; decide +kernel⟩,
    ⟨fun op ho => (hm op (by simp at ho ⊢; tauto)).1, fun op ho => (hm op (by simp at ho ⊢; tauto)).2,
      chains_of (by decide +kernel), onOdometry_of (by decide +kernel), keysKnown_of (by decide +kernel),
      by unfold Spec.OneObserver; decide +kernel⟩, ?_, ?_⟩
  · obtain ⟨s, r, h⟩ := Demo.runs_reach (cfg := demoLandmarks) (env := Demo.env) (ops := beginning ++ firstOnly :: closureOnly :: [])
      (P := fun s => decide (s.pcm.totalGood = 2)) (by decide +kernel)
    exact ⟨s, r, (numInliers_iff rfl rfl).2 (of_decide_eq_true h).symm⟩
  · obtain ⟨s, r, h⟩ := Demo.runs_reach (cfg := demoLandmarks) (env := Demo.env) (ops := beginning ++ closureOnly :: firstOnly :: [])
      (P := fun s => decide (s.pcm.totalGood = 1)) (by decide +kernel)
    exact ⟨s, r, (numInliers_iff rfl rfl).2 (of_decide_eq_true h).symm⟩

/-- A closure that contradicts the one of `closureOnly`. -/
def otherClosure : Op Demo.Z Demo.Ns := .update [Demo.edge (Demo.a 0) (Demo.b 0) 50] [] true

set_option maxRecDepth 100000 in
/-- C73, the full claim is false for two updates about the same two robots: of two contradicting closures the one that
arrives first is kept. -/
theorem C73_false_same_pair :
    Spec.WellFed demoLandmarks (fun c => symKey c 0) (fun _ => 97) (beginning ++ closureOnly :: otherClosure :: []) ∧
    Spec.WellFed demoLandmarks (fun c => symKey c 0) (fun _ => 97) (beginning ++ otherClosure :: closureOnly :: []) ∧
    (∃ s, ReachOk demoLandmarks Demo.env (beginning ++ closureOnly :: otherClosure :: []) s ∧
      Demo.edge (Demo.a 0) (Demo.b 0) 3 ∈ s.nfg ∧ Demo.edge (Demo.a 0) (Demo.b 0) 50 ∉ s.nfg) ∧
    ∃ s, ReachOk demoLandmarks Demo.env (beginning ++ otherClosure :: closureOnly :: []) s ∧
      Demo.edge (Demo.a 0) (Demo.b 0) 50 ∈ s.nfg ∧ Demo.edge (Demo.a 0) (Demo.b 0) 3 ∉ s.nfg := by
  have hm : ∀ op ∈ beginning ++ [closureOnly, otherClosure], Spec.Managed op ∧ ¬ Spec.Removes op := by
    intro op ho
    simp [beginning, otherClosure, closureOnly] at ho
    rcases ho with rfl | rfl | rfl <;> exact ⟨trivial, fun h => h⟩
  refine ⟨⟨fun op ho => (hm op (by simpa using ho)).1, fun op ho => (hm op (by simpa using ho)).2,
      chains_of (by decide +kernel), onOdometry_of (by decide +kernel), keysKnown_of (by decide +kernel),
      by unfold Spec.OneObserver; decide +kernel⟩,
    ⟨fun op ho => (hm op (by simp at ho ⊢; tauto)).1, fun op ho => (hm op (by simp at ho ⊢; tauto)).2,
      chains_of (by decide +kernel), onOdometry_of (by decide +kernel), keysKnown_of (by decide +kernel),
      by unfold Spec.OneObserver; decide +kernel⟩, ?_, ?_⟩
  · obtain ⟨s, r, h⟩ := Demo.runs_reach (cfg := demoLandmarks) (env := Demo.env) (ops := beginning ++ closureOnly :: otherClosure :: [])
      (P := fun s => decide (Demo.edge (Demo.a 0) (Demo.b 0) 3 ∈ s.nfg ∧ Demo.edge (Demo.a 0) (Demo.b 0) 50 ∉ s.nfg)) (by decide +kernel)
    exact ⟨s, r, of_decide_eq_true h⟩
  · obtain ⟨s, r, h⟩ := Demo.runs_reach (cfg := demoLandmarks) (env := Demo.env) (ops := beginning ++ otherClosure :: closureOnly :: [])
      (P := fun s => decide (Demo.edge (Demo.a 0) (Demo.b 0) 50 ∈ s.nfg ∧ Demo.edge (Demo.a 0) (Demo.b 0) 3 ∉ s.nfg)) (by decide +kernel)
    exact ⟨s, r, of_decide_eq_true h⟩

end RPGO.Props
