import Verif.Props.Robust
import Verif.Props.Arrival
import Mathlib.Data.Multiset.Basic
/-
C86 incremental and batch selection compared.
-/

namespace RPGO
variable {G T N : Type}

/-- Same configuration, the other selection mode or the same (SolverParams.h:55, 104, `setIncremental`). -/
def Cfg.withMode (cfg : Cfg G T N) (inc : Bool) : Cfg G T N := { cfg with incremental := inc }

namespace Spec

/-- Of the pair `id` at most one closure is registered, or the registered ones contain a leading group. -/
def Decided (s : St G T N) (id : ObsId) : Prop := (registered s id).length ≤ 1 ∨ ∃ I, LeadingGroup s id I

/-- What two solvers hold that were given the same calls, one with incremental selection and the other without: the
same closures are registered, with the same verdicts, the same observations are registered and accepted, the same values
are held and the same number of closures is reported. -/
structure SameRegistered [Mul G] [Inv G] [One G] (c1 c2 : Cfg G T N) (e1 e2 : Env G N) (s1 s2 : St G T N) : Prop where
  keys : s1.values.keys = s2.values.keys
  registered : ∀ id, Spec.registered s1 id = Spec.registered s2 id
  matrix : ∀ id, Spec.matrix s1 id = Spec.matrix s2 id
  observed : ∀ l, Spec.observed s1 l = Spec.observed s2 l
  landMatrix : ∀ l, Spec.landMatrix s1 l = Spec.landMatrix s2 l
  accepted : ∀ l, Spec.acceptedOf s1 l = Spec.acceptedOf s2 l
  count : ∀ n, NumLC c1 e1 s1 n ↔ NumLC c2 e2 s2 n

end Spec

theorem PairFed.mode {cfg : Cfg G T N} {start : Chr → Key} {a b : Chr} {h : List (Op G N)} (i : Bool)
    (w : Spec.PairFed cfg start a b h) : Spec.PairFed (cfg.withMode i) start a b h :=
  ⟨w.spares, w.poses, w.begins, w.chains, w.short, w.reached, w.known⟩

theorem LandFed.mode {cfg : Cfg G T N} {start : Chr → Key} {c : Chr} {l : Key} {h : List (Op G N)} (i : Bool)
    (w : Spec.LandFed cfg start c l h) : Spec.LandFed (cfg.withMode i) start c l h :=
  ⟨w.begins, w.chain, w.short, w.reached, w.known⟩

section
variable [Mul G] [Inv G] [One G]

/-- Along the odometry of a robot the trajectory is a walk from some start. -/
theorem ReachOk.onWalk {cfg : Cfg G T N} {env : Env G N} (hr : cfg.rejection = true) {h : List (Op G N)} {s : St G T N}
    (r : ReachOk cfg env h s) {c : Chr} {k : Key} (ch : Spec.Chain k (Spec.robotOdom cfg c h))
    (hl : k.toNat + (Spec.robotOdom cfg c h).length < 2 ^ 64) :
    ∃ t0, IsStart cfg.ops t0 ∧ ∀ j, j ≤ (Spec.robotOdom cfg c h).length →
      lk cfg s.pcm c (Spec.after k j) = walk cfg.ops t0 ((Spec.robotOdom cfg c h).take j) := by
  obtain ⟨w, u⟩ := r.walked hr c k ch hl
  by_cases hL : Spec.robotOdom cfg c h = []
  · refine ⟨cfg.ops.dflt, Or.inl rfl, fun j hj => ?_⟩
    rw [hL] at hj
    have hj : j = 0 := by simpa using hj
    subst hj
    rw [u hL]
    simp [walk]
  · obtain ⟨t0, ht, hw⟩ := w.walk
    exact ⟨t0, ht hL, hw⟩

/-- The same calls in two selection modes give the same relative poses. -/
theorem onChain_modes {cfg : Cfg G T N} (hs : StartFree cfg.ops) {e1 e2 : Env G N} (hr : cfg.rejection = true) {i j : Bool}
    {h : List (Op G N)} {s1 s2 : St G T N} (r1 : ReachOk (cfg.withMode i) e1 h s1) (r2 : ReachOk (cfg.withMode j) e2 h s2)
    {start : Chr → Key} {a b : Key} (ch : Spec.Chain (start (chr a)) (Spec.robotOdom cfg (chr a) h))
    (hl : (start (chr a)).toNat + (Spec.robotOdom cfg (chr a) h).length < 2 ^ 64) (hab : chr a = chr b)
    (ha : Spec.OnChain cfg start h a) (hb : Spec.OnChain cfg start h b) :
    btwn cfg.ops (lk cfg s1.pcm (chr a)) a b = btwn cfg.ops (lk cfg s2.pcm (chr a)) a b := by
  obtain ⟨t0, h0, w0⟩ := r1.onWalk (cfg := cfg.withMode i) hr ch hl
  obtain ⟨t1, h1, w1⟩ := r2.onWalk (cfg := cfg.withMode j) hr ch hl
  obtain ⟨m, hm, ea⟩ := ha
  obtain ⟨n, hn, eb⟩ := hb
  rw [← hab] at hn eb
  have w0 : ∀ j ≤ (Spec.robotOdom cfg (chr a) h).length, lk cfg s1.pcm (chr a) (Spec.after (start (chr a)) j) =
    walk cfg.ops t0 ((Spec.robotOdom cfg (chr a) h).take j) := w0
  have w1 : ∀ j ≤ (Spec.robotOdom cfg (chr a) h).length, lk cfg s2.pcm (chr a) (Spec.after (start (chr a)) j) =
    walk cfg.ops t1 ((Spec.robotOdom cfg (chr a) h).take j) := w1
  unfold btwn
  rw [if_pos hab, if_pos hab]
  have e1 := w0 m hm
  have e2 := w0 n hn
  have e3 := w1 m hm
  have e4 := w1 n hn
  rw [← ea] at e1 e3
  rw [← eb] at e2 e4
  rw [e1, e2, e3, e4]
  exact hs t0 t1 h0 h1 _ _

/-- The same calls in two selection modes give the same verdicts on closures. -/
theorem fine_modes {cfg : Cfg G T N} (hs : StartFree cfg.ops) {e1 e2 : Env G N} (hr : cfg.rejection = true) {i j : Bool}
    {h : List (Op G N)} {s1 s2 : St G T N} (r1 : ReachOk (cfg.withMode i) e1 h s1) (r2 : ReachOk (cfg.withMode j) e2 h s2)
    {start : Chr → Key} {a b : Chr} (hf : Spec.PairFed cfg start a b h) :
    (∀ x, PairFed.Fine cfg start a b h x →
      (decide (chr x.k1 ≠ chr x.k2) || odomVerdict cfg (lk cfg s1.pcm) x) =
        (decide (chr x.k1 ≠ chr x.k2) || odomVerdict cfg (lk cfg s2.pcm) x)) ∧
    ∀ x y, PairFed.Fine cfg start a b h x → PairFed.Fine cfg start a b h y →
      loopVerdict cfg (lk cfg s1.pcm) x y = loopVerdict cfg (lk cfg s2.pcm) x y := by
  have key : ∀ {p q : Key}, chr p = a ∨ chr p = b → chr p = chr q → Spec.OnChain cfg start h p → Spec.OnChain cfg start h q →
      btwn cfg.ops (lk cfg s1.pcm (chr p)) p q = btwn cfg.ops (lk cfg s2.pcm (chr p)) p q := fun hd hab hp hq =>
    onChain_modes hs hr r1 r2 (hf.chains _ hd) (hf.short _ hd) hab hp hq
  constructor
  · intro x hx
    by_cases hc : chr x.k1 = chr x.k2
    · unfold odomVerdict odomErr
      rw [key hx.ends.1 hc hx.2.1 hx.2.2.1]
    · simp [hc]
  · intro x y hx hy
    have hp := hx.pair hy
    obtain ⟨d1, d2⟩ := hx.ends
    obtain ⟨_, o1, o2, _⟩ := hx
    obtain ⟨_, o3, o4, _⟩ := hy
    unfold loopVerdict loopErr
    by_cases hsw : chr x.k1 = chr y.k1
    · have h2 : chr x.k2 = chr y.k2 := by
        rcases hp with hp | hp
        · exact hp.2
        · rw [hp.2, ← hsw, hp.1]
      simp only [hsw, ne_eq, not_true_eq_false, if_false]
      rw [← hsw, key d1 hsw o1 o3, key d2 h2 o2 o4]
    · have h1 : chr x.k1 = chr y.k2 ∧ chr x.k2 = chr y.k1 := by
        rcases hp with hp | hp
        · exact absurd hp.1 hsw
        · exact hp
      simp only [hsw, ne_eq, not_false_eq_true, if_true]
      rw [key d1 h1.1 o1 o4, key d2 h1.2 o2 o3]

/-- The same closures are registered, with the same matrix. -/
theorem pair_modes {cfg : Cfg G T N} (hs : StartFree cfg.ops) {e1 e2 : Env G N} (hr : cfg.rejection = true) {i j : Bool}
    {h : List (Op G N)} {s1 s2 : St G T N} (r1 : ReachOk (cfg.withMode i) e1 h s1) (r2 : ReachOk (cfg.withMode j) e2 h s2)
    {start : Chr → Key} {a b : Chr} (hf : Spec.PairFed cfg start a b h) :
    (lcOf s1.pcm ⟨a, b⟩).factors = (lcOf s2.pcm ⟨a, b⟩).factors ∧ (lcOf s1.pcm ⟨a, b⟩).adj = (lcOf s2.pcm ⟨a, b⟩).adj := by
  obtain ⟨vo, vl⟩ := fine_modes hs hr r1 r2 hf
  have q1 : lcOf s1.pcm ⟨a, b⟩ = (Spec.pairGroups cfg a b h).foldl (groupStep (cfg.withMode i)
      (fun x => decide (chr x.k1 ≠ chr x.k2) || odomVerdict cfg (lk cfg s2.pcm) x) (lk cfg s2.pcm)) Meas.empty := by
    refine (pair_groups_eq (cfg := cfg.withMode i) hs hr r1 r1 (PairFed.mode i hf) (PairFed.mode i hf)
      (fun c _ => List.prefix_refl _)).trans ?_
    exact groupFold_congr (cfg := cfg.withMode i) (P := PairFed.Fine cfg start a b h) vo vl _ (PairFed.fine_groups hf) _ (by simp [Meas.empty])
  have q2 : lcOf s2.pcm ⟨a, b⟩ = (Spec.pairGroups cfg a b h).foldl (groupStep (cfg.withMode j)
      (fun x => decide (chr x.k1 ≠ chr x.k2) || odomVerdict cfg (lk cfg s2.pcm) x) (lk cfg s2.pcm)) Meas.empty :=
    pair_groups_eq (cfg := cfg.withMode j) hs hr r2 r2 (PairFed.mode j hf) (PairFed.mode j hf) (fun c _ => List.prefix_refl _)
  have b1 := groupFold_bare (cfg := cfg.withMode i) (acc := fun x => decide (chr x.k1 ≠ chr x.k2) || odomVerdict cfg (lk cfg s2.pcm) x)
    (f := lk cfg s2.pcm) (Spec.pairGroups cfg a b h) Meas.empty
  have b2 := groupFold_bare (cfg := cfg.withMode j) (acc := fun x => decide (chr x.k1 ≠ chr x.k2) || odomVerdict cfg (lk cfg s2.pcm) x)
    (f := lk cfg s2.pcm) (Spec.pairGroups cfg a b h) Meas.empty
  rw [← q1] at b1
  rw [← q2] at b2
  exact ⟨b1.1.trans b2.1.symm, b1.2.trans b2.2.symm⟩

/-- The same observations are registered and accepted. -/
theorem land_modes {cfg : Cfg G T N} (hs : StartFree cfg.ops) {e1 e2 : Env G N} (hr : cfg.rejection = true) {i j : Bool}
    {h : List (Op G N)} {s1 s2 : St G T N} (r1 : ReachOk (cfg.withMode i) e1 h s1) (r2 : ReachOk (cfg.withMode j) e2 h s2)
    {start : Chr → Key} {c : Chr} {l : Key} (hf : Spec.LandFed cfg start c l h) : lmOf s1.pcm l = lmOf s2.pcm l := by
  have b1 := r1.landState (cfg := cfg.withMode i) hr hs (LandFed.mode i hf)
  have b2 := r2.landState (cfg := cfg.withMode j) hr hs (LandFed.mode j hf)
  have e : (Spec.lmSoFar cfg l h).foldl (landStep cfg (lk cfg s1.pcm) l) Meas.empty =
      (Spec.lmSoFar cfg l h).foldl (landStep cfg (lk cfg s2.pcm) l) Meas.empty := by
    refine landFold_congr (P := LandFed.Fine cfg start c l h) ?_ _ (LandFed.fine hf) _ (by simp [Meas.empty])
    intro x y hx hy nx ny
    have away : ∀ z : Btw G N, LandFed.Fine cfg start c l h z → z.k1 ≠ l → chr z.k1 = c ∧ Spec.OnChain cfg start h z.k1 := by
      intro z hz nz
      refine hz.2 fun hsp => nz ?_
      have := hz.1
      unfold Spec.landmarkOf at this
      rwa [if_pos hsp] at this
    obtain ⟨cx, ox⟩ := away x hx nx
    obtain ⟨cy, oy⟩ := away y hy ny
    unfold landVerdict landErr
    rw [onChain_modes hs hr r1 r2 (by rw [cx]; exact hf.chain) (by rw [cx]; exact hf.short) (by rw [cx, cy]) ox oy]
  have b1 : LandBare (lmOf s1.pcm l) ((Spec.lmSoFar cfg l h).foldl (landStep cfg (lk cfg s1.pcm) l) Meas.empty) := b1
  have b2 : LandBare (lmOf s2.pcm l) ((Spec.lmSoFar cfg l h).foldl (landStep cfg (lk cfg s2.pcm) l) Meas.empty) := b2
  rw [e] at b1
  exact chosen_adj (r2.lmChosen (cfg := cfg.withMode j) hr l) (r1.lmChosen (cfg := cfg.withMode i) hr l)
    (b1.1.trans b2.1.symm) (b1.2.trans b2.2.symm)

theorem modes_registered {cfg : Cfg G T N} (hs : StartFree cfg.ops) {e1 e2 : Env G N} (hr : cfg.rejection = true) {i j : Bool}
    {start : Chr → Key} {owner : Key → Chr} {h : List (Op G N)} (w : Spec.WellFed cfg start owner h) {s1 s2 : St G T N}
    (r1 : ReachOk (cfg.withMode i) e1 h s1) (r2 : ReachOk (cfg.withMode j) e2 h s2) :
    Spec.SameRegistered (cfg.withMode i) (cfg.withMode j) e1 e2 s1 s2 := by
  have hlc : ∀ id, (lcOf s1.pcm id).factors = (lcOf s2.pcm id).factors ∧ (lcOf s1.pcm id).adj = (lcOf s2.pcm id).adj := by
    intro id
    by_cases hid : id.id1 ∈ cfg.special ∨ id.id2 ∈ cfg.special
    · rw [r1.reach.lcOf_special (cfg := cfg.withMode i) hr hid, r2.reach.lcOf_special (cfg := cfg.withMode j) hr hid]
      exact ⟨rfl, rfl⟩
    · obtain ⟨n1, n2⟩ := not_or.1 hid
      exact pair_modes hs hr r1 r2 (pairFed_global w.chains w.reached w.known w.keeps n1 n2)
  have hlm : ∀ l, lmOf s1.pcm l = lmOf s2.pcm l := fun l =>
    land_modes hs hr r1 r2 (landFed_global w.chains w.reached w.known w.observer l)
  refine ⟨?_, fun id => (hlc id).1, fun id => (hlc id).2, fun l => ?_, fun l => ?_, fun l => ?_, fun n => ?_⟩
  · obtain ⟨a1, a2⟩ := Props.C34_estimate_keys r1
    obtain ⟨b1, b2⟩ := Props.C34_estimate_keys r2
    exact List.Pairwise.eq_of_mem_iff (r := fun a b : Key => a.toNat < b.toNat) a2 b2 fun k => by rw [a1 k, b1 k]
  · unfold Spec.observed; rw [hlm]
  · unfold Spec.landMatrix; rw [hlm]
  · unfold Spec.acceptedOf; rw [hlm]
  · rw [Props.numLC_iff (cfg := cfg.withMode i) hr, Props.numLC_iff (cfg := cfg.withMode j) hr,
      r1.counted (cfg := cfg.withMode i) hs hr w.chains ⟨w.reached.1, w.reached.2⟩ w.known w.keeps,
      r2.counted (cfg := cfg.withMode j) hs hr w.chains ⟨w.reached.1, w.reached.2⟩ w.known w.keeps]
    have e : (Spec.candsSoFar cfg h).filter (countedCand cfg s1) = (Spec.candsSoFar cfg h).filter (countedCand cfg s2) := by
      refine List.filter_congr fun x hx => ?_
      unfold countedCand
      cases hl : Spec.isLandmark cfg x with
      | true => rfl
      | false =>
        unfold Spec.isLandmark at hl
        simp only [decide_eq_false_iff_not, not_or] at hl
        have f := pairFed_global w.chains w.reached w.known w.keeps hl.1 hl.2
        obtain ⟨op, hop, hx⟩ := List.mem_flatMap.1 hx
        obtain ⟨u, v, e⟩ := List.append_of_mem hop
        rw [(fine_modes hs hr r1 r2 f).1 x (PairFed.fine f e (List.mem_filter.2 ⟨hx, connects_self x⟩))]
    show (n = (Spec.firstsSoFar cfg h).length + ((Spec.candsSoFar cfg h).filter (countedCand cfg s1)).length) ↔
      (n = (Spec.firstsSoFar cfg h).length + ((Spec.candsSoFar cfg h).filter (countedCand cfg s2)).length)
    rw [e]

omit [Mul G] [Inv G] [One G] in
theorem agree_modes {s1 s2 : St G T N} {id : ObsId} (hreg : Spec.registered s1 id = Spec.registered s2 id)
    (hm : Spec.matrix s1 id = Spec.matrix s2 id) (i j : Nat) : Spec.Agree s1 id i j ↔ Spec.Agree s2 id i j := by
  unfold Spec.Agree; rw [hreg, hm]

omit [Mul G] [Inv G] [One G] in
theorem agreeing_modes {s1 s2 : St G T N} {id : ObsId} (hreg : Spec.registered s1 id = Spec.registered s2 id)
    (hm : Spec.matrix s1 id = Spec.matrix s2 id) (l : List Nat) : Spec.Agreeing s1 id l ↔ Spec.Agreeing s2 id l := by
  unfold Spec.Agreeing; simp only [agree_modes hreg hm, hreg]

omit [Mul G] [Inv G] [One G] in
theorem leading_modes {s1 s2 : St G T N} {id : ObsId} (hreg : Spec.registered s1 id = Spec.registered s2 id)
    (hm : Spec.matrix s1 id = Spec.matrix s2 id) (I : List Nat) : Spec.LeadingGroup s1 id I ↔ Spec.LeadingGroup s2 id I := by
  unfold Spec.LeadingGroup; simp only [agree_modes hreg hm, agreeing_modes hreg hm]

theorem modes_selected {G : Type} [Group G] {c1 c2 : Cfg G T N} {e1 e2 : Env G N} (hr1 : c1.rejection = true) (hr2 : c2.rejection = true)
    (hl1 : c1.loopCheck = true) (hl2 : c2.loopCheck = true) {h1 h2 : List (Op G N)} {s1 s2 : St G T N}
    (r1 : ReachOk c1 e1 h1 s1) (r2 : ReachOk c2 e2 h2 s2) {id : ObsId} (hreg : Spec.registered s1 id = Spec.registered s2 id)
    (hm : Spec.matrix s1 id = Spec.matrix s2 id) (hd : Spec.Decided s1 id) :
    (Spec.selected s1 id).Perm (Spec.selected s2 id) := by
  rcases hd with hd | ⟨I, hI⟩
  · rw [Props.C64_single hr1 hl1 r1 id hd, Props.C64_single hr2 hl2 r2 id (by rw [← hreg]; exact hd), hreg]
  · obtain ⟨x1, p1, a1⟩ := Props.C74_group_accepted hr1 hl1 r1 hI
    obtain ⟨x2, p2, a2⟩ := Props.C74_group_accepted hr2 hl2 r2 ((leading_modes hreg hm I).1 hI)
    have h3 : ((Spec.selected s1 id).map some).Perm ((Spec.selected s2 id).map some) := by
      rw [a1, a2, hreg]
      exact (p1.trans p2.symm).map _
    exact (List.map_perm_map_iff (Option.some_injective _)).1 h3

theorem modes_count {c1 c2 : Cfg G T N} {e1 e2 : Env G N} (hr1 : c1.rejection = true) (hr2 : c2.rejection = true)
    (hl1 : c1.loopCheck = true) (hl2 : c2.loopCheck = true) {h1 h2 : List (Op G N)} {s1 s2 : St G T N}
    (r1 : ReachOk c1 e1 h1 s1) (r2 : ReachOk c2 e2 h2 s2) {id : ObsId} (hreg : Spec.registered s1 id = Spec.registered s2 id)
    (hm : Spec.matrix s1 id = Spec.matrix s2 id) (ht : Spec.Transitive s1 id) :
    (Spec.selected s1 id).length = (Spec.selected s2 id).length := by
  rcases Nat.lt_or_ge (Spec.registered s1 id).length 2 with h2 | h2
  · rw [Props.C64_single hr1 hl1 r1 id (by omega), Props.C64_single hr2 hl2 r2 id (by rw [← hreg]; omega), hreg]
  · have ht2 : Spec.Transitive s2 id := by
      unfold Spec.Transitive at ht ⊢; simpa only [agree_modes hreg hm] using ht
    obtain ⟨x1, a1, g1, m1, _⟩ := Props.C64_consistent_partial hr1 hl1 r1 id h2 ht
    obtain ⟨x2, a2, g2, m2, _⟩ := Props.C64_consistent_partial hr2 hl2 r2 id (by rw [← hreg]; exact h2) ht2
    have q1 := congrArg List.length a1
    have q2 := congrArg List.length a2
    simp only [List.length_map] at q1 q2
    have := m1 x2 ((agreeing_modes hreg hm x2).2 g2)
    have := m2 x1 ((agreeing_modes hreg hm x1).1 g1)
    omega

/-- Tables whose entries for the same key contribute the same up to order. -/
theorem table_perm_like {κ V β : Type} {eq : κ → κ → Bool} (he : AList.IsEqv eq) {F : κ × V → List β} {d : V} {l1 l2 : List (κ × V)}
    (d1 : (l1.map (·.1)).Pairwise fun a b => eq a b = false) (d2 : (l2.map (·.1)).Pairwise fun a b => eq a b = false)
    (hd : ∀ k, F (k, d) = []) (hF : ∀ k k' v, eq k k' = true → F (k, v) = F (k', v))
    (hg : ∀ k, (F (k, (AList.get? eq l1 k).getD d)).Perm (F (k, (AList.get? eq l2 k).getD d))) :
    (l1.flatMap F).Perm (l2.flatMap F) := by
  let R : κ × V → List β := fun e => (F e : Multiset β).toList
  have hR : ∀ e, (F e).Perm (R e) := fun e => (Multiset.coe_eq_coe.1 (Multiset.coe_toList (F e : Multiset β))).symm
  have hRF : ∀ {e e'}, (F e).Perm (F e') → R e = R e' := fun h => by
    show Multiset.toList _ = Multiset.toList _
    rw [Multiset.coe_eq_coe.2 h]
  have hR0 : ∀ {e}, F e = [] → R e = [] := fun {e} h => by
    have := hR e
    rw [h] at this
    exact this.symm.eq_nil
  have half : ∀ {l1 l2 : List (κ × V)}, (l1.map (·.1)).Pairwise (fun a b => eq a b = false) →
      (∀ k, (F (k, (AList.get? eq l1 k).getD d)).Perm (F (k, (AList.get? eq l2 k).getD d))) →
      ∀ e ∈ l1, R e = [] ∨ ∃ e' ∈ l2, eq e'.1 e.1 = true ∧ R e' = R e := by
    intro l1 l2 d1 hg e m
    have := hg e.1
    rw [distinct_get he d1 m] at this
    cases h2 : AList.get? eq l2 e.1 with
    | none =>
      rw [h2] at this
      left
      have h3 : F e = [] := by
        have := this.trans (by rw [show (Option.getD none d) = d from rfl, hd])
        exact this.eq_nil
      exact hR0 h3
    | some v =>
      rw [h2] at this
      obtain ⟨e', m', ev, q⟩ := get?_entry h2
      right
      refine ⟨e', m', q, hRF ?_⟩
      have h4 : e' = (e'.1, v) := by rw [← ev]
      rw [h4, hF _ _ _ q]
      exact this.symm
  have h := table_perm he d1 d2 (half d1 hg) (half d2 fun k => (hg k).symm)
  exact ((List.Perm.flatMap_left _ fun e _ => hR e).trans h).trans (List.Perm.flatMap_left _ fun e _ => hR e).symm

/-- The factors of the graph, up to order. -/
theorem modes_graph {c1 c2 : Cfg G T N} {e1 e2 : Env G N} (he1 : e1.Ok) (he2 : e2.Ok)
    (hr1 : c1.rejection = true) (hr2 : c2.rejection = true) {h : List (Op G N)} (hm : ∀ op ∈ h, Spec.Managed op)
    {s1 s2 : St G T N} (r1 : ReachOk c1 e1 h s1) (r2 : ReachOk c2 e2 h s2)
    (hsel : ∀ id, (Spec.selected s1 id).Perm (Spec.selected s2 id)) (hlm : ∀ l, lmOf s1.pcm l = lmOf s2.pcm l)
    (hod : Spec.odomSoFar c1 h = Spec.odomSoFar c2 h) (hsp : Spec.specialSoFar c1 h = Spec.specialSoFar c2 h) :
    s1.nfg.Perm s2.nfg := by
  obtain ⟨a1, a2, a3⟩ := r1.lists he1 hr1 hm
  obtain ⟨b1, b2, b3⟩ := r2.lists he2 hr2 hm
  have hig : ∀ c, s1.pcm.ignored.contains c = s2.pcm.ignored.contains c := by
    intro c
    have q1 := (Props.C24_ignored_set hr1 r1.reach).2 c
    have q2 := (Props.C24_ignored_set hr2 r2.reach).2 c
    have := q1.trans q2.symm
    unfold getIgnored at this
    rw [if_pos hr1, if_pos hr2] at this
    rw [Bool.eq_iff_iff, List.contains_iff_mem, List.contains_iff_mem]
    exact this
  rw [a1, b1]
  unfold buildGraph
  rw [a2, a3, b2, b3, hod, hsp]
  refine List.Perm.append (List.Perm.append_left _ ?_) ?_
  · refine ((he1.lc _).flatMap_right _).trans (List.Perm.trans ?_ ((he2.lc _).symm.flatMap_right _))
    simp only [hig]
    refine table_perm_like ObsId.isEqv (d := Meas.empty) (r1.reach.distinct hr1).1 (r2.reach.distinct hr2).1 ?_ ?_ fun k => ?_
    · intro k; simp [Meas.empty]
    · intro k k' v q
      unfold ObsId.eqv at q
      split at q
      · rename_i h; simp only [h.1, h.2]
      · split at q
        · rename_i h
          simp only [h.1, h.2, Bool.and_comm]
        · cases q
    · have := hsel k
      unfold Spec.selected lcOf at this
      dsimp only
      split
      · exact this.map _
      · exact List.Perm.refl _
  · refine ((he1.lm _).flatMap_right _).trans (List.Perm.trans ?_ ((he2.lm _).symm.flatMap_right _))
    exact table_perm_get AList.isEqv_beq (d := Meas.empty) (r1.reach.keyed hr1).2 (r2.reach.keyed hr2).2
      (fun k => by simp [Meas.empty]) (fun k k' v q => rfl) hlm
end
end RPGO

namespace RPGO.Props
variable {G C K : Type} [Mul G] [Inv G] [One G] [Field K] [LinearOrder K]

/-- C86 (PCM_Simple2D / 3D): two solvers that are given the same calls, with whatever optimizers, one with incremental
selection and the other without, register the same closures with the same verdicts, register and accept the same
observations of landmarks, hold values for the same keys and report the same number of closures. -/
theorem C86_registered {G : Type} [Group G] (p : Params K) (tn rn : G → K) (signed : Bool) (hm : p.method ≠ .none) {i j : Bool}
    {e1 e2 : Env G (GNoise C)} {start : Chr → Key} {owner : Key → Chr} {h : List (Op G (GNoise C))}
    (w : Spec.WellFed (p.cfgSimple C tn rn signed) start owner h) {s1 s2 : St G (PNode G) (GNoise C)}
    (r1 : ReachOk (({ p with incremental := i } : Params K).cfgSimple C tn rn signed) e1 h s1)
    (r2 : ReachOk (({ p with incremental := j } : Params K).cfgSimple C tn rn signed) e2 h s2) :
    Spec.SameRegistered (({ p with incremental := i } : Params K).cfgSimple C tn rn signed)
      (({ p with incremental := j } : Params K).cfgSimple C tn rn signed) e1 e2 s1 s2 :=
  modes_registered (cfg := p.cfgSimple C tn rn signed) (i := i) (j := j) (node_startFree tn rn _ _ _ _)
    (by simp [Params.cfgSimple, Params.cfg, hm]) w r1 r2

/-- C86 for PCM2D / PCM3D. -/
theorem C86_registered_cov {G : Type} [Group G] [AddGroup C] (p : Params K) (ce : CovEnv G C K) (signed : Bool) (hm : p.method ≠ .none) {i j : Bool}
    {e1 e2 : Env G (GNoise C)} {start : Chr → Key} {owner : Key → Chr} {h : List (Op G (GNoise C))}
    (w : Spec.WellFed (p.cfgCov ce signed) start owner h) {s1 s2 : St G (PCov G C) (GNoise C)}
    (r1 : ReachOk (({ p with incremental := i } : Params K).cfgCov ce signed) e1 h s1)
    (r2 : ReachOk (({ p with incremental := j } : Params K).cfgCov ce signed) e2 h s2) :
    Spec.SameRegistered (({ p with incremental := i } : Params K).cfgCov ce signed)
      (({ p with incremental := j } : Params K).cfgCov ce signed) e1 e2 s1 s2 :=
  modes_registered (cfg := p.cfgCov ce signed) (i := i) (j := j) (cov_startFree ce _ _)
    (by simp [Params.cfgCov, Params.cfg, hm]) w r1 r2

/-- C86: of a pair of robots whose registered closures contain a leading group both solvers accept the same closures; if
agreement between the closures of the pair is transitive they accept the same number. -/
theorem C86_accepted {G : Type} [Group G] (p : Params K) (tn rn : G → K) (signed : Bool) (hm : p.method ≠ .none) {i j : Bool}
    (hl : (p.cfgSimple C tn rn signed).loopCheck = true)
    {e1 e2 : Env G (GNoise C)} {start : Chr → Key} {owner : Key → Chr} {h : List (Op G (GNoise C))}
    (w : Spec.WellFed (p.cfgSimple C tn rn signed) start owner h) {s1 s2 : St G (PNode G) (GNoise C)}
    (r1 : ReachOk (({ p with incremental := i } : Params K).cfgSimple C tn rn signed) e1 h s1)
    (r2 : ReachOk (({ p with incremental := j } : Params K).cfgSimple C tn rn signed) e2 h s2) (id : ObsId) :
    (Spec.Decided s1 id → (Spec.selected s1 id).Perm (Spec.selected s2 id)) ∧
      (Spec.Transitive s1 id → (Spec.selected s1 id).length = (Spec.selected s2 id).length) := by
  have hs := C86_registered p tn rn signed hm w r1 r2
  have hr : (p.cfgSimple C tn rn signed).rejection = true := by simp [Params.cfgSimple, Params.cfg, hm]
  exact ⟨modes_selected (c1 := (p.cfgSimple C tn rn signed).withMode i) (c2 := (p.cfgSimple C tn rn signed).withMode j) hr hr hl hl r1 r2 (hs.registered id) (hs.matrix id),
    modes_count (c1 := (p.cfgSimple C tn rn signed).withMode i) (c2 := (p.cfgSimple C tn rn signed).withMode j) hr hr hl hl r1 r2 (hs.registered id) (hs.matrix id)⟩

/-- C86, which closures are accepted, for PCM2D / PCM3D. -/
theorem C86_accepted_cov {G : Type} [Group G] [AddGroup C] (p : Params K) (ce : CovEnv G C K) (signed : Bool) (hm : p.method ≠ .none) {i j : Bool}
    (hl : (p.cfgCov ce signed).loopCheck = true)
    {e1 e2 : Env G (GNoise C)} {start : Chr → Key} {owner : Key → Chr} {h : List (Op G (GNoise C))}
    (w : Spec.WellFed (p.cfgCov ce signed) start owner h) {s1 s2 : St G (PCov G C) (GNoise C)}
    (r1 : ReachOk (({ p with incremental := i } : Params K).cfgCov ce signed) e1 h s1)
    (r2 : ReachOk (({ p with incremental := j } : Params K).cfgCov ce signed) e2 h s2) (id : ObsId) :
    (Spec.Decided s1 id → (Spec.selected s1 id).Perm (Spec.selected s2 id)) ∧
      (Spec.Transitive s1 id → (Spec.selected s1 id).length = (Spec.selected s2 id).length) := by
  have hs := C86_registered_cov p ce signed hm w r1 r2
  have hr : (p.cfgCov ce signed).rejection = true := by simp [Params.cfgCov, Params.cfg, hm]
  exact ⟨modes_selected (c1 := (p.cfgCov ce signed).withMode i) (c2 := (p.cfgCov ce signed).withMode j) hr hr hl hl r1 r2 (hs.registered id) (hs.matrix id),
    modes_count (c1 := (p.cfgCov ce signed).withMode i) (c2 := (p.cfgCov ce signed).withMode j) hr hr hl hl r1 r2 (hs.registered id) (hs.matrix id)⟩

/-- C86: if that is so of every pair, the two graphs hold the same factors, up to order. -/
theorem C86_graph {G : Type} [Group G] (p : Params K) (tn rn : G → K) (signed : Bool) (hm : p.method ≠ .none) {i j : Bool}
    (hl : (p.cfgSimple C tn rn signed).loopCheck = true) {e1 e2 : Env G (GNoise C)} (he1 : e1.Ok) (he2 : e2.Ok)
    {start : Chr → Key} {owner : Key → Chr} {h : List (Op G (GNoise C))}
    (w : Spec.WellFed (p.cfgSimple C tn rn signed) start owner h) {s1 s2 : St G (PNode G) (GNoise C)}
    (r1 : ReachOk (({ p with incremental := i } : Params K).cfgSimple C tn rn signed) e1 h s1)
    (r2 : ReachOk (({ p with incremental := j } : Params K).cfgSimple C tn rn signed) e2 h s2)
    (hd : ∀ id, Spec.Decided s1 id) : s1.nfg.Perm s2.nfg := by
  have hr : (p.cfgSimple C tn rn signed).rejection = true := by simp [Params.cfgSimple, Params.cfg, hm]
  exact modes_graph (c1 := (p.cfgSimple C tn rn signed).withMode i) (c2 := (p.cfgSimple C tn rn signed).withMode j) he1 he2 hr hr w.managed r1 r2 (fun id => (C86_accepted p tn rn signed hm hl w r1 r2 id).1 (hd id))
    (fun l => land_modes (cfg := p.cfgSimple C tn rn signed) (i := i) (j := j) (node_startFree tn rn _ _ _ _) hr r1 r2
      (landFed_global w.chains w.reached w.known w.observer l)) rfl rfl

/-- C86, the graph, for PCM2D / PCM3D. -/
theorem C86_graph_cov {G : Type} [Group G] [AddGroup C] (p : Params K) (ce : CovEnv G C K) (signed : Bool) (hm : p.method ≠ .none) {i j : Bool}
    (hl : (p.cfgCov ce signed).loopCheck = true) {e1 e2 : Env G (GNoise C)} (he1 : e1.Ok) (he2 : e2.Ok)
    {start : Chr → Key} {owner : Key → Chr} {h : List (Op G (GNoise C))}
    (w : Spec.WellFed (p.cfgCov ce signed) start owner h) {s1 s2 : St G (PCov G C) (GNoise C)}
    (r1 : ReachOk (({ p with incremental := i } : Params K).cfgCov ce signed) e1 h s1)
    (r2 : ReachOk (({ p with incremental := j } : Params K).cfgCov ce signed) e2 h s2)
    (hd : ∀ id, Spec.Decided s1 id) : s1.nfg.Perm s2.nfg := by
  have hr : (p.cfgCov ce signed).rejection = true := by simp [Params.cfgCov, Params.cfg, hm]
  exact modes_graph (c1 := (p.cfgCov ce signed).withMode i) (c2 := (p.cfgCov ce signed).withMode j) he1 he2 hr hr w.managed r1 r2 (fun id => (C86_accepted_cov p ce signed hm hl w r1 r2 id).1 (hd id))
    (fun l => land_modes (cfg := p.cfgCov ce signed) (i := i) (j := j) (cov_startFree ce _ _) hr r1 r2
      (landFed_global w.chains w.reached w.known w.observer l)) rfl rfl

/-- Odometry of two robots, then closures between them, one per update. -/
def singly (cs : List (BitVec 56 × BitVec 56 × ℤ)) : List (Op Demo.Z Demo.Ns) :=
  duoOdometry ++ cs.map fun c => .update [Demo.edge (Demo.a c.1) (Demo.b c.2.1) c.2.2] [] false

/-- One pair of robots. -/
theorem decided_one {G T N : Type} {s : St G T N} {i : ObsId} (h1 : s.pcm.lcs.map (·.1) = [i]) (hd : Spec.Decided s i) :
    ∀ id, Spec.Decided s id := by
  obtain ⟨e, he, rfl⟩ := List.map_eq_singleton_iff.1 h1
  intro id
  have hl : ∀ j : ObsId, lcOf s.pcm j = if e.1.eqv j = true then e.2 else Meas.empty := by
    intro j
    unfold lcOf
    rw [he]
    unfold AList.get? AList.get?
    split <;> rfl
  by_cases hq : e.1.eqv id = true
  · have hs : lcOf s.pcm id = lcOf s.pcm e.1 := by rw [hl, hl, if_pos hq, if_pos (ObsId.isEqv.refl _)]
    have r1 : Spec.registered s id = Spec.registered s e.1 := by unfold Spec.registered; rw [hs]
    have r2 : Spec.matrix s id = Spec.matrix s e.1 := by unfold Spec.matrix; rw [hs]
    unfold Spec.Decided Spec.LeadingGroup Spec.Agreeing Spec.Agree at hd ⊢
    rw [r1, r2]
    exact hd
  · left
    unfold Spec.registered
    rw [hl, if_neg hq]
    exact Nat.zero_le _

/-- Seven closures, of which three lead. -/
def disorder : List (BitVec 56 × BitVec 56 × ℤ) := [(0, 0, 20), (1, 1, 2), (0, 1, 23), (0, 3, 5), (2, 2, 26), (3, 3, 2), (1, 2, -40)]

set_option maxRecDepth 100000 in
/-- The hypotheses of C86 are met by seven closures that arrive one by one, of which three lead. -/
example : Demo.cfg = Demo.params.cfgSimple Unit Demo.len (fun _ => 0) true ∧
    demoInc = ({ Demo.params with incremental := true } : Params ℚ).cfgSimple Unit Demo.len (fun _ => 0) true ∧
    Demo.params.method ≠ .none ∧ Demo.cfg.loopCheck = true ∧
    Spec.WellFed Demo.cfg (fun c => symKey c 0) (fun _ => 97) (singly disorder) ∧
    (∃ s, ReachOk demoInc Demo.env (singly disorder) s ∧ (∀ id, Spec.Decided s id) ∧ s.nfg.length = 9) ∧
    ∃ s, ReachOk Demo.cfg Demo.env (singly disorder) s ∧ s.nfg.length = 9 := by
  have hm : ∀ op ∈ singly disorder, Spec.Managed op ∧ ¬ Spec.Removes op := by
    intro op ho
    simp only [singly, duoOdometry, List.mem_append, List.mem_singleton, List.mem_map] at ho
    rcases ho with rfl | ⟨_, _, rfl⟩ <;> exact ⟨trivial, fun h => h⟩
  refine ⟨rfl, rfl, by decide, by decide +kernel, ⟨fun op ho => (hm op ho).1, fun op ho => (hm op ho).2,
      chains_of (by decide +kernel), onOdometry_of (by decide +kernel), keysKnown_of (by decide +kernel),
      by unfold Spec.OneObserver; decide +kernel⟩, ?_, ?_⟩
  · obtain ⟨s, r, h⟩ := Demo.runs_reach (cfg := demoInc) (env := Demo.env) (ops := singly disorder)
      (P := fun s => decide (s.pcm.lcs.map (·.1) = [⟨97, 98⟩]) && leadB s ⟨97, 98⟩ [1, 3, 5] && decide (s.nfg.length = 9))
      (by decide +kernel)
    simp only [Bool.and_eq_true, decide_eq_true_eq] at h
    exact ⟨s, r, decided_one h.1.1 (Or.inr ⟨_, leadB_ok h.1.2⟩), h.2⟩
  · obtain ⟨s, r, h⟩ := Demo.runs_reach (cfg := Demo.cfg) (env := Demo.env) (ops := singly disorder)
      (P := fun s => decide (s.nfg.length = 9)) (by decide +kernel)
    exact ⟨s, r, of_decide_eq_true h⟩

set_option maxRecDepth 100000 in
/-- C86 needs a leading group: of two groups of the same size incremental selection keeps the one that was complete first,
batch selection takes the other. -/
theorem C86_false_tie :
    (∃ s, ReachOk demoInc Demo.env (singly [(0, 0, 1), (0, 0, 3), (0, 0, 3), (0, 0, 1)]) s ∧
      Demo.edge (Demo.a 0) (Demo.b 0) 3 ∈ s.nfg ∧ Demo.edge (Demo.a 0) (Demo.b 0) 1 ∉ s.nfg) ∧
    ∃ s, ReachOk Demo.cfg Demo.env (singly [(0, 0, 1), (0, 0, 3), (0, 0, 3), (0, 0, 1)]) s ∧
      Demo.edge (Demo.a 0) (Demo.b 0) 1 ∈ s.nfg ∧ Demo.edge (Demo.a 0) (Demo.b 0) 3 ∉ s.nfg := by
  constructor
  · obtain ⟨s, r, h⟩ := Demo.runs_reach (cfg := demoInc) (env := Demo.env)
      (ops := singly [(0, 0, 1), (0, 0, 3), (0, 0, 3), (0, 0, 1)])
      (P := fun s => decide (Demo.edge (Demo.a 0) (Demo.b 0) 3 ∈ s.nfg ∧ Demo.edge (Demo.a 0) (Demo.b 0) 1 ∉ s.nfg)) (by decide +kernel)
    exact ⟨s, r, of_decide_eq_true h⟩
  · obtain ⟨s, r, h⟩ := Demo.runs_reach (cfg := Demo.cfg) (env := Demo.env)
      (ops := singly [(0, 0, 1), (0, 0, 3), (0, 0, 3), (0, 0, 1)])
      (P := fun s => decide (Demo.edge (Demo.a 0) (Demo.b 0) 1 ∈ s.nfg ∧ Demo.edge (Demo.a 0) (Demo.b 0) 3 ∉ s.nfg)) (by decide +kernel)
    exact ⟨s, r, of_decide_eq_true h⟩

/-- Five closures. -/
def fewClosures : List (BitVec 56 × BitVec 56 × ℤ) := [(0, 2, 5), (1, 2, 4), (0, 2, 1), (0, 3, 0), (3, 3, 3)]

/-- Six closures. -/
def moreClosures : List (BitVec 56 × BitVec 56 × ℤ) := [(3, 3, 3), (3, 2, 3), (1, 1, 1), (0, 2, 2), (3, 3, 0), (1, 0, 5)]

set_option maxRecDepth 100000 in
/-- C86 needs that agreement is transitive: incremental selection may accept fewer closures than batch selection. -/
theorem C86_false_fewer :
    (∃ s, ReachOk demoInc Demo.env (singly fewClosures) s ∧ (Spec.selected s ⟨97, 98⟩).length = 2) ∧
    ∃ s, ReachOk Demo.cfg Demo.env (singly fewClosures) s ∧ (Spec.selected s ⟨97, 98⟩).length = 3 := by
  constructor
  · obtain ⟨s, r, h⟩ := Demo.runs_reach (cfg := demoInc) (env := Demo.env) (ops := singly fewClosures)
      (P := fun s => decide ((Spec.selected s ⟨97, 98⟩).length = 2)) (by decide +kernel)
    exact ⟨s, r, of_decide_eq_true h⟩
  · obtain ⟨s, r, h⟩ := Demo.runs_reach (cfg := Demo.cfg) (env := Demo.env) (ops := singly fewClosures)
      (P := fun s => decide ((Spec.selected s ⟨97, 98⟩).length = 3)) (by decide +kernel)
    exact ⟨s, r, of_decide_eq_true h⟩

set_option maxRecDepth 100000 in
/-- C86 needs that agreement is transitive: incremental selection may accept more closures than batch selection. -/
theorem C86_false_more :
    (∃ s, ReachOk demoInc Demo.env (singly moreClosures) s ∧ (Spec.selected s ⟨97, 98⟩).length = 4) ∧
    ∃ s, ReachOk Demo.cfg Demo.env (singly moreClosures) s ∧ (Spec.selected s ⟨97, 98⟩).length = 3 := by
  constructor
  · obtain ⟨s, r, h⟩ := Demo.runs_reach (cfg := demoInc) (env := Demo.env) (ops := singly moreClosures)
      (P := fun s => decide ((Spec.selected s ⟨97, 98⟩).length = 4)) (by decide +kernel)
    exact ⟨s, r, of_decide_eq_true h⟩
  · obtain ⟨s, r, h⟩ := Demo.runs_reach (cfg := Demo.cfg) (env := Demo.env) (ops := singly moreClosures)
      (P := fun s => decide ((Spec.selected s ⟨97, 98⟩).length = 3)) (by decide +kernel)
    exact ⟨s, r, of_decide_eq_true h⟩

end RPGO.Props
