import Verif.Props.Robust
/-
C75 whether two closures agree does not depend on which of them arrived first.
C76 receiving a closure again.
-/

namespace RPGO
variable {G T N : Type} [Mul G] [Inv G] [One G]

/-- Registered closures of a pair are among its candidates. -/
theorem registered_fine {cfg : Cfg G T N} (hs : StartFree cfg.ops) {env : Env G N} (hr : cfg.rejection = true)
    {h : List (Op G N)} {s : St G T N} (r : ReachOk cfg env h s) {start : Chr → Key} {a b : Chr}
    (hf : Spec.PairFed cfg start a b h) {x : Btw G N} (hx : x ∈ Spec.registered s ⟨a, b⟩) :
    PairFed.Fine cfg start a b h x := by
  have e := pair_groups_eq hs hr r r hf hf (fun c _ => List.prefix_refl _)
  have b1 := (groupFold_bare (cfg := cfg) (acc := fun x => decide (chr x.k1 ≠ chr x.k2) || odomVerdict cfg (lk cfg s.pcm) x)
    (f := lk cfg s.pcm) (Spec.pairGroups cfg a b h) Meas.empty).1
  rw [← e, growFold_factors] at b1
  have hx' : x ∈ (lcOf s.pcm ⟨a, b⟩).factors := hx
  rw [b1] at hx'
  simp only [Meas.empty, List.nil_append, List.mem_filter, List.mem_flatten] at hx'
  obtain ⟨⟨bs, hb, hm⟩, _⟩ := hx'
  exact PairFed.fine_groups hf bs hb x hm

/-- What two closures have to do with each other according to the matrices of two solvers. -/
theorem agree_transfer {G : Type} [Group G] {cfg : Cfg G T N} (hs : StartFree cfg.ops) {env env' : Env G N} (hr : cfg.rejection = true) (hl : cfg.loopCheck = true)
    {h h' : List (Op G N)} {s s' : St G T N} (r : ReachOk cfg env h s) (r' : ReachOk cfg env' h' s') {start : Chr → Key} {a b : Chr}
    (hf : Spec.PairFed cfg start a b h) (hf' : Spec.PairFed cfg start a b h')
    (pre : ∀ c, c = a ∨ c = b → Spec.robotOdom cfg c h <+: Spec.robotOdom cfg c h')
    {x y : Btw G N} (hsym : loopVerdict cfg (lk cfg s'.pcm) x y = loopVerdict cfg (lk cfg s'.pcm) y x) {i j i' j' : Nat}
    (hij : i ≠ j) (hij' : i' ≠ j')
    (hx : (Spec.registered s ⟨a, b⟩)[i]? = some x) (hy : (Spec.registered s ⟨a, b⟩)[j]? = some y)
    (hx' : (Spec.registered s' ⟨a, b⟩)[i']? = some x) (hy' : (Spec.registered s' ⟨a, b⟩)[j']? = some y) :
    Spec.Agree s ⟨a, b⟩ i j ↔ Spec.Agree s' ⟨a, b⟩ i' j' := by
  have fx := registered_fine hs hr r hf (List.mem_of_getElem? hx)
  have fy := registered_fine hs hr r hf (List.mem_of_getElem? hy)
  have vl := (fine_same hs hr r r' hf' pre).2
  have agree : ∀ {h0 : List (Op G N)} {e0 : Env G N} {s0 : St G T N}, ReachOk cfg e0 h0 s0 → Spec.PairFed cfg start a b h0 → ∀ {k l : Nat} {u v : Btw G N}, k < l →
      (Spec.registered s0 ⟨a, b⟩)[k]? = some u → (Spec.registered s0 ⟨a, b⟩)[l]? = some v →
      (Spec.Agree s0 ⟨a, b⟩ k l ↔ loopVerdict cfg (lk cfg s0.pcm) u v = true) := by
    intro h0 e0 s0 r0 f0 k l u v hkl hu hv
    have sh := r0.reach.shape hr hl ⟨a, b⟩
    have hk := (List.getElem?_eq_some_iff.1 hu).1
    have hl' := (List.getElem?_eq_some_iff.1 hv).1
    have sy : (Spec.matrix s0 ⟨a, b⟩).e l k = (Spec.matrix s0 ⟨a, b⟩).e k l := sh.sym l k hl' hk
    unfold Spec.Agree
    rw [Nat.max_eq_right (Nat.le_of_lt hkl), Nat.min_eq_left (Nat.le_of_lt hkl), sy, pair_judged hs hr hl r0 f0 hkl hu hv]
    exact ⟨fun t => t.2.2.2, fun t => ⟨hk, hl', Nat.ne_of_lt hkl, t⟩⟩
  have one : Spec.Agree s ⟨a, b⟩ i j ↔ loopVerdict cfg (lk cfg s'.pcm) x y = true := by
    rcases Nat.lt_or_gt_of_ne hij with hlt | hlt
    · rw [agree r hf hlt hx hy, vl x y fx fy]
    · rw [show Spec.Agree s ⟨a, b⟩ i j ↔ Spec.Agree s ⟨a, b⟩ j i from ⟨Agree.symm, Agree.symm⟩, agree r hf hlt hy hx, vl y x fy fx, hsym]
  have two : Spec.Agree s' ⟨a, b⟩ i' j' ↔ loopVerdict cfg (lk cfg s'.pcm) x y = true := by
    rcases Nat.lt_or_gt_of_ne hij' with hlt | hlt
    · rw [agree r' hf' hlt hx' hy']
    · rw [show Spec.Agree s' ⟨a, b⟩ i' j' ↔ Spec.Agree s' ⟨a, b⟩ j' i' from ⟨Agree.symm, Agree.symm⟩, agree r' hf' hlt hy' hx', hsym]
  rw [one, two]

/-- The error around the cycle of a closure and its copy is the identity. -/
theorem loopErr_self {G : Type} [Group G] {cfg : Cfg G T N} (hp : PoseOps cfg.ops) (f : Chr → Key → T) (x : Btw G N) (nx ny : N) :
    cfg.ops.pose (loopErr cfg f x x nx ny) = 1 := by
  rw [loopErr_pose hp f x x nx ny rfl, btwn_pose hp _ rfl, btwn_pose hp _ rfl]
  group

theorem btwn_sym {ops : Ops G (PNode G) N} (hb : ops.between = PNode.between) (f : Key → PNode G) {a b : Key} (h : chr a = chr b) :
    (btwn ops f b a).node = (btwn ops f a b).node ∧ (btwn ops f b a).rot = (btwn ops f a b).rot := by
  unfold btwn
  rw [if_pos h, if_pos h.symm, hb]
  exact ⟨abs_sub_comm _ _, Bool.and_comm _ _⟩

variable {C K : Type} [Field K] [LinearOrder K]

/-- For distances that do not change under inversion and conjugation the pairwise check is symmetric. -/
theorem loopVerdict_sym {G : Type} [Group G] (p : Params K) (tn rn : G → K) (signed : Bool)
    (h1 : ∀ g, tn g⁻¹ = tn g ∧ rn g⁻¹ = rn g) (h2 : ∀ g x, tn (x * g * x⁻¹) = tn g ∧ rn (x * g * x⁻¹) = rn g)
    (f : Chr → Key → PNode G) (x y : Btw G (GNoise C)) (hk : chr x.k1 = chr y.k1) (hk' : chr x.k2 = chr y.k2) :
    loopVerdict (p.cfgSimple C tn rn signed) f x y = loopVerdict (p.cfgSimple C tn rn signed) f y x := by
  have hp : PoseOps (p.cfgSimple C tn rn signed).ops := poseOps_node tn rn _ _ _ _
  unfold loopVerdict
  congr 1
  cases ex : x.noise with
  | none => cases y.noise <;> rfl
  | some nx =>
    cases ey : y.noise with
    | none => rfl
    | some ny =>
      simp only
      have e1 := loopErr_pose hp f x y nx ny hk
      have e2 := loopErr_pose hp f y x ny nx hk.symm
      set E := loopErr (p.cfgSimple C tn rn signed) f x y nx ny with hE
      set q := (p.cfgSimple C tn rn signed).ops.pose (btwn (p.cfgSimple C tn rn signed).ops (f (chr x.k2)) x.k2 y.k2) with hq
      have hE' : loopErr (p.cfgSimple C tn rn signed) f y x ny nx = ⟨q * E.pose⁻¹ * q⁻¹, E.node, E.rot⟩ := by
        have a1 : (loopErr (p.cfgSimple C tn rn signed) f y x ny nx).pose = q * E.pose⁻¹ * q⁻¹ := by
          have t : E.pose = (p.cfgSimple C tn rn signed).ops.pose E := rfl
          rw [t, e1, hq]
          refine Eq.trans e2 ?_
          rw [← hk, ← hk', btwn_pose hp _ hk, btwn_pose hp _ hk', btwn_pose hp _ hk.symm, btwn_pose hp _ hk'.symm]
          group
        have s1 := btwn_sym (ops := (p.cfgSimple C tn rn signed).ops) rfl (f (chr x.k1)) hk
        have s2 := btwn_sym (ops := (p.cfgSimple C tn rn signed).ops) rfl (f (chr x.k2)) hk'
        have a2 : (loopErr (p.cfgSimple C tn rn signed) f y x ny nx).node = E.node := by
          rw [hE]
          unfold loopErr
          simp only [hk, hk', ne_eq, not_true_eq_false, if_false]
          rw [hk] at s1; rw [hk'] at s2
          show PNode.node (btwn _ _ _ _) + 1 + 1 + PNode.node (btwn _ _ _ _) = PNode.node (btwn _ _ _ _) + 1 + 1 + PNode.node (btwn _ _ _ _)
          rw [s1.1, s2.1]
        have a3 : (loopErr (p.cfgSimple C tn rn signed) f y x ny nx).rot = E.rot := by
          rw [hE]
          unfold loopErr
          simp only [hk, hk', ne_eq, not_true_eq_false, if_false]
          rw [hk] at s1; rw [hk'] at s2
          show (((PNode.rot (btwn _ _ _ _) && !nx.rotNaN) && !ny.rotNaN) && PNode.rot (btwn _ _ _ _)) =
            (((PNode.rot (btwn _ _ _ _) && !ny.rotNaN) && !nx.rotNaN) && PNode.rot (btwn _ _ _ _))
          rw [s1.2, s2.2]
          cases PNode.rot (btwn (p.cfgSimple C tn rn signed).ops (f (chr y.k1)) x.k1 y.k1) <;>
            cases ny.rotNaN <;> cases nx.rotNaN <;> rfl
        rw [← a1, ← a2, ← a3]
      rw [hE']
      show PNode.check tn rn _ _ _ = PNode.check tn rn _ _ _
      unfold PNode.check PNode.avgTrans PNode.avgRot
      simp only [h1, h2]

/-- A rearrangement of a list, as a renumbering of positions. -/
theorem perm_index {α : Type} {l l' : List α} (h : l.Perm l') : ∃ f g : Nat → Nat,
    (∀ i, i < l.length → f i < l'.length ∧ g (f i) = i ∧ l'[f i]? = l[i]?) ∧ ∀ i, i < l'.length → g i < l.length ∧ f (g i) = i := by
  induction h with
  | nil => exact ⟨id, id, by simp, by simp⟩
  | @cons x l l' h ih =>
    obtain ⟨f, g, hf, hg⟩ := ih
    refine ⟨fun i => match i with | 0 => 0 | i + 1 => f i + 1, fun i => match i with | 0 => 0 | i + 1 => g i + 1, ?_, ?_⟩
    · rintro (_ | i) hi
      · simp
      · have := hf i (by simpa using hi)
        simpa using this
    · rintro (_ | i) hi
      · simp
      · have := hg i (by simpa using hi)
        simpa using this
  | swap x y l =>
    refine ⟨fun i => match i with | 0 => 1 | 1 => 0 | i + 2 => i + 2, fun i => match i with | 0 => 1 | 1 => 0 | i + 2 => i + 2, ?_, ?_⟩
    · rintro (_ | _ | i) hi <;> simp_all
    · rintro (_ | _ | i) hi <;> simp_all
  | trans h1 h2 ih1 ih2 =>
    obtain ⟨f, g, hf, hg⟩ := ih1
    obtain ⟨f', g', hf', hg'⟩ := ih2
    refine ⟨fun i => f' (f i), fun i => g (g' i), fun i hi => ?_, fun i hi => ?_⟩
    · obtain ⟨a, b, c⟩ := hf i hi
      obtain ⟨a', b', c'⟩ := hf' _ a
      exact ⟨a', by simp only [b', b], by rw [c', c]⟩
    · obtain ⟨a, b⟩ := hg' i hi
      obtain ⟨a', b'⟩ := hg _ a
      exact ⟨a', by simp only [b', b]⟩

end RPGO

namespace RPGO
variable {G T N : Type} [Mul G] [Inv G] [One G]

/-- What is registered of a pair of robots. -/
theorem registered_filter {cfg : Cfg G T N} (hs : StartFree cfg.ops) {env env' : Env G N} (hr : cfg.rejection = true)
    {h h' : List (Op G N)} {s s' : St G T N} (r : ReachOk cfg env h s) (r' : ReachOk cfg env' h' s') {start : Chr → Key} {a b : Chr}
    (hf : Spec.PairFed cfg start a b h) (hf' : Spec.PairFed cfg start a b h')
    (pre : ∀ c, c = a ∨ c = b → Spec.robotOdom cfg c h <+: Spec.robotOdom cfg c h') :
    Spec.registered s ⟨a, b⟩ = (Spec.pairGroups cfg a b h).flatten.filter
      fun x => decide (chr x.k1 ≠ chr x.k2) || odomVerdict cfg (lk cfg s'.pcm) x := by
  have e := pair_groups_eq hs hr r r' hf hf' pre
  have b1 := (groupFold_bare (cfg := cfg) (acc := fun x => decide (chr x.k1 ≠ chr x.k2) || odomVerdict cfg (lk cfg s'.pcm) x)
    (f := lk cfg s'.pcm) (Spec.pairGroups cfg a b h) Meas.empty).1
  rw [← e, growFold_factors] at b1
  show (lcOf s.pcm ⟨a, b⟩).factors = _
  rw [b1]
  simp [Meas.empty]

/-- Two solvers that received the same closures of a pair in different orders, and whose pairwise checks are symmetric. -/
theorem order_index {G : Type} [Group G] {cfg : Cfg G T N} (hs : StartFree cfg.ops) {env env' : Env G N} (hr : cfg.rejection = true) (hl : cfg.loopCheck = true)
    {h h' : List (Op G N)} {s s' : St G T N} (r : ReachOk cfg env h s) (r' : ReachOk cfg env' h' s') {start : Chr → Key} {a b : Chr}
    (hf : Spec.PairFed cfg start a b h) (hf' : Spec.PairFed cfg start a b h')
    (pre : ∀ c, c = a ∨ c = b → Spec.robotOdom cfg c h <+: Spec.robotOdom cfg c h')
    (clo : (Spec.pairGroups cfg a b h).flatten.Perm (Spec.pairGroups cfg a b h').flatten)
    (hsym : ∀ x ∈ (Spec.pairGroups cfg a b h).flatten, ∀ y ∈ (Spec.pairGroups cfg a b h).flatten,
      loopVerdict cfg (lk cfg s'.pcm) x y = loopVerdict cfg (lk cfg s'.pcm) y x) :
    ∃ f g : Nat → Nat,
      (∀ i, i < (Spec.registered s ⟨a, b⟩).length → f i < (Spec.registered s' ⟨a, b⟩).length ∧ g (f i) = i ∧
        (Spec.registered s' ⟨a, b⟩)[f i]? = (Spec.registered s ⟨a, b⟩)[i]?) ∧
      (∀ i, i < (Spec.registered s' ⟨a, b⟩).length → g i < (Spec.registered s ⟨a, b⟩).length ∧ f (g i) = i) ∧
      ∀ i j, i < (Spec.registered s ⟨a, b⟩).length → j < (Spec.registered s ⟨a, b⟩).length →
        (Spec.Agree s ⟨a, b⟩ i j ↔ Spec.Agree s' ⟨a, b⟩ (f i) (f j)) := by
  have e := registered_filter hs hr r r' hf hf' pre
  have e' := registered_filter hs hr r' r' hf' hf' (fun c _ => List.prefix_refl _)
  have hp : (Spec.registered s ⟨a, b⟩).Perm (Spec.registered s' ⟨a, b⟩) := by
    rw [e, e']; exact clo.filter _
  obtain ⟨f, g, hf1, hg1⟩ := perm_index hp
  refine ⟨f, g, hf1, hg1, fun i j hi hj => ?_⟩
  have hmem : ∀ x ∈ Spec.registered s ⟨a, b⟩, x ∈ (Spec.pairGroups cfg a b h).flatten := fun x hx => by
    rw [e] at hx; exact (List.mem_filter.1 hx).1
  by_cases hij : i = j
  · subst hij
    exact ⟨fun t => absurd rfl t.2.2.1, fun t => absurd rfl t.2.2.1⟩
  · obtain ⟨a1, a2, a3⟩ := hf1 i hi
    obtain ⟨b1, b2, b3⟩ := hf1 j hj
    have ne : f i ≠ f j := fun q => hij (by rw [← a2, ← b2, q])
    refine agree_transfer hs hr hl r r' hf hf' pre (x := (Spec.registered s ⟨a, b⟩)[i]) (y := (Spec.registered s ⟨a, b⟩)[j])
      (hsym _ (hmem _ (List.getElem_mem _)) _ (hmem _ (List.getElem_mem _))) hij ne
      (List.getElem?_eq_getElem hi) (List.getElem?_eq_getElem hj) (by rw [a3]; exact List.getElem?_eq_getElem hi)
      (by rw [b3]; exact List.getElem?_eq_getElem hj)

end RPGO

namespace RPGO
variable {G T N : Type} [Mul G] [Inv G] [One G]

theorem agreeing_map {s s' : St G T N} {id : ObsId} {f : Nat → Nat} {n : Nat} (hn : ∀ i, i < n → i < (Spec.registered s id).length)
    (hlt : ∀ i, i < n → f i < (Spec.registered s' id).length) (inj : ∀ i j, i < n → j < n → f i = f j → i = j)
    (ag : ∀ i j, i < n → j < n → Spec.Agree s id i j → Spec.Agree s' id (f i) (f j))
    {I : List Nat} (hI : Spec.Agreeing s id I) (hb : ∀ i ∈ I, i < n) : Spec.Agreeing s' id (I.map f) := by
  refine ⟨(List.nodup_map_iff_inj_on hI.1).2 fun i hi j hj e => inj i j (hb i hi) (hb j hj) e, ?_, ?_⟩
  · intro i hi
    obtain ⟨j, hj, rfl⟩ := List.mem_map.1 hi
    exact hlt j (hb j hj)
  · intro i hi j hj hne
    obtain ⟨i', hi', rfl⟩ := List.mem_map.1 hi
    obtain ⟨j', hj', rfl⟩ := List.mem_map.1 hj
    exact ag i' j' (hb i' hi') (hb j' hj') (hI.2.2 i' hi' j' hj' (fun e => hne (by rw [e])))

/-- A leading group stays one when the closures arrive in another order. -/
theorem order_leading {G : Type} [Group G] {cfg : Cfg G T N} {env env' : Env G N} (hr : cfg.rejection = true) (hl : cfg.loopCheck = true)
    {h h' : List (Op G N)} {s s' : St G T N} (r : ReachOk cfg env h s) (r' : ReachOk cfg env' h' s') {id : ObsId} {f g : Nat → Nat}
    (hf : ∀ i, i < (Spec.registered s id).length → f i < (Spec.registered s' id).length ∧ g (f i) = i ∧
        (Spec.registered s' id)[f i]? = (Spec.registered s id)[i]?)
    (hg : ∀ i, i < (Spec.registered s' id).length → g i < (Spec.registered s id).length ∧ f (g i) = i)
    (ag : ∀ i j, i < (Spec.registered s id).length → j < (Spec.registered s id).length →
        (Spec.Agree s id i j ↔ Spec.Agree s' id (f i) (f j)))
    {I : List Nat} (hI : Spec.LeadingGroup s id I) : (Spec.selected s id).Perm (Spec.selected s' id) := by
  have hb := hI.1.2.1
  have hI' : Spec.LeadingGroup s' id (I.map f) := by
    refine ⟨agreeing_map (fun _ t => t) (fun i t => (hf i t).1) (fun i j hi hj e => by rw [← (hf i hi).2.1, ← (hf j hj).2.1, e])
      (fun i j hi hj t => (ag i j hi hj).1 t) hI.1 hb, ?_, ?_⟩
    · intro i hi j hij
      obtain ⟨i0, hi0, rfl⟩ := List.mem_map.1 hi
      obtain ⟨g1, g2⟩ := hg j hij.2.1
      rw [← g2] at hij ⊢
      exact List.mem_map_of_mem (hI.2.1 i0 hi0 _ ((ag i0 _ (hb i0 hi0) g1).2 hij))
    · intro l hl' hd
      have e1 := agreeing_map (s := s') (s' := s) (f := g) (n := (Spec.registered s' id).length) (fun _ t => t) (fun i t => (hg i t).1)
        (fun i j hi hj e => by rw [← (hg i hi).2, ← (hg j hj).2, e])
        (fun i j hi hj t => (ag _ _ (hg i hi).1 (hg j hj).1).2 (by rw [(hg i hi).2, (hg j hj).2]; exact t)) hl' hl'.2.1
      have := hI.2.2 (l.map g) e1 (by
        intro i hi hiI
        obtain ⟨i0, hi0, rfl⟩ := List.mem_map.1 hi
        exact hd i0 hi0 (List.mem_map.2 ⟨g i0, hiI, (hg i0 (hl'.2.1 i0 hi0)).2⟩))
      simpa using this
  obtain ⟨idx, hp, ha⟩ := Props.C74_group_accepted hr hl r hI
  obtain ⟨idx', hp', ha'⟩ := Props.C74_group_accepted hr hl r' hI'
  refine (List.map_perm_map_iff (Option.some_injective _)).1 ?_
  rw [ha, ha']
  refine (hp.map _).trans (List.Perm.trans ?_ (hp'.map _).symm)
  rw [List.map_map]
  refine List.Perm.of_eq (List.map_congr_left fun i hi => ?_)
  exact ((hf i (hb i hi)).2.2).symm

/-- If agreement is transitive the number of accepted closures does not depend on the order. -/
theorem order_number {cfg : Cfg G T N} {env env' : Env G N} (hr : cfg.rejection = true) (hl : cfg.loopCheck = true)
    {h h' : List (Op G N)} {s s' : St G T N} (r : ReachOk cfg env h s) (r' : ReachOk cfg env' h' s') {id : ObsId} {f g : Nat → Nat}
    (hf : ∀ i, i < (Spec.registered s id).length → f i < (Spec.registered s' id).length ∧ g (f i) = i ∧
        (Spec.registered s' id)[f i]? = (Spec.registered s id)[i]?)
    (hg : ∀ i, i < (Spec.registered s' id).length → g i < (Spec.registered s id).length ∧ f (g i) = i)
    (ag : ∀ i j, i < (Spec.registered s id).length → j < (Spec.registered s id).length →
        (Spec.Agree s id i j ↔ Spec.Agree s' id (f i) (f j)))
    (len : (Spec.registered s id).length = (Spec.registered s' id).length)
    (ht : Spec.Transitive s id) : (Spec.selected s id).length = (Spec.selected s' id).length := by
  rcases Nat.lt_or_ge (Spec.registered s id).length 2 with h2 | h2
  · rw [Props.C64_single hr hl r id (by omega), Props.C64_single hr hl r' id (by omega), len]
  · have ag' : ∀ i j, i < (Spec.registered s' id).length → j < (Spec.registered s' id).length → Spec.Agree s' id i j →
        Spec.Agree s id (g i) (g j) := fun i j hi hj t =>
      (ag _ _ (hg i hi).1 (hg j hj).1).2 (by rw [(hg i hi).2, (hg j hj).2]; exact t)
    have ht' : Spec.Transitive s' id := by
      intro i j k hij hjk hne
      have q := ht (g i) (g j) (g k) (ag' i j hij.1 hij.2.1 hij) (ag' j k hjk.1 hjk.2.1 hjk)
        (fun e => hne (by rw [← (hg i hij.1).2, ← (hg k hjk.2.1).2, e]))
      have := (ag _ _ (hg i hij.1).1 (hg k hjk.2.1).1).1 q
      rwa [(hg i hij.1).2, (hg k hjk.2.1).2] at this
    obtain ⟨idx, a1, a2, a3, _⟩ := Props.C64_consistent_partial hr hl r id h2 ht
    obtain ⟨idx', b1, b2, b3, _⟩ := Props.C64_consistent_partial hr hl r' id (by omega) ht'
    have e1 : (Spec.selected s id).length = idx.length := by simpa using congrArg List.length a1
    have e2 : (Spec.selected s' id).length = idx'.length := by simpa using congrArg List.length b1
    have l1 := b3 _ (agreeing_map (f := f) (n := (Spec.registered s id).length) (fun _ t => t) (fun i t => (hf i t).1)
      (fun i j hi hj e => by rw [← (hf i hi).2.1, ← (hf j hj).2.1, e]) (fun i j hi hj t => (ag i j hi hj).1 t) a2 a2.2.1)
    have l2 := a3 _ (agreeing_map (f := g) (n := (Spec.registered s' id).length) (fun _ t => t) (fun i t => (hg i t).1)
      (fun i j hi hj e => by rw [← (hg i hi).2, ← (hg j hj).2, e]) ag' b2 b2.2.1)
    simp only [List.length_map] at l1 l2
    omega

end RPGO

namespace RPGO.Props
variable {G : Type} [Mul G] [Inv G] [One G] {C K : Type} [Field K] [LinearOrder K]

/-- C75, one check: if the distances do not change under inversion and conjugation (as for rotation angles
and pure translations), it does not matter which of two closures in the same direction is checked against which. -/
theorem C75_either_first {G : Type} [Group G] (p : Params K) (tn rn : G → K) (signed : Bool)
    (h1 : ∀ g, tn g⁻¹ = tn g ∧ rn g⁻¹ = rn g) (h2 : ∀ g x, tn (x * g * x⁻¹) = tn g ∧ rn (x * g * x⁻¹) = rn g)
    (s : St G (PNode G) (GNoise C)) (x y : Btw G (GNoise C)) (hx : x.noise.isSome) (hy : y.noise.isSome)
    (hk : chr x.k1 = chr y.k1) (hk' : chr x.k2 = chr y.k2) (v : Bool)
    (h : Spec.PairCheck (p.cfgSimple C tn rn signed) s x y v) : Spec.PairCheck (p.cfgSimple C tn rn signed) s y x v := by
  have := pairCheck_of (cfg := p.cfgSimple C tn rn signed) (s := s) hy hx
  rw [← loopVerdict_sym p tn rn signed h1 h2 _ x y hk hk', ← pairCheck_val h] at this
  exact this

/-- C75, whole histories, for PcmSimple with distances that do not change under inversion and conjugation,
and for closures that all lead from `a` to `b` (which is no restriction for the closures of one robot): two solvers get
the same odometry of the two robots, and the same closures between them in different orders and differently divided into
calls. They register the same closures, and if agreement is transitive they accept equally many; if the one solver's
closures contain a leading group, they accept the same ones. -/
theorem C75_any_order {G : Type} [Group G] (p : Params K) (tn rn : G → K) (signed : Bool) (hm : p.method ≠ .none)
    (h1 : ∀ g, tn g⁻¹ = tn g ∧ rn g⁻¹ = rn g) (h2 : ∀ g x, tn (x * g * x⁻¹) = tn g ∧ rn (x * g * x⁻¹) = rn g)
    (hl : (p.cfgSimple C tn rn signed).loopCheck = true)
    {e e' : Env G (GNoise C)} {a b : Chr} {start : Chr → Key} {h h' : List (Op G (GNoise C))}
    (hf : Spec.PairFed (p.cfgSimple C tn rn signed) start a b h) (hf' : Spec.PairFed (p.cfgSimple C tn rn signed) start a b h')
    (odo : ∀ c, c = a ∨ c = b →
      Spec.robotOdom (p.cfgSimple C tn rn signed) c h <+: Spec.robotOdom (p.cfgSimple C tn rn signed) c h')
    (clo : (Spec.pairGroups (p.cfgSimple C tn rn signed) a b h).flatten.Perm
      (Spec.pairGroups (p.cfgSimple C tn rn signed) a b h').flatten)
    (dir : ∀ x ∈ (Spec.pairGroups (p.cfgSimple C tn rn signed) a b h).flatten, chr x.k1 = a ∧ chr x.k2 = b)
    {s s' : St G (PNode G) (GNoise C)} (r : ReachOk (p.cfgSimple C tn rn signed) e h s)
    (r' : ReachOk (p.cfgSimple C tn rn signed) e' h' s') :
    (Spec.registered s ⟨a, b⟩).Perm (Spec.registered s' ⟨a, b⟩) ∧
    (Spec.Transitive s ⟨a, b⟩ → (Spec.selected s ⟨a, b⟩).length = (Spec.selected s' ⟨a, b⟩).length) ∧
    ((∃ I, Spec.LeadingGroup s ⟨a, b⟩ I) → (Spec.selected s ⟨a, b⟩).Perm (Spec.selected s' ⟨a, b⟩)) := by
  have hr : (p.cfgSimple C tn rn signed).rejection = true := by simp [Params.cfgSimple, Params.cfg, hm]
  have hs : StartFree (p.cfgSimple C tn rn signed).ops := node_startFree tn rn _ _ _ _
  have hp : (Spec.registered s ⟨a, b⟩).Perm (Spec.registered s' ⟨a, b⟩) := by
    rw [registered_filter hs hr r r' hf hf' odo, registered_filter hs hr r' r' hf' hf' (fun c _ => List.prefix_refl _)]
    exact clo.filter _
  obtain ⟨f, g, hf1, hg1, ag⟩ := order_index hs hr hl r r' hf hf' odo clo (fun x hx y hy =>
    loopVerdict_sym p tn rn signed h1 h2 _ x y ((dir x hx).1.trans (dir y hy).1.symm) ((dir x hx).2.trans (dir y hy).2.symm))
  exact ⟨hp, order_number hr hl r r' hf1 hg1 ag hp.length_eq, fun ⟨_, hI⟩ => order_leading hr hl r r' hf1 hg1 ag hI⟩

end RPGO.Props

namespace RPGO.Props

/-- The closures of `muddle` in another order. -/
def muddle' : List (Op Demo.Z Demo.Ns) :=
  wandering [(3, 3, 2), (0, 1, 23), (1, 2, -40), (2, 2, 26), (0, 3, 5), (0, 0, 20), (1, 1, 2)]

theorem wandering_fed {cs : List (BitVec 56 × BitVec 56 × ℤ)} {cfg : Cfg Demo.Z Demo.Tp Demo.Ns} (hc : cfg = Demo.cfg ∨ cfg = demoInc)
    (h : pairFedB cfg (fun c => symKey c 0) 97 98 [] (wandering cs) = true)
    (ho : Spec.robotOdom cfg 97 (wandering cs) = muddleA ∧ Spec.robotOdom cfg 98 (wandering cs) = muddleB) :
    Spec.PairFed cfg (fun c => symKey c 0) 97 98 (wandering cs) := by
  obtain ⟨h1, h2⟩ := pairFed_of (cfg := cfg) (start := fun c => symKey c 0) (a := 97) (b := 98) (h := wandering cs) h
  refine ⟨?_, by rcases hc with rfl | rfl <;> decide, ?_, ?_, ?_, h1, h2⟩
  · intro op ho
    simp [wandering, wanderings] at ho
    rcases ho with rfl | rfl | rfl | rfl | rfl | rfl | rfl <;> trivial
  · rintro c (rfl | rfl) <;> decide +kernel
  · rintro c (rfl | rfl)
    · simp only [Spec.Chain, ho.1, muddleA]; decide +kernel
    · simp only [Spec.Chain, ho.2, muddleB]; decide +kernel
  · rintro c (rfl | rfl)
    · rw [ho.1]; unfold muddleA; decide +kernel
    · rw [ho.2]; unfold muddleB; decide +kernel

set_option maxRecDepth 100000 in
/-- The hypotheses of `C75_any_order` are met by the seven closures of `muddle` in two orders. -/
example : Demo.cfg = Demo.params.cfgSimple Unit Demo.len (fun _ => 0) true ∧ Demo.params.method ≠ .none ∧
    ((∀ g, Demo.len g⁻¹ = Demo.len g) ∧ ∀ g x, Demo.len (x * g * x⁻¹) = Demo.len g) ∧ Demo.cfg.loopCheck = true ∧
    Spec.PairFed Demo.cfg (fun c => symKey c 0) 97 98 muddle ∧ Spec.PairFed Demo.cfg (fun c => symKey c 0) 97 98 muddle' ∧
    (∀ c, c = 97 ∨ c = 98 → Spec.robotOdom Demo.cfg c muddle <+: Spec.robotOdom Demo.cfg c muddle') ∧
    ((Spec.pairGroups Demo.cfg 97 98 muddle).flatten.Perm (Spec.pairGroups Demo.cfg 97 98 muddle').flatten ∧
      Spec.pairGroups Demo.cfg 97 98 muddle ≠ Spec.pairGroups Demo.cfg 97 98 muddle') ∧
    (∀ x ∈ (Spec.pairGroups Demo.cfg 97 98 muddle).flatten, chr x.k1 = 97 ∧ chr x.k2 = 98) ∧
    ∃ s s', ReachOk Demo.cfg Demo.env muddle s ∧ ReachOk Demo.cfg Demo.env muddle' s' ∧
      Spec.LeadingGroup s ⟨97, 98⟩ [1, 3, 5] ∧ (Spec.selected s ⟨97, 98⟩).length = 3 := by
  have o' : Spec.robotOdom Demo.cfg 97 muddle' = muddleA ∧ Spec.robotOdom Demo.cfg 98 muddle' = muddleB := by decide +kernel
  refine ⟨rfl, by decide, ⟨fun g => ?_, fun g x => ?_⟩, rfl, wandering_fed (Or.inl rfl) (by decide +kernel) muddle_odom,
    wandering_fed (Or.inl rfl) (by decide +kernel) o', ?_, by decide +kernel, by decide +kernel, ?_⟩
  · show ((|-(Multiplicative.toAdd g)| : ℤ) : ℚ) = _
    rw [abs_neg]; rfl
  · rw [mul_right_comm, mul_inv_cancel, one_mul]
  · rintro c (rfl | rfl)
    · rw [muddle_odom.1, o'.1]
    · rw [muddle_odom.2, o'.2]
  · obtain ⟨s, r, h⟩ := Demo.runs_reach (cfg := Demo.cfg) (env := Demo.env) (ops := muddle)
      (P := fun s => leadB s ⟨97, 98⟩ [1, 3, 5] && decide ((Spec.selected s ⟨97, 98⟩).length = 3)) (by decide +kernel)
    obtain ⟨s', r', _⟩ := Demo.runs_reach (cfg := Demo.cfg) (env := Demo.env) (ops := muddle') (P := fun _ => true) (by decide +kernel)
    rw [Bool.and_eq_true] at h
    exact ⟨s, s', r, r', leadB_ok h.1, of_decide_eq_true h.2⟩

set_option maxRecDepth 100000 in
/-- The condition on the directions cannot be dropped. Closures in opposite directions, on a line. The closure from `a0` to `b0` passes the
check against the closure from `b0` to `a3`; the closure from `b0` to `a3` does not pass it against the closure from `a0`
to `b0`. Both are accepted if they arrive in the one order, only the first if they arrive in the other. -/
theorem C75_false_directions :
    (∃ s, ReachOk Demo.cfg Demo.env (wanderings.take 6) s ∧
      Spec.PairCheck Demo.cfg s (Demo.btw (Demo.a 0) (Demo.b 0) 3) (Demo.btw (Demo.b 0) (Demo.a 3) 0) true ∧
      Spec.PairCheck Demo.cfg s (Demo.btw (Demo.b 0) (Demo.a 3) 0) (Demo.btw (Demo.a 0) (Demo.b 0) 3) false) ∧
    (∃ s, ReachOk Demo.cfg Demo.env
        (wanderings.take 6 ++ [.update [Demo.edge (Demo.a 0) (Demo.b 0) 3, Demo.edge (Demo.b 0) (Demo.a 3) 0] [] true]) s ∧
      Spec.selected s ⟨97, 98⟩ = [Demo.btw (Demo.a 0) (Demo.b 0) 3, Demo.btw (Demo.b 0) (Demo.a 3) 0]) ∧
    (∃ s, ReachOk Demo.cfg Demo.env
        (wanderings.take 6 ++ [.update [Demo.edge (Demo.b 0) (Demo.a 3) 0, Demo.edge (Demo.a 0) (Demo.b 0) 3] [] true]) s ∧
      Spec.selected s ⟨97, 98⟩ = [Demo.btw (Demo.b 0) (Demo.a 3) 0]) := by
  refine ⟨?_, ?_, ?_⟩
  · obtain ⟨s, r, h⟩ := Demo.runs_reach (cfg := Demo.cfg) (env := Demo.env) (ops := wanderings.take 6)
      (P := fun s => pairIs Demo.cfg (Demo.btw (Demo.a 0) (Demo.b 0) 3) (Demo.btw (Demo.b 0) (Demo.a 3) 0) true s &&
        pairIs Demo.cfg (Demo.btw (Demo.b 0) (Demo.a 3) 0) (Demo.btw (Demo.a 0) (Demo.b 0) 3) false s) (by decide +kernel)
    rw [Bool.and_eq_true] at h
    exact ⟨s, r, pairIs_iff h.1, pairIs_iff h.2⟩
  · obtain ⟨s, r, h⟩ := Demo.runs_reach (cfg := Demo.cfg) (env := Demo.env)
      (ops := wanderings.take 6 ++ [.update [Demo.edge (Demo.a 0) (Demo.b 0) 3, Demo.edge (Demo.b 0) (Demo.a 3) 0] [] true])
      (P := fun s => decide (Spec.selected s ⟨97, 98⟩ = [Demo.btw (Demo.a 0) (Demo.b 0) 3, Demo.btw (Demo.b 0) (Demo.a 3) 0])) (by decide +kernel)
    exact ⟨s, r, of_decide_eq_true h⟩
  · obtain ⟨s, r, h⟩ := Demo.runs_reach (cfg := Demo.cfg) (env := Demo.env)
      (ops := wanderings.take 6 ++ [.update [Demo.edge (Demo.b 0) (Demo.a 3) 0, Demo.edge (Demo.a 0) (Demo.b 0) 3] [] true])
      (P := fun s => decide (Spec.selected s ⟨97, 98⟩ = [Demo.btw (Demo.b 0) (Demo.a 3) 0])) (by decide +kernel)
    exact ⟨s, r, of_decide_eq_true h⟩

set_option maxRecDepth 100000 in
/-- If no group leads, which of two equally large groups is accepted depends on the order. -/
theorem C75_false_tie :
    (∃ s, ReachOk Demo.cfg Demo.env (meetings [(0, 0, 2), (1, 1, 2), (0, 0, 20), (1, 1, 20)]) s ∧
      Spec.selected s ⟨97, 98⟩ = [Demo.btw (Demo.a 0) (Demo.b 0) 2, Demo.btw (Demo.a 1) (Demo.b 1) 2]) ∧
    ∃ s, ReachOk Demo.cfg Demo.env (meetings [(0, 0, 20), (1, 1, 20), (0, 0, 2), (1, 1, 2)]) s ∧
      Spec.selected s ⟨97, 98⟩ = [Demo.btw (Demo.a 0) (Demo.b 0) 20, Demo.btw (Demo.a 1) (Demo.b 1) 20] := by
  constructor
  · obtain ⟨s, r, h⟩ := Demo.runs_reach (cfg := Demo.cfg) (env := Demo.env) (ops := meetings [(0, 0, 2), (1, 1, 2), (0, 0, 20), (1, 1, 20)])
      (P := fun s => decide (Spec.selected s ⟨97, 98⟩ = [Demo.btw (Demo.a 0) (Demo.b 0) 2, Demo.btw (Demo.a 1) (Demo.b 1) 2])) (by decide +kernel)
    exact ⟨s, r, of_decide_eq_true h⟩
  · obtain ⟨s, r, h⟩ := Demo.runs_reach (cfg := Demo.cfg) (env := Demo.env) (ops := meetings [(0, 0, 20), (1, 1, 20), (0, 0, 2), (1, 1, 2)])
      (P := fun s => decide (Spec.selected s ⟨97, 98⟩ = [Demo.btw (Demo.a 0) (Demo.b 0) 20, Demo.btw (Demo.a 1) (Demo.b 1) 20])) (by decide +kernel)
    exact ⟨s, r, of_decide_eq_true h⟩

end RPGO.Props

/-! ### Turning robots -/

namespace RPGO.Demo

/-- Poses of a robot that moves on a line and can turn round: position, and whether it looks back. -/
structure Turn where
  t : ℤ
  back : Bool
deriving DecidableEq

namespace Turn

def comp (a b : Turn) : Turn := ⟨a.t + (if a.back then -b.t else b.t), xor a.back b.back⟩
def neg (a : Turn) : Turn := ⟨if a.back then a.t else -a.t, a.back⟩

instance : Group Turn where
  mul := comp
  one := ⟨0, false⟩
  inv := neg
  mul_assoc := by
    rintro ⟨t1, b1⟩ ⟨t2, b2⟩ ⟨t3, b3⟩
    show comp (comp _ _) _ = comp _ (comp _ _)
    cases b1 <;> cases b2 <;> simp [comp] <;> omega
  one_mul := by
    rintro ⟨t, b⟩
    show comp ⟨0, false⟩ _ = _
    simp [comp]
  mul_one := by
    rintro ⟨t, b⟩
    show comp _ ⟨0, false⟩ = _
    simp [comp]
  inv_mul_cancel := by
    rintro ⟨t, b⟩
    show comp (neg _) _ = ⟨0, false⟩
    cases b <;> simp [comp, neg]

/-- Length of the translation, and angle of the rotation (3 stands for half a turn). -/
def tn (g : Turn) : ℚ := (|g.t| : ℤ)
def rn (g : Turn) : ℚ := if g.back then 3 else 0

/-- Parameters after `setPcmSimple2DParams(1, 2, 1, 2, QUIET)`: at most 1 of length and 2 of angle per measurement. -/
def cfg : Cfg Turn (PNode Turn) Ns := (Params.default.apply (.simple2D 1 2 .quiet) : Params ℚ).cfgSimple Unit tn rn true

def env : Env Turn Ns where
  opt _ v := some v
  gnc g v _ _ := some (v, List.replicate g.length 1)
  avg l := l.head?
  iterLC l := l
  iterLM l := l

def btw (k1 k2 : Key) (d : ℤ) (back : Bool) : Btw Turn Ns := ⟨k1, k2, ⟨d, back⟩, some ⟨(), false⟩⟩
def edge (k1 k2 : Key) (d : ℤ) (back : Bool) : Option (Factor Turn Ns) := some (.btw (btw k1 k2 d back))
def pose (k : Key) (d : ℤ) : Key × Val Turn := (k, .pose ⟨d, false⟩)

/-- Two robots that make a step of length 10 each, then closures between them. -/
def steps (fs : Graph Turn Ns) : List (Op Turn Ns) :=
  [.update [edge (a 0) (a 1) 10 false] [pose (a 0) 0, pose (a 1) 10] true,
   .update [edge (b 0) (b 1) 10 false] [pose (b 0) 0, pose (b 1) 10] true,
   .update fs [] true]

end Turn
end RPGO.Demo

namespace RPGO.Props
open Demo

set_option maxRecDepth 100000 in
/-- The condition on the distances cannot be dropped, not even for closures in the same direction, if robots can turn: the closure from `a0` to `b0`
measuring nothing, and the closure from `a0` to `b1` measuring ten steps and half a turn, are both accepted if they arrive
in this order, and one of them only if they arrive in the other order. -/
theorem C75_false_turning :
    (∃ s, ReachOk Turn.cfg Turn.env (Turn.steps [Turn.edge (a 0) (b 0) 0 false, Turn.edge (a 0) (b 1) 10 true]) s ∧
      Spec.selected s ⟨97, 98⟩ = [Turn.btw (a 0) (b 0) 0 false, Turn.btw (a 0) (b 1) 10 true]) ∧
    ∃ s, ReachOk Turn.cfg Turn.env (Turn.steps [Turn.edge (a 0) (b 1) 10 true, Turn.edge (a 0) (b 0) 0 false]) s ∧
      Spec.selected s ⟨97, 98⟩ = [Turn.btw (a 0) (b 1) 10 true] := by
  constructor
  · obtain ⟨s, r, h⟩ := Demo.runs_reach (cfg := Turn.cfg) (env := Turn.env)
      (ops := Turn.steps [Turn.edge (a 0) (b 0) 0 false, Turn.edge (a 0) (b 1) 10 true])
      (P := fun s => decide (Spec.selected s ⟨97, 98⟩ = [Turn.btw (a 0) (b 0) 0 false, Turn.btw (a 0) (b 1) 10 true])) (by decide +kernel)
    exact ⟨s, r, of_decide_eq_true h⟩
  · obtain ⟨s, r, h⟩ := Demo.runs_reach (cfg := Turn.cfg) (env := Turn.env)
      (ops := Turn.steps [Turn.edge (a 0) (b 1) 10 true, Turn.edge (a 0) (b 0) 0 false])
      (P := fun s => decide (Spec.selected s ⟨97, 98⟩ = [Turn.btw (a 0) (b 1) 10 true])) (by decide +kernel)
    exact ⟨s, r, of_decide_eq_true h⟩

end RPGO.Props

/-! ### C76 -/

namespace RPGO.Props
variable {G : Type} [Mul G] [Inv G] [One G] {C K : Type} [Field K] [LinearOrder K]

/-- C76: a closure passes the pairwise check against a copy of itself (PcmSimple). -/
theorem C76_copies_agree {G : Type} [Group G] (p : Params K) (tn rn : G → K) (signed : Bool) (ht : tn 1 = 0) (hr : rn 1 = 0) (h1 : 0 < p.distT)
    (h2 : 0 < p.distR) (s : St G (PNode G) (GNoise C)) (x : Btw G (GNoise C)) (hx : x.noise.isSome) :
    Spec.PairCheck (p.cfgSimple C tn rn signed) s x x true := by
  obtain ⟨nx, ex⟩ := Option.isSome_iff_exists.1 hx
  have := pairCheck_of (cfg := p.cfgSimple C tn rn signed) (s := s) hx hx
  have e : loopVerdict (p.cfgSimple C tn rn signed) (lk (p.cfgSimple C tn rn signed) s.pcm) x x = true := by
    unfold loopVerdict
    rw [ex]
    show (_ || PNode.check tn rn _ _ _) = true
    rw [check_one ht hr h1 h2 (loopErr_self (cfg := p.cfgSimple C tn rn signed) (poseOps_node tn rn _ _ _ _) _ x nx nx) (node_loopErr p tn rn signed _ x x nx nx), Bool.or_true]
  rwa [e] at this

/-- C76: a closure passes the pairwise check against a copy of itself (PCM2D / PCM3D). -/
theorem C76_copies_agree_cov {G : Type} [Group G] [AddGroup C] (p : Params K) (ce : CovEnv G C K) (signed : Bool)
    (hz : ∀ S, ce.maha 1 S = some 0 ∧ ce.mahaT 1 S = some 0) (h1 : 0 < p.lcThr)
    (s : St G (PCov G C) (GNoise C)) (x : Btw G (GNoise C)) (hx : x.noise.isSome) :
    Spec.PairCheck (p.cfgCov ce signed) s x x true := by
  obtain ⟨nx, ex⟩ := Option.isSome_iff_exists.1 hx
  have := pairCheck_of (cfg := p.cfgCov ce signed) (s := s) hx hx
  have e : loopVerdict (p.cfgCov ce signed) (lk (p.cfgCov ce signed) s.pcm) x x = true := by
    unfold loopVerdict
    rw [ex]
    have e1 : (loopErr (p.cfgCov ce signed) (lk (p.cfgCov ce signed) s.pcm) x x nx nx).pose = 1 :=
      loopErr_self (cfg := p.cfgCov ce signed) (poseOps_cov ce _ _) _ x nx nx
    show (_ || PCov.check ce _ _) = true
    unfold PCov.check PCov.norm
    rw [e1]
    split
    · rw [(hz _).1]; simp [ltThr, h1]
    · rw [(hz _).2]; simp [ltThr, h1]
  rwa [e] at this

end RPGO.Props

namespace RPGO
variable {G T N : Type} [Mul G] [Inv G] [One G]

/-- A member of a leading group is received once more. -/
theorem again_leading {G : Type} [Group G] {cfg : Cfg G T N} (hs : StartFree cfg.ops) {env env' : Env G N} (hr : cfg.rejection = true) (hl : cfg.loopCheck = true)
    {h h' : List (Op G N)} {s s' : St G T N} (r : ReachOk cfg env h s) (r' : ReachOk cfg env' h' s') {start : Chr → Key} {a b : Chr}
    (hf : Spec.PairFed cfg start a b h) (hf' : Spec.PairFed cfg start a b h')
    (pre : ∀ c, c = a ∨ c = b → Spec.robotOdom cfg c h <+: Spec.robotOdom cfg c h')
    {x : Btw G N} (clo : (Spec.pairGroups cfg a b h').flatten = (Spec.pairGroups cfg a b h).flatten ++ [x])
    (hsym : ∀ y ∈ (Spec.pairGroups cfg a b h).flatten, loopVerdict cfg (lk cfg s'.pcm) x y = loopVerdict cfg (lk cfg s'.pcm) y x)
    (hself : x.noise.isSome → loopVerdict cfg (lk cfg s'.pcm) x x = true)
    {I : List Nat} (hI : Spec.LeadingGroup s ⟨a, b⟩ I) (hx : x ∈ Spec.selected s ⟨a, b⟩) :
    (Spec.selected s' ⟨a, b⟩).Perm (x :: Spec.selected s ⟨a, b⟩) := by
  have e := registered_filter hs hr r r' hf hf' pre
  have e' := registered_filter hs hr r' r' hf' hf' (fun c _ => List.prefix_refl _)
  obtain ⟨idx, hp, ha⟩ := Props.C74_group_accepted hr hl r hI
  obtain ⟨k, hk, hkx⟩ : ∃ k ∈ I, (Spec.registered s ⟨a, b⟩)[k]? = some x := by
    have : some x ∈ (Spec.selected s ⟨a, b⟩).map some := List.mem_map_of_mem hx
    rw [ha] at this
    obtain ⟨k, hk, e⟩ := List.mem_map.1 this
    exact ⟨k, hp.subset hk, e⟩
  have hreg : Spec.registered s' ⟨a, b⟩ = Spec.registered s ⟨a, b⟩ ++ [x] := by
    have hxm := List.mem_of_getElem? hkx
    rw [e, List.mem_filter] at hxm
    rw [e', clo, List.filter_append, ← e, List.filter_cons, if_pos hxm.2, List.filter_nil]
  set n := (Spec.registered s ⟨a, b⟩).length with hn
  have hb := hI.1.2.1
  have hmem : ∀ y ∈ Spec.registered s ⟨a, b⟩, y ∈ (Spec.pairGroups cfg a b h).flatten := fun y hy => by
    rw [e] at hy; exact (List.mem_filter.1 hy).1
  have get : ∀ i, i < n → (Spec.registered s' ⟨a, b⟩)[i]? = (Spec.registered s ⟨a, b⟩)[i]? := fun i hi => by
    rw [hreg, List.getElem?_append_left hi]
  have getn : (Spec.registered s' ⟨a, b⟩)[n]? = some x := by
    rw [hreg, List.getElem?_append_right (le_refl _)]; simp
  have len : (Spec.registered s' ⟨a, b⟩).length = n + 1 := by rw [hreg]; simp [hn]
  -- agreement among the old positions
  have old : ∀ i j, i < n → j < n → (Spec.Agree s ⟨a, b⟩ i j ↔ Spec.Agree s' ⟨a, b⟩ i j) := by
    have lt : ∀ i j, j < n → i < j → (Spec.Agree s ⟨a, b⟩ i j ↔ Spec.Agree s' ⟨a, b⟩ i j) := by
      intro i j hj hlt
      have hi : i < n := by omega
      have ei := List.getElem?_eq_getElem hi
      have ej := List.getElem?_eq_getElem hj
      have fx := registered_fine hs hr r hf (List.mem_of_getElem? ei)
      have fy := registered_fine hs hr r hf (List.mem_of_getElem? ej)
      rw [agree_of_check hs hr hl r hf hlt ei ej, agree_of_check hs hr hl r' hf' hlt ((get i hi).trans ei) ((get j hj).trans ej)]
      have sh := r.reach.shape hr hl ⟨a, b⟩
      have h2 : 2 ≤ (lcOf s.pcm ⟨a, b⟩).factors.length := by
        have : j < (lcOf s.pcm ⟨a, b⟩).factors.length := hj
        omega
      have n1 := sh.noise h2 _ (List.getElem_mem hi)
      have n2 := sh.noise h2 _ (List.getElem_mem hj)
      have v := (fine_same hs hr r r' hf' pre).2 _ _ fx fy
      constructor
      · intro t
        have q := pairCheck_of (cfg := cfg) (s := s') n1 n2
        rwa [← v, ← pairCheck_val t] at q
      · intro t
        have q := pairCheck_of (cfg := cfg) (s := s) n1 n2
        rwa [v, ← pairCheck_val t] at q
    intro i j hi hj
    rcases Nat.lt_trichotomy i j with h' | h' | h'
    · exact lt i j hj h'
    · subst h'
      exact ⟨fun t => absurd rfl t.2.2.1, fun t => absurd rfl t.2.2.1⟩
    · exact ⟨fun t => Agree.symm ((lt j i hi h').1 (Agree.symm t)), fun t => Agree.symm ((lt j i hi h').2 (Agree.symm t))⟩
  have hkn : k < n := hb k hk
  -- the copy agrees with what the original agrees with
  have new : ∀ i, i < n → i ≠ k → (Spec.Agree s ⟨a, b⟩ i k ↔ Spec.Agree s' ⟨a, b⟩ i n) := by
    intro i hi hne
    have ei := List.getElem?_eq_getElem hi
    exact agree_transfer hs hr hl r r' hf hf' pre (hsym _ (hmem _ (List.mem_of_getElem? ei))).symm hne (by omega)
      ei hkx ((get i hi).trans ei) getn
  have own : Spec.Agree s' ⟨a, b⟩ k n := by
    rw [agree_of_check hs hr hl r' hf' hkn ((get k hkn).trans hkx) getn]
    have sh := r'.reach.shape hr hl ⟨a, b⟩
    have hx' : x ∈ (lcOf s'.pcm ⟨a, b⟩).factors := List.mem_of_getElem? getn
    have h2 : 2 ≤ (lcOf s'.pcm ⟨a, b⟩).factors.length := by
      have : (lcOf s'.pcm ⟨a, b⟩).factors.length = n + 1 := len
      omega
    have nx := sh.noise h2 _ hx'
    have q := pairCheck_of (cfg := cfg) (s := s') nx nx
    rwa [hself nx] at q
  have hI' : Spec.LeadingGroup s' ⟨a, b⟩ (n :: I) := by
    refine ⟨⟨List.nodup_cons.2 ⟨fun t => Nat.lt_irrefl _ (hb n t), hI.1.1⟩, ?_, ?_⟩, ?_, ?_⟩
    · intro i hi
      rw [len]
      rcases List.mem_cons.1 hi with rfl | hi
      · omega
      · exact Nat.lt_succ_of_lt (hb i hi)
    · have key : ∀ i ∈ I, Spec.Agree s' ⟨a, b⟩ i n := fun i hi => by
        by_cases hik : i = k
        · rw [hik]; exact own
        · exact (new i (hb i hi) hik).1 (hI.1.2.2 i hi k hk hik)
      intro i hi j hj hij
      rcases List.mem_cons.1 hi with rfl | hi
      · rcases List.mem_cons.1 hj with rfl | hj
        · exact absurd rfl hij
        · exact Agree.symm (key j hj)
      · rcases List.mem_cons.1 hj with rfl | hj
        · exact key i hi
        · exact (old i j (hb i hi) (hb j hj)).1 (hI.1.2.2 i hi j hj hij)
    · intro i hi j hij
      have hj : j < n + 1 := by rw [← len]; exact hij.2.1
      rcases Nat.lt_or_eq_of_le (Nat.le_of_lt_succ hj) with hj | rfl
      · refine List.mem_cons_of_mem _ ?_
        rcases List.mem_cons.1 hi with rfl | hi
        · by_cases hjk : j = k
          · rw [hjk]; exact hk
          · exact hI.2.1 k hk j (Agree.symm ((new j hj hjk).2 (Agree.symm hij)))
        · exact hI.2.1 i hi j ((old i j (hb i hi) hj).2 hij)
      · exact List.mem_cons_self
    · intro l hl' hd
      have hln : ∀ i ∈ l, i < n := fun i hi => by
        have h1 := hl'.2.1 i hi
        have h2 : i ≠ n := fun t => hd i hi (by rw [t]; exact List.mem_cons_self)
        omega
      have := hI.2.2 l ⟨hl'.1, hln, fun i hi j hj hne => (old i j (hln i hi) (hln j hj)).2 (hl'.2.2 i hi j hj hne)⟩
        (fun i hi t => hd i hi (List.mem_cons_of_mem _ t))
      simp only [List.length_cons]; omega
  obtain ⟨idx', hp', ha'⟩ := Props.C74_group_accepted hr hl r' hI'
  refine (List.map_perm_map_iff (Option.some_injective _)).1 ?_
  rw [ha', List.map_cons, ha]
  refine (hp'.map _).trans ?_
  rw [List.map_cons, getn]
  refine List.Perm.cons _ (List.Perm.trans (List.Perm.of_eq (List.map_congr_left fun i hi => get i (hb i hi))) (hp.map _).symm)

end RPGO

namespace RPGO.Props
variable {G : Type} [Mul G] [Inv G] [One G] {C K : Type} [Field K] [LinearOrder K]

open Classical in
/-- C76: each arrival of a closure counts. If the copies of one closure agree with no other registered closure of the
pair, and outnumber every set of agreeing closures among the others, exactly these copies are accepted, all of them. -/
theorem C76_each_copy_counts {G : Type} [Group G] (p : Params K) (tn rn : G → K) (signed : Bool) (hm : p.method ≠ .none) (ht : tn 1 = 0) (hr1 : rn 1 = 0)
    (h1 : 0 < p.distT) (h2 : 0 < p.distR) (hl : (p.cfgSimple C tn rn signed).loopCheck = true)
    {env : Env G (GNoise C)} {h : List (Op G (GNoise C))} {s : St G (PNode G) (GNoise C)}
    (r : ReachOk (p.cfgSimple C tn rn signed) env h s) {start : Chr → Key} {a b : Chr}
    (hf : Spec.PairFed (p.cfgSimple C tn rn signed) start a b h) (x : Btw G (GNoise C))
    (alone : ∀ i j y, (Spec.registered s ⟨a, b⟩)[i]? = some x → (Spec.registered s ⟨a, b⟩)[j]? = some y → y ≠ x →
      ¬ Spec.Agree s ⟨a, b⟩ i j)
    (lead : ∀ l, Spec.Agreeing s ⟨a, b⟩ l → (∀ i ∈ l, (Spec.registered s ⟨a, b⟩)[i]? ≠ some x) →
      l.length < (Spec.registered s ⟨a, b⟩).count x) :
    Spec.selected s ⟨a, b⟩ = List.replicate ((Spec.registered s ⟨a, b⟩).count x) x := by
  have hr : (p.cfgSimple C tn rn signed).rejection = true := by simp [Params.cfgSimple, Params.cfg, hm]
  have e : ((Spec.registered s ⟨a, b⟩).filter fun y => decide (y = x)) = List.replicate ((Spec.registered s ⟨a, b⟩).count x) x := by
    rw [← List.filter_beq]
    refine List.filter_congr fun y _ => ?_
    rw [Bool.eq_iff_iff]; simp
  have := accepted_checked (P := fun y => y = x) (node_startFree tn rn _ _ _ _) hr hl r hf
    (by rintro _ _ hx _ rfl rfl; exact C76_copies_agree p tn rn signed ht hr1 h1 h2 s _ hx)
    (by rintro i j _ y hx hy rfl hne; exact alone i j y hx hy hne)
    (fun l hl' ho => by rw [e, List.length_replicate]; exact lead l hl' fun i hi t => ho i hi x t rfl)
  rw [e] at this
  exact List.perm_replicate.1 this

/-- C76 for PcmSimple with distances that do not change under inversion and conjugation and closures in one
direction: if an accepted closure of a leading group is received once more, it is accepted once more, and nothing else
changes for the pair. -/
theorem C76_again {G : Type} [Group G] (p : Params K) (tn rn : G → K) (signed : Bool) (hm : p.method ≠ .none)
    (i1 : ∀ g, tn g⁻¹ = tn g ∧ rn g⁻¹ = rn g) (i2 : ∀ g x, tn (x * g * x⁻¹) = tn g ∧ rn (x * g * x⁻¹) = rn g)
    (ht : tn 1 = 0) (hr1 : rn 1 = 0) (h1 : 0 < p.distT) (h2 : 0 < p.distR)
    (hl : (p.cfgSimple C tn rn signed).loopCheck = true)
    {e e' : Env G (GNoise C)} {a b : Chr} {start : Chr → Key} {h h' : List (Op G (GNoise C))}
    (hf : Spec.PairFed (p.cfgSimple C tn rn signed) start a b h) (hf' : Spec.PairFed (p.cfgSimple C tn rn signed) start a b h')
    (odo : ∀ c, c = a ∨ c = b →
      Spec.robotOdom (p.cfgSimple C tn rn signed) c h <+: Spec.robotOdom (p.cfgSimple C tn rn signed) c h')
    {x : Btw G (GNoise C)}
    (clo : (Spec.pairGroups (p.cfgSimple C tn rn signed) a b h').flatten =
      (Spec.pairGroups (p.cfgSimple C tn rn signed) a b h).flatten ++ [x])
    (dir : ∀ y ∈ (Spec.pairGroups (p.cfgSimple C tn rn signed) a b h').flatten, chr y.k1 = a ∧ chr y.k2 = b)
    {s s' : St G (PNode G) (GNoise C)} (r : ReachOk (p.cfgSimple C tn rn signed) e h s)
    (r' : ReachOk (p.cfgSimple C tn rn signed) e' h' s') {I : List Nat} (hI : Spec.LeadingGroup s ⟨a, b⟩ I)
    (hx : x ∈ Spec.selected s ⟨a, b⟩) : (Spec.selected s' ⟨a, b⟩).Perm (x :: Spec.selected s ⟨a, b⟩) := by
  have hr : (p.cfgSimple C tn rn signed).rejection = true := by simp [Params.cfgSimple, Params.cfg, hm]
  have dx := dir x (by rw [clo]; simp)
  refine again_leading (node_startFree tn rn _ _ _ _) hr hl r r' hf hf' odo clo (fun y hy => ?_) (fun nx => ?_) hI hx
  · have dy := dir y (by rw [clo]; exact List.mem_append_left _ hy)
    exact loopVerdict_sym p tn rn signed i1 i2 _ x y (dx.1.trans dy.1.symm) (dx.2.trans dy.2.symm)
  · exact (pairCheck_val (C76_copies_agree p tn rn signed ht hr1 h1 h2 s' x nx)).symm

end RPGO.Props

namespace RPGO.Props

set_option maxRecDepth 100000 in
/-- Repetition can change what is accepted: of three closures two agree and are accepted, the third is rejected. After the rejected
one has been received two more times, its copies are accepted and the two others are rejected. -/
theorem C76_false_outvoted : ∃ s s',
    ReachOk Demo.cfg Demo.env (wandering [(0, 0, 2), (1, 1, 2), (0, 1, 40)]) s ∧
    ReachOk Demo.cfg Demo.env (wandering [(0, 0, 2), (1, 1, 2), (0, 1, 40)] ++
      [.update [Demo.edge (Demo.a 0) (Demo.b 1) 40, Demo.edge (Demo.a 0) (Demo.b 1) 40] [] true]) s' ∧
    Spec.selected s ⟨97, 98⟩ = [Demo.btw (Demo.a 0) (Demo.b 0) 2, Demo.btw (Demo.a 1) (Demo.b 1) 2] ∧
    Spec.selected s' ⟨97, 98⟩ = List.replicate 3 (Demo.btw (Demo.a 0) (Demo.b 1) 40) := by
  obtain ⟨s, s', r, r', h⟩ := runs_compare (cfg := Demo.cfg) (env := Demo.env) (ops := wandering [(0, 0, 2), (1, 1, 2), (0, 1, 40)])
    (op := .update [Demo.edge (Demo.a 0) (Demo.b 1) 40, Demo.edge (Demo.a 0) (Demo.b 1) 40] [] true)
    (P := fun s s' => decide (Spec.selected s ⟨97, 98⟩ = [Demo.btw (Demo.a 0) (Demo.b 0) 2, Demo.btw (Demo.a 1) (Demo.b 1) 2] ∧
    Spec.selected s' ⟨97, 98⟩ = List.replicate 3 (Demo.btw (Demo.a 0) (Demo.b 1) 40))) (by decide +kernel)
  exact ⟨s, s', r, r', of_decide_eq_true h⟩

end RPGO.Props

namespace RPGO.Props

theorem wandering_fed' {cs : List (BitVec 56 × BitVec 56 × ℤ)} {fs : Graph Demo.Z Demo.Ns} 
    (h : pairFedB Demo.cfg (fun c => symKey c 0) 97 98 [] (wandering cs ++ [.update fs [] true]) = true)
    (ho : Spec.robotOdom Demo.cfg 97 (wandering cs ++ [.update fs [] true]) = muddleA ∧
      Spec.robotOdom Demo.cfg 98 (wandering cs ++ [.update fs [] true]) = muddleB) :
    Spec.PairFed Demo.cfg (fun c => symKey c 0) 97 98 (wandering cs ++ [.update fs [] true]) := by
  obtain ⟨h1, h2⟩ := pairFed_of h
  refine ⟨?_, by decide, ?_, ?_, ?_, h1, h2⟩
  · intro op ho
    simp [wandering, wanderings] at ho
    rcases ho with rfl | rfl | rfl | rfl | rfl | rfl | rfl | rfl <;> trivial
  · rintro c (rfl | rfl) <;> decide +kernel
  · rintro c (rfl | rfl)
    · simp only [Spec.Chain, ho.1, muddleA]; decide +kernel
    · simp only [Spec.Chain, ho.2, muddleB]; decide +kernel
  · rintro c (rfl | rfl)
    · rw [ho.1]; unfold muddleA; decide +kernel
    · rw [ho.2]; unfold muddleB; decide +kernel

/-- `muddle`, and then a closure that was received before. -/
def muddleAgain : List (Op Demo.Z Demo.Ns) := muddle ++ [.update [Demo.edge (Demo.a 0) (Demo.b 3) 5] [] true]

set_option maxRecDepth 100000 in
/-- The hypotheses of `C76_again` (those on the distances are shown for C75) are met by `muddle` and
`muddleAgain`. -/
example : Spec.PairFed Demo.cfg (fun c => symKey c 0) 97 98 muddle ∧ Spec.PairFed Demo.cfg (fun c => symKey c 0) 97 98 muddleAgain ∧
    (∀ c, c = 97 ∨ c = 98 → Spec.robotOdom Demo.cfg c muddle <+: Spec.robotOdom Demo.cfg c muddleAgain) ∧
    (Spec.pairGroups Demo.cfg 97 98 muddleAgain).flatten =
      (Spec.pairGroups Demo.cfg 97 98 muddle).flatten ++ [Demo.btw (Demo.a 0) (Demo.b 3) 5] ∧
    (∀ y ∈ (Spec.pairGroups Demo.cfg 97 98 muddleAgain).flatten, chr y.k1 = 97 ∧ chr y.k2 = 98) ∧
    ∃ s s', ReachOk Demo.cfg Demo.env muddle s ∧ ReachOk Demo.cfg Demo.env muddleAgain s' ∧
      Spec.LeadingGroup s ⟨97, 98⟩ [1, 3, 5] ∧ Demo.btw (Demo.a 0) (Demo.b 3) 5 ∈ Spec.selected s ⟨97, 98⟩ := by
  have o' : Spec.robotOdom Demo.cfg 97 muddleAgain = muddleA ∧ Spec.robotOdom Demo.cfg 98 muddleAgain = muddleB := by decide +kernel
  refine ⟨wandering_fed (Or.inl rfl) (by decide +kernel) muddle_odom, wandering_fed' (by decide +kernel) o', ?_, by decide +kernel,
    by decide +kernel, ?_⟩
  · rintro c (rfl | rfl)
    · rw [muddle_odom.1, o'.1]
    · rw [muddle_odom.2, o'.2]
  · obtain ⟨s, s', r, r', h⟩ := runs_compare (cfg := Demo.cfg) (env := Demo.env) (ops := muddle)
      (op := .update [Demo.edge (Demo.a 0) (Demo.b 3) 5] [] true)
      (P := fun s _ => leadB s ⟨97, 98⟩ [1, 3, 5] && decide (Demo.btw (Demo.a 0) (Demo.b 3) 5 ∈ Spec.selected s ⟨97, 98⟩)) (by decide +kernel)
    rw [Bool.and_eq_true] at h
    exact ⟨s, s', r, r', leadB_ok h.1, of_decide_eq_true h.2⟩

set_option maxRecDepth 100000 in
/-- The hypotheses of `C76_each_copy_counts` are met by a rejected closure that is received two more times. -/
example : ∃ s, ReachOk Demo.cfg Demo.env (wandering [(0, 0, 2), (0, 1, 40), (1, 1, 2), (0, 1, 40), (0, 1, 40)]) s ∧
    Spec.PairFed Demo.cfg (fun c => symKey c 0) 97 98 (wandering [(0, 0, 2), (0, 1, 40), (1, 1, 2), (0, 1, 40), (0, 1, 40)]) ∧
    (∀ i j y, (Spec.registered s ⟨97, 98⟩)[i]? = some (Demo.btw (Demo.a 0) (Demo.b 1) 40) → (Spec.registered s ⟨97, 98⟩)[j]? = some y →
      y ≠ Demo.btw (Demo.a 0) (Demo.b 1) 40 → ¬ Spec.Agree s ⟨97, 98⟩ i j) ∧
    (∀ l, Spec.Agreeing s ⟨97, 98⟩ l → (∀ i ∈ l, (Spec.registered s ⟨97, 98⟩)[i]? ≠ some (Demo.btw (Demo.a 0) (Demo.b 1) 40)) →
      l.length < (Spec.registered s ⟨97, 98⟩).count (Demo.btw (Demo.a 0) (Demo.b 1) 40)) ∧
    (Spec.registered s ⟨97, 98⟩).count (Demo.btw (Demo.a 0) (Demo.b 1) 40) = 3 := by
  obtain ⟨s, r, h⟩ := Demo.runs_reach (cfg := Demo.cfg) (env := Demo.env)
    (ops := wandering [(0, 0, 2), (0, 1, 40), (1, 1, 2), (0, 1, 40), (0, 1, 40)])
    (P := fun s => leadB s ⟨97, 98⟩ [1, 3, 4] && (decide ((Spec.registered s ⟨97, 98⟩).length = 5) &&
      (decide ((Spec.registered s ⟨97, 98⟩).count (Demo.btw (Demo.a 0) (Demo.b 1) 40) = 3) &&
      (List.range 5).all fun i => decide ((Spec.registered s ⟨97, 98⟩)[i]? = some (Demo.btw (Demo.a 0) (Demo.b 1) 40)) == decide (i ∈ [1, 3, 4]))))
      (by decide +kernel)
  rw [Bool.and_eq_true, Bool.and_eq_true, Bool.and_eq_true] at h
  obtain ⟨h1, h2, h3, h4⟩ := h
  have hg := leadB_ok h1
  have h2 := of_decide_eq_true h2
  have h3 := of_decide_eq_true h3
  have key : ∀ i, i < (Spec.registered s ⟨97, 98⟩).length →
      ((Spec.registered s ⟨97, 98⟩)[i]? = some (Demo.btw (Demo.a 0) (Demo.b 1) 40) ↔ i ∈ [1, 3, 4]) := by
    intro i hi
    rw [h2] at hi
    exact decide_eq_decide.1 (beq_iff_eq.1 (List.all_eq_true.1 h4 i (List.mem_range.2 hi)))
  refine ⟨s, r, wandering_fed (Or.inl rfl) (by decide +kernel) (by decide +kernel), ?_, ?_, h3⟩
  · intro i j y hx hy hne ha
    have := (key j ha.2.1).2 (hg.2.1 i ((key i ha.1).1 hx) j ha)
    rw [hy] at this
    exact hne (Option.some.inj this)
  · intro l hl ho
    rw [h3]
    exact hg.2.2 l hl fun i hi hm => ho i hi ((key i (hl.2.1 i hi)).2 hm)

end RPGO.Props
