import Verif.Proofs.Fleet
import Verif.Proofs.Plain
/-
C84 the part of the graph that concerns some of the robots is the graph these robots would get on their own.
-/

namespace RPGO.Spec
variable {G T N : Type} [Mul G] [Inv G] [One G]

/-- Solver `s'` holds exactly what solver `s` holds about the robots of `fleet` and the landmarks of `land`: the factors of
which all keys are theirs, as many times; estimates for their keys; for each two of the robots the same closures, registered
and accepted, with the same matrix; for each of the landmarks the same observations. It counts no more closures. -/
structure PartOf (cfg : Cfg G T N) (e e' : Env G N) (fleet : Chr → Bool) (land : Key → Bool) (s s' : St G T N) : Prop where
  graph : (keepFactors (ofFleet cfg fleet land) s.nfg).Perm s'.nfg
  keys : s'.values.keys = s.values.keys.filter (ofFleet cfg fleet land)
  registered : ∀ a b, fleet a = true → fleet b = true → Spec.registered s' ⟨a, b⟩ = Spec.registered s ⟨a, b⟩
  matrix : ∀ a b, fleet a = true → fleet b = true → Spec.matrix s' ⟨a, b⟩ = Spec.matrix s ⟨a, b⟩
  selected : ∀ a b, fleet a = true → fleet b = true → Spec.selected s' ⟨a, b⟩ = Spec.selected s ⟨a, b⟩
  observed : ∀ l, ofFleet cfg fleet land l = true → Spec.observed s' l = Spec.observed s l
  landMatrix : ∀ l, ofFleet cfg fleet land l = true → Spec.landMatrix s' l = Spec.landMatrix s l
  accepted : ∀ l, ofFleet cfg fleet land l = true → Spec.acceptedOf s' l = Spec.acceptedOf s l
  count : ∀ n n', NumLC cfg e s n → NumLC cfg e' s' n' → n' ≤ n

/-- Every supplied factor has keys, and either all of them or none of them belong to the fleet. -/
def TwoFleets (cfg : Cfg G T N) (fleet : Chr → Bool) (land : Key → Bool) (h : List (Op G N)) : Prop :=
  ∀ op ∈ h, ∀ f, some f ∈ opFactors op → f.keys ≠ [] ∧
    ((∀ k ∈ f.keys, ofFleet cfg fleet land k = true) ∨ ∀ k ∈ f.keys, ofFleet cfg fleet land k = false)

end RPGO.Spec

namespace RPGO
variable {G T N : Type} [Mul G] [Inv G] [One G]

theorem lcOf_outside {cfg : Cfg G T N} (hs : StartFree cfg.ops) {env : Env G N} (hr : cfg.rejection = true) {fleet : Chr → Bool}
    {land : Key → Bool} {start : Chr → Key} {owner : Key → Chr} {h : List (Op G N)} (w : Spec.WellFed cfg start owner h)
    {s' : St G T N} (r' : ReachOk cfg env (h.map (Spec.keep (Spec.ofFleet cfg fleet land))) s') (id : ObsId)
    (hid : (fleet id.id1 && fleet id.id2) = false) : lcOf s'.pcm id = Meas.empty := by
  by_cases hsp : id.id1 ∈ cfg.special ∨ id.id2 ∈ cfg.special
  · exact r'.reach.lcOf_special hr hsp
  · obtain ⟨n1, n2⟩ := not_or.1 hsp
    have w' := WellFed.inFleet w (fleet := fleet) (land := land)
    have := (r'.pairState hr hs (pairFed_global w'.chains w'.reached w'.known w'.keeps n1 n2)).run
    rw [pairGroups_fleet n1 n2, hid] at this
    exact this

theorem lmOf_outside {cfg : Cfg G T N} (hs : StartFree cfg.ops) {env : Env G N} (hr : cfg.rejection = true) {fleet : Chr → Bool}
    {land : Key → Bool} {start : Chr → Key} {owner : Key → Chr} {h : List (Op G N)} (w : Spec.WellFed cfg start owner h)
    (ho : Spec.OwnLandmarks cfg fleet land h)
    {s' : St G T N} (r' : ReachOk cfg env (h.map (Spec.keep (Spec.ofFleet cfg fleet land))) s') (l : Key)
    (hl : Spec.ofFleet cfg fleet land l = false) : lmOf s'.pcm l = Meas.empty := by
  have w' := WellFed.inFleet w (fleet := fleet) (land := land)
  have := r'.landState hr hs (landFed_global w'.chains w'.reached w'.known w'.observer l)
  rw [lmSoFar_fleet ho, if_neg (by rw [hl]; simp)] at this
  have hf : (lmOf s'.pcm l).factors = [] := this.1
  have ha : (lmOf s'.pcm l).adj = (Meas.empty : Meas G N).adj := this.2
  have hc : (lmOf s'.pcm l).cons = [] := by
    rw [(r'.lmChosen hr l).few (by rw [hf]; simp), hf]
  generalize lmOf s'.pcm l = m at hf ha hc
  obtain ⟨f, c, a⟩ := m
  simp only at hf ha hc
  rw [hf, hc, ha]; rfl

/-- The factors filed for a landmark are observations of it that were supplied. -/
theorem land_supplied {cfg : Cfg G T N} (hs : StartFree cfg.ops) {env : Env G N} (hr : cfg.rejection = true) {start : Chr → Key}
    {owner : Key → Chr} {h : List (Op G N)} (w : Spec.WellFed cfg start owner h) {s : St G T N} (r : ReachOk cfg env h s) (l : Key) :
    ∀ b ∈ (lmOf s.pcm l).cons, ∃ op ∈ h, b ∈ Spec.opBtws op ∧ Spec.isLandmark cfg b = true ∧ Spec.landmarkOf cfg b = l := by
  have hfold : ∀ (xs : List (Bool × Btw G N)) (m : Meas G N) (b : Btw G N),
      b ∈ (xs.foldl (landStep cfg (lk cfg s.pcm) l) m).factors → b ∈ m.factors ∨ ∃ x ∈ xs, x.2 = b := by
    intro xs
    induction xs with
    | nil => intro m b hb; exact Or.inl hb
    | cons x xs ih =>
      intro m b hb
      rcases ih _ b hb with hb | ⟨y, hy, e⟩
      · unfold landStep at hb
        split at hb
        · exact Or.inr ⟨x, by simp, (List.mem_singleton.1 hb).symm⟩
        · rcases List.mem_append.1 (show b ∈ m.factors ++ [x.2] from hb) with hb | hb
          · exact Or.inl hb
          · exact Or.inr ⟨x, by simp, (List.mem_singleton.1 hb).symm⟩
      · exact Or.inr ⟨y, by simp [hy], e⟩
  intro b hb
  have hfac : b ∈ (lmOf s.pcm l).factors := by
    have hch := r.lmChosen hr l
    by_cases h1 : (lmOf s.pcm l).factors.length ≤ 1
    · rw [← hch.few h1]; exact hb
    · obtain ⟨k, idx, _, _, _, hp⟩ := hch.many (by omega)
      rw [hp.cons] at hb
      obtain ⟨i, _, hi⟩ := List.mem_filterMap.1 hb
      exact List.mem_of_getElem? hi
  rw [(r.landState hr hs (landFed_global w.chains w.reached w.known w.observer l)).1] at hfac
  rcases hfold _ _ _ hfac with h0 | ⟨x, hx, rfl⟩
  · simp [Meas.empty] at h0
  · obtain ⟨op, ho, hx⟩ := List.mem_flatMap.1 hx
    refine ⟨op, ho, ?_⟩
    have hlo := LandFed.seen_of hx
    unfold Spec.lmSeen at hx
    rcases List.mem_append.1 hx with hx | hx
    · obtain ⟨b, hb', rfl⟩ := List.mem_map.1 hx
      rw [lmFirsts_eq] at hb'
      obtain ⟨a, c⟩ := opFirsts_btws (List.mem_filter.1 hb').1
      exact ⟨a, c, hlo⟩
    · obtain ⟨b, hb', rfl⟩ := List.mem_map.1 hx
      obtain ⟨m, q⟩ := List.mem_filter.1 hb'
      rw [Bool.and_eq_true] at q
      exact ⟨opCands_btws m, q.1, hlo⟩

theorem ignored_keep {cfg : Cfg G T N} (hr : cfg.rejection = true) {e e' : Env G N} {q : Key → Bool} {h : List (Op G N)}
    {s s' : St G T N} (r : ReachOk cfg e h s) (r' : ReachOk cfg e' (h.map (Spec.keep q)) s') (c : Chr) :
    c ∈ getIgnored cfg s ↔ c ∈ getIgnored cfg s' := by
  rw [(Props.C24_ignored_set hr r.reach).2 c, (Props.C24_ignored_set hr r'.reach).2 c]
  have inj : ∀ {op : Op G N} {o : Op G N}, (o = .ignore c ∨ o = .revive c) → (Spec.keep q op = o ↔ op = o) := by
    intro op o ho
    rcases ho with rfl | rfl <;> cases op <;> simp [Spec.keep]
  constructor
  · rintro ⟨h1, h2, rfl, hn⟩
    refine ⟨h1.map (Spec.keep q), h2.map (Spec.keep q), by simp [Spec.keep], fun m => hn ?_⟩
    obtain ⟨o, mo, e⟩ := List.mem_map.1 m
    rw [← (inj (Or.inr rfl)).1 e]; exact mo
  · rintro ⟨h1, h2, e, hn⟩
    obtain ⟨g1, o, g2, rfl, rfl, e2⟩ := split_keep e
    have eo : o = .ignore c := (inj (Or.inl rfl)).1 e2.symm
    subst eo
    rw [List.map_append, List.map_cons] at e
    have e3 := (List.append_cancel_left e)
    injection e3 with _ e3
    refine ⟨g1, g2, rfl, fun m => hn ?_⟩
    rw [← e3]
    exact List.mem_map.2 ⟨.revive c, m, rfl⟩

/-- The closures counted by the restricted solver. -/
theorem fleet_count {cfg : Cfg G T N} (hs : StartFree cfg.ops) {e e' : Env G N} (hr : cfg.rejection = true) {fleet : Chr → Bool}
    {land : Key → Bool} {start : Chr → Key} {owner : Key → Chr} {h : List (Op G N)} (w : Spec.WellFed cfg start owner h)
    {s s' : St G T N} (r : ReachOk cfg e h s) (r' : ReachOk cfg e' (h.map (Spec.keep (Spec.ofFleet cfg fleet land))) s') :
    s'.pcm.totalLc =
      ((Spec.firstsSoFar cfg h).filter fun x => Spec.ofFleet cfg fleet land x.k1 && Spec.ofFleet cfg fleet land x.k2).length +
      (((Spec.candsSoFar cfg h).filter fun x => Spec.ofFleet cfg fleet land x.k1 && Spec.ofFleet cfg fleet land x.k2).filter
        (countedCand cfg s)).length := by
  have w' := WellFed.inFleet w (fleet := fleet) (land := land)
  have pre : ∀ c, Spec.robotOdom cfg c (h.map (Spec.keep (Spec.ofFleet cfg fleet land))) <+: Spec.robotOdom cfg c h := by
    intro c
    rw [robotOdom_fleet w.chains fun _ m => m]
    split
    · exact List.prefix_refl _
    · exact List.nil_prefix
  rw [r'.counted hs hr w'.chains w'.reached w'.known w'.keeps]
  have e1 : (Spec.candsSoFar cfg (h.map (Spec.keep (Spec.ofFleet cfg fleet land)))).filter (countedCand cfg s') =
      (Spec.candsSoFar cfg (h.map (Spec.keep (Spec.ofFleet cfg fleet land)))).filter (countedCand cfg s) :=
    List.filter_congr fun x hx => counted_same hs hr r' r w.chains w.reached w.known w.keeps pre w'.chains w'.reached w'.known
      w'.keeps hx
  rw [e1, firstsSoFar_keep, candsSoFar_keep]

theorem fleet_part {cfg : Cfg G T N} (hs : StartFree cfg.ops) {e e' : Env G N} (he : e.Ok) (he' : e'.Ok)
    (hr : cfg.rejection = true) {fleet : Chr → Bool} {land : Key → Bool} {start : Chr → Key} {owner : Key → Chr}
    {h : List (Op G N)} (w : Spec.WellFed cfg start owner h) (ho : Spec.OwnLandmarks cfg fleet land h) {s s' : St G T N}
    (r : ReachOk cfg e h s) (r' : ReachOk cfg e' (h.map (Spec.keep (Spec.ofFleet cfg fleet land))) s') :
    Spec.PartOf cfg e e' fleet land s s' := by
  have w' := WellFed.inFleet w (fleet := fleet) (land := land)
  have rob : ∀ c, Spec.robotOdom cfg c (h.map (Spec.keep (Spec.ofFleet cfg fleet land))) =
      if fleet c then Spec.robotOdom cfg c h else [] := robotOdom_fleet w.chains fun _ m => m
  have pre : ∀ c, Spec.robotOdom cfg c (h.map (Spec.keep (Spec.ofFleet cfg fleet land))) <+: Spec.robotOdom cfg c h := by
    intro c
    rw [rob c]
    split
    · exact List.prefix_refl _
    · exact List.nil_prefix
  have hlc : ∀ id, (fleet id.id1 && fleet id.id2) = true → lcOf s'.pcm id = lcOf s.pcm id := by
    intro id hid
    by_cases hsp : id.id1 ∈ cfg.special ∨ id.id2 ∈ cfg.special
    · rw [r.reach.lcOf_special hr hsp, r'.reach.lcOf_special hr hsp]
    · obtain ⟨n1, n2⟩ := not_or.1 hsp
      exact pair_same hs hr r' r (pairFed_global w'.chains w'.reached w'.known w'.keeps n1 n2)
        (pairFed_global w.chains w.reached w.known w.keeps n1 n2) (fun c _ => pre c)
        (by rw [pairGroups_fleet n1 n2, hid]; rfl)
  have hlm : ∀ l, Spec.ofFleet cfg fleet land l = true → lmOf s'.pcm l = lmOf s.pcm l := fun l hl =>
    land_alone (lm := cfg.lm) (debug := cfg.debug) (log := cfg.log) (useGnc := cfg.useGnc) (fixPrev := cfg.fixPrev)
      (biasOdom := cfg.biasOdom) hs hr r' r (landFed_global w'.chains w'.reached w'.known w'.observer l)
      (landFed_global w.chains w.reached w.known w.observer l) (pre _) (by rw [lmSoFar_fleet ho, if_pos hl])
  refine ⟨?_, ?_, fun a b ha hb => ?_, fun a b ha hb => ?_, fun a b ha hb => ?_, fun l hl => ?_, fun l hl => ?_, fun l hl => ?_, ?_⟩
  · obtain ⟨a1, a2, a3⟩ := r.lists he hr w.managed
    obtain ⟨b1, b2, b3⟩ := r'.lists he' hr w'.managed
    rw [a1, b1]
    unfold buildGraph Spec.keepFactors
    rw [a2, a3, b2, b3, odomSoFar_keep, specialSoFar_keep, List.filter_append, List.filter_append, List.filter_append]
    refine List.Perm.append (List.Perm.append (List.Perm.append ?_ ?_) ?_) ?_
    · rw [List.filter_map]
      refine List.Perm.of_eq ?_
      congr 1
      refine List.filter_congr fun x _ => ?_
      simp [Function.comp, Factor.keys]
    · rw [List.filter_map]
      exact List.Perm.of_eq rfl
    · have hig' : ∀ c, s.pcm.ignored.contains c = s'.pcm.ignored.contains c := by
        intro c
        have := ignored_keep hr r r' c
        unfold getIgnored at this
        rw [if_pos hr, if_pos hr] at this
        rw [Bool.eq_iff_iff, List.contains_iff_mem, List.contains_iff_mem]
        exact this
      refine (((he.lc _).flatMap_right _).filter _).trans (List.Perm.trans ?_ ((he'.lc _).symm.flatMap_right _))
      rw [flatMap_filter_entries (P := fun id : ObsId => fleet id.id1 && fleet id.id2)]
      · simp only [hig']
        refine table_perm_get ObsId.isEqv (d := Meas.empty) ?_ (r'.reach.distinct hr).1 ?_ ?_ ?_
        · exact (r.reach.distinct hr).1.sublist (List.filter_sublist.map _)
        · intro k; simp [Meas.empty]
        · intro k k' v q
          unfold ObsId.eqv at q
          split at q
          · rename_i h; simp only [h.1, h.2]
          · split at q
            · rename_i h
              simp only [h.1, h.2, Bool.and_comm]
            · cases q
        · intro k
          rw [get?_filter (P := fun id : ObsId => fleet id.id1 && fleet id.id2)]
          · cases hk : fleet k.id1 && fleet k.id2 with
            | true => exact (hlc k hk).symm
            | false => exact (lcOf_outside hs hr w r' k hk).symm
          · intro k k' q
            unfold ObsId.eqv at q
            split at q
            · rename_i h; simp only [h.1, h.2]
            · split at q
              · rename_i h
                simp only [h.1, h.2, Bool.and_comm]
              · cases q
      all_goals
        intro e0 m hP x hx
        split at hx
        · obtain ⟨b, hb, rfl⟩ := List.mem_map.1 hx
          have hf := r.reach.filed hr e0 m b (Or.inr hb)
          obtain ⟨n1, n2⟩ := (r.reach.keyed hr).1 e0.1 (List.mem_map_of_mem m)
          rw [show e0.1 = ⟨e0.1.id1, e0.1.id2⟩ from rfl, pairOf_connects] at hf
          unfold Spec.connects at hf
          have h2 : (Spec.ofFleet cfg fleet land b.k1 && Spec.ofFleet cfg fleet land b.k2) = (fleet e0.1.id1 && fleet e0.1.id2) := by
            rcases of_decide_eq_true hf with ⟨e1, e2⟩ | ⟨e1, e2⟩
            · rw [ofFleet_pose (by rw [e1]; exact n1), ofFleet_pose (by rw [e2]; exact n2), e1, e2]
            · rw [ofFleet_pose (by rw [e1]; exact n2), ofFleet_pose (by rw [e2]; exact n1), e1, e2, Bool.and_comm]
          simp only [Factor.keys, List.all_cons, List.all_nil, Bool.and_true]
          rw [h2]; exact hP
        · cases hx
    · refine (((he.lm _).flatMap_right _).filter _).trans (List.Perm.trans ?_ ((he'.lm _).symm.flatMap_right _))
      rw [flatMap_filter_entries (P := Spec.ofFleet cfg fleet land)]
      · refine table_perm_get AList.isEqv_beq (d := Meas.empty) ?_ (r'.reach.keyed hr).2 (fun k => by simp [Meas.empty])
          (fun k k' v q => rfl) ?_
        · exact (r.reach.keyed hr).2.sublist (List.filter_sublist.map _)
        · intro k
          rw [get?_filter (P := Spec.ofFleet cfg fleet land)]
          · cases hk : Spec.ofFleet cfg fleet land k with
            | true => exact (hlm k hk).symm
            | false => exact (lmOf_outside hs hr w ho r' k hk).symm
          · intro k k' q
            rw [beq_iff_eq] at q
            rw [q]
      all_goals
        intro e0 m hP x hx
        obtain ⟨b, hb, rfl⟩ := List.mem_map.1 hx
        have hb' : b ∈ (lmOf s.pcm e0.1).cons := by
          unfold lmOf
          rw [distinct_get AList.isEqv_beq (r.reach.keyed hr).2 m]
          exact hb
        obtain ⟨op, hop, hbo, hli, hlo⟩ := land_supplied hs hr w r e0.1 b hb'
        have e2 := ho op hop b hbo hli
        have h2 : (Spec.ofFleet cfg fleet land b.k1 && Spec.ofFleet cfg fleet land b.k2) = Spec.ofFleet cfg fleet land e0.1 := by
          unfold Spec.landmarkOf at hlo
          split at hlo
          · rw [← e2, Bool.and_self, hlo]
          · rw [e2, Bool.and_self, hlo]
        simp only [Factor.keys, List.all_cons, List.all_nil, Bool.and_true]
        rw [h2]; exact hP
  · obtain ⟨a1, a2⟩ := Props.C34_estimate_keys r
    obtain ⟨b1, b2⟩ := Props.C34_estimate_keys r'
    refine List.Pairwise.eq_of_mem_iff (r := fun a b : Key => a.toNat < b.toNat) b2 (a2.filter _) fun k => ?_
    rw [List.mem_filter, a1, b1]
    constructor
    · rintro ⟨op, m, hk⟩
      obtain ⟨o, mo, rfl⟩ := List.mem_map.1 m
      have := (mem_opKeys_keep (w.managed o mo)).1 hk
      exact ⟨⟨o, mo, this.1⟩, this.2⟩
    · rintro ⟨⟨o, mo, hk⟩, hq⟩
      exact ⟨_, List.mem_map_of_mem mo, (mem_opKeys_keep (w.managed o mo)).2 ⟨hk, hq⟩⟩
  · unfold Spec.registered; rw [hlc ⟨a, b⟩ (by simp [ha, hb])]
  · unfold Spec.matrix; rw [hlc ⟨a, b⟩ (by simp [ha, hb])]
  · unfold Spec.selected; rw [hlc ⟨a, b⟩ (by simp [ha, hb])]
  · unfold Spec.observed; rw [hlm l hl]
  · unfold Spec.landMatrix; rw [hlm l hl]
  · unfold Spec.acceptedOf; rw [hlm l hl]
  · intro n n' hn hn'
    rw [(Props.numLC_iff hr).1 hn, (Props.numLC_iff hr).1 hn', fleet_count hs hr w r r', r.counted hs hr w.chains w.reached w.known w.keeps]
    exact Nat.add_le_add (List.length_filter_le _ _) (List.Sublist.length_le (List.filter_sublist.filter _))

omit [Mul G] [Inv G] [One G] in
theorem buildGraph_some {env : Env G N} {p : Pcm G T N} : none ∉ buildGraph env p := by
  intro h
  unfold buildGraph at h
  simp only [List.mem_append, List.mem_map, List.mem_flatMap] at h
  rcases h with ((⟨_, _, h⟩ | ⟨_, _, h⟩) | ⟨e, _, h⟩) | ⟨e, _, _, _, h⟩
  · cases h
  · cases h
  · split at h
    · obtain ⟨_, _, h⟩ := List.mem_map.1 h; cases h
    · cases h
  · cases h

/-- Two fleets with nothing between them. -/
theorem fleet_two {cfg : Cfg G T N} (hs : StartFree cfg.ops) {e e1 e2 : Env G N} (he : e.Ok) (he1 : e1.Ok) (he2 : e2.Ok)
    (hr : cfg.rejection = true) {fleet : Chr → Bool} {land : Key → Bool} {start : Chr → Key} {owner : Key → Chr}
    {h : List (Op G N)} (w : Spec.WellFed cfg start owner h) (ht : Spec.TwoFleets cfg fleet land h) {s s1 s2 : St G T N}
    (r : ReachOk cfg e h s) (r1 : ReachOk cfg e1 (h.map (Spec.keep (Spec.ofFleet cfg fleet land))) s1)
    (r2 : ReachOk cfg e2 (h.map (Spec.keep (Spec.ofFleet cfg (fun c => !fleet c) fun l => !land l))) s2) :
    s.nfg.Perm (s1.nfg ++ s2.nfg) ∧ (∀ k, k ∈ s.values.keys ↔ k ∈ s1.values.keys ∨ k ∈ s2.values.keys) ∧
      ∀ n n1 n2, Spec.NumLC cfg e s n → Spec.NumLC cfg e1 s1 n1 → Spec.NumLC cfg e2 s2 n2 → n = n1 + n2 := by
  have neg : ∀ k, Spec.ofFleet cfg (fun c => !fleet c) (fun l => !land l) k = !Spec.ofFleet cfg fleet land k := by
    intro k
    unfold Spec.ofFleet
    split <;> rfl
  have hb : ∀ op ∈ h, ∀ x ∈ Spec.opBtws op, Spec.ofFleet cfg fleet land x.k1 = Spec.ofFleet cfg fleet land x.k2 := by
    intro op ho x hx
    have hx' : some (Factor.btw x) ∈ Spec.opFactors op := by
      unfold Spec.opBtws at hx
      cases hb : Spec.batch op with
      | none => rw [hb] at hx; cases hx
      | some y =>
        obtain ⟨fs, vs⟩ := y
        rw [hb] at hx
        rw [batch_factors hb]
        exact mem_btws.1 hx
    rcases (ht op ho _ hx').2 with hk | hk
    · rw [hk x.k1 (by simp [Factor.keys]), hk x.k2 (by simp [Factor.keys])]
    · rw [hk x.k1 (by simp [Factor.keys]), hk x.k2 (by simp [Factor.keys])]
  have o1 : Spec.OwnLandmarks cfg fleet land h := fun op ho x hx _ => hb op ho x hx
  have o2 : Spec.OwnLandmarks cfg (fun c => !fleet c) (fun l => !land l) h := fun op ho x hx _ => by
    rw [neg, neg, hb op ho x hx]
  have p1 := fleet_part hs he he1 hr w o1 r r1
  have p2 := fleet_part hs he he2 hr w o2 r r2
  refine ⟨?_, ?_, ?_⟩
  · refine List.Perm.trans ?_ (p1.graph.append p2.graph)
    obtain ⟨a1, _, _⟩ := r.lists he hr w.managed
    have : Spec.keepFactors (Spec.ofFleet cfg (fun c => !fleet c) fun l => !land l) s.nfg =
        s.nfg.filter fun f => !(match f with
          | some f => f.keys.all (Spec.ofFleet cfg fleet land)
          | none => true) := by
      unfold Spec.keepFactors
      refine List.filter_congr fun f hf => ?_
      rw [a1] at hf
      obtain ⟨op, ho, hfo⟩ := buildGraph_supplied he hr r.reach f hf
      cases f with
      | none => exact absurd hf buildGraph_some
      | some f =>
        obtain ⟨hne, hk⟩ := ht op ho f hfo
        simp only
        obtain ⟨k, hkm⟩ := List.exists_mem_of_ne_nil _ hne
        rcases hk with hk | hk
        · rw [List.all_eq_true.2 hk]
          refine List.all_eq_false.2 ⟨k, hkm, ?_⟩
          rw [neg, hk k hkm]; simp
        · rw [show f.keys.all (Spec.ofFleet cfg fleet land) = false from List.all_eq_false.2 ⟨k, hkm, by rw [hk k hkm]; simp⟩]
          refine List.all_eq_true.2 fun k hk' => ?_
          rw [neg, hk k hk']; rfl
    rw [this]
    exact (List.filter_append_perm _ _).symm
  · intro k
    rw [p1.keys, p2.keys, List.mem_filter, List.mem_filter, neg]
    cases Spec.ofFleet cfg fleet land k <;> simp
  · intro n n1 n2 hn hn1 hn2
    rw [(Props.numLC_iff hr).1 hn, (Props.numLC_iff hr).1 hn1, (Props.numLC_iff hr).1 hn2, fleet_count hs hr w r r1,
      fleet_count hs hr w r r2, r.counted hs hr w.chains w.reached w.known w.keeps]
    have parts : ∀ (l : List (Btw G N)), (∀ x ∈ l, ∃ op ∈ h, x ∈ Spec.opBtws op) → ∀ p : Btw G N → Bool,
        (l.filter p).length = ((l.filter fun x => Spec.ofFleet cfg fleet land x.k1 && Spec.ofFleet cfg fleet land x.k2).filter p).length +
        ((l.filter fun x => Spec.ofFleet cfg (fun c => !fleet c) (fun l => !land l) x.k1 &&
          Spec.ofFleet cfg (fun c => !fleet c) (fun l => !land l) x.k2).filter p).length := by
      intro l
      induction l with
      | nil => intro _ p; rfl
      | cons x l ih =>
        intro hl p
        have ih := ih (fun y m => hl y (by simp [m])) p
        obtain ⟨op, ho, hx⟩ := hl x (by simp)
        have e1 := hb op ho x hx
        have e2 : (Spec.ofFleet cfg fleet land x.k1 && Spec.ofFleet cfg fleet land x.k2) = Spec.ofFleet cfg fleet land x.k2 := by
          rw [e1, Bool.and_self]
        have e3 : (Spec.ofFleet cfg (fun c => !fleet c) (fun l => !land l) x.k1 &&
            Spec.ofFleet cfg (fun c => !fleet c) (fun l => !land l) x.k2) = !Spec.ofFleet cfg fleet land x.k2 := by
          rw [neg, neg, e1, Bool.and_self]
        simp only [List.filter_cons, e2, e3]
        cases Spec.ofFleet cfg fleet land x.k2 <;> cases hp : p x <;> simp [hp, -List.filter_filter] <;> omega
    have f1 := parts (Spec.firstsSoFar cfg h) (fun x hx => by
      obtain ⟨op, ho, hx⟩ := List.mem_flatMap.1 hx
      exact ⟨op, ho, (opFirsts_btws hx).1⟩) (fun _ => true)
    have f2 := parts (Spec.candsSoFar cfg h) (fun x hx => by
      obtain ⟨op, ho, hx⟩ := List.mem_flatMap.1 hx
      exact ⟨op, ho, opCands_btws hx⟩) (countedCand cfg s)
    have tr : ∀ l : List (Btw G N), l.filter (fun _ => true) = l := fun l => List.filter_eq_self.2 (by simp)
    rw [tr, tr, tr] at f1
    omega

end RPGO

namespace RPGO.Props
variable {G C K : Type} [Mul G] [Inv G] [One G] [Field K] [LinearOrder K]

/-- C84 (PCM_Simple2D / 3D): a solver that is given only what concerns some of the robots and their landmarks holds exactly
the part that concerns them of what a solver that is given everything holds, whatever the other robots measured, also of
the robots of the fleet, and whatever the values, the optimizers and the orders in which hash tables are visited. -/
theorem C84_fleet {G : Type} [Group G] (p : Params K) (tn rn : G → K) (signed : Bool) (hm : p.method ≠ .none) {e e' : Env G (GNoise C)}
    (he : e.Ok) (he' : e'.Ok) {fleet : Chr → Bool} {land : Key → Bool} {start : Chr → Key} {owner : Key → Chr}
    {h : List (Op G (GNoise C))} (w : Spec.WellFed (p.cfgSimple C tn rn signed) start owner h)
    (ho : Spec.OwnLandmarks (p.cfgSimple C tn rn signed) fleet land h) {s s' : St G (PNode G) (GNoise C)}
    (r : ReachOk (p.cfgSimple C tn rn signed) e h s)
    (r' : ReachOk (p.cfgSimple C tn rn signed) e' (h.map (Spec.keep (Spec.ofFleet (p.cfgSimple C tn rn signed) fleet land))) s') :
    Spec.PartOf (p.cfgSimple C tn rn signed) e e' fleet land s s' :=
  fleet_part (node_startFree tn rn _ _ _ _) he he' (by simp [Params.cfgSimple, Params.cfg, hm]) w ho r r'

/-- C84 for PCM2D / PCM3D. -/
theorem C84_fleet_cov {G : Type} [Group G] [AddGroup C] (p : Params K) (ce : CovEnv G C K) (signed : Bool) (hm : p.method ≠ .none)
    {e e' : Env G (GNoise C)} (he : e.Ok) (he' : e'.Ok) {fleet : Chr → Bool} {land : Key → Bool} {start : Chr → Key}
    {owner : Key → Chr} {h : List (Op G (GNoise C))} (w : Spec.WellFed (p.cfgCov ce signed) start owner h)
    (ho : Spec.OwnLandmarks (p.cfgCov ce signed) fleet land h) {s s' : St G (PCov G C) (GNoise C)}
    (r : ReachOk (p.cfgCov ce signed) e h s)
    (r' : ReachOk (p.cfgCov ce signed) e' (h.map (Spec.keep (Spec.ofFleet (p.cfgCov ce signed) fleet land))) s') :
    Spec.PartOf (p.cfgCov ce signed) e e' fleet land s s' :=
  fleet_part (cov_startFree ce _ _) he he' (by simp [Params.cfgCov, Params.cfg, hm]) w ho r r'

/-- C84: if nothing was measured between the fleet and the other robots, the factors of the graph are those of the graphs
the two fleets would get, the keys with estimates are those of the two, and the number of closures is the sum of the two. -/
theorem C84_two_fleets {G : Type} [Group G] (p : Params K) (tn rn : G → K) (signed : Bool) (hm : p.method ≠ .none) {e e1 e2 : Env G (GNoise C)}
    (he : e.Ok) (he1 : e1.Ok) (he2 : e2.Ok) {fleet : Chr → Bool} {land : Key → Bool} {start : Chr → Key} {owner : Key → Chr}
    {h : List (Op G (GNoise C))} (w : Spec.WellFed (p.cfgSimple C tn rn signed) start owner h)
    (ht : Spec.TwoFleets (p.cfgSimple C tn rn signed) fleet land h) {s s1 s2 : St G (PNode G) (GNoise C)}
    (r : ReachOk (p.cfgSimple C tn rn signed) e h s)
    (r1 : ReachOk (p.cfgSimple C tn rn signed) e1 (h.map (Spec.keep (Spec.ofFleet (p.cfgSimple C tn rn signed) fleet land))) s1)
    (r2 : ReachOk (p.cfgSimple C tn rn signed) e2
      (h.map (Spec.keep (Spec.ofFleet (p.cfgSimple C tn rn signed) (fun c => !fleet c) fun l => !land l))) s2) :
    s.nfg.Perm (s1.nfg ++ s2.nfg) ∧ (∀ k, k ∈ s.values.keys ↔ k ∈ s1.values.keys ∨ k ∈ s2.values.keys) ∧
      ∀ n n1 n2, Spec.NumLC (p.cfgSimple C tn rn signed) e s n → Spec.NumLC (p.cfgSimple C tn rn signed) e1 s1 n1 →
        Spec.NumLC (p.cfgSimple C tn rn signed) e2 s2 n2 → n = n1 + n2 :=
  fleet_two (node_startFree tn rn _ _ _ _) he he1 he2 (by simp [Params.cfgSimple, Params.cfg, hm]) w ht r r1 r2

/-- C84, two fleets, for PCM2D / PCM3D. -/
theorem C84_two_fleets_cov {G : Type} [Group G] [AddGroup C] (p : Params K) (ce : CovEnv G C K) (signed : Bool) (hm : p.method ≠ .none)
    {e e1 e2 : Env G (GNoise C)} (he : e.Ok) (he1 : e1.Ok) (he2 : e2.Ok) {fleet : Chr → Bool} {land : Key → Bool}
    {start : Chr → Key} {owner : Key → Chr} {h : List (Op G (GNoise C))} (w : Spec.WellFed (p.cfgCov ce signed) start owner h)
    (ht : Spec.TwoFleets (p.cfgCov ce signed) fleet land h) {s s1 s2 : St G (PCov G C) (GNoise C)}
    (r : ReachOk (p.cfgCov ce signed) e h s)
    (r1 : ReachOk (p.cfgCov ce signed) e1 (h.map (Spec.keep (Spec.ofFleet (p.cfgCov ce signed) fleet land))) s1)
    (r2 : ReachOk (p.cfgCov ce signed) e2
      (h.map (Spec.keep (Spec.ofFleet (p.cfgCov ce signed) (fun c => !fleet c) fun l => !land l))) s2) :
    s.nfg.Perm (s1.nfg ++ s2.nfg) ∧ (∀ k, k ∈ s.values.keys ↔ k ∈ s1.values.keys ∨ k ∈ s2.values.keys) ∧
      ∀ n n1 n2, Spec.NumLC (p.cfgCov ce signed) e s n → Spec.NumLC (p.cfgCov ce signed) e1 s1 n1 →
        Spec.NumLC (p.cfgCov ce signed) e2 s2 n2 → n = n1 + n2 :=
  fleet_two (cov_startFree ce _ _) he he1 he2 (by simp [Params.cfgCov, Params.cfg, hm]) w ht r r1 r2

/-- Odometry, observations and closures of two robots, with closures between them. -/
def pairRun : List (Op Demo.Z Demo.Ns) := beginning ++ seenByA :: between :: ending

/-- Robot `a`. -/
def robotA (c : Chr) : Bool := c == 97

set_option maxRecDepth 100000 in
/-- The hypotheses of C84 are met: robot `a` with its landmark gets five of the ten factors. -/
example : demoLandmarks = landParams.cfgSimple Unit Demo.len (fun _ => 0) true ∧ landParams.method ≠ .none ∧
    Spec.WellFed demoLandmarks (fun c => symKey c 0) (fun _ => 97) pairRun ∧
    Spec.OwnLandmarks demoLandmarks robotA (fun _ => true) pairRun ∧
    (∃ s, ReachOk demoLandmarks Demo.env pairRun s ∧ s.nfg.length = 10) ∧
    ∃ s, ReachOk demoLandmarks Demo.env (pairRun.map (Spec.keep (Spec.ofFleet demoLandmarks robotA fun _ => true))) s ∧
      s.nfg.length = 5 := by
  have hm : ∀ op ∈ beginning ++ [seenByA, between] ++ ending, Spec.Managed op ∧ ¬ Spec.Removes op := by
    intro op ho
    simp [beginning, seenByA, between, ending] at ho
    rcases ho with rfl | rfl | rfl | rfl | rfl <;> exact ⟨trivial, fun h => h⟩
  refine ⟨rfl, by decide, ⟨fun op ho => (hm op (by simpa [pairRun] using ho)).1, fun op ho => (hm op (by simpa [pairRun] using ho)).2,
      chains_of (by decide +kernel), onOdometry_of (by decide +kernel), keysKnown_of (by decide +kernel),
      by unfold Spec.OneObserver; decide +kernel⟩, by unfold Spec.OwnLandmarks; decide +kernel, ?_, ?_⟩
  · obtain ⟨s, r, h⟩ := Demo.runs_reach (cfg := demoLandmarks) (env := Demo.env) (ops := pairRun)
      (P := fun s => decide (s.nfg.length = 10)) (by decide +kernel)
    exact ⟨s, r, of_decide_eq_true h⟩
  · obtain ⟨s, r, h⟩ := Demo.runs_reach (cfg := demoLandmarks) (env := Demo.env)
      (ops := pairRun.map (Spec.keep (Spec.ofFleet demoLandmarks robotA fun _ => true)))
      (P := fun s => decide (s.nfg.length = 5)) (by decide +kernel)
    exact ⟨s, r, of_decide_eq_true h⟩

/-- Odometry of two robots and a closure of robot `a` with an observation. -/
def apartRobots : List (Op Demo.Z Demo.Ns) := beginning ++ [seenByA]

/-- Decidable form of `Spec.TwoFleets`. -/
def twoFleetsB {G T N : Type} (cfg : Cfg G T N) (fleet : Chr → Bool) (land : Key → Bool) (h : List (Op G N)) : Bool :=
  h.all fun op => (Spec.opFactors op).all fun f =>
    match f with
    | some f => !f.keys.isEmpty && (f.keys.all (Spec.ofFleet cfg fleet land) || f.keys.all fun k => !Spec.ofFleet cfg fleet land k)
    | none => true

theorem twoFleets_of {G T N : Type} [Mul G] [Inv G] [One G] {cfg : Cfg G T N} {fleet : Chr → Bool} {land : Key → Bool} {h : List (Op G N)}
    (hb : twoFleetsB cfg fleet land h = true) : Spec.TwoFleets cfg fleet land h := by
  intro op ho f hf
  have := List.all_eq_true.1 (List.all_eq_true.1 hb op ho) _ hf
  simp only [Bool.and_eq_true, Bool.or_eq_true, List.all_eq_true, Bool.not_eq_true', List.isEmpty_eq_false_iff] at this
  exact this

set_option maxRecDepth 100000 in
/-- The hypotheses of `C84_two_fleets` are met: five factors, four of them of robot `a`. -/
example : Spec.WellFed demoLandmarks (fun c => symKey c 0) (fun _ => 97) apartRobots ∧
    Spec.TwoFleets demoLandmarks robotA (fun _ => true) apartRobots ∧
    (∃ s, ReachOk demoLandmarks Demo.env apartRobots s ∧ s.nfg.length = 5) ∧
    (∃ s, ReachOk demoLandmarks Demo.env (apartRobots.map (Spec.keep (Spec.ofFleet demoLandmarks robotA fun _ => true))) s ∧
      s.nfg.length = 4) ∧
    ∃ s, ReachOk demoLandmarks Demo.env
      (apartRobots.map (Spec.keep (Spec.ofFleet demoLandmarks (fun c => !robotA c) fun _ => !true))) s ∧ s.nfg.length = 1 := by
  have hm : ∀ op ∈ beginning ++ [seenByA], Spec.Managed op ∧ ¬ Spec.Removes op := by
    intro op ho
    simp [beginning, seenByA] at ho
    rcases ho with rfl | rfl <;> exact ⟨trivial, fun h => h⟩
  refine ⟨⟨fun op ho => (hm op ho).1, fun op ho => (hm op ho).2,
      chains_of (by decide +kernel), onOdometry_of (by decide +kernel), keysKnown_of (by decide +kernel),
      by unfold Spec.OneObserver; decide +kernel⟩, twoFleets_of (by decide +kernel), ?_, ?_, ?_⟩
  · obtain ⟨s, r, h⟩ := Demo.runs_reach (cfg := demoLandmarks) (env := Demo.env) (ops := apartRobots)
      (P := fun s => decide (s.nfg.length = 5)) (by decide +kernel)
    exact ⟨s, r, of_decide_eq_true h⟩
  · obtain ⟨s, r, h⟩ := Demo.runs_reach (cfg := demoLandmarks) (env := Demo.env)
      (ops := apartRobots.map (Spec.keep (Spec.ofFleet demoLandmarks robotA fun _ => true)))
      (P := fun s => decide (s.nfg.length = 4)) (by decide +kernel)
    exact ⟨s, r, of_decide_eq_true h⟩
  · obtain ⟨s, r, h⟩ := Demo.runs_reach (cfg := demoLandmarks) (env := Demo.env)
      (ops := apartRobots.map (Spec.keep (Spec.ofFleet demoLandmarks (fun c => !robotA c) fun _ => !true)))
      (P := fun s => decide (s.nfg.length = 1)) (by decide +kernel)
    exact ⟨s, r, of_decide_eq_true h⟩

/-- Both robots observe the same landmark; `b` twice, `a` with another result. -/
def contested : List (Op Demo.Z Demo.Ns) :=
  beginning ++ [.update [Demo.edge (Demo.b 0) (Demo.l 0) 2] [Demo.pose (Demo.l 0) 5] true,
    .update [Demo.edge (Demo.b 1) (Demo.l 0) 1] [] true, .update [Demo.edge (Demo.a 0) (Demo.l 0) 50] [] true]

set_option maxRecDepth 100000 in
/-- C84 needs that a landmark is observed by robots of the fleet only: robot `a` alone keeps its observation of the landmark,
together with robot `b` it is outvoted. -/
theorem C84_false_shared_landmark :
    (∃ s, ReachOk demoLandmarks Demo.env contested s ∧ Demo.edge (Demo.a 0) (Demo.l 0) 50 ∉ s.nfg) ∧
    ∃ s, ReachOk demoLandmarks Demo.env (contested.map (Spec.keep (Spec.ofFleet demoLandmarks robotA fun _ => true))) s ∧
      Demo.edge (Demo.a 0) (Demo.l 0) 50 ∈ s.nfg := by
  refine ⟨?_, ?_⟩
  · obtain ⟨s, r, h⟩ := Demo.runs_reach (cfg := demoLandmarks) (env := Demo.env) (ops := contested)
      (P := fun s => decide (Demo.edge (Demo.a 0) (Demo.l 0) 50 ∉ s.nfg)) (by decide +kernel)
    exact ⟨s, r, of_decide_eq_true h⟩
  · obtain ⟨s, r, h⟩ := Demo.runs_reach (cfg := demoLandmarks) (env := Demo.env)
      (ops := contested.map (Spec.keep (Spec.ofFleet demoLandmarks robotA fun _ => true)))
      (P := fun s => decide (Demo.edge (Demo.a 0) (Demo.l 0) 50 ∈ s.nfg)) (by decide +kernel)
    exact ⟨s, r, of_decide_eq_true h⟩

end RPGO.Props
