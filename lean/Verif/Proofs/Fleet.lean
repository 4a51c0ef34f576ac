import Verif.Props.Arrival
/-
The history restricted to some of the robots and landmarks.
-/

namespace RPGO.Spec
variable {G T N : Type}

/-- A key of one of the robots of `fleet`, or one of the landmarks of `land`. -/
def ofFleet (cfg : Cfg G T N) (fleet : Chr → Bool) (land : Key → Bool) (k : Key) : Bool :=
  if chr k ∈ cfg.special then land k else fleet (chr k)

/-- No observation joins a robot of the fleet to a landmark that is not one of its landmarks, or the other way round. -/
def OwnLandmarks (cfg : Cfg G T N) (fleet : Chr → Bool) (land : Key → Bool) (h : List (Op G N)) : Prop :=
  ∀ op ∈ h, ∀ x ∈ opBtws op, isLandmark cfg x = true → ofFleet cfg fleet land x.k1 = ofFleet cfg fleet land x.k2

end RPGO.Spec

namespace RPGO
variable {G T N : Type}

/-! ### Tables -/

theorem get?_filter {κ V : Type} {eq : κ → κ → Bool} {P : κ → Bool} (hP : ∀ k k', eq k k' = true → P k = P k')
    (l : List (κ × V)) (k : κ) : AList.get? eq (l.filter fun e => P e.1) k = if P k then AList.get? eq l k else none := by
  induction l with
  | nil => simp [AList.get?]
  | cons e l ih =>
    obtain ⟨k0, v0⟩ := e
    rw [List.filter_cons]
    by_cases h0 : P k0 = true
    · rw [if_pos h0]
      unfold AList.get?
      by_cases hq : eq k0 k = true
      · rw [if_pos hq, if_pos hq, if_pos (by rw [← hP _ _ hq]; exact h0)]
      · rw [if_neg hq, if_neg hq, ih]
    · rw [if_neg h0, ih]
      by_cases hk : P k = true
      · rw [if_pos hk, if_pos hk]
        conv_rhs => unfold AList.get?
        rw [if_neg fun hq => h0 (by rw [hP _ _ hq]; exact hk)]
      · rw [if_neg hk, if_neg hk]

theorem flatMap_filter_entries {κ V β : Type} {F : κ × V → List β} {p : β → Bool} {P : κ → Bool} (l : List (κ × V))
    (hall : ∀ e ∈ l, P e.1 = true → ∀ x ∈ F e, p x = true) (hno : ∀ e ∈ l, P e.1 = false → ∀ x ∈ F e, p x = false) :
    (l.flatMap F).filter p = (l.filter fun e => P e.1).flatMap F := by
  induction l with
  | nil => rfl
  | cons e l ih =>
    rw [List.flatMap_cons, List.filter_append, ih (fun e' m => hall e' (by simp [m])) (fun e' m => hno e' (by simp [m])),
      List.filter_cons]
    cases h : P e.1 with
    | true => rw [if_pos rfl, List.flatMap_cons, List.filter_eq_self.2 (hall e (by simp) h)]
    | false =>
      rw [if_neg (by simp), List.filter_eq_nil_iff.2 (fun x hx => by rw [hno e (by simp) h x hx]; simp), List.nil_append]

/-! ### What the restricted history supplies -/

theorem specials_keep (q : Key → Bool) (fs : Graph G N) :
    Spec.specials (Spec.keepFactors q fs) = (Spec.specials fs).filter fun f => f.keys.all q := by
  unfold Spec.specials Spec.keepFactors
  induction fs with
  | nil => rfl
  | cons f fs ih =>
    cases f with
    | none =>
      rw [List.filter_cons, if_pos rfl, List.filterMap_cons, List.filterMap_cons, ih]
    | some f =>
      rw [List.filter_cons]
      by_cases hk : f.keys.all q = true
      · rw [if_pos hk, List.filterMap_cons, List.filterMap_cons, ih]
        cases f <;> first | rfl | exact (List.filter_cons_of_pos (p := fun f : Factor G N => f.keys.all q) hk).symm
      · rw [if_neg hk, ih, List.filterMap_cons]
        cases f <;> first | rfl | exact (List.filter_cons_of_neg (p := fun f : Factor G N => f.keys.all q) hk).symm

theorem specialSoFar_keep (cfg : Cfg G T N) (q : Key → Bool) (h : List (Op G N)) :
    Spec.specialSoFar cfg (h.map (Spec.keep q)) = (Spec.specialSoFar cfg h).filter fun f => f.keys.all q := by
  have key : ∀ (h : List (Op G N)) (l : List (Factor G N)),
      (h.map (Spec.keep q)).foldl (Spec.specialStep cfg) (l.filter fun f => f.keys.all q) =
        (h.foldl (Spec.specialStep cfg) l).filter fun f => f.keys.all q := by
    intro h
    induction h with
    | nil => intro l; rfl
    | cons op h ih =>
      intro l
      rw [List.map_cons, List.foldl_cons, List.foldl_cons, ← ih]
      congr 1
      unfold Spec.specialStep Spec.keep
      cases op with
      | update fs vs o => simp only [List.filter_append, specials_keep]
      | forceUpdate fs vs => simp only [List.filter_append, specials_keep]
      | removePriors c o => simp only [List.filter_filter, Bool.and_comm]
      | _ => rfl
  exact key h []

theorem opOdom_keep (cfg : Cfg G T N) (q : Key → Bool) (op : Op G N) :
    Spec.opOdom cfg (Spec.keep q op) = (Spec.opOdom cfg op).filter fun x => q x.k1 && q x.k2 := by
  have key : ∀ (fs : Graph G N) (vs : Vals G),
      Spec.odoms cfg (Spec.keepVals q vs) (Spec.keepFactors q fs) = (Spec.odoms cfg vs fs).filter fun x => q x.k1 && q x.k2 := by
    intro fs vs
    unfold Spec.odoms
    rw [btws_keep, List.filter_filter, List.filter_filter]
    refine List.filter_congr fun x _ => ?_
    cases h1 : q x.k1 <;> cases h2 : q x.k2 <;> simp
    exact isOdom_keep h2
  unfold Spec.opOdom
  cases op <;> first | exact key _ _ | rfl

theorem opCands_keep (cfg : Cfg G T N) (q : Key → Bool) (op : Op G N) :
    Spec.opCands cfg (Spec.keep q op) = (Spec.opCands cfg op).filter fun x => q x.k1 && q x.k2 := by
  have key : ∀ (fs : Graph G N) (vs : Vals G),
      Spec.cands cfg (Spec.keepVals q vs) (Spec.keepFactors q fs) = (Spec.cands cfg vs fs).filter fun x => q x.k1 && q x.k2 := by
    intro fs vs
    unfold Spec.cands
    rw [btws_keep, List.filter_filter, List.filter_filter]
    refine List.filter_congr fun x _ => ?_
    cases h1 : q x.k1 <;> cases h2 : q x.k2 <;> simp
    exact isCand_keep h1 h2
  unfold Spec.opCands
  cases op <;> first | exact key _ _ | rfl

theorem opFirsts_keep (cfg : Cfg G T N) (q : Key → Bool) (op : Op G N) :
    Spec.opFirsts cfg (Spec.keep q op) = (Spec.opFirsts cfg op).filter fun x => q x.k1 && q x.k2 := by
  have key : ∀ (fs : Graph G N) (vs : Vals G),
      Spec.firsts cfg (Spec.keepVals q vs) (Spec.keepFactors q fs) = (Spec.firsts cfg vs fs).filter fun x => q x.k1 && q x.k2 := by
    intro fs vs
    unfold Spec.firsts
    rw [btws_keep, List.filter_filter, List.filter_filter]
    refine List.filter_congr fun x _ => ?_
    cases h1 : q x.k1 <;> cases h2 : q x.k2 <;> simp
    exact isFirst_keep h1 h2
  unfold Spec.opFirsts
  cases op <;> first | exact key _ _ | rfl

theorem opBtws_keep (q : Key → Bool) (op : Op G N) :
    Spec.opBtws (Spec.keep q op) = (Spec.opBtws op).filter fun x => q x.k1 && q x.k2 := by
  unfold Spec.opBtws
  cases op <;> first | exact btws_keep _ _ | rfl

theorem flatMap_keep {α β : Type} {f : α → List β} {g : α → α} {p : β → Bool} (hf : ∀ a, f (g a) = (f a).filter p) (h : List α) :
    (h.map g).flatMap f = (h.flatMap f).filter p := by
  induction h with
  | nil => rfl
  | cons a h ih => rw [List.map_cons, List.flatMap_cons, List.flatMap_cons, List.filter_append, ih, hf]

theorem odomSoFar_keep (cfg : Cfg G T N) (q : Key → Bool) (h : List (Op G N)) :
    Spec.odomSoFar cfg (h.map (Spec.keep q)) = (Spec.odomSoFar cfg h).filter fun x => q x.k1 && q x.k2 :=
  flatMap_keep (opOdom_keep cfg q) h

theorem candsSoFar_keep (cfg : Cfg G T N) (q : Key → Bool) (h : List (Op G N)) :
    Spec.candsSoFar cfg (h.map (Spec.keep q)) = (Spec.candsSoFar cfg h).filter fun x => q x.k1 && q x.k2 :=
  flatMap_keep (opCands_keep cfg q) h

theorem firstsSoFar_keep (cfg : Cfg G T N) (q : Key → Bool) (h : List (Op G N)) :
    Spec.firstsSoFar cfg (h.map (Spec.keep q)) = (Spec.firstsSoFar cfg h).filter fun x => q x.k1 && q x.k2 :=
  flatMap_keep (opFirsts_keep cfg q) h

theorem mem_opKeys_keep {q : Key → Bool} {op : Op G N} (hm : Spec.Managed op) {k : Key} :
    k ∈ Spec.opKeys (Spec.keep q op) ↔ k ∈ Spec.opKeys op ∧ q k = true := by
  have key : ∀ vs : Vals G, k ∈ (Spec.keepVals q vs).keys ↔ k ∈ vs.keys ∧ q k = true := by
    intro vs
    unfold Spec.keepVals KMap.keys
    simp only [List.mem_map, List.mem_filter]
    constructor
    · rintro ⟨e, ⟨a, b⟩, rfl⟩; exact ⟨⟨e, a, rfl⟩, b⟩
    · rintro ⟨⟨e, a, rfl⟩, b⟩; exact ⟨e, ⟨a, b⟩, rfl⟩
  unfold Spec.opKeys Spec.keep
  cases op <;> first | exact key _ | exact absurd hm id | simp

section
variable {cfg : Cfg G T N} {fleet : Chr → Bool} {land : Key → Bool} {h : List (Op G N)}

local notation "Q" => Spec.ofFleet cfg fleet land

theorem ofFleet_pose {k : Key} (hk : chr k ∉ cfg.special) : Spec.ofFleet cfg fleet land k = fleet (chr k) := by
  unfold Spec.ofFleet; rw [if_neg hk]

theorem opOdom_pose {op : Op G N} {x : Btw G N} (hx : x ∈ Spec.opOdom cfg op) : chr x.k1 ∉ cfg.special ∧ chr x.k2 ∉ cfg.special := by
  unfold Spec.opOdom at hx
  split at hx
  · have := (List.mem_filter.1 hx).2
    unfold Spec.isOdom at this
    have := of_decide_eq_true this
    exact ⟨this.1, this.2.1⟩
  · cases hx

theorem robotOdom_fleet {start : Chr → Key} (hc : Spec.Chains cfg start h) {g : List (Op G N)} (hg : ∀ op ∈ g, op ∈ h) (c : Chr) :
    Spec.robotOdom cfg c (g.map (Spec.keep Q)) = if fleet c then Spec.robotOdom cfg c g else [] := by
  unfold Spec.robotOdom
  rw [odomSoFar_keep, List.filter_filter]
  have ends : ∀ x ∈ Spec.odomSoFar cfg g, chr x.k2 = c → Q x.k1 = fleet c ∧ Q x.k2 = fleet c := by
    intro x hx h2
    obtain ⟨op, ho, hxo⟩ := List.mem_flatMap.1 hx
    obtain ⟨p1, p2⟩ := opOdom_pose hxo
    have h1 : chr x.k1 = c := by
      refine chain_ends (hc c).1 (hc c).2.1 (fun y hy => ?_) x ?_
      · have := (List.mem_filter.1 hy).2
        simpa using this
      · exact List.mem_filter.2 ⟨List.mem_flatMap.2 ⟨op, hg op ho, hxo⟩, by simp [h2]⟩
    rw [ofFleet_pose p1, ofFleet_pose p2, h1, h2]
    exact ⟨rfl, rfl⟩
  cases hf : fleet c with
  | true =>
    rw [if_pos rfl]
    refine List.filter_congr fun x hx => ?_
    by_cases h2 : chr x.k2 = c
    · obtain ⟨a, b⟩ := ends x hx h2
      rw [a, b, hf]; simp
    · simp [h2]
  | false =>
    rw [if_neg (by simp), List.filter_eq_nil_iff]
    intro x hx
    by_cases h2 : chr x.k2 = c
    · obtain ⟨a, b⟩ := ends x hx h2
      rw [a, b, hf]; simp
    · simp [h2]

theorem onChain_fleet {start : Chr → Key} (hc : Spec.Chains cfg start h) {g : List (Op G N)} (hg : ∀ op ∈ g, op ∈ h) {k : Key}
    (hk : fleet (chr k) = true) (ho : Spec.OnChain cfg start g k) : Spec.OnChain cfg start (g.map (Spec.keep Q)) k := by
  unfold Spec.OnChain at ho ⊢
  rw [robotOdom_fleet hc hg, if_pos hk]
  exact ho

theorem split_keep {q : Key → Bool} {h1 h2 : List (Op G N)} {op : Op G N} (e : h.map (Spec.keep q) = h1 ++ op :: h2) :
    ∃ g1 o g2, h = g1 ++ o :: g2 ∧ h1 = g1.map (Spec.keep q) ∧ op = Spec.keep q o := by
  obtain ⟨g1, t, e1, e2, e3⟩ := List.map_eq_append_iff.1 e
  obtain ⟨o, g2, e4, e5, e6⟩ := List.map_eq_cons_iff.1 e3
  exact ⟨g1, o, g2, by rw [e1, e4], e2.symm, e5.symm⟩

/-- The restricted history meets the conditions too. -/
theorem WellFed.inFleet [Mul G] [Inv G] [One G] {start : Chr → Key} {owner : Key → Chr} (w : Spec.WellFed cfg start owner h) :
    Spec.WellFed cfg start owner (h.map (Spec.keep Q)) := by
  have inpre : ∀ {g1 g2 : List (Op G N)} {o : Op G N}, h = g1 ++ o :: g2 → ∀ op ∈ g1 ++ [o], op ∈ h := by
    intro g1 g2 o e op hop
    rw [e]
    rcases List.mem_append.1 hop with m | m
    · exact List.mem_append_left _ m
    · rw [List.mem_singleton.1 m]; simp
  have conv : ∀ {g1 g2 : List (Op G N)} {o : Op G N} {k : Key}, h = g1 ++ o :: g2 → fleet (chr k) = true →
      Spec.OnChain cfg start (g1 ++ [o]) k → Spec.OnChain cfg start (g1.map (Spec.keep Q) ++ [Spec.keep Q o]) k := by
    intro g1 g2 o k e hk ho
    have := onChain_fleet (land := land) w.chains (inpre e) hk ho
    rwa [List.map_append] at this
  refine ⟨?_, ?_, ?_, ⟨?_, ?_⟩, ?_, ?_⟩
  · intro op ho
    obtain ⟨o, ho', rfl⟩ := List.mem_map.1 ho
    have := w.managed o ho'
    cases o <;> exact this
  · intro op ho
    obtain ⟨o, ho', rfl⟩ := List.mem_map.1 ho
    have := w.keeps o ho'
    cases o <;> exact this
  · intro c
    rw [robotOdom_fleet w.chains (fun _ m => m)]
    obtain ⟨a, b, d⟩ := w.chains c
    refine ⟨a, ?_, ?_⟩
    · split
      · exact b
      · trivial
    · split
      · exact d
      · exact Nat.lt_of_le_of_lt (by simp) d
  · intro h1 op h2 e x hx hl
    obtain ⟨g1, o, g2, e1, rfl, rfl⟩ := split_keep e
    rw [opCands_keep] at hx
    obtain ⟨hx, hq⟩ := List.mem_filter.1 hx
    obtain ⟨a, b⟩ := w.reached.closures g1 o g2 e1 x hx hl
    rw [Bool.and_eq_true] at hq
    unfold Spec.isLandmark at hl
    simp only [decide_eq_false_iff_not, not_or] at hl
    exact ⟨conv e1 (by rw [← ofFleet_pose (fleet := fleet) (land := land) hl.1]; exact hq.1) a, conv e1 (by rw [← ofFleet_pose (fleet := fleet) (land := land) hl.2]; exact hq.2) b⟩
  · intro h1 op h2 e x hx hl hs
    obtain ⟨g1, o, g2, e1, rfl, rfl⟩ := split_keep e
    rw [opBtws_keep] at hx
    obtain ⟨hx, hq⟩ := List.mem_filter.1 hx
    rw [Bool.and_eq_true] at hq
    exact conv e1 (by rw [← ofFleet_pose (fleet := fleet) (land := land) hs]; exact hq.1) (w.reached.landmarks g1 o g2 e1 x hx hl hs)
  · intro h1 op h2 e x hx
    obtain ⟨g1, o, g2, e1, rfl, rfl⟩ := split_keep e
    rw [opCands_keep] at hx
    obtain ⟨hx, hq⟩ := List.mem_filter.1 hx
    rw [Bool.and_eq_true] at hq
    obtain ⟨⟨o1, m1, q1⟩, o2, m2, q2⟩ := w.known g1 o g2 e1 x hx
    have mm : ∀ o', o' ∈ g1 ++ [o] → Spec.keep Q o' ∈ g1.map (Spec.keep Q) ++ [Spec.keep Q o] := by
      intro o' ho'
      have := List.mem_map_of_mem (f := Spec.keep Q) ho'
      rwa [List.map_append] at this
    exact ⟨⟨_, mm _ m1, opKeys_keep hq.1 q1⟩, _, mm _ m2, opKeys_keep hq.2 q2⟩
  · intro op ho x hx
    obtain ⟨o, ho', rfl⟩ := List.mem_map.1 ho
    rw [opBtws_keep] at hx
    exact w.observer o ho' x (List.mem_filter.1 hx).1

theorem pairGroups_fleet {a b : Chr} (ha : a ∉ cfg.special) (hb : b ∉ cfg.special) :
    Spec.pairGroups cfg a b (h.map (Spec.keep Q)) = if fleet a && fleet b then Spec.pairGroups cfg a b h else [] := by
  have ends : ∀ x : Btw G N, Spec.connects a b x = true → (Q x.k1 && Q x.k2) = (fleet a && fleet b) := by
    intro x hx
    unfold Spec.connects at hx
    rcases of_decide_eq_true hx with ⟨e1, e2⟩ | ⟨e1, e2⟩
    · rw [ofFleet_pose (by rw [e1]; exact ha), ofFleet_pose (by rw [e2]; exact hb), e1, e2]
    · rw [ofFleet_pose (by rw [e1]; exact hb), ofFleet_pose (by rw [e2]; exact ha), e1, e2, Bool.and_comm]
  unfold Spec.pairGroups
  rw [List.map_map]
  cases hf : fleet a && fleet b with
  | true =>
    rw [if_pos rfl]
    congr 1
    refine List.map_congr_left fun op _ => ?_
    show Spec.pairCands cfg a b (Spec.keep Q op) = _
    unfold Spec.pairCands
    rw [opCands_keep, List.filter_filter]
    refine List.filter_congr fun x _ => ?_
    cases hx : Spec.connects a b x with
    | false => simp
    | true => rw [ends x hx, hf]; rfl
  | false =>
    rw [if_neg (by simp), List.filter_eq_nil_iff]
    intro g hg
    obtain ⟨op, _, rfl⟩ := List.mem_map.1 hg
    have : Spec.pairCands cfg a b (Spec.keep Q op) = [] := by
      unfold Spec.pairCands
      rw [opCands_keep, List.filter_filter, List.filter_eq_nil_iff]
      intro x _
      cases hx : Spec.connects a b x with
      | false => simp
      | true => rw [ends x hx, hf]; simp
    show ¬ (!(Spec.pairCands cfg a b (Spec.keep Q op)).isEmpty) = true
    rw [this]; simp

theorem lmSoFar_fleet [Mul G] [Inv G] [One G] (hl : Spec.OwnLandmarks cfg fleet land h) (l : Key) :
    Spec.lmSoFar cfg l (h.map (Spec.keep Q)) = if Q l then Spec.lmSoFar cfg l h else [] := by
  have ends : ∀ op ∈ h, ∀ x ∈ Spec.opBtws op, Spec.isLandmark cfg x = true → Spec.landmarkOf cfg x = l →
      (Q x.k1 && Q x.k2) = Q l := by
    intro op ho x hx hlm he
    have e := hl op ho x hx hlm
    unfold Spec.landmarkOf at he
    split at he
    · rw [← e, Bool.and_self, he]
    · rw [e, Bool.and_self, he]
  have one : ∀ op ∈ h, Spec.lmSeen cfg l (Spec.keep Q op) = if Q l then Spec.lmSeen cfg l op else [] := by
    intro op ho
    unfold Spec.lmSeen
    rw [lmFirsts_eq, lmFirsts_eq]
    unfold Spec.lmCands
    rw [opFirsts_keep, opCands_keep, List.filter_filter, List.filter_filter]
    cases hf : Q l with
    | true =>
      rw [if_pos rfl]
      congr 2
      · refine List.filter_congr fun x hx => ?_
        by_cases he : Spec.landmarkOf cfg x = l
        · rw [ends op ho x (opFirsts_btws hx).1 (opFirsts_btws hx).2 he, hf]; simp
        · simp [he]
      · refine List.filter_congr fun x hx => ?_
        by_cases he : Spec.landmarkOf cfg x = l
        · cases hlm : Spec.isLandmark cfg x with
          | false => simp
          | true => rw [ends op ho x (opCands_btws hx) hlm he, hf]; simp
        · simp [he]
    | false =>
      rw [if_neg (by simp), List.append_eq_nil_iff, List.map_eq_nil_iff, List.map_eq_nil_iff, List.filter_eq_nil_iff,
        List.filter_eq_nil_iff]
      refine ⟨fun x hx => ?_, fun x hx => ?_⟩
      · by_cases he : Spec.landmarkOf cfg x = l
        · rw [ends op ho x (opFirsts_btws hx).1 (opFirsts_btws hx).2 he, hf]; simp
        · simp [he]
      · by_cases he : Spec.landmarkOf cfg x = l
        · cases hlm : Spec.isLandmark cfg x with
          | false => simp
          | true => rw [ends op ho x (opCands_btws hx) hlm he, hf]; simp
        · simp [he]
  unfold Spec.lmSoFar
  clear hl ends
  induction h with
  | nil => simp
  | cons op h ih =>
    rw [List.map_cons, List.flatMap_cons, List.flatMap_cons, one op (by simp), ih fun o m => one o (by simp [m])]
    split <;> simp

end

end RPGO
