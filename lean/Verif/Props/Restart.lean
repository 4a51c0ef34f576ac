import Verif.Props.Arrival
import Verif.Props.Symmetry
import Verif.Props.Estimate
/-
C81 a solver that is restarted from the graph and the estimate of another one accepts the same closures.
-/

namespace RPGO.Spec
variable {G T N : Type} [Mul G] [Inv G] [One G]

/-- What is asked of the solver whose graph is handed on, which went through the calls `h` and is in state `s`. -/
structure Restartable (cfg : Cfg G T N) (start : Chr → Key) (h : List (Op G N)) (s : St G T N) : Prop where
  /-- the graph was not edited from outside, and no closures were removed -/
  managed : ∀ op ∈ h, Managed op
  keeps : ∀ op ∈ h, ¬ Removes op
  /-- the odometry of each robot is a chain, which had reached each closure when it arrived, as had the values -/
  chains : Chains cfg start h
  reached : OnOdometry cfg start h
  known : KeysKnown cfg h
  /-- there are no landmarks -/
  landmarks : NoLandmarks cfg h
  /-- no accepted closure leads from a pose to the next one -/
  jumps : ∀ id, ∀ x ∈ selected s id, x.k2 ≠ x.k1 + 1
  /-- every accepted closure agrees with every later one in the graph -/
  agree : ∀ id (i j : Nat) x y, i < j → (selected s id)[i]? = some x → (selected s id)[j]? = some y → PairCheck cfg s x y true

/-- The new solver holds the factors of the old one. It has registered nothing but closures that are accepted. -/
structure Restarted (cfg : Cfg G T N) (e e' : Env G N) (s s' : St G T N) : Prop where
  graph : s'.nfg.Perm s.nfg
  keys : s'.values.keys = s.values.keys
  /-- of pairs without ignored robots -/
  registered : ∀ id, id.id1 ∉ getIgnored cfg s → id.id2 ∉ getIgnored cfg s → registered s' id = selected s id
  selected : ∀ id, id.id1 ∉ getIgnored cfg s → id.id2 ∉ getIgnored cfg s → (selected s' id).Perm (selected s id)
  /-- of the other pairs: nothing -/
  ignored : ∀ id, id.id1 ∈ getIgnored cfg s ∨ id.id2 ∈ getIgnored cfg s → Spec.registered s' id = []

end RPGO.Spec

namespace RPGO
variable {G T N : Type}

theorem firsts_none {cfg : Cfg G T N} {fs : Graph G N} (hn : ∀ b ∈ Spec.btws fs, Spec.isLandmark cfg b = false) (vs : Vals G) :
    Spec.firsts cfg vs fs = [] := by
  unfold Spec.firsts
  rw [List.filter_eq_nil_iff]
  intro b hb
  unfold Spec.isFirstObs
  simp [hn b hb]

theorem specials_append (f g : Graph G N) : Spec.specials (f ++ g) = Spec.specials f ++ Spec.specials g := by
  unfold Spec.specials; exact List.filterMap_append ..

theorem btws_elems (l : List (Btw G N)) :
    Spec.btws (l.map fun b => some (Factor.btw b)) = l ∧ Spec.specials (l.map fun b => some (Factor.btw b)) = [] := by
  induction l with
  | nil => exact ⟨rfl, rfl⟩
  | cons b l ih =>
    refine ⟨?_, ?_⟩
    · show b :: Spec.btws (l.map fun b => some (Factor.btw b)) = _
      rw [ih.1]
    · exact ih.2

theorem btws_others {l : List (Factor G N)} (h : ∀ f ∈ l, ∀ b, f ≠ .btw b) :
    Spec.btws (l.map some) = [] ∧ Spec.specials (l.map some) = l := by
  induction l with
  | nil => exact ⟨rfl, rfl⟩
  | cons f l ih =>
    obtain ⟨i1, i2⟩ := ih fun g hg => h g (by simp [hg])
    cases f with
    | btw b => exact absurd rfl (h _ (by simp) b)
    | _ =>
      refine ⟨i1, ?_⟩
      unfold Spec.specials at i2 ⊢
      rw [List.map_cons, List.filterMap_cons]
      simp only [i2]

/-- What is held of the other factors are not between factors. -/
theorem specialSoFar_other (cfg : Cfg G T N) (h : List (Op G N)) : ∀ f ∈ Spec.specialSoFar cfg h, ∀ b, f ≠ .btw b := by
  unfold Spec.specialSoFar
  have key : ∀ (fs : Graph G N), ∀ f ∈ Spec.specials fs, ∀ b, f ≠ .btw b := by
    intro fs f hf b e
    subst e
    unfold Spec.specials at hf
    obtain ⟨g, _, hg⟩ := List.mem_filterMap.1 hf
    split at hg
    · cases hg
    · rename_i hne
      exact hne b hg
  suffices ∀ l : List (Factor G N), (∀ f ∈ l, ∀ b, f ≠ .btw b) → ∀ f ∈ h.foldl (Spec.specialStep cfg) l, ∀ b, f ≠ .btw b from
    this [] (by simp)
  induction h with
  | nil => exact fun l hl => hl
  | cons op h ih =>
    intro l hl
    refine ih _ ?_
    unfold Spec.specialStep
    cases op with
    | update fs vs o =>
      intro f hf
      rcases List.mem_append.1 hf with hf | hf
      · exact hl f hf
      · exact key fs f hf
    | forceUpdate fs vs =>
      intro f hf
      rcases List.mem_append.1 hf with hf | hf
      · exact hl f hf
      · exact key fs f hf
    | removePriors c o => exact fun f hf => hl f (List.mem_filter.1 hf).1
    | _ => exact hl

theorem flatMap_one {κ V β : Type} {eq : κ → κ → Bool} (he : AList.IsEqv eq) {f : V → List β} {l : List (κ × V)}
    (d : (l.map (·.1)).Pairwise fun a b => eq a b = false) (k : κ) :
    l.flatMap (fun e => if eq e.1 k then f e.2 else []) = ((AList.get? eq l k).map f).getD [] := by
  induction l with
  | nil => rfl
  | cons e l ih =>
    obtain ⟨k0, v0⟩ := e
    rw [List.map_cons, List.pairwise_cons] at d
    rw [List.flatMap_cons, ih d.2]
    conv_rhs => unfold AList.get?
    by_cases hk : eq k0 k = true
    · rw [if_pos hk, if_pos hk]
      have : AList.get? eq l k = none := by
        cases hg : AList.get? eq l k with
        | none => rfl
        | some v =>
          obtain ⟨e, hm, _, q⟩ := get?_entry hg
          have := d.1 e.1 (List.mem_map_of_mem hm)
          rw [he.trans _ _ _ hk (he.symm _ _ q)] at this
          cases this
      rw [this]; simp
    · rw [if_neg hk, if_neg hk]; rfl

theorem get?_perm {κ V : Type} {eq : κ → κ → Bool} (he : AList.IsEqv eq) {l l' : List (κ × V)} (hp : l.Perm l')
    (d : (l.map (·.1)).Pairwise fun a b => eq a b = false) (k : κ) : AList.get? eq l k = AList.get? eq l' k := by
  have d' : (l'.map (·.1)).Pairwise fun a b => eq a b = false :=
    (List.Perm.pairwise_iff (fun {a b} q => by
      cases h : eq b a with
      | false => rfl
      | true => rw [he.symm _ _ h] at q; cases q) (hp.map _)).1 d
  have half : ∀ {l l' : List (κ × V)}, l.Perm l' → (l'.map (·.1)).Pairwise (fun a b => eq a b = false) →
      ∀ v, AList.get? eq l k = some v → AList.get? eq l' k = some v := by
    intro l l' hp d' v hv
    obtain ⟨e, hm, ev, q⟩ := get?_entry hv
    have h1 := distinct_get he d' (hp.mem_iff.1 hm)
    have h2 : ∀ (l : List (κ × V)), AList.get? eq l e.1 = AList.get? eq l k := by
      intro l
      induction l with
      | nil => rfl
      | cons x l ih =>
        obtain ⟨k0, v0⟩ := x
        unfold AList.get?
        have : eq k0 e.1 = eq k0 k := by
          rw [Bool.eq_iff_iff]
          exact ⟨fun t => he.trans _ _ _ t q, fun t => he.trans _ _ _ t (he.symm _ _ q)⟩
        rw [this, ih]
    rw [← h2, h1, ev]
  cases h1 : AList.get? eq l k with
  | some v => rw [half hp d' v h1]
  | none =>
    cases h2 : AList.get? eq l' k with
    | none => rfl
    | some v => rw [half hp.symm d v h2] at h1; cases h1

section
variable [Mul G] [Inv G] [One G]

/-- No landmarks are stored if no observation of one was ever supplied. -/
theorem Reach.no_landmarks {cfg : Cfg G T N} {env : Env G N} (hr : cfg.rejection = true) {h : List (Op G N)} {s : St G T N}
    (r : Reach cfg env h s) (hn : Spec.NoLandmarks cfg h) : s.pcm.landmarks = [] := by
  refine Reach.induct (Inv := fun h p => Spec.NoLandmarks cfg h → p.landmarks = []) hr (fun _ => rfl) ?_ r hn
  intro h s op s' r c ih st hn
  have ih := ih (fun o m => hn o (by simp [m]))
  generalize s'.pcm = q at st
  have btw : ∀ {fs : Graph G N} {vs : Vals G}, Spec.batch op = some (fs, vs) → ∀ b ∈ Spec.btws fs, Spec.isLandmark cfg b = false := by
    intro fs vs hb b m
    refine hn op (by simp) b ?_
    unfold Spec.opBtws
    rw [hb]; exact m
  cases st with
  | other _ he =>
    cases he with
    | same => exact ih
    | priors => exact ih
    | ignore => split <;> exact ih
    | revive => exact ih
    | pair hm hr => exact ih
    | pop _ => exact ih
    | last _ hm hr => exact ih
  | none _ => exact ih
  | sort hb hi hfs ho hS hx1 hx2 =>
    rename_i fs vs v1 fs1 b fs2 p1
    show p1.landmarks = []
    rw [hS.landmarks, firsts_none (fun b m => btw hb b (by rw [hfs, btws_append]; simp [m]))]
    exact ih
  | cands hb hne hi hS ht hsel hg hro =>
    rename_i fs vs v1 p1 q p2 ro
    have h1 : p1.landmarks = [] := by
      rw [hS.landmarks, firsts_none (btw hb)]; exact ih
    have h2 : q.landmarks = [] := by
      rw [ht.eq]
      refine parseFold_induct (Inv := fun p => p.landmarks = []) (Spec.cands cfg vs fs) h1 (fun p hp b _ _ => hp)
        (fun p hp b hbm ha => ?_)
      unfold acceptLm at ha
      rw [btw hb b (List.mem_filter.1 hbm).1] at ha
      simp at ha
    show p2.landmarks = []
    have := Table.keys hsel.landmarks
    rw [h2] at this
    exact List.map_eq_nil_iff.1 this

/-- Accepted closures are registered. -/
theorem Reach.selected_sub {cfg : Cfg G T N} {env : Env G N} (hr : cfg.rejection = true) {h : List (Op G N)} {s : St G T N}
    (r : Reach cfg env h s) (hn : ∀ op ∈ h, ¬ Spec.Removes op) (id : ObsId) : ∀ x ∈ Spec.selected s id, x ∈ Spec.registered s id := by
  refine Reach.meas (Q := fun m => ∀ x ∈ m.cons, x ∈ m.factors) hr (by simp [Meas.empty]) ?_ ?_ ?_ r id
  · intro f b m hm _ x hx
    have : x ∈ m.cons := hx
    show x ∈ m.factors ++ [b]
    simp [hm x this]
  · intro m m' hs hm x hx
    rw [hs.factors]
    rcases hs.cons with hc | ⟨hc, _⟩
    · rw [hc] at hx; exact hm x hx
    · exact hc x hx
  · rintro ⟨op, ho, hR⟩
    exact absurd hR (hn op ho)

/-- The part of the graph that consists of closures. -/
def lcPart (env : Env G N) (p : Pcm G T N) : List (Btw G N) :=
  (env.iterLC p.lcs).flatMap fun e => if !p.ignored.contains e.1.id1 && !p.ignored.contains e.1.id2 then e.2.cons else []

theorem buildGraph_lc {env : Env G N} (he : env.Ok) {p : Pcm G T N} (hl : p.landmarks = []) : buildGraph env p =
    p.odom.map (fun b => some (.btw b)) ++ p.special.map some ++ (lcPart env p).map fun b => some (.btw b) := by
  unfold buildGraph lcPart
  have e1 : env.iterLM p.landmarks = [] := by rw [hl]; exact (he.lm []).eq_nil
  rw [e1, List.map_flatMap]
  simp only [List.flatMap_nil, List.append_nil]
  congr 2
  funext e
  split <;> rfl

/-- The closures between two robots in the graph. -/
theorem lcPart_pair {cfg : Cfg G T N} {env : Env G N} (he : env.Ok) (hr : cfg.rejection = true) {h : List (Op G N)} {s : St G T N}
    (r : Reach cfg env h s) (a b : Chr) : (lcPart env s.pcm).filter (Spec.connects a b) =
      if !s.pcm.ignored.contains a && !s.pcm.ignored.contains b then Spec.selected s ⟨a, b⟩ else [] := by
  have hd := (r.distinct hr).1
  have hd' : ((env.iterLC s.pcm.lcs).map (·.1)).Pairwise fun a b => ObsId.eqv a b = false :=
    (List.Perm.pairwise_iff (fun {a b} q => by
      cases h : ObsId.eqv b a with
      | false => rfl
      | true => rw [ObsId.isEqv.symm _ _ h] at q; cases q) ((he.lc s.pcm.lcs).map _)).2 hd
  have hfl := r.filed hr
  have e1 : (lcPart env s.pcm).filter (Spec.connects a b) = (env.iterLC s.pcm.lcs).flatMap (fun e =>
      if ObsId.eqv e.1 ⟨a, b⟩ then (if !s.pcm.ignored.contains a && !s.pcm.ignored.contains b then e.2.cons else []) else []) := by
    unfold lcPart
    rw [List.filter_flatMap]
    refine List.flatMap_congr fun e hm => ?_
    have hm' := (he.lc _).mem_iff.1 hm
    have hig : ObsId.eqv e.1 ⟨a, b⟩ = true → (!s.pcm.ignored.contains e.1.id1 && !s.pcm.ignored.contains e.1.id2) =
        (!s.pcm.ignored.contains a && !s.pcm.ignored.contains b) := by
      intro q
      unfold ObsId.eqv at q
      split at q
      · rename_i h; rw [h.1, h.2]
      · split at q
        · rename_i h; rw [h.1, h.2, Bool.and_comm]
        · cases q
    have hc : ∀ x ∈ e.2.cons, Spec.connects a b x = ObsId.eqv e.1 ⟨a, b⟩ := by
      intro x hx
      have q := hfl e hm' x (Or.inr hx)
      rw [← pairOf_connects, Bool.eq_iff_iff]
      exact ⟨fun t => ObsId.isEqv.trans _ _ _ (ObsId.isEqv.symm _ _ q) t, fun t => ObsId.isEqv.trans _ _ _ q t⟩
    cases hq : ObsId.eqv e.1 ⟨a, b⟩ with
    | true =>
      rw [hig hq, if_pos rfl]
      split
      · exact List.filter_eq_self.2 fun x hx => by rw [hc x hx, hq]
      · rfl
    | false =>
      rw [if_neg (c := false = true) (by simp)]
      split
      · exact List.filter_eq_nil_iff.2 fun x hx => by rw [hc x hx, hq]; simp
      · rfl
  rw [e1, flatMap_one (f := fun m : Meas G N => if !s.pcm.ignored.contains a && !s.pcm.ignored.contains b then m.cons else [])
    ObsId.isEqv hd', get?_perm ObsId.isEqv (he.lc _) hd']
  unfold Spec.selected lcOf
  cases AList.get? ObsId.eqv s.pcm.lcs ⟨a, b⟩ with
  | none => simp [Meas.empty]
  | some m => rfl


/-- What of the graph is supplied to the new solver. -/
theorem restart_supply {cfg : Cfg G T N} (hs : StartFree cfg.ops) {env : Env G N} (he : env.Ok) (hr : cfg.rejection = true) {start : Chr → Key}
    {h : List (Op G N)} {s : St G T N} (r : ReachOk cfg env h s) (w : Spec.Restartable cfg start h s)
    {vs : Vals G} (hv : ∀ k, k ∈ vs.keys ↔ k ∈ s.values.keys) :
    Spec.btws s.nfg = Spec.odomSoFar cfg h ++ lcPart env s.pcm ∧ Spec.specials s.nfg = Spec.specialSoFar cfg h ∧
    Spec.odoms cfg vs s.nfg = Spec.odomSoFar cfg h ∧ Spec.cands cfg vs s.nfg = lcPart env s.pcm ∧
    (∀ x ∈ lcPart env s.pcm, x ∈ Spec.candsSoFar cfg h ∧ x ∈ Spec.registered s (pairOf x)) := by
  obtain ⟨l1, l2, l3⟩ := r.lists he hr w.managed
  have hlm := r.reach.no_landmarks hr w.landmarks
  have c0 := candsOk w.landmarks w.reached w.known
  have hb : Spec.btws s.nfg = Spec.odomSoFar cfg h ++ lcPart env s.pcm := by
    rw [l1, buildGraph_lc he hlm, btws_append, btws_append, l2, l3, (btws_elems _).1, (btws_elems _).1,
      (btws_others (specialSoFar_other cfg h)).1, List.append_nil]
  have hsp : Spec.specials s.nfg = Spec.specialSoFar cfg h := by
    rw [l1, buildGraph_lc he hlm, specials_append, specials_append, l2, l3, (btws_elems _).2, (btws_elems _).2,
      (btws_others (specialSoFar_other cfg h)).2, List.append_nil, List.nil_append]
  have hin : ∀ x ∈ lcPart env s.pcm, x ∈ Spec.selected s (pairOf x) := by
    intro x hx
    have hx' : x ∈ (lcPart env s.pcm).filter (Spec.connects (chr x.k1) (chr x.k2)) :=
      List.mem_filter.2 ⟨hx, connects_self x⟩
    rw [lcPart_pair he hr r.reach] at hx'
    split at hx'
    · exact hx'
    · cases hx'
  have hreg : ∀ x ∈ lcPart env s.pcm, x ∈ Spec.registered s (pairOf x) := fun x hx =>
    r.reach.selected_sub hr w.keeps _ x (hin x hx)
  have hcd : ∀ x ∈ lcPart env s.pcm, x ∈ Spec.candsSoFar cfg h := by
    intro x hx
    have hx' := hreg x hx
    by_cases hsp : chr x.k1 ∈ cfg.special ∨ chr x.k2 ∈ cfg.special
    · unfold Spec.registered at hx'
      rw [r.reach.lcOf_special hr (id := pairOf x) hsp] at hx'
      cases hx'
    · obtain ⟨n1, n2⟩ := not_or.1 hsp
      have f := pairFed_global w.chains w.reached w.known w.keeps n1 n2
      have e := registered_filter hs hr r r f f (fun c _ => List.prefix_refl _)
      have hx'' : x ∈ Spec.registered s ⟨chr x.k1, chr x.k2⟩ := hx'
      rw [e, pairGroups_flatten] at hx''
      exact (List.mem_filter.1 (List.mem_filter.1 hx'').1).1
  have hod : ∀ x ∈ Spec.odomSoFar cfg h, Spec.isOdom cfg vs x = true := by
    intro x hx
    obtain ⟨op, ho, hx⟩ := List.mem_flatMap.1 hx
    unfold Spec.opOdom at hx
    cases hbt : Spec.batch op with
    | none => rw [hbt] at hx; cases hx
    | some y =>
      obtain ⟨fs, us⟩ := y
      rw [hbt] at hx
      have q := (List.mem_filter.1 hx).2
      unfold Spec.isOdom at q ⊢
      rw [decide_eq_true_eq] at q ⊢
      refine ⟨q.1, q.2.1, q.2.2.1, (hv _).2 ?_⟩
      exact ((Props.C34_estimate_keys r).1 _).2 ⟨op, ho, by
        cases op <;> simp [Spec.batch] at hbt <;> (obtain ⟨rfl, rfl⟩ := hbt; exact q.2.2.2)⟩
  have hno : ∀ x ∈ lcPart env s.pcm, Spec.isOdom cfg vs x = false ∧ Spec.isCand cfg vs x = true := by
    intro x hx
    have hl := c0.pose x (hcd x hx)
    have o1 : Spec.isOdom cfg vs x = false := by
      unfold Spec.isOdom
      rw [decide_eq_false_iff_not]
      exact fun q => w.jumps _ x (hin x hx) q.2.2.1
    refine ⟨o1, ?_⟩
    unfold Spec.isCand Spec.isFirstObs
    rw [o1, hl]
    obtain ⟨op, _, hx'⟩ := List.mem_flatMap.1 (hcd x hx)
    have : x.k1 ≠ x.k2 := by
      unfold Spec.opCands at hx'
      cases hbt : Spec.batch op with
      | none => rw [hbt] at hx'; cases hx'
      | some y =>
        rw [hbt] at hx'
        have q := (List.mem_filter.1 hx').2
        unfold Spec.isCand at q
        simp only [Bool.and_eq_true, decide_eq_true_eq] at q
        exact q.2
    simp [this]
  refine ⟨hb, hsp, ?_, ?_, fun x hx => ⟨hcd x hx, hreg x hx⟩⟩
  · unfold Spec.odoms
    rw [hb, List.filter_append, List.filter_eq_self.2 hod, List.filter_eq_nil_iff.2 fun x hx => by rw [(hno x hx).1]; simp,
      List.append_nil]
  · unfold Spec.cands
    rw [hb, List.filter_append, List.filter_eq_self.2 fun x hx => (hno x hx).2, List.filter_eq_nil_iff.2 fun x hx => by
      unfold Spec.isCand; rw [hod x hx]; simp, List.nil_append]


theorem snoc_one {α : Type} {h1 h2 : List α} {op o : α} (e : [o] = h1 ++ op :: h2) : h1 = [] ∧ op = o := by
  cases h1 with
  | nil => simp at e; exact ⟨rfl, e.1.symm⟩
  | cons a t =>
    simp at e

theorem reachOk_nil {cfg : Cfg G T N} {e : Env G N} {s : St G T N} (r : ReachOk cfg e [] s) : s = St.init := by
  generalize hh : ([] : List (Op G N)) = h at r
  cases r with
  | init => rfl
  | step => simp at hh

theorem restart_same {G : Type} [Group G] {cfg : Cfg G T N} (hs : StartFree cfg.ops) {e e' : Env G N} (he : e.Ok) (he' : e'.Ok)
    (hr : cfg.rejection = true) (hl : cfg.loopCheck = true) {start : Chr → Key}
    {h : List (Op G N)} {s s' : St G T N} (r : ReachOk cfg e h s) (w : Spec.Restartable cfg start h s)
    {op : Op G N} {vs : Vals G} (hop : Spec.batch op = some (s.nfg, vs)) (hv : ∀ k, k ∈ vs.keys ↔ k ∈ s.values.keys)
    (r' : ReachOk cfg e' [op] s') : Spec.Restarted cfg e e' s s' ∧ s'.pcm.totalLc = (lcPart e s.pcm).length := by
  obtain ⟨hb, hsp, hod, hcd, hin⟩ := restart_supply hs he hr r w hv
  have c0 := candsOk w.landmarks w.reached w.known
  have hod' : Spec.odomSoFar cfg [op] = Spec.odomSoFar cfg h := by
    unfold Spec.odomSoFar at hod ⊢
    rw [← hod]
    unfold Spec.opOdom
    simp [hop]
  have hro : ∀ c, Spec.robotOdom cfg c [op] = Spec.robotOdom cfg c h := fun c => by unfold Spec.robotOdom; rw [hod']
  have hoc : Spec.opCands cfg op = lcPart e s.pcm := by unfold Spec.opCands; rw [hop]; exact hcd
  have hcs : Spec.candsSoFar cfg [op] = lcPart e s.pcm := by unfold Spec.candsSoFar; simp [hoc]
  have hkeys : Spec.opKeys op = vs.keys := by
    cases op <;> simp [Spec.batch] at hop <;> (obtain ⟨rfl, rfl⟩ := hop; rfl)
  have hnl' : Spec.NoLandmarks cfg [op] := by
    intro o ho b hbm
    rw [List.mem_singleton.1 ho] at hbm
    unfold Spec.opBtws at hbm
    rw [hop] at hbm
    have hbm : b ∈ Spec.btws s.nfg := hbm
    rw [hb] at hbm
    rcases List.mem_append.1 hbm with hm | hm
    · obtain ⟨o', m, hm⟩ := List.mem_flatMap.1 hm
      unfold Spec.opOdom at hm
      cases hbt : Spec.batch o' with
      | none => rw [hbt] at hm; cases hm
      | some y =>
        rw [hbt] at hm
        have q := (List.mem_filter.1 hm).2
        unfold Spec.isOdom at q
        rw [decide_eq_true_eq] at q
        unfold Spec.isLandmark
        simp [q.1, q.2.1]
    · exact c0.pose b (hin b hm).1
  have hch' : Spec.Chains cfg start [op] := fun c => by rw [hro c]; exact w.chains c
  have honc : ∀ k, Spec.OnChain cfg start h k → Spec.OnChain cfg start [op] k := fun k hk => by
    unfold Spec.OnChain at hk ⊢; rw [hro]; exact hk
  have hon' : Spec.OnOdometry cfg start [op] := by
    refine ⟨?_, ?_⟩
    · intro h1 o h2 eq b hbm _
      obtain ⟨rfl, rfl⟩ := snoc_one eq
      rw [hoc] at hbm
      exact ⟨honc _ (c0.chain b (hin b hbm).1).1, honc _ (c0.chain b (hin b hbm).1).2⟩
    · intro h1 o h2 eq b hbm hlb
      obtain ⟨rfl, rfl⟩ := snoc_one eq
      rw [hnl' o (by simp) b hbm] at hlb
      cases hlb
  have hkk' : Spec.KeysKnown cfg [op] := by
    intro h1 o h2 eq b hbm
    obtain ⟨rfl, rfl⟩ := snoc_one eq
    rw [hoc] at hbm
    obtain ⟨k1, k2⟩ := c0.keys b (hin b hbm).1
    exact ⟨⟨o, by simp, by rw [hkeys]; exact (hv _).2 (((Props.C34_estimate_keys r).1 _).2 k1)⟩,
      o, by simp, by rw [hkeys]; exact (hv _).2 (((Props.C34_estimate_keys r).1 _).2 k2)⟩
  have hke' : ∀ o ∈ [op], ¬ Spec.Removes o := by
    intro o ho
    rw [List.mem_singleton.1 ho]
    cases op <;> simp [Spec.batch] at hop <;> exact fun q => q
  have hma' : ∀ o ∈ [op], Spec.Managed o := by
    intro o ho
    rw [List.mem_singleton.1 ho]
    cases op <;> simp [Spec.batch] at hop <;> trivial
  have hig : s'.pcm.ignored = [] := by
    obtain ⟨s0, x, r0, ex⟩ := ReachOk.snoc_inv (h := []) r'
    rw [((exec_batch e' hr hop _).1 s' x ex).lists.2.2, reachOk_nil r0]
    rfl
  have pre : ∀ c, Spec.robotOdom cfg c h <+: Spec.robotOdom cfg c [op] := fun c => by rw [hro]
  -- what is registered of each pair
  have hreg : ∀ a b, a ∉ cfg.special → b ∉ cfg.special →
      Spec.registered s' ⟨a, b⟩ = (lcPart e s.pcm).filter (Spec.connects a b) ∧
      (Spec.selected s' ⟨a, b⟩).Perm ((lcPart e s.pcm).filter (Spec.connects a b)) := by
    intro a b na nb
    have f := pairFed_global w.chains w.reached w.known w.keeps na nb
    have f' := pairFed_global hch' hon' hkk' hke' na nb
    have e0 := registered_filter hs hr r r f f (fun c _ => List.prefix_refl _)
    have e1 := registered_filter hs hr r' r' f' f' (fun c _ => List.prefix_refl _)
    obtain ⟨vo, vl⟩ := fine_same hs hr r r' f' (fun c _ => pre c)
    have hsel : ∀ x ∈ (lcPart e s.pcm).filter (Spec.connects a b), x ∈ Spec.registered s ⟨a, b⟩ := by
      intro x hx
      rw [lcPart_pair he hr r.reach] at hx
      split at hx
      · exact r.reach.selected_sub hr w.keeps _ x hx
      · cases hx
    have e2 : Spec.registered s' ⟨a, b⟩ = (lcPart e s.pcm).filter (Spec.connects a b) := by
      rw [e1, pairGroups_flatten, hcs]
      refine List.filter_eq_self.2 fun x hx => ?_
      have hx' := hsel x hx
      rw [← vo x (registered_fine hs hr r f hx')]
      rw [e0] at hx'
      exact (List.mem_filter.1 hx').2
    refine ⟨e2, ?_⟩
    rw [← e2]
    refine Props.C64_all hr hl r' _ ?_
    have lt : ∀ i j, i < j → j < (Spec.registered s' ⟨a, b⟩).length → Spec.Agree s' ⟨a, b⟩ i j := by
      intro i j hij hj
      have hi : i < (Spec.registered s' ⟨a, b⟩).length := Nat.lt_trans hij hj
      have gi := List.getElem?_eq_getElem hi
      have gj := List.getElem?_eq_getElem hj
      have sy : (Spec.matrix s' ⟨a, b⟩).e j i = (Spec.matrix s' ⟨a, b⟩).e i j := (r'.reach.shape hr hl ⟨a, b⟩).sym j i hj hi
      refine ⟨hi, hj, Nat.ne_of_lt hij, ?_⟩
      rw [Nat.max_eq_right (Nat.le_of_lt hij), Nat.min_eq_left (Nat.le_of_lt hij), sy, pair_judged hs hr hl r' f' hij gi gj]
      have mi := hsel _ (by rw [← e2]; exact List.getElem_mem hi)
      have mj := hsel _ (by rw [← e2]; exact List.getElem_mem hj)
      rw [← vl _ _ (registered_fine hs hr r f mi) (registered_fine hs hr r f mj)]
      have e3 := lcPart_pair he hr r.reach a b
      rw [← e2] at e3
      split at e3
      · refine (pairCheck_val (w.agree ⟨a, b⟩ i j _ _ hij (by rw [← e3]; exact gi) (by rw [← e3]; exact gj))).symm
      · rw [e3] at hj; cases hj
    intro i j hi hj hne
    rcases Nat.lt_or_gt_of_ne hne with q | q
    · exact lt i j q hj
    · exact Agree.symm (lt j i q hi)
  have hspec : ∀ a b, a ∈ cfg.special ∨ b ∈ cfg.special → (lcPart e s.pcm).filter (Spec.connects a b) = [] := by
    intro a b hab
    rw [lcPart_pair he hr r.reach]
    split
    · unfold Spec.selected
      rw [r.reach.lcOf_special hr (id := ⟨a, b⟩) hab]; rfl
    · rfl
  have hall : ∀ a b, Spec.registered s' ⟨a, b⟩ = (lcPart e s.pcm).filter (Spec.connects a b) ∧
      (Spec.selected s' ⟨a, b⟩).Perm ((lcPart e s.pcm).filter (Spec.connects a b)) := by
    intro a b
    by_cases hab : a ∈ cfg.special ∨ b ∈ cfg.special
    · rw [hspec a b hab]
      unfold Spec.selected Spec.registered
      rw [r'.reach.lcOf_special hr (id := ⟨a, b⟩) hab]
      exact ⟨rfl, List.Perm.refl _⟩
    · obtain ⟨n1, n2⟩ := not_or.1 hab
      exact hreg a b n1 n2
  have hgi : getIgnored cfg s = s.pcm.ignored := by unfold getIgnored; rw [if_pos hr]
  have hkeep : ∀ id : ObsId, id.id1 ∉ getIgnored cfg s → id.id2 ∉ getIgnored cfg s →
      (lcPart e s.pcm).filter (Spec.connects id.id1 id.id2) = Spec.selected s id := by
    intro id h1 h2
    rw [hgi] at h1 h2
    rw [lcPart_pair he hr r.reach, if_pos (by simp [h1, h2])]
  refine ⟨⟨?_, ?_, ?_, ?_, ?_⟩, ?_⟩
  · obtain ⟨a1, a2, a3⟩ := r.lists he hr w.managed
    obtain ⟨b1, b2, b3⟩ := r'.lists he' hr hma'
    have hlm := r.reach.no_landmarks hr w.landmarks
    have hlm' := r'.reach.no_landmarks hr hnl'
    rw [a1, b1, buildGraph_lc he hlm, buildGraph_lc he' hlm', a2, b2, hod', a3, b3]
    have e4 : Spec.specialSoFar cfg [op] = Spec.specialSoFar cfg h := by
      rw [← hsp]
      cases op <;> simp [Spec.batch] at hop <;> (obtain ⟨rfl, rfl⟩ := hop; exact List.nil_append _)
    rw [e4]
    refine List.Perm.append_left _ (List.Perm.map _ ?_)
    classical
    refine List.perm_iff_count.2 fun x => ?_
    rw [← List.count_filter (connects_self x), ← List.count_filter (l := lcPart e s.pcm) (connects_self x)]
    have e5 := lcPart_pair he' hr r'.reach (chr x.k1) (chr x.k2)
    rw [hig] at e5
    rw [e5]
    exact (hall _ _).2.count_eq x
  · obtain ⟨a1, a2⟩ := Props.C34_estimate_keys r
    obtain ⟨b1, b2⟩ := Props.C34_estimate_keys r'
    refine List.Pairwise.eq_of_mem_iff (r := fun a b : Key => a.toNat < b.toNat) b2 a2 fun k => ?_
    rw [b1 k, ← hv k, ← hkeys]
    simp
  · intro id h1 h2
    rw [← hkeep id h1 h2]; exact (hall _ _).1
  · intro id h1 h2
    rw [← hkeep id h1 h2]; exact (hall _ _).2
  · intro id hid
    rw [hgi] at hid
    have := (hall id.id1 id.id2).1
    rw [lcPart_pair he hr r.reach, if_neg (by rcases hid with hid | hid <;> simp [hid])] at this
    exact this
  · rw [r'.counted hs hr hch' hon' hkk' hke', hcs]
    have e6 : Spec.firstsSoFar cfg [op] = [] := by
      unfold Spec.firstsSoFar
      simp only [List.flatMap_cons, List.flatMap_nil, List.append_nil]
      unfold Spec.opFirsts
      rw [hop]
      refine firsts_none (fun b m => hnl' op (by simp) b ?_) vs
      unfold Spec.opBtws; rw [hop]; exact m
    rw [e6, List.filter_eq_self.2]
    · simp
    · intro x hx
      have hx' := (hin x hx).2
      have h3 : x ∈ Spec.registered s ⟨chr x.k1, chr x.k2⟩ := hx'
      have hl0 := c0.pose x (hin x hx).1
      unfold Spec.isLandmark at hl0
      simp only [decide_eq_false_iff_not, not_or] at hl0
      have f := pairFed_global w.chains w.reached w.known w.keeps hl0.1 hl0.2
      have f' := pairFed_global hch' hon' hkk' hke' hl0.1 hl0.2
      have vo := (fine_same hs hr r r' f' (fun c _ => pre c)).1 x (registered_fine hs hr r f h3)
      have e0 := registered_filter hs hr r r f f (fun c _ => List.prefix_refl _)
      rw [e0] at h3
      unfold countedCand
      rw [← vo, (List.mem_filter.1 h3).2, Bool.or_true]

end
end RPGO

namespace RPGO.Props
variable {G T N : Type} [Mul G] [Inv G] [One G]

theorem restart_main {G : Type} [Group G] {cfg : Cfg G T N} (hs : StartFree cfg.ops) {e e' : Env G N} (he : e.Ok) (he' : e'.Ok)
    (hr : cfg.rejection = true) (hl : cfg.loopCheck = true) {start : Chr → Key}
    {h : List (Op G N)} {s s' : St G T N} (r : ReachOk cfg e h s) (w : Spec.Restartable cfg start h s)
    {op : Op G N} {vs : Vals G} (hop : Spec.batch op = some (s.nfg, vs)) (hv : ∀ k, k ∈ vs.keys ↔ k ∈ s.values.keys)
    (r' : ReachOk cfg e' [op] s') :
    Spec.Restarted cfg e e' s s' ∧ Spec.NumLC cfg e' s' (Spec.cands cfg vs s.nfg).length := by
  obtain ⟨h1, h2⟩ := restart_same hs he he' hr hl r w hop hv r'
  refine ⟨h1, (numLC_iff hr).2 ?_⟩
  rw [h2, (restart_supply hs he hr r w hv).2.2.2.1]

variable {K C : Type} [Field K] [LinearOrder K]

/-- C81, PcmSimple. A solver went through the calls `h` and is in state `s`. A new one is given all of its factors and values for all
of its keys (for instance its estimate) in a single call, and the call returns. Then it holds the same factors; between
robots that were not ignored it accepts the same closures, and has registered no other ones; it reports as many closures
as it was given. -/
theorem C81_restart {G : Type} [Group G] (p : Params K) (tn rn : G → K) (signed : Bool) (hm : p.method ≠ .none)
    (hl : (p.cfgSimple C tn rn signed).loopCheck = true) {e e' : Env G (GNoise C)} (he : e.Ok) (he' : e'.Ok) {start : Chr → Key}
    {h : List (Op G (GNoise C))} {s s' : St G (PNode G) (GNoise C)} (r : ReachOk (p.cfgSimple C tn rn signed) e h s)
    (w : Spec.Restartable (p.cfgSimple C tn rn signed) start h s)
    {op : Op G (GNoise C)} {vs : Vals G} (hop : Spec.batch op = some (s.nfg, vs)) (hv : ∀ k, k ∈ vs.keys ↔ k ∈ s.values.keys)
    (r' : ReachOk (p.cfgSimple C tn rn signed) e' [op] s') :
    Spec.Restarted (p.cfgSimple C tn rn signed) e e' s s' ∧
      Spec.NumLC (p.cfgSimple C tn rn signed) e' s' (Spec.cands (p.cfgSimple C tn rn signed) vs s.nfg).length :=
  restart_main (node_startFree tn rn _ _ _ _) he he' (by simp [Params.cfgSimple, Params.cfg, hm]) hl r w hop hv r'

/-- C81, PCM2D / PCM3D. -/
theorem C81_restart_cov {G : Type} [Group G] [AddGroup C] (p : Params K) (ce : CovEnv G C K) (signed : Bool) (hm : p.method ≠ .none)
    (hl : (p.cfgCov ce signed).loopCheck = true) {e e' : Env G (GNoise C)} (he : e.Ok) (he' : e'.Ok) {start : Chr → Key}
    {h : List (Op G (GNoise C))} {s s' : St G (PCov G C) (GNoise C)} (r : ReachOk (p.cfgCov ce signed) e h s)
    (w : Spec.Restartable (p.cfgCov ce signed) start h s)
    {op : Op G (GNoise C)} {vs : Vals G} (hop : Spec.batch op = some (s.nfg, vs)) (hv : ∀ k, k ∈ vs.keys ↔ k ∈ s.values.keys)
    (r' : ReachOk (p.cfgCov ce signed) e' [op] s') :
    Spec.Restarted (p.cfgCov ce signed) e e' s s' ∧
      Spec.NumLC (p.cfgCov ce signed) e' s' (Spec.cands (p.cfgCov ce signed) vs s.nfg).length :=
  restart_main (cov_startFree ce _ _) he he' (by simp [Params.cfgCov, Params.cfg, hm]) hl r w hop hv r'

/-- C81, the estimate. Given the old estimate, without asking for optimization (and without frame alignment), the new
solver has exactly the old estimate. -/
theorem C81_estimate {cfg : Cfg G T N} {e e' : Env G N} (hr : cfg.rejection = true) (hal : cfg.align = false) (hf : cfg.fixPrev = false)
    {h : List (Op G N)} {s s' : St G T N} (r : ReachOk cfg e h s) (r' : ReachOk cfg e' [.update s.nfg s.values false] s') :
    s'.values = s.values := by
  obtain ⟨s0, x, r0, ex⟩ := ReachOk.snoc_inv (h := []) r'
  have hk := C59_estimate (Or.inl hal) hf (op := .update s.nfg s.values false) rfl ex
  have ho : Spec.optimizes cfg (.update s.nfg s.values false) = false := by
    unfold Spec.optimizes; rw [if_pos hr]; rfl
  rw [ho, if_neg (by simp), reachOk_nil r0] at hk
  refine KMap.Sorted.ext (C34_estimate_keys r').2 (C34_estimate_keys r).2 fun k => ?_
  rw [hk k]
  rfl

/-- C81: when accepted closures agree with each other in the order in which they stand in the graph. For PcmSimple with
distances that do not change under inversion and conjugation (as in C75): if the accepted closures of a pair lead in the
same direction and any two of them agree according to the matrix. -/
theorem C81_agreeing {G : Type} [Group G] (p : Params K) (tn rn : G → K) (signed : Bool) (hm : p.method ≠ .none)
    (h1 : ∀ g, tn g⁻¹ = tn g ∧ rn g⁻¹ = rn g) (h2 : ∀ g x, tn (x * g * x⁻¹) = tn g ∧ rn (x * g * x⁻¹) = rn g)
    (hl : (p.cfgSimple C tn rn signed).loopCheck = true) {e : Env G (GNoise C)} {start : Chr → Key} {a b : Chr}
    {h : List (Op G (GNoise C))} {s : St G (PNode G) (GNoise C)} (r : ReachOk (p.cfgSimple C tn rn signed) e h s)
    (hf : Spec.PairFed (p.cfgSimple C tn rn signed) start a b h)
    (dir : ∀ x ∈ Spec.selected s ⟨a, b⟩, chr x.k1 = a ∧ chr x.k2 = b)
    {idx : List Nat} (ha : Spec.AcceptedAt s ⟨a, b⟩ idx) (hg : Spec.Agreeing s ⟨a, b⟩ idx)
    (i j : Nat) (x y : Btw G (GNoise C)) (hij : i < j) (hx : (Spec.selected s ⟨a, b⟩)[i]? = some x)
    (hy : (Spec.selected s ⟨a, b⟩)[j]? = some y) : Spec.PairCheck (p.cfgSimple C tn rn signed) s x y true := by
  have hr : (p.cfgSimple C tn rn signed).rejection = true := by simp [Params.cfgSimple, Params.cfg, hm]
  have hs := node_startFree tn rn p.odomT p.odomR p.distT p.distR (C := C)
  have at' : ∀ {i : Nat} {x : Btw G (GNoise C)}, (Spec.selected s ⟨a, b⟩)[i]? = some x →
      ∃ i', idx[i]? = some i' ∧ (Spec.registered s ⟨a, b⟩)[i']? = some x := by
    intro i x hx
    have q := congrArg (fun l => l[i]?) ha
    simp only [List.getElem?_map, hx, Option.map_some] at q
    cases hi : idx[i]? with
    | none => rw [hi] at q; simp at q
    | some i' => rw [hi] at q; simp at q; exact ⟨i', rfl, q.symm⟩
  obtain ⟨i', gi, rx⟩ := at' hx
  obtain ⟨j', gj, ry⟩ := at' hy
  have hne : i' ≠ j' := by
    intro q
    subst q
    have li := (List.getElem?_eq_some_iff.1 gi)
    have lj := (List.getElem?_eq_some_iff.1 gj)
    obtain ⟨l1, e1⟩ := li
    obtain ⟨l2, e2⟩ := lj
    exact absurd ((List.Nodup.getElem_inj_iff hg.1).1 (e1.trans e2.symm)) (Nat.ne_of_lt hij)
  have hag := hg.2.2 i' (List.mem_of_getElem? gi) j' (List.mem_of_getElem? gj) hne
  have sh := r.reach.shape hr hl ⟨a, b⟩
  have n2 : 2 ≤ (Spec.registered s ⟨a, b⟩).length := by have := hag.1; have := hag.2.1; omega
  have nx := sh.noise n2 x (List.mem_of_getElem? rx)
  have ny := sh.noise n2 y (List.mem_of_getElem? ry)
  have dx := dir x (List.mem_of_getElem? hx)
  have dy := dir y (List.mem_of_getElem? hy)
  have hsym := loopVerdict_sym p tn rn signed h1 h2 (lk (p.cfgSimple C tn rn signed) s.pcm) x y (by rw [dx.1, dy.1]) (by rw [dx.2, dy.2])
  have hv : loopVerdict (p.cfgSimple C tn rn signed) (lk (p.cfgSimple C tn rn signed) s.pcm) x y = true := by
    rcases Nat.lt_or_gt_of_ne hne with q | q
    · rw [← pair_judged hs hr hl r hf q rx ry]
      have := hag.2.2.2
      rw [Nat.max_eq_right (Nat.le_of_lt q), Nat.min_eq_left (Nat.le_of_lt q)] at this
      rw [← this]
      exact sh.sym _ _ hag.1 hag.2.1
    · rw [hsym, ← pair_judged hs hr hl r hf q ry rx]
      have := hag.2.2.2
      rw [Nat.max_eq_left (Nat.le_of_lt q), Nat.min_eq_right (Nat.le_of_lt q)] at this
      rw [← this]
      exact sh.sym _ _ hag.2.1 hag.1
  have := pairCheck_of (cfg := p.cfgSimple C tn rn signed) (s := s) nx ny
  rwa [hv] at this


/-! ### A restart with rejected closures, and the conditions -/

/-- A decidable form of the last two conditions of `Spec.Restartable`. -/
def restartB (cfg : Cfg Demo.Z Demo.Tp Demo.Ns) (s : St Demo.Z Demo.Tp Demo.Ns) : Bool :=
  s.pcm.lcs.all fun e => (e.2.cons.all fun x => decide (x.k2 ≠ x.k1 + 1)) &&
    (List.range e.2.cons.length).all fun i => (List.range e.2.cons.length).all fun j => !decide (i < j) ||
      match e.2.cons[i]?, e.2.cons[j]? with
      | some x, some y => pairIs cfg x y true s
      | _, _ => true

theorem restartB_ok {cfg : Cfg Demo.Z Demo.Tp Demo.Ns} {s : St Demo.Z Demo.Tp Demo.Ns} (h : restartB cfg s = true) :
    (∀ id, ∀ x ∈ Spec.selected s id, x.k2 ≠ x.k1 + 1) ∧
    ∀ id (i j : Nat) x y, i < j → (Spec.selected s id)[i]? = some x → (Spec.selected s id)[j]? = some y →
      Spec.PairCheck cfg s x y true := by
  have key : ∀ id, Spec.selected s id = [] ∨ ∃ e ∈ s.pcm.lcs, Spec.selected s id = e.2.cons := by
    intro id
    unfold Spec.selected lcOf
    cases hg : AList.get? ObsId.eqv s.pcm.lcs id with
    | none => exact Or.inl rfl
    | some m =>
      obtain ⟨e, he, ev, _⟩ := get?_entry hg
      exact Or.inr ⟨e, he, by rw [ev]; rfl⟩
  unfold restartB at h
  rw [List.all_eq_true] at h
  constructor
  · intro id x hx
    rcases key id with k | ⟨e, he, k⟩
    · rw [k] at hx; cases hx
    · have q := h e he
      rw [Bool.and_eq_true, List.all_eq_true] at q
      rw [k] at hx
      exact of_decide_eq_true (q.1 x hx)
  · intro id i j x y hij hx hy
    rcases key id with k | ⟨e, he, k⟩
    · rw [k] at hx; simp at hx
    · rw [k] at hx hy
      have q := h e he
      simp only [Bool.and_eq_true, List.all_eq_true, List.mem_range] at q
      have := q.2 i (List.getElem?_eq_some_iff.1 hx).1 j (List.getElem?_eq_some_iff.1 hy).1
      rw [hx, hy, decide_eq_true hij] at this
      exact pairIs_iff (by simpa using this)

/-- Run calls, then hand the resulting graph and estimate to a fresh solver. -/
theorem runs_restart {cfg : Cfg G T N} {env : Env G N} {ops : List (Op G N)} {o : Bool} {P : St G T N → St G T N → Bool}
    (h : Demo.runs cfg env ops (fun s => Demo.runs cfg env [.update s.nfg s.values o] (P s)) = true) :
    ∃ s s', ReachOk cfg env ops s ∧ ReachOk cfg env [.update s.nfg s.values o] s' ∧ P s s' = true := by
  obtain ⟨s, r, h⟩ := Demo.runs_reach h
  obtain ⟨s', r', h⟩ := Demo.runs_reach h
  exact ⟨s, s', r, r', h⟩

set_option maxRecDepth 100000 in
/-- The hypotheses of `C81_restart` and `C81_estimate` are met: of seven closures three are accepted; the new solver is given
ten factors, holds ten, and reports three closures. -/
example : ∃ s s', ReachOk Demo.cfg Demo.env muddle s ∧ ReachOk Demo.cfg Demo.env [.update s.nfg s.values false] s' ∧
    Spec.Restartable Demo.cfg (fun c => symKey c 0) muddle s ∧ Spec.NumLC Demo.cfg Demo.env s 7 ∧
    Spec.NumLC Demo.cfg Demo.env s' 3 ∧ s'.nfg.length = 10 ∧ Demo.cfg.align = false ∧ Demo.cfg.fixPrev = false := by
  obtain ⟨s, s', r, r', h⟩ := runs_restart (cfg := Demo.cfg) (env := Demo.env) (ops := muddle) (o := false)
    (P := fun s s' => restartB Demo.cfg s && decide (s.pcm.totalLc = 7 ∧ s'.pcm.totalLc = 3 ∧ s'.nfg.length = 10)) (by decide +kernel)
  rw [Bool.and_eq_true] at h
  obtain ⟨h1, h2, h3⟩ := of_decide_eq_true h.2
  obtain ⟨q1, q2⟩ := restartB_ok h.1
  refine ⟨s, s', r, r', ⟨?_, ?_, chains_of (by decide +kernel), onOdometry_of (by decide +kernel), keysKnown_of (by decide +kernel),
    by unfold Spec.NoLandmarks; decide +kernel, q1, q2⟩, (numLC_iff (by decide)).2 h1.symm, (numLC_iff (by decide)).2 h2.symm, h3, rfl, rfl⟩
  · intro op ho
    simp [muddle, wandering, wanderings] at ho
    rcases ho with rfl | rfl | rfl | rfl | rfl | rfl | rfl <;> trivial
  · intro op ho
    simp [muddle, wandering, wanderings] at ho
    rcases ho with rfl | rfl | rfl | rfl | rfl | rfl | rfl <;> exact fun q => q

set_option maxRecDepth 100000 in
/-- Closures between consecutive poses cannot be allowed. The closure from `a0` to `a1` is accepted, but the new solver takes it for
odometry: it registers no closure. -/
theorem C81_false_neighbours : ∃ s s',
    ReachOk Demo.cfg Demo.env (Demo.h1.take 3 ++ [.update [Demo.edge (Demo.a 0) (Demo.a 1) 1] [] true]) s ∧
    ReachOk Demo.cfg Demo.env [.update s.nfg s.values false] s' ∧
    Spec.selected s ⟨97, 97⟩ = [Demo.btw (Demo.a 0) (Demo.a 1) 1] ∧ Spec.selected s' ⟨97, 97⟩ = [] ∧
    Spec.NumLC Demo.cfg Demo.env s' 0 := by
  obtain ⟨s, s', r, r', h⟩ := runs_restart (cfg := Demo.cfg) (env := Demo.env)
    (ops := Demo.h1.take 3 ++ [.update [Demo.edge (Demo.a 0) (Demo.a 1) 1] [] true]) (o := false)
    (P := fun s s' => decide (Spec.selected s ⟨97, 97⟩ = [Demo.btw (Demo.a 0) (Demo.a 1) 1] ∧ Spec.selected s' ⟨97, 97⟩ = [] ∧
      s'.pcm.totalLc = 0)) (by decide +kernel)
  obtain ⟨h1, h2, h3⟩ := of_decide_eq_true h
  exact ⟨s, s', r, r', h1, h2, (numLC_iff (by decide)).2 h3.symm⟩

set_option maxRecDepth 100000 in
/-- Accepted closures that do not all agree with each other cannot be allowed: the new solver drops one that the old one had accepted. -/
theorem C81_false_agreement : ∃ s s',
    ReachOk Demo.cfg Demo.env (wandering [(0, 1, 9), (1, 3, 3), (3, 3, 3), (3, 0, 9), (1, 1, 7)]) s ∧
    ReachOk Demo.cfg Demo.env [.update s.nfg s.values false] s' ∧
    (Spec.selected s ⟨97, 98⟩).length = 3 ∧ (Spec.registered s' ⟨97, 98⟩).length = 3 ∧ (Spec.selected s' ⟨97, 98⟩).length = 2 := by
  obtain ⟨s, s', r, r', h⟩ := runs_restart (cfg := Demo.cfg) (env := Demo.env)
    (ops := wandering [(0, 1, 9), (1, 3, 3), (3, 3, 3), (3, 0, 9), (1, 1, 7)]) (o := false)
    (P := fun s s' => decide ((Spec.selected s ⟨97, 98⟩).length = 3 ∧ (Spec.registered s' ⟨97, 98⟩).length = 3 ∧
      (Spec.selected s' ⟨97, 98⟩).length = 2)) (by decide +kernel)
  obtain ⟨h1, h2, h3⟩ := of_decide_eq_true h
  exact ⟨s, s', r, r', h1, h2, h3⟩

set_option maxRecDepth 100000 in
/-- Landmarks cannot be allowed: of two observations in the graph, both of which now come with the value of the landmark, only the
last one is kept. -/
theorem C81_false_landmark : ∃ s s', ReachOk (thrLm 1 1) Demo.env landmarkTwice s ∧
    ReachOk (thrLm 1 1) Demo.env [.update s.nfg s.values false] s' ∧
    Demo.edge (Demo.a 0) (Demo.l 1) 5 ∈ s.nfg ∧ Demo.edge (Demo.a 1) (Demo.l 1) 4 ∈ s.nfg ∧
    Demo.edge (Demo.a 0) (Demo.l 1) 5 ∉ s'.nfg ∧ Demo.edge (Demo.a 1) (Demo.l 1) 4 ∈ s'.nfg := by
  obtain ⟨s, s', r, r', h⟩ := runs_restart (cfg := thrLm 1 1) (env := Demo.env) (ops := landmarkTwice) (o := false)
    (P := fun s s' => decide (Demo.edge (Demo.a 0) (Demo.l 1) 5 ∈ s.nfg ∧ Demo.edge (Demo.a 1) (Demo.l 1) 4 ∈ s.nfg ∧
      Demo.edge (Demo.a 0) (Demo.l 1) 5 ∉ s'.nfg ∧ Demo.edge (Demo.a 1) (Demo.l 1) 4 ∈ s'.nfg)) (by decide +kernel)
  exact ⟨s, s', r, r', of_decide_eq_true h⟩

end RPGO.Props
