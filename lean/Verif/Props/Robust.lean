import Verif.Proofs.Group
import Verif.Props.Pair
import Verif.Props.Observations
/-
C74 a leading group of agreeing measurements is accepted, whole and alone, whatever else was registered.
-/

namespace RPGO.Spec
variable {G T N : Type}

/-- The closures of the pair `id` registered at positions `I` form a leading group: any two of them agree, none of them
agrees with a closure outside of the group, and the closures outside of it contain no set of agreeing closures that is as
large. Nothing else is asked of the closures outside of the group. -/
def LeadingGroup (s : St G T N) (id : ObsId) (I : List Nat) : Prop :=
  Agreeing s id I ∧ (∀ i ∈ I, ∀ j, Agree s id i j → j ∈ I) ∧
    ∀ l, Agreeing s id l → (∀ i ∈ l, i ∉ I) → l.length < I.length

/-- The same for the observations of landmark `l`. -/
def ObsLeadingGroup (s : St G T N) (l : Key) (I : List Nat) : Prop :=
  ObsAgreeing s l I ∧ (∀ i ∈ I, ∀ j, ObsAgree s l i j → j ∈ I) ∧
    ∀ is, ObsAgreeing s l is → (∀ i ∈ is, i ∉ I) → is.length < I.length

/-- Closure `x` leads from robot `a` to robot `b` and measures what their odometry `L`, `M` and the offset `X` between
their first poses give. -/
def Fits [Group G] (start : Chr → Key) (a b : Chr) (L M : List (Btw G N)) (X : G) (x : Btw G N) : Prop :=
  ∃ i j, At a (start a) L x.k1 i ∧ At b (start b) M x.k2 j ∧ x.m = (measProd (L.take i))⁻¹ * X * measProd (M.take j)

end RPGO.Spec

namespace RPGO
variable {G T N : Type}

/-- Positions at which the elements of `l` satisfy `p`. -/
def positions {α : Type} (p : α → Bool) (l : List α) : List Nat :=
  (List.range l.length).filter fun i => l[i]?.any p

theorem mem_positions {α : Type} {p : α → Bool} {l : List α} {i : Nat} :
    i ∈ positions p l ↔ ∃ x, l[i]? = some x ∧ p x = true := by
  unfold positions
  rw [List.mem_filter, List.mem_range]
  constructor
  · rintro ⟨hi, h⟩
    rw [List.getElem?_eq_getElem hi] at h ⊢
    exact ⟨_, rfl, by simpa using h⟩
  · rintro ⟨x, h, hp⟩
    exact ⟨(List.getElem?_eq_some_iff.1 h).1, by rw [h]; simpa using hp⟩

theorem nodup_positions {α : Type} (p : α → Bool) (l : List α) : (positions p l).Nodup := List.nodup_range.filter _

theorem positions_map {α : Type} (p : α → Bool) (l : List α) : (positions p l).map (fun i => l[i]?) = (l.filter p).map some := by
  unfold positions
  induction l with
  | nil => rfl
  | cons x l ih =>
    rw [List.length_cons, List.range_succ_eq_map, List.filter_cons]
    have e : ((List.map Nat.succ (List.range l.length)).filter fun i => (x :: l)[i]?.any p) =
        ((List.range l.length).filter fun i => l[i]?.any p).map Nat.succ := by
      rw [List.filter_map]
      rfl
    cases h : p x with
    | true => simp only [List.getElem?_cons_zero, Option.any_some, h, if_true, List.map_cons, e, List.map_map,
        List.filter_cons_of_pos, ← ih]; rfl
    | false => simp only [List.getElem?_cons_zero, Option.any_some, h, Bool.false_eq_true, if_false, e, List.map_map,
        List.filter_cons_of_neg, not_false_eq_true, ← ih]; rfl

variable [Group G]

/-- The matrix of a pair in terms of the verdicts of the present trajectories. -/
theorem pair_judged {cfg : Cfg G T N} (hs : StartFree cfg.ops) {env : Env G N} (hr : cfg.rejection = true) (hl : cfg.loopCheck = true)
    {h : List (Op G N)} {s : St G T N} (r : ReachOk cfg env h s) {start : Chr → Key} {a b : Chr}
    (hf : Spec.PairFed cfg start a b h) {i j : Nat} (hij : i < j) {x y : Btw G N}
    (hx : (Spec.registered s ⟨a, b⟩)[i]? = some x) (hy : (Spec.registered s ⟨a, b⟩)[j]? = some y) :
    (Spec.matrix s ⟨a, b⟩).e i j = loopVerdict cfg (lk cfg s.pcm) x y := by
  have e := pair_groups_eq hs hr r r hf hf (fun c _ => List.prefix_refl _)
  obtain ⟨b1, b2⟩ := groupFold_bare (cfg := cfg) (acc := fun x => decide (chr x.k1 ≠ chr x.k2) || odomVerdict cfg (lk cfg s.pcm) x)
    (f := lk cfg s.pcm) (Spec.pairGroups cfg a b h) Meas.empty
  rw [← e] at b1 b2
  have g := (Grown.refl cfg (lk cfg s.pcm) (m := (Meas.empty : Meas G N)) (Or.inl rfl)).fold hl
    ((Spec.pairGroups cfg a b h).flatten.filter fun x => decide (chr x.k1 ≠ chr x.k2) || odomVerdict cfg (lk cfg s.pcm) x)
  have := g.new i j x y hij (by simp [Meas.empty]) (by rw [← b1]; exact hx) (by rw [← b1]; exact hy)
  rw [← this, ← b2]
  rfl

theorem Agree.symm {s : St G T N} {id : ObsId} {i j : Nat} (h : Spec.Agree s id i j) : Spec.Agree s id j i :=
  ⟨h.2.1, h.1, h.2.2.1.symm, by rw [Nat.max_comm, Nat.min_comm]; exact h.2.2.2⟩

/-- Two registered closures of a pair agree if the earlier passes the pairwise check with the later. -/
theorem agree_of_check {cfg : Cfg G T N} (hs : StartFree cfg.ops) {env : Env G N} (hr : cfg.rejection = true) (hl : cfg.loopCheck = true)
    {h : List (Op G N)} {s : St G T N} (r : ReachOk cfg env h s) {start : Chr → Key} {a b : Chr}
    (hf : Spec.PairFed cfg start a b h) {i j : Nat} (hij : i < j) {x y : Btw G N}
    (hx : (Spec.registered s ⟨a, b⟩)[i]? = some x) (hy : (Spec.registered s ⟨a, b⟩)[j]? = some y) :
    Spec.Agree s ⟨a, b⟩ i j ↔ Spec.PairCheck cfg s x y true := by
  obtain ⟨hi, ex⟩ := List.getElem?_eq_some_iff.1 hx
  obtain ⟨hj, ey⟩ := List.getElem?_eq_some_iff.1 hy
  have sh := r.reach.shape hr hl ⟨a, b⟩
  have h2 : 2 ≤ (lcOf s.pcm ⟨a, b⟩).factors.length := by
    have : j < (lcOf s.pcm ⟨a, b⟩).factors.length := hj
    omega
  have nx : x.noise.isSome := by rw [← ex]; exact sh.noise h2 _ (List.getElem_mem _)
  have ny : y.noise.isSome := by rw [← ey]; exact sh.noise h2 _ (List.getElem_mem _)
  have e := pair_judged hs hr hl r hf hij hx hy
  have sy : (Spec.matrix s ⟨a, b⟩).e j i = (Spec.matrix s ⟨a, b⟩).e i j := sh.sym j i hj hi
  unfold Spec.Agree
  rw [Nat.max_eq_right (Nat.le_of_lt hij), Nat.min_eq_left (Nat.le_of_lt hij), sy, e]
  constructor
  · rintro ⟨_, _, _, v⟩
    have := pairCheck_of (cfg := cfg) (s := s) nx ny
    rwa [v] at this
  · intro c
    exact ⟨hi, hj, Nat.ne_of_lt hij, (pairCheck_val c).symm⟩

end RPGO

namespace RPGO.Props
variable {G T N : Type} [Group G]

/-- C74. In both selection modes and after whatever calls, removals included: of a pair of robots whose registered
closures contain a leading group, exactly the closures of this group are accepted, each once. -/
theorem C74_group_accepted {cfg : Cfg G T N} {env : Env G N} (hr : cfg.rejection = true) (hl : cfg.loopCheck = true)
    {h : List (Op G N)} {s : St G T N} (r : ReachOk cfg env h s) {id : ObsId} {I : List Nat} (hI : Spec.LeadingGroup s id I) :
    ∃ idx, idx.Perm I ∧ Spec.AcceptedAt s id idx := by
  rcases Nat.lt_or_ge (Spec.registered s id).length 2 with h2 | h2
  · have hp : 0 < I.length := by simpa using hI.2.2 [] ⟨List.nodup_nil, by simp, by simp⟩ (by simp)
    have e1 : (Spec.registered s id).length = 1 := by
      obtain ⟨i, hi⟩ := List.exists_mem_of_length_pos hp
      have := hI.1.2.1 i hi
      omega
    have e2 : I = [0] := by
      have sub : I ⊆ [0] := fun i hi => by
        have := hI.1.2.1 i hi
        simp; omega
      have := (List.subperm_of_subset hI.1.1 sub).perm_of_length_le hp
      exact List.perm_singleton.1 this
    refine ⟨[0], by rw [e2], ?_⟩
    unfold Spec.AcceptedAt
    rw [C64_single hr hl r id (by omega)]
    obtain ⟨x, ex⟩ := List.length_eq_one_iff.1 e1
    rw [ex]; rfl
  · have hn : (Spec.matrix s id).n = (Spec.registered s id).length := (r.reach.shape hr hl id).size h2
    obtain ⟨idx, hp, hperm⟩ := (r.grouped hr hl id).lead h2 I
      ⟨(agreeing_iff hn I).2 hI.1, fun i hi j hj => hI.2.1 i hi j ((agree_iff hn i j).1 hj),
        fun l hc hd => hI.2.2 l ((agreeing_iff hn l).1 hc) hd⟩
    exact ⟨idx, hperm, picked_at hp⟩

/-- C74 for the observations of a landmark. -/
theorem C74_observations {cfg : Cfg G T N} {env : Env G N} (hr : cfg.rejection = true)
    {h : List (Op G N)} {s : St G T N} (r : ReachOk cfg env h s) {l : Key} (hf : Spec.FromPoses s l) {I : List Nat}
    (hI : Spec.ObsLeadingGroup s l I) : ∃ idx, idx.Perm I ∧ Spec.ObsAcceptedAt s l idx := by
  rcases Nat.lt_or_ge (Spec.observed s l).length 2 with h2 | h2
  · have hp : 0 < I.length := by simpa using hI.2.2 [] ⟨List.nodup_nil, by simp, by simp⟩ (by simp)
    have e1 : (Spec.observed s l).length = 1 := by
      obtain ⟨i, hi⟩ := List.exists_mem_of_length_pos hp
      have := hI.1.2.1 i hi
      omega
    have e2 : I = [0] := by
      have sub : I ⊆ [0] := fun i hi => by
        have := hI.1.2.1 i hi
        simp; omega
      have := (List.subperm_of_subset hI.1.1 sub).perm_of_length_le hp
      exact List.perm_singleton.1 this
    refine ⟨[0], by rw [e2], ?_⟩
    unfold Spec.ObsAcceptedAt
    rw [C69_single hr r l (by omega)]
    obtain ⟨x, ex⟩ := List.length_eq_one_iff.1 e1
    rw [ex]; rfl
  · have hn := r.lmSize hr hf h2
    obtain ⟨idx, hp, hperm⟩ := (r.lmChosen hr l).grouped.lead h2 I
      ⟨(obsAgreeing_iff hn I).2 hI.1, fun i hi j hj => hI.2.1 i hi j ((obsAgree_iff hn i j).1 hj),
        fun l hc hd => hI.2.2 l ((obsAgreeing_iff hn l).1 hc) hd⟩
    exact ⟨idx, hperm, obs_picked_at hp⟩

end RPGO.Props

namespace RPGO
variable {G T N : Type} [Group G]

/-- From positions to closures. -/
theorem accepted_filter {cfg : Cfg G T N} {env : Env G N} (hr : cfg.rejection = true) (hl : cfg.loopCheck = true)
    {h : List (Op G N)} {s : St G T N} (r : ReachOk cfg env h s) {id : ObsId} {p : Btw G N → Bool}
    (hI : Spec.LeadingGroup s id (positions p (Spec.registered s id))) :
    (Spec.selected s id).Perm ((Spec.registered s id).filter p) := by
  obtain ⟨idx, hp, ha⟩ := Props.C74_group_accepted hr hl r hI
  have h3 : ((Spec.selected s id).map some).Perm (((Spec.registered s id).filter p).map some) := by
    rw [ha, ← positions_map]
    exact hp.map _
  exact (List.map_perm_map_iff (Option.some_injective _)).1 h3

/-- Closures that pass the pairwise check with each other, and that lead. -/
theorem accepted_checked {cfg : Cfg G T N} (hs : StartFree cfg.ops) {env : Env G N} (hr : cfg.rejection = true) (hl : cfg.loopCheck = true)
    {h : List (Op G N)} {s : St G T N} (r : ReachOk cfg env h s) {start : Chr → Key} {a b : Chr}
    (hf : Spec.PairFed cfg start a b h) {P : Btw G N → Prop} [DecidablePred P]
    (hP : ∀ x y, x.noise.isSome → y.noise.isSome → P x → P y → Spec.PairCheck cfg s x y true)
    (alone : ∀ i j x y, (Spec.registered s ⟨a, b⟩)[i]? = some x → (Spec.registered s ⟨a, b⟩)[j]? = some y → P x → ¬ P y →
      ¬ Spec.Agree s ⟨a, b⟩ i j)
    (lead : ∀ l, Spec.Agreeing s ⟨a, b⟩ l → (∀ i ∈ l, ∀ x, (Spec.registered s ⟨a, b⟩)[i]? = some x → ¬ P x) →
      l.length < ((Spec.registered s ⟨a, b⟩).filter P).length) :
    (Spec.selected s ⟨a, b⟩).Perm ((Spec.registered s ⟨a, b⟩).filter P) := by
  refine accepted_filter hr hl r ⟨⟨nodup_positions _ _, ?_, ?_⟩, ?_, ?_⟩
  · intro i hi
    obtain ⟨x, hx, _⟩ := mem_positions.1 hi
    exact (List.getElem?_eq_some_iff.1 hx).1
  · have key : ∀ i ∈ positions (fun x => decide (P x)) (Spec.registered s ⟨a, b⟩),
        ∀ j ∈ positions (fun x => decide (P x)) (Spec.registered s ⟨a, b⟩), i < j → Spec.Agree s ⟨a, b⟩ i j := by
      intro i hi j hj hij
      obtain ⟨x, hx, px⟩ := mem_positions.1 hi
      obtain ⟨y, hy, py⟩ := mem_positions.1 hj
      obtain ⟨hi', ex⟩ := List.getElem?_eq_some_iff.1 hx
      obtain ⟨hj', ey⟩ := List.getElem?_eq_some_iff.1 hy
      have h2 : 2 ≤ (lcOf s.pcm ⟨a, b⟩).factors.length := by
        have : j < (lcOf s.pcm ⟨a, b⟩).factors.length := hj'
        omega
      have sh := r.reach.shape hr hl ⟨a, b⟩
      exact (agree_of_check hs hr hl r hf hij hx hy).2 (hP x y (by rw [← ex]; exact sh.noise h2 _ (List.getElem_mem _))
        (by rw [← ey]; exact sh.noise h2 _ (List.getElem_mem _)) (of_decide_eq_true px) (of_decide_eq_true py))
    intro i hi j hj hij
    rcases Nat.lt_or_gt_of_ne hij with h' | h'
    · exact key i hi j hj h'
    · exact Agree.symm (key j hj i hi h')
  · intro i hi j hij
    obtain ⟨x, hx, px⟩ := mem_positions.1 hi
    have hj := hij.2.1
    refine mem_positions.2 ⟨_, List.getElem?_eq_getElem hj, ?_⟩
    by_contra hn
    exact alone i j x _ hx (List.getElem?_eq_getElem hj) (of_decide_eq_true px) (by simpa using hn) hij
  · intro l hl' hd
    have : (positions (fun x => decide (P x)) (Spec.registered s ⟨a, b⟩)).length = ((Spec.registered s ⟨a, b⟩).filter P).length := by
      have := congrArg List.length (positions_map (fun x => decide (P x)) (Spec.registered s ⟨a, b⟩))
      simpa using this
    rw [this]
    refine lead l hl' fun i hi x hx px => hd i hi (mem_positions.2 ⟨x, hx, by simpa using px⟩)

end RPGO

namespace RPGO.Props
variable {G : Type} [Group G] {C K : Type} [Field K] [LinearOrder K]

open Classical in
/-- C74 in terms of the measurements, for PcmSimple: take the closures from `a` to `b` that measure exactly what odometry
and one offset `X` between the robots give. If none of them agrees with another registered closure of the pair, and the
other ones contain no equally large set of agreeing closures, exactly these closures are accepted. -/
theorem C74_true_closures (p : Params K) (tn rn : G → K) (signed : Bool) (hm : p.method ≠ .none) (ht : tn 1 = 0) (hr1 : rn 1 = 0)
    (h1 : 0 < p.distT) (h2 : 0 < p.distR) (hl : (p.cfgSimple C tn rn signed).loopCheck = true)
    {env : Env G (GNoise C)} {h : List (Op G (GNoise C))} {s : St G (PNode G) (GNoise C)}
    (r : ReachOk (p.cfgSimple C tn rn signed) env h s) {start : Chr → Key} {a b : Chr}
    (hf : Spec.PairFed (p.cfgSimple C tn rn signed) start a b h) {L M : List (Btw G (GNoise C))}
    (hL : L = Spec.robotOdom (p.cfgSimple C tn rn signed) a h) (hM : M = Spec.robotOdom (p.cfgSimple C tn rn signed) b h) (X : G)
    (alone : ∀ i j x y, (Spec.registered s ⟨a, b⟩)[i]? = some x → (Spec.registered s ⟨a, b⟩)[j]? = some y →
      Spec.Fits start a b L M X x → ¬ Spec.Fits start a b L M X y → ¬ Spec.Agree s ⟨a, b⟩ i j)
    (lead : ∀ l, Spec.Agreeing s ⟨a, b⟩ l →
      (∀ i ∈ l, ∀ x, (Spec.registered s ⟨a, b⟩)[i]? = some x → ¬ Spec.Fits start a b L M X x) →
      l.length < ((Spec.registered s ⟨a, b⟩).filter (Spec.Fits start a b L M X)).length) :
    (Spec.selected s ⟨a, b⟩).Perm ((Spec.registered s ⟨a, b⟩).filter (Spec.Fits start a b L M X)) := by
  have hr : (p.cfgSimple C tn rn signed).rejection = true := by simp [Params.cfgSimple, Params.cfg, hm]
  have ex : ∀ x, Spec.Fits start a b L M X x → Spec.ExactBetween (p.cfgSimple C tn rn signed) s (start a) (start b) X x := by
    rintro x ⟨i, j, ⟨c1, l1, k1⟩, ⟨c2, l2, k2⟩, e⟩
    have ba := hf.begins a (Or.inl rfl)
    have bb := hf.begins b (Or.inr rfl)
    obtain ⟨u, _, ru, _, eu, _⟩ := C09_running_product p tn rn signed hm r a (start a) ba (hf.chains a (Or.inl rfl))
      (hf.short a (Or.inl rfl)) 0 i (Nat.zero_le _) (by rw [← hL]; exact l1)
    obtain ⟨v, _, rv, _, ev, _⟩ := C09_running_product p tn rn signed hm r b (start b) bb (hf.chains b (Or.inr rfl))
      (hf.short b (Or.inr rfl)) 0 j (Nat.zero_le _) (by rw [← hM]; exact l2)
    have z : ∀ k : Key, Spec.after k 0 = k := fun k => by simp [Spec.after]
    rw [z, ← k1] at ru
    rw [z, ← k2] at rv
    rw [← hL] at eu
    rw [← hM] at ev
    refine ⟨by rw [c1, ba], by rw [c2, bb], u, v, by rw [ba]; exact ru, by rw [bb]; exact rv, ?_⟩
    rw [e]
    show _ = u.pose⁻¹ * X * v.pose
    rw [eu, ev]
    simp [Spec.seg]
  exact accepted_checked (node_startFree tn rn _ _ _ _) hr hl r hf
    (fun x y nx ny hx hy => C12_exact_pass_pairwise_two_robots p tn rn signed ht hr1 h1 h2 s x y nx ny _ _ X (ex x hx) (ex y hy))
    alone lead

open Classical in
/-- C74 in terms of the measurements, for PCM2D / PCM3D. -/
theorem C74_true_closures_cov [AddGroup C] (p : Params K) (ce : CovEnv G C K) (signed : Bool) (hm : p.method ≠ .none)
    (hz : ∀ S, ce.maha 1 S = some 0 ∧ ce.mahaT 1 S = some 0) (h1 : 0 < p.lcThr) (hl : (p.cfgCov ce signed).loopCheck = true)
    {env : Env G (GNoise C)} {h : List (Op G (GNoise C))} {s : St G (PCov G C) (GNoise C)}
    (r : ReachOk (p.cfgCov ce signed) env h s) {start : Chr → Key} {a b : Chr}
    (hf : Spec.PairFed (p.cfgCov ce signed) start a b h) (X : G)
    (alone : ∀ i j x y, (Spec.registered s ⟨a, b⟩)[i]? = some x → (Spec.registered s ⟨a, b⟩)[j]? = some y →
      Spec.ExactBetween (p.cfgCov ce signed) s (start a) (start b) X x →
      ¬ Spec.ExactBetween (p.cfgCov ce signed) s (start a) (start b) X y → ¬ Spec.Agree s ⟨a, b⟩ i j)
    (lead : ∀ l, Spec.Agreeing s ⟨a, b⟩ l →
      (∀ i ∈ l, ∀ x, (Spec.registered s ⟨a, b⟩)[i]? = some x →
        ¬ Spec.ExactBetween (p.cfgCov ce signed) s (start a) (start b) X x) →
      l.length < ((Spec.registered s ⟨a, b⟩).filter (Spec.ExactBetween (p.cfgCov ce signed) s (start a) (start b) X)).length) :
    (Spec.selected s ⟨a, b⟩).Perm
      ((Spec.registered s ⟨a, b⟩).filter (Spec.ExactBetween (p.cfgCov ce signed) s (start a) (start b) X)) := by
  have hr : (p.cfgCov ce signed).rejection = true := by simp [Params.cfgCov, Params.cfg, hm]
  exact accepted_checked (cov_startFree ce _ _) hr hl r hf
    (fun x y nx ny hx hy => (C12_exact_pass_cov p ce signed hz s).2.2 h1 x y _ _ X nx ny hx hy) alone lead

end RPGO.Props

namespace RPGO.Props
variable {G T N : Type}

/-- A decidable criterion for a leading group: no three closures outside of the group agree with each other. -/
def leadB (s : St G T N) (id : ObsId) (I : List Nat) : Bool :=
  let out := (List.range (Spec.registered s id).length).filter fun i => decide (i ∉ I)
  decide (3 ≤ I.length ∧ I.Nodup) && I.all (fun i => decide (i < (Spec.registered s id).length)) &&
    I.all (fun i => (List.range (Spec.registered s id).length).all fun j => decide (i = j) || (decide (Spec.Agree s id i j) == decide (j ∈ I))) &&
    out.all fun i => out.all fun j => out.all fun k => !(decide (Spec.Agree s id i j) && decide (Spec.Agree s id j k) && decide (Spec.Agree s id i k))

theorem leadB_ok {s : St G T N} {id : ObsId} {I : List Nat} (h : leadB s id I = true) : Spec.LeadingGroup s id I := by
  unfold leadB at h
  simp only [Bool.and_eq_true, decide_eq_true_eq, List.all_eq_true] at h
  obtain ⟨⟨⟨⟨h3, hn⟩, hr⟩, ha⟩, ho⟩ := h
  have key : ∀ i ∈ I, ∀ j, j < (Spec.registered s id).length → i ≠ j → (Spec.Agree s id i j ↔ j ∈ I) := by
    intro i hi j hj hij
    have := ha i hi j (List.mem_range.2 hj)
    rw [decide_eq_false hij, Bool.false_or] at this
    exact decide_eq_decide.1 (beq_iff_eq.1 this)
  refine ⟨⟨hn, hr, fun i hi j hj hij => (key i hi j (hr j hj) hij).2 hj⟩,
    fun i hi j hij => (key i hi j hij.2.1 hij.2.2.1).1 hij, fun l hl hd => ?_⟩
  by_contra hlt
  have hm : ∀ x ∈ l, x ∈ (List.range (Spec.registered s id).length).filter fun i => decide (i ∉ I) := fun x hx =>
    List.mem_filter.2 ⟨List.mem_range.2 (hl.2.1 x hx), by simpa using hd x hx⟩
  match l, hl, hm, hlt with
  | [], _, _, hlt => exact hlt (by simp; omega)
  | [x], _, _, hlt => exact hlt (by simp; omega)
  | [x, y], _, _, hlt => exact hlt (by simp; omega)
  | x :: y :: z :: t, hl, hm, _ =>
    have nd := hl.1
    simp only [List.nodup_cons, List.mem_cons, not_or] at nd
    have := ho x (hm x (by simp)) y (hm y (by simp)) z (hm z (by simp))
    have a1 := hl.2.2 x (by simp) y (by simp) nd.1.1
    have a2 := hl.2.2 y (by simp) z (by simp) nd.2.1.1
    have a3 := hl.2.2 x (by simp) z (by simp) nd.1.2.1
    rw [decide_eq_true a1, decide_eq_true a2, decide_eq_true a3] at this
    cases this

/-- Two robots with four poses each, then closures between them. -/
def wandering (cs : List (BitVec 56 × BitVec 56 × ℤ)) : List (Op Demo.Z Demo.Ns) :=
  wanderings.take 6 ++ [.update (cs.map fun c => Demo.edge (Demo.a c.1) (Demo.b c.2.1) c.2.2) [] true]

/-- Seven closures: three for offset 2, and four others, among which there are agreeing ones but no three. -/
def muddle : List (Op Demo.Z Demo.Ns) :=
  wandering [(0, 0, 20), (1, 1, 2), (0, 1, 23), (0, 3, 5), (2, 2, 26), (3, 3, 2), (1, 2, -40)]

set_option maxRecDepth 100000 in
/-- The hypotheses of `C74_group_accepted` are met in both selection modes, with four closures outside of the group and
pairwise agreement that is not transitive. -/
example : (∃ s, ReachOk Demo.cfg Demo.env muddle s ∧ Spec.LeadingGroup s ⟨97, 98⟩ [1, 3, 5] ∧ ¬ Spec.Transitive s ⟨97, 98⟩ ∧
      (Spec.registered s ⟨97, 98⟩).length = 7) ∧
    ∃ s, ReachOk demoInc Demo.env muddle s ∧ Spec.LeadingGroup s ⟨97, 98⟩ [1, 3, 5] ∧ (Spec.registered s ⟨97, 98⟩).length = 7 := by
  constructor
  · obtain ⟨s, r, h⟩ := Demo.runs_reach (cfg := Demo.cfg) (env := Demo.env) (ops := muddle)
      (P := fun s => leadB s ⟨97, 98⟩ [1, 3, 5] && decide (Spec.Agree s ⟨97, 98⟩ 0 2 ∧ Spec.Agree s ⟨97, 98⟩ 2 4 ∧ ¬ Spec.Agree s ⟨97, 98⟩ 0 4) &&
        decide ((Spec.registered s ⟨97, 98⟩).length = 7)) (by decide +kernel)
    simp only [Bool.and_eq_true, decide_eq_true_eq] at h
    exact ⟨s, r, leadB_ok h.1.1, fun t => h.1.2.2.2 (t 0 2 4 h.1.2.1 h.1.2.2.1 (by decide)), h.2⟩
  · obtain ⟨s, r, h⟩ := Demo.runs_reach (cfg := demoInc) (env := Demo.env) (ops := muddle)
      (P := fun s => leadB s ⟨97, 98⟩ [1, 3, 5] && decide ((Spec.registered s ⟨97, 98⟩).length = 7)) (by decide +kernel)
    simp only [Bool.and_eq_true, decide_eq_true_eq] at h
    exact ⟨s, r, leadB_ok h.1, h.2⟩

/-- A decidable form of `Spec.Fits`. -/
def fitsB [Group G] [DecidableEq G] (start : Chr → Key) (a b : Chr) (L M : List (Btw G N)) (X : G) (x : Btw G N) : Bool :=
  (List.range (L.length + 1)).any fun i => (List.range (M.length + 1)).any fun j =>
    decide (chr x.k1 = a ∧ x.k1 = Spec.after (start a) i ∧ chr x.k2 = b ∧ x.k2 = Spec.after (start b) j ∧
      x.m = (Spec.measProd (L.take i))⁻¹ * X * Spec.measProd (M.take j))

theorem fitsB_iff [Group G] [DecidableEq G] {start : Chr → Key} {a b : Chr} {L M : List (Btw G N)} {X : G} {x : Btw G N} :
    fitsB start a b L M X x = true ↔ Spec.Fits start a b L M X x := by
  unfold fitsB Spec.Fits Spec.At
  simp only [List.any_eq_true, List.mem_range, decide_eq_true_eq]
  constructor
  · rintro ⟨i, hi, j, hj, h1, h2, h3, h4, h5⟩
    exact ⟨i, j, ⟨h1, by omega, h2⟩, ⟨h3, by omega, h4⟩, h5⟩
  · rintro ⟨i, j, ⟨h1, hi, h2⟩, ⟨h3, hj, h4⟩, h5⟩
    exact ⟨i, by omega, j, by omega, h1, h2, h3, h4, h5⟩

/-- The odometry of robots `a` and `b` in `muddle`. -/
def muddleA : List (Btw Demo.Z Demo.Ns) := [Demo.btw (Demo.a 0) (Demo.a 1) 1, Demo.btw (Demo.a 1) (Demo.a 2) 1, Demo.btw (Demo.a 2) (Demo.a 3) 1]
def muddleB : List (Btw Demo.Z Demo.Ns) := [Demo.btw (Demo.b 0) (Demo.b 1) 1, Demo.btw (Demo.b 1) (Demo.b 2) 1, Demo.btw (Demo.b 2) (Demo.b 3) 1]

theorem muddle_odom : Spec.robotOdom Demo.cfg 97 muddle = muddleA ∧ Spec.robotOdom Demo.cfg 98 muddle = muddleB := by
  decide +kernel

set_option maxRecDepth 100000 in
open Classical in
/-- The hypotheses of `C74_true_closures` are met by `muddle` with offset 2. -/
example : Demo.cfg = Demo.params.cfgSimple Unit Demo.len (fun _ => 0) true ∧ Demo.params.method ≠ .none ∧ Demo.len 1 = 0 ∧
    0 < Demo.params.distT ∧ 0 < Demo.params.distR ∧ Demo.cfg.loopCheck = true ∧
    Spec.PairFed Demo.cfg (fun c => symKey c 0) 97 98 muddle ∧
    Spec.robotOdom Demo.cfg 97 muddle = muddleA ∧ Spec.robotOdom Demo.cfg 98 muddle = muddleB ∧
    ∃ s, ReachOk Demo.cfg Demo.env muddle s ∧ (Spec.registered s ⟨97, 98⟩).length = 7 ∧
      ((Spec.registered s ⟨97, 98⟩).filter (Spec.Fits (fun c => symKey c 0) 97 98 muddleA muddleB (Demo.z 2))).length = 3 ∧
      (∀ i j x y, (Spec.registered s ⟨97, 98⟩)[i]? = some x → (Spec.registered s ⟨97, 98⟩)[j]? = some y →
        Spec.Fits (fun c => symKey c 0) 97 98 muddleA muddleB (Demo.z 2) x →
        ¬ Spec.Fits (fun c => symKey c 0) 97 98 muddleA muddleB (Demo.z 2) y → ¬ Spec.Agree s ⟨97, 98⟩ i j) ∧
      ∀ l, Spec.Agreeing s ⟨97, 98⟩ l → (∀ i ∈ l, ∀ x, (Spec.registered s ⟨97, 98⟩)[i]? = some x →
          ¬ Spec.Fits (fun c => symKey c 0) 97 98 muddleA muddleB (Demo.z 2) x) →
        l.length < ((Spec.registered s ⟨97, 98⟩).filter (Spec.Fits (fun c => symKey c 0) 97 98 muddleA muddleB (Demo.z 2))).length := by
  refine ⟨rfl, by decide, by decide +kernel, by decide +kernel, by decide +kernel, rfl, ?_, muddle_odom.1, muddle_odom.2, ?_⟩
  · obtain ⟨h1, h2⟩ := pairFed_of (cfg := Demo.cfg) (start := fun c => symKey c 0) (a := 97) (b := 98) (h := muddle) (by decide +kernel)
    refine ⟨?_, by decide, ?_, ?_, ?_, h1, h2⟩
    · intro op ho
      simp [muddle, wandering, wanderings] at ho
      rcases ho with rfl | rfl | rfl | rfl | rfl | rfl | rfl <;> trivial
    · rintro c (rfl | rfl) <;> decide +kernel
    · rintro c (rfl | rfl)
      · simp only [Spec.Chain, muddle_odom.1, muddleA]; decide +kernel
      · simp only [Spec.Chain, muddle_odom.2, muddleB]; decide +kernel
    · rintro c (rfl | rfl) <;> decide +kernel
  · obtain ⟨s, r, h⟩ := Demo.runs_reach (cfg := Demo.cfg) (env := Demo.env) (ops := muddle)
      (P := fun s => leadB s ⟨97, 98⟩ [1, 3, 5] && (decide ((Spec.registered s ⟨97, 98⟩).length = 7) &&
        (decide (((Spec.registered s ⟨97, 98⟩).filter (fitsB (fun c => symKey c 0) 97 98 muddleA muddleB (Demo.z 2))).length = 3) &&
        (List.range 7).all fun i => ((Spec.registered s ⟨97, 98⟩)[i]?.any (fitsB (fun c => symKey c 0) 97 98 muddleA muddleB (Demo.z 2))) == decide (i ∈ [1, 3, 5]))))
        (by decide +kernel)
    rw [Bool.and_eq_true, Bool.and_eq_true, Bool.and_eq_true] at h
    obtain ⟨h1, h2, h3, h4⟩ := h
    have hg := leadB_ok h1
    have h2 := of_decide_eq_true h2
    have h3 := of_decide_eq_true h3
    have e : (Spec.registered s ⟨97, 98⟩).filter (Spec.Fits (fun c => symKey c 0) 97 98 muddleA muddleB (Demo.z 2)) =
        (Spec.registered s ⟨97, 98⟩).filter (fitsB (fun c => symKey c 0) 97 98 muddleA muddleB (Demo.z 2)) := by
      refine List.filter_congr fun x _ => ?_
      rw [Bool.eq_iff_iff, decide_eq_true_iff, fitsB_iff]
    have key : ∀ i x, (Spec.registered s ⟨97, 98⟩)[i]? = some x →
        (Spec.Fits (fun c => symKey c 0) 97 98 muddleA muddleB (Demo.z 2) x ↔ i ∈ [1, 3, 5]) := by
      intro i x hx
      have hi := (List.getElem?_eq_some_iff.1 hx).1
      rw [h2] at hi
      have := List.all_eq_true.1 h4 i (List.mem_range.2 hi)
      rw [hx, Option.any_some, beq_iff_eq, Bool.eq_iff_iff, decide_eq_true_iff, fitsB_iff] at this
      exact this
    refine ⟨s, r, h2, by rw [e]; exact h3, fun i j x y hx hy fx fy ha => ?_, fun l hl ho => ?_⟩
    · exact fy ((key j y hy).2 (hg.2.1 i ((key i x hx).1 fx) j ha))
    · rw [e, h3]
      refine hg.2.2 l hl fun i hi hm => ?_
      have hi' := hl.2.1 i hi
      exact ho i hi _ (List.getElem?_eq_getElem hi') ((key i _ (List.getElem?_eq_getElem hi')).2 hm)

set_option maxRecDepth 100000 in
/-- The hypotheses of `C74_observations` are met by four observations of a landmark, three of which agree. -/
example : ∃ s, ReachOk demoLandmarks Demo.env (sightings 2 1 30 (-1)) s ∧ Spec.FromPoses s (Demo.l 0) ∧
    Spec.ObsLeadingGroup s (Demo.l 0) [0, 1, 3] ∧ (Spec.observed s (Demo.l 0)).length = 4 := by
  obtain ⟨s, r, h⟩ := Demo.runs_reach (cfg := demoLandmarks) (env := Demo.env) (ops := sightings 2 1 30 (-1))
    (P := fun s => decide ((∀ x ∈ Spec.observed s (Demo.l 0), x.k1 ≠ Demo.l 0) ∧ (Spec.observed s (Demo.l 0)).length = 4) &&
      [0, 1, 3].all fun i => (List.range 4).all fun j => decide (i = j) || (decide (Spec.ObsAgree s (Demo.l 0) i j) == decide (j ∈ [0, 1, 3])))
    (by decide +kernel)
  rw [Bool.and_eq_true] at h
  obtain ⟨h1, h2⟩ := of_decide_eq_true h.1
  have key : ∀ i ∈ [0, 1, 3], ∀ j, j < 4 → i ≠ j → (Spec.ObsAgree s (Demo.l 0) i j ↔ j ∈ [0, 1, 3]) := by
    intro i hi j hj hij
    have := List.all_eq_true.1 (List.all_eq_true.1 h.2 i hi) j (List.mem_range.2 hj)
    rw [decide_eq_false hij, Bool.false_or] at this
    exact decide_eq_decide.1 (beq_iff_eq.1 this)
  refine ⟨s, r, h1, ⟨⟨by decide, fun i hi => ?_, fun i hi j hj hij => (key i hi j ?_ hij).2 hj⟩, fun i hi j hij => ?_, fun l hl hd => ?_⟩, h2⟩
  · rw [h2]; simp at hi; omega
  · simp at hj; omega
  · refine (key i hi j ?_ hij.2.2.1).1 hij
    have := hij.2.1
    rwa [h2] at this
  · have := length_le_of_nodup_subset (l := l) (m := [2]) hl.1 (fun x hx => by
      have h3 := hl.2.1 x hx
      rw [h2] at h3
      have h4 := hd x hx
      simp at h4 ⊢
      omega)
    simp at this ⊢
    omega

set_option maxRecDepth 100000 in
/-- The condition that no closure outside of the group agrees with any inside cannot be dropped. Of five closures the
first, third and fifth agree with each other, no other three do, and the fourth agrees with just one of them; yet the
fourth is accepted, and the fifth is not. -/
theorem C74_false_one_agreement : ∃ s,
    ReachOk Demo.cfg Demo.env (wandering [(0, 1, 9), (1, 3, 3), (3, 3, 3), (3, 0, 9), (1, 1, 7)]) s ∧
    Spec.Agree s ⟨97, 98⟩ 0 2 ∧ Spec.Agree s ⟨97, 98⟩ 0 4 ∧ Spec.Agree s ⟨97, 98⟩ 2 4 ∧
    (∀ i j k, i < j → j < k → Spec.Agree s ⟨97, 98⟩ i j → Spec.Agree s ⟨97, 98⟩ i k → Spec.Agree s ⟨97, 98⟩ j k →
      (i, j, k) = (0, 2, 4)) ∧
    Spec.Agree s ⟨97, 98⟩ 0 3 ∧ ¬ Spec.Agree s ⟨97, 98⟩ 2 3 ∧ ¬ Spec.Agree s ⟨97, 98⟩ 4 3 ∧
    Spec.AcceptedAt s ⟨97, 98⟩ [0, 2, 3] := by
  obtain ⟨s, r, h⟩ := Demo.runs_reach (cfg := Demo.cfg) (env := Demo.env)
    (ops := wandering [(0, 1, 9), (1, 3, 3), (3, 3, 3), (3, 0, 9), (1, 1, 7)])
    (P := fun s => decide (Spec.Agree s ⟨97, 98⟩ 0 2 ∧ Spec.Agree s ⟨97, 98⟩ 0 4 ∧ Spec.Agree s ⟨97, 98⟩ 2 4 ∧
    Spec.Agree s ⟨97, 98⟩ 0 3 ∧ ¬ Spec.Agree s ⟨97, 98⟩ 2 3 ∧ ¬ Spec.Agree s ⟨97, 98⟩ 4 3 ∧
    (Spec.selected s ⟨97, 98⟩).map some = [0, 2, 3].map fun i => (Spec.registered s ⟨97, 98⟩)[i]?) &&
    (decide ((Spec.registered s ⟨97, 98⟩).length = 5) && (List.range 5).all fun i => (List.range 5).all fun j => (List.range 5).all fun k =>
      !(decide (i < j ∧ j < k) && decide (Spec.Agree s ⟨97, 98⟩ i j) && decide (Spec.Agree s ⟨97, 98⟩ i k) && decide (Spec.Agree s ⟨97, 98⟩ j k)) ||
        decide ((i, j, k) = (0, 2, 4)))) (by decide +kernel)
  rw [Bool.and_eq_true, Bool.and_eq_true] at h
  obtain ⟨h1, h2, h3⟩ := h
  obtain ⟨a1, a2, a3, b1, b2, b3, c⟩ := of_decide_eq_true h1
  have h2 := of_decide_eq_true h2
  refine ⟨s, r, a1, a2, a3, fun i j k hij hjk e1 e2 e3 => ?_, b1, b2, b3, c⟩
  have hk := e3.2.1
  rw [h2] at hk
  have := List.all_eq_true.1 (List.all_eq_true.1 (List.all_eq_true.1 h3 i (List.mem_range.2 (by omega))) j
    (List.mem_range.2 (by omega))) k (List.mem_range.2 hk)
  simp only [hij, hjk, e1, e2, e3, and_self, decide_true, Bool.and_self, Bool.not_true, Bool.false_or] at this
  exact of_decide_eq_true this

end RPGO.Props
