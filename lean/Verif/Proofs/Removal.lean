import Verif.Spec.Removal
import Verif.Props.Graph
import Verif.Proofs.OptSafe
/-
Lemmas about removing loop closures in reverse order of registration.
-/

namespace RPGO
variable {G T N : Type}

theorem parseFold_inOrder (cfg : Cfg G T N) (vals : Vals G) (f : Chr → Key → T) (bs : List (Btw G N)) (p : Pcm G T N) :
    (bs.foldl (parseStep cfg vals f) p).inOrder = p.inOrder ++ (bs.filter (acceptLc cfg vals f)).map pairOf := by
  induction bs generalizing p with
  | nil => simp
  | cons b bs ih =>
    rw [List.foldl_cons, ih, List.filter_cons]
    unfold parseStep
    split
    · simp [regLc]
    · split
      · rfl
      · rfl

/-- The outlier-rejection object holds the closures `L`, in this order. -/
structure Live (p : Pcm G T N) (L : List (Btw G N)) : Prop where
  order : p.inOrder = L.map pairOf
  regs : ∀ id, (lcOf p id).factors = L.filter fun b => (pairOf b).eqv id

theorem Live.init : Live (St.init : St G T N).pcm [] := ⟨rfl, fun _ => rfl⟩

theorem Live.congr {p p' : Pcm G T N} {L : List (Btw G N)} (h : Live p L) (h1 : p'.inOrder = p.inOrder)
    (h2 : p'.lcs = p.lcs) : Live p' L :=
  ⟨by rw [h1]; exact h.order, fun id => by rw [show lcOf p' id = lcOf p id by unfold lcOf; rw [h2]]; exact h.regs id⟩

section
variable [Mul G] [Inv G] [One G]

theorem BatchDone.chron {cfg : Cfg G T N} {env : Env G N} {fs : Graph G N} {vs : Vals G} {s s' : St G T N}
    (h : BatchDone cfg env fs vs s s') {L : List (Btw G N)} (hL : Live s.pcm L) :
    Live s'.pcm (L ++ (Spec.cands cfg vs fs).filter fun b => Spec.acceptable cfg s' b && !Spec.isLandmark cfg b) := by
  cases h with
  | empty hn hi hf =>
    subst hn
    rw [hf.pcm]
    simpa [Spec.cands, Spec.btws] using hL
  | full hne hi hS h1 h2 ha hf =>
    rename_i v1 p1 p2 s1
    have hv : ∀ k, s'.values.has k = v1.has k := fun k => by rw [hf.values.has, ha.values.has]
    have hp : s'.pcm = { p2 with robotOrder := s'.pcm.robotOrder } := by
      rw [hf.pcm, ha.eq]
    have hq : ∃ q, TrajOnly cfg ((Spec.cands cfg vs fs).foldl (parseStep cfg v1 (lk cfg p1)) p1) q ∧ SelPcm q p2 := by
      by_cases hc : Spec.cands cfg vs fs = []
      · rw [h1 hc, hc]; exact ⟨p1, TrajOnly.refl _, SelPcm.refl _⟩
      · have he := processCands_ends cfg v1 (Spec.cands cfg vs fs) p1
        rw [h2 hc] at he
        obtain ⟨q, hq, hs, _⟩ := he
        exact ⟨q, hq, hs⟩
    obtain ⟨q, ht, hs⟩ := hq
    have hl : lk cfg s'.pcm = lk cfg p1 := by
      have : lk cfg s'.pcm = lk cfg p2 := by rw [hp]; rfl
      rw [this]
      exact processed_lk ht hs
    have hacc : (fun b => Spec.acceptable cfg s' b && !Spec.isLandmark cfg b) = acceptLc cfg v1 (lk cfg p1) :=
      funext fun b => ((Props.acceptable_eq hv hl b).1).symm
    rw [hacc]
    have hL1 : Live p1 L := hL.congr hS.inOrder hS.lcs
    rw [hp]
    refine Live.congr (p := p2) ⟨?_, fun id => ?_⟩ rfl rfl
    · have : p2.inOrder = ((Spec.cands cfg vs fs).foldl (parseStep cfg v1 (lk cfg p1)) p1).inOrder := by rw [hs.eq, ht.eq]
      rw [this, parseFold_inOrder, hL1.order, List.map_append]
    · have h3 : (lcOf p2 id).factors = (lcOf q id).factors :=
        Table.lcOf_rel (R := fun m m' : Meas G N => m'.factors = m.factors) rfl (hs.lcs.mono fun m m' h => h.factors) id
      have h4 : lcOf q id = lcOf ((Spec.cands cfg vs fs).foldl (parseStep cfg v1 (lk cfg p1)) p1) id := by
        apply lcOf_lcs; rw [ht.eq]
      rw [h3, h4, parseFold_lcOf, growLc_fold_factors, hL1.regs, List.filter_append]
      congr 1
      rw [List.filter_filter]
      congr 1
      funext b
      rw [Bool.and_comm]

/-- The matrix of every pair has at least one row. -/
theorem Reach.rows {cfg : Cfg G T N} {env : Env G N} (hr : cfg.rejection = true) {h : List (Op G N)} {s : St G T N}
    (r : Reach cfg env h s) (id : ObsId) : 1 ≤ (lcOf s.pcm id).adj.n := by
  refine r.meas hr (Q := fun m => 1 ≤ m.adj.n) (Nat.le_refl _) ?_ ?_ ?_ id
  · intro f b m h _
    unfold growLc
    simp only
    split
    · split
      · exact Nat.le_refl _
      · exact Nat.le_add_left _ _
    · exact h
  · intro m m' h hm
    rw [h.adj]; exact hm
  · intro _ m m' h hm
    cases h with
    | same => exact hm
    | few _ _ => exact hm
    | many _ _ _ _ hn => simp only; omega

/-- Removing the last closure of a nonempty list. -/
theorem removeLastMeas_ok {m m' : Meas G N} {e : EdgePtr} (hn : 1 ≤ m.adj.n) (h : removeLastMeas m = .ok m' e) :
    ∃ last, m.factors.getLast? = some last ∧ e = some (last.k1, last.k2) ∧ m'.factors = m.factors.dropLast := by
  unfold removeLastMeas at h
  rw [if_neg (by omega)] at h
  cases hl : m.factors.getLast? with
  | none => rw [hl] at h; cases h
  | some last =>
    rw [hl] at h
    simp only at h
    refine ⟨last, rfl, ?_⟩
    split at h
    · cases h; exact ⟨rfl, rfl⟩
    · have hm := measInliers_spec { m with factors := m.factors.dropLast, adj := ⟨m.adj.n - 1, m.adj.e⟩ }
      generalize measInliers { m with factors := m.factors.dropLast, adj := ⟨m.adj.n - 1, m.adj.e⟩ } = o at h hm
      cases o with
      | ok m1 a =>
        cases h
        rcases hm with ⟨_, hm⟩ | ⟨_, _, _, _, _, ⟨_, hm, hm', _⟩ | ⟨_, hm, _⟩⟩
        · cases hm
        · cases hm
          exact ⟨rfl, by rw [hm']⟩
        · cases hm
      | throw _ _ => cases h
      | ub _ => cases h

theorem filter_dropLast {α : Type} (p : α → Bool) {l : List α} {a : α} (hl : l.getLast? = some a) (hp : p a = true) :
    (l.filter p).getLast? = some a ∧ (l.filter p).dropLast = l.dropLast.filter p := by
  rw [getLast?_split hl]
  simp [List.filter_append, hp]

theorem filter_dropLast_neg {α : Type} (p : α → Bool) {l : List α} {a : α} (hl : l.getLast? = some a) (hp : p a = false) :
    l.filter p = l.dropLast.filter p := by
  conv => lhs; rw [getLast?_split hl]
  simp [List.filter_append, hp]

/-- Removal in reverse order, on the outlier-rejection object. -/
theorem removeLastPcm_live {env : Env G N} {s s' : St G T N} {e : EdgePtr} {L : List (Btw G N)} (hL : Live s.pcm L)
    (hn : ∀ id, 1 ≤ (lcOf s.pcm id).adj.n) (h : removeLastPcm env s = .ok s' e) :
    e = L.getLast?.map Spec.edgeOf ∧ Live s'.pcm L.dropLast := by
  rw [removeLastPcm_eq, hL.order, List.getLast?_map] at h
  cases hl : L.getLast? with
  | none =>
    rw [hl] at h
    have : L = [] := by simpa using hl
    subst this
    cases h
    exact ⟨rfl, hL⟩
  | some b =>
    rw [hl] at h
    simp only [Option.map_some] at h
    rw [removeLastOfPair_eq] at h
    have hf : (L.filter fun x => (pairOf x).eqv (pairOf b)).getLast? = some b ∧
        (L.filter fun x => (pairOf x).eqv (pairOf b)).dropLast = L.dropLast.filter fun x => (pairOf x).eqv (pairOf b) :=
      filter_dropLast _ hl (ObsId.isEqv.refl _)
    simp only at h
    cases hg : AList.get? ObsId.eqv s.pcm.lcs (pairOf b) with
    | none =>
      have h1 := hL.regs (pairOf b)
      have : lcOf s.pcm (pairOf b) = Meas.empty := by unfold lcOf; rw [hg]; rfl
      rw [this] at h1
      rw [← h1] at hf
      cases hf.1
    | some m =>
      rw [hg] at h
      have hm : lcOf s.pcm (pairOf b) = m := lcOf_of_get? hg
      have hreg := hL.regs (pairOf b)
      rw [hm] at hreg
      have hn1 := hn (pairOf b)
      rw [hm] at hn1
      simp only at h
      cases hx : removeLastMeas m with
      | ok m' e' =>
        obtain ⟨last, k1, k2, k3⟩ := removeLastMeas_ok hn1 hx
        rw [hreg, hf.1] at k1
        cases k1
        subst k2
        rw [hx] at h
        cases h
        refine ⟨rfl, ?_, fun id => ?_⟩
        · show (L.map pairOf).dropLast = _
          rw [List.map_dropLast]
        · show (lcOf (updLc { s.pcm with inOrder := _ } (pairOf b) fun _ => m') id).factors = _
          rw [lcOf_updLc]
          split
          · rename_i hid
            rw [k3, hreg, hf.2]
            congr 1
            funext x
            rw [Bool.eq_iff_iff]
            exact ⟨fun h => ObsId.isEqv.trans _ _ _ h hid, fun h => ObsId.isEqv.trans _ _ _ h (by rw [ObsId.isEqv.symm]; exact hid)⟩
          · rename_i hid
            have := hL.regs id
            rw [filter_dropLast_neg _ hl (by simpa using hid)] at this
            exact this
      | throw _ _ => rw [hx] at h; cases h
      | ub _ => rw [hx] at h; cases h

theorem Live.eff {cfg : Cfg G T N} {op : Op G N} {p p' : Pcm G T N} (h : PcmEff cfg op p p') (hr : ¬ Spec.Removes op)
    {L : List (Btw G N)} (hL : Live p L) : Live p' L := by
  cases h with
  | same => exact hL
  | priors => exact hL.congr rfl rfl
  | ignore => split <;> [exact hL; exact hL.congr rfl rfl]
  | revive => exact hL.congr rfl rfl
  | pair _ _ => exact absurd trivial hr
  | pop _ => exact absurd trivial hr
  | last _ _ _ => exact absurd trivial hr

theorem Spec.Chron.reachOk {cfg : Cfg G T N} {env : Env G N} {h : List (Op G N)} {s : St G T N} {L : List (Btw G N)}
    (c : Spec.Chron cfg env h s L) : ReachOk cfg env h s := by
  induction c with
  | init => exact .init
  | step _ _ e ih => exact .step ih e

theorem exec_removeLast {cfg : Cfg G T N} {env : Env G N} (hr : cfg.rejection = true) {s s' : St G T N} {x : Ret}
    (e : exec cfg env .removeLast s = .ok s' x) :
    ∃ s1 q, removeLastPcm env s = .ok s1 q ∧ optimize cfg env s1 = .ok s' () ∧ x = .edge q := by
  have e : (removeLastLC cfg env).ret .edge s = .ok s' x := e
  obtain ⟨s2, q, h2, h3⟩ := M.bind_eq_ok.1 e
  cases h3
  unfold removeLastLC at h2
  simp only [M.bind_eq] at h2
  rw [RPGO.cond_true hr] at h2
  obtain ⟨s3, q', h4, h5⟩ := M.bind_eq_ok.1 h2
  obtain ⟨s4, _, h6, h7⟩ := M.bind_eq_ok.1 h5
  cases h7
  exact ⟨s3, q, h4, h6, rfl⟩

theorem Spec.Chron.live {cfg : Cfg G T N} {env : Env G N} (hr : cfg.rejection = true) {h : List (Op G N)} {s : St G T N}
    {L : List (Btw G N)} (c : Spec.Chron cfg env h s L) : Live s.pcm L := by
  induction c with
  | init => exact Live.init
  | @step h s L op s' x c hp e ih =>
    cases hb : Spec.batch op with
    | some y =>
      obtain ⟨fs, vs⟩ := y
      have := BatchDone.chron ((exec_batch env hr hb s).1 s' x e) ih
      have ha : Spec.afterCall cfg op s' L = L ++ (Spec.cands cfg vs fs).filter fun b => Spec.acceptable cfg s' b && !Spec.isLandmark cfg b := by
        unfold Spec.afterCall Spec.newClosures Spec.opCands
        rw [hb]
        cases op <;> first | rfl | cases hb
      rw [ha]
      exact this
    | none =>
      by_cases hl : op = .removeLast
      · subst hl
        obtain ⟨s1, q, h1, h2, _⟩ := exec_removeLast hr e
        have hf := (optimize_frame cfg env).of_ok h2
        have := (removeLastPcm_live ih (fun id => c.reachOk.reach.rows hr id) h1).2
        show Live s'.pcm L.dropLast
        rw [hf.pcm]
        exact this
      · have hn : ¬ Spec.Removes op := by
          cases op <;> simp_all [Spec.Removes]
        have ha : Spec.afterCall cfg op s' L = L := by
          unfold Spec.afterCall Spec.newClosures Spec.opCands
          rw [hb]
          cases op <;> simp_all
        rw [ha]
        exact Live.eff ((exec_other cfg env hr op hb s).of_ok e).pcm hn ih

theorem exec_removePair {cfg : Cfg G T N} {env : Env G N} (hr : cfg.rejection = true) {p q : Chr} {s s' : St G T N} {x : Ret}
    (e : exec cfg env (.removeLastPair p q) s = .ok s' x) :
    ∃ s1 y, removeLastOfPair env ⟨p, q⟩ s = .ok s1 y ∧ x = .edge y := by
  have e : (removeLastLC2 cfg env p q).ret .edge s = .ok s' x := e
  obtain ⟨s2, y, h2, h3⟩ := M.bind_eq_ok.1 e
  cases h3
  unfold removeLastLC2 at h2
  simp only [M.bind_eq] at h2
  rw [RPGO.cond_true hr] at h2
  obtain ⟨s3, y', h4, h5⟩ := M.bind_eq_ok.1 h2
  obtain ⟨s4, _, h6, h7⟩ := M.bind_eq_ok.1 h5
  cases h7
  exact ⟨s3, y, h4, rfl⟩

theorem removeLastMeas_clean' {m : Meas G N} (h : Shape m) (h0 : m.factors ≠ []) : Clean (removeLastMeas m) := by
  cases hx : removeLastMeas m with
  | ok _ _ => trivial
  | ub u => exact absurd hx (removeLastMeas_noUB h u)
  | throw m' x =>
    by_cases h2 : 2 ≤ m.factors.length
    · have := removeLastMeas_clean h0 (h.size h2)
      rw [hx] at this
      exact this
    · unfold removeLastMeas at hx
      split at hx
      · cases hx
      · split at hx
        · rename_i hl; exact absurd (List.getLast?_eq_none_iff.1 hl) h0
        · simp only at hx
          rw [if_pos (by rw [List.length_dropLast]; omega)] at hx
          cases hx

/-- The optimization that ends a call, when there are enough weights. -/
theorem optimize_after {cfg : Cfg G T N} {env : Env G N} (he : env.Ok) (hz : env.Sized) (hr : cfg.rejection = true)
    {h : List (Op G N)} {s : St G T N} (r : ReachOk cfg env h s) (hm : ∀ o ∈ h, Spec.Managed o) {op : Op G N}
    (hmod : Spec.Covered cfg (h ++ [op])) (hn : Spec.Removes op) {b : Bool} (hb : b = true → cfg.fixPrev = false) (s1 : St G T N) (x : Ret)
    (e1 : phase1 cfg env op s = .ok s1 (x, true)) : Mild b (optimize cfg env s1) := by
  have hop : Spec.Managed op := by cases op <;> first | trivial | cases hn
  have hm' : ∀ o ∈ h ++ [op], Spec.Managed o := by
    intro o ho
    rcases List.mem_append.1 ho with h1 | h1
    · exact hm o h1
    · rw [List.mem_singleton.1 h1]; exact hop
  obtain ⟨g1, -, -⟩ := phase1_size he hr r hm' e1
  refine optimize_mild hr hz (fun hu => (r.enough he hr hm' hmod e1 hu).1) (fun hu => (r.enough he hr hm' hmod e1 hu).2)
    (by rw [g1]; exact (buildGraph_known env s1.pcm).1) ?_
  · intro _ hfp hb'
    rw [hb hb'] at hfp; cases hfp

/-- Does the pair have an entry? -/
def entry (p : Pcm G T N) (id : ObsId) : Bool := (AList.get? ObsId.eqv p.lcs id).isSome

theorem entry_updLc (p : Pcm G T N) (k id : ObsId) (f : Meas G N → Meas G N) :
    entry (updLc p k f) id = (entry p id || k.eqv id) := by
  unfold entry updLc
  simp only
  by_cases h : k.eqv id = true
  · rw [← AList.get?_congr ObsId.isEqv _ h, AList.get?_upd_self ObsId.isEqv, h]
    simp
  · have h' : k.eqv id = false := by simpa using h
    rw [AList.get?_upd_other ObsId.isEqv _ _ _ _ _ h', h']
    simp

theorem entry_fold (cfg : Cfg G T N) (vals : Vals G) (f : Chr → Key → T) (bs : List (Btw G N)) (p : Pcm G T N) (id : ObsId) :
    entry (bs.foldl (parseStep cfg vals f) p) id = (entry p id || bs.any fun b => acceptLc cfg vals f b && (pairOf b).eqv id) := by
  induction bs generalizing p with
  | nil => simp
  | cons b bs ih =>
    rw [List.foldl_cons, ih, List.any_cons]
    unfold parseStep
    by_cases h : acceptLc cfg vals f b = true
    · rw [if_pos h, show entry (regLc cfg f p b) id = entry (updLc p (pairOf b) (growLc cfg f b)) id from rfl, entry_updLc, h]
      simp [Bool.or_assoc]
    · have h' : acceptLc cfg vals f b = false := by simpa using h
      rw [if_neg h, h']
      split
      · rw [show entry (regLm cfg f p b) id = entry p id from rfl]; simp
      · simp

theorem PcmStep.entry {cfg : Cfg G T N} {op : Op G N} {s : St G T N} {p' : Pcm G T N} (st : PcmStep cfg op s p') (id : ObsId) :
    (entry s.pcm id = true → RPGO.entry p' id = true) ∧
    (RPGO.entry p' id = true → RPGO.entry s.pcm id = true ∨ ∃ b ∈ Spec.opCands cfg op, (pairOf b).eqv id = true) := by
  have same : ∀ {p p' : Pcm G T N}, p'.lcs = p.lcs → RPGO.entry p' id = RPGO.entry p id := fun h => by
    unfold RPGO.entry; rw [h]
  cases st with
  | other _ he =>
    have : RPGO.entry p' id = RPGO.entry s.pcm id := by
      generalize s.pcm = p at he
      cases he with
      | same => rfl
      | priors => rfl
      | ignore => split <;> rfl
      | revive => rfl
      | @pair a b p m m' hm _ =>
        rw [entry_updLc]
        by_cases h : (ObsId.mk a b).eqv id = true
        · rw [h]; unfold RPGO.entry; rw [← AList.get?_congr ObsId.isEqv _ h, hm]; rfl
        · simp [h]
      | pop _ => rfl
      | @last p k m m' _ hm _ =>
        rw [entry_updLc]
        by_cases h : k.eqv id = true
        · rw [h]; unfold RPGO.entry; simp only; rw [← AList.get?_congr ObsId.isEqv _ h, hm]; rfl
        · simp [h]; rfl
    rw [this]
    exact ⟨fun h => h, Or.inl⟩
  | none _ => exact ⟨fun h => h, Or.inl⟩
  | sort hb hi hfs ho hS hx1 hx2 =>
    rename_i fs vs v1 fs1 b fs2 p1
    rw [same (p := s.pcm) (show ({ p1 with odom := p1.odom ++ [b] } : Pcm G T N).lcs = s.pcm.lcs from hS.lcs)]
    exact ⟨fun h => h, Or.inl⟩
  | cands hb hne hi hS ht hsel hg hro =>
    rename_i fs vs v1 p1 q p2 ro
    have h1 : RPGO.entry ({ p2 with robotOrder := ro } : Pcm G T N) id =
        RPGO.entry ((Spec.cands cfg vs fs).foldl (parseStep cfg v1 (lk cfg p1)) p1) id := by
      have h2 : RPGO.entry p2 id = RPGO.entry q id := Table.isSome (eq := ObsId.eqv) hsel.lcs id
      have h3 : RPGO.entry q id = RPGO.entry ((Spec.cands cfg vs fs).foldl (parseStep cfg v1 (lk cfg p1)) p1) id :=
        same (by rw [ht.eq])
      exact h2.trans h3
    rw [h1, entry_fold, same hS.lcs]
    constructor
    · intro h; rw [h]; rfl
    · intro h
      rw [Bool.or_eq_true, List.any_eq_true] at h
      rcases h with h | ⟨b, hb1, hb2⟩
      · exact Or.inl h
      · right
        rw [Bool.and_eq_true] at hb2
        exact ⟨b, by unfold Spec.opCands; rw [hb]; exact hb1, hb2.2⟩

theorem eqv_iff (b : Btw G N) (p q : Chr) :
    (pairOf b).eqv ⟨p, q⟩ = true ↔ (chr b.k1 = p ∧ chr b.k2 = q) ∨ (chr b.k2 = p ∧ chr b.k1 = q) := by
  unfold ObsId.eqv pairOf
  by_cases h1 : chr b.k1 = p ∧ chr b.k2 = q
  · simp [h1]
  · by_cases h2 : chr b.k2 = p ∧ chr b.k1 = q
    · simp [h1, h2]
    · simp [h1, h2]

/-- A pair for which no candidate was ever supplied has no entry. -/
theorem Reach.untouched {cfg : Cfg G T N} {env : Env G N} (hr : cfg.rejection = true) {h : List (Op G N)} {s : St G T N}
    (r : Reach cfg env h s) {p q : Chr} (hn : ∀ op ∈ h, ∀ b ∈ Spec.opCands cfg op,
      ¬ ((chr b.k1 = p ∧ chr b.k2 = q) ∨ (chr b.k2 = p ∧ chr b.k1 = q))) :
    AList.get? ObsId.eqv s.pcm.lcs ⟨p, q⟩ = none := by
  have := Reach.induct (Inv := fun h pc => (∀ op ∈ h, ∀ b ∈ Spec.opCands cfg op, ¬ (pairOf b).eqv ⟨p, q⟩ = true) →
      RPGO.entry pc ⟨p, q⟩ = false) hr (fun _ => rfl)
    (fun h s op s' _ _ ih st hn => by
      have ih := ih fun o ho => hn o (by simp [ho])
      have h2 := (st.entry ⟨p, q⟩).2
      cases he : RPGO.entry s'.pcm ⟨p, q⟩ with
      | false => rfl
      | true =>
        rcases h2 he with h3 | ⟨b, hb, h3⟩
        · rw [ih] at h3; cases h3
        · exact absurd h3 (hn op (by simp) b hb)) r
    (fun o ho b hb => by rw [eqv_iff]; exact hn o ho b hb)
  unfold RPGO.entry at this
  cases hg : AList.get? ObsId.eqv s.pcm.lcs ⟨p, q⟩ with
  | none => rfl
  | some m => rw [hg] at this; cases this

/-- An entry stays. -/
theorem Spec.Steps.touched {cfg : Cfg G T N} {env : Env G N} (hr : cfg.rejection = true) {h : List (Op G N)} {s s' : St G T N}
    (st : Spec.Steps cfg env s h s') {id : ObsId} (hs : ∃ m, AList.get? ObsId.eqv s.pcm.lcs id = some m) :
    ∃ m, AList.get? ObsId.eqv s'.pcm.lcs id = some m := by
  have : RPGO.entry s'.pcm id = true := by
    induction st with
    | nil =>
      obtain ⟨m, hm⟩ := hs
      unfold RPGO.entry; rw [hm]; rfl
    | @snoc h s1 op s2 _ c ih =>
      have hst : PcmStep cfg op s1 s2.pcm := by
        rcases c with ⟨_, e⟩ | ⟨_, e⟩
        · exact (exec_step (env := env) hr op s1).of_ok e
        · exact (exec_step (env := env) hr op s1).of_throw e
      exact (hst.entry id).1 ih
  unfold RPGO.entry at this
  exact Option.isSome_iff_exists.1 this

end

end RPGO
