import Verif.Proofs.Step
import Verif.Spec.Demo
/-
Contents of the factor graph over call histories.
-/

namespace RPGO
variable {G T N : Type} [Mul G] [Inv G] [One G]

/-! ### Exact contents after calls that returned normally -/

theorem SelPcm.odom {p q : Pcm G T N} (h : SelPcm p q) : q.odom = p.odom := by rw [h.eq]
theorem SelPcm.special {p q : Pcm G T N} (h : SelPcm p q) : q.special = p.special := by rw [h.eq]
theorem SelPcm.ignored {p q : Pcm G T N} (h : SelPcm p q) : q.ignored = p.ignored := by rw [h.eq]
theorem SelPcm.inOrder {p q : Pcm G T N} (h : SelPcm p q) : q.inOrder = p.inOrder := by rw [h.eq]
theorem SelPcm.totalLc {p q : Pcm G T N} (h : SelPcm p q) : q.totalLc = p.totalLc := by rw [h.eq]
theorem SelPcm.trajs {p q : Pcm G T N} (h : SelPcm p q) : q.trajs = p.trajs := by rw [h.eq]
theorem SelPcm.robotOrder {p q : Pcm G T N} (h : SelPcm p q) : q.robotOrder = p.robotOrder := by rw [h.eq]

theorem parseStep_frame (cfg : Cfg G T N) (vals : Vals G) (f : Chr → Key → T) (p : Pcm G T N) (b : Btw G N) :
    (parseStep cfg vals f p b).odom = p.odom ∧ (parseStep cfg vals f p b).special = p.special ∧
      (parseStep cfg vals f p b).ignored = p.ignored ∧ (parseStep cfg vals f p b).trajs = p.trajs ∧
      (parseStep cfg vals f p b).robotOrder = p.robotOrder ∧ (parseStep cfg vals f p b).totalGood = p.totalGood := by
  unfold parseStep
  split
  · exact ⟨rfl, rfl, rfl, rfl, rfl, rfl⟩
  · split
    · exact ⟨rfl, rfl, rfl, rfl, rfl, rfl⟩
    · exact ⟨rfl, rfl, rfl, rfl, rfl, rfl⟩

theorem parseFold_frame (cfg : Cfg G T N) (vals : Vals G) (f : Chr → Key → T) (bs : List (Btw G N)) (p : Pcm G T N) :
    (bs.foldl (parseStep cfg vals f) p).odom = p.odom ∧ (bs.foldl (parseStep cfg vals f) p).special = p.special ∧
      (bs.foldl (parseStep cfg vals f) p).ignored = p.ignored ∧ (bs.foldl (parseStep cfg vals f) p).trajs = p.trajs ∧
      (bs.foldl (parseStep cfg vals f) p).robotOrder = p.robotOrder ∧
      (bs.foldl (parseStep cfg vals f) p).totalGood = p.totalGood := by
  induction bs generalizing p with
  | nil => exact ⟨rfl, rfl, rfl, rfl, rfl, rfl⟩
  | cons b bs ih =>
    have h := parseStep_frame cfg vals f p b
    have h' := ih (parseStep cfg vals f p b)
    rw [List.foldl_cons]
    exact ⟨h'.1.trans h.1, h'.2.1.trans h.2.1, h'.2.2.1.trans h.2.2.1, h'.2.2.2.1.trans h.2.2.2.1,
      h'.2.2.2.2.1.trans h.2.2.2.2.1, h'.2.2.2.2.2.trans h.2.2.2.2.2⟩

/-- Registration and selection leave odometry, special factors and ignored prefixes alone. -/
theorem processed_frame {cfg : Cfg G T N} {vals : Vals G} {f : Chr → Key → T} {bs : List (Btw G N)} {p q p2 : Pcm G T N}
    (ht : TrajOnly cfg (bs.foldl (parseStep cfg vals f) p) q) (hs : SelPcm q p2) :
    p2.odom = p.odom ∧ p2.special = p.special ∧ p2.ignored = p.ignored := by
  have h := parseFold_frame cfg vals f bs p
  refine ⟨?_, ?_, ?_⟩
  · rw [hs.odom, ht.eq]; exact h.1
  · rw [hs.special, ht.eq]; exact h.2.1
  · rw [hs.ignored, ht.eq]; exact h.2.2.1

theorem processCands_frame {cfg : Cfg G T N} {vals : Vals G} {bs : List (Btw G N)} {p p2 : Pcm G T N}
    (h : processCands cfg vals bs p = .ok p2 ()) :
    p2.odom = p.odom ∧ p2.special = p.special ∧ p2.ignored = p.ignored := by
  have he := processCands_ends cfg vals bs p
  rw [h] at he
  obtain ⟨q, hq, hs, _⟩ := he
  exact processed_frame hq hs

theorem buildGraph_order (env : Env G N) (p : Pcm G T N) (ro : List Chr) (io : List ObsId) :
    buildGraph env { p with robotOrder := ro, inOrder := io } = buildGraph env p := rfl

/-- What a completed batch did to the odometry and special factors. -/
theorem BatchDone.lists {cfg : Cfg G T N} {env : Env G N} {fs : Graph G N} {vs : Vals G} {s s' : St G T N}
    (h : BatchDone cfg env fs vs s s') :
    s'.pcm.odom = s.pcm.odom ++ Spec.odoms cfg vs fs ∧ s'.pcm.special = s.pcm.special ++ Spec.specials fs ∧
      s'.pcm.ignored = s.pcm.ignored := by
  cases h with
  | empty hn _ hf =>
    subst hn
    rw [hf.pcm]
    exact ⟨by simp [Spec.odoms, Spec.btws], by simp [Spec.specials], rfl⟩
  | full hne hi hS h1 h2 ha hf =>
    rename_i v1 p1 p2 s1
    rw [hf.pcm, ha.eq]
    have : p2.odom = p1.odom ∧ p2.special = p1.special ∧ p2.ignored = p1.ignored := by
      by_cases hc : Spec.cands cfg vs fs = []
      · rw [h1 hc]; exact ⟨rfl, rfl, rfl⟩
      · exact processCands_frame (h2 hc)
    refine ⟨?_, ?_, ?_⟩
    · show p2.odom = _
      rw [this.1, hS.odom]
    · show p2.special = _
      rw [this.2.1, hS.special]
    · show p2.ignored = _
      rw [this.2.2, hS.ignored]

theorem BatchDone.graph {cfg : Cfg G T N} {env : Env G N} {fs : Graph G N} {vs : Vals G} {s s' : St G T N}
    (h : BatchDone cfg env fs vs s s') (hb : s.nfg = buildGraph env s.pcm) : s'.nfg = buildGraph env s'.pcm := by
  cases h with
  | empty hn _ hf => rw [hf.nfg, hf.pcm]; exact hb
  | full hne hi hS h1 h2 ha hf =>
    rw [hf.nfg, hf.pcm, ha.eq]
    rfl

theorem updLc_same {p : Pcm G T N} {id : ObsId} {m : Meas G N} (h : AList.get? ObsId.eqv p.lcs id = some m) :
    updLc p id (fun _ => m) = p := by
  have : ∀ l : List (ObsId × Meas G N), AList.get? ObsId.eqv l id = some m →
      AList.upd ObsId.eqv Meas.empty l id (fun _ => m) = l := by
    intro l
    induction l with
    | nil => intro h; simp [AList.get?] at h
    | cons e t ih =>
      obtain ⟨k, v⟩ := e
      intro h
      unfold AList.get? at h
      unfold AList.upd
      by_cases hk : k.eqv id = true
      · rw [if_pos hk] at h ⊢; cases h; rfl
      · rw [if_neg hk] at h ⊢; rw [ih h]
  unfold updLc
  rw [this _ h]

theorem removeLastOfPair_graph {env : Env G N} {id : ObsId} {s s' : St G T N} {e : EdgePtr}
    (h : removeLastOfPair env id s = .ok s' e) (hb : s.nfg = buildGraph env s.pcm) :
    s'.nfg = buildGraph env s'.pcm ∧ s'.pcm.odom = s.pcm.odom ∧ s'.pcm.special = s.pcm.special := by
  rw [removeLastOfPair_eq] at h
  cases hg : AList.get? ObsId.eqv s.pcm.lcs id with
  | none => rw [hg] at h; cases h; exact ⟨hb, rfl, rfl⟩
  | some m =>
    rw [hg] at h
    simp only at h
    cases hr : removeLastMeas m with
    | ub u => rw [hr] at h; cases h
    | throw m' x => rw [hr] at h; cases h
    | ok m' x =>
      rw [hr] at h
      cases x with
      | none =>
        cases h
        have := removeLastMeas_none hr
        subst this
        refine ⟨?_, rfl, rfl⟩
        rw [updLc_same hg]
        exact hb
      | some x => cases h; exact ⟨rfl, rfl, rfl⟩

theorem isPriorOf_hit (sg : Bool) (c : Chr) (k : Key) : isPriorOf sg c k = Spec.prefixHit sg c (chr k) := by
  unfold isPriorOf Spec.prefixHit ucharVal charVal
  rw [Bool.eq_iff_iff]
  simp only [decide_eq_true_eq, Bool.and_eq_true, Bool.or_eq_true, Bool.not_eq_true']
  have h1 := c.isLt
  have h2 := (chr k).isLt
  cases sg with
  | false =>
    simp only [Bool.false_eq_true, if_false, true_or, and_true]
    constructor
    · intro h; exact BitVec.eq_of_toNat_eq (by exact_mod_cast h)
    · intro h; rw [h]
  | true =>
    simp only [if_true, Bool.true_eq_false, false_or]
    rw [BitVec.toInt_eq_toNat_cond]
    constructor
    · intro h
      split at h
      · exact ⟨BitVec.eq_of_toNat_eq (by exact_mod_cast h), by omega⟩
      · omega
    · rintro ⟨h, h'⟩
      rw [h, if_pos (by omega)]

/-- A managed call that returns normally keeps the graph in step with the outlier-rejection object, and changes
odometry and special factors as specified. -/
theorem exec_ok_lists {cfg : Cfg G T N} {env : Env G N} (hr : cfg.rejection = true) {op : Op G N} (hm : Spec.Managed op)
    {s s' : St G T N} {r : Ret} (h : exec cfg env op s = .ok s' r) (hb : s.nfg = buildGraph env s.pcm) :
    s'.nfg = buildGraph env s'.pcm ∧ s'.pcm.odom = s.pcm.odom ++ Spec.opOdom cfg op ∧
      s'.pcm.special = Spec.specialStep cfg s.pcm.special op := by
  have fr : ∀ {m : M (St G T N) Unit} {s1 s2 : St G T N}, M.Pres OptFrame m → m s1 = .ok s2 () →
      s1.nfg = buildGraph env s1.pcm → s2.nfg = buildGraph env s2.pcm ∧ s2.pcm = s1.pcm := by
    intro m s1 s2 hp he h1
    have hf := hp.of_ok he
    exact ⟨by rw [hf.nfg, hf.pcm]; exact h1, hf.pcm⟩
  cases op with
  | update fs vs o =>
    have hd := (exec_batch env hr (op := .update fs vs o) rfl s).1 s' r h
    exact ⟨hd.graph hb, hd.lists.1, hd.lists.2.1⟩
  | forceUpdate fs vs =>
    have hd := (exec_batch env hr (op := .forceUpdate fs vs) rfl s).1 s' r h
    exact ⟨hd.graph hb, hd.lists.1, hd.lists.2.1⟩
  | removePriors c o =>
    obtain ⟨s2, _, h2, h3⟩ := M.bind_eq_ok.1 h
    cases h3
    unfold removePriors at h2
    simp only [M.bind_eq] at h2
    obtain ⟨s1, _, h1, h2⟩ := M.bind_eq_ok.1 h2
    unfold M.cond at h1
    rw [if_pos hr] at h1
    have e : s1 = { s with
        pcm := { s.pcm with special := s.pcm.special.filter fun f =>
          match f with
          | .prior k _ => !isPriorOf cfg.charSigned c k
          | _ => true }
        nfg := buildGraph env { s.pcm with special := s.pcm.special.filter fun f =>
          match f with
          | .prior k _ => !isPriorOf cfg.charSigned c k
          | _ => true } } := by
      cases h1; rfl
    have hp := fr (M.Pres.when OptFrame.refl (optimize_frame cfg env)) h2 (by rw [e])
    refine ⟨hp.1, ?_, ?_⟩
    · rw [hp.2, e]; simp [Spec.opOdom, Spec.batch]
    · rw [hp.2, e]
      show List.filter _ s.pcm.special = List.filter _ s.pcm.special
      congr 1
      funext f
      cases f <;> simp only [isPriorOf_hit]
  | removeLastPair a b =>
    obtain ⟨s2, _, h2, h3⟩ := M.bind_eq_ok.1 h
    cases h3
    unfold removeLastLC2 at h2
    simp only [M.bind_eq] at h2
    obtain ⟨s1, e1, h1, h2⟩ := M.bind_eq_ok.1 h2
    obtain ⟨s3, _, h4, h5⟩ := M.bind_eq_ok.1 h2
    cases h5
    unfold M.cond at h1
    rw [if_pos hr] at h1
    have hg := removeLastOfPair_graph h1 hb
    have hp := fr (optimize_frame cfg env) h4 hg.1
    refine ⟨hp.1, ?_, ?_⟩
    · rw [hp.2, hg.2.1]; simp [Spec.opOdom, Spec.batch]
    · rw [hp.2, hg.2.2]; rfl
  | removeLast =>
    obtain ⟨s2, _, h2, h3⟩ := M.bind_eq_ok.1 h
    cases h3
    unfold removeLastLC at h2
    simp only [M.bind_eq] at h2
    obtain ⟨s1, e1, h1, h2⟩ := M.bind_eq_ok.1 h2
    obtain ⟨s3, _, h4, h5⟩ := M.bind_eq_ok.1 h2
    cases h5
    unfold M.cond at h1
    rw [if_pos hr, removeLastPcm_eq] at h1
    have hg : s1.nfg = buildGraph env s1.pcm ∧ s1.pcm.odom = s.pcm.odom ∧ s1.pcm.special = s.pcm.special := by
      cases hl : s.pcm.inOrder.getLast? with
      | none => rw [hl] at h1; cases h1; exact ⟨hb, rfl, rfl⟩
      | some id =>
        rw [hl] at h1
        exact removeLastOfPair_graph
          (s := { s with pcm := { s.pcm with inOrder := s.pcm.inOrder.dropLast } }) h1 hb
    have hp := fr (optimize_frame cfg env) h4 hg.1
    refine ⟨hp.1, ?_, ?_⟩
    · rw [hp.2, hg.2.1]; simp [Spec.opOdom, Spec.batch]
    · rw [hp.2, hg.2.2]; rfl
  | ignore c =>
    obtain ⟨s2, _, h2, h3⟩ := M.bind_eq_ok.1 h
    cases h3
    unfold ignorePrefix at h2
    simp only [M.bind_eq] at h2
    obtain ⟨s1, e1, h1, h2⟩ := M.bind_eq_ok.1 h2
    unfold M.when at h1
    rw [if_pos hr] at h1
    have hg : s1.nfg = buildGraph env s1.pcm ∧ s1.pcm.odom = s.pcm.odom ∧ s1.pcm.special = s.pcm.special := by
      cases h1
      refine ⟨rfl, ?_, ?_⟩ <;> · simp only; split <;> rfl
    have hp := fr (optimize_frame cfg env) h2 hg.1
    refine ⟨hp.1, ?_, ?_⟩
    · rw [hp.2, hg.2.1]; simp [Spec.opOdom, Spec.batch]
    · rw [hp.2, hg.2.2]; rfl
  | revive c =>
    obtain ⟨s2, _, h2, h3⟩ := M.bind_eq_ok.1 h
    cases h3
    unfold revivePrefix at h2
    simp only [M.bind_eq] at h2
    obtain ⟨s1, e1, h1, h2⟩ := M.bind_eq_ok.1 h2
    unfold M.when at h1
    rw [if_pos hr] at h1
    have hg : s1.nfg = buildGraph env s1.pcm ∧ s1.pcm.odom = s.pcm.odom ∧ s1.pcm.special = s.pcm.special := by
      cases h1
      exact ⟨rfl, rfl, rfl⟩
    have hp := fr (optimize_frame cfg env) h2 hg.1
    refine ⟨hp.1, ?_, ?_⟩
    · rw [hp.2, hg.2.1]; simp [Spec.opOdom, Spec.batch]
    · rw [hp.2, hg.2.2]; rfl
  | getNumLC =>
    obtain ⟨s2, _, h2, h3⟩ := M.bind_eq_ok.1 h
    cases h3
    unfold getNumLC at h2
    rw [if_pos hr] at h2
    cases h2
    exact ⟨hb, by simp [Spec.opOdom, Spec.batch], rfl⟩
  | getNumLCInliers =>
    obtain ⟨s2, _, h2, h3⟩ := M.bind_eq_ok.1 h
    cases h3
    unfold getNumLCInliers at h2
    split at h2
    · cases h2
      exact ⟨hb, by simp [Spec.opOdom, Spec.batch], rfl⟩
    · try rw [if_pos hr] at h2
      cases h2
      exact ⟨hb, by simp [Spec.opOdom, Spec.batch], rfl⟩
  | saveData =>
    obtain ⟨s2, _, h2, h3⟩ := M.bind_eq_ok.1 h
    cases h3
    unfold saveData at h2
    split at h2 <;> cases h2
    exact ⟨hb, by simp [Spec.opOdom, Spec.batch], rfl⟩
  | updateValues vs =>
    obtain ⟨s2, _, h2, h3⟩ := M.bind_eq_ok.1 h
    cases h3
    have hp := fr (applyResult_frame vs) h2 hb
    refine ⟨hp.1, ?_, ?_⟩
    · rw [hp.2]; simp [Spec.opOdom, Spec.batch]
    · rw [hp.2]; rfl
  | tempUpdate fs vs =>
    have hf := (exec_other cfg env hr (.tempUpdate fs vs) rfl s).of_ok h
    have hp : s'.pcm = s.pcm := by
      generalize hpp : s'.pcm = q
      have := hf.pcm
      rw [hpp] at this
      cases this; rfl
    refine ⟨?_, by rw [hp]; simp [Spec.opOdom, Spec.batch], by rw [hp]; rfl⟩
    rcases hf.nfg (by simp [Direct]) with h | h
    · rw [h, hp, hb]
    · exact h
  | tempReplace fs vs =>
    cases h
    exact ⟨hb, by simp [Spec.opOdom, Spec.batch], rfl⟩
  | tempClear =>
    cases h
    exact ⟨hb, by simp [Spec.opOdom, Spec.batch], rfl⟩
  | removeFactors _ => exact absurd hm (by simp [Spec.Managed])
  | removeLastFactor => exact absurd hm (by simp [Spec.Managed])
  | removePriorsGeneric _ => exact absurd hm (by simp [Spec.Managed])
  | genericUpdate _ _ _ => exact absurd hm (by simp [Spec.Managed])

theorem buildGraph_init {env : Env G N} (he : env.Ok) : buildGraph env ({} : Pcm G T N) = [] := by
  have h1 : env.iterLC [] = [] := (he.lc []).eq_nil
  have h2 : env.iterLM [] = [] := (he.lm []).eq_nil
  simp [buildGraph, h1, h2]

/-- Odometry and special factors after calls that all returned normally. -/
theorem ReachOk.lists {cfg : Cfg G T N} {env : Env G N} (he : env.Ok) (hr : cfg.rejection = true) {h : List (Op G N)}
    {s : St G T N} (r : ReachOk cfg env h s) (hm : ∀ op ∈ h, Spec.Managed op) :
    s.nfg = buildGraph env s.pcm ∧ s.pcm.odom = Spec.odomSoFar cfg h ∧ s.pcm.special = Spec.specialSoFar cfg h := by
  induction r with
  | init => exact ⟨(buildGraph_init he).symm, rfl, rfl⟩
  | step r e ih =>
    obtain ⟨a, b, c⟩ := ih (fun op ho => hm op (by simp [ho]))
    obtain ⟨a', b', c'⟩ := exec_ok_lists hr (hm _ (by simp)) e a
    refine ⟨a', ?_, ?_⟩
    · rw [b', b]; simp [Spec.odomSoFar]
    · rw [c', c]; simp [Spec.specialSoFar]

end RPGO
