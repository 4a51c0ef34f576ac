import Verif.Proofs.Batch
import Verif.Proofs.Count
import Verif.Proofs.GncOnly
import Verif.Props.Matrix
import Verif.Props.Graph
import Verif.Spec.Demo
/-
C46: sending measurements in one update or in several.
-/

namespace RPGO
variable {G T N : Type}

/-- Same closures and same matrix; the selection may differ. -/
def Bare (m m' : Meas G N) : Prop := m'.factors = m.factors ∧ m'.adj = m.adj

theorem Bare.refl (m : Meas G N) : Bare m m := ⟨rfl, rfl⟩

theorem Table.upd_both {κ : Type} {eq : κ → κ → Bool} {R : Meas G N → Meas G N → Prop} {d : Meas G N} {f : Meas G N → Meas G N}
    (hf : ∀ m m', R m m' → R (f m) (f m')) (hd : R d d) {l l' : List (κ × Meas G N)} (h : Table R l l') (k : κ) :
    Table R (AList.upd eq d l k f) (AList.upd eq d l' k f) := by
  unfold Table at h
  induction h with
  | nil => exact .cons ⟨rfl, hf _ _ hd⟩ .nil
  | @cons a b l l' e t ih =>
    obtain ⟨k0, v0⟩ := a
    obtain ⟨k1, v1⟩ := b
    obtain ⟨rfl, e⟩ := e
    simp only at e
    unfold AList.upd
    by_cases hk : eq k1 k = true
    · simp only [hk, if_true]; exact .cons ⟨rfl, hf _ _ e⟩ t
    · simp only [hk]; exact .cons ⟨rfl, e⟩ ih

/-- States that differ at most in the selection, the pose maps (not in what they say), and the robot order. -/
structure Like (cfg : Cfg G T N) (p q : Pcm G T N) : Prop where
  lcs : Table Bare p.lcs q.lcs
  landmarks : Table Bare p.landmarks q.landmarks
  inOrder : q.inOrder = p.inOrder
  totalLc : q.totalLc = p.totalLc
  lk : lk cfg q = lk cfg p

theorem Like.refl (cfg : Cfg G T N) (p : Pcm G T N) : Like cfg p p :=
  ⟨Table.refl Bare.refl _, Table.refl Bare.refl _, rfl, rfl, rfl⟩

theorem Bare.trans {a b c : Meas G N} (h1 : Bare a b) (h2 : Bare b c) : Bare a c := ⟨h2.1.trans h1.1, h2.2.trans h1.2⟩

theorem Like.trans {cfg : Cfg G T N} {p q r : Pcm G T N} (h1 : Like cfg p q) (h2 : Like cfg q r) : Like cfg p r :=
  ⟨Table.trans (R := Bare) (fun _ _ _ a b => Bare.trans a b) h1.lcs h2.lcs,
    Table.trans (R := Bare) (fun _ _ _ a b => Bare.trans a b) h1.landmarks h2.landmarks,
    h2.inOrder.trans h1.inOrder, h2.totalLc.trans h1.totalLc, h2.lk.trans h1.lk⟩

theorem Table.symm {κ : Type} {R : Meas G N → Meas G N → Prop} (h : ∀ a b, R a b → R b a)
    {l l' : List (κ × Meas G N)} (ht : Table R l l') : Table R l' l := by
  unfold Table at ht ⊢
  induction ht with
  | nil => exact .nil
  | cons e _ ih => exact .cons ⟨e.1.symm, h _ _ e.2⟩ ih

theorem Like.symm {cfg : Cfg G T N} {p q : Pcm G T N} (h : Like cfg p q) : Like cfg q p :=
  ⟨Table.symm (fun _ _ a => ⟨a.1.symm, a.2.symm⟩) h.lcs, Table.symm (fun _ _ a => ⟨a.1.symm, a.2.symm⟩) h.landmarks,
    h.inOrder.symm, h.totalLc.symm, h.lk.symm⟩

theorem Like.of_trajOnly {cfg : Cfg G T N} {p q : Pcm G T N} (h : TrajOnly cfg p q) : Like cfg p q := by
  have e := h.eq
  refine ⟨?_, ?_, ?_, ?_, h.lk⟩
  · rw [e]; exact Table.refl Bare.refl _
  · rw [e]; exact Table.refl Bare.refl _
  all_goals rw [e]

theorem Like.parseStep {cfg : Cfg G T N} {vals : Vals G} {f : Chr → Key → T} {p q : Pcm G T N} (h : Like cfg p q) (b : Btw G N) :
    Like cfg (RPGO.parseStep cfg vals f p b) (RPGO.parseStep cfg vals f q b) := by
  have hb : Bare (Meas.empty : Meas G N) Meas.empty := Bare.refl _
  unfold RPGO.parseStep
  split
  · refine ⟨Table.upd_both ?_ hb h.lcs _, h.landmarks, ?_, ?_, h.lk⟩
    · intro m m' e
      refine ⟨?_, ?_⟩
      · simp only [growLc, e.1]
      · simp only [growLc, e.1, e.2]
    · show q.inOrder ++ _ = p.inOrder ++ _; rw [h.inOrder]
    · show q.totalLc + 1 = p.totalLc + 1; rw [h.totalLc]
  · split
    · refine ⟨h.lcs, Table.upd_both ?_ hb h.landmarks _, h.inOrder, ?_, h.lk⟩
      · intro m m' e
        refine ⟨?_, ?_⟩
        · simp only [growLm, e.1]
        · simp only [growLm, e.1, e.2]
      · show q.totalLc + 1 = p.totalLc + 1; rw [h.totalLc]
    · exact h

theorem Like.parseFold {cfg : Cfg G T N} {vals : Vals G} {f : Chr → Key → T} (bs : List (Btw G N)) {p q : Pcm G T N} (h : Like cfg p q) :
    Like cfg (bs.foldl (RPGO.parseStep cfg vals f) p) (bs.foldl (RPGO.parseStep cfg vals f) q) := by
  induction bs generalizing p q with
  | nil => exact h
  | cons b bs ih => exact ih (h.parseStep b)

theorem measInliers_bare {m m' a b : Meas G N} {k k' : Nat} (h : Bare m m') (h1 : measInliers m = .ok a k)
    (h2 : measInliers m' = .ok b k') : b = a := by
  obtain ⟨f, c, j⟩ := m
  obtain ⟨f', c', j'⟩ := m'
  obtain ⟨rfl, rfl⟩ := h
  unfold measInliers at h1 h2
  simp only at h1 h2
  split at h1
  · cases h1
  · rename_i e
    rw [e] at h2
    simp only at h2
    split at h1
    · rename_i e2
      rw [e2] at h2
      cases h1; cases h2; rfl
    · cases h1
    · cases h1

theorem lcInliers_bare {cfg : Cfg G T N} {m m' a b : Meas G N} {k k' : Nat} (h : Bare m m') (h1 : lcInliers cfg m = .ok a k)
    (h2 : lcInliers cfg m' = .ok b k') : b = a := by
  unfold lcInliers at h1 h2
  split at h1
  · rename_i hl; rw [if_pos hl] at h2; exact measInliers_bare h h1 h2
  · rename_i hl
    rw [if_neg hl] at h2
    cases h1; cases h2
    obtain ⟨f, c, j⟩ := m
    obtain ⟨f', c', j'⟩ := m'
    obtain ⟨rfl, rfl⟩ := h
    rfl

theorem Table.det {κ : Type} {R Q : Meas G N → Meas G N → Prop} (h : ∀ m m' a b, R m m' → Q m a → Q m' b → b = a)
    {l l' r r' : List (κ × Meas G N)} (hl : Table R l l') (h1 : Table Q l r) (h2 : Table Q l' r') : r' = r := by
  unfold Table at hl h1 h2
  induction hl generalizing r r' with
  | nil => cases h1; cases h2; rfl
  | @cons a b l l' e _ ih =>
    cases h1 with
    | @cons _ x _ r1 e1 t1 =>
      cases h2 with
      | @cons _ y _ r2 e2 t2 =>
        rw [ih t1 t2]
        have := h _ _ _ _ e.2 e1.2 e2.2
        rw [show y = x from Prod.ext (by rw [e2.1, e1.1, e.1]) this]

/-- What the selection leaves behind. -/
structure Same (cfg : Cfg G T N) (p q : Pcm G T N) : Prop where
  lcs : q.lcs = p.lcs
  landmarks : q.landmarks = p.landmarks
  good : q.totalGood = p.totalGood
  like : Like cfg p q

theorem processCands_parts {cfg : Cfg G T N} (hi : cfg.incremental = false) {vals : Vals G} {bs : List (Btw G N)} {p p2 : Pcm G T N}
    (h : processCands cfg vals bs p = .ok p2 ()) :
    ∃ p1, TrajOnly cfg (bs.foldl (parseStep cfg vals (lk cfg p)) p) p1 ∧ findInliers cfg p1 = .ok p2 () := by
  unfold processCands at h
  simp only [M.bind_eq] at h
  obtain ⟨p1, num, h1, h2⟩ := M.bind_eq_ok.1 h
  refine ⟨p1, (parseLoops_ok h1).2, ?_⟩
  unfold M.cond at h2
  rw [if_neg (by simp [hi])] at h2
  exact h2

theorem findInliers_like {cfg : Cfg G T N} {p1 p2 : Pcm G T N} (h : findInliers cfg p1 = .ok p2 ()) : Like cfg p1 p2 := by
  have he := findInliers_ends cfg p1
  rw [h] at he
  obtain ⟨hs, _⟩ := he
  have e := hs.eq
  have e1 := congrArg Pcm.inOrder e
  have e2 := congrArg Pcm.totalLc e
  have et := congrArg Pcm.trajs e
  refine ⟨Table.mono (fun _ _ a => ⟨a.factors, a.adj⟩) hs.lcs, Table.mono (fun _ _ a => ⟨a.factors, a.adj⟩) hs.landmarks, e1, e2, ?_⟩
  simp only at et
  unfold RPGO.lk trajOf
  rw [et]

/-- Registration and batch selection of candidates. -/
theorem processCands_like {cfg : Cfg G T N} (hi : cfg.incremental = false) {vals : Vals G} {bs : List (Btw G N)} {p p2 : Pcm G T N}
    (h : processCands cfg vals bs p = .ok p2 ()) : Like cfg (bs.foldl (parseStep cfg vals (lk cfg p)) p) p2 := by
  obtain ⟨p1, ht, hf⟩ := processCands_parts hi h
  exact (Like.of_trajOnly ht).trans (findInliers_like hf)

/-- The selection depends only on what is registered. -/
theorem processCands_same {cfg : Cfg G T N} (hi : cfg.incremental = false) {vals vals' : Vals G} {bs bs' : List (Btw G N)}
    {p p2 q q2 : Pcm G T N} (h : processCands cfg vals bs p = .ok p2 ()) (hq : processCands cfg vals' bs' q = .ok q2 ())
    (hl : Like cfg p2 q2) : Same cfg p2 q2 := by
  obtain ⟨p1, _, hf⟩ := processCands_parts hi h
  obtain ⟨q1, _, hg⟩ := processCands_parts hi hq
  have a1 := (findInliers_ok hf).2.1
  have a2 := (findInliers_ok hf).2.2.1
  have a3 := (findInliers_ok hf).2.2.2
  have b1 := (findInliers_ok hg).2.1
  have b2 := (findInliers_ok hg).2.2.1
  have b3 := (findInliers_ok hg).2.2.2
  have l1 : Like cfg p1 q1 := ((findInliers_like hf).trans hl).trans (findInliers_like hg).symm
  have c1 : q2.lcs = p2.lcs := Table.det (R := Bare) (Q := fun m m' => lcInliers cfg m = .ok m' m'.cons.length)
    (fun _ _ _ _ r x y => lcInliers_bare r x y) l1.lcs a1 b1
  have c2 : q2.landmarks = p2.landmarks := Table.det (R := Bare) (Q := fun m m' => measInliers m = .ok m' m'.cons.length)
    (fun _ _ _ _ r x y => measInliers_bare r x y) l1.landmarks a2 b2
  exact ⟨c1, c2, by rw [a3, b3, c1, c2], hl⟩

theorem parseStep_congr {cfg : Cfg G T N} {vals vals' : Vals G} (h : ∀ k, vals.has k = vals'.has k) (f : Chr → Key → T) :
    parseStep cfg vals f = parseStep cfg vals' f := by
  funext p b
  unfold parseStep acceptLc acceptLm known
  simp only [h]

variable [Mul G] [Inv G] [One G]

/-- What an update without new values did. -/
structure Closed (cfg : Cfg G T N) (env : Env G N) (fs : Graph G N) (s s' : St G T N) : Prop where
  like : Like cfg ((Spec.cands cfg [] fs).foldl (parseStep cfg s.values (lk cfg s.pcm)) s.pcm) s'.pcm
  kept : Spec.cands cfg [] fs = [] → s'.pcm.lcs = s.pcm.lcs ∧ s'.pcm.landmarks = s.pcm.landmarks ∧ s'.pcm.totalGood = s.pcm.totalGood
  chosen : Spec.cands cfg [] fs ≠ [] → ∃ vals bs q p2, processCands cfg vals bs q = .ok p2 () ∧
    s'.pcm.lcs = p2.lcs ∧ s'.pcm.landmarks = p2.landmarks ∧ s'.pcm.totalGood = p2.totalGood ∧ Like cfg p2 s'.pcm
  values : ∀ k, s'.values.has k = s.values.has k
  odom : s'.pcm.odom = s.pcm.odom
  special : s'.pcm.special = s.pcm.special ++ Spec.specials fs
  ignored : s'.pcm.ignored = s.pcm.ignored
  same : fs = [] → s'.nfg = s.nfg
  built : fs ≠ [] → s'.nfg = buildGraph env s'.pcm

theorem no_odoms (cfg : Cfg G T N) (fs : Graph G N) : Spec.odoms cfg [] fs = [] := by
  unfold Spec.odoms
  rw [List.filter_eq_nil_iff]
  intro b _
  simp [Spec.isOdom, KMap.keys]

theorem no_firsts (cfg : Cfg G T N) (fs : Graph G N) : Spec.firsts cfg [] fs = [] := by
  unfold Spec.firsts
  rw [List.filter_eq_nil_iff]
  intro b _
  simp [Spec.isFirstObs, KMap.keys]

theorem exec_closed {cfg : Cfg G T N} {env : Env G N} (hr : cfg.rejection = true) (hi : cfg.incremental = false)
    {op : Op G N} {fs : Graph G N} (hb : Spec.batch op = some (fs, [])) {s s' : St G T N} {x : Ret}
    (h : exec cfg env op s = .ok s' x) : Closed cfg env fs s s' := by
  have hd := (exec_batch env hr hb s).1 _ _ h
  obtain ⟨l1, l2, l3⟩ := hd.lists
  rw [no_odoms, List.append_nil] at l1
  cases hd with
  | @empty v1 _ h0 hv hf =>
    subst h0
    cases hv
    have hc : Spec.cands cfg [] ([] : Graph G N) = [] := rfl
    refine ⟨?_, ?_, fun h => absurd hc h, fun k => hf.values.has k, l1, l2, l3, fun _ => hf.nfg, fun h => absurd rfl h⟩
    · rw [hc, hf.pcm]; exact Like.refl _ _
    · intro _; rw [hf.pcm]; exact ⟨rfl, rfl, rfl⟩
  | @full v1 p1 p2 s1 _ h0 hv hS hn hp ha hf =>
    cases hv
    have ep : s'.pcm = { p2 with robotOrder := s1.pcm.robotOrder } := by
      rw [hf.pcm]
      have := congrArg St.pcm ha.eq
      exact this
    have en : s'.nfg = buildGraph env p2 := by
      rw [hf.nfg]
      have := congrArg St.nfg ha.eq
      exact this
    have el : Like cfg p2 s'.pcm := by
      rw [ep]; exact ⟨Table.refl Bare.refl _, Table.refl Bare.refl _, rfl, rfl, rfl⟩
    have e1 : Like cfg s.pcm p1 := by
      refine ⟨?_, ?_, hS.inOrder, ?_, ?_⟩
      · rw [hS.lcs]; exact Table.refl Bare.refl _
      · rw [hS.landmarks, no_firsts]; exact Table.refl Bare.refl _
      · rw [hS.totalLc, no_firsts]; rfl
      · have hrun := hS.run
        rw [no_odoms] at hrun
        have : ∀ {bs : List (Btw G N)} {p q : Pcm G T N}, OdomRun cfg s.values bs p q → bs = [] → q.trajs = p.trajs := by
          intro bs p q r
          induction r with
          | nil => intro _; rfl
          | cons => intro h; cases h
          | other h _ _ ih => intro hb; exact (ih hb).trans h
        unfold RPGO.lk trajOf
        rw [this hrun rfl]
    refine ⟨?_, ?_, ?_, fun k => (ha.values.trans hf.values).has k, l1, l2, l3, fun h => absurd h h0, fun _ => ?_⟩
    · by_cases hc : Spec.cands cfg [] fs = []
      · rw [hc]
        rw [hn hc] at el
        exact e1.trans el
      · have := processCands_like hi (hp hc)
        rw [e1.lk] at this
        exact ((e1.parseFold _).trans this).trans el
    · intro hc
      rw [ep, hn hc]
      exact ⟨hS.lcs, by rw [hS.landmarks, no_firsts]; rfl, hS.totalGood⟩
    · intro hc
      exact ⟨_, _, p1, p2, hp hc, by rw [ep], by rw [ep], by rw [ep], el⟩
    · rw [en, ep]; rfl

theorem cands_append (cfg : Cfg G T N) (vs : Vals G) (f1 f2 : Graph G N) :
    Spec.cands cfg vs (f1 ++ f2) = Spec.cands cfg vs f1 ++ Spec.cands cfg vs f2 := by
  simp [Spec.cands, Spec.btws, List.filterMap_append]

theorem buildGraph_closed {cfg : Cfg G T N} {env : Env G N} {s s' : St G T N} (h : Closed cfg env [] s s') :
    buildGraph env s'.pcm = buildGraph env s.pcm := by
  have k := h.kept rfl
  unfold buildGraph
  rw [h.odom, h.special, h.ignored, k.1, k.2.1]
  simp [Spec.specials]

theorem Closed.trans {cfg : Cfg G T N} {env : Env G N} {f1 f2 : Graph G N} {s s1 s2 : St G T N}
    (h1 : Closed cfg env f1 s s1) (h2 : Closed cfg env f2 s1 s2) : Closed cfg env (f1 ++ f2) s s2 := by
  have l2 : Like cfg ((Spec.cands cfg [] f2).foldl (parseStep cfg s.values (lk cfg s.pcm)) s1.pcm) s2.pcm := by
    have b := h2.like
    have hk : lk cfg s1.pcm = lk cfg s.pcm := by
      rw [h1.like.lk]
      unfold RPGO.lk trajOf
      rw [parseFold_trajs]
    rwa [parseStep_congr h1.values, hk] at b
  refine ⟨?_, ?_, ?_, fun k => (h2.values k).trans (h1.values k), h2.odom.trans h1.odom, ?_, h2.ignored.trans h1.ignored, ?_, ?_⟩
  · rw [cands_append, List.foldl_append]
    exact (h1.like.parseFold _).trans l2
  · intro h
    rw [cands_append, List.append_eq_nil_iff] at h
    obtain ⟨i1, i2, i3⟩ := h1.kept h.1
    obtain ⟨k1, k2, k3⟩ := h2.kept h.2
    exact ⟨k1.trans i1, k2.trans i2, k3.trans i3⟩
  · intro h
    by_cases c2 : Spec.cands cfg [] f2 = []
    · have c1 : Spec.cands cfg [] f1 ≠ [] := by rw [cands_append, c2, List.append_nil] at h; exact h
      obtain ⟨k1, k2, k3⟩ := h2.kept c2
      obtain ⟨_, _, q, p2, e, m1, m2, m3, m4⟩ := h1.chosen c1
      rw [c2] at l2
      exact ⟨_, _, q, p2, e, k1.trans m1, k2.trans m2, k3.trans m3, m4.trans l2⟩
    · exact h2.chosen c2
  · rw [h2.special, h1.special]
    simp [Spec.specials, List.filterMap_append]
  · intro h
    rw [List.append_eq_nil_iff] at h
    rw [h2.same h.2, h1.same h.1]
  · intro h
    by_cases c2 : f2 = []
    · subst c2
      rw [h2.same rfl, h1.built (by simpa using h), buildGraph_closed h2]
    · exact h2.built c2

theorem Closed.det {cfg : Cfg G T N} {env : Env G N} (hi : cfg.incremental = false) {fs : Graph G N} {s a b : St G T N}
    (ha : Closed cfg env fs s a) (hb : Closed cfg env fs s b) : Same cfg a.pcm b.pcm ∧ b.nfg = a.nfg ∧ ∀ k, b.values.has k = a.values.has k := by
  have hl : Like cfg a.pcm b.pcm := ha.like.symm.trans hb.like
  have hs : Same cfg a.pcm b.pcm := by
    by_cases c : Spec.cands cfg [] fs = []
    · obtain ⟨i1, i2, i3⟩ := ha.kept c
      obtain ⟨k1, k2, k3⟩ := hb.kept c
      exact ⟨by rw [k1, i1], by rw [k2, i2], by rw [k3, i3], hl⟩
    · obtain ⟨_, _, q, p2, e, m1, m2, m3, m4⟩ := ha.chosen c
      obtain ⟨_, _, q', p2', e', n1, n2, n3, n4⟩ := hb.chosen c
      have := processCands_same hi e e' ((m4.trans hl).trans n4.symm)
      exact ⟨by rw [m1, n1, this.lcs], by rw [m2, n2, this.landmarks], by rw [m3, n3, this.good], hl⟩
  refine ⟨hs, ?_, fun k => (hb.values k).trans (ha.values k).symm⟩
  by_cases c : fs = []
  · rw [ha.same c, hb.same c]
  · rw [ha.built c, hb.built c]
    unfold buildGraph
    rw [ha.odom, hb.odom, ha.special, hb.special, ha.ignored, hb.ignored, hs.lcs, hs.landmarks]

end RPGO

namespace RPGO.Spec
variable {G T N : Type} [Mul G] [Inv G] [One G]

/-- `s'` is the state after updates (with or without optimization) that carry these batches and return normally. -/
inductive Updates (cfg : Cfg G T N) (env : Env G N) : St G T N → List (Graph G N × Vals G) → St G T N → Prop where
  | nil (s) : Updates cfg env s [] s
  | cons {s s1 s2 op b bs x} : batch op = some b → exec cfg env op s = .ok s1 x → Updates cfg env s1 bs s2 →
      Updates cfg env s (b :: bs) s2

/-- The same for calls of `update`. -/
inductive Feeds (cfg : Cfg G T N) (env : Env G N) : St G T N → List (Graph G N × Vals G) → St G T N → Prop where
  | nil (s) : Feeds cfg env s [] s
  | cons {s s1 s2 b bs o x} : exec cfg env (.update b.1 b.2 o) s = .ok s1 x → Feeds cfg env s1 bs s2 → Feeds cfg env s (b :: bs) s2

/-- A batch of odometry only. -/
def OnlyOdom (cfg : Cfg G T N) (vs : Vals G) (fs : Graph G N) : Prop :=
  specials fs = [] ∧ ∀ b ∈ btws fs, isOdom cfg vs b = true

end RPGO.Spec

namespace RPGO
variable {G T N : Type} [Mul G] [Inv G] [One G]

theorem closed_updates {cfg : Cfg G T N} {env : Env G N} (hr : cfg.rejection = true) (hi : cfg.incremental = false)
    {parts : List (Graph G N)} {s s' : St G T N} (h : Spec.Updates cfg env s (parts.map fun f => (f, [])) s') :
    Closed cfg env parts.flatten s s' := by
  induction parts generalizing s with
  | nil =>
    cases h
    exact ⟨Like.refl _ _, fun _ => ⟨rfl, rfl, rfl⟩, fun h => absurd rfl h, fun _ => rfl, rfl, by simp [Spec.specials], rfl,
      fun _ => rfl, fun h => absurd rfl h⟩
  | cons f fs ih =>
    cases h with
    | cons hb e t => exact (exec_closed hr hi hb e).trans (ih t)

namespace Props

/-- C46, closures: however the same closures (and other factors) without new values are divided into updates, the
registered closures, their matrices, the selected closures, the landmark observations, both counts and the graph come
out the same. -/
theorem C46_closures {cfg : Cfg G T N} {env : Env G N} (hr : cfg.rejection = true) (hi : cfg.incremental = false)
    {parts parts' : List (Graph G N)} (hp : parts.flatten = parts'.flatten) {s a b : St G T N}
    (ha : Spec.Updates cfg env s (parts.map fun f => (f, [])) a) (hb : Spec.Updates cfg env s (parts'.map fun f => (f, [])) b) :
    (∀ id, Spec.registered b id = Spec.registered a id ∧ Spec.matrix b id = Spec.matrix a id ∧
      Spec.selected b id = Spec.selected a id) ∧
    (∀ l, Spec.observed b l = Spec.observed a l) ∧ b.nfg = a.nfg ∧
    (∀ n, Spec.NumLC cfg env b n ↔ Spec.NumLC cfg env a n) := by
  have h1 := closed_updates hr hi ha
  have h2 := closed_updates hr hi hb
  rw [← hp] at h2
  obtain ⟨hs, hn, _⟩ := h1.det hi h2
  refine ⟨fun id => ?_, fun l => ?_, hn, fun n => ?_⟩
  · unfold Spec.registered Spec.matrix Spec.selected lcOf
    rw [hs.lcs]
    exact ⟨rfl, rfl, rfl⟩
  · unfold Spec.observed lmOf
    rw [hs.landmarks]
  · rw [numLC_iff hr, numLC_iff hr, hs.like.totalLc]

end Props
/-! ### Odometry -/

/-- The odometry factors of a batch, filed one by one. -/
def odomLoop (cfg : Cfg G T N) (vals : Vals G) : List (Btw G N) → M (Pcm G T N) Unit
  | [] => M.pure ()
  | b :: bs => M.bind (updateOdom cfg vals b) fun _ => odomLoop cfg vals bs

theorem odomLoop_append (cfg : Cfg G T N) (vals : Vals G) (b1 b2 : List (Btw G N)) (p : Pcm G T N) :
    odomLoop cfg vals (b1 ++ b2) p = (M.bind (odomLoop cfg vals b1) fun _ => odomLoop cfg vals b2) p := by
  induction b1 generalizing p with
  | nil => rfl
  | cons b b1 ih =>
    show M.bind (updateOdom cfg vals b) (fun _ => odomLoop cfg vals (b1 ++ b2)) p =
      M.bind (M.bind (updateOdom cfg vals b) fun _ => odomLoop cfg vals b1) (fun _ => odomLoop cfg vals b2) p
    simp only [M.bind_apply]
    cases updateOdom cfg vals b p with
    | ok p1 _ => simp only; rw [ih]; rfl
    | throw => rfl
    | ub => rfl

theorem sortFactors_odom {cfg : Cfg G T N} {vs vals : Vals G} {fs : Graph G N} (h : Spec.OnlyOdom cfg vs fs) (l : List (Btw G N)) (o : Bool)
    (p : Pcm G T N) : sortFactors cfg vs vals fs l o p = M.bind (odomLoop cfg vals (Spec.btws fs)) (fun _ => M.pure (l, o)) p := by
  induction fs generalizing p with
  | nil => rfl
  | cons f fs ih =>
    match f with
    | none => exact ih h p
    | some (.btw b) =>
      have hb : Spec.isOdom cfg vs b = true := h.2 b (by rw [btws_btw]; simp)
      have ht : Spec.OnlyOdom cfg vs fs := ⟨h.1, fun x hx => h.2 x (by rw [btws_btw]; simp [hx])⟩
      have hc : classify cfg vs (.btw b) = .odometry := by
        rw [classify_btw, if_neg (by simp [isOdom_not_first hb]), if_pos hb]
      rw [btws_btw]
      unfold sortFactors odomLoop
      simp only [hc, M.bind_eq, M.bind_apply]
      cases updateOdom cfg vals b p with
      | ok p1 _ => simp only; rw [ih ht]; rfl
      | throw => rfl
      | ub => rfl
    | some (.prior ..) => exact absurd h.1 (by simp [Spec.specials])
    | some (.priorAlt ..) => exact absurd h.1 (by simp [Spec.specials])
    | some (.other ..) => exact absurd h.1 (by simp [Spec.specials])

theorem updateOdom_mono {cfg : Cfg G T N} {v w : Vals G} (hv : ∀ k x, v.find? k = some x → w.find? k = some x) {b : Btw G N}
    {p p' : Pcm G T N} (h : updateOdom cfg v b p = .ok p' ()) : updateOdom cfg w b p = .ok p' () := by
  unfold updateOdom at h ⊢
  simp only [M.bind_eq] at h ⊢
  rw [M.bind_ok (M.modify_apply _ _)] at h ⊢
  obtain ⟨p1, d, h1, h2⟩ := M.bind_eq_ok.1 h
  rw [M.bind_ok h1, M.bind_ok (M.get_apply _)]
  rw [M.bind_ok (M.get_apply _)] at h2
  revert h2
  cases AList.get? (· == ·) p1.trajs (chr b.k2) with
  | some _ => exact fun h2 => h2
  | none =>
    cases e : v.find? b.k1 with
    | none => intro h2; cases h2
    | some y =>
      rw [hv _ _ e]
      exact fun h2 => h2

theorem odomLoop_mono {cfg : Cfg G T N} {v w : Vals G} (hv : ∀ k x, v.find? k = some x → w.find? k = some x) {bs : List (Btw G N)}
    {p p' : Pcm G T N} (h : odomLoop cfg v bs p = .ok p' ()) : odomLoop cfg w bs p = .ok p' () := by
  induction bs generalizing p with
  | nil => exact h
  | cons b bs ih =>
    obtain ⟨p1, _, h1, h2⟩ := M.bind_eq_ok.1 h
    show M.bind _ _ p = _
    rw [M.bind_ok (updateOdom_mono hv h1)]
    exact ih h2

theorem OnlyOdom_no_cands {cfg : Cfg G T N} {vs : Vals G} {fs : Graph G N} (h : Spec.OnlyOdom cfg vs fs) : Spec.cands cfg vs fs = [] := by
  unfold Spec.cands
  rw [List.filter_eq_nil_iff]
  intro b hb
  simp [Spec.isCand, h.2 b hb]

/-- What a batch of odometry does, without frame alignment. -/
theorem exec_odom {cfg : Cfg G T N} {env : Env G N} (hr : cfg.rejection = true) (hal : cfg.align = false)
    {fs : Graph G N} {vs : Vals G} (ho : Spec.OnlyOdom cfg vs fs) {o : Bool} {s s' : St G T N} {x : Ret} :
    (exec cfg env (.update fs vs o) s = .ok s' x → ∃ v1 p1, insertVals vs s.values = .ok v1 () ∧
        odomLoop cfg v1 (Spec.btws fs) s.pcm = .ok p1 () ∧
        s' = { s with values := v1, pcm := p1, nfg := if fs = [] then s.nfg else buildGraph env p1 }) ∧
    ∀ v1 p1, insertVals vs s.values = .ok v1 () → odomLoop cfg v1 (Spec.btws fs) s.pcm = .ok p1 () →
      exec cfg env (.update fs vs false) s =
        .ok { s with values := v1, pcm := p1, nfg := if fs = [] then s.nfg else buildGraph env p1 } .unit := by
  constructor
  · intro h
    obtain ⟨s1, r, h1, _, h3⟩ := exec_batch_ok hr rfl h
    obtain ⟨v1, hv, hre, h2⟩ := removeOutliers_ok h1
    rw [ho.1, (OnlyOdom_no_cands ho)] at hre
    have hs : s' = s1 := h3 o rfl (by rw [hre]; rfl)
    subst hs
    rcases h2 with ⟨h0, h2⟩ | ⟨h0, p1, p2, o', e1, _, e3, _, e4⟩
    · subst h0
      exact ⟨v1, s.pcm, hv, rfl, h2⟩
    · rw [sortFactors_odom ho, (OnlyOdom_no_cands ho)] at e1
      obtain ⟨p1', _, e5, e6⟩ := M.bind_eq_ok.1 e1
      cases e6
      rw [e3 (OnlyOdom_no_cands ho), alignStep_off (Or.inl hal)] at e4
      cases e4
      exact ⟨v1, p1, hv, e5, by rw [if_neg h0]⟩
  · intro v1 p1 hv hp
    show ((update cfg env fs vs false).ret fun _ => Ret.unit) s = _
    have key : removeOutliers cfg env fs vs s =
        .ok { s with values := v1, pcm := p1, nfg := if fs = [] then s.nfg else buildGraph env p1 } false := by
      unfold removeOutliers
      simp only [M.bind_eq]
      rw [M.bind_ok (onValues_ok hv)]
      by_cases h0 : fs = []
      · subst h0
        cases hp
        rfl
      · unfold M.cond
        rw [if_neg (by simp [h0])]
        unfold processFactors
        simp only [M.bind_eq]
        rw [M.bind_ok (M.get_apply _)]
        have hs : (onPcm (sortFactors cfg vs v1 fs [] false) : M (St G T N) _) { s with values := v1 } =
            .ok { s with values := v1, pcm := p1 } ([], false) := by
          unfold onPcm
          simp only [M.zoom]
          rw [sortFactors_odom ho, M.bind_ok hp]
          rfl
        rw [M.bind_ok hs]
        rw [if_neg h0]
        simp only [M.when, List.length_nil, gt_iff_lt, Nat.lt_irrefl, decide_false]
        rw [if_neg (by simp), M.bind_ok (M.pure_apply _ _)]
        unfold rebuild
        rw [M.bind_ok (M.modify_apply _ _), M.bind_ok (alignStep_off (Or.inl hal))]
        rfl
    unfold M.ret update
    simp only [M.bind_eq]
    rw [RPGO.cond_true hr]
    simp only [M.bind_apply, key, M.when]
    simp [M.pure]

theorem insertVals_sorted {vs v v' : Vals G} (h : insertVals vs v = .ok v' ()) (hs : v.Sorted) : v'.Sorted := by
  induction vs generalizing v with
  | nil => cases h; exact hs
  | cons e t ih =>
    obtain ⟨k, x⟩ := e
    rw [insertVals_cons] at h
    split at h
    · cases h
    · exact ih h (hs.set k x)

theorem sorted_nodup {v : Vals G} (h : v.Sorted) : v.keys.Nodup := by
  unfold KMap.Sorted at h
  exact h.imp fun {a b} hab e => by rw [e] at hab; exact Nat.lt_irrefl _ hab

theorem btws_append (f1 f2 : Graph G N) : Spec.btws (f1 ++ f2) = Spec.btws f1 ++ Spec.btws f2 := by
  simp [Spec.btws, List.filterMap_append]

/-- What several updates with odometry did, in terms of one pass over the joined odometry. -/
theorem feeds_odom {cfg : Cfg G T N} {env : Env G N} (hr : cfg.rejection = true) (hal : cfg.align = false)
    {parts : List (Graph G N × Vals G)} {s s' : St G T N} (hf : Spec.Feeds cfg env s parts s')
    (ho : ∀ p ∈ parts, Spec.OnlyOdom cfg p.2 p.1) (hp : ∀ p ∈ parts, p.2.Sorted) (h0 : s.values.Sorted) :
    odomLoop cfg s'.values (Spec.btws (parts.flatMap Prod.fst)) s.pcm = .ok s'.pcm () ∧ s'.values.Sorted ∧
    (∀ k x, s'.values.find? k = some x ↔ (s.values.find? k = some x ∨ ∃ p ∈ parts, (k, x) ∈ p.2)) ∧
    (∀ p ∈ parts, ∀ k x, (k, x) ∈ p.2 → s.values.has k = false) ∧
    s' = { s with values := s'.values, pcm := s'.pcm, nfg := if parts.flatMap Prod.fst = [] then s.nfg else buildGraph env s'.pcm } := by
  induction hf with
  | nil s => exact ⟨rfl, h0, fun k x => by simp, by simp, by simp⟩
  | @cons s s1 s' b bs o x e t ih =>
    obtain ⟨v1, p1, a1, a2, a3⟩ := (exec_odom hr hal (ho b (by simp))).1 e
    have hv1 : s1.values = v1 := by rw [a3]
    have hp1 : s1.pcm = p1 := by rw [a3]
    have g0 : s1.values.Sorted := by rw [hv1]; exact insertVals_sorted a1 h0
    obtain ⟨i1, i2, i3, i4, i5⟩ := ih (fun p hp => ho p (by simp [hp])) (fun p h => hp p (by simp [h])) g0
    obtain ⟨j1, j2, j3⟩ := insertVals_ok a1
    have k1 : ∀ k x, s1.values.find? k = some x ↔ (s.values.find? k = some x ∨ (k, x) ∈ b.2) := by
      intro k x
      rw [hv1, j1]
      cases hk : KMap.has s.values k with
      | true =>
        rw [if_pos rfl]
        refine ⟨Or.inl, fun h => h.resolve_right fun hm => ?_⟩
        have := j2 k (List.mem_map.2 ⟨_, hm, rfl⟩)
        rw [hk] at this; cases this
      | false =>
        rw [if_neg (by simp)]
        have hn : KMap.find? s.values k = none := by
          unfold KMap.has at hk
          cases e : KMap.find? s.values k with
          | none => rfl
          | some _ => rw [e] at hk; cases hk
        rw [hn]
        refine ⟨fun h => Or.inr (KMap.find?_mem h), fun h => ?_⟩
        rcases h with h | h
        · cases h
        · exact KMap.find?_of_mem (hp b (by simp)) h
    refine ⟨?_, i2, ?_, ?_, ?_⟩
    · rw [List.flatMap_cons, btws_append, odomLoop_append]
      have m := odomLoop_mono (w := s'.values) (fun k x h => (i3 k x).2 (Or.inl (by rw [hv1]; exact h))) a2
      rw [M.bind_ok m, ← hp1]
      exact i1
    · intro k x
      rw [i3, k1]
      simp only [List.mem_cons, exists_eq_or_imp, or_assoc]
    · intro p hpm k x hx
      rcases List.mem_cons.1 hpm with rfl | hpm
      · exact j2 k (List.mem_map.2 ⟨_, hx, rfl⟩)
      · have hno := i4 p hpm k x hx
        cases hk : KMap.has s.values k with
        | false => rfl
        | true =>
          obtain ⟨y, hy⟩ := Option.isSome_iff_exists.1 hk
          have hy := (k1 k y).2 (Or.inl hy)
          unfold KMap.has at hno
          rw [hy] at hno
          cases hno
    · have e5 : s' = { s with values := s'.values, pcm := s'.pcm, nfg := s'.nfg } := by
        rw [i5, a3]
      have en : s'.nfg = if (b :: bs).flatMap Prod.fst = [] then s.nfg else buildGraph env s'.pcm := by
        have en := congrArg St.nfg i5
        simp only at en
        rw [en, List.flatMap_cons]
        by_cases c : bs.flatMap Prod.fst = []
        · rw [if_pos c, c, List.append_nil]
          have e1 : s1.nfg = if b.1 = [] then s.nfg else buildGraph env p1 := by rw [a3]
          rw [c] at i1
          have i1 : Out.ok s1.pcm () = Out.ok s'.pcm () := i1
          have e2 : s1.pcm = s'.pcm := (Out.ok.inj i1).1
          rw [e1, ← hp1, e2]
        · rw [if_neg c, if_neg (by simp [c])]
      rw [← en]
      exact e5

namespace Props

/-- C46, odometry: sending odometry and its new poses in several updates leaves the same solver as sending them in one
update. `vs` holds the new values of all the parts. -/
theorem C46_odometry {cfg : Cfg G T N} {env : Env G N} (hr : cfg.rejection = true) (hal : cfg.align = false)
    {parts : List (Graph G N × Vals G)} (ho : ∀ p ∈ parts, Spec.OnlyOdom cfg p.2 p.1) (hp : ∀ p ∈ parts, p.2.Sorted)
    {vs : Vals G} (hs : vs.Sorted) (hv : ∀ k x, (k, x) ∈ vs ↔ ∃ p ∈ parts, (k, x) ∈ p.2)
    {h : List (Op G N)} {s s' : St G T N} (r : Reach cfg env h s) (hf : Spec.Feeds cfg env s parts s') :
    exec cfg env (.update (parts.flatMap Prod.fst) vs false) s = .ok s' .unit ∧
    ∀ o t x, exec cfg env (.update (parts.flatMap Prod.fst) vs o) s = .ok t x → t = s' := by
  have h0 := (reach_values r).1
  obtain ⟨i1, i2, i3, i4, i5⟩ := feeds_odom hr hal hf ho hp h0
  have hins : insertVals vs s.values = .ok s'.values () := by
    obtain ⟨v', hv'⟩ := insertVals_total (vs := vs) (v := s.values) (fun k hk => by
      obtain ⟨⟨_, x⟩, hx, rfl⟩ := List.mem_map.1 hk
      obtain ⟨p, hp, hx⟩ := (hv _ _).1 hx
      exact i4 p hp _ _ hx) (sorted_nodup hs)
    have : v' = s'.values := by
      refine KMap.Sorted.ext (insertVals_sorted hv' h0) i2 fun k => Option.ext fun x => ?_
      rw [i3, (insertVals_ok hv').1, ← hv]
      cases hk : KMap.has s.values k with
      | true =>
        rw [if_pos rfl]
        refine ⟨Or.inl, fun h => h.resolve_right fun hm => ?_⟩
        have := (insertVals_ok hv').2.1 k (List.mem_map.2 ⟨_, hm, rfl⟩)
        rw [hk] at this; cases this
      | false =>
        rw [if_neg (by simp)]
        have hn : KMap.find? s.values k = none := by
          unfold KMap.has at hk
          cases e : KMap.find? s.values k with
          | none => rfl
          | some _ => rw [e] at hk; cases hk
        rw [hn]
        refine ⟨fun h => Or.inr (KMap.find?_mem h), fun h => ?_⟩
        rcases h with h | h
        · cases h
        · exact KMap.find?_of_mem hs h
    rw [hv', this]
  have hoj : Spec.OnlyOdom cfg vs (parts.flatMap Prod.fst) := by
    refine ⟨?_, ?_⟩
    · unfold Spec.specials
      rw [List.filterMap_eq_nil_iff]
      intro f hf
      obtain ⟨p, hp, hf⟩ := List.mem_flatMap.1 hf
      have := (ho p hp).1
      unfold Spec.specials at this
      exact List.filterMap_eq_nil_iff.1 this f hf
    · intro b hb
      obtain ⟨p, hp, hf⟩ := List.mem_flatMap.1 (mem_btws.1 hb)
      have := (ho p hp).2 b (mem_btws.2 hf)
      simp only [Spec.isOdom, decide_eq_true_eq] at this ⊢
      refine ⟨this.1, this.2.1, this.2.2.1, ?_⟩
      obtain ⟨⟨_, x⟩, hx, e⟩ := List.mem_map.1 this.2.2.2
      exact List.mem_map.2 ⟨(_, x), (hv _ _).2 ⟨p, hp, hx⟩, e⟩
  refine ⟨?_, ?_⟩
  · rw [(exec_odom hr hal hoj (o := false) (s' := s) (x := .unit)).2 _ _ hins i1, ← i5]
  · intro o t x h
    obtain ⟨v1, p1, a1, a2, a3⟩ := (exec_odom hr hal hoj).1 h
    rw [hins] at a1
    cases a1
    rw [i1] at a2
    cases a2
    rw [a3, ← i5]

/-! ### Examples -/

theorem updates_of {cfg : Cfg G T N} {env : Env G N} {s s' : St G T N} {bs : List (Graph G N × Vals G)} (h : Spec.Feeds cfg env s bs s') :
    Spec.Updates cfg env s bs s' := by
  induction h with
  | nil s => exact .nil s
  | cons e _ ih => exact .cons rfl e ih

/-- Run updates without optimization. -/
def feed (cfg : Cfg G T N) (env : Env G N) : List (Graph G N × Vals G) → St G T N → Option (St G T N)
  | [], s => some s
  | b :: bs, s =>
    match exec cfg env (.update b.1 b.2 false) s with
    | .ok s' _ => feed cfg env bs s'
    | _ => none

theorem feed_feeds {cfg : Cfg G T N} {env : Env G N} {bs : List (Graph G N × Vals G)} {s s' : St G T N} (h : feed cfg env bs s = some s') :
    Spec.Feeds cfg env s bs s' := by
  induction bs generalizing s with
  | nil => cases h; exact .nil _
  | cons b bs ih =>
    unfold feed at h
    cases e : exec cfg env (.update b.1 b.2 false) s with
    | ok s1 x => rw [e] at h; exact .cons e (ih h)
    | throw => rw [e] at h; cases h
    | ub => rw [e] at h; cases h

set_option maxRecDepth 100000 in
/-- Three more closures after `h1`, sent together or one by one: `C46_closures` applies, and they are all registered. -/
example : ∃ s a b, ReachOk Demo.cfg Demo.env Demo.h1 s ∧
    Spec.Updates Demo.cfg Demo.env s ([[Demo.edge (Demo.a 1) (Demo.a 3) 2, Demo.edge (Demo.a 0) (Demo.a 2) 2, Demo.edge (Demo.a 3) (Demo.a 0) (-3)]].map fun f => (f, [])) a ∧
    Spec.Updates Demo.cfg Demo.env s ([[Demo.edge (Demo.a 1) (Demo.a 3) 2], [Demo.edge (Demo.a 0) (Demo.a 2) 2], [], [Demo.edge (Demo.a 3) (Demo.a 0) (-3)]].map fun f => (f, [])) b ∧
    (Spec.registered b ⟨97, 97⟩).length = 5 := by
  obtain ⟨s, r, h⟩ := Demo.runs_reach (cfg := Demo.cfg) (env := Demo.env) (ops := Demo.h1)
    (P := fun s =>
      (feed Demo.cfg Demo.env ([[Demo.edge (Demo.a 1) (Demo.a 3) 2, Demo.edge (Demo.a 0) (Demo.a 2) 2, Demo.edge (Demo.a 3) (Demo.a 0) (-3)]].map fun f => (f, [])) s).isSome &&
      match feed Demo.cfg Demo.env ([[Demo.edge (Demo.a 1) (Demo.a 3) 2], [Demo.edge (Demo.a 0) (Demo.a 2) 2], [], [Demo.edge (Demo.a 3) (Demo.a 0) (-3)]].map fun f => (f, [])) s with
      | some b => decide ((Spec.registered b ⟨97, 97⟩).length = 5)
      | none => false) (by decide +kernel)
  rw [Bool.and_eq_true] at h
  obtain ⟨a, ha⟩ := Option.isSome_iff_exists.1 h.1
  have h2 := h.2
  split at h2
  · rename_i b hb
    exact ⟨s, a, b, r, updates_of (feed_feeds ha), updates_of (feed_feeds hb), of_decide_eq_true h2⟩
  · cases h2

set_option maxRecDepth 100000 in
/-- The odometry of `C46_odometry`: two robots, three parts. -/
example : ∃ s', Spec.Feeds Demo.cfg Demo.env St.init
    [([Demo.edge (Demo.a 0) (Demo.a 1) 1], [Demo.pose (Demo.a 0) 0, Demo.pose (Demo.a 1) 1]),
     ([Demo.edge (Demo.b 0) (Demo.b 1) 1, none], [Demo.pose (Demo.b 0) 5, Demo.pose (Demo.b 1) 6]),
     ([Demo.edge (Demo.a 1) (Demo.a 2) 1], [Demo.pose (Demo.a 2) 2])] s' ∧ s'.nfg.length = 3 ∧
    Spec.OnlyOdom Demo.cfg [Demo.pose (Demo.b 0) 5, Demo.pose (Demo.b 1) 6] [Demo.edge (Demo.b 0) (Demo.b 1) 1, none] := by
  have h : ((feed Demo.cfg Demo.env
    [([Demo.edge (Demo.a 0) (Demo.a 1) 1], [Demo.pose (Demo.a 0) 0, Demo.pose (Demo.a 1) 1]),
     ([Demo.edge (Demo.b 0) (Demo.b 1) 1, none], [Demo.pose (Demo.b 0) 5, Demo.pose (Demo.b 1) 6]),
     ([Demo.edge (Demo.a 1) (Demo.a 2) 1], [Demo.pose (Demo.a 2) 2])] St.init).map fun s => s.nfg.length) = some 3 := by decide +kernel
  obtain ⟨s', h1, h2⟩ := Option.map_eq_some_iff.1 h
  exact ⟨s', feed_feeds h1, h2, by decide +kernel, by decide +kernel⟩

end Props
end RPGO
