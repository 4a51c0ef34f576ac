import Verif.Proofs.Ops2
/-
One induction principle for the state of the outlier-rejection object over all call histories, exceptions included.
-/

namespace RPGO
variable {G T N : Type} [Mul G] [Inv G] [One G]

/-- How one call, returning normally or throwing, changes the outlier-rejection object. -/
inductive PcmStep (cfg : Cfg G T N) (op : Op G N) (s : St G T N) : Pcm G T N → Prop where
  | other {p'} : Spec.batch op = none → PcmEff cfg op s.pcm p' → PcmStep cfg op s p'
  | none {fs vs} : Spec.batch op = some (fs, vs) → PcmStep cfg op s s.pcm
  | sort {fs vs v1 fs1 b fs2 p1} : Spec.batch op = some (fs, vs) → insertVals vs s.values = .ok v1 () →
      fs = fs1 ++ some (.btw b) :: fs2 → Spec.isOdom cfg vs b = true → Sorted cfg vs v1 fs1 s.pcm p1 →
      hasTraj p1 (chr b.k2) = false → (∀ g, v1.find? b.k1 ≠ some (.pose g)) →
      PcmStep cfg op s { p1 with odom := p1.odom ++ [b] }
  | cands {fs vs v1 p1 q p2 ro} : Spec.batch op = some (fs, vs) → fs ≠ [] → insertVals vs s.values = .ok v1 () →
      Sorted cfg vs v1 fs s.pcm p1 →
      TrajOnly cfg ((Spec.cands cfg vs fs).foldl (parseStep cfg v1 (lk cfg p1)) p1) q → SelPcm q p2 →
      (p2.totalGood ≤ consSum p2.lcs + consSum p2.landmarks ∨ p2.totalGood = p1.totalGood) →
      ro.Perm p2.robotOrder →
      PcmStep cfg op s { p2 with robotOrder := ro }

theorem Sorted.fs_ne {cfg : Cfg G T N} {nv : Vals G} {fs : Graph G N} (h : Spec.cands cfg nv fs ≠ []) : fs ≠ [] := by
  rintro rfl; exact h rfl

theorem BatchDone.step {cfg : Cfg G T N} {env : Env G N} {op : Op G N} {fs : Graph G N} {vs : Vals G} {s s' : St G T N}
    (hb : Spec.batch op = some (fs, vs)) (h : BatchDone cfg env fs vs s s') : PcmStep cfg op s s'.pcm := by
  cases h with
  | empty _ _ hf => rw [hf.pcm]; exact .none hb
  | full hne hi hS h1 h2 ha hf =>
    rename_i v1 p1 p2 s1
    have hp : s'.pcm = { p2 with robotOrder := s1.pcm.robotOrder } := by rw [hf.pcm, ha.eq]
    rw [hp]
    by_cases hc : Spec.cands cfg vs fs = []
    · have := h1 hc
      subst this
      refine .cands hb hne hi hS (q := p2) (p2 := p2) ?_ (SelPcm.refl _) (Or.inr rfl) ha.order
      rw [hc]
      exact TrajOnly.refl _
    · have he := processCands_ends cfg v1 (Spec.cands cfg vs fs) p1
      rw [h2 hc] at he
      obtain ⟨q, hq, hs, hg⟩ := he
      exact .cands hb hne hi hS hq hs (Or.inl hg) ha.order

theorem BatchFail.step {cfg : Cfg G T N} {op : Op G N} {fs : Graph G N} {vs : Vals G} {s s' : St G T N}
    (hb : Spec.batch op = some (fs, vs)) (h : BatchFail cfg fs vs s s') : PcmStep cfg op s s'.pcm := by
  cases h with
  | dup _ => exact .none hb
  | sort a b c d e f => exact .sort hb a b c d e f
  | cands hi hS hc hp =>
    rename_i v1 p1 p2 x
    have he := processCands_ends cfg v1 (Spec.cands cfg vs fs) p1
    rw [hp] at he
    obtain ⟨q, hq, hs, hg⟩ := he
    exact .cands (ro := p2.robotOrder) hb (Sorted.fs_ne hc) hi hS hq hs (Or.inl hg) (List.Perm.refl _)

/-- Every call is a `PcmStep`. -/
theorem exec_step {cfg : Cfg G T N} {env : Env G N} (hr : cfg.rejection = true) (op : Op G N) (s : St G T N) :
    M.Ends (fun s' => PcmStep cfg op s s'.pcm) (exec cfg env op s) := by
  cases hb : Spec.batch op with
  | none => exact M.Ends.mono (fun s' h => .other hb h.pcm) (exec_other cfg env hr op hb s)
  | some x =>
    obtain ⟨fs, vs⟩ := x
    obtain ⟨h1, h2⟩ := exec_batch env hr hb s
    cases he : exec cfg env op s with
    | ub u => trivial
    | ok s' r => exact (h1 s' r he).step hb
    | throw s' x =>
      rcases h2 s' x he with h | h
      · exact h.step hb
      · exact h.step hb

/-- Induction over all histories for a property of the outlier-rejection object. -/
theorem Reach.induct {cfg : Cfg G T N} {env : Env G N} (hr : cfg.rejection = true)
    {Inv : List (Op G N) → Pcm G T N → Prop} (init : Inv [] {})
    (step : ∀ h s op s', Reach cfg env h s → Spec.Call cfg env op s s' → Inv h s.pcm →
      PcmStep cfg op s s'.pcm → Inv (h ++ [op]) s'.pcm)
    {h : List (Op G N)} {s : St G T N} (r : Reach cfg env h s) : Inv h s.pcm := by
  induction r with
  | init => exact init
  | @ok _ s op _ _ r e ih =>
    have := exec_step (env := env) hr op s
    rw [e] at this
    exact step _ _ _ _ r (Or.inl ⟨_, e⟩) ih this
  | @throw _ s op _ _ r e ih =>
    have := exec_step (env := env) hr op s
    rw [e] at this
    exact step _ _ _ _ r (Or.inr ⟨_, e⟩) ih this

/-- The same from an arbitrary start state. -/
theorem Steps.induct {cfg : Cfg G T N} {env : Env G N} (hr : cfg.rejection = true)
    {s0 : St G T N} {Inv : List (Op G N) → Pcm G T N → Prop} (init : Inv [] s0.pcm)
    (step : ∀ h s op s', Spec.Steps cfg env s0 h s → Spec.Call cfg env op s s' → Inv h s.pcm →
      PcmStep cfg op s s'.pcm → Inv (h ++ [op]) s'.pcm)
    {h : List (Op G N)} {s : St G T N} (r : Spec.Steps cfg env s0 h s) : Inv h s.pcm := by
  induction r with
  | nil => exact init
  | @snoc _ s op s' r c ih =>
    have := exec_step (env := env) hr op s
    rcases c with ⟨_, e⟩ | ⟨_, e⟩
    · rw [e] at this
      exact step _ _ _ _ r (Or.inl ⟨_, e⟩) ih this
    · rw [e] at this
      exact step _ _ _ _ r (Or.inr ⟨_, e⟩) ih this

/-- Induction over the registration loop. -/
theorem parseFold_induct {cfg : Cfg G T N} {vals : Vals G} {f : Chr → Key → T} {Inv : Pcm G T N → Prop}
    (bs : List (Btw G N)) {p : Pcm G T N} (hp : Inv p)
    (hlc : ∀ p, Inv p → ∀ b ∈ bs, acceptLc cfg vals f b = true → Inv (regLc cfg f p b))
    (hlm : ∀ p, Inv p → ∀ b ∈ bs, acceptLm cfg vals b = true → Inv (regLm cfg f p b)) :
    Inv (bs.foldl (parseStep cfg vals f) p) := by
  induction bs generalizing p with
  | nil => exact hp
  | cons b bs ih =>
    rw [List.foldl_cons]
    refine ih ?_ (fun p hp b' hb' => hlc p hp b' (by simp [hb'])) (fun p hp b' hb' => hlm p hp b' (by simp [hb']))
    unfold parseStep
    split
    · rename_i h; exact hlc p hp b (by simp) h
    · split
      · rename_i h; exact hlm p hp b (by simp) h
      · exact hp

/-- Induction over filing first observations. -/
theorem fileFirst_induct {cfg : Cfg G T N} {Inv : List (Key × Meas G N) → Prop} (bs : List (Btw G N))
    {l : List (Key × Meas G N)} (hl : Inv l) (h : ∀ l, Inv l → ∀ b ∈ bs, Inv (fileFirst cfg l b)) :
    Inv (bs.foldl (fileFirst cfg) l) := by
  induction bs generalizing l with
  | nil => exact hl
  | cons b bs ih => exact ih (h l hl b (by simp)) (fun l hl b' hb' => h l hl b' (by simp [hb']))

/-- The graph held by a solver is either what the last call left or freshly built. -/
theorem exec_nfg {cfg : Cfg G T N} {env : Env G N} (he : env.Ok) (hr : cfg.rejection = true) (op : Op G N) (hd : Spec.Managed op)
    (s : St G T N) :
    M.Ends (fun s' => s'.nfg = s.nfg ∨ s'.nfg = buildGraph env s'.pcm) (exec cfg env op s) := by
  have hbg : ∀ (p2 : Pcm G T N) ro, buildGraph env { p2 with robotOrder := ro } = buildGraph env p2 := fun _ _ => rfl
  cases hb : Spec.batch op with
  | none =>
    refine M.Ends.mono (fun s' h => h.nfg ?_) (exec_other cfg env hr op hb s)
    cases op <;> simp_all [Direct, Spec.Managed]
  | some x =>
    obtain ⟨fs, vs⟩ := x
    obtain ⟨h1, h2⟩ := exec_batch env hr hb s
    have hdone : ∀ s', BatchDone cfg env fs vs s s' → s'.nfg = s.nfg ∨ s'.nfg = buildGraph env s'.pcm := by
      intro s' h
      cases h with
      | empty _ _ hf => left; rw [hf.nfg]
      | full _ _ _ _ _ ha hf =>
        right
        rw [hf.nfg, hf.pcm, ha.eq]
        rfl
    have hfail : ∀ s', BatchFail cfg fs vs s s' → s'.nfg = s.nfg := by
      intro s' h
      cases h <;> rfl
    cases he : exec cfg env op s with
    | ub u => trivial
    | ok s' r => exact hdone _ (h1 s' r he)
    | throw s' x =>
      rcases h2 s' x he with h | h
      · exact Or.inl (hfail _ h)
      · exact hdone _ h

end RPGO
