import Verif.Proofs.Count
/-
Closures are filed under the pair of their robots; ignoring, reviving and prior removal.
-/

namespace RPGO
variable {G T N : Type}

/-- Every closure is filed under the pair of its robots. -/
def Filed (l : List (ObsId × Meas G N)) : Prop :=
  ∀ e ∈ l, ∀ b, b ∈ e.2.factors ∨ b ∈ e.2.cons → (pairOf b).eqv e.1 = true

theorem Filed.table {l l' : List (ObsId × Meas G N)} (h : Filed l) (ht : Table Sel l l') : Filed l' := by
  unfold Table at ht
  induction ht with
  | nil => exact h
  | @cons e e' t t' he _ ih =>
    intro x hx
    rcases List.mem_cons.1 hx with rfl | hx
    · intro b hb
      rw [he.1]
      refine h e (by simp) b ?_
      rcases hb with hb | hb
      · rw [he.2.factors] at hb; exact Or.inl hb
      · rcases he.2.cons with hc | ⟨hc, _⟩
        · rw [hc] at hb; exact Or.inr hb
        · exact Or.inl (hc b hb)
    · exact ih (fun e he => h e (by simp [he])) x hx

theorem Filed.updSome {l : List (ObsId × Meas G N)} {k : ObsId} {m m' : Meas G N} (h : Filed l)
    (hm : AList.get? ObsId.eqv l k = some m) (hr : RemMeas m m') :
    Filed (AList.upd ObsId.eqv Meas.empty l k (fun _ => m')) := by
  intro e he b hb
  rcases AList.mem_upd he with he | ⟨rfl, hn⟩ | ⟨v, hv, _, h2, h3⟩
  · exact h e he b hb
  · rw [hm] at hn; cases hn
  · rw [hm] at hv; cases hv
    have := hr.all (P := fun b => (pairOf b).eqv e.1 = true)
      ⟨fun b hb => h _ h3 b (Or.inl hb), fun b hb => h _ h3 b (Or.inr hb)⟩
    rw [h2] at hb
    exact hb.elim (this.1 b) (this.2 b)

variable [Mul G] [Inv G] [One G]

theorem Filed.reg {cfg : Cfg G T N} {f : Chr → Key → T} {p : Pcm G T N} (h : Filed p.lcs) (b : Btw G N) :
    Filed (regLc cfg f p b).lcs := by
  intro e he x hx
  have hin : ∀ m : Meas G N, x ∈ (growLc cfg f b m).factors ∨ x ∈ (growLc cfg f b m).cons →
      x = b ∨ x ∈ m.factors ∨ x ∈ m.cons := by
    intro m hx
    rcases hx with hx | hx
    · have : x ∈ m.factors ++ [b] := hx
      simp at this
      rcases this with h | h
      · exact Or.inr (Or.inl h)
      · exact Or.inl h
    · exact Or.inr (Or.inr hx)
  rcases AList.mem_upd he with he | ⟨rfl, _⟩ | ⟨v, hv, hk, h2, h3⟩
  · exact h e he x hx
  · rcases hin _ hx with rfl | hx | hx
    · exact ObsId.isEqv.refl _
    · simp [Meas.empty] at hx
    · simp [Meas.empty] at hx
  · rw [h2] at hx
    rcases hin _ hx with rfl | hx | hx
    · rw [ObsId.isEqv.symm]; exact hk
    · exact h _ h3 x (Or.inl hx)
    · exact h _ h3 x (Or.inr hx)

theorem Reach.filed {cfg : Cfg G T N} {env : Env G N} (hr : cfg.rejection = true) {h : List (Op G N)} {s : St G T N}
    (r : Reach cfg env h s) : Filed s.pcm.lcs := by
  refine Reach.induct (Inv := fun _ p => Filed p.lcs) hr (by intro e he; cases he) ?_ r
  intro h s op s' r c ih st
  generalize s'.pcm = q at st
  cases st with
  | other _ he =>
    cases he with
    | same => exact ih
    | priors => exact ih
    | ignore => split <;> exact ih
    | revive => exact ih
    | pair hm hr => exact ih.updSome hm hr
    | pop _ => exact ih
    | last _ hm hr => exact ih.updSome hm hr
  | none _ => exact ih
  | sort hb hi hfs ho hS hx1 hx2 =>
    show Filed _
    rw [hS.lcs]; exact ih
  | cands hb hne hi hS ht hsel hg hro =>
    rename_i fs vs v1 p1 q p2 ro
    refine Filed.table ?_ hsel.lcs
    rw [ht.eq]
    refine parseFold_induct (Inv := fun p => Filed p.lcs) (Spec.cands cfg vs fs) (by rw [hS.lcs]; exact ih)
      (fun p hp b _ _ => hp.reg b) (fun p hp b _ _ => hp)

/-! ### Exact effects -/

theorem exec_ignore {cfg : Cfg G T N} (env : Env G N) (hr : cfg.rejection = true) (c : Chr) (s : St G T N) :
    M.Ends (fun s' => s'.pcm = { s.pcm with ignored :=
        if c ∈ s.pcm.ignored then s.pcm.ignored else s.pcm.ignored ++ [c] } ∧
      s'.nfg = buildGraph env s'.pcm) (exec cfg env (.ignore c) s) := by
  refine ends_ret ?_
  unfold ignorePrefix M.when
  rw [if_pos hr]
  simp only [M.bind_eq]
  refine ends_bind (P := fun s1 => s1.pcm = { s.pcm with ignored :=
      if c ∈ s.pcm.ignored then s.pcm.ignored else s.pcm.ignored ++ [c] } ∧ s1.nfg = buildGraph env s1.pcm)
    ⟨?_, rfl⟩ (fun _ h => h) fun s1 _ _ h => ?_
  · by_cases hc : c ∈ s.pcm.ignored
    · simp [hc]
    · simp [hc]
  exact M.Ends.mono (fun s2 hf => ⟨by rw [hf.pcm]; exact h.1, by rw [hf.nfg, hf.pcm]; exact h.2⟩)
    (optimize_frame cfg env s1)

theorem exec_revive {cfg : Cfg G T N} (env : Env G N) (hr : cfg.rejection = true) (c : Chr) (s : St G T N) :
    M.Ends (fun s' => s'.pcm = { s.pcm with ignored := s.pcm.ignored.filter (fun x => !(x == c)) } ∧
      s'.nfg = buildGraph env s'.pcm) (exec cfg env (.revive c) s) := by
  refine ends_ret ?_
  unfold revivePrefix M.when
  rw [if_pos hr]
  simp only [M.bind_eq]
  refine ends_bind (P := fun s1 => s1.pcm = { s.pcm with ignored := s.pcm.ignored.filter (fun x => !(x == c)) } ∧
      s1.nfg = buildGraph env s1.pcm) ⟨rfl, rfl⟩ (fun _ h => h) fun s1 _ _ h => ?_
  exact M.Ends.mono (fun s2 hf => ⟨by rw [hf.pcm]; exact h.1, by rw [hf.nfg, hf.pcm]; exact h.2⟩)
    (optimize_frame cfg env s1)

theorem exec_removePriors {cfg : Cfg G T N} (env : Env G N) (hr : cfg.rejection = true) (c : Chr) (o : Bool) (s : St G T N) :
    M.Ends (fun s' => s'.pcm = { s.pcm with special := s.pcm.special.filter fun f =>
        match f with
        | .prior k _ => !Spec.prefixHit cfg.charSigned c (chr k)
        | _ => true } ∧
      s'.nfg = buildGraph env s'.pcm) (exec cfg env (.removePriors c o) s) := by
  refine ends_ret ?_
  unfold removePriors M.cond
  rw [if_pos hr]
  simp only [M.bind_eq]
  refine ends_bind (P := fun s1 => s1.pcm = { s.pcm with special := s.pcm.special.filter fun f =>
        match f with
        | .prior k _ => !Spec.prefixHit cfg.charSigned c (chr k)
        | _ => true } ∧
      s1.nfg = buildGraph env s1.pcm) ⟨?_, rfl⟩ (fun _ h => h) fun s1 _ _ h => ?_
  · simp only
    congr 2
    funext f
    cases f <;> simp only [isPriorOf_hit]
  · exact M.Ends.mono (fun s2 hf => ⟨by rw [hf.pcm]; exact h.1, by rw [hf.nfg, hf.pcm]; exact h.2⟩)
      (M.Pres.when OptFrame.refl (optimize_frame cfg env) s1)

/-- Only ignoring and reviving change the ignored prefixes. -/
theorem PcmStep.ignored {cfg : Cfg G T N} {op : Op G N} {s : St G T N} {p' : Pcm G T N} (st : PcmStep cfg op s p')
    (h1 : ∀ c, op ≠ .ignore c) (h2 : ∀ c, op ≠ .revive c) : p'.ignored = s.pcm.ignored := by
  cases st with
  | other _ he =>
    cases he with
    | ignore => exact absurd rfl (h1 _)
    | revive => exact absurd rfl (h2 _)
    | _ => rfl
  | none _ => rfl
  | sort hb hi hfs ho hS hx1 hx2 => exact hS.ignored
  | cands hb hne hi hS ht hsel hg hro =>
    show Pcm.ignored _ = _
    simp only [(processed_frame ht hsel).2.2, hS.ignored]

/-- The graph held is built from closures filed by pair, with the prefixes now ignored left out. -/
theorem Reach.graph_ignored {cfg : Cfg G T N} {env : Env G N} (he : env.Ok) (hr : cfg.rejection = true)
    {h : List (Op G N)} {s : St G T N} (r : Reach cfg env h s) (hm : ∀ op ∈ h, Spec.Managed op) :
    ∃ h' s' p, Reach cfg env h' s' ∧ s'.pcm = p ∧ s.nfg = buildGraph env p ∧ p.ignored = s.pcm.ignored ∧
      h' <+: h := by
  have main : ∀ {h s op s'}, Reach cfg env h s → Spec.Managed op → Spec.Call cfg env op s s' →
      (∃ h' s0 p, Reach cfg env h' s0 ∧ s0.pcm = p ∧ s.nfg = buildGraph env p ∧ p.ignored = s.pcm.ignored ∧ h' <+: h) →
      ∃ h' s0 p, Reach cfg env h' s0 ∧ s0.pcm = p ∧ s'.nfg = buildGraph env p ∧ p.ignored = s'.pcm.ignored ∧
        h' <+: h ++ [op] := by
    rintro h s op s' r hmo c ⟨h', s0, p, r0, hp, hn, hi, hpre⟩
    have r' := r.call c
    have fresh : s'.nfg = buildGraph env s'.pcm → ∃ h' s0 p, Reach cfg env h' s0 ∧ s0.pcm = p ∧
        s'.nfg = buildGraph env p ∧ p.ignored = s'.pcm.ignored ∧ h' <+: h ++ [op] :=
      fun e => ⟨_, s', _, r', rfl, e, rfl, List.prefix_rfl⟩
    have hends : ∀ {P : St G T N → Prop}, M.Ends P (exec cfg env op s) → P s' := by
      intro P hE
      rcases c with ⟨_, e⟩ | ⟨_, e⟩
      · exact hE.of_ok e
      · exact hE.of_throw e
    by_cases h1 : ∃ c, op = .ignore c
    · obtain ⟨x, rfl⟩ := h1
      exact fresh (hends (exec_ignore env hr x s)).2
    by_cases h2 : ∃ c, op = .revive c
    · obtain ⟨x, rfl⟩ := h2
      exact fresh (hends (exec_revive env hr x s)).2
    have hig := (hends (exec_step (env := env) hr op s)).ignored (fun c e => h1 ⟨c, e⟩) (fun c e => h2 ⟨c, e⟩)
    rcases hends (exec_nfg he hr op hmo s) with e | e
    · exact ⟨h', s0, p, r0, hp, by rw [e, hn], by rw [hi, hig], hpre.trans (List.prefix_append _ _)⟩
    · exact fresh e
  induction r with
  | init => exact ⟨[], St.init, _, .init, rfl, (buildGraph_init he).symm, rfl, List.prefix_rfl⟩
  | ok r e ih =>
    exact main r (hm _ (by simp)) (Or.inl ⟨_, e⟩) (ih fun op ho => hm op (by simp [ho]))
  | throw r e ih =>
    exact main r (hm _ (by simp)) (Or.inr ⟨_, e⟩) (ih fun op ho => hm op (by simp [ho]))

end RPGO
