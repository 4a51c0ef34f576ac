import Verif.Proofs.Ops
/-
What the calls that carry no batch do, with outlier rejection.
-/

namespace RPGO
variable {G T N : Type}

/-- Effect of removing the last closure of a pair on its entry (`m' = m` if nothing was removed). -/
inductive RemMeas (m : Meas G N) : Meas G N → Prop where
  | same : RemMeas m m
  | few {init last} : m.factors = init ++ [last] → init.length < 2 → RemMeas m ⟨init, init, m.adj⟩
  | many {init last c} : m.factors = init ++ [last] → 2 ≤ init.length → (∀ b ∈ c, b ∈ init) → c.length ≤ m.adj.n - 1 →
      2 ≤ m.adj.n →
      RemMeas m ⟨init, c, ⟨m.adj.n - 1, m.adj.e⟩⟩

theorem getLast?_split {α : Type} {l : List α} {a : α} (h : l.getLast? = some a) : l = l.dropLast ++ [a] := by
  have hne : l ≠ [] := by rintro rfl; simp at h
  rw [List.getLast?_eq_some_getLast hne] at h
  cases h
  exact (List.dropLast_append_getLast hne).symm

theorem removeLastMeas_ends (m : Meas G N) : M.Ends (RemMeas m) (removeLastMeas m) := by
  unfold removeLastMeas
  split
  · exact .same
  · cases hl : m.factors.getLast? with
    | none => exact .same
    | some last =>
      have hs := getLast?_split hl
      simp only
      split
      · rename_i h
        exact .few hs h
      · rename_i h
        have hm := measInliers_spec { m with factors := m.factors.dropLast, adj := ⟨m.adj.n - 1, m.adj.e⟩ }
        rcases hm with ⟨_, e⟩ | ⟨hpos, k, idx, _, hb, ⟨m1, e, rfl, h2, _⟩ | ⟨c, e, h1, h2, _⟩⟩
        · simp only [e]; trivial
        · simp only [e]
          refine RemMeas.many hs (by omega) (fun b hb => mem_atIdx hb) ?_ (by simp only at hpos; omega)
          have := hb.le
          simp only at h2 this
          omega
        · simp only [e]
          refine RemMeas.many hs (by omega) h1 ?_ (by simp only at hpos; omega)
          have := hb.le
          simp only at this
          omega

theorem removeLastMeas_none {m m' : Meas G N} (h : removeLastMeas m = .ok m' none) : m' = m := by
  unfold removeLastMeas at h
  split at h
  · cases h; rfl
  · split at h
    · cases h
    · simp only at h
      split at h
      · cases h
      · split at h <;> cases h

/-- Effect on the outlier-rejection object of a call without batch. -/
inductive PcmEff (cfg : Cfg G T N) : Op G N → Pcm G T N → Pcm G T N → Prop where
  | same {op p} : PcmEff cfg op p p
  | priors {c o p} : PcmEff cfg (.removePriors c o) p
      { p with special := p.special.filter fun f =>
          match f with
          | .prior k _ => !isPriorOf cfg.charSigned c k
          | _ => true }
  | ignore {c p} : PcmEff cfg (.ignore c) p (if p.ignored.contains c then p else { p with ignored := p.ignored ++ [c] })
  | revive {c p} : PcmEff cfg (.revive c) p { p with ignored := p.ignored.filter (fun x => !(x == c)) }
  | pair {a b p m m'} : AList.get? ObsId.eqv p.lcs ⟨a, b⟩ = some m → RemMeas m m' →
      PcmEff cfg (.removeLastPair a b) p (updLc p ⟨a, b⟩ fun _ => m')
  | pop {p id} : p.inOrder.getLast? = some id → PcmEff cfg .removeLast p { p with inOrder := p.inOrder.dropLast }
  | last {p id m m'} : p.inOrder.getLast? = some id → AList.get? ObsId.eqv p.lcs id = some m → RemMeas m m' →
      PcmEff cfg .removeLast p (updLc { p with inOrder := p.inOrder.dropLast } id fun _ => m')

section
variable [Mul G] [Inv G] [One G]

/-- Removal for a pair, as an equation. -/
theorem removeLastOfPair_eq (env : Env G N) (id : ObsId) (s : St G T N) :
    removeLastOfPair env id s =
      match AList.get? ObsId.eqv s.pcm.lcs id with
      | none => .ok s none
      | some m =>
        match removeLastMeas m with
        | .ok m' none => .ok { s with pcm := updLc s.pcm id fun _ => m' } none
        | .ok m' (some e) =>
          .ok { s with pcm := updLc s.pcm id fun _ => m', nfg := buildGraph env (updLc s.pcm id fun _ => m') } (some e)
        | .throw m' x => .throw { s with pcm := updLc s.pcm id fun _ => m' } x
        | .ub u => .ub u := by
  unfold removeLastOfPair
  simp only [M.bind_eq]
  rw [M.bind_ok (M.get_apply _)]
  cases hg : AList.get? ObsId.eqv s.pcm.lcs id with
  | none => rfl
  | some m =>
    simp only
    have hz : (onPcm (M.zoom (fun p => lcOf p id) (fun m p => updLc p id (fun _ => m)) removeLastMeas) : M (St G T N) EdgePtr) s =
        match removeLastMeas m with
        | .ok m' e => .ok { s with pcm := updLc s.pcm id fun _ => m' } e
        | .throw m' x => .throw { s with pcm := updLc s.pcm id fun _ => m' } x
        | .ub u => .ub u := by
      rw [onPcm_apply]
      unfold M.zoom
      simp only [lcOf_of_get? hg]
      cases removeLastMeas m <;> rfl
    cases hm : removeLastMeas m with
    | ub u => rw [M.bind_apply, hz]; simp only [hm]
    | throw m' x => rw [M.bind_apply, hz]; simp only [hm]
    | ok m' e =>
      rw [M.bind_apply, hz]
      simp only [hm]
      cases e <;> rfl

/-- Calls that write the factor graph directly. -/
def Direct : Op G N → Prop
  | .removeFactors _ => True
  | .removeLastFactor => True
  | .removePriorsGeneric _ => True
  | .genericUpdate _ _ _ => True
  | _ => False

/-- Calls that change the temporary factors or values. -/
def TempOp : Op G N → Prop
  | .tempUpdate _ _ => True
  | .tempReplace _ _ => True
  | .tempClear => True
  | _ => False

/-- Frame of a call without batch. -/
structure OtherFrame (cfg : Cfg G T N) (env : Env G N) (op : Op G N) (s s' : St G T N) : Prop where
  pcm : PcmEff cfg op s.pcm s'.pcm
  nfg : ¬ Direct op → s'.nfg = s.nfg ∨ s'.nfg = buildGraph env s'.pcm
  values : (∀ fs vs rm, op ≠ .genericUpdate fs vs rm) → KeysSame s.values s'.values
  tempNfg : ¬ TempOp op → s'.tempNfg = s.tempNfg
  temp : ¬ TempOp op → KeysSame s.tempValues s'.tempValues

theorem OtherFrame.refl (cfg : Cfg G T N) (env : Env G N) (op : Op G N) (s : St G T N) : OtherFrame cfg env op s s :=
  ⟨.same, fun _ => Or.inl rfl, fun _ => .refl _, fun _ => rfl, fun _ => .refl _⟩

theorem OtherFrame.opt {cfg : Cfg G T N} {env : Env G N} {op : Op G N} {s s1 s2 : St G T N}
    (h : OtherFrame cfg env op s s1) (hf : OptFrame s1 s2) : OtherFrame cfg env op s s2 := by
  refine ⟨by rw [hf.pcm]; exact h.pcm, fun hd => ?_, fun hv => (h.values hv).trans hf.values, fun ht => ?_,
    fun ht => (h.temp ht).trans hf.temp⟩
  · rw [hf.nfg, hf.pcm]; exact h.nfg hd
  · rw [hf.tempNfg]; exact h.tempNfg ht

theorem ends_bind {σ α β : Type} {P Q : σ → Prop} {m : M σ α} {f : α → M σ β} {s : σ} (hm : M.Ends P (m s))
    (hx : ∀ s', P s' → Q s') (hf : ∀ s' a, m s = .ok s' a → P s' → M.Ends Q (f a s')) : M.Ends Q (M.bind m f s) := by
  rw [M.bind_apply]
  cases e : m s with
  | ok s' a => rw [e] at hm; exact hf s' a e hm
  | throw s' x => rw [e] at hm; exact hx s' hm
  | ub u => trivial

theorem ends_ret {σ α β : Type} {P : σ → Prop} {m : M σ α} {f : α → β} {s : σ} (hm : M.Ends P (m s)) :
    M.Ends P (m.ret f s) := ends_bind hm (fun _ h => h) (fun _ _ _ h => h)

theorem then_opt {α : Type} {cfg : Cfg G T N} {env : Env G N} {op : Op G N} {s : St G T N} {m : M (St G T N) α}
    (hm : M.Ends (OtherFrame cfg env op s) (m s)) {β : Type} {f : α → M (St G T N) β} (hf : ∀ a, M.Pres OptFrame (f a)) :
    M.Ends (OtherFrame cfg env op s) (M.bind m f s) :=
  ends_bind hm (fun _ h => h) fun s' a _ h => M.Ends.mono (fun _ hf => h.opt hf) (hf a s')

theorem removeLastOfPair_frame {cfg : Cfg G T N} {env : Env G N} {op : Op G N} {id : ObsId} {s : St G T N}
    (hsame : PcmEff cfg op s.pcm s.pcm)
    (hp : ∀ m m', AList.get? ObsId.eqv s.pcm.lcs id = some m → RemMeas m m' →
      PcmEff cfg op s.pcm (updLc s.pcm id fun _ => m')) :
    M.Ends (OtherFrame cfg env op s) (removeLastOfPair env id s) := by
  rw [removeLastOfPair_eq]
  cases hg : AList.get? ObsId.eqv s.pcm.lcs id with
  | none => exact OtherFrame.refl _ _ _ _
  | some m =>
    have hr := removeLastMeas_ends m
    simp only
    cases hm : removeLastMeas m with
    | ub u => trivial
    | throw m' x =>
      rw [hm] at hr
      exact ⟨hp m m' hg hr, fun _ => Or.inl rfl, fun _ => .refl _, fun _ => rfl, fun _ => .refl _⟩
    | ok m' e =>
      rw [hm] at hr
      cases e with
      | none => exact ⟨hp m m' hg hr, fun _ => Or.inl rfl, fun _ => .refl _, fun _ => rfl, fun _ => .refl _⟩
      | some e => exact ⟨hp m m' hg hr, fun _ => Or.inr rfl, fun _ => .refl _, fun _ => rfl, fun _ => .refl _⟩

theorem removeLastPcm_eq (env : Env G N) (s : St G T N) :
    removeLastPcm env s =
      match s.pcm.inOrder.getLast? with
      | none => .ok s none
      | some id => removeLastOfPair env id { s with pcm := { s.pcm with inOrder := s.pcm.inOrder.dropLast } } := by
  unfold removeLastPcm
  simp only [M.bind_eq]
  rw [M.bind_ok (M.get_apply _)]
  cases s.pcm.inOrder.getLast? with
  | none => rfl
  | some id => rfl

theorem removeLastPcm_frame (cfg : Cfg G T N) (env : Env G N) (s : St G T N) :
    M.Ends (OtherFrame cfg env .removeLast s) (removeLastPcm env s) := by
  rw [removeLastPcm_eq]
  cases hl : s.pcm.inOrder.getLast? with
  | none => exact OtherFrame.refl _ _ _ _
  | some id =>
    simp only
    rw [removeLastOfPair_eq]
    simp only
    cases hg : AList.get? ObsId.eqv s.pcm.lcs id with
    | none => exact ⟨.pop hl, fun _ => Or.inl rfl, fun _ => .refl _, fun _ => rfl, fun _ => .refl _⟩
    | some m =>
      have hr := removeLastMeas_ends m
      simp only
      cases hm : removeLastMeas m with
      | ub u => trivial
      | throw m' x =>
        rw [hm] at hr
        exact ⟨.last hl hg hr, fun _ => Or.inl rfl, fun _ => .refl _, fun _ => rfl, fun _ => .refl _⟩
      | ok m' e =>
        rw [hm] at hr
        cases e with
        | none => exact ⟨.last hl hg hr, fun _ => Or.inl rfl, fun _ => .refl _, fun _ => rfl, fun _ => .refl _⟩
        | some e => exact ⟨.last hl hg hr, fun _ => Or.inr rfl, fun _ => .refl _, fun _ => rfl, fun _ => .refl _⟩

theorem removeFactors_pres (is : List Nat) :
    M.Pres (fun s s' : St G T N => s' = { s with nfg := s'.nfg }) (removeFactors is) := by
  induction is with
  | nil => intro s; rfl
  | cons i is ih =>
    intro s
    unfold removeFactors
    split
    · refine M.Ends.mono (fun s' h => ?_) (ih _)
      rw [h]
    · exact rfl

/-- Effect of a call without batch on everything but the factor graph edits of the generic interface. -/
theorem exec_other (cfg : Cfg G T N) (env : Env G N) (hr : cfg.rejection = true) (op : Op G N)
    (hb : Spec.batch op = none) (s : St G T N) : M.Ends (OtherFrame cfg env op s) (exec cfg env op s) := by
  cases op with
  | update fs vs o => cases hb
  | forceUpdate fs vs => cases hb
  | removePriors c o =>
    refine ends_ret ?_
    unfold removePriors M.cond
    rw [if_pos hr]
    refine then_opt ?_ (fun _ => M.Pres.when OptFrame.refl (optimize_frame cfg env))
    exact ⟨.priors, fun _ => Or.inr rfl, fun _ => .refl _, fun _ => rfl, fun _ => .refl _⟩
  | removeLastPair a b =>
    refine ends_ret ?_
    unfold removeLastLC2 M.cond
    rw [if_pos hr]
    refine then_opt ?_ (fun _ => M.Pres.bind OptFrame.trans (optimize_frame cfg env) fun _ => M.Pres.pure OptFrame.refl _)
    exact removeLastOfPair_frame .same fun m m' h1 h2 => .pair h1 h2
  | removeLast =>
    refine ends_ret ?_
    unfold removeLastLC M.cond
    rw [if_pos hr]
    exact then_opt (removeLastPcm_frame cfg env s)
      (fun _ => M.Pres.bind OptFrame.trans (optimize_frame cfg env) fun _ => M.Pres.pure OptFrame.refl _)
  | ignore c =>
    refine ends_ret ?_
    unfold ignorePrefix M.when
    rw [if_pos hr]
    refine then_opt ?_ (fun _ => optimize_frame cfg env)
    exact ⟨.ignore, fun _ => Or.inr rfl, fun _ => .refl _, fun _ => rfl, fun _ => .refl _⟩
  | revive c =>
    refine ends_ret ?_
    unfold revivePrefix M.when
    rw [if_pos hr]
    refine then_opt ?_ (fun _ => optimize_frame cfg env)
    exact ⟨.revive, fun _ => Or.inr rfl, fun _ => .refl _, fun _ => rfl, fun _ => .refl _⟩
  | getNumLC =>
    refine ends_ret ?_
    unfold getNumLC; rw [if_pos hr]; exact OtherFrame.refl _ _ _ _
  | getNumLCInliers =>
    refine ends_ret ?_
    unfold getNumLCInliers
    split
    · exact OtherFrame.refl _ _ _ _
    · exact OtherFrame.refl _ _ _ _
  | saveData =>
    refine ends_ret ?_
    unfold saveData; split <;> exact OtherFrame.refl _ _ _ _
  | removeFactors is =>
    refine ends_ret (M.Ends.mono (fun s' h => ?_) (removeFactors_pres is s))
    rw [h]
    exact ⟨.same, fun hd => absurd trivial hd, fun _ => .refl _, fun _ => rfl, fun _ => .refl _⟩
  | removeLastFactor =>
    refine ends_ret ?_
    unfold removeLastFactor
    split
    · exact OtherFrame.refl _ _ _ _
    · trivial
    · split
      · exact ⟨.same, fun hd => absurd trivial hd, fun _ => .refl _, fun _ => rfl, fun _ => .refl _⟩
      · trivial
  | removePriorsGeneric c =>
    exact ⟨.same, fun hd => absurd trivial hd, fun _ => .refl _, fun _ => rfl, fun _ => .refl _⟩
  | updateValues vs =>
    refine ends_ret (M.Ends.mono (fun s' h => ?_) (applyResult_frame vs s))
    exact (OtherFrame.refl _ _ _ _).opt h
  | genericUpdate fs vs rm =>
    refine ends_ret ?_
    have hv : ∀ {P : Prop}, ((∀ fs' vs' rm', (Op.genericUpdate fs vs rm : Op G N) ≠ .genericUpdate fs' vs' rm') → P) :=
      fun h => absurd rfl (h fs vs rm)
    have base : ∀ s' : St G T N, s'.pcm = s.pcm → s'.tempNfg = s.tempNfg → KeysSame s.tempValues s'.tempValues →
        OtherFrame cfg env (.genericUpdate fs vs rm) s s' := by
      intro s' h1 h2 h3
      exact ⟨by rw [h1]; exact .same, fun hd => absurd trivial hd, hv, fun _ => h2, fun _ => h3⟩
    unfold genericUpdate
    simp only [M.bind_eq]
    refine ends_bind (P := OtherFrame cfg env (.genericUpdate fs vs rm) s) ?_ (fun _ h => h) ?_
    · refine M.Ends.mono (fun s' h => ?_) (removeFactors_pres rm s)
      rw [h]; exact base _ rfl rfl (.refl _)
    · intro s1 _ _ h1
      have h1t := h1.temp (fun h => h)
      have h1n := h1.tempNfg (fun h => h)
      have h1p : s1.pcm = s.pcm := by
        have := h1.pcm
        generalize s1.pcm = q at this
        cases this; rfl
      refine ends_bind (P := OtherFrame cfg env (.genericUpdate fs vs rm) s) ?_ (fun _ h => h) ?_
      · unfold addAndCheck
        simp only [M.bind_eq]
        rw [M.bind_ok (M.modify_apply _ _)]
        refine ends_bind (P := OtherFrame cfg env (.genericUpdate fs vs rm) s) ?_ (fun _ h => h) ?_
        · unfold onValues M.zoom
          cases insertVals vs s1.values with
          | ub u => trivial
          | ok v _ => exact base _ h1p h1n h1t
          | throw v _ => exact base _ h1p h1n h1t
        · intro s2 _ _ h2
          split
          · exact h2
          · trivial
          · exact h2
          · exact h2
      · intro s2 lc _ h2
        have h2t := h2.temp (fun h => h)
        have h2n := h2.tempNfg (fun h => h)
        have h2p : s2.pcm = s.pcm := by
          have := h2.pcm
          generalize s2.pcm = q at this
          cases this; rfl
        split
        · rw [M.bind_ok (M.get_apply _)]
          cases mergeVals s2.values s2.tempValues with
          | none => exact h2
          | some full =>
            simp only
            cases env.opt (s2.nfg ++ s2.tempNfg) full with
            | none => exact h2
            | some r => exact M.Ends.mono (fun s' h => h2.opt h) (applyResult_frame _ s2)
        · exact h2
  | tempUpdate fs vs =>
    have base : ∀ s' : St G T N, s'.pcm = s.pcm → s'.nfg = s.nfg → s'.values = s.values →
        OtherFrame cfg env (.tempUpdate fs vs) s s' := by
      intro s' h1 h2 h3
      exact ⟨by rw [h1]; exact .same, fun _ => Or.inl h2, fun _ => by rw [h3]; exact .refl _,
        fun h => absurd trivial h, fun h => absurd trivial h⟩
    show M.Ends (OtherFrame cfg env (.tempUpdate fs vs) s)
      (((M.zoom (fun s => s.tempValues) (fun v s => { s with tempValues := v }) (insertVals vs) : M (St G T N) Unit).ret
        fun _ => Ret.unit) { s with tempNfg := s.tempNfg ++ fs })
    refine ends_ret ?_
    unfold M.zoom
    simp only
    cases insertVals vs s.tempValues with
    | ub u => trivial
    | ok v _ => exact base _ rfl rfl rfl
    | throw v _ => exact base _ rfl rfl rfl
  | tempReplace fs vs =>
    exact ⟨.same, fun _ => Or.inl rfl, fun _ => .refl _, fun h => absurd trivial h, fun h => absurd trivial h⟩
  | tempClear =>
    exact ⟨.same, fun _ => Or.inl rfl, fun _ => .refl _, fun h => absurd trivial h, fun h => absurd trivial h⟩

end

end RPGO
