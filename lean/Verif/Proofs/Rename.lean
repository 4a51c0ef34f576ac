import Verif.Spec.Rename
import Verif.Proofs.Frame
import Verif.Proofs.Align
import Verif.Proofs.Progress
import Verif.Props.Estimate
/-
The model commutes with renaming.
-/

namespace RPGO
open Spec
variable {G T N V : Type} {π : Naming} {ow : Key → Chr} {al : Bool}

/-! ### Keys -/

theorem symKey_toNat (c : Chr) (i : BitVec 56) : (symKey c i).toNat = c.toNat * 2 ^ 56 + i.toNat := by
  unfold symKey
  rw [BitVec.toNat_append, Nat.shiftLeft_eq]
  have : i.toNat < 2 ^ 56 := i.isLt
  rw [Nat.mul_comm, ← Nat.two_pow_add_eq_or_of_lt this]

theorem chr_toNat (k : Key) : (chr k).toNat = k.toNat / 2 ^ 56 := by
  unfold chr
  rw [BitVec.extractLsb'_toNat, Nat.shiftRight_eq_div_pow]
  have : k.toNat < 2 ^ 64 := k.isLt
  rw [Nat.mod_eq_of_lt]
  omega

theorem index_toNat (k : Key) : (index k).toNat = k.toNat % 2 ^ 56 := by
  unfold index
  rw [BitVec.extractLsb'_toNat, Nat.shiftRight_zero]

theorem chr_symKey (c : Chr) (i : BitVec 56) : chr (symKey c i) = c := by
  apply BitVec.eq_of_toNat_eq
  rw [chr_toNat, symKey_toNat]
  have : i.toNat < 2 ^ 56 := i.isLt
  omega

theorem index_symKey (c : Chr) (i : BitVec 56) : index (symKey c i) = i := by
  apply BitVec.eq_of_toNat_eq
  rw [index_toNat, symKey_toNat]
  have : i.toNat < 2 ^ 56 := i.isLt
  omega

theorem key_ext {k k' : Key} (h1 : chr k = chr k') (h2 : index k = index k') : k = k' := by
  apply BitVec.eq_of_toNat_eq
  have a := congrArg BitVec.toNat h1
  have b := congrArg BitVec.toNat h2
  rw [chr_toNat, chr_toNat] at a
  rw [index_toNat, index_toNat] at b
  omega

theorem chr_reKey (k : Key) : chr (reKey π k) = π (chr k) := chr_symKey _ _
theorem index_reKey (k : Key) : index (reKey π k) = π.nums (chr k) (index k) := index_symKey _ _

theorem reKey_inj {k k' : Key} : reKey π k = reKey π k' ↔ k = k' := by
  refine ⟨fun h => ?_, fun h => by rw [h]⟩
  have h1 := congrArg chr h
  have h2 := congrArg index h
  rw [chr_reKey, chr_reKey] at h1
  rw [index_reKey, index_reKey, π.chrs.injective h1] at h2
  exact key_ext (π.chrs.injective h1) ((π.nums _).injective h2)

theorem reKey_surj (k : Key) : ∃ k', reKey π k' = k := by
  refine ⟨symKey (π.chrs.symm (chr k)) ((π.nums (π.chrs.symm (chr k))).symm (index k)), key_ext ?_ ?_⟩
  · rw [chr_reKey, chr_symKey, Equiv.apply_symm_apply]
  · rw [index_reKey, index_symKey, chr_symKey, Equiv.apply_symm_apply]

theorem reKey_next {a b : Key} (h : reKey π (a + 1) = reKey π a + 1) : reKey π a + 1 = reKey π b ↔ a + 1 = b := by
  rw [← h, reKey_inj]

/-! ### Maps -/

theorem reMap_sorted (m : KMap V) : (reMap π m).Sorted := by
  unfold reMap
  induction m with
  | nil => exact List.Pairwise.nil
  | cons e t ih => exact KMap.Sorted.set ih _ _

theorem reMap_find (m : KMap V) (k : Key) : (reMap π m).find? (reKey π k) = m.find? k := by
  induction m with
  | nil => rfl
  | cons e t ih =>
    obtain ⟨k0, v0⟩ := e
    show (KMap.set (reMap π t) (reKey π k0) v0).find? _ = _
    rw [KMap.find?_set, ih, KMap.find?_cons]
    simp only [reKey_inj]

theorem reMap_ext {m m' : KMap V} (hs : m'.Sorted) (h : ∀ k, m'.find? (reKey π k) = m.find? k) : m' = reMap π m := by
  refine KMap.Sorted.ext hs (reMap_sorted m) fun k => ?_
  obtain ⟨k, rfl⟩ := reKey_surj (π := π) k
  rw [h, reMap_find]

theorem reMap_set (m : KMap V) (k : Key) (v : V) : reMap π (m.set k v) = (reMap π m).set (reKey π k) v := by
  refine (reMap_ext ((reMap_sorted m).set _ _) fun k' => ?_).symm
  rw [KMap.find?_set, KMap.find?_set, reMap_find]
  simp only [reKey_inj]

theorem reMap_has (m : KMap V) (k : Key) : (reMap π m).has (reKey π k) = m.has k := by
  unfold KMap.has; rw [reMap_find]

theorem reMap_nil : reMap π ([] : KMap V) = [] := rfl

/-! ### States -/

theorem reId_eqv (a b : ObsId) : ObsId.eqv (reId π a) (reId π b) = ObsId.eqv a b := by
  unfold ObsId.eqv reId
  simp only [EmbeddingLike.apply_eq_iff_eq]

/-- The renamed state of the outlier-rejection object. -/
def rePcm (π : Naming) (p : Pcm G T N) : Pcm G T N where
  odom := p.odom.map (reBtw π)
  special := p.special.map (reFactor π)
  lcs := p.lcs.map fun e => (reId π e.1, reMeas π e.2)
  trajs := p.trajs.map fun e => (π e.1, reMap π e.2)
  landmarks := p.landmarks.map fun e => (reKey π e.1, reMeas π e.2)
  inOrder := p.inOrder.map (reId π)
  totalLc := p.totalLc
  totalGood := p.totalGood
  ignored := p.ignored.map π
  robotOrder := p.robotOrder.map π

/-- The renamed state of the solver. -/
def reSt (π : Naming) (s : St G T N) : St G T N :=
  { s with
    values := reMap π s.values
    nfg := reGraph π s.nfg
    tempValues := reMap π s.tempValues
    tempNfg := reGraph π s.tempNfg
    pcm := rePcm π s.pcm }

theorem alist_get {κ κ' W W' : Type} {eq : κ → κ → Bool} {eq' : κ' → κ' → Bool} {f : κ → κ'} {g : W → W'}
    (h : ∀ a b, eq' (f a) (f b) = eq a b) (l : List (κ × W)) (k : κ) :
    AList.get? eq' (l.map fun e => (f e.1, g e.2)) (f k) = (AList.get? eq l k).map g := by
  induction l with
  | nil => rfl
  | cons e t ih =>
    obtain ⟨k0, v0⟩ := e
    show (if eq' (f k0) (f k) then _ else _) = Option.map g (if eq k0 k then _ else _)
    rw [h]
    split
    · rfl
    · exact ih

theorem alist_upd {κ κ' W W' : Type} {eq : κ → κ → Bool} {eq' : κ' → κ' → Bool} {f : κ → κ'} {g : W → W'}
    (h : ∀ a b, eq' (f a) (f b) = eq a b) {d : W} {d' : W'} (hd : g d = d') (l : List (κ × W)) (k : κ) {u : W → W} {u' : W' → W'}
    (hu : ∀ w, g (u w) = u' (g w)) :
    AList.upd eq' d' (l.map fun e => (f e.1, g e.2)) (f k) u' = (AList.upd eq d l k u).map fun e => (f e.1, g e.2) := by
  induction l with
  | nil =>
    show [(f k, u' d')] = [(f k, g (u d))]
    rw [hu, hd]
  | cons e t ih =>
    obtain ⟨k0, v0⟩ := e
    show (if eq' (f k0) (f k) then _ else _) = List.map _ (if eq k0 k then _ else _)
    rw [h]
    split
    · rw [List.map_cons, hu]
    · rw [List.map_cons]; exact congrArg _ ih

theorem beq_chr (a b : Chr) : (π a == π b) = (a == b) := by
  rw [Bool.eq_iff_iff, beq_iff_eq, beq_iff_eq, EmbeddingLike.apply_eq_iff_eq]

theorem beq_key (a b : Key) : (reKey π a == reKey π b) = (a == b) := by
  rw [Bool.eq_iff_iff, beq_iff_eq, beq_iff_eq, reKey_inj]

theorem trajOf_re (p : Pcm G T N) (c : Chr) : trajOf (rePcm π p) (π c) = reMap π (trajOf p c) := by
  unfold trajOf
  show ((AList.get? (· == ·) (p.trajs.map fun e => (π e.1, reMap π e.2)) (π c))).getD [] = _
  rw [alist_get (eq := (· == ·)) beq_chr]
  cases AList.get? (· == ·) p.trajs c <;> rfl

theorem setTraj_re (p : Pcm G T N) (c : Chr) (tr : KMap T) : rePcm π (setTraj p c tr) = setTraj (rePcm π p) (π c) (reMap π tr) := by
  unfold setTraj
  have := alist_upd (eq := (· == ·)) (eq' := (· == ·)) (f := (π : Chr → Chr)) (g := reMap π) beq_chr (d := ([] : KMap T)) rfl p.trajs c
    (u := fun _ => tr) (u' := fun _ => reMap π tr) (fun _ => rfl)
  exact congrArg (fun t => { rePcm π p with trajs := t }) this.symm

theorem reMeas_empty : reMeas π (Meas.empty : Meas G N) = Meas.empty := rfl

theorem lcOf_re (p : Pcm G T N) (id : ObsId) : lcOf (rePcm π p) (reId π id) = reMeas π (lcOf p id) := by
  unfold lcOf
  show ((AList.get? ObsId.eqv (p.lcs.map fun e => (reId π e.1, reMeas π e.2)) (reId π id))).getD _ = _
  rw [alist_get (eq := ObsId.eqv) reId_eqv]
  cases AList.get? ObsId.eqv p.lcs id <;> rfl

theorem lmOf_re (p : Pcm G T N) (k : Key) : lmOf (rePcm π p) (reKey π k) = reMeas π (lmOf p k) := by
  unfold lmOf
  show ((AList.get? (· == ·) (p.landmarks.map fun e => (reKey π e.1, reMeas π e.2)) (reKey π k))).getD _ = _
  rw [alist_get (eq := (· == ·)) beq_key]
  cases AList.get? (· == ·) p.landmarks k <;> rfl

theorem updLc_re (p : Pcm G T N) (id : ObsId) {f f' : Meas G N → Meas G N} (h : ∀ m, reMeas π (f m) = f' (reMeas π m)) :
    rePcm π (updLc p id f) = updLc (rePcm π p) (reId π id) f' := by
  have := alist_upd (eq := ObsId.eqv) (eq' := ObsId.eqv) (reId_eqv (π := π)) (reMeas_empty (π := π)) p.lcs id h
  exact congrArg (fun t => { rePcm π p with lcs := t }) this.symm

theorem updLm_re (p : Pcm G T N) (k : Key) {f f' : Meas G N → Meas G N} (h : ∀ m, reMeas π (f m) = f' (reMeas π m)) :
    rePcm π (updLm p k f) = updLm (rePcm π p) (reKey π k) f' := by
  have := alist_upd (eq := (· == ·)) (eq' := (· == ·)) (beq_key (π := π)) (reMeas_empty (π := π)) p.landmarks k h
  exact congrArg (fun t => { rePcm π p with landmarks := t }) this.symm

theorem isSpecial_re (cfg : Cfg G T N) (c : Chr) : (reCfg π cfg).isSpecial (π c) = cfg.isSpecial c := by
  unfold Cfg.isSpecial reCfg
  simp only [List.any_map, Function.comp_def, beq_chr]

/-! ### Procedures -/

/-- An outcome and its mirror image. After an exception nothing is said about the state;
with frame alignment (`al`) it may be another exception. -/
def MirrorOut {σ α β : Type} (al : Bool) (P : σ → Prop) (rs : σ → σ) (ra : α → β) : Out σ α → Out σ β → Prop
  | .ok t a, o => P t ∧ o = .ok (rs t) (ra a)
  | .throw _ e, o => ∃ t e', o = .throw t e' ∧ (al = false → e' = e)
  | .ub u, o => o = .ub u

/-- `m'` is the mirror image of `m`. -/
def Mirror {σ α β : Type} (al : Bool) (P : σ → Prop) (rs : σ → σ) (ra : α → β) (m : M σ α) (m' : M σ β) : Prop :=
  ∀ s, P s → MirrorOut al P rs ra (m s) (m' (rs s))

namespace Mirror
variable {σ α β γ δ : Type} {P : σ → Prop} {rs : σ → σ} {ra : α → β} {rb : γ → δ}

theorem pure {a : α} {b : β} (h : b = ra a) : Mirror al P rs ra (M.pure a) (M.pure b) := fun _ hp => ⟨hp, by rw [h]; rfl⟩
theorem raise (e : Exn) : Mirror al P rs ra (M.raise e) (M.raise e) := fun s _ => ⟨rs s, e, rfl, fun _ => rfl⟩
theorem undef (u : UB) : Mirror al P rs ra (M.undef u) (M.undef u) := fun _ _ => rfl

theorem bind {m : M σ α} {m' : M σ β} {f : α → M σ γ} {f' : β → M σ δ} (h : Mirror al P rs ra m m')
    (hf : ∀ a, Mirror al P rs rb (f a) (f' (ra a))) : Mirror al P rs rb (m.bind f) (m'.bind f') := by
  intro s hp
  have := h s hp
  rw [M.bind_apply, M.bind_apply]
  cases e : m s with
  | ok t a => rw [e] at this; obtain ⟨h1, h2⟩ := this; rw [h2]; exact hf a t h1
  | throw t x => rw [e] at this; obtain ⟨t', e', h2, h3⟩ := this; rw [h2]; exact ⟨t', e', rfl, h3⟩
  | ub u => rw [e] at this; rw [show m' (rs s) = _ from this]; rfl

/-- As `bind`, where the second procedure may use what the first has returned. -/
theorem bindAt {m : M σ α} {m' : M σ β} {f : α → M σ γ} {f' : β → M σ δ} (h : Mirror al P rs ra m m')
    (hf : ∀ s t a, P s → m s = .ok t a → Mirror al P rs rb (f a) (f' (ra a))) : Mirror al P rs rb (m.bind f) (m'.bind f') := by
  intro s hp
  have := h s hp
  rw [M.bind_apply, M.bind_apply]
  cases e : m s with
  | ok t a => rw [e] at this; obtain ⟨h1, h2⟩ := this; rw [h2]; exact hf s t a hp e t h1
  | throw t x => rw [e] at this; obtain ⟨t', e', h2, h3⟩ := this; rw [h2]; exact ⟨t', e', rfl, h3⟩
  | ub u => rw [e] at this; rw [show m' (rs s) = _ from this]; rfl

theorem modify {f f' : σ → σ} {g : Unit → Unit} (hp : ∀ s, P s → P (f s)) (h : ∀ s, P s → f' (rs s) = rs (f s)) :
    Mirror al P rs g (M.modify f) (M.modify f') := fun s hs => ⟨hp s hs, by unfold M.modify; rw [h s hs]⟩

theorem cond {m1 m2 : M σ α} {m1' m2' : M σ β} (c : Bool) (h1 : Mirror al P rs ra m1 m1') (h2 : Mirror al P rs ra m2 m2') :
    Mirror al P rs ra (M.cond c m1 m2) (M.cond c m1' m2') := by
  cases c
  · exact h2
  · exact h1

theorem when {m m' : M σ Unit} (c : Bool) (h : Mirror al P rs id m m') : Mirror al P rs id (M.when c m) (M.when c m') := by
  cases c
  · exact pure rfl
  · exact h

theorem ite {c c' : Prop} [Decidable c] [Decidable c'] (hc : c' ↔ c) {m1 m2 : M σ α} {m1' m2' : M σ β} (h1 : Mirror al P rs ra m1 m1')
    (h2 : Mirror al P rs ra m2 m2') : Mirror al P rs ra (if c then m1 else m2) (if c' then m1' else m2') := by
  by_cases h : c
  · rw [if_pos h, if_pos (hc.2 h)]; exact h1
  · rw [if_neg h, if_neg (fun t => h (hc.1 t))]; exact h2

theorem get {f : σ → M σ α} {f' : σ → M σ β} (h : ∀ s, P s → Mirror al P rs ra (f s) (f' (rs s))) :
    Mirror al P rs ra (M.get.bind f) (M.get.bind f') := fun s hp => h s hp s hp

theorem forEach {κ κ' : Type} {f : κ → M σ Unit} {f' : κ' → M σ Unit} {r : κ → κ'} (h : ∀ a, Mirror al P rs id (f a) (f' (r a))) (l : List κ) :
    Mirror al P rs id (M.forEach f l) (M.forEach f' (l.map r)) := by
  induction l with
  | nil => exact pure rfl
  | cons a l ih => exact bind (h a) fun _ => ih

theorem zoom {τ : Type} {Q : τ → Prop} {rt : τ → τ} {g : σ → τ} {u : τ → σ → σ} {g' : σ → τ} {u' : τ → σ → σ} {m : M τ α} {m' : M τ β}
    (h : Mirror al Q rt ra m m') (hg : ∀ s, P s → Q (g s) ∧ g' (rs s) = rt (g s))
    (hu : ∀ s t, P s → Q t → P (u t s) ∧ u' (rt t) (rs s) = rs (u t s)) :
    Mirror al P rs ra (M.zoom g u m) (M.zoom g' u' m') := by
  intro s hp
  obtain ⟨q1, q2⟩ := hg s hp
  have := h (g s) q1
  unfold M.zoom
  rw [q2]
  cases e : m (g s) with
  | ok t a =>
    rw [e] at this
    obtain ⟨h1, h2⟩ := this
    rw [h2]
    exact ⟨(hu s t hp h1).1, by rw [← (hu s t hp h1).2]⟩
  | throw t x =>
    rw [e] at this
    obtain ⟨t', e', h2, h3⟩ := this
    rw [h2]
    exact ⟨_, e', rfl, h3⟩
  | ub b => rw [e] at this; rw [show m' (rt (g s)) = _ from this]; rfl

end Mirror

/-! ### Trajectories -/

theorem look_re (ops : Ops G T N) (tr : KMap T) (k : Key) : look ops (reMap π tr) (reKey π k) = look ops tr k := by
  unfold look; rw [reMap_find]

theorem touch_re (ops : Ops G T N) (tr : KMap T) (k : Key) : touch ops (reMap π tr) (reKey π k) = reMap π (touch ops tr k) := by
  unfold touch
  rw [reMap_find]
  cases tr.find? k with
  | some _ => rfl
  | none => exact (reMap_set _ _ _).symm

theorem rootKey_eq (c : Chr) : rootKey c = symKey c 0 := by
  apply BitVec.eq_of_toNat_eq
  rw [symKey_toNat]
  unfold rootKey
  rw [BitVec.toNat_shiftLeft, BitVec.toNat_setWidth, Nat.shiftLeft_eq]
  have : c.toNat < 2 ^ 8 := c.isLt
  simp
  omega

theorem reKey_root (h : π.Roots) (c : Chr) : reKey π (rootKey c) = rootKey (π c) := by
  rw [rootKey_eq, rootKey_eq]
  exact key_ext (by rw [chr_reKey, chr_symKey, chr_symKey]) (by rw [index_reKey, index_symKey, index_symKey, chr_symKey, h])

theorem getBetween_re (ops : Ops G T N) (tr : KMap T) {a b : Key} (h : π.Roots ∨ chr a = chr b) :
    getBetween ops (reMap π tr) (reKey π a) (reKey π b) = (reMap π (getBetween ops tr a b).1, (getBetween ops tr a b).2) := by
  unfold getBetween
  rcases h with h | h
  · simp only [chr_reKey, EmbeddingLike.apply_eq_iff_eq, ← reKey_root h, look_re, touch_re]
    split <;> rfl
  · simp only [chr_reKey, EmbeddingLike.apply_eq_iff_eq, if_pos h, look_re, touch_re]

/-- The closures `m` are filed under the pair `i`. -/
def PairOk (i : ObsId) (m : Meas G N) : Prop := ∀ x ∈ m.factors, ObsId.eqv ⟨chr x.k1, chr x.k2⟩ i = true

/-- The observations `m` of landmark `l` are made by `ow l`. -/
def LmOk (ow : Key → Chr) (l : Key) (m : Meas G N) : Prop := ∀ x ∈ m.factors, x.k1 ≠ l → chr x.k1 = ow l

/-- Number 0 stays number 0, or the closures are filed under their pairs and each landmark has one observer. -/
def FineM (π : Naming) (ow : Key → Chr) (p : Pcm G T N) : Prop :=
  π.Roots ∨ (∀ e ∈ p.lcs, PairOk e.1 e.2) ∧ ∀ e ∈ p.landmarks, LmOk ow e.1 e.2

theorem PairOk.congr {i j : ObsId} {m : Meas G N} (h : PairOk i m) (hij : ObsId.eqv i j = true) : PairOk j m :=
  fun x hx => ObsId.isEqv.trans _ _ _ (h x hx) hij

theorem FineM.updLc {p : Pcm G T N} (h : FineM π ow p) {i : ObsId} {f : Meas G N → Meas G N} (hf : ∀ m, PairOk i m → PairOk i (f m)) :
    FineM π ow (updLc p i f) := by
  rcases h with h | ⟨h1, h2⟩
  · exact Or.inl h
  refine Or.inr ⟨fun e he => ?_, h2⟩
  rcases AList.mem_upd he with he | ⟨rfl, _⟩ | ⟨v, _, hk, h2, h3⟩
  · exact h1 e he
  · exact hf _ (by intro x hx; cases hx)
  · rw [h2]
    exact (hf v ((h1 _ h3).congr hk)).congr (ObsId.isEqv.symm _ _ hk)

theorem FineM.updLm {p : Pcm G T N} (h : FineM π ow p) {l : Key} {f : Meas G N → Meas G N} (hf : π.Roots ∨ ∀ m, LmOk ow l m → LmOk ow l (f m)) :
    FineM π ow (updLm p l f) := by
  rcases h with h | ⟨h1, h2⟩
  · exact Or.inl h
  rcases hf with hf | hf
  · exact Or.inl hf
  refine Or.inr ⟨h1, fun e he => ?_⟩
  rcases AList.mem_upd he with he | ⟨rfl, _⟩ | ⟨v, _, hk, h4, h3⟩
  · exact h2 e he
  · exact hf _ (by intro x hx; cases hx)
  · rw [h4]
    have hk' : e.1 = l := by simpa using hk
    have := h2 _ h3
    rw [hk'] at this ⊢
    exact hf v this

theorem FineM.lcOf {p : Pcm G T N} (h : FineM π ow p) (i : ObsId) : π.Roots ∨ PairOk i (lcOf p i) := by
  rcases h with h | ⟨h1, _⟩
  · exact Or.inl h
  refine Or.inr ?_
  unfold RPGO.lcOf
  cases hg : AList.get? ObsId.eqv p.lcs i with
  | none => intro x hx; cases hx
  | some m =>
    obtain ⟨j, hj, hm⟩ := AList.get?_mem hg
    exact (h1 _ hm).congr hj

theorem FineM.lmOf {p : Pcm G T N} (h : FineM π ow p) (l : Key) : π.Roots ∨ LmOk ow l (lmOf p l) := by
  rcases h with h | ⟨_, h1⟩
  · exact Or.inl h
  refine Or.inr ?_
  unfold RPGO.lmOf
  cases hg : AList.get? (· == ·) p.landmarks l with
  | none => intro x hx; cases hx
  | some m =>
    obtain ⟨j, hj, hm⟩ := AList.get?_mem hg
    have : j = l := by simpa using hj
    have := h1 _ hm
    subst j
    exact this

theorem FineM.sel {p p' : Pcm G T N} (h : FineM π ow p) (hs : SelPcm p p') : FineM π ow p' := by
  rcases h with h | ⟨h1, h2⟩
  · exact Or.inl h
  exact Or.inr ⟨tab (P := PairOk) h1 hs.lcs fun _ _ _ e hm x hx => hm x (e ▸ hx), tab (P := LmOk ow) h2 hs.landmarks fun _ _ _ e hm x hx => hm x (e ▸ hx)⟩
where
  tab {κ : Type} {P : κ → Meas G N → Prop} {l l' : List (κ × Meas G N)} (h : ∀ e ∈ l, P e.1 e.2) (ht : Table Sel l l')
      (hP : ∀ k m m', m'.factors = m.factors → P k m → P k m') : ∀ e ∈ l', P e.1 e.2 := by
    unfold Table at ht
    induction ht with
    | nil => exact h
    | cons he _ ih =>
      intro x hx
      rcases List.mem_cons.1 hx with rfl | hx
      · have := h _ List.mem_cons_self
        rw [← he.1] at this
        exact hP _ _ _ he.2.factors this
      · exact ih (fun e he => h e (List.mem_cons_of_mem _ he)) x hx

/-- In addition, the trajectories are maps. -/
def Fine (π : Naming) (ow : Key → Chr) (p : Pcm G T N) : Prop := (∀ e ∈ p.trajs, KMap.Sorted e.2) ∧ FineM π ow p

theorem Fine.updLc {p : Pcm G T N} (h : Fine π ow p) {i : ObsId} {f : Meas G N → Meas G N} (hf : π.Roots ∨ ∀ m, PairOk i m → PairOk i (f m)) :
    Fine π ow (updLc p i f) := ⟨h.1, by rcases hf with hf | hf; exact Or.inl hf; exact h.2.updLc hf⟩

theorem Fine.updLm {p : Pcm G T N} (h : Fine π ow p) {l : Key} {f : Meas G N → Meas G N} (hf : π.Roots ∨ ∀ m, LmOk ow l m → LmOk ow l (f m)) :
    Fine π ow (updLm p l f) := ⟨h.1, h.2.updLm hf⟩

theorem Fine.lcOf {p : Pcm G T N} (h : Fine π ow p) (i : ObsId) : π.Roots ∨ PairOk i (lcOf p i) := h.2.lcOf i

theorem Fine.lmOf {p : Pcm G T N} (h : Fine π ow p) (l : Key) : π.Roots ∨ LmOk ow l (lmOf p l) := h.2.lmOf l

theorem Fine.sel {p p' : Pcm G T N} (h : Fine π ow p) (hs : SelPcm p p') : Fine π ow p' :=
  ⟨by rw [hs.eq]; exact h.1, h.2.sel hs⟩

theorem Fine.traj {p : Pcm G T N} (h : Fine π ow p) (c : Chr) : (trajOf p c).Sorted := by
  unfold trajOf
  cases hg : AList.get? (· == ·) p.trajs c with
  | none => exact List.Pairwise.nil
  | some tr =>
    obtain ⟨j, _, hm⟩ := AList.get?_mem hg
    exact h.1 _ hm

theorem Fine.setTraj {p : Pcm G T N} (h : Fine π ow p) (c : Chr) {tr : KMap T} (ht : tr.Sorted) : Fine π ow (setTraj p c tr) := by
  refine ⟨fun e he => ?_, h.2⟩
  rcases AList.mem_upd he with he | ⟨rfl, _⟩ | ⟨v, _, _, h2, _⟩
  · exact h.1 e he
  · exact ht
  · rw [h2]; exact ht

/-- Mirror images of procedures of the outlier-rejection object. -/
abbrev MP (al : Bool) (π : Naming) (ow : Key → Chr) {α β : Type} (ra : α → β) (m : M (Pcm G T N) α) (m' : M (Pcm G T N) β) : Prop :=
  Mirror al (Fine π ow) (rePcm π) ra m m'

theorem modify_re {f f' : Pcm G T N → Pcm G T N} (hf : ∀ p, Fine π ow p → Fine π ow (f p)) (h : ∀ p, f' (rePcm π p) = rePcm π (f p)) :
    MP al π ow id (M.modify f) (M.modify f') :=
  Mirror.modify hf fun s _ => h s

/-- Of procedures for which the state does not matter. -/
abbrev MP0 (al : Bool) (π : Naming) {α β : Type} (ra : α → β) (m : M (Pcm G T N) α) (m' : M (Pcm G T N) β) : Prop :=
  Mirror al (fun _ => True) (rePcm π) ra m m'

theorem modify_re0 {f f' : Pcm G T N → Pcm G T N} (h : ∀ p, f' (rePcm π p) = rePcm π (f p)) : MP0 al π id (M.modify f) (M.modify f') :=
  Mirror.modify (fun _ _ => trivial) fun s _ => h s

theorem Mirror.strong {σ α β : Type} {P : σ → Prop} {rs : σ → σ} {ra : α → β} {m : M σ α} {m' : M σ β} (h : Mirror al (fun _ => True) rs ra m m')
    (hp : ∀ s t a, P s → m s = .ok t a → P t) : Mirror al P rs ra m m' := by
  intro s hs
  have := h s trivial
  cases e : m s with
  | ok t a => rw [e] at this; exact ⟨hp s t a hs e, this.2⟩
  | throw t x => rw [e] at this; exact this
  | ub u => rw [e] at this; exact this

theorem trajBetween_re (cfg : Cfg G T N) (c : Chr) {a b : Key} (h : π.Roots ∨ chr a = chr b) :
    MP al π ow id (trajBetween cfg c a b) (trajBetween (reCfg π cfg) (π c) (reKey π a) (reKey π b)) := by
  intro p hp
  refine ⟨hp.setTraj c (getBetween_sorted _ _ _ (hp.traj c)), ?_⟩
  unfold trajBetween
  show Out.ok (setTraj (rePcm π p) (π c) (getBetween cfg.ops (trajOf (rePcm π p) (π c)) (reKey π a) (reKey π b)).1)
    (getBetween cfg.ops (trajOf (rePcm π p) (π c)) (reKey π a) (reKey π b)).2 = _
  rw [trajOf_re, getBetween_re _ _ h, setTraj_re]
  rfl

theorem toT_re (cfg : Cfg G T N) (b : Btw G N) : MP al π ow id (toT cfg b) (toT (reCfg π cfg) (reBtw π b)) := by
  unfold toT
  show MP al π ow id _ (match b.noise with | none => _ | some n => _)
  cases b.noise with
  | none => exact Mirror.undef _
  | some n => exact Mirror.pure rfl

theorem updateOdom_re (cfg : Cfg G T N) (vals : Vals G) (b : Btw G N) :
    MP al π ow id (updateOdom cfg vals b) (updateOdom (reCfg π cfg) (reMap π vals) (reBtw π b)) := by
  unfold updateOdom
  refine Mirror.bind (modify_re (fun _ h => h) fun p => ?_) fun _ => ?_
  · show ({ rePcm π p with odom := p.odom.map (reBtw π) ++ [reBtw π b] } : Pcm G T N) = { rePcm π p with odom := (p.odom ++ [b]).map (reBtw π) }
    rw [List.map_append]; rfl
  refine Mirror.bind (toT_re cfg b) fun delta => ?_
  refine Mirror.get fun p _ => ?_
  have last : MP al π ow id
      (M.modify fun p : Pcm G T N => setTraj p (chr b.k2) ((touch cfg.ops (trajOf p (chr b.k2)) b.k1).set b.k2
        (cfg.ops.compose (look cfg.ops (touch cfg.ops (trajOf p (chr b.k2)) b.k1) b.k1) delta)))
      (M.modify fun p : Pcm G T N => setTraj p (chr (reBtw π b).k2) ((touch cfg.ops (trajOf p (chr (reBtw π b).k2)) (reBtw π b).k1).set (reBtw π b).k2
        (cfg.ops.compose (look cfg.ops (touch cfg.ops (trajOf p (chr (reBtw π b).k2)) (reBtw π b).k1) (reBtw π b).k1) delta))) := by
    refine modify_re (fun q hq => hq.setTraj _ ((touch_sorted _ _ (hq.traj _)).set _ _)) fun q => ?_
    show setTraj (rePcm π q) (chr (reKey π b.k2)) ((touch cfg.ops (trajOf (rePcm π q) (chr (reKey π b.k2))) (reKey π b.k1)).set (reKey π b.k2)
        (cfg.ops.compose (look cfg.ops (touch cfg.ops (trajOf (rePcm π q) (chr (reKey π b.k2))) (reKey π b.k1)) (reKey π b.k1)) delta)) = _
    rw [chr_reKey, trajOf_re, touch_re, look_re, ← reMap_set, setTraj_re]
  have hc : chr (reBtw π b).k2 = π (chr b.k2) := chr_reKey _
  have hg : AList.get? (· == ·) (rePcm π p).trajs (chr (reBtw π b).k2) = (AList.get? (· == ·) p.trajs (chr b.k2)).map (reMap π) := by
    rw [hc]
    exact alist_get (eq := (· == ·)) beq_chr _ _
  have hv : (reMap π vals).find? (reBtw π b).k1 = vals.find? b.k1 := reMap_find _ _
  dsimp only
  rw [hg]
  cases AList.get? (· == ·) p.trajs (chr b.k2) with
  | some _ => exact Mirror.bind (ra := id) (Mirror.pure rfl) fun _ => last
  | none =>
    dsimp only [Option.map_none]
    rw [hv]
    cases vals.find? b.k1 with
    | none => exact Mirror.bind (ra := id) (Mirror.raise _) fun _ => last
    | some v =>
      cases v with
      | other _ => exact Mirror.bind (ra := id) (Mirror.raise _) fun _ => last
      | pose g =>
        refine Mirror.bind (ra := id) (modify_re (fun q hq => hq.setTraj _ (List.pairwise_singleton _ _)) fun q => ?_) fun _ => last
        have e := setTraj_re (π := π) q (chr b.k2) [(b.k1, cfg.ops.ofPose g)]
        show ({ setTraj (rePcm π q) (chr (reKey π b.k2)) [(reKey π b.k1, cfg.ops.ofPose g)] with
          robotOrder := (rePcm π q).robotOrder ++ [chr (reKey π b.k2)] } : Pcm G T N) = _
        rw [chr_reKey]
        show ({ setTraj (rePcm π q) (π (chr b.k2)) (reMap π [(b.k1, cfg.ops.ofPose g)]) with
          robotOrder := (rePcm π q).robotOrder ++ [π (chr b.k2)] } : Pcm G T N) = _
        rw [← e]
        show ({ rePcm π (setTraj q (chr b.k2) [(b.k1, cfg.ops.ofPose g)]) with robotOrder := q.robotOrder.map π ++ [π (chr b.k2)] } : Pcm G T N) =
          { rePcm π (setTraj q (chr b.k2) [(b.k1, cfg.ops.ofPose g)]) with robotOrder := (q.robotOrder ++ [chr b.k2]).map π }
        rw [List.map_append]; rfl

theorem isOdomConsistent_re (cfg : Cfg G T N) (b : Btw G N) :
    chr b.k1 = chr b.k2 → MP al π ow id (isOdomConsistent cfg b) (isOdomConsistent (reCfg π cfg) (reBtw π b)) := by
  intro hb
  unfold isOdomConsistent
  refine Mirror.ite Iff.rfl (Mirror.pure rfl) ?_
  have h := trajBetween_re (al := al) (π := π) (ow := ow) cfg (chr b.k1) (a := b.k1) (b := b.k2) (Or.inr hb)
  rw [← chr_reKey] at h
  refine Mirror.bind h fun x => ?_
  refine Mirror.bind (toT_re cfg b) fun y => ?_
  exact Mirror.pure rfl

theorem areLoopsConsistent_re (cfg : Cfg G T N) {x y : Btw G N}
    (h : π.Roots ∨ ObsId.eqv ⟨chr x.k1, chr x.k2⟩ ⟨chr y.k1, chr y.k2⟩ = true) :
    MP al π ow id (areLoopsConsistent cfg x y) (areLoopsConsistent (reCfg π cfg) (reBtw π x) (reBtw π y)) := by
  unfold areLoopsConsistent
  refine Mirror.ite Iff.rfl (Mirror.pure rfl) ?_
  refine Mirror.bind (toT_re cfg x) fun ab => ?_
  refine Mirror.bind (toT_re cfg y) fun cd => ?_
  have sw : ∀ u v : Key, (if chr (reBtw π x).k1 ≠ chr (reBtw π y).k1 then reKey π u else reKey π v) =
      reKey π (if chr x.k1 ≠ chr y.k1 then u else v) := by
    intro u v
    show (if chr (reKey π x.k1) ≠ chr (reKey π y.k1) then reKey π u else reKey π v) = _
    rw [chr_reKey, chr_reKey, apply_ite (reKey π)]
    simp only [ne_eq, EmbeddingLike.apply_eq_iff_eq]
  have e1 : π.Roots ∨ chr x.k1 = chr (if chr x.k1 ≠ chr y.k1 then y.k2 else y.k1) := by
    refine h.imp id fun h => ?_
    rcases (ObsId.eqv_iff _ _).1 h with ⟨h1, h2⟩ | ⟨h1, h2⟩
    · rw [if_neg (not_not.2 h1)]; exact h1
    · by_cases hc : chr x.k1 = chr y.k1
      · rw [if_neg (not_not.2 hc)]; exact hc
      · rw [if_pos hc]; exact h2
  have e2 : π.Roots ∨ chr x.k2 = chr (if chr x.k1 ≠ chr y.k1 then y.k1 else y.k2) := by
    refine h.imp id fun h => ?_
    rcases (ObsId.eqv_iff _ _).1 h with ⟨h1, h2⟩ | ⟨h1, h2⟩
    · rw [if_neg (not_not.2 h1)]; exact h2
    · dsimp only at h1 h2
      by_cases hc : chr x.k1 = chr y.k1
      · rw [if_neg (not_not.2 hc), h1, ← h2, hc]
      · rw [if_pos hc]; exact h1
  have h1 := trajBetween_re (al := al) (π := π) (ow := ow) cfg (chr x.k1) e1
  have h2 := trajBetween_re (al := al) (π := π) (ow := ow) cfg (chr x.k2) e2
  rw [← chr_reKey, ← sw] at h1 h2
  refine Mirror.bind h1 fun ac => ?_
  refine Mirror.bind h2 fun bd => ?_
  exact Mirror.pure rfl

theorem pairVerdicts_re (cfg : Cfg G T N) (y : Btw G N) (xs : List (Btw G N))
    (h : π.Roots ∨ ∀ x ∈ xs, ObsId.eqv ⟨chr x.k1, chr x.k2⟩ ⟨chr y.k1, chr y.k2⟩ = true) :
    MP al π ow id (pairVerdicts cfg y xs) (pairVerdicts (reCfg π cfg) (reBtw π y) (xs.map (reBtw π))) := by
  induction xs with
  | nil => exact Mirror.pure rfl
  | cons x xs ih =>
    refine Mirror.bind (areLoopsConsistent_re cfg (h.imp id fun h => h x List.mem_cons_self)) fun v => ?_
    refine Mirror.bind (ih (h.imp id fun h z hz => h z (List.mem_cons_of_mem _ hz))) fun vs => ?_
    exact Mirror.pure rfl

theorem incrementAdj_re (cfg : Cfg G T N) (y : Btw G N) {id' : ObsId} (hid : id' = ⟨chr y.k1, chr y.k2⟩) :
    MP al π ow id (incrementAdj cfg id' y) (incrementAdj (reCfg π cfg) (reId π id') (reBtw π y)) := by
  unfold incrementAdj
  refine Mirror.get fun p hp => ?_
  dsimp only
  rw [lcOf_re]
  have hl : (reMeas π (lcOf p id')).factors.length = (lcOf p id').factors.length := List.length_map ..
  have ha : (reMeas π (lcOf p id')).adj = (lcOf p id').adj := rfl
  rw [hl, ha]
  refine Mirror.ite Iff.rfl (modify_re (fun _ h => h.updLc (Or.inr fun _ hm => hm)) fun q => by symm; exact updLc_re q id' fun m => rfl) ?_
  refine Mirror.ite Iff.rfl (Mirror.undef _) ?_
  have ht : (reMeas π (lcOf p id')).factors.take ((lcOf p id').factors.length - 1) =
      ((lcOf p id').factors.take ((lcOf p id').factors.length - 1)).map (reBtw π) := (List.map_take ..).symm
  rw [ht]
  refine Mirror.bind (pairVerdicts_re cfg y _ ((hp.lcOf id').imp id fun h x hx => hid ▸ h x (List.mem_of_mem_take hx))) fun vs => ?_
  exact modify_re (fun _ h => h.updLc (Or.inr fun _ hm => hm)) fun q => by symm; exact updLc_re q id' fun m => rfl

theorem landmarkVerdicts_re (cfg : Cfg G T N) (l : Key) (y : Btw G N) (xs : List (Btw G N))
    (h : π.Roots ∨ (y.k1 ≠ l → chr y.k1 = ow l) ∧ ∀ x ∈ xs, x.k1 ≠ l → chr x.k1 = ow l) :
    MP al π ow id (landmarkVerdicts cfg l y xs) (landmarkVerdicts (reCfg π cfg) (reKey π l) (reBtw π y) (xs.map (reBtw π))) := by
  induction xs with
  | nil => exact Mirror.pure rfl
  | cons x xs ih =>
    rw [List.map_cons]
    unfold landmarkVerdicts
    have hk : ((reBtw π x).k1 = reKey π l ∨ (reBtw π y).k1 = reKey π l) ↔ (x.k1 = l ∨ y.k1 = l) := or_congr reKey_inj reKey_inj
    by_cases hxy : x.k1 = l ∨ y.k1 = l
    · rw [if_pos hxy, if_pos (hk.2 hxy)]
      exact Mirror.pure rfl
    rw [if_neg hxy, if_neg (fun t => hxy (hk.1 t))]
    obtain ⟨hx, hy⟩ := not_or.1 hxy
    refine Mirror.bind (toT_re cfg x) fun il => ?_
    refine Mirror.bind (toT_re cfg y) fun jl => ?_
    have h' := trajBetween_re (al := al) (π := π) (ow := ow) cfg (chr x.k1) (a := x.k1) (b := y.k1)
      (h.imp id fun h => (h.2 x List.mem_cons_self hx).trans (h.1 hy).symm)
    rw [← chr_reKey] at h'
    refine Mirror.bind h' fun ij => ?_
    refine Mirror.bind (ih (h.imp id fun h => ⟨h.1, fun z hz => h.2 z (List.mem_cons_of_mem _ hz)⟩)) fun vs => ?_
    exact Mirror.pure rfl

theorem incrementLandmarkAdj_re (cfg : Cfg G T N) (l : Key) :
    MP al π ow id (incrementLandmarkAdj cfg l) (incrementLandmarkAdj (reCfg π cfg) (reKey π l)) := by
  unfold incrementLandmarkAdj
  refine Mirror.get fun p hp => ?_
  dsimp only
  rw [lmOf_re]
  have hl : (reMeas π (lmOf p l)).factors.length = (lmOf p l).factors.length := List.length_map ..
  have ha : (reMeas π (lmOf p l)).adj = (lmOf p l).adj := rfl
  have hg : (reMeas π (lmOf p l)).factors.getLast? = (lmOf p l).factors.getLast?.map (reBtw π) := List.getLast?_map ..
  rw [hl, ha, hg]
  cases hlast : (lmOf p l).factors.getLast? with
  | none => exact modify_re (fun _ h => h.updLm (Or.inr fun _ hm => hm)) fun q => by symm; exact updLm_re q l fun m => rfl
  | some y =>
    dsimp only [Option.map_some]
    refine Mirror.ite Iff.rfl (modify_re (fun _ h => h.updLm (Or.inr fun _ hm => hm)) fun q => by symm; exact updLm_re q l fun m => rfl) ?_
    refine Mirror.ite Iff.rfl (Mirror.undef _) ?_
    have ht : (reMeas π (lmOf p l)).factors.take ((lmOf p l).factors.length - 1) =
        ((lmOf p l).factors.take ((lmOf p l).factors.length - 1)).map (reBtw π) := (List.map_take ..).symm
    rw [ht]
    refine Mirror.bind (landmarkVerdicts_re cfg l y _ ((hp.lmOf l).imp id fun h =>
      ⟨h y (List.mem_of_getLast? hlast), fun x hx => h x (List.mem_of_mem_take hx)⟩)) fun r => ?_
    cases r with
    | none => exact Mirror.pure rfl
    | some vs => exact modify_re (fun _ h => h.updLm (Or.inr fun _ hm => hm)) fun q => by symm; exact updLm_re q l fun m => rfl

/-! ### Selection -/

/-- Outcomes in which also the state after an exception is the mirror image. -/
def reOut {σ τ α : Type} (f : σ → τ) : Out σ α → Out τ α
  | .ok s a => .ok (f s) a
  | .throw s e => .throw (f s) e
  | .ub u => .ub u

theorem pick_re (fs : List (Btw G N)) (n : Nat) (idx : List Nat) (acc : List (Btw G N)) :
    pick (fs.map (reBtw π)) n idx (acc.map (reBtw π)) = reOut (List.map (reBtw π)) (pick fs n idx acc) := by
  induction idx generalizing acc with
  | nil =>
    unfold pick
    rw [List.length_map]
    split <;> rfl
  | cons i is ih =>
    unfold pick
    rw [List.length_map, List.getElem?_map]
    split
    · rfl
    · cases fs[i]? with
      | none => rfl
      | some f =>
        dsimp only [Option.map_some]
        rw [← ih, List.map_append]
        rfl

theorem measInliers_re (m : Meas G N) : measInliers (reMeas π m) = reOut (reMeas π) (measInliers m) := by
  unfold measInliers
  show (match findMaxCliqueHeu m.adj [] with | none => _ | some (k, idx) => _) = _
  cases findMaxCliqueHeu m.adj [] with
  | none => rfl
  | some r =>
    obtain ⟨k, idx⟩ := r
    dsimp only
    have := pick_re (π := π) m.factors (if k < 0 then 2 ^ 64 - k.natAbs else k.toNat) idx []
    rw [show pick (reMeas π m).factors _ idx [] = _ from this]
    cases pick m.factors (if k < 0 then 2 ^ 64 - k.natAbs else k.toNat) idx [] <;> rfl

theorem lcInliers_re (cfg : Cfg G T N) (m : Meas G N) : lcInliers (reCfg π cfg) (reMeas π m) = reOut (reMeas π) (lcInliers cfg m) := by
  unfold lcInliers
  show (if cfg.loopCheck then _ else _) = _
  split
  · exact measInliers_re m
  · show Out.ok _ (m.factors.map (reBtw π)).length = _
    rw [List.length_map]; rfl

theorem incInliers_re (n : Nat) (m : Meas G N) : incInliers n (reMeas π m) = reOut (reMeas π) (incInliers n m) := by
  unfold incInliers
  show (match findMaxCliqueHeuIncremental m.adj n (m.cons.map (reBtw π)).length [] with | none => _ | some (k, idx) => _) = _
  rw [List.length_map]
  cases findMaxCliqueHeuIncremental m.adj n m.cons.length [] with
  | none => rfl
  | some r =>
    obtain ⟨k, idx⟩ := r
    dsimp only
    split
    · have := pick_re (π := π) m.factors k idx []
      rw [show pick (reMeas π m).factors k idx [] = _ from this]
      cases pick m.factors k idx [] <;> rfl
    · rfl

theorem inlierPass_re {κ κ' : Type} (rk : κ → κ') {f f' : Meas G N → Out (Meas G N) Nat} (hf : ∀ m, f' (reMeas π m) = reOut (reMeas π) (f m))
    (l : List (κ × Meas G N)) (g : Nat) :
    inlierPass f' (l.map fun e => (rk e.1, reMeas π e.2)) g =
      reOut (fun r => (r.1.map (fun e => (rk e.1, reMeas π e.2)), r.2)) (inlierPass f l g) := by
  induction l generalizing g with
  | nil => rfl
  | cons e t ih =>
    obtain ⟨k, m⟩ := e
    rw [List.map_cons]
    unfold inlierPass
    dsimp only
    rw [hf]
    cases f m with
    | ub u => rfl
    | throw m' x => rfl
    | ok m' n =>
      dsimp only [reOut]
      rw [ih]
      cases inlierPass f t (g + n) with
      | ub u => rfl
      | throw r x => obtain ⟨t', g'⟩ := r; rfl
      | ok r x => obtain ⟨t', g'⟩ := r; rfl

theorem reOut_mirror {σ α : Type} {P : σ → Prop} {rs : σ → σ} {m m' : M σ α} (h : ∀ s, m' (rs s) = reOut rs (m s)) (hp : ∀ s, P s) :
    Mirror al P rs id m m' := by
  intro s _
  rw [h]
  cases m s with
  | ok t a => exact ⟨hp t, rfl⟩
  | throw t e => exact ⟨_, _, rfl, fun _ => rfl⟩
  | ub u => rfl

theorem lcPass_re (cfg : Cfg G T N) : MP0 al π id (lcPass cfg) (lcPass (reCfg π cfg)) := by
  unfold lcPass
  refine Mirror.zoom (Q := fun _ => True) (rt := fun r => (r.1.map (fun e => (reId π e.1, reMeas π e.2)), r.2))
    (reOut_mirror (fun r => ?_) fun _ => trivial) (fun s _ => ⟨trivial, rfl⟩) (fun s t _ _ => ⟨trivial, rfl⟩)
  exact inlierPass_re (reId π) (lcInliers_re cfg) r.1 r.2

theorem lmPass_re : MP0 al π id (lmPass : M (Pcm G T N) Unit) lmPass := by
  unfold lmPass
  refine Mirror.zoom (Q := fun _ => True) (rt := fun r => (r.1.map (fun e => (reKey π e.1, reMeas π e.2)), r.2))
    (reOut_mirror (fun r => ?_) fun _ => trivial) (fun s _ => ⟨trivial, rfl⟩) (fun s t _ _ => ⟨trivial, rfl⟩)
  exact inlierPass_re (reKey π) measInliers_re r.1 r.2

theorem findInliers_re (cfg : Cfg G T N) : MP0 al π id (findInliers cfg) (findInliers (reCfg π cfg)) := by
  unfold findInliers
  exact Mirror.bind (ra := id) (modify_re0 fun p => rfl) fun _ => Mirror.bind (lcPass_re cfg) fun _ => lmPass_re

theorem incInliers_factors {n : Nat} {m m' : Meas G N} (h : incInliers n m = .ok m' ()) : m'.factors = m.factors := by
  unfold incInliers at h
  split at h
  · cases h
  · split at h
    · split at h
      · cases h; rfl
      · cases h
      · cases h
    · cases h; rfl

theorem findInliersIncremental_re (num : List (ObsId × Nat)) :
    MP al π ow id (findInliersIncremental num : M (Pcm G T N) Unit) (findInliersIncremental (num.map fun e => (reId π e.1, e.2))) := by
  unfold findInliersIncremental
  refine Mirror.bind (ra := id) (modify_re (fun _ h => h) fun p => rfl) fun _ => ?_
  refine Mirror.bind (ra := id) (Mirror.forEach (fun a => ?_) num) fun _ => ?_
  · refine Mirror.zoom (Q := fun m => π.Roots ∨ PairOk a.1 m) (rt := reMeas π)
      ((reOut_mirror (incInliers_re a.2) fun _ => trivial).strong fun m m' _ hm e => hm.imp id fun hm x hx => hm x (incInliers_factors e ▸ hx))
      (fun s hs => ⟨hs.lcOf _, lcOf_re _ _⟩) (fun s t hs ht => ⟨?_, ?_⟩)
    · exact hs.updLc (ht.imp id fun ht _ _ => ht)
    symm; exact updLc_re s a.1 fun m => rfl
  refine Mirror.bind (ra := id) (modify_re (fun _ h => h) fun p => ?_) fun _ => lmPass_re.strong fun s t a hs e => ?_
  rotate_left
  · have := lmPass_ends s
    rw [e] at this
    exact hs.sel this.1
  show ({ rePcm π p with totalGood := p.totalGood + ((p.lcs.map fun e => (reId π e.1, reMeas π e.2)).map (fun e : ObsId × Meas G N => e.2.cons.length)).sum } : Pcm G T N) =
    { rePcm π p with totalGood := p.totalGood + (p.lcs.map (fun e => e.2.cons.length)).sum }
  rw [List.map_map]
  have : ((fun e : ObsId × Meas G N => e.2.cons.length) ∘ fun e : ObsId × Meas G N => (reId π e.1, reMeas π e.2)) =
      fun e : ObsId × Meas G N => e.2.cons.length := by
    funext e
    exact List.length_map ..
  rw [this]

/-! ### Measurements -/

theorem buildGraph_re {env env' : Env G N} (he : Renamed π env env') (p : Pcm G T N) :
    buildGraph env' (rePcm π p) = reGraph π (buildGraph env p) := by
  unfold buildGraph reGraph
  have ig : ∀ c, (p.ignored.map π).contains (π c) = p.ignored.contains c := by
    intro c
    rw [Bool.eq_iff_iff, List.contains_iff_mem, List.contains_iff_mem, List.mem_map]
    exact ⟨fun ⟨x, h1, h2⟩ => by rw [← π.chrs.injective h2]; exact h1, fun h => ⟨c, h, rfl⟩⟩
  show (p.odom.map (reBtw π)).map (fun b => some (Factor.btw b)) ++ (p.special.map (reFactor π)).map some ++
    (env'.iterLC (p.lcs.map fun e => (reId π e.1, reMeas π e.2))).flatMap (fun e =>
      if !(p.ignored.map π).contains e.1.id1 && !(p.ignored.map π).contains e.1.id2 then
        e.2.cons.map (fun b => some (Factor.btw b)) else []) ++
    (env'.iterLM (p.landmarks.map fun e => (reKey π e.1, reMeas π e.2))).flatMap (fun e => e.2.cons.map (fun b => some (Factor.btw b))) = _
  rw [he.lc, he.lm]
  simp only [List.map_append, List.map_map, List.flatMap_map, List.map_flatMap]
  congr 1
  · congr 1
    congr 1
    funext e
    show (if !(p.ignored.map π).contains (π e.1.id1) && !(p.ignored.map π).contains (π e.1.id2) then
        (e.2.cons.map (reBtw π)).map (fun b => some (Factor.btw b)) else []) = _
    rw [ig, ig, List.map_map]
    split
    · rw [List.map_map]; rfl
    · rfl
  · congr 1
    funext e
    show (e.2.cons.map (reBtw π)).map (fun b => some (Factor.btw b)) = _
    rw [List.map_map]; rfl

theorem classify_re (cfg : Cfg G T N) (vs : Vals G) {f : Factor G N} (h : ∀ b, f = .btw b → reKey π (b.k1 + 1) = reKey π b.k1 + 1) :
    classify (reCfg π cfg) (reMap π vs) (reFactor π f) = classify cfg vs f := by
  cases f with
  | btw b =>
    show (if (reCfg π cfg).isSpecial (chr (reKey π b.k1)) || (reCfg π cfg).isSpecial (chr (reKey π b.k2)) then
      (if (reMap π vs).has (reKey π b.k1) || (reMap π vs).has (reKey π b.k2) then FType.firstLandmark else .loopClosure)
      else if reKey π b.k1 + 1 = reKey π b.k2 ∧ (reMap π vs).has (reKey π b.k2) then .odometry else .loopClosure) = _
    rw [chr_reKey, chr_reKey, isSpecial_re, isSpecial_re, reMap_has, reMap_has]
    simp only [reKey_next (h b rfl)]
    rfl
  | _ => rfl

theorem landmarkKey_re (cfg : Cfg G T N) (b : Btw G N) : landmarkKey (reCfg π cfg) (reBtw π b) = reKey π (landmarkKey cfg b) := by
  unfold landmarkKey
  show (if (reCfg π cfg).isSpecial (chr (reKey π b.k1)) then reKey π b.k1 else reKey π b.k2) = _
  rw [chr_reKey, isSpecial_re]
  split <;> rfl

theorem oneSeer {cfg : Cfg G T N} {b : Btw G N} (h : chr b.k2 ∈ cfg.special → chr b.k1 ∉ cfg.special → chr b.k1 = ow b.k2)
    (hl : cfg.isSpecial (chr b.k1) || cfg.isSpecial (chr b.k2)) : b.k1 ≠ landmarkKey cfg b → chr b.k1 = ow (landmarkKey cfg b) := by
  have sp : ∀ c, cfg.isSpecial c = true ↔ c ∈ cfg.special := fun c => by
    unfold Cfg.isSpecial
    rw [List.any_eq_true]
    exact ⟨fun ⟨x, hx, e⟩ => by rw [← beq_iff_eq.1 e]; exact hx, fun hc => ⟨c, hc, beq_self_eq_true c⟩⟩
  unfold landmarkKey
  split
  · intro hh; exact absurd rfl hh
  · rename_i h1
    intro _
    rw [Bool.or_eq_true] at hl
    exact h ((sp _).1 (hl.resolve_left h1)) fun hc => h1 ((sp _).2 hc)

theorem classify_special {cfg : Cfg G T N} {vs : Vals G} {b : Btw G N} (h : classify cfg vs (.btw b) = .firstLandmark) :
    (cfg.isSpecial (chr b.k1) || cfg.isSpecial (chr b.k2)) = true := by
  dsimp only [classify] at h
  split at h
  · assumption
  · split at h <;> cases h

theorem sortFactors_re (cfg : Cfg G T N) (vs vals : Vals G) {fs : Graph G N} (h : Successive π fs) (h' : ZeroOrOne π cfg ow fs)
    (lcs : List (Btw G N)) (o : Bool) :
    MP al π ow (fun r => (r.1.map (reBtw π), r.2)) (sortFactors cfg vs vals fs lcs o)
      (sortFactors (reCfg π cfg) (reMap π vs) (reMap π vals) (reGraph π fs) (lcs.map (reBtw π)) o) := by
  induction fs generalizing lcs o with
  | nil => exact Mirror.pure rfl
  | cons f fs ih =>
    have ih' := fun lcs o => ih (fun b hb => h b (List.mem_cons_of_mem _ hb)) (h'.imp id fun h b hb => h b (List.mem_cons_of_mem _ hb)) lcs o
    cases f with
    | none => exact ih' lcs o
    | some f =>
      have hc := classify_re (π := π) cfg vs (f := f) fun b e => h b (by rw [e]; exact List.mem_cons_self)
      have special : MP al π ow (fun r => (r.1.map (reBtw π), r.2))
          ((M.modify fun p : Pcm G T N => { p with special := p.special ++ [f] }).bind fun _ => sortFactors cfg vs vals fs lcs true)
          ((M.modify fun p : Pcm G T N => { p with special := p.special ++ [reFactor π f] }).bind fun _ =>
            sortFactors (reCfg π cfg) (reMap π vs) (reMap π vals) (reGraph π fs) (lcs.map (reBtw π)) true) := by
        refine Mirror.bind (ra := id) (modify_re (fun _ h => h) fun p => ?_) fun _ => ih' lcs true
        show ({ rePcm π p with special := p.special.map (reFactor π) ++ [reFactor π f] } : Pcm G T N) =
          { rePcm π p with special := (p.special ++ [f]).map (reFactor π) }
        rw [List.map_append]; rfl
      show MP al π ow _ _ (sortFactors (reCfg π cfg) (reMap π vs) (reMap π vals) (some (reFactor π f) :: reGraph π fs) (lcs.map (reBtw π)) o)
      unfold sortFactors
      rw [hc]
      cases f with
      | btw b =>
        cases hcl : classify cfg vs (.btw b) with
        | odometry => exact Mirror.bind (updateOdom_re cfg vals b) fun _ => ih' lcs o
        | firstLandmark =>
          refine Mirror.bind (ra := id) (modify_re (fun p hp => ?_) fun p => ?_) fun _ => ih' lcs o
          · have : Fine π ow (updLm p (landmarkKey cfg b) fun _ => ⟨[b], [b], Mat.zero 1⟩) :=
              hp.updLm (h'.imp id fun h m _ x hx => by
                obtain rfl : x = b := by simpa using hx
                exact oneSeer (h _ List.mem_cons_self) (classify_special hcl))
            exact this
          dsimp only
          rw [landmarkKey_re]
          have := updLm_re (π := π) p (landmarkKey cfg b) (f := fun _ => ⟨[b], [b], Mat.zero 1⟩)
            (f' := fun _ => ⟨[reBtw π b], [reBtw π b], Mat.zero 1⟩) fun m => rfl
          rw [← this]
          rfl
        | loopClosure =>
          refine Mirror.ite (not_congr reKey_inj) ?_ (ih' lcs o)
          have := ih' (lcs ++ [b]) o
          rw [List.map_append] at this
          exact this
        | nonBetween => exact special
      | prior k m => exact special
      | priorAlt k t => exact special
      | other ks t => exact special

theorem bump_re (id' : ObsId) (l : List (ObsId × Nat)) :
    bump (reId π id') (l.map fun e => (reId π e.1, e.2)) = (bump id' l).map fun e => (reId π e.1, e.2) :=
  alist_upd (eq := ObsId.eqv) (eq' := ObsId.eqv) (f := reId π) (g := id) reId_eqv rfl l id' fun _ => rfl

theorem registerLm_re (cfg : Cfg G T N) (b : Btw G N) (h : π.Roots ∨ (b.k1 ≠ landmarkKey cfg b → chr b.k1 = ow (landmarkKey cfg b))) : MP al π ow id (registerLm cfg b) (registerLm (reCfg π cfg) (reBtw π b)) := by
  unfold registerLm
  rw [landmarkKey_re]
  refine Mirror.bind (ra := id) (modify_re (fun p hp => ?_) fun p => ?_) fun _ => incrementLandmarkAdj_re cfg _
  · have : Fine π ow (updLm p (landmarkKey cfg b) fun m => { m with factors := m.factors ++ [b] }) :=
      hp.updLm (h.imp id fun h m hm x hx => by
        rcases List.mem_append.1 hx with hx | hx
        · exact hm x hx
        · obtain rfl : x = b := by simpa using hx
          exact h)
    exact this
  have := updLm_re (π := π) p (landmarkKey cfg b) (f := fun m => { m with factors := m.factors ++ [b] })
    (f' := fun m => { m with factors := m.factors ++ [reBtw π b] }) fun m => by
      unfold reMeas
      rw [List.map_append]; rfl
  rw [← this]
  rfl

theorem registerLc_re (cfg : Cfg G T N) (b : Btw G N) : MP al π ow id (registerLc cfg b) (registerLc (reCfg π cfg) (reBtw π b)) := by
  unfold registerLc
  have hid : (⟨chr (reBtw π b).k1, chr (reBtw π b).k2⟩ : ObsId) = reId π ⟨chr b.k1, chr b.k2⟩ := by
    show (⟨chr (reKey π b.k1), chr (reKey π b.k2)⟩ : ObsId) = _
    rw [chr_reKey, chr_reKey]; rfl
  rw [hid]
  refine Mirror.bind (ra := id) (modify_re (fun p hp => ?_) fun p => ?_) fun _ => Mirror.when _ (incrementAdj_re cfg _ rfl)
  · have : Fine π ow (updLc p ⟨chr b.k1, chr b.k2⟩ fun m => { m with factors := m.factors ++ [b] }) :=
      hp.updLc (Or.inr fun m hm x hx => by
        rcases List.mem_append.1 hx with hx | hx
        · exact hm x hx
        · obtain rfl : x = b := by simpa using hx
          exact ObsId.isEqv.refl _)
    exact this
  have := updLc_re (π := π) p ⟨chr b.k1, chr b.k2⟩ (f := fun m => { m with factors := m.factors ++ [b] })
    (f' := fun m => { m with factors := m.factors ++ [reBtw π b] }) fun m => by
      unfold reMeas
      rw [List.map_append]; rfl
  rw [← this]
  show ({ rePcm π (updLc p ⟨chr b.k1, chr b.k2⟩ fun m => { m with factors := m.factors ++ [b] }) with
      inOrder := p.inOrder.map (reId π) ++ [reId π ⟨chr b.k1, chr b.k2⟩], totalLc := p.totalLc + 1 } : Pcm G T N) =
    { rePcm π (updLc p ⟨chr b.k1, chr b.k2⟩ fun m => { m with factors := m.factors ++ [b] }) with
      inOrder := (p.inOrder ++ [(⟨chr b.k1, chr b.k2⟩ : ObsId)]).map (reId π), totalLc := p.totalLc + 1 }
  rw [List.map_append]; rfl

theorem parseLoops_re (cfg : Cfg G T N) (vals : Vals G) (bs : List (Btw G N)) (num : List (ObsId × Nat))
    (h : π.Roots ∨ ∀ b ∈ bs, chr b.k2 ∈ cfg.special → chr b.k1 ∉ cfg.special → chr b.k1 = ow b.k2) :
    MP al π ow (List.map fun e => (reId π e.1, e.2)) (parseLoops cfg vals bs num)
      (parseLoops (reCfg π cfg) (reMap π vals) (bs.map (reBtw π)) (num.map fun e => (reId π e.1, e.2))) := by
  induction bs generalizing num with
  | nil => exact Mirror.pure rfl
  | cons b bs ih0 =>
    have ih := fun num => ih0 num (h.imp id fun h b hb => h b (List.mem_cons_of_mem _ hb))
    rw [List.map_cons]
    unfold parseLoops
    have h1 : (reMap π vals).has (reBtw π b).k1 = vals.has b.k1 := reMap_has _ _
    have h2 : (reMap π vals).has (reBtw π b).k2 = vals.has b.k2 := reMap_has _ _
    have c1 : chr (reBtw π b).k1 = π (chr b.k1) := chr_reKey _
    have c2 : chr (reBtw π b).k2 = π (chr b.k2) := chr_reKey _
    rw [h1, h2, c1, c2, isSpecial_re, isSpecial_re, beq_chr]
    refine Mirror.ite Iff.rfl (ih num) ?_
    split
    · rename_i hl
      exact Mirror.bind (registerLm_re cfg b (h.imp id fun h => oneSeer (h b List.mem_cons_self) hl)) fun _ => ih num
    · have hod : MP al π ow id (M.cond (chr b.k1 == chr b.k2) (isOdomConsistent cfg b) (M.pure true))
          (M.cond (chr b.k1 == chr b.k2) (isOdomConsistent (reCfg π cfg) (reBtw π b)) (M.pure true)) := by
        cases hb : chr b.k1 == chr b.k2 with
        | false => exact Mirror.pure rfl
        | true => exact isOdomConsistent_re cfg b (beq_iff_eq.1 hb)
      refine Mirror.bind (ra := id) hod fun ok => ?_
      cases ok with
      | false => exact ih num
      | true =>
        refine Mirror.bind (registerLc_re cfg b) fun _ => ?_
        have := ih (bump ⟨chr b.k1, chr b.k2⟩ num)
        rw [← bump_re] at this
        exact this

theorem processCands_re (cfg : Cfg G T N) (vals : Vals G) (cands : List (Btw G N))
    (h : π.Roots ∨ ∀ b ∈ cands, chr b.k2 ∈ cfg.special → chr b.k1 ∉ cfg.special → chr b.k1 = ow b.k2) :
    MP al π ow id (processCands cfg vals cands) (processCands (reCfg π cfg) (reMap π vals) (cands.map (reBtw π))) := by
  unfold processCands
  refine Mirror.bind (parseLoops_re cfg vals cands [] h) fun num => ?_
  refine Mirror.cond _ (findInliersIncremental_re num) ((findInliers_re cfg).strong fun s t a hs e => ?_)
  have := findInliers_ends cfg s
  rw [e] at this
  exact hs.sel this.1

/-! ### Values -/

theorem insertVals_noub (vs v : Vals G) (u : UB) : insertVals vs v ≠ .ub u := by
  induction vs generalizing v with
  | nil => intro h; cases h
  | cons e t ih =>
    obtain ⟨k, x⟩ := e
    rw [insertVals_cons]
    split
    · intro h; cases h
    · exact ih _

theorem insertVals_keep {vs v v' : Vals G} (h : insertVals vs v = .ok v' ()) (hs : v.Sorted) : v'.Sorted := by
  have := insertVals_ends vs v
  rw [h] at this
  exact this.1 hs

theorem insertVals_re {vs : Vals G} (hvs : vs.Sorted) :
    Mirror al KMap.Sorted (reMap π) id (insertVals vs) (insertVals (reMap π vs)) := by
  intro v hv
  have keys : ∀ {m : Vals G} {k : Key}, k ∈ m.keys ↔ reKey π k ∈ (reMap π m).keys := by
    intro m k
    rw [KMap.mem_keys_iff, KMap.mem_keys_iff, reMap_has]
  have conv : (∀ k ∈ (reMap π vs).keys, (reMap π v).has k = false) ↔ ∀ k ∈ vs.keys, v.has k = false := by
    refine ⟨fun h k hk => ?_, fun h k hk => ?_⟩
    · rw [← reMap_has (π := π)]; exact h _ (keys.1 hk)
    · obtain ⟨k, rfl⟩ := reKey_surj (π := π) k
      rw [reMap_has]; exact h k (keys.2 hk)
  cases e : insertVals vs v with
  | ub u => exact absurd e (insertVals_noub _ _ _)
  | ok w _ =>
    refine ⟨insertVals_keep e hv, ?_⟩
    obtain ⟨h1, h2, h3⟩ := insertVals_ok e
    obtain ⟨w', e'⟩ := insertVals_total (conv.2 h2) (reMap_sorted vs).nodup
    rw [e']
    congr 1
    refine reMap_ext (insertVals_keep e' (reMap_sorted v)) fun k => ?_
    rw [(insertVals_ok e').1, h1, reMap_has, reMap_find, reMap_find]
  | throw w x =>
    obtain rfl := insertVals_throw e
    cases e' : insertVals (reMap π vs) (reMap π v) with
    | ub u => exact absurd e' (insertVals_noub _ _ _)
    | throw w' x' => rw [insertVals_throw e']; exact ⟨_, _, rfl, fun _ => rfl⟩
    | ok w' _ =>
      obtain ⟨q, hq⟩ := insertVals_total (conv.1 (insertVals_ok e').2.1) hvs.nodup
      rw [hq] at e; cases e

theorem mergeVals_re {v t : Vals G} (hv : v.Sorted) (ht : t.Sorted) : mergeVals (reMap π v) (reMap π t) = (mergeVals v t).map (reMap π) := by
  have := insertVals_re (al := false) (π := π) ht v hv
  unfold mergeVals
  cases e : insertVals t v with
  | ok w _ => rw [e] at this; rw [this.2]; rfl
  | throw w x => rw [e] at this; obtain ⟨q, x', hq, _⟩ := this; rw [hq]; rfl
  | ub u => rw [e] at this; rw [show insertVals (reMap π t) (reMap π v) = _ from this]; rfl

/-- The maps of a solver are sorted, and its closures fine. -/
def SV (π : Naming) (ow : Key → Chr) (s : St G T N) : Prop := s.values.Sorted ∧ s.tempValues.Sorted ∧ Fine π ow s.pcm

/-- Mirror images of procedures of the solver. -/
abbrev MS (al : Bool) (π : Naming) (ow : Key → Chr) {α β : Type} (ra : α → β) (m : M (St G T N) α) (m' : M (St G T N) β) : Prop :=
  Mirror al (SV π ow) (reSt π) ra m m'

theorem onPcm_re {α β : Type} {ra : α → β} {m : M (Pcm G T N) α} {m' : M (Pcm G T N) β} (h : MP al π ow ra m m') : MS al π ow ra (onPcm m) (onPcm m') :=
  Mirror.zoom h (fun _ hs => ⟨hs.2.2, rfl⟩) (fun _ _ hs ht => ⟨⟨hs.1, hs.2.1, ht⟩, rfl⟩)

theorem onValues_re {vs : Vals G} (hvs : vs.Sorted) :
    MS (T := T) (N := N) al π ow id (onValues (insertVals vs)) (onValues (insertVals (reMap π vs))) :=
  Mirror.zoom (insertVals_re hvs) (fun _ hs => ⟨hs.1, rfl⟩) (fun _ _ hs ht => ⟨⟨ht, hs.2⟩, rfl⟩)

/-- Can the value `x` be stored at `k`? -/
def Storable (s : St G T N) (k : Key) (x : Val G) : Bool :=
  match s.values.find? k with
  | some v => v.sameType x
  | none => match s.tempValues.find? k with
    | some v => v.sameType x
    | none => true

theorem Storable.congr {s s' : St G T N} {k : Key} (h1 : s'.values.find? k = s.values.find? k) (h2 : s'.tempValues.find? k = s.tempValues.find? k)
    (x : Val G) : Storable s' k x = Storable s k x := by
  unfold Storable; rw [h1, h2]

theorem applyResult_stores {res : Vals G} {s : St G T N} (hn : res.keys.Nodup) (h : ∀ e ∈ res, Storable s e.1 e.2 = true) :
    ∃ s', applyResult res s = .ok s' () := by
  induction res generalizing s with
  | nil => exact ⟨s, rfl⟩
  | cons e t ih =>
    obtain ⟨k, x⟩ := e
    simp only [KMap.keys, List.map_cons, List.nodup_cons] at hn
    have hx := h _ List.mem_cons_self
    have ne : ∀ e ∈ t, k ≠ e.1 := fun e he hk => hn.1 (List.mem_map.2 ⟨e, he, hk.symm⟩)
    unfold Storable at hx
    unfold applyResult
    dsimp only at hx ⊢
    cases h1 : s.values.find? k with
    | some v =>
      rw [h1] at hx
      dsimp only at hx ⊢
      rw [if_pos hx]
      refine ih hn.2 fun e he => ?_
      refine Eq.trans ?_ (h e (List.mem_cons_of_mem _ he))
      exact Storable.congr (s' := { s with values := s.values.set k x }) (KMap.find?_set_ne _ _ (ne e he)) rfl _
    | none =>
      rw [h1] at hx
      dsimp only at hx ⊢
      cases h2 : s.tempValues.find? k with
      | some v =>
        rw [h2] at hx
        dsimp only at hx ⊢
        rw [if_pos hx]
        refine ih hn.2 fun e he => ?_
        refine Eq.trans ?_ (h e (List.mem_cons_of_mem _ he))
        exact Storable.congr (s' := { s with tempValues := s.tempValues.set k x }) (s := s) rfl (KMap.find?_set_ne _ _ (ne e he)) _
      | none => exact ih hn.2 fun e he => h e (List.mem_cons_of_mem _ he)

theorem applyResult_storable {res : Vals G} {s s' : St G T N} (hn : res.keys.Nodup) (h : applyResult res s = .ok s' ()) :
    ∀ e ∈ res, Storable s e.1 e.2 = true := by
  induction res generalizing s with
  | nil => intro e he; cases he
  | cons e t ih =>
    obtain ⟨k, x⟩ := e
    simp only [KMap.keys, List.map_cons, List.nodup_cons] at hn
    have ne : ∀ e ∈ t, k ≠ e.1 := fun e he hk => hn.1 (List.mem_map.2 ⟨e, he, hk.symm⟩)
    unfold applyResult at h
    intro e he
    cases h1 : s.values.find? k with
    | some v =>
      rw [h1] at h
      dsimp only at h
      split at h
      · rename_i ht
        rcases List.mem_cons.1 he with rfl | he
        · unfold Storable; rw [h1]; exact ht
        · rw [← ih hn.2 h e he]
          exact (Storable.congr (s' := { s with values := s.values.set k x }) (KMap.find?_set_ne _ _ (ne e he)) rfl _).symm
      · cases h
    | none =>
      rw [h1] at h
      dsimp only at h
      cases h2 : s.tempValues.find? k with
      | some v =>
        rw [h2] at h
        dsimp only at h
        split at h
        · rename_i ht
          rcases List.mem_cons.1 he with rfl | he
          · unfold Storable; rw [h1]; dsimp only; rw [h2]; exact ht
          · rw [← ih hn.2 h e he]
            exact (Storable.congr (s' := { s with tempValues := s.tempValues.set k x }) (s := s) rfl (KMap.find?_set_ne _ _ (ne e he)) _).symm
        · cases h
      | none =>
        rw [h2] at h
        rcases List.mem_cons.1 he with rfl | he
        · unfold Storable; rw [h1]; dsimp only; rw [h2]
        · exact ih hn.2 h e he

/-- Only the values change; only one kind of exception is raised; always defined. -/
def OnlyVals (s : St G T N) : Out (St G T N) Unit → Prop
  | .ok s' _ => s' = { s with values := s'.values, tempValues := s'.tempValues }
  | .throw _ e => e = .wrongType
  | .ub _ => False

theorem OnlyVals.trans {s t : St G T N} (h : t = { s with values := t.values, tempValues := t.tempValues }) {o : Out (St G T N) Unit}
    (ho : OnlyVals t o) : OnlyVals s o := by
  cases o with
  | ok s' _ =>
    refine Eq.trans ho ?_
    show _ = { s with values := s'.values, tempValues := s'.tempValues }
    rw [h]
  | throw _ _ => exact ho
  | ub _ => exact ho

theorem applyResult_shape (res : Vals G) (s : St G T N) : OnlyVals s (applyResult res s) := by
  induction res generalizing s with
  | nil => rfl
  | cons e t ih =>
    obtain ⟨k, x⟩ := e
    unfold applyResult
    cases s.values.find? k with
    | some v =>
      dsimp only
      split
      · exact OnlyVals.trans rfl (ih _)
      · rfl
    | none =>
      dsimp only
      cases s.tempValues.find? k with
      | some v =>
        dsimp only
        split
        · exact OnlyVals.trans rfl (ih _)
        · rfl
      | none => exact ih s

theorem applyResult_re [Mul G] [Inv G] [One G] {res : Vals G} (hres : res.Sorted) :
    MS (T := T) (N := N) al π ow id (applyResult res) (applyResult (reMap π res)) := by
  intro s hs
  have conv : (∀ e ∈ reMap π res, Storable (reSt π s) e.1 e.2 = true) ↔ ∀ e ∈ res, Storable s e.1 e.2 = true := by
    have st : ∀ k x, Storable (reSt π s) (reKey π k) x = Storable s k x := by
      intro k x
      unfold Storable
      show (match (reMap π s.values).find? (reKey π k) with
        | some v => v.sameType x
        | none => match (reMap π s.tempValues).find? (reKey π k) with
          | some v => v.sameType x
          | none => true) = _
      rw [reMap_find, reMap_find]
    refine ⟨fun h e he => ?_, fun h e he => ?_⟩
    · have hf := KMap.find?_of_mem hres (k := e.1) (v := e.2) he
      rw [← reMap_find (π := π)] at hf
      rw [← st]
      exact h _ (KMap.find?_mem hf)
    · obtain ⟨k, x⟩ := e
      obtain ⟨k, rfl⟩ := reKey_surj (π := π) k
      have hf := KMap.find?_of_mem (reMap_sorted res) he
      rw [reMap_find] at hf
      rw [st]
      exact h _ (KMap.find?_mem hf)
  have sh := applyResult_shape res s
  have sh' := applyResult_shape (reMap π res) (reSt π s)
  cases e : applyResult res s with
  | ub u => rw [e] at sh; exact sh.elim
  | throw w x =>
    rw [e] at sh
    cases sh
    cases e' : applyResult (reMap π res) (reSt π s) with
    | ub u => rw [e'] at sh'; exact sh'.elim
    | throw w' x' => rw [e'] at sh'; cases sh'; exact ⟨_, _, rfl, fun _ => rfl⟩
    | ok w' _ =>
      obtain ⟨q, hq⟩ := applyResult_stores hres.nodup (conv.1 (applyResult_storable (reMap_sorted res).nodup e'))
      rw [hq] at e; cases e
  | ok t _ =>
    have fr := (applyResult_frame res).of_ok e
    have ht : SV π ow t := ⟨(fr.values.keys hs.1).1, (fr.temp.keys hs.2.1).1, by rw [e] at sh; rw [sh]; exact hs.2.2⟩
    refine ⟨ht, ?_⟩
    obtain ⟨t', e'⟩ := applyResult_stores (reMap_sorted res).nodup (conv.2 (applyResult_storable hres.nodup e))
    have fr' := (applyResult_frame (reMap π res)).of_ok e'
    rw [e] at sh
    rw [e'] at sh'
    rw [e']
    obtain ⟨a1, a2⟩ := applyResult_both e hres.nodup
    obtain ⟨b1, b2⟩ := applyResult_both e' (reMap_sorted res).nodup
    have v1 : t'.values = reMap π t.values := by
      refine reMap_ext (fr'.values.keys (reMap_sorted _)).1 fun k => ?_
      rw [b1, a1]
      show Option.map _ ((reMap π s.values).find? (reKey π k)) = _
      rw [reMap_find, reMap_find]
    have v2 : t'.tempValues = reMap π t.tempValues := by
      refine reMap_ext (fr'.temp.keys (reMap_sorted _)).1 fun k => ?_
      rw [b2, a2]
      show Option.map _ ((reMap π s.tempValues).find? (reKey π k)) = _
      have : (reSt π s).values.find? (reKey π k) = s.values.find? k := reMap_find _ _
      rw [reMap_find, reMap_find, this]
    have sh1 : t = { s with values := t.values, tempValues := t.tempValues } := sh
    have sh2 : t' = { reSt π s with values := t'.values, tempValues := t'.tempValues } := sh'
    have : t' = reSt π t := by
      rw [sh2, v1, v2]
      conv => rhs; rw [sh1]
      rfl
    rw [this]

/-! ### Optimization -/

variable [Mul G] [Inv G] [One G]

theorem reGraph_length (g : Graph G N) : (reGraph π g).length = g.length := List.length_map ..

theorem reGraph_append (g h : Graph G N) : reGraph π (g ++ h) = reGraph π g ++ reGraph π h := List.map_append

theorem fixedFactors_re (g : Graph G N) (k : Nat) (w : List Rat) (i : Nat) :
    fixedFactors (reGraph π g) k w i = (fixedFactors g k w i).map (reGraph π) := by
  induction w generalizing i with
  | nil => rfl
  | cons x ws ih =>
    unfold fixedFactors
    split
    · rw [show (reGraph π g)[k + i]? = (g[k + i]?).map (Option.map (reFactor π)) from List.getElem?_map ..]
      cases g[k + i]? with
      | none => rfl
      | some f =>
        dsimp only [Option.map_some]
        rw [ih]
        cases fixedFactors g k ws (i + 1) <;> rfl
    · exact ih _

theorem plainGraph_re (cfg : Cfg G T N) : MS al π ow (reGraph π) (plainGraph cfg) (plainGraph (reCfg π cfg)) := by
  intro s hs
  have l1 : (rePcm π s.pcm).odom.length = s.pcm.odom.length := List.length_map ..
  have l2 : (rePcm π s.pcm).special.length = s.pcm.special.length := List.length_map ..
  unfold plainGraph
  show MirrorOut al (SV π ow) (reSt π) (reGraph π) _ (if cfg.fixPrev then
    if !cfg.rejection then .ub .nullDeref
    else
      if (reGraph π s.nfg).length < (rePcm π s.pcm).odom.length + (rePcm π s.pcm).special.length then .ub .iterRange
      else if s.gncW.length < s.latest then .ub .eigen
      else match fixedFactors (reGraph π s.nfg) ((rePcm π s.pcm).odom.length + (rePcm π s.pcm).special.length)
          (s.gncW.drop (s.gncW.length - s.latest)) 0 with
        | none => .throw (reSt π s) .outOfRange
        | some l => .ok (reSt π s) ((reGraph π s.nfg).take ((rePcm π s.pcm).odom.length + (rePcm π s.pcm).special.length) ++ l ++ reGraph π s.tempNfg)
    else .ok (reSt π s) (reGraph π s.nfg ++ reGraph π s.tempNfg))
  rw [l1, l2, reGraph_length, fixedFactors_re]
  split
  · split
    · rfl
    · dsimp only
      split
      · rfl
      · split
        · rfl
        · cases fixedFactors s.nfg (s.pcm.odom.length + s.pcm.special.length) (s.gncW.drop (s.gncW.length - s.latest)) 0 with
          | none => exact ⟨_, _, rfl, fun _ => rfl⟩
          | some l =>
            refine ⟨hs, ?_⟩
            dsimp only [Option.map_some]
            rw [reGraph_append, reGraph_append]
            unfold reGraph
            rw [List.map_take]
  · refine ⟨hs, ?_⟩
    rw [reGraph_append]

theorem plainOptimize_re (cfg : Cfg G T N) {env env' : Env G N} (he : Renamed π env env') {full : Vals G} (hf : full.Sorted) :
    MS al π ow (reMap π) (plainOptimize cfg env full) (plainOptimize (reCfg π cfg) env' (reMap π full)) := by
  unfold plainOptimize
  refine Mirror.bind (plainGraph_re cfg) fun g => ?_
  rw [he.opt g full hf]
  cases env.opt g full with
  | none => exact Mirror.raise _
  | some r =>
    dsimp only [Option.map_some]
    refine Mirror.get fun s hs => ?_
    refine Mirror.ite (by rfl) (Mirror.undef _) ?_
    refine Mirror.ite (by rw [← reGraph_length (π := π) s.nfg]; rfl) (Mirror.undef _) ?_
    refine Mirror.bind (ra := id) (Mirror.modify (fun _ h => h) fun t _ => ?_) fun _ => ?_
    · show ({ reSt π t with
          gncW := List.replicate ((reGraph π t.nfg).length - t.latest) 1 ++ t.gncW.drop (t.gncW.length - t.latest)
          gncTW := List.replicate (reGraph π t.tempNfg).length 1 } : St G T N) = _
      rw [reGraph_length, reGraph_length]
      rfl
    · exact Mirror.ite Iff.rfl (Mirror.undef _) (Mirror.pure rfl)

theorem gncOptimize_re (cfg : Cfg G T N) {env env' : Env G N} (he : Renamed π env env') {full : Vals G} (hf : full.Sorted) :
    MS al π ow (reMap π) (gncOptimize cfg env full) (gncOptimize (reCfg π cfg) env' (reMap π full)) := by
  unfold gncOptimize
  refine Mirror.get fun s hs => ?_
  have l1 : (reSt π s).pcm.odom.length + (reSt π s).pcm.special.length = s.pcm.odom.length + s.pcm.special.length := by
    show (s.pcm.odom.map (reBtw π)).length + (s.pcm.special.map (reFactor π)).length = _
    rw [List.length_map, List.length_map]
  have l2 : (reSt π s).nfg ++ (reSt π s).tempNfg = reGraph π (s.nfg ++ s.tempNfg) := (reGraph_append _ _).symm
  have l3 : (reSt π s).nfg.length = s.nfg.length := reGraph_length _
  have l4 : (reSt π s).tempNfg.length = s.tempNfg.length := reGraph_length _
  dsimp only
  rw [l1, l2, l3, l4, reGraph_length, he.gnc _ _ _ _ hf]
  refine Mirror.ite Iff.rfl (Mirror.undef _) ?_
  change MS al π ow (reMap π) _ (match Option.map (fun r : Vals G × List Rat => (reMap π r.1, r.2)) (env.gnc (s.nfg ++ s.tempNfg) full
    (List.range (s.pcm.odom.length + s.pcm.special.length))
    (if cfg.biasOdom then some (List.replicate (List.range (s.pcm.odom.length + s.pcm.special.length)).length 1 ++
      List.replicate ((s.nfg ++ s.tempNfg).length - (List.range (s.pcm.odom.length + s.pcm.special.length)).length) 0) else none)) with
    | none => M.raise .optimizer
    | some (result, w) => _)
  cases env.gnc (s.nfg ++ s.tempNfg) full
    (List.range (s.pcm.odom.length + s.pcm.special.length))
    (if cfg.biasOdom then some (List.replicate (List.range (s.pcm.odom.length + s.pcm.special.length)).length 1 ++
      List.replicate ((s.nfg ++ s.tempNfg).length - (List.range (s.pcm.odom.length + s.pcm.special.length)).length) 0) else none) with
  | none => exact Mirror.raise _
  | some r =>
    obtain ⟨r, w⟩ := r
    dsimp only [Option.map_some]
    refine Mirror.ite Iff.rfl (Mirror.undef _) ?_
    refine Mirror.bind (ra := id) (Mirror.modify (fun _ h => h) fun t _ => ?_) fun _ => Mirror.pure rfl
    show ({ reSt π t with
        gncW := w.take s.nfg.length
        gncTW := w.drop (w.length - (reGraph π t.tempNfg).length)
        gncNum := _ } : St G T N) = _
    rw [reGraph_length]
    rfl

theorem useGncNow_re (cfg : Cfg G T N) (s : St G T N) : useGncNow (reCfg π cfg) (reSt π s) = useGncNow cfg s := rfl

theorem mergeVals_sorted' {v t w : Vals G} (hv : v.Sorted) (h : mergeVals v t = some w) : w.Sorted := by
  unfold mergeVals at h
  split at h
  · rename_i e; cases h; exact insertVals_keep e hv
  · cases h

theorem optimize_re (cfg : Cfg G T N) {env env' : Env G N} (he : Renamed π env env') :
    MS al π ow id (optimize cfg env) (optimize (reCfg π cfg) env') := by
  unfold optimize
  refine Mirror.get fun s hs => ?_
  have hm : mergeVals (reSt π s).values (reSt π s).tempValues = (mergeVals s.values s.tempValues).map (reMap π) := mergeVals_re hs.1 hs.2.1
  rw [hm]
  cases e : mergeVals s.values s.tempValues with
  | none => exact Mirror.raise _
  | some full =>
    have hfull := mergeVals_sorted' hs.1 e
    dsimp only [Option.map_some]
    rw [useGncNow_re]
    refine Mirror.bindAt (Mirror.cond _ (gncOptimize_re cfg he hfull) (plainOptimize_re cfg he hfull)) fun s' t a hs' ha => ?_
    have hsrt : KMap.Sorted a := by
      cases hu : useGncNow cfg s with
      | true =>
        rw [hu] at ha
        obtain ⟨w, h1, _⟩ := gncOptimize_ok ha
        exact he.gncMap _ _ _ _ _ _ hfull h1
      | false =>
        rw [hu] at ha
        obtain ⟨g, _, h1, _⟩ := plainOptimize_ok ha
        exact he.optMap _ _ _ hfull h1
    refine Mirror.bind (ra := id) (applyResult_re hsrt) fun _ => ?_
    exact Mirror.when _ (Mirror.modify (fun _ h => h) fun t _ => rfl)

/-! ### Updates -/

theorem rebuild_re {env env' : Env G N} (he : Renamed π env env') : MS (T := T) al π ow id (rebuild env) (rebuild env') := by
  refine Mirror.modify (fun _ h => h) fun s _ => ?_
  show ({ reSt π s with nfg := buildGraph env' (rePcm π s.pcm) } : St G T N) = _
  rw [buildGraph_re he]
  rfl

theorem updateVals_re {us : Vals G} (hus : us.Sorted) :
    Mirror true KMap.Sorted (reMap π) id (updateVals us) (updateVals (reMap π us)) := by
  intro v hv
  have conv : (∀ e ∈ reMap π us, ∃ y, (reMap π v).find? e.1 = some y ∧ y.sameType e.2 = true) ↔
      ∀ e ∈ us, ∃ y, v.find? e.1 = some y ∧ y.sameType e.2 = true := by
    refine ⟨fun h e he => ?_, fun h e he => ?_⟩
    · have hf := KMap.find?_of_mem hus (k := e.1) (v := e.2) he
      rw [← reMap_find (π := π)] at hf
      rw [← reMap_find (π := π)]
      exact h _ (KMap.find?_mem hf)
    · obtain ⟨k, x⟩ := e
      obtain ⟨k, rfl⟩ := reKey_surj (π := π) k
      have hf := KMap.find?_of_mem (reMap_sorted us) he
      rw [reMap_find] at hf
      rw [reMap_find]
      exact h _ (KMap.find?_mem hf)
  cases e : updateVals us v with
  | ub u => have := updateVals_clean us v; rw [e] at this; exact this.elim
  | ok w _ =>
    refine ⟨updateVals_keep e hv, ?_⟩
    obtain ⟨w', e'⟩ := updateVals_total (conv.2 (updateVals_need hus e))
    rw [e']
    congr 1
    refine reMap_ext (updateVals_keep e' (reMap_sorted v)) fun k => ?_
    rw [updateVals_ok (reMap_sorted us) e', updateVals_ok hus e, reMap_has, reMap_find, reMap_find]
  | throw w x =>
    cases e' : updateVals (reMap π us) (reMap π v) with
    | ub u => have := updateVals_clean (reMap π us) (reMap π v); rw [e'] at this; exact this.elim
    | throw w' x' => exact ⟨_, _, rfl, fun h => by cases h⟩
    | ok w' _ =>
      obtain ⟨q, hq⟩ := updateVals_total (conv.1 (updateVals_need (reMap_sorted us) e'))
      rw [hq] at e; cases e
where
  updateVals_keep {us v v' : Vals G} (h : updateVals us v = .ok v' ()) (hs : v.Sorted) : v'.Sorted := by
    induction us generalizing v with
    | nil => cases h; exact hs
    | cons e t ih =>
      obtain ⟨k, x⟩ := e
      rw [updateVals_cons] at h
      split at h
      · cases h
      · split at h
        · exact ih h (hs.set _ _)
        · cases h
  updateVals_need {us v v' : Vals G} (hs : us.Sorted) (h : updateVals us v = .ok v' ()) :
      ∀ e ∈ us, ∃ y, v.find? e.1 = some y ∧ y.sameType e.2 = true := by
    induction us generalizing v with
    | nil => intro e he; cases he
    | cons e t ih =>
      obtain ⟨k, x⟩ := e
      rw [updateVals_cons] at h
      split at h
      · cases h
      · rename_i y hy
        split at h
        · rename_i ht
          intro e he
          rcases List.mem_cons.1 he with rfl | he
          · exact ⟨y, hy, ht⟩
          · have := ih (List.pairwise_cons.1 hs).2 h e he
            have ne : k ≠ e.1 := fun hk => (List.nodup_cons.1 hs.nodup).1 (List.mem_map.2 ⟨e, he, hk.symm⟩)
            rw [KMap.find?_set_ne _ _ ne] at this
            exact this
        · cases h

theorem robotOdomValues_re (cfg : Cfg G T N) (tr : KMap T) (X : G) :
    robotOdomValues (reCfg π cfg) (reMap π tr) X = reMap π (robotOdomValues cfg tr X) := by
  refine reMap_ext (robotOdomValues_sorted _ (reMap_sorted _) _) fun k => ?_
  rw [robotOdomValues_find?, robotOdomValues_find?, reMap_find]
  rfl

theorem alignCandidates_re {cfg : Cfg G T N} (ha : ∀ c, π c = c) (p : Pcm G T N) (r0 ri : Chr) (bs : List (Btw G N)) :
    alignCandidates (reCfg π cfg) (rePcm π p) r0 ri (bs.map (reBtw π)) = alignCandidates cfg p r0 ri bs := by
  have tr : ∀ c, trajOf (rePcm π p) c = reMap π (trajOf p c) := fun c => by
    have := trajOf_re (π := π) p c
    rwa [ha] at this
  induction bs with
  | nil => rfl
  | cons b bs ih =>
    have h1 : alignCandidate (reCfg π cfg) (rePcm π p) r0 ri (reBtw π b) = alignCandidate cfg p r0 ri b := by
      unfold alignCandidate
      have hc : chr (reBtw π b).k1 = chr b.k1 := (chr_reKey _).trans (ha _)
      have hs : (reCfg π cfg).charSigned = cfg.charSigned := rfl
      rw [hc, hs, tr, tr]
      have sw : ∀ (c : Bool) (u v : Key), (if c = true then reKey π u else reKey π v) = reKey π (if c = true then u else v) := by
        intro c u v; cases c <;> rfl
      show (match (reMap π (trajOf p r0)).find? (if _ then reKey π b.k2 else reKey π b.k1),
        (reMap π (trajOf p ri)).find? (if _ then reKey π b.k1 else reKey π b.k2) with
        | some f, some k => some (cfg.ops.pose f * _ * (cfg.ops.pose k)⁻¹)
        | _, _ => none) = _
      rw [sw, sw, reMap_find, reMap_find]
      rfl
    rw [List.map_cons]
    unfold alignCandidates
    rw [h1, ih]

theorem alignRobot_re {cfg : Cfg G T N} (ha : ∀ c, π c = c) {env env' : Env G N} (he : Renamed π env env') {p : Pcm G T N}
    (hp : ∀ c, (trajOf p c).Sorted) (r0 ri : Chr) :
    Mirror true KMap.Sorted (reMap π) id (alignRobot cfg env p r0 ri) (alignRobot (reCfg π cfg) env' (rePcm π p) r0 ri) := by
  intro v hv
  have hid : ∀ i : ObsId, reId π i = i := fun i => by unfold reId; rw [ha, ha]
  have hg : AList.get? ObsId.eqv (rePcm π p).lcs ⟨r0, ri⟩ = (AList.get? ObsId.eqv p.lcs ⟨r0, ri⟩).map (reMeas π) := by
    have := alist_get (eq := ObsId.eqv) (eq' := ObsId.eqv) (f := reId π) (g := reMeas π) reId_eqv p.lcs ⟨r0, ri⟩
    rwa [hid] at this
  unfold alignRobot
  rw [hg]
  cases AList.get? ObsId.eqv p.lcs ⟨r0, ri⟩ with
  | none => exact ⟨hv, rfl⟩
  | some m =>
    dsimp only [Option.map_some]
    rw [show (reMeas π m).cons = m.cons.map (reBtw π) from rfl, alignCandidates_re ha]
    cases alignCandidates cfg p r0 ri m.cons with
    | none => exact ⟨hv, rfl⟩
    | some cs =>
      dsimp only
      rw [he.avg]
      cases env.avg cs with
      | none => exact ⟨_, _, rfl, fun _ => rfl⟩
      | some X =>
        have tr : trajOf (rePcm π p) ri = reMap π (trajOf p ri) := by
          have := trajOf_re (π := π) p ri
          rwa [ha] at this
        dsimp only
        rw [tr, robotOdomValues_re]
        exact updateVals_re (robotOdomValues_sorted _ (hp _) _) v hv

theorem alignValues_re {cfg : Cfg G T N} (ha : ∀ c, π c = c) {env env' : Env G N} (he : Renamed π env env') {p : Pcm G T N}
    (hp : ∀ c, (trajOf p c).Sorted) (l : List Chr) :
    Mirror true KMap.Sorted (reMap π) id (alignValues cfg env p l) (alignValues (reCfg π cfg) env' (rePcm π p) l) := by
  cases l with
  | nil => exact Mirror.pure rfl
  | cons r0 rs =>
    have tr : trajOf (rePcm π p) r0 = reMap π (trajOf p r0) := by
      have := trajOf_re (π := π) p r0
      rwa [ha] at this
    have h1 := updateVals_re (π := π) (robotOdomValues_sorted cfg (hp r0) 1)
    rw [← robotOdomValues_re, ← tr] at h1
    have h2 := Mirror.forEach (al := true) (P := KMap.Sorted) (rs := reMap (V := Val G) π) (r := id)
      (f := alignRobot cfg env p r0) (f' := alignRobot (reCfg π cfg) env' (rePcm π p) r0) (fun c => alignRobot_re ha he hp r0 c) rs
    rw [List.map_id] at h2
    exact Mirror.bind h1 fun _ => h2

theorem alignStep_re {cfg : Cfg G T N} (ha : cfg.align = true → ∀ c, π c = c) {env env' : Env G N} (he : Renamed π env env') :
    MS cfg.align π ow id (alignStep cfg env) (alignStep (reCfg π cfg) env') := by
  intro s hs
  cases hal : cfg.align with
  | false =>
    rw [alignStep_off (Or.inl hal), alignStep_off (cfg := reCfg π cfg) (Or.inl hal)]
    exact ⟨hs, rfl⟩
  | true =>
    have hpi := ha hal
    have hro : ∀ l : List Chr, l.map π = l := fun l => by
      have : (π : Chr → Chr) = id := funext hpi
      rw [this, List.map_id]
    unfold alignStep
    have e1 : (reCfg π cfg).align = cfg.align := rfl
    have e2 : (reSt π s).pcm.robotOrder = s.pcm.robotOrder := hro _
    have e3 : (reCfg π cfg).charSigned = cfg.charSigned := rfl
    rw [e1, e2, e3]
    split
    · have hq : ({ (reSt π s).pcm with robotOrder := sortRobots cfg.charSigned s.pcm.robotOrder } : Pcm G T N) =
          rePcm π { s.pcm with robotOrder := sortRobots cfg.charSigned s.pcm.robotOrder } := by
        show _ = ({ rePcm π s.pcm with robotOrder := (sortRobots cfg.charSigned s.pcm.robotOrder).map π } : Pcm G T N)
        rw [hro]; rfl
      have := alignValues_re (π := π) (cfg := cfg) hpi he (p := { s.pcm with robotOrder := sortRobots cfg.charSigned s.pcm.robotOrder })
        (fun c => hs.2.2.traj c) (sortRobots cfg.charSigned s.pcm.robotOrder) s.values hs.1
      dsimp only
      rw [hq]
      rw [show (reSt π s).values = reMap π s.values from rfl]
      cases e : alignValues cfg env { s.pcm with robotOrder := sortRobots cfg.charSigned s.pcm.robotOrder }
        (sortRobots cfg.charSigned s.pcm.robotOrder) s.values with
      | ub u => rw [e] at this; rw [show alignValues _ _ _ _ _ = _ from this]; rfl
      | throw v x =>
        rw [e] at this
        obtain ⟨t, x', h1, _⟩ := this
        rw [h1]
        exact ⟨_, _, rfl, fun h => by cases h⟩
      | ok v _ =>
        rw [e] at this
        obtain ⟨h0, h1⟩ := this
        rw [h1]
        exact ⟨⟨h0, hs.2.1, hs.2.2⟩, rfl⟩
    · exact ⟨hs, rfl⟩

theorem processFactors_re {cfg : Cfg G T N} (ha : cfg.align = true → ∀ c, π c = c) {env env' : Env G N} (he : Renamed π env env') {fs : Graph G N}
    (hfs : Successive π fs ∧ ZeroOrOne π cfg ow fs) (vs : Vals G) :
    MS cfg.align π ow id (processFactors cfg env fs vs) (processFactors (reCfg π cfg) env' (reGraph π fs) (reMap π vs)) := by
  unfold processFactors
  refine Mirror.get fun s hs => ?_
  refine Mirror.bindAt (onPcm_re (sortFactors_re cfg vs s.values hfs.1 hfs.2 [] false)) fun s1 t r hs1 hrun => ?_
  have hcands : ∀ b ∈ r.1, some (Factor.btw b) ∈ fs := by
    obtain ⟨t', hrun, _⟩ := M.zoom_eq_ok.1 hrun
    rw [(sortFactors_ok _ _ _ _ _ _ _ _ _ hrun).2.1]
    intro b hb
    exact mem_btws.1 (List.mem_of_mem_filter hb)
  have hl : (r.1.map (reBtw π)).length = r.1.length := List.length_map ..
  dsimp only
  rw [hl]
  refine Mirror.bind (ra := id) (Mirror.when _ (onPcm_re (processCands_re cfg s.values r.1 (hfs.2.imp id fun h b hb => h b (hcands b hb))))) fun _ => ?_
  exact Mirror.bind (rebuild_re he) fun _ => Mirror.bind (alignStep_re ha he) fun _ => Mirror.pure rfl

theorem removeOutliers_re {cfg : Cfg G T N} (ha : cfg.align = true → ∀ c, π c = c) {env env' : Env G N} (he : Renamed π env env') {fs : Graph G N}
    (hfs : Successive π fs ∧ ZeroOrOne π cfg ow fs) {vs : Vals G} (hvs : vs.Sorted) :
    MS cfg.align π ow id (removeOutliers cfg env fs vs) (removeOutliers (reCfg π cfg) env' (reGraph π fs) (reMap π vs)) := by
  unfold removeOutliers
  refine Mirror.bind (onValues_re hvs) fun _ => ?_
  rw [reGraph_length]
  exact Mirror.cond _ (Mirror.pure rfl) (processFactors_re ha he hfs vs)

theorem reMap_length {m : KMap V} (h : m.Sorted) : (reMap π m).length = m.length := by
  induction m with
  | nil => rfl
  | cons e t ih =>
    obtain ⟨k, v⟩ := e
    show (KMap.set (reMap π t) (reKey π k) v).length = t.length + 1
    have ht : KMap.Sorted t := (List.pairwise_cons.1 h).2
    have hn : (reMap π t).has (reKey π k) = false := by
      rw [reMap_has]
      cases hh : KMap.has t k with
      | false => rfl
      | true =>
        have := (KMap.mem_keys_iff t k).2 hh
        exact absurd this (List.nodup_cons.1 h.nodup).1
    rw [← ih ht]
    exact setLen _ _ _ hn
where
  setLen (m : KMap V) (k : Key) (v : V) (h : m.has k = false) : (KMap.set m k v).length = m.length + 1 := by
    induction m with
    | nil => rfl
    | cons e t ih =>
      obtain ⟨k0, v0⟩ := e
      unfold KMap.set
      split
      · rename_i e
        unfold KMap.has at h
        rw [KMap.find?_cons, if_pos e] at h
        cases h
      · rename_i e
        split
        · rfl
        · have h' : KMap.has t k = false := by
            unfold KMap.has at h ⊢
            rw [KMap.find?_cons, if_neg e] at h
            exact h
          exact congrArg (· + 1) (ih h')

theorem reFactor_keys (f : Factor G N) : (reFactor π f).keys = f.keys.map (reKey π) := by
  cases f <;> rfl

theorem addAndCheck_re (fs : Graph G N) {vs : Vals G} (hvs : vs.Sorted) :
    MS (T := T) al π ow id (addAndCheck fs vs) (addAndCheck (reGraph π fs) (reMap π vs)) := by
  unfold addAndCheck
  refine Mirror.bind (ra := id) (Mirror.modify (fun _ h => h) fun s _ => ?_) fun _ => ?_
  · show ({ reSt π s with nfg := reGraph π s.nfg ++ reGraph π fs } : St G T N) = _
    rw [← reGraph_append]
    rfl
  refine Mirror.bind (onValues_re hvs) fun _ => ?_
  rw [reMap_length hvs]
  match fs with
  | [] => exact Mirror.pure rfl
  | [none] => exact Mirror.undef _
  | [some f] =>
    refine Mirror.pure ?_
    show (!(decide ((reFactor π f).keys.length = 2) && _)) = _
    rw [reFactor_keys, List.length_map]
    rfl
  | none :: _ :: _ => exact Mirror.pure rfl
  | some _ :: _ :: _ => exact Mirror.pure rfl

theorem g2oOk_re (g : Graph G N) : g2oOk (reGraph π g) = g2oOk g := by
  induction g with
  | nil => rfl
  | cons f t ih =>
    cases f with
    | none => exact ih
    | some f =>
      cases f with
      | btw b => exact congrArg (b.noise.isSome && ·) ih
      | prior k m => exact ih
      | priorAlt k m => exact ih
      | other k m => exact ih

theorem getNumLC_re (cfg : Cfg G T N) : MS al π ow id (getNumLC cfg) (getNumLC (reCfg π cfg)) := by
  intro s hs
  unfold getNumLC
  show MirrorOut al (SV π ow) (reSt π) id _ (if cfg.rejection then .ok (reSt π s) s.pcm.totalLc else .ub .nullDeref)
  split
  · exact ⟨hs, rfl⟩
  · rfl

theorem getNumLCInliers_re (cfg : Cfg G T N) : MS al π ow id (getNumLCInliers cfg) (getNumLCInliers (reCfg π cfg)) := by
  intro s hs
  unfold getNumLCInliers
  show MirrorOut al (SV π ow) (reSt π) id _ (if cfg.useGnc then .ok (reSt π s) s.gncNum
    else if cfg.rejection then .ok (reSt π s) s.pcm.totalGood else .ub .nullDeref)
  split
  · exact ⟨hs, rfl⟩
  · split
    · exact ⟨hs, rfl⟩
    · rfl

theorem saveData_re : MS (G := G) (T := T) (N := N) al π ow id saveData saveData := by
  intro s hs
  unfold saveData
  show MirrorOut al (SV π ow) (reSt π) id _ (if g2oOk (reGraph π s.nfg) then .ok (reSt π s) () else .throw (reSt π s) .invalidArg)
  rw [g2oOk_re]
  split
  · exact ⟨hs, rfl⟩
  · exact ⟨_, _, rfl, fun _ => rfl⟩

theorem logStatus_re (cfg : Cfg G T N) : MS al π ow id (logStatus cfg) (logStatus (reCfg π cfg)) := by
  unfold logStatus
  exact Mirror.bind (getNumLC_re cfg) fun _ => Mirror.bind (getNumLCInliers_re cfg) fun _ => saveData_re

theorem update_re {cfg : Cfg G T N} (ha : cfg.align = true → ∀ c, π c = c) {env env' : Env G N} (he : Renamed π env env') {fs : Graph G N}
    (hfs : Successive π fs ∧ ZeroOrOne π cfg ow fs) {vs : Vals G} (hvs : vs.Sorted) (o : Bool) :
    MS cfg.align π ow id (update cfg env fs vs o) (update (reCfg π cfg) env' (reGraph π fs) (reMap π vs) o) := by
  unfold update
  refine Mirror.bind (ra := id) (Mirror.cond _ (removeOutliers_re ha he hfs hvs) (addAndCheck_re fs hvs)) fun b => ?_
  exact Mirror.bind (ra := id) (Mirror.when _ (optimize_re cfg he)) fun _ => Mirror.when _ (logStatus_re cfg)

theorem forceUpdate_re {cfg : Cfg G T N} (ha : cfg.align = true → ∀ c, π c = c) {env env' : Env G N} (he : Renamed π env env') {fs : Graph G N}
    (hfs : Successive π fs ∧ ZeroOrOne π cfg ow fs) {vs : Vals G} (hvs : vs.Sorted) :
    MS cfg.align π ow id (forceUpdate cfg env fs vs) (forceUpdate (reCfg π cfg) env' (reGraph π fs) (reMap π vs)) := by
  unfold forceUpdate
  refine Mirror.bind (ra := id) (Mirror.cond _ (removeOutliers_re ha he hfs hvs) (addAndCheck_re fs hvs)) fun b => ?_
  exact Mirror.bind (ra := id) (optimize_re cfg he) fun _ => Mirror.when _ (logStatus_re cfg)

theorem removeFactors_re (is : List Nat) : MS (G := G) (T := T) (N := N) al π ow id (removeFactors is) (removeFactors is) := by
  induction is with
  | nil => exact Mirror.pure rfl
  | cons i is ih =>
    intro s hs
    unfold removeFactors
    show MirrorOut al (SV π ow) (reSt π) id _ (if i < (reGraph π s.nfg).length then
      removeFactors is { reSt π s with nfg := (reGraph π s.nfg).set i none } else .throw (reSt π s) .outOfRange)
    rw [reGraph_length]
    split
    · have := ih { s with nfg := s.nfg.set i none } hs
      have hh : ({ reSt π s with nfg := (reGraph π s.nfg).set i none } : St G T N) = reSt π { s with nfg := s.nfg.set i none } := by
        show _ = ({ reSt π s with nfg := reGraph π (s.nfg.set i none) } : St G T N)
        unfold reGraph
        rw [List.map_set]
        rfl
      rw [hh]
      exact this
    · exact ⟨_, _, rfl, fun _ => rfl⟩

theorem genericUpdate_re {env env' : Env G N} (he : Renamed π env env') (fs : Graph G N) {vs : Vals G} (hvs : vs.Sorted) (rm : List Nat) :
    MS (T := T) al π ow id (genericUpdate env fs vs rm) (genericUpdate env' (reGraph π fs) (reMap π vs) rm) := by
  unfold genericUpdate
  refine Mirror.bind (removeFactors_re rm) fun _ => ?_
  refine Mirror.bind (addAndCheck_re fs hvs) fun lc => ?_
  refine Mirror.ite Iff.rfl (Mirror.get fun s hs => ?_) (Mirror.pure rfl)
  have hm : mergeVals (reSt π s).values (reSt π s).tempValues = (mergeVals s.values s.tempValues).map (reMap π) := mergeVals_re hs.1 hs.2.1
  rw [hm]
  cases e : mergeVals s.values s.tempValues with
  | none => exact Mirror.raise _
  | some full =>
    dsimp only [Option.map_some]
    have : (reSt π s).nfg ++ (reSt π s).tempNfg = reGraph π (s.nfg ++ s.tempNfg) := (reGraph_append _ _).symm
    rw [this, he.opt _ _ (mergeVals_sorted' hs.1 e)]
    cases e' : env.opt (s.nfg ++ s.tempNfg) full with
    | none => exact Mirror.raise _
    | some r => exact applyResult_re (he.optMap _ _ _ (mergeVals_sorted' hs.1 e) e')

/-! ### Removal -/

/-- The renamed edge. -/
def reEdge (π : Naming) : EdgePtr → EdgePtr := Option.map fun e => (reKey π e.1, reKey π e.2)

theorem removeLastFactor_re : MS (G := G) (T := T) (N := N) al π ow (reEdge π) removeLastFactor removeLastFactor := by
  intro s hs
  unfold removeLastFactor
  have hl : (reSt π s).nfg.getLast? = s.nfg.getLast?.map (Option.map (reFactor π)) := List.getLast?_map ..
  rw [hl]
  cases s.nfg.getLast? with
  | none => exact ⟨_, _, rfl, fun _ => rfl⟩
  | some f =>
    cases f with
    | none => rfl
    | some f =>
      dsimp only [Option.map_some]
      rw [reFactor_keys, List.head?_map, List.getLast?_map]
      cases f.keys.head? with
      | none => rfl
      | some a =>
        cases f.keys.getLast? with
        | none => rfl
        | some b =>
          refine ⟨hs, ?_⟩
          show Out.ok ({ reSt π s with nfg := (reGraph π s.nfg).dropLast } : St G T N) _ =
            Out.ok ({ reSt π s with nfg := reGraph π s.nfg.dropLast } : St G T N) _
          unfold reGraph
          rw [List.map_dropLast]
          rfl

theorem isPriorOf_iff (sg : Bool) (c : Chr) (k : Key) : isPriorOf sg c k = true ↔ chr k = c ∧ (sg = false ∨ c.toNat < 128) := by
  unfold isPriorOf ucharVal charVal
  rw [decide_eq_true_iff]
  have h1 : c.toNat < 2 ^ 8 := c.isLt
  have h2 : (chr k).toNat < 2 ^ 8 := (chr k).isLt
  cases sg with
  | false =>
    simp only [Bool.false_eq_true, if_false, true_or, and_true]
    exact ⟨fun h => BitVec.eq_of_toNat_eq (by exact_mod_cast h), fun h => by rw [h]⟩
  | true =>
    simp only [if_true, Bool.true_eq_false, false_or]
    rw [BitVec.toInt_eq_toNat_cond]
    constructor
    · intro h
      split at h
      · exact ⟨BitVec.eq_of_toNat_eq (by exact_mod_cast h), by omega⟩
      · omega
    · rintro ⟨h, hc⟩
      rw [if_pos (by omega), h]

theorem isPriorOf_re {cfg : Cfg G T N} (hc : CharsFit π cfg) (c : Chr) (k : Key) :
    isPriorOf (reCfg π cfg).charSigned (π c) (reKey π k) = isPriorOf cfg.charSigned c k := by
  rw [Bool.eq_iff_iff, isPriorOf_iff, isPriorOf_iff, chr_reKey, EmbeddingLike.apply_eq_iff_eq]
  show _ ∧ (cfg.charSigned = false ∨ _) ↔ _
  rcases hc with hc | hc
  · simp only [hc, true_or]
  · rw [hc]

theorem filter_re {α : Type} {f : α → α} {p p' : α → Bool} (h : ∀ a, p' (f a) = p a) (l : List α) :
    (l.map f).filter p' = (l.filter p).map f := by
  rw [List.filter_map]
  congr 2
  funext a
  exact h a

theorem removePriorsGeneric_re {cfg : Cfg G T N} (hc : CharsFit π cfg) (c : Chr) :
    MS al π ow id (removePriorsGeneric cfg c) (removePriorsGeneric (reCfg π cfg) (π c)) := by
  refine Mirror.modify (fun _ h => h) fun s _ => ?_
  refine congrArg (fun g => ({ reSt π s with nfg := g } : St G T N)) (filter_re (fun f => ?_) s.nfg)
  match f with
  | none => rfl
  | some (.btw b) => rfl
  | some (.prior k m) => exact congrArg (fun b => !b) (isPriorOf_re hc c k)
  | some (.priorAlt k m) => exact congrArg (fun b => !b) (isPriorOf_re hc c k)
  | some (.other k m) => rfl

theorem removePriorsPcm_re {cfg : Cfg G T N} (hc : CharsFit π cfg) {env env' : Env G N} (he : Renamed π env env') (c : Chr) :
    MS al π ow id (removePriorsPcm cfg env c) (removePriorsPcm (reCfg π cfg) env' (π c)) := by
  unfold removePriorsPcm
  refine Mirror.bind (ra := id) (onPcm_re (modify_re (fun _ h => h) fun p => ?_)) fun _ => rebuild_re he
  refine congrArg (fun g => ({ rePcm π p with special := g } : Pcm G T N)) (filter_re (fun f => ?_) p.special)
  match f with
  | .btw b => rfl
  | .prior k m => exact congrArg (fun b => !b) (isPriorOf_re hc c k)
  | .priorAlt k m => rfl
  | .other k m => rfl

theorem removePriors_re {cfg : Cfg G T N} (hc : CharsFit π cfg) {env env' : Env G N} (he : Renamed π env env') (c : Chr) (o : Bool) :
    MS al π ow id (removePriors cfg env c o) (removePriors (reCfg π cfg) env' (π c) o) := by
  unfold removePriors
  refine Mirror.bind (ra := id) (Mirror.cond _ (removePriorsPcm_re hc he c) (removePriorsGeneric_re hc c)) fun _ => ?_
  exact Mirror.when _ (optimize_re cfg he)

theorem removeLastMeas_re : Mirror al (fun _ => True) (reMeas π) (reEdge π) (removeLastMeas : M (Meas G N) EdgePtr) removeLastMeas := by
  intro m _
  unfold removeLastMeas
  show MirrorOut _ _ _ _ _ (if m.adj.n = 0 then .ok (reMeas π m) none else match (m.factors.map (reBtw π)).getLast? with
    | none => .throw (reMeas π m) .outOfRange
    | some last =>
      if ((m.factors.map (reBtw π)).dropLast).length < 2 then
        .ok { reMeas π m with factors := (m.factors.map (reBtw π)).dropLast, cons := (m.factors.map (reBtw π)).dropLast } (some (last.k1, last.k2))
      else
        match measInliers { reMeas π m with factors := (m.factors.map (reBtw π)).dropLast, adj := ⟨m.adj.n - 1, m.adj.e⟩ } with
        | .ok m _ => .ok m (some (last.k1, last.k2))
        | .throw m e => .throw m e
        | .ub u => .ub u)
  rw [← List.map_dropLast, List.getLast?_map, List.length_map]
  split
  · exact ⟨trivial, rfl⟩
  cases m.factors.getLast? with
  | none => exact ⟨_, _, rfl, fun _ => rfl⟩
  | some last =>
    dsimp only [Option.map_some]
    split
    · exact ⟨trivial, rfl⟩
    have := measInliers_re (π := π) { m with factors := m.factors.dropLast, adj := ⟨m.adj.n - 1, m.adj.e⟩ }
    rw [show ({ reMeas π m with factors := m.factors.dropLast.map (reBtw π), adj := ⟨m.adj.n - 1, m.adj.e⟩ } : Meas G N) =
      reMeas π { m with factors := m.factors.dropLast, adj := ⟨m.adj.n - 1, m.adj.e⟩ } from rfl, this]
    cases measInliers { m with factors := m.factors.dropLast, adj := ⟨m.adj.n - 1, m.adj.e⟩ } with
    | ok m' _ => exact ⟨trivial, rfl⟩
    | throw m' e => exact ⟨_, _, rfl, fun _ => rfl⟩
    | ub u => rfl

theorem removeLastMeas_sub {m m' : Meas G N} {e : EdgePtr} (h : removeLastMeas m = .ok m' e) : ∀ x ∈ m'.factors, x ∈ m.factors := by
  have := removeLastMeas_ends m
  rw [h] at this
  intro x hx
  cases this with
  | same => exact hx
  | few h1 _ => rw [h1]; exact List.mem_append_left _ hx
  | many h1 _ _ _ _ => rw [h1]; exact List.mem_append_left _ hx

theorem removeLastOfPair_re {env env' : Env G N} (he : Renamed π env env') (i : ObsId) :
    MS (T := T) al π ow (reEdge π) (removeLastOfPair env i) (removeLastOfPair env' (reId π i)) := by
  unfold removeLastOfPair
  refine Mirror.get fun s hs => ?_
  have hg : AList.get? ObsId.eqv (reSt π s).pcm.lcs (reId π i) = (AList.get? ObsId.eqv s.pcm.lcs i).map (reMeas π) :=
    alist_get (eq := ObsId.eqv) reId_eqv _ _
  rw [hg]
  cases AList.get? ObsId.eqv s.pcm.lcs i with
  | none => exact Mirror.pure rfl
  | some m =>
    dsimp only [Option.map_some]
    refine Mirror.bind (ra := reEdge π) (onPcm_re ?_) fun e => ?_
    · refine Mirror.zoom (Q := fun m => π.Roots ∨ PairOk i m) (rt := reMeas π)
        (removeLastMeas_re.strong fun m m' _ hm e => hm.imp id fun hm x hx => hm x (removeLastMeas_sub e x hx))
        (fun s hs => ⟨hs.lcOf _, lcOf_re _ _⟩) (fun s t hs ht => ⟨?_, ?_⟩)
      · exact hs.updLc (ht.imp id fun ht _ _ => ht)
      symm; exact updLc_re s i fun m => rfl
    · cases e with
      | none => exact Mirror.pure rfl
      | some e => exact Mirror.bind (rebuild_re he) fun _ => Mirror.pure rfl

theorem removeLastPcm_re {env env' : Env G N} (he : Renamed π env env') :
    MS (T := T) al π ow (reEdge π) (removeLastPcm env) (removeLastPcm env') := by
  unfold removeLastPcm
  refine Mirror.get fun s hs => ?_
  have hg : (reSt π s).pcm.inOrder.getLast? = s.pcm.inOrder.getLast?.map (reId π) := List.getLast?_map ..
  rw [hg]
  cases s.pcm.inOrder.getLast? with
  | none => exact Mirror.pure rfl
  | some i =>
    refine Mirror.bind (ra := id) (onPcm_re (modify_re (fun _ h => h) fun p => ?_)) fun _ => removeLastOfPair_re he i
    exact congrArg (fun g => ({ rePcm π p with inOrder := g } : Pcm G T N)) List.map_dropLast.symm

theorem removeLastLC2_re (cfg : Cfg G T N) {env env' : Env G N} (he : Renamed π env env') (a b : Chr) :
    MS al π ow (reEdge π) (removeLastLC2 cfg env a b) (removeLastLC2 (reCfg π cfg) env' (π a) (π b)) := by
  unfold removeLastLC2
  refine Mirror.bind (Mirror.cond _ (removeLastOfPair_re he ⟨a, b⟩) removeLastFactor_re) fun e => ?_
  exact Mirror.bind (optimize_re cfg he) fun _ => Mirror.pure rfl

theorem removeLastLC_re (cfg : Cfg G T N) {env env' : Env G N} (he : Renamed π env env') :
    MS al π ow (reEdge π) (removeLastLC cfg env) (removeLastLC (reCfg π cfg) env') := by
  unfold removeLastLC
  refine Mirror.bind (Mirror.cond _ (removeLastPcm_re he) removeLastFactor_re) fun e => ?_
  exact Mirror.bind (optimize_re cfg he) fun _ => Mirror.pure rfl

theorem contains_re (l : List Chr) (c : Chr) : (l.map π).contains (π c) = l.contains c := by
  rw [Bool.eq_iff_iff, List.contains_iff_mem, List.contains_iff_mem, List.mem_map]
  exact ⟨fun ⟨x, h1, h2⟩ => by rw [← π.chrs.injective h2]; exact h1, fun h => ⟨c, h, rfl⟩⟩

theorem ignorePrefix_re (cfg : Cfg G T N) {env env' : Env G N} (he : Renamed π env env') (c : Chr) :
    MS al π ow id (ignorePrefix cfg env c) (ignorePrefix (reCfg π cfg) env' (π c)) := by
  unfold ignorePrefix ignorePcm
  refine Mirror.bind (ra := id) (Mirror.when _ (Mirror.bind (ra := id) (onPcm_re (modify_re (fun _ h => by split <;> exact h) fun p => ?_)) fun _ => rebuild_re he)) fun _ =>
    optimize_re cfg he
  show (if (p.ignored.map π).contains (π c) then rePcm π p else { rePcm π p with ignored := p.ignored.map π ++ [π c] }) = _
  rw [contains_re]
  split
  · rfl
  · exact congrArg (fun g => ({ rePcm π p with ignored := g } : Pcm G T N)) (List.map_append (f := π) (l₁ := p.ignored) (l₂ := [c])).symm

theorem revivePrefix_re (cfg : Cfg G T N) {env env' : Env G N} (he : Renamed π env env') (c : Chr) :
    MS al π ow id (revivePrefix cfg env c) (revivePrefix (reCfg π cfg) env' (π c)) := by
  unfold revivePrefix revivePcm
  refine Mirror.bind (ra := id) (Mirror.when _ (Mirror.bind (ra := id) (onPcm_re (modify_re (fun _ h => h) fun p => ?_)) fun _ => rebuild_re he)) fun _ =>
    optimize_re cfg he
  refine congrArg (fun g => ({ rePcm π p with ignored := g } : Pcm G T N)) (filter_re (fun x => ?_) p.ignored)
  exact congrArg _ (beq_chr x c)

/-! ### Calls -/

theorem ret_re {α : Type} {ra : α → α} {m m' : M (St G T N) α} {f f' : α → Ret} (h : MS al π ow ra m m') (hf : ∀ a, f' (ra a) = reRet π (f a)) :
    MS al π ow (reRet π) (m.ret f) (m'.ret f') := Mirror.bind h fun a => Mirror.pure (hf a)

theorem exec_re {cfg : Cfg G T N} (ha : cfg.align = true → ∀ c, π c = c) (hc : CharsFit π cfg) {env env' : Env G N} (he : Renamed π env env') {op : Op G N}
    (hop : Numbered π cfg ow op) : MS cfg.align π ow (reRet π) (exec cfg env op) (exec (reCfg π cfg) env' (reOp π op)) := by
  have edge : ∀ e, Ret.edge (reEdge π e) = reRet π (.edge e) := by intro e; cases e <;> rfl
  cases op with
  | update fs vs o => exact ret_re (update_re ha he hop.1 hop.2 o) fun _ => rfl
  | forceUpdate fs vs => exact ret_re (forceUpdate_re ha he hop.1 hop.2) fun _ => rfl
  | removePriors c o => exact ret_re (removePriors_re hc he c o) fun _ => rfl
  | removeLastPair a b => exact ret_re (removeLastLC2_re cfg he a b) edge
  | removeLast => exact ret_re (removeLastLC_re cfg he) edge
  | ignore c => exact ret_re (ignorePrefix_re cfg he c) fun _ => rfl
  | revive c => exact ret_re (revivePrefix_re cfg he c) fun _ => rfl
  | getNumLC => exact ret_re (getNumLC_re cfg) fun _ => rfl
  | getNumLCInliers => exact ret_re (getNumLCInliers_re cfg) fun _ => rfl
  | saveData => exact ret_re saveData_re fun _ => rfl
  | removeFactors is => exact ret_re (removeFactors_re is) fun _ => rfl
  | removeLastFactor => exact ret_re removeLastFactor_re edge
  | removePriorsGeneric c => exact ret_re (removePriorsGeneric_re hc c) fun _ => rfl
  | updateValues vs => exact ret_re (applyResult_re hop) fun _ => rfl
  | genericUpdate fs vs rm => exact ret_re (genericUpdate_re he fs hop rm) fun _ => rfl
  | tempUpdate fs vs =>
    show MS cfg.align π ow (reRet π) (M.bind (M.modify fun s => { s with tempNfg := s.tempNfg ++ fs }) fun _ =>
        (M.zoom (fun s => s.tempValues) (fun v s => { s with tempValues := v }) (insertVals vs)).ret fun _ => .unit)
      (M.bind (M.modify fun s => { s with tempNfg := s.tempNfg ++ reGraph π fs }) fun _ =>
        (M.zoom (fun s => s.tempValues) (fun v s => { s with tempValues := v }) (insertVals (reMap π vs))).ret fun _ => .unit)
    refine Mirror.bind (ra := id) (Mirror.modify (fun _ h => h) fun s _ => ?_) fun _ => ret_re (ra := id) ?_ fun _ => rfl
    · exact congrArg (fun g => ({ reSt π s with tempNfg := g } : St G T N)) (reGraph_append s.tempNfg fs).symm
    · exact Mirror.zoom (insertVals_re hop) (fun _ hs => ⟨hs.2.1, rfl⟩) (fun _ _ hs ht => ⟨⟨hs.1, ht, hs.2.2⟩, rfl⟩)
  | tempReplace fs vs => exact ret_re (ra := id) (Mirror.modify (fun _ h => ⟨h.1, hop, h.2.2⟩) fun s _ => rfl) fun _ => rfl
  | tempClear => exact ret_re (ra := id) (Mirror.modify (fun _ h => ⟨h.1, List.Pairwise.nil, h.2.2⟩) fun s _ => rfl) fun _ => rfl

theorem reSt_init : reSt π (St.init : St G T N) = St.init := rfl

theorem reachOk_sv {cfg : Cfg G T N} (ha : cfg.align = true → ∀ c, π c = c) (hc : CharsFit π cfg) {env env' : Env G N} (he : Renamed π env env')
    {h : List (Op G N)} {s : St G T N} (hr : ReachOk cfg env h s) (hreg : ∀ op ∈ h, Numbered π cfg ow op) :
    SV π ow s ∧ ReachOk (reCfg π cfg) env' (h.map (reOp π)) (reSt π s) := by
  induction hr with
  | init => exact ⟨⟨List.Pairwise.nil, List.Pairwise.nil, (by intro e he; cases he), Or.inr ⟨(by intro e he; cases he), (by intro e he; cases he)⟩⟩, .init⟩
  | step hr e ih =>
    rename_i h s op s' r
    obtain ⟨h1, h2⟩ := ih fun op' ho => hreg op' (List.mem_append_left _ ho)
    have := exec_re ha hc he (hreg op (List.mem_append_right _ List.mem_cons_self)) s h1
    rw [e] at this
    refine ⟨this.1, ?_⟩
    rw [List.map_append]
    exact .step h2 this.2

end RPGO
