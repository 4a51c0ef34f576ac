import Verif.Model.Basic
/-
Reasoning rules for procedures, and lemmas about the association lists.
-/

namespace RPGO

namespace M
variable {σ τ α β : Type}

@[simp] theorem pure_eq (a : α) : (Pure.pure a : M σ α) = M.pure a := rfl
@[simp] theorem bind_eq (m : M σ α) (f : α → M σ β) : (m >>= f) = M.bind m f := rfl
@[simp] theorem pure_apply (a : α) (s : σ) : (M.pure a : M σ α) s = .ok s a := rfl
@[simp] theorem get_apply (s : σ) : (M.get : M σ σ) s = .ok s s := rfl
@[simp] theorem modify_apply (f : σ → σ) (s : σ) : M.modify f s = .ok (f s) () := rfl
@[simp] theorem raise_apply (e : Exn) (s : σ) : (M.raise e : M σ α) s = .throw s e := rfl
@[simp] theorem undef_apply (u : UB) (s : σ) : (M.undef u : M σ α) s = .ub u := rfl

theorem bind_apply (m : M σ α) (f : α → M σ β) (s : σ) :
    M.bind m f s = match m s with
      | .ok s' a => f a s'
      | .throw s' e => .throw s' e
      | .ub u => .ub u := rfl

theorem bind_ok {m : M σ α} {f : α → M σ β} {s s' : σ} {a : α} (h : m s = .ok s' a) :
    M.bind m f s = f a s' := by rw [bind_apply, h]

theorem bind_throw {m : M σ α} {f : α → M σ β} {s s' : σ} {e : Exn} (h : m s = .throw s' e) :
    M.bind m f s = .throw s' e := by rw [bind_apply, h]

/-- A bind that returns normally did so in both parts. -/
theorem bind_eq_ok {m : M σ α} {f : α → M σ β} {s s' : σ} {b : β} :
    M.bind m f s = .ok s' b ↔ ∃ s1 a, m s = .ok s1 a ∧ f a s1 = .ok s' b := by
  rw [bind_apply]
  cases h : m s with
  | ok s1 a =>
    constructor
    · exact fun h' => ⟨s1, a, rfl, h'⟩
    · rintro ⟨_, _, h1, h2⟩; cases h1; exact h2
  | throw => simp
  | ub => simp

theorem bind_eq_throw {m : M σ α} {f : α → M σ β} {s s' : σ} {e : Exn} :
    M.bind m f s = .throw s' e ↔ m s = .throw s' e ∨ ∃ s1 a, m s = .ok s1 a ∧ f a s1 = .throw s' e := by
  rw [bind_apply]
  cases h : m s with
  | ok s1 a =>
    constructor
    · exact fun h' => Or.inr ⟨s1, a, rfl, h'⟩
    · rintro (h1 | ⟨_, _, h1, h2⟩)
      · cases h1
      · cases h1; exact h2
  | throw => simp
  | ub => simp

theorem zoom_eq_ok {g : σ → τ} {u : τ → σ → σ} {m : M τ α} {s s' : σ} {a : α} :
    M.zoom g u m s = .ok s' a ↔ ∃ t, m (g s) = .ok t a ∧ s' = u t s := by
  unfold M.zoom
  cases h : m (g s) <;> simp only [reduceCtorEq, false_and, exists_false, Out.ok.injEq, Out.throw.injEq]
  constructor
  · rintro ⟨rfl, rfl⟩; exact ⟨_, ⟨rfl, rfl⟩, rfl⟩
  · rintro ⟨_, ⟨rfl, rfl⟩, rfl⟩; exact ⟨rfl, rfl⟩

theorem zoom_eq_throw {g : σ → τ} {u : τ → σ → σ} {m : M τ α} {s s' : σ} {e : Exn} :
    M.zoom g u m s = .throw s' e ↔ ∃ t, m (g s) = .throw t e ∧ s' = u t s := by
  unfold M.zoom
  cases h : m (g s) <;> simp only [reduceCtorEq, false_and, exists_false, Out.ok.injEq, Out.throw.injEq]
  constructor
  · rintro ⟨rfl, rfl⟩; exact ⟨_, ⟨rfl, rfl⟩, rfl⟩
  · rintro ⟨_, ⟨rfl, rfl⟩, rfl⟩; exact ⟨rfl, rfl⟩

/-- Every outcome of `o`, normal or exceptional, ends in a state satisfying `P`. -/
def Ends (P : σ → Prop) : Out σ α → Prop
  | .ok s _ => P s
  | .throw s _ => P s
  | .ub _ => True

@[simp] theorem ends_ok {P : σ → Prop} {s : σ} {a : α} : Ends P (.ok s a : Out σ α) = P s := rfl
@[simp] theorem ends_throw {P : σ → Prop} {s : σ} {e : Exn} : Ends P (.throw s e : Out σ α) = P s := rfl
@[simp] theorem ends_ub {P : σ → Prop} {u : UB} : Ends P (.ub u : Out σ α) = True := rfl

theorem Ends.mono {P Q : σ → Prop} {o : Out σ α} (h : ∀ s, P s → Q s) (ho : Ends P o) : Ends Q o := by
  cases o
  · exact h _ ho
  · exact h _ ho
  · trivial

theorem Ends.of_ok {P : σ → Prop} {o : Out σ α} {s : σ} {a : α} (h : Ends P o) (e : o = .ok s a) : P s := by
  subst e; exact h

theorem Ends.of_throw {P : σ → Prop} {o : Out σ α} {s : σ} {x : Exn} (h : Ends P o) (e : o = .throw s x) : P s := by
  subst e; exact h

/-- `m` relates its start state to every end state (normal or exceptional) by `R`. -/
def Pres (R : σ → σ → Prop) (m : M σ α) : Prop := ∀ s, Ends (R s) (m s)

section
variable {R : σ → σ → Prop}

theorem Pres.of_ok {m : M σ α} (h : Pres R m) {s s' : σ} {a : α} (e : m s = .ok s' a) : R s s' :=
  (h s).of_ok e

theorem Pres.of_throw {m : M σ α} (h : Pres R m) {s s' : σ} {x : Exn} (e : m s = .throw s' x) : R s s' :=
  (h s).of_throw e

theorem Pres.pure (hr : ∀ s, R s s) (a : α) : Pres R (M.pure a : M σ α) := fun s => hr s
theorem Pres.get (hr : ∀ s, R s s) : Pres R (M.get : M σ σ) := fun s => hr s
theorem Pres.raise (hr : ∀ s, R s s) (e : Exn) : Pres R (M.raise e : M σ α) := fun s => hr s
theorem Pres.undef (u : UB) : Pres R (M.undef u : M σ α) := fun _ => trivial
theorem Pres.modify {f : σ → σ} (h : ∀ s, R s (f s)) : Pres R (M.modify f) := fun s => h s

theorem Pres.bind (ht : ∀ a b c, R a b → R b c → R a c) {m : M σ α} {f : α → M σ β} (hm : Pres R m)
    (hf : ∀ a, Pres R (f a)) : Pres R (M.bind m f) := by
  intro s
  rw [bind_apply]
  have h1 := hm s
  cases e : m s with
  | ok s' a =>
    rw [e] at h1
    exact Ends.mono (fun s'' h => ht _ _ _ h1 h) (hf a s')
  | throw s' x => rw [e] at h1; exact h1
  | ub u => trivial

theorem Pres.forEach (hr : ∀ s, R s s) (ht : ∀ a b c, R a b → R b c → R a c) {f : α → M σ Unit}
    (hf : ∀ a, Pres R (f a)) (l : List α) : Pres R (M.forEach f l) := by
  induction l with
  | nil => exact Pres.pure hr ()
  | cons x xs ih => exact Pres.bind ht (hf x) (fun _ => ih)

theorem Pres.zoom {g : σ → τ} {u : τ → σ → σ} {m : M τ α} {R' : τ → τ → Prop} (hm : Pres R' m)
    (h : ∀ s t, R' (g s) t → R s (u t s)) : Pres R (M.zoom g u m) := by
  intro s
  have h1 := hm (g s)
  unfold M.zoom
  cases e : m (g s) with
  | ok t a => rw [e] at h1; exact h s t h1
  | throw t x => rw [e] at h1; exact h s t h1
  | ub _ => trivial

theorem Pres.ret {γ : Type} {m : M σ α} (hr : ∀ s, R s s) (ht : ∀ a b c, R a b → R b c → R a c) (hm : Pres R m)
    (f : α → γ) : Pres R (M.bind m fun a => M.pure (f a)) :=
  Pres.bind ht hm fun a => Pres.pure hr (f a)

theorem Pres.mono {R' : σ → σ → Prop} {m : M σ α} (h : ∀ s t, R s t → R' s t) (hm : Pres R m) : Pres R' m :=
  fun s => Ends.mono (fun t => h s t) (hm s)

theorem Pres.and {R' : σ → σ → Prop} {m : M σ α} (h1 : Pres R m) (h2 : Pres R' m) :
    Pres (fun s t => R s t ∧ R' s t) m := by
  intro s
  have a := h1 s; have b := h2 s
  cases e : m s with
  | ok => rw [e] at a b; exact ⟨a, b⟩
  | throw => rw [e] at a b; exact ⟨a, b⟩
  | ub => trivial
end

end M

/-! ### Sorted maps -/

namespace KMap
variable {V : Type}

@[simp] theorem find?_nil (k : Key) : find? ([] : KMap V) k = none := rfl

theorem find?_cons (k' : Key) (v : V) (t : KMap V) (k : Key) :
    find? ((k', v) :: t) k = if k' = k then some v else find? t k := rfl

theorem find?_set (m : KMap V) (k : Key) (v : V) (k' : Key) :
    find? (set m k v) k' = if k = k' then some v else find? m k' := by
  induction m with
  | nil => simp [set, find?]
  | cons e t ih =>
    obtain ⟨k0, v0⟩ := e
    unfold set
    by_cases h0 : k0 = k
    · subst h0
      by_cases h : k0 = k' <;> simp [find?, h]
    · simp only [h0, if_false]
      by_cases hlt : k.toNat < k0.toNat
      · simp only [hlt, if_true, find?]
      · simp only [hlt, if_false, find?]
        by_cases h : k0 = k'
        · subst h; simp [Ne.symm h0]
        · simp [h, ih]

theorem find?_set_self (m : KMap V) (k : Key) (v : V) : find? (set m k v) k = some v := by simp [find?_set]

theorem find?_set_ne (m : KMap V) {k k' : Key} (v : V) (h : k ≠ k') : find? (set m k v) k' = find? m k' := by
  simp [find?_set, h]

theorem has_set (m : KMap V) (k : Key) (v : V) (k' : Key) :
    has (set m k v) k' = (decide (k = k') || has m k') := by
  unfold has
  rw [find?_set]
  by_cases h : k = k' <;> simp [h]

theorem mem_keys_iff (m : KMap V) (k : Key) : k ∈ keys m ↔ has m k = true := by
  unfold keys has
  induction m with
  | nil => simp
  | cons e t ih =>
    obtain ⟨k0, v0⟩ := e
    simp only [List.map_cons, List.mem_cons, find?]
    by_cases h : k0 = k
    · subst h; simp
    · simp only [h, if_false]
      rw [ih]
      constructor
      · rintro (h' | h')
        · exact absurd h'.symm h
        · exact h'
      · exact Or.inr

/-- Keys strictly ascending, as in `std::map`. -/
def Sorted (m : KMap V) : Prop := (keys m).Pairwise (fun a b => a.toNat < b.toNat)

theorem mem_set {m : KMap V} {k : Key} {v : V} {e : Key × V} (h : e ∈ set m k v) : e = (k, v) ∨ e ∈ m := by
  induction m with
  | nil => simp [set] at h; exact Or.inl h
  | cons e0 t ih =>
    obtain ⟨k0, v0⟩ := e0
    unfold set at h
    split at h
    · rcases List.mem_cons.1 h with h | h
      · exact Or.inl h
      · exact Or.inr (List.mem_cons_of_mem _ h)
    · split at h
      · rcases List.mem_cons.1 h with h | h
        · exact Or.inl h
        · exact Or.inr h
      · rcases List.mem_cons.1 h with h | h
        · exact Or.inr (h ▸ List.mem_cons_self)
        · rcases ih h with h | h
          · exact Or.inl h
          · exact Or.inr (List.mem_cons_of_mem _ h)

theorem Sorted.set {m : KMap V} (h : Sorted m) (k : Key) (v : V) : Sorted (set m k v) := by
  induction m with
  | nil => simp [KMap.set, Sorted, keys]
  | cons e t ih =>
    obtain ⟨k0, v0⟩ := e
    unfold Sorted keys at h
    rw [List.map_cons, List.pairwise_cons] at h
    unfold KMap.set
    split
    · rename_i e; subst e; unfold Sorted keys; rw [List.map_cons, List.pairwise_cons]; exact h
    · split
      · rename_i hlt
        unfold Sorted keys
        rw [List.map_cons, List.pairwise_cons, List.map_cons, List.pairwise_cons]
        refine ⟨?_, h⟩
        intro a ha
        rcases List.mem_cons.1 ha with rfl | ha
        · exact hlt
        · exact Nat.lt_trans hlt (h.1 a ha)
      · rename_i hne hlt
        unfold Sorted keys
        rw [List.map_cons, List.pairwise_cons]
        refine ⟨?_, ih h.2⟩
        intro a ha
        obtain ⟨e, he, rfl⟩ := List.mem_map.1 ha
        rcases mem_set he with rfl | he
        · have hne' : k0.toNat ≠ k.toNat := fun e => hne (BitVec.eq_of_toNat_eq e)
          simp only at hlt ⊢
          omega
        · exact h.1 _ (List.mem_map.2 ⟨e, he, rfl⟩)

theorem Sorted.nodup {m : KMap V} (h : Sorted m) : (keys m).Nodup :=
  List.Pairwise.imp (fun {a b} h e => by subst e; omega) h

/-- Overwriting an existing key does not change the key list. -/
theorem keys_set_of_has {m : KMap V} (hs : Sorted m) {k : Key} (h : has m k = true) (v : V) :
    keys (set m k v) = keys m := by
  induction m with
  | nil => simp [has] at h
  | cons e t ih =>
    obtain ⟨k0, v0⟩ := e
    have hs' : Sorted t := by
      unfold Sorted keys at hs ⊢; rw [List.map_cons, List.pairwise_cons] at hs; exact hs.2
    unfold set
    split
    · rename_i e; subst e; rfl
    · rename_i hne
      have ht : has t k = true := by
        unfold has at h ⊢; rw [find?_cons, if_neg hne] at h; exact h
      have : k0.toNat < k.toNat := by
        unfold Sorted keys at hs
        rw [List.map_cons, List.pairwise_cons] at hs
        exact hs.1 k ((mem_keys_iff t k).2 ht)
      rw [if_neg (by omega)]
      unfold keys at ih ⊢
      rw [List.map_cons, List.map_cons, ih hs' ht]

theorem find?_mem {m : KMap V} {k : Key} {v : V} (h : find? m k = some v) : (k, v) ∈ m := by
  induction m with
  | nil => simp at h
  | cons e t ih =>
    obtain ⟨k0, v0⟩ := e
    rw [find?_cons] at h
    split at h
    · rename_i e; subst e; cases h; exact List.mem_cons_self
    · exact List.mem_cons_of_mem _ (ih h)

theorem find?_of_mem {m : KMap V} (hs : Sorted m) {k : Key} {v : V} (h : (k, v) ∈ m) : find? m k = some v := by
  induction m with
  | nil => cases h
  | cons e t ih =>
    obtain ⟨k0, v0⟩ := e
    unfold Sorted keys at hs
    rw [List.map_cons, List.pairwise_cons] at hs
    rw [find?_cons]
    rcases List.mem_cons.1 h with h | h
    · cases h; simp
    · have := hs.1 k (List.mem_map.2 ⟨_, h, rfl⟩)
      rw [if_neg (fun e => by subst e; exact Nat.lt_irrefl _ this)]
      exact ih hs.2 h

/-- Two sorted maps with the same lookups are equal. -/
theorem Sorted.ext {m m' : KMap V} (hs : Sorted m) (hs' : Sorted m') (h : ∀ k, find? m k = find? m' k) : m = m' := by
  induction m generalizing m' with
  | nil =>
    cases m' with
    | nil => rfl
    | cons e t => obtain ⟨k0, v0⟩ := e; have := h k0; simp [find?_cons] at this
  | cons e t ih =>
    obtain ⟨k0, v0⟩ := e
    cases m' with
    | nil => have := h k0; simp [find?_cons] at this
    | cons e' t' =>
      obtain ⟨k1, v1⟩ := e'
      have hs0 := hs; have hs0' := hs'
      unfold Sorted keys at hs hs'
      rw [List.map_cons, List.pairwise_cons] at hs hs'
      have hk : k0 = k1 := by
        apply Classical.byContradiction
        intro hne
        have h0 := h k0
        have h1 := h k1
        rw [find?_cons, if_pos rfl, find?_cons, if_neg (fun e => hne e.symm)] at h0
        rw [find?_cons, if_neg hne, find?_cons, if_pos rfl] at h1
        have a := hs'.1 k0 (List.mem_map.2 ⟨_, find?_mem h0.symm, rfl⟩)
        have b := hs.1 k1 (List.mem_map.2 ⟨_, find?_mem h1, rfl⟩)
        simp only at a b
        omega
      subst hk
      have hv := h k0
      rw [find?_cons, if_pos rfl, find?_cons, if_pos rfl] at hv
      cases hv
      congr 1
      apply ih hs.2 hs'.2
      intro k
      by_cases e : k0 = k
      · subst e
        have a : find? t k0 = none := by
          cases hf : find? t k0 with
          | none => rfl
          | some v => exact absurd (hs.1 k0 (List.mem_map.2 ⟨_, find?_mem hf, rfl⟩)) (Nat.lt_irrefl _)
        have b : find? t' k0 = none := by
          cases hf : find? t' k0 with
          | none => rfl
          | some v => exact absurd (hs'.1 k0 (List.mem_map.2 ⟨_, find?_mem hf, rfl⟩)) (Nat.lt_irrefl _)
        rw [a, b]
      · have := h k
        rwa [find?_cons, if_neg e, find?_cons, if_neg e] at this

end KMap

/-! ### Association lists -/

namespace AList
variable {κ V : Type} {eq : κ → κ → Bool}

/-- `eq` is an equivalence. -/
structure IsEqv (eq : κ → κ → Bool) : Prop where
  refl : ∀ a, eq a a = true
  symm : ∀ a b, eq a b = true → eq b a = true
  trans : ∀ a b c, eq a b = true → eq b c = true → eq a c = true

theorem isEqv_beq [BEq κ] [LawfulBEq κ] : IsEqv (fun a b : κ => a == b) where
  refl a := by simp
  symm a b h := by simp only [beq_iff_eq] at *; exact h.symm
  trans a b c h h' := by simp only [beq_iff_eq] at *; exact h.trans h'

theorem IsEqv.congr (h : IsEqv eq) {a b : κ} (hab : eq a b = true) (c : κ) : eq c a = eq c b := by
  have e : eq c a = true ↔ eq c b = true :=
    ⟨fun x => h.trans _ _ _ x hab, fun x => h.trans _ _ _ x (h.symm _ _ hab)⟩
  cases h1 : eq c a <;> cases h2 : eq c b <;> simp_all

theorem get?_upd_self (h : IsEqv eq) (d : V) (l : List (κ × V)) (k : κ) (f : V → V) :
    get? eq (upd eq d l k f) k = some (f ((get? eq l k).getD d)) := by
  induction l with
  | nil => simp [upd, get?, h.refl]
  | cons e t ih =>
    obtain ⟨k0, v0⟩ := e
    unfold upd
    by_cases hk : eq k0 k = true
    · simp [hk, get?]
    · simp [hk, get?, ih]

theorem get?_upd_other (h : IsEqv eq) (d : V) (l : List (κ × V)) (k k' : κ) (f : V → V) (hne : eq k k' = false) :
    get? eq (upd eq d l k f) k' = get? eq l k' := by
  induction l with
  | nil => simp [upd, get?, hne]
  | cons e t ih =>
    obtain ⟨k0, v0⟩ := e
    unfold upd
    by_cases hk : eq k0 k = true
    · have : eq k0 k' = false := by
        cases hx : eq k0 k'
        · rfl
        · have := h.trans _ _ _ (h.symm _ _ hk) hx; rw [hne] at this; cases this
      simp [hk, get?, this]
    · simp only [Bool.not_eq_true] at hk
      simp [hk, get?, ih]

theorem get?_congr (h : IsEqv eq) (l : List (κ × V)) {k k' : κ} (hk : eq k k' = true) :
    get? eq l k = get? eq l k' := by
  induction l with
  | nil => rfl
  | cons e t ih =>
    obtain ⟨k0, v0⟩ := e
    unfold get?
    rw [h.congr hk k0, ih]

theorem upd_congr (h : IsEqv eq) (d : V) (l : List (κ × V)) {k k' : κ} (hk : eq k k' = true) (f : V → V)
    (hm : (get? eq l k).isSome) : upd eq d l k f = upd eq d l k' f := by
  induction l with
  | nil => simp [get?] at hm
  | cons e t ih =>
    obtain ⟨k0, v0⟩ := e
    unfold upd
    rw [h.congr hk k0]
    by_cases hx : eq k0 k' = true
    · simp [hx]
    · simp only [hx]
      rw [ih]
      unfold get? at hm
      rw [h.congr hk k0] at hm
      simpa [hx] using hm

/-- Every value of `upd` is an old value, or the new one. -/
theorem mem_upd {d : V} {l : List (κ × V)} {k : κ} {f : V → V} {e : κ × V} (h : e ∈ upd eq d l k f) :
    e ∈ l ∨ (e = (k, f d) ∧ get? eq l k = none) ∨
      ∃ v, get? eq l k = some v ∧ eq e.1 k = true ∧ e.2 = f v ∧ (e.1, v) ∈ l := by
  induction l with
  | nil => simp [upd] at h; exact Or.inr (Or.inl ⟨h, rfl⟩)
  | cons e0 t ih =>
    obtain ⟨k0, v0⟩ := e0
    unfold upd at h
    by_cases hk : eq k0 k = true
    · simp only [hk, if_true] at h
      rcases List.mem_cons.1 h with h | h
      · subst h
        exact Or.inr (Or.inr ⟨v0, by simp [get?, hk], hk, rfl, List.mem_cons_self⟩)
      · exact Or.inl (List.mem_cons_of_mem _ h)
    · simp only [hk] at h
      rcases List.mem_cons.1 h with h | h
      · subst h; exact Or.inl List.mem_cons_self
      · rcases ih h with h | ⟨h, hn⟩ | ⟨v, hv, h1, h2, h3⟩
        · exact Or.inl (List.mem_cons_of_mem _ h)
        · exact Or.inr (Or.inl ⟨h, by simp [get?, hk, hn]⟩)
        · exact Or.inr (Or.inr ⟨v, by simp [get?, hk, hv], h1, h2, List.mem_cons_of_mem _ h3⟩)

theorem get?_mem {l : List (κ × V)} {k : κ} {v : V} (h : get? eq l k = some v) :
    ∃ k', eq k' k = true ∧ (k', v) ∈ l := by
  induction l with
  | nil => simp [get?] at h
  | cons e t ih =>
    obtain ⟨k0, v0⟩ := e
    unfold get? at h
    by_cases hk : eq k0 k = true
    · simp only [hk, if_true] at h
      cases h
      exact ⟨k0, hk, List.mem_cons_self⟩
    · simp only [hk] at h
      obtain ⟨k', h1, h2⟩ := ih (by simpa using h)
      exact ⟨k', h1, List.mem_cons_of_mem _ h2⟩

end AList

namespace AList
variable {κ V : Type} {eq : κ → κ → Bool}

theorem upd_upd (h : IsEqv eq) (d : V) (l : List (κ × V)) (k : κ) (f g : V → V) :
    upd eq d (upd eq d l k f) k g = upd eq d l k (fun v => g (f v)) := by
  induction l with
  | nil => simp [upd, h.refl]
  | cons e t ih =>
    obtain ⟨k0, v0⟩ := e
    unfold upd
    by_cases hk : eq k0 k = true
    · simp [hk, upd]
    · simp only [Bool.not_eq_true] at hk
      simp [hk, upd, ih]

/-- Updating with a function that agrees on the stored value. -/
theorem upd_ext {d : V} {l : List (κ × V)} {k : κ} {f g : V → V} (h : f ((get? eq l k).getD d) = g ((get? eq l k).getD d)) :
    upd eq d l k f = upd eq d l k g := by
  induction l with
  | nil => simpa [upd, get?] using h
  | cons e t ih =>
    obtain ⟨k0, v0⟩ := e
    unfold upd
    by_cases hk : eq k0 k = true
    · simp only [get?, hk, if_true, Option.getD_some] at h
      simp [hk, h]
    · simp only [Bool.not_eq_true] at hk
      simp only [get?, hk, Bool.false_eq_true, if_false] at h
      simp only [hk, Bool.false_eq_true, if_false]
      rw [ih h]

end AList

/-! ### Robot pairs -/

theorem ObsId.eqv_iff (a b : ObsId) :
    a.eqv b = true ↔ (a.id1 = b.id1 ∧ a.id2 = b.id2) ∨ (a.id2 = b.id1 ∧ a.id1 = b.id2) := by
  unfold ObsId.eqv
  split
  · simp_all
  · split <;> simp_all

theorem ObsId.isEqv : AList.IsEqv ObsId.eqv where
  refl a := (eqv_iff a a).2 (Or.inl ⟨rfl, rfl⟩)
  symm a b h := by
    rw [eqv_iff] at *
    rcases h with ⟨h1, h2⟩ | ⟨h1, h2⟩
    · exact Or.inl ⟨h1.symm, h2.symm⟩
    · exact Or.inr ⟨h2.symm, h1.symm⟩
  trans a b c h h' := by
    rw [eqv_iff] at *
    rcases h with ⟨h1, h2⟩ | ⟨h1, h2⟩ <;> rcases h' with ⟨h3, h4⟩ | ⟨h3, h4⟩
    · exact Or.inl ⟨h1.trans h3, h2.trans h4⟩
    · exact Or.inr ⟨h2.trans h3, h1.trans h4⟩
    · exact Or.inr ⟨h1.trans h3, h2.trans h4⟩
    · exact Or.inl ⟨h2.trans h3, h1.trans h4⟩

end RPGO
