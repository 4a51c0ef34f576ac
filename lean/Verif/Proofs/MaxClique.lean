import Verif.Model.MaxClique
import Verif.Proofs.GraphIO
import Mathlib.Data.List.Perm.Subperm
import Mathlib.Data.List.Nodup

namespace RPGO

theorem length_le_of_nodup_subset {l m : List Nat} (h : l.Nodup) (hs : ∀ x ∈ l, x ∈ m) :
    l.length ≤ m.length := (List.subperm_of_subset h hs).length_le

theorem IsClique.erase {M : Mat} {l : List Nat} (h : IsClique M l) (a : Nat) : IsClique M (l.erase a) :=
  ⟨h.1.erase a, fun x hx => h.2.1 x (List.mem_of_mem_erase hx),
    fun x hx y hy => h.2.2 x (List.mem_of_mem_erase hx) y (List.mem_of_mem_erase hy)⟩

theorem IsClique.append {M : Mat} {l m : List Nat} (hl : IsClique M l) (hm : IsClique M m)
    (h : ∀ a ∈ l, ∀ b ∈ m, Joined M a b) : IsClique M (l ++ m) := by
  refine ⟨?_, ?_, ?_⟩
  · rw [List.nodup_append]
    exact ⟨hl.1, hm.1, fun a ha b hb e => (h a ha b hb).2.2.1 e⟩
  · intro a ha
    rcases List.mem_append.1 ha with h1 | h1
    · exact hl.2.1 a h1
    · exact hm.2.1 a h1
  · intro a ha b hb hne
    rcases List.mem_append.1 ha with h1 | h1 <;> rcases List.mem_append.1 hb with h2 | h2
    · exact hl.2.2 a h1 b h2 hne
    · exact h a h1 b h2
    · exact (h b h2 a h1).symm
    · exact hm.2.2 a h1 b h2 hne

theorem isClique_single {M : Mat} {a : Nat} (h : a < M.n) : IsClique M [a] := by
  refine ⟨by simp, by simpa using h, ?_⟩
  intro x hx y hy hne
  simp at hx hy
  omega

theorem isClique_nil (M : Mat) : IsClique M [] := ⟨by simp, by simp, by simp⟩

theorem IsClique.length_le_degree {M : Mat} {nl : NodeList} (A : Adj M nl) {l : List Nat} (h : IsClique M l) {e : Nat} (he : e ∈ l) :
    l.length ≤ (nl e).length + 1 := by
  have h1 : (l.erase e).length ≤ (nl e).length := by
    apply length_le_of_nodup_subset (h.1.erase e)
    intro x hx
    have hx2 := (h.1.mem_erase_iff).1 hx
    exact A.mem.2 (h.2.2 e he x hx2.2 (fun e => hx2.1 e.symm))
  rw [List.length_erase_of_mem he] at h1
  omega

/-- Candidate filter computed by a branch. -/
def candsOf (nl : NodeList) (mc : Nat) (U : List Nat) (index : Nat) : List Nat :=
  (nl index).filter (fun e => decide (e ∈ U) && decide (mc ≤ (nl e).length))

theorem filter_eq_of_nodup {U : List Nat} (h : U.Nodup) (e : Nat) :
    U.filter (fun x => e == x) = if e ∈ U then [e] else [] := by
  induction U with
  | nil => simp
  | cons a U ih =>
    have h2 := List.nodup_cons.1 h
    by_cases hea : e = a
    · subst hea
      have := ih h2.2
      rw [if_neg h2.1] at this
      simp [this]
    · rw [List.filter_cons_of_neg (by simpa using hea), ih h2.2]
      by_cases hU : e ∈ U <;> simp [hU, hea]

theorem branchCands_eq {M : Mat} {nl : NodeList} (A : Adj M nl) {g : CSR} (R : Repr g nl M.n) (mc : Nat) {U : List Nat}
    (hU : U.Nodup) {index : Nat} (hi : index < M.n) :
    branchCands g mc U index = some (candsOf nl mc U index) := by
  unfold branchCands
  rw [R.slots hi]
  simp only [Option.bind_eq_bind, Option.bind_some]
  rw [foldlM_slots R hi (fun acc e => (degree g.vertices e).bind fun d =>
    pure (if (mc : Int) ≤ d then acc ++ U.filter (fun x => e == x) else acc))]
  rw [foldlM_some (g := fun acc e =>
    if (decide (e ∈ U) && decide (mc ≤ (nl e).length)) then acc ++ [e] else acc), foldl_filter]
  · rfl
  · intro acc e he
    rw [R.degree (R.rng index hi e he), filter_eq_of_nodup hU]
    by_cases h1 : e ∈ U <;> by_cases h2 : mc ≤ (nl e).length <;> simp [h1, h2]

theorem mem_candsOf {M : Mat} {nl : NodeList} (A : Adj M nl) {mc : Nat} {U : List Nat} {index e : Nat} :
    e ∈ candsOf nl mc U index ↔ Joined M index e ∧ e ∈ U ∧ mc ≤ (nl e).length := by
  simp [candsOf, A.mem]

theorem candsOf_nodup {M : Mat} {nl : NodeList} (A : Adj M nl) (mc : Nat) (U : List Nat) (index : Nat) :
    (candsOf nl mc U index).Nodup := (A.nodup index).filter _

/-- Precondition of the recursive search: `P` is the clique built so far, `U` the candidates. -/
structure Pre (M : Mat) (P U : List Nat) (size : Nat) : Prop where
  cl : IsClique M P
  sz : P.length = size
  nd : U.Nodup
  adj : ∀ p ∈ P, ∀ u ∈ U, Joined M p u
  rng : ∀ u ∈ U, u < M.n

/-- Postcondition: `mc'` bounds every extension of `P` by a non-empty clique of candidates; and if it
improved, `inter'` is such an extension. -/
structure Post (M : Mat) (U : List Nat) (size mc : Nat) (inter : List Nat) (mc' : Nat) (inter' : List Nat) :
    Prop where
  ge : mc ≤ mc'
  opt : ∀ l, l ≠ [] → IsClique M l → (∀ x ∈ l, x ∈ U) → size + l.length ≤ mc'
  imp : mc < mc' → IsClique M inter' ∧ (∀ x ∈ inter', x ∈ U) ∧ size + inter'.length = mc'
  same : mc' = mc → inter' = inter

theorem dropLast_append_of_getLast? {U : List Nat} {a : Nat} (h : U.getLast? = some a) :
    U.dropLast ++ [a] = U := by
  have hne : U ≠ [] := by rintro rfl; simp at h
  rw [List.getLast?_eq_getLast_of_ne_nil hne, Option.some.injEq] at h
  rw [← h]; exact List.dropLast_append_getLast hne

theorem helperLoop_spec {M : Mat} {nl : NodeList} (A : Adj M nl) {g : CSR} (R : Repr g nl M.n) (fuel : Nat) :
    ∀ (U P : List Nat) (size mc : Nat) (inter : List Nat), U.length < fuel → Pre M P U size →
      ∃ mc' inter', helperLoop g fuel U size mc inter = some (mc', inter') ∧
        Post M U size mc inter mc' inter' := by
  induction fuel with
  | zero => intro U P size mc inter h; omega
  | succ fuel ih =>
    intro U P size mc inter hf pre
    unfold helperLoop
    cases hl : U.getLast? with
    | none =>
      have : U = [] := by simpa using hl
      subst this
      refine ⟨mc, inter, rfl, le_rfl, ?_, fun h => by omega, fun _ => rfl⟩
      intro l hne _ hs
      cases l with
      | nil => exact absurd rfl hne
      | cons a l => exact absurd (hs a (by simp)) (by simp)
    | some index =>
      have hU := dropLast_append_of_getLast? hl
      set U' := U.dropLast with hU'
      have hlen : U.length = U'.length + 1 := by rw [← hU]; simp
      simp only
      by_cases hp : size + U.length ≤ mc
      · rw [if_pos hp]
        refine ⟨mc, inter, rfl, le_rfl, ?_, fun h => by omega, fun _ => rfl⟩
        intro l _ hc hs
        have := length_le_of_nodup_subset hc.1 hs
        omega
      · rw [if_neg hp]
        have hidx : index ∈ U := by rw [← hU]; simp
        have hsub : ∀ x ∈ U', x ∈ U := fun x hx => by rw [← hU]; simp [hx]
        have hnd : U'.Nodup := by
          have := pre.nd; rw [← hU] at this; exact (List.nodup_append.1 this).1
        have hni : index ∉ U' := by
          have := pre.nd; rw [← hU] at this
          intro h
          exact (List.nodup_append.1 this).2.2 index h index (by simp) rfl
        rw [branchCands_eq A R mc hnd (pre.rng index hidx)]
        simp only
        -- the recursive call
        set Un := candsOf nl mc U' index with hUn
        have hUnlen : Un.length ≤ U'.length :=
          length_le_of_nodup_subset (candsOf_nodup A mc U' index) (fun x hx => ((mem_candsOf A).1 hx).2.1)
        have preN : Pre M (P ++ [index]) Un (size + 1) := by
          refine ⟨?_, by simp [pre.sz], candsOf_nodup A .., ?_, ?_⟩
          · apply pre.cl.append (isClique_single (pre.rng index hidx))
            intro a ha b hb
            simp at hb; subst hb
            exact pre.adj a ha b hidx
          · intro p hp u hu
            have hu2 := (mem_candsOf A).1 hu
            rcases List.mem_append.1 hp with h1 | h1
            · exact pre.adj p h1 u (hsub u hu2.2.1)
            · simp at h1; subst h1; exact hu2.1
          · intro u hu; exact ((mem_candsOf A).1 hu).1.2.1
        have hrec : ∃ mc1 inter1,
            (if Un.isEmpty then
              (if size + 1 > mc then some (size + 1, ([] : List Nat)) else some (mc, inter))
             else helperLoop g fuel Un (size + 1) mc inter) = some (mc1, inter1) ∧
            mc ≤ mc1 ∧ (∀ l, IsClique M l → (∀ x ∈ l, x ∈ Un) → size + 1 + l.length ≤ mc1) ∧
            (mc < mc1 → IsClique M inter1 ∧ (∀ x ∈ inter1, x ∈ Un) ∧ size + 1 + inter1.length = mc1) ∧
            (mc1 = mc → inter1 = inter) := by
          by_cases he : Un.isEmpty
          · have he' : Un = [] := by simpa using he
            rw [if_pos he]
            have hl0 : ∀ l : List Nat, (∀ x ∈ l, x ∈ Un) → l = [] := by
              intro l hs
              cases l with
              | nil => rfl
              | cons a l => have := hs a (by simp); rw [he'] at this; simp at this
            by_cases hs : size + 1 > mc
            · rw [if_pos hs]
              refine ⟨size + 1, [], rfl, by omega, ?_, ?_, fun h => by omega⟩
              · intro l _ hl; rw [hl0 l hl]; simp
              · intro _; exact ⟨isClique_nil M, by simp, by simp⟩
            · rw [if_neg hs]
              refine ⟨mc, inter, rfl, le_rfl, ?_, fun h => by omega, fun _ => rfl⟩
              intro l _ hl; rw [hl0 l hl]; simp; omega
          · rw [if_neg he]
            obtain ⟨mc1, inter1, e1, p1⟩ := ih Un (P ++ [index]) (size + 1) mc inter (by omega) preN
            refine ⟨mc1, inter1, e1, p1.ge, ?_, p1.imp, p1.same⟩
            intro l hc hs
            by_cases hl : l = []
            · subst hl
              have : Un ≠ [] := by intro h; rw [h] at he; simp at he
              obtain ⟨a, ha⟩ := List.exists_mem_of_ne_nil _ this
              have := p1.opt [a] (by simp) (isClique_single (preN.rng a ha)) (by simpa using ha)
              simp at this ⊢; omega
            · exact p1.opt l hl hc hs
        obtain ⟨mc1, inter1, e1, ge1, opt1, imp1, same1⟩ := hrec
        rw [e1]
        simp only
        have preU' : Pre M P U' size :=
          ⟨pre.cl, pre.sz, hnd, fun p hp u hu => pre.adj p hp u (hsub u hu), fun u hu => pre.rng u (hsub u hu)⟩
        obtain ⟨mc2, inter2, e2, p2⟩ := ih U' P size mc1
          (if mc1 > mc then inter1 ++ [index] else inter1) (by omega) preU'
        refine ⟨mc2, inter2, e2, le_trans ge1 p2.ge, ?_, ?_, ?_⟩
        · intro l hne hc hs
          by_cases hil : index ∈ l
          · by_cases hall : ∀ x ∈ l.erase index, mc ≤ (nl x).length
            · have : ∀ x ∈ l.erase index, x ∈ Un := by
                intro x hx
                have hx2 := (hc.1.mem_erase_iff).1 hx
                have hxU : x ∈ U' := by
                  have := hs x hx2.2
                  rw [← hU] at this
                  rcases List.mem_append.1 this with h | h
                  · exact h
                  · simp at h; exact absurd h hx2.1
                exact (mem_candsOf A).2 ⟨hc.2.2 index hil x hx2.2 (fun e => hx2.1 e.symm), hxU, hall x hx⟩
              have := opt1 (l.erase index) (hc.erase index) this
              rw [List.length_erase_of_mem hil] at this
              have hpos : 0 < l.length := List.length_pos_of_mem hil
              have := p2.ge
              omega
            · push Not at hall
              obtain ⟨x, hx, hxd⟩ := hall
              have hxl := List.mem_of_mem_erase hx
              have hPl : IsClique M (P ++ l) := pre.cl.append hc (fun a ha b hb => pre.adj a ha b (hs b hb))
              have := hPl.length_le_degree A (e := x) (by simp [hxl])
              simp [pre.sz] at this
              have := p2.ge
              omega
          · apply p2.opt l hne hc
            intro x hx
            have h1 := hs x hx
            rw [← hU] at h1
            rcases List.mem_append.1 h1 with h | h
            · exact h
            · simp at h; subst h; exact absurd hx hil
        · intro hlt
          by_cases h2 : mc1 < mc2
          · obtain ⟨a, b, c⟩ := p2.imp h2
            exact ⟨a, fun x hx => hsub x (b x hx), c⟩
          · have hEq : mc2 = mc1 := by have := p2.ge; omega
            have h1 : mc < mc1 := by omega
            rw [p2.same hEq, if_pos h1]
            obtain ⟨a, b, c⟩ := imp1 h1
            refine ⟨a.append (isClique_single (pre.rng index hidx)) ?_, ?_, by simp; omega⟩
            · intro x hx y hy
              simp at hy; subst hy
              exact ((mem_candsOf A).1 (b x hx)).1.symm
            · intro x hx
              rcases List.mem_append.1 hx with h | h
              · exact hsub x ((mem_candsOf A).1 (b x h)).2.1
              · simp at h; subst h; exact hidx
        · intro hEq
          have h1 : mc1 = mc := by have := p2.ge; omega
          have h2 : mc2 = mc1 := by omega
          rw [p2.same h2, if_neg (by omega)]
          exact same1 h1

theorem maxCliqueHelper_spec {M : Mat} {nl : NodeList} (A : Adj M nl) {g : CSR} (R : Repr g nl M.n)
    (U P : List Nat) (size mc : Nat) (inter : List Nat) (pre : Pre M P U size) :
      ∃ mc' inter', maxCliqueHelper g U size mc inter = some (mc', inter') ∧
        mc ≤ mc' ∧ (∀ l, IsClique M l → (∀ x ∈ l, x ∈ U) → size + l.length ≤ mc') ∧
        (mc < mc' → IsClique M inter' ∧ (∀ x ∈ inter', x ∈ U) ∧ size + inter'.length = mc') := by
  unfold maxCliqueHelper
  by_cases he : U.isEmpty
  · have he' : U = [] := by simpa using he
    subst he'
    rw [if_pos he]
    have hl0 : ∀ l : List Nat, (∀ x ∈ l, x ∈ ([] : List Nat)) → l = [] := by
      intro l hs
      cases l with
      | nil => rfl
      | cons a l => have := hs a (by simp); simp at this
    by_cases hs : size > mc
    · rw [if_pos hs]
      refine ⟨size, [], rfl, by omega, ?_, ?_⟩
      · intro l _ hl; rw [hl0 l hl]; simp
      · intro _; exact ⟨isClique_nil M, by simp, by simp⟩
    · rw [if_neg hs]
      refine ⟨mc, inter, rfl, le_rfl, ?_, fun h => by omega⟩
      intro l _ hl; rw [hl0 l hl]; simp; omega
  · rw [if_neg he]
    obtain ⟨mc1, inter1, e1, p1⟩ := helperLoop_spec A R (U.length + 1) U P size mc inter (by omega) pre
    refine ⟨mc1, inter1, e1, p1.ge, ?_, p1.imp⟩
    intro l hc hs
    by_cases hl : l = []
    · subst hl
      have : U ≠ [] := by intro h; rw [h] at he; simp at he
      obtain ⟨a, ha⟩ := List.exists_mem_of_ne_nil _ this
      have := p1.opt [a] (by simp) (isClique_single (pre.rng a ha)) (by simpa using ha)
      simp at this ⊢; omega
    · exact p1.opt l hl hc hs

/-- Contents of `bitVec` once all vertices `≥ k` have been considered. -/
def bits (n k : Nat) : List Nat := (List.range n).map (fun i => if k ≤ i then 1 else 0)

theorem bits_set (n k : Nat) : (bits n (k + 1)).set k 1 = bits n k := by
  unfold bits
  apply List.ext_getElem
  · simp
  · intro i h1 h2
    simp [List.getElem_set]
    split_ifs <;> omega

theorem rootCands_eq {M : Mat} {nl : NodeList} (A : Adj M nl) {g : CSR} (R : Repr g nl M.n) (mc i : Nat) (hi : i < M.n) :
    rootCands g (bits M.n i) mc i
      = some ((nl i).filter (fun e => decide (e < i) && decide (mc ≤ (nl e).length))) := by
  unfold rootCands
  rw [R.slots hi]
  simp only [Option.bind_eq_bind, Option.bind_some]
  rw [foldlM_slots R hi (fun acc e => (rd (bits M.n i) e).bind fun b =>
    if b ≠ 1 then (degree g.vertices e).bind fun d =>
      pure (if (mc : Int) ≤ d then acc ++ [e] else acc) else pure acc)]
  rw [foldlM_some (g := fun acc e =>
    if (decide (e < i) && decide (mc ≤ (nl e).length)) then acc ++ [e] else acc), foldl_filter]
  · rfl
  · intro acc e he
    have he' := R.rng i hi e he
    have hb : rd (bits M.n i) e = some (if i ≤ e then 1 else 0) := by
      simp [rd, bits, he']
    rw [R.degree he', hb]
    by_cases h1 : e < i
    · have h3 : ¬ i ≤ e := by omega
      by_cases h2 : mc ≤ (nl e).length <;> simp [h1, h2, h3]
    · have h3 : i ≤ e := by omega
      simp [h1, h3]

/-- Invariant of the main loop once the vertices `≥ k` have been considered. -/
structure ExactInv (M : Mat) (lb : Nat) (k : Nat) (s : ExactSt) (out0 : List Nat) : Prop where
  ge : lb ≤ s.mc
  bv : s.bitVec = bits M.n k
  opt : ∀ l, IsClique M l → (∃ x ∈ l, k ≤ x) → l.length ≤ s.mc
  dat : lb < s.mc → IsClique M s.data ∧ s.data.length = s.mc
  zero : s.mc = lb → s.data = out0

theorem exactStep_spec {M : Mat} {nl : NodeList} (A : Adj M nl) {g : CSR} (R : Repr g nl M.n) {k : Nat} (hk : k < M.n)
    {lb : Nat} {s : ExactSt} {out0 : List Nat} (inv : ExactInv M lb (k + 1) s out0) :
    ∃ s', exactStep g s k = some s' ∧ ExactInv M lb k s' out0 := by
  have hw : wr s.bitVec k 1 = some (bits M.n k) := by
    rw [inv.bv, wr, if_pos (by simp [bits]; exact hk), bits_set]
  have keep : ∀ mc, s.mc ≤ mc → (∀ l, IsClique M l → k ∈ l → (∀ x ∈ l, x ≤ k) → l.length ≤ mc) →
      ∀ l, IsClique M l → (∃ x ∈ l, k ≤ x) → l.length ≤ mc := by
    intro mc hmc hkl l hc ⟨x, hx, hkx⟩
    by_cases hbig : ∃ y ∈ l, k + 1 ≤ y
    · exact le_trans (inv.opt l hc hbig) hmc
    · push Not at hbig
      have : x = k := by have := hbig x hx; omega
      subst this
      exact hkl l hc hx (fun y hy => by have := hbig y hy; omega)
  unfold exactStep
  simp only [hw, R.degree hk, Option.bind_eq_bind, Option.bind_some]
  by_cases hd : ((nl k).length : Int) < (s.mc : Int)
  · rw [if_pos hd]
    refine ⟨_, rfl, inv.ge, rfl, ?_, inv.dat, inv.zero⟩
    apply keep s.mc le_rfl
    intro l hc hkl _
    have := hc.length_le_degree A hkl
    simp at *; omega
  · rw [if_neg hd]
    rw [rootCands_eq A R s.mc k hk]
    simp only [Option.bind_some]
    set U := (nl k).filter (fun e => decide (e < k) && decide (s.mc ≤ (nl e).length)) with hU
    have memU : ∀ x, x ∈ U ↔ Joined M k x ∧ x < k ∧ s.mc ≤ (nl x).length := by
      intro x; simp [hU, A.mem]
    have pre : Pre M [k] U 1 := by
      refine ⟨isClique_single hk, rfl, (A.nodup k).filter _, ?_, ?_⟩
      · intro p hp u hu; simp at hp; subst hp; exact ((memU u).1 hu).1
      · intro u hu; exact ((memU u).1 hu).1.2.1
    obtain ⟨mc', inter, e, ge, opt, imp⟩ := maxCliqueHelper_spec A R U [k] 1 s.mc [] pre
    rw [e]
    simp only [Option.bind_some, Option.pure_def]
    refine ⟨_, rfl, le_trans inv.ge ge, rfl, ?_, ?_, ?_⟩
    · apply keep mc' ge
      intro l hc hkl hle
      by_cases hall : ∀ x ∈ l.erase k, s.mc ≤ (nl x).length
      · have h1 := opt (l.erase k) (hc.erase k) (by
          intro x hx
          have hx2 := (hc.1.mem_erase_iff).1 hx
          have hxk := hle x hx2.2
          exact (memU x).2 ⟨hc.2.2 k hkl x hx2.2 (fun e => hx2.1 e.symm), by omega, hall x hx⟩)
        rw [List.length_erase_of_mem hkl] at h1
        have := List.length_pos_of_mem hkl
        omega
      · push Not at hall
        obtain ⟨x, hx, hxd⟩ := hall
        have := hc.length_le_degree A (List.mem_of_mem_erase hx)
        omega
    · intro hpos
      simp only at hpos ⊢
      by_cases hgt : mc' > s.mc
      · rw [if_pos hgt]
        obtain ⟨a, b, c⟩ := imp hgt
        refine ⟨a.append (isClique_single hk) ?_, by simp; omega⟩
        intro x hx y hy
        simp at hy; subst hy
        exact ((memU x).1 (b x hx)).1.symm
      · rw [if_neg hgt]
        have : mc' = s.mc := by omega
        rw [this]; exact inv.dat (by omega)
    · intro h0
      simp only at h0 ⊢
      have := inv.ge
      rw [if_neg (by omega)]
      exact inv.zero (by omega)

theorem exactLoop_spec {M : Mat} {nl : NodeList} (A : Adj M nl) {g : CSR} (R : Repr g nl M.n) {lb : Nat} {out0 : List Nat} (k : Nat)
    (hk : k ≤ M.n) (s : ExactSt) (inv : ExactInv M lb k s out0) :
    ∃ s', (List.range k).reverse.foldlM (exactStep g) s = some s' ∧ ExactInv M lb 0 s' out0 := by
  induction k generalizing s with
  | zero => exact ⟨s, rfl, inv⟩
  | succ k ih =>
    obtain ⟨s1, e1, i1⟩ := exactStep_spec A R (by omega : k < M.n) inv
    obtain ⟨s2, e2, i2⟩ := ih (by omega) s1 i1
    refine ⟨s2, ?_, i2⟩
    rw [List.range_succ, List.reverse_append]
    simp only [List.reverse_cons, List.reverse_nil, List.nil_append, List.cons_append,
      List.foldlM_cons, e1]
    exact e2

/-- The exact search on any representation of the graph, from any lower bound `lb`: the result is the
larger of `lb` and the size of a largest clique, and the output vector is such a clique if the bound was
improved and untouched otherwise. -/
theorem maxClique_spec {M : Mat} {nl : NodeList} (A : Adj M nl) {g : CSR} (R : Repr g nl M.n) (lb : Nat)
    (out0 : List Nat) :
    ∃ k out, maxClique g lb out0 = some (k, out) ∧ lb ≤ k ∧ (∀ l, IsClique M l → l.length ≤ k) ∧
      (lb < k → IsClique M out ∧ out.length = k) ∧ (k = lb → out = out0) := by
  have hc : g.count = M.n := by simp [CSR.count, R.len]
  have inv0 : ExactInv M lb M.n ⟨List.replicate g.count 0, lb, out0⟩ out0 := by
    refine ⟨le_rfl, ?_, ?_, fun h => by simp at h, fun _ => rfl⟩
    · rw [hc]; simp only [bits]
      apply List.ext_getElem
      · simp
      · intro i h1 h2; simp at h1 ⊢; omega
    · intro l hcl ⟨x, hx, hnx⟩
      have := hcl.2.1 x hx
      omega
  obtain ⟨s, es, inv⟩ := exactLoop_spec A R M.n le_rfl _ inv0
  refine ⟨s.mc, s.data, ?_, inv.ge, ?_, inv.dat, inv.zero⟩
  · unfold maxClique
    simp only [Option.bind_eq_bind, hc] at es ⊢
    rw [es]; rfl
  · intro l hcl
    cases l with
    | nil => simp
    | cons a l => exact inv.opt _ hcl ⟨a, by simp, by omega⟩

theorem findMaxClique_spec (M : Mat) (out0 : List Nat) :
    ∃ k out, findMaxClique M out0 = some (k, out) ∧ IsMaxCliqueSize M k ∧
      (0 < M.n → IsClique M out ∧ out.length = k) ∧ (M.n = 0 → out = out0) := by
  obtain ⟨g, eg, R, _⟩ := readEigen_eq M
  obtain ⟨k, out, e, _, hopt, hdat, hzero⟩ := maxClique_spec (nbrs_adj M) R 0 out0
  refine ⟨k, out, ?_, ⟨?_, hopt⟩, ?_, ?_⟩
  · unfold findMaxClique
    rw [eg]
    exact e
  · by_cases h0 : k = 0
    · exact ⟨[], isClique_nil M, by simp [h0]⟩
    · exact ⟨out, hdat (by omega)⟩
  · intro hn
    apply hdat
    have := hopt [0] (isClique_single hn)
    simp at this
    omega
  · intro hn
    apply hzero
    by_contra h0
    obtain ⟨a, b⟩ := hdat (by omega)
    have : out ≠ [] := by intro h; rw [h] at b; simp at b; omega
    obtain ⟨x, hx⟩ := List.exists_mem_of_ne_nil _ this
    have := a.2.1 x hx
    omega

end RPGO
