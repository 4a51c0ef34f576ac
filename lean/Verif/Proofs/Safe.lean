import Verif.Proofs.Register
/-
When registration and selection touch nothing out of range.
-/

namespace RPGO
variable {G T N : Type}

/-- No undefined behaviour and no out-of-range exception. -/
def Clean {σ α : Type} : Out σ α → Prop
  | .ok _ _ => True
  | .throw _ x => x ≠ .outOfRange
  | .ub _ => False

namespace Clean
variable {σ τ α β : Type}

theorem bind {m : M σ α} {f : α → M σ β} {s : σ} (h : Clean (m s)) (hf : ∀ s' a, m s = .ok s' a → Clean (f a s')) :
    Clean (M.bind m f s) := by
  rw [M.bind_apply]
  cases e : m s with
  | ok s' a => exact hf s' a e
  | throw s' x => rw [e] at h; exact h
  | ub u => rw [e] at h; exact h

theorem ret {m : M σ α} {f : α → β} {s : σ} (h : Clean (m s)) : Clean (m.ret f s) :=
  bind h fun _ _ _ => trivial

theorem zoom {g : σ → τ} {u : τ → σ → σ} {m : M τ α} {s : σ} (h : Clean (m (g s))) : Clean (M.zoom g u m s) := by
  unfold M.zoom
  cases e : m (g s) with
  | ok _ _ => trivial
  | throw _ x => rw [e] at h; exact h
  | ub u => rw [e] at h; exact h

theorem forEach {f : α → M σ Unit} (hf : ∀ a s, Clean (f a s)) (l : List α) (s : σ) : Clean (M.forEach f l s) := by
  induction l generalizing s with
  | nil => trivial
  | cons x xs ih => exact bind (hf x s) fun s' _ _ => ih s'

theorem noUB {o : Out σ α} (h : Clean o) (u : UB) : o ≠ .ub u := by rintro rfl; exact h

end Clean

theorem insertVals_clean (vs : Vals G) (v : Vals G) : Clean (insertVals vs v) := by
  induction vs generalizing v with
  | nil => trivial
  | cons e t ih =>
    unfold insertVals
    split
    · exact fun h => by cases h
    · exact ih _

theorem updateVals_clean (vs : Vals G) (v : Vals G) : Clean (updateVals vs v) := by
  induction vs generalizing v with
  | nil => trivial
  | cons e t ih =>
    unfold updateVals
    split
    · exact fun h => by cases h
    · split
      · exact ih _
      · exact fun h => by cases h

/-- The loop over the new factors, with Gaussian odometry. -/
theorem sortFactors_clean (cfg : Cfg G T N) (nv vals : Vals G) (fs : Graph G N) (lcs : List (Btw G N)) (opt : Bool)
    (p : Pcm G T N) (h : ∀ b ∈ Spec.btws fs, b.noise.isSome) : Clean (sortFactors cfg nv vals fs lcs opt p) := by
  induction fs generalizing lcs opt p with
  | nil => trivial
  | cons f fs ih =>
    cases f with
    | none => exact ih _ _ _ h
    | some f =>
      cases f with
      | btw b =>
        have hb : b.noise.isSome := h b (by simp [btws_btw])
        have ht : ∀ b' ∈ Spec.btws fs, b'.noise.isSome := fun b' hb' => h b' (by simp [btws_btw, hb'])
        unfold sortFactors
        rw [classify_btw]
        by_cases h1 : Spec.isFirstObs cfg nv b = true
        · simp only [h1, if_true, M.bind_eq]
          rw [M.bind_ok (M.modify_apply _ _)]
          exact ih _ _ _ ht
        · by_cases h2 : Spec.isOdom cfg nv b = true
          · simp only [h1, h2, if_true, M.bind_eq]
            rw [if_neg (by simp)]
            refine Clean.bind ?_ fun _ _ _ => ih _ _ _ ht
            rcases updateOdom_cases cfg vals b p with ⟨hn, _⟩ | ⟨_, _, _, e, he, hx⟩ | ⟨n, p', e, _⟩
            · rw [hn] at hb; cases hb
            · rw [he]
              rintro rfl
              rcases hx with ⟨h, _⟩ | ⟨h, _⟩ <;> cases h
            · rw [e]; trivial
          · simp only [h1, h2]
            rw [if_neg (by simp), if_neg (by simp)]
            simp only
            split
            · exact ih _ _ _ ht
            · exact ih _ _ _ ht
      | prior k m => exact ih _ _ _ h
      | priorAlt k t => exact ih _ _ _ h
      | other ks t => exact ih _ _ _ h

/-! ### Tidy measurements -/

/-- A nonempty list of closures with a matrix that is not larger. -/
structure Fits (strict : Bool) (m : Meas G N) : Prop where
  ne : m.factors ≠ []
  le : m.adj.n ≤ m.factors.length
  eq : strict = true → m.adj.n = m.factors.length

/-- All stored measurements are Gaussian, all matrices fit and landmark observations start at the pose. -/
structure Tidy (cfg : Cfg G T N) (p : Pcm G T N) : Prop where
  lc : cfg.loopCheck = true ∨ cfg.incremental = true → ∀ e ∈ p.lcs, Fits cfg.loopCheck e.2
  lcN : ∀ e ∈ p.lcs, ∀ x ∈ e.2.factors, x.noise.isSome
  lm : ∀ e ∈ p.landmarks, Fits true e.2 ∧ ∀ x ∈ e.2.factors, x.noise.isSome ∧ x.k1 ≠ e.1

theorem get?_entry {κ V : Type} {eq : κ → κ → Bool} {l : List (κ × V)} {k : κ} {v : V} (h : AList.get? eq l k = some v) :
    ∃ e ∈ l, e.2 = v ∧ eq e.1 k = true := by
  induction l with
  | nil => cases h
  | cons e l ih =>
    obtain ⟨k0, v0⟩ := e
    unfold AList.get? at h
    split at h
    · rename_i hk
      cases h
      exact ⟨(k0, v), by simp, rfl, hk⟩
    · obtain ⟨e, he, h1⟩ := ih h
      exact ⟨e, by simp [he], h1⟩

theorem lcOf_cases (p : Pcm G T N) (id : ObsId) :
    (AList.get? ObsId.eqv p.lcs id = none ∧ lcOf p id = Meas.empty) ∨
      ∃ e ∈ p.lcs, AList.get? ObsId.eqv p.lcs id = some e.2 ∧ lcOf p id = e.2 ∧ e.1.eqv id = true := by
  cases h : AList.get? ObsId.eqv p.lcs id with
  | none => exact Or.inl ⟨rfl, by unfold lcOf; rw [h]; rfl⟩
  | some m =>
    obtain ⟨e, he, h1, h2⟩ := get?_entry h
    exact Or.inr ⟨e, he, by rw [h1], by rw [lcOf_of_get? h, h1], h2⟩

theorem lmOf_cases (p : Pcm G T N) (k : Key) :
    (AList.get? (· == ·) p.landmarks k = none ∧ lmOf p k = Meas.empty) ∨
      ∃ e ∈ p.landmarks, AList.get? (· == ·) p.landmarks k = some e.2 ∧ lmOf p k = e.2 ∧ e.1 = k := by
  cases h : AList.get? (· == ·) p.landmarks k with
  | none => exact Or.inl ⟨rfl, by unfold lmOf; rw [h]; rfl⟩
  | some m =>
    obtain ⟨e, he, h1, h2⟩ := get?_entry h
    exact Or.inr ⟨e, he, by rw [h1], by unfold lmOf; rw [h, h1]; rfl, by simpa using h2⟩

theorem Fits.growLc {cfg : Cfg G T N} {f : Chr → Key → T} {b : Btw G N} {m : Meas G N}
    (h : m = Meas.empty ∨ Fits cfg.loopCheck m) : Fits cfg.loopCheck (growLc cfg f b m) := by
  refine ⟨by simp [RPGO.growLc], ?_, ?_⟩
  · unfold RPGO.growLc
    simp only [List.length_append, List.length_singleton]
    split
    · split
      · simp [Mat.zero]
      · rename_i hl hf
        rcases h with rfl | h
        · exact absurd rfl hf
        · have := h.le; show m.adj.n + 1 ≤ _; omega
    · rcases h with rfl | h
      · simp [Meas.empty]
      · have := h.le; omega
  · intro hl
    unfold RPGO.growLc
    rw [if_pos hl]
    simp only [List.length_append, List.length_singleton]
    split
    · rename_i hf; simp [Mat.zero, hf]
    · rename_i hf
      rcases h with rfl | h
      · exact absurd rfl hf
      · have := h.eq hl; show m.adj.n + 1 = _; omega

theorem Fits.growLm {cfg : Cfg G T N} {f : Chr → Key → T} {l : Key} {b : Btw G N} {m : Meas G N}
    (h : m = Meas.empty ∨ Fits true m) (hf : ∀ x ∈ m.factors, x.k1 ≠ l) (hb : b.k1 ≠ l) :
    Fits true (growLm cfg f l b m) := by
  have key : (RPGO.growLm cfg f l b m).adj.n = (RPGO.growLm cfg f l b m).factors.length := by
    unfold RPGO.growLm
    simp only [List.length_append, List.length_singleton]
    split
    · rename_i h0; simp [Mat.zero, h0]
    · rename_i h0
      rw [if_neg]
      · rcases h with rfl | h
        · exact absurd rfl h0
        · have := h.eq rfl; show m.adj.n + 1 = _; omega
      · simp only [List.any_eq_true, decide_eq_true_eq, not_exists, not_and, not_or]
        exact fun x hx => ⟨hf x hx, hb⟩
  exact ⟨by simp [RPGO.growLm], key.le, fun _ => key⟩

theorem Tidy.trajOnly {cfg : Cfg G T N} {p p' : Pcm G T N} (h : Tidy cfg p) (t : TrajOnly cfg p p') : Tidy cfg p' := by
  rw [t.eq]; exact ⟨h.lc, h.lcN, h.lm⟩

theorem Tidy.regLc {cfg : Cfg G T N} {p : Pcm G T N} (h : Tidy cfg p) {f : Chr → Key → T} {b : Btw G N}
    (hb : b.noise.isSome) : Tidy cfg (regLc cfg f p b) := by
  refine ⟨fun hc e he => ?_, fun e he => ?_, h.lm⟩
  · rcases AList.mem_upd he with he | ⟨rfl, _⟩ | ⟨v, _, _, h2, h3⟩
    · exact h.lc hc e he
    · exact Fits.growLc (Or.inl rfl)
    · rw [h2]; exact Fits.growLc (Or.inr (h.lc hc _ h3))
  · intro x hx
    have hg : ∀ m : Meas G N, (∀ x ∈ m.factors, x.noise.isSome) → ∀ x ∈ (growLc cfg f b m).factors, x.noise.isSome := by
      intro m hm x hx
      simp only [growLc, List.mem_append, List.mem_singleton] at hx
      rcases hx with hx | rfl
      · exact hm x hx
      · exact hb
    rcases AList.mem_upd he with he | ⟨rfl, _⟩ | ⟨v, _, _, h2, h3⟩
    · exact h.lcN e he x hx
    · exact hg _ (by simp [Meas.empty]) x hx
    · rw [h2] at hx; exact hg _ (h.lcN _ h3) x hx

theorem regLm_tidy {cfg : Cfg G T N} {p : Pcm G T N} (h : ∀ e ∈ p.landmarks, Fits true e.2 ∧
      ∀ x ∈ e.2.factors, x.noise.isSome ∧ x.k1 ≠ e.1) {f : Chr → Key → T} {b : Btw G N}
    (hb : b.noise.isSome) (hk : b.k1 ≠ landmarkKey cfg b) :
    ∀ e ∈ (regLm cfg f p b).landmarks, Fits true e.2 ∧ ∀ x ∈ e.2.factors, x.noise.isSome ∧ x.k1 ≠ e.1 := by
  intro e he
  have hg : ∀ m : Meas G N, (∀ x ∈ m.factors, x.noise.isSome ∧ x.k1 ≠ landmarkKey cfg b) →
      ∀ x ∈ (growLm cfg f (landmarkKey cfg b) b m).factors, x.noise.isSome ∧ x.k1 ≠ landmarkKey cfg b := by
    intro m hm x hx
    simp only [growLm, List.mem_append, List.mem_singleton] at hx
    rcases hx with hx | rfl
    · exact hm x hx
    · exact ⟨hb, hk⟩
  rcases AList.mem_upd he with he | ⟨rfl, _⟩ | ⟨v, _, hk', h2, h3⟩
  · exact h e he
  · exact ⟨Fits.growLm (Or.inl rfl) (by simp [Meas.empty]) hk, hg _ (by simp [Meas.empty])⟩
  · have hk' : e.1 = landmarkKey cfg b := by simpa using hk'
    have h4 := h _ h3
    simp only [hk'] at h4
    rw [h2, hk']
    exact ⟨Fits.growLm (Or.inr h4.1) (fun x hx => (h4.2 x hx).2) hk, hg _ h4.2⟩

theorem Tidy.regLm {cfg : Cfg G T N} {p : Pcm G T N} (h : Tidy cfg p) {f : Chr → Key → T} {b : Btw G N}
    (hb : b.noise.isSome) (hk : b.k1 ≠ landmarkKey cfg b) : Tidy cfg (regLm cfg f p b) :=
  ⟨h.lc, h.lcN, regLm_tidy h.lm hb hk⟩

theorem fair_key {cfg : Cfg G T N} {b : Btw G N} (h : Spec.Fair cfg b) (hl : Spec.isLandmark cfg b = true) :
    b.k1 ≠ landmarkKey cfg b := by
  have h1 := h.2 hl
  unfold landmarkKey
  rw [if_neg (by rw [isSpecial_iff]; exact h1)]
  intro e
  unfold Spec.isLandmark at hl
  rw [decide_eq_true_eq, ← e] at hl
  exact h1 (hl.elim id id)

/-- Registration from a tidy state returns normally and leaves a tidy state. -/
theorem parseLoops_tidy {cfg : Cfg G T N} {vals : Vals G} (bs : List (Btw G N)) (num : List (ObsId × Nat)) (p : Pcm G T N)
    (h : Tidy cfg p) (hb : ∀ b ∈ bs, Spec.Fair cfg b) :
    ∃ q num', parseLoops cfg vals bs num p = .ok q num' ∧ Tidy cfg q := by
  induction bs generalizing num p with
  | nil => exact ⟨p, num, rfl, h⟩
  | cons b bs ih =>
    have hb0 := hb b (by simp)
    rcases parseLoops_cons cfg vals b bs num p with ⟨u, e, hk, hf⟩ | ⟨p1, t, e, _⟩
    · exfalso
      have hsome : ∀ x : Btw G N, x.noise.isSome → x.noise ≠ none := fun x hx hn => by rw [hn] at hx; cases hx
      rcases hf with ⟨_, _, _, hn⟩ | ⟨_, hl, hne, hf⟩ | ⟨ha, hne, hf⟩
      · exact hsome b hb0.1 hn
      · rcases lcOf_cases p (pairOf b) with ⟨_, h0⟩ | ⟨e, he, _, h0, _⟩
        · rw [h0] at hne; exact hne rfl
        · rw [h0] at hf
          rcases hf with hf | ⟨x, hx, hf⟩
          · exact hf ((h.lc (Or.inl hl) e he).eq hl)
          · exact hf.elim (hsome x (h.lcN e he x hx)) (hsome b hb0.1)
      · rcases lmOf_cases p (landmarkKey cfg b) with ⟨_, h0⟩ | ⟨e, he, _, h0, _⟩
        · rw [h0] at hne; exact hne rfl
        · rw [h0] at hf
          rcases hf with hf | ⟨x, hx, hf⟩
          · exact hf ((h.lm e he).1.eq rfl)
          · exact hf.elim (hsome x ((h.lm e he).2 x hx).1) (hsome b hb0.1)
    · rw [e]
      refine ih _ _ ?_ fun b' hb' => hb b' (by simp [hb'])
      refine Tidy.trajOnly ?_ t
      unfold parseStep
      split
      · exact h.regLc hb0.1
      · split
        · rename_i ha
          unfold acceptLm at ha
          rw [Bool.and_eq_true] at ha
          exact h.regLm hb0.1 (fair_key hb0 ha.2)
        · exact h

/-! ### Selection -/

theorem measInliers_safe {m : Meas G N} (h0 : m.factors ≠ []) (h : m.adj.n = m.factors.length) :
    ∃ m' n, measInliers m = .ok m' n := by
  have hp : 0 < m.factors.length := List.length_pos_iff.2 h0
  rcases measInliers_spec m with ⟨hn, _⟩ | ⟨_, k, idx, _, hb, ⟨m', e, _⟩ | ⟨c, e, _, _, i, hi, hge⟩⟩
  · omega
  · exact ⟨m', _, e⟩
  · have := hb.lt i hi
    omega

theorem incInliers_safe {m : Meas G N} (numNew : Nat) (h : m.adj.n ≤ m.factors.length) :
    ∃ m', incInliers numNew m = .ok m' () := by
  obtain ⟨k, idx, _, hs⟩ := incInliers_spec numNew m
  rcases hs with ⟨_, e⟩ | ⟨_, hb, ⟨m', e, _⟩ | ⟨c, e, _, _, i, hi, hge⟩⟩
  · exact ⟨_, e⟩
  · exact ⟨_, e⟩
  · have := hb.lt i hi
    omega

theorem lmPass_safe {p : Pcm G T N} (h : ∀ e ∈ p.landmarks, Fits true e.2) : ∃ p', lmPass p = .ok p' () := by
  obtain ⟨r, hr⟩ := inlierPass_safe (f := measInliers) p.landmarks p.totalGood
    fun e he => measInliers_safe (h e he).ne ((h e he).eq rfl)
  unfold lmPass M.zoom
  simp only [hr]
  exact ⟨_, rfl⟩

theorem findInliers_safe {cfg : Cfg G T N} {p : Pcm G T N} (h : Tidy cfg p) : ∃ p', findInliers cfg p = .ok p' () := by
  unfold findInliers
  simp only [M.bind_eq]
  rw [M.bind_ok (M.modify_apply _ _)]
  have h1 : ∀ e ∈ p.lcs, ∃ m' n, lcInliers cfg e.2 = .ok m' n := by
    intro e he
    unfold lcInliers
    split
    · rename_i hl
      have := h.lc (Or.inl hl) e he
      exact measInliers_safe this.ne (this.eq hl)
    · exact ⟨_, _, rfl⟩
  obtain ⟨r, hr⟩ := inlierPass_safe (f := lcInliers cfg) p.lcs 0 h1
  have e : lcPass cfg { p with totalGood := 0 } = .ok { p with lcs := r.1, totalGood := r.2 } () := by
    unfold lcPass M.zoom
    simp only [hr]
  rw [M.bind_ok e]
  exact lmPass_safe fun e he => (h.lm e he).1

theorem incLoop_safe (num : List (ObsId × Nat)) (p : Pcm G T N)
    (h : ∀ idn ∈ num, ∃ m, AList.get? ObsId.eqv p.lcs idn.1 = some m ∧ m.adj.n ≤ m.factors.length) :
    ∃ p', (M.forEach (fun (idn : ObsId × Nat) =>
      M.zoom (fun p => lcOf p idn.1) (fun m p => updLc p idn.1 (fun _ => m)) (incInliers idn.2)) num : M (Pcm G T N) Unit) p
        = .ok p' () := by
  induction num generalizing p with
  | nil => exact ⟨p, rfl⟩
  | cons idn num ih =>
    obtain ⟨m, hm, hle⟩ := h idn (by simp)
    obtain ⟨m', e⟩ := incInliers_safe idn.2 hle
    have hs := incInliers_sel idn.2 m
    rw [e] at hs
    have e1 : (M.zoom (fun p => lcOf p idn.1) (fun m p => updLc p idn.1 (fun _ => m)) (incInliers idn.2) : M (Pcm G T N) Unit) p
        = .ok (updLc p idn.1 fun _ => m') () := by
      unfold M.zoom
      simp only [lcOf_of_get? hm, e]
    unfold M.forEach
    rw [M.bind_ok e1]
    refine ih _ fun idn' hi => ?_
    obtain ⟨m2, hm2, hle2⟩ := h idn' (by simp [hi])
    have ht : Table Sel p.lcs (updLc p idn.1 fun _ => m').lcs := Table.upd Sel.refl hm hs
    obtain ⟨m3, hm3, hs3⟩ := Table.get? ht hm2
    exact ⟨m3, hm3, by rw [hs3.adj, hs3.factors]; exact hle2⟩

theorem processCands_tidy {cfg : Cfg G T N} {vals : Vals G} (bs : List (Btw G N)) (p : Pcm G T N)
    (h : Tidy cfg p) (hb : ∀ b ∈ bs, Spec.Fair cfg b) : ∃ p', processCands cfg vals bs p = .ok p' () := by
  obtain ⟨q, num, e, hq⟩ := parseLoops_tidy (vals := vals) bs [] p h hb
  unfold processCands
  simp only [M.bind_eq]
  rw [M.bind_ok e]
  unfold M.cond
  split
  · rename_i hi
    obtain ⟨hnum, ht⟩ := parseLoops_ok e
    unfold findInliersIncremental
    simp only [M.bind_eq]
    rw [M.bind_ok (M.modify_apply _ _)]
    obtain ⟨p1, e1⟩ := incLoop_safe num { q with totalGood := 0 } (fun idn hidn => by
      have hreg := bumps_registered ht idn (by rw [← hnum]; exact hidn)
      obtain ⟨m, hm⟩ := Option.isSome_iff_exists.1 hreg
      obtain ⟨e, he, h1, _⟩ := get?_entry hm
      exact ⟨m, hm, by rw [← h1]; exact (hq.lc (Or.inr hi) e he).le⟩)
    rw [M.bind_ok e1, M.bind_ok (M.modify_apply _ _)]
    have hends := incLoop_ends num { q with totalGood := 0 } (fun idn hidn =>
      bumps_registered ht idn (by rw [← hnum]; exact hidn))
    rw [e1] at hends
    refine lmPass_safe ?_
    show ∀ e ∈ p1.landmarks, _
    rw [hends.2.1]
    exact fun e he => (hq.lm e he).1
  · exact findInliers_safe hq

section
variable [Mul G] [Inv G] [One G]

theorem alignStep_clean (cfg : Cfg G T N) (env : Env G N) (s : St G T N) : Clean (alignStep cfg env s) := by
  unfold alignStep
  split
  · have h : ∀ (p : Pcm G T N) (rs : List Chr) (v : Vals G), Clean (alignValues cfg env p rs v) := by
      intro p rs v
      cases rs with
      | nil => trivial
      | cons r0 rs =>
        refine Clean.bind (updateVals_clean _ _) fun v1 _ _ => Clean.forEach (fun ri v => ?_) rs v1
        unfold alignRobot
        split
        · trivial
        · split
          · trivial
          · split
            · exact fun h => by cases h
            · exact updateVals_clean _ _
    have := h { s.pcm with robotOrder := sortRobots cfg.charSigned s.pcm.robotOrder }
      (sortRobots cfg.charSigned s.pcm.robotOrder) s.values
    simp only
    generalize alignValues cfg env { s.pcm with robotOrder := sortRobots cfg.charSigned s.pcm.robotOrder }
      (sortRobots cfg.charSigned s.pcm.robotOrder) s.values = o at this
    cases o with
    | ok _ _ => trivial
    | throw _ _ => exact this
    | ub _ => exact this
  · trivial

/-- First observations keep the landmark table tidy. -/
theorem fileFirst_tidy {cfg : Cfg G T N} (bs : List (Btw G N)) (hl : ∀ b ∈ bs, Spec.Fair cfg b ∧ Spec.isLandmark cfg b = true)
    {l : List (Key × Meas G N)} (h : ∀ e ∈ l, Fits true e.2 ∧ ∀ x ∈ e.2.factors, x.noise.isSome ∧ x.k1 ≠ e.1) :
    ∀ e ∈ bs.foldl (fileFirst cfg) l, Fits true e.2 ∧ ∀ x ∈ e.2.factors, x.noise.isSome ∧ x.k1 ≠ e.1 := by
  refine fileFirst_induct (Inv := fun l => ∀ e ∈ l, Fits true e.2 ∧ ∀ x ∈ e.2.factors, x.noise.isSome ∧ x.k1 ≠ e.1) bs h ?_
  intro l hl' b hb e he
  have hb1 := hl b hb
  have hnew : ∀ k : Key, k = landmarkKey cfg b → Fits true (⟨[b], [b], Mat.zero 1⟩ : Meas G N) ∧
      ∀ x ∈ (⟨[b], [b], Mat.zero 1⟩ : Meas G N).factors, x.noise.isSome ∧ x.k1 ≠ k := by
    intro k hk
    refine ⟨⟨by simp, by simp [Mat.zero], fun _ => rfl⟩, fun x hx => ?_⟩
    have hx : x = b := by simpa using hx
    subst hx
    exact ⟨hb1.1.1, by rw [hk]; exact fair_key hb1.1 hb1.2⟩
  rcases AList.mem_upd he with he | ⟨rfl, _⟩ | ⟨v, _, hk, h2, h3⟩
  · exact hl' e he
  · exact hnew _ rfl
  · rw [h2]; exact hnew _ (by simpa using hk)

/-- A batch processed from a tidy state touches nothing out of range. -/
theorem removeOutliers_clean {cfg : Cfg G T N} (env : Env G N) {fs : Graph G N} (vs : Vals G) {s : St G T N}
    (h : Tidy cfg s.pcm) (hb : ∀ b ∈ Spec.btws fs, Spec.Fair cfg b) : Clean (removeOutliers cfg env fs vs s) := by
  unfold removeOutliers
  simp only [M.bind_eq]
  refine Clean.bind (Clean.zoom (insertVals_clean _ _)) fun s1 _ e1 => ?_
  obtain ⟨v1, _, rfl⟩ := M.zoom_eq_ok.1 e1
  unfold M.cond
  split
  · trivial
  · unfold processFactors
    simp only [M.bind_eq]
    rw [M.bind_ok (M.get_apply _)]
    refine Clean.bind (Clean.zoom (sortFactors_clean _ _ _ _ _ _ _ fun b hb' => (hb b hb').1)) fun s2 r e2 => ?_
    obtain ⟨p1, hp1, rfl⟩ := M.zoom_eq_ok.1 e2
    obtain ⟨hS, hr, _⟩ := sortFactors_ok _ _ _ _ _ _ _ _ _ hp1
    refine Clean.bind ?_ fun s3 _ _ => Clean.bind trivial fun s4 _ _ => Clean.bind (alignStep_clean _ _ _) fun _ _ _ => trivial
    unfold M.when
    split
    · refine Clean.zoom ?_
      have ht : Tidy cfg p1 := by
        refine ⟨by rw [hS.lcs]; exact h.lc, by rw [hS.lcs]; exact h.lcN, ?_⟩
        rw [hS.landmarks]
        refine fileFirst_tidy _ (fun b hb' => ?_) h.lm
        unfold Spec.firsts at hb'
        rw [List.mem_filter] at hb'
        refine ⟨hb b hb'.1, ?_⟩
        have := hb'.2
        unfold Spec.isFirstObs at this
        rw [Bool.and_eq_true] at this
        exact this.1
      obtain ⟨p', e⟩ := processCands_tidy (vals := v1) r.1 p1 ht (fun b hb' => by
        rw [hr] at hb'
        simp only [List.nil_append, Spec.cands, List.mem_filter] at hb'
        exact hb b hb'.1)
      show Clean (processCands cfg v1 r.1 p1)
      rw [e]; trivial
    · trivial

end

end RPGO
