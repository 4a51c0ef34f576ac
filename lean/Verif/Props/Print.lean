import Verif.Proofs.Print4
import Verif.Spec.Print
import Verif.Props.Graph
/-
C102: the messages on the terminal.
-/

namespace RPGO
variable {G T N : Type} [Mul G] [Inv G] [One G]

/-- The message about a candidate, from the state after the call. -/
def candSays (cfg : Cfg G T N) (v : Bool) (s' : St G T N) (b : Btw G N) : List Msg :=
  if Spec.valued s' b then
    if Spec.isLandmark cfg b then tells v (.withLandmark (Spec.landmarkOf cfg b))
    else if Spec.acceptable cfg s' b then tells v (.between b.k1 b.k2) else tells v .discarded
  else [.missingKeys]

/-- Messages that give totals only. -/
def Sums (cfg : Cfg G T N) (s : St G T N) (m : Msg) : Prop :=
  m = .registered s.pcm.totalLc ∨ m = .inliers s.pcm.totalGood ∨ (∃ r0 ri, m = .noClosures r0 ri) ∨
    m = .spin s.pcm.totalLc s.pcm.totalGood ∨ m = .running cfg.lm ∨ m = .optimized s.pcm.totalLc (shownInliers cfg s) ∨
    m = .gncOptimized s.pcm.totalGood s.gncNum

theorem mem_tells {v : Bool} {m x : Msg} (h : x ∈ tells v m) : v = true ∧ x = m := by
  unfold tells at h
  cases v
  · cases h
  · exact ⟨rfl, by simpa using h⟩

theorem optMsgs_sums {cfg : Cfg G T N} {g : Bool} {s : St G T N} {m : Msg} (h : m ∈ optMsgs cfg g s) :
    Sums cfg s m ∧ Spec.isSpin m = false := by
  unfold optMsgs at h
  rcases List.mem_append.1 h with h | h
  · rw [(mem_tells h).2]; exact ⟨.inr (.inr (.inr (.inr (.inl rfl)))), rfl⟩
  · split at h
    · rw [(mem_tells h).2]; exact ⟨.inr (.inr (.inr (.inr (.inr (.inr rfl))))), rfl⟩
    · rw [(mem_tells h).2]; exact ⟨.inr (.inr (.inr (.inr (.inr (.inl rfl))))), rfl⟩

theorem alignMsgs_sums {cfg : Cfg G T N} {p : Pcm G T N} {m : Msg} (h : m ∈ alignMsgs cfg p) : ∃ r0 ri, m = .noClosures r0 ri := by
  unfold alignMsgs at h
  split at h
  · split at h
    · cases h
    · obtain ⟨x, _, e⟩ := List.mem_map.1 h
      exact ⟨_, x, e.symm⟩
  · cases h

theorem countP_none {P : Msg → Bool} {l : List Msg} (h : ∀ m ∈ l, P m = false) : l.countP P = 0 := by
  rw [List.countP_eq_zero]
  intro m hm
  rw [h m hm]; decide

theorem candMsgs_plain (cfg : Cfg G T N) (v : Bool) (vals : Vals G) (f : Chr → Key → T) (bs : List (Btw G N)) (L : Key → List (Btw G N)) :
    (candMsgs cfg v vals f L bs).filter (fun m => !Spec.aside m) = bs.flatMap (candMsg cfg v vals f) := by
  induction bs generalizing L with
  | nil => rfl
  | cons b bs ih =>
    unfold candMsgs
    rw [List.filter_append, List.filter_append, ih, List.flatMap_cons]
    have h1 : (candMsg cfg v vals f b).filter (fun m => !Spec.aside m) = candMsg cfg v vals f b := by
      rw [List.filter_eq_self]
      intro m hm
      unfold candMsg at hm
      split at hm
      · split at hm
        · rw [(mem_tells hm).2]; rfl
        · split at hm <;> rw [(mem_tells hm).2] <;> rfl
      · rw [List.mem_singleton.1 hm]; rfl
    have h2 : (candWarn cfg vals L b).filter (fun m => !Spec.aside m) = [] := by
      rw [List.filter_eq_nil_iff]
      intro m hm
      unfold candWarn at hm
      split at hm
      · rcases landmarkWarnings_loud _ _ _ hm with h | h <;> rw [h] <;> decide
      · cases hm
    rw [h1, h2, List.append_nil]

theorem Sums.plain {cfg : Cfg G T N} {s : St G T N} {m : Msg} (h : Sums cfg s m) : Spec.aside m = false := by
  rcases h with h | h | ⟨_, _, h⟩ | h | h | h | h <;> subst h <;> rfl

theorem sortMsg_plain {cfg : Cfg G T N} {v : Bool} {vs : Vals G} {f : Option (Factor G N)} {m : Msg} (h : m ∈ sortMsg cfg v vs f) :
    Spec.aside m = false := by
  unfold sortMsg at h
  split at h
  · split at h
    · rw [(mem_tells h).2]; rfl
    · split at h
      · cases h
      · split at h
        · rw [List.mem_singleton.1 h]; rfl
        · cases h
  · cases h

theorem candMsg_says {cfg : Cfg G T N} {v : Bool} {v1 : Vals G} {s' : St G T N} {p1 : Pcm G T N}
    (hv : ∀ k, s'.values.has k = v1.has k) (hlk : lk cfg s'.pcm = lk cfg p1) : candMsg cfg v v1 (lk cfg p1) = candSays cfg v s' := by
  funext b
  have hk : Spec.valued s' b = known v1 b := by
    have : ∀ k, decide (k ∈ s'.values.keys) = v1.has k := by
      intro k
      rw [Bool.eq_iff_iff, decide_eq_true_eq, KMap.mem_keys_iff, hv]
    unfold Spec.valued known
    rw [this, this]
  unfold candMsg candSays
  rw [(Props.acceptable_eq hv hlk b).1, hk, Props.landmarkKey_eq]
  split
  · split
    · rfl
    · rename_i hl
      have : Spec.isLandmark cfg b = false := by simpa using hl
      rw [this]; simp
  · rfl

/-- What is written during a call that carries a batch. -/
theorem heard_all {cfg : Cfg G T N} {v : Bool} {env : Env G N} (hr : cfg.rejection = true) {op : Op G N} {fs : Graph G N}
    {vs : Vals G} (hb : Spec.batch op = some (fs, vs)) {s s' : St G T N} {ms : List Msg} (h : Spec.Says cfg v env op s s' ms) :
    (∃ r, exec cfg env op s = .ok s' r) ∧ ∃ rest v1 f L,
      ms = fs.flatMap (sortMsg cfg v vs) ++ (candMsgs cfg v v1 f L (Spec.cands cfg vs fs) ++ rest) ∧ candMsg cfg v v1 f = candSays cfg v s' ∧
      (∀ b, acceptLm cfg v1 b = (Spec.acceptable cfg s' b && Spec.isLandmark cfg b)) ∧
      (Spec.firsts cfg vs fs = [] → L = Spec.observed s) ∧
      (∀ m ∈ rest, Sums cfg s' m) ∧
      rest.countP Spec.isSpin = if (v && (!(Spec.specials fs).isEmpty || !(Spec.cands cfg vs fs).isEmpty)) then 1 else 0 := by
  obtain ⟨r, h⟩ := h
  have he := hush_ok h
  rw [hush_exec] at he
  refine ⟨⟨r, he⟩, ?_⟩
  obtain ⟨q1, d, h1, hf, hm⟩ := execT_batch hr hb h
  have hopt : ∃ os, ms = q1.2 ++ os ∧ ∀ m ∈ os, Sums cfg s' m ∧ Spec.isSpin m = false := by
    rcases hm with hm | ⟨g, hm⟩
    · exact ⟨[], by simpa using hm, by simp⟩
    · exact ⟨_, hm, fun m => optMsgs_sums⟩
  obtain ⟨os, hos, hsum⟩ := hopt
  unfold removeOutliersT at h1
  simp only [M.bind_eq] at h1
  obtain ⟨q0, _, g0, h2⟩ := M.bind_eq_ok.1 h1
  clear h1
  have h1 := h2
  clear h2
  obtain ⟨g1, g2⟩ := mute_ok g0
  simp only at g2
  unfold M.cond at h1
  split at h1
  · rename_i hl
    have hfs : fs = [] := List.length_eq_zero_iff.1 (of_decide_eq_true hl)
    subst hfs
    cases h1
    have hpcm : s'.pcm = s.pcm := by
      have := hf.pcm
      rw [this]
      obtain ⟨_, x, y⟩ := M.zoom_eq_ok.1 g1
      rw [y]
    have hcand := fun b => (Props.acceptable_eq (cfg := cfg) (s' := s') (v1 := s'.values) (p1 := s'.pcm) (fun _ => rfl) rfl b)
    refine ⟨os, s'.values, lk cfg s'.pcm, Spec.observed s, ?_, candMsg_says (fun _ => rfl) rfl, fun b => (hcand b).2, fun _ => rfl, fun m hm => (hsum m hm).1, ?_⟩
    · rw [hos, g2]; rfl
    · rw [countP_none fun m hm => (hsum m hm).2]
      simp [Spec.specials, Spec.cands, Spec.btws]
  · obtain ⟨_, p1, p2, t⟩ := processFactorsT_says h1
    have hp : s'.pcm = { p2 with robotOrder := s'.pcm.robotOrder } := by
      rw [hf.pcm, t.pcm]
    have hv : ∀ k, s'.values.has k = q0.1.values.has k := fun k => by rw [hf.values.has, t.keys.has]
    have hq : ∃ q, TrajOnly cfg ((Spec.cands cfg vs fs).foldl (parseStep cfg q0.1.values (lk cfg p1)) p1) q ∧ SelPcm q p2 := by
      by_cases hc : Spec.cands cfg vs fs = []
      · rw [t.none hc, hc]; exact ⟨p1, TrajOnly.refl _, SelPcm.refl _⟩
      · have he := processCands_ends cfg q0.1.values (Spec.cands cfg vs fs) p1
        rw [t.some hc] at he
        obtain ⟨q, hq, hs, _⟩ := he
        exact ⟨q, hq, hs⟩
    obtain ⟨q, ht, hs⟩ := hq
    have hlk : lk cfg s'.pcm = lk cfg p1 := by
      have hl : lk cfg s'.pcm = lk cfg p2 := by rw [hp]; rfl
      rw [hl]
      exact processed_lk ht hs
    have e1 : p2.totalLc = s'.pcm.totalLc := by rw [hp]
    have e2 : p2.totalGood = s'.pcm.totalGood := by rw [hp]
    refine ⟨((if Spec.cands cfg vs fs = [] then [] else tells v (.registered p2.totalLc) ++ tells v (.inliers p2.totalGood)) ++
        alignMsgs cfg p2 ++
        tells (v && (!(Spec.specials fs).isEmpty || !(Spec.cands cfg vs fs).isEmpty)) (.spin p2.totalLc p2.totalGood)) ++ os,
        q0.1.values, lk cfg p1, obsOf p1, ?_, candMsg_says hv hlk, fun b => (Props.acceptable_eq hv hlk b).2, ?_, ?_, ?_⟩
    · rw [hos, t.said, g2]
      simp only [List.nil_append, List.append_assoc]
    · intro hfi
      have h1 : p1.landmarks = q0.1.pcm.landmarks := by rw [t.sorted.landmarks, hfi]; rfl
      have h2 : q0.1.pcm = s.pcm := by
        obtain ⟨_, x, y⟩ := M.zoom_eq_ok.1 g1
        rw [y]
      funext l
      unfold obsOf Spec.observed lmOf
      rw [h1, h2]
    · intro m hm
      rw [e1, e2] at hm
      rcases List.mem_append.1 hm with hm | hm
      · rcases List.mem_append.1 hm with hm | hm
        · rcases List.mem_append.1 hm with hm | hm
          · split at hm
            · cases hm
            · rcases List.mem_append.1 hm with hm | hm
              · exact .inl (mem_tells hm).2
              · exact .inr (.inl (mem_tells hm).2)
          · exact .inr (.inr (.inl (alignMsgs_sums hm)))
        · exact .inr (.inr (.inr (.inl (mem_tells hm).2)))
      · exact (hsum m hm).1
    · rw [List.countP_append, List.countP_append, List.countP_append, countP_none fun m hm => (hsum m hm).2]
      rw [countP_none (l := alignMsgs cfg p2) (fun m hm => by obtain ⟨_, _, e⟩ := alignMsgs_sums hm; rw [e]; rfl)]
      have : (if Spec.cands cfg vs fs = [] then [] else tells v (.registered p2.totalLc) ++ tells v (.inliers p2.totalGood)).countP Spec.isSpin = 0 := by
        apply countP_none
        intro m hm
        split at hm
        · cases hm
        · rcases List.mem_append.1 hm with hm | hm
          · rw [(mem_tells hm).2]; rfl
          · rw [(mem_tells hm).2]; rfl
      rw [this]
      unfold tells
      split <;> rfl

/-- The same, without the warnings about landmarks. -/
theorem heard {cfg : Cfg G T N} {v : Bool} {env : Env G N} (hr : cfg.rejection = true) {op : Op G N} {fs : Graph G N}
    {vs : Vals G} (hb : Spec.batch op = some (fs, vs)) {s s' : St G T N} {ms : List Msg} (h : Spec.Says cfg v env op s s' ms) :
    (∃ r, exec cfg env op s = .ok s' r) ∧ ∃ rest,
      ms.filter (fun m => !Spec.aside m) = fs.flatMap (sortMsg cfg v vs) ++ ((Spec.cands cfg vs fs).flatMap (candSays cfg v s') ++ rest) ∧
      (∀ m ∈ rest, Sums cfg s' m) ∧
      rest.countP Spec.isSpin = if (v && (!(Spec.specials fs).isEmpty || !(Spec.cands cfg vs fs).isEmpty)) then 1 else 0 := by
  obtain ⟨e, rest, v1, f, L, hms, hc, _, _, hs, hspin⟩ := heard_all hr hb h
  refine ⟨e, rest, ?_, hs, hspin⟩
  rw [hms, List.filter_append, List.filter_append, candMsgs_plain, hc]
  congr 1
  · rw [List.filter_eq_self]
    intro m hm
    obtain ⟨f, _, hm⟩ := List.mem_flatMap.1 hm
    rw [sortMsg_plain hm]; rfl
  · congr 1
    rw [List.filter_eq_self]
    intro m hm
    rw [(hs m hm).plain]; rfl

/-! ### Counting -/

theorem countP_plain {P : Msg → Bool} (h1 : P .backwards = false) (h2 : P .apart = false) (ms : List Msg) :
    ms.countP P = (ms.filter fun m => !Spec.aside m).countP P := by
  rw [List.countP_filter]
  apply List.countP_congr
  intro m _
  cases m <;> simp [Spec.aside, h1, h2]

theorem filterMap_plain {γ : Type} {P : Msg → Option γ} (h1 : P .backwards = none) (h2 : P .apart = none) (ms : List Msg) :
    ms.filterMap P = (ms.filter fun m => !Spec.aside m).filterMap P := by
  induction ms with
  | nil => rfl
  | cons m ms ih => cases m <;> simp [List.filter_cons, Spec.aside, h1, h2, ih, List.filterMap_cons]

theorem flatMap_countP {α : Type} (P : Msg → Bool) (l : List α) (f : α → List Msg) (A : α → Bool)
    (h : ∀ a ∈ l, (f a).countP P = if A a then 1 else 0) : (l.flatMap f).countP P = (l.filter A).length := by
  induction l with
  | nil => rfl
  | cons a l ih =>
    rw [List.flatMap_cons, List.countP_append, ih fun b hb => h b (List.mem_cons_of_mem _ hb), h a List.mem_cons_self, List.filter_cons]
    cases A a <;> simp <;> omega

theorem flatMap_filterMap {α β γ : Type} (P : β → Option γ) (l : List α) (f : α → List β) (A : α → Bool) (g : α → γ)
    (h : ∀ a ∈ l, (f a).filterMap P = if A a then [g a] else []) : (l.flatMap f).filterMap P = (l.filter A).map g := by
  induction l with
  | nil => rfl
  | cons a l ih =>
    rw [List.flatMap_cons, List.filterMap_append, ih fun b hb => h b (List.mem_cons_of_mem _ hb), h a List.mem_cons_self, List.filter_cons]
    cases A a <;> simp

/-- The messages while the batch is sorted concern the between factors only. -/
theorem sortMsg_btws (cfg : Cfg G T N) (v : Bool) (vs : Vals G) (fs : Graph G N) :
    fs.flatMap (sortMsg cfg v vs) = (Spec.btws fs).flatMap fun b => sortMsg cfg v vs (some (.btw b)) := by
  induction fs with
  | nil => rfl
  | cons f fs ih =>
    rw [List.flatMap_cons, ih]
    rcases f with _ | f
    · rfl
    · cases f <;> rfl

theorem sortMsg_eq (cfg : Cfg G T N) (v : Bool) (vs : Vals G) (b : Btw G N) : sortMsg cfg v vs (some (.btw b)) =
    if Spec.isFirstObs cfg vs b then tells v .newLandmark
    else if Spec.isOdom cfg vs b then [] else if b.k1 = b.k2 then [.self] else [] := rfl

/-- A message about totals is not about a single measurement. -/
theorem Sums.quiet {cfg : Cfg G T N} {s : St G T N} {m : Msg} (h : Sums cfg s m) :
    Spec.registers m = false ∧ Spec.refuses m = false ∧ Spec.closure? m = none ∧ Spec.landmark? m = none ∧ m ≠ .self ∧ m ≠ .missingKeys ∧
      m ≠ .discarded ∧ m ≠ .newLandmark := by
  rcases h with h | h | ⟨_, _, h⟩ | h | h | h | h <;> subst h <;> simp [Spec.registers, Spec.refuses, Spec.closure?, Spec.landmark?]

theorem filterMap_none {γ : Type} {P : Msg → Option γ} {l : List Msg} (h : ∀ m ∈ l, P m = none) : l.filterMap P = [] := by
  induction l with
  | nil => rfl
  | cons m l ih => rw [List.filterMap_cons, h m List.mem_cons_self]; exact ih fun x hx => h x (List.mem_cons_of_mem _ hx)

theorem isFirst_not_odom {cfg : Cfg G T N} {vs : Vals G} {b : Btw G N} (h : Spec.isFirstObs cfg vs b = true) : Spec.isOdom cfg vs b = false := by
  unfold Spec.isFirstObs Spec.isLandmark at h
  unfold Spec.isOdom
  simp only [Bool.and_eq_true, decide_eq_true_eq] at h
  simp only [decide_eq_false_iff_not]
  rintro ⟨h1, h2, _⟩
  rcases h.1 with h | h
  · exact h1 h
  · exact h2 h

theorem self_not_odom {cfg : Cfg G T N} {vs : Vals G} {b : Btw G N} (h : b.k1 = b.k2) : Spec.isOdom cfg vs b = false := by
  unfold Spec.isOdom
  simp only [decide_eq_false_iff_not]
  rintro ⟨_, _, h3, _⟩
  rw [h] at h3
  exact absurd h3 (by bv_omega)

namespace Props

/-- C102: the messages and the mode do not influence the run: without them every call does what it does in any mode. -/
theorem C102_same (cfg : Cfg G T N) (v : Bool) (env : Env G N) (op : Op G N) (s : St G T N) (ms : List Msg) :
    Spec.hush (execT cfg v env op (s, ms)) = exec cfg env op s := hush_exec cfg v env op (s, ms)

/-- C102: outside mode VERBOSE the messages are the warnings and what the solver itself writes; these are the same, in the same order,
in mode VERBOSE. -/
theorem C102_quiet {cfg : Cfg G T N} {v : Bool} {env : Env G N} {op : Op G N} {s s' : St G T N} {ms : List Msg} (h : Spec.Says cfg v env op s s' ms) :
    Spec.Says cfg false env op s s' (ms.filter Spec.loud) := by
  obtain ⟨r, h⟩ := h
  have := Thins.exec cfg v env op (s, [])
  rw [h] at this
  exact ⟨r, this⟩

/-- C102: the refusals, in any mode that writes them: warnings about self-loops and about candidates with an end that has no value, one for each. -/
theorem C102_warnings {cfg : Cfg G T N} {v : Bool} {env : Env G N} (hr : cfg.rejection = true) {op : Op G N} {fs : Graph G N}
    {vs : Vals G} (hb : Spec.batch op = some (fs, vs)) {s s' : St G T N} {ms : List Msg} (h : Spec.Says cfg v env op s s' ms) :
    ms.countP (· == .self) = ((Spec.btws fs).filter fun b => decide (b.k1 = b.k2) && !Spec.isFirstObs cfg vs b).length ∧
    ms.countP (· == .missingKeys) = ((Spec.cands cfg vs fs).filter fun b => !Spec.valued s' b).length := by
  obtain ⟨⟨r, e⟩, rest, hms, hs, _⟩ := heard hr hb h
  constructor
  · rw [countP_plain rfl rfl, hms, List.countP_append, List.countP_append, countP_none fun m hm => beq_eq_false_iff_ne.2 (hs m hm).quiet.2.2.2.2.1, sortMsg_btws,
      flatMap_countP _ _ _ (fun b => decide (b.k1 = b.k2) && !Spec.isFirstObs cfg vs b), countP_none]
    · rfl
    · intro m hm
      obtain ⟨b, _, hm⟩ := List.mem_flatMap.1 hm
      unfold candSays at hm
      split at hm
      · split at hm
        · rw [(mem_tells hm).2]; rfl
        · split at hm <;> rw [(mem_tells hm).2] <;> rfl
      · rw [List.mem_singleton.1 hm]; rfl
    · intro b _
      rw [sortMsg_eq]
      by_cases hf : Spec.isFirstObs cfg vs b = true
      · rw [if_pos hf, hf]; cases v <;> simp [tells]
      · have hf' : Spec.isFirstObs cfg vs b = false := by simpa using hf
        rw [if_neg hf, hf']
        by_cases hk : b.k1 = b.k2
        · have : Spec.isOdom cfg vs b = false := self_not_odom hk
          rw [this]; simp [hk]
        · cases Spec.isOdom cfg vs b <;> simp [hk]
  · rw [countP_plain rfl rfl, hms, List.countP_append, List.countP_append, countP_none fun m hm => beq_eq_false_iff_ne.2 (hs m hm).quiet.2.2.2.2.2.1, sortMsg_btws,
      countP_none, flatMap_countP _ _ _ (fun b => !Spec.valued s' b), Nat.zero_add, Nat.add_zero]
    · intro b _
      unfold candSays
      cases Spec.valued s' b
      · rfl
      · cases v <;> cases Spec.isLandmark cfg b <;> cases Spec.acceptable cfg s' b <;> simp [tells]
    · intro m hm
      obtain ⟨b, _, hm⟩ := List.mem_flatMap.1 hm
      rw [sortMsg_eq] at hm
      split at hm
      · rw [(mem_tells hm).2]; rfl
      · split at hm
        · cases hm
        · split at hm
          · rw [List.mem_singleton.1 hm]; rfl
          · cases hm

/-- C102: in mode VERBOSE every between factor of a batch that is not odometry is accounted for by exactly one message, which says that it
was registered or refused, and `getNumLC()` grows by the number of those that say registered. -/
theorem C102_accounted {cfg : Cfg G T N} {env : Env G N} (hr : cfg.rejection = true) {op : Op G N} {fs : Graph G N}
    {vs : Vals G} (hb : Spec.batch op = some (fs, vs)) {s s' : St G T N} {ms : List Msg} (h : Spec.Says cfg true env op s s' ms) {n : Nat}
    (hn : Spec.NumLC cfg env s n) :
    ms.countP Spec.registers + ms.countP Spec.refuses = ((Spec.btws fs).filter fun b => !Spec.isOdom cfg vs b).length ∧
      Spec.NumLC cfg env s' (n + ms.countP Spec.registers) := by
  obtain ⟨⟨r, e⟩, rest, hms, hs, _⟩ := heard hr hb h
  have hreg : ms.countP Spec.registers = (Spec.firsts cfg vs fs).length + ((Spec.cands cfg vs fs).filter (Spec.acceptable cfg s')).length := by
    rw [countP_plain rfl rfl, hms, List.countP_append, List.countP_append, countP_none fun m hm => (hs m hm).quiet.1, sortMsg_btws,
      flatMap_countP _ _ _ (Spec.isFirstObs cfg vs), flatMap_countP _ _ _ (Spec.acceptable cfg s')]
    · rfl
    · intro b hb
      unfold candSays Spec.acceptable Spec.valued
      cases decide (b.k1 ∈ s'.values.keys) <;> cases decide (b.k2 ∈ s'.values.keys) <;> cases Spec.isLandmark cfg b <;>
        cases decide (chr b.k1 ≠ chr b.k2) <;> cases Spec.checkOdom cfg s' b <;> rfl
    · intro b hb
      rw [sortMsg_eq]
      split
      · rfl
      · split
        · rfl
        · split <;> rfl
  have href : ms.countP Spec.refuses = ((Spec.btws fs).filter fun b => decide (b.k1 = b.k2) && !Spec.isFirstObs cfg vs b).length +
      ((Spec.cands cfg vs fs).filter fun b => !Spec.acceptable cfg s' b).length := by
    rw [countP_plain rfl rfl, hms, List.countP_append, List.countP_append, countP_none fun m hm => (hs m hm).quiet.2.1, sortMsg_btws,
      flatMap_countP _ _ _ (fun b => decide (b.k1 = b.k2) && !Spec.isFirstObs cfg vs b), flatMap_countP _ _ _ (fun b => !Spec.acceptable cfg s' b)]
    · rfl
    · intro b hb
      unfold candSays Spec.acceptable Spec.valued
      cases decide (b.k1 ∈ s'.values.keys) <;> cases decide (b.k2 ∈ s'.values.keys) <;> cases Spec.isLandmark cfg b <;>
        cases decide (chr b.k1 ≠ chr b.k2) <;> cases Spec.checkOdom cfg s' b <;> rfl
    · intro b hb
      rw [sortMsg_eq]
      by_cases hf : Spec.isFirstObs cfg vs b = true
      · rw [if_pos hf, hf]; simp [tells, Spec.refuses]
      · have hf' : Spec.isFirstObs cfg vs b = false := by simpa using hf
        rw [if_neg hf, hf']
        by_cases hk : b.k1 = b.k2
        · have : Spec.isOdom cfg vs b = false := self_not_odom hk
          rw [this]; simp [hk, Spec.refuses]
        · cases Spec.isOdom cfg vs b <;> simp [hk]
  refine ⟨?_, ?_⟩
  · have h1 := List.length_eq_length_filter_add (l := Spec.cands cfg vs fs) (Spec.acceptable cfg s')
    have h2 : ((Spec.btws fs).filter fun b => !Spec.isOdom cfg vs b).length = (Spec.firsts cfg vs fs).length +
        ((Spec.btws fs).filter fun b => decide (b.k1 = b.k2) && !Spec.isFirstObs cfg vs b).length + (Spec.cands cfg vs fs).length := by
      unfold Spec.firsts Spec.cands
      induction Spec.btws fs with
      | nil => rfl
      | cons b bs ih =>
        simp only [List.filter_cons]
        by_cases hf : Spec.isFirstObs cfg vs b = true
        · have := isFirst_not_odom hf
          simp [hf, this, Spec.isCand, ih]; omega
        · have hf' : Spec.isFirstObs cfg vs b = false := by simpa using hf
          by_cases hk : b.k1 = b.k2
          · have : Spec.isOdom cfg vs b = false := self_not_odom hk
            simp [hf', this, Spec.isCand, hk, ih]; omega
          · cases ho : Spec.isOdom cfg vs b <;> simp [hf', ho, Spec.isCand, hk, ih]
            omega
    omega
  · rw [hreg, ← Nat.add_assoc]
    exact C19_batch hr hb e hn

/-- C102: in mode VERBOSE the messages about closures name, for every pair of robots, the ends of the closures registered by the call, in the
order in which they are registered. -/
theorem C102_named {cfg : Cfg G T N} {env : Env G N} (hr : cfg.rejection = true) {op : Op G N} {fs : Graph G N}
    {vs : Vals G} (hb : Spec.batch op = some (fs, vs)) {s s' : St G T N} {ms : List Msg} (h : Spec.Says cfg true env op s s' ms) (id : ObsId) :
    ∃ new, Spec.registered s' id = Spec.registered s id ++ new ∧
      new.map (fun b => (b.k1, b.k2)) = (ms.filterMap Spec.closure?).filter fun k => (ObsId.mk (chr k.1) (chr k.2)).eqv id := by
  obtain ⟨⟨r, e⟩, rest, hms, hs, _⟩ := heard hr hb h
  refine ⟨_, (C18_effect hr hb e).2.2.1 id, ?_⟩
  rw [filterMap_plain rfl rfl, hms, List.filterMap_append, List.filterMap_append, filterMap_none fun m hm => (hs m hm).quiet.2.2.1, filterMap_none,
    flatMap_filterMap _ _ _ (fun b => Spec.acceptable cfg s' b && !Spec.isLandmark cfg b) (fun b => (b.k1, b.k2))]
  · rw [List.nil_append, List.append_nil, List.filter_map, List.filter_filter]
    congr 1
    apply List.filter_congr
    intro b _
    simp only [Function.comp_apply]
    rw [Bool.and_comm]
  · intro b hb
    unfold candSays Spec.acceptable Spec.valued
    cases decide (b.k1 ∈ s'.values.keys) <;> cases decide (b.k2 ∈ s'.values.keys) <;> cases Spec.isLandmark cfg b <;>
      cases decide (chr b.k1 ≠ chr b.k2) <;> cases Spec.checkOdom cfg s' b <;> rfl
  · intro m hm
    rw [sortMsg_btws] at hm
    obtain ⟨b, _, hm⟩ := List.mem_flatMap.1 hm
    rw [sortMsg_eq] at hm
    split at hm
    · rw [(mem_tells hm).2]; rfl
    · split at hm
      · cases hm
      · split at hm
        · rw [List.mem_singleton.1 hm]; rfl
        · cases hm

/-- C102: the messages about further observations name the landmarks observed, in order. -/
theorem C102_landmarks {cfg : Cfg G T N} {env : Env G N} (hr : cfg.rejection = true) {op : Op G N} {fs : Graph G N}
    {vs : Vals G} (hb : Spec.batch op = some (fs, vs)) {s s' : St G T N} {ms : List Msg} (h : Spec.Says cfg true env op s s' ms) :
    ms.filterMap Spec.landmark? =
      ((Spec.cands cfg vs fs).filter fun b => Spec.acceptable cfg s' b && Spec.isLandmark cfg b).map (Spec.landmarkOf cfg) ∧
    ms.countP (· == .newLandmark) = (Spec.firsts cfg vs fs).length := by
  obtain ⟨⟨r, e⟩, rest, hms, hs, _⟩ := heard hr hb h
  constructor
  · rw [filterMap_plain rfl rfl, hms, List.filterMap_append, List.filterMap_append, filterMap_none fun m hm => (hs m hm).quiet.2.2.2.1, filterMap_none,
      flatMap_filterMap _ _ _ (fun b => Spec.acceptable cfg s' b && Spec.isLandmark cfg b) (Spec.landmarkOf cfg)]
    · simp
    · intro b hb
      unfold candSays Spec.acceptable Spec.valued
      cases decide (b.k1 ∈ s'.values.keys) <;> cases decide (b.k2 ∈ s'.values.keys) <;> cases Spec.isLandmark cfg b <;>
        cases decide (chr b.k1 ≠ chr b.k2) <;> cases Spec.checkOdom cfg s' b <;> rfl
    · intro m hm
      rw [sortMsg_btws] at hm
      obtain ⟨b, _, hm⟩ := List.mem_flatMap.1 hm
      rw [sortMsg_eq] at hm
      split at hm
      · rw [(mem_tells hm).2]; rfl
      · split at hm
        · cases hm
        · split at hm
          · rw [List.mem_singleton.1 hm]; rfl
          · cases hm
  · rw [countP_plain rfl rfl, hms, List.countP_append, List.countP_append, countP_none fun m hm => beq_eq_false_iff_ne.2 (hs m hm).quiet.2.2.2.2.2.2.2, sortMsg_btws,
      flatMap_countP _ _ _ (Spec.isFirstObs cfg vs), countP_none]
    · rfl
    · intro m hm
      obtain ⟨b, _, hm⟩ := List.mem_flatMap.1 hm
      unfold candSays at hm
      split at hm
      · split at hm
        · rw [(mem_tells hm).2]; rfl
        · split at hm <;> rw [(mem_tells hm).2] <;> rfl
      · rw [List.mem_singleton.1 hm]; rfl
    · intro b hb
      rw [sortMsg_eq]
      split
      · rfl
      · split
        · rfl
        · split <;> rfl

theorem shown_iff {cfg : Cfg G T N} {env : Env G N} (hr : cfg.rejection = true) {s : St G T N} : Spec.NumInliers cfg env s (shownInliers cfg s) := by
  unfold Spec.NumInliers exec M.ret getNumLCInliers shownInliers
  simp only [M.bind, hr, if_true, M.pure]
  cases cfg.useGnc <;> rfl

/-- C102: the numbers in the messages are those the solver returns when asked after the call: the numbers of closures, and without GNC
the numbers of inliers; after an optimization without GNC the number of inliers is what `getNumLCInliers()` returns. Mode VERBOSE closes every batch with a
closure candidate or a factor that is not a between factor with exactly one summary. -/
theorem C102_totals {cfg : Cfg G T N} {v : Bool} {env : Env G N} (hr : cfg.rejection = true) {op : Op G N} {fs : Graph G N}
    {vs : Vals G} (hb : Spec.batch op = some (fs, vs)) {s s' : St G T N} {ms : List Msg} (h : Spec.Says cfg v env op s s' ms) :
    (∀ n, .registered n ∈ ms → Spec.NumLC cfg env s' n) ∧
    (∀ n k, .spin n k ∈ ms → Spec.NumLC cfg env s' n ∧ (cfg.useGnc = false → Spec.NumInliers cfg env s' k)) ∧
    (∀ k, .inliers k ∈ ms → cfg.useGnc = false → Spec.NumInliers cfg env s' k) ∧
    (∀ n k, .optimized n k ∈ ms → Spec.NumLC cfg env s' n ∧ Spec.NumInliers cfg env s' k) ∧
    (∀ n k, .gncOptimized n k ∈ ms → cfg.useGnc = true → Spec.NumInliers cfg env s' k) ∧
    ms.countP Spec.isSpin = if v = true ∧ (Spec.specials fs ≠ [] ∨ Spec.cands cfg vs fs ≠ []) then 1 else 0 := by
  obtain ⟨⟨r, e⟩, rest, hms, hs, hspin⟩ := heard hr hb h
  have hpre : ∀ m ∈ ms, Spec.aside m = false → (Spec.registers m = true ∨ Spec.refuses m = true) ∨ m ∈ rest := by
    intro m hm0 has
    have hm : m ∈ ms.filter fun m => !Spec.aside m := List.mem_filter.2 ⟨hm0, by rw [has]; rfl⟩
    rw [hms] at hm
    rcases List.mem_append.1 hm with hm | hm
    · rw [sortMsg_btws] at hm
      obtain ⟨b, _, hm⟩ := List.mem_flatMap.1 hm
      rw [sortMsg_eq] at hm
      left
      split at hm
      · rw [(mem_tells hm).2]; exact .inl rfl
      · split at hm
        · cases hm
        · split at hm
          · rw [List.mem_singleton.1 hm]; exact .inr rfl
          · cases hm
    · rcases List.mem_append.1 hm with hm | hm
      · left
        obtain ⟨b, _, hm⟩ := List.mem_flatMap.1 hm
        unfold candSays at hm
        split at hm
        · split at hm
          · rw [(mem_tells hm).2]; exact .inl rfl
          · split at hm
            · rw [(mem_tells hm).2]; exact .inl rfl
            · rw [(mem_tells hm).2]; exact .inr rfl
        · rw [List.mem_singleton.1 hm]; exact .inr rfl
      · exact .inr hm
  have hsum : ∀ m ∈ ms, Spec.aside m = false → Spec.registers m = false → Spec.refuses m = false → Sums cfg s' m := by
    intro m hm h0 h1 h2
    rcases hpre m hm h0 with (h | h) | h
    · rw [h1] at h; cases h
    · rw [h2] at h; cases h
    · exact hs m h
  refine ⟨?_, ?_, ?_, ?_, ?_, ?_⟩
  · intro n hn
    rw [numLC_iff hr]
    have := hsum _ hn rfl rfl rfl
    simpa [Sums] using this
  · intro n k hn
    have := hsum _ hn rfl rfl rfl
    have : n = s'.pcm.totalLc ∧ k = s'.pcm.totalGood := by simpa [Sums] using this
    exact ⟨(numLC_iff hr).2 this.1, fun hg => (numInliers_iff hr hg).2 this.2⟩
  · intro k hn hg
    have := hsum _ hn rfl rfl rfl
    exact (numInliers_iff hr hg).2 (by simpa [Sums] using this)
  · intro n k hn
    have := hsum _ hn rfl rfl rfl
    have : n = s'.pcm.totalLc ∧ k = shownInliers cfg s' := by simpa [Sums] using this
    exact ⟨(numLC_iff hr).2 this.1, by rw [this.2]; exact shown_iff hr⟩
  · intro n k hn hg
    have := hsum _ hn rfl rfl rfl
    have : n = s'.pcm.totalGood ∧ k = s'.gncNum := by simpa [Sums] using this
    have hk : k = shownInliers cfg s' := by rw [this.2]; unfold shownInliers; rw [if_pos hg]
    rw [hk]; exact shown_iff hr
  · rw [countP_plain rfl rfl, hms, List.countP_append, List.countP_append, hspin, countP_none, countP_none, Nat.zero_add, Nat.zero_add]
    · cases v <;> cases Spec.specials fs <;> cases Spec.cands cfg vs fs <;> simp
    · intro m hm
      obtain ⟨b, _, hm⟩ := List.mem_flatMap.1 hm
      unfold candSays at hm
      split at hm
      · split at hm
        · rw [(mem_tells hm).2]; rfl
        · split at hm <;> rw [(mem_tells hm).2] <;> rfl
      · rw [List.mem_singleton.1 hm]; rfl
    · intro m hm
      rw [sortMsg_btws] at hm
      obtain ⟨b, _, hm⟩ := List.mem_flatMap.1 hm
      rw [sortMsg_eq] at hm
      split at hm
      · rw [(mem_tells hm).2]; rfl
      · split at hm
        · cases hm
        · split at hm
          · rw [List.mem_singleton.1 hm]; rfl
          · cases hm

/-- C102: the warning that an observation of a landmark is "discarded" because it is written from the landmark to the pose: for a batch whose only candidate
observes a landmark, it is written exactly if the landmark was observed before and this or an earlier observation is written that way round; and the
observation is registered and counted by `getNumLC()` all the same. -/
theorem C102_discarding {cfg : Cfg G T N} {v : Bool} {env : Env G N} (hr : cfg.rejection = true) {op : Op G N} {fs : Graph G N}
    {vs : Vals G} (hb : Spec.batch op = some (fs, vs)) {s s' : St G T N} {ms : List Msg} (h : Spec.Says cfg v env op s s' ms) {b : Btw G N}
    (hc : Spec.cands cfg vs fs = [b]) (hf : Spec.firsts cfg vs fs = []) (hl : Spec.isLandmark cfg b = true) (hv : Spec.valued s' b = true) {n : Nat}
    (hn : Spec.NumLC cfg env s n) :
    (.backwards ∈ ms ↔ Spec.observed s (Spec.landmarkOf cfg b) ≠ [] ∧
      ∃ x ∈ Spec.observed s (Spec.landmarkOf cfg b) ++ [b], x.k1 = Spec.landmarkOf cfg b) ∧
    Spec.observed s' (Spec.landmarkOf cfg b) = Spec.observed s (Spec.landmarkOf cfg b) ++ [b] ∧ Spec.NumLC cfg env s' (n + 1) := by
  obtain ⟨⟨r, e⟩, rest, v1, f, L, hms, hcm, ha, hL, hs, _⟩ := heard_all hr hb h
  have hacc : Spec.acceptable cfg s' b = true := by
    unfold Spec.acceptable Spec.valued at *
    rw [hv, hl]; rfl
  refine ⟨?_, ?_, ?_⟩
  · have hw : candMsgs cfg v v1 f L (Spec.cands cfg vs fs) =
        candSays cfg v s' b ++ landmarkWarnings (Spec.landmarkOf cfg b) b (Spec.observed s (Spec.landmarkOf cfg b)) := by
      rw [hc]
      show candMsg cfg v v1 f b ++ candWarn cfg v1 L b ++ [] = _
      rw [hcm, List.append_nil]
      unfold candWarn
      rw [ha b, hacc, hl, hL hf, landmarkKey_eq]
      rfl
    have h1 : Msg.backwards ∈ ms ↔ Msg.backwards ∈ landmarkWarnings (Spec.landmarkOf cfg b) b (Spec.observed s (Spec.landmarkOf cfg b)) := by
      rw [hms, hw, List.mem_append, List.mem_append, List.mem_append]
      constructor
      · rintro (h | (h | h) | h)
        · obtain ⟨f, _, h⟩ := List.mem_flatMap.1 h
          exact absurd (sortMsg_plain h) (by decide)
        · unfold candSays at h
          rw [hv, hl] at h
          exact absurd (mem_tells h).2 (by simp)
        · exact h
        · exact absurd (hs _ h).plain (by decide)
      · exact fun h => .inr (.inl (.inr h))
    rw [h1]
    generalize Spec.observed s (Spec.landmarkOf cfg b) = xs
    generalize Spec.landmarkOf cfg b = l
    induction xs with
    | nil => simp [landmarkWarnings]
    | cons x xs ih =>
      unfold landmarkWarnings
      by_cases hx : x.k1 = l ∨ b.k1 = l
      · rw [if_pos hx]
        constructor
        · intro _
          refine ⟨by simp, ?_⟩
          rcases hx with hx | hx
          · exact ⟨x, by simp, hx⟩
          · exact ⟨b, by simp, hx⟩
        · intro _; simp
      · rw [if_neg hx, List.mem_append]
        push Not at hx
        constructor
        · rintro (h | h)
          · split at h
            · simp at h
            · cases h
          · obtain ⟨_, y, hy, hk⟩ := ih.1 h
            exact ⟨by simp, y, List.mem_cons_of_mem _ hy, hk⟩
        · rintro ⟨_, y, hy, hk⟩
          right
          rcases List.mem_cons.1 hy with rfl | hy
          · exact absurd hk hx.1
          · refine ih.2 ⟨?_, y, hy, hk⟩
            rintro rfl
            have hy : y = b := List.mem_singleton.1 hy
            subst hy
            exact hx.2 hk
  · have := (C18_effect hr hb e).2.2.2 (Spec.landmarkOf cfg b)
    rw [hf, hc] at this
    simpa [hacc, hl] using this
  · have := C19_batch hr hb e hn
    rw [hf, hc] at this
    simpa [hacc] using this

/-- C102: for the same batches, if all observations are written from the pose to the landmark, there is one warning that two observations are from different robots for every
earlier observation of the landmark by another robot. -/
theorem C102_apart {cfg : Cfg G T N} {v : Bool} {env : Env G N} (hr : cfg.rejection = true) {op : Op G N} {fs : Graph G N}
    {vs : Vals G} (hb : Spec.batch op = some (fs, vs)) {s s' : St G T N} {ms : List Msg} (h : Spec.Says cfg v env op s s' ms) {b : Btw G N}
    (hc : Spec.cands cfg vs fs = [b]) (hf : Spec.firsts cfg vs fs = []) (hl : Spec.isLandmark cfg b = true) (hv : Spec.valued s' b = true)
    (hd : ∀ x ∈ Spec.observed s (Spec.landmarkOf cfg b) ++ [b], x.k1 ≠ Spec.landmarkOf cfg b) :
    ms.countP (fun m => decide (m = .apart)) = (Spec.observed s (Spec.landmarkOf cfg b)).countP fun x => decide (chr x.k1 ≠ chr b.k1) := by
  obtain ⟨_, rest, v1, f, L, hms, hcm, ha, hL, hs, _⟩ := heard_all hr hb h
  have hacc : Spec.acceptable cfg s' b = true := by
    unfold Spec.acceptable Spec.valued at *
    rw [hv, hl]; rfl
  have hw : candMsgs cfg v v1 f L (Spec.cands cfg vs fs) =
      candSays cfg v s' b ++ landmarkWarnings (Spec.landmarkOf cfg b) b (Spec.observed s (Spec.landmarkOf cfg b)) := by
    rw [hc]
    show candMsg cfg v v1 f b ++ candWarn cfg v1 L b ++ [] = _
    rw [hcm, List.append_nil]
    unfold candWarn
    rw [ha b, hacc, hl, hL hf, landmarkKey_eq]
    rfl
  have plain : ∀ {m : Msg}, Spec.aside m = false → decide (m = .apart) = false := by
    intro m hm
    rw [decide_eq_false_iff_not]
    rintro rfl
    exact absurd hm (by decide)
  have h2 : (candSays cfg v s' b).countP (fun m => decide (m = .apart)) = 0 := countP_none fun m hm => by
    unfold candSays at hm
    rw [hv, hl] at hm
    rw [(mem_tells hm).2]; rfl
  rw [hms, hw, List.countP_append, List.countP_append, List.countP_append, h2,
    countP_none (l := rest) (fun m hm => plain (hs m hm).plain),
    countP_none (l := fs.flatMap (sortMsg cfg v vs)) (fun m hm => by
      obtain ⟨x, _, hx⟩ := List.mem_flatMap.1 hm
      exact plain (sortMsg_plain hx))]
  simp only [Nat.zero_add, Nat.add_zero]
  clear hw hL
  generalize Spec.observed s (Spec.landmarkOf cfg b) = xs at hd
  generalize Spec.landmarkOf cfg b = l at hd
  induction xs with
  | nil => rfl
  | cons x xs ih =>
    unfold landmarkWarnings
    rw [if_neg (by
      rintro (hx | hx)
      · exact hd x (by simp) hx
      · exact hd b (by simp) hx), List.countP_append, ih fun y hy => hd y (List.mem_cons_of_mem _ hy), List.countP_cons]
    by_cases hx : chr x.k1 = chr b.k1 <;> simp [hx, Nat.add_comm]

/-- C102: the calls that are given no batch. Only those that optimize write a message (`GenericSolver::update` aside), and only if the solver talks: one at the start of
the optimization, and, except with Gauss-Newton and without GNC, one at its end, with the numbers the solver returns when asked after the call. -/
theorem C102_others {cfg : Cfg G T N} {v : Bool} {env : Env G N} (hr : cfg.rejection = true) {op : Op G N} (hb : Spec.batch op = none)
    (hg : ∀ fs vs rm, op ≠ .genericUpdate fs vs rm) {s s' : St G T N} {ms : List Msg} (h : Spec.Says cfg v env op s s' ms) :
    (Spec.optimizesToo op = true ∧ cfg.debug = true → ∃ rest, ms = .running cfg.lm :: rest ∧
      ((∃ n k, rest = [.optimized n k] ∧ cfg.lm = true ∧ Spec.NumLC cfg env s' n ∧ Spec.NumInliers cfg env s' k) ∨
       (∃ n k, rest = [.gncOptimized n k] ∧ cfg.useGnc = true ∧ Spec.NumInliers cfg env s' k) ∨ rest = [] ∧ cfg.lm = false)) ∧
    (¬ (Spec.optimizesToo op = true ∧ cfg.debug = true) → ms = []) := by
  obtain ⟨r, h⟩ := h
  have opt : ∀ {q : Talk (St G T N)}, q.2 = [] → optimizeT cfg env q = .ok (s', ms) () → Spec.optimizesToo op = true →
      (Spec.optimizesToo op = true ∧ cfg.debug = true → ∃ rest, ms = .running cfg.lm :: rest ∧
        ((∃ n k, rest = [.optimized n k] ∧ cfg.lm = true ∧ Spec.NumLC cfg env s' n ∧ Spec.NumInliers cfg env s' k) ∨
         (∃ n k, rest = [.gncOptimized n k] ∧ cfg.useGnc = true ∧ Spec.NumInliers cfg env s' k) ∨ rest = [] ∧ cfg.lm = false)) ∧
      (¬ (Spec.optimizesToo op = true ∧ cfg.debug = true) → ms = []) := by
    intro q hq ho hop
    have hm := (optimizeT_says ho).2
    rw [hq, List.nil_append] at hm
    have hm : ms = optMsgs cfg (useGncNow cfg q.1) s' := hm
    unfold optMsgs tells at hm
    cases hd : cfg.debug with
    | false =>
      rw [hd] at hm
      refine ⟨fun hh => absurd hh.2 (by simp), fun _ => ?_⟩
      simpa using hm
    | true =>
      rw [hd] at hm
      refine ⟨fun _ => ?_, fun hn => absurd ⟨hop, rfl⟩ hn⟩
      cases hu : useGncNow cfg q.1 with
      | true =>
        rw [hu] at hm
        have hg : cfg.useGnc = true := by
          unfold useGncNow at hu
          simp only [Bool.and_eq_true] at hu
          exact hu.1.1
        refine ⟨_, by simpa using hm, .inr (.inl ⟨_, _, rfl, hg, ?_⟩)⟩
        have := shown_iff (env := env) (s := s') hr
        unfold shownInliers at this
        rwa [if_pos hg] at this
      | false =>
        rw [hu] at hm
        cases hl : cfg.lm with
        | true =>
          rw [hl] at hm
          exact ⟨_, by simpa using hm, .inl ⟨_, _, rfl, rfl, (numLC_iff hr).2 rfl, shown_iff hr⟩⟩
        | false =>
          rw [hl] at hm
          exact ⟨_, by simpa using hm, .inr (.inr ⟨rfl, rfl⟩)⟩
  have none : Spec.optimizesToo op = false → ms = [] →
      (Spec.optimizesToo op = true ∧ cfg.debug = true → ∃ rest, ms = .running cfg.lm :: rest ∧
        ((∃ n k, rest = [.optimized n k] ∧ cfg.lm = true ∧ Spec.NumLC cfg env s' n ∧ Spec.NumInliers cfg env s' k) ∨
         (∃ n k, rest = [.gncOptimized n k] ∧ cfg.useGnc = true ∧ Spec.NumInliers cfg env s' k) ∨ rest = [] ∧ cfg.lm = false)) ∧
      (¬ (Spec.optimizesToo op = true ∧ cfg.debug = true) → ms = []) := by
    intro ho hm
    refine ⟨fun hh => absurd hh.1 (by rw [ho]; simp), fun _ => hm⟩
  have unit : ∀ {m : M (Talk (St G T N)) Unit} {q q' : Talk (St G T N)} {x : Ret}, M.ret m (fun _ => Ret.unit) q = .ok q' x → m q = .ok q' () := by
    intro m q q' x hm
    obtain ⟨q1, _, h1, h2⟩ := M.bind_eq_ok.1 hm
    cases h2
    exact h1
  cases op with
  | update _ _ _ => cases hb
  | forceUpdate _ _ => cases hb
  | genericUpdate fs vs rm => exact absurd rfl (hg fs vs rm)
  | ignore c =>
    obtain ⟨q1, _, h1, h2⟩ := M.bind_eq_ok.1 (unit h)
    obtain ⟨q2, _, h3, h4⟩ := M.bind_eq_ok.1 h2
    refine opt ?_ h4 rfl
    rw [(say_ok h3).2, (mute_ok h1).2, hr]
    rfl
  | revive c =>
    obtain ⟨q1, _, h1, h2⟩ := M.bind_eq_ok.1 (unit h)
    obtain ⟨q2, _, h3, h4⟩ := M.bind_eq_ok.1 h2
    refine opt ?_ h4 rfl
    rw [(say_ok h3).2, (mute_ok h1).2, hr]
    rfl
  | removePriors c b =>
    obtain ⟨q1, _, h1, h2⟩ := M.bind_eq_ok.1 (unit h)
    cases b with
    | true => exact opt (mute_ok h1).2 h2 rfl
    | false =>
      cases h2
      exact none rfl (mute_ok h1).2
  | removeLast =>
    obtain ⟨q1, _, h1, h2⟩ := M.bind_eq_ok.1 h
    obtain ⟨q2, e, h3, h4⟩ := M.bind_eq_ok.1 h1
    obtain ⟨q3, _, h5, h6⟩ := M.bind_eq_ok.1 h4
    cases h2; cases h6
    exact opt (mute_ok h3).2 h5 rfl
  | removeLastPair a b =>
    obtain ⟨q1, _, h1, h2⟩ := M.bind_eq_ok.1 h
    obtain ⟨q2, e, h3, h4⟩ := M.bind_eq_ok.1 h1
    obtain ⟨q3, _, h5, h6⟩ := M.bind_eq_ok.1 h4
    cases h2; cases h6
    exact opt (mute_ok h3).2 h5 rfl
  | _ => exact none rfl (mute_ok h).2

/-- Run calls, then one more; the messages of the last call and a check of the state after it. -/
def talk (cfg : Cfg Demo.Z Demo.Tp Demo.Ns) (v : Bool) (ops : List (Op Demo.Z Demo.Ns)) (op : Op Demo.Z Demo.Ns) (ms : List Msg)
    (P : St Demo.Z Demo.Tp Demo.Ns → Bool) : Bool :=
  Demo.runs cfg Demo.env ops fun s => match execT cfg v Demo.env op (s, []) with
    | .ok q _ => decide (q.2 = ms) && P q.1
    | _ => false

theorem talk_says {cfg : Cfg Demo.Z Demo.Tp Demo.Ns} {v : Bool} {ops : List (Op Demo.Z Demo.Ns)} {op : Op Demo.Z Demo.Ns} {ms : List Msg}
    {P : St Demo.Z Demo.Tp Demo.Ns → Bool} (h : talk cfg v ops op ms P = true) :
    ∃ s s', ReachOk cfg Demo.env ops s ∧ Spec.Says cfg v Demo.env op s s' ms ∧ P s' = true := by
  obtain ⟨s, r, h⟩ := Demo.runs_reach h
  split at h
  · rename_i q r' e
    simp only [Bool.and_eq_true, decide_eq_true_eq] at h
    exact ⟨s, q.1, r, ⟨r', by rw [e, ← h.1]⟩, h.2⟩
  · cases h

/-- A good closure, one that contradicts the odometry, a self-loop, one to a key without value, and a prior. -/
def mixed : Op Demo.Z Demo.Ns :=
  .update [Demo.edge (Demo.a 0) (Demo.a 2) 2, Demo.edge (Demo.a 0) (Demo.a 3) 30, Demo.edge (Demo.a 1) (Demo.a 1) 0,
    Demo.edge (Demo.a 0) (Demo.a 9) 1, some (.prior (Demo.a 0) (Demo.z 0))] [] true

set_option maxRecDepth 100000 in
/-- What a batch of all kinds of measurements writes in mode VERBOSE: four between factors, four messages about them. -/
example : ∃ s s', ReachOk { Demo.cfg with debug := true } Demo.env (Demo.h1.take 3) s ∧
    Spec.Says { Demo.cfg with debug := true } true Demo.env mixed s s'
      [.self, .between (Demo.a 0) (Demo.a 2), .discarded, .missingKeys, .registered 1, .inliers 1, .spin 1 1, .running true, .optimized 1 1] := by
  obtain ⟨s, s', h1, h2, _⟩ := talk_says (cfg := { Demo.cfg with debug := true }) (v := true) (ops := Demo.h1.take 3) (op := mixed)
    (ms := [.self, .between (Demo.a 0) (Demo.a 2), .discarded, .missingKeys, .registered 1, .inliers 1, .spin 1 1, .running true, .optimized 1 1])
    (P := fun _ => true) (by decide +kernel)
  exact ⟨s, s', h1, h2⟩

set_option maxRecDepth 100000 in
/-- Outside mode VERBOSE a closure refused by the odometry check is dropped without a message, and so is the number of closures of the call: nothing at
all is written. -/
theorem C102_false_silent : ∃ s s', ReachOk Demo.cfg Demo.env (Demo.h1.take 3) s ∧
    Spec.Says Demo.cfg false Demo.env (.update [Demo.edge (Demo.a 0) (Demo.a 3) 30] [] true) s s' [] ∧ Spec.NumLC Demo.cfg Demo.env s' 0 := by
  obtain ⟨s, s', h1, h2, h3⟩ := talk_says (cfg := Demo.cfg) (v := false) (ops := Demo.h1.take 3)
    (op := .update [Demo.edge (Demo.a 0) (Demo.a 3) 30] [] true) (ms := []) (P := fun s => decide (s.pcm.totalLc = 0)) (by decide +kernel)
  exact ⟨s, s', h1, h2, (numLC_iff (by decide)).2 (of_decide_eq_true h3).symm⟩

/-- Two robots with one step each, then two closures between them that contradict each other. -/
def twoBots : List (Op Demo.Z Demo.Ns) :=
  [.update [some (.prior (Demo.a 0) (Demo.z 0)), Demo.edge (Demo.a 0) (Demo.a 1) 1] [Demo.pose (Demo.a 0) 0, Demo.pose (Demo.a 1) 1] true,
   .update [Demo.edge (Demo.b 0) (Demo.b 1) 1] [Demo.pose (Demo.b 0) 0, Demo.pose (Demo.b 1) 1] true]

set_option maxRecDepth 100000 in
/-- The message after an optimization with GNC does not give the number of closures: its "loop closures" are those selected as consistent, here 1, while `getNumLC()` returns 2. -/
theorem C102_false_gnc : ∃ s s', ReachOk { Demo.cfg with debug := true, useGnc := true } Demo.env twoBots s ∧
    Spec.Says { Demo.cfg with debug := true, useGnc := true } false Demo.env
      (.update [Demo.edge (Demo.a 0) (Demo.b 0) 0, Demo.edge (Demo.a 1) (Demo.b 1) 50] [] true) s s' [.running true, .gncOptimized 1 1] ∧
    Spec.NumLC { Demo.cfg with debug := true, useGnc := true } Demo.env s' 2 := by
  obtain ⟨s, s', h1, h2, h3⟩ := talk_says (cfg := { Demo.cfg with debug := true, useGnc := true }) (v := false) (ops := twoBots)
    (op := .update [Demo.edge (Demo.a 0) (Demo.b 0) 0, Demo.edge (Demo.a 1) (Demo.b 1) 50] [] true) (ms := [.running true, .gncOptimized 1 1])
    (P := fun s => decide (s.pcm.totalLc = 2)) (by decide +kernel)
  exact ⟨s, s', h1, h2, (numLC_iff (by decide)).2 (of_decide_eq_true h3).symm⟩

set_option maxRecDepth 100000 in
/-- C102_others on a call that removes a closure: in a state with two closures. -/
example : ∃ s s', ReachOk { Demo.cfg with debug := true } Demo.env Demo.h1 s ∧
    Spec.Says { Demo.cfg with debug := true } true Demo.env .removeLast s s' [.running true, .optimized 2 2] ∧
    Spec.NumLC { Demo.cfg with debug := true } Demo.env s' 2 := by
  obtain ⟨s, s', h1, h2, h3⟩ := talk_says (cfg := { Demo.cfg with debug := true }) (v := true) (ops := Demo.h1) (op := .removeLast)
    (ms := [.running true, .optimized 2 2]) (P := fun s => decide (s.pcm.totalLc = 2)) (by decide +kernel)
  exact ⟨s, s', h1, h2, (numLC_iff (by decide)).2 (of_decide_eq_true h3).symm⟩

/-- A pose `a0`, `a1` and a landmark observed from `a0`. -/
def seen : List (Op Demo.Z Demo.Ns) :=
  [.update [some (.prior (Demo.a 0) (Demo.z 0)), Demo.edge (Demo.a 0) (Demo.a 1) 1] [Demo.pose (Demo.a 0) 0, Demo.pose (Demo.a 1) 1] true,
   .update [Demo.edge (Demo.a 0) (Demo.l 0) 5] [Demo.pose (Demo.l 0) 5] true]

set_option maxRecDepth 100000 in
/-- The warning of C102_discarding, and the number of closures after it. -/
example : ∃ s s', ReachOk { Demo.cfg with special := [108] } Demo.env seen s ∧
    Spec.Says { Demo.cfg with special := [108] } false Demo.env (.update [Demo.edge (Demo.l 0) (Demo.a 1) (-4)] [] true) s s' [.backwards] ∧
    Spec.NumLC { Demo.cfg with special := [108] } Demo.env s' 2 := by
  obtain ⟨s, s', h1, h2, h3⟩ := talk_says (cfg := { Demo.cfg with special := [108] }) (v := false) (ops := seen)
    (op := .update [Demo.edge (Demo.l 0) (Demo.a 1) (-4)] [] true) (ms := [.backwards]) (P := fun s => decide (s.pcm.totalLc = 2)) (by decide +kernel)
  exact ⟨s, s', h1, h2, (numLC_iff (by decide)).2 (of_decide_eq_true h3).symm⟩

/-- Two robots, and a landmark observed from `a0`. -/
def seenByOne : List (Op Demo.Z Demo.Ns) :=
  [.update [Demo.edge (Demo.a 0) (Demo.a 1) 1, Demo.edge (Demo.b 0) (Demo.b 1) 1]
     [Demo.pose (Demo.a 0) 0, Demo.pose (Demo.a 1) 1, Demo.pose (Demo.b 0) 0, Demo.pose (Demo.b 1) 1] true,
   .update [Demo.edge (Demo.a 0) (Demo.l 0) 5] [Demo.pose (Demo.l 0) 5] true]

set_option maxRecDepth 100000 in
/-- The warning of C102_apart: written if the other robot observes the landmark, not if the same one does. -/
example : (∃ s s', ReachOk { Demo.cfg with special := [108] } Demo.env seenByOne s ∧
      Spec.Says { Demo.cfg with special := [108] } false Demo.env (.update [Demo.edge (Demo.b 1) (Demo.l 0) 4] [] true) s s' [.apart] ∧
      decide (Spec.observed s' (Demo.l 0) = [Demo.btw (Demo.a 0) (Demo.l 0) 5, Demo.btw (Demo.b 1) (Demo.l 0) 4]) = true) ∧
    ∃ s s', ReachOk { Demo.cfg with special := [108] } Demo.env seenByOne s ∧
      Spec.Says { Demo.cfg with special := [108] } false Demo.env (.update [Demo.edge (Demo.a 1) (Demo.l 0) 4] [] true) s s' [] ∧
      decide (Spec.observed s' (Demo.l 0) = [Demo.btw (Demo.a 0) (Demo.l 0) 5, Demo.btw (Demo.a 1) (Demo.l 0) 4]) = true :=
  ⟨talk_says (by decide +kernel), talk_says (by decide +kernel)⟩

end Props

end RPGO
