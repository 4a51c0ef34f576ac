import Verif.Proofs.Order
import Verif.Proofs.Phase
import Verif.Props.Plain
/-
What a call that throws has done to the state.
-/

namespace RPGO
variable {G T N : Type}

theorem applyResult_throw {vs : Vals G} {s s' : St G T N} {x : Exn} (h : applyResult vs s = .throw s' x) : x = .wrongType := by
  induction vs generalizing s with
  | nil => cases h
  | cons e t ih =>
    obtain ⟨k, v⟩ := e
    unfold applyResult at h
    split at h
    · split at h
      · exact ih h
      · cases h; rfl
    · split at h
      · split at h
        · exact ih h
        · cases h; rfl
      · exact ih h

variable [Mul G] [Inv G] [One G]

theorem gncOptimize_throw {cfg : Cfg G T N} {env : Env G N} {full : Vals G} {s s' : St G T N} {x : Exn}
    (h : gncOptimize cfg env full s = .throw s' x) : s' = s := by
  unfold gncOptimize at h
  simp only [M.bind_eq] at h
  rw [M.bind_ok (M.get_apply _)] at h
  by_cases hb : (cfg.biasOdom && decide ((s.nfg ++ s.tempNfg).length <
      (List.range (s.pcm.odom.length + s.pcm.special.length)).length)) = true
  · rw [if_pos hb] at h; cases h
  · rw [if_neg hb] at h
    generalize env.gnc _ _ _ _ = o at h
    cases o with
    | none => cases h; rfl
    | some r =>
      obtain ⟨res, w⟩ := r
      simp only at h
      by_cases hw : w.length < s.nfg.length ∨ w.length < s.tempNfg.length
      · rw [if_pos hw] at h; cases h
      · rw [if_neg hw] at h; cases h

theorem plainGraph_same (cfg : Cfg G T N) : M.Pres (fun s s' : St G T N => s' = s) (plainGraph cfg) := by
  intro s
  unfold plainGraph
  split
  · split
    · trivial
    · simp only
      split
      · trivial
      · split
        · trivial
        · split <;> rfl
  · rfl

theorem plainOptimize_throw {cfg : Cfg G T N} {env : Env G N} {full : Vals G} {s s' : St G T N} {x : Exn}
    (h : plainOptimize cfg env full s = .throw s' x) : s' = s := by
  unfold plainOptimize at h
  simp only [M.bind_eq] at h
  rcases M.bind_eq_throw.1 h with h' | ⟨s1, g, h1, h'⟩
  · exact (plainGraph_same cfg).of_throw h'
  · clear h
    have h := h'
    clear h'
    have e1 : s1 = s := (plainGraph_same cfg).of_ok h1
    subst e1
    cases ho : env.opt g full with
    | none => rw [ho] at h; cases h; rfl
    | some res =>
      rw [ho] at h
      simp only at h
      rw [M.bind_ok (M.get_apply _)] at h
      by_cases h2 : s1.gncW.length < s1.latest
      · rw [if_pos h2] at h; cases h
      · rw [if_neg h2] at h
        by_cases h3 : s1.nfg.length < s1.latest
        · rw [if_pos h3] at h; cases h
        · rw [if_neg h3] at h
          rcases M.bind_eq_throw.1 h with h | ⟨s2, u, _, h⟩
          · cases h
          · by_cases h4 : (cfg.lm && cfg.debug && !cfg.rejection) = true
            · rw [if_pos h4] at h; cases h
            · rw [if_neg h4] at h; cases h

/-- An optimization that throws has changed nothing, unless it was storing the results. -/
theorem optimize_throw {cfg : Cfg G T N} {env : Env G N} {s s' : St G T N} {x : Exn}
    (h : optimize cfg env s = .throw s' x) (hx : x ≠ .wrongType) : s' = s := by
  unfold optimize at h
  simp only [M.bind_eq] at h
  rw [M.bind_ok (M.get_apply _)] at h
  cases hv : mergeVals s.values s.tempValues with
  | none => rw [hv] at h; cases h; rfl
  | some full =>
    rw [hv] at h
    simp only at h
    rcases M.bind_eq_throw.1 h with h | ⟨s1, res, h1, h⟩
    · unfold M.cond at h
      split at h
      · exact gncOptimize_throw h
      · exact plainOptimize_throw h
    · rcases M.bind_eq_throw.1 h with h | ⟨s2, u, h2, h⟩
      · exact absurd (applyResult_throw h) hx
      · unfold M.when at h
        split at h <;> cases h

omit [Mul G] [Inv G] [One G] in
theorem logStatus_throw {cfg : Cfg G T N} {s s' : St G T N} {x : Exn} (h : logStatus cfg s = .throw s' x) : x = .invalidArg := by
  unfold logStatus at h
  simp only [M.bind_eq] at h
  rcases M.bind_eq_throw.1 h with h | ⟨s1, n, h1, h⟩
  · unfold getNumLC at h
    split at h <;> cases h
  · rcases M.bind_eq_throw.1 h with h | ⟨s2, n, h2, h⟩
    · unfold getNumLCInliers at h
      split at h
      · cases h
      · split at h <;> cases h
    · unfold saveData at h
      split at h <;> cases h
      rfl

/-- The part of an update before the optimization. -/
def batchWork (cfg : Cfg G T N) (env : Env G N) (fs : Graph G N) (vs : Vals G) : M (St G T N) Bool :=
  M.cond cfg.rejection (removeOutliers cfg env fs vs) (addAndCheck fs vs)

/-- An update without optimization does just that part. -/
theorem exec_work {cfg : Cfg G T N} {env : Env G N} {fs : Graph G N} {vs : Vals G} {s s1 : St G T N} {r : Ret} :
    exec cfg env (.update fs vs false) s = .ok s1 r ↔ r = .unit ∧ ∃ d, batchWork cfg env fs vs s = .ok s1 d := by
  have hu : exec cfg env (.update fs vs false) s = M.bind (batchWork cfg env fs vs) (fun _ => M.pure Ret.unit) s := by
    show (update cfg env fs vs false).ret (fun _ => Ret.unit) s = _
    unfold update M.ret batchWork
    simp only [M.bind_eq, M.bind_assoc', Bool.and_false]
    rfl
  rw [hu, M.bind_eq_ok]
  constructor
  · rintro ⟨s2, d, h1, h2⟩
    cases h2
    exact ⟨rfl, d, h1⟩
  · rintro ⟨rfl, d, h⟩
    exact ⟨s1, d, h, rfl⟩

theorem exec_work_throw {cfg : Cfg G T N} {env : Env G N} {op : Op G N} {fs : Graph G N} {vs : Vals G}
    (hb : Spec.batch op = some (fs, vs)) {s s' : St G T N} {x : Exn} (h : exec cfg env op s = .throw s' x) :
    batchWork cfg env fs vs s = .throw s' x ∨ ∃ s1 d, batchWork cfg env fs vs s = .ok s1 d ∧
      (optimize cfg env s1 = .throw s' x ∨
        ∃ s2, (s2 = s1 ∨ optimize cfg env s1 = .ok s2 ()) ∧ logStatus cfg s2 = .throw s' x) := by
  have key : ∀ (c : Bool → Bool) (l : Bool), (M.bind (batchWork cfg env fs vs) fun d =>
      M.bind (M.when (c d) (optimize cfg env)) fun _ => M.bind (M.when l (logStatus cfg)) fun _ => M.pure Ret.unit) s =
        .throw s' x → (batchWork cfg env fs vs s = .throw s' x ∨ ∃ s1 d, batchWork cfg env fs vs s = .ok s1 d ∧
      (optimize cfg env s1 = .throw s' x ∨
        ∃ s2, (s2 = s1 ∨ optimize cfg env s1 = .ok s2 ()) ∧ logStatus cfg s2 = .throw s' x)) := by
    intro c l h
    rcases M.bind_eq_throw.1 h with h | ⟨s1, d, h1, h⟩
    · exact Or.inl h
    · refine Or.inr ⟨s1, d, h1, ?_⟩
      rcases M.bind_eq_throw.1 h with h | ⟨s2, u, h2, h⟩
      · unfold M.when at h
        split at h
        · exact Or.inl h
        · cases h
      · refine Or.inr ⟨s2, ?_, ?_⟩
        · unfold M.when at h2
          split at h2
          · exact Or.inr h2
          · cases h2; exact Or.inl rfl
        · rcases M.bind_eq_throw.1 h with h | ⟨s3, u, h3, h⟩
          · unfold M.when at h
            split at h
            · exact h
            · cases h
          · cases h
  cases op <;> simp only [Spec.batch, Option.some.injEq, Prod.mk.injEq, reduceCtorEq] at hb
  · rename_i fs' vs' o
    obtain ⟨rfl, rfl⟩ := hb
    refine key (fun d => d && o) (cfg.log && o) ?_
    rw [← h]
    show _ = (update cfg env fs' vs' o).ret (fun _ => Ret.unit) s
    unfold update M.ret batchWork
    simp only [M.bind_eq, M.bind_assoc']
  · obtain ⟨rfl, rfl⟩ := hb
    rename_i fs' vs'
    refine key (fun _ => true) cfg.log ?_
    rw [← h]
    show _ = (forceUpdate cfg env fs' vs').ret (fun _ => Ret.unit) s
    unfold forceUpdate M.ret batchWork
    simp only [M.bind_eq, M.bind_assoc']
    rfl

end RPGO
