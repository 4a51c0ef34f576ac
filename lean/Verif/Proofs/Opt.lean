import Verif.Proofs.Batch
/-
Normal returns of the optimization as equations.
-/

namespace RPGO
variable {G T N : Type} [Mul G] [Inv G] [One G]

/-- State after a successful optimization without GNC, before the result is applied. -/
def plainState (s : St G T N) : St G T N :=
  { s with
    gncW := List.replicate (s.nfg.length - s.latest) 1 ++ s.gncW.drop (s.gncW.length - s.latest)
    gncTW := List.replicate s.tempNfg.length 1 }

theorem plainGraph_ok {cfg : Cfg G T N} {s s1 : St G T N} {g : Graph G N} (h : plainGraph cfg s = .ok s1 g) :
    s1 = s ∧ ((cfg.fixPrev = false ∧ g = s.nfg ++ s.tempNfg) ∨
      (cfg.fixPrev = true ∧ cfg.rejection = true ∧ s.pcm.odom.length + s.pcm.special.length ≤ s.nfg.length ∧
        ∃ l, fixedFactors s.nfg (s.pcm.odom.length + s.pcm.special.length) (s.gncW.drop (s.gncW.length - s.latest)) 0 = some l ∧
          g = s.nfg.take (s.pcm.odom.length + s.pcm.special.length) ++ l ++ s.tempNfg)) := by
  unfold plainGraph at h
  split at h
  · rename_i hf
    split at h
    · cases h
    · rename_i hr
      simp only at h
      split at h
      · cases h
      · rename_i h1
        split at h
        · cases h
        · split at h
          · cases h
          · rename_i l hl
            cases h
            exact ⟨rfl, Or.inr ⟨hf, by simpa using hr, by omega, l, hl, rfl⟩⟩
  · rename_i hf
    cases h
    exact ⟨rfl, Or.inl ⟨by simpa using hf, rfl⟩⟩

theorem plainOptimize_ok {cfg : Cfg G T N} {env : Env G N} {full res : Vals G} {s s1 : St G T N}
    (h : plainOptimize cfg env full s = .ok s1 res) :
    ∃ g, plainGraph cfg s = .ok s g ∧ env.opt g full = some res ∧ s.latest ≤ s.gncW.length ∧ s.latest ≤ s.nfg.length ∧
      s1 = plainState s := by
  unfold plainOptimize at h
  simp only [M.bind_eq] at h
  obtain ⟨s2, g, h1, h2⟩ := M.bind_eq_ok.1 h
  obtain ⟨rfl, _⟩ := plainGraph_ok h1
  refine ⟨g, h1, ?_⟩
  cases ho : env.opt g full with
  | none => rw [ho] at h2; cases h2
  | some res' =>
    rw [ho] at h2
    simp only at h2
    rw [M.bind_ok (M.get_apply _)] at h2
    split at h2
    · cases h2
    · rename_i a1
      split at h2
      · cases h2
      · rename_i a2
        have hmod : ∀ s : St G T N, (M.modify fun s : St G T N =>
            { s with
              gncW := List.replicate (s.nfg.length - s.latest) 1 ++ s.gncW.drop (s.gncW.length - s.latest)
              gncTW := List.replicate s.tempNfg.length 1 }) s = .ok (plainState s) () := fun _ => rfl
        rw [M.bind_ok (hmod _)] at h2
        split at h2
        · cases h2
        · cases h2
          exact ⟨rfl, by omega, by omega, rfl⟩

/-- The indices handed to GNC as known inliers. -/
def gncKnown (s : St G T N) : List Nat := List.range (s.pcm.odom.length + s.pcm.special.length)

/-- The initial weights handed to GNC. -/
def gncInit (cfg : Cfg G T N) (s : St G T N) : Option (List Rat) :=
  if cfg.biasOdom then
    some (List.replicate (gncKnown s).length 1 ++ List.replicate ((s.nfg ++ s.tempNfg).length - (gncKnown s).length) 0) else none

theorem gncOptimize_ok {cfg : Cfg G T N} {env : Env G N} {full res : Vals G} {s s1 : St G T N}
    (h : gncOptimize cfg env full s = .ok s1 res) :
    ∃ w, env.gnc (s.nfg ++ s.tempNfg) full (gncKnown s) (gncInit cfg s) = some (res, w) ∧
      s.nfg.length ≤ w.length ∧ s.tempNfg.length ≤ w.length ∧
      s1 = { s with
        gncW := w.take s.nfg.length
        gncTW := w.drop (w.length - s.tempNfg.length)
        gncNum := inlierCount (w.take s.nfg.length) (gncKnown s).length } := by
  unfold gncOptimize at h
  simp only [M.bind_eq] at h
  rw [M.bind_ok (M.get_apply _)] at h
  split at h
  · cases h
  · have hinit : (if cfg.biasOdom then
        some (List.replicate (List.range (s.pcm.odom.length + s.pcm.special.length)).length (1 : Rat) ++
          List.replicate ((s.nfg ++ s.tempNfg).length - (List.range (s.pcm.odom.length + s.pcm.special.length)).length) 0)
        else none) = gncInit cfg s := rfl
    rw [hinit] at h
    cases hg : env.gnc (s.nfg ++ s.tempNfg) full (gncKnown s) (gncInit cfg s) with
    | none =>
      unfold gncKnown at hg
      rw [hg] at h; cases h
    | some rw' =>
      obtain ⟨res', w⟩ := rw'
      unfold gncKnown at hg
      rw [hg] at h
      simp only at h
      split at h
      · cases h
      · rename_i hw
        obtain ⟨s2, _, h1, h2⟩ := M.bind_eq_ok.1 h
        cases h1
        cases h2
        exact ⟨w, rfl, by omega, by omega, rfl⟩

theorem optimize_ok {cfg : Cfg G T N} {env : Env G N} {s s' : St G T N} (h : optimize cfg env s = .ok s' ()) :
    ∃ full res s1 s2, mergeVals s.values s.tempValues = some full ∧
      ((useGncNow cfg s = true ∧ gncOptimize cfg env full s = .ok s1 res) ∨
       (useGncNow cfg s = false ∧ plainOptimize cfg env full s = .ok s1 res)) ∧
      applyResult res s1 = .ok s2 () ∧ s' = if cfg.rejection then { s2 with latest := s2.pcm.totalLc } else s2 := by
  unfold optimize at h
  simp only [M.bind_eq] at h
  rw [M.bind_ok (M.get_apply _)] at h
  cases hm : mergeVals s.values s.tempValues with
  | none => rw [hm] at h; cases h
  | some full =>
    rw [hm] at h
    simp only at h
    obtain ⟨s1, res, h1, h2⟩ := M.bind_eq_ok.1 h
    obtain ⟨s2, _, h3, h4⟩ := M.bind_eq_ok.1 h2
    refine ⟨full, res, s1, s2, rfl, ?_, h3, ?_⟩
    · unfold M.cond at h1
      split at h1
      · rename_i hu; exact Or.inl ⟨hu, h1⟩
      · rename_i hu; exact Or.inr ⟨by simpa using hu, h1⟩
    · unfold M.when at h4
      split at h4
      · rename_i hr; cases h4; rw [if_pos hr]
      · rename_i hr; cases h4; rw [if_neg hr]

/-- The forced update with an empty batch optimizes and nothing else. -/
theorem forceUpdate_nil {cfg : Cfg G T N} {env : Env G N} {s s' : St G T N} {x : Ret}
    (h : exec cfg env (.forceUpdate [] []) s = .ok s' x) : optimize cfg env s = .ok s' () := by
  obtain ⟨s2, _, h2, h3⟩ := M.bind_eq_ok.1 h
  cases h3
  unfold forceUpdate at h2
  simp only [M.bind_eq] at h2
  obtain ⟨s1, r, h3, h4⟩ := M.bind_eq_ok.1 h2
  have hs : s1 = s := by
    unfold M.cond at h3
    split at h3
    · cases h3; rfl
    · cases h3
      show { s with nfg := s.nfg ++ [], values := s.values } = s
      rw [List.append_nil]
  subst hs
  obtain ⟨s3, _, h5, h6⟩ := M.bind_eq_ok.1 h4
  have : s' = s3 := by
    unfold M.when at h6
    split at h6
    · exact (logStatus_same cfg).of_ok h6
    · cases h6; rfl
  rw [this]
  exact h5

end RPGO
