import Verif.Proofs.Count
import Verif.Props.Safety
/-
C48: measurements without Gaussian noise that no call can return from.
-/

namespace RPGO
variable {G T N : Type}

theorem OdomRun.gauss {cfg : Cfg G T N} {vals : Vals G} {bs : List (Btw G N)} {p p' : Pcm G T N} (h : OdomRun cfg vals bs p p') :
    ∀ b ∈ bs, b.noise.isSome := by
  induction h with
  | nil => intro b m; cases m
  | cons st _ _ _ ih =>
    intro b m
    rcases List.mem_cons.1 m with rfl | m
    · rw [st.noise]; rfl
    · exact ih b m
  | other _ _ _ ih => exact ih

theorem parseLoops_gauss {cfg : Cfg G T N} {vals : Vals G} {bs : List (Btw G N)} {num num' : List (ObsId × Nat)} {p p' : Pcm G T N}
    (h : parseLoops cfg vals bs num p = .ok p' num') :
    ∀ b ∈ bs, known vals b = true → Spec.isLandmark cfg b = false → chr b.k1 = chr b.k2 → cfg.odomCheck = true → b.noise.isSome := by
  induction bs generalizing num p with
  | nil => intro b m; cases m
  | cons b bs ih =>
    intro x m hk hl hc ho
    have h0 := h
    rw [parseLoops] at h
    rcases List.mem_cons.1 m with rfl | m
    · have hk' := hk
      unfold known at hk'
      rw [Bool.and_eq_true] at hk'
      rw [if_neg (by simp [hk'.1, hk'.2]), special_or, if_neg (by simp [hl])] at h
      simp only [M.bind_eq] at h
      obtain ⟨p1, ok, h1, -⟩ := M.bind_eq_ok.1 h
      unfold M.cond at h1
      rw [if_pos (by simpa using hc)] at h1
      rcases isOdomConsistent_spec cfg x p with ⟨_, _, e⟩ | ⟨e, _⟩
      · rw [e] at h1; cases h1
      · exact e ho
    · rcases parseLoops_cons cfg vals b bs num p with ⟨u, e, _⟩ | ⟨p1, _, e, _⟩
      · rw [e] at h0; cases h0
      · rw [e] at h0
        exact ih h0 x m hk hl hc ho

theorem parseLoops_gauss2 {cfg : Cfg G T N} (hl : cfg.loopCheck = true) {vals : Vals G} {bs : List (Btw G N)}
    {num num' : List (ObsId × Nat)} {p p' : Pcm G T N} (h : parseLoops cfg vals bs num p = .ok p' num') (id : ObsId) :
    (lcOf p' id).factors = (lcOf p id).factors ∨ (lcOf p' id).factors.length = 1 ∨ ∀ x ∈ (lcOf p' id).factors, x.noise.isSome := by
  induction bs generalizing num p with
  | nil => cases h; exact Or.inl rfl
  | cons b bs ih =>
    rcases parseLoops_cons cfg vals b bs num p with ⟨u, e, _⟩ | ⟨p1, t, e, hf, _⟩
    · rw [e] at h; cases h
    · rw [e] at h
      have hp : lcOf p1 id = lcOf ([b].foldl (parseStep cfg vals (lk cfg p)) p) id := by
        show lcOf p1 id = lcOf (parseStep cfg vals (lk cfg p) p b) id
        unfold lcOf; rw [t.eq]
      rw [parseFold_lcOf] at hp
      rcases ih h with h1 | h1
      · by_cases ha : (acceptLc cfg vals (lk cfg p) b && (pairOf b).eqv id) = true
        · simp only [List.filter, ha] at hp
          have hp : (lcOf p1 id).factors = (lcOf p id).factors ++ [b] := by rw [hp]; rfl
          rw [Bool.and_eq_true] at ha
          have hid : lcOf p (pairOf b) = lcOf p id := by unfold lcOf; rw [AList.get?_congr ObsId.isEqv _ ha.2]
          have := hf ha.1 hl
          unfold LcFit at this
          rw [hid] at this
          rw [h1, hp]
          cases hm : (lcOf p id).factors with
          | nil => right; left; rfl
          | cons y l =>
            rw [hm] at this
            rcases this with this | ⟨-, this⟩
            · cases this
            · right; right
              intro x hx
              rcases List.mem_append.1 hx with hx | hx
              · exact (this x hx).1
              · rw [List.mem_singleton.1 hx]; exact (this y (by simp)).2
        · simp only [List.filter, ha] at hp
          left
          rw [h1, hp]; rfl
      · exact Or.inr h1

end RPGO

namespace RPGO.Props
variable {G T N : Type} [Mul G] [Inv G] [One G]

/-- C48, what is needed: with outlier rejection, an update from any state returns normally only if all its odometry has Gaussian
noise; if, with the odometry check enabled, so have its closures between poses of one robot that have values; and if, with the
pairwise check enabled, so have all closures of every pair to which it adds and that then has two or more. -/
theorem C48_returns_only_if {cfg : Cfg G T N} {env : Env G N} (hr : cfg.rejection = true) {op : Op G N} {fs : Graph G N} {vs : Vals G}
    (hb : Spec.batch op = some (fs, vs)) {s s' : St G T N} {x : Ret} (e : exec cfg env op s = .ok s' x) :
    (∀ b ∈ Spec.odoms cfg vs fs, b.noise.isSome) ∧
    (cfg.odomCheck = true → ∀ b ∈ Spec.cands cfg vs fs, Spec.isLandmark cfg b = false → chr b.k1 = chr b.k2 →
      b.k1 ∈ s'.values.keys → b.k2 ∈ s'.values.keys → b.noise.isSome) ∧
    (cfg.loopCheck = true → ∀ id, (Spec.registered s id).length < (Spec.registered s' id).length →
      2 ≤ (Spec.registered s' id).length → ∀ b ∈ Spec.registered s' id, b.noise.isSome) := by
  cases (exec_batch env hr hb s).1 s' x e with
  | empty h0 _ hf =>
    subst h0
    refine ⟨fun b m => absurd m (by simp [Spec.odoms, Spec.btws]), fun _ b m => absurd m (by simp [Spec.cands, Spec.btws]), fun _ id h => ?_⟩
    unfold Spec.registered at h
    rw [hf.pcm] at h
    exact absurd h (Nat.lt_irrefl _)
  | @full v1 p1 p2 s1 _ hne hi hS h1 h2 ha hf =>
    have hv : ∀ k, k ∈ s'.values.keys → v1.has k = true := by
      intro k hk
      have := (KMap.mem_keys_iff _ _).1 hk
      rwa [hf.values.has, ha.values.has] at this
    have hp : s'.pcm = { p2 with robotOrder := s1.pcm.robotOrder } := by rw [hf.pcm, ha.eq]
    refine ⟨hS.run.gauss, fun ho b m hl hc k1 k2 => ?_, fun hlc id hlt h22 => ?_⟩
    · have hne : Spec.cands cfg vs fs ≠ [] := fun h0 => by rw [h0] at m; cases m
      have := h2 hne
      unfold processCands at this
      simp only [M.bind_eq] at this
      obtain ⟨q, num, h3, -⟩ := M.bind_eq_ok.1 this
      exact parseLoops_gauss h3 b m (by unfold known; rw [hv _ k1, hv _ k2]; rfl) hl hc ho
    · have hreg : ∀ id, Spec.registered s' id = (lcOf p2 id).factors := by
        intro id; unfold Spec.registered; rw [hp]; rfl
      have hreg0 : ∀ id, Spec.registered s id = (lcOf p1 id).factors := by
        intro id; unfold Spec.registered lcOf; rw [hS.lcs]
      rw [hreg, hreg0] at hlt
      rw [hreg] at h22 ⊢
      by_cases h0 : Spec.cands cfg vs fs = []
      · rw [h1 h0] at hlt; exact absurd hlt (Nat.lt_irrefl _)
      · have := h2 h0
        have he := processCands_ends cfg v1 (Spec.cands cfg vs fs) p1
        rw [this] at he
        unfold processCands at this
        simp only [M.bind_eq] at this
        obtain ⟨q, num, h3, -⟩ := M.bind_eq_ok.1 this
        obtain ⟨-, t⟩ := parseLoops_ok h3
        obtain ⟨q', t', hs, -⟩ := he
        have hq : (lcOf p2 id).factors = (lcOf q id).factors := by
          rw [(Table.lcOf_rel (Sel.refl _) hs.lcs id).factors]
          unfold lcOf
          rw [t.eq, t'.eq]
        rw [hq] at hlt h22 ⊢
        rcases parseLoops_gauss2 hlc h3 id with h | h | h
        · rw [h] at hlt; exact absurd hlt (Nat.lt_irrefl _)
        · omega
        · exact h

set_option maxRecDepth 100000 in
/-- The hypotheses of `C48_returns_only_if` are met, with both checks enabled, by an update with two closures of one robot. -/
example : Demo.cfg.rejection = true ∧ Demo.cfg.odomCheck = true ∧ Demo.cfg.loopCheck = true ∧
    ∃ s s', ReachOk Demo.cfg Demo.env (Demo.h1.take 3) s ∧
      exec Demo.cfg Demo.env (.update [Demo.edge (Demo.a 0) (Demo.a 2) 2, Demo.edge (Demo.a 0) (Demo.a 3) 3] [] true) s = .ok s' .unit ∧
      (Spec.registered s ⟨97, 97⟩).length = 0 ∧ (Spec.registered s' ⟨97, 97⟩).length = 2 ∧
      Demo.a 0 ∈ s'.values.keys ∧ Demo.a 2 ∈ s'.values.keys := by
  refine ⟨by decide +kernel, by decide +kernel, by decide +kernel, ?_⟩
  obtain ⟨s, r, h⟩ := Demo.runs_reach (cfg := Demo.cfg) (env := Demo.env) (ops := Demo.h1.take 3)
    (P := fun s => match exec Demo.cfg Demo.env (.update [Demo.edge (Demo.a 0) (Demo.a 2) 2, Demo.edge (Demo.a 0) (Demo.a 3) 3] [] true) s with
      | .ok s' .unit => decide ((Spec.registered s ⟨97, 97⟩).length = 0 ∧ (Spec.registered s' ⟨97, 97⟩).length = 2 ∧
          Demo.a 0 ∈ s'.values.keys ∧ Demo.a 2 ∈ s'.values.keys)
      | _ => false) (by decide +kernel)
  split at h
  · rename_i s' e
    exact ⟨s, s', r, e, of_decide_eq_true h⟩
  · cases h

end RPGO.Props
