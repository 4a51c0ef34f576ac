import Verif.Proofs.Tidy
import Verif.Proofs.Batch
import Verif.Spec.Demo
/-
C27: adding closures after removals.
-/

namespace RPGO.Props
open RPGO
variable {G T N : Type} [Mul G] [Inv G] [One G]

/-- C27, partial. After any history of well-formed factors in which nothing was removed, or after which every robot pair
named by a candidate still has at least two closures (or with the pairwise check and incremental selection off), a
further update runs no undefined operation, throws no out-of-range exception, and on normal return every pair
with at least two closures has a matrix of exactly that size. Missing: histories in which removals leave a pair with
fewer than two closures; there the claim is false (`C27_false_mismatch`, `C27_false_out_of_range`). -/
theorem C27_update_partial {cfg : Cfg G T N} {env : Env G N} (hr : cfg.rejection = true) {h : List (Op G N)} {s : St G T N}
    (r : Reach cfg env h s) (hf : ∀ op ∈ h, ∀ b ∈ Spec.opBtws op, Spec.Fair cfg b)
    (hc : (cfg.loopCheck = false ∧ cfg.incremental = false) ∨ (∀ op ∈ h, ¬ Spec.Removes op) ∨
      ∀ op ∈ h, ∀ b ∈ Spec.opCands cfg op, 2 ≤ (Spec.registered s ⟨chr b.k1, chr b.k2⟩).length)
    {fs : Graph G N} (hb : ∀ b ∈ Spec.btws fs, Spec.Fair cfg b) (vs : Vals G) :
    (∀ u, exec cfg env (.update fs vs false) s ≠ .ub u) ∧
    (∀ s', exec cfg env (.update fs vs false) s ≠ .throw s' .outOfRange) ∧
    ∀ s' x, exec cfg env (.update fs vs false) s = .ok s' x → cfg.loopCheck = true → ∀ id,
      2 ≤ (Spec.registered s' id).length → (Spec.matrix s' id).n = (Spec.registered s' id).length := by
  have ht := r.tidy hr hf hc
  have hcl : Clean (exec cfg env (.update fs vs false) s) := by
    refine Clean.ret ?_
    unfold update
    simp only [M.bind_eq]
    rw [RPGO.cond_true hr]
    refine Clean.bind (removeOutliers_clean env vs ht hb) fun s1 a _ => ?_
    simp only [Bool.and_false]
    exact Clean.bind trivial fun _ _ _ => trivial
  refine ⟨fun u => hcl.noUB u, fun s' e => ?_, fun s' x e hl id h2 => ?_⟩
  · rw [e] at hcl; exact hcl rfl
  · exact ((r.ok e).shape hr hl id).size h2

set_option maxRecDepth 100000 in
/-- C27 is false of the code: two consistent closures, one removed, another one added: the stored matrix is still
two by two and is assigned to a corner of size one. -/
theorem C27_false_mismatch : ∃ s, ReachOk Demo.cfg Demo.env (Demo.h1 ++ [.removeLast]) s ∧
    (Spec.registered s ⟨97, 97⟩).length = 1 ∧
    exec Demo.cfg Demo.env (.update [Demo.edge (Demo.a 1) (Demo.a 3) 2] [] false) s = .ub .eigen := by
  obtain ⟨s, r, h⟩ := Demo.runs_reach (cfg := Demo.cfg) (env := Demo.env) (ops := Demo.h1 ++ [.removeLast])
    (P := fun s => decide ((Spec.registered s ⟨97, 97⟩).length = 1) &&
      match exec Demo.cfg Demo.env (.update [Demo.edge (Demo.a 1) (Demo.a 3) 2] [] false) s with
      | .ub .eigen => true
      | _ => false) (by decide +kernel)
  rw [Bool.and_eq_true] at h
  refine ⟨s, r, of_decide_eq_true h.1, ?_⟩
  have h2 := h.2
  revert h2
  cases exec Demo.cfg Demo.env (.update [Demo.edge (Demo.a 1) (Demo.a 3) 2] [] false) s with
  | ok _ _ => exact fun h => by cases h
  | throw _ _ => exact fun h => by cases h
  | ub u => cases u <;> first | exact fun _ => rfl | exact fun h => by cases h

/-- Two robots, one closure within `a`, removed again. -/
def added_and_removed : List (Op Demo.Z Demo.Ns) :=
  Demo.h1.take 3 ++
  [.update [Demo.edge (Demo.b 0) (Demo.b 1) 1] [Demo.pose (Demo.b 0) 0, Demo.pose (Demo.b 1) 1] true,
   .update [Demo.edge (Demo.a 0) (Demo.a 2) 2] [] true, .removeLast]

set_option maxRecDepth 100000 in
/-- C27 is false of the code: a closure is added and removed; the next closure, of another pair of robots, makes the
selection index the empty list of closures of the first pair. -/
theorem C27_false_out_of_range : ∃ s s', ReachOk Demo.cfg Demo.env added_and_removed s ∧
    (Spec.registered s ⟨97, 97⟩).length = 0 ∧
    exec Demo.cfg Demo.env (.update [Demo.edge (Demo.a 0) (Demo.b 1) 1] [] false) s = .throw s' .outOfRange := by
  obtain ⟨s, r, h⟩ := Demo.runs_reach (cfg := Demo.cfg) (env := Demo.env) (ops := added_and_removed)
    (P := fun s => decide ((Spec.registered s ⟨97, 97⟩).length = 0) &&
      match exec Demo.cfg Demo.env (.update [Demo.edge (Demo.a 0) (Demo.b 1) 1] [] false) s with
      | .throw _ .outOfRange => true
      | _ => false) (by decide +kernel)
  rw [Bool.and_eq_true] at h
  have h2 := h.2
  cases e : exec Demo.cfg Demo.env (.update [Demo.edge (Demo.a 0) (Demo.b 1) 1] [] false) s with
  | ok _ _ => rw [e] at h2; cases h2
  | ub _ => rw [e] at h2; cases h2
  | throw s' x =>
    rw [e] at h2
    cases x <;> first | exact ⟨s, s', r, of_decide_eq_true h.1, e⟩ | cases h2

/-- Three consistent closures, the last one removed. -/
def one_of_three : List (Op Demo.Z Demo.Ns) := Demo.h1 ++ [.update [Demo.edge (Demo.a 1) (Demo.a 3) 2] [] true, .removeLast]

theorem fair_of {cfg : Cfg G T N} {h : List (Op G N)}
    (hd : (h.flatMap Spec.opBtws).all (fun b => b.noise.isSome && (!Spec.isLandmark cfg b || decide (chr b.k1 ∉ cfg.special))) = true) :
    ∀ op ∈ h, ∀ b ∈ Spec.opBtws op, Spec.Fair cfg b := by
  intro op ho b hb
  have := List.all_eq_true.1 hd b (List.mem_flatMap.2 ⟨op, ho, hb⟩)
  simp only [Bool.and_eq_true, Bool.or_eq_true, Bool.not_eq_true', decide_eq_true_eq] at this
  exact ⟨this.1, fun hl => this.2.resolve_left (by rw [hl]; simp)⟩

set_option maxRecDepth 100000 in
/-- The hypotheses of `C27_update_partial` are met after a removal that leaves two closures. -/
example : ∃ s, Reach Demo.cfg Demo.env one_of_three s ∧
    (∀ op ∈ one_of_three, ∀ b ∈ Spec.opBtws op, Spec.Fair Demo.cfg b) ∧
    (∀ op ∈ one_of_three, ∀ b ∈ Spec.opCands Demo.cfg op, 2 ≤ (Spec.registered s ⟨chr b.k1, chr b.k2⟩).length) := by
  obtain ⟨s, r, h⟩ := Demo.runs_reach (cfg := Demo.cfg) (env := Demo.env) (ops := one_of_three)
    (P := fun s => (one_of_three.flatMap (Spec.opCands Demo.cfg)).all fun b =>
      decide (2 ≤ (Spec.registered s ⟨chr b.k1, chr b.k2⟩).length)) (by decide +kernel)
  refine ⟨s, r.reach, fair_of (by decide +kernel), fun op ho b hb => ?_⟩
  exact of_decide_eq_true (List.all_eq_true.1 h b (List.mem_flatMap.2 ⟨op, ho, hb⟩))

/-- C48, partial: measurements with Gaussian noise are safe. After any history without removals, and with landmarks
observed as second key only, an update without optimization runs no undefined operation, and saving the result does not
throw. Missing: other noise models, where the claim is false (`C48_false_odometry`, `C48_false_closure`). -/
theorem C48_partial {cfg : Cfg G T N} {env : Env G N} (hr : cfg.rejection = true) {h : List (Op G N)} {s : St G T N}
    (r : Reach cfg env h s) (hf : ∀ op ∈ h, ∀ b ∈ Spec.opBtws op, Spec.Fair cfg b) (hn : ∀ op ∈ h, ¬ Spec.Removes op)
    {fs : Graph G N} (hb : ∀ b ∈ Spec.btws fs, Spec.Fair cfg b) (vs : Vals G) (u : UB) :
    exec cfg env (.update fs vs false) s ≠ .ub u :=
  (C27_update_partial hr r hf (Or.inr (Or.inl hn)) hb vs).1 u

/-- C48 is false of the code: in every state, an update with one new pose and its odometry, whose noise is not Gaussian
(for example has a robust kernel), dereferences a null pointer. -/
theorem C48_false_odometry {cfg : Cfg G T N} (env : Env G N) (hr : cfg.rejection = true) (s : St G T N) (b : Btw G N) (v : Val G)
    (opt : Bool) (hn : b.noise = none) (hk : b.k1 + 1 = b.k2) (h1 : chr b.k1 ∉ cfg.special) (h2 : chr b.k2 ∉ cfg.special)
    (hv : s.values.has b.k2 = false) :
    exec cfg env (.update [some (.btw b)] [(b.k2, v)] opt) s = .ub .nullDeref := by
  have e1 : insertVals [(b.k2, v)] s.values = .ok (s.values.set b.k2 v) () := by
    unfold insertVals
    rw [hv]
    rfl
  have hc : classify cfg [(b.k2, v)] (.btw b) = .odometry := by
    have i1 : cfg.isSpecial (chr b.k1) = false := by simp only [Cfg.isSpecial, List.any_eq_false]; intro x hx e; exact h1 (by simpa using (by simpa using e : x = chr b.k1) ▸ hx)
    have i2 : cfg.isSpecial (chr b.k2) = false := by simp only [Cfg.isSpecial, List.any_eq_false]; intro x hx e; exact h2 (by simpa using (by simpa using e : x = chr b.k2) ▸ hx)
    have i3 : KMap.has [(b.k2, v)] b.k2 = true := by simp [KMap.has, KMap.find?]
    simp only [classify, i1, i2, i3, hk]; rfl
  have e2 : ∀ (vals : Vals G) (p : Pcm G T N), sortFactors cfg [(b.k2, v)] vals [some (.btw b)] [] false p = .ub .nullDeref := by
    intro vals p
    unfold sortFactors
    simp only [hc]
    rcases updateOdom_cases cfg vals b p with ⟨_, e⟩ | ⟨h, _⟩ | ⟨n, _, _, st⟩
    · simp only [M.bind_eq, M.bind, e]
    · rw [hn] at h; cases h
    · rw [st.1] at hn; cases hn
  show ((update cfg env _ _ opt).ret fun _ => Ret.unit) s = _
  unfold update removeOutliers processFactors onValues onPcm
  rw [hr]
  simp [M.ret, M.bind_eq, M.bind, M.cond, M.zoom, e1, M.get, e2]

set_option maxRecDepth 100000 in
/-- C48 is false of the code for closures, too: comparing a closure with non-Gaussian noise with an odometry path (or
another closure) dereferences a null pointer. -/
theorem C48_false_closure : ∃ s, ReachOk Demo.cfg Demo.env Demo.h1 s ∧
    exec Demo.cfg Demo.env (.update [some (.btw { Demo.btw (Demo.a 3) (Demo.a 0) (-3) with noise := none })] [] false) s =
      .ub .nullDeref := by
  obtain ⟨s, r, h⟩ := Demo.runs_reach (cfg := Demo.cfg) (env := Demo.env) (ops := Demo.h1)
    (P := fun s =>
      match exec Demo.cfg Demo.env (.update [some (.btw { Demo.btw (Demo.a 3) (Demo.a 0) (-3) with noise := none })] [] false) s with
      | .ub .nullDeref => true
      | _ => false) (by decide +kernel)
  refine ⟨s, r, ?_⟩
  revert h
  cases exec Demo.cfg Demo.env (.update [some (.btw { Demo.btw (Demo.a 3) (Demo.a 0) (-3) with noise := none })] [] false) s with
  | ok _ _ => exact fun h => by cases h
  | throw _ _ => exact fun h => by cases h
  | ub u => cases u <;> first | exact fun _ => rfl | exact fun h => by cases h

/-- The hypotheses of `C48_false_odometry` hold for a fresh solver. -/
example : exec Demo.cfg Demo.env (.update [some (.btw { Demo.btw (Demo.a 0) (Demo.a 1) 1 with noise := none })]
    [Demo.pose (Demo.a 1) 1] true) St.init = .ub .nullDeref :=
  C48_false_odometry Demo.env (by decide +kernel) St.init _ _ true rfl (by decide +kernel) (by decide +kernel)
    (by decide +kernel) (by decide +kernel)

end RPGO.Props
