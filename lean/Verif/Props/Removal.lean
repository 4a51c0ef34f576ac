import Verif.Proofs.Removal
import Verif.Props.Optimize
import Verif.Props.Clique
import Verif.Props.Matrix
/-
C25 removal in reverse order; C26 removals at any time.
-/

namespace RPGO.Props
open RPGO
variable {G T N : Type} [Mul G] [Inv G] [One G]

/-! ### C25 -/

/-- C25: if closures are only removed by `removeLastLoopClosure()`, a call of it that returns normally returns the edge
of the closure registered last among those not removed, and NULL if there is none. -/
theorem C25_returns_last {cfg : Cfg G T N} {env : Env G N} (hr : cfg.rejection = true) {h : List (Op G N)} {s s' : St G T N}
    {L : List (Btw G N)} {x : Ret} (c : Spec.Chron cfg env h s L) (e : exec cfg env .removeLast s = .ok s' x) :
    x = .edge (L.getLast?.map Spec.edgeOf) := by
  obtain ⟨s1, q, h1, _, rfl⟩ := exec_removeLast hr e
  rw [(removeLastPcm_live (c.live hr) (fun id => c.reachOk.reach.rows hr id) h1).1]

/-- C25: successive calls return the edges in exactly the reverse order of registration, and then NULL. -/
theorem C25_reverse_order {cfg : Cfg G T N} {env : Env G N} (hr : cfg.rejection = true) {h : List (Op G N)} {s s' : St G T N}
    {L : List (Btw G N)} {es : List (Option (Key × Key))} (c : Spec.Chron cfg env h s L)
    (rm : Spec.RemoveMany cfg env s es s') (i : Nat) (hi : i < es.length) :
    es[i]? = some (L.reverse[i]?.map Spec.edgeOf) := by
  induction rm generalizing h L i with
  | nil => simp at hi
  | @cons s s1 s2 e es h1 h2 ih =>
    have hx := C25_returns_last hr c h1
    cases i with
    | zero =>
      rw [List.getElem?_cons_zero, ← List.head?_eq_getElem?, List.head?_reverse]
      injection hx with hx
      rw [hx]
    | succ i =>
      have c' : Spec.Chron cfg env (h ++ [.removeLast]) s1 L.dropLast := .step c (fun _ _ h => by cases h) h1
      rw [List.getElem?_cons_succ, ih c' i (by simpa using hi)]
      congr 2
      rcases List.eq_nil_or_concat L with rfl | ⟨l, b, rfl⟩
      · rfl
      · simp

/-- The closures the pair has in the solver are those of the list, in this order; in particular nothing of it is lost. -/
theorem C25_registered {cfg : Cfg G T N} {env : Env G N} (hr : cfg.rejection = true) {h : List (Op G N)} {s : St G T N}
    {L : List (Btw G N)} (c : Spec.Chron cfg env h s L) (p q : Chr) :
    Spec.registered s ⟨p, q⟩ = L.filter fun b => decide ((chr b.k1 = p ∧ chr b.k2 = q) ∨ (chr b.k2 = p ∧ chr b.k1 = q)) := by
  have := (c.live hr).regs ⟨p, q⟩
  rw [Spec.registered, this]
  apply List.filter_congr
  intro b _
  unfold ObsId.eqv pairOf
  by_cases h1 : chr b.k1 = p ∧ chr b.k2 = q
  · simp [h1]
  · by_cases h2 : chr b.k2 = p ∧ chr b.k1 = q
    · simp [h1, h2]
    · simp [h1, h2]

/-- A history of normal returns without removals by pair has its list of closures. -/
theorem chron_of {cfg : Cfg G T N} {env : Env G N} {h : List (Op G N)} {s : St G T N} (r : ReachOk cfg env h s)
    (hp : ∀ op ∈ h, ∀ p q, op ≠ .removeLastPair p q) : ∃ L, Spec.Chron cfg env h s L := by
  induction r with
  | init => exact ⟨[], .init⟩
  | step r e ih =>
    obtain ⟨L, c⟩ := ih fun o ho => hp o (by simp [ho])
    exact ⟨_, .step c (hp _ (by simp)) e⟩

/-- Closures of two robot pairs, alternating; one is rejected by the odometry check and never registered. -/
def alternating : List (Op Demo.Z Demo.Ns) :=
  [.update [some (.prior (Demo.a 0) (Demo.z 0)), Demo.edge (Demo.a 0) (Demo.a 1) 1]
     [Demo.pose (Demo.a 0) 0, Demo.pose (Demo.a 1) 1] true,
   .update [Demo.edge (Demo.a 1) (Demo.a 2) 1] [Demo.pose (Demo.a 2) 2] true,
   .update [Demo.edge (Demo.b 0) (Demo.b 1) 1] [Demo.pose (Demo.b 0) 0, Demo.pose (Demo.b 1) 1] true,
   .update [Demo.edge (Demo.a 0) (Demo.b 0) 0, Demo.edge (Demo.a 0) (Demo.a 2) 2, Demo.edge (Demo.a 0) (Demo.a 2) 70] [] true,
   .update [Demo.edge (Demo.b 1) (Demo.a 1) 0] [] true]

set_option maxRecDepth 100000 in
/-- The hypotheses of the theorems of C25 are met, with three closures of two robot pairs and four removals. -/
example : (∀ op ∈ alternating, ∀ p q, op ≠ .removeLastPair p q) ∧
    ∃ s s' L, Spec.Chron Demo.cfg Demo.env alternating s L ∧
      Spec.RemoveMany Demo.cfg Demo.env s [some (Demo.b 1, Demo.a 1), some (Demo.a 0, Demo.a 2), some (Demo.a 0, Demo.b 0), none] s' := by
  have hp : ∀ op ∈ alternating, ∀ p q, op ≠ .removeLastPair p q := by
    intro o ho
    simp [alternating] at ho
    rcases ho with rfl | rfl | rfl | rfl | rfl <;> intro p q h <;> cases h
  refine ⟨hp, ?_⟩
  have step : ∀ (s : St Demo.Z Demo.Tp Demo.Ns) (e : Option (Key × Key)),
      (match exec Demo.cfg Demo.env .removeLast s with
        | .ok _ (.edge q) => decide (q = e)
        | _ => false) = true → ∃ s1, exec Demo.cfg Demo.env .removeLast s = .ok s1 (.edge e) := by
    intro s e h
    cases hx : exec Demo.cfg Demo.env .removeLast s with
    | ok s1 x =>
      rw [hx] at h
      cases x <;> first | exact ⟨s1, by rw [of_decide_eq_true h]⟩ | cases h
    | throw _ _ => rw [hx] at h; cases h
    | ub _ => rw [hx] at h; cases h
  let after (s : St Demo.Z Demo.Tp Demo.Ns) : St Demo.Z Demo.Tp Demo.Ns :=
    match exec Demo.cfg Demo.env .removeLast s with
    | .ok s1 _ => s1
    | _ => s
  let gives (s : St Demo.Z Demo.Tp Demo.Ns) (e : Option (Key × Key)) : Bool :=
    match exec Demo.cfg Demo.env .removeLast s with
    | .ok _ (.edge q) => decide (q = e)
    | _ => false
  obtain ⟨s, r, h⟩ := Demo.runs_reach (cfg := Demo.cfg) (env := Demo.env) (ops := alternating)
    (P := fun s => gives s (some (Demo.b 1, Demo.a 1)) && gives (after s) (some (Demo.a 0, Demo.a 2)) &&
      gives (after (after s)) (some (Demo.a 0, Demo.b 0)) && gives (after (after (after s))) none) (by decide +kernel)
  simp only [Bool.and_eq_true] at h
  obtain ⟨⟨⟨h1, h2⟩, h3⟩, h4⟩ := h
  obtain ⟨L, c⟩ := chron_of r hp
  have mk : ∀ s e, gives s e = true → exec Demo.cfg Demo.env .removeLast s = .ok (after s) (.edge e) := by
    intro s e h
    obtain ⟨s1, hs⟩ := step s e h
    have : after s = s1 := by show (match exec Demo.cfg Demo.env .removeLast s with | .ok s1 _ => s1 | _ => s) = s1; rw [hs]
    rw [this]; exact hs
  exact ⟨s, _, L, c, .cons (mk _ _ h1) (.cons (mk _ _ h2) (.cons (mk _ _ h3) (.cons (mk _ _ h4) .nil)))⟩

/-! ### C26 -/

/-- C26, partial, the removal of the closure registered last: it returns NULL when there is no closure left. Over
histories that remove closures only in this way, with the pairwise check on, it runs no undefined operation and throws
no out-of-range exception. Weights as in C38, previous inliers not fixed. Missing: histories that also remove by robot
pair, where the claim is false (`C26_false_interleaved`). -/
theorem C26_chronological_partial {cfg : Cfg G T N} {env : Env G N} (he : env.Ok) (hz : env.Sized)
    (hr : cfg.rejection = true) (hl : cfg.loopCheck = true) (hfp : cfg.fixPrev = false) {h : List (Op G N)} {s : St G T N}
    {L : List (Btw G N)} (c : Spec.Chron cfg env h s L) (hm : ∀ o ∈ h, Spec.Managed o)
    (hmod : Spec.Covered cfg (h ++ [.removeLast])) :
    (∀ u, exec cfg env .removeLast s ≠ .ub u) ∧ (∀ s', exec cfg env .removeLast s ≠ .throw s' .outOfRange) ∧
    ∀ s' x, exec cfg env .removeLast s = .ok s' x → L = [] → x = .edge none := by
  have r := c.reachOk
  have hL := c.live hr
  have key : Clean (exec cfg env .removeLast s) := by
    refine (exec_mild (b := true) hr ?_ (optimize_after (op := .removeLast) he hz hr r hm hmod trivial fun _ => hfp)).clean
    show Mild true ((removeLastPcm env).ret _ s)
    refine Mild.bind ?_ fun _ _ _ => trivial
    rw [removeLastPcm_eq, hL.order, List.getLast?_map]
    cases hx : L.getLast? with
    | none => trivial
    | some b =>
      refine removeLastOfPair_mild fun m hg => Mild.of_clean (removeLastMeas_clean' ?_ ?_)
      · rw [← lcOf_of_get? hg]; exact r.reach.shape hr hl _
      · rw [← lcOf_of_get? hg, show ∀ o id, lcOf { s.pcm with inOrder := o } id = lcOf s.pcm id from fun _ _ => rfl, hL.regs]
        intro h0
        have := (filter_dropLast (fun x => (pairOf x).eqv (pairOf b)) hx (ObsId.isEqv.refl _)).1
        rw [h0] at this
        cases this
  refine ⟨fun u => key.noUB u, fun s' e => by rw [e] at key; exact key rfl, fun s' x e h0 => ?_⟩
  rw [C25_returns_last hr c e, h0]
  rfl

/-- C26, partial, the removal for a robot pair, whatever happened before: it runs no undefined operation, throws no
out-of-range exception and returns the edge of the pair's last closure if there is one, and NULL if the pair never had a
closure candidate. The pairwise check is on, weights are as in C38, previous inliers are not fixed. Missing: pairs all
of whose closures were removed, where the claim is false (`C26_false_exhausted`). -/
theorem C26_pair_partial {cfg : Cfg G T N} {env : Env G N} (he : env.Ok) (hz : env.Sized)
    (hr : cfg.rejection = true) (hl : cfg.loopCheck = true) (hfp : cfg.fixPrev = false) {h : List (Op G N)} {s : St G T N}
    (r : ReachOk cfg env h s) (hm : ∀ o ∈ h, Spec.Managed o) (p q : Chr)
    (hmod : Spec.Covered cfg (h ++ [.removeLastPair p q]))
    (hpq : Spec.registered s ⟨p, q⟩ ≠ [] ∨ ∀ op ∈ h, ∀ b ∈ Spec.opCands cfg op,
      ¬ ((chr b.k1 = p ∧ chr b.k2 = q) ∨ (chr b.k2 = p ∧ chr b.k1 = q))) :
    (∀ u, exec cfg env (.removeLastPair p q) s ≠ .ub u) ∧
    (∀ s', exec cfg env (.removeLastPair p q) s ≠ .throw s' .outOfRange) ∧
    ∀ s' x, exec cfg env (.removeLastPair p q) s = .ok s' x →
      x = .edge ((Spec.registered s ⟨p, q⟩).getLast?.map Spec.edgeOf) := by
  have hpq' : AList.get? ObsId.eqv s.pcm.lcs ⟨p, q⟩ = none ∨ Spec.registered s ⟨p, q⟩ ≠ [] := by
    rcases hpq with h1 | h1
    · exact Or.inr h1
    · exact Or.inl (r.reach.untouched hr h1)
  have key : Clean (exec cfg env (.removeLastPair p q) s) := by
    refine (exec_mild (b := true) hr ?_ (optimize_after (op := .removeLastPair p q) he hz hr r hm hmod trivial fun _ => hfp)).clean
    show Mild true ((removeLastOfPair env ⟨p, q⟩).ret _ s)
    refine Mild.bind ?_ fun _ _ _ => trivial
    refine removeLastOfPair_mild fun m hg => Mild.of_clean (removeLastMeas_clean' ?_ ?_)
    · rw [← lcOf_of_get? hg]; exact r.reach.shape hr hl _
    · rcases hpq' with h1 | h1
      · rw [h1] at hg; cases hg
      · rw [← lcOf_of_get? hg]; exact h1
  refine ⟨fun u => key.noUB u, fun s' e => by rw [e] at key; exact key rfl, fun s' x e => ?_⟩
  obtain ⟨s1, y, h1, rfl⟩ := exec_removePair hr e
  rw [removeLastOfPair_eq] at h1
  cases hg : AList.get? ObsId.eqv s.pcm.lcs ⟨p, q⟩ with
  | none =>
    rw [hg] at h1
    cases h1
    have : Spec.registered s ⟨p, q⟩ = [] := by unfold Spec.registered lcOf; rw [hg]; rfl
    rw [this]; rfl
  | some m =>
    rw [hg] at h1
    have hm1 : lcOf s.pcm ⟨p, q⟩ = m := lcOf_of_get? hg
    have hn := r.reach.rows hr ⟨p, q⟩
    rw [hm1] at hn
    simp only at h1
    cases hx : removeLastMeas m with
    | ok m' e' =>
      obtain ⟨last, k1, k2, k3⟩ := removeLastMeas_ok hn hx
      rw [hx] at h1
      subst k2
      cases h1
      rw [Spec.registered, hm1, k1]
      rfl
    | throw _ _ => rw [hx] at h1; cases h1
    | ub _ => rw [hx] at h1; cases h1

/-- C26 is false of the code in every state in which a robot pair had a closure once and has none left: removing the
last closure of the pair throws an out-of-range exception instead of returning NULL. -/
theorem C26_false_exhausted {cfg : Cfg G T N} {env : Env G N} (hr : cfg.rejection = true) {h : List (Op G N)} {s : St G T N}
    (r : Reach cfg env h s) {p q : Chr} {b : Btw G N} {h1 : List (Op G N)} {s1 : St G T N} (st : Spec.Steps cfg env s1 h1 s)
    (hb : b ∈ Spec.registered s1 ⟨p, q⟩) (hnone : Spec.registered s ⟨p, q⟩ = []) :
    ∃ s', exec cfg env (.removeLastPair p q) s = .throw s' .outOfRange := by
  have hk : ∃ m, AList.get? ObsId.eqv s.pcm.lcs ⟨p, q⟩ = some m := by
    refine Spec.Steps.touched hr st ?_
    cases hg : AList.get? ObsId.eqv s1.pcm.lcs ⟨p, q⟩ with
    | none =>
      have : Spec.registered s1 ⟨p, q⟩ = [] := by unfold Spec.registered lcOf; rw [hg]; rfl
      rw [this] at hb; cases hb
    | some m => exact ⟨m, rfl⟩
  obtain ⟨m, hg⟩ := hk
  have hm1 : lcOf s.pcm ⟨p, q⟩ = m := lcOf_of_get? hg
  have hn := r.rows hr ⟨p, q⟩
  rw [hm1] at hn
  have hf : m.factors = [] := by rw [← hm1]; exact hnone
  have hx : removeLastMeas m = .throw m .outOfRange := by
    unfold removeLastMeas
    rw [if_neg (by omega), hf]
    rfl
  rw [exec_phase env hr]
  have hp : phase1 cfg env (.removeLastPair p q) s = .throw { s with pcm := updLc s.pcm ⟨p, q⟩ fun _ => m } .outOfRange := by
    show (removeLastOfPair env ⟨p, q⟩).ret _ s = _
    unfold M.ret
    rw [M.bind_apply, removeLastOfPair_eq, hg]
    simp only
    rw [hx]
  rw [M.bind_apply, hp]
  exact ⟨_, rfl⟩

/-- C26 is false of the code in every state in which the pairwise check is disabled and a robot pair has three or more
closures: removing the last closure of the pair shrinks the matrix, which has one row only, to none, takes the clique size
−1 of the empty matrix for an unsigned number, and reads an empty index vector. -/
theorem C26_false_unchecked {cfg : Cfg G T N} {env : Env G N} (hr : cfg.rejection = true) (hl : cfg.loopCheck = false)
    {h : List (Op G N)} {s : St G T N} (r : Reach cfg env h s) {p q : Chr} (h3 : 3 ≤ (Spec.registered s ⟨p, q⟩).length) :
    exec cfg env (.removeLastPair p q) s = .ub .vecIndex := by
  cases hg : AList.get? ObsId.eqv s.pcm.lcs ⟨p, q⟩ with
  | none =>
    have : Spec.registered s ⟨p, q⟩ = [] := by unfold Spec.registered lcOf; rw [hg]; rfl
    rw [this] at h3; simp at h3
  | some m =>
    have hm1 : lcOf s.pcm ⟨p, q⟩ = m := lcOf_of_get? hg
    have hn : (lcOf s.pcm ⟨p, q⟩).adj.n = 1 := by
      refine r.meas hr (Q := fun m => m.adj.n = 1) rfl ?_ ?_ ?_ ⟨p, q⟩
      · intro f b m h _
        simp only [growLc, hl]
        exact h
      · intro m m' h hm
        rw [h.adj]; exact hm
      · intro _ m m' h hm
        cases h with
        | same => exact hm
        | few _ _ => exact hm
        | many _ _ _ _ hn => omega
    rw [hm1] at hn
    have h3 : 3 ≤ m.factors.length := by rw [← hm1]; exact h3
    obtain ⟨last, hlast⟩ : ∃ last, m.factors.getLast? = some last := by
      cases e : m.factors.getLast? with
      | none => rw [List.getLast?_eq_none_iff] at e; rw [e] at h3; simp at h3
      | some b => exact ⟨b, rfl⟩
    have hx : removeLastMeas m = .ub .vecIndex := by
      unfold removeLastMeas
      rw [if_neg (by omega), hlast]
      simp only
      rw [if_neg (by simp only [List.length_dropLast]; omega)]
      unfold measInliers
      simp only [hn, Nat.sub_self]
      rw [C06_empty_matrix]
      rfl
    rw [exec_phase env hr]
    have hp : phase1 cfg env (.removeLastPair p q) s = .ub .vecIndex := by
      show (removeLastOfPair env ⟨p, q⟩).ret _ s = _
      unfold M.ret
      rw [M.bind_apply, removeLastOfPair_eq, hg]
      simp only
      rw [hx]
    rw [M.bind_apply, hp]

set_option maxRecDepth 100000 in
/-- The hypotheses of `C26_false_unchecked` are met by three closures of one robot. -/
example : (unchecked false).rejection = true ∧ (unchecked false).loopCheck = false ∧
    ∃ s, ReachOk (unchecked false) Demo.env (contradict ++ [.update [Demo.edge (Demo.a 1) (Demo.a 3) 2] [] true]) s ∧
      3 ≤ (Spec.registered s ⟨97, 97⟩).length := by
  refine ⟨rfl, by decide +kernel, ?_⟩
  obtain ⟨s, r, h⟩ := Demo.runs_reach (cfg := unchecked false) (env := Demo.env)
    (ops := contradict ++ [.update [Demo.edge (Demo.a 1) (Demo.a 3) 2] [] true])
    (P := fun s => decide (3 ≤ (Spec.registered s ⟨97, 97⟩).length)) (by decide +kernel)
  exact ⟨s, r, of_decide_eq_true h⟩

/-- Is the outcome an out-of-range exception? -/
def isRange {σ α : Type} : Out σ α → Bool
  | .throw _ .outOfRange => true
  | _ => false

theorem of_isRange {σ α : Type} {o : Out σ α} (h : isRange o = true) : ∃ s, o = .throw s .outOfRange := by
  cases o with
  | ok _ _ => cases h
  | ub _ => cases h
  | throw s x => cases x <;> first | exact ⟨s, rfl⟩ | cases h

set_option maxRecDepth 100000 in
/-- C26 is false of the code: of two closures the one of the pair (a, a) is removed by naming the pair, then the other
by `removeLastLoopClosure()` — which names the pair (a, a) again, because removal by pair does not update the order, and
throws an out-of-range exception although the closure between a and b is still there. -/
theorem C26_false_interleaved : ∃ s s', ReachOk Demo.cfg Demo.env (alternating.take 4 ++ [.removeLastPair 97 97]) s ∧
    Spec.registered s ⟨97, 98⟩ = [Demo.btw (Demo.a 0) (Demo.b 0) 0] ∧ Spec.registered s ⟨97, 97⟩ = [] ∧
    exec Demo.cfg Demo.env .removeLast s = .throw s' .outOfRange := by
  obtain ⟨s, r, h⟩ := Demo.runs_reach (cfg := Demo.cfg) (env := Demo.env)
    (ops := alternating.take 4 ++ [.removeLastPair 97 97])
    (P := fun s => decide (Spec.registered s ⟨97, 98⟩ = [Demo.btw (Demo.a 0) (Demo.b 0) 0] ∧ Spec.registered s ⟨97, 97⟩ = []) &&
      isRange (exec Demo.cfg Demo.env .removeLast s)) (by decide +kernel)
  rw [Bool.and_eq_true] at h
  obtain ⟨s', e⟩ := of_isRange h.2
  obtain ⟨h1, h2⟩ := of_decide_eq_true h.1
  exact ⟨s, s', r, h1, h2, e⟩

set_option maxRecDepth 100000 in
/-- The hypotheses of `C26_chronological_partial` and `C26_pair_partial` are met: three closures of two pairs, and a third
pair that never had one; and those of `C26_false_exhausted`. -/
example : Demo.cfg.loopCheck = true ∧ Demo.cfg.fixPrev = false ∧ Spec.Modest Demo.cfg (alternating ++ [.removeLast]) ∧
    Spec.Modest Demo.cfg (alternating ++ [.removeLastPair 97 98]) ∧
    (∀ o ∈ alternating, Spec.Managed o) ∧
    (∃ s L, Spec.Chron Demo.cfg Demo.env alternating s L ∧ Spec.registered s ⟨97, 98⟩ ≠ []) ∧
    (∀ op ∈ alternating, ∀ b ∈ Spec.opCands Demo.cfg op,
      ¬ ((chr b.k1 = 98 ∧ chr b.k2 = 98) ∨ (chr b.k2 = 98 ∧ chr b.k1 = 98))) ∧
    ∃ s s1, ReachOk Demo.cfg Demo.env (alternating.take 4 ++ [.removeLastPair 97 97]) s ∧
      Spec.Steps Demo.cfg Demo.env s1 [.removeLastPair 97 97] s ∧
      Demo.btw (Demo.a 0) (Demo.a 2) 2 ∈ Spec.registered s1 ⟨97, 97⟩ ∧ Spec.registered s ⟨97, 97⟩ = [] := by
  refine ⟨by decide +kernel, by decide +kernel, modest_of (by decide +kernel),
    modest_of (by decide +kernel), ?_, ?_, ?_, ?_⟩
  · intro o ho
    simp [alternating] at ho
    rcases ho with rfl | rfl | rfl | rfl | rfl <;> trivial
  · obtain ⟨s, r, h⟩ := Demo.runs_reach (cfg := Demo.cfg) (env := Demo.env) (ops := alternating)
      (P := fun s => decide (Spec.registered s ⟨97, 98⟩ ≠ [])) (by decide +kernel)
    obtain ⟨L, c⟩ := chron_of r (by
      intro o ho
      simp [alternating] at ho
      rcases ho with rfl | rfl | rfl | rfl | rfl <;> intro p q h <;> cases h)
    exact ⟨s, L, c, of_decide_eq_true h⟩
  · intro o ho
    simp [alternating] at ho
    rcases ho with rfl | rfl | rfl | rfl | rfl <;> decide +kernel
  · obtain ⟨s, r, h⟩ := Demo.runs_reach (cfg := Demo.cfg) (env := Demo.env)
      (ops := alternating.take 4 ++ [.removeLastPair 97 97])
      (P := fun s => decide (Spec.registered s ⟨97, 97⟩ = [])) (by decide +kernel)
    obtain ⟨s0, r0, h0⟩ := Demo.runs_reach (cfg := Demo.cfg) (env := Demo.env) (ops := alternating.take 4)
      (P := fun s => decide (Demo.btw (Demo.a 0) (Demo.a 2) 2 ∈ Spec.registered s ⟨97, 97⟩)) (by decide +kernel)
    obtain ⟨s1, x, r1, e⟩ := r.snoc_inv
    have := r0.det r1
    subst this
    exact ⟨s, s1, r, .snoc .nil (Or.inl ⟨x, e⟩), of_decide_eq_true h0, of_decide_eq_true h⟩

end RPGO.Props
