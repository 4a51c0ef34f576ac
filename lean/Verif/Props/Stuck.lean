import Verif.Props.Safety
import Verif.Props.Removal
import Verif.Proofs.Count
import Verif.Proofs.GncOnly
/-
C27: in which states left behind by removals no closure can be added any more.
-/

namespace RPGO
variable {G T N : Type} [Mul G] [Inv G] [One G]

omit [Mul G] [Inv G] [One G] in
/-- The entry of a pair of robots stays as it is while candidates are registered, if none is of the pair or its matrix
does not fit; and in the latter case no candidate of the pair was accepted. -/
theorem parseLoops_keeps {cfg : Cfg G T N} (hl : cfg.loopCheck = true) {vals : Vals G} {id : ObsId} {m : Meas G N}
    {bs : List (Btw G N)} {num num' : List (ObsId × Nat)} {p p' : Pcm G T N}
    (hno : (∀ b ∈ bs, (pairOf b).eqv id = false) ∨ (m.factors ≠ [] ∧ m.adj.n ≠ m.factors.length))
    (h : parseLoops cfg vals bs num p = .ok p' num') (hg : AList.get? ObsId.eqv p.lcs id = some m) :
    AList.get? ObsId.eqv p'.lcs id = some m ∧
      ∀ b ∈ bs, (pairOf b).eqv id = true → acceptLc cfg vals (lk cfg p) b = false := by
  induction bs generalizing p num with
  | nil =>
    rw [parseLoops] at h
    cases h
    exact ⟨hg, by simp⟩
  | cons b bs ih =>
    rcases parseLoops_cons cfg vals b bs num p with ⟨u, e, _⟩ | ⟨p1, t, e, hfit, _⟩
    · rw [e] at h; cases h
    rw [e] at h
    have hb : (pairOf b).eqv id = true → acceptLc cfg vals (lk cfg p) b = false := by
      intro he
      rcases hno with h1 | ⟨h1, h2⟩
      · rw [h1 b (by simp)] at he; cases he
      · by_contra hacc
        have hacc : acceptLc cfg vals (lk cfg p) b = true := by simpa using hacc
        have hm : lcOf p (pairOf b) = m := by
          refine lcOf_of_get? ?_
          rw [AList.get?_congr ObsId.isEqv _ he]; exact hg
        rcases hfit hacc hl with hx | ⟨hx, _⟩
        · rw [hm] at hx; exact h1 hx
        · rw [hm] at hx; exact h2 hx
    have hstep : AList.get? ObsId.eqv (parseStep cfg vals (lk cfg p) p b).lcs id = some m := by
      unfold parseStep
      cases he : (pairOf b).eqv id with
      | true =>
        rw [hb he]
        simp only [Bool.false_eq_true, if_false]
        split
        · exact hg
        · exact hg
      | false =>
        split
        · rw [← hg]
          exact AList.get?_upd_other ObsId.isEqv _ _ _ _ _ he
        · split
          · exact hg
          · exact hg
    have hlk : lk cfg (parseStep cfg vals (lk cfg p) p b) = lk cfg p := by
      unfold parseStep
      split
      · rfl
      · split <;> rfl
    have hg1 : AList.get? ObsId.eqv p1.lcs id = some m := by
      rw [t.eq]; exact hstep
    obtain ⟨k1, k2⟩ := ih (hno.imp (fun h b hb => h b (by simp [hb])) fun h => h) h hg1
    refine ⟨k1, fun x hx hxe => ?_⟩
    rcases List.mem_cons.1 hx with rfl | hx
    · exact hb hxe
    · have := k2 x hx hxe
      rw [t.lk, hlk] at this
      exact this

/-- What a returning batch with candidates says about an entry that registering candidates does not change. -/
theorem stuck_of {cfg : Cfg G T N} {env : Env G N} (hr : cfg.rejection = true) (hl : cfg.loopCheck = true)
    (hi : cfg.incremental = false) {op : Op G N} {fs : Graph G N} {vs : Vals G} (hb : Spec.batch op = some (fs, vs))
    (hc : Spec.cands cfg vs fs ≠ []) {id : ObsId} {m : Meas G N} {s s' : St G T N} {x : Ret}
    (hg : AList.get? ObsId.eqv s.pcm.lcs id = some m)
    (hno : (∀ b ∈ Spec.cands cfg vs fs, (pairOf b).eqv id = false) ∨ (m.factors ≠ [] ∧ m.adj.n ≠ m.factors.length))
    (h : exec cfg env op s = .ok s' x) :
    (∃ m' k, measInliers m = .ok m' k) ∧ ∃ v1 p1, insertVals vs s.values = .ok v1 () ∧
      ∀ b ∈ Spec.cands cfg vs fs, (pairOf b).eqv id = true → acceptLc cfg v1 (lk cfg p1) b = false := by
  cases (exec_batch env hr hb s).1 _ _ h with
  | empty h1 _ _ => subst h1; exact absurd rfl hc
  | @full v1 p1 p2 s1 _ _ hv hs _ hp _ _ =>
    have hp := hp hc
    unfold processCands at hp
    simp only [M.bind_eq] at hp
    obtain ⟨p3, num, h1, h2⟩ := M.bind_eq_ok.1 hp
    unfold M.cond at h2
    rw [if_neg (by simp [hi])] at h2
    have hg1 : AList.get? ObsId.eqv p1.lcs id = some m := by rw [hs.lcs]; exact hg
    obtain ⟨k1, k2⟩ := parseLoops_keeps hl hno h1 hg1
    refine ⟨?_, v1, p1, hv, k2⟩
    obtain ⟨_, ht, _, _⟩ := findInliers_ok h2
    obtain ⟨m', _, hm⟩ := ht.get? k1
    unfold lcInliers at hm
    rw [if_pos hl] at hm
    exact ⟨m', _, hm⟩

end RPGO

namespace RPGO.Props
open RPGO
variable {G T N : Type} [Mul G] [Inv G] [One G]

/-- C27 is false of the code in every state in which a robot pair had a closure once and has none left: no update that
brings a closure or observation, of other robots, returns. -/
theorem C27_false_emptied {cfg : Cfg G T N} {env : Env G N} (hr : cfg.rejection = true) (hl : cfg.loopCheck = true)
    (hi : cfg.incremental = false) {h : List (Op G N)} {s : St G T N} (r : Reach cfg env h s)
    {p q : Chr} {b : Btw G N} {h1 : List (Op G N)} {s1 : St G T N} (st : Spec.Steps cfg env s1 h1 s)
    (hb : b ∈ Spec.registered s1 ⟨p, q⟩) (hnone : Spec.registered s ⟨p, q⟩ = [])
    {op : Op G N} {fs : Graph G N} {vs : Vals G} (ho : Spec.batch op = some (fs, vs)) (hc : Spec.cands cfg vs fs ≠ [])
    (hother : ∀ b ∈ Spec.cands cfg vs fs, ObsId.eqv ⟨chr b.k1, chr b.k2⟩ ⟨p, q⟩ = false) :
    ∀ s' x, exec cfg env op s ≠ .ok s' x := by
  intro s' x e
  have hk : ∃ m, AList.get? ObsId.eqv s.pcm.lcs ⟨p, q⟩ = some m := by
    refine Spec.Steps.touched hr st ?_
    cases hg : AList.get? ObsId.eqv s1.pcm.lcs ⟨p, q⟩ with
    | none =>
      have : Spec.registered s1 ⟨p, q⟩ = [] := by unfold Spec.registered lcOf; rw [hg]; rfl
      rw [this] at hb; cases hb
    | some m => exact ⟨m, rfl⟩
  obtain ⟨m, hg⟩ := hk
  have hm1 : lcOf s.pcm ⟨p, q⟩ = m := lcOf_of_get? hg
  have hn := r.rows hr ⟨p, q⟩
  rw [hm1] at hn
  have hf : m.factors = [] := by rw [← hm1]; exact hnone
  obtain ⟨⟨m', k, hm⟩, _⟩ := stuck_of hr hl hi ho hc hg (Or.inl hother) e
  rcases measInliers_spec m with ⟨h0, _⟩ | ⟨_, k2, idx, _, hbk, ⟨m2, e2, _, _, hin⟩ | ⟨c, e2, _⟩⟩
  · omega
  · obtain ⟨v, t, _, ht, _⟩ := hbk.star
    have := hin v (by rw [ht]; simp)
    rw [hf] at this
    simp at this
  · rw [hm] at e2; cases e2

/-- C27 is false of the code in every state in which removals left a robot pair with one of two closures. If the two
were consistent, no update that brings any closure or observation returns; if they were not, no update that brings a
closure of the pair returns, unless it is dropped before. -/
theorem C27_false_leftover {cfg : Cfg G T N} {env : Env G N} (hr : cfg.rejection = true) (hl : cfg.loopCheck = true)
    (hi : cfg.incremental = false) {s : St G T N} {p q : Chr}
    (hone : (Spec.registered s ⟨p, q⟩).length = 1) (htwo : (Spec.matrix s ⟨p, q⟩).n = 2)
    {op : Op G N} {fs : Graph G N} {vs : Vals G} (ho : Spec.batch op = some (fs, vs)) (hc : Spec.cands cfg vs fs ≠ []) :
    (Joined (Spec.matrix s ⟨p, q⟩) 0 1 → ∀ s' x, exec cfg env op s ≠ .ok s' x) ∧
    ((∃ b ∈ Spec.cands cfg vs fs, ObsId.eqv ⟨chr b.k1, chr b.k2⟩ ⟨p, q⟩ = true ∧ Spec.isLandmark cfg b = false ∧
        (cfg.odomCheck = false ∨ chr b.k1 ≠ chr b.k2) ∧
        (b.k1 ∈ s.values.keys ∨ b.k1 ∈ vs.keys) ∧ (b.k2 ∈ s.values.keys ∨ b.k2 ∈ vs.keys)) →
      ∀ s' x, exec cfg env op s ≠ .ok s' x) := by
  have hk : ∃ m, AList.get? ObsId.eqv s.pcm.lcs ⟨p, q⟩ = some m := by
    cases hg : AList.get? ObsId.eqv s.pcm.lcs ⟨p, q⟩ with
    | none =>
      have : Spec.registered s ⟨p, q⟩ = [] := by unfold Spec.registered lcOf; rw [hg]; rfl
      rw [this] at hone; cases hone
    | some m => exact ⟨m, rfl⟩
  obtain ⟨m, hg⟩ := hk
  have hm1 : lcOf s.pcm ⟨p, q⟩ = m := lcOf_of_get? hg
  unfold Spec.registered at hone
  unfold Spec.matrix at htwo ⊢
  rw [hm1] at hone htwo ⊢
  have hne : m.factors ≠ [] ∧ m.adj.n ≠ m.factors.length :=
    ⟨fun h => (by rw [h] at hone; simp at hone), by omega⟩
  constructor
  · intro hj s' x e
    obtain ⟨⟨m', k, hm⟩, _⟩ := stuck_of hr hl hi ho hc hg (Or.inr hne) e
    rcases measInliers_spec m with ⟨h0, _⟩ | ⟨_, k2, idx, hf, hbk, ⟨m2, e2, _, _, hin⟩ | ⟨c, e2, _⟩⟩
    · omega
    · have h2 : 2 ≤ k2 := by
        obtain ⟨k3, out, h3, _, h4, _⟩ := findMaxCliqueHeu_spec m.adj [] (by omega)
        rw [hf] at h3
        cases h3
        exact h4 ⟨0, 1, hj⟩
      obtain ⟨v, t, _, ht, hu⟩ := hbk.star
      have hv := hin v (by rw [ht]; simp)
      have hlen := congrArg List.length ht
      rw [List.length_take, Nat.min_eq_left hbk.len] at hlen
      cases t with
      | nil => simp at hlen; omega
      | cons u t =>
        have hu1 := hin u (by rw [ht]; simp)
        have := (hu u (by simp)).2.2.1
        omega
    · rw [hm] at e2; cases e2
  · rintro ⟨b, hb, hp, hlm, hod, h1, h2⟩ s' x e
    obtain ⟨_, v1, p1, hv, hacc⟩ := stuck_of hr hl hi ho hc hg (Or.inr hne) e
    have := hacc b hb hp
    have hhas : ∀ k, (k ∈ s.values.keys ∨ k ∈ vs.keys) → v1.has k = true := fun k hk => by
      obtain ⟨h3, _⟩ := insertVals_ok hv
      rw [KMap.mem_keys_iff, KMap.mem_keys_iff] at hk
      unfold KMap.has at hk ⊢
      rw [h3]
      by_cases hs : s.values.has k = true
      · rw [if_pos hs]; exact hs
      · rw [if_neg hs]
        rcases hk with hk | hk
        · exact absurd hk hs
        · exact hk
    have hknown : known v1 b = true := by
      unfold known
      rw [hhas _ h1, hhas _ h2]; rfl
    simp only [acceptLc, hknown, hlm] at this
    rcases hod with hod | hod
    · simp [odomVerdict, hod] at this
    · simp [hod] at this

/-- Such states arise whenever a pair has two closures and one of them is removed: then one closure is left and the matrix
still has two rows, with the same entry. -/
theorem C27_leftover_arises {cfg : Cfg G T N} {env : Env G N} (hr : cfg.rejection = true) (hl : cfg.loopCheck = true)
    {h : List (Op G N)} {s s' : St G T N} (r : Reach cfg env h s) {p q : Chr} (htwo : (Spec.registered s ⟨p, q⟩).length = 2)
    {x : Ret} (e : exec cfg env (.removeLastPair p q) s = .ok s' x) :
    (Spec.registered s' ⟨p, q⟩).length = 1 ∧ Spec.matrix s' ⟨p, q⟩ = Spec.matrix s ⟨p, q⟩ ∧ (Spec.matrix s' ⟨p, q⟩).n = 2 := by
  have hn : (Spec.matrix s ⟨p, q⟩).n = 2 := by
    have := (r.shape hr hl ⟨p, q⟩).size (by show 2 ≤ (Spec.registered s ⟨p, q⟩).length; omega)
    exact this.trans htwo
  obtain ⟨s1, o, h1, h2⟩ := exec_ok_phase hr e
  have hpcm : s'.pcm = s1.pcm := by
    rcases h2 with ⟨_, h2⟩ | ⟨_, rfl⟩
    · have := optimize_frame cfg env s1
      rw [h2] at this
      exact this.pcm
    · rfl
  have h1 : (removeLastOfPair env ⟨p, q⟩).ret _ s = .ok s1 (x, o) := h1
  obtain ⟨s2, y, h3, h4⟩ := M.bind_eq_ok.1 h1
  cases h4
  rw [removeLastOfPair_eq] at h3
  cases hg : AList.get? ObsId.eqv s.pcm.lcs ⟨p, q⟩ with
  | none =>
    have : Spec.registered s ⟨p, q⟩ = [] := by unfold Spec.registered lcOf; rw [hg]; rfl
    rw [this] at htwo; cases htwo
  | some m =>
    rw [hg] at h3
    have hm1 : lcOf s.pcm ⟨p, q⟩ = m := lcOf_of_get? hg
    unfold Spec.registered at htwo ⊢
    unfold Spec.matrix at hn ⊢
    rw [hm1] at htwo hn ⊢
    rw [hpcm]
    have hx : ∃ c y, removeLastMeas m = .ok ⟨m.factors.dropLast, c, m.adj⟩ (some y) := by
      unfold removeLastMeas
      rw [if_neg (by omega)]
      cases hl : m.factors.getLast? with
      | none => rw [List.getLast?_eq_none_iff] at hl; rw [hl] at htwo; cases htwo
      | some last =>
        simp only
        rw [if_pos (by simp [htwo])]
        exact ⟨_, _, rfl⟩
    obtain ⟨c, y, hx⟩ := hx
    simp only [hx] at h3
    cases h3
    have : lcOf (updLc s.pcm ⟨p, q⟩ fun _ => ⟨m.factors.dropLast, c, m.adj⟩) ⟨p, q⟩ = ⟨m.factors.dropLast, c, m.adj⟩ :=
      lcOf_updLc_self _ _ _
    simp only [this]
    exact ⟨by simp [htwo], trivial, hn⟩

set_option maxRecDepth 100000 in
/-- After `Demo.h1` robot `a` has two consistent closures; one is removed; then a closure between `a` and `b`, which
has nothing to do with them, cannot be added: `C27_false_leftover` applies. -/
example : ∃ s s1 x, ReachOk Demo.cfg Demo.env Demo.h1 s ∧ exec Demo.cfg Demo.env (.removeLastPair 97 97) s = .ok s1 x ∧
    Joined (Spec.matrix s1 ⟨97, 97⟩) 0 1 ∧
    ∀ s' x, exec Demo.cfg Demo.env (.update [Demo.edge (Demo.a 0) (Demo.b 1) 1]
      [Demo.pose (Demo.b 0) 0, Demo.pose (Demo.b 1) 1] false) s1 ≠ .ok s' x := by
  obtain ⟨s, r, h⟩ := Demo.runs_reach (cfg := Demo.cfg) (env := Demo.env) (ops := Demo.h1)
    (P := fun s => decide ((Spec.registered s ⟨97, 97⟩).length = 2) && decide (Joined (Spec.matrix s ⟨97, 97⟩) 0 1) &&
      match exec Demo.cfg Demo.env (.removeLastPair 97 97) s with
      | .ok _ _ => true
      | _ => false) (by decide +kernel)
  rw [Bool.and_eq_true, Bool.and_eq_true] at h
  obtain ⟨⟨h1, h2⟩, h3⟩ := h
  cases e : exec Demo.cfg Demo.env (.removeLastPair 97 97) s with
  | ub _ => rw [e] at h3; cases h3
  | throw _ _ => rw [e] at h3; cases h3
  | ok s1 x =>
    obtain ⟨k1, k2, k3⟩ := C27_leftover_arises (by decide) (by decide) r.reach (of_decide_eq_true h1) e
    refine ⟨s, s1, x, r, e, by rw [k2]; exact of_decide_eq_true h2, ?_⟩
    exact (C27_false_leftover (by decide) (by decide) (by decide) k1 k3 rfl (by decide +kernel)).1
      (by rw [k2]; exact of_decide_eq_true h2)

set_option maxRecDepth 100000 in
/-- `C27_false_emptied` applies after a closure was added and removed. -/
example : ∃ s, ReachOk Demo.cfg Demo.env added_and_removed s ∧
    ∀ s' x, exec Demo.cfg Demo.env (.update [Demo.edge (Demo.a 0) (Demo.b 1) 1] [] false) s ≠ .ok s' x := by
  obtain ⟨s, r, h⟩ := Demo.runs_reach (cfg := Demo.cfg) (env := Demo.env) (ops := added_and_removed)
    (P := fun s => decide (Spec.registered s ⟨97, 97⟩ = [])) (by decide +kernel)
  obtain ⟨s1, x, r1, e⟩ := ReachOk.snoc_inv (h := added_and_removed.dropLast) (op := .removeLast) r
  obtain ⟨s2, r2, h2⟩ := Demo.runs_reach (cfg := Demo.cfg) (env := Demo.env) (ops := added_and_removed.dropLast)
    (P := fun s => decide ((Spec.registered s ⟨97, 97⟩) ≠ [])) (by decide +kernel)
  cases r1.det r2
  obtain ⟨b, hb⟩ := List.exists_mem_of_ne_nil _ (of_decide_eq_true h2)
  exact ⟨s, r, C27_false_emptied (by decide) (by decide) (by decide) r.reach (.snoc .nil (Or.inl ⟨_, e⟩)) hb (of_decide_eq_true h) rfl
    (by decide +kernel) (by decide +kernel)⟩

end RPGO.Props
