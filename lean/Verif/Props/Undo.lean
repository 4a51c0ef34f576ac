import Verif.Proofs.Undo
import Verif.Props.Removal
import Verif.Props.Selection
import Verif.Props.AnySplit
/-
C68 removing the closures just added undoes the addition.
-/

namespace RPGO.Spec
variable {G T N : Type} [Mul G] [Inv G] [One G]

/-- `NeverFewer cfg env id n s ops t`: the calls `ops`, made in state `s`, all returned normally and left state `t`, and
after each of them at least `n` closures were registered for the robot pair `id`. -/
inductive NeverFewer (cfg : Cfg G T N) (env : Env G N) (id : ObsId) (n : Nat) (s : St G T N) :
    List (Op G N) → St G T N → Prop where
  | none : NeverFewer cfg env id n s [] s
  | call {ops t op t' x} : NeverFewer cfg env id n s ops t → exec cfg env op t = .ok t' x → n ≤ (registered t' id).length →
      NeverFewer cfg env id n s (ops ++ [op]) t'

/-- A call that supplies loop closures between poses and nothing else. -/
def OnlyClosures (cfg : Cfg G T N) (op : Op G N) : Prop :=
  ∃ fs vs, batch op = some (fs, vs) ∧
    ∀ f ∈ fs, ∃ b, f = elem b ∧ isCand cfg vs b = true ∧ isLandmark cfg b = false

end RPGO.Spec

namespace RPGO
variable {G T N : Type}

/-- The part of the graph that comes from the table of closures, given the selected closures of every pair. -/
theorem flat_eq {p p' : Pcm G T N} (hd : Distinct p.lcs) (hd' : Distinct p'.lcs)
    (hk : p.lcs.map (·.1) <+: p'.lcs.map (·.1)) (hc : ∀ id, (lcOf p' id).cons = (lcOf p id).cons) {β : Type}
    (g : ObsId → List (Btw G N) → List β) (hg : ∀ k, g k [] = []) :
    p'.lcs.flatMap (fun e => g e.1 e.2.cons) = p.lcs.flatMap (fun e => g e.1 e.2.cons) := by
  have key : ∀ (q : Pcm G T N), Distinct q.lcs → q.lcs.flatMap (fun e => g e.1 e.2.cons) =
      (q.lcs.map (·.1)).flatMap fun k => g k (lcOf q k).cons := by
    intro q hq
    rw [List.flatMap_map]
    apply List.flatMap_congr
    intro e he
    simp only [lcOf, hq.get he, Option.getD_some]
  rw [key p hd, key p' hd']
  obtain ⟨x, hx⟩ := hk
  unfold Distinct at hd'
  rw [← hx] at hd' ⊢
  rw [List.flatMap_append]
  have h2 : x.flatMap (fun k => g k (lcOf p' k).cons) = [] := by
    rw [List.flatMap_eq_nil_iff]
    intro k hkx
    have h3 : ∀ k' ∈ p.lcs.map (·.1), k'.eqv k = false := fun k' hk' => (List.pairwise_append.1 hd').2.2 k' hk' k hkx
    have h4 : AList.get? ObsId.eqv p.lcs k = none := by
      generalize p.lcs = l at h3
      induction l with
      | nil => rfl
      | cons e l ih =>
        unfold AList.get?
        rw [if_neg (by rw [h3 e.1 (by simp)]; simp)]
        exact ih fun k' hk' => h3 k' (by simp only [List.map_cons, List.mem_cons]; exact Or.inr hk')
    have h5 : (lcOf p k).cons = [] := by unfold lcOf; rw [h4]; rfl
    rw [hc, h5, hg]
  rw [h2, List.append_nil]
  apply List.flatMap_congr
  intro k _
  rw [hc]

variable [Mul G] [Inv G] [One G]

theorem ReachOk.neverFewer {cfg : Cfg G T N} {env : Env G N} {h : List (Op G N)} {s : St G T N} (r : ReachOk cfg env h s)
    {id : ObsId} {n : Nat} {ops : List (Op G N)} {t : St G T N} (c : Spec.NeverFewer cfg env id n s ops t) :
    ReachOk cfg env (h ++ ops) t := by
  induction c with
  | none => simpa using r
  | call c e _ ih => rw [← List.append_assoc]; exact ih.step e

theorem ReachOk.removeMany {cfg : Cfg G T N} {env : Env G N} {h : List (Op G N)} {s s' : St G T N} {es : List (Option (Key × Key))}
    (r : ReachOk cfg env h s) (c : Spec.RemoveMany cfg env s es s') :
    ReachOk cfg env (h ++ List.replicate es.length .removeLast) s' := by
  induction c generalizing h with
  | nil => simpa using r
  | cons e _ ih =>
    have := ih (r.step e)
    rw [List.append_assoc] at this
    exact this

end RPGO

namespace RPGO.Props
variable {G T N : Type} [Mul G] [Inv G] [One G]

/-- C68: when closures of a robot pair are added behind those it has and removed again, by any calls, so that its
registered closures are never fewer than at the start and in the end as many, then they are the same ones in the same
order, and the same ones of them are accepted, with batch selection. -/
theorem C68_restored_partial {cfg : Cfg G T N} {env : Env G N} (hr : cfg.rejection = true) (hl : cfg.loopCheck = true)
    (hi : cfg.incremental = false) {h ops : List (Op G N)} {s t : St G T N} (r : ReachOk cfg env h s) (id : ObsId)
    (c : Spec.NeverFewer cfg env id (Spec.registered s id).length s ops t)
    (hn : (Spec.registered t id).length = (Spec.registered s id).length) :
    Spec.registered t id = Spec.registered s id ∧ Spec.selected t id = Spec.selected s id := by
  have hs := r.reach.sized hr hl id
  have hb : Below (lcOf s.pcm id).factors (lcOf s.pcm id).adj (lcOf t.pcm id) := by
    clear hn
    induction c with
    | none => exact ⟨List.prefix_refl _, fun h2 => ⟨hs h2, fun _ _ _ _ => rfl⟩⟩
    | call c e hle ih => exact exec_below hr hl e id ih hle
  have hf : (lcOf t.pcm id).factors = (lcOf s.pcm id).factors := (hb.pre.eq_of_length hn.symm).symm
  refine ⟨hf, chosen_eq (r.chosen hr hl hi id) ((r.neverFewer c).chosen hr hl hi id) hf fun h2 => ?_⟩
  obtain ⟨a, b⟩ := hb.adj h2
  exact ⟨by rw [a, hf, hs h2], hs h2, b⟩

/-- C68: after an update, calling `removeLastLoopClosure()` once for every closure the update registered leaves every
robot pair with the closures it had before the update, and the same ones accepted. -/
theorem C68_undo_partial {cfg : Cfg G T N} {env : Env G N} (hr : cfg.rejection = true) (hl : cfg.loopCheck = true)
    (hi : cfg.incremental = false) {h : List (Op G N)} {s s1 s2 : St G T N} {L : List (Btw G N)} {op : Op G N} {x : Ret}
    {es : List (Option (Key × Key))} (c : Spec.Chron cfg env h s L) (hb : (Spec.batch op).isSome)
    (e : exec cfg env op s = .ok s1 x) (rm : Spec.RemoveMany cfg env s1 es s2)
    (hn : es.length = (Spec.newClosures cfg op s1).length) (id : ObsId) :
    Spec.registered s2 id = Spec.registered s id ∧ Spec.selected s2 id = Spec.selected s id := by
  have ha : Spec.afterCall cfg op s1 L = L ++ Spec.newClosures cfg op s1 := by
    cases op <;> first | rfl | cases hb
  have hp : ∀ p q, op ≠ .removeLastPair p q := by rintro p q rfl; cases hb
  have c1 := Spec.Chron.step c hp e
  rw [ha] at c1
  have hs := c.live hr
  have h1 : Spec.NeverFewer cfg env id (Spec.registered s id).length s [op] s1 := by
    refine Spec.NeverFewer.call (ops := []) .none e ?_
    unfold Spec.registered
    rw [hs.regs, (c1.live hr).regs, List.filter_append, List.length_append]
    omega
  generalize hN : Spec.newClosures cfg op s1 = new at c1 hn
  have key : ∀ (es : List (Option (Key × Key))) (new : List (Btw G N)) (h1 ops : List (Op G N)) (s1 s2 : St G T N),
      Spec.Chron cfg env h1 s1 (L ++ new) → Spec.NeverFewer cfg env id (Spec.registered s id).length s ops s1 →
      Spec.RemoveMany cfg env s1 es s2 → es.length = new.length →
      ∃ h2 ops', Spec.Chron cfg env h2 s2 L ∧ Spec.NeverFewer cfg env id (Spec.registered s id).length s ops' s2 := by
    intro es
    induction es with
    | nil =>
      intro new h1 ops s1 s2 c1 n1 rm hn
      cases rm
      have : new = [] := List.length_eq_zero_iff.1 hn.symm
      subst this
      rw [List.append_nil] at c1
      exact ⟨_, _, c1, n1⟩
    | cons w es ih =>
      intro new h1 ops s1 s2 c1 n1 rm hn
      cases rm with
      | @cons _ s3 _ _ _ e3 rm3 =>
        have hne : new ≠ [] := by rintro rfl; simp at hn
        have c3 : Spec.Chron cfg env (h1 ++ [.removeLast]) s3 (L ++ new).dropLast :=
          .step c1 (fun _ _ h => by cases h) e3
        rw [List.dropLast_append_of_ne_nil hne] at c3
        refine ih new.dropLast _ _ s3 s2 c3 (n1.call e3 ?_) rm3 (by simp at hn ⊢; omega)
        unfold Spec.registered
        rw [hs.regs, (c3.live hr).regs, List.filter_append, List.length_append]
        omega
  obtain ⟨h2, ops', c2, n2⟩ := key es new _ _ s1 s2 c1 h1 rm hn
  refine C68_restored_partial hr hl hi c.reachOk id n2 ?_
  unfold Spec.registered
  rw [hs.regs, (c2.live hr).regs]

/-- C68: if the update supplied only loop closures between poses, the factor graph afterwards holds the same factors, each
as many times, as before the update. -/
theorem C68_graph_partial {cfg : Cfg G T N} {env : Env G N} (he : env.Ok) (hr : cfg.rejection = true) (hl : cfg.loopCheck = true)
    (hi : cfg.incremental = false) {h : List (Op G N)} {s s1 s2 : St G T N} {L : List (Btw G N)} {op : Op G N} {x : Ret}
    {es : List (Option (Key × Key))} (c : Spec.Chron cfg env h s L) (hm : ∀ o ∈ h, Spec.Managed o)
    (ho : Spec.OnlyClosures cfg op)
    (e : exec cfg env op s = .ok s1 x) (rm : Spec.RemoveMany cfg env s1 es s2)
    (hn : es.length = (Spec.newClosures cfg op s1).length) : s2.nfg.Perm s.nfg := by
  obtain ⟨fs, vs, hb, hfs⟩ := ho
  have hsel := C68_undo_partial hr hl hi c (by rw [hb]; rfl) e rm hn
  have hop : Spec.Managed op := by cases op <;> first | trivial | cases hb
  have r1 : ReachOk cfg env (h ++ [op]) s1 := c.reachOk.step e
  have r2 := r1.removeMany rm
  have hrep : ∀ o ∈ List.replicate es.length (Op.removeLast : Op G N), o = .removeLast := fun o ho => (List.mem_replicate.1 ho).2
  have hm2 : ∀ o ∈ h ++ [op] ++ List.replicate es.length .removeLast, Spec.Managed o := by
    intro o ho
    rcases List.mem_append.1 ho with ho | ho
    · rcases List.mem_append.1 ho with ho | ho
      · exact hm o ho
      · rw [List.mem_singleton.1 ho]; exact hop
    · rw [hrep o ho]; trivial
  have hbt : ∀ b ∈ Spec.btws fs, Spec.isCand cfg vs b = true ∧ Spec.isLandmark cfg b = false := by
    intro b hb'
    unfold Spec.btws at hb'
    obtain ⟨f, hf, hfb⟩ := List.mem_filterMap.1 hb'
    obtain ⟨b', rfl, h1, h2⟩ := hfs f hf
    simp only [Spec.elem, Option.some.injEq] at hfb
    subst hfb
    exact ⟨h1, h2⟩
  obtain ⟨a1, a2, a3⟩ := c.reachOk.lists he hr hm
  obtain ⟨b1, b2, b3⟩ := r2.lists he hr hm2
  have hodom : s2.pcm.odom = s.pcm.odom := by
    rw [b2, a2]
    unfold Spec.odomSoFar
    rw [List.flatMap_append, List.flatMap_append]
    have h1 : (List.replicate es.length (Op.removeLast : Op G N)).flatMap (Spec.opOdom cfg) = [] := by
      rw [List.flatMap_eq_nil_iff]; intro o ho; rw [hrep o ho]; rfl
    have h2 : Spec.opOdom cfg op = [] := by
      unfold Spec.opOdom Spec.odoms
      rw [hb]
      simp only
      rw [List.filter_eq_nil_iff]
      intro b hb' h0
      have := (hbt b hb').1
      unfold Spec.isCand at this
      rw [h0] at this
      simp at this
    rw [h1]
    simp [h2]
  have hspec : s2.pcm.special = s.pcm.special := by
    rw [b3, a3]
    unfold Spec.specialSoFar
    rw [List.foldl_append, List.foldl_append]
    have h1 : Spec.specials fs = [] := by
      unfold Spec.specials
      rw [List.filterMap_eq_nil_iff]
      intro f hf
      obtain ⟨b', rfl, _⟩ := hfs f hf
      rfl
    have h2 : ∀ l : List (Factor G N), Spec.specialStep cfg l op = l := by
      intro l
      cases op <;> first | cases hb | skip
      · show l ++ Spec.specials fs = l
        rw [h1]; simp
      · show l ++ Spec.specials fs = l
        rw [h1]; simp
    have h3 : ∀ (n : Nat) (l : List (Factor G N)), (List.replicate n (Op.removeLast : Op G N)).foldl (Spec.specialStep cfg) l = l := by
      intro n
      induction n with
      | zero => intro l; rfl
      | succ n ih => intro l; rw [List.replicate_succ, List.foldl_cons]; exact ih _
    rw [h3]
    simp [h2]
  have hign : s2.pcm.ignored = s.pcm.ignored := by
    have h1 : s1.pcm.ignored = s.pcm.ignored := by
      cases (exec_batch env hr hb s).1 s1 x e with
      | empty _ _ hf => rw [hf.pcm]
      | full hne hi1 hS h1 h2 ha hf =>
        rename_i v1 p1 p2 s1
        rw [hf.pcm, ha.eq]
        show p2.ignored = _
        rw [← hS.ignored]
        by_cases hc : Spec.cands cfg vs fs = []
        · rw [h1 hc]
        · have hx := processCands_ends cfg v1 (Spec.cands cfg vs fs) p1
          rw [h2 hc] at hx
          obtain ⟨q', hq', hs', _⟩ := hx
          exact (processed_frame hq' hs').2.2
    rw [← h1]
    clear hn hsel r2 hm2 hrep hodom hspec b1 b2 b3
    clear a1 a2 a3 r1 h1 e
    induction rm with
    | nil => rfl
    | @cons s s1 s2 w es e1 _ ih =>
      rw [ih]
      have hq := ((exec_other cfg env hr .removeLast rfl s).of_ok e1).pcm
      generalize s.pcm = p at hq
      generalize s1.pcm = p' at hq
      cases hq <;> rfl
  have hkeys : s.pcm.lcs.map (·.1) <+: s2.pcm.lcs.map (·.1) := by
    refine (exec_keys hr e).trans ?_
    clear hn hsel r2 hm2 hrep hodom hspec b1 b2 b3 hign
    clear a1 a2 a3 r1 e
    induction rm with
    | nil => exact List.prefix_refl _
    | cons e1 _ ih => exact (exec_keys hr e1).trans ih
  have hlm : s2.pcm.landmarks = s.pcm.landmarks := by
    have h1 : s1.pcm.landmarks = s.pcm.landmarks := by
      refine exec_landmarks_same hr c.reachOk e fun b hb' => ?_
      unfold Spec.opBtws at hb'
      rw [hb] at hb'
      exact (hbt b hb').2
    rw [← h1]
    clear hn hsel r2 hm2 hrep hodom hspec b1 b2 b3 hign hkeys
    clear a1 a2 a3 r1 h1 e
    induction rm with
    | nil => rfl
    | @cons s s1 s2 w es e1 _ ih =>
      rw [ih]
      exact ((exec_other cfg env hr .removeLast rfl s).of_ok e1).pcm.landmarks
  rw [a1, b1]
  unfold buildGraph
  rw [hodom, hspec, hign, hlm]
  refine List.Perm.append_right _ (List.Perm.append_left _ ?_)
  refine ((he.lc _).flatMap_right _).trans (List.Perm.trans ?_ ((he.lc _).flatMap_right _).symm)
  rw [flat_eq (c.reachOk.reach.distinct hr).1 (r2.reach.distinct hr).1 hkeys (fun id => (hsel id).2)
    (fun k l => if (!s.pcm.ignored.contains k.id1 && !s.pcm.ignored.contains k.id2) = true then
      l.map (fun b => some (Factor.btw b)) else []) (fun k => by simp)]

/-- Closures supplied one by one. -/
def oneByOne (bs : List (Btw Demo.Z Demo.Ns)) : List (Op Demo.Z Demo.Ns) := bs.map fun b => .update [some (.btw b)] [] false

/-- Run calls, then more calls, and compare the two states. -/
theorem runs_compare_many {cfg : Cfg G T N} {env : Env G N} {ops more : List (Op G N)} {P : St G T N → St G T N → Bool}
    (h : Demo.runs cfg env ops (fun s => Demo.runFrom cfg env more s |>.any (P s)) = true) :
    ∃ s s', ReachOk cfg env ops s ∧ ReachOk cfg env (ops ++ more) s' ∧ P s s' = true := by
  obtain ⟨s, r, h⟩ := Demo.runs_reach h
  cases e : Demo.runFrom cfg env more s with
  | none => rw [e] at h; cases h
  | some s' => rw [e] at h; exact ⟨s, s', r, Demo.runFrom_reach r e, h⟩

set_option maxRecDepth 100000 in
/-- C68 needs batch selection: with incremental selection, adding one closure that agrees with no other and removing it
again leaves other closures accepted. -/
theorem C68_false_incremental : ∃ s s', ReachOk demoInc Demo.env (duoOdometry ++ oneByOne four) s ∧
    ReachOk demoInc Demo.env (duoOdometry ++ oneByOne four ++
      [.update [Demo.edge (Demo.a 0) (Demo.b 0) 90] [] false, .removeLast]) s' ∧
    Spec.registered s' ⟨97, 98⟩ = Spec.registered s ⟨97, 98⟩ ∧
    Spec.selected s ⟨97, 98⟩ = [Demo.btw (Demo.a 0) (Demo.b 0) 3, Demo.btw (Demo.a 0) (Demo.b 0) 3] ∧
    Spec.selected s' ⟨97, 98⟩ = [Demo.btw (Demo.a 0) (Demo.b 0) 1, Demo.btw (Demo.a 0) (Demo.b 0) 1] := by
  obtain ⟨s, s', r, r', h⟩ := runs_compare_many (cfg := demoInc) (env := Demo.env) (ops := duoOdometry ++ oneByOne four)
    (more := [.update [Demo.edge (Demo.a 0) (Demo.b 0) 90] [] false, .removeLast])
    (P := fun s s' => decide (Spec.registered s' ⟨97, 98⟩ = Spec.registered s ⟨97, 98⟩ ∧
      Spec.selected s ⟨97, 98⟩ = [Demo.btw (Demo.a 0) (Demo.b 0) 3, Demo.btw (Demo.a 0) (Demo.b 0) 3] ∧
      Spec.selected s' ⟨97, 98⟩ = [Demo.btw (Demo.a 0) (Demo.b 0) 1, Demo.btw (Demo.a 0) (Demo.b 0) 1])) (by decide +kernel)
  exact ⟨s, s', r, r', of_decide_eq_true h⟩

/-- Removals made by running calls. -/
theorem runFrom_removeMany {cfg : Cfg G T N} {env : Env G N} (hr : cfg.rejection = true) {n : Nat} {s s' : St G T N}
    (h : Demo.runFrom cfg env (List.replicate n .removeLast) s = some s') :
    ∃ es, Spec.RemoveMany cfg env s es s' ∧ es.length = n := by
  induction n generalizing s with
  | zero => cases h; exact ⟨[], .nil, rfl⟩
  | succ n ih =>
    rw [List.replicate_succ] at h
    unfold Demo.runFrom at h
    cases e : exec cfg env .removeLast s with
    | ok s1 x =>
      rw [e] at h
      obtain ⟨_, q, _, _, rfl⟩ := exec_removeLast hr e
      obtain ⟨es, h1, h2⟩ := ih h
      exact ⟨_, .cons e h1, by simp [h2]⟩
    | throw _ _ => rw [e] at h; cases h
    | ub _ => rw [e] at h; cases h

/-- Two more closures, one of which agrees with closures of `four`. -/
def twoMore : Op Demo.Z Demo.Ns := .update [Demo.edge (Demo.a 0) (Demo.b 0) 3, Demo.edge (Demo.a 1) (Demo.b 1) 90] [] false

set_option maxRecDepth 100000 in
/-- The hypotheses of the theorems of C68 are met: four closures, two more, and two removals. The update changes what is
accepted, and the removals change it back. -/
example : (∀ o ∈ duoOdometry ++ oneByOne four, Spec.Managed o) ∧ Spec.OnlyClosures Demo.cfg twoMore ∧
    ∃ s s1 s2 L x es, Spec.Chron Demo.cfg Demo.env (duoOdometry ++ oneByOne four) s L ∧
      exec Demo.cfg Demo.env twoMore s = .ok s1 x ∧ Spec.RemoveMany Demo.cfg Demo.env s1 es s2 ∧
      es.length = (Spec.newClosures Demo.cfg twoMore s1).length ∧ es.length = 2 ∧
      Spec.selected s1 ⟨97, 98⟩ ≠ Spec.selected s ⟨97, 98⟩ ∧ (Spec.selected s ⟨97, 98⟩).length = 2 := by
  refine ⟨?_, ?_, ?_⟩
  · intro o ho
    simp [duoOdometry, oneByOne, four] at ho
    rcases ho with rfl | rfl | rfl | rfl | rfl <;> trivial
  · refine ⟨_, _, rfl, ?_⟩
    intro f hf
    rcases List.mem_cons.1 hf with rfl | hf
    · exact ⟨_, rfl, by decide +kernel, by decide +kernel⟩
    · rw [List.mem_singleton.1 hf]
      exact ⟨_, rfl, by decide +kernel, by decide +kernel⟩
  · obtain ⟨s, r, h⟩ := Demo.runs_reach (cfg := Demo.cfg) (env := Demo.env) (ops := duoOdometry ++ oneByOne four)
      (P := fun s => decide ((Spec.selected s ⟨97, 98⟩).length = 2) &&
        (Demo.runFrom Demo.cfg Demo.env [twoMore] s).any fun s1 =>
          decide ((Spec.newClosures Demo.cfg twoMore s1).length = 2) &&
          !decide (Spec.selected s1 ⟨97, 98⟩ = Spec.selected s ⟨97, 98⟩) &&
          (Demo.runFrom Demo.cfg Demo.env (List.replicate 2 .removeLast) s1).isSome) (by decide +kernel)
    obtain ⟨L, c⟩ := chron_of r (by
      intro o ho
      simp [duoOdometry, oneByOne, four] at ho
      rcases ho with rfl | rfl | rfl | rfl | rfl <;> intro p q h <;> cases h)
    rw [Bool.and_eq_true] at h
    obtain ⟨h0, h⟩ := h
    cases e : exec Demo.cfg Demo.env twoMore s with
    | ok s1 x =>
      have e1 : Demo.runFrom Demo.cfg Demo.env [twoMore] s = some s1 := by unfold Demo.runFrom; rw [e]; rfl
      rw [e1, Option.any_some, Bool.and_eq_true, Bool.and_eq_true] at h
      obtain ⟨⟨h1, h2⟩, h3⟩ := h
      obtain ⟨s2, h3⟩ := Option.isSome_iff_exists.1 h3
      obtain ⟨es, h4, h5⟩ := runFrom_removeMany (cfg := Demo.cfg) rfl h3
      exact ⟨s, s1, s2, L, x, es, c, e, h4, by rw [h5, of_decide_eq_true h1], h5, by simpa using h2, of_decide_eq_true h0⟩
    | throw s1 x =>
      have e1 : Demo.runFrom Demo.cfg Demo.env [twoMore] s = none := by unfold Demo.runFrom; rw [e]
      rw [e1] at h; cases h
    | ub u =>
      have e1 : Demo.runFrom Demo.cfg Demo.env [twoMore] s = none := by unfold Demo.runFrom; rw [e]
      rw [e1] at h; cases h

end RPGO.Props
