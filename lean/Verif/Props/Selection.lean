import Verif.Proofs.Select
/-
C64 which of the registered closures of a pair of robots are accepted.
-/

namespace RPGO.Spec
variable {G T N : Type}

/-- The accepted closures of the pair `id` are the registered ones at the positions `idx`, in this order. -/
def AcceptedAt (s : St G T N) (id : ObsId) (idx : List Nat) : Prop :=
  (selected s id).map some = idx.map fun i => (registered s id)[i]?

/-- The matrix says that the closures of the pair `id` registered at positions `i` and `j` agree with each other. -/
def Agree (s : St G T N) (id : ObsId) (i j : Nat) : Prop :=
  i < (registered s id).length ∧ j < (registered s id).length ∧ i ≠ j ∧ (matrix s id).e (max i j) (min i j) = true

instance (s : St G T N) (id : ObsId) (i j : Nat) : Decidable (Agree s id i j) := by unfold Agree; infer_instance

/-- Distinct positions of registered closures of the pair `id`, any two of which agree. -/
def Agreeing (s : St G T N) (id : ObsId) (l : List Nat) : Prop :=
  l.Nodup ∧ (∀ i ∈ l, i < (registered s id).length) ∧ ∀ i ∈ l, ∀ j ∈ l, i ≠ j → Agree s id i j

/-- If two closures both agree with a third one, they agree with each other. -/
def Transitive (s : St G T N) (id : ObsId) : Prop :=
  ∀ i j k, Agree s id i j → Agree s id j k → i ≠ k → Agree s id i k

end RPGO.Spec

namespace RPGO
variable {G T N : Type} [Mul G] [Inv G] [One G]

theorem picked_at {s : St G T N} {id : ObsId} {idx : List Nat} (h : Picked (lcOf s.pcm id) idx) :
    Spec.AcceptedAt s id idx := by
  unfold Spec.AcceptedAt Spec.selected Spec.registered
  rw [h.cons]
  have hr := h.range
  generalize (lcOf s.pcm id).factors = fs at hr
  clear h
  induction idx with
  | nil => rfl
  | cons i t ih =>
    have hi : i < fs.length := hr i (by simp)
    have := ih (fun j hj => hr j (by simp [hj]))
    simp only [atIdx, List.filterMap_cons, List.getElem?_eq_getElem hi, List.map_cons] at this ⊢
    rw [this]

theorem agree_iff {s : St G T N} {id : ObsId} (h : (Spec.matrix s id).n = (Spec.registered s id).length) (i j : Nat) :
    Joined (Spec.matrix s id) i j ↔ Spec.Agree s id i j := by
  unfold Joined Spec.Agree
  rw [h]

theorem agreeing_iff {s : St G T N} {id : ObsId} (h : (Spec.matrix s id).n = (Spec.registered s id).length)
    (l : List Nat) : IsClique (Spec.matrix s id) l ↔ Spec.Agreeing s id l := by
  unfold IsClique Spec.Agreeing
  simp only [agree_iff h]
  rw [h]

theorem transitive_iff {s : St G T N} {id : ObsId} (h : (Spec.matrix s id).n = (Spec.registered s id).length) :
    IsClusterGraph (Spec.matrix s id) ↔ Spec.Transitive s id := by
  unfold IsClusterGraph Spec.Transitive
  simp only [agree_iff h]

end RPGO

namespace RPGO.Props
variable {G T N : Type} [Mul G] [Inv G] [One G]

/-- C64. A single closure of a pair is accepted. -/
theorem C64_single {cfg : Cfg G T N} {env : Env G N} (hr : cfg.rejection = true) (hl : cfg.loopCheck = true)
    {h : List (Op G N)} {s : St G T N} (r : ReachOk cfg env h s) (id : ObsId)
    (h1 : (Spec.registered s id).length ≤ 1) : Spec.selected s id = Spec.registered s id :=
  (r.settled hr hl id).few h1

/-- C64. Whatever the mode and the history: the accepted closures are registered ones, the first accepted one agrees
with every other accepted one, and there are as many accepted ones as closures that all agree with each other. -/
theorem C64_accepted {cfg : Cfg G T N} {env : Env G N} (hr : cfg.rejection = true) (hl : cfg.loopCheck = true)
    {h : List (Op G N)} {s : St G T N} (r : ReachOk cfg env h s) (id : ObsId)
    (h2 : 2 ≤ (Spec.registered s id).length) :
    ∃ i t, Spec.AcceptedAt s id (i :: t) ∧ (∀ j ∈ t, Spec.Agree s id i j) ∧
      ∃ c, Spec.Agreeing s id c ∧ c.length = (Spec.selected s id).length := by
  have hn : (Spec.matrix s id).n = (Spec.registered s id).length := (r.reach.shape hr hl id).size h2
  obtain ⟨idx, hp, hg⟩ := (r.settled hr hl id).many h2
  obtain ⟨i, t, rfl, _, hs⟩ := hg.star
  obtain ⟨c, hc, hlen⟩ := hg.clique
  have ha := picked_at hp
  refine ⟨i, t, ha, fun j hj => (agree_iff hn i j).1 (hs j hj), c, (agreeing_iff hn c).1 hc, ?_⟩
  rw [hlen]
  have := congrArg List.length ha
  simpa using this.symm

/-- C64. When all closures are reconsidered after each update, there are as many accepted closures as in a set of
agreeing closures that no other closure can join. -/
theorem C64_maximal {cfg : Cfg G T N} {env : Env G N} (hr : cfg.rejection = true) (hl : cfg.loopCheck = true)
    (hi : cfg.incremental = false) {h : List (Op G N)} {s : St G T N} (r : ReachOk cfg env h s) (id : ObsId)
    (h2 : 2 ≤ (Spec.registered s id).length) :
    ∃ c, Spec.Agreeing s id c ∧ (¬ ∃ w, ∀ i ∈ c, Spec.Agree s id w i) ∧ c.length = (Spec.selected s id).length := by
  have hn : (Spec.matrix s id).n = (Spec.registered s id).length := (r.reach.shape hr hl id).size h2
  obtain ⟨k, idx, _, _, hb, hp⟩ := (r.chosen hr hl hi id).many h2
  obtain ⟨c, hc, hlen⟩ := hb.clique
  refine ⟨c, (agreeing_iff hn c).1 hc.1, ?_, ?_⟩
  · rintro ⟨w, hw⟩
    exact hc.2 ⟨w, fun a ha => (agree_iff hn w a).2 (hw a ha)⟩
  · have := congrArg List.length (picked_at hp)
    have hle := hb.len
    simp only [List.length_map, List.length_take] at this
    omega

/-- C64, for transitive agreement: any two accepted closures agree with each other, there is no larger set of agreeing
closures, and every closure that was not accepted disagrees with an accepted one. In both modes and after removals. -/
theorem C64_consistent_partial {cfg : Cfg G T N} {env : Env G N} (hr : cfg.rejection = true) (hl : cfg.loopCheck = true)
    {h : List (Op G N)} {s : St G T N} (r : ReachOk cfg env h s) (id : ObsId)
    (h2 : 2 ≤ (Spec.registered s id).length) (ht : Spec.Transitive s id) :
    ∃ idx, Spec.AcceptedAt s id idx ∧ Spec.Agreeing s id idx ∧
      (∀ l, Spec.Agreeing s id l → l.length ≤ idx.length) ∧
      ∀ w, w < (Spec.registered s id).length → w ∉ idx → ∃ i ∈ idx, ¬ Spec.Agree s id w i := by
  have hn : (Spec.matrix s id).n = (Spec.registered s id).length := (r.reach.shape hr hl id).size h2
  obtain ⟨idx, hp, hg⟩ := (r.settled hr hl id).many h2
  obtain ⟨hc, _, hmax⟩ := hg.cluster ((transitive_iff hn).2 ht)
  have hc' := (agreeing_iff hn idx).1 hc
  have hmax' : ∀ l, Spec.Agreeing s id l → l.length ≤ idx.length := fun l hl => hmax l ((agreeing_iff hn l).2 hl)
  refine ⟨idx, picked_at hp, hc', hmax', ?_⟩
  intro w hw hx
  by_contra hno
  have hall : ∀ i ∈ idx, Spec.Agree s id w i := by
    intro i hi
    by_contra hne
    exact hno ⟨i, hi, hne⟩
  have := hmax' (w :: idx) ⟨by simp [hx, hc'.1], by
      intro i hi
      rcases List.mem_cons.1 hi with rfl | hi
      · exact hw
      · exact hc'.2.1 i hi, by
      intro i hi j hj hij
      rcases List.mem_cons.1 hi with hi | hi
      · rcases List.mem_cons.1 hj with hj | hj
        · exact absurd (hi.trans hj.symm) hij
        · rw [hi]; exact hall j hj
      · rcases List.mem_cons.1 hj with hj | hj
        · rw [hj]
          have := hall i hi
          exact ⟨this.2.1, this.1, this.2.2.1.symm, by rw [Nat.max_comm, Nat.min_comm]; exact this.2.2.2⟩
        · exact hc'.2.2 i hi j hj hij⟩
  simp at this

/-- C64. If all registered closures of a pair agree with each other, all of them are accepted, each once. -/
theorem C64_all {cfg : Cfg G T N} {env : Env G N} (hr : cfg.rejection = true) (hl : cfg.loopCheck = true)
    {h : List (Op G N)} {s : St G T N} (r : ReachOk cfg env h s) (id : ObsId)
    (ha : ∀ i j, i < (Spec.registered s id).length → j < (Spec.registered s id).length → i ≠ j → Spec.Agree s id i j) :
    (Spec.selected s id).Perm (Spec.registered s id) := by
  rcases Nat.lt_or_ge (Spec.registered s id).length 2 with h2 | h2
  · rw [C64_single hr hl r id (by omega)]
  obtain ⟨idx, hat, hc, hmax, _⟩ := C64_consistent_partial hr hl r id h2
    (fun i j k hij hjk hne => ha i k hij.1 hjk.2.1 hne)
  have hlen := hmax (List.range (Spec.registered s id).length)
    ⟨List.nodup_range, by simp, fun i hi j hj hne => ha i j (by simpa using hi) (by simpa using hj) hne⟩
  have hp : idx.Perm (List.range (Spec.registered s id).length) :=
    (List.subperm_of_subset hc.1 (fun i hi => by simpa using hc.2.1 i hi)).perm_of_length_le hlen
  have h3 : ((Spec.selected s id).map some).Perm ((Spec.registered s id).map some) := by
    rw [hat]
    refine (hp.map _).trans ?_
    refine List.Perm.of_eq (List.ext_getElem (by simp) fun i h1 h2 => ?_)
    simp only [List.length_map, List.length_range] at h1
    simp [List.getElem?_eq_getElem h1]
  exact (List.map_perm_map_iff (Option.some_injective _)).1 h3

/-- Two robots that meet repeatedly; nothing is known of their relative position but the four closures `cs`. -/
def meetings (cs : List (BitVec 56 × BitVec 56 × ℤ)) : List (Op Demo.Z Demo.Ns) :=
  [.update [some (.prior (Demo.a 0) (Demo.z 0)), Demo.edge (Demo.a 0) (Demo.a 1) 1]
      [Demo.pose (Demo.a 0) 0, Demo.pose (Demo.a 1) 1] true,
   .update [Demo.edge (Demo.b 0) (Demo.b 1) 1] [Demo.pose (Demo.b 0) 0, Demo.pose (Demo.b 1) 1] true,
   .update (cs.map fun c => Demo.edge (Demo.a c.1) (Demo.b c.2.1) c.2.2) [] true]

set_option maxRecDepth 100000 in
/-- The hypotheses of the theorems are met by a solver with two groups of closures, of which the larger is accepted. -/
example : ∃ s, ReachOk Demo.cfg Demo.env (meetings [(0, 0, 2), (1, 1, 12), (0, 1, 4), (1, 0, 1)]) s ∧
    Spec.Agree s ⟨97, 98⟩ 0 2 ∧ Spec.Agree s ⟨97, 98⟩ 0 3 ∧ Spec.Agree s ⟨97, 98⟩ 2 3 ∧
    ¬ Spec.Agree s ⟨97, 98⟩ 0 1 ∧ ¬ Spec.Agree s ⟨97, 98⟩ 1 2 ∧ ¬ Spec.Agree s ⟨97, 98⟩ 1 3 ∧
    (Spec.registered s ⟨97, 98⟩).length = 4 ∧ (Spec.selected s ⟨97, 98⟩).length = 3 := by
  obtain ⟨s, r, h⟩ := Demo.runs_reach (cfg := Demo.cfg) (env := Demo.env)
    (ops := meetings [(0, 0, 2), (1, 1, 12), (0, 1, 4), (1, 0, 1)])
    (P := fun s => decide (Spec.Agree s ⟨97, 98⟩ 0 2 ∧ Spec.Agree s ⟨97, 98⟩ 0 3 ∧ Spec.Agree s ⟨97, 98⟩ 2 3 ∧
    ¬ Spec.Agree s ⟨97, 98⟩ 0 1 ∧ ¬ Spec.Agree s ⟨97, 98⟩ 1 2 ∧ ¬ Spec.Agree s ⟨97, 98⟩ 1 3 ∧
    (Spec.registered s ⟨97, 98⟩).length = 4 ∧ (Spec.selected s ⟨97, 98⟩).length = 3)) (by decide +kernel)
  exact ⟨s, r, of_decide_eq_true h⟩

set_option maxRecDepth 100000 in
/-- C64 is false in general: of four closures the first three are accepted although the second and the third
contradict each other, and the fourth, which agrees with all the others, is not. -/
theorem C64_false_contradiction : ∃ s, ReachOk Demo.cfg Demo.env (meetings [(0, 0, 2), (1, 1, 4), (0, 1, 2), (1, 0, 2)]) s ∧
    Spec.registered s ⟨97, 98⟩ = [Demo.btw (Demo.a 0) (Demo.b 0) 2, Demo.btw (Demo.a 1) (Demo.b 1) 4,
      Demo.btw (Demo.a 0) (Demo.b 1) 2, Demo.btw (Demo.a 1) (Demo.b 0) 2] ∧
    Spec.selected s ⟨97, 98⟩ = [Demo.btw (Demo.a 0) (Demo.b 0) 2, Demo.btw (Demo.a 1) (Demo.b 1) 4,
      Demo.btw (Demo.a 0) (Demo.b 1) 2] ∧
    ¬ Spec.Agree s ⟨97, 98⟩ 1 2 ∧
    Spec.Agree s ⟨97, 98⟩ 3 0 ∧ Spec.Agree s ⟨97, 98⟩ 3 1 ∧ Spec.Agree s ⟨97, 98⟩ 3 2 := by
  obtain ⟨s, r, h⟩ := Demo.runs_reach (cfg := Demo.cfg) (env := Demo.env)
    (ops := meetings [(0, 0, 2), (1, 1, 4), (0, 1, 2), (1, 0, 2)])
    (P := fun s => decide (Spec.registered s ⟨97, 98⟩ = [Demo.btw (Demo.a 0) (Demo.b 0) 2, Demo.btw (Demo.a 1) (Demo.b 1) 4,
      Demo.btw (Demo.a 0) (Demo.b 1) 2, Demo.btw (Demo.a 1) (Demo.b 0) 2] ∧
    Spec.selected s ⟨97, 98⟩ = [Demo.btw (Demo.a 0) (Demo.b 0) 2, Demo.btw (Demo.a 1) (Demo.b 1) 4,
      Demo.btw (Demo.a 0) (Demo.b 1) 2] ∧
    ¬ Spec.Agree s ⟨97, 98⟩ 1 2 ∧
    Spec.Agree s ⟨97, 98⟩ 3 0 ∧ Spec.Agree s ⟨97, 98⟩ 3 1 ∧ Spec.Agree s ⟨97, 98⟩ 3 2)) (by decide +kernel)
  exact ⟨s, r, of_decide_eq_true h⟩

set_option maxRecDepth 100000 in
/-- C64 is false in general: one closure is accepted twice, and is in the graph twice, while a closure that agrees with
it is left out. -/
theorem C64_false_doubled : ∃ s, ReachOk Demo.cfg Demo.env (meetings [(0, 1, 1), (1, 0, 2), (1, 1, 0), (0, 0, 0)]) s ∧
    Spec.selected s ⟨97, 98⟩ = [Demo.btw (Demo.a 0) (Demo.b 1) 1, Demo.btw (Demo.a 1) (Demo.b 1) 0,
      Demo.btw (Demo.a 1) (Demo.b 1) 0] ∧
    s.nfg.count (Demo.edge (Demo.a 1) (Demo.b 1) 0) = 2 ∧
    (Spec.registered s ⟨97, 98⟩)[3]? = some (Demo.btw (Demo.a 0) (Demo.b 0) 0) ∧
    Spec.Agree s ⟨97, 98⟩ 3 0 ∧ Spec.Agree s ⟨97, 98⟩ 3 2 := by
  obtain ⟨s, r, h⟩ := Demo.runs_reach (cfg := Demo.cfg) (env := Demo.env)
    (ops := meetings [(0, 1, 1), (1, 0, 2), (1, 1, 0), (0, 0, 0)])
    (P := fun s => decide (Spec.selected s ⟨97, 98⟩ = [Demo.btw (Demo.a 0) (Demo.b 1) 1,
      Demo.btw (Demo.a 1) (Demo.b 1) 0, Demo.btw (Demo.a 1) (Demo.b 1) 0] ∧
    s.nfg.count (Demo.edge (Demo.a 1) (Demo.b 1) 0) = 2 ∧
    (Spec.registered s ⟨97, 98⟩)[3]? = some (Demo.btw (Demo.a 0) (Demo.b 0) 0) ∧
    Spec.Agree s ⟨97, 98⟩ 3 0 ∧ Spec.Agree s ⟨97, 98⟩ 3 2)) (by decide +kernel)
  exact ⟨s, r, of_decide_eq_true h⟩

/-- Two robots with four poses each and closures between them. -/
def wanderings : List (Op Demo.Z Demo.Ns) :=
  [.update [some (.prior (Demo.a 0) (Demo.z 0)), Demo.edge (Demo.a 0) (Demo.a 1) 1]
      [Demo.pose (Demo.a 0) 0, Demo.pose (Demo.a 1) 1] true,
   .update [Demo.edge (Demo.a 1) (Demo.a 2) 1] [Demo.pose (Demo.a 2) 2] true,
   .update [Demo.edge (Demo.a 2) (Demo.a 3) 1] [Demo.pose (Demo.a 3) 3] true,
   .update [Demo.edge (Demo.b 0) (Demo.b 1) 1] [Demo.pose (Demo.b 0) 0, Demo.pose (Demo.b 1) 1] true,
   .update [Demo.edge (Demo.b 1) (Demo.b 2) 1] [Demo.pose (Demo.b 2) 2] true,
   .update [Demo.edge (Demo.b 2) (Demo.b 3) 1] [Demo.pose (Demo.b 3) 3] true,
   .update [Demo.edge (Demo.a 2) (Demo.b 2) 3, Demo.edge (Demo.a 0) (Demo.b 1) 5, Demo.edge (Demo.a 3) (Demo.b 0) 3,
     Demo.edge (Demo.a 0) (Demo.b 0) 0, Demo.edge (Demo.a 2) (Demo.b 3) 2] [] true]

/-- Run calls, then one more call, and compare the two states. -/
theorem runs_compare {cfg : Cfg G T N} {env : Env G N} {ops : List (Op G N)} {op : Op G N} {P : St G T N → St G T N → Bool}
    (h : Demo.runs cfg env ops (fun s => Demo.runFrom cfg env [op] s |>.any (P s)) = true) :
    ∃ s s', ReachOk cfg env ops s ∧ ReachOk cfg env (ops ++ [op]) s' ∧ P s s' = true := by
  obtain ⟨s, r, h⟩ := Demo.runs_reach h
  cases e : Demo.runFrom cfg env [op] s with
  | none => rw [e] at h; cases h
  | some s' => rw [e] at h; exact ⟨s, s', r, Demo.runFrom_reach r e, h⟩

set_option maxRecDepth 100000 in
/-- C64 is false in general, and so is the claim of C07 when all closures are reconsidered after each update: one more
closure lowers the number of accepted closures from four to three, although the four are still in the matrix. -/
theorem C64_false_fewer : ∃ s s', ReachOk Demo.cfg Demo.env wanderings s ∧
    ReachOk Demo.cfg Demo.env (wanderings ++ [.update [Demo.edge (Demo.a 3) (Demo.b 3) 7] [] true]) s' ∧
    (Spec.selected s ⟨97, 98⟩).length = 4 ∧ (Spec.selected s' ⟨97, 98⟩).length = 3 ∧
    (s.nfg.length, s'.nfg.length) = (11, 10) := by
  obtain ⟨s, s', r, r', h⟩ := runs_compare (cfg := Demo.cfg) (env := Demo.env) (ops := wanderings)
    (op := .update [Demo.edge (Demo.a 3) (Demo.b 3) 7] [] true)
    (P := fun s s' => decide ((Spec.selected s ⟨97, 98⟩).length = 4 ∧ (Spec.selected s' ⟨97, 98⟩).length = 3 ∧
      (s.nfg.length, s'.nfg.length) = (11, 10))) (by decide +kernel)
  exact ⟨s, s', r, r', of_decide_eq_true h⟩

end RPGO.Props
