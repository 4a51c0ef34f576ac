import Verif.Model.Trajectories
import Verif.Proofs.Basic
import Mathlib.Data.List.Induction
import Mathlib.Data.List.Basic
/-
Property theorems C63: the trajectory files written by GenerateTrajectories.
-/

namespace RPGO.Trajectories
variable {G R : Type}

theorem charVal_inj (signed : Bool) {a b : Chr} (h : charVal signed a = charVal signed b) : a = b := by
  cases signed
  · simp only [charVal, Bool.false_eq_true, if_false] at h
    exact BitVec.eq_of_toNat_eq (by omega)
  · simp only [charVal, if_true] at h
    exact BitVec.eq_of_toInt_eq h

/-- Entries ascending by character. -/
def Asc (signed : Bool) (m : List (Chr × Vals G)) : Prop :=
  m.Pairwise (fun a b => charVal signed a.1 < charVal signed b.1)

theorem mem_upd (signed : Bool) {m : List (Chr × Vals G)} (hm : Asc signed m) (c : Chr) (f : Vals G → Vals G)
    (e : Chr × Vals G) :
    e ∈ upd signed m c f ↔ (e ∈ m ∧ e.1 ≠ c) ∨ (e.1 = c ∧ ((∃ v, (c, v) ∈ m ∧ e.2 = f v) ∨
      ((∀ v, (c, v) ∉ m) ∧ e.2 = f []))) := by
  induction m with
  | nil => simp [upd, Prod.ext_iff]
  | cons e0 t ih =>
    obtain ⟨c0, v0⟩ := e0
    obtain ⟨h1, h2⟩ := List.pairwise_cons.1 hm
    unfold upd
    have hlater : ∀ v, (c0, v) ∉ t := fun v hv => by have := h1 _ hv; simp at this
    by_cases hc : c0 = c
    · subst hc
      rw [if_pos rfl, List.mem_cons]
      constructor
      · rintro (rfl | h)
        · exact Or.inr ⟨rfl, Or.inl ⟨v0, by simp, rfl⟩⟩
        · exact Or.inl ⟨by simp [h], fun he => hlater e.2 (by rw [← he]; exact h)⟩
      · rintro (⟨h, hne⟩ | ⟨h, ⟨v, hv, he⟩ | ⟨hn, _⟩⟩)
        · rcases List.mem_cons.1 h with h | h
          · exact absurd (by rw [h]) hne
          · exact Or.inr h
        · rcases List.mem_cons.1 hv with h' | h'
          · obtain rfl : v = v0 := by simpa using h'
            exact Or.inl (Prod.ext h he)
          · exact absurd h' (hlater v)
        · exact absurd (by simp) (hn v0)
    · rw [if_neg hc]
      by_cases hlt : charVal signed c < charVal signed c0
      · rw [if_pos hlt]
        have hno : ∀ v, (c, v) ∉ (c0, v0) :: t := by
          intro v hv
          rcases List.mem_cons.1 hv with h | h
          · simp at h; exact hc h.1.symm
          · have := h1 _ h; simp at this; omega
        rw [List.mem_cons]
        constructor
        · rintro (rfl | h)
          · exact Or.inr ⟨rfl, Or.inr ⟨hno, rfl⟩⟩
          · exact Or.inl ⟨h, fun he => hno e.2 (by rw [← he]; exact h)⟩
        · rintro (⟨h, _⟩ | ⟨h, ⟨v, hv, _⟩ | ⟨_, he⟩⟩)
          · exact Or.inr h
          · exact absurd hv (hno v)
          · exact Or.inl (Prod.ext h he)
      · rw [if_neg hlt, List.mem_cons, ih h2, List.mem_cons]
        have hcv : ∀ v, (c, v) ∈ (c0, v0) :: t ↔ (c, v) ∈ t := by
          intro v
          simp [Ne.symm hc]
        simp only [hcv]
        constructor
        · rintro (rfl | h | h)
          · exact Or.inl ⟨Or.inl rfl, hc⟩
          · exact Or.inl ⟨Or.inr h.1, h.2⟩
          · exact Or.inr h
        · rintro (⟨h | h, hne⟩ | h)
          · exact Or.inl h
          · exact Or.inr (Or.inl ⟨h, hne⟩)
          · exact Or.inr (Or.inr h)

theorem upd_asc (signed : Bool) {m : List (Chr × Vals G)} (hm : Asc signed m) (c : Chr) (f : Vals G → Vals G) :
    Asc signed (upd signed m c f) := by
  induction m with
  | nil => simp [upd, Asc]
  | cons e0 t ih =>
    obtain ⟨c0, v0⟩ := e0
    obtain ⟨h1, h2⟩ := List.pairwise_cons.1 hm
    unfold upd
    by_cases hc : c0 = c
    · rw [if_pos hc]
      exact List.pairwise_cons.2 ⟨h1, h2⟩
    · rw [if_neg hc]
      by_cases hlt : charVal signed c < charVal signed c0
      · rw [if_pos hlt]
        refine List.pairwise_cons.2 ⟨?_, hm⟩
        intro e he
        rcases List.mem_cons.1 he with h | h
        · rw [h]; exact hlt
        · have := h1 e h; simp at this ⊢; omega
      · rw [if_neg hlt]
        refine List.pairwise_cons.2 ⟨?_, ih h2⟩
        intro e he
        rcases (mem_upd signed h2 c f e).1 he with h | h
        · exact h1 e h.1
        · simp only [h.1]
          have : charVal signed c0 ≠ charVal signed c := fun h => hc (charVal_inj signed h)
          omega

/-- Inserting a key above all others. -/
theorem set_last {V : Type} (m : KMap V) (k : Key) (v : V) (h : ∀ e ∈ m, e.1.toNat < k.toNat) :
    m.set k v = m ++ [(k, v)] := by
  induction m with
  | nil => rfl
  | cons e t ih =>
    obtain ⟨k0, v0⟩ := e
    have h0 := h (k0, v0) (by simp)
    simp only at h0
    unfold KMap.set
    rw [if_neg (by intro e; rw [e] at h0; omega), if_neg (by omega), ih (fun e he => h e (by simp [he]))]
    rfl

/-- The values of one robot. -/
def ofRobot (all : Vals G) (c : Chr) : Vals G := all.filter (fun e => decide (chr e.1 = c))

theorem split_spec (signed : Bool) (all : Vals G) (hs : KMap.Sorted all) :
    Asc signed (split signed all) ∧
      ∀ e, e ∈ split signed all ↔ e.2 = ofRobot all e.1 ∧ ∃ k ∈ KMap.keys all, chr k = e.1 := by
  unfold split
  induction all using List.reverseRecOn with
  | nil => simp [Asc, KMap.keys]
  | append_singleton l a ih =>
    obtain ⟨k, v⟩ := a
    have hs' : KMap.Sorted l := by
      unfold KMap.Sorted KMap.keys at hs ⊢
      rw [List.map_append] at hs
      exact (List.pairwise_append.1 hs).1
    have hlast : ∀ e ∈ l, e.1.toNat < k.toNat := by
      intro e he
      unfold KMap.Sorted KMap.keys at hs
      rw [List.map_append] at hs
      exact (List.pairwise_append.1 hs).2.2 e.1 (List.mem_map_of_mem he) k (by simp)
    obtain ⟨h1, h2⟩ := ih hs'
    rw [List.foldl_append, List.foldl_cons, List.foldl_nil]
    generalize List.foldl (fun m e => upd signed m (chr e.1) (fun t => t.set e.1 e.2)) [] l = m at h1 h2
    refine ⟨upd_asc signed h1 _ _, ?_⟩
    intro e
    rw [mem_upd signed h1]
    have hof : ∀ c, ofRobot (l ++ [(k, v)]) c = ofRobot l c ++ if chr k = c then [(k, v)] else [] := by
      intro c
      unfold ofRobot
      rw [List.filter_append]
      by_cases h : chr k = c <;> simp [h]
    have hset : ∀ c, (ofRobot l c).set k v = ofRobot l c ++ [(k, v)] :=
      fun c => set_last _ k v (fun e he => hlast e (List.mem_of_mem_filter he))
    have hkeys : ∀ c, (∃ x ∈ KMap.keys (l ++ [(k, v)]), chr x = c) ↔ (∃ x ∈ KMap.keys l, chr x = c) ∨ chr k = c := by
      intro c
      simp only [KMap.keys, List.map_append, List.map_cons, List.map_nil, List.mem_append, List.mem_singleton]
      constructor
      · rintro ⟨x, h | rfl, h'⟩
        · exact Or.inl ⟨x, h, h'⟩
        · exact Or.inr h'
      · rintro (⟨x, h, h'⟩ | h)
        · exact ⟨x, Or.inl h, h'⟩
        · exact ⟨k, Or.inr rfl, h⟩
    rw [hof, hkeys]
    constructor
    · rintro (⟨he, hne⟩ | ⟨he, ⟨t, ht, he2⟩ | ⟨hn, he2⟩⟩)
      · obtain ⟨a, b⟩ := (h2 e).1 he
        rw [if_neg (fun h => hne h.symm), List.append_nil]
        exact ⟨a, Or.inl b⟩
      · obtain ⟨a, b⟩ := (h2 _).1 ht
        simp only at a
        rw [if_pos he.symm, he2, a, hset, he]
        exact ⟨rfl, Or.inr rfl⟩
      · rw [if_pos he.symm, he2, he]
        refine ⟨?_, Or.inr rfl⟩
        have hnil : ofRobot l (chr k) = [] := by
          apply List.eq_nil_iff_forall_not_mem.2
          intro x hx
          have hx1 := List.mem_of_mem_filter hx
          have hx2 := List.of_mem_filter hx
          simp only [decide_eq_true_eq] at hx2
          exact hn _ ((h2 (chr k, ofRobot l (chr k))).2 ⟨rfl, x.1, List.mem_map_of_mem hx1, hx2⟩)
        rw [hnil]; rfl
    · rintro ⟨he2, hk⟩
      by_cases he : e.1 = chr k
      · refine Or.inr ⟨he, ?_⟩
        rw [if_pos he.symm, he] at he2
        by_cases hx : ∃ x ∈ KMap.keys l, chr x = chr k
        · refine Or.inl ⟨ofRobot l (chr k), (h2 _).2 ⟨rfl, hx⟩, ?_⟩
          rw [he2, hset]
        · refine Or.inr ⟨fun t ht => hx ((h2 _).1 ht).2, ?_⟩
          have hnil : ofRobot l (chr k) = [] := by
            apply List.eq_nil_iff_forall_not_mem.2
            intro x hx'
            have hx1 := List.mem_of_mem_filter hx'
            have hx2 := List.of_mem_filter hx'
            simp only [decide_eq_true_eq] at hx2
            exact hx ⟨x.1, List.mem_map_of_mem hx1, hx2⟩
          rw [he2, hnil]; rfl
      · rw [if_neg (fun h => he h.symm), List.append_nil] at he2
        refine Or.inl ⟨(h2 e).2 ⟨he2, ?_⟩, he⟩
        rcases hk with h | h
        · exact h
        · exact absurd h.symm he

/-- The rows of the poses among the values. -/
def rowsOf (row : G → R) (vs : Vals G) : List R :=
  vs.filterMap (fun e => match e.2 with | .pose x => some (row x) | .other _ => none)

/-- Every value is a pose. -/
def AllPoses (vs : Vals G) : Prop := ∀ e ∈ vs, ∃ x, e.2 = .pose x

theorem putRow_snoc (r : R) (d : Files R) (c : Chr) (rs : List R) :
    putRow r (d ++ [(c, rs)]) = d ++ [(c, rs ++ [r])] := by
  simp [putRow]

theorem writeRows_spec (row : G → R) (vs : Vals G) : ∀ (d : Files R) (c : Chr) (rs : List R),
    (AllPoses vs → writeRows row vs (d ++ [(c, rs)]) = .ok (d ++ [(c, rs ++ rowsOf row vs)]) ()) ∧
    (¬ AllPoses vs → ∃ d', writeRows row vs (d ++ [(c, rs)]) = .throw d' .wrongType) := by
  induction vs with
  | nil =>
    intro d c rs
    refine ⟨fun _ => by simp [writeRows, rowsOf], fun h => absurd (by simp [AllPoses]) h⟩
  | cons e t ih =>
    intro d c rs
    obtain ⟨k, v⟩ := e
    cases v with
    | pose x =>
      have hall : AllPoses ((k, Val.pose x) :: t) ↔ AllPoses t := by simp [AllPoses]
      rw [hall]
      have hstep : writeRows row ((k, Val.pose x) :: t) (d ++ [(c, rs)]) = writeRows row t (d ++ [(c, rs ++ [row x])]) := by
        rw [writeRows, M.bind_ok (M.modify_apply _ _), putRow_snoc]
      rw [hstep]
      obtain ⟨h1, h2⟩ := ih d c (rs ++ [row x])
      refine ⟨fun h => ?_, h2⟩
      rw [h1 h]
      simp [rowsOf]
    | other tag =>
      refine ⟨fun h => ?_, fun _ => ⟨_, rfl⟩⟩
      obtain ⟨x, hx⟩ := h (k, .other tag) (by simp)
      simp at hx

theorem writeAll_spec (row : G → R) (m : List (Chr × Vals G)) : ∀ (d : Files R),
    ((∀ e ∈ m, AllPoses e.2) →
      M.forEach (writeRobot row) m d = .ok (d ++ m.map (fun e => (e.1, rowsOf row e.2))) ()) ∧
    (¬ (∀ e ∈ m, AllPoses e.2) → ∃ d', M.forEach (writeRobot row) m d = .throw d' .wrongType) := by
  induction m with
  | nil => intro d; exact ⟨fun _ => by simp [M.forEach], fun h => absurd (by simp) h⟩
  | cons e t ih =>
    intro d
    have hrob : writeRobot row e d = writeRows row e.2 (d ++ [(e.1, [])]) := by
      rw [writeRobot, M.bind_ok (M.modify_apply _ _)]
    obtain ⟨h1, h2⟩ := writeRows_spec row e.2 d e.1 []
    obtain ⟨h3, h4⟩ := ih (d ++ [(e.1, rowsOf row e.2)])
    refine ⟨fun h => ?_, fun h => ?_⟩
    · have hw := h1 (h e (by simp))
      rw [← hrob] at hw
      rw [M.forEach, M.bind_ok hw, List.nil_append, h3 (fun x hx => h x (by simp [hx]))]
      simp
    · by_cases he : AllPoses e.2
      · have hw := h1 he
        rw [← hrob] at hw
        rw [M.forEach, M.bind_ok hw, List.nil_append]
        refine h4 (fun hall => h ?_)
        intro x hx
        rcases List.mem_cons.1 hx with rfl | hx
        · exact he
        · exact hall x hx
      · obtain ⟨d', hw⟩ := h2 he
        rw [← hrob] at hw
        exact ⟨d', by rw [M.forEach, M.bind_throw hw]⟩

end RPGO.Trajectories

namespace RPGO.Props
open RPGO Trajectories
variable {G R : Type}

/-- C63. If every vertex is a 3D pose, the program ends normally. There is a file for a robot exactly if a vertex
carries its character, never two for the same robot, and its rows are the poses of exactly the robot's vertices,
each once, by ascending key.
Missing: vertices that are not 3D poses, for which it is false, see `C63_false_landmark`. -/
theorem C63_files_partial (signed : Bool) (row : G → R) (all : Vals G) (hs : KMap.Sorted all)
    (hp : ∀ e ∈ all, ∃ x, e.2 = .pose x) :
    ∃ files, Trajectories.main signed row all = .ok files () ∧ (files.map Prod.fst).Nodup ∧
      ∀ c rows, (c, rows) ∈ files ↔ (∃ k ∈ KMap.keys all, chr k = c) ∧
        rows.map some = (all.filter (fun e => decide (chr e.1 = c))).map
          (fun e => match e.2 with | .pose x => some (row x) | .other _ => none) := by
  obtain ⟨ha, hm⟩ := split_spec signed all hs
  have hall : ∀ e ∈ split signed all, AllPoses e.2 := by
    intro e he x hx
    rw [((hm e).1 he).1] at hx
    exact hp x (List.mem_of_mem_filter hx)
  have hrows : ∀ vs : Vals G, AllPoses vs → (rowsOf row vs).map some = vs.map
      (fun e => match e.2 with | .pose x => some (row x) | .other _ => none) := by
    intro vs
    induction vs with
    | nil => intro _; rfl
    | cons e t ih =>
      intro h
      obtain ⟨x, hx⟩ := h e (by simp)
      have := ih (fun y hy => h y (by simp [hy]))
      simp only [rowsOf] at this
      simp only [rowsOf, List.filterMap_cons, List.map_cons, hx, this]
  refine ⟨_, (writeAll_spec row _ []).1 hall, ?_, ?_⟩
  · rw [List.nil_append, List.map_map]
    have : (split signed all).Pairwise (fun a b => a.1 ≠ b.1) :=
      ha.imp (fun h e => by rw [e] at h; omega)
    exact List.pairwise_map.2 this
  · intro c rows
    rw [List.nil_append, List.mem_map]
    constructor
    · rintro ⟨e, he, hq⟩
      obtain ⟨rfl, rfl⟩ := Prod.mk.inj hq
      obtain ⟨h1, h2⟩ := (hm e).1 he
      refine ⟨h2, ?_⟩
      rw [hrows e.2 (hall e he), h1]; rfl
    · rintro ⟨h1, h2⟩
      have he : (c, ofRobot all c) ∈ split signed all := (hm _).2 ⟨rfl, h1⟩
      refine ⟨_, he, Prod.ext rfl ?_⟩
      have h3 := hrows _ (hall _ he)
      simp only at h3 ⊢
      have h4 : (rowsOf row (ofRobot all c)).map some = rows.map some := by rw [h3, h2]; rfl
      exact (List.map_injective_iff.2 (Option.some_injective R)) h4

/-- Example: two robots `a` and `b`, keys interleaved by index only. -/
def demoTraj : Vals Nat :=
  [(symKey 97 0, .pose 10), (symKey 97 5, .pose 15), (symKey 98 1, .pose 21), (symKey 98 2, .pose 22)]

example : KMap.Sorted demoTraj ∧ (∀ e ∈ demoTraj, ∃ x, e.2 = .pose x) ∧
    Trajectories.main true (fun x => x) demoTraj = .ok [(97, [10, 15]), (98, [21, 22])] () := by
  refine ⟨by unfold KMap.Sorted; decide +kernel, ?_, rfl⟩
  intro e he
  simp only [demoTraj, List.mem_cons, List.not_mem_nil, or_false] at he
  rcases he with rfl | rfl | rfl | rfl <;> exact ⟨_, rfl⟩

/-- C63. A vertex that is not a 3D pose, such as a landmark, ends the program with an exception. -/
theorem C63_throws_iff (signed : Bool) (row : G → R) (all : Vals G) (hs : KMap.Sorted all) :
    (∃ files, Trajectories.main signed row all = .throw files .wrongType) ↔ ∃ e ∈ all, ∃ tag, e.2 = .other tag := by
  obtain ⟨ha, hm⟩ := split_spec signed all hs
  constructor
  · rintro ⟨files, h⟩
    by_contra hn
    have hp : ∀ e ∈ all, ∃ x, e.2 = .pose x := by
      intro e he
      cases hv : e.2 with
      | pose x => exact ⟨x, rfl⟩
      | other tag => exact absurd ⟨e, he, tag, hv⟩ hn
    obtain ⟨files', h', _⟩ := C63_files_partial signed row all hs hp
    rw [h] at h'
    simp at h'
  · rintro ⟨e, he, tag, hv⟩
    refine (writeAll_spec row _ []).2 (fun h => ?_)
    have hin : (chr e.1, ofRobot all (chr e.1)) ∈ split signed all :=
      (hm _).2 ⟨rfl, e.1, List.mem_map_of_mem he, rfl⟩
    obtain ⟨x, hx⟩ := h _ hin e (List.mem_filter.2 ⟨he, by simp⟩)
    rw [hv] at hx
    simp at hx

/-- C63 is false for files with landmarks: already written files stay, the file of the robot of the landmark is
incomplete and later robots have none. -/
theorem C63_false_landmark :
    Trajectories.main true (fun x : Nat => x)
      [(symKey 97 0, .pose 10), (symKey 98 1, .pose 21), (symKey 98 2, .other 0), (symKey 98 3, .pose 23),
       (symKey 99 0, .pose 30)]
      = .throw [(97, [10]), (98, [21])] .wrongType := rfl

end RPGO.Props
