import Verif.Proofs.Values
import Verif.Props.Graph
/-
A solver without outlier rejection; factors removed by position; every factor was supplied.
-/

namespace RPGO
variable {G T N : Type}

/-! ### Nulling factors -/

theorem nulled_nil (l : Graph G N) : Spec.nulled l [] = l := by
  unfold Spec.nulled
  simp only [List.not_mem_nil, if_false]
  exact List.ext_getElem (by simp) fun n h1 h2 => by simp

theorem nulled_length (l : Graph G N) (is : List Nat) : (Spec.nulled l is).length = l.length := by
  unfold Spec.nulled; simp

theorem nulled_cons (l : Graph G N) (i : Nat) (is : List Nat) : Spec.nulled l (i :: is) = Spec.nulled (l.set i none) is := by
  unfold Spec.nulled
  apply List.ext_getElem
  · simp
  · intro n h1 h2
    simp only [List.getElem_mapIdx, List.mem_cons, List.getElem_set]
    by_cases e : i = n
    · subst e; simp
    · have : n ≠ i := fun h => e h.symm
      simp [e, this]

theorem nulled_mem {l : Graph G N} {is : List Nat} {f : Option (Factor G N)} (h : f ∈ Spec.nulled l is) :
    f ∈ l ∨ f = none := by
  unfold Spec.nulled at h
  rw [List.mem_mapIdx] at h
  obtain ⟨i, hi, e⟩ := h
  split at e
  · exact Or.inr e.symm
  · exact Or.inl (e ▸ List.getElem_mem hi)

/-- Removing by position nulls exactly these positions, if all of them exist. -/
theorem removeFactors_eq (is : List Nat) (s : St G T N) :
    ((∀ i ∈ is, i < s.nfg.length) → removeFactors is s = .ok { s with nfg := Spec.nulled s.nfg is } ()) ∧
    ((∃ i ∈ is, s.nfg.length ≤ i) → ∃ is' i is'', is = is' ++ i :: is'' ∧ (∀ j ∈ is', j < s.nfg.length) ∧
      s.nfg.length ≤ i ∧ removeFactors is s = .throw { s with nfg := Spec.nulled s.nfg is' } .outOfRange) := by
  induction is generalizing s with
  | nil => exact ⟨fun _ => by rw [nulled_nil]; rfl, by simp⟩
  | cons i is ih =>
    unfold removeFactors
    by_cases hi : i < s.nfg.length
    · rw [if_pos hi]
      obtain ⟨h1, h2⟩ := ih { s with nfg := s.nfg.set i none }
      refine ⟨fun h => ?_, ?_⟩
      · rw [h1 fun j hj => by simpa using h j (by simp [hj]), nulled_cons]
      · rintro ⟨j, hj, hle⟩
        rcases List.mem_cons.1 hj with rfl | hj
        · omega
        · obtain ⟨a, b, c, e, g1, g2, g3⟩ := h2 ⟨j, hj, by simpa using hle⟩
          refine ⟨i :: a, b, c, by rw [e]; rfl, ?_, by simpa using g2, ?_⟩
          · intro x hx
            rcases List.mem_cons.1 hx with rfl | hx
            · exact hi
            · simpa using g1 x hx
          · rw [g3, nulled_cons]
    · rw [if_neg hi]
      refine ⟨fun h => absurd (h i (by simp)) hi, fun _ => ⟨[], i, is, rfl, by simp, by omega, ?_⟩⟩
      rw [nulled_nil]

theorem removeFactors_cases (is : List Nat) (s : St G T N) :
    ((∀ i ∈ is, i < s.nfg.length) ∧ removeFactors is s = .ok { s with nfg := Spec.nulled s.nfg is } ()) ∨
    ∃ is', removeFactors is s = .throw { s with nfg := Spec.nulled s.nfg is' } .outOfRange := by
  obtain ⟨h1, h2⟩ := removeFactors_eq is s
  by_cases h : ∀ i ∈ is, i < s.nfg.length
  · exact Or.inl ⟨h, h1 h⟩
  · right
    have : ∃ i ∈ is, s.nfg.length ≤ i := by
      apply Classical.byContradiction
      intro hn
      apply h
      intro i hi
      apply Classical.byContradiction
      intro hlt
      exact hn ⟨i, hi, by omega⟩
    obtain ⟨a, _, _, _, _, _, e⟩ := h2 this
    exact ⟨a, e⟩

variable [Mul G] [Inv G] [One G]

/-! ### A solver without outlier rejection -/

/-- What a call may do to a solver without outlier rejection. -/
structure PlainFrame (op : Op G N) (s s' : St G T N) : Prop where
  pcm : s'.pcm = s.pcm
  latest : s'.latest = s.latest ∨ s'.latest = s.pcm.totalLc
  nfg : ∀ f ∈ s'.nfg, f ∈ s.nfg ∨ f = none ∨ f ∈ Spec.opFactors op

/-- Postcondition of a part of a call: the frame, and the expected list on normal return. -/
def PlainEnds {α : Type} (op : Op G N) (s : St G T N) (l : Graph G N) (o : Out (St G T N) α) : Prop :=
  M.Ends (PlainFrame op s) o ∧ ∀ s' a, o = .ok s' a → s'.nfg = l

theorem PlainFrame.opt {op : Op G N} {s s1 s2 : St G T N} (h : PlainFrame op s s1) (hf : OptFrame s1 s2) :
    PlainFrame op s s2 :=
  ⟨hf.pcm.trans h.pcm, by
    rcases hf.latest with e | e
    · rw [e]; exact h.latest
    · right; rw [e, h.pcm], by rw [hf.nfg]; exact h.nfg⟩

theorem PlainFrame.refl (op : Op G N) (s : St G T N) : PlainFrame op s s := ⟨rfl, Or.inl rfl, fun _ h => Or.inl h⟩

theorem PlainEnds.then {α β : Type} {op : Op G N} {s s0 : St G T N} {l : Graph G N} {m : M (St G T N) α} {f : α → M (St G T N) β}
    (h : PlainEnds op s l (m s0)) (hf : ∀ a, M.Pres OptFrame (f a)) : PlainEnds op s l (M.bind m f s0) := by
  refine ⟨ends_bind h.1 (fun _ h => h) fun s' a _ hs => M.Ends.mono (fun _ hx => hs.opt hx) (hf a s'), ?_⟩
  intro s' a e
  obtain ⟨s1, a1, e1, e2⟩ := M.bind_eq_ok.1 e
  rw [((hf a1).of_ok e2).nfg]
  exact h.2 _ _ e1

theorem PlainEnds.ret {α β : Type} {op : Op G N} {s : St G T N} {l : Graph G N} {m : M (St G T N) α} {f : α → β}
    (h : PlainEnds op s l (m s)) : PlainEnds op s l (m.ret f s) := h.then fun _ => M.Pres.pure OptFrame.refl _

theorem PlainEnds.frame {α : Type} {op : Op G N} {s : St G T N} {m : M (St G T N) α} (h : M.Pres OptFrame m) :
    PlainEnds op s s.nfg (m s) :=
  ⟨M.Ends.mono (fun _ hx => (PlainFrame.refl op s).opt hx) (h s), fun _ _ e => (h.of_ok e).nfg⟩

theorem addAndCheck_plain {op : Op G N} {fs : Graph G N} (vs : Vals G) (hop : ∀ f ∈ fs, f ∈ Spec.opFactors op)
    {s s1 : St G T N} (h : PlainFrame op s s1) :
    PlainEnds op s (s1.nfg ++ fs) (addAndCheck fs vs s1) := by
  have base : ∀ v, PlainFrame op s { s1 with nfg := s1.nfg ++ fs, values := v } := fun v =>
    ⟨h.pcm, h.latest, fun f hf => by
      rcases List.mem_append.1 hf with hf | hf
      · exact h.nfg f hf
      · exact Or.inr (Or.inr (hop f hf))⟩
  unfold addAndCheck
  simp only [M.bind_eq]
  rw [M.bind_ok (M.modify_apply _ _), M.bind_apply]
  unfold onValues M.zoom
  simp only
  cases insertVals vs s1.values with
  | ub u => exact ⟨trivial, fun _ _ e => by cases e⟩
  | throw v _ => exact ⟨base v, fun _ _ e => by cases e⟩
  | ok v _ =>
    simp only
    split
    · exact ⟨base v, fun _ _ e => by cases e; rfl⟩
    · exact ⟨trivial, fun _ _ e => by cases e⟩
    · exact ⟨base v, fun _ _ e => by cases e; rfl⟩
    · exact ⟨base v, fun _ _ e => by cases e; rfl⟩

theorem removeLastFactor_plain (op : Op G N) (s : St G T N) : PlainEnds op s s.nfg.dropLast (removeLastFactor s) := by
  unfold removeLastFactor
  split
  · exact ⟨PlainFrame.refl _ _, fun _ _ e => by cases e⟩
  · exact ⟨trivial, fun _ _ e => by cases e⟩
  · split
    · exact ⟨⟨rfl, Or.inl rfl, fun f hf => Or.inl (List.dropLast_subset _ hf)⟩, fun _ _ e => by cases e; rfl⟩
    · exact ⟨trivial, fun _ _ e => by cases e⟩

theorem removeFactors_plain (op : Op G N) (is : List Nat) (s : St G T N) :
    PlainEnds op s (Spec.nulled s.nfg is) (removeFactors is s) := by
  have fr : ∀ is', PlainFrame op s { s with nfg := Spec.nulled s.nfg is' } := fun is' =>
    ⟨rfl, Or.inl rfl, fun f hf => (nulled_mem hf).imp id Or.inl⟩
  rcases removeFactors_cases is s with ⟨_, e⟩ | ⟨is', e⟩
  · rw [e]; exact ⟨fr is, fun _ _ e => by cases e; rfl⟩
  · rw [e]; exact ⟨fr is', fun _ _ e => by cases e⟩

theorem dropPriors_eq (cfg : Cfg G T N) (c : Chr) (l : Graph G N) :
    (l.filter fun f =>
      match f with
      | some (.prior k _) => !isPriorOf cfg.charSigned c k
      | some (.priorAlt k _) => !isPriorOf cfg.charSigned c k
      | _ => true) = Spec.dropPriors cfg.charSigned c l := by
  unfold Spec.dropPriors
  congr 1
  funext f
  cases f with
  | none => rfl
  | some f => cases f <;> simp [isPriorOf_hit]

theorem removePriorsGeneric_plain (cfg : Cfg G T N) (op : Op G N) (c : Chr) (s : St G T N) :
    PlainEnds op s (Spec.dropPriors cfg.charSigned c s.nfg) (removePriorsGeneric cfg c s) := by
  refine ⟨⟨rfl, Or.inl rfl, fun f hf => Or.inl (List.mem_of_mem_filter hf)⟩, ?_⟩
  intro s' a e
  cases e
  exact dropPriors_eq cfg c s.nfg

theorem generic_tail (env : Env G N) (rm : List Nat) (x : Bool) :
    M.Pres OptFrame ((if x || decide (rm.length > 0) then M.bind M.get fun s =>
          match mergeVals s.values s.tempValues with
          | none => M.raise Exn.keyExists
          | some full =>
            match env.opt (s.nfg ++ s.tempNfg) full with
            | none => M.raise Exn.optimizer
            | some result => applyResult result
        else M.pure () : M (St G T N) Unit)) := by
  split
  · refine M.Pres.bind OptFrame.trans (M.Pres.get OptFrame.refl) fun s => ?_
    split
    · exact M.Pres.raise OptFrame.refl _
    · split
      · exact M.Pres.raise OptFrame.refl _
      · exact applyResult_frame _
  · exact M.Pres.pure OptFrame.refl _

theorem genericUpdate_plain (env : Env G N) (fs : Graph G N) (vs : Vals G) (rm : List Nat) (s : St G T N) :
    PlainEnds (.genericUpdate fs vs rm) s (Spec.nulled s.nfg rm ++ fs) (genericUpdate env fs vs rm s) := by
  unfold genericUpdate
  simp only [M.bind_eq]
  rcases removeFactors_cases rm s with ⟨_, e⟩ | ⟨is', e⟩
  · rw [M.bind_ok e]
    refine PlainEnds.then (addAndCheck_plain (op := .genericUpdate fs vs rm) (fs := fs) vs (fun f hf => hf) ?_) (generic_tail env rm)
    exact ⟨rfl, Or.inl rfl, fun f hf => (nulled_mem hf).imp id Or.inl⟩
  · rw [M.bind_throw e]
    exact ⟨⟨rfl, Or.inl rfl, fun f hf => (nulled_mem hf).imp id Or.inl⟩, fun _ _ e => by cases e⟩

theorem tempUpdate_plain {cfg : Cfg G T N} {env : Env G N} (op : Op G N) (fs : Graph G N) (vs : Vals G) (s : St G T N) :
    PlainEnds op s s.nfg (exec cfg env (.tempUpdate fs vs) s) := by
  show PlainEnds op s s.nfg
      (((M.zoom (fun s => s.tempValues) (fun v s => { s with tempValues := v }) (insertVals vs) : M (St G T N) Unit).ret
        fun _ => Ret.unit) { s with tempNfg := s.tempNfg ++ fs })
  unfold M.ret
  rw [M.bind_apply]
  unfold M.zoom
  simp only
  cases insertVals vs s.tempValues with
  | ub u => exact ⟨trivial, fun _ _ e => by cases e⟩
  | ok v _ => exact ⟨⟨rfl, Or.inl rfl, fun f hf => Or.inl hf⟩, fun _ _ e => by cases e; rfl⟩
  | throw v _ => exact ⟨⟨rfl, Or.inl rfl, fun f hf => Or.inl hf⟩, fun _ _ e => by cases e⟩

theorem getNumLC_frame (cfg : Cfg G T N) : M.Pres OptFrame (getNumLC cfg) := by
  intro s; unfold getNumLC; split; exact OptFrame.refl s; trivial
theorem getNumLCInliers_frame (cfg : Cfg G T N) : M.Pres OptFrame (getNumLCInliers cfg) := by
  intro s; unfold getNumLCInliers; split; exact OptFrame.refl s; split; exact OptFrame.refl s; trivial
theorem saveData_frame : M.Pres OptFrame (saveData : M (St G T N) Unit) := by
  intro s; unfold saveData; split <;> exact OptFrame.refl s

/-- Every call on a solver without outlier rejection. -/
theorem exec_plain (cfg : Cfg G T N) (env : Env G N) (hr : cfg.rejection = false) (op : Op G N) (s : St G T N) :
    PlainEnds op s (Spec.plainStep cfg s.nfg op) (exec cfg env op s) := by
  have hc : ∀ {α : Type} (m1 m2 : M (St G T N) α), M.cond cfg.rejection m1 m2 = m2 := fun m1 m2 => by
    unfold M.cond; rw [if_neg (by simp [hr])]
  have hw : ∀ (m : M (St G T N) Unit), M.when cfg.rejection m = M.pure () := fun m => by
    unfold M.when; rw [if_neg (by simp [hr])]
  have hopt := optimize_frame cfg env
  have hlog := logStatus_frame cfg
  have triv : ∀ s' : St G T N, s'.pcm = s.pcm → s'.latest = s.latest → s'.nfg = s.nfg → PlainFrame op s s' :=
    fun s' h1 h2 h3 => ⟨h1, Or.inl h2, fun f hf => Or.inl (by rw [← h3]; exact hf)⟩
  cases op with
  | update fs vs o =>
    refine PlainEnds.ret ?_
    unfold update
    rw [hc]
    exact PlainEnds.then (addAndCheck_plain vs (fun f hf => hf) (PlainFrame.refl _ s)) fun _ =>
      M.Pres.bind OptFrame.trans (M.Pres.when OptFrame.refl hopt) fun _ => M.Pres.when OptFrame.refl hlog
  | forceUpdate fs vs =>
    refine PlainEnds.ret ?_
    unfold forceUpdate
    rw [hc]
    exact PlainEnds.then (addAndCheck_plain vs (fun f hf => hf) (PlainFrame.refl _ s)) fun _ =>
      M.Pres.bind OptFrame.trans hopt fun _ => M.Pres.when OptFrame.refl hlog
  | removePriors c o =>
    refine PlainEnds.ret ?_
    unfold removePriors
    rw [hc]
    exact PlainEnds.then (removePriorsGeneric_plain cfg _ c s) fun _ => M.Pres.when OptFrame.refl hopt
  | removeLastPair a b =>
    refine PlainEnds.ret ?_
    unfold removeLastLC2
    rw [hc]
    exact PlainEnds.then (removeLastFactor_plain _ s) fun _ => M.Pres.bind OptFrame.trans hopt fun _ => M.Pres.pure OptFrame.refl _
  | removeLast =>
    refine PlainEnds.ret ?_
    unfold removeLastLC
    rw [hc]
    exact PlainEnds.then (removeLastFactor_plain _ s) fun _ => M.Pres.bind OptFrame.trans hopt fun _ => M.Pres.pure OptFrame.refl _
  | ignore c =>
    refine PlainEnds.ret ?_
    unfold ignorePrefix
    rw [hw]
    exact PlainEnds.frame (M.Pres.bind OptFrame.trans (M.Pres.pure OptFrame.refl _) fun _ => hopt)
  | revive c =>
    refine PlainEnds.ret ?_
    unfold revivePrefix
    rw [hw]
    exact PlainEnds.frame (M.Pres.bind OptFrame.trans (M.Pres.pure OptFrame.refl _) fun _ => hopt)
  | getNumLC => exact PlainEnds.ret (PlainEnds.frame (getNumLC_frame cfg))
  | getNumLCInliers => exact PlainEnds.ret (PlainEnds.frame (getNumLCInliers_frame cfg))
  | saveData => exact PlainEnds.ret (PlainEnds.frame saveData_frame)
  | removeFactors is => exact PlainEnds.ret (removeFactors_plain _ is s)
  | removeLastFactor => exact PlainEnds.ret (removeLastFactor_plain _ s)
  | removePriorsGeneric c => exact PlainEnds.ret (removePriorsGeneric_plain cfg _ c s)
  | updateValues vs => exact PlainEnds.ret (PlainEnds.frame (applyResult_frame vs))
  | genericUpdate fs vs rm => exact PlainEnds.ret (genericUpdate_plain env fs vs rm s)
  | tempUpdate fs vs => exact tempUpdate_plain _ fs vs s
  | tempReplace fs vs => exact ⟨triv _ rfl rfl rfl, fun _ _ e => by cases e; rfl⟩
  | tempClear => exact ⟨triv _ rfl rfl rfl, fun _ _ e => by cases e; rfl⟩

/-- A solver without outlier rejection never touches the outlier-rejection object. -/
theorem plain_state {cfg : Cfg G T N} {env : Env G N} (hr : cfg.rejection = false) {h : List (Op G N)} {s : St G T N}
    (r : Reach cfg env h s) : s.pcm = {} ∧ s.latest = 0 := by
  have step : ∀ {op : Op G N} {s s' : St G T N}, (s.pcm = {} ∧ s.latest = 0) → PlainFrame op s s' →
      (s'.pcm = {} ∧ s'.latest = 0) := by
    rintro op s s' ⟨h1, h2⟩ hf
    refine ⟨hf.pcm.trans h1, ?_⟩
    rcases hf.latest with e | e
    · rw [e, h2]
    · rw [e, h1]
  induction r with
  | init => exact ⟨rfl, rfl⟩
  | @ok _ s op _ _ _ e ih =>
    have := (exec_plain cfg env hr op s).1
    rw [e] at this
    exact step ih this
  | @throw _ s op _ _ _ e ih =>
    have := (exec_plain cfg env hr op s).1
    rw [e] at this
    exact step ih this

/-! ### Faults without outlier rejection -/

/-- The part of a call cannot fault. -/
def NoUB {α : Type} (o : Out (St G T N) α) : Prop := ∀ u, o ≠ .ub u

theorem NoUB.bind {α β : Type} {m : M (St G T N) α} {f : α → M (St G T N) β} {s : St G T N} (h : NoUB (m s))
    (hf : ∀ s' a, m s = .ok s' a → NoUB (f a s')) : NoUB (M.bind m f s) := by
  intro u e
  rw [M.bind_apply] at e
  cases hm : m s with
  | ok s' a => rw [hm] at e; exact hf s' a hm u e
  | throw s' x => rw [hm] at e; cases e
  | ub u' => exact h u' hm

theorem NoUB.ret {α β : Type} {m : M (St G T N) α} {f : α → β} {s : St G T N} (h : NoUB (m s)) : NoUB (m.ret f s) :=
  h.bind fun _ _ _ _ e => by cases e

theorem noUB_ok {α : Type} {s : St G T N} {a : α} : NoUB (.ok s a : Out (St G T N) α) := fun _ e => by cases e
theorem noUB_throw {α : Type} {s : St G T N} {x : Exn} : NoUB (.throw s x : Out (St G T N) α) := fun _ e => by cases e

theorem applyResult_noUB (vs : Vals G) (s : St G T N) : NoUB (applyResult vs s) := by
  induction vs generalizing s with
  | nil => exact noUB_ok
  | cons e t ih =>
    obtain ⟨k, v⟩ := e
    unfold applyResult
    split
    · split
      · exact ih _
      · exact noUB_throw
    · split
      · split
        · exact ih _
        · exact noUB_throw
      · exact ih _

theorem insertVals_noUB (vs : Vals G) (s : St G T N) : NoUB ((onValues (insertVals vs) : M (St G T N) Unit) s) := by
  intro u e
  unfold onValues M.zoom at e
  cases h : insertVals vs s.values with
  | ok v a => simp only [h] at e; cases e
  | throw v a => simp only [h] at e; cases e
  | ub u' => exact insertVals_not_ub _ _ _ h

/-- Optimization without GNC and without closure bookkeeping cannot fault. -/
theorem optimize_noUB {cfg : Cfg G T N} (env : Env G N) {s : St G T N} (hf : cfg.fixPrev = false)
    (hg : useGncNow cfg s = false) (hl : s.latest ≤ s.gncW.length) (hl' : s.latest ≤ s.nfg.length)
    (hd : cfg.rejection = true ∨ cfg.lm = false ∨ cfg.debug = false) : NoUB (optimize cfg env s) := by
  unfold optimize
  simp only [M.bind_eq]
  rw [M.bind_ok (M.get_apply _)]
  cases mergeVals s.values s.tempValues with
  | none => exact noUB_throw
  | some full =>
    simp only
    refine NoUB.bind ?_ fun s' a _ => NoUB.bind (applyResult_noUB a s') fun s'' _ _ => ?_
    · unfold M.cond
      rw [if_neg (by simp [hg])]
      unfold plainOptimize
      simp only [M.bind_eq]
      have hp : plainGraph cfg s = .ok s (s.nfg ++ s.tempNfg) := by
        unfold plainGraph; rw [if_neg (by simp [hf])]
      rw [M.bind_ok hp]
      cases env.opt (s.nfg ++ s.tempNfg) full with
      | none => exact noUB_throw
      | some r =>
        simp only
        rw [M.bind_ok (M.get_apply _), if_neg (by omega), if_neg (by omega), M.bind_ok (M.modify_apply _ _)]
        rw [if_neg]
        · exact noUB_ok
        · rcases hd with h | h | h <;> simp [h]
    · unfold M.when
      split
      · exact noUB_ok
      · exact noUB_ok

/-- Without outlier rejection, logging and weight reuse, calls within the contract do not fault. -/
theorem exec_plain_noUB {cfg : Cfg G T N} (env : Env G N) (hr : cfg.rejection = false) (hl : cfg.log = false)
    (hf : cfg.fixPrev = false) (hd : cfg.lm = false ∨ cfg.debug = false) {op : Op G N} {s : St G T N} (h0 : s.latest = 0)
    (hp : s.pcm = {}) (ho : Spec.PlainSafe cfg s.nfg op) : NoUB (exec cfg env op s) := by
  have hc : ∀ {α : Type} (m1 m2 : M (St G T N) α), M.cond cfg.rejection m1 m2 = m2 := fun m1 m2 => by
    unfold M.cond; rw [if_neg (by simp [hr])]
  have hw : ∀ (m : M (St G T N) Unit), M.when cfg.rejection m = M.pure () := fun m => by
    unfold M.when; rw [if_neg (by simp [hr])]
  have hopt : ∀ s : St G T N, s.latest = 0 → NoUB (optimize cfg env s) := fun s h =>
    optimize_noUB env hf (by unfold useGncNow; simp [hr]) (by omega) (by omega) (Or.inr hd)
  have hwhen : ∀ (b : Bool) (s : St G T N), s.latest = 0 → NoUB (M.when b (optimize cfg env) s) := by
    intro b s h
    unfold M.when
    split
    · exact hopt s h
    · exact noUB_ok
  have hlog : ∀ (b : Bool) (s : St G T N), NoUB (M.when (cfg.log && b) (logStatus cfg) s) := by
    intro b s
    unfold M.when
    rw [if_neg (by simp [hl])]
    exact noUB_ok
  have hlog' : ∀ (s : St G T N), NoUB (M.when cfg.log (logStatus cfg) s) := by
    intro s
    unfold M.when
    rw [if_neg (by simp [hl])]
    exact noUB_ok
  have hadd : ∀ (fs : Graph G N) (vs : Vals G) (s : St G T N), fs ≠ [none] → NoUB (addAndCheck fs vs s) := by
    intro fs vs s hne
    unfold addAndCheck
    simp only [M.bind_eq]
    rw [M.bind_ok (M.modify_apply _ _)]
    refine NoUB.bind (insertVals_noUB vs _) fun s' _ _ => ?_
    split
    · exact noUB_ok
    · exact absurd rfl hne
    · exact noUB_ok
    · exact noUB_ok
  have hlat : ∀ {α : Type} {s s' : St G T N} {o : Out (St G T N) α} {l : Graph G N} {a : α} {op : Op G N}, PlainEnds op s l o →
      o = .ok s' a → s.latest = 0 → s.pcm = {} → s'.latest = 0 := by
    intro α s s' o l a op h e h0 hp
    have := h.1
    rw [e] at this
    rcases PlainFrame.latest this with e | e
    · rw [e, h0]
    · rw [e, hp]
  have hlast : ∀ {l : Graph G N} {s : St G T N}, l = s.nfg → (∃ f, l.getLast? = some (some f) ∧ f.keys ≠ []) →
      NoUB (removeLastFactor s) := by
    rintro l s rfl ⟨f, e, hk⟩
    unfold removeLastFactor
    rw [e]
    simp only
    cases hk' : f.keys with
    | nil => exact absurd hk' hk
    | cons a t =>
      have : (a :: t).getLast? = some ((a :: t).getLast (by simp)) := List.getLast?_eq_some_getLast (by simp)
      rw [this]
      exact noUB_ok
  cases op with
  | update fs vs o =>
    refine NoUB.ret ?_
    unfold update
    rw [hc]
    refine NoUB.bind (hadd fs vs s ho) fun s1 a e => ?_
    have h1 := hlat (addAndCheck_plain (op := .update fs vs o) vs (fun f hf => hf) (PlainFrame.refl _ s)) e h0 hp
    exact NoUB.bind (hwhen _ _ h1) fun s2 _ _ => hlog _ _
  | forceUpdate fs vs =>
    refine NoUB.ret ?_
    unfold forceUpdate
    rw [hc]
    refine NoUB.bind (hadd fs vs s ho) fun s1 a e => ?_
    have h1 := hlat (addAndCheck_plain (op := .forceUpdate fs vs) vs (fun f hf => hf) (PlainFrame.refl _ s)) e h0 hp
    exact NoUB.bind (hopt _ h1) fun s2 _ _ => hlog' _
  | removePriors c o =>
    refine NoUB.ret ?_
    unfold removePriors
    rw [hc]
    exact NoUB.bind (fun _ e => by cases e) fun s1 _ e => by cases e; exact hwhen _ _ h0
  | removeLastPair a b =>
    refine NoUB.ret ?_
    unfold removeLastLC2
    rw [hc]
    refine NoUB.bind (hlast rfl ho) fun s1 _ e => ?_
    exact NoUB.bind (hopt _ (hlat (removeLastFactor_plain (.removeLastPair a b) s) e h0 hp)) fun _ _ _ => noUB_ok
  | removeLast =>
    refine NoUB.ret ?_
    unfold removeLastLC
    rw [hc]
    refine NoUB.bind (hlast rfl ho) fun s1 _ e => ?_
    exact NoUB.bind (hopt _ (hlat (removeLastFactor_plain .removeLast s) e h0 hp)) fun _ _ _ => noUB_ok
  | ignore c =>
    refine NoUB.ret ?_
    unfold ignorePrefix
    rw [hw]
    exact hopt s h0
  | revive c =>
    refine NoUB.ret ?_
    unfold revivePrefix
    rw [hw]
    exact hopt s h0
  | getNumLC => exact absurd ho (fun h => h)
  | getNumLCInliers =>
    have ho : cfg.useGnc = true := ho
    refine NoUB.ret ?_
    unfold getNumLCInliers
    rw [if_pos ho]
    exact noUB_ok
  | saveData =>
    refine NoUB.ret ?_
    unfold saveData
    split
    · exact noUB_ok
    · exact noUB_throw
  | removeFactors is =>
    refine NoUB.ret ?_
    rcases removeFactors_cases is s with ⟨_, e⟩ | ⟨_, e⟩
    · rw [e]; exact noUB_ok
    · rw [e]; exact noUB_throw
  | removeLastFactor => exact NoUB.ret (hlast rfl ho)
  | removePriorsGeneric c => exact noUB_ok
  | updateValues vs => exact NoUB.ret (applyResult_noUB vs s)
  | genericUpdate fs vs rm =>
    refine NoUB.ret ?_
    unfold genericUpdate
    simp only [M.bind_eq]
    refine NoUB.bind ?_ fun s1 _ _ => NoUB.bind (hadd fs vs s1 ho) fun s2 x _ => ?_
    · rcases removeFactors_cases rm s with ⟨_, e⟩ | ⟨_, e⟩
      · rw [e]; exact noUB_ok
      · rw [e]; exact noUB_throw
    · split
      · rw [M.bind_ok (M.get_apply _)]
        cases mergeVals s2.values s2.tempValues with
        | none => exact noUB_throw
        | some full =>
          simp only
          cases env.opt (s2.nfg ++ s2.tempNfg) full with
          | none => exact noUB_throw
          | some r => exact applyResult_noUB _ _
      · exact noUB_ok
  | tempUpdate fs vs =>
    intro u e
    change (((M.zoom (fun s => s.tempValues) (fun v s => { s with tempValues := v }) (insertVals vs) : M (St G T N) Unit).ret
        fun _ => Ret.unit) { s with tempNfg := s.tempNfg ++ fs }) = .ub u at e
    unfold M.ret at e
    rw [M.bind_apply] at e
    unfold M.zoom at e
    simp only at e
    cases h : insertVals vs s.tempValues with
    | ok v a => rw [h] at e; cases e
    | throw v a => rw [h] at e; cases e
    | ub u' => exact insertVals_not_ub _ _ _ h
  | tempReplace fs vs => exact noUB_ok
  | tempClear => exact noUB_ok

/-! ### Every factor was supplied -/

/-- Origin of the factors after one call: they were there, are null, were supplied by the call, or are held by the
outlier-rejection object. -/
theorem exec_nfg_sub {cfg : Cfg G T N} {env : Env G N} (op : Op G N) (s : St G T N) :
    M.Ends (fun s' => ∀ f ∈ s'.nfg, f ∈ s.nfg ∨ f = none ∨ f ∈ Spec.opFactors op ∨
      (cfg.rejection = true ∧ f ∈ buildGraph env s'.pcm)) (exec cfg env op s) := by
  have lift : ∀ s', PlainFrame op s s' → ∀ f ∈ s'.nfg, f ∈ s.nfg ∨ f = none ∨ f ∈ Spec.opFactors op ∨
      (cfg.rejection = true ∧ f ∈ buildGraph env s'.pcm) := by
    intro s' h f hf
    rcases h.nfg f hf with h | h | h
    · exact Or.inl h
    · exact Or.inr (Or.inl h)
    · exact Or.inr (Or.inr (Or.inl h))
  cases hr : cfg.rejection with
  | false =>
    rw [hr] at lift
    exact M.Ends.mono lift (exec_plain cfg env hr op s).1
  | true =>
    rw [hr] at lift
    have same : ∀ s' : St G T N, s'.nfg = s.nfg ∨ s'.nfg = buildGraph env s'.pcm → ∀ f ∈ s'.nfg, f ∈ s.nfg ∨ f = none ∨
        f ∈ Spec.opFactors op ∨ (true = true ∧ f ∈ buildGraph env s'.pcm) := by
      intro s' h f hf
      rcases h with h | h
      · rw [h] at hf; exact Or.inl hf
      · rw [h] at hf; exact Or.inr (Or.inr (Or.inr ⟨rfl, hf⟩))
    cases hb : Spec.batch op with
    | none =>
      by_cases hd : Direct op
      · cases op <;> simp only [Direct] at hd
        · exact M.Ends.mono lift (PlainEnds.ret (removeFactors_plain _ _ s)).1
        · exact M.Ends.mono lift (PlainEnds.ret (removeLastFactor_plain _ s)).1
        · exact M.Ends.mono lift (PlainEnds.ret (removePriorsGeneric_plain cfg _ _ s)).1
        · exact M.Ends.mono lift (PlainEnds.ret (genericUpdate_plain env _ _ _ s)).1
      · exact M.Ends.mono (fun s' h => same s' (h.nfg hd)) (exec_other cfg env hr op hb s)
    | some x =>
      obtain ⟨fs, vs⟩ := x
      obtain ⟨h1, h2⟩ := exec_batch env hr hb s
      have hdone : ∀ s', BatchDone cfg env fs vs s s' → s'.nfg = s.nfg ∨ s'.nfg = buildGraph env s'.pcm := by
        intro s' h
        cases h with
        | empty _ _ hf => left; rw [hf.nfg]
        | full _ _ _ _ _ ha hf =>
          right
          rw [hf.nfg, hf.pcm, ha.eq]
          rfl
      cases he : exec cfg env op s with
      | ub u => trivial
      | ok s' r => exact same _ (hdone _ (h1 s' r he))
      | throw s' x =>
        rcases h2 s' x he with h | h
        · exact same _ (Or.inl (by cases h <;> rfl))
        · exact same _ (hdone _ h)

theorem batch_factors {op : Op G N} {fs : Graph G N} {vs : Vals G} (h : Spec.batch op = some (fs, vs)) :
    Spec.opFactors op = fs := by
  cases op <;> simp [Spec.batch] at h <;> simp [Spec.opFactors, h.1]

/-- Everything the outlier-rejection object would put into the graph was supplied. -/
theorem buildGraph_supplied {cfg : Cfg G T N} {env : Env G N} (he : env.Ok) (hr : cfg.rejection = true) {h : List (Op G N)}
    {s : St G T N} (r : Reach cfg env h s) :
    ∀ f ∈ buildGraph env s.pcm, ∃ op ∈ h, f ∈ Spec.opFactors op := by
  obtain ⟨lc, lm, e, hlc, hlm⟩ := Props.buildGraph_split he s.pcm
  have hp := r.prov hr
  have hacc : ∀ b, Spec.Accepted cfg env h b → ∃ op ∈ h, some (Factor.btw b) ∈ Spec.opFactors op := by
    rintro b ⟨h1, op, h2, fs, vs, s1, s2, rfl, _, _, hb, hc, _⟩
    refine ⟨op, by simp, ?_⟩
    rw [batch_factors hb]
    exact mem_btws.1 (List.mem_of_mem_filter hc)
  have hodom : ∀ b ∈ s.pcm.odom, ∃ op ∈ h, some (Factor.btw b) ∈ Spec.opFactors op := by
    intro b hb
    obtain ⟨op, ho, hx⟩ := Props.reach_odom hr r b hb
    refine ⟨op, ho, ?_⟩
    unfold Spec.opOdom at hx
    cases hbt : Spec.batch op with
    | none => rw [hbt] at hx; simp at hx
    | some y =>
      obtain ⟨fs, vs⟩ := y
      rw [hbt] at hx
      rw [batch_factors hbt]
      exact mem_btws.1 (List.mem_of_mem_filter hx)
  have hspec : ∀ f ∈ s.pcm.special, ∃ op ∈ h, some f ∈ Spec.opFactors op := by
    refine Reach.induct (Inv := fun h p => ∀ f ∈ p.special, ∃ op ∈ h, some f ∈ Spec.opFactors op) hr (by simp) ?_ r
    intro h s op s' _ _ ih st f hf
    have old : f ∈ s.pcm.special → ∃ o ∈ h ++ [op], some f ∈ Spec.opFactors o := by
      intro hm
      obtain ⟨o, ho, hx⟩ := ih f hm
      exact ⟨o, by simp [ho], hx⟩
    have new : ∀ fs vs, Spec.batch op = some (fs, vs) → f ∈ Spec.specials fs → ∃ o ∈ h ++ [op], some f ∈ Spec.opFactors o := by
      intro fs vs hb hm
      refine ⟨op, by simp, ?_⟩
      rw [batch_factors hb]
      unfold Spec.specials at hm
      rw [List.mem_filterMap] at hm
      obtain ⟨x, hx, e⟩ := hm
      split at e
      · cases e
      · rw [← e]; exact hx
    generalize s'.pcm = q at st hf
    cases st with
    | other _ he =>
      cases he with
      | priors => exact old (List.mem_of_mem_filter hf)
      | ignore => split at hf <;> exact old hf
      | _ => exact old hf
    | none _ => exact old hf
    | sort hb hi hfs ho hS hx1 hx2 =>
      rename_i fs vs v1 fs1 b fs2 p1
      change f ∈ p1.special at hf
      rw [hS.special] at hf
      rcases List.mem_append.1 hf with hf | hf
      · exact old hf
      · refine new fs vs hb ?_
        rw [hfs]
        unfold Spec.specials at hf ⊢
        rw [List.filterMap_append]
        exact List.mem_append_left _ hf
    | cands hb hne hi hS ht hsel hg hro =>
      rename_i fs vs v1 p1 q p2 ro
      change f ∈ p2.special at hf
      rw [(processed_frame ht hsel).2.1, hS.special] at hf
      rcases List.mem_append.1 hf with hf | hf
      · exact old hf
      · exact new fs vs hb hf
  intro f hf
  rw [e] at hf
  simp only [List.mem_append, List.mem_map] at hf
  rcases hf with ((⟨b, hb, rfl⟩ | ⟨g, hg, rfl⟩) | ⟨b, hb, rfl⟩) | ⟨b, hb, rfl⟩
  · exact hodom b hb
  · exact hspec g hg
  · obtain ⟨x, hx, hc, _⟩ := hlc b hb
    exact hacc b ((hp.lcs x hx).2 b hc).1
  · obtain ⟨x, hx, hc⟩ := hlm b hb
    rcases ((hp.landmarks x hx).2 b hc).1 with ha | ⟨op, ho, fs, vs, hb', hf⟩
    · exact hacc b ha
    · refine ⟨op, ho, ?_⟩
      rw [batch_factors hb']
      exact mem_btws.1 (List.mem_of_mem_filter hf)

/-- After any history every factor of the graph is null or was supplied by an update. -/
theorem reach_supplied {cfg : Cfg G T N} {env : Env G N} (he : env.Ok) {h : List (Op G N)} {s : St G T N}
    (r : Reach cfg env h s) : ∀ f ∈ s.nfg, f = none ∨ ∃ op ∈ h, f ∈ Spec.opFactors op := by
  have step : ∀ {h : List (Op G N)} {s : St G T N} {op : Op G N} {s' : St G T N}, Reach cfg env h s →
      (∀ f ∈ s.nfg, f = none ∨ ∃ op ∈ h, f ∈ Spec.opFactors op) → Spec.Call cfg env op s s' →
      ∀ f ∈ s'.nfg, f = none ∨ ∃ o ∈ h ++ [op], f ∈ Spec.opFactors o := by
    intro h s op s' r ih c f hf
    have hsub := exec_nfg_sub (cfg := cfg) (env := env) op s
    have : f ∈ s.nfg ∨ f = none ∨ f ∈ Spec.opFactors op ∨ (cfg.rejection = true ∧ f ∈ buildGraph env s'.pcm) := by
      rcases c with ⟨_, e⟩ | ⟨_, e⟩
      · rw [e] at hsub; exact hsub f hf
      · rw [e] at hsub; exact hsub f hf
    rcases this with hx | hx | hx | ⟨hr, hx⟩
    · rcases ih f hx with h | ⟨o, ho, h⟩
      · exact Or.inl h
      · exact Or.inr ⟨o, by simp [ho], h⟩
    · exact Or.inl hx
    · exact Or.inr ⟨op, by simp, hx⟩
    · exact Or.inr (buildGraph_supplied he hr (r.call c) f hx)
  induction r with
  | init => simp [St.init]
  | ok r e ih => exact step r ih (Or.inl ⟨_, e⟩)
  | throw r e ih => exact step r ih (Or.inr ⟨_, e⟩)

end RPGO
