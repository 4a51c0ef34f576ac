import Verif.Props.AnySplit
import Verif.Proofs.Select
/-
The closures of one pair of robots as a function of what was supplied about these two robots.
-/

namespace RPGO.Spec
variable {G T N : Type}

/-- Does the factor connect robots `a` and `b`, in either direction? -/
def connects (a b : Chr) (x : Btw G N) : Bool :=
  decide ((chr x.k1 = a ∧ chr x.k2 = b) ∨ (chr x.k1 = b ∧ chr x.k2 = a))

/-- The loop-closure candidates between robots `a` and `b` in one call. -/
def pairCands (cfg : Cfg G T N) (a b : Chr) (op : Op G N) : List (Btw G N) := (opCands cfg op).filter (connects a b)

/-- The loop-closure candidates between robots `a` and `b`, grouped by call; calls without any are left out. -/
def pairGroups (cfg : Cfg G T N) (a b : Chr) (h : List (Op G N)) : List (List (Btw G N)) :=
  (h.map (pairCands cfg a b)).filter fun g => !g.isEmpty

/-- The call does not ask for the removal of the last closure, nor of the last closure between `a` and `b`. -/
def Spares (a b : Chr) : Op G N → Prop
  | .removeLast => False
  | .removeLastPair c d => ¬ ((c = a ∧ d = b) ∨ (c = b ∧ d = a))
  | _ => True

/-- What is asked of the history concerning robots `a` and `b`; nothing is asked concerning other robots. -/
structure PairFed (cfg : Cfg G T N) (start : Chr → Key) (a b : Chr) (h : List (Op G N)) : Prop where
  /-- nothing is removed -/
  spares : ∀ op ∈ h, Spares a b op
  /-- neither prefix is that of landmarks -/
  poses : a ∉ cfg.special ∧ b ∉ cfg.special
  /-- the odometry of each of the two robots starts at a key of that robot -/
  begins : ∀ c, c = a ∨ c = b → chr (start c) = c
  /-- and is a chain -/
  chains : ∀ c, c = a ∨ c = b → Chain (start c) (robotOdom cfg c h)
  /-- which does not run into the next prefix -/
  short : ∀ c, c = a ∨ c = b → (start c).toNat + (robotOdom cfg c h).length < 2 ^ 64
  /-- when a closure between them arrives, odometry has reached its keys -/
  reached : ∀ h1 op h2, h = h1 ++ op :: h2 → ∀ x ∈ pairCands cfg a b op,
    OnChain cfg start (h1 ++ [op]) x.k1 ∧ OnChain cfg start (h1 ++ [op]) x.k2
  /-- and values have been supplied for them -/
  known : ∀ h1 op h2, h = h1 ++ op :: h2 → ∀ x ∈ pairCands cfg a b op,
    (∃ o ∈ h1 ++ [op], x.k1 ∈ opKeys o) ∧ ∃ o ∈ h1 ++ [op], x.k2 ∈ opKeys o

end RPGO.Spec

namespace RPGO
variable {G T N : Type}

theorem pairOf_connects (x : Btw G N) (a b : Chr) : (pairOf x).eqv ⟨a, b⟩ = Spec.connects a b x := by
  unfold ObsId.eqv pairOf Spec.connects
  rw [Bool.eq_iff_iff]
  simp only [decide_eq_true_eq]
  split
  · rename_i h; simp [h]
  · rename_i h
    split
    · rename_i h'; simp [h'.1, h'.2]
    · rename_i h'
      simp only [Bool.false_eq_true, false_iff, not_or]
      exact ⟨h, fun c => h' ⟨c.2, c.1⟩⟩

/-- The selection for a pair with `n` new closures. -/
def selectPair (cfg : Cfg G T N) (n : Nat) (m : Meas G N) : Meas G N :=
  if cfg.incremental then (match incInliers n m with | .ok m' _ => m' | _ => m)
  else (match lcInliers cfg m with | .ok m' _ => m' | _ => m)

/-- The closures of a pair after one more group of candidates, of which `acc` are registered. -/
def groupStep (cfg : Cfg G T N) (acc : Btw G N → Bool) (f : Chr → Key → T) (m : Meas G N) (bs : List (Btw G N)) : Meas G N :=
  if bs.filter acc = [] then m
  else selectPair cfg (bs.filter acc).length ((bs.filter acc).foldl (fun m b => growLc cfg f b m) m)

theorem selectPair_bare (cfg : Cfg G T N) (n : Nat) (m : Meas G N) :
    (selectPair cfg n m).factors = m.factors ∧ (selectPair cfg n m).adj = m.adj := by
  unfold selectPair
  split
  · have := incInliers_sel n m
    revert this
    cases incInliers n m <;> intro h
    · exact ⟨h.factors, h.adj⟩
    · exact ⟨rfl, rfl⟩
    · exact ⟨rfl, rfl⟩
  · have := lcInliers_sel cfg m
    revert this
    cases lcInliers cfg m <;> intro h
    · exact ⟨h.factors, h.adj⟩
    · exact ⟨rfl, rfl⟩
    · exact ⟨rfl, rfl⟩

theorem growFold_factors (cfg : Cfg G T N) (f : Chr → Key → T) (l : List (Btw G N)) (m : Meas G N) :
    (l.foldl (fun m b => growLc cfg f b m) m).factors = m.factors ++ l := by
  induction l generalizing m with
  | nil => simp
  | cons b l ih => rw [List.foldl_cons, ih]; simp [growLc]

theorem growFold_congr {cfg : Cfg G T N} {f g : Chr → Key → T} {P : Btw G N → Prop}
    (hl : ∀ x y, P x → P y → loopVerdict cfg f x y = loopVerdict cfg g x y) (l : List (Btw G N)) (hP : ∀ b ∈ l, P b)
    (m : Meas G N) (hm : ∀ b ∈ m.factors, P b) :
    l.foldl (fun m b => growLc cfg f b m) m = l.foldl (fun m b => growLc cfg g b m) m := by
  induction l generalizing m with
  | nil => rfl
  | cons b l ih =>
    have hb := hP b (by simp)
    have e : growLc cfg f b m = growLc cfg g b m := by
      unfold growLc
      have : m.factors.map (fun x => loopVerdict cfg f x b) = m.factors.map (fun x => loopVerdict cfg g x b) :=
        List.map_congr_left fun x hx => hl x b (hm x hx) hb
      rw [this]
    rw [List.foldl_cons, List.foldl_cons, e]
    refine ih (fun x hx => hP x (by simp [hx])) _ ?_
    intro x hx
    simp only [growLc, List.mem_append, List.mem_singleton] at hx
    rcases hx with hx | rfl
    · exact hm x hx
    · exact hb

theorem groupStep_all {cfg : Cfg G T N} {acc : Btw G N → Bool} {f : Chr → Key → T} {P : Btw G N → Prop} {bs : List (Btw G N)}
    (hP : ∀ b ∈ bs, P b) {m : Meas G N} (hm : ∀ b ∈ m.factors, P b) : ∀ b ∈ (groupStep cfg acc f m bs).factors, P b := by
  unfold groupStep
  split
  · exact hm
  · rw [(selectPair_bare _ _ _).1, growFold_factors]
    intro b hb
    rcases List.mem_append.1 hb with hb | hb
    · exact hm b hb
    · exact hP b (List.mem_filter.1 hb).1

theorem groupStep_congr {cfg : Cfg G T N} {acc acc' : Btw G N → Bool} {f g : Chr → Key → T} {P : Btw G N → Prop}
    (ha : ∀ b, P b → acc b = acc' b) (hl : ∀ x y, P x → P y → loopVerdict cfg f x y = loopVerdict cfg g x y)
    {bs : List (Btw G N)} (hP : ∀ b ∈ bs, P b) {m : Meas G N} (hm : ∀ b ∈ m.factors, P b) :
    groupStep cfg acc f m bs = groupStep cfg acc' g m bs := by
  have e : bs.filter acc = bs.filter acc' := List.filter_congr fun b hb => ha b (hP b hb)
  unfold groupStep
  rw [e]
  split
  · rfl
  · rw [growFold_congr hl _ (fun b hb => hP b (List.mem_filter.1 hb).1) m hm]

theorem groupFold_congr {cfg : Cfg G T N} {acc acc' : Btw G N → Bool} {f g : Chr → Key → T} {P : Btw G N → Prop}
    (ha : ∀ b, P b → acc b = acc' b) (hl : ∀ x y, P x → P y → loopVerdict cfg f x y = loopVerdict cfg g x y)
    (gs : List (List (Btw G N))) (hP : ∀ bs ∈ gs, ∀ b ∈ bs, P b) (m : Meas G N) (hm : ∀ b ∈ m.factors, P b) :
    gs.foldl (groupStep cfg acc f) m = gs.foldl (groupStep cfg acc' g) m := by
  induction gs generalizing m with
  | nil => rfl
  | cons bs gs ih =>
    rw [List.foldl_cons, List.foldl_cons, ← groupStep_congr ha hl (hP bs (by simp)) hm]
    exact ih (fun x hx => hP x (by simp [hx])) _ (groupStep_all (hP bs (by simp)) hm)

theorem pairGroups_snoc (cfg : Cfg G T N) (a b : Chr) (h : List (Op G N)) (op : Op G N) :
    Spec.pairGroups cfg a b (h ++ [op]) =
      Spec.pairGroups cfg a b h ++ if Spec.pairCands cfg a b op = [] then [] else [Spec.pairCands cfg a b op] := by
  unfold Spec.pairGroups
  rw [List.map_append, List.filter_append]
  congr 1
  by_cases h : Spec.pairCands cfg a b op = []
  · simp [h]
  · rw [if_neg h]; simp [h]

theorem mem_pairGroups {cfg : Cfg G T N} {a b : Chr} {h : List (Op G N)} {bs : List (Btw G N)} (hb : bs ∈ Spec.pairGroups cfg a b h) :
    ∃ h1 op h2, h = h1 ++ op :: h2 ∧ bs = Spec.pairCands cfg a b op := by
  obtain ⟨hb, _⟩ := List.mem_filter.1 hb
  obtain ⟨op, ho, rfl⟩ := List.mem_map.1 hb
  obtain ⟨h1, h2, e⟩ := List.append_of_mem ho
  exact ⟨h1, op, h2, e, rfl⟩

namespace PairFed

theorem init {cfg : Cfg G T N} {start : Chr → Key} {a b : Chr} {h : List (Op G N)} {op : Op G N}
    (hf : Spec.PairFed cfg start a b (h ++ [op])) : Spec.PairFed cfg start a b h := by
  refine ⟨fun o m => hf.spares o (by simp [m]), hf.poses, hf.begins, fun c hc => ?_, fun c hc => ?_, fun h1 o h2 e => ?_, fun h1 o h2 e => ?_⟩
  · have := hf.chains c hc
    rw [robotOdom_snoc] at this
    exact Chain.prefix this
  · have := hf.short c hc
    rw [robotOdom_snoc, List.length_append] at this
    omega
  · exact hf.reached h1 o (h2 ++ [op]) (by rw [e]; simp)
  · exact hf.known h1 o (h2 ++ [op]) (by rw [e]; simp)

/-- What holds of every candidate of the pair so far. -/
def Fine (cfg : Cfg G T N) (start : Chr → Key) (a b : Chr) (h : List (Op G N)) (x : Btw G N) : Prop :=
  Spec.connects a b x = true ∧ Spec.OnChain cfg start h x.k1 ∧ Spec.OnChain cfg start h x.k2 ∧
    (∃ o ∈ h, x.k1 ∈ Spec.opKeys o) ∧ ∃ o ∈ h, x.k2 ∈ Spec.opKeys o

theorem Fine.mono {cfg : Cfg G T N} {start : Chr → Key} {a b : Chr} {h : List (Op G N)} {x : Btw G N} (hf : Fine cfg start a b h x)
    (h' : List (Op G N)) : Fine cfg start a b (h ++ h') x := by
  obtain ⟨c, o1, o2, ⟨p1, m1, k1⟩, p2, m2, k2⟩ := hf
  exact ⟨c, OnChain.mono o1, OnChain.mono o2, ⟨p1, List.mem_append_left _ m1, k1⟩, p2, List.mem_append_left _ m2, k2⟩

theorem fine {cfg : Cfg G T N} {start : Chr → Key} {a b : Chr} {h : List (Op G N)} (hf : Spec.PairFed cfg start a b h)
    {h1 h2 : List (Op G N)} {op : Op G N} (e : h = h1 ++ op :: h2) {x : Btw G N} (hx : x ∈ Spec.pairCands cfg a b op) :
    Fine cfg start a b h x := by
  have e' : h = (h1 ++ [op]) ++ h2 := by rw [e]; simp
  rw [e']
  refine Fine.mono ?_ h2
  obtain ⟨o1, o2⟩ := hf.reached h1 op h2 e x hx
  obtain ⟨k1, k2⟩ := hf.known h1 op h2 e x hx
  exact ⟨(List.mem_filter.1 hx).2, o1, o2, k1, k2⟩

theorem fine_groups {cfg : Cfg G T N} {start : Chr → Key} {a b : Chr} {h : List (Op G N)} (hf : Spec.PairFed cfg start a b h) :
    ∀ bs ∈ Spec.pairGroups cfg a b h, ∀ x ∈ bs, Fine cfg start a b h x := by
  intro bs hb x hx
  obtain ⟨h1, op, h2, e, rfl⟩ := mem_pairGroups hb
  exact fine hf e hx

theorem Fine.ends {cfg : Cfg G T N} {start : Chr → Key} {a b : Chr} {h : List (Op G N)} {x : Btw G N} (hx : Fine cfg start a b h x) :
    (chr x.k1 = a ∨ chr x.k1 = b) ∧ (chr x.k2 = a ∨ chr x.k2 = b) := by
  have := hx.1
  unfold Spec.connects at this
  rcases of_decide_eq_true this with h | h
  · exact ⟨Or.inl h.1, Or.inr h.2⟩
  · exact ⟨Or.inr h.1, Or.inl h.2⟩

theorem Fine.pair {cfg : Cfg G T N} {start : Chr → Key} {a b : Chr} {h : List (Op G N)} {x y : Btw G N} (hx : Fine cfg start a b h x)
    (hy : Fine cfg start a b h y) : Spec.SamePair x y := by
  have h1 := hx.1
  have h2 := hy.1
  unfold Spec.connects at h1 h2
  unfold Spec.SamePair
  rcases of_decide_eq_true h1 with h | h <;> rcases of_decide_eq_true h2 with h' | h'
  · left; rw [h.1, h.2, h'.1, h'.2]; exact ⟨rfl, rfl⟩
  · right; rw [h.1, h.2, h'.1, h'.2]; exact ⟨rfl, rfl⟩
  · right; rw [h.1, h.2, h'.1, h'.2]; exact ⟨rfl, rfl⟩
  · left; rw [h.1, h.2, h'.1, h'.2]; exact ⟨rfl, rfl⟩

end PairFed

section
variable [Mul G] [Inv G] [One G]

theorem fine_accept {cfg : Cfg G T N} {start : Chr → Key} {a b : Chr} {h : List (Op G N)} (ha : a ∉ cfg.special) (hb : b ∉ cfg.special)
    {x : Btw G N} (hx : PairFed.Fine cfg start a b h x) {v : Vals G} (hv : ∀ k, (∃ op ∈ h, k ∈ Spec.opKeys op) → v.has k = true)
    (f : Chr → Key → T) : acceptLc cfg v f x = (decide (chr x.k1 ≠ chr x.k2) || odomVerdict cfg f x) := by
  have hl : Spec.isLandmark cfg x = false := by
    obtain ⟨e1, e2⟩ := hx.ends
    have n1 : chr x.k1 ∉ cfg.special := by rcases e1 with e | e <;> rw [e] <;> assumption
    have n2 : chr x.k2 ∉ cfg.special := by rcases e2 with e | e <;> rw [e] <;> assumption
    simp [Spec.isLandmark, n1, n2]
  unfold acceptLc known
  rw [hl, hv _ hx.2.2.2.1, hv _ hx.2.2.2.2]
  rfl

/-- Two states reached by histories of which the second continues the odometry of both robots judge alike. -/
theorem fine_same {cfg : Cfg G T N} (hs : StartFree cfg.ops) {env env' : Env G N} (hr : cfg.rejection = true)
    {h h' : List (Op G N)} {s s' : St G T N} (r : ReachOk cfg env h s) (r' : ReachOk cfg env' h' s') {start : Chr → Key} {a b : Chr}
    (hf' : Spec.PairFed cfg start a b h') (pre : ∀ c, c = a ∨ c = b → Spec.robotOdom cfg c h <+: Spec.robotOdom cfg c h') :
    (∀ x, PairFed.Fine cfg start a b h x →
      (decide (chr x.k1 ≠ chr x.k2) || odomVerdict cfg (lk cfg s.pcm) x) =
        (decide (chr x.k1 ≠ chr x.k2) || odomVerdict cfg (lk cfg s'.pcm) x)) ∧
    ∀ x y, PairFed.Fine cfg start a b h x → PairFed.Fine cfg start a b h y →
      loopVerdict cfg (lk cfg s.pcm) x y = loopVerdict cfg (lk cfg s'.pcm) x y := by
  obtain ⟨vo, vl⟩ := verdicts_pair (lm := cfg.lm) (debug := cfg.debug) (log := cfg.log) (useGnc := cfg.useGnc)
    (fixPrev := cfg.fixPrev) (biasOdom := cfg.biasOdom) (D := fun c => c = a ∨ c = b) hs hr r r' hf'.chains hf'.short pre
  constructor
  · intro x hx
    by_cases hc : chr x.k1 = chr x.k2
    · rw [vo x hx.ends.1 hc hx.2.1 hx.2.2.1]
    · simp [hc]
  · intro x y hx hy
    refine vl x y hx.ends.1 hx.ends.2 (hx.pair hy) ?_
    simp only [List.mem_cons, List.not_mem_nil, or_false, forall_eq_or_imp, forall_eq]
    exact ⟨hx.2.1, hx.2.2.1, hy.2.1, hy.2.2.1⟩

/-- Candidates of which none is registered for the pair. -/
theorem parseFold_get (cfg : Cfg G T N) (vals : Vals G) (f : Chr → Key → T) (bs : List (Btw G N)) (p : Pcm G T N) (id : ObsId)
    (h : bs.filter (fun b => acceptLc cfg vals f b && (pairOf b).eqv id) = []) :
    AList.get? ObsId.eqv (bs.foldl (parseStep cfg vals f) p).lcs id = AList.get? ObsId.eqv p.lcs id := by
  induction bs generalizing p with
  | nil => rfl
  | cons b bs ih =>
    have hb : (acceptLc cfg vals f b && (pairOf b).eqv id) = false := by
      have := List.filter_eq_nil_iff.1 h b (by simp)
      simpa using this
    rw [List.filter_cons_of_neg (by simp [hb])] at h
    rw [List.foldl_cons, ih _ h]
    unfold parseStep
    by_cases ha : acceptLc cfg vals f b = true
    · rw [if_pos ha]
      rw [ha, Bool.true_and] at hb
      show AList.get? ObsId.eqv (AList.upd ObsId.eqv Meas.empty p.lcs (pairOf b) _) id = _
      exact AList.get?_upd_other ObsId.isEqv _ _ _ _ _ hb
    · rw [if_neg ha]
      split <;> rfl

/-- The closures of the pair are those of a run over the groups of candidates of the pair; in batch mode selecting
again changes nothing. -/
structure PairState (cfg : Cfg G T N) (a b : Chr) (h : List (Op G N)) (s : St G T N) : Prop where
  run : lcOf s.pcm ⟨a, b⟩ =
    (Spec.pairGroups cfg a b h).foldl (groupStep cfg (acceptLc cfg s.values (lk cfg s.pcm)) (lk cfg s.pcm)) Meas.empty
  fixed : cfg.incremental = false → ∀ m, AList.get? ObsId.eqv s.pcm.lcs ⟨a, b⟩ = some m → lcInliers cfg m = .ok m m.cons.length

theorem ReachOk.pairState {cfg : Cfg G T N} {env : Env G N} (hr : cfg.rejection = true) (hs : StartFree cfg.ops)
    {h : List (Op G N)} {s : St G T N} (r : ReachOk cfg env h s) {start : Chr → Key} {a b : Chr}
    (hf : Spec.PairFed cfg start a b h) : PairState cfg a b h s := by
  induction r with
  | init => exact ⟨rfl, fun _ m hm => by simp [St.init, AList.get?] at hm⟩
  | @step h s op s' x r e ih =>
    have hf0 := PairFed.init hf
    have ih := ih hf0
    have r' : ReachOk cfg env (h ++ [op]) s' := .step r e
    obtain ⟨vo, vl⟩ := fine_same hs hr r r' hf (fun c _ => robotOdom_prefix cfg c h op)
    have hv := reachOk_values r
    have hv' := reachOk_values r'
    have ha := hf.poses.1
    have hb := hf.poses.2
    have old : lcOf s.pcm ⟨a, b⟩ = (Spec.pairGroups cfg a b h).foldl
        (groupStep cfg (acceptLc cfg s'.values (lk cfg s'.pcm)) (lk cfg s'.pcm)) Meas.empty := by
      rw [ih.run]
      refine groupFold_congr (P := PairFed.Fine cfg start a b h) (fun y hy => ?_) vl _ (PairFed.fine_groups hf0) _ (by simp [Meas.empty])
      rw [fine_accept ha hb hy hv, vo y hy, fine_accept ha hb (hy.mono [op]) hv']
    have nothing : Spec.pairCands cfg a b op = [] → lcOf s'.pcm ⟨a, b⟩ = lcOf s.pcm ⟨a, b⟩ →
        (cfg.incremental = false → ∀ m, AList.get? ObsId.eqv s'.pcm.lcs ⟨a, b⟩ = some m → lcInliers cfg m = .ok m m.cons.length) →
        PairState cfg a b (h ++ [op]) s' := by
      intro hc hl hfx
      refine ⟨?_, hfx⟩
      rw [hl, pairGroups_snoc, if_pos hc, List.append_nil]
      exact old
    cases hbt : Spec.batch op with
    | none =>
      have hc : Spec.pairCands cfg a b op = [] := by unfold Spec.pairCands Spec.opCands; rw [hbt]; rfl
      have ho := (exec_other cfg env hr op hbt s).of_ok e
      have hsp := hf.spares op (by simp)
      have hg : AList.get? ObsId.eqv s'.pcm.lcs ⟨a, b⟩ = AList.get? ObsId.eqv s.pcm.lcs ⟨a, b⟩ := by
        have hpcm := ho.pcm
        generalize s'.pcm = p' at hpcm
        generalize s.pcm = p0 at hpcm
        cases hpcm with
        | same => rfl
        | priors => rfl
        | ignore => split <;> rfl
        | revive => rfl
        | @pair c d _ m m' h1 h2 =>
          refine AList.get?_upd_other ObsId.isEqv _ _ _ _ _ ?_
          unfold Spec.Spares at hsp
          unfold ObsId.eqv
          simp only
          rw [if_neg (fun hh => hsp (Or.inl hh)), if_neg (fun hh => hsp (Or.inr ⟨hh.2, hh.1⟩))]
        | pop => exact absurd hsp (by simp [Spec.Spares])
        | last => exact absurd hsp (by simp [Spec.Spares])
      refine nothing hc ?_ (fun hi m hm => ih.fixed hi m (by rw [← hg]; exact hm))
      unfold lcOf
      rw [hg]
    | some y =>
      obtain ⟨fs, vs⟩ := y
      have hop : Spec.opCands cfg op = Spec.cands cfg vs fs := by unfold Spec.opCands; rw [hbt]
      have hd := (exec_batch env hr hbt s).1 _ _ e
      cases hd with
      | empty hfs _ hfr =>
        have hc : Spec.pairCands cfg a b op = [] := by
          unfold Spec.pairCands; rw [hop, hfs]; rfl
        refine nothing hc (by rw [hfr.pcm]) (fun hi m hm => ih.fixed hi m (by rw [hfr.pcm] at hm; exact hm))
      | full hne hi1 hS h1 h2 hal hfr =>
        rename_i v1 p1 p2 s1
        have hp : s'.pcm = { p2 with robotOrder := s1.pcm.robotOrder } := by rw [hfr.pcm, hal.eq]
        have hlcs : s'.pcm.lcs = p2.lcs := by rw [hp]
        have hlc : lcOf s'.pcm ⟨a, b⟩ = lcOf p2 ⟨a, b⟩ := by rw [hp]; rfl
        have h0 : lcOf p1 ⟨a, b⟩ = lcOf s.pcm ⟨a, b⟩ := lcOf_lcs hS.lcs _
        by_cases hcs : Spec.cands cfg vs fs = []
        · have hc : Spec.pairCands cfg a b op = [] := by unfold Spec.pairCands; rw [hop, hcs]; rfl
          have hp2 := h1 hcs
          refine nothing hc (by rw [hlc, hp2, h0]) (fun hi m hm => ih.fixed hi m ?_)
          rw [hlcs, hp2, hS.lcs] at hm
          exact hm
        · have h3 := h2 hcs
          have hlk : lk cfg s'.pcm = lk cfg p1 := by
            have h4 : lk cfg s'.pcm = lk cfg p2 := by rw [hp]; rfl
            obtain ⟨q, t, hsel, _⟩ := (processCands_ends cfg v1 (Spec.cands cfg vs fs) p1).of_ok h3
            rw [h4]
            exact processed_lk t hsel
          have hkv : ∀ k, s'.values.has k = v1.has k := by
            intro k
            rw [hfr.values.has, hal.values.has]
          have hfin : ∀ y ∈ Spec.pairCands cfg a b op, PairFed.Fine cfg start a b (h ++ [op]) y := fun y hy =>
            PairFed.fine hf (h1 := h) (h2 := []) rfl hy
          unfold processCands at h3
          simp only [M.bind_eq] at h3
          obtain ⟨q, num, h4, h5⟩ := M.bind_eq_ok.1 h3
          obtain ⟨rfl, t⟩ := parseLoops_ok h4
          have hacc : (Spec.cands cfg vs fs).filter (fun b' => acceptLc cfg v1 (lk cfg p1) b' && (pairOf b').eqv ⟨a, b⟩) =
              (Spec.pairCands cfg a b op).filter (acceptLc cfg s'.values (lk cfg s'.pcm)) := by
            unfold Spec.pairCands
            rw [hop, List.filter_filter]
            refine List.filter_congr fun y _ => ?_
            rw [pairOf_connects, hlk]
            unfold acceptLc known
            rw [hkv, hkv]
          have hq : lcOf q ⟨a, b⟩ = ((Spec.pairCands cfg a b op).filter (acceptLc cfg s'.values (lk cfg s'.pcm))).foldl
              (fun m b => growLc cfg (lk cfg s'.pcm) b m) (lcOf s.pcm ⟨a, b⟩) := by
            rw [t.lcOf, parseFold_lcOf, hacc, h0, hlk]
          have fin : lcOf s'.pcm ⟨a, b⟩ =
              groupStep cfg (acceptLc cfg s'.values (lk cfg s'.pcm)) (lk cfg s'.pcm) (lcOf s.pcm ⟨a, b⟩) (Spec.pairCands cfg a b op) ∧
              (cfg.incremental = false → ∀ m, AList.get? ObsId.eqv s'.pcm.lcs ⟨a, b⟩ = some m →
                lcInliers cfg m = .ok m m.cons.length) := by
            rw [hlc, hlcs]
            unfold groupStep
            unfold M.cond at h5
            cases hi : cfg.incremental with
            | true =>
              refine ⟨?_, fun hh => absurd hh (by simp)⟩
              rw [hi] at h5
              simp only [if_true] at h5
              unfold findInliersIncremental at h5
              simp only [M.bind_eq] at h5
              rw [M.bind_ok (M.modify_apply _ _), M.bind_eq_ok] at h5
              obtain ⟨q1, _, h6, h7⟩ := h5
              rw [M.bind_ok (M.modify_apply _ _)] at h7
              obtain ⟨r2, g2, rfl⟩ := M.zoom_eq_ok.1 h7
              show lcOf q1 ⟨a, b⟩ = _
              have hget := bumps_get ((Spec.cands cfg vs fs).filter (acceptLc cfg v1 (lk cfg p1))) [] ⟨a, b⟩
              rw [filter_eq_nil_of, hacc] at hget
              rcases incLoop_at _ (bumps_distinct _ [] (by simp)) _ _ h6 ⟨a, b⟩ with ⟨hn, e1⟩ | ⟨n, hn, e1⟩
              · rw [hn] at hget
                split at hget
                · rename_i hnil
                  rw [if_pos hnil, e1]
                  show lcOf q ⟨a, b⟩ = _
                  rw [hq, hnil]; rfl
                · cases hget
              · rw [hn] at hget
                split at hget
                · cases hget
                · rename_i hnil
                  simp only [AList.get?, Option.getD_none, Nat.zero_add, Option.some.injEq] at hget
                  rw [if_neg hnil]
                  have e2 : incInliers n (lcOf q ⟨a, b⟩) = .ok (lcOf q1 ⟨a, b⟩) () := e1
                  unfold selectPair
                  rw [hi, if_pos rfl, ← hq, ← hget, e2]
            | false =>
              rw [hi] at h5
              simp only [Bool.false_eq_true, if_false] at h5
              obtain ⟨_, tab, _, _⟩ := findInliers_ok h5
              have hsome := Table.isSome (eq := ObsId.eqv) tab ⟨a, b⟩
              cases hg : AList.get? ObsId.eqv q.lcs ⟨a, b⟩ with
              | none =>
                have hg2 : AList.get? ObsId.eqv p2.lcs ⟨a, b⟩ = none := by
                  rw [hg] at hsome
                  cases hh : AList.get? ObsId.eqv p2.lcs ⟨a, b⟩ with
                  | none => rfl
                  | some _ => rw [hh] at hsome; cases hsome
                refine ⟨?_, fun _ m hm => by rw [hg2] at hm; cases hm⟩
                have hqe : lcOf q ⟨a, b⟩ = Meas.empty := by unfold lcOf; rw [hg]; rfl
                have hnil : (Spec.pairCands cfg a b op).filter (acceptLc cfg s'.values (lk cfg s'.pcm)) = [] := by
                  have := congrArg Meas.factors hq
                  rw [hqe, growFold_factors] at this
                  exact (List.append_eq_nil_iff.1 this.symm).2
                rw [if_pos hnil]
                rw [hnil] at hq
                have : lcOf p2 ⟨a, b⟩ = Meas.empty := by unfold lcOf; rw [hg2]; rfl
                rw [this, ← hqe, hq]; rfl
              | some mq =>
                obtain ⟨m', hg2, hsel⟩ := tab.get? hg
                have hqe : lcOf q ⟨a, b⟩ = mq := by unfold lcOf; rw [hg]; rfl
                have hpe : lcOf p2 ⟨a, b⟩ = m' := by unfold lcOf; rw [hg2]; rfl
                refine ⟨?_, fun _ m hm => ?_⟩
                · split
                  · rename_i hnil
                    have hgp : AList.get? ObsId.eqv s.pcm.lcs ⟨a, b⟩ = some mq := by
                      rw [← hS.lcs, ← parseFold_get cfg v1 (lk cfg p1) (Spec.cands cfg vs fs) p1 ⟨a, b⟩ (by rw [hacc, hnil]), ← hg]
                      rw [t.eq]
                    have hfx := ih.fixed hi mq hgp
                    rw [hfx] at hsel
                    injection hsel with h7 _
                    rw [hpe, ← h7]
                    unfold lcOf
                    rw [hgp]; rfl
                  · rw [← hq, hqe, hpe]
                    unfold selectPair
                    rw [hi, if_neg (by simp), hsel]
                · rw [hg2] at hm
                  cases hm
                  exact (lcInliers_idem hsel).2
          refine ⟨?_, fin.2⟩
          rw [fin.1, old, pairGroups_snoc, List.foldl_append]
          by_cases hc : Spec.pairCands cfg a b op = []
          · rw [if_pos hc, hc]; rfl
          · rw [if_neg hc]; rfl

/-- The same groups of candidates. -/
theorem pair_groups_eq {cfg : Cfg G T N} (hs : StartFree cfg.ops) {env env' : Env G N} (hr : cfg.rejection = true)
    {h h' : List (Op G N)} {s s' : St G T N} (r : ReachOk cfg env h s) (r' : ReachOk cfg env' h' s') {start : Chr → Key} {a b : Chr}
    (hf : Spec.PairFed cfg start a b h) (hf' : Spec.PairFed cfg start a b h')
    (pre : ∀ c, c = a ∨ c = b → Spec.robotOdom cfg c h <+: Spec.robotOdom cfg c h') :
    lcOf s.pcm ⟨a, b⟩ = (Spec.pairGroups cfg a b h).foldl
      (groupStep cfg (fun x => decide (chr x.k1 ≠ chr x.k2) || odomVerdict cfg (lk cfg s'.pcm) x) (lk cfg s'.pcm)) Meas.empty := by
  obtain ⟨vo, vl⟩ := fine_same hs hr r r' hf' pre
  rw [(r.pairState hr hs hf).run]
  refine groupFold_congr (P := PairFed.Fine cfg start a b h) (fun y hy => ?_) vl _ (PairFed.fine_groups hf) _ (by simp [Meas.empty])
  rw [fine_accept hf.poses.1 hf.poses.2 hy (reachOk_values r), vo y hy]

theorem pair_same {cfg : Cfg G T N} (hs : StartFree cfg.ops) {env env' : Env G N} (hr : cfg.rejection = true)
    {h h' : List (Op G N)} {s s' : St G T N} (r : ReachOk cfg env h s) (r' : ReachOk cfg env' h' s') {start : Chr → Key} {a b : Chr}
    (hf : Spec.PairFed cfg start a b h) (hf' : Spec.PairFed cfg start a b h')
    (pre : ∀ c, c = a ∨ c = b → Spec.robotOdom cfg c h <+: Spec.robotOdom cfg c h')
    (hg : Spec.pairGroups cfg a b h = Spec.pairGroups cfg a b h') : lcOf s.pcm ⟨a, b⟩ = lcOf s'.pcm ⟨a, b⟩ := by
  rw [pair_groups_eq hs hr r r' hf hf' pre, pair_groups_eq hs hr r' r' hf' hf' (fun c _ => List.prefix_refl _), hg]

omit [Mul G] [Inv G] [One G] in
theorem growFold_bare {cfg : Cfg G T N} {f : Chr → Key → T} (l : List (Btw G N)) {m m' : Meas G N}
    (h : m'.factors = m.factors ∧ m'.adj = m.adj) :
    (l.foldl (fun m b => growLc cfg f b m) m').factors = (l.foldl (fun m b => growLc cfg f b m) m).factors ∧
    (l.foldl (fun m b => growLc cfg f b m) m').adj = (l.foldl (fun m b => growLc cfg f b m) m).adj := by
  induction l generalizing m m' with
  | nil => exact h
  | cons b l ih =>
    rw [List.foldl_cons, List.foldl_cons]
    refine ih ⟨?_, ?_⟩
    · simp only [growLc, h.1]
    · simp only [growLc, h.1, h.2]

omit [Mul G] [Inv G] [One G] in
/-- Registered closures and matrix after some groups depend only on the candidates, not on the grouping. -/
theorem groupFold_bare {cfg : Cfg G T N} {acc : Btw G N → Bool} {f : Chr → Key → T} (gs : List (List (Btw G N))) (m : Meas G N) :
    (gs.foldl (groupStep cfg acc f) m).factors = ((gs.flatten.filter acc).foldl (fun m b => growLc cfg f b m) m).factors ∧
    (gs.foldl (groupStep cfg acc f) m).adj = ((gs.flatten.filter acc).foldl (fun m b => growLc cfg f b m) m).adj := by
  induction gs generalizing m with
  | nil => exact ⟨rfl, rfl⟩
  | cons bs gs ih =>
    rw [List.foldl_cons, List.flatten_cons, List.filter_append, List.foldl_append]
    have h := ih (groupStep cfg acc f m bs)
    have hb : (groupStep cfg acc f m bs).factors = ((bs.filter acc).foldl (fun m b => growLc cfg f b m) m).factors ∧
        (groupStep cfg acc f m bs).adj = ((bs.filter acc).foldl (fun m b => growLc cfg f b m) m).adj := by
      unfold groupStep
      split
      · rename_i h0; rw [h0]; exact ⟨rfl, rfl⟩
      · exact selectPair_bare _ _ _
    have h2 := growFold_bare (cfg := cfg) (f := f) (gs.flatten.filter acc) hb
    exact ⟨h.1.trans h2.1, h.2.trans h2.2⟩

omit [Mul G] [Inv G] [One G] in
theorem groupFold_nil {cfg : Cfg G T N} {acc : Btw G N → Bool} {f : Chr → Key → T} (gs : List (List (Btw G N))) (m : Meas G N)
    (h : (gs.foldl (groupStep cfg acc f) m).factors = []) : gs.foldl (groupStep cfg acc f) m = m := by
  have h0 : gs.flatten.filter acc = [] := by
    rw [(groupFold_bare gs m).1, growFold_factors] at h
    exact (List.append_eq_nil_iff.1 h).2
  clear h
  induction gs generalizing m with
  | nil => rfl
  | cons bs gs ih =>
    rw [List.flatten_cons, List.filter_append] at h0
    obtain ⟨h1, h2⟩ := List.append_eq_nil_iff.1 h0
    have : groupStep cfg acc f m bs = m := by unfold groupStep; rw [if_pos h1]
    rw [List.foldl_cons, this]
    exact ih m h2

/-- Batch selection: the same candidates, however they are grouped. -/
theorem pair_same_batch {cfg : Cfg G T N} (hs : StartFree cfg.ops) {env env' : Env G N} (hr : cfg.rejection = true)
    (hi : cfg.incremental = false)
    {h h' : List (Op G N)} {s s' : St G T N} (r : ReachOk cfg env h s) (r' : ReachOk cfg env' h' s') {start : Chr → Key} {a b : Chr}
    (hf : Spec.PairFed cfg start a b h) (hf' : Spec.PairFed cfg start a b h')
    (pre : ∀ c, c = a ∨ c = b → Spec.robotOdom cfg c h <+: Spec.robotOdom cfg c h')
    (hg : (Spec.pairGroups cfg a b h).flatten = (Spec.pairGroups cfg a b h').flatten) :
    lcOf s.pcm ⟨a, b⟩ = lcOf s'.pcm ⟨a, b⟩ := by
  have e1 := pair_groups_eq hs hr r r' hf hf' pre
  have e2 := pair_groups_eq hs hr r' r' hf' hf' (fun c _ => List.prefix_refl _)
  have f1 := (r.pairState hr hs hf).fixed hi
  have f2 := (r'.pairState hr hs hf').fixed hi
  have b1 := groupFold_bare (cfg := cfg) (acc := fun x => decide (chr x.k1 ≠ chr x.k2) || odomVerdict cfg (lk cfg s'.pcm) x)
    (f := lk cfg s'.pcm) (Spec.pairGroups cfg a b h) Meas.empty
  have b2 := groupFold_bare (cfg := cfg) (acc := fun x => decide (chr x.k1 ≠ chr x.k2) || odomVerdict cfg (lk cfg s'.pcm) x)
    (f := lk cfg s'.pcm) (Spec.pairGroups cfg a b h') Meas.empty
  rw [← e1, hg] at b1
  rw [← e2] at b2
  have hfac : (lcOf s.pcm ⟨a, b⟩).factors = (lcOf s'.pcm ⟨a, b⟩).factors := b1.1.trans b2.1.symm
  have hadj : (lcOf s.pcm ⟨a, b⟩).adj = (lcOf s'.pcm ⟨a, b⟩).adj := b1.2.trans b2.2.symm
  by_cases h0 : (lcOf s.pcm ⟨a, b⟩).factors = []
  · have h0' : (lcOf s'.pcm ⟨a, b⟩).factors = [] := by rw [← hfac]; exact h0
    rw [e1] at h0
    rw [e2] at h0'
    rw [e1, e2, groupFold_nil _ _ h0, groupFold_nil _ _ h0']
  · have h0' : (lcOf s'.pcm ⟨a, b⟩).factors ≠ [] := by rw [← hfac]; exact h0
    have some_of : ∀ {t : St G T N}, (lcOf t.pcm ⟨a, b⟩).factors ≠ [] → AList.get? ObsId.eqv t.pcm.lcs ⟨a, b⟩ = some (lcOf t.pcm ⟨a, b⟩) := by
      intro t ht
      unfold lcOf at ht ⊢
      cases hh : AList.get? ObsId.eqv t.pcm.lcs ⟨a, b⟩ with
      | none => rw [hh] at ht; exact absurd rfl ht
      | some m => rfl
    have g1 := f1 _ (some_of h0)
    have g2 := f2 _ (some_of h0')
    revert g1 g2 hfac hadj
    generalize lcOf s.pcm ⟨a, b⟩ = m1
    generalize lcOf s'.pcm ⟨a, b⟩ = m2
    intro hfac hadj g1 g2
    obtain ⟨q1, c1, j1⟩ := m1
    obtain ⟨q2, c2, j2⟩ := m2
    simp only at hfac hadj
    subst hfac hadj
    have e : lcInliers cfg (⟨q1, c1, j1⟩ : Meas G N) = lcInliers cfg ⟨q1, c2, j1⟩ := rfl
    rw [e, g2] at g1
    injection g1 with g1 _
    exact g1.symm

end

end RPGO
