import Verif.Proofs.Phase
import Verif.Spec.Weights
/-
When an optimization does not run into undefined behaviour, and which weights it leaves.
-/

namespace RPGO
variable {G T N : Type} [Mul G] [Inv G] [One G]

/-- No undefined behaviour and, if `b`, no out-of-range exception. -/
def Mild (b : Bool) {σ α : Type} : Out σ α → Prop
  | .ok _ _ => True
  | .throw _ x => b = true → x ≠ .outOfRange
  | .ub _ => False

namespace Mild
variable {σ τ α β : Type} {b : Bool}

theorem bind {m : M σ α} {f : α → M σ β} {s : σ} (h : Mild b (m s)) (hf : ∀ s' a, m s = .ok s' a → Mild b (f a s')) :
    Mild b (M.bind m f s) := by
  rw [M.bind_apply]
  cases e : m s with
  | ok s' a => exact hf s' a e
  | throw s' x => rw [e] at h; exact h
  | ub u => rw [e] at h; exact h

theorem of_clean {o : Out σ α} (h : Clean o) : Mild b o := by
  cases o with
  | ok _ _ => trivial
  | throw _ _ => exact fun _ => h
  | ub _ => exact h

theorem clean {o : Out σ α} (h : Mild true o) : Clean o := by
  cases o with
  | ok _ _ => trivial
  | throw _ _ => exact h rfl
  | ub _ => exact h

theorem noUB {o : Out σ α} (h : Mild b o) (u : UB) : o ≠ .ub u := by rintro rfl; exact h

end Mild

theorem applyResult_clean (vs : Vals G) (s : St G T N) : Clean (applyResult vs s) := by
  induction vs generalizing s with
  | nil => trivial
  | cons e t ih =>
    obtain ⟨k, v⟩ := e
    unfold applyResult
    split
    · split
      · exact ih _
      · exact Exn.noConfusion
    · split
      · split
        · exact ih _
        · exact Exn.noConfusion
      · exact ih s

theorem plainGraph_mild {cfg : Cfg G T N} {s : St G T N} (hr : cfg.rejection = true)
    (hl : s.latest ≤ s.gncW.length) (hk : s.pcm.odom.length + s.pcm.special.length ≤ s.nfg.length)
    {b : Bool} (hb : cfg.fixPrev = true → b = true →
      fixedFactors s.nfg (s.pcm.odom.length + s.pcm.special.length) (s.gncW.drop (s.gncW.length - s.latest)) 0 ≠ none) :
    Mild b (plainGraph cfg s) := by
  unfold plainGraph
  split
  · rename_i hf
    rw [hr]
    simp only [Bool.not_true, Bool.false_eq_true, if_false]
    rw [if_neg (by omega), if_neg (by omega)]
    split
    · rename_i e
      intro h
      exact absurd e (hb hf h)
    · trivial
  · trivial

/-- The optimization runs no undefined operation if the weight vector is long enough for the closures counted at the
last optimization and the graph is not smaller than that number. -/
theorem optimize_mild {cfg : Cfg G T N} {env : Env G N} {s : St G T N} (hr : cfg.rejection = true) (hz : env.Sized)
    (hl : useGncNow cfg s = false → s.latest ≤ s.gncW.length) (hl' : useGncNow cfg s = false → s.latest ≤ s.nfg.length)
    (hk : s.pcm.odom.length + s.pcm.special.length ≤ s.nfg.length) {b : Bool}
    (hb : useGncNow cfg s = false → cfg.fixPrev = true → b = true →
      fixedFactors s.nfg (s.pcm.odom.length + s.pcm.special.length) (s.gncW.drop (s.gncW.length - s.latest)) 0 ≠ none) :
    Mild b (optimize cfg env s) := by
  unfold optimize
  simp only [M.bind_eq]
  rw [M.bind_ok (M.get_apply _)]
  cases hm : mergeVals s.values s.tempValues with
  | none => exact fun _ => Exn.noConfusion
  | some full =>
    simp only
    refine Mild.bind ?_ fun s1 res _ => Mild.bind (Mild.of_clean (applyResult_clean _ _)) fun s2 _ _ => ?_
    · unfold M.cond
      split
      · unfold gncOptimize
        simp only [M.bind_eq]
        rw [M.bind_ok (M.get_apply _)]
        rw [if_neg (by simp; intro _; omega)]
        generalize (if cfg.biasOdom = true then _ else _ : Option (List Rat)) = init
        cases e : env.gnc (s.nfg ++ s.tempNfg) full (List.range (s.pcm.odom.length + s.pcm.special.length)) init with
        | none => exact fun _ => Exn.noConfusion
        | some x =>
          obtain ⟨res, w⟩ := x
          simp only
          have := hz _ _ _ _ _ _ e
          rw [List.length_append] at this
          rw [if_neg (by omega)]
          exact Mild.bind trivial fun _ _ _ => trivial
      · rename_i hu
        have hl := hl (by simpa using hu)
        have hl' := hl' (by simpa using hu)
        unfold plainOptimize
        simp only [M.bind_eq]
        refine Mild.bind (plainGraph_mild hr hl hk (hb (by simpa using hu))) fun s1 g e => ?_
        obtain ⟨rfl, _⟩ := plainGraph_ok e
        cases env.opt g full with
        | none => exact fun _ => Exn.noConfusion
        | some res =>
          simp only
          rw [M.bind_ok (M.get_apply _), if_neg (by omega), if_neg (by omega)]
          refine Mild.bind trivial fun s2 _ _ => ?_
          rw [hr]
          simp only [Bool.not_true, Bool.and_false, Bool.false_eq_true, if_false]
          trivial
    · unfold M.when
      split <;> trivial

theorem applyResult_sameTW (vs : Vals G) : M.Pres (fun a b : St G T N => b.gncTW = a.gncTW) (applyResult vs) := by
  induction vs with
  | nil => exact fun _ => rfl
  | cons e t ih =>
    obtain ⟨k, v⟩ := e
    intro s
    unfold applyResult
    split
    · split
      · exact M.Ends.mono (fun _ h => h) (ih _)
      · exact rfl
    · split
      · split
        · exact M.Ends.mono (fun _ h => h) (ih _)
        · exact rfl
      · exact ih s

/-- After a successful optimization there is one weight per factor and per temporary factor. -/
theorem optimize_weights {cfg : Cfg G T N} {env : Env G N} {s s' : St G T N} (hr : cfg.rejection = true)
    (h : optimize cfg env s = .ok s' ()) :
    s'.gncW.length = s'.nfg.length ∧ s'.gncTW.length = s'.tempNfg.length ∧ s'.latest = s'.pcm.totalLc := by
  obtain ⟨full, res, s1, s2, hm, hc, ha, rfl⟩ := optimize_ok h
  rw [if_pos hr]
  have hf := (applyResult_frame res).of_ok ha
  have hw := (applyResult_sameW res).of_ok ha
  have htw : s2.gncTW = s1.gncTW := (applyResult_sameTW res).of_ok ha
  have key : s1.gncW.length = s1.nfg.length ∧ s1.gncTW.length = s1.tempNfg.length := by
    rcases hc with ⟨_, hg⟩ | ⟨_, hg⟩
    · obtain ⟨w, _, h1, h2, rfl⟩ := gncOptimize_ok hg
      simp only [List.length_take, List.length_drop]
      omega
    · obtain ⟨g, _, _, h1, h2, rfl⟩ := plainOptimize_ok hg
      refine ⟨?_, ?_⟩
      · show (List.replicate (s.nfg.length - s.latest) (1 : Rat) ++ s.gncW.drop (s.gncW.length - s.latest)).length = s.nfg.length
        rw [List.length_append, List.length_replicate, List.length_drop]
        omega
      · show (List.replicate s.tempNfg.length (1 : Rat)).length = s.tempNfg.length
        rw [List.length_replicate]
  refine ⟨?_, ?_, rfl⟩
  · show s2.gncW.length = s2.nfg.length
    rw [hw.1, hf.nfg]; exact key.1
  · show s2.gncTW.length = s2.tempNfg.length
    rw [htw, hf.tempNfg]; exact key.2

/-! ### Removing closures -/

theorem removeLastMeas_noUB {m : Meas G N} (h : Shape m) (u : UB) : removeLastMeas m ≠ .ub u := by
  intro e
  unfold removeLastMeas at e
  split at e
  · cases e
  · split at e
    · cases e
    · rename_i last hlast
      simp only at e
      split at e
      · cases e
      · rename_i hlen
        rw [List.length_dropLast] at hlen
        have hs := h.size (by omega)
        obtain ⟨m', n, e'⟩ := measInliers_safe (m := { m with factors := m.factors.dropLast, adj := ⟨m.adj.n - 1, m.adj.e⟩ })
          (by intro h0; have := congrArg List.length h0; simp at this; omega) (by simp [hs])
        rw [e'] at e
        cases e

theorem removeLastMeas_clean {m : Meas G N} (h0 : m.factors ≠ []) (h : m.adj.n = m.factors.length) : Clean (removeLastMeas m) := by
  unfold removeLastMeas
  split
  · trivial
  · split
    · rename_i hl; exact absurd (List.getLast?_eq_none_iff.1 hl) h0
    · simp only
      split
      · trivial
      · rename_i hlen
        rw [List.length_dropLast] at hlen
        obtain ⟨m', n, e'⟩ := measInliers_safe (m := { m with factors := m.factors.dropLast, adj := ⟨m.adj.n - 1, m.adj.e⟩ })
          (by intro h0; have := congrArg List.length h0; simp at this; omega) (by simp [h])
        rw [e']
        trivial

theorem removeLastOfPair_mild {env : Env G N} {id : ObsId} {s : St G T N} {b : Bool}
    (h : ∀ m, AList.get? ObsId.eqv s.pcm.lcs id = some m → Mild b (removeLastMeas m)) : Mild b (removeLastOfPair env id s) := by
  rw [removeLastOfPair_eq]
  cases hg : AList.get? ObsId.eqv s.pcm.lcs id with
  | none => trivial
  | some m =>
    have := h m hg
    simp only
    cases hr : removeLastMeas m with
    | ub u => rw [hr] at this; exact this
    | throw m' x => rw [hr] at this; exact this
    | ok m' x => cases x <;> trivial

/-! ### Counting supplied closures -/

theorem supplied_snoc (cfg : Cfg G T N) (h : List (Op G N)) (op : Op G N) :
    Spec.supplied cfg (h ++ [op]) = Spec.supplied cfg h + Spec.opSupply cfg op := by
  simp [Spec.supplied]

theorem PcmStep.supply {cfg : Cfg G T N} {op : Op G N} {s : St G T N} {p' : Pcm G T N} (st : PcmStep cfg op s p') :
    p'.totalLc ≤ s.pcm.totalLc + Spec.opSupply cfg op := by
  cases st with
  | other _ he => rw [he.counts.1]; omega
  | none _ => omega
  | sort hb hi hfs ho hS hx1 hx2 =>
    rename_i fs vs v1 fs1 b fs2 p1
    have h2 := hS.totalLc
    have : (Spec.firsts cfg vs fs1).length ≤ (Spec.firsts cfg vs fs).length := by
      have hbt : Spec.btws fs = Spec.btws fs1 ++ Spec.btws (some (.btw b) :: fs2) := by
        rw [hfs]; unfold Spec.btws; rw [List.filterMap_append]
      unfold Spec.firsts
      rw [hbt, List.filter_append, List.length_append]
      omega
    unfold Spec.opSupply
    rw [hb]
    simp only
    omega
  | cands hb hne hi hS ht hsel hg hro =>
    rename_i fs vs v1 p1 q p2 ro
    have h1 := (processed_counts ht hsel).1
    have h2 := hS.totalLc
    have h3 := List.length_filter_le (fun b => acceptLc cfg v1 (lk cfg p1) b || acceptLm cfg v1 b) (Spec.cands cfg vs fs)
    unfold Spec.opSupply
    rw [hb]
    simp only
    omega

theorem Reach.supplied {cfg : Cfg G T N} {env : Env G N} (hr : cfg.rejection = true) {h : List (Op G N)} {s : St G T N}
    (r : Reach cfg env h s) : s.pcm.totalLc ≤ Spec.supplied cfg h :=
  Reach.induct (Inv := fun h p => p.totalLc ≤ Spec.supplied cfg h) hr (Nat.zero_le _)
    (fun h s op s' _ _ ih st => by rw [supplied_snoc]; have := st.supply; omega) r

/-! ### Enough weights at all times -/

/-- The closures counted at the last optimization exist and have weights. -/
structure Weighted (s : St G T N) : Prop where
  counted : s.latest ≤ s.pcm.totalLc
  weights : s.latest ≤ s.gncW.length

theorem buildGraph_known (env : Env G N) (p : Pcm G T N) :
    p.odom.length + p.special.length ≤ (buildGraph env p).length ∧
      (buildGraph env p).take (p.odom.length + p.special.length) =
        p.odom.map (fun b => some (.btw b)) ++ p.special.map some := by
  unfold buildGraph
  constructor
  · simp only [List.length_append, List.length_map]; omega
  · rw [List.append_assoc, List.take_append_of_le_length (by simp)]
    rw [List.take_of_length_le (by simp)]

theorem Spec.Covered.modest {cfg : Cfg G T N} {h : List (Op G N)} (hc : Spec.Covered cfg h) (hr : cfg.rejection = true)
    {s : St G T N} (hu : useGncNow cfg s = false) : Spec.Modest cfg h := by
  rcases hc with ⟨h1, h2⟩ | h
  · unfold useGncNow at hu
    rw [h1, h2, hr] at hu
    simp at hu
  · exact h

theorem Spec.Modest.of_snoc {cfg : Cfg G T N} {h : List (Op G N)} {op : Op G N} (hm : Spec.Modest cfg (h ++ [op])) :
    Spec.Modest cfg h := fun h1 o1 h2 o2 hp => hm h1 o1 h2 o2 (hp.trans (List.prefix_append h [op]))

theorem odomSoFar_snoc (cfg : Cfg G T N) (h : List (Op G N)) (op : Op G N) :
    Spec.odomSoFar cfg (h ++ [op]) = Spec.odomSoFar cfg h ++ Spec.opOdom cfg op := by
  simp [Spec.odomSoFar]

theorem specialSoFar_snoc (cfg : Cfg G T N) (h : List (Op G N)) (op : Op G N) :
    Spec.specialSoFar cfg (h ++ [op]) = Spec.specialStep cfg (Spec.specialSoFar cfg h) op := by
  simp [Spec.specialSoFar]

/-- After the first phase of a call the graph starts with the odometry and special factors supplied so far. -/
theorem phase1_size {cfg : Cfg G T N} {env : Env G N} (he : env.Ok) (hr : cfg.rejection = true) {h : List (Op G N)}
    {s s1 : St G T N} {op : Op G N} (r : ReachOk cfg env h s) (hm : ∀ o ∈ h ++ [op], Spec.Managed o) {x : Ret × Bool}
    (e : phase1 cfg env op s = .ok s1 x) :
    s1.nfg = buildGraph env s1.pcm ∧ s1.pcm.odom = Spec.odomSoFar cfg (h ++ [op]) ∧
      s1.pcm.special = Spec.specialSoFar cfg (h ++ [op]) := by
  obtain ⟨a, b, c⟩ := r.lists he hr (fun o ho => hm o (by simp [ho]))
  obtain ⟨a', b', c'⟩ := phase1_lists hr (hm op (by simp)) e a
  rw [odomSoFar_snoc, specialSoFar_snoc]
  exact ⟨a', by rw [b', b], by rw [c', c]⟩

/-- The flag left by the first phase. -/
theorem phase1_flag {cfg : Cfg G T N} {env : Env G N} {op : Op G N} {s s1 : St G T N} {r : Ret} {o : Bool}
    (h : phase1 cfg env op s = .ok s1 (r, o)) : o = Spec.Optimizes cfg op := by
  cases op with
  | update fs vs f =>
    obtain ⟨s2, d, h1, h2⟩ := M.bind_eq_ok.1 (show (removeOutliers cfg env fs vs).ret (fun d => (Ret.unit, d && f)) s = _ from h)
    obtain ⟨_, _, hd, _⟩ := removeOutliers_ok h1
    cases h2
    rw [hd]
    unfold Spec.Optimizes
    rw [Bool.eq_iff_iff]
    simp [and_comm]
  | forceUpdate fs vs =>
    obtain ⟨s2, d, h1, h2⟩ := M.bind_eq_ok.1 (show (removeOutliers cfg env fs vs).ret (fun d => (Ret.unit, true)) s = _ from h)
    cases h2; rfl
  | removePriors c f =>
    obtain ⟨s2, d, h1, h2⟩ := M.bind_eq_ok.1 (show (removePriorsPcm cfg env c).ret (fun d => (Ret.unit, f)) s = _ from h)
    cases h2; rfl
  | removeLastPair a b =>
    obtain ⟨s2, d, h1, h2⟩ := M.bind_eq_ok.1 (show (removeLastOfPair env ⟨a, b⟩).ret (fun d => (Ret.edge d, true)) s = _ from h)
    cases h2; rfl
  | removeLast =>
    obtain ⟨s2, d, h1, h2⟩ := M.bind_eq_ok.1 (show (removeLastPcm env).ret (fun d => (Ret.edge d, true)) s = _ from h)
    cases h2; rfl
  | ignore c =>
    obtain ⟨s2, d, h1, h2⟩ := M.bind_eq_ok.1 (show (ignorePcm env c).ret (fun d => (Ret.unit, true)) s = _ from h)
    cases h2; rfl
  | revive c =>
    obtain ⟨s2, d, h1, h2⟩ := M.bind_eq_ok.1 (show (revivePcm env c).ret (fun d => (Ret.unit, true)) s = _ from h)
    cases h2; rfl
  | _ =>
    simp only [phase1] at h
    unfold M.ret at h
    obtain ⟨s2, d, h1, h2⟩ := M.bind_eq_ok.1 h
    cases h2; rfl

/-- What the last optimization left: nothing if there was none; otherwise it counted at most the closures supplied so far
and left a weight for each odometry factor and prior, at least. -/
theorem ReachOk.marked {cfg : Cfg G T N} {env : Env G N} (he : env.Ok) (hr : cfg.rejection = true) {h : List (Op G N)}
    {s : St G T N} (r : ReachOk cfg env h s) (hm : ∀ op ∈ h, Spec.Managed op) :
    s.latest = 0 ∨ ∃ h1 o1 h2, h = h1 ++ [o1] ++ h2 ∧ Spec.Optimizes cfg o1 = true ∧
      s.latest ≤ Spec.supplied cfg (h1 ++ [o1]) ∧ Spec.known cfg (h1 ++ [o1]) ≤ s.gncW.length := by
  induction r with
  | init => exact Or.inl rfl
  | @step h s op s' x r e ih =>
    have ih := ih (fun o ho => hm o (by simp [ho]))
    obtain ⟨s1, o, h1, h2⟩ := exec_ok_phase hr e
    obtain ⟨hw1, hw2, -⟩ := (phase1_sameW cfg env (hm op (by simp))).of_ok h1
    obtain ⟨g1, g2, g3⟩ := phase1_size he hr r hm h1
    rcases h2 with ⟨ho', ho⟩ | ⟨_, rfl⟩
    · obtain ⟨w1, w2, w3⟩ := optimize_weights hr ho
      have hf := (optimize_frame cfg env).of_ok ho
      have hfl := phase1_flag h1
      refine Or.inr ⟨h, op, [], by simp, by rw [← hfl, ho'], ?_, ?_⟩
      · have := (r.step e).reach.supplied hr
        omega
      · have hk := (buildGraph_known env s1.pcm).1
        unfold Spec.known
        rw [w1, hf.nfg, g1, ← g2, ← g3]
        exact hk
    · rw [hw1, hw2]
      rcases ih with ih | ⟨a, b, c, rfl, q⟩
      · exact Or.inl ih
      · exact Or.inr ⟨a, b, c ++ [op], by simp, q⟩

/-- The optimization at the end of a call has enough weights. -/
theorem ReachOk.enough {cfg : Cfg G T N} {env : Env G N} (he : env.Ok) (hr : cfg.rejection = true) {h : List (Op G N)}
    {s : St G T N} (r : ReachOk cfg env h s) {op : Op G N} (hm : ∀ o ∈ h ++ [op], Spec.Managed o)
    (hmod : Spec.Covered cfg (h ++ [op])) {s1 : St G T N} {x : Ret} (e1 : phase1 cfg env op s = .ok s1 (x, true))
    (hu : useGncNow cfg s1 = false) : s1.latest ≤ s1.gncW.length ∧ s1.latest ≤ s1.nfg.length := by
  obtain ⟨w1, w2, -⟩ := (phase1_sameW cfg env (hm op (by simp))).of_ok e1
  obtain ⟨g1, g2, g3⟩ := phase1_size he hr r hm e1
  have hk := (buildGraph_known env s1.pcm).1
  rw [w1, w2, g1]
  rcases r.marked he hr (fun o ho => hm o (by simp [ho])) with h0 | ⟨h1, o1, h2, rfl, ho, q1, q2⟩
  · rw [h0]; exact ⟨Nat.zero_le _, Nat.zero_le _⟩
  · obtain ⟨a, b⟩ := hmod.modest hr hu h1 o1 h2 op (List.prefix_refl _) ho (phase1_flag e1).symm
    rw [g2, g3] at hk
    unfold Spec.known at *
    omega

theorem saveData_clean (s : St G T N) : Clean (saveData s) := by
  unfold saveData
  split
  · trivial
  · exact Exn.noConfusion

theorem getNumLC_clean {cfg : Cfg G T N} (hr : cfg.rejection = true) (s : St G T N) : Clean (getNumLC cfg s) := by
  unfold getNumLC
  rw [if_pos hr]
  trivial

theorem getNumLCInliers_clean {cfg : Cfg G T N} (hr : cfg.rejection = true) (s : St G T N) : Clean (getNumLCInliers cfg s) := by
  unfold getNumLCInliers
  split
  · trivial
  · first | trivial | (rw [if_pos hr]; trivial)

theorem logStatus_clean {cfg : Cfg G T N} (hr : cfg.rejection = true) (s : St G T N) : Clean (logStatus cfg s) := by
  unfold logStatus
  exact Clean.bind (getNumLC_clean hr _) fun _ _ _ => Clean.bind (getNumLCInliers_clean hr _) fun _ _ _ => saveData_clean _

/-- The first phase of a managed call that removes no closure. -/
theorem phase1_clean {cfg : Cfg G T N} {env : Env G N} (hr : cfg.rejection = true) {op : Op G N} (hm : Spec.Managed op)
    (hn : ¬ Spec.Removes op) {s : St G T N} (ht : Spec.batch op ≠ none → Tidy cfg s.pcm)
    (hf : ∀ b ∈ Spec.opBtws op, Spec.Fair cfg b) : Clean (phase1 cfg env op s) := by
  cases op with
  | update fs vs o => exact Clean.ret (removeOutliers_clean env vs (ht (by simp [Spec.batch])) hf)
  | forceUpdate fs vs => exact Clean.ret (removeOutliers_clean env vs (ht (by simp [Spec.batch])) hf)
  | removePriors c o => trivial
  | removeLastPair a b => exact absurd trivial hn
  | removeLast => exact absurd trivial hn
  | ignore c => trivial
  | revive c => trivial
  | getNumLC => exact Clean.ret (Clean.ret (getNumLC_clean hr s))
  | getNumLCInliers => exact Clean.ret (Clean.ret (getNumLCInliers_clean hr s))
  | saveData => exact Clean.ret (Clean.ret (saveData_clean s))
  | updateValues vs => exact Clean.ret (Clean.ret (applyResult_clean vs s))
  | tempUpdate fs vs => exact Clean.ret (Clean.bind (Clean.zoom (insertVals_clean _ _)) fun _ _ _ => trivial)
  | tempReplace fs vs => trivial
  | tempClear => trivial
  | removeFactors _ => exact absurd hm (by simp [Spec.Managed])
  | removeLastFactor => exact absurd hm (by simp [Spec.Managed])
  | removePriorsGeneric _ => exact absurd hm (by simp [Spec.Managed])
  | genericUpdate _ _ _ => exact absurd hm (by simp [Spec.Managed])

/-- The first phase of a removal. -/
theorem phase1_removes_mild {cfg : Cfg G T N} {env : Env G N} {op : Op G N} (hn : Spec.Removes op) {s : St G T N} {b : Bool}
    (hs : ∀ id m, AList.get? ObsId.eqv s.pcm.lcs id = some m → Mild b (removeLastMeas m)) : Mild b (phase1 cfg env op s) := by
  have ret : ∀ {α β : Type} {m : M (St G T N) α} {f : α → β}, Mild b (m s) → Mild b (m.ret f s) :=
    fun h => Mild.bind h fun _ _ _ => trivial
  cases op with
  | removeLastPair x y => exact ret (removeLastOfPair_mild fun m hm => hs _ m hm)
  | removeLast =>
    refine ret ?_
    rw [removeLastPcm_eq]
    split
    · trivial
    · rename_i id _
      exact removeLastOfPair_mild fun m hm => hs id m hm
  | _ => exact absurd hn (by simp [Spec.Removes])

/-- Undefined behaviour and exceptions of a call, from those of its phases. -/
theorem exec_mild {cfg : Cfg G T N} {env : Env G N} (hr : cfg.rejection = true) {op : Op G N} {s : St G T N} {b : Bool}
    (h1 : Mild b (phase1 cfg env op s))
    (h2 : ∀ s1 r, phase1 cfg env op s = .ok s1 (r, true) → Mild b (optimize cfg env s1)) : Mild b (exec cfg env op s) := by
  rw [exec_phase env hr]
  refine Mild.bind h1 fun s1 x e => ?_
  obtain ⟨r, o⟩ := x
  refine Mild.bind ?_ fun s2 _ _ => Mild.bind ?_ fun _ _ _ => trivial
  · cases o with
    | true => exact h2 s1 r e
    | false => trivial
  · unfold M.when
    split
    · exact Mild.of_clean (logStatus_clean hr _)
    · trivial

end RPGO
