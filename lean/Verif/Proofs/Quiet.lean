import Verif.Model.Quiet
import Verif.Proofs.Print2
import Verif.Proofs.Print4
import Verif.Proofs.Sim
/-
Silencing the solver changes what it writes and nothing else, except where a message would use the missing rejection object.
-/

namespace RPGO.Spec

/-- What the solver itself prints when it optimizes. -/
def bySolver : Msg → Bool
  | .running .. | .optimized .. | .gncOptimized .. => true
  | _ => false

end RPGO.Spec

namespace RPGO
open Spec (bySolver)
variable {G T N : Type} {σ τ α β : Type} {B : Prop}

/-- The messages that do not come from the solver itself. -/
abbrev others (l : List Msg) : List Msg := l.filter fun m => !bySolver m

/-- An outcome together with the messages written so far. -/
def attach (l : List Msg) : Out σ α → Out (Talk σ) α
  | .ok s a => .ok (s, l) a
  | .throw s e => .throw (s, l) e
  | .ub u => .ub u

/-- Two ends, of runs that started with the messages `l` and `l'`: equal but for the messages of the solver, or `B` holds and the first
uses a missing object. -/
def LowO (B : Prop) (l l' : List Msg) (o o' : Out (Talk σ) α) : Prop :=
  (∃ p w, o = attach (l ++ w) p ∧ o' = attach (l' ++ others w) p) ∨ (B ∧ o = .ub .nullDeref)

/-- `m'` does what `m` does without the messages of the solver, unless `B` holds and `m` uses a missing rejection object. -/
def Lowers (B : Prop) (m m' : M (Talk σ) α) : Prop := ∀ s l l', LowO B l l' (m (s, l)) (m' (s, l'))

theorem LowO.same {l l' : List Msg} (p : Out σ α) : LowO B l l' (attach l p) (attach l' p) :=
  .inl ⟨p, [], by simp, by simp [others]⟩

theorem Lowers.mute (m : M σ α) : Lowers B (mute m) (mute m) := by
  intro s l l'
  have h : ∀ l, RPGO.mute m (s, l) = attach l (m s) := by
    intro l
    unfold RPGO.mute M.zoom
    simp only
    cases m s <;> rfl
  rw [h, h]
  exact LowO.same _

theorem Lowers.pure (a : α) : Lowers B (M.pure a : M (Talk σ) α) (M.pure a) := fun s _ _ => LowO.same (.ok s a)
theorem Lowers.raise (e : Exn) : Lowers B (M.raise e : M (Talk σ) α) (M.raise e) := fun s _ _ => LowO.same (.throw s e)

theorem Lowers.tell {c : Bool} {f : σ → Msg} (h : ∀ s, bySolver (f s) = false) : Lowers B (tell c f) (RPGO.tell c f) := by
  intro s l l'
  cases c
  · exact LowO.same (.ok s ())
  · refine .inl ⟨.ok s (), [f s], rfl, ?_⟩
    have : others [f s] = [f s] := by simp [others, h]
    rw [this]
    rfl

theorem Lowers.drop {c c' : Bool} (hc : c' = false) {f : σ → Msg} (h : ∀ s, bySolver (f s) = true) : Lowers B (RPGO.tell c f) (RPGO.tell c' f) := by
  intro s l l'
  subst hc
  cases c
  · exact LowO.same (.ok s ())
  · refine .inl ⟨.ok s (), [f s], rfl, ?_⟩
    have : others [f s] = [] := by simp [others, h]
    rw [this, List.append_nil]
    rfl

theorem Lowers.say {c : Bool} {m : Msg} (h : bySolver m = false) : Lowers B (say (σ := σ) c m) (RPGO.say c m) := Lowers.tell fun _ => h

theorem Lowers.hide {c c' : Bool} (hc : c' = false) {m : Msg} (h : bySolver m = true) : Lowers B (RPGO.say (σ := σ) c m) (RPGO.say c' m) :=
  Lowers.drop hc fun _ => h

theorem Lowers.bind {m m' : M (Talk σ) α} {f f' : α → M (Talk σ) β} (h : Lowers B m m') (hf : ∀ a, Lowers B (f a) (f' a)) :
    Lowers B (M.bind m f) (M.bind m' f') := by
  intro s l l'
  rcases h s l l' with ⟨p, w, h1, h2⟩ | ⟨hB, h⟩
  · rw [M.bind_apply, M.bind_apply, h1, h2]
    cases p with
    | ok s1 a =>
      rcases hf a s1 (l ++ w) (l' ++ others w) with ⟨p, w', h3, h4⟩ | h
      · refine .inl ⟨p, w ++ w', ?_, ?_⟩
        · rw [← List.append_assoc]; exact h3
        · have : others (w ++ w') = others w ++ others w' := List.filter_append ..
          rw [this, ← List.append_assoc]
          exact h4
      · exact .inr h
    | throw s1 e => exact .inl ⟨.throw s1 e, w, rfl, rfl⟩
    | ub u => exact .inl ⟨.ub u, w, rfl, rfl⟩
  · right
    rw [M.bind_apply, h]
    exact ⟨hB, rfl⟩

theorem Lowers.get {f f' : Talk σ → M (Talk σ) β} (hf : ∀ s l l', LowO B l l' (f (s, l) (s, l)) (f' (s, l') (s, l'))) :
    Lowers B (M.bind M.get f) (M.bind M.get f') := by
  intro s l l'
  rw [M.bind_ok (M.get_apply _), M.bind_ok (M.get_apply _)]
  exact hf s l l'

theorem Lowers.when {c : Bool} {m m' : M (Talk σ) Unit} (h : Lowers B m m') : Lowers B (M.when c m) (M.when c m') := by
  cases c
  · exact Lowers.pure ()
  · exact h

theorem Lowers.cond {c : Bool} {m1 m2 m1' m2' : M (Talk σ) α} (h1 : Lowers B m1 m1') (h2 : Lowers B m2 m2') :
    Lowers B (M.cond c m1 m2) (M.cond c m1' m2') := by
  cases c
  · exact h2
  · exact h1

theorem Lowers.onPcm {m m' : M (Talk (Pcm G T N)) α} (h : Lowers B m m') : Lowers B (onPcmT m) (onPcmT m') := by
  intro s l l'
  unfold onPcmT M.zoom
  simp only
  rcases h s.pcm l l' with ⟨p, w, h1, h2⟩ | ⟨hB, h⟩
  · rw [h1, h2]
    cases p with
    | ok p a => exact .inl ⟨.ok { s with pcm := p } a, w, rfl, rfl⟩
    | throw p e => exact .inl ⟨.throw { s with pcm := p } e, w, rfl, rfl⟩
    | ub u => exact .inl ⟨.ub u, w, rfl, rfl⟩
  · right
    rw [h]
    exact ⟨hB, rfl⟩

theorem Lowers.forEach {f f' : β → M (Talk σ) Unit} (h : ∀ b, Lowers B (f b) (f' b)) (l : List β) :
    Lowers B (M.forEach f l) (M.forEach f' l) := by
  induction l with
  | nil => exact Lowers.pure ()
  | cons b l ih => exact (h b).bind fun _ => ih

theorem Lowers.sortFactors (cfg : Cfg G T N) (v : Bool) (nv vals : Vals G) (fs : Graph G N) (d : Bool) :
    ∀ (lcs : List (Btw G N)) (opt : Bool), Lowers B (sortFactorsT cfg v nv vals fs lcs opt) (sortFactorsT (cfg.talk d) v nv vals fs lcs opt) := by
  induction fs with
  | nil => intro _ _; exact Lowers.pure _
  | cons f fs ih =>
    intro lcs opt
    cases f with
    | none => exact ih lcs opt
    | some f =>
      unfold sortFactorsT
      simp only [M.bind_eq]
      have special : Lowers B (M.bind (RPGO.mute (M.modify fun p => { p with special := p.special ++ [f] })) (fun _ => sortFactorsT cfg v nv vals fs lcs true))
          (M.bind (RPGO.mute (M.modify fun p => { p with special := p.special ++ [f] })) (fun _ => sortFactorsT (cfg.talk d) v nv vals fs lcs true)) :=
        (Lowers.mute _).bind fun _ => ih lcs true
      have hc : classify (cfg.talk d) nv f = classify cfg nv f := rfl
      rw [hc]
      cases f with
      | btw b =>
        cases classify cfg nv (.btw b) with
        | odometry => exact (Lowers.mute (updateOdom cfg vals b)).bind fun _ => ih lcs opt
        | firstLandmark => exact (Lowers.say rfl).bind fun _ => (Lowers.mute (M.modify fun p =>
            { updLm p (landmarkKey cfg b) (fun _ => ⟨[b], [b], Mat.zero 1⟩) with totalLc := p.totalLc + 1 })).bind fun _ => ih lcs opt
        | loopClosure =>
          simp only
          split
          · exact ih _ opt
          · exact (Lowers.say rfl).bind fun _ => ih lcs opt
        | nonBetween => exact special
      | _ => exact special

theorem Lowers.warnLandmark (k : Key) (y : Btw G N) : Lowers B (warnLandmark (T := T) k y) (RPGO.warnLandmark k y) := by
  intro s l l'
  refine .inl ⟨.ok s (), landmarkWarnings k y (lmOf s k).factors.dropLast, rfl, ?_⟩
  have : others (landmarkWarnings k y (lmOf s k).factors.dropLast) = landmarkWarnings k y (lmOf s k).factors.dropLast := by
    unfold others
    rw [List.filter_eq_self]
    intro m hm
    rcases landmarkWarnings_loud _ _ _ hm with h | h <;> rw [h] <;> rfl
  rw [this]
  rfl

theorem registerLc_talk (cfg : Cfg G T N) (d : Bool) : registerLc (cfg.talk d) = registerLc cfg :=
  registerLc_withOpt cfg cfg.lm d cfg.log cfg.useGnc cfg.fixPrev cfg.biasOdom
theorem registerLm_talk (cfg : Cfg G T N) (d : Bool) : registerLm (cfg.talk d) = registerLm cfg :=
  registerLm_withOpt cfg cfg.lm d cfg.log cfg.useGnc cfg.fixPrev cfg.biasOdom

theorem Lowers.parseLoops (cfg : Cfg G T N) (v : Bool) (vals : Vals G) (bs : List (Btw G N)) (d : Bool) :
    ∀ num, Lowers B (parseLoopsT cfg v vals bs num) (parseLoopsT (cfg.talk d) v vals bs num) := by
  induction bs with
  | nil => intro _; exact Lowers.pure _
  | cons b bs ih =>
    intro num
    have hs : ∀ c, (cfg.talk d).isSpecial c = cfg.isSpecial c := fun _ => rfl
    have hk : landmarkKey (cfg.talk d) b = landmarkKey cfg b := rfl
    have ho : isOdomConsistent (cfg.talk d) b = isOdomConsistent cfg b := rfl
    unfold parseLoopsT
    simp only [M.bind_eq, registerLc_talk, registerLm_talk, hs, hk, ho]
    split
    · exact (Lowers.say rfl).bind fun _ => ih num
    · split
      · exact (Lowers.say rfl).bind fun _ => (Lowers.mute _).bind fun _ => (Lowers.warnLandmark _ _).bind fun _ => ih num
      · refine (Lowers.mute _).bind fun ok => ?_
        cases ok with
        | true => exact (Lowers.say rfl).bind fun _ => (Lowers.mute _).bind fun _ => ih _
        | false => exact (Lowers.say rfl).bind fun _ => ih num

section
variable [Mul G] [Inv G] [One G]

theorem alignCandidates_talk (cfg : Cfg G T N) (d : Bool) : alignCandidates (cfg.talk d) = alignCandidates cfg :=
  alignCandidates_withOpt cfg cfg.lm d cfg.log cfg.useGnc cfg.fixPrev cfg.biasOdom

theorem Lowers.alignStep (cfg : Cfg G T N) (env : Env G N) (d : Bool) : Lowers B (alignStepT cfg env) (alignStepT (cfg.talk d) env) := by
  intro s l l'
  have h : ∀ (p : Pcm G T N) (rs : List Chr), Lowers B (alignValuesT cfg env p rs) (alignValuesT (cfg.talk d) env p rs) := by
    intro p rs
    cases rs with
    | nil => exact Lowers.pure ()
    | cons r0 rs =>
      refine (Lowers.mute (updateVals (robotOdomValues cfg (trajOf p r0) 1))).bind fun _ => Lowers.forEach (fun ri => ?_) rs
      have h1 : alignRobot (cfg.talk d) env p r0 ri = alignRobot cfg env p r0 ri := by
        unfold alignRobot
        rw [alignCandidates_talk]
        rfl
      have h2 : passedOver (cfg.talk d) p r0 ri = passedOver cfg p r0 ri := by
        unfold passedOver
        rw [alignCandidates_talk]
      unfold alignRobotT
      rw [h1, h2]
      exact (Lowers.mute _).bind fun _ => Lowers.say rfl
  unfold alignStepT
  have ha : (cfg.talk d).align = cfg.align := rfl
  have hg : (cfg.talk d).charSigned = cfg.charSigned := rfl
  simp only [ha, hg]
  split
  · rcases h { s.pcm with robotOrder := sortRobots cfg.charSigned s.pcm.robotOrder } (sortRobots cfg.charSigned s.pcm.robotOrder)
      s.values l l' with ⟨p, w, h1, h2⟩ | ⟨hB, h⟩
    · rw [h1, h2]
      cases p with
      | ok v a => exact .inl ⟨.ok { s with pcm := { s.pcm with robotOrder := sortRobots cfg.charSigned s.pcm.robotOrder }, values := v } (), w, rfl, rfl⟩
      | throw v e => exact .inl ⟨.throw { s with pcm := { s.pcm with robotOrder := sortRobots cfg.charSigned s.pcm.robotOrder } } e, w, rfl, rfl⟩
      | ub u => exact .inl ⟨.ub u, w, rfl, rfl⟩
    · right
      rw [h]
      exact ⟨hB, rfl⟩
  · exact LowO.same (.ok s ())

theorem Lowers.removeOutliers (cfg : Cfg G T N) (v : Bool) (env : Env G N) (fs : Graph G N) (vs : Vals G) (d : Bool) :
    Lowers B (removeOutliersT cfg v env fs vs) (removeOutliersT (cfg.talk d) v env fs vs) := by
  unfold removeOutliersT
  simp only [M.bind_eq]
  refine (Lowers.mute _).bind fun _ => Lowers.cond (Lowers.pure _) ?_
  unfold processFactorsT
  simp only [M.bind_eq]
  refine Lowers.get fun s l l' => ?_
  refine Lowers.bind (m := onPcmT (sortFactorsT cfg v vs s.values fs [] false)) (Lowers.onPcm (Lowers.sortFactors _ _ _ _ _ _ _ _)) (fun r => ?_) s l l'
  refine Lowers.bind (Lowers.when (Lowers.onPcm ?_)) fun _ => Lowers.bind (Lowers.mute _) fun _ => (Lowers.alignStep cfg env d).bind fun _ =>
    (Lowers.tell fun _ => rfl).bind fun _ => Lowers.pure _
  unfold processCandsT
  simp only [M.bind_eq]
  exact (Lowers.parseLoops _ _ _ _ _ _).bind fun num => (Lowers.tell fun _ => rfl).bind fun _ =>
    (Lowers.mute (M.cond cfg.incremental (findInliersIncremental num) (findInliers cfg))).bind fun _ => Lowers.tell fun _ => rfl

theorem plainOptimize_talk (cfg : Cfg G T N) (env : Env G N) (full : Vals G) (s : St G T N) :
    plainOptimize (cfg.talk false) env full s = plainOptimize cfg env full s ∨
      (cfg.lm = true ∧ cfg.debug = true ∧ cfg.rejection = false) ∧ plainOptimize cfg env full s = .ub .nullDeref := by
  have hg : plainGraph (cfg.talk false) = plainGraph cfg := rfl
  unfold plainOptimize
  simp only [M.bind_eq]
  rw [hg, M.bind_apply, M.bind_apply]
  cases plainGraph cfg s with
  | throw _ _ => exact .inl rfl
  | ub _ => exact .inl rfl
  | ok s1 graph =>
    simp only
    cases env.opt graph full with
    | none => exact .inl rfl
    | some result =>
      simp only
      rw [M.bind_ok (M.get_apply _), M.bind_ok (M.get_apply _)]
      split
      · exact .inl rfl
      · split
        · exact .inl rfl
        · rw [M.bind_apply, M.bind_apply]
          simp only [M.modify]
          have hd : ((cfg.talk false).lm && (cfg.talk false).debug && !(cfg.talk false).rejection) = false := by
            show (cfg.lm && false && !cfg.rejection) = false
            simp
          rw [hd]
          cases hc : cfg.lm && cfg.debug && !cfg.rejection
          · exact .inl rfl
          · exact .inr ⟨by simpa [and_assoc] using hc, rfl⟩

/-- When a message of the solver uses the rejection object although there is none. -/
def BareLm (cfg : Cfg G T N) : Prop := cfg.lm = true ∧ cfg.debug = true ∧ cfg.rejection = false

theorem Lowers.plain (cfg : Cfg G T N) (env : Env G N) (full : Vals G) :
    Lowers (BareLm cfg) (RPGO.mute (plainOptimize cfg env full)) (RPGO.mute (plainOptimize (cfg.talk false) env full)) := by
  intro s l l'
  rcases plainOptimize_talk cfg env full s with h | ⟨hB, h⟩
  · have e : RPGO.mute (plainOptimize (cfg.talk false) env full) (s, l') = RPGO.mute (plainOptimize cfg env full) (s, l') := by
      unfold RPGO.mute M.zoom
      simp only
      rw [h]
    rw [e]
    exact Lowers.mute _ s l l'
  · right
    unfold RPGO.mute M.zoom
    simp only
    rw [h]
    exact ⟨hB, rfl⟩

theorem Lowers.optimize (cfg : Cfg G T N) (env : Env G N) : Lowers (BareLm cfg) (optimizeT cfg env) (optimizeT (cfg.talk false) env) := by
  unfold optimizeT
  simp only [M.bind_eq]
  refine Lowers.get fun s l l' => ?_
  simp only
  cases mergeVals s.values s.tempValues with
  | none => exact LowO.same (.throw s .keyExists)
  | some full =>
    simp only
    refine Lowers.bind (Lowers.hide rfl rfl) (fun _ => Lowers.bind (Lowers.cond ?_ ?_) fun r => ?_) s l l'
    · exact (Lowers.mute (gncOptimize cfg env full)).bind fun r => (Lowers.drop rfl fun _ => rfl).bind fun _ => Lowers.pure r
    · exact (Lowers.plain cfg env full).bind fun r => (Lowers.drop (by simp [Cfg.talk]) fun _ => rfl).bind fun _ => Lowers.pure r
    · exact (Lowers.mute _).bind fun _ => Lowers.mute _

theorem Lowers.exec (cfg : Cfg G T N) (v : Bool) (env : Env G N) (op : Op G N) :
    Lowers (BareLm cfg) (execT cfg v env op) (execT (cfg.talk false) v env op) := by
  have hl : logStatus (cfg.talk false) = logStatus cfg := rfl
  have hrm : removePriorsPcm (cfg.talk false) env = removePriorsPcm cfg env := rfl
  have hrg : removePriorsGeneric (cfg.talk false) = removePriorsGeneric cfg := rfl
  cases op with
  | update fs vs opt =>
    refine Lowers.bind ?_ fun _ => Lowers.pure _
    unfold updateT
    rw [hl]
    exact (Lowers.cond (Lowers.removeOutliers _ _ _ _ _ _) (Lowers.mute _)).bind fun r => (Lowers.when (Lowers.optimize cfg env)).bind fun _ => Lowers.mute _
  | forceUpdate fs vs =>
    refine Lowers.bind ?_ fun _ => Lowers.pure _
    unfold forceUpdateT
    rw [hl]
    exact (Lowers.cond (Lowers.removeOutliers _ _ _ _ _ _) (Lowers.mute _)).bind fun r => (Lowers.optimize cfg env).bind fun _ => Lowers.mute _
  | removePriors c opt =>
    refine Lowers.bind ?_ fun _ => Lowers.pure _
    unfold removePriorsT
    rw [hrm, hrg]
    exact (Lowers.mute _).bind fun _ => Lowers.when (Lowers.optimize cfg env)
  | removeLastPair a b =>
    refine Lowers.bind ?_ fun _ => Lowers.pure _
    exact (Lowers.mute _).bind fun _ => (Lowers.optimize cfg env).bind fun _ => Lowers.pure _
  | removeLast =>
    refine Lowers.bind ?_ fun _ => Lowers.pure _
    exact (Lowers.mute _).bind fun _ => (Lowers.optimize cfg env).bind fun _ => Lowers.pure _
  | ignore c =>
    refine Lowers.bind ?_ fun _ => Lowers.pure _
    exact (Lowers.mute _).bind fun _ => (Lowers.say rfl).bind fun _ => Lowers.optimize cfg env
  | revive c =>
    refine Lowers.bind ?_ fun _ => Lowers.pure _
    exact (Lowers.mute _).bind fun _ => (Lowers.say rfl).bind fun _ => Lowers.optimize cfg env
  | genericUpdate fs vs rm =>
    refine Lowers.bind ?_ fun _ => Lowers.pure _
    unfold genericUpdateT
    simp only [M.bind_eq]
    refine (Lowers.mute _).bind fun _ => (Lowers.mute _).bind fun lc => ?_
    split
    · refine Lowers.get fun s l l' => ?_
      simp only
      cases mergeVals s.values s.tempValues with
      | none => exact LowO.same (.throw s .keyExists)
      | some full =>
        simp only
        refine Lowers.bind (Lowers.hide rfl rfl) (fun _ => ?_) s l l'
        cases env.opt _ full with
        | none => exact Lowers.raise _
        | some r => exact Lowers.mute _
    · exact Lowers.pure _
  | _ => exact Lowers.mute (RPGO.exec cfg env _)

end

end RPGO
