import Verif.Proofs.Print
/-
The messages in the quiet modes, and what the messages of a batch are.
-/

namespace RPGO
open Spec (hush thin loud)
variable {G T N : Type} {σ τ α β : Type}

/-- `m'` does what `m` does but writes the loud messages only. -/
def Thins (m m' : M (Talk σ) α) : Prop := ∀ q, m' (q.1, q.2.filter loud) = thin (m q)

theorem Thins.mute (m : M σ α) : Thins (mute m) (mute m) := by
  intro q
  unfold RPGO.mute M.zoom
  simp only
  cases m q.1 <;> rfl

theorem Thins.pure (a : α) : Thins (M.pure a : M (Talk σ) α) (M.pure a) := fun _ => rfl
theorem Thins.raise (e : Exn) : Thins (M.raise e : M (Talk σ) α) (M.raise e) := fun _ => rfl

theorem Thins.loudly {c : Bool} {f : σ → Msg} (h : ∀ s, loud (f s) = true) : Thins (tell c f) (tell c f) := by
  intro q
  cases c
  · rfl
  · show Out.ok (q.1, q.2.filter loud ++ [f q.1]) () = .ok (q.1, (q.2 ++ [f q.1]).filter loud) ()
    rw [List.filter_append, List.filter_cons, if_pos (h _)]
    rfl

theorem Thins.softly {c c' : Bool} (hc : c' = false) {f : σ → Msg} (h : ∀ s, loud (f s) = false) : Thins (tell c f) (tell c' f) := by
  intro q
  subst hc
  cases c
  · rfl
  · show Out.ok (q.1, q.2.filter loud) () = .ok (q.1, (q.2 ++ [f q.1]).filter loud) ()
    rw [List.filter_append, List.filter_cons, if_neg (by simp [h])]
    simp

theorem Thins.say {c : Bool} {m : Msg} (h : loud m = true) : Thins (say (σ := σ) c m) (RPGO.say c m) := Thins.loudly fun _ => h
theorem Thins.whisper {c : Bool} {m : Msg} (h : loud m = false) : Thins (RPGO.say (σ := σ) c m) (RPGO.say false m) :=
  Thins.softly rfl fun _ => h

theorem Thins.bind {m m' : M (Talk σ) α} {f f' : α → M (Talk σ) β} (h : Thins m m') (hf : ∀ a, Thins (f a) (f' a)) :
    Thins (M.bind m f) (M.bind m' f') := by
  intro q
  rw [M.bind_apply, h q, M.bind_apply]
  cases m q with
  | ok q1 a => exact hf a q1
  | throw _ _ => rfl
  | ub _ => rfl

/-- The state may be read. -/
theorem Thins.get {f f' : Talk σ → M (Talk σ) β} (hf : ∀ q, f' (q.1, q.2.filter loud) (q.1, q.2.filter loud) = thin (f q q)) :
    Thins (M.bind M.get f) (M.bind M.get f') := by
  intro q
  rw [M.bind_ok (M.get_apply _), M.bind_ok (M.get_apply _)]
  exact hf q

theorem Thins.when {c : Bool} {m m' : M (Talk σ) Unit} (h : Thins m m') : Thins (M.when c m) (M.when c m') := by
  cases c
  · exact fun _ => rfl
  · exact h

theorem Thins.cond {c : Bool} {m1 m2 m1' m2' : M (Talk σ) α} (h1 : Thins m1 m1') (h2 : Thins m2 m2') :
    Thins (M.cond c m1 m2) (M.cond c m1' m2') := by
  cases c
  · exact h2
  · exact h1

theorem Thins.onPcm {m m' : M (Talk (Pcm G T N)) α} (h : Thins m m') : Thins (onPcmT m) (onPcmT m') := by
  intro q
  unfold onPcmT M.zoom
  simp only
  rw [h (q.1.pcm, q.2)]
  cases m (q.1.pcm, q.2) <;> rfl

theorem Thins.forEach {f f' : β → M (Talk σ) Unit} (h : ∀ b, Thins (f b) (f' b)) (l : List β) :
    Thins (M.forEach f l) (M.forEach f' l) := by
  induction l with
  | nil => exact Thins.pure ()
  | cons b l ih => exact (h b).bind fun _ => ih

theorem Thins.sortFactors (cfg : Cfg G T N) (v : Bool) (nv vals : Vals G) (fs : Graph G N) :
    ∀ (lcs : List (Btw G N)) (opt : Bool), Thins (sortFactorsT cfg v nv vals fs lcs opt) (sortFactorsT cfg false nv vals fs lcs opt) := by
  induction fs with
  | nil => intro _ _; exact Thins.pure _
  | cons f fs ih =>
    intro lcs opt
    cases f with
    | none => exact ih lcs opt
    | some f =>
      unfold sortFactorsT
      simp only [M.bind_eq]
      have special : Thins (M.bind (RPGO.mute (M.modify fun p => { p with special := p.special ++ [f] })) (fun _ => sortFactorsT cfg v nv vals fs lcs true))
          (M.bind (RPGO.mute (M.modify fun p => { p with special := p.special ++ [f] })) (fun _ => sortFactorsT cfg false nv vals fs lcs true)) :=
        (Thins.mute _).bind fun _ => ih lcs true
      cases f with
      | btw b =>
        cases classify cfg nv (.btw b) with
        | odometry => exact (Thins.mute _).bind fun _ => ih lcs opt
        | firstLandmark => exact (Thins.whisper rfl).bind fun _ => (Thins.mute _).bind fun _ => ih lcs opt
        | loopClosure =>
          simp only
          split
          · exact ih _ opt
          · exact (Thins.say rfl).bind fun _ => ih lcs opt
        | nonBetween => exact special
      | _ => exact special

theorem landmarkWarnings_loud (l : Key) (y : Btw G N) (xs : List (Btw G N)) {m : Msg} (h : m ∈ landmarkWarnings l y xs) :
    m = .backwards ∨ m = .apart := by
  induction xs with
  | nil => cases h
  | cons x xs ih =>
    unfold landmarkWarnings at h
    split at h
    · exact .inl (List.mem_singleton.1 h)
    · rcases List.mem_append.1 h with h | h
      · split at h
        · exact .inr (List.mem_singleton.1 h)
        · cases h
      · exact ih h

theorem Thins.warnLandmark (l : Key) (y : Btw G N) : Thins (warnLandmark (T := T) l y) (RPGO.warnLandmark l y) := by
  intro q
  show Out.ok (q.1, q.2.filter loud ++ _) () = .ok (q.1, (q.2 ++ _).filter loud) ()
  rw [List.filter_append]
  congr 3
  symm
  rw [List.filter_eq_self]
  intro m hm
  rcases landmarkWarnings_loud _ _ _ hm with h | h <;> rw [h] <;> rfl

theorem Thins.parseLoops (cfg : Cfg G T N) (v : Bool) (vals : Vals G) (bs : List (Btw G N)) :
    ∀ num, Thins (parseLoopsT cfg v vals bs num) (parseLoopsT cfg false vals bs num) := by
  induction bs with
  | nil => intro _; exact Thins.pure _
  | cons b bs ih =>
    intro num
    unfold parseLoopsT
    simp only [M.bind_eq]
    split
    · exact (Thins.say rfl).bind fun _ => ih num
    · split
      · exact (Thins.whisper rfl).bind fun _ => (Thins.mute _).bind fun _ => (Thins.warnLandmark _ _).bind fun _ => ih num
      · refine (Thins.mute _).bind fun ok => ?_
        cases ok with
        | true => exact (Thins.whisper rfl).bind fun _ => (Thins.mute _).bind fun _ => ih _
        | false => exact (Thins.whisper rfl).bind fun _ => ih num

section
variable [Mul G] [Inv G] [One G]

theorem Thins.alignStep (cfg : Cfg G T N) (env : Env G N) : Thins (alignStepT cfg env) (alignStepT cfg env) := by
  intro q
  unfold alignStepT
  simp only
  split
  · have h : ∀ (p : Pcm G T N) (rs : List Chr), Thins (alignValuesT cfg env p rs) (alignValuesT cfg env p rs) := by
      intro p rs
      cases rs with
      | nil => exact Thins.pure ()
      | cons r0 rs =>
        exact (Thins.mute _).bind fun _ => Thins.forEach (fun ri => (Thins.mute _).bind fun _ => Thins.say rfl) rs
    rw [h _ _ (q.1.values, q.2)]
    cases alignValuesT cfg env _ _ (q.1.values, q.2) <;> rfl
  · rfl

theorem Thins.removeOutliers (cfg : Cfg G T N) (v : Bool) (env : Env G N) (fs : Graph G N) (vs : Vals G) :
    Thins (removeOutliersT cfg v env fs vs) (removeOutliersT cfg false env fs vs) := by
  unfold removeOutliersT
  simp only [M.bind_eq]
  refine (Thins.mute _).bind fun _ => Thins.cond (Thins.pure _) ?_
  unfold processFactorsT
  simp only [M.bind_eq]
  refine Thins.get fun q => ?_
  refine Thins.bind (m := onPcmT (sortFactorsT cfg v vs q.1.values fs [] false)) (Thins.onPcm (Thins.sortFactors _ _ _ _ _ _ _)) (fun r => ?_) q
  refine Thins.bind (Thins.when (Thins.onPcm ?_)) fun _ => Thins.bind (Thins.mute _) fun _ => (Thins.alignStep cfg env).bind fun _ =>
    (Thins.softly rfl fun _ => rfl).bind fun _ => Thins.pure _
  unfold processCandsT
  simp only [M.bind_eq]
  exact (Thins.parseLoops _ _ _ _ _).bind fun num => (Thins.softly rfl fun _ => rfl).bind fun _ => (Thins.mute _).bind fun _ =>
    Thins.softly rfl fun _ => rfl

theorem Thins.optimize (cfg : Cfg G T N) (env : Env G N) : Thins (optimizeT cfg env) (optimizeT cfg env) := by
  unfold optimizeT
  simp only [M.bind_eq]
  refine Thins.get fun q => ?_
  simp only
  cases mergeVals q.1.values q.1.tempValues with
  | none => rfl
  | some full =>
    simp only
    refine Thins.bind (Thins.say rfl) (fun _ => Thins.bind (Thins.cond ?_ ?_) fun r => ?_) q
    · exact (Thins.mute _).bind fun r => (Thins.loudly fun _ => rfl).bind fun _ => Thins.pure r
    · exact (Thins.mute _).bind fun r => (Thins.loudly fun _ => rfl).bind fun _ => Thins.pure r
    · exact (Thins.mute _).bind fun _ => Thins.mute _

theorem Thins.exec (cfg : Cfg G T N) (v : Bool) (env : Env G N) (op : Op G N) :
    Thins (execT cfg v env op) (execT cfg false env op) := by
  cases op with
  | update fs vs opt =>
    refine Thins.bind ?_ fun _ => Thins.pure _
    exact (Thins.cond (Thins.removeOutliers _ _ _ _ _) (Thins.mute _)).bind fun r => (Thins.when (Thins.optimize cfg env)).bind fun _ => Thins.mute _
  | forceUpdate fs vs =>
    refine Thins.bind ?_ fun _ => Thins.pure _
    exact (Thins.cond (Thins.removeOutliers _ _ _ _ _) (Thins.mute _)).bind fun r => (Thins.optimize cfg env).bind fun _ => Thins.mute _
  | removePriors c opt =>
    refine Thins.bind ?_ fun _ => Thins.pure _
    exact (Thins.mute _).bind fun _ => Thins.when (Thins.optimize cfg env)
  | removeLastPair a b =>
    refine Thins.bind ?_ fun _ => Thins.pure _
    exact (Thins.mute _).bind fun _ => (Thins.optimize cfg env).bind fun _ => Thins.pure _
  | removeLast =>
    refine Thins.bind ?_ fun _ => Thins.pure _
    exact (Thins.mute _).bind fun _ => (Thins.optimize cfg env).bind fun _ => Thins.pure _
  | ignore c =>
    refine Thins.bind ?_ fun _ => Thins.pure _
    exact (Thins.mute _).bind fun _ => (Thins.say rfl).bind fun _ => Thins.optimize cfg env
  | revive c =>
    refine Thins.bind ?_ fun _ => Thins.pure _
    exact (Thins.mute _).bind fun _ => (Thins.say rfl).bind fun _ => Thins.optimize cfg env
  | genericUpdate fs vs rm =>
    refine Thins.bind ?_ fun _ => Thins.pure _
    unfold genericUpdateT
    simp only [M.bind_eq]
    refine (Thins.mute _).bind fun _ => (Thins.mute _).bind fun lc => ?_
    split
    · refine Thins.get fun q => ?_
      simp only
      cases mergeVals q.1.values q.1.tempValues with
      | none => rfl
      | some full =>
        simp only
        refine Thins.bind (Thins.say rfl) (fun _ => ?_) q
        cases env.opt _ full with
        | none => exact Thins.raise _
        | some r => exact Thins.mute _
    · exact Thins.pure _
  | _ => exact Thins.mute _

end

end RPGO
