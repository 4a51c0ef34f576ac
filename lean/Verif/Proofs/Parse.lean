import Verif.Proofs.Sort
import Mathlib.Tactic.Set
/-
Registration of loop closures and landmark observations.
-/

namespace RPGO
variable {G T N : Type}

/-- The robot pair of a closure. -/
def pairOf (b : Btw G N) : ObsId := ⟨chr b.k1, chr b.k2⟩

/-- Registration of closure `b` with the measurements of its robot pair; `f` are the pose lookups. -/
def growLc (cfg : Cfg G T N) (f : Chr → Key → T) (b : Btw G N) (m : Meas G N) : Meas G N where
  factors := m.factors ++ [b]
  cons := m.cons
  adj := if cfg.loopCheck then
      (if m.factors = [] then Mat.zero 1 else m.adj.grow (m.factors.map fun x => loopVerdict cfg f x b))
    else m.adj

/-- Registration of observation `b` of landmark `l`. -/
def growLm (cfg : Cfg G T N) (f : Chr → Key → T) (l : Key) (b : Btw G N) (m : Meas G N) : Meas G N where
  factors := m.factors ++ [b]
  cons := m.cons
  adj := if m.factors = [] then Mat.zero 1
    else if m.factors.any (fun x => decide (x.k1 = l ∨ b.k1 = l)) then m.adj
    else m.adj.grow (m.factors.map fun x => landVerdict cfg f x b)

def regLc (cfg : Cfg G T N) (f : Chr → Key → T) (p : Pcm G T N) (b : Btw G N) : Pcm G T N :=
  { updLc p (pairOf b) (growLc cfg f b) with inOrder := p.inOrder ++ [pairOf b], totalLc := p.totalLc + 1 }

def regLm (cfg : Cfg G T N) (f : Chr → Key → T) (p : Pcm G T N) (b : Btw G N) : Pcm G T N :=
  { updLm p (landmarkKey cfg b) (growLm cfg f (landmarkKey cfg b) b) with totalLc := p.totalLc + 1 }

/-- Are both keys known? -/
def known (vals : Vals G) (b : Btw G N) : Bool := vals.has b.k1 && vals.has b.k2

/-- Is the candidate registered as a pose-to-pose closure? -/
def acceptLc (cfg : Cfg G T N) (vals : Vals G) (f : Chr → Key → T) (b : Btw G N) : Bool :=
  known vals b && !Spec.isLandmark cfg b && (decide (chr b.k1 ≠ chr b.k2) || odomVerdict cfg f b)

/-- Is the candidate registered as a landmark observation? -/
def acceptLm (cfg : Cfg G T N) (vals : Vals G) (b : Btw G N) : Bool := known vals b && Spec.isLandmark cfg b

/-- One iteration of the loop over the candidates. -/
def parseStep (cfg : Cfg G T N) (vals : Vals G) (f : Chr → Key → T) (p : Pcm G T N) (b : Btw G N) : Pcm G T N :=
  if acceptLc cfg vals f b then regLc cfg f p b
  else if acceptLm cfg vals b then regLm cfg f p b
  else p

theorem special_or (cfg : Cfg G T N) (b : Btw G N) :
    (cfg.isSpecial (chr b.k1) || cfg.isSpecial (chr b.k2)) = Spec.isLandmark cfg b := by
  rw [Bool.eq_iff_iff]
  simp [Spec.isLandmark, isSpecial_iff]

theorem lcOf_updLc_self (p : Pcm G T N) (id : ObsId) (f : Meas G N → Meas G N) :
    lcOf (updLc p id f) id = f (lcOf p id) := by
  unfold lcOf updLc
  simp only
  rw [AList.get?_upd_self ObsId.isEqv]
  rfl

theorem lmOf_updLm_self (p : Pcm G T N) (k : Key) (f : Meas G N → Meas G N) :
    lmOf (updLm p k f) k = f (lmOf p k) := by
  unfold lmOf updLm
  simp only
  rw [AList.get?_upd_self AList.isEqv_beq]
  rfl

theorem updLc_updLc (p : Pcm G T N) (id : ObsId) (f g : Meas G N → Meas G N) :
    updLc (updLc p id f) id g = updLc p id (fun m => g (f m)) := by
  unfold updLc
  simp only
  rw [AList.upd_upd ObsId.isEqv]

theorem updLm_updLm (p : Pcm G T N) (k : Key) (f g : Meas G N → Meas G N) :
    updLm (updLm p k f) k g = updLm p k (fun m => g (f m)) := by
  unfold updLm
  simp only
  rw [AList.upd_upd AList.isEqv_beq]

theorem updLc_ext {p : Pcm G T N} {id : ObsId} {f g : Meas G N → Meas G N} (h : f (lcOf p id) = g (lcOf p id)) :
    updLc p id f = updLc p id g := by
  unfold updLc
  rw [AList.upd_ext h]

theorem updLm_ext {p : Pcm G T N} {k : Key} {f g : Meas G N → Meas G N} (h : f (lmOf p k) = g (lmOf p k)) :
    updLm p k f = updLm p k g := by
  unfold updLm
  rw [AList.upd_ext h]

theorem TrajOnly.lcOf {cfg : Cfg G T N} {p p' : Pcm G T N} (h : TrajOnly cfg p p') (id : ObsId) :
    lcOf p' id = lcOf p id := by rw [h.eq]; rfl

theorem TrajOnly.lmOf {cfg : Cfg G T N} {p p' : Pcm G T N} (h : TrajOnly cfg p p') (k : Key) :
    lmOf p' k = lmOf p k := by rw [h.eq]; rfl

/-- Adding the closure and growing the matrix: undefined if the matrix has the wrong size or a noise model is
not Gaussian, otherwise exactly `regLc`. -/
theorem register_lc (cfg : Cfg G T N) (b : Btw G N) (p : Pcm G T N) :
    (∃ u, registerLc cfg b p = .ub u ∧ cfg.loopCheck = true ∧
        (lcOf p (pairOf b)).factors ≠ [] ∧
        ((lcOf p (pairOf b)).adj.n ≠ (lcOf p (pairOf b)).factors.length ∨
          ∃ x ∈ (lcOf p (pairOf b)).factors, x.noise = none ∨ b.noise = none)) ∨
    (∃ p', registerLc cfg b p = .ok p' () ∧
        TrajOnly cfg (regLc cfg (lk cfg p) p b) p' ∧
        (cfg.loopCheck = true → (lcOf p (pairOf b)).factors = [] ∨
          ((lcOf p (pairOf b)).adj.n = (lcOf p (pairOf b)).factors.length ∧
            ∀ x ∈ (lcOf p (pairOf b)).factors, x.noise.isSome ∧ b.noise.isSome))) := by
  have hdef : registerLc cfg b = M.bind (M.modify fun p =>
      { updLc p (pairOf b) (fun m => { m with factors := m.factors ++ [b] }) with
        inOrder := p.inOrder ++ [pairOf b]
        totalLc := p.totalLc + 1 }) fun _ => M.when cfg.loopCheck (incrementAdj cfg (pairOf b) b) := rfl
  rw [hdef, M.bind_ok (M.modify_apply _ _)]
  unfold M.when
  cases hc : cfg.loopCheck with
  | false =>
    right
    refine ⟨_, rfl, ?_, by simp⟩
    have : regLc cfg (lk cfg p) p b =
        { updLc p (pairOf b) (fun m => { m with factors := m.factors ++ [b] }) with
            inOrder := p.inOrder ++ [pairOf b]
            totalLc := p.totalLc + 1 } := by
      unfold regLc
      rw [updLc_ext (f := growLc cfg (lk cfg p) b) (g := fun m => { m with factors := m.factors ++ [b] })]
      simp [growLc, hc]
    rw [this]
    exact TrajOnly.refl _
  | true =>
    simp only [if_true]
    unfold incrementAdj
    simp only [M.bind_eq]
    rw [M.bind_ok (M.get_apply _)]
    set p1 : Pcm G T N := { updLc p (pairOf b) (fun m => { m with factors := m.factors ++ [b] }) with
            inOrder := p.inOrder ++ [pairOf b]
            totalLc := p.totalLc + 1 } with hp1
    have hlc : lcOf p1 (pairOf b) = { lcOf p (pairOf b) with factors := (lcOf p (pairOf b)).factors ++ [b] } :=
      lcOf_updLc_self p (pairOf b) _
    simp only [hlc]
    by_cases h0 : (lcOf p (pairOf b)).factors = []
    · right
      simp only [h0, List.nil_append, List.length_singleton, le_refl, if_true, M.modify_apply]
      refine ⟨_, rfl, ?_, by simp⟩
      have : updLc p1 (pairOf b) (fun m => { m with adj := Mat.zero 1 }) = regLc cfg (lk cfg p) p b := by
        have h1 : updLc p1 (pairOf b) (fun m => { m with adj := Mat.zero 1 }) =
            { updLc (updLc p (pairOf b) (fun m => { m with factors := m.factors ++ [b] })) (pairOf b)
                (fun m => { m with adj := Mat.zero 1 }) with
              inOrder := p.inOrder ++ [pairOf b]
              totalLc := p.totalLc + 1 } := rfl
        rw [h1, updLc_updLc]
        unfold regLc
        rw [updLc_ext (g := growLc cfg (lk cfg p) b)]
        simp [growLc, hc, h0]
      rw [this]
      exact TrajOnly.refl _
    · have hlen : ¬((lcOf p (pairOf b)).factors ++ [b]).length ≤ 1 := by
        have : 0 < (lcOf p (pairOf b)).factors.length := List.length_pos_iff.2 h0
        simp only [List.length_append, List.length_singleton]; omega
      simp only [hlen, if_false]
      by_cases hn : (lcOf p (pairOf b)).adj.n = (lcOf p (pairOf b)).factors.length
      · have hn' : ¬ (lcOf p (pairOf b)).adj.n ≠ ((lcOf p (pairOf b)).factors ++ [b]).length - 1 := by
          simp [hn]
        rw [if_neg hn']
        have htake : ((lcOf p (pairOf b)).factors ++ [b]).take (((lcOf p (pairOf b)).factors ++ [b]).length - 1) =
            (lcOf p (pairOf b)).factors := by simp
        rw [htake]
        have hlk1 : lk cfg p1 = lk cfg p := rfl
        rcases pairVerdicts_spec cfg b (lcOf p (pairOf b)).factors p1 with ⟨_, ⟨x, hx, hxn⟩, e⟩ | ⟨hall, p2, e, t⟩
        · left
          refine ⟨.nullDeref, ?_, trivial, h0, Or.inr ⟨x, hx, hxn⟩⟩
          rw [M.bind_apply, e]
        · right
          rw [M.bind_ok e, M.modify_apply]
          refine ⟨_, rfl, ?_, fun _ => Or.inr ⟨hn, fun x hx => hall hc x hx⟩⟩
          have h2 : lcOf p2 (pairOf b) = _ := t.lcOf (pairOf b)
          refine ⟨?_, ?_, t.has, t.keep, t.sorted⟩
          · rw [hlk1]
            conv_lhs => rw [t.eq]
            generalize hvs : ((lcOf p (pairOf b)).factors.map fun x => loopVerdict cfg (lk cfg p) x b) = vs
            have h1 : updLc { p1 with trajs := p2.trajs } (pairOf b) (fun m => { m with adj := m.adj.grow vs }) =
              { updLc (updLc p (pairOf b) (fun m => { m with factors := m.factors ++ [b] })) (pairOf b)
                  (fun m => { m with adj := m.adj.grow vs }) with
                trajs := p2.trajs
                inOrder := p.inOrder ++ [pairOf b]
                totalLc := p.totalLc + 1 } := rfl
            rw [h1, updLc_updLc]
            unfold regLc
            rw [updLc_ext (g := growLc cfg (lk cfg p) b)]
            · simp only [updLc]
            · simp [growLc, hc, h0, hvs]
          · exact t.lk
      · left
        refine ⟨.eigen, ?_, trivial, h0, Or.inl hn⟩
        rw [if_pos]
        · rfl
        · simpa using hn

theorem register_lm (cfg : Cfg G T N) (b : Btw G N) (p : Pcm G T N) :
    (∃ u, registerLm cfg b p = .ub u ∧
        (lmOf p (landmarkKey cfg b)).factors ≠ [] ∧
        ((lmOf p (landmarkKey cfg b)).adj.n ≠ (lmOf p (landmarkKey cfg b)).factors.length ∨
          ∃ x ∈ (lmOf p (landmarkKey cfg b)).factors, x.noise = none ∨ b.noise = none)) ∨
    (∃ p', registerLm cfg b p = .ok p' () ∧
        TrajOnly cfg (regLm cfg (lk cfg p) p b) p' ∧
        ((lmOf p (landmarkKey cfg b)).factors = [] ∨
          (lmOf p (landmarkKey cfg b)).adj.n = (lmOf p (landmarkKey cfg b)).factors.length)) := by
  have hdef : registerLm cfg b = M.bind (M.modify fun p =>
      { updLm p (landmarkKey cfg b) (fun m => { m with factors := m.factors ++ [b] }) with
        totalLc := p.totalLc + 1 }) fun _ => incrementLandmarkAdj cfg (landmarkKey cfg b) := rfl
  rw [hdef, M.bind_ok (M.modify_apply _ _)]
  unfold incrementLandmarkAdj
  simp only [M.bind_eq]
  rw [M.bind_ok (M.get_apply _)]
  set l := landmarkKey cfg b with hl
  set p1 : Pcm G T N := { updLm p l (fun m => { m with factors := m.factors ++ [b] }) with
          totalLc := p.totalLc + 1 } with hp1
  have hlm : lmOf p1 l = { lmOf p l with factors := (lmOf p l).factors ++ [b] } := lmOf_updLm_self p l _
  simp only [hlm, List.getLast?_append, List.getLast?_singleton, Option.some_or]
  by_cases h0 : (lmOf p l).factors = []
  · right
    simp only [h0, List.nil_append, List.length_singleton, le_refl, if_true, M.modify_apply]
    refine ⟨_, rfl, ?_, by simp⟩
    have : updLm p1 l (fun m => { m with adj := Mat.zero 1 }) = regLm cfg (lk cfg p) p b := by
      have h1 : updLm p1 l (fun m => { m with adj := Mat.zero 1 }) =
          { updLm (updLm p l (fun m => { m with factors := m.factors ++ [b] })) l
              (fun m => { m with adj := Mat.zero 1 }) with
            totalLc := p.totalLc + 1 } := rfl
      rw [h1, updLm_updLm]
      unfold regLm
      rw [updLm_ext (g := growLm cfg (lk cfg p) l b)]
      simp [growLm, h0]
    rw [this]
    exact TrajOnly.refl _
  · have hlen : ¬((lmOf p l).factors ++ [b]).length ≤ 1 := by
      have : 0 < (lmOf p l).factors.length := List.length_pos_iff.2 h0
      simp only [List.length_append, List.length_singleton]; omega
    simp only [hlen, if_false]
    by_cases hn : (lmOf p l).adj.n = (lmOf p l).factors.length
    · have hn' : ¬ (lmOf p l).adj.n ≠ ((lmOf p l).factors ++ [b]).length - 1 := by simp [hn]
      rw [if_neg hn']
      have htake : ((lmOf p l).factors ++ [b]).take (((lmOf p l).factors ++ [b]).length - 1) =
          (lmOf p l).factors := by simp
      rw [htake]
      have hlk1 : lk cfg p1 = lk cfg p := rfl
      rcases landmarkVerdicts_spec cfg l b (lmOf p l).factors p1 with ⟨u, e, x, hx, hxn⟩ | ⟨p2, t, e⟩
      · left
        refine ⟨u, ?_, h0, Or.inr ⟨x, hx, hxn⟩⟩
        rw [M.bind_apply, e]
      · right
        rw [M.bind_ok e]
        by_cases hr : (lmOf p l).factors.any (fun x => decide (x.k1 = l ∨ b.k1 = l)) = true
        · rw [if_pos hr]
          simp only [M.pure_eq, M.pure_apply]
          refine ⟨p2, rfl, ?_, Or.inr hn⟩
          have : p1 = regLm cfg (lk cfg p) p b := by
            rw [hp1]
            unfold regLm
            rw [updLm_ext (g := growLm cfg (lk cfg p) l b)]
            simp only [growLm, h0, if_false, hr, if_true]
          rw [← this]
          exact t
        · rw [if_neg hr]
          simp only [M.modify_apply]
          refine ⟨_, rfl, ?_, Or.inr hn⟩
          refine ⟨?_, ?_, t.has, t.keep, t.sorted⟩
          · rw [hlk1]
            conv_lhs => rw [t.eq]
            generalize hvs : ((lmOf p l).factors.map fun x => landVerdict cfg (lk cfg p) x b) = vs
            have h1 : updLm { p1 with trajs := p2.trajs } l (fun m => { m with adj := m.adj.grow vs }) =
              { updLm (updLm p l (fun m => { m with factors := m.factors ++ [b] })) l
                  (fun m => { m with adj := m.adj.grow vs }) with
                trajs := p2.trajs
                totalLc := p.totalLc + 1 } := rfl
            rw [h1, updLm_updLm]
            unfold regLm
            rw [updLm_ext (g := growLm cfg (lk cfg p) l b)]
            · simp only [updLm, hl]
            · simp only [growLm, h0, if_false, hr, hvs]
              simp
          · exact t.lk
    · left
      refine ⟨.eigen, ?_, h0, Or.inl hn⟩
      rw [if_pos]
      · rfl
      · simpa using hn

theorem regLc_trajOnly {cfg : Cfg G T N} {f : Chr → Key → T} {p p' : Pcm G T N} (h : TrajOnly cfg p p') (b : Btw G N) :
    TrajOnly cfg (regLc cfg f p b) (regLc cfg f p' b) := by
  refine ⟨?_, ?_, h.has, h.keep, h.sorted⟩
  · rw [h.eq]; rfl
  · exact h.lk

theorem regLm_trajOnly {cfg : Cfg G T N} {f : Chr → Key → T} {p p' : Pcm G T N} (h : TrajOnly cfg p p') (b : Btw G N) :
    TrajOnly cfg (regLm cfg f p b) (regLm cfg f p' b) := by
  refine ⟨?_, ?_, h.has, h.keep, h.sorted⟩
  · rw [h.eq]; rfl
  · exact h.lk

theorem parseStep_trajOnly {cfg : Cfg G T N} {vals : Vals G} {f : Chr → Key → T} {p p' : Pcm G T N}
    (h : TrajOnly cfg p p') (b : Btw G N) : TrajOnly cfg (parseStep cfg vals f p b) (parseStep cfg vals f p' b) := by
  unfold parseStep
  split
  · exact regLc_trajOnly h b
  · split
    · exact regLm_trajOnly h b
    · exact h

theorem parseFold_trajOnly {cfg : Cfg G T N} {vals : Vals G} {f : Chr → Key → T} (bs : List (Btw G N)) {p p' : Pcm G T N}
    (h : TrajOnly cfg p p') :
    TrajOnly cfg (bs.foldl (parseStep cfg vals f) p) (bs.foldl (parseStep cfg vals f) p') := by
  induction bs generalizing p p' with
  | nil => exact h
  | cons b bs ih => exact ih (parseStep_trajOnly h b)

theorem lk_parseStep (cfg : Cfg G T N) (vals : Vals G) (f : Chr → Key → T) (p : Pcm G T N) (b : Btw G N) :
    lk cfg (parseStep cfg vals f p b) = lk cfg p := by
  unfold parseStep
  split
  · rfl
  · split <;> rfl

/-- The number of new closures per robot pair. -/
def bumps (bs : List (Btw G N)) (num : List (ObsId × Nat)) : List (ObsId × Nat) :=
  bs.foldl (fun num b => bump (pairOf b) num) num

/-- The matrix of the pair of `b` can be extended by `b`. -/
def LcFit (b : Btw G N) (p : Pcm G T N) : Prop :=
  (lcOf p (pairOf b)).factors = [] ∨
    ((lcOf p (pairOf b)).adj.n = (lcOf p (pairOf b)).factors.length ∧
      ∀ x ∈ (lcOf p (pairOf b)).factors, x.noise.isSome ∧ b.noise.isSome)

/-- The matrix of the landmark of `b` can be extended by `b`. -/
def LmFit (cfg : Cfg G T N) (b : Btw G N) (p : Pcm G T N) : Prop :=
  (lmOf p (landmarkKey cfg b)).factors = [] ∨
    (lmOf p (landmarkKey cfg b)).adj.n = (lmOf p (landmarkKey cfg b)).factors.length

/-- Why registering candidate `b` is undefined. -/
def ParseFault (cfg : Cfg G T N) (vals : Vals G) (b : Btw G N) (p : Pcm G T N) : Prop :=
  known vals b = true ∧
  ((Spec.isLandmark cfg b = false ∧ cfg.odomCheck = true ∧ chr b.k1 = chr b.k2 ∧ b.noise = none) ∨
   (acceptLc cfg vals (lk cfg p) b = true ∧ cfg.loopCheck = true ∧ (lcOf p (pairOf b)).factors ≠ [] ∧
      ((lcOf p (pairOf b)).adj.n ≠ (lcOf p (pairOf b)).factors.length ∨
        ∃ x ∈ (lcOf p (pairOf b)).factors, x.noise = none ∨ b.noise = none)) ∨
   (acceptLm cfg vals b = true ∧ (lmOf p (landmarkKey cfg b)).factors ≠ [] ∧
      ((lmOf p (landmarkKey cfg b)).adj.n ≠ (lmOf p (landmarkKey cfg b)).factors.length ∨
        ∃ x ∈ (lmOf p (landmarkKey cfg b)).factors, x.noise = none ∨ b.noise = none)))

/-- One candidate: the outcome of the loop is undefined behaviour now, or a `parseStep` followed by the rest of
the loop. -/
theorem parseLoops_cons (cfg : Cfg G T N) (vals : Vals G) (b : Btw G N) (bs : List (Btw G N))
    (num : List (ObsId × Nat)) (p : Pcm G T N) :
    (∃ u, parseLoops cfg vals (b :: bs) num p = .ub u ∧ ParseFault cfg vals b p) ∨
    ∃ p1, TrajOnly cfg (parseStep cfg vals (lk cfg p) p b) p1 ∧
      parseLoops cfg vals (b :: bs) num p =
        parseLoops cfg vals bs (if acceptLc cfg vals (lk cfg p) b then bump (pairOf b) num else num) p1 ∧
      (acceptLc cfg vals (lk cfg p) b = true → cfg.loopCheck = true → LcFit b p) ∧
      (acceptLm cfg vals b = true → LmFit cfg b p) := by
  rw [parseLoops]
  by_cases hk : known vals b = true
  · have hk1 := hk
    unfold known at hk
    rw [Bool.and_eq_true] at hk
    rw [if_neg (by simp [hk.1, hk.2]), special_or]
    by_cases hs : Spec.isLandmark cfg b = true
    · rw [if_pos hs]
      simp only [M.bind_eq]
      have hacc : acceptLc cfg vals (lk cfg p) b = false := by simp [acceptLc, hs]
      have hacc' : acceptLm cfg vals b = true := by simp [acceptLm, hs, hk1]
      rcases register_lm cfg b p with ⟨u, e, hw⟩ | ⟨p1, e, t, hw⟩
      · left
        exact ⟨u, by rw [M.bind_apply, e], hk1, Or.inr (Or.inr ⟨hacc', hw⟩)⟩
      · right
        refine ⟨p1, ?_, ?_, by simp [hacc], fun _ => hw⟩
        · simp [parseStep, hacc, hacc', t]
        · rw [M.bind_ok e, hacc]
          simp
    · rw [if_neg hs]
      simp only [M.bind_eq]
      have hs' : Spec.isLandmark cfg b = false := by simpa using hs
      have hodom : (∃ u, M.cond (chr b.k1 == chr b.k2) (isOdomConsistent cfg b) (M.pure true) p = .ub u ∧
            cfg.odomCheck = true ∧ chr b.k1 = chr b.k2 ∧ b.noise = none) ∨
          ∃ p1, M.cond (chr b.k1 == chr b.k2) (isOdomConsistent cfg b) (M.pure true) p =
            .ok p1 (acceptLc cfg vals (lk cfg p) b) ∧ TrajOnly cfg p p1 := by
        unfold M.cond
        by_cases hc : chr b.k1 = chr b.k2
        · rw [if_pos (by simpa using hc)]
          rcases isOdomConsistent_spec cfg b p with ⟨h1, h2, e⟩ | ⟨_, p1, e, t⟩
          · exact Or.inl ⟨_, e, h1, hc, h2⟩
          · refine Or.inr ⟨p1, ?_, t⟩
            rw [e]
            simp [acceptLc, hk1, hs', hc]
        · rw [if_neg (by simpa using hc)]
          refine Or.inr ⟨p, ?_, TrajOnly.refl p⟩
          simp [acceptLc, hk1, hs', hc]
      rcases hodom with ⟨u, e, hw⟩ | ⟨p1, e, t⟩
      · left
        exact ⟨u, by rw [M.bind_apply, e], hk1, Or.inl ⟨hs', hw⟩⟩
      · rw [M.bind_ok e]
        have hacc' : acceptLm cfg vals b = false := by simp [acceptLm, hs']
        cases hacc : acceptLc cfg vals (lk cfg p) b with
        | true =>
          simp only [if_true]
          have hlc : lcOf p1 (pairOf b) = lcOf p (pairOf b) := t.lcOf _
          rcases register_lc cfg b p1 with ⟨u, e1, hw⟩ | ⟨p2, e1, t1, hw⟩
          · left
            rw [hlc] at hw
            exact ⟨u, by rw [M.bind_apply, e1], hk1, Or.inr (Or.inl ⟨hacc, hw⟩)⟩
          · right
            rw [hlc] at hw
            refine ⟨p2, ?_, ?_, fun _ => hw, by simp [hacc']⟩
            · rw [t.lk] at t1
              simp only [parseStep, hacc, if_true]
              exact (regLc_trajOnly t b).trans t1
            · rw [M.bind_ok e1]
              rfl
        | false =>
          right
          refine ⟨p1, ?_, ?_, by simp, by simp [hacc']⟩
          · simp [parseStep, hacc, hacc', t]
          · simp
  · right
    have hk' : known vals b = false := by simpa using hk
    refine ⟨p, ?_, ?_, by simp [acceptLc, hk'], by simp [acceptLm, hk']⟩
    · simp [parseStep, acceptLc, acceptLm, hk', TrajOnly.refl]
    · rw [if_pos]
      · simp [acceptLc, hk']
      · unfold known at hk'
        cases h1 : vals.has b.k1 <;> cases h2 : vals.has b.k2 <;> simp_all

/-- The loop over the candidates never throws. -/
theorem parseLoops_outcome (cfg : Cfg G T N) (vals : Vals G) (bs : List (Btw G N)) (num : List (ObsId × Nat))
    (p : Pcm G T N) :
    (∃ u, parseLoops cfg vals bs num p = .ub u) ∨
    ∃ p', parseLoops cfg vals bs num p = .ok p' (bumps (bs.filter (acceptLc cfg vals (lk cfg p))) num) ∧
      TrajOnly cfg (bs.foldl (parseStep cfg vals (lk cfg p)) p) p' := by
  induction bs generalizing num p with
  | nil => exact Or.inr ⟨p, rfl, TrajOnly.refl p⟩
  | cons b bs ih =>
    rcases parseLoops_cons cfg vals b bs num p with ⟨u, e, _⟩ | ⟨p1, t, e, _⟩
    · exact Or.inl ⟨u, e⟩
    · have hlk : lk cfg p1 = lk cfg p := by rw [t.lk, lk_parseStep]
      rw [e]
      rcases ih (if acceptLc cfg vals (lk cfg p) b then bump (pairOf b) num else num) p1 with ⟨u, e'⟩ | ⟨p', e', t'⟩
      · exact Or.inl ⟨u, e'⟩
      · refine Or.inr ⟨p', ?_, ?_⟩
        · rw [e', hlk]
          congr 1
          by_cases ha : acceptLc cfg vals (lk cfg p) b = true
          · simp [bumps, ha]
          · simp [ha]
        · rw [hlk] at t'
          simp only [List.foldl_cons]
          exact (parseFold_trajOnly bs t).trans t'

theorem parseLoops_ok {cfg : Cfg G T N} {vals : Vals G} {bs : List (Btw G N)} {num num' : List (ObsId × Nat)}
    {p p' : Pcm G T N} (h : parseLoops cfg vals bs num p = .ok p' num') :
    num' = bumps (bs.filter (acceptLc cfg vals (lk cfg p))) num ∧
      TrajOnly cfg (bs.foldl (parseStep cfg vals (lk cfg p)) p) p' := by
  rcases parseLoops_outcome cfg vals bs num p with ⟨u, e⟩ | ⟨p1, e, t⟩
  · rw [e] at h; cases h
  · rw [e] at h; cases h; exact ⟨rfl, t⟩

theorem parseLoops_no_throw {cfg : Cfg G T N} {vals : Vals G} {bs : List (Btw G N)} {num : List (ObsId × Nat)}
    {p p' : Pcm G T N} {x : Exn} (h : parseLoops cfg vals bs num p = .throw p' x) : False := by
  rcases parseLoops_outcome cfg vals bs num p with ⟨u, e⟩ | ⟨p1, e, t⟩ <;> · rw [e] at h; cases h

end RPGO
