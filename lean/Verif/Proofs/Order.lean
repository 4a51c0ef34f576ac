import Verif.Proofs.Sim
/-
Two runs that receive the same factors and values but optimize differently and visit the entries of the hash tables in
different orders: what is stored about the closures is the same.
-/

namespace RPGO
variable {G T N : Type}

/-- Same stored measurements and known keys; the order of the graph, estimates, weights and temporaries may differ. -/
structure Alike (s1 s2 : St G T N) : Prop where
  pcm : s1.pcm = s2.pcm
  has : ∀ k, s1.values.has k = s2.values.has k

/-- If both outcomes are normal returns the states are alike and the results related. -/
def AlikeO {α β : Type} (R : α → β → Prop) (o1 : Out (St G T N) α) (o2 : Out (St G T N) β) : Prop :=
  ∀ s1 a s2 b, o1 = .ok s1 a → o2 = .ok s2 b → Alike s1 s2 ∧ R a b

namespace AlikeO
variable {α β γ δ : Type}

theorem bind {R : α → β → Prop} {Q : γ → δ → Prop} {m1 : M (St G T N) α} {m2 : M (St G T N) β}
    {f : α → M (St G T N) γ} {g : β → M (St G T N) δ} {s1 s2 : St G T N} (hm : AlikeO R (m1 s1) (m2 s2))
    (hf : ∀ a b t1 t2, m1 s1 = .ok t1 a → m2 s2 = .ok t2 b → Alike t1 t2 → R a b → AlikeO Q (f a t1) (g b t2)) :
    AlikeO Q (M.bind m1 f s1) (M.bind m2 g s2) := by
  intro s1' a s2' b h1 h2
  obtain ⟨t1, a1, e1, e1'⟩ := M.bind_eq_ok.1 h1
  obtain ⟨t2, a2, e2, e2'⟩ := M.bind_eq_ok.1 h2
  obtain ⟨hs, hr⟩ := hm _ _ _ _ e1 e2
  exact hf _ _ _ _ e1 e2 hs hr _ _ _ _ e1' e2'

theorem ok {R : α → β → Prop} {s1 s2 : St G T N} {a : α} {b : β} (hs : Alike s1 s2) (hr : R a b) :
    AlikeO R (.ok s1 a) (.ok s2 b) := by
  intro s1' a' s2' b' h1 h2
  cases h1; cases h2
  exact ⟨hs, hr⟩

theorem ret {R : α → β → Prop} {m1 : M (St G T N) α} {m2 : M (St G T N) β} {f : α → γ} {g : β → δ} {s1 s2 : St G T N}
    (hm : AlikeO R (m1 s1) (m2 s2)) : AlikeO (fun _ _ => True) (m1.ret f s1) (m2.ret g s2) :=
  bind hm fun _ _ _ _ _ _ hs _ => ok hs trivial

theorem frame {m1 : M (St G T N) α} {m2 : M (St G T N) β} (h1 : M.Pres OptFrame m1) (h2 : M.Pres OptFrame m2)
    {s1 s2 : St G T N} (hs : Alike s1 s2) : AlikeO (fun _ _ => True) (m1 s1) (m2 s2) := by
  intro s1' a s2' b e1 e2
  have f1 := h1.of_ok e1
  have f2 := h2.of_ok e2
  exact ⟨⟨by rw [f1.pcm, f2.pcm, hs.pcm], fun k => by rw [f1.values.has, f2.values.has, hs.has]⟩, trivial⟩

theorem cond {R : α → β → Prop} {c : Bool} {m1 m1' : M (St G T N) α} {m2 m2' : M (St G T N) β} {s1 s2 : St G T N}
    (h : c = true → AlikeO R (m1 s1) (m2 s2)) (h' : c = false → AlikeO R (m1' s1) (m2' s2)) :
    AlikeO R (M.cond c m1 m1' s1) (M.cond c m2 m2' s2) := by
  unfold M.cond
  cases c
  · exact h' rfl
  · exact h rfl

theorem mono {R Q : α → β → Prop} {o1 : Out (St G T N) α} {o2 : Out (St G T N) β} (h : AlikeO R o1 o2)
    (hr : ∀ a b, R a b → Q a b) : AlikeO Q o1 o2 := fun _ _ _ _ h1 h2 =>
  ⟨(h _ _ _ _ h1 h2).1, hr _ _ (h _ _ _ _ h1 h2).2⟩

theorem onPcm {m1 m2 : M (Pcm G T N) α} {s1 s2 : St G T N} (hs : Alike s1 s2) (hm : m1 s1.pcm = m2 s1.pcm) :
    AlikeO Eq (onPcm m1 s1) (onPcm m2 s2) := by
  intro s1' a s2' b h1 h2
  obtain ⟨p1, e1, rfl⟩ := M.zoom_eq_ok.1 h1
  obtain ⟨p2, e2, rfl⟩ := M.zoom_eq_ok.1 h2
  rw [← hs.pcm, ← hm, e1] at e2
  cases e2
  exact ⟨⟨rfl, hs.has⟩, rfl⟩
end AlikeO

theorem onValues_alike (vs : Vals G) {s1 s2 : St G T N} (hs : Alike s1 s2) :
    AlikeO (fun _ _ => True) ((onValues (insertVals vs) : M (St G T N) Unit) s1) ((onValues (insertVals vs) : M (St G T N) Unit) s2) := by
  intro s1' a s2' b h1 h2
  obtain ⟨v1, e1, rfl⟩ := M.zoom_eq_ok.1 h1
  obtain ⟨v2, e2, rfl⟩ := M.zoom_eq_ok.1 h2
  exact ⟨⟨hs.pcm, (insertVals_sim hs.has e1 e2).1⟩, trivial⟩

theorem Alike.trans {a b c : St G T N} (h1 : Alike a b) (h2 : Alike b c) : Alike a c :=
  ⟨h1.pcm.trans h2.pcm, fun k => (h1.has k).trans (h2.has k)⟩

theorem Alike.symm {a b : St G T N} (h : Alike a b) : Alike b a := ⟨h.pcm.symm, fun k => (h.has k).symm⟩

variable [Mul G] [Inv G] [One G]

omit [Mul G] [Inv G] [One G] in
theorem rebuild_alike (e1 e2 : Env G N) {s1 s2 : St G T N} (hs : Alike s1 s2) :
    AlikeO (fun _ _ => True) ((rebuild e1 : M (St G T N) Unit) s1) ((rebuild e2 : M (St G T N) Unit) s2) :=
  AlikeO.ok ⟨hs.pcm, hs.has⟩ trivial

theorem alignStep_alike (cfg : Cfg G T N) (e1 e2 : Env G N) {s1 s2 : St G T N} (hs : Alike s1 s2) :
    AlikeO (fun _ _ => True) (alignStep cfg e1 s1) (alignStep cfg e2 s2) := by
  have key : ∀ (e : Env G N) (s s' : St G T N) (x : Unit), alignStep cfg e s = .ok s' x →
      (∀ k, s'.values.has k = s.values.has k) ∧
      s'.pcm = if cfg.align && decide (1 < s.pcm.robotOrder.length) then
        { s.pcm with robotOrder := sortRobots cfg.charSigned s.pcm.robotOrder } else s.pcm := by
    intro e s s' x h
    have hf := (alignStep_frame cfg e).of_ok h
    refine ⟨hf.values.has, ?_⟩
    unfold alignStep at h
    by_cases hc : (cfg.align && decide (1 < s.pcm.robotOrder.length)) = true
    · rw [if_pos hc] at h
      rw [if_pos hc]
      simp only at h
      split at h
      · cases h; rfl
      · cases h
      · cases h
    · rw [if_neg hc] at h
      rw [if_neg hc]
      cases h; rfl
  intro s1' a s2' b h1 h2
  obtain ⟨a2, a3⟩ := key _ _ _ _ h1
  obtain ⟨b2, b3⟩ := key _ _ _ _ h2
  refine ⟨⟨?_, fun k => by rw [a2, b2, hs.has]⟩, trivial⟩
  rw [a3, b3, hs.pcm]

theorem removeOutliers_alike (cfg : Cfg G T N) (e1 e2 : Env G N) (fs : Graph G N) (vs : Vals G)
    {s1 s2 : St G T N} (hs : Alike s1 s2)
    (H : ∀ fs1 b fs2, fs = fs1 ++ some (.btw b) :: fs2 → Spec.isOdom cfg vs b = true →
      b.k1 ∈ vs.keys ∨ hasTraj s1.pcm (chr b.k2) = true ∨ ∃ b' ∈ Spec.odoms cfg vs fs1, chr b'.k2 = chr b.k2) :
    AlikeO (fun _ _ => True) (removeOutliers cfg e1 fs vs s1) (removeOutliers cfg e2 fs vs s2) := by
  unfold removeOutliers
  refine AlikeO.bind (onValues_alike vs hs) ?_
  intro _ _ t1 t2 h1 h2 ht _
  obtain ⟨v1, i1, rfl⟩ := M.zoom_eq_ok.1 h1
  obtain ⟨v2, i2, rfl⟩ := M.zoom_eq_ok.1 h2
  obtain ⟨hh, hf⟩ := insertVals_sim hs.has i1 i2
  refine AlikeO.cond (fun _ => AlikeO.ok ht trivial) fun _ => ?_
  unfold processFactors
  simp only [M.bind_eq]
  rw [M.bind_ok (M.get_apply _), M.bind_ok (M.get_apply _)]
  refine AlikeO.bind (R := Eq) (AlikeO.onPcm ht ?_) ?_
  · refine sortFactors_congr cfg fs [] false _ ?_
    intro fs1 b fs2 e ho
    rcases H fs1 b fs2 e ho with h | h
    · exact Or.inl (hf _ h)
    · exact Or.inr h
  · rintro r _ t1 t2 _ _ ht rfl
    refine AlikeO.bind (R := fun _ _ => True) ?_ ?_
    · unfold M.when
      split
      · rw [processCands_congr cfg (vals := v1) (vals' := v2) hh]
        exact (AlikeO.onPcm ht rfl).mono fun _ _ _ => trivial
      · exact AlikeO.ok ht trivial
    · intro _ _ t1 t2 _ _ ht _
      refine AlikeO.bind (rebuild_alike e1 e2 ht) ?_
      intro _ _ t1 t2 _ _ ht _
      refine AlikeO.bind (alignStep_alike cfg e1 e2 ht) ?_
      intro _ _ t1 t2 _ _ ht _
      exact AlikeO.ok ht trivial

theorem removeLastOfPair_alike (e1 e2 : Env G N) (id : ObsId) {s1 s2 : St G T N} (hs : Alike s1 s2) :
    AlikeO Eq (removeLastOfPair e1 id s1) (removeLastOfPair e2 id s2) := by
  rw [removeLastOfPair_eq, removeLastOfPair_eq, hs.pcm]
  cases AList.get? ObsId.eqv s2.pcm.lcs id with
  | none => exact AlikeO.ok hs rfl
  | some m =>
    simp only
    cases removeLastMeas m with
    | ub u => intro _ _ _ _ h; cases h
    | throw m' x => intro _ _ _ _ h; cases h
    | ok m' e =>
      cases e with
      | none => exact AlikeO.ok ⟨rfl, hs.has⟩ rfl
      | some e => exact AlikeO.ok ⟨rfl, hs.has⟩ rfl

theorem removeLastPcm_alike (e1 e2 : Env G N) {s1 s2 : St G T N} (hs : Alike s1 s2) :
    AlikeO Eq (removeLastPcm e1 s1) (removeLastPcm e2 s2) := by
  rw [removeLastPcm_eq, removeLastPcm_eq, hs.pcm]
  cases s2.pcm.inOrder.getLast? with
  | none => exact AlikeO.ok hs rfl
  | some id => exact removeLastOfPair_alike e1 e2 id ⟨rfl, hs.has⟩

/-- One call on each side. -/
theorem exec_alike {cfg : Cfg G T N} (hr : cfg.rejection = true) (e1 e2 : Env G N) (a b c d e f : Bool) {o1 o2 : Op G N}
    (ho : Spec.SameOp o1 o2) (hm : Spec.Managed o1) {s1 s2 : St G T N} (hs : Alike s1 s2)
    (H : ∀ fs vs fs1 b fs2, Spec.batch o1 = some (fs, vs) → fs = fs1 ++ some (.btw b) :: fs2 →
      Spec.isOdom cfg vs b = true →
      b.k1 ∈ vs.keys ∨ hasTraj s1.pcm (chr b.k2) = true ∨ ∃ b' ∈ Spec.odoms cfg vs fs1, chr b'.k2 = chr b.k2) :
    AlikeO (fun _ _ => True) (exec cfg e1 o1 s1) (exec (cfg.withOpt a b c d e f) e2 o2 s2) := by
  have hrej : (cfg.withOpt a b c d e f).rejection = cfg.rejection := rfl
  have hno : ∀ {P : Prop}, cfg.rejection = false → P := fun h => by rw [hr] at h; cases h
  have batch : ∀ (fs : Graph G N) (vs : Vals G) (t1 t2 : Bool → M (St G T N) Unit), Spec.batch o1 = some (fs, vs) →
      (∀ x, M.Pres OptFrame (t1 x)) → (∀ x, M.Pres OptFrame (t2 x)) → ∀ (g1 g2 : Unit → Ret),
      AlikeO (fun _ _ => True)
        ((M.bind (M.cond cfg.rejection (removeOutliers cfg e1 fs vs) (addAndCheck fs vs)) t1).ret g1 s1)
        ((M.bind (M.cond cfg.rejection (removeOutliers (cfg.withOpt a b c d e f) e2 fs vs) (addAndCheck fs vs)) t2).ret
          g2 s2) := by
    intro fs vs t1 t2 hb h1 h2 g1 g2
    rw [removeOutliers_withOpt cfg a b c d e f]
    refine AlikeO.ret (R := fun _ _ => True) (AlikeO.bind (R := fun _ _ => True) (AlikeO.cond ?_ hno) ?_)
    · intro _; exact removeOutliers_alike cfg e1 e2 fs vs hs fun fs1 b fs2 e' ho => H fs vs fs1 b fs2 hb e' ho
    · intro x y t1' t2' _ _ ht _
      exact AlikeO.frame (h1 x) (h2 y) ht
  have tailU : ∀ (cfg : Cfg G T N) (env : Env G N) (o x : Bool), M.Pres OptFrame
      (M.bind (M.when (x && o) (optimize cfg env)) fun _ => M.when (cfg.log && o) (logStatus cfg)) := fun cfg env o x =>
    M.Pres.bind OptFrame.trans (when_frame _) fun _ => M.Pres.when OptFrame.refl (logStatus_frame cfg)
  have tailF : ∀ (cfg : Cfg G T N) (env : Env G N) (_ : Bool), M.Pres OptFrame
      (M.bind (optimize cfg env) fun _ => M.when cfg.log (logStatus cfg)) := fun cfg env _ =>
    M.Pres.bind OptFrame.trans (optimize_frame cfg env) fun _ => M.Pres.when OptFrame.refl (logStatus_frame cfg)
  have both : ∀ (y : Graph G N × Vals G), Spec.batch o1 = some y → Spec.batch o2 = some y →
      AlikeO (fun _ _ => True) (exec cfg e1 o1 s1) (exec (cfg.withOpt a b c d e f) e2 o2 s2) := by
    rintro ⟨fs, vs⟩ h1 h2
    have hb := batch fs vs
    have hb := fun t1 t2 => hb t1 t2 h1
    cases o1 <;> simp only [Spec.batch, Option.some.injEq, Prod.mk.injEq, reduceCtorEq] at h1 <;>
      cases o2 <;> simp only [Spec.batch, Option.some.injEq, Prod.mk.injEq, reduceCtorEq] at h2
    all_goals
      obtain ⟨rfl, rfl⟩ := h1
      obtain ⟨rfl, rfl⟩ := h2
    · exact hb _ _ rfl (tailU _ _ _) (tailU _ _ _) _ _
    · exact hb _ _ rfl (tailU _ _ _) (tailF _ _) _ _
    · exact hb _ _ rfl (tailF _ _) (tailU _ _ _) _ _
    · exact hb _ _ rfl (tailF _ _) (tailF _ _) _ _
  have priors : ∀ ch x y, AlikeO (fun _ _ => True) (exec cfg e1 (.removePriors ch x) s1)
      (exec (cfg.withOpt a b c d e f) e2 (.removePriors ch y) s2) := by
    intro ch x y
    refine AlikeO.ret (R := fun _ _ => True) (AlikeO.bind (R := fun _ _ => True) (AlikeO.cond ?_ hno) ?_)
    · intro _
      unfold removePriorsPcm
      refine AlikeO.bind (R := Eq) (AlikeO.onPcm hs rfl) ?_
      intro _ _ t1 t2 _ _ ht _
      exact rebuild_alike e1 e2 ht
    · intro _ _ t1 t2 _ _ ht _
      exact AlikeO.frame (when_frame _) (when_frame _) ht
  have opts : ∀ {x y : EdgePtr} {t1 t2 : St G T N}, Alike t1 t2 → AlikeO (fun _ _ => True)
      (M.bind (optimize cfg e1) (fun _ => M.pure x) t1)
      (M.bind (optimize (cfg.withOpt a b c d e f) e2) (fun _ => M.pure y) t2) := by
    intro x y t1 t2 ht
    refine AlikeO.bind (R := fun _ _ => True) (AlikeO.frame (optimize_frame _ _) (optimize_frame _ _) ht) ?_
    intro _ _ t1 t2 _ _ ht _
    exact AlikeO.ok ht trivial
  have silent : o1 = o2 → Spec.Silent o1 → AlikeO (fun _ _ => True) (exec cfg e1 o1 s1) (exec (cfg.withOpt a b c d e f) e2 o2 s2) := by
    rintro rfl hsil s1' x s2' y h1 h2
    have g1 := exec_silent (cfg := cfg) (env := e1) hsil s1
    have g2 := exec_silent (cfg := cfg.withOpt a b c d e f) (env := e2) hsil s2
    rw [h1] at g1
    rw [h2] at g2
    have g1 : Sim s1 s1' := g1
    have g2 : Sim s2 s2' := g2
    exact ⟨⟨by rw [← g1.pcm, ← g2.pcm, hs.pcm], fun k => by rw [← g1.has, ← g2.has, hs.has]⟩, trivial⟩
  rcases ho with rfl | ⟨y, h1, h2⟩ | ⟨ch, x, y, rfl, rfl⟩
  · cases o1 with
    | update fs vs o => exact both _ rfl rfl
    | forceUpdate fs vs => exact both _ rfl rfl
    | removePriors ch x => exact priors ch x x
    | removeLastPair x y =>
      refine AlikeO.ret (R := fun _ _ => True) (AlikeO.bind (R := Eq) (AlikeO.cond ?_ hno) ?_)
      · intro _; exact removeLastOfPair_alike e1 e2 _ hs
      · intro _ _ t1 t2 _ _ ht _
        exact opts ht
    | removeLast =>
      refine AlikeO.ret (R := fun _ _ => True) (AlikeO.bind (R := Eq) (AlikeO.cond ?_ hno) ?_)
      · intro _; exact removeLastPcm_alike e1 e2 hs
      · intro _ _ t1 t2 _ _ ht _
        exact opts ht
    | ignore ch =>
      refine AlikeO.ret (R := fun _ _ => True) (AlikeO.bind (R := fun _ _ => True) ?_ ?_)
      · unfold M.when
        rw [hrej, if_pos hr, if_pos hr]
        unfold ignorePcm
        refine AlikeO.bind (R := Eq) (AlikeO.onPcm hs rfl) ?_
        intro _ _ t1 t2 _ _ ht _
        exact rebuild_alike e1 e2 ht
      · intro _ _ t1 t2 _ _ ht _
        exact AlikeO.frame (optimize_frame _ _) (optimize_frame _ _) ht
    | revive ch =>
      refine AlikeO.ret (R := fun _ _ => True) (AlikeO.bind (R := fun _ _ => True) ?_ ?_)
      · unfold M.when
        rw [hrej, if_pos hr, if_pos hr]
        unfold revivePcm
        refine AlikeO.bind (R := Eq) (AlikeO.onPcm hs rfl) ?_
        intro _ _ t1 t2 _ _ ht _
        exact rebuild_alike e1 e2 ht
      · intro _ _ t1 t2 _ _ ht _
        exact AlikeO.frame (optimize_frame _ _) (optimize_frame _ _) ht
    | getNumLC => exact silent rfl trivial
    | getNumLCInliers => exact silent rfl trivial
    | saveData => exact silent rfl trivial
    | removeFactors is => exact hm.elim
    | removeLastFactor => exact hm.elim
    | removePriorsGeneric ch => exact hm.elim
    | updateValues vs => exact silent rfl trivial
    | genericUpdate fs vs rm => exact hm.elim
    | tempUpdate fs vs => exact silent rfl trivial
    | tempReplace fs vs => exact silent rfl trivial
    | tempClear => exact silent rfl trivial
  · exact both y h1 h2
  · exact priors ch x y

/-- Both runs store the same measurements, whatever the iteration orders and optimizers. -/
theorem sameCalls_alike {cfg : Cfg G T N} (hr : cfg.rejection = true) (e1 e2 : Env G N) (a b c d e f : Bool)
    {h1 h2 : List (Op G N)} (hc : Spec.SameCalls h1 h2) (hm : ∀ o ∈ h1, Spec.Managed o) (hg : Spec.StartsGiven cfg h1)
    {s1 s2 : St G T N} (r1 : ReachOk cfg e1 h1 s1) (r2 : ReachOk (cfg.withOpt a b c d e f) e2 h2 s2) : Alike s1 s2 := by
  induction hc generalizing s1 s2 with
  | nil =>
    have k1 : ∀ {cfg : Cfg G T N} {e : Env G N} {s : St G T N}, ReachOk cfg e [] s → s = St.init := by
      intro cfg e s r
      generalize hh : ([] : List (Op G N)) = h' at r
      cases r with
      | init => rfl
      | step => simp at hh
    rw [k1 r1, k1 r2]
    exact ⟨rfl, fun _ => rfl⟩
  | @both h1 h2 o1 o2 _ ho ih =>
    obtain ⟨t1, x1, r1, x1'⟩ := r1.snoc_inv
    obtain ⟨t2, x2, r2, x2'⟩ := r2.snoc_inv
    have hs := ih (fun o ho => hm o (by simp [ho])) (StartsGiven.init hg) r1 r2
    refine (exec_alike hr e1 e2 a b c d e f ho (hm o1 (by simp)) hs ?_ _ _ _ _ x1' x2').1
    intro fs vs fs1 b fs2 hb hf ho
    rcases hg h1 o1 [] fs vs fs1 b fs2 rfl hb hf ho with h | ⟨b', hb', hc⟩
    · exact Or.inl h
    · rcases List.mem_append.1 hb' with hb' | hb'
      · right; left
        rw [← hc]
        exact r1.hasTraj hr b' hb'
      · exact Or.inr (Or.inr ⟨b', hb', hc⟩)
  | @left h1 h2 o _ ho ih =>
    obtain ⟨t1, x1, r1, x1'⟩ := r1.snoc_inv
    have hs := ih (fun o ho => hm o (by simp [ho])) (StartsGiven.init hg) r1 r2
    have := exec_silent (cfg := cfg) (env := e1) ho t1
    rw [x1'] at this
    have this : Sim t1 s1 := this
    exact (Alike.symm ⟨this.pcm, this.has⟩).trans hs
  | @right h1 h2 o _ ho ih =>
    obtain ⟨t2, x2, r2, x2'⟩ := r2.snoc_inv
    have hs := ih hm hg r1 r2
    have := exec_silent (cfg := cfg.withOpt a b c d e f) (env := e2) ho t2
    rw [x2'] at this
    have this : Sim t2 s2 := this
    exact hs.trans ⟨this.pcm, this.has⟩

end RPGO
