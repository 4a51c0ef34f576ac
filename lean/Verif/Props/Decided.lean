import Verif.Props.FailureOpt
import Verif.Props.Temp
import Verif.Props.Ahead
import Verif.Proofs.Fleet
import Verif.Props.Progress
import Verif.Proofs.Sim
/-
C96: exactly which histories of updates are processed to the end.
-/

namespace RPGO.Spec
variable {G T N : Type}

/-- What is asked of measurements at all times: Gaussian noise, landmarks observed from poses, and closures and
observations that name robots with odometry. -/
structure Sound (cfg : Cfg G T N) (owner : Key → Chr) (bs : List (Graph G N × Vals G × Bool)) : Prop where
  fair : ∀ b ∈ bs, ∀ x ∈ btws b.1, Fair cfg x
  grounded : ∀ bs1, bs1 <+: bs → Grounded cfg owner (updates bs1)

/-- What is asked of parameters and optimizers: the optimizers return results; with frame alignment, averaging returns a
result, and odometry and observations name poses with values; if some update asks for optimization, either previous
inliers are not fixed, and GNC runs or the closures are bounded (C38), or all closures are kept. -/
structure Capable (cfg : Cfg G T N) (env : Env G N) (bs : List (Graph G N × Vals G × Bool)) : Prop where
  orders : env.Ok
  works : env.Works
  rejection : cfg.rejection = true
  align : cfg.align = true → (∀ l, (env.avg l).isSome) ∧ ∃ owner, Placed cfg owner bs
  optimize : (∃ b ∈ bs, b.2.2 = true) → (cfg.fixPrev = false ∧ Covered cfg (updates bs)) ∨
    (cfg.loopCheck = false ∧ cfg.incremental = false ∧ cfg.special = [])

/-- The batch without anything about other keys than those that satisfy `q`. -/
def keepBatch (q : Key → Bool) (b : Graph G N × Vals G × Bool) : Graph G N × Vals G × Bool :=
  (keepFactors q b.1, keepVals q b.2.1, b.2.2)

/-- Is it a pose? -/
def isPose : Val G → Bool
  | .pose _ => true
  | .other _ => false

/-- What a batch says about keys: the keys of its between factors in order, and the keys and types of its values. -/
def outline (b : Graph G N × Vals G × Bool) : List (Key × Key) × List (Key × Bool) :=
  ((btws b.1).map fun x => (x.k1, x.k2), b.2.1.map fun e => (e.1, isPose e.2))

end RPGO.Spec

namespace RPGO
variable {G T N : Type}

theorem outline_odoms {G' T' N' : Type} {cfg : Cfg G T N} {cfg' : Cfg G' T' N'} (hs : cfg'.special = cfg.special)
    {fs : Graph G N} {vs : Vals G} {fs' : Graph G' N'} {vs' : Vals G'}
    (h1 : ((Spec.btws fs).map fun x => (x.k1, x.k2)) = (Spec.btws fs').map fun x => (x.k1, x.k2)) (h2 : vs.keys = vs'.keys) :
    ((Spec.odoms cfg vs fs).map fun x => (x.k1, x.k2)) = (Spec.odoms cfg' vs' fs').map fun x => (x.k1, x.k2) := by
  have key : ∀ {G T N : Type} (cfg : Cfg G T N) (vs : Vals G) (fs : Graph G N),
      ((Spec.odoms cfg vs fs).map fun x => (x.k1, x.k2)) = ((Spec.btws fs).map fun x => (x.k1, x.k2)).filter
        fun e => decide (chr e.1 ∉ cfg.special ∧ chr e.2 ∉ cfg.special ∧ e.2 = e.1 + 1 ∧ e.2 ∈ vs.keys) := by
    intro G T N cfg vs fs
    unfold Spec.odoms
    rw [List.filter_map]
    rfl
  rw [key, key, h1, h2, hs]

theorem outline_keys {G' N' : Type} {b : Graph G N × Vals G × Bool} {b' : Graph G' N' × Vals G' × Bool}
    (h : Spec.outline b = Spec.outline b') : b.2.1.keys = b'.2.1.keys := by
  have := congrArg (fun l => l.map Prod.fst) (Prod.mk.inj h).2
  simpa [KMap.keys, Function.comp_def] using this

theorem outline_given {G' N' : Type} {bs : List (Graph G N × Vals G × Bool)} {bs' : List (Graph G' N' × Vals G' × Bool)}
    (h : bs.map Spec.outline = bs'.map Spec.outline) :
    ((Spec.given bs).map fun e => (e.1, Spec.isPose e.2)) = (Spec.given bs').map fun e => (e.1, Spec.isPose e.2) := by
  have key : ∀ {G N : Type} (bs : List (Graph G N × Vals G × Bool)),
      ((Spec.given bs).map fun e => (e.1, Spec.isPose e.2)) = (bs.map Spec.outline).flatMap Prod.snd := by
    intro G N bs
    unfold Spec.given
    induction bs with
    | nil => rfl
    | cons b t ih => simp only [List.flatMap_cons, List.map_append, List.map_cons, ih]; rfl
  rw [key, key, h]

theorem pose_outline {G' : Type} {vs : Vals G} {vs' : Vals G'}
    (h : (vs.map fun e => (e.1, Spec.isPose e.2)) = vs'.map fun e => (e.1, Spec.isPose e.2)) {k : Key}
    (hk : ∃ g, (k, Val.pose g) ∈ vs) : ∃ g, (k, Val.pose g) ∈ vs' := by
  obtain ⟨g, hg⟩ := hk
  have : (k, true) ∈ vs'.map fun e => (e.1, Spec.isPose e.2) := by
    rw [← h]; exact List.mem_map.2 ⟨_, hg, rfl⟩
  obtain ⟨⟨k', x⟩, hx, e⟩ := List.mem_map.1 this
  simp only [Prod.mk.injEq] at e
  obtain ⟨rfl, e⟩ := e
  cases x with
  | pose g' => exact ⟨g', hx⟩
  | other t => cases e

theorem outline_odomSoFar {G' T' N' : Type} {cfg : Cfg G T N} {cfg' : Cfg G' T' N'} (hs : cfg'.special = cfg.special)
    {bs : List (Graph G N × Vals G × Bool)} {bs' : List (Graph G' N' × Vals G' × Bool)}
    (h : bs.map Spec.outline = bs'.map Spec.outline) :
    ((Spec.odomSoFar cfg (Spec.updates bs)).map fun x => (x.k1, x.k2)) =
      (Spec.odomSoFar cfg' (Spec.updates bs')).map fun x => (x.k1, x.k2) := by
  induction bs generalizing bs' with
  | nil => cases bs' with
    | nil => rfl
    | cons _ _ => cases h
  | cons b t ih => cases bs' with
    | nil => cases h
    | cons b' t' =>
      simp only [List.map_cons, List.cons.injEq] at h
      have e1 : ∀ {G T N : Type} (cfg : Cfg G T N) (b : Graph G N × Vals G × Bool) (t : List (Graph G N × Vals G × Bool)),
          Spec.odomSoFar cfg (Spec.updates (b :: t)) = Spec.odoms cfg b.2.1 b.1 ++ Spec.odomSoFar cfg (Spec.updates t) := by
        intro G T N cfg b t; rfl
      rw [e1, e1, List.map_append, List.map_append, ih h.2,
        outline_odoms (cfg := cfg) hs (Prod.mk.inj h.1).1 (outline_keys h.1)]

/-- Being well-formed depends on the keys only. -/
theorem Spec.WellFormed.outline {G' T' N' : Type} {cfg : Cfg G T N} {cfg' : Cfg G' T' N'} (hs : cfg'.special = cfg.special)
    {bs : List (Graph G N × Vals G × Bool)} {bs' : List (Graph G' N' × Vals G' × Bool)}
    (h : bs.map Spec.outline = bs'.map Spec.outline) (hf : ∀ b ∈ bs', ∀ x ∈ Spec.btws b.1, Spec.Fair cfg' x)
    (w : Spec.WellFormed cfg bs) : Spec.WellFormed cfg' bs' := by
  refine ⟨?_, hf, ?_⟩
  · have : (Spec.given bs).keys = (Spec.given bs').keys := by
      have := congrArg (fun l => l.map Prod.fst) (outline_given h)
      simpa [KMap.keys, Function.comp_def] using this
    rw [← this]
    exact w.once
  · intro bs1 fs vs o bs2 e pre x post hx
    rw [e, List.map_append, List.map_cons] at h
    obtain ⟨c1, c2, rfl, h1, h2⟩ := List.map_eq_append_iff.1 h
    obtain ⟨b, c3, rfl, h3, h4⟩ := List.map_eq_cons_iff.1 h2
    obtain ⟨fs0, vs0, o0⟩ := b
    have ho := outline_odoms (cfg := cfg) (cfg' := cfg') hs (Prod.mk.inj h3).1 (outline_keys h3)
    simp only at ho
    rw [hx, List.map_append, List.map_cons] at ho
    obtain ⟨p1, p2, h5, h6, h7⟩ := List.map_eq_append_iff.1 ho
    obtain ⟨x0, p3, rfl, h8, h9⟩ := List.map_eq_cons_iff.1 h7
    obtain ⟨k1, k2⟩ := Prod.mk.inj h8
    have hso := outline_odomSoFar (cfg := cfg) (cfg' := cfg') hs h1
    rcases w.start c1 fs0 vs0 o0 c3 rfl p1 x0 p3 h5 with hg | ⟨y, hy, hc⟩
    · left
      rw [k1] at hg
      refine pose_outline ?_ hg
      rw [List.map_append, List.map_append, outline_given h1]
      exact congrArg _ (Prod.mk.inj h3).2
    · right
      have : (y.k1, y.k2) ∈ (Spec.odomSoFar cfg' (Spec.updates bs1) ++ pre).map fun x => (x.k1, x.k2) := by
        rw [List.map_append, ← hso, ← h6, ← List.map_append]
        exact List.mem_map.2 ⟨y, hy, rfl⟩
      obtain ⟨z, hz, e⟩ := List.mem_map.1 this
      refine ⟨z, hz, ?_⟩
      rw [(Prod.mk.inj e).2, hc, k2]

theorem applyResult_types {r : Vals G} {s s' : St G T N} (h : applyResult r s = .ok s' ()) :
    SameTypes s.values s'.values := by
  induction r generalizing s with
  | nil => cases h; exact .refl _
  | cons e t ih =>
    obtain ⟨k, v⟩ := e
    unfold applyResult at h
    split at h
    · rename_i y hy
      split at h
      · rename_i hs
        have := ih h
        exact (SameTypes.set hy hs).trans this
      · cases h
    · split at h
      · split at h
        · have := ih h
          exact this
        · cases h
      · exact ih h

section
variable [Mul G] [Inv G] [One G]

theorem optimize_types {cfg : Cfg G T N} {env : Env G N} {s s' : St G T N} (h : optimize cfg env s = .ok s' ()) :
    SameTypes s.values s'.values := by
  obtain ⟨full, res, s1, s2, -, h1, h2, rfl⟩ := optimize_ok h
  have e1 : s1.values = s.values := by
    rcases h1 with ⟨_, h1⟩ | ⟨_, h1⟩
    · obtain ⟨w, -, -, -, rfl⟩ := gncOptimize_ok h1; rfl
    · obtain ⟨g, -, -, -, -, rfl⟩ := plainOptimize_ok h1; rfl
  have := applyResult_types h2
  rw [e1] at this
  split <;> exact this

/-- An update that returns: its first phase returned, and the values kept their types. -/
theorem update_types {cfg : Cfg G T N} {env : Env G N} (hr : cfg.rejection = true) {fs : Graph G N} {vs : Vals G} {o : Bool}
    {s s' : St G T N} {x : Ret} (h : exec cfg env (.update fs vs o) s = .ok s' x) :
    ∃ s1 y, removeOutliers cfg env fs vs s = .ok s1 y ∧ ∃ v1, insertVals vs s.values = .ok v1 () ∧ SameTypes v1 s'.values := by
  rw [exec_phase env hr] at h
  obtain ⟨s1, y, h1, h2⟩ := M.bind_eq_ok.1 h
  obtain ⟨s2, _, h3, h4⟩ := M.bind_eq_ok.1 h2
  obtain ⟨s3, _, h5, h6⟩ := M.bind_eq_ok.1 h4
  cases h6
  obtain ⟨s1', d, h7, h8⟩ := M.bind_eq_ok.1 (show M.bind (removeOutliers cfg env fs vs) (fun d => M.pure (Ret.unit, d && o)) s = .ok s1 y from h1)
  cases h8
  obtain ⟨v1, hv, -, hs1⟩ := removeOutliers_ok h7
  refine ⟨s1, d, h7, v1, hv, ?_⟩
  have t1 : SameTypes v1 s1.values := by
    rcases hs1 with ⟨_, rfl⟩ | ⟨_, p1, p2, o', _, _, _, _, ha'⟩
    · exact .refl _
    · exact alignStep_types ha'
  have t2 : SameTypes s1.values s2.values := by
    unfold M.when at h3
    split at h3
    · exact optimize_types h3
    · cases h3; exact .refl _
  have t3 : s' = s2 := by
    unfold M.when at h5
    split at h5
    · exact (logStatus_same cfg).of_ok h5
    · cases h5; rfl
  rw [t3]
  exact t1.trans t2

/-- After updates that returned every value given is held, with its type. -/
theorem ReachOk.types {cfg : Cfg G T N} {env : Env G N} (hr : cfg.rejection = true) {bs : List (Graph G N × Vals G × Bool)}
    {s : St G T N} (r : ReachOk cfg env (Spec.updates bs) s) :
    ∀ k x, (k, x) ∈ Spec.given bs → ∃ y, s.values.find? k = some y ∧ x.sameType y = true := by
  induction bs using List.reverseRecOn generalizing s with
  | nil => simp [Spec.given]
  | append_singleton bs b ih =>
    obtain ⟨fs, vs, o⟩ := b
    rw [updates_snoc] at r
    obtain ⟨s0, x0, r0, e⟩ := r.snoc_inv
    obtain ⟨s1, y1, -, v1, hv, ht⟩ := update_types hr e
    intro k x hk
    have hk : (k, x) ∈ Spec.given bs ++ vs := by simpa [Spec.given] using hk
    obtain ⟨hf, hn, hd⟩ := insertVals_ok hv
    have : ∃ y, v1.find? k = some y ∧ x.sameType y = true := by
      rw [hf]
      rcases List.mem_append.1 hk with hg | hg
      · obtain ⟨y, hy, ht⟩ := ih r0 _ _ hg
        exact ⟨y, by rw [if_pos (by unfold KMap.has; rw [hy]; rfl), hy], ht⟩
      · exact ⟨x, by rw [if_neg (by rw [hn _ (List.mem_map.2 ⟨_, hg, rfl⟩)]; simp), find?_given hd hg], x.sameType_refl⟩
    obtain ⟨y, hy, h1⟩ := this
    obtain ⟨z, hz, h2⟩ := ht k y hy
    exact ⟨z, hz, Val.sameType_trans h1 h2⟩

/-- Updates that were processed to the end were well-formed. -/
theorem ReachOk.wellFormed {cfg : Cfg G T N} {env : Env G N} (hr : cfg.rejection = true) {owner : Key → Chr}
    {bs : List (Graph G N × Vals G × Bool)} (hf : ∀ b ∈ bs, ∀ x ∈ Spec.btws b.1, Spec.Fair cfg x)
    (hg : ∀ bs1, bs1 <+: bs → Spec.Grounded cfg owner (Spec.updates bs1))
    {s : St G T N} (r : ReachOk cfg env (Spec.updates bs) s) : Spec.WellFormed cfg bs := by
  induction bs using List.reverseRecOn generalizing s with
  | nil => exact ⟨by simp [Spec.given, KMap.keys], by simp, fun bs1 fs vs o bs2 e => by simp at e⟩
  | append_singleton bs b ih =>
    obtain ⟨fs, vs, o⟩ := b
    rw [updates_snoc] at r
    obtain ⟨s0, x0, r0, e⟩ := r.snoc_inv
    obtain ⟨s1, y1, e1, v1, hv, -⟩ := update_types hr e
    have w := ih (fun b hb => hf b (by simp [hb])) (fun bs1 h1 => hg bs1 (h1.trans (List.prefix_append _ _))) r0
    obtain ⟨hfind, hn, hd⟩ := insertVals_ok hv
    have hkeys := fun k => ((Props.C34_estimate_keys r0).1 k).trans (given_keys bs k)
    refine ⟨?_, hf, ?_⟩
    · have : (Spec.given (bs ++ [(fs, vs, o)])).keys = (Spec.given bs).keys ++ vs.keys := by simp [Spec.given, KMap.keys]
      rw [this]
      refine List.nodup_append.2 ⟨w.once, hd, fun k hk k' hk' he => ?_⟩
      subst he
      have := hn k hk'
      rw [← Bool.not_eq_true, ← KMap.mem_keys_iff] at this
      exact this ((hkeys k).2 hk)
    · intro bs1 fs' vs' o' bs2 eb pre x post hx
      rcases List.eq_nil_or_concat bs2 with rfl | ⟨l, b', rfl⟩
      · obtain ⟨rfl, h2⟩ := List.append_inj' eb rfl
        cases h2
        by_contra hcon
        push Not at hcon
        obtain ⟨h1, h2⟩ := hcon
        obtain ⟨v1', hv', -, hs1⟩ := removeOutliers_ok e1
        rw [hv] at hv'
        cases hv'
        rcases hs1 with ⟨rfl, _⟩ | ⟨_, p1, p2, o', hsort, _⟩
        · simp [Spec.odoms, Spec.btws] at hx
        rcases sortFactors_rootless cfg vs v1 fs [] false s0.pcm (fun b hb => (hf (fs, vs, o) (by simp) b hb).1) with
          ⟨p', y, e2, hall⟩ | ⟨_, _, _, _, _, _, _, _, _, h5, _⟩
        · rcases hall pre x post hx with h | ⟨y, hy, hc⟩ | ⟨g, hgx⟩
          · obtain ⟨y, hy, hc⟩ := (r0.hasTraj_iff hr (hg bs (List.prefix_append _ _)) _).1 h
            exact h2 y (by simp [hy]) hc
          · exact h2 y (by simp [hy]) hc
          · rw [hfind] at hgx
            split at hgx
            · rename_i hhas
              obtain ⟨⟨k, z⟩, hz, hk⟩ := List.mem_map.1 ((hkeys x.k1).1 ((KMap.mem_keys_iff _ _).2 hhas))
              simp only at hk
              subst hk
              obtain ⟨y, hy, ht⟩ := r0.types hr _ _ hz
              rw [hgx] at hy
              cases hy
              cases z with
              | pose g' => exact h1 g' (by simp [hz])
              | other t => cases ht
            · exact h1 g (by
                refine List.mem_append.2 (Or.inr ?_)
                exact KMap.find?_mem hgx)
        · rw [hsort] at h5; cases h5
      · have eb' : (bs ++ [(fs, vs, o)]) = (bs1 ++ (fs', vs', o') :: l) ++ [b'] := by rw [eb]; simp
        obtain ⟨e3, _⟩ := List.append_inj' eb' rfl
        exact w.start bs1 fs' vs' o' l e3 pre x post hx

end

theorem updates_keep (q : Key → Bool) (bs : List (Graph G N × Vals G × Bool)) :
    Spec.updates (bs.map (Spec.keepBatch q)) = (Spec.updates bs).map (Spec.keep q) := by
  simp [Spec.updates, Spec.keepBatch, Spec.keep, Function.comp_def]

theorem given_keep (q : Key → Bool) (bs : List (Graph G N × Vals G × Bool)) :
    Spec.given (bs.map (Spec.keepBatch q)) = (Spec.given bs).filter fun e => q e.1 := by
  unfold Spec.given
  induction bs with
  | nil => rfl
  | cons b bs ih =>
    simp only [List.map_cons, List.flatMap_cons, List.filter_append, ih]
    rfl

theorem Spec.WellFormed.keep {cfg : Cfg G T N} {fleet : Chr → Bool} {land : Key → Bool}
    {bs : List (Graph G N × Vals G × Bool)} (w : Spec.WellFormed cfg bs)
    (hin : ∀ y ∈ Spec.odomSoFar cfg (Spec.updates bs), chr y.k1 = chr y.k2) :
    Spec.WellFormed cfg (bs.map (Spec.keepBatch (Spec.ofFleet cfg fleet land))) := by
  refine ⟨?_, ?_, ?_⟩
  · rw [given_keep]
    exact w.once.sublist (List.filter_sublist.map _)
  · intro b hb x hx
    obtain ⟨b0, h0, rfl⟩ := List.mem_map.1 hb
    unfold Spec.keepBatch at hx
    rw [btws_keep] at hx
    exact w.fair b0 h0 x (List.mem_filter.1 hx).1
  · intro bs1 fs vs o bs2 e pre x post hx
    obtain ⟨c1, c2, rfl, rfl, h2⟩ := List.map_eq_append_iff.1 e
    obtain ⟨b, c3, rfl, h3, rfl⟩ := List.map_eq_cons_iff.1 h2
    obtain ⟨fs0, vs0, o0⟩ := b
    cases h3
    have ho := opOdom_keep cfg (Spec.ofFleet cfg fleet land) (.update fs0 vs0 o0)
    have ho : Spec.odoms cfg (Spec.keepVals (Spec.ofFleet cfg fleet land) vs0) (Spec.keepFactors (Spec.ofFleet cfg fleet land) fs0) =
      (Spec.odoms cfg vs0 fs0).filter fun x => Spec.ofFleet cfg fleet land x.k1 && Spec.ofFleet cfg fleet land x.k2 := ho
    rw [ho] at hx
    obtain ⟨p1, p2, h4, rfl, h5⟩ := List.filter_eq_append_iff.1 hx
    obtain ⟨p3, p4, rfl, h6, h7, h8⟩ := List.filter_eq_cons_iff.1 h5
    rw [Bool.and_eq_true] at h7
    have hmem : ∀ y ∈ Spec.odoms cfg vs0 fs0, y ∈ Spec.odomSoFar cfg (Spec.updates (c1 ++ (fs0, vs0, o0) :: c3)) := by
      intro y hy
      refine List.mem_flatMap.2 ⟨.update fs0 vs0 o0, by simp [Spec.updates], hy⟩
    have hx0 : x ∈ Spec.odoms cfg vs0 fs0 := by rw [h4]; simp
    have hk : ∀ y ∈ Spec.odomSoFar cfg (Spec.updates (c1 ++ (fs0, vs0, o0) :: c3)), chr y.k2 = chr x.k2 →
        (Spec.ofFleet cfg fleet land y.k1 && Spec.ofFleet cfg fleet land y.k2) = true := by
      intro y hy hc
      have hx1 := hin x (hmem x hx0)
      have hy1 := hin y hy
      have hsp : chr x.k2 ∉ cfg.special := by
        have := (List.mem_filter.1 hx0).2
        unfold Spec.isOdom at this
        simp only [decide_eq_true_eq] at this
        exact this.2.1
      have h9 : Spec.ofFleet cfg fleet land x.k2 = true := h7.2
      unfold Spec.ofFleet at h9 ⊢
      rw [if_neg hsp] at h9
      rw [hy1, hc, if_neg hsp, if_neg hsp, h9]; rfl
    rcases w.start c1 fs0 vs0 o0 c3 rfl (p1 ++ p3) x p4 (by rw [h4]; simp) with ⟨g, hg⟩ | ⟨y, hy, hc⟩
    · refine Or.inl ⟨g, ?_⟩
      rw [given_keep]
      rcases List.mem_append.1 hg with hg | hg
      · exact List.mem_append.2 (Or.inl (List.mem_filter.2 ⟨hg, h7.1⟩))
      · exact List.mem_append.2 (Or.inr (List.mem_filter.2 ⟨hg, h7.1⟩))
    · refine Or.inr ⟨y, ?_, hc⟩
      rw [updates_keep, odomSoFar_keep]
      rcases List.mem_append.1 hy with hy | hy
      · refine List.mem_append.2 (Or.inl (List.mem_filter.2 ⟨hy, hk y ?_ hc⟩))
        have : Spec.updates (c1 ++ (fs0, vs0, o0) :: c3) = Spec.updates c1 ++ Spec.updates ((fs0, vs0, o0) :: c3) := by simp [Spec.updates]
        rw [this]
        unfold Spec.odomSoFar at hy ⊢
        rw [List.flatMap_append]
        exact List.mem_append.2 (Or.inl hy)
      · refine List.mem_append.2 (Or.inr ?_)
        have hyo : y ∈ Spec.odoms cfg vs0 fs0 := by
          rw [h4]
          rcases List.mem_append.1 hy with h | h <;> simp [h]
        have hky := hk y (hmem y hyo) hc
        rcases List.mem_append.1 hy with h | h
        · exact List.mem_filter.2 ⟨h, hky⟩
        · exact absurd hky (by simpa using h6 y h)

theorem Spec.Sound.same {T' : Type} {cfg : Cfg G T N} {cfg' : Cfg G T' N} (hs : cfg'.special = cfg.special)
    {owner : Key → Chr} {bs : List (Graph G N × Vals G × Bool)} (w : Spec.Sound cfg owner bs) : Spec.Sound cfg' owner bs := by
  have ho : ∀ op, Spec.opOdom cfg' op = Spec.opOdom cfg op := by
    intro op
    unfold Spec.opOdom
    split
    · unfold Spec.odoms Spec.isOdom; rw [hs]
    · rfl
  have hso : ∀ h, Spec.odomSoFar cfg' h = Spec.odomSoFar cfg h := by
    intro h
    unfold Spec.odomSoFar
    congr 1
    funext op
    exact ho op
  have hl : ∀ b, Spec.isLandmark cfg' b = Spec.isLandmark cfg b := by
    intro b; unfold Spec.isLandmark; rw [hs]
  refine ⟨fun b hb x hx => ?_, fun bs1 hp => ?_⟩
  · have := w.fair b hb x hx
    unfold Spec.Fair at this ⊢
    rw [hl, hs]; exact this
  · have g := w.grounded bs1 hp
    refine ⟨?_, ?_, ?_⟩
    · rw [hso]; exact g.inside
    · intro op hop b hb
      rw [ho, hl, hso]
      exact g.closures op hop b hb
    · intro op hop b hb
      rw [hs, hso]
      exact g.observer op hop b hb

namespace Props
variable [Mul G] [Inv G] [One G]

/-- C96. A history of updates is processed to the end if and only if it is well-formed: no key is given a value twice, and
the first odometry factor of each robot starts at a pose whose value was supplied with it or before. -/
theorem C96_exactly {cfg : Cfg G T N} {env : Env G N} {owner : Key → Chr} {bs : List (Graph G N × Vals G × Bool)}
    (hs : Spec.Sound cfg owner bs) (hc : Spec.Capable cfg env bs) :
    (∃ s, ReachOk cfg env (Spec.updates bs) s) ↔ Spec.WellFormed cfg bs :=
  ⟨fun ⟨_, r⟩ => r.wellFormed hc.rejection hs.fair hs.grounded,
    fun h => C55_updates_succeed_partial hc.orders hc.works hc.rejection h hc.align hc.optimize⟩

/-- C96. Whether a history is processed to the end does not depend on the thresholds, the consistency checks (the types `T` and
`T'` of what is accumulated along odometry differ), the way closures are selected, GNC, logging, frame alignment, the
optimizers, or what they return. -/
theorem C96_parameters {T' : Type} {cfg : Cfg G T N} {cfg' : Cfg G T' N} {env env' : Env G N} {owner : Key → Chr}
    {bs : List (Graph G N × Vals G × Bool)} (hsp : cfg'.special = cfg.special) (hs : Spec.Sound cfg owner bs)
    (hc : Spec.Capable cfg env bs) (hc' : Spec.Capable cfg' env' bs) :
    (∃ s, ReachOk cfg env (Spec.updates bs) s) ↔ ∃ s', ReachOk cfg' env' (Spec.updates bs) s' := by
  rw [C96_exactly hs hc, C96_exactly (hs.same hsp) hc']
  exact ⟨fun w => w.outline hsp rfl (hs.same hsp).fair, fun w => w.outline hsp.symm rfl hs.fair⟩

/-- C96. Neither does it depend on what was measured, on the noise models, or on the initial values: two histories that name
the same keys are both processed to the end, or both are not. -/
theorem C96_measurements {G' T' N' : Type} [Mul G'] [Inv G'] [One G'] {cfg : Cfg G T N} {cfg' : Cfg G' T' N'} {env : Env G N}
    {env' : Env G' N'} {owner owner' : Key → Chr} {bs : List (Graph G N × Vals G × Bool)} {bs' : List (Graph G' N' × Vals G' × Bool)}
    (hsp : cfg'.special = cfg.special) (hk : bs.map Spec.outline = bs'.map Spec.outline) (hs : Spec.Sound cfg owner bs)
    (hs' : Spec.Sound cfg' owner' bs') (hc : Spec.Capable cfg env bs) (hc' : Spec.Capable cfg' env' bs') :
    (∃ s, ReachOk cfg env (Spec.updates bs) s) ↔ ∃ s', ReachOk cfg' env' (Spec.updates bs') s' := by
  rw [C96_exactly hs hc, C96_exactly hs' hc']
  exact ⟨fun w => w.outline hsp hk hs'.fair, fun w => w.outline hsp.symm hk.symm hs.fair⟩

/-- C96. If a history is processed to the end, so is what concerns some of the robots and landmarks only. -/
theorem C96_fleet {cfg : Cfg G T N} {env env' : Env G N} {owner : Key → Chr} {bs : List (Graph G N × Vals G × Bool)}
    (hs : Spec.Sound cfg owner bs) (hr : cfg.rejection = true) (fleet : Chr → Bool) (land : Key → Bool)
    (hc : Spec.Capable cfg env' (bs.map (Spec.keepBatch (Spec.ofFleet cfg fleet land)))) {s : St G T N}
    (r : ReachOk cfg env (Spec.updates bs) s) :
    ∃ s', ReachOk cfg env' ((Spec.updates bs).map (Spec.keep (Spec.ofFleet cfg fleet land))) s' := by
  have w := (r.wellFormed hr hs.fair hs.grounded).keep (fleet := fleet) (land := land) (hs.grounded bs (List.prefix_refl _)).inside
  rw [← updates_keep]
  exact C55_updates_succeed_partial hc.orders hc.works hc.rejection w hc.align hc.optimize

theorem updates_temp (bs : List (Graph G N × Vals G × Bool)) : Spec.tempKeys (Spec.updates bs) = [] := by
  induction bs using List.reverseRecOn with
  | nil => rfl
  | append_singleton bs b ih =>
    obtain ⟨fs, vs, o⟩ := b
    rw [updates_snoc]
    unfold Spec.tempKeys at ih ⊢
    rw [List.foldl_append]
    exact ih

/-- C96 without closure rejection: a history of updates is processed to the end if and only if no key is given a value
twice and no batch consists of one empty factor slot. If some update asks for optimization, the optimizer returns results
and the configuration is one in which optimization works at all (C39). -/
theorem C96_plain {cfg : Cfg G T N} {env : Env G N} (hr : cfg.rejection = false) {bs : List (Graph G N × Vals G × Bool)}
    (hc : (∃ b ∈ bs, b.2.2 = true) → env.Works ∧ cfg.log = false ∧ cfg.fixPrev = false ∧ (cfg.lm = false ∨ cfg.debug = false)) :
    (∃ s, ReachOk cfg env (Spec.updates bs) s) ↔ (Spec.given bs).keys.Nodup ∧ ∀ b ∈ bs, b.1 ≠ [none] := by
  induction bs using List.reverseRecOn with
  | nil => exact ⟨fun _ => ⟨by simp [Spec.given, KMap.keys], by simp⟩, fun _ => ⟨_, .init⟩⟩
  | append_singleton bs b ih =>
    obtain ⟨fs, vs, o⟩ := b
    have ih := ih fun ⟨b, hb, ho⟩ => hc ⟨b, by simp [hb], ho⟩
    have hk : (Spec.given (bs ++ [(fs, vs, o)])).keys = (Spec.given bs).keys ++ vs.keys := by simp [Spec.given, KMap.keys]
    have hcl : (Spec.given bs).keys.Nodup → (¬ Spec.Clash (Spec.updates bs) vs ↔ ((Spec.given bs).keys ++ vs.keys).Nodup) := by
      intro hn
      unfold Spec.Clash
      rw [List.nodup_append]
      push Not
      constructor
      · rintro ⟨h1, h2⟩
        refine ⟨hn, h1, fun k hk k' hk' e => ?_⟩
        subst e
        obtain ⟨op, hop, hko⟩ := (given_keys bs k).2 hk
        exact h2 k hk' op hop hko
      · rintro ⟨_, h1, h2⟩
        exact ⟨h1, fun k hk op hop hko => h2 k ((given_keys bs k).1 ⟨op, hop, hko⟩) k hk rfl⟩
    -- one more update
    have key : ∀ s, ReachOk cfg env (Spec.updates bs) s →
        (Spec.Clash (Spec.updates bs) vs → ∃ s', exec cfg env (.update fs vs o) s = .throw s' .keyExists) ∧
        (¬ Spec.Clash (Spec.updates bs) vs → fs = [none] → exec cfg env (.update fs vs o) s = .ub .nullDeref) ∧
        (¬ Spec.Clash (Spec.updates bs) vs → fs ≠ [none] → ∃ s', exec cfg env (.update fs vs o) s = .ok s' .unit) := by
      intro s r
      cases o with
      | false => exact C85_plain hr r fs vs
      | true =>
        obtain ⟨hw, hl, hfp, hd⟩ := hc ⟨(fs, vs, true), by simp, rfl⟩
        obtain ⟨h1, h2, h3⟩ := C85_plain_optimizing hw hr hl hfp hd r fs vs (Or.inl rfl)
        have ht : s.tempValues = [] := by
          have h := fun k => (C36_temp_keys r k)
          rw [updates_temp] at h
          cases hv : s.tempValues with
          | nil => rfl
          | cons e t => exact absurd ((h e.1).1 (by rw [hv]; simp [KMap.keys])) (by simp)
        refine ⟨h1, h2, fun h4 h5 => (h3 h4 h5).2 fun _ => ?_⟩
        rw [ht]
        rintro (h | ⟨k, hk, _⟩)
        · exact h (by simp [KMap.keys])
        · simp [KMap.keys] at hk
    rw [updates_snoc, hk]
    constructor
    · rintro ⟨s, r⟩
      obtain ⟨s0, x0, r0, e⟩ := r.snoc_inv
      obtain ⟨hn, hb⟩ := ih.1 ⟨s0, r0⟩
      obtain ⟨h1, h2, -⟩ := key s0 r0
      have h3 : ¬ Spec.Clash (Spec.updates bs) vs := fun h => by
        obtain ⟨s', e'⟩ := h1 h
        rw [e] at e'; cases e'
      refine ⟨(hcl hn).1 h3, fun b hb' => ?_⟩
      rcases List.mem_append.1 hb' with hb' | hb'
      · exact hb b hb'
      · rw [List.mem_singleton] at hb'
        subst hb'
        intro h
        have := h2 h3 h
        rw [e] at this; cases this
    · rintro ⟨hn, hb⟩
      have hn0 := (List.nodup_append.1 hn).1
      obtain ⟨s, r⟩ := ih.2 ⟨hn0, fun b hb' => hb b (by simp [hb'])⟩
      obtain ⟨s', e⟩ := (key s r).2.2 ((hcl hn0).2 hn) (hb (fs, vs, o) (by simp))
      exact ⟨s', r.step e⟩

theorem sound_of {cfg : Cfg Demo.Z Demo.Tp Demo.Ns} {owner : Key → Chr} {bs : List (Graph Demo.Z Demo.Ns × Vals Demo.Z × Bool)}
    (h0 : bs.all (fun b => (Spec.btws b.1).all fun x => x.noise.isSome && (!Spec.isLandmark cfg x || decide (chr x.k1 ∉ cfg.special))) = true)
    (h : (List.range (bs.length + 1)).all (fun n =>
      (Spec.odomSoFar cfg (Spec.updates (bs.take n))).all (fun y => decide (chr y.k1 = chr y.k2)) &&
      ((Spec.updates (bs.take n)).all (fun op => (Spec.opBtws op).all fun b => (Spec.opOdom cfg op).contains b || Spec.isLandmark cfg b ||
        ((Spec.odomSoFar cfg (Spec.updates (bs.take n))).any (fun y => decide (chr y.k2 = chr b.k1)) &&
          (Spec.odomSoFar cfg (Spec.updates (bs.take n))).any (fun y => decide (chr y.k2 = chr b.k2))))) &&
      ((Spec.updates (bs.take n)).flatMap Spec.opBtws).all (fun b => !decide (chr b.k2 ∈ cfg.special) || (decide (chr b.k1 = owner b.k2) &&
          (Spec.odomSoFar cfg (Spec.updates (bs.take n))).any (fun y => decide (chr y.k2 = chr b.k1))))) = true) :
    Spec.Sound cfg owner bs := by
  refine ⟨fun b hb x hx => ?_, fun bs1 hp => ?_⟩
  · have := List.all_eq_true.1 (List.all_eq_true.1 h0 b hb) x hx
    rw [Bool.and_eq_true, Bool.or_eq_true, Bool.not_eq_true', decide_eq_true_eq] at this
    refine ⟨this.1, fun hl => ?_⟩
    rcases this.2 with h | h
    · rw [hl] at h; cases h
    · exact h
  · have hl : bs1.length < bs.length + 1 := by have := hp.length_le; omega
    have := List.all_eq_true.1 h bs1.length (List.mem_range.2 hl)
    rw [← List.prefix_iff_eq_take.1 hp] at this
    rw [Bool.and_eq_true, Bool.and_eq_true] at this
    exact grounded_of this.1.1 this.1.2 this.2

/-- `wellInput` with a further value for a pose that has one. -/
def twiceInput : List (Graph Demo.Z Demo.Ns × Vals Demo.Z × Bool) := wellInput ++ [([], [Demo.pose (Demo.a 1) 3], false)]

set_option maxRecDepth 100000 in
/-- The hypotheses of C96 are met: with incremental selection or without, the same input is processed to the end, and the
same input with a key given twice is not. -/
example : (Spec.Sound { Demo.cfg with special := [108] } (fun _ => 97) wellInput ∧
      Spec.Capable { Demo.cfg with special := [108] } Demo.env wellInput ∧
      Spec.Capable { Demo.cfg with special := [108], incremental := true } Demo.env wellInput ∧
      Spec.WellFormed { Demo.cfg with special := [108] } wellInput) ∧
    (Spec.Sound { Demo.cfg with special := [108] } (fun _ => 97) twiceInput ∧
      Spec.Capable { Demo.cfg with special := [108] } Demo.env twiceInput ∧
      ¬ Spec.WellFormed { Demo.cfg with special := [108] } twiceInput ∧
      ¬ ∃ s, ReachOk { Demo.cfg with special := [108] } Demo.env (Spec.updates twiceInput) s) := by
  have s2 : Spec.Sound { Demo.cfg with special := [108] } (fun _ => 97) twiceInput :=
    sound_of (by decide +kernel) (by decide +kernel)
  have c2 : Spec.Capable { Demo.cfg with special := [108] } Demo.env twiceInput :=
    ⟨Demo.env_ok, Demo.env_works, rfl, (fun h => by cases h), fun _ => Or.inl ⟨rfl, Or.inr (modest_of (by decide +kernel))⟩⟩
  have w2 : ¬ Spec.WellFormed { Demo.cfg with special := [108] } twiceInput := fun w => absurd w.once (by decide +kernel)
  refine ⟨⟨sound_of (by decide +kernel) (by decide +kernel),
    ⟨Demo.env_ok, Demo.env_works, rfl, (fun h => by cases h), fun _ => Or.inl ⟨rfl, Or.inr (modest_of (by decide +kernel))⟩⟩,
    ⟨Demo.env_ok, Demo.env_works, rfl, (fun h => by cases h), fun _ => Or.inl ⟨rfl, Or.inr (modest_of (by decide +kernel))⟩⟩,
    wellInput_wellFormed⟩, s2, c2, w2, fun h => w2 ((C96_exactly s2 c2).1 h)⟩

set_option maxRecDepth 100000 in
/-- The hypotheses of `C96_fleet` are met: robot `a` with its landmark. -/
example : Spec.Capable { Demo.cfg with special := [108] } Demo.env
      (wellInput.map (Spec.keepBatch (Spec.ofFleet { Demo.cfg with special := [108] } (fun c => c == 97) fun _ => true))) ∧
    ∃ s, ReachOk { Demo.cfg with special := [108] } Demo.env (Spec.updates wellInput) s :=
  ⟨⟨Demo.env_ok, Demo.env_works, rfl, (fun h => by cases h), fun _ => Or.inl ⟨rfl, Or.inr (modest_of (by decide +kernel))⟩⟩,
    C55_updates_succeed_partial Demo.env_ok Demo.env_works rfl wellInput_wellFormed (fun h => by cases h)
      fun _ => Or.inl ⟨rfl, Or.inr (modest_of (by decide +kernel))⟩⟩

/-- The hypotheses of `C96_plain` are met. -/
example : plainCfg.rejection = false ∧ plainCfg.log = false ∧ plainCfg.fixPrev = false ∧ plainCfg.debug = false ∧
    (Spec.given wellInput).keys.Nodup ∧ (∀ b ∈ wellInput, b.1 ≠ [none]) := by
  refine ⟨rfl, rfl, rfl, rfl, by decide +kernel, ?_⟩
  intro b hb
  simp [wellInput] at hb
  rcases hb with rfl | rfl | rfl | rfl | rfl <;> simp [Demo.edge]

end Props
end RPGO
