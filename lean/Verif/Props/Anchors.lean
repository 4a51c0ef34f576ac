import Verif.Proofs.Anchors
import Verif.Props.Ignoring
import Verif.Props.Alike
/-
C105 priors and other factors that are not measurements between two poses have no say in what is accepted.
-/

namespace RPGO.Spec
variable {G T N : Type}

/-- The call removes priors. -/
def Unpins : Op G N → Prop
  | .removePriors _ _ => True
  | _ => False

/-- Two histories that supply the same measurements and values in the same batches and remove, ignore and revive the same in
the same order. They may differ in which priors and other factors that are not between factors (and which null factors) come
with the batches, in the removal of priors, in optimization flags and in calls that are not about factors. (With frame
alignment, the same batches have no factor at all.) -/
inductive SameButAnchors (cfg : Cfg G T N) : List (Op G N) → List (Op G N) → Prop where
  | nil : SameButAnchors cfg [] []
  | same {h1 h2 o} : SameButAnchors cfg h1 h2 → SameButAnchors cfg (h1 ++ [o]) (h2 ++ [o])
  | batch {h1 h2 o1 o2 fs1 fs2 vs} : SameButAnchors cfg h1 h2 → batch o1 = some (fs1, vs) → batch o2 = some (fs2, vs) →
      btws fs1 = btws fs2 → (cfg.align = true → (fs1 = [] ↔ fs2 = [])) → SameButAnchors cfg (h1 ++ [o1]) (h2 ++ [o2])
  | left {h1 h2 o} : SameButAnchors cfg h1 h2 → Silent o ∨ Unpins o → SameButAnchors cfg (h1 ++ [o]) h2
  | right {h1 h2 o} : SameButAnchors cfg h1 h2 → Silent o ∨ Unpins o → SameButAnchors cfg h1 (h2 ++ [o])

end RPGO.Spec

namespace RPGO
variable {G T N : Type} [Mul G] [Inv G] [One G]

theorem silent_nearS {cfg : Cfg G T N} {env : Env G N} {o : Op G N} (ho : Spec.Silent o) {s s' : St G T N} {x : Ret}
    (e : exec cfg env o s = .ok s' x) : NearS s s' := by
  have := exec_silent (cfg := cfg) (env := env) ho s
  rw [e] at this
  have this : Sim s s' := this
  exact ⟨by rw [this.pcm]; exact .refl _, this.has⟩

theorem unpins_nearS {cfg : Cfg G T N} {env : Env G N} (hr : cfg.rejection = true) {o : Op G N} (ho : Spec.Unpins o)
    {s s' : St G T N} {x : Ret} (e : exec cfg env o s = .ok s' x) : NearS s s' := by
  obtain ⟨s1, b, h1, h2⟩ := exec_ok_phase hr e
  have fr : OptFrame s1 s' := by
    rcases h2 with ⟨_, h2⟩ | ⟨_, rfl⟩
    · exact (optimize_frame cfg env).of_ok h2
    · exact OptFrame.refl _
  refine NearS.trans ?_ (.of_frame fr)
  cases o <;> simp only [Spec.Unpins] at ho
  rename_i c o
  have e0 : ∃ g, phase1 cfg env (.removePriors c o) s = .ok
      { s with pcm := { s.pcm with special := s.pcm.special.filter fun f =>
                  match f with
                  | .prior k _ => !isPriorOf cfg.charSigned c k
                  | _ => true },
               nfg := g } (.unit, o) := ⟨_, rfl⟩
  obtain ⟨g1, k1⟩ := e0
  rw [k1] at h1
  cases h1
  exact ⟨AlikeS.other _ _, fun _ => rfl⟩

/-- Ignoring and reviving a prefix, on each side. -/
theorem hides_nearS {cfg : Cfg G T N} {e1 e2 : Env G N} (hr : cfg.rejection = true) {o : Op G N} (ho : Spec.Hides o)
    {s1 s2 t1 t2 : St G T N} {x1 x2 : Ret} (hs : NearS s1 s2)
    (h1 : exec cfg e1 o s1 = .ok t1 x1) (h2 : exec cfg e2 o s2 = .ok t2 x2) : NearS t1 t2 := by
  obtain ⟨u1, a1, p1, q1⟩ := exec_ok_phase hr h1
  obtain ⟨u2, a2, p2, q2⟩ := exec_ok_phase hr h2
  have f1 : OptFrame u1 t1 := by
    rcases q1 with ⟨_, h⟩ | ⟨_, rfl⟩
    · exact (optimize_frame cfg e1).of_ok h
    · exact OptFrame.refl _
  have f2 : OptFrame u2 t2 := by
    rcases q2 with ⟨_, h⟩ | ⟨_, rfl⟩
    · exact (optimize_frame cfg e2).of_ok h
    · exact OptFrame.refl _
  refine NearS.frames ?_ f1 f2
  cases o <;> simp only [Spec.Hides] at ho
  · rename_i ch
    have e0 : ∀ (env : Env G N) (s : St G T N), ∃ g, phase1 cfg env (.ignore ch) s = .ok
        { s with pcm := if s.pcm.ignored.contains ch then s.pcm else { s.pcm with ignored := s.pcm.ignored ++ [ch] },
                 nfg := g } (.unit, true) := fun _ _ => ⟨_, rfl⟩
    obtain ⟨g1, k1⟩ := e0 e1 s1
    obtain ⟨g2, k2⟩ := e0 e2 s2
    rw [k1] at p1
    rw [k2] at p2
    cases p1
    cases p2
    refine ⟨?_, hs.has⟩
    simp only
    rw [hs.pcm.eq]
    simp only
    split
    · rfl
    · rfl
  · rename_i ch
    have e0 : ∀ (env : Env G N) (s : St G T N), ∃ g, phase1 cfg env (.revive ch) s = .ok
        { s with pcm := { s.pcm with ignored := s.pcm.ignored.filter (fun x => !(x == ch)) },
                 nfg := g } (.unit, true) := fun _ _ => ⟨_, rfl⟩
    obtain ⟨g1, k1⟩ := e0 e1 s1
    obtain ⟨g2, k2⟩ := e0 e2 s2
    rw [k1] at p1
    rw [k2] at p2
    cases p1
    cases p2
    refine ⟨?_, hs.has⟩
    simp only
    rw [hs.pcm.eq]
    rfl

/-- The same call on each side. -/
theorem exec_nearS {cfg : Cfg G T N} {e1 e2 : Env G N} (hr : cfg.rejection = true) {o : Op G N}
    (hm : Spec.Managed o) {s1 s2 t1 t2 : St G T N} {x1 x2 : Ret} (hs : NearS s1 s2)
    (H : ∀ fs vs fs1 b fs2, Spec.batch o = some (fs, vs) → fs = fs1 ++ some (.btw b) :: fs2 → Spec.isOdom cfg vs b = true →
      b.k1 ∈ vs.keys ∨ hasTraj s1.pcm (chr b.k2) = true ∨ ∃ b' ∈ Spec.odoms cfg vs fs1, chr b'.k2 = chr b.k2)
    (h1 : exec cfg e1 o s1 = .ok t1 x1) (h2 : exec cfg e2 o s2 = .ok t2 x2) : NearS t1 t2 := by
  cases hbt : Spec.batch o with
  | some y =>
    obtain ⟨fs, vs⟩ := y
    obtain ⟨u1, r1, p1, f1, _⟩ := exec_batch_ok hr hbt h1
    obtain ⟨u2, r2, p2, f2, _⟩ := exec_batch_ok hr hbt h2
    exact (removeOutliers_nearS cfg fs fs vs rfl (fun _ => Iff.rfl) hs (fun fs1 b fs2 => H fs vs fs1 b fs2 hbt) p1 p2).frames f1 f2
  | none =>
    by_cases hsil : Spec.Silent o
    · exact (silent_nearS hsil h1).symm.trans (hs.trans (silent_nearS hsil h2))
    by_cases hun : Spec.Unpins o
    · exact (unpins_nearS hr hun h1).symm.trans (hs.trans (unpins_nearS hr hun h2))
    by_cases hhid : Spec.Hides o
    · exact hides_nearS hr hhid hs h1 h2
    obtain ⟨u1, a1, p1, q1⟩ := exec_ok_phase hr h1
    obtain ⟨u2, a2, p2, q2⟩ := exec_ok_phase hr h2
    have f1 : OptFrame u1 t1 := by
      rcases q1 with ⟨_, h⟩ | ⟨_, rfl⟩
      · exact (optimize_frame cfg e1).of_ok h
      · exact OptFrame.refl _
    have f2 : OptFrame u2 t2 := by
      rcases q2 with ⟨_, h⟩ | ⟨_, rfl⟩
      · exact (optimize_frame cfg e2).of_ok h
      · exact OptFrame.refl _
    cases o <;> simp only [Spec.batch, reduceCtorEq, Spec.Silent, Spec.Hides, Spec.Unpins, not_true_eq_false, Spec.Managed] at hbt hsil hhid hun hm
    · obtain ⟨_, _, g1, k1⟩ := M.bind_eq_ok.1 p1
      cases k1
      obtain ⟨_, _, g2, k2⟩ := M.bind_eq_ok.1 p2
      cases k2
      exact (removeLastOfPair_nearS _ hs g1 g2).1.frames f1 f2
    · obtain ⟨_, _, g1, k1⟩ := M.bind_eq_ok.1 p1
      cases k1
      obtain ⟨_, _, g2, k2⟩ := M.bind_eq_ok.1 p2
      cases k2
      exact (removeLastPcm_nearS hs g1 g2).1.frames f1 f2

theorem anchors_near {cfg : Cfg G T N} {e1 e2 : Env G N} (hr : cfg.rejection = true) {h1 h2 : List (Op G N)}
    (hc : Spec.SameButAnchors cfg h1 h2) (hm : ∀ op ∈ h1, Spec.Managed op) (hg : Spec.StartsGiven cfg h1) {s1 s2 : St G T N}
    (r1 : ReachOk cfg e1 h1 s1) (r2 : ReachOk cfg e2 h2 s2) : NearS s1 s2 := by
  have H : ∀ {h1 : List (Op G N)} {o1 : Op G N} {t1 : St G T N}, Spec.StartsGiven cfg (h1 ++ [o1]) → ReachOk cfg e1 h1 t1 →
      ∀ fs vs fs1 b fs2, Spec.batch o1 = some (fs, vs) → fs = fs1 ++ some (.btw b) :: fs2 → Spec.isOdom cfg vs b = true →
      b.k1 ∈ vs.keys ∨ hasTraj t1.pcm (chr b.k2) = true ∨ ∃ b' ∈ Spec.odoms cfg vs fs1, chr b'.k2 = chr b.k2 := by
    intro h1 o1 t1 hg r1 fs vs fs1 b fs2 hb hf ho
    rcases hg h1 o1 [] fs vs fs1 b fs2 rfl hb hf ho with h | ⟨b', hb', hc⟩
    · exact Or.inl h
    · rcases List.mem_append.1 hb' with hb' | hb'
      · right; left
        rw [← hc]
        exact r1.hasTraj hr b' hb'
      · exact Or.inr (Or.inr ⟨b', hb', hc⟩)
  induction hc generalizing s1 s2 with
  | nil =>
    have k1 : ∀ {cfg : Cfg G T N} {e : Env G N} {s : St G T N}, ReachOk cfg e [] s → s = St.init := by
      intro cfg e s r
      generalize hh : ([] : List (Op G N)) = h' at r
      cases r with
      | init => rfl
      | step => simp at hh
    rw [k1 r1, k1 r2]
    exact ⟨.refl _, fun _ => rfl⟩
  | same _ ih =>
    obtain ⟨t1, x1, r1, x1'⟩ := r1.snoc_inv
    obtain ⟨t2, x2, r2, x2'⟩ := r2.snoc_inv
    have hs := ih (fun op h => hm op (by simp [h])) (StartsGiven.init hg) r1 r2
    exact exec_nearS hr (hm _ (by simp)) hs (H hg r1) x1' x2'
  | batch _ b1 b2 hb hal ih =>
    obtain ⟨t1, x1, r1, x1'⟩ := r1.snoc_inv
    obtain ⟨t2, x2, r2, x2'⟩ := r2.snoc_inv
    have hs := ih (fun op h => hm op (by simp [h])) (StartsGiven.init hg) r1 r2
    obtain ⟨u1, y1, p1, f1, _⟩ := exec_batch_ok hr b1 x1'
    obtain ⟨u2, y2, p2, f2, _⟩ := exec_batch_ok hr b2 x2'
    exact (removeOutliers_nearS cfg _ _ _ hb hal hs (fun fs1 b fs2 => H hg r1 _ _ fs1 b fs2 b1) p1 p2).frames f1 f2
  | left _ ho ih =>
    obtain ⟨t1, x1, r1, x1'⟩ := r1.snoc_inv
    have hs := ih (fun op h => hm op (by simp [h])) (StartsGiven.init hg) r1 r2
    refine NearS.trans (NearS.symm ?_) hs
    rcases ho with ho | ho
    · exact silent_nearS ho x1'
    · exact unpins_nearS hr ho x1'
  | right _ ho ih =>
    obtain ⟨t2, x2, r2, x2'⟩ := r2.snoc_inv
    refine (ih hm hg r1 r2).trans ?_
    rcases ho with ho | ho
    · exact silent_nearS ho x2'
    · exact unpins_nearS hr ho x2'

/-- The measurements in the graph do not depend on the other factors. -/
theorem buildGraph_btws {e1 e2 : Env G N} (h : SameIter e1 e2) {p q : Pcm G T N} (hp : AlikeS p q)
    (h1 : ∀ b, .btw b ∉ p.special) (h2 : ∀ b, .btw b ∉ q.special) :
    Spec.btws (buildGraph e1 p) = Spec.btws (buildGraph e2 q) := by
  have key : ∀ l : List (Factor G N), (∀ b, .btw b ∉ l) → Spec.btws (l.map some) = [] := by
    intro l hl
    induction l with
    | nil => rfl
    | cons f l ih =>
      have hl' : ∀ b, .btw b ∉ l := fun b hb => hl b (List.mem_cons_of_mem _ hb)
      cases f with
      | btw b => exact absurd List.mem_cons_self (hl b)
      | _ => exact ih hl'
  rw [buildGraph_iter h]
  unfold buildGraph
  have ap : ∀ a b : Graph G N, Spec.btws (a ++ b) = Spec.btws a ++ Spec.btws b := fun a b => by
    unfold Spec.btws; rw [List.filterMap_append]
  rw [ap, ap, ap, ap, ap, ap, key _ h1, key _ h2, hp.eq]

end RPGO

namespace RPGO.Props
variable {G T N : Type} [Mul G] [Inv G] [One G]

/-- C105: whatever priors and other factors that are not between factors are supplied when, and whatever priors are removed
when, the same closures and observations are registered and accepted, the same keys have estimates, the same prefixes are
ignored, and the same numbers of closures and (without GNC) of inliers are reported. -/
theorem C105_judgement {cfg : Cfg G T N} (hr : cfg.rejection = true) {e1 e2 : Env G N} {h1 h2 : List (Op G N)}
    (hc : Spec.SameButAnchors cfg h1 h2) (hm : ∀ op ∈ h1, Spec.Managed op) (hg : Spec.StartsGiven cfg h1) {s1 s2 : St G T N}
    (r1 : ReachOk cfg e1 h1 s1) (r2 : ReachOk cfg e2 h2 s2) :
    Spec.SameJudgement s1 s2 ∧ getIgnored cfg s1 = getIgnored cfg s2 ∧
      (∀ n, Spec.NumLC cfg e1 s1 n ↔ Spec.NumLC cfg e2 s2 n) ∧
      (cfg.useGnc = false → ∀ n, Spec.NumInliers cfg e1 s1 n ↔ Spec.NumInliers cfg e2 s2 n) := by
  have hs := anchors_near hr hc hm hg r1 r2
  have he := hs.pcm.eq
  refine ⟨⟨fun id => ?_, fun l => ?_, ?_⟩, ?_, fun n => ?_, fun hg n => ?_⟩
  · have : lcOf s2.pcm id = lcOf s1.pcm id := by rw [he]; rfl
    unfold Spec.registered Spec.selected Spec.matrix
    rw [this]; exact ⟨rfl, rfl, rfl⟩
  · have : lmOf s2.pcm l = lmOf s1.pcm l := by rw [he]; rfl
    rw [this]; exact ⟨rfl, rfl⟩
  · have k1 := (reach_values r1.reach).1
    have k2 := (reach_values r2.reach).1
    refine List.Pairwise.eq_of_mem_iff (r := fun a b : Key => a.toNat < b.toNat) k1 k2 (fun k => ?_)
    rw [KMap.mem_keys_iff, KMap.mem_keys_iff, hs.has]
  · unfold getIgnored
    rw [if_pos hr, if_pos hr, he]
  · rw [numLC_iff hr, numLC_iff hr, he]
  · rw [numInliers_iff hr hg, numInliers_iff hr hg, he]

/-- C105: the graphs hold the same measurements in the same order, and if the priors and other factors supplied and not removed
are the same in the end, the graphs are the same. -/
theorem C105_graph {cfg : Cfg G T N} (hr : cfg.rejection = true) {e1 e2 : Env G N} (k1 : e1.Ok) (k2 : e2.Ok)
    (hlc : e1.iterLC = e2.iterLC) (hlm : e1.iterLM = e2.iterLM) {h1 h2 : List (Op G N)}
    (hc : Spec.SameButAnchors cfg h1 h2) (hm : ∀ op ∈ h1, Spec.Managed op) (hm2 : ∀ op ∈ h2, Spec.Managed op)
    (hg : Spec.StartsGiven cfg h1) {s1 s2 : St G T N} (r1 : ReachOk cfg e1 h1 s1) (r2 : ReachOk cfg e2 h2 s2) :
    Spec.btws s1.nfg = Spec.btws s2.nfg ∧ (Spec.specialSoFar cfg h1 = Spec.specialSoFar cfg h2 → s1.nfg = s2.nfg) := by
  have hs := anchors_near hr hc hm hg r1 r2
  obtain ⟨a1, _, c1⟩ := r1.lists k1 hr hm
  obtain ⟨a2, _, c2⟩ := r2.lists k2 hr hm2
  rw [a1, a2]
  refine ⟨buildGraph_btws ⟨hlc, hlm⟩ hs.pcm ?_ ?_, fun hsp => ?_⟩
  · rw [c1]; exact specialSoFar_noBtw cfg h1
  · rw [c2]; exact specialSoFar_noBtw cfg h2
  · rw [buildGraph_iter (e1 := e1) (e2 := e2) ⟨hlc, hlm⟩, hs.pcm.eq]
    rw [c2, ← hsp, ← c1]

/-- Odometry of one robot with a prior, then a closure with another factor, then the prior is removed. -/
def pinned : List (Op Demo.Z Demo.Ns) :=
  [.update [some (.prior (Demo.a 0) (Demo.z 0)), Demo.edge (Demo.a 0) (Demo.a 1) 1] [Demo.pose (Demo.a 0) 0, Demo.pose (Demo.a 1) 1] true,
   .update [Demo.edge (Demo.a 1) (Demo.a 2) 1] [Demo.pose (Demo.a 2) 2] true,
   .update [Demo.edge (Demo.a 0) (Demo.a 2) 2, some (.other [Demo.a 1] 7), Demo.edge (Demo.a 2) (Demo.a 0) 40] [] true,
   .removePriors 97 true]

/-- The same measurements without the prior. -/
def loose : List (Op Demo.Z Demo.Ns) :=
  [.update [Demo.edge (Demo.a 0) (Demo.a 1) 1] [Demo.pose (Demo.a 0) 0, Demo.pose (Demo.a 1) 1] true,
   .getNumLC,
   .update [Demo.edge (Demo.a 1) (Demo.a 2) 1, none] [Demo.pose (Demo.a 2) 2] false,
   .forceUpdate [some (.other [Demo.a 1] 7), Demo.edge (Demo.a 0) (Demo.a 2) 2, Demo.edge (Demo.a 2) (Demo.a 0) 40] []]

theorem pinned_loose : Spec.SameButAnchors Demo.cfg pinned loose := by
  refine .left (h1 := pinned.take 3) ?_ (Or.inr trivial)
  refine .batch (h1 := pinned.take 2) (h2 := loose.take 3) ?_ rfl rfl rfl (fun h => nomatch h)
  refine .batch (h1 := pinned.take 1) (h2 := loose.take 2) ?_ rfl rfl rfl (fun h => nomatch h)
  refine .right (h2 := loose.take 1) ?_ (Or.inl trivial)
  exact .batch (h1 := []) (h2 := []) .nil rfl rfl rfl (fun h => nomatch h)

set_option maxRecDepth 100000 in
/-- The hypotheses of `C105_judgement` and `C105_graph` are met: one closure is accepted and one contradicts the odometry, and the graphs are the same
in the end. -/
example : ∃ s1 s2, ReachOk Demo.cfg Demo.env pinned s1 ∧ ReachOk Demo.cfg Demo.env loose s2 ∧
    Spec.SameButAnchors Demo.cfg pinned loose ∧ (∀ op ∈ pinned, Spec.Managed op) ∧ (∀ op ∈ loose, Spec.Managed op) ∧
    Spec.StartsGiven Demo.cfg pinned ∧ s1.nfg = s2.nfg ∧ s1.nfg.length = 4 ∧ (Spec.selected s1 ⟨97, 97⟩).length = 1 := by
  obtain ⟨s1, r1, e⟩ := Demo.runs_reach (cfg := Demo.cfg) (env := Demo.env) (ops := pinned)
    (P := fun s => decide (s.nfg.length = 4 ∧ (Spec.selected s ⟨97, 97⟩).length = 1)) (by decide +kernel)
  obtain ⟨s2, r2, _⟩ := Demo.runs_reach (cfg := Demo.cfg) (env := Demo.env) (ops := loose) (P := fun _ => true) (by decide +kernel)
  obtain ⟨e1, e2⟩ := of_decide_eq_true e
  have m1 : ∀ op ∈ pinned, Spec.Managed op := by
    intro op ho
    simp only [pinned, List.mem_cons, List.not_mem_nil, or_false] at ho
    rcases ho with rfl | rfl | rfl | rfl <;> trivial
  have m2 : ∀ op ∈ loose, Spec.Managed op := by
    intro op ho
    simp only [loose, List.mem_cons, List.not_mem_nil, or_false] at ho
    rcases ho with rfl | rfl | rfl | rfl <;> trivial
  have hg : Spec.StartsGiven Demo.cfg pinned := starts_sound (by decide +kernel)
  exact ⟨s1, s2, r1, r2, pinned_loose, m1, m2, hg,
    (C105_graph rfl Demo.env_ok Demo.env_ok rfl rfl pinned_loose m1 m2 hg r1 r2).2 (by decide +kernel), e1, e2⟩

end RPGO.Props
