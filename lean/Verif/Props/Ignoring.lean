import Verif.Proofs.Ignore
import Verif.Props.Pair
import Verif.Props.Landmarks
import Verif.Props.Graph
import Verif.Props.Prefix
import Verif.Props.Values
/-
C87 when prefixes are ignored and revived makes no difference, only which are ignored in the end.
-/

namespace RPGO.Spec
variable {G T N : Type}

/-- The call ignores or revives a prefix. -/
def Hides : Op G N → Prop
  | .ignore _ => True
  | .revive _ => True
  | _ => False

instance : DecidablePred (Hides : Op G N → Prop) := fun op => by cases op <;> unfold Hides <;> infer_instance

/-- Two histories that supply the same factors and values and remove the same in the same order; they may differ in
optimization flags, in calls that are not about factors, and in which prefixes are ignored and revived when. -/
inductive SameButHiding : List (Op G N) → List (Op G N) → Prop where
  | nil : SameButHiding [] []
  | both {h1 h2 o1 o2} : SameButHiding h1 h2 → SameOp o1 o2 → SameButHiding (h1 ++ [o1]) (h2 ++ [o2])
  | left {h1 h2 o} : SameButHiding h1 h2 → Silent o ∨ Hides o → SameButHiding (h1 ++ [o]) h2
  | right {h1 h2 o} : SameButHiding h1 h2 → Silent o ∨ Hides o → SameButHiding h1 (h2 ++ [o])

/-- The history without the calls that ignore or revive a prefix. -/
def withoutHiding (h : List (Op G N)) : List (Op G N) := h.filter fun o => !decide (Hides o)

/-- The same closures and observations are registered and accepted, and the same keys have estimates. -/
structure SameJudgement (s1 s2 : St G T N) : Prop where
  pairs : ∀ id, registered s1 id = registered s2 id ∧ selected s1 id = selected s2 id ∧ matrix s1 id = matrix s2 id
  landmarks : ∀ l, (lmOf s1.pcm l).factors = (lmOf s2.pcm l).factors ∧ (lmOf s1.pcm l).cons = (lmOf s2.pcm l).cons
  keys : s1.values.keys = s2.values.keys

theorem SameButHiding.without (h : List (Op G N)) : SameButHiding h (withoutHiding h) := by
  induction h using List.reverseRecOn with
  | nil => exact .nil
  | append_singleton h o ih =>
    unfold withoutHiding at ih ⊢
    rw [List.filter_append]
    by_cases ho : Hides o
    · have : List.filter (fun o : Op G N => !decide (Hides o)) [o] = [] := by simp [ho]
      rw [this, List.append_nil]
      exact ih.left (Or.inr ho)
    · have : List.filter (fun o : Op G N => !decide (Hides o)) [o] = [o] := by simp [ho]
      rw [this]
      exact ih.both (Or.inl rfl)

theorem SameButHiding.ignores {h1 h2 : List (Op G N)} (h : SameButHiding h1 h2) (cs : List Chr) :
    SameButHiding h1 (h2 ++ cs.map .ignore) := by
  induction cs using List.reverseRecOn with
  | nil => simpa using h
  | append_singleton cs c ih =>
    rw [List.map_append, ← List.append_assoc]
    exact ih.right (Or.inr trivial)

end RPGO.Spec

namespace RPGO
variable {G T N : Type} [Mul G] [Inv G] [One G]

theorem hides_near {cfg : Cfg G T N} {env : Env G N} (hr : cfg.rejection = true) {o : Op G N} (ho : Spec.Hides o)
    {s s' : St G T N} {x : Ret} (e : exec cfg env o s = .ok s' x) : NearI s s' := by
  have c : Spec.Call cfg env o s s' := Or.inl ⟨x, e⟩
  obtain ⟨s1, b, h1, h2⟩ := exec_ok_phase hr e
  have fr : OptFrame s1 s' := by
    rcases h2 with ⟨_, h2⟩ | ⟨_, rfl⟩
    · exact (optimize_frame cfg env).of_ok h2
    · exact OptFrame.refl _
  refine NearI.trans ?_ (.of_frame fr)
  cases o <;> simp only [Spec.Hides] at ho
  · rename_i ch
    have e0 : phase1 cfg env (.ignore ch) s = .ok
        { s with pcm := if s.pcm.ignored.contains ch then s.pcm else { s.pcm with ignored := s.pcm.ignored ++ [ch] },
                 nfg := buildGraph env (if s.pcm.ignored.contains ch then s.pcm else
                  { s.pcm with ignored := s.pcm.ignored ++ [ch] }) } (.unit, true) := rfl
    rw [e0] at h1
    cases h1
    refine ⟨?_, fun _ => rfl⟩
    show AlikeI s.pcm (if _ then _ else _)
    split
    · exact .refl _
    · exact AlikeI.ign _ _
  · rename_i ch
    have e0 : phase1 cfg env (.revive ch) s = .ok
        { s with pcm := { s.pcm with ignored := s.pcm.ignored.filter (fun x => !(x == ch)) },
                 nfg := buildGraph env { s.pcm with ignored := s.pcm.ignored.filter (fun x => !(x == ch)) } } (.unit, true) := rfl
    rw [e0] at h1
    cases h1
    exact ⟨AlikeI.ign _ _, fun _ => rfl⟩

theorem silent_near {cfg : Cfg G T N} {env : Env G N} {o : Op G N} (ho : Spec.Silent o) {s s' : St G T N} {x : Ret}
    (e : exec cfg env o s = .ok s' x) : NearI s s' := by
  have := exec_silent (cfg := cfg) (env := env) ho s
  rw [e] at this
  have this : Sim s s' := this
  exact ⟨by rw [this.pcm]; exact .refl _, this.has⟩

/-- One call on each side. -/
theorem exec_nearI {cfg : Cfg G T N} {e1 e2 : Env G N} (hr : cfg.rejection = true) {o1 o2 : Op G N} (ho : Spec.SameOp o1 o2)
    (hm : Spec.Managed o1) {s1 s2 t1 t2 : St G T N} {x1 x2 : Ret} (hs : NearI s1 s2)
    (H : ∀ fs vs fs1 b fs2, Spec.batch o1 = some (fs, vs) → fs = fs1 ++ some (.btw b) :: fs2 → Spec.isOdom cfg vs b = true →
      b.k1 ∈ vs.keys ∨ hasTraj s1.pcm (chr b.k2) = true ∨ ∃ b' ∈ Spec.odoms cfg vs fs1, chr b'.k2 = chr b.k2)
    (h1 : exec cfg e1 o1 s1 = .ok t1 x1) (h2 : exec cfg e2 o2 s2 = .ok t2 x2) : NearI t1 t2 := by
  have priors : ∀ {c a b}, o1 = .removePriors c a → o2 = .removePriors c b → NearI t1 t2 := by
    rintro c a b rfl rfl
    obtain ⟨u1, a1, p1, q1⟩ := exec_ok_phase hr h1
    obtain ⟨u2, a2, p2, q2⟩ := exec_ok_phase hr h2
    have f1 : OptFrame u1 t1 := by
      rcases q1 with ⟨_, h⟩ | ⟨_, rfl⟩
      · exact (optimize_frame cfg e1).of_ok h
      · exact OptFrame.refl _
    have f2 : OptFrame u2 t2 := by
      rcases q2 with ⟨_, h⟩ | ⟨_, rfl⟩
      · exact (optimize_frame cfg e2).of_ok h
      · exact OptFrame.refl _
    refine NearI.frames ?_ f1 f2
    have e0 : ∀ (env : Env G N) (o : Bool) (s : St G T N), ∃ g, phase1 cfg env (.removePriors c o) s = .ok
        { s with pcm := { s.pcm with special := s.pcm.special.filter fun f =>
                    match f with
                    | .prior k _ => !isPriorOf cfg.charSigned c k
                    | _ => true },
                 nfg := g } (.unit, o) := fun _ _ _ => ⟨_, rfl⟩
    obtain ⟨g1, k1⟩ := e0 e1 a s1
    obtain ⟨g2, k2⟩ := e0 e2 b s2
    rw [k1] at p1
    rw [k2] at p2
    cases p1
    cases p2
    refine ⟨?_, hs.has⟩
    simp only
    rw [hs.pcm.eq]
    rfl
  rcases ho with rfl | ⟨⟨fs, vs⟩, b1, b2⟩ | ⟨c, a, b, ha, hb⟩
  · cases hbt : Spec.batch o1 with
    | some y =>
      obtain ⟨fs, vs⟩ := y
      obtain ⟨u1, r1, p1, f1, _⟩ := exec_batch_ok hr hbt h1
      obtain ⟨u2, r2, p2, f2, _⟩ := exec_batch_ok hr hbt h2
      exact (removeOutliers_nearI cfg fs vs hs (fun fs1 b fs2 => H fs vs fs1 b fs2 hbt) p1 p2).frames f1 f2
    | none =>
      by_cases hsil : Spec.Silent o1
      · exact (silent_near hsil h1).symm.trans (hs.trans (silent_near hsil h2))
      by_cases hhid : Spec.Hides o1
      · exact (hides_near hr hhid h1).symm.trans (hs.trans (hides_near hr hhid h2))
      obtain ⟨u1, a1, p1, q1⟩ := exec_ok_phase hr h1
      obtain ⟨u2, a2, p2, q2⟩ := exec_ok_phase hr h2
      have f1 : OptFrame u1 t1 := by
        rcases q1 with ⟨_, h⟩ | ⟨_, rfl⟩
        · exact (optimize_frame cfg e1).of_ok h
        · exact OptFrame.refl _
      have f2 : OptFrame u2 t2 := by
        rcases q2 with ⟨_, h⟩ | ⟨_, rfl⟩
        · exact (optimize_frame cfg e2).of_ok h
        · exact OptFrame.refl _
      cases o1 <;> simp only [Spec.batch, reduceCtorEq, Spec.Silent, Spec.Hides, not_true_eq_false, Spec.Managed] at hbt hsil hhid hm
      · exact priors rfl rfl
      · obtain ⟨_, _, g1, k1⟩ := M.bind_eq_ok.1 p1
        cases k1
        obtain ⟨_, _, g2, k2⟩ := M.bind_eq_ok.1 p2
        cases k2
        exact (removeLastOfPair_nearI _ hs g1 g2).1.frames f1 f2
      · obtain ⟨_, _, g1, k1⟩ := M.bind_eq_ok.1 p1
        cases k1
        obtain ⟨_, _, g2, k2⟩ := M.bind_eq_ok.1 p2
        cases k2
        exact (removeLastPcm_nearI hs g1 g2).1.frames f1 f2
  · obtain ⟨u1, r1, p1, f1, _⟩ := exec_batch_ok hr b1 h1
    obtain ⟨u2, r2, p2, f2, _⟩ := exec_batch_ok hr b2 h2
    exact (removeOutliers_nearI cfg fs vs hs (fun fs1 b fs2 => H fs vs fs1 b fs2 b1) p1 p2).frames f1 f2
  · exact priors ha hb

theorem hiding_near {cfg : Cfg G T N} {e1 e2 : Env G N} (hr : cfg.rejection = true) {h1 h2 : List (Op G N)}
    (hc : Spec.SameButHiding h1 h2) (hm : ∀ op ∈ h1, Spec.Managed op) (hg : Spec.StartsGiven cfg h1) {s1 s2 : St G T N}
    (r1 : ReachOk cfg e1 h1 s1) (r2 : ReachOk cfg e2 h2 s2) : NearI s1 s2 := by
  induction hc generalizing s1 s2 with
  | nil =>
    have k1 : ∀ {cfg : Cfg G T N} {e : Env G N} {s : St G T N}, ReachOk cfg e [] s → s = St.init := by
      intro cfg e s r
      generalize hh : ([] : List (Op G N)) = h' at r
      cases r with
      | init => rfl
      | step => simp at hh
    rw [k1 r1, k1 r2]
    exact ⟨.refl _, fun _ => rfl⟩
  | @both h1 h2 o1 o2 _ ho ih =>
    obtain ⟨t1, x1, r1, x1'⟩ := r1.snoc_inv
    obtain ⟨t2, x2, r2, x2'⟩ := r2.snoc_inv
    have hs := ih (fun op h => hm op (by simp [h])) (StartsGiven.init hg) r1 r2
    refine exec_nearI hr ho (hm _ (by simp)) hs ?_ x1' x2'
    intro fs vs fs1 b fs2 hb hf ho
    rcases hg h1 o1 [] fs vs fs1 b fs2 rfl hb hf ho with h | ⟨b', hb', hc⟩
    · exact Or.inl h
    · rcases List.mem_append.1 hb' with hb' | hb'
      · right; left
        rw [← hc]
        exact r1.hasTraj hr b' hb'
      · exact Or.inr (Or.inr ⟨b', hb', hc⟩)
  | @left h1 h2 o _ ho ih =>
    obtain ⟨t1, x1, r1, x1'⟩ := r1.snoc_inv
    have hs := ih (fun op h => hm op (by simp [h])) (StartsGiven.init hg) r1 r2
    refine NearI.trans (NearI.symm ?_) hs
    rcases ho with ho | ho
    · exact silent_near ho x1'
    · exact hides_near hr ho x1'
  | @right h1 h2 o _ ho ih =>
    obtain ⟨t2, x2, r2, x2'⟩ := r2.snoc_inv
    refine (ih hm hg r1 r2).trans ?_
    rcases ho with ho | ho
    · exact silent_near ho x2'
    · exact hides_near hr ho x2'

theorem buildGraph_ign {e1 e2 : Env G N} (h : SameIter e1 e2) {p q : Pcm G T N} (hp : AlikeI p q)
    (hi : ∀ c, c ∈ p.ignored ↔ c ∈ q.ignored) : buildGraph e1 p = buildGraph e2 q := by
  have hc : ∀ c, p.ignored.contains c = q.ignored.contains c := by
    intro c
    rw [Bool.eq_iff_iff]
    simpa using hi c
  rw [buildGraph_iter h]
  unfold buildGraph
  simp only [hc]
  rw [hp.eq]
  rfl

end RPGO

namespace RPGO.Props
variable {G T N : Type} [Mul G] [Inv G] [One G]

/-- C87: whatever prefixes are ignored and revived when, the same closures and observations are registered and accepted, the
same keys have estimates, and the same numbers of closures and (without GNC) of inliers are reported. -/
theorem C87_judgement {cfg : Cfg G T N} (hr : cfg.rejection = true) {e1 e2 : Env G N} {h1 h2 : List (Op G N)}
    (hc : Spec.SameButHiding h1 h2) (hm : ∀ op ∈ h1, Spec.Managed op) (hg : Spec.StartsGiven cfg h1) {s1 s2 : St G T N}
    (r1 : ReachOk cfg e1 h1 s1) (r2 : ReachOk cfg e2 h2 s2) :
    Spec.SameJudgement s1 s2 ∧ (∀ n, Spec.NumLC cfg e1 s1 n ↔ Spec.NumLC cfg e2 s2 n) ∧
      (cfg.useGnc = false → ∀ n, Spec.NumInliers cfg e1 s1 n ↔ Spec.NumInliers cfg e2 s2 n) := by
  have hs := hiding_near hr hc hm hg r1 r2
  have he := hs.pcm.eq
  refine ⟨⟨fun id => ?_, fun l => ?_, ?_⟩, fun n => ?_, fun hg n => ?_⟩
  · have : lcOf s2.pcm id = lcOf s1.pcm id := by rw [he]; rfl
    unfold Spec.registered Spec.selected Spec.matrix
    rw [this]; exact ⟨rfl, rfl, rfl⟩
  · have : lmOf s2.pcm l = lmOf s1.pcm l := by rw [he]; rfl
    rw [this]; exact ⟨rfl, rfl⟩
  · have k1 := (reach_values r1.reach).1
    have k2 := (reach_values r2.reach).1
    refine List.Pairwise.eq_of_mem_iff (r := fun a b : Key => a.toNat < b.toNat) k1 k2 (fun k => ?_)
    rw [KMap.mem_keys_iff, KMap.mem_keys_iff, hs.has]
  · rw [numLC_iff hr, numLC_iff hr, he]; rfl
  · rw [numInliers_iff hr hg, numInliers_iff hr hg, he]; rfl

/-- C87: if in the end the same prefixes are ignored, the graphs are the same. -/
theorem C87_graph {cfg : Cfg G T N} (hr : cfg.rejection = true) {e1 e2 : Env G N} (k1 : e1.Ok) (k2 : e2.Ok)
    (hlc : e1.iterLC = e2.iterLC) (hlm : e1.iterLM = e2.iterLM) {h1 h2 : List (Op G N)}
    (hc : Spec.SameButHiding h1 h2) (hm : ∀ op ∈ h1, Spec.Managed op) (hm2 : ∀ op ∈ h2, Spec.Managed op)
    (hg : Spec.StartsGiven cfg h1) {s1 s2 : St G T N}
    (r1 : ReachOk cfg e1 h1 s1) (r2 : ReachOk cfg e2 h2 s2) (hi : ∀ c, c ∈ getIgnored cfg s1 ↔ c ∈ getIgnored cfg s2) :
    s1.nfg = s2.nfg := by
  have hs := hiding_near hr hc hm hg r1 r2
  rw [(r1.lists k1 hr hm).1, (r2.lists k2 hr hm2).1]
  refine buildGraph_ign ⟨hlc, hlm⟩ hs.pcm fun c => ?_
  have := hi c
  unfold getIgnored at this
  rwa [if_pos hr, if_pos hr] at this

/-- C87: a history in which prefixes are ignored and revived leads to the same graph as the history without those calls
followed by ignoring, in any order, the prefixes that are ignored in the end. -/
theorem C87_at_the_end {cfg : Cfg G T N} (hr : cfg.rejection = true) {env : Env G N} (he : env.Ok) {h : List (Op G N)}
    (hm : ∀ op ∈ h, Spec.Managed op) (hg : Spec.StartsGiven cfg h) {s s' : St G T N} (r : ReachOk cfg env h s) {cs : List Chr}
    (hcs : ∀ c, c ∈ cs ↔ c ∈ getIgnored cfg s) (r' : ReachOk cfg env (Spec.withoutHiding h ++ cs.map .ignore) s') :
    s'.nfg = s.nfg := by
  refine (C87_graph hr he he rfl rfl ((Spec.SameButHiding.without h).ignores cs) hm ?_ hg r r' fun c => ?_).symm
  · intro op ho
    rcases List.mem_append.1 ho with ho | ho
    · exact hm op (List.mem_filter.1 ho).1
    · obtain ⟨c, _, rfl⟩ := List.mem_map.1 ho
      trivial
  · rw [← hcs, (C24_ignored_set hr r'.reach).2 c]
    constructor
    · intro hc
      obtain ⟨l1, l2, rfl⟩ := List.append_of_mem hc
      refine ⟨Spec.withoutHiding h ++ l1.map .ignore, l2.map .ignore, by simp, ?_⟩
      simp
    · rintro ⟨a, b, e, _⟩
      have : Op.ignore c ∈ Spec.withoutHiding h ++ cs.map (.ignore : Chr → Op G N) := by rw [e]; simp
      rcases List.mem_append.1 this with h1 | h1
      · have := (List.mem_filter.1 h1).2
        have hh : Spec.Hides (Op.ignore c : Op G N) := trivial
        rw [decide_eq_true hh] at this
        cases this
      · obtain ⟨d, hd, e⟩ := List.mem_map.1 h1
        cases e; exact hd

/-- Two robots; prefixes are ignored and revived while closures come in. -/
def hideAndSeek : List (Op Demo.Z Demo.Ns) :=
  Demo.h1.take 3 ++
  [.update [Demo.edge (Demo.b 0) (Demo.b 1) 1] [Demo.pose (Demo.b 0) 5, Demo.pose (Demo.b 1) 6] true,
   .ignore 98,
   .update [Demo.edge (Demo.a 0) (Demo.b 0) 5, Demo.edge (Demo.a 1) (Demo.b 1) 5] [] true,
   .revive 98, .ignore 97,
   .update [Demo.edge (Demo.a 0) (Demo.a 2) 2, Demo.edge (Demo.a 0) (Demo.b 1) 6] [] true,
   .revive 97, .ignore 98]

set_option maxRecDepth 100000 in
/-- The hypotheses of `C87_at_the_end` are met, with an accepted closure that is in the graph and three that are ignored. -/
example : ∃ s s', ReachOk Demo.cfg Demo.env hideAndSeek s ∧
    ReachOk Demo.cfg Demo.env (Spec.withoutHiding hideAndSeek ++ [98].map .ignore) s' ∧
    (∀ op ∈ hideAndSeek, Spec.Managed op) ∧ Spec.StartsGiven Demo.cfg hideAndSeek ∧ (∀ c, c ∈ [98] ↔ c ∈ getIgnored Demo.cfg s) ∧
    s'.nfg = s.nfg ∧ s.nfg.length = 6 ∧ (Spec.selected s ⟨97, 98⟩).length = 3 := by
  obtain ⟨s, r, e⟩ := Demo.runs_reach (cfg := Demo.cfg) (env := Demo.env) (ops := hideAndSeek)
    (P := fun s => decide (getIgnored Demo.cfg s = [98] ∧ s.nfg.length = 6 ∧ (Spec.selected s ⟨97, 98⟩).length = 3)) (by decide +kernel)
  obtain ⟨s', r', _⟩ := Demo.runs_reach (cfg := Demo.cfg) (env := Demo.env) (ops := Spec.withoutHiding hideAndSeek ++ [98].map .ignore)
    (P := fun _ => true) (by decide +kernel)
  obtain ⟨e1, e2, e3⟩ := of_decide_eq_true e
  have hm : ∀ op ∈ hideAndSeek, Spec.Managed op := by
    intro op ho
    simp only [hideAndSeek, Demo.h1, List.take, List.mem_append, List.mem_cons, List.not_mem_nil, or_false] at ho
    rcases ho with (rfl | rfl | rfl) | (rfl | rfl | rfl | rfl | rfl | rfl | rfl | rfl) <;> trivial
  have hg : Spec.StartsGiven Demo.cfg hideAndSeek := starts_sound (by decide +kernel)
  have hi : ∀ c, c ∈ [98] ↔ c ∈ getIgnored Demo.cfg s := by rw [e1]; exact fun _ => Iff.rfl
  exact ⟨s, s', r, r', hm, hg, hi, C87_at_the_end rfl Demo.env_ok hm hg r hi r', e2, e3⟩

set_option maxRecDepth 100000 in
/-- The number of inliers reported does not take the ignored prefixes into account: four are reported, one is in the graph
(four odometry factors, a prior and one closure). -/
theorem C87_false_count : ∃ s, ReachOk Demo.cfg Demo.env hideAndSeek s ∧ Spec.NumInliers Demo.cfg Demo.env s 4 ∧
    s.nfg.length = 6 ∧ (Spec.odomSoFar Demo.cfg hideAndSeek).length = 4 ∧ (Spec.specialSoFar Demo.cfg hideAndSeek).length = 1 := by
  obtain ⟨s, r, e⟩ := Demo.runs_reach (cfg := Demo.cfg) (env := Demo.env) (ops := hideAndSeek)
    (P := fun s => decide (s.pcm.totalGood = 4 ∧ s.nfg.length = 6)) (by decide +kernel)
  obtain ⟨e1, e2⟩ := of_decide_eq_true e
  exact ⟨s, r, (numInliers_iff rfl rfl).2 e1.symm, e2, by decide +kernel, by decide +kernel⟩

end RPGO.Props
