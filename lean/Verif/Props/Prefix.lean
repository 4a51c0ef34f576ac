import Verif.Proofs.Prefix
import Verif.Props.Graph
/-
C23, C24 ignoring and reviving prefixes; C29 removing priors.
-/

namespace RPGO.Props
open RPGO
variable {G T N : Type} [Mul G] [Inv G] [One G]

/-! ### C23 -/

theorem not_ignored_of_filed {p : Pcm G T N} (hf : Filed p.lcs) {e : ObsId × Meas G N} (he : e ∈ p.lcs) {b : Btw G N}
    (hb : b ∈ e.2.cons) (h1 : e.1.id1 ∉ p.ignored) (h2 : e.1.id2 ∉ p.ignored) :
    chr b.k1 ∉ p.ignored ∧ chr b.k2 ∉ p.ignored := by
  have := hf e he b (Or.inr hb)
  rw [ObsId.eqv_iff] at this
  unfold pairOf at this
  rcases this with ⟨a, c⟩ | ⟨a, c⟩
  · simp only at a c; rw [a, c]; exact ⟨h1, h2⟩
  · simp only at a c; rw [a, c]; exact ⟨h2, h1⟩

/-- C23: after any history, including calls that threw, the graph is odometry, non-between factors, closures between
poses and landmark observations, and no end of a closure between poses has an ignored prefix.
Missing: landmark observations by an ignored robot, for which it is false, see `C23_false_landmarks`. -/
theorem C23_ignored_stay_out_partial {cfg : Cfg G T N} {env : Env G N} (he : env.Ok) (hr : cfg.rejection = true)
    {h : List (Op G N)} {s : St G T N} (r : Reach cfg env h s) (hm : ∀ op ∈ h, Spec.Managed op) :
    ∃ (od : List (Btw G N)) (sp : List (Factor G N)) (lc lm : List (Btw G N)),
      s.nfg = od.map Spec.elem ++ sp.map some ++ lc.map Spec.elem ++ lm.map Spec.elem ∧
      (∀ b ∈ od, ∃ op ∈ h, b ∈ Spec.opOdom cfg op) ∧ (∀ b, Factor.btw b ∉ sp) ∧
      (∀ b ∈ lc, chr b.k1 ∉ getIgnored cfg s ∧ chr b.k2 ∉ getIgnored cfg s) ∧
      (∀ b ∈ lm, Spec.isLandmark cfg b = true) := by
  obtain ⟨h', s0, p, r0, rfl, hn, hi, hpre⟩ := r.graph_ignored he hr hm
  obtain ⟨lc, lm, e, hlc, hlm⟩ := buildGraph_split he s0.pcm
  have hp := r0.prov hr
  have hig : getIgnored cfg s = s0.pcm.ignored := by
    unfold getIgnored; rw [if_pos hr, hi]
  refine ⟨s0.pcm.odom, s0.pcm.special, lc, lm, by rw [hn, e], ?_, reach_special hr r0, ?_, ?_⟩
  · intro b hb
    obtain ⟨op, ho, hx⟩ := reach_odom hr r0 b hb
    exact ⟨op, hpre.subset ho, hx⟩
  · intro b hb
    obtain ⟨x, hx, hc, h1, h2⟩ := hlc b hb
    rw [hig]
    exact not_ignored_of_filed (r0.filed hr) hx hc h1 h2
  · intro b hb
    obtain ⟨x, hx, hc⟩ := hlm b hb
    exact ((hp.landmarks x hx).2 b hc).2

set_option maxRecDepth 100000 in
/-- Two robots with a closure between them; ignoring `b` takes the closure out. -/
example : ∃ s, ReachOk Demo.cfg Demo.env
      [.update [Demo.edge (Demo.a 0) (Demo.a 1) 1] [Demo.pose (Demo.a 0) 0, Demo.pose (Demo.a 1) 1] true,
       .update [Demo.edge (Demo.b 0) (Demo.b 1) 1] [Demo.pose (Demo.b 0) 0, Demo.pose (Demo.b 1) 1] true,
       .update [Demo.edge (Demo.a 0) (Demo.b 0) 5] [] true, .ignore 98] s ∧
    getIgnored Demo.cfg s = [98] ∧ s.pcm.totalLc = 1 ∧ s.nfg.length = 2 := by
  obtain ⟨s, r, h⟩ := Demo.runs_reach (cfg := Demo.cfg) (env := Demo.env) (ops :=
      [.update [Demo.edge (Demo.a 0) (Demo.a 1) 1] [Demo.pose (Demo.a 0) 0, Demo.pose (Demo.a 1) 1] true,
       .update [Demo.edge (Demo.b 0) (Demo.b 1) 1] [Demo.pose (Demo.b 0) 0, Demo.pose (Demo.b 1) 1] true,
       .update [Demo.edge (Demo.a 0) (Demo.b 0) 5] [] true, .ignore 98])
    (P := fun s => decide (getIgnored Demo.cfg s = [98] ∧ s.pcm.totalLc = 1 ∧ s.nfg.length = 2)) (by decide +kernel)
  exact ⟨s, r, by simpa using h⟩

set_option maxRecDepth 100000 in
/-- C23 does not extend to landmark observations: those made by an ignored robot stay in the graph. -/
theorem C23_false_landmarks :
    ∃ s, ReachOk demoLandmarks Demo.env
        [.update [Demo.edge (Demo.a 0) (Demo.a 1) 1] [Demo.pose (Demo.a 0) 0, Demo.pose (Demo.a 1) 1] true,
         .update [Demo.edge (Demo.a 0) (Demo.l 1) 1] [Demo.pose (Demo.l 1) 1] true, .ignore 97] s ∧
      getIgnored demoLandmarks s = [97] ∧ Demo.edge (Demo.a 0) (Demo.l 1) 1 ∈ s.nfg := by
  obtain ⟨s, r, h⟩ := Demo.runs_reach (cfg := demoLandmarks) (env := Demo.env) (ops :=
        [.update [Demo.edge (Demo.a 0) (Demo.a 1) 1] [Demo.pose (Demo.a 0) 0, Demo.pose (Demo.a 1) 1] true,
         .update [Demo.edge (Demo.a 0) (Demo.l 1) 1] [Demo.pose (Demo.l 1) 1] true, .ignore 97])
    (P := fun s => decide (getIgnored demoLandmarks s = [97] ∧ Demo.edge (Demo.a 0) (Demo.l 1) 1 ∈ s.nfg)) (by decide +kernel)
  exact ⟨s, r, by simpa using h⟩

/-! ### C24 -/

theorem call_ends {cfg : Cfg G T N} {env : Env G N} {op : Op G N} {s s' : St G T N} (c : Spec.Call cfg env op s s')
    {P : St G T N → Prop} (hE : M.Ends P (exec cfg env op s)) : P s' := by
  rcases c with ⟨_, e⟩ | ⟨_, e⟩
  · exact hE.of_ok e
  · exact hE.of_throw e

/-- C24: the ignored prefixes are those with an `ignorePrefix` call not followed by a `revivePrefix` call, after any
history (a call that threw counts as made), and `getIgnoredPrefixes` lists them without duplicates. -/
theorem C24_ignored_set {cfg : Cfg G T N} {env : Env G N} (hr : cfg.rejection = true) {h : List (Op G N)} {s : St G T N}
    (r : Reach cfg env h s) :
    (getIgnored cfg s).Nodup ∧
    ∀ c, c ∈ getIgnored cfg s ↔ ∃ h1 h2, h = h1 ++ .ignore c :: h2 ∧ .revive c ∉ h2 := by
  have hgi : ∀ s : St G T N, getIgnored cfg s = s.pcm.ignored := fun s => by unfold getIgnored; rw [if_pos hr]
  -- last-call decomposition
  have snoc : ∀ (h : List (Op G N)) (op : Op G N) (c : Chr),
      (∃ h1 h2, h ++ [op] = h1 ++ .ignore c :: h2 ∧ .revive c ∉ h2) ↔
        op = .ignore c ∨ (op ≠ .revive c ∧ ∃ h1 h2, h = h1 ++ .ignore c :: h2 ∧ .revive c ∉ h2) := by
    intro h op c
    constructor
    · rintro ⟨h1, h2, e, hn⟩
      rcases List.eq_nil_or_concat h2 with rfl | ⟨h3, o, rfl⟩
      · left
        have := congrArg List.getLast? e
        simpa using this
      · right
        have e' : h ++ [op] = (h1 ++ .ignore c :: h3) ++ [o] := by rw [e]; simp
        obtain ⟨e1, e2⟩ := List.append_inj' e' rfl
        simp only [List.cons.injEq, and_true] at e2
        subst e2
        refine ⟨?_, h1, h3, e1, ?_⟩
        · rintro rfl; exact hn (by simp)
        · intro hm; exact hn (by simp [hm])
    · rintro (rfl | ⟨hne, h1, h2, rfl, hn⟩)
      · exact ⟨h, [], rfl, by simp⟩
      · refine ⟨h1, h2 ++ [op], by simp, ?_⟩
        intro hm
        rcases List.mem_append.1 hm with hm | hm
        · exact hn hm
        · rw [List.mem_singleton] at hm; exact hne hm.symm
  have step : ∀ {h s op s'}, Spec.Call cfg env op s s' →
      ((getIgnored cfg s).Nodup ∧ ∀ c, c ∈ getIgnored cfg s ↔ ∃ h1 h2, h = h1 ++ .ignore c :: h2 ∧ .revive c ∉ h2) →
      ((getIgnored cfg s').Nodup ∧
        ∀ c, c ∈ getIgnored cfg s' ↔ ∃ h1 h2, h ++ [op] = h1 ++ .ignore c :: h2 ∧ .revive c ∉ h2) := by
    rintro h s op s' hc ⟨hnd, hiff⟩
    rw [hgi] at hnd ⊢
    simp only [hgi] at hiff ⊢
    simp only [snoc, ← hiff]
    by_cases h1 : ∃ c, op = .ignore c
    · obtain ⟨x, rfl⟩ := h1
      have := (call_ends hc (exec_ignore env hr x s)).1
      rw [this]
      by_cases hx : x ∈ s.pcm.ignored
      · simp only [hx, if_true]
        refine ⟨hnd, fun c => ?_⟩
        constructor
        · intro hm; exact Or.inr ⟨by simp, hm⟩
        · rintro (e | ⟨_, hm⟩)
          · cases e; exact hx
          · exact hm
      · simp only [hx, if_false]
        refine ⟨?_, fun c => ?_⟩
        · rw [List.nodup_append]
          refine ⟨hnd, by simp, ?_⟩
          intro a ha b hb e
          simp at hb; subst hb; subst e; exact hx ha
        · constructor
          · intro hm
            rcases List.mem_append.1 hm with hm | hm
            · exact Or.inr ⟨by simp, hm⟩
            · rw [List.mem_singleton] at hm; subst hm; exact Or.inl rfl
          · rintro (e | ⟨_, hm⟩)
            · cases e; simp
            · simp [hm]
    · by_cases h2 : ∃ c, op = .revive c
      · obtain ⟨x, rfl⟩ := h2
        have := (call_ends hc (exec_revive env hr x s)).1
        rw [this]
        refine ⟨hnd.filter _, fun c => ?_⟩
        simp only [List.mem_filter, Bool.not_eq_true', beq_eq_false_iff_ne, ne_eq, reduceCtorEq, false_or, Op.revive.injEq]
        constructor
        · rintro ⟨a, b⟩; exact ⟨fun e => b e.symm, a⟩
        · rintro ⟨a, b⟩; exact ⟨b, fun e => a e.symm⟩
      · have hig := (call_ends hc (exec_step (env := env) hr op s)).ignored (fun c e => h1 ⟨c, e⟩) (fun c e => h2 ⟨c, e⟩)
        rw [hig]
        refine ⟨hnd, fun c => ?_⟩
        constructor
        · intro hm; exact Or.inr ⟨fun e => h2 ⟨c, e⟩, hm⟩
        · rintro (e | ⟨_, hm⟩)
          · exact absurd ⟨c, e⟩ h1
          · exact hm
  induction r with
  | init => exact ⟨by rw [hgi]; exact List.nodup_nil, fun c => by rw [hgi]; simp [St.init]⟩
  | ok r e ih => exact step (Or.inl ⟨_, e⟩) ih
  | throw r e ih => exact step (Or.inr ⟨_, e⟩) ih

/-- C24: a second `ignorePrefix` changes neither the graph nor the ignored prefixes. -/
theorem C24_ignore_idempotent {cfg : Cfg G T N} {env : Env G N} (hr : cfg.rejection = true) {c : Chr} {s s1 s2 : St G T N}
    (c1 : Spec.Call cfg env (.ignore c) s s1) (c2 : Spec.Call cfg env (.ignore c) s1 s2) :
    s2.nfg = s1.nfg ∧ getIgnored cfg s2 = getIgnored cfg s1 := by
  have h1 := call_ends c1 (exec_ignore env hr c s)
  have h2 := call_ends c2 (exec_ignore env hr c s1)
  have hc : c ∈ s1.pcm.ignored := by
    rw [h1.1]
    simp only
    split
    · assumption
    · simp
  have hp : s2.pcm = s1.pcm := by rw [h2.1]; simp [hc]
  refine ⟨by rw [h2.2, h1.2, hp], ?_⟩
  unfold getIgnored; rw [hp]

/-- C24: reviving a prefix that was not ignored before it was last ignored restores the graph and the list of
ignored prefixes exactly. -/
theorem C24_revive_undoes_ignore {cfg : Cfg G T N} {env : Env G N} (he : env.Ok) (hr : cfg.rejection = true)
    {h : List (Op G N)} {c : Chr} {s s1 s2 : St G T N} (r : ReachOk cfg env h s) (hm : ∀ op ∈ h, Spec.Managed op)
    (hn : c ∉ getIgnored cfg s) (c1 : Spec.Call cfg env (.ignore c) s s1) (c2 : Spec.Call cfg env (.revive c) s1 s2) :
    s2.nfg = s.nfg ∧ getIgnored cfg s2 = getIgnored cfg s := by
  have h1 := call_ends c1 (exec_ignore env hr c s)
  have h2 := call_ends c2 (exec_revive env hr c s1)
  have hc : c ∉ s.pcm.ignored := by unfold getIgnored at hn; rwa [if_pos hr] at hn
  have hfil : List.filter (fun x => !(x == c)) s.pcm.ignored = s.pcm.ignored := by
    rw [List.filter_eq_self]
    intro x hx
    have : x ≠ c := by rintro rfl; exact hc hx
    simpa using this
  have hp : s2.pcm = s.pcm := by
    rw [h2.1, h1.1]
    simp only [hc, if_false, List.filter_append, hfil]
    simp
  refine ⟨by rw [h2.2, hp, (r.lists he hr hm).1], ?_⟩
  unfold getIgnored; rw [hp]

set_option maxRecDepth 100000 in
/-- Ignoring then reviving a prefix with closures. -/
example : ∃ s s1 s2, ReachOk Demo.cfg Demo.env Demo.h1 s ∧ 97 ∉ getIgnored Demo.cfg s ∧
    exec Demo.cfg Demo.env (.ignore 97) s = .ok s1 .unit ∧ exec Demo.cfg Demo.env (.revive 97) s1 = .ok s2 .unit ∧
    s1.nfg.length = 4 ∧ s2.nfg.length = 6 := by
  obtain ⟨s, r, h⟩ := Demo.runs_reach (cfg := Demo.cfg) (env := Demo.env) (ops := Demo.h1)
    (P := fun s => match exec Demo.cfg Demo.env (.ignore 97) s with
      | .ok s1 r1 => match exec Demo.cfg Demo.env (.revive 97) s1 with
        | .ok s2 r2 => decide (97 ∉ getIgnored Demo.cfg s ∧ r1 = .unit ∧ r2 = .unit ∧ s1.nfg.length = 4 ∧ s2.nfg.length = 6)
        | _ => false
      | _ => false) (by decide +kernel)
  refine ⟨s, ?_⟩
  split at h
  · rename_i s1 r1 e1
    split at h
    · rename_i s2 r2 e2
      simp only [decide_eq_true_eq] at h
      obtain ⟨a, b, c, d, e⟩ := h
      exact ⟨s1, s2, r, a, by rw [e1, b], by rw [e2, c], d, e⟩
    · cases h
  · cases h

/-! ### C29 -/

/-- Is the factor a prior (of the solver's pose type) on a key with this prefix? -/
def isPriorOn (c : Chr) : Option (Factor G N) → Bool
  | some (.prior k _) => decide (chr k = c)
  | _ => false

/-- C29: `removePriorFactorsWithPrefix(c)` removes exactly the priors on keys with prefix `c`, keeping the order of the
other factors. Prefixes above 127 are excluded on platforms with signed `char`, see `C29_false_high_prefix`. -/
theorem C29_removes_priors_partial {cfg : Cfg G T N} {env : Env G N} (he : env.Ok) (hr : cfg.rejection = true)
    {h : List (Op G N)} {c : Chr} {o : Bool} {s s' : St G T N} (r : ReachOk cfg env h s) (hm : ∀ op ∈ h, Spec.Managed op)
    (hs : cfg.charSigned = false ∨ c.toNat < 128) (hc : Spec.Call cfg env (.removePriors c o) s s') :
    s'.nfg = s.nfg.filter (fun f => !isPriorOn c f) := by
  obtain ⟨hp, hn⟩ := call_ends hc (exec_removePriors env hr c o s)
  have hit : ∀ d : Chr, Spec.prefixHit cfg.charSigned c d = decide (d = c) := by
    intro d
    unfold Spec.prefixHit
    rcases hs with hs | hs
    · simp [hs]
    · simp [hs]
  rw [hn, hp, (r.lists he hr hm).1]
  unfold buildGraph
  simp only [List.filter_append]
  have keep : ∀ l : List (Btw G N), (l.map fun b => some (Factor.btw b)).filter (fun f => !isPriorOn c f) =
      l.map fun b => some (Factor.btw b) := by
    intro l
    rw [List.filter_eq_self]
    intro x hx
    simp only [List.mem_map] at hx
    obtain ⟨b, _, rfl⟩ := hx
    rfl
  congr 1
  · congr 1
    · congr 1
      · rw [keep]
      · rw [List.filter_map]
        congr 1
        congr 1
        funext f
        cases f <;> simp [isPriorOn, hit]
    · rw [List.filter_flatMap]
      congr 1
      funext e
      split
      · rw [keep]
      · rfl
  · rw [List.filter_flatMap]
    congr 1
    funext e
    rw [keep]

/-- C29: removing the priors of a prefix twice is the same as once. -/
theorem C29_idempotent {cfg : Cfg G T N} {env : Env G N} (hr : cfg.rejection = true) {c : Chr} {o1 o2 : Bool}
    {s s1 s2 : St G T N} (c1 : Spec.Call cfg env (.removePriors c o1) s s1)
    (c2 : Spec.Call cfg env (.removePriors c o2) s1 s2) : s2.nfg = s1.nfg := by
  obtain ⟨p1, n1⟩ := call_ends c1 (exec_removePriors env hr c o1 s)
  obtain ⟨p2, n2⟩ := call_ends c2 (exec_removePriors env hr c o2 s1)
  have : s2.pcm = s1.pcm := by
    rw [p2, p1]
    simp only [List.filter_filter, Bool.and_self]
  rw [n2, n1, this]

/-- The same for a solver without outlier rejection; it also removes priors of the other pose dimension.
Missing: as for `C29_removes_priors_partial`. -/
theorem C29_no_rejection_partial {cfg : Cfg G T N} {env : Env G N} (hr : cfg.rejection = false) {c : Chr} {o : Bool}
    {s s' : St G T N} (hs : cfg.charSigned = false ∨ c.toNat < 128) (hc : Spec.Call cfg env (.removePriors c o) s s') :
    s'.nfg = s.nfg.filter fun f => match f with
      | some (.prior k _) => decide (chr k ≠ c)
      | some (.priorAlt k _) => decide (chr k ≠ c)
      | _ => true := by
  refine call_ends (P := fun s1 : St G T N => s1.nfg = s.nfg.filter fun f => match f with
      | some (.prior k _) => decide (chr k ≠ c)
      | some (.priorAlt k _) => decide (chr k ≠ c)
      | _ => true) hc (ends_ret ?_)
  unfold removePriors M.cond
  rw [if_neg (by simp [hr])]
  simp only [M.bind_eq]
  have hit : ∀ k : Key, isPriorOf cfg.charSigned c k = decide (chr k = c) := by
    intro k
    rw [isPriorOf_hit]
    unfold Spec.prefixHit
    rcases hs with hs | hs <;> simp [hs]
  refine ends_bind (P := fun s1 : St G T N => s1.nfg = s.nfg.filter fun f => match f with
      | some (.prior k _) => decide (chr k ≠ c)
      | some (.priorAlt k _) => decide (chr k ≠ c)
      | _ => true) ?_ (fun _ h => h) fun s1 _ _ h => ?_
  · show List.filter _ s.nfg = List.filter _ s.nfg
    congr 1
    funext f
    cases f with
    | none => rfl
    | some f => cases f <;> simp [hit]
  · exact M.Ends.mono (fun s2 hf => by rw [hf.nfg]; exact h) (M.Pres.when OptFrame.refl (optimize_frame cfg env) s1)

set_option maxRecDepth 100000 in
/-- C29 fails for prefixes above 127 where `char` is signed: the prior stays. -/
theorem C29_false_high_prefix :
    ∃ s s', ReachOk Demo.cfg Demo.env [.update [some (.prior (symKey 200 0) (Demo.z 0))] [Demo.pose (symKey 200 0) 0] true] s ∧
      exec Demo.cfg Demo.env (.removePriors 200 false) s = .ok s' .unit ∧
      some (.prior (symKey 200 0) (Demo.z 0)) ∈ s'.nfg := by
  obtain ⟨s, r, h⟩ := Demo.runs_reach (cfg := Demo.cfg) (env := Demo.env) (ops :=
      [.update [some (.prior (symKey 200 0) (Demo.z 0))] [Demo.pose (symKey 200 0) 0] true])
    (P := fun s => match exec Demo.cfg Demo.env (.removePriors 200 false) s with
      | .ok s1 r1 => decide (r1 = .unit ∧ some (.prior (symKey 200 0) (Demo.z 0)) ∈ s1.nfg)
      | _ => false) (by decide +kernel)
  refine ⟨s, ?_⟩
  split at h
  · rename_i s1 r1 e1
    simp only [decide_eq_true_eq] at h
    exact ⟨s1, r, by rw [e1, h.1], h.2⟩
  · cases h

set_option maxRecDepth 100000 in
/-- A prior is removed from a graph with odometry and closures. -/
example : ∃ s s', ReachOk Demo.cfg Demo.env Demo.h1 s ∧ exec Demo.cfg Demo.env (.removePriors 97 true) s = .ok s' .unit ∧
    s.nfg.length = 6 ∧ s'.nfg.length = 5 := by
  obtain ⟨s, r, h⟩ := Demo.runs_reach (cfg := Demo.cfg) (env := Demo.env) (ops := Demo.h1)
    (P := fun s => match exec Demo.cfg Demo.env (.removePriors 97 true) s with
      | .ok s1 r1 => decide (r1 = .unit ∧ s.nfg.length = 6 ∧ s1.nfg.length = 5)
      | _ => false) (by decide +kernel)
  refine ⟨s, ?_⟩
  split at h
  · rename_i s1 r1 e1
    simp only [decide_eq_true_eq] at h
    exact ⟨s1, r, by rw [e1, h.1], h.2⟩
  · cases h

end RPGO.Props
