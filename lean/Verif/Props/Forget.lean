import Verif.Props.Fleet
import Verif.Props.Ignoring
import Verif.Props.Modes
/-
C89 ignoring a prefix is as good as never having received its loop closures.
-/

namespace RPGO.Spec
variable {G T N : Type}

/-- A loop closure between poses (not odometry, not an observation of a landmark) that touches one of the robots `out`. -/
def closureOf (cfg : Cfg G T N) (vs : Vals G) (out : List Chr) (b : Btw G N) : Bool :=
  isCand cfg vs b && !isLandmark cfg b && (decide (chr b.k1 ∈ out) || decide (chr b.k2 ∈ out))

/-- A batch without the loop closures of the robots `out`. -/
def dropFactors (cfg : Cfg G T N) (vs : Vals G) (out : List Chr) (fs : Graph G N) : Graph G N :=
  fs.filter fun f => match f with
    | some (.btw b) => !closureOf cfg vs out b
    | _ => true

/-- The call without the loop closures of the robots `out`: odometry, landmark observations, other factors and values stay. -/
def dropClosures (cfg : Cfg G T N) (out : List Chr) : Op G N → Op G N
  | .update fs vs o => .update (dropFactors cfg vs out fs) vs o
  | .forceUpdate fs vs => .forceUpdate (dropFactors cfg vs out fs) vs
  | op => op

/-- The history of a solver that never received the loop closures of the robots `out` and was never asked to ignore anything. -/
def neverHeard (cfg : Cfg G T N) (out : List Chr) (h : List (Op G N)) : List (Op G N) :=
  (withoutHiding h).map (dropClosures cfg out)

/-- The same factors in the graph and values for the same keys; the same closures registered and accepted between robots not
in `out`, the same observations of landmarks, and in the second solver no closures of the robots `out`. -/
structure SameOthers (out : List Chr) (s1 s2 : St G T N) : Prop where
  graph : s1.nfg.Perm s2.nfg
  keys : s1.values.keys = s2.values.keys
  pairs : ∀ a b, a ∉ out → b ∉ out → SamePairResult a b s1 s2
  none : ∀ a b, a ∈ out ∨ b ∈ out → registered s2 ⟨a, b⟩ = []
  landmarks : ∀ l, observed s1 l = observed s2 l ∧ acceptedOf s1 l = acceptedOf s2 l

end RPGO.Spec

namespace RPGO
variable {G T N : Type}

theorem btws_drop (cfg : Cfg G T N) (vs : Vals G) (out : List Chr) (fs : Graph G N) :
    Spec.btws (Spec.dropFactors cfg vs out fs) = (Spec.btws fs).filter fun b => !Spec.closureOf cfg vs out b := by
  unfold Spec.btws Spec.dropFactors
  induction fs with
  | nil => rfl
  | cons f fs ih =>
    rw [List.filter_cons, List.filterMap_cons]
    cases f with
    | none => simpa using ih
    | some f =>
      cases f with
      | btw b =>
        simp only [List.filter_cons]
        split
        · rw [List.filterMap_cons, ih]
        · exact ih
      | _ => simpa using ih

theorem specials_drop (cfg : Cfg G T N) (vs : Vals G) (out : List Chr) (fs : Graph G N) :
    Spec.specials (Spec.dropFactors cfg vs out fs) = Spec.specials fs := by
  unfold Spec.specials Spec.dropFactors
  induction fs with
  | nil => rfl
  | cons f fs ih =>
    rw [List.filter_cons, List.filterMap_cons]
    cases f with
    | none => simpa using ih
    | some f =>
      cases f with
      | btw b =>
        dsimp only
        split
        · rw [List.filterMap_cons, ih]
        · exact ih
      | _ => simpa using ih

theorem opOdom_drop (cfg : Cfg G T N) (out : List Chr) (op : Op G N) :
    Spec.opOdom cfg (Spec.dropClosures cfg out op) = Spec.opOdom cfg op := by
  have key : ∀ (fs : Graph G N) (vs : Vals G), Spec.odoms cfg vs (Spec.dropFactors cfg vs out fs) = Spec.odoms cfg vs fs := by
    intro fs vs
    unfold Spec.odoms
    rw [btws_drop, List.filter_filter]
    refine List.filter_congr fun b _ => ?_
    cases ho : Spec.isOdom cfg vs b with
    | false => rfl
    | true => simp [Spec.closureOf, Spec.isCand, ho]
  unfold Spec.opOdom
  cases op <;> first | exact key _ _ | rfl

theorem opFirsts_drop (cfg : Cfg G T N) (out : List Chr) (op : Op G N) :
    Spec.opFirsts cfg (Spec.dropClosures cfg out op) = Spec.opFirsts cfg op := by
  have key : ∀ (fs : Graph G N) (vs : Vals G), Spec.firsts cfg vs (Spec.dropFactors cfg vs out fs) = Spec.firsts cfg vs fs := by
    intro fs vs
    unfold Spec.firsts
    rw [btws_drop, List.filter_filter]
    refine List.filter_congr fun b _ => ?_
    cases ho : Spec.isFirstObs cfg vs b with
    | false => rfl
    | true => simp [Spec.closureOf, Spec.isCand, ho]
  unfold Spec.opFirsts
  cases op <;> first | exact key _ _ | rfl

theorem opCands_drop (cfg : Cfg G T N) (out : List Chr) (op : Op G N) :
    Spec.opCands cfg (Spec.dropClosures cfg out op) =
      (Spec.opCands cfg op).filter fun b => Spec.isLandmark cfg b || !(decide (chr b.k1 ∈ out) || decide (chr b.k2 ∈ out)) := by
  have key : ∀ (fs : Graph G N) (vs : Vals G), Spec.cands cfg vs (Spec.dropFactors cfg vs out fs) =
      (Spec.cands cfg vs fs).filter fun b => Spec.isLandmark cfg b || !(decide (chr b.k1 ∈ out) || decide (chr b.k2 ∈ out)) := by
    intro fs vs
    unfold Spec.cands
    rw [btws_drop, List.filter_filter, List.filter_filter]
    refine List.filter_congr fun b _ => ?_
    unfold Spec.closureOf
    cases Spec.isCand cfg vs b <;> cases Spec.isLandmark cfg b <;> simp
  unfold Spec.opCands
  cases op <;> first | exact key _ _ | rfl

theorem opBtws_drop {cfg : Cfg G T N} {out : List Chr} {op : Op G N} {b : Btw G N}
    (hb : b ∈ Spec.opBtws (Spec.dropClosures cfg out op)) : b ∈ Spec.opBtws op := by
  have key : ∀ (fs : Graph G N) (vs : Vals G), b ∈ Spec.btws (Spec.dropFactors cfg vs out fs) → b ∈ Spec.btws fs := by
    intro fs vs m
    rw [btws_drop] at m
    exact (List.mem_filter.1 m).1
  unfold Spec.opBtws at hb ⊢
  cases op <;> first | exact key _ _ hb | exact hb

theorem opKeys_drop (cfg : Cfg G T N) (out : List Chr) (op : Op G N) :
    Spec.opKeys (Spec.dropClosures cfg out op) = Spec.opKeys op := by cases op <;> rfl

/-- Calls that ignore or revive supply nothing. -/
theorem hides_nothing {cfg : Cfg G T N} {op : Op G N} (h : Spec.Hides op) :
    Spec.opOdom cfg op = [] ∧ Spec.opCands cfg op = [] ∧ Spec.opFirsts cfg op = [] ∧ Spec.opBtws op = [] ∧ Spec.opKeys op = [] ∧
      ∀ l, Spec.specialStep cfg l op = l := by
  cases op <;> first | exact absurd h id | exact ⟨rfl, rfl, rfl, rfl, rfl, fun _ => rfl⟩

theorem flatMap_heard {β : Type} {f : Op G N → List β} {cfg : Cfg G T N} {out : List Chr}
    (hd : ∀ op, f (Spec.dropClosures cfg out op) = f op) (hh : ∀ op, Spec.Hides op → f op = []) (h : List (Op G N)) :
    (Spec.neverHeard cfg out h).flatMap f = h.flatMap f := by
  unfold Spec.neverHeard Spec.withoutHiding
  induction h with
  | nil => rfl
  | cons op h ih =>
    rw [List.filter_cons, List.flatMap_cons]
    by_cases ho : Spec.Hides op
    · rw [if_neg (by simp [ho]), ih, hh op ho, List.nil_append]
    · rw [if_pos (by simp [ho]), List.map_cons, List.flatMap_cons, ih, hd]

theorem odomSoFar_heard (cfg : Cfg G T N) (out : List Chr) (h : List (Op G N)) :
    Spec.odomSoFar cfg (Spec.neverHeard cfg out h) = Spec.odomSoFar cfg h :=
  flatMap_heard (opOdom_drop cfg out) (fun _ ho => (hides_nothing ho).1) h

theorem robotOdom_heard (cfg : Cfg G T N) (out : List Chr) (c : Chr) (h : List (Op G N)) :
    Spec.robotOdom cfg c (Spec.neverHeard cfg out h) = Spec.robotOdom cfg c h := by
  unfold Spec.robotOdom
  rw [odomSoFar_heard]

theorem specialSoFar_heard (cfg : Cfg G T N) (out : List Chr) (h : List (Op G N)) :
    Spec.specialSoFar cfg (Spec.neverHeard cfg out h) = Spec.specialSoFar cfg h := by
  have key : ∀ (h : List (Op G N)) (l : List (Factor G N)),
      (Spec.neverHeard cfg out h).foldl (Spec.specialStep cfg) l = h.foldl (Spec.specialStep cfg) l := by
    intro h
    unfold Spec.neverHeard Spec.withoutHiding
    induction h with
    | nil => intro l; rfl
    | cons op h ih =>
      intro l
      rw [List.filter_cons, List.foldl_cons]
      by_cases ho : Spec.Hides op
      · rw [if_neg (by simp [ho]), ih, (hides_nothing ho).2.2.2.2.2]
      · rw [if_pos (by simp [ho]), List.map_cons, List.foldl_cons, ih]
        congr 1
        cases op <;> first | rfl | simp only [Spec.specialStep, Spec.dropClosures, specials_drop]
  exact key h []

theorem neverHeard_append (cfg : Cfg G T N) (out : List Chr) (g h : List (Op G N)) :
    Spec.neverHeard cfg out (g ++ h) = Spec.neverHeard cfg out g ++ Spec.neverHeard cfg out h := by
  unfold Spec.neverHeard Spec.withoutHiding
  rw [List.filter_append, List.map_append]

/-- Where a call of the shortened history comes from. -/
theorem split_heard {cfg : Cfg G T N} {out : List Chr} {h h1 h2 : List (Op G N)} {op : Op G N}
    (e : Spec.neverHeard cfg out h = h1 ++ op :: h2) :
    ∃ g1 o g2, h = g1 ++ o :: g2 ∧ h1 ++ [op] = Spec.neverHeard cfg out (g1 ++ [o]) ∧ op = Spec.dropClosures cfg out o := by
  unfold Spec.neverHeard Spec.withoutHiding at e
  obtain ⟨f1, t, e1, e2, e3⟩ := List.map_eq_append_iff.1 e
  obtain ⟨o, f2, e4, e5, e6⟩ := List.map_eq_cons_iff.1 e3
  rw [e4] at e1
  obtain ⟨g1, t', e7, e8, e9⟩ := List.filter_eq_append_iff.1 e1
  obtain ⟨g0, g2, e10, e11, e12, e13⟩ := List.filter_eq_cons_iff.1 e9
  refine ⟨g1 ++ g0, o, g2, by rw [e7, e10]; simp, ?_, e5.symm⟩
  unfold Spec.neverHeard Spec.withoutHiding
  rw [List.filter_append, List.filter_append, e8, List.map_append, List.map_append, e2, List.filter_eq_nil_iff.2 e11]
  rw [List.filter_cons, if_pos e12]
  simp [e5]

theorem mem_heard {cfg : Cfg G T N} {out : List Chr} {h : List (Op G N)} {op : Op G N} (m : op ∈ Spec.neverHeard cfg out h) :
    ∃ o ∈ h, op = Spec.dropClosures cfg out o := by
  unfold Spec.neverHeard Spec.withoutHiding at m
  obtain ⟨o, mo, rfl⟩ := List.mem_map.1 m
  exact ⟨o, (List.mem_filter.1 mo).1, rfl⟩

theorem opKeys_heard {cfg : Cfg G T N} {out : List Chr} {h : List (Op G N)} {k : Key} :
    (∃ op ∈ Spec.neverHeard cfg out h, k ∈ Spec.opKeys op) ↔ ∃ op ∈ h, k ∈ Spec.opKeys op := by
  constructor
  · rintro ⟨op, m, hk⟩
    obtain ⟨o, mo, rfl⟩ := mem_heard m
    rw [opKeys_drop] at hk
    exact ⟨o, mo, hk⟩
  · rintro ⟨op, m, hk⟩
    refine ⟨Spec.dropClosures cfg out op, ?_, by rw [opKeys_drop]; exact hk⟩
    unfold Spec.neverHeard Spec.withoutHiding
    refine List.mem_map_of_mem (List.mem_filter.2 ⟨m, ?_⟩)
    by_cases ho : Spec.Hides op
    · rw [(hides_nothing (cfg := cfg) ho).2.2.2.2.1] at hk; cases hk
    · simp [ho]

/-- The shortened history meets the conditions too. -/
theorem WellFed.heard [Mul G] [Inv G] [One G] {cfg : Cfg G T N} {start : Chr → Key} {owner : Key → Chr} {h : List (Op G N)} (out : List Chr)
    (w : Spec.WellFed cfg start owner h) : Spec.WellFed cfg start owner (Spec.neverHeard cfg out h) := by
  have conv : ∀ {g : List (Op G N)} {k : Key}, Spec.OnChain cfg start g k → Spec.OnChain cfg start (Spec.neverHeard cfg out g) k := by
    intro g k ho
    unfold Spec.OnChain at ho ⊢
    rw [robotOdom_heard]
    exact ho
  refine ⟨?_, ?_, ?_, ⟨?_, ?_⟩, ?_, ?_⟩
  · intro op ho
    obtain ⟨o, ho', rfl⟩ := mem_heard ho
    have := w.managed o ho'
    cases o <;> exact this
  · intro op ho
    obtain ⟨o, ho', rfl⟩ := mem_heard ho
    have := w.keeps o ho'
    cases o <;> exact this
  · intro c
    rw [robotOdom_heard]
    exact w.chains c
  · intro h1 op h2 e x hx hl
    obtain ⟨g1, o, g2, e1, e2, rfl⟩ := split_heard e
    rw [opCands_drop] at hx
    obtain ⟨a, b⟩ := w.reached.closures g1 o g2 e1 x (List.mem_filter.1 hx).1 hl
    rw [e2]
    exact ⟨conv a, conv b⟩
  · intro h1 op h2 e x hx hl hs
    obtain ⟨g1, o, g2, e1, e2, rfl⟩ := split_heard e
    rw [e2]
    exact conv (w.reached.landmarks g1 o g2 e1 x (opBtws_drop hx) hl hs)
  · intro h1 op h2 e x hx
    obtain ⟨g1, o, g2, e1, e2, rfl⟩ := split_heard e
    rw [opCands_drop] at hx
    obtain ⟨a, b⟩ := w.known g1 o g2 e1 x (List.mem_filter.1 hx).1
    rw [e2]
    exact ⟨opKeys_heard.2 a, opKeys_heard.2 b⟩
  · intro op ho x hx
    obtain ⟨o, ho', rfl⟩ := mem_heard ho
    exact w.observer o ho' x (opBtws_drop hx)

theorem connects_ends {a b : Chr} {x : Btw G N} (h : Spec.connects a b x = true) (out : List Chr) :
    (decide (chr x.k1 ∈ out) || decide (chr x.k2 ∈ out)) = (decide (a ∈ out) || decide (b ∈ out)) := by
  unfold Spec.connects at h
  rcases of_decide_eq_true h with ⟨e1, e2⟩ | ⟨e1, e2⟩
  · rw [e1, e2]
  · rw [e1, e2, Bool.or_comm]

theorem pairGroups_heard {cfg : Cfg G T N} {out : List Chr} {a b : Chr} (ha : a ∉ cfg.special) (hb : b ∉ cfg.special)
    (h : List (Op G N)) :
    Spec.pairGroups cfg a b (Spec.neverHeard cfg out h) =
      if decide (a ∈ out) || decide (b ∈ out) then [] else Spec.pairGroups cfg a b h := by
  have one : ∀ op : Op G N, Spec.pairCands cfg a b (Spec.dropClosures cfg out op) =
      if decide (a ∈ out) || decide (b ∈ out) then [] else Spec.pairCands cfg a b op := by
    intro op
    unfold Spec.pairCands
    rw [opCands_drop, List.filter_filter]
    have lm : ∀ x : Btw G N, Spec.connects a b x = true → Spec.isLandmark cfg x = false := by
      intro x hx
      unfold Spec.connects at hx
      unfold Spec.isLandmark
      simp only [decide_eq_false_iff_not, not_or]
      rcases of_decide_eq_true hx with q | q
      · rw [q.1, q.2]; exact ⟨ha, hb⟩
      · rw [q.1, q.2]; exact ⟨hb, ha⟩
    cases ho : decide (a ∈ out) || decide (b ∈ out) with
    | true =>
      rw [if_pos rfl, List.filter_eq_nil_iff]
      intro x _
      cases hx : Spec.connects a b x with
      | false => simp
      | true => rw [connects_ends hx, ho, lm x hx]; simp
    | false =>
      rw [if_neg (by simp)]
      refine List.filter_congr fun x _ => ?_
      cases hx : Spec.connects a b x with
      | false => simp
      | true => rw [connects_ends hx, ho, lm x hx]; rfl
  unfold Spec.pairGroups Spec.neverHeard Spec.withoutHiding
  induction h with
  | nil => simp
  | cons op h ih =>
    rw [List.filter_cons, List.map_cons]
    by_cases hh : Spec.Hides op
    · rw [if_neg (by simp [hh]), ih]
      have : Spec.pairCands cfg a b op = [] := by
        unfold Spec.pairCands
        rw [(hides_nothing hh).2.1]; rfl
      rw [this]; rfl
    · rw [if_pos (by simp [hh]), List.map_cons, List.map_cons, List.filter_cons, one, List.filter_cons]
      cases ho : decide (a ∈ out) || decide (b ∈ out) with
      | true =>
        rw [ho] at ih
        simpa using ih
      | false =>
        rw [ho, if_neg Bool.false_ne_true] at ih
        rw [if_neg Bool.false_ne_true, if_neg Bool.false_ne_true, ih]

theorem lmSoFar_heard [Mul G] [Inv G] [One G] (cfg : Cfg G T N) (out : List Chr) (l : Key) (h : List (Op G N)) :
    Spec.lmSoFar cfg l (Spec.neverHeard cfg out h) = Spec.lmSoFar cfg l h := by
  refine flatMap_heard (fun op => ?_) (fun op ho => ?_) h
  · unfold Spec.lmSeen
    rw [lmFirsts_eq, lmFirsts_eq]
    unfold Spec.lmCands
    rw [opFirsts_drop, opCands_drop, List.filter_filter]
    congr 2
    refine List.filter_congr fun x _ => ?_
    cases Spec.isLandmark cfg x <;> simp
  · unfold Spec.lmSeen
    rw [lmFirsts_eq]
    unfold Spec.lmCands
    rw [(hides_nothing ho).2.1, (hides_nothing ho).2.2.1]
    rfl

theorem heard_same [Mul G] [Inv G] [One G] {cfg : Cfg G T N} (hs : StartFree cfg.ops) {e e' : Env G N} (he : e.Ok) (he' : e'.Ok)
    (hr : cfg.rejection = true) {start : Chr → Key} {owner : Key → Chr} {h : List (Op G N)} (w : Spec.WellFed cfg start owner h)
    {s s' : St G T N} (r : ReachOk cfg e h s) (r' : ReachOk cfg e' (Spec.neverHeard cfg (getIgnored cfg s) h) s') :
    Spec.SameOthers (getIgnored cfg s) s s' := by
  have w' := WellFed.heard (getIgnored cfg s) w
  have hg : getIgnored cfg s = s.pcm.ignored := by unfold getIgnored; rw [if_pos hr]
  have pre : ∀ c, Spec.robotOdom cfg c (Spec.neverHeard cfg (getIgnored cfg s) h) <+: Spec.robotOdom cfg c h := by
    intro c; rw [robotOdom_heard]
  have hlc : ∀ id, id.id1 ∉ getIgnored cfg s → id.id2 ∉ getIgnored cfg s → lcOf s'.pcm id = lcOf s.pcm id := by
    intro id h1 h2
    by_cases hsp : id.id1 ∈ cfg.special ∨ id.id2 ∈ cfg.special
    · rw [r.reach.lcOf_special hr hsp, r'.reach.lcOf_special hr hsp]
    · obtain ⟨n1, n2⟩ := not_or.1 hsp
      exact pair_same hs hr r' r (pairFed_global w'.chains w'.reached w'.known w'.keeps n1 n2)
        (pairFed_global w.chains w.reached w.known w.keeps n1 n2) (fun c _ => pre c)
        (by rw [pairGroups_heard n1 n2]; simp [h1, h2])
  have hno : ∀ id : ObsId, id.id1 ∈ getIgnored cfg s ∨ id.id2 ∈ getIgnored cfg s → lcOf s'.pcm id = Meas.empty := by
    intro id hid
    by_cases hsp : id.id1 ∈ cfg.special ∨ id.id2 ∈ cfg.special
    · exact r'.reach.lcOf_special hr hsp
    · obtain ⟨n1, n2⟩ := not_or.1 hsp
      have := (r'.pairState hr hs (pairFed_global w'.chains w'.reached w'.known w'.keeps n1 n2)).run
      rw [pairGroups_heard n1 n2, if_pos (by simpa using hid)] at this
      exact this
  have hlm : ∀ l, lmOf s'.pcm l = lmOf s.pcm l := fun l =>
    land_alone (lm := cfg.lm) (debug := cfg.debug) (log := cfg.log) (useGnc := cfg.useGnc) (fixPrev := cfg.fixPrev)
      (biasOdom := cfg.biasOdom) hs hr r' r (landFed_global w'.chains w'.reached w'.known w'.observer l)
      (landFed_global w.chains w.reached w.known w.observer l) (pre _) (by rw [lmSoFar_heard])
  have hi' : s'.pcm.ignored = [] := by
    have q := (Props.C24_ignored_set hr r'.reach).2
    have hg' : getIgnored cfg s' = s'.pcm.ignored := by unfold getIgnored; rw [if_pos hr]
    rw [hg'] at q
    refine List.eq_nil_iff_forall_not_mem.2 fun c hc => ?_
    obtain ⟨h1, h2, e1, _⟩ := (q c).1 hc
    have m : (Op.ignore c : Op G N) ∈ Spec.neverHeard cfg (getIgnored cfg s) h := by rw [e1]; simp
    unfold Spec.neverHeard Spec.withoutHiding at m
    obtain ⟨o, mo, e2⟩ := List.mem_map.1 m
    have : o = .ignore c := by cases o <;> first | exact e2 | cases e2
    subst this
    have := (List.mem_filter.1 mo).2
    rw [decide_eq_true (show Spec.Hides (Op.ignore c : Op G N) from trivial)] at this
    cases this
  refine ⟨?_, ?_, fun a b ha hb => ?_, fun a b hab => ?_, fun l => ?_⟩
  · obtain ⟨a1, a2, a3⟩ := r.lists he hr w.managed
    obtain ⟨b1, b2, b3⟩ := r'.lists he' hr w'.managed
    rw [a1, b1]
    unfold buildGraph
    rw [a2, a3, b2, b3, odomSoFar_heard, specialSoFar_heard, hi']
    refine List.Perm.append (List.Perm.append_left _ ?_) ?_
    · refine ((he.lc _).flatMap_right _).trans (List.Perm.trans ?_ ((he'.lc _).symm.flatMap_right _))
      have e1 : s'.pcm.lcs.flatMap (fun e => if !([] : List Chr).contains e.1.id1 && !([] : List Chr).contains e.1.id2 then
            e.2.cons.map (fun b => (some (.btw b) : Option (Factor G N))) else []) =
          s'.pcm.lcs.flatMap (fun e => if !s.pcm.ignored.contains e.1.id1 && !s.pcm.ignored.contains e.1.id2 then
            e.2.cons.map (fun b => (some (.btw b) : Option (Factor G N))) else []) := by
        refine List.flatMap_congr fun e me => ?_
        rw [if_pos (by simp)]
        split
        · rfl
        · rename_i hne
          have hid : e.1.id1 ∈ getIgnored cfg s ∨ e.1.id2 ∈ getIgnored cfg s := by
            rw [hg]
            by_contra hc
            rw [not_or] at hc
            exact hne (by simp [hc.1, hc.2])
          have := hno e.1 hid
          unfold lcOf at this
          rw [distinct_get ObsId.isEqv (r'.reach.distinct hr).1 me] at this
          rw [show e.2 = Meas.empty from this]
          rfl
      rw [e1]
      refine table_perm_like ObsId.isEqv (d := Meas.empty) (r.reach.distinct hr).1 (r'.reach.distinct hr).1 ?_ ?_ fun k => ?_
      · intro k; simp [Meas.empty]
      · intro k k' v q
        unfold ObsId.eqv at q
        split at q
        · rename_i h; simp only [h.1, h.2]
        · split at q
          · rename_i h
            simp only [h.1, h.2, Bool.and_comm]
          · cases q
      · dsimp only
        split
        · rename_i hc
          have hc : k.id1 ∉ s.pcm.ignored ∧ k.id2 ∉ s.pcm.ignored := by simpa using hc
          have := hlc k (by rw [hg]; exact hc.1) (by rw [hg]; exact hc.2)
          unfold lcOf at this
          rw [this]
        · exact List.Perm.refl _
    · refine ((he.lm _).flatMap_right _).trans (List.Perm.trans ?_ ((he'.lm _).symm.flatMap_right _))
      exact table_perm_get AList.isEqv_beq (d := Meas.empty) (r.reach.keyed hr).2 (r'.reach.keyed hr).2
        (fun k => by simp [Meas.empty]) (fun k k' v q => rfl) fun l => (hlm l).symm
  · obtain ⟨a1, a2⟩ := Props.C34_estimate_keys r
    obtain ⟨b1, b2⟩ := Props.C34_estimate_keys r'
    refine List.Pairwise.eq_of_mem_iff (r := fun a b : Key => a.toNat < b.toNat) a2 b2 fun k => ?_
    rw [a1, b1]
    exact opKeys_heard.symm
  · exact samePair_result (hlc ⟨a, b⟩ ha hb).symm
  · unfold Spec.registered
    rw [hno ⟨a, b⟩ hab]
    rfl
  · unfold Spec.observed Spec.acceptedOf
    rw [hlm l]
    exact ⟨rfl, rfl⟩

end RPGO

namespace RPGO.Props
variable {G C K : Type} [Mul G] [Inv G] [One G] [Field K] [LinearOrder K]

/-- C89 (PCM_Simple2D / 3D): a solver that ignores some prefixes has the graph of a solver that never received their loop
closures (and was never asked to ignore anything), whenever they were ignored, and whatever the optimizers and the orders in
which hash tables are visited. -/
theorem C89_forgotten {G : Type} [Group G] (p : Params K) (tn rn : G → K) (signed : Bool) (hm : p.method ≠ .none) {e e' : Env G (GNoise C)}
    (he : e.Ok) (he' : e'.Ok) {start : Chr → Key} {owner : Key → Chr}
    {h : List (Op G (GNoise C))} (w : Spec.WellFed (p.cfgSimple C tn rn signed) start owner h) {s s' : St G (PNode G) (GNoise C)}
    (r : ReachOk (p.cfgSimple C tn rn signed) e h s)
    (r' : ReachOk (p.cfgSimple C tn rn signed) e'
      (Spec.neverHeard (p.cfgSimple C tn rn signed) (getIgnored (p.cfgSimple C tn rn signed) s) h) s') :
    Spec.SameOthers (getIgnored (p.cfgSimple C tn rn signed) s) s s' :=
  heard_same (node_startFree tn rn _ _ _ _) he he' (by simp [Params.cfgSimple, Params.cfg, hm]) w r r'

/-- C89 for PCM2D / PCM3D. -/
theorem C89_forgotten_cov {G : Type} [Group G] [AddGroup C] (p : Params K) (ce : CovEnv G C K) (signed : Bool) (hm : p.method ≠ .none)
    {e e' : Env G (GNoise C)} (he : e.Ok) (he' : e'.Ok) {start : Chr → Key}
    {owner : Key → Chr} {h : List (Op G (GNoise C))} (w : Spec.WellFed (p.cfgCov ce signed) start owner h)
    {s s' : St G (PCov G C) (GNoise C)} (r : ReachOk (p.cfgCov ce signed) e h s)
    (r' : ReachOk (p.cfgCov ce signed) e'
      (Spec.neverHeard (p.cfgCov ce signed) (getIgnored (p.cfgCov ce signed) s) h) s') :
    Spec.SameOthers (getIgnored (p.cfgCov ce signed) s) s s' :=
  heard_same (cov_startFree ce _ _) he he' (by simp [Params.cfgCov, Params.cfg, hm]) w r r'

/-- Robot `a` is ignored and revived, robot `b` is ignored while its closures come in. -/
def deafTo : List (Op Demo.Z Demo.Ns) :=
  beginning ++ [.ignore 97, seenByA, .ignore 98, between, .revive 97] ++ ending

set_option maxRecDepth 100000 in
/-- The hypotheses of `C89_forgotten` are met; four closures between the robots are dropped from the history, those of `a`
stay. -/
example : Spec.WellFed demoLandmarks (fun c => symKey c 0) (fun _ => 97) deafTo ∧
    (∃ s, ReachOk demoLandmarks Demo.env deafTo s ∧ getIgnored demoLandmarks s = [98, 99] ∧ s.nfg.length = 8) ∧
    (∃ s, ReachOk demoLandmarks Demo.env (Spec.neverHeard demoLandmarks [98, 99] deafTo) s ∧ s.nfg.length = 8) ∧
    (Spec.candsSoFar demoLandmarks deafTo).length = 6 ∧
    (Spec.candsSoFar demoLandmarks (Spec.neverHeard demoLandmarks [98, 99] deafTo)).length = 2 := by
  have hm : ∀ op ∈ deafTo, Spec.Managed op ∧ ¬ Spec.Removes op := by
    intro op ho
    simp [deafTo, beginning, seenByA, between, ending] at ho
    rcases ho with rfl | rfl | rfl | rfl | rfl | rfl | rfl | rfl <;> exact ⟨trivial, fun h => h⟩
  refine ⟨⟨fun op ho => (hm op ho).1, fun op ho => (hm op ho).2,
      chains_of (by decide +kernel), onOdometry_of (by decide +kernel), keysKnown_of (by decide +kernel),
      by unfold Spec.OneObserver; decide +kernel⟩, ?_, ?_, by decide +kernel, by decide +kernel⟩
  · obtain ⟨s, r, h⟩ := Demo.runs_reach (cfg := demoLandmarks) (env := Demo.env) (ops := deafTo)
      (P := fun s => decide (getIgnored demoLandmarks s = [98, 99] ∧ s.nfg.length = 8)) (by decide +kernel)
    exact ⟨s, r, of_decide_eq_true h⟩
  · obtain ⟨s, r, h⟩ := Demo.runs_reach (cfg := demoLandmarks) (env := Demo.env) (ops := Spec.neverHeard demoLandmarks [98, 99] deafTo)
      (P := fun s => decide (s.nfg.length = 8)) (by decide +kernel)
    exact ⟨s, r, of_decide_eq_true h⟩

/-- Robot `b` observes a landmark and is ignored. -/
def ignoredObserver : List (Op Demo.Z Demo.Ns) :=
  beginning ++ [.update [Demo.edge (Demo.b 0) (Demo.l 0) 2] [Demo.pose (Demo.l 0) 5] true,
    .update [Demo.edge (Demo.b 1) (Demo.l 0) 1] [] true, .ignore 98]

set_option maxRecDepth 100000 in
/-- C89 is about closures between poses only: the observations a robot made of a landmark stay in the graph when it is
ignored. -/
theorem C89_false_landmarks : ∃ s, ReachOk demoLandmarks Demo.env ignoredObserver s ∧ getIgnored demoLandmarks s = [98] ∧
    Demo.edge (Demo.b 0) (Demo.l 0) 2 ∈ s.nfg ∧ Demo.edge (Demo.b 1) (Demo.l 0) 1 ∈ s.nfg := by
  obtain ⟨s, r, h⟩ := Demo.runs_reach (cfg := demoLandmarks) (env := Demo.env) (ops := ignoredObserver)
    (P := fun s => decide (getIgnored demoLandmarks s = [98] ∧ Demo.edge (Demo.b 0) (Demo.l 0) 2 ∈ s.nfg ∧
      Demo.edge (Demo.b 1) (Demo.l 0) 1 ∈ s.nfg)) (by decide +kernel)
  exact ⟨s, r, of_decide_eq_true h⟩

set_option maxRecDepth 100000 in
/-- The numbers of closures and inliers reported still include those of the ignored prefixes: four closures of the ignored
robot are counted. -/
theorem C89_false_count :
    (∃ s, ReachOk demoLandmarks Demo.env deafTo s ∧ Spec.NumLC demoLandmarks Demo.env s 7) ∧
    ∃ s, ReachOk demoLandmarks Demo.env (Spec.neverHeard demoLandmarks [98, 99] deafTo) s ∧ Spec.NumLC demoLandmarks Demo.env s 3 := by
  refine ⟨?_, ?_⟩
  · obtain ⟨s, r, h⟩ := Demo.runs_reach (cfg := demoLandmarks) (env := Demo.env) (ops := deafTo)
      (P := fun s => decide (s.pcm.totalLc = 7)) (by decide +kernel)
    exact ⟨s, r, (numLC_iff rfl).2 (of_decide_eq_true h).symm⟩
  · obtain ⟨s, r, h⟩ := Demo.runs_reach (cfg := demoLandmarks) (env := Demo.env) (ops := Spec.neverHeard demoLandmarks [98, 99] deafTo)
      (P := fun s => decide (s.pcm.totalLc = 3)) (by decide +kernel)
    exact ⟨s, r, (numLC_iff rfl).2 (of_decide_eq_true h).symm⟩

/-- A closure of robot `a`, one with robot `b`, and the removal of the last one; then `b` is ignored. -/
def removedThenIgnored : List (Op Demo.Z Demo.Ns) :=
  beginning ++ [.update [Demo.edge (Demo.a 0) (Demo.a 2) 2] [] true, .update [Demo.edge (Demo.a 0) (Demo.b 0) 3] [] true,
    .removeLast, .ignore 98]

set_option maxRecDepth 100000 in
/-- C89 needs that nothing is removed: the removal takes away another closure if the closures of the ignored robot were never
received. -/
theorem C89_false_removal :
    (∃ s, ReachOk Demo.cfg Demo.env removedThenIgnored s ∧ getIgnored Demo.cfg s = [98] ∧ Demo.edge (Demo.a 0) (Demo.a 2) 2 ∈ s.nfg) ∧
    ∃ s, ReachOk Demo.cfg Demo.env (Spec.neverHeard Demo.cfg [98] removedThenIgnored) s ∧
      Demo.edge (Demo.a 0) (Demo.a 2) 2 ∉ s.nfg := by
  refine ⟨?_, ?_⟩
  · obtain ⟨s, r, h⟩ := Demo.runs_reach (cfg := Demo.cfg) (env := Demo.env) (ops := removedThenIgnored)
      (P := fun s => decide (getIgnored Demo.cfg s = [98] ∧ Demo.edge (Demo.a 0) (Demo.a 2) 2 ∈ s.nfg)) (by decide +kernel)
    exact ⟨s, r, of_decide_eq_true h⟩
  · obtain ⟨s, r, h⟩ := Demo.runs_reach (cfg := Demo.cfg) (env := Demo.env) (ops := Spec.neverHeard Demo.cfg [98] removedThenIgnored)
      (P := fun s => decide (Demo.edge (Demo.a 0) (Demo.a 2) 2 ∉ s.nfg)) (by decide +kernel)
    exact ⟨s, r, of_decide_eq_true h⟩

end RPGO.Props
