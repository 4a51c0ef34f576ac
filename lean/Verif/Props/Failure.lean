import Verif.Proofs.Types
import Verif.Proofs.Own
import Verif.Props.Plain
import Verif.Props.Safety
import Verif.Props.Align
/-
C85: exactly which updates fail, and how.
-/

namespace RPGO
variable {G T N : Type}

namespace Spec

/-- A key is given a value twice: twice in the batch, or it has one already. -/
def Clash (h : List (Op G N)) (vs : Vals G) : Prop :=
  ¬ vs.keys.Nodup ∨ ∃ k ∈ vs.keys, ∃ op ∈ h, k ∈ opKeys op

/-- `x` is an odometry factor of the batch that cannot be attached anywhere: its robot had no odometry before it, in
earlier calls or earlier in the batch, and its first key has no pose as value. -/
def Rootless (cfg : Cfg G T N) (h : List (Op G N)) (v : Vals G) (fs : Graph G N) (vs : Vals G) (x : Btw G N) : Prop :=
  ∃ pre post, odoms cfg vs fs = pre ++ x :: post ∧ (∀ y ∈ odomSoFar cfg h ++ pre, chr y.k2 ≠ chr x.k2) ∧
    ∀ g, held v vs x.k1 ≠ some (.pose g)

/-- Closures are only supplied between poses of robots that get odometry, odometry stays inside a robot, and landmark
`l` is only observed by robot `owner l`, which gets odometry. -/
structure Grounded (cfg : Cfg G T N) (owner : Key → Chr) (h : List (Op G N)) : Prop where
  inside : ∀ y ∈ odomSoFar cfg h, chr y.k1 = chr y.k2
  closures : ∀ op ∈ h, ∀ b ∈ opBtws op, b ∉ opOdom cfg op → isLandmark cfg b = false →
    (∃ y ∈ odomSoFar cfg h, chr y.k2 = chr b.k1) ∧ ∃ y ∈ odomSoFar cfg h, chr y.k2 = chr b.k2
  observer : ∀ op ∈ h, ∀ b ∈ opBtws op, chr b.k2 ∈ cfg.special → chr b.k1 ∉ cfg.special →
    chr b.k1 = owner b.k2 ∧ ∃ y ∈ odomSoFar cfg h, chr y.k2 = chr b.k1

/-- What frame alignment asks for, if it is on: averaging returns a result, all values supplied for poses are poses, odometry
stays inside a robot, landmark `l` is only observed by robot `owner l`, and the poses that odometry factors start at, or that
landmarks are observed from, are given a value by some call. -/
structure Sited (cfg : Cfg G T N) (env : Env G N) (owner : Key → Chr) (h : List (Op G N)) : Prop where
  average : ∀ l, (env.avg l).isSome
  poses : ∀ op ∈ h, ∀ k x, (k, x) ∈ opGiven op → chr k ∉ cfg.special → ∃ g, x = .pose g
  odom : ∀ op ∈ h, ∀ x ∈ opOdom cfg op, chr x.k1 = chr x.k2 ∧ ∃ o ∈ h, x.k1 ∈ opKeys o
  landmark : ∀ op ∈ h, ∀ x ∈ opBtws op, chr x.k2 ∈ cfg.special → chr x.k1 ∉ cfg.special →
    chr x.k1 = owner x.k2 ∧ ∃ o ∈ h, x.k1 ∈ opKeys o

end Spec

section
variable [Mul G] [Inv G] [One G]

/-- A robot has a trajectory if and only if it has odometry. -/
theorem ReachOk.hasTraj_iff {cfg : Cfg G T N} {env : Env G N} (hr : cfg.rejection = true) {owner : Key → Chr}
    {h : List (Op G N)} {s : St G T N} (r : ReachOk cfg env h s) (hg : Spec.Grounded cfg owner h) (c : Chr) :
    RPGO.hasTraj s.pcm c = true ↔ ∃ y ∈ Spec.odomSoFar cfg h, chr y.k2 = c := by
  constructor
  · intro hc
    have own : Own cfg owner (fun k => ∃ y ∈ Spec.odomSoFar cfg h, chr y.k2 = chr k) (fun _ => True) s.pcm := by
      refine r.reach.own hr ⟨?_, fun op hop b hb h1 h2 => (hg.observer op hop b hb h1 h2).1⟩ (fun _ _ _ _ => ⟨trivial, trivial⟩)
        (fun op hop b hb _ h1 h2 => (hg.observer op hop b hb h1 h2).2) (fun op hop b hb hn hl _ _ => hg.closures op hop b hb hn hl)
      intro op hop b hb
      exact hg.inside b (List.mem_flatMap.2 ⟨op, hop, hb⟩)
    rcases own.born c hc with h1 | ⟨k, hk, y, hy, hyk⟩
    · obtain ⟨op, hop, b, hb, hbc⟩ := (r.reach.robots hr).odom c h1
      exact ⟨b, List.mem_flatMap.2 ⟨op, hop, hb⟩, hbc⟩
    · exact ⟨y, hy, hyk.trans hk⟩
  · rintro ⟨y, hy, rfl⟩
    exact r.hasTraj hr y hy

end

section
variable [Mul G] [Inv G] [One G]

omit [Mul G] [Inv G] [One G] in
theorem opKeys_eq (op : Op G N) : Spec.opKeys op = (Spec.opGiven op).keys := by cases op <;> rfl

omit [Mul G] [Inv G] [One G] in
/-- The last call may be replaced by one with the same factors and values. -/
theorem Spec.Sited.replace {cfg : Cfg G T N} {env : Env G N} {owner : Key → Chr} {h : List (Op G N)} {op op' : Op G N}
    (hs : Spec.Sited cfg env owner (h ++ [op])) (h1 : Spec.opGiven op' = Spec.opGiven op) (h2 : Spec.opOdom cfg op' = Spec.opOdom cfg op)
    (h3 : Spec.opBtws op' = Spec.opBtws op) : Spec.Sited cfg env owner (h ++ [op']) := by
  have hk : ∀ k, (∃ o ∈ h ++ [op], k ∈ Spec.opKeys o) → ∃ o ∈ h ++ [op'], k ∈ Spec.opKeys o := by
    rintro k ⟨o, ho, hk⟩
    rcases List.mem_append.1 ho with ho | ho
    · exact ⟨o, by simp [ho], hk⟩
    · rw [List.mem_singleton] at ho
      subst ho
      exact ⟨op', by simp, by rw [opKeys_eq, h1, ← opKeys_eq]; exact hk⟩
  have sp : ∀ o ∈ h ++ [op'], o ∈ h ∨ o = op' := fun o ho => by simpa using ho
  refine ⟨hs.average, fun o ho k x hx => ?_, fun o ho x hx => ?_, fun o ho x hx a b => ?_⟩
  · rcases sp o ho with ho | rfl
    · exact hs.poses o (by simp [ho]) k x hx
    · exact hs.poses op (by simp) k x (h1 ▸ hx)
  · rcases sp o ho with ho | rfl
    · exact (hs.odom o (by simp [ho]) x hx).imp id (hk _)
    · exact (hs.odom op (by simp) x (h2 ▸ hx)).imp id (hk _)
  · rcases sp o ho with ho | rfl
    · exact (hs.landmark o (by simp [ho]) x hx a b).imp id (hk _)
    · exact (hs.landmark op (by simp) x (h3 ▸ hx) a b).imp id (hk _)

/-- All poses of the trajectories have poses as values when the frames are aligned. -/
theorem sited_traj {cfg : Cfg G T N} {env : Env G N} (hr : cfg.rejection = true) {owner : Key → Chr} {h : List (Op G N)}
    {s : St G T N} (r : ReachOk cfg env h s) {fs : Graph G N} {vs : Vals G} (hs : Spec.Sited cfg env owner (h ++ [.update fs vs false]))
    {v1 : Vals G} (hv : insertVals vs s.values = .ok v1 ()) {p1 p2 : Pcm G T N} (hS : Sorted cfg vs v1 fs s.pcm p1)
    (hp : p2 = p1 ∨ processCands cfg v1 (Spec.cands cfg vs fs) p1 = .ok p2 ()) (c : Chr) (k : Key)
    (hk : (trajOf p2 c).has k = true) : ∃ g, v1.find? k = some (.pose g) := by
  have notLm : ∀ b : Btw G N, Spec.isLandmark cfg b = false → chr b.k1 ∉ cfg.special ∧ chr b.k2 ∉ cfg.special := by
    intro b hb
    simpa [Spec.isLandmark] using hb
  have grow : ∀ k, (∃ o ∈ h, k ∈ Spec.opKeys o) → ∃ o ∈ h ++ [.update fs vs false], k ∈ Spec.opKeys o := by
    rintro k ⟨o, ho, hk⟩
    exact ⟨o, by simp [ho], hk⟩
  have hodom : ∀ op ∈ h ++ [.update fs vs false], ∀ x ∈ Spec.opOdom cfg op, chr x.k1 = chr x.k2 ∧
      (chr x.k1 ∉ cfg.special ∧ ∃ o ∈ h ++ [.update fs vs false], x.k1 ∈ Spec.opKeys o) ∧
      chr x.k2 ∉ cfg.special ∧ ∃ o ∈ h ++ [.update fs vs false], x.k2 ∈ Spec.opKeys o := by
    intro op hop x hx
    obtain ⟨h1, h2⟩ := hs.odom op hop x hx
    have key : ∀ fs' vs', x ∈ Spec.odoms cfg vs' fs' → chr x.k1 ∉ cfg.special ∧ chr x.k2 ∉ cfg.special ∧ x.k2 ∈ vs'.keys := by
      intro fs' vs' hx
      have ho := (List.mem_filter.1 hx).2
      unfold Spec.isOdom at ho
      simp only [decide_eq_true_eq] at ho
      exact ⟨ho.1, ho.2.1, ho.2.2.2⟩
    cases op with
    | update fs' vs' o =>
      obtain ⟨a, b, d⟩ := key fs' vs' hx
      exact ⟨h1, ⟨a, h2⟩, b, _, hop, d⟩
    | forceUpdate fs' vs' =>
      obtain ⟨a, b, d⟩ := key fs' vs' hx
      exact ⟨h1, ⟨a, h2⟩, b, _, hop, d⟩
    | _ => cases hx
  have own : Own cfg owner (fun k => chr k ∉ cfg.special ∧ ∃ o ∈ h ++ [.update fs vs false], k ∈ Spec.opKeys o)
      (fun k => chr k ∉ cfg.special ∧ ∃ o ∈ h ++ [.update fs vs false], k ∈ Spec.opKeys o) s.pcm := by
    refine r.reach.own hr ⟨fun op hop x hx => (hodom op (by simp [hop]) x hx).1,
      fun op hop x hx h1 h2 => (hs.landmark op (by simp [hop]) x hx h1 h2).1⟩ ?_ ?_ ?_
    · intro op hop x hx
      exact (hodom op (by simp [hop]) x hx).2
    · intro op hop x hx _ h1 h2
      exact ⟨h2, (hs.landmark op (by simp [hop]) x hx h1 h2).2⟩
    · intro op hop x hx _ hl h1 h2
      exact ⟨⟨(notLm x hl).1, grow _ h1⟩, (notLm x hl).2, grow _ h2⟩
  have obs : ∀ x ∈ Spec.btws fs, Observed cfg owner
      (fun k => chr k ∉ cfg.special ∧ ∃ o ∈ h ++ [.update fs vs false], k ∈ Spec.opKeys o) (fun k => v1.has k = true) x := by
    intro x hx
    refine ⟨fun hl h1 h2 => ?_, fun h1 h2 => ?_⟩
    · have hh : ∀ k, v1.has k = true → ∃ o ∈ h ++ [.update fs vs false], k ∈ Spec.opKeys o := by
        intro k hk
        by_cases hs : s.values.has k = true
        · exact grow _ ((reach_values r.reach).2 k hs)
        · have e := (insertVals_ok hv).1 k
          rw [if_neg hs] at e
          unfold KMap.has at hk
          rw [e] at hk
          exact ⟨.update fs vs false, by simp, (KMap.mem_keys_iff vs k).2 hk⟩
      exact ⟨⟨(notLm x hl).1, hh _ h1⟩, (notLm x hl).2, hh _ h2⟩
    · obtain ⟨a, b⟩ := hs.landmark (.update fs vs false) (by simp) x hx h1 h2
      exact ⟨a, h2, b⟩
  have own1 := own.sortedBatch hS (fun x hx => hodom (.update fs vs false) (by simp) x hx) fun x hx _ => obs x hx
  have own2 : Own cfg owner (fun k => chr k ∉ cfg.special ∧ ∃ o ∈ h ++ [.update fs vs false], k ∈ Spec.opKeys o)
      (fun k => chr k ∉ cfg.special ∧ ∃ o ∈ h ++ [.update fs vs false], k ∈ Spec.opKeys o) p2 := by
    rcases hp with rfl | hp
    · exact own1
    · have := own1.processCands (vals := v1) (bs := Spec.cands cfg vs fs) fun x hx => obs x (List.mem_filter.1 hx).1
      rw [hp] at this
      exact this
  obtain ⟨hsp, o, ho, hko⟩ := (own2.own c k hk).2.elim id id
  have e := (insertVals_ok hv).1 k
  by_cases hsk : s.values.has k = true
  · rw [if_pos hsk] at e
    obtain ⟨y, hy⟩ := Option.isSome_iff_exists.1 hsk
    obtain ⟨op, hop, x, hx, t⟩ := reach_typed r.reach hy
    obtain ⟨g, rfl⟩ := hs.poses op (by simp [hop]) k x hx hsp
    cases y with
    | pose g' => exact ⟨g', by rw [e, hy]⟩
    | other t' => cases t
  · rw [if_neg hsk] at e
    have hkv : k ∈ vs.keys := by
      rcases List.mem_append.1 ho with ho | ho
      · exact absurd (reachOk_values r k ⟨o, ho, hko⟩) hsk
      · rw [List.mem_singleton] at ho; subst ho; exact hko
    obtain ⟨y, hy⟩ := Option.isSome_iff_exists.1 ((KMap.mem_keys_iff vs k).1 hkv)
    obtain ⟨g, rfl⟩ := hs.poses (.update fs vs false) (by simp) k y (find?_of_mem hy) hsp
    exact ⟨g, by rw [e, hy]⟩

/-- The first part of an update, with closure rejection. -/
theorem removeOutliers_outcome {cfg : Cfg G T N} {env : Env G N} (hr : cfg.rejection = true)
    {owner : Key → Chr} {h : List (Op G N)} {s : St G T N} (r : ReachOk cfg env h s) (ht : Tidy cfg s.pcm)
    (hg : Spec.Grounded cfg owner h) {fs : Graph G N} (hb : ∀ b ∈ Spec.btws fs, Spec.Fair cfg b) (vs : Vals G)
    (ha : cfg.align = true → Spec.Sited cfg env owner (h ++ [.update fs vs false])) :
    (Spec.Clash h vs → ∃ s', removeOutliers cfg env fs vs s = .throw s' .keyExists) ∧
    (¬ Spec.Clash h vs → (∃ x, Spec.Rootless cfg h s.values fs vs x) → ∃ x s' e, Spec.Rootless cfg h s.values fs vs x ∧
      removeOutliers cfg env fs vs s = .throw s' e ∧
      ((e = .keyMissing ∧ Spec.held s.values vs x.k1 = none) ∨ (e = .wrongType ∧ (Spec.held s.values vs x.k1).isSome))) ∧
    (¬ Spec.Clash h vs → (∀ x, ¬ Spec.Rootless cfg h s.values fs vs x) → ∃ s' x, removeOutliers cfg env fs vs s = .ok s' x) := by
  have hkeys := (Props.C34_estimate_keys r).1
  have hnew : ¬ Spec.Clash h vs → (∀ k ∈ vs.keys, s.values.has k = false) ∧ vs.keys.Nodup := by
    intro hcl
    unfold Spec.Clash at hcl
    push Not at hcl
    refine ⟨fun k hk => ?_, hcl.1⟩
    cases hx : s.values.has k with
    | false => rfl
    | true =>
      obtain ⟨op, ho, hko⟩ := (hkeys k).1 ((KMap.mem_keys_iff _ _).2 hx)
      exact absurd hko (hcl.2 k hk op ho)
  have hroot : ∀ v1, insertVals vs s.values = .ok v1 () → ∀ x, Spec.Rootless cfg h s.values fs vs x ↔
      ∃ pre post, Spec.odoms cfg vs fs = pre ++ x :: post ∧ hasTraj s.pcm (chr x.k2) = false ∧
        (∀ y ∈ pre, chr y.k2 ≠ chr x.k2) ∧ ∀ g, v1.find? x.k1 ≠ some (.pose g) := by
    intro v1 hv x
    have hf : Spec.held s.values vs x.k1 = v1.find? x.k1 := ((insertVals_ok hv).1 x.k1).symm
    unfold Spec.Rootless
    rw [hf]
    have hq : hasTraj s.pcm (chr x.k2) = false ↔ ∀ y ∈ Spec.odomSoFar cfg h, chr y.k2 ≠ chr x.k2 := by
      rw [← Bool.not_eq_true, r.hasTraj_iff hr hg]
      push Not
      rfl
    constructor
    · rintro ⟨pre, post, h1, h2, h3⟩
      exact ⟨pre, post, h1, hq.2 fun y hy => h2 y (by simp [hy]), fun y hy => h2 y (by simp [hy]), h3⟩
    · rintro ⟨pre, post, h1, h2, h3, h4⟩
      refine ⟨pre, post, h1, fun y hy => ?_, h4⟩
      rcases List.mem_append.1 hy with hy | hy
      · exact hq.1 h2 y hy
      · exact h3 y hy
  have hnoise : ∀ b ∈ Spec.btws fs, b.noise.isSome := fun b hb' => (hb b hb').1
  refine ⟨?_, ?_, ?_⟩
  · intro hcl
    obtain ⟨v', e⟩ := Props.insertVals_dup (vs := vs) (v := s.values) (by
      rcases hcl with h1 | ⟨k, hk, op, hop, hko⟩
      · exact Or.inr h1
      · exact Or.inl ⟨k, hk, (hkeys k).2 ⟨op, hop, hko⟩⟩)
    refine ⟨{ s with values := v' }, ?_⟩
    unfold removeOutliers
    simp only [M.bind_eq]
    refine M.bind_throw ?_
    unfold onValues M.zoom
    rw [e]
  · rintro hcl ⟨x0, hx0⟩
    obtain ⟨v1, hv⟩ := insertVals_total (hnew hcl).1 (hnew hcl).2
    have e1 : (onValues (insertVals vs) : M (St G T N) Unit) s = .ok { s with values := v1 } () := by
      unfold onValues M.zoom; simp only [hv]
    rcases sortFactors_rootless cfg vs v1 fs [] false s.pcm hnoise with ⟨p', y, e2, hall⟩ | ⟨pre, x, post, p', e, h1, h2, h3, h4, h5, h6⟩
    · obtain ⟨pre, post, h1, h2, h3, h4⟩ := (hroot v1 hv x0).1 hx0
      rcases hall pre x0 post h1 with h | ⟨y, hy, hc⟩ | ⟨g, hgx⟩
      · rw [h2] at h; cases h
      · exact absurd hc (h3 y hy)
      · exact absurd hgx (h4 g)
    · refine ⟨x, { s with values := v1, pcm := p' }, e, (hroot v1 hv x).2 ⟨pre, post, h1, h2, h3, h4⟩, ?_, ?_⟩
      · unfold removeOutliers
        simp only [M.bind_eq]
        rw [M.bind_ok e1]
        have hne : fs ≠ [] := by
          rintro rfl
          simp [Spec.odoms, Spec.btws] at h1
        unfold M.cond
        rw [if_neg (by simp [hne])]
        unfold processFactors
        simp only [M.bind_eq]
        rw [M.bind_ok (M.get_apply _)]
        refine M.bind_throw ?_
        unfold onPcm M.zoom
        simp only [h5]
      · have hf : Spec.held s.values vs x.k1 = v1.find? x.k1 := ((insertVals_ok hv).1 x.k1).symm
        rw [hf]
        exact h6
  · intro hcl hno
    refine removeOutliers_total env (fun v1 p1 p2 hv hS hp => ?_) ht hb (hnew hcl).1 (hnew hcl).2 ?_
    · cases hal : cfg.align with
      | false => exact ⟨_, alignStep_off (Or.inl hal)⟩
      | true => exact alignStep_total (ha hal).average fun c k hk => sited_traj hr r (ha hal) hv hS hp c k hk
    intro v1 hv
    rcases sortFactors_rootless cfg vs v1 fs [] false s.pcm hnoise with ⟨p', y, e2, _⟩ | ⟨pre, x, post, p', e, h1, h2, h3, h4, _⟩
    · exact ⟨p', y, e2⟩
    · exact absurd ((hroot v1 hv x).2 ⟨pre, post, h1, h2, h3, h4⟩) (hno x)

end

namespace Props
variable [Mul G] [Inv G] [One G]

/-- C85: how an update ends that does not optimize, after calls that returned and with Gaussian measurements. If a key
is given a second value it throws the exception for that. Otherwise, if some odometry factor can be attached nowhere,
it throws because of such a factor: its first key has no value, or one that is not a pose. Otherwise it returns. It is
never undefined. With frame alignment this asks for what `Spec.Sited` says. (After removals this holds as long as every pair that ever had a closure still has two, see C27.) -/
theorem C85_outcome {cfg : Cfg G T N} {env : Env G N} (hr : cfg.rejection = true)
    {owner : Key → Chr} {h : List (Op G N)} {s : St G T N} (r : ReachOk cfg env h s)
    (hf : ∀ op ∈ h, ∀ b ∈ Spec.opBtws op, Spec.Fair cfg b)
    (hc : (cfg.loopCheck = false ∧ cfg.incremental = false) ∨ (∀ op ∈ h, ¬ Spec.Removes op) ∨
      ∀ op ∈ h, ∀ b ∈ Spec.opCands cfg op, 2 ≤ (Spec.registered s ⟨chr b.k1, chr b.k2⟩).length)
    (hg : Spec.Grounded cfg owner h) {fs : Graph G N} (hb : ∀ b ∈ Spec.btws fs, Spec.Fair cfg b) (vs : Vals G)
    (ha : cfg.align = true → Spec.Sited cfg env owner (h ++ [.update fs vs false])) :
    (Spec.Clash h vs → ∃ s', exec cfg env (.update fs vs false) s = .throw s' .keyExists) ∧
    (¬ Spec.Clash h vs → (∃ x, Spec.Rootless cfg h s.values fs vs x) → ∃ x s' e, Spec.Rootless cfg h s.values fs vs x ∧
      exec cfg env (.update fs vs false) s = .throw s' e ∧
      ((e = .keyMissing ∧ Spec.held s.values vs x.k1 = none) ∨ (e = .wrongType ∧ (Spec.held s.values vs x.k1).isSome))) ∧
    (¬ Spec.Clash h vs → (∀ x, ¬ Spec.Rootless cfg h s.values fs vs x) →
      ∃ s', exec cfg env (.update fs vs false) s = .ok s' .unit) := by
  have bad : ∀ s' e, removeOutliers cfg env fs vs s = .throw s' e → exec cfg env (.update fs vs false) s = .throw s' e := by
    intro s' e h1
    refine M.bind_throw ?_
    unfold update
    simp only [M.bind_eq]
    rw [RPGO.cond_true hr]
    exact M.bind_throw h1
  obtain ⟨h1, h2, h3⟩ := removeOutliers_outcome hr r (r.reach.tidy hr hf hc) hg hb vs ha
  refine ⟨fun hx => ?_, fun hx hy => ?_, fun hx hy => ?_⟩
  · obtain ⟨s', e⟩ := h1 hx
    exact ⟨s', bad _ _ e⟩
  · obtain ⟨x, s', e, hx', e', hk⟩ := h2 hx hy
    exact ⟨x, s', e, hx', bad _ _ e', hk⟩
  · obtain ⟨s', x, e⟩ := h3 hx hy
    refine ⟨s', ?_⟩
    show M.bind (update cfg env fs vs false) _ s = _
    have : update cfg env fs vs false s = .ok s' () := by
      unfold update
      simp only [M.bind_eq]
      rw [RPGO.cond_true hr, M.bind_ok e]
      simp [M.when, M.bind, M.pure]
    rw [M.bind_ok this]
    rfl

/-- C85: such an update returns if and only if no key gets a second value and every odometry factor can be attached. -/
theorem C85_returns_iff {cfg : Cfg G T N} {env : Env G N} (hr : cfg.rejection = true)
    {owner : Key → Chr} {h : List (Op G N)} {s : St G T N} (r : ReachOk cfg env h s)
    (hf : ∀ op ∈ h, ∀ b ∈ Spec.opBtws op, Spec.Fair cfg b) (hrem : ∀ op ∈ h, ¬ Spec.Removes op)
    (hg : Spec.Grounded cfg owner h) {fs : Graph G N} (hb : ∀ b ∈ Spec.btws fs, Spec.Fair cfg b) (vs : Vals G)
    (ha : cfg.align = true → Spec.Sited cfg env owner (h ++ [.update fs vs false])) :
    (∃ s' x, exec cfg env (.update fs vs false) s = .ok s' x) ↔
      ¬ Spec.Clash h vs ∧ ∀ x, ¬ Spec.Rootless cfg h s.values fs vs x := by
  obtain ⟨h1, h2, h3⟩ := C85_outcome hr r hf (Or.inr (Or.inl hrem)) hg hb vs ha
  constructor
  · rintro ⟨s', x, e⟩
    have hcl : ¬ Spec.Clash h vs := fun hx => by
      obtain ⟨s2, e2⟩ := h1 hx
      rw [e] at e2; cases e2
    refine ⟨hcl, fun y hy => ?_⟩
    obtain ⟨_, s2, e2, _, e3, _⟩ := h2 hcl ⟨y, hy⟩
    rw [e] at e3; cases e3
  · rintro ⟨hx, hy⟩
    obtain ⟨s', e⟩ := h3 hx hy
    exact ⟨s', _, e⟩

/-- C85 without closure rejection: an update that does not optimize fails only because of a second value, or because it
consists of one empty factor slot, which is undefined. -/
theorem C85_plain {cfg : Cfg G T N} {env : Env G N} (hr : cfg.rejection = false) {h : List (Op G N)} {s : St G T N}
    (r : ReachOk cfg env h s) (fs : Graph G N) (vs : Vals G) :
    (Spec.Clash h vs → ∃ s', exec cfg env (.update fs vs false) s = .throw s' .keyExists) ∧
    (¬ Spec.Clash h vs → fs = [none] → exec cfg env (.update fs vs false) s = .ub .nullDeref) ∧
    (¬ Spec.Clash h vs → fs ≠ [none] → ∃ s', exec cfg env (.update fs vs false) s = .ok s' .unit) := by
  have hkeys := (Props.C34_estimate_keys r).1
  have hmod : (M.modify fun s : St G T N => { s with nfg := s.nfg ++ fs }) s = .ok { s with nfg := s.nfg ++ fs } () := rfl
  have hnew : ¬ Spec.Clash h vs → ∃ v1, insertVals vs s.values = .ok v1 () := by
    intro hcl
    unfold Spec.Clash at hcl
    push Not at hcl
    refine insertVals_total (fun k hk => ?_) hcl.1
    cases hx : s.values.has k with
    | false => rfl
    | true =>
      obtain ⟨op, ho, hko⟩ := (hkeys k).1 ((KMap.mem_keys_iff _ _).2 hx)
      exact absurd hko (hcl.2 k hk op ho)
  have e1 : ∀ v1, insertVals vs s.values = .ok v1 () →
      (onValues (insertVals vs) : M (St G T N) Unit) { s with nfg := s.nfg ++ fs } = .ok { s with nfg := s.nfg ++ fs, values := v1 } () := by
    intro v1 hv
    unfold onValues M.zoom; simp only [hv]
  refine ⟨?_, ?_, ?_⟩
  · intro hcl
    obtain ⟨v', e⟩ := Props.insertVals_dup (vs := vs) (v := s.values) (by
      rcases hcl with h1 | ⟨k, hk, op, hop, hko⟩
      · exact Or.inr h1
      · exact Or.inl ⟨k, hk, (hkeys k).2 ⟨op, hop, hko⟩⟩)
    refine ⟨{ s with values := v', nfg := s.nfg ++ fs }, M.bind_throw ?_⟩
    unfold update
    rw [cond_false hr]
    refine M.bind_throw ?_
    unfold addAndCheck
    simp only [M.bind_eq]
    rw [M.bind_ok hmod]
    refine M.bind_throw ?_
    unfold onValues M.zoom
    rw [e]
  · rintro hcl rfl
    obtain ⟨v1, hv⟩ := hnew hcl
    have e2 : addAndCheck [none] vs s = .ub .nullDeref := by
      unfold addAndCheck
      simp only [M.bind_eq]
      rw [M.bind_ok hmod, M.bind_ok (e1 v1 hv)]
      rfl
    have e3 : update cfg env [none] vs false s = .ub .nullDeref := by
      unfold update
      simp only [M.bind_eq]
      rw [cond_false hr]
      unfold M.bind
      rw [e2]
    show M.bind (update cfg env [none] vs false) _ s = _
    unfold M.bind
    rw [e3]
  · intro hcl hne
    obtain ⟨v1, hv⟩ := hnew hcl
    have e2 : ∃ b, addAndCheck fs vs s = .ok { s with nfg := s.nfg ++ fs, values := v1 } b := by
      unfold addAndCheck
      simp only [M.bind_eq]
      rw [M.bind_ok hmod, M.bind_ok (e1 v1 hv)]
      match fs with
      | [] => exact ⟨_, rfl⟩
      | [none] => exact absurd rfl hne
      | [some f] => exact ⟨_, rfl⟩
      | f :: _ :: _ => cases f <;> exact ⟨_, rfl⟩
    obtain ⟨b, e2⟩ := e2
    have e3 : update cfg env fs vs false s = .ok { s with nfg := s.nfg ++ fs, values := v1 } () := by
      unfold update
      simp only [M.bind_eq]
      rw [cond_false hr, M.bind_ok e2]
      simp [M.when, M.bind, M.pure]
    refine ⟨{ s with nfg := s.nfg ++ fs, values := v1 }, ?_⟩
    show M.bind (update cfg env fs vs false) _ s = _
    rw [M.bind_ok e3]
    rfl

theorem grounded_of {cfg : Cfg Demo.Z Demo.Tp Demo.Ns} {owner : Key → Chr} {h : List (Op Demo.Z Demo.Ns)}
    (h1 : (Spec.odomSoFar cfg h).all (fun y => decide (chr y.k1 = chr y.k2)) = true)
    (h2 : h.all (fun op => (Spec.opBtws op).all fun b => (Spec.opOdom cfg op).contains b || Spec.isLandmark cfg b ||
      ((Spec.odomSoFar cfg h).any (fun y => decide (chr y.k2 = chr b.k1)) &&
        (Spec.odomSoFar cfg h).any (fun y => decide (chr y.k2 = chr b.k2)))) = true)
    (h3 : (h.flatMap Spec.opBtws).all (fun b => !decide (chr b.k2 ∈ cfg.special) || (decide (chr b.k1 = owner b.k2) &&
        (Spec.odomSoFar cfg h).any (fun y => decide (chr y.k2 = chr b.k1)))) = true) :
    Spec.Grounded cfg owner h := by
  have any : ∀ c, (Spec.odomSoFar cfg h).any (fun y => decide (chr y.k2 = c)) = true → ∃ y ∈ Spec.odomSoFar cfg h, chr y.k2 = c := by
    intro c hc
    obtain ⟨y, hy, e⟩ := List.any_eq_true.1 hc
    exact ⟨y, hy, of_decide_eq_true e⟩
  refine ⟨fun y hy => of_decide_eq_true (List.all_eq_true.1 h1 y hy), fun op hop b hb hn hl => ?_, fun op hop b hb hs _ => ?_⟩
  · have := List.all_eq_true.1 (List.all_eq_true.1 h2 op hop) b hb
    rw [Bool.or_eq_true, Bool.or_eq_true, Bool.and_eq_true] at this
    rcases this with (h | h) | h
    · exact absurd (List.contains_iff_mem.1 h) hn
    · rw [hl] at h; cases h
    · exact ⟨any _ h.1, any _ h.2⟩
  · have := List.all_eq_true.1 h3 b (List.mem_flatMap.2 ⟨op, hop, hb⟩)
    rw [Bool.or_eq_true, Bool.and_eq_true] at this
    rcases this with h | h
    · simp [hs] at h
    · exact ⟨of_decide_eq_true h.1, any _ h.2⟩

theorem noClash_of {h : List (Op G N)} {vs : Vals G} (h1 : decide vs.keys.Nodup = true)
    (h2 : (h.flatMap Spec.opKeys).all (fun k => !vs.keys.contains k) = true) : ¬ Spec.Clash h vs := by
  rintro (hn | ⟨k, hk, op, hop, hko⟩)
  · exact hn (of_decide_eq_true h1)
  · have := List.all_eq_true.1 h2 k (List.mem_flatMap.2 ⟨op, hop, hko⟩)
    rw [Bool.not_eq_true', ← Bool.not_eq_true] at this
    exact this (List.contains_iff_mem.2 hk)

set_option maxRecDepth 100000 in
/-- The hypotheses of `C85_outcome` are met, and each of its cases occurs: the odometry of a second robot starts at a
pose whose value is supplied with it (the update returns), at one without value, at one with a value that is not a pose,
and with a key supplied before. The second odometry factor of the batch starts at the end of the first one. -/
example : (∃ s, ReachOk Demo.cfg Demo.env Demo.h1 s) ∧ (∀ op ∈ Demo.h1, ∀ b ∈ Spec.opBtws op, Spec.Fair Demo.cfg b) ∧
    (∀ op ∈ Demo.h1, ¬ Spec.Removes op) ∧ Spec.Grounded Demo.cfg (fun _ => 97) Demo.h1 ∧
    (∀ b ∈ Spec.btws [Demo.edge (Demo.b 0) (Demo.b 1) 1, Demo.edge (Demo.b 1) (Demo.b 2) 1], Spec.Fair Demo.cfg b) ∧
    (¬ Spec.Clash Demo.h1 [Demo.pose (Demo.b 0) 0, Demo.pose (Demo.b 1) 1, Demo.pose (Demo.b 2) 2] ∧
      ∀ s, ReachOk Demo.cfg Demo.env Demo.h1 s → ∀ x, ¬ Spec.Rootless Demo.cfg Demo.h1 s.values
        [Demo.edge (Demo.b 0) (Demo.b 1) 1, Demo.edge (Demo.b 1) (Demo.b 2) 1]
        [Demo.pose (Demo.b 0) 0, Demo.pose (Demo.b 1) 1, Demo.pose (Demo.b 2) 2] x) ∧
    (¬ Spec.Clash Demo.h1 [Demo.pose (Demo.b 1) 1] ∧ ∀ s, ReachOk Demo.cfg Demo.env Demo.h1 s →
      Spec.Rootless Demo.cfg Demo.h1 s.values [Demo.edge (Demo.b 0) (Demo.b 1) 1] [Demo.pose (Demo.b 1) 1] (Demo.btw (Demo.b 0) (Demo.b 1) 1) ∧
      Spec.Rootless Demo.cfg Demo.h1 s.values [Demo.edge (Demo.b 0) (Demo.b 1) 1] [(Demo.b 0, .other 0), Demo.pose (Demo.b 1) 1]
        (Demo.btw (Demo.b 0) (Demo.b 1) 1)) ∧
    Spec.Clash Demo.h1 [Demo.pose (Demo.b 1) 1, Demo.pose (Demo.a 2) 1] := by
  have nob : ∀ s, ReachOk Demo.cfg Demo.env Demo.h1 s → ∀ k, chr k = 98 → s.values.has k = false := by
    intro s r k hk
    cases hx : s.values.has k with
    | false => rfl
    | true =>
      obtain ⟨op, ho, hko⟩ := (C34_estimate_keys r).1 k |>.1 ((KMap.mem_keys_iff _ _).2 hx)
      have : (Demo.h1.flatMap Spec.opKeys).all (fun k => decide (chr k ≠ 98)) = true := by decide +kernel
      exact absurd hk (of_decide_eq_true (List.all_eq_true.1 this k (List.mem_flatMap.2 ⟨op, ho, hko⟩)))
  refine ⟨?_, fair_of (by decide +kernel), fun op hop => ?_, grounded_of (by decide +kernel) (by decide +kernel) (by decide +kernel), ?_, ⟨?_, ?_⟩, ⟨?_, ?_⟩, ?_⟩
  · obtain ⟨s, r, _⟩ := Demo.runs_reach (cfg := Demo.cfg) (env := Demo.env) (ops := Demo.h1) (P := fun _ => true) (by decide +kernel)
    exact ⟨s, r⟩
  · simp only [Demo.h1, List.mem_cons, List.not_mem_nil, or_false] at hop
    rcases hop with rfl | rfl | rfl | rfl <;> exact id
  · have := fair_of (cfg := Demo.cfg) (h := [.update [Demo.edge (Demo.b 0) (Demo.b 1) 1, Demo.edge (Demo.b 1) (Demo.b 2) 1] [] false])
      (by decide +kernel) _ (List.mem_singleton.2 rfl)
    exact this
  · exact noClash_of (by decide +kernel) (by decide +kernel)
  · rintro s r x ⟨pre, post, h1, h2, h3⟩
    have ho : Spec.odoms Demo.cfg [Demo.pose (Demo.b 0) 0, Demo.pose (Demo.b 1) 1, Demo.pose (Demo.b 2) 2]
        [Demo.edge (Demo.b 0) (Demo.b 1) 1, Demo.edge (Demo.b 1) (Demo.b 2) 1] =
        [Demo.btw (Demo.b 0) (Demo.b 1) 1, Demo.btw (Demo.b 1) (Demo.b 2) 1] := by decide +kernel
    rw [ho] at h1
    rcases pre with _ | ⟨y, _ | ⟨z, pre⟩⟩
    · simp only [List.nil_append, List.cons.injEq] at h1
      rw [← h1.1] at h3
      refine h3 (Demo.z 0) ?_
      unfold Spec.held
      rw [nob s r _ (by decide +kernel), if_neg (by simp)]
      decide +kernel
    · simp only [List.cons_append, List.nil_append, List.cons.injEq] at h1
      rw [← h1.1, ← h1.2.1] at h2
      exact h2 (Demo.btw (Demo.b 0) (Demo.b 1) 1) (by simp) (by decide +kernel)
    · simp at h1
  · exact noClash_of (by decide +kernel) (by decide +kernel)
  · intro s r
    have hb : s.values.has (Demo.btw (Demo.b 0) (Demo.b 1) 1).k1 = false := nob s r _ (by decide +kernel)
    refine ⟨⟨[], [], by decide +kernel, by decide +kernel, fun g => ?_⟩, ⟨[], [], by decide +kernel, by decide +kernel, fun g => ?_⟩⟩
    · unfold Spec.held
      rw [hb]
      have : KMap.find? [Demo.pose (Demo.b 1) 1] (Demo.btw (Demo.b 0) (Demo.b 1) 1).k1 = none := by decide +kernel
      rw [if_neg (by simp), this]
      exact fun q => by cases q
    · unfold Spec.held
      rw [hb]
      have : KMap.find? [(Demo.b 0, .other 0), Demo.pose (Demo.b 1) 1] (Demo.btw (Demo.b 0) (Demo.b 1) 1).k1 = some (.other 0) := by decide +kernel
      rw [if_neg (by simp), this]
      exact fun q => by cases q
  · exact Or.inr ⟨Demo.a 2, by decide +kernel, .update [Demo.edge (Demo.a 1) (Demo.a 2) 1] [Demo.pose (Demo.a 2) 2] true, by simp [Demo.h1], by decide +kernel⟩

/-- A closure of robot `b` with itself before its odometry. -/
def early : List (Op Demo.Z Demo.Ns) :=
  [.update [some (.prior (Demo.b 0) (Demo.z 0)), Demo.edge (Demo.b 0) (Demo.b 5) 5] [Demo.pose (Demo.b 0) 0, Demo.pose (Demo.b 5) 5] false]

set_option maxRecDepth 100000 in
/-- C85 needs closures to name robots with odometry: after a closure of a robot with itself, its first odometry factor
is accepted although its first pose has no value. -/
theorem C85_false_ungrounded : ∃ s s', ReachOk Demo.cfg Demo.env early s ∧
    Spec.Rootless Demo.cfg early s.values [Demo.edge (Demo.b 7) (Demo.b 8) 1] [Demo.pose (Demo.b 8) 8] (Demo.btw (Demo.b 7) (Demo.b 8) 1) ∧
    exec Demo.cfg Demo.env (.update [Demo.edge (Demo.b 7) (Demo.b 8) 1] [Demo.pose (Demo.b 8) 8] false) s = .ok s' .unit := by
  obtain ⟨s, r, h⟩ := Demo.runs_reach (cfg := Demo.cfg) (env := Demo.env) (ops := early)
    (P := fun s => decide (Spec.held s.values [Demo.pose (Demo.b 8) 8] (Demo.b 7) = none) &&
      match exec Demo.cfg Demo.env (.update [Demo.edge (Demo.b 7) (Demo.b 8) 1] [Demo.pose (Demo.b 8) 8] false) s with
      | .ok _ .unit => true
      | _ => false) (by decide +kernel)
  rw [Bool.and_eq_true] at h
  obtain ⟨h1, h2⟩ := h
  have h1 := of_decide_eq_true h1
  cases e : exec Demo.cfg Demo.env (.update [Demo.edge (Demo.b 7) (Demo.b 8) 1] [Demo.pose (Demo.b 8) 8] false) s with
  | ub _ => rw [e] at h2; cases h2
  | throw _ _ => rw [e] at h2; cases h2
  | ok s' x =>
    rw [e] at h2
    cases x with
    | unit =>
      refine ⟨s, s', r, ⟨[], [], by decide +kernel, by decide +kernel, fun g => ?_⟩, e⟩
      show Spec.held s.values [Demo.pose (Demo.b 8) 8] (Demo.b 7) ≠ _
      rw [h1]
      exact fun q => by cases q
    | num _ => cases h2
    | edge _ => cases h2

end Props
end RPGO
