import Verif.Proofs.Caught
import Verif.Props.Order
import Verif.Props.Safety
/-
C71: going on after an exception.
-/

namespace RPGO.Spec
variable {G T N : Type} [Mul G] [Inv G] [One G]

/-- The call would have returned normally with other numerics: with some other optimizer, averaging, iteration order or
optimizer settings. -/
def OnlyNumerics (cfg : Cfg G T N) (op : Op G N) (s : St G T N) : Prop :=
  ∃ (env : Env G N) (lm debug log useGnc fixPrev biasOdom : Bool) (s' : St G T N) (r : Ret),
    exec (cfg.withOpt lm debug log useGnc fixPrev biasOdom) env op s = .ok s' r

/-- `pre` are the values of `vs` before the first one that cannot be inserted because its key is known already. -/
def BeforeClash (s : St G T N) (vs pre : Vals G) : Prop :=
  ∃ k y suf, vs = pre ++ (k, y) :: suf ∧ (k ∈ s.values.keys ∨ k ∈ pre.keys) ∧ pre.keys.Nodup ∧
    ∀ j ∈ pre.keys, j ∉ s.values.keys

/-- The call `op` returned, or it threw and the exception was caught; the call `o` stands for what it has done:
* it returned normally, or it failed only because of numerics, or it is not about factors: the call itself;
* it was an update with a key that was known already: an update with the values before that key and no factors. -/
inductive CaughtStep (cfg : Cfg G T N) (env : Env G N) (s : St G T N) (op : Op G N) (s' : St G T N) : Op G N → Prop where
  | returned {r} : exec cfg env op s = .ok s' r → CaughtStep cfg env s op s' op
  | numerics {x} : exec cfg env op s = .throw s' x → OnlyNumerics cfg op s → CaughtStep cfg env s op s' op
  | query {x} : exec cfg env op s = .throw s' x → Silent op → CaughtStep cfg env s op s' op
  | clash {x fs vs pre} : exec cfg env op s = .throw s' x → batch op = some (fs, vs) → BeforeClash s vs pre →
      CaughtStep cfg env s op s' (.update [] pre false)

/-- A run in which exceptions were caught: the calls made, and the calls that stand for what they have done. -/
inductive Caught (cfg : Cfg G T N) (env : Env G N) : List (Op G N) → List (Op G N) → St G T N → Prop where
  | init : Caught cfg env [] [] St.init
  | step {h c s op o s'} : Caught cfg env h c s → CaughtStep cfg env s op s' o → Caught cfg env (h ++ [op]) (c ++ [o]) s'

end RPGO.Spec

namespace RPGO
variable {G T N : Type}

theorem insertVals_clash {vs v v' : Vals G} {x : Exn} (h : insertVals vs v = .throw v' x) :
    ∃ pre k y suf, vs = pre ++ (k, y) :: suf ∧ insertVals pre v = .ok v' () ∧ v'.has k = true := by
  induction vs generalizing v with
  | nil => cases h
  | cons e t ih =>
    obtain ⟨k, y⟩ := e
    unfold insertVals at h
    by_cases hk : v.has k = true
    · rw [if_pos hk] at h
      cases h
      exact ⟨[], k, y, t, rfl, rfl, hk⟩
    · rw [if_neg hk] at h
      obtain ⟨pre, k', y', suf, e, h1, h2⟩ := ih h
      refine ⟨(k, y) :: pre, k', y', suf, by rw [e]; rfl, ?_, h2⟩
      unfold insertVals
      rw [if_neg hk]
      exact h1

theorem insertVals_prefix {s : St G T N} {vs pre : Vals G} (hp : Spec.BeforeClash s vs pre) :
    ∃ v', insertVals pre s.values = .ok v' () ∧ insertVals vs s.values = .throw v' .keyExists := by
  obtain ⟨k, y, suf, rfl, hk, hn, hf⟩ := hp
  have key : ∀ (pre : Vals G) (v : Vals G), (k ∈ v.keys ∨ k ∈ pre.keys) → pre.keys.Nodup → (∀ j ∈ pre.keys, j ∉ v.keys) →
      ∃ v', insertVals pre v = .ok v' () ∧ insertVals (pre ++ (k, y) :: suf) v = .throw v' .keyExists := by
    intro pre
    induction pre with
    | nil =>
      intro v hk _ _
      refine ⟨v, rfl, ?_⟩
      rcases hk with hk | hk
      · show insertVals ((k, y) :: suf) v = _
        unfold insertVals
        rw [if_pos ((KMap.mem_keys_iff _ _).1 hk)]
      · cases hk
    | cons e t ih =>
      obtain ⟨j, z⟩ := e
      intro v hk hn hf
      have hj : ¬ v.has j = true := fun h => hf j (by simp [KMap.keys]) ((KMap.mem_keys_iff _ _).2 h)
      have hkeys : (KMap.keys ((j, z) :: t)) = j :: KMap.keys t := rfl
      rw [hkeys] at hk hn hf
      have hset : ∀ i, i ∈ (v.set j z).keys ↔ i = j ∨ i ∈ v.keys := by
        intro i
        rw [KMap.mem_keys_iff, KMap.mem_keys_iff]
        by_cases hi : i = j
        · subst hi
          simp [KMap.has_set]
        · have hi' : ¬ j = i := fun h => hi h.symm
          simp [KMap.has_set, hi, hi']
      obtain ⟨v', h1, h2⟩ := ih (v.set j z) (by
          rw [hset]
          rcases hk with hk | hk
          · exact Or.inl (Or.inr hk)
          · rcases List.mem_cons.1 hk with hk | hk
            · exact Or.inl (Or.inl hk)
            · exact Or.inr hk) (List.nodup_cons.1 hn).2 (by
          intro i hi hc
          rcases (hset i).1 hc with rfl | hc
          · exact (List.nodup_cons.1 hn).1 hi
          · exact hf i (List.mem_cons_of_mem _ hi) hc)
      refine ⟨v', ?_, ?_⟩
      · unfold insertVals; rw [if_neg hj]; exact h1
      · show insertVals ((j, z) :: (t ++ (k, y) :: suf)) v = _
        unfold insertVals; rw [if_neg hj]; exact h2
  exact key pre s.values hk hn hf

theorem beforeClash_of {s : St G T N} {vs v' : Vals G} {x : Exn} (h : insertVals vs s.values = .throw v' x) :
    ∃ pre, Spec.BeforeClash s vs pre ∧ insertVals pre s.values = .ok v' () := by
  obtain ⟨pre, k, y, suf, e, h1, h2⟩ := insertVals_clash h
  obtain ⟨a, b, c⟩ := insertVals_ok h1
  refine ⟨pre, ⟨k, y, suf, e, ?_, c, fun j hj hm => ?_⟩, h1⟩
  · by_cases hv : s.values.has k = true
    · exact Or.inl ((KMap.mem_keys_iff _ _).2 hv)
    · right
      have := a k
      rw [if_neg hv] at this
      rw [KMap.mem_keys_iff]
      unfold KMap.has at h2 ⊢
      rw [← this]
      exact h2
  · have := b j hj
    rw [(KMap.mem_keys_iff _ _).1 hm] at this
    cases this

variable [Mul G] [Inv G] [One G]

/-- The part of the processing of a batch that does not depend on the environment. -/
def firstPart (cfg : Cfg G T N) (fs : Graph G N) (vs : Vals G) : M (St G T N) (Option Bool) :=
  M.bind (onValues (insertVals vs)) fun _ => M.cond (decide (fs.length = 0)) (M.pure none)
    (M.bind M.get fun s => M.bind (onPcm (sortFactors cfg vs s.values fs [] false)) fun r =>
      M.bind (M.when (decide (r.1.length > 0)) (onPcm (processCands cfg s.values r.1))) fun _ =>
        M.pure (some (r.2 || decide (r.1.length > 0))))

/-- The rest. -/
def secondPart (cfg : Cfg G T N) (env : Env G N) : Option Bool → M (St G T N) Bool
  | none => M.pure false
  | some d => M.bind (rebuild env) fun _ => M.bind (alignStep cfg env) fun _ => M.pure d

theorem removeOutliers_parts (cfg : Cfg G T N) (env : Env G N) (fs : Graph G N) (vs : Vals G) :
    removeOutliers cfg env fs vs = M.bind (firstPart cfg fs vs) (secondPart cfg env) := by
  unfold removeOutliers firstPart processFactors
  simp only [M.bind_eq, M.bind_assoc']
  congr 1
  funext _ s
  unfold M.cond
  by_cases h : decide (fs.length = 0) = true
  · simp only [h]
    rfl
  · simp only [h]
    rw [if_neg (by simp), if_neg (by simp)]
    simp only [M.bind_assoc', M.pure_bind']
    rfl

theorem firstPart_tidy {cfg : Cfg G T N} {fs : Graph G N} {vs : Vals G} {s s1 : St G T N}
    (h : firstPart cfg fs vs s = .ok s1 none) : s1.pcm = s.pcm ∧ s1.nfg = s.nfg := by
  unfold firstPart at h
  obtain ⟨t, _, h1, h2⟩ := M.bind_eq_ok.1 h
  obtain ⟨v, _, rfl⟩ := M.zoom_eq_ok.1 h1
  unfold M.cond at h2
  split at h2
  · cases h2; exact ⟨rfl, rfl⟩
  · obtain ⟨t1, _, _, h3⟩ := M.bind_eq_ok.1 h2
    obtain ⟨t2, _, _, h4⟩ := M.bind_eq_ok.1 h3
    obtain ⟨t3, _, _, h5⟩ := M.bind_eq_ok.1 h4
    cases h5

/-- Sorting of the robots by frame alignment. -/
theorem alignStep_pcm (cfg : Cfg G T N) (env : Env G N) (s : St G T N) :
    M.Ends (fun s' : St G T N => s'.pcm = (if cfg.align && decide (1 < s.pcm.robotOrder.length) then
        { s.pcm with robotOrder := sortRobots cfg.charSigned s.pcm.robotOrder } else s.pcm) ∧ s'.nfg = s.nfg ∧
      ∀ k, s'.values.has k = s.values.has k) (alignStep cfg env s) := by
  have hf := alignStep_frame cfg env s
  unfold alignStep at hf ⊢
  by_cases hc : (cfg.align && decide (1 < s.pcm.robotOrder.length)) = true
  · rw [if_pos hc] at hf ⊢
    rw [if_pos hc]
    simp only at hf ⊢
    cases hv : alignValues cfg env { s.pcm with robotOrder := sortRobots cfg.charSigned s.pcm.robotOrder }
        (sortRobots cfg.charSigned s.pcm.robotOrder) s.values with
    | ok v a => rw [hv] at hf; exact ⟨rfl, rfl, fun k => hf.values.has k⟩
    | throw v x => exact ⟨rfl, rfl, fun k => rfl⟩
    | ub u => trivial
  · rw [if_neg hc] at hf ⊢
    rw [if_neg hc]
    exact ⟨rfl, rfl, fun k => rfl⟩

theorem buildGraph_robotOrder (env : Env G N) (p : Pcm G T N) (o : List Chr) :
    buildGraph env { p with robotOrder := o } = buildGraph env p := rfl

/-- The two parts of a batch on two solvers in the same state, when the second one gets through. -/
theorem batch_parts {cfg : Cfg G T N} {e1 e2 : Env G N} {fs : Graph G N} {vs : Vals G} {s s2 : St G T N} {d : Bool}
    (h2 : removeOutliers cfg e2 fs vs s = .ok s2 d) (hb : s.nfg = buildGraph e1 s.pcm) :
    M.Ends (fun s1 => Alike s1 s2 ∧ s1.nfg = buildGraph e1 s1.pcm) (removeOutliers cfg e1 fs vs s) := by
  rw [removeOutliers_parts] at h2 ⊢
  obtain ⟨t, o, h3, h4⟩ := M.bind_eq_ok.1 h2
  rw [M.bind_ok h3]
  cases o with
  | none =>
    cases h4
    obtain ⟨a, b⟩ := firstPart_tidy h3
    exact ⟨⟨rfl, fun _ => rfl⟩, by rw [a, b]; exact hb⟩
  | some d' =>
    have h4 : (M.bind (rebuild e2) fun _ => M.bind (alignStep cfg e2) fun _ => M.pure d') t = .ok s2 d := h4
    show M.Ends _ ((M.bind (rebuild e1) fun _ => M.bind (alignStep cfg e1) fun _ => M.pure d') t)
    have r1 : (rebuild e1 : M (St G T N) Unit) t = .ok { t with nfg := buildGraph e1 t.pcm } () := rfl
    have r2 : (rebuild e2 : M (St G T N) Unit) t = .ok { t with nfg := buildGraph e2 t.pcm } () := rfl
    rw [M.bind_ok r2] at h4
    rw [M.bind_ok r1]
    obtain ⟨t2, u, h5, h6⟩ := M.bind_eq_ok.1 h4
    cases h6
    have k2 := alignStep_pcm cfg e2 { t with nfg := buildGraph e2 t.pcm }
    rw [h5] at k2
    have k1 := alignStep_pcm cfg e1 { t with nfg := buildGraph e1 t.pcm }
    have fin : ∀ t1 : St G T N, _ → Alike t1 s2 ∧ t1.nfg = buildGraph e1 t1.pcm :=
      fun t1 (k1 : t1.pcm = (if cfg.align && decide (1 < t.pcm.robotOrder.length) then
        { t.pcm with robotOrder := sortRobots cfg.charSigned t.pcm.robotOrder } else t.pcm) ∧
          t1.nfg = buildGraph e1 t.pcm ∧ ∀ k, t1.values.has k = t.values.has k) => by
        refine ⟨⟨k1.1.trans k2.1.symm, fun k => (k1.2.2 k).trans (k2.2.2 k).symm⟩, ?_⟩
        rw [k1.2.1, k1.1]
        split <;> rfl
    rw [M.bind_apply]
    cases ha : alignStep cfg e1 { t with nfg := buildGraph e1 t.pcm } with
    | ub u => trivial
    | ok t1 a => rw [ha] at k1; exact fin t1 k1
    | throw t1 x => rw [ha] at k1; exact fin t1 k1

theorem pair_parts {e1 e2 : Env G N} {id : ObsId} {s s2 : St G T N} {x : EdgePtr}
    (h2 : removeLastOfPair e2 id s = .ok s2 x) (hb : s.nfg = buildGraph e1 s.pcm) :
    M.Ends (fun s1 => Alike s1 s2 ∧ s1.nfg = buildGraph e1 s1.pcm) (removeLastOfPair e1 id s) := by
  cases h1 : removeLastOfPair e1 id s with
  | ub u => trivial
  | ok s1 y =>
    exact ⟨(removeLastOfPair_alike e1 e2 id ⟨rfl, fun _ => rfl⟩ _ _ _ _ h1 h2).1, (removeLastOfPair_graph h1 hb).1⟩
  | throw s1 y =>
    rw [removeLastOfPair_eq] at h1 h2
    cases hm : AList.get? ObsId.eqv s.pcm.lcs id with
    | none => rw [hm] at h1; cases h1
    | some m =>
      rw [hm] at h1 h2
      simp only at h1 h2
      cases hr : removeLastMeas m with
      | ub u => rw [hr] at h1; cases h1
      | throw m' x => rw [hr] at h2; cases h2
      | ok m' x => rw [hr] at h1; cases x <;> cases h1

/-- A call on two solvers in the same state, when the second one returns normally. -/
theorem exec_parts {cfg : Cfg G T N} (hr : cfg.rejection = true) {e1 e2 : Env G N} (a b c d e f : Bool) {op : Op G N}
    (hm : Spec.Managed op) (hs : ¬ Spec.Silent op) {s s2 : St G T N} {r : Ret}
    (h2 : exec (cfg.withOpt a b c d e f) e2 op s = .ok s2 r) (hb : s.nfg = buildGraph e1 s.pcm) :
    M.Ends (fun s1 => Alike s1 s2 ∧ s1.nfg = buildGraph e1 s1.pcm) (exec cfg e1 op s) := by
  have hr2 : (cfg.withOpt a b c d e f).rejection = true := hr
  obtain ⟨t2, o2, p2, q2⟩ := exec_ok_phase hr2 h2
  have f2 : OptFrame t2 s2 := by
    rcases q2 with ⟨_, q⟩ | ⟨_, q⟩
    · exact (optimize_frame _ _).of_ok q
    · rw [q]; exact OptFrame.refl _
  have fin : ∀ t1 s1 : St G T N, Alike t1 t2 ∧ t1.nfg = buildGraph e1 t1.pcm → OptFrame t1 s1 →
      Alike s1 s2 ∧ s1.nfg = buildGraph e1 s1.pcm := by
    intro t1 s1 h g
    exact ⟨⟨by rw [g.pcm, f2.pcm, h.1.pcm], fun k => by rw [g.values.has, f2.values.has, h.1.has]⟩,
      by rw [g.nfg, g.pcm]; exact h.2⟩
  rw [exec_phase e1 hr]
  have p1 : M.Ends (fun t1 => Alike t1 t2 ∧ t1.nfg = buildGraph e1 t1.pcm) (phase1 cfg e1 op s) := by
    cases op with
    | update fs vs o =>
      obtain ⟨t, x, p3, p4⟩ := M.bind_eq_ok.1 p2
      cases p4
      rw [removeOutliers_withOpt cfg a b c d e f] at p3
      exact ends_ret (batch_parts p3 hb)
    | forceUpdate fs vs =>
      obtain ⟨t, x, p3, p4⟩ := M.bind_eq_ok.1 p2
      cases p4
      rw [removeOutliers_withOpt cfg a b c d e f] at p3
      exact ends_ret (batch_parts p3 hb)
    | removePriors ch o =>
      cases p2
      exact ⟨⟨rfl, fun _ => rfl⟩, rfl⟩
    | removeLastPair x y =>
      obtain ⟨t, z, p3, p4⟩ := M.bind_eq_ok.1 p2
      cases p4
      exact ends_ret (pair_parts p3 hb)
    | removeLast =>
      obtain ⟨t, z, p3, p4⟩ := M.bind_eq_ok.1 p2
      cases p4
      refine ends_ret ?_
      rw [removeLastPcm_eq] at p3 ⊢
      cases hl : s.pcm.inOrder.getLast? with
      | none => rw [hl] at p3; cases p3; exact ⟨⟨rfl, fun _ => rfl⟩, hb⟩
      | some id => rw [hl] at p3; exact pair_parts p3 hb
    | ignore ch =>
      cases p2
      exact ⟨⟨rfl, fun _ => rfl⟩, rfl⟩
    | revive ch =>
      cases p2
      exact ⟨⟨rfl, fun _ => rfl⟩, rfl⟩
    | _ => first | exact hm.elim | exact absurd trivial hs
  rw [M.bind_apply]
  cases h1 : phase1 cfg e1 op s with
  | ub u => trivial
  | throw t1 x => rw [h1] at p1; exact fin t1 t1 p1 (OptFrame.refl _)
  | ok t1 y =>
    rw [h1] at p1
    have fr : M.Pres OptFrame (M.bind (M.when y.2 (optimize cfg e1)) fun _ =>
        M.bind (M.when (logs cfg op) (logStatus cfg)) fun _ => M.pure y.1) :=
      M.Pres.bind OptFrame.trans (when_frame _) fun _ => M.Pres.bind OptFrame.trans
        (M.Pres.when OptFrame.refl (logStatus_frame cfg)) fun _ => M.Pres.pure OptFrame.refl _
    exact M.Ends.mono (fun s1 h => fin t1 s1 p1 h) (fr t1)

end RPGO

namespace RPGO
variable {G T N : Type} [Mul G] [Inv G] [One G]

theorem Spec.Caught.reach {cfg : Cfg G T N} {env : Env G N} {h c : List (Op G N)} {s : St G T N}
    (r : Spec.Caught cfg env h c s) : Reach cfg env h s := by
  induction r with
  | init => exact .init
  | step _ e ih =>
    cases e with
    | returned e => exact .ok ih e
    | numerics e _ => exact .throw ih e
    | query e _ => exact .throw ih e
    | clash e _ _ => exact .throw ih e

/-- With outlier rejection, an update with a key that is known already does what an update with the values before it
and no factors does. -/
theorem clash_work {cfg : Cfg G T N} (hr : cfg.rejection = true) (env : Env G N) {op : Op G N} {fs : Graph G N}
    {vs pre : Vals G} (hb : Spec.batch op = some (fs, vs)) {s : St G T N} (hp : Spec.BeforeClash s vs pre) :
    ∃ s', exec cfg env op s = .throw s' .keyExists ∧ exec cfg env (.update [] pre false) s = .ok s' .unit := by
  obtain ⟨v', h1, h2⟩ := insertVals_prefix hp
  refine ⟨{ s with values := v' }, ?_, ?_⟩
  · have h : removeOutliers cfg env fs vs s = .throw { s with values := v' } .keyExists := by
      unfold removeOutliers
      simp only [M.bind_eq]
      refine M.bind_throw ?_
      unfold onValues M.zoom
      rw [h2]
    cases op <;> simp only [Spec.batch, Option.some.injEq, Prod.mk.injEq, reduceCtorEq] at hb
    · obtain ⟨rfl, rfl⟩ := hb
      refine M.bind_throw ?_
      unfold update
      rw [cond_true hr]
      exact M.bind_throw h
    · obtain ⟨rfl, rfl⟩ := hb
      refine M.bind_throw ?_
      unfold forceUpdate
      rw [cond_true hr]
      exact M.bind_throw h
  · refine exec_work.2 ⟨rfl, false, ?_⟩
    unfold batchWork
    rw [cond_true hr]
    unfold removeOutliers
    simp only [M.bind_eq]
    have : (onValues (insertVals pre) : M (St G T N) Unit) s = .ok { s with values := v' } () := by
      unfold onValues M.zoom
      rw [h1]
    rw [M.bind_ok this]
    rfl

/-- One step of a run with caught exceptions, seen as a call that returns normally with some numerics. -/
theorem caught_step {cfg : Cfg G T N} (hr : cfg.rejection = true) {env : Env G N} {s s' : St G T N} {op o : Op G N}
    (hm : Spec.Managed op) (h : Spec.CaughtStep cfg env s op s' o) (hb : s.nfg = buildGraph env s.pcm) :
    Spec.Managed o ∧ s'.nfg = buildGraph env s'.pcm ∧
    ((Spec.Silent o ∧ Alike s s') ∨
      ∃ (e3 : Env G N) (a b c d e f : Bool) (s3 : St G T N) (r : Ret), exec (cfg.withOpt a b c d e f) e3 o s = .ok s3 r ∧ Alike s' s3) := by
  have sil : Spec.Silent op → Sim s s' → s'.nfg = buildGraph env s'.pcm ∧ Spec.Silent op ∧ Alike s s' := by
    intro h1 h2
    exact ⟨by rw [← h2.nfg, ← h2.pcm]; exact hb, h1, ⟨h2.pcm, h2.has⟩⟩
  have hsil : ∀ {x : Exn}, exec cfg env op s = .throw s' x → Spec.Silent op → Sim s s' := by
    intro x e hq
    have g := exec_silent (cfg := cfg) (env := env) hq s
    rw [e] at g
    exact g
  cases h with
  | returned e =>
    refine ⟨hm, (exec_ok_lists hr hm e hb).1, Or.inr ⟨env, cfg.lm, cfg.debug, cfg.log, cfg.useGnc, cfg.fixPrev, cfg.biasOdom, s', _, e, ⟨rfl, fun _ => rfl⟩⟩⟩
  | numerics e hn =>
    obtain ⟨e3, a, b, c, d, g, f, s3, r, e4⟩ := hn
    by_cases hq : Spec.Silent op
    · obtain ⟨x, y, z⟩ := sil hq (hsil e hq)
      exact ⟨hm, x, Or.inl ⟨y, z⟩⟩
    · have := exec_parts hr (e1 := env) a b c d g f hm hq e4 hb
      rw [e] at this
      exact ⟨hm, this.2, Or.inr ⟨e3, a, b, c, d, g, f, s3, r, e4, this.1⟩⟩
  | query e hq =>
    obtain ⟨x, y, z⟩ := sil hq (hsil e hq)
    exact ⟨hm, x, Or.inl ⟨y, z⟩⟩
  | clash e hbt hp =>
    obtain ⟨s4, e1, e2⟩ := clash_work hr env hbt hp
    rw [e] at e1
    cases e1
    exact ⟨trivial, (exec_ok_lists hr (op := .update [] _ false) trivial e2 hb).1,
      Or.inr ⟨env, cfg.lm, cfg.debug, cfg.log, cfg.useGnc, cfg.fixPrev, cfg.biasOdom, s', _, e2, ⟨rfl, fun _ => rfl⟩⟩⟩

theorem Spec.Caught.managed {cfg : Cfg G T N} (hr : cfg.rejection = true) {env : Env G N} (he : env.Ok)
    {h c : List (Op G N)} {s : St G T N} (r : Spec.Caught cfg env h c s) (hm : ∀ op ∈ h, Spec.Managed op) :
    (∀ op ∈ c, Spec.Managed op) ∧ s.nfg = buildGraph env s.pcm := by
  induction r with
  | init => exact ⟨by simp, (buildGraph_init he).symm⟩
  | step _ e ih =>
    obtain ⟨a, b⟩ := ih fun op ho => hm op (by simp [ho])
    obtain ⟨x, y, _⟩ := caught_step hr (hm _ (by simp)) e b
    refine ⟨fun op ho => ?_, y⟩
    rcases List.mem_append.1 ho with ho | ho
    · exact a op ho
    · simp at ho; rw [ho]; exact x

theorem Spec.Caught.snoc_inv {cfg : Cfg G T N} {env : Env G N} {h c : List (Op G N)} {o : Op G N} {s : St G T N}
    (r : Spec.Caught cfg env h (c ++ [o]) s) :
    ∃ h' op s0, h = h' ++ [op] ∧ Spec.Caught cfg env h' c s0 ∧ Spec.CaughtStep cfg env s0 op s o := by
  generalize hc : c ++ [o] = c' at r
  cases r with
  | init => simp at hc
  | step r e =>
    obtain ⟨h1, h2⟩ := List.append_inj' hc rfl
    subst h1
    injection h2 with h2 _
    subst h2
    exact ⟨_, _, _, rfl, r, e⟩

theorem sameCalls_odom {cfg : Cfg G T N} {h1 h2 : List (Op G N)} (h : Spec.SameCalls h1 h2) :
    Spec.odomSoFar cfg h1 = Spec.odomSoFar cfg h2 := by
  have snoc : ∀ (h : List (Op G N)) op, Spec.odomSoFar cfg (h ++ [op]) = Spec.odomSoFar cfg h ++ Spec.opOdom cfg op := by
    intro h op; unfold Spec.odomSoFar; simp
  have sil : ∀ {o : Op G N}, Spec.Silent o → Spec.opOdom cfg o = [] := by
    intro o ho
    cases o <;> first | exact ho.elim | rfl
  induction h with
  | nil => rfl
  | both _ ho ih =>
    rw [snoc, snoc, ih]
    rcases ho with rfl | ⟨b, h1, h2⟩ | ⟨c, x, y, rfl, rfl⟩
    · rfl
    · unfold Spec.opOdom; rw [h1, h2]
    · rfl
  | left _ ho ih => rw [snoc, sil ho, List.append_nil, ih]
  | right _ ho ih => rw [snoc, sil ho, List.append_nil, ih]

/-- A run with caught exceptions and a run without, with the calls that stand for it. -/
theorem caught_alike {cfg : Cfg G T N} (hr : cfg.rejection = true) {e1 e2 : Env G N} (he1 : e1.Ok) (a b c d e f : Bool)
    {h c1 c2 : List (Op G N)} (hc : Spec.SameCalls c1 c2) (hm : ∀ o ∈ h, Spec.Managed o) (hg : Spec.StartsGiven cfg c1)
    {s1 s2 : St G T N} (r1 : Spec.Caught cfg e1 h c1 s1) (r2 : ReachOk (cfg.withOpt a b c d e f) e2 c2 s2) : Alike s1 s2 := by
  induction hc generalizing h s1 s2 with
  | nil =>
    have k1 : s1 = St.init := by
      generalize hh : ([] : List (Op G N)) = h' at r1
      cases r1 with
      | init => rfl
      | step => simp at hh
    have k2 : s2 = St.init := by
      generalize hh : ([] : List (Op G N)) = h' at r2
      cases r2 with
      | init => rfl
      | step => simp at hh
    rw [k1, k2]
    exact ⟨rfl, fun _ => rfl⟩
  | @both c1 c2 o1 o2 hsc ho ih =>
    obtain ⟨h', op, t1, rfl, r1, st⟩ := r1.snoc_inv
    obtain ⟨t2, x2, r2, x2'⟩ := r2.snoc_inv
    have hm' : ∀ o ∈ h', Spec.Managed o := fun o ho => hm o (by simp [ho])
    have hs := ih hm' (StartsGiven.init hg) r1 r2
    obtain ⟨mo, _, hst⟩ := caught_step hr (hm op (by simp)) st (r1.managed hr he1 hm').2
    rcases hst with ⟨hq, ha⟩ | ⟨e3, a3, b3, c3, d3, g3, f3, s3, r, e4, ha⟩
    · have ho' : o2 = o1 := by
        rcases ho with rfl | ⟨y, h1, h2⟩ | ⟨ch, x, y, rfl, rfl⟩
        · rfl
        · cases o1 <;> first | exact hq.elim | cases h1
        · exact hq.elim
      subst ho'
      have := exec_silent (cfg := cfg.withOpt a b c d e f) (env := e2) hq t2
      rw [x2'] at this
      have this : Sim t2 s2 := this
      exact ha.symm.trans (hs.trans ⟨this.pcm, this.has⟩)
    · refine ha.trans (exec_alike (cfg := cfg.withOpt a3 b3 c3 d3 g3 f3) hr e3 e2 a b c d e f ho mo hs ?_ _ _ _ _ e4 x2').1
      intro fs vs fs1 b fs2 hb hf ho
      rcases hg c1 o1 [] fs vs fs1 b fs2 rfl hb hf ho with h | ⟨b', hb', hc⟩
      · exact Or.inl h
      · rcases List.mem_append.1 hb' with hb' | hb'
        · right; left
          rw [← hc, hs.pcm]
          refine r2.hasTraj (cfg := cfg.withOpt a _ c d e f) hr b' ?_
          rw [sameCalls_odom hsc] at hb'
          exact hb'
        · exact Or.inr (Or.inr ⟨b', hb', hc⟩)
  | @left c1 c2 o _ ho ih =>
    obtain ⟨h', op, t1, rfl, r1, st⟩ := r1.snoc_inv
    have hm' : ∀ o ∈ h', Spec.Managed o := fun o ho => hm o (by simp [ho])
    have hs := ih hm' (StartsGiven.init hg) r1 r2
    obtain ⟨mo, _, hst⟩ := caught_step hr (hm op (by simp)) st (r1.managed hr he1 hm').2
    rcases hst with ⟨hq, ha⟩ | ⟨e3, a3, b3, c3, d3, g3, f3, s3, r, e4, ha⟩
    · exact ha.symm.trans hs
    · have := exec_silent (cfg := cfg.withOpt a3 b3 c3 d3 g3 f3) (env := e3) ho t1
      rw [e4] at this
      have this : Sim t1 s3 := this
      exact ha.trans ((Alike.symm ⟨this.pcm, this.has⟩).trans hs)
  | @right c1 c2 o _ ho ih =>
    obtain ⟨t2, x2, r2, x2'⟩ := r2.snoc_inv
    have hs := ih hm hg r1 r2
    have := exec_silent (cfg := cfg.withOpt a b c d e f) (env := e2) ho t2
    rw [x2'] at this
    have this : Sim t2 s2 := this
    exact hs.trans ⟨this.pcm, this.has⟩

end RPGO

namespace RPGO.Props
open RPGO

section
variable {G T N : Type} [Mul G] [Inv G] [One G]

/-- C71, failed optimization (with and without outlier rejection): when the update without optimization succeeds and the
call throws, the solver is in exactly the state in which the update without optimization leaves it, estimate and weights
included; so the history goes on as if that had been called. Excluded are the exceptions thrown after the optimizer has
returned: by an optimizer result of another type than the stored value, and by logging. -/
theorem C71_failed_optimization {cfg : Cfg G T N} {env : Env G N} {h : List (Op G N)} {s s1 s' : St G T N} {r : Ret} {x : Exn}
    (hs : ReachOk cfg env h s) {op : Op G N} {fs : Graph G N} {vs : Vals G} (hb : Spec.batch op = some (fs, vs))
    (h1 : exec cfg env (.update fs vs false) s = .ok s1 r) (h2 : exec cfg env op s = .throw s' x)
    (hx : x ≠ .wrongType) (hl : x ≠ .invalidArg) : s' = s1 ∧ ReachOk cfg env (h ++ [.update fs vs false]) s' := by
  have key : s' = s1 := by
    obtain ⟨_, d, hw⟩ := exec_work.1 h1
    rcases exec_work_throw hb h2 with h' | ⟨s2, d', hw', h'⟩
    · rw [hw] at h'; cases h'
    · rw [hw] at hw'
      cases hw'
      rcases h' with h' | ⟨_, _, h'⟩
      · exact optimize_throw h' hx
      · exact absurd (logStatus_throw h') hl
  exact ⟨key, by rw [key]; exact hs.step h1⟩

/-- C71, refused update: with outlier rejection, an update with a key that is known already, or given twice, throws "key
exists" and leaves the solver in exactly the state in which an update with the values before that key and no factors
leaves it; so the history goes on as if that had been called. -/
theorem C71_refused {cfg : Cfg G T N} (hr : cfg.rejection = true) {env : Env G N} {h : List (Op G N)} {s : St G T N}
    (hs : ReachOk cfg env h s) {op : Op G N} {fs : Graph G N} {vs : Vals G} (hb : Spec.batch op = some (fs, vs))
    (hk : (∃ k ∈ vs.keys, k ∈ s.values.keys) ∨ ¬ vs.keys.Nodup) :
    ∃ pre s', Spec.BeforeClash s vs pre ∧ exec cfg env op s = .throw s' .keyExists ∧
      ReachOk cfg env (h ++ [.update [] pre false]) s' := by
  obtain ⟨v', hv⟩ := insertVals_dup hk
  obtain ⟨pre, hp, _⟩ := beforeClash_of hv
  obtain ⟨s', e1, e2⟩ := clash_work hr env hb hp
  exact ⟨pre, s', hp, e1, hs.step e2⟩

/-- C71, refused update without outlier rejection: the factors stay as well (`[none]`, a single empty factor slot, is
excluded because the update without the key is then undefined). -/
theorem C71_refused_plain {cfg : Cfg G T N} (hr : cfg.rejection = false) {env : Env G N} {h : List (Op G N)} {s : St G T N}
    (hs : ReachOk cfg env h s) {op : Op G N} {fs : Graph G N} {vs : Vals G} (hb : Spec.batch op = some (fs, vs))
    (hn : fs ≠ [none]) (hk : (∃ k ∈ vs.keys, k ∈ s.values.keys) ∨ ¬ vs.keys.Nodup) :
    ∃ pre s', Spec.BeforeClash s vs pre ∧ exec cfg env op s = .throw s' .keyExists ∧
      ReachOk cfg env (h ++ [.update fs pre false]) s' := by
  obtain ⟨v', hv⟩ := insertVals_dup hk
  obtain ⟨pre, hp, hv'⟩ := beforeClash_of hv
  have hmod : (M.modify fun s : St G T N => { s with nfg := s.nfg ++ fs }) s = .ok { s with nfg := s.nfg ++ fs } () := rfl
  have h1 : addAndCheck fs vs s = .throw { s with values := v', nfg := s.nfg ++ fs } .keyExists := by
    unfold addAndCheck
    simp only [M.bind_eq]
    rw [M.bind_ok hmod]
    refine M.bind_throw ?_
    unfold onValues M.zoom
    rw [hv]
  have h2 : ∃ d, addAndCheck fs pre s = .ok { s with values := v', nfg := s.nfg ++ fs } d := by
    unfold addAndCheck
    simp only [M.bind_eq]
    rw [M.bind_ok hmod]
    have h3 : (onValues (insertVals pre) : M (St G T N) Unit) { s with nfg := s.nfg ++ fs } =
        .ok { s with values := v', nfg := s.nfg ++ fs } () := by
      unfold onValues M.zoom
      rw [hv']
    rw [M.bind_ok h3]
    match fs, hn with
    | [], _ => exact ⟨_, rfl⟩
    | [none], hn => exact absurd rfl hn
    | [some f], _ => exact ⟨_, rfl⟩
    | none :: _ :: _, _ => exact ⟨_, rfl⟩
    | some _ :: _ :: _, _ => exact ⟨_, rfl⟩
  refine ⟨pre, _, hp, ?_, hs.step (r := .unit) (s' := { s with values := v', nfg := s.nfg ++ fs }) (exec_work.2 ⟨rfl, ?_⟩)⟩
  · cases op <;> simp only [Spec.batch, Option.some.injEq, Prod.mk.injEq, reduceCtorEq] at hb
    · obtain ⟨rfl, rfl⟩ := hb
      refine M.bind_throw ?_
      unfold update
      rw [cond_false hr]
      exact M.bind_throw h1
    · obtain ⟨rfl, rfl⟩ := hb
      refine M.bind_throw ?_
      unfold forceUpdate
      rw [cond_false hr]
      exact M.bind_throw h1
  · unfold batchWork
    rw [cond_false hr]
    exact h2

/-- C71 (part): a solver whose exceptions were caught in any number of calls - optimizers or averaging that failed,
queries that failed, updates refused because of a known key - holds, registers, accepts and counts the same as a solver
that got the calls that stand for what they have done (`Spec.CaughtStep`) and in which nothing failed, whatever its
optimizers and visiting orders; under the conditions of C70. Missing: other exceptions, for which it is false, see
`C71_false_out_of_range`. -/
theorem C71_caught_partial {cfg : Cfg G T N} (hr : cfg.rejection = true) {e1 e2 : Env G N} (he1 : e1.Ok) (he2 : e2.Ok)
    (lm debug log useGnc fixPrev biasOdom : Bool) {h c c2 : List (Op G N)} (hm : ∀ op ∈ h, Spec.Managed op)
    (hc : Spec.SameCalls c c2) (hm2 : ∀ op ∈ c2, Spec.Managed op) (hg : Spec.StartsGiven cfg c) {s1 s2 : St G T N}
    (r1 : Spec.Caught cfg e1 h c s1) (r2 : ReachOk (cfg.withOpt lm debug log useGnc fixPrev biasOdom) e2 c2 s2) :
    Spec.SameUpToOrder cfg (cfg.withOpt lm debug log useGnc fixPrev biasOdom) e1 e2 s1 s2 := by
  have hs := caught_alike hr he1 lm debug log useGnc fixPrev biasOdom hc hm hg r1 r2
  refine sameUpToOrder' (c2 := cfg.withOpt lm debug log useGnc fixPrev biasOdom) he1 he2 hr hr (r1.managed hr he1 hm).2
    (r2.lists (cfg := cfg.withOpt lm debug log useGnc fixPrev biasOdom) he2 hr hm2).1 r1.reach r2.reach (by rw [hs.pcm]; exact Twin.refl _) fun k => ?_
  rw [KMap.mem_keys_iff, KMap.mem_keys_iff, hs.has]

/-- The calls that stand for a run are themselves calls the solver could get: they are managed, there are as many, and
each is the call made or an update without factors. -/
theorem C71_stand_in {cfg : Cfg G T N} {env : Env G N} {h c : List (Op G N)} {s : St G T N} (r : Spec.Caught cfg env h c s) :
    List.Forall₂ (fun op o => o = op ∨ ∃ fs vs pre, Spec.batch op = some (fs, vs) ∧ pre <+: vs ∧ o = .update [] pre false) h c := by
  induction r with
  | init => exact .nil
  | step _ e ih =>
    refine List.rel_append ih (.cons ?_ .nil)
    cases e with
    | returned _ => exact Or.inl rfl
    | numerics _ _ => exact Or.inl rfl
    | query _ _ => exact Or.inl rfl
    | clash _ hb hp =>
      obtain ⟨k, y, suf, e, _⟩ := hp
      exact Or.inr ⟨_, _, _, hb, ⟨_, e.symm⟩, rfl⟩

end

/-- Optimizers that always fail. -/
def failing : Env Demo.Z Demo.Ns := { Demo.env with opt := fun _ _ => none, gnc := fun _ _ _ _ => none }

theorem failing_ok : failing.Ok := ⟨fun _ => List.Perm.refl _, fun _ => List.Perm.refl _⟩

/-- Odometry, with a forced optimization. -/
def q0 : Op Demo.Z Demo.Ns :=
  .forceUpdate [Demo.edge (Demo.a 0) (Demo.a 1) 1, Demo.edge (Demo.a 1) (Demo.a 2) 1]
    [Demo.pose (Demo.a 0) 0, Demo.pose (Demo.a 1) 1, Demo.pose (Demo.a 2) 2]

/-- The values of an update, the second one for a key that is known. -/
def v1 : Vals Demo.Z := [Demo.pose (Demo.a 9) 9, Demo.pose (Demo.a 2) 2, Demo.pose (Demo.a 3) 3]
def q1 : Op Demo.Z Demo.Ns := .update [Demo.edge (Demo.a 2) (Demo.a 3) 1] v1 true

/-- A closure. -/
def q2 : Op Demo.Z Demo.Ns := .update [Demo.edge (Demo.a 0) (Demo.a 2) 2] [] true

/-- What `q1` does. -/
def q1' : Op Demo.Z Demo.Ns := .update [] [Demo.pose (Demo.a 9) 9] false

/-- Does it throw `x` and leave a state in which `P` holds? -/
def throwsThen {σ α : Type} (x : Exn) (P : σ → Bool) : Out σ α → Bool
  | .throw s y => decide (y = x) && P s
  | _ => false

/-- Does it return normally? -/
def returns {σ α : Type} : Out σ α → Bool
  | .ok _ _ => true
  | _ => false

theorem throwsThen_iff {σ α : Type} {x : Exn} {P : σ → Bool} {o : Out σ α} (h : throwsThen x P o = true) :
    ∃ s, o = .throw s x ∧ P s = true := by
  cases o with
  | throw s y =>
    unfold throwsThen at h
    simp only [Bool.and_eq_true, decide_eq_true_eq] at h
    exact ⟨s, by rw [h.1], h.2⟩
  | ok _ _ => cases h
  | ub _ => cases h

theorem returns_ok {σ α : Type} {o : Out σ α} (h : returns o = true) : ∃ s r, o = .ok s r := by
  cases o with
  | ok s r => exact ⟨s, r, rfl⟩
  | throw _ _ => cases h
  | ub _ => cases h

set_option maxRecDepth 100000 in
/-- The troubled run. -/
theorem troubled_run : ∃ s1 s2 s3, exec Demo.cfg failing q0 St.init = .throw s1 .optimizer ∧
    exec Demo.cfg failing q1 s1 = .throw s2 .keyExists ∧
    exec Demo.cfg failing q2 s2 = .throw s3 .optimizer ∧
    s1.values.keys = [Demo.a 0, Demo.a 1, Demo.a 2] ∧
    returns (exec Demo.cfg Demo.env q0 St.init) = true ∧
    returns (exec Demo.cfg Demo.env q2 s2) = true := by
  have h : throwsThen .optimizer (fun s1 => decide (s1.values.keys = [Demo.a 0, Demo.a 1, Demo.a 2]) &&
      throwsThen .keyExists (fun s2 => returns (exec Demo.cfg Demo.env q2 s2) &&
        throwsThen .optimizer (fun _ => true) (exec Demo.cfg failing q2 s2))
        (exec Demo.cfg failing q1 s1))
      (exec Demo.cfg failing q0 St.init) = true := by decide +kernel
  have h0 : returns (exec Demo.cfg Demo.env q0 St.init) = true := by decide +kernel
  obtain ⟨s1, e1, h⟩ := throwsThen_iff h
  rw [Bool.and_eq_true] at h
  obtain ⟨s2, e2, h2⟩ := throwsThen_iff h.2
  rw [Bool.and_eq_true] at h2
  obtain ⟨s3, e3, _⟩ := throwsThen_iff h2.2
  exact ⟨s1, s2, s3, e1, e2, e3, of_decide_eq_true h.1, h0, h2.1⟩

set_option maxRecDepth 100000 in
/-- The hypotheses are met: three calls that all throw, and what they have done with an optimizer that works. -/
example : ∃ s1 s2, Spec.Caught Demo.cfg failing [q0, q1, q2] [q0, q1', q2] s1 ∧ ReachOk Demo.cfg Demo.env [q0, q1', q2] s2 ∧
    (∀ op ∈ [q0, q1, q2], Spec.Managed op) ∧ (∀ op ∈ [q0, q1', q2], Spec.Managed op) ∧ Spec.SameCalls [q0, q1', q2] [q0, q1', q2] ∧
    Spec.StartsGiven Demo.cfg [q0, q1', q2] ∧ (Spec.selected s2 ⟨97, 97⟩).length = 1 := by
  obtain ⟨s2, r2, h2⟩ := Demo.runs_reach (cfg := Demo.cfg) (env := Demo.env) (ops := [q0, q1', q2])
    (P := fun s => decide ((Spec.selected s ⟨97, 97⟩).length = 1)) (by decide +kernel)
  obtain ⟨t1, t2, t3, e1, e2, e3, hk, n1, n3⟩ := troubled_run
  refine ⟨t3, s2, ?_, r2, ?_, ?_, .both (h1 := [_, _]) (h2 := [_, _]) (.both (h1 := [_]) (h2 := [_]) (.both (h1 := []) (h2 := []) .nil (Or.inl rfl)) (Or.inl rfl)) (Or.inl rfl),
    starts_sound (by decide +kernel), of_decide_eq_true h2⟩
  · have hn : ∀ {op : Op Demo.Z Demo.Ns} {s : St Demo.Z Demo.Tp Demo.Ns}, returns (exec Demo.cfg Demo.env op s) = true → Spec.OnlyNumerics Demo.cfg op s := by
      intro op s h
      obtain ⟨s', r, e⟩ := returns_ok h
      exact ⟨Demo.env, Demo.cfg.lm, Demo.cfg.debug, Demo.cfg.log, Demo.cfg.useGnc, Demo.cfg.fixPrev, Demo.cfg.biasOdom, s', r, e⟩
    refine ((Spec.Caught.init.step (.numerics e1 (hn n1))).step (.clash e2 rfl (pre := [Demo.pose (Demo.a 9) 9]) ?_)).step (.numerics e3 (hn n3))
    refine ⟨Demo.a 2, .pose (Demo.z 2), [Demo.pose (Demo.a 3) 3], rfl, Or.inl ?_, by decide +kernel, ?_⟩
    · rw [hk]; exact List.mem_cons_of_mem _ (List.mem_cons_of_mem _ (List.mem_cons_self ..))
    · intro j hj
      have hj : j = Demo.a 9 := List.mem_singleton.1 hj
      rw [hk, hj]
      decide +kernel
  · intro op ho; simp at ho; rcases ho with rfl | rfl | rfl <;> trivial
  · intro op ho; simp at ho; rcases ho with rfl | rfl | rfl <;> trivial

set_option maxRecDepth 100000 in
/-- The hypotheses of `C71_failed_optimization` are met by the first of those calls. -/
example : ∃ s1 s' r, exec Demo.cfg failing (.update [Demo.edge (Demo.a 0) (Demo.a 1) 1, Demo.edge (Demo.a 1) (Demo.a 2) 1]
      [Demo.pose (Demo.a 0) 0, Demo.pose (Demo.a 1) 1, Demo.pose (Demo.a 2) 2] false) St.init = .ok s1 r ∧
    exec Demo.cfg failing q0 St.init = .throw s' .optimizer := by
  obtain ⟨s1, r, e⟩ := returns_ok (o := exec Demo.cfg failing (.update [Demo.edge (Demo.a 0) (Demo.a 1) 1, Demo.edge (Demo.a 1) (Demo.a 2) 1]
      [Demo.pose (Demo.a 0) 0, Demo.pose (Demo.a 1) 1, Demo.pose (Demo.a 2) 2] false) St.init) (by decide +kernel)
  obtain ⟨t1, _, _, e1, _⟩ := troubled_run
  exact ⟨s1, t1, r, e, e1⟩

set_option maxRecDepth 100000 in
/-- The hypotheses of `C71_refused` are met by the second one, after the same run with an optimizer that works. -/
example : ∃ s, ReachOk Demo.cfg Demo.env [q0] s ∧
    ∃ k ∈ v1.keys, k ∈ s.values.keys := by
  obtain ⟨s, r, h⟩ := Demo.runs_reach (cfg := Demo.cfg) (env := Demo.env) (ops := [q0])
    (P := fun s => decide (Demo.a 2 ∈ s.values.keys)) (by decide +kernel)
  exact ⟨s, r, Demo.a 2, by decide, of_decide_eq_true h⟩

set_option maxRecDepth 100000 in
/-- The same without outlier rejection. -/
example : demoPlain.rejection = false ∧ ∃ s, ReachOk demoPlain Demo.env [q0] s ∧ ∃ k ∈ v1.keys, k ∈ s.values.keys := by
  obtain ⟨s, r, h⟩ := Demo.runs_reach (cfg := demoPlain) (env := Demo.env) (ops := [q0])
    (P := fun s => decide (Demo.a 2 ∈ s.values.keys)) (by decide +kernel)
  exact ⟨by decide +kernel, s, r, Demo.a 2, by decide, of_decide_eq_true h⟩

set_option maxRecDepth 100000 in
/-- C71 is false of the exception of C27: the update that throws has stored its odometry factor, which stays out of the
graph; the next update puts it there, although that update does not have it; and the update made again throws, because
the values were kept. -/
theorem C71_false_out_of_range : ∃ s s1 s2 s3 r, ReachOk Demo.cfg Demo.env added_and_removed s ∧
    exec Demo.cfg Demo.env (.update [Demo.edge (Demo.b 1) (Demo.b 2) 1, Demo.edge (Demo.a 0) (Demo.b 1) 1] [Demo.pose (Demo.b 2) 2] true) s =
      .throw s1 .outOfRange ∧
    exec Demo.cfg Demo.env (.update [Demo.edge (Demo.b 1) (Demo.b 2) 1, Demo.edge (Demo.a 0) (Demo.b 1) 1] [Demo.pose (Demo.b 2) 2] true) s1 =
      .throw s3 .keyExists ∧
    exec Demo.cfg Demo.env (.update [Demo.edge (Demo.b 2) (Demo.b 3) 1] [Demo.pose (Demo.b 3) 3] true) s1 = .ok s2 r ∧
    s1.nfg = s.nfg ∧ Demo.edge (Demo.b 1) (Demo.b 2) 1 ∉ s1.nfg ∧ Demo.edge (Demo.b 1) (Demo.b 2) 1 ∈ s2.nfg := by
  obtain ⟨s, r, h⟩ := Demo.runs_reach (cfg := Demo.cfg) (env := Demo.env) (ops := added_and_removed)
    (P := fun s => match exec Demo.cfg Demo.env (.update [Demo.edge (Demo.b 1) (Demo.b 2) 1, Demo.edge (Demo.a 0) (Demo.b 1) 1] [Demo.pose (Demo.b 2) 2] true) s with
      | .throw s1 x => decide (x = .outOfRange) &&
        throwsThen .keyExists (fun _ => true)
          (exec Demo.cfg Demo.env (.update [Demo.edge (Demo.b 1) (Demo.b 2) 1, Demo.edge (Demo.a 0) (Demo.b 1) 1] [Demo.pose (Demo.b 2) 2] true) s1) &&
        (match exec Demo.cfg Demo.env (.update [Demo.edge (Demo.b 2) (Demo.b 3) 1] [Demo.pose (Demo.b 3) 3] true) s1 with
        | .ok s2 _ => decide (s1.nfg = s.nfg) && decide (Demo.edge (Demo.b 1) (Demo.b 2) 1 ∉ s1.nfg) &&
            decide (Demo.edge (Demo.b 1) (Demo.b 2) 1 ∈ s2.nfg)
        | _ => false)
      | _ => false) (by decide +kernel)
  cases e1 : exec Demo.cfg Demo.env (.update [Demo.edge (Demo.b 1) (Demo.b 2) 1, Demo.edge (Demo.a 0) (Demo.b 1) 1] [Demo.pose (Demo.b 2) 2] true) s with
  | ok _ _ => rw [e1] at h; cases h
  | ub _ => rw [e1] at h; cases h
  | throw s1 x =>
    rw [e1] at h
    simp only [Bool.and_eq_true, decide_eq_true_eq] at h
    obtain ⟨⟨rfl, h1⟩, h2⟩ := h
    obtain ⟨s3, h1, _⟩ := throwsThen_iff h1
    cases e2 : exec Demo.cfg Demo.env (.update [Demo.edge (Demo.b 2) (Demo.b 3) 1] [Demo.pose (Demo.b 3) 3] true) s1 with
    | throw _ _ => rw [e2] at h2; cases h2
    | ub _ => rw [e2] at h2; cases h2
    | ok s2 r2 =>
      rw [e2] at h2
      simp only [Bool.and_eq_true, decide_eq_true_eq] at h2
      exact ⟨s, s1, s2, s3, r2, r, e1, h1, e2, h2.1.1, h2.1.2, h2.2⟩

end RPGO.Props
