import Verif.Props.Failure
import Verif.Props.Tools
import Verif.Props.OptExact
/-
C85 for calls that optimize.
-/

namespace RPGO
variable {G T N : Type}

namespace Spec

/-- A temporary value has a key that has a value `v` already, or two temporary values have the same key (which the value
container of the code excludes). -/
def TempClash (v temp : Vals G) : Prop := ¬ temp.keys.Nodup ∨ ∃ k ∈ temp.keys, k ∈ v.keys

end Spec

section
variable [Mul G] [Inv G] [One G]

/-- Writing back a result in which every key is a key of the estimate or of the temporary values. -/
theorem applyResult_split (r : Vals G) (s : St G T N)
    (h : ∀ e ∈ r, ∃ y, (s.values.find? e.1 = some y ∨ (s.values.find? e.1 = none ∧ s.tempValues.find? e.1 = some y)) ∧
      y.sameType e.2 = true) : ∃ s', applyResult r s = .ok s' () := by
  induction r generalizing s with
  | nil => exact ⟨s, rfl⟩
  | cons e t ih =>
    obtain ⟨k, v⟩ := e
    obtain ⟨y, hy, hs⟩ := h (k, v) (by simp)
    simp only at hy hs
    have hty : ∀ {y1 y2 y3 : Val G}, y1.sameType y2 = true → y1.sameType y3 = true → y2.sameType y3 = true := by
      intro y1 y2 y3
      cases y1 <;> cases y2 <;> cases y3 <;> simp [Val.sameType]
    rcases hy with hy | ⟨hn, hy⟩
    · have e1 : applyResult ((k, v) :: t) s = applyResult t { s with values := s.values.set k v } := by
        show (match s.values.find? k with | some v' => _ | none => _) = _
        rw [hy]
        simp only [hs, if_true]
      rw [e1]
      refine ih _ fun e he => ?_
      obtain ⟨z, hz, hzs⟩ := h e (by simp [he])
      simp only [KMap.find?_set]
      by_cases hk : k = e.1
      · rw [← hk, hy] at hz
        rcases hz with hz | ⟨hz, -⟩
        · cases hz
          exact ⟨v, by simp [hk], hty hs hzs⟩
        · cases hz
      · exact ⟨z, by simpa [hk] using hz, hzs⟩
    · have e1 : applyResult ((k, v) :: t) s = applyResult t { s with tempValues := s.tempValues.set k v } := by
        show (match s.values.find? k with | some v' => _ | none => _) = _
        rw [hn]
        simp only
        rw [hy]
        simp only [hs, if_true]
      rw [e1]
      refine ih _ fun e he => ?_
      obtain ⟨z, hz, hzs⟩ := h e (by simp [he])
      simp only [KMap.find?_set]
      by_cases hk : k = e.1
      · rw [← hk, hn, hy] at hz
        rcases hz with hz | ⟨-, hz⟩
        · cases hz
        · cases hz
          exact ⟨v, Or.inr ⟨hk ▸ hn, if_pos hk⟩, hty hs hzs⟩
      · exact ⟨z, by simpa [hk] using hz, hzs⟩

/-- How an optimization ends if the optimizers return. -/
theorem optimize_outcome {cfg : Cfg G T N} {env : Env G N} {s : St G T N} (hr : cfg.rejection = true)
    (hf : useGncNow cfg s = false → ∃ g, plainGraph cfg s = .ok s g)
    (hw : env.Works) (hv : s.values.Sorted) (hl : useGncNow cfg s = false → s.latest ≤ s.gncW.length)
    (hl' : useGncNow cfg s = false → s.latest ≤ s.nfg.length)
    (hk : s.pcm.odom.length + s.pcm.special.length ≤ s.nfg.length) :
    (Spec.TempClash s.values s.tempValues → optimize cfg env s = .throw s .keyExists) ∧
    (¬ Spec.TempClash s.values s.tempValues → ∃ s', optimize cfg env s = .ok s' ()) := by
  constructor
  · intro hc
    obtain ⟨v', e⟩ := Props.insertVals_dup (vs := s.tempValues) (v := s.values) (by
      rcases hc with h | ⟨k, h1, h2⟩
      · exact Or.inr h
      · exact Or.inl ⟨k, h1, h2⟩)
    have hm : mergeVals s.values s.tempValues = none := by unfold mergeVals; rw [e]
    unfold optimize
    simp only [M.bind_eq]
    rw [M.bind_ok (M.get_apply _), hm]
    rfl
  intro hc
  unfold Spec.TempClash at hc
  push Not at hc
  obtain ⟨full, e⟩ := insertVals_total (vs := s.tempValues) (v := s.values) (fun k hk => by
    cases hx : s.values.has k with
    | false => rfl
    | true => exact absurd ((KMap.mem_keys_iff _ _).2 hx) (hc.2 k hk)) hc.1
  have hm : mergeVals s.values s.tempValues = some full := by unfold mergeVals; rw [e]
  have hfind : ∀ k, full.find? k = if s.values.has k = true then s.values.find? k else s.tempValues.find? k := (insertVals_ok e).1
  have hsrt : full.Sorted := merge_sorted hm hv
  have hsplit : ∀ (res : Vals G) (s1 : St G T N), s1.values = s.values → s1.tempValues = s.tempValues →
      (∀ e ∈ res, ∃ y, full.find? e.1 = some y ∧ y.sameType e.2 = true) → ∃ s', applyResult res s1 = .ok s' () := by
    intro res s1 h1 h2 h3
    refine applyResult_split res s1 fun e he => ?_
    obtain ⟨y, hy, hs⟩ := h3 e he
    refine ⟨y, ?_, hs⟩
    rw [h1, h2]
    rw [hfind] at hy
    unfold KMap.has at hy
    cases hx : s.values.find? e.1 with
    | none => rw [hx] at hy; exact Or.inr ⟨rfl, by simpa using hy⟩
    | some z => rw [hx] at hy; exact Or.inl (by simpa using hy)
  unfold optimize
  simp only [M.bind_eq]
  rw [M.bind_ok (M.get_apply _), hm]
  simp only
  have key : ∀ s1 res, s1.values = s.values → s1.tempValues = s.tempValues →
      (∀ e ∈ res, ∃ y, full.find? e.1 = some y ∧ y.sameType e.2 = true) →
      M.cond (useGncNow cfg s) (gncOptimize cfg env full) (plainOptimize cfg env full) s = .ok s1 res →
      ∃ s', M.bind (M.cond (useGncNow cfg s) (gncOptimize cfg env full) (plainOptimize cfg env full)) (fun result =>
        M.bind (applyResult result) fun _ => M.when cfg.rejection (M.modify fun s => { s with latest := s.pcm.totalLc })) s
          = .ok s' () := by
    intro s1 res h1 h2 h3 h4
    rw [M.bind_ok h4]
    obtain ⟨s2, e⟩ := hsplit res s1 h1 h2 h3
    rw [M.bind_ok e, hr]
    exact ⟨{ s2 with latest := s2.pcm.totalLc }, rfl⟩
  by_cases hu : useGncNow cfg s = true
  · obtain ⟨res, w, hg, hkeep, hlen⟩ := hw.gnc (s.nfg ++ s.tempNfg) full hsrt
      (List.range (s.pcm.odom.length + s.pcm.special.length))
      (if cfg.biasOdom then some (List.replicate (List.range (s.pcm.odom.length + s.pcm.special.length)).length 1 ++
        List.replicate ((s.nfg ++ s.tempNfg).length - (List.range (s.pcm.odom.length + s.pcm.special.length)).length) 0) else none)
    refine key { s with
        gncW := w.take s.nfg.length
        gncTW := w.drop (w.length - s.tempNfg.length)
        gncNum := inlierCount (w.take s.nfg.length) (List.range (s.pcm.odom.length + s.pcm.special.length)).length }
      res rfl rfl hkeep ?_
    unfold M.cond
    rw [if_pos hu]
    unfold gncOptimize
    simp only [M.bind_eq]
    rw [M.bind_ok (M.get_apply _)]
    rw [if_neg (by simp; intro _; omega), hg]
    simp only
    rw [List.length_append] at hlen
    rw [if_neg (by omega), M.bind_ok (M.modify_apply _ _)]
    rfl
  · have hl := hl (by simpa using hu)
    have hl' := hl' (by simpa using hu)
    obtain ⟨g, e1⟩ := hf (by simpa using hu)
    obtain ⟨res, hg, hkeep⟩ := hw.opt g full hsrt
    refine key { s with
        gncW := List.replicate (s.nfg.length - s.latest) 1 ++ s.gncW.drop (s.gncW.length - s.latest)
        gncTW := List.replicate s.tempNfg.length 1 } res rfl rfl hkeep ?_
    unfold M.cond
    rw [if_neg hu]
    unfold plainOptimize
    simp only [M.bind_eq]
    rw [M.bind_ok e1, hg]
    simp only
    rw [M.bind_ok (M.get_apply _), if_neg (by omega), if_neg (by omega), M.bind_ok (M.modify_apply _ _), hr]
    simp only [Bool.not_true, Bool.and_false, Bool.false_eq_true, if_false]
    rfl

/-- How a call ends whose first phase ended in `s1`. -/
theorem call_outcome {cfg : Cfg G T N} {env : Env G N} (he : env.Ok) (hw : env.Works) (hr : cfg.rejection = true)
    (hf : cfg.fixPrev = false) {h : List (Op G N)} {s : St G T N} (r : ReachOk cfg env h s) {op : Op G N}
    (hm : ∀ o ∈ h ++ [op], Spec.Managed o) (hcov : Spec.Covered cfg (h ++ [op])) {s1 : St G T N} {x : Ret} {o : Bool}
    (e1 : phase1 cfg env op s = .ok s1 (x, o)) (hs : s1.values.Sorted) (hg : logs cfg op = true → g2oOk s1.nfg = true) :
    (Spec.Optimizes cfg op = true → Spec.TempClash s1.values s1.tempValues → exec cfg env op s = .throw s1 .keyExists) ∧
    ((Spec.Optimizes cfg op = true → ¬ Spec.TempClash s1.values s1.tempValues) → ∃ s', exec cfg env op s = .ok s' x) := by
  have hfl := phase1_flag e1
  have ex := exec_phase env hr op
  have hlog : ∀ s2 : St G T N, s2.nfg = s1.nfg → M.when (logs cfg op) (logStatus cfg) s2 = .ok s2 () := by
    intro s2 h2
    cases hlg : logs cfg op with
    | false => rfl
    | true =>
      have a1 : getNumLC cfg s2 = .ok s2 s2.pcm.totalLc := by unfold getNumLC; rw [hr]; rfl
      obtain ⟨n, a2⟩ : ∃ n, getNumLCInliers cfg s2 = .ok s2 n := by
        unfold getNumLCInliers; rw [hr]; cases cfg.useGnc <;> exact ⟨_, rfl⟩
      show logStatus cfg s2 = _
      unfold logStatus
      simp only [M.bind_eq]
      rw [M.bind_ok a1, M.bind_ok a2]
      unfold saveData
      rw [h2, hg hlg]; rfl
  cases o with
  | false =>
    refine ⟨fun h1 => (by rw [← hfl] at h1; cases h1), fun _ => ⟨s1, ?_⟩⟩
    rw [ex, M.bind_ok e1]
    simp only
    rw [M.bind_ok (show M.when false (optimize cfg env) s1 = .ok s1 () from rfl), M.bind_ok (hlog s1 rfl)]
    rfl
  | true =>
    obtain ⟨g1, -, -⟩ := phase1_size he hr r hm e1
    have en := fun hu => r.enough he hr hm hcov e1 hu
    obtain ⟨k1, k2⟩ := optimize_outcome (s := s1) (env := env) hr (fun _ => plainGraph_off hf s1) hw hs (fun hu => (en hu).1)
      (fun hu => (en hu).2) (by rw [g1]; exact (buildGraph_known env s1.pcm).1)
    refine ⟨fun _ hc => ?_, fun hc => ?_⟩
    · rw [ex, M.bind_ok e1]
      exact M.bind_throw (k1 hc)
    · obtain ⟨s2, e2⟩ := k2 (hc hfl.symm)
      refine ⟨s2, ?_⟩
      rw [ex, M.bind_ok e1]
      simp only
      rw [M.bind_ok (show M.when true (optimize cfg env) s1 = .ok s2 () from e2),
        M.bind_ok (hlog s2 ((optimize_frame cfg env).of_ok e2).nfg)]
      rfl

theorem tempClash_iff {v vs v1 : Vals G} (e : insertVals vs v = .ok v1 ()) (temp : Vals G) :
    Spec.TempClash v1 temp ↔ Spec.TempClash (v ++ vs) temp := by
  unfold Spec.TempClash
  refine or_congr Iff.rfl (exists_congr fun k => and_congr Iff.rfl ?_)
  rw [KMap.mem_keys_iff]
  unfold KMap.has
  rw [(insertVals_ok e).1 k]
  have : k ∈ KMap.keys (v ++ vs) ↔ k ∈ v.keys ∨ k ∈ KMap.keys vs := by
    unfold KMap.keys; rw [List.map_append, List.mem_append]
  rw [this, KMap.mem_keys_iff, KMap.mem_keys_iff]
  unfold KMap.has
  cases hq : v.find? k <;> simp [hq]

/-- How merging estimate and temporary values ends, and then writing back a result for the merged keys. -/
theorem merge_outcome (s : St G T N) :
    (Spec.TempClash s.values s.tempValues → mergeVals s.values s.tempValues = none) ∧
    (¬ Spec.TempClash s.values s.tempValues → ∃ full, mergeVals s.values s.tempValues = some full ∧
      ∀ (res : Vals G) (s1 : St G T N), s1.values = s.values → s1.tempValues = s.tempValues →
        (∀ e ∈ res, ∃ y, full.find? e.1 = some y ∧ y.sameType e.2 = true) → ∃ s', applyResult res s1 = .ok s' ()) := by
  constructor
  · intro hc
    obtain ⟨v', e⟩ := Props.insertVals_dup (vs := s.tempValues) (v := s.values) (by
      rcases hc with h | ⟨k, h1, h2⟩
      · exact Or.inr h
      · exact Or.inl ⟨k, h1, h2⟩)
    unfold mergeVals; rw [e]
  intro hc
  unfold Spec.TempClash at hc
  push Not at hc
  obtain ⟨full, e⟩ := insertVals_total (vs := s.tempValues) (v := s.values) (fun k hk => by
    cases hx : s.values.has k with
    | false => rfl
    | true => exact absurd ((KMap.mem_keys_iff _ _).2 hx) (hc.2 k hk)) hc.1
  refine ⟨full, by unfold mergeVals; rw [e], fun res s1 h1 h2 h3 => ?_⟩
  refine applyResult_split res s1 fun e' he => ?_
  obtain ⟨y, hy, hs⟩ := h3 e' he
  refine ⟨y, ?_, hs⟩
  rw [h1, h2]
  rw [(insertVals_ok e).1] at hy
  unfold KMap.has at hy
  cases hx : s.values.find? e'.1 with
  | none => rw [hx] at hy; exact Or.inr ⟨rfl, by simpa using hy⟩
  | some z => rw [hx] at hy; exact Or.inl (by simpa using hy)

/-- The first part of an update without closure rejection, from a state whose estimate has the keys of the history `h`. -/
theorem addAndCheck_outcome {h : List (Op G N)} {s : St G T N} (hkeys : ∀ k, k ∈ s.values.keys ↔ ∃ op ∈ h, k ∈ Spec.opKeys op)
    (fs : Graph G N) (vs : Vals G) :
    (Spec.Clash h vs → ∃ s', addAndCheck fs vs s = .throw s' .keyExists) ∧
    (¬ Spec.Clash h vs → fs = [none] → addAndCheck fs vs s = .ub .nullDeref) ∧
    (¬ Spec.Clash h vs → fs ≠ [none] → ∃ v1, insertVals vs s.values = .ok v1 () ∧
      addAndCheck fs vs s = .ok { s with nfg := s.nfg ++ fs, values := v1 } (Spec.worthwhile fs vs)) := by
  have hmod : (M.modify fun s : St G T N => { s with nfg := s.nfg ++ fs }) s = .ok { s with nfg := s.nfg ++ fs } () := rfl
  have hnew : ¬ Spec.Clash h vs → ∃ v1, insertVals vs s.values = .ok v1 () := by
    intro hcl
    unfold Spec.Clash at hcl
    push Not at hcl
    refine insertVals_total (fun k hk => ?_) hcl.1
    cases hx : s.values.has k with
    | false => rfl
    | true =>
      obtain ⟨op, ho, hko⟩ := (hkeys k).1 ((KMap.mem_keys_iff _ _).2 hx)
      exact absurd hko (hcl.2 k hk op ho)
  have e1 : ∀ v1, insertVals vs s.values = .ok v1 () →
      (onValues (insertVals vs) : M (St G T N) Unit) { s with nfg := s.nfg ++ fs } = .ok { s with nfg := s.nfg ++ fs, values := v1 } () := by
    intro v1 hv
    unfold onValues M.zoom; simp only [hv]
  refine ⟨fun hcl => ?_, fun hcl hfs => ?_, fun hcl hfs => ?_⟩
  · obtain ⟨v', e⟩ := Props.insertVals_dup (vs := vs) (v := s.values) (by
      rcases hcl with h1 | ⟨k, hk, op, hop, hko⟩
      · exact Or.inr h1
      · exact Or.inl ⟨k, hk, (hkeys k).2 ⟨op, hop, hko⟩⟩)
    refine ⟨{ s with nfg := s.nfg ++ fs, values := v' }, ?_⟩
    unfold addAndCheck
    simp only [M.bind_eq]
    rw [M.bind_ok hmod]
    refine M.bind_throw ?_
    unfold onValues M.zoom
    simp only [e]
  · obtain ⟨v1, hv⟩ := hnew hcl
    subst hfs
    unfold addAndCheck
    simp only [M.bind_eq]
    rw [M.bind_ok hmod, M.bind_ok (e1 v1 hv)]
    rfl
  · obtain ⟨v1, hv⟩ := hnew hcl
    refine ⟨v1, hv, ?_⟩
    unfold addAndCheck
    simp only [M.bind_eq]
    rw [M.bind_ok hmod, M.bind_ok (e1 v1 hv)]
    match fs, hfs with
    | [], _ => cases vs <;> rfl
    | [none], h => exact absurd rfl h
    | [some f], _ => rfl
    | none :: g :: t, _ => rfl
    | some f :: g :: t, _ => rfl

end

namespace Props
variable [Mul G] [Inv G] [One G]

/-- C85 for updates that may optimize: `update` with the optimization flag, and `forceUpdate`. If a key is given a second
value, or an odometry factor can be attached nowhere, the call ends as it does without optimization. Otherwise, if it
optimizes and a temporary value has a key that has a value by then, it throws the exception about an existing key.
Otherwise it returns. The optimizers return results; frame alignment asks for what `Spec.Sited` says; previous inliers are not fixed; either every optimization runs GNC, or
the number of closures is bounded as C38 says. -/
theorem C85_optimizing {cfg : Cfg G T N} {env : Env G N} (he : env.Ok) (hw : env.Works) (hr : cfg.rejection = true)
    (hfp : cfg.fixPrev = false) {owner : Key → Chr} {h : List (Op G N)} {s : St G T N}
    (r : ReachOk cfg env h s) (hm : ∀ o ∈ h, Spec.Managed o) (hf : ∀ op ∈ h, ∀ b ∈ Spec.opBtws op, Spec.Fair cfg b)
    (hc : (cfg.loopCheck = false ∧ cfg.incremental = false) ∨ (∀ op ∈ h, ¬ Spec.Removes op) ∨
      ∀ op ∈ h, ∀ b ∈ Spec.opCands cfg op, 2 ≤ (Spec.registered s ⟨chr b.k1, chr b.k2⟩).length)
    (hg : Spec.Grounded cfg owner h) {fs : Graph G N} (hb : ∀ b ∈ Spec.btws fs, Spec.Fair cfg b) (vs : Vals G) {op : Op G N}
    (hop : op = .update fs vs true ∨ op = .forceUpdate fs vs) (hcov : Spec.Covered cfg (h ++ [op]))
    (ha : cfg.align = true → Spec.Sited cfg env owner (h ++ [op])) :
    (Spec.Clash h vs → ∃ s', exec cfg env op s = .throw s' .keyExists) ∧
    (¬ Spec.Clash h vs → (∃ x, Spec.Rootless cfg h s.values fs vs x) → ∃ x s' e, Spec.Rootless cfg h s.values fs vs x ∧
      exec cfg env op s = .throw s' e ∧
      ((e = .keyMissing ∧ Spec.held s.values vs x.k1 = none) ∨ (e = .wrongType ∧ (Spec.held s.values vs x.k1).isSome))) ∧
    (¬ Spec.Clash h vs → (∀ x, ¬ Spec.Rootless cfg h s.values fs vs x) →
      (Spec.Optimizes cfg op = true → Spec.TempClash (s.values ++ vs) s.tempValues →
        ∃ s', exec cfg env op s = .throw s' .keyExists) ∧
      ((Spec.Optimizes cfg op = true → ¬ Spec.TempClash (s.values ++ vs) s.tempValues) →
        ∃ s', exec cfg env op s = .ok s' .unit)) := by
  have hph : ∃ f : Bool → Bool, phase1 cfg env op = (removeOutliers cfg env fs vs).ret fun d => (Ret.unit, f d) := by
    rcases hop with rfl | rfl
    · exact ⟨fun d => d && true, rfl⟩
    · exact ⟨fun _ => true, rfl⟩
  obtain ⟨f, hph⟩ := hph
  have bad : ∀ s' e, removeOutliers cfg env fs vs s = .throw s' e → exec cfg env op s = .throw s' e := by
    intro s' e h1
    rw [exec_phase env hr, hph]
    exact M.bind_throw (M.bind_throw h1)
  obtain ⟨h1, h2, h3⟩ := removeOutliers_outcome hr r (r.reach.tidy hr hf hc) hg hb vs fun hal => (ha hal).replace
    (by rcases hop with rfl | rfl <;> rfl) (by rcases hop with rfl | rfl <;> rfl) (by rcases hop with rfl | rfl <;> rfl)
  refine ⟨fun hx => ?_, fun hx hy => ?_, fun hx hy => ?_⟩
  · obtain ⟨s', e⟩ := h1 hx
    exact ⟨s', bad _ _ e⟩
  · obtain ⟨x, s', e, hx', e', hk⟩ := h2 hx hy
    exact ⟨x, s', e, hx', bad _ _ e', hk⟩
  · obtain ⟨s1, d, e⟩ := h3 hx hy
    have e1 : phase1 cfg env op s = .ok s1 (.unit, f d) := by
      rw [hph]
      show M.bind (removeOutliers cfg env fs vs) _ s = _
      rw [M.bind_ok e]; rfl
    have r1 : ReachOk cfg env (h ++ [.update fs vs false]) s1 := by
      refine r.step (r := .unit) ?_
      show M.bind (update cfg env fs vs false) _ s = _
      have : update cfg env fs vs false s = .ok s1 () := by
        unfold update
        simp only [M.bind_eq]
        rw [RPGO.cond_true hr, M.bind_ok e]
        simp [M.when, M.bind, M.pure]
      rw [M.bind_ok this]
      rfl
    have hm1 : ∀ o ∈ h ++ [.update fs vs false], Spec.Managed o := by
      intro o ho
      rcases List.mem_append.1 ho with ho | ho
      · exact hm o ho
      · rw [List.mem_singleton] at ho; subst ho; trivial
    have hm2 : ∀ o ∈ h ++ [op], Spec.Managed o := by
      intro o ho
      rcases List.mem_append.1 ho with ho | ho
      · exact hm o ho
      · rw [List.mem_singleton] at ho; subst ho
        rcases hop with rfl | rfl <;> trivial
    have hsave := saveData_runs he hr r1 hm1 (by
      intro o ho b hb'
      rcases List.mem_append.1 ho with ho | ho
      · exact (hf o ho b hb').1
      · rw [List.mem_singleton] at ho; subst ho; exact (hb b hb').1)
    have hg2 : g2oOk s1.nfg = true := by
      obtain ⟨s2, x, r2, e2⟩ := hsave.snoc_inv
      cases hq : g2oOk s2.nfg with
      | false =>
        have : exec cfg env .saveData s2 = .throw s2 .invalidArg := by
          show M.bind saveData _ s2 = _
          refine M.bind_throw ?_
          unfold saveData
          rw [hq]; rfl
        rw [this] at e2; cases e2
      | true =>
        have : exec cfg env .saveData s2 = .ok s2 .unit := by
          show M.bind saveData _ s2 = _
          unfold M.bind saveData
          rw [hq]; rfl
        rw [this] at e2; cases e2
        exact hq
    obtain ⟨k1, k2⟩ := call_outcome he hw hr hfp r hm2 hcov e1 (reach_values r1.reach).1 fun _ => hg2
    have htmp : Spec.TempClash s1.values s1.tempValues ↔ Spec.TempClash (s.values ++ vs) s.tempValues := by
      obtain ⟨v1, hv1, -, hs1⟩ := removeOutliers_ok e
      have hvt : (∀ k, s1.values.has k = v1.has k) ∧ s1.tempValues = s.tempValues := by
        rcases hs1 with ⟨_, rfl⟩ | ⟨_, p1, p2, o', _, _, _, _, ha'⟩
        · exact ⟨fun _ => rfl, rfl⟩
        · have hfr := alignStep_frame cfg env { s with values := v1, pcm := p2, nfg := buildGraph env p2 }
          rw [ha'] at hfr
          have hfr : AlignFrame _ s1 := hfr
          exact ⟨hfr.values.has, by rw [hfr.eq]⟩
      rw [hvt.2, ← tempClash_iff hv1]
      unfold Spec.TempClash
      refine or_congr Iff.rfl (exists_congr fun k => and_congr Iff.rfl ?_)
      rw [KMap.mem_keys_iff, KMap.mem_keys_iff, hvt.1]
    rw [← htmp]
    exact ⟨fun ho ht => ⟨s1, k1 ho ht⟩, k2⟩

/-- C85 for the other calls that optimize and cannot fail before: `removePriorFactorsWithPrefix` with the optimization flag,
`ignorePrefix` and `revivePrefix` fail exactly if a temporary value has a key that has a value already. -/
theorem C85_edits {cfg : Cfg G T N} {env : Env G N} (he : env.Ok) (hw : env.Works) (hr : cfg.rejection = true)
    (hfp : cfg.fixPrev = false) {h : List (Op G N)} {s : St G T N} (r : ReachOk cfg env h s) (hm : ∀ o ∈ h, Spec.Managed o)
    {op : Op G N} (hop : ∃ c, op = .removePriors c true ∨ op = .ignore c ∨ op = .revive c)
    (hcov : Spec.Covered cfg (h ++ [op])) :
    (Spec.TempClash s.values s.tempValues → ∃ s', exec cfg env op s = .throw s' .keyExists) ∧
    (¬ Spec.TempClash s.values s.tempValues → ∃ s', exec cfg env op s = .ok s' .unit) := by
  have hm2 : ∀ o ∈ h ++ [op], Spec.Managed o := by
    intro o ho
    rcases List.mem_append.1 ho with ho | ho
    · exact hm o ho
    · rw [List.mem_singleton] at ho; subst ho
      obtain ⟨c, rfl | rfl | rfl⟩ := hop <;> trivial
  have hs := (reach_values r.reach).1
  obtain ⟨s1, e1, hv, ht⟩ : ∃ s1, phase1 cfg env op s = .ok s1 (.unit, true) ∧ s1.values = s.values ∧ s1.tempValues = s.tempValues := by
    obtain ⟨c, rfl | rfl | rfl⟩ := hop <;> exact ⟨_, rfl, rfl, rfl⟩
  have ho : Spec.Optimizes cfg op = true := (phase1_flag e1).symm
  have hlg : logs cfg op = false := by obtain ⟨c, rfl | rfl | rfl⟩ := hop <;> rfl
  obtain ⟨k1, k2⟩ := call_outcome he hw hr hfp r hm2 hcov e1 (by rw [hv]; exact hs) (by rw [hlg]; simp)
  rw [hv, ht] at k1 k2
  exact ⟨fun hc => ⟨s1, k1 ho hc⟩, fun hc => k2 fun _ => hc⟩

/-- C85 without closure rejection, for updates that may optimize, in the configurations in which this works at all (C39): a
key with a second value, a batch consisting of one empty slot, or, if the call optimizes, a temporary value for a key that
has a value by then; otherwise the call returns. -/
theorem C85_plain_optimizing {cfg : Cfg G T N} {env : Env G N} (hw : env.Works) (hr : cfg.rejection = false)
    (hl : cfg.log = false) (hfp : cfg.fixPrev = false) (hd : cfg.lm = false ∨ cfg.debug = false) {h : List (Op G N)}
    {s : St G T N} (r : ReachOk cfg env h s) (fs : Graph G N) (vs : Vals G) {op : Op G N}
    (hop : op = .update fs vs true ∨ op = .forceUpdate fs vs) :
    (Spec.Clash h vs → ∃ s', exec cfg env op s = .throw s' .keyExists) ∧
    (¬ Spec.Clash h vs → fs = [none] → exec cfg env op s = .ub .nullDeref) ∧
    (¬ Spec.Clash h vs → fs ≠ [none] →
      (Spec.OptimizesPlain op = true → Spec.TempClash (s.values ++ vs) s.tempValues →
        ∃ s', exec cfg env op s = .throw s' .keyExists) ∧
      ((Spec.OptimizesPlain op = true → ¬ Spec.TempClash (s.values ++ vs) s.tempValues) →
        ∃ s', exec cfg env op s = .ok s' .unit)) := by
  have hex : ∃ f : Bool → Bool, (∀ d, d = Spec.worthwhile fs vs → f d = Spec.OptimizesPlain op) ∧
      exec cfg env op = M.bind (addAndCheck fs vs) fun d => M.bind (M.when (f d) (optimize cfg env)) fun _ => M.pure Ret.unit := by
    rcases hop with rfl | rfl
    · refine ⟨fun d => d && true, fun d hd => by rw [hd]; simp [Spec.OptimizesPlain], ?_⟩
      funext s
      show M.bind (update cfg env fs vs true) _ s = _
      unfold update
      simp only [M.bind_eq]
      rw [hl, RPGO.cond_false hr]
      simp only [M.bind]
      cases addAndCheck fs vs s with
      | ok s1 d => simp only; cases M.when (d && true) (optimize cfg env) s1 <;> rfl
      | throw _ _ => rfl
      | ub _ => rfl
    · refine ⟨fun d => true, fun d hd => rfl, ?_⟩
      funext s
      show M.bind (forceUpdate cfg env fs vs) _ s = _
      unfold forceUpdate
      simp only [M.bind_eq]
      rw [hl, RPGO.cond_false hr]
      simp only [M.bind]
      cases addAndCheck fs vs s with
      | ok s1 d => simp only [M.when]; simp only [if_true]; cases optimize cfg env s1 <;> rfl
      | throw _ _ => rfl
      | ub _ => rfl
  obtain ⟨f, hfd, hex⟩ := hex
  obtain ⟨h1, h2, h3⟩ := addAndCheck_outcome (Props.C34_estimate_keys r).1 fs vs
  rw [hex]
  refine ⟨fun hx => ?_, fun hx hy => ?_, fun hx hy => ?_⟩
  · obtain ⟨s', e⟩ := h1 hx
    exact ⟨s', M.bind_throw e⟩
  · unfold M.bind
    rw [h2 hx hy]
  obtain ⟨v1, hv, e⟩ := h3 hx hy
  rw [M.bind_ok e, hfd _ rfl]
  cases ho : Spec.OptimizesPlain op with
  | false => exact ⟨fun h => (by cases h), fun _ => ⟨_, rfl⟩⟩
  | true =>
    rw [← tempClash_iff hv]
    have hlat := (plain_state hr r.reach).2
    obtain ⟨m1, m2⟩ := merge_outcome { s with nfg := s.nfg ++ fs, values := v1 }
    refine ⟨fun _ hc => ?_, fun hc => ?_⟩
    · refine ⟨_, M.bind_throw (s' := { s with nfg := s.nfg ++ fs, values := v1 }) ?_⟩
      show optimize cfg env _ = _
      unfold optimize
      simp only [M.bind_eq]
      rw [M.bind_ok (M.get_apply _), m1 hc]
      rfl
    · obtain ⟨full, hm, happ⟩ := m2 (hc rfl)
      have hsrt : full.Sorted := merge_sorted hm (insert_sorted hv (reach_values r.reach).1)
      have hu : useGncNow cfg { s with nfg := s.nfg ++ fs, values := v1 } = false := by
        unfold useGncNow; rw [hr]; simp
      obtain ⟨g, eg⟩ := plainGraph_off hfp { s with nfg := s.nfg ++ fs, values := v1 }
      obtain ⟨res, hg, hkeep⟩ := hw.opt g full hsrt
      have e2 : ∃ s1 : St G T N, plainOptimize cfg env full { s with nfg := s.nfg ++ fs, values := v1 } = .ok s1 res ∧
          s1.values = v1 ∧ s1.tempValues = s.tempValues := by
        refine ⟨{ s with
            nfg := s.nfg ++ fs
            values := v1
            gncW := List.replicate ((s.nfg ++ fs).length - s.latest) 1 ++ s.gncW.drop (s.gncW.length - s.latest)
            gncTW := List.replicate s.tempNfg.length 1 }, ?_, rfl, rfl⟩
        · unfold plainOptimize
          simp only [M.bind_eq]
          rw [M.bind_ok eg, hg]
          simp only
          rw [M.bind_ok (M.get_apply _), if_neg (by simp [hlat]), if_neg (by simp [hlat]), M.bind_ok (M.modify_apply _ _),
            if_neg (by rcases hd with hd | hd <;> simp [hd])]
          rfl
      obtain ⟨s1, e2, q1, q2⟩ := e2
      obtain ⟨s2, e3⟩ := happ res s1 q1 q2 hkeep
      refine ⟨s2, ?_⟩
      have : optimize cfg env { s with nfg := s.nfg ++ fs, values := v1 } = .ok s2 () := by
        unfold optimize
        simp only [M.bind_eq]
        rw [M.bind_ok (M.get_apply _), hm]
        simp only
        rw [hu, show M.cond false (gncOptimize cfg env full) (plainOptimize cfg env full) = plainOptimize cfg env full from rfl,
          M.bind_ok e2, M.bind_ok e3, hr]
        rfl
      show M.bind (M.when true (optimize cfg env)) _ _ = _
      rw [M.bind_ok (show M.when true (optimize cfg env) _ = .ok s2 () from this)]
      rfl

/-- C85 for the update function of the base class, `GenericSolver::update`, in every reachable state: it fails if an index to
remove is out of range; otherwise if a key gets a second value; otherwise it is undefined if the batch is one empty slot;
otherwise it fails if it optimizes and a temporary value has a key that has a value by then; otherwise it returns. -/
theorem C85_generic {cfg : Cfg G T N} {env : Env G N} (hw : env.Works) {h : List (Op G N)} {s : St G T N}
    (r : ReachOk cfg env h s) (fs : Graph G N) (vs : Vals G) (rm : List Nat) :
    ((∃ i ∈ rm, s.nfg.length ≤ i) → ∃ s', exec cfg env (.genericUpdate fs vs rm) s = .throw s' .outOfRange ∧
      s' = { s with nfg := s'.nfg }) ∧
    ((∀ i ∈ rm, i < s.nfg.length) →
      (Spec.Clash h vs → ∃ s', exec cfg env (.genericUpdate fs vs rm) s = .throw s' .keyExists) ∧
      (¬ Spec.Clash h vs → fs = [none] → exec cfg env (.genericUpdate fs vs rm) s = .ub .nullDeref) ∧
      (¬ Spec.Clash h vs → fs ≠ [none] →
        (Spec.worthwhile fs vs = true ∨ rm ≠ [] → Spec.TempClash (s.values ++ vs) s.tempValues →
          ∃ s', exec cfg env (.genericUpdate fs vs rm) s = .throw s' .keyExists) ∧
        ((Spec.worthwhile fs vs = true ∨ rm ≠ [] → ¬ Spec.TempClash (s.values ++ vs) s.tempValues) →
          ∃ s', exec cfg env (.genericUpdate fs vs rm) s = .ok s' .unit))) := by
  obtain ⟨f1, f2⟩ := removeFactors_eq rm s
  have hex : exec cfg env (.genericUpdate fs vs rm) s = M.bind (genericUpdate env fs vs rm) (fun _ => M.pure Ret.unit) s := rfl
  rw [hex]
  refine ⟨fun hi => ?_, fun hi => ?_⟩
  · obtain ⟨is', i, is'', -, -, -, e⟩ := f2 hi
    exact ⟨_, M.bind_throw (by unfold genericUpdate; exact M.bind_throw e), rfl⟩
  have ef := f1 hi
  obtain ⟨h1, h2, h3⟩ := addAndCheck_outcome (s := { s with nfg := Spec.nulled s.nfg rm }) (Props.C34_estimate_keys r).1 fs vs
  refine ⟨fun hx => ?_, fun hx hy => ?_, fun hx hy => ?_⟩
  · obtain ⟨s', e⟩ := h1 hx
    refine ⟨s', M.bind_throw ?_⟩
    unfold genericUpdate
    simp only [M.bind_eq]
    rw [M.bind_ok ef]
    exact M.bind_throw e
  · have : genericUpdate env fs vs rm s = .ub .nullDeref := by
      unfold genericUpdate
      simp only [M.bind_eq]
      rw [M.bind_ok ef]
      unfold M.bind
      rw [h2 hx hy]
    unfold M.bind
    rw [this]
  obtain ⟨v1, hv, e⟩ := h3 hx hy
  have hv : insertVals vs s.values = .ok v1 () := hv
  have hcond : (Spec.worthwhile fs vs || decide (rm.length > 0)) = true ↔ Spec.worthwhile fs vs = true ∨ rm ≠ [] := by
    cases rm <;> simp
  rw [← tempClash_iff hv, ← hcond]
  obtain ⟨m1, m2⟩ := merge_outcome { s with nfg := Spec.nulled s.nfg rm ++ fs, values := v1 }
  refine ⟨fun ho hc => ?_, fun hc => ?_⟩
  · refine ⟨{ s with nfg := Spec.nulled s.nfg rm ++ fs, values := v1 }, M.bind_throw ?_⟩
    unfold genericUpdate
    simp only [M.bind_eq]
    rw [M.bind_ok ef, M.bind_ok e, if_pos ho, M.bind_ok (M.get_apply _), m1 hc]
    rfl
  · by_cases ho : (Spec.worthwhile fs vs || decide (rm.length > 0)) = true
    · obtain ⟨full, hm, happ⟩ := m2 (hc ho)
      have hsrt : full.Sorted := merge_sorted hm (insert_sorted hv (reach_values r.reach).1)
      obtain ⟨res, hg, hkeep⟩ := hw.opt (Spec.nulled s.nfg rm ++ fs ++ s.tempNfg) full hsrt
      obtain ⟨s2, e3⟩ := happ res { s with nfg := Spec.nulled s.nfg rm ++ fs, values := v1 } rfl rfl hkeep
      refine ⟨s2, ?_⟩
      have : genericUpdate env fs vs rm s = .ok s2 () := by
        unfold genericUpdate
        simp only [M.bind_eq]
        rw [M.bind_ok ef, M.bind_ok e, if_pos ho, M.bind_ok (M.get_apply _), hm]
        simp only
        rw [hg]
        exact e3
      rw [M.bind_ok this]
      rfl
    · refine ⟨{ s with nfg := Spec.nulled s.nfg rm ++ fs, values := v1 }, ?_⟩
      have : genericUpdate env fs vs rm s = .ok { s with nfg := Spec.nulled s.nfg rm ++ fs, values := v1 } () := by
        unfold genericUpdate
        simp only [M.bind_eq]
        rw [M.bind_ok ef, M.bind_ok e, if_neg ho]
        rfl
      rw [M.bind_ok this]
      rfl

/-- `Demo.h1`, then a temporary value for b0. -/
def withTemp : List (Op Demo.Z Demo.Ns) := Demo.h1 ++ [.tempUpdate [] [Demo.pose (Demo.b 0) 0]]

set_option maxRecDepth 100000 in
/-- The hypotheses of `C85_optimizing` and `C85_edits` are met after `withTemp`, and the last two cases occur: giving b0 a
value and optimizing throws, giving b1 a value and optimizing returns; so does ignoring a robot. -/
example : ∃ s, ReachOk Demo.cfg Demo.env withTemp s ∧
    (∃ s', exec Demo.cfg Demo.env (.forceUpdate [some (.prior (Demo.b 0) (Demo.z 0))] [Demo.pose (Demo.b 0) 0]) s = .throw s' .keyExists) ∧
    (∃ s', exec Demo.cfg Demo.env (.update [some (.prior (Demo.b 1) (Demo.z 0))] [Demo.pose (Demo.b 1) 0] true) s = .ok s' .unit) ∧
    ∃ s', exec Demo.cfg Demo.env (.ignore 97) s = .ok s' .unit := by
  obtain ⟨s, r, h⟩ := Demo.runs_reach (cfg := Demo.cfg) (env := Demo.env) (ops := withTemp)
    (P := fun s => decide (s.tempValues.keys = [Demo.b 0] ∧ s.values.keys = [Demo.a 0, Demo.a 1, Demo.a 2, Demo.a 3])) (by decide +kernel)
  obtain ⟨h1, h2⟩ := of_decide_eq_true h
  have hm : ∀ o ∈ withTemp, Spec.Managed o ∧ ¬ Spec.Removes o := by
    intro o ho
    simp [withTemp, Demo.h1] at ho
    rcases ho with rfl | rfl | rfl | rfl | rfl <;> exact ⟨trivial, not_false⟩
  have hf : ∀ op ∈ withTemp, ∀ b ∈ Spec.opBtws op, Spec.Fair Demo.cfg b := fair_of (by decide +kernel)
  have hg : Spec.Grounded Demo.cfg (fun _ => 97) withTemp := grounded_of (by decide +kernel) (by decide +kernel) (by decide +kernel)
  have hroot : ∀ k x, ¬ Spec.Rootless Demo.cfg withTemp s.values [some (.prior k (Demo.z 0))] [Demo.pose k 0] x := by
    rintro k x ⟨pre, post, e, -⟩
    have : Spec.odoms Demo.cfg [Demo.pose k 0] [some (.prior k (Demo.z 0))] = [] := rfl
    rw [this] at e
    simp at e
  have htmp : ∀ vs, Spec.TempClash (s.values ++ vs) s.tempValues ↔ Demo.b 0 ∈ KMap.keys vs := by
    intro vs
    unfold Spec.TempClash
    have : KMap.keys (s.values ++ vs) = s.values.keys ++ vs.keys := by unfold KMap.keys; rw [List.map_append]
    rw [h1, this, h2]
    have : Demo.b 0 ∉ [Demo.a 0, Demo.a 1, Demo.a 2, Demo.a 3] := by decide +kernel
    simp only [List.nodup_singleton, not_true, false_or, List.mem_singleton, exists_eq_left, List.mem_append, this]
  refine ⟨s, r, ?_, ?_, ?_⟩
  · obtain ⟨-, -, k⟩ := C85_optimizing Demo.env_ok Demo.env_works rfl rfl r (fun o ho => (hm o ho).1) hf
      (Or.inr (Or.inl fun o ho => (hm o ho).2)) hg (fs := [some (.prior (Demo.b 0) (Demo.z 0))]) (by intro b hb; cases hb)
      [Demo.pose (Demo.b 0) 0] (Or.inr rfl) (Or.inr (modest_of (by decide +kernel))) (by intro hal; cases hal)
    exact (k (noClash_of (by decide +kernel) (by decide +kernel)) (hroot _)).1 rfl ((htmp _).2 (by decide +kernel))
  · obtain ⟨-, -, k⟩ := C85_optimizing Demo.env_ok Demo.env_works rfl rfl r (fun o ho => (hm o ho).1) hf
      (Or.inr (Or.inl fun o ho => (hm o ho).2)) hg (fs := [some (.prior (Demo.b 1) (Demo.z 0))]) (by intro b hb; cases hb)
      [Demo.pose (Demo.b 1) 0] (Or.inl rfl) (Or.inr (modest_of (by decide +kernel))) (by intro hal; cases hal)
    exact (k (noClash_of (by decide +kernel) (by decide +kernel)) (hroot _)).2 fun _ hc => absurd ((htmp _).1 hc) (by decide +kernel)
  · refine (C85_edits Demo.env_ok Demo.env_works rfl rfl r (fun o ho => (hm o ho).1) ⟨97, Or.inr (Or.inl rfl)⟩
      (Or.inr (modest_of (by decide +kernel)))).2 fun hc => ?_
    have := (htmp []).1 (by rw [List.append_nil]; exact hc)
    exact absurd this (by decide +kernel)

/-- `Demo.cfg` without closure rejection. -/
def noRejection : Cfg Demo.Z Demo.Tp Demo.Ns := { Demo.cfg with rejection := false }

set_option maxRecDepth 100000 in
/-- After `withTemp`, without closure rejection, the cases of `C85_generic` occur: an index out of range, a second value, one
empty slot, a temporary value for a new key, and a return; likewise for `C85_plain_optimizing`. -/
example : ∃ s, ReachOk noRejection Demo.env withTemp s ∧
    (∃ s', exec noRejection Demo.env (.genericUpdate [] [] [0, 9]) s = .throw s' .outOfRange) ∧
    (∃ s', exec noRejection Demo.env (.genericUpdate [] [Demo.pose (Demo.a 2) 0] [0]) s = .throw s' .keyExists) ∧
    exec noRejection Demo.env (.genericUpdate [none] [] [0]) s = .ub .nullDeref ∧
    (∃ s', exec noRejection Demo.env (.genericUpdate [] [Demo.pose (Demo.b 0) 0] []) s = .throw s' .keyExists) ∧
    (∃ s', exec noRejection Demo.env (.genericUpdate [] [Demo.pose (Demo.b 1) 0] [2]) s = .ok s' .unit) ∧
    (∃ s', exec noRejection Demo.env (.forceUpdate [] [Demo.pose (Demo.b 0) 0]) s = .throw s' .keyExists) ∧
    ∃ s', exec noRejection Demo.env (.update [] [Demo.pose (Demo.b 1) 0] true) s = .ok s' .unit := by
  obtain ⟨s, r, h⟩ := Demo.runs_reach (cfg := noRejection) (env := Demo.env) (ops := withTemp)
    (P := fun s => decide (s.tempValues.keys = [Demo.b 0] ∧ s.values.keys = [Demo.a 0, Demo.a 1, Demo.a 2, Demo.a 3] ∧
      s.nfg.length = 6)) (by decide +kernel)
  obtain ⟨h1, h2, h3⟩ := of_decide_eq_true h
  have htmp : ∀ vs, Spec.TempClash (s.values ++ vs) s.tempValues ↔ Demo.b 0 ∈ KMap.keys vs := by
    intro vs
    unfold Spec.TempClash
    have : KMap.keys (s.values ++ vs) = s.values.keys ++ vs.keys := by unfold KMap.keys; rw [List.map_append]
    rw [h1, this, h2]
    have : Demo.b 0 ∉ [Demo.a 0, Demo.a 1, Demo.a 2, Demo.a 3] := by decide +kernel
    simp only [List.nodup_singleton, not_true, false_or, List.mem_singleton, exists_eq_left, List.mem_append, this]
  have hn : ∀ k, k = Demo.b 0 ∨ k = Demo.b 1 → ¬ Spec.Clash withTemp [Demo.pose k 0] := by
    rintro k (rfl | rfl) <;> exact noClash_of (by decide +kernel) (by decide +kernel)
  have gen := fun fs vs rm => C85_generic Demo.env_works r fs vs rm
  rw [h3] at gen
  refine ⟨s, r, ?_, ?_, ?_, ?_, ?_, ?_, ?_⟩
  · obtain ⟨s', e, -⟩ := (gen [] [] [0, 9]).1 ⟨9, by simp, by simp⟩
    exact ⟨s', e⟩
  · exact ((gen _ _ _).2 (by simp)).1 (Or.inr ⟨Demo.a 2, by decide +kernel,
      .update [Demo.edge (Demo.a 1) (Demo.a 2) 1] [Demo.pose (Demo.a 2) 2] true, by simp [withTemp, Demo.h1], by decide +kernel⟩)
  · exact ((gen _ _ _).2 (by simp)).2.1 (noClash_of (by decide +kernel) (by decide +kernel)) rfl
  · exact (((gen _ _ _).2 (by simp)).2.2 (hn _ (Or.inl rfl)) (by simp)).1 (Or.inl rfl) ((htmp _).2 (by decide +kernel))
  · exact (((gen _ _ _).2 (by simp)).2.2 (hn _ (Or.inr rfl)) (by simp)).2 fun _ hc => absurd ((htmp _).1 hc) (by decide +kernel)
  · exact ((C85_plain_optimizing Demo.env_works rfl rfl rfl (by decide) r _ _ (Or.inr rfl)).2.2 (hn _ (Or.inl rfl)) (by simp)).1
      rfl ((htmp _).2 (by decide +kernel))
  · exact ((C85_plain_optimizing Demo.env_works rfl rfl rfl (by decide) r _ _ (Or.inl rfl)).2.2 (hn _ (Or.inr rfl)) (by simp)).2
      fun _ hc => absurd ((htmp _).1 hc) (by decide +kernel)

end Props
end RPGO
