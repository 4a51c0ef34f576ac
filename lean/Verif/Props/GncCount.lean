import Verif.Props.Optimize
import Verif.Props.Graph
import Mathlib.Algebra.Order.Floor.Ring
import Mathlib.Data.Rat.Floor
import Mathlib.Algebra.Order.BigOperators.Group.List
/-
C56: the inlier count with GNC.
-/

namespace RPGO
variable {G T N : Type}

/-- GNC returns one weight per factor, between 0 and 1, and weight 1 for the factors declared inliers. -/
def Env.Weighs (env : Env G N) : Prop :=
  ∀ g v known init r w, env.gnc g v known init = some (r, w) →
    w.length = g.length ∧ (∀ x ∈ w, 0 ≤ x ∧ x ≤ 1) ∧ ∀ i ∈ known, ∀ x, w[i]? = some x → x = 1

namespace Spec

/-- The weights of the closures: those after the odometry factors and priors. -/
def closureWeights (cfg : Cfg G T N) (h : List (Op G N)) (s : St G T N) : List Rat :=
  s.gncW.drop ((odomSoFar cfg h).length + (specialSoFar cfg h).length)

end Spec

theorem sum_bounds {w : List Rat} (h : ∀ x ∈ w, 0 ≤ x ∧ x ≤ 1) : 0 ≤ w.sum ∧ w.sum ≤ w.length := by
  induction w with
  | nil => simp
  | cons a t ih =>
    obtain ⟨i1, i2⟩ := ih fun x hx => h x (by simp [hx])
    obtain ⟨h1, h2⟩ := h a (by simp)
    rw [List.sum_cons, List.length_cons]
    push_cast
    constructor <;> linarith

theorem sum_take_ones {w : List Rat} {k : Nat} (hk : k ≤ w.length) (h : ∀ i < k, ∀ x, w[i]? = some x → x = 1) :
    (w.take k).sum = k := by
  induction k generalizing w with
  | zero => simp
  | succ k ih =>
    cases w with
    | nil => simp at hk
    | cons a t =>
      have ha : a = 1 := h 0 (by omega) a rfl
      rw [List.take_succ_cons, List.sum_cons, ih (by simpa using hk) fun i hi x hx => h (i + 1) (by omega) x (by simpa using hx), ha]
      push_cast
      ring

/-- The count: the weights of the factors that are not known inliers, added and rounded down. -/
theorem inlierCount_eq {w : List Rat} {k : Nat} (hk : k ≤ w.length) (h1 : ∀ i < k, ∀ x, w[i]? = some x → x = 1)
    (h : ∀ x ∈ w, 0 ≤ x ∧ x ≤ 1) (hl : w.length < 2 ^ 64) :
    inlierCount w k = ⌊(w.drop k).sum⌋.toNat ∧ inlierCount w k ≤ w.length - k := by
  have hs : w.sum = k + (w.drop k).sum := by
    rw [← sum_take_ones hk h1, ← List.sum_append, List.take_append_drop]
  obtain ⟨b1, b2⟩ := sum_bounds (w := w.drop k) fun x hx => h x (List.mem_of_mem_drop hx)
  have hfl : w.sum.floor = (k : ℤ) + ⌊(w.drop k).sum⌋ := by
    show ⌊w.sum⌋ = _
    rw [hs, Int.floor_natCast_add]
  have h0 : 0 ≤ ⌊(w.drop k).sum⌋ := Int.floor_nonneg.2 b1
  have hle : ⌊(w.drop k).sum⌋ ≤ (w.length - k : ℕ) := by
    have h2 : ⌊(w.drop k).sum⌋ ≤ ⌊((w.drop k).length : ℚ)⌋ := Int.floor_le_floor b2
    rw [List.length_drop] at h2
    simpa using h2
  obtain ⟨f, hf⟩ := Int.eq_ofNat_of_zero_le h0
  rw [hf] at hle hfl ⊢
  have hle' : f ≤ w.length - k := by exact_mod_cast hle
  have hc : inlierCount w k = f := by
    unfold inlierCount
    rw [hfl]
    have : ((k : ℤ) + (f : ℤ)).toNat = k + f := by omega
    rw [this, Nat.mod_eq_of_lt (by omega : k < 2 ^ 64)]
    rw [show k + f + 2 ^ 64 - k = f + 2 ^ 64 by omega, Nat.add_mod_right, Nat.mod_eq_of_lt (by omega)]
  rw [hc]
  exact ⟨by simp, hle'⟩

variable [Mul G] [Inv G] [One G]

theorem numInliers_gnc {cfg : Cfg G T N} {env : Env G N} (hg : cfg.useGnc = true) {s : St G T N} {n : Nat} :
    Spec.NumInliers cfg env s n ↔ n = s.gncNum := by
  unfold Spec.NumInliers exec M.ret getNumLCInliers
  simp only [M.bind, hg, if_true, M.pure]
  constructor
  · intro h; simp only [Out.ok.injEq, Ret.num.injEq, true_and] at h; exact h.symm
  · rintro rfl; rfl

theorem flatMap_length_le {α β γ : Type} (l : List α) (f : α → List β) (g : α → List γ) (h : ∀ a, (f a).length ≤ (g a).length) :
    (l.flatMap f).length ≤ (l.flatMap g).length := by
  induction l with
  | nil => simp
  | cons a t ih => simp only [List.flatMap_cons, List.length_append]; have := h a; omega

theorem buildGraph_le {env : Env G N} (he : env.Ok) (p : Pcm G T N) :
    (buildGraph env p).length ≤ p.odom.length + p.special.length + phi p := by
  have h1 : ((env.iterLC p.lcs).map fun e => e.2.cons.length).sum = consSum p.lcs := ((he.lc p.lcs).map _).sum_nat
  have h2 : ((env.iterLM p.landmarks).map fun e => e.2.cons.length).sum = consSum p.landmarks :=
    ((he.lm p.landmarks).map _).sum_nat
  have h3 := consSum_le_cap p.lcs
  have h4 := consSum_le_cap p.landmarks
  have h5 := flatMap_length_le (env.iterLC p.lcs) (fun e =>
    if !p.ignored.contains e.1.id1 && !p.ignored.contains e.1.id2 then
      e.2.cons.map (fun b => (some (.btw b) : Option (Factor G N))) else [])
    (fun e => e.2.cons.map (fun b => (some (.btw b) : Option (Factor G N)))) (fun e => by split <;> simp)
  have h6 : ((env.iterLC p.lcs).flatMap fun e => e.2.cons.map (fun b => (some (.btw b) : Option (Factor G N)))).length =
      consSum p.lcs := by
    rw [List.length_flatMap]
    simp only [List.length_map, h1]
  rw [h6] at h5
  unfold buildGraph phi
  simp only [List.length_append, List.length_map]
  rw [List.length_flatMap (l := env.iterLM p.landmarks)]
  simp only [List.length_map, h2]
  omega

/-- An optimization with GNC. -/
theorem optimize_gnc {cfg : Cfg G T N} {env : Env G N} (hw : env.Weighs) (hr : cfg.rejection = true) {s s' : St G T N}
    (hk : s.pcm.odom.length + s.pcm.special.length ≤ s.nfg.length) (hl : s.nfg.length < 2 ^ 64)
    (hu : useGncNow cfg s = true) (e : optimize cfg env s = .ok s' ()) :
    s'.gncNum = ⌊(s'.gncW.drop (s.pcm.odom.length + s.pcm.special.length)).sum⌋.toNat ∧
    s'.gncNum ≤ s.nfg.length - (s.pcm.odom.length + s.pcm.special.length) ∧
    (∀ x ∈ s'.gncW, 0 ≤ x ∧ x ≤ 1) ∧ s'.gncW.length = s.nfg.length := by
  obtain ⟨full, res, s2, s3, _, hc, ha, hs'⟩ := optimize_ok e
  rcases hc with ⟨_, hc⟩ | ⟨hc, _⟩
  · obtain ⟨w, hwe, l1, l2, rfl⟩ := gncOptimize_ok hc
    obtain ⟨w1, w2, w3⟩ := hw _ _ _ _ _ _ hwe
    have hwv := (applyResult_sameW res).of_ok ha
    have e1 : s'.gncW = w.take s.nfg.length := by rw [hs', if_pos hr]; exact hwv.1
    have e2 : s'.gncNum = inlierCount (w.take s.nfg.length) (gncKnown s).length := by
      rw [hs', if_pos hr]; exact hwv.2.2
    have hlen : (w.take s.nfg.length).length = s.nfg.length := by rw [List.length_take]; omega
    have hin : ∀ x ∈ w.take s.nfg.length, 0 ≤ x ∧ x ≤ 1 := fun x hx => w2 x (List.mem_of_mem_take hx)
    have := inlierCount_eq (w := w.take s.nfg.length) (k := (gncKnown s).length) (by rw [hlen]; simpa [gncKnown] using hk)
      (fun i hi x hx => w3 i (by simpa [gncKnown] using hi) x (by
        rw [List.getElem?_take] at hx
        split at hx
        · exact hx
        · cases hx)) hin (by rw [hlen]; exact hl)
    rw [e2, e1]
    simp only [gncKnown, List.length_range, hlen] at this ⊢
    exact ⟨this.1, this.2, hin, trivial⟩
  · rw [hu] at hc; cases hc

/-- An optimization without GNC leaves the count alone. -/
theorem optimize_plain {cfg : Cfg G T N} {env : Env G N} (hr : cfg.rejection = true) {s s' : St G T N}
    (hu : useGncNow cfg s = false) (e : optimize cfg env s = .ok s' ()) : s'.gncNum = s.gncNum := by
  obtain ⟨full, res, s2, s3, _, hc, ha, hs'⟩ := optimize_ok e
  rcases hc with ⟨hc, _⟩ | ⟨_, hc⟩
  · rw [hu] at hc; cases hc
  · obtain ⟨g, _, _, _, _, rfl⟩ := plainOptimize_ok hc
    rw [hs', if_pos hr]
    exact ((applyResult_sameW res).of_ok ha).2.2

namespace Props

/-- C56, partial: after a call that includes an optimization with GNC (see C37), `getNumLCInliers()` is the sum of the
weights of the closures, rounded down; if GNC accepted or rejected every closure outright (weights 1 and 0), it is the
number of accepted closures. It is at most the number of closures in the graph. -/
theorem C56_count_partial {cfg : Cfg G T N} {env : Env G N} (he : env.Ok) (hw : env.Weighs) (hr : cfg.rejection = true)
    (hg : cfg.useGnc = true) {h : List (Op G N)} {op : Op G N} (hm : ∀ o ∈ h ++ [op], Spec.Managed o) {s s' : St G T N}
    (r : ReachOk cfg env h s) (ho : Spec.Optimizes cfg op = true) {x : Ret} (e : exec cfg env op s = .ok s' x)
    (hfix : cfg.fixPrev = true → s.latest ≠ s'.pcm.totalLc) (hl : s'.nfg.length < 2 ^ 64) {n : Nat}
    (hn : Spec.NumInliers cfg env s' n) :
    n = ⌊(Spec.closureWeights cfg (h ++ [op]) s').sum⌋.toNat ∧
    n + (Spec.odomSoFar cfg (h ++ [op])).length + (Spec.specialSoFar cfg (h ++ [op])).length ≤ s'.nfg.length ∧
    ((∀ y ∈ Spec.closureWeights cfg (h ++ [op]) s', y = 0 ∨ y = 1) →
      n = (Spec.closureWeights cfg (h ++ [op]) s').countP (fun y => decide (y > 1 / 2))) := by
  rw [numInliers_gnc hg] at hn
  subst hn
  obtain ⟨s1, o, h1, h2⟩ := exec_ok_phase hr e
  rcases h2 with ⟨_, h2⟩ | ⟨hf, _⟩
  · obtain ⟨g1, g2, g3⟩ := phase1_size he hr r hm h1
    obtain ⟨_, hlat, _⟩ := (phase1_sameW cfg env (hm op (by simp))).of_ok h1
    have hfr := (optimize_frame cfg env).of_ok h2
    have huse : useGncNow cfg s1 = true := by
      unfold useGncNow
      rw [hg, hr]
      cases hfx : cfg.fixPrev with
      | false => rfl
      | true =>
        have := hfix hfx
        rw [hfr.pcm, ← hlat] at this
        simp only [Bool.true_and, Bool.not_eq_true', beq_eq_false_iff_ne]
        exact fun h => this h.symm
    have hk := (buildGraph_known env s1.pcm).1
    rw [← g1] at hk
    obtain ⟨a1, a2, a3, a4⟩ := optimize_gnc hw hr hk (by rw [← hfr.nfg]; exact hl) huse h2
    rw [g2, g3] at a1 a2 hk
    refine ⟨a1, by rw [hfr.nfg]; omega, fun h01 => ?_⟩
    rw [a1]
    unfold Spec.closureWeights at h01 ⊢
    generalize s'.gncW.drop _ = l at h01 ⊢
    have : l.sum = (l.countP (fun y => decide (y > 1 / 2)) : ℕ) := by
      induction l with
      | nil => simp
      | cons y t ih =>
        rw [List.sum_cons, ih fun z hz => h01 z (by simp [hz]), List.countP_cons]
        rcases h01 y (by simp) with rfl | rfl
        · norm_num
        · norm_num; ring
    rw [this]
    simp
  · rw [← phase1_flag h1, hf] at ho; cases ho

/-- C56: with GNC too, `getNumLCInliers()` never exceeds `getNumLC()`. -/
theorem C56_le_closures {cfg : Cfg G T N} {env : Env G N} (he : env.Ok) (hw : env.Weighs) (hr : cfg.rejection = true)
    (hg : cfg.useGnc = true) {h : List (Op G N)} (hm : ∀ o ∈ h, Spec.Managed o) {s : St G T N} (r : ReachOk cfg env h s)
    (hl : ∀ h' s', h' <+: h → ReachOk cfg env h' s' → s'.nfg.length < 2 ^ 64) {n m : Nat}
    (hn : Spec.NumInliers cfg env s n) (hc : Spec.NumLC cfg env s m) : n ≤ m := by
  rw [numInliers_gnc hg] at hn
  rw [numLC_iff hr] at hc
  subst hn hc
  induction r with
  | init => exact Nat.le_refl _
  | @step h s op s' x r e ih =>
    have st := (exec_step (env := env) hr op s).of_ok e
    obtain ⟨cnt, hmono⟩ := st.counts (r.reach.counts hr)
    have hl' := hl _ _ (List.prefix_rfl) (r.step e)
    have ih := ih (fun o ho => hm o (by simp [ho])) fun h' t hp => hl h' t (hp.trans (List.prefix_append _ _))
    obtain ⟨s1, o, h1, h2⟩ := exec_ok_phase hr e
    have hsw := (phase1_sameW cfg env (hm op (by simp))).of_ok h1
    rcases h2 with ⟨_, h2⟩ | ⟨_, h2⟩
    · have hfr := (optimize_frame cfg env).of_ok h2
      cases hu : useGncNow cfg s1 with
      | true =>
        obtain ⟨g1, _, _⟩ := phase1_size he hr r hm h1
        have hk := (buildGraph_known env s1.pcm).1
        rw [← g1] at hk
        obtain ⟨_, a2, _, _⟩ := optimize_gnc hw hr hk (by rw [← hfr.nfg]; exact hl') hu h2
        have := buildGraph_le he s1.pcm
        rw [← g1] at this
        have := cnt.phi
        rw [hfr.pcm] at this ⊢
        omega
      | false =>
        rw [optimize_plain hr hu h2, hsw.2.2]
        exact ih.trans hmono
    · subst h2
      rw [hsw.2.2]
      exact ih.trans hmono

/-- GNC that gives weight 3/4 to whatever is not declared an inlier. -/
def threeQuarters : Env Demo.Z Demo.Ns :=
  { Demo.env with
    gnc := fun g v known _ => some (v, (List.range g.length).map fun i => if known.contains i then 1 else 3 / 4) }

theorem weighs_demo : Demo.env.Weighs := by
  intro g v known init r w h
  injection h with h
  injection h with _ h
  subst h
  refine ⟨by simp, fun x hx => ?_, fun i _ x hx => ?_⟩
  · rw [List.eq_of_mem_replicate hx]; norm_num
  · exact List.eq_of_mem_replicate (List.mem_of_getElem? hx)

theorem weighs_threeQuarters : threeQuarters.Weighs := by
  intro g v known init r w h
  injection h with h
  injection h with _ h
  subst h
  refine ⟨by simp, fun x hx => ?_, fun i hi x hx => ?_⟩
  · obtain ⟨i, _, rfl⟩ := List.mem_map.1 hx
    split <;> norm_num
  · rw [List.getElem?_map] at hx
    by_cases hg : i < g.length
    · rw [List.getElem?_range hg] at hx
      simp only [Option.map_some, Option.some.injEq] at hx
      rw [← hx, if_pos (by simpa using hi)]
    · rw [List.getElem?_eq_none (by simpa using hg)] at hx
      cases hx

set_option maxRecDepth 100000 in
/-- The hypotheses of `C56_count_partial` and `C56_le_closures` are met: three odometry factors, a prior, two closures
both accepted by GNC. -/
example : gncOn.rejection = true ∧ gncOn.useGnc = true ∧ gncOn.fixPrev = false ∧ Demo.env.Weighs ∧
    Spec.Optimizes gncOn (.forceUpdate [] []) = true ∧ (∀ o ∈ Demo.h1 ++ [.forceUpdate [] []], Spec.Managed o) ∧
    ∃ s s' x, ReachOk gncOn Demo.env Demo.h1 s ∧ exec gncOn Demo.env (.forceUpdate [] []) s = .ok s' x ∧
      s'.nfg.length < 2 ^ 64 ∧ Spec.closureWeights gncOn (Demo.h1 ++ [.forceUpdate [] []]) s' = [1, 1] ∧
      Spec.NumInliers gncOn Demo.env s' 2 ∧ Spec.NumLC gncOn Demo.env s' 2 := by
  refine ⟨by decide +kernel, by decide +kernel, by decide +kernel, weighs_demo, rfl, ?_, ?_⟩
  · intro o ho
    simp [Demo.h1] at ho
    rcases ho with rfl | rfl | rfl | rfl | rfl <;> trivial
  · obtain ⟨s, r, h⟩ := Demo.runs_reach (cfg := gncOn) (env := Demo.env) (ops := Demo.h1 ++ [.forceUpdate [] []])
      (P := fun s => decide (s.nfg.length = 6 ∧
        Spec.closureWeights gncOn (Demo.h1 ++ [.forceUpdate [] []]) s = [1, 1] ∧ s.gncNum = 2 ∧ s.pcm.totalLc = 2))
      (by decide +kernel)
    obtain ⟨s0, x, r0, e⟩ := r.snoc_inv
    obtain ⟨a, b, c, d⟩ := of_decide_eq_true h
    exact ⟨s0, s, x, r0, e, by rw [a]; decide, b, (numInliers_gnc rfl).2 c.symm, (numLC_iff (by decide)).2 d.symm⟩

set_option maxRecDepth 100000 in
/-- C56 is false when GNC gives weights other than 0 and 1: two closures accepted with weight 3/4 each are counted as
one inlier. -/
theorem C56_false_fraction : ∃ s, ReachOk gncOn threeQuarters Demo.h1 s ∧ threeQuarters.Weighs ∧
    Spec.closureWeights gncOn Demo.h1 s = [3 / 4, 3 / 4] ∧ Spec.NumInliers gncOn threeQuarters s 1 := by
  obtain ⟨s, r, h⟩ := Demo.runs_reach (cfg := gncOn) (env := threeQuarters) (ops := Demo.h1)
    (P := fun s => decide (Spec.closureWeights gncOn Demo.h1 s = [3 / 4, 3 / 4] ∧ s.gncNum = 1)) (by decide +kernel)
  obtain ⟨a, b⟩ := of_decide_eq_true h
  exact ⟨s, r, weighs_threeQuarters, a, (numInliers_gnc rfl).2 b.symm⟩

end Props
end RPGO
