import Verif.Props.Robust
import Verif.Props.Arrival
import Verif.Props.Modes
import Mathlib.Data.List.NodupEquivFin
/-
C88 what looser thresholds change.
-/

namespace RPGO
variable {G T N : Type}

/-- The two acceptance tests and whether they are made (Pcm.h:74-82). -/
structure Tests (T : Type) where
  odomOn : Bool
  loopOn : Bool
  odom : T → Bool
  loop : T → Bool

/-- Same configuration, other acceptance tests. -/
def Cfg.judging (cfg : Cfg G T N) (a : Tests T) : Cfg G T N :=
  { cfg with odomCheck := a.odomOn, loopCheck := a.loopOn, ops := { cfg.ops with odomOk := a.odom, loopOk := a.loop } }

/-- Whatever passes the tests `a` passes the tests `b`; the pairwise test is made in both cases. -/
structure Tests.Looser (a b : Tests T) : Prop where
  odom : b.odomOn = true → a.odomOn = true ∧ ∀ t, a.odom t = true → b.odom t = true
  loopOn : a.loopOn = true ∧ b.loopOn = true
  loop : ∀ t, a.loop t = true → b.loop t = true

namespace Spec

/-- What two solvers hold that were given the same calls, the second with looser thresholds. -/
structure Looser [Mul G] [Inv G] [One G] (c1 c2 : Cfg G T N) (e1 e2 : Env G N) (s1 s2 : St G T N) : Prop where
  /-- estimates for the same keys -/
  keys : s1.values.keys = s2.values.keys
  /-- the closures the first has registered are among those the second has registered, in the same order, and those
  that agree in the first solver agree in the second -/
  closures : ∀ id, ∃ f : ℕ ↪o ℕ, (∀ i, (registered s1 id)[i]? = (registered s2 id)[f i]?) ∧
    ∀ i j, Agree s1 id i j → Agree s2 id (f i) (f j)
  /-- both have registered the same observations, and those that agree in the first solver agree in the second -/
  observations : ∀ l, observed s1 l = observed s2 l ∧ ∀ i j, ObsAgree s1 l i j → ObsAgree s2 l i j
  /-- the second reports no fewer loop closures -/
  count : ∀ m n, NumLC c1 e1 s1 m → NumLC c2 e2 s2 n → m ≤ n

end Spec

theorem PairFed.judging {cfg : Cfg G T N} {start : Chr → Key} {a b : Chr} {h : List (Op G N)} (t : Tests T)
    (w : Spec.PairFed cfg start a b h) : Spec.PairFed (cfg.judging t) start a b h :=
  ⟨w.spares, w.poses, w.begins, w.chains, w.short, w.reached, w.known⟩

theorem LandFed.judging {cfg : Cfg G T N} {start : Chr → Key} {c : Chr} {l : Key} {h : List (Op G N)} (t : Tests T)
    (w : Spec.LandFed cfg start c l h) : Spec.LandFed (cfg.judging t) start c l h :=
  ⟨w.begins, w.chain, w.short, w.reached, w.known⟩

section
variable [Mul G] [Inv G] [One G]

/-- The same calls with other tests give the same relative poses. -/
theorem onChain_tests {cfg : Cfg G T N} (hs : StartFree cfg.ops) {e1 e2 : Env G N} (hr : cfg.rejection = true) {t u : Tests T}
    {h : List (Op G N)} {s1 s2 : St G T N} (r1 : ReachOk (cfg.judging t) e1 h s1) (r2 : ReachOk (cfg.judging u) e2 h s2)
    {start : Chr → Key} {a b : Key} (ch : Spec.Chain (start (chr a)) (Spec.robotOdom cfg (chr a) h))
    (hl : (start (chr a)).toNat + (Spec.robotOdom cfg (chr a) h).length < 2 ^ 64) (hab : chr a = chr b)
    (ha : Spec.OnChain cfg start h a) (hb : Spec.OnChain cfg start h b) :
    btwn cfg.ops (lk cfg s1.pcm (chr a)) a b = btwn cfg.ops (lk cfg s2.pcm (chr a)) a b := by
  obtain ⟨t0, h0, w0⟩ := r1.onWalk (cfg := cfg.judging t) hr ch hl
  obtain ⟨t1, h1, w1⟩ := r2.onWalk (cfg := cfg.judging u) hr ch hl
  have cw : ∀ t0 (xs : List (Btw G N)) v, walk (cfg.judging v).ops t0 xs = walk cfg.ops t0 xs := fun _ _ _ => rfl
  obtain ⟨m, hm, ea⟩ := ha
  obtain ⟨n, hn, eb⟩ := hb
  rw [← hab] at hn eb
  have w0 : ∀ j ≤ (Spec.robotOdom cfg (chr a) h).length, lk cfg s1.pcm (chr a) (Spec.after (start (chr a)) j) =
    walk cfg.ops t0 ((Spec.robotOdom cfg (chr a) h).take j) := w0
  have w1 : ∀ j ≤ (Spec.robotOdom cfg (chr a) h).length, lk cfg s2.pcm (chr a) (Spec.after (start (chr a)) j) =
    walk cfg.ops t1 ((Spec.robotOdom cfg (chr a) h).take j) := w1
  unfold btwn
  rw [if_pos hab, if_pos hab]
  have e1 := w0 m hm
  have e2 := w0 n hn
  have e3 := w1 m hm
  have e4 := w1 n hn
  rw [← ea] at e1 e3
  rw [← eb] at e2 e4
  rw [e1, e2, e3, e4]
  exact hs t0 t1 h0 h1 _ _

omit [Mul G] [Inv G] [One G] in
theorem odomVerdict_looser {cfg : Cfg G T N} {t u : Tests T} (ht : t.Looser u) {f g : Chr → Key → T} {x : Btw G N}
    (e : ∀ n, odomErr cfg f x n = odomErr cfg g x n) (h : odomVerdict (cfg.judging t) f x = true) :
    odomVerdict (cfg.judging u) g x = true := by
  unfold odomVerdict at h ⊢
  cases hu : u.odomOn with
  | false => simp [Cfg.judging, hu]
  | true =>
    obtain ⟨h1, h2⟩ := ht.odom hu
    rw [show (cfg.judging t).odomCheck = true from h1] at h
    cases hn : x.noise with
    | none => rw [hn] at h; simp at h
    | some n =>
      rw [hn] at h
      have h : t.odom (odomErr cfg f x n) = true := by
        simp only [Bool.not_true, Bool.false_or] at h; exact h
      rw [e n] at h
      show (!u.odomOn || u.odom (odomErr cfg g x n)) = true
      rw [h2 _ h]; simp

omit [Mul G] [Inv G] [One G] in
theorem loopVerdict_looser {cfg : Cfg G T N} {t u : Tests T} (ht : t.Looser u) {f g : Chr → Key → T} {x y : Btw G N}
    (e : ∀ n m, loopErr cfg f x y n m = loopErr cfg g x y n m) (h : loopVerdict (cfg.judging t) f x y = true) :
    loopVerdict (cfg.judging u) g x y = true := by
  unfold loopVerdict at h ⊢
  rw [show (cfg.judging t).loopCheck = true from ht.loopOn.1] at h
  rw [show (cfg.judging u).loopCheck = true from ht.loopOn.2]
  cases hx : x.noise with
  | none => rw [hx] at h; simp at h
  | some n =>
    cases hy : y.noise with
    | none => rw [hx, hy] at h; simp at h
    | some m =>
      rw [hx, hy] at h
      have h : t.loop (loopErr cfg f x y n m) = true := by
        simp only [Bool.not_true, Bool.false_or] at h; exact h
      rw [e n m] at h
      show (!true || u.loop (loopErr cfg g x y n m)) = true
      rw [ht.loop _ h]; simp

omit [Mul G] [Inv G] [One G] in
theorem landVerdict_looser {cfg : Cfg G T N} {t u : Tests T} (ht : t.Looser u) {f g : Chr → Key → T} {x y : Btw G N}
    (e : ∀ n m, landErr cfg f x y n m = landErr cfg g x y n m) (h : landVerdict (cfg.judging t) f x y = true) :
    landVerdict (cfg.judging u) g x y = true := by
  unfold landVerdict at h ⊢
  cases hx : x.noise with
  | none => rw [hx] at h; simp at h
  | some n =>
    cases hy : y.noise with
    | none => rw [hx, hy] at h; simp at h
    | some m =>
      rw [hx, hy] at h
      have h : t.loop (landErr cfg f x y n m) = true := by
        simp only [Bool.not_true, Bool.false_or] at h; exact h
      rw [e n m] at h
      exact ht.loop _ h

/-- With looser tests the verdicts on closures can only become positive. -/
theorem fine_tests {cfg : Cfg G T N} (hs : StartFree cfg.ops) {e1 e2 : Env G N} (hr : cfg.rejection = true) {t u : Tests T}
    (ht : t.Looser u) {h : List (Op G N)} {s1 s2 : St G T N} (r1 : ReachOk (cfg.judging t) e1 h s1)
    (r2 : ReachOk (cfg.judging u) e2 h s2) {start : Chr → Key} {a b : Chr} (hf : Spec.PairFed cfg start a b h) :
    (∀ x, PairFed.Fine cfg start a b h x →
      (decide (chr x.k1 ≠ chr x.k2) || odomVerdict (cfg.judging t) (lk (cfg.judging t) s1.pcm) x) = true →
        (decide (chr x.k1 ≠ chr x.k2) || odomVerdict (cfg.judging u) (lk (cfg.judging u) s2.pcm) x) = true) ∧
    ∀ x y, PairFed.Fine cfg start a b h x → PairFed.Fine cfg start a b h y →
      loopVerdict (cfg.judging t) (lk (cfg.judging t) s1.pcm) x y = true →
      loopVerdict (cfg.judging u) (lk (cfg.judging u) s2.pcm) x y = true := by
  have key : ∀ {p q : Key}, chr p = a ∨ chr p = b → chr p = chr q → Spec.OnChain cfg start h p → Spec.OnChain cfg start h q →
      btwn cfg.ops (lk cfg s1.pcm (chr p)) p q = btwn cfg.ops (lk cfg s2.pcm (chr p)) p q := fun hd hab hp hq =>
    onChain_tests hs hr r1 r2 (hf.chains _ hd) (hf.short _ hd) hab hp hq
  constructor
  · intro x hx
    by_cases hc : chr x.k1 = chr x.k2
    · simp only [hc, ne_eq, not_true_eq_false, decide_false, Bool.false_or]
      refine odomVerdict_looser ht fun n => ?_
      show odomErr cfg (lk cfg s1.pcm) x n = odomErr cfg (lk cfg s2.pcm) x n
      unfold odomErr
      rw [key hx.ends.1 hc hx.2.1 hx.2.2.1]
    · simp [hc]
  · intro x y hx hy
    refine loopVerdict_looser ht fun n m => ?_
    show loopErr cfg (lk cfg s1.pcm) x y n m = loopErr cfg (lk cfg s2.pcm) x y n m
    have hp := hx.pair hy
    obtain ⟨d1, d2⟩ := hx.ends
    obtain ⟨_, o1, o2, _⟩ := hx
    obtain ⟨_, o3, o4, _⟩ := hy
    unfold loopErr
    by_cases hsw : chr x.k1 = chr y.k1
    · have h2 : chr x.k2 = chr y.k2 := by
        rcases hp with hp | hp
        · exact hp.2
        · rw [hp.2, ← hsw, hp.1]
      simp only [hsw, ne_eq, not_true_eq_false, if_false]
      rw [← hsw, key d1 hsw o1 o3, key d2 h2 o2 o4]
    · have h1 : chr x.k1 = chr y.k2 ∧ chr x.k2 = chr y.k1 := by
        rcases hp with hp | hp
        · exact absurd hp.1 hsw
        · exact hp
      simp only [hsw, ne_eq, not_false_eq_true, if_true]
      rw [key d1 h1.1 o1 o4, key d2 h1.2 o2 o3]

/-- The registered closures of a pair are the candidates that pass the odometry check. -/
theorem pair_registered {cfg : Cfg G T N} (hs : StartFree cfg.ops) {env : Env G N} (hr : cfg.rejection = true)
    {h : List (Op G N)} {s : St G T N} (r : ReachOk cfg env h s) {start : Chr → Key} {a b : Chr}
    (hf : Spec.PairFed cfg start a b h) : Spec.registered s ⟨a, b⟩ = (Spec.pairGroups cfg a b h).flatten.filter
      fun x => decide (chr x.k1 ≠ chr x.k2) || odomVerdict cfg (lk cfg s.pcm) x := by
  have e := pair_groups_eq hs hr r r hf hf (fun c _ => List.prefix_refl _)
  obtain ⟨b1, _⟩ := groupFold_bare (cfg := cfg) (acc := fun x => decide (chr x.k1 ≠ chr x.k2) || odomVerdict cfg (lk cfg s.pcm) x)
    (f := lk cfg s.pcm) (Spec.pairGroups cfg a b h) Meas.empty
  rw [← e, growFold_factors] at b1
  show (lcOf s.pcm ⟨a, b⟩).factors = _
  rw [b1]
  rfl

theorem agree_verdict {G : Type} [Group G] {cfg : Cfg G T N} (hs : StartFree cfg.ops) {env : Env G N} (hr : cfg.rejection = true) (hl : cfg.loopCheck = true)
    {h : List (Op G N)} {s : St G T N} (r : ReachOk cfg env h s) {start : Chr → Key} {a b : Chr}
    (hf : Spec.PairFed cfg start a b h) {i j : Nat} (hij : i < j) {x y : Btw G N}
    (hx : (Spec.registered s ⟨a, b⟩)[i]? = some x) (hy : (Spec.registered s ⟨a, b⟩)[j]? = some y) :
    Spec.Agree s ⟨a, b⟩ i j ↔ loopVerdict cfg (lk cfg s.pcm) x y = true := by
  obtain ⟨hi, ex⟩ := List.getElem?_eq_some_iff.1 hx
  obtain ⟨hj, ey⟩ := List.getElem?_eq_some_iff.1 hy
  have sh := r.reach.shape hr hl ⟨a, b⟩
  have e := pair_judged hs hr hl r hf hij hx hy
  have sy : (Spec.matrix s ⟨a, b⟩).e j i = (Spec.matrix s ⟨a, b⟩).e i j := sh.sym j i hj hi
  unfold Spec.Agree
  rw [Nat.max_eq_right (Nat.le_of_lt hij), Nat.min_eq_left (Nat.le_of_lt hij), sy, e]
  exact ⟨fun c => c.2.2.2, fun c => ⟨hi, hj, Nat.ne_of_lt hij, c⟩⟩

omit [Mul G] [Inv G] [One G] in
theorem filter_sub {α : Type} {p q : α → Bool} {l : List α} (h : ∀ x ∈ l, p x = true → q x = true) :
    (l.filter p).Sublist (l.filter q) := by
  have e : l.filter p = (l.filter q).filter p := by
    rw [List.filter_filter]
    refine List.filter_congr fun x hx => ?_
    cases hp : p x with
    | false => rfl
    | true => rw [h x hx hp]; rfl
  rw [e]
  exact List.filter_sublist

theorem pair_looser {G : Type} [Group G] {cfg : Cfg G T N} (hs : StartFree cfg.ops) {e1 e2 : Env G N} (hr : cfg.rejection = true) {t u : Tests T}
    (ht : t.Looser u) {h : List (Op G N)} {s1 s2 : St G T N} (r1 : ReachOk (cfg.judging t) e1 h s1)
    (r2 : ReachOk (cfg.judging u) e2 h s2) {start : Chr → Key} {a b : Chr} (hf : Spec.PairFed cfg start a b h) :
    ∃ f : ℕ ↪o ℕ, (∀ i, (Spec.registered s1 ⟨a, b⟩)[i]? = (Spec.registered s2 ⟨a, b⟩)[f i]?) ∧
      ∀ i j, Spec.Agree s1 ⟨a, b⟩ i j → Spec.Agree s2 ⟨a, b⟩ (f i) (f j) := by
  obtain ⟨vo, vl⟩ := fine_tests hs hr ht r1 r2 hf
  have q1 := pair_registered (cfg := cfg.judging t) hs hr r1 (PairFed.judging t hf)
  have q2 := pair_registered (cfg := cfg.judging u) hs hr r2 (PairFed.judging u hf)
  have fin : ∀ x ∈ (Spec.pairGroups cfg a b h).flatten, PairFed.Fine cfg start a b h x := fun x hx => by
    obtain ⟨bs, hb, hx⟩ := List.mem_flatten.1 hx
    exact PairFed.fine_groups hf bs hb x hx
  have sub : (Spec.registered s1 ⟨a, b⟩).Sublist (Spec.registered s2 ⟨a, b⟩) := by
    rw [q1, q2]
    exact filter_sub fun x hx => vo x (fin x hx)
  obtain ⟨f, hf'⟩ := List.sublist_iff_exists_orderEmbedding_getElem?_eq.1 sub
  have finr : ∀ {i x}, (Spec.registered s1 ⟨a, b⟩)[i]? = some x → PairFed.Fine cfg start a b h x := fun {i x} hx => by
    have hm := List.mem_of_getElem? hx
    rw [q1] at hm
    exact fin x (List.mem_filter.1 hm).1
  have half : ∀ i j, i < j → Spec.Agree s1 ⟨a, b⟩ i j → Spec.Agree s2 ⟨a, b⟩ (f i) (f j) := by
    intro i j hij ag
    have hx := List.getElem?_eq_getElem ag.1
    have hy := List.getElem?_eq_getElem ag.2.1
    refine (agree_verdict (cfg := cfg.judging u) hs hr ht.loopOn.2 r2 (PairFed.judging u hf) (f.lt_iff_lt.2 hij)
      ((hf' i).symm.trans hx) ((hf' j).symm.trans hy)).2 ?_
    exact vl _ _ (finr hx) (finr hy) ((agree_verdict (cfg := cfg.judging t) hs hr ht.loopOn.1 r1 (PairFed.judging t hf) hij hx hy).1 ag)
  refine ⟨f, hf', fun i j ag => ?_⟩
  rcases Nat.lt_or_gt_of_ne ag.2.2.1 with hij | hij
  · exact half i j hij ag
  · exact Agree.symm (half j i hij (Agree.symm ag))

omit [Mul G] [Inv G] [One G] in
/-- The same observations, a matrix with no fewer entries. -/
structure LandLess (P : Btw G N → Prop) (m m' : Meas G N) : Prop where
  factors : m.factors = m'.factors
  fine : ∀ b ∈ m.factors, P b
  size : m.adj.n = m'.adj.n
  entries : ∀ i j, m.adj.e i j = true → m'.adj.e i j = true

omit [Mul G] [Inv G] [One G] in
theorem LandLess.grow {A B : Mat} {vs ws : List Bool} (hn : A.n = B.n) (h : ∀ i j, A.e i j = true → B.e i j = true)
    (hv : ∀ i : Nat, vs[i]? = some true → ws[i]? = some true) (i j : Nat) (hij : (A.grow vs).e i j = true) : (B.grow ws).e i j = true := by
  simp only [Mat.grow] at hij ⊢
  rw [← hn]
  split at hij
  · rename_i h1
    rw [if_pos h1]
    split at hij
    · rename_i h2; rw [if_pos h2]; exact h _ _ hij
    · rename_i h2
      rw [if_neg h2]
      split at hij
      · rename_i h3
        rw [if_pos h3]
        simp only [beq_iff_eq] at hij ⊢
        exact hv _ hij
      · cases hij
  · rename_i h1
    rw [if_neg h1]
    split at hij
    · rename_i h2
      rw [if_pos h2]
      simp only [beq_iff_eq] at hij ⊢
      exact hv _ hij
    · cases hij

omit [Mul G] [Inv G] [One G] in
theorem landFold_less {c c' : Cfg G T N} {f g : Chr → Key → T} {l : Key} {P : Btw G N → Prop}
    (hv : ∀ x y, P x → P y → x.k1 ≠ l → y.k1 ≠ l → landVerdict c f x y = true → landVerdict c' g x y = true)
    (xs : List (Bool × Btw G N)) (hP : ∀ x ∈ xs, P x.2) {m m' : Meas G N} (h : LandLess P m m') :
    LandLess P (xs.foldl (landStep c f l) m) (xs.foldl (landStep c' g l) m') := by
  induction xs generalizing m m' with
  | nil => exact h
  | cons x xs ih =>
    have hx := hP x (by simp)
    refine ih (fun y hy => hP y (by simp [hy])) ?_
    unfold landStep
    split
    · exact ⟨rfl, by simpa using hx, rfl, fun _ _ h => h⟩
    · have hf := h.factors
      refine ⟨by simp [growLm, hf], fun b hb => ?_, ?_, ?_⟩
      · simp only [growLm, List.mem_append, List.mem_singleton] at hb
        rcases hb with hb | rfl
        · exact h.fine b hb
        · exact hx
      · simp only [growLm, hf]
        split
        · rfl
        · split
          · exact h.size
          · simp [Mat.grow, h.size]
      · simp only [growLm, hf]
        split
        · exact fun _ _ h => h
        · split
          · exact h.entries
          · rename_i hn
            refine LandLess.grow h.size h.entries fun i hi => ?_
            rw [List.getElem?_map] at hi ⊢
            cases hz : m'.factors[i]? with
            | none => rw [hz] at hi; cases hi
            | some z =>
              rw [hz] at hi
              simp only [Option.map_some, Option.some.injEq] at hi ⊢
              have hm := List.mem_of_getElem? hz
              have hk : ¬ (z.k1 = l ∨ x.2.k1 = l) := fun hk => hn (List.any_eq_true.2 ⟨z, hm, decide_eq_true hk⟩)
              exact hv _ _ (h.fine z (hf ▸ hm)) hx (fun q => hk (Or.inl q)) (fun q => hk (Or.inr q)) hi

theorem land_looser {cfg : Cfg G T N} (hs : StartFree cfg.ops) {e1 e2 : Env G N} (hr : cfg.rejection = true) {t u : Tests T}
    (ht : t.Looser u) {h : List (Op G N)} {s1 s2 : St G T N} (r1 : ReachOk (cfg.judging t) e1 h s1)
    (r2 : ReachOk (cfg.judging u) e2 h s2) {start : Chr → Key} {c : Chr} {l : Key} (hf : Spec.LandFed cfg start c l h) :
    Spec.observed s1 l = Spec.observed s2 l ∧ ∀ i j, Spec.ObsAgree s1 l i j → Spec.ObsAgree s2 l i j := by
  have b1 : LandBare (lmOf s1.pcm l) ((Spec.lmSoFar cfg l h).foldl (landStep (cfg.judging t) (lk cfg s1.pcm) l) Meas.empty) :=
    r1.landState (cfg := cfg.judging t) hr hs (LandFed.judging t hf)
  have b2 : LandBare (lmOf s2.pcm l) ((Spec.lmSoFar cfg l h).foldl (landStep (cfg.judging u) (lk cfg s2.pcm) l) Meas.empty) :=
    r2.landState (cfg := cfg.judging u) hr hs (LandFed.judging u hf)
  have e := landFold_less (c := cfg.judging t) (c' := cfg.judging u) (f := lk cfg s1.pcm) (g := lk cfg s2.pcm) (l := l)
    (P := LandFed.Fine cfg start c l h) (by
    intro x y hx hy nx ny
    have away : ∀ z : Btw G N, LandFed.Fine cfg start c l h z → z.k1 ≠ l → chr z.k1 = c ∧ Spec.OnChain cfg start h z.k1 := by
      intro z hz nz
      refine hz.2 fun hsp => nz ?_
      have := hz.1
      unfold Spec.landmarkOf at this
      rwa [if_pos hsp] at this
    obtain ⟨cx, ox⟩ := away x hx nx
    obtain ⟨cy, oy⟩ := away y hy ny
    refine landVerdict_looser ht fun n m => ?_
    unfold landErr
    rw [onChain_tests hs hr r1 r2 (by rw [cx]; exact hf.chain) (by rw [cx]; exact hf.short) (by rw [cx, cy]) ox oy])
    (Spec.lmSoFar cfg l h) (LandFed.fine hf) (m := Meas.empty) (m' := Meas.empty)
    ⟨rfl, by simp [Meas.empty], rfl, fun _ _ h => h⟩
  have hobs : Spec.observed s1 l = Spec.observed s2 l := b1.1.trans (e.factors.trans b2.1.symm)
  refine ⟨hobs, fun i j ⟨a1, a2, a3, a4⟩ => ⟨hobs ▸ a1, hobs ▸ a2, a3, ?_⟩⟩
  unfold Spec.landMatrix at a4 ⊢
  rw [b1.2] at a4
  rw [b2.2]
  exact e.entries _ _ a4

theorem looser_all {G : Type} [Group G] {cfg : Cfg G T N} (hs : StartFree cfg.ops) {e1 e2 : Env G N} (hr : cfg.rejection = true) {t u : Tests T}
    (ht : t.Looser u) {start : Chr → Key} {owner : Key → Chr} {h : List (Op G N)} (w : Spec.WellFed cfg start owner h)
    {s1 s2 : St G T N} (r1 : ReachOk (cfg.judging t) e1 h s1) (r2 : ReachOk (cfg.judging u) e2 h s2) :
    Spec.Looser (cfg.judging t) (cfg.judging u) e1 e2 s1 s2 := by
  refine ⟨?_, fun id => ?_, fun l => ?_, fun m n hm hn => ?_⟩
  · obtain ⟨a1, a2⟩ := Props.C34_estimate_keys r1
    obtain ⟨b1, b2⟩ := Props.C34_estimate_keys r2
    exact List.Pairwise.eq_of_mem_iff (r := fun a b : Key => a.toNat < b.toNat) a2 b2 fun k => by rw [a1 k, b1 k]
  · by_cases hid : id.id1 ∈ cfg.special ∨ id.id2 ∈ cfg.special
    · have e1 := r1.reach.lcOf_special (cfg := cfg.judging t) hr hid
      have e2 := r2.reach.lcOf_special (cfg := cfg.judging u) hr hid
      refine ⟨RelEmbedding.refl _, fun i => by unfold Spec.registered; rw [e1, e2]; rfl, fun i j ag => ?_⟩
      have := ag.1
      unfold Spec.registered at this
      rw [e1] at this
      simp [Meas.empty] at this
    · obtain ⟨n1, n2⟩ := not_or.1 hid
      exact pair_looser hs hr ht r1 r2 (pairFed_global w.chains w.reached w.known w.keeps n1 n2)
  · exact land_looser hs hr ht r1 r2 (landFed_global w.chains w.reached w.known w.observer l)
  · rw [Props.numLC_iff (cfg := cfg.judging t) hr,
      r1.counted (cfg := cfg.judging t) hs hr w.chains ⟨w.reached.1, w.reached.2⟩ w.known w.keeps] at hm
    rw [Props.numLC_iff (cfg := cfg.judging u) hr,
      r2.counted (cfg := cfg.judging u) hs hr w.chains ⟨w.reached.1, w.reached.2⟩ w.known w.keeps] at hn
    have sub : ((Spec.candsSoFar cfg h).filter (countedCand (cfg.judging t) s1)).Sublist
        ((Spec.candsSoFar cfg h).filter (countedCand (cfg.judging u) s2)) := by
      refine filter_sub fun x hx => ?_
      unfold countedCand
      show (Spec.isLandmark cfg x || _) = true → (Spec.isLandmark cfg x || _) = true
      cases hl : Spec.isLandmark cfg x with
      | true => exact fun h => h
      | false =>
        unfold Spec.isLandmark at hl
        simp only [decide_eq_false_iff_not, not_or] at hl
        have f := pairFed_global w.chains w.reached w.known w.keeps hl.1 hl.2
        obtain ⟨op, hop, hx⟩ := List.mem_flatMap.1 hx
        obtain ⟨p, v, e⟩ := List.append_of_mem hop
        rw [Bool.false_or, Bool.false_or]
        exact (fine_tests hs hr ht r1 r2 f).1 x (PairFed.fine f e (List.mem_filter.2 ⟨hx, connects_self x⟩))
    have := sub.length_le
    rw [hm, hn]
    exact Nat.add_le_add_left this _

/-- If agreement is transitive with the looser thresholds, no fewer closures are accepted. -/
theorem looser_count {c1 c2 : Cfg G T N} {e1 e2 : Env G N} (hr1 : c1.rejection = true) (hr2 : c2.rejection = true)
    (hl1 : c1.loopCheck = true) (hl2 : c2.loopCheck = true) {h1 h2 : List (Op G N)} {s1 s2 : St G T N}
    (r1 : ReachOk c1 e1 h1 s1) (r2 : ReachOk c2 e2 h2 s2) {id : ObsId} {f : ℕ ↪o ℕ}
    (hreg : ∀ i, (Spec.registered s1 id)[i]? = (Spec.registered s2 id)[f i]?)
    (hag : ∀ i j, Spec.Agree s1 id i j → Spec.Agree s2 id (f i) (f j)) (ht : Spec.Transitive s2 id) :
    (Spec.selected s1 id).length ≤ (Spec.selected s2 id).length := by
  have sub : (Spec.registered s1 id).Sublist (Spec.registered s2 id) :=
    List.sublist_iff_exists_orderEmbedding_getElem?_eq.2 ⟨f, hreg⟩
  rcases Nat.lt_or_ge (Spec.registered s2 id).length 2 with h2 | h2
  · have := sub.length_le
    rw [Props.C64_single hr1 hl1 r1 id (by omega), Props.C64_single hr2 hl2 r2 id (by omega)]
    exact this
  · obtain ⟨x2, a2, g2, m2, _⟩ := Props.C64_consistent_partial hr2 hl2 r2 id h2 ht
    have q2 := congrArg List.length a2
    simp only [List.length_map] at q2
    rw [q2]
    rcases Nat.lt_or_ge (Spec.registered s1 id).length 2 with h3 | h3
    · rw [Props.C64_single hr1 hl1 r1 id (by omega)]
      have : 1 ≤ x2.length := m2 [0] ⟨by simp, by simp; omega, by simp⟩
      omega
    · obtain ⟨i, t, a1, _, c, hc, hlen⟩ := Props.C64_accepted hr1 hl1 r1 id h3
      rw [← hlen, ← List.length_map (f := f)]
      refine m2 _ ⟨hc.1.map f.injective, ?_, ?_⟩
      · intro k hk
        obtain ⟨i, hi, rfl⟩ := List.mem_map.1 hk
        have := hreg i
        rw [List.getElem?_eq_getElem (hc.2.1 i hi)] at this
        exact (List.getElem?_eq_some_iff.1 this.symm).1
      · intro k hk l hl hne
        obtain ⟨i, hi, rfl⟩ := List.mem_map.1 hk
        obtain ⟨j, hj, rfl⟩ := List.mem_map.1 hl
        exact hag i j (hc.2.2 i hi j hj (fun q => hne (by rw [q])))

theorem looser_obs {c1 c2 : Cfg G T N} {e1 e2 : Env G N} (hr1 : c1.rejection = true) (hr2 : c2.rejection = true)
    {h1 h2 : List (Op G N)} {s1 s2 : St G T N}
    (r1 : ReachOk c1 e1 h1 s1) (r2 : ReachOk c2 e2 h2 s2) {l : Key} (hobs : Spec.observed s1 l = Spec.observed s2 l)
    (hag : ∀ i j, Spec.ObsAgree s1 l i j → Spec.ObsAgree s2 l i j) (hf : Spec.FromPoses s2 l) (ht : Spec.ObsTransitive s2 l) :
    (Spec.acceptedOf s1 l).length ≤ (Spec.acceptedOf s2 l).length := by
  rcases Nat.lt_or_ge (Spec.observed s2 l).length 2 with h2 | h2
  · rw [Props.C69_single hr1 r1 l (by rw [hobs]; omega), Props.C69_single hr2 r2 l (by omega), hobs]
  · obtain ⟨x2, a2, g2, m2, _⟩ := Props.C69_consistent_partial hr2 r2 hf h2 ht
    have q2 := congrArg List.length a2
    simp only [List.length_map] at q2
    rw [q2]
    obtain ⟨i, t, a1, _, c, hc, _, hlen⟩ := Props.C69_accepted hr1 r1 (l := l) (by unfold Spec.FromPoses; rw [hobs]; exact hf)
      (by rw [hobs]; exact h2)
    rw [← hlen]
    refine m2 _ ⟨hc.1, fun i hi => hobs ▸ hc.2.1 i hi, fun i hi j hj hne => hag i j (hc.2.2 i hi j hj hne)⟩
end
end RPGO

namespace RPGO.Spec
variable {K : Type}

/-- The thresholds of a solver: `odomThr`, `lcThr` for PCM2D / PCM3D, the others for PCM_Simple2D / PCM_Simple3D
(SolverParams.h:44-66). -/
structure Thr (K : Type) where
  odomThr : K
  lcThr : K
  odomT : K
  odomR : K
  distT : K
  distR : K

/-- The same parameters with these thresholds. -/
def withThr (p : Params K) (x : Thr K) : Params K :=
  { p with odomThr := x.odomThr, lcThr := x.lcThr, odomT := x.odomT, odomR := x.odomR, distT := x.distT, distR := x.distR }

/-- The thresholds `y` are not below the thresholds `x`, of which none is negative; for the odometry check it is also
enough that one of `y` is negative, which disables it. -/
structure Raised [LE K] [LT K] [Zero K] (x y : Thr K) : Prop where
  pairwise : (0 ≤ x.lcThr ∧ 0 ≤ x.distT ∧ 0 ≤ x.distR) ∧ x.lcThr ≤ y.lcThr ∧ x.distT ≤ y.distT ∧ x.distR ≤ y.distR
  odometry : (y.odomThr < 0 ∨ y.odomT < 0 ∨ y.odomR < 0) ∨
    (0 ≤ x.odomThr ∧ 0 ≤ x.odomT ∧ 0 ≤ x.odomR) ∧ x.odomThr ≤ y.odomThr ∧ x.odomT ≤ y.odomT ∧ x.odomR ≤ y.odomR

end RPGO.Spec

namespace RPGO
variable {G C K : Type} [Mul G] [Inv G] [One G] [Field K] [LinearOrder K]

omit [Mul G] [Inv G] [One G] in
theorem Raised.tests {T : Type} {x y : Spec.Thr K} (h : Spec.Raised x y) (p : Params K) {o1 l1 o2 l2 : T → Bool}
    (ho : x.odomThr ≤ y.odomThr → x.odomT ≤ y.odomT → x.odomR ≤ y.odomR → ∀ t, o1 t = true → o2 t = true)
    (hl : x.lcThr ≤ y.lcThr → x.distT ≤ y.distT → x.distR ≤ y.distR → ∀ t, l1 t = true → l2 t = true) :
    Tests.Looser ⟨(Spec.withThr p x).odomCheck, (Spec.withThr p x).loopCheck, o1, l1⟩
      ⟨(Spec.withThr p y).odomCheck, (Spec.withThr p y).loopCheck, o2, l2⟩ := by
  obtain ⟨⟨h1, h2, h3⟩, h4, h5, h6⟩ := h.pairwise
  refine ⟨fun hy => ?_, ⟨?_, ?_⟩, hl h4 h5 h6⟩
  · simp only [Params.odomCheck, Spec.withThr, Bool.not_eq_true', Bool.or_eq_false_iff, decide_eq_false_iff_not] at hy ⊢
    rcases h.odometry with h0 | ⟨⟨g1, g2, g3⟩, g4, g5, g6⟩
    · rcases h0 with h0 | h0 | h0
      · exact absurd h0 (of_decide_eq_false hy.1.1)
      · exact absurd h0 (of_decide_eq_false hy.2)
      · exact absurd h0 (of_decide_eq_false hy.1.2)
    · exact ⟨⟨⟨decide_eq_false (not_lt.2 g1), decide_eq_false (not_lt.2 g3)⟩, decide_eq_false (not_lt.2 g2)⟩, ho g4 g5 g6⟩
  · simp only [Params.loopCheck, Spec.withThr, Bool.not_eq_true', Bool.or_eq_false_iff, decide_eq_false_iff_not]
    exact ⟨⟨decide_eq_false (not_lt.2 h1), decide_eq_false (not_lt.2 h3)⟩, decide_eq_false (not_lt.2 h2)⟩
  · simp only [Params.loopCheck, Spec.withThr, Bool.not_eq_true', Bool.or_eq_false_iff, decide_eq_false_iff_not]
    exact ⟨⟨decide_eq_false (not_lt.2 (h1.trans h4)), decide_eq_false (not_lt.2 (h3.trans h6))⟩, decide_eq_false (not_lt.2 (h2.trans h5))⟩

/-- The tests of a solver of method PCM_Simple2D / PCM_Simple3D. -/
def simpleTests (p : Params K) (tn rn : G → K) (x : Spec.Thr K) : Tests (PNode G) :=
  ⟨(Spec.withThr p x).odomCheck, (Spec.withThr p x).loopCheck, PNode.check tn rn x.odomT x.odomR, PNode.check tn rn x.distT x.distR⟩

/-- The tests of a solver of method PCM2D / PCM3D. -/
def covTests [AddGroup C] (p : Params K) (ce : CovEnv G C K) (x : Spec.Thr K) : Tests (PCov G C) :=
  ⟨(Spec.withThr p x).odomCheck, (Spec.withThr p x).loopCheck, PCov.check ce x.odomThr, PCov.check ce x.lcThr⟩

theorem simpleTests_looser (p : Params K) (tn rn : G → K) {x y : Spec.Thr K} (h : Spec.Raised x y) :
    (simpleTests p tn rn x).Looser (simpleTests p tn rn y) := by
  have key : ∀ {a a' b b' : K}, a ≤ a' → b ≤ b' → ∀ t, PNode.check tn rn a b t = true → PNode.check tn rn a' b' t = true := by
    intro a a' b b' h1 h2 t h
    unfold PNode.check at *
    rw [Bool.and_eq_true] at *
    exact ⟨ltThr_mono h1 h.1, ltThr_mono h2 h.2⟩
  exact Raised.tests h p (fun _ => key) (fun _ => key)

theorem covTests_looser [AddGroup C] (p : Params K) (ce : CovEnv G C K) {x y : Spec.Thr K} (h : Spec.Raised x y) :
    (covTests p ce x).Looser (covTests p ce y) := by
  have key : ∀ {a a' : K}, a ≤ a' → ∀ t, PCov.check ce a t = true → PCov.check ce a' t = true :=
    fun h1 t h => ltThr_mono h1 h
  exact Raised.tests h p (fun q _ _ => key q) (fun q _ _ => key q)

end RPGO

namespace RPGO.Props
variable {G C K : Type} [Mul G] [Inv G] [One G] [Field K] [LinearOrder K]

/-- C88. Two solvers with the same parameters except for the thresholds, which in the second are not lower, are given the
same calls. -/
theorem C88_registered {G : Type} [Group G] (p : Params K) (tn rn : G → K) (signed : Bool) (hm : p.method ≠ .none) {x y : Spec.Thr K} (hxy : Spec.Raised x y)
    {e1 e2 : Env G (GNoise C)} {start : Chr → Key} {owner : Key → Chr} {h : List (Op G (GNoise C))}
    (w : Spec.WellFed (p.cfgSimple C tn rn signed) start owner h) {s1 s2 : St G (PNode G) (GNoise C)}
    (r1 : ReachOk ((Spec.withThr p x).cfgSimple C tn rn signed) e1 h s1)
    (r2 : ReachOk ((Spec.withThr p y).cfgSimple C tn rn signed) e2 h s2) :
    Spec.Looser ((Spec.withThr p x).cfgSimple C tn rn signed) ((Spec.withThr p y).cfgSimple C tn rn signed) e1 e2 s1 s2 :=
  looser_all (cfg := p.cfgSimple C tn rn signed) (node_startFree tn rn _ _ _ _) (by simp [Params.cfgSimple, Params.cfg, hm])
    (simpleTests_looser p tn rn hxy) w r1 r2

/-- C88 for PCM2D / PCM3D. -/
theorem C88_registered_cov {G : Type} [Group G] [AddGroup C] (p : Params K) (ce : CovEnv G C K) (signed : Bool) (hm : p.method ≠ .none) {x y : Spec.Thr K}
    (hxy : Spec.Raised x y) {e1 e2 : Env G (GNoise C)} {start : Chr → Key} {owner : Key → Chr} {h : List (Op G (GNoise C))}
    (w : Spec.WellFed (p.cfgCov ce signed) start owner h) {s1 s2 : St G (PCov G C) (GNoise C)}
    (r1 : ReachOk ((Spec.withThr p x).cfgCov ce signed) e1 h s1)
    (r2 : ReachOk ((Spec.withThr p y).cfgCov ce signed) e2 h s2) :
    Spec.Looser ((Spec.withThr p x).cfgCov ce signed) ((Spec.withThr p y).cfgCov ce signed) e1 e2 s1 s2 :=
  looser_all (cfg := p.cfgCov ce signed) (cov_startFree ce _ _) (by simp [Params.cfgCov, Params.cfg, hm])
    (covTests_looser p ce hxy) w r1 r2

/-- C88: if with the higher thresholds agreement between the closures of a pair of robots is transitive, no fewer of them
are accepted than with the lower ones; likewise for the observations of a landmark. -/
theorem C88_accepted {G : Type} [Group G] (p : Params K) (tn rn : G → K) (signed : Bool) (hm : p.method ≠ .none) {x y : Spec.Thr K} (hxy : Spec.Raised x y)
    {e1 e2 : Env G (GNoise C)} {start : Chr → Key} {owner : Key → Chr} {h : List (Op G (GNoise C))}
    (w : Spec.WellFed (p.cfgSimple C tn rn signed) start owner h) {s1 s2 : St G (PNode G) (GNoise C)}
    (r1 : ReachOk ((Spec.withThr p x).cfgSimple C tn rn signed) e1 h s1)
    (r2 : ReachOk ((Spec.withThr p y).cfgSimple C tn rn signed) e2 h s2) :
    (∀ id, Spec.Transitive s2 id → (Spec.selected s1 id).length ≤ (Spec.selected s2 id).length) ∧
      ∀ l, Spec.FromPoses s2 l → Spec.ObsTransitive s2 l → (Spec.acceptedOf s1 l).length ≤ (Spec.acceptedOf s2 l).length := by
  have hs := C88_registered p tn rn signed hm hxy w r1 r2
  have hr : (p.cfgSimple C tn rn signed).rejection = true := by simp [Params.cfgSimple, Params.cfg, hm]
  have ht := simpleTests_looser p tn rn hxy
  constructor
  · intro id htr
    obtain ⟨f, q1, q2⟩ := hs.closures id
    exact looser_count (c1 := (Spec.withThr p x).cfgSimple C tn rn signed) (c2 := (Spec.withThr p y).cfgSimple C tn rn signed)
      hr hr ht.loopOn.1 ht.loopOn.2 r1 r2 q1 q2 htr
  · intro l hf htr
    exact looser_obs (c1 := (Spec.withThr p x).cfgSimple C tn rn signed) (c2 := (Spec.withThr p y).cfgSimple C tn rn signed)
      hr hr r1 r2 (hs.observations l).1 (hs.observations l).2 hf htr

/-- C88, how many are accepted, for PCM2D / PCM3D. -/
theorem C88_accepted_cov {G : Type} [Group G] [AddGroup C] (p : Params K) (ce : CovEnv G C K) (signed : Bool) (hm : p.method ≠ .none) {x y : Spec.Thr K}
    (hxy : Spec.Raised x y) {e1 e2 : Env G (GNoise C)} {start : Chr → Key} {owner : Key → Chr} {h : List (Op G (GNoise C))}
    (w : Spec.WellFed (p.cfgCov ce signed) start owner h) {s1 s2 : St G (PCov G C) (GNoise C)}
    (r1 : ReachOk ((Spec.withThr p x).cfgCov ce signed) e1 h s1)
    (r2 : ReachOk ((Spec.withThr p y).cfgCov ce signed) e2 h s2) :
    (∀ id, Spec.Transitive s2 id → (Spec.selected s1 id).length ≤ (Spec.selected s2 id).length) ∧
      ∀ l, Spec.FromPoses s2 l → Spec.ObsTransitive s2 l → (Spec.acceptedOf s1 l).length ≤ (Spec.acceptedOf s2 l).length := by
  have hs := C88_registered_cov p ce signed hm hxy w r1 r2
  have hr : (p.cfgCov ce signed).rejection = true := by simp [Params.cfgCov, Params.cfg, hm]
  have ht := covTests_looser p ce hxy
  constructor
  · intro id htr
    obtain ⟨f, q1, q2⟩ := hs.closures id
    exact looser_count (c1 := (Spec.withThr p x).cfgCov ce signed) (c2 := (Spec.withThr p y).cfgCov ce signed)
      hr hr ht.loopOn.1 ht.loopOn.2 r1 r2 q1 q2 htr
  · intro l hf htr
    exact looser_obs (c1 := (Spec.withThr p x).cfgCov ce signed) (c2 := (Spec.withThr p y).cfgCov ce signed)
      hr hr r1 r2 (hs.observations l).1 (hs.observations l).2 hf htr

/-- A test of transitivity. -/
def transB {G T N : Type} (s : St G T N) (id : ObsId) : Bool :=
  let r := List.range (Spec.registered s id).length
  r.all fun i => r.all fun j => r.all fun k =>
    !(decide (Spec.Agree s id i j) && decide (Spec.Agree s id j k) && decide (i ≠ k)) || decide (Spec.Agree s id i k)

theorem transB_ok {G T N : Type} {s : St G T N} {id : ObsId} (h : transB s id = true) : Spec.Transitive s id := by
  intro i j k h1 h2 h3
  unfold transB at h
  simp only [List.all_eq_true, List.mem_range] at h
  have := h i h1.1 j h1.2.1 k h2.2.1
  simpa [h1, h2, h3] using this

/-- All thresholds of the simple methods are `t`. -/
def allThr (t : ℚ) : Spec.Thr ℚ := ⟨1, 1, t, t, t, t⟩

theorem allThr_raised : Spec.Raised (allThr 1) (allThr 2) :=
  ⟨by simp [allThr], Or.inr (by simp [allThr])⟩

/-- Closures between two robots and one within the first. -/
def gauging : List (Op Demo.Z Demo.Ns) :=
  singly [(0, 0, 5), (0, 0, 8), (0, 0, 20), (0, 0, 5)] ++ [.update [Demo.edge (Demo.a 0) (Demo.a 2) 6] [] false]

set_option maxRecDepth 100000 in
/-- The hypotheses of C88 are met, and the second solver registers and accepts more. -/
example : Demo.cfg = Demo.params.cfgSimple Unit Demo.len (fun _ => 0) true ∧ Demo.params.method ≠ .none ∧
    Spec.Raised (allThr 1) (allThr 2) ∧ Spec.WellFed Demo.cfg (fun c => symKey c 0) (fun _ => 97) gauging ∧
    (∃ s, ReachOk (Demo.mk (Spec.withThr Demo.params (allThr 1))) Demo.env gauging s ∧
      (Spec.selected s ⟨97, 98⟩).length = 2 ∧ Spec.registered s ⟨97, 97⟩ = [] ∧ s.nfg.length = 8) ∧
    ∃ s, ReachOk (Demo.mk (Spec.withThr Demo.params (allThr 2))) Demo.env gauging s ∧ Spec.Transitive s ⟨97, 98⟩ ∧
      (Spec.selected s ⟨97, 98⟩).length = 3 ∧ (Spec.registered s ⟨97, 97⟩).length = 1 ∧ s.nfg.length = 10 := by
  have hm : ∀ op ∈ gauging, Spec.Managed op ∧ ¬ Spec.Removes op := by
    intro op ho
    simp only [gauging, singly, duoOdometry, List.mem_append, List.mem_singleton, List.mem_map] at ho
    rcases ho with (rfl | ⟨_, _, rfl⟩) | rfl <;> exact ⟨trivial, fun h => h⟩
  refine ⟨rfl, by decide, allThr_raised, ⟨fun op ho => (hm op ho).1, fun op ho => (hm op ho).2,
      chains_of (by decide +kernel), onOdometry_of (by decide +kernel), keysKnown_of (by decide +kernel),
      by unfold Spec.OneObserver; decide +kernel⟩, ?_, ?_⟩
  · obtain ⟨s, r, h⟩ := Demo.runs_reach (cfg := Demo.mk (Spec.withThr Demo.params (allThr 1))) (env := Demo.env) (ops := gauging)
      (P := fun s => decide ((Spec.selected s ⟨97, 98⟩).length = 2 ∧ Spec.registered s ⟨97, 97⟩ = [] ∧ s.nfg.length = 8))
      (by decide +kernel)
    exact ⟨s, r, of_decide_eq_true h⟩
  · obtain ⟨s, r, h⟩ := Demo.runs_reach (cfg := Demo.mk (Spec.withThr Demo.params (allThr 2))) (env := Demo.env) (ops := gauging)
      (P := fun s => transB s ⟨97, 98⟩ && decide ((Spec.selected s ⟨97, 98⟩).length = 3 ∧ (Spec.registered s ⟨97, 97⟩).length = 1 ∧
        s.nfg.length = 10)) (by decide +kernel)
    rw [Bool.and_eq_true] at h
    exact ⟨s, r, transB_ok h.1, of_decide_eq_true h.2⟩

/-- Six closures. -/
def sixClosures : List (BitVec 56 × BitVec 56 × ℤ) := [(1, 1, 4), (3, 2, 5), (3, 2, 5), (1, 1, 4), (3, 2, 1), (1, 1, 0)]

set_option maxRecDepth 100000 in
/-- C88 needs that agreement is transitive: with thresholds 2 fewer closures are accepted than with thresholds 1. -/
theorem C88_false_fewer :
    (∃ s, ReachOk (Demo.mk (Spec.withThr Demo.params (allThr 1))) Demo.env (singly sixClosures) s ∧
      (Spec.selected s ⟨97, 98⟩).length = 4) ∧
    ∃ s, ReachOk (Demo.mk (Spec.withThr Demo.params (allThr 2))) Demo.env (singly sixClosures) s ∧
      (Spec.selected s ⟨97, 98⟩).length = 3 := by
  constructor
  · obtain ⟨s, r, h⟩ := Demo.runs_reach (cfg := Demo.mk (Spec.withThr Demo.params (allThr 1))) (env := Demo.env) (ops := singly sixClosures)
      (P := fun s => decide ((Spec.selected s ⟨97, 98⟩).length = 4)) (by decide +kernel)
    exact ⟨s, r, of_decide_eq_true h⟩
  · obtain ⟨s, r, h⟩ := Demo.runs_reach (cfg := Demo.mk (Spec.withThr Demo.params (allThr 2))) (env := Demo.env) (ops := singly sixClosures)
      (P := fun s => decide ((Spec.selected s ⟨97, 98⟩).length = 3)) (by decide +kernel)
    exact ⟨s, r, of_decide_eq_true h⟩

set_option maxRecDepth 100000 in
/-- A closure accepted with lower thresholds need not be accepted with higher ones, even if agreement is transitive:
others that now agree with each other displace it. -/
theorem C88_false_displaced :
    (∃ s, ReachOk (Demo.mk (Spec.withThr Demo.params (allThr 1))) Demo.env (singly [(2, 2, 0), (2, 2, 4), (2, 1, 6)]) s ∧
      Spec.selected s ⟨97, 98⟩ = [Demo.btw (Demo.a 2) (Demo.b 2) 0]) ∧
    ∃ s, ReachOk (Demo.mk (Spec.withThr Demo.params (allThr 2))) Demo.env (singly [(2, 2, 0), (2, 2, 4), (2, 1, 6)]) s ∧
      Spec.Transitive s ⟨97, 98⟩ ∧ Demo.btw (Demo.a 2) (Demo.b 2) 0 ∉ Spec.selected s ⟨97, 98⟩ := by
  constructor
  · obtain ⟨s, r, h⟩ := Demo.runs_reach (cfg := Demo.mk (Spec.withThr Demo.params (allThr 1))) (env := Demo.env)
      (ops := singly [(2, 2, 0), (2, 2, 4), (2, 1, 6)])
      (P := fun s => decide (Spec.selected s ⟨97, 98⟩ = [Demo.btw (Demo.a 2) (Demo.b 2) 0])) (by decide +kernel)
    exact ⟨s, r, of_decide_eq_true h⟩
  · obtain ⟨s, r, h⟩ := Demo.runs_reach (cfg := Demo.mk (Spec.withThr Demo.params (allThr 2))) (env := Demo.env)
      (ops := singly [(2, 2, 0), (2, 2, 4), (2, 1, 6)])
      (P := fun s => transB s ⟨97, 98⟩ && decide (Demo.btw (Demo.a 2) (Demo.b 2) 0 ∉ Spec.selected s ⟨97, 98⟩)) (by decide +kernel)
    rw [Bool.and_eq_true] at h
    exact ⟨s, r, transB_ok h.1, of_decide_eq_true h.2⟩

end RPGO.Props
