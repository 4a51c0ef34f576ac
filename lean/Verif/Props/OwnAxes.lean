import Verif.Proofs.Reframe
import Verif.Props.Axes
import Verif.Props.LandMatrix
/-
C98: each robot may have its own axes.
-/

namespace RPGO.Spec
variable {G T N C : Type}

/-- Each robot `a` (and each kind of landmark) has turned the axes it carries along by `c a`: a measurement from a pose of robot `a` to one of
robot `b` is written `c a · m · (c b)⁻¹`, and a pose `x` of robot `a` is written `x · (c a)⁻¹`; covariances of measurements, which refer to the
axes at their end, are written anew by `κ`. -/
def ownAxes [Group G] (c : Chr → G) (κ : Chr → C → C) : KeyConv G (GNoise C) G (GNoise C) where
  meas a b m := c (chr a) * m * (c (chr b))⁻¹
  pose k x := x * (c (chr k))⁻¹
  noise _ b n := ⟨κ (chr b) n.cov, n.rotNaN⟩

/-- All measurements between the same two different robots have the same direction. -/
def OneWay (cfg : Cfg G T N) (h : List (Op G N)) : Prop :=
  ∀ o1 ∈ h, ∀ x ∈ opBtws o1, ∀ o2 ∈ h, ∀ y ∈ opBtws o2, isLandmark cfg x = false → isLandmark cfg y = false →
    chr x.k1 = chr y.k2 → chr x.k2 = chr y.k1 → chr x.k1 = chr x.k2

/-- The two hash tables are traversed in the corresponding order. -/
structure SameTraversal {G' N' : Type} (f : KeyConv G N G' N') (env : Env G N) (env' : Env G' N') : Prop where
  lc : ∀ l, env'.iterLC (l.map fun e => (e.1, kvMeas f e.2)) = (env.iterLC l).map fun e => (e.1, kvMeas f e.2)
  lm : ∀ l, env'.iterLM (l.map fun e => (e.1, kvMeas f e.2)) = (env.iterLM l).map fun e => (e.1, kvMeas f e.2)

/-- The two solvers hold the same, written differently: the graph, the closures of each pair of robots, those selected and which of them agree, the
observations of each landmark and which of them agree; they have estimates for the same keys and report the same counts. -/
structure SameWritten {G' N' T' : Type} (f : KeyConv G N G' N') (cfg : Cfg G T N) (cfg' : Cfg G' T' N') (env : Env G N) (env' : Env G' N') [Mul G] [Inv G] [One G] [Mul G'] [Inv G']
    [One G'] (s : St G T N) (s' : St G' T' N') : Prop where
  graph : s'.nfg = kvGraph f s.nfg
  registered : ∀ id, registered s' id = (registered s id).map (kvBtw f)
  selected : ∀ id, selected s' id = (selected s id).map (kvBtw f)
  matrix : ∀ id, matrix s' id = matrix s id
  observed : ∀ l, observed s' l = (observed s l).map (kvBtw f)
  landMatrix : ∀ l, landMatrix s' l = landMatrix s l
  keys : s'.values.keys = s.values.keys
  numLC : ∀ n, NumLC cfg' env' s' n ↔ NumLC cfg env s n
  numInliers : cfg.useGnc = false → ∀ n, NumInliers cfg' env' s' n ↔ NumInliers cfg env s n

end RPGO.Spec

namespace RPGO
open Spec
variable {G C K : Type} [Group G] [Field K] [LinearOrder K]

/-- A pair of poses from robot `a` to robot `b`, the second of which is the first in own axes. -/
def Coh (c : Chr → G) (a b : Chr) (g : G × G) : Prop := g.2 = c a * g.1 * (c b)⁻¹

namespace Coh
variable {c : Chr → G} {a b d : Chr} {g h : G × G}
theorem one : Coh c a a 1 := by show (1 : G) = c a * 1 * (c a)⁻¹; simp
theorem mul (h1 : Coh c a b g) (h2 : Coh c b d h) : Coh c a d (g * h) := by
  show g.2 * h.2 = c a * (g.1 * h.1) * (c d)⁻¹
  rw [h1, h2]; group
theorem inv (h : Coh c a b g) : Coh c b a g⁻¹ := by
  show g.2⁻¹ = c b * g.1⁻¹ * (c a)⁻¹
  rw [h]; group
theorem prod {N : Type} {l : List (Btw (G × G) N)} (h : ∀ x ∈ l, Coh c a a x.m) : Coh c a a (measProd l) := by
  unfold measProd
  induction l with
  | nil => exact one
  | cons x l ih =>
    rw [List.map_cons, List.prod_cons]
    exact (h x (by simp)).mul (ih fun y hy => h y (by simp [hy]))
theorem rel {N : Type} {l : List (Btw (G × G) N)} (h : ∀ x ∈ l, Coh c a a x.m) (i j : Nat) : Coh c a a (Spec.rel l i j) := by
  have hs : ∀ i j, Coh c a a (measProd (seg l i j)) := fun i j =>
    prod fun x hx => h x (List.mem_of_mem_take (List.mem_of_mem_drop hx))
  unfold Spec.rel
  split
  · exact hs _ _
  · exact (hs _ _).inv
end Coh

/-- Both ways of writing, side by side. -/
def bothAxes (c : Chr → G) (κ : Chr → C → C) : KeyConv G (GNoise C) (G × G) (GNoise (C × C)) where
  meas a b m := (m, c (chr a) * m * (c (chr b))⁻¹)
  pose k x := (x, x * (c (chr k))⁻¹)
  noise _ b n := ⟨(n.cov, κ (chr b) n.cov), n.rotNaN⟩

/-- The size of an error does not depend on the axes in which it is written. -/
theorem below_coh {c : Chr → G} {tn rn : G → K} (ht : ∀ a g, tn (c a * g * (c a)⁻¹) = tn g) (hr : ∀ a g, rn (c a * g * (c a)⁻¹) = rn g)
    {a : Chr} {g : G × G} (hg : Coh c a a g) (t r : K) (n : Nat) (P : Prop) :
    Below (fun g : G × G => tn g.1) (fun g => rn g.1) t r g n P ↔ Below (fun g : G × G => tn g.2) (fun g => rn g.2) t r g n P := by
  unfold Below
  dsimp only
  rw [show g.2 = _ from hg, ht, hr]

section
variable {p : Params K} {signed : Bool} {c : Chr → G} {κ : Chr → C → C} {tn rn : G → K}

theorem both_odom {g : List (Op G (GNoise C))} {start : Chr → Key} {cfg : Cfg (G × G) (PNode (G × G)) (GNoise (C × C))}
    (hch : Chains cfg start (g.map (kvOp (bothAxes c κ)))) (a : Chr) :
    ∀ x ∈ robotOdom cfg a (g.map (kvOp (bothAxes c κ))), Coh c a a x.m := by
  intro x hx
  have h2 : chr x.k2 = a := by simpa using (List.mem_filter.1 hx).2
  obtain ⟨op, hop, hb⟩ := List.mem_flatMap.1 (List.mem_filter.1 hx).1
  have h1 : chr x.k1 = a := by
    obtain ⟨h0, ch, _⟩ := hch a
    obtain ⟨i, hi, e⟩ := List.getElem_of_mem hx
    have e' : (robotOdom cfg a (g.map (kvOp (bothAxes c κ))))[i]? = some x := by rw [List.getElem?_eq_getElem hi, e]
    rw [(Chain.get ch i e').1]
    cases i with
    | zero => simpa [after] using h0
    | succ j =>
      have hj : (robotOdom cfg a (g.map (kvOp (bothAxes c κ))))[j]? = some (robotOdom cfg a (g.map (kvOp (bothAxes c κ))))[j] :=
        List.getElem?_eq_getElem (by omega)
      rw [← (Chain.get ch j hj).2]
      simpa using (List.mem_filter.1 (List.getElem_mem (show j < (robotOdom cfg a (g.map (kvOp (bothAxes c κ)))).length by omega))).2
  have : x ∈ opBtws op := by
    unfold opOdom odoms at hb
    unfold opBtws
    cases hbt : batch op with
    | none => rw [hbt] at hb; cases hb
    | some z => rw [hbt] at hb; exact (List.mem_filter.1 hb).1
  obtain ⟨o, _, rfl⟩ := List.mem_map.1 hop
  rw [opBtws_kv] at this
  obtain ⟨b, _, rfl⟩ := List.mem_map.1 this
  show c (chr b.k1) * b.m * (c (chr b.k2))⁻¹ = c a * b.m * (c a)⁻¹
  rw [show chr b.k1 = a from h1, show chr b.k2 = a from h2]

variable (ht : ∀ a g, tn (c a * g * (c a)⁻¹) = tn g) (hrn : ∀ a g, rn (c a * g * (c a)⁻¹) = rn g) (hm : p.method ≠ .none)
include ht hrn hm

theorem both_verdicts {h : List (Op G (GNoise C))} (hw : OneWay (p.cfgSimple C tn rn signed) h) {start : Chr → Key} {e1 e2 : Env (G × G) (GNoise (C × C))}
    {g1 g2 : List (Op (G × G) (GNoise (C × C)))} {t1 t2 : St (G × G) (PNode (G × G)) (GNoise (C × C))}
    (hp : g1 <+: h.map (kvOp (bothAxes c κ))) (hc : SameGraphCalls g1 g2)
    (hch : Chains (p.cfgSimple (C × C) (fun g : G × G => tn g.1) (fun g => rn g.1) signed) start g1)
    (r1 : ReachOk (p.cfgSimple (C × C) (fun g : G × G => tn g.1) (fun g => rn g.1) signed) e1 g1 t1)
    (r2 : ReachOk (p.cfgSimple (C × C) (fun g : G × G => tn g.2) (fun g => rn g.2) signed) e2 g2 t2) :
    SameVerdicts (p.cfgSimple (C × C) (fun g : G × G => tn g.1) (fun g => rn g.1) signed)
      (p.cfgSimple (C × C) (fun g : G × G => tn g.2) (fun g => rn g.2) signed) start g1
      (Checked (p.cfgSimple (C × C) (fun g : G × G => tn g.1) (fun g => rn g.1) signed) g1) t1.pcm t2.pcm := by
  obtain ⟨g, ⟨gt, rfl⟩, rfl⟩ : ∃ g, g <+: h ∧ g1 = g.map (kvOp (bothAxes c κ)) := by
    obtain ⟨t, e⟩ := hp
    obtain ⟨a, b, e1, e2, e3⟩ := List.map_eq_append_iff.1 e.symm
    exact ⟨a, ⟨b, e1.symm⟩, e2.symm⟩
  set A := p.cfgSimple (C × C) (fun g : G × G => tn g.1) (fun g => rn g.1) signed with hA
  set B := p.cfgSimple (C × C) (fun g : G × G => tn g.2) (fun g => rn g.2) signed with hB
  have hod : ∀ a, robotOdom A a (g.map (kvOp (bothAxes c κ))) = robotOdom B a g2 := fun a => by
    have := (sameGraph_odom (cfg := A) hc).1
    unfold robotOdom
    rw [this]; rfl
  have hch2 : Chains B start g2 := fun a => by rw [← hod]; exact hch a
  have coh := both_odom hch
  have at' : ∀ {k}, OnChain A start (g.map (kvOp (bothAxes c κ))) k → ∃ i, At (chr k) (start (chr k)) (robotOdom A (chr k) (g.map (kvOp (bothAxes c κ)))) k i :=
    fun {k} ⟨i, hi, e⟩ => ⟨i, rfl, hi, e⟩
  have src : ∀ {b : Btw (G × G) (GNoise (C × C))}, Checked A (g.map (kvOp (bothAxes c κ))) b →
      Coh c (chr b.k1) (chr b.k2) b.m ∧ ∃ o ∈ g ++ gt, ∃ x ∈ opBtws o, b = kvBtw (bothAxes c κ) x := by
    rintro b ⟨op, hop, hb, -⟩
    obtain ⟨o, ho, rfl⟩ := List.mem_map.1 hop
    rw [opBtws_kv] at hb
    obtain ⟨x, hx, rfl⟩ := List.mem_map.1 hb
    exact ⟨rfl, o, by simp [ho], x, hx, rfl⟩
  refine ⟨fun b hb hk h1 h2 => ?_, fun x y hx hy lx ly hpair hon => ?_, fun l x y hx hy ex ey hk h1 h2 => ?_⟩
  · cases hn : b.noise with
    | none => unfold odomVerdict; rw [hn]; rfl
    | some n =>
      obtain ⟨i, hi⟩ := at' h1
      obtain ⟨j, hj⟩ := at' h2
      rw [← hk] at hj
      obtain ⟨v, e, hv⟩ := Props.C50_odometry_check p (fun g : G × G => tn g.1) (fun g => rn g.1) signed hm r1 hch rfl hi hj (by rw [hn]; rfl)
      obtain ⟨w, e', hw'⟩ := Props.C50_odometry_check p (fun g : G × G => tn g.2) (fun g => rn g.2) signed hm r2 hch2 (hod _) hi hj (by rw [hn]; rfl)
      have e1 : v = odomVerdict A (lk A t1.pcm) b := odomCheck_val e
      have e2 : w = odomVerdict B (lk A t2.pcm) b := odomCheck_val e'
      rw [← e1, ← e2, Bool.eq_iff_iff, hv, hw']
      refine or_congr Iff.rfl (below_coh ht hrn (a := chr b.k1) ?_ _ _ _ _)
      have := (src hb).1
      rw [← hk] at this
      exact (Coh.rel (coh _) i j).mul this.inv
  · cases hnx : x.noise with
    | none => unfold loopVerdict; rw [hnx]; rfl
    | some n =>
      cases hny : y.noise with
      | none => unfold loopVerdict; rw [hnx, hny]; rfl
      | some m =>
        obtain ⟨cx, o1, ho1, x0, hx0, rfl⟩ := src hx
        obtain ⟨cy, o2, ho2, y0, hy0, rfl⟩ := src hy
        have same : chr x0.k1 = chr y0.k1 ∧ chr x0.k2 = chr y0.k2 := by
          rcases hpair with h | ⟨h1, h2⟩
          · exact h
          · have := hw o1 ho1 x0 hx0 o2 ho2 y0 hy0 lx ly h1 h2
            exact ⟨this.trans h2, this.symm.trans h1⟩
        simp only [List.mem_cons, List.not_mem_nil, or_false, forall_eq_or_imp, forall_eq] at hon
        obtain ⟨hon1, hon2, hon3, hon4⟩ := hon
        obtain ⟨i, hi⟩ := at' hon1
        obtain ⟨j, hj⟩ := at' hon2
        obtain ⟨k, hk⟩ := at' hon3
        obtain ⟨l, hl⟩ := at' hon4
        change At (chr x0.k1) (start (chr x0.k1)) (robotOdom A (chr x0.k1) (g.map (kvOp (bothAxes c κ)))) x0.k1 i at hi
        change At (chr x0.k2) (start (chr x0.k2)) (robotOdom A (chr x0.k2) (g.map (kvOp (bothAxes c κ)))) x0.k2 j at hj
        change At (chr y0.k1) (start (chr y0.k1)) (robotOdom A (chr y0.k1) (g.map (kvOp (bothAxes c κ)))) y0.k1 k at hk
        change At (chr y0.k2) (start (chr y0.k2)) (robotOdom A (chr y0.k2) (g.map (kvOp (bothAxes c κ)))) y0.k2 l at hl
        rw [← same.1] at hk
        rw [← same.2] at hl
        obtain ⟨v, e, hv⟩ := Props.C51_pairwise_check p (fun g : G × G => tn g.1) (fun g => rn g.1) signed hm r1 hch rfl rfl
          (x := kvBtw (bothAxes c κ) x0) (y := kvBtw (bothAxes c κ) y0) hi hj hk hl (by rw [hnx]; rfl) (by rw [hny]; rfl)
        obtain ⟨w, e', hw'⟩ := Props.C51_pairwise_check p (fun g : G × G => tn g.2) (fun g => rn g.2) signed hm r2 hch2 (hod _) (hod _)
          (x := kvBtw (bothAxes c κ) x0) (y := kvBtw (bothAxes c κ) y0) hi hj hk hl (by rw [hnx]; rfl) (by rw [hny]; rfl)
        have e1 : v = loopVerdict A (lk A t1.pcm) _ _ := pairCheck_val e
        have e2 : w = loopVerdict B (lk A t2.pcm) _ _ := pairCheck_val e'
        rw [← e1, ← e2, Bool.eq_iff_iff, hv, hw']
        refine or_congr Iff.rfl (below_coh ht hrn (a := chr x0.k2) ?_ _ _ _ _)
        have cx' : Coh c (chr x0.k1) (chr x0.k2) (kvBtw (bothAxes c κ) x0).m := cx
        have cy' : Coh c (chr y0.k1) (chr y0.k2) (kvBtw (bothAxes c κ) y0).m := cy
        rw [← same.1, ← same.2] at cy'
        exact (((Coh.rel (coh _) i k).mul cy').inv.mul cx').mul (Coh.rel (coh _) j l)
  · cases hnx : x.noise with
    | none => unfold landVerdict; rw [hnx]
    | some n =>
      cases hny : y.noise with
      | none => unfold landVerdict; rw [hnx, hny]
      | some m =>
        obtain ⟨i, hi⟩ := at' h1
        obtain ⟨j, hj⟩ := at' h2
        rw [← hk] at hj
        obtain ⟨v, e, hv⟩ := Props.C52_check_partial p (fun g : G × G => tn g.1) (fun g => rn g.1) signed hm r1 hch rfl hi hj (by rw [hnx]; rfl) (by rw [hny]; rfl)
        obtain ⟨w, e', hw'⟩ := Props.C52_check_partial p (fun g : G × G => tn g.2) (fun g => rn g.2) signed hm r2 hch2 (hod _) hi hj (by rw [hnx]; rfl) (by rw [hny]; rfl)
        have e1 : v = landVerdict A (lk A t1.pcm) x y := landCheck_val e
        have e2 : w = landVerdict B (lk A t2.pcm) x y := landCheck_val e'
        rw [← e1, ← e2, Bool.eq_iff_iff, hv, hw']
        refine below_coh ht hrn (a := chr x.k2) ?_ _ _ _ _
        have cy := (src hy).1
        rw [ey, ← ex, ← hk] at cy
        exact ((Coh.rel (coh _) i j).mul cy).inv.mul (src hx).1

end

section
variable {T N T' G' N' : Type} {f : KeyConv G N G' N'}

theorem buildGraph_kv {env : Env G N} {env' : Env G' N'} (hi : SameTraversal f env env') {p : Pcm G T N} {q : Pcm G' T' N'}
    (ho : q.odom = p.odom.map (kvBtw f)) (hs : q.special = p.special.map (kvFactor f)) (hlc : q.lcs = p.lcs.map fun e => (e.1, kvMeas f e.2))
    (hlm : q.landmarks = p.landmarks.map fun e => (e.1, kvMeas f e.2)) (hig : q.ignored = p.ignored) :
    buildGraph env' q = kvGraph f (buildGraph env p) := by
  unfold buildGraph kvGraph
  rw [List.map_append, List.map_append, List.map_append, ho, hs, hlc, hlm, hig, hi.lc, hi.lm]
  have cons : ∀ m : Meas G N, (kvMeas f m).cons.map (fun b => some (Factor.btw b)) =
      (m.cons.map fun b => some (Factor.btw b)).map (Option.map (kvFactor f)) := by
    intro m
    show (m.cons.map (kvBtw f)).map _ = _
    rw [List.map_map, List.map_map]; rfl
  refine congr (congrArg _ (congr (congrArg _ (congr (congrArg _ ?_) ?_)) ?_)) ?_
  · rw [List.map_map, List.map_map]; rfl
  · rw [List.map_map, List.map_map]; rfl
  · rw [List.flatMap_map, List.map_flatMap]
    refine List.flatMap_congr fun e _ => ?_
    show (if !p.ignored.contains e.1.id1 && !p.ignored.contains e.1.id2 then _ else _) = List.map _ (if _ then _ else _)
    split
    · exact cons e.2
    · rfl
  · rw [List.flatMap_map, List.map_flatMap]
    exact List.flatMap_congr fun e _ => cons e.2

end

section
variable [IsStrictOrderedRing K]

theorem ownAxes_result {p : Params K} {signed : Bool} {c : Chr → G} {κ : Chr → C → C} {tn rn : G → K}
    (ht : ∀ a g, tn (c a * g * (c a)⁻¹) = tn g) (hrn : ∀ a g, rn (c a * g * (c a)⁻¹) = rn g) (hm : p.method ≠ .none)
    {owner : Key → Chr} (hown : ∀ l, owner l ∉ p.special) {env env' : Env G (GNoise C)} (he : env.Ok) (he' : env'.Ok)
    (hi : SameTraversal (ownAxes c κ) env env') {h : List (Op G (GNoise C))} (hman : ∀ op ∈ h, Managed op)
    (hob : OneObserver (p.cfgSimple C tn rn signed) owner h) {start : Chr → Key} (hch : Chains (p.cfgSimple C tn rn signed) start h)
    (hon : OnOdometry (p.cfgSimple C tn rn signed) start h) (hw : OneWay (p.cfgSimple C tn rn signed) h) {s s' : St G (PNode G) (GNoise C)}
    (r : ReachOk (p.cfgSimple C tn rn signed) env h s) (r' : ReachOk (p.cfgSimple C tn rn signed) env' (h.map (kvOp (ownAxes c κ))) s') :
    SameWritten (ownAxes c κ) (p.cfgSimple C tn rn signed) (p.cfgSimple C tn rn signed) env env' s s' := by
  have hr : (p.cfgSimple C tn rn signed).rejection = true := by simp [Params.cfgSimple, Params.cfg, hm]
  have hp : inUnits 1 p = p := by unfold inUnits; rw [one_mul, one_mul]
  have hom1 : CfgHom (MonoidHom.fst G G) (fun n : GNoise (C × C) => (⟨n.cov.1, n.rotNaN⟩ : GNoise C)) (fun a => ⟨a.pose.1, a.node, a.rot⟩)
      (p.cfgSimple (C × C) (fun g : G × G => tn g.1) (fun g => rn g.1) signed) (p.cfgSimple C tn rn signed) := by
    have := simple_hom (C := C × C) (C' := C) (c := (1 : K)) one_pos (φ := MonoidHom.fst G G) (ν := fun n => ⟨n.cov.1, n.rotNaN⟩) (fun _ => rfl)
      (tn := fun g : G × G => tn g.1) (tn' := tn) (rn := fun g => rn g.1) (rn' := rn) (fun g => by rw [one_mul]; rfl) (fun g => rfl) p signed
    rw [hp] at this
    exact this
  have hom2 : CfgHom (MonoidHom.snd G G) (fun n : GNoise (C × C) => (⟨n.cov.2, n.rotNaN⟩ : GNoise C)) (fun a => ⟨a.pose.2, a.node, a.rot⟩)
      (p.cfgSimple (C × C) (fun g : G × G => tn g.2) (fun g => rn g.2) signed) (p.cfgSimple C tn rn signed) := by
    have := simple_hom (C := C × C) (C' := C) (c := (1 : K)) one_pos (φ := MonoidHom.snd G G) (ν := fun n => ⟨n.cov.2, n.rotNaN⟩) (fun _ => rfl)
      (tn := fun g : G × G => tn g.2) (tn' := tn) (rn := fun g => rn g.2) (rn' := rn) (fun g => by rw [one_mul]; rfl) (fun g => rfl) p signed
    rw [hp] at this
    exact this
  obtain ⟨E1, -, c1⟩ := lift_env (φ := MonoidHom.fst G G) (fun n : GNoise (C × C) => (⟨n.cov.1, n.rotNaN⟩ : GNoise C)) (u := fun x => (x, x)) (fun _ => rfl) p.align he
  obtain ⟨E2, -, c2⟩ := lift_env (φ := MonoidHom.snd G G) (fun n : GNoise (C × C) => (⟨n.cov.2, n.rotNaN⟩ : GNoise C)) (u := fun x => (x, x)) (fun _ => rfl) p.align he'
  have hA : h = (h.map (kvOp (bothAxes c κ))).map (cvOp (MonoidHom.fst G G) (fun n : GNoise (C × C) => (⟨n.cov.1, n.rotNaN⟩ : GNoise C))) := by
    rw [List.map_map, List.map_congr_left (g := id) ?_, List.map_id]
    intro op _
    exact (cv_kvOp _ _ _ op).trans (kvOp_id _ (fun _ _ _ => rfl) (fun _ _ => rfl) (fun _ _ _ => rfl) op)
  have hB : h.map (kvOp (ownAxes c κ)) =
      (h.map (kvOp (bothAxes c κ))).map (cvOp (MonoidHom.snd G G) (fun n : GNoise (C × C) => (⟨n.cov.2, n.rotNaN⟩ : GNoise C))) := by
    rw [List.map_map]
    refine List.map_congr_left fun op _ => ?_
    exact (cv_kvOp (bothAxes c κ) (MonoidHom.snd G G) (fun n : GNoise (C × C) => (⟨n.cov.2, n.rotNaN⟩ : GNoise C)) op).symm
  obtain ⟨t1, q1, rfl⟩ := reachOk_back hom1 c1 r _ hA
  obtain ⟨t2, q2, rfl⟩ := reachOk_back hom2 c2 r' _ hB
  have hsp : (p.cfgSimple (C × C) (fun g : G × G => tn g.1) (fun g => rn g.1) signed).special = (p.cfgSimple C tn rn signed).special := rfl
  have tw : Twin t1.pcm t2.pcm := twin_of_verdicts (co := (p.cfgSimple (C × C) (fun g : G × G => tn g.2) (fun g => rn g.2) signed).ops.odomOk)
    (cl := (p.cfgSimple (C × C) (fun g : G × G => tn g.2) (fun g => rn g.2) signed).ops.loopOk)
    (cfg := p.cfgSimple (C × C) (fun g : G × G => tn g.1) (fun g => rn g.1) signed) hr hown
    (by
      have : ∀ l : List (Op (G × G) (GNoise (C × C))), SameGraphCalls l l := fun l => by
        induction l using List.reverseRecOn with
        | nil => exact .nil
        | append_singleton l o ih => exact .both ih (Or.inl rfl)
      exact this (h.map (kvOp (bothAxes c κ))))
    (fun op hop => by
      obtain ⟨o, ho, rfl⟩ := List.mem_map.1 hop
      exact (managed_kv _ o).2 (hman o ho))
    (oneObserver_kv _ _ _ hsp hob) ((chains_kv _ _ _ hsp).2 hch) (onOdometry_kv _ _ _ hsp hon) q1 q2
    (fun g1 g2 u1 u2 hpre hc hch1 x1 x2 => both_verdicts ht hrn hm hw hpre hc hch1 x1 x2)
  have cvE : ∀ b, (∃ op ∈ h.map (kvOp (bothAxes c κ)), b ∈ opBtws op) →
      cvBtw (MonoidHom.snd G G) (fun n : GNoise (C × C) => (⟨n.cov.2, n.rotNaN⟩ : GNoise C)) b =
        kvBtw (ownAxes c κ) (cvBtw (MonoidHom.fst G G) (fun n : GNoise (C × C) => (⟨n.cov.1, n.rotNaN⟩ : GNoise C)) b) := by
    rintro b ⟨op, hop, hb⟩
    obtain ⟨o, ho, rfl⟩ := List.mem_map.1 hop
    rw [opBtws_kv] at hb
    obtain ⟨x, hx, rfl⟩ := List.mem_map.1 hb
    obtain ⟨k1, k2, m, n⟩ := x
    cases n <;> rfl
  have cvM : ∀ {κ' : Type} {l : List (κ' × Meas (G × G) (GNoise (C × C)))}, AllIn (fun b => ∃ op ∈ h.map (kvOp (bothAxes c κ)), b ∈ opBtws op) l →
      (l.map fun e => (e.1, cvMeas (MonoidHom.snd G G) (fun n : GNoise (C × C) => (⟨n.cov.2, n.rotNaN⟩ : GNoise C)) e.2)) =
        (l.map fun e => (e.1, cvMeas (MonoidHom.fst G G) (fun n : GNoise (C × C) => (⟨n.cov.1, n.rotNaN⟩ : GNoise C)) e.2)).map
          fun e => (e.1, kvMeas (ownAxes c κ) e.2) := by
    intro κ' l hl
    rw [List.map_map]
    refine List.map_congr_left fun e he => ?_
    obtain ⟨h1, h2⟩ := hl e he
    show (e.1, _) = (e.1, _)
    unfold cvMeas kvMeas
    rw [List.map_map, List.map_map, List.map_congr_left fun b hb => cvE b (h1 b hb), List.map_congr_left fun b hb => cvE b (h2 b hb)]
    rfl
  have hr1 : (p.cfgSimple (C × C) (fun g : G × G => tn g.1) (fun g => rn g.1) signed).rejection = true := hr
  set s1 := cvSt (MonoidHom.fst G G) (fun n : GNoise (C × C) => (⟨n.cov.1, n.rotNaN⟩ : GNoise C)) (fun a : PNode (G × G) => (⟨a.pose.1, a.node, a.rot⟩ : PNode G)) t1 with hs1
  set s2 := cvSt (MonoidHom.snd G G) (fun n : GNoise (C × C) => (⟨n.cov.2, n.rotNaN⟩ : GNoise C)) (fun a : PNode (G × G) => (⟨a.pose.2, a.node, a.rot⟩ : PNode G)) t2 with hs2
  have hlc : s2.pcm.lcs = s1.pcm.lcs.map fun e => (e.1, kvMeas (ownAxes c κ) e.2) := by
    have := cvM (lcs_supplied hr1 q1.reach)
    rw [tw.lcs] at this
    refine Eq.trans this ?_
    rw [← tw.lcs]; rfl
  have hlm : s2.pcm.landmarks = s1.pcm.landmarks.map fun e => (e.1, kvMeas (ownAxes c κ) e.2) := by
    have := cvM (landmarks_supplied hr1 q1.reach)
    rw [tw.landmarks] at this
    refine Eq.trans this ?_
    rw [← tw.landmarks]; rfl
  have hman' : ∀ op ∈ h.map (kvOp (ownAxes c κ)), Managed op := fun op hop => by
    obtain ⟨o, ho, rfl⟩ := List.mem_map.1 hop
    exact (managed_kv _ o).2 (hman o ho)
  obtain ⟨g1, o1, x1⟩ := r.lists he hr hman
  obtain ⟨g2, o2, x2⟩ := r'.lists he' hr hman'
  have lcE : ∀ id, lcOf s2.pcm id = kvMeas (ownAxes c κ) (lcOf s1.pcm id) := fun id => by
    unfold lcOf
    rw [hlc, alist_getId]
    cases AList.get? ObsId.eqv s1.pcm.lcs id <;> rfl
  have lmE : ∀ l, lmOf s2.pcm l = kvMeas (ownAxes c κ) (lmOf s1.pcm l) := fun l => by
    unfold lmOf
    rw [hlm, alist_getId]
    cases AList.get? (· == ·) s1.pcm.landmarks l <;> rfl
  refine ⟨?_, fun id => ?_, fun id => ?_, fun id => ?_, fun l => ?_, fun l => ?_, ?_, fun n => ?_, fun hg n => ?_⟩
  · rw [g1, g2]
    exact buildGraph_kv hi (by rw [o1, o2]; exact odomSoFar_kv _ _ _ rfl h) (by rw [x1, x2]; exact specialSoFar_kv _ _ _ rfl h) hlc hlm tw.ignored.symm
  · unfold registered; rw [lcE]; rfl
  · unfold selected; rw [lcE]; rfl
  · unfold matrix; rw [lcE]; rfl
  · unfold observed; rw [lmE]; rfl
  · unfold landMatrix; rw [lmE]; rfl
  · obtain ⟨a1, a2⟩ := Props.C34_estimate_keys r
    obtain ⟨b1, b2⟩ := Props.C34_estimate_keys r'
    refine List.Pairwise.eq_of_mem_iff (r := fun a b : Key => a.toNat < b.toNat) b2 a2 fun k => ?_
    rw [a1 k, b1 k]
    constructor
    · rintro ⟨op, hop, hk⟩
      obtain ⟨o, ho, rfl⟩ := List.mem_map.1 hop
      exact ⟨o, ho, by rwa [opKeys_kv] at hk⟩
    · rintro ⟨o, ho, hk⟩
      exact ⟨_, List.mem_map.2 ⟨o, ho, rfl⟩, by rwa [opKeys_kv]⟩
  · rw [Props.numLC_iff hr, Props.numLC_iff hr, show s2.pcm.totalLc = s1.pcm.totalLc from tw.totalLc.symm]
  · rw [Props.numInliers_iff hr hg, Props.numInliers_iff hr hg, show s2.pcm.totalGood = s1.pcm.totalGood from tw.totalGood.symm]

end
end RPGO

namespace RPGO.Props
open RPGO Spec

section
variable {G K C : Type} [Group G] [Field K] [LinearOrder K] [IsStrictOrderedRing K]

/-- C98 (PCM_Simple3D): let each robot turn the axes it carries along by its own rotation `c a`. Then two solvers, one given the measurements and values
as they were and the other in the new axes, hold the same, whatever the optimizer makes of the values in the one and in the other. The conditions
are those of C58, and that measurements between the same two robots have the same direction. -/
theorem C98_own_axes (p : Params K) (nrm : List K → K) {ω v : G → List K} (ht : Tangent .three ω v) {c : Chr → G} (hc : ∀ a, KeepsSizes nrm ω v (c a))
    {κ : Chr → C → C} (signed : Bool) (hm : p.method ≠ .none) (owner : Key → Chr) (hown : ∀ l, owner l ∉ p.special) {env env' : Env G (GNoise C)}
    (he : env.Ok) (he' : env'.Ok) (hi : SameTraversal (ownAxes c κ) env env') {h : List (Op G (GNoise C))} (hman : ∀ op ∈ h, Managed op)
    (hob : OneObserver (poseCfg p .three C nrm ω v signed) owner h) (start : Chr → Key) (hch : Chains (poseCfg p .three C nrm ω v signed) start h)
    (hon : OnOdometry (poseCfg p .three C nrm ω v signed) start h) (hw : OneWay (poseCfg p .three C nrm ω v signed) h) {s s' : St G (PNode G) (GNoise C)}
    (r : ReachOk (poseCfg p .three C nrm ω v signed) env h s)
    (r' : ReachOk (poseCfg p .three C nrm ω v signed) env' (h.map (kvOp (ownAxes c κ))) s') :
    SameWritten (ownAxes c κ) (poseCfg p .three C nrm ω v signed) (poseCfg p .three C nrm ω v signed) env env' s s' :=
  ownAxes_result (fun a g => by rw [(C54_norms_3d nrm ht _).1, (C54_norms_3d nrm ht _).1]; exact (hc a).trans g)
    (fun a g => by rw [(C54_norms_3d nrm ht _).2, (C54_norms_3d nrm ht _).2]; exact (hc a).rot g) hm hown he he' hi hman hob hch hon hw r r'

end

/-! ### In the plane -/

open Plane in
/-- Robot `b` has turned its axes by a quarter, `a` has not. -/
def bTurned : KeyConv Pose Plane.Ns Pose Plane.Ns := ownAxes (fun a => if a = 98 then quarter else 1) fun _ => id

open Plane in
/-- Two robots with two steps each, and two closures from `a` to `b`, the second at a distance `d` from where it should be. -/
def twoWays (d : Rat) (back : Bool) : List (Op Pose Plane.Ns) :=
  [.update [edge (Demo.a 0) (Demo.a 1) (turned 3 0)] [pose (Demo.a 0) 1, pose (Demo.a 1) (turned 3 0)] true,
   .update [edge (Demo.b 0) (Demo.b 1) (turned 0 2)] [pose (Demo.b 0) 1, pose (Demo.b 1) (turned 0 2)] true,
   .update [edge (Demo.a 0) (Demo.b 0) (tr 5 0)] [] true,
   .update [if back then edge (Demo.b 1) (Demo.a 1) ((tr d 0 * turned 3 0)⁻¹ * tr 5 0 * turned 0 2)⁻¹
     else edge (Demo.a 1) (Demo.b 1) ((tr d 0 * turned 3 0)⁻¹ * tr 5 0 * turned 0 2)] [] true]

open Plane in
/-- `flat` with landmarks `l`. -/
def flatL : Params Rat := { Params.default.apply (.simple3D 1 1 .quiet) with special := [108] }

open Plane in
/-- The same with three observations of a landmark by `b`, the last of which does not fit. -/
def andLandmark : List (Op Pose Plane.Ns) :=
  twoWays 4 false ++ [.update [edge (Demo.a 1) (Demo.b 1) ((turned 3 0)⁻¹ * tr 5 0 * turned 0 2)] [] true,
    .update [edge (Demo.b 0) (Demo.l 0) (tr 7 0)] [pose (Demo.l 0) (tr 7 0)] true,
    .update [edge (Demo.b 1) (Demo.l 0) ((turned 0 2)⁻¹ * tr 7 0), edge (Demo.b 1) (Demo.l 0) (tr 1 30)] [] true]

open Plane in
theorem one_keeps : KeepsSizes norm1 (fun g : Pose => [0, 0, 1 - g.c]) (fun g => [g.x, g.y, 0]) 1 := by
  refine ⟨fun g => ?_, fun g => ?_⟩ <;> rw [one_mul, inv_one, mul_one]

open Plane in
theorem plane_ok : Env.Ok Plane.env :=
  ⟨fun _ => List.Perm.refl _, fun _ => List.Perm.refl _⟩

set_option maxRecDepth 100000 in
open Plane in
/-- The hypotheses of `C98_own_axes` are met by a run with closures between two robots and observations of a landmark, some rejected, and its
conclusion is seen in it. -/
example : ∃ s s', ReachOk (poseCfg flatL .three Unit norm1 (fun g : Pose => [0, 0, 1 - g.c]) (fun g => [g.x, g.y, 0]) true) Plane.env andLandmark s ∧
    ReachOk (poseCfg flatL .three Unit norm1 (fun g : Pose => [0, 0, 1 - g.c]) (fun g => [g.x, g.y, 0]) true) Plane.env (andLandmark.map (kvOp bTurned)) s' ∧
    (registered s' ⟨97, 98⟩).length = 3 ∧ (selected s' ⟨97, 98⟩).length = 2 ∧ (observed s' (Demo.l 0)).length = 3 ∧ s'.nfg.length = 6 ∧
    SameWritten bTurned (poseCfg flatL .three Unit norm1 (fun g : Pose => [0, 0, 1 - g.c]) (fun g => [g.x, g.y, 0]) true)
      (poseCfg flatL .three Unit norm1 (fun g : Pose => [0, 0, 1 - g.c]) (fun g => [g.x, g.y, 0]) true) Plane.env Plane.env s s' := by
  obtain ⟨s, r, -⟩ := Demo.runs_reach (cfg := poseCfg flatL .three Unit norm1 (fun g : Pose => [0, 0, 1 - g.c]) (fun g => [g.x, g.y, 0]) true)
    (env := Plane.env) (ops := andLandmark) (P := fun _ => true) (by decide +kernel)
  obtain ⟨s', r', h'⟩ := Demo.runs_reach (cfg := poseCfg flatL .three Unit norm1 (fun g : Pose => [0, 0, 1 - g.c]) (fun g => [g.x, g.y, 0]) true)
    (env := Plane.env) (ops := andLandmark.map (kvOp bTurned))
    (P := fun s => decide ((registered s ⟨97, 98⟩).length = 3 ∧ (selected s ⟨97, 98⟩).length = 2 ∧ (observed s (Demo.l 0)).length = 3 ∧ s.nfg.length = 6))
    (by decide +kernel)
  obtain ⟨h1, h2, h3, h4⟩ := of_decide_eq_true h'
  refine ⟨s, s', r, r', h1, h2, h3, h4, C98_own_axes flatL norm1 ⟨fun _ => rfl, fun _ => rfl⟩ (c := fun a => if a = 98 then quarter else 1) (fun a => ?_)
    (κ := fun _ => id) true (by decide) (fun _ => 98) (fun _ => by simp [flatL]) plane_ok plane_ok ⟨fun _ => rfl, fun _ => rfl⟩ ?_
    (by unfold OneObserver; decide +kernel) (fun c => symKey c 0) (chains_of (by decide +kernel)) (onOdometry_of (by decide +kernel))
    (by unfold OneWay; decide +kernel) r r'⟩
  · split
    · exact quarter_keeps
    · exact one_keeps
  · intro op ho
    simp [andLandmark, twoWays] at ho
    rcases ho with rfl | rfl | rfl | rfl | rfl | rfl | rfl <;> trivial

set_option maxRecDepth 100000 in
open Plane in
/-- C98 needs closures in one direction: with one closure from `a` to `b` and one from `b` to `a`, which do not fit by 2, a quarter turn of the
axes of `b` changes which of them are kept (their combination is not a closed path, C51). -/
theorem C98_false_directions : (∀ a : Chr, KeepsSizes norm1 (fun g : Pose => [0, 0, 1 - g.c]) (fun g => [g.x, g.y, 0]) (if a = 98 then quarter else 1)) ∧
    Chains flat (fun c => symKey c 0) (twoWays 2 true) ∧ OnOdometry flat (fun c => symKey c 0) (twoWays 2 true) ∧
    ∃ s s', ReachOk flat Plane.env (twoWays 2 true) s ∧ ReachOk flat Plane.env ((twoWays 2 true).map (kvOp bTurned)) s' ∧
      (selected s ⟨97, 98⟩).length = 1 ∧ (selected s' ⟨97, 98⟩).length = 2 := by
  obtain ⟨s, r, h⟩ := Demo.runs_reach (cfg := flat) (env := Plane.env) (ops := twoWays 2 true)
    (P := fun s => decide ((selected s ⟨97, 98⟩).length = 1)) (by decide +kernel)
  obtain ⟨s', r', h'⟩ := Demo.runs_reach (cfg := flat) (env := Plane.env) (ops := (twoWays 2 true).map (kvOp bTurned))
    (P := fun s => decide ((selected s ⟨97, 98⟩).length = 2)) (by decide +kernel)
  refine ⟨fun a => ?_, chains_of (by decide +kernel), onOdometry_of (by decide +kernel), s, s', r, r', of_decide_eq_true h, of_decide_eq_true h'⟩
  split
  · exact quarter_keeps
  · exact one_keeps

end RPGO.Props
