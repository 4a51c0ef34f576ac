import Verif.Props.Alike
/-
C103: odometry is looked at only between the poses that are compared.
-/

namespace RPGO.Spec
variable {G C : Type}

/-- The measurement is the same in both data sets. -/
def SameMeas (b : Btw (G × G) (GNoise (C × C))) : Prop := b.m.1 = b.m.2

/-- The odometry `L` between positions `i` and `j` is the same in both data sets. -/
def SameBetween (L : List (Btw (G × G) (GNoise (C × C)))) (i j : Nat) : Prop := ∀ b ∈ seg L (min i j) (max i j), SameMeas b

/-- Two data sets with the same closures and observations `D`, whose odometry (`L a` for robot `a`) is the same between the ends of every closure inside a robot, between
the ends, on the same robot, of every two closures of the same robots, and between the poses from which a robot observed the same landmark. -/
structure SameWhereCompared (start : Chr → Key) (L : Chr → List (Btw (G × G) (GNoise (C × C)))) (D : Btw (G × G) (GNoise (C × C)) → Prop) : Prop where
  measured : ∀ b, D b → SameMeas b ∧ ∀ n, b.noise = some n → n.cov.1 = n.cov.2
  loop : ∀ a b i j, D b → At a (start a) (L a) b.k1 i → At a (start a) (L a) b.k2 j → SameBetween (L a) i j
  closures : ∀ a d x y i j k l, D x → D y → At a (start a) (L a) x.k1 i → At d (start d) (L d) x.k2 j →
    (At a (start a) (L a) y.k1 k ∧ At d (start d) (L d) y.k2 l ∨ a ≠ d ∧ At a (start a) (L a) y.k2 k ∧ At d (start d) (L d) y.k1 l) →
    SameBetween (L a) i k ∧ SameBetween (L d) j l
  landmarks : ∀ a x y i j, D x → D y → x.k2 = y.k2 → At a (start a) (L a) x.k1 i → At a (start a) (L a) y.k1 j → SameBetween (L a) i j

/-- Two data sets with the same closures and observations `D` and, for every robot `a`, with the same odometry from position `lo a` to position `hi a`, where all the poses
lie that these measurements start or end at. -/
structure SameStretch (start : Chr → Key) (L : Chr → List (Btw (G × G) (GNoise (C × C)))) (lo hi : Chr → Nat) (D : Btw (G × G) (GNoise (C × C)) → Prop) : Prop where
  measured : ∀ b, D b → SameMeas b ∧ ∀ n, b.noise = some n → n.cov.1 = n.cov.2
  inside : ∀ a b i, D b → (At a (start a) (L a) b.k1 i ∨ At a (start a) (L a) b.k2 i) → lo a ≤ i ∧ i ≤ hi a
  odometry : ∀ a, ∀ b ∈ seg (L a) (lo a) (hi a), SameMeas b

end RPGO.Spec

namespace RPGO
open Spec
variable {G C : Type}

theorem measProd_agree [Group G] {l : List (Btw (G × G) (GNoise (C × C)))} (h : ∀ b ∈ l, SameMeas b) : (measProd l).1 = (measProd l).2 := by
  unfold measProd
  induction l with
  | nil => rfl
  | cons b l ih =>
    rw [List.map_cons, List.prod_cons, Prod.fst_mul, Prod.snd_mul, ih fun x hx => h x (by simp [hx]), h b (by simp)]

theorem rel_agree [Group G] {L : List (Btw (G × G) (GNoise (C × C)))} {i j : Nat} (h : SameBetween L i j) : (rel L i j).1 = (rel L i j).2 := by
  unfold SameBetween at h
  unfold rel
  split
  · rename_i hij
    rw [min_eq_left hij, max_eq_right hij] at h
    exact measProd_agree h
  · rename_i hij
    rw [min_eq_right (by omega), max_eq_left (by omega)] at h
    rw [Prod.fst_inv, Prod.snd_inv, measProd_agree h]

theorem corr_same {D : Btw (G × G) (GNoise (C × C)) → Prop} (hD : ∀ b, D b → SameMeas b ∧ ∀ n, b.noise = some n → n.cov.1 = n.cov.2)
    {l l' : List (Btw G (GNoise C))} (h : Corr D l l') : l' = l := by
  obtain ⟨m, hm, rfl, rfl⟩ := h
  refine List.map_congr_left fun b hb => ?_
  obtain ⟨h1, h2⟩ := hD b (hm b hb)
  unfold cvBtw
  rw [show b.m.2 = b.m.1 from h1.symm]
  cases hn : b.noise with
  | none => rfl
  | some n =>
    simp only [Option.map_some, nFst, nSnd]
    rw [h2 n hn]

theorem stretch_compared {start : Chr → Key} {L : Chr → List (Btw (G × G) (GNoise (C × C)))} {lo hi : Chr → Nat} {D : Btw (G × G) (GNoise (C × C)) → Prop}
    (h : SameStretch start L lo hi D) : SameWhereCompared start L D := by
  have key : ∀ a i j, lo a ≤ i ∧ i ≤ hi a → lo a ≤ j ∧ j ≤ hi a → SameBetween (L a) i j := by
    intro a i j hi hj b hb
    refine h.odometry a b ?_
    unfold seg at hb ⊢
    obtain ⟨n, hn, e⟩ := List.mem_iff_getElem.1 hb
    rw [List.getElem_drop, List.getElem_take] at e
    simp only [List.length_drop, List.length_take] at hn
    refine List.mem_iff_getElem.2 ⟨min i j + n - lo a, ?_, ?_⟩
    · simp only [List.length_drop, List.length_take]; omega
    · rw [List.getElem_drop, List.getElem_take, ← e]
      congr 1
      omega
  refine ⟨h.measured, fun a b i j hb h1 h2 => key a i j (h.inside a b i hb (.inl h1)) (h.inside a b j hb (.inr h2)), fun a d x y i j k l hx hy h1 h2 h3 => ?_,
    fun a x y i j hx hy _ h1 h2 => key a i j (h.inside a x i hx (.inl h1)) (h.inside a y j hy (.inl h2))⟩
  rcases h3 with ⟨h3, h4⟩ | ⟨_, h3, h4⟩
  · exact ⟨key a i k (h.inside a x i hx (.inl h1)) (h.inside a y k hy (.inl h3)), key d j l (h.inside d x j hx (.inr h2)) (h.inside d y l hy (.inr h4))⟩
  · exact ⟨key a i k (h.inside a x i hx (.inl h1)) (h.inside a y k hy (.inr h3)), key d j l (h.inside d x j hx (.inr h2)) (h.inside d y l hy (.inl h4))⟩

namespace Props
variable {K : Type} [Group G] [Field K] [LinearOrder K] [IsStrictOrderedRing K]

/-- C103: two solvers that receive the same closures and observations, and odometry that is the same wherever it lies between poses that are compared, register and accept the
same. What the odometry measures elsewhere (before the first compared pose, after the last one) plays no role. -/
theorem C103_elsewhere (p : Params K) (tn rn : G → K) (signed : Bool) (hm : p.method ≠ .none) (owner : Key → Chr) (hown : ∀ l, owner l ∉ p.special)
    {env env' : Env G (GNoise C)} (he : env.Ok) (he' : env'.Ok) (ho : SameOrder env env') {h : List (Op (G × G) (GNoise (C × C)))}
    (hman : ∀ op ∈ h, Managed op) (hob : OneObserver (sideBySide p C C tn rn signed) owner h) (start : Chr → Key) (hch : Chains (sideBySide p C C tn rn signed) start h)
    (hon : OnOdometry (sideBySide p C C tn rn signed) start h)
    (hs : SameWhereCompared start (fun a => robotOdom (sideBySide p C C tn rn signed) a h) (Checked (sideBySide p C C tn rn signed) h)) {s s' : St G (PNode G) (GNoise C)}
    (r : ReachOk (p.cfgSimple C tn rn signed) env (firstOf h) s) (r' : ReachOk (p.cfgSimple C tn rn signed) env' (secondOf h) s') :
    (∀ id, registered s' id = registered s id ∧ selected s' id = selected s id ∧ matrix s' id = matrix s id) ∧
    (∀ l, observed s' l = observed s l ∧ acceptedOf s' l = acceptedOf s l ∧ landMatrix s' l = landMatrix s l) ∧
    (∀ n, NumLC (p.cfgSimple C tn rn signed) env' s' n ↔ NumLC (p.cfgSimple C tn rn signed) env s n) ∧
    (p.useGnc = false → ∀ n, NumInliers (p.cfgSimple C tn rn signed) env' s' n ↔ NumInliers (p.cfgSimple C tn rn signed) env s n) := by
  have key : ∀ {X : G × G} {t r : K} {n : Nat} {rot : Prop}, X.1 = X.2 → (Spec.Below tn rn t r X.1 n rot ↔ Spec.Below tn rn t r X.2 n rot) := fun h => by rw [h]
  have c := C99_judged_alike p tn rn tn rn signed hm owner hown he he' ho hman hob start hch hon
    ⟨fun a b i j hb h1 h2 => key ?_, fun a d x y i j k l hx hy h1 h2 h3 => key ?_, fun a x y i j hx hy e h1 h2 => key ?_⟩ r r'
  · exact ⟨fun id => ⟨corr_same hs.measured (c.registered id), corr_same hs.measured (c.selected id), c.matrix id⟩,
      fun l => ⟨corr_same hs.measured (c.observed l), corr_same hs.measured (c.accepted l), c.landMatrix l⟩, c.numLC, fun hg => c.numInliers hg⟩
  · have e1 := rel_agree (hs.loop a b i j hb h1 h2)
    have e2 : b.m.1 = b.m.2 := (hs.measured b hb).1
    simp only [Prod.fst_mul, Prod.snd_mul, Prod.fst_inv, Prod.snd_inv, e1, e2]
  · obtain ⟨g1, g2⟩ := hs.closures a d x y i j k l hx hy h1 h2 h3
    have e1 := rel_agree g1
    have e2 := rel_agree g2
    have e3 : x.m.1 = x.m.2 := (hs.measured x hx).1
    have e4 : y.m.1 = y.m.2 := (hs.measured y hy).1
    simp only [Prod.fst_mul, Prod.snd_mul, Prod.fst_inv, Prod.snd_inv, e1, e2, e3, e4]
  · have e1 := rel_agree (hs.landmarks a x y i j hx hy e h1 h2)
    have e3 : x.m.1 = x.m.2 := (hs.measured x hx).1
    have e4 : y.m.1 = y.m.2 := (hs.measured y hy).1
    simp only [Prod.fst_mul, Prod.snd_mul, Prod.fst_inv, Prod.snd_inv, e1, e3, e4]

/-- C103, the case of one stretch per robot: what the odometry measures before and after the stretch that the closures and observations refer to plays no role. -/
theorem C103_stretch (p : Params K) (tn rn : G → K) (signed : Bool) (hm : p.method ≠ .none) (owner : Key → Chr) (hown : ∀ l, owner l ∉ p.special)
    {env env' : Env G (GNoise C)} (he : env.Ok) (he' : env'.Ok) (ho : SameOrder env env') {h : List (Op (G × G) (GNoise (C × C)))}
    (hman : ∀ op ∈ h, Managed op) (hob : OneObserver (sideBySide p C C tn rn signed) owner h) (start : Chr → Key) (hch : Chains (sideBySide p C C tn rn signed) start h)
    (hon : OnOdometry (sideBySide p C C tn rn signed) start h) (lo hi : Chr → Nat)
    (hs : SameStretch start (fun a => robotOdom (sideBySide p C C tn rn signed) a h) lo hi (Checked (sideBySide p C C tn rn signed) h)) {s s' : St G (PNode G) (GNoise C)}
    (r : ReachOk (p.cfgSimple C tn rn signed) env (firstOf h) s) (r' : ReachOk (p.cfgSimple C tn rn signed) env' (secondOf h) s') :
    (∀ id, registered s' id = registered s id ∧ selected s' id = selected s id) ∧ ∀ l, observed s' l = observed s l ∧ acceptedOf s' l = acceptedOf s l := by
  obtain ⟨h1, h2, _⟩ := C103_elsewhere p tn rn signed hm owner hown he he' ho hman hob start hch hon (stretch_compared hs) r r'
  exact ⟨fun id => ⟨(h1 id).1, (h1 id).2.1⟩, fun l => ⟨(h2 l).1, (h2 l).2.1⟩⟩

/-! ### In the plane -/

section
open Plane

instance (b : Btw (Pose × Pose) (GNoise (Unit × Unit))) : Decidable (SameMeas b) := by unfold SameMeas; infer_instance

/-- Robots `a` and `b` with closures and observations from the middle of the way of `a`; before and after, the odometry of the second data set is far off. -/
def slipped : List (Op (Pose × Pose) (GNoise (Unit × Unit))) :=
  [.update [edgeBoth (Demo.a 0) (Demo.a 1) (tr 3 0) (tr 0 50), edgeBoth (Demo.a 1) (Demo.a 2) (tr 3 0) (tr 3 0), edgeBoth (Demo.a 2) (Demo.a 3) (tr 3 0) (tr (-70) 9)]
     [poseBoth (Demo.a 0) 1, poseBoth (Demo.a 1) (tr 3 0), poseBoth (Demo.a 2) (tr 6 0), poseBoth (Demo.a 3) (tr 9 0)] true,
   .update [edgeBoth (Demo.b 0) (Demo.b 1) (tr 2 0) (tr 2 0)] [poseBoth (Demo.b 0) 1, poseBoth (Demo.b 1) (tr 2 0)] true,
   .update [edgeBoth (Demo.a 1) (Demo.b 0) (tr 5 0) (tr 5 0)] [] true,
   .update [edgeBoth (Demo.a 2) (Demo.b 1) (tr 4 0) (tr 4 0), edgeBoth (Demo.a 2) (Demo.b 1) (tr 40 0) (tr 40 0)] [] true,
   .update [edgeBoth (Demo.a 1) (Demo.l 0) (tr 7 0) (tr 7 0)] [poseBoth (Demo.l 0) (tr 7 0)] true,
   .update [edgeBoth (Demo.a 2) (Demo.l 0) (tr 4 0) (tr 4 0), edgeBoth (Demo.a 2) (Demo.l 0) (tr 1 30) (tr 1 30)] [] true]

/-- The same with odometry that is far off between the poses of the closures. -/
def slippedInside : List (Op (Pose × Pose) (GNoise (Unit × Unit))) :=
  [.update [edgeBoth (Demo.a 0) (Demo.a 1) (tr 3 0) (tr 3 0), edgeBoth (Demo.a 1) (Demo.a 2) (tr 3 0) (tr 0 50)]
     [poseBoth (Demo.a 0) 1, poseBoth (Demo.a 1) (tr 3 0), poseBoth (Demo.a 2) (tr 6 0)] true,
   .update [edgeBoth (Demo.b 0) (Demo.b 1) (tr 2 0) (tr 2 0)] [poseBoth (Demo.b 0) 1, poseBoth (Demo.b 1) (tr 2 0)] true,
   .update [edgeBoth (Demo.a 1) (Demo.b 0) (tr 5 0) (tr 5 0), edgeBoth (Demo.a 2) (Demo.b 1) (tr 4 0) (tr 4 0)] [] true]

/-- A decidable form of `SameStretch`. -/
theorem sameStretch_of {T : Type} {cfg : Cfg (Pose × Pose) T (GNoise (Unit × Unit))} {h : List (Op (Pose × Pose) (GNoise (Unit × Unit)))} {start : Chr → Key} {lo hi : Chr → Nat}
    (h1 : ∀ op ∈ h, ∀ b ∈ opBtws op, b ∉ opOdom cfg op → SameMeas b)
    (h2 : ∀ b ∈ h.flatMap (fun op => (opBtws op).filter fun b => decide (b ∉ opOdom cfg op)), ∀ i ∈ List.range ((robotOdom cfg (chr b.k1) h).length + 1),
      At (chr b.k1) (start (chr b.k1)) (robotOdom cfg (chr b.k1) h) b.k1 i → lo (chr b.k1) ≤ i ∧ i ≤ hi (chr b.k1))
    (h2' : ∀ b ∈ h.flatMap (fun op => (opBtws op).filter fun b => decide (b ∉ opOdom cfg op)), ∀ i ∈ List.range ((robotOdom cfg (chr b.k2) h).length + 1),
      At (chr b.k2) (start (chr b.k2)) (robotOdom cfg (chr b.k2) h) b.k2 i → lo (chr b.k2) ≤ i ∧ i ≤ hi (chr b.k2))
    (h3 : ∀ c : Fin 256, ∀ b ∈ seg (robotOdom cfg (BitVec.ofFin c) h) (lo (BitVec.ofFin c)) (hi (BitVec.ofFin c)), SameMeas b) :
    SameStretch start (fun a => robotOdom cfg a h) lo hi (Checked cfg h) := by
  refine ⟨fun b ⟨op, ho, hb, hn⟩ => ⟨h1 op ho b hb hn, fun n _ => rfl⟩, fun a b i ⟨op, ho, hb, hn⟩ hk => ?_, fun a => h3 a.toFin⟩
  have hm : b ∈ h.flatMap (fun op => (opBtws op).filter fun b => decide (b ∉ opOdom cfg op)) := List.mem_flatMap.2 ⟨op, ho, List.mem_filter.2 ⟨hb, decide_eq_true hn⟩⟩
  rcases hk with hk | hk
  · obtain rfl := hk.1
    exact h2 b hm i (List.mem_range.2 (Nat.lt_succ_of_le hk.2.1)) hk
  · obtain rfl := hk.1
    exact h2' b hm i (List.mem_range.2 (Nat.lt_succ_of_le hk.2.1)) hk

set_option maxRecDepth 100000 in
/-- The hypotheses of `C103_stretch` and `C103_elsewhere` are met by a run with closures and observations accepted and rejected. -/
example : ∃ s s', ReachOk (flatL.cfgSimple Unit len ang true) Plane.env (firstOf slipped) s ∧ ReachOk (flatL.cfgSimple Unit len ang true) Plane.env (secondOf slipped) s' ∧
    ((registered s ⟨97, 98⟩).length = 3 ∧ (selected s ⟨97, 98⟩).length = 2 ∧ (observed s (Demo.l 0)).length = 3 ∧ (acceptedOf s (Demo.l 0)).length = 2) ∧
    selected s' ⟨97, 98⟩ = selected s ⟨97, 98⟩ ∧ acceptedOf s' (Demo.l 0) = acceptedOf s (Demo.l 0) := by
  obtain ⟨s, r, hs⟩ := Demo.runs_reach (cfg := flatL.cfgSimple Unit len ang true) (env := Plane.env) (ops := firstOf slipped)
    (P := fun s => decide ((registered s ⟨97, 98⟩).length = 3 ∧ (selected s ⟨97, 98⟩).length = 2 ∧ (observed s (Demo.l 0)).length = 3 ∧
      (acceptedOf s (Demo.l 0)).length = 2)) (by decide +kernel)
  obtain ⟨s', r', _⟩ := Demo.runs_reach (cfg := flatL.cfgSimple Unit len ang true) (env := Plane.env) (ops := secondOf slipped) (P := fun _ => true) (by decide +kernel)
  obtain ⟨h1, h2⟩ := C103_stretch flatL len ang true (by decide) (fun _ => 97)
    (fun _ => by simp [flatL]) plane_ok plane_ok ⟨fun l => ⟨l, .refl _, rfl, rfl⟩, fun l => ⟨l, .refl _, rfl, rfl⟩⟩ (h := slipped) (by
      intro op ho
      simp [slipped] at ho
      rcases ho with rfl | rfl | rfl | rfl | rfl | rfl <;> trivial) (by unfold OneObserver; decide +kernel)
    (fun c => symKey c 0) (chains_of (by decide +kernel)) (onOdometry_of (by decide +kernel)) (fun c => if c = 97 then 1 else 0) (fun c => if c = 97 then 2 else 1)
    (sameStretch_of (by decide +kernel) (by decide +kernel) (by decide +kernel) (by decide +kernel)) r r'
  exact ⟨s, s', r, r', of_decide_eq_true hs, (h1 _).2, (h2 _).2⟩

set_option maxRecDepth 100000 in
/-- C103, the condition is needed: with odometry that is far off between the poses of two closures, one of the closures that were both accepted is dropped. -/
theorem C103_false_between : ∃ s s', ReachOk (flatL.cfgSimple Unit len ang true) Plane.env (firstOf slippedInside) s ∧
    ReachOk (flatL.cfgSimple Unit len ang true) Plane.env (secondOf slippedInside) s' ∧ (selected s ⟨97, 98⟩).length = 2 ∧ (selected s' ⟨97, 98⟩).length = 1 := by
  obtain ⟨s, r, hs⟩ := Demo.runs_reach (cfg := flatL.cfgSimple Unit len ang true) (env := Plane.env) (ops := firstOf slippedInside)
    (P := fun s => decide ((selected s ⟨97, 98⟩).length = 2)) (by decide +kernel)
  obtain ⟨s', r', hs'⟩ := Demo.runs_reach (cfg := flatL.cfgSimple Unit len ang true) (env := Plane.env) (ops := secondOf slippedInside)
    (P := fun s => decide ((selected s ⟨97, 98⟩).length = 1)) (by decide +kernel)
  exact ⟨s, s', r, r', of_decide_eq_true hs, of_decide_eq_true hs'⟩

end

end Props
end RPGO
