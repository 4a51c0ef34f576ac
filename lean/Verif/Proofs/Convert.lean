import Verif.Spec.Convert
import Verif.Proofs.Frame
import Verif.Proofs.Rename
/-
The model commutes with conversion of poses and noises.
-/

namespace RPGO
open Spec
variable {G T N G' T' N' V V' : Type} {φ : G → G'} {ν : N → N'} {τ : T → T'}

/-- The operations on poses commute with conversion. -/
structure OpsHom (φ : G → G') (ν : N → N') (τ : T → T') (o : Ops G T N) (o' : Ops G' T' N') : Prop where
  dflt : o'.dflt = τ o.dflt
  ofPose : ∀ g, o'.ofPose (φ g) = τ (o.ofPose g)
  ofFactor : ∀ g n, o'.ofFactor (φ g) (ν n) = τ (o.ofFactor g n)
  compose : ∀ a b, o'.compose (τ a) (τ b) = τ (o.compose a b)
  inverse : ∀ a, o'.inverse (τ a) = τ (o.inverse a)
  between : ∀ a b, o'.between (τ a) (τ b) = τ (o.between a b)
  pose : ∀ a, o'.pose (τ a) = φ (o.pose a)
  odomOk : ∀ a, o'.odomOk (τ a) = o.odomOk a
  loopOk : ∀ a, o'.loopOk (τ a) = o.loopOk a

/-- The configurations differ only in how poses and noises are expressed. -/
structure CfgHom (φ : G → G') (ν : N → N') (τ : T → T') (c : Cfg G T N) (c' : Cfg G' T' N') : Prop where
  ops : OpsHom φ ν τ c.ops c'.ops
  rejection : c'.rejection = c.rejection
  special : c'.special = c.special
  odomCheck : c'.odomCheck = c.odomCheck
  loopCheck : c'.loopCheck = c.loopCheck
  incremental : c'.incremental = c.incremental
  align : c'.align = c.align
  lm : c'.lm = c.lm
  debug : c'.debug = c.debug
  log : c'.log = c.log
  useGnc : c'.useGnc = c.useGnc
  fixPrev : c'.fixPrev = c.fixPrev
  biasOdom : c'.biasOdom = c.biasOdom
  charSigned : c'.charSigned = c.charSigned

/-! ### Maps -/

theorem cvMap_find (f : V → V') (m : KMap V) (k : Key) : (cvMap f m).find? k = (m.find? k).map f := by
  induction m with
  | nil => rfl
  | cons e t ih =>
    obtain ⟨k0, v0⟩ := e
    show (if k0 = k then some (f v0) else (cvMap f t).find? k) = Option.map f (if k0 = k then some v0 else KMap.find? t k)
    split
    · rfl
    · exact ih

theorem cvMap_has (f : V → V') (m : KMap V) (k : Key) : (cvMap f m).has k = m.has k := by
  unfold KMap.has; rw [cvMap_find, Option.isSome_map]

theorem cvMap_set (f : V → V') (m : KMap V) (k : Key) (v : V) : cvMap f (m.set k v) = (cvMap f m).set k (f v) := by
  induction m with
  | nil => rfl
  | cons e t ih =>
    obtain ⟨k0, v0⟩ := e
    show cvMap f (if k0 = k then _ else if k.toNat < k0.toNat then _ else _) = if k0 = k then _ else if k.toNat < k0.toNat then _ else _
    split
    · rfl
    · split
      · rfl
      · show (k0, f v0) :: cvMap f (KMap.set t k v) = _
        rw [ih]; rfl

/-! ### States -/

def cvPcm (φ : G → G') (ν : N → N') (τ : T → T') (p : Pcm G T N) : Pcm G' T' N' where
  odom := p.odom.map (cvBtw φ ν)
  special := p.special.map (cvFactor φ ν)
  lcs := p.lcs.map fun e => (e.1, cvMeas φ ν e.2)
  trajs := p.trajs.map fun e => (e.1, cvMap τ e.2)
  landmarks := p.landmarks.map fun e => (e.1, cvMeas φ ν e.2)
  inOrder := p.inOrder
  totalLc := p.totalLc
  totalGood := p.totalGood
  ignored := p.ignored
  robotOrder := p.robotOrder

def cvSt (φ : G → G') (ν : N → N') (τ : T → T') (s : St G T N) : St G' T' N' where
  values := cvVals φ s.values
  nfg := cvGraph φ ν s.nfg
  tempValues := cvVals φ s.tempValues
  tempNfg := cvGraph φ ν s.tempNfg
  gncW := s.gncW
  gncTW := s.gncTW
  gncNum := s.gncNum
  latest := s.latest
  pcm := cvPcm φ ν τ s.pcm

theorem alist_getId {κ W W' : Type} {eq : κ → κ → Bool} {g : W → W'} (l : List (κ × W)) (k : κ) :
    AList.get? eq (l.map fun e => (e.1, g e.2)) k = (AList.get? eq l k).map g :=
  alist_get (f := id) (fun _ _ => rfl) l k

theorem alist_updId {κ W W' : Type} {eq : κ → κ → Bool} {g : W → W'} {d : W} {d' : W'} (hd : g d = d') (l : List (κ × W)) (k : κ)
    {u : W → W} {u' : W' → W'} (hu : ∀ w, g (u w) = u' (g w)) :
    AList.upd eq d' (l.map fun e => (e.1, g e.2)) k u' = (AList.upd eq d l k u).map fun e => (e.1, g e.2) :=
  alist_upd (f := id) (fun _ _ => rfl) hd l k hu

theorem trajOf_cv (p : Pcm G T N) (c : Chr) : trajOf (cvPcm φ ν τ p) c = cvMap τ (trajOf p c) := by
  unfold trajOf
  show (AList.get? (· == ·) (p.trajs.map fun e => (e.1, cvMap τ e.2)) c).getD [] = _
  rw [alist_getId]
  cases AList.get? (· == ·) p.trajs c <;> rfl

theorem setTraj_cv (p : Pcm G T N) (c : Chr) (tr : KMap T) : setTraj (cvPcm φ ν τ p) c (cvMap τ tr) = cvPcm φ ν τ (setTraj p c tr) := by
  have := alist_updId (eq := (· == ·)) (g := cvMap τ) (d := ([] : KMap T)) rfl p.trajs c (u := fun _ => tr) (u' := fun _ => cvMap τ tr) fun _ => rfl
  exact congrArg (fun t => { cvPcm φ ν τ p with trajs := t }) this

theorem cvMeas_empty : cvMeas φ ν (Meas.empty : Meas G N) = Meas.empty := rfl

theorem lcOf_cv (p : Pcm G T N) (id : ObsId) : lcOf (cvPcm φ ν τ p) id = cvMeas φ ν (lcOf p id) := by
  unfold lcOf
  show (AList.get? ObsId.eqv (p.lcs.map fun e => (e.1, cvMeas φ ν e.2)) id).getD _ = _
  rw [alist_getId]
  cases AList.get? ObsId.eqv p.lcs id <;> rfl

theorem lmOf_cv (p : Pcm G T N) (k : Key) : lmOf (cvPcm φ ν τ p) k = cvMeas φ ν (lmOf p k) := by
  unfold lmOf
  show (AList.get? (· == ·) (p.landmarks.map fun e => (e.1, cvMeas φ ν e.2)) k).getD _ = _
  rw [alist_getId]
  cases AList.get? (· == ·) p.landmarks k <;> rfl

theorem updLc_cv (p : Pcm G T N) (id : ObsId) {f : Meas G N → Meas G N} {f' : Meas G' N' → Meas G' N'}
    (h : ∀ m, cvMeas φ ν (f m) = f' (cvMeas φ ν m)) : updLc (cvPcm φ ν τ p) id f' = cvPcm φ ν τ (updLc p id f) := by
  have := alist_updId (eq := ObsId.eqv) (cvMeas_empty (φ := φ) (ν := ν)) p.lcs id h
  exact congrArg (fun t => { cvPcm φ ν τ p with lcs := t }) this

theorem updLm_cv (p : Pcm G T N) (k : Key) {f : Meas G N → Meas G N} {f' : Meas G' N' → Meas G' N'}
    (h : ∀ m, cvMeas φ ν (f m) = f' (cvMeas φ ν m)) : updLm (cvPcm φ ν τ p) k f' = cvPcm φ ν τ (updLm p k f) := by
  have := alist_updId (eq := (· == ·)) (cvMeas_empty (φ := φ) (ν := ν)) p.landmarks k h
  exact congrArg (fun t => { cvPcm φ ν τ p with landmarks := t }) this

/-! ### Procedures -/

/-- The converted outcome. -/
def cvOut {σ σ' α β : Type} (rs : σ → σ') (ra : α → β) : Out σ α → Out σ' β
  | .ok t a => .ok (rs t) (ra a)
  | .throw t e => .throw (rs t) e
  | .ub u => .ub u

/-- `m'` does on converted states what `m` does. -/
def Conv {σ σ' α β : Type} (rs : σ → σ') (ra : α → β) (m : M σ α) (m' : M σ' β) : Prop := ∀ s, m' (rs s) = cvOut rs ra (m s)

namespace Conv
variable {σ σ' α β γ δ : Type} {rs : σ → σ'} {ra : α → β} {rb : γ → δ}

theorem pure {a : α} {b : β} (h : b = ra a) : Conv rs ra (M.pure a) (M.pure b) := fun _ => by rw [h]; rfl
theorem raise (e : Exn) : Conv rs ra (M.raise e) (M.raise e) := fun _ => rfl
theorem undef (u : UB) : Conv rs ra (M.undef u) (M.undef u) := fun _ => rfl

theorem bind {m : M σ α} {m' : M σ' β} {f : α → M σ γ} {f' : β → M σ' δ} (h : Conv rs ra m m')
    (hf : ∀ a, Conv rs rb (f a) (f' (ra a))) : Conv rs rb (m.bind f) (m'.bind f') := by
  intro s
  have := h s
  rw [M.bind_apply, M.bind_apply, this]
  cases m s with
  | ok t a => exact hf a t
  | throw t x => rfl
  | ub u => rfl

theorem modify {f : σ → σ} {f' : σ' → σ'} {g : Unit → Unit} (h : ∀ s, f' (rs s) = rs (f s)) : Conv rs g (M.modify f) (M.modify f') :=
  fun s => by unfold M.modify; rw [h s]; rfl

theorem cond {m1 m2 : M σ α} {m1' m2' : M σ' β} {c c' : Bool} (hc : c' = c) (h1 : Conv rs ra m1 m1') (h2 : Conv rs ra m2 m2') :
    Conv rs ra (M.cond c m1 m2) (M.cond c' m1' m2') := by
  subst hc
  cases c'
  · exact h2
  · exact h1

theorem when {m : M σ Unit} {m' : M σ' Unit} {c c' : Bool} (hc : c' = c) (h : Conv rs id m m') : Conv rs id (M.when c m) (M.when c' m') := by
  subst hc
  cases c'
  · exact pure rfl
  · exact h

theorem ite {c c' : Prop} [Decidable c] [Decidable c'] (hc : c' ↔ c) {m1 m2 : M σ α} {m1' m2' : M σ' β} (h1 : Conv rs ra m1 m1')
    (h2 : Conv rs ra m2 m2') : Conv rs ra (if c then m1 else m2) (if c' then m1' else m2') := by
  by_cases h : c
  · rw [if_pos h, if_pos (hc.2 h)]; exact h1
  · rw [if_neg h, if_neg (fun t => h (hc.1 t))]; exact h2

theorem get {f : σ → M σ α} {f' : σ' → M σ' β} (h : ∀ s, Conv rs ra (f s) (f' (rs s))) :
    Conv rs ra (M.get.bind f) (M.get.bind f') := fun s => h s s

theorem forEach {κ : Type} {f : κ → M σ Unit} {f' : κ → M σ' Unit} (h : ∀ a, Conv rs id (f a) (f' a)) (l : List κ) :
    Conv rs id (M.forEach f l) (M.forEach f' l) := by
  induction l with
  | nil => exact pure rfl
  | cons a l ih => exact bind (h a) fun _ => ih

theorem zoom {τ τ' : Type} {rt : τ → τ'} {g : σ → τ} {u : τ → σ → σ} {g' : σ' → τ'} {u' : τ' → σ' → σ'} {m : M τ α} {m' : M τ' β}
    (h : Conv rt ra m m') (hg : ∀ s, g' (rs s) = rt (g s)) (hu : ∀ s t, u' (rt t) (rs s) = rs (u t s)) :
    Conv rs ra (M.zoom g u m) (M.zoom g' u' m') := by
  intro s
  unfold M.zoom
  rw [hg, h (g s)]
  cases m (g s) with
  | ok t a => show Out.ok (u' (rt t) (rs s)) _ = _; rw [hu]; rfl
  | throw t x => show Out.throw (u' (rt t) (rs s)) _ = _; rw [hu]; rfl
  | ub b => rfl

theorem ret {m : M σ α} {m' : M σ' β} (h : Conv rs ra m m') {f : α → γ} {f' : β → δ} (hf : ∀ a, f' (ra a) = rb (f a)) :
    Conv rs rb (m.ret f) (m'.ret f') := bind h fun a => pure (hf a)

end Conv

/-! ### Trajectories -/

section
variable {cfg : Cfg G T N} {cfg' : Cfg G' T' N'} (hc : CfgHom φ ν τ cfg cfg')
include hc

theorem isSpecial_cv (c : Chr) : cfg'.isSpecial c = cfg.isSpecial c := by
  unfold Cfg.isSpecial; rw [hc.special]

theorem look_cv (tr : KMap T) (k : Key) : look cfg'.ops (cvMap τ tr) k = τ (look cfg.ops tr k) := by
  unfold look
  rw [cvMap_find, hc.ops.dflt]
  cases tr.find? k <;> rfl

theorem touch_cv (tr : KMap T) (k : Key) : touch cfg'.ops (cvMap τ tr) k = cvMap τ (touch cfg.ops tr k) := by
  unfold touch
  rw [cvMap_find]
  cases tr.find? k with
  | some _ => rfl
  | none =>
    show (cvMap τ tr).set k cfg'.ops.dflt = _
    rw [hc.ops.dflt, ← cvMap_set]

theorem getBetween_cv (tr : KMap T) (a b : Key) :
    getBetween cfg'.ops (cvMap τ tr) a b = (cvMap τ (getBetween cfg.ops tr a b).1, τ (getBetween cfg.ops tr a b).2) := by
  unfold getBetween
  simp only [look_cv hc, touch_cv hc, hc.ops.between, hc.ops.compose, hc.ops.inverse]
  split <;> rfl

/-- Procedures of the outlier-rejection object. -/
abbrev SP (φ : G → G') (ν : N → N') (τ : T → T') {α β : Type} (ra : α → β) (m : M (Pcm G T N) α) (m' : M (Pcm G' T' N') β) : Prop :=
  Conv (cvPcm φ ν τ) ra m m'

theorem trajBetween_cv (c : Chr) (a b : Key) : SP φ ν τ τ (trajBetween cfg c a b) (trajBetween cfg' c a b) := by
  intro p
  unfold trajBetween
  rw [trajOf_cv, getBetween_cv hc]
  show Out.ok (setTraj (cvPcm φ ν τ p) c (cvMap τ _)) _ = _
  rw [setTraj_cv]
  rfl

theorem toT_cv (b : Btw G N) : SP φ ν τ τ (toT cfg b) (toT cfg' (cvBtw φ ν b)) := by
  obtain ⟨k1, k2, m, n⟩ := b
  cases n with
  | none => exact Conv.undef _
  | some n => exact Conv.pure (hc.ops.ofFactor m n)

theorem updateOdom_cv (vals : Vals G) (b : Btw G N) :
    SP φ ν τ id (updateOdom cfg vals b) (updateOdom cfg' (cvVals φ vals) (cvBtw φ ν b)) := by
  unfold updateOdom
  refine Conv.bind (Conv.modify (g := id) fun p => ?_) fun _ => ?_
  · show ({ cvPcm φ ν τ p with odom := p.odom.map (cvBtw φ ν) ++ [cvBtw φ ν b] } : Pcm G' T' N') =
      { cvPcm φ ν τ p with odom := (p.odom ++ [b]).map (cvBtw φ ν) }
    rw [List.map_append]; rfl
  refine Conv.bind (toT_cv hc b) fun delta => ?_
  refine Conv.get fun p => ?_
  have last : SP φ ν τ id
      (M.modify fun p : Pcm G T N => setTraj p (chr b.k2) ((touch cfg.ops (trajOf p (chr b.k2)) b.k1).set b.k2
        (cfg.ops.compose (look cfg.ops (touch cfg.ops (trajOf p (chr b.k2)) b.k1) b.k1) delta)))
      (M.modify fun p : Pcm G' T' N' => setTraj p (chr b.k2) ((touch cfg'.ops (trajOf p (chr b.k2)) b.k1).set b.k2
        (cfg'.ops.compose (look cfg'.ops (touch cfg'.ops (trajOf p (chr b.k2)) b.k1) b.k1) (τ delta)))) := by
    refine Conv.modify fun q => ?_
    rw [trajOf_cv, touch_cv hc, look_cv hc, hc.ops.compose, ← cvMap_set, setTraj_cv]
  have hg : AList.get? (· == ·) (cvPcm φ ν τ p).trajs (chr b.k2) = (AList.get? (· == ·) p.trajs (chr b.k2)).map (cvMap τ) :=
    alist_getId _ _
  have hv : (cvVals φ vals).find? b.k1 = (vals.find? b.k1).map (cvVal φ) := cvMap_find _ _ _
  have hg' : AList.get? (· == ·) (cvPcm φ ν τ p).trajs (chr (cvBtw φ ν b).k2) = _ := hg
  have hv' : (cvVals φ vals).find? (cvBtw φ ν b).k1 = _ := hv
  dsimp only
  rw [hg']
  cases AList.get? (· == ·) p.trajs (chr b.k2) with
  | some _ => exact Conv.bind (ra := id) (Conv.pure rfl) fun _ => last
  | none =>
    dsimp only [Option.map_none]
    rw [hv']
    cases vals.find? b.k1 with
    | none => exact Conv.bind (ra := id) (Conv.raise _) fun _ => last
    | some v =>
      cases v with
      | other _ => exact Conv.bind (ra := id) (Conv.raise _) fun _ => last
      | pose g =>
        refine Conv.bind (ra := id) (Conv.modify fun q => ?_) fun _ => last
        have e := setTraj_cv (φ := φ) (ν := ν) (τ := τ) q (chr b.k2) [(b.k1, cfg.ops.ofPose g)]
        show ({ setTraj (cvPcm φ ν τ q) (chr b.k2) [(b.k1, cfg'.ops.ofPose (φ g))] with
          robotOrder := q.robotOrder ++ [chr b.k2] } : Pcm G' T' N') = _
        rw [hc.ops.ofPose]
        show ({ setTraj (cvPcm φ ν τ q) (chr b.k2) (cvMap τ [(b.k1, cfg.ops.ofPose g)]) with
          robotOrder := q.robotOrder ++ [chr b.k2] } : Pcm G' T' N') = _
        rw [e]; rfl

theorem isOdomConsistent_cv (b : Btw G N) : SP φ ν τ id (isOdomConsistent cfg b) (isOdomConsistent cfg' (cvBtw φ ν b)) := by
  unfold isOdomConsistent
  refine Conv.ite (by rw [hc.odomCheck]) (Conv.pure rfl) ?_
  refine Conv.bind (trajBetween_cv hc (chr b.k1) b.k1 b.k2) fun x => ?_
  refine Conv.bind (toT_cv hc b) fun y => ?_
  refine Conv.pure ?_
  rw [hc.ops.inverse, hc.ops.compose, hc.ops.odomOk]; rfl

theorem areLoopsConsistent_cv (x y : Btw G N) :
    SP φ ν τ id (areLoopsConsistent cfg x y) (areLoopsConsistent cfg' (cvBtw φ ν x) (cvBtw φ ν y)) := by
  unfold areLoopsConsistent
  refine Conv.ite (by rw [hc.loopCheck]) (Conv.pure rfl) ?_
  refine Conv.bind (toT_cv hc x) fun ab => ?_
  refine Conv.bind (toT_cv hc y) fun cd => ?_
  refine Conv.bind (trajBetween_cv hc _ _ _) fun ac => ?_
  refine Conv.bind (trajBetween_cv hc _ _ _) fun bd => ?_
  refine Conv.pure ?_
  simp only [hc.ops.inverse, hc.ops.compose, hc.ops.loopOk, id]

theorem pairVerdicts_cv (y : Btw G N) (l : List (Btw G N)) :
    SP φ ν τ id (pairVerdicts cfg y l) (pairVerdicts cfg' (cvBtw φ ν y) (l.map (cvBtw φ ν))) := by
  induction l with
  | nil => exact Conv.pure rfl
  | cons x xs ih =>
    refine Conv.bind (areLoopsConsistent_cv hc x y) fun v => ?_
    exact Conv.bind ih fun vs => Conv.pure rfl

theorem incrementAdj_cv (id0 : ObsId) (y : Btw G N) :
    SP φ ν τ id (incrementAdj cfg id0 y) (incrementAdj cfg' id0 (cvBtw φ ν y)) := by
  unfold incrementAdj
  refine Conv.get fun p => ?_
  simp only [lcOf_cv, show ∀ m : Meas G N, (cvMeas φ ν m).factors = m.factors.map (cvBtw φ ν) from fun _ => rfl,
    show ∀ m : Meas G N, (cvMeas φ ν m).adj = m.adj from fun _ => rfl, List.length_map, ← List.map_take]
  refine Conv.ite Iff.rfl (Conv.modify fun p => updLc_cv _ _ fun m => rfl) ?_
  refine Conv.ite Iff.rfl (Conv.undef _) ?_
  exact Conv.bind (pairVerdicts_cv hc y _) fun vs => Conv.modify fun p => updLc_cv _ _ fun m => rfl

theorem landmarkVerdicts_cv (l : Key) (y : Btw G N) (xs : List (Btw G N)) :
    SP φ ν τ id (landmarkVerdicts cfg l y xs) (landmarkVerdicts cfg' l (cvBtw φ ν y) (xs.map (cvBtw φ ν))) := by
  induction xs with
  | nil => exact Conv.pure rfl
  | cons x xs ih =>
    refine Conv.ite Iff.rfl (Conv.pure rfl) ?_
    refine Conv.bind (toT_cv hc x) fun il => ?_
    refine Conv.bind (toT_cv hc y) fun jl => ?_
    refine Conv.bind (trajBetween_cv hc _ _ _) fun ij => ?_
    refine Conv.bind ih fun vs => ?_
    refine Conv.pure ?_
    simp only [hc.ops.inverse, hc.ops.compose, hc.ops.loopOk, id]

theorem incrementLandmarkAdj_cv (l : Key) : SP φ ν τ id (incrementLandmarkAdj cfg l) (incrementLandmarkAdj cfg' l) := by
  unfold incrementLandmarkAdj
  refine Conv.get fun p => ?_
  simp only [lmOf_cv, show ∀ m : Meas G N, (cvMeas φ ν m).factors = m.factors.map (cvBtw φ ν) from fun _ => rfl,
    show ∀ m : Meas G N, (cvMeas φ ν m).adj = m.adj from fun _ => rfl, List.length_map, ← List.map_take, List.getLast?_map]
  cases (lmOf p l).factors.getLast? with
  | none => exact Conv.modify fun p => updLm_cv _ _ fun m => rfl
  | some y =>
    refine Conv.ite Iff.rfl (Conv.modify fun p => updLm_cv _ _ fun m => rfl) ?_
    refine Conv.ite Iff.rfl (Conv.undef _) ?_
    refine Conv.bind (landmarkVerdicts_cv hc l y _) fun r => ?_
    cases r with
    | none => exact Conv.pure rfl
    | some vs => exact Conv.modify fun p => updLm_cv _ _ fun m => rfl

end

/-! ### Selection -/

theorem pick_cv (fs : List (Btw G N)) (n : Nat) (is : List Nat) : ∀ acc : List (Btw G N),
    pick (fs.map (cvBtw φ ν)) n is (acc.map (cvBtw φ ν)) = cvOut (List.map (cvBtw φ ν)) id (pick fs n is acc) := by
  induction is with
  | nil =>
    intro acc
    unfold pick
    rw [List.length_map]
    split <;> rfl
  | cons i is ih =>
    intro acc
    unfold pick
    rw [List.length_map, List.getElem?_map]
    split
    · rfl
    · cases fs[i]? with
      | none => rfl
      | some f =>
        show pick _ n is (acc.map (cvBtw φ ν) ++ [cvBtw φ ν f]) = _
        rw [← ih (acc ++ [f]), List.map_append]; rfl

theorem measInliers_cv (m : Meas G N) : measInliers (cvMeas φ ν m) = cvOut (cvMeas φ ν) id (measInliers m) := by
  unfold measInliers
  show (match findMaxCliqueHeu m.adj [] with | none => _ | some (k, idx) => _) = _
  cases findMaxCliqueHeu m.adj [] with
  | none => rfl
  | some r =>
    obtain ⟨k, idx⟩ := r
    dsimp only
    rw [show (cvMeas φ ν m).factors = m.factors.map (cvBtw φ ν) from rfl]
    have := pick_cv (φ := φ) (ν := ν) m.factors (if k < 0 then 2 ^ 64 - k.natAbs else k.toNat) idx []
    rw [List.map_nil] at this
    rw [this]
    cases pick m.factors (if k < 0 then 2 ^ 64 - k.natAbs else k.toNat) idx [] <;> rfl

theorem incInliers_cv (n : Nat) : Conv (cvMeas φ ν) id (incInliers n) (incInliers (G := G') (N := N') n) := by
  intro m
  unfold incInliers
  rw [show (cvMeas φ ν m).adj = m.adj from rfl, show (cvMeas φ ν m).cons.length = m.cons.length from List.length_map _]
  cases findMaxCliqueHeuIncremental m.adj n m.cons.length [] with
  | none => rfl
  | some r =>
    obtain ⟨k, idx⟩ := r
    dsimp only
    split
    · rw [show (cvMeas φ ν m).factors = m.factors.map (cvBtw φ ν) from rfl]
      have := pick_cv (φ := φ) (ν := ν) m.factors k idx []
      rw [List.map_nil] at this
      rw [this]
      cases pick m.factors k idx [] <;> rfl
    · rfl

theorem inlierPass_cv {κ : Type} {f : Meas G N → Out (Meas G N) Nat} {f' : Meas G' N' → Out (Meas G' N') Nat}
    (h : ∀ m, f' (cvMeas φ ν m) = cvOut (cvMeas φ ν) id (f m)) (l : List (κ × Meas G N)) : ∀ good,
    inlierPass f' (l.map fun e => (e.1, cvMeas φ ν e.2)) good =
      cvOut (fun r => (r.1.map fun e => (e.1, cvMeas φ ν e.2), r.2)) id (inlierPass f l good) := by
  induction l with
  | nil => intro good; rfl
  | cons e t ih =>
    intro good
    obtain ⟨k, m⟩ := e
    rw [List.map_cons]
    unfold inlierPass
    dsimp only
    rw [h m]
    cases f m with
    | ub u => rfl
    | throw m' x => rfl
    | ok m' n =>
      dsimp only [cvOut]
      rw [show good + id n = good + n from rfl, ih]
      cases inlierPass f t (good + n) <;> rfl

section
variable {cfg : Cfg G T N} {cfg' : Cfg G' T' N'} (hc : CfgHom φ ν τ cfg cfg')
include hc

theorem lcInliers_cv (m : Meas G N) : lcInliers cfg' (cvMeas φ ν m) = cvOut (cvMeas φ ν) id (lcInliers cfg m) := by
  unfold lcInliers
  rw [hc.loopCheck]
  split
  · exact measInliers_cv m
  · show Out.ok _ (m.factors.map (cvBtw φ ν)).length = _
    rw [List.length_map]; rfl

theorem lcPass_cv : SP φ ν τ id (lcPass cfg) (lcPass cfg') :=
  Conv.zoom (rt := fun r : List (ObsId × Meas G N) × Nat => (r.1.map fun e => (e.1, cvMeas φ ν e.2), r.2))
    (fun r => inlierPass_cv (lcInliers_cv hc) r.1 r.2) (fun _ => rfl) fun _ _ => rfl

omit hc in
theorem lmPass_cv : SP φ ν τ id (lmPass (G := G) (T := T) (N := N)) (lmPass (G := G') (T := T') (N := N')) :=
  Conv.zoom (rt := fun r : List (Key × Meas G N) × Nat => (r.1.map fun e => (e.1, cvMeas φ ν e.2), r.2))
    (fun r => inlierPass_cv measInliers_cv r.1 r.2) (fun _ => rfl) fun _ _ => rfl

theorem findInliers_cv : SP φ ν τ id (findInliers cfg) (findInliers cfg') := by
  unfold findInliers
  refine Conv.bind (ra := id) (Conv.modify fun p => rfl) fun _ => ?_
  exact Conv.bind (lcPass_cv hc) fun _ => lmPass_cv

omit hc in
theorem findInliersIncremental_cv (num : List (ObsId × Nat)) :
    SP φ ν τ id (findInliersIncremental (G := G) (T := T) (N := N) num) (findInliersIncremental (G := G') (T := T') (N := N') num) := by
  unfold findInliersIncremental
  refine Conv.bind (ra := id) (Conv.modify fun p => rfl) fun _ => ?_
  refine Conv.bind (Conv.forEach (fun idn => ?_) num) fun _ => ?_
  · exact Conv.zoom (incInliers_cv idn.2) (fun p => lcOf_cv p idn.1) fun p m => updLc_cv p idn.1 fun _ => rfl
  refine Conv.bind (ra := id) (Conv.modify fun p => ?_) fun _ => lmPass_cv
  show ({ cvPcm φ ν τ p with totalGood := p.totalGood + (((cvPcm φ ν τ p).lcs.map fun e => e.2.cons.length).sum) } : Pcm G' T' N') = _
  have : ((cvPcm φ ν τ p).lcs.map fun e => e.2.cons.length) = p.lcs.map fun e => e.2.cons.length := by
    show ((p.lcs.map fun e => (e.1, cvMeas φ ν e.2)).map fun e => e.2.cons.length) = _
    rw [List.map_map]
    refine List.map_congr_left fun e _ => ?_
    exact List.length_map _
  rw [this]; rfl

/-! ### Processing new measurements -/

theorem classify_cv (nv : Vals G) (f : Factor G N) : classify cfg' (cvVals φ nv) (cvFactor φ ν f) = classify cfg nv f := by
  cases f with
  | btw b =>
    show (if cfg'.isSpecial (chr b.k1) || cfg'.isSpecial (chr b.k2) then _ else _) = _
    unfold cvVals
    simp only [isSpecial_cv hc, cvMap_has]
    rfl
  | prior k m => rfl
  | priorAlt k t => rfl
  | other ks t => rfl

theorem landmarkKey_cv (b : Btw G N) : landmarkKey cfg' (cvBtw φ ν b) = landmarkKey cfg b := by
  unfold landmarkKey
  rw [isSpecial_cv hc]; rfl

theorem sortFactors_cv (nv vals : Vals G) (fs : Graph G N) : ∀ (l : List (Btw G N)) (o : Bool),
    SP φ ν τ (fun r => (r.1.map (cvBtw φ ν), r.2)) (sortFactors cfg nv vals fs l o)
      (sortFactors cfg' (cvVals φ nv) (cvVals φ vals) (cvGraph φ ν fs) (l.map (cvBtw φ ν)) o) := by
  induction fs with
  | nil => intro l o; exact Conv.pure rfl
  | cons f fs ih =>
    intro l o
    cases f with
    | none => exact ih l o
    | some f =>
      show SP φ ν τ _ _ (sortFactors cfg' (cvVals φ nv) (cvVals φ vals) (some (cvFactor φ ν f) :: cvGraph φ ν fs) (l.map (cvBtw φ ν)) o)
      have spec : SP φ ν τ (fun r : List (Btw G N) × Bool => (r.1.map (cvBtw φ ν), r.2))
          (M.bind (M.modify fun p : Pcm G T N => { p with special := p.special ++ [f] }) fun _ => sortFactors cfg nv vals fs l true)
          (M.bind (M.modify fun p : Pcm G' T' N' => { p with special := p.special ++ [cvFactor φ ν f] }) fun _ =>
            sortFactors cfg' (cvVals φ nv) (cvVals φ vals) (cvGraph φ ν fs) (l.map (cvBtw φ ν)) true) := by
        refine Conv.bind (ra := id) (Conv.modify fun p => ?_) fun _ => ih l true
        show ({ cvPcm φ ν τ p with special := p.special.map (cvFactor φ ν) ++ [cvFactor φ ν f] } : Pcm G' T' N') =
          { cvPcm φ ν τ p with special := (p.special ++ [f]).map (cvFactor φ ν) }
        rw [List.map_append]; rfl
      cases f with
      | prior k m => exact spec
      | priorAlt k t => exact spec
      | other ks t => exact spec
      | btw b =>
        have e := classify_cv hc nv (.btw b)
        unfold sortFactors
        show SP φ ν τ _ _ (match classify cfg' (cvVals φ nv) (cvFactor φ ν (.btw b)), Factor.btw (cvBtw φ ν b) with
          | .odometry, .btw b => _ | .firstLandmark, .btw b => _ | .loopClosure, .btw b => _ | _, f => _)
        rw [e]
        cases hcl : classify cfg nv (.btw b) with
        | odometry => exact Conv.bind (updateOdom_cv hc vals b) fun _ => ih l o
        | firstLandmark =>
          refine Conv.bind (ra := id) (Conv.modify fun p => ?_) fun _ => ih l o
          rw [landmarkKey_cv hc, updLm_cv (f := fun _ => ⟨[b], [b], Mat.zero 1⟩) p (landmarkKey cfg b) fun _ => rfl]
          rfl
        | loopClosure =>
          refine Conv.ite Iff.rfl ?_ (ih l o)
          have := ih (l ++ [b]) o
          rw [List.map_append] at this
          exact this
        | nonBetween => exact spec

theorem registerLm_cv (b : Btw G N) : SP φ ν τ id (registerLm cfg b) (registerLm cfg' (cvBtw φ ν b)) := by
  unfold registerLm
  rw [landmarkKey_cv hc]
  refine Conv.bind (ra := id) (Conv.modify fun p => ?_) fun _ => incrementLandmarkAdj_cv hc _
  rw [updLm_cv (f := fun m => { m with factors := m.factors ++ [b] }) p (landmarkKey cfg b) fun m => ?_]
  · rfl
  · show cvMeas φ ν _ = ({ cvMeas φ ν m with factors := m.factors.map (cvBtw φ ν) ++ [cvBtw φ ν b] } : Meas G' N')
    unfold cvMeas
    rw [List.map_append]; rfl

theorem registerLc_cv (b : Btw G N) : SP φ ν τ id (registerLc cfg b) (registerLc cfg' (cvBtw φ ν b)) := by
  unfold registerLc
  refine Conv.bind (ra := id) (Conv.modify fun p => ?_) fun _ => Conv.when hc.loopCheck (incrementAdj_cv hc _ b)
  rw [updLc_cv (f := fun m => { m with factors := m.factors ++ [b] }) p ⟨chr (cvBtw φ ν b).k1, chr (cvBtw φ ν b).k2⟩ fun m => ?_]
  · rfl
  · show cvMeas φ ν _ = ({ cvMeas φ ν m with factors := m.factors.map (cvBtw φ ν) ++ [cvBtw φ ν b] } : Meas G' N')
    unfold cvMeas
    rw [List.map_append]; rfl

theorem parseLoops_cv (vals : Vals G) (bs : List (Btw G N)) : ∀ num,
    SP φ ν τ id (parseLoops cfg vals bs num) (parseLoops cfg' (cvVals φ vals) (bs.map (cvBtw φ ν)) num) := by
  induction bs with
  | nil => intro num; exact Conv.pure rfl
  | cons b bs ih =>
    intro num
    rw [List.map_cons]
    unfold parseLoops
    have h1 : ∀ k, (cvVals φ vals).has k = vals.has k := fun k => cvMap_has _ _ _
    simp only [h1, isSpecial_cv hc]
    refine Conv.ite Iff.rfl (ih num) ?_
    refine Conv.ite Iff.rfl (Conv.bind (registerLm_cv hc b) fun _ => ih num) ?_
    refine Conv.bind (ra := id) (Conv.cond rfl (isOdomConsistent_cv hc b) (Conv.pure rfl)) fun ok => ?_
    exact Conv.ite Iff.rfl (Conv.bind (registerLc_cv hc b) fun _ => ih _) (ih num)

theorem processCands_cv (vals : Vals G) (cands : List (Btw G N)) :
    SP φ ν τ id (processCands cfg vals cands) (processCands cfg' (cvVals φ vals) (cands.map (cvBtw φ ν))) := by
  unfold processCands
  refine Conv.bind (parseLoops_cv hc vals cands []) fun num => ?_
  exact Conv.cond hc.incremental (findInliersIncremental_cv num) (findInliers_cv hc)

end

/-! ### Values -/

theorem insertVals_cv (vs : Vals G) : Conv (cvVals φ) id (insertVals vs) (insertVals (cvVals φ vs)) := by
  induction vs with
  | nil => exact Conv.pure rfl
  | cons e t ih =>
    obtain ⟨k, v⟩ := e
    intro vals
    show (if (cvVals φ vals).has k then Out.throw _ _ else insertVals (cvVals φ t) ((cvVals φ vals).set k (cvVal φ v))) = cvOut _ _ (if _ then _ else _)
    rw [show (cvVals φ vals).has k = vals.has k from cvMap_has _ _ _]
    split
    · rfl
    · have := ih (vals.set k v)
      unfold cvVals at this ⊢
      rw [← cvMap_set]
      exact this

theorem sameType_cv (v w : Val G) : (cvVal φ v).sameType (cvVal φ w) = v.sameType w := by
  cases v <;> cases w <;> rfl

theorem updateVals_cv (vs : Vals G) : Conv (cvVals φ) id (updateVals vs) (updateVals (cvVals φ vs)) := by
  induction vs with
  | nil => exact Conv.pure rfl
  | cons e t ih =>
    obtain ⟨k, v⟩ := e
    intro vals
    show (match (cvVals φ vals).find? k with
      | none => Out.throw _ _
      | some v' => if v'.sameType (cvVal φ v) then updateVals (cvVals φ t) ((cvVals φ vals).set k (cvVal φ v)) else _) =
      cvOut _ _ (match vals.find? k with | none => _ | some v' => _)
    rw [show (cvVals φ vals).find? k = (vals.find? k).map (cvVal φ) from cvMap_find _ _ _]
    cases vals.find? k with
    | none => rfl
    | some v' =>
      dsimp only [Option.map_some]
      rw [sameType_cv]
      split
      · have := ih (vals.set k v)
        unfold cvVals at this ⊢
        rw [← cvMap_set]
        exact this
      · rfl


/-! ### Frame alignment -/

section
variable [Group G] [Group G'] {φ : G →* G'} {cfg : Cfg G T N} {cfg' : Cfg G' T' N'} (hc : CfgHom φ ν τ cfg cfg')
include hc

theorem robotOdomValues_cv (tr : KMap T) (X : G) :
    robotOdomValues cfg' (cvMap τ tr) (φ X) = cvVals φ (robotOdomValues cfg tr X) := by
  unfold robotOdomValues cvVals cvMap
  rw [List.map_map, List.map_map]
  refine List.map_congr_left fun e _ => ?_
  show (e.1, Val.pose (φ X * cfg'.ops.pose (τ e.2))) = (e.1, Val.pose (φ (X * cfg.ops.pose e.2)))
  rw [hc.ops.pose, map_mul]

theorem alignCandidate_cv (p : Pcm G T N) (r0 ri : Chr) (b : Btw G N) :
    alignCandidate cfg' (cvPcm φ ν τ p) r0 ri (cvBtw φ ν b) = (alignCandidate cfg p r0 ri b).map φ := by
  unfold alignCandidate
  rw [trajOf_cv, trajOf_cv, hc.charSigned]
  dsimp only
  rw [cvMap_find, cvMap_find]
  simp only [show (cvBtw φ ν b).k1 = b.k1 from rfl, show (cvBtw φ ν b).k2 = b.k2 from rfl, show (cvBtw φ ν b).m = φ b.m from rfl]
  generalize decide (ucharVal (chr b.k1) ≠ charVal cfg.charSigned r0) = sw
  cases sw
  · simp only [Bool.false_eq_true, if_false]
    cases (trajOf p r0).find? b.k1 <;> cases (trajOf p ri).find? b.k2 <;> simp [hc.ops.pose, map_mul, map_inv]
  · simp only [if_true]
    cases (trajOf p r0).find? b.k2 <;> cases (trajOf p ri).find? b.k1 <;> simp [hc.ops.pose, map_mul, map_inv]

theorem alignCandidates_cv (p : Pcm G T N) (r0 ri : Chr) (bs : List (Btw G N)) :
    alignCandidates cfg' (cvPcm φ ν τ p) r0 ri (bs.map (cvBtw φ ν)) = (alignCandidates cfg p r0 ri bs).map (List.map φ) := by
  induction bs with
  | nil => rfl
  | cons b bs ih =>
    rw [List.map_cons]
    unfold alignCandidates
    rw [alignCandidate_cv hc, ih]
    cases alignCandidate cfg p r0 ri b <;> cases alignCandidates cfg p r0 ri bs <;> rfl

variable {env : Env G N} {env' : Env G' N'} (he : Converted φ ν cfg.align env env')
include he

theorem alignRobot_cv (ha : cfg.align = true) (p : Pcm G T N) (r0 ri : Chr) :
    Conv (cvVals φ) id (alignRobot cfg env p r0 ri) (alignRobot cfg' env' (cvPcm φ ν τ p) r0 ri) := by
  intro vals
  unfold alignRobot
  rw [show AList.get? ObsId.eqv (cvPcm φ ν τ p).lcs ⟨r0, ri⟩ = (AList.get? ObsId.eqv p.lcs ⟨r0, ri⟩).map (cvMeas φ ν) from alist_getId _ _]
  cases AList.get? ObsId.eqv p.lcs ⟨r0, ri⟩ with
  | none => rfl
  | some m =>
    dsimp only [Option.map_some]
    rw [show (cvMeas φ ν m).cons = m.cons.map (cvBtw φ ν) from rfl, alignCandidates_cv hc]
    cases alignCandidates cfg p r0 ri m.cons with
    | none => rfl
    | some cs =>
      dsimp only [Option.map_some]
      rw [he.avg ha]
      cases env.avg cs with
      | none => rfl
      | some X =>
        dsimp only [Option.map_some]
        rw [trajOf_cv, robotOdomValues_cv hc]
        exact updateVals_cv _ vals

theorem alignValues_cv (ha : cfg.align = true) (p : Pcm G T N) (rs : List Chr) :
    Conv (cvVals φ) id (alignValues cfg env p rs) (alignValues cfg' env' (cvPcm φ ν τ p) rs) := by
  cases rs with
  | nil => exact Conv.pure rfl
  | cons r0 rs =>
    unfold alignValues
    refine Conv.bind (ra := id) ?_ fun _ => Conv.forEach (fun ri => alignRobot_cv hc he ha p r0 ri) rs
    rw [trajOf_cv, ← map_one φ, robotOdomValues_cv hc]
    exact updateVals_cv _

/-! ### The solver -/

/-- Procedures of the solver. -/
abbrev SS (φ : G → G') (ν : N → N') (τ : T → T') {α β : Type} (ra : α → β) (m : M (St G T N) α) (m' : M (St G' T' N') β) : Prop :=
  Conv (cvSt φ ν τ) ra m m'

omit hc he in
theorem onPcm_cv {α β : Type} {ra : α → β} {m : M (Pcm G T N) α} {m' : M (Pcm G' T' N') β} (h : SP φ ν τ ra m m') :
    SS φ ν τ ra (onPcm m) (onPcm m') := Conv.zoom h (fun _ => rfl) fun _ _ => rfl

omit hc he in
theorem onValues_cv {α β : Type} {ra : α → β} {m : M (Vals G) α} {m' : M (Vals G') β} (h : Conv (cvVals φ) ra m m') :
    SS φ ν τ ra (onValues m) (onValues m') := Conv.zoom h (fun _ => rfl) fun _ _ => rfl

omit hc in
theorem buildGraph_cv (p : Pcm G T N) : buildGraph env' (cvPcm φ ν τ p) = cvGraph φ ν (buildGraph env p) := by
  unfold buildGraph cvGraph
  rw [List.map_append, List.map_append, List.map_append]
  rw [show (cvPcm φ ν τ p).lcs = p.lcs.map fun e => (e.1, cvMeas φ ν e.2) from rfl,
    show (cvPcm φ ν τ p).landmarks = p.landmarks.map fun e => (e.1, cvMeas φ ν e.2) from rfl, he.lc, he.lm]
  have cons : ∀ m : Meas G N, (cvMeas φ ν m).cons.map (fun b => some (Factor.btw b)) =
      (m.cons.map fun b => some (Factor.btw b)).map (Option.map (cvFactor φ ν)) := by
    intro m
    show (m.cons.map (cvBtw φ ν)).map _ = _
    rw [List.map_map, List.map_map]; rfl
  refine congr (congrArg _ (congr (congrArg _ (congr (congrArg _ ?_) ?_)) ?_)) ?_
  · show (p.odom.map (cvBtw φ ν)).map _ = _
    rw [List.map_map, List.map_map]; rfl
  · show (p.special.map (cvFactor φ ν)).map _ = _
    rw [List.map_map, List.map_map]; rfl
  · rw [List.flatMap_map, List.map_flatMap]
    refine List.flatMap_congr fun e _ => ?_
    show (if !p.ignored.contains e.1.id1 && !p.ignored.contains e.1.id2 then _ else _) = List.map _ (if _ then _ else _)
    split
    · exact cons e.2
    · rfl
  · rw [List.flatMap_map, List.map_flatMap]
    exact List.flatMap_congr fun e _ => cons e.2

omit hc in
theorem rebuild_cv : SS φ ν τ id (rebuild (T := T) env) (rebuild (T := T') env') := by
  refine Conv.modify fun s => ?_
  show ({ cvSt φ ν τ s with nfg := buildGraph env' (cvPcm φ ν τ s.pcm) } : St G' T' N') = _
  rw [buildGraph_cv he]; rfl

theorem alignStep_cv : SS φ ν τ id (alignStep cfg env) (alignStep cfg' env') := by
  intro s
  unfold alignStep
  rw [hc.align, hc.charSigned]
  show (if cfg.align && decide (1 < s.pcm.robotOrder.length) then _ else _) = cvOut _ _ (if _ then _ else _)
  split
  · rename_i hal
    have ha : cfg.align = true := by simp at hal; exact hal.1
    dsimp only
    have := alignValues_cv hc he ha { s.pcm with robotOrder := sortRobots cfg.charSigned s.pcm.robotOrder }
      (sortRobots cfg.charSigned s.pcm.robotOrder) s.values
    show (match alignValues cfg' env' (cvPcm φ ν τ { s.pcm with robotOrder := sortRobots cfg.charSigned s.pcm.robotOrder })
      (sortRobots cfg.charSigned s.pcm.robotOrder) (cvVals φ s.values) with | .ok v _ => _ | .throw _ e => _ | .ub u => _) = _
    rw [this]
    cases alignValues cfg env { s.pcm with robotOrder := sortRobots cfg.charSigned s.pcm.robotOrder }
      (sortRobots cfg.charSigned s.pcm.robotOrder) s.values <;> rfl
  · rfl

theorem processFactors_cv (fs : Graph G N) (vs : Vals G) :
    SS φ ν τ id (processFactors cfg env fs vs) (processFactors cfg' env' (cvGraph φ ν fs) (cvVals φ vs)) := by
  unfold processFactors
  refine Conv.get fun s => ?_
  refine Conv.bind (onPcm_cv (sortFactors_cv hc vs s.values fs [] false)) fun r => ?_
  have hl : (r.1.map (cvBtw φ ν)).length = r.1.length := List.length_map _
  dsimp only
  rw [hl]
  refine Conv.bind (Conv.when rfl (onPcm_cv (processCands_cv hc s.values r.1))) fun _ => ?_
  refine Conv.bind (rebuild_cv he) fun _ => ?_
  exact Conv.bind (alignStep_cv hc he) fun _ => Conv.pure rfl

theorem removeOutliers_cv (fs : Graph G N) (vs : Vals G) :
    SS φ ν τ id (removeOutliers cfg env fs vs) (removeOutliers cfg' env' (cvGraph φ ν fs) (cvVals φ vs)) := by
  unfold removeOutliers
  refine Conv.bind (onValues_cv (insertVals_cv vs)) fun _ => ?_
  refine Conv.cond ?_ (Conv.pure rfl) (processFactors_cv hc he fs vs)
  unfold cvGraph
  rw [List.length_map]

/-! ### Optimization -/

omit hc he in
theorem applyResult_cv (vs : Vals G) : SS φ ν τ id (applyResult (T := T) (N := N) vs) (applyResult (T := T') (N := N') (cvVals φ vs)) := by
  induction vs with
  | nil => exact Conv.pure rfl
  | cons e t ih =>
    obtain ⟨k, v⟩ := e
    intro s
    show (match (cvVals φ s.values).find? k with
      | some v' => if v'.sameType (cvVal φ v) then
          applyResult (cvVals φ t) { cvSt φ ν τ s with values := (cvVals φ s.values).set k (cvVal φ v) } else Out.throw (cvSt φ ν τ s) .wrongType
      | none => match (cvVals φ s.tempValues).find? k with
        | some v' => if v'.sameType (cvVal φ v) then
            applyResult (cvVals φ t) { cvSt φ ν τ s with tempValues := (cvVals φ s.tempValues).set k (cvVal φ v) } else Out.throw (cvSt φ ν τ s) .wrongType
        | none => applyResult (cvVals φ t) (cvSt φ ν τ s)) = cvOut _ _ (match s.values.find? k with | some v' => _ | none => _)
    have f1 : ∀ w : Vals G, (cvVals φ w).find? k = (w.find? k).map (cvVal φ) := fun w => cvMap_find _ _ _
    have f2 : ∀ w : Vals G, (cvVals φ w).set k (cvVal φ v) = cvVals φ (w.set k v) := fun w => (cvMap_set _ _ _ _).symm
    rw [f1, f1, f2, f2]
    cases s.values.find? k with
    | some v' =>
      dsimp only [Option.map_some]
      rw [sameType_cv]
      split
      · exact ih { s with values := s.values.set k v }
      · rfl
    | none =>
      dsimp only [Option.map_none]
      cases s.tempValues.find? k with
      | some v' =>
        dsimp only [Option.map_some]
        rw [sameType_cv]
        split
        · exact ih { s with tempValues := s.tempValues.set k v }
        · rfl
      | none => exact ih s

omit hc he in
theorem mergeVals_cv (v w : Vals G) : mergeVals (cvVals φ v) (cvVals φ w) = (mergeVals v w).map (cvVals φ) := by
  unfold mergeVals
  rw [insertVals_cv w v]
  cases insertVals w v <;> rfl

omit hc he in
theorem fixedFactors_cv (g : Graph G N) (k : Nat) (ws : List Rat) : ∀ i,
    fixedFactors (cvGraph φ ν g) k ws i = (fixedFactors g k ws i).map (cvGraph φ ν) := by
  induction ws with
  | nil => intro i; rfl
  | cons w ws ih =>
    intro i
    unfold fixedFactors
    rw [ih]
    split
    · rw [show (cvGraph φ ν g)[k + i]? = (g[k + i]?).map (Option.map (cvFactor φ ν)) from List.getElem?_map ..]
      cases g[k + i]? with
      | none => rfl
      | some f =>
        dsimp only [Option.map_some]
        cases fixedFactors g k ws (i + 1) <;> rfl
    · rfl

omit hc he in
theorem cvGraph_length (g : Graph G N) : (cvGraph φ ν g).length = g.length := List.length_map _

omit hc he in
theorem cvGraph_append (g h : Graph G N) : cvGraph φ ν (g ++ h) = cvGraph φ ν g ++ cvGraph φ ν h := List.map_append

omit hc he in
theorem cvPcm_odomLength (p : Pcm G T N) : (cvPcm φ ν τ p).odom.length = p.odom.length := List.length_map _

omit hc he in
theorem cvPcm_specialLength (p : Pcm G T N) : (cvPcm φ ν τ p).special.length = p.special.length := List.length_map _

omit he in
theorem plainGraph_cv : SS φ ν τ (cvGraph φ ν) (plainGraph cfg) (plainGraph cfg') := by
  intro s
  unfold plainGraph
  rw [hc.fixPrev, hc.rejection]
  show (if cfg.fixPrev then (if !cfg.rejection then _ else
    (if (cvGraph φ ν s.nfg).length < (cvPcm φ ν τ s.pcm).odom.length + (cvPcm φ ν τ s.pcm).special.length then _ else
      (if s.gncW.length < s.latest then _ else
        (match fixedFactors (cvGraph φ ν s.nfg) ((cvPcm φ ν τ s.pcm).odom.length + (cvPcm φ ν τ s.pcm).special.length)
            (s.gncW.drop (s.gncW.length - s.latest)) 0 with
          | none => Out.throw (cvSt φ ν τ s) .outOfRange
          | some l => Out.ok (cvSt φ ν τ s) ((cvGraph φ ν s.nfg).take ((cvPcm φ ν τ s.pcm).odom.length + (cvPcm φ ν τ s.pcm).special.length) ++
              l ++ cvGraph φ ν s.tempNfg))))) else Out.ok (cvSt φ ν τ s) (cvGraph φ ν s.nfg ++ cvGraph φ ν s.tempNfg)) = _
  rw [cvGraph_length, cvPcm_odomLength, cvPcm_specialLength, fixedFactors_cv]
  split
  · split
    · rfl
    · dsimp only
      split
      · rfl
      · split
        · rfl
        · cases fixedFactors s.nfg (s.pcm.odom.length + s.pcm.special.length) (s.gncW.drop (s.gncW.length - s.latest)) 0 with
          | none => rfl
          | some l =>
            dsimp only [Option.map_some, cvOut]
            rw [cvGraph_append, cvGraph_append]
            unfold cvGraph
            rw [List.map_take]
  · dsimp only [cvOut]
    rw [cvGraph_append]

theorem plainOptimize_cv (full : Vals G) :
    SS φ ν τ (cvVals φ) (plainOptimize cfg env full) (plainOptimize cfg' env' (cvVals φ full)) := by
  unfold plainOptimize
  refine Conv.bind (plainGraph_cv hc) fun graph => ?_
  rw [he.opt]
  cases env.opt graph full with
  | none => exact Conv.raise _
  | some result =>
    refine Conv.get fun s => ?_
    have hl : (cvSt φ ν τ s).nfg.length = s.nfg.length := cvGraph_length _
    refine Conv.ite Iff.rfl (Conv.undef _) ?_
    refine Conv.ite (by rw [hl]; exact Iff.rfl) (Conv.undef _) ?_
    refine Conv.bind (ra := id) (Conv.modify fun q => ?_) fun _ => Conv.ite (by rw [hc.lm, hc.debug, hc.rejection]) (Conv.undef _) (Conv.pure rfl)
    show ({ cvSt φ ν τ q with
        gncW := List.replicate ((cvGraph φ ν q.nfg).length - q.latest) 1 ++ q.gncW.drop (q.gncW.length - q.latest)
        gncTW := List.replicate (cvGraph φ ν q.tempNfg).length 1 } : St G' T' N') = _
    rw [cvGraph_length, cvGraph_length]; rfl

theorem gncOptimize_cv (full : Vals G) :
    SS φ ν τ (cvVals φ) (gncOptimize cfg env full) (gncOptimize cfg' env' (cvVals φ full)) := by
  unfold gncOptimize
  refine Conv.get fun s => ?_
  have hl : (cvSt φ ν τ s).nfg.length = s.nfg.length := cvGraph_length _
  have hl' : (cvSt φ ν τ s).tempNfg.length = s.tempNfg.length := cvGraph_length _
  have hk : (cvSt φ ν τ s).pcm.odom.length + (cvSt φ ν τ s).pcm.special.length = s.pcm.odom.length + s.pcm.special.length := by
    rw [show (cvSt φ ν τ s).pcm = cvPcm φ ν τ s.pcm from rfl, cvPcm_odomLength, cvPcm_specialLength]
  have hgr : (cvSt φ ν τ s).nfg ++ (cvSt φ ν τ s).tempNfg = cvGraph φ ν (s.nfg ++ s.tempNfg) := (cvGraph_append _ _).symm
  dsimp only
  rw [hk, hgr, hc.biasOdom, cvGraph_length, he.gnc, hl, hl']
  refine Conv.ite Iff.rfl (Conv.undef _) ?_
  cases env.gnc (s.nfg ++ s.tempNfg) full (List.range (s.pcm.odom.length + s.pcm.special.length))
      (if cfg.biasOdom = true then
        some (List.replicate (List.range (s.pcm.odom.length + s.pcm.special.length)).length 1 ++
          List.replicate ((s.nfg ++ s.tempNfg).length - (List.range (s.pcm.odom.length + s.pcm.special.length)).length) 0) else none) with
  | none => exact Conv.raise _
  | some r =>
    obtain ⟨result, w⟩ := r
    refine Conv.ite Iff.rfl (Conv.undef _) ?_
    refine Conv.bind (ra := id) (Conv.modify fun q => ?_) fun _ => Conv.pure rfl
    show ({ cvSt φ ν τ q with gncW := _, gncTW := w.drop (w.length - (cvGraph φ ν q.tempNfg).length), gncNum := _ } : St G' T' N') = _
    rw [cvGraph_length]; rfl

theorem optimize_cv : SS φ ν τ id (optimize cfg env) (optimize cfg' env') := by
  unfold optimize
  refine Conv.get fun s => ?_
  show SS φ ν τ id _ (match mergeVals (cvVals φ s.values) (cvVals φ s.tempValues) with | none => _ | some full => _)
  rw [mergeVals_cv]
  cases mergeVals s.values s.tempValues with
  | none => exact Conv.raise _
  | some full =>
    dsimp only [Option.map_some]
    refine Conv.bind (Conv.cond ?_ (gncOptimize_cv hc he full) (plainOptimize_cv hc he full)) fun r => ?_
    · unfold useGncNow
      rw [hc.useGnc, hc.rejection, hc.fixPrev]; rfl
    refine Conv.bind (applyResult_cv r) fun _ => ?_
    exact Conv.when hc.rejection (Conv.modify fun q => rfl)

/-! ### Calls -/

omit he in
theorem getNumLC_cv : SS φ ν τ id (getNumLC cfg) (getNumLC cfg') := by
  intro s
  unfold getNumLC
  rw [hc.rejection]
  split <;> rfl

omit he in
theorem getNumLCInliers_cv : SS φ ν τ id (getNumLCInliers cfg) (getNumLCInliers cfg') := by
  intro s
  unfold getNumLCInliers
  rw [hc.rejection, hc.useGnc]
  split
  · rfl
  · split <;> rfl

omit hc he in
theorem g2oOk_cv (g : Graph G N) : g2oOk (cvGraph φ ν g) = g2oOk g := by
  induction g with
  | nil => rfl
  | cons f t ih =>
    cases f with
    | none => exact ih
    | some f =>
      cases f with
      | btw b =>
        show ((b.noise.map ν).isSome && g2oOk (cvGraph φ ν t)) = (b.noise.isSome && g2oOk t)
        rw [ih, Option.isSome_map]
      | prior k m => exact ih
      | priorAlt k t => exact ih
      | other ks t => exact ih

omit hc he in
theorem saveData_cv : SS φ ν τ id (saveData (T := T)) (saveData (T := T')) := by
  intro s
  unfold saveData
  show (if g2oOk (cvGraph φ ν s.nfg) then _ else _) = _
  rw [g2oOk_cv]
  split <;> rfl

omit he in
theorem logStatus_cv : SS φ ν τ id (logStatus cfg) (logStatus cfg') := by
  unfold logStatus
  refine Conv.bind (getNumLC_cv hc) fun _ => ?_
  exact Conv.bind (getNumLCInliers_cv hc) fun _ => saveData_cv

omit hc he in
theorem addAndCheck_cv (fs : Graph G N) (vs : Vals G) :
    SS φ ν τ id (addAndCheck (T := T) fs vs) (addAndCheck (T := T') (cvGraph φ ν fs) (cvVals φ vs)) := by
  unfold addAndCheck
  refine Conv.bind (ra := id) (Conv.modify fun q => ?_) fun _ => ?_
  · show ({ cvSt φ ν τ q with nfg := cvGraph φ ν q.nfg ++ cvGraph φ ν fs } : St G' T' N') = _
    rw [← cvGraph_append]; rfl
  refine Conv.bind (onValues_cv (insertVals_cv vs)) fun _ => ?_
  have hv : (cvVals φ vs).length = vs.length := List.length_map _
  rw [hv]
  match fs with
  | [] => exact Conv.pure rfl
  | [none] => exact Conv.undef _
  | [some f] =>
    refine Conv.pure ?_
    have : (cvFactor φ ν f).keys = f.keys := by cases f <;> rfl
    show (!(decide ((cvFactor φ ν f).keys.length = 2) && _)) = _
    rw [this]; rfl
  | none :: g :: t => exact Conv.pure rfl
  | some _ :: g :: t => exact Conv.pure rfl

theorem update_cv (fs : Graph G N) (vs : Vals G) (o : Bool) :
    SS φ ν τ id (update cfg env fs vs o) (update cfg' env' (cvGraph φ ν fs) (cvVals φ vs) o) := by
  unfold update
  refine Conv.bind (Conv.cond hc.rejection (removeOutliers_cv hc he fs vs) (addAndCheck_cv fs vs)) fun d => ?_
  refine Conv.bind (Conv.when rfl (optimize_cv hc he)) fun _ => ?_
  exact Conv.when (by rw [hc.log]) (logStatus_cv hc)

theorem forceUpdate_cv (fs : Graph G N) (vs : Vals G) :
    SS φ ν τ id (forceUpdate cfg env fs vs) (forceUpdate cfg' env' (cvGraph φ ν fs) (cvVals φ vs)) := by
  unfold forceUpdate
  refine Conv.bind (Conv.cond hc.rejection (removeOutliers_cv hc he fs vs) (addAndCheck_cv fs vs)) fun d => ?_
  refine Conv.bind (optimize_cv hc he) fun _ => ?_
  exact Conv.when hc.log (logStatus_cv hc)

omit hc he in
theorem removeFactors_cv (is : List Nat) :
    SS φ ν τ id (removeFactors (G := G) (T := T) (N := N) is) (removeFactors (G := G') (T := T') (N := N') is) := by
  induction is with
  | nil => exact Conv.pure rfl
  | cons i is ih =>
    intro s
    show (if i < (cvGraph φ ν s.nfg).length then removeFactors is { cvSt φ ν τ s with nfg := (cvGraph φ ν s.nfg).set i none } else _) =
      cvOut _ _ (if _ then _ else _)
    rw [cvGraph_length]
    split
    · have := ih { s with nfg := s.nfg.set i none }
      rw [← this]
      congr 1
      show ({ cvSt φ ν τ s with nfg := _ } : St G' T' N') = { cvSt φ ν τ s with nfg := cvGraph φ ν (s.nfg.set i none) }
      congr 1
      unfold cvGraph
      rw [List.map_set]; rfl
    · rfl

omit hc in
theorem genericUpdate_cv (fs : Graph G N) (vs : Vals G) (rm : List Nat) :
    SS φ ν τ id (genericUpdate (T := T) env fs vs rm) (genericUpdate (T := T') env' (cvGraph φ ν fs) (cvVals φ vs) rm) := by
  unfold genericUpdate
  refine Conv.bind (removeFactors_cv rm) fun _ => ?_
  refine Conv.bind (addAndCheck_cv fs vs) fun lc => ?_
  refine Conv.ite Iff.rfl ?_ (Conv.pure rfl)
  refine Conv.get fun s => ?_
  show SS φ ν τ id _ (match mergeVals (cvVals φ s.values) (cvVals φ s.tempValues) with
    | none => _
    | some full => match env'.opt (cvGraph φ ν s.nfg ++ cvGraph φ ν s.tempNfg) full with | none => _ | some result => _)
  rw [mergeVals_cv, ← cvGraph_append]
  cases mergeVals s.values s.tempValues with
  | none => exact Conv.raise _
  | some full =>
    dsimp only [Option.map_some]
    rw [he.opt]
    cases env.opt (s.nfg ++ s.tempNfg) full with
    | none => exact Conv.raise _
    | some r => exact applyResult_cv r

omit hc he in
theorem removeLastFactor_cv :
    SS φ ν τ id (removeLastFactor (G := G) (T := T) (N := N)) (removeLastFactor (G := G') (T := T') (N := N')) := by
  intro s
  unfold removeLastFactor
  rw [show (cvSt φ ν τ s).nfg.getLast? = (s.nfg.getLast?).map (Option.map (cvFactor φ ν)) from List.getLast?_map]
  cases s.nfg.getLast? with
  | none => rfl
  | some f =>
    cases f with
    | none => rfl
    | some f =>
      dsimp only [Option.map_some]
      rw [show (cvFactor φ ν f).keys = f.keys by cases f <;> rfl]
      cases f.keys.head? with
      | none => rfl
      | some a =>
        cases f.keys.getLast? with
        | none => rfl
        | some b =>
          show Out.ok ({ cvSt φ ν τ s with nfg := (cvGraph φ ν s.nfg).dropLast } : St G' T' N') _ =
            Out.ok ({ cvSt φ ν τ s with nfg := cvGraph φ ν s.nfg.dropLast } : St G' T' N') _
          unfold cvGraph
          rw [List.map_dropLast]; rfl

omit he in
theorem removePriorsGeneric_cv (c : Chr) : SS φ ν τ id (removePriorsGeneric cfg c) (removePriorsGeneric cfg' c) := by
  refine Conv.modify fun s => ?_
  rw [hc.charSigned]
  unfold cvSt cvGraph
  dsimp only
  rw [List.filter_map]
  congr 2
  refine List.filter_congr fun f _ => ?_
  cases f with
  | none => rfl
  | some f => cases f <;> rfl

theorem removePriorsPcm_cv (c : Chr) : SS φ ν τ id (removePriorsPcm cfg env c) (removePriorsPcm cfg' env' c) := by
  unfold removePriorsPcm
  refine Conv.bind (ra := id) (onPcm_cv (Conv.modify fun p => ?_)) fun _ => rebuild_cv he
  rw [hc.charSigned]
  unfold cvPcm
  dsimp only
  rw [List.filter_map]
  congr 2
  refine List.filter_congr fun f _ => ?_
  cases f <;> rfl

theorem removePriors_cv (c : Chr) (o : Bool) : SS φ ν τ id (removePriors cfg env c o) (removePriors cfg' env' c o) := by
  unfold removePriors
  refine Conv.bind (Conv.cond hc.rejection (removePriorsPcm_cv hc he c) (removePriorsGeneric_cv hc c)) fun _ => ?_
  exact Conv.when rfl (optimize_cv hc he)

omit hc he in
theorem removeLastMeas_cv : Conv (cvMeas φ ν) id (removeLastMeas (G := G) (N := N)) (removeLastMeas (G := G') (N := N')) := by
  intro m
  unfold removeLastMeas
  rw [show (cvMeas φ ν m).adj = m.adj from rfl, show (cvMeas φ ν m).factors = m.factors.map (cvBtw φ ν) from rfl, List.getLast?_map]
  split
  · rfl
  · cases m.factors.getLast? with
    | none => rfl
    | some last =>
      dsimp only [Option.map_some]
      rw [← List.map_dropLast, List.length_map]
      split
      · rfl
      · have := measInliers_cv (φ := φ) (ν := ν) (⟨m.factors.dropLast, m.cons, ⟨m.adj.n - 1, m.adj.e⟩⟩ : Meas G N)
        have this' : measInliers (⟨m.factors.dropLast.map (cvBtw φ ν), (cvMeas φ ν m).cons, ⟨m.adj.n - 1, m.adj.e⟩⟩ : Meas G' N') = _ := this
        rw [this']
        cases measInliers (⟨m.factors.dropLast, m.cons, ⟨m.adj.n - 1, m.adj.e⟩⟩ : Meas G N) <;> rfl

omit hc in
theorem removeLastOfPair_cv (id0 : ObsId) :
    SS φ ν τ id (removeLastOfPair (T := T) env id0) (removeLastOfPair (T := T') env' id0) := by
  unfold removeLastOfPair
  refine Conv.get fun s => ?_
  rw [show AList.get? ObsId.eqv (cvSt φ ν τ s).pcm.lcs id0 = (AList.get? ObsId.eqv s.pcm.lcs id0).map (cvMeas φ ν) from alist_getId _ _]
  cases AList.get? ObsId.eqv s.pcm.lcs id0 with
  | none => exact Conv.pure rfl
  | some _ =>
    dsimp only [Option.map_some]
    refine Conv.bind (onPcm_cv (Conv.zoom removeLastMeas_cv (fun p => lcOf_cv p id0) fun p m => updLc_cv p id0 fun _ => rfl)) fun e => ?_
    cases e with
    | none => exact Conv.pure rfl
    | some e => exact Conv.bind (rebuild_cv he) fun _ => Conv.pure rfl

omit hc in
theorem removeLastPcm_cv : SS φ ν τ id (removeLastPcm (T := T) env) (removeLastPcm (T := T') env') := by
  unfold removeLastPcm
  refine Conv.get fun s => ?_
  rw [show (cvSt φ ν τ s).pcm.inOrder = s.pcm.inOrder from rfl]
  cases s.pcm.inOrder.getLast? with
  | none => exact Conv.pure rfl
  | some id0 => exact Conv.bind (ra := id) (onPcm_cv (Conv.modify fun p => rfl)) fun _ => removeLastOfPair_cv he id0

theorem removeLastLC2_cv (a b : Chr) : SS φ ν τ id (removeLastLC2 cfg env a b) (removeLastLC2 cfg' env' a b) := by
  unfold removeLastLC2
  refine Conv.bind (Conv.cond hc.rejection (removeLastOfPair_cv he _) removeLastFactor_cv) fun e => ?_
  exact Conv.bind (optimize_cv hc he) fun _ => Conv.pure rfl

theorem removeLastLC_cv : SS φ ν τ id (removeLastLC cfg env) (removeLastLC cfg' env') := by
  unfold removeLastLC
  refine Conv.bind (Conv.cond hc.rejection (removeLastPcm_cv he) removeLastFactor_cv) fun e => ?_
  exact Conv.bind (optimize_cv hc he) fun _ => Conv.pure rfl

theorem ignorePrefix_cv (c : Chr) : SS φ ν τ id (ignorePrefix cfg env c) (ignorePrefix cfg' env' c) := by
  unfold ignorePrefix
  refine Conv.bind (Conv.when hc.rejection ?_) fun _ => optimize_cv hc he
  unfold ignorePcm
  refine Conv.bind (ra := id) (onPcm_cv (Conv.modify fun p => ?_)) fun _ => rebuild_cv he
  show (if p.ignored.contains c then cvPcm φ ν τ p else _) = cvPcm φ ν τ (if _ then _ else _)
  split <;> rfl

theorem revivePrefix_cv (c : Chr) : SS φ ν τ id (revivePrefix cfg env c) (revivePrefix cfg' env' c) := by
  unfold revivePrefix
  refine Conv.bind (Conv.when hc.rejection ?_) fun _ => optimize_cv hc he
  unfold revivePcm
  exact Conv.bind (ra := id) (onPcm_cv (Conv.modify fun p => rfl)) fun _ => rebuild_cv he

/-- Every call does on converted states what the original call does. -/
theorem exec_cv (op : Op G N) : SS φ ν τ id (exec cfg env op) (exec cfg' env' (cvOp φ ν op)) := by
  cases op with
  | update fs vs o => exact Conv.ret (update_cv hc he fs vs o) fun _ => rfl
  | forceUpdate fs vs => exact Conv.ret (forceUpdate_cv hc he fs vs) fun _ => rfl
  | removePriors c o => exact Conv.ret (removePriors_cv hc he c o) fun _ => rfl
  | removeLastPair a b => exact Conv.ret (removeLastLC2_cv hc he a b) fun _ => rfl
  | removeLast => exact Conv.ret (removeLastLC_cv hc he) fun _ => rfl
  | ignore c => exact Conv.ret (ignorePrefix_cv hc he c) fun _ => rfl
  | revive c => exact Conv.ret (revivePrefix_cv hc he c) fun _ => rfl
  | getNumLC => exact Conv.ret (getNumLC_cv hc) fun _ => rfl
  | getNumLCInliers => exact Conv.ret (getNumLCInliers_cv hc) fun _ => rfl
  | saveData => exact Conv.ret saveData_cv fun _ => rfl
  | removeFactors is => exact Conv.ret (removeFactors_cv is) fun _ => rfl
  | removeLastFactor => exact Conv.ret removeLastFactor_cv fun _ => rfl
  | removePriorsGeneric c => exact Conv.ret (removePriorsGeneric_cv hc c) fun _ => rfl
  | updateValues vs => exact Conv.ret (applyResult_cv vs) fun _ => rfl
  | genericUpdate fs vs rm => exact Conv.ret (genericUpdate_cv he fs vs rm) fun _ => rfl
  | tempUpdate fs vs =>
    show SS φ ν τ id (M.bind (M.modify fun s : St G T N => { s with tempNfg := s.tempNfg ++ fs }) fun _ =>
        (M.zoom (fun s : St G T N => s.tempValues) (fun v s => { s with tempValues := v }) (insertVals vs)).ret fun _ => Ret.unit)
      (M.bind (M.modify fun s : St G' T' N' => { s with tempNfg := s.tempNfg ++ cvGraph φ ν fs }) fun _ =>
        (M.zoom (fun s : St G' T' N' => s.tempValues) (fun v s => { s with tempValues := v }) (insertVals (cvVals φ vs))).ret fun _ => Ret.unit)
    refine Conv.bind (ra := id) (Conv.modify fun s => ?_) fun _ => ?_
    · show ({ cvSt φ ν τ s with tempNfg := cvGraph φ ν s.tempNfg ++ cvGraph φ ν fs } : St G' T' N') = _
      rw [← cvGraph_append]; rfl
    · refine Conv.ret (ra := id) (rb := id) (f := fun _ => Ret.unit) (f' := fun _ => Ret.unit) ?_ fun _ => rfl
      exact Conv.zoom (insertVals_cv vs) (fun _ => rfl) fun _ _ => rfl
  | tempReplace fs vs =>
    refine Conv.ret (ra := id) (rb := id) (f := fun _ => Ret.unit) (f' := fun _ => Ret.unit)
      (m := M.modify fun s : St G T N => { s with tempNfg := fs, tempValues := vs })
      (m' := M.modify fun s : St G' T' N' => { s with tempNfg := cvGraph φ ν fs, tempValues := cvVals φ vs }) ?_ fun _ => rfl
    exact Conv.modify fun s => rfl
  | tempClear =>
    refine Conv.ret (ra := id) (rb := id) (f := fun _ => Ret.unit) (f' := fun _ => Ret.unit)
      (m := M.modify fun s : St G T N => { s with tempNfg := [], tempValues := [] })
      (m' := M.modify fun s : St G' T' N' => { s with tempNfg := [], tempValues := [] }) ?_ fun _ => rfl
    exact Conv.modify fun s => rfl

theorem reach_cv {h : List (Op G N)} {s : St G T N} (r : Reach cfg env h s) : Reach cfg' env' (h.map (cvOp φ ν)) (cvSt φ ν τ s) := by
  induction r with
  | init => exact .init
  | @ok h s op s' r _ e ih =>
    rw [List.map_append]
    exact .ok ih (r := r) ((exec_cv hc he op s).trans (by rw [e]; rfl))
  | @throw h s op s' x _ e ih =>
    rw [List.map_append]
    exact .throw ih (e := x) ((exec_cv hc he op s).trans (by rw [e]; rfl))

theorem reach_back {h' : List (Op G' N')} {s' : St G' T' N'} (r : Reach cfg' env' h' s') : ∀ h : List (Op G N), h' = h.map (cvOp φ ν) →
    ∃ s, Reach cfg env h s ∧ s' = cvSt φ ν τ s := by
  induction r with
  | init => intro h e; cases h with
    | nil => exact ⟨_, .init, rfl⟩
    | cons _ _ => cases e
  | @ok h0' s0' op' s1' x _ e ih =>
    intro h eh
    obtain ⟨h0, l, rfl, e1, e2⟩ := List.map_eq_append_iff.1 eh.symm
    obtain ⟨op, rfl, rfl⟩ := List.map_eq_singleton_iff.1 e2
    obtain ⟨s, r, rfl⟩ := ih h0 e1.symm
    rw [exec_cv hc he op s] at e
    cases es : exec cfg env op s with
    | ok t y => rw [es] at e; cases e; exact ⟨t, .ok r es, rfl⟩
    | throw t y => rw [es] at e; cases e
    | ub u => rw [es] at e; cases e
  | @throw h0' s0' op' s1' x _ e ih =>
    intro h eh
    obtain ⟨h0, l, rfl, e1, e2⟩ := List.map_eq_append_iff.1 eh.symm
    obtain ⟨op, rfl, rfl⟩ := List.map_eq_singleton_iff.1 e2
    obtain ⟨s, r, rfl⟩ := ih h0 e1.symm
    rw [exec_cv hc he op s] at e
    cases es : exec cfg env op s with
    | ok t y => rw [es] at e; cases e
    | throw t y => rw [es] at e; cases e; exact ⟨t, .throw r es, rfl⟩
    | ub u => rw [es] at e; cases e

theorem reachOk_back {h' : List (Op G' N')} {s' : St G' T' N'} (r : ReachOk cfg' env' h' s') : ∀ h : List (Op G N), h' = h.map (cvOp φ ν) →
    ∃ s, ReachOk cfg env h s ∧ s' = cvSt φ ν τ s := by
  induction r with
  | init => intro h e; cases h with
    | nil => exact ⟨_, .init, rfl⟩
    | cons _ _ => cases e
  | @step h0' s0' op' s1' x _ e ih =>
    intro h eh
    obtain ⟨h0, l, rfl, e1, e2⟩ := List.map_eq_append_iff.1 eh.symm
    obtain ⟨op, rfl, rfl⟩ := List.map_eq_singleton_iff.1 e2
    obtain ⟨s, r, rfl⟩ := ih h0 e1.symm
    rw [exec_cv hc he op s] at e
    cases es : exec cfg env op s with
    | ok t y => rw [es] at e; cases e; exact ⟨t, .step r es, rfl⟩
    | throw t y => rw [es] at e; cases e
    | ub u => rw [es] at e; cases e

omit hc he in
theorem showsSame_cv (s : St G T N) : ShowsSame φ ν s (cvSt φ ν τ s) := ⟨rfl, rfl, rfl, rfl, rfl, rfl, rfl, rfl, rfl, rfl⟩

theorem endsAlike_cv (op : Op G N) (s : St G T N) : EndsAlike φ ν (exec cfg env op s) (exec cfg' env' (cvOp φ ν op) (cvSt φ ν τ s)) := by
  rw [exec_cv hc he op s]
  cases exec cfg env op s with
  | ok t y => exact ⟨_, rfl, showsSame_cv t⟩
  | throw t y => exact ⟨_, rfl, showsSame_cv t⟩
  | ub u => exact rfl

end

end RPGO
