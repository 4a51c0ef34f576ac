import Verif.Spec.Reframe
import Verif.Proofs.Convert
import Verif.Props.Gauge
/-
Conversions that depend on the keys.
-/

namespace RPGO
open Spec
variable {G T N G' T' N' G'' N'' : Type}

/-! ### Composition with conversions that do not depend on the keys -/

/-- First written anew key by key, then converted. -/
def Spec.KeyConv.then (f : KeyConv G N G' N') (φ : G' → G'') (ν : N' → N'') : KeyConv G N G'' N'' :=
  ⟨fun a b m => φ (f.meas a b m), fun k x => φ (f.pose k x), fun a b n => ν (f.noise a b n)⟩

section
variable (f : KeyConv G N G' N') (φ : G' → G'') (ν : N' → N'')

theorem cv_kvBtw (b : Btw G N) : cvBtw φ ν (kvBtw f b) = kvBtw (f.then φ ν) b := by
  obtain ⟨k1, k2, m, n⟩ := b
  cases n <;> rfl

theorem cv_kvFactor (x : Factor G N) : cvFactor φ ν (kvFactor f x) = kvFactor (f.then φ ν) x := by
  cases x with
  | btw b => show Factor.btw _ = Factor.btw _; rw [cv_kvBtw]
  | _ => rfl

theorem cv_kvGraph (g : Graph G N) : cvGraph φ ν (kvGraph f g) = kvGraph (f.then φ ν) g := by
  unfold cvGraph kvGraph
  rw [List.map_map]
  refine List.map_congr_left fun x _ => ?_
  cases x with
  | none => rfl
  | some x => show some _ = some _; rw [cv_kvFactor]

theorem cv_kvVals (v : Vals G) : cvVals φ (kvVals f v) = kvVals (f.then φ ν) v := by
  unfold cvVals cvMap kvVals
  rw [List.map_map]
  refine List.map_congr_left fun x _ => ?_
  obtain ⟨k, x⟩ := x
  cases x <;> rfl

theorem cv_kvOp (op : Op G N) : cvOp φ ν (kvOp f op) = kvOp (f.then φ ν) op := by
  cases op <;> simp only [cvOp, kvOp, cv_kvGraph, cv_kvVals f φ ν]

end

section
variable (f : KeyConv G N G N) (h1 : ∀ a b m, f.meas a b m = m) (h2 : ∀ k x, f.pose k x = x) (h3 : ∀ a b n, f.noise a b n = n)
include h1 h3

theorem kvBtw_id (b : Btw G N) : kvBtw f b = b := by
  obtain ⟨k1, k2, m, n⟩ := b
  unfold kvBtw
  rw [h1]
  cases n with
  | none => rfl
  | some n => show (⟨k1, k2, m, some (f.noise k1 k2 n)⟩ : Btw G N) = _; rw [h3]

include h2
theorem kvGraph_id (g : Graph G N) : kvGraph f g = g := by
  unfold kvGraph
  rw [List.map_congr_left (g := id) ?_, List.map_id]
  intro x _
  cases x with
  | none => rfl
  | some x =>
    show some _ = some _
    cases x with
    | btw b => rw [kvFactor, kvBtw_id f h1 h3]
    | prior k m => rw [kvFactor, h2]
    | _ => rfl

omit h1 h3 in
theorem kvVals_id (v : Vals G) : kvVals f v = v := by
  unfold kvVals
  rw [List.map_congr_left (g := id) ?_, List.map_id]
  intro x _
  obtain ⟨k, x⟩ := x
  cases x with
  | pose g => show (k, Val.pose (f.pose k g)) = _; rw [h2]; rfl
  | other t => rfl

theorem kvOp_id (op : Op G N) : kvOp f op = op := by
  cases op <;> simp only [kvOp, kvGraph_id f h1 h2 h3, kvVals_id f h2]

end

/-! ### What a history supplies -/

section
variable (f : KeyConv G N G' N')

theorem kvVals_keys (v : Vals G) : (kvVals f v).keys = v.keys := by
  unfold kvVals KMap.keys
  rw [List.map_map]
  rfl

theorem btws_kv (fs : Graph G N) : btws (kvGraph f fs) = (btws fs).map (kvBtw f) := by
  induction fs with
  | nil => rfl
  | cons x fs ih =>
    unfold btws kvGraph at ih ⊢
    rw [List.map_cons, List.filterMap_cons, List.filterMap_cons]
    cases x with
    | none => exact ih
    | some x =>
      cases x with
      | btw b => simp only [Option.map_some, kvFactor, List.map_cons, ih]
      | _ => exact ih

theorem specials_kv (fs : Graph G N) : specials (kvGraph f fs) = (specials fs).map (kvFactor f) := by
  induction fs with
  | nil => rfl
  | cons x fs ih =>
    unfold specials kvGraph at ih ⊢
    rw [List.map_cons, List.filterMap_cons, List.filterMap_cons]
    cases x with
    | none => exact ih
    | some x =>
      cases x with
      | btw b => exact ih
      | prior k m => simp only [Option.map_some, kvFactor, List.map_cons, ih]
      | priorAlt k m => simp only [Option.map_some, kvFactor, List.map_cons, ih]
      | other k m => simp only [Option.map_some, kvFactor, List.map_cons, ih]

theorem batch_kv (op : Op G N) : batch (kvOp f op) = (batch op).map fun x => (kvGraph f x.1, kvVals f x.2) := by
  cases op <;> rfl

theorem opBtws_kv (op : Op G N) : opBtws (kvOp f op) = (opBtws op).map (kvBtw f) := by
  unfold opBtws
  rw [batch_kv]
  cases batch op with
  | none => rfl
  | some x => exact btws_kv f _

theorem opKeys_kv (op : Op G N) : opKeys (kvOp f op) = opKeys op := by
  cases op <;> first | rfl | exact kvVals_keys f _

theorem managed_kv (op : Op G N) : Managed (kvOp f op) ↔ Managed op := by cases op <;> exact Iff.rfl

variable (cfg : Cfg G T N) (cfg' : Cfg G' T' N') (hs : cfg'.special = cfg.special)
include hs

theorem isLandmark_kv (b : Btw G N) : isLandmark cfg' (kvBtw f b) = isLandmark cfg b := by
  unfold isLandmark; rw [hs]; rfl

theorem isOdom_kv (vs : Vals G) (b : Btw G N) : isOdom cfg' (kvVals f vs) (kvBtw f b) = isOdom cfg vs b := by
  unfold isOdom; rw [hs, kvVals_keys]; rfl

theorem isFirstObs_kv (vs : Vals G) (b : Btw G N) : isFirstObs cfg' (kvVals f vs) (kvBtw f b) = isFirstObs cfg vs b := by
  unfold isFirstObs; rw [kvVals_keys, isLandmark_kv f cfg cfg' hs]; rfl

theorem isCand_kv (vs : Vals G) (b : Btw G N) : isCand cfg' (kvVals f vs) (kvBtw f b) = isCand cfg vs b := by
  unfold isCand; rw [isOdom_kv f cfg cfg' hs, isFirstObs_kv f cfg cfg' hs]; rfl

theorem opOdom_kv (op : Op G N) : opOdom cfg' (kvOp f op) = (opOdom cfg op).map (kvBtw f) := by
  unfold opOdom
  rw [batch_kv]
  cases batch op with
  | none => rfl
  | some x =>
    show (btws (kvGraph f x.1)).filter _ = ((btws x.1).filter _).map _
    rw [btws_kv, List.filter_map]
    congr 1
    refine List.filter_congr fun b _ => ?_
    exact isOdom_kv f cfg cfg' hs x.2 b

theorem opCands_kv (op : Op G N) : opCands cfg' (kvOp f op) = (opCands cfg op).map (kvBtw f) := by
  unfold opCands
  rw [batch_kv]
  cases batch op with
  | none => rfl
  | some x =>
    show (btws (kvGraph f x.1)).filter _ = ((btws x.1).filter _).map _
    rw [btws_kv, List.filter_map]
    congr 1
    refine List.filter_congr fun b _ => ?_
    exact isCand_kv f cfg cfg' hs x.2 b

theorem odomSoFar_kv (h : List (Op G N)) : odomSoFar cfg' (h.map (kvOp f)) = (odomSoFar cfg h).map (kvBtw f) := by
  unfold odomSoFar
  rw [List.flatMap_map, List.map_flatMap]
  congr 1
  funext op
  exact opOdom_kv f cfg cfg' hs op

theorem robotOdom_kv (c : Chr) (h : List (Op G N)) : robotOdom cfg' c (h.map (kvOp f)) = (robotOdom cfg c h).map (kvBtw f) := by
  unfold robotOdom
  rw [odomSoFar_kv f cfg cfg' hs, List.filter_map]
  rfl

omit hs in
theorem chain_kv (k : Key) (l : List (Btw G N)) : Chain k (l.map (kvBtw f)) ↔ Chain k l := by
  induction l generalizing k with
  | nil => exact Iff.rfl
  | cons b l ih => exact and_congr Iff.rfl (and_congr Iff.rfl (ih _))

theorem chains_kv {start : Chr → Key} {h : List (Op G N)} : Chains cfg' start (h.map (kvOp f)) ↔ Chains cfg start h := by
  unfold Chains
  simp only [robotOdom_kv f cfg cfg' hs, chain_kv, List.length_map]

theorem onChain_kv {start : Chr → Key} {h : List (Op G N)} {k : Key} : OnChain cfg' start (h.map (kvOp f)) k ↔ OnChain cfg start h k := by
  unfold OnChain
  simp only [robotOdom_kv f cfg cfg' hs, List.length_map]

theorem onOdometry_kv {start : Chr → Key} {h : List (Op G N)} (ho : OnOdometry cfg start h) : OnOdometry cfg' start (h.map (kvOp f)) := by
  refine ⟨fun h1 op h2 e b hb hl => ?_, fun h1 op h2 e b hb hl hc => ?_⟩
  all_goals
    obtain ⟨g1, g2, rfl, rfl, e2⟩ := List.map_eq_append_iff.1 e
    obtain ⟨o, g3, rfl, rfl, rfl⟩ := List.map_eq_cons_iff.1 e2
    have e' : g1.map (kvOp f) ++ [kvOp f o] = (g1 ++ [o]).map (kvOp f) := by simp
    rw [e']
    simp only [onChain_kv f cfg cfg' hs]
  · rw [opCands_kv f cfg cfg' hs] at hb
    obtain ⟨b, hb', rfl⟩ := List.mem_map.1 hb
    rw [isLandmark_kv f cfg cfg' hs] at hl
    exact ho.closures g1 o g3 rfl b hb' hl
  · rw [opBtws_kv] at hb
    obtain ⟨b, hb', rfl⟩ := List.mem_map.1 hb
    rw [isLandmark_kv f cfg cfg' hs] at hl
    rw [hs] at hc
    exact ho.landmarks g1 o g3 rfl b hb' hl hc

theorem oneObserver_kv {owner : Key → Chr} {h : List (Op G N)} (ho : OneObserver cfg owner h) : OneObserver cfg' owner (h.map (kvOp f)) := by
  intro op hop b hb
  obtain ⟨o, ho', rfl⟩ := List.mem_map.1 hop
  rw [opBtws_kv] at hb
  obtain ⟨b, hb', rfl⟩ := List.mem_map.1 hb
  rw [hs]
  exact ho o ho' b hb'

omit hs in
theorem specialSoFar_kv (hch : cfg'.charSigned = cfg.charSigned) (h : List (Op G N)) :
    specialSoFar cfg' (h.map (kvOp f)) = (specialSoFar cfg h).map (kvFactor f) := by
  induction h using List.reverseRecOn with
  | nil => rfl
  | append_singleton h op ih =>
    unfold specialSoFar at ih ⊢
    rw [List.map_append, List.foldl_append, List.foldl_append, ih]
    generalize List.foldl (specialStep cfg) [] h = l
    show specialStep cfg' (l.map (kvFactor f)) (kvOp f op) = (specialStep cfg l op).map (kvFactor f)
    cases op with
    | update fs vs o => show _ ++ specials (kvGraph f fs) = (l ++ specials fs).map _; rw [specials_kv, List.map_append]
    | forceUpdate fs vs => show _ ++ specials (kvGraph f fs) = (l ++ specials fs).map _; rw [specials_kv, List.map_append]
    | removePriors c o =>
      simp only [kvOp, specialStep, List.filter_map]
      congr 1
      refine List.filter_congr fun x _ => ?_
      cases x with
      | prior k m => show (!prefixHit cfg'.charSigned c (chr k)) = _; rw [hch]
      | _ => rfl
    | _ => rfl

end

/-! ### Environments for a problem that is converted -/

theorem perm_pre {α β : Type} (g : α → β) {l1 l2 : List β} (h : l1.Perm l2) : ∀ l : List α, l.map g = l1 → ∃ l' : List α, l'.Perm l ∧ l'.map g = l2 := by
  induction h with
  | nil => intro l e; exact ⟨l, .refl _, e⟩
  | cons x _ ih =>
    intro l e
    obtain ⟨a, t, rfl, rfl, e2⟩ := List.map_eq_cons_iff.1 e
    obtain ⟨t', p, e3⟩ := ih t e2
    exact ⟨a :: t', p.cons a, by rw [List.map_cons, e3]⟩
  | swap x y t =>
    intro l e
    obtain ⟨a, t', rfl, rfl, e2⟩ := List.map_eq_cons_iff.1 e
    obtain ⟨b, t'', rfl, rfl, e3⟩ := List.map_eq_cons_iff.1 e2
    exact ⟨b :: a :: t'', .swap _ _ _, by simp [e3]⟩
  | trans _ _ ih1 ih2 =>
    intro l e
    obtain ⟨l', p1, e1⟩ := ih1 l e
    obtain ⟨l'', p2, e2⟩ := ih2 l' e1
    exact ⟨l'', p2.trans p1, e2⟩

/-- Every environment of the converted problem comes from one of the problem, if every pose is the conversion of one. -/
theorem lift_env {φ : G → G'} (ν : N → N') {u : G' → G} (hu : ∀ x, φ (u x) = x) (align : Bool) {env' : Env G' N'} (hok : env'.Ok) :
    ∃ env : Env G N, env.Ok ∧ Converted φ ν align env env' := by
  have hv : ∀ v : Vals G', cvVals φ (cvVals u v) = v := by
    intro v
    unfold cvVals cvMap
    rw [List.map_map, List.map_congr_left (g := id) ?_, List.map_id]
    intro x _
    obtain ⟨k, x⟩ := x
    cases x with
    | pose g => show (k, Val.pose (φ (u g))) = _; rw [hu]; rfl
    | other t => rfl
  have lc : ∀ l : List (ObsId × Meas G N), ∃ l' : List (ObsId × Meas G N), l'.Perm l ∧ (l'.map fun e => (e.1, cvMeas φ ν e.2)) = env'.iterLC (l.map fun e => (e.1, cvMeas φ ν e.2)) :=
    fun l => perm_pre _ (hok.lc _).symm l rfl
  have lm : ∀ l : List (Key × Meas G N), ∃ l' : List (Key × Meas G N), l'.Perm l ∧ (l'.map fun e => (e.1, cvMeas φ ν e.2)) = env'.iterLM (l.map fun e => (e.1, cvMeas φ ν e.2)) :=
    fun l => perm_pre _ (hok.lm _).symm l rfl
  refine ⟨⟨fun g v => (env'.opt (cvGraph φ ν g) (cvVals φ v)).map (cvVals u),
    fun g v k i => (env'.gnc (cvGraph φ ν g) (cvVals φ v) k i).map fun r => (cvVals u r.1, r.2),
    fun l => (env'.avg (l.map φ)).map u, fun l => (lc l).choose, fun l => (lm l).choose⟩, ⟨fun l => (lc l).choose_spec.1, fun l => (lm l).choose_spec.1⟩, ?_⟩
  refine ⟨fun g v => ?_, fun g v k i => ?_, fun _ l => ?_, fun l => (lc l).choose_spec.2.symm, fun l => (lm l).choose_spec.2.symm⟩
  · simp only [Option.map_map]
    cases env'.opt (cvGraph φ ν g) (cvVals φ v) with
    | none => rfl
    | some r => show some r = some (cvVals φ (cvVals u r)); rw [hv]
  · simp only [Option.map_map]
    cases env'.gnc (cvGraph φ ν g) (cvVals φ v) k i with
    | none => rfl
    | some r => show some r = some (cvVals φ (cvVals u r.1), r.2); rw [hv]
  · simp only [Option.map_map]
    cases env'.avg (l.map φ) with
    | none => rfl
    | some r => show some r = some (φ (u r)); rw [hu]

end RPGO
