import Verif.Proofs.Print2
import Verif.Proofs.Count
/-
Which messages a batch causes.
-/

namespace RPGO.Spec

/-- Messages about one measurement. -/
def single : Msg → Bool
  | .newLandmark | .self | .missingKeys | .withLandmark .. | .between .. | .discarded => true
  | _ => false

end RPGO.Spec

namespace RPGO
open Spec (hush single)
variable {G T N : Type} {σ τ α β : Type}

def tells (v : Bool) (m : Msg) : List Msg := if v then [m] else []

/-- The message about a new factor when the batch is sorted. -/
def sortMsg (cfg : Cfg G T N) (v : Bool) (nv : Vals G) : Option (Factor G N) → List Msg
  | some (.btw b) =>
    if Spec.isFirstObs cfg nv b then tells v .newLandmark
    else if Spec.isOdom cfg nv b then [] else if b.k1 = b.k2 then [.self] else []
  | _ => []

/-- The message about a candidate. -/
def candMsg (cfg : Cfg G T N) (v : Bool) (vals : Vals G) (f : Chr → Key → T) (b : Btw G N) : List Msg :=
  if known vals b then
    if Spec.isLandmark cfg b then tells v (.withLandmark (landmarkKey cfg b))
    else if acceptLc cfg vals f b then tells v (.between b.k1 b.k2) else tells v .discarded
  else [.missingKeys]

/-- The warnings about a candidate that observes a landmark; `L` are the observations of every landmark so far. -/
def candWarn (cfg : Cfg G T N) (vals : Vals G) (L : Key → List (Btw G N)) (b : Btw G N) : List Msg :=
  if acceptLm cfg vals b then landmarkWarnings (landmarkKey cfg b) b (L (landmarkKey cfg b)) else []

/-- The observations of every landmark after a candidate. -/
def candNext (cfg : Cfg G T N) (vals : Vals G) (L : Key → List (Btw G N)) (b : Btw G N) : Key → List (Btw G N) := fun l =>
  if acceptLm cfg vals b && decide (landmarkKey cfg b = l) then L l ++ [b] else L l

/-- The messages about candidates. -/
def candMsgs (cfg : Cfg G T N) (v : Bool) (vals : Vals G) (f : Chr → Key → T) : (Key → List (Btw G N)) → List (Btw G N) → List Msg
  | _, [] => []
  | L, b :: bs => candMsg cfg v vals f b ++ candWarn cfg vals L b ++ candMsgs cfg v vals f (candNext cfg vals L b) bs

/-- The observations of every landmark. -/
def obsOf (p : Pcm G T N) (l : Key) : List (Btw G N) := (lmOf p l).factors

theorem mute_ok {m : M σ α} {q q' : Talk σ} {a : α} (h : mute m q = .ok q' a) : m q.1 = .ok q'.1 a ∧ q'.2 = q.2 := by
  obtain ⟨t, h1, h2⟩ := M.zoom_eq_ok.1 h
  subst h2
  exact ⟨h1, rfl⟩

theorem tell_ok {c : Bool} {f : σ → Msg} {q q' : Talk σ} {a : Unit} (h : tell c f q = .ok q' a) :
    q'.1 = q.1 ∧ q'.2 = q.2 ++ tells c (f q.1) := by
  unfold tell M.when at h
  unfold tells
  cases c
  · cases h; simp
  · cases h; simp

theorem say_ok {c : Bool} {m : Msg} {q q' : Talk σ} {a : Unit} (h : say c m q = .ok q' a) :
    q'.1 = q.1 ∧ q'.2 = q.2 ++ tells c m := tell_ok (f := fun _ => m) h

theorem hush_ok {o : Out (Talk σ) α} {q : Talk σ} {a : α} (h : o = .ok q a) : hush o = .ok q.1 a := by subst h; rfl

theorem classify_other {cfg : Cfg G T N} {nv : Vals G} {f : Factor G N} (h : ∀ b, f ≠ .btw b) : classify cfg nv f = .nonBetween := by
  cases f with
  | btw b => exact absurd rfl (h b)
  | _ => rfl

theorem sortFactorsT_says {cfg : Cfg G T N} {v : Bool} {nv vals : Vals G} (fs : Graph G N) :
    ∀ {lcs : List (Btw G N)} {opt : Bool} {q q' : Talk (Pcm G T N)} {r : List (Btw G N) × Bool},
    sortFactorsT cfg v nv vals fs lcs opt q = .ok q' r → q'.2 = q.2 ++ fs.flatMap (sortMsg cfg v nv) := by
  induction fs with
  | nil => intro _ _ q q' r h; cases h; simp
  | cons f fs ih =>
    intro lcs opt q q' r h
    cases f with
    | none => rw [ih h]; rfl
    | some f =>
      unfold sortFactorsT at h
      simp only [M.bind_eq] at h
      have special : (∀ b, f ≠ .btw b) → M.bind (mute (M.modify fun p => { p with special := p.special ++ [f] })) (fun _ => sortFactorsT cfg v nv vals fs lcs true) q = .ok q' r →
          q'.2 = q.2 ++ (some f :: fs).flatMap (sortMsg cfg v nv) := by
        intro hf h
        obtain ⟨q1, _, h1, h2⟩ := M.bind_eq_ok.1 h
        rw [ih h2, (mute_ok h1).2, List.flatMap_cons]
        have : sortMsg cfg v nv (some f) = [] := by
          cases f with
          | btw b => exact absurd rfl (hf b)
          | _ => rfl
        rw [this]; rfl
      cases f with
      | btw b =>
        have hc := classify_btw cfg nv b
        have hsm : sortMsg cfg v nv (some (.btw b)) =
            if Spec.isFirstObs cfg nv b then tells v .newLandmark
            else if Spec.isOdom cfg nv b then [] else if b.k1 = b.k2 then [.self] else [] := rfl
        rw [List.flatMap_cons, hsm]
        by_cases h1 : Spec.isFirstObs cfg nv b = true
        · rw [if_pos h1] at hc ⊢
          rw [hc] at h
          simp only at h
          obtain ⟨q1, _, h1, h⟩ := M.bind_eq_ok.1 h
          obtain ⟨q2, _, h2, h⟩ := M.bind_eq_ok.1 h
          rw [ih h, (mute_ok h2).2, (say_ok h1).2, List.append_assoc]
        · rw [if_neg h1] at hc ⊢
          by_cases h2 : Spec.isOdom cfg nv b = true
          · rw [if_pos h2] at hc ⊢
            rw [hc] at h
            simp only at h
            obtain ⟨q1, _, h1, h⟩ := M.bind_eq_ok.1 h
            rw [ih h, (mute_ok h1).2]
            rfl
          · rw [if_neg h2] at hc ⊢
            rw [hc] at h
            simp only at h
            by_cases h3 : b.k1 = b.k2
            · rw [if_pos h3]
              rw [if_neg (by simp [h3])] at h
              obtain ⟨q1, _, h1, h⟩ := M.bind_eq_ok.1 h
              rw [ih h, (say_ok h1).2, List.append_assoc]
              rfl
            · rw [if_neg h3]
              rw [if_pos (by simp [h3])] at h
              rw [ih h]; rfl
      | prior => exact special (by intro b; simp) h
      | priorAlt => exact special (by intro b; simp) h
      | other => exact special (by intro b; simp) h

theorem parseLoopsT_says {cfg : Cfg G T N} {v : Bool} {vals : Vals G} (bs : List (Btw G N)) :
    ∀ {num num' : List (ObsId × Nat)} {q q' : Talk (Pcm G T N)}, parseLoopsT cfg v vals bs num q = .ok q' num' →
    q'.2 = q.2 ++ candMsgs cfg v vals (lk cfg q.1) (obsOf q.1) bs := by
  induction bs with
  | nil => intro _ _ q q' h; cases h; simp [candMsgs]
  | cons b bs ih =>
    intro num num' q q' h
    have hcm : candMsg cfg v vals (lk cfg q.1) b =
        if known vals b then
          if Spec.isLandmark cfg b then tells v (.withLandmark (landmarkKey cfg b))
          else if acceptLc cfg vals (lk cfg q.1) b then tells v (.between b.k1 b.k2) else tells v .discarded
        else [.missingKeys] := rfl
    have hcs : candMsgs cfg v vals (lk cfg q.1) (obsOf q.1) (b :: bs) = candMsg cfg v vals (lk cfg q.1) b ++ candWarn cfg vals (obsOf q.1) b ++
        candMsgs cfg v vals (lk cfg q.1) (candNext cfg vals (obsOf q.1) b) bs := rfl
    rw [hcs, hcm]
    have hskip : acceptLm cfg vals b = false → candWarn cfg vals (obsOf q.1) b = [] ∧ candNext cfg vals (obsOf q.1) b = obsOf q.1 := by
      intro ha
      unfold candWarn candNext
      rw [ha]
      exact ⟨rfl, rfl⟩
    unfold parseLoopsT at h
    simp only [M.bind_eq] at h
    by_cases hk : known vals b = true
    · have hk1 := hk
      unfold known at hk
      rw [Bool.and_eq_true] at hk
      rw [if_neg (by simp [hk.1, hk.2]), special_or] at h
      rw [if_pos hk1]
      by_cases hs : Spec.isLandmark cfg b = true
      · rw [if_pos hs] at h ⊢
        obtain ⟨q1, _, h1, h⟩ := M.bind_eq_ok.1 h
        obtain ⟨q2, _, h2, h⟩ := M.bind_eq_ok.1 h
        obtain ⟨q3, _, h3, h⟩ := M.bind_eq_ok.1 h
        have e := ih h
        obtain ⟨hm, hl⟩ := mute_ok h2
        obtain ⟨a1, a2⟩ := say_ok h1
        have ha : acceptLm cfg vals b = true := by unfold acceptLm; rw [hk1, hs]; rfl
        have hq3 : q3 = (q2.1, q2.2 ++ landmarkWarnings (landmarkKey cfg b) b (lmOf q2.1 (landmarkKey cfg b)).factors.dropLast) :=
          (Out.ok.inj h3).1.symm
        have t : lk cfg q2.1 = lk cfg q.1 ∧ obsOf q2.1 = candNext cfg vals (obsOf q.1) b := by
          rcases register_lm cfg b q1.1 with ⟨u, e', _⟩ | ⟨p1, e', t, _⟩
          · rw [e'] at hm; cases hm
          · rw [e'] at hm; cases hm
            refine ⟨by rw [t.lk, a1]; rfl, ?_⟩
            funext l
            unfold obsOf candNext
            rw [t.lmOf, ha, a1]
            have : lmOf (regLm cfg (lk cfg q.1) q.1 b) l = lmOf (updLm q.1 (landmarkKey cfg b) (growLm cfg (lk cfg q.1) (landmarkKey cfg b) b)) l := rfl
            rw [this, lmOf_updLm]
            by_cases hl : landmarkKey cfg b = l
            · rw [if_pos (by simpa using hl), if_pos (by simpa using hl)]; rfl
            · rw [if_neg (by simpa using hl), if_neg (by simpa using hl)]
        have hd : (lmOf q2.1 (landmarkKey cfg b)).factors.dropLast = obsOf q.1 (landmarkKey cfg b) := by
          have : (lmOf q2.1 (landmarkKey cfg b)).factors = candNext cfg vals (obsOf q.1) b (landmarkKey cfg b) := by rw [← t.2]; rfl
          rw [this]
          unfold candNext
          rw [ha]
          simp
        have hw : candWarn cfg vals (obsOf q.1) b = landmarkWarnings (landmarkKey cfg b) b (obsOf q.1 (landmarkKey cfg b)) := by
          unfold candWarn; rw [ha]; rfl
        rw [e, hq3, hd, hw]
        simp only
        rw [t.1, t.2, hl, a2]
        simp only [List.append_assoc]
      · rw [if_neg hs] at h ⊢
        have hs' : Spec.isLandmark cfg b = false := by simpa using hs
        have ha : acceptLm cfg vals b = false := by unfold acceptLm; rw [hs']; simp
        rw [(hskip ha).1, (hskip ha).2, List.append_nil]
        obtain ⟨q1, ok, h1, h⟩ := M.bind_eq_ok.1 h
        obtain ⟨hm, hl⟩ := mute_ok h1
        have hobs : obsOf q1.1 = obsOf q.1 := by
          unfold M.cond at hm
          by_cases hc : chr b.k1 = chr b.k2
          · rw [if_pos (by simpa using hc)] at hm
            rcases isOdomConsistent_spec cfg b q.1 with ⟨_, _, e⟩ | ⟨_, p1, e, t⟩
            · rw [e] at hm; cases hm
            · rw [e] at hm; cases hm
              funext l; unfold obsOf; rw [t.lmOf]
          · rw [if_neg (by simpa using hc)] at hm
            rw [(Out.ok.inj hm).1]
        have hodom : lk cfg q1.1 = lk cfg q.1 ∧ ok = acceptLc cfg vals (lk cfg q.1) b := by
          unfold M.cond at hm
          by_cases hc : chr b.k1 = chr b.k2
          · rw [if_pos (by simpa using hc)] at hm
            rcases isOdomConsistent_spec cfg b q.1 with ⟨_, _, e⟩ | ⟨_, p1, e, t⟩
            · rw [e] at hm; cases hm
            · rw [e] at hm; cases hm
              exact ⟨t.lk, by simp [acceptLc, hk1, hs', hc]⟩
          · rw [if_neg (by simpa using hc)] at hm
            obtain ⟨e1, e2⟩ := Out.ok.inj hm
            exact ⟨by rw [e1], by rw [← e2]; simp [acceptLc, hk1, hs', hc]⟩
        cases hok : ok with
        | true =>
          rw [← hodom.2, hok, if_pos rfl]
          rw [hok, if_pos rfl] at h
          obtain ⟨q2, _, h2, h⟩ := M.bind_eq_ok.1 h
          obtain ⟨q3, _, h3, h⟩ := M.bind_eq_ok.1 h
          have e := ih h
          obtain ⟨hm3, hl3⟩ := mute_ok h3
          obtain ⟨a1, a2⟩ := say_ok h2
          have t : lk cfg q3.1 = lk cfg q.1 ∧ obsOf q3.1 = obsOf q.1 := by
            rcases register_lc cfg b q2.1 with ⟨u, e', _⟩ | ⟨p1, e', t, _⟩
            · rw [e'] at hm3; cases hm3
            · rw [e'] at hm3; cases hm3
              refine ⟨by rw [t.lk, ← hodom.1, a1]; rfl, ?_⟩
              rw [← hobs, ← a1]
              funext l; unfold obsOf; rw [t.lmOf]; rfl
          rw [e, t.1, t.2, hl3, a2, hl, List.append_assoc]
        | false =>
          rw [← hodom.2, hok, if_neg (by simp)]
          rw [hok, if_neg (by simp)] at h
          obtain ⟨q2, _, h2, h⟩ := M.bind_eq_ok.1 h
          obtain ⟨a1, a2⟩ := say_ok h2
          have e := ih h
          rw [e, a1, hodom.1, hobs, a2, hl, List.append_assoc]
    · rw [if_pos (by
        have hk' : known vals b = false := by simpa using hk
        unfold known at hk'
        cases h1 : vals.has b.k1 <;> cases h2 : vals.has b.k2 <;> simp_all)] at h
      obtain ⟨q1, _, h1, h⟩ := M.bind_eq_ok.1 h
      obtain ⟨a1, a2⟩ := say_ok h1
      have ha : acceptLm cfg vals b = false := by
        unfold acceptLm
        have hk' : known vals b = false := by simpa using hk
        rw [hk']; rfl
      rw [ih h, a1, a2, List.append_assoc, if_neg hk, (hskip ha).1, (hskip ha).2]
      rfl

end RPGO
