import Verif.Model.Pcm
import Verif.Proofs.Basic
/-
C32 robot pairs are unordered keys; C33 odometry never crosses robots.
-/

namespace RPGO.Props
open RPGO

/-! ### C32 -/

/-- C32, equality: two robot pairs are equal exactly when they are the same unordered pair. -/
theorem C32_pair_equality (p q r s : Chr) :
    (ObsId.mk p q).eqv ⟨r, s⟩ = true ↔ (p = r ∧ q = s) ∨ (p = s ∧ q = r) := by
  rw [ObsId.eqv_iff]
  constructor
  · rintro (h | ⟨h1, h2⟩)
    · exact Or.inl h
    · exact Or.inr ⟨h2, h1⟩
  · rintro (h | ⟨h1, h2⟩)
    · exact Or.inl h
    · exact Or.inr ⟨h2, h1⟩

/-- C32: the comparison is an equivalence relation. -/
theorem C32_pair_equivalence :
    (∀ a : ObsId, a.eqv a = true) ∧ (∀ a b : ObsId, a.eqv b = b.eqv a) ∧
      ∀ a b c : ObsId, a.eqv b = true → b.eqv c = true → a.eqv c = true := by
  refine ⟨ObsId.isEqv.refl, ?_, ObsId.isEqv.trans⟩
  intro a b
  cases h : a.eqv b <;> cases h' : b.eqv a <;> try rfl
  · rw [ObsId.isEqv.symm _ _ h'] at h; cases h
  · rw [ObsId.isEqv.symm _ _ h] at h'; cases h'

/-- C32: equal pairs hash equally, for every hash function on characters. -/
theorem C32_pair_hash (h : Chr → BitVec 64) (a b : ObsId) (e : a.eqv b = true) : a.hash h = b.hash h := by
  rcases (ObsId.eqv_iff a b).1 e with ⟨h1, h2⟩ | ⟨h1, h2⟩
  · unfold ObsId.hash; rw [h1, h2]
  · unfold ObsId.hash; rw [h1, h2, BitVec.add_comm (h b.id1) (h b.id2), BitVec.mul_comm (h b.id1) (h b.id2)]

/-- C32: what is stored for the pair `(p, q)` is what is found for `(q, p)`, and nothing is changed for a
different unordered pair. -/
theorem C32_one_entry_per_pair {G T N : Type} (s : Pcm G T N) (p q : Chr) (f : Meas G N → Meas G N) :
    lcOf (updLc s ⟨p, q⟩ f) ⟨q, p⟩ = f (lcOf s ⟨p, q⟩) ∧
      ∀ r t : Chr, ¬((p = r ∧ q = t) ∨ (p = t ∧ q = r)) → lcOf (updLc s ⟨p, q⟩ f) ⟨r, t⟩ = lcOf s ⟨r, t⟩ := by
  constructor
  · unfold lcOf updLc
    simp only
    rw [AList.get?_congr ObsId.isEqv _ ((C32_pair_equality q p p q).2 (Or.inr ⟨rfl, rfl⟩)),
      AList.get?_upd_self ObsId.isEqv]
    rfl
  · intro r t h
    unfold lcOf updLc
    simp only
    rw [AList.get?_upd_other ObsId.isEqv]
    cases e : (ObsId.mk p q).eqv ⟨r, t⟩
    · rfl
    · exact absurd ((C32_pair_equality p q r t).1 e) h

/-- Two robots, both orders, and a third robot. -/
example : (ObsId.mk 97 98).eqv ⟨98, 97⟩ = true ∧ (ObsId.mk 97 98).eqv ⟨97, 99⟩ = false ∧
    (ObsId.mk 97 98).hash (fun c => c.zeroExtend 64) = (ObsId.mk 98 97).hash (fun c => c.zeroExtend 64) := by
  decide

/-! ### C33 -/

theorem chr_toNat (k : Key) : (chr k).toNat = k.toNat / 2 ^ 56 := by
  unfold chr
  rw [BitVec.extractLsb'_toNat, Nat.shiftRight_eq_div_pow]
  have := k.isLt
  omega

theorem index_toNat (k : Key) : (index k).toNat = k.toNat % 2 ^ 56 := by
  unfold index
  rw [BitVec.extractLsb'_toNat, Nat.shiftRight_zero]

/-- C33: if a between factor is treated as odometry, its second key is the next pose of the same robot, unless
the index of the first key is the largest 56-bit number. -/
theorem C33_odometry_same_robot {G T N : Type} (cfg : Cfg G T N) (vs : Vals G) (b : Btw G N)
    (h : classify cfg vs (.btw b) = .odometry) (hi : (index b.k1).toNat ≠ 2 ^ 56 - 1) :
    chr b.k2 = chr b.k1 ∧ (index b.k2).toNat = (index b.k1).toNat + 1 := by
  have hk : b.k1 + 1 = b.k2 := by
    simp only [classify] at h
    split at h
    · split at h <;> cases h
    · split at h
      · rename_i h'; exact h'.1
      · cases h
  have e : b.k2.toNat = b.k1.toNat + 1 := by
    rw [← hk, BitVec.toNat_add]
    rw [index_toNat] at hi
    have := b.k1.isLt
    have h1 : (1 : Key).toNat = 1 := rfl
    rw [h1]
    omega
  rw [index_toNat] at hi
  constructor
  · apply BitVec.eq_of_toNat_eq
    rw [chr_toNat, chr_toNat, e]
    omega
  · rw [index_toNat, index_toNat, e]
    omega

/-- C33: odometry also never touches a landmark prefix, and its target is a key the same batch supplies. -/
theorem C33_odometry_no_landmark {G T N : Type} (cfg : Cfg G T N) (vs : Vals G) (b : Btw G N)
    (h : classify cfg vs (.btw b) = .odometry) :
    chr b.k1 ∉ cfg.special ∧ chr b.k2 ∉ cfg.special ∧ b.k2 ∈ vs.keys := by
  simp only [classify] at h
  split at h
  · split at h <;> cases h
  · rename_i hs
    split at h
    · rename_i h'
      simp only [Bool.or_eq_true, not_or, Bool.not_eq_true, Cfg.isSpecial, List.any_eq_false, beq_iff_eq] at hs
      exact ⟨fun hm => hs.1 _ hm rfl, fun hm => hs.2 _ hm rfl, (KMap.mem_keys_iff _ _).2 h'.2⟩
    · cases h

/-- The exception is real: the last key of robot `a` and the first key of robot `b` are consecutive. -/
theorem C33_overflow_crosses : symKey 97 (BitVec.allOnes 56) + 1 = symKey 98 0 := by decide

/-- A factor from a1 to a2 whose second key is supplied in the same batch is odometry. -/
example : classify (G := Unit) (T := Unit) (N := Unit)
    { ops := ⟨(), fun _ => (), fun _ _ => (), fun _ _ => (), fun _ => (), fun _ _ => (), fun _ => (), fun _ => true,
        fun _ => true⟩
      rejection := true, special := [108], odomCheck := true, loopCheck := true, incremental := false,
      align := false, lm := true, debug := false, log := false, useGnc := false, fixPrev := false,
      biasOdom := false, charSigned := true }
    [(symKey 97 2, .pose ())] (.btw ⟨symKey 97 1, symKey 97 2, (), some ()⟩) = .odometry := by decide

end RPGO.Props
