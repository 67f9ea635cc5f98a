import Verif.Der.OidInt
import Verif.Cert.Types
/-!
# Property C101: object identifiers of templates are written as they are
-/
namespace Verif.Props
open Verif Verif.Der Verif.Cert

/-- C101, the part that holds, and why natural numbers may stand for `int` elsewhere: without negative components (and without
overflow of the first two) the code writes what the natural numbers say. -/
theorem C101_natural_partial (oid : List (BitVec 64)) (hn : ∀ v ∈ oid, v.toNat < 2 ^ 63 - 80) :
    makeOidInt oid = makeObjectIdentifier (oid.map BitVec.toNat) := by
  match oid with
  | [] => rfl
  | [_] => rfl
  | a :: b :: tl =>
    have ha := hn a (by simp)
    have hb := hn b (by simp)
    have ea : a.toInt = (a.toNat : Int) := by rw [BitVec.toInt_eq_toNat_cond, if_pos (by omega)]
    have eb : b.toInt = (b.toNat : Int) := by rw [BitVec.toInt_eq_toNat_cond, if_pos (by omega)]
    simp only [makeOidInt, List.map_cons, makeObjectIdentifier_cons]
    by_cases hc : a.toNat > 2 ∨ (a.toNat < 2 ∧ b.toNat ≥ 40)
    · rw [if_pos hc, if_pos (by rw [ea, eb]; omega)]
    · rw [if_neg hc, if_neg (by rw [ea, eb]; omega)]
      have hsum : (a * 40 + b).toNat = a.toNat * 40 + b.toNat := by
        rw [BitVec.toNat_add, BitVec.toNat_mul, show (40 : BitVec 64).toNat = 40 from rfl, Nat.mod_eq_of_lt (a := a.toNat * 40) (by omega)]
        exact Nat.mod_eq_of_lt (by omega)
      rw [addBase128Int_nat _ (by rw [hsum]; omega), hsum]
      congr 2
      have ht : ∀ v ∈ tl, v.toNat < 2 ^ 63 := fun v hv => by have := hn v (by simp [hv]); omega
      clear hn
      induction tl with
      | nil => rfl
      | cons v tl ih =>
        rw [List.map_cons, List.flatMap_cons, List.flatMap_cons, addBase128Int_nat v (ht v (by simp)), ih fun w hw => ht w (by simp [hw])]

/-- C101, the part that holds: with components that fit 31 bits, what is written is read as the same identifier. -/
theorem C101_roundtrip_partial (oid : List (BitVec 64)) (hn : ∀ v ∈ oid, v.toNat < 2 ^ 30) (c : Bytes) (h : makeOidInt oid = .ok c) :
    parseObjectIdentifier c = .ok (oid.map BitVec.toNat) := by
  rw [C101_natural_partial oid fun v hv => by have := hn v hv; omega] at h
  refine (parseObjectIdentifier_iff _ _).2 (makeObjectIdentifier_content ?_ h)
  match oid, h with
  | a :: b :: tl, h =>
    simp only [List.map_cons, makeObjectIdentifier_cons] at h
    split at h
    · simp at h
    rename_i hc
    intro v hv
    have hb := hn b (by simp)
    have hv' : v ∈ (40 * a.toNat + b.toNat) :: tl.map BitVec.toNat := hv
    rcases List.mem_cons.1 hv' with rfl | hv'
    · omega
    · obtain ⟨w, hw, rfl⟩ := List.mem_map.1 hv'
      have := hn w (by simp [hw])
      omega

/-- C101 is violated: a negative component after the first two is dropped without an error, in every identifier. -/
theorem C101_dropped_violated (a b v : BitVec 64) (l r : List (BitVec 64)) (hv : v.toInt < 0) :
    makeOidInt (a :: b :: (l ++ v :: r)) = makeOidInt (a :: b :: (l ++ r)) := by
  simp only [makeOidInt, List.flatMap_append, List.flatMap_cons, addBase128Int_neg v hv, List.nil_append]

/-- C101 is violated, consequence: an extension that a template lists under an identifier of its own arrives as a key usage. The
creation compares the components (`oidInExtensions`) and sees no key usage in the template. -/
theorem C101_alias_violated : ∃ (oid : List (BitVec 64)) (c : Bytes), oid.map BitVec.toNat ≠ oidExtensionKeyUsage ∧ makeOidInt oid = .ok c ∧
    parseObjectIdentifier c = .ok oidExtensionKeyUsage := by
  refine ⟨[2, 5, 29, -1, 15], [0x55, 0x1d, 0x0f], by decide, by decide +kernel, by decide +kernel⟩

/-- C101 is violated: when the first component is negative, or the first two overflow, they are dropped. Then nothing may be left,
and the result cannot be read. -/
theorem C101_first_violated (a b : BitVec 64) (h : a.toInt < 0) (h' : -1000 < a.toInt) (hb : b.toInt < 40) (hb' : -1000 < b.toInt) :
    makeOidInt [a, b] = .ok [] ∧ ∃ m, parseObjectIdentifier [] = .err m := by
  refine ⟨?_, _, rfl⟩
  simp only [makeOidInt]
  rw [if_neg (by omega)]
  have : (a * 40 + b).toInt < 0 := by
    rw [BitVec.toInt_add, BitVec.toInt_mul, show (40 : BitVec 64).toInt = 40 from rfl]
    rw [Int.bmod_eq_of_le (n := a.toInt * 40) (by omega) (by omega), Int.bmod_eq_of_le (by omega) (by omega)]
    omega
  rw [addBase128Int_neg _ this]
  rfl

/-- The overflow. -/
theorem C101_overflow_violated : makeOidInt [2, BitVec.ofNat 64 (2 ^ 63 - 1), 7] = .ok [7] ∧ parseObjectIdentifier [7] = .ok [0, 7] := by
  decide +kernel

/-- The identifiers of the package meet the hypotheses of the positive part. -/
example : ∀ oid ∈ [oidSM2P256V1, oidSignatureSM3WithSM2, oidExtensionRequest], ∀ v ∈ oid, (BitVec.ofNat 64 v).toNat < 2 ^ 30 := by decide

/-- An instance of the round trip. -/
example : makeOidInt (oidSignatureSM3WithSM2.map (BitVec.ofNat 64)) = .ok [0x2a, 0x81, 0x1c, 0xcf, 0x55, 0x01, 0x83, 0x75] ∧
    parseObjectIdentifier [0x2a, 0x81, 0x1c, 0xcf, 0x55, 0x01, 0x83, 0x75] = .ok oidSignatureSM3WithSM2 := by decide +kernel

end Verif.Props
