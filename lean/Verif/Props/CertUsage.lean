import Verif.Cert.TypesRT
import Verif.Cert.NameSpec
/-!
# Key usage and extended key usage: C53, C54
-/
namespace Verif.Props
open Verif Verif.Der Verif.Cert Verif.Spec.DER Verif.Spec.Names

/-! ## C53 -/

/-- `v` is the DER encoding of a named bit list (X.690 11.2.2): `flags` from bit 0 on, the last one set. -/
def IsNamedBits (flags : List Bool) (v : Bytes) : Prop :=
  ∃ (pad : Nat) (data : Bytes), pad < 8 ∧ bits data = flags ++ List.replicate pad false ∧ (flags = [] ∨ flags.getLast? = some true) ∧
    v = elem 0x03 (BitVec.ofNat 8 pad :: data)

/-- The flags of a key usage (RFC 5280 4.2.1.3): bit 0 is digitalSignature, bit 8 decipherOnly. -/
def usageFlags (n k : Nat) : List Bool := (List.range n).map k.testBit

/-- Bits 0 to 8 of a number below 512 survive. -/
theorem C53_roundtrip (k : Nat) (hk : k < 512) : ∃ v, keyUsageValue k = .ok v ∧ parseKeyUsage v = .ok k := by
  have h : ∀ k : Fin 512, (match keyUsageValue (k.val : Int) with
      | .ok v => decide (parseKeyUsage v = .ok (k.val : Int))
      | _ => false) = true := by decide +kernel
  have := h ⟨k, hk⟩
  dsimp only at this
  cases hv : keyUsageValue k with
  | ok v => rw [hv] at this; exact ⟨v, rfl, of_decide_eq_true this⟩
  | err _ => rw [hv] at this; simp at this
  | panic => rw [hv] at this; simp at this
  | loop => rw [hv] at this; simp at this

/-- The encoding is the one of the standard: the bits up to the highest one set. -/
theorem C53_encoding (k : Nat) (h0 : 0 < k) (hk : k < 512) :
    ∃ v n, keyUsageValue k = .ok v ∧ 2 ^ n ≤ k ∧ k < 2 ^ (n + 1) ∧ IsNamedBits (usageFlags (n + 1) k) v := by
  have h : ∀ k : Fin 512, 0 < k.val → ∃ n : Fin 9, 2 ^ n.val ≤ k.val ∧ k.val < 2 ^ (n.val + 1) ∧ ∃ pad : Fin 8,
      (match keyUsageValue (k.val : Int) with
      | .ok (_ :: _ :: _ :: data) => decide (bits data = usageFlags (n.val + 1) k.val ++ List.replicate pad.val false ∧
          (usageFlags (n.val + 1) k.val).getLast? = some true ∧
          keyUsageValue (k.val : Int) = .ok (elem 0x03 (BitVec.ofNat 8 pad.val :: data)))
      | _ => false) = true := by decide +kernel
  obtain ⟨n, h1, h2, pad, h3⟩ := h ⟨k, hk⟩ h0
  dsimp only at h1 h2 h3
  split at h3
  · rename_i data hv
    obtain ⟨g1, g2, g3⟩ := of_decide_eq_true h3
    exact ⟨_, n, g3, h1, h2, pad, data, pad.isLt, g1, .inr g2, rfl⟩
  · simp at h3

/-- The encoding says which bits are set. -/
theorem C53_flags_unique {f g : List Bool} {v : Bytes} (hf : IsNamedBits f v) (hg : IsNamedBits g v) (hl : v.length < 2 ^ 31) : f = g := by
  obtain ⟨p, d, h1, h2, h3, rfl⟩ := hf
  obtain ⟨q, e, g1, g2, g3, g4⟩ := hg
  have hlen := (CB.length_elem 0x03 (BitVec.ofNat 8 p :: d))
  have hlen' : (elem 0x03 (BitVec.ofNat 8 q :: e)).length < 2 ^ 31 := by rw [← g4]; exact hl
  rw [CB.length_elem] at hlen'
  have := elem_small_inj (by omega) (by omega) g4
  simp only [List.cons.injEq] at this
  obtain ⟨e1, rfl⟩ := this
  have : p = q := by
    have := congrArg BitVec.toNat e1
    rw [BitVec.toNat_ofNat, BitVec.toNat_ofNat] at this
    omega
  subst this
  rw [h2] at g2
  exact List.append_cancel_right g2

theorem getLsbD_shift (x : Byte) (j : Nat) : (x >>> (7 - j)).toNat % 2 = (x.getLsbD (7 - j)).toNat := by
  rw [BitVec.toNat_ushiftRight, BitVec.getLsbD, Nat.testBit, Nat.one_and_eq_mod_two]
  rcases Nat.mod_two_eq_zero_or_one (x.toNat >>> (7 - j)) with h | h <;> rw [h] <;> rfl

theorem bitsOf_getElem (x : Byte) (j : Nat) (h : j < 8) : (bitsOf x)[j]? = some (x.getLsbD (7 - j)) := by
  unfold bitsOf
  interval_cases j <;> rfl

theorem bits_getElem : ∀ (data : Bytes) (i : Nat), (bits data)[i]? = (data[i / 8]?).map fun x => x.getLsbD (7 - i % 8) := by
  intro data
  induction data with
  | nil => intro i; simp [bits]
  | cons x data ih =>
    intro i
    have e : bits (x :: data) = bitsOf x ++ bits data := rfl
    have hl : (bitsOf x).length = 8 := rfl
    rw [e]
    by_cases hi : i < 8
    · rw [List.getElem?_append_left (by omega), bitsOf_getElem x i hi, Nat.div_eq_of_lt hi, Nat.mod_eq_of_lt hi]
      rfl
    · rw [List.getElem?_append_right (by omega), hl, ih]
      have e1 : i / 8 = (i - 8) / 8 + 1 := by omega
      have e2 : (i - 8) % 8 = i % 8 := by omega
      rw [e1, e2, List.getElem?_cons_succ]

/-- The unused bits of a DER bit string are zero. -/
theorem bitString_tail {data c : Bytes} {n i : Nat} (h : IsBitString data n c) (hi : n ≤ i) : (bits data).getD i false = false := by
  obtain ⟨pad, rfl, h1, h2, h3⟩ := h
  rw [List.getD_eq_getElem?_getD, bits_getElem]
  cases hx : data[i / 8]? with
  | none => rfl
  | some x =>
    obtain ⟨hlt, hx'⟩ := List.getElem?_eq_some_iff.1 hx
    have hlast : i / 8 = data.length - 1 := by omega
    have hd : data = data.take (data.length - 1) ++ [x] := by
      conv_lhs => rw [← List.take_append_drop (data.length - 1) data]
      rw [List.drop_eq_getElem_cons (by omega)]
      congr 1
      rw [List.cons.injEq]
      refine ⟨?_, List.drop_eq_nil_of_le (by omega)⟩
      rw [← hx']; congr 1; exact hlast.symm
    rw [hd, beNat_append] at h3
    simp only [Option.map_some, Option.getD_some]
    have h4 : beNat [x] = x.toNat := by simp [beNat]
    rw [h4] at h3
    have h5 : x.toNat % 2 ^ pad.toNat = 0 := by
      have h6 : 2 ^ pad.toNat ∣ 256 ^ [x].length := by
        rw [List.length_singleton, pow_one]
        exact (pow_dvd_pow 2 (by omega : pad.toNat ≤ 8)).trans (by decide)
      exact Nat.mod_eq_zero_of_dvd ((Nat.dvd_add_right (Dvd.dvd.mul_left h6 _)).1 (Nat.dvd_of_mod_eq_zero h3))
    rw [BitVec.getLsbD]
    have h7 : 7 - i % 8 < pad.toNat := by omega
    obtain ⟨q, hq⟩ := Nat.dvd_of_mod_eq_zero h5
    rw [hq, Nat.testBit_two_pow_mul]
    simp; omega

theorem keyUsageLoop_eq {b : BitString} {f : Nat → Bool} (h : ∀ i, b.at i = .ok (f i).toNat) :
    ∃ k : Nat, keyUsageLoop b 9 0 0 = .ok (k : Int) ∧ k < 512 ∧ ∀ i < 9, k.testBit i = f i := by
  simp only [keyUsageLoop, h, Res.ok_bind]
  have h8 : ∀ P : Nat → Prop, (∀ i < 9, P i) ↔ (P 0 ∧ P 1 ∧ P 2 ∧ P 3 ∧ P 4 ∧ P 5 ∧ P 6 ∧ P 7 ∧ P 8) := by
    intro P
    constructor
    · intro h; exact ⟨h 0 (by omega), h 1 (by omega), h 2 (by omega), h 3 (by omega), h 4 (by omega), h 5 (by omega), h 6 (by omega), h 7 (by omega), h 8 (by omega)⟩
    · rintro ⟨a0, a1, a2, a3, a4, a5, a6, a7, a8⟩ i hi
      interval_cases i <;> assumption
  have key : ∀ b0 b1 b2 b3 b4 b5 b6 b7 b8 : Bool, ∃ k : Fin 512,
      (let u0 : Int := if b0.toNat ≠ 0 then 0 + 2 ^ 0 else 0
       let u1 := if b1.toNat ≠ 0 then u0 + 2 ^ (0 + 1) else u0
       let u2 := if b2.toNat ≠ 0 then u1 + 2 ^ (0 + 1 + 1) else u1
       let u3 := if b3.toNat ≠ 0 then u2 + 2 ^ (0 + 1 + 1 + 1) else u2
       let u4 := if b4.toNat ≠ 0 then u3 + 2 ^ (0 + 1 + 1 + 1 + 1) else u3
       let u5 := if b5.toNat ≠ 0 then u4 + 2 ^ (0 + 1 + 1 + 1 + 1 + 1) else u4
       let u6 := if b6.toNat ≠ 0 then u5 + 2 ^ (0 + 1 + 1 + 1 + 1 + 1 + 1) else u5
       let u7 := if b7.toNat ≠ 0 then u6 + 2 ^ (0 + 1 + 1 + 1 + 1 + 1 + 1 + 1) else u6
       let u8 := if b8.toNat ≠ 0 then u7 + 2 ^ (0 + 1 + 1 + 1 + 1 + 1 + 1 + 1 + 1) else u7
       u8) = (k.val : Int) ∧
      (k.val.testBit 0 = b0 ∧ k.val.testBit 1 = b1 ∧ k.val.testBit 2 = b2 ∧ k.val.testBit 3 = b3 ∧ k.val.testBit 4 = b4 ∧
        k.val.testBit 5 = b5 ∧ k.val.testBit 6 = b6 ∧ k.val.testBit 7 = b7 ∧ k.val.testBit 8 = b8) := by
    intro b0 b1 b2 b3 b4 b5 b6 b7 b8
    let n := b0.toNat + 2 * b1.toNat + 4 * b2.toNat + 8 * b3.toNat + 16 * b4.toNat + 32 * b5.toNat + 64 * b6.toNat + 128 * b7.toNat + 256 * b8.toNat
    have hn : n < 512 := by
      have := Bool.toNat_lt b0; have := Bool.toNat_lt b1; have := Bool.toNat_lt b2; have := Bool.toNat_lt b3; have := Bool.toNat_lt b4
      have := Bool.toNat_lt b5; have := Bool.toNat_lt b6; have := Bool.toNat_lt b7; have := Bool.toNat_lt b8
      omega
    refine ⟨⟨n, hn⟩, ?_⟩
    dsimp only [n]
    clear hn n
    revert b0 b1 b2 b3 b4 b5 b6 b7 b8
    decide +kernel
  obtain ⟨k, h1, h2⟩ := key (f 0) (f 1) (f 2) (f 3) (f 4) (f 5) (f 6) (f 7) (f 8)
  refine ⟨k.val, ?_, k.isLt, (h8 _).2 h2⟩
  rw [← h1]

/-- What parsing returns for any extension value: bits 0 to 8 of a DER bit string. -/
theorem C53_parse (v : Bytes) (r : Int) :
    parseKeyUsage v = .ok r ↔ ∃ (data c : Bytes) (n k : Nat), v = elem 0x03 c ∧ c.length < 2 ^ 31 ∧ IsBitString data n c ∧
      r = k ∧ k < 512 ∧ ∀ i < 9, k.testBit i = (bits data).getD i false := by
  have hat : ∀ {data c : Bytes} {n : Nat}, IsBitString data n c → ∀ i, BitString.at ⟨data, n⟩ i = .ok ((bits data).getD i false).toNat := by
    intro data c n h i
    unfold BitString.at
    by_cases hi : n ≤ i
    · rw [bitString_tail h hi, if_pos hi]; rfl
    · rw [if_neg hi]
      obtain ⟨pad, rfl, h1, h2, h3⟩ := h
      have hlt : i / 8 < data.length := by omega
      rw [List.getD_eq_getElem?_getD, bits_getElem]
      dsimp only
      rw [List.getElem?_eq_getElem hlt]
      simp only [Option.map_some, Option.getD_some]
      rw [getLsbD_shift]
  unfold parseKeyUsage
  rw [Res.bind_eq_ok]
  constructor
  · rintro ⟨⟨data, n⟩, h1, h2⟩
    obtain ⟨c, g1, g2, g3⟩ := (parseField_iff (ty := tyBits) (p := {}) rfl rfl rfl rfl (by decide)).1 (unmarshalAll_ok h1)
    have hb := (parseBitString_iff _ _).1 g3
    obtain ⟨k, k1, k2, k3⟩ := keyUsageLoop_eq (hat hb)
    rw [k1] at h2
    simp only [Res.ok.injEq] at h2
    rw [List.append_nil] at g2
    exact ⟨data, c, n, k, g2, g1, hb, h2.symm, k2, k3⟩
  · rintro ⟨data, c, n, k, rfl, hc, hb, rfl, hk, hbits⟩
    refine ⟨⟨data, n⟩, ?_, ?_⟩
    · unfold unmarshalAll unmarshal
      have := (parseField_iff (ty := tyBits) (p := {}) (v := ⟨data, n⟩) (bs := elem 0x03 c) (rest := []) rfl rfl rfl rfl (by decide)).2
        ⟨c, hc, by rw [List.append_nil]; rfl, (parseBitString_iff _ _).2 hb⟩
      rw [this, Res.ok_bind]
      rfl
    · obtain ⟨k', k1, k2, k3⟩ := keyUsageLoop_eq (hat hb)
      rw [k1]
      congr 2
      apply Nat.eq_of_testBit_eq
      intro i
      by_cases hi : i < 9
      · rw [k3 i hi, hbits i hi]
      · rw [Nat.testBit_lt_two_pow (lt_of_lt_of_le k2 (Nat.pow_le_pow_right (n := 2) (by decide) (by omega : 9 ≤ i))),
          Nat.testBit_lt_two_pow (lt_of_lt_of_le hk (Nat.pow_le_pow_right (n := 2) (by decide) (by omega : 9 ≤ i)))]

/-- keyCertSign, cRLSign (bits 5, 6) and decipherOnly (bit 8). -/
example : keyUsageValue 0x60 = .ok [3, 2, 1, 6] ∧ keyUsageValue 0x100 = .ok [3, 3, 7, 0, 0x80] := by decide +kernel
example : IsNamedBits (usageFlags 7 0x60) [3, 2, 1, 6] := ⟨1, [6], by decide, by decide, by decide, by decide⟩

/-! ## C54 -/

/-- The extended key usages of Go 1.12 and their object identifiers (RFC 5280 4.2.1.12, Microsoft and Netscape). -/
def ekuTable : List (Nat × List Nat) := [
  (0, [2, 5, 29, 37, 0]), (1, [1, 3, 6, 1, 5, 5, 7, 3, 1]), (2, [1, 3, 6, 1, 5, 5, 7, 3, 2]), (3, [1, 3, 6, 1, 5, 5, 7, 3, 3]),
  (4, [1, 3, 6, 1, 5, 5, 7, 3, 4]), (5, [1, 3, 6, 1, 5, 5, 7, 3, 5]), (6, [1, 3, 6, 1, 5, 5, 7, 3, 6]), (7, [1, 3, 6, 1, 5, 5, 7, 3, 7]),
  (8, [1, 3, 6, 1, 5, 5, 7, 3, 8]), (9, [1, 3, 6, 1, 5, 5, 7, 3, 9]), (10, [1, 3, 6, 1, 4, 1, 311, 10, 3, 3]),
  (11, [2, 16, 840, 1, 113730, 4, 1]), (12, [1, 3, 6, 1, 4, 1, 311, 2, 1, 22]), (13, [1, 3, 6, 1, 4, 1, 311, 61, 1, 1])]

theorem find_map_fst {u : Int} {oid : OID} : oidFromExtKeyUsage u = some oid ↔ ∃ n : Nat, u = n ∧ (n, oid) ∈ ekuTable := by
  have e : extKeyUsageOIDs = ekuTable.map fun p => ((p.1 : Int), p.2) := by decide
  unfold oidFromExtKeyUsage
  constructor
  · intro h
    rw [Option.map_eq_some_iff] at h
    obtain ⟨⟨a, b⟩, h1, rfl⟩ := h
    have h2 := List.mem_of_find?_eq_some h1
    have h3 := List.find?_some h1
    rw [e, List.mem_map] at h2
    obtain ⟨⟨n, o⟩, h4, h5⟩ := h2
    simp only [Prod.mk.injEq] at h5
    obtain ⟨rfl, rfl⟩ := h5
    exact ⟨n, by simpa using h3, h4⟩
  · rintro ⟨n, rfl, h⟩
    have : ∀ p ∈ ekuTable, (extKeyUsageOIDs.find? fun pair => ((p.1 : Nat) : Int) == pair.1).map Prod.snd = some p.2 := by decide
    exact this _ h

theorem find_map_snd {u : Int} {oid : OID} : extKeyUsageFromOID oid = some u ↔ ∃ n : Nat, u = n ∧ (n, oid) ∈ ekuTable := by
  have e : extKeyUsageOIDs = ekuTable.map fun p => ((p.1 : Int), p.2) := by decide
  unfold extKeyUsageFromOID
  constructor
  · intro h
    rw [Option.map_eq_some_iff] at h
    obtain ⟨⟨a, b⟩, h1, rfl⟩ := h
    have h2 := List.mem_of_find?_eq_some h1
    have h3 := List.find?_some h1
    rw [e, List.mem_map] at h2
    obtain ⟨⟨n, o⟩, h4, h5⟩ := h2
    simp only [Prod.mk.injEq] at h5
    obtain ⟨rfl, rfl⟩ := h5
    have : oid = o := by simpa using h3
    subst this
    exact ⟨n, rfl, h4⟩
  · rintro ⟨n, rfl, h⟩
    have : ∀ p ∈ ekuTable, (extKeyUsageOIDs.find? fun pair => p.2 == pair.2).map Prod.fst = some (p.1 : Int) := by decide
    exact this _ h

/-- A usage and an OID belong together in both directions, as in the table. -/
theorem C54_table (u : Int) (oid : OID) :
    (oidFromExtKeyUsage u = some oid ↔ ∃ n : Nat, u = n ∧ (n, oid) ∈ ekuTable) ∧
    (extKeyUsageFromOID oid = some u ↔ ∃ n : Nat, u = n ∧ (n, oid) ∈ ekuTable) := ⟨find_map_fst, find_map_snd⟩

/-- Hence one maps to the other exactly when the other maps back. -/
theorem C54_inverse (u : Int) (oid : OID) : oidFromExtKeyUsage u = some oid ↔ extKeyUsageFromOID oid = some u := by
  rw [find_map_fst, find_map_snd]

/-- The known usages are 0 to 13. -/
theorem C54_known (u : Int) : (∃ oid, oidFromExtKeyUsage u = some oid) ↔ 0 ≤ u ∧ u < 14 := by
  constructor
  · rintro ⟨oid, h⟩
    obtain ⟨n, rfl, hn⟩ := find_map_fst.1 h
    have : ∀ p ∈ ekuTable, p.1 < 14 := by decide
    have := this _ hn
    dsimp only at this
    omega
  · rintro ⟨h1, h2⟩
    have : ∀ n : Fin 14, ∃ p ∈ ekuTable, p.1 = n.val := by decide
    obtain ⟨⟨n, o⟩, h3, h4⟩ := this ⟨u.toNat, by omega⟩
    dsimp only at h4
    exact ⟨o, find_map_fst.2 ⟨n, by omega, h3⟩⟩

theorem extKeyUsageOidsOf_ok : ∀ {us : List Int} {oids : List OID}, extKeyUsageOidsOf us = .ok oids ↔
    List.Forall₂ (fun u o => oidFromExtKeyUsage u = some o) us oids := by
  intro us
  induction us with
  | nil => intro oids; simp [extKeyUsageOidsOf, eq_comm]
  | cons u us ih =>
    intro oids
    rw [extKeyUsageOidsOf, List.forall₂_cons_left_iff]
    cases h : oidFromExtKeyUsage u with
    | none => simp
    | some o =>
      dsimp only
      rw [Res.bind_eq_ok]
      simp only [Res.ok.injEq, ih, Option.some.injEq]
      constructor
      · rintro ⟨l, h1, rfl⟩; exact ⟨_, _, rfl, h1, rfl⟩
      · rintro ⟨_, l, rfl, h1, rfl⟩; exact ⟨l, h1, rfl⟩

theorem splitExtKeyUsage_append (a b : List OID) :
    splitExtKeyUsage (a ++ b) = ((splitExtKeyUsage a).1 ++ (splitExtKeyUsage b).1, (splitExtKeyUsage a).2 ++ (splitExtKeyUsage b).2) := by
  induction a with
  | nil => rfl
  | cons o a ih =>
    rw [List.cons_append, splitExtKeyUsage, splitExtKeyUsage, ih]
    split <;> rfl

theorem splitExtKeyUsage_known {us : List Int} {oids : List OID} (h : List.Forall₂ (fun u o => oidFromExtKeyUsage u = some o) us oids) :
    splitExtKeyUsage oids = (us, []) := by
  induction h with
  | nil => rfl
  | cons h _ ih => rw [splitExtKeyUsage, ih, (C54_inverse _ _).1 h]

theorem splitExtKeyUsage_unknown {oids : List OID} (h : ∀ o ∈ oids, ∀ n, (n, o) ∉ ekuTable) :
    splitExtKeyUsage oids = ([], oids) := by
  induction oids with
  | nil => rfl
  | cons o oids ih =>
    rw [List.forall_mem_cons] at h
    rw [splitExtKeyUsage, ih h.2]
    cases hu : extKeyUsageFromOID o with
    | none => rfl
    | some u =>
      obtain ⟨n, _, hn⟩ := find_map_snd.1 hu
      exact absurd hn (h.1 n)

theorem ekuTable_fits : ∀ p ∈ ekuTable, OIDFits p.2 := by
  unfold OIDFits; decide

/-- A list of usages and of other OIDs survives encoding and parsing. -/
theorem C54_roundtrip (us : List Int) (unknown : List OID) (v : Bytes) (h : extKeyUsageValue us unknown = .ok v) (hl : v.length < 2 ^ 31)
    (hfit : ∀ o ∈ unknown, OIDFits o) (hun : ∀ o ∈ unknown, ∀ n, (n, o) ∉ ekuTable) :
    ∃ oids, unmarshalAll (tySlice false tyOID) v = .ok oids ∧ splitExtKeyUsage oids = (us, unknown) := by
  unfold extKeyUsageValue at h
  rw [Res.bind_eq_ok] at h
  obtain ⟨oids, h1, h2⟩ := h
  rw [extKeyUsageOidsOf_ok] at h1
  refine ⟨oids ++ unknown, unmarshalAll_of (oids_rt ?_) h2 hl, ?_⟩
  · intro o ho'
    rcases List.mem_append.1 ho' with ho | ho
    · clear h2 ho'
      induction h1 with
      | nil => simp at ho
      | cons k _ ih =>
        rcases List.mem_cons.1 ho with rfl | ho
        · obtain ⟨n, _, hn⟩ := find_map_fst.1 k
          exact ekuTable_fits _ hn
        · exact ih ho
    · exact hfit o ho
  · rw [splitExtKeyUsage_append, splitExtKeyUsage_known h1, splitExtKeyUsage_unknown hun]
    simp

/-- Unknown OIDs are kept, in order, and known ones are recognised, in order, in any list. -/
theorem C54_split (oids : List OID) :
    splitExtKeyUsage oids = (oids.filterMap fun o => (ekuTable.find? fun p => p.2 = o).map fun p => (p.1 : Int),
      oids.filter fun o => ∀ p ∈ ekuTable, p.2 ≠ o) := by
  induction oids with
  | nil => rfl
  | cons o oids ih =>
    rw [splitExtKeyUsage, ih]
    cases hu : extKeyUsageFromOID o with
    | some u =>
      obtain ⟨n, rfl, hn⟩ := find_map_snd.1 hu
      have h1 : (ekuTable.find? fun p => p.2 = o).map (fun p => (p.1 : Int)) = some (n : Int) := by
        have : ∀ q ∈ ekuTable, (ekuTable.find? fun p => p.2 = q.2).map (fun p => (p.1 : Int)) = some (q.1 : Int) := by decide
        exact this _ hn
      have h2 : ¬ ∀ p ∈ ekuTable, p.2 ≠ o := fun h => h _ hn rfl
      dsimp only
      rw [List.filterMap_cons_some (f := fun o => (ekuTable.find? fun p => p.2 = o).map fun p => (p.1 : Int)) h1, List.filter_cons_of_neg (by simpa using h2)]
    | none =>
      have h2 : ∀ p ∈ ekuTable, p.2 ≠ o := by
        rintro ⟨n, o'⟩ hp rfl
        have := find_map_snd.2 ⟨n, rfl, hp⟩
        rw [hu] at this; simp at this
      have h1 : (ekuTable.find? fun p => p.2 = o).map (fun p => (p.1 : Int)) = none := by
        rw [Option.map_eq_none_iff, List.find?_eq_none]
        intro p hp; simpa using h2 p hp
      dsimp only
      rw [List.filterMap_cons_none (f := fun o => (ekuTable.find? fun p => p.2 = o).map fun p => (p.1 : Int)) h1, List.filter_cons_of_pos (by simpa using h2)]

/-- An unknown usage in a template panics (gmx509.go:726); otherwise there is a value when all OIDs can be encoded. -/
theorem C54_panics_iff (us : List Int) (unknown : List OID) :
    extKeyUsageValue us unknown = .panic ↔ ∃ u ∈ us, u < 0 ∨ 14 ≤ u := by
  have key : ∀ us : List Int, (extKeyUsageOidsOf us = .panic ∧ ∃ u ∈ us, u < 0 ∨ 14 ≤ u) ∨
      (∃ oids, extKeyUsageOidsOf us = .ok oids ∧ ∀ u ∈ us, 0 ≤ u ∧ u < 14) := by
    intro us
    induction us with
    | nil => right; exact ⟨[], rfl, by simp⟩
    | cons u us ih =>
      rw [extKeyUsageOidsOf]
      cases hu : oidFromExtKeyUsage u with
      | none =>
        left
        refine ⟨rfl, u, by simp, ?_⟩
        by_contra hh
        obtain ⟨o, ho⟩ := (C54_known u).2 (by omega)
        rw [hu] at ho; simp at ho
      | some o =>
        have h1 := (C54_known u).1 ⟨o, hu⟩
        rcases ih with ⟨h2, w, hw, hw'⟩ | ⟨l, h2, h3⟩
        · left; dsimp only; rw [h2]; exact ⟨rfl, w, by simp [hw], hw'⟩
        · right; dsimp only; rw [h2]; exact ⟨o :: l, rfl, by rw [List.forall_mem_cons]; exact ⟨h1, h3⟩⟩
  unfold extKeyUsageValue
  rcases key us with ⟨h1, h2⟩ | ⟨l, h1, h2⟩
  · rw [h1]; exact ⟨fun _ => h2, fun _ => rfl⟩
  · rw [h1, Res.ok_bind]
    constructor
    · intro h
      have hr : ∀ l : List OID, (marshal (tySlice false tyOID) l) ≠ .panic := by
        intro l
        show makeTagged {} 16 true false (fun _ => false) (makeElems tyOID l) ≠ .panic
        have he : ∀ l : List OID, (makeElems tyOID l).returned = true := by
          intro l
          induction l with
          | nil => rfl
          | cons o l ih =>
            rw [makeElems]
            refine returned_bind ?_ fun _ _ => returned_bind ih fun _ _ => rfl
            show (makeTagged {} 6 false (decide (o = [])) (fun _ => false) (makeObjectIdentifier o)).returned = true
            unfold makeTagged
            split
            · rfl
            · split
              · rfl
              · refine returned_bind ?_ fun _ _ => rfl
                unfold makeObjectIdentifier
                repeat' split
                all_goals rfl
        unfold makeTagged
        rw [omitted_mandatory rfl, if_neg (by simp), if_neg (by simp)]
        have := he l
        intro hp
        cases hm : makeElems tyOID l with
        | ok c => rw [hm, Res.ok_bind] at hp; simp at hp
        | err _ => rw [hm] at hp; simp at hp
        | panic => rw [hm] at this; simp [Res.returned] at this
        | loop => rw [hm] at this; simp [Res.returned] at this
      exact absurd h (hr _)
    · rintro ⟨u, hu, hu'⟩
      have := h2 u hu
      omega

/-- serverAuth, clientAuth and 1.2.3. -/
example : ∃ v, extKeyUsageValue [1, 2] [[1, 2, 3]] = .ok v ∧ v.length < 2 ^ 31 ∧ OIDFits [1, 2, 3] ∧ (∀ n, (n, [1, 2, 3]) ∉ ekuTable) := by
  refine ⟨_, rfl, by decide +kernel, by unfold OIDFits; decide, ?_⟩
  intro n h
  simp [ekuTable] at h

end Verif.Props
