import Verif.Props.CryptobyteRoundTrip
/-!
# C17, octet by octet

The round trips of C17 hold for any order of the octets on which writer and reader agree; here the order is given: the most significant
octet first.
-/
namespace Verif.Props
open Verif Verif.CB Verif.Spec.DER Verif.Spec.Builder

theorem reads_of_roundTrips {α : Type} {q : Prog} {rd : Reader α} {v : α} {e : Bytes} (h : RoundTrips q rd v) (w : Writes q e) (rest : Bytes) :
    rd (some (e ++ rest)) = .ok (some v, some rest) := by
  have hr : run (fun _ _ _ => 3) exHeap exBuf .nil = .ok [] := by decide
  obtain ⟨e', h1, h2⟩ := h _ _ _ _ _ exValid hr
  rw [w _ _ _ _ _ exValid hr, List.nil_append, List.nil_append] at h1
  rw [Res.ok.inj h1]
  exact h2 rest

theorem toBE_16 (v : BitVec 16) : toBE 2 v.toNat = [(v >>> 8).setWidth 8, v.setWidth 8] := by
  simp only [toBE, List.nil_append, List.cons_append, List.cons.injEq, and_true]
  refine ⟨?_, ?_⟩ <;> apply BitVec.eq_of_toNat_eq <;> simp [Nat.shiftRight_eq_div_pow]

theorem toBE_24 (v : Word) : toBE 3 v.toNat = [(v >>> 16).setWidth 8, (v >>> 8).setWidth 8, v.setWidth 8] := by
  simp only [toBE, List.nil_append, List.cons_append, List.cons.injEq, and_true]
  refine ⟨?_, ?_, ?_⟩ <;> apply BitVec.eq_of_toNat_eq <;> simp [Nat.shiftRight_eq_div_pow]; omega

theorem toBE_32 (v : Word) :
    toBE 4 v.toNat = [(v >>> 24).setWidth 8, (v >>> 16).setWidth 8, (v >>> 8).setWidth 8, v.setWidth 8] := by
  simp only [toBE, List.nil_append, List.cons_append, List.cons.injEq, and_true]
  refine ⟨?_, ?_, ?_, ?_⟩ <;> apply BitVec.eq_of_toNat_eq <;> simp [Nat.shiftRight_eq_div_pow] <;> omega

/-- C17, writing: big-endian; of the argument of `AddUint24` the low 24 bits. -/
theorem C17_written : (∀ v : Byte, Writes (addUint8 v .nil) [v]) ∧ (∀ v : BitVec 16, Writes (addUint16 v .nil) (toBE 2 v.toNat)) ∧
    (∀ v : Word, Writes (addUint24 v .nil) (toBE 3 v.toNat)) ∧ ∀ v : Word, Writes (addUint32 v .nil) (toBE 4 v.toNat) := by
  refine ⟨fun v => writes_of_eval rfl, fun v => ?_, fun v => ?_, fun v => ?_⟩
  · rw [toBE_16]; exact writes_of_eval rfl
  · rw [toBE_24]; exact writes_of_eval rfl
  · rw [toBE_32]; exact writes_of_eval rfl

/-- C17, reading: the value of the first octets in base 256. -/
theorem C17_values (a b c d : Byte) (rest : Bytes) :
    readUint8 (some (a :: rest)) = .ok (some a, some rest) ∧
    readUint16 (some (a :: b :: rest)) = .ok (some (BitVec.ofNat 16 (a.toNat * 256 + b.toNat)), some rest) ∧
    readUint24 (some (a :: b :: c :: rest)) = .ok (some (BitVec.ofNat 32 ((a.toNat * 256 + b.toNat) * 256 + c.toNat)), some rest) ∧
    readUint32 (some (a :: b :: c :: d :: rest)) =
      .ok (some (BitVec.ofNat 32 (((a.toNat * 256 + b.toNat) * 256 + c.toNat) * 256 + d.toNat)), some rest) := by
  have ha := a.isLt
  have hb := b.isLt
  have hc := c.isLt
  have hd := d.isLt
  have e2 : beNat [a, b] = a.toNat * 256 + b.toNat := by simp [beNat]
  have e3 : beNat [a, b, c] = (a.toNat * 256 + b.toNat) * 256 + c.toNat := by simp [beNat]
  have e4 : beNat [a, b, c, d] = ((a.toNat * 256 + b.toNat) * 256 + c.toNat) * 256 + d.toNat := by simp [beNat]
  obtain ⟨w1, w2, w3, w4⟩ := C17_written
  rw [← e4, ← e3, ← e2]
  refine ⟨reads_of_roundTrips (C17_uint8 a) (w1 a) rest, ?_, ?_, ?_⟩
  · have h := reads_of_roundTrips (C17_uint16 (BitVec.ofNat 16 (beNat [a, b]))) (w2 _) rest
    rwa [BitVec.toNat_ofNat, Nat.mod_eq_of_lt (by rw [e2]; omega), toBE_beNat' (bs := [a, b]) (k := 2) rfl] at h
  · have h := reads_of_roundTrips (C17_uint24 (BitVec.ofNat 32 (beNat [a, b, c]))) (w3 _) rest
    rw [BitVec.toNat_ofNat, Nat.mod_eq_of_lt (by rw [e3]; omega), toBE_beNat' (bs := [a, b, c]) (k := 3) rfl] at h
    have hm : BitVec.ofNat 32 (beNat [a, b, c]) &&& 0xffffff = BitVec.ofNat 32 (beNat [a, b, c]) := by
      apply BitVec.eq_of_toNat_eq
      rw [BitVec.toNat_and, BitVec.toNat_ofNat, Nat.mod_eq_of_lt (by rw [e3]; omega),
        show (0xffffff : Word).toNat = 2 ^ 24 - 1 from rfl, Nat.and_two_pow_sub_one_eq_mod, Nat.mod_eq_of_lt (by rw [e3]; omega)]
    rwa [hm] at h
  · have h := reads_of_roundTrips (C17_uint32 (BitVec.ofNat 32 (beNat [a, b, c, d]))) (w4 _) rest
    rwa [BitVec.toNat_ofNat, Nat.mod_eq_of_lt (by rw [e4]; omega), toBE_beNat' (bs := [a, b, c, d]) (k := 4) rfl] at h

/-- C17: strings that are too short are refused and left as they are. -/
theorem C17_short (s : Bytes) : (s.length < 1 → readUint8 (some s) = .ok (none, some s)) ∧
    (s.length < 2 → readUint16 (some s) = .ok (none, some s)) ∧ (s.length < 3 → readUint24 (some s) = .ok (none, some s)) ∧
    (s.length < 4 → readUint32 (some s) = .ok (none, some s)) := by
  refine ⟨fun h => ?_, fun h => ?_, fun h => ?_, fun h => ?_⟩
  · have := read_short (s := some s) (n := 1) h
    unfold readUint8
    rw [show (1 : Int) = (1 : Nat) from rfl, this]; rfl
  · have := read_short (s := some s) (n := 2) h
    unfold readUint16
    rw [show (2 : Int) = (2 : Nat) from rfl, this]; rfl
  · have := read_short (s := some s) (n := 3) h
    unfold readUint24
    rw [show (3 : Int) = (3 : Nat) from rfl, this]; rfl
  · have := read_short (s := some s) (n := 4) h
    unfold readUint32
    rw [show (4 : Int) = (4 : Nat) from rfl, this]; rfl

/-- C17 for `Skip`, `ReadBytes` and `CopyBytes`: the first `n` bytes, or nothing. -/
theorem C17_first (n : ℕ) (s : Bytes) :
    skip n (some s) = .ok (if n ≤ s.length then (some (), some (s.drop n)) else (none, some s)) ∧
    readBytes n (some s) = .ok (if n ≤ s.length then (some (some (s.take n)), some (s.drop n)) else (none, some s)) ∧
    copyBytes n (some s) = .ok (if n ≤ s.length then (some (s.take n), some (s.drop n)) else (none, some s)) := by
  by_cases h : n ≤ s.length
  · have hr := read_some h
    rw [if_pos h, if_pos h, if_pos h]
    refine ⟨?_, ?_, ?_⟩
    · unfold skip; rw [hr]; rfl
    · unfold readBytes; rw [hr]; rfl
    · unfold copyBytes
      rw [hr, Res.ok_bind]
      dsimp only
      rw [if_pos (by rw [List.length_take]; omega), List.take_take, Nat.min_self]
  · have hr := read_short (s := some s) (n := n) (Nat.not_le.1 h)
    rw [if_neg h, if_neg h, if_neg h]
    refine ⟨?_, ?_, ?_⟩
    · unfold skip; rw [hr]; rfl
    · unfold readBytes; rw [hr]; rfl
    · unfold copyBytes; rw [hr]; rfl

/-! ## Cases -/

example : run (fun _ _ _ => 3) exHeap exBuf (addUint32 0x01020304 (addUint16 0xabcd .nil)) = .ok [1, 2, 3, 4, 0xab, 0xcd] ∧
    readUint32 (some [1, 2, 3, 4, 0xab]) = .ok (some 0x01020304, some [0xab]) ∧ readUint16 (some [0xab]) = .ok (none, some [0xab]) ∧
    skip 2 (some [1, 2, 3]) = .ok (some (), some [3]) ∧ copyBytes 4 (some [1, 2, 3]) = .ok (none, some [1, 2, 3]) := by decide
end Verif.Props
