import Verif.CB.Str
/-! Lemmas about the model of string.go. -/
namespace Verif.CB

@[simp] theorem bytes_some (bs : Bytes) : Str.bytes (some bs) = bs := rfl
@[simp] theorem bytes_none : Str.bytes none = [] := rfl
@[simp] theorem len_some (bs : Bytes) : Str.len (some bs) = bs.length := rfl
@[simp] theorem len_none : Str.len none = 0 := rfl

theorem slice_some {bs : Bytes} {a b : Nat} (h1 : a ≤ b) (h2 : b ≤ bs.length) :
    Str.slice (some bs) (a : Int) (b : Int) = .ok (some ((bs.take b).drop a)) := by
  unfold Str.slice
  rw [if_pos ⟨by omega, by omega, by simp; omega⟩]
  simp

theorem at_some {bs : Bytes} {i : Nat} (h : i < bs.length) : Str.at (some bs) i = .ok bs[i] := by
  simp [Str.at, h]

theorem read_some {bs : Bytes} {n : Nat} (h : n ≤ bs.length) :
    read (n : Int) (some bs) = .ok (some (bs.take n), some (bs.drop n)) := by
  unfold read
  rw [if_neg (by simp; omega)]
  have h1 := slice_some (bs := bs) (Nat.zero_le n) h
  have h2 := slice_some (bs := bs) h (Nat.le_refl _)
  simp only [len_some]
  simp only [Int.ofNat_zero] at h1
  rw [h1, h2]
  simp

theorem read_short {s : Str} {n : Nat} (h : s.len < n) : read (n : Int) s = .ok (none, s) := by
  unfold read
  rw [if_pos (by omega)]

theorem read_nil_zero : read 0 none = .ok (none, none) := by
  simp [read, Str.slice]

theorem read_none (n : Nat) : read (n : Int) none = .ok (none, none) := by
  cases n with
  | zero => exact read_nil_zero
  | succ n => exact read_short (by simp)

/-- `x<<8 | b` adds a low byte. -/
theorem shl_or_byte {w : Nat} (x : BitVec w) (b : Byte) :
    x <<< 8 ||| b.setWidth w = BitVec.ofNat w (x.toNat * 256 + b.toNat) := by
  have h0 : x <<< 8 &&& b.setWidth w = 0#w := by
    ext i hi
    simp only [BitVec.getElem_and, BitVec.getElem_shiftLeft, BitVec.getElem_zero, BitVec.getElem_setWidth]
    by_cases h : i < 8
    · simp [h]
    · simp [BitVec.getLsbD_of_ge b i (by omega)]
  rw [← BitVec.add_eq_or_of_and_eq_zero _ _ h0]
  apply BitVec.eq_of_toNat_eq
  simp only [BitVec.toNat_add, BitVec.toNat_shiftLeft, BitVec.toNat_setWidth, BitVec.toNat_ofNat, Nat.shiftLeft_eq]
  rw [Nat.add_mod (x.toNat * 256)]

/-- The usual big-endian accumulation loop. -/
theorem foldl_shl {w : Nat} (bs : Bytes) (x : BitVec w) :
    bs.foldl (fun (l : BitVec w) b => l <<< 8 ||| b.setWidth w) x
      = BitVec.ofNat w (x.toNat * 256 ^ bs.length + beNat bs) := by
  induction bs generalizing x with
  | nil => simp [beNat_nil]
  | cons b bs ih =>
    rw [List.foldl_cons, ih, shl_or_byte, beNat_cons]
    apply BitVec.eq_of_toNat_eq
    simp only [BitVec.toNat_ofNat, List.length_cons]
    rw [Nat.add_mod, Nat.mod_mul_mod, ← Nat.add_mod, Nat.pow_succ]
    congr 1
    rw [Nat.add_mul, Nat.mul_assoc, Nat.mul_comm 256, Nat.add_assoc]

theorem foldl_shl_zero {w : Nat} (bs : Bytes) :
    bs.foldl (fun (l : BitVec w) b => l <<< 8 ||| b.setWidth w) 0 = BitVec.ofNat w (beNat bs) := by
  rw [foldl_shl]; simp

theorem unsignedLoop_eq (bs : Bytes) (k : Nat) : ∀ (i : Nat) (x : Word), i + k ≤ bs.length →
    unsignedLoop (some bs) k i x
      = .ok (((bs.drop i).take k).foldl (fun (l : Word) b => l <<< 8 ||| b.setWidth 32) x) := by
  induction k with
  | zero => intro i x _; simp [unsignedLoop]
  | succ k ih =>
    intro i x h
    have hi : i < bs.length := by omega
    rw [unsignedLoop, at_some hi, Res.ok_bind, ih (i + 1) _ (by omega), List.drop_eq_getElem_cons hi,
      List.take_succ_cons, List.foldl_cons]

theorem readUnsigned_ok {bs : Bytes} {k : Nat} (h : k ≤ bs.length) :
    readUnsigned k (some bs) = .ok (some (BitVec.ofNat 32 (beNat (bs.take k))), some (bs.drop k)) := by
  unfold readUnsigned
  rw [read_some h]
  simp only [Res.ok_bind]
  rw [unsignedLoop_eq (bs.take k) k 0 0 (by simp; omega), foldl_shl_zero]
  simp [List.take_take]

theorem readBytes_ok {bs : Bytes} {n : Nat} (h : n ≤ bs.length) :
    readBytes (n : Int) (some bs) = .ok (some (some (bs.take n)), some (bs.drop n)) := by
  unfold readBytes; rw [read_some h]; rfl

theorem readBytes_short {s : Str} {n : Nat} (h : s.len < n) : readBytes (n : Int) s = .ok (none, s) := by
  unfold readBytes; rw [read_short h]; rfl

theorem skip_ok {bs : Bytes} {n : Nat} (h : n ≤ bs.length) :
    skip (n : Int) (some bs) = .ok (some (), some (bs.drop n)) := by
  unfold skip; rw [read_some h]; rfl

theorem readLengthPrefixed_eq {k : Nat} {bs : Bytes} (h : k ≤ bs.length) (hk : k ≤ 4) :
    readLengthPrefixed k (some bs) =
      if beNat (bs.take k) ≤ bs.length - k then
        .ok (some (some ((bs.drop k).take (beNat (bs.take k)))), some ((bs.drop k).drop (beNat (bs.take k))))
      else .ok (none, some (bs.drop k)) := by
  unfold readLengthPrefixed
  rw [read_some h]
  simp only [Res.ok_bind]
  rw [foldl_shl_zero]
  have hlt : beNat (bs.take k) < 2 ^ 32 := by
    have h1 := beNat_lt (bs.take k)
    have h2 : 256 ^ (bs.take k).length ≤ 256 ^ 4 := Nat.pow_le_pow_right (by omega) (by simp; omega)
    omega
  have hn : (BitVec.ofNat 32 (beNat (bs.take k))).toNat = beNat (bs.take k) := by
    rw [BitVec.toNat_ofNat, Nat.mod_eq_of_lt hlt]
  rw [hn]
  split
  · rename_i hle
    rw [read_some (by simp; omega)]; rfl
  · rename_i hle
    rw [read_short (by simp; omega)]; rfl

end Verif.CB
