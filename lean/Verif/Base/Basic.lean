/-!
# Base definitions shared by all models

Bytes are `BitVec 8`, 32-bit words `BitVec 32`. A Go call has one of four outcomes (`Res`).
-/
namespace Verif

/-- Go `byte`. -/
abbrev Byte := BitVec 8
/-- The contents of a Go `[]byte`. -/
abbrev Bytes := List Byte
/-- Go `uint32`. -/
abbrev Word := BitVec 32

/-- Outcome of a Go call.
* `ok a`   – returned `a` with a nil error;
* `err m`  – returned a non-nil `error` (the text is informative only);
* `panic`  – a run-time or explicit panic left the call;
* `loop`   – the call was still in its retry loop when the finite random tape supplied to the
  model was used up (only functions that draw random numbers can have this outcome). -/
inductive Res (α : Type) where
  | ok (a : α)
  | err (msg : String)
  | panic
  | loop
  deriving Repr, DecidableEq

namespace Res
variable {α β γ : Type}

/-- Sequencing: the first outcome that is not `ok` ends the computation. -/
@[inline] def bind : Res α → (α → Res β) → Res β
  | ok a, f => f a
  | err m, _ => err m
  | panic, _ => panic
  | loop, _ => loop

instance : Monad Res where
  pure := ok
  bind := bind

@[simp] theorem pure_eq (a : α) : (pure a : Res α) = ok a := rfl
@[simp] theorem ok_bind (a : α) (f : α → Res β) : (ok a >>= f) = f a := rfl
@[simp] theorem err_bind (m : String) (f : α → Res β) : (err m >>= f) = err m := rfl
@[simp] theorem panic_bind (f : α → Res β) : ((panic : Res α) >>= f) = panic := rfl
@[simp] theorem loop_bind (f : α → Res β) : ((loop : Res α) >>= f) = loop := rfl

instance : LawfulMonad Res := LawfulMonad.mk'
  (id_map := by intro _ x; cases x <;> rfl)
  (pure_bind := by intros; rfl)
  (bind_assoc := by intro _ _ _ x f g; cases x <;> rfl)

/-- The call came back to its caller normally, with or without an error value. -/
def returned : Res α → Bool
  | ok _ => true
  | err _ => true
  | _ => false

theorem bind_eq_ok {x : Res α} {f : α → Res β} {b : β} :
    (x >>= f) = ok b ↔ ∃ a, x = ok a ∧ f a = ok b := by
  cases x <;> simp

end Res

/-! ## Big-endian numbers -/

/-- `new(big.Int).SetBytes(bs)`: big-endian unsigned value (Go math/big). -/
def beNat (bs : Bytes) : Nat := bs.foldl (fun a b => a * 256 + b.toNat) 0

/-- The `len` low-order bytes of `n`, most significant first. -/
def toBE : Nat → Nat → Bytes
  | 0, _ => []
  | len + 1, n => toBE len (n / 256) ++ [BitVec.ofNat 8 n]

/-- Number of bytes of the minimal big-endian form of `n` (0 for 0). -/
def byteLen (n : Nat) : Nat := if n = 0 then 0 else n.log2 / 8 + 1

/-- `n.Bytes()` of a non-negative `big.Int`: minimal big-endian bytes, empty for 0 (Go math/big). -/
def natBytes (n : Nat) : Bytes := toBE (byteLen n) n

/-- `binary.BigEndian.Uint32` on a 4-byte slice (Go encoding/binary). -/
def be32 (bs : Bytes) : Word := BitVec.ofNat 32 (beNat bs)

/-- `binary.BigEndian.PutUint32` (Go encoding/binary): the 4 bytes stored. -/
def put32 (w : Word) : Bytes := toBE 4 w.toNat

/-- `bits.RotateLeft32(x, k)` for `0 ≤ k < 32` (Go math/bits). -/
def rotl (x : Word) (k : Nat) : Word := x.rotateLeft k

theorem beNat_nil : beNat [] = 0 := rfl

theorem foldl_be (bs : Bytes) (a : Nat) :
    bs.foldl (fun a b => a * 256 + b.toNat) a = a * 256 ^ bs.length + beNat bs := by
  induction bs generalizing a with
  | nil => simp [beNat]
  | cons b bs ih =>
    simp only [List.foldl_cons, List.length_cons]
    rw [ih]
    have h0 : beNat (b :: bs) = (0 * 256 + b.toNat) * 256 ^ bs.length + beNat bs := by
      rw [← ih]; rfl
    rw [h0, Nat.pow_succ, Nat.add_mul, Nat.zero_mul, Nat.zero_add, Nat.mul_assoc, Nat.mul_comm (256 ^ _) 256]
    omega

theorem beNat_cons (b : Byte) (bs : Bytes) : beNat (b :: bs) = b.toNat * 256 ^ bs.length + beNat bs := by
  show List.foldl _ _ _ = _
  rw [List.foldl_cons, foldl_be]; simp

theorem beNat_append (xs ys : Bytes) : beNat (xs ++ ys) = beNat xs * 256 ^ ys.length + beNat ys := by
  rw [beNat, List.foldl_append, foldl_be]; rfl

theorem beNat_snoc (xs : Bytes) (b : Byte) : beNat (xs ++ [b]) = beNat xs * 256 + b.toNat := by
  simp [beNat]

theorem beNat_lt (bs : Bytes) : beNat bs < 256 ^ bs.length := by
  induction bs with
  | nil => simp [beNat]
  | cons b bs ih =>
    rw [beNat_cons, List.length_cons, Nat.pow_succ]
    have hb := b.isLt
    calc b.toNat * 256 ^ bs.length + beNat bs
        < b.toNat * 256 ^ bs.length + 256 ^ bs.length := by omega
      _ = (b.toNat + 1) * 256 ^ bs.length := by rw [Nat.add_mul]; omega
      _ ≤ 256 * 256 ^ bs.length := Nat.mul_le_mul_right _ (by omega)
      _ = _ := Nat.mul_comm _ _

@[simp] theorem length_toBE (len n : Nat) : (toBE len n).length = len := by
  induction len generalizing n with
  | zero => rfl
  | succ k ih => simp [toBE, ih]

theorem beNat_toBE (len n : Nat) : beNat (toBE len n) = n % 256 ^ len := by
  induction len generalizing n with
  | zero => simp [toBE, beNat, Nat.mod_one]
  | succ k ih =>
    have h : n % 256 ^ (k + 1) = n % 256 + 256 * (n / 256 % 256 ^ k) := by
      rw [Nat.pow_succ, Nat.mul_comm (256 ^ k) 256, Nat.mod_mul]
    rw [toBE, beNat_snoc, ih, BitVec.toNat_ofNat, h]
    omega

theorem beNat_toBE_of_lt {len n : Nat} (h : n < 256 ^ len) : beNat (toBE len n) = n := by
  rw [beNat_toBE, Nat.mod_eq_of_lt h]

theorem toBE_beNat (bs : Bytes) : toBE bs.length (beNat bs) = bs := by
  induction h : bs.length generalizing bs with
  | zero => simp_all [toBE]
  | succ k ih =>
    have hne : bs ≠ [] := by intro hh; simp [hh] at h
    rw [← List.dropLast_concat_getLast hne] at h ⊢
    simp only [List.length_append, List.length_singleton, Nat.add_right_cancel_iff] at h
    rw [beNat_snoc, toBE]
    have hb := (bs.getLast hne).isLt
    rw [show (beNat bs.dropLast * 256 + (bs.getLast hne).toNat) / 256 = beNat bs.dropLast by omega, ih _ h]
    congr 1
    simp only [List.cons.injEq, and_true]
    apply BitVec.eq_of_toNat_eq
    rw [BitVec.toNat_ofNat]
    omega

theorem toBE_beNat' {bs : Bytes} {k : Nat} (h : bs.length = k) : toBE k (beNat bs) = bs := by
  subst h; exact toBE_beNat bs

theorem beNat_inj {xs ys : Bytes} (hl : xs.length = ys.length) (h : beNat xs = beNat ys) : xs = ys := by
  rw [← toBE_beNat xs, ← toBE_beNat ys, hl, h]

theorem toBE_inj {len m n : Nat} (hm : m < 256 ^ len) (hn : n < 256 ^ len) (h : toBE len m = toBE len n) : m = n := by
  rw [← beNat_toBE_of_lt hm, h, beNat_toBE_of_lt hn]

theorem lt_pow_byteLen (n : Nat) : n < 256 ^ byteLen n := by
  unfold byteLen
  split
  · simp_all
  · rename_i h
    have h1 := @Nat.lt_log2_self n
    have h2 : (256 : Nat) = 2 ^ 8 := rfl
    rw [h2, ← Nat.pow_mul]
    exact Nat.lt_of_lt_of_le h1 (Nat.pow_le_pow_right (by omega) (by omega))

theorem pow_byteLen_le {n : Nat} (h : n ≠ 0) : 256 ^ (byteLen n - 1) ≤ n := by
  unfold byteLen
  rw [if_neg h, Nat.add_sub_cancel, show (256 : Nat) = 2 ^ 8 from rfl, ← Nat.pow_mul]
  exact Nat.le_trans (Nat.pow_le_pow_right (by omega) (Nat.mul_div_le _ _)) (Nat.log2_self_le h)

theorem byteLen_zero : byteLen 0 = 0 := rfl

theorem byteLen_pos {n : Nat} (h : n ≠ 0) : 0 < byteLen n := by
  unfold byteLen; rw [if_neg h]; omega

theorem byteLen_le_iff (n k : Nat) : byteLen n ≤ k ↔ n < 256 ^ k := by
  constructor
  · intro h
    exact Nat.lt_of_lt_of_le (lt_pow_byteLen n) (Nat.pow_le_pow_right (by omega) h)
  · intro h
    by_cases hn : n = 0
    · subst hn; simp [byteLen]
    · have h1 := pow_byteLen_le hn
      have h2 := byteLen_pos hn
      have : 256 ^ (byteLen n - 1) < 256 ^ k := Nat.lt_of_le_of_lt h1 h
      have := (Nat.pow_lt_pow_iff_right (a := 256) (by omega)).1 this
      omega

@[simp] theorem length_natBytes (n : Nat) : (natBytes n).length = byteLen n := by simp [natBytes]

@[simp] theorem beNat_natBytes (n : Nat) : beNat (natBytes n) = n := by
  rw [natBytes, beNat_toBE, Nat.mod_eq_of_lt (lt_pow_byteLen n)]

theorem natBytes_zero : natBytes 0 = [] := rfl

theorem natBytes_inj {m n : Nat} (h : natBytes m = natBytes n) : m = n := by
  rw [← beNat_natBytes m, h, beNat_natBytes]

theorem natBytes_eq_nil {n : Nat} : natBytes n = [] ↔ n = 0 := by
  constructor
  · intro h; rw [← beNat_natBytes n, h]; rfl
  · rintro rfl; rfl

theorem toBE_zero (k : Nat) : toBE k 0 = List.replicate k 0#8 := by
  induction k with
  | zero => rfl
  | succ k ih => rw [toBE, Nat.zero_div, ih, List.replicate_succ']

theorem toBE_add (j k n : Nat) : toBE (j + k) n = toBE j (n / 256 ^ k) ++ toBE k n := by
  induction k generalizing n with
  | zero => simp [toBE]
  | succ k ih =>
    rw [← Nat.add_assoc, toBE, ih, toBE, List.append_assoc, Nat.div_div_eq_div_mul, Nat.pow_succ,
      Nat.mul_comm (256 ^ k) 256]

theorem beNat_replicate_zero (k : Nat) (bs : Bytes) : beNat (List.replicate k 0#8 ++ bs) = beNat bs := by
  rw [beNat_append, ← toBE_zero, beNat_toBE]; simp

/-- Left-padding the minimal form with zeros gives the fixed-width form. -/
theorem pad_natBytes {k n : Nat} (h : n < 256 ^ k) :
    List.replicate (k - byteLen n) 0#8 ++ natBytes n = toBE k n := by
  have hk := (byteLen_le_iff n k).2 h
  apply beNat_inj
  · simp; omega
  · rw [beNat_replicate_zero, beNat_natBytes, beNat_toBE_of_lt h]

@[simp] theorem length_put32 (w : Word) : (put32 w).length = 4 := by simp [put32]

@[simp] theorem be32_put32 (w : Word) : be32 (put32 w) = w := by
  unfold be32 put32
  rw [beNat_toBE_of_lt (by have := w.isLt; omega)]
  simp

theorem put32_be32 {bs : Bytes} (h : bs.length = 4) : put32 (be32 bs) = bs := by
  unfold be32 put32
  have hlt := beNat_lt bs
  rw [h] at hlt
  rw [BitVec.toNat_ofNat, Nat.mod_eq_of_lt (by omega), toBE_beNat' h]

theorem put32_inj {a b : Word} (h : put32 a = put32 b) : a = b := by
  rw [← be32_put32 a, h, be32_put32]

end Verif
