import Verif.Der.TypeLemmas
import Verif.CB.OidLemmas
/-!
# Object identifiers with Go's `int` components

`makeObjectIdentifier` of encoding/asn1 (marshal.go, Go 1.12) on 64-bit integers; `tyOID` has natural numbers instead. The septet
writer `appendBase128Int` is the same text as `addBase128Int` of cryptobyte, whose transcription (`CB/Add.lean`) is used.
-/
namespace Verif.Der
open Verif

/-- `makeObjectIdentifier` and `oidEncoder` (encoding/asn1 marshal.go); `oid[0]*40+oid[1]` wraps, comparisons are signed. -/
def makeOidInt : List (BitVec 64) → Res Bytes
  | a :: b :: tl =>
    if a.toInt > 2 ∨ (a.toInt < 2 ∧ b.toInt ≥ 40) then .err "invalid object identifier"
    else .ok (CB.addBase128Int (a * 40 + b) ++ tl.flatMap CB.addBase128Int)
  | _ => .err "invalid object identifier"

theorem base128Len_int (fuel : Nat) : ∀ (i : Nat) (l : Nat), CB.base128Len fuel (i : Int) l = l + base128Len fuel i := by
  induction fuel with
  | zero => intro i l; rfl
  | succ fuel ih =>
    intro i l
    unfold CB.base128Len base128Len
    by_cases h : i > 0
    · rw [if_pos h, if_pos (by omega), show ((i : Int) >>> 7) = ((i >>> 7 : Nat) : Int) from rfl, ih]
      omega
    · rw [if_neg h, if_neg (by omega)]; rfl

theorem base128Len_fuel {i : Nat} (h : i < 2 ^ 63) : base128Len 10 i = base128Len 9 i := by
  have key : ∀ (f i : Nat), i < 128 ^ f → base128Len (f + 1) i = base128Len f i := by
    intro f
    induction f with
    | zero => intro i h; have : i = 0 := by simpa using h
              subst this; rfl
    | succ f ih =>
      intro i h
      rw [base128Len]
      conv_rhs => rw [base128Len]
      rw [Nat.shiftRight_eq_div_pow]
      rw [ih (i / 2 ^ 7) (by rw [Nat.pow_succ] at h; exact Nat.div_lt_of_lt_mul (by omega))]
  exact key 9 i (by omega)

theorem base128Bytes_int (n : BitVec 64) (hn : n.toNat < 2 ^ 63) : ∀ L, CB.base128Bytes n L = base128Bytes n.toNat L := by
  intro L
  induction L with
  | zero => rfl
  | succ i ih =>
    unfold CB.base128Bytes base128Bytes
    rw [ih]
    have hm : n.msb = false := by rw [BitVec.msb_eq_false_iff_two_mul_lt]; omega
    have e : (n.sshiftRight (i * 7)).setWidth 8 = BitVec.ofNat 8 (n.toNat >>> (i * 7)) := by
      rw [BitVec.sshiftRight_eq_of_msb_false hm]
      apply BitVec.eq_of_toNat_eq
      simp
    rw [e]
    dsimp only
    congr 1
    split <;> simp

/-- On non-negative numbers both writers agree. -/
theorem addBase128Int_nat (n : BitVec 64) (hn : n.toNat < 2 ^ 63) : CB.addBase128Int n = makeBase128 n.toNat := by
  unfold CB.addBase128Int makeBase128
  have h0 : n = 0 ↔ n.toNat = 0 := by
    constructor
    · rintro rfl; rfl
    · intro h; exact BitVec.eq_of_toNat_eq (by simpa using h)
  have hi : n.toInt = (n.toNat : Int) := by rw [BitVec.toInt_eq_toNat_cond, if_pos (by omega)]
  rw [base128Bytes_int n hn, hi, base128Len_int, base128Len_fuel hn]
  simp only [h0, Nat.zero_add]

/-- A negative number is written as nothing. -/
theorem addBase128Int_neg (n : BitVec 64) (hn : n.toInt < 0) : CB.addBase128Int n = [] := by
  unfold CB.addBase128Int
  have h0 : n ≠ 0 := by rintro rfl; simp at hn
  rw [if_neg h0, show CB.base128Len 10 n.toInt 0 = 0 by unfold CB.base128Len; rw [if_neg (by omega)]]
  rfl

end Verif.Der
