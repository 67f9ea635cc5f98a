import Verif.Props.Sm2Sign
import Verif.Props.Sm2CipherForm
/-!
# C158: how long signatures and ciphertexts are
-/
namespace Verif.Props
open EC Verif.Sm2
open Verif.Spec.SM2 (coords fe)
open Verif.Spec.DER (elem IsInt InRange)

attribute [local irreducible] Spec.SM2.fe Spec.SM3.hash

/-- The contents octets of a positive INTEGER: its bits and a sign bit, in octets. -/
theorem isInt_octets {r : ℕ} (hr : r ≠ 0) {c : Bytes} (h : IsInt (r : Int) c) : c.length = (r.log2 + 1) / 8 + 1 := by
  obtain ⟨h1, h2, h3⟩ := CB.isInt_inRange h
  have pw : ∀ k, (128 * 256 ^ k : ℕ) = 2 ^ (8 * k + 7) := by
    intro k
    rw [pow_add, pow_mul, mul_comm, show (2 : ℕ) ^ 8 = 256 from rfl, show (2 : ℕ) ^ 7 = 128 from rfl]
  have lt_iff : ∀ k, InRange (r : Int) k ↔ r.log2 < 8 * k + 7 := by
    intro k
    rw [Nat.log2_lt hr, ← pw]
    unfold InRange
    constructor
    · intro hk
      exact_mod_cast hk.2
    · intro hk
      refine ⟨?_, by exact_mod_cast hk⟩
      have : (0 : Int) ≤ 128 * 256 ^ k := by positivity
      omega
  rw [lt_iff] at h2 h3
  omega

theorem elem_short {t : Byte} {c : Bytes} (h : c.length < 128) : (elem t c).length = c.length + 2 := by
  rw [CB.length_elem, CB.length_lenOctets, if_pos h]
  omega

/-- C158 for signatures: the length of what `Sign` returns is fixed by the numbers of bits of its two components, and is between 8 and
72 octets. -/
theorem C158_signature (D : Int) (id : Option Bytes) (M : Bytes) (tape : Tape) (sig : Bytes) (h : sign ⟨D⟩ id M tape = .ok sig) :
    (∃ r s : ℕ, unmarshalSign sig = .ok ((r : Int), (s : Int)) ∧ sig.length = 8 + (r.log2 + 1) / 8 + (s.log2 + 1) / 8) ∧
      8 ≤ sig.length ∧ sig.length ≤ 72 := by
  unfold sign at h
  rw [Res.bind_eq_ok] at h
  obtain ⟨⟨r, s⟩, h1, h2⟩ := h
  obtain ⟨hr1, hr2, hs1, hs2, -⟩ := C37_range D id M tape r s h1
  obtain ⟨r, rfl⟩ := Int.eq_ofNat_of_zero_le (show 0 ≤ r by omega)
  obtain ⟨s, rfl⟩ := Int.eq_ofNat_of_zero_le (show 0 ≤ s by omega)
  have hn := n_lt
  have hr : r < 2 ^ 256 := by omega
  have hs : s < 2 ^ 256 := by omega
  have br : r.log2 < 256 := (Nat.log2_lt (by omega)).2 hr
  have bs : s.log2 < 256 := (Nat.log2_lt (by omega)).2 hs
  obtain ⟨cr, cs, i1, i2, -, -, -, e⟩ := marshalSign_eq (inRange_fe hr) (inRange_fe hs) (by norm_num)
  obtain ⟨sig', e1, e2⟩ := C38_round_trip r s 32 32 (inRange_fe hr) (inRange_fe hs) (by norm_num)
  have h2 : marshalSign r s = .ok sig := h2
  have l1 := isInt_octets (by omega) i1
  have l2 := isInt_octets (by omega) i2
  rw [h2] at e e1
  cases e1
  have hl : sig.length = 8 + (r.log2 + 1) / 8 + (s.log2 + 1) / 8 := by
    rw [Res.ok.inj e, elem_short, List.length_append, elem_short (by omega), elem_short (by omega)]
    · omega
    · rw [List.length_append, elem_short (by omega), elem_short (by omega)]
      omega
  exact ⟨⟨r, s, e2, hl⟩, by omega, by omega⟩

/-- C158 for ciphertexts: 97 octets more than the message, whatever the layout. The DER form made from it is never more than 116 and
never less than 44 octets longer than the message. -/
theorem C158_ciphertext (d : ℕ) (pub : PublicKey) (hpub : calculatePubKey ⟨d⟩ = .ok pub) (M : Bytes) (t : Int) (tape : Tape)
    (c : Bytes) (h : encrypt pub M t tape = .ok c) (hM : M.length < 2 ^ 31 - 128) :
    c.length = M.length + 97 ∧ ∃ der, marshalCipher c t = .ok der ∧ M.length + 44 ≤ der.length ∧ der.length ≤ M.length + 116 := by
  obtain ⟨h1, h2⟩ := C42_round_trip d pub hpub M t tape c h
  obtain ⟨Q, x, y, c2, c3, g1, g2, _, _, g5⟩ := (C45_exact d c M t (by omega)).1 h1
  obtain ⟨_, hx, hy⟩ := coords_some g1
  have hx := lt_trans hx p_lt
  have hy := lt_trans hy p_lt
  obtain ⟨ht, g⟩ := layout_arrange.1 g2
  have h3 : c3.length = 32 := by rw [g5, hash_length]
  have hl : c2.length + 97 = c.length := by
    rw [g, List.length_append, length_arrange, h3]
    simp [length_fe]
    omega
  refine ⟨by omega, _, g ▸ marshalCipher_form hx hy 4 ht h3 (by omega), ?_⟩
  have lx := Der.makeBigInt_length (inRange_fe hx)
  have ly := Der.makeBigInt_length (inRange_fe hy)
  have px := (CB.isInt_inRange (Der.makeBigInt_isInt (x : Int))).1
  have py := (CB.isInt_inRange (Der.makeBigInt_isInt (y : Int))).1
  have b1 := elem_short (t := 0x02) (c := Der.makeBigInt (x : Int)) (by omega)
  have b2 := elem_short (t := 0x02) (c := Der.makeBigInt (y : Int)) (by omega)
  have b3 := elem_short (t := 0x04) (c := c3) (by omega)
  have b4 := Der.elem_length_le (t := 0x04) (c := c2) (by omega)
  have b4' : c2.length + 2 ≤ (elem 0x04 c2).length := by
    rw [CB.length_elem, CB.length_lenOctets]
    split <;> omega
  generalize hb : elem 0x02 (Der.makeBigInt (x : Int)) ++ elem 0x02 (Der.makeBigInt (y : Int)) ++ elem 0x04 (if t = C1C2C3 then c2 else c3) ++
    elem 0x04 (if t = C1C2C3 then c3 else c2) = body
  have hbl : body.length = (elem 0x02 (Der.makeBigInt (x : Int))).length + (elem 0x02 (Der.makeBigInt (y : Int))).length +
      (elem 0x04 c2).length + (elem 0x04 c3).length := by
    rw [← hb]
    simp only [List.length_append]
    split <;> omega
  have b5 := Der.elem_length_le (t := 0x30) (c := body) (by omega)
  have b5' : body.length + 2 ≤ (elem 0x30 body).length := by
    rw [CB.length_elem, CB.length_lenOctets]
    split <;> omega
  omega

/-! ## Cases -/

/-- The shortest and the longest signature, and one with a component of 255 bits. -/
example : (marshalSign 1 1).bind (fun x => .ok x.length) = .ok 8 ∧
    (marshalSign (cv.N - 1) (cv.N - 1)).bind (fun x => .ok x.length) = .ok 72 ∧
    (marshalSign (2 ^ 255 - 1) (cv.N - 1)).bind (fun x => .ok x.length) = .ok 71 := by decide +kernel
example : 8 + (Nat.log2 (2 ^ 255 - 1) + 1) / 8 + (Nat.log2 (2 ^ 256 - 2 ^ 224 - 1) + 1) / 8 = 71 := by decide +kernel
end Verif.Props
