import Verif.Props.CryptobyteRoundTrip
import Verif.Props.CertOid
import Verif.Props.Sm2Cipher
/-!
# C155: the two writers of DER agree

`encoding/asn1` writes signatures and ciphertexts; `cryptobyte.Builder` is the library's own writer. For the same values both write
the same octets, except that the builder panics at -1 and refuses object identifiers with negative components.
-/
namespace Verif.Props
open Verif Verif.Der Verif.CB Verif.Spec.DER Verif.Spec.Builder
open Verif.Spec.SM2 (fe)

theorem eval_both {p q : Prog} {a b : Bytes} (hp : eval p false [] = .done (some a) []) (hq : eval q false [] = .done (some b) []) :
    eval (p.append q) false [] = .done (some (a ++ b)) [] := by
  rw [eval_append, hp]
  simp only [Den.andThen, hq, Den.prepend, Option.map_some]

theorem eval_item {t : Tag} {body : Prog} {c : Bytes} (hb : eval body false [] = .done (some c) []) (ht : LowTag t) (hl : c.length < 2 ^ 31) :
    eval (.asn1 t body .nil) false [] = .done (some (elem t c)) [] := by
  rw [eval_asn1 hb ht, if_pos (by omega)]

theorem eval_int {n : Int} (hn : n ≠ -1) (hl : (makeBigInt n).length < 2 ^ 31) :
    eval (addASN1BigInt n .nil) false [] = .done (some (marshalInt n)) [] := by
  obtain ⟨c, h1, h2⟩ := eval_bigIntBody hn []
  obtain rfl := isInt_unique (makeBigInt_isInt n) h2
  rw [marshalInt_eq (by omega)]
  exact eval_item h1 lowTag_INTEGER hl

theorem eval_octets {c : Bytes} (hl : c.length < 2 ^ 31) : eval (addASN1OctetString c .nil) false [] = .done (some (marshalOctets c)) [] := by
  have : marshalOctets c = elem 0x04 c := makeElem_eq (by omega)
  rw [this]
  exact eval_item (by simp [eval, Den.prepend]) lowTag_OCTET hl

theorem bigInt_length (n : Int) : (makeBigInt n).length ≤ byteLen n.natAbs + 1 := isInt_byteLen (makeBigInt_isInt n)

theorem length_marshalInt {n : Int} (h : byteLen n.natAbs < 2 ^ 31 - 1) : (marshalInt n).length ≤ byteLen n.natAbs + 7 := by
  have h1 := bigInt_length n
  rw [marshalInt_eq (by omega)]
  have := elem_length_le (t := 0x02) (c := makeBigInt n) (by omega)
  omega

/-- C155 for INTEGER: the builder writes what `asn1.Marshal` does. -/
theorem C155_integer_partial (n : Int) (hn : n ≠ -1) (hl : byteLen n.natAbs < 2 ^ 31 - 1) :
    ∃ e, marshal tyBig n = .ok e ∧ Writes (addASN1BigInt n .nil) e := by
  have := bigInt_length n
  exact ⟨marshalInt n, rfl, writes_of_eval (eval_int hn (by omega))⟩

/-- C155 for OCTET STRING. -/
theorem C155_octets (c : Bytes) (hl : c.length < 2 ^ 31) : ∃ e, marshal tyBytes c = .ok e ∧ Writes (addASN1OctetString c .nil) e :=
  ⟨marshalOctets c, rfl, writes_of_eval (eval_octets hl)⟩

/-- C155 for BIT STRING of whole octets. -/
theorem C155_bits (c : Bytes) (hl : c.length < 2 ^ 31 - 1) :
    ∃ e, marshal tyBits ⟨c, 8 * c.length⟩ = .ok e ∧ Writes (addASN1BitString c .nil) e := by
  refine ⟨elem 0x03 (0 :: c), ?_, writes_of_eval (eval_bitString c (by omega))⟩
  have h : makeBitString ⟨c, 8 * c.length⟩ = 0 :: c := by simp [makeBitString]
  have e : marshal tyBits ⟨c, 8 * c.length⟩ = .ok (makeElem 0 3 false (makeBitString ⟨c, 8 * c.length⟩)) := rfl
  rw [e, h, makeElem_eq (by rw [List.length_cons]; omega)]
  rfl

/-- C155 for BOOLEAN. -/
theorem C155_boolean (v : Bool) : ∃ e, marshal tyBool v = .ok e ∧ Writes (addASN1Boolean v .nil) e := by
  refine ⟨_, ?_, C25_writer_partial v⟩
  cases v <;> decide

/-- C155 for signatures: a SEQUENCE of two INTEGERs made with the builder is what `MarshalSign` makes. -/
theorem C155_signature_partial (r s : Int) (hr : r ≠ -1) (hs : s ≠ -1) (hl : byteLen r.natAbs + byteLen s.natAbs < 2 ^ 31 - 14) :
    ∃ sig, Sm2.marshalSign r s = .ok sig ∧ Writes (.asn1 tagSEQUENCE (addASN1BigInt r (addASN1BigInt s .nil)) .nil) sig := by
  have h1 := bigInt_length r
  have h2 := bigInt_length s
  have l1 := length_marshalInt (n := r) (by omega)
  have l2 := length_marshalInt (n := s) (by omega)
  have hb : (marshalInt r ++ marshalInt s).length < 2 ^ 31 := by rw [List.length_append]; omega
  refine ⟨_, rfl, writes_of_eval ?_⟩
  have e : marshalSequence (marshalInt r ++ marshalInt s) = elem 0x30 (marshalInt r ++ marshalInt s) := makeElem_eq (by omega)
  rw [e]
  exact eval_item (eval_both (eval_int hr (by omega)) (eval_int hs (by omega))) lowTag_SEQ hb

theorem length_marshalOctets {c : Bytes} (h : c.length < 2 ^ 31) : (marshalOctets c).length ≤ c.length + 6 := by
  have e : marshalOctets c = elem 0x04 c := makeElem_eq (by omega)
  rw [e]
  exact elem_length_le h

/-- A SEQUENCE of two INTEGERs and two OCTET STRINGs. -/
theorem eval_four {x y : Int} {a b : Bytes} (hx : x ≠ -1) (hy : y ≠ -1) (lx : byteLen x.natAbs ≤ 32) (ly : byteLen y.natAbs ≤ 32)
    (hl : a.length + b.length < 2 ^ 31 - 100) :
    eval (.asn1 tagSEQUENCE (addASN1BigInt x (addASN1BigInt y (addASN1OctetString a (addASN1OctetString b .nil)))) .nil) false [] =
      .done (some (marshalSequence (marshalInt x ++ (marshalInt y ++ (marshalOctets a ++ marshalOctets b))))) [] := by
  have h1 := bigInt_length x
  have h2 := bigInt_length y
  have l1 := length_marshalInt (n := x) (by omega)
  have l2 := length_marshalInt (n := y) (by omega)
  have l3 := length_marshalOctets (c := a) (by omega)
  have l4 := length_marshalOctets (c := b) (by omega)
  have hb : (marshalInt x ++ (marshalInt y ++ (marshalOctets a ++ marshalOctets b))).length < 2 ^ 31 := by
    simp only [List.length_append]; omega
  have e : marshalSequence (marshalInt x ++ (marshalInt y ++ (marshalOctets a ++ marshalOctets b))) =
    elem 0x30 (marshalInt x ++ (marshalInt y ++ (marshalOctets a ++ marshalOctets b))) := makeElem_eq (by omega)
  rw [e]
  exact eval_item (eval_both (eval_int hx (by omega)) (eval_both (eval_int hy (by omega))
    (eval_both (eval_octets (by omega)) (eval_octets (by omega))))) lowTag_SEQ hb

/-- C155 for ciphertexts: the builder writes what `MarshalCipher` makes, in both orders of the fields. -/
theorem C155_ciphertext (x y : ℕ) (hx : x < 2 ^ 256) (hy : y < 2 ^ 256) (c2 c3 : Bytes) (h3 : c3.length = 32) (h2 : c2.length < 2 ^ 31 - 200) :
    (∃ out, Sm2.marshalCipher (4 :: (fe x ++ fe y) ++ (c2 ++ c3)) 1 = .ok out ∧
      Writes (.asn1 tagSEQUENCE (addASN1BigInt x (addASN1BigInt y (addASN1OctetString c2 (addASN1OctetString c3 .nil)))) .nil) out) ∧
    (∃ out, Sm2.marshalCipher (4 :: (fe x ++ fe y) ++ (c3 ++ c2)) 2 = .ok out ∧
      Writes (.asn1 tagSEQUENCE (addASN1BigInt x (addASN1BigInt y (addASN1OctetString c3 (addASN1OctetString c2 .nil)))) .nil) out) := by
  have key : ∀ {n : ℕ}, n < 2 ^ 256 → byteLen (n : Int).natAbs ≤ 32 := by
    intro n hn
    rw [Int.natAbs_natCast, byteLen_le_iff, show (256 : ℕ) ^ 32 = 2 ^ 256 by decide]
    exact hn
  have neg : ∀ n : ℕ, (n : Int) ≠ -1 := fun n => by omega
  have m1 := marshalCipher_eq hx hy 4 (t := Sm2.C1C2C3) (.inl rfl) (c2 := c2) h3
  have m2 := marshalCipher_eq hx hy 4 (t := Sm2.C1C3C2) (.inr rfl) (c2 := c2) h3
  rw [if_pos rfl, show Sm2.arrange Sm2.C1C2C3 c2 c3 = c2 ++ c3 from if_pos rfl] at m1
  rw [if_neg (by decide), show Sm2.arrange Sm2.C1C3C2 c2 c3 = c3 ++ c2 from if_neg (by decide)] at m2
  have lx := key hx
  have ly := key hy
  clear hx hy
  refine ⟨⟨_, m1, writes_of_eval ?_⟩, ⟨_, m2, writes_of_eval ?_⟩⟩
  · rw [List.append_assoc]
    exact eval_four (neg x) (neg y) lx ly (by omega)
  · rw [List.append_assoc]
    exact eval_four (neg x) (neg y) lx ly (by omega)

/-- C155 for object identifiers: with no negative component both writers accept the same ones and write the same octets, also where
`oid[0]*40+oid[1]` overflows. -/
theorem C155_oid_partial (oid : List (BitVec 64)) (hn : ∀ v ∈ oid, 0 ≤ v.toInt) :
    (∀ c, makeOidInt oid = .ok c → c.length < 2 ^ 31 → Writes (addASN1ObjectIdentifier oid .nil) (elem tagOBJECT_IDENTIFIER c)) ∧
    (∀ m, makeOidInt oid = .err m → Reports (addASN1ObjectIdentifier oid .nil)) := by
  have rep : isValidOID oid = false → Reports (addASN1ObjectIdentifier oid .nil) := fun h => reports_of_eval (by
    simp only [addASN1ObjectIdentifier, eval, Bool.false_eq_true, if_false, lowTag_OID, if_true, eval_oidBody_invalid h, Den.item])
  match oid, hn, rep with
  | [], _, rep => exact ⟨fun c h => by simp [makeOidInt] at h, fun _ _ => rep rfl⟩
  | [_], _, rep => exact ⟨fun c h => by simp [makeOidInt] at h, fun _ _ => rep rfl⟩
  | a :: b :: tl, hn, rep =>
    by_cases hv : a.toInt > 2 ∨ (a.toInt < 2 ∧ b.toInt ≥ 40)
    · have e : makeOidInt (a :: b :: tl) = .err "invalid object identifier" := if_pos hv
      refine ⟨fun c h => ?_, fun _ _ => rep ?_⟩
      · rw [e] at h; cases h
      · show (if a.toInt > 2 ∨ (a.toInt ≤ 1 ∧ b.toInt ≥ 40) then false else (a :: b :: tl).all fun v => !(v.toInt < 0)) = false
        rw [if_pos (by omega)]
    · have e : makeOidInt (a :: b :: tl) = .ok (addBase128Int (a * 40 + b) ++ tl.flatMap addBase128Int) := if_neg hv
      refine ⟨fun c h hl => ?_, fun m h => ?_⟩
      · rw [e] at h
        cases h
        have hval : isValidOID (a :: b :: tl) = true := by
          show (if a.toInt > 2 ∨ (a.toInt ≤ 1 ∧ b.toInt ≥ 40) then false else (a :: b :: tl).all fun v => !(v.toInt < 0)) = true
          rw [if_neg (by omega), List.all_eq_true]
          intro v hm
          have := hn v hm
          simpa using this
        refine writes_of_eval (eval_item ?_ lowTag_OID hl)
        unfold oidBody
        rw [if_neg (by simp [hval])]
        exact eval_addEach _ []
      · rw [e] at h; cases h

/-- C155 fails for negative components after the second one: `asn1.Marshal` leaves them out without an error, the builder reports. -/
theorem C155_oid_violated (a b v : BitVec 64) (ha : a.toInt = 2) (hv : v.toInt < 0) :
    makeOidInt [a, b, v] = makeOidInt [a, b] ∧ (∃ c, makeOidInt [a, b] = .ok c) ∧ Reports (addASN1ObjectIdentifier [a, b, v] .nil) := by
  refine ⟨?_, ?_, ?_⟩
  · simp only [makeOidInt, List.flatMap_cons, List.flatMap_nil, addBase128Int_neg v hv, List.append_nil]
  · exact ⟨_, if_neg (by omega)⟩
  · apply C24_invalid_reported
    rintro ⟨-, h⟩
    have := h v (by simp)
    omega

/-- C155 fails at -1: `MarshalSign` writes it, the builder panics after any program. -/
theorem C155_minus_one_violated (g : Growth) (h : Heap) (buf : Slice) (p : Prog) (a : Bytes) (hv : buf.Valid h) (hp : run g h buf p = .ok a) :
    marshal tyBig (-1) = .ok [2, 1, 0xff] ∧ run g h buf (p.append (addASN1BigInt (-1) .nil)) = .panic :=
  ⟨by decide +kernel, C23_bigInt_violated g h buf p a hv hp⟩

/-! ## Cases -/

/-- A signature with a negative number, written by both. -/
example : Sm2.marshalSign 128 (-129) = .ok [0x30, 8, 2, 2, 0, 0x80, 2, 2, 0xff, 0x7f] ∧
    run (fun _ _ _ => 0) exHeap exBuf (.asn1 tagSEQUENCE (addASN1BigInt 128 (addASN1BigInt (-129) .nil)) .nil) =
      .ok [0x30, 8, 2, 2, 0, 0x80, 2, 2, 0xff, 0x7f] := by decide +kernel

/-- An object identifier whose first two numbers overflow together: both write the same (wrong) octets. -/
example : makeOidInt [2, 0x7fffffffffffffff, 7] = .ok [7] ∧
    run (fun _ _ _ => 0) exHeap exBuf (addASN1ObjectIdentifier [2, 0x7fffffffffffffff, 7] .nil) = .ok [6, 1, 7] := by decide +kernel

/-- One that both refuse, and one that only the builder refuses. -/
example : (∃ m, makeOidInt [1, 40] = .err m) ∧ makeOidInt [2, 5, -3] = makeOidInt [2, 5] ∧ (-3 : BitVec 64).toInt < 0 ∧ (2 : BitVec 64).toInt = 2 :=
  ⟨⟨_, rfl⟩, by decide +kernel, by decide, by decide⟩

/-- A ciphertext with one octet of C2 in both orders; the hypotheses of `C155_ciphertext`. -/
example : ∃ (x y : ℕ) (c2 c3 : Bytes), x < 2 ^ 256 ∧ y < 2 ^ 256 ∧ c3.length = 32 ∧ c2.length < 2 ^ 31 - 200 ∧
    Sm2.marshalCipher (4 :: (fe x ++ fe y) ++ (c2 ++ c3)) 1 = .ok ([0x30, 0x2c, 2, 1, 5, 2, 2, 0, 0xff, 4, 1, 9, 4, 32] ++ List.replicate 32 7) :=
  ⟨5, 255, [9], List.replicate 32 7, by decide, by decide, by decide, by decide, by decide +kernel⟩
end Verif.Props
