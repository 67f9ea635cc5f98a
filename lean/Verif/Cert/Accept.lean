import Verif.Cert.Total
import Verif.Cert.Spec
import Verif.Sm2.Lemmas
/-!
# What certificate parsing accepts: helper lemmas
-/
namespace Verif.Cert
open Verif Verif.Der Verif.Spec.DER

variable {U : Type} {α : Type}

/-! ## RightAlign -/

theorem shift_or (s : Nat) (hs : 0 < s) (hs8 : s < 8) (a b : Byte) :
    ((a <<< (8 - s)) ||| (b >>> s)).toNat = a.toNat % 2 ^ s * 2 ^ (8 - s) + b.toNat / 2 ^ s := by
  have hp : (2 : Nat) ^ s * 2 ^ (8 - s) = 256 := by rw [← Nat.pow_add, show s + (8 - s) = 8 by omega]
  have h1 : (a <<< (8 - s)).toNat = a.toNat % 2 ^ s * 2 ^ (8 - s) := by
    rw [BitVec.toNat_shiftLeft, Nat.shiftLeft_eq, show (2 : Nat) ^ 8 = 2 ^ s * 2 ^ (8 - s) by rw [hp]; rfl, Nat.mul_mod_mul_right]
  have hb : b.toNat / 2 ^ s < 2 ^ (8 - s) := by
    rw [Nat.div_lt_iff_lt_mul (Nat.two_pow_pos s), Nat.mul_comm, hp]; exact b.isLt
  rw [BitVec.toNat_or, BitVec.toNat_ushiftRight, Nat.shiftRight_eq_div_pow, h1, ← Nat.shiftLeft_eq,
    ← Nat.shiftLeft_add_eq_or_of_lt hb]

theorem rightAlignLoop_spec (s : Nat) (hs : 0 < s) (hs8 : s < 8) : ∀ (bs : Bytes) (prev : Byte),
    (rightAlignLoop s prev bs).length = bs.length ∧
    beNat (rightAlignLoop s prev bs) = (prev.toNat % 2 ^ s * 256 ^ bs.length + beNat bs) / 2 ^ s := by
  intro bs
  have hp : (2 : Nat) ^ s * 2 ^ (8 - s) = 256 := by rw [← Nat.pow_add, show s + (8 - s) = 8 by omega]
  have h0 : 0 < (2 : Nat) ^ s := Nat.two_pow_pos s
  induction bs with
  | nil =>
    intro prev
    refine ⟨rfl, ?_⟩
    have : prev.toNat % 2 ^ s < 2 ^ s := Nat.mod_lt _ h0
    simp [rightAlignLoop, beNat_nil, Nat.div_eq_of_lt this]
  | cons b bs ih =>
    intro prev
    obtain ⟨h1, h2⟩ := ih b
    refine ⟨by simp [rightAlignLoop, h1], ?_⟩
    rw [rightAlignLoop, beNat_cons, h1, h2, shift_or s hs hs8, beNat_cons, List.length_cons]
    have e : prev.toNat % 2 ^ s * 256 ^ (bs.length + 1) + (b.toNat * 256 ^ bs.length + beNat bs) =
        2 ^ s * ((prev.toNat % 2 ^ s * 2 ^ (8 - s) + b.toNat / 2 ^ s) * 256 ^ bs.length) +
          (b.toNat % 2 ^ s * 256 ^ bs.length + beNat bs) := by
      conv => lhs; rw [Nat.pow_succ, ← hp, ← Nat.div_add_mod b.toNat (2 ^ s)]
      rw [hp]
      have : prev.toNat % 2 ^ s * (256 ^ bs.length * (2 ^ s * 2 ^ (8 - s))) =
        2 ^ s * (prev.toNat % 2 ^ s * 2 ^ (8 - s) * 256 ^ bs.length) := by ring
      rw [← hp] at *
      ring
    rw [e, Nat.mul_add_div h0]

theorem rightAlign_spec {bits : Bytes} {nbits : Nat} {pad : Nat} (hp : pad ≤ 7) (hn : nbits + pad = 8 * bits.length)
    (hz : beNat bits % 2 ^ pad = 0) : (BitString.rightAlign ⟨bits, nbits⟩).length = bits.length ∧
      beNat bits = beNat (BitString.rightAlign ⟨bits, nbits⟩) * 2 ^ pad := by
  unfold BitString.rightAlign
  dsimp only
  by_cases h0 : pad = 0
  · subst h0
    rw [if_pos (by omega)]; simp
  · rw [if_neg (by omega)]
    have es : 8 - nbits % 8 = pad := by omega
    rw [es]
    cases bits with
    | nil => simp at hn; omega
    | cons x xs =>
      dsimp only
      obtain ⟨h1, h2⟩ := rightAlignLoop_spec pad (by omega) (by omega) xs x
      refine ⟨by simp [h1], ?_⟩
      rw [beNat_cons (x >>> pad), h1, h2, BitVec.toNat_ushiftRight, Nat.shiftRight_eq_div_pow]
      have h0 : 0 < (2 : Nat) ^ pad := Nat.two_pow_pos pad
      have e : x.toNat * 256 ^ xs.length + beNat xs =
          2 ^ pad * (x.toNat / 2 ^ pad * 256 ^ xs.length) + (x.toNat % 2 ^ pad * 256 ^ xs.length + beNat xs) := by
        conv => lhs; rw [← Nat.div_add_mod x.toNat (2 ^ pad)]
        ring
      rw [beNat_cons] at hz ⊢
      have e2 : (x.toNat / 2 ^ pad * 256 ^ xs.length + (x.toNat % 2 ^ pad * 256 ^ xs.length + beNat xs) / 2 ^ pad) =
          (x.toNat * 256 ^ xs.length + beNat xs) / 2 ^ pad := by rw [e, Nat.mul_add_div h0]
      rw [e2, Nat.div_mul_cancel (Nat.dvd_of_mod_eq_zero hz)]

/-! ## Fields -/

theorem ite_ok {c : Prop} [Decidable c] {a b : Res α} {x : α} (h : (if c then a else b) = .ok x) :
    (c ∧ a = .ok x) ∨ (¬ c ∧ b = .ok x) := by
  split at h
  · exact .inl ⟨‹_›, h⟩
  · exact .inr ⟨‹_›, h⟩

theorem parseField_suffix {ty : Ty α} {p : Params} {bs rest : Bytes} {v : α} (h : parseField ty p bs = .ok (v, rest)) :
    ∃ pre, bs = pre ++ rest := by
  have inner : ∀ {b0 bs r : Bytes} {t : TagAndLength}, (∃ pre, b0 = pre ++ r) →
      parseInner ty p b0 t r = .ok (v, rest) → ∃ pre, b0 = pre ++ rest := by
    rintro b0 bs r t ⟨pre, rfl⟩ h
    unfold parseInner at h
    dsimp only at h
    rcases ite_ok h with ⟨_, h⟩ | ⟨_, h⟩
    · split at h
      · simp only [Res.ok.injEq, Prod.mk.injEq] at h
        exact ⟨[], by rw [h.2]; rfl⟩
      · simp at h
    · split at h
      · simp at h
      · rw [Res.bind_eq_ok] at h
        obtain ⟨w, _, h⟩ := h
        simp only [Res.ok.injEq, Prod.mk.injEq] at h
        exact ⟨pre ++ r.take t.length, by rw [← h.2]; simp⟩
  unfold parseField at h
  split at h
  · split at h
    · simp only [Res.ok.injEq, Prod.mk.injEq] at h
      exact ⟨[], by rw [h.2]; rfl⟩
    · simp at h
  · rw [Res.bind_eq_ok] at h
    obtain ⟨⟨t, r⟩, h1, h2⟩ := h
    obtain ⟨pre, _, e⟩ := parseTagAndLength_suffix h1
    dsimp only at h2
    split at h2
    · split at h2
      · simp at h2
      · split at h2
        · split at h2
          · exact inner (bs := bs) ⟨pre, e⟩ h2
          · split at h2
            · rw [Res.bind_eq_ok] at h2
              obtain ⟨⟨t', r'⟩, h3, h4⟩ := h2
              obtain ⟨pre', _, e'⟩ := parseTagAndLength_suffix h3
              exact inner (bs := bs) ⟨pre ++ pre', by rw [e, e', List.append_assoc]⟩ h4
            · simp at h2
        · split at h2
          · simp only [Res.ok.injEq, Prod.mk.injEq] at h2
            exact ⟨[], by rw [h2.2]; rfl⟩
          · simp at h2
    · exact inner (bs := bs) ⟨pre, e⟩ h2

theorem idOctet_seq : idOctet 0 16 true = 0x30 := by decide
theorem idOctet_bits : idOctet 0 3 false = 0x03 := by decide
theorem idOctet_int : idOctet 0 2 false = 0x02 := by decide
theorem idOctet_oid : idOctet 0 6 false = 0x06 := by decide
theorem idOctet_ctx0 : idOctet 2 0 true = 0xa0 := by decide

theorem parseField_struct {zero : α} {isZero : α → Bool} {body : Bytes → Bytes → Res α} {make : α → Res Bytes}
    {bs rest : Bytes} {v : α} (h : parseField (tyStruct zero isZero body make) {} bs = .ok (v, rest)) :
    ∃ c, c.length < 2 ^ 31 ∧ bs = elem 0x30 c ++ rest ∧ body c (elem 0x30 c) = .ok v := by
  obtain ⟨c, h1, h2, h3⟩ := (parseField_iff (p := {}) rfl rfl rfl rfl (by show (16 : Nat) < 31; decide)).1 h
  exact ⟨c, h1, h2, h3⟩

theorem parseField_slice {s : Bool} {ty : Ty α} {bs rest : Bytes} {v : List α} (h : parseField (tySlice s ty) {} bs = .ok (v, rest)) :
    ∃ c, c.length < 2 ^ 31 ∧ bs = elem (if s then 0x31 else 0x30) c ++ rest ∧ parseSequenceOf ty c = .ok v := by
  obtain ⟨c, h1, h2, h3⟩ := (parseField_iff (p := {}) rfl rfl rfl rfl (by cases s <;> simp [wireTag, univTag, tySlice])).1 h
  refine ⟨c, h1, ?_, h3⟩
  rw [h2]; cases s <;> rfl

theorem parseField_bits {bs rest : Bytes} {v : BitString} (h : parseField tyBits {} bs = .ok (v, rest)) :
    ∃ c, c.length < 2 ^ 31 ∧ bs = elem 0x03 c ++ rest ∧ IsBitString v.bytes v.bitLength c := by
  obtain ⟨c, h1, h2, h3⟩ := (parseField_iff (p := {}) rfl rfl rfl rfl (by decide)).1 h
  exact ⟨c, h1, h2, (parseBitString_iff _ _).1 h3⟩

theorem parseField_oid {bs rest : Bytes} {v : OID} (h : parseField tyOID {} bs = .ok (v, rest)) :
    ∃ c, c.length < 2 ^ 31 ∧ bs = elem 0x06 c ++ rest ∧ OIDContent v c := by
  obtain ⟨c, h1, h2, h3⟩ := (parseField_iff (p := {}) rfl rfl rfl rfl (by decide)).1 h
  exact ⟨c, h1, h2, (parseObjectIdentifier_iff _ _).1 h3⟩

theorem parseField_int {bs rest : Bytes} {v : Int} (h : parseField tyInt {} bs = .ok (v, rest)) :
    ∃ c, c.length < 2 ^ 31 ∧ bs = elem 0x02 c ++ rest ∧ IsInt v c := by
  obtain ⟨c, h1, h2, h3⟩ := (parseField_iff (p := {}) rfl rfl rfl rfl (by decide)).1 h
  exact ⟨c, h1, h2, ((parseInt64_iff _ _).1 h3).1⟩

theorem parseField_big {bs rest : Bytes} {v : Int} (h : parseField tyBig {} bs = .ok (v, rest)) :
    ∃ c, c.length < 2 ^ 31 ∧ bs = elem 0x02 c ++ rest ∧ IsInt v c := by
  obtain ⟨c, h1, h2, h3⟩ := (parseField_iff (p := {}) rfl rfl rfl rfl (by decide)).1 h
  exact ⟨c, h1, h2, (parseBigInt_iff _ _).1 h3⟩

theorem namesOID {oid : OID} {c : Bytes} (h : OIDContent oid c) : Spec.Cert.NamesOID oid c := by
  obtain ⟨_, gs, h1, h2⟩ := h
  exact ⟨gs, h1, h2.imp fun _ _ h => ⟨h.1, h.2.2.1⟩⟩

/-- The algorithm identifier: what follows the algorithm is either nothing or the parameters and ignored bytes. -/
theorem parseField_algId {bs rest : Bytes} {v : AlgId} (h : parseField tyAlgId {} bs = .ok (v, rest)) :
    ∃ oc params, bs = elem 0x30 (elem 0x06 oc ++ params) ++ rest ∧ OIDContent v.algorithm oc ∧
      (params = [] ∧ v.parameters = {} ∨ ∃ t, params = v.parameters.fullBytes ++ t) := by
  obtain ⟨c, h1, rfl, h3⟩ := parseField_struct h
  simp only [Res.bind_eq_ok] at h3
  obtain ⟨⟨o, r1⟩, g1, ⟨q, r2⟩, g2, g3⟩ := h3
  simp only [Res.ok.injEq] at g3
  obtain ⟨oc, _, rfl, g4⟩ := parseField_oid g1
  subst g3
  refine ⟨oc, r1, rfl, g4, ?_⟩
  dsimp only at g2
  by_cases hne : r1 = []
  · left
    subst hne
    rw [parseField_skip_nil rfl] at g2
    simp only [Res.ok.injEq, Prod.mk.injEq] at g2
    exact ⟨rfl, g2.1.symm⟩
  · right
    exact ⟨r2, (parseField_raw_split rfl rfl hne g2).1⟩

theorem parseName_ok {bs : Bytes} {rdns : RDNSequence} (h : parseName bs = .ok rdns) : ∃ c, c.length < 2 ^ 31 ∧ bs = elem 0x30 c := by
  unfold parseName at h
  rw [Res.bind_eq_ok] at h
  obtain ⟨⟨v, r⟩, h1, h2⟩ := h
  split at h2
  · simp at h2
  · rename_i hr
    have : r = [] := by cases r <;> simp_all
    subst this
    obtain ⟨c, h3, h4, _⟩ := parseField_slice h1
    exact ⟨c, h3, by rw [h4]; simp⟩

theorem parsePublicKey_ok {k : PublicKeyInfo} {pub : Sm2.PublicKey} (h : parsePublicKey k = .ok pub) :
    ∃ (Q : Sm2.Pt) (x y : ℕ) (cc : Bytes), Spec.SM2.coords Q = some (x, y) ∧ pub = ⟨x, y⟩ ∧ OIDContent oidSM2P256V1 cc ∧
      k.algorithm.parameters.fullBytes = elem 0x06 cc ∧ k.publicKey.rightAlign = 4 :: (Spec.SM2.fe x ++ Spec.SM2.fe y) := by
  unfold parsePublicKey at h
  rw [Res.bind_eq_ok] at h
  obtain ⟨⟨o, r⟩, h1, h2⟩ := h
  split at h2
  · simp at h2
  · rename_i hr
    have : r = [] := by cases r <;> simp_all
    subst this
    split at h2
    · simp at h2
    · rename_i ho
      simp only [ne_eq, not_not] at ho
      subst ho
      obtain ⟨cc, _, h3, h4⟩ := parseField_oid h1
      split at h2
      · simp at h2
      · rename_i q hq
        obtain ⟨Q, x, y, e1, rfl, e2⟩ := (Sm2.unmarshal_iff _ _).1 hq
        simp only [Res.ok.injEq] at h2
        exact ⟨Q, x, y, cc, e1, h2.symm, h4, by rw [h3]; simp, e2⟩

/-- A key info that is accepted. -/
theorem parseKeyInfo_ok {bs rest : Bytes} {k : PublicKeyInfo} {pub : Sm2.PublicKey} (h : parseField tyPublicKeyInfo {} bs = .ok (k, rest))
    (ha : k.algorithm.algorithm = oidPublicKeyECDSA) (hp : parsePublicKey k = .ok pub) :
    ∃ (Q : Sm2.Pt) (x y : ℕ), Spec.SM2.coords Q = some (x, y) ∧ pub = ⟨x, y⟩ ∧ bs = k.raw ++ rest ∧ Spec.Cert.IsKeyInfo x y k.raw := by
  obtain ⟨Q, x, y, cc, h1, rfl, h2, h3, h4⟩ := parsePublicKey_ok hp
  refine ⟨Q, x, y, h1, rfl, ?_⟩
  obtain ⟨c, _, rfl, h6⟩ := parseField_struct h
  simp only [Res.bind_eq_ok] at h6
  obtain ⟨⟨a, r1⟩, g1, ⟨b, r2⟩, g2, g3⟩ := h6
  simp only [Res.ok.injEq] at g3
  subst g3
  dsimp only at ha h3 h4 g2 ⊢
  obtain ⟨oc, params, rfl, e2, e3⟩ := parseField_algId g1
  obtain ⟨bc, _, rfl, pad, rfl, p1, p2, p3⟩ := parseField_bits g2
  rcases e3 with ⟨_, e4⟩ | ⟨t, rfl⟩
  · rw [e4] at h3
    exact absurd h3.symm (by simp [elem])
  · refine ⟨rfl, elem 0x30 (elem 0x06 oc ++ (a.parameters.fullBytes ++ t)), cc, pad, b.bytes, t, r2, namesOID h2,
      ⟨oc, by rw [ha] at e2; exact namesOID e2, by rw [h3]⟩, p1, ?_, ?_, ?_⟩
    · have := (rightAlign_spec p1 p2 p3).1
      rw [show (⟨b.bytes, b.bitLength⟩ : BitString) = b from rfl, h4] at this
      rw [← this]; simp [Spec.SM2.fe]
    · have := (rightAlign_spec p1 p2 p3).2
      rw [show (⟨b.bytes, b.bitLength⟩ : BitString) = b from rfl, h4] at this
      exact this
    · simp

end Verif.Cert
