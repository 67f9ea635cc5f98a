import Verif.Der.Model
import Verif.CB.AddLemmas
import Mathlib.Tactic.Ring
/-!
# The encoding/asn1 subset against X.690 (`Verif.Spec.DER`)
-/
namespace Verif.Der
open Verif Spec.DER

theorem parseLength_pos (k : Nat) : ∀ (acc : Nat) (bs : Bytes) (v : Nat) (rest : Bytes), 0 < acc →
    (parseLength k acc bs = .ok (v, rest) ↔
      ∃ ds : Bytes, ds.length = k ∧ bs = ds ++ rest ∧ v = acc * 256 ^ k + beNat ds ∧ (k = 0 ∨ v < 2 ^ 31)) := by
  induction k with
  | zero =>
    intro acc bs v rest _
    simp only [parseLength, Res.ok.injEq, Prod.mk.injEq, true_or, and_true]
    constructor
    · rintro ⟨rfl, rfl⟩; exact ⟨[], rfl, rfl, by simp [beNat]⟩
    · rintro ⟨ds, h1, h2, h3⟩
      obtain rfl : ds = [] := List.length_eq_zero_iff.1 h1
      simp [beNat] at h3
      exact ⟨h3.symm, h2⟩
  | succ k ih =>
    intro acc bs v rest hacc
    cases bs with
    | nil =>
      simp only [parseLength, reduceCtorEq, false_iff]
      rintro ⟨ds, h1, h2, _⟩
      have := congrArg List.length h2
      simp at this
      omega
    | cons b bs =>
      unfold parseLength
      have hb := b.isLt
      by_cases hbig : acc ≥ 2 ^ 23
      · rw [if_pos hbig]
        simp only [reduceCtorEq, false_iff]
        rintro ⟨ds, h1, h2, h3, h4⟩
        have h4 : v < 2 ^ 31 := by simpa using h4
        have : acc * 256 ≤ acc * 256 ^ (k + 1) := by
          rw [Nat.pow_succ]
          exact Nat.mul_le_mul_left _ (Nat.le_mul_of_pos_left _ (by positivity))
        omega
      · rw [if_neg hbig]
        simp only
        rw [if_neg (by omega), ih _ _ _ _ (by omega)]
        constructor
        · rintro ⟨ds, h1, h2, h3, h4⟩
          refine ⟨b :: ds, by simp [h1], by simp [h2], ?_, ?_⟩
          · rw [h3, beNat_cons, h1, Nat.pow_succ]; ring
          · right
            rcases h4 with rfl | h4
            · simp only [List.length_eq_zero_iff] at h1
              subst h1
              simp [beNat] at h3
              omega
            · exact h4
        · rintro ⟨ds, h1, h2, h3, h4⟩
          cases ds with
          | nil => simp at h1
          | cons d ds =>
            simp only [List.length_cons, Nat.add_right_cancel_iff] at h1
            simp only [List.cons_append, List.cons.injEq] at h2
            obtain ⟨rfl, rfl⟩ := h2
            refine ⟨ds, h1, rfl, ?_, Or.inr (h4.resolve_left (by omega))⟩
            rw [h3, beNat_cons, h1, Nat.pow_succ]; ring

theorem parseLength_iff (k : Nat) (bs : Bytes) (v : Nat) (rest : Bytes) :
    parseLength (k + 1) 0 bs = .ok (v, rest) ↔
      ∃ (d : Byte) (ds : Bytes), d ≠ 0 ∧ ds.length = k ∧ bs = d :: ds ++ rest ∧ v = beNat (d :: ds) ∧ v < 2 ^ 31 := by
  cases bs with
  | nil => simp [parseLength]
  | cons b bs =>
    unfold parseLength
    rw [if_neg (by omega)]
    have hb := b.isLt
    simp only [Nat.zero_mul, Nat.zero_add]
    by_cases hb0 : b.toNat = 0
    · rw [if_pos hb0]
      simp only [reduceCtorEq, false_iff]
      rintro ⟨d, ds, h1, _, h2, _⟩
      simp only [List.cons_append, List.cons.injEq] at h2
      rw [← h2.1] at h1
      exact h1 (BitVec.eq_of_toNat_eq (by simpa using hb0))
    · rw [if_neg hb0, parseLength_pos k _ _ _ _ (by omega)]
      constructor
      · rintro ⟨ds, h1, h2, h3, h4⟩
        refine ⟨b, ds, by rintro rfl; simp at hb0, h1, by simp [h2], by rw [h3, beNat_cons, h1], ?_⟩
        rcases h4 with rfl | h4
        · obtain rfl : ds = [] := List.length_eq_zero_iff.1 h1
          simp [beNat] at h3
          omega
        · exact h4
      · rintro ⟨d, ds, h1, h2, h3, h4, h5⟩
        simp only [List.cons_append, List.cons.injEq] at h3
        obtain ⟨rfl, rfl⟩ := h3
        exact ⟨ds, h2, rfl, by rw [h4, beNat_cons, h2], Or.inr h5⟩

theorem parseBase128Int_ge (bs : Bytes) : ∀ (s a : Nat), (parseBase128Int s a bs).returned = true := by
  induction bs with
  | nil => intro s a; rfl
  | cons b bs ih =>
    intro s a
    unfold parseBase128Int
    split
    · rfl
    · simp only
      split
      · split <;> rfl
      · exact ih _ _

/-- The tag number: from the identifier octet, or at least 31. -/
theorem parseTag_low {b : Byte} {rest : Bytes} {t : Nat} {rest' : Bytes} (ht : t < 31) :
    parseTag b rest = .ok (t, rest') ↔ t = b.toNat % 32 ∧ rest' = rest ∧ LowTag b := by
  have e : (b &&& 0x1f).toNat = b.toNat % 32 := by revert b; decide +kernel
  unfold parseTag LowTag
  rw [e]
  split
  · rename_i h
    rw [Res.bind_eq_ok]
    constructor
    · rintro ⟨⟨t', r'⟩, _, h2⟩
      simp only at h2
      split at h2
      · cases h2
      · simp only [Res.ok.injEq, Prod.mk.injEq] at h2; omega
    · rintro ⟨h1, _⟩; omega
  · rename_i h
    simp only [Res.ok.injEq, Prod.mk.injEq]
    exact ⟨fun h' => ⟨h'.1.symm, h'.2.symm, h⟩, fun h' => ⟨h'.1.symm, h'.2.1.symm⟩⟩

/-- The identifier octet of a class, a low tag number and the form. -/
def idOctet (cls tag : Nat) (isCompound : Bool) : Byte := BitVec.ofNat 8 (cls * 64 + (if isCompound then 32 else 0) + tag)

theorem toNat_idOctet {cls tag : Nat} {isCompound : Bool} (hc : cls < 4) (ht : tag < 31) :
    (idOctet cls tag isCompound).toNat = cls * 64 + (if isCompound then 32 else 0) + tag := by
  unfold idOctet
  rw [BitVec.toNat_ofNat, Nat.mod_eq_of_lt]
  split <;> omega

theorem lowTag_idOctet {cls tag : Nat} {isCompound : Bool} (hc : cls < 4) (ht : tag < 31) :
    LowTag (idOctet cls tag isCompound) := by
  unfold LowTag
  rw [toNat_idOctet hc ht]
  split <;> omega

theorem bit20 (b : Byte) : (b &&& 0x20 = 0x20) ↔ b.toNat / 32 % 2 = 1 := by revert b; decide +kernel
theorem shr6 (b : Byte) : (b >>> 6).toNat = b.toNat / 64 := by revert b; decide +kernel

theorem idOctet_iff {cls tag : Nat} {isCompound : Bool} (hc : cls < 4) (ht : tag < 31) (b : Byte) :
    b = idOctet cls tag isCompound ↔
      (b >>> 6).toNat = cls ∧ decide (b &&& 0x20 = 0x20) = isCompound ∧ b.toNat % 32 = tag := by
  rw [← BitVec.toNat_inj, toNat_idOctet hc ht, shr6]
  have h20 := bit20 b
  have hb := b.isLt
  cases isCompound
  · simp only [Bool.false_eq_true, if_false, decide_eq_false_iff_not, h20]; omega
  · simp only [if_true, decide_eq_true_eq, h20]; omega

theorem byteLen_lt_127_of {n : Nat} (h : n < 2 ^ 31) : byteLen n < 127 := by
  have : byteLen n ≤ 4 := (byteLen_le_iff n 4).2 (by omega)
  omega

/-- `parseTagAndLength` reads one identifier octet and DER length octets (low tag numbers, lengths below 2^31). -/
theorem parseTagAndLength_iff {bs rest : Bytes} {t : TagAndLength} (ht : t.tag < 31) :
    parseTagAndLength bs = .ok (t, rest) ↔ t.length < 2 ^ 31 ∧ t.cls < 4 ∧
      bs = idOctet t.cls t.tag t.isCompound :: (lenOctets t.length ++ rest) := by
  obtain ⟨cls, cmp, tag, len⟩ := t
  simp only at ht ⊢
  cases bs with
  | nil => simp [parseTagAndLength]
  | cons b bs =>
    unfold parseTagAndLength
    constructor
    · intro h
      rw [Res.bind_eq_ok] at h
      obtain ⟨⟨t', bs'⟩, h1, h2⟩ := h
      simp only at h2
      cases bs' with
      | nil => cases h2
      | cons l rest' =>
        simp only at h2
        have hl := l.isLt
        have hcls : (b >>> 6).toNat < 4 := by rw [shr6]; have := b.isLt; omega
        split at h2
        · rename_i hs
          simp only [Res.ok.injEq, Prod.mk.injEq, TagAndLength.mk.injEq] at h2
          obtain ⟨⟨rfl, rfl, rfl, rfl⟩, rfl⟩ := h2
          rw [parseTag_low ht] at h1
          obtain ⟨ht', rfl, hlow⟩ := h1
          rw [CB.and_80] at hs
          rw [CB.and_7f, Nat.mod_eq_of_lt hs]
          refine ⟨by omega, hcls, ?_⟩
          rw [List.cons.injEq]
          refine ⟨(idOctet_iff hcls ht b).2 ⟨rfl, rfl, ht'.symm⟩, ?_⟩
          simp [lenOctets, hs]
        · rename_i hs
          split at h2
          · cases h2
          · rename_i hn0
            rw [Res.bind_eq_ok] at h2
            obtain ⟨⟨v, r⟩, h3, h4⟩ := h2
            simp only at h4
            split at h4
            · cases h4
            · rename_i hv
              simp only [Res.ok.injEq, Prod.mk.injEq, TagAndLength.mk.injEq] at h4
              obtain ⟨⟨rfl, rfl, rfl, rfl⟩, rfl⟩ := h4
              rw [parseTag_low ht] at h1
              obtain ⟨ht', rfl, hlow⟩ := h1
              obtain ⟨k, hk⟩ : ∃ k, (l &&& 0x7f).toNat = k + 1 := ⟨(l &&& 0x7f).toNat - 1, by omega⟩
              rw [hk, parseLength_iff] at h3
              obtain ⟨d, ds, hd, hds, rfl, rfl, hlt⟩ := h3
              refine ⟨hlt, hcls, ?_⟩
              rw [List.cons.injEq]
              refine ⟨(idOctet_iff hcls ht b).2 ⟨rfl, rfl, ht'.symm⟩, ?_⟩
              unfold lenOctets
              rw [if_neg (by omega), natBytes_beNat_cons ds hd, byteLen_beNat_cons ds hd, List.cons_append, List.cons_append,
                List.cons.injEq]
              refine ⟨?_, rfl⟩
              rw [CB.and_80] at hs
              rw [CB.and_7f] at hk
              apply BitVec.eq_of_toNat_eq
              rw [BitVec.toNat_ofNat]
              omega
    · rintro ⟨hlt, hcls, heq⟩
      rw [List.cons.injEq] at heq
      obtain ⟨hb, rfl⟩ := heq
      have hb' := (idOctet_iff hcls ht b).1 hb
      have h1 : parseTag b (lenOctets len ++ rest) = .ok (tag, lenOctets len ++ rest) :=
        (parseTag_low ht).2 ⟨hb'.2.2.symm, rfl, by rw [hb]; exact lowTag_idOctet hcls ht⟩
      dsimp only
      rw [h1, Res.ok_bind]
      have hlen := (isLength_iff (byteLen_lt_127_of hlt)).2 rfl
      generalize hlo : lenOctets len = lo at hlen ⊢
      cases hlen with
      | short l h =>
        simp only [List.cons_append, List.nil_append]
        rw [if_pos ((CB.and_80 l).2 h), CB.and_7f, Nat.mod_eq_of_lt h, hb'.1, ← hb'.2.1]
      | long l d ds hl hl' hd h =>
        simp only [List.cons_append]
        have h80 : ¬ (l &&& 0x80 = 0) := by rw [CB.and_80]; omega
        have h7f : (l &&& 0x7f).toNat = ds.length + 1 := by rw [CB.and_7f]; omega
        rw [if_neg h80, h7f, if_neg (by omega),
          (parseLength_iff ds.length (d :: (ds ++ rest)) _ rest).2 ⟨d, ds, hd, rfl, rfl, rfl, hlt⟩, Res.ok_bind]
        simp only
        rw [if_neg (by omega), hb'.1, ← hb'.2.1]

/-- A mandatory field is exactly one DER element with the expected identifier octet. -/
theorem parseElem_iff {cls tag : Nat} {isCompound : Bool} (hc : cls < 4) (ht : tag < 31) (bs c rest : Bytes) :
    parseElem cls tag isCompound bs = .ok (c, rest) ↔
      c.length < 2 ^ 31 ∧ bs = elem (idOctet cls tag isCompound) c ++ rest := by
  unfold parseElem
  constructor
  · intro h
    split at h
    · cases h
    · rw [Res.bind_eq_ok] at h
      obtain ⟨⟨t, r⟩, h1, h2⟩ := h
      simp only at h2
      split at h2
      · cases h2
      · rename_i hm
        split at h2
        · cases h2
        · rename_i hl
          simp only [Res.ok.injEq, Prod.mk.injEq] at h2
          obtain ⟨rfl, rfl⟩ := h2
          push Not at hm
          obtain ⟨rfl, rfl, rfl⟩ := hm
          rw [parseTagAndLength_iff ht] at h1
          have hlen : (r.take t.length).length = t.length := by simp; omega
          refine ⟨by omega, ?_⟩
          rw [h1.2.2]
          unfold elem
          rw [hlen]
          simp
  · rintro ⟨hl, rfl⟩
    rw [if_neg (by simp [elem])]
    have := (parseTagAndLength_iff (bs := elem (idOctet cls tag isCompound) c ++ rest) (rest := c ++ rest)
      (t := ⟨cls, isCompound, tag, c.length⟩) ht).2 ⟨hl, hc, by simp [elem]⟩
    rw [this, Res.ok_bind]
    simp

/-- Parsing never panics and never loops. -/
theorem parseLength_returned (k : Nat) : ∀ (a : Nat) (bs : Bytes), (parseLength k a bs).returned = true := by
  induction k with
  | zero => intro a bs; rfl
  | succ k ih =>
    intro a bs
    cases bs with
    | nil => rfl
    | cons b bs =>
      unfold parseLength
      split
      · rfl
      · simp only
        split
        · rfl
        · exact ih _ _

theorem returned_bind {α β : Type} {x : Res α} {f : α → Res β} (hx : x.returned = true)
    (hf : ∀ a, x = .ok a → (f a).returned = true) : (x >>= f).returned = true := by
  cases x with
  | ok a => exact hf a rfl
  | err m => rfl
  | panic => cases hx
  | loop => cases hx

theorem parseTagAndLength_returned (bs : Bytes) : (parseTagAndLength bs).returned = true := by
  cases bs with
  | nil => rfl
  | cons b bs =>
    unfold parseTagAndLength
    apply returned_bind
    · unfold parseTag
      split
      · apply returned_bind (parseBase128Int_ge _ _ _)
        intro a _
        split <;> rfl
      · rfl
    · rintro ⟨t, r⟩ _
      simp only
      cases r with
      | nil => rfl
      | cons l r =>
        simp only
        split
        · rfl
        · split
          · rfl
          · apply returned_bind (parseLength_returned _ _ _)
            intro a _
            split <;> rfl

theorem parseElem_returned (cls tag : Nat) (cmp : Bool) (bs : Bytes) : (parseElem cls tag cmp bs).returned = true := by
  unfold parseElem
  split
  · rfl
  · apply returned_bind (parseTagAndLength_returned _)
    intro a _
    simp only
    split
    · rfl
    · split <;> rfl

theorem checkInteger_iff (c : Bytes) : checkInteger c = .ok () ↔ IntMinimal c := by
  match c with
  | [] => simp [checkInteger, IntMinimal]
  | [_] => simp [checkInteger, IntMinimal]
  | b0 :: b1 :: bs =>
    unfold checkInteger IntMinimal
    simp only
    have h1 := CB.and_80 b1
    have h2 := CB.and_80' b1
    split
    · rename_i h; simp only [reduceCtorEq, false_iff]; tauto
    · rename_i h; simp only [true_iff]; tauto

theorem parseBigInt_iff (c : Bytes) (z : Int) : parseBigInt c = .ok z ↔ IsInt z c := by
  unfold parseBigInt IsInt
  rw [Res.bind_eq_ok]
  constructor
  · rintro ⟨_, h1, h2⟩
    have hm := (checkInteger_iff c).1 h1
    refine ⟨hm, ?_⟩
    have := CB.bigIntOfContent_eq hm
    cases c with
    | nil => cases h2
    | cons b bs =>
      simp only at h2
      unfold CB.bigIntOfContent at this
      rw [CB.at_some (by simp)] at this
      simp only [Res.ok_bind, List.getElem_cons_zero, CB.bytes_some] at this
      rw [h2] at this
      exact (Res.ok.inj this).symm
  · rintro ⟨hm, hv⟩
    refine ⟨(), (checkInteger_iff c).2 hm, ?_⟩
    have := CB.bigIntOfContent_eq hm
    cases c with
    | nil => exact absurd hm id
    | cons b bs =>
      unfold CB.bigIntOfContent at this
      rw [CB.at_some (by simp)] at this
      simp only [Res.ok_bind, List.getElem_cons_zero, CB.bytes_some] at this
      simp only
      rw [this, hv]

theorem parseBigInt_returned (c : Bytes) : (parseBigInt c).returned = true := by
  unfold parseBigInt
  apply returned_bind
  · match c with
    | [] => rfl
    | [_] => rfl
    | b0 :: b1 :: bs => unfold checkInteger; simp only; split <;> rfl
  · intro _ h
    match c, h with
    | b :: bs, _ => simp only; split <;> rfl

/-- The INTEGER identifier octet and the others used here. -/
theorem id_int : idOctet 0 2 false = 0x02 := rfl
theorem id_octets : idOctet 0 4 false = 0x04 := rfl
theorem id_seq : idOctet 0 16 true = 0x30 := rfl

theorem fieldInt_iff (bs : Bytes) (z : Int) (rest : Bytes) :
    fieldInt bs = .ok (z, rest) ↔ ∃ c, IsInt z c ∧ c.length < 2 ^ 31 ∧ bs = elem 0x02 c ++ rest := by
  unfold fieldInt
  simp only [Res.bind_eq_ok, Res.ok.injEq, Prod.mk.injEq]
  constructor
  · rintro ⟨⟨c, r⟩, h1, v, h2, rfl, rfl⟩
    rw [parseElem_iff (by decide) (by decide), id_int] at h1
    exact ⟨c, (parseBigInt_iff _ _).1 h2, h1.1, h1.2⟩
  · rintro ⟨c, h1, h2, h3⟩
    exact ⟨(c, rest), (parseElem_iff (by decide) (by decide) _ _ _).2 ⟨h2, h3⟩, z, (parseBigInt_iff _ _).2 h1, rfl, rfl⟩

theorem fieldOctets_iff (bs c rest : Bytes) :
    fieldOctets bs = .ok (c, rest) ↔ c.length < 2 ^ 31 ∧ bs = elem 0x04 c ++ rest :=
  parseElem_iff (by decide) (by decide) bs c rest

theorem fieldSequence_iff (bs c rest : Bytes) :
    fieldSequence bs = .ok (c, rest) ↔ c.length < 2 ^ 31 ∧ bs = elem 0x30 c ++ rest :=
  parseElem_iff (by decide) (by decide) bs c rest

theorem fieldInt_returned (bs : Bytes) : (fieldInt bs).returned = true := by
  unfold fieldInt
  apply returned_bind (parseElem_returned _ _ _ _)
  intro a _
  apply returned_bind (parseBigInt_returned _)
  intro _ _; rfl

/-! ## Marshalling -/

theorem appendLength_eq (i k : Nat) : appendLength i k = toBE k i := by
  induction k with
  | zero => rfl
  | succ k ih =>
    rw [appendLength, CB.toBE_cons, ih, Nat.shiftRight_eq_div_pow, Nat.mul_comm k 8, Nat.pow_mul]

theorem lengthLength_eq : ∀ (fuel i : Nat), i ≠ 0 → i < 256 ^ (fuel + 1) → lengthLength fuel i = byteLen i
  | 0, i, h0, h => by
    have h1 : byteLen i ≤ 1 := (byteLen_le_iff i 1).2 (by simpa using h)
    have h2 := byteLen_pos h0
    unfold lengthLength; omega
  | fuel + 1, i, h0, h => by
    unfold lengthLength
    split
    · rename_i hi
      have hs : i >>> 8 = i / 256 := by rw [Nat.shiftRight_eq_div_pow]
      rw [hs, lengthLength_eq fuel (i / 256) (by omega) (by rw [Nat.pow_succ] at h; omega)]
      have a : ∀ k, byteLen i ≤ k + 1 ↔ byteLen (i / 256) ≤ k := by
        intro k
        rw [byteLen_le_iff, byteLen_le_iff, Nat.pow_succ]; omega
      have h1 := (a (byteLen (i / 256))).2 le_rfl
      have h2 := byteLen_pos h0
      have h3 := (a (byteLen i - 1)).1 (by omega)
      omega
    · have h1 : byteLen i ≤ 1 := (byteLen_le_iff i 1).2 (by omega)
      have h2 := byteLen_pos h0
      omega

/-- The marshaller writes the DER element (any length an `int` can hold). -/
theorem makeElem_eq {cls tag : Nat} {cmp : Bool} {body : Bytes} (h : body.length < 2 ^ 63) :
    makeElem cls tag cmp body = elem (idOctet cls tag cmp) body := by
  unfold makeElem elem idOctet lenOctets
  generalize BitVec.ofNat 8 (cls * 64 + (if cmp = true then 32 else 0) + tag) = t
  simp only
  by_cases hl : body.length ≥ 128
  · rw [if_pos hl, if_neg (by omega), appendLength_eq, lengthLength_eq 8 _ (by omega) (by omega)]
    have hb : byteLen body.length ≤ 8 := (byteLen_le_iff _ _).2 (by omega)
    rw [List.cons_append, List.cons.injEq]
    refine ⟨rfl, ?_⟩
    rw [List.cons.injEq]
    refine ⟨?_, rfl⟩
    have : ∀ k : Fin 9, (0x80 : Byte) ||| BitVec.ofNat 8 k.1 = BitVec.ofNat 8 (128 + k.1) := by decide
    exact this ⟨_, Nat.lt_succ_of_le hb⟩
  · rw [if_neg hl, if_pos (by omega)]
    rfl

theorem makeBigInt_isInt (z : Int) : IsInt z (makeBigInt z) := by
  by_cases hz : z = -1
  · subst hz; decide +kernel
  · obtain ⟨c, h1, h2⟩ := CB.eval_bigIntBody hz []
    have : makeBigInt z = c := by
      unfold CB.bigIntBody at h1
      unfold makeBigInt
      split at h1
      · rename_i hneg
        rw [if_pos hneg]
        obtain ⟨b, bs, hb, hb0⟩ := CB.natBytes_head (n := (-z - 1).toNat) (by omega)
        simp only [hb, List.map_cons, CB.xor_ff] at h1 ⊢
        split at h1
        · rename_i hc
          rw [if_pos hc]
          simpa [Spec.Builder.eval, Spec.Builder.Den.prepend] using h1
        · rename_i hc
          rw [if_neg hc]
          simpa [Spec.Builder.eval, Spec.Builder.Den.prepend] using h1
      · rename_i hneg
        rw [if_neg hneg]
        split at h1
        · rename_i h0
          rw [if_pos h0]
          simpa [Spec.Builder.eval, Spec.Builder.Den.prepend] using h1
        · rename_i h0
          rw [if_neg h0]
          obtain ⟨b, bs, hb, hb0⟩ := CB.natBytes_head (n := z.toNat) (by omega)
          simp only [hb] at h1 ⊢
          split at h1
          · rename_i hc
            rw [if_pos hc]
            simpa [Spec.Builder.eval, Spec.Builder.Den.prepend] using h1
          · rename_i hc
            rw [if_neg hc]
            simpa [Spec.Builder.eval, Spec.Builder.Den.prepend] using h1
    rw [this]; exact h2

theorem marshalInt_eq {z : Int} (h : (makeBigInt z).length < 2 ^ 63) : marshalInt z = elem 0x02 (makeBigInt z) :=
  makeElem_eq h

theorem makeBigInt_length {z : Int} {k : Nat} (h : InRange z k) : (makeBigInt z).length ≤ k + 1 := by
  have h1 := CB.isInt_inRange (makeBigInt_isInt z)
  by_contra hc
  rcases h1.2.2 with h2 | h2
  · omega
  · exact h2 (h.mono (by omega))

theorem elem_length_le {t : Byte} {c : Bytes} (h : c.length < 2 ^ 31) : (elem t c).length ≤ c.length + 6 := by
  rw [CB.length_elem, CB.length_lenOctets]
  split
  · omega
  · have : byteLen c.length ≤ 4 := (byteLen_le_iff _ _).2 (by omega)
    omega

end Verif.Der
