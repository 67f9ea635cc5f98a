import Verif.CB.Read
import Verif.CB.Spec
import Verif.CB.StrLemmas
/-! The element reader of asn1.go against DER elements. -/
namespace Verif.CB
open Spec.DER

theorem and_1f (t : Byte) : (t &&& 0x1f = 0x1f) ↔ t.toNat % 32 = 31 := by
  revert t; decide +kernel

theorem and_80 (b : Byte) : (b &&& 0x80 = 0) ↔ b.toNat < 128 := by
  revert b; decide +kernel

theorem and_80' (b : Byte) : (b &&& 0x80 = 0x80) ↔ 128 ≤ b.toNat := by
  revert b; decide +kernel

theorem and_7f (b : Byte) : (b &&& 0x7f).toNat = b.toNat % 128 := by
  revert b; decide +kernel

theorem takeElement_ok {tag : Tag} {L H : Word} {sk : Bool} {bs : Bytes} (hL : L.toNat ≤ bs.length) (hH : H.toNat ≤ L.toNat) :
    takeElement tag L H sk (some bs)
      = .ok (some (tag, some ((bs.take L.toNat).drop (if sk then H.toNat else 0))), some (bs.drop L.toNat)) := by
  unfold takeElement
  rw [if_neg (by simp), readBytes_ok hL]
  simp only [Res.ok_bind]
  cases sk
  · simp
  · simp only [if_true]
    rw [skip_ok (by simp; omega)]
    rfl

theorem takeElement_short {tag : Tag} {L H : Word} {sk : Bool} {bs : Bytes} (hL : bs.length < L.toNat) :
    takeElement tag L H sk (some bs) = .ok (none, some bs) := by
  unfold takeElement
  rw [if_neg (by simp), readBytes_short (by simpa using hL)]
  rfl

/-- The long-form branch of `readASN1` in terms of natural numbers. -/
def longForm (sk : Bool) (t b : Byte) (r : Bytes) : Res (Option (Tag × Str) × Str) :=
  let k := b.toNat - 128
  let n := beNat (r.take k)
  if k = 0 ∨ 4 < k ∨ r.length < k then .ok (none, some (t :: b :: r))
  else if n < 128 ∨ n < 256 ^ (k - 1) ∨ 2 ^ 32 ≤ 2 + k + n ∨ r.length < k + n then .ok (none, some (t :: b :: r))
  else .ok (some (t, some (if sk then (r.drop k).take n else t :: b :: r.take (k + n))), some (r.drop (k + n)))

theorem readASN1_long (sk : Bool) (t b : Byte) (r : Bytes) (ht : LowTag t) (hb : 128 ≤ b.toNat) :
    readASN1 sk (some (t :: b :: r)) = longForm sk t b r := by
  unfold readASN1 longForm
  have hb256 := b.isLt
  rw [if_neg (by simp)]
  rw [at_some (by simp), at_some (by simp)]
  simp only [Res.ok_bind, List.getElem_cons_zero, List.getElem_cons_succ]
  rw [if_neg (by rw [and_1f]; exact ht), if_neg (by rw [and_80]; omega)]
  have hk : (b &&& 0x7f).toNat = b.toNat - 128 := by rw [and_7f]; omega
  have c0 : ((b &&& 0x7f) = 0) ↔ b.toNat - 128 = 0 := by
    rw [← hk]; constructor
    · intro h; rw [h]; rfl
    · intro h; exact BitVec.eq_of_toNat_eq (by simpa using h)
  have c4 : ((4 : Byte) < (b &&& 0x7f)) ↔ 4 < b.toNat - 128 := by
    rw [← hk, BitVec.lt_def]; rfl
  generalize hq : (b &&& 0x7f) = q at *
  generalize hkk : b.toNat - 128 = k at *
  simp only [c0, c4]
  by_cases h1 : k = 0 ∨ 4 < k
  · rw [if_pos (by rcases h1 with h | h; exact .inl h; exact .inr (.inl h)),
      if_pos (by rcases h1 with h | h; exact .inl h; exact .inr (.inl h))]
  have h2q : (2 + q).toNat = 2 + k := by
    rw [BitVec.toNat_add, hk]; simp; omega
  by_cases h2 : r.length < k
  · rw [if_pos (by right; right; simp; omega), if_pos (by right; right; exact h2)]
  rw [if_neg (by simp; omega), if_neg (by omega)]
  rw [h2q]
  have hs : Str.slice (some (t :: b :: r)) 2 ((2 + k : Nat) : Int) = .ok (some (r.take k)) := by
    have := slice_some (bs := t :: b :: r) (a := 2) (b := 2 + k) (by omega) (by simp; omega)
    rw [show ((2 : Nat) : Int) = 2 from rfl] at this
    rw [this, Nat.add_comm 2 k]
    rfl
  rw [hs, Res.ok_bind, hk, readUnsigned_ok (by simp; omega)]
  simp only [Res.ok_bind, List.take_take, Nat.min_self]
  have hlen : (r.take k).length = k := by simp; omega
  have hn : beNat (r.take k) < 256 ^ k := by have := beNat_lt (r.take k); rwa [hlen] at this
  generalize beNat (r.take k) = n at *
  have hn32 : n < 2 ^ 32 := by
    have : 256 ^ k ≤ 256 ^ 4 := Nat.pow_le_pow_right (by omega) (by omega)
    omega
  have hnn : (BitVec.ofNat 32 n).toNat = n := by rw [BitVec.toNat_ofNat, Nat.mod_eq_of_lt hn32]
  have d1 : (BitVec.ofNat 32 n < 128) ↔ n < 128 := by rw [BitVec.lt_def, hnn]; rfl
  have d2 : (BitVec.ofNat 32 n >>> ((q - 1) * 8).toNat = 0) ↔ n < 256 ^ (k - 1) := by
    have hsh : ((q - 1) * 8).toNat = (k - 1) * 8 := by
      rw [BitVec.toNat_mul, BitVec.toNat_sub, hk]
      simp; omega
    rw [hsh]
    have : (BitVec.ofNat 32 n >>> ((k - 1) * 8)).toNat = n / 256 ^ (k - 1) := by
      rw [BitVec.toNat_ushiftRight, hnn, Nat.shiftRight_eq_div_pow, Nat.mul_comm, Nat.pow_mul]
    constructor
    · intro h
      rw [h] at this
      have h0 : n / 256 ^ (k - 1) = 0 := by rw [← this]; rfl
      rcases Nat.div_eq_zero_iff.1 h0 with h | h
      · exact absurd h (Nat.pos_iff_ne_zero.1 (Nat.pow_pos (by omega)))
      · exact h
    · intro h
      apply BitVec.eq_of_toNat_eq
      rw [this, Nat.div_eq_of_lt h]; rfl
  have hh : (2 + q.setWidth 32 : Word).toNat = 2 + k := by
    rw [BitVec.toNat_add, BitVec.toNat_setWidth, hk]; simp; omega
  have hsum : (2 + q.setWidth 32 + BitVec.ofNat 32 n : Word).toNat = (2 + k + n) % 2 ^ 32 := by
    rw [BitVec.toNat_add, hh, hnn]
  have d3 : (2 + q.setWidth 32 + BitVec.ofNat 32 n < BitVec.ofNat 32 n) ↔ 2 ^ 32 ≤ 2 + k + n := by
    rw [BitVec.lt_def, hsum, hnn]; omega
  simp only [d1, d2, d3]
  by_cases e1 : n < 128
  · simp [e1]
  by_cases e2 : n < 256 ^ (k - 1)
  · simp [e1, e2]
  by_cases e3 : 2 ^ 32 ≤ 2 + k + n
  · simp only [e1, e2, e3, if_true, if_false, true_or, or_true]
  rw [if_neg e1, if_neg e2, if_neg e3]
  rw [Nat.mod_eq_of_lt (by omega)] at hsum
  by_cases e4 : r.length < k + n
  · rw [if_pos (by omega), takeElement_short (by rw [hsum]; simp; omega)]
  · rw [if_neg (by omega), takeElement_ok (by rw [hsum]; simp; omega) (by rw [hsum, hh]; omega)]
    rw [hsum, hh]
    have e : 2 + k + n = k + n + 1 + 1 := by omega
    have e' : 2 + k = k + 1 + 1 := by omega
    rw [e, e']
    cases sk
    · simp
    · simp [List.drop_take]

theorem readASN1_short (sk : Bool) (t b : Byte) (r : Bytes) (ht : LowTag t) (hb : b.toNat < 128) :
    readASN1 sk (some (t :: b :: r)) =
      if b.toNat ≤ r.length then
        .ok (some (t, some (if sk then r.take b.toNat else t :: b :: r.take b.toNat)), some (r.drop b.toNat))
      else .ok (none, some (t :: b :: r)) := by
  unfold readASN1
  rw [if_neg (by simp)]
  rw [at_some (by simp), at_some (by simp)]
  simp only [Res.ok_bind, List.getElem_cons_zero, List.getElem_cons_succ]
  rw [if_neg (by rw [and_1f]; exact ht), if_pos ((and_80 b).2 hb)]
  have hL : (b.setWidth 32 + 2 : Word).toNat = b.toNat + 2 := by
    rw [BitVec.toNat_add, BitVec.toNat_setWidth]; simp; omega
  split
  · rename_i h
    rw [takeElement_ok (by rw [hL]; simp; omega) (by rw [hL]; simp)]
    rw [hL]
    cases sk <;> simp
  · rw [takeElement_short (by rw [hL]; simp; omega)]

theorem readASN1_highTag (sk : Bool) (t b : Byte) (r : Bytes) (ht : ¬ LowTag t) :
    readASN1 sk (some (t :: b :: r)) = .ok (none, some (t :: b :: r)) := by
  unfold readASN1
  rw [if_neg (by simp)]
  rw [at_some (by simp), at_some (by simp)]
  simp only [Res.ok_bind, List.getElem_cons_zero, List.getElem_cons_succ]
  rw [if_pos]
  rw [and_1f]
  simpa [LowTag] using ht

theorem readASN1_tiny (sk : Bool) (s : Str) (h : s.len < 2) : readASN1 sk s = .ok (none, s) := by
  unfold readASN1; rw [if_pos h]

theorem length_lenOctets (n : Nat) : (lenOctets n).length = if n < 128 then 1 else 1 + byteLen n := by
  unfold lenOctets; split <;> simp [Nat.add_comm]

theorem lenOctets_append_inj {m n : Nat} {x y : Bytes} (hm : byteLen m < 127) (hn : byteLen n < 127)
    (h : lenOctets m ++ x = lenOctets n ++ y) : m = n ∧ x = y := by
  have key : m = n := by
    unfold lenOctets at h
    have tn : ∀ k : Nat, k < 256 → (BitVec.ofNat 8 k).toNat = k := by intro k hk; simp; omega
    split at h <;> split at h
    · rename_i h1 h2
      simp only [List.singleton_append, List.cons.injEq] at h
      have := congrArg BitVec.toNat h.1
      rwa [tn _ (by omega), tn _ (by omega)] at this
    · simp only [List.cons_append, List.cons.injEq] at h
      have := congrArg BitVec.toNat h.1
      rw [tn _ (by omega), tn _ (by omega)] at this
      omega
    · simp only [List.cons_append, List.cons.injEq] at h
      have := congrArg BitVec.toNat h.1
      rw [tn _ (by omega), tn _ (by omega)] at this
      omega
    · simp only [List.cons_append, List.cons.injEq] at h
      have := congrArg BitVec.toNat h.1
      rw [tn _ (by omega), tn _ (by omega)] at this
      have h2 := (List.append_inj h.2 (by simp; omega)).1
      exact natBytes_inj h2
  subst key
  exact ⟨rfl, List.append_cancel_left h⟩

theorem byteLen_lt_127 {n : Nat} (h : n < 2 ^ 32) : byteLen n < 127 := by
  have : byteLen n ≤ 4 := (byteLen_le_iff _ _).2 (by omega)
  omega

/-- An element is determined by the bytes it starts. -/
theorem elem_append_inj {t t' : Byte} {c c' x y : Bytes} (hc : byteLen c.length < 127) (hc' : byteLen c'.length < 127)
    (h : elem t c ++ x = elem t' c' ++ y) : t = t' ∧ c = c' ∧ x = y := by
  unfold elem at h
  simp only [List.cons_append, List.append_assoc, List.cons.injEq] at h
  obtain ⟨h1, h2⟩ := lenOctets_append_inj hc hc' h.2
  obtain ⟨h3, h4⟩ := List.append_inj h2 h1
  exact ⟨h.1, h3, h4⟩

theorem length_elem (t : Byte) (c : Bytes) : (elem t c).length = 1 + (lenOctets c.length).length + c.length := by
  simp [elem]; omega

theorem length_elem_lt {t : Byte} {c : Bytes} (h : (elem t c).length < 2 ^ 32) : byteLen c.length < 127 := by
  rw [length_elem] at h
  exact byteLen_lt_127 (by omega)

/-- Reading back an element. -/
theorem readASN1_elem (sk : Bool) {t : Byte} {c : Bytes} (rest : Bytes) (ht : LowTag t) (h : (elem t c).length < 2 ^ 32) :
    readASN1 sk (some (elem t c ++ rest)) = .ok (some (t, some (if sk then c else elem t c)), some rest) := by
  have hL := length_elem t c
  rw [length_lenOctets] at hL
  unfold elem lenOctets
  by_cases hs : c.length < 128
  · rw [if_pos hs]
    simp only [List.cons_append, List.nil_append]
    have hb : (BitVec.ofNat 8 c.length).toNat = c.length := by simp; omega
    rw [readASN1_short sk t _ _ ht (by omega), hb, if_pos (by simp), List.take_left, List.drop_left]
  · rw [if_neg hs] at hL ⊢
    have hk4 : byteLen c.length ≤ 4 := (byteLen_le_iff _ _).2 (by omega)
    simp only [List.cons_append, List.append_assoc]
    have hb : (BitVec.ofNat 8 (128 + byteLen c.length)).toNat = 128 + byteLen c.length := by simp; omega
    rw [readASN1_long sk t _ _ ht (by omega)]
    unfold longForm
    simp only [hb, Nat.add_sub_cancel_left]
    have hpos := byteLen_pos (n := c.length) (by omega)
    have htake : ∀ z, (natBytes c.length ++ z).take (byteLen c.length) = natBytes c.length := by
      intro z; conv => lhs; arg 1; rw [← length_natBytes]
      exact List.take_left
    have hdrop : ∀ z, (natBytes c.length ++ z).drop (byteLen c.length) = z := by
      intro z; conv => lhs; arg 1; rw [← length_natBytes]
      exact List.drop_left
    rw [htake, beNat_natBytes, hdrop]
    have hp := pow_byteLen_le (n := c.length) (by omega)
    rw [if_neg (by simp; omega), if_neg (by simp; omega)]
    have e : byteLen c.length + c.length = (natBytes c.length ++ c).length := by simp
    rw [List.take_left, ← List.append_assoc, e, List.take_left, List.drop_left]

/-- Whatever is read is an element at the front; otherwise nothing is consumed. -/
theorem readASN1_sound (sk : Bool) (bs : Bytes) :
    readASN1 sk (some bs) = .ok (none, some bs) ∨
    ∃ t c rest, LowTag t ∧ (elem t c).length < 2 ^ 32 ∧ bs = elem t c ++ rest ∧
      readASN1 sk (some bs) = .ok (some (t, some (if sk then c else elem t c)), some rest) := by
  match bs with
  | [] => exact .inl (readASN1_tiny sk _ (by simp))
  | [_] => exact .inl (readASN1_tiny sk _ (by simp))
  | t :: b :: r =>
    by_cases ht' : ¬ LowTag t
    · exact .inl (readASN1_highTag sk t b r ht')
    have ht : LowTag t := Decidable.not_not.1 ht'
    by_cases hb : b.toNat < 128
    · rw [readASN1_short sk t b r ht hb]
      split
      · rename_i hle
        right
        have hl : (r.take b.toNat).length = b.toNat := by simp; omega
        have he : elem t (r.take b.toNat) = t :: b :: r.take b.toNat := by
          unfold elem lenOctets; rw [hl, if_pos hb]; simp
        refine ⟨t, r.take b.toNat, r.drop b.toNat, ht, ?_, ?_, ?_⟩
        · rw [he]; simp only [List.length_cons, hl]; omega
        · rw [he]; simp
        · rw [he]
      · exact .inl rfl
    · rw [readASN1_long sk t b r ht (by omega)]
      unfold longForm
      have hb256 := b.isLt
      simp only
      split
      · exact .inl rfl
      split
      · exact .inl rfl
      rename_i h1 h2
      right
      generalize hk : b.toNat - 128 = k at *
      have hlen : (r.take k).length = k := by simp; omega
      generalize hn : beNat (r.take k) = n at *
      have hc : ((r.drop k).take n).length = n := by simp; omega
      have hnb : natBytes n = r.take k := by
        unfold natBytes
        have hle : byteLen n ≤ k := by
          rw [byteLen_le_iff]; have := beNat_lt (r.take k); rwa [hlen, hn] at this
        have hge : ¬ byteLen n ≤ k - 1 := by
          rw [byteLen_le_iff]; omega
        rw [show byteLen n = k by omega, ← hn]
        exact toBE_beNat' hlen
      have hbl : byteLen n = k := by rw [← length_natBytes, hnb, hlen]
      have he : elem t ((r.drop k).take n) = t :: b :: r.take (k + n) := by
        unfold elem lenOctets
        rw [hc, if_neg (by omega), hnb, hbl, show 128 + k = b.toNat by omega, List.take_add]
        simp
      refine ⟨t, (r.drop k).take n, r.drop (k + n), ht, ?_, ?_, ?_⟩
      · rw [he]; simp only [List.length_cons, List.length_take]; omega
      · rw [he]; simp
      · rw [he]

theorem readASN1_nil (sk : Bool) : readASN1 sk none = .ok (none, none) := readASN1_tiny sk _ (by simp)

/-- `ReadASN1` with a given tag: succeeds on an element with that tag; otherwise fails, having consumed either
nothing or an element with another tag. -/
theorem readASN1Tag_elem {t : Byte} {c : Bytes} (rest : Bytes) (ht : LowTag t) (h : (elem t c).length < 2 ^ 32) :
    readASN1Tag t (some (elem t c ++ rest)) = .ok (some (some c), some rest) := by
  unfold readASN1Tag readAnyASN1
  rw [readASN1_elem true rest ht h]
  simp

theorem readASN1Tag_cases (tag : Tag) (s : Str) :
    (readASN1Tag tag s = .ok (none, s)) ∨
    (∃ t c rest, t ≠ tag ∧ LowTag t ∧ (elem t c).length < 2 ^ 32 ∧ s = some (elem t c ++ rest) ∧
      readASN1Tag tag s = .ok (none, some rest)) ∨
    (∃ c rest, LowTag tag ∧ (elem tag c).length < 2 ^ 32 ∧ s = some (elem tag c ++ rest) ∧
      readASN1Tag tag s = .ok (some (some c), some rest)) := by
  cases s with
  | none => left; unfold readASN1Tag readAnyASN1; rw [readASN1_nil]; rfl
  | some bs =>
    rcases readASN1_sound true bs with h | ⟨t, c, rest, h1, h2, h3, h4⟩
    · left; unfold readASN1Tag readAnyASN1; rw [h]; rfl
    · right
      by_cases e : t = tag
      · right
        subst e
        refine ⟨c, rest, h1, h2, by rw [h3], ?_⟩
        unfold readASN1Tag readAnyASN1; rw [h4]; simp
      · left
        refine ⟨t, c, rest, e, h1, h2, by rw [h3], ?_⟩
        unfold readASN1Tag readAnyASN1; rw [h4]; simp [e]

end Verif.CB
