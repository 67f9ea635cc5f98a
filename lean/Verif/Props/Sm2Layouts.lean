import Verif.Props.Sm2Committing
import Verif.Props.Sm2Producible
/-!
# Property C148: a ciphertext read in the wrong layout

A ciphertext made as C1C2C3 and decrypted as C1C3C2, or the other way round.
-/
namespace Verif.Props
open EC Verif.Sm2
open Verif.Spec.SM2 (coords fe)

attribute [local irreducible] Spec.SM2.fe Spec.SM3.hash

/-- The key stream of a shared point. -/
def keyStream (d : ℕ) (Q : Pt) (len : ℕ) : Bytes := Spec.SM2.kdf (fe (sharedXY (d • Q)).1 ++ fe (sharedXY (d • Q)).2) len

/-- The bytes of a ciphertext that a layout takes for the encrypted text. -/
def textOf (t : Int) (c : Bytes) : Bytes := if t = 1 then (c.drop 65).take (c.length - 97) else c.drop 97

/-- The point of an accepted ciphertext, and tag and text of it in the layout `t`. -/
theorem accepted_iff (d : ℕ) (c m : Bytes) (t : Int) (ht : t = 1 ∨ t = 2) (hc : c.length < 2 ^ 31) (hl : 97 < c.length)
    (Q : Pt) (x y : ℕ) (hQ : coords Q = some (x, y)) (hp : c.take 65 = 4 :: (fe x ++ fe y)) :
    decrypt ⟨d⟩ c t = .ok m ↔ m = List.zipWith (· ^^^ ·) (textOf t c) (keyStream d Q (c.length - 97)) ∧
      tagOf t c = Spec.SM3.hash (tagInput d Q m) := by
  have hl65 : (4 :: (fe x ++ fe y) : Bytes).length = 65 := by simp [length_fe]
  have hsplit : c = 4 :: (fe x ++ fe y) ++ c.drop 65 := by rw [← hp, List.take_append_drop]
  have htext : (textOf t c).length = c.length - 97 := by
    unfold textOf
    split
    · rw [List.length_take, List.length_drop]; omega
    · rw [List.length_drop]
  rw [C45_exact d c m t hc]
  constructor
  · rintro ⟨Q', x', y', c2, c3, q1, q2, _, q4, q5⟩
    have h3 : c3.length = 32 := by rw [q5, hash_length]
    have hp' : c.take 65 = 4 :: (fe x' ++ fe y') := by
      rcases q2 with ⟨_, rfl⟩ | ⟨_, rfl⟩ <;> rw [List.append_assoc, List.take_left' (by simp [length_fe])]
    have hQQ : Q' = Q := by
      have u := unmarshal_coords q1
      rw [← hp', hp, unmarshal_coords hQ, Option.some.injEq, Prod.mk.injEq] at u
      have e1 : x = x' := Int.ofNat_inj.1 u.1
      have e2 : y = y' := Int.ofNat_inj.1 u.2
      rw [← e1, ← e2] at q1
      exact coords_inj q1 hQ
    subst hQQ
    have hl65' : (4 :: (fe x' ++ fe y') : Bytes).length = 65 := by simp [length_fe]
    have hc2 : textOf t c = c2 := by
      rcases q2 with ⟨rfl, rfl⟩ | ⟨rfl, rfl⟩
      · unfold textOf
        rw [if_pos rfl, List.append_assoc, List.drop_left' hl65', List.length_append, hl65', List.length_append, h3,
          show 65 + (c2.length + 32) - 97 = c2.length by omega, List.take_left]
      · unfold textOf
        rw [if_neg (by decide)]
        exact List.drop_left' (by rw [List.length_append, hl65', h3])
    refine ⟨?_, ?_⟩
    · rw [hc2, ← htext, hc2]; exact q4
    · obtain ⟨_, _, _, k1, k2, k3⟩ := accepted_tag hc ((C45_exact d c m t hc).2 ⟨Q', x', y', c2, c3, q1, q2, by assumption, q4, q5⟩)
      have hQQ : Q' = ‹Pt› := by
        have u := unmarshal_coords q1
        rw [← hp', k2, unmarshal_coords k1, Option.some.injEq, Prod.mk.injEq] at u
        have e1 := Int.ofNat_inj.1 u.1
        have e2 := Int.ofNat_inj.1 u.2
        rw [e1, e2] at k1
        exact coords_inj q1 k1
      rw [hQQ]; exact k3
  · rintro ⟨h1, h2⟩
    refine ⟨Q, x, y, textOf t c, tagOf t c, hQ, ?_, ?_, ?_, h2⟩
    · rcases ht with rfl | rfl
      · left
        refine ⟨rfl, ?_⟩
        unfold textOf tagOf
        rw [if_pos rfl, if_pos rfl, List.append_assoc]
        have : c.drop (c.length - 32) = (c.drop 65).drop (c.length - 97) := by
          rw [List.drop_drop]; congr 1; omega
        rw [this, List.take_append_drop, ← hsplit]
      · right
        refine ⟨rfl, ?_⟩
        unfold textOf tagOf
        rw [if_neg (by decide), if_neg (by decide), List.append_assoc]
        have : c.drop 97 = (c.drop 65).drop 32 := by rw [List.drop_drop]
        rw [this, List.take_append_drop, ← hsplit]
    · intro h
      have := congrArg List.length h1
      rw [h, List.length_zipWith, htext] at this
      unfold keyStream at this
      rw [specKdf_length] at this
      simp only [List.length_nil] at this
      omega
    · rw [htext]; exact h1
/-- The part behind the point, in the two layouts. -/
theorem behind_point (c : Bytes) (hl : 97 < c.length) :
    c.drop 65 = textOf 1 c ++ tagOf 1 c ∧ c.drop 65 = tagOf 2 c ++ textOf 2 c := by
  unfold textOf tagOf
  rw [if_pos rfl, if_pos rfl, if_neg (by decide), if_neg (by decide)]
  constructor
  · have : c.drop (c.length - 32) = (c.drop 65).drop (c.length - 97) := by
      rw [List.drop_drop]; congr 1; omega
    rw [this, List.take_append_drop]
  · have : c.drop 97 = (c.drop 65).drop 32 := by rw [List.drop_drop]
    rw [this, List.take_append_drop]

theorem length_textOf (t : Int) (c : Bytes) (hl : 97 < c.length) : (textOf t c).length = c.length - 97 := by
  unfold textOf
  split
  · rw [List.length_take, List.length_drop]; omega
  · rw [List.length_drop]

theorem length_tagOf (t : Int) (c : Bytes) (hl : 97 < c.length) : (tagOf t c).length = 32 := by
  unfold tagOf
  split
  · rw [List.length_drop]; omega
  · rw [List.length_take, List.length_drop]; omega

theorem xor_inj {a b k : Bytes} (ha : a.length = k.length) (hb : b.length = k.length)
    (h : List.zipWith (· ^^^ ·) a k = List.zipWith (· ^^^ ·) b k) : a = b := by
  rw [← zipWith_xor_self a k (by omega), ← zipWith_xor_self b k (by omega), h]

/-- **C148**: a ciphertext that is decrypted in the layout other than the one in which it was made gives the error for
ciphertexts that were changed, unless the hash of what it decrypts to happens to be the 32 bytes at the place of the tag;
and it gives the message only when the ciphertext is the same in both layouts. -/
theorem C148_layouts (d : ℕ) (pub : PublicKey) (hpub : calculatePubKey ⟨d⟩ = .ok pub) (m c : Bytes) (t t' : Int) (tape : Tape)
    (hm : m.length < 2 ^ 31 - 97) (ht : t = 1 ∧ t' = 2 ∨ t = 2 ∧ t' = 1) (h : encrypt pub m t tape = .ok c) :
    decrypt ⟨d⟩ c t' = .err "invalid cipher text" ∨
    ∃ (Q : Pt) (x y : ℕ) (m' : Bytes), coords Q = some (x, y) ∧ c.take 65 = 4 :: (fe x ++ fe y) ∧ decrypt ⟨d⟩ c t' = .ok m' ∧
      m'.length = m.length ∧ tagOf t' c = Spec.SM3.hash (tagInput d Q m') ∧
      (m' = m ↔ textOf t c ++ tagOf t c = tagOf t c ++ textOf t c) := by
  obtain ⟨h1, h2⟩ := C42_round_trip d pub hpub m t tape c h
  have hc : c.length < 2 ^ 31 := by omega
  obtain ⟨Q, x, y, c2, c3, q1, q2, q3, _, _⟩ := (C45_exact d c m t hc).1 h1
  have hl : (4 :: (fe x ++ fe y) : Bytes).length = 65 := by simp [length_fe]
  have hp : c.take 65 = 4 :: (fe x ++ fe y) := by
    rcases q2 with ⟨_, rfl⟩ | ⟨_, rfl⟩ <;> rw [List.append_assoc, List.take_left' hl]
  have hm0 : 0 < m.length := List.length_pos_iff.2 q3
  have hcl : 97 < c.length := by omega
  rcases (C46_returns_partial d c t' ⟨Q, x, y, q1, hp⟩ (by omega) hc).1 (by omega) with ⟨m', hm'⟩ | he
  swap
  · exact .inl he
  obtain ⟨a1, a2⟩ := (accepted_iff d c m t (by omega) hc hcl Q x y q1 hp).1 h1
  obtain ⟨b1, b2⟩ := (accepted_iff d c m' t' (by omega) hc hcl Q x y q1 hp).1 hm'
  have hk : (keyStream d Q (c.length - 97)).length = c.length - 97 := by unfold keyStream; rw [specKdf_length]
  have len : ∀ s : Int, (List.zipWith (· ^^^ ·) (textOf s c) (keyStream d Q (c.length - 97))).length = c.length - 97 := by
    intro s; rw [List.length_zipWith, length_textOf s c hcl, hk, Nat.min_self]
  refine .inr ⟨Q, x, y, m', q1, hp, hm', ?_, b2, ?_⟩
  · rw [b1, len]; conv_rhs => rw [a1, len]
  have key : m' = m ↔ textOf t' c = textOf t c ∧ tagOf t' c = tagOf t c := by
    constructor
    · rintro rfl
      exact ⟨xor_inj (by rw [length_textOf _ c hcl, hk]) (by rw [length_textOf _ c hcl, hk]) (b1.symm.trans a1), b2.trans a2.symm⟩
    · rintro ⟨e, _⟩
      rw [b1, e, ← a1]
  rw [key]
  obtain ⟨l1, l2⟩ := behind_point c hcl
  have lt := fun s => length_textOf s c hcl
  have lg := fun s => length_tagOf s c hcl
  rcases ht with ⟨rfl, rfl⟩ | ⟨rfl, rfl⟩
  · constructor
    · rintro ⟨e1, e2⟩
      rw [← l1, l2, e1, e2]
    · intro e
      rw [← l1, l2] at e
      obtain ⟨e1, e2⟩ := List.append_inj e (by rw [lg, lg])
      exact ⟨e2, e1⟩
  · constructor
    · rintro ⟨e1, e2⟩
      rw [← l2, l1, e1, e2]
    · intro e
      rw [← l2, l1] at e
      obtain ⟨e1, e2⟩ := List.append_inj e (by rw [lt, lt])
      exact ⟨e1.symm, e2.symm⟩

/-- When text and tag can be exchanged, each byte is found again 32 places further: a text of less than 32 bytes repeats in the
tag, a longer one repeats the tag. -/
theorem C148_repeats {text tag : Bytes} (h : text ++ tag = tag ++ text) (ht : tag.length = 32) (i : ℕ) (hi : i < text.length) :
    (text ++ tag)[i + 32]? = (text ++ tag)[i]? := by
  conv_lhs => rw [h, List.getElem?_append_right (by omega), ht, Nat.add_sub_cancel]
  rw [List.getElem?_append_left hi]

/-- The example ciphertext is refused in the other layout. -/
example : decrypt ⟨(2 : ℕ)⟩ (exC1 ++ exC2 ++ exC3) 1 = .ok [0x61] ∧ decrypt ⟨(2 : ℕ)⟩ (exC1 ++ exC2 ++ exC3) 2 = .err "invalid cipher text" ∧
    textOf 1 (exC1 ++ exC2 ++ exC3) = exC2 ∧ textOf 2 (exC1 ++ exC3 ++ exC2) = exC2 ∧
    textOf 1 (exC1 ++ exC2 ++ exC3) ++ tagOf 1 (exC1 ++ exC2 ++ exC3) ≠ tagOf 1 (exC1 ++ exC2 ++ exC3) ++ textOf 1 (exC1 ++ exC2 ++ exC3) := by
  decide +kernel

end Verif.Props
