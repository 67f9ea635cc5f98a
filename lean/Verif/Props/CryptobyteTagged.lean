import Verif.Props.CryptobyteRead
/-!
# C20 for the readers that are given a tag

`ReadASN1`, `ReadASN1Bytes`, `ReadASN1Element` and `SkipASN1`: exactly which strings they accept and what is left.
-/
namespace Verif.Props
open Verif Verif.CB Verif.Spec.DER

/-- `s` starts with an element of this tag that has these contents, and `rest` follows. -/
def StartsWith (tag : Tag) (s c e rest : Bytes) : Prop := IsElem tag c e ∧ e.length ≤ 2 ^ 32 - 1 ∧ s = e ++ rest

/-- C20 for `ReadASN1` and `ReadASN1Bytes`: success exactly for a minimal DER element of the tag; its contents are returned. -/
theorem C20_readASN1_iff (tag : Tag) (s : Bytes) (out s' : Str) :
    (readASN1Tag tag (some s) = .ok (some out, s') ↔ ∃ c e rest, StartsWith tag s c e rest ∧ out = some c ∧ s' = some rest) ∧
    (readASN1Bytes tag (some s) = .ok (some out, s') ↔ ∃ c e rest, StartsWith tag s c e rest ∧ out = some c ∧ s' = some rest) := by
  have key : readASN1Tag tag (some s) = .ok (some out, s') ↔ readAnyASN1 (some s) = .ok (some (tag, out), s') := by
    unfold readASN1Tag
    constructor
    · intro h
      rw [Res.bind_eq_ok] at h
      obtain ⟨⟨r, s1⟩, h1, h2⟩ := h
      match r with
      | none => cases h2
      | some (t, o) =>
        dsimp only at h2
        split at h2
        · cases h2
        · rename_i ht
          cases h2
          rw [h1, Decidable.not_not.1 ht]
    · intro h
      rw [h]
      exact if_neg (fun h => h rfl)
  have fin : readASN1Tag tag (some s) = .ok (some out, s') ↔ ∃ c e rest, StartsWith tag s c e rest ∧ out = some c ∧ s' = some rest := by
    rw [key, C20_readAnyASN1_iff]
    unfold StartsWith
    simp only [and_assoc]
  exact ⟨fin, fin⟩

/-- C20 for `ReadASN1Element`: the same elements, returned with their header. -/
theorem C20_readASN1Element_iff (tag : Tag) (s : Bytes) (out s' : Str) :
    readASN1Element tag (some s) = .ok (some out, s') ↔ ∃ c e rest, StartsWith tag s c e rest ∧ out = some e ∧ s' = some rest := by
  have key : readASN1Element tag (some s) = .ok (some out, s') ↔ readAnyASN1Element (some s) = .ok (some (tag, out), s') := by
    unfold readASN1Element
    constructor
    · intro h
      rw [Res.bind_eq_ok] at h
      obtain ⟨⟨r, s1⟩, h1, h2⟩ := h
      match r with
      | none => cases h2
      | some (t, o) =>
        dsimp only at h2
        split at h2
        · cases h2
        · rename_i ht
          cases h2
          rw [h1, Decidable.not_not.1 ht]
    · intro h
      rw [h]
      exact if_neg (fun h => h rfl)
  rw [key, C20_readAnyASN1Element_iff]
  unfold StartsWith
  simp only [and_assoc]

/-- C20 for `SkipASN1`: success exactly for a minimal DER element of the tag, and exactly this element is skipped. -/
theorem C20_skipASN1_iff (tag : Tag) (s : Bytes) (s' : Str) :
    skipASN1 tag (some s) = .ok (some (), s') ↔ ∃ c e rest, StartsWith tag s c e rest ∧ s' = some rest := by
  unfold skipASN1
  rw [Res.bind_eq_ok]
  constructor
  · rintro ⟨⟨r, s1⟩, h1, h2⟩
    match r with
    | none => cases h2
    | some o =>
      cases h2
      obtain ⟨c, e, rest, a, -, b⟩ := (C20_readASN1_iff tag s o s').1.1 h1
      exact ⟨c, e, rest, a, b⟩
  · rintro ⟨c, e, rest, a, b⟩
    exact ⟨(some (some c), s'), (C20_readASN1_iff tag s (some c) s').1.2 ⟨c, e, rest, a, rfl, b⟩, rfl⟩

/-- C20 for `PeekASN1Tag`: it says whether the first byte is the tag, and never panics. -/
theorem C20_peek (tag : Tag) (s : Bytes) : peekASN1Tag tag (some s) = .ok (decide (s.head? = some tag)) ∧ peekASN1Tag tag none = .ok false := by
  constructor
  · cases s with
    | nil => rfl
    | cons b s =>
      have : peekASN1Tag tag (some (b :: s)) = .ok (decide (b = tag)) := by
        unfold peekASN1Tag
        rw [if_neg (by simp [Str.len, Str.bytes])]
        rfl
      rw [this]
      simp
  · rfl

/-! ## Cases -/

/-- A SEQUENCE with two bytes behind it, and the same string read with the tag of a SET. -/
example : readASN1Bytes 0x30 (some [0x30, 1, 7, 8, 9]) = .ok (some (some [7]), some [8, 9]) ∧
    readASN1Element 0x30 (some [0x30, 1, 7, 8, 9]) = .ok (some (some [0x30, 1, 7]), some [8, 9]) ∧
    skipASN1 0x30 (some [0x30, 1, 7, 8, 9]) = .ok (some (), some [8, 9]) ∧
    (skipASN1 0x31 (some [0x30, 1, 7, 8, 9])).bind (fun r => .ok r.1) = .ok none ∧
    peekASN1Tag 0x30 (some [0x30]) = .ok true ∧ peekASN1Tag 0x31 (some [0x30]) = .ok false := by decide
end Verif.Props
