import Verif.CB.OidLemmas
/-! Every reader returns, consumes a prefix and returns parts of what it consumed. -/
namespace Verif.CB
open Spec.DER

/-- The reader never panics or loops, leaves a suffix of its input, and every byte string in its result (listed by `parts`)
occurs in the consumed prefix. -/
def Safe {α : Type} (rd : Reader α) (parts : α → List Bytes) : Prop :=
  ∀ s : Str, ∃ (r : Option α) (s' : Str) (pre : Bytes), rd s = .ok (r, s') ∧ s.bytes = pre ++ s'.bytes ∧
    ∀ v, r = some v → ∀ c ∈ parts v, c <:+: pre

/-- `Safe` with no byte strings in the result. -/
abbrev Safe0 {α : Type} (rd : Reader α) : Prop := Safe rd fun _ => []

theorem Safe.post {α β : Type} {rd : Reader α} {p : α → List Bytes} {q : β → List Bytes} (h : Safe rd p) {rd' : Reader β}
    (f : α → Res (Option β))
    (hf : ∀ a, ∃ r, f a = .ok r ∧ ∀ w, r = some w → ∀ c ∈ q w, ∃ c' ∈ p a, c <:+: c')
    (hn : ∀ s s', rd s = .ok (none, s') → rd' s = .ok (none, s'))
    (hs : ∀ s s' a, rd s = .ok (some a, s') → rd' s = (f a >>= fun v => .ok (v, s'))) : Safe rd' q := by
  intro s
  obtain ⟨r, s', pre, h1, h2, h3⟩ := h s
  cases r with
  | none => exact ⟨none, s', pre, hn _ _ h1, h2, by simp⟩
  | some a =>
    obtain ⟨r, hr, hr2⟩ := hf a
    refine ⟨r, s', pre, by rw [hs _ _ _ h1, hr]; rfl, h2, ?_⟩
    intro w hw c hc
    obtain ⟨c', hc', hi⟩ := hr2 w hw c hc
    exact hi.trans (h3 a rfl c' hc')

theorem read_cases (n : Nat) (s : Str) :
    read (n : Int) s = .ok (none, s) ∨ ∃ bs, s = some bs ∧ n ≤ bs.length ∧ read (n : Int) s = .ok (some (bs.take n), some (bs.drop n)) := by
  cases s with
  | none => exact .inl (read_none n)
  | some bs =>
    by_cases h : n ≤ bs.length
    · exact .inr ⟨bs, rfl, h, read_some h⟩
    · exact .inl (read_short (by simp; omega))

theorem safe_skip (n : Nat) : Safe0 (skip n) := by
  intro s
  rcases read_cases n s with h | ⟨bs, rfl, hl, h⟩
  · exact ⟨none, s, [], by unfold skip; rw [h]; rfl, by simp, by simp⟩
  · exact ⟨some (), _, bs.take n, by unfold skip; rw [h]; rfl, by simp, by simp⟩

theorem safe_readBytes (n : Nat) : Safe (readBytes n) fun v => [v.bytes] := by
  intro s
  rcases read_cases n s with h | ⟨bs, rfl, hl, h⟩
  · exact ⟨none, s, [], by unfold readBytes; rw [h]; rfl, by simp, by simp⟩
  · refine ⟨some (some (bs.take n)), _, bs.take n, by unfold readBytes; rw [h]; rfl, by simp, ?_⟩
    rintro v hv c hc
    cases hv
    simp at hc
    rw [hc]

theorem safe_copyBytes (n : Nat) : Safe (copyBytes n) fun v => [v] := by
  intro s
  rcases read_cases n s with h | ⟨bs, rfl, hl, h⟩
  · exact ⟨none, s, [], by unfold copyBytes; rw [h]; rfl, by simp, by simp⟩
  · refine ⟨some (bs.take n), some (bs.drop n), bs.take n, ?_, by simp, ?_⟩
    · unfold copyBytes; rw [h]
      simp only [Res.ok_bind]
      rw [if_pos (by simp; omega)]
      simp
    · rintro v hv c hc
      cases hv
      simp at hc
      rw [hc]

theorem safe_readUint8 : Safe0 readUint8 := by
  intro s
  rcases read_cases 1 s with h | ⟨bs, rfl, hl, h⟩
  · exact ⟨none, s, [], by unfold readUint8; rw [show (1 : Int) = (1 : Nat) from rfl, h]; rfl, by simp, by simp⟩
  · have : ∃ v, readUint8 (some bs) = .ok (some v, some (bs.drop 1)) := by
      unfold readUint8; rw [show (1 : Int) = (1 : Nat) from rfl, h]
      simp only [Res.ok_bind]
      rw [at_some (by simp; omega)]
      exact ⟨_, rfl⟩
    obtain ⟨v, hv⟩ := this
    exact ⟨_, _, bs.take 1, hv, (List.take_append_drop 1 bs).symm, by simp⟩

theorem safe_readUint16 : Safe0 readUint16 := by
  intro s
  rcases read_cases 2 s with h | ⟨bs, rfl, hl, h⟩
  · exact ⟨none, s, [], by unfold readUint16; rw [show (2 : Int) = (2 : Nat) from rfl, h]; rfl, by simp, by simp⟩
  · have : ∃ v, readUint16 (some bs) = .ok (some v, some (bs.drop 2)) := by
      unfold readUint16; rw [show (2 : Int) = (2 : Nat) from rfl, h]
      simp only [Res.ok_bind]
      rw [at_some (by simp; omega), at_some (by simp; omega)]
      exact ⟨_, rfl⟩
    obtain ⟨v, hv⟩ := this
    exact ⟨_, _, bs.take 2, hv, (List.take_append_drop 2 bs).symm, by simp⟩

theorem safe_readUint24 : Safe0 readUint24 := by
  intro s
  rcases read_cases 3 s with h | ⟨bs, rfl, hl, h⟩
  · exact ⟨none, s, [], by unfold readUint24; rw [show (3 : Int) = (3 : Nat) from rfl, h]; rfl, by simp, by simp⟩
  · have : ∃ v, readUint24 (some bs) = .ok (some v, some (bs.drop 3)) := by
      unfold readUint24; rw [show (3 : Int) = (3 : Nat) from rfl, h]
      simp only [Res.ok_bind]
      rw [at_some (by simp; omega), at_some (by simp; omega), at_some (by simp; omega)]
      exact ⟨_, rfl⟩
    obtain ⟨v, hv⟩ := this
    exact ⟨_, _, bs.take 3, hv, (List.take_append_drop 3 bs).symm, by simp⟩

theorem safe_readUint32 : Safe0 readUint32 := by
  intro s
  rcases read_cases 4 s with h | ⟨bs, rfl, hl, h⟩
  · exact ⟨none, s, [], by unfold readUint32; rw [show (4 : Int) = (4 : Nat) from rfl, h]; rfl, by simp, by simp⟩
  · have : ∃ v, readUint32 (some bs) = .ok (some v, some (bs.drop 4)) := by
      unfold readUint32; rw [show (4 : Int) = (4 : Nat) from rfl, h]
      simp only [Res.ok_bind]
      rw [at_some (by simp; omega), at_some (by simp; omega), at_some (by simp; omega), at_some (by simp; omega)]
      exact ⟨_, rfl⟩
    obtain ⟨v, hv⟩ := this
    exact ⟨_, _, bs.take 4, hv, (List.take_append_drop 4 bs).symm, by simp⟩

theorem safe_readLengthPrefixed (k : Nat) (hk : k ≤ 4) : Safe (readLengthPrefixed k) fun v => [v.bytes] := by
  intro s
  rcases read_cases k s with h | ⟨bs, rfl, hl, h⟩
  · exact ⟨none, s, [], by unfold readLengthPrefixed; rw [h]; rfl, by simp, by simp⟩
  · rw [readLengthPrefixed_eq hl hk]
    split
    · rename_i h2
      refine ⟨_, _, bs.take (k + beNat (bs.take k)), rfl, ?_, ?_⟩
      · simp [List.drop_drop]
      · rintro v hv c hc
        cases hv
        simp at hc
        rw [hc, List.take_add]
        exact ⟨bs.take k, [], by simp⟩
    · exact ⟨none, some (bs.drop k), bs.take k, rfl, by simp, by simp⟩

theorem safe_readASN1 (sk : Bool) : Safe (readASN1 sk) fun v => [v.2.bytes] := by
  intro s
  cases s with
  | none => exact ⟨none, none, [], readASN1_nil sk, rfl, by simp⟩
  | some bs =>
    rcases readASN1_sound sk bs with h | ⟨t, c, rest, h1, h2, rfl, h4⟩
    · exact ⟨none, _, [], h, rfl, by simp⟩
    · refine ⟨_, _, elem t c, h4, rfl, ?_⟩
      rintro v hv c' hc
      cases hv
      simp at hc
      rw [hc]
      cases sk
      · exact ⟨[], [], by simp⟩
      · exact ⟨t :: lenOctets c.length, [], by simp [elem]⟩

theorem safe_readASN1Tag (tag : Tag) : Safe (readASN1Tag tag) fun v => [v.bytes] := by
  refine (safe_readASN1 true).post (fun a => .ok (if a.1 ≠ tag then none else some a.2)) ?_ ?_ ?_
  · intro a
    refine ⟨_, rfl, ?_⟩
    intro w hw c hc
    split at hw
    · cases hw
    · cases hw; exact ⟨c, hc, List.infix_rfl⟩
  · intro s s' h; unfold readASN1Tag readAnyASN1; rw [h]; rfl
  · intro s s' a h
    unfold readASN1Tag readAnyASN1; rw [h]
    obtain ⟨t, o⟩ := a
    simp only [Res.ok_bind]
    split <;> rfl

theorem safe_readASN1Element (tag : Tag) : Safe (readASN1Element tag) fun v => [v.bytes] := by
  refine (safe_readASN1 false).post (fun a => .ok (if a.1 ≠ tag then none else some a.2)) ?_ ?_ ?_
  · intro a
    refine ⟨_, rfl, ?_⟩
    intro w hw c hc
    split at hw
    · cases hw
    · cases hw; exact ⟨c, hc, List.infix_rfl⟩
  · intro s s' h; unfold readASN1Element readAnyASN1Element; rw [h]; rfl
  · intro s s' a h
    unfold readASN1Element readAnyASN1Element; rw [h]
    obtain ⟨t, o⟩ := a
    simp only [Res.ok_bind]
    split <;> rfl

theorem safe_skipASN1 (tag : Tag) : Safe0 (skipASN1 tag) := by
  refine (safe_readASN1Tag tag).post (fun a => .ok (some ())) (fun a => ⟨_, rfl, by simp⟩) ?_ ?_
  · intro s s' h; unfold skipASN1; rw [h]; rfl
  · intro s s' a h; unfold skipASN1; rw [h]; rfl

theorem at_zero_of_len {s : Str} (h : s.len ≠ 0) : ∃ b, s.at 0 = .ok b := by
  cases s with
  | none => simp at h
  | some bs => rw [len_some] at h; exact ⟨_, at_some (by omega)⟩

theorem safe_readASN1Boolean : Safe0 readASN1Boolean := by
  refine (safe_readASN1Tag tagINTEGER).post (fun bytes => if bytes.len ≠ 1 then .ok none else (bytes.at 0 >>= fun b => .ok (boolOfByte b))) ?_ ?_ ?_
  · intro a
    by_cases h : a.len ≠ 1
    · exact ⟨none, if_pos h, by simp⟩
    · obtain ⟨b, hb⟩ := at_zero_of_len (s := a) (by omega)
      exact ⟨boolOfByte b, by rw [if_neg h, hb]; rfl, by simp⟩
  · intro s s' h; unfold readASN1Boolean; rw [h]; rfl
  · intro s s' a h
    unfold readASN1Boolean; rw [h]
    simp only [Res.ok_bind]
    split
    · rfl
    · rw [bind_assoc]; rfl

theorem checkASN1Integer_none : checkASN1Integer none = .ok false := rfl

theorem safe_readIntegerContent (tag : Tag) : Safe (readIntegerContent tag) fun v => [v.bytes] := by
  refine (safe_readASN1Tag tag).post (fun a => checkASN1Integer a >>= fun c => .ok (if c then some a else none)) ?_ ?_ ?_
  · intro a
    have : ∃ c, checkASN1Integer a = .ok c := by
      cases a with
      | none => exact ⟨_, checkASN1Integer_none⟩
      | some bs => exact ⟨_, checkASN1Integer_eq bs⟩
    obtain ⟨c, hc⟩ := this
    refine ⟨_, by rw [hc]; rfl, ?_⟩
    intro w hw c' hc'
    split at hw
    · cases hw; exact ⟨c', hc', List.infix_rfl⟩
    · cases hw
  · intro s s' h; unfold readIntegerContent; rw [h]; rfl
  · intro s s' a h
    unfold readIntegerContent; rw [h]
    simp only [Res.ok_bind]
    rw [bind_assoc]
    congr 1
    funext c
    cases c <;> rfl

theorem safe_readASN1BigInt : Safe0 readASN1BigInt := by
  intro s
  unfold readASN1BigInt
  rcases readIntegerContent_cases tagINTEGER s with h1 | ⟨t, c, rest', h1, h2, rfl, h4, h5⟩ | ⟨c, rest', h1, h2, rfl, h4, h5⟩
  · exact ⟨none, s, [], by rw [h1]; rfl, rfl, by simp⟩
  · exact ⟨none, _, elem t c, by rw [h5]; rfl, rfl, by simp⟩
  · exact ⟨some (intValue c), some rest', elem tagINTEGER c, by rw [h5]; simp only [Res.ok_bind, bigIntOfContent_eq h4], rfl, by simp⟩

theorem safe_readASN1Int64 : Safe0 readASN1Int64 :=
  (safe_readIntegerContent tagINTEGER).post (fun a => .ok (asn1Signed a)) (fun a => ⟨_, rfl, by simp⟩)
    (by intro s s' h; unfold readASN1Int64; rw [h]; rfl) (by intro s s' a h; unfold readASN1Int64; rw [h]; rfl)

theorem safe_readASN1Enum : Safe0 readASN1Enum :=
  (safe_readIntegerContent tagENUM).post (fun a => .ok (asn1Signed a)) (fun a => ⟨_, rfl, by simp⟩)
    (by intro s s' h; unfold readASN1Enum; rw [h]; rfl) (by intro s s' a h; unfold readASN1Enum; rw [h]; rfl)

theorem safe_readASN1Uint64 : Safe0 readASN1Uint64 := by
  intro s
  unfold readASN1Uint64
  rcases readIntegerContent_cases tagINTEGER s with h1 | ⟨t, c, rest', h1, h2, rfl, h4, h5⟩ | ⟨c, rest', h1, h2, rfl, h4, h5⟩
  · exact ⟨none, s, [], by rw [h1]; rfl, rfl, by simp⟩
  · exact ⟨none, _, elem t c, by rw [h5]; rfl, rfl, by simp⟩
  · obtain ⟨r, hr, _⟩ := asn1Unsigned_iff h4
    exact ⟨r, some rest', elem tagINTEGER c, by rw [h5]; simp only [Res.ok_bind, hr], rfl, by simp⟩

theorem safe_readASN1IntegerSigned (w : Nat) : Safe0 (readASN1IntegerSigned w) :=
  safe_readASN1Int64.post (fun i => .ok (if (i.setWidth w).signExtend 64 ≠ i then none else some (i.setWidth w))) (fun a => ⟨_, rfl, by simp⟩)
    (by intro s s' h; unfold readASN1IntegerSigned; rw [h]; rfl)
    (by intro s s' a h; unfold readASN1IntegerSigned; rw [h]; simp only [Res.ok_bind]; split <;> rfl)

theorem safe_readASN1IntegerUnsigned (w : Nat) : Safe0 (readASN1IntegerUnsigned w) :=
  safe_readASN1Uint64.post (fun i => .ok (if (i.setWidth w).setWidth 64 ≠ i then none else some (i.setWidth w))) (fun a => ⟨_, rfl, by simp⟩)
    (by intro s s' h; unfold readASN1IntegerUnsigned; rw [h]; rfl)
    (by intro s s' a h; unfold readASN1IntegerUnsigned; rw [h]; simp only [Res.ok_bind]; split <;> rfl)

theorem safe_readASN1ObjectIdentifier : Safe0 readASN1ObjectIdentifier := by
  intro s
  rcases readASN1ObjectIdentifier_sound s with ⟨pre, s', h, h2⟩ | ⟨oid, c, rest, h1, h2, rfl, h4⟩
  · rcases h with rfl | ⟨bs, rest, rfl, rfl, rfl⟩
    · exact ⟨none, _, [], h2, rfl, by simp⟩
    · exact ⟨none, _, pre, h2, rfl, by simp⟩
  · exact ⟨_, _, elem tagOBJECT_IDENTIFIER c, h4, rfl, by simp⟩

/-- The bit-string checks on non-empty content, written with the padding octet and the data. -/
theorem bitStringOfContent_eq (pad : Byte) (data : Bytes) :
    bitStringOfContent (some (pad :: data)) =
      .ok (if 7 < pad.toNat ∨ (data = [] ∧ pad ≠ 0) ∨ (∃ h : data ≠ [], (data.getLast h).toNat % 2 ^ pad.toNat ≠ 0) then none
        else some ⟨data, (data.length : Int) * 8 - pad.toNat⟩) := by
  unfold bitStringOfContent
  rw [at_some (by simp)]
  have hs : Str.slice (some (pad :: data)) 1 (Str.len (some (pad :: data))) = .ok (some data) := by
    have := slice_some (bs := pad :: data) (a := 1) (b := (pad :: data).length) (by simp) (Nat.le_refl _)
    simpa using this
  simp only [Res.ok_bind, List.getElem_cons_zero, hs]
  by_cases h7 : 7 < pad.toNat
  · rw [if_pos (show pad > 7 from BitVec.lt_def.2 (by simpa using h7)), if_pos (.inl h7)]
  · rw [if_neg (show ¬ pad > 7 by intro h; exact h7 (by simpa using BitVec.lt_def.1 h))]
    cases hd : data with
    | nil =>
      rw [if_pos (by simp)]
      by_cases hp : pad ≠ 0
      · rw [if_pos hp, if_pos (.inr (.inl ⟨rfl, hp⟩))]
      · rw [if_neg hp, if_neg]
        · rfl
        · rintro (h | ⟨_, h⟩ | ⟨h, _⟩)
          · exact h7 h
          · exact hp h
          · exact h rfl
    | cons d ds =>
      rw [if_neg (by simp)]
      have hlast : Str.at (some (d :: ds)) (Str.len (some (d :: ds)) - 1) = .ok ((d :: ds).getLast (by simp)) := by
        rw [at_some (by simp), List.getLast_eq_getElem]
        rfl
      simp only [hlast, Res.ok_bind]
      have mask : ∀ (l : Byte) (p : Byte), ¬ 7 < p.toNat → ((l &&& ((1 : Byte) <<< p.toNat - 1) ≠ 0) ↔ l.toNat % 2 ^ p.toNat ≠ 0) := by
        intro l p hp
        have hp8 : p.toNat < 8 := by omega
        generalize p.toNat = k at hp8
        have : k = 0 ∨ k = 1 ∨ k = 2 ∨ k = 3 ∨ k = 4 ∨ k = 5 ∨ k = 6 ∨ k = 7 := by omega
        rcases this with rfl | rfl | rfl | rfl | rfl | rfl | rfl | rfl <;> (revert l; decide +kernel)
      have hm := mask ((d :: ds).getLast (by simp)) pad h7
      by_cases hz : ((d :: ds).getLast (by simp)).toNat % 2 ^ pad.toNat ≠ 0
      · rw [if_pos (hm.2 hz), if_pos (.inr (.inr ⟨by simp, hz⟩))]
      · rw [if_neg (by rw [hm]; exact hz), if_neg]
        · rfl
        · rintro (h | ⟨h, _⟩ | ⟨_, h⟩)
          · exact h7 h
          · simp at h
          · exact hz h

theorem safe_readASN1BitString : Safe readASN1BitString fun v => [v.bytes] := by
  refine (safe_readASN1Tag tagBIT_STRING).post (fun a => if a.len = 0 then .ok none else bitStringOfContent a) ?_ ?_ ?_
  · intro a
    by_cases h : a.len = 0
    · exact ⟨none, if_pos h, by simp⟩
    · rw [if_neg h]
      match a with
      | none => simp at h
      | some [] => simp at h
      | some (pad :: data) =>
        rw [bitStringOfContent_eq]
        refine ⟨_, rfl, ?_⟩
        intro w hw c hc
        split at hw
        · cases hw
        · cases hw
          simp at hc
          rw [hc]
          exact ⟨pad :: data, by simp, ⟨[pad], [], by simp⟩⟩
  · intro s s' h; unfold readASN1BitString; rw [h]; rfl
  · intro s s' a h
    unfold readASN1BitString; rw [h]
    simp only [Res.ok_bind]
    split <;> rfl

theorem safe_readASN1BitStringAsBytes : Safe readASN1BitStringAsBytes fun v => [v.bytes] := by
  refine (safe_readASN1Tag tagBIT_STRING).post (fun a => if a.len = 0 then .ok none else
    a.at 0 >>= fun p => if p ≠ 0 then .ok none else a.slice 1 a.len >>= fun o => .ok (some o)) ?_ ?_ ?_
  · intro a
    by_cases h : a.len = 0
    · exact ⟨none, if_pos h, by simp⟩
    · rw [if_neg h]
      match a with
      | none => simp at h
      | some [] => simp at h
      | some (pad :: data) =>
        rw [at_some (by simp)]
        have hs : Str.slice (some (pad :: data)) 1 (Str.len (some (pad :: data))) = .ok (some data) := by
          have := slice_some (bs := pad :: data) (a := 1) (b := (pad :: data).length) (by simp) (Nat.le_refl _)
          simpa using this
        simp only [Res.ok_bind, List.getElem_cons_zero, hs]
        by_cases hp : pad ≠ 0
        · exact ⟨none, if_pos hp, by simp⟩
        · refine ⟨some (some data), if_neg hp, ?_⟩
          rintro w hw c hc
          cases hw
          simp at hc
          rw [hc]
          exact ⟨pad :: data, by simp, ⟨[pad], [], by simp⟩⟩
  · intro s s' h; unfold readASN1BitStringAsBytes; rw [h]; rfl
  · intro s s' a h
    unfold readASN1BitStringAsBytes; rw [h]
    simp only [Res.ok_bind]
    split
    · rfl
    · rw [bind_assoc]
      congr 1
      funext p
      split
      · rfl
      · rw [bind_assoc]; rfl

theorem peek_eq (tag : Tag) (s : Str) : peekASN1Tag tag s = .ok (decide (s.bytes.head? = some tag)) := by
  unfold peekASN1Tag
  match s with
  | none => rfl
  | some [] => rfl
  | some (b :: bs) =>
    rw [if_neg (by simp), at_some (by simp)]
    simp

theorem safe_readOptionalASN1 (tag : Tag) : Safe (readOptionalASN1 tag) fun v => (v.map Str.bytes).toList := by
  intro s
  unfold readOptionalASN1
  rw [peek_eq]
  simp only [Res.ok_bind]
  by_cases h : s.bytes.head? = some tag
  · simp only [h, decide_true, if_true]
    obtain ⟨r, s', pre, h1, h2, h3⟩ := safe_readASN1Tag tag s
    rw [h1]
    simp only [Res.ok_bind]
    cases r with
    | none => exact ⟨none, s', pre, rfl, h2, by simp⟩
    | some o =>
      refine ⟨_, s', pre, rfl, h2, ?_⟩
      rintro v hv c hc
      cases hv
      exact h3 o rfl c (by simpa using hc)
  · simp only [h, decide_false]
    refine ⟨_, s, [], rfl, rfl, ?_⟩
    rintro v hv c hc
    cases hv
    simp at hc

theorem safe_skipOptionalASN1 (tag : Tag) : Safe0 (skipOptionalASN1 tag) := by
  intro s
  unfold skipOptionalASN1
  rw [peek_eq]
  simp only [Res.ok_bind]
  by_cases h : s.bytes.head? = some tag
  · simp only [h, decide_true, Bool.not_true]
    obtain ⟨r, s', pre, h1, h2, h3⟩ := safe_readASN1Tag tag s
    rw [h1]
    exact ⟨_, s', pre, rfl, h2, by simp⟩
  · simp only [h, decide_false]
    exact ⟨_, s, [], rfl, rfl, by simp⟩

theorem safe_readOptionalASN1Integer {α : Type} (rd : Reader α) (hrd : Safe0 rd) (tag : Tag) (d : α) :
    Safe0 (readOptionalASN1Integer rd tag d) := by
  refine (safe_readOptionalASN1 tag).post (fun o => match o with
    | none => .ok (some d)
    | some i => rd i >>= fun p => .ok (match p.1 with | none => none | some v => if p.2.empty then some v else none)) ?_ ?_ ?_
  · intro o
    cases o with
    | none => exact ⟨_, rfl, by simp⟩
    | some i =>
      obtain ⟨r, s', pre, h1, _, _⟩ := hrd i
      exact ⟨_, by simp only; rw [h1]; rfl, by simp⟩
  · intro s s' h; unfold readOptionalASN1Integer; rw [h]; rfl
  · intro s s' a h
    unfold readOptionalASN1Integer; rw [h]
    simp only [Res.ok_bind]
    cases a with
    | none => rfl
    | some i =>
      simp only
      rw [bind_assoc]
      congr 1
      funext p
      obtain ⟨v, i⟩ := p
      cases v with
      | none => rfl
      | some v => simp only [Res.ok_bind]; split <;> rfl

theorem safe_readOptionalASN1OctetString (tag : Tag) : Safe (readOptionalASN1OctetString tag) fun v => if v.2 then [v.1.bytes] else [] := by
  refine (safe_readOptionalASN1 tag).post (fun o => match o with
    | none => .ok (some (none, false))
    | some i => readASN1Tag tagOCTET_STRING i >>= fun p => .ok (match p.1 with | none => none | some v => if p.2.empty then some (v, true) else none)) ?_ ?_ ?_
  · intro o
    cases o with
    | none =>
      refine ⟨_, rfl, ?_⟩
      rintro w hw c hc
      cases hw
      simp at hc
    | some i =>
      obtain ⟨r, s', pre, h1, h2, h3⟩ := safe_readASN1Tag tagOCTET_STRING i
      refine ⟨_, by simp only; rw [h1]; rfl, ?_⟩
      intro w hw c hc
      refine ⟨i.bytes, by simp, ?_⟩
      cases r with
      | none => cases hw
      | some v =>
        simp only at hw
        split at hw
        · cases hw
          have := h3 v rfl c (by simpa using hc)
          rw [h2]
          exact this.trans (List.prefix_append _ _).isInfix
        · cases hw
  · intro s s' h; unfold readOptionalASN1OctetString; rw [h]; rfl
  · intro s s' a h
    unfold readOptionalASN1OctetString; rw [h]
    simp only [Res.ok_bind]
    cases a with
    | none => rfl
    | some i =>
      simp only
      rw [bind_assoc]
      congr 1
      funext p
      obtain ⟨v, i⟩ := p
      cases v with
      | none => rfl
      | some v => simp only [Res.ok_bind]; split <;> rfl

theorem safe_readOptionalASN1Boolean (d : Bool) : Safe0 (readOptionalASN1Boolean d) := by
  intro s
  obtain ⟨r, s', pre, h1, h2, _⟩ := safe_readOptionalASN1 tagBOOLEAN s
  unfold readOptionalASN1Boolean
  rw [h1]
  simp only [Res.ok_bind]
  match r with
  | none => exact ⟨none, s', pre, rfl, h2, by simp⟩
  | some none => exact ⟨some d, s', pre, rfl, h2, by simp⟩
  | some (some o) =>
    obtain ⟨r2, s2, pre2, h3, h4, _⟩ := safe_readASN1Boolean s'
    exact ⟨r2, s2, pre ++ pre2, h3, by rw [h2, h4]; simp, by simp⟩

end Verif.CB
