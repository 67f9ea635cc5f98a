import Verif.Props.CryptobyteTime
/-!
# The readers look only at what they consume (C93), failing reads (C94)
-/
namespace Verif.Props
open Verif Verif.CB Verif.Spec.DER

/-- The reader depends on what it consumes only: when it succeeds, it succeeds in the same way whatever else follows. -/
def Local {α : Type} (rd : Reader α) : Prop :=
  ∀ s v s', rd s = .ok (some v, s') → ∃ used rest, s = some (used ++ rest) ∧ s' = some rest ∧ ∀ t, rd (some (used ++ t)) = .ok (some v, some t)

theorem Local.post {α β : Type} {rd : Reader α} {p : α → List Bytes} (hsafe : Safe rd p) (h : Local rd) {rd' : Reader β} (f : α → Res (Option β))
    (hn : ∀ s s', rd s = .ok (none, s') → rd' s = .ok (none, s'))
    (hs : ∀ s s' a, rd s = .ok (some a, s') → rd' s = (f a >>= fun v => .ok (v, s'))) : Local rd' := by
  intro s w s' hw
  obtain ⟨r, s1, pre, h1, _, _⟩ := hsafe s
  cases r with
  | none => rw [hn _ _ h1] at hw; simp at hw
  | some a =>
    rw [hs _ _ _ h1, Res.bind_eq_ok] at hw
    obtain ⟨v, hv, hw⟩ := hw
    simp only [Res.ok.injEq, Prod.mk.injEq] at hw
    obtain ⟨rfl, rfl⟩ := hw
    obtain ⟨used, rest, rfl, rfl, h2⟩ := h _ _ _ h1
    exact ⟨used, rest, rfl, rfl, fun t => by rw [hs _ _ _ (h2 t), hv]; rfl⟩

/-- `read` is a reader of bytes. -/
theorem safe_read (n : ℕ) : Safe (α := Bytes) (CB.read n) fun _ => [] := by
  intro s
  rcases read_cases n s with h | ⟨bs, rfl, hl, h⟩
  · exact ⟨none, s, [], h, by simp, by simp⟩
  · exact ⟨some (bs.take n), _, bs.take n, h, by simp, by simp⟩

theorem local_read (n : ℕ) : Local (α := Bytes) (CB.read n) := by
  intro s v s' h
  rcases read_cases n s with h1 | ⟨bs, rfl, hl, h1⟩
  · rw [h1] at h; simp at h
  · rw [h1] at h
    simp only [Res.ok.injEq, Prod.mk.injEq, Option.some.injEq] at h
    obtain ⟨rfl, rfl⟩ := h
    refine ⟨bs.take n, bs.drop n, by simp, rfl, fun t => ?_⟩
    have hl' : (bs.take n).length = n := by simp; omega
    rw [read_some (by simp; omega)]
    simp [hl']

theorem C93_skip (n : ℕ) : Local (skip n) :=
  (local_read n).post (safe_read n) (fun _ => .ok (some ())) (by intro s s' h; unfold skip; rw [h]; rfl) (by intro s s' a h; unfold skip; rw [h]; rfl)

theorem C93_readBytes (n : ℕ) : Local (readBytes n) :=
  (local_read n).post (safe_read n) (fun v => .ok (some (some v))) (by intro s s' h; unfold readBytes; rw [h]; rfl)
    (by intro s s' a h; unfold readBytes; rw [h]; rfl)

theorem C93_copyBytes (n : ℕ) : Local (copyBytes n) :=
  (local_read n).post (safe_read n) (fun bs => .ok (if min n bs.length = n then some (bs.take n) else none))
    (by intro s s' h; unfold copyBytes; rw [h]; rfl)
    (by intro s s' a h; unfold copyBytes; rw [h]; simp only [Res.ok_bind]; split <;> rfl)

theorem C93_readUint8 : Local readUint8 :=
  (local_read 1).post (safe_read 1) (fun v => do let v0 ← Str.at (some v) 0; .ok (some v0)) (by intro s s' h; unfold readUint8; erw [h]; rfl)
    (by intro s s' a h; unfold readUint8; erw [h]; simp only [Res.ok_bind, bind_assoc])

theorem C93_readUint16 : Local readUint16 :=
  (local_read 2).post (safe_read 2) (fun v => do let v0 ← Str.at (some v) 0; let v1 ← Str.at (some v) 1; .ok (some (v0.setWidth 16 <<< 8 ||| v1.setWidth 16)))
    (by intro s s' h; unfold readUint16; erw [h]; rfl)
    (by intro s s' a h; unfold readUint16; erw [h]; simp only [Res.ok_bind, bind_assoc])

theorem C93_readUint24 : Local readUint24 :=
  (local_read 3).post (safe_read 3) (fun v => do
      let v0 ← Str.at (some v) 0; let v1 ← Str.at (some v) 1; let v2 ← Str.at (some v) 2
      .ok (some (v0.setWidth 32 <<< 16 ||| v1.setWidth 32 <<< 8 ||| v2.setWidth 32)))
    (by intro s s' h; unfold readUint24; erw [h]; rfl)
    (by intro s s' a h; unfold readUint24; erw [h]; simp only [Res.ok_bind, bind_assoc])

theorem C93_readUint32 : Local readUint32 :=
  (local_read 4).post (safe_read 4) (fun v => do
      let v0 ← Str.at (some v) 0; let v1 ← Str.at (some v) 1; let v2 ← Str.at (some v) 2; let v3 ← Str.at (some v) 3
      .ok (some (v0.setWidth 32 <<< 24 ||| v1.setWidth 32 <<< 16 ||| v2.setWidth 32 <<< 8 ||| v3.setWidth 32)))
    (by intro s s' h; unfold readUint32; erw [h]; rfl)
    (by intro s s' a h; unfold readUint32; erw [h]; simp only [Res.ok_bind, bind_assoc])

theorem local_readLengthPrefixed (k : ℕ) (hk : k ≤ 4) : Local (readLengthPrefixed k) := by
  intro s v s' h
  rcases read_cases k s with h1 | ⟨bs, rfl, hl, _⟩
  · unfold readLengthPrefixed at h; rw [h1] at h; simp at h
  · rw [readLengthPrefixed_eq hl hk] at h
    split at h
    · rename_i hle
      simp only [Res.ok.injEq, Prod.mk.injEq, Option.some.injEq] at h
      obtain ⟨rfl, rfl⟩ := h
      refine ⟨bs.take k ++ (bs.drop k).take (beNat (bs.take k)), (bs.drop k).drop (beNat (bs.take k)), by simp, rfl, fun t => ?_⟩
      have h1 : (bs.take k).length = k := by simp; omega
      have h2 : ((bs.drop k).take (beNat (bs.take k))).length = beNat (bs.take k) := by simp; omega
      generalize bs.take k = x at *
      generalize (bs.drop k).take (beNat x) = y at *
      rw [readLengthPrefixed_eq (by simp; omega) hk]
      have e1 : (x ++ y ++ t).take k = x := by rw [List.append_assoc, ← h1, List.take_left]
      have e2 : (x ++ y ++ t).drop k = y ++ t := by rw [List.append_assoc, ← h1, List.drop_left]
      rw [e1, e2, if_pos (by simp; omega), ← h2, List.take_left, List.drop_left]
    · simp at h

theorem C93_readUint8LengthPrefixed : Local readUint8LengthPrefixed := local_readLengthPrefixed 1 (by omega)
theorem C93_readUint16LengthPrefixed : Local readUint16LengthPrefixed := local_readLengthPrefixed 2 (by omega)
theorem C93_readUint24LengthPrefixed : Local readUint24LengthPrefixed := local_readLengthPrefixed 3 (by omega)

theorem local_readASN1 (sk : Bool) : Local (readASN1 sk) := by
  intro s v s' h
  cases s with
  | none => rw [readASN1_nil] at h; simp at h
  | some bs =>
    rcases readASN1_sound sk bs with h1 | ⟨t, c, rest, h1, h2, rfl, h4⟩
    · rw [h1] at h; simp at h
    · rw [h4] at h
      simp only [Res.ok.injEq, Prod.mk.injEq, Option.some.injEq] at h
      obtain ⟨rfl, rfl⟩ := h
      exact ⟨elem t c, rest, rfl, rfl, fun x => readASN1_elem sk x h1 h2⟩

theorem C93_readAnyASN1 : Local readAnyASN1 := local_readASN1 true
theorem C93_readAnyASN1Element : Local readAnyASN1Element := local_readASN1 false

theorem C93_readASN1 (tag : Tag) : Local (readASN1Tag tag) :=
  (local_readASN1 true).post (safe_readASN1 true) (fun a => .ok (if a.1 ≠ tag then none else some a.2))
    (by intro s s' h; unfold readASN1Tag readAnyASN1; rw [h]; rfl)
    (by
      rintro s s' ⟨t, o⟩ h
      unfold readASN1Tag readAnyASN1; rw [h]
      simp only [Res.ok_bind]
      split <;> rfl)

theorem C93_readASN1Element (tag : Tag) : Local (readASN1Element tag) :=
  (local_readASN1 false).post (safe_readASN1 false) (fun a => .ok (if a.1 ≠ tag then none else some a.2))
    (by intro s s' h; unfold readASN1Element readAnyASN1Element; rw [h]; rfl)
    (by
      rintro s s' ⟨t, o⟩ h
      unfold readASN1Element readAnyASN1Element; rw [h]
      simp only [Res.ok_bind]
      split <;> rfl)

theorem C93_readASN1Bytes (tag : Tag) : Local (readASN1Bytes tag) := C93_readASN1 tag

theorem C93_skipASN1 (tag : Tag) : Local (skipASN1 tag) :=
  (C93_readASN1 tag).post (safe_readASN1Tag tag) (fun _ => .ok (some ())) (by intro s s' h; unfold skipASN1; rw [h]; rfl)
    (by intro s s' a h; unfold skipASN1; rw [h]; rfl)

theorem C93_readASN1Boolean : Local readASN1Boolean :=
  (C93_readASN1 tagINTEGER).post (safe_readASN1Tag tagINTEGER)
    (fun bytes => if bytes.len ≠ 1 then .ok none else (bytes.at 0 >>= fun b => .ok (boolOfByte b)))
    (by intro s s' h; unfold readASN1Boolean; rw [h]; rfl)
    (by
      intro s s' a h
      unfold readASN1Boolean; rw [h]
      simp only [Res.ok_bind]
      split
      · rfl
      · rw [bind_assoc]; rfl)

theorem local_readIntegerContent (tag : Tag) : Local (readIntegerContent tag) :=
  (C93_readASN1 tag).post (safe_readASN1Tag tag) (fun a => checkASN1Integer a >>= fun c => .ok (if c then some a else none))
    (by intro s s' h; unfold readIntegerContent; rw [h]; rfl)
    (by
      intro s s' a h
      unfold readIntegerContent; rw [h]
      simp only [Res.ok_bind]
      rw [bind_assoc]
      congr 1
      funext c
      cases c <;> rfl)

theorem C93_readASN1BigInt : Local readASN1BigInt :=
  (local_readIntegerContent tagINTEGER).post (safe_readIntegerContent tagINTEGER) (fun a => do let v ← bigIntOfContent a; .ok (some v))
    (by intro s s' h; unfold readASN1BigInt; rw [h]; rfl)
    (by intro s s' a h; unfold readASN1BigInt; rw [h]; simp only [Res.ok_bind, bind_assoc])

theorem C93_readASN1Int64 : Local readASN1Int64 :=
  (local_readIntegerContent tagINTEGER).post (safe_readIntegerContent tagINTEGER) (fun a => .ok (asn1Signed a))
    (by intro s s' h; unfold readASN1Int64; rw [h]; rfl) (by intro s s' a h; unfold readASN1Int64; rw [h]; rfl)

theorem C93_readASN1Enum : Local readASN1Enum :=
  (local_readIntegerContent tagENUM).post (safe_readIntegerContent tagENUM) (fun a => .ok (asn1Signed a))
    (by intro s s' h; unfold readASN1Enum; rw [h]; rfl) (by intro s s' a h; unfold readASN1Enum; rw [h]; rfl)

theorem C93_readASN1Uint64 : Local readASN1Uint64 :=
  (local_readIntegerContent tagINTEGER).post (safe_readIntegerContent tagINTEGER) asn1Unsigned
    (by intro s s' h; unfold readASN1Uint64; rw [h]; rfl) (by intro s s' a h; unfold readASN1Uint64; rw [h]; rfl)

theorem C93_readASN1IntegerSigned (w : ℕ) : Local (readASN1IntegerSigned w) :=
  C93_readASN1Int64.post safe_readASN1Int64 (fun i => .ok (if (i.setWidth w).signExtend 64 ≠ i then none else some (i.setWidth w)))
    (by intro s s' h; unfold readASN1IntegerSigned; rw [h]; rfl)
    (by intro s s' a h; unfold readASN1IntegerSigned; rw [h]; simp only [Res.ok_bind]; split <;> rfl)

theorem C93_readASN1IntegerUnsigned (w : ℕ) : Local (readASN1IntegerUnsigned w) :=
  C93_readASN1Uint64.post safe_readASN1Uint64 (fun i => .ok (if (i.setWidth w).setWidth 64 ≠ i then none else some (i.setWidth w)))
    (by intro s s' h; unfold readASN1IntegerUnsigned; rw [h]; rfl)
    (by intro s s' a h; unfold readASN1IntegerUnsigned; rw [h]; simp only [Res.ok_bind]; split <;> rfl)

theorem C93_readASN1ObjectIdentifier : Local readASN1ObjectIdentifier :=
  (C93_readASN1 tagOBJECT_IDENTIFIER).post (safe_readASN1Tag tagOBJECT_IDENTIFIER)
    (fun bytes =>
      if bytes.len = 0 then .ok none
      else do
        let cap := bytes.len + 1
        let (v, bytes) ← readBase128Int bytes
        match v with
        | none => .ok none
        | some v => if cap < 2 then .panic else oidLoop cap bytes.len (firstComponents v) bytes)
    (by intro s s' h; unfold readASN1ObjectIdentifier; rw [h]; rfl)
    (by
      intro s s' a h
      unfold readASN1ObjectIdentifier; rw [h]
      simp only [Res.ok_bind]
      split
      · rfl
      · rw [bind_assoc]
        congr 1
        funext x
        obtain ⟨v, b⟩ := x
        cases v with
        | none => rfl
        | some v => dsimp only; split <;> rfl)

theorem C93_readASN1BitString : Local readASN1BitString :=
  (C93_readASN1 tagBIT_STRING).post (safe_readASN1Tag tagBIT_STRING) (fun a => if a.len = 0 then .ok none else bitStringOfContent a)
    (by intro s s' h; unfold readASN1BitString; rw [h]; rfl)
    (by
      intro s s' a h
      unfold readASN1BitString; rw [h]
      simp only [Res.ok_bind]
      split <;> rfl)

theorem C93_readASN1BitStringAsBytes : Local readASN1BitStringAsBytes :=
  (C93_readASN1 tagBIT_STRING).post (safe_readASN1Tag tagBIT_STRING) (fun a => if a.len = 0 then .ok none else
      a.at 0 >>= fun p => if p ≠ 0 then .ok none else a.slice 1 a.len >>= fun o => .ok (some o))
    (by intro s s' h; unfold readASN1BitStringAsBytes; rw [h]; rfl)
    (by
      intro s s' a h
      unfold readASN1BitStringAsBytes; rw [h]
      simp only [Res.ok_bind]
      split
      · rfl
      · rw [bind_assoc]
        congr 1
        funext p
        split
        · rfl
        · rw [bind_assoc]; rfl)

theorem C93_readASN1GeneralizedTime : Local readASN1GeneralizedTime :=
  (C93_readASN1 tagGeneralizedTime).post (safe_readASN1Tag tagGeneralizedTime) (fun bytes => .ok (Der.GoTime.generalized bytes.bytes))
    (by intro s s' h; unfold readASN1GeneralizedTime; rw [h]; rfl) (by intro s s' a h; unfold readASN1GeneralizedTime; rw [h]; rfl)

/-- C93 for the optional readers: an element that is present is read the same whatever follows. -/
theorem C93_readOptionalASN1 (tag : Tag) (s : Str) (c s' : Str) (h : readOptionalASN1 tag s = .ok (some (some c), s')) :
    ∃ used rest, s = some (used ++ rest) ∧ s' = some rest ∧ ∀ t, readOptionalASN1 tag (some (used ++ t)) = .ok (some (some c), some t) := by
  unfold readOptionalASN1 at h
  rw [peek_eq, Res.ok_bind] at h
  by_cases hp : s.bytes.head? = some tag
  · simp only [hp, decide_true, if_true] at h
    obtain ⟨r, s1, pre, h1, _, _⟩ := safe_readASN1Tag tag s
    rw [h1, Res.ok_bind] at h
    cases r with
    | none => simp at h
    | some o =>
      simp only [Res.ok.injEq, Prod.mk.injEq, Option.some.injEq] at h
      obtain ⟨rfl, rfl⟩ := h
      obtain ⟨used, rest, rfl, rfl, h2⟩ := C93_readASN1 tag _ _ _ h1
      refine ⟨used, rest, rfl, rfl, fun t => ?_⟩
      have hu : used ≠ [] := by
        rintro rfl
        have := h2 []
        unfold readASN1Tag readAnyASN1 at this
        rw [List.nil_append, readASN1_tiny true _ (by simp)] at this
        simp at this
      obtain ⟨b, u, rfl⟩ := List.exists_cons_of_ne_nil hu
      unfold readOptionalASN1
      rw [peek_eq, Res.ok_bind]
      have hb : b = tag := by simpa [Str.bytes] using hp
      simp only [Str.bytes, Option.getD_some, List.cons_append, List.head?_cons, hb, decide_true, if_true]
      have := h2 t
      rw [List.cons_append, hb] at this
      rw [this]
      rfl
  · simp [hp] at h

/-- An absent one stays absent as long as the next byte is not the tag. -/
theorem C93_readOptionalASN1_absent (tag : Tag) (s s' : Str) (h : readOptionalASN1 tag s = .ok (some none, s')) :
    s' = s ∧ ∀ t : Bytes, t.head? ≠ some tag → readOptionalASN1 tag (some t) = .ok (some none, some t) := by
  have hs : ∀ s : Str, s.bytes.head? ≠ some tag → readOptionalASN1 tag s = .ok (some none, s) := by
    intro s hs
    unfold readOptionalASN1
    rw [peek_eq, Res.ok_bind]
    simp [hs]
  refine ⟨?_, fun t ht => hs _ ht⟩
  by_cases hp : s.bytes.head? = some tag
  · unfold readOptionalASN1 at h
    rw [peek_eq, Res.ok_bind] at h
    simp only [hp, decide_true, if_true] at h
    obtain ⟨r, s1, pre, h1, _, _⟩ := safe_readASN1Tag tag s
    rw [h1, Res.ok_bind] at h
    cases r <;> simp at h
  · rw [hs s hp] at h
    simp at h
    exact h.symm

/-- C93 has instances: an INTEGER, alone or before other bytes. -/
example : readASN1BigInt (some [2, 1, 5]) = .ok (some 5, some []) ∧ readASN1BigInt (some [2, 1, 5, 9, 9]) = .ok (some 5, some [9, 9]) := by decide

/-! ## C94 -/

/-- A read that fails consumes nothing. -/
def Atomic {α : Type} (rd : Reader α) : Prop := ∀ s s', rd s = .ok (none, s') → s' = s

theorem atomic_of_read {β : Type} (n : ℕ) {rd' : Reader β} (f : Bytes → β)
    (hs : ∀ s s' a, CB.read n s = .ok (some a, s') → a.length = n → rd' s = .ok (some (f a), s'))
    (hn : ∀ s s', CB.read n s = .ok (none, s') → rd' s = .ok (none, s')) : Atomic rd' := by
  intro s s' h
  rcases read_cases n s with h1 | ⟨bs, rfl, hl, h1⟩
  · rw [hn _ _ h1] at h; simp at h; exact h.symm
  · rw [hs _ _ _ h1 (by simp; omega)] at h; simp at h

/-- C94, what holds: the readers of fixed length and of any element are atomic. Missing: the others, see below. -/
theorem C94_atomic_partial (n : ℕ) : Atomic (skip n) ∧ Atomic (readBytes n) ∧ Atomic (copyBytes n) ∧ Atomic readUint8 ∧ Atomic readUint16 ∧
    Atomic readUint24 ∧ Atomic readUint32 ∧ Atomic readAnyASN1 ∧ Atomic readAnyASN1Element := by
  have any : ∀ sk, Atomic (readASN1 sk) := by
    intro sk s s' h
    cases s with
    | none => rw [readASN1_nil] at h; simp at h; exact h.symm
    | some bs =>
      rcases readASN1_sound sk bs with h1 | ⟨t, c, rest, h1, h2, rfl, h4⟩
      · rw [h1] at h; simp at h; exact h.symm
      · rw [h4] at h; simp at h
  refine ⟨?_, ?_, ?_, ?_, ?_, ?_, ?_, any true, any false⟩
  · exact atomic_of_read n (fun _ => ()) (fun s s' a h _ => by unfold skip; rw [h]; rfl) fun s s' h => by unfold skip; rw [h]; rfl
  · exact atomic_of_read n some (fun s s' a h _ => by unfold readBytes; rw [h]; rfl) fun s s' h => by unfold readBytes; rw [h]; rfl
  · refine atomic_of_read n (fun a => a.take n) (fun s s' a h hl => ?_) fun s s' h => by unfold copyBytes; rw [h]; rfl
    unfold copyBytes; rw [h, Res.ok_bind]; dsimp only; rw [if_pos (by omega)]
  · refine atomic_of_read 1 (fun a => a.getD 0 0) (fun s s' a h hl => ?_) fun s s' h => by unfold readUint8; erw [h]; rfl
    match a, hl with
    | [a0], _ => unfold readUint8; erw [h]; rfl
  · refine atomic_of_read 2 (fun a => (a.getD 0 0).setWidth 16 <<< 8 ||| (a.getD 1 0).setWidth 16) (fun s s' a h hl => ?_)
      fun s s' h => by unfold readUint16; erw [h]; rfl
    match a, hl with
    | [a0, a1], _ => unfold readUint16; erw [h]; rfl
  · refine atomic_of_read 3 (fun a => (a.getD 0 0).setWidth 32 <<< 16 ||| (a.getD 1 0).setWidth 32 <<< 8 ||| (a.getD 2 0).setWidth 32) (fun s s' a h hl => ?_)
      fun s s' h => by unfold readUint24; erw [h]; rfl
    match a, hl with
    | [a0, a1, a2], _ => unfold readUint24; erw [h]; rfl
  · refine atomic_of_read 4 (fun a => (a.getD 0 0).setWidth 32 <<< 24 ||| (a.getD 1 0).setWidth 32 <<< 16 ||| (a.getD 2 0).setWidth 32 <<< 8 |||
      (a.getD 3 0).setWidth 32) (fun s s' a h hl => ?_) fun s s' h => by unfold readUint32; erw [h]; rfl
    match a, hl with
    | [a0, a1, a2, a3], _ => unfold readUint32; erw [h]; rfl

/-- C94 is violated: a read of an element with another tag fails and consumes it, for every tag and every element. -/
theorem C94_tag_violated (tag t : Tag) (c rest : Bytes) (ht : LowTag t) (hne : t ≠ tag) (h : (elem t c).length < 2 ^ 32) :
    readASN1Tag tag (some (elem t c ++ rest)) = .ok (none, some rest) ∧ readASN1Element tag (some (elem t c ++ rest)) = .ok (none, some rest) := by
  unfold readASN1Tag readASN1Element readAnyASN1 readAnyASN1Element
  rw [readASN1_elem true rest ht h, readASN1_elem false rest ht h]
  simp only [Res.ok_bind]
  exact ⟨by rw [if_pos hne], by rw [if_pos hne]⟩

/-- C94 is violated: a length prefix that is too large is consumed. -/
theorem C94_prefix_violated (k : ℕ) (hk : k ≤ 4) (len bs : Bytes) (hl : len.length = k) (hbig : bs.length < beNat len) :
    readLengthPrefixed k (some (len ++ bs)) = .ok (none, some bs) := by
  rw [readLengthPrefixed_eq (by simp; omega) hk]
  have e1 : (len ++ bs).take k = len := by rw [← hl, List.take_left]
  have e2 : (len ++ bs).drop k = bs := by rw [← hl, List.drop_left]
  rw [e1, e2, if_neg (by simp; omega)]

/-- C94: the violations have instances. -/
example : readASN1Tag 2 (some [4, 1, 7, 9]) = .ok (none, some [9]) ∧ readUint8LengthPrefixed (some [3, 1, 2]) = .ok (none, some [1, 2]) := by decide

end Verif.Props
