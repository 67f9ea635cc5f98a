import Verif.CB.Dynamic
import Verif.Props.CryptobyteRead
import Verif.Props.CryptobyteRoundTrip
/-!
# Property C133: the integer readers panic for wrong types, not for wrong data
-/
namespace Verif.Props
open Verif.CB

/-- `out` points to a variable of an integer type or to a `big.Int`. -/
def IntegerVar (out : Iface) : Prop := (∃ t a, out = .pointer (.int t) (some a)) ∨ ∃ a, out = .pointer .bigInt (some a)

/-- The default value can be stored in the variable that `out` points to. -/
def DefaultFits (out d : Iface) : Prop :=
  (∃ t a v, out = .pointer (.int t) (some a) ∧ d = .value (.int t) v) ∨
  ∃ a v, out = .pointer .bigInt (some a) ∧ d = .pointer .bigInt (some v)

/-- The values of an integer type. -/
def InType (t : IntType) (v : Int) : Prop :=
  if t.signed then -2 ^ (t.width - 1) ≤ v ∧ v < 2 ^ (t.width - 1) else 0 ≤ v ∧ v < 2 ^ t.width

/-- The widths of Go's integer types. -/
def GoWidth (t : IntType) : Prop := t.width = 8 ∨ t.width = 16 ∨ t.width = 32 ∨ t.width = 64

theorem safe_map {α β : Type} (f : α → β) {rd : Reader α} (h : Safe0 rd) : Safe0 (Reader.map f rd) := by
  intro s
  obtain ⟨r, s', pre, h1, h2, _⟩ := h s
  refine ⟨r.map f, s', pre, ?_, h2, by simp⟩
  unfold Reader.map; rw [h1]; rfl

theorem safe_any {out : Iface} (h : IntegerVar out) : Safe0 (readASN1IntegerAny out) := by
  rcases h with ⟨t, a, rfl⟩ | ⟨a, rfl⟩
  · intro s
    unfold readASN1IntegerAny
    dsimp only
    split
    · exact safe_map _ (safe_readASN1IntegerSigned t.width) s
    · exact safe_map _ (safe_readASN1IntegerUnsigned t.width) s
  · exact safe_readASN1BigInt

theorem any_not {out : Iface} (h : ¬ IntegerVar out) (s : Str) : readASN1IntegerAny out s = .panic := by
  unfold IntegerVar at h
  unfold readASN1IntegerAny
  split <;> first | rfl | exact absurd (.inl ⟨_, _, rfl⟩) h | exact absurd (.inr ⟨_, rfl⟩) h

/-- C133 for `ReadASN1Integer`: whether it panics is a matter of the type of `out`, whatever the input. -/
theorem C133_integer_panics (out : Iface) (s : Str) : readASN1IntegerAny out s = .panic ↔ ¬ IntegerVar out := by
  constructor
  · intro h hv
    obtain ⟨r, s', _, h1, _⟩ := safe_any hv s
    rw [h1] at h; cases h
  · intro h; exact any_not h s

/-- C133: a variable of an integer type takes exactly the minimal encodings of the values of the type. -/
theorem C133_integer_reads (t : IntType) (ht : GoWidth t) (a v : Int) (s rest : Bytes) :
    readASN1IntegerAny (.pointer (.int t) (some a)) (some s) = .ok (some v, some rest) ↔
      InType t v ∧ ∃ e, IsIntElem tagINTEGER v e ∧ s = e ++ rest := by
  have hw : 0 < t.width := by rcases ht with h | h | h | h <;> omega
  have hw' : t.width ≤ 64 := by rcases ht with h | h | h | h <;> omega
  have hm : ∀ {α : Type} (f : α → Int) (rd : Reader α), Safe0 rd → (Reader.map f rd (some s) = .ok (some v, some rest) ↔
      ∃ u, f u = v ∧ rd (some s) = .ok (some u, some rest)) := by
    intro α f rd hrd
    obtain ⟨r, s', _, h1, _⟩ := hrd (some s)
    unfold Reader.map
    rw [h1]
    cases r with
    | none => simp
    | some u =>
      simp only [Res.ok_bind, Option.map_some, Res.ok.injEq, Prod.mk.injEq, Option.some.injEq]
      constructor
      · rintro ⟨h1, h2⟩; exact ⟨u, h1, rfl, h2⟩
      · rintro ⟨u', h1, rfl, h2⟩; exact ⟨h1, h2⟩
  unfold readASN1IntegerAny InType
  dsimp only
  by_cases hs : t.signed = true
  · rw [if_pos hs, if_pos hs, hm _ _ (safe_readASN1IntegerSigned t.width)]
    constructor
    · rintro ⟨u, rfl, h⟩
      exact ⟨⟨BitVec.le_toInt _, BitVec.toInt_lt⟩, (C22_signed_width_iff t.width hw hw' s rest u).1 h⟩
    · rintro ⟨⟨h1, h2⟩, h3⟩
      have e : (BitVec.ofInt t.width v).toInt = v := BitVec.toInt_ofInt_eq_self hw h1 h2
      exact ⟨BitVec.ofInt t.width v, e, (C22_signed_width_iff t.width hw hw' s rest _).2 (by rwa [e])⟩
  · rw [if_neg hs, if_neg hs, hm _ _ (safe_readASN1IntegerUnsigned t.width)]
    constructor
    · rintro ⟨u, rfl, h⟩
      refine ⟨⟨by omega, ?_⟩, (C22_unsigned_width_iff t.width hw' s rest u).1 h⟩
      exact_mod_cast u.isLt
    · rintro ⟨⟨h1, h2⟩, h3⟩
      obtain ⟨k, rfl⟩ := Int.eq_ofNat_of_zero_le h1
      have hk : k < 2 ^ t.width := by exact_mod_cast h2
      have e : (BitVec.ofNat t.width k).toNat = k := by rw [BitVec.toNat_ofNat, Nat.mod_eq_of_lt hk]
      exact ⟨BitVec.ofNat t.width k, by rw [e], (C22_unsigned_width_iff t.width hw' s rest _).2 (by rw [e]; exact h3)⟩

theorem storeDefault_fits {out d : Iface} (h : DefaultFits out d) : ∃ v, storeDefault out d = .ok v := by
  rcases h with ⟨t, a, v, rfl, rfl⟩ | ⟨a, v, rfl, rfl⟩
  · exact ⟨v, by simp [storeDefault]⟩
  · exact ⟨v, rfl⟩

theorem storeDefault_not {out d : Iface} (h : ¬ DefaultFits out d) : storeDefault out d = .panic := by
  unfold DefaultFits at h
  unfold storeDefault
  split
  · split
    · rw [if_neg]
      rintro rfl
      exact h (.inl ⟨_, _, _, rfl, rfl⟩)
    · rfl
  · split
    · exact absurd (.inr ⟨_, _, rfl, rfl⟩) h
    · rfl
  · rfl

/-- C133 for `ReadOptionalASN1Integer`: exactly when it panics. If `out` is a pointer it depends on the input: without the element
the default value must have the type of the variable, with the element the variable must be an integer. -/
theorem C133_optional_panics_violated (out : Iface) (tag : Tag) (d : Iface) (s : Str) :
    readOptionalASN1IntegerAny out tag d s = .panic ↔
      (∀ t a, out ≠ .pointer t a) ∨
      (s.bytes.head? ≠ some tag ∧ ¬ DefaultFits out d) ∨
      (s.bytes.head? = some tag ∧ ¬ IntegerVar out ∧ ∃ c s', readASN1Tag tag s = .ok (some c, s')) := by
  unfold readOptionalASN1IntegerAny
  cases out with
  | nil => simp
  | value t v => simp
  | pointer t a =>
    dsimp only
    have h0 : ¬ ∀ t' a', Iface.pointer t a ≠ .pointer t' a' := fun h => h t a rfl
    by_cases h : s.bytes.head? = some tag
    · obtain ⟨r, s', _, h1, _⟩ := safe_readASN1Tag tag s
      have e : readOptionalASN1 tag s = .ok (r.map some, s') := by
        unfold readOptionalASN1; rw [peek_eq]; simp only [h, Res.ok_bind, decide_true, if_true, h1]
        cases r <;> rfl
      rw [e, h1]
      cases r with
      | none => simp [h]
      | some c =>
        simp only [Res.ok_bind, Option.map_some]
        by_cases hv : IntegerVar (.pointer t a)
        · obtain ⟨r2, i', _, g1, _⟩ := safe_any hv c
          rw [g1]
          simp only [Res.ok_bind]
          constructor
          · intro hp
            cases r2 with
            | none => cases hp
            | some v => dsimp only at hp; split at hp <;> cases hp
          · rintro (hh | ⟨hh, _⟩ | ⟨_, hh, _⟩)
            · exact absurd hh h0
            · exact absurd h hh
            · exact absurd hv hh
        · rw [any_not hv]
          exact ⟨fun _ => .inr (.inr ⟨h, hv, c, s', rfl⟩), fun _ => rfl⟩
    · rw [(C27_absent s tag h readASN1BigInt 0).1]
      simp only [Res.ok_bind]
      by_cases hf : DefaultFits (.pointer t a) d
      · obtain ⟨v, hv⟩ := storeDefault_fits hf
        rw [hv]
        simp only [Res.ok_bind]
        constructor
        · intro hp; cases hp
        · rintro (hh | ⟨_, hh⟩ | ⟨hh, _⟩)
          · exact absurd hh h0
          · exact absurd hf hh
          · exact absurd hh h
      · rw [storeDefault_not hf]
        exact ⟨fun _ => .inr (.inl ⟨h, hf⟩), fun _ => rfl⟩

/-- C133, the part that holds: with a default value of the type of the variable, no input makes `ReadOptionalASN1Integer` panic,
and it is the reader of `Verif.CB.Read` at that type. -/
theorem C133_optional_partial (out d : Iface) (hf : DefaultFits out d) (tag : Tag) (s : Str) :
    ∃ v, storeDefault out d = .ok v ∧
      readOptionalASN1IntegerAny out tag d s = readOptionalASN1Integer (readASN1IntegerAny out) tag v s ∧
      readOptionalASN1IntegerAny out tag d s ≠ .panic := by
  obtain ⟨v, hv⟩ := storeDefault_fits hf
  have hi : IntegerVar out := by
    rcases hf with ⟨t, a, _, rfl, _⟩ | ⟨a, _, rfl, _⟩
    · exact .inl ⟨_, _, rfl⟩
    · exact .inr ⟨_, rfl⟩
  refine ⟨v, hv, ?_, fun hp => ?_⟩
  · obtain ⟨t, a, rfl⟩ : ∃ t a, out = .pointer t a := by
      rcases hi with ⟨t, a, rfl⟩ | ⟨a, rfl⟩ <;> exact ⟨_, _, rfl⟩
    unfold readOptionalASN1IntegerAny readOptionalASN1Integer
    dsimp only
    rw [hv]
    obtain ⟨r, s', _, h1, _⟩ := safe_readOptionalASN1 tag s
    rw [h1]
    rcases r with _ | _ | i
    · rfl
    · rfl
    · obtain ⟨r2, i', _, g1, _⟩ := safe_any hi i
      simp only [Res.ok_bind]
      rw [g1]
      cases r2 <;> rfl
  · rcases (C133_optional_panics_violated out tag d s).1 hp with h | ⟨_, h⟩ | ⟨_, h, _⟩
    · rcases hi with ⟨t, a, rfl⟩ | ⟨a, rfl⟩ <;> exact h _ _ rfl
    · exact h hf
    · exact h hi

/-- C133 is violated by a default value of another integer type, as a plain constant (of type `int`) is for a variable of type `int64`:
an input with the element is read, and every input without it is a panic. -/
theorem C133_constant_violated (t t' : IntType) (hne : t' ≠ t) (hg : GoWidth t) (a v : Int) (tag : Tag) (htag : tag &&& 0x1f ≠ 0x1f) :
    (∃ s, readOptionalASN1IntegerAny (.pointer (.int t) (some a)) tag (.value (.int t') v) (some s) = .ok (some 5, some [])) ∧
    ∀ s : Str, s.bytes.head? ≠ some tag →
      readOptionalASN1IntegerAny (.pointer (.int t) (some a)) tag (.value (.int t') v) s = .panic := by
  constructor
  · have e5 : IsIntElem tagINTEGER 5 [2, 1, 5] := by
      have h := (C133_integer_reads ⟨"int64", true, 64⟩ (.inr (.inr (.inr rfl))) 0 5 [2, 1, 5] []).1 (by decide +kernel)
      obtain ⟨_, e, h1, h2⟩ := h
      rw [List.append_nil] at h2
      rwa [h2]
    have hin : InType t 5 := by
      unfold InType
      rcases hg with h | h | h | h <;> rw [h] <;> split <;> norm_num
    have hr := (C133_integer_reads t hg a 5 [2, 1, 5] []).2 ⟨hin, [2, 1, 5], e5, by simp⟩
    have hc : readASN1Tag tag (some [tag, 3, 2, 1, 5]) = .ok (some (some [2, 1, 5]), some []) := by
      revert htag; revert tag; decide +kernel
    refine ⟨[tag, 3, 2, 1, 5], ?_⟩
    have ho : readOptionalASN1 tag (some [tag, 3, 2, 1, 5]) = .ok (some (some (some [2, 1, 5])), some []) := by
      unfold readOptionalASN1
      rw [peek_eq]
      simp only [Str.bytes, Option.getD_some, List.head?_cons, decide_true, Res.ok_bind, if_true, hc]
    unfold readOptionalASN1IntegerAny
    dsimp only
    rw [ho]
    simp only [Res.ok_bind]
    rw [hr]
    rfl
  · intro s hs
    refine (C133_optional_panics_violated _ tag _ s).2 (.inr (.inl ⟨hs, ?_⟩))
    rintro (⟨t1, a1, v1, h1, h2⟩ | ⟨a1, v1, h1, _⟩)
    · simp only [Iface.pointer.injEq, GoType.int.injEq, Iface.value.injEq] at h1 h2
      exact hne (h2.1.trans h1.1.symm)
    · simp at h1

/-- `var v int64; s.ReadOptionalASN1Integer(&v, 0xa0, 7)`: with the element, without it, and with a default of type `int64`. -/
example : readOptionalASN1IntegerAny (.pointer (.int ⟨"int64", true, 64⟩) (some 0)) 0xa0 (.value (.int ⟨"int", true, 64⟩) 7)
      (some [0xa0, 3, 2, 1, 5, 9]) = .ok (some 5, some [9]) ∧
    readOptionalASN1IntegerAny (.pointer (.int ⟨"int64", true, 64⟩) (some 0)) 0xa0 (.value (.int ⟨"int", true, 64⟩) 7)
      (some [9]) = .panic ∧
    readOptionalASN1IntegerAny (.pointer (.int ⟨"int64", true, 64⟩) (some 0)) 0xa0 (.value (.int ⟨"int64", true, 64⟩) 7)
      (some [9]) = .ok (some 7, some [9]) := by decide +kernel

/-- A variable of type `int8` takes -128 and not 128; a `uintptr` is not an integer variable here. -/
example : readASN1IntegerAny (.pointer (.int ⟨"int8", true, 8⟩) (some 0)) (some [2, 1, 0x80]) = .ok (some (-128), some []) ∧
    readASN1IntegerAny (.pointer (.int ⟨"int8", true, 8⟩) (some 0)) (some [2, 2, 0, 0x80]) = .ok (none, some []) ∧
    readASN1IntegerAny (.pointer (.other "uintptr") (some 0)) (some [2, 1, 5]) = .panic := by decide +kernel

end Verif.Props
