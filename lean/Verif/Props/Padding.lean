import Verif.Util.PaddingLemmas
import Verif.Util.PaddingSpec
/-!
# Properties C12, C13, C15, C16: padding
-/
namespace Verif.Props
open Verif Verif.Padding

/-! ## C12 -/

/-- C12, layout. For every positive block size the call succeeds, adds between 1 and `n` bytes
behind an unchanged message and fills whole blocks; if the count fits a byte the result is a
PKCS#7 padding of the message. -/
theorem C12_pkcs5_layout (src : Bytes) (n : Nat) (hn : 0 < n) :
    ∃ k p, pkcs5Padding src n = .ok p ∧ 1 ≤ k ∧ k ≤ n ∧ p.length = src.length + k ∧ n ∣ p.length ∧
      p.take src.length = src ∧ (k ≤ 255 → Spec.PKCS7 n src p) := by
  have hlt := Nat.mod_lt src.length hn
  refine ⟨n - src.length % n, _, pkcs5Padding_pos src hn, by omega, by omega, by simp, ?_, by simp, ?_⟩
  · simpa using dvd_padded src.length hn
  · intro hk
    exact ⟨n - src.length % n, by omega, by omega, hk, rfl, by simpa using dvd_padded src.length hn⟩

example : pkcs5Padding [1, 2, 3] (8 : Nat) = .ok [1, 2, 3, 5, 5, 5, 5, 5] := by decide

/-- C12, what "accepted" means: a block size is refused (by a panic) exactly when it is not
positive. -/
theorem C12_pkcs5_accepts_iff (src : Bytes) (n : Int) :
    (∃ p, pkcs5Padding src n = .ok p) ↔ 0 < n := by
  constructor
  · rintro ⟨p, hp⟩
    by_cases h : n ≤ 0
    · rw [pkcs5Padding_nonpos src h] at hp; cases hp
    · omega
  · intro h
    obtain ⟨m, rfl⟩ := Int.eq_ofNat_of_zero_le (Int.le_of_lt h)
    exact ⟨_, pkcs5Padding_pos src (by omega)⟩

/-- C12, round-trip, exactly: for a positive block size the round-trip returns the message iff the
number of padding bytes fits a byte. -/
theorem C12_pkcs5_roundtrip_iff (src : Bytes) (n : Nat) (hn : 0 < n) :
    (pkcs5Padding src n >>= pkcs5UnPadding) = .ok src ↔ n - src.length % n ≤ 255 := by
  have hlt := Nat.mod_lt src.length hn
  rw [pkcs5Padding_pos src hn, Res.ok_bind, unpad_replicate _ _ (by omega), BitVec.toNat_ofNat]
  generalize n - src.length % n = k at *
  by_cases hk : k ≤ 255
  · simp only [hk, iff_true]
    rw [Nat.mod_eq_of_lt (by omega), if_neg (by omega), Nat.add_sub_cancel]
    simp
  · simp only [hk, iff_false]
    have h1 : k % 2 ^ 8 < 256 := Nat.mod_lt _ (by decide)
    rw [if_neg (by omega)]
    intro h
    have h2 := congrArg List.length (Res.ok.inj h)
    simp at h2
    omega

/-- C12 for the block sizes a byte can count (1..255), which includes the SM4 block size 16.
`_partial`: the property speaks of every accepted block size; `C12_pkcs5_roundtrip_violated` shows
that it fails from 256 on. -/
theorem C12_pkcs5_roundtrip_partial (src : Bytes) (n : Nat) (hn : 0 < n) (h : n ≤ 255) :
    (pkcs5Padding src n >>= pkcs5UnPadding) = .ok src :=
  (C12_pkcs5_roundtrip_iff src n hn).2 (by omega)

example : (pkcs5Padding [7, 7] (4 : Nat) >>= pkcs5UnPadding) = .ok [7, 7] :=
  C12_pkcs5_roundtrip_partial _ 4 (by decide) (by decide)

/-- The full C12 is false of the code: block size 256 is accepted, and the round-trip of the empty
message does not return it. -/
theorem C12_pkcs5_roundtrip_violated :
    ¬ ∀ (src : Bytes) (n : Nat) (p : Bytes), pkcs5Padding src n = .ok p → pkcs5UnPadding p = .ok src := by
  intro h
  have h1 := (C12_pkcs5_roundtrip_iff [] 256 (by decide)).1
    (by rw [pkcs5Padding_pos [] (n := 256) (by decide), Res.ok_bind]
        exact h [] 256 _ (pkcs5Padding_pos [] (by decide)))
  simp at h1

/-! ## C13 -/

/-- C13: zero padding adds between 1 and `n` zeros, fills whole blocks, and removing the number of
bytes added gives the message back (whatever lies in the capacity behind the slice). -/
theorem C13_zero_roundtrip (src tail : Bytes) (n : Nat) (hn : 0 < n) :
    ∃ p, zeroPadding src n = .ok p ∧ Spec.ZeroPadded n src p ∧
      unZeroPadding p tail ((p.length : Int) - src.length) = .ok src := by
  have hlt := Nat.mod_lt src.length hn
  refine ⟨_, zeroPadding_pos src hn, ⟨n - src.length % n, by omega, by omega, rfl, ?_⟩, ?_⟩
  · simpa using dvd_padded src.length hn
  · unfold unZeroPadding
    have e : ((src ++ List.replicate (n - src.length % n) 0#8).length : Int)
        - (((src ++ List.replicate (n - src.length % n) 0#8).length : Int) - src.length) = src.length := by omega
    simp only [e]
    rw [if_neg (by simp; omega)]
    simp

/-- C13: every non-positive block size is refused by a panic, so `n ≥ 1` is no restriction. -/
theorem C13_zero_refuses (src : Bytes) (n : Int) (h : n ≤ 0) : zeroPadding src n = .panic :=
  zeroPadding_nonpos src h

/-- C13, exactly what `UnZeroPadding` returns, also for numbers of bytes that were never added: the bytes of that many fewer from
the beginning of the slice, and for a negative number also those that lie behind it. -/
theorem C13_unzero_exact (src tail out : Bytes) (k : Int) :
    (unZeroPadding src tail k = .ok out ↔ out <+: src ++ tail ∧ (out.length : Int) = src.length - k) ∧
    (unZeroPadding src tail k = .panic ↔ (src.length : Int) < k ∨ k < -(tail.length : Int)) ∧
    (unZeroPadding src tail (-(tail.length : Int)) = .ok (src ++ tail)) := by
  refine ⟨?_, ?_, ?_⟩
  · unfold unZeroPadding
    dsimp only
    constructor
    · intro h
      split at h
      · cases h
      · rename_i hc
        rw [Res.ok.injEq] at h
        subst h
        refine ⟨List.take_prefix _ _, ?_⟩
        rw [List.length_take, List.length_append]
        omega
    · rintro ⟨⟨r, hr⟩, hl⟩
      have := congrArg List.length hr
      rw [List.length_append, List.length_append] at this
      rw [if_neg (by omega), ← hr]
      congr 1
      exact List.take_left' (by omega)
  · unfold unZeroPadding
    dsimp only
    constructor
    · intro h
      split at h
      · omega
      · cases h
    · intro h
      rw [if_pos (by omega)]
  · unfold unZeroPadding
    dsimp only
    rw [if_neg (by omega)]
    congr 1
    exact List.take_of_length_le (by rw [List.length_append]; omega)

/-- With a negative number of bytes the slice grows into the bytes behind it. -/
example : unZeroPadding [9, 0] [7, 8] (-1) = .ok [9, 0, 7] ∧ unZeroPadding [9, 0] [7, 8] (-3) = .panic ∧ unZeroPadding [9, 0] [7, 8] 3 = .panic := by
  decide

example : zeroPadding [9, 0] (4 : Nat) = .ok [9, 0, 0, 0] ∧ unZeroPadding [9, 0, 0, 0] [] 2 = .ok [9, 0] := by
  decide

/-! ## C15 -/

/-- C15, positive part: on validly padded data exactly the message is returned, for every message
and every count. `_partial`: malformed data are not rejected, see below. -/
theorem C15_unpad_valid_partial (n : Nat) (m p : Bytes) (h : Spec.PKCS7 n m p) :
    pkcs5UnPadding p = .ok m := by
  obtain ⟨k, h1, h2, h3, rfl, h4⟩ := h
  rw [unpad_replicate _ _ (by omega), BitVec.toNat_ofNat, Nat.mod_eq_of_lt (by omega), if_neg (by omega)]
  simp

example : Spec.PKCS7 4 [1] [1, 3, 3, 3] := ⟨3, by decide⟩

/-- C15, exact behaviour on every input: panic on the empty input and when the last byte exceeds
the length; otherwise the last byte alone decides how much is cut off. -/
theorem C15_unpad_exact (p : Bytes) :
    (p = [] → pkcs5UnPadding p = .panic) ∧
    (∀ m b, p = m ++ [b] →
      (p.length < b.toNat → pkcs5UnPadding p = .panic) ∧
      (b.toNat ≤ p.length → pkcs5UnPadding p = .ok (p.take (p.length - b.toNat)))) := by
  refine ⟨by rintro rfl; rfl, ?_⟩
  rintro m b rfl
  have := unpad_replicate m b (k := 1) (by omega)
  simp only [List.replicate_one] at this
  constructor <;> intro h <;> rw [this] <;> simp at h ⊢ <;> omega

/-- C15 is violated: some malformed inputs panic, others are cut silently, none gives an error. -/
theorem C15_unpad_rejects_violated :
    (∃ p, ¬ Spec.PKCS7Tail p ∧ pkcs5UnPadding p = .panic) ∧
    (∃ p m, ¬ Spec.PKCS7Tail p ∧ pkcs5UnPadding p = .ok m) ∧
    (∀ p e, pkcs5UnPadding p ≠ .err e) := by
  have key : ∀ (p : Bytes) (b : Byte), p.getLast? = some b → (b.toNat = 0 ∨ p.length < b.toNat) →
      ¬ Spec.PKCS7Tail p := by
    rintro p b hb hor ⟨m, k, h1, h2, rfl⟩
    have : (m ++ List.replicate k (BitVec.ofNat 8 k)).getLast? = some (BitVec.ofNat 8 k) := by
      rw [List.getLast?_append, List.getLast?_replicate, if_neg (by omega)]; rfl
    rw [this] at hb
    injection hb with hb
    subst hb
    rw [BitVec.toNat_ofNat, Nat.mod_eq_of_lt (by omega)] at hor
    simp at hor
    omega
  refine ⟨⟨[1, 9], key _ 9 (by decide) (by decide), by decide⟩,
    ⟨[1, 0], [1, 0], key _ 0 (by decide) (by decide), by decide⟩, ?_⟩
  intro p e
  unfold pkcs5UnPadding
  simp only
  split
  · simp
  · split <;> simp

/-! ## C16 -/

/-- The heap model returns the same bytes as the contents model, for every slice and capacity. -/
theorem C16_heap_model_agrees (spare : Nat) (h : Heap) (s : Slice) (n : Int) (hv : s.Valid h) :
    (pkcs5PaddingH spare h s n >>= fun r => Res.ok (r.2.get r.1)) = pkcs5Padding (s.get h) n ∧
    (zeroPaddingH spare h s n >>= fun r => Res.ok (r.2.get r.1)) = zeroPadding (s.get h) n := by
  have hl : (s.get h).length = s.len := by
    obtain ⟨h1, a, ha, h2⟩ := hv
    simp [Slice.get, ha]; omega
  unfold pkcs5PaddingH pkcs5Padding zeroPaddingH zeroPadding
  rw [hl]
  by_cases h0 : n = 0
  · simp [h0]
  · simp only [h0, if_false]
    by_cases h1 : n - Int.tmod s.len n < 0
    · simp only [h1, if_true, Res.panic_bind, and_self]
    · simp only [h1, if_false, Res.ok_bind, goAppend_get hv, and_self]

/-- C16 where it holds: with less spare capacity than padding (in particular with none) no existing
array changes. `_partial`: with enough spare capacity the code writes behind the slice. -/
theorem C16_caller_unchanged_partial (spare : Nat) (h h' : Heap) (s s' : Slice) (n : Nat)
    (hn : 0 < n) (hc : s.cap - s.len < n - s.len % n)
    (hr : pkcs5PaddingH spare h s n = .ok (h', s') ∨ zeroPaddingH spare h s n = .ok (h', s')) :
    h'.take h.length = h ∧ s'.arr = h.length := by
  have hlt := Nat.mod_lt s.len hn
  have e : ((n : Int) - ((s.len % n : Nat) : Int)) = ((n - s.len % n : Nat) : Int) := by omega
  unfold pkcs5PaddingH zeroPaddingH at hr
  simp only [tmod_natCast, e] at hr
  rw [if_neg (by omega), if_neg (by omega), if_neg (by omega), if_neg (by omega)] at hr
  simp only [goAppend, List.length_replicate, Int.toNat_natCast] at hr
  rw [if_neg (by omega), if_neg (by omega)] at hr
  rcases hr with hr | hr <;> · injection hr with hr; injection hr with h1 h2; subst h1; subst h2; simp

/-- C16, how far the damage reaches in general: the message bytes, everything before them, every
other array, and everything at or beyond `len + padding` keep their value. -/
theorem C16_damage_bound (spare : Nat) (h h' : Heap) (s s' : Slice) (n : Nat) (hn : 0 < n) (hv : s.Valid h)
    (hr : pkcs5PaddingH spare h s n = .ok (h', s') ∨ zeroPaddingH spare h s n = .ok (h', s'))
    (i j : Nat) (hi : i < h.length)
    (ho : i ≠ s.arr ∨ j < s.off + s.len ∨ s.off + s.len + (n - s.len % n) ≤ j) :
    (h'[i]?.getD [])[j]? = (h[i]?.getD [])[j]? := by
  have hlt := Nat.mod_lt s.len hn
  have e : ((n : Int) - ((s.len % n : Nat) : Int)) = ((n - s.len % n : Nat) : Int) := by omega
  unfold pkcs5PaddingH zeroPaddingH at hr
  simp only [tmod_natCast, e] at hr
  rw [if_neg (by omega), if_neg (by omega), if_neg (by omega), if_neg (by omega)] at hr
  obtain ⟨hlc, a, ha, hcap⟩ := hv
  have key : ∀ ext : Bytes, ext.length = n - s.len % n → goAppend spare h s ext = (h', s') →
      (h'[i]?.getD [])[j]? = (h[i]?.getD [])[j]? := by
    intro ext hel hg
    unfold goAppend at hg
    split at hg
    · injection hg with h1 h2
      subst h1
      by_cases hia : i = s.arr
      · subst hia
        rw [List.getElem?_set_self hi, ha]
        simp only [Option.getD_some]
        rw [getElem?_overwrite (by omega), if_neg (by omega)]
      · rw [List.getElem?_set_ne (by omega)]
    · injection hg with h1 h2
      subst h1
      rw [List.getElem?_append_left hi]
  rcases hr with hr | hr <;> · injection hr with hr; exact key _ (by simp) hr

/-- The full C16 is false of the code: a caller that holds a 4-byte array and pads a 2-byte window
of it sees its third byte change. -/
theorem C16_caller_unchanged_violated :
    ¬ ∀ (h : Heap) (s : Slice) (n : Int) (h' : Heap) (s' : Slice), s.Valid h →
      pkcs5PaddingH 0 h s n = .ok (h', s') → h'.take h.length = h := by
  intro hh
  have := hh [[1, 2, 3, 4]] ⟨0, 0, 2, 4⟩ 4 [[1, 2, 2, 2]] ⟨0, 0, 4, 4⟩
    ⟨by decide, [1, 2, 3, 4], rfl, by decide⟩ (by decide)
  revert this
  decide

example : ∃ h' s', pkcs5PaddingH 0 [[1, 2, 3]] ⟨0, 0, 3, 3⟩ (4 : Nat) = .ok (h', s') ∧
    h' = [[1, 2, 3], [1, 2, 3, 1]] ∧ (⟨0, 0, 3, 3⟩ : Slice).Valid [[1, 2, 3]] :=
  ⟨_, _, rfl, by decide, by decide, _, rfl, by decide⟩

end Verif.Props
