import Verif.Sm4.ModesLemmas
import Verif.Props.Sm4
/-!
# C113: the SM4 modes leave their arguments alone and return memory of their own

The modes are modelled in `Verif.Sm4.Modes` with the slices they are given: key, initialisation vector and data may
lie in the same array and may overlap. The theorems compare memory before the call and after it.
-/
namespace Verif.Props
open Verif.Sm4

/-- `r` is the outcome of a call started in the memory `h`. It agrees with the outcome `want` on byte strings: the
same error or panic, and where `want` is a byte string the call returns a slice that reads as this string. The slice
lies in an array that did not exist before the call, and every slice of the caller still reads as it did. -/
def ReturnsFresh (h : Heap) (r : Res (Heap × Slice)) (want : Res Bytes) : Prop :=
  match want with
  | .ok o => ∃ h' s, r = .ok (h', s) ∧ (∀ t : Slice, t.Valid h → t.Valid h' ∧ t.get h' = t.get h ∧ t.arr ≠ s.arr) ∧
      s.Valid h' ∧ s.get h' = o
  | .err m => r = .err m
  | .panic => r = .panic
  | .loop => r = .loop

theorem returnsFresh_of {h : Heap} {r : Res (Heap × Slice)} {want : Res Bytes} (x : List Bytes) (len : Nat)
    (hr : r = want.bind fun o => .ok (h ++ (x ++ [o]), ⟨h.length + x.length, 0, len, len⟩)) (hl : ∀ o, want = .ok o → o.length = len) :
    ReturnsFresh h r want := by
  cases want with
  | err m => exact hr
  | panic => exact hr
  | loop => exact hr
  | ok o =>
    have hlen := hl o rfl
    have hq : (h ++ (x ++ [o]))[h.length + x.length]? = some o := by
      rw [← List.append_assoc, ← List.length_append]
      exact getElem?_last _ _
    refine ⟨_, _, hr, fun t ht => ⟨valid_append ht _, get_append ht _, ?_⟩, ⟨Nat.le_refl _, o, hq, ?_⟩, ?_⟩
    · have := ht.lt
      show t.arr ≠ h.length + x.length
      omega
    · show 0 + len ≤ o.length
      omega
    · unfold Slice.get
      dsimp only
      rw [hq]
      exact List.take_of_length_le (by simp [hlen])

theorem ecb_length {key inp o : Bytes} (h : ecbEncrypt key inp = .ok o ∨ ecbDecrypt key inp = .ok o) : o.length = inp.length := by
  obtain ⟨h1, h2⟩ := C09_ecb_sizes key inp
  by_cases hc : key.length = 16 ∧ 16 ∣ inp.length
  · obtain ⟨⟨a, ha, ha'⟩, ⟨b, hb, hb'⟩⟩ := h1 hc
    rw [ha, hb] at h
    rcases h with h | h <;> cases h <;> assumption
  · obtain ⟨⟨a, ha⟩, ⟨b, hb⟩⟩ := h2 hc
    rw [ha, hb] at h
    rcases h with h | h <;> cases h

theorem cbc_length {key iv inp o : Bytes} (h : cbcEncrypt key iv inp = .ok o ∨ cbcDecrypt key iv inp = .ok o) : o.length = inp.length := by
  obtain ⟨h1, h2, h3⟩ := C09_cbc_sizes key iv inp
  by_cases hc : key.length = 16 ∧ 16 ∣ inp.length
  · by_cases hi : iv.length = 16
    · obtain ⟨⟨a, ha, ha'⟩, ⟨b, hb, hb'⟩⟩ := h1 ⟨hc.1, hc.2, hi⟩
      rw [ha, hb] at h
      rcases h with h | h <;> cases h <;> assumption
    · obtain ⟨ha, hb⟩ := h2 ⟨hc.1, hc.2, hi⟩
      rw [ha, hb] at h
      rcases h with h | h <;> cases h
  · obtain ⟨⟨a, ha⟩, ⟨b, hb⟩⟩ := h3 hc
    rw [ha, hb] at h
    rcases h with h | h <;> cases h

/-- ECB encryption. -/
theorem C113_ecbEncrypt (h : Heap) (key plain : Slice) (hp : plain.Valid h) :
    ReturnsFresh h (ecbEncryptH h key plain) (ecbEncrypt (key.get h) (plain.get h)) := by
  refine returnsFresh_of [] plain.len ?_ ?_
  · rw [ecbEncryptH_eq h key plain hp]; rfl
  · intro o ho
    rw [ecb_length (.inl ho), Slice.length_get hp]

/-- ECB decryption. -/
theorem C113_ecbDecrypt (h : Heap) (key cipher : Slice) (hp : cipher.Valid h) :
    ReturnsFresh h (ecbDecryptH h key cipher) (ecbDecrypt (key.get h) (cipher.get h)) := by
  refine returnsFresh_of [] cipher.len ?_ ?_
  · rw [ecbDecryptH_eq h key cipher hp]; rfl
  · intro o ho
    rw [ecb_length (.inr ho), Slice.length_get hp]

/-- CBC encryption. -/
theorem C113_cbcEncrypt (h : Heap) (key iv plain : Slice) (hi : iv.Valid h) (hp : plain.Valid h) :
    ReturnsFresh h (cbcEncryptH h key iv plain) (cbcEncrypt (key.get h) (iv.get h) (plain.get h)) := by
  obtain ⟨a, b, he⟩ := cbcEncryptH_eq h key iv plain hi hp
  refine returnsFresh_of [a, b] plain.len he ?_
  intro o ho
  rw [cbc_length (.inl ho), Slice.length_get hp]

/-- CBC decryption. -/
theorem C113_cbcDecrypt (h : Heap) (key iv cipher : Slice) (hi : iv.Valid h) (hp : cipher.Valid h) :
    ReturnsFresh h (cbcDecryptH h key iv cipher) (cbcDecrypt (key.get h) (iv.get h) (cipher.get h)) := by
  obtain ⟨a, b, he⟩ := cbcDecryptH_eq h key iv cipher hi hp
  refine returnsFresh_of [a, b] cipher.len he ?_
  intro o ho
  rw [cbc_length (.inr ho), Slice.length_get hp]

/-- The same key and initialisation vector can be used again after a call: encrypting and then decrypting what was
returned gives the plaintext, and the plaintext of the caller is where it was, whatever overlaps with what. -/
theorem C113_roundtrip (h : Heap) (key iv plain : Slice) (hk : key.Valid h) (hi : iv.Valid h) (hp : plain.Valid h) (hkl : key.len = 16)
    (hil : iv.len = 16) (hpl : 16 ∣ plain.len) : ∃ h1 c h2 p, cbcEncryptH h key iv plain = .ok (h1, c) ∧ cbcDecryptH h1 key iv c = .ok (h2, p) ∧
      p.get h2 = plain.get h ∧ plain.get h2 = plain.get h ∧ c.get h2 = c.get h1 ∧ p.arr ≠ c.arr ∧ p.arr ≠ plain.arr ∧ c.arr ≠ plain.arr := by
  have hkl' : (key.get h).length = 16 := by rw [Slice.length_get hk, hkl]
  have hil' : (iv.get h).length = 16 := by rw [Slice.length_get hi, hil]
  have hpl' : 16 ∣ (plain.get h).length := by rw [Slice.length_get hp]; exact hpl
  have hr := (C11_cbc_roundtrip (key.get h) (iv.get h) (plain.get h) hkl' hil' hpl').1
  rw [Res.bind_eq_ok] at hr
  obtain ⟨o, ho, ho'⟩ := hr
  have e := C113_cbcEncrypt h key iv plain hi hp
  rw [ho] at e
  obtain ⟨h1, c, he, hold, hcv, hcg⟩ := e
  have d := C113_cbcDecrypt h1 key iv c (hold iv hi).1 hcv
  rw [(hold key hk).2.1, (hold iv hi).2.1, hcg, ho'] at d
  obtain ⟨h2, p, hd, hold', hpv, hpg⟩ := d
  have hpl1 := hold plain hp
  have hpl2 := hold' plain hpl1.1
  exact ⟨h1, c, h2, p, he, hd, hpg, hpl2.2.1.trans hpl1.2.1, (hold' c hcv).2.1, fun x => (hold' c hcv).2.2 x.symm, fun x => hpl2.2.2 x.symm,
    fun x => hpl1.2.2 x.symm⟩

/-- One array of 48 bytes with the key in it; the initialisation vector is the first half of the data, and the data
begins inside the key. -/
def mixedHeap : Heap := [(List.range 48).map fun i => BitVec.ofNat 8 i]

def mixedCheck : Res (Heap × Slice) → Bool
  | .ok (h', s) => decide (s = ⟨3, 0, 32, 32⟩) && decide (h'[0]? = mixedHeap[0]?) && decide (s.get h' ≠ Slice.get mixedHeap ⟨0, 8, 32, 40⟩)
  | _ => false

/-- The hypotheses are met. -/
example : Slice.Valid mixedHeap ⟨0, 0, 16, 48⟩ ∧ Slice.Valid mixedHeap ⟨0, 8, 16, 40⟩ ∧ Slice.Valid mixedHeap ⟨0, 8, 32, 40⟩ ∧
    mixedCheck (cbcEncryptH mixedHeap ⟨0, 0, 16, 48⟩ ⟨0, 8, 16, 40⟩ ⟨0, 8, 32, 40⟩) = true :=
  ⟨⟨by decide, _, rfl, by decide⟩, ⟨by decide, _, rfl, by decide⟩, ⟨by decide, _, rfl, by decide⟩, by decide +kernel⟩

end Verif.Props
