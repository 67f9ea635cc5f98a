import Verif.Props.Sm4Oracle
/-!
# C117, what holds: what the answers do not show
-/
namespace Verif.Props
open Verif Verif.Sm4 Verif.Spec.SM4

/-- **C117**, what holds: whether `CBCDecrypt` followed by `PKCS5UnPadding` answers, and with how many bytes, depends on the number of
blocks, the last ciphertext block and the last byte of what stands before it (the ciphertext block before, or the initialisation vector)
alone. The answers show nothing of anything else: no other block, and no other byte of that one. Missing: the last byte itself, see
`C117_last_violated`. -/
theorem C117_only_partial (key iv iv' c c' : Bytes) (n : Nat) (hk : key.length = 16) (hv : iv.length = 16) (hv' : iv'.length = 16)
    (hc : c.length = 16 * (n + 1)) (hc' : c'.length = 16 * (n + 1)) (hb : blk c n = blk c' n)
    (hp : (if n = 0 then iv else blk c (n - 1))[15]? = (if n = 0 then iv' else blk c' (n - 1))[15]?) :
    (openCbc key iv c = .panic ∧ openCbc key iv' c' = .panic) ∨
      ∃ text text', openCbc key iv c = .ok text ∧ openCbc key iv' c' = .ok text' ∧ text.length = text'.length := by
  obtain ⟨o, ho, hl, hd⟩ := C11_cbc_decrypt_conforms key iv c (n + 1) hk hv hc
  obtain ⟨o', ho', hl', hd'⟩ := C11_cbc_decrypt_conforms key iv' c' (n + 1) hk hv' hc'
  have h := hd n (by omega)
  have h' := hd' n (by omega)
  have last : o[16 * n + 15]? = o'[16 * n + 15]? := by
    have e : ∀ l : Bytes, l[16 * n + 15]? = (blk l n)[15]? := fun l => by
      show _ = ((l.drop (16 * n)).take 16)[15]?
      rw [List.getElem?_take_of_lt (by omega), List.getElem?_drop]
    rw [e o, e o', h, h', hb, Spec.SM4.xor, Spec.SM4.xor, List.getElem?_zipWith, List.getElem?_zipWith, hp]
  rcases List.eq_nil_or_concat o with rfl | ⟨m, b, rfl⟩
  · simp at hl; omega
  rcases List.eq_nil_or_concat o' with rfl | ⟨m', b', rfl⟩
  · simp at hl'; omega
  rw [List.concat_eq_append] at *
  rw [List.concat_eq_append] at *
  have lm : m.length = 16 * n + 15 := by simp at hl; omega
  have lm' : m'.length = 16 * n + 15 := by simp at hl'; omega
  have hbb : b = b' := by
    rw [← lm, List.getElem?_concat_length, lm, ← lm', List.getElem?_concat_length] at last
    exact Option.some.inj last
  subst hbb
  unfold openCbc
  rw [ho, ho', Res.ok_bind, Res.ok_bind]
  have a := (C15_unpad_exact (m ++ [b])).2 m b rfl
  have a' := (C15_unpad_exact (m' ++ [b])).2 m' b rfl
  have le : (m ++ [b]).length = (m' ++ [b]).length := by simp [lm, lm']
  rw [← le] at a'
  by_cases hlt : (m ++ [b]).length < b.toNat
  · exact .inl ⟨a.1 hlt, a'.1 hlt⟩
  · refine .inr ⟨_, _, a.2 (by omega), a'.2 (by omega), ?_⟩
    rw [List.length_take, List.length_take, le]

/-- 17 bytes, padded and encrypted, and the ciphertext with another first byte: both are answered with 17 bytes, the second with others. -/
example : (do
    let z := List.replicate 16 (0 : Byte)
    let p ← Padding.pkcs5Padding (List.replicate 17 0x61) 16
    let c ← cbcEncrypt z z p
    let c' := 0 :: c.tail
    let q ← openCbc z z c
    let q' ← openCbc z z c'
    .ok (decide (c ≠ c' ∧ c.length = 16 * (1 + 1) ∧ blk c 1 = blk c' 1 ∧ (blk c 0)[15]? = (blk c' 0)[15]? ∧ q ≠ q'), q.length, q'.length)) =
    .ok (true, 17, 17) := by decide +kernel

end Verif.Props
