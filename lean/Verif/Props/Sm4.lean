import Verif.Sm4.HeapLemmas
import Verif.Props.Padding
/-!
# Properties C06–C11 and C14: SM4
-/
namespace Verif.Props
open Verif Verif.Sm4
open Verif.Spec.SM4 (blk)

/-! ## C06, C07: one block -/

/-- C07: for every 16-byte key `NewCipher` succeeds, and the two directions compute what the
standard defines (S-box in algebraic form, CK by its rule, both recurrences). -/
theorem C07_block_conforms (key inp : Bytes) (hk : key.length = 16) :
    ∃ c, newCipher key = .ok c ∧ block c.enc inp = Spec.SM4.encrypt key inp ∧
      block c.dec inp = Spec.SM4.decrypt key inp := by
  refine ⟨⟨expandKey key true, expandKey key false⟩, ?_, block_enc key inp, block_dec key inp⟩
  unfold newCipher
  rw [if_neg (by omega)]

/-- The GM/T 0002-2012 test vector (appendix A.1), a test of model and specification together. -/
example : (newCipher [0x01,0x23,0x45,0x67,0x89,0xab,0xcd,0xef,0xfe,0xdc,0xba,0x98,0x76,0x54,0x32,0x10] >>=
    fun c => .ok (block c.enc [0x01,0x23,0x45,0x67,0x89,0xab,0xcd,0xef,0xfe,0xdc,0xba,0x98,0x76,0x54,0x32,0x10]))
    = .ok [0x68,0x1e,0xdf,0x34,0xd2,0x06,0x96,0x5e,0x86,0xb3,0xe9,0x4f,0x53,0x6e,0x42,0x46] := by
  decide +kernel

/-- C06: for every key and block the two directions invert each other. -/
theorem C06_block_inverse (key inp : Bytes) (c : Cipher) (hc : newCipher key = .ok c) (hi : inp.length = 16) :
    block c.dec (block c.enc inp) = inp ∧ block c.enc (block c.dec inp) = inp ∧
    (block c.enc inp).length = 16 ∧ (block c.dec inp).length = 16 := by
  obtain ⟨_, h1, h2⟩ := newCipher_ok hc
  simp only [h1, h2, block_enc, block_dec]
  exact ⟨dec_enc key hi, enc_dec key hi, length_crypt _ _, length_crypt _ _⟩

/-- C06, last sentence: each key gives a permutation of the 16-byte blocks. -/
theorem C06_permutation (key : Bytes) (c : Cipher) (hc : newCipher key = .ok c) :
    (∀ a b : Bytes, a.length = 16 → b.length = 16 → block c.enc a = block c.enc b → a = b) ∧
    (∀ y : Bytes, y.length = 16 → ∃ a : Bytes, a.length = 16 ∧ block c.enc a = y) := by
  constructor
  · intro a b ha hb h
    rw [← (C06_block_inverse key a c hc ha).1, h, (C06_block_inverse key b c hc hb).1]
  · intro y hy
    have := C06_block_inverse key y c hc hy
    exact ⟨block c.dec y, this.2.2.2, this.2.1⟩

example : ∃ c, newCipher (List.replicate 16 7) = .ok c := ⟨_, rfl⟩

/-! ## C08: overlapping buffers -/

/-- C08: whatever the position of the two windows (same array, overlapping or not, or different
arrays), `Encrypt` leaves in the first 16 bytes of `dst` the encryption of what the first 16 bytes
of `src` held before the call, and every other byte of every array is unchanged. -/
theorem C08_encrypt_overlap (key : Bytes) (c : Cipher) (hc : newCipher key = .ok c) (h : Heap) (dst src : Slice)
    (hd : dst.Valid h) (hdl : 16 ≤ dst.len) (hsl : 16 ≤ src.len) :
    ∃ h', c.encryptH h dst src = .ok h' ∧ h'.length = h.length ∧
      ((h'[dst.arr]?.getD []).drop dst.off).take 16 = Spec.SM4.encrypt key ((src.get h).take 16) ∧
      ∀ i j, i ≠ dst.arr ∨ j < dst.off ∨ dst.off + 16 ≤ j → (h'[i]?.getD [])[j]? = (h[i]?.getD [])[j]? := by
  have hlt := hd.lt
  have hc' : c.enc = expandKey key true := (newCipher_ok hc).2.1
  refine ⟨processBlockH c.enc h src dst, ?_, ?_, ?_, ?_⟩
  · unfold Cipher.encryptH; rw [if_neg (by omega), if_neg (by omega)]
  all_goals rw [processBlockH_eq _ _ _ _ hd hdl]
  · simp
  all_goals obtain ⟨hlc, a, ha, hcap⟩ := hd
  all_goals have hl : dst.off + (processBlock c.enc ((src.get h).take 16)).length ≤ a.length := by simp; omega
  · rw [List.getElem?_set_self hlt, ha]
    simp only [Option.getD_some]
    have := drop_overwrite_take hl
    rw [length_processBlock] at this
    rw [this, hc', processBlock_enc]
  · intro i j hij
    by_cases hi : i = dst.arr
    · subst hi
      rw [List.getElem?_set_self hlt, ha]
      simp only [Option.getD_some]
      rw [getElem?_overwrite hl, length_processBlock, if_neg (by omega)]
    · rw [List.getElem?_set_ne (by omega)]

/-- C08 for `Decrypt`. -/
theorem C08_decrypt_overlap (key : Bytes) (c : Cipher) (hc : newCipher key = .ok c) (h : Heap) (dst src : Slice)
    (hd : dst.Valid h) (hdl : 16 ≤ dst.len) (hsl : 16 ≤ src.len) :
    ∃ h', c.decryptH h dst src = .ok h' ∧ h'.length = h.length ∧
      ((h'[dst.arr]?.getD []).drop dst.off).take 16 = Spec.SM4.decrypt key ((src.get h).take 16) ∧
      ∀ i j, i ≠ dst.arr ∨ j < dst.off ∨ dst.off + 16 ≤ j → (h'[i]?.getD [])[j]? = (h[i]?.getD [])[j]? := by
  have hlt := hd.lt
  have hc' : c.dec = expandKey key false := (newCipher_ok hc).2.2
  refine ⟨processBlockH c.dec h src dst, ?_, ?_, ?_, ?_⟩
  · unfold Cipher.decryptH; rw [if_neg (by omega), if_neg (by omega)]
  all_goals rw [processBlockH_eq _ _ _ _ hd hdl]
  · simp
  all_goals obtain ⟨hlc, a, ha, hcap⟩ := hd
  all_goals have hl : dst.off + (processBlock c.dec ((src.get h).take 16)).length ≤ a.length := by simp; omega
  · rw [List.getElem?_set_self hlt, ha]
    simp only [Option.getD_some]
    have := drop_overwrite_take hl
    rw [length_processBlock] at this
    rw [this, hc', processBlock_dec]
  · intro i j hij
    by_cases hi : i = dst.arr
    · subst hi
      rw [List.getElem?_set_self hlt, ha]
      simp only [Option.getD_some]
      rw [getElem?_overwrite hl, length_processBlock, if_neg (by omega)]
    · rw [List.getElem?_set_ne (by omega)]

/-- Hypotheses of C08 are met by windows that overlap by 11 bytes. -/
example : (⟨0, 5, 16, 20⟩ : Slice).Valid [List.replicate 30 1] ∧ 16 ≤ (⟨0, 0, 16, 30⟩ : Slice).len :=
  ⟨⟨by decide, _, rfl, by decide⟩, by decide⟩

/-! ## C09: sizes -/

/-- C09, `NewCipher`: an error for every key length but 16, and it names the length. -/
theorem C09_newCipher (key : Bytes) :
    (key.length ≠ 16 → newCipher key = .err ("sm4: invalid key size " ++ toString key.length)) ∧
    (key.length = 16 → ∃ c, newCipher key = .ok c) := by
  unfold newCipher keySizeError
  by_cases h : key.length = 16 <;> simp [h]

example : newCipher (List.replicate 24 7) = .err "sm4: invalid key size 24" := by
  rw [(C09_newCipher _).1 (by decide)]; rfl

/-- C09: which of the two errors the modes return. A wrong length of the data comes before a wrong key. -/
theorem C09_errors (key iv inp : Bytes) :
    (¬ 16 ∣ inp.length → ecbEncrypt key inp = .err "input not full blocks" ∧ ecbDecrypt key inp = .err "input not full blocks" ∧
      cbcEncrypt key iv inp = .err "input not full blocks" ∧ cbcDecrypt key iv inp = .err "input not full blocks") ∧
    (16 ∣ inp.length → key.length ≠ 16 → ecbEncrypt key inp = .err ("sm4: invalid key size " ++ toString key.length) ∧
      ecbDecrypt key inp = .err ("sm4: invalid key size " ++ toString key.length) ∧
      cbcEncrypt key iv inp = .err ("sm4: invalid key size " ++ toString key.length) ∧
      cbcDecrypt key iv inp = .err ("sm4: invalid key size " ++ toString key.length)) := by
  unfold ecbEncrypt ecbDecrypt cbcEncrypt cbcDecrypt
  constructor
  · intro h
    have h' : inp.length % 16 ≠ 0 := fun e => h (Nat.dvd_of_mod_eq_zero e)
    simp [h']
  · intro h hk
    have h' : ¬ inp.length % 16 ≠ 0 := by omega
    rw [if_neg h', if_neg h', if_neg h', if_neg h', (C09_newCipher key).1 hk]
    exact ⟨rfl, rfl, rfl, rfl⟩

example : ¬ 16 ∣ ([1, 2, 3] : Bytes).length ∧ 16 ∣ (List.replicate 32 (0 : Byte)).length ∧ (List.replicate 24 (7 : Byte)).length ≠ 16 := by
  decide

/-- C09, block calls: they panic exactly when `src` or `dst` is shorter than a block. -/
theorem C09_block_panics (c : Cipher) (h : Heap) (dst src : Slice) :
    (c.encryptH h dst src = .panic ↔ (src.len < 16 ∨ dst.len < 16)) ∧
    (c.decryptH h dst src = .panic ↔ (src.len < 16 ∨ dst.len < 16)) := by
  unfold Cipher.encryptH Cipher.decryptH
  by_cases h1 : src.len < 16 <;> by_cases h2 : dst.len < 16 <;> simp [h1, h2]

/-- C09, ECB: error exactly on a wrong key length or an input that is not whole blocks, otherwise
success with an output as long as the input; never a panic. -/
theorem C09_ecb_sizes (key inp : Bytes) :
    ((key.length = 16 ∧ 16 ∣ inp.length) →
      (∃ o, ecbEncrypt key inp = .ok o ∧ o.length = inp.length) ∧
      (∃ o, ecbDecrypt key inp = .ok o ∧ o.length = inp.length)) ∧
    (¬ (key.length = 16 ∧ 16 ∣ inp.length) →
      (∃ m, ecbEncrypt key inp = .err m) ∧ (∃ m, ecbDecrypt key inp = .err m)) := by
  unfold ecbEncrypt ecbDecrypt newCipher
  by_cases h2 : inp.length % 16 = 0
  · by_cases h1 : key.length = 16
    · have hdvd : 16 ∣ inp.length := Nat.dvd_of_mod_eq_zero h2
      have hl : inp.length = 16 * (inp.length / 16) := by omega
      have L := fun rk => (ecbLoop_spec rk inp (inp.length / 16) (inp.length / 16) 0
        (List.replicate inp.length 0) (by omega) (by simpa using hl)).1
      constructor
      · intro _
        rw [if_neg (by omega), if_neg (by omega), if_neg (by omega)]
        exact ⟨⟨_, rfl, (L _).trans hl.symm⟩, ⟨_, rfl, (L _).trans hl.symm⟩⟩
      · intro hh; exact absurd ⟨h1, hdvd⟩ hh
    · refine ⟨fun hh => absurd hh.1 h1, fun _ => ?_⟩
      rw [if_neg (by omega), if_pos h1, if_neg (by omega)]
      exact ⟨⟨_, rfl⟩, ⟨_, rfl⟩⟩
  · refine ⟨fun hh => absurd (Nat.mod_eq_zero_of_dvd hh.2) h2, fun _ => ?_⟩
    rw [if_pos h2, if_pos h2]
    exact ⟨⟨_, rfl⟩, ⟨_, rfl⟩⟩

/-- C09, CBC: errors as for ECB; with acceptable key and data, a panic exactly when the IV does not
have 16 bytes, otherwise success with an output as long as the input. -/
theorem C09_cbc_sizes (key iv inp : Bytes) :
    ((key.length = 16 ∧ 16 ∣ inp.length ∧ iv.length = 16) →
      (∃ o, cbcEncrypt key iv inp = .ok o ∧ o.length = inp.length) ∧
      (∃ o, cbcDecrypt key iv inp = .ok o ∧ o.length = inp.length)) ∧
    ((key.length = 16 ∧ 16 ∣ inp.length ∧ iv.length ≠ 16) →
      cbcEncrypt key iv inp = .panic ∧ cbcDecrypt key iv inp = .panic) ∧
    (¬ (key.length = 16 ∧ 16 ∣ inp.length) →
      (∃ m, cbcEncrypt key iv inp = .err m) ∧ (∃ m, cbcDecrypt key iv inp = .err m)) := by
  unfold cbcEncrypt cbcDecrypt newCipher
  by_cases h2 : inp.length % 16 = 0
  · have hl : inp.length = 16 * (inp.length / 16) := by omega
    by_cases h1 : key.length = 16
    · refine ⟨?_, ?_, fun hh => absurd ⟨h1, Nat.dvd_of_mod_eq_zero h2⟩ hh⟩
      · rintro ⟨_, _, h3⟩
        rw [if_neg (by omega), if_neg (by omega), if_neg (by omega), Res.ok_bind, Res.ok_bind,
          if_neg (by omega), if_neg (by omega)]
        have L1 := fun rk => (cbcEncLoop_spec rk inp (inp.length / 16) (inp.length / 16) 0 iv
          (List.replicate inp.length 0) (by omega) (by simpa using hl)).1
        have L2 := fun rk => (cbcDecLoop_spec rk inp iv (inp.length / 16) (inp.length / 16)
          (List.replicate inp.length 0) (Nat.le_refl _) hl h3 (by simpa using hl)).1
        exact ⟨⟨_, rfl, (L1 _).trans hl.symm⟩, ⟨_, rfl, (L2 _).trans hl.symm⟩⟩
      · rintro ⟨_, _, h3⟩
        rw [if_neg (by omega), if_neg (by omega), if_neg (by omega), Res.ok_bind, Res.ok_bind,
          if_pos h3, if_pos h3]
        exact ⟨rfl, rfl⟩
    · refine ⟨fun hh => absurd hh.1 h1, fun hh => absurd hh.1 h1, fun _ => ?_⟩
      rw [if_neg (by omega), if_pos h1, if_neg (by omega)]
      exact ⟨⟨_, rfl⟩, ⟨_, rfl⟩⟩
  · refine ⟨fun hh => absurd (Nat.mod_eq_zero_of_dvd hh.2.1) h2,
      fun hh => absurd (Nat.mod_eq_zero_of_dvd hh.2.1) h2, fun _ => ?_⟩
    rw [if_pos h2, if_pos h2]
    exact ⟨⟨_, rfl⟩, ⟨_, rfl⟩⟩

/-! ## C10: ECB -/

theorem ecb_ok {key inp : Bytes} {n : Nat} (hk : key.length = 16) (hi : inp.length = 16 * n) :
    (∃ o, ecbEncrypt key inp = .ok o ∧ o.length = 16 * n ∧
      ∀ i, i < n → blk o i = Spec.SM4.encrypt key (blk inp i)) ∧
    (∃ o, ecbDecrypt key inp = .ok o ∧ o.length = 16 * n ∧
      ∀ i, i < n → blk o i = Spec.SM4.decrypt key (blk inp i)) := by
  have hn : inp.length / 16 = n := by omega
  have L := fun rk => ecbLoop_spec rk inp n n 0 (List.replicate inp.length 0) (by omega) (by simpa using hi)
  unfold ecbEncrypt ecbDecrypt newCipher
  rw [if_neg (by omega), if_neg (by omega), if_neg (by omega), hn]
  refine ⟨⟨_, rfl, (L _).1, ?_⟩, ⟨_, rfl, (L _).1, ?_⟩⟩
  · intro i h
    rw [(L _).2 i h, if_pos (by omega)]; exact block_enc key _
  · intro i h
    rw [(L _).2 i h, if_pos (by omega)]; exact block_dec key _

/-- C10, conformance and locality: block `i` of the output is the standard's encryption
(decryption) of block `i` of the input, so it depends on nothing else. -/
theorem C10_ecb_blocks (key inp : Bytes) (n : Nat) (hk : key.length = 16) (hi : inp.length = 16 * n) :
    (∃ o, ecbEncrypt key inp = .ok o ∧ o.length = inp.length ∧
      ∀ i, i < n → blk o i = Spec.SM4.encrypt key (blk inp i)) ∧
    (∃ o, ecbDecrypt key inp = .ok o ∧ o.length = inp.length ∧
      ∀ i, i < n → blk o i = Spec.SM4.decrypt key (blk inp i)) := by
  rw [hi]; exact ecb_ok hk hi

/-- C10, round-trip both ways. -/
theorem C10_ecb_roundtrip (key inp : Bytes) (hk : key.length = 16) (hi : 16 ∣ inp.length) :
    (ecbEncrypt key inp >>= ecbDecrypt key) = .ok inp ∧ (ecbDecrypt key inp >>= ecbEncrypt key) = .ok inp := by
  obtain ⟨n, hn⟩ := hi
  obtain ⟨⟨e, he, hel, heb⟩, ⟨d, hd, hdl, hdb⟩⟩ := ecb_ok hk hn
  rw [he, hd, Res.ok_bind, Res.ok_bind]
  obtain ⟨_, ⟨d', hd', hdl', hdb'⟩⟩ := ecb_ok hk hel
  obtain ⟨⟨e', he', hel', heb'⟩, _⟩ := ecb_ok hk hdl
  rw [hd', he']
  constructor
  · congr 1
    apply blk_ext hdl' hn
    intro i h
    rw [hdb' i h, heb i h, dec_enc key (length_blk hn h)]
  · congr 1
    apply blk_ext hel' hn
    intro i h
    rw [heb' i h, hdb i h, enc_dec key (length_blk hn h)]

example : (List.replicate 16 (3 : Byte)).length = 16 ∧ 16 ∣ (List.replicate 48 (1 : Byte)).length := by simp

/-! ## C11: CBC -/

theorem cbc_enc_ok {key iv inp : Bytes} {n : Nat} (hk : key.length = 16) (hv : iv.length = 16)
    (hi : inp.length = 16 * n) :
    ∃ o, cbcEncrypt key iv inp = .ok o ∧ o.length = 16 * n ∧
      ∀ i, i < n → blk o i = Spec.SM4.encrypt key (Spec.SM4.xor (blk inp i) (if i = 0 then iv else blk o (i - 1))) := by
  have hn : inp.length / 16 = n := by omega
  have L := fun rk => cbcEncLoop_spec rk inp n n 0 iv (List.replicate inp.length 0) (by omega) (by simpa using hi)
  unfold cbcEncrypt newCipher
  rw [if_neg (by omega), if_neg (by omega), hn, Res.ok_bind, if_neg (by omega)]
  refine ⟨_, rfl, (L _).1, ?_⟩
  intro i h
  have := (L (expandKey key true)).2.2 i (by omega) h
  rw [block_enc] at this
  exact this

theorem cbc_dec_ok {key iv inp : Bytes} {n : Nat} (hk : key.length = 16) (hv : iv.length = 16)
    (hi : inp.length = 16 * n) :
    ∃ o, cbcDecrypt key iv inp = .ok o ∧ o.length = 16 * n ∧
      ∀ i, i < n → blk o i = Spec.SM4.xor (Spec.SM4.decrypt key (blk inp i)) (if i = 0 then iv else blk inp (i - 1)) := by
  have hn : inp.length / 16 = n := by omega
  have L := fun rk => cbcDecLoop_spec rk inp iv n n (List.replicate inp.length 0) (by omega) hi hv (by simpa using hi)
  unfold cbcDecrypt newCipher
  rw [if_neg (by omega), if_neg (by omega), hn, Res.ok_bind, if_neg (by omega)]
  refine ⟨_, rfl, (L _).1, ?_⟩
  intro i h
  rw [(L (expandKey key false)).2 i h, if_pos h, block_dec]
  rfl

/-- C11, conformance: `C[i] = E(P[i] ⊕ C[i-1])`, `C[-1] = IV`. -/
theorem C11_cbc_encrypt_conforms (key iv inp : Bytes) (n : Nat) (hk : key.length = 16) (hv : iv.length = 16)
    (hi : inp.length = 16 * n) :
    ∃ o, cbcEncrypt key iv inp = .ok o ∧ o.length = inp.length ∧
      ∀ i, i < n → blk o i = Spec.SM4.encrypt key (Spec.SM4.xor (blk inp i) (if i = 0 then iv else blk o (i - 1))) := by
  rw [hi]; exact cbc_enc_ok hk hv hi

/-- C11, decryption: `P[i] = D(C[i]) ⊕ C[i-1]`, `C[-1] = IV`. -/
theorem C11_cbc_decrypt_conforms (key iv inp : Bytes) (n : Nat) (hk : key.length = 16) (hv : iv.length = 16)
    (hi : inp.length = 16 * n) :
    ∃ o, cbcDecrypt key iv inp = .ok o ∧ o.length = inp.length ∧
      ∀ i, i < n → blk o i = Spec.SM4.xor (Spec.SM4.decrypt key (blk inp i)) (if i = 0 then iv else blk inp (i - 1)) := by
  rw [hi]; exact cbc_dec_ok hk hv hi

/-- C11, round-trip both ways. -/
theorem C11_cbc_roundtrip (key iv inp : Bytes) (hk : key.length = 16) (hv : iv.length = 16) (hi : 16 ∣ inp.length) :
    (cbcEncrypt key iv inp >>= cbcDecrypt key iv) = .ok inp ∧
    (cbcDecrypt key iv inp >>= cbcEncrypt key iv) = .ok inp := by
  obtain ⟨n, hn⟩ := hi
  have hprev : ∀ (o : Bytes) i, o.length = 16 * n → i < n → (if i = 0 then iv else blk o (i - 1)).length = 16 := by
    intro o i ho h
    split
    · exact hv
    · exact length_blk ho (by omega)
  constructor
  · obtain ⟨e, he, hel, heb⟩ := cbc_enc_ok hk hv hn
    obtain ⟨d, hd, hdl, hdb⟩ := cbc_dec_ok hk hv hel
    rw [he, Res.ok_bind, hd]
    congr 1
    apply blk_ext hdl hn
    intro i h
    rw [hdb i h, heb i h, dec_enc key]
    · exact xorBytes_cancel (by rw [hprev e i hel h, length_blk hn h])
    · exact length_xorBytes (length_blk hn h) (hprev e i hel h)
  · obtain ⟨d, hd, hdl, hdb⟩ := cbc_dec_ok hk hv hn
    obtain ⟨e, he, hel, heb⟩ := cbc_enc_ok hk hv hdl
    rw [hd, Res.ok_bind, he]
    congr 1
    apply blk_ext hel hn
    intro i
    induction i with
    | zero =>
      intro h
      rw [heb 0 h, hdb 0 h, if_pos rfl, if_pos rfl]
      rw [show Spec.SM4.xor (Spec.SM4.xor (Spec.SM4.decrypt key (blk inp 0)) iv) iv = Spec.SM4.decrypt key (blk inp 0) from
        xorBytes_cancel (by rw [hv]; exact length_crypt _ _)]
      exact enc_dec key (length_blk hn h)
    | succ i ih =>
      intro h
      rw [heb _ h, hdb _ h, if_neg (by omega), if_neg (by omega), Nat.add_sub_cancel, ih (by omega)]
      rw [show Spec.SM4.xor (Spec.SM4.xor (Spec.SM4.decrypt key (blk inp (i + 1))) (blk inp i)) (blk inp i)
          = Spec.SM4.decrypt key (blk inp (i + 1)) from
        xorBytes_cancel (by rw [length_blk hn (show i < n by omega)]; exact length_crypt _ _)]
      exact enc_dec key (length_blk hn h)

/-- C11, error propagation: if two ciphertexts agree on blocks `i-1` and `i` (for `i = 0`: the IVs
and block 0), the decryptions agree on block `i`, whatever the other blocks are. -/
theorem C11_cbc_locality (key iv iv' inp inp' o o' : Bytes) (n i : Nat) (hi : inp.length = 16 * n)
    (hi' : inp'.length = 16 * n) (h : i < n)
    (hb : blk inp i = blk inp' i) (hp : if i = 0 then iv = iv' else blk inp (i - 1) = blk inp' (i - 1))
    (hd : cbcDecrypt key iv inp = .ok o) (hd' : cbcDecrypt key iv' inp' = .ok o') :
    blk o i = blk o' i := by
  have sizes : ∀ iv (inp o : Bytes), inp.length = 16 * n → cbcDecrypt key iv inp = .ok o → key.length = 16 ∧ iv.length = 16 := by
    intro iv inp o hi hd
    by_cases h1 : key.length = 16
    · by_cases h2 : iv.length = 16
      · exact ⟨h1, h2⟩
      · have := ((C09_cbc_sizes key iv inp).2.1 ⟨h1, ⟨n, hi⟩, h2⟩).2
        rw [this] at hd; cases hd
    · obtain ⟨m, hm⟩ := ((C09_cbc_sizes key iv inp).2.2 (fun hh => h1 hh.1)).2
      rw [hm] at hd; cases hd
  obtain ⟨h1, h2⟩ := sizes iv inp o hi hd
  obtain ⟨_, h3⟩ := sizes iv' inp' o' hi' hd'
  obtain ⟨d, hd1, _, hdb⟩ := cbc_dec_ok h1 h2 hi
  obtain ⟨d', hd1', _, hdb'⟩ := cbc_dec_ok h1 h3 hi'
  rw [hd1] at hd; rw [hd1'] at hd'
  injection hd with hd; injection hd' with hd'
  subst hd; subst hd'
  rw [hdb i h, hdb' i h, hb]
  by_cases h0 : i = 0
  · rw [if_pos h0] at hp; rw [if_pos h0, if_pos h0, hp]
  · rw [if_neg h0] at hp; rw [if_neg h0, if_neg h0, hp]

/-- Hypotheses of `C11_cbc_locality` can be met with different first blocks. -/
example : blk (List.replicate 16 1 ++ List.replicate 32 2) 2 = blk (List.replicate 16 9 ++ List.replicate 32 2) 2 ∧
    blk (List.replicate 16 1 ++ List.replicate 32 2) (2 - 1) = blk (List.replicate 16 9 ++ List.replicate 32 2) (2 - 1) := by
  decide

/-! ## C14: padding and modes together -/

/-- C14: pad, encrypt, decrypt, unpad returns the plaintext and no step errs or panics; ECB and
CBC, every plaintext length including 0. -/
theorem C14_pad_crypt_unpad (key iv plain : Bytes) (hk : key.length = 16) (hv : iv.length = 16) :
    (do let p ← Padding.pkcs5Padding plain 16
        let c ← ecbEncrypt key p
        let q ← ecbDecrypt key c
        Padding.pkcs5UnPadding q) = .ok plain ∧
    (do let p ← Padding.pkcs5Padding plain 16
        let c ← cbcEncrypt key iv p
        let q ← cbcDecrypt key iv c
        Padding.pkcs5UnPadding q) = .ok plain := by
  obtain ⟨k, p, hp, _, _, _, hdvd, _, _⟩ := C12_pkcs5_layout plain 16 (by omega)
  have hu := C12_pkcs5_roundtrip_partial plain 16 (by omega) (by omega)
  have e16 : ((16 : Nat) : Int) = 16 := rfl
  rw [e16] at hp hu
  rw [hp, Res.ok_bind] at hu
  have h1 := (C10_ecb_roundtrip key p hk hdvd).1
  have h2 := (C11_cbc_roundtrip key iv p hk hv hdvd).1
  constructor
  · rw [hp, Res.ok_bind, ← bind_assoc, h1, Res.ok_bind, hu]
  · rw [hp, Res.ok_bind, ← bind_assoc, h2, Res.ok_bind, hu]

example : (List.replicate 16 (0 : Byte)).length = 16 := by decide

end Verif.Props
