import Verif.Props.Sm4Shows
/-!
# C159: changed ciphertexts of ECB and CBC

The modes have no integrity check. What a change of the ciphertext or of the IV does to the message is said exactly.
-/
namespace Verif.Props
open Verif Verif.Sm4 Verif.Spec.SM4

theorem bytes_xor_assoc (a b c : Bytes) : xor a (xor b c) = xor (xor a b) c := by
  unfold Spec.SM4.xor
  induction a generalizing b c with
  | nil => simp
  | cons x a ih =>
    cases b with
    | nil => simp
    | cons y b =>
      cases c with
      | nil => simp
      | cons z c =>
        simp only [List.zipWith_cons_cons]
        rw [ih, BitVec.xor_assoc]

theorem chained_block {v x : Bytes} (hx : x.length = 16) : chained v x = x := by
  unfold chained
  rw [if_neg (by rintro rfl; simp at hx), hx]
  rfl

theorem cbc_dec_one {key v x : Bytes} (hk : key.length = 16) (hv : v.length = 16) (hx : x.length = 16) :
    cbcDecrypt key v x = .ok (xor (Spec.SM4.decrypt key x) v) := by
  obtain ⟨o, h1, h2, h3⟩ := cbc_dec_ok hk hv (n := 1) (by omega)
  have h := h3 0 (by omega)
  rw [if_pos rfl] at h
  have b : ∀ {z : Bytes}, z.length = 16 → blk z 0 = z := by
    intro z hz
    unfold blk
    rw [Nat.mul_zero, List.drop_zero, List.take_of_length_le (by omega)]
  rw [b (by omega), b hx] at h
  rw [h1, h]

/-- The first block of a ciphertext and the rest. -/
theorem cbc_dec_cons {key v x rest : Bytes} (hk : key.length = 16) (hv : v.length = 16) (hx : x.length = 16) (hr : 16 ∣ rest.length) :
    ∃ r, cbcDecrypt key x rest = .ok r ∧ r.length = rest.length ∧ cbcDecrypt key v (x ++ rest) = .ok (xor (Spec.SM4.decrypt key x) v ++ r) := by
  obtain ⟨a, r, h1, h2, h3⟩ := C156_cbc_decrypt key v x rest hk hv (by omega) hr
  rw [cbc_dec_one hk hv hx] at h1
  cases h1
  rw [chained_block hx] at h2
  obtain ⟨n, hn⟩ := hr
  obtain ⟨o, g1, g2, -⟩ := cbc_dec_ok hk hx hn
  rw [h2] at g1
  cases g1
  exact ⟨r, h2, by omega, h3⟩

/-- C159, the part that holds: with one key and one IV, different ciphertexts give different messages. -/
theorem C159_differ_partial (key iv c c' m : Bytes) (hv : iv.length = 16) (hk : key.length = 16) (hc : 16 ∣ c.length) (hc' : 16 ∣ c'.length) :
    (cbcDecrypt key iv c = .ok m → cbcDecrypt key iv c' = .ok m → c = c') ∧
    (ecbDecrypt key c = .ok m → ecbDecrypt key c' = .ok m → c = c') := by
  constructor
  · intro h h'
    have r := (C11_cbc_roundtrip key iv c hk hv hc).2
    have r' := (C11_cbc_roundtrip key iv c' hk hv hc').2
    rw [h, Res.ok_bind] at r
    rw [h', Res.ok_bind, r] at r'
    exact Res.ok.inj r'
  · intro h h'
    have r := (C10_ecb_roundtrip key c hk hc).2
    have r' := (C10_ecb_roundtrip key c' hk hc').2
    rw [h, Res.ok_bind] at r
    rw [h', Res.ok_bind, r] at r'
    exact Res.ok.inj r'

/-- C159 is violated by a change of the IV: the same bits of the first block of the message change, and nothing else. -/
theorem C159_iv_violated (key iv d x rest : Bytes) (hk : key.length = 16) (hv : iv.length = 16) (hd : d.length = 16) (hx : x.length = 16)
    (hr : 16 ∣ rest.length) :
    ∃ p r, p.length = 16 ∧ cbcDecrypt key iv (x ++ rest) = .ok (p ++ r) ∧ cbcDecrypt key (xor iv d) (x ++ rest) = .ok (xor p d ++ r) := by
  have hv' : (xor iv d).length = 16 := by rw [length_xor, hv, hd]; rfl
  obtain ⟨r, h1, -, h3⟩ := cbc_dec_cons hk hv hx hr
  obtain ⟨r', h1', -, h3'⟩ := cbc_dec_cons hk hv' hx hr
  rw [h1] at h1'
  cases h1'
  refine ⟨_, r, ?_, h3, by rw [h3', bytes_xor_assoc]⟩
  rw [length_xor, hv, Spec.SM4.decrypt, length_crypt]
  rfl

/-- C159 is violated by a change of one block of a CBC ciphertext: the same bits of the next block of the message change, the block
itself becomes another one, and nothing else changes. No error is reported. -/
theorem C159_block_violated (key iv d a x y b : Bytes) (hk : key.length = 16) (hv : iv.length = 16) (hd : d.length = 16)
    (ha : 16 ∣ a.length) (hx : x.length = 16) (hy : y.length = 16) (hb : 16 ∣ b.length) :
    ∃ ma mx mx' my mb, ma.length = a.length ∧ mx.length = 16 ∧ mx'.length = 16 ∧ my.length = 16 ∧ (mx = mx' ↔ x = xor x d) ∧
      cbcDecrypt key iv (a ++ (x ++ (y ++ b))) = .ok (ma ++ (mx ++ (my ++ mb))) ∧
      cbcDecrypt key iv (a ++ (xor x d ++ (y ++ b))) = .ok (ma ++ (mx' ++ (xor my d ++ mb))) := by
  have hx' : (xor x d).length = 16 := by rw [length_xor, hx, hd]; rfl
  have hyb : 16 ∣ (y ++ b).length := by rw [List.length_append, hy]; omega
  obtain ⟨n, hn⟩ := ha
  have hw := length_chained hv hn
  generalize hwe : chained iv a = w at hw
  obtain ⟨s, s1, -, s3⟩ := cbc_dec_cons hk hx hy hb
  obtain ⟨s', s1', -, s3'⟩ := cbc_dec_cons hk hx' hy hb
  rw [s1] at s1'
  cases s1'
  obtain ⟨t, t1, -, t3⟩ := cbc_dec_cons hk hw hx hyb
  obtain ⟨t', t1', -, t3'⟩ := cbc_dec_cons hk hw hx' hyb
  rw [s3] at t1
  cases t1
  rw [s3'] at t1'
  cases t1'
  obtain ⟨u, v, u1, u2, u3⟩ := C156_cbc_decrypt key iv a (x ++ (y ++ b)) hk hv (by omega) (by rw [List.length_append, hx]; omega)
  obtain ⟨u', v', u1', u2', u3'⟩ := C156_cbc_decrypt key iv a (xor x d ++ (y ++ b)) hk hv (by omega) (by rw [List.length_append, hx']; omega)
  rw [u1] at u1'
  cases u1'
  rw [hwe, t3] at u2
  cases u2
  rw [hwe, t3'] at u2'
  cases u2'
  have hu : u.length = a.length := by
    obtain ⟨o, g1, g2, -⟩ := cbc_dec_ok hk hv hn
    rw [u1] at g1
    cases g1
    omega
  have ld : ∀ z, (Spec.SM4.decrypt key z).length = 16 := fun z => by rw [Spec.SM4.decrypt, length_crypt]
  refine ⟨u, _, _, _, s, hu, ?_, ?_, ?_, ?_, u3, by rw [u3', bytes_xor_assoc]⟩
  · rw [length_xor, ld, hw]; rfl
  · rw [length_xor, ld, hw]; rfl
  · rw [length_xor, ld, hx]; rfl
  · constructor
    · intro h
      have h2 := congrArg (fun z => xor z w) h
      rw [xor_involutive (by rw [ld, hw]), xor_involutive (by rw [ld, hw])] at h2
      have e := congrArg (Spec.SM4.encrypt key) h2
      rwa [enc_dec key hx, enc_dec key hx'] at e
    · intro h
      rw [← h]

/-- C159 is violated in ECB by exchanging parts of a ciphertext: the parts of the message are exchanged. -/
theorem C159_exchange_violated (key a b : Bytes) (hk : key.length = 16) (ha : 16 ∣ a.length) (hb : 16 ∣ b.length) :
    ∃ x y, x.length = a.length ∧ y.length = b.length ∧ ecbDecrypt key (a ++ b) = .ok (x ++ y) ∧ ecbDecrypt key (b ++ a) = .ok (y ++ x) := by
  obtain ⟨-, x, y, h1, h2, h3⟩ := C156_ecb key a b hk ha hb
  obtain ⟨-, y', x', h1', h2', h3'⟩ := C156_ecb key b a hk hb ha
  rw [h2] at h1'
  rw [h1] at h2'
  cases h1'
  cases h2'
  have len : ∀ {c m : Bytes}, 16 ∣ c.length → ecbDecrypt key c = .ok m → m.length = c.length := by
    intro c m hc h
    obtain ⟨-, o, g1, g2⟩ := (C09_ecb_sizes key c).1 ⟨hk, hc⟩
    rw [h] at g1
    cases g1
    exact g2
  exact ⟨x, y, len ha h1, len hb h2, h3, h3'⟩

/-! ## Cases -/

/-- A payment of `1` in the second block becomes one of `9`: the ciphertext is changed in its first block by `'1' ⊕ '9' = 8`. -/
example : (cbcEncrypt (List.replicate 16 7) (List.replicate 16 3) (List.replicate 16 0x41 ++ (List.replicate 15 0x30 ++ [0x31]))).bind (fun c =>
    (cbcDecrypt (List.replicate 16 7) (List.replicate 16 3) (xor (c.take 16) (List.replicate 15 0 ++ [8]) ++ c.drop 16)).bind fun m =>
      .ok (m.drop 16)) = .ok (List.replicate 15 0x30 ++ [0x39]) := by decide +kernel
end Verif.Props
