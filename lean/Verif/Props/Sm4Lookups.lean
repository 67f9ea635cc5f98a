import Verif.Props.Sm4Schedule
import Verif.Sm4.TraceLemmas
/-!
# Property C135: what the table lookups of SM4 tell
-/
namespace Verif.Props
open Verif Verif.Sm4

/-- C135: the functions with the lookups written down compute what the cipher computes. -/
theorem C135_refines (key : Bytes) (forEnc : Bool) (rk : List Word) (inp : Bytes) :
    (expandKeyT key forEnc).1 = expandKey key forEnc ∧ (processBlockT rk inp).1 = processBlock rk inp := by
  rw [expandKeyT_eq, processBlockT_eq rk (fun j => rk.getD j 0) (fun _ _ => rfl)]
  exact ⟨rfl, rfl⟩

/-- C135: there are 128 lookups in every key schedule and in every block, for all keys and data: the number of steps does
not depend on them. Missing: the addresses do depend on them, see the theorems below. -/
theorem C135_count_partial (key : Bytes) (forEnc : Bool) (rk : List Word) (inp : Bytes) :
    (expandKeyT key forEnc).2.length = 128 ∧ (processBlockT rk inp).2.length = 128 := by
  rw [expandKeyT_eq, processBlockT_eq rk (fun j => rk.getD j 0) (fun _ _ => rfl)]
  exact ⟨length_lookups _ 32, length_lookups _ 32⟩

/-- Four sums of three out of four words, each with a known word added, determine the four words. -/
theorem words_of_sums {a b c d a' b' c' d' : Word} (h0 : b ^^^ c ^^^ d = b' ^^^ c' ^^^ d') (h1 : a ^^^ c ^^^ d = a' ^^^ c' ^^^ d')
    (h2 : a ^^^ b ^^^ d = a' ^^^ b' ^^^ d') (h3 : a ^^^ b ^^^ c = a' ^^^ b' ^^^ c') : a = a' ∧ b = b' ∧ c = c' ∧ d = d' := by
  have bits : ∀ a b c d a' b' c' d' : Bool, ((b ^^ c) ^^ d) = ((b' ^^ c') ^^ d') → ((a ^^ c) ^^ d) = ((a' ^^ c') ^^ d') →
      ((a ^^ b) ^^ d) = ((a' ^^ b') ^^ d') → ((a ^^ b) ^^ c) = ((a' ^^ b') ^^ c') → a = a' ∧ b = b' ∧ c = c' ∧ d = d' := by decide
  have key : ∀ i, a.getLsbD i = a'.getLsbD i ∧ b.getLsbD i = b'.getLsbD i ∧ c.getLsbD i = c'.getLsbD i ∧ d.getLsbD i = d'.getLsbD i := by
    intro i
    have e0 := congrArg (fun w => BitVec.getLsbD w i) h0
    have e1 := congrArg (fun w => BitVec.getLsbD w i) h1
    have e2 := congrArg (fun w => BitVec.getLsbD w i) h2
    have e3 := congrArg (fun w => BitVec.getLsbD w i) h3
    simp only [BitVec.getLsbD_xor] at e0 e1 e2 e3
    exact bits _ _ _ _ _ _ _ _ e0 e1 e2 e3
  exact ⟨BitVec.eq_of_getLsbD_eq fun i _ => (key i).1, BitVec.eq_of_getLsbD_eq fun i _ => (key i).2.1,
    BitVec.eq_of_getLsbD_eq fun i _ => (key i).2.2.1, BitVec.eq_of_getLsbD_eq fun i _ => (key i).2.2.2⟩

theorem xor_left_cancel {a b c : Word} (h : c ^^^ a = c ^^^ b) : a = b := by
  rw [BitVec.xor_comm c a, BitVec.xor_comm c b] at h
  exact xor_right_cancel h

/-- In a recurrence `y (i+4) = y i ⊕ F (y (i+1) ⊕ y (i+2) ⊕ y (i+3) ⊕ c i)` the arguments of `F` in four consecutive steps
determine the four words they start from. -/
theorem state_of_arguments (F : Word → Word) (y y' c : Nat → Word) (i : Nat)
    (hy : ∀ n, y (n + 4) = y n ^^^ F (y (n + 1) ^^^ y (n + 2) ^^^ y (n + 3) ^^^ c n))
    (hy' : ∀ n, y' (n + 4) = y' n ^^^ F (y' (n + 1) ^^^ y' (n + 2) ^^^ y' (n + 3) ^^^ c n))
    (h : ∀ j, j < 4 → y (i + j + 1) ^^^ y (i + j + 2) ^^^ y (i + j + 3) ^^^ c (i + j) =
      y' (i + j + 1) ^^^ y' (i + j + 2) ^^^ y' (i + j + 3) ^^^ c (i + j)) :
    ∀ j, j < 4 → y (i + j) = y' (i + j) := by
  have s0 := h 0 (by omega)
  have s1 := h 1 (by omega)
  have s2 := h 2 (by omega)
  have s3 := h 3 (by omega)
  simp only [Nat.add_zero, Nat.add_assoc, Nat.reduceAdd] at s0 s1 s2 s3
  have a0 := hy i
  have a0' := hy' i
  rw [← s0] at a0'
  have a1 := hy (i + 1)
  have a1' := hy' (i + 1)
  simp only [Nat.add_assoc, Nat.reduceAdd] at a1 a1'
  rw [← s1] at a1'
  have a2 := hy (i + 2)
  have a2' := hy' (i + 2)
  simp only [Nat.add_assoc, Nat.reduceAdd] at a2 a2'
  rw [← s2] at a2'
  generalize F (y (i + 1) ^^^ y (i + 2) ^^^ y (i + 3) ^^^ c i) = u0 at a0 a0'
  generalize F (y (i + 2) ^^^ y (i + 3) ^^^ y (i + 4) ^^^ c (i + 1)) = u1 at a1 a1'
  generalize F (y (i + 3) ^^^ y (i + 4) ^^^ y (i + 5) ^^^ c (i + 2)) = u2 at a2 a2'
  have t0 := xor_right_cancel s0
  have t1 := xor_right_cancel s1
  have t2 := xor_right_cancel s2
  have t3 := xor_right_cancel s3
  rw [a0, a0'] at t1
  rw [a0, a0', a1, a1'] at t2
  rw [a0, a0', a1, a1', a2, a2'] at t3
  have p1 : ∀ a c d u : Word, c ^^^ d ^^^ (a ^^^ u) = a ^^^ c ^^^ d ^^^ u := by intro a c d u; ac_rfl
  have p2 : ∀ a b d u v : Word, d ^^^ (a ^^^ u) ^^^ (b ^^^ v) = a ^^^ b ^^^ d ^^^ (u ^^^ v) := by intro a b d u v; ac_rfl
  have p3 : ∀ a b c u v w : Word, a ^^^ u ^^^ (b ^^^ v) ^^^ (c ^^^ w) = a ^^^ b ^^^ c ^^^ (u ^^^ v ^^^ w) := by intro a b c u v w; ac_rfl
  rw [p1, p1] at t1
  rw [p2, p2] at t2
  rw [p3, p3] at t3
  obtain ⟨e0, e1, e2, e3⟩ := words_of_sums t0 (xor_right_cancel t1) (xor_right_cancel t2) (xor_right_cancel t3)
  intro j hj
  match j, hj with
  | 0, _ => exact e0
  | 1, _ => exact e1
  | 2, _ => exact e2
  | 3, _ => exact e3

/-- C135, violated: the lookups of any four consecutive rounds of the key schedule determine the key, whether the schedule is
for encryption or for decryption. -/
theorem C135_schedule_violated (key key' : Bytes) (hk : key.length = 16) (hk' : key'.length = 16) (e e' : Bool) (i : Nat) (hi : i + 4 ≤ 32)
    (h : ((expandKeyT key e).2.drop (4 * i)).take 16 = ((expandKeyT key' e').2.drop (4 * i)).take 16) : key = key' := by
  rw [expandKeyT_eq, expandKeyT_eq] at h
  have h4 := lookups_eq (m := 4) hi h
  refine key_of_words hk hk' (schedule_back key key' i ?_)
  exact state_of_arguments Spec.SM4.T' (Spec.SM4.K key) (Spec.SM4.K key') Spec.SM4.CK i (fun _ => rfl) (fun _ => rfl) fun j hj => by
    have := xor_right_cancel (h4 j hj)
    rw [this]

/-- Rounds with equal states and equal lookups have equal round keys. -/
theorem lookups_keys (ks ks' : List Word) (inp : Bytes)
    (ht : (processBlockT ks inp).2.take 16 = (processBlockT ks' inp).2.take 16) (j : Nat) (hj : j < 4) : ks.getD j 0 = ks'.getD j 0 := by
  rw [processBlockT_eq ks (fun j => ks.getD j 0) (fun _ _ => rfl), processBlockT_eq ks' (fun j => ks'.getD j 0) (fun _ _ => rfl)] at ht
  have h4 := lookups_eq (f := blockLookup (fun j => ks.getD j 0) inp) (g := blockLookup (fun j => ks'.getD j 0) inp)
    (n := 32) (i := 0) (m := 4) (by omega) ht
  have key : ∀ j, j ≤ 4 → (∀ n, n < j + 4 → Spec.SM4.X (fun j => ks.getD j 0) inp n = Spec.SM4.X (fun j => ks'.getD j 0) inp n) ∧
      ∀ n, n < j → ks.getD n 0 = ks'.getD n 0 := by
    intro j
    induction j with
    | zero =>
      intro _
      refine ⟨fun n hn => ?_, fun n hn => by omega⟩
      match n, hn with
      | 0, _ => rfl
      | 1, _ => rfl
      | 2, _ => rfl
      | 3, _ => rfl
    | succ j ih =>
      intro hj
      obtain ⟨hx, hk⟩ := ih (by omega)
      have hl := h4 j (by omega)
      rw [Nat.zero_add] at hl
      have hkj : ks.getD j 0 = ks'.getD j 0 := by
        unfold blockLookup at hl
        rw [hx (j + 1) (by omega), hx (j + 2) (by omega), hx (j + 3) (by omega)] at hl
        exact xor_left_cancel hl
      refine ⟨fun n hn => ?_, fun n hn => ?_⟩
      · rcases Nat.lt_or_ge n (j + 4) with h | h
        · exact hx n h
        · have : n = j + 4 := by omega
          subst this
          rw [Spec.SM4.X, Spec.SM4.X, hx j (by omega), hx (j + 1) (by omega), hx (j + 2) (by omega), hx (j + 3) (by omega)]
          simp only [hkj]
      · rcases Nat.lt_or_ge n j with h | h
        · exact hk n h
        · have : n = j := by omega
          subst this
          exact hkj
  exact (key 4 (by omega)).2 j hj

/-- Four consecutive words of the block's recurrence determine the ones before them. -/
theorem block_back (k : Nat → Word) (inp inp' : Bytes) (i : Nat) (h : ∀ j, j < 4 → Spec.SM4.X k inp (i + j) = Spec.SM4.X k inp' (i + j)) :
    ∀ j, j < 4 → Spec.SM4.X k inp j = Spec.SM4.X k inp' j := by
  induction i with
  | zero => intro j hj; have := h j hj; rwa [Nat.zero_add] at this
  | succ i ih =>
    apply ih
    have e1 := h 0 (by omega)
    have e2 := h 1 (by omega)
    have e3 := h 2 (by omega)
    have e4 := h 3 (by omega)
    rw [show i + 1 + 0 = i + 1 by omega] at e1
    rw [show i + 1 + 1 = i + 2 by omega] at e2
    rw [show i + 1 + 2 = i + 3 by omega] at e3
    rw [show i + 1 + 3 = i + 4 by omega, Spec.SM4.X, Spec.SM4.X, e1, e2, e3] at e4
    have e0 := xor_right_cancel e4
    intro j hj
    match j, hj with
    | 0, _ => exact e0
    | 1, _ => exact e1
    | 2, _ => exact e2
    | 3, _ => exact e3

/-- C135, violated: the lookups of the first four rounds of a block of known plaintext determine the key. -/
theorem C135_encrypt_violated (key key' : Bytes) (c c' : Cipher) (h : newCipher key = .ok c) (h' : newCipher key' = .ok c') (inp : Bytes)
    (ht : (processBlockT c.enc inp).2.take 16 = (processBlockT c'.enc inp).2.take 16) : key = key' := by
  refine C102_injective key key' c c' h h' 0 (by omega) fun j hj => ?_
  rw [Nat.zero_add]
  exact lookups_keys c.enc c'.enc inp ht j hj

/-- C135, violated: so do those of a block of known ciphertext that is decrypted. -/
theorem C135_decrypt_violated (key key' : Bytes) (c c' : Cipher) (h : newCipher key = .ok c) (h' : newCipher key' = .ok c') (inp : Bytes)
    (ht : (processBlockT c.dec inp).2.take 16 = (processBlockT c'.dec inp).2.take 16) : key = key' := by
  refine C102_decryption key key' c c' h h' 0 (by omega) fun j hj => ?_
  rw [Nat.zero_add]
  exact lookups_keys c.dec c'.dec inp ht j hj

/-- C135, violated: to who knows the key, the lookups of any four consecutive rounds tell the block. -/
theorem C135_block_violated (rk : List Word) (inp inp' : Bytes) (hl : inp.length = 16) (hl' : inp'.length = 16) (i : Nat) (hi : i + 4 ≤ 32)
    (h : ((processBlockT rk inp).2.drop (4 * i)).take 16 = ((processBlockT rk inp').2.drop (4 * i)).take 16) : inp = inp' := by
  rw [processBlockT_eq rk (fun j => rk.getD j 0) (fun _ _ => rfl), processBlockT_eq rk (fun j => rk.getD j 0) (fun _ _ => rfl)] at h
  have h4 := lookups_eq (m := 4) hi h
  have hs := state_of_arguments Spec.SM4.T (Spec.SM4.X (fun j => rk.getD j 0) inp) (Spec.SM4.X (fun j => rk.getD j 0) inp')
    (fun j => rk.getD j 0) i (fun _ => rfl) (fun _ => rfl) h4
  have hb := block_back (fun j => rk.getD j 0) inp inp' i hs
  rw [← words_of_block hl, ← words_of_block hl']
  have h0 := hb 0 (by omega)
  have h1 := hb 1 (by omega)
  have h2 := hb 2 (by omega)
  have h3 := hb 3 (by omega)
  simp only [Spec.SM4.X] at h0 h1 h2 h3
  rw [h0, h1, h2, h3]

/-! The example of the standard (appendix A.1): the first lookups of the key schedule and of the block. -/
def exKey135 : Bytes := [0x01, 0x23, 0x45, 0x67, 0x89, 0xab, 0xcd, 0xef, 0xfe, 0xdc, 0xba, 0x98, 0x76, 0x54, 0x32, 0x10]
example : (expandKeyT exKey135 true).2.take 4 = [0x82, 0x83, 0xcb, 0x69] := by decide +kernel
example : (expandKeyT (exKey135.set 15 0x11) true).2.take 4 = [0x82, 0x83, 0xcb, 0x68] := by decide +kernel
example : (processBlockT (expandKey exKey135 true) exKey135).2.take 8 = [0xf0, 0x02, 0xc3, 0x9e, 0xee, 0x14, 0x70, 0xac] := by decide +kernel

end Verif.Props
