import Verif.Props.Sm4
/-!
# C120: what ciphertexts of the two modes show of the messages without the key

Written with the ciphertext blocks alone: whoever sees them can compute every right-hand side.
-/
namespace Verif.Props
open Verif Verif.Sm4 Verif.Spec.SM4

/-- A block of the standard's cipher is encrypted one-to-one. -/
theorem enc_inj (key : Bytes) {a b : Bytes} (ha : a.length = 16) (hb : b.length = 16) :
    Spec.SM4.encrypt key a = Spec.SM4.encrypt key b ↔ a = b :=
  ⟨fun h => by rw [← dec_enc key ha, h, dec_enc key hb], fun h => by rw [h]⟩

theorem xor_length16 {a b : Bytes} (ha : a.length = 16) (hb : b.length = 16) : (Spec.SM4.xor a b).length = 16 := by
  simp [Spec.SM4.xor, ha, hb]

theorem xor_comm' (a b : Bytes) : Spec.SM4.xor a b = Spec.SM4.xor b a := by
  unfold Spec.SM4.xor
  rw [List.zipWith_comm]
  simp only [BitVec.xor_comm]

theorem xor_xor_cancel {a b : Bytes} (h : a.length = b.length) : Spec.SM4.xor (Spec.SM4.xor a b) b = a := by
  unfold Spec.SM4.xor
  apply List.ext_getElem
  · simp [h]
  · intro i h1 h2
    simp [BitVec.xor_assoc]

theorem xor_assoc' (a b c : Bytes) : Spec.SM4.xor (Spec.SM4.xor a b) c = Spec.SM4.xor a (Spec.SM4.xor b c) := by
  unfold Spec.SM4.xor
  apply List.ext_getElem
  · simp [Nat.min_assoc]
  · intro i h1 h2
    simp [BitVec.xor_assoc]

/-- `a ⊕ c = b ⊕ d` says the same as `a ⊕ b = c ⊕ d`. -/
theorem xor_swap {a b c d : Bytes} (ha : a.length = 16) (hb : b.length = 16) (hc : c.length = 16) (hd : d.length = 16) :
    Spec.SM4.xor a c = Spec.SM4.xor b d ↔ Spec.SM4.xor a b = Spec.SM4.xor c d := by
  constructor
  · intro h
    have e : a = Spec.SM4.xor (Spec.SM4.xor b d) c := by rw [← h, xor_xor_cancel (by omega)]
    rw [e, xor_assoc' b d c, xor_comm' b, xor_xor_cancel (by rw [xor_length16 hd hc]; omega), xor_comm']
  · intro h
    have e : a = Spec.SM4.xor (Spec.SM4.xor c d) b := by rw [← h, xor_xor_cancel (by omega)]
    rw [e, xor_assoc' c d b, xor_comm' c, xor_xor_cancel (by rw [xor_length16 hd hb]; omega), xor_comm']

/-- ECB: the ciphertexts of any two messages under one key show which of their blocks are equal (take `p = q` for the blocks of one message). -/
theorem C120_ecb_violated (key p q c e : Bytes) (n m i j : Nat) (hp : p.length = 16 * n) (hq : q.length = 16 * m) (hi : i < n) (hj : j < m)
    (h : ecbEncrypt key p = .ok c) (h' : ecbEncrypt key q = .ok e) : blk p i = blk q j ↔ blk c i = blk e j := by
  have hk : key.length = 16 := by
    refine Decidable.byContradiction fun hk => ?_
    obtain ⟨_, hm⟩ := ((C09_ecb_sizes key p).2 (fun x => hk x.1)).1
    rw [hm] at h; cases h
  obtain ⟨⟨c', hc', _, hb⟩, _⟩ := C10_ecb_blocks key p n hk hp
  obtain ⟨⟨e', he', _, hb'⟩, _⟩ := C10_ecb_blocks key q m hk hq
  rw [h] at hc'; cases hc'
  rw [h'] at he'; cases he'
  rw [hb i hi, hb' j hj, enc_inj key (length_blk hp hi) (length_blk hq hj)]

/-- Block `i` in front of a ciphertext block: the initialisation vector or the block before. -/
def before (iv c : Bytes) (i : Nat) : Bytes := if i = 0 then iv else blk c (i - 1)

/-- CBC: two equal ciphertext blocks, of one message or of two messages under one key, show the difference of the two message blocks, and
different ones show that the difference is not that. -/
theorem C120_cbc_violated (key iv iv' p q c e : Bytes) (n m i j : Nat) (hp : p.length = 16 * n) (hq : q.length = 16 * m) (hi : i < n) (hj : j < m)
    (h : cbcEncrypt key iv p = .ok c) (h' : cbcEncrypt key iv' q = .ok e) :
    blk c i = blk e j ↔ Spec.SM4.xor (blk p i) (blk q j) = Spec.SM4.xor (before iv c i) (before iv' e j) := by
  have sizes : ∀ {iv p c : Bytes} {n : Nat}, p.length = 16 * n → cbcEncrypt key iv p = .ok c → key.length = 16 ∧ iv.length = 16 := by
    intro iv p c n hn h
    by_cases h1 : key.length = 16
    · by_cases h2 : iv.length = 16
      · exact ⟨h1, h2⟩
      · rw [((C09_cbc_sizes key iv p).2.1 ⟨h1, ⟨n, hn⟩, h2⟩).1] at h; cases h
    · obtain ⟨_, hm⟩ := ((C09_cbc_sizes key iv p).2.2 (fun x => h1 x.1)).1
      rw [hm] at h; cases h
  obtain ⟨hk, hv⟩ := sizes hp h
  obtain ⟨_, hv'⟩ := sizes hq h'
  obtain ⟨c', hc', hl, hb⟩ := C11_cbc_encrypt_conforms key iv p n hk hv hp
  obtain ⟨e', he', hl', hb'⟩ := C11_cbc_encrypt_conforms key iv' q m hk hv' hq
  rw [h] at hc'; cases hc'
  rw [h'] at he'; cases he'
  have w : ∀ {iv c : Bytes} {n i : Nat}, iv.length = 16 → c.length = 16 * n → i < n → (before iv c i).length = 16 := by
    intro iv c n i hv hc hi
    unfold before
    split
    · exact hv
    · exact length_blk hc (by omega)
  have w1 := w hv (hl.trans hp) hi
  have w2 := w hv' (hl'.trans hq) hj
  have l1 := length_blk hp hi
  have l2 := length_blk hq hj
  rw [hb i hi, hb' j hj]
  show Spec.SM4.encrypt key (Spec.SM4.xor (blk p i) (before iv c i)) = Spec.SM4.encrypt key (Spec.SM4.xor (blk q j) (before iv' e j)) ↔ _
  rw [enc_inj key (xor_length16 l1 w1) (xor_length16 l2 w2)]
  exact xor_swap l1 l2 w1 w2

/-- CBC with one initialisation vector used twice: the ciphertexts show how many leading blocks two messages have in common. -/
theorem C120_same_iv_violated (key iv p q c e : Bytes) (n m i : Nat) (hp : p.length = 16 * n) (hq : q.length = 16 * m) (hi : i ≤ n) (hj : i ≤ m)
    (h : cbcEncrypt key iv p = .ok c) (h' : cbcEncrypt key iv q = .ok e) :
    (∀ k, k < i → blk p k = blk q k) ↔ ∀ k, k < i → blk c k = blk e k := by
  have zero : ∀ {a b : Bytes} {x : Bytes}, a.length = 16 → b.length = 16 → x.length = 16 → (Spec.SM4.xor a b = Spec.SM4.xor x x ↔ a = b) := by
    intro a b x ha hb hx
    rw [← xor_swap ha hb hx hx]
    exact ⟨fun h => by rw [← xor_xor_cancel (ha.trans hx.symm), h, xor_xor_cancel (hb.trans hx.symm)], fun h => by rw [h]⟩
  induction i with
  | zero => simp
  | succ i ih =>
    have ih := ih (by omega) (by omega)
    have key' := C120_cbc_violated key iv iv p q c e n m i i hp hq (by omega) (by omega) h h'
    have hl : c.length = 16 * n := by
      by_cases hs : key.length = 16 ∧ 16 ∣ p.length ∧ iv.length = 16
      · obtain ⟨o, ho, hl⟩ := ((C09_cbc_sizes key iv p).1 hs).1
        rw [h] at ho; cases ho; omega
      · by_cases h2 : iv.length = 16
        · obtain ⟨_, hm⟩ := ((C09_cbc_sizes key iv p).2.2 (fun x => hs ⟨x.1, x.2, h2⟩)).1
          rw [hm] at h; cases h
        · by_cases h1 : key.length = 16
          · rw [((C09_cbc_sizes key iv p).2.1 ⟨h1, ⟨n, hp⟩, h2⟩).1] at h; cases h
          · obtain ⟨_, hm⟩ := ((C09_cbc_sizes key iv p).2.2 (fun x => h1 x.1)).1
            rw [hm] at h; cases h
    have hv : iv.length = 16 := by
      refine Decidable.byContradiction fun h2 => ?_
      by_cases h1 : key.length = 16
      · rw [((C09_cbc_sizes key iv p).2.1 ⟨h1, ⟨n, hp⟩, h2⟩).1] at h; cases h
      · obtain ⟨_, hm⟩ := ((C09_cbc_sizes key iv p).2.2 (fun x => h1 x.1)).1
        rw [hm] at h; cases h
    have same : (∀ k, k < i → blk c k = blk e k) → before iv c i = before iv e i := by
      intro hh
      unfold before
      split
      · rfl
      · exact hh _ (by omega)
    have hw : (before iv e i).length = 16 ∨ ¬ (∀ k, k < i → blk c k = blk e k) := by
      by_cases hh : ∀ k, k < i → blk c k = blk e k
      · left
        rw [← same hh]
        unfold before
        split
        · exact hv
        · exact length_blk hl (by omega)
      · exact .inr hh
    constructor
    · intro hall k hk
      have hbef := ih.1 (fun k hk => hall k (by omega))
      rcases Nat.lt_succ_iff_lt_or_eq.1 hk with hk | rfl
      · exact hbef k hk
      · rw [key', same hbef]
        exact (zero (length_blk hp (by omega)) (length_blk hq (by omega)) (hw.resolve_right (not_not_intro hbef))).2 (hall k (by omega))
    · intro hall k hk
      have hbef : ∀ k, k < i → blk c k = blk e k := fun k hk => hall k (by omega)
      rcases Nat.lt_succ_iff_lt_or_eq.1 hk with hk | rfl
      · exact ih.2 hbef k hk
      · have := key'.1 (hall k (by omega))
        rw [same hbef] at this
        exact (zero (length_blk hp (by omega)) (length_blk hq (by omega)) (hw.resolve_right (not_not_intro hbef))).1 this

/-- A message whose first and third block are equal, under ECB: so are those of the ciphertext, and the second differs. -/
example : (do
    let c ← ecbEncrypt (List.replicate 16 7) (List.replicate 16 1 ++ List.replicate 16 2 ++ List.replicate 16 1)
    .ok (decide (blk c 0 = blk c 2), decide (blk c 0 = blk c 1))) = .ok (true, false) := by decide +kernel

/-- Two messages under one key and initialisation vector that have one block in common. -/
example : (do
    let c ← cbcEncrypt (List.replicate 16 7) (List.replicate 16 9) (List.replicate 16 1 ++ List.replicate 16 2)
    let e ← cbcEncrypt (List.replicate 16 7) (List.replicate 16 9) (List.replicate 16 1 ++ List.replicate 16 3)
    .ok (decide (blk c 0 = blk e 0), decide (blk c 1 = blk e 1))) = .ok (true, false) := by decide +kernel

end Verif.Props
