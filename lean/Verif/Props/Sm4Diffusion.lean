import Verif.Sm4.Diffusion
import Verif.Sm4.SboxDiff
import Verif.Props.Sm4Related
import Verif.Props.Sm4Lookups
/-!
# Property C145: differences spread in SM4
-/
namespace Verif.Props
open Verif Verif.Sm4

/-- The number of places in which two byte strings of the same length differ. -/
def differing (a b : Bytes) : Nat := ((a.zip b).filter fun p => p.1 ≠ p.2).length

theorem differing_append {a b a' b' : Bytes} (h : a.length = b.length) : differing (a ++ a') (b ++ b') = differing a b + differing a' b' := by
  unfold differing
  rw [List.zip_append h, List.filter_append, List.length_append]

theorem differing_byte (a b : Byte) : differing [a] [b] = nzb (a ^^^ b) := by
  unfold differing nzb
  by_cases h : a = b
  · subst h; simp
  · have : a ^^^ b ≠ 0 := fun e => h (by
      have := congrArg (· ^^^ b) e
      simpa [BitVec.xor_assoc] using this)
    rw [if_neg this]; simp [h]

theorem differing_cons (a b : Byte) (as bs : Bytes) : differing (a :: as) (b :: bs) = nzb (a ^^^ b) + differing as bs := by
  rw [← differing_byte]
  exact differing_append (a := [a]) (b := [b]) rfl

theorem differing_put32 (x y : Word) : differing (put32 x) (put32 y) = nz (x ^^^ y) := by
  rw [put32_byt, put32_byt]
  simp only [differing_cons, ← byt_xor]
  rw [show differing [] [] = 0 from rfl]
  unfold nz
  omega

/-- The bytes of the words `f i`, …, `f (i + m - 1)`. -/
def span (f : Nat → Word) (i m : Nat) : Bytes := (List.range m).flatMap fun j => put32 (f (i + j))

theorem span_succ (f : Nat → Word) (i m : Nat) : span f i (m + 1) = span f i m ++ put32 (f (i + m)) := by
  unfold span
  rw [List.range_succ, List.flatMap_append]
  simp

theorem length_span (f : Nat → Word) (i m : Nat) : (span f i m).length = 4 * m := length_lookups _ m

theorem span_window (f : Nat → Word) (n i m : Nat) (h : i + m ≤ n) :
    (((List.range n).flatMap fun i => put32 (f i)).drop (4 * i)).take (4 * m) = span f i m := by
  induction m with
  | zero => rfl
  | succ m ih =>
    rw [span_succ, ← ih (by omega), show 4 * (m + 1) = 4 * m + 4 by omega, List.take_add, List.drop_drop,
      show 4 * i + 4 * m = 4 * (i + m) by omega, lookup_window f n (i + m) (by omega)]

theorem differing_succ (f g : Nat → Word) (i m : Nat) :
    differing (span f i (m + 1)) (span g i (m + 1)) = differing (span f i m) (span g i m) + nz (f (i + m) ^^^ g (i + m)) := by
  rw [span_succ, span_succ, differing_append (by rw [length_span, length_span]), differing_put32]

theorem differing_zero (f g : Nat → Word) (i : Nat) : differing (span f i 0) (span g i 0) = 0 := rfl

/-- Differences of the inputs and of the outputs of the S-boxes of a word are in the same bytes. -/
theorem nz_tau (x y : Word) : nz (tau x ^^^ tau y) = nz (x ^^^ y) := by
  have hb : ∀ a b : Byte, nzb (sBox a ^^^ sBox b) = nzb (a ^^^ b) := fun a b => by
    by_cases h : a = b
    · subst h; simp
    · have h2 : sBox a ≠ sBox b := fun e => h <| BitVec.eq_of_toNat_eq <| S_inj a.isLt b.isLt <| by
        rw [← sBox_spec, ← sBox_spec, e]
      rw [← differing_byte, ← differing_byte]
      simp [differing, h, h2]
  rw [← differing_put32, ← differing_put32]
  unfold tau
  rw [put32_be32 (by simp), put32_be32 (by simp), put32_byt, put32_byt]
  simp only [List.map_cons, List.map_nil, differing_cons, hb]

theorem xor_ne {x y : Word} (h : x ≠ y) : x ^^^ y ≠ 0 := fun e => h (by
  have := congrArg (· ^^^ y) e
  simpa [BitVec.xor_assoc] using this)

/-- C145: words that differ in `n` of their four bytes are taken by the round transform `t` to words that differ in at least
`5 - n` bytes, for all words. -/
theorem C145_transform (x y : Word) (h : x ≠ y) : 5 ≤ differing (put32 x) (put32 y) + differing (put32 (t x)) (put32 (t y)) := by
  rw [differing_put32, differing_put32, ← nz_tau]
  unfold t
  rw [← l_xor]
  exact branch _ (xor_ne fun e => h (tau_inj (by rw [← tau_spec, ← tau_spec, e])))

theorem relation3 {a b c x y : Word} (h : y = x ^^^ l a ^^^ l b ^^^ l c) :
    (nz x = nz y ∧ nz a ≤ nz b + nz c ∧ nz b ≤ nz a + nz c ∧ nz c ≤ nz a + nz b) ∨ 5 ≤ nz a + nz b + nz c + nz x + nz y := by
  have hl : l (a ^^^ b ^^^ c) = x ^^^ y := by
    rw [h, l_xor, l_xor]
    have : x ^^^ (x ^^^ l a ^^^ l b ^^^ l c) = (x ^^^ x) ^^^ (l a ^^^ l b ^^^ l c) := by ac_rfl
    rw [this, BitVec.xor_self]
    exact (z_xor _).symm
  have t1 := nz_xor (a ^^^ b) c
  have t2 := nz_xor a b
  have t3 := nz_xor x y
  by_cases hz : a ^^^ b ^^^ c = 0
  · left
    rw [hz, l_zero] at hl
    have ec : c = a ^^^ b := by
      have := congrArg (· ^^^ c) hz
      simp only [BitVec.xor_assoc, BitVec.xor_self] at this
      rw [BitVec.xor_zero, z_xor] at this
      exact this.symm
    have exy : x = y := Classical.byContradiction fun hn => xor_ne hn hl.symm
    subst exy ec
    have u1 := nz_xor (a ^^^ b) b
    have u2 := nz_xor (a ^^^ b) a
    rw [BitVec.xor_assoc, BitVec.xor_self] at u1
    rw [BitVec.xor_comm a b, BitVec.xor_assoc, BitVec.xor_self] at u2
    rw [BitVec.xor_comm b a] at u2
    rw [BitVec.xor_zero] at u1 u2
    omega
  · right
    have := branch _ hz
    rw [hl] at this
    omega

theorem nz_sum3 {x y z w : Word} (h : x ^^^ y ^^^ z ^^^ w = 0) : nz x ≤ nz y + nz z + nz w := by
  have e : x = y ^^^ z ^^^ w := Classical.byContradiction fun hn => xor_ne hn (by rw [← h]; ac_rfl)
  have := nz_xor (y ^^^ z) w
  have := nz_xor y z
  rw [e]
  omega

theorem relation2 {a b x y z w : Word} (h : l (a ^^^ b) = x ^^^ y ^^^ z ^^^ w) :
    (nz a = nz b ∧ nz x ≤ nz y + nz z + nz w ∧ nz y ≤ nz x + nz z + nz w ∧ nz z ≤ nz x + nz y + nz w ∧ nz w ≤ nz x + nz y + nz z) ∨
      5 ≤ nz a + nz b + nz x + nz y + nz z + nz w := by
  have t1 := nz_xor a b
  have t2 := nz_xor (x ^^^ y ^^^ z) w
  have t3 := nz_xor (x ^^^ y) z
  have t4 := nz_xor x y
  by_cases hz : a ^^^ b = 0
  · left
    have e : a = b := Classical.byContradiction fun hn => xor_ne hn hz
    rw [hz, l_zero] at h
    exact ⟨by rw [e], nz_sum3 h.symm, nz_sum3 (by rw [h]; ac_rfl), nz_sum3 (by rw [h]; ac_rfl), nz_sum3 (by rw [h]; ac_rfl)⟩
  · right
    have := branch _ hz
    rw [h] at this
    omega

/-- The rounds as a sequence: `d j` is the difference of the words looked up in round `j`, `s j` that of what the table gave. -/
structure Chain (d s : Nat → Word) : Prop where
  same : ∀ j, nz (s j) = nz (d j)
  step : ∀ j, d (j + 4) = d j ^^^ l (s (j + 1)) ^^^ l (s (j + 2)) ^^^ l (s (j + 3))

theorem chain_seven {d s : Nat → Word} (h : Chain d s) (i : Nat) (h0 : ¬ (nz (d i) = 0 ∧ nz (d (i + 1)) = 0 ∧ nz (d (i + 2)) = 0 ∧ nz (d (i + 3)) = 0)) :
    5 ≤ nz (d i) + nz (d (i + 1)) + nz (d (i + 2)) + nz (d (i + 3)) + nz (d (i + 4)) + nz (d (i + 5)) + nz (d (i + 6)) := by
  have r0 := relation3 (h.step i)
  have r1 := relation3 (h.step (i + 1))
  have r2 := relation3 (h.step (i + 2))
  simp only [h.same, Nat.add_assoc, Nat.reduceAdd] at r0 r1 r2
  have split : ∀ n : Nat, n = 0 ∨ n = 1 ∨ n = 2 ∨ n = 3 ∨ n = 4 ∨ 5 ≤ n := fun n => by omega
  rcases split (nz (d (i + 3))) with c | c | c | c | c | c <;> rcases split (nz (d (i + 4))) with e | e | e | e | e | e <;> omega

theorem chain_eight {d s : Nat → Word} (h : Chain d s) (i : Nat) (h0 : ¬ (nz (d i) = 0 ∧ nz (d (i + 1)) = 0 ∧ nz (d (i + 2)) = 0 ∧ nz (d (i + 3)) = 0)) :
    6 ≤ nz (d i) + nz (d (i + 1)) + nz (d (i + 2)) + nz (d (i + 3)) + nz (d (i + 4)) + nz (d (i + 5)) + nz (d (i + 6)) + nz (d (i + 7)) := by
  have r0 := relation3 (h.step i)
  have r1 := relation3 (h.step (i + 1))
  have r2 := relation3 (h.step (i + 2))
  have r3 := relation3 (h.step (i + 3))
  have two : ∀ j, l (s (j + 1) ^^^ s (j + 4)) = d j ^^^ d (j + 1) ^^^ d (j + 4) ^^^ d (j + 5) := fun j => by
    have e1 := h.step j
    have e2 := h.step (j + 1)
    simp only [Nat.add_assoc, Nat.reduceAdd] at e2
    rw [e1, e2, l_xor]
    have : d j ^^^ d (j + 1) ^^^ (d j ^^^ l (s (j + 1)) ^^^ l (s (j + 2)) ^^^ l (s (j + 3))) ^^^
        (d (j + 1) ^^^ l (s (j + 2)) ^^^ l (s (j + 3)) ^^^ l (s (j + 4))) =
      (d j ^^^ d j) ^^^ (d (j + 1) ^^^ d (j + 1)) ^^^ (l (s (j + 2)) ^^^ l (s (j + 2))) ^^^ (l (s (j + 3)) ^^^ l (s (j + 3))) ^^^
        (l (s (j + 1)) ^^^ l (s (j + 4))) := by ac_rfl
    rw [this]
    simp only [BitVec.xor_self, BitVec.zero_xor]
  have q0 := relation2 (two i)
  have q1 := relation2 (two (i + 2))
  simp only [h.same, Nat.add_assoc, Nat.reduceAdd] at r0 r1 r2 r3 q0 q1
  have split : ∀ x : Word, nz x = 0 ∨ nz x = 1 ∨ nz x = 2 ∨ nz x = 3 ∨ nz x = 4 := fun x => by
    unfold nz
    have := nzb_le (byt x 3)
    have := nzb_le (byt x 2)
    have := nzb_le (byt x 1)
    have := nzb_le (byt x 0)
    omega
  have m1 : nz (d (i + 1)) ≤ 4 := by have := split (d (i + 1)); omega
  have m2 : nz (d (i + 2)) ≤ 4 := by have := split (d (i + 2)); omega
  have m3 : nz (d (i + 3)) ≤ 4 := by have := split (d (i + 3)); omega
  have m4 : nz (d (i + 4)) ≤ 4 := by have := split (d (i + 4)); omega
  have m6 : nz (d (i + 6)) ≤ 4 := by have := split (d (i + 6)); omega
  rcases split (d i) with c | c | c | c | c <;> rcases split (d (i + 5)) with e | e | e | e | e <;>
    rcases split (d (i + 7)) with f | f | f | f | f <;> omega

theorem chain_of_blocks (k : Nat → Word) (p q : Bytes) :
    Chain (fun j => blockLookup k p j ^^^ blockLookup k q j) fun j => tau (blockLookup k p j) ^^^ tau (blockLookup k q j) := by
  refine ⟨fun j => nz_tau _ _, fun j => ?_⟩
  have hx : ∀ (v : Bytes) n, Spec.SM4.X k v (n + 4) = Spec.SM4.X k v n ^^^ l (tau (blockLookup k v n)) := fun v n => by
    rw [show l (tau (blockLookup k v n)) = t (blockLookup k v n) from rfl, t_spec]; rfl
  have hb : ∀ (v : Bytes), blockLookup k v (j + 4) = Spec.SM4.X k v (j + 1) ^^^ l (tau (blockLookup k v (j + 1))) ^^^
      (Spec.SM4.X k v (j + 2) ^^^ l (tau (blockLookup k v (j + 2)))) ^^^ (Spec.SM4.X k v (j + 3) ^^^ l (tau (blockLookup k v (j + 3)))) ^^^
      k (j + 4) := fun v => by
    rw [← hx, ← hx, ← hx]
    rfl
  simp only [l_xor]
  rw [hb, hb]
  generalize l (tau (blockLookup k p (j + 1))) = a1
  generalize l (tau (blockLookup k p (j + 2))) = a2
  generalize l (tau (blockLookup k p (j + 3))) = a3
  generalize l (tau (blockLookup k q (j + 1))) = b1
  generalize l (tau (blockLookup k q (j + 2))) = b2
  generalize l (tau (blockLookup k q (j + 3))) = b3
  unfold blockLookup
  generalize Spec.SM4.X k p (j + 1) = x1
  generalize Spec.SM4.X k p (j + 2) = x2
  generalize Spec.SM4.X k p (j + 3) = x3
  generalize Spec.SM4.X k q (j + 1) = y1
  generalize Spec.SM4.X k q (j + 2) = y2
  generalize Spec.SM4.X k q (j + 3) = y3
  have e1 : ∀ c : Word, x1 ^^^ a1 ^^^ (x2 ^^^ a2) ^^^ (x3 ^^^ a3) ^^^ c ^^^ (y1 ^^^ b1 ^^^ (y2 ^^^ b2) ^^^ (y3 ^^^ b3) ^^^ c) =
    (c ^^^ c) ^^^ (x1 ^^^ x2 ^^^ x3 ^^^ y1 ^^^ y2 ^^^ y3 ^^^ (a1 ^^^ b1) ^^^ (a2 ^^^ b2) ^^^ (a3 ^^^ b3)) := fun c => by ac_rfl
  have e2 : ∀ c : Word, x1 ^^^ x2 ^^^ x3 ^^^ c ^^^ (y1 ^^^ y2 ^^^ y3 ^^^ c) ^^^ (a1 ^^^ b1) ^^^ (a2 ^^^ b2) ^^^ (a3 ^^^ b3) =
    (c ^^^ c) ^^^ (x1 ^^^ x2 ^^^ x3 ^^^ y1 ^^^ y2 ^^^ y3 ^^^ (a1 ^^^ b1) ^^^ (a2 ^^^ b2) ^^^ (a3 ^^^ b3)) := fun c => by ac_rfl
  rw [e1, e2, BitVec.xor_self, BitVec.xor_self]

/-- Different blocks are looked up differently in four consecutive rounds. -/
theorem four_active (k : Nat → Word) (p q : Bytes) (hp : p.length = 16) (hq : q.length = 16) (hne : p ≠ q) (i : Nat) :
    ¬ (nz (blockLookup k p i ^^^ blockLookup k q i) = 0 ∧ nz (blockLookup k p (i + 1) ^^^ blockLookup k q (i + 1)) = 0 ∧
      nz (blockLookup k p (i + 2) ^^^ blockLookup k q (i + 2)) = 0 ∧ nz (blockLookup k p (i + 3) ^^^ blockLookup k q (i + 3)) = 0) := by
  intro ⟨h0, h1, h2, h3⟩
  have eq : ∀ {x y : Word}, nz (x ^^^ y) = 0 → x = y := fun h => Classical.byContradiction fun hn => xor_ne hn (nz_eq_zero h)
  have hs := state_of_arguments Spec.SM4.T (Spec.SM4.X k p) (Spec.SM4.X k q) k i (fun _ => rfl) (fun _ => rfl) fun j hj => by
    match j, hj with
    | 0, _ => exact eq h0
    | 1, _ => exact eq h1
    | 2, _ => exact eq h2
    | 3, _ => exact eq h3
  have hb := block_back k p q i hs
  refine hne ?_
  rw [← words_of_block hp, ← words_of_block hq]
  have g0 := hb 0 (by omega)
  have g1 := hb 1 (by omega)
  have g2 := hb 2 (by omega)
  have g3 := hb 3 (by omega)
  simp only [Spec.SM4.X] at g0 g1 g2 g3
  rw [g0, g1, g2, g3]

/-- C145: for every key (indeed for all round keys, and so for encryption and decryption) and any two different blocks, in any seven consecutive rounds at
least five of the 28 indices into the S-box table are different. -/
theorem C145_seven (rk : List Word) (p q : Bytes) (hp : p.length = 16) (hq : q.length = 16) (hne : p ≠ q) (i : Nat) (hi : i + 7 ≤ 32) :
    5 ≤ differing (((processBlockT rk p).2.drop (4 * i)).take 28) (((processBlockT rk q).2.drop (4 * i)).take 28) := by
  rw [processBlockT_eq rk (fun j => rk.getD j 0) (fun _ _ => rfl), processBlockT_eq rk (fun j => rk.getD j 0) (fun _ _ => rfl)]
  generalize (fun j => rk.getD j 0) = k
  have hw := fun v => span_window (blockLookup k v) 32 i 7 hi
  rw [hw, hw]
  have := chain_seven (chain_of_blocks k p q) i (four_active k p q hp hq hne i)
  simp only [differing_succ, differing_zero]
  simp only [Nat.add_zero, Nat.zero_add]
  exact this

/-- C145: in any eight consecutive rounds at least six are different. -/
theorem C145_eight (rk : List Word) (p q : Bytes) (hp : p.length = 16) (hq : q.length = 16) (hne : p ≠ q) (i : Nat) (hi : i + 8 ≤ 32) :
    6 ≤ differing (((processBlockT rk p).2.drop (4 * i)).take 32) (((processBlockT rk q).2.drop (4 * i)).take 32) := by
  rw [processBlockT_eq rk (fun j => rk.getD j 0) (fun _ _ => rfl), processBlockT_eq rk (fun j => rk.getD j 0) (fun _ _ => rfl)]
  generalize (fun j => rk.getD j 0) = k
  have hw := fun v => span_window (blockLookup k v) 32 i 8 hi
  rw [hw, hw]
  have := chain_eight (chain_of_blocks k p q) i (four_active k p q hp hq hne i)
  simp only [differing_succ, differing_zero]
  simp only [Nat.add_zero, Nat.zero_add]
  exact this

theorem differing_windows (a b : Bytes) (n : Nat) (ha : a.length = b.length) :
    differing a b = differing (a.take n) (b.take n) + differing (a.drop n) (b.drop n) := by
  rw [← differing_append (by rw [List.length_take, List.length_take, ha]), List.take_append_drop, List.take_append_drop]

/-- C145: of the 128 indices of a block at least 24 are different from those of any other block under the same key. -/
theorem C145_block (rk : List Word) (p q : Bytes) (hp : p.length = 16) (hq : q.length = 16) (hne : p ≠ q) :
    24 ≤ differing (processBlockT rk p).2 (processBlockT rk q).2 := by
  have h0 := C145_eight rk p q hp hq hne 0 (by omega)
  have h1 := C145_eight rk p q hp hq hne 8 (by omega)
  have h2 := C145_eight rk p q hp hq hne 16 (by omega)
  have h3 := C145_eight rk p q hp hq hne 24 (by omega)
  have l1 := (C135_count_partial [] true rk p).2
  have l2 := (C135_count_partial [] true rk q).2
  generalize (processBlockT rk p).2 = a at *
  generalize (processBlockT rk q).2 = b at *
  rw [differing_windows a b 32 (by rw [l1, l2]), differing_windows (a.drop 32) (b.drop 32) 32 (by simp [l1, l2]),
    differing_windows ((a.drop 32).drop 32) ((b.drop 32).drop 32) 32 (by simp [l1, l2]),
    List.drop_drop, List.drop_drop, List.drop_drop, List.drop_drop]
  rw [List.take_of_length_le (l := a.drop (4 * 24)) (by rw [List.length_drop, l1]; omega), List.take_of_length_le (l := b.drop (4 * 24)) (by rw [List.length_drop, l2]; omega)] at h3
  simp only [Nat.reduceMul, Nat.reduceAdd, List.drop_zero] at h0 h1 h2 h3 ⊢
  omega

/-- C145: of the 256 pairs of bytes with a given difference at most four have images with a given difference, for all differences
but 0: in one S-box no difference goes to another with a probability of more than 4/256. -/
theorem C145_sbox (a b : Byte) (ha : a ≠ 0) :
    ((List.range 256).filter fun x => sBox (BitVec.ofNat 8 x) ^^^ sBox (BitVec.ofNat 8 x ^^^ a) = b).length ≤ 4 := sBox_diff a b ha

/-! The key of the standard's example and two blocks that differ in their last bit: the difference of one byte is in the first
round already (word 3 is looked up), then in four bytes; the bounds are met with room. The last line: four is taken. -/
def exBlock145 : Bytes := exKey135.set 15 0x11
example : (List.range 8).map (fun j => differing (((processBlockT (expandKey exKey135 true) exKey135).2.drop (4 * j)).take 4)
    (((processBlockT (expandKey exKey135 true) exBlock145).2.drop (4 * j)).take 4)) = [1, 4, 4, 4, 4, 4, 4, 4] := by decide +kernel
example : exKey135 ≠ exBlock145 ∧ differing (put32 0x00000001) (put32 0) + differing (put32 (t 0x00000001)) (put32 (t 0)) = 5 := by decide +kernel
example : ((List.range 256).filter fun x => sBox (BitVec.ofNat 8 x) ^^^ sBox (BitVec.ofNat 8 x ^^^ 1) = 0x4c).length = 4 := by decide +kernel

end Verif.Props
