import Verif.Sm4.KeyDiffusion
import Verif.Props.Sm4Diffusion
/-!
# Property C145, key schedule: differences of keys spread in the key schedule
-/
namespace Verif.Props
open Verif Verif.Sm4

/-- C145: words that differ in `n` of their four bytes are taken by the transform `tAp` of the key schedule to words that differ in at
least `4 - n` bytes, for all words; one less than by `t` (the example below: four is taken). -/
theorem C145_key_transform (x y : Word) (h : x ≠ y) : 4 ≤ differing (put32 x) (put32 y) + differing (put32 (tAp x)) (put32 (tAp y)) := by
  rw [differing_put32, differing_put32, ← nz_tau]
  unfold tAp
  rw [← lAp_xor]
  exact branchAp _ (xor_ne fun e => h (tau_inj (by rw [← tau_spec, ← tau_spec, e])))

theorem relationAp3 {a b c x y : Word} (h : y = x ^^^ lAp a ^^^ lAp b ^^^ lAp c) :
    (nz x = nz y ∧ nz a ≤ nz b + nz c ∧ nz b ≤ nz a + nz c ∧ nz c ≤ nz a + nz b) ∨ 4 ≤ nz a + nz b + nz c + nz x + nz y := by
  have hl : lAp (a ^^^ b ^^^ c) = x ^^^ y := by
    rw [h, lAp_xor, lAp_xor]
    have : x ^^^ (x ^^^ lAp a ^^^ lAp b ^^^ lAp c) = (x ^^^ x) ^^^ (lAp a ^^^ lAp b ^^^ lAp c) := by ac_rfl
    rw [this, BitVec.xor_self]
    exact (z_xor _).symm
  have t1 := nz_xor (a ^^^ b) c
  have t2 := nz_xor a b
  have t3 := nz_xor x y
  by_cases hz : a ^^^ b ^^^ c = 0
  · left
    rw [hz, lAp_zero] at hl
    have ec : c = a ^^^ b := by
      have := congrArg (· ^^^ c) hz
      simp only [BitVec.xor_assoc, BitVec.xor_self] at this
      rw [BitVec.xor_zero, z_xor] at this
      exact this.symm
    have exy : x = y := Classical.byContradiction fun hn => xor_ne hn hl.symm
    subst exy ec
    have u1 := nz_xor (a ^^^ b) b
    have u2 := nz_xor (a ^^^ b) a
    rw [BitVec.xor_assoc, BitVec.xor_self] at u1
    rw [BitVec.xor_comm a b, BitVec.xor_assoc, BitVec.xor_self] at u2
    rw [BitVec.xor_comm b a] at u2
    rw [BitVec.xor_zero] at u1 u2
    omega
  · right
    have := branchAp _ hz
    rw [hl] at this
    omega

/-- The rounds of the key schedule as a sequence, as `Chain` for the rounds of a block. -/
structure KeyChain (d s : Nat → Word) : Prop where
  same : ∀ j, nz (s j) = nz (d j)
  step : ∀ j, d (j + 4) = d j ^^^ lAp (s (j + 1)) ^^^ lAp (s (j + 2)) ^^^ lAp (s (j + 3))

theorem keyChain_seven {d s : Nat → Word} (h : KeyChain d s) (i : Nat) (h0 : ¬ (nz (d i) = 0 ∧ nz (d (i + 1)) = 0 ∧ nz (d (i + 2)) = 0 ∧ nz (d (i + 3)) = 0)) :
    4 ≤ nz (d i) + nz (d (i + 1)) + nz (d (i + 2)) + nz (d (i + 3)) + nz (d (i + 4)) + nz (d (i + 5)) + nz (d (i + 6)) := by
  have r0 := relationAp3 (h.step i)
  have r1 := relationAp3 (h.step (i + 1))
  have r2 := relationAp3 (h.step (i + 2))
  simp only [h.same, Nat.add_assoc, Nat.reduceAdd] at r0 r1 r2
  have split : ∀ n : Nat, n = 0 ∨ n = 1 ∨ n = 2 ∨ n = 3 ∨ 4 ≤ n := fun n => by omega
  rcases split (nz (d (i + 3))) with c | c | c | c | c <;> rcases split (nz (d (i + 4))) with e | e | e | e | e <;> omega

theorem nz_le (x : Word) : nz x ≤ 4 := by
  unfold nz
  have := nzb_le (byt x 3)
  have := nzb_le (byt x 2)
  have := nzb_le (byt x 1)
  have := nzb_le (byt x 0)
  omega

set_option maxHeartbeats 1000000 in
theorem keyChain_ten {d s : Nat → Word} (h : KeyChain d s) (i : Nat)
    (h0 : ∀ i, ¬ (nz (d i) = 0 ∧ nz (d (i + 1)) = 0 ∧ nz (d (i + 2)) = 0 ∧ nz (d (i + 3)) = 0)) :
    6 ≤ nz (d i) + nz (d (i + 1)) + nz (d (i + 2)) + nz (d (i + 3)) + nz (d (i + 4)) + nz (d (i + 5)) + nz (d (i + 6)) + nz (d (i + 7)) +
      nz (d (i + 8)) + nz (d (i + 9)) := by
  have r0 := relationAp3 (h.step i)
  have r1 := relationAp3 (h.step (i + 1))
  have r2 := relationAp3 (h.step (i + 2))
  have r3 := relationAp3 (h.step (i + 3))
  have r4 := relationAp3 (h.step (i + 4))
  have r5 := relationAp3 (h.step (i + 5))
  simp only [h.same, Nat.add_assoc, Nat.reduceAdd] at r0 r1 r2 r3 r4 r5
  have m0 : nz (d i) ≤ 4 := nz_le _
  have n0 := h0 i
  have n6 := h0 (i + 6)
  have n5 := h0 (i + 5)
  simp only [Nat.add_assoc, Nat.reduceAdd] at n5 n6
  refine Classical.byContradiction fun hn => ?_
  generalize nz (d i) = a0 at *
  generalize nz (d (i + 1)) = a1 at *
  generalize nz (d (i + 2)) = a2 at *
  generalize nz (d (i + 3)) = a3 at *
  generalize nz (d (i + 4)) = a4 at *
  generalize nz (d (i + 5)) = a5 at *
  generalize nz (d (i + 6)) = a6 at *
  generalize nz (d (i + 7)) = a7 at *
  generalize nz (d (i + 8)) = a8 at *
  generalize nz (d (i + 9)) = a9 at *
  clear h h0
  have split : ∀ n : Nat, n ≤ 5 → n = 0 ∨ n = 1 ∨ n = 2 ∨ n = 3 ∨ n = 4 ∨ n = 5 := fun n _ => by omega
  rcases split a4 (by omega) with c | c | c | c | c | c <;> rcases split a5 (by omega) with e | e | e | e | e | e <;>
    rcases split a6 (by omega) with f | f | f | f | f | f <;> omega

/-- The word looked up in a round of the key schedule. -/
def scheduleLookup (key : Bytes) (i : Nat) : Word :=
  Spec.SM4.K key (i + 1) ^^^ Spec.SM4.K key (i + 2) ^^^ Spec.SM4.K key (i + 3) ^^^ Spec.SM4.CK i

theorem chain_of_keys (p q : Bytes) : KeyChain (fun j => scheduleLookup p j ^^^ scheduleLookup q j)
    fun j => tau (scheduleLookup p j) ^^^ tau (scheduleLookup q j) := by
  refine ⟨fun j => nz_tau _ _, fun j => ?_⟩
  have hx : ∀ (v : Bytes) n, Spec.SM4.K v (n + 4) = Spec.SM4.K v n ^^^ lAp (tau (scheduleLookup v n)) := fun v n => by
    rw [show lAp (tau (scheduleLookup v n)) = tAp (scheduleLookup v n) from rfl, tAp_spec]; rfl
  have hb : ∀ (v : Bytes), scheduleLookup v (j + 4) = Spec.SM4.K v (j + 1) ^^^ lAp (tau (scheduleLookup v (j + 1))) ^^^
      (Spec.SM4.K v (j + 2) ^^^ lAp (tau (scheduleLookup v (j + 2)))) ^^^ (Spec.SM4.K v (j + 3) ^^^ lAp (tau (scheduleLookup v (j + 3)))) ^^^
      Spec.SM4.CK (j + 4) := fun v => by
    rw [← hx, ← hx, ← hx]
    rfl
  simp only [lAp_xor]
  rw [hb, hb]
  generalize lAp (tau (scheduleLookup p (j + 1))) = a1
  generalize lAp (tau (scheduleLookup p (j + 2))) = a2
  generalize lAp (tau (scheduleLookup p (j + 3))) = a3
  generalize lAp (tau (scheduleLookup q (j + 1))) = b1
  generalize lAp (tau (scheduleLookup q (j + 2))) = b2
  generalize lAp (tau (scheduleLookup q (j + 3))) = b3
  unfold scheduleLookup
  generalize Spec.SM4.K p (j + 1) = x1
  generalize Spec.SM4.K p (j + 2) = x2
  generalize Spec.SM4.K p (j + 3) = x3
  generalize Spec.SM4.K q (j + 1) = y1
  generalize Spec.SM4.K q (j + 2) = y2
  generalize Spec.SM4.K q (j + 3) = y3
  generalize Spec.SM4.CK j = c0
  generalize Spec.SM4.CK (j + 4) = c4
  have e1 : ∀ c : Word, x1 ^^^ a1 ^^^ (x2 ^^^ a2) ^^^ (x3 ^^^ a3) ^^^ c ^^^ (y1 ^^^ b1 ^^^ (y2 ^^^ b2) ^^^ (y3 ^^^ b3) ^^^ c) =
    (c ^^^ c) ^^^ (x1 ^^^ x2 ^^^ x3 ^^^ y1 ^^^ y2 ^^^ y3 ^^^ (a1 ^^^ b1) ^^^ (a2 ^^^ b2) ^^^ (a3 ^^^ b3)) := fun c => by ac_rfl
  have e2 : ∀ c : Word, x1 ^^^ x2 ^^^ x3 ^^^ c ^^^ (y1 ^^^ y2 ^^^ y3 ^^^ c) ^^^ (a1 ^^^ b1) ^^^ (a2 ^^^ b2) ^^^ (a3 ^^^ b3) =
    (c ^^^ c) ^^^ (x1 ^^^ x2 ^^^ x3 ^^^ y1 ^^^ y2 ^^^ y3 ^^^ (a1 ^^^ b1) ^^^ (a2 ^^^ b2) ^^^ (a3 ^^^ b3)) := fun c => by ac_rfl
  rw [e1, e2, BitVec.xor_self, BitVec.xor_self]

/-- Different keys are looked up differently in four consecutive rounds. -/
theorem four_active_keys (p q : Bytes) (hp : p.length = 16) (hq : q.length = 16) (hne : p ≠ q) (i : Nat) :
    ¬ (nz (scheduleLookup p i ^^^ scheduleLookup q i) = 0 ∧ nz (scheduleLookup p (i + 1) ^^^ scheduleLookup q (i + 1)) = 0 ∧
      nz (scheduleLookup p (i + 2) ^^^ scheduleLookup q (i + 2)) = 0 ∧ nz (scheduleLookup p (i + 3) ^^^ scheduleLookup q (i + 3)) = 0) := by
  intro ⟨h0, h1, h2, h3⟩
  have eq : ∀ {x y : Word}, nz (x ^^^ y) = 0 → x = y := fun h => Classical.byContradiction fun hn => xor_ne hn (nz_eq_zero h)
  refine hne (key_of_words hp hq (schedule_back p q i ?_))
  exact state_of_arguments Spec.SM4.T' (Spec.SM4.K p) (Spec.SM4.K q) Spec.SM4.CK i (fun _ => rfl) (fun _ => rfl) fun j hj => by
    match j, hj with
    | 0, _ => exact eq h0
    | 1, _ => exact eq h1
    | 2, _ => exact eq h2
    | 3, _ => exact eq h3

theorem keyLookup_schedule (key : Bytes) {i : Nat} (hi : i < 32) : keyLookup key i = scheduleLookup key i := by
  unfold keyLookup scheduleLookup
  rw [cK_spec hi]

theorem key_window (key : Bytes) (e : Bool) (i m : Nat) (h : i + m ≤ 32) :
    ((expandKeyT key e).2.drop (4 * i)).take (4 * m) = span (scheduleLookup key) i m := by
  rw [expandKeyT_eq]
  dsimp only
  rw [span_window _ 32 i m h]
  unfold span
  rw [List.flatMap_def, List.flatMap_def]
  congr 1
  refine List.map_congr_left fun j hj => ?_
  rw [keyLookup_schedule key (by have := List.mem_range.1 hj; omega)]

/-- C145: for any two different keys, in any seven consecutive rounds of the key schedule at least four of the 28 indices into the
S-box table are different. -/
theorem C145_key_seven (p q : Bytes) (hp : p.length = 16) (hq : q.length = 16) (hne : p ≠ q) (e e' : Bool) (i : Nat) (hi : i + 7 ≤ 32) :
    4 ≤ differing (((expandKeyT p e).2.drop (4 * i)).take 28) (((expandKeyT q e').2.drop (4 * i)).take 28) := by
  rw [key_window p e i 7 hi, key_window q e' i 7 hi]
  have := keyChain_seven (chain_of_keys p q) i (four_active_keys p q hp hq hne i)
  simp only [differing_succ, differing_zero]
  simp only [Nat.add_zero, Nat.zero_add]
  exact this

/-- C145: in any ten consecutive rounds of the key schedule at least six are different. -/
theorem C145_key_ten (p q : Bytes) (hp : p.length = 16) (hq : q.length = 16) (hne : p ≠ q) (e e' : Bool) (i : Nat) (hi : i + 10 ≤ 32) :
    6 ≤ differing (((expandKeyT p e).2.drop (4 * i)).take 40) (((expandKeyT q e').2.drop (4 * i)).take 40) := by
  rw [key_window p e i 10 hi, key_window q e' i 10 hi]
  have := keyChain_ten (chain_of_keys p q) i (four_active_keys p q hp hq hne)
  simp only [differing_succ, differing_zero]
  simp only [Nat.add_zero, Nat.zero_add]
  exact this

/-- C145: of the 128 indices of a key schedule at least 18 are different from those of any other key. -/
theorem C145_key (p q : Bytes) (hp : p.length = 16) (hq : q.length = 16) (hne : p ≠ q) (e e' : Bool) :
    18 ≤ differing (expandKeyT p e).2 (expandKeyT q e').2 := by
  have h0 := C145_key_ten p q hp hq hne e e' 0 (by omega)
  have h1 := C145_key_ten p q hp hq hne e e' 10 (by omega)
  have h2 := C145_key_ten p q hp hq hne e e' 20 (by omega)
  have l1 := (C135_count_partial p e [] []).1
  have l2 := (C135_count_partial q e' [] []).1
  generalize (expandKeyT p e).2 = a at *
  generalize (expandKeyT q e').2 = b at *
  rw [differing_windows a b 40 (by rw [l1, l2]), differing_windows (a.drop 40) (b.drop 40) 40 (by simp [l1, l2]),
    differing_windows ((a.drop 40).drop 40) ((b.drop 40).drop 40) 40 (by simp [l1, l2]), List.drop_drop, List.drop_drop]
  simp only [Nat.reduceMul, Nat.reduceAdd, List.drop_zero] at h0 h1 h2 ⊢
  omega

/-! Two keys that differ in their last bit. The last line: for `tAp` four is taken, so the schedule spreads less than the rounds. -/
example : exKey135 ≠ exBlock145 ∧ (List.range 8).map (fun j => differing (((expandKeyT exKey135 true).2.drop (4 * j)).take 4)
    (((expandKeyT exBlock145 true).2.drop (4 * j)).take 4)) = [1, 4, 4, 4, 4, 4, 4, 4] := by decide +kernel
example : ∃ x y : Word, x ≠ y ∧ differing (put32 x) (put32 y) + differing (put32 (tAp x)) (put32 (tAp y)) = 4 :=
  ⟨0, 0x00000003, by decide +kernel, by decide +kernel⟩

end Verif.Props
