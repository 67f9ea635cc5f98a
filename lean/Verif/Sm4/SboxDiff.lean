import Verif.Sm4.Lemmas
/-!
# The differences of the S-box of SM4

For every difference of two bytes, each difference of their images is taken by at most four bytes. The whole
table is checked (255 · 256 pairs).
-/
namespace Verif.Sm4
open Verif

/-- The table `sBox` as one number, entry `i` in the bits `8 i` … `8 i + 7`. -/
def sBoxNum : Nat := 0x4839cbd73e5fee79204ddc3aec7df01884c66ec509f1b9657e77960c4a976989b0b4e5b812d0742dbd7bcda58831c10ad85a101f415cd9117fbcddbb92af1b8d515b6c6d726aff032f8efdde4537dbd56f4e530dab2329c060ca66822ee2f61de3b18cf5303293ad551a349ba45daee0a11561f9cef2f7a3b538c740d28abfea9ec8c4a0e702364c5227d39f574600d4877821013b7c2225a2d158635e0e241e359d56704b0febf88bda6471b2816b68a84f85e6193c5983ba1773f3fca70747a63f8f75fa94df8095e808c9a91cb3e462accfed430b54337a98ef91f450429c99068649261344aac304be2a769a672b052cfb28c214b616b73de1ccfee990d6

/-- The image of `x`. -/
def sN (x : Nat) : Nat := Nat.land (Nat.shiftRight sBoxNum (Nat.mul 8 x)) 255

theorem sN_fin : ∀ x : Fin 256, sN x.val = (sBox (BitVec.ofNat 8 x.val)).toNat := by decide +kernel

/-- No number is more than four times in the list: bit `d` of `m1`, …, `m4` tells whether `d` has been met once, …, four times. -/
def atMost4 : List Nat → Nat → Nat → Nat → Nat → Bool
  | [], _, _, _, _ => true
  | d :: ds, m1, m2, m3, m4 =>
    match Nat.land (Nat.shiftRight m4 d) 1 with
    | 0 =>
      let b := Nat.shiftLeft 1 d
      atMost4 ds (Nat.lor m1 b) (Nat.lor m2 (Nat.land m1 b)) (Nat.lor m3 (Nat.land m2 b)) (Nat.lor m4 (Nat.land m3 b))
    | _ + 1 => false

/-- The differences of the images of all pairs with difference `a`. -/
def diffs (a : Nat) : List Nat := (List.range 256).map fun x => Nat.xor (sN x) (sN (Nat.xor x a))

theorem diffs_check : ∀ a : Fin 255, atMost4 (diffs (a.val + 1)) 0 0 0 0 = true := by decide +kernel

theorem bit_one (d b : Nat) : (Nat.shiftLeft 1 d).testBit b = decide (d = b) := by
  rw [show Nat.shiftLeft 1 d = 2 ^ d from by rw [← Nat.one_shiftLeft]; rfl, Nat.testBit_two_pow]

theorem atMost4_count (ds : List Nat) (b : Nat) : ∀ (m1 m2 m3 m4 : Nat), atMost4 ds m1 m2 m3 m4 = true →
    (m4.testBit b = true → m3.testBit b = true) → (m3.testBit b = true → m2.testBit b = true) → (m2.testBit b = true → m1.testBit b = true) →
    ds.count b + (m1.testBit b).toNat + (m2.testBit b).toNat + (m3.testBit b).toNat + (m4.testBit b).toNat ≤ 4 := by
  induction ds with
  | nil =>
    intro m1 m2 m3 m4 _ _ _ _
    have := Bool.toNat_le (m1.testBit b)
    have := Bool.toNat_le (m2.testBit b)
    have := Bool.toNat_le (m3.testBit b)
    have := Bool.toNat_le (m4.testBit b)
    rw [List.count_nil]
    omega
  | cons d ds ih =>
    intro m1 m2 m3 m4 h i4 i3 i2
    rw [atMost4] at h
    split at h
    · rename_i h0
      have hd : m4.testBit d = false := by
        rw [show m4.testBit d = (1 &&& (m4 >>> d) != 0) from rfl, Nat.and_comm, show (m4 >>> d) &&& 1 = Nat.land (Nat.shiftRight m4 d) 1 from rfl, h0]
        rfl
      have t : ∀ m m' : Nat, (Nat.lor m (Nat.land m' (Nat.shiftLeft 1 d))).testBit b = (m.testBit b || (m'.testBit b && decide (d = b))) := fun m m' => by
        rw [show Nat.lor m (Nat.land m' (Nat.shiftLeft 1 d)) = m ||| (m' &&& Nat.shiftLeft 1 d) from rfl, Nat.testBit_or, Nat.testBit_and, bit_one]
      have t1 : (Nat.lor m1 (Nat.shiftLeft 1 d)).testBit b = (m1.testBit b || decide (d = b)) := by
        rw [show Nat.lor m1 (Nat.shiftLeft 1 d) = m1 ||| Nat.shiftLeft 1 d from rfl, Nat.testBit_or, bit_one]
      have := ih _ _ _ _ h (by rw [t, t]; revert i4 i3 i2; cases m1.testBit b <;> cases m2.testBit b <;> cases m3.testBit b <;> cases m4.testBit b <;> simp)
        (by rw [t, t]; revert i4 i3 i2; cases m1.testBit b <;> cases m2.testBit b <;> cases m3.testBit b <;> cases m4.testBit b <;> simp)
        (by rw [t, t1]; revert i4 i3 i2; cases m1.testBit b <;> cases m2.testBit b <;> cases m3.testBit b <;> cases m4.testBit b <;> simp)
      rw [t, t, t, t1] at this
      rw [List.count_cons]
      by_cases hb : d = b
      · subst hb
        rw [hd] at this ⊢
        simp only [beq_self_eq_true, if_true]
        clear h ih t t1 i4
        revert this i3 i2
        cases m1.testBit d <;> cases m2.testBit d <;> cases m3.testBit d <;> simp <;> omega
      · simp only [hb, decide_false, Bool.and_false, Bool.or_false] at this
        simp only [beq_iff_eq, hb, if_false]
        omega
    · cases h

theorem sBox_diff (a b : Byte) (ha : a ≠ 0) :
    ((List.range 256).filter fun x => sBox (BitVec.ofNat 8 x) ^^^ sBox (BitVec.ofNat 8 x ^^^ a) = b).length ≤ 4 := by
  have h1 : a.toNat ≠ 0 := fun e => ha (BitVec.eq_of_toNat_eq e)
  have h2 := a.isLt
  have hc := atMost4_count (diffs a.toNat) b.toNat 0 0 0 0 (by
    have := diffs_check ⟨a.toNat - 1, by omega⟩
    simp only at this
    rwa [show a.toNat - 1 + 1 = a.toNat by omega] at this) id id id
  simp only [Nat.zero_testBit, Bool.toNat_false, Nat.add_zero] at hc
  rw [diffs, List.count_eq_countP, List.countP_map, List.countP_eq_length_filter] at hc
  refine Nat.le_trans (Nat.le_of_eq ?_) hc
  congr 1
  refine List.filter_congr fun x hx => ?_
  have hx' : x < 256 := List.mem_range.mp hx
  have e1 := sN_fin ⟨x, hx'⟩
  have hxa : x ^^^ a.toNat < 256 := Nat.xor_lt_two_pow (n := 8) hx' h2
  have e2 := sN_fin ⟨x ^^^ a.toNat, hxa⟩
  simp only at e1 e2
  have e3 : BitVec.ofNat 8 (x ^^^ a.toNat) = BitVec.ofNat 8 x ^^^ a := by
    apply BitVec.eq_of_toNat_eq
    rw [BitVec.toNat_xor, BitVec.toNat_ofNat, BitVec.toNat_ofNat, Nat.mod_eq_of_lt hxa, Nat.mod_eq_of_lt hx']
  rw [e3] at e2
  simp only [Function.comp_apply]
  rw [show Nat.xor (sN x) (sN (Nat.xor x a.toNat)) = sN x ^^^ sN (x ^^^ a.toNat) from rfl, e1, e2, ← BitVec.toNat_xor]
  rw [Bool.eq_iff_iff, decide_eq_true_iff, beq_iff_eq]
  exact ⟨fun e => by rw [e], fun e => BitVec.eq_of_toNat_eq e⟩

end Verif.Sm4
