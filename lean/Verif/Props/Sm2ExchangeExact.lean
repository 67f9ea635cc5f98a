import Verif.Props.Sm2Exchange
import Verif.Props.Sm3Collision
/-!
# Property C65, exactly: when the confirmation values are the standard's
-/
namespace Verif.Props
open Verif Verif.Sm2 Verif.EC Verif.Spec.SM2

/-- What the code hashes first, with every number in its shortest form (`natBytes`), or what the standard hashes, with 32 bytes for each
(`fe`). -/
def tagInner (enc : ℕ → Bytes) (xU : ℕ) (zA zB : Bytes) (x1 y1 x2 y2 : ℕ) : Bytes :=
  enc xU ++ zA ++ zB ++ enc x1 ++ enc y1 ++ enc x2 ++ enc y2

/-- What is hashed then. -/
def tagOuter (enc : ℕ → Bytes) (b : Byte) (xU yU : ℕ) (zA zB : Bytes) (x1 y1 x2 y2 : ℕ) : Bytes :=
  b :: (enc yU ++ Spec.SM3.hash (tagInner enc xU zA zB x1 y1 x2 y2))

/-- One of the two hashes of a confirmation value collides: the code's message and the standard's message, different, have one digest. -/
def TagCollides (b : Byte) (xU yU : ℕ) (zA zB : Bytes) (x1 y1 x2 y2 : ℕ) : Prop :=
  (tagInner natBytes xU zA zB x1 y1 x2 y2 ≠ tagInner fe xU zA zB x1 y1 x2 y2 ∧
    StepsCollide (tagInner natBytes xU zA zB x1 y1 x2 y2) (tagInner fe xU zA zB x1 y1 x2 y2)) ∨
  (tagOuter natBytes b xU yU zA zB x1 y1 x2 y2 ≠ tagOuter fe b xU yU zA zB x1 y1 x2 y2 ∧
    StepsCollide (tagOuter natBytes b xU yU zA zB x1 y1 x2 y2) (tagOuter fe b xU yU zA zB x1 y1 x2 y2))

theorem natBytes_le32 {v : ℕ} (h : v < 2 ^ 256) : (natBytes v).length ≤ 32 ∧ ((natBytes v).length = 32 → 2 ^ 248 ≤ v) := by
  rw [length_natBytes]
  refine ⟨(byteLen_le_iff _ _).2 (lt_of_lt_of_eq h (by norm_num)), fun e => ?_⟩
  have h2 : ¬ byteLen v ≤ 31 := by omega
  rw [byteLen_le_iff, show (256 : ℕ) ^ 31 = 2 ^ 248 by norm_num] at h2
  omega

theorem tag_exact (b : Byte) {xU yU x1 y1 x2 y2 : ℕ} (zA zB : Bytes) (hz : zA.length = 32) (hz' : zB.length = 32)
    (h : ∀ v ∈ [xU, yU, x1, y1, x2, y2], v < 2 ^ 256)
    (he : shortTag b xU yU zA zB x1 y1 x2 y2 = exTag b xU yU zA zB x1 y1 x2 y2) :
    (∀ v ∈ [xU, yU, x1, y1, x2, y2], 2 ^ 248 ≤ v) ∨ TagCollides b xU yU zA zB x1 y1 x2 y2 := by
  have hU := natBytes_le32 (h xU (by simp))
  have hV := natBytes_le32 (h yU (by simp))
  have h1 := natBytes_le32 (h x1 (by simp))
  have h1' := natBytes_le32 (h y1 (by simp))
  have h2 := natBytes_le32 (h x2 (by simp))
  have h2' := natBytes_le32 (h y2 (by simp))
  have fl : ∀ v, (fe v).length = 32 := fun v => by simp [fe]
  have hs : ∀ m : Bytes, (Spec.SM3.hash m).length = 32 := hash_length
  have li : ∀ enc, (tagInner enc xU zA zB x1 y1 x2 y2).length = (enc xU).length + (64 + (enc x1).length + (enc y1).length + (enc x2).length + (enc y2).length) := by
    intro enc
    unfold tagInner
    simp only [List.length_append]
    omega
  have lo : ∀ enc, (tagOuter enc b xU yU zA zB x1 y1 x2 y2).length = 33 + (enc yU).length := by
    intro enc
    unfold tagOuter
    simp only [List.length_append, List.length_cons, hs]
    omega
  have lin := li natBytes
  have lis := li fe
  have lon := lo natBytes
  have los := lo fe
  rw [fl] at los
  rw [fl, fl, fl, fl, fl] at lis
  by_cases ho : tagOuter natBytes b xU yU zA zB x1 y1 x2 y2 = tagOuter fe b xU yU zA zB x1 y1 x2 y2
  · have e1 : (natBytes yU).length = 32 := by have := congrArg List.length ho; omega
    have e2 : Spec.SM3.hash (tagInner natBytes xU zA zB x1 y1 x2 y2) = Spec.SM3.hash (tagInner fe xU zA zB x1 y1 x2 y2) := by
      unfold tagOuter at ho
      exact (List.append_inj (List.cons.inj ho).2 (by rw [e1, fl])).2
    by_cases hi : tagInner natBytes xU zA zB x1 y1 x2 y2 = tagInner fe xU zA zB x1 y1 x2 y2
    · left
      have e3 := congrArg List.length hi
      intro v hv
      simp only [List.mem_cons, List.not_mem_nil, or_false] at hv
      rcases hv with rfl | rfl | rfl | rfl | rfl | rfl
      · exact hU.2 (by omega)
      · exact hV.2 e1
      · exact h1.2 (by omega)
      · exact h1'.2 (by omega)
      · exact h2.2 (by omega)
      · exact h2'.2 (by omega)
    · exact .inr (.inl ⟨hi, collide_of_hash (by omega) (by omega) hi e2⟩)
  · exact .inr (.inr ⟨ho, collide_of_hash (by omega) (by omega) ho he⟩)

/-- C65 fails for every exchange in which a coordinate of the shared point or of an ephemeral key begins with a zero byte (the others are
`C65_tags_partial`): neither confirmation value is the standard's, unless SM3 takes two different messages, given here, to one digest.
Responder. -/
theorem C65_responder_exact_violated {d r : ℕ} {P R : Pt} {xs ys x1 y1 xo yo x2 y2 xU yU : ℕ}
    (h : Run d r P R xs ys x1 y1 xo yo x2 y2 xU yU) (keyBits : Int) (tag id oid : Option Bytes)
    (hid : (id.getD []).length < 8192) (hoid : (oid.getD []).length < 8192) (res : ExchangeResult)
    (hok : calculateKeyWithConfirmation false keyBits tag ⟨d⟩ ⟨r⟩ id ⟨xo, yo⟩ ⟨x2, y2⟩ oid = .ok res)
    (hz : ¬ ∀ v ∈ [xU, yU, x1, y1, x2, y2], 2 ^ 248 ≤ v) :
    (res.S1 = exTag 2 xU yU (Spec.SM2.Z (oid.getD []) xo yo) (Spec.SM2.Z (id.getD []) xs ys) x2 y2 x1 y1 →
      TagCollides 2 xU yU (Spec.SM2.Z (oid.getD []) xo yo) (Spec.SM2.Z (id.getD []) xs ys) x2 y2 x1 y1) ∧
    (res.S2 = exTag 3 xU yU (Spec.SM2.Z (oid.getD []) xo yo) (Spec.SM2.Z (id.getD []) xs ys) x2 y2 x1 y1 →
      TagCollides 3 xU yU (Spec.SM2.Z (oid.getD []) xo yo) (Spec.SM2.Z (id.getD []) xs ys) x2 y2 x1 y1) := by
  have hl := h.lt
  have hlt : ∀ v ∈ [xU, yU, x2, y2, x1, y1], v < 2 ^ 256 := by
    intro v hv
    simp only [List.mem_cons, List.not_mem_nil, or_false] at hv
    rcases hv with rfl | rfl | rfl | rfl | rfl | rfl
    · exact hl.1
    · exact hl.2.1
    · exact hl.2.2.2.2.1
    · exact hl.2.2.2.2.2
    · exact hl.2.2.1
    · exact hl.2.2.2.1
  have hz' : ¬ ∀ v ∈ [xU, yU, x2, y2, x1, y1], 2 ^ 248 ≤ v := fun g => hz fun v hv => g v (by
    simp only [List.mem_cons, List.not_mem_nil, or_false] at hv ⊢; tauto)
  obtain ⟨_, _, rfl⟩ := responder_ok h hid hoid hok
  exact ⟨fun e => (tag_exact 2 _ _ (hash_length _) (hash_length _) hlt e).resolve_left hz',
    fun e => (tag_exact 3 _ _ (hash_length _) (hash_length _) hlt e).resolve_left hz'⟩

/-- The same for the initiator: what it takes for the responder's confirmation, and the confirmation it sends. -/
theorem C65_initiator_exact_violated {d r : ℕ} {P R : Pt} {xs ys x1 y1 xo yo x2 y2 xU yU : ℕ}
    (h : Run d r P R xs ys x1 y1 xo yo x2 y2 xU yU) (keyBits : Int) (tag : Bytes) (id oid : Option Bytes)
    (hid : (id.getD []).length < 8192) (hoid : (oid.getD []).length < 8192) (res : ExchangeResult)
    (hok : calculateKeyWithConfirmation true keyBits (some tag) ⟨d⟩ ⟨r⟩ id ⟨xo, yo⟩ ⟨x2, y2⟩ oid = .ok res)
    (hz : ¬ ∀ v ∈ [xU, yU, x1, y1, x2, y2], 2 ^ 248 ≤ v) :
    (tag = exTag 2 xU yU (Spec.SM2.Z (id.getD []) xs ys) (Spec.SM2.Z (oid.getD []) xo yo) x1 y1 x2 y2 →
      TagCollides 2 xU yU (Spec.SM2.Z (id.getD []) xs ys) (Spec.SM2.Z (oid.getD []) xo yo) x1 y1 x2 y2) ∧
    (res.S2 = exTag 3 xU yU (Spec.SM2.Z (id.getD []) xs ys) (Spec.SM2.Z (oid.getD []) xo yo) x1 y1 x2 y2 →
      TagCollides 3 xU yU (Spec.SM2.Z (id.getD []) xs ys) (Spec.SM2.Z (oid.getD []) xo yo) x1 y1 x2 y2) := by
  have hl := h.lt
  have hlt : ∀ v ∈ [xU, yU, x1, y1, x2, y2], v < 2 ^ 256 := by
    intro v hv
    simp only [List.mem_cons, List.not_mem_nil, or_false] at hv
    rcases hv with rfl | rfl | rfl | rfl | rfl | rfl
    · exact hl.1
    · exact hl.2.1
    · exact hl.2.2.1
    · exact hl.2.2.2.1
    · exact hl.2.2.2.2.1
    · exact hl.2.2.2.2.2
  have ht := C49_tag h keyBits tag id oid hid hoid res hok
  obtain ⟨_, _, rfl⟩ := initiator_ok h hid hoid hok
  exact ⟨fun e => (tag_exact 2 _ _ (hash_length _) (hash_length _) hlt (ht.symm.trans e)).resolve_left hz,
    fun e => (tag_exact 3 _ _ (hash_length _) (hash_length _) hlt e).resolve_left hz⟩

/-- The concrete exchange of `C65_leading_zero_violated` meets the hypothesis: its shared point has a `y` below 2^248. -/
example : ¬ ∀ v ∈ [exUx, exUy, ex3x, ex3y, exGx, exGy], 2 ^ 248 ≤ v := by decide +kernel

end Verif.Props
