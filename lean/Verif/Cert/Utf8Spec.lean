import Verif.Cert.Utf8
/-!
# UTF-8 (RFC 3629), and that the transcription of unicode/utf8 accepts exactly that
-/
namespace Verif.Spec.Utf8
open Verif

/-- A Unicode scalar value (RFC 3629 3). -/
def Scalar (c : Nat) : Prop := c < 0x110000 ∧ ¬ (0xd800 ≤ c ∧ c < 0xe000)

/-- Its encoding (RFC 3629 3). -/
def encode (c : Nat) : Bytes :=
  if c < 0x80 then [BitVec.ofNat 8 c]
  else if c < 0x800 then [BitVec.ofNat 8 (0xc0 + c / 64), BitVec.ofNat 8 (0x80 + c % 64)]
  else if c < 0x10000 then [BitVec.ofNat 8 (0xe0 + c / 4096), BitVec.ofNat 8 (0x80 + c / 64 % 64), BitVec.ofNat 8 (0x80 + c % 64)]
  else [BitVec.ofNat 8 (0xf0 + c / 262144), BitVec.ofNat 8 (0x80 + c / 4096 % 64), BitVec.ofNat 8 (0x80 + c / 64 % 64), BitVec.ofNat 8 (0x80 + c % 64)]

/-- A string of scalar values in UTF-8. -/
def IsUtf8 (s : Bytes) : Prop := ∃ cs : List Nat, (∀ c ∈ cs, Scalar c) ∧ s = cs.flatMap encode

end Verif.Spec.Utf8

namespace Verif.Utf8
open Verif Verif.Spec.Utf8

theorem ofNat_eq {b : Byte} {n : Nat} (h : n = b.toNat) : BitVec.ofNat 8 n = b := by
  subst h; simp

theorem toNat_of {n : Nat} (h : n < 256) : (BitVec.ofNat 8 n).toNat = n := by
  rw [BitVec.toNat_ofNat]; omega

theorem encode_ne_nil (c : Nat) : encode c ≠ [] := by
  unfold encode
  repeat' split
  all_goals simp

/-- What `lead` says. -/
theorem lead_some {n s lo hi : Nat} (e : lead n = some (s, lo, hi)) :
    (s = 2 ∧ 0xc2 ≤ n ∧ n ≤ 0xdf ∧ lo = 0x80 ∧ hi = 0xbf) ∨ (s = 3 ∧ n = 0xe0 ∧ lo = 0xa0 ∧ hi = 0xbf) ∨
    (s = 3 ∧ n = 0xed ∧ lo = 0x80 ∧ hi = 0x9f) ∨ (s = 3 ∧ 0xe1 ≤ n ∧ n ≤ 0xef ∧ n ≠ 0xed ∧ lo = 0x80 ∧ hi = 0xbf) ∨
    (s = 4 ∧ n = 0xf0 ∧ lo = 0x90 ∧ hi = 0xbf) ∨ (s = 4 ∧ 0xf1 ≤ n ∧ n ≤ 0xf3 ∧ lo = 0x80 ∧ hi = 0xbf) ∨
    (s = 4 ∧ n = 0xf4 ∧ lo = 0x80 ∧ hi = 0x8f) := by
  unfold lead between at e
  simp only [Bool.and_eq_true, decide_eq_true_eq] at e
  repeat' (split at e)
  all_goals first | contradiction | (simp only [Option.some.injEq, Prod.mk.injEq] at e; obtain ⟨rfl, rfl, rfl⟩ := e; omega)

/-- What is decoded, other than errors, is an encoded scalar value. -/
theorem decodeRune_sound (b : Byte) (bs : Bytes) (h : ¬ ((decodeRune (b :: bs)).1 = runeError ∧ (decodeRune (b :: bs)).2 = 1)) :
    Scalar (decodeRune (b :: bs)).1 ∧ b :: bs = encode (decodeRune (b :: bs)).1 ++ (b :: bs).drop (decodeRune (b :: bs)).2 := by
  have he : ¬ ((runeError, 1).1 = runeError ∧ (runeError, 1).2 = 1) → False := fun h => h ⟨rfl, rfl⟩
  have hb := b.isLt
  generalize hr : decodeRune (b :: bs) = r at h
  unfold decodeRune at hr
  dsimp only at hr
  split at hr
  · subst hr
    refine ⟨by unfold Scalar; dsimp only; omega, ?_⟩
    unfold encode
    dsimp only
    rw [if_pos (by assumption)]
    simp
  · split at hr
    · subst hr; exact (he h).elim
    · rename_i s lo hi e
      have hl := lead_some e
      split at hr
      · subst hr; exact (he h).elim
      · rename_i b1 r1
        have hb1 := b1.isLt
        split at hr
        · subst hr; exact (he h).elim
        · rename_i h1
          have h1 : lo ≤ b1.toNat ∧ b1.toNat ≤ hi := by simpa [between] using h1
          split at hr
          · rename_i hs
            subst hr
            dsimp only
            refine ⟨by unfold Scalar; omega, ?_⟩
            unfold encode
            rw [if_neg (by omega), if_pos (by omega), ofNat_eq (b := b) (by omega), ofNat_eq (b := b1) (by omega)]
            simp
          · split at hr
            · subst hr; exact (he h).elim
            · rename_i b2 r2
              have hb2 := b2.isLt
              split at hr
              · subst hr; exact (he h).elim
              · rename_i h2
                have h2 : 0x80 ≤ b2.toNat ∧ b2.toNat ≤ 0xbf := by simpa [between] using h2
                split at hr
                · rename_i hs
                  subst hr
                  dsimp only
                  refine ⟨by unfold Scalar; omega, ?_⟩
                  unfold encode
                  rw [if_neg (by omega), if_neg (by omega), if_pos (by omega), ofNat_eq (b := b) (by omega), ofNat_eq (b := b1) (by omega),
                    ofNat_eq (b := b2) (by omega)]
                  simp
                · split at hr
                  · subst hr; exact (he h).elim
                  · rename_i b3 r3
                    have hb3 := b3.isLt
                    split at hr
                    · subst hr; exact (he h).elim
                    · rename_i h3
                      have h3 : 0x80 ≤ b3.toNat ∧ b3.toNat ≤ 0xbf := by simpa [between] using h3
                      subst hr
                      dsimp only
                      refine ⟨by unfold Scalar; omega, ?_⟩
                      unfold encode
                      rw [if_neg (by omega), if_neg (by omega), if_neg (by omega), ofNat_eq (b := b) (by omega), ofNat_eq (b := b1) (by omega),
                        ofNat_eq (b := b2) (by omega), ofNat_eq (b := b3) (by omega)]
                      simp

theorem lead_of {n : Nat} : 
    (0xc2 ≤ n → n ≤ 0xdf → lead n = some (2, 0x80, 0xbf)) ∧ (0xe1 ≤ n → n ≤ 0xef → n ≠ 0xed → lead n = some (3, 0x80, 0xbf)) ∧
    (0xf1 ≤ n → n ≤ 0xf3 → lead n = some (4, 0x80, 0xbf)) := by
  unfold lead between
  simp only [Bool.and_eq_true, decide_eq_true_eq]
  refine ⟨fun h1 h2 => ?_, fun h1 h2 h3 => ?_, fun h1 h2 => ?_⟩
  · rw [if_pos ⟨h1, h2⟩]
  · rw [if_neg (by omega), if_neg (by omega), if_neg (by omega), if_pos ⟨h1, h2⟩]
  · rw [if_neg (by omega), if_neg (by omega), if_neg (by omega), if_neg (by omega), if_neg (by omega), if_pos ⟨h1, h2⟩]

theorem between_iff {lo b hi : Nat} : between lo b hi = true ↔ lo ≤ b ∧ b ≤ hi := by simp [between]

/-- An encoded scalar value is decoded. -/
theorem decodeRune_encode {c : Nat} (hc : Scalar c) (rest : Bytes) : decodeRune (encode c ++ rest) = (c, (encode c).length) := by
  unfold Scalar at hc
  unfold encode
  split
  · rename_i h
    simp only [List.cons_append, List.nil_append, decodeRune]
    rw [toNat_of (by omega), if_pos h]
    rfl
  · split
    · rename_i h1 h2
      simp only [List.cons_append, List.nil_append, decodeRune]
      rw [toNat_of (by omega), toNat_of (by omega), if_neg (by omega), (lead_of (n := 0xc0 + c / 64)).1 (by omega) (by omega)]
      dsimp only
      rw [(between_iff (lo := 0x80) (b := 0x80 + c % 64) (hi := 0xbf)).2 (by omega), if_neg (by simp), if_pos rfl]
      simp only [List.length_cons, List.length_nil, Prod.mk.injEq]
      exact ⟨by omega, by trivial⟩
    · split
      · rename_i h1 h2 h3
        simp only [List.cons_append, List.nil_append, decodeRune]
        have key : ∀ lo hi, lead (0xe0 + c / 4096) = some (3, lo, hi) → lo ≤ 0x80 + c / 64 % 64 ∧ 0x80 + c / 64 % 64 ≤ hi := by
          intro lo hi e
          have := lead_some e
          omega
        have hs : ∃ lo hi, lead (0xe0 + c / 4096) = some (3, lo, hi) := by
          by_cases e0 : 0xe0 + c / 4096 = 0xe0
          · rw [e0]; exact ⟨_, _, rfl⟩
          · by_cases ed : 0xe0 + c / 4096 = 0xed
            · rw [ed]; exact ⟨_, _, rfl⟩
            · exact ⟨_, _, (lead_of (n := 0xe0 + c / 4096)).2.1 (by omega) (by omega) ed⟩
        obtain ⟨lo, hi, hlead⟩ := hs
        have hk := key lo hi hlead
        rw [toNat_of (by omega), toNat_of (by omega), toNat_of (by omega), if_neg (by omega), hlead]
        dsimp only
        rw [between_iff.2 hk, if_neg (by simp), if_neg (by decide),
          (between_iff (lo := 0x80) (b := 0x80 + c % 64) (hi := 0xbf)).2 (by omega), if_neg (by simp), if_pos rfl]
        simp only [List.length_cons, List.length_nil, Prod.mk.injEq]
        exact ⟨by omega, by trivial⟩
      · rename_i h1 h2 h3
        simp only [List.cons_append, List.nil_append, decodeRune]
        have key : ∀ lo hi, lead (0xf0 + c / 262144) = some (4, lo, hi) → lo ≤ 0x80 + c / 4096 % 64 ∧ 0x80 + c / 4096 % 64 ≤ hi := by
          intro lo hi e
          have := lead_some e
          omega
        have hs : ∃ lo hi, lead (0xf0 + c / 262144) = some (4, lo, hi) := by
          by_cases e0 : 0xf0 + c / 262144 = 0xf0
          · rw [e0]; exact ⟨_, _, rfl⟩
          · by_cases ed : 0xf0 + c / 262144 = 0xf4
            · rw [ed]; exact ⟨_, _, rfl⟩
            · exact ⟨_, _, (lead_of (n := 0xf0 + c / 262144)).2.2 (by omega) (by omega)⟩
        obtain ⟨lo, hi, hlead⟩ := hs
        have hk := key lo hi hlead
        rw [toNat_of (by omega), toNat_of (by omega), toNat_of (by omega), toNat_of (by omega), if_neg (by omega), hlead]
        dsimp only
        rw [between_iff.2 hk, if_neg (by simp), if_neg (by decide),
          (between_iff (lo := 0x80) (b := 0x80 + c / 64 % 64) (hi := 0xbf)).2 (by omega), if_neg (by simp), if_neg (by decide),
          (between_iff (lo := 0x80) (b := 0x80 + c % 64) (hi := 0xbf)).2 (by omega), if_neg (by simp)]
        simp only [List.length_cons, List.length_nil, Prod.mk.injEq]
        exact ⟨by omega, by trivial⟩

/-- An encoded scalar value is not taken for an error. -/
theorem encode_not_error {c : Nat} : ¬ (c = runeError ∧ (encode c).length = 1) := by
  rintro ⟨rfl, h⟩
  revert h; decide

/-- `utf8.Valid` accepts exactly UTF-8. -/
theorem valid_iff (s : Bytes) : valid s = true ↔ IsUtf8 s := by
  have fwd : ∀ (k : Nat) (s : Bytes), s.length ≤ k →
      (runesAux k s).all (fun r => !(r.1 == runeError && r.2 == 1)) = true → IsUtf8 s := by
    intro k
    induction k with
    | zero =>
      intro s hs _
      have : s = [] := List.length_eq_zero_iff.1 (by omega)
      subst this
      exact ⟨[], by simp, rfl⟩
    | succ k ih =>
      intro s hs h
      match s with
      | [] => exact ⟨[], by simp, rfl⟩
      | b :: bs =>
        rw [runesAux, List.all_cons, Bool.and_eq_true] at h
        obtain ⟨h1, h2⟩ := h
        have h1 : ¬ ((decodeRune (b :: bs)).1 = runeError ∧ (decodeRune (b :: bs)).2 = 1) := by
          rintro ⟨e1, e2⟩; simp [e1, e2] at h1
        obtain ⟨g1, g2⟩ := decodeRune_sound b bs h1
        have hl := congrArg List.length g2
        rw [List.length_append] at hl
        have := List.length_pos_iff.2 (encode_ne_nil (decodeRune (b :: bs)).1)
        obtain ⟨cs, k1, k2⟩ := ih _ (by omega) h2
        refine ⟨(decodeRune (b :: bs)).1 :: cs, by simpa using ⟨g1, k1⟩, ?_⟩
        rw [List.flatMap_cons, ← k2]
        exact g2
  have bwd : ∀ (cs : List Nat) (k : Nat), (∀ c ∈ cs, Scalar c) →
      (runesAux k (cs.flatMap encode)).all (fun r => !(r.1 == runeError && r.2 == 1)) = true := by
    intro cs
    induction cs with
    | nil => intro k _; cases k <;> rfl
    | cons c cs ih =>
      intro k h
      rw [List.flatMap_cons]
      cases k with
      | zero => cases (encode c ++ List.flatMap encode cs) <;> rfl
      | succ k =>
        have hd := decodeRune_encode (h c (by simp)) (cs.flatMap encode)
        cases hc : encode c ++ cs.flatMap encode with
        | nil => rfl
        | cons b bs =>
          rw [runesAux, ← hc, hd, List.all_cons, List.drop_left' rfl, ih k fun c hc => h c (by simp [hc]), Bool.and_true]
          have := encode_not_error (c := c)
          by_cases e1 : c = runeError <;> simp_all
  constructor
  · exact fwd _ s (Nat.le_refl _)
  · rintro ⟨cs, h1, rfl⟩
    exact bwd cs _ h1

end Verif.Utf8
