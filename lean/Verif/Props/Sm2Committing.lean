import Verif.Props.Sm2CipherForm
import Verif.Props.Sm2Transcript
/-!
# Property C132: a ciphertext is bound to its key and its message
-/
namespace Verif.Props
open EC Verif.Sm2
open Verif.Spec.SM2 (coords fe)

attribute [local irreducible] Spec.SM2.fe Spec.SM3.hash

/-- What the tag of a ciphertext with first point `Q` and message `m` is the hash of, for the private key `d`. -/
def tagInput (d : ℕ) (Q : Pt) (m : Bytes) : Bytes := fe (sharedXY (d • Q)).1 ++ m ++ fe (sharedXY (d • Q)).2

/-- The tag of a ciphertext: its last 32 bytes, or those after the point. -/
def tagOf (t : Int) (c : Bytes) : Bytes := if t = 1 then c.drop (c.length - 32) else (c.drop 65).take 32

theorem tagInput_inj {d d' : ℕ} {Q Q' : Pt} {m m' : Bytes} (h : tagInput d Q m = tagInput d' Q' m') : d • Q = d' • Q' ∧ m = m' := by
  unfold tagInput at h
  obtain ⟨h, h3⟩ := List.append_inj' h (by rw [length_fe, length_fe])
  obtain ⟨h1, h2⟩ := List.append_inj h (by rw [length_fe, length_fe])
  obtain ⟨a1, a2, a3⟩ := enc_shared (d • Q)
  obtain ⟨b1, b2, b3⟩ := enc_shared (d' • Q')
  refine ⟨enc_inj ?_, h2⟩
  rw [a1, b1, fe_inj a2 b2 h1, fe_inj a3 b3 h3]

/-- The point, the tag and the message of an accepted ciphertext. -/
theorem accepted_tag {d : ℕ} {c m : Bytes} {t : Int} (hc : c.length < 2 ^ 31) (h : decrypt ⟨d⟩ c t = .ok m) :
    ∃ (Q : Pt) (x y : ℕ), coords Q = some (x, y) ∧ c.take 65 = 4 :: (fe x ++ fe y) ∧ tagOf t c = Spec.SM3.hash (tagInput d Q m) := by
  obtain ⟨Q, x, y, c2, c3, q1, q2, _, _, q5⟩ := (C45_exact d c m t hc).1 h
  have hl : (4 :: (fe x ++ fe y) : Bytes).length = 65 := by simp [length_fe]
  have h3 : c3.length = 32 := by rw [q5, hash_length]
  refine ⟨Q, x, y, q1, ?_, ?_⟩
  · rcases q2 with ⟨_, rfl⟩ | ⟨_, rfl⟩ <;> rw [List.append_assoc, List.take_left' hl]
  · unfold tagInput
    rw [← q5]
    rcases q2 with ⟨rfl, rfl⟩ | ⟨rfl, rfl⟩
    · unfold tagOf
      rw [if_pos rfl]
      exact List.drop_left' (by rw [List.length_append (bs := c3)]; omega)
    · unfold tagOf
      rw [if_neg (by decide), List.append_assoc, List.drop_left' hl, List.take_left' h3]

theorem smul_eq_iff {Q : Pt} (hQ : Q ≠ 0) {d d' : ℕ} : d • Q = d' • Q ↔ d ≡ d' [MOD n] := by
  have key : ∀ {a b : ℕ}, a ≤ b → (a • Q = b • Q ↔ a ≡ b [MOD n]) := by
    intro a b hab
    have e : b • Q = (b - a) • Q + a • Q := by rw [← add_nsmul]; congr 1; omega
    rw [Nat.modEq_iff_dvd' hab, ← smul_eq_zero_iff' hQ, e]
    constructor
    · intro h; simpa using h
    · intro h; rw [h, zero_add]
  rcases Nat.le_total d d' with hl | hl
  · exact key hl
  · rw [eq_comm, key hl]; exact ⟨Nat.ModEq.symm, Nat.ModEq.symm⟩

theorem coords_ne_zero {Q : Pt} {x y : ℕ} (h : coords Q = some (x, y)) : Q ≠ 0 := by
  rintro rfl; simp [coords] at h

/-- C132: the tag binds the message and the shared point. Let two ciphertexts with the same tag be accepted, whatever else is
in them, by whatever private keys and in whatever layouts. Then the messages and the shared points are the same, or the inputs
of the two tags are a collision of SM3. -/
theorem C132_tag (d d' : ℕ) (c c' m m' : Bytes) (t t' : Int) (hc : c.length < 2 ^ 31) (hc' : c'.length < 2 ^ 31)
    (h : decrypt ⟨d⟩ c t = .ok m) (h' : decrypt ⟨d'⟩ c' t' = .ok m') (ht : tagOf t c = tagOf t' c') :
    ∃ (Q Q' : Pt) (x y x' y' : ℕ), coords Q = some (x, y) ∧ coords Q' = some (x', y') ∧ c.take 65 = 4 :: (fe x ++ fe y) ∧
      c'.take 65 = 4 :: (fe x' ++ fe y') ∧ (d • Q = d' • Q' ∧ m = m' ∨ Collide (tagInput d Q m) (tagInput d' Q' m')) := by
  obtain ⟨Q, x, y, h1, h2, h3⟩ := accepted_tag hc h
  obtain ⟨Q', x', y', h1', h2', h3'⟩ := accepted_tag hc' h'
  refine ⟨Q, Q', x, y, x', y', h1, h1', h2, h2', ?_⟩
  by_cases e : tagInput d Q m = tagInput d' Q' m'
  · exact .inl (tagInput_inj e)
  · exact .inr ⟨e, by rw [← h3, ← h3', ht]⟩

/-- C132: a ciphertext commits to its key. If private keys `d` and `d'` both accept it, then they are the same modulo the order
(so they have the same public key) and give the same message, or a collision of SM3 is known. -/
theorem C132_key (d d' : ℕ) (c m m' : Bytes) (t : Int) (hc : c.length < 2 ^ 31) (h : decrypt ⟨d⟩ c t = .ok m)
    (h' : decrypt ⟨d'⟩ c t = .ok m') :
    d ≡ d' [MOD n] ∧ m = m' ∨ ∃ (Q : Pt) (x y : ℕ), coords Q = some (x, y) ∧ c.take 65 = 4 :: (fe x ++ fe y) ∧
      Collide (tagInput d Q m) (tagInput d' Q m') := by
  obtain ⟨Q, Q', x, y, x', y', h1, h1', h2, h2', h3⟩ := C132_tag d d' c c m m' t t hc hc h h' rfl
  have hQ : Q = Q' := by
    have u := unmarshal_coords h1
    rw [← h2, h2', unmarshal_coords h1', Option.some.injEq, Prod.mk.injEq] at u
    have e1 : x' = x := Int.ofNat_inj.1 u.1
    have e2 : y' = y := Int.ofNat_inj.1 u.2
    rw [e1, e2] at h1'
    exact coords_inj h1 h1'
  subst hQ
  rcases h3 with ⟨h3, h4⟩ | h3
  · exact .inl ⟨(smul_eq_iff (coords_ne_zero h1)).1 h3, h4⟩
  · exact .inr ⟨Q, x, y, h1, h2, h3⟩

/-- C132: what `Encrypt` makes for one public key is refused by the owner of every other key, or a collision of SM3 is known. -/
theorem C132_other_key (d d' : ℕ) (hne : ¬ d ≡ d' [MOD n]) (pub : PublicKey) (hpub : calculatePubKey ⟨d⟩ = .ok pub) (m c : Bytes)
    (t : Int) (tape : Tape) (hm : m.length < 2 ^ 31 - 97) (h : encrypt pub m t tape = .ok c) :
    decrypt ⟨d'⟩ c t = .err "invalid cipher text" ∨
    ∃ (Q : Pt) (x y : ℕ) (m' : Bytes), decrypt ⟨d'⟩ c t = .ok m' ∧ coords Q = some (x, y) ∧ c.take 65 = 4 :: (fe x ++ fe y) ∧
      Collide (tagInput d Q m) (tagInput d' Q m') := by
  obtain ⟨h1, h2⟩ := C42_round_trip d pub hpub m t tape c h
  have hc : c.length < 2 ^ 31 := by omega
  obtain ⟨Q, x, y, c2, c3, q1, q2, q3, q4, _⟩ := (C45_exact d c m t hc).1 h1
  have hl : (4 :: (fe x ++ fe y) : Bytes).length = 65 := by simp [length_fe]
  have hb : BeginsWithPoint c := by
    refine ⟨Q, x, y, q1, ?_⟩
    rcases q2 with ⟨_, rfl⟩ | ⟨_, rfl⟩ <;> rw [List.append_assoc, List.take_left' hl]
  have hm0 : 0 < m.length := List.length_pos_iff.2 q3
  have ht : t = 1 ∨ t = 2 := by rcases q2 with ⟨h, _⟩ | ⟨h, _⟩ <;> simp [h]
  rcases (C46_returns_partial d' c t hb (by omega) hc).1 ht with ⟨m', hm'⟩ | he
  · rcases C132_key d d' c m m' t hc h1 hm' with ⟨h3, _⟩ | ⟨Q, x, y, g1, g2, g3⟩
    · exact absurd h3 hne
    · exact .inr ⟨Q, x, y, m', hm', g1, g2, g3⟩
  · exact .inl he

/-- C132: with the same first point and the same tag a private key accepts one encrypted text only, or a collision of SM3 is
known. Together with C97 and `C45_changed_tag`: no two of the three parts leave a choice for the third. -/
theorem C132_rest (d : ℕ) (c c' m m' : Bytes) (t : Int) (hc : c.length < 2 ^ 31) (hc' : c'.length < 2 ^ 31)
    (h : decrypt ⟨d⟩ c t = .ok m) (h' : decrypt ⟨d⟩ c' t = .ok m') (h1 : c.take 65 = c'.take 65) (ht : tagOf t c = tagOf t c') :
    c = c' ∨ ∃ (Q : Pt) (x y : ℕ), coords Q = some (x, y) ∧ c.take 65 = 4 :: (fe x ++ fe y) ∧
      Collide (tagInput d Q m) (tagInput d Q m') := by
  obtain ⟨Q, Q', x, y, x', y', g1, g1', g2, g2', g3⟩ := C132_tag d d c c' m m' t t hc hc' h h' ht
  have hQ : Q = Q' := by
    have u := unmarshal_coords g1
    rw [← g2, h1, g2', unmarshal_coords g1', Option.some.injEq, Prod.mk.injEq] at u
    have e1 : x' = x := Int.ofNat_inj.1 u.1
    have e2 : y' = y := Int.ofNat_inj.1 u.2
    rw [e1, e2] at g1'
    exact coords_inj g1 g1'
  subst hQ
  rcases g3 with ⟨_, rfl⟩ | g3
  · exact .inl (C97_unique d c c' m t hc hc' h h' h1)
  · exact .inr ⟨Q, x, y, g1, g2, g3⟩

/-- The other direction of `C132_key`: private keys that are the same modulo the order accept the same ciphertexts. -/
theorem C132_same_key (d d' : ℕ) (h : d ≡ d' [MOD n]) (c : Bytes) (t : Int) : decrypt ⟨d⟩ c t = decrypt ⟨d'⟩ c t := by
  cases hu : unmarshal cv (c.take 65) with
  | none => rw [decrypt_bad_point hu, decrypt_bad_point hu]
  | some q =>
    obtain ⟨Q, x, y, hQ, _, htake⟩ := (unmarshal_iff _ _).1 hu
    have hsplit : c = 4 :: (fe x ++ fe y) ++ c.drop 65 := by rw [← htake, List.take_append_drop]
    rw [hsplit, decrypt_point hQ, decrypt_point hQ, Int.natAbs_natCast, Int.natAbs_natCast, (smul_eq_iff (coords_ne_zero hQ)).2 h]

/-- The example ciphertext is accepted by the key 2, and by 2 + n; it is refused by the key 3. -/
example : decrypt ⟨(2 : ℕ)⟩ (exC1 ++ exC2 ++ exC3) 1 = .ok [0x61] ∧ decrypt ⟨(3 : ℕ)⟩ (exC1 ++ exC2 ++ exC3) 1 = .err "invalid cipher text" ∧
    tagOf 1 (exC1 ++ exC2 ++ exC3) = exC3 ∧ tagOf 2 (exC1 ++ exC3 ++ exC2) = exC3 := by decide +kernel

example : decrypt ⟨(2 + n : ℕ)⟩ (exC1 ++ exC2 ++ exC3) 1 = .ok [0x61] := by
  rw [C132_same_key (2 + n) 2 (by simp [Nat.ModEq])]; decide +kernel

end Verif.Props
