import Verif.Props.Sm2Keys
import Verif.Props.Sm2SignCount
/-!
# SM2: what the random source decides (C89, C90)
-/
namespace Verif.Props
open EC Verif.Sm2

variable {α β : Type}

/-! ## Key generation -/

theorem xor42_modify (l : Bytes) : (l.modify 1 (· ^^^ 0x42)).modify 1 (· ^^^ 0x42) = l := by
  rw [List.modify_modify_eq]
  have : ((fun x : Byte => x ^^^ 0x42) ∘ fun x => x ^^^ 0x42) = id := by
    funext x
    show (x ^^^ 0x42) ^^^ 0x42 = x
    rw [BitVec.xor_assoc, BitVec.xor_self, BitVec.xor_zero]
  rw [this, List.modify_id]

/-- C89: key generation maps the reads that it accepts one-to-one to the scalars below the order, so a uniformly random
source gives a uniformly random scalar. -/
theorem C89_uniform (v : ℕ) (hv : v < n) :
    ∃! raw : Bytes, raw.length = 32 ∧ ∀ rest : Tape, ∃ pub, generateKey (some raw :: rest) = .ok (⟨v⟩, pub) := by
  have hn := n_lt
  have hlt : v < 256 ^ 32 := lt_of_lt_of_le (lt_trans hv hn) (by norm_num)
  refine ⟨(toBE 32 v).modify 1 (· ^^^ 0x42), ⟨by simp, fun rest => ?_⟩, ?_⟩
  · have h : beNat (((toBE 32 v).modify 1 (· ^^^ 0x42)).modify 1 (· ^^^ 0x42)) = v := by
      rw [xor42_modify, beNat_toBE_of_lt hlt]
    obtain ⟨pub, hp⟩ := C34_returns ((toBE 32 v).modify 1 (· ^^^ 0x42)) [] rest (by rw [h]; exact hv) (by simp)
    rw [h] at hp
    exact ⟨pub, hp⟩
  · rintro raw ⟨hl, hr⟩
    obtain ⟨pub, hp⟩ := hr []
    have hv' : beNat (raw.modify 1 (· ^^^ 0x42)) = v := by
      unfold Sm2.generateKey at hp
      rw [Res.bind_eq_ok] at hp
      obtain ⟨⟨pb, q⟩, h1, h2⟩ := hp
      unfold EC.generateKey at h1
      dsimp only at h1
      split at h1
      · cases h1
      · rw [baseMult_spec, Res.ok_bind, Res.ok.injEq, Prod.mk.injEq] at h1
        rw [Res.ok.injEq, Prod.mk.injEq, PrivateKey.mk.injEq] at h2
        rw [← h1.1] at h2
        exact_mod_cast h2.1
    rw [← hv', toBE_beNat' (by simp [hl]), xor42_modify]

/-- The read for the private key 1, with the second byte masked. -/
example : ∃ pub, generateKey [some (0 :: 0x42 :: List.replicate 29 0 ++ [1])] = .ok (⟨1⟩, pub) := by
  have h1 : (1 : ℕ) < n := by have := n_gt; omega
  have h2 : beNat ((0 :: 0x42 :: List.replicate 29 0 ++ [1] : Bytes).modify 1 (· ^^^ 0x42)) = 1 := by decide +kernel
  obtain ⟨pub, hp⟩ := C34_returns (0 :: 0x42 :: List.replicate 29 0 ++ [1]) [] [] (by rw [h2]; exact h1) (by simp)
  rw [h2] at hp
  exact ⟨pub, hp⟩

/-- C89 is violated at the ends of the range that the standard prescribes (GB/T 32918.1, 6.1: 1 to n-2): key generation
also returns the private key 0, whose public key is no point of the curve, and n-1, which never signs anything. -/
theorem C89_range_violated :
    (∃ raw : Bytes, raw.length = 32 ∧ generateKey [some raw] = .ok (⟨0⟩, ⟨0, 0⟩) ∧ ¬ ∃ Q : Pt, IsAff cv p (0, 0) Q) ∧
    ∃ (raw : Bytes) (priv : PrivateKey) (pub : PublicKey), raw.length = 32 ∧ generateKey [some raw] = .ok (priv, pub) ∧
      ∀ id M tape sig, sign priv id M tape ≠ .ok sig := by
  have hn := n_gt
  have hn' := n_lt
  constructor
  · obtain ⟨raw, ⟨hl, hr⟩, _⟩ := C89_uniform 0 (by omega)
    obtain ⟨pub, hp⟩ := hr []
    refine ⟨raw, hl, ?_, ?_⟩
    · have h := C34_public_is_dG _ _ _ hp
      rw [show (((0 : ℕ) : Int)) • G = 0 from zero_zsmul _, enc_zero, Prod.mk.injEq] at h
      cases pub
      dsimp only at h
      rw [hp, ← h.1, ← h.2]
      rfl
    · rintro ⟨Q, h, _⟩
      rw [← onCurve_iff] at h
      revert h
      decide +kernel
  · obtain ⟨raw, ⟨hl, hr⟩, _⟩ := C89_uniform (n - 1) (by omega)
    obtain ⟨pub, hp⟩ := hr []
    exact ⟨raw, _, pub, hl, hp, sign_last⟩

/-! ## Nonces -/

/-- The number of a loop's passes does not matter once it exceeds a bound that every pass lowers. -/
theorem forLoop_fuel {body : α → Res (α ⊕ β)} (μ : α → ℕ) (hb : ∀ s s', body s = .ok (.inl s') → μ s' < μ s) :
    ∀ (f g : ℕ) (s : α), μ s < f → μ s < g → forLoop body f s = forLoop body g s
  | 0, _, _, h, _ => absurd h (Nat.not_lt_zero _)
  | _, 0, _, _, h => absurd h (Nat.not_lt_zero _)
  | f + 1, g + 1, s, h1, h2 => by
    unfold forLoop
    cases hs : body s with
    | ok r =>
      cases r with
      | inl s' =>
        have := hb s s' hs
        exact forLoop_fuel μ hb f g s' (by omega) (by omega)
      | inr a => rfl
    | err m => rfl
    | panic => rfl
    | loop => rfl

/-- The standard's random number: the first read that is a number from 1 to n-1. -/
def firstNonce : Tape → Res (ℕ × Tape)
  | [] => .loop
  | none :: _ => .err "rand"
  | some b :: t => if 1 ≤ beNat b ∧ beNat b < n then .ok (beNat b, t) else firstNonce t

theorem randInt_length {t : Tape} {r : Int × Tape} (h : randInt cv.N t = .ok r) : r.2.length < t.length := by
  induction t with
  | nil => cases h
  | cons o t ih =>
    cases o with
    | none => cases h
    | some bs =>
      rw [randInt_N_cons] at h
      split at h
      · cases h; simp
      · have := ih h; simp; omega

/-- C90: the nonce is the first read that is a number from 1 to n-1, reads are used at most once. -/
theorem C90_nonce (tape : Tape) : nextK tape cv.N = (do let r ← firstNonce tape; .ok ((r.1 : Int), r.2)) := by
  have hb : ∀ s s' : Tape, (do let r ← randInt cv.N s; if r.1 ≥ 1 then .ok (.inr r) else .ok (.inl r.2) : Res (Tape ⊕ (Int × Tape))) =
      .ok (.inl s') → s'.length < s.length := by
    intro s s' h
    rw [Res.bind_eq_ok] at h
    obtain ⟨r, h1, h2⟩ := h
    have := randInt_length h1
    split at h2
    · cases h2
    · cases h2; exact this
  induction tape with
  | nil => rfl
  | cons o t ih =>
    cases o with
    | none => rfl
    | some bs =>
      unfold nextK at ih ⊢
      unfold firstNonce
      by_cases h1 : 1 ≤ beNat bs ∧ beNat bs < n
      · rw [if_pos h1, Res.ok_bind]
        unfold forLoop
        rw [randInt_N_cons, if_pos h1.2, Res.ok_bind, if_pos (by show (beNat bs : Int) ≥ 1; omega)]
        rfl
      · rw [if_neg h1, ← ih]
        by_cases h2 : beNat bs < n
        · conv_lhs => unfold forLoop
          rw [randInt_N_cons, if_pos h2, Res.ok_bind, if_neg (by show ¬ (beNat bs : Int) ≥ 1; omega), Res.ok_bind]
          rfl
        · have hs : forLoop (fun t => (do let r ← randInt cv.N t; if r.1 ≥ 1 then .ok (.inr r) else .ok (.inl r.2) : Res (Tape ⊕ (Int × Tape))))
              ((some bs :: t).length + 1) (some bs :: t) =
            forLoop (fun t => (do let r ← randInt cv.N t; if r.1 ≥ 1 then .ok (.inr r) else .ok (.inl r.2) : Res (Tape ⊕ (Int × Tape))))
              ((some bs :: t).length + 1) t := by
            unfold forLoop
            rw [randInt_N_cons, if_neg h2]
          rw [hs]
          exact forLoop_fuel List.length hb _ _ t (by simp) (by simp)

/-- C90: every nonce belongs to exactly one read of 32 bytes, so a uniformly random source gives a uniformly random
nonce. -/
theorem C90_uniform (k : ℕ) (h1 : 1 ≤ k) (h2 : k < n) :
    ∃! raw : Bytes, raw.length = 32 ∧ ∀ rest : Tape, nextK (some raw :: rest) cv.N = .ok ((k : Int), rest) := by
  have hlt : k < 256 ^ 32 := lt_of_lt_of_le (lt_trans h2 n_lt) (by norm_num)
  refine ⟨toBE 32 k, ⟨by simp, fun rest => ?_⟩, ?_⟩
  · rw [C90_nonce]
    unfold firstNonce
    rw [beNat_toBE_of_lt hlt, if_pos ⟨h1, h2⟩, Res.ok_bind]
  · rintro raw ⟨hl, hr⟩
    have := hr []
    rw [C90_nonce] at this
    unfold firstNonce at this
    split at this
    · rw [Res.ok_bind, Res.ok.injEq, Prod.mk.injEq] at this
      have h : beNat raw = k := by exact_mod_cast this.1
      rw [← h, toBE_beNat' hl]
    · cases this

/-- Zero, a number that is too large, then 5. -/
example : nextK [some [0], some (List.replicate 32 255), some [5], some [6]] cv.N = .ok (5, [some [6]]) := by
  have h2 : ¬ beNat (List.replicate 32 255 : Bytes) < n := by rw [n_val]; decide +kernel
  have h5 : beNat ([5] : Bytes) < n := by rw [n_val]; decide +kernel
  have h5' : beNat ([5] : Bytes) = 5 := rfl
  rw [C90_nonce, firstNonce, if_neg (by decide), firstNonce, if_neg (by tauto), firstNonce, if_pos ⟨by decide, h5⟩, Res.ok_bind, h5']
  rfl

end Verif.Props
