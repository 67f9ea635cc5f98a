import Verif.Base.Basic
/-!
# Go strings as sequences of runes

Transcribed from Go 1.12 unicode/utf8 (`DecodeRune`, `Valid`) and the language's `for _, r := range s`. A Go string is
its bytes. A byte that starts no valid encoding gives the rune U+FFFD and is one byte wide.
-/
namespace Verif.Utf8
open Verif

/-- `utf8.RuneError`. -/
def runeError : Nat := 0xfffd

/-- `lo ≤ b ≤ hi`. -/
def between (lo b hi : Nat) : Bool := lo ≤ b && b ≤ hi

/-- The range of the second byte by the first (the tables `first` and `acceptRanges` of unicode/utf8), and the length
of the encoding; `none` for bytes that cannot begin one. -/
def lead (b : Nat) : Option (Nat × Nat × Nat) :=
  if between 0xc2 b 0xdf then some (2, 0x80, 0xbf)
  else if b = 0xe0 then some (3, 0xa0, 0xbf)
  else if b = 0xed then some (3, 0x80, 0x9f)
  else if between 0xe1 b 0xef then some (3, 0x80, 0xbf)
  else if b = 0xf0 then some (4, 0x90, 0xbf)
  else if between 0xf1 b 0xf3 then some (4, 0x80, 0xbf)
  else if b = 0xf4 then some (4, 0x80, 0x8f)
  else none

/-- `utf8.DecodeRune`: the rune and its width in bytes. -/
def decodeRune : Bytes → Nat × Nat
  | [] => (runeError, 0)
  | b0 :: rest =>
    if b0.toNat < 0x80 then (b0.toNat, 1)
    else
      match lead b0.toNat with
      | none => (runeError, 1)
      | some (size, lo, hi) =>
        match rest with
        | [] => (runeError, 1)
        | b1 :: rest =>
          if between lo b1.toNat hi = false then (runeError, 1)
          else if size = 2 then (b0.toNat % 32 * 64 + b1.toNat % 64, 2)
          else
            match rest with
            | [] => (runeError, 1)
            | b2 :: rest =>
              if between 0x80 b2.toNat 0xbf = false then (runeError, 1)
              else if size = 3 then (b0.toNat % 16 * 4096 + b1.toNat % 64 * 64 + b2.toNat % 64, 3)
              else
                match rest with
                | [] => (runeError, 1)
                | b3 :: _ =>
                  if between 0x80 b3.toNat 0xbf = false then (runeError, 1)
                  else (b0.toNat % 8 * 262144 + b1.toNat % 64 * 4096 + b2.toNat % 64 * 64 + b3.toNat % 64, 4)

/-- `for _, r := range s`: the runes and their widths. The fuel (one per byte) only serves termination. -/
def runesAux : Nat → Bytes → List (Nat × Nat)
  | _, [] => []
  | 0, _ => []
  | fuel + 1, b :: bs => decodeRune (b :: bs) :: runesAux fuel ((b :: bs).drop (decodeRune (b :: bs)).2)

/-- The runes of a string. -/
def runes (s : Bytes) : List Nat := (runesAux s.length s).map Prod.fst

/-- `utf8.Valid`, `utf8.ValidString`: no one-byte U+FFFD. -/
def valid (s : Bytes) : Bool := (runesAux s.length s).all fun r => !(r.1 == runeError && r.2 == 1)

/-- A byte below 0x80 is a rune of its own; any other byte begins a rune that is at least 0x80. -/
theorem decodeRune_cons (b : Byte) (bs : Bytes) :
    (b.toNat < 0x80 → decodeRune (b :: bs) = (b.toNat, 1)) ∧ (0x80 ≤ b.toNat → 0x80 ≤ (decodeRune (b :: bs)).1) := by
  constructor
  · intro h; simp [decodeRune, h]
  · intro h
    have hl : ∀ n : Nat, n < 256 → ∀ s lo hi, lead n = some (s, lo, hi) →
        (s = 2 → 2 ≤ n % 32) ∧ (s = 3 → (1 ≤ n % 16 ∨ (n = 0xe0 ∧ lo = 0xa0 ∧ hi = 0xbf))) ∧
        (s ≠ 2 → s ≠ 3 → (1 ≤ n % 8 ∨ (n = 0xf0 ∧ lo = 0x90 ∧ hi = 0xbf))) := by
      intro n hn s lo hi e
      unfold lead between at e
      simp only [Bool.and_eq_true, decide_eq_true_eq] at e
      repeat' (split at e)
      all_goals first | contradiction | (simp only [Option.some.injEq, Prod.mk.injEq] at e; obtain ⟨rfl, rfl, rfl⟩ := e; omega)
    unfold decodeRune
    dsimp only
    rw [if_neg (by omega)]
    split
    · simp [runeError]
    · rename_i s lo hi e
      obtain ⟨h2, h3, h4⟩ := hl _ b.isLt _ _ _ e
      split
      · simp [runeError]
      · rename_i b1 r1
        split
        · simp [runeError]
        · rename_i hb1
          have hb1 : lo ≤ b1.toNat ∧ b1.toNat ≤ hi := by simpa [between] using hb1
          split
          · rename_i hs
            have := h2 hs
            show 128 ≤ b.toNat % 32 * 64 + b1.toNat % 64
            omega
          · rename_i hs2
            split
            · simp [runeError]
            · rename_i b2 r2
              split
              · simp [runeError]
              · split
                · rename_i hs
                  show 128 ≤ b.toNat % 16 * 4096 + b1.toNat % 64 * 64 + b2.toNat % 64
                  rcases h3 hs with h | ⟨_, h, h'⟩ <;> omega
                · rename_i hs3
                  split
                  · simp [runeError]
                  · rename_i b3 r3
                    split
                    · simp [runeError]
                    · show 128 ≤ b.toNat % 8 * 262144 + b1.toNat % 64 * 4096 + b2.toNat % 64 * 64 + b3.toNat % 64
                      rcases h4 hs2 hs3 with h | ⟨_, h, h'⟩ <;> omega

/-- Looking at runes for a bound on small runes is looking at bytes. -/
theorem runes_all_iff (P : Nat → Prop) (hP : ∀ n, P n → n < 0x80) (s : Bytes) :
    (∀ r ∈ runes s, P r) ↔ ∀ b ∈ s, P b.toNat := by
  have key : ∀ (k : Nat) (s : Bytes), s.length ≤ k → ((∀ r ∈ (runesAux k s).map Prod.fst, P r) ↔ ∀ b ∈ s, P b.toNat) := by
    intro k
    induction k with
    | zero => intro s hs; have : s = [] := List.length_eq_zero_iff.1 (by omega); subst this; simp [runesAux]
    | succ k ih =>
      intro s hs
      match s with
      | [] => simp [runesAux]
      | b :: bs =>
        rw [runesAux]
        simp only [List.map_cons, List.forall_mem_cons]
        rcases Nat.lt_or_ge b.toNat 0x80 with h | h
        · rw [(decodeRune_cons b bs).1 h]
          simp only [List.drop_succ_cons, List.drop_zero]
          rw [ih bs (by simpa using hs)]
        · have := (decodeRune_cons b bs).2 h
          constructor
          · rintro ⟨h1, _⟩; exact absurd (hP _ h1) (by omega)
          · rintro ⟨h1, _⟩; exact absurd (hP _ h1) (by omega)
  exact key _ s (Nat.le_refl _)

/-- A string of bytes below 0x80 is valid UTF-8. -/
theorem valid_of_ascii {s : Bytes} (h : ∀ b ∈ s, b.toNat < 0x80) : valid s = true := by
  have key : ∀ (k : Nat) (s : Bytes), (∀ b ∈ s, b.toNat < 0x80) →
      (runesAux k s).all (fun r => !(r.1 == runeError && r.2 == 1)) = true := by
    intro k
    induction k with
    | zero => intro s _; cases s <;> rfl
    | succ k ih =>
      intro s hs
      match s with
      | [] => rfl
      | b :: bs =>
        have hb := hs b (by simp)
        rw [runesAux, (decodeRune_cons b bs).1 hb]
        simp only [List.drop_succ_cons, List.drop_zero, List.all_cons, ih bs (fun x hx => hs x (by simp [hx])), Bool.and_true]
        have : b.toNat ≠ runeError := by unfold runeError; omega
        simp [this]
  exact key _ s h

end Verif.Utf8
