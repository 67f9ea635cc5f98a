import Verif.Cert.GoUrl
import Mathlib.Tactic.Linarith
import Mathlib.Data.List.Induction
/-!
# The texts of IP addresses

What `net.ParseIP` accepts, as a grammar.
-/
namespace Verif.Spec.IP
open Verif

/-- The value of a decimal digit. -/
def decDigit (c : Byte) : Option Nat := if 0x30 ≤ c.toNat ∧ c.toNat ≤ 0x39 then some (c.toNat - 0x30) else none

/-- The value of a hexadecimal digit. -/
def hexDigit (c : Byte) : Option Nat :=
  if 0x30 ≤ c.toNat ∧ c.toNat ≤ 0x39 then some (c.toNat - 0x30)
  else if 0x61 ≤ c.toNat ∧ c.toNat ≤ 0x66 then some (c.toNat - 0x61 + 10)
  else if 0x41 ≤ c.toNat ∧ c.toNat ≤ 0x46 then some (c.toNat - 0x41 + 10)
  else none

/-- A text of one or more digits to the base, and its value. -/
def Number (digit : Byte → Option Nat) (base : Nat) (s : Bytes) (n : Nat) : Prop :=
  s ≠ [] ∧ (∀ c ∈ s, (digit c).isSome = true) ∧ n = s.foldl (fun v c => v * base + (digit c).getD 0) 0

/-- Four decimal numbers up to 255 with dots between them. -/
def IPv4Text (s b : Bytes) : Prop :=
  ∃ s1 s2 s3 s4 n1 n2 n3 n4, Number decDigit 10 s1 n1 ∧ Number decDigit 10 s2 n2 ∧ Number decDigit 10 s3 n3 ∧ Number decDigit 10 s4 n4 ∧
    n1 ≤ 255 ∧ n2 ≤ 255 ∧ n3 ≤ 255 ∧ n4 ≤ 255 ∧ s = s1 ++ 0x2e :: (s2 ++ 0x2e :: (s3 ++ 0x2e :: s4)) ∧
    b = [BitVec.ofNat 8 n1, BitVec.ofNat 8 n2, BitVec.ofNat 8 n3, BitVec.ofNat 8 n4]

/-- A hexadecimal number up to ffff, and its two bytes. -/
def Group (s b : Bytes) : Prop := ∃ n, Number hexDigit 16 s n ∧ n ≤ 0xffff ∧ b = [BitVec.ofNat 8 (n / 256), BitVec.ofNat 8 (n % 256)]

/-- One or more groups with colons between them. -/
inductive Groups : Bytes → Bytes → Prop
  | one {s b : Bytes} : Group s b → Groups s b
  | cons {s b t c : Bytes} : Group s b → Groups t c → Groups (s ++ 0x3a :: t) (b ++ c)

/-- Groups with colons between them, of which the last two may be written as an IPv4 address. -/
inductive Tail : Bytes → Bytes → Prop
  | one {s b : Bytes} : Group s b → Tail s b
  | v4 {s b : Bytes} : IPv4Text s b → Tail s b
  | cons {s b t c : Bytes} : Group s b → Tail t c → Tail (s ++ 0x3a :: t) (b ++ c)

/-- Eight groups, or less than eight with `::` once in the place of the missing ones. -/
def IPv6Text (s b : Bytes) : Prop :=
  (Tail s b ∧ b.length = 16) ∨
  ∃ l r bl br, s = l ++ 0x3a :: 0x3a :: r ∧ (l = [] ∧ bl = [] ∨ Groups l bl) ∧ (r = [] ∧ br = [] ∨ Tail r br) ∧
    bl.length + br.length < 16 ∧ b = bl ++ List.replicate (16 - (bl.length + br.length)) 0 ++ br

end Verif.Spec.IP

namespace Verif.GoUrl
open Verif Verif.Spec.IP

/-! ## Numbers -/

theorem isDigit_eq : ∀ c : Byte, isDigit c = (decDigit c).isSome := by decide +kernel
theorem decDigit_eq : ∀ c : Byte, isDigit c = true → (decDigit c).getD 0 = c.toNat - 48 := by decide +kernel
theorem unhex_eq : ∀ c : Byte, (unhex c).map BitVec.toNat = Spec.IP.hexDigit c := by decide +kernel

/-- The value of more digits after the value `v`. -/
def valueFrom (digit : Byte → Option Nat) (base v : Nat) (s : Bytes) : Nat := s.foldl (fun v c => v * base + (digit c).getD 0) v

theorem le_valueFrom {digit : Byte → Option Nat} {base : Nat} (hb : 1 ≤ base) : ∀ (s : Bytes) (v : Nat), v ≤ valueFrom digit base v s := by
  intro s
  induction s with
  | nil => intro v; exact Nat.le_refl _
  | cons c s ih =>
    intro v
    refine Nat.le_trans ?_ (ih (v * base + (digit c).getD 0))
    exact Nat.le_trans (Nat.le_mul_of_pos_right v hb) (Nat.le_add_right _ _)

/-- The text does not start with a digit. -/
def NoDigit (digit : Byte → Option Nat) (s : Bytes) : Prop := ∀ c t, s = c :: t → digit c = none

theorem dtoiLoop_iff : ∀ (s : Bytes) (v n : Nat) (r : Bytes), v < 0xFFFFFF → (dtoiLoop v s = some (n, r) ↔
    ∃ h, s = h ++ r ∧ (∀ c ∈ h, (decDigit c).isSome = true) ∧ NoDigit decDigit r ∧ n = valueFrom decDigit 10 v h ∧ n < 0xFFFFFF) := by
  intro s
  induction s with
  | nil =>
    intro v n r hv
    simp only [dtoiLoop, Option.some.injEq, Prod.mk.injEq]
    constructor
    · rintro ⟨rfl, rfl⟩; exact ⟨[], rfl, by simp, by intro c t h; simp at h, rfl, hv⟩
    · rintro ⟨h, h1, _, _, h2, _⟩
      obtain ⟨rfl, rfl⟩ := List.append_eq_nil_iff.1 h1.symm
      exact ⟨h2.symm, rfl⟩
  | cons c s ih =>
    intro v n r hv
    unfold dtoiLoop
    by_cases hd : isDigit c = true
    · rw [if_pos hd]
      have e : c.toNat - 48 = (decDigit c).getD 0 := (decDigit_eq c hd).symm
      rw [e]
      have hd' : (decDigit c).isSome = true := by rw [← isDigit_eq]; exact hd
      constructor
      · intro h
        split at h
        · simp at h
        · rename_i hb
          obtain ⟨p, h1, h2, h3, h4, h5⟩ := (ih _ n r (by omega)).1 h
          exact ⟨c :: p, by rw [h1]; rfl, by simpa [hd'] using h2, h3, h4, h5⟩
      · rintro ⟨p, h1, h2, h3, h4, h5⟩
        cases p with
        | nil =>
          rw [List.nil_append] at h1
          have := h3 c s h1.symm
          rw [this] at hd'; simp at hd'
        | cons x p =>
          rw [List.cons_append, List.cons.injEq] at h1
          obtain ⟨rfl, h1⟩ := h1
          have h6 : v * 10 + (decDigit c).getD 0 ≤ n := by rw [h4]; exact le_valueFrom (digit := decDigit) (base := 10) (by omega) p _
          rw [if_neg (by omega)]
          exact (ih _ n r (by omega)).2 ⟨p, h1, fun y hy => h2 y (by simp [hy]), h3, h4, h5⟩
    · rw [if_neg hd]
      have hd' : decDigit c = none := by
        rw [isDigit_eq] at hd
        simpa using hd
      constructor
      · intro h
        simp only [Option.some.injEq, Prod.mk.injEq] at h
        obtain ⟨rfl, rfl⟩ := h
        exact ⟨[], rfl, by simp, by intro x t h; simp only [List.cons.injEq] at h; rw [← h.1]; exact hd', rfl, hv⟩
      · rintro ⟨p, h1, h2, h3, h4, h5⟩
        cases p with
        | nil => rw [h1, h4]; rfl
        | cons x p =>
          rw [List.cons_append, List.cons.injEq] at h1
          have := h2 x (by simp)
          rw [← h1.1, hd'] at this
          simp at this

theorem dtoi_iff (s : Bytes) (n : Nat) (r : Bytes) : dtoi s = some (n, r) ↔
    ∃ h, s = h ++ r ∧ Number decDigit 10 h n ∧ NoDigit decDigit r ∧ n < 0xFFFFFF := by
  unfold dtoi
  cases s with
  | nil =>
    dsimp only
    constructor
    · intro h; simp at h
    · rintro ⟨h, h1, ⟨h2, _⟩, _⟩
      exact absurd (List.append_eq_nil_iff.1 h1.symm).1 h2
  | cons c s =>
    dsimp only
    by_cases hd : isDigit c = true
    · rw [if_pos hd, dtoiLoop_iff _ _ _ _ (by omega)]
      constructor
      · rintro ⟨p, h1, h2, h3, h4, h5⟩
        refine ⟨p, h1, ⟨?_, h2, h4⟩, h3, h5⟩
        rintro rfl
        have := h3 c s h1.symm
        rw [isDigit_eq, this] at hd
        simp at hd
      · rintro ⟨p, h1, ⟨_, h2, h4⟩, h3, h5⟩
        exact ⟨p, h1, h2, h3, h4, h5⟩
    · rw [if_neg hd]
      constructor
      · intro h; simp at h
      · rintro ⟨p, h1, ⟨h2, h3, _⟩, _⟩
        cases p with
        | nil => exact absurd rfl h2
        | cons x p =>
          rw [List.cons_append, List.cons.injEq] at h1
          have := h3 x (by simp)
          rw [← h1.1, ← isDigit_eq] at this
          exact absurd this hd

theorem xtoiLoop_iff : ∀ (s : Bytes) (v n : Nat) (r : Bytes), v < 0xFFFFFF → (xtoiLoop v s = some (n, r) ↔
    ∃ h, s = h ++ r ∧ (∀ c ∈ h, (Spec.IP.hexDigit c).isSome = true) ∧ NoDigit Spec.IP.hexDigit r ∧ n = valueFrom Spec.IP.hexDigit 16 v h ∧ n < 0xFFFFFF) := by
  intro s
  induction s with
  | nil =>
    intro v n r hv
    simp only [xtoiLoop, Option.some.injEq, Prod.mk.injEq]
    constructor
    · rintro ⟨rfl, rfl⟩; exact ⟨[], rfl, by simp, by intro c t h; simp at h, rfl, hv⟩
    · rintro ⟨h, h1, _, _, h2, _⟩
      obtain ⟨rfl, rfl⟩ := List.append_eq_nil_iff.1 h1.symm
      exact ⟨h2.symm, rfl⟩
  | cons c s ih =>
    intro v n r hv
    unfold xtoiLoop
    have hu := unhex_eq c
    cases hd : unhex c with
    | some x =>
      rw [hd, Option.map_some] at hu
      have e : x.toNat = (Spec.IP.hexDigit c).getD 0 := by rw [← hu]; rfl
      have hd' : (Spec.IP.hexDigit c).isSome = true := by rw [← hu]; rfl
      dsimp only
      rw [e]
      constructor
      · intro h
        split at h
        · simp at h
        · rename_i hb
          obtain ⟨p, h1, h2, h3, h4, h5⟩ := (ih _ n r (by omega)).1 h
          exact ⟨c :: p, by rw [h1]; rfl, by simpa [hd'] using h2, h3, h4, h5⟩
      · rintro ⟨p, h1, h2, h3, h4, h5⟩
        cases p with
        | nil =>
          rw [List.nil_append] at h1
          have := h3 c s h1.symm
          rw [this] at hd'; simp at hd'
        | cons y p =>
          rw [List.cons_append, List.cons.injEq] at h1
          obtain ⟨rfl, h1⟩ := h1
          have h6 : v * 16 + (Spec.IP.hexDigit c).getD 0 ≤ n := by
            rw [h4]; exact le_valueFrom (digit := Spec.IP.hexDigit) (base := 16) (by omega) p _
          rw [if_neg (by omega)]
          exact (ih _ n r (by omega)).2 ⟨p, h1, fun y hy => h2 y (by simp [hy]), h3, h4, h5⟩
    | none =>
      rw [hd, Option.map_none] at hu
      dsimp only
      constructor
      · intro h
        simp only [Option.some.injEq, Prod.mk.injEq] at h
        obtain ⟨rfl, rfl⟩ := h
        exact ⟨[], rfl, by simp, by intro x t h; simp only [List.cons.injEq] at h; rw [← h.1]; exact hu.symm, rfl, hv⟩
      · rintro ⟨p, h1, h2, h3, h4, h5⟩
        cases p with
        | nil => rw [h1, h4]; rfl
        | cons x p =>
          rw [List.cons_append, List.cons.injEq] at h1
          have := h2 x (by simp)
          rw [← h1.1, ← hu] at this
          simp at this

theorem unhex_isSome (c : Byte) : (unhex c).isSome = (Spec.IP.hexDigit c).isSome := by rw [← unhex_eq]; simp

theorem xtoi_iff (s : Bytes) (n : Nat) (r : Bytes) : xtoi s = some (n, r) ↔
    ∃ h, s = h ++ r ∧ Number Spec.IP.hexDigit 16 h n ∧ NoDigit Spec.IP.hexDigit r ∧ n < 0xFFFFFF := by
  unfold xtoi
  cases s with
  | nil =>
    dsimp only
    constructor
    · intro h; simp at h
    · rintro ⟨h, h1, ⟨h2, _⟩, _⟩
      exact absurd (List.append_eq_nil_iff.1 h1.symm).1 h2
  | cons c s =>
    dsimp only
    by_cases hd : (unhex c).isSome = true
    · rw [if_pos hd, xtoiLoop_iff _ _ _ _ (by omega)]
      constructor
      · rintro ⟨p, h1, h2, h3, h4, h5⟩
        refine ⟨p, h1, ⟨?_, h2, h4⟩, h3, h5⟩
        rintro rfl
        have := h3 c s h1.symm
        rw [unhex_isSome, this] at hd
        simp at hd
      · rintro ⟨p, h1, ⟨_, h2, h4⟩, h3, h5⟩
        exact ⟨p, h1, h2, h3, h4, h5⟩
    · rw [if_neg hd]
      constructor
      · intro h; simp at h
      · rintro ⟨p, h1, ⟨h2, h3, _⟩, _⟩
        cases p with
        | nil => exact absurd rfl h2
        | cons x p =>
          rw [List.cons_append, List.cons.injEq] at h1
          have := h3 x (by simp)
          rw [← h1.1, ← unhex_isSome] at this
          exact absurd this hd

/-- The first run of digits is determined. -/
theorem run_unique {digit : Byte → Option Nat} : ∀ {h h' r r' : Bytes}, h ++ r = h' ++ r' → (∀ c ∈ h, (digit c).isSome = true) →
    (∀ c ∈ h', (digit c).isSome = true) → NoDigit digit r → NoDigit digit r' → h = h' ∧ r = r' := by
  intro h
  induction h with
  | nil =>
    intro h' r r' e _ h2 h3 _
    cases h' with
    | nil => exact ⟨rfl, e⟩
    | cons c h' =>
      have := h3 c (h' ++ r') e
      have h4 := h2 c (by simp)
      rw [this] at h4; simp at h4
  | cons c h ih =>
    intro h' r r' e h1 h2 h3 h4
    cases h' with
    | nil =>
      have := h4 c (h ++ r) e.symm
      have h5 := h1 c (by simp)
      rw [this] at h5; simp at h5
    | cons c' h' =>
      rw [List.cons_append, List.cons_append, List.cons.injEq] at e
      obtain ⟨rfl, e⟩ := e
      obtain ⟨rfl, rfl⟩ := ih e (fun x hx => h1 x (by simp [hx])) (fun x hx => h2 x (by simp [hx])) h3 h4
      exact ⟨rfl, rfl⟩

theorem noDigit_nil {digit : Byte → Option Nat} : NoDigit digit [] := by intro c t h; simp at h
theorem noDigit_cons {digit : Byte → Option Nat} {c : Byte} {s : Bytes} (h : digit c = none) : NoDigit digit (c :: s) := by
  intro x t e
  rw [List.cons.injEq] at e
  rw [← e.1]; exact h

/-! ## IPv4 -/

theorem parseIPv4Loop_zero (i : Nat) (s b : Bytes) : parseIPv4Loop 0 i s = some b ↔ s = [] ∧ b = [] := by
  unfold parseIPv4Loop
  cases s with
  | nil => simp [eq_comm]
  | cons c s => simp

theorem parseIPv4Loop_succ (k i : Nat) (hi : 0 < i) (s b : Bytes) : parseIPv4Loop (k + 1) i s = some b ↔
    ∃ s1 n r c, s = 0x2e :: (s1 ++ r) ∧ Number decDigit 10 s1 n ∧ n ≤ 255 ∧ NoDigit decDigit r ∧ parseIPv4Loop k (i + 1) r = some c ∧
      b = BitVec.ofNat 8 n :: c := by
  conv_lhs => unfold parseIPv4Loop
  rw [if_pos hi]
  constructor
  · intro h
    split at h
    · simp at h
    · split at h
      · simp at h
      · rename_i h1 h2
        simp only [Option.bind_eq_bind, Option.bind_eq_some_iff] at h
        obtain ⟨⟨n, r⟩, h3, h⟩ := h
        obtain ⟨p, h4, h5, h6, _⟩ := (dtoi_iff _ _ _).1 h3
        dsimp only at h
        split at h
        · simp at h
        · rename_i h7
          rw [Option.map_eq_some_iff] at h
          obtain ⟨c, h8, rfl⟩ := h
          refine ⟨p, n, r, c, ?_, h5, by omega, h6, h8, rfl⟩
          cases s with
          | nil => simp at h1
          | cons x s =>
            rw [not_and, not_not] at h2
            have h9 := h2 hi
            simp only [List.head?_cons, Option.some.injEq] at h9
            rw [h9, ← h4]; rfl
  · rintro ⟨s1, n, r, c, rfl, h1, h2, h3, h4, rfl⟩
    rw [if_neg (by simp), if_neg (by rw [not_and, not_not]; exact fun _ => rfl)]
    have : dtoi (s1 ++ r) = some (n, r) := (dtoi_iff _ _ _).2 ⟨s1, rfl, h1, h3, by omega⟩
    simp only [List.tail_cons, this, Option.bind_eq_bind, Option.bind_some]
    rw [if_neg (by omega), h4]
    rfl

theorem parseIPv4Loop_first (k : Nat) (s b : Bytes) : parseIPv4Loop (k + 1) 0 s = some b ↔
    ∃ s1 n r c, s = s1 ++ r ∧ Number decDigit 10 s1 n ∧ n ≤ 255 ∧ NoDigit decDigit r ∧ parseIPv4Loop k 1 r = some c ∧
      b = BitVec.ofNat 8 n :: c := by
  conv_lhs => unfold parseIPv4Loop
  rw [if_neg (show ¬ 0 > 0 by omega)]
  constructor
  · intro h
    split at h
    · simp at h
    · split at h
      · simp at h
      · simp only [Option.bind_eq_bind, Option.bind_eq_some_iff] at h
        obtain ⟨⟨n, r⟩, h3, h⟩ := h
        obtain ⟨p, h4, h5, h6, _⟩ := (dtoi_iff _ _ _).1 h3
        dsimp only at h
        split at h
        · simp at h
        · rename_i h7
          rw [Option.map_eq_some_iff] at h
          obtain ⟨c, h8, rfl⟩ := h
          exact ⟨p, n, r, c, h4, h5, by omega, h6, h8, rfl⟩
  · rintro ⟨s1, n, r, c, rfl, h1, h2, h3, h4, rfl⟩
    have h5 : (s1 ++ r).length ≠ 0 := by
      obtain ⟨x, t, rfl⟩ := List.exists_cons_of_ne_nil h1.1
      simp
    rw [if_neg h5, if_neg (fun h => absurd h.1 (by omega))]
    have : dtoi (s1 ++ r) = some (n, r) := (dtoi_iff _ _ _).2 ⟨s1, rfl, h1, h3, by omega⟩
    simp only [this, Option.bind_eq_bind, Option.bind_some]
    rw [if_neg (by omega), h4]
    rfl

theorem parseIPv4_iff (s b : Bytes) : parseIPv4 s = some b ↔ IPv4Text s b := by
  unfold parseIPv4
  have hd : decDigit 0x2e = none := by decide
  constructor
  · intro h
    obtain ⟨s1, n1, r1, c1, rfl, a1, b1, _, g1, rfl⟩ := (parseIPv4Loop_first _ _ _).1 h
    obtain ⟨s2, n2, r2, c2, rfl, a2, b2, _, g2, rfl⟩ := (parseIPv4Loop_succ _ _ (by omega) _ _).1 g1
    obtain ⟨s3, n3, r3, c3, rfl, a3, b3, _, g3, rfl⟩ := (parseIPv4Loop_succ _ _ (by omega) _ _).1 g2
    obtain ⟨s4, n4, r4, c4, rfl, a4, b4, _, g4, rfl⟩ := (parseIPv4Loop_succ _ _ (by omega) _ _).1 g3
    obtain ⟨rfl, rfl⟩ := (parseIPv4Loop_zero _ _ _).1 g4
    exact ⟨s1, s2, s3, s4, n1, n2, n3, n4, a1, a2, a3, a4, b1, b2, b3, b4, by rw [List.append_nil], rfl⟩
  · rintro ⟨s1, s2, s3, s4, n1, n2, n3, n4, a1, a2, a3, a4, b1, b2, b3, b4, rfl, rfl⟩
    refine (parseIPv4Loop_first _ _ _).2 ⟨s1, n1, _, _, rfl, a1, b1, noDigit_cons hd, ?_, rfl⟩
    refine (parseIPv4Loop_succ _ _ (by omega) _ _).2 ⟨s2, n2, _, _, rfl, a2, b2, noDigit_cons hd, ?_, rfl⟩
    refine (parseIPv4Loop_succ _ _ (by omega) _ _).2 ⟨s3, n3, _, _, rfl, a3, b3, noDigit_cons hd, ?_, rfl⟩
    refine (parseIPv4Loop_succ _ _ (by omega) _ _).2 ⟨s4, n4, [], [], by rw [List.append_nil], a4, b4, noDigit_nil, ?_, rfl⟩
    exact (parseIPv4Loop_zero _ _ _).2 ⟨rfl, rfl⟩

theorem ipv4_length {s b : Bytes} (h : IPv4Text s b) : b.length = 4 := by
  obtain ⟨_, _, _, _, _, _, _, _, _, _, _, _, _, _, _, _, _, rfl⟩ := h
  rfl

/-! ## IPv6 -/

/-- A decimal number of `k` digits, read to the base 16. -/
theorem hex_of_dec : ∀ (s : Bytes), (∀ c ∈ s, (decDigit c).isSome = true) → ∀ k, valueFrom decDigit 10 0 s < 10 ^ k →
    valueFrom Spec.IP.hexDigit 16 0 s < 16 ^ k := by
  have hd : ∀ c : Byte, (decDigit c).isSome = true → (Spec.IP.hexDigit c).getD 0 = (decDigit c).getD 0 ∧ (decDigit c).getD 0 ≤ 9 := by decide +kernel
  intro s
  induction s using List.reverseRecOn with
  | nil => intro _ k _; exact Nat.pow_pos (by omega)
  | append_singleton s c ih =>
    intro h k hk
    have hc := hd c (h c (by simp))
    have hs := ih fun x hx => h x (by simp [hx])
    have e1 : valueFrom decDigit 10 0 (s ++ [c]) = valueFrom decDigit 10 0 s * 10 + (decDigit c).getD 0 := by simp [valueFrom]
    have e2 : valueFrom Spec.IP.hexDigit 16 0 (s ++ [c]) = valueFrom Spec.IP.hexDigit 16 0 s * 16 + (decDigit c).getD 0 := by
      simp [valueFrom, hc.1]
    rw [e1] at hk
    rw [e2]
    cases k with
    | zero =>
      rw [Nat.pow_zero] at hk ⊢
      have := hs 0 (by rw [Nat.pow_zero]; omega)
      rw [Nat.pow_zero] at this
      omega
    | succ k =>
      rw [Nat.pow_succ] at hk ⊢
      have := hs k (by omega)
      omega

theorem dec_isHex : ∀ c : Byte, (decDigit c).isSome = true → (Spec.IP.hexDigit c).isSome = true := by decide +kernel

theorem number_head {digit : Byte → Option Nat} {base n : Nat} {s : Bytes} (h : Number digit base s n) :
    ∃ c t, s = c :: t ∧ (digit c).isSome = true := by
  obtain ⟨c, t, rfl⟩ := List.exists_cons_of_ne_nil h.1
  exact ⟨c, t, rfl, h.2.1 c (by simp)⟩

/-- Whatever comes after the first run of digits is determined. -/
theorem xtoi_ipv4 {s b : Bytes} (h : IPv4Text s b) : ∃ n r, xtoi s = some (n, 0x2e :: r) ∧ n ≤ 0xFFFF := by
  obtain ⟨s1, s2, s3, s4, n1, n2, n3, n4, a1, a2, a3, a4, b1, b2, b3, b4, rfl, rfl⟩ := h
  have h1 : valueFrom Spec.IP.hexDigit 16 0 s1 < 16 ^ 3 := by
    apply hex_of_dec s1 a1.2.1
    have : n1 = valueFrom decDigit 10 0 s1 := a1.2.2
    omega
  refine ⟨valueFrom Spec.IP.hexDigit 16 0 s1, _, (xtoi_iff _ _ _).2 ⟨s1, rfl, ⟨a1.1, fun c hc => dec_isHex c (a1.2.1 c hc), rfl⟩,
    noDigit_cons (by decide), by omega⟩, by omega⟩

theorem xtoi_group {s b : Bytes} (h : Group s b) (r : Bytes) (hr : NoDigit Spec.IP.hexDigit r) :
    ∃ n, xtoi (s ++ r) = some (n, r) ∧ n ≤ 0xFFFF ∧ b = [BitVec.ofNat 8 (n / 256), BitVec.ofNat 8 n] := by
  obtain ⟨n, h1, h2, rfl⟩ := h
  refine ⟨n, (xtoi_iff _ _ _).2 ⟨s, rfl, h1, hr, by omega⟩, h2, ?_⟩
  have : BitVec.ofNat 8 (n % 256) = BitVec.ofNat 8 n := by
    apply BitVec.eq_of_toNat_eq
    simp
  rw [this]

theorem group_of_xtoi {s r : Bytes} {n : Nat} (h : xtoi s = some (n, r)) (hn : n ≤ 0xFFFF) :
    ∃ p, s = p ++ r ∧ Group p [BitVec.ofNat 8 (n / 256), BitVec.ofNat 8 n] ∧ NoDigit Spec.IP.hexDigit r := by
  obtain ⟨p, h1, h2, h3, _⟩ := (xtoi_iff _ _ _).1 h
  refine ⟨p, h1, ⟨n, h2, hn, ?_⟩, h3⟩
  have : BitVec.ofNat 8 (n % 256) = BitVec.ofNat 8 n := by
    apply BitVec.eq_of_toNat_eq
    simp
  rw [this]

theorem group_head {s b : Bytes} (h : Group s b) : ∃ c t, s = c :: t ∧ (Spec.IP.hexDigit c).isSome = true := by
  obtain ⟨n, h1, _⟩ := h
  exact number_head h1

theorem group_length {s b : Bytes} (h : Group s b) : b.length = 2 := by
  obtain ⟨n, _, _, rfl⟩ := h
  rfl

theorem tail_head {s b : Bytes} (h : Tail s b) : ∃ c t, s = c :: t ∧ (Spec.IP.hexDigit c).isSome = true := by
  cases h with
  | one h => exact group_head h
  | v4 h =>
    obtain ⟨s1, s2, s3, s4, n1, n2, n3, n4, a1, a2, a3, a4, b1, b2, b3, b4, rfl, rfl⟩ := h
    obtain ⟨c, t, rfl, h⟩ := number_head a1
    exact ⟨c, _, rfl, dec_isHex c h⟩
  | cons h _ =>
    obtain ⟨c, t, rfl, hc⟩ := group_head h
    exact ⟨c, _, rfl, hc⟩

theorem tail_ne_nil {s b : Bytes} (h : Tail s b) : s ≠ [] ∧ 2 ≤ b.length := by
  refine ⟨?_, ?_⟩
  · obtain ⟨c, t, rfl, _⟩ := tail_head h; simp
  · cases h with
    | one h => rw [group_length h]
    | v4 h => rw [ipv4_length h]; omega
    | cons h _ => rw [List.length_append, group_length h]; omega

theorem groups_head {s b : Bytes} (h : Groups s b) : ∃ c t, s = c :: t ∧ (Spec.IP.hexDigit c).isSome = true := by
  cases h with
  | one h => exact group_head h
  | cons h _ =>
    obtain ⟨c, t, rfl, hc⟩ := group_head h
    exact ⟨c, _, rfl, hc⟩

theorem groups_length {s b : Bytes} (h : Groups s b) : 2 ≤ b.length := by
  cases h with
  | one h => rw [group_length h]
  | cons h _ => rw [List.length_append, group_length h]; omega

theorem colon_noHex {s : Bytes} : NoDigit Spec.IP.hexDigit (0x3a :: s) := noDigit_cons (by decide)

/-- The cases of a tail by what comes after its first number. -/
theorem tail_iff {s r : Bytes} {n : Nat} (h : xtoi s = some (n, r)) (hn : n ≤ 0xFFFF) (b : Bytes) : Tail s b ↔
    (r = [] ∧ b = [BitVec.ofNat 8 (n / 256), BitVec.ofNat 8 n]) ∨ (r.head? = some 0x2e ∧ IPv4Text s b) ∨
    ∃ t c, r = 0x3a :: t ∧ Tail t c ∧ b = [BitVec.ofNat 8 (n / 256), BitVec.ofNat 8 n] ++ c := by
  constructor
  · intro ht
    cases ht with
    | one hg =>
      obtain ⟨m, h1, h2, h3⟩ := xtoi_group hg [] noDigit_nil
      rw [List.append_nil, h, Option.some.injEq, Prod.mk.injEq] at h1
      exact .inl ⟨h1.2, by rw [h3, h1.1]⟩
    | v4 hv =>
      obtain ⟨m, r', h1, _⟩ := xtoi_ipv4 hv
      rw [h, Option.some.injEq, Prod.mk.injEq] at h1
      exact .inr (.inl ⟨by rw [h1.2]; rfl, hv⟩)
    | cons hg ht =>
      obtain ⟨m, h1, h2, h3⟩ := xtoi_group hg _ colon_noHex
      rw [h, Option.some.injEq, Prod.mk.injEq] at h1
      exact .inr (.inr ⟨_, _, h1.2, ht, by rw [h3, h1.1]⟩)
  · obtain ⟨p, rfl, hg, _⟩ := group_of_xtoi h hn
    rintro (⟨rfl, rfl⟩ | ⟨_, hv⟩ | ⟨t, c, rfl, ht, rfl⟩)
    · rw [List.append_nil]; exact .one hg
    · exact .v4 hv
    · exact .cons hg ht

/-- Groups, then two colons, then the rest. -/
def Elided (s : Bytes) (k : Nat) (b : Bytes) : Prop :=
  ∃ l r bl br, s = l ++ 0x3a :: 0x3a :: r ∧ Groups l bl ∧ (r = [] ∧ br = [] ∨ Tail r br) ∧
    k + bl.length + br.length < 16 ∧ b = bl ++ List.replicate (16 - (k + bl.length + br.length)) 0 ++ br

theorem elided_iff {s r : Bytes} {n : Nat} (h : xtoi s = some (n, r)) (hn : n ≤ 0xFFFF) (k : Nat) (b : Bytes) : Elided s k b ↔
    (∃ t br, r = 0x3a :: 0x3a :: t ∧ (t = [] ∧ br = [] ∨ Tail t br) ∧ k + 2 + br.length < 16 ∧
      b = [BitVec.ofNat 8 (n / 256), BitVec.ofNat 8 n] ++ List.replicate (16 - (k + 2 + br.length)) 0 ++ br) ∨
    ∃ t c, r = 0x3a :: t ∧ Elided t (k + 2) c ∧ b = [BitVec.ofNat 8 (n / 256), BitVec.ofNat 8 n] ++ c := by
  constructor
  · rintro ⟨l, r', bl, br, hs, hl, hr, hk, rfl⟩
    cases hl with
    | one hg =>
      obtain ⟨m, h1, h2, h3⟩ := xtoi_group hg (0x3a :: 0x3a :: r') colon_noHex
      rw [← hs, h, Option.some.injEq, Prod.mk.injEq] at h1
      have := group_length hg
      rw [this] at hk ⊢
      exact .inl ⟨r', br, h1.2, hr, hk, by rw [h3, h1.1]⟩
    | @cons s1 b1 t1 c1 hg hgs =>
      rw [List.append_assoc, List.cons_append] at hs
      obtain ⟨m, h1, h2, h3⟩ := xtoi_group hg (0x3a :: (t1 ++ 0x3a :: 0x3a :: r')) colon_noHex
      rw [← hs, h, Option.some.injEq, Prod.mk.injEq] at h1
      have hb := group_length hg
      rw [List.length_append, hb] at hk
      refine .inr ⟨_, c1 ++ List.replicate (16 - (k + 2 + c1.length + br.length)) 0 ++ br, h1.2, ⟨t1, r', c1, br, rfl, hgs, hr, by omega, rfl⟩, ?_⟩
      rw [List.length_append, hb, ← Nat.add_assoc, h3, h1.1]
      simp only [List.append_assoc]
  · obtain ⟨p, rfl, hg, _⟩ := group_of_xtoi h hn
    rintro (⟨t, br, rfl, hr, hk, rfl⟩ | ⟨t, c, rfl, ⟨l, r', bl, br, rfl, hl, hr, hk, rfl⟩, rfl⟩)
    · exact ⟨p, t, _, br, rfl, .one hg, hr, hk, rfl⟩
    · refine ⟨p ++ 0x3a :: l, r', _, br, by simp, .cons hg hl, hr, ?_, ?_⟩
      · rw [List.length_append]
        simp only [List.length_cons, List.length_nil]
        omega
      · rw [List.length_append]
        simp only [List.length_cons, List.length_nil]
        rw [show k + (0 + 1 + 1 + bl.length) + br.length = k + 2 + bl.length + br.length by omega]
        simp only [List.append_assoc]

theorem xtoi_of_tail {s b : Bytes} (h : Tail s b) : ∃ n r, xtoi s = some (n, r) ∧ n ≤ 0xFFFF := by
  cases h with
  | one hg =>
    obtain ⟨m, h1, h2, _⟩ := xtoi_group hg [] noDigit_nil
    rw [List.append_nil] at h1
    exact ⟨m, _, h1, h2⟩
  | v4 hv =>
    obtain ⟨m, r, h1, h2⟩ := xtoi_ipv4 hv
    exact ⟨m, _, h1, h2⟩
  | cons hg _ =>
    obtain ⟨m, h1, h2, _⟩ := xtoi_group hg _ colon_noHex
    exact ⟨m, _, h1, h2⟩

theorem xtoi_of_elided {s b : Bytes} {k : Nat} (h : Elided s k b) : ∃ n r, xtoi s = some (n, r) ∧ n ≤ 0xFFFF := by
  obtain ⟨l, r, bl, br, rfl, hl, _⟩ := h
  cases hl with
  | one hg =>
    obtain ⟨m, h1, h2, _⟩ := xtoi_group hg (0x3a :: 0x3a :: r) colon_noHex
    exact ⟨m, _, h1, h2⟩
  | @cons s1 b1 t1 c1 hg hgs =>
    obtain ⟨m, h1, h2, h3⟩ := xtoi_group hg (0x3a :: (t1 ++ 0x3a :: 0x3a :: r)) colon_noHex
    rw [List.append_assoc, List.cons_append]
    exact ⟨m, _, h1, h2⟩

theorem elided_not_colon {t : Bytes} {k : Nat} {b : Bytes} : ¬ Elided (0x3a :: t) k b := by
  intro h
  obtain ⟨n, r, h, _⟩ := xtoi_of_elided h
  unfold xtoi at h
  dsimp only at h
  rw [if_neg (by decide)] at h
  simp at h

theorem tail_not_colon {t b : Bytes} : ¬ Tail (0x3a :: t) b := by
  intro h
  obtain ⟨c, x, h1, h2⟩ := tail_head h
  rw [List.cons.injEq] at h1
  rw [← h1.1] at h2
  exact absurd h2 (by decide)

theorem elided_nil {k : Nat} {b : Bytes} : ¬ Elided [] k b := by
  intro h
  obtain ⟨n, r, h, _⟩ := xtoi_of_elided h
  simp [xtoi] at h

/-- The loop after an ellipsis at `e`. -/
theorem ipv6Loop_some : ∀ (fuel e : Nat) (ip s out : Bytes), ip.length + 2 * fuel = 16 → e ≤ ip.length → s ≠ [] →
    (ipv6Loop fuel (some e) ip s = some out ↔ ∃ b, Tail s b ∧ ip.length + b.length < 16 ∧
      out = ip.take e ++ List.replicate (16 - (ip.length + b.length)) 0 ++ ip.drop e ++ b) := by
  intro fuel
  induction fuel with
  | zero =>
    intro e ip s out hl he hs
    unfold ipv6Loop ipv6End
    rw [if_pos (by simpa using hs)]
    constructor
    · intro h; simp at h
    · rintro ⟨b, hb, h1, _⟩
      omega
  | succ fuel ih =>
    intro e ip s out hl he hs
    have hEnd : ∀ b : Bytes, ipv6End (some e) (ip ++ b) [] = some out ↔ ip.length + b.length < 16 ∧
        out = ip.take e ++ List.replicate (16 - (ip.length + b.length)) 0 ++ ip.drop e ++ b := by
      intro b
      unfold ipv6End
      rw [if_neg (by simp), List.length_append]
      by_cases h : ip.length + b.length < 16
      · rw [if_pos h, Option.some.injEq, List.take_append_of_le_length he, List.drop_append_of_le_length he]
        constructor
        · intro h1; exact ⟨h, by rw [← h1]; simp only [List.append_assoc]⟩
        · rintro ⟨_, h1⟩; rw [h1]; simp only [List.append_assoc]
      · rw [if_neg h]
        simp [h]
    unfold ipv6Loop
    rw [if_pos (by omega)]
    cases hx : xtoi s with
    | none =>
      dsimp only
      constructor
      · intro h; simp at h
      · rintro ⟨b, hb, _⟩
        obtain ⟨n, r, h, _⟩ := xtoi_of_tail hb
        rw [hx] at h; simp at h
    | some p =>
      obtain ⟨n, r⟩ := p
      dsimp only
      by_cases hn : n > 0xFFFF
      · rw [if_pos hn]
        constructor
        · intro h; simp at h
        · rintro ⟨b, hb, _⟩
          obtain ⟨m, r', h, hm⟩ := xtoi_of_tail hb
          rw [hx, Option.some.injEq, Prod.mk.injEq] at h
          omega
      rw [if_neg hn]
      have ht := tail_iff hx (by omega)
      by_cases hdot : r.head? = some (ch '.')
      · rw [if_pos hdot, if_neg (by simp)]
        have ht' : ∀ b, Tail s b ↔ IPv4Text s b := by
          intro b
          rw [ht b]
          constructor
          · rintro (⟨h, _⟩ | ⟨_, h⟩ | ⟨t, c, h, _⟩)
            · rw [h] at hdot; simp at hdot
            · exact h
            · rw [h] at hdot
              simp only [List.head?_cons, Option.some.injEq] at hdot
              exact absurd hdot (by decide)
          · exact fun h => .inr (.inl ⟨hdot, h⟩)
        by_cases h4 : ip.length + 4 > 16
        · rw [if_pos h4]
          constructor
          · intro h; simp at h
          · rintro ⟨b, hb, h1, _⟩
            have := ipv4_length ((ht' b).1 hb)
            omega
        · rw [if_neg h4]
          simp only [Option.bind_eq_bind, Option.bind_eq_some_iff]
          constructor
          · rintro ⟨b, h1, h2⟩
            obtain ⟨h3, h5⟩ := (hEnd b).1 h2
            exact ⟨b, (ht' b).2 ((parseIPv4_iff _ _).1 h1), h3, h5⟩
          · rintro ⟨b, hb, h3, h5⟩
            exact ⟨b, (parseIPv4_iff _ _).2 ((ht' b).1 hb), (hEnd b).2 ⟨h3, h5⟩⟩
      · rw [if_neg hdot]
        by_cases hr : r.length = 0
        · rw [if_pos hr, List.length_eq_zero_iff.1 hr, hEnd]
          constructor
          · rintro ⟨h1, h2⟩
            exact ⟨_, (ht _).2 (.inl ⟨List.length_eq_zero_iff.1 hr, rfl⟩), h1, h2⟩
          · rintro ⟨b, hb, h1, h2⟩
            rcases (ht b).1 hb with ⟨_, rfl⟩ | ⟨h, _⟩ | ⟨t, c, h, _⟩
            · exact ⟨h1, h2⟩
            · exact absurd h hdot
            · rw [h] at hr; simp at hr
        · rw [if_neg hr]
          have ht' : ∀ b, Tail s b ↔ ∃ t c, r = 0x3a :: t ∧ Tail t c ∧ b = [BitVec.ofNat 8 (n / 256), BitVec.ofNat 8 n] ++ c := by
            intro b
            rw [ht b]
            constructor
            · rintro (⟨h, _⟩ | ⟨h, _⟩ | h)
              · rw [h] at hr; simp at hr
              · exact absurd h hdot
              · exact h
            · exact fun h => .inr (.inr h)
          by_cases hc : r.head? ≠ some (ch ':') ∨ r.length = 1
          · rw [if_pos hc]
            constructor
            · intro h; simp at h
            · rintro ⟨b, hb, _⟩
              obtain ⟨t, c, rfl, h1, _⟩ := (ht' b).1 hb
              rcases hc with hc | hc
              · exact absurd rfl hc
              · have := (tail_ne_nil h1).1
                simp only [List.length_cons] at hc
                exact absurd (List.length_eq_zero_iff.1 (by omega)) this
          · rw [if_neg hc]
            rw [not_or, not_not] at hc
            obtain ⟨t, rfl⟩ : ∃ t, r = 0x3a :: t := by
              cases r with
              | nil => simp at hr
              | cons x t => exact ⟨t, by rw [show x = 0x3a from Option.some.inj hc.1]⟩
            rw [List.tail_cons]
            have htn : t ≠ [] := by rintro rfl; exact hc.2 rfl
            by_cases h2 : t.head? = some (ch ':')
            · rw [if_pos h2, if_pos (show (some e).isSome = true from rfl)]
              constructor
              · intro h; simp at h
              · rintro ⟨b, hb, _⟩
                obtain ⟨t', c, h1, h3, _⟩ := (ht' b).1 hb
                rw [List.cons.injEq] at h1
                rw [← h1.2] at h3
                cases t with
                | nil => exact absurd rfl htn
                | cons x t =>
                  rw [show x = 0x3a from Option.some.inj h2] at h3
                  exact absurd h3 tail_not_colon
            · rw [if_neg h2, ih _ _ _ _ (by simp only [List.length_append, List.length_cons, List.length_nil]; omega)
                (by rw [List.length_append]; omega) htn]
              constructor
              · rintro ⟨b, hb, h3, h4⟩
                refine ⟨_, (ht' _).2 ⟨t, b, rfl, hb, rfl⟩, ?_, ?_⟩
                · simp only [List.length_append, List.length_cons, List.length_nil] at h3 ⊢; omega
                · rw [h4, List.take_append_of_le_length he, List.drop_append_of_le_length he]
                  simp only [List.length_append, List.length_cons, List.length_nil, List.append_assoc]
                  rw [Nat.add_assoc]
              · rintro ⟨b, hb, h3, h4⟩
                obtain ⟨t', c, h5, h6, rfl⟩ := (ht' b).1 hb
                rw [List.cons.injEq] at h5
                rw [← h5.2] at h6
                refine ⟨c, h6, ?_, ?_⟩
                · simp only [List.length_append, List.length_cons, List.length_nil] at h3 ⊢; omega
                · rw [h4, List.take_append_of_le_length he, List.drop_append_of_le_length he]
                  simp only [List.length_append, List.length_cons, List.length_nil, List.append_assoc]
                  rw [show ip.length + (0 + 1 + 1 + c.length) = ip.length + (0 + 1 + 1) + c.length by omega]

/-- The loop before an ellipsis. -/
theorem ipv6Loop_none : ∀ (fuel : Nat) (ip s out : Bytes), ip.length + 2 * fuel = 16 → s ≠ [] →
    (ipv6Loop fuel none ip s = some out ↔ (∃ b, Tail s b ∧ ip.length + b.length = 16 ∧ out = ip ++ b) ∨
      ∃ b, Elided s ip.length b ∧ out = ip ++ b) := by
  intro fuel
  induction fuel with
  | zero =>
    intro ip s out hl hs
    unfold ipv6Loop ipv6End
    rw [if_pos (by simpa using hs)]
    constructor
    · intro h; simp at h
    · rintro (⟨b, hb, h1, _⟩ | ⟨b, ⟨l, r, bl, br, _, _, _, h, _⟩, _⟩)
      · have := (tail_ne_nil hb).2
        omega
      · omega
  | succ fuel ih =>
    intro ip s out hl hs
    have hEnd : ∀ b : Bytes, b.length ≤ 4 → ip.length + b.length ≤ 16 → (ipv6End none (ip ++ b) [] = some out ↔ ip.length + b.length = 16 ∧ out = ip ++ b) := by
      intro b _ hle
      unfold ipv6End
      rw [if_neg (by simp), List.length_append]
      by_cases h : ip.length + b.length < 16
      · rw [if_pos h]
        constructor
        · intro h; simp at h
        · rintro ⟨h1, _⟩; omega
      · rw [if_neg h, if_neg (by simp), Option.some.injEq]
        constructor
        · intro h1; exact ⟨by omega, h1.symm⟩
        · rintro ⟨_, h1⟩; exact h1.symm
    unfold ipv6Loop
    rw [if_pos (by omega)]
    cases hx : xtoi s with
    | none =>
      dsimp only
      constructor
      · intro h; simp at h
      · rintro (⟨b, hb, _⟩ | ⟨b, hb, _⟩)
        · obtain ⟨n, r, h, _⟩ := xtoi_of_tail hb
          rw [hx] at h; simp at h
        · obtain ⟨n, r, h, _⟩ := xtoi_of_elided hb
          rw [hx] at h; simp at h
    | some p =>
      obtain ⟨n, r⟩ := p
      dsimp only
      by_cases hn : n > 0xFFFF
      · rw [if_pos hn]
        constructor
        · intro h; simp at h
        · rintro (⟨b, hb, _⟩ | ⟨b, hb, _⟩)
          · obtain ⟨m, r', h, hm⟩ := xtoi_of_tail hb
            rw [hx, Option.some.injEq, Prod.mk.injEq] at h
            omega
          · obtain ⟨m, r', h, hm⟩ := xtoi_of_elided hb
            rw [hx, Option.some.injEq, Prod.mk.injEq] at h
            omega
      rw [if_neg hn]
      have ht := tail_iff hx (by omega)
      have hel := elided_iff hx (by omega)
      by_cases hdot : r.head? = some (ch '.')
      · rw [if_pos hdot]
        have ht' : ∀ b, Tail s b ↔ IPv4Text s b := by
          intro b
          rw [ht b]
          constructor
          · rintro (⟨h, _⟩ | ⟨_, h⟩ | ⟨t, c, h, _⟩)
            · rw [h] at hdot; simp at hdot
            · exact h
            · rw [h] at hdot
              simp only [List.head?_cons, Option.some.injEq] at hdot
              exact absurd hdot (by decide)
          · exact fun h => .inr (.inl ⟨hdot, h⟩)
        have hel' : ∀ k b, ¬ Elided s k b := by
          intro k b he
          rcases (hel k b).1 he with ⟨t, br, h, _⟩ | ⟨t, c, h, _⟩
          all_goals
            rw [h] at hdot
            simp only [List.head?_cons, Option.some.injEq] at hdot
            exact absurd hdot (by decide)
        by_cases h12 : ip.length = 12
        · rw [if_neg (fun h => h.2 h12), if_neg (by omega)]
          simp only [Option.bind_eq_bind, Option.bind_eq_some_iff]
          constructor
          · rintro ⟨b, h1, h2⟩
            have h1 := (parseIPv4_iff _ _).1 h1
            have h6 := ipv4_length h1
            obtain ⟨h3, h5⟩ := (hEnd b (by omega) (by omega)).1 h2
            exact .inl ⟨b, (ht' b).2 h1, h3, h5⟩
          · rintro (⟨b, hb, h3, h5⟩ | ⟨b, hb, _⟩)
            · have h1 := (ht' b).1 hb
              have h6 := ipv4_length h1
              exact ⟨b, (parseIPv4_iff _ _).2 h1, (hEnd b (by omega) (by omega)).2 ⟨h3, h5⟩⟩
            · exact absurd hb (hel' _ _)
        · rw [if_pos ⟨rfl, h12⟩]
          constructor
          · intro h; simp at h
          · rintro (⟨b, hb, h1, _⟩ | ⟨b, hb, _⟩)
            · have := ipv4_length ((ht' b).1 hb)
              omega
            · exact absurd hb (hel' _ _)
      · rw [if_neg hdot]
        by_cases hr : r.length = 0
        · rw [if_pos hr, List.length_eq_zero_iff.1 hr, hEnd _ (by simp) (by simp only [List.length_cons, List.length_nil]; omega)]
          constructor
          · rintro ⟨h1, h2⟩
            exact .inl ⟨_, (ht _).2 (.inl ⟨List.length_eq_zero_iff.1 hr, rfl⟩), h1, h2⟩
          · rintro (⟨b, hb, h1, h2⟩ | ⟨b, hb, _⟩)
            · rcases (ht b).1 hb with ⟨_, rfl⟩ | ⟨h, _⟩ | ⟨t, c, h, _⟩
              · exact ⟨h1, h2⟩
              · exact absurd h hdot
              · rw [h] at hr; simp at hr
            · rcases (hel _ b).1 hb with ⟨t, br, h, _⟩ | ⟨t, c, h, _⟩
              all_goals rw [h] at hr; simp at hr
        · rw [if_neg hr]
          have ht' : ∀ b, Tail s b ↔ ∃ t c, r = 0x3a :: t ∧ Tail t c ∧ b = [BitVec.ofNat 8 (n / 256), BitVec.ofNat 8 n] ++ c := by
            intro b
            rw [ht b]
            constructor
            · rintro (⟨h, _⟩ | ⟨h, _⟩ | h)
              · rw [h] at hr; simp at hr
              · exact absurd h hdot
              · exact h
            · exact fun h => .inr (.inr h)
          by_cases hc : r.head? ≠ some (ch ':') ∨ r.length = 1
          · rw [if_pos hc]
            constructor
            · intro h; simp at h
            · rintro (⟨b, hb, _⟩ | ⟨b, hb, _⟩)
              · obtain ⟨t, c, rfl, h1, _⟩ := (ht' b).1 hb
                rcases hc with hc | hc
                · exact absurd rfl hc
                · have := (tail_ne_nil h1).1
                  simp only [List.length_cons] at hc
                  exact absurd (List.length_eq_zero_iff.1 (by omega)) this
              · rcases (hel _ b).1 hb with ⟨t, br, rfl, _⟩ | ⟨t, c, rfl, h1, _⟩
                · rcases hc with hc | hc
                  · exact absurd rfl hc
                  · simp at hc
                · rcases hc with hc | hc
                  · exact absurd rfl hc
                  · simp only [List.length_cons] at hc
                    rw [List.length_eq_zero_iff.1 (show t.length = 0 by omega)] at h1
                    exact absurd h1 elided_nil
          · rw [if_neg hc]
            rw [not_or, not_not] at hc
            obtain ⟨t, rfl⟩ : ∃ t, r = 0x3a :: t := by
              cases r with
              | nil => simp at hr
              | cons x t => exact ⟨t, by rw [show x = 0x3a from Option.some.inj hc.1]⟩
            rw [List.tail_cons]
            have htn : t ≠ [] := by rintro rfl; exact hc.2 rfl
            by_cases h2 : t.head? = some (ch ':')
            · rw [if_pos h2, if_neg (by simp)]
              obtain ⟨t, rfl⟩ : ∃ t', t = 0x3a :: t' := by
                cases t with
                | nil => simp at h2
                | cons x t => exact ⟨t, by rw [show x = 0x3a from Option.some.inj h2]⟩
              rw [List.tail_cons]
              have ht0 : ∀ b, ¬ Tail s b := by
                intro b hb
                obtain ⟨t', c, h1, h3, _⟩ := (ht' b).1 hb
                rw [List.cons.injEq] at h1
                rw [← h1.2] at h3
                exact tail_not_colon h3
              have hel0 : ∀ b, Elided s ip.length b ↔ ∃ br, (t = [] ∧ br = [] ∨ Tail t br) ∧ ip.length + 2 + br.length < 16 ∧
                  b = [BitVec.ofNat 8 (n / 256), BitVec.ofNat 8 n] ++ List.replicate (16 - (ip.length + 2 + br.length)) 0 ++ br := by
                intro b
                rw [hel]
                constructor
                · rintro (⟨t', br, h1, h3⟩ | ⟨t', c, h1, h3, _⟩)
                  · rw [List.cons.injEq, List.cons.injEq] at h1
                    rw [← h1.2.2] at h3
                    exact ⟨br, h3⟩
                  · rw [List.cons.injEq] at h1
                    rw [← h1.2] at h3
                    exact absurd h3 elided_not_colon
                · rintro ⟨br, h3⟩
                  exact .inl ⟨t, br, rfl, h3⟩
              by_cases ht0' : t = []
              · subst ht0'
                rw [if_pos (show ([] : Bytes).length = 0 from rfl)]
                unfold ipv6End
                rw [if_neg (by simp)]
                simp only [List.length_append, List.length_cons, List.length_nil]
                constructor
                · intro h
                  split at h
                  · rename_i h16
                    simp only [Option.some.injEq] at h
                    refine .inr ⟨_, (hel0 _).2 ⟨[], .inl ⟨rfl, rfl⟩, by simp only [List.length_nil]; omega, rfl⟩, ?_⟩
                    rw [← h, List.take_of_length_le (by simp), List.drop_of_length_le (by simp)]
                    simp
                  · simp at h
                · rintro (⟨b, hb, _⟩ | ⟨b, hb, rfl⟩)
                  · exact absurd hb (ht0 b)
                  · obtain ⟨br, h3 | h3, h4, rfl⟩ := (hel0 b).1 hb
                    · obtain ⟨_, rfl⟩ := h3
                      simp only [List.length_nil] at h4
                      rw [if_pos (by omega), List.take_of_length_le (by simp), List.drop_of_length_le (by simp)]
                      simp
                    · exact absurd rfl (tail_ne_nil h3).1
              · rw [if_neg (by simpa using ht0'), ipv6Loop_some _ _ _ _ _
                  (by simp only [List.length_append, List.length_cons, List.length_nil]; omega) (Nat.le_refl _) ht0']
                constructor
                · rintro ⟨b, hb, h3, h4⟩
                  simp only [List.length_append, List.length_cons, List.length_nil] at h3
                  refine .inr ⟨_, (hel0 _).2 ⟨b, .inr hb, by omega, rfl⟩, ?_⟩
                  rw [h4, List.take_of_length_le (Nat.le_refl _), List.drop_of_length_le (Nat.le_refl _)]
                  simp
                · rintro (⟨b, hb, _⟩ | ⟨b, hb, rfl⟩)
                  · exact absurd hb (ht0 b)
                  · obtain ⟨br, h3 | h3, h4, rfl⟩ := (hel0 b).1 hb
                    · exact absurd h3.1 ht0'
                    · refine ⟨br, h3, by simp only [List.length_append, List.length_cons, List.length_nil]; omega, ?_⟩
                      rw [List.take_of_length_le (Nat.le_refl _), List.drop_of_length_le (Nat.le_refl _)]
                      simp
            · have hel' : ∀ b, Elided s ip.length b ↔ ∃ c, Elided t (ip.length + 2) c ∧ b = [BitVec.ofNat 8 (n / 256), BitVec.ofNat 8 n] ++ c := by
                intro b
                rw [hel]
                constructor
                · rintro (⟨t', br, h1, _⟩ | ⟨t', c, h1, h3⟩)
                  · rw [List.cons.injEq] at h1
                    rw [h1.2] at h2
                    exact absurd rfl h2
                  · rw [List.cons.injEq] at h1
                    rw [← h1.2] at h3
                    exact ⟨c, h3⟩
                · rintro ⟨c, h3⟩
                  exact .inr ⟨t, c, rfl, h3⟩
              rw [if_neg h2, ih _ _ _ (by simp only [List.length_append, List.length_cons, List.length_nil]; omega) htn]
              have hlen : (ip ++ [BitVec.ofNat 8 (n / 256), BitVec.ofNat 8 n]).length = ip.length + 2 := by simp
              rw [hlen]
              constructor
              · rintro (⟨b, hb, h3, h4⟩ | ⟨b, hb, h4⟩)
                · refine .inl ⟨_, (ht' _).2 ⟨t, b, rfl, hb, rfl⟩, ?_, by rw [h4, List.append_assoc]⟩
                  simp only [List.length_append, List.length_cons, List.length_nil]; omega
                · exact .inr ⟨_, (hel' _).2 ⟨b, hb, rfl⟩, by rw [h4, List.append_assoc]⟩
              · rintro (⟨b, hb, h3, h4⟩ | ⟨b, hb, h4⟩)
                · obtain ⟨t', c, h5, h6, rfl⟩ := (ht' b).1 hb
                  rw [List.cons.injEq] at h5
                  rw [← h5.2] at h6
                  refine .inl ⟨c, h6, ?_, by rw [h4, List.append_assoc]⟩
                  simp only [List.length_append, List.length_cons, List.length_nil] at h3; omega
                · obtain ⟨c, h6, rfl⟩ := (hel' b).1 hb
                  exact .inr ⟨c, h6, by rw [h4, List.append_assoc]⟩

theorem parseIPv6_iff (s b : Bytes) : parseIPv6 s = some b ↔ IPv6Text s b := by
  unfold parseIPv6 IPv6Text
  by_cases h : s.take 2 = [ch ':', ch ':']
  · rw [if_pos h]
    obtain ⟨t, rfl⟩ : ∃ t, s = 0x3a :: 0x3a :: t := by
      match s, h with
      | x :: y :: t, h =>
        simp only [List.take_succ_cons, List.take_zero, List.cons.injEq, and_true] at h
        exact ⟨t, by rw [h.1, h.2]; rfl⟩
    have hno : ∀ l r bl, Groups l bl → 0x3a :: 0x3a :: t ≠ l ++ 0x3a :: 0x3a :: r := by
      intro l r bl hl e
      obtain ⟨c, x, rfl, hc⟩ := groups_head hl
      rw [List.cons_append, List.cons.injEq] at e
      rw [← e.1] at hc
      exact absurd hc (by decide)
    rw [show (0x3a :: 0x3a :: t : Bytes).drop 2 = t from rfl]
    by_cases ht : t = []
    · subst ht
      rw [if_pos (show ([] : Bytes).length = 0 from rfl), Option.some.injEq]
      constructor
      · intro e
        exact .inr ⟨[], [], [], [], rfl, .inl ⟨rfl, rfl⟩, .inl ⟨rfl, rfl⟩, by simp, by simpa using e.symm⟩
      · rintro (⟨h1, _⟩ | ⟨l, r, bl, br, h1, ⟨rfl, rfl⟩ | h2, h3, h4, rfl⟩)
        · exact absurd h1 tail_not_colon
        · rw [List.nil_append, List.cons.injEq, List.cons.injEq] at h1
          rcases h3 with ⟨_, rfl⟩ | h3
          · simp
          · exact absurd h1.2.2.symm (tail_ne_nil h3).1
        · exact absurd h1 (hno _ _ _ h2)
    · rw [if_neg (by simpa using ht), ipv6Loop_some _ _ _ _ _ (by simp) (by simp) ht]
      constructor
      · rintro ⟨b', h1, h2, h3⟩
        refine .inr ⟨[], t, [], b', rfl, .inl ⟨rfl, rfl⟩, .inr h1, by simpa using h2, ?_⟩
        rw [h3]; simp
      · rintro (⟨h1, _⟩ | ⟨l, r, bl, br, h1, ⟨rfl, rfl⟩ | h2, h3, h4, rfl⟩)
        · exact absurd h1 tail_not_colon
        · rw [List.nil_append, List.cons.injEq, List.cons.injEq] at h1
          obtain ⟨_, _, rfl⟩ := h1
          rcases h3 with ⟨h3, _⟩ | h3
          · exact absurd h3 ht
          · refine ⟨br, h3, by simpa using h4, by simp⟩
        · exact absurd h1 (hno _ _ _ h2)
  · rw [if_neg h]
    have hl : ∀ l r bl : Bytes, s = l ++ 0x3a :: 0x3a :: r → (l = [] ∧ bl = [] ∨ Groups l bl) → Groups l bl := by
      intro l r bl e hl
      rcases hl with ⟨rfl, _⟩ | hl
      · rw [e] at h; exact absurd rfl h
      · exact hl
    by_cases hs : s = []
    · subst hs
      constructor
      · intro h1; simp [ipv6Loop, xtoi] at h1
      · rintro (⟨h1, _⟩ | ⟨l, r, bl, br, h1, _⟩)
        · exact absurd rfl (tail_ne_nil h1).1
        · simp at h1
    · rw [ipv6Loop_none _ _ _ _ (by simp) hs]
      constructor
      · rintro (⟨b', h1, h2, rfl⟩ | ⟨b', ⟨l, r, bl, br, h1, h2, h3, h4, rfl⟩, rfl⟩)
        · exact .inl ⟨h1, by simpa using h2⟩
        · refine .inr ⟨l, r, bl, br, h1, .inr h2, h3, by simpa using h4, by simp⟩
      · rintro (⟨h1, h2⟩ | ⟨l, r, bl, br, h1, h2, h3, h4, rfl⟩)
        · exact .inl ⟨b, h1, by simpa using h2, rfl⟩
        · refine .inr ⟨_, ⟨l, r, bl, br, h1, hl l r bl h1 h2, h3, by simpa using h4, rfl⟩, by simp⟩

/-! ## `net.ParseIP` -/

theorem find_sep {h r : Bytes} {c : Byte} (hh : ∀ x ∈ h, (Spec.IP.hexDigit x).isSome = true) (hc : c = ch '.' ∨ c = ch ':') :
    (h ++ c :: r).find? (fun c => c == ch '.' || c == ch ':') = some c := by
  have hn : ∀ x : Byte, (Spec.IP.hexDigit x).isSome = true → (x == ch '.' || x == ch ':') = false := by decide +kernel
  rw [List.find?_append, List.find?_eq_none.2 (fun x hx => by rw [hn x (hh x hx)]; simp)]
  rw [Option.none_or, List.find?_cons_of_pos]
  rcases hc with rfl | rfl <;> decide

/-- `net.ParseIP` accepts the texts of addresses, and only these. -/
theorem parseIP_iff (s b : Bytes) : parseIP s = some b ↔ IPv4Text s b ∨ IPv6Text s b := by
  have h4 : ∀ b, IPv4Text s b → s.find? (fun c => c == ch '.' || c == ch ':') = some (ch '.') := by
    rintro b ⟨s1, s2, s3, s4, n1, n2, n3, n4, a1, a2, a3, a4, b1, b2, b3, b4, rfl, rfl⟩
    exact find_sep (fun x hx => dec_isHex x (a1.2.1 x hx)) (.inl rfl)
  have hg : ∀ {p q r : Bytes}, Group p q → (p ++ 0x3a :: r).find? (fun c => c == ch '.' || c == ch ':') = some (ch ':') := by
    rintro p q r ⟨n, h1, _⟩
    exact find_sep h1.2.1 (.inr rfl)
  have h6 : ∀ b, IPv6Text s b → s.find? (fun c => c == ch '.' || c == ch ':') = some (ch ':') := by
    rintro b (⟨h1, h2⟩ | ⟨l, r, bl, br, rfl, h2, _⟩)
    · cases h1 with
      | one h => rw [group_length h] at h2; omega
      | v4 h => rw [ipv4_length h] at h2; omega
      | cons h _ => exact hg h
    · rcases h2 with ⟨rfl, _⟩ | h2
      · rfl
      · cases h2 with
        | one h => exact hg h
        | cons h _ => rw [List.append_assoc]; exact hg h
  have hne : ch ':' ≠ ch '.' := by decide
  unfold parseIP
  cases hf : s.find? (fun c => c == ch '.' || c == ch ':') with
  | none =>
    dsimp only
    constructor
    · intro h; simp at h
    · rintro (h | h)
      · rw [h4 b h] at hf; simp at hf
      · rw [h6 b h] at hf; simp at hf
  | some c =>
    dsimp only
    by_cases hc : c = ch '.'
    · rw [if_pos hc, parseIPv4_iff]
      constructor
      · exact .inl
      · rintro (h | h)
        · exact h
        · rw [h6 b h, Option.some.injEq, hc] at hf
          exact absurd hf hne
    · rw [if_neg hc, parseIPv6_iff]
      constructor
      · exact .inr
      · rintro (h | h)
        · rw [h4 b h, Option.some.injEq] at hf
          exact absurd hf.symm hc
        · exact h

end Verif.GoUrl
