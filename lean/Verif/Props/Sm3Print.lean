import Verif.Sm3.Print
import Verif.Sm3.Spec
/-!
# C118: the table that `PrintT` prints is the one the compression function uses
-/
namespace Verif.Props
open Verif

/-- The value of a hexadecimal digit, capital letters only. -/
def hexValue (c : Char) : Option Nat :=
  if '0' ≤ c ∧ c ≤ '9' then some (c.toNat - '0'.toNat) else if 'A' ≤ c ∧ c ≤ 'F' then some (c.toNat - 'A'.toNat + 10) else none

/-- Reads a list of constants such as `0x0F, 0x10}`, up to the closing brace and a newline: values, each with its number of digits. -/
def readTable : List Char → Option (List (Nat × Nat))
  | '0' :: 'x' :: rest => go 0 0 rest
  | _ => none
where
  /-- Inside a number: its value so far and the number of its digits. -/
  go (v ds : Nat) : List Char → Option (List (Nat × Nat))
    | ['}', '\n'] => some [(v, ds)]
    | ',' :: ' ' :: '0' :: 'x' :: rest => (go 0 0 rest).map ((v, ds) :: ·)
    | c :: rest => (hexValue c).bind fun d => go (16 * v + d) (ds + 1) rest
    | [] => none

/-- C118. What `PrintT` writes is a brace, 64 constants of eight digits each, a brace and a newline; and the constants are those of
`gT`, which are those of the standard. -/
theorem C118_table : ∃ body, Sm3.printT = '{' :: body ∧ readTable body = some (Sm3.gT.map fun t => (t.toNat, 8)) ∧
    Sm3.gT = (List.range 64).map fun j => (Spec.SM3.T j).rotateLeft (j % 32) := by
  refine ⟨Sm3.printT.tail, ?_, ?_, ?_⟩ <;> decide +kernel

theorem readTable_digit (d v ds : Nat) (hd : d < 16) (rest : List Char) :
    readTable.go v ds (Sm3.hexDigit d :: rest) = readTable.go (16 * v + d) (ds + 1) rest := by
  have hv : ∀ d : Fin 16, hexValue (Sm3.hexDigit d) = some d.val ∧ Sm3.hexDigit d ≠ '}' ∧ Sm3.hexDigit d ≠ ',' := by decide +kernel
  obtain ⟨h1, h2, h3⟩ := hv ⟨d, hd⟩
  rw [readTable.go]
  · rw [h1]; rfl
  · intro h; exact absurd h h2
  · intro _ h; exact absurd h h3

theorem readTable_digits (l : List Nat) (hl : ∀ d ∈ l, d < 16) (v ds : Nat) (rest : List Char) :
    readTable.go v ds (l.map Sm3.hexDigit ++ rest) = readTable.go (l.foldl (fun a d => 16 * a + d) v) (ds + l.length) rest := by
  induction l generalizing v ds with
  | nil => rfl
  | cons d l ih =>
    rw [List.map_cons, List.cons_append, readTable_digit d _ _ (hl d (by simp)), ih (fun d h => hl d (by simp [h]))]
    rw [List.foldl_cons, List.length_cons, Nat.add_assoc, Nat.add_comm 1]

theorem hexDigits_spec (n x : Nat) (h : x < 16 ^ n) : ∃ l : List Nat, (∀ d ∈ l, d < 16) ∧ Sm3.hexDigits n x = l.map Sm3.hexDigit ∧ l.length ≤ n ∧
    l.foldl (fun a d => 16 * a + d) 0 = x := by
  induction n generalizing x with
  | zero => exact ⟨[], by simp, rfl, by simp, by simp at h ⊢; omega⟩
  | succ n ih =>
    rw [Sm3.hexDigits]
    split
    · exact ⟨[], by simp, rfl, by simp, by simp; omega⟩
    · obtain ⟨l, h1, h2, h3, h4⟩ := ih (x / 16) (by rw [Nat.pow_succ] at h; omega)
      refine ⟨l ++ [x % 16], ?_, by rw [h2]; simp, by simp; omega, by rw [List.foldl_append, h4]; simp; omega⟩
      intro d hd
      rcases List.mem_append.1 hd with hd | hd
      · exact h1 d hd
      · rw [List.mem_singleton] at hd; omega

/-- The formatting of every number is undone by reading, leading zeros included. -/
theorem C118_format (x : BitVec 32) : readTable (['0', 'x'] ++ Sm3.fmt08X x ++ ['}', '\n']) = some [(x.toNat, 8)] := by
  obtain ⟨l, h1, h2, h3, h4⟩ := hexDigits_spec 8 x.toNat (by have := x.isLt; omega)
  have hz : List.replicate (8 - l.length) '0' ++ l.map Sm3.hexDigit = (List.replicate (8 - l.length) 0 ++ l).map Sm3.hexDigit := by
    rw [List.map_append, List.map_replicate]; rfl
  have h0 : ∀ k, (List.replicate k 0).foldl (fun a d => 16 * a + d) 0 = 0 := by
    intro k
    induction k with
    | zero => rfl
    | succ k ih => rw [List.replicate_succ, List.foldl_cons]; exact ih
  show readTable.go 0 0 (Sm3.fmt08X x ++ ['}', '\n']) = _
  unfold Sm3.fmt08X
  rw [h2]
  show readTable.go 0 0 ((List.replicate (8 - (l.map Sm3.hexDigit).length) '0' ++ l.map Sm3.hexDigit) ++ ['}', '\n']) = _
  rw [List.length_map, hz, readTable_digits _ _ , List.foldl_append, h0, h4, List.length_append, List.length_replicate, Nat.zero_add, Nat.sub_add_cancel h3]
  · rfl
  · intro d hd
    rcases List.mem_append.1 hd with hd | hd
    · rw [(List.mem_replicate.1 hd).2]; omega
    · exact h1 d hd

example : Sm3.fmt08X 0x0F3B14F5 = ['0', 'F', '3', 'B', '1', '4', 'F', '5'] := by decide +kernel

end Verif.Props
