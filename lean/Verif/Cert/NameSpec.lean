import Verif.Base.Basic
/-!
# Domain names, masks and mailboxes, said independently of the code

Domain names as lists of labels (RFC 1034 3.1 textual form), masks as bit strings, mailboxes by the grammar of RFC 2821
4.1.2 with the escapes of RFC 3696 section 3.
-/
namespace Verif.Spec.Names
open Verif

/-- The period. -/
abbrev dot : Byte := 0x2e

/-- The labels joined by periods. -/
def dotJoin : List Bytes → Bytes
  | [] => []
  | [l] => l
  | l :: ls => l ++ dot :: dotJoin ls

/-- A label: not empty, printable ASCII without space, no period inside. -/
def Label (l : Bytes) : Prop := l ≠ [] ∧ ∀ b ∈ l, 33 ≤ b.toNat ∧ b.toNat ≤ 126 ∧ b ≠ dot

/-- A domain name: at least one label, joined by periods. -/
def IsDomain (s : Bytes) (labels : List Bytes) : Prop := labels ≠ [] ∧ (∀ l ∈ labels, Label l) ∧ s = dotJoin labels

/-- The bits of a byte, most significant first. -/
def bitsOf (b : Byte) : List Bool :=
  [b.getLsbD 7, b.getLsbD 6, b.getLsbD 5, b.getLsbD 4, b.getLsbD 3, b.getLsbD 2, b.getLsbD 1, b.getLsbD 0]

/-- The bits of a byte string in order. -/
def bits (bs : Bytes) : List Bool := bs.flatMap bitsOf

/-- Some number of ones, then only zeros. -/
def Contiguous (mask : Bytes) : Prop := ∃ ones zeros, bits mask = List.replicate ones true ++ List.replicate zeros false

/-- RFC 2822 3.2.4 `atext`: letters, digits and ``! # $ % & ' * + - / = ? ^ _ ` { | } ~``. -/
def Atext (c : Byte) : Prop :=
  (0x41 ≤ c.toNat ∧ c.toNat ≤ 0x5a) ∨ (0x61 ≤ c.toNat ∧ c.toNat ≤ 0x7a) ∨ (0x30 ≤ c.toNat ∧ c.toNat ≤ 0x39) ∨
  c ∈ ([0x21, 0x23, 0x24, 0x25, 0x26, 0x27, 0x2a, 0x2b, 0x2d, 0x2f, 0x3d, 0x3f, 0x5e, 0x5f, 0x60, 0x7b, 0x7c, 0x7d,
    0x7e] : List Byte)

/-- RFC 2822 3.2.1 `text`: 1-127 without CR and LF. -/
def Text (c : Byte) : Prop := 1 ≤ c.toNat ∧ c.toNat ≤ 127 ∧ c.toNat ≠ 10 ∧ c.toNat ≠ 13

/-- RFC 2822 3.2.5 `qtext` with the space added: `text` without tab, quote and backslash. -/
def Qtext (c : Byte) : Prop := Text c ∧ c.toNat ≠ 9 ∧ c.toNat ≠ 34 ∧ c.toNat ≠ 92

/-- `Atoms src value`: `src` is a series of atext characters, periods and backslash pairs standing for `value`. -/
inductive Atoms : Bytes → Bytes → Prop where
  | nil : Atoms [] []
  | char {c src v} : Atext c ∨ c = dot → Atoms src v → Atoms (c :: src) (c :: v)
  | pair {c src v} : Atoms src v → Atoms (0x5c :: c :: src) (c :: v)

/-- `Quoted src value`: `src` is a series of qtext characters and quoted pairs standing for `value`. -/
inductive Quoted : Bytes → Bytes → Prop where
  | nil : Quoted [] []
  | char {c src v} : Qtext c → Quoted src v → Quoted (c :: src) (c :: v)
  | pair {c src v} : Text c → Quoted src v → Quoted (0x5c :: c :: src) (c :: v)

/-- A dot-atom in the wide sense: non-empty pieces without period, joined by single periods. -/
def DotAtom (l : Bytes) : Prop := ∃ atoms : List Bytes, atoms ≠ [] ∧ (∀ a ∈ atoms, a ≠ [] ∧ dot ∉ a) ∧ l = dotJoin atoms

end Verif.Spec.Names
