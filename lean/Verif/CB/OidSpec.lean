import Verif.CB.Spec
import Batteries.Data.List.Basic
/-!
# OBJECT IDENTIFIER contents octets, X.690 8.19
-/
namespace Verif.Spec.DER

/-- The number denoted by a series of octets, bits 7-1 of each (X.690 8.19.2). -/
def subValue (bs : Bytes) : Nat := bs.foldl (fun v b => v * 128 + b.toNat % 128) 0

/-- Bit 8 is one in every octet but the last (X.690 8.19.2). -/
def IsGroup (bs : Bytes) : Prop :=
  ∃ init last, bs = init ++ [last] ∧ (∀ b ∈ init, 128 ≤ b.toNat) ∧ last.toNat < 128

/-- A subidentifier in the fewest possible octets: the leading octet is not 0x80 (X.690 8.19.2). -/
def IsSubid (n : Nat) (bs : Bytes) : Prop := IsGroup bs ∧ bs.head? ≠ some 0x80 ∧ subValue bs = n

/-- Components that an OBJECT IDENTIFIER can have: at least two, the first at most 2, the second below 40
under the first two roots (X.690 8.19.4). -/
def ValidOID : List Nat → Prop
  | a :: b :: _ => a ≤ 2 ∧ (a ≤ 1 → b < 40)
  | _ => False

/-- The subidentifiers of an OID (X.690 8.19.4): the first two components share one. -/
def subids : List Nat → List Nat
  | a :: b :: tl => (40 * a + b) :: tl
  | _ => []

/-- `c` is the contents of the OBJECT IDENTIFIER `oid`. -/
def IsOID (oid : List Nat) (c : Bytes) : Prop :=
  ValidOID oid ∧ ∃ gs : List Bytes, c = gs.flatten ∧ List.Forall₂ IsSubid (subids oid) gs

instance (oid : List Nat) : Decidable (ValidOID oid) :=
  match oid with
  | [] => inferInstanceAs (Decidable False)
  | [_] => inferInstanceAs (Decidable False)
  | _ :: _ :: _ => inferInstanceAs (Decidable (_ ∧ _))

end Verif.Spec.DER
