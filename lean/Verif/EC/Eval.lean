import Verif.EC.Model
/-!
# Running the curve code in the kernel

The kernel evaluates lazily, and 256 unevaluated doublings nest too deeply. `scalarMultF` is `scalarMult` with every
intermediate coordinate forced to a numeral first; `scalarMult_eq_F` shows that this changes nothing.
-/
namespace Verif.EC
open Verif

/-- Evaluate `v` to a numeral before passing it on. -/
def forceInt {α : Type} (v : Int) (f : Int → α) : α :=
  match v with
  | .ofNat 0 => f 0
  | .ofNat (m + 1) => f (.ofNat (m + 1))
  | .negSucc 0 => f (.negSucc 0)
  | .negSucc (m + 1) => f (.negSucc (m + 1))

theorem forceInt_eq {α : Type} (v : Int) (f : Int → α) : forceInt v f = f v := by
  match v with
  | .ofNat 0 => rfl
  | .ofNat (m + 1) => rfl
  | .negSucc 0 => rfl
  | .negSucc (m + 1) => rfl

/-- Evaluate all three coordinates. -/
def forceJac {α : Type} (s : Jac) (f : Jac → α) : α :=
  forceInt s.x fun x => forceInt s.y fun y => forceInt s.z fun z => f ⟨x, y, z⟩

theorem forceJac_eq {α : Type} (s : Jac) (f : Jac → α) : forceJac s f = f s := by
  simp only [forceJac, forceInt_eq]

/-- `scalarBits`, forced. -/
def scalarBitsF {α : Type} (c : CurveParams) (b : Int × Int) (f : Jac → α) : Nat → Byte → Jac → α
  | 0, _, s => f s
  | n + 1, byte, s =>
    forceJac (doubleJacobian c s) fun s =>
      if byte &&& 0x80 = 0x80 then forceJac (addJacobian c ⟨b.1, b.2, 1⟩ s) fun s => scalarBitsF c b f n (byte <<< 1) s
      else scalarBitsF c b f n (byte <<< 1) s

theorem scalarBitsF_eq {α : Type} (c : CurveParams) (b : Int × Int) (f : Jac → α) (n : Nat) (byte : Byte) (s : Jac) :
    scalarBitsF c b f n byte s = f (scalarBits c b n byte s) := by
  induction n generalizing byte s with
  | zero => rfl
  | succ n ih =>
    unfold scalarBitsF scalarBits
    rw [forceJac_eq]
    split
    · rw [forceJac_eq, ih]
    · rw [ih]

/-- The loop over the scalar's bytes, forced. -/
def scalarLoopF {α : Type} (c : CurveParams) (b : Int × Int) (f : Jac → α) : Bytes → Jac → α
  | [], s => f s
  | byte :: k, s => scalarBitsF c b (scalarLoopF c b f k) 8 byte s

theorem scalarLoopF_eq {α : Type} (c : CurveParams) (b : Int × Int) (f : Jac → α) (k : Bytes) (s : Jac) :
    scalarLoopF c b f k s = f (k.foldl (fun s byte => scalarBits c b 8 byte s) s) := by
  induction k generalizing s with
  | nil => rfl
  | cons byte k ih => unfold scalarLoopF; rw [scalarBitsF_eq, ih]; rfl

/-- `scalarMult`, forced. -/
def scalarMultF (c : CurveParams) (b : Int × Int) (k : Bytes) : Res (Int × Int) :=
  scalarLoopF c b (affineFromJacobian c) k ⟨0, 0, 0⟩

theorem scalarMult_eq_F (c : CurveParams) (b : Int × Int) (k : Bytes) : scalarMult c b k = scalarMultF c b k := by
  unfold scalarMult scalarMultF; rw [scalarLoopF_eq]

end Verif.EC
