import Verif.Sm4.Model
import Mathlib.Logic.Function.Basic
/-!
# SM4 block calls as programs of single memory accesses

For use of one `cipher.Block` by several goroutines. Memory has the bytes of all arrays and the two round-key arrays of the cipher; a program
reads or writes one cell at a time; the goroutines' accesses are interleaved in any order. Local variables (`x`, `aArr`, `bArr`) and the
constant tables are not part of the shared memory. That memory is sequentially consistent is assumed; the Go memory model promises this
for programs without data races, and that there are none is a theorem.
-/
namespace Verif.Sm4.Conc
open Verif Verif.Sm4

/-- A cell of memory: byte `i` of array `arr`, or word `i` of `c.enc` or `c.dec` (sm4/sm4.go:72-75). -/
inductive Loc
  | byte (arr i : Nat)
  | key (enc : Bool) (i : Nat)
  deriving DecidableEq

/-- What a cell holds. -/
abbrev Cell : Loc → Type
  | .byte _ _ => Byte
  | .key _ _ => Word

/-- The memory all goroutines see. -/
abbrev Memory := (l : Loc) → Cell l

/-- Byte `i` of array `arr`. -/
def Memory.byte (m : Memory) (arr i : Nat) : Byte := m (.byte arr i)

/-- Word `i` of a round-key array. -/
def Memory.word (m : Memory) (enc : Bool) (i : Nat) : Word := m (.key enc i)

/-- A goroutine: the accesses that it still has to make. -/
inductive Prog
  | done
  | read (l : Loc) (k : Cell l → Prog)
  | write (l : Loc) (v : Cell l) (k : Prog)

/-- One access. -/
def Prog.step : Prog → Memory → Option (Prog × Memory)
  | .done, _ => none
  | .read l k, m => some (k (m l), m)
  | .write l v k, m => some (k, Function.update m l v)

/-- The next access: where, and whether it is a write. -/
def Prog.next : Prog → Option (Loc × Bool)
  | .done => none
  | .read l _ => some (l, false)
  | .write l _ _ => some (l, true)

/-- All goroutines and the memory: one of the goroutines makes an access. -/
inductive Step : List Prog × Memory → List Prog × Memory → Prop
  | access (ts : List Prog) (m : Memory) (i : Nat) (p p' : Prog) (m' : Memory) (hi : ts[i]? = some p) (hp : p.step m = some (p', m')) :
    Step (ts, m) (ts.set i p', m')

/-- `n` accesses. -/
inductive Steps : Nat → List Prog × Memory → List Prog × Memory → Prop
  | refl (s : List Prog × Memory) : Steps 0 s s
  | snoc (n : Nat) (s t u : List Prog × Memory) (h : Steps n s t) (hu : Step t u) : Steps (n + 1) s u

/-- Reads `n` bytes from byte `off` of array `arr` on (`binary.BigEndian.Uint32(in[4*j : 4*j+4])`, for the four words one after the
other; the order inside a word is ascending here and not specified in Go). -/
def readBytes (arr : Nat) : Nat → Nat → (Bytes → Prog) → Prog
  | 0, _, k => k []
  | n + 1, off, k => .read (.byte arr off) fun (b : Byte) => readBytes arr n (off + 1) fun bs => k (b :: bs)

/-- Writes bytes from `off` on (`binary.BigEndian.PutUint32`, ascending). -/
def writeBytes (arr : Nat) : Nat → Bytes → Prog → Prog
  | _, [], k => k
  | off, b :: bs, k => .write (.byte arr off) b (writeBytes arr (off + 1) bs k)

/-- The loop body sm4/sm4.go:177-180; a round key is read when it is needed. -/
def fourRoundsP (enc : Bool) (x : W4) (i : Nat) (k : W4 → Prog) : Prog :=
  .read (.key enc i) fun (w : Word) =>
  let x := { x with x0 := f0 x w }
  .read (.key enc (i + 1)) fun (w : Word) =>
  let x := { x with x1 := f1 x w }
  .read (.key enc (i + 2)) fun (w : Word) =>
  let x := { x with x2 := f2 x w }
  .read (.key enc (i + 3)) fun (w : Word) =>
  k { x with x3 := f3 x w }

/-- The loop sm4/sm4.go:176-181: `n` iterations from `i` on. -/
def roundsP (enc : Bool) : Nat → Nat → W4 → (W4 → Prog) → Prog
  | 0, _, x, k => k x
  | n + 1, i, x, k => fourRoundsP enc x i fun x => roundsP enc n (i + 4) x k

/-- `processBlock` (sm4/sm4.go:169-188). -/
def processBlockP (enc : Bool) (srcArr srcOff dstArr dstOff : Nat) (k : Prog) : Prog :=
  readBytes srcArr 16 srcOff fun inp =>
  roundsP enc 8 0 (load inp) fun x =>
  let x := r x
  writeBytes dstArr dstOff (put32 x.x0) (writeBytes dstArr (dstOff + 4) (put32 x.x1)
    (writeBytes dstArr (dstOff + 8) (put32 x.x2) (writeBytes dstArr (dstOff + 12) (put32 x.x3) k)))

/-- A call of `Encrypt` (sm4/sm4.go:92-100) or `Decrypt` (sm4/sm4.go:102-110) with windows of at least 16 bytes (shorter ones panic before
any access, C09). -/
structure Call where
  enc : Bool
  dstArr : Nat
  dstOff : Nat
  srcArr : Nat
  srcOff : Nat

/-- The accesses of a call, followed by those of `k`. -/
def Call.prog (c : Call) (k : Prog) : Prog := processBlockP c.enc c.srcArr c.srcOff c.dstArr c.dstOff k

/-- A goroutine that makes the calls one after the other. -/
def goroutine (cs : List Call) : Prog := cs.foldr Call.prog .done

end Verif.Sm4.Conc
