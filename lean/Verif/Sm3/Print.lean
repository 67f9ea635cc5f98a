import Verif.Sm3.Model
/-!
# Model of `PrintT`
-/
namespace Verif.Sm3

/-- A digit of Go's `%X`. -/
def hexDigit (d : Nat) : Char := if d < 10 then Char.ofNat (48 + d) else Char.ofNat (55 + d)

/-- Go's `%X` for a number of at most `fuel` digits, least significant digit last; nothing for 0. -/
def hexDigits : Nat → Nat → List Char
  | 0, _ => []
  | fuel + 1, x => if x = 0 then [] else hexDigits fuel (x / 16) ++ [hexDigit (x % 16)]

/-- Go's `%08X` for a `uint32`: filled up with zeros on the left to eight characters. -/
def fmt08X (x : BitVec 32) : List Char :=
  let ds := hexDigits 8 x.toNat
  List.replicate (8 - ds.length) '0' ++ ds

/-- `Tj := (T[j] << uint32(n)) | (T[j] >> (32 - uint32(n)))` (sm3/sm3.go:287, 294); for `n = 0` the shift by 32 gives 0. -/
def rotT (t : BitVec 32) (n : Nat) : BitVec 32 := (t <<< n) ||| (t >>> (32 - n))

/-- `PrintT` (sm3/sm3.go:282-301): what is written to standard output. -/
def printT : List Char :=
  ['{'] ++
  (List.range 16).flatMap (fun j => ['0', 'x'] ++ fmt08X (rotT 0x79CC4519 j) ++ [',', ' ']) ++
  (List.range 48).flatMap (fun i =>
    let j := i + 16
    let n := j % 32
    ['0', 'x'] ++ fmt08X (rotT 0x7A879D8A n) ++ (if j = 63 then ['}', '\n'] else [',', ' ']))

end Verif.Sm3
