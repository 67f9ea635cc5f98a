import Verif.CB.Read
/-!
# Model of the readers of /repo/cryptobyte/asn1.go with `interface{}` arguments

`ReadASN1Integer` and `ReadOptionalASN1Integer` take `out interface{}` and look at its type with `reflect`. `Verif.CB.Read`
has them at a fixed type; here the type is part of the argument. From Go 1.12 `reflect`: `TypeOf(nil).Kind()` is a call on a nil
interface and panics; `ValueOf(p).Elem()` of a nil pointer is the zero `Value`, of kind `Invalid`; `v.Set(x)` panics unless the
type of `x` can be assigned to that of `v`, and for integer types, which all have names, that means the same type.
-/
namespace Verif.CB

/-- An integer type of Go by its name: `int8` to `int64`, `int` (64 bits), the unsigned ones, and types defined over them. `uintptr`
has a kind of its own and is not one of these. -/
structure IntType where
  name : String
  signed : Bool
  width : Nat
  deriving DecidableEq

/-- The types the readers distinguish. `other` is every other type, by its name. -/
inductive GoType where
  | int (t : IntType)
  | bigInt
  | other (name : String)
  deriving DecidableEq

/-- A value of type `interface{}`: nil, something that is not a pointer (with its number, if it is an integer), or a pointer
with the number it points to (`none` is a nil pointer). -/
inductive Iface where
  | nil
  | value (t : GoType) (v : Int)
  | pointer (t : GoType) (target : Option Int)

/-- A reader with its result changed. -/
def Reader.map {α β : Type} (f : α → β) (rd : Reader α) : Reader β := fun s => do
  let (r, s) ← rd s
  .ok (r.map f, s)

/-- `(*String).ReadASN1Integer` (/repo/cryptobyte/asn1.go:250-275): the number stored through `out`. -/
def readASN1IntegerAny (out : Iface) : Reader Int := fun s =>
  match out with
  | .nil => .panic                       -- reflect.TypeOf(nil).Kind(), line 251
  | .value _ _ => .panic                 -- line 252
  | .pointer _ none => .panic            -- kind Invalid, line 274
  | .pointer (.int t) (some _) =>        -- lines 255-268
    if t.signed then Reader.map BitVec.toInt (readASN1IntegerSigned t.width) s
    else Reader.map (fun u => (u.toNat : Int)) (readASN1IntegerUnsigned t.width) s
  | .pointer .bigInt (some _) => readASN1BigInt s   -- lines 269-272
  | .pointer (.other _) (some _) => .panic          -- line 274

/-- Storing the default value (/repo/cryptobyte/asn1.go:595-611). -/
def storeDefault (out defaultValue : Iface) : Res Int :=
  match out with
  | .pointer (.int t) (some _) =>        -- lines 596-598
    match defaultValue with
    | .value (.int t') v => if t' = t then .ok v else .panic
    | _ => .panic
  | .pointer .bigInt (some _) =>         -- lines 599-607; `Set` of a nil *big.Int panics
    match defaultValue with
    | .pointer .bigInt (some v) => .ok v
    | _ => .panic
  | _ => .panic                          -- lines 600-602, 608-610

/-- `(*String).ReadOptionalASN1Integer` (/repo/cryptobyte/asn1.go:586-618). -/
def readOptionalASN1IntegerAny (out : Iface) (tag : Tag) (defaultValue : Iface) : Reader Int := fun s =>
  match out with
  | .nil => .panic
  | .value _ _ => .panic
  | .pointer _ _ => do
    let (r, s) ← readOptionalASN1 tag s
    match r with
    | none => .ok (none, s)
    | some none => do
      let v ← storeDefault out defaultValue
      .ok (some v, s)
    | some (some i) => do
      let (v, i) ← readASN1IntegerAny out i
      match v with
      | none => .ok (none, s)
      | some v => if i.empty then .ok (some v, s) else .ok (none, s)

end Verif.CB
