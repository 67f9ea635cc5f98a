import Verif.CB.Builder
import Verif.CB.Spec
/-!
# What a Builder program means

No buffers, offsets or back-patching: a program denotes bytes, an error, or a panic.
-/
namespace Verif.Spec.Builder
open Verif.CB

/-- Meaning of a program run on a builder, given whether the builder and its ancestors already carry an
error. -/
inductive Den where
  /-- ended; `none`: the builder carries an error; `some bs`: these bytes were appended. `anc` says which
  ancestors carry an error now. -/
  | done (r : Option Bytes) (anc : List Bool)
  /-- a `BuildError` panic leaves the program -/
  | thrown
  /-- another panic leaves the program -/
  | panicked
  deriving Repr, DecidableEq

/-- Bytes in front. -/
def Den.prepend (bs : Bytes) : Den → Den
  | .done r anc => .done (r.map (bs ++ ·)) anc
  | d => d

/-- A length-prefixed item: big-endian length in `k` bytes, then the content, if the length fits. -/
def lpItem (k : Nat) (c : Bytes) : Option Bytes :=
  if c.length < 256 ^ k then some (toBE k c.length ++ c) else none

/-- A DER item, for content up to 2^32-2 bytes. -/
def derItem (t : Byte) (c : Bytes) : Option Bytes :=
  if c.length ≤ 0xfffffffe then some (DER.elem t c) else none

/-- Combine the meaning of a continuation with what follows it. `item` encodes the content. A `BuildError`
panic is turned into an error by the outermost builder (the one without ancestors). -/
def Den.item (item : Bytes → Option Bytes) (body : Den) (outermost : Bool) (rest : Bool → List Bool → Den) : Den :=
  match body with
  | .panicked => .panicked
  | .thrown => if outermost then rest true [] else .thrown
  | .done _ [] => .panicked
  | .done none (_ :: anc) => rest true anc
  | .done (some c) (e :: anc) =>
    match item c with
    | none => rest true anc
    | some bs => if e then rest true anc else (rest false anc).prepend bs

/-- Effect of a call on an ancestor: `none` is a panic, `some e` the ancestor's error flag afterwards. -/
def upDen (e : Bool) : UpAct → Option Bool
  | .add _ => if e then some true else none
  | .lenPrefixed => if e then some true else none
  | .asn1 t => if e then some true else if DER.LowTag t then none else some true
  | .setErr _ _ => some true

/-- The meaning of a program; `e`: the builder already carries an error. -/
def eval : Prog → Bool → List Bool → Den
  | .nil, e, anc => .done (if e then none else some []) anc
  | .add bs rest, e, anc => if e then eval rest true anc else (eval rest false anc).prepend bs
  | .lenPrefixed k body rest, e, anc =>
    if e then eval rest true anc
    else Den.item (lpItem (k.val + 1)) (eval body false (false :: anc)) anc.isEmpty (eval rest)
  | .asn1 tag body rest, e, anc =>
    if e then eval rest true anc
    else if DER.LowTag tag then
      Den.item (derItem tag) (eval body false (false :: anc)) anc.isEmpty (eval rest)
    else eval rest true anc
  | .setErr _ _ rest, _, anc => eval rest true anc
  | .throw _, _, _ => .thrown
  | .panic, _, _ => .panicked
  | .up k act rest, e, anc =>
    match anc[k]? with
    | none => .panicked
    | some f =>
      match upDen f act with
      | none => .panicked
      | some f => eval rest e (anc.set k f)

end Verif.Spec.Builder
