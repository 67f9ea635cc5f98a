import Verif.Util.Heap
import Verif.CB.Read
/-!
# Model of /repo/cryptobyte/builder.go and of `AddASN1` (asn1.go:211-223)

A use of a Builder is a finite program `Prog` of calls; continuations are nested programs. The machine keeps
the Go memory explicitly: result buffers are slices of heap arrays, children alias their parent's
buffer, and `append` reallocates when the capacity is exceeded. How much spare capacity the run-time then
allocates is the arbitrary function `g`.

Not modelled: the overflow test of `add` (builder.go:283-285), which needs a buffer of 2^63 bytes, and
calls of `Bytes` inside continuations (`CB/BuilderMemory.lean` has these).
-/
namespace Verif.CB

/-- A call on an ancestor of the running continuation's builder. -/
inductive UpAct where
  /-- `AddUint8` … `AddUint32`, `AddBytes`, `AddASN1NULL`, `MarshalASN1` -/
  | add (bs : Bytes)
  /-- `AddUint8/16/24/32LengthPrefixed` -/
  | lenPrefixed
  /-- `AddASN1` and everything built on it -/
  | asn1 (tag : Tag)
  /-- `AddValue` with a failing `Marshal`, `AddASN1GeneralizedTime` out of range; with `keep`:
  `MarshalASN1` with a failing `Marshal`, which leaves an error that is there already alone -/
  | setErr (keep : Bool) (msg : String)
  deriving Repr, DecidableEq

/-- A program of calls on one Builder. -/
inductive Prog where
  /-- end of the program (or of the continuation) -/
  | nil
  /-- `AddUint8` … `AddUint32`, `AddBytes`, `AddASN1NULL`: append these bytes -/
  | add (bs : Bytes) (rest : Prog)
  /-- `AddUint{8,16,24,32}LengthPrefixed`: `k+1` length bytes -/
  | lenPrefixed (k : Fin 4) (body rest : Prog)
  /-- `AddASN1(tag, body)` -/
  | asn1 (tag : Tag) (body rest : Prog)
  /-- the builder's error is set: `AddValue` whose `Marshal` fails, `AddASN1GeneralizedTime` out of
  range, an invalid OID inside `AddASN1ObjectIdentifier`. With `keep` an error that is there already
  stays: `MarshalASN1` whose `Marshal` fails. -/
  | setErr (keep : Bool) (msg : String) (rest : Prog)
  /-- the user's code panics with a `BuildError` -/
  | throw (msg : String)
  /-- the user's code panics with something else -/
  | panic
  /-- a call on the `k`-th ancestor (0 = parent) of this builder -/
  | up (k : Nat) (act : UpAct) (rest : Prog)
  deriving Repr, DecidableEq

/-- The fields of `Builder` (/repo/cryptobyte/builder.go:23-32) except `child`, which is the next
inner element of the machine's chain, and `inContinuation`, which is shared by the whole chain. -/
structure Bd where
  err : Option String
  result : Slice
  fixedSize : Bool
  offset : Nat
  pendingLenLen : Nat
  pendingIsASN1 : Bool
  deriving Repr, DecidableEq

/-- Machine state while user code runs on `cur` (whose `child` is nil); `anc` are its ancestors, nearest
first, each having the previous one as `child`. -/
structure St where
  heap : Heap
  cur : Bd
  anc : List Bd
  inContinuation : Bool
  deriving Repr, DecidableEq

/-- How user code ended. -/
inductive Out where
  | done (st : St)
  /-- a `BuildError` panic is travelling upwards -/
  | thrown (msg : String) (st : St)
  /-- any other panic; nothing in this package stops it -/
  | panicked (h : Heap)
  deriving Repr, DecidableEq

/-- Spare capacity chosen by `append` when it reallocates. -/
abbrev Growth := Heap → Slice → Nat → Nat

/-- `(*Builder).add` on a builder without pending child (/repo/cryptobyte/builder.go:276-291). -/
def addBytes (g : Growth) (h : Heap) (b : Bd) (bytes : Bytes) : Heap × Bd :=
  if b.err.isSome then (h, b)
  else if b.fixedSize ∧ b.result.len + bytes.length > b.result.cap then
    (h, { b with err := some "cryptobyte: Builder is exceeding its fixed-size buffer" })
  else
    let (h', s) := goAppend (g h b.result bytes.length) h b.result bytes
    (h', { b with result := s })

/-- Go `s[i] = v`; out of range panics. -/
def setByte (h : Heap) (s : Slice) (i : Nat) (v : Byte) : Except Heap Heap :=
  if i < s.len then .ok (h.set s.arr (overwrite ((h[s.arr]?).getD []) (s.off + i) [v])) else .error h

/-- The loop storing the length bytes (/repo/cryptobyte/builder.go:261-265), `i` bytes to go; returns the
heap and what is left of `l`. -/
def storeLen (s : Slice) (offset : Nat) : Nat → Heap → Nat → Except Heap (Heap × Nat)
  | 0, h, l => .ok (h, l)
  | i + 1, h, l =>
    match setByte h s (offset + i) (BitVec.ofNat 8 l) with
    | .error h => .error h
    | .ok h => storeLen s offset i h (l / 256)

/-- The message for a content that does not fit its length prefix (/repo/cryptobyte/builder.go:267). -/
def pendingError (length lenLen : Nat) : String :=
  "cryptobyte: pending child length " ++ toString length ++ " exceeds " ++ toString lenLen ++ "-byte length prefix"

/-- The tail of `flushChild` (/repo/cryptobyte/builder.go:261-273). -/
def flushLen (h : Heap) (child b : Bd) (length : Nat) : Except Heap (Heap × Bd) :=
  match storeLen child.result child.offset child.pendingLenLen h length with
  | .error h => .error h
  | .ok (h, l) =>
    if l ≠ 0 then .ok (h, { b with err := some (pendingError length child.pendingLenLen) })
    else if !b.fixedSize then .ok (h, { b with result := child.result })
    else .ok (h, b)

/-- Go `copy(s[to:], s[from:])` for `from ≤ to` within one slice; the bytes move as if through a temporary.
Slicing past the length panics. -/
def copyUp (h : Heap) (s : Slice) (to from' : Nat) : Except Heap Heap :=
  if to ≤ s.len ∧ from' ≤ s.len then
    let src := ((s.get h).drop from').take (s.len - to)
    .ok (h.set s.arr (overwrite ((h[s.arr]?).getD []) (s.off + to) src))
  else .error h

/-- `lenLen`, `lenByte` and `length` of /repo/cryptobyte/builder.go:226-246 for a content of at most
0xfffffffe bytes. -/
def asn1LenForm (length : Nat) : Nat × Byte × Nat :=
  if length > 0xffffff then (5, 0x80 ||| 4, length)
  else if length > 0xffff then (4, 0x80 ||| 3, length)
  else if length > 0xff then (3, 0x80 ||| 2, length)
  else if length > 0x7f then (2, 0x80 ||| 1, length)
  else (1, BitVec.ofNat 8 length, 0)

/-- Lines 251-256 of `flushChild`: make room for more length bytes by moving the content up
(/repo/cryptobyte/builder.go:251-256). -/
def makeRoom (g : Growth) (h : Heap) (child : Bd) (extraBytes : Nat) : Except Heap (Heap × Bd) :=
  if extraBytes ≠ 0 then
    let (h, child) := addBytes g h child (List.replicate extraBytes 0)
    let childStart := child.offset + child.pendingLenLen
    match copyUp h child.result (childStart + extraBytes) childStart with
    | .error h => .error h
    | .ok h => .ok (h, child)
  else .ok (h, child)

/-- The ASN.1 case of `flushChild` (/repo/cryptobyte/builder.go:219-259). -/
def flushASN1 (g : Growth) (h : Heap) (child b : Bd) (length : Nat) : Except Heap (Heap × Bd) :=
  if child.pendingLenLen ≠ 1 then .error h
  else if length > 0xfffffffe then .ok (h, { b with err := some "pending ASN.1 child too long" })
  else
    let form := asn1LenForm length
    match setByte h child.result child.offset form.2.1 with
    | .error h => .error h
    | .ok h =>
      match makeRoom g h child (form.1 - 1) with
      | .error h => .error h
      | .ok (h, child) =>
        flushLen h { child with offset := child.offset + 1, pendingLenLen := form.1 - 1 } b form.2.2

/-- `(*Builder).flushChild` for a child that has no pending child itself
(/repo/cryptobyte/builder.go:200-274); the error case is a panic. -/
def flush1 (g : Growth) (h : Heap) (child b : Bd) : Except Heap (Heap × Bd) :=
  match child.err with
  | some e => .ok (h, { b with err := some e })
  | none =>
    if child.result.len < child.pendingLenLen + child.offset then .error h
    else
      let length := child.result.len - child.pendingLenLen - child.offset
      if child.pendingIsASN1 then flushASN1 g h child b length
      else flushLen h child b length

/-- `flushChild` on the `n`-th ancestor: pending children are flushed from the innermost outwards
(the recursion of line 204). -/
def flushN (g : Growth) : Nat → Heap → Bd → List Bd → Except Heap (Heap × Bd × List Bd)
  | 0, h, cur, anc => .ok (h, cur, anc)
  | _ + 1, h, _, [] => .error h
  | n + 1, h, cur, b :: anc =>
    match flush1 g h cur b with
    | .error h => .error h
    | .ok (h, b) => flushN g n h b anc

/-- The message for tags in high-tag-number form; `%x` prints the tag in hexadecimal without leading zeros
(/repo/cryptobyte/asn1.go:218). -/
def highTagError (tag : Tag) : String :=
  "cryptobyte: high-tag number identifier octects not supported: 0x" ++ String.ofList (Nat.toDigits 16 tag.toNat)

/-- The error of a builder after a call that reports `msg`. -/
def errAfter (old : Option String) (keep : Bool) (msg : String) : String :=
  if keep then old.getD msg else msg

/-- A call on an ancestor. Every ancestor has a pending child, so `add` panics unless the ancestor already
has an error (/repo/cryptobyte/builder.go:276-282); `addLengthPrefixed` and `AddASN1` start with an
error check and then `add` (builder.go:173-178, asn1.go:212-221). -/
def upAct (b : Bd) : UpAct → Option Bd
  | .add _ => if b.err.isSome then some b else none
  | .lenPrefixed => if b.err.isSome then some b else none
  | .asn1 tag =>
    if b.err.isSome then some b
    else if tag &&& 0x1f = 0x1f then
      some { b with err := some (highTagError tag) }
    else none
  | .setErr keep msg => some { b with err := some (errAfter b.err keep msg) }

/-- The deferred function of `callContinuation` in the outermost call (/repo/cryptobyte/builder.go:152-165)
followed by `flushChild` (line 194), after a `BuildError` panic: `depth` is the number of builders
pending below `b`. -/
def recovered (g : Growth) (msg : String) (depth : Nat) (st : St) : Except Heap St :=
  match st.anc[depth - 1]? with
  | none => .error st.heap
  | some b =>
    match flushN g depth st.heap st.cur (st.anc.set (depth - 1) { b with err := some msg }) with
    | .error h => .error h
    | .ok (h, cur, anc) => .ok ⟨h, cur, anc, false⟩

/-- The state in which a continuation starts (/repo/cryptobyte/builder.go:177-191). -/
def enter (g : Growth) (lenLen : Nat) (isASN1 : Bool) (st : St) : St :=
  let offset := st.cur.result.len
  let (h, b) := addBytes g st.heap st.cur (List.replicate lenLen 0)
  { heap := h
    cur := { err := none, result := b.result, fixedSize := b.fixedSize, offset := offset,
             pendingLenLen := lenLen, pendingIsASN1 := isASN1 }
    anc := b :: st.anc
    inContinuation := true }

/-- What `addLengthPrefixed` does once the continuation ended (/repo/cryptobyte/builder.go:152-197).
`outer` says whether this call set `inContinuation`. -/
def leave (g : Growth) (outer : Bool) (depth0 : Nat) (o : Out) : Out :=
  match o with
  | .panicked h => .panicked h
  | .done st =>
    match flushN g 1 st.heap st.cur st.anc with
    | .error h => .panicked h
    | .ok (h, cur, anc) => .done ⟨h, cur, anc, if outer then false else st.inContinuation⟩
  | .thrown msg st =>
    if outer then
      match recovered g msg (st.anc.length - depth0) st with
      | .error h => .panicked h
      | .ok st => .done st
    else .thrown msg st

/-- Sequencing of user code. -/
def Out.andThen (o : Out) (f : St → Out) : Out :=
  match o with
  | .done st => f st
  | .thrown m st => .thrown m st
  | .panicked h => .panicked h

/-- Run a program on the builder `st.cur`. -/
def exec (g : Growth) : Prog → St → Out
  | .nil, st => .done st
  | .add bs rest, st =>
    let r := addBytes g st.heap st.cur bs
    exec g rest { st with heap := r.1, cur := r.2 }
  | .lenPrefixed k body rest, st =>
    if st.cur.err.isSome then exec g rest st
    else
      (leave g (!st.inContinuation) st.anc.length (exec g body (enter g (k.val + 1) false st))).andThen
        (exec g rest)
  | .asn1 tag body rest, st =>
    if st.cur.err.isSome then exec g rest st
    else if tag &&& 0x1f = 0x1f then
      exec g rest { st with cur := { st.cur with err := some (highTagError tag) } }
    else
      let r := addBytes g st.heap st.cur [tag]
      let st : St := { st with heap := r.1, cur := r.2 }
      if st.cur.err.isSome then exec g rest st
      else
        (leave g (!st.inContinuation) st.anc.length (exec g body (enter g 1 true st))).andThen (exec g rest)
  | .setErr keep msg rest, st =>
    exec g rest { st with cur := { st.cur with err := some (errAfter st.cur.err keep msg) } }
  | .throw msg, st => .thrown msg st
  | .panic, st => .panicked st.heap
  | .up k act rest, st =>
    match st.anc[k]? with
    | none => .panicked st.heap      -- there is no such builder
    | some b =>
      match upAct b act with
      | none => .panicked st.heap    -- "attempted write while child is pending"
      | some b => exec g rest { st with anc := st.anc.set k b }

/-- `NewBuilder` / `NewFixedBuilder` (/repo/cryptobyte/builder.go:37-51). -/
def newBuilder (fixedSize : Bool) (h : Heap) (buffer : Slice) : St :=
  { heap := h, cur := ⟨none, buffer, fixedSize, 0, 0, false⟩, anc := [], inContinuation := false }

/-- `(*Builder).Bytes` (/repo/cryptobyte/builder.go:55-60) after the program ended. A panic that was not
recovered leaves the call. -/
def bytesOf : Out → Res Bytes
  | .done st =>
    match st.cur.err with
    | some e => .err e
    | none => .ok ((st.cur.result.get st.heap).drop st.cur.offset)
  | .thrown _ _ => .panic
  | .panicked _ => .panic

/-- A program run on `NewBuilder(buffer)` followed by `Bytes()`. -/
def run (g : Growth) (h : Heap) (buffer : Slice) (p : Prog) : Res Bytes :=
  bytesOf (exec g p (newBuilder false h buffer))

/-- A program run on `NewFixedBuilder(buffer)` followed by `Bytes()`. -/
def runFixed (g : Growth) (h : Heap) (buffer : Slice) (p : Prog) : Res Bytes :=
  bytesOf (exec g p (newBuilder true h buffer))

/-- `(*Builder).BytesOrPanic` (/repo/cryptobyte/builder.go:64-69). -/
def bytesOrPanic (r : Res Bytes) : Res Bytes :=
  match r with
  | .err _ => .panic
  | r => r

/-- Sequential composition of programs on the same builder. -/
def Prog.append : Prog → Prog → Prog
  | .nil, q => q
  | .add bs r, q => .add bs (r.append q)
  | .lenPrefixed k b r, q => .lenPrefixed k b (r.append q)
  | .asn1 t b r, q => .asn1 t b (r.append q)
  | .setErr k m r, q => .setErr k m (r.append q)
  | .throw m, _ => .throw m
  | .panic, _ => .panic
  | .up k a r, q => .up k a (r.append q)

/-- `(*Builder).AddValue(v)`: `Marshal` runs on the builder itself and may report an error
(/repo/cryptobyte/builder.go:304-309). -/
def addValue (marshal : Prog) (err : Option String) : Prog :=
  match err with
  | none => marshal
  | some m => marshal.append (.setErr false m .nil)

end Verif.CB
