import Verif.Cert.Memory
/-!
# A certificate to be signed in memory

What the result of `CreateCertificateInfo` shares with the template, the parent and the request it was made from. Byte
arrays are in a heap as in Verif/Util/Heap.lean; a `*big.Int` is a place in a list of numbers.

Simplifications: `pkix.Extension.Id` is a slice of its own in Go and shared in the same way as `Value`; here it is a
value. Of the public key only `Raw` is a slice (`Algorithm.Parameters` and `PublicKey.Bytes` are windows of the same
array); when the certificate is written, `Raw` is what counts.
-/
namespace Verif.Cert
open Verif Verif.Der

variable {U : Type}

/-- All byte arrays, and all `big.Int`s. -/
structure Memory where
  heap : Heap
  ints : List Int

/-- A `pkix.Extension`: `Value` is a slice. -/
structure ExtMem where
  id : OID
  critical : Bool
  value : Slice

/-- What a program sees in the extension. -/
def ExtMem.view (e : ExtMem) (h : Heap) : Extension := ⟨e.id, e.critical, e.value.get h⟩

/-- An `*x509.Certificate` used as template or parent: the slices and the number that `CreateCertificateInfo` reads
(gmx509.go:985-1036), and the other fields (`kept`). -/
structure TemplateMem (U : Type) where
  rawSubject : Slice
  subjectKeyId : Slice
  authorityKeyId : Slice
  serial : Option Nat
  extra : List ExtMem
  kept : X509Cert U

/-- What a program sees in the template. -/
def TemplateMem.view (t : TemplateMem U) (m : Memory) : X509Cert U :=
  { t.kept with
    rawSubject := t.rawSubject.get m.heap, subjectKeyId := t.subjectKeyId.get m.heap
    authorityKeyId := t.authorityKeyId.get m.heap
    serialNumber := t.serial.map fun p => (m.ints[p]?).getD 0
    extraExtensions := t.extra.map fun e => e.view m.heap }

/-- A `*TBSCertificate` (gmx509.go:963-977): the slices, the number, and the other fields (`kept`). -/
structure InfoMem where
  raw : Slice
  serial : Nat
  issuer : Slice
  subject : Slice
  spki : Slice
  extensions : List ExtMem
  kept : TbsCert

/-- What a program sees in the certificate to be signed. -/
def InfoMem.view (c : InfoMem) (m : Memory) : TbsCert :=
  { c.kept with
    raw := c.raw.get m.heap, serial := (m.ints[c.serial]?).getD 0
    issuer := { fullBytes := c.issuer.get m.heap }, subject := { fullBytes := c.subject.get m.heap }
    publicKey := { c.kept.publicKey with raw := c.spki.get m.heap }
    extensions := some (c.extensions.map fun e => e.view m.heap) }

/-- A new array with the given bytes. -/
def alloc (h : Heap) (bs : Bytes) : Slice × Heap := (⟨h.length, 0, bs.length, bs.length⟩, h ++ [bs])

/-- The extensions with their values in new arrays. -/
def allocAll : Heap → List Extension → List ExtMem × Heap
  | h, [] => ([], h)
  | h, e :: es => (⟨e.id, e.critical, (alloc h e.value).1⟩ :: (allocAll (alloc h e.value).2 es).1, (allocAll (alloc h e.value).2 es).2)

/-- `subjectBytes` (gmx509.go:553-559): the slice itself, or what `asn1.Marshal` allocates. -/
def subjectBytesAt (h : Heap) (rawSubject : Slice) (subject : Name) : Res (Slice × Heap) :=
  if rawSubject.len > 0 then .ok (rawSubject, h)
  else do
    let b ← marshal tyRDNSequence subject.toRDNSequence
    .ok (alloc h b)

/-- `buildExtensions` (gmx509.go:691-950): the values of the extensions that are built are new arrays (`asn1.Marshal`,
`Builder.Bytes`), those of `template.ExtraExtensions` are copied with their slices by the `append` at gmx509.go:949. -/
def buildExtensionsAt (env : Env U) (m : Memory) (t : TemplateMem U) (subjectIsEmpty : Bool) (authorityKeyId : Slice) :
    Res (List ExtMem × Heap) := do
  let all ← buildExtensions env (t.view m) subjectIsEmpty (authorityKeyId.get m.heap)
  let own := allocAll m.heap (all.take (all.length - t.extra.length))
  .ok (own.1 ++ t.extra, own.2)

/-- `CreateCertificateInfo` (gmx509.go:985-1036). -/
def createCertificateInfoAt (env : Env U) (m : Memory) (template parent : TemplateMem U) (csr : ReqMem U) :
    Res (InfoMem × Memory) :=
  match template.serial with
  | none => .err "x509: no SerialNumber given"
  | some serial => do
    let issuer ← subjectBytesAt m.heap parent.rawSubject parent.kept.subject
    let subject ← subjectBytesAt issuer.2 template.rawSubject template.kept.subject
    let m₂ : Memory := ⟨subject.2, m.ints⟩
    let authorityKeyId := if issuer.1.get m₂.heap ≠ subject.1.get m₂.heap ∧ parent.subjectKeyId.len > 0 then parent.subjectKeyId
      else template.authorityKeyId
    let exts ← buildExtensionsAt env m₂ template (subject.1.get m₂.heap = emptyASN1Subject) authorityKeyId
    let m₃ : Memory := ⟨exts.2, m.ints⟩
    let key ← spkiAt m₃.heap csr.rawSPKI
    if key.rest.len ≠ 0 then .err "trailing data"
    else do
      let c : InfoMem := {
        raw := ⟨0, 0, 0, 0⟩
        serial := serial
        issuer := issuer.1
        subject := subject.1
        spki := key.elem
        extensions := exts.1
        kept := { version := 2, sigAlg := sigAlgSM3WithSM2, publicKey := key.val
                  validity := ⟨toUTC template.kept.notBefore, toUTC template.kept.notAfter⟩ } }
      let tbsCertContents ← marshal tyTbsCert (c.view m₃)
      let raw := alloc m₃.heap tbsCertContents
      .ok ({ c with raw := raw.1 }, ⟨raw.2, m.ints⟩)

end Verif.Cert
