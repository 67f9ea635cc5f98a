import Verif.Cert.Parse
import Verif.Util.Heap
/-!
# Parsed requests and certificates in memory

Which parts of a parsed request or certificate are windows of the buffer that was parsed. In encoding/asn1 (Go 1.12,
trusted base) `RawContent`, `RawValue.FullBytes` and `BitString.Bytes` are slices of the input, whereas integers, object
identifiers, strings and `[]byte` fields are copied (asn1.go: `parseField`, `parseBitString`, `parseBigInt`,
`parseObjectIdentifier`). The functions below follow the ones on values (`Der.parseField`, `Cert.tyCSR`,
`Cert.tyCertificate`, `Cert.parseCSR`, `Cert.parseCert`) with slices instead of byte lists.

Simplification: values of type OCTET STRING and BIT STRING in attributes and in `Name.Names`, which are windows of the
buffer as well, are kept as they were read. No function of the repo reads them again.
-/
namespace Verif

/-- Go `s[i:j]`. -/
def Slice.sub (s : Slice) (i j : Nat) : Slice := ⟨s.arr, s.off + i, j - i, s.cap - i⟩

end Verif

namespace Verif.Cert
open Verif Verif.Der

variable {U : Type} {α : Type}

/-- A parsed field: the value, the slice of its element, and the slice of the bytes that follow. -/
structure Loc (α : Type) where
  val : α
  elem : Slice
  rest : Slice

/-- `parseField` (asn1.go) on the bytes of a slice; an offset into `bytes` is the slice from there on. -/
def fieldAt (ty : Ty α) (p : Params) (h : Heap) (s : Slice) : Res (Loc α) := do
  let r ← parseField ty p (s.get h)
  .ok ⟨r.1, s.sub 0 (s.len - r.2.length), s.sub (s.len - r.2.length) s.len⟩

/-- A mandatory SEQUENCE (struct case of `parseField`): `val` is the slice of the contents octets, `innerBytes`. -/
def sequenceAt (h : Heap) (s : Slice) : Res (Loc Slice) := do
  let r ← parseElem 0 16 true (s.get h)
  .ok ⟨s.sub (s.len - r.2.length - r.1.length) (s.len - r.2.length), s.sub 0 (s.len - r.2.length),
    s.sub (s.len - r.2.length) s.len⟩

/-- A `BitString` field: `Bytes` is `bytes[1:]` of the contents octets (`parseBitString`, asn1.go), that is the end of
the element. -/
def bitsAt (h : Heap) (s : Slice) : Res (Loc (BitString × Slice)) := do
  let f ← fieldAt tyBits {} h s
  .ok ⟨(f.val, f.elem.sub (f.elem.len - f.val.bytes.length) f.elem.len), f.elem, f.rest⟩

/-- `publicKeyInfo` (gmx509.go:54-58); `Raw` is the slice of the element. -/
def spkiAt (h : Heap) (s : Slice) : Res (Loc PublicKeyInfo) := do
  let f ← sequenceAt h s
  let a ← fieldAt tyAlgId {} h f.val
  let b ← bitsAt h a.rest
  .ok ⟨⟨f.elem.get h, a.val, b.val.1⟩, f.elem, f.rest⟩

/-- The slices in a signed part: `Raw`, `PublicKey.Raw`, `Subject.FullBytes` and, in a certificate, `Issuer.FullBytes`. -/
structure TbsPlaces where
  raw : Slice
  spki : Slice
  subject : Slice
  issuer : Slice := ⟨0, 0, 0, 0⟩

/-- `tbsCertificateRequest` (gmx509.go:60-66). -/
def tbsCSRAt (h : Heap) (s : Slice) : Res (Loc (TbsCSR × TbsPlaces)) := do
  let f ← sequenceAt h s
  let a ← fieldAt tyInt {} h f.val
  let b ← fieldAt tyRaw {} h a.rest
  let c ← spkiAt h b.rest
  let d ← fieldAt (tySlice false tyRaw) { tag := some 0 } h c.rest
  .ok ⟨(⟨f.elem.get h, a.val, b.val, c.val, d.val⟩, { raw := f.elem, spki := c.elem, subject := b.elem }), f.elem, f.rest⟩

/-- The slices in a request or certificate: `Raw`, those of the signed part, `SignatureValue.Bytes`. -/
structure Places where
  raw : Slice
  tbs : TbsPlaces
  sig : Slice

/-- `certificateRequest` (gmx509.go:68-73). -/
def csrAt (h : Heap) (s : Slice) : Res (Loc (CSR × Places)) := do
  let f ← sequenceAt h s
  let a ← tbsCSRAt h f.val
  let b ← fieldAt tyAlgId {} h a.rest
  let c ← bitsAt h b.rest
  .ok ⟨(⟨f.elem.get h, a.val.1, b.val, c.val.1⟩, ⟨f.elem, a.val.2, c.val.2⟩), f.elem, f.rest⟩

/-- `tbsCertificate` (gmx509.go:963-977). -/
def tbsCertAt (h : Heap) (s : Slice) : Res (Loc (TbsCert × TbsPlaces)) := do
  let f ← sequenceAt h s
  let a ← fieldAt tyInt { optional := true, explicit := true, defaultValue := some 0, tag := some 0 } h f.val
  let b ← fieldAt tyBig {} h a.rest
  let c ← fieldAt tyAlgId {} h b.rest
  let d ← fieldAt tyRaw {} h c.rest
  let e ← fieldAt tyValidity {} h d.rest
  let g ← fieldAt tyRaw {} h e.rest
  let k ← spkiAt h g.rest
  let l ← fieldAt tyOptBits { optional := true, tag := some 1 } h k.rest
  let m ← fieldAt tyOptBits { optional := true, tag := some 2 } h l.rest
  let n ← fieldAt (tyOptSlice tyExtension) { optional := true, explicit := true, tag := some 3 } h m.rest
  .ok ⟨(⟨f.elem.get h, a.val, b.val, c.val, d.val, e.val, g.val, k.val, l.val, m.val, n.val⟩,
    { raw := f.elem, spki := k.elem, subject := g.elem, issuer := d.elem }), f.elem, f.rest⟩

/-- `certificate` (gmx509.go:956-961). -/
def certAt (h : Heap) (s : Slice) : Res (Loc (Certificate × Places)) := do
  let f ← sequenceAt h s
  let a ← tbsCertAt h f.val
  let b ← fieldAt tyAlgId {} h a.rest
  let c ← bitsAt h b.rest
  .ok ⟨(⟨f.elem.get h, a.val.1, b.val, c.val.1⟩, ⟨f.elem, a.val.2, c.val.2⟩), f.elem, f.rest⟩

/-- `BitString.RightAlign` (asn1.go): `Bytes` itself when there is nothing to shift, else a new array. -/
def rightAlignAt (h : Heap) (b : BitString) (place : Slice) : Slice × Heap :=
  if b.bitLength % 8 = 0 ∨ b.bytes = [] then (place, h)
  else (⟨h.length, 0, b.rightAlign.length, b.rightAlign.length⟩, h ++ [b.rightAlign])

/-- An `*x509.CertificateRequest` in memory: the slices, and the fields that do not refer to the buffer (`kept`; its
`raw…` and `signature` are of no account). -/
structure ReqMem (U : Type) where
  raw : Slice
  rawTBS : Slice
  rawSPKI : Slice
  rawSubject : Slice
  signature : Slice
  kept : CertReq U

/-- What a program sees in the request when the memory is `h`. -/
def ReqMem.view (m : ReqMem U) (h : Heap) : CertReq U :=
  { m.kept with
    raw := m.raw.get h, rawTBS := m.rawTBS.get h, rawSPKI := m.rawSPKI.get h, rawSubject := m.rawSubject.get h
    signature := m.signature.get h }

/-- `ParseCertificateRequest` (gmx509.go:275-340) on the bytes of slice `s`: the request and the memory afterwards. -/
def parseCertificateRequestAt (env : Env U) (h : Heap) (s : Slice) : Res (ReqMem U × Heap) := do
  let r ← csrAt h s
  if r.rest.len ≠ 0 then .err "trailing data"
  else do
    let out ← parseCSR env r.val.1
    let sig := rightAlignAt h r.val.1.sigValue r.val.2.sig
    .ok (⟨r.val.2.raw, r.val.2.tbs.raw, r.val.2.tbs.spki, r.val.2.tbs.subject, sig.1, out⟩, sig.2)

/-- An `*x509.Certificate` in memory. -/
structure CertMem (U : Type) where
  raw : Slice
  rawTBS : Slice
  rawSPKI : Slice
  rawSubject : Slice
  rawIssuer : Slice
  signature : Slice
  kept : X509Cert U

/-- What a program sees in the certificate when the memory is `h`. -/
def CertMem.view (m : CertMem U) (h : Heap) : X509Cert U :=
  { m.kept with
    raw := m.raw.get h, rawTBS := m.rawTBS.get h, rawSPKI := m.rawSPKI.get h, rawSubject := m.rawSubject.get h
    rawIssuer := m.rawIssuer.get h, signature := m.signature.get h }

/-- `ParseCertificate` (gmx509.go:1058-1297) on the bytes of slice `s`. -/
def parseCertificateAt (env : Env U) (h : Heap) (s : Slice) : Res (CertMem U × Heap) := do
  let r ← certAt h s
  if r.rest.len > 0 then .err "trailing data"
  else do
    let out ← parseCert env r.val.1
    let sig := rightAlignAt h r.val.1.sigValue r.val.2.sig
    .ok (⟨r.val.2.raw, r.val.2.tbs.raw, r.val.2.tbs.spki, r.val.2.tbs.subject, r.val.2.tbs.issuer, sig.1, out⟩, sig.2)

end Verif.Cert
