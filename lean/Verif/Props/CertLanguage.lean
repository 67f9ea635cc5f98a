import Verif.Props.CertTlvExact
import Verif.Props.CertAsked
/-!
# C143: exactly which byte strings are requests

The grammar of what `ParseCertificateRequest` accepts, octet by octet: object identifiers with up to five septets for each
number, elements of any tag, more octets at the end of every SEQUENCE. `C143_exact` says that the function accepts the words
of this grammar and nothing else, and with which results.
-/
namespace Verif.Props
open Verif Verif.Der Verif.Cert Verif.Spec.DER Verif.Spec.Cert
open Verif.Spec.SM2 (coords fe)

variable {U : Type}

/-! ## Grammar -/

/-- The contents octets of an object identifier: for every number at most five septets, not necessarily the fewest; numbers
below 2^31. -/
def ReadOID (oid : List ℕ) (c : Bytes) : Prop :=
  ValidOID oid ∧ ∃ gs : List Bytes, c = gs.flatten ∧
    List.Forall₂ (fun n g => IsGroup g ∧ g.length ≤ 5 ∧ subValue g = n ∧ n < 2 ^ 31) (subids oid) gs

/-- An element of any tag. -/
def AnyElement (e : Bytes) : Prop := ∃ cls constructed tag c, ReadTLV cls constructed tag c e

/-- `AlgorithmIdentifier`: the algorithm, and parameters or nothing; more octets may follow the parameters. -/
def ReadAlg (oid : List ℕ) (params : Option Bytes) (e : Bytes) : Prop :=
  ∃ oc rest, ReadOID oid oc ∧ e = elem 0x30 (elem 0x06 oc ++ rest) ∧
    (rest = [] ∧ params = none ∨ ∃ p more, rest = p ++ more ∧ AnyElement p ∧ params = some p)

/-- The contents octets of a bit string whose bits, moved to the right, are `bytes`; the unused bits are zero. -/
def ReadBits (bytes c : Bytes) : Prop :=
  ∃ (pad : Byte) (bits : Bytes), c = pad :: bits ∧ pad.toNat ≤ 7 ∧ (bits = [] → pad = 0) ∧ bits.length = bytes.length ∧
    beNat bits = beNat bytes * 2 ^ pad.toNat

/-- `SubjectPublicKeyInfo` for a point of the curve. -/
def ReadKey (x y : ℕ) (e : Bytes) : Prop :=
  ∃ alg curve c more, IsPoint x y ∧ ReadAlg ecPublicKey (some (elem 0x06 curve)) alg ∧ ReadOID sm2Curve curve ∧
    ReadBits (4 :: (fe x ++ fe y)) c ∧ e = elem 0x30 (alg ++ (elem 0x03 c ++ more))

/-- `Extension`. -/
def ReadExtension (e : Extension) (w : Bytes) : Prop :=
  ∃ oc crit more, ReadOID e.id oc ∧ (crit = [] ∧ e.critical = false ∨ crit = elem 0x01 [if e.critical then 0xff else 0]) ∧
    w = elem 0x30 (elem 0x06 oc ++ (crit ++ (elem 0x04 e.value ++ more)))

/-- An attribute of type extensionRequest whose first value is `v`. -/
def FirstValue (v a : Bytes) : Prop :=
  ∃ oc values more, ReadOID [1, 2, 840, 113549, 1, 9, 14] oc ∧ (∀ x ∈ v :: values, AnyElement x) ∧
    a = elem 0x30 (elem 0x06 oc ++ (elem 0x31 (v :: values).flatten ++ more))

/-- What an attribute asks for: nothing, unless it is of type extensionRequest; then its first value has to be a list of extensions. -/
def AsksFor (a : Bytes) (es : List Extension) : Prop :=
  (∃ v ws, FirstValue v a ∧ v = elem 0x30 ws.flatten ∧ List.Forall₂ ReadExtension es ws) ∨ ((¬ ∃ v, FirstValue v a) ∧ es = [])

/-- The names in a SAN extension (as `C72_exact`). -/
def ReadSANs (env : Env U) (value : Bytes) (s : Sans U) : Prop :=
  ∃ items : List (ℕ × Bool × ℕ × Bytes × Bytes), (∀ x ∈ items, ReadTLV x.1 x.2.1 x.2.2.1 x.2.2.2.1 x.2.2.2.2) ∧
    value = elem 0x30 (items.flatMap fun x => x.2.2.2.2) ∧ (items.flatMap fun x => x.2.2.2.2).length < 2 ^ 31 ∧
    s.emailAddresses = withTag 1 items ∧ s.dnsNames = withTag 2 items ∧ s.ipAddresses = withTag 7 items ∧
    (∀ ip ∈ withTag 7 items, ip.length = 4 ∨ ip.length = 16) ∧
    List.Forall₂ (fun v u => env.parseURL v = some u ∧ (env.urlHost u = [] ∨ AcceptedDomain (env.urlHost u))) (withTag 6 items) s.uris

/-- The names of a list of extensions: all SAN extensions can be read, the last one counts. -/
def SansOf (env : Env U) (exts : List Extension) (s : Sans U) : Prop :=
  (∀ e ∈ exts, e.id = [2, 5, 29, 17] → ∃ q, ReadSANs env e.value q) ∧
  ((∃ l1 e l2, exts = l1 ++ e :: l2 ∧ e.id = [2, 5, 29, 17] ∧ (∀ x ∈ l2, x.id ≠ [2, 5, 29, 17]) ∧ ReadSANs env e.value s) ∨
   ((∀ e ∈ exts, e.id ≠ [2, 5, 29, 17]) ∧ s = {}))

/-- `CertificationRequestInfo`. -/
def ReadRequestInfo (version : Int) (subject key : Bytes) (attrs : List Bytes) (tbs : Bytes) : Prop :=
  ∃ vc more, IsInt version vc ∧ vc.length ≤ 8 ∧ (∀ a ∈ attrs, AnyElement a) ∧
    tbs = elem 0x30 (elem 0x02 vc ++ (subject ++ (key ++ (elem 0xa0 attrs.flatten ++ more))))

/-- The whole request. -/
def ReadRequest (env : Env U) (version : Int) (subject key : Bytes) (x y : ℕ) (exts : List Extension) (s : Sans U) (tbs signature data : Bytes) : Prop :=
  ∃ rdns attrs pieces alg params sc more, ReadRequestInfo version subject key attrs tbs ∧ ReadName rdns subject ∧ ReadKey x y key ∧
    List.Forall₂ AsksFor attrs pieces ∧ exts = pieces.flatten ∧ SansOf env exts s ∧ ReadAlg sm3WithSM2 params alg ∧ ReadBits signature sc ∧
    data = elem 0x30 (tbs ++ (alg ++ (elem 0x03 sc ++ more))) ∧ (tbs ++ (alg ++ (elem 0x03 sc ++ more))).length < 2 ^ 31

/-! ## The pieces -/

theorem readOID_iff (oid : List ℕ) (c : Bytes) : ReadOID oid c ↔ parseObjectIdentifier c = .ok oid :=
  (parseObjectIdentifier_iff c oid).symm

theorem parseField_oid_exact {bs rest : Bytes} {v : OID} : parseField tyOID {} bs = .ok (v, rest) ↔
    ∃ c, c.length < 2 ^ 31 ∧ bs = elem 0x06 c ++ rest ∧ ReadOID v c := by
  simp only [readOID_iff]
  exact parseField_iff (p := {}) rfl rfl rfl rfl (by decide)

theorem parseField_slice_exact {s : Bool} {α : Type} {ty : Ty α} {bs rest : Bytes} {v : List α} : parseField (tySlice s ty) {} bs = .ok (v, rest) ↔
    ∃ c, c.length < 2 ^ 31 ∧ bs = elem (if s then 0x31 else 0x30) c ++ rest ∧ parseSequenceOf ty c = .ok v := by
  cases s
  · exact parseField_iff (p := {}) rfl rfl rfl rfl (show (16 : ℕ) < 31 by decide)
  · exact parseField_iff (p := {}) rfl rfl rfl rfl (show (17 : ℕ) < 31 by decide)

theorem raws_of {es : List Bytes} (h : ∀ e ∈ es, AnyElement e) :
    ∃ vs : List RawValue, es = vs.map RawValue.fullBytes ∧ ∀ v ∈ vs, ReadTLV v.cls v.isCompound v.tag v.bytes v.fullBytes := by
  induction es with
  | nil => exact ⟨[], rfl, by simp⟩
  | cons e es ih =>
    rw [List.forall_mem_cons] at h
    obtain ⟨vs, rfl, hv⟩ := ih h.2
    obtain ⟨cls, cmp, tag, c, h1⟩ := h.1
    exact ⟨⟨cls, tag, cmp, c, e⟩ :: vs, rfl, by rw [List.forall_mem_cons]; exact ⟨h1, hv⟩⟩

theorem anyElement_pos {e : Bytes} (h : AnyElement e) : 0 < e.length := by
  obtain ⟨cls, cmp, tag, c, h⟩ := h
  have := tlv_pos h.tlv
  omega

/-- A parameter that may be absent. -/
theorem parseField_optRaw {bs rest : Bytes} {v : RawValue} : parseField tyRaw { optional := true } bs = .ok (v, rest) ↔
    (bs = [] ∧ v = {} ∧ rest = []) ∨ (parseField tyRaw {} bs = .ok (v, rest)) := by
  by_cases hb : bs = []
  · subst hb
    have e1 : parseField tyRaw { optional := true } [] = .ok (tyRaw.zero, []) := rfl
    have e2 : parseField tyRaw {} [] = .err "sequence truncated" := rfl
    rw [e1, e2]
    simp only [Res.ok.injEq, Prod.mk.injEq, reduceCtorEq, or_false, true_and]
    constructor
    · rintro ⟨rfl, rfl⟩; exact ⟨rfl, rfl⟩
    · rintro ⟨rfl, rfl⟩; exact ⟨rfl, rfl⟩
  · have : parseField tyRaw { optional := true } bs = parseField tyRaw {} bs := by
      unfold parseField
      rw [if_neg hb, if_neg hb]
      congr 1
    rw [this]
    simp [hb]

/-- The contents of an algorithm identifier. -/
theorem algId_body {c full : Bytes} {t : TagAndLength} {u : ℕ} {v : AlgId} (hl : c.length < 2 ^ 31) : tyAlgId.body t u c full = .ok v ↔
    ∃ oc rest, ReadOID v.algorithm oc ∧ c = elem 0x06 oc ++ rest ∧
      (rest = [] ∧ v.parameters = {} ∨ ∃ more, rest = v.parameters.fullBytes ++ more ∧
        ReadTLV v.parameters.cls v.parameters.isCompound v.parameters.tag v.parameters.bytes v.parameters.fullBytes) := by
  have e : tyAlgId.body t u c full = (do
    let a ← parseField tyOID {} c
    let b ← parseField tyRaw { optional := true } a.2
    Res.ok (⟨a.1, b.1⟩ : AlgId)) := rfl
  rw [e]
  simp only [Res.bind_eq_ok]
  constructor
  · rintro ⟨⟨o, r1⟩, g1, ⟨q, r2⟩, g2, g3⟩
    simp only [Res.ok.injEq] at g3
    subst g3
    obtain ⟨oc, _, rfl, g4⟩ := parseField_oid_exact.1 g1
    refine ⟨oc, r1, g4, rfl, ?_⟩
    rcases parseField_optRaw.1 g2 with ⟨h1, h2, _⟩ | h
    · exact .inl ⟨h1, h2⟩
    · obtain ⟨h1, h2⟩ := (parseField_raw_exact _ _ _).1 h
      exact .inr ⟨r2, h2, h1⟩
  · rintro ⟨oc, rest, h1, rfl, h2⟩
    have l1 := length_le_elem 0x06 oc
    rw [List.length_append] at hl
    refine ⟨(v.algorithm, rest), parseField_oid_exact.2 ⟨oc, by omega, rfl, h1⟩, ?_⟩
    rcases h2 with ⟨rfl, h2⟩ | ⟨more, rfl, h2⟩
    · exact ⟨({}, []), parseField_optRaw.2 (.inl ⟨rfl, rfl, rfl⟩), by obtain ⟨a, b⟩ := v; simp_all⟩
    · exact ⟨(v.parameters, more), parseField_optRaw.2 (.inr ((parseField_raw_exact _ _ _).2 ⟨h2, rfl⟩)), rfl⟩

theorem parseField_algId_exact {bs rest : Bytes} {v : AlgId} : parseField tyAlgId {} bs = .ok (v, rest) ↔
    ∃ c, c.length < 2 ^ 31 ∧ bs = elem 0x30 c ++ rest ∧ tyAlgId.body ⟨0, true, 16, c.length⟩ 16 c (elem 0x30 c) = .ok v :=
  parseField_iff (p := {}) rfl rfl rfl rfl (show (16 : ℕ) < 31 by decide)

/-- The elements of a SEQUENCE OF anything. -/
theorem parseSequenceOf_raw_exact (bs : Bytes) (vs : List RawValue) : parseSequenceOf tyRaw bs = .ok vs ↔
    bs = (vs.map RawValue.fullBytes).flatten ∧ ∀ v ∈ vs, ReadTLV v.cls v.isCompound v.tag v.bytes v.fullBytes := by
  have elems : ∀ (vs : List RawValue) (bs : Bytes), (∃ junk, bs = (vs.map RawValue.fullBytes).flatten ++ junk) ∧
      (∀ v ∈ vs, ReadTLV v.cls v.isCompound v.tag v.bytes v.fullBytes) ↔ parseElems tyRaw vs.length bs = .ok vs := by
    intro vs
    induction vs with
    | nil => intro bs; simp [parseElems]
    | cons v vs ih =>
      intro bs
      rw [List.length_cons, parseElems, Res.bind_eq_ok]
      constructor
      · rintro ⟨⟨junk, rfl⟩, h⟩
        rw [List.forall_mem_cons] at h
        refine ⟨(v, (vs.map RawValue.fullBytes).flatten ++ junk), (parseField_raw_exact _ _ _).2 ⟨h.1, by simp⟩, ?_⟩
        rw [(ih _).1 ⟨⟨junk, rfl⟩, h.2⟩]
        rfl
      · rintro ⟨⟨w, rest⟩, h1, h2⟩
        rw [Res.bind_eq_ok] at h2
        obtain ⟨l, h2, h3⟩ := h2
        simp only [Res.ok.injEq, List.cons.injEq] at h3
        obtain ⟨rfl, rfl⟩ := h3
        obtain ⟨k1, rfl⟩ := (parseField_raw_exact _ _ _).1 h1
        obtain ⟨⟨junk, k2⟩, k3⟩ := (ih _).2 h2
        refine ⟨⟨junk, ?_⟩, ?_⟩
        · dsimp only at k2; rw [k2]; simp
        · rw [List.forall_mem_cons]; exact ⟨k1, k3⟩
  have count : ∀ (vs : List RawValue) (fuel : ℕ), (∀ v ∈ vs, ReadTLV v.cls v.isCompound v.tag v.bytes v.fullBytes) →
      (vs.map RawValue.fullBytes).flatten.length ≤ fuel → countElems tyRaw fuel (vs.map RawValue.fullBytes).flatten = .ok vs.length := by
    intro vs
    induction vs with
    | nil => intro fuel _ _; cases fuel <;> rfl
    | cons v vs ih =>
      intro fuel h hf
      rw [List.forall_mem_cons] at h
      obtain ⟨⟨id, h1, h2, h3, h4, h5⟩, h6⟩ := h
      rw [List.map_cons, List.flatten_cons, List.length_append] at hf
      rw [List.map_cons, List.flatten_cons]
      have hp := tlv_pos (ReadTLV.tlv ⟨id, h1, h2, h3, h4, h5⟩)
      cases fuel with
      | zero => omega
      | succ fuel =>
        have h7 := (parseTagAndLength_exact (id ++ lenOctets v.bytes.length ++ (v.bytes ++ (vs.map RawValue.fullBytes).flatten))
          (v.bytes ++ (vs.map RawValue.fullBytes).flatten) ⟨v.cls, v.isCompound, v.tag, v.bytes.length⟩).2 ⟨id, h1, h2, h3, h4, rfl⟩
        rw [← List.append_assoc, ← h5] at h7
        obtain ⟨b, r, hb⟩ : ∃ b r, v.fullBytes ++ (vs.map RawValue.fullBytes).flatten = b :: r := by
          cases hv : v.fullBytes with
          | nil => rw [hv] at hp; simp at hp
          | cons b r => exact ⟨b, _, rfl⟩
        rw [hb] at h7 ⊢
        rw [countElems_cons, h7, Res.ok_bind]
        dsimp only
        rw [if_neg (by simp [tyRaw]), if_neg (by simp), List.drop_left' rfl, ih fuel h6 (by omega)]
        rfl
  constructor
  · intro h
    refine ⟨(parseSequenceOf_raw_sound h).1, ?_⟩
    unfold parseSequenceOf at h
    rw [Res.bind_eq_ok] at h
    obtain ⟨n, _, h2⟩ := h
    have hn : ∀ (n : ℕ) (bs : Bytes) (vs : List RawValue), parseElems tyRaw n bs = .ok vs → vs.length = n := by
      intro n
      induction n with
      | zero => intro bs vs h; simp only [parseElems, Res.ok.injEq] at h; subst h; rfl
      | succ n ih =>
        intro bs vs h
        rw [parseElems, Res.bind_eq_ok] at h
        obtain ⟨r, _, h⟩ := h
        rw [Res.bind_eq_ok] at h
        obtain ⟨l, h, h'⟩ := h
        simp only [Res.ok.injEq] at h'
        subst h'
        rw [List.length_cons, ih _ _ h]
    obtain rfl := hn _ _ _ h2
    exact ((elems _ _).2 h2).2
  · rintro ⟨rfl, h⟩
    unfold parseSequenceOf
    rw [count vs _ h le_rfl, Res.ok_bind]
    exact (elems _ _).1 ⟨⟨[], by simp⟩, h⟩

theorem parseSequenceOf_raw_any {bs : Bytes} : (∃ vs, parseSequenceOf tyRaw bs = .ok vs) ↔ ∃ es : List Bytes, bs = es.flatten ∧ ∀ e ∈ es, AnyElement e := by
  constructor
  · rintro ⟨vs, h⟩
    obtain ⟨h1, h2⟩ := (parseSequenceOf_raw_exact _ _).1 h
    refine ⟨_, h1, ?_⟩
    intro e he
    obtain ⟨v, hv, rfl⟩ := List.mem_map.1 he
    exact ⟨_, _, _, _, h2 v hv⟩
  · rintro ⟨es, rfl, h⟩
    obtain ⟨vs, rfl, hv⟩ := raws_of h
    exact ⟨vs, (parseSequenceOf_raw_exact _ _).2 ⟨rfl, hv⟩⟩

/-! ## Extensions -/

theorem parseBool_exact {c : Bytes} {b : Bool} : parseBool c = .ok b ↔ c = [if b then 0xff else 0] := by
  unfold parseBool
  constructor
  · intro h
    split at h
    · rename_i x
      split at h
      · rename_i hz; simp only [Res.ok.injEq] at h; subst h hz; rfl
      · split at h
        · rename_i hz; simp only [Res.ok.injEq] at h; subst h hz; rfl
        · simp at h
    · simp at h
  · rintro rfl
    cases b <;> rfl

theorem extension_exact {e : Extension} {c full : Bytes} {t : TagAndLength} {u : ℕ} (hl : c.length < 2 ^ 31) :
    tyExtension.body t u c full = .ok e ↔ ReadExtension e (elem 0x30 c) := by
  have h' : tyExtension.body t u c full = (do
    let a ← parseField tyOID {} c
    let b ← parseField tyBool { optional := true } a.2
    let d ← parseField tyBytes {} b.2
    Res.ok (⟨a.1, b.1, d.1⟩ : Extension)) := rfl
  rw [h']
  simp only [Res.bind_eq_ok]
  constructor
  · rintro ⟨⟨id, r1⟩, g1, ⟨cr, r2⟩, g2, ⟨va, r3⟩, g3, g4⟩
    simp only [Res.ok.injEq] at g4
    subst g4
    dsimp only at g2 g3 ⊢
    obtain ⟨oc, _, rfl, ho⟩ := parseField_oid_exact.1 g1
    obtain ⟨vc, _, hv, hvb⟩ := (parseField_iff (p := {}) rfl rfl rfl rfl (by decide)).1 g3
    have hvb' : vc = va := by simpa [tyBytes] using hvb
    subst hvb'
    have hv' : r2 = elem 0x04 vc ++ r3 := hv
    rcases parseField_optional (p := { optional := true }) rfl rfl rfl rfl (by decide) g2 with ⟨bc, _, hb, hbb⟩ | ⟨ha, hb, _⟩
    · refine ⟨oc, elem 0x01 bc, r3, ho, .inr ?_, ?_⟩
      · rw [parseBool_exact.1 hbb]
      · have hb' : r1 = elem 0x01 bc ++ r2 := hb
        rw [hb', hv']
    · refine ⟨oc, [], r3, ho, .inl ⟨rfl, ha⟩, ?_⟩
      rw [← hb, hv', List.nil_append]
  · rintro ⟨oc, crit, more, h1, h2, h3⟩
    obtain ⟨_, rfl⟩ := elem_whole (by have := elem_length_le (t := 0x30) hl; omega) h3
    have l1 := length_le_elem 0x06 oc
    have l2 := length_le_elem 0x04 e.value
    simp only [List.length_append] at hl
    have k3 : parseField tyBytes {} (elem 0x04 e.value ++ more) = .ok (e.value, more) :=
      parseField_elem (ty := tyBytes) (p := {}) more rfl rfl rfl (by decide) (by omega) rfl
    refine ⟨(e.id, crit ++ (elem 0x04 e.value ++ more)), parseField_oid_exact.2 ⟨oc, by omega, rfl, h1⟩,
      (e.critical, elem 0x04 e.value ++ more), ?_, (e.value, more), k3, rfl⟩
    rcases h2 with ⟨rfl, h2⟩ | rfl
    · rw [h2, List.nil_append]
      exact parseField_skip (ty := tyBool) (p := { optional := true }) (cls := 0) (tag := 4) (cmp := false) more rfl rfl rfl rfl (by decide) (by decide)
        (by omega) (.inr (by decide))
    · exact parseField_elem (ty := tyBool) (p := { optional := true }) _ rfl rfl rfl (by decide) (by simp) (parseBool_exact.2 rfl)

theorem parseSequenceOf_extensions {bs : Bytes} {es : List Extension} (hl : bs.length < 2 ^ 31) : parseSequenceOf tyExtension bs = .ok es ↔
    ∃ ws : List Bytes, bs = ws.flatten ∧ List.Forall₂ ReadExtension es ws := by
  constructor
  · intro h
    obtain ⟨ws, rfl, h'⟩ := parseSequenceOf_sound rfl rfl (by decide) h
    refine ⟨ws, rfl, ?_⟩
    have hw : ∀ w ∈ ws, w.length < 2 ^ 31 := fun w hw => by have := length_le_flatten hw; omega
    clear hl h
    induction h' with
    | nil => exact .nil
    | @cons e w es ws h _ ih =>
      obtain ⟨c, rfl, h⟩ := h
      refine .cons ?_ (ih fun x hx => hw x (by simp [hx]))
      have l1 := hw _ (List.mem_cons_self)
      have l2 := length_le_elem (idOctet 0 tyExtension.tag tyExtension.compound) c
      exact (extension_exact (by omega)).1 h
  · rintro ⟨ws, rfl, h⟩
    apply parseSequenceOf_ok
    have hw : ∀ w ∈ ws, w.length < 2 ^ 31 := fun w hw => by have := length_le_flatten hw; omega
    clear hl
    induction h with
    | nil => exact .nil
    | @cons e w es ws h _ ih =>
      refine .cons ?_ (ih fun x hx => hw x (by simp [hx]))
      obtain ⟨oc, crit, more, h1, h2, rfl⟩ := h
      have l1 := hw _ (List.mem_cons_self)
      have l2 := length_le_elem 0x30 (elem 0x06 oc ++ (crit ++ (elem 0x04 e.value ++ more)))
      refine ⟨⟨0, 16, true, ⟨_, by omega, rfl⟩, by decide, by decide, .inr ⟨rfl, rfl, rfl⟩⟩, ?_⟩
      intro rest
      exact parseField_elem (ty := tyExtension) (p := {}) rest rfl rfl rfl (by decide) (by omega)
        ((extension_exact (by omega)).2 ⟨oc, crit, more, h1, h2, rfl⟩)

theorem firstValue_iff {v a : Bytes} (hl : a.length < 2 ^ 31) : FirstValue v a ↔
    ∃ v0 vs, unmarshal tyPkcs10Attribute a = .ok (⟨oidExtensionRequest, v0 :: vs⟩, []) ∧ v0.fullBytes = v ∧ AnyElement v := by
  constructor
  · rintro ⟨oc, values, more, h1, h2, rfl⟩
    obtain ⟨vs, h3, h4⟩ := raws_of h2
    cases vs with
    | nil => simp at h3
    | cons v0 vs =>
      simp only [List.map_cons, List.cons.injEq] at h3
      obtain ⟨rfl, rfl⟩ := h3
      refine ⟨v0, vs, ?_, rfl, h2 _ (by simp)⟩
      have l0 := length_le_elem 0x30 (elem 0x06 oc ++ (elem 0x31 (v0.fullBytes :: List.map RawValue.fullBytes vs).flatten ++ more))
      have l1 := length_le_elem 0x31 (v0.fullBytes :: List.map RawValue.fullBytes vs).flatten
      have l2 := length_le_elem 0x06 oc
      have l3 := l0
      rw [List.length_append, List.length_append] at l3
      have k1 : parseField tyOID {} (elem 0x06 oc ++ (elem 0x31 (v0.fullBytes :: List.map RawValue.fullBytes vs).flatten ++ more)) = .ok (_, _) :=
        parseField_oid_exact.2 ⟨oc, by omega, rfl, h1⟩
      have k2 : parseField (tySlice false tyRaw) { set := true } (elem 0x31 (v0.fullBytes :: List.map RawValue.fullBytes vs).flatten ++ more) =
          .ok (v0 :: vs, more) :=
        parseField_elem (ty := tySlice false tyRaw) (p := { set := true }) more rfl rfl rfl (by decide) (by omega)
          ((parseSequenceOf_raw_exact _ _).2 ⟨rfl, h4⟩)
      have := parseField_elem (ty := tyPkcs10Attribute) (p := {}) (v := ⟨oidExtensionRequest, v0 :: vs⟩) [] rfl rfl rfl (by decide)
        (c := elem 0x06 oc ++ (elem 0x31 (v0.fullBytes :: List.map RawValue.fullBytes vs).flatten ++ more)) (by omega) (by
          unfold tyPkcs10Attribute tyStruct
          dsimp only
          rw [k1, Res.ok_bind, k2, Res.ok_bind]
          rfl)
      rw [List.append_nil] at this
      exact this
  · rintro ⟨v0, vs, h, rfl, h'⟩
    obtain ⟨c, hc, hb, g⟩ := parseField_struct h
    simp only [Res.bind_eq_ok] at g
    obtain ⟨⟨o, q1⟩, g1, ⟨ws, q2⟩, g2, g3⟩ := g
    simp only [Res.ok.injEq, Pkcs10Attribute.mk.injEq] at g3
    obtain ⟨rfl, rfl⟩ := g3
    dsimp only at g2
    obtain ⟨oc, _, rfl, ho⟩ := parseField_oid_exact.1 g1
    obtain ⟨c2, _, hv, hvb⟩ := (parseField_iff (p := { set := true }) rfl rfl rfl rfl (by decide)).1 g2
    obtain ⟨rfl, hv2⟩ := (parseSequenceOf_raw_exact _ _).1 hvb
    refine ⟨oc, vs.map RawValue.fullBytes, q2, ho, ?_, ?_⟩
    · intro x hx
      rw [← List.map_cons, List.mem_map] at hx
      obtain ⟨y, hy, rfl⟩ := hx
      exact ⟨_, _, _, _, hv2 y hy⟩
    · rw [hb, List.append_nil, hv]
      rfl

theorem firstValue_unique {v v' a : Bytes} (hl : a.length < 2 ^ 31) (h : FirstValue v a) (h' : FirstValue v' a) : v = v' := by
  obtain ⟨x, xs, h1, rfl, _⟩ := (firstValue_iff hl).1 h
  obtain ⟨y, ys, h2, rfl, _⟩ := (firstValue_iff hl).1 h'
  rw [h1] at h2
  simp only [Res.ok.injEq, Prod.mk.injEq, Pkcs10Attribute.mk.injEq, List.cons.injEq] at h2
  rw [h2.1.2.1]

theorem firstValue_length {v a : Bytes} (h : FirstValue v a) : v.length < a.length := by
  obtain ⟨oc, values, more, h1, h2, rfl⟩ := h
  have l0 := length_le_elem 0x30 (elem 0x06 oc ++ (elem 0x31 (v :: values).flatten ++ more))
  have l1 := length_le_elem 0x31 (v :: values).flatten
  have l2 : v.length ≤ (v :: values).flatten.length := by simp
  have l3 := l0
  rw [List.length_append, List.length_append] at l3
  omega

theorem extensionList_exact {v : Bytes} {es : List Extension} (hv : AnyElement v) (hl : v.length < 2 ^ 31) :
    (∃ rest, unmarshal (tySlice false tyExtension) v = .ok (es, rest)) ↔ ∃ ws, v = elem 0x30 ws.flatten ∧ List.Forall₂ ReadExtension es ws := by
  constructor
  · rintro ⟨rest, h⟩
    obtain ⟨c, hc, h1, h2⟩ := parseField_slice_exact.1 h
    obtain ⟨ws, rfl, h3⟩ := (parseSequenceOf_extensions hc).1 h2
    refine ⟨ws, ?_, h3⟩
    obtain ⟨cls, cmp, tag, c, h4⟩ := hv
    have a1 := (parseField_raw_exact v [] ⟨cls, tag, cmp, c, v⟩).2 ⟨h4, by simp⟩
    have a2 := (parseField_raw_exact v rest ⟨0, 16, true, ws.flatten, elem 0x30 ws.flatten⟩).2 ⟨readTLV_low (show 16 < 31 by decide) hc ⟨[0x30], ⟨show 0 < 4 by decide, .inl ⟨show 16 < 31 by decide, rfl⟩⟩, rfl⟩, h1⟩
    rw [a1] at a2
    simp only [Res.ok.injEq, Prod.mk.injEq, RawValue.mk.injEq] at a2
    exact a2.1.2.2.2.2
  · rintro ⟨ws, rfl, h⟩
    have l := length_le_elem 0x30 ws.flatten
    exact ⟨[], parseField_slice_exact.2 ⟨ws.flatten, by omega, by rw [List.append_nil]; rfl, (parseSequenceOf_extensions (by omega)).2 ⟨ws, rfl, h⟩⟩⟩

theorem csrExtensionsOf_exact {raw : RawValue} {es : List Extension} (hl : raw.fullBytes.length < 2 ^ 31) : csrExtensionsOf raw = .ok es ↔ AsksFor raw.fullBytes es := by
  by_cases hf : ∃ v, FirstValue v raw.fullBytes
  · obtain ⟨v, hf⟩ := hf
    obtain ⟨v0, vs, h1, h2, h3⟩ := (firstValue_iff hl).1 hf
    have e1 : csrExtensionsOf raw = (do
        let e ← unmarshal (tySlice false tyExtension) v
        .ok e.1) := by
      unfold csrExtensionsOf
      rw [h1]
      simp only [wholly, List.length_nil, if_true, Res.ok_bind, ne_eq, not_true_eq_false, if_false, h2]
    have lv := firstValue_length hf
    rw [e1, Res.bind_eq_ok]
    have e2 : (∃ a, unmarshal (tySlice false tyExtension) v = .ok a ∧ Res.ok a.1 = Res.ok es) ↔ ∃ rest, unmarshal (tySlice false tyExtension) v = .ok (es, rest) := by
      constructor
      · rintro ⟨⟨a, r⟩, k1, k2⟩
        simp only [Res.ok.injEq] at k2
        subst k2
        exact ⟨r, k1⟩
      · rintro ⟨r, k⟩
        exact ⟨_, k, rfl⟩
    rw [e2, extensionList_exact h3 (by omega)]
    constructor
    · rintro ⟨ws, k1, k2⟩
      exact .inl ⟨v, ws, hf, k1, k2⟩
    · rintro (⟨v', ws, k1, k2, k3⟩ | ⟨k, _⟩)
      · obtain rfl := firstValue_unique hl hf k1
        exact ⟨ws, k2, k3⟩
      · exact absurd ⟨v, hf⟩ k
  · have e1 : csrExtensionsOf raw = .ok [] := by
      unfold csrExtensionsOf
      obtain ⟨o, ho⟩ := wholly_of (parseField_returned total_pkcs10 {} raw.fullBytes)
      rw [show unmarshal tyPkcs10Attribute raw.fullBytes = parseField tyPkcs10Attribute {} raw.fullBytes from rfl, ho, Res.ok_bind]
      cases o with
      | none => rfl
      | some a =>
        dsimp only
        cases hv : a.values with
        | nil => rfl
        | cons v vs =>
          dsimp only
          by_cases hid : a.id = oidExtensionRequest
          · exfalso
            apply hf
            have hu : unmarshal tyPkcs10Attribute raw.fullBytes = .ok (a, []) := by
              unfold wholly at ho
              cases hq : unmarshal tyPkcs10Attribute raw.fullBytes with
              | ok q =>
                obtain ⟨q, rest⟩ := q
                rw [show parseField tyPkcs10Attribute {} raw.fullBytes = unmarshal tyPkcs10Attribute raw.fullBytes from rfl, hq] at ho
                simp only [Res.ok.injEq] at ho
                by_cases hr : rest.length = 0
                · rw [if_pos hr, Option.some.injEq] at ho
                  rw [ho, List.length_eq_zero_iff.1 hr]
                · rw [if_neg hr] at ho; simp at ho
              | err m => rw [show parseField tyPkcs10Attribute {} raw.fullBytes = unmarshal tyPkcs10Attribute raw.fullBytes from rfl, hq] at ho; simp at ho
              | panic => rw [show parseField tyPkcs10Attribute {} raw.fullBytes = unmarshal tyPkcs10Attribute raw.fullBytes from rfl, hq] at ho; simp at ho
              | loop => rw [show parseField tyPkcs10Attribute {} raw.fullBytes = unmarshal tyPkcs10Attribute raw.fullBytes from rfl, hq] at ho; simp at ho
            have ha : a = ⟨oidExtensionRequest, v :: vs⟩ := by obtain ⟨x, y⟩ := a; simp_all
            rw [ha] at hu
            obtain ⟨c, hc, hb, g⟩ := parseField_struct hu
            simp only [Res.bind_eq_ok] at g
            obtain ⟨⟨o, q1⟩, g1, ⟨ws, q2⟩, g2, g3⟩ := g
            simp only [Res.ok.injEq, Pkcs10Attribute.mk.injEq] at g3
            obtain ⟨rfl, rfl⟩ := g3
            obtain ⟨c2, _, _, hvb⟩ := (parseField_iff (p := { set := true }) rfl rfl rfl rfl (by decide)).1 g2
            have hv2 := ((parseSequenceOf_raw_exact _ _).1 hvb).2 v (by simp)
            exact ⟨v.fullBytes, (firstValue_iff hl).2 ⟨v, vs, hu, rfl, _, _, _, _, hv2⟩⟩
          · rw [if_pos hid]
    rw [e1, Res.ok.injEq]
    constructor
    · rintro rfl; exact .inr ⟨hf, rfl⟩
    · rintro (⟨v, _, k, _⟩ | ⟨_, k⟩)
      · exact absurd ⟨v, k⟩ hf
      · exact k.symm

theorem parseCSRExtensions_exact {raws : List RawValue} {es : List Extension} (hl : ∀ r ∈ raws, r.fullBytes.length < 2 ^ 31) :
    parseCSRExtensions raws = .ok es ↔
      ∃ pieces : List (List Extension), es = pieces.flatten ∧ List.Forall₂ AsksFor (raws.map RawValue.fullBytes) pieces := by
  induction raws generalizing es with
  | nil =>
    simp only [parseCSRExtensions, Res.ok.injEq, List.map_nil, List.forall₂_nil_left_iff]
    constructor
    · rintro rfl; exact ⟨[], rfl, rfl⟩
    · rintro ⟨_, rfl, rfl⟩; rfl
  | cons raw raws ih =>
    rw [List.forall_mem_cons] at hl
    simp only [parseCSRExtensions, Res.bind_eq_ok, Res.ok.injEq, List.map_cons]
    constructor
    · rintro ⟨p, h1, l, h2, rfl⟩
      obtain ⟨ps, rfl, h3⟩ := (ih hl.2).1 h2
      exact ⟨p :: ps, rfl, .cons ((csrExtensionsOf_exact hl.1).1 h1) h3⟩
    · rintro ⟨pieces, rfl, h⟩
      cases h with
      | @cons _ p _ ps h1 h2 => exact ⟨p, (csrExtensionsOf_exact hl.1).2 h1, ps.flatten, (ih hl.2).2 ⟨ps, rfl, h2⟩, rfl⟩

theorem csrSans_exact {env : Env U} {l : List Extension} {s : Sans U} : csrSans env l {} = .ok s ↔ SansOf env l s := by
  have key : ∀ (l : List Extension) (s0 s : Sans U), csrSans env l s0 = .ok s ↔
      (∀ e ∈ l, e.id = [2, 5, 29, 17] → ∃ q, ReadSANs env e.value q) ∧
      ((∃ l1 e l2, l = l1 ++ e :: l2 ∧ e.id = [2, 5, 29, 17] ∧ (∀ x ∈ l2, x.id ≠ [2, 5, 29, 17]) ∧ ReadSANs env e.value s) ∨
       ((∀ e ∈ l, e.id ≠ [2, 5, 29, 17]) ∧ s = s0)) := by
    intro l
    induction l with
    | nil =>
      intro s0 s
      simp only [csrSans, Res.ok.injEq, List.not_mem_nil, false_imp_iff, implies_true, true_and, List.nil_eq_append_iff, reduceCtorEq, and_false,
        false_and, exists_false, false_or]
      exact eq_comm
    | cons a l ih =>
      intro s0 s
      by_cases hid : a.id = [2, 5, 29, 17]
      · rw [csrSans, if_pos (show a.id = oidExtensionSubjectAltName from hid), Res.bind_eq_ok]
        constructor
        · rintro ⟨q, h1, h2⟩
          obtain ⟨k1, k2⟩ := (ih _ _).1 h2
          have h1' := (C72_exact env _ _).1 h1
          refine ⟨List.forall_mem_cons.2 ⟨fun _ => ⟨q, h1'⟩, k1⟩, .inl ?_⟩
          rcases k2 with ⟨l1, e, l2, rfl, k3⟩ | ⟨k3, rfl⟩
          · exact ⟨a :: l1, e, l2, rfl, k3⟩
          · exact ⟨[], a, l, rfl, hid, k3, h1'⟩
        · rintro ⟨k1, k2⟩
          rw [List.forall_mem_cons] at k1
          obtain ⟨q, hq⟩ := k1.1 hid
          refine ⟨q, (C72_exact env _ _).2 hq, (ih _ _).2 ⟨k1.2, ?_⟩⟩
          rcases k2 with ⟨l1, e, l2, he, k3⟩ | ⟨k3, _⟩
          · cases l1 with
            | nil =>
              simp only [List.nil_append, List.cons.injEq] at he
              obtain ⟨rfl, rfl⟩ := he
              refine .inr ⟨k3.2.1, ?_⟩
              have a1 := (C72_exact env _ _).2 hq
              have a2 := (C72_exact env _ _).2 k3.2.2
              rw [a1] at a2
              exact (Res.ok.inj a2).symm
            | cons b l1 =>
              simp only [List.cons_append, List.cons.injEq] at he
              exact .inl ⟨l1, e, l2, he.2, k3⟩
          · exact absurd hid (k3 a (by simp))
      · rw [csrSans, if_neg (show ¬ a.id = oidExtensionSubjectAltName from hid), Res.ok_bind, ih]
        constructor
        · rintro ⟨k1, k2⟩
          refine ⟨List.forall_mem_cons.2 ⟨fun h => absurd h hid, k1⟩, ?_⟩
          rcases k2 with ⟨l1, e, l2, rfl, k3⟩ | ⟨k3, rfl⟩
          · exact .inl ⟨a :: l1, e, l2, rfl, k3⟩
          · exact .inr ⟨List.forall_mem_cons.2 ⟨hid, k3⟩, rfl⟩
        · rintro ⟨k1, k2⟩
          rw [List.forall_mem_cons] at k1
          refine ⟨k1.2, ?_⟩
          rcases k2 with ⟨l1, e, l2, he, k3⟩ | ⟨k3, rfl⟩
          · cases l1 with
            | nil =>
              simp only [List.nil_append, List.cons.injEq] at he
              obtain ⟨rfl, rfl⟩ := he
              exact absurd k3.1 hid
            | cons b l1 =>
              simp only [List.cons_append, List.cons.injEq] at he
              exact .inl ⟨l1, e, l2, he.2, k3⟩
          · rw [List.forall_mem_cons] at k3
            exact .inr ⟨k3.2, rfl⟩
  exact key l {} s

/-! ## Keys and signatures -/

theorem rightAlign_exact {b : BitString} {pad : Byte} {r : Bytes} (hp : pad.toNat ≤ 7) (hn : b.bitLength + pad.toNat = 8 * b.bytes.length)
    (hz : beNat b.bytes % 2 ^ pad.toNat = 0) : b.rightAlign = r ↔ b.bytes.length = r.length ∧ beNat b.bytes = beNat r * 2 ^ pad.toNat := by
  obtain ⟨h1, h2⟩ := rightAlign_spec hp hn hz
  constructor
  · rintro rfl; exact ⟨h1.symm, h2⟩
  · rintro ⟨h3, h4⟩
    apply beNat_inj (by rw [← h3]; exact h1)
    have : 0 < 2 ^ pad.toNat := by positivity
    exact Nat.eq_of_mul_eq_mul_right this (by rw [← h2, h4])

theorem bits_exact {c r : Bytes} : (∃ b, parseBitString c = .ok b ∧ b.rightAlign = r) ↔ ReadBits r c := by
  constructor
  · rintro ⟨b, h1, h2⟩
    obtain ⟨pad, rfl, q1, q2, q3⟩ := (parseBitString_iff _ _).1 h1
    obtain ⟨h3, h4⟩ := (rightAlign_exact q1 q2 q3).1 h2
    refine ⟨pad, b.bytes, rfl, q1, ?_, h3, h4⟩
    intro h
    rw [h] at q2
    apply BitVec.eq_of_toNat_eq
    simp at q2 ⊢
    omega
  · rintro ⟨pad, bits, rfl, p1, p2, p3, p4⟩
    have hb : pad.toNat ≤ 8 * bits.length := by
      cases bits with
      | nil => rw [p2 rfl]; simp
      | cons b bs => rw [List.length_cons]; omega
    have hz : beNat bits % 2 ^ pad.toNat = 0 := by rw [p4]; exact Nat.mul_mod_left _ _
    have hn : 8 * bits.length - pad.toNat + pad.toNat = 8 * bits.length := by omega
    exact ⟨⟨bits, 8 * bits.length - pad.toNat⟩, (parseBitString_iff _ _).2 ⟨pad, rfl, p1, hn, hz⟩, (rightAlign_exact p1 hn hz).2 ⟨p3, p4⟩⟩

theorem readAlg_exact {bs rest : Bytes} {oid : List ℕ} {p : Bytes} (hl : bs.length < 2 ^ 31) :
    (∃ v, parseField tyAlgId {} bs = .ok (v, rest) ∧ v.algorithm = oid ∧ v.parameters.fullBytes = p) ↔
      ∃ e q, bs = e ++ rest ∧ ReadAlg oid q e ∧ p = q.getD [] := by
  constructor
  · rintro ⟨v, h, rfl, rfl⟩
    obtain ⟨c, hc, rfl, h2⟩ := parseField_algId_exact.1 h
    obtain ⟨oc, r, h3, rfl, h4⟩ := (algId_body hc).1 h2
    rcases h4 with ⟨h4, h5⟩ | ⟨more, h4, h5⟩
    · exact ⟨_, none, rfl, ⟨oc, r, h3, rfl, .inl ⟨h4, rfl⟩⟩, by rw [h5]; rfl⟩
    · exact ⟨_, some v.parameters.fullBytes, rfl, ⟨oc, r, h3, rfl, .inr ⟨_, more, h4, ⟨_, _, _, _, h5⟩, rfl⟩⟩, rfl⟩
  · rintro ⟨e, q, rfl, ⟨oc, r, h1, rfl, h2⟩, rfl⟩
    have l1 := length_le_elem 0x30 (elem 0x06 oc ++ r)
    rw [List.length_append] at hl
    have hc : (elem 0x06 oc ++ r).length < 2 ^ 31 := by omega
    rcases h2 with ⟨rfl, rfl⟩ | ⟨p, more, rfl, ⟨cls, cmp, tag, c, h2⟩, rfl⟩
    · exact ⟨⟨oid, {}⟩, parseField_algId_exact.2 ⟨_, hc, rfl, (algId_body hc).2 ⟨oc, [], h1, rfl, .inl ⟨rfl, rfl⟩⟩⟩, rfl, rfl⟩
    · exact ⟨⟨oid, ⟨cls, tag, cmp, c, p⟩⟩, parseField_algId_exact.2 ⟨_, hc, rfl, (algId_body hc).2 ⟨oc, _, h1, rfl, .inr ⟨more, rfl, h2⟩⟩⟩, rfl, rfl⟩

theorem publicKey_exact {k : PublicKeyInfo} {x y : ℕ} (hl : k.algorithm.parameters.fullBytes.length < 2 ^ 31) : parsePublicKey k = .ok ⟨x, y⟩ ↔
    IsPoint x y ∧ (∃ c, ReadOID sm2Curve c ∧ k.algorithm.parameters.fullBytes = elem 0x06 c) ∧ k.publicKey.rightAlign = 4 :: (fe x ++ fe y) := by
  constructor
  · intro h
    obtain ⟨Q, x', y', cc, h1, h2, h3, h4, h5⟩ := parsePublicKey_ok h
    simp only [Sm2.PublicKey.mk.injEq, Nat.cast_inj] at h2
    obtain ⟨rfl, rfl⟩ := h2
    exact ⟨⟨Q, h1⟩, ⟨cc, h3, h4⟩, h5⟩
  · rintro ⟨⟨Q, h1⟩, ⟨c, h2, h3⟩, h4⟩
    have l := length_le_elem 0x06 c
    rw [h3] at hl
    unfold parsePublicKey
    rw [h3]
    have k1 : unmarshal tyOID (elem 0x06 c) = .ok (oidSM2P256V1, []) := parseField_oid_exact.2 ⟨c, by omega, by simp, h2⟩
    have k2 : EC.unmarshal Sm2.cv k.publicKey.rightAlign = some ((x : Int), (y : Int)) := (Sm2.unmarshal_iff _ _).2 ⟨Q, x, y, h1, rfl, h4⟩
    rw [k1, Res.ok_bind, k2]
    rfl

theorem keyInfo_exact {bs rest key : Bytes} {x y : ℕ} (hl : bs.length < 2 ^ 31) :
    (∃ k, parseField tyPublicKeyInfo {} bs = .ok (k, rest) ∧ k.algorithm.algorithm = oidPublicKeyECDSA ∧ parsePublicKey k = .ok ⟨x, y⟩ ∧ k.raw = key) ↔
      bs = key ++ rest ∧ ReadKey x y key := by
  constructor
  · rintro ⟨k, h1, h2, h3, rfl⟩
    obtain ⟨c, hc, rfl, h4⟩ := parseField_struct h1
    simp only [Res.bind_eq_ok] at h4
    obtain ⟨⟨a, r1⟩, g1, ⟨b, r2⟩, g2, g3⟩ := h4
    simp only [Res.ok.injEq] at g3
    subst g3
    dsimp only at h2 g2 ⊢
    refine ⟨rfl, ?_⟩
    obtain ⟨e, q, rfl, k1, k2⟩ := (readAlg_exact hc).1 ⟨a, g1, rfl, rfl⟩
    obtain ⟨bc, _, rfl, k3⟩ := parseField_bits_iff.1 g2
    rw [List.length_append] at hl hc
    have le := length_le_elem 0x30 (e ++ (elem 0x03 bc ++ r2))
    have lp : a.parameters.fullBytes.length < 2 ^ 31 := by
      rw [k2]
      obtain ⟨oc, r, _, rfl, k1⟩ := k1
      have := length_le_elem 0x30 (elem 0x06 oc ++ r)
      rw [List.length_append] at this
      rcases k1 with ⟨_, rfl⟩ | ⟨p, more, rfl, _, rfl⟩
      · simp
      · rw [List.length_append] at this
        simp only [Option.getD_some]
        omega
    obtain ⟨p1, ⟨cc, p2, p3⟩, p4⟩ := (publicKey_exact (k := ⟨elem 0x30 (e ++ (elem 0x03 bc ++ r2)), a, b⟩) lp).1 h3
    dsimp only at p3 p4
    cases q with
    | none =>
      rw [p3] at k2
      simp [elem] at k2
    | some p =>
      simp only [Option.getD_some] at k2
      rw [h2, ← k2, p3] at k1
      exact ⟨e, cc, bc, r2, p1, k1, p2, bits_exact.1 ⟨b, k3, p4⟩, rfl⟩
  · rintro ⟨rfl, alg, curve, c, more, h1, h2, h3, h4, rfl⟩
    rw [List.length_append] at hl
    have le := length_le_elem 0x30 (alg ++ (elem 0x03 c ++ more))
    have hc : (alg ++ (elem 0x03 c ++ more)).length < 2 ^ 31 := by omega
    have lb := length_le_elem 0x03 c
    obtain ⟨a, k1, k2, k3⟩ := (readAlg_exact hc (rest := elem 0x03 c ++ more)).2 ⟨alg, _, rfl, h2, rfl⟩
    obtain ⟨b, k4, k5⟩ := bits_exact.2 h4
    have hc' := hc
    simp only [List.length_append] at hc'
    have lp : (elem 0x06 curve).length < 2 ^ 31 := by
      obtain ⟨oc, r, _, rfl, h2⟩ := h2
      have := length_le_elem 0x30 (elem 0x06 oc ++ r)
      rw [List.length_append] at this
      rcases h2 with ⟨_, h⟩ | ⟨p, more, rfl, _, h⟩
      · simp at h
      · rw [List.length_append] at this
        simp only [Option.some.injEq] at h
        rw [h]
        omega
    refine ⟨⟨elem 0x30 (alg ++ (elem 0x03 c ++ more)), a, b⟩, parseField_struct_iff.2 ⟨_, hc, rfl, ?_⟩, k2, ?_, rfl⟩
    · simp only [Res.bind_eq_ok]
      exact ⟨_, k1, (b, more), parseField_bits_iff.2 ⟨c, by omega, rfl, k4⟩, rfl⟩
    · exact (publicKey_exact (by rw [k3]; exact lp)).2 ⟨h1, ⟨curve, h3, k3⟩, k5⟩

/-! ## The signed part -/

theorem tbsCSR_exact {tc : Bytes} {t : TagAndLength} {n : ℕ} {tbs : TbsCSR} : tyTbsCSR.body t n tc (elem 0x30 tc) = .ok tbs ↔
    ∃ vc r1 r2 ac r3, IsInt tbs.version vc ∧ vc.length ≤ 8 ∧ tc = elem 0x02 vc ++ r1 ∧
      ReadTLV tbs.subject.cls tbs.subject.isCompound tbs.subject.tag tbs.subject.bytes tbs.subject.fullBytes ∧ r1 = tbs.subject.fullBytes ++ r2 ∧
      parseField tyPublicKeyInfo {} r2 = .ok (tbs.publicKey, elem 0xa0 ac ++ r3) ∧ ac.length < 2 ^ 31 ∧ parseSequenceOf tyRaw ac = .ok tbs.rawAttributes ∧
      tbs.raw = elem 0x30 tc := by
  have h' : tyTbsCSR.body t n tc (elem 0x30 tc) = (do
    let a ← parseField tyInt {} tc
    let b ← parseField tyRaw {} a.2
    let c ← parseField tyPublicKeyInfo {} b.2
    let d ← parseField (tySlice false tyRaw) { tag := some 0 } c.2
    Res.ok (⟨elem 0x30 tc, a.1, b.1, c.1, d.1⟩ : TbsCSR)) := rfl
  rw [h']
  simp only [Res.bind_eq_ok]
  constructor
  · rintro ⟨⟨ver, r1⟩, g1, ⟨sub, r2⟩, g2, ⟨key, r3⟩, g3, ⟨attrs, r4⟩, g4, g5⟩
    simp only [Res.ok.injEq] at g5
    subst g5
    dsimp only at g2 g3 g4 ⊢
    obtain ⟨vc, _, h2, h3⟩ := (parseField_iff (p := {}) rfl rfl rfl rfl (by decide)).1 g1
    obtain ⟨h4, h5⟩ := (parseInt64_iff _ _).1 h3
    obtain ⟨h6, h7⟩ := (parseField_raw_exact _ _ _).1 g2
    obtain ⟨c, hc, h8, h9⟩ := (parseField_iff (p := { tag := some 0 }) rfl rfl rfl rfl (by decide)).1 g4
    exact ⟨vc, r1, r2, c, r4, h4, h5, h2, h6, h7, by rw [g3, h8]; rfl, hc, h9, rfl⟩
  · rintro ⟨vc, r1, r2, ac, r3, h1, h2, rfl, h4, rfl, h6, h7, h8, h9⟩
    refine ⟨(tbs.version, _), (parseField_iff (p := {}) rfl rfl rfl rfl (by decide)).2 ⟨vc, by omega, rfl, (parseInt64_iff _ _).2 ⟨h1, h2⟩⟩,
      (tbs.subject, _), (parseField_raw_exact _ _ _).2 ⟨h4, rfl⟩, (tbs.publicKey, _), h6, (tbs.rawAttributes, r3),
      (parseField_iff (p := { tag := some 0 }) rfl rfl rfl rfl (by decide)).2 ⟨ac, h7, rfl, h8⟩, ?_⟩
    rw [← h9]

theorem readName_any {rdns : RDNSequence} {e : Bytes} (h : ReadName rdns e) : ∃ c, ReadTLV 0 true 16 c e := by
  obtain ⟨sets, h1, h2, _⟩ := h
  exact ⟨_, readTLV_low (by decide) h2 ⟨[0x30], ⟨by decide, .inl ⟨by decide, rfl⟩⟩, h1⟩⟩

/-! ## The property -/

/-- **C143** `ParseCertificateRequest` accepts exactly the words of the grammar, and returns their parts. -/
theorem C143_exact (env : Env U) (data tbs subject key signature : Bytes) (version : Int) (x y : ℕ) (exts : List Extension) (s : Sans U) :
    (∃ r, parseCertificateRequest env data = .ok r ∧ r.raw = data ∧ r.rawTBS = tbs ∧ r.rawSubject = subject ∧ r.rawSPKI = key ∧ r.version = version ∧
      r.publicKey = some ⟨x, y⟩ ∧ r.extensions = exts ∧ r.signature = signature ∧ r.dnsNames = s.dnsNames ∧ r.emailAddresses = s.emailAddresses ∧
      r.ipAddresses = s.ipAddresses ∧ r.uris = s.uris) ↔
    ReadRequest env version subject key x y exts s tbs signature data := by
  constructor
  · rintro ⟨r, h, -, rfl, rfl, rfl, rfl, hk, rfl, rfl, n1, n2, n3, n4⟩
    obtain ⟨tc, ac, sc, more, t, alg, sig, h0, h1, h2, h3, rfl, h5, h6, h7, h8⟩ := request_components.1 h
    unfold parseCSR at h8
    rw [Res.bind_eq_ok] at h8
    obtain ⟨_, _, h8⟩ := h8
    rcases ite_ok h8 with ⟨_, h8⟩ | ⟨ha, h8⟩
    · simp at h8
    rcases ite_ok h8 with ⟨_, h8⟩ | ⟨hb, h8⟩
    · simp at h8
    simp only [Res.bind_eq_ok] at h8
    obtain ⟨pub, k1, rdns, k2, exts, k3, sans, k4, k5⟩ := h8
    simp only [Res.ok.injEq] at k5
    subst k5
    dsimp only at hk n1 n2 n3 n4 ha hb k1 k2 k3 k4 ⊢
    rw [ne_eq, not_not] at ha hb
    simp only [Option.some.injEq] at hk
    subst hk
    obtain rfl : sans = s := by
      obtain ⟨a1, a2, a3, a4⟩ := sans
      obtain ⟨b1, b2, b3, b4⟩ := s
      simp_all
    obtain ⟨vc, r1, r2, attrs, r3, q1, q2, rfl, q4, rfl, q6, q7, q8, q9⟩ := tbsCSR_exact.1 h5
    rw [List.length_append] at h0
    have l0 := length_le_elem 0x30 (elem 0x02 vc ++ (t.subject.fullBytes ++ r2))
    simp only [List.length_append] at l0
    obtain ⟨e1, e2⟩ := (keyInfo_exact (by omega)).1 ⟨t.publicKey, q6, hb, k1, rfl⟩
    obtain ⟨v1, v2⟩ := (parseSequenceOf_raw_exact _ _).1 q8
    have la : attrs.length + t.publicKey.raw.length ≤ r2.length := by
      have := length_le_elem 0xa0 attrs
      rw [e1]; simp only [List.length_append]; omega
    have lr : ∀ v ∈ t.rawAttributes, v.fullBytes.length < 2 ^ 31 := by
      intro v hv
      have a1 := length_le_flatten (List.mem_map_of_mem (f := RawValue.fullBytes) hv)
      rw [← v1] at a1
      omega
    obtain ⟨pieces, w1, w2⟩ := (parseCSRExtensions_exact lr).1 k3
    obtain ⟨ae, p, z1, z2, -⟩ := (readAlg_exact (bs := elem 0x30 ac) (rest := []) (by
      rw [List.length_append] at h0; omega)).1 ⟨alg, parseField_algId_exact.2 ⟨ac, h2, by simp, h6⟩, rfl, rfl⟩
    rw [List.append_nil] at z1
    rw [ha] at z2
    refine ⟨rdns, t.rawAttributes.map RawValue.fullBytes, pieces, elem 0x30 ac, p, sc, more, ⟨vc, r3, q1, q2, ?_, ?_⟩, (C83_exact _ _).1 k2, e2, w2, w1,
      csrSans_exact.1 k4, by rw [z1]; exact z2, bits_exact.1 ⟨sig, h7, rfl⟩, by rw [q9], by rw [q9, List.length_append]; exact h0⟩
    · intro a ha
      obtain ⟨v, hv, rfl⟩ := List.mem_map.1 ha
      exact ⟨_, _, _, _, v2 v hv⟩
    · rw [q9, e1, ← v1]
  · rintro ⟨rdns, attrs, pieces, alg, params, sc, more, ⟨vc, extra, q1, q2, q3, rfl⟩, h1, h2, h3, rfl, h5, h6, h7, rfl, h9⟩
    obtain ⟨raws, rfl, hr⟩ := raws_of q3
    obtain ⟨cs, hs⟩ := readName_any h1
    have h9' := h9
    simp only [List.length_append] at h9'
    have l0 := length_le_elem 0x30 (elem 0x02 vc ++ (subject ++ (key ++ (elem 0xa0 (raws.map RawValue.fullBytes).flatten ++ extra))))
    have l1 := l0
    simp only [List.length_append] at l1
    have l2 := length_le_elem 0xa0 (raws.map RawValue.fullBytes).flatten
    have l3 := length_le_elem 0x03 sc
    obtain ⟨k, k1, k2, k3, k4⟩ := (keyInfo_exact (bs := key ++ (elem 0xa0 (raws.map RawValue.fullBytes).flatten ++ extra))
      (by simp only [List.length_append]; omega)).2 ⟨rfl, h2⟩
    obtain ⟨a, a1, a2, -⟩ := (readAlg_exact (bs := alg ++ []) (rest := []) (by rw [List.append_nil]; omega)).2 ⟨alg, params, rfl, h6, rfl⟩
    obtain ⟨ac, ha, a3, a4⟩ := parseField_algId_exact.1 a1
    rw [List.append_nil, List.append_nil] at a3
    subst a3
    obtain ⟨b, b1, b2⟩ := bits_exact.2 h7
    have lr : ∀ v ∈ raws, v.fullBytes.length < 2 ^ 31 := by
      intro v hv
      have a1 := length_le_flatten (List.mem_map_of_mem (f := RawValue.fullBytes) hv)
      omega
    have p1 := (parseCSRExtensions_exact lr).2 ⟨pieces, rfl, h3⟩
    obtain ⟨as, p2⟩ := parseRawAttributes_ok raws
    have hp := (C83_exact _ _).2 h1
    refine ⟨?r, request_components.2 ⟨_, ac, sc, more, ⟨elem 0x30 (elem 0x02 vc ++ (subject ++ (key ++ (elem 0xa0 (raws.map RawValue.fullBytes).flatten ++ extra)))),
      version, ⟨0, 16, true, cs, subject⟩, k, raws⟩, a, b, h9, by omega, ha, by omega, rfl,
      tbsCSR_exact.2 ⟨vc, _, _, _, extra, q1, q2, rfl, hs, rfl, k1, by omega, (parseSequenceOf_raw_exact _ _).2 ⟨rfl, hr⟩, rfl⟩, a4, b1, ?_⟩,
      ?_, ?_, ?_, ?_, ?_, ?_, ?_, ?_, ?_, ?_, ?_, ?_⟩
    rotate_left
    · unfold parseCSR
      dsimp only
      rw [p2, Res.ok_bind, if_neg (by rw [a2]; exact fun h => h rfl), if_neg (by rw [k2]; exact fun h => h rfl), k3, Res.ok_bind, hp, Res.ok_bind, p1, Res.ok_bind,
        csrSans_exact.2 h5, Res.ok_bind]
    all_goals first | rfl | exact k4 | exact b2

/-- **C143** What is accepted at all; everything else is answered with an error. -/
theorem C143_accepts (env : Env U) (data : Bytes) :
    ((∃ r, parseCertificateRequest env data = .ok r) ↔
      ∃ version subject key x y exts s tbs signature, ReadRequest env version subject key x y exts s tbs signature data) ∧
    ((¬ ∃ version subject key x y exts s tbs signature, ReadRequest env version subject key x y exts s tbs signature data) →
      ∃ m, parseCertificateRequest env data = .err m) := by
  have h : (∃ r, parseCertificateRequest env data = .ok r) ↔
      ∃ version subject key x y exts s tbs signature, ReadRequest env version subject key x y exts s tbs signature data := by
    constructor
    · rintro ⟨r, h⟩
      obtain ⟨x, y, _, _, _, _, _, _, _, h1, h2, _⟩ := C60_request env data r h
      exact ⟨r.version, r.rawSubject, r.rawSPKI, x, y, r.extensions, ⟨r.dnsNames, r.emailAddresses, r.ipAddresses, r.uris⟩, r.rawTBS, r.signature,
        (C143_exact ..).1 ⟨r, h, h1, rfl, rfl, rfl, rfl, h2, rfl, rfl, rfl, rfl, rfl, rfl⟩⟩
    · rintro ⟨_, _, _, _, _, _, _, _, _, h⟩
      obtain ⟨r, h, _⟩ := (C143_exact ..).2 h
      exact ⟨r, h⟩
  refine ⟨h, ?_⟩
  intro hn
  rw [← h] at hn
  have hr := C68_request env data
  cases hp : parseCertificateRequest env data with
  | ok r => exact absurd ⟨r, hp⟩ hn
  | err m => exact ⟨m, rfl⟩
  | panic => rw [hp] at hr; simp [Res.returned] at hr
  | loop => rw [hp] at hr; simp [Res.returned] at hr

/-- **C143** The parts are determined by the octets. -/
theorem C143_unique (env : Env U) (data : Bytes) {version version' : Int} {subject key tbs signature subject' key' tbs' signature' : Bytes} {x y x' y' : ℕ}
    {exts exts' : List Extension} {s s' : Sans U} (h : ReadRequest env version subject key x y exts s tbs signature data)
    (h' : ReadRequest env version' subject' key' x' y' exts' s' tbs' signature' data) :
    version = version' ∧ subject = subject' ∧ key = key' ∧ x = x' ∧ y = y' ∧ exts = exts' ∧ s = s' ∧ tbs = tbs' ∧ signature = signature' := by
  obtain ⟨r, h1, -, rfl, rfl, rfl, rfl, k, rfl, rfl, a1, a2, a3, a4⟩ := (C143_exact ..).2 h
  obtain ⟨r', h1', -, rfl, rfl, rfl, rfl, k', rfl, rfl, b1, b2, b3, b4⟩ := (C143_exact ..).2 h'
  rw [h1] at h1'
  obtain rfl := Res.ok.inj h1'
  rw [k] at k'
  simp only [Option.some.injEq, Sm2.PublicKey.mk.injEq, Nat.cast_inj] at k'
  refine ⟨rfl, rfl, rfl, k'.1, k'.2, rfl, ?_, rfl, rfl⟩
  obtain ⟨c1, c2, c3, c4⟩ := s
  obtain ⟨d1, d2, d3, d4⟩ := s'
  simp_all

/-! ## Cases -/

/-- A request for three extensions in two attributes is a word of the grammar, with these parts. -/
example : ∃ tbs signature x y, ReadRequest exEnv 0 exSubject exGoodKey x y
    [⟨[2, 5, 29, 17], false, elem 0x30 (elem 0x82 [0x61])⟩, ⟨[2, 5, 29, 15], true, elem 0x03 [7, 0x80]⟩, ⟨[1, 2, 3], true, [1, 2]⟩]
    { dnsNames := [[0x61]] } tbs signature (exAsking exAttrs) := by
  have h : (match parseCertificateRequest exEnv (exAsking exAttrs) with
    | .ok r => decide (r.version = 0 ∧ r.rawSubject = exSubject ∧ r.rawSPKI = exGoodKey ∧ r.extensions =
        [⟨[2, 5, 29, 17], false, elem 0x30 (elem 0x82 [0x61])⟩, ⟨[2, 5, 29, 15], true, elem 0x03 [7, 0x80]⟩, ⟨[1, 2, 3], true, [1, 2]⟩] ∧
        r.dnsNames = [[0x61]] ∧ r.emailAddresses = [] ∧ r.ipAddresses = [] ∧ r.uris = [])
    | _ => false) = true := by decide +kernel
  cases hp : parseCertificateRequest exEnv (exAsking exAttrs) with
  | ok r =>
    rw [hp] at h
    simp only [decide_eq_true_eq] at h
    obtain ⟨x, y, _, _, _, _, _, _, _, h1, h2, _⟩ := C60_request exEnv _ r hp
    exact ⟨r.rawTBS, r.signature, x, y, (C143_exact ..).1 ⟨r, hp, h1, rfl, h.2.1, h.2.2.1, h.1, h2, h.2.2.2.1, rfl, h.2.2.2.2⟩⟩
  | err m => rw [hp] at h; simp at h
  | panic => rw [hp] at h; simp at h
  | loop => rw [hp] at h; simp at h

/-- An object identifier with a septet too many, an element with a tag of two octets. -/
example : ReadOID [1, 2, 3] [0x2a, 0x80, 0x03] := by rw [readOID_iff]; decide
example : ReadOID [1, 2, 300] [0x2a, 0x82, 0x2c] := by rw [readOID_iff]; decide
example : AnyElement ([0x3f, 0x1f] ++ lenOctets 1 ++ [7]) :=
  ⟨0, true, 31, [7], [0x3f, 0x1f], ⟨by decide, .inr ⟨by decide, [0x1f], by decide, ⟨[], 0x1f, rfl, by simp, by decide⟩, by decide⟩⟩, by decide, by decide, by decide, rfl⟩

end Verif.Props
