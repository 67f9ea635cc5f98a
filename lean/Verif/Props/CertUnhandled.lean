import Verif.Cert.TlvLemmas
import Verif.Cert.FieldLemmas
import Verif.Props.CertConstraints
import Verif.Props.CertAccept
/-!
# C61: critical extensions that are not understood are reported

What is understood is said in terms of the bytes of the extension: `Understood`. What a certificate's extensions are is
said in terms of the bytes of the certificate: `IsExtension`, `ExtensionsAfter`.
-/
namespace Verif.Props
open Verif Verif.Der Verif.Cert Verif.Spec.DER Verif.Spec.Cert

variable {U : Type}

/-- The extensions of RFC 5280 that are read whatever they say: subject key id, key usage, basic constraints, CRL
distribution points, certificate policies, authority key id, extended key usage, authority information access. -/
def simpleExtensions : List (List ℕ) :=
  [[2, 5, 29, 14], [2, 5, 29, 15], [2, 5, 29, 19], [2, 5, 29, 31], [2, 5, 29, 32], [2, 5, 29, 35], [2, 5, 29, 37],
   [1, 3, 6, 1, 5, 5, 7, 1, 1]]

/-- A SAN extension with a name of a kind that the package knows: mail (1), DNS (2), URI (6), IP (7). -/
def KnownSAN (value : Bytes) : Prop :=
  ∃ names : List (ℕ × Bytes), (∀ x ∈ names, ∃ cls cmp c, IsTLV cls cmp x.1 c x.2) ∧ value = elem 0x30 (names.flatMap Prod.snd) ∧
    ∃ x ∈ names, x.1 ∈ [1, 2, 6, 7]

/-- A name constraints extension all of whose subtrees are of a kind that the package knows. -/
def KnownConstraints (value : Bytes) : Prop :=
  ∃ (perm excl : Option Bytes) (lp lx : List (Base × Bytes)), value = nameConstraints perm excl ∧
    perm.getD [] = lp.flatMap (fun x => subtree x.1 x.2) ∧ excl.getD [] = lx.flatMap (fun x => subtree x.1 x.2) ∧
    ∀ x ∈ lp ++ lx, x.1.1 ∈ ([0x81, 0x82, 0x86, 0x87] : List Byte)

/-- The extensions that count as understood. -/
def Understood (id : List ℕ) (value : Bytes) : Prop :=
  id ∈ simpleExtensions ∨ (id = [2, 5, 29, 17] ∧ KnownSAN value) ∨ (id = [2, 5, 29, 30] ∧ KnownConstraints value)

/-! ## One extension -/

theorem knownSAN_iff {env : Env U} {value : Bytes} {s : Sans U} (h : parseSANExtension env value = .ok s) :
    hasSans s.dnsNames s.emailAddresses s.ipAddresses s.uris = true ↔ KnownSAN value := by
  obtain ⟨names, h1, h2, h3, h4⟩ := parseSAN_has h
  rw [h4]
  constructor
  · intro h
    rw [List.any_eq_true] at h
    obtain ⟨x, hx, hx'⟩ := h
    exact ⟨names, h1, h2, x, hx, by simpa using hx'⟩
  · rintro ⟨names', g1, g2, x, hx, hx'⟩
    have e : (names'.flatMap Prod.snd) = names.flatMap Prod.snd := by
      have hl : (elem 0x30 (names'.flatMap Prod.snd)).length < 2 ^ 32 := by
        rw [← g2, h2]; exact CB.length_elem_small (by omega)
      have := length_le_elem 0x30 (names'.flatMap Prod.snd)
      exact elem_small_inj (by omega) (by omega) (g2.symm.trans h2)
    have := tagged_unique g1 h1 e (by rw [e]; omega)
    subst this
    rw [List.any_eq_true]
    exact ⟨x, hx, by simpa using hx'⟩

theorem subtree_length_mem {l : List (Base × Bytes)} {x : Base × Bytes} (hx : x ∈ l) :
    (subtree x.1 x.2).length ≤ (l.flatMap (fun x => subtree x.1 x.2)).length := by
  induction l with
  | nil => simp at hx
  | cons y l ih =>
    rw [List.flatMap_cons, List.length_append]
    rcases List.mem_cons.1 hx with rfl | hx
    · omega
    · have := ih hx; omega

theorem knownConstraints_iff {env : Env U} {value : Bytes} {ps xs : Subtrees} (h : parseNameConstraints env value = .ok (ps, xs)) :
    (ps.unhandled || xs.unhandled) = false ↔ KnownConstraints value := by
  obtain ⟨perm, excl, lp, lx, h1, h2, h3, h4, _, _, rfl, rfl⟩ := (C56_parse env value ps xs).1 h
  have hun : ((subtreesOf (lp.map Prod.fst)).unhandled || (subtreesOf (lx.map Prod.fst)).unhandled) = false ↔
      ∀ x ∈ lp ++ lx, x.1.1 ∈ ([0x81, 0x82, 0x86, 0x87] : List Byte) := by
    have hm : ∀ b : Byte, b ∈ ([0x82, 0x87, 0x81, 0x86] : List Byte) ↔ b ∈ ([0x81, 0x82, 0x86, 0x87] : List Byte) := by
      intro b; simp only [List.mem_cons, List.not_mem_nil, or_false]; tauto
    simp only [subtreesOf, Bool.or_eq_false_iff, List.any_eq_false, List.mem_map, forall_exists_index, and_imp,
      forall_apply_eq_imp_iff₂, List.mem_append, decide_eq_true_eq, not_not, hm]
    constructor
    · rintro ⟨a, b⟩ x (hx | hx)
      · exact a x hx
      · exact b x hx
    · intro a
      exact ⟨fun x hx => a x (.inl hx), fun x hx => a x (.inr hx)⟩
  rw [hun]
  constructor
  · intro h; exact ⟨perm, excl, lp, lx, h1, h3.1, h4.1, h⟩
  · rintro ⟨perm', excl', lp', lx', g1, g2, g3, g4⟩
    have hl2 : (nameConstraints perm' excl').length < 2 ^ 32 := by rw [← g1]; exact h2
    obtain ⟨rfl, rfl⟩ := nameConstraints_inj (g1.symm.trans h1) hl2
    have hsz : (perm'.getD []).length < 2 ^ 32 ∧ (excl'.getD []).length < 2 ^ 32 := by
      have ho : ∀ (t : Byte) (o : Option Bytes), (o.getD []).length ≤ (optField t o).length := by
        intro t o
        cases o with
        | none => simp [optField]
        | some c => have := length_le_elem t c; simp only [optField, Option.getD_some]; omega
      unfold nameConstraints at hl2
      have a1 := length_le_elem 0x30 (optField 0xa0 perm' ++ optField 0xa1 excl')
      rw [List.length_append] at a1
      have a2 := ho 0xa0 perm'
      have a3 := ho 0xa1 excl'
      omega
    have low : ∀ b ∈ ([0x81, 0x82, 0x86, 0x87] : List Byte), LowTag b := by decide
    have e1 := areSubtrees_unique h3 (l' := lp') ⟨g2, fun x hx => ⟨low _ (g4 x (by simp [hx])), by
      have := subtree_length_mem hx; rw [← g2] at this; omega⟩⟩
    have e2 := areSubtrees_unique h4 (l' := lx') ⟨g3, fun x hx => ⟨low _ (g4 x (by simp [hx])), by
      have := subtree_length_mem hx; rw [← g3] at this; omega⟩⟩
    subst e1 e2
    exact g4

/-- **C61** An extension that is read counts as handled exactly if it is understood. -/
theorem C61_extension (env : Env U) (out o : X509Cert U) (e : Extension) (u : Bool) (h : parseExtension env out e = .ok (o, u)) :
    u = false ↔ Understood e.id e.value := by
  unfold parseExtension at h
  have simple : ∀ {id : List ℕ}, e.id = id → id ∈ simpleExtensions → u = false → (u = false ↔ Understood e.id e.value) := by
    intro id h1 h2 h3
    simp only [h3, true_iff]
    exact .inl (h1 ▸ h2)
  rcases ite_ok h with ⟨hid, h⟩ | ⟨n1, h⟩
  · rw [Res.bind_eq_ok] at h
    obtain ⟨_, _, h⟩ := h
    simp only [Res.ok.injEq, Prod.mk.injEq] at h
    exact simple hid (by decide) h.2.symm
  rcases ite_ok h with ⟨hid, h⟩ | ⟨n2, h⟩
  · rw [Res.bind_eq_ok] at h
    obtain ⟨_, _, h⟩ := h
    simp only [Res.ok.injEq, Prod.mk.injEq] at h
    exact simple hid (by decide) h.2.symm
  rcases ite_ok h with ⟨hid, h⟩ | ⟨n3, h⟩
  · rw [Res.bind_eq_ok] at h
    obtain ⟨s, hs, h⟩ := h
    simp only [Res.ok.injEq, Prod.mk.injEq] at h
    rw [← h.2, Bool.not_eq_false', knownSAN_iff hs]
    unfold Understood
    rw [hid]
    have n : oidExtensionSubjectAltName ∉ simpleExtensions := by decide
    have n' : oidExtensionSubjectAltName ≠ [2, 5, 29, 30] := by decide
    have n'' : oidExtensionSubjectAltName = [2, 5, 29, 17] := rfl
    constructor
    · intro h; exact .inr (.inl ⟨n'', h⟩)
    · rintro (h | ⟨_, h⟩ | ⟨h, _⟩)
      · exact absurd h n
      · exact h
      · exact absurd h n'
  rcases ite_ok h with ⟨hid, h⟩ | ⟨n4, h⟩
  · rw [Res.bind_eq_ok] at h
    obtain ⟨⟨p, x⟩, hs, h⟩ := h
    simp only [Res.ok.injEq, Prod.mk.injEq] at h
    rw [← h.2, knownConstraints_iff hs]
    unfold Understood
    rw [hid]
    have n : oidExtensionNameConstraints ∉ simpleExtensions := by decide
    have n' : oidExtensionNameConstraints ≠ [2, 5, 29, 17] := by decide
    have n'' : oidExtensionNameConstraints = [2, 5, 29, 30] := rfl
    constructor
    · intro h; exact .inr (.inr ⟨n'', h⟩)
    · rintro (h | ⟨h, _⟩ | ⟨_, h⟩)
      · exact absurd h n
      · exact absurd h n'
      · exact h
  rcases ite_ok h with ⟨hid, h⟩ | ⟨n5, h⟩
  · rw [Res.bind_eq_ok] at h
    obtain ⟨_, _, h⟩ := h
    simp only [Res.ok.injEq, Prod.mk.injEq] at h
    exact simple hid (by decide) h.2.symm
  rcases ite_ok h with ⟨hid, h⟩ | ⟨n6, h⟩
  · rw [Res.bind_eq_ok] at h
    obtain ⟨_, _, h⟩ := h
    simp only [Res.ok.injEq, Prod.mk.injEq] at h
    exact simple hid (by decide) h.2.symm
  rcases ite_ok h with ⟨hid, h⟩ | ⟨n7, h⟩
  · rw [Res.bind_eq_ok] at h
    obtain ⟨_, _, h⟩ := h
    simp only [Res.ok.injEq, Prod.mk.injEq] at h
    exact simple hid (by decide) h.2.symm
  rcases ite_ok h with ⟨hid, h⟩ | ⟨n8, h⟩
  · rw [Res.bind_eq_ok] at h
    obtain ⟨_, _, h⟩ := h
    simp only [Res.ok.injEq, Prod.mk.injEq] at h
    exact simple hid (by decide) h.2.symm
  rcases ite_ok h with ⟨hid, h⟩ | ⟨n9, h⟩
  · rw [Res.bind_eq_ok] at h
    obtain ⟨_, _, h⟩ := h
    simp only [Res.ok.injEq, Prod.mk.injEq] at h
    exact simple hid (by decide) h.2.symm
  rcases ite_ok h with ⟨hid, h⟩ | ⟨n10, h⟩
  · rw [Res.bind_eq_ok] at h
    obtain ⟨_, _, h⟩ := h
    simp only [Res.ok.injEq, Prod.mk.injEq] at h
    exact simple hid (by decide) h.2.symm
  simp only [Res.ok.injEq, Prod.mk.injEq] at h
  rw [← h.2]
  simp only [Bool.true_eq_false, false_iff]
  rintro (hu | ⟨hu, _⟩ | ⟨hu, _⟩)
  · unfold simpleExtensions at hu
    simp only [List.mem_cons, List.not_mem_nil, or_false] at hu
    rcases hu with hu | hu | hu | hu | hu | hu | hu | hu
    · exact n8 hu
    · exact n1 hu
    · exact n2 hu
    · exact n5 hu
    · exact n9 hu
    · exact n6 hu
    · exact n7 hu
    · exact n10 hu
  · exact n3 hu
  · exact n4 hu

/-! ## The list -/

open Classical in
/-- The critical extensions of a list that are not understood, in order. -/
noncomputable def notUnderstood (l : List Extension) : List (List ℕ) :=
  (l.filter fun e => decide (e.critical = true ∧ ¬ Understood e.id e.value)).map Extension.id

theorem parseExtensions_unhandled (env : Env U) : ∀ (es : List Extension) (out o : X509Cert U), parseExtensions env es out = .ok o →
    o.unhandledCriticalExtensions = out.unhandledCriticalExtensions ++ notUnderstood es := by
  intro es
  induction es with
  | nil => intro out o h; simp only [parseExtensions, Res.ok.injEq] at h; subst h; simp [notUnderstood]
  | cons e es ih =>
    intro out o h
    simp only [parseExtensions] at h
    rw [Res.bind_eq_ok] at h
    obtain ⟨⟨o', u⟩, h1, h2⟩ := h
    have hu := C61_extension env _ _ _ _ h1
    have hc := (parseExtension_core h1).2.2
    dsimp only at h2 hc
    have := ih _ _ h2
    rw [this]
    unfold notUnderstood
    rw [List.filter_cons]
    by_cases hcrit : e.critical = true
    · cases u with
      | false =>
        have hu' := hu.1 rfl
        simp [hcrit, hu', hc]
      | true =>
        have hu' : ¬ Understood e.id e.value := by
          intro hh; exact absurd (hu.2 hh) (by simp)
        simp [hcrit, hu', hc]
    · simp [hcrit, hc]

/-- **C61** `UnhandledCriticalExtensions` lists exactly the critical extensions that were not understood, in order. -/
theorem C61_unhandled (env : Env U) (data : Bytes) (r : X509Cert U) (h : parseCertificate env data = .ok r) :
    r.unhandledCriticalExtensions = notUnderstood r.extensions := by
  unfold parseCertificate at h
  rw [Res.bind_eq_ok] at h
  obtain ⟨⟨inp, rest⟩, h1, h2⟩ := h
  rcases ite_ok h2 with ⟨_, h2⟩ | ⟨hr, h2⟩
  · simp at h2
  unfold parseCert at h2
  rcases ite_ok h2 with ⟨_, h2⟩ | ⟨_, h2⟩
  · simp at h2
  rcases ite_ok h2 with ⟨_, h2⟩ | ⟨_, h2⟩
  · simp at h2
  simp only [Res.bind_eq_ok] at h2
  obtain ⟨pub, k1, rdns, k2, rdns2, k3, k4⟩ := h2
  have a := parseExtensions_unhandled env _ _ _ k4
  have b := (parseExtensions_core env _ _ _ k4).2
  rw [a, b]
  rfl

/-! ## What the extensions of a certificate are -/

/-- `w` is an `Extension` (RFC 5280 4.1): an OID, possibly a BOOLEAN, an OCTET STRING. As encoding/asn1 does, an explicit
FALSE and more bytes at the end are allowed. -/
def IsExtension (id : List ℕ) (critical : Bool) (value w : Bytes) : Prop :=
  ∃ oc crit more, ValidOID id ∧ NamesOID id oc ∧ (crit = [] ∧ critical = false ∨ crit = elem 0x01 [if critical then 0xff else 0]) ∧
    w = elem 0x30 (elem 0x06 oc ++ (crit ++ (elem 0x04 value ++ more)))

theorem extension_body {e : Extension} {c full : Bytes} (h : tyExtension.body ⟨0, true, 16, c.length⟩ 16 c full = .ok e) :
    IsExtension e.id e.critical e.value (elem 0x30 c) := by
  have h' : (do
    let a ← parseField tyOID {} c
    let b ← parseField tyBool { optional := true } a.2
    let d ← parseField tyBytes {} b.2
    Res.ok (⟨a.1, b.1, d.1⟩ : Extension)) = .ok e := h
  simp only [Res.bind_eq_ok] at h'
  obtain ⟨⟨id, r1⟩, g1, ⟨cr, r2⟩, g2, ⟨va, r3⟩, g3, g4⟩ := h'
  simp only [Res.ok.injEq] at g4
  subst g4
  dsimp only at g2 g3 ⊢
  obtain ⟨oc, _, rfl, ho⟩ := parseField_oid g1
  obtain ⟨vc, _, hv, hvb⟩ := (parseField_iff (p := {}) rfl rfl rfl rfl (by decide)).1 g3
  have hvb' : vc = va := by simpa [tyBytes] using hvb
  subst hvb'
  have hv' : r2 = elem 0x04 vc ++ r3 := hv
  rcases parseField_optional (p := { optional := true }) rfl rfl rfl rfl (by decide) g2 with ⟨bc, _, hb, hbb⟩ | ⟨ha, hb, _⟩
  · refine ⟨oc, elem 0x01 bc, r3, ho.1, namesOID ho, .inr ?_, ?_⟩
    · have hbb' : parseBool bc = .ok cr := hbb
      unfold parseBool at hbb'
      split at hbb'
      · rename_i b
        split at hbb'
        · rename_i hz; simp only [Res.ok.injEq] at hbb'; subst hbb' hz; rfl
        · split at hbb'
          · rename_i hz; simp only [Res.ok.injEq] at hbb'; subst hbb' hz; rfl
          · simp at hbb'
      · simp at hbb'
    · have hb' : r1 = elem 0x01 bc ++ r2 := hb
      rw [hb', hv']
  · refine ⟨oc, [], r3, ho.1, namesOID ho, .inl ⟨rfl, ha⟩, ?_⟩
    rw [← hb, hv', List.nil_append]

/-- What follows the key in a `TBSCertificate` (`after`) has these extensions: after the two unique identifiers there is
the field `[3]` around a SEQUENCE of them (the length `n` of the outer field is not looked at); or there is no such
field there. -/
def HasExtensions (exts : List Extension) (after : Bytes) : Prop :=
  ∃ (u1 u2 : Option Bytes) (rest : Bytes), after = optField 0x81 u1 ++ (optField 0x82 u2 ++ rest) ∧
    (u1 = none → after.head? ≠ some 0x81) ∧ (u2 = none → (optField 0x82 u2 ++ rest).head? ≠ some 0x82) ∧
    ((∃ n ws more, 0 < n ∧ n < 2 ^ 31 ∧ rest = 0xa3 :: (lenOctets n ++ (elem 0x30 ws.flatten ++ more)) ∧
      List.Forall₂ (fun e w => IsExtension e.id e.critical e.value w) exts ws) ∨
     (exts = [] ∧ ∀ n r, n < 2 ^ 31 → rest ≠ 0xa3 :: (lenOctets n ++ 0x30 :: r)))

/-- The whole of a `TBSCertificate`, with the key `key` and with `after` following it. -/
def CertInfoAfter (key after tbs : Bytes) : Prop :=
  ∃ version serial alg issuer validity subject,
    (version = [] ∨ ∃ n c, 0 < n ∧ n < 2 ^ 31 ∧ version = 0xa0 :: (lenOctets n ++ elem 0x02 c)) ∧ (∃ k, key = elem 0x30 k) ∧
    tbs = elem 0x30 (version ++ (elem 0x02 serial ++ (elem 0x30 alg ++ (elem 0x30 issuer ++ (elem 0x30 validity ++
      (elem 0x30 subject ++ (key ++ after)))))))

theorem optBits_field {k : ℕ} {t : Byte} {bs rest : Bytes} {v : Option BitString} (hk : k < 31) (ht : idOctet 2 k false = t)
    (h : parseField tyOptBits { optional := true, tag := some k } bs = .ok (v, rest)) :
    ∃ u : Option Bytes, bs = optField t u ++ rest ∧ (u = none → bs.head? ≠ some t) := by
  have e1 : wireCls { optional := true, tag := some k } = 2 := rfl
  have e2 : wireTag tyOptBits { optional := true, tag := some k } = k := rfl
  rcases parseField_optional (p := { optional := true, tag := some k }) rfl rfl rfl rfl (by rw [e2]; exact hk) h with
    ⟨c, _, hb, _⟩ | ⟨_, hb, hh⟩
  · refine ⟨some c, ?_, by simp⟩
    rw [hb, e1, e2]
    show elem (idOctet 2 k false) c ++ rest = _
    rw [ht]; rfl
  · refine ⟨none, by rw [hb]; rfl, fun _ => ?_⟩
    rw [e1, e2] at hh
    have : idOctet 2 k tyOptBits.compound = t := ht
    rw [this] at hh
    exact hh

/-- **C61** `Extensions` are the extensions that the bytes of the certificate have, all of them, in order. -/
theorem C61_wire (env : Env U) (data : Bytes) (r : X509Cert U) (h : parseCertificate env data = .ok r) :
    ∃ after, CertInfoAfter r.rawSPKI after r.rawTBS ∧ HasExtensions r.extensions after := by
  unfold parseCertificate at h
  rw [Res.bind_eq_ok] at h
  obtain ⟨⟨inp, rest⟩, h1, h2⟩ := h
  rcases ite_ok h2 with ⟨_, h2⟩ | ⟨hr, h2⟩
  · simp at h2
  obtain ⟨c, _, rfl, h3⟩ := parseField_struct h1
  simp only [Res.bind_eq_ok] at h3
  obtain ⟨⟨t, r1⟩, g1, ⟨a, r2⟩, g2, ⟨s, r3⟩, g3, g4⟩ := h3
  simp only [Res.ok.injEq] at g4
  subst g4
  dsimp only at g2 g3 h2
  unfold parseCert at h2
  rcases ite_ok h2 with ⟨_, h2⟩ | ⟨_, h2⟩
  · simp at h2
  rcases ite_ok h2 with ⟨_, h2⟩ | ⟨hkey, h2⟩
  · simp at h2
  simp only [ne_eq, not_not] at hkey
  simp only [Res.bind_eq_ok] at h2
  obtain ⟨pub, k1, rdns, k2, rdns2, k3, k4⟩ := h2
  have hext := (parseExtensions_core env _ _ _ k4).2
  have hcore := (parseExtensions_core env _ _ _ k4).1
  simp only [X509Cert.core, Prod.mk.injEq] at hcore
  obtain ⟨_, c2, c3, _⟩ := hcore
  rw [c2, c3, hext]
  obtain ⟨tc, _, e5, e6⟩ := parseField_struct g1
  simp only [Res.bind_eq_ok] at e6
  obtain ⟨⟨ver, q1⟩, f1, ⟨ser, q2⟩, f2, ⟨alg, q3⟩, f3, ⟨iss, q4⟩, f4, ⟨val, q5⟩, f5, ⟨sub, q6⟩, f6, ⟨key, q7⟩, f7,
    ⟨u8, q8⟩, f8, ⟨u9, q9⟩, f9, ⟨ex, q10⟩, f10, f11⟩ := e6
  simp only [Res.ok.injEq] at f11
  subst f11
  dsimp only at k1 k2 k3 hkey f2 f3 f4 f5 f6 f7 f8 f9 f10 ⊢
  obtain ⟨serc, _, rfl, _⟩ := parseField_big f2
  obtain ⟨algc, algp, rfl, _, _⟩ := parseField_algId f3
  obtain ⟨subc, _, hsub⟩ := parseName_ok k2
  obtain ⟨issc, _, hiss⟩ := parseName_ok k3
  have hne4 : q3 ≠ [] := by rintro rfl; simp [parseField] at f4
  have hne6 : q5 ≠ [] := by rintro rfl; simp [parseField] at f6
  obtain ⟨v4, _⟩ := parseField_raw_split rfl rfl hne4 f4
  obtain ⟨v6, _⟩ := parseField_raw_split rfl rfl hne6 f6
  obtain ⟨valc, _, v5, _⟩ := parseField_struct f5
  obtain ⟨Q, x, y, w1, rfl, w2, w3⟩ := parseKeyInfo_ok f7 hkey k1
  refine ⟨q7, ?_, ?_⟩
  · have hk : ∃ k, key.raw = elem 0x30 k := by
      obtain ⟨kc, _, hk1, hk2⟩ := parseField_struct f7
      rw [Res.bind_eq_ok] at hk2
      obtain ⟨_, _, hk2⟩ := hk2
      rw [Res.bind_eq_ok] at hk2
      obtain ⟨_, _, hk2⟩ := hk2
      simp only [Res.ok.injEq] at hk2
      exact ⟨kc, by rw [← hk2]⟩
    rcases parseField_optional_explicit (ty := tyInt) (k := 0) rfl rfl rfl rfl rfl (by decide) rfl (by decide) f1 with
      ⟨n, vc, _, hn0, hn, _, hv, _⟩ | ⟨_, hv, _⟩
    · refine ⟨0xa0 :: (lenOctets n ++ elem 0x02 vc), serc, elem 0x06 algc ++ algp, issc, valc, subc, .inr ⟨n, vc, hn0, hn, rfl⟩, hk, ?_⟩
      congr 1
      rw [hv, v4, v5, v6, hsub, hiss, w2]
      have i1 : idOctet 2 0 true = 0xa0 := by decide
      have i2 : idOctet 0 tyInt.tag tyInt.compound = 0x02 := by decide
      rw [i1, i2]
      simp only [List.append_assoc, List.cons_append]
    · refine ⟨[], serc, elem 0x06 algc ++ algp, issc, valc, subc, .inl rfl, hk, ?_⟩
      congr 1
      rw [← hv, v4, v5, v6, hsub, hiss, w2]
      simp only [List.nil_append]
  · obtain ⟨u1, hu1, hh1⟩ := optBits_field (t := 0x81) (by decide) (by decide) f8
    obtain ⟨u2, hu2, hh2⟩ := optBits_field (t := 0x82) (by decide) (by decide) f9
    have i1 : idOctet 2 3 true = 0xa3 := by decide
    have i2 : idOctet 0 (tyOptSlice tyExtension).tag (tyOptSlice tyExtension).compound = 0x30 := by decide
    refine ⟨u1, u2, q9, by rw [hu1, hu2], fun h => hh1 h, fun h => by rw [← hu2]; exact hh2 h, ?_⟩
    rcases parseField_optional_explicit (ty := tyOptSlice tyExtension) (k := 3) rfl rfl rfl rfl rfl (by decide) rfl (by decide) f10 with
      ⟨n, vc, full, hn0, hn, _, hv, hbody⟩ | ⟨hex, hv, habs⟩
    · have hbody' : (do
        let l ← parseSequenceOf tyExtension vc
        Res.ok (some l)) = .ok ex := hbody
      rw [Res.bind_eq_ok] at hbody'
      obtain ⟨l, hl, hex⟩ := hbody'
      simp only [Res.ok.injEq] at hex
      subst hex
      obtain ⟨ws, rfl, hws⟩ := parseSequenceOf_sound rfl rfl (by decide) hl
      rw [i1, i2] at hv
      refine .inl ⟨n, ws, q10, hn0, hn, hv, ?_⟩
      refine hws.imp ?_
      rintro e w ⟨cc, rfl, hb⟩
      exact extension_body hb
    · rw [i1, i2] at habs
      refine .inr ⟨?_, habs⟩
      have : ex = none := hex
      rw [this]; rfl

/-! ## A properly laid out certificate has exactly its extensions -/

theorem certificate_tbs {env : Env U} {data : Bytes} {r : X509Cert U} (h : parseCertificate env data = .ok r) :
    r.rawTBS.length < 2 ^ 31 := by
  obtain ⟨x, y, issuer, subject, sig, _, _, _, ⟨_, _, _, _, h4⟩, _⟩ := C60_certificate env data r h
  obtain ⟨c, h5, h6⟩ := certificate_outer h
  rw [h6] at h4
  have h7 := (elem_trailing (tail := []) h5 (by rw [← h4, List.append_nil])).1
  rw [← h7] at h5
  simp only [List.length_append] at h5
  omega

theorem elem_peel {t t' : Byte} {c c' x y : Bytes} (h : elem t c ++ x = elem t' c' ++ y) (hl : (elem t c ++ x).length < 2 ^ 32) :
    t = t' ∧ c = c' ∧ x = y := by
  have hl' := hl
  rw [h] at hl'
  rw [List.length_append] at hl hl'
  have h1 := length_le_elem t c
  have h2 := length_le_elem t' c'
  exact CB.elem_append_inj (CB.byteLen_lt_127 (by omega)) (CB.byteLen_lt_127 (by omega)) h

theorem elem_whole {t t' : Byte} {c c' : Bytes} (hl : (elem t c).length < 2 ^ 32) (h : elem t c = elem t' c') : t = t' ∧ c = c' := by
  have := elem_peel (t := t) (c := c) (t' := t') (c' := c') (x := []) (y := []) (by rw [h]) (by rw [List.append_nil]; exact hl)
  exact ⟨this.1, this.2.1⟩

theorem certInfo_unique {key key' after after' tbs : Bytes} (hl : tbs.length < 2 ^ 32) (h : CertInfoAfter key after tbs)
    (h' : CertInfoAfter key' after' tbs) : key = key' ∧ after = after' := by
  obtain ⟨ver, ser, alg, iss, val, sub, hv, ⟨k, rfl⟩, rfl⟩ := h
  obtain ⟨ver', ser', alg', iss', val', sub', hv', ⟨k', rfl⟩, e⟩ := h'
  have hl0 := length_le_elem 0x30 (ver ++ (elem 0x02 ser ++ (elem 0x30 alg ++ (elem 0x30 iss ++ (elem 0x30 val ++
      (elem 0x30 sub ++ (elem 0x30 k ++ after)))))))
  have e := (elem_whole hl e).2
  have hl1 := congrArg List.length e
  simp only [List.length_append] at hl0 hl1
  have e' : elem 0x02 ser ++ (elem 0x30 alg ++ (elem 0x30 iss ++ (elem 0x30 val ++ (elem 0x30 sub ++ (elem 0x30 k ++ after))))) =
      elem 0x02 ser' ++ (elem 0x30 alg' ++ (elem 0x30 iss' ++ (elem 0x30 val' ++ (elem 0x30 sub' ++ (elem 0x30 k' ++ after'))))) := by
    rcases hv with rfl | ⟨n, c, hn0, hn, rfl⟩
    · rcases hv' with rfl | ⟨n', c', _, hn', rfl⟩
      · simpa using e
      · simp [elem] at e
    · rcases hv' with rfl | ⟨n', c', _, hn', rfl⟩
      · simp [elem] at e
      · rw [List.cons_append, List.cons_append, List.append_assoc, List.append_assoc] at e
        have e := (List.cons.inj e).2
        simp only [List.length_append, List.length_cons] at hl0 hl1
        obtain ⟨rfl, w1⟩ := CB.lenOctets_append_inj (CB.byteLen_lt_127 (by omega)) (CB.byteLen_lt_127 (by omega)) e
        have pl := elem_peel w1
        exact (pl (by simp only [List.length_append]; omega)).2.2
  have pl := elem_peel e'
  obtain ⟨_, rfl, w2⟩ := pl (by simp only [List.length_append]; omega)
  have pl := elem_peel w2
  obtain ⟨_, rfl, w3⟩ := pl (by simp only [List.length_append]; omega)
  have pl := elem_peel w3
  obtain ⟨_, rfl, w4⟩ := pl (by simp only [List.length_append]; omega)
  have pl := elem_peel w4
  obtain ⟨_, rfl, w5⟩ := pl (by simp only [List.length_append]; omega)
  have pl := elem_peel w5
  obtain ⟨_, rfl, w6⟩ := pl (by simp only [List.length_append]; omega)
  have pl := elem_peel w6
  obtain ⟨_, rfl, w7⟩ := pl (by simp only [List.length_append]; omega)
  exact ⟨rfl, w7⟩

theorem namesOID_unique {id id' : List ℕ} {c : Bytes} (hv : ValidOID id) (hv' : ValidOID id') (h : NamesOID id c)
    (h' : NamesOID id' c) : id = id' := by
  have key : ∀ {l l' : List ℕ} {gs gs' : List Bytes}, List.Forall₂ (fun n g => IsGroup g ∧ subValue g = n) l gs →
      List.Forall₂ (fun n g => IsGroup g ∧ subValue g = n) l' gs' → gs.flatten = gs'.flatten → l = l' := by
    intro l l' gs gs' h
    induction h generalizing l' gs' with
    | nil =>
      intro h' e
      cases h' with
      | nil => rfl
      | cons h1 _ =>
        have := CB.group_ne_nil h1.1
        simp only [List.flatten_nil, List.flatten_cons] at e
        have := congrArg List.length e
        simp only [List.length_nil, List.length_append] at this
        omega
    | cons h1 _ ih =>
      intro h' e
      cases h' with
      | nil =>
        have := CB.group_ne_nil h1.1
        simp only [List.flatten_nil, List.flatten_cons] at e
        have := congrArg List.length e
        simp only [List.length_nil, List.length_append] at this
        omega
      | cons h1' h2' =>
        simp only [List.flatten_cons] at e
        obtain ⟨rfl, w8⟩ := CB.group_append_inj h1.1 h1'.1 e
        rw [← h1.2, ← h1'.2, ih h2' w8]
  obtain ⟨gs, rfl, h⟩ := h
  obtain ⟨gs', e, h'⟩ := h'
  have := key h h' e
  obtain ⟨a, b, tl, rfl, s1⟩ := CB.subids_valid hv
  obtain ⟨a', b', tl', rfl, s2⟩ := CB.subids_valid hv'
  rw [s1, s2] at this
  simp only [List.cons.injEq] at this
  have f1 := CB.firstComponents_of_valid tl hv
  have f2 := CB.firstComponents_of_valid tl' hv'
  rw [this.1, f2] at f1
  simp only [List.cons.injEq] at f1
  rw [f1.1, f1.2.1, this.2]

theorem isExtension_head {id : List ℕ} {cr : Bool} {va w : Bytes} (h : IsExtension id cr va w) : ∃ c, w = elem 0x30 c := by
  obtain ⟨_, _, _, _, _, _, rfl⟩ := h
  exact ⟨_, rfl⟩

theorem isExtension_unique {e e' : Extension} {w : Bytes} (hl : w.length < 2 ^ 32) (h : IsExtension e.id e.critical e.value w)
    (h' : IsExtension e'.id e'.critical e'.value w) : e = e' := by
  obtain ⟨id, cr, va⟩ := e
  obtain ⟨id', cr', va'⟩ := e'
  obtain ⟨oc, crit, more, v1, n1, c1, rfl⟩ := h
  obtain ⟨oc', crit', more', v1', n1', c1', w9⟩ := h'
  dsimp only at *
  have hl0 := length_le_elem 0x30 (elem 0x06 oc ++ (crit ++ (elem 0x04 va ++ more)))
  have w9 := (elem_whole hl w9).2
  simp only [List.length_append] at hl0
  have pl := elem_peel w9
  obtain ⟨_, rfl, w10⟩ := pl (by simp only [List.length_append]; omega)
  obtain rfl := namesOID_unique v1 v1' n1 n1'
  have key : cr = cr' ∧ elem 0x04 va ++ more = elem 0x04 va' ++ more' := by
    rcases c1 with ⟨rfl, rfl⟩ | rfl
    · rcases c1' with ⟨rfl, rfl⟩ | rfl
      · exact ⟨rfl, by simpa using w10⟩
      · simp [elem] at w10
    · rcases c1' with ⟨rfl, rfl⟩ | rfl
      · simp [elem] at w10
      · obtain ⟨_, e1, w14⟩ := elem_peel w10 (by simp only [List.length_append]; omega)
        refine ⟨?_, w14⟩
        revert e1
        cases cr <;> cases cr' <;> simp
  obtain ⟨rfl, w11⟩ := key
  have pl := elem_peel w11
  obtain ⟨_, rfl, _⟩ := pl (by simp only [List.length_append]; omega)
  rfl

theorem extensions_unique {exts exts' : List Extension} {ws ws' : List Bytes}
    (h : List.Forall₂ (fun (e : Extension) w => IsExtension e.id e.critical e.value w) exts ws)
    (h' : List.Forall₂ (fun (e : Extension) w => IsExtension e.id e.critical e.value w) exts' ws')
    (he : ws.flatten = ws'.flatten) (hl : ws.flatten.length < 2 ^ 32) : exts = exts' := by
  induction h generalizing exts' ws' with
  | nil =>
    cases h' with
    | nil => rfl
    | cons h1 _ =>
      obtain ⟨c, rfl⟩ := isExtension_head h1
      simp [elem] at he
  | cons h1 _ ih =>
    cases h' with
    | nil =>
      obtain ⟨c, rfl⟩ := isExtension_head h1
      simp [elem] at he
    | cons h1' h2' =>
      obtain ⟨c, rfl⟩ := isExtension_head h1
      obtain ⟨c', rfl⟩ := isExtension_head h1'
      simp only [List.flatten_cons] at he hl
      obtain ⟨_, rfl, w12⟩ := elem_peel he hl
      rw [List.length_append] at hl
      rw [isExtension_unique (by omega) h1 h1', ih h2' w12 (by omega)]

/-- **C61** If after the key come the unique identifiers, if any, and then a SEQUENCE in `[3]`, then its contents are
extensions, one after the other, and `Extensions` are exactly these. -/
theorem C61_field (env : Env U) (data : Bytes) (r : X509Cert U) (h : parseCertificate env data = .ok r)
    (key : Bytes) (u1 u2 : Option Bytes) (c more : Bytes)
    (htbs : CertInfoAfter key (optField 0x81 u1 ++ (optField 0x82 u2 ++ (elem 0xa3 (elem 0x30 c) ++ more))) r.rawTBS) :
    ∃ ws, c = ws.flatten ∧ List.Forall₂ (fun (e : Extension) w => IsExtension e.id e.critical e.value w) r.extensions ws := by
  obtain ⟨after, h1, h2⟩ := C61_wire env data r h
  have hl := certificate_tbs h
  obtain ⟨rfl, rfl⟩ := certInfo_unique (by omega) h1 htbs
  have hlen : (optField 0x81 u1 ++ (optField 0x82 u2 ++ (elem 0xa3 (elem 0x30 c) ++ more))).length < 2 ^ 31 := by
    obtain ⟨v, s, a, i, vv, ss, _, _, w13⟩ := htbs
    have := length_le_elem 0x30 (v ++ (elem 0x02 s ++ (elem 0x30 a ++ (elem 0x30 i ++ (elem 0x30 vv ++ (elem 0x30 ss ++
      (r.rawSPKI ++ (optField 0x81 u1 ++ (optField 0x82 u2 ++ (elem 0xa3 (elem 0x30 c) ++ more))))))))))
    rw [← w13] at this
    simp only [List.length_append] at this ⊢
    omega
  obtain ⟨u1', u2', rest, e1, n1, n2, hx⟩ := h2
  -- the unique identifiers
  have e2 : optField 0x82 u2 ++ (elem 0xa3 (elem 0x30 c) ++ more) = optField 0x82 u2' ++ rest := by
    cases u1 with
    | none =>
      cases u1' with
      | none => simpa [optField] using e1
      | some d =>
        exfalso
        cases u2 with
        | none => simp [optField, elem] at e1
        | some d => simp [optField, elem] at e1
    | some d =>
      cases u1' with
      | none => exfalso; exact n1 rfl (by simp [optField, elem])
      | some d' => exact (elem_peel (c := d) (c' := d') e1 (Nat.lt_trans hlen (by decide))).2.2
  have e3 : elem 0xa3 (elem 0x30 c) ++ more = rest := by
    simp only [List.length_append] at hlen
    cases u2 with
    | none =>
      cases u2' with
      | none => simpa [optField] using e2
      | some d => exfalso; simp [optField, elem] at e2
    | some d =>
      cases u2' with
      | none => exfalso; apply n2 rfl; rw [← e2]; simp [optField, elem]
      | some d' => exact (elem_peel (c := d) (c' := d') e2 (by simp only [optField, List.length_append] at hlen ⊢; omega)).2.2
  subst e3
  rcases hx with ⟨n, ws', more', _, hn, e4, hx⟩ | ⟨_, hx⟩
  · rw [elem, List.cons_append, List.cons.injEq, List.append_assoc] at e4
    simp only [List.length_append] at hlen
    have l1 := length_le_elem 0xa3 (elem 0x30 c)
    obtain ⟨_, e5⟩ := CB.lenOctets_append_inj (CB.byteLen_lt_127 (by omega)) (CB.byteLen_lt_127 (by omega)) e4.2
    have pl := elem_peel e5
    obtain ⟨_, e6, _⟩ := pl (by simp only [List.length_append]; omega)
    have l2 := length_le_elem 0x30 c
    exact ⟨ws', e6, hx⟩
  · exfalso
    have l1 := length_le_elem 0xa3 (elem 0x30 c)
    simp only [List.length_append] at hlen
    apply hx (elem 0x30 c).length (lenOctets c.length ++ c ++ more) (by omega)
    simp [elem]

/-- **C61** In particular, if these contents are given as a list of extensions, these are `Extensions`. -/
theorem C61_complete (env : Env U) (data : Bytes) (r : X509Cert U) (h : parseCertificate env data = .ok r)
    (key : Bytes) (u1 u2 : Option Bytes) (ws : List Bytes) (exts : List Extension) (more : Bytes)
    (htbs : CertInfoAfter key (optField 0x81 u1 ++ (optField 0x82 u2 ++ (elem 0xa3 (elem 0x30 ws.flatten) ++ more))) r.rawTBS)
    (hws : List.Forall₂ (fun (e : Extension) w => IsExtension e.id e.critical e.value w) exts ws) :
    r.extensions = exts := by
  obtain ⟨ws', e, hx⟩ := C61_field env data r h key u1 u2 ws.flatten more htbs
  refine (extensions_unique hws hx e ?_).symm
  have hl := certificate_tbs h
  obtain ⟨v, s, a, i, vv, ss, _, _, w⟩ := htbs
  have l0 := length_le_elem 0x30 (v ++ (elem 0x02 s ++ (elem 0x30 a ++ (elem 0x30 i ++ (elem 0x30 vv ++ (elem 0x30 ss ++
    (key ++ (optField 0x81 u1 ++ (optField 0x82 u2 ++ (elem 0xa3 (elem 0x30 ws.flatten) ++ more))))))))))
  have l1 := length_le_elem 0xa3 (elem 0x30 ws.flatten)
  have l2 := length_le_elem 0x30 ws.flatten
  rw [← w] at l0
  simp only [List.length_append] at l0
  omega

/-! ## Concrete cases -/

/-- A certificate with these bytes after the key. -/
def exCertAfter (after : Bytes) : Bytes := exSigned exOidSig (exCertInfo exVersion exOidSig (exGoodKey ++ after)) []

/-- An extension with OID contents `oc`. -/
def exExtension (oc : Bytes) (critical : Bool) (value : Bytes) : Bytes :=
  elem 0x30 (elem 0x06 oc ++ ((if critical then elem 0x01 [0xff] else []) ++ (elem 0x04 value ++ [])))

/-- The unknown critical extension 1.2.3. -/
def exUnknown : Bytes := exExtension [0x2a, 0x03] true [1, 2]
/-- The critical key usage extension. -/
def exUsage : Bytes := exExtension [0x55, 0x1d, 0x0f] true (elem 0x03 [7, 0x80])
/-- A critical SAN extension with a name of an unknown kind only. -/
def exOtherSAN : Bytes := exExtension [0x55, 0x1d, 0x11] true (elem 0x30 (elem 0xa0 []))

/-- C61 has instances: of four extensions, two are critical and not understood. -/
example : (match parseCertificate exEnv (exCertAfter (elem 0xa3 (elem 0x30 ([exUsage, exUnknown, exExtension [0x2a, 0x04] false [], exOtherSAN].flatten)))) with
    | .ok q => decide (q.unhandledCriticalExtensions = [[1, 2, 3], [2, 5, 29, 17]] ∧ q.extensions.length = 4 ∧ q.keyUsage = 1)
    | _ => false) = true := by decide +kernel

example : IsExtension [1, 2, 3] true [1, 2] exUnknown :=
  ⟨[0x2a, 0x03], elem 0x01 [0xff], [], by decide, ⟨[[0x2a], [0x03]], rfl, by
    show List.Forall₂ _ [42, 3] _
    refine .cons ⟨⟨[], 0x2a, rfl, by simp, by decide⟩, by decide⟩ (.cons ⟨⟨[], 0x03, rfl, by simp, by decide⟩, by decide⟩ .nil)⟩, .inr rfl, rfl⟩

/-! ## C77: where the code overlooks extensions -/

/-- **C77** (negation) An element before the field `[3]` hides it: the certificate is accepted, with no extensions at all, although
it carries a critical extension nobody knows. -/
theorem C77_hidden_violated : ∃ (extra : Bytes) (q : X509Cert Bytes), parseCertificate exEnv (exCertAfter (extra ++ elem 0xa3 (elem 0x30 exUnknown))) = .ok q ∧
    CertInfoAfter exGoodKey (extra ++ elem 0xa3 (elem 0x30 exUnknown)) q.rawTBS ∧ (∃ c, extra = elem 0xa4 c) ∧
    q.extensions = [] ∧ q.unhandledCriticalExtensions = [] := by
  have h : (match parseCertificate exEnv (exCertAfter (elem 0xa4 [] ++ elem 0xa3 (elem 0x30 exUnknown))) with
    | .ok q => decide (q.rawTBS = exCertInfo exVersion exOidSig (exGoodKey ++ (elem 0xa4 [] ++ elem 0xa3 (elem 0x30 exUnknown))) ∧
        q.extensions = [] ∧ q.unhandledCriticalExtensions = [])
    | _ => false) = true := by decide +kernel
  split at h
  · rename_i q hq
    obtain ⟨h1, h2, h3⟩ := of_decide_eq_true h
    refine ⟨elem 0xa4 [], q, hq, ?_, ⟨_, rfl⟩, h2, h3⟩
    rw [h1]
    refine ⟨exVersion, [5], elem 0x06 exOidSig, elem 0x31 (elem 0x30 (elem 0x06 [0x55, 0x04, 0x03] ++ elem 0x13 [0x61])),
      elem 0x17 exTime ++ elem 0x17 exTime, elem 0x31 (elem 0x30 (elem 0x06 [0x55, 0x04, 0x03] ++ elem 0x13 [0x61])), .inr ⟨3, [2], by decide, by decide, rfl⟩, ⟨_, rfl⟩, ?_⟩
    unfold exCertInfo exSubject
    simp only [List.append_assoc]
  · simp at h

/-- **C77** (negation) Extensions in a SET instead of a SEQUENCE are not an error but not there. -/
theorem C77_set_violated : ∃ (q : X509Cert Bytes), parseCertificate exEnv (exCertAfter (elem 0xa3 (elem 0x31 exUnknown))) = .ok q ∧
    q.extensions = [] ∧ q.unhandledCriticalExtensions = [] := by
  have h : (match parseCertificate exEnv (exCertAfter (elem 0xa3 (elem 0x31 exUnknown))) with
    | .ok q => decide (q.extensions = [] ∧ q.unhandledCriticalExtensions = [])
    | _ => false) = true := by decide +kernel
  split at h
  · rename_i q hq
    exact ⟨q, hq, of_decide_eq_true h⟩
  · simp at h

/-- **C77** What holds: extensions are overlooked only if the field does not stand, as a SEQUENCE in `[3]`, directly after the key
and the unique identifiers. -/
theorem C77_overlooked_partial (env : Env U) (data : Bytes) (r : X509Cert U) (h : parseCertificate env data = .ok r) (hr : r.extensions = [])
    (u1 u2 : Option Bytes) (c more : Bytes)
    (htbs : CertInfoAfter r.rawSPKI (optField 0x81 u1 ++ (optField 0x82 u2 ++ (elem 0xa3 (elem 0x30 c) ++ more))) r.rawTBS) : c = [] := by
  obtain ⟨ws, rfl, hx⟩ := C61_field env data r h _ u1 u2 c more htbs
  rw [hr] at hx
  cases hx
  rfl

end Verif.Props
