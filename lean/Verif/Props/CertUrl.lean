import Verif.Cert.UrlRT
import Verif.Props.CertFlow
/-!
# URIs in certificates (C108, C109)

`Env` with Go 1.12's net/url and net.ParseIP (`Cert/GoUrl.lean`), before (`false`) and after (`true`) the check of ports.
-/
namespace Verif.Props
open Verif Verif.Der Verif.Cert Verif.Spec.DER Verif.Spec.Cert Verif.Spec.Names Verif.GoUrl

variable {U : Type}

/-! ## URIs of parsed requests are results of `url.Parse` -/

/-- All URIs were read from some text. -/
def ReadURIs (env : Env U) (s : Sans U) : Prop := ∀ u ∈ s.uris, ∃ v, env.parseURL v = some u

theorem sanCallback_uris {env : Env U} {s s' : Sans U} {t : Nat} {c : Bytes} (hs : ReadURIs env s) (h : sanCallback env s t c = .ok s') :
    ReadURIs env s' := by
  by_cases h6 : t = 6
  · subst h6
    obtain ⟨u, hu, rfl⟩ := (sanCallback_uri _ _ _ _).1 h
    intro w hw
    rcases List.mem_append.1 hw with hw | hw
    · exact hs w hw
    · rw [List.mem_singleton.1 hw]; exact ⟨c, ((acceptURI_iff _ _ _).1 hu).1⟩
  · unfold sanCallback at h
    rw [if_neg h6] at h
    rcases ite_ok h with ⟨_, h⟩ | ⟨_, h⟩
    · simp only [Res.ok.injEq] at h; subst h; exact hs
    rcases ite_ok h with ⟨_, h⟩ | ⟨_, h⟩
    · simp only [Res.ok.injEq] at h; subst h; exact hs
    rcases ite_ok h with ⟨_, h⟩ | ⟨_, h⟩
    · rcases ite_ok h with ⟨hl, h⟩ | ⟨_, h⟩
      · simp only [Res.ok.injEq] at h; subst h; exact hs
      · simp at h
    · simp only [Res.ok.injEq] at h; subst h; exact hs

theorem runItems_uris {env : Env U} : ∀ {items : List (Nat × Bytes)} {s s' : Sans U}, ReadURIs env s →
    runItems (sanCallback env) items s = .ok s' → ReadURIs env s' := by
  intro items
  induction items with
  | nil => intro s s' hs h; simp only [runItems, Res.ok.injEq] at h; subst h; exact hs
  | cons x items ih =>
    intro s s' hs h
    obtain ⟨t, c⟩ := x
    rw [runItems, Res.bind_eq_ok] at h
    obtain ⟨s1, h1, h2⟩ := h
    exact ih (sanCallback_uris hs h1) h2

theorem parseSAN_uris {env : Env U} {value : Bytes} {s : Sans U} (h : parseSANExtension env value = .ok s) : ReadURIs env s := by
  unfold parseSANExtension forEachSAN at h
  rw [Res.bind_eq_ok] at h
  obtain ⟨⟨v, rest⟩, h1, h⟩ := h
  rcases ite_ok h with ⟨_, h⟩ | ⟨hr, h⟩
  · simp at h
  rcases ite_ok h with ⟨_, h⟩ | ⟨hv, h⟩
  · simp at h
  obtain ⟨items, _, _, g⟩ := sanLoop_sound h
  exact runItems_uris (by intro u hu; simp at hu) g

theorem csrSans_uris {env : Env U} : ∀ {exts : List Extension} {s s' : Sans U}, ReadURIs env s → csrSans env exts s = .ok s' → ReadURIs env s' := by
  intro exts
  induction exts with
  | nil => intro s s' hs h; simp only [csrSans, Res.ok.injEq] at h; subst h; exact hs
  | cons e exts ih =>
    intro s s' hs h
    rw [csrSans] at h
    rcases ite_ok h with ⟨_, h⟩ | ⟨_, h⟩
    · rw [Res.bind_eq_ok] at h
      obtain ⟨s1, h1, h2⟩ := h
      exact ih (parseSAN_uris h1) h2
    · rw [Res.ok_bind] at h
      exact ih hs h

theorem csr_uris {env : Env U} {der : Bytes} {csr : CertReq U} (h : parseCertificateRequest env der = .ok csr) :
    ∀ u ∈ csr.uris, ∃ v, env.parseURL v = some u := by
  unfold parseCertificateRequest at h
  rw [Res.bind_eq_ok] at h
  obtain ⟨⟨inp, rest⟩, _, h2⟩ := h
  rcases ite_ok h2 with ⟨_, h2⟩ | ⟨hr, h2⟩
  · simp at h2
  unfold parseCSR at h2
  rw [Res.bind_eq_ok] at h2
  obtain ⟨as, _, h2⟩ := h2
  rcases ite_ok h2 with ⟨_, h2⟩ | ⟨_, h2⟩
  · simp at h2
  rcases ite_ok h2 with ⟨_, h2⟩ | ⟨_, h2⟩
  · simp at h2
  simp only [Res.bind_eq_ok, Res.ok.injEq] at h2
  obtain ⟨pub, _, rdns, _, exts, _, sans, hs, h2⟩ := h2
  have := csrSans_uris (s := {}) (by intro u hu; simp at hu) hs
  rw [← h2]
  exact this

/-! ## C108 -/

/-- A character that RFC 3986 allows in a path (`pchar` and `/`), a percent sign, or a square bracket. -/
def PathChar (c : Byte) : Prop :=
  (0x41 ≤ c.toNat ∧ c.toNat ≤ 0x5a) ∨ (0x61 ≤ c.toNat ∧ c.toNat ≤ 0x7a) ∨ (0x30 ≤ c.toNat ∧ c.toNat ≤ 0x39) ∨
  c ∈ txt ['-', '.', '_', '~', '!', '$', '&', '\'', '(', ')', '*', '+', ',', ';', '=', ':', '@', '/', '%', '[', ']']

instance (c : Byte) : Decidable (PathChar c) := inferInstanceAs (Decidable (_ ∨ _))

/-- The text of the path had no characters which do not belong in a path (if there is no `RawPath` it has none), and the
URI is not `%2A` with a query. -/
def WrittenAsRead (u : URL) : Prop :=
  (∀ c ∈ u.rawPath, PathChar c) ∧ (u.path = txt ['*'] → u.rawPath = [] → u.forceQuery = false ∧ u.rawQuery = [])

instance (u : URL) : Decidable (WrittenAsRead u) := inferInstanceAs (Decidable (_ ∧ _))

theorem pathChar_iff : ∀ c : Byte, validEncodedPath [c] = true ↔ PathChar c := by decide +kernel

theorem writtenAsRead_iff (u : URL) : WrittenAsRead u ↔ PathKept u := by
  have h : validEncodedPath u.rawPath = true ↔ ∀ c ∈ u.rawPath, PathChar c := by
    unfold validEncodedPath
    rw [List.all_eq_true]
    refine forall₂_congr fun c _ => ?_
    rw [← pathChar_iff]
    unfold validEncodedPath
    simp
  unfold WrittenAsRead PathKept
  rw [← h]
  constructor
  · rintro ⟨h1, h2⟩
    exact ⟨fun _ => h1, h2⟩
  · rintro ⟨h1, h2⟩
    refine ⟨?_, h2⟩
    by_cases e : u.rawPath = []
    · rw [e]; rfl
    · exact h1 e

theorem acceptedDomain_ascii {d : Bytes} (h : AcceptedDomain d) : ∀ c ∈ d, c < 0x80 := by
  have key : ∀ labels : List Bytes, (∀ l ∈ labels, Label l) → ∀ c ∈ dotJoin labels, c < 0x80 := by
    intro labels
    induction labels with
    | nil => intro _ c hc; simp [dotJoin] at hc
    | cons l ls ih =>
      intro hl c hc
      have hlab : ∀ c ∈ l, c < 0x80 := by
        intro c hc
        have := (hl l (by simp)).2 c hc
        rw [BitVec.lt_def]
        have e : (0x80 : Byte).toNat = 128 := rfl
        omega
      cases ls with
      | nil => exact hlab c hc
      | cons l' ls =>
        rw [dotJoin] at hc
        · rcases List.mem_append.1 hc with hc | hc
          · exact hlab c hc
          · rcases List.mem_cons.1 hc with rfl | hc
            · decide
            · exact ih (fun x hx => hl x (by simp [hx])) c hc
        · simp
  obtain ⟨labels, h1, rfl | ⟨_, rfl⟩⟩ := h
  · exact key _ h1
  · intro c hc
    rcases List.mem_cons.1 hc with rfl | hc
    · decide
    · exact key _ h1 c hc

/-- **C108**, what holds: a URI that was read from a SAN extension is written as a text that reads as the same URI, exactly
if the text of its path had only characters of a path (and the URI is not `%2A` with a query). Missing: the other texts,
which are accepted too. -/
theorem C108_exact_partial (pc : Bool) (g : CB.Growth) (v : Bytes) (s : Sans URL) (h : parseSANExtension (goEnv pc g) v = .ok s) :
    ∀ u ∈ s.uris, Parse pc (GoUrl.String u) = some u ↔ WrittenAsRead u := by
  intro u hu
  obtain ⟨raw, hr⟩ := parseSAN_uris h u hu
  have ha : ∀ c ∈ u.host, c < 0x80 := by
    rcases (parseSAN_read h).2 u hu with e | e
    · intro c hc
      rw [show u.host = [] from e] at hc
      simp at hc
    · exact acceptedDomain_ascii e
  rw [writtenAsRead_iff]
  exact roundtrip_iff hr ha

/-- **C108**, what holds, for the way from request to certificate: the URIs of the certificate are those of the request (and so
are the other names, the key and the subject, see C86), if they have only characters of a path in their paths. -/
theorem C108_reissue_partial (pc : Bool) (g : CB.Growth) (t p : X509Cert URL) (der : Bytes) (csr : CertReq URL) (tbs : TbsCert) (d : ℕ)
    (id : Option Bytes) (tape : Sm2.Tape) (cert : Bytes) (ht : GoodTemplate (goEnv pc g) t) (hraw : t.rawSubject = [])
    (hp : GoodSubject p.rawSubject p.subject) (hcsr : parseCertificateRequest (goEnv pc g) der = .ok csr)
    (huri : ∀ u ∈ csr.uris, WrittenAsRead u)
    (h : createCertificateInfo (goEnv pc g) (fillCertificateTemplateByCSR t csr) p csr = .ok tbs)
    (hi : issueCertificateBySoftCAKey tbs ⟨d⟩ id tape = .ok cert) (hl : cert.length < 2 ^ 31) :
    ∃ r, parseCertificate (goEnv pc g) cert = .ok r ∧ r.uris = csr.uris ∧ r.dnsNames = csr.dnsNames ∧ r.publicKey = csr.publicKey := by
  have hk : ∀ u ∈ csr.uris, (goEnv pc g).parseURL ((goEnv pc g).urlString u) = some u := by
    intro u hu
    obtain ⟨raw, hr⟩ := csr_uris hcsr u hu
    have ha : ∀ c ∈ u.host, c < 0x80 := by
      rcases (csr_read hcsr).2.2.2 u hu with e | e
      · intro c hc
        rw [show u.host = [] from e] at hc
        simp at hc
      · exact acceptedDomain_ascii e
    exact (roundtrip_iff hr ha).2 ((writtenAsRead_iff u).1 (huri u hu))
  obtain ⟨r, h1, h2, _, _, h3, _, _, h4⟩ := C86_requester_partial (goEnv pc g) t p der csr tbs d id tape cert ht hraw hp hcsr hk h hi hl
  exact ⟨r, h1, h4, h3, h2⟩

/-- How buffers grow does not matter for names. -/
theorem san_growth (pc : Bool) (g g' : CB.Growth) :
    parseSANExtension (goEnv pc g) = parseSANExtension (goEnv pc g') ∧ marshalSANs (goEnv pc g) = marshalSANs (goEnv pc g') := by
  have h : sanCallback (goEnv pc g) = sanCallback (goEnv pc g') := by
    funext s t c
    unfold sanCallback
    rfl
  constructor
  · funext v
    unfold parseSANExtension
    rw [h]
  · funext a b c d
    unfold marshalSANs
    rfl

deriving instance DecidableEq for Sans

/-- The SAN extension with one URI. -/
def uriSAN (s : List Char) : Bytes := elem 0x30 (elem 0x86 (txt s))

/-- **C108** is violated: the URI `/%2Fe.x/ y` is read as a path without host; written again it is `//e.x/%20y`, whose host is
`e.x`. -/
theorem C108_host_violated (pc : Bool) (g : CB.Growth) : ∃ (u u' : URL) (v : Bytes),
    parseSANExtension (goEnv pc g) (uriSAN ['/', '%', '2', 'F', 'e', '.', 'x', '/', ' ', 'y']) = .ok { uris := [u] } ∧ u.host = [] ∧
    marshalSANs (goEnv pc g) [] [] [] [u] = .ok v ∧ parseSANExtension (goEnv pc g) v = .ok { uris := [u'] } ∧ u'.host = txt ['e', '.', 'x'] := by
  refine ⟨{ path := txt ['/', '/', 'e', '.', 'x', '/', ' ', 'y'], rawPath := txt ['/', '%', '2', 'F', 'e', '.', 'x', '/', ' ', 'y'] },
    { host := txt ['e', '.', 'x'], path := txt ['/', ' ', 'y'] }, uriSAN ['/', '/', 'e', '.', 'x', '/', '%', '2', '0', 'y'], ?_, rfl, ?_, ?_, rfl⟩
  all_goals first | rw [(san_growth pc g exEnv.growth).1] | rw [(san_growth pc g exEnv.growth).2]
  all_goals cases pc <;> decide +kernel

/-- **C108** is violated: the URI `/%2F y` is read; what is written for it, `//%20y`, cannot be read. -/
theorem C108_unreadable_violated (pc : Bool) (g : CB.Growth) : ∃ (u : URL) (v m : _),
    parseSANExtension (goEnv pc g) (uriSAN ['/', '%', '2', 'F', ' ', 'y']) = .ok { uris := [u] } ∧
    marshalSANs (goEnv pc g) [] [] [] [u] = .ok v ∧ parseSANExtension (goEnv pc g) v = .err m := by
  refine ⟨{ path := txt ['/', '/', ' ', 'y'], rawPath := txt ['/', '%', '2', 'F', ' ', 'y'] },
    uriSAN ['/', '/', '%', '2', '0', 'y'], "x509: cannot parse URI", ?_, ?_, ?_⟩
  all_goals first | rw [(san_growth pc g exEnv.growth).1] | rw [(san_growth pc g exEnv.growth).2]
  all_goals cases pc <;> decide +kernel

/-- A request for CN=a with the given URI text in its SAN extension, for the key 2, with the nonce 3. -/
def urlRequest (pc : Bool) (s : List Char) : Res Bytes :=
  match Sm2.calculatePubKey ⟨2⟩ with
  | .ok pub =>
    match createCertificateRequest (goEnv pc exEnv.growth)
      { subject := { commonName := [0x61] }, extraExtensions := [⟨[2, 5, 29, 17], false, uriSAN s⟩] } pub ⟨2⟩ none [some (toBE 32 3)] with
    | .ok r => .ok r.1
    | .err m => .err m
    | .panic => .panic
    | .loop => .loop
  | _ => .panic

/-- The template and the parent for the cases below. -/
def exUrlTemplate : X509Cert URL := {
  serialNumber := some 5, notBefore := ⟨2019, 1, 1, 0, 0, 0, 0⟩, notAfter := ⟨2020, 1, 1, 0, 0, 0, 0⟩ }
/-- The parent. -/
def exUrlParent : X509Cert URL := { subject := { commonName := [0x70] } }

/-- Parse the request, issue a certificate for it with the CA key 5 and the nonce 7, and look at request and certificate. -/
def urlFlow (pc : Bool) (s : List Char) (f : CertReq URL → TbsCert → Bytes → Bool) : Bool :=
  match urlRequest pc s with
  | .ok der =>
    match parseCertificateRequest (goEnv pc exEnv.growth) der with
    | .ok csr =>
      match createCertificateInfo (goEnv pc exEnv.growth) (fillCertificateTemplateByCSR exUrlTemplate csr) exUrlParent csr with
      | .ok tbs =>
        match issueCertificateBySoftCAKey tbs ⟨5⟩ none [some (toBE 32 7)] with
        | .ok cert => f csr tbs cert
        | _ => false
      | _ => false
    | _ => false
  | _ => false

theorem urlFlow_true {pc : Bool} {s : List Char} {f : CertReq URL → TbsCert → Bytes → Bool} (h : urlFlow pc s f = true) :
    ∃ (der : Bytes) (csr : CertReq URL) (tbs : TbsCert) (cert : Bytes), parseCertificateRequest (goEnv pc exEnv.growth) der = .ok csr ∧
      createCertificateInfo (goEnv pc exEnv.growth) (fillCertificateTemplateByCSR exUrlTemplate csr) exUrlParent csr = .ok tbs ∧
      issueCertificateBySoftCAKey tbs ⟨5⟩ none [some (toBE 32 7)] = .ok cert ∧ f csr tbs cert = true := by
  unfold urlFlow at h
  split at h
  · split at h
    · rename_i csr h1
      split at h
      · rename_i tbs h2
        split at h
        · rename_i cert h3
          exact ⟨_, csr, tbs, cert, h1, h2, h3, h⟩
        · cases h
      · cases h
    · cases h
  · cases h

/-- **C108** is violated, from request to certificate: the request has a URI without host, the certificate issued for it has the
host `e.x` in its place, of which the request said nothing. -/
theorem C108_issued_host_violated (pc : Bool) : ∃ (g : CB.Growth) (t p : X509Cert URL) (der : Bytes) (csr : CertReq URL) (tbs : TbsCert)
    (cert : Bytes) (r : X509Cert URL), parseCertificateRequest (goEnv pc g) der = .ok csr ∧ csr.uris.map URL.host = [[]] ∧
      createCertificateInfo (goEnv pc g) (fillCertificateTemplateByCSR t csr) p csr = .ok tbs ∧
      issueCertificateBySoftCAKey tbs ⟨5⟩ none [some (toBE 32 7)] = .ok cert ∧ parseCertificate (goEnv pc g) cert = .ok r ∧
      r.uris.map URL.host = [txt ['e', '.', 'x']] := by
  have h : urlFlow pc ['/', '%', '2', 'F', 'e', '.', 'x', '/', ' ', 'y'] (fun csr _ cert => decide (csr.uris.map URL.host = [[]]) &&
      match parseCertificate (goEnv pc exEnv.growth) cert with
      | .ok r => decide (r.uris.map URL.host = [txt ['e', '.', 'x']])
      | _ => false) = true := by
    cases pc <;> (set_option maxRecDepth 100000 in decide +kernel)
  obtain ⟨der, csr, tbs, cert, h1, h2, h3, h4⟩ := urlFlow_true h
  rw [Bool.and_eq_true] at h4
  obtain ⟨h4, h5⟩ := h4
  split at h5
  · rename_i r h6
    exact ⟨_, _, _, der, csr, tbs, cert, r, h1, of_decide_eq_true h4, h2, h3, h6, of_decide_eq_true h5⟩
  · cases h5

/-- **C108** is violated, from request to certificate: the certificate issued for a request that could be read cannot be
read. -/
theorem C108_issued_unreadable_violated (pc : Bool) : ∃ (g : CB.Growth) (t p : X509Cert URL) (der : Bytes) (csr : CertReq URL) (tbs : TbsCert)
    (cert : Bytes), parseCertificateRequest (goEnv pc g) der = .ok csr ∧
      createCertificateInfo (goEnv pc g) (fillCertificateTemplateByCSR t csr) p csr = .ok tbs ∧
      issueCertificateBySoftCAKey tbs ⟨5⟩ none [some (toBE 32 7)] = .ok cert ∧ ∃ m, parseCertificate (goEnv pc g) cert = .err m := by
  have h : urlFlow pc ['/', '%', '2', 'F', ' ', 'y'] (fun _ _ cert => isErr (parseCertificate (goEnv pc exEnv.growth) cert)) = true := by
    cases pc <;> (set_option maxRecDepth 100000 in decide +kernel)
  obtain ⟨der, csr, tbs, cert, h1, h2, h3, h4⟩ := urlFlow_true h
  exact ⟨_, _, _, der, csr, tbs, cert, h1, h2, h3, err_of_isErr h4⟩

set_option maxRecDepth 100000 in
/-- The hypotheses of `C108_reissue_partial` can be met: `z://b/%2f?q#f` has a `RawPath` and comes through. -/
example : urlFlow true ['z', ':', '/', '/', 'b', '/', '%', '2', 'f', '?', 'q', '#', 'f'] (fun csr _ cert =>
    decide (∀ u ∈ csr.uris, WrittenAsRead u ∧ u.rawPath ≠ []) && decide (csr.uris ≠ []) &&
    match parseCertificate (goEnv true exEnv.growth) cert with
    | .ok r => decide (r.uris = csr.uris)
    | _ => false) = true := by decide +kernel

/-! ## C109 -/

/-- **C109** is violated: the empty text is accepted as a URI, which has no scheme, no host and no path. -/
theorem C109_empty_violated (pc : Bool) (g : CB.Growth) : parseSANExtension (goEnv pc g) (uriSAN []) = .ok { uris := [{}] } := by
  rw [(san_growth pc g exEnv.growth).1]
  cases pc <;> decide +kernel

/-- **C109** is violated: a relative reference is accepted. -/
theorem C109_relative_violated (pc : Bool) (g : CB.Growth) :
    parseSANExtension (goEnv pc g) (uriSAN ['a', '/', 'b']) = .ok { uris := [{ path := txt ['a', '/', 'b'] }] } := by
  rw [(san_growth pc g exEnv.growth).1]
  cases pc <;> decide +kernel

/-- **C109** is violated: a text with a byte that is not ASCII is accepted, though the field is an IA5String. -/
theorem C109_ascii_violated (pc : Bool) (g : CB.Growth) :
    parseSANExtension (goEnv pc g) (elem 0x30 (elem 0x86 [ch '/', 0xff])) = .ok { uris := [{ path := [ch '/', 0xff], rawPath := [ch '/', 0xff] }] } := by
  rw [(san_growth pc g exEnv.growth).1]
  cases pc <;> decide +kernel

/-- A letter, a digit, `-` or `.`. -/
def HostChar (c : Byte) : Prop :=
  (0x41 ≤ c.toNat ∧ c.toNat ≤ 0x5a) ∨ (0x61 ≤ c.toNat ∧ c.toNat ≤ 0x7a) ∨ (0x30 ≤ c.toNat ∧ c.toNat ≤ 0x39) ∨ c = 0x2d ∨ c = 0x2e
/-- A lower case letter. -/
def LowerChar (c : Byte) : Prop := 0x61 ≤ c.toNat ∧ c.toNat ≤ 0x7a

instance (c : Byte) : Decidable (HostChar c) := inferInstanceAs (Decidable (_ ∨ _))
instance (c : Byte) : Decidable (LowerChar c) := inferInstanceAs (Decidable (_ ∧ _))

theorem lowerChar_scheme : ∀ c : Byte, LowerChar c → isAlpha c = true ∧ schemeChar c = true ∧ (if ch 'A' ≤ c ∧ c ≤ ch 'Z' then c + 32 else c) = c := by
  decide +kernel
theorem hostChar_host : ∀ c : Byte, HostChar c → shouldEscape c .host = false ∧ c ≠ ch '[' ∧ c ≠ ch ':' ∧ c ≠ ch '@' ∧ escapeByte .host c = [c] ∧ c < 0x80 := by
  decide +kernel
theorem hostChar_path : ∀ c : Byte, HostChar c ∨ c = ch '/' → escapeByte .path c = [c] := by decide +kernel

theorem escape_self {m : Mode} {s : Bytes} (h : ∀ c ∈ s, escapeByte m c = [c]) : escape m s = s := by
  induction s with
  | nil => rfl
  | cons c s ih => rw [escape_cons, h c (by simp), ih fun x hx => h x (by simp [hx])]; rfl

/-- **C109**, what holds: a URI `scheme://host/path` of plain characters whose host is a domain name is accepted, with these
parts, and written as it was read. Missing: the converse. -/
theorem C109_plain_partial (pc : Bool) (g : CB.Growth) (scheme host path : Bytes) (hs : scheme ≠ [] ∧ ∀ c ∈ scheme, LowerChar c)
    (hh : AcceptedDomain host ∧ ∀ c ∈ host, HostChar c) (hn : host ≠ []) (hp : ∀ c ∈ path, HostChar c ∨ c = 0x2f) :
    ∃ u : URL, u = { scheme := scheme, host := host, path := 0x2f :: path } ∧
      GoUrl.String u = scheme ++ [0x3a, 0x2f, 0x2f] ++ host ++ [0x2f] ++ path ∧
      acceptURI (goEnv pc g) (scheme ++ [0x3a, 0x2f, 0x2f] ++ host ++ [0x2f] ++ path) = some u := by
  refine ⟨_, rfl, ?_⟩
  have hpath : escape .path (ch '/' :: path) = ch '/' :: path := by
    apply escape_self
    intro c hc
    rcases List.mem_cons.1 hc with rfl | hc
    · exact hostChar_path _ (.inr rfl)
    · exact hostChar_path c (hp c hc)
  have hhost : escape .host host = host := escape_self fun c hc => (hostChar_host c (hh.2 c hc)).2.2.2.2.1
  let u : URL := { scheme := scheme, host := host, path := ch '/' :: path }
  have hscheme : SchemeOK scheme ∧ toLower scheme = scheme := by
    refine ⟨⟨?_, fun c hc => (lowerChar_scheme c (hs.2 c hc)).2.1⟩, ?_⟩
    · obtain ⟨c, t, rfl⟩ := List.exists_cons_of_ne_nil hs.1
      exact ⟨c, t, rfl, (lowerChar_scheme c (hs.2 c (by simp))).1⟩
    · unfold toLower
      conv_rhs => rw [← List.map_id scheme]
      exact List.map_congr_left fun c hc => (lowerChar_scheme c (hs.2 c hc)).2.2
  have ho : Outer u := ⟨.inr hscheme, by intro c hc; simp [u] at hc, by simp [u]⟩
  have hauth : parseAuthority pc host = some (none, host) := by
    unfold parseAuthority
    rw [splitLast_none fun h => (hostChar_host _ (hh.2 _ h)).2.2.2.1 rfl]
    have h1 : host.head? ≠ some (ch '[') := by
      intro h
      exact (hostChar_host _ (hh.2 _ (List.mem_of_head? h))).2.1 rfl
    unfold parseHost
    rw [if_neg h1, splitLast_none fun h => (hostChar_host _ (hh.2 _ h)).2.2.1 rfl]
    dsimp only
    have := unescape_escape_of (m := .host) (m' := .host) host fun c hc => escapeByte_host c (.inr (hostChar_host c (hh.2 c hc)).1)
    rw [hhost] at this
    rw [this]
    rfl
  have hier : Hier pc u (ch '/' :: path) := {
    opaq := rfl
    plain := by
      intro c hc
      rw [← hpath] at hc
      exact escape_path_plain hc
    path := by
      have := unescape_escape_path (ch '/' :: path)
      rwa [hpath] at this
    raw := by rw [if_pos (show ch '/' :: path = escape .path u.path from hpath.symm)]
    auth := ⟨host, hauth⟩
    lead := fun _ => .inr rfl
    rel := fun h => absurd h hs.1 }
  have ha : ∀ c ∈ u.host, c < 0x80 := fun c hc => (hostChar_host c (hh.2 c hc)).2.2.2.2.2
  have e : textOf u (ch '/' :: path) = scheme ++ [0x3a, 0x2f, 0x2f] ++ host ++ [0x2f] ++ path := by
    unfold textOf
    rw [prefixString_eq]
    unfold authPart queryString authorityString
    rw [if_pos (show u.scheme ≠ [] from hs.1), if_pos (.inl (show u.scheme ≠ [] from hs.1)), if_pos (.inl (show u.host ≠ [] from hn)), hhost]
    simp [u]
    exact ⟨rfl, rfl⟩
  have hkept : PathKept u := ⟨fun h => absurd rfl h, fun h => absurd (List.cons.inj h).1 (by decide)⟩
  have hstr : GoUrl.String u = scheme ++ [0x3a, 0x2f, 0x2f] ++ host ++ [0x2f] ++ path := by
    rw [← e, String_hier rfl, pathString_eq hier (escapedPath_kept hier hkept.1 (fun h => absurd (List.cons.inj h).1 (by decide)))]
    simp [u, textOf]
  refine ⟨hstr, (acceptURI_iff _ _ _).2 ⟨?_, .inr hh.1⟩⟩
  have h1 := parse_text ho hier ha (by
    rw [e]
    obtain ⟨c, t, rfl⟩ := List.exists_cons_of_ne_nil hs.1
    simp)
  have h2 : ch '#' ∉ textOf u (ch '/' :: path) := fun h => (textOf_ctl ho hier.plain h).1 rfl
  have h3 := Parse_fragment h2 h1 (f := []) rfl
  rw [e] at h3
  rw [if_neg (by simp), List.append_nil] at h3
  exact h3

/-- The hypotheses can be met: `z://a.b/x`. -/
example : AcceptedDomain (txt ['a', '.', 'b']) ∧ (∀ c ∈ txt ['a', '.', 'b'], HostChar c) ∧ (∀ c ∈ txt ['z'], LowerChar c) :=
  ⟨(acceptedDomain_iff _).2 ⟨[txt ['b'], txt ['a']], by decide +kernel⟩, by decide +kernel, by decide +kernel⟩

end Verif.Props
