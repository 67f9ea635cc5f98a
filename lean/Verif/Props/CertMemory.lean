import Verif.Props.CertFlow
import Verif.Cert.MemoryLemmas
/-!
# Property C125: a parsed request or certificate stays what it is when the buffer it was read from is used again
-/
namespace Verif.Props
open Verif Verif.Der Verif.Cert

variable {U : Type}

/-- The slice `t` is a window of the buffer `s`: what stands there at any time is what is read through `t` at that
time. -/
def WindowOf (h : Heap) (s t : Slice) : Prop :=
  ∃ pre post, s.get h = pre ++ t.get h ++ post ∧ ∀ h', t.get h' = ((s.get h').drop pre.length).take (t.get h).length

theorem window_of {h : Heap} {s t : Slice} (w : Within h t s) : WindowOf h s t := by
  obtain ⟨⟨k, i⟩, f⟩ := w
  have hg := i.get h
  have hl : (t.get h).length = t.len := f
  have hle : k + t.len ≤ (s.get h).length ∨ t.len = 0 := by
    have := congrArg List.length hg
    rw [List.length_take, List.length_drop, hl] at this
    omega
  by_cases h0 : t.len = 0
  · refine ⟨(s.get h), [], ?_, fun h' => ?_⟩
    · have : t.get h = [] := List.eq_nil_of_length_eq_zero (by omega)
      rw [this]; simp
    · rw [i.get h', hl, h0]; simp
  · have hk : ((s.get h).take k).length = k := by rw [List.length_take]; omega
    refine ⟨(s.get h).take k, (s.get h).drop (k + t.len), ?_, fun h' => ?_⟩
    · rw [hg, List.append_assoc, ← List.drop_drop, List.take_append_drop, List.take_append_drop]
    · rw [hk, hl]; exact i.get h'

/-- **C125** What is read right after the call is what the functions on values say. -/
theorem C125_read (env : Env U) (h : Heap) (s : Slice) (hs : s.Valid h) :
    (do let r ← parseCertificateRequestAt env h s; Res.ok (r.1.view r.2)) = parseCertificateRequest env (s.get h) ∧
    (do let r ← parseCertificateAt env h s; Res.ok (r.1.view r.2)) = parseCertificate env (s.get h) := by
  constructor
  · rw [← sim_map (g := id) (sim_request env hs) fun a b r => r.view.symm]
    cases parseCertificateRequest env (s.get h) <;> rfl
  · rw [← sim_map (g := id) (sim_certificate env hs) fun a b r => r.view.symm]
    cases parseCertificate env (s.get h) <;> rfl

theorem request_ok {env : Env U} {h h' : Heap} {s : Slice} {m : ReqMem U} (hs : s.Valid h)
    (hp : parseCertificateRequestAt env h s = .ok (m, h')) : ∃ csr, parseCertificateRequest env (s.get h) = .ok csr ∧ ReqOk h s csr m h' := by
  have := sim_request env hs
  rw [hp] at this
  cases hc : parseCertificateRequest env (s.get h) with
  | ok csr => rw [hc] at this; exact ⟨csr, rfl, this⟩
  | err _ => rw [hc] at this; exact this.elim
  | panic => rw [hc] at this; exact this.elim
  | loop => rw [hc] at this; exact this.elim

theorem certificate_ok {env : Env U} {h h' : Heap} {s : Slice} {m : CertMem U} (hs : s.Valid h)
    (hp : parseCertificateAt env h s = .ok (m, h')) : ∃ cert, parseCertificate env (s.get h) = .ok cert ∧ CertOk h s cert m h' := by
  have := sim_certificate env hs
  rw [hp] at this
  cases hc : parseCertificate env (s.get h) with
  | ok csr => rw [hc] at this; exact ⟨csr, rfl, this⟩
  | err _ => rw [hc] at this; exact this.elim
  | panic => rw [hc] at this; exact this.elim
  | loop => rw [hc] at this; exact this.elim

/-- **C125** holds as long as nobody writes to the buffer: if the memory `h''` has in the buffer, and in what the call
allocated, what was there after the call, then the request is what it was. Missing: writes to the buffer. -/
theorem C125_request_partial (env : Env U) (h h' h'' : Heap) (s : Slice) (m : ReqMem U) (hs : s.Valid h)
    (hp : parseCertificateRequestAt env h s = .ok (m, h')) (hb : s.get h'' = s.get h) (hn : h''[h.length]? = h'[h.length]?) :
    m.view h'' = m.view h' := by
  obtain ⟨csr, _, hok⟩ := request_ok hs hp
  have keep : ∀ {t : Slice}, Within h t s → t.get h'' = t.get h' := by
    rintro t ⟨⟨k, i⟩, _⟩
    rw [get_prefix hs hok.grows i.arr, i.get, i.get, hb]
  have hsig : m.signature.get h'' = m.signature.get h' := by
    rcases hok.sig with ⟨w, _⟩ | ⟨w, _⟩
    · exact keep w
    · unfold Slice.get; rw [w, hn]
  unfold ReqMem.view
  rw [keep ⟨⟨0, hok.inRaw.1⟩, hok.inRaw.2.1⟩, keep hok.inTbs, keep hok.inSpki, keep hok.inSubject, hsig]

/-- **C125** for certificates, as far as it holds. -/
theorem C125_certificate_partial (env : Env U) (h h' h'' : Heap) (s : Slice) (m : CertMem U) (hs : s.Valid h)
    (hp : parseCertificateAt env h s = .ok (m, h')) (hb : s.get h'' = s.get h) (hn : h''[h.length]? = h'[h.length]?) :
    m.view h'' = m.view h' := by
  obtain ⟨csr, _, hok⟩ := certificate_ok hs hp
  have keep : ∀ {t : Slice}, Within h t s → t.get h'' = t.get h' := by
    rintro t ⟨⟨k, i⟩, _⟩
    rw [get_prefix hs hok.grows i.arr, i.get, i.get, hb]
  have hsig : m.signature.get h'' = m.signature.get h' := by
    rcases hok.sig with ⟨w, _⟩ | ⟨w, _⟩
    · exact keep w
    · unfold Slice.get; rw [w, hn]
  unfold CertMem.view
  rw [keep ⟨⟨0, hok.inRaw.1⟩, hok.inRaw.2.1⟩, keep hok.inTbs, keep hok.inSpki, keep hok.inSubject, keep hok.inIssuer, hsig]

/-- **C125** is violated for every request: `Raw` is the buffer, and the signed part, the key and the subject are windows
of it, so they become whatever is written there; the other fields do not follow. -/
theorem C125_request_violated (env : Env U) (h h' : Heap) (s : Slice) (m : ReqMem U) (hs : s.Valid h)
    (hp : parseCertificateRequestAt env h s = .ok (m, h')) :
    (∀ h'', (m.view h'').raw = s.get h'') ∧ WindowOf h s m.rawTBS ∧ WindowOf h s m.rawSPKI ∧ WindowOf h s m.rawSubject ∧
    (WindowOf h s m.signature ∨ m.signature.arr = h.length) ∧
    ∀ h'', (m.view h'').publicKey = (m.view h').publicKey ∧ (m.view h'').subject = (m.view h').subject ∧
      (m.view h'').extensions = (m.view h').extensions ∧ (m.view h'').dnsNames = (m.view h').dnsNames := by
  obtain ⟨csr, _, hok⟩ := request_ok hs hp
  refine ⟨fun h'' => ?_, window_of hok.inTbs, window_of hok.inSpki, window_of hok.inSubject, ?_, fun h'' => ⟨rfl, rfl, rfl, rfl⟩⟩
  · show m.raw.get h'' = _
    rw [hok.inRaw.1.get, hok.inRaw.2.2, List.drop_zero]
    exact List.take_of_length_le (by unfold Slice.get; rw [List.length_take]; omega)
  · rcases hok.sig with ⟨w, _⟩ | ⟨w, _⟩
    · exact .inl (window_of w)
    · exact .inr w

/-- **C125** is violated for every certificate. -/
theorem C125_certificate_violated (env : Env U) (h h' : Heap) (s : Slice) (m : CertMem U) (hs : s.Valid h)
    (hp : parseCertificateAt env h s = .ok (m, h')) :
    (∀ h'', (m.view h'').raw = s.get h'') ∧ WindowOf h s m.rawTBS ∧ WindowOf h s m.rawSPKI ∧ WindowOf h s m.rawSubject ∧
    WindowOf h s m.rawIssuer ∧ (WindowOf h s m.signature ∨ m.signature.arr = h.length) ∧
    ∀ h'', (m.view h'').publicKey = (m.view h').publicKey ∧ (m.view h'').subject = (m.view h').subject ∧
      (m.view h'').issuer = (m.view h').issuer ∧ (m.view h'').serialNumber = (m.view h').serialNumber := by
  obtain ⟨csr, _, hok⟩ := certificate_ok hs hp
  refine ⟨fun h'' => ?_, window_of hok.inTbs, window_of hok.inSpki, window_of hok.inSubject, window_of hok.inIssuer, ?_,
    fun h'' => ⟨rfl, rfl, rfl, rfl⟩⟩
  · show m.raw.get h'' = _
    rw [hok.inRaw.1.get, hok.inRaw.2.2, List.drop_zero]
    exact List.take_of_length_le (by unfold Slice.get; rw [List.length_take]; omega)
  · rcases hok.sig with ⟨w, _⟩ | ⟨w, _⟩
    · exact .inl (window_of w)
    · exact .inr w

/-- **C125** The result of `CreateCertificateInfo` does not have this fault: what is issued depends on its `Raw` only,
which is memory of its own and not empty, and not on the fields that are windows of the request or of the parent. -/
theorem C125_issue (env : Env U) (t p : X509Cert U) (csr : CertReq U) (tbs tbs' : TbsCert)
    (h : createCertificateInfo env t p csr = .ok tbs) (hraw : tbs'.raw = tbs.raw) :
    tbs.raw ≠ [] ∧ (∀ sig, createCertificate tbs' sig = createCertificate tbs sig) ∧
    ∀ key id tape, issueCertificateBySoftCAKey tbs' key id tape = issueCertificateBySoftCAKey tbs key id tape := by
  have hne : tbs.raw ≠ [] := by
    unfold createCertificateInfo at h
    split at h
    · cases h
    · simp only [Res.bind_eq_ok] at h
      obtain ⟨_, _, _, _, _, _, _, _, h⟩ := h
      rcases ite_ok h with ⟨_, h⟩ | ⟨_, h⟩
      · cases h
      · simp only [Res.bind_eq_ok] at h
        obtain ⟨c, h1, h2⟩ := h
        simp only [Res.ok.injEq] at h2
        rw [← h2]
        dsimp only
        intro e
        rw [e] at h1
        simp only [marshal, tyTbsCert, tyStruct, makeTagged, omitted, Bool.false_and, Bool.false_eq_true, if_false, false_and,
          Res.bind_eq_ok, Res.ok.injEq] at h1
        obtain ⟨b, _, h1⟩ := h1
        simp only [wrapTag, makeElem] at h1
        split at h1 <;> cases h1
  have hmake : tyTbsCert.make {} tbs' = tyTbsCert.make {} tbs := by
    have h0 : tbs.raw.length > 0 := List.length_pos_iff.2 hne
    simp only [tyTbsCert, tyStruct, makeTagged, omitted, Bool.false_and, Bool.false_eq_true, if_false, false_and, withRaw, hraw, if_pos h0]
  have hcert : ∀ sig, createCertificate tbs' sig = createCertificate tbs sig := by
    intro sig
    simp only [createCertificate, marshal, tyCertificate, tyStruct, makeTagged, omitted, Bool.false_and, Bool.false_eq_true, if_false,
      false_and, withRaw]
    rw [show tyTbsCert.make {} tbs' = tyTbsCert.make {} tbs from hmake]
  refine ⟨hne, hcert, fun key id tape => ?_⟩
  unfold issueCertificateBySoftCAKey
  rw [hraw]
  simp only [hcert]

/-! ## What comes of it -/

/-- The request of key `d` for the common name `cn`, signed with the nonce `k`. -/
def exMemRequest (d k : Nat) (cn : Bytes) : Bytes :=
  match Sm2.calculatePubKey ⟨d⟩ with
  | .ok pub =>
    match createCertificateRequest exEnv { subject := { commonName := cn } } pub ⟨d⟩ none [some (toBE 32 k)] with
    | .ok r => r.1
    | _ => []
  | _ => []

/-- The request of "a". -/
def exReqA : Bytes :=
  [48, 129, 197, 48, 110, 2, 1, 0, 48, 12, 49, 10, 48, 8, 6, 3, 85, 4, 3, 19, 1, 97, 48, 89, 48, 19, 6, 7, 42, 134, 72, 206, 61, 2, 1,
  6, 8, 42, 129, 28, 207, 85, 1, 130, 45, 3, 66, 0, 4, 86, 206, 253, 96, 215, 200, 124, 0, 13, 88, 239, 87, 250, 115, 186, 77, 156, 13,
  250, 8, 192, 138, 115, 49, 73, 92, 46, 29, 163, 242, 189, 82, 49, 183, 231, 230, 204, 129, 137, 246, 104, 83, 92, 224, 248, 234, 241,
  189, 109, 232, 76, 24, 47, 108, 142, 113, 111, 120, 13, 58, 151, 10, 35, 195, 160, 0, 48, 10, 6, 8, 42, 129, 28, 207, 85, 1, 131, 117,
  3, 71, 0, 48, 68, 2, 32, 115, 101, 151, 241, 71, 226, 148, 180, 191, 240, 69, 228, 218, 96, 112, 170, 34, 166, 54, 5, 138, 8, 230,
  214, 84, 54, 249, 130, 240, 209, 134, 122, 2, 32, 8, 102, 240, 9, 122, 190, 71, 135, 128, 10, 124, 18, 25, 21, 10, 57, 14, 231, 209,
  32, 4, 145, 103, 212, 227, 196, 171, 1, 29, 102, 17, 102]

/-- The request of "b". -/
def exReqB : Bytes :=
  [48, 129, 197, 48, 110, 2, 1, 0, 48, 12, 49, 10, 48, 8, 6, 3, 85, 4, 3, 19, 1, 98, 48, 89, 48, 19, 6, 7, 42, 134, 72, 206, 61, 2, 1,
  6, 8, 42, 129, 28, 207, 85, 1, 130, 45, 3, 66, 0, 4, 194, 57, 80, 113, 5, 198, 131, 36, 42, 129, 5, 47, 246, 65, 237, 105, 0, 154, 8,
  74, 213, 204, 147, 125, 178, 22, 70, 205, 52, 160, 206, 213, 177, 191, 126, 196, 8, 15, 60, 135, 53, 241, 41, 74, 192, 219, 25, 104,
  107, 238, 46, 150, 171, 140, 113, 251, 122, 37, 54, 102, 203, 102, 224, 9, 160, 0, 48, 10, 6, 8, 42, 129, 28, 207, 85, 1, 131, 117, 3,
  71, 0, 48, 68, 2, 32, 39, 58, 202, 9, 100, 47, 89, 64, 171, 130, 117, 29, 114, 0, 247, 246, 90, 205, 120, 161, 18, 105, 96, 67, 188,
  158, 39, 57, 111, 78, 17, 15, 2, 32, 19, 208, 247, 248, 73, 115, 184, 153, 16, 100, 111, 27, 164, 204, 6, 110, 1, 92, 101, 199, 196,
  211, 77, 159, 70, 167, 17, 109, 127, 82, 152, 252]

set_option maxRecDepth 100000 in
theorem exReqA_eq : exMemRequest 2 3 [0x61] = exReqA := by decide +kernel

set_option maxRecDepth 100000 in
theorem exReqB_eq : exMemRequest 4 5 [0x62] = exReqB := by decide +kernel

/-- A buffer with the given bytes. -/
def exBuffer (bs : Bytes) : Slice := ⟨0, 0, bs.length, bs.length⟩

/-- What comes of a request when the buffer is overwritten after parsing. -/
def exReuse (before after : Bytes) (f : CertReq Bytes → CertReq Bytes → Bool) : Bool :=
  match parseCertificateRequestAt exEnv [before] (exBuffer before) with
  | .ok (m, h) => f (m.view h) (m.view (h.set 0 after))
  | _ => false

theorem exReuse_true {before after : Bytes} {f : CertReq Bytes → CertReq Bytes → Bool} (h : exReuse before after f = true) :
    ∃ m h', parseCertificateRequestAt exEnv [before] (exBuffer before) = .ok (m, h') ∧ f (m.view h') (m.view (h'.set 0 after)) = true := by
  unfold exReuse at h
  split at h
  · rename_i m h' hp
    exact ⟨m, h', hp, h⟩
  · cases h

/-- The request for "a" of key 2 with the name changed to "v". -/
def exForged : Bytes := exReqA.set 21 0x76

/-- **C125** A request whose signature is not valid is verified after another request has been read into the same
buffer: the name that was parsed is not the one that was signed. -/
theorem C125_verify_violated : ∃ (before after : Bytes) (m : ReqMem Bytes) (h' : Heap), before.length = after.length ∧
    parseCertificateRequestAt exEnv [before] (exBuffer before) = .ok (m, h') ∧
    verifyDERCSRSign exEnv before none = .ok false ∧ (m.view h').subject.commonName = [0x76] ∧
    (m.view (h'.set 0 after)).subject.commonName = [0x76] ∧ verifyCSRSign (m.view (h'.set 0 after)) none = .ok true := by
  have h1 : exForged.length = exReqA.length ∧ verifyDERCSRSign exEnv exForged none = .ok false := by
    set_option maxRecDepth 100000 in decide +kernel
  obtain ⟨m, h', hp, hf⟩ := exReuse_true (before := exForged) (after := exReqA)
    (f := fun a b => a.subject.commonName = [0x76] ∧ b.subject.commonName = [0x76] ∧ verifyCSRSign b none = .ok true)
    (by set_option maxRecDepth 100000 in decide +kernel)
  exact ⟨_, _, m, h', h1.1, hp, h1.2, by simpa using hf⟩


/-- **C125** is violated by what is issued: when the buffer holds another request with its key at the same place, the
certificate has the names of the request that was parsed, and verified, with the key of the other one. -/
theorem C125_mixed_violated (env : Env U) (h₁ h₁' h₂ h₂' : Heap) (s : Slice) (m₁ m₂ : ReqMem U) (csr₁ csr₂ : CertReq U) (t p : X509Cert U)
    (hs₁ : s.Valid h₁) (hs₂ : s.Valid h₂)
    (hp₁ : parseCertificateRequestAt env h₁ s = .ok (m₁, h₁')) (hc₁ : parseCertificateRequest env (s.get h₁) = .ok csr₁)
    (hp₂ : parseCertificateRequestAt env h₂ s = .ok (m₂, h₂')) (hc₂ : parseCertificateRequest env (s.get h₂) = .ok csr₂)
    (hk : m₁.rawSPKI = m₂.rawSPKI) :
    createCertificateInfo env (fillCertificateTemplateByCSR t (m₁.view h₂')) p (m₁.view h₂') =
      createCertificateInfo env (fillCertificateTemplateByCSR t csr₁) p csr₂ := by
  obtain ⟨_, e₁, ok₁⟩ := request_ok hs₁ hp₁
  obtain ⟨_, e₂, ok₂⟩ := request_ok hs₂ hp₂
  rw [hc₁] at e₁
  rw [hc₂] at e₂
  cases e₁
  cases e₂
  rw [show fillCertificateTemplateByCSR t csr₁ = fillCertificateTemplateByCSR t (m₁.view h₂') by rw [← ok₁.kept]; rfl]
  refine C88_depends_partial env _ p p _ _ ?_ rfl rfl rfl
  rw [← ok₂.view]
  show m₁.rawSPKI.get h₂' = m₂.rawSPKI.get h₂'
  rw [hk]

/-- The certificate that the CA with key 5 issues for a request, read again. -/
def exIssued (csr : CertReq Bytes) (f : X509Cert Bytes → Bool) : Bool :=
  match createCertificateInfo exEnv (fillCertificateTemplateByCSR exFlowTemplate csr) exParent csr with
  | .ok tbs =>
    match issueCertificateBySoftCAKey tbs ⟨5⟩ none [some (toBE 32 7)] with
    | .ok cert =>
      match parseCertificate exEnv cert with
      | .ok r => f r
      | _ => false
    | _ => false
  | _ => false

set_option maxRecDepth 100000 in
/-- An instance of C125: "a" proves possession of its key 2, and after the request of "b" has been read into the same
buffer the certificate for "a" has b's key 4. -/
example : exReuse exReqA exReqB (fun q q' =>
      q'.raw.length = q.raw.length ∧ verifyCSRSign q none = .ok true ∧ exIssued q' (fun r =>
        r.subject.commonName = [0x61] ∧ Sm2.calculatePubKey ⟨4⟩ = .ok (r.publicKey.getD ⟨0, 0⟩) ∧
        Sm2.calculatePubKey ⟨2⟩ = .ok (q.publicKey.getD ⟨0, 0⟩)) = true) = true := by decide +kernel

set_option maxRecDepth 100000 in
/-- The hypotheses of `C125_mixed_violated` are met by these two requests, and the signature is a window of the buffer. -/
example : (match parseCertificateRequestAt exEnv [exReqA] (exBuffer exReqA),
      parseCertificateRequestAt exEnv [exReqB] (exBuffer exReqA) with
    | .ok (m, h), .ok (m', _) => m.rawSPKI = m'.rawSPKI ∧ m.signature.arr = 0 ∧ h.length = 1 ∧ (m.rawSPKI.get h).length = 91
    | _, _ => false) = true := by decide +kernel

set_option maxRecDepth 100000 in
/-- A certificate whose buffer is cleared: `Raw` and `RawIssuer` are zero then, the issuer's name stays. -/
example : (let bs := exSigned exOidSig (exCertInfo exVersion exOidSig exGoodKey) []
    match parseCertificateAt exEnv [bs] (exBuffer bs) with
    | .ok (m, h) =>
      let c := m.view (h.set 0 (List.replicate bs.length 0))
      (m.view h).raw = bs ∧ (m.view h).rawIssuer ≠ [] ∧ c.raw = List.replicate bs.length 0 ∧ c.rawIssuer.all (· = 0) ∧
        c.issuer = (m.view h).issuer ∧ c.publicKey ≠ none
    | _ => false) = true := by decide +kernel

end Verif.Props
