import Verif.Props.CertMemory
import Verif.Cert.InfoMemoryLemmas
/-!
# Property C146: what is shown of a certificate to be signed is what will be signed
-/
namespace Verif.Props
open Verif Verif.Der Verif.Cert

variable {U : Type}

/-- The fields of a certificate to be signed, encoded, are the bytes that will be signed. -/
def ShowsWhatIsSigned (c : TbsCert) : Prop := marshal tyTbsCert { c with raw := [] } = .ok c.raw

theorem info_ok {env : Env U} {m m' : Memory} {t p : TemplateMem U} {q : ReqMem U} {c : InfoMem} (hv : ArgsValid m t p q)
    (hc : createCertificateInfoAt env m t p q = .ok (c, m')) : ∃ tbs,
    createCertificateInfo env (t.view m) (p.view m) (q.view m.heap) = .ok tbs ∧ InfoOk m t p q tbs c m' := by
  have := createCertificateInfoAt_sim env hv
  rw [hc] at this
  cases h : createCertificateInfo env (t.view m) (p.view m) (q.view m.heap) with
  | ok tbs => rw [h] at this; exact ⟨tbs, rfl, this⟩
  | err _ => rw [h] at this; exact this.elim
  | panic => rw [h] at this; exact this.elim
  | loop => rw [h] at this; exact this.elim

/-- **C146** What is seen right after the call is what the function on values returns. -/
theorem C146_read (env : Env U) (m : Memory) (t p : TemplateMem U) (q : ReqMem U) (hv : ArgsValid m t p q) :
    (do let r ← createCertificateInfoAt env m t p q; Res.ok (r.1.view r.2)) =
      createCertificateInfo env (t.view m) (p.view m) (q.view m.heap) := by
  rw [← sim_map (g := id) (createCertificateInfoAt_sim env hv) fun a b r => r.view.symm]
  cases createCertificateInfo env (t.view m) (p.view m) (q.view m.heap) <;> rfl

/-- **C146** The call changes none of its arguments, and at its return the fields are what will be signed. -/
theorem C146_return (env : Env U) (m m' : Memory) (t p : TemplateMem U) (q : ReqMem U) (c : InfoMem) (hv : ArgsValid m t p q)
    (hc : createCertificateInfoAt env m t p q = .ok (c, m')) :
    m'.ints = m.ints ∧ m.heap <+: m'.heap ∧ t.view m' = t.view m ∧ ShowsWhatIsSigned (c.view m') := by
  obtain ⟨tbs, _, hok⟩ := info_ok hv hc
  refine ⟨hok.ints, hok.grows,
    template_view_grown hv.tSubject hv.tSubjectKeyId hv.tAuthorityKeyId hv.tExtra hok.grows hok.ints, ?_⟩
  rw [hok.view]
  exact hok.content

/-- **C146** What will be signed is memory of its own: whatever is written to numbers and to arrays that existed before
the call, and to the fields' own arrays, the same certificate is issued. -/
theorem C146_signed (env : Env U) (m m' m'' : Memory) (t p : TemplateMem U) (q : ReqMem U) (c : InfoMem) (hv : ArgsValid m t p q)
    (hc : createCertificateInfoAt env m t p q = .ok (c, m')) (hk : m''.heap[c.raw.arr]? = m'.heap[c.raw.arr]?) :
    m.heap.length ≤ c.raw.arr ∧ (∀ e ∈ c.extensions, e.value.arr ≠ c.raw.arr) ∧ c.issuer.arr ≠ c.raw.arr ∧ c.subject.arr ≠ c.raw.arr ∧
    (∀ sig, createCertificate (c.view m'') sig = createCertificate (c.view m') sig) ∧
    ∀ key id tape, issueCertificateBySoftCAKey (c.view m'') key id tape = issueCertificateBySoftCAKey (c.view m') key id tape := by
  obtain ⟨tbs, ht, hok⟩ := info_ok hv hc
  obtain ⟨r1, r2, _, r4⟩ := hok.rawOnly
  have hraw : (c.view m'').raw = tbs.raw := by
    rw [← hok.view]
    show c.raw.get m''.heap = c.raw.get m'.heap
    unfold Slice.get
    rw [hk]
  obtain ⟨_, h1, h2⟩ := C125_issue env _ _ _ tbs (c.view m'') ht hraw
  rw [hok.view]
  exact ⟨hok.raw.1, fun e he => (r4 e he).symm, r1.symm, r2.symm, h1, h2⟩

/-- **C146** holds as long as nobody writes to the serial number, the subject names, the extra extensions and the key of
the arguments, nor to memory that the call allocated. Missing: such writes. -/
theorem C146_kept_partial (env : Env U) (m m' m'' : Memory) (t p : TemplateMem U) (q : ReqMem U) (c : InfoMem) (hv : ArgsValid m t p q)
    (hc : createCertificateInfoAt env m t p q = .ok (c, m'))
    (hnew : ∀ i, m.heap.length ≤ i → m''.heap[i]? = m'.heap[i]?) (hserial : ∀ i, t.serial = some i → m''.ints[i]? = m.ints[i]?)
    (hp : p.rawSubject.get m''.heap = p.rawSubject.get m.heap) (ht : t.rawSubject.get m''.heap = t.rawSubject.get m.heap)
    (hx : ∀ e ∈ t.extra, e.value.get m''.heap = e.value.get m.heap) (hq : q.rawSPKI.get m''.heap = q.rawSPKI.get m.heap) :
    c.view m'' = c.view m' ∧ ShowsWhatIsSigned (c.view m'') := by
  obtain ⟨tbs, _, hok⟩ := info_ok hv hc
  have new : ∀ {s : Slice}, m.heap.length ≤ s.arr → s.get m''.heap = s.get m'.heap := by
    intro s hs
    unfold Slice.get
    rw [hnew _ hs]
  have hI : c.issuer.get m''.heap = c.issuer.get m'.heap := by
    rcases hok.issuer with ⟨_, e⟩ | ⟨_, e⟩
    · rw [e, hp, get_grown hv.pSubject.lt hok.grows]
    · exact new e
  have hS : c.subject.get m''.heap = c.subject.get m'.heap := by
    rcases hok.subject with ⟨_, e⟩ | ⟨_, e⟩
    · rw [e, ht, get_grown hv.tSubject.lt hok.grows]
    · exact new e
  have hK : c.spki.get m''.heap = c.spki.get m'.heap := by
    rw [hok.spki.1.get, hok.spki.1.get, hq, get_grown hv.spki.lt hok.grows]
  have hE : c.extensions.map (fun e => e.view m''.heap) = c.extensions.map fun e => e.view m'.heap := by
    obtain ⟨own, e1, e2⟩ := hok.extensions
    refine List.map_congr_left fun e he => ?_
    rw [e1, List.mem_append] at he
    unfold ExtMem.view
    rcases he with he | he
    · rw [new (e2 e he)]
    · rw [hx e he, get_grown (hv.tExtra e he).lt hok.grows]
  have hview : c.view m'' = c.view m' := by
    unfold InfoMem.view
    rw [new hok.raw.1, hI, hS, hK, hE, hserial _ hok.serial, hok.ints]
  exact ⟨hview, by rw [hview, hok.view]; exact hok.content⟩

/-- **C146** is violated for every template: the serial number, the extra extensions and, if they are given, the raw
subject names and the key are those of the arguments, at any time; so they follow whatever the caller does with the
template, the parent and the request, while the bytes that will be signed do not. -/
theorem C146_follows_violated (env : Env U) (m m' : Memory) (t p : TemplateMem U) (q : ReqMem U) (c : InfoMem) (hv : ArgsValid m t p q)
    (hc : createCertificateInfoAt env m t p q = .ok (c, m')) (m'' : Memory) :
    (t.view m'').serialNumber = some (c.view m'').serial ∧
    (∃ own, (c.view m'').extensions = some (own ++ (t.view m'').extraExtensions)) ∧
    (p.rawSubject.len > 0 → (c.view m'').issuer.fullBytes = (p.view m'').rawSubject) ∧
    (t.rawSubject.len > 0 → (c.view m'').subject.fullBytes = (t.view m'').rawSubject) ∧
    (c.view m'').publicKey.raw = (q.view m''.heap).rawSPKI := by
  obtain ⟨tbs, _, hok⟩ := info_ok hv hc
  refine ⟨?_, ?_, fun h => ?_, fun h => ?_, ?_⟩
  · show t.serial.map _ = _
    rw [hok.serial]; rfl
  · obtain ⟨own, e1, _⟩ := hok.extensions
    exact ⟨own.map fun e => e.view m''.heap, by
      show some (c.extensions.map _) = _
      rw [e1, List.map_append]; rfl⟩
  · rcases hok.issuer with ⟨_, e⟩ | ⟨e, _⟩
    · show c.issuer.get _ = _
      rw [e]; rfl
    · omega
  · rcases hok.subject with ⟨_, e⟩ | ⟨e, _⟩
    · show c.subject.get _ = _
      rw [e]; rfl
    · omega
  · show c.spki.get _ = q.rawSPKI.get _
    rw [hok.spki.1.get, hok.spki.2, List.drop_zero]
    exact List.take_of_length_le (by unfold Slice.get; rw [List.length_take]; omega)

/-! ## An example -/

/-- Arrays: the subject of the parent, its key identifier, the value of an extra extension, the key of a request; and
the serial number 5. -/
def exInfoMemory : Memory := ⟨[exSubject, [7], [5, 0], exGoodKey], [5]⟩

/-- Serial number 5, the subject CN=a, and an extra extension. -/
def exInfoTemplate : TemplateMem Bytes :=
  ⟨⟨0, 0, 0, 0⟩, ⟨0, 0, 0, 0⟩, ⟨0, 0, 0, 0⟩, some 0, [⟨[1, 2, 3], true, ⟨2, 0, 2, 2⟩⟩], { exFlowTemplate with subject := { commonName := [0x61] } }⟩

def exInfoParent : TemplateMem Bytes := ⟨⟨0, 0, exSubject.length, exSubject.length⟩, ⟨1, 0, 1, 1⟩, ⟨0, 0, 0, 0⟩, none, [], {}⟩

def exInfoRequest : ReqMem Bytes :=
  ⟨⟨0, 0, 0, 0⟩, ⟨0, 0, 0, 0⟩, ⟨3, 0, exGoodKey.length, exGoodKey.length⟩, ⟨0, 0, 0, 0⟩, ⟨0, 0, 0, 0⟩, {}⟩

theorem exInfo_valid : ArgsValid exInfoMemory exInfoTemplate exInfoParent exInfoRequest where
  tSubject := ⟨by decide, exSubject, rfl, by decide⟩
  tSubjectKeyId := ⟨by decide, exSubject, rfl, by decide⟩
  tAuthorityKeyId := ⟨by decide, exSubject, rfl, by decide⟩
  tExtra := by
    intro e he
    simp only [exInfoTemplate, List.mem_singleton] at he
    subst he
    exact ⟨by decide, [5, 0], rfl, by decide⟩
  pSubject := ⟨Nat.le_refl _, exSubject, rfl, by simp [exInfoParent]⟩
  pSubjectKeyId := ⟨by decide, [7], rfl, by decide⟩
  spki := ⟨Nat.le_refl _, exGoodKey, rfl, by simp [exInfoRequest]⟩

/-- What comes of a certificate to be signed when the caller changes the memory. -/
def exInfoAfter (change : Memory → Memory) (f : TbsCert → TbsCert → Bool) : Bool :=
  match createCertificateInfoAt exEnv exInfoMemory exInfoTemplate exInfoParent exInfoRequest with
  | .ok (c, m) => f (c.view m) (c.view (change m))
  | _ => false

set_option maxRecDepth 100000 in
/-- **C146** is violated: after the caller has increased its serial number and changed the extra extension, the
certificate to be signed shows number 6 and the new value; the bytes that will be signed are those with number 5 and the
old value. -/
theorem C146_violated : ∃ (c : InfoMem) (m m' : Memory),
    createCertificateInfoAt exEnv exInfoMemory exInfoTemplate exInfoParent exInfoRequest = .ok (c, m) ∧
    (c.view m').raw = (c.view m).raw ∧ (c.view m).serial = 5 ∧ (c.view m').serial = 6 ∧
    (c.view m').extensions ≠ (c.view m).extensions ∧ ¬ ShowsWhatIsSigned (c.view m') := by
  have h : exInfoAfter (fun m => ⟨m.heap.set 2 [5, 1], [6]⟩) (fun a b => b.raw = a.raw ∧ a.serial = 5 ∧ b.serial = 6 ∧
      b.extensions ≠ a.extensions ∧ marshal tyTbsCert { b with raw := [] } ≠ .ok b.raw) = true := by decide +kernel
  unfold exInfoAfter at h
  split at h
  · rename_i c m hc
    simp only [decide_eq_true_eq] at h
    exact ⟨c, m, _, hc, h⟩
  · cases h

end Verif.Props
