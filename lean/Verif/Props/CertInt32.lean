import Verif.Cert.Int32Lemmas
import Verif.Props.CertAccept
/-!
# Property C147: on platforms where `int` has 32 bits, certificates are parsed as on others

No certificate is accepted, or rejected, differently; but some of those with a malformed name constraints extension make
the parser panic where it returns an error on 64-bit platforms.
-/
namespace Verif.Props
open Verif Verif.Cert Verif.Der Spec.DER

variable {U : Type}

/-- The element that starts here says that it has 2^31 bytes or more, with its header, and less than 2^32. -/
def Overlong (bs : Bytes) : Prop :=
  ∃ (t b0 b1 b2 b3 : Byte) (rest : Bytes), bs = t :: 0x84 :: b0 :: b1 :: b2 :: b3 :: rest ∧ t.toNat % 32 ≠ 31 ∧
    2 ^ 31 ≤ 6 + (b0.toNat * 2 ^ 24 + b1.toNat * 2 ^ 16 + b2.toNat * 2 ^ 8 + b3.toNat) ∧
    6 + (b0.toNat * 2 ^ 24 + b1.toNat * 2 ^ 16 + b2.toNat * 2 ^ 8 + b3.toNat) < 2 ^ 32

theorem beNat_four (b0 b1 b2 b3 : Byte) :
    beNat [b0, b1, b2, b3] = b0.toNat * 2 ^ 24 + b1.toNat * 2 ^ 16 + b2.toNat * 2 ^ 8 + b3.toNat := by
  simp only [beNat, List.foldl]
  omega

theorem huge_iff (t b : Byte) (r : Bytes) : (LowTag t ∧ CB.P32.Huge b r) ↔ Overlong (t :: b :: r) := by
  unfold CB.P32.Huge Overlong
  constructor
  · rintro ⟨ht, rfl, h4, h5, h6⟩
    match r, h4 with
    | b0 :: b1 :: b2 :: b3 :: rest, _ =>
      rw [show List.take 4 (b0 :: b1 :: b2 :: b3 :: rest) = [b0, b1, b2, b3] from rfl, beNat_four] at h5 h6
      exact ⟨t, b0, b1, b2, b3, rest, rfl, ht, h5, h6⟩
  · rintro ⟨t', b0, b1, b2, b3, rest, h, ht, h5, h6⟩
    simp only [List.cons.injEq] at h
    obtain ⟨rfl, rfl, rfl⟩ := h
    refine ⟨ht, rfl, by simp, ?_⟩
    rw [show List.take 4 (b0 :: b1 :: b2 :: b3 :: rest) = [b0, b1, b2, b3] from rfl, beNat_four]
    exact ⟨h5, h6⟩

/-- **C147, the reader**: on 32-bit platforms reading an element panics exactly when it is overlong, and does what it does
on 64-bit platforms otherwise. -/
theorem C147_reads (sk : Bool) (bs : Bytes) :
    (Overlong bs → CB.P32.readASN1 sk (some bs) = .panic) ∧
    (¬ Overlong bs → CB.P32.readASN1 sk (some bs) = CB.readASN1 sk (some bs)) := by
  match bs with
  | [] => exact ⟨fun ⟨_, _, _, _, _, _, h, _⟩ => by simp at h, fun _ => rfl⟩
  | [_] => exact ⟨fun ⟨_, _, _, _, _, _, h, _⟩ => by simp at h, fun _ => rfl⟩
  | t :: b :: r =>
    rw [← huge_iff]
    by_cases hb : b.toNat < 128
    · refine ⟨fun h => ?_, fun _ => CB.P32.readASN1_short sk t b r hb⟩
      obtain ⟨_, h, _⟩ := h
      subst h
      simp at hb
    by_cases ht : LowTag t
    · obtain ⟨h1, h2⟩ := CB.P32.readASN1_long sk t b r ht (by omega)
      exact ⟨fun h => h1 h.2, fun h => h2 fun h' => h ⟨ht, h'⟩⟩
    · refine ⟨fun h => absurd h.1 ht, fun _ => ?_⟩
      rw [CB.readASN1_highTag sk t b r ht]
      unfold CB.P32.readASN1
      rw [if_neg (by simp), CB.at_some (by simp), CB.at_some (by simp)]
      simp only [Res.ok_bind, List.getElem_cons_zero]
      rw [if_pos (by rw [CB.and_1f]; exact Decidable.not_not.1 ht)]

/-- An overlong element is never there: on 64-bit platforms the reader refuses it, leaving everything. -/
theorem C147_refused (sk : Bool) (bs : Bytes) (hl : bs.length < 2 ^ 31) (h : Overlong bs) :
    CB.readASN1 sk (some bs) = .ok (none, some bs) := by
  rcases CB.readASN1_sound sk bs with e | ⟨t, c, rest, _, _, _, e⟩
  · exact e
  · rcases CB.P32.readASN1_near sk (some bs) hl with e' | ⟨_, s, e'⟩
    · rw [(C147_reads sk bs).1 h, e] at e'; cases e'
    · rw [e] at e'; cases e'

/-- **C147, name constraints (partial)**: on 32-bit platforms the extension is read as on 64-bit ones, or there is a panic,
and then it is rejected on 64-bit ones. -/
theorem C147_constraints_partial (env : Env U) (value : Bytes) (h : value.length < 2 ^ 31) :
    P32.parseNameConstraints env value = parseNameConstraints env value ∨
    (P32.parseNameConstraints env value = .panic ∧ ∃ m, parseNameConstraints env value = .err m) :=
  P32.parseNameConstraints_worse env value h

/-- **C147, certificates (partial)**: the same certificates are accepted, with the same result; what is rejected on 64-bit
platforms is rejected with the same error, or there is a panic. -/
theorem C147_partial (env : Env U) (inp : Certificate) (h : ∀ e ∈ inp.tbs.extensions.getD [], e.value.length < 2 ^ 31) :
    (∀ c, P32.parseCert env inp = .ok c ↔ parseCert env inp = .ok c) ∧
    (∀ m, P32.parseCert env inp = .err m → parseCert env inp = .err m) ∧
    (P32.parseCert env inp = .panic → ∃ m, parseCert env inp = .err m) := by
  have total : (parseCert env inp).returned = true := by
    unfold parseCert
    refine returned_ite (fun _ => rfl) fun _ => returned_ite (fun _ => rfl) fun _ => ?_
    exact returned_bind (parsePublicKey_returned _) fun _ _ => returned_bind (parseName_returned _) fun _ _ =>
      returned_bind (parseName_returned _) fun _ _ => parseExtensions_returned env _ _
  have key : P32.Worse (P32.parseCert env inp) (parseCert env inp) := by
    unfold P32.parseCert parseCert
    split
    · exact .inl rfl
    split
    · exact .inl rfl
    exact P32.Worse.bind (.inl rfl) fun _ _ => P32.Worse.bind (.inl rfl) fun _ _ => P32.Worse.bind (.inl rfl) fun _ _ =>
      P32.parseExtensions_worse env _ _ h
  rcases key with e | ⟨e, m, e'⟩
  · rw [e]
    exact ⟨fun _ => Iff.rfl, fun _ h => h, fun h => by rw [h] at total; cases total⟩
  · rw [e, e']
    exact ⟨fun c => ⟨fun h => by simp at h, fun h => by simp at h⟩, fun m h => by simp at h, fun _ => ⟨m, rfl⟩⟩

/-- **C147, violated**: a name constraints extension whose value begins with an overlong element makes the parser panic, in
every certificate in which it is the first extension and the checks before the extensions succeed. -/
theorem C147_constraints_violated (env : Env U) (value : Bytes) (h : Overlong value) :
    P32.parseNameConstraints env value = .panic := by
  unfold P32.parseNameConstraints P32.readNameConstraints CB.P32.readASN1Tag CB.P32.readAnyASN1
  rw [(C147_reads true value).1 h]
  rfl

theorem C147_certificate_violated (env : Env U) (inp : Certificate) (e : Extension) (es : List Extension)
    (hs : inp.sigAlg.algorithm = oidSignatureSM3WithSM2) (hk : inp.tbs.publicKey.algorithm.algorithm = oidPublicKeyECDSA)
    (hp : ∃ p, parsePublicKey inp.tbs.publicKey = .ok p) (hn : ∃ n, parseName inp.tbs.subject.fullBytes = .ok n)
    (hi : ∃ n, parseName inp.tbs.issuer.fullBytes = .ok n)
    (hx : inp.tbs.extensions = some (e :: es)) (he : e.id = oidExtensionNameConstraints) (ho : Overlong e.value) :
    P32.parseCert env inp = .panic := by
  obtain ⟨p, hp⟩ := hp
  obtain ⟨n, hn⟩ := hn
  obtain ⟨i, hi⟩ := hi
  unfold P32.parseCert
  rw [if_neg (by simp [hs]), if_neg (by simp [hk]), hp, hn, hi, hx]
  simp only [Res.ok_bind, Option.getD_some]
  unfold P32.parseExtensions P32.parseExtension
  rw [if_pos he, C147_constraints_violated env _ ho]
  rfl

/-! ## Concrete cases -/

/-- An extension with the object identifier of name constraints. -/
def exNameConstraints (value : Bytes) : Bytes := elem 0xa3 (elem 0x30 (elem 0x30 (elem 0x06 [0x55, 0x1d, 0x1e] ++ elem 0x04 value)))

/-- A certificate with a name constraints extension of the given value. -/
def exConstrained (value : Bytes) : Bytes := exSigned exOidSig (exCertInfo exVersion exOidSig (exGoodKey ++ exNameConstraints value)) []

/-- **C147, violated**: six bytes in an extension are enough: a panic with 32 bits, an error with 64. -/
theorem C147_violated : P32.parseCertificate exEnv (exConstrained [0x30, 0x84, 0x80, 0, 0, 0]) = .panic ∧
    parseCertificate exEnv (exConstrained [0x30, 0x84, 0x80, 0, 0, 0]) = .err "x509: invalid NameConstraints extension" := by
  constructor
  · have h : (match P32.parseCertificate exEnv (exConstrained [0x30, 0x84, 0x80, 0, 0, 0]) with | .panic => true | _ => false) = true := by
      decide +kernel
    revert h
    cases P32.parseCertificate exEnv (exConstrained [0x30, 0x84, 0x80, 0, 0, 0]) <;> simp
  · have h : (match parseCertificate exEnv (exConstrained [0x30, 0x84, 0x80, 0, 0, 0]) with
        | .err m => m == "x509: invalid NameConstraints extension" | _ => false) = true := by
      decide +kernel
    revert h
    cases parseCertificate exEnv (exConstrained [0x30, 0x84, 0x80, 0, 0, 0]) <;> simp

/-- The ends of the range of lengths: `7ffffffa` is the first that panics, `fffffff9` the last. -/
example : Overlong [0x30, 0x84, 0x7f, 0xff, 0xff, 0xfa] ∧ Overlong [0x30, 0x84, 0xff, 0xff, 0xff, 0xf9] :=
  ⟨⟨_, _, _, _, _, _, rfl, by decide, by decide, by decide⟩, ⟨_, _, _, _, _, _, rfl, by decide, by decide, by decide⟩⟩
example : CB.P32.readASN1 true (some [0x30, 0x84, 0x7f, 0xff, 0xff, 0xf9]) = .ok (none, some [0x30, 0x84, 0x7f, 0xff, 0xff, 0xf9]) ∧
    CB.P32.readASN1 true (some [0x30, 0x84, 0x7f, 0xff, 0xff, 0xfa]) = .panic ∧
    CB.P32.readASN1 true (some [0x30, 0x84, 0xff, 0xff, 0xff, 0xf9]) = .panic ∧
    CB.P32.readASN1 true (some [0x30, 0x84, 0xff, 0xff, 0xff, 0xfa]) = .ok (none, some [0x30, 0x84, 0xff, 0xff, 0xff, 0xfa]) :=
  ⟨rfl, rfl, rfl, rfl⟩

/-- A good extension, and the panic deep inside: the second subtree of the excluded ones. -/
example : P32.parseNameConstraints exEnv [0x30, 9, 0xa0, 7, 0x30, 5, 0x82, 3, 0x61, 0x2e, 0x62] =
      .ok ({ dnsNames := [[0x61, 0x2e, 0x62]] }, {}) ∧
    P32.parseNameConstraints exEnv [0x30, 15, 0xa1, 13, 0x30, 3, 0x82, 1, 0x61, 0x30, 6, 0x82, 0x84, 0x80, 0, 0, 0] = .panic ∧
    parseNameConstraints exEnv [0x30, 15, 0xa1, 13, 0x30, 3, 0x82, 1, 0x61, 0x30, 6, 0x82, 0x84, 0x80, 0, 0, 0] =
      .err "x509: invalid NameConstraints extension" := by
  decide +kernel

end Verif.Props
