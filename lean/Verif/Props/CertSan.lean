import Verif.Cert.SanLemmas
import Verif.Props.CertNames
/-!
# Subject alternative names: C55, C72
-/
namespace Verif.Props
open Verif Verif.Der Verif.Cert Verif.Spec.DER Verif.Spec.Cert Verif.Spec.Names

variable {U : Type}

/-- A URI that `url.Parse` and `String` of net/url carry over, with a host that is empty or a domain name. -/
def GoodURI (env : Env U) (u : U) : Prop :=
  env.parseURL (env.urlString u) = some u ∧ (env.urlHost u = [] ∨ AcceptedDomain (env.urlHost u))

theorem acceptURI_iff (env : Env U) (v : Bytes) (u : U) :
    acceptURI env v = some u ↔ env.parseURL v = some u ∧ (env.urlHost u = [] ∨ AcceptedDomain (env.urlHost u)) := by
  unfold acceptURI
  rw [Option.filter_eq_some_iff, acceptedDomain_iff, ← Option.ne_none_iff_exists']
  simp

theorem isWireIP_to4 {ip : Bytes} (h : ip.length = 4 ∨ ip.length = 16) : IsWireIP ip ((to4 ip).getD ip) := by
  rcases h with h | h
  · have : to4 ip = some ip := by unfold to4; rw [if_pos h]
    rw [this]
    exact ⟨rfl, .inl h⟩
  · have ht : ip.take 12 = ip.take 10 ++ (ip.drop 10).take 2 := by
      rw [show (12 : Nat) = 10 + 2 by rfl, List.take_add]
    by_cases h2 : ip.length = 16 ∧ ip.take 10 = List.replicate 10 0 ∧ (ip.drop 10).take 2 = [0xff, 0xff]
    · have : to4 ip = some (ip.drop 12) := by unfold to4; rw [if_neg (by omega), if_pos h2]
      rw [this, Option.getD_some]
      have hd : (ip.drop 12).length = 4 := by simp [h]
      refine ⟨?_, .inl hd⟩
      unfold SameIP ip16
      rw [if_neg (by omega), if_pos hd, ← h2.2.1, ← h2.2.2, ← ht, List.take_append_drop]
    · have : to4 ip = none := by unfold to4; rw [if_neg (by omega), if_neg h2]
      rw [this, Option.getD_none]
      refine ⟨rfl, .inr ⟨h, fun e => h2 ⟨h, ?_⟩⟩⟩
      rw [ht] at e
      exact List.append_inj e (by simp [h])

/-- C55: parsing what `marshalSANs` made gives the same lists in the same order (IP addresses in the form of the
standard), whenever the IP addresses have 4 or 16 bytes and the URIs are good. -/
theorem C55_roundtrip (env : Env U) (dns emails ips : List Bytes) (uris : List U) (v : Bytes)
    (h : marshalSANs env dns emails ips uris = .ok v) (hl : v.length < 2 ^ 31)
    (hip : ∀ ip ∈ ips, ip.length = 4 ∨ ip.length = 16) (huri : ∀ u ∈ uris, GoodURI env u) :
    ∃ s, parseSANExtension env v = .ok s ∧ s.dnsNames = dns ∧ s.emailAddresses = emails ∧
      List.Forall₂ IsWireIP ips s.ipAddresses ∧ s.uris = uris := by
  refine ⟨_, (parseSAN_marshal _ h hl).2 ⟨hip, uris, forall₂_self fun u hu => (acceptURI_iff _ _ _).2 (huri u hu), rfl⟩,
    rfl, rfl, ?_, rfl⟩
  dsimp only
  rw [List.forall₂_map_right_iff]
  exact forall₂_self fun ip hp => isWireIP_to4 (hip ip hp)

/-- When the parser accepts what was made: exactly when the IP addresses have 4 or 16 bytes and the URIs are parsed again
and have good hosts. -/
theorem C55_exact (env : Env U) (dns emails ips : List Bytes) (uris : List U) (v : Bytes)
    (h : marshalSANs env dns emails ips uris = .ok v) (hl : v.length < 2 ^ 31) :
    (∃ s, parseSANExtension env v = .ok s) ↔
      (∀ ip ∈ ips, ip.length = 4 ∨ ip.length = 16) ∧
      ∀ u ∈ uris, ∃ u', env.parseURL (env.urlString u) = some u' ∧ (env.urlHost u' = [] ∨ AcceptedDomain (env.urlHost u')) := by
  constructor
  · rintro ⟨s, hs⟩
    obtain ⟨h1, us, h2, h3⟩ := (parseSAN_marshal _ h hl).1 hs
    refine ⟨h1, ?_⟩
    clear h hs h3
    induction h2 with
    | nil => simp
    | cons k _ ih =>
      rw [List.forall_mem_cons]
      exact ⟨⟨_, (acceptURI_iff _ _ _).1 k⟩, ih⟩
  · rintro ⟨h1, h2⟩
    have : ∃ us, List.Forall₂ (fun u u' => acceptURI env (env.urlString u) = some u') uris us := by
      clear h
      induction uris with
      | nil => exact ⟨[], .nil⟩
      | cons u uris ih =>
        rw [List.forall_mem_cons] at h2
        obtain ⟨⟨u', k⟩, h3⟩ := h2
        obtain ⟨us, hus⟩ := ih h3
        exact ⟨u' :: us, .cons ((acceptURI_iff _ _ _).2 k) hus⟩
    obtain ⟨us, hus⟩ := this
    exact ⟨_, (parseSAN_marshal _ h hl).2 ⟨h1, us, hus, rfl⟩⟩

/-- What is made is the standard's encoding; it is always made. -/
theorem C55_encoding (env : Env U) (dns emails ips : List Bytes) (uris : List U)
    (hip : ∀ ip ∈ ips, ip.length = 4 ∨ ip.length = 16) :
    ∃ v, marshalSANs env dns emails ips uris = .ok v ∧ (v.length < 2 ^ 31 →
      ∃ wire, List.Forall₂ IsWireIP ips wire ∧ v = generalNames dns emails wire (uris.map env.urlString)) := by
  refine ⟨_, marshalSANs_ok env dns emails ips uris, fun hl => ⟨ips.map fun ip => (to4 ip).getD ip, ?_, ?_⟩⟩
  · rw [List.forall₂_map_right_iff]
    exact forall₂_self fun ip hp => isWireIP_to4 (hip ip hp)
  · rw [(marshalSANs_elem (marshalSANs_ok env dns emails ips uris) hl).1]
    unfold generalNames sanItems
    simp only [List.flatMap_append, List.flatMap_map]
    rfl

/-- An IP address has only one such form. -/
theorem C55_wire_unique {ip v w : Bytes} (hv : IsWireIP ip v) (hw : IsWireIP ip w) : v = w := by
  unfold IsWireIP SameIP at *
  have h : ip16 v = ip16 w := hv.1.symm.trans hw.1
  have key : ∀ {a b : Bytes}, ip16 a = ip16 b → a.length = 4 → b.length = 16 → b.take 12 = List.replicate 10 0 ++ [0xff, 0xff] := by
    intro a b h ha hb
    unfold ip16 at h
    rw [if_pos ha, if_neg (by omega)] at h
    rw [← h, List.take_left' (by simp)]
  rcases hv.2 with h1 | ⟨h1, h2⟩ <;> rcases hw.2 with h3 | ⟨h3, h4⟩
  · unfold ip16 at h
    rw [if_pos h1, if_pos h3] at h
    exact List.append_cancel_left h
  · exact absurd (key h h1 h3) h4
  · exact absurd (key h.symm h3 h1) h2
  · unfold ip16 at h
    rwa [if_neg (by omega), if_neg (by omega)] at h

/-- C72: names of other classes or of constructed form are not the names of RFC 5280; the code takes them all the same:
an INTEGER 1 in the SEQUENCE is taken for the DNS name "\x01". -/
theorem C72_class_violated (env : Env U) :
    parseSANExtension env [0x30, 3, 0x02, 1, 1] = .ok { dnsNames := [[1]] } ∧
    parseSANExtension env [0x30, 3, 0xa2, 1, 0x61] = .ok { dnsNames := [[0x61]] } ∧
    parseSANExtension env [0x30, 3, 0x41, 1, 0x61] = .ok { emailAddresses := [[0x61]] } := by
  refine ⟨rfl, rfl, rfl⟩

/-- C72: names in IA5String are ASCII; the code takes (and makes) any bytes. -/
theorem C72_ia5_violated (env : Env U) :
    marshalSANs env [[0xff]] [] [] [] = .ok [0x30, 3, 0x82, 1, 0xff] ∧
    parseSANExtension env [0x30, 3, 0x82, 1, 0xff] = .ok { dnsNames := [[0xff]] } := by
  refine ⟨rfl, rfl⟩

/-- An `Env` in which URLs are their strings and the host is empty. -/
def sanEnv : Env Bytes := ⟨some, id, fun _ => [], fun _ => false, fun _ _ => 0⟩

/-- "a.b", "x@y", 127.0.0.1 in mapped form, ::1 and the URL "z:". -/
example : ∃ v, marshalSANs sanEnv [[0x61, 0x2e, 0x62]] [[0x78, 0x40, 0x79]]
      [[0, 0, 0, 0, 0, 0, 0, 0, 0, 0, 0xff, 0xff, 127, 0, 0, 1], [0, 0, 0, 0, 0, 0, 0, 0, 0, 0, 0, 0, 0, 0, 0, 1]] [[0x7a, 0x3a]] = .ok v ∧
    v.length < 2 ^ 31 ∧
    parseSANExtension sanEnv v = .ok ⟨[[0x61, 0x2e, 0x62]], [[0x78, 0x40, 0x79]],
      [[127, 0, 0, 1], [0, 0, 0, 0, 0, 0, 0, 0, 0, 0, 0, 0, 0, 0, 0, 1]], [[0x7a, 0x3a]]⟩ :=
  ⟨_, rfl, by decide +kernel, rfl⟩
example : GoodURI sanEnv [0x7a, 0x3a] := ⟨rfl, .inl rfl⟩
/-- An address of five bytes is made but not parsed. -/
example : ∃ v, marshalSANs sanEnv [] [] [[1, 2, 3, 4, 5]] [] = .ok v ∧ parseSANExtension sanEnv v = .err "x509: cannot parse IP address" :=
  ⟨_, rfl, rfl⟩
example : IsWireIP [0, 0, 0, 0, 0, 0, 0, 0, 0, 0, 0xff, 0xff, 127, 0, 0, 1] [127, 0, 0, 1] := ⟨rfl, .inl rfl⟩

end Verif.Props
