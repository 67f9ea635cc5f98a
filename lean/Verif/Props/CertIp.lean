import Verif.Cert.IpText
import Verif.Props.CertUrl
/-!
# IP addresses in URI name constraints (C110)

The grammar of the texts of addresses is in `Cert/IpText.lean` (`Spec.IP`).
-/
namespace Verif.Props
open Verif Verif.Der Verif.Cert Verif.Spec.DER Verif.Spec.Cert Verif.Spec.Names Verif.Spec.IP Verif.GoUrl

/-- A text that stands for an IP address. -/
def IsIPText (s : Bytes) : Prop := ∃ b, IPv4Text s b ∨ IPv6Text s b

theorem isIP_iff (pc : Bool) (g : CB.Growth) (s : Bytes) : (goEnv pc g).isIP s = true ↔ IsIPText s := by
  show (parseIP s).isSome = true ↔ _
  rw [Option.isSome_iff_exists]
  exact exists_congr fun b => parseIP_iff s b

/-- **C110**, the check: what `net.ParseIP` makes an address is what the grammar says, and the address is determined by the
text. -/
theorem C110_address (pc : Bool) (g : CB.Growth) (s : Bytes) : ((goEnv pc g).isIP s = true ↔ IsIPText s) ∧
    ∀ b b', (IPv4Text s b ∨ IPv6Text s b) → (IPv4Text s b' ∨ IPv6Text s b') → b = b' ∧ (b.length = 4 ∨ b.length = 16) := by
  refine ⟨isIP_iff pc g s, fun b b' h h' => ⟨?_, ?_⟩⟩
  · have h1 := (parseIP_iff s b).2 h
    rw [(parseIP_iff s b').2 h'] at h1
    exact (Option.some.inj h1).symm
  · rcases h with h | ⟨_, h⟩ | ⟨l, r, bl, br, _, _, _, h1, rfl⟩
    · exact .inl (ipv4_length h)
    · exact .inr h
    · right
      simp only [List.length_append, List.length_replicate]
      omega

/-- **C110**, what holds: no URI constraint that was read is the text of an IP address. Missing: that it is a fully
qualified domain name. -/
theorem C110_read_partial (pc : Bool) (g : CB.Growth) (value : Bytes) (ps xs : Subtrees)
    (h : parseNameConstraints (goEnv pc g) value = .ok (ps, xs)) :
    ∀ d ∈ ps.uriDomains ++ xs.uriDomains, IA5 d ∧ ¬ IsIPText d ∧ ConstraintDomain d := by
  obtain ⟨perm, excl, lp, lx, _, _, _, _, _, hv, rfl, rfl⟩ := (parseNameConstraints_iff _ _ _ _).1 h
  intro d hd
  have : ∃ x ∈ lp ++ lx, x.1 = (0x86, d) := by
    rcases List.mem_append.1 hd with hd | hd
    all_goals
      simp only [subtreesOf, valuesOf, List.mem_map, List.mem_filter, decide_eq_true_eq] at hd
      obtain ⟨b, ⟨⟨x, hx, rfl⟩, h1⟩, h2⟩ := hd
    · exact ⟨x, List.mem_append_left _ hx, Prod.ext h1 h2⟩
    · exact ⟨x, List.mem_append_right _ hx, Prod.ext h1 h2⟩
  obtain ⟨x, hx, e⟩ := this
  obtain ⟨h1, h2, h3⟩ := (hv x hx).2.2.2 (by rw [e])
  rw [e] at h1 h2 h3
  refine ⟨h1, ?_, h3⟩
  rw [← isIP_iff pc g, h2]
  simp

/-- The name constraints extension that permits one URI domain. -/
def uriConstraint (d : Bytes) : Bytes := nameConstraints (some (subtree (0x86, d) [])) none

/-- **C110**, what holds: a constraint is accepted exactly if it is ASCII, no IP address, and a sequence of labels. -/
theorem C110_exact_partial (pc : Bool) (g : CB.Growth) (d : Bytes) (hl : (uriConstraint d).length < 2 ^ 32) :
    parseNameConstraints (goEnv pc g) (uriConstraint d) = .ok ({ uriDomains := [d] }, {}) ↔ IA5 d ∧ ¬ IsIPText d ∧ ConstraintDomain d := by
  constructor
  · intro h
    exact C110_read_partial pc g _ _ _ h d (by simp)
  · rintro ⟨h1, h2, h3⟩
    have hlen : (subtree (0x86, d) []).length < 2 ^ 32 := by
      refine Nat.lt_of_le_of_lt ?_ hl
      unfold uriConstraint nameConstraints
      rw [CB.length_elem, List.length_append]
      show _ ≤ 1 + _ + ((elem 0xa0 (subtree (0x86, d) [])).length + _)
      rw [CB.length_elem]
      omega
    refine (parseNameConstraints_iff _ _ _ _).2 ⟨some (subtree (0x86, d) []), none, [((0x86, d), [])], [], rfl, hl, ⟨by simp, ?_⟩,
      ⟨rfl, by simp⟩, by simp, ?_, rfl, rfl⟩
    · intro x hx
      rw [List.mem_singleton.1 hx]
      exact ⟨show LowTag (0x86 : Byte) by unfold LowTag; decide, hlen⟩
    · intro x hx
      rw [List.append_nil] at hx
      rw [List.mem_singleton.1 hx]
      refine ⟨fun h => absurd h (show ¬ (0x86 : Byte) = 0x82 by decide), fun h => absurd h (show ¬ (0x86 : Byte) = 0x87 by decide),
        fun h => absurd h (show ¬ (0x86 : Byte) = 0x81 by decide), fun _ => ⟨h1, ?_, h3⟩⟩
      rw [← isIP_iff pc g] at h2
      simpa using h2

theorem nc_growth (pc : Bool) (g g' : CB.Growth) (v : Bytes) (ps xs : Subtrees) :
    parseNameConstraints (goEnv pc g) v = .ok (ps, xs) ↔ parseNameConstraints (goEnv pc g') v = .ok (ps, xs) := by
  rw [parseNameConstraints_iff, parseNameConstraints_iff]
  rfl

/-- **C110** is violated: `.1.2.3.4` is accepted, the domain below an IP address. -/
theorem C110_below_violated (pc : Bool) (g : CB.Growth) :
    parseNameConstraints (goEnv pc g) (uriConstraint (txt ['.', '1', '.', '2', '.', '3', '.', '4'])) =
      .ok ({ uriDomains := [txt ['.', '1', '.', '2', '.', '3', '.', '4']] }, {}) := by
  rw [nc_growth pc g exEnv.growth]
  cases pc <;> decide +kernel

/-- **C110** is violated: `[::1]` is accepted, which is how an IPv6 address stands in a URI. -/
theorem C110_bracket_violated (pc : Bool) (g : CB.Growth) :
    parseNameConstraints (goEnv pc g) (uriConstraint (txt ['[', ':', ':', '1', ']'])) = .ok ({ uriDomains := [txt ['[', ':', ':', '1', ']']] }, {}) := by
  rw [nc_growth pc g exEnv.growth]
  cases pc <;> decide +kernel

/-- **C110** is violated: `z://a` is accepted, a URI in the place of a domain. -/
theorem C110_uri_violated (pc : Bool) (g : CB.Growth) :
    parseNameConstraints (goEnv pc g) (uriConstraint (txt ['z', ':', '/', '/', 'a'])) = .ok ({ uriDomains := [txt ['z', ':', '/', '/', 'a']] }, {}) := by
  rw [nc_growth pc g exEnv.growth]
  cases pc <;> decide +kernel

/-! ## Concrete cases -/

example : parseNameConstraints (goEnv true exEnv.growth) (uriConstraint (txt ['1', '.', '2', '.', '3', '.', '4'])) =
    .err "x509: failed to parse URI constraint: cannot be IP address" := by decide +kernel
example : parseNameConstraints (goEnv true exEnv.growth) (uriConstraint (txt ['.', 'a', '.', 'b'])) = .ok ({ uriDomains := [txt ['.', 'a', '.', 'b']] }, {}) := by
  decide +kernel
/-- Leading zeros: the address is 10.1.1.1. -/
example : IPv4Text (txt ['0', '1', '0', '.', '1', '.', '1', '.', '1']) [10, 1, 1, 1] := (parseIPv4_iff _ _).1 (by decide +kernel)
example : IPv6Text (txt ['1', ':', ':', 'f', 'F', '0', '2', ':', '1', '.', '2', '.', '3', '.', '4']) [0, 1, 0, 0, 0, 0, 0, 0, 0, 0, 0xff, 2, 1, 2, 3, 4] :=
  (parseIPv6_iff _ _).1 (by decide +kernel)
example : ¬ IsIPText (txt ['1', '.', '2', '.', '3']) := by
  rw [← isIP_iff true exEnv.growth]
  decide +kernel
example : ¬ IsIPText (txt ['1', ':', ':', '2', ':', ':', '3']) := by
  rw [← isIP_iff true exEnv.growth]
  decide +kernel

end Verif.Props
