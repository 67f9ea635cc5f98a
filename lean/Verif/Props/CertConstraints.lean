import Verif.Cert.ConstraintLemmas
import Verif.Props.CertSan
/-!
# Name constraints (C56, C73)
-/
namespace Verif.Props
open Verif Verif.CB Verif.Cert Verif.Spec.DER Verif.Spec.Cert Verif.Spec.Names

variable {U : Type}

/-- `m` is the address range `n` with the host bits cleared, address and mask of the same size. -/
def NetOf (n m : IPNet) : Prop :=
  (n.mask.length = 4 ∨ n.mask.length = 16) ∧
    ∃ a, SameIP n.ip a ∧ a.length = n.mask.length ∧ m = ⟨List.zipWith (· &&& ·) a n.mask, n.mask⟩

/-- Address and mask of the same size, or an IPv4-mapped address with a mask of four octets. -/
def FitNet (n : IPNet) : Prop :=
  n.ip.length = n.mask.length ∨ n.mask.length = 4 ∧ n.ip.length = 16 ∧ n.ip.take 12 = List.replicate 10 0 ++ [0xff, 0xff]

/-- What a mail constraint must be: a mailbox if there is an at sign, else a domain constraint. -/
def ConstraintMail (s : Bytes) : Prop :=
  if 0x40 ∈ s then ∃ src v d, s = src ++ 0x40 :: d ∧ LocalPart src v ∧ AcceptedDomain d else ConstraintDomain s

/-- Constraints that parsing takes. -/
structure ValidConstraints (isIP : Bytes → Bool) (dns : List Bytes) (ips : List IPNet) (emails uris : List Bytes) : Prop where
  ia5 : ∀ s ∈ dns ++ emails ++ uris, IA5 s
  dns : ∀ s ∈ dns, ConstraintDomain s
  ips : ∀ n ∈ ips, FitNet n ∧ Contiguous n.mask
  emails : ∀ s ∈ emails, ConstraintMail s
  uris : ∀ s ∈ uris, isIP s = false ∧ ConstraintDomain s

/-- The subtrees of RFC 5280 for these constraints, without minimum and maximum; absent if there are none. -/
def constraintField (dns : List Bytes) (ips : List IPNet) (emails uris : List Bytes) : Option Bytes :=
  let bases : List Base := dns.map (fun v => (0x82, v)) ++ ips.map (fun n => (0x87, n.ip ++ n.mask)) ++ emails.map (fun v => (0x81, v)) ++
    uris.map (fun v => (0x86, v))
  if bases = [] then none else some (bases.flatMap fun b => subtree b [])

/-! ## Address ranges -/

theorem ipMask_length (ip mask : Bytes) (h : mask.length = 4 ∨ mask.length = 16) :
    (ipMask ip mask).length = mask.length ↔ FitNet ⟨ip, mask⟩ := by
  unfold ipMask FitNet
  dsimp only
  by_cases h1 : mask.length = 16 ∧ ip.length = 4 ∧ mask.take 12 = List.replicate 12 0xff
  · have h16 : ¬ (ip.length = 16) := by omega
    have h17 : ¬ ((mask.drop 12).length = 4 ∧ ip.length = 16 ∧ ip.take 12 = List.replicate 10 0 ++ [0xff, 0xff]) := fun h => h16 h.2.1
    have h18 : ip.length = (mask.drop 12).length := by rw [List.length_drop]; omega
    rw [if_pos h1, if_neg h17, if_neg (not_not.2 h18)]
    simp [h1.1, h1.2.1]
  · rw [if_neg h1]
    by_cases h2 : mask.length = 4 ∧ ip.length = 16 ∧ ip.take 12 = List.replicate 10 0 ++ [0xff, 0xff]
    · rw [if_pos h2]
      simp [h2.1, h2.2.1, h2.2.2]
    · rw [if_neg h2]
      split
      · rename_i h3
        constructor
        · intro h4; simp at h4; omega
        · rintro (h4 | h4)
          · exact absurd h4 h3
          · exact absurd h4 h2
      · rename_i h3
        simp only [ne_eq, not_not] at h3
        simp [h3]

theorem ipMask_fit (n : IPNet) (h : n.mask.length = 4 ∨ n.mask.length = 16) (hf : FitNet n) : NetOf n ⟨ipMask n.ip n.mask, n.mask⟩ := by
  refine ⟨h, ?_⟩
  obtain ⟨ip, mask⟩ := n
  unfold FitNet at hf
  unfold ipMask
  dsimp only at *
  have h1 : ¬ (mask.length = 16 ∧ ip.length = 4 ∧ mask.take 12 = List.replicate 12 0xff) := by omega
  rw [if_neg h1]
  by_cases h2 : mask.length = 4 ∧ ip.length = 16 ∧ ip.take 12 = List.replicate 10 0 ++ [0xff, 0xff]
  · rw [if_pos h2, if_neg (by simp [h2.1, h2.2.1])]
    refine ⟨ip.drop 12, ?_, by simp [h2.1, h2.2.1], rfl⟩
    unfold SameIP ip16
    rw [if_neg (by omega), if_pos (by simp [h2.2.1]), ← h2.2.2, List.take_append_drop]
  · rw [if_neg h2]
    have h3 : ip.length = mask.length := by
      rcases hf with h | h
      · exact h
      · exact absurd h h2
    rw [if_neg (by simpa using h3)]
    exact ⟨ip, rfl, h3, rfl⟩

/-- The range is determined. -/
theorem C56_net_unique {n m m' : IPNet} (h : NetOf n m) (h' : NetOf n m') : m = m' := by
  obtain ⟨h1, a, h2, h3, rfl⟩ := h
  obtain ⟨_, a', h4, h5, rfl⟩ := h'
  suffices a = a' by rw [this]
  have h6 : ip16 a = ip16 a' := h2.symm.trans h4
  unfold ip16 at h6
  by_cases hl : a.length = 4
  · rw [if_pos hl, if_pos (by omega)] at h6
    exact List.append_cancel_left h6
  · rwa [if_neg hl, if_neg (by omega)] at h6

/-- A range that is already in this form is returned as it is. -/
theorem C56_net_same {n m : IPNet} (h : NetOf n m) (hl : n.ip.length = n.mask.length) (hm : List.zipWith (· &&& ·) n.ip n.mask = n.ip) : m = n := by
  refine C56_net_unique h ⟨h.1, n.ip, rfl, hl, ?_⟩
  rw [hm]

theorem validBase_net (n : IPNet) (h : n.mask.length = 4 ∨ n.mask.length = 16) :
    (∃ m, IsWireNet m (ipAndMask n)) ↔ FitNet n ∧ Contiguous n.mask := by
  obtain ⟨ip, mask⟩ := n
  dsimp only at h
  rw [← ipMask_length ip mask h]
  unfold ipAndMask
  dsimp only
  have hlen : (ipMask ip mask).length ≤ 16 := by
    unfold ipMask
    dsimp only
    have : (if mask.length = 16 ∧ ip.length = 4 ∧ mask.take 12 = List.replicate 12 0xff then mask.drop 12 else mask).length ≤ 16 := by
      split
      · simp; omega
      · omega
    generalize (if mask.length = 16 ∧ ip.length = 4 ∧ mask.take 12 = List.replicate 12 0xff then mask.drop 12 else mask) = m at *
    generalize (if m.length = 4 ∧ ip.length = 16 ∧ ip.take 12 = List.replicate 10 0 ++ [0xff, 0xff] then ip.drop 12 else ip) = a
    split
    · simp
    · rw [List.length_zipWith]; omega
  constructor
  · rintro ⟨m, h1, h2, h3⟩
    have hl := congrArg List.length h1
    rw [List.length_append, List.length_append] at hl
    have : (ipMask ip mask).length = mask.length := by
      rcases h with h | h <;> rcases h2 with ⟨h4, h5⟩ | ⟨h4, h5⟩ <;> try omega
      -- sixteen octets of mask, and no address: not eight octets
    refine ⟨this, ?_⟩
    have : mask = m.mask := (List.append_inj' h1 (by omega)).2
    rw [this]; exact h3
  · rintro ⟨h1, h2⟩
    exact ⟨⟨ipMask ip mask, mask⟩, rfl, by dsimp only; omega, h2⟩

theorem validBases_iff (isIP : Bytes → Bool) (dns : List Bytes) (ips : List IPNet) (emails uris : List Bytes)
    (hi : ∀ s ∈ dns ++ emails ++ uris, IA5 s) (hm : ∀ n ∈ ips, n.mask.length = 4 ∨ n.mask.length = 16) :
    (∀ b ∈ basesOf dns (ips.map ipAndMask) emails uris, ValidBase isIP b) ↔ ValidConstraints isIP dns ips emails uris := by
  unfold basesOf
  simp only [List.forall_mem_append, List.forall_mem_map]
  simp only [List.forall_mem_append] at hi
  constructor
  · rintro ⟨⟨⟨h1, h2⟩, h3⟩, h4⟩
    exact ⟨by simpa only [List.forall_mem_append] using hi, fun s hs => ((h1 s hs).1 rfl).2,
      fun n hn => (validBase_net n (hm n hn)).1 ((h2 n hn).2.1 rfl), fun s hs => ((h3 s hs).2.2.1 rfl).2, fun s hs => ((h4 s hs).2.2.2 rfl).2⟩
  · rintro ⟨_, h1, h2, h3, h4⟩
    refine ⟨⟨⟨fun s hs => ⟨fun _ => ⟨hi.1.1 s hs, h1 s hs⟩, by simp, by simp, by simp⟩,
      fun n hn => ⟨by simp, fun _ => (validBase_net n (hm n hn)).2 (h2 n hn), by simp, by simp⟩⟩,
      fun s hs => ⟨by simp, by simp, fun _ => ⟨hi.1.2 s hs, h3 s hs⟩, by simp⟩⟩,
      fun s hs => ⟨by simp, by simp, by simp, fun _ => ⟨hi.2 s hs, h4 s hs⟩⟩⟩

theorem filter_none {l : List Base} {p : Base → Bool} (h : ∀ b ∈ l, p b = false) : l.filter p = [] := by
  rw [List.filter_eq_nil_iff]; intro b hb; simp [h b hb]

theorem valuesOf_bases (dns w emails uris : List Bytes) :
    subtreesOf (basesOf dns w emails uris) = { dnsNames := dns, ips := w.map netOf, emails := emails, uriDomains := uris } := by
  have hu : ((basesOf dns w emails uris).any fun b => b.1 ∉ ([0x82, 0x87, 0x81, 0x86] : List Byte)) = false := by
    rw [List.any_eq_false]
    intro b hb
    have := basesOf_tags hb
    simp only [this, not_true_eq_false, decide_false, Bool.false_eq_true, not_false_eq_true]
  unfold subtreesOf
  rw [hu]
  unfold valuesOf basesOf
  congr 1
  · simp [List.filter_map, Function.comp_def]
  · simp [List.filter_map, Function.comp_def]
  · simp [List.filter_map, Function.comp_def]
  · simp [List.filter_map, Function.comp_def]

theorem flatMap_subtree_nil {l : List Base} : (l.flatMap fun b => subtree b []) = [] ↔ l = [] := by
  cases l with
  | nil => simp
  | cons b l => simp [subtree, elem]

/-- The created value: what `constraintField` says, with the wire form of the ranges. -/
theorem ncValue_iff (env : Env U) (t : X509Cert U) (v : Bytes) :
    nameConstraintsValue env t = .ok v ↔
      (∀ s ∈ t.permittedDNSDomains ++ t.permittedEmailAddresses ++ t.permittedURIDomains, IA5 s) ∧
      (∀ s ∈ t.excludedDNSDomains ++ t.excludedEmailAddresses ++ t.excludedURIDomains, IA5 s) ∧
      ∃ p x,
        p = (basesOf t.permittedDNSDomains (t.permittedIPRanges.map ipAndMask) t.permittedEmailAddresses t.permittedURIDomains).flatMap (fun b => subtree b []) ∧
        x = (basesOf t.excludedDNSDomains (t.excludedIPRanges.map ipAndMask) t.excludedEmailAddresses t.excludedURIDomains).flatMap (fun b => subtree b []) ∧
        v = nameConstraints (ne p) (ne x) ∧ (optField 0xa0 (ne p) ++ optField 0xa1 (ne x)).length ≤ 2 ^ 32 - 2 := by
  have small : ∀ (l : List Base) (t : Byte), (optField t (ne (l.flatMap fun b => subtree b []))).length ≤ 2 ^ 32 - 2 →
      ∀ b ∈ l, (elem b.1 b.2).length ≤ 2 ^ 32 - 2 := by
    intro l t h b hb
    have h1 : l ≠ [] := by rintro rfl; simp at hb
    unfold ne at h
    rw [if_neg (by rw [flatMap_subtree_nil]; exact h1)] at h
    have h2 := length_lt_elem t (l.flatMap fun b => subtree b [])
    have h3 : (subtree b []).length ≤ (l.flatMap fun b => subtree b []).length := flatMap_length_mem (f := fun b => subtree b []) hb
    have h4 : (elem b.1 b.2 ++ []).length < (subtree b []).length := length_lt_elem 0x30 (elem b.1 b.2 ++ [])
    rw [List.append_nil] at h4
    simp only [optField] at h
    omega
  unfold nameConstraintsValue
  simp only [Res.bind_eq_ok, serialise_iff, runBuilder_iff env _ (plain_ncProg _ _), encodes_ncProg]
  constructor
  · rintro ⟨p, ⟨h1, h2, _⟩, x, ⟨h3, h4, _⟩, h5, h6⟩
    exact ⟨h1, h3, p, x, h2, h4, h5, h6⟩
  · rintro ⟨h1, h3, p, x, rfl, rfl, h5, h6⟩
    have h7 := h6
    rw [List.length_append] at h7
    exact ⟨_, ⟨h1, rfl, small _ 0xa0 (by omega)⟩, _, ⟨h3, rfl, small _ 0xa1 (by omega)⟩, h5, h6⟩

/-- C56: the extension is created or an error is returned; nothing else. -/
theorem C56_create_returns (env : Env U) (t : X509Cert U) :
    (∃ v, nameConstraintsValue env t = .ok v) ∨ ∃ m, nameConstraintsValue env t = .err m := by
  unfold nameConstraintsValue
  rcases serialise_returned env t.permittedDNSDomains t.permittedIPRanges t.permittedEmailAddresses t.permittedURIDomains with ⟨p, h⟩ | ⟨m, h⟩
  · rw [h, Res.ok_bind]
    rcases serialise_returned env t.excludedDNSDomains t.excludedIPRanges t.excludedEmailAddresses t.excludedURIDomains with ⟨x, h⟩ | ⟨m, h⟩
    · rw [h, Res.ok_bind]
      rcases runBuilder_plain env _ (plain_ncProg p x) with ⟨y, _, h⟩ | ⟨_, m, h⟩
      · exact .inl ⟨y, h⟩
      · exact .inr ⟨m, h⟩
    · rw [h]; exact .inr ⟨m, rfl⟩
  · rw [h]; exact .inr ⟨m, rfl⟩

theorem bases_wire (dns : List Bytes) (ips nets : List IPNet) (emails uris : List Bytes)
    (hfit : ∀ n ∈ ips, (n.mask.length = 4 ∨ n.mask.length = 16) ∧ FitNet n) (hn : List.Forall₂ NetOf ips nets) :
    ne ((basesOf dns (ips.map ipAndMask) emails uris).flatMap (fun b => subtree b [])) = constraintField dns nets emails uris := by
  have h : ips.map ipAndMask = nets.map fun n => n.ip ++ n.mask := by
    induction hn with
    | nil => rfl
    | @cons n m l l' h1 _ ih =>
      rw [List.forall_mem_cons] at hfit
      rw [List.map_cons, List.map_cons, ih hfit.2]
      have := C56_net_unique h1 (ipMask_fit n hfit.1.1 hfit.1.2)
      subst this
      rfl
  unfold ne constraintField
  rw [h]
  unfold basesOf
  simp only [List.map_map, Function.comp_def, flatMap_subtree_nil]

/-- C56: the created bytes. For ranges whose address fits the mask, the value is the NameConstraints of RFC 5280 with exactly these
names, in this order; creation succeeds iff all strings are ASCII and the lengths fit 32 bits. -/
theorem C56_encoding (env : Env U) (t : X509Cert U) (pn xn : List IPNet)
    (hp : ∀ n ∈ t.permittedIPRanges, (n.mask.length = 4 ∨ n.mask.length = 16) ∧ FitNet n)
    (hx : ∀ n ∈ t.excludedIPRanges, (n.mask.length = 4 ∨ n.mask.length = 16) ∧ FitNet n)
    (hpn : List.Forall₂ NetOf t.permittedIPRanges pn) (hxn : List.Forall₂ NetOf t.excludedIPRanges xn) (v : Bytes) :
    nameConstraintsValue env t = .ok v ↔
      (∀ s ∈ t.permittedDNSDomains ++ t.permittedEmailAddresses ++ t.permittedURIDomains, IA5 s) ∧
      (∀ s ∈ t.excludedDNSDomains ++ t.excludedEmailAddresses ++ t.excludedURIDomains, IA5 s) ∧
      ∃ p x, p = constraintField t.permittedDNSDomains pn t.permittedEmailAddresses t.permittedURIDomains ∧
        x = constraintField t.excludedDNSDomains xn t.excludedEmailAddresses t.excludedURIDomains ∧
        v = nameConstraints p x ∧ (optField 0xa0 p ++ optField 0xa1 x).length ≤ 2 ^ 32 - 2 := by
  rw [ncValue_iff, ← bases_wire _ _ pn _ _ hp hpn, ← bases_wire _ _ xn _ _ hx hxn]
  constructor
  · rintro ⟨h1, h2, _, _, rfl, rfl, h3, h4⟩; exact ⟨h1, h2, _, _, rfl, rfl, h3, h4⟩
  · rintro ⟨h1, h2, _, _, rfl, rfl, h3, h4⟩; exact ⟨h1, h2, _, _, rfl, rfl, h3, h4⟩

theorem nameConstraints_inj {p x p' x' : Option Bytes} (h : nameConstraints p x = nameConstraints p' x')
    (hl : (nameConstraints p x).length < 2 ^ 32) : p = p' ∧ x = x' := by
  have h1 := readNameConstraints_iff.2 ⟨p, x, rfl, hl, rfl, rfl⟩
  have h2 := readNameConstraints_iff.2 ⟨p', x', rfl, h ▸ hl, rfl, rfl⟩
  rw [h, h2] at h1
  simp only [Res.ok.injEq, Option.some.injEq, Prod.mk.injEq] at h1
  exact ⟨(Option.map_injective (Option.some_injective _) h1.1).symm, (Option.map_injective (Option.some_injective _) h1.2).symm⟩

theorem areSubtrees_unique {l l' : List (Base × Bytes)} {b : Bytes} (h : AreSubtrees l b) (h' : AreSubtrees l' b) :
    l = l' := by
  induction l generalizing l' b with
  | nil =>
    cases l' with
    | nil => rfl
    | cons y l' => have := h.1.symm.trans h'.1; simp [subtree, elem] at this
  | cons y l ih =>
    cases l' with
    | nil => have := h.1.symm.trans h'.1; simp [subtree, elem] at this
    | cons y' l' =>
      obtain ⟨h1, h2⟩ := h
      obtain ⟨h1', h2'⟩ := h'
      rw [List.forall_mem_cons] at h2 h2'
      rw [h1, List.flatMap_cons, List.flatMap_cons] at h1'
      have small : ∀ (y : Base × Bytes), (subtree y.1 y.2).length < 2 ^ 32 → (elem y.1.1 y.1.2 ++ y.2).length < 2 ^ 32 ∧ y.1.2.length < 2 ^ 32 := by
        intro y hy
        unfold subtree at hy
        have := length_lt_elem 0x30 (elem y.1.1 y.1.2 ++ y.2)
        have := length_lt_elem y.1.1 y.1.2
        rw [List.length_append] at *
        omega
      have s1 := small y h2.1.2
      have s2 := small y' h2'.1.2
      have key := elem_append_inj (byteLen_lt_127 s1.1) (byteLen_lt_127 s2.1) h1'
      have key2 := elem_append_inj (byteLen_lt_127 s1.2) (byteLen_lt_127 s2.2) key.2.1
      obtain ⟨⟨t, v⟩, m⟩ := y
      obtain ⟨⟨t', v'⟩, m'⟩ := y'
      simp only at key2
      obtain ⟨rfl, rfl, rfl⟩ := key2
      rw [ih ⟨rfl, h2.2⟩ ⟨key.2.2, h2'.2⟩]

/-- C56: what parsing returns, for every byte string. It is accepted iff it is a NameConstraints with the two optional fields of
subtrees, at least one subtree in all, each an element of a low tag number possibly followed by anything, and every name of the
four kinds is valid. The result lists the values of each kind in order and says whether there is a name of another kind. -/
theorem C56_parse (env : Env U) (value : Bytes) (ps xs : Subtrees) :
    parseNameConstraints env value = .ok (ps, xs) ↔
      ∃ (perm excl : Option Bytes) (lp lx : List (Base × Bytes)), value = nameConstraints perm excl ∧ value.length < 2 ^ 32 ∧
        AreSubtrees lp (perm.getD []) ∧ AreSubtrees lx (excl.getD []) ∧ ¬ (lp = [] ∧ lx = []) ∧
        (∀ x ∈ lp ++ lx, ValidBase env.isIP x.1) ∧ ps = subtreesOf (lp.map Prod.fst) ∧ xs = subtreesOf (lx.map Prod.fst) :=
  parseNameConstraints_iff env value ps xs

theorem getD_ne (b : Bytes) : (ne b).getD [] = b := by
  unfold ne; split <;> simp_all

/-- A template with at least one name constraint. -/
def SomeConstraint (t : X509Cert U) : Prop :=
  ¬ (t.permittedDNSDomains = [] ∧ t.permittedIPRanges = [] ∧ t.permittedEmailAddresses = [] ∧ t.permittedURIDomains = [] ∧
     t.excludedDNSDomains = [] ∧ t.excludedIPRanges = [] ∧ t.excludedEmailAddresses = [] ∧ t.excludedURIDomains = [])

theorem parse_created (env : Env U) (t : X509Cert U) (hs : SomeConstraint t) (v : Bytes)
    (hv : nameConstraintsValue env t = .ok v) (hl : v.length < 2 ^ 32) (ps xs : Subtrees) :
    parseNameConstraints env v = .ok (ps, xs) ↔
      (∀ b ∈ basesOf t.permittedDNSDomains (t.permittedIPRanges.map ipAndMask) t.permittedEmailAddresses t.permittedURIDomains, ValidBase env.isIP b) ∧
      (∀ b ∈ basesOf t.excludedDNSDomains (t.excludedIPRanges.map ipAndMask) t.excludedEmailAddresses t.excludedURIDomains, ValidBase env.isIP b) ∧
      ps = subtreesOf (basesOf t.permittedDNSDomains (t.permittedIPRanges.map ipAndMask) t.permittedEmailAddresses t.permittedURIDomains) ∧
      xs = subtreesOf (basesOf t.excludedDNSDomains (t.excludedIPRanges.map ipAndMask) t.excludedEmailAddresses t.excludedURIDomains) := by
  obtain ⟨_, _, p, x, hp, hx, rfl, hsz⟩ := (ncValue_iff env t v).1 hv
  have hne : ¬ (basesOf t.permittedDNSDomains (t.permittedIPRanges.map ipAndMask) t.permittedEmailAddresses t.permittedURIDomains = [] ∧
      basesOf t.excludedDNSDomains (t.excludedIPRanges.map ipAndMask) t.excludedEmailAddresses t.excludedURIDomains = []) := by
    intro h
    apply hs
    unfold basesOf at h
    simp only [List.append_eq_nil_iff, List.map_eq_nil_iff] at h
    obtain ⟨⟨⟨⟨a, b⟩, c⟩, d⟩, ⟨⟨a', b'⟩, c'⟩, d'⟩ := h
    exact ⟨a, b, c, d, a', b', c', d'⟩
  generalize hbp : basesOf t.permittedDNSDomains (t.permittedIPRanges.map ipAndMask) t.permittedEmailAddresses t.permittedURIDomains = bp at *
  generalize hbx : basesOf t.excludedDNSDomains (t.excludedIPRanges.map ipAndMask) t.excludedEmailAddresses t.excludedURIDomains = bx at *
  have hlow : ∀ b ∈ bp ++ bx, LowTag b.1 := by
    intro b hb
    rcases List.mem_append.1 hb with hb | hb
    · rw [← hbp] at hb; exact basesOf_lowTag hb
    · rw [← hbx] at hb; exact basesOf_lowTag hb
  have hopt : ∀ (t : Byte) (b : Bytes), b.length ≤ (optField t (ne b)).length := by
    intro t b
    unfold ne
    split
    · rename_i h; rw [h]; simp
    · exact (length_lt_elem t b).le
  have hpl : p.length < 2 ^ 32 ∧ x.length < 2 ^ 32 := by
    have h1 := hopt 0xa0 p
    have h2 := hopt 0xa1 x
    rw [List.length_append] at hsz
    omega
  have hsub : ∀ (l : List Base) (y : Bytes), y = l.flatMap (fun b => subtree b []) → y.length < 2 ^ 32 → (∀ b ∈ l, LowTag b.1) →
      AreSubtrees (l.map fun b => (b, [])) y := by
    intro l y hy hyl hlow
    refine ⟨by rw [hy, List.flatMap_map], ?_⟩
    rw [List.forall_mem_map]
    intro b hb
    refine ⟨hlow b hb, ?_⟩
    have : (subtree b []).length ≤ (l.flatMap fun b => subtree b []).length := flatMap_length_mem (f := fun b => subtree b []) hb
    rw [← hy] at this
    dsimp only; omega
  have hP := hsub bp p hp hpl.1 fun b hb => hlow b (by simp [hb])
  have hX := hsub bx x hx hpl.2 fun b hb => hlow b (by simp [hb])
  have hfst : ∀ l : List Base, (l.map fun b => ((b, []) : Base × Bytes)).map Prod.fst = l := by
    intro l; rw [List.map_map]; exact List.map_id l
  rw [C56_parse]
  constructor
  · rintro ⟨perm, excl, lp, lx, h1, h2, h3, h4, h5, h6, rfl, rfl⟩
    obtain ⟨rfl, rfl⟩ := nameConstraints_inj h1 hl
    rw [getD_ne] at h3 h4
    have e1 := areSubtrees_unique h3 hP
    have e2 := areSubtrees_unique h4 hX
    subst e1 e2
    rw [hfst, hfst]
    refine ⟨?_, ?_, rfl, rfl⟩
    · intro b hb; exact h6 (b, []) (by simp [hb])
    · intro b hb; exact h6 (b, []) (by simp [hb])
  · rintro ⟨h1, h2, rfl, rfl⟩
    refine ⟨_, _, _, _, rfl, hl, by rw [getD_ne]; exact hP, by rw [getD_ne]; exact hX, ?_, ?_, by rw [hfst], by rw [hfst]⟩
    · simpa only [List.map_eq_nil_iff] using hne
    · intro y hy
      rw [← List.map_append, List.mem_map] at hy
      obtain ⟨b, hb, rfl⟩ := hy
      rcases List.mem_append.1 hb with hb | hb
      · exact h1 b hb
      · exact h2 b hb

theorem ips_netOf (ips : List IPNet) (hm : ∀ n ∈ ips, n.mask.length = 4 ∨ n.mask.length = 16) (hf : ∀ n ∈ ips, FitNet n) :
    List.Forall₂ NetOf ips ((ips.map ipAndMask).map netOf) := by
  rw [List.map_map, List.forall₂_map_right_iff]
  refine forall₂_self fun n hn => ?_
  have h1 := hm n hn
  have h2 := hf n hn
  have h3 := (ipMask_length n.ip n.mask h1).2 h2
  have : (netOf ∘ ipAndMask) n = ⟨ipMask n.ip n.mask, n.mask⟩ := by
    unfold netOf ipAndMask
    dsimp only [Function.comp]
    have : (ipMask n.ip n.mask ++ n.mask).length / 2 = (ipMask n.ip n.mask).length := by rw [List.length_append]; omega
    rw [this, List.take_left' rfl, List.drop_left' rfl]
  rw [this]
  exact ipMask_fit n h1 h2

/-- C56: the round trip. Valid constraints (with at least one) in an extension of less than 4 GiB come back as they were, address
ranges with the host bits cleared. -/
theorem C56_roundtrip (env : Env U) (t : X509Cert U) (hs : SomeConstraint t) (v : Bytes)
    (hv : nameConstraintsValue env t = .ok v) (hl : v.length < 2 ^ 32)
    (hmp : ∀ n ∈ t.permittedIPRanges, n.mask.length = 4 ∨ n.mask.length = 16)
    (hmx : ∀ n ∈ t.excludedIPRanges, n.mask.length = 4 ∨ n.mask.length = 16)
    (hp : ValidConstraints env.isIP t.permittedDNSDomains t.permittedIPRanges t.permittedEmailAddresses t.permittedURIDomains)
    (hx : ValidConstraints env.isIP t.excludedDNSDomains t.excludedIPRanges t.excludedEmailAddresses t.excludedURIDomains) :
    ∃ pn xn, List.Forall₂ NetOf t.permittedIPRanges pn ∧ List.Forall₂ NetOf t.excludedIPRanges xn ∧
      parseNameConstraints env v = .ok
        ({ dnsNames := t.permittedDNSDomains, ips := pn, emails := t.permittedEmailAddresses, uriDomains := t.permittedURIDomains },
         { dnsNames := t.excludedDNSDomains, ips := xn, emails := t.excludedEmailAddresses, uriDomains := t.excludedURIDomains }) := by
  refine ⟨_, _, ips_netOf _ hmp (fun n hn => (hp.ips n hn).1), ips_netOf _ hmx (fun n hn => (hx.ips n hn).1), ?_⟩
  rw [parse_created env t hs v hv hl, validBases_iff _ _ _ _ _ hp.ia5 hmp, validBases_iff _ _ _ _ _ hx.ia5 hmx, valuesOf_bases, valuesOf_bases]
  exact ⟨hp, hx, rfl, rfl⟩

/-- C56: of the created extensions, parsing accepts exactly those of valid constraints, given masks of 4 or 16 octets. -/
theorem C56_exact (env : Env U) (t : X509Cert U) (hs : SomeConstraint t) (v : Bytes)
    (hv : nameConstraintsValue env t = .ok v) (hl : v.length < 2 ^ 32)
    (hmp : ∀ n ∈ t.permittedIPRanges, n.mask.length = 4 ∨ n.mask.length = 16)
    (hmx : ∀ n ∈ t.excludedIPRanges, n.mask.length = 4 ∨ n.mask.length = 16) :
    (∃ r, parseNameConstraints env v = .ok r) ↔
      ValidConstraints env.isIP t.permittedDNSDomains t.permittedIPRanges t.permittedEmailAddresses t.permittedURIDomains ∧
      ValidConstraints env.isIP t.excludedDNSDomains t.excludedIPRanges t.excludedEmailAddresses t.excludedURIDomains := by
  have hi := (ncValue_iff env t v).1 hv
  rw [← validBases_iff _ _ _ _ _ hi.1 hmp, ← validBases_iff _ _ _ _ _ hi.2.1 hmx]
  constructor
  · rintro ⟨⟨ps, xs⟩, h⟩
    obtain ⟨h1, h2, _⟩ := (parse_created env t hs v hv hl ps xs).1 h
    exact ⟨h1, h2⟩
  · rintro ⟨h1, h2⟩
    exact ⟨_, (parse_created env t hs v hv hl _ _).2 ⟨h1, h2, rfl, rfl⟩⟩

theorem isDomain_head {s : Bytes} {ls : List Bytes} (h : IsDomain s ls) : s.head? ≠ some dot := by
  obtain ⟨h1, h2, rfl⟩ := h
  cases ls with
  | nil => exact absurd rfl h1
  | cons a l =>
    have ha := h2 a (by simp)
    obtain ⟨c, cs, rfl⟩ := List.exists_cons_of_ne_nil ha.1
    have hc := (ha.2 c (by simp)).2.2
    intro hd
    cases l <;> simp [dotJoin] at hd <;> exact hc hd

/-- C56: "..a" is not a domain constraint (after the one optional period there is an empty label), yet it is accepted. -/
theorem C56_invalid_accepted_violated (env : Env U) :
    parseNameConstraints env [0x30, 9, 0xa0, 7, 0x30, 5, 0x82, 3, 0x2e, 0x2e, 0x61] = .ok ({ dnsNames := [[0x2e, 0x2e, 0x61]] }, {}) ∧
    (¬ ∃ ls, IsDomain [0x2e, 0x2e, 0x61] ls) ∧ ¬ ∃ ls, IsDomain [0x2e, 0x61] ls :=
  ⟨rfl, fun ⟨_, h⟩ => isDomain_head h rfl, fun ⟨_, h⟩ => isDomain_head h rfl⟩

/-- C56: the range 10.0.0.0/8 given as a 4-byte address and a 16-byte mask (for the package net the same range as with a mask of
four bytes) becomes an extension that parsing rejects. -/
theorem C56_mixed_range_violated (env : Env U) :
    nameConstraintsValue env ({ permittedIPRanges := [⟨[10, 0, 0, 0], [0xff, 0xff, 0xff, 0xff, 0xff, 0xff, 0xff, 0xff, 0xff, 0xff, 0xff, 0xff, 0xff, 0, 0, 0]⟩] } : X509Cert U) =
      .ok [0x30, 26, 0xa0, 24, 0x30, 22, 0x87, 20, 10, 0, 0, 0, 0xff, 0xff, 0xff, 0xff, 0xff, 0xff, 0xff, 0xff, 0xff, 0xff, 0xff, 0xff, 0xff, 0, 0, 0] ∧
      parseNameConstraints env [0x30, 26, 0xa0, 24, 0x30, 22, 0x87, 20, 10, 0, 0, 0, 0xff, 0xff, 0xff, 0xff, 0xff, 0xff, 0xff, 0xff, 0xff, 0xff, 0xff, 0xff, 0xff, 0, 0, 0] = .err "x509: IP constraint contained value of wrong length" := by
  refine ⟨(ncValue_iff env _ _).2 ⟨by simp, by simp, _, _, rfl, rfl, by dsimp only; decide +kernel, by dsimp only; decide +kernel⟩, rfl⟩

/-- C56: an address that does not fit its mask is dropped, and a mask of eight bytes then is taken for address and mask. -/
theorem C56_mask_as_range_violated (env : Env U) :
    nameConstraintsValue env ({ permittedIPRanges := [⟨[10, 0, 0, 0], [1, 2, 3, 4, 0xff, 0, 0, 0]⟩] } : X509Cert U) =
      .ok [0x30, 14, 0xa0, 12, 0x30, 10, 0x87, 8, 1, 2, 3, 4, 0xff, 0, 0, 0] ∧
      parseNameConstraints env [0x30, 14, 0xa0, 12, 0x30, 10, 0x87, 8, 1, 2, 3, 4, 0xff, 0, 0, 0] = .ok ({ ips := [⟨[1, 2, 3, 4], [0xff, 0, 0, 0]⟩] }, {}) := by
  refine ⟨(ncValue_iff env _ _).2 ⟨by simp, by simp, _, _, rfl, rfl, by dsimp only; decide +kernel, by dsimp only; decide +kernel⟩, rfl⟩

/-- C73: a subtree with minimum 5 and maximum 6 is taken as if they were not there (as is any garbage in their place). -/
theorem C73_minimum_violated (env : Env U) :
    parseNameConstraints env [0x30, 0xd, 0xa0, 0xb, 0x30, 9, 0x82, 1, 0x61, 0x80, 1, 5, 0x81, 1, 6] = .ok ({ dnsNames := [[0x61]] }, {}) ∧
    parseNameConstraints env [0x30, 9, 0xa0, 7, 0x30, 5, 0x82, 1, 0x61, 0xff, 0xff] = .ok ({ dnsNames := [[0x61]] }, {}) :=
  ⟨rfl, rfl⟩

/-- C73: what follows the base of a subtree never matters: replacing it (within the size limit) leaves the result as it is. -/
theorem C73_ignored (env : Env U) (lp lx lp' lx' : List (Base × Bytes)) (hp : lp.map Prod.fst = lp'.map Prod.fst)
    (hx : lx.map Prod.fst = lx'.map Prod.fst) (ps xs : Subtrees)
    (hl : (nameConstraints (some (lp'.flatMap fun x => subtree x.1 x.2)) (some (lx'.flatMap fun x => subtree x.1 x.2))).length < 2 ^ 32)
    (h : parseNameConstraints env (nameConstraints (some (lp.flatMap fun x => subtree x.1 x.2)) (some (lx.flatMap fun x => subtree x.1 x.2))) = .ok (ps, xs))
    (hlow : ∀ x ∈ lp ++ lx, LowTag x.1.1 ∧ (subtree x.1 x.2).length < 2 ^ 32) :
    parseNameConstraints env (nameConstraints (some (lp'.flatMap fun x => subtree x.1 x.2)) (some (lx'.flatMap fun x => subtree x.1 x.2))) = .ok (ps, xs) := by
  rw [C56_parse] at h ⊢
  obtain ⟨perm, excl, kp, kx, h1, h2, h3, h4, h5, h6, rfl, rfl⟩ := h
  obtain ⟨rfl, rfl⟩ := nameConstraints_inj h1 h2
  have e1 := areSubtrees_unique h3 ⟨rfl, fun x hx => hlow x (by simp [hx])⟩
  have e2 := areSubtrees_unique h4 ⟨rfl, fun x hx => hlow x (by simp [hx])⟩
  subst e1 e2
  have sizes : (lp'.flatMap fun x => subtree x.1 x.2).length < 2 ^ 32 ∧ (lx'.flatMap fun x => subtree x.1 x.2).length < 2 ^ 32 := by
    unfold nameConstraints at hl
    have a1 := length_lt_elem 0x30 (optField 0xa0 (some (lp'.flatMap fun x => subtree x.1 x.2)) ++ optField 0xa1 (some (lx'.flatMap fun x => subtree x.1 x.2)))
    have a2 := length_lt_elem 0xa0 (lp'.flatMap fun x => subtree x.1 x.2)
    have a3 := length_lt_elem 0xa1 (lx'.flatMap fun x => subtree x.1 x.2)
    rw [List.length_append] at a1
    simp only [optField] at a1 hl
    omega
  have mem_fst : ∀ {l l' : List (Base × Bytes)}, l.map Prod.fst = l'.map Prod.fst → ∀ x ∈ l', ∃ y ∈ l, y.1 = x.1 := by
    intro l l' h x hx
    have : x.1 ∈ l.map Prod.fst := by rw [h]; exact List.mem_map_of_mem hx
    obtain ⟨y, hy, e⟩ := List.mem_map.1 this
    exact ⟨y, hy, e⟩
  have sub : ∀ {l l' : List (Base × Bytes)}, l.map Prod.fst = l'.map Prod.fst → (∀ x ∈ l, LowTag x.1.1) →
      (l'.flatMap fun x => subtree x.1 x.2).length < 2 ^ 32 → AreSubtrees l' (l'.flatMap fun x => subtree x.1 x.2) := by
    intro l l' h hlow hl
    refine ⟨rfl, fun x hx => ⟨?_, ?_⟩⟩
    · obtain ⟨y, hy, e⟩ := mem_fst h x hx
      rw [← e]; exact hlow y hy
    · have := flatMap_length_mem (f := fun x : Base × Bytes => subtree x.1 x.2) hx
      omega
  refine ⟨_, _, lp', lx', rfl, hl, sub hp (fun x hx => (hlow x (by simp [hx])).1) sizes.1, sub hx (fun x hx => (hlow x (by simp [hx])).1) sizes.2,
    ?_, ?_, by rw [hp], by rw [hx]⟩
  · rintro ⟨rfl, rfl⟩
    simp only [List.map_nil, List.map_eq_nil_iff] at hp hx
    exact h5 ⟨hp, hx⟩
  · intro x hx'
    rcases List.mem_append.1 hx' with hm | hm
    · obtain ⟨y, hy, e⟩ := mem_fst hp x hm
      rw [← e]; exact h6 y (by simp [hy])
    · obtain ⟨y, hy, e⟩ := mem_fst hx x hm
      rw [← e]; exact h6 y (by simp [hy])

/-! ## A case -/

/-- Permitted: ".a.b", 10.1.2.3/8 with a mapped address, "x@y"; excluded: the URI domain "c". -/
def ncTemplate : X509Cert Bytes :=
  { permittedDNSDomains := [[0x2e, 0x61, 0x2e, 0x62]]
    permittedIPRanges := [⟨[0, 0, 0, 0, 0, 0, 0, 0, 0, 0, 0xff, 0xff, 10, 1, 2, 3], [0xff, 0, 0, 0]⟩]
    permittedEmailAddresses := [[0x78, 0x40, 0x79]]
    excludedURIDomains := [[0x63]] }

/-- Its extension. -/
def ncExample : Bytes :=
  [0x30, 36, 0xa0, 27, 0x30, 6, 0x82, 4, 0x2e, 0x61, 0x2e, 0x62, 0x30, 10, 0x87, 8, 10, 0, 0, 0, 0xff, 0, 0, 0, 0x30, 5, 0x81, 3, 0x78, 0x40, 0x79,
    0xa1, 5, 0x30, 3, 0x86, 1, 0x63]

theorem nc_some : SomeConstraint ncTemplate := fun h => absurd h.1 (by decide)
theorem nc_created : nameConstraintsValue sanEnv ncTemplate = .ok ncExample := by
  refine (ncValue_iff sanEnv _ _).2 ⟨?_, ?_, _, _, rfl, rfl, by decide +kernel, by decide +kernel⟩ <;> unfold IA5 <;> decide +kernel
theorem nc_parsed : parseNameConstraints sanEnv ncExample = .ok
      ({ dnsNames := [[0x2e, 0x61, 0x2e, 0x62]], ips := [⟨[10, 0, 0, 0], [0xff, 0, 0, 0]⟩], emails := [[0x78, 0x40, 0x79]] }, { uriDomains := [[0x63]] }) := rfl

example : ValidConstraints sanEnv.isIP ncTemplate.permittedDNSDomains ncTemplate.permittedIPRanges ncTemplate.permittedEmailAddresses
    ncTemplate.permittedURIDomains := by
  refine ((C56_exact sanEnv ncTemplate nc_some _ nc_created (by decide +kernel) ?_ ?_).1 ⟨_, nc_parsed⟩).1
  · simp [ncTemplate]
  · simp [ncTemplate]
/-- A non-contiguous mask is made but not parsed, "é" is not made. -/
example (env : Env U) : nameConstraintsValue env ({ permittedIPRanges := [⟨[10, 0, 0, 0], [0xff, 0, 0xff, 0]⟩] } : X509Cert U) =
      .ok [0x30, 14, 0xa0, 12, 0x30, 10, 0x87, 8, 10, 0, 0, 0, 0xff, 0, 0xff, 0] ∧
    parseNameConstraints env [0x30, 14, 0xa0, 12, 0x30, 10, 0x87, 8, 10, 0, 0, 0, 0xff, 0, 0xff, 0] = .err "x509: IP constraint contained invalid mask" := by
  refine ⟨(ncValue_iff env _ _).2 ⟨by simp, by simp, _, _, rfl, rfl, by dsimp only; decide +kernel, by dsimp only; decide +kernel⟩, rfl⟩
example (env : Env U) : nameConstraintsValue env ({ permittedDNSDomains := [[0xe9]] } : X509Cert U) = .err "x509: cannot be encoded as an IA5String" := rfl
example : NetOf ⟨[0, 0, 0, 0, 0, 0, 0, 0, 0, 0, 0xff, 0xff, 10, 1, 2, 3], [0xff, 0, 0, 0]⟩ ⟨[10, 0, 0, 0], [0xff, 0, 0, 0]⟩ :=
  ⟨.inl rfl, [10, 1, 2, 3], rfl, rfl, rfl⟩

end Verif.Props
