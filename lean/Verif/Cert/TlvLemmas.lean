import Verif.Cert.SanLemmas
import Verif.Cert.ExtLemmas
/-!
# Elements with any tag: decompositions are unique
-/
namespace Verif.Cert
open Verif Verif.Der Verif.Spec.DER Verif.Spec.Cert Verif.CB

theorem ident_append_inj {cls cls' tag tag' : Nat} {cmp cmp' : Bool} {id id' x y : Bytes} (h : IsIdent cls cmp tag id)
    (h' : IsIdent cls' cmp' tag' id') (e : id ++ x = id' ++ y) : cls = cls' ∧ cmp = cmp' ∧ tag = tag' ∧ x = y := by
  obtain ⟨hc, h⟩ := h
  obtain ⟨hc', h'⟩ := h'
  have hb : ∀ (a a' t t' : Nat) (b b' : Bool), a < 4 → a' < 4 → t < 32 → t' < 32 →
      BitVec.ofNat 8 (a * 64 + (if b then 32 else 0) + t) = BitVec.ofNat 8 (a' * 64 + (if b' then 32 else 0) + t') →
      a = a' ∧ b = b' ∧ t = t' := by
    intro a a' t t' b b' ha ha' ht ht' he
    have := congrArg BitVec.toNat he
    rw [BitVec.toNat_ofNat, BitVec.toNat_ofNat] at this
    cases b <;> cases b' <;> simp at this ⊢ <;> omega
  rcases h with ⟨ht, rfl⟩ | ⟨ht, g, rfl, hg, hv⟩ <;> rcases h' with ⟨ht', rfl⟩ | ⟨ht', g', rfl, hg', hv'⟩ <;>
    simp only [List.cons_append, List.cons.injEq, List.nil_append] at e
  · obtain ⟨a, b, c⟩ := hb _ _ _ _ _ _ hc hc' (by omega) (by omega) e.1
    exact ⟨a, b, c, e.2⟩
  · obtain ⟨a, b, c⟩ := hb _ _ _ _ _ _ hc hc' (by omega) (by omega) e.1
    omega
  · obtain ⟨a, b, c⟩ := hb _ _ _ _ _ _ hc hc' (by omega) (by omega) e.1
    omega
  · obtain ⟨a, b, c⟩ := hb _ _ _ _ _ _ hc hc' (by omega) (by omega) e.1
    obtain ⟨rfl, h2⟩ := group_append_inj hg hg' e.2
    exact ⟨a, b, by omega, h2⟩

theorem isTLV_append_inj {cls cls' tag tag' : Nat} {cmp cmp' : Bool} {c c' e e' x y : Bytes} (h : IsTLV cls cmp tag c e)
    (h' : IsTLV cls' cmp' tag' c' e') (hc : c.length < 2 ^ 32) (hc' : c'.length < 2 ^ 32) (he : e ++ x = e' ++ y) :
    cls = cls' ∧ cmp = cmp' ∧ tag = tag' ∧ c = c' ∧ e = e' ∧ x = y := by
  obtain ⟨id, h1, rfl⟩ := h
  obtain ⟨id', h1', rfl⟩ := h'
  have he' := he
  simp only [List.append_assoc] at he
  obtain ⟨a, b, d, h2⟩ := ident_append_inj h1 h1' he
  obtain ⟨h3, h4⟩ := lenOctets_append_inj (byteLen_lt_127 hc) (byteLen_lt_127 hc') h2
  obtain ⟨h5, h6⟩ := List.append_inj h4 h3
  subst h6
  exact ⟨a, b, d, h5, List.append_cancel_right he', rfl⟩

theorem tlv_pos {cls tag : Nat} {cmp : Bool} {c e : Bytes} (h : IsTLV cls cmp tag c e) : c.length < e.length := by
  obtain ⟨id, h1, rfl⟩ := h
  have : 0 < id.length := by
    rcases h1.2 with ⟨_, rfl⟩ | ⟨_, g, rfl, _⟩ <;> simp
  simp only [List.length_append]
  omega

/-- An element with its tag number. -/
def IsTagged (x : Nat × Bytes) : Prop := ∃ cls cmp c, IsTLV cls cmp x.1 c x.2

theorem tagged_unique : ∀ {l m : List (Nat × Bytes)}, (∀ x ∈ l, IsTagged x) → (∀ x ∈ m, IsTagged x) →
    l.flatMap Prod.snd = m.flatMap Prod.snd → (l.flatMap Prod.snd).length < 2 ^ 32 → l = m := by
  intro l
  induction l with
  | nil =>
    intro m _ hm e _
    cases m with
    | nil => rfl
    | cons y m =>
      obtain ⟨_, _, _, h⟩ := hm y (by simp)
      have := tlv_pos h
      have := congrArg List.length e
      simp only [List.flatMap_cons, List.flatMap_nil, List.length_append, List.length_nil] at this
      omega
  | cons x l ih =>
    intro m hl hm e hs
    cases m with
    | nil =>
      obtain ⟨_, _, _, h⟩ := hl x (by simp)
      have := tlv_pos h
      have := congrArg List.length e
      simp only [List.flatMap_cons, List.flatMap_nil, List.length_append, List.length_nil] at this
      omega
    | cons y m =>
      obtain ⟨cls, cmp, c, h⟩ := hl x (by simp)
      obtain ⟨cls', cmp', c', h'⟩ := hm y (by simp)
      have hs' := hs
      rw [e] at hs'
      simp only [List.flatMap_cons, List.length_append] at e hs hs'
      have := tlv_pos h
      have := tlv_pos h'
      obtain ⟨_, _, h1, _, h2, h3⟩ := isTLV_append_inj h h' (by omega) (by omega) e
      rw [ih (fun x hx => hl x (by simp [hx])) (fun x hx => hm x (by simp [hx])) h3 (by omega)]
      congr 1
      exact Prod.ext h1 h2

variable {U : Type}

/-- One name changes whether there are names. -/
theorem sanCallback_has {env : Env U} {s s' : Sans U} {tag : Nat} {data : Bytes} (h : sanCallback env s tag data = .ok s') :
    hasSans s'.dnsNames s'.emailAddresses s'.ipAddresses s'.uris =
      (hasSans s.dnsNames s.emailAddresses s.ipAddresses s.uris || decide (tag ∈ [1, 2, 6, 7])) := by
  unfold sanCallback at h
  rcases ite_ok h with ⟨ht, h⟩ | ⟨_, h⟩
  · simp only [Res.ok.injEq] at h; subst h ht; simp [hasSans]
  rcases ite_ok h with ⟨ht, h⟩ | ⟨_, h⟩
  · simp only [Res.ok.injEq] at h; subst h ht; simp [hasSans]
  rcases ite_ok h with ⟨ht, h⟩ | ⟨_, h⟩
  · cases hp : env.parseURL data with
    | none => rw [hp] at h; simp at h
    | some u =>
      rw [hp] at h
      dsimp only at h
      rcases ite_ok h with ⟨_, h⟩ | ⟨_, h⟩
      · simp at h
      · simp only [Res.ok.injEq] at h; subst h ht; simp [hasSans]
  rcases ite_ok h with ⟨ht, h⟩ | ⟨_, h⟩
  · rcases ite_ok h with ⟨_, h⟩ | ⟨_, h⟩
    · simp only [Res.ok.injEq] at h; subst h ht; simp [hasSans]
    · simp at h
  · simp only [Res.ok.injEq] at h
    subst h
    simp only [List.mem_cons, List.not_mem_nil, or_false]
    simp [*]

theorem runItems_has {env : Env U} : ∀ {items : List (Nat × Bytes)} {s s' : Sans U}, runItems (sanCallback env) items s = .ok s' →
    hasSans s'.dnsNames s'.emailAddresses s'.ipAddresses s'.uris =
      (hasSans s.dnsNames s.emailAddresses s.ipAddresses s.uris || items.any fun x => decide (x.1 ∈ [1, 2, 6, 7])) := by
  intro items
  induction items with
  | nil => intro s s' h; simp only [runItems, Res.ok.injEq] at h; subst h; simp
  | cons x items ih =>
    intro s s' h
    obtain ⟨t, c⟩ := x
    rw [runItems, Res.bind_eq_ok] at h
    obtain ⟨s1, h1, h2⟩ := h
    rw [ih h2, sanCallback_has h1, List.any_cons, Bool.or_assoc]

/-- What an accepted SAN extension is, and whether there are names in it that are understood. -/
theorem parseSAN_has {env : Env U} {value : Bytes} {s : Sans U} (h : parseSANExtension env value = .ok s) :
    ∃ names : List (Nat × Bytes), (∀ x ∈ names, IsTagged x) ∧ value = elem 0x30 (names.flatMap Prod.snd) ∧
      (names.flatMap Prod.snd).length < 2 ^ 31 ∧
      hasSans s.dnsNames s.emailAddresses s.ipAddresses s.uris = names.any fun x => decide (x.1 ∈ [1, 2, 6, 7]) := by
  unfold parseSANExtension forEachSAN at h
  rw [Res.bind_eq_ok] at h
  obtain ⟨⟨v, rest⟩, h1, h⟩ := h
  rcases ite_ok h with ⟨_, h⟩ | ⟨hr, h⟩
  · simp at h
  rcases ite_ok h with ⟨_, h⟩ | ⟨hv, h⟩
  · simp at h
  obtain ⟨k1, k2, k3⟩ := parseField_raw_sound h1
  obtain ⟨items, g1, g2, g3⟩ := sanLoop_sound h
  dsimp only at *
  have hrest : rest = [] := List.eq_nil_of_length_eq_zero (by simpa using hr)
  subst hrest
  simp only [not_or, not_not, Bool.not_eq_false] at hv
  obtain ⟨a, b, c⟩ := hv
  rw [a, b, c] at k1
  have e : (items.map fun x => (x.2.2.1, x.2.2.2.2)).flatMap Prod.snd = v.bytes := by rw [List.flatMap_map, g2]
  refine ⟨items.map fun x => (x.2.2.1, x.2.2.2.2), ?_, ?_, ?_, ?_⟩
  · intro x hx
    rw [List.mem_map] at hx
    obtain ⟨y, hy, rfl⟩ := hx
    exact ⟨_, _, _, g1 y hy⟩
  · rw [k2, e, List.append_nil]
    obtain ⟨id, ⟨_, hid⟩, he⟩ := k1
    rcases hid with ⟨_, rfl⟩ | ⟨hid, _⟩
    · exact he
    · omega
  · rw [e]; exact k3
  · rw [runItems_has g3]
    simp [hasSans, List.any_map, Function.comp_def]

end Verif.Cert
