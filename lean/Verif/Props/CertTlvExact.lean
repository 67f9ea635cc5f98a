import Verif.Props.CertSubject
import Verif.Props.CertSan
import Verif.Props.CertUnhandled
/-!
# C72, C83: exactly which names are read

The elements that encoding/asn1 reads whatever their tag are described by `ReadTLV`: identifier octets with a tag number
below 2^31 in at most five further octets (not necessarily the fewest), the fewest length octets, at most 2^31 - 1
contents octets. With it the two readers that take elements of any tag, of names and of subject alternative names, are
characterised for every byte string: no input is left out.
-/
namespace Verif.Props
open Verif Verif.Der Verif.Cert Verif.Spec.DER Verif.Spec.Cert

variable {U : Type}

/-- `e` is one element with contents `c` that encoding/asn1 can read. -/
def ReadTLV (cls : ℕ) (constructed : Bool) (tag : ℕ) (c e : Bytes) : Prop :=
  ∃ id, IsIdent cls constructed tag id ∧ id.length ≤ 6 ∧ tag < 2 ^ 31 ∧ c.length < 2 ^ 31 ∧ e = id ++ lenOctets c.length ++ c

theorem ReadTLV.tlv {cls tag : ℕ} {cmp : Bool} {c e : Bytes} (h : ReadTLV cls cmp tag c e) : IsTLV cls cmp tag c e := by
  obtain ⟨id, h1, -, -, -, rfl⟩ := h
  exact ⟨id, h1, rfl⟩

/-- Every element with a low tag number is read. -/
theorem readTLV_low {cls tag : ℕ} {cmp : Bool} {c e : Bytes} (ht : tag < 31) (hc : c.length < 2 ^ 31) (h : IsTLV cls cmp tag c e) :
    ReadTLV cls cmp tag c e := by
  obtain ⟨id, h1, rfl⟩ := h
  refine ⟨id, h1, ?_, by omega, hc, rfl⟩
  rcases h1.2 with ⟨_, rfl⟩ | ⟨h, _⟩
  · simp
  · omega

theorem toNat_low5 (b : Byte) : (b &&& 0x1f).toNat = b.toNat % 32 := by revert b; decide +kernel

theorem highBits (b : Byte) : b &&& 0xe0 = idOctet (b >>> 6).toNat 0 (decide (b &&& 0x20 = 0x20)) := by revert b; decide +kernel

theorem parseTag_exact (b : Byte) (bs r : Bytes) (tag : ℕ) : parseTag b bs = .ok (tag, r) ↔
    ∃ g, bs = g ++ r ∧ g.length ≤ 5 ∧ tag < 2 ^ 31 ∧ IsIdent (b >>> 6).toNat (b &&& 0x20 = 0x20) tag (b :: g) := by
  constructor
  · intro h
    obtain ⟨g, e, hid⟩ := parseTag_sound h
    refine ⟨g, e, ?_, ?_, hid⟩
    · unfold parseTag at h
      split at h
      · rw [Res.bind_eq_ok] at h
        obtain ⟨⟨v, r'⟩, h1, h2⟩ := h
        rcases ite_ok h2 with ⟨_, h⟩ | ⟨_, h⟩
        · simp at h
        · simp only [Res.ok.injEq, Prod.mk.injEq] at h
          obtain ⟨rfl, rfl⟩ := h
          obtain ⟨g', _, hl, e', _⟩ := (parseBase128Int_iff _ _ _ _ _).1 h1
          have := List.append_cancel_right (e.symm.trans e')
          subst this
          omega
      · simp only [Res.ok.injEq, Prod.mk.injEq] at h
        obtain ⟨-, rfl⟩ := h
        have := congrArg List.length e
        simp only [List.length_append] at this
        omega
    · unfold parseTag at h
      split at h
      · rw [Res.bind_eq_ok] at h
        obtain ⟨⟨v, r'⟩, h1, h2⟩ := h
        rcases ite_ok h2 with ⟨_, h⟩ | ⟨_, h⟩
        · simp at h
        · simp only [Res.ok.injEq, Prod.mk.injEq] at h
          obtain ⟨rfl, rfl⟩ := h
          obtain ⟨g', _, _, _, _, hv⟩ := (parseBase128Int_iff _ _ _ _ _).1 h1
          exact hv
      · simp only [Res.ok.injEq, Prod.mk.injEq] at h
        have := (b &&& 0x1f).isLt
        omega
  · rintro ⟨g, rfl, hl, ht, hc, h⟩
    unfold parseTag
    rcases h with ⟨ht', e⟩ | ⟨ht', g', e, hg, hv⟩
    · rw [List.cons.injEq] at e
      obtain ⟨e, rfl⟩ := e
      have key : (b &&& 0x1f).toNat = tag := by
        have h1 := congrArg BitVec.toNat e
        rw [BitVec.toNat_ofNat] at h1
        have h2 : (b &&& 0x1f).toNat = b.toNat % 32 := toNat_low5 b
        rw [h2, h1]
        have : ∀ x : ℕ, x % 2 ^ 8 % 32 = x % 32 := by omega
        rw [this]
        split <;> omega
      rw [if_neg (by omega), key]
      rfl
    · rw [List.cons.injEq] at e
      obtain ⟨e, rfl⟩ := e
      have key : (b &&& 0x1f).toNat = 31 := by
        have h1 := congrArg BitVec.toNat e
        rw [BitVec.toNat_ofNat] at h1
        have h2 : (b &&& 0x1f).toNat = b.toNat % 32 := toNat_low5 b
        rw [h2, h1]
        have : ∀ x : ℕ, x % 2 ^ 8 % 32 = x % 32 := by omega
        rw [this]
        split <;> omega
      rw [if_pos key, (parseBase128Int_iff (g ++ r) 0 0 tag r).2 ⟨g, hg, .inl (by omega), rfl, by omega, ht⟩, Res.ok_bind]
      dsimp only
      rw [if_neg (by omega)]

/-- The length octets do not depend on the tag. -/
theorem parseTagAndLength_retag {b : Byte} {bs r : Bytes} {tag : ℕ} (h : parseTag b bs = .ok (tag, r)) (t : TagAndLength) (rest : Bytes) :
    parseTagAndLength (b :: bs) = .ok (t, rest) ↔
      parseTagAndLength ((b &&& 0xe0) :: r) = .ok ({ t with tag := 0 }, rest) ∧ t.tag = tag := by
  have e1 : ((b &&& 0xe0) >>> 6) = b >>> 6 := by clear h; revert b; decide +kernel
  have e2 : ((b &&& 0xe0) &&& 0x20) = b &&& 0x20 := by clear h; revert b; decide +kernel
  have e3 : parseTag (b &&& 0xe0) r = .ok (0, r) := by
    have : ((b &&& 0xe0) &&& 0x1f).toNat = 0 := by clear h; revert b; decide +kernel
    unfold parseTag
    rw [this, if_neg (by decide)]
  obtain ⟨cls, cmp, tg, len⟩ := t
  unfold parseTagAndLength
  dsimp only
  rw [h, e3, Res.ok_bind, Res.ok_bind, e1, e2]
  dsimp only
  cases r with
  | nil => simp
  | cons l r =>
    dsimp only
    by_cases hs : l &&& 0x80 = 0
    · rw [if_pos hs, if_pos hs]
      simp only [Res.ok.injEq, Prod.mk.injEq, TagAndLength.mk.injEq]
      constructor
      · rintro ⟨⟨rfl, rfl, rfl, rfl⟩, rfl⟩; exact ⟨⟨⟨rfl, rfl, by trivial, rfl⟩, rfl⟩, rfl⟩
      · rintro ⟨⟨⟨rfl, rfl, -, rfl⟩, rfl⟩, rfl⟩; exact ⟨⟨rfl, rfl, rfl, rfl⟩, rfl⟩
    · rw [if_neg hs, if_neg hs]
      by_cases hn : (l &&& 0x7f).toNat = 0
      · rw [if_pos hn, if_pos hn]; simp
      · rw [if_neg hn, if_neg hn]
        cases parseLength (l &&& 0x7f).toNat 0 r with
        | ok s =>
          rw [Res.ok_bind, Res.ok_bind]
          by_cases hv : s.1 < 0x80
          · rw [if_pos hv, if_pos hv]; simp
          · rw [if_neg hv, if_neg hv]
            simp only [Res.ok.injEq, Prod.mk.injEq, TagAndLength.mk.injEq]
            constructor
            · rintro ⟨⟨rfl, rfl, rfl, rfl⟩, rfl⟩; exact ⟨⟨⟨rfl, rfl, by trivial, rfl⟩, rfl⟩, rfl⟩
            · rintro ⟨⟨⟨rfl, rfl, -, rfl⟩, rfl⟩, rfl⟩; exact ⟨⟨rfl, rfl, rfl, rfl⟩, rfl⟩
        | err _ => simp [bind, Res.bind]
        | panic => simp [bind, Res.bind]
        | loop => simp [bind, Res.bind]

/-- What `parseTagAndLength` accepts: exactly this. -/
theorem parseTagAndLength_exact (bs rest : Bytes) (t : TagAndLength) : parseTagAndLength bs = .ok (t, rest) ↔
    ∃ id, IsIdent t.cls t.isCompound t.tag id ∧ id.length ≤ 6 ∧ t.tag < 2 ^ 31 ∧ t.length < 2 ^ 31 ∧ bs = id ++ lenOctets t.length ++ rest := by
  constructor
  · intro h
    cases bs with
    | nil => simp [parseTagAndLength] at h
    | cons b bs =>
      obtain ⟨hlen, id0, hid0, e0⟩ := parseTagAndLength_sound h
      have h' := h
      unfold parseTagAndLength at h'
      rw [Res.bind_eq_ok] at h'
      obtain ⟨⟨tag, r⟩, h1, -⟩ := h'
      obtain ⟨g1, g2⟩ := (parseTagAndLength_retag h1 t rest).1 h
      obtain ⟨g, rfl, k1, k2, k3⟩ := (parseTag_exact _ _ _ _).1 h1
      obtain ⟨m1, m2, m3⟩ := (parseTagAndLength_iff (show ({ t with tag := 0 } : TagAndLength).tag < 31 from Nat.zero_lt_succ _)).1 g1
      rw [List.cons.injEq] at m3
      have e : (b :: g) ++ (lenOctets t.length ++ rest) = id0 ++ (lenOctets t.length ++ rest) := by
        rw [← List.append_assoc id0, ← e0, m3.2]; rfl
      have := List.append_cancel_right e
      subst this
      exact ⟨b :: g, hid0, by simp only [List.length_cons]; omega, by omega, hlen, e0⟩
  · rintro ⟨id, hid, hl, ht, hlen, rfl⟩
    obtain ⟨b, g, rfl⟩ : ∃ b g, id = b :: g := by
      rcases hid.2 with ⟨_, rfl⟩ | ⟨_, g, rfl, _⟩ <;> exact ⟨_, _, rfl⟩
    have hb : (b >>> 6).toNat = t.cls ∧ decide (b &&& 0x20 = 0x20) = t.isCompound := by
      have hx : ∃ x < 32, b = BitVec.ofNat 8 (t.cls * 64 + (if t.isCompound then 32 else 0) + x) := by
        rcases hid.2 with ⟨h, e⟩ | ⟨_, g', e, _⟩
        · exact ⟨t.tag, by omega, (List.cons.inj e).1⟩
        · exact ⟨31, by omega, (List.cons.inj e).1⟩
      obtain ⟨x, hx, rfl⟩ := hx
      have hc := hid.1
      have : ∀ (c : Fin 4) (m : Bool) (x : Fin 32), ((BitVec.ofNat 8 (c.val * 64 + (if m then 32 else 0) + x.val) : Byte) >>> 6).toNat = c.val ∧
          decide ((BitVec.ofNat 8 (c.val * 64 + (if m then 32 else 0) + x.val) : Byte) &&& 0x20 = 0x20) = m := by decide +kernel
      exact this ⟨t.cls, hc⟩ t.isCompound ⟨x, hx⟩
    have hid' := hid
    rw [← hb.1, ← hb.2] at hid
    have h1 : parseTag b (g ++ (lenOctets t.length ++ rest)) = .ok (t.tag, lenOctets t.length ++ rest) :=
      (parseTag_exact _ _ _ _).2 ⟨g, rfl, by simp only [List.length_cons] at hl; omega, ht, hid⟩
    rw [List.append_assoc, List.cons_append, parseTagAndLength_retag h1]
    refine ⟨(parseTagAndLength_iff (show ({ t with tag := 0 } : TagAndLength).tag < 31 from Nat.zero_lt_succ _)).2 ⟨hlen, hid'.1, ?_⟩, rfl⟩
    rw [List.cons.injEq]
    refine ⟨?_, rfl⟩
    rw [← hb.1, ← hb.2]
    exact highBits b

/-- A `RawValue` is read from exactly these byte strings. -/
theorem parseField_raw_exact (bs rest : Bytes) (v : RawValue) : parseField tyRaw {} bs = .ok (v, rest) ↔
    ReadTLV v.cls v.isCompound v.tag v.bytes v.fullBytes ∧ bs = v.fullBytes ++ rest := by
  constructor
  · intro h
    obtain ⟨⟨id0, k1, k1'⟩, k2, k3⟩ := parseField_raw_sound h
    refine ⟨?_, k2⟩
    have hne : bs ≠ [] := by rintro rfl; simp [parseField] at h
    unfold parseField at h
    rw [if_neg hne, Res.bind_eq_ok] at h
    obtain ⟨⟨t, r⟩, h1, h2⟩ := h
    obtain ⟨id, g1, g2, g3, g4, g5⟩ := (parseTagAndLength_exact _ _ _).1 h1
    simp only [Bool.false_eq_true, if_false] at h2
    unfold parseInner tyRaw at h2
    simp only [Bool.false_eq_true, if_false, Bool.true_eq_false, false_and, or_self] at h2
    split at h2
    · simp at h2
    · rename_i hl
      rw [Res.ok_bind] at h2
      simp only [Res.ok.injEq, Prod.mk.injEq] at h2
      obtain ⟨rfl, rfl⟩ := h2
      dsimp only at k1 k1' k3 ⊢
      have e : (r.take t.length).length = t.length := by simp; omega
      have hid : id = id0 := by
        rw [k1', e] at k2
        rw [g5] at k2
        rw [List.append_assoc _ (r.take _), List.take_append_drop] at k2
        exact List.append_cancel_right (List.append_cancel_right k2)
      subst hid
      exact ⟨id, k1, g2, g3, k3, k1'⟩
  · rintro ⟨⟨id, h1, h2, h3, h4, h5⟩, rfl⟩
    obtain ⟨cls, tag, cmp, c, full⟩ := v
    dsimp only at *
    subst h5
    have h6 := (parseTagAndLength_exact (id ++ lenOctets c.length ++ (c ++ rest)) (c ++ rest) ⟨cls, cmp, tag, c.length⟩).2 ⟨id, h1, h2, h3, h4, rfl⟩
    rw [← List.append_assoc] at h6
    have hne : id ++ lenOctets c.length ++ c ++ rest ≠ [] := by
      rcases h1.2 with ⟨_, rfl⟩ | ⟨_, g, rfl, _⟩ <;> simp
    unfold parseField
    rw [if_neg hne, h6, Res.ok_bind]
    simp only [Bool.false_eq_true, if_false]
    unfold parseInner tyRaw
    simp only [Bool.false_eq_true, if_false, Bool.true_eq_false, false_and, or_self, List.length_append, List.take_left', List.drop_left']
    rw [if_neg (by omega), Res.ok_bind]
    congr 3
    rw [show id.length + (lenOctets c.length).length + c.length + rest.length - (c.length + rest.length - c.length) =
      (id ++ lenOctets c.length ++ c).length by simp only [List.length_append]; omega]
    exact List.take_left' rfl

/-! ## Subject alternative names -/

/-- The loop reads exactly the concatenations of readable elements. -/
theorem sanLoop_exact {σ : Type} (cb : σ → ℕ → Bytes → Res σ) (s' : σ) : ∀ (fuel : ℕ) (bs : Bytes) (s : σ), bs.length ≤ fuel →
    (sanLoop cb fuel bs s = .ok s' ↔
      ∃ items : List (ℕ × Bool × ℕ × Bytes × Bytes), (∀ x ∈ items, ReadTLV x.1 x.2.1 x.2.2.1 x.2.2.2.1 x.2.2.2.2) ∧
        bs = items.flatMap (fun x => x.2.2.2.2) ∧ runItems cb (items.map fun x => (x.2.2.1, x.2.2.2.1)) s = .ok s') := by
  intro fuel
  induction fuel with
  | zero =>
    intro bs s hb
    have : bs = [] := List.eq_nil_of_length_eq_zero (by omega)
    subst this
    constructor
    · intro h; exact ⟨[], by simp, rfl, h⟩
    · rintro ⟨items, h1, h2, h3⟩
      cases items with
      | nil => exact h3
      | cons x items =>
        have := tlv_pos (h1 x (by simp)).tlv
        have := congrArg List.length h2
        simp only [List.flatMap_cons, List.length_append, List.length_nil] at this
        omega
  | succ fuel ih =>
    intro bs s hb
    cases bs with
    | nil =>
      constructor
      · intro h; exact ⟨[], by simp, rfl, h⟩
      · rintro ⟨items, h1, h2, h3⟩
        cases items with
        | nil => exact h3
        | cons x items =>
          have := tlv_pos (h1 x (by simp)).tlv
          have := congrArg List.length h2
          simp only [List.flatMap_cons, List.length_append, List.length_nil] at this
          omega
    | cons b bs =>
      rw [sanLoop_cons]
      constructor
      · intro h
        rw [Res.bind_eq_ok] at h
        obtain ⟨⟨v, rest⟩, h1, h⟩ := h
        rw [Res.bind_eq_ok] at h
        obtain ⟨s1, h2, h3⟩ := h
        obtain ⟨k1, k2⟩ := (parseField_raw_exact _ _ _).1 h1
        have hp := tlv_pos k1.tlv
        have hlen := congrArg List.length k2
        rw [List.length_append] at hlen
        obtain ⟨items, g1, rfl, g3⟩ := (ih rest s1 (by omega)).1 h3
        refine ⟨(v.cls, v.isCompound, v.tag, v.bytes, v.fullBytes) :: items, ?_, ?_, ?_⟩
        · rw [List.forall_mem_cons]; exact ⟨k1, g1⟩
        · rw [List.flatMap_cons]; exact k2
        · rw [List.map_cons, runItems, h2, Res.ok_bind]; exact g3
      · rintro ⟨items, h1, h2, h3⟩
        cases items with
        | nil => simp at h2
        | cons x items =>
          obtain ⟨cls, cmp, tag, c, e⟩ := x
          rw [List.forall_mem_cons] at h1
          obtain ⟨k1, k2⟩ := h1
          dsimp only at k1
          rw [List.flatMap_cons] at h2
          dsimp only at h2
          have hu : unmarshal tyRaw (b :: bs) = .ok (⟨cls, tag, cmp, c, e⟩, items.flatMap fun x => x.2.2.2.2) := by
            rw [h2]
            exact (parseField_raw_exact _ _ _).2 ⟨k1, rfl⟩
          have hp := tlv_pos k1.tlv
          have hlen := congrArg List.length h2
          rw [List.length_append] at hlen
          rw [hu, Res.ok_bind]
          dsimp only
          rw [List.map_cons, runItems, Res.bind_eq_ok] at h3
          obtain ⟨s1, h3, h4⟩ := h3
          rw [h3, Res.ok_bind]
          exact (ih _ s1 (by omega)).2 ⟨items, k2, rfl, h4⟩

/-- The contents of the elements with this tag number. -/
def withTag (n : ℕ) (items : List (ℕ × Bool × ℕ × Bytes × Bytes)) : List Bytes :=
  (items.filter fun x => x.2.2.1 = n).map fun x => x.2.2.2.1

theorem withTag_cons (n : ℕ) (x : ℕ × Bool × ℕ × Bytes × Bytes) (l : List (ℕ × Bool × ℕ × Bytes × Bytes)) :
    withTag n (x :: l) = if x.2.2.1 = n then x.2.2.2.1 :: withTag n l else withTag n l := by
  unfold withTag
  rw [List.filter_cons]
  by_cases h : x.2.2.1 = n
  · simp [h]
  · simp [h]

theorem runItems_names (env : Env U) (s' : Sans U) : ∀ (items : List (ℕ × Bool × ℕ × Bytes × Bytes)) (s : Sans U),
    runItems (sanCallback env) (items.map fun x => (x.2.2.1, x.2.2.2.1)) s = .ok s' ↔
      (∀ ip ∈ withTag 7 items, ip.length = 4 ∨ ip.length = 16) ∧
      ∃ us, List.Forall₂ (fun v u => acceptURI env v = some u) (withTag 6 items) us ∧
        s' = ⟨s.dnsNames ++ withTag 2 items, s.emailAddresses ++ withTag 1 items, s.ipAddresses ++ withTag 7 items, s.uris ++ us⟩ := by
  intro items
  induction items with
  | nil =>
    intro s
    obtain ⟨a, b, c, d⟩ := s
    constructor
    · intro h
      rw [List.map_nil, runItems, Res.ok.injEq] at h
      subst h
      exact ⟨by simp [withTag], [], .nil, by simp [withTag]⟩
    · rintro ⟨-, us, h, rfl⟩
      have : us = [] := List.forall₂_nil_left_iff.1 h
      subst this
      simp [withTag, runItems]
  | cons x items ih =>
    intro s
    obtain ⟨cls, cmp, tag, c, e⟩ := x
    rw [List.map_cons, runItems]
    simp only [withTag_cons]
    by_cases h1 : tag = 1
    · subst h1
      rw [show sanCallback env s 1 c = .ok { s with emailAddresses := s.emailAddresses ++ [c] } from rfl, Res.ok_bind, ih]
      simp
    by_cases h2 : tag = 2
    · subst h2
      rw [show sanCallback env s 2 c = .ok { s with dnsNames := s.dnsNames ++ [c] } from rfl, Res.ok_bind, ih]
      simp
    by_cases h6 : tag = 6
    · subst h6
      rw [Res.bind_eq_ok]
      simp only [if_true, show ¬ (6 : ℕ) = 7 by decide, show ¬ (6 : ℕ) = 2 by decide, show ¬ (6 : ℕ) = 1 by decide, if_false]
      constructor
      · rintro ⟨s1, g1, g2⟩
        obtain ⟨u, g3, rfl⟩ := (sanCallback_uri env s c s1).1 g1
        obtain ⟨g4, us, g5, rfl⟩ := (ih _).1 g2
        exact ⟨g4, u :: us, .cons g3 g5, by simp⟩
      · rintro ⟨g1, us, g2, rfl⟩
        cases g2 with
        | cons g3 g4 => exact ⟨_, (sanCallback_uri env s c _).2 ⟨_, g3, rfl⟩, (ih _).2 ⟨g1, _, g4, by simp⟩⟩
    by_cases h7 : tag = 7
    · subst h7
      simp only [if_true, show ¬ (7 : ℕ) = 6 by decide, show ¬ (7 : ℕ) = 2 by decide, show ¬ (7 : ℕ) = 1 by decide, if_false,
        List.forall_mem_cons]
      by_cases hc : c.length = 4 ∨ c.length = 16
      · rw [show sanCallback env s 7 c = .ok { s with ipAddresses := s.ipAddresses ++ [c] } by
          show (if c.length = 4 ∨ c.length = 16 then _ else _) = _
          rw [if_pos hc], Res.ok_bind, ih]
        simp [hc]
      · rw [show sanCallback env s 7 c = .err "x509: cannot parse IP address" by
          show (if c.length = 4 ∨ c.length = 16 then _ else _) = _
          rw [if_neg hc]]
        simp [bind, Res.bind, hc]
    · rw [show sanCallback env s tag c = .ok s by unfold sanCallback; rw [if_neg h1, if_neg h2, if_neg h6, if_neg h7], Res.ok_bind, ih]
      simp [h1, h2, h6, h7]

/-- C72, what is enforced, for every byte string: the value is a SEQUENCE in DER of readable elements, all IP addresses have
4 or 16 bytes, all URIs are parsed and have no host or a good one; and then the names are the contents of the elements
with these tag numbers in their order, whatever their class, form and alphabet. -/
theorem C72_exact (env : Env U) (value : Bytes) (s : Sans U) : parseSANExtension env value = .ok s ↔
    ∃ items : List (ℕ × Bool × ℕ × Bytes × Bytes), (∀ x ∈ items, ReadTLV x.1 x.2.1 x.2.2.1 x.2.2.2.1 x.2.2.2.2) ∧
      value = elem 0x30 (items.flatMap fun x => x.2.2.2.2) ∧ (items.flatMap fun x => x.2.2.2.2).length < 2 ^ 31 ∧
      s.emailAddresses = withTag 1 items ∧ s.dnsNames = withTag 2 items ∧ s.ipAddresses = withTag 7 items ∧
      (∀ ip ∈ withTag 7 items, ip.length = 4 ∨ ip.length = 16) ∧
      List.Forall₂ (fun v u => env.parseURL v = some u ∧ (env.urlHost u = [] ∨ AcceptedDomain (env.urlHost u))) (withTag 6 items) s.uris := by
  simp only [← acceptURI_iff]
  unfold parseSANExtension forEachSAN
  constructor
  · intro h
    rw [Res.bind_eq_ok] at h
    obtain ⟨⟨v, rest⟩, h1, h⟩ := h
    rcases ite_ok h with ⟨_, h⟩ | ⟨hr, h⟩
    · simp at h
    rcases ite_ok h with ⟨_, h⟩ | ⟨hv, hloop⟩
    · simp at h
    dsimp only at hr hv hloop
    have hrest : rest = [] := List.eq_nil_of_length_eq_zero (by simpa using hr)
    subst hrest
    simp only [not_or, not_not, Bool.not_eq_false] at hv
    obtain ⟨⟨id, k1, -, -, k2, k3⟩, k4⟩ := (parseField_raw_exact _ _ _).1 h1
    obtain ⟨items, g1, g2, g3⟩ := (sanLoop_exact _ _ _ _ _ le_rfl).1 hloop
    obtain ⟨m1, us, m2, rfl⟩ := (runItems_names _ _ _ _).1 g3
    refine ⟨items, g1, ?_, g2 ▸ k2, by simp, by simp, by simp, m1, by simpa using m2⟩
    rw [hv.1, hv.2.1, hv.2.2] at k1
    rcases k1.2 with ⟨_, rfl⟩ | ⟨h, _⟩
    · rw [k4, k3, ← g2]
      simp only [elem, List.append_nil]
      rfl
    · omega
  · rintro ⟨items, h1, rfl, h2, h3, h4, h5, h6, h7⟩
    have hu : unmarshal tyRaw (elem 0x30 (items.flatMap fun x => x.2.2.2.2)) =
        .ok (⟨0, 16, true, items.flatMap (fun x => x.2.2.2.2), elem 0x30 (items.flatMap fun x => x.2.2.2.2)⟩, []) := by
      refine (parseField_raw_exact _ _ _).2 ⟨readTLV_low (show 16 < 31 by decide) h2 ⟨[0x30], ⟨show 0 < 4 by decide, .inl ⟨show 16 < 31 by decide, rfl⟩⟩, rfl⟩, by simp⟩
    rw [hu, Res.ok_bind]
    dsimp only
    rw [if_neg (by simp), if_neg (by simp), sanLoop_exact _ _ _ _ _ le_rfl]
    refine ⟨items, h1, rfl, (runItems_names _ _ _ _).2 ⟨h6, s.uris, h7, ?_⟩⟩
    obtain ⟨a, b, c, d⟩ := s
    simp_all

/-- A name with a high tag number whose octets are not the fewest is passed over, an INTEGER is a DNS name. -/
example (env : Env U) : parseSANExtension env (elem 0x30 ([0x9f, 0x80, 0x80, 0x21, 1, 0x61] ++ [0x02, 1, 0x62])) = .ok { dnsNames := [[0x62]] } := rfl

/-! ## Names -/

/-- Any value of an attribute. -/
theorem parseAny_exact (bs rest : Bytes) (v : AnyVal) : parseAny bs = .ok (v, rest) ↔
    ∃ e cls cmp tag c, bs = e ++ rest ∧ ReadTLV cls cmp tag c e ∧ ValueOf v cls cmp tag c := by
  have hif : ∀ (t : TagAndLength) (c : Bytes), ((if t.isCompound = false ∧ t.cls = 0 then parseAnyBody t.tag c else .ok .nil) = .ok v ↔
      ValueOf v t.cls t.isCompound t.tag c) := by
    intro t c
    unfold ValueOf
    by_cases hc : t.cls = 0 ∧ t.isCompound = false
    · rw [if_pos hc, if_pos ⟨hc.2, hc.1⟩, parseAnyBody_iff]
    · rw [if_neg hc, if_neg fun h => hc ⟨h.2, h.1⟩, Res.ok.injEq, eq_comm]
  have hbind : ∀ (t : TagAndLength) (c r : Bytes),
      (if t.isCompound = false ∧ t.cls = 0 then do let w ← parseAnyBody t.tag c; Res.ok (w, r)
        else do let w ← Res.ok AnyVal.nil; Res.ok (w, r)) = .ok (v, rest) ↔
        ValueOf v t.cls t.isCompound t.tag c ∧ r = rest := by
    intro t c r
    rw [← hif]
    have e : (if t.isCompound = false ∧ t.cls = 0 then (do let w ← parseAnyBody t.tag c; Res.ok (w, r))
        else (do let w ← Res.ok AnyVal.nil; Res.ok (w, r))) =
        (if t.isCompound = false ∧ t.cls = 0 then parseAnyBody t.tag c else .ok .nil) >>= (fun w => Res.ok (w, r)) := by
      split <;> rfl
    rw [e, Res.bind_eq_ok]
    constructor
    · rintro ⟨w, h1, h2⟩
      simp only [Res.ok.injEq, Prod.mk.injEq] at h2
      obtain ⟨rfl, rfl⟩ := h2
      exact ⟨h1, rfl⟩
    · rintro ⟨h1, rfl⟩; exact ⟨v, h1, rfl⟩
  unfold parseAny
  constructor
  · intro h
    rcases ite_ok h with ⟨_, h⟩ | ⟨_, h⟩
    · simp at h
    rw [Res.bind_eq_ok] at h
    obtain ⟨⟨t, r⟩, h1, h2⟩ := h
    dsimp only at h2
    rcases ite_ok h2 with ⟨_, h⟩ | ⟨hlen, h⟩
    · simp at h
    obtain ⟨h3, rfl⟩ := (hbind _ _ _).1 h
    obtain ⟨id, k1, k2, k3, k4, rfl⟩ := (parseTagAndLength_exact _ _ _).1 h1
    have e : (r.take t.length).length = t.length := by simp; omega
    exact ⟨id ++ lenOctets t.length ++ r.take t.length, t.cls, t.isCompound, t.tag, r.take t.length, by simp,
      ⟨id, k1, k2, k3, by omega, by rw [e]⟩, h3⟩
  · rintro ⟨_, cls, cmp, tag, c, rfl, ⟨id, h1, h2, h3, h4, rfl⟩, h5⟩
    have h6 := (parseTagAndLength_exact (id ++ lenOctets c.length ++ (c ++ rest)) (c ++ rest) ⟨cls, cmp, tag, c.length⟩).2 ⟨id, h1, h2, h3, h4, rfl⟩
    rw [← List.append_assoc] at h6
    have hne : id ++ lenOctets c.length ++ c ++ rest ≠ [] := by
      rcases h1.2 with ⟨_, rfl⟩ | ⟨_, g, rfl, _⟩ <;> simp
    rw [if_neg hne, h6, Res.ok_bind]
    dsimp only
    rw [if_neg (by simp), List.take_left' rfl, List.drop_left' rfl]
    exact (hbind ⟨cls, cmp, tag, c.length⟩ c rest).2 ⟨h5, rfl⟩

/-- `e` is an attribute that can be read. -/
def ReadAttribute (a : ATV) (e : Bytes) : Prop :=
  ∃ oid v cls cmp tag c extra, OIDContent a.type oid ∧ ReadTLV cls cmp tag c v ∧ ValueOf a.value cls cmp tag c ∧
    e = elem 0x30 (elem 0x06 oid ++ v ++ extra)

/-- `e` is a sequence of sets of attributes that can be read. -/
def ReadName (rdns : RDNSequence) (e : Bytes) : Prop :=
  ∃ sets : List (List Bytes), e = elem 0x30 (sets.flatMap fun s => elem 0x31 s.flatten) ∧
    (sets.flatMap fun s => elem 0x31 s.flatten).length < 2 ^ 31 ∧ List.Forall₂ (List.Forall₂ ReadAttribute) rdns sets

/-- C83 without restrictions: every byte string is read as a name exactly if it is one. -/
theorem C83_exact (b : Bytes) (rdns : RDNSequence) : parseName b = .ok rdns ↔ ReadName rdns b := by
  constructor
  · intro h
    unfold parseName unmarshal at h
    rw [Res.bind_eq_ok] at h
    obtain ⟨⟨r, rest⟩, h1, h2⟩ := h
    dsimp only at h2
    rcases ite_ok h2 with ⟨_, h⟩ | ⟨he, h⟩
    · simp at h
    simp only [Res.ok.injEq] at h
    subst h
    have he : rest = [] := List.length_eq_zero_iff.1 (by omega)
    subst he
    obtain ⟨c, hc, e, h3⟩ := parseField_slice h1
    rw [List.append_nil] at e
    subst e
    obtain ⟨ws, rfl, h4⟩ := parseSequenceOf_sound rfl rfl (by decide) h3
    obtain ⟨sets, rfl, h5⟩ := forall₂_choose (f := fun s : List Bytes => elem 0x31 s.flatten) (S := List.Forall₂ ReadAttribute)
      (by
        rintro l w ⟨c, rfl, hb⟩
        obtain ⟨es, rfl, h6⟩ := parseSequenceOf_sound rfl rfl (by decide) (show parseSequenceOf tyATV c = .ok l from hb)
        refine ⟨es, rfl, h6.imp ?_⟩
        rintro a w ⟨c, rfl, hb⟩
        have hb : (do let x ← parseField tyOID {} c; let y ← parseAny x.2; Res.ok (⟨x.1, y.1⟩ : ATV)) = .ok a := hb
        simp only [Res.bind_eq_ok, Res.ok.injEq] at hb
        obtain ⟨⟨o, c1⟩, g1, ⟨v, c2⟩, g2, rfl⟩ := hb
        obtain ⟨oid, -, rfl, g3⟩ := parseField_oid g1
        dsimp only at g2
        obtain ⟨e, cls, cmp, tag, cc, rfl, g4, g5⟩ := (parseAny_exact _ _ _).1 g2
        exact ⟨oid, e, cls, cmp, tag, cc, c2, g3, g4, g5, by rw [List.append_assoc]; rfl⟩) h4
    refine ⟨sets, ?_, ?_, h5⟩
    · rw [List.flatMap_def]; rfl
    · rw [List.flatMap_def]; exact hc
  · rintro ⟨sets, rfl, hl, h⟩
    have hattr : ∀ (a : ATV) (e : Bytes), ReadAttribute a e → e.length < 2 ^ 31 → ElemOk tyATV e a := by
      rintro ⟨ty, v⟩ e ⟨oid, w, cls, cmp, tag, c, extra, h1, h3, h4, rfl⟩ hl
      have k1 := length_le_elem 0x30 (elem 0x06 oid ++ w ++ extra)
      have k2 := length_le_elem 0x06 oid
      simp only [List.length_append] at k1
      have hc : (elem 0x06 oid ++ w ++ extra).length < 2 ^ 31 := by simp only [List.length_append]; omega
      refine ⟨⟨0, 16, true, ⟨_, hc, rfl⟩, by decide, by decide, .inr ⟨rfl, rfl, rfl⟩⟩, fun rest => ?_⟩
      refine parseField_elem (ty := tyATV) (p := {}) rest rfl rfl rfl (by decide) hc ?_
      show (do let x ← parseField tyOID {} _; let y ← parseAny x.2; Res.ok (⟨x.1, y.1⟩ : ATV)) = _
      have : parseField tyOID {} (elem 0x06 oid ++ w ++ extra) = .ok (ty, w ++ extra) := by
        rw [List.append_assoc]
        exact parseField_elem (ty := tyOID) (p := {}) _ rfl rfl rfl (by decide) (by omega) ((parseObjectIdentifier_iff _ _).2 h1)
      rw [this, Res.ok_bind]
      dsimp only
      rw [(parseAny_exact _ extra v).2 ⟨w, cls, cmp, tag, c, rfl, h3, h4⟩, Res.ok_bind]
    have hset : ∀ (r : List ATV) (s : List Bytes), List.Forall₂ ReadAttribute r s → s.flatten.length < 2 ^ 31 →
        ElemOk (tySlice true tyATV) (elem 0x31 s.flatten) r := by
      intro r s h hl
      have h' : List.Forall₂ (ElemOk tyATV) s r := by
        induction h with
        | nil => exact .nil
        | cons h1 _ ih =>
          rw [List.flatten_cons, List.length_append] at hl
          exact .cons (hattr _ _ h1 (by omega)) (ih (by omega))
      refine ⟨⟨0, 17, true, ⟨_, hl, rfl⟩, by decide, by decide, .inr ⟨rfl, rfl, rfl⟩⟩, fun rest => ?_⟩
      exact parseField_elem (ty := tySlice true tyATV) (p := {}) rest rfl rfl rfl (by decide) hl (parseSequenceOf_ok h')
    have hall : List.Forall₂ (ElemOk (tySlice true tyATV)) (sets.map fun s => elem 0x31 s.flatten) rdns := by
      have hl' := hl
      clear hl
      induction h with
      | nil => exact .nil
      | cons h1 _ ih =>
        rename_i r s _ _ _
        rw [List.flatMap_cons, List.length_append] at hl'
        have := length_le_elem 0x31 s.flatten
        exact .cons (hset _ _ h1 (by omega)) (ih (by omega))
    have hp : parseField tyRDNSequence {} (elem 0x30 (sets.flatMap fun s => elem 0x31 s.flatten) ++ []) = .ok (rdns, []) := by
      refine parseField_elem (ty := tyRDNSequence) (p := {}) [] rfl rfl rfl (by decide) hl ?_
      rw [List.flatMap_def]
      exact parseSequenceOf_ok hall
    unfold parseName unmarshal
    rw [List.append_nil] at hp
    rw [hp, Res.ok_bind]
    rfl

/-- A value with tag number 33 in too many octets is read (as no value); with tag number 2^31 it is not. -/
example : parseName (elem 0x30 (elem 0x31 (elem 0x30 (elem 0x06 [0x55, 4, 3] ++ [0x9f, 0x80, 0x21, 0])))) = .ok [[⟨[2, 5, 4, 3], .nil⟩]] ∧
    parseName (elem 0x30 (elem 0x31 (elem 0x30 (elem 0x06 [0x55, 4, 3] ++ [0x9f, 0x88, 0x80, 0x80, 0x80, 0x00, 0])))) =
      .err "base 128 integer too large" := by decide +kernel

end Verif.Props
