import Verif.Der.TypeLemmas
import Verif.CB.IntLemmas
/-! Round trips of the codec records: what `makeField` writes, `parseField` reads. -/
namespace Verif.Der
open Spec.DER

variable {α : Type}

/-- A field written from `v` is read back as `w`, whatever follows. -/
def FieldRT (ty : Ty α) (p : Params) (v w : α) : Prop :=
  ∀ e, ty.make p v = .ok e → e.length < 2 ^ 31 → ∀ rest, parseField ty p (e ++ rest) = .ok (w, rest)

/-- `e` is one element of the given class, tag and form. -/
def IsElem (cls tag : Nat) (cmp : Bool) (e : Bytes) : Prop :=
  ∃ c, c.length < 2 ^ 31 ∧ e = elem (idOctet cls tag cmp) c

theorem makeElem_lt {cls tag : Nat} {cmp : Bool} {c : Bytes} (h : (makeElem cls tag cmp c).length < 2 ^ 31) :
    c.length < 2 ^ 31 ∧ makeElem cls tag cmp c = elem (idOctet cls tag cmp) c := by
  have := length_le_makeElem cls tag cmp c
  exact ⟨by omega, makeElem_eq (by omega)⟩

theorem makeTagged_elem {p : Params} {tag : Nat} {cmp z : Bool} {d : Int → Bool} {body : Res Bytes} {e : Bytes}
    (hx : p.explicit = false) (ho : omitted p z d = false) (h : makeTagged p tag cmp z d body = .ok e) (hl : e.length < 2 ^ 31) :
    ∃ c, body = .ok c ∧ c.length < 2 ^ 31 ∧
      e = elem (idOctet (wireCls p) (p.tag.getD (if p.set = true then 17 else tag)) cmp) c := by
  unfold makeTagged at h
  rw [ho] at h
  simp only [Bool.false_eq_true, if_false] at h
  split at h
  · simp at h
  · rw [Res.bind_eq_ok] at h
    obtain ⟨c, h1, h2⟩ := h
    simp only [Res.ok.injEq] at h2
    unfold wrapTag at h2
    refine ⟨c, h1, ?_⟩
    unfold wireCls
    cases hp : p.tag with
    | none =>
      rw [hp] at h2
      dsimp only at h2
      subst h2
      exact makeElem_lt hl
    | some k =>
      rw [hp, hx] at h2
      simp only [Bool.false_eq_true, if_false] at h2
      subst h2
      exact makeElem_lt hl

theorem makeTagged_explicit {p : Params} {tag k : Nat} {cmp z : Bool} {d : Int → Bool} {body : Res Bytes} {e : Bytes}
    (hx : p.explicit = true) (hk : p.tag = some k) (hs : p.set = false) (ho : omitted p z d = false)
    (h : makeTagged p tag cmp z d body = .ok e) (hl : e.length < 2 ^ 31) :
    ∃ c, body = .ok c ∧ (elem (idOctet 0 tag cmp) c).length < 2 ^ 31 ∧
      e = elem (idOctet 2 k true) (elem (idOctet 0 tag cmp) c) := by
  unfold makeTagged at h
  rw [ho, hs] at h
  simp only [Bool.false_eq_true, if_false, false_and] at h
  rw [Res.bind_eq_ok] at h
  obtain ⟨c, h1, h2⟩ := h
  simp only [Res.ok.injEq] at h2
  unfold wrapTag at h2
  rw [hk, hx] at h2
  simp only [if_true] at h2
  subst h2
  obtain ⟨h3, h4⟩ := makeElem_lt hl
  obtain ⟨h5, h6⟩ := makeElem_lt h3
  exact ⟨c, h1, by rw [← h6]; exact h3, by rw [h4, h6]⟩

/-- A type whose `make` is `makeTagged` round-trips if its contents do. -/
theorem fieldRT_of {ty : Ty α} {p : Params} {v w : α} {z : Bool} {d : Int → Bool} {body : Res Bytes}
    (hmk : ty.make p v = makeTagged p ty.tag ty.compound z d body)
    (hm : ty.matchAny = false) (hti : ty.isTime = false) (hx : p.explicit = false) (ho : omitted p z d = false)
    (ht : wireTag ty p < 31)
    (hb : ∀ c, body = .ok c → c.length < 2 ^ 31 → ∀ t u full, ty.body t u c full = .ok w) : FieldRT ty p v w := by
  intro e h hl rest
  rw [hmk] at h
  obtain ⟨c, h1, h2, rfl⟩ := makeTagged_elem hx ho h hl
  exact parseField_elem rest hm hti hx ht h2 (hb c h1 h2 _ _ _)

theorem isElem_of {ty : Ty α} {p : Params} {v : α} {z : Bool} {d : Int → Bool} {body : Res Bytes} {e : Bytes}
    (hmk : ty.make p v = makeTagged p ty.tag ty.compound z d body) (hx : p.explicit = false) (ho : omitted p z d = false)
    (h : ty.make p v = .ok e) (hl : e.length < 2 ^ 31) : IsElem (wireCls p) (wireTag ty p) ty.compound e := by
  rw [hmk] at h
  obtain ⟨c, h1, h2, rfl⟩ := makeTagged_elem hx ho h hl
  exact ⟨c, h2, rfl⟩

theorem fieldRT_explicit {ty : Ty α} {p : Params} {v w : α} {k : Nat} {z : Bool} {d : Int → Bool} {body : Res Bytes}
    (hmk : ty.make p v = makeTagged p ty.tag ty.compound z d body)
    (hm : ty.matchAny = false) (hti : ty.isTime = false) (hx : p.explicit = true) (hk : p.tag = some k) (hk31 : k < 31)
    (hs : p.set = false) (ho : omitted p z d = false) (ht : ty.tag < 31)
    (hb : ∀ c, body = .ok c → c.length < 2 ^ 31 → ∀ t u full, ty.body t u c full = .ok w) : FieldRT ty p v w := by
  intro e h hl rest
  rw [hmk] at h
  obtain ⟨c, h1, h2, rfl⟩ := makeTagged_explicit hx hk hs ho h hl
  have := length_le_elem (idOctet 0 ty.tag ty.compound) c
  exact parseField_explicit rest hm hti hx hk hk31 hs ht h2 (fun t full => hb c h1 (by omega) _ _ _)

theorem omitted_mandatory {p : Params} (h : p.optional = false) (z : Bool) (d : Int → Bool) : omitted p z d = false := by
  unfold omitted; rw [h]; rfl

/-! ## Slices -/

/-- `e` can be an element of a slice of `ty` as far as the counting pass is concerned. -/
def CountsOk (ty : Ty α) (e : Bytes) : Prop :=
  ∃ cls tag cmp, IsElem cls tag cmp e ∧ cls < 4 ∧ tag < 31 ∧
    (ty.matchAny = true ∨ (cls = 0 ∧ cmp = ty.compound ∧ seqTag tag = ty.tag))

/-- An element written from `v` counts and is read back as `w`. -/
def ElemRT (ty : Ty α) (v w : α) : Prop :=
  ∀ e, ty.make {} v = .ok e → e.length < 2 ^ 31 → CountsOk ty e ∧ ∀ rest, parseField ty {} (e ++ rest) = .ok (w, rest)

/-- What the two passes need of the bytes `e` to read `w` from them. -/
def ElemOk (ty : Ty α) (e : Bytes) (w : α) : Prop :=
  CountsOk ty e ∧ ∀ rest, parseField ty {} (e ++ rest) = .ok (w, rest)

theorem countElems_ok (ty : Ty α) : ∀ (es : List Bytes) (fuel : Nat), (∀ e ∈ es, CountsOk ty e) → es.flatten.length ≤ fuel →
    countElems ty fuel es.flatten = .ok es.length := by
  intro es
  induction es with
  | nil => intro fuel _ _; cases fuel <;> rfl
  | cons e es ih =>
    intro fuel h hf
    obtain ⟨cls, tag, cmp, ⟨c, hc, he⟩, hcls, htag, hm⟩ := h e (by simp)
    have hlen : c.length + 2 ≤ e.length := by rw [he]; exact length_le_elem _ _
    simp only [List.flatten_cons, List.length_append] at hf ⊢
    cases fuel with
    | zero => omega
    | succ fuel =>
      have hne : e ++ es.flatten ≠ [] := by rw [he]; exact elem_append_ne_nil _ _ _
      have hstep : countElems ty (fuel + 1) (e ++ es.flatten) = (do
          let r ← parseTagAndLength (e ++ es.flatten)
          if ty.matchAny = false ∧ (r.1.cls ≠ 0 ∨ r.1.isCompound ≠ ty.compound ∨ seqTag r.1.tag ≠ ty.tag) then .err "sequence tag mismatch"
          else if r.2.length < r.1.length then .err "truncated sequence"
          else do
            let n ← countElems ty fuel (r.2.drop r.1.length)
            .ok (n + 1)) := by
        cases h' : e ++ es.flatten with
        | nil => exact absurd h' hne
        | cons _ _ => rfl
      rw [hstep, he, parseTagAndLength_elem es.flatten hcls htag hc, Res.ok_bind]
      dsimp only
      rw [if_neg, if_neg (by simp), List.drop_left', ih fuel (fun e he => h e (by simp [he])) (by omega)]
      · simp
      · rfl
      · rintro ⟨h1, h2⟩
        rcases hm with h3 | ⟨h3, h4, h5⟩
        · rw [h1] at h3; simp at h3
        · rcases h2 with h2 | h2 | h2 <;> contradiction

theorem parseElems_ok (ty : Ty α) : ∀ (es : List Bytes) (ws : List α),
    List.Forall₂ (fun e w => ∀ rest, parseField ty {} (e ++ rest) = .ok (w, rest)) es ws →
    parseElems ty es.length es.flatten = .ok ws := by
  intro es
  induction es with
  | nil => intro ws h; cases h; rfl
  | cons e es ih =>
    intro ws h
    cases h with
    | cons h1 h2 =>
      rw [List.length_cons, List.flatten_cons, parseElems, h1, Res.ok_bind, ih _ h2]
      rfl

theorem parseSequenceOf_ok {ty : Ty α} {es : List Bytes} {ws : List α} (h : List.Forall₂ (ElemOk ty) es ws) :
    parseSequenceOf ty es.flatten = .ok ws := by
  have hc : ∀ e ∈ es, CountsOk ty e := by
    induction h with
    | nil => simp
    | cons h1 _ ih =>
      intro e he
      rcases List.mem_cons.1 he with rfl | he
      · exact h1.1
      · exact ih e he
  unfold parseSequenceOf
  rw [countElems_ok ty es _ hc (Nat.le_refl _), Res.ok_bind]
  exact parseElems_ok ty es ws (h.imp fun _ _ h => h.2)

/-- The pieces of a list that was written. -/
theorem makeElems_ok {ty : Ty α} : ∀ {vs : List α} {c : Bytes}, makeElems ty vs = .ok c →
    ∃ es : List Bytes, c = es.flatten ∧ List.Forall₂ (fun v e => ty.make {} v = .ok e) vs es := by
  intro vs
  induction vs with
  | nil => intro c h; simp [makeElems] at h; subst h; exact ⟨[], rfl, .nil⟩
  | cons v vs ih =>
    intro c h
    rw [makeElems] at h
    simp only [Res.bind_eq_ok, Res.ok.injEq] at h
    obtain ⟨a, h1, b, h2, rfl⟩ := h
    obtain ⟨es, rfl, h3⟩ := ih h2
    exact ⟨a :: es, rfl, .cons h1 h3⟩

theorem makeElems_of {ty : Ty α} {vs : List α} {es : List Bytes} (h : List.Forall₂ (fun v e => ty.make {} v = .ok e) vs es) :
    makeElems ty vs = .ok es.flatten := by
  induction h with
  | nil => rfl
  | cons h1 _ ih => rw [makeElems, h1, Res.ok_bind, ih]; rfl

theorem length_le_flatten {e : Bytes} {es : List Bytes} (h : e ∈ es) : e.length ≤ es.flatten.length := by
  induction es with
  | nil => simp at h
  | cons x xs ih =>
    rw [List.flatten_cons, List.length_append]
    rcases List.mem_cons.1 h with rfl | h
    · omega
    · have := ih h; omega

theorem parseSequenceOf_make {ty : Ty α} {vs ws : List α} {c : Bytes} (h : List.Forall₂ (ElemRT ty) vs ws)
    (hc : makeElems ty vs = .ok c) (hl : c.length < 2 ^ 31) : parseSequenceOf ty c = .ok ws := by
  obtain ⟨es, rfl, he⟩ := makeElems_ok hc
  apply parseSequenceOf_ok
  clear hc
  induction he generalizing ws with
  | nil => cases h; exact .nil
  | cons h1 h2 ih =>
    rename_i v e vs es
    cases h with
    | cons g1 g2 =>
      rw [List.flatten_cons, List.length_append] at hl
      exact .cons (g1 e h1 (by omega)) (ih g2 (by omega))

theorem fieldRT_slice {s : Bool} {ty : Ty α} {p : Params} {vs ws : List α} (hx : p.explicit = false)
    (hp : p.optional = false) (ht : wireTag (tySlice s ty) p < 31)
    (h : List.Forall₂ (ElemRT ty) vs ws) : FieldRT (tySlice s ty) p vs ws :=
  fieldRT_of (ty := tySlice s ty) rfl rfl rfl hx (omitted_mandatory hp _ _) ht
    (fun _ hc hl _ _ _ => parseSequenceOf_make h hc hl)

/-- A mandatory plain field can be a slice element. -/
theorem elemRT_of {ty : Ty α} {v w : α} {z : Bool} {d : Int → Bool} {body : Res Bytes}
    (hmk : ty.make {} v = makeTagged {} ty.tag ty.compound z d body) (ht : ty.tag < 31) (hs : seqTag ty.tag = ty.tag)
    (h : FieldRT ty {} v w) : ElemRT ty v w := by
  intro e he hl
  exact ⟨⟨_, _, _, isElem_of hmk rfl (omitted_mandatory rfl _ _) he hl, by decide, ht, .inr ⟨rfl, rfl, hs⟩⟩, h e he hl⟩

/-! ## Base types -/

theorem fieldRT_oid {p : Params} {oid : List Nat} (hx : p.explicit = false) (hp : p.optional = false)
    (ht : wireTag tyOID p < 31) (hf : OIDFits oid) : FieldRT tyOID p oid oid :=
  fieldRT_of (ty := tyOID) rfl rfl rfl hx (omitted_mandatory hp _ _) ht
    (fun c hc _ _ _ _ => (parseObjectIdentifier_iff c oid).2 (makeObjectIdentifier_content hf hc))

theorem elemRT_oid {oid : List Nat} (hf : OIDFits oid) : ElemRT tyOID oid oid :=
  elemRT_of (z := oid = []) (d := fun _ => false) (body := makeObjectIdentifier oid) rfl (by decide) (by decide) (fieldRT_oid rfl rfl (by decide) hf)

theorem parseBitString_iff (c : Bytes) (b : BitString) :
    parseBitString c = .ok b ↔ IsBitString b.bytes b.bitLength c := by
  unfold parseBitString IsBitString
  cases c with
  | nil => simp
  | cons pad data =>
    dsimp only
    have hmask : pad.toNat ≤ 7 → ∀ x : Byte, (x &&& BitVec.ofNat 8 (2 ^ pad.toNat - 1) = 0 ↔ x.toNat % 2 ^ pad.toNat = 0) := by
      generalize pad.toNat = k
      intro hk x
      rw [← BitVec.toNat_inj, BitVec.toNat_and, BitVec.toNat_ofNat]
      have : 2 ^ k ≤ 2 ^ 7 := Nat.pow_le_pow_right (by omega) hk
      rw [Nat.mod_eq_of_lt (by omega), Nat.and_two_pow_sub_one_eq_mod]
      rfl
    have hlast : pad.toNat ≤ 7 → ∀ (l : Bytes) (hne : l ≠ []), (l.getLast hne).toNat % 2 ^ pad.toNat = beNat l % 2 ^ pad.toNat := by
      intro hk l hne
      conv_rhs => rw [← List.dropLast_append_getLast hne]
      rw [beNat_append]
      simp only [List.length_singleton, Nat.pow_one]
      have hd : 2 ^ pad.toNat ∣ 256 := by
        rw [show (256 : Nat) = 2 ^ 8 by norm_num]; exact Nat.pow_dvd_pow 2 (by omega)
      obtain ⟨m, hm⟩ := hd
      rw [hm, Nat.mul_comm, Nat.mul_assoc, Nat.mul_add_mod]
      simp [beNat]
    have hcond : (pad.toNat > 7 ∨ (data = [] ∧ pad.toNat > 0) ∨
        ((pad :: data).getLast (by simp)) &&& BitVec.ofNat 8 (2 ^ pad.toNat - 1) ≠ 0) ↔
        ¬ (pad.toNat ≤ 7 ∧ pad.toNat ≤ 8 * data.length ∧ beNat data % 2 ^ pad.toNat = 0) := by
      by_cases h7 : pad.toNat ≤ 7
      · rw [ne_eq, hmask h7]
        cases data with
        | nil =>
          simp only [List.getLast_singleton, List.length_nil, beNat_nil]
          by_cases h0 : pad.toNat = 0
          · rw [h0]; simp [Nat.mod_one]
          · simp; omega
        | cons x xs =>
          rw [List.getLast_cons (by simp), hlast h7]
          simp only [reduceCtorEq, false_and, false_or, List.length_cons]
          generalize beNat (x :: xs) % 2 ^ pad.toNat = m
          omega
      · constructor
        · intro _ h; exact h7 h.1
        · intro _; left; omega
    by_cases hc : pad.toNat ≤ 7 ∧ pad.toNat ≤ 8 * data.length ∧ beNat data % 2 ^ pad.toNat = 0
    · rw [if_neg (by rw [hcond]; simp [hc])]
      obtain ⟨h1, h2, h3⟩ := hc
      obtain ⟨bs, n⟩ := b
      simp only [Res.ok.injEq, BitString.mk.injEq, List.cons.injEq]
      constructor
      · rintro ⟨rfl, rfl⟩; exact ⟨pad, ⟨rfl, rfl⟩, h1, by omega, h3⟩
      · rintro ⟨_, ⟨rfl, rfl⟩, h4, h5, h6⟩; exact ⟨rfl, by omega⟩
    · rw [if_pos (hcond.2 hc)]
      simp only [reduceCtorEq, false_iff, List.cons.injEq]
      rintro ⟨_, ⟨rfl, rfl⟩, h4, h5, h6⟩
      exact hc ⟨h4, by omega, h6⟩

/-- A bit string in the form that encoding/asn1 expects: as many bytes as needed, unused bits zero. -/
def BitsOk (b : BitString) : Prop :=
  b.bytes.length = (b.bitLength + 7) / 8 ∧ beNat b.bytes % 2 ^ (8 * b.bytes.length - b.bitLength) = 0

theorem makeBitString_isBits {b : BitString} (h : BitsOk b) : IsBitString b.bytes b.bitLength (makeBitString b) := by
  obtain ⟨h1, h2⟩ := h
  refine ⟨_, rfl, ?_⟩
  have e : (BitVec.ofNat 8 ((8 - b.bitLength % 8) % 8)).toNat = 8 * b.bytes.length - b.bitLength := by
    rw [BitVec.toNat_ofNat]; omega
  rw [e]
  exact ⟨by omega, by omega, h2⟩

theorem bitsOk_bytes (bs : Bytes) : BitsOk ⟨bs, bs.length * 8⟩ := by
  refine ⟨by dsimp only; omega, ?_⟩
  dsimp only
  rw [show 8 * bs.length - bs.length * 8 = 0 by omega]; simp [Nat.mod_one]

theorem fieldRT_bits {p : Params} {b : BitString} (hx : p.explicit = false) (hp : p.optional = false)
    (ht : wireTag tyBits p < 31) (hb : BitsOk b) : FieldRT tyBits p b b :=
  fieldRT_of (ty := tyBits) rfl rfl rfl hx (omitted_mandatory hp _ _) ht
    (fun c hc _ _ _ _ => (parseBitString_iff c b).2 (by
      simp only [Res.ok.injEq] at hc; subst hc; exact makeBitString_isBits hb))

theorem bool_body (v : Bool) : parseBool [if v then 0xff else 0] = .ok v := by cases v <;> decide

theorem fieldRT_bool {p : Params} {v : Bool} (hx : p.explicit = false) (ho : omitted p (v = false) (fun _ => false) = false)
    (ht : wireTag tyBool p < 31) : FieldRT tyBool p v v :=
  fieldRT_of (ty := tyBool) rfl rfl rfl hx ho ht
    (fun c hc _ _ _ _ => by
      simp only [Res.ok.injEq] at hc; subst hc; exact bool_body v)

theorem intValueOf_eq (c : Bytes) (hne : c ≠ []) : parseInt64.intValueOf c = intValue c := by
  cases c with
  | nil => exact absurd rfl hne
  | cons b bs =>
    unfold parseInt64.intValueOf intValue
    have hlt := beNat_lt (b :: bs)
    have hp : (2 : Nat) ^ (8 * (b :: bs).length) = 256 ^ (b :: bs).length := by rw [Nat.pow_mul]
    rw [BitVec.toInt_eq_toNat_cond, BitVec.toNat_ofNat, hp, Nat.mod_eq_of_lt hlt]
    dsimp only
    have hb := beNat_lt bs
    have hbe := beNat_cons b bs
    have hP : (256 : Nat) ^ (b :: bs).length = 256 * 256 ^ bs.length := by rw [List.length_cons, Nat.pow_succ, Nat.mul_comm]
    have hcond : 2 * beNat (b :: bs) < 256 ^ (b :: bs).length ↔ b.toNat < 128 := by
      rw [hbe, hP]
      generalize 256 ^ bs.length = P at *
      constructor
      · intro h
        by_contra hc
        have : 128 * P ≤ b.toNat * P := Nat.mul_le_mul_right _ (by omega)
        omega
      · intro h
        have : b.toNat * P ≤ 127 * P := Nat.mul_le_mul_right _ (by omega)
        omega
    by_cases h : b.toNat < 128
    · rw [if_pos (hcond.2 h), if_pos h]
    · rw [if_neg (fun hh => h (hcond.1 hh)), if_neg h]; push_cast; rfl

theorem parseInt64_iff (c : Bytes) (z : Int) : parseInt64 c = .ok z ↔ IsInt z c ∧ c.length ≤ 8 := by
  unfold parseInt64
  rw [Res.bind_eq_ok]
  constructor
  · rintro ⟨_, h1, h2⟩
    have hm := (checkInteger_iff c).1 h1
    have hne : c ≠ [] := by rintro rfl; exact hm
    split at h2
    · simp at h2
    · simp only [Res.ok.injEq] at h2
      rw [intValueOf_eq c hne] at h2
      exact ⟨⟨hm, h2⟩, by omega⟩
  · rintro ⟨⟨hm, hv⟩, hl⟩
    have hne : c ≠ [] := by rintro rfl; exact hm
    refine ⟨(), (checkInteger_iff c).2 hm, ?_⟩
    rw [if_neg (by omega), intValueOf_eq c hne, hv]

/-- An `int64`. -/
def Int64Range (z : Int) : Prop := -2 ^ 63 ≤ z ∧ z < 2 ^ 63

theorem makeInt64_isInt {z : Int} (h : Int64Range z) : IsInt z (makeInt64 z) := by
  have e : (BitVec.ofInt 64 z).toInt = z := by
    rw [BitVec.toInt_ofInt, Int.bmod_eq_of_le]
    · have := h.1; norm_num at *; omega
    · have := h.2; norm_num at *; omega
  have := CB.isInt_signedBytes (BitVec.ofInt 64 z)
  rw [e] at this
  exact this

theorem isInt64_length {z : Int} {c : Bytes} (h : Int64Range z) (hc : IsInt z c) : c.length ≤ 8 := by
  have h1 := CB.isInt_inRange hc
  by_contra hl
  rcases h1.2.2 with h2 | h2
  · omega
  · have : InRange z 7 := by unfold InRange; obtain ⟨a, b⟩ := h; norm_num at *; omega
    exact h2 (this.mono (by omega))

theorem int_body {z : Int} (h : Int64Range z) : parseInt64 (makeInt64 z) = .ok z :=
  (parseInt64_iff _ _).2 ⟨makeInt64_isInt h, isInt64_length h (makeInt64_isInt h)⟩

theorem fieldRT_int {p : Params} {z : Int} (hx : p.explicit = false) (ho : omitted p (z = 0) (fun d => z = d) = false)
    (ht : wireTag tyInt p < 31) (hz : Int64Range z) : FieldRT tyInt p z z :=
  fieldRT_of (ty := tyInt) rfl rfl rfl hx ho ht
    (fun c hc _ _ _ _ => by
      simp only [Res.ok.injEq] at hc; subst hc; exact int_body hz)

theorem fieldRT_big {p : Params} {z : Int} (hx : p.explicit = false) (hp : p.optional = false)
    (ht : wireTag tyBig p < 31) : FieldRT tyBig p z z :=
  fieldRT_of (ty := tyBig) rfl rfl rfl hx (omitted_mandatory hp _ _) ht
    (fun c hc _ _ _ _ => by
      simp only [Res.ok.injEq] at hc; subst hc; exact (parseBigInt_iff _ _).2 (makeBigInt_isInt z))

theorem fieldRT_bytes {p : Params} {v : Bytes} (hx : p.explicit = false) (hp : p.optional = false)
    (ht : wireTag tyBytes p < 31) : FieldRT tyBytes p v v :=
  fieldRT_of (ty := tyBytes) rfl rfl rfl hx (omitted_mandatory hp _ _) ht
    (fun c hc _ _ _ _ => by
      simp only [Res.ok.injEq] at hc; subst hc; rfl)

/-! ## RawValue -/

/-- What comes back for a `RawValue` written from its parts. -/
def RawValue.filled (v : RawValue) : RawValue := { v with fullBytes := makeElem v.cls v.tag v.isCompound v.bytes }

theorem elemRT_raw_parts {v : RawValue} (hf : v.fullBytes = []) (hc : v.cls < 4) (ht : v.tag < 31) :
    ElemRT tyRaw v v.filled := by
  intro e he hl
  have : e = makeElem v.cls v.tag v.isCompound v.bytes := by
    have : tyRaw.make {} v = .ok (makeElem v.cls v.tag v.isCompound v.bytes) := by
      unfold tyRaw; dsimp only
      rw [if_neg (by simp [omitted]), if_neg (by simp [hf])]
    rw [this] at he; simp only [Res.ok.injEq] at he; exact he.symm
  subst this
  obtain ⟨h1, h2⟩ := makeElem_lt hl
  refine ⟨⟨v.cls, v.tag, v.isCompound, ⟨v.bytes, h1, h2⟩, hc, ht, .inl rfl⟩, ?_⟩
  intro rest
  rw [h2, parseField_raw rest rfl rfl hc ht h1]
  unfold RawValue.filled
  rw [h2]

/-- An element given by its bytes. -/
theorem elemOk_raw {cls tag : Nat} {cmp : Bool} {c : Bytes} (hc : cls < 4) (ht : tag < 31) (hl : c.length < 2 ^ 31) :
    ElemOk tyRaw (elem (idOctet cls tag cmp) c) ⟨cls, tag, cmp, c, elem (idOctet cls tag cmp) c⟩ :=
  ⟨⟨cls, tag, cmp, ⟨c, hl, rfl⟩, hc, ht, .inl rfl⟩, fun rest => parseField_raw rest rfl rfl hc ht hl⟩

/-! ## Times -/

/-- Calendar fields of a time in UTC that can be encoded. -/
def TimeOk (t : Time) : Prop :=
  0 ≤ t.year ∧ t.year ≤ 9999 ∧ 1 ≤ t.month ∧ t.month ≤ 12 ∧ 1 ≤ t.day ∧ t.day ≤ daysIn t.month t.year.toNat ∧
    t.hour < 24 ∧ t.min < 60 ∧ t.sec < 60 ∧ t.offset = 0

theorem num2_twoDigits {v : Nat} (h : v < 100) (rest : Bytes) : num2 (twoDigits v ++ rest) = some (v, rest) := by
  unfold twoDigits
  rw [List.cons_append, List.cons_append, List.nil_append, num2, BitVec.toNat_ofNat, BitVec.toNat_ofNat]
  rw [if_pos (by omega)]
  congr 2
  omega

theorem daysIn_lt (m y : Nat) : daysIn m y < 100 := by unfold daysIn; split <;> [split; split] <;> omega

theorem parseAfterYear_common {t : Time} (ht : TimeOk t) (year : Nat) (hd : t.day ≤ daysIn t.month year) :
    parseAfterYear year true (timeCommon t) = some { t with year := year } := by
  obtain ⟨h1, h2, h3, h4, h5, h6, h7, h8, h9, h10⟩ := ht
  have hdl := daysIn_lt t.month t.year.toNat
  unfold parseAfterYear timeCommon
  simp only [List.append_assoc]
  rw [num2_twoDigits (by omega)]
  dsimp only
  rw [num2_twoDigits (by omega)]
  dsimp only
  rw [num2_twoDigits (by omega)]
  dsimp only
  rw [num2_twoDigits (by omega)]
  dsimp only
  rw [if_pos trivial, num2_twoDigits (by omega)]
  dsimp only
  rw [if_pos h10]
  rw [show parseZone [0x5a] = some 0 by decide]
  dsimp only
  rw [if_pos ⟨h3, h4, h5, hd, h7, h8, h9⟩, h10]

theorem parseAfterYear_short {t : Time} (ht : TimeOk t) (year : Nat) : parseAfterYear year false (timeCommon t) = none := by
  obtain ⟨h1, h2, h3, h4, h5, h6, h7, h8, h9, h10⟩ := ht
  have hdl := daysIn_lt t.month t.year.toNat
  unfold parseAfterYear timeCommon
  simp only [List.append_assoc]
  rw [num2_twoDigits (by omega)]
  dsimp only
  rw [num2_twoDigits (by omega)]
  dsimp only
  rw [num2_twoDigits (by omega)]
  dsimp only
  rw [num2_twoDigits (by omega)]
  dsimp only
  rw [if_neg (by simp), if_pos h10]
  dsimp only [twoDigits]
  have : parseZone ([BitVec.ofNat 8 (0x30 + t.sec / 10 % 10), BitVec.ofNat 8 (0x30 + t.sec % 10)] ++ [0x5a]) = none := by
    have e : num2 [BitVec.ofNat 8 (0x30 + t.sec % 10), 0x5a] = none := by
      rw [num2, if_neg]; simp
    rw [List.cons_append, List.cons_append, List.nil_append]
    unfold parseZone
    rw [if_neg (by simp)]
    dsimp only
    rw [e]
  rw [this]

theorem time_body {t : Time} (ht : TimeOk t) {c : Bytes} (h : makeTimeBody t = .ok c) :
    (if (if outsideUTCRange t then 24 else 23) = 23 then parseUTCTime c else parseGeneralizedTime c) = .ok t := by
  have ht' := ht
  obtain ⟨h1, h2, h3, h4, h5, h6, h7, h8, h9, h10⟩ := ht
  unfold makeTimeBody at h
  by_cases hr : outsideUTCRange t = true
  · rw [if_pos hr, if_neg (by omega)] at h
    rw [hr]
    simp only [Res.ok.injEq] at h
    subst h
    simp only [if_true, show ¬ (24 : Nat) = 23 by omega, if_false]
    unfold parseGeneralizedTime
    rw [List.append_assoc, num2_twoDigits (by omega)]
    dsimp only
    rw [num2_twoDigits (by omega)]
    dsimp only
    have e : t.year.toNat / 100 * 100 + t.year.toNat % 100 = t.year.toNat := by omega
    rw [e, parseAfterYear_common ht' _ h6]
    dsimp only
    congr
    exact Int.toNat_of_nonneg h1
  · rw [if_neg hr] at h
    have hr' : ¬ (t.year < 1950 ∨ t.year ≥ 2050) := by
      unfold outsideUTCRange at hr; simpa using hr
    rw [Bool.not_eq_true] at hr
    rw [hr]
    simp only [Bool.false_eq_true, if_false, if_true]
    have hb : ∃ yy : Nat, yy < 100 ∧ c = twoDigits yy ++ timeCommon t ∧
        ((1950 + yy ≥ 2000 ∧ t.year = 1900 + yy) ∨ (1950 + yy < 2000 ∧ t.year = 2000 + yy)) := by
      split at h
      · simp only [Res.ok.injEq] at h
        exact ⟨t.year.toNat - 1900, by omega, h.symm, by omega⟩
      · simp only [Res.ok.injEq] at h
        exact ⟨t.year.toNat - 2000, by omega, h.symm, by omega⟩
    obtain ⟨yy, hyy, rfl, hy⟩ := hb
    unfold parseUTCTime
    rw [num2_twoDigits hyy]
    dsimp only
    rw [parseAfterYear_short ht']
    dsimp only
    have hday : t.day ≤ daysIn t.month (if yy ≥ 69 then 1900 + yy else 2000 + yy) := by
      have : daysIn t.month (if yy ≥ 69 then 1900 + yy else 2000 + yy) = daysIn t.month t.year.toNat := by
        have hl : isLeap (if yy ≥ 69 then 1900 + yy else 2000 + yy) = isLeap t.year.toNat := by
          unfold isLeap
          rw [Bool.eq_iff_iff]
          simp only [Bool.and_eq_true, Bool.or_eq_true, decide_eq_true_eq, ne_eq]
          split <;> omega
        unfold daysIn
        rw [hl]
      rw [this]; exact h6
    rw [parseAfterYear_common ht' _ hday]
    dsimp only
    obtain ⟨y, _⟩ := t
    dsimp only at *
    by_cases h69 : yy ≥ 69
    · rw [if_pos h69, if_neg (by push_cast; omega)]; congr; push_cast; omega
    · rw [if_neg h69]
      by_cases h50 : yy ≥ 50
      · rw [if_pos (by push_cast; omega)]; congr; push_cast; omega
      · rw [if_neg (by push_cast; omega)]; congr; push_cast; omega

theorem elemRT_time {t : Time} (ht : TimeOk t) : FieldRT tyTime {} t t := by
  intro e he hl rest
  have : tyTime.make {} t = makeTagged {} (if outsideUTCRange t then 24 else 23) false false (fun _ => false) (makeTimeBody t) := rfl
  rw [this] at he
  obtain ⟨c, h1, h2, rfl⟩ := makeTagged_elem rfl (omitted_mandatory rfl _ _) he hl
  have e : (({} : Params).tag.getD (if ({} : Params).set = true then 17 else if outsideUTCRange t = true then 24 else 23)) =
      if outsideUTCRange t = true then 24 else 23 := rfl
  rw [e]
  exact parseField_time rest (by split <;> simp) h2 (time_body ht h1)

/-! ## interface{} -/

/-- Values that survive: Go's `int64`, well-formed bit strings, 31-bit OIDs, UTC times. -/
def AnyOk : AnyVal → Prop
  | .nil => False
  | .str _ => True
  | .int i => Int64Range i
  | .bits b => BitsOk b
  | .oid o => OIDFits o
  | .time t => TimeOk t
  | .octets _ => True

theorem parseAny_elem {tag : Nat} {c : Bytes} {v : AnyVal} (rest : Bytes) (ht : tag < 31) (hl : c.length < 2 ^ 31)
    (hb : parseAnyBody tag c = .ok v) : parseAny (elem (idOctet 0 tag false) c ++ rest) = .ok (v, rest) := by
  unfold parseAny
  rw [if_neg (elem_append_ne_nil _ _ _), parseTagAndLength_elem rest (by omega) ht hl, Res.ok_bind]
  dsimp only
  rw [if_neg (by simp), if_pos ⟨rfl, rfl⟩, List.take_left', hb, Res.ok_bind, List.drop_left']
  · rfl
  · rfl

theorem printable_all {s : Bytes} (h : (Utf8.runes s).all (fun r => r < 0x80 && isPrintable (BitVec.ofNat 8 r) false false) = true) :
    s.all (isPrintable · true true) = true := by
  have key := (Utf8.runes_all_iff (fun r => r < 0x80 ∧ isPrintable (BitVec.ofNat 8 r) false false = true) (fun n h => h.1) s)
  rw [List.all_eq_true] at h
  have h' := key.1 (by intro r hr; have := h r hr; simpa using this)
  rw [List.all_eq_true]
  intro b hb
  have := (h' b hb).2
  rw [BitVec.ofNat_toNat, BitVec.setWidth_eq] at this
  revert this
  unfold isPrintable
  simp only [Bool.false_and, Bool.or_false, Bool.true_and]
  intro h
  rw [h]; rfl

theorem any_rt {v : AnyVal} (hv : AnyOk v) {e : Bytes} (he : makeAny v = .ok e) (hl : e.length < 2 ^ 31) (rest : Bytes) :
    parseAny (e ++ rest) = .ok (v, rest) := by
  cases v with
  | nil => exact absurd hv id
  | str s =>
    have he : makeString s = .ok e := he
    unfold makeString at he
    split at he
    · rename_i hp
      simp only [Res.ok.injEq] at he; subst he
      obtain ⟨h1, h2⟩ := makeElem_lt hl
      rw [h2]
      apply parseAny_elem rest (by omega) h1
      unfold parseAnyBody parseString
      rw [if_pos (by simp), if_pos rfl, if_pos (printable_all hp)]; rfl
    · split at he
      · rename_i hp
        simp only [Res.ok.injEq] at he; subst he
        obtain ⟨h1, h2⟩ := makeElem_lt hl
        rw [h2]
        apply parseAny_elem rest (by omega) h1
        unfold parseAnyBody parseString
        rw [if_pos (by simp), if_neg (by omega), if_neg (by omega), if_neg (by omega), if_neg (by omega), if_pos hp]; rfl
      · simp at he
  | int i =>
    obtain ⟨c, h1, h2, rfl⟩ := makeTagged_elem rfl (omitted_mandatory rfl _ _) (show makeTagged {} 2 false (i = 0) (fun d => i = d) (.ok (makeInt64 i)) = .ok e from he) hl
    simp only [Res.ok.injEq] at h1; subst h1
    apply parseAny_elem rest (by decide) h2
    show (do let i ← parseInt64 _; Res.ok (AnyVal.int i)) = _
    rw [int_body hv]; rfl
  | bits b =>
    obtain ⟨c, h1, h2, rfl⟩ := makeTagged_elem rfl (omitted_mandatory rfl _ _) (show makeTagged {} 3 false (b = {}) (fun _ => false) (.ok (makeBitString b)) = .ok e from he) hl
    simp only [Res.ok.injEq] at h1; subst h1
    apply parseAny_elem rest (by decide) h2
    show (do let i ← parseBitString _; Res.ok (AnyVal.bits i)) = _
    rw [(parseBitString_iff _ b).2 (makeBitString_isBits hv)]; rfl
  | oid o =>
    obtain ⟨c, h1, h2, rfl⟩ := makeTagged_elem rfl (omitted_mandatory rfl _ _) (show makeTagged {} 6 false (o = []) (fun _ => false) (makeObjectIdentifier o) = .ok e from he) hl
    apply parseAny_elem rest (by decide) h2
    show (do let i ← parseObjectIdentifier _; Res.ok (AnyVal.oid i)) = _
    rw [(parseObjectIdentifier_iff _ o).2 (makeObjectIdentifier_content hv h1)]; rfl
  | time t =>
    have : makeAny (.time t) = makeTagged {} (if outsideUTCRange t then 24 else 23) false false (fun _ => false) (makeTimeBody t) := rfl
    rw [this] at he
    obtain ⟨c, h1, h2, rfl⟩ := makeTagged_elem rfl (omitted_mandatory rfl _ _) he hl
    have hb := time_body hv h1
    by_cases hr : outsideUTCRange t = true
    · rw [hr] at hb ⊢
      apply parseAny_elem rest (by decide) h2
      show (do let i ← parseGeneralizedTime _; Res.ok (AnyVal.time i)) = _
      simp only [if_true, show ¬ (24 : Nat) = 23 by omega, if_false] at hb
      rw [hb]; rfl
    · rw [Bool.not_eq_true] at hr
      rw [hr] at hb ⊢
      apply parseAny_elem rest (by decide) h2
      show (do let i ← parseUTCTime _; Res.ok (AnyVal.time i)) = _
      simp only [if_true, Bool.false_eq_true, if_false] at hb
      rw [hb]; rfl
  | octets b =>
    obtain ⟨c, h1, h2, rfl⟩ := makeTagged_elem rfl (omitted_mandatory rfl _ _) (show makeTagged {} 4 false false (fun _ => false) (.ok b) = .ok e from he) hl
    simp only [Res.ok.injEq] at h1; subst h1
    exact parseAny_elem rest (by decide) h2 rfl

end Verif.Der
