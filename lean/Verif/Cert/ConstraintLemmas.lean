import Verif.Cert.Spec
import Verif.Props.CertTotal
import Verif.Props.CertNames
import Verif.Props.CryptobyteRead
import Verif.Props.CryptobyteBuilder
/-!
# Name constraints, helper lemmas
-/
namespace Verif.Cert
open Verif Verif.CB Verif.Spec.DER Verif.Spec.Cert Verif.Spec.Names Verif.Props

variable {U : Type}

/-! ## The header -/

theorem readOptional_iff {tag : Tag} {s : Bytes} {r : Option Str} {s' : Str} :
    readOptionalASN1 tag (some s) = .ok (some r, s') ↔
      (∃ c rest, LowTag tag ∧ (elem tag c).length < 2 ^ 32 ∧ s = elem tag c ++ rest ∧ r = some (some c) ∧ s' = some rest) ∨
      (s.head? ≠ some tag ∧ r = none ∧ s' = some s) := by
  by_cases h : s.head? = some tag
  · rw [optional_present (by simpa using h)]
    constructor
    · rintro ⟨h1, h2⟩
      have := h2 _ rfl
      obtain ⟨c, rfl⟩ := Option.isSome_iff_exists.1 this
      simp only [Option.bind_some, id_eq] at h1
      left
      rcases readASN1Tag_cases tag (some s) with k | ⟨_, _, _, _, _, _, _, k⟩ | ⟨c', rest, k1, k2, k3, k⟩
      · rw [k] at h1; simp at h1
      · rw [k] at h1; simp at h1
      · rw [k] at h1
        simp only [Res.ok.injEq, Prod.mk.injEq, Option.some.injEq] at h1 k3
        obtain ⟨rfl, rfl⟩ := h1
        exact ⟨c', rest, k1, k2, k3, rfl, rfl⟩
    · rintro (⟨c, rest, h1, h2, rfl, rfl, rfl⟩ | ⟨h1, _⟩)
      · exact ⟨readASN1Tag_elem rest h1 h2, by simp⟩
      · exact absurd h h1
  · have := (C27_absent (some s) tag (by simpa using h) readASN1Int64 0).1
    rw [this]
    constructor
    · intro h1
      simp only [Res.ok.injEq, Prod.mk.injEq, Option.some.injEq] at h1
      exact .inr ⟨h, h1.1.symm, h1.2.symm⟩
    · rintro (⟨c, rest, _, _, rfl, _⟩ | ⟨_, rfl, rfl⟩)
      · exact absurd rfl h
      · rfl

theorem head_elem (t : Byte) (c rest : Bytes) : (elem t c ++ rest).head? = some t := rfl

theorem empty_iff (s : Bytes) : Str.empty (some s) = true ↔ s = [] := by
  simp [Str.empty, Str.len, Str.bytes]

theorem readNameConstraints_iff {value : Bytes} {p x : Option Str} :
    readNameConstraints value = .ok (some (p, x)) ↔
      ∃ perm excl : Option Bytes, value = nameConstraints perm excl ∧ value.length < 2 ^ 32 ∧ p = perm.map some ∧ x = excl.map some := by
  have t0 : ((0 : Tag).contextSpecific).constructed = 0xa0 := by decide
  have t1 : ((1 : Tag).contextSpecific).constructed = 0xa1 := by decide
  have ts : tagSEQUENCE = (0x30 : Byte) := by decide
  unfold readNameConstraints
  rw [t0, t1, ts]
  constructor
  · intro h
    rw [Res.bind_eq_ok] at h
    obtain ⟨⟨top, outer⟩, h1, h⟩ := h
    dsimp only at h
    rcases readASN1Tag_cases 0x30 (some value) with k | ⟨_, _, _, _, _, _, _, k⟩ | ⟨c, rest, k1, k2, k3, k⟩
    · rw [k] at h1
      simp only [Res.ok.injEq, Prod.mk.injEq] at h1
      obtain ⟨rfl, rfl⟩ := h1
      simp at h
    · rw [k] at h1
      simp only [Res.ok.injEq, Prod.mk.injEq] at h1
      obtain ⟨rfl, rfl⟩ := h1
      simp at h
    · rw [k] at h1
      simp only [Res.ok.injEq, Prod.mk.injEq] at h1
      obtain ⟨rfl, rfl⟩ := h1
      dsimp only at h
      simp only [Option.some.injEq] at k3
      by_cases hr : rest = []
      · rw [if_neg (by simp [hr, Str.empty, Str.len, Str.bytes]), Res.bind_eq_ok] at h
        obtain ⟨⟨r, s1⟩, g1, h⟩ := h
        dsimp only at h
        cases r with
        | none => simp at h
        | some r =>
          dsimp only at h
          rw [Res.bind_eq_ok] at h
          obtain ⟨⟨r', s2⟩, g2, h⟩ := h
          dsimp only at h
          cases r' with
          | none => simp at h
          | some r' =>
            dsimp only at h
            split at h
            · simp at h
            · rename_i he
              simp only [Res.ok.injEq, Option.some.injEq, Prod.mk.injEq] at h
              obtain ⟨rfl, rfl⟩ := h
              subst hr
              rw [List.append_nil] at k3
              subst k3
              rcases readOptional_iff.1 g1 with ⟨c1, r1, _, _, rfl, rfl, rfl⟩ | ⟨_, rfl, rfl⟩
              · rcases readOptional_iff.1 g2 with ⟨c2, r2, _, _, rfl, rfl, rfl⟩ | ⟨_, rfl, rfl⟩
                · have : r2 = [] := by simpa [Str.empty, Str.len, Str.bytes] using he
                  subst this
                  refine ⟨some c1, some c2, ?_, k2, rfl, rfl⟩
                  unfold nameConstraints optField
                  rw [List.append_nil]
                · have : r1 = [] := by simpa [Str.empty, Str.len, Str.bytes] using he
                  subst this
                  refine ⟨some c1, none, rfl, k2, rfl, rfl⟩
              · rcases readOptional_iff.1 g2 with ⟨c2, r2, _, _, rfl, rfl, rfl⟩ | ⟨_, rfl, rfl⟩
                · have : r2 = [] := by simpa [Str.empty, Str.len, Str.bytes] using he
                  subst this
                  refine ⟨none, some c2, ?_, k2, rfl, rfl⟩
                  unfold nameConstraints optField
                  rw [List.append_nil]; rfl
                · have : c = [] := by simpa [Str.empty, Str.len, Str.bytes] using he
                  subst this
                  refine ⟨none, none, rfl, k2, rfl, rfl⟩
      · rw [if_pos (by simp [hr, Str.empty, Str.len, Str.bytes])] at h
        simp at h
  · rintro ⟨perm, excl, rfl, hl, rfl, rfl⟩
    unfold nameConstraints at *
    have hr := readASN1Tag_elem (t := 0x30) [] (by decide) hl
    rw [List.append_nil] at hr
    rw [hr, Res.ok_bind]
    dsimp only
    rw [if_neg (by simp [Str.empty, Str.len, Str.bytes])]
    have hl2 : (optField 0xa0 perm ++ optField 0xa1 excl).length < 2 ^ 32 := by
      rw [length_elem] at hl; omega
    rw [List.length_append] at hl2
    have h1 : readOptionalASN1 0xa0 (some (optField 0xa0 perm ++ optField 0xa1 excl)) = .ok (some (perm.map some), some (optField 0xa1 excl)) := by
      rw [readOptional_iff]
      cases perm with
      | some c => left; exact ⟨c, _, by decide, by simp only [optField] at hl2; omega, rfl, rfl, rfl⟩
      | none =>
        right
        refine ⟨?_, rfl, rfl⟩
        cases excl with
        | none => simp [optField]
        | some c => simp [optField, elem]
    have h2 : readOptionalASN1 0xa1 (some (optField 0xa1 excl)) = .ok (some (excl.map some), some []) := by
      rw [readOptional_iff]
      cases excl with
      | some c => left; exact ⟨c, _, by decide, by simp only [optField] at hl2; omega, by rw [List.append_nil]; rfl, rfl, rfl⟩
      | none => right; exact ⟨by simp [optField], rfl, rfl⟩
    rw [h1, Res.ok_bind]
    dsimp only
    rw [h2, Res.ok_bind]
    rfl

/-! ## The subtrees -/

/-- The switch on a list of bases. -/
def runBases (env : Env U) : List Base → Subtrees → Res Subtrees
  | [], st => .ok st
  | b :: l, st => do
    let st ← subtreeValue env st b.1 b.2
    runBases env l st

/-- The bytes are these subtrees, each small enough for cryptobyte. -/
def AreSubtrees (l : List (Base × Bytes)) (bs : Bytes) : Prop :=
  bs = l.flatMap (fun x => subtree x.1 x.2) ∧ ∀ x ∈ l, LowTag x.1.1 ∧ (subtree x.1 x.2).length < 2 ^ 32

theorem getValues_iff (env : Env U) : ∀ (fuel : Nat) (s : Str) (st st' : Subtrees), s.len ≤ fuel →
    (getValues env fuel s st = .ok st' ↔ ∃ l, AreSubtrees l s.bytes ∧ runBases env (l.map Prod.fst) st = .ok st') := by
  have ts : tagSEQUENCE = (0x30 : Byte) := by decide
  have hempty : ∀ (s : Str) (st st' : Subtrees), s.empty = true →
      (Res.ok st = .ok st' ↔ ∃ l, AreSubtrees l s.bytes ∧ runBases env (l.map Prod.fst) st = .ok st') := by
    intro s st st' he
    have hb : s.bytes = [] := by simpa [Str.empty, Str.len] using he
    constructor
    · intro h; exact ⟨[], ⟨hb, by simp⟩, h⟩
    · rintro ⟨l, ⟨h1, _⟩, h2⟩
      rw [hb] at h1
      cases l with
      | nil => exact h2
      | cons x l => rw [List.flatMap_cons] at h1; simp [subtree, elem] at h1
  intro fuel
  induction fuel with
  | zero =>
    intro s st st' hf
    have he : s.empty = true := by simp only [Str.empty, decide_eq_true_eq]; omega
    rw [getValues, if_pos he]
    exact hempty s st st' he
  | succ fuel ih =>
    intro s st st' hf
    cases he : s.empty with
    | true => rw [getValues, if_pos he]; exact hempty s st st' he
    | false =>
      rw [getValues_step env fuel s st he, ts]
      constructor
      · intro h
        rcases readASN1Tag_cases 0x30 s with k | ⟨_, _, _, _, _, _, _, k⟩ | ⟨c, rest, k1, k2, k3, k⟩
        · rw [k] at h; simp [Res.ok_bind] at h
        · rw [k] at h; simp [Res.ok_bind] at h
        · rw [k, Res.ok_bind] at h
          dsimp only at h
          unfold readAnyASN1 at h
          rcases readASN1_sound true c with m | ⟨t, v, more, m1, m2, m3, m⟩
          · rw [m] at h; simp [Res.ok_bind] at h
          · rw [m, Res.ok_bind] at h
            dsimp only at h
            rw [Res.bind_eq_ok] at h
            obtain ⟨st1, n1, n2⟩ := h
            have hlen : Str.len (some rest) ≤ fuel := by
              rw [k3] at hf
              have := length_elem (t := 0x30) (c := c)
              simp only [Str.len, Str.bytes, Option.getD_some, List.length_append] at hf ⊢
              omega
            obtain ⟨l, ⟨q1, q2⟩, q3⟩ := (ih (some rest) st1 st' hlen).1 n2
            refine ⟨((t, v), more) :: l, ⟨?_, ?_⟩, ?_⟩
            · rw [k3, List.flatMap_cons, ← q1]
              simp only [Str.bytes, Option.getD_some]
              rw [m3]; rfl
            · rw [List.forall_mem_cons]
              refine ⟨⟨m1, ?_⟩, q2⟩
              rw [m3] at k2; exact k2
            · rw [List.map_cons, runBases]
              rw [show (if true = true then v else elem t v) = v from rfl] at n1
              rw [show subtreeValue env st (t, v).1 (t, v).2 = .ok st1 from n1, Res.ok_bind]
              exact q3
      · rintro ⟨l, ⟨h1, h2⟩, h3⟩
        cases l with
        | nil =>
          have : s.empty = true := by simp [Str.empty, Str.len, h1]
          rw [this] at he; simp at he
        | cons x l =>
          obtain ⟨⟨t, v⟩, more⟩ := x
          rw [List.forall_mem_cons] at h2
          obtain ⟨⟨g1, g2⟩, h2⟩ := h2
          dsimp only at g1 g2
          rw [List.flatMap_cons] at h1
          dsimp only at h1
          have hs : s = some (subtree (t, v) more ++ l.flatMap fun x => subtree x.1 x.2) := by
            cases s with
            | none => simp [Str.bytes, subtree, elem] at h1
            | some b => rw [← h1]; rfl
          have hl : (elem t v).length < 2 ^ 32 := by
            unfold subtree at g2; dsimp only at g2; rw [length_elem, List.length_append] at g2; omega
          rw [hs]
          unfold subtree at g2 ⊢
          dsimp only
          rw [readASN1Tag_elem _ (by decide) g2, Res.ok_bind]
          dsimp only
          unfold readAnyASN1
          rw [readASN1_elem true more g1 hl, Res.ok_bind]
          dsimp only
          rw [List.map_cons, runBases, Res.bind_eq_ok] at h3
          obtain ⟨st1, n1, n2⟩ := h3
          rw [show subtreeValue env st t (Str.bytes (some (if true = true then v else elem t v))) = .ok st1 from n1, Res.ok_bind]
          refine (ih _ _ _ ?_).2 ⟨l, ⟨rfl, h2⟩, n2⟩
          rw [hs] at hf
          have := length_elem (t := 0x30) (c := elem t v ++ more)
          simp only [Str.len, Str.bytes, Option.getD_some, List.length_append, subtree] at hf this ⊢
          omega

/-! ## One value -/

/-- What the code demands of a domain constraint: a domain after an optional period. -/
def ConstraintDomain (s : Bytes) : Prop := AcceptedDomain s ∨ ∃ t, s = dot :: t ∧ AcceptedDomain t

/-- An IP range on the wire: address and contiguous mask, of 4 or 16 octets each. -/
def IsWireNet (n : IPNet) (v : Bytes) : Prop :=
  v = n.ip ++ n.mask ∧ (n.ip.length = 4 ∧ n.mask.length = 4 ∨ n.ip.length = 16 ∧ n.mask.length = 16) ∧ Contiguous n.mask

/-- The names that the code supports, and what they must look like. -/
def ValidBase (isIP : Bytes → Bool) (b : Base) : Prop :=
  (b.1 = 0x82 → IA5 b.2 ∧ ConstraintDomain b.2) ∧
  (b.1 = 0x87 → ∃ n, IsWireNet n b.2) ∧
  (b.1 = 0x81 → IA5 b.2 ∧ if 0x40 ∈ b.2 then ∃ src v d, b.2 = src ++ 0x40 :: d ∧ LocalPart src v ∧ AcceptedDomain d else ConstraintDomain b.2) ∧
  (b.1 = 0x86 → IA5 b.2 ∧ isIP b.2 = false ∧ ConstraintDomain b.2)

/-- An address range as two halves. -/
def netOf (v : Bytes) : IPNet := ⟨v.take (v.length / 2), v.drop (v.length / 2)⟩

theorem netOf_wire {n : IPNet} {v : Bytes} (h : IsWireNet n v) : netOf v = n := by
  obtain ⟨rfl, h2, _⟩ := h
  obtain ⟨ip, mask⟩ := n
  unfold netOf
  dsimp only at *
  have : (ip ++ mask).length / 2 = ip.length := by rw [List.length_append]; omega
  rw [this, List.take_left' rfl, List.drop_left' rfl]

theorem constraintDomain_iff (s : Bytes) : ConstraintDomain s ↔ domainToReverseLabels (trimDot s) ≠ none := by
  rw [Option.ne_none_iff_exists', ← acceptedDomain_iff]
  unfold trimDot ConstraintDomain
  constructor
  · rintro (h | ⟨t, rfl, h⟩)
    · split
      · rename_i hd
        obtain ⟨l, hl, h | ⟨h1, h⟩⟩ := h
        · -- the first label would begin with a period
          exfalso
          cases l with
          | nil => rw [h] at hd; simp [dotJoin] at hd
          | cons a l =>
            have ha := hl a (by simp)
            obtain ⟨c, cs, rfl⟩ := List.exists_cons_of_ne_nil ha.1
            have hc := (ha.2 c (by simp)).2.2
            rw [h] at hd
            cases l <;> simp [dotJoin] at hd <;> exact hc hd
        · refine ⟨l, hl, .inl ?_⟩
          rw [h]; rfl
      · exact h
    · rw [if_pos (by rfl)]; exact h
  · intro h
    split at h
    · rename_i hd
      right
      cases s with
      | nil => simp at hd
      | cons c s =>
        simp only [List.head?_cons, Option.some.injEq] at hd
        subst hd
        exact ⟨s, rfl, h⟩
    · exact .inl h

/-- The state after a value. -/
def Subtrees.add (st : Subtrees) (b : Base) : Subtrees :=
  if b.1 = 0x82 then { st with dnsNames := st.dnsNames ++ [b.2] }
  else if b.1 = 0x87 then { st with ips := st.ips ++ [netOf b.2] }
  else if b.1 = 0x81 then { st with emails := st.emails ++ [b.2] }
  else if b.1 = 0x86 then { st with uriDomains := st.uriDomains ++ [b.2] }
  else { st with unhandled := true }

theorem ia5_false (v : Bytes) : isIA5String v = false ↔ ¬ IA5 v := by
  unfold IA5
  rw [← isIA5String_iff]
  simp

theorem wireNet_iff (v : Bytes) : (∃ n, IsWireNet n v) ↔
    (v.length = 8 ∧ isValidIPMask (v.drop 4) = true) ∨ (v.length = 32 ∧ isValidIPMask (v.drop 16) = true) := by
  rw [C52_mask, C52_mask]
  constructor
  · rintro ⟨n, rfl, h1, h2⟩
    rw [List.length_append]
    rcases h1 with ⟨h1, h3⟩ | ⟨h1, h3⟩
    · left; rw [List.drop_left' h1]; exact ⟨by omega, h2⟩
    · right; rw [List.drop_left' h1]; exact ⟨by omega, h2⟩
  · rintro (⟨h1, h2⟩ | ⟨h1, h2⟩)
    · exact ⟨⟨v.take 4, v.drop 4⟩, by simp, .inl (by simp [h1]), h2⟩
    · exact ⟨⟨v.take 16, v.drop 16⟩, by simp, .inr (by simp [h1]), h2⟩

theorem subtreeValue_iff (env : Env U) (st st' : Subtrees) (b : Base) :
    subtreeValue env st b.1 b.2 = .ok st' ↔ ValidBase env.isIP b ∧ st' = st.add b := by
  obtain ⟨t, v⟩ := b
  have t2 : ((2 : Tag).contextSpecific) = (0x82 : Byte) := by decide
  have t7 : ((7 : Tag).contextSpecific) = (0x87 : Byte) := by decide
  have t1 : ((1 : Tag).contextSpecific) = (0x81 : Byte) := by decide
  have t6 : ((6 : Tag).contextSpecific) = (0x86 : Byte) := by decide
  unfold subtreeValue Subtrees.add ValidBase
  rw [t2, t7, t1, t6]
  simp only [constraintDomain_iff, wireNet_iff]
  by_cases h2 : t = 0x82
  · subst h2
    rw [if_pos rfl, if_pos rfl]
    by_cases hi : IA5 v
    · rw [if_neg (by rw [ia5_false]; simpa using hi)]
      by_cases hd : domainToReverseLabels (trimDot v) = none
      · rw [if_pos hd]; simp [hd]
      · rw [if_neg hd]; simp [hd, hi]; exact eq_comm
    · rw [if_pos ((ia5_false v).2 hi)]; simp [hi]
  · rw [if_neg h2, if_neg h2]
    by_cases h7 : t = 0x87
    · subst h7
      rw [if_pos rfl, if_pos rfl]
      by_cases h8 : v.length = 8
      · rw [if_pos h8]
        have hn : netOf v = ⟨v.take 4, v.drop 4⟩ := by unfold netOf; rw [h8]
        cases hm : isValidIPMask (v.drop 4) with
        | false => simp [h8]
        | true => simp [h8, hn]; exact eq_comm
      · rw [if_neg h8]
        by_cases h32 : v.length = 32
        · rw [if_pos h32]
          have hn : netOf v = ⟨v.take 16, v.drop 16⟩ := by unfold netOf; rw [h32]
          cases hm : isValidIPMask (v.drop 16) with
          | false => simp [h32]
          | true => simp [h32, hn]; exact eq_comm
        · rw [if_neg h32]; simp [h8, h32]
    · rw [if_neg h7, if_neg h7]
      by_cases h1 : t = 0x81
      · subst h1
        rw [if_pos rfl, if_pos rfl]
        by_cases hi : IA5 v
        · rw [if_neg (by rw [ia5_false]; simpa using hi)]
          by_cases hat : (0x40 : Byte) ∈ v
          · rw [if_pos hat, if_pos hat]
            rcases mailbox_cases v with hm | ⟨src, w, d, he, hl, hd, hm⟩
            · rw [hm, Res.ok_bind, if_pos rfl]
              have : ¬ ∃ src w d, v = src ++ 0x40 :: d ∧ LocalPart src w ∧ AcceptedDomain d := by
                rintro ⟨src, w, d, h1, h2, h3⟩
                have := (C57_exact v w d).2 ⟨src, h1, h2, h3⟩
                rw [hm] at this; simp at this
              constructor
              · intro h; simp at h
              · rintro ⟨⟨_, _, h, _⟩, _⟩; exact absurd (h rfl).2 this
            · rw [hm, Res.ok_bind, if_neg (by simp)]
              have : ∃ src w d, v = src ++ 0x40 :: d ∧ LocalPart src w ∧ AcceptedDomain d := ⟨src, w, d, he, hl, hd⟩
              constructor
              · intro h
                exact ⟨⟨fun h => absurd h h2, fun h => absurd h h7, fun _ => ⟨hi, this⟩, fun h => absurd h (by decide)⟩, (Res.ok.inj h).symm⟩
              · rintro ⟨_, rfl⟩; rfl
          · rw [if_neg hat, if_neg hat]
            by_cases hd : domainToReverseLabels (trimDot v) = none
            · rw [if_pos hd]; simp [hd]
            · rw [if_neg hd]; simp [hd, hi]; exact eq_comm
        · rw [if_pos ((ia5_false v).2 hi)]; simp [hi]
      · rw [if_neg h1, if_neg h1]
        by_cases h6 : t = 0x86
        · subst h6
          rw [if_pos rfl, if_pos rfl]
          by_cases hi : IA5 v
          · rw [if_neg (by rw [ia5_false]; simpa using hi)]
            cases hip : env.isIP v with
            | true => simp
            | false =>
              by_cases hd : domainToReverseLabels (trimDot v) = none
              · simp [hd]
              · simp [hd, hi]; exact eq_comm
          · rw [if_pos ((ia5_false v).2 hi)]; simp [hi]
        · rw [if_neg h6, if_neg h6]
          constructor
          · intro h
            exact ⟨⟨fun h => absurd h h2, fun h => absurd h h7, fun h => absurd h h1, fun h => absurd h h6⟩, (Res.ok.inj h).symm⟩
          · rintro ⟨_, rfl⟩; rfl

/-- The result for a list of bases. -/
def subtreesOf (bases : List Base) : Subtrees where
  dnsNames := valuesOf 0x82 bases
  ips := (valuesOf 0x87 bases).map netOf
  emails := valuesOf 0x81 bases
  uriDomains := valuesOf 0x86 bases
  unhandled := bases.any fun b => b.1 ∉ ([0x82, 0x87, 0x81, 0x86] : List Byte)

theorem runBases_iff (env : Env U) : ∀ (l : List Base) (st st' : Subtrees),
    runBases env l st = .ok st' ↔ (∀ b ∈ l, ValidBase env.isIP b) ∧ st' = l.foldl Subtrees.add st := by
  intro l
  induction l with
  | nil => intro st st'; simp [runBases, eq_comm]
  | cons b l ih =>
    intro st st'
    rw [runBases, Res.bind_eq_ok, List.forall_mem_cons, List.foldl_cons]
    constructor
    · rintro ⟨x, h1, h2⟩
      obtain ⟨h3, rfl⟩ := (subtreeValue_iff _ _ _ _).1 h1
      obtain ⟨h4, rfl⟩ := (ih _ _).1 h2
      exact ⟨⟨h3, h4⟩, rfl⟩
    · rintro ⟨⟨h1, h2⟩, rfl⟩
      exact ⟨_, (subtreeValue_iff _ _ _ _).2 ⟨h1, rfl⟩, (ih _ _).2 ⟨h2, rfl⟩⟩

theorem foldl_add : ∀ (l : List Base) (st : Subtrees), l.foldl Subtrees.add st =
    { dnsNames := st.dnsNames ++ (subtreesOf l).dnsNames
      ips := st.ips ++ (subtreesOf l).ips
      emails := st.emails ++ (subtreesOf l).emails
      uriDomains := st.uriDomains ++ (subtreesOf l).uriDomains
      unhandled := st.unhandled || (subtreesOf l).unhandled } := by
  intro l
  induction l with
  | nil => intro st; simp [subtreesOf, valuesOf]
  | cons b l ih =>
    intro st
    rw [List.foldl_cons, ih]
    obtain ⟨t, v⟩ := b
    unfold Subtrees.add subtreesOf valuesOf
    dsimp only
    by_cases h2 : t = 0x82
    · subst h2; simp
    · by_cases h7 : t = 0x87
      · subst h7; simp
      · by_cases h1 : t = 0x81
        · subst h1; simp
        · by_cases h6 : t = 0x86
          · subst h6; simp
          · rw [if_neg h2, if_neg h7, if_neg h1, if_neg h6]
            simp only [List.filter_cons, h2, h7, h1, h6, decide_false, Bool.false_eq_true, if_false, List.any_cons, Bool.or_true, List.mem_cons,
              List.not_mem_nil, or_self, not_false_eq_true, decide_true, Bool.true_or]

theorem getValues_exact (env : Env U) (s : Str) (st' : Subtrees) :
    getValues env s.len s {} = .ok st' ↔
      ∃ l : List (Base × Bytes), AreSubtrees l s.bytes ∧ (∀ x ∈ l, ValidBase env.isIP x.1) ∧ st' = subtreesOf (l.map Prod.fst) := by
  rw [getValues_iff env _ _ _ _ (Nat.le_refl _)]
  simp only [runBases_iff, foldl_add]
  simp only [List.nil_append, Bool.false_or, List.forall_mem_map]

theorem parseNameConstraints_iff (env : Env U) (value : Bytes) (ps xs : Subtrees) :
    parseNameConstraints env value = .ok (ps, xs) ↔
      ∃ (perm excl : Option Bytes) (lp lx : List (Base × Bytes)), value = nameConstraints perm excl ∧ value.length < 2 ^ 32 ∧
        AreSubtrees lp (perm.getD []) ∧ AreSubtrees lx (excl.getD []) ∧ ¬ (lp = [] ∧ lx = []) ∧
        (∀ x ∈ lp ++ lx, ValidBase env.isIP x.1) ∧ ps = subtreesOf (lp.map Prod.fst) ∧ xs = subtreesOf (lx.map Prod.fst) := by
  have hget : ∀ o : Option Bytes, Str.bytes ((o.map some).getD none) = o.getD [] := by intro o; cases o <;> rfl
  have hnil : ∀ {l : List (Base × Bytes)} {b : Bytes}, AreSubtrees l b → (b = [] ↔ l = []) := by
    intro l b h
    rw [h.1]
    constructor
    · intro h; cases l with
      | nil => rfl
      | cons x l => simp [subtree, elem] at h
    · rintro rfl; rfl
  unfold parseNameConstraints
  rw [Res.bind_eq_ok]
  constructor
  · rintro ⟨r, h1, h2⟩
    cases r with
    | none => simp at h2
    | some r =>
      obtain ⟨p, x⟩ := r
      obtain ⟨perm, excl, hv, hl, rfl, rfl⟩ := readNameConstraints_iff.1 h1
      dsimp only at h2
      split at h2
      · simp at h2
      · rename_i hne
        rw [Res.bind_eq_ok] at h2
        obtain ⟨a, g1, h2⟩ := h2
        rw [Res.bind_eq_ok] at h2
        obtain ⟨b, g2, h2⟩ := h2
        simp only [Res.ok.injEq, Prod.mk.injEq] at h2
        obtain ⟨rfl, rfl⟩ := h2
        obtain ⟨lp, k1, k2, rfl⟩ := (getValues_exact _ _ _).1 g1
        obtain ⟨lx, m1, m2, rfl⟩ := (getValues_exact _ _ _).1 g2
        rw [hget] at k1 m1
        refine ⟨perm, excl, lp, lx, hv, hl, k1, m1, ?_, ?_, rfl, rfl⟩
        · rintro ⟨rfl, rfl⟩
          apply hne
          right
          simp only [Str.len, hget]
          rw [(hnil k1).2 rfl, (hnil m1).2 rfl]
          exact ⟨rfl, rfl⟩
        · intro x hx
          rcases List.mem_append.1 hx with hx | hx
          · exact k2 x hx
          · exact m2 x hx
  · rintro ⟨perm, excl, lp, lx, hv, hl, h1, h2, h3, h4, rfl, rfl⟩
    refine ⟨_, readNameConstraints_iff.2 ⟨perm, excl, hv, hl, rfl, rfl⟩, ?_⟩
    dsimp only
    rw [if_neg]
    · rw [(getValues_exact _ _ _).2 ⟨lp, by rw [hget]; exact h1, fun x hx => h4 x (by simp [hx]), rfl⟩, Res.ok_bind,
        (getValues_exact _ _ _).2 ⟨lx, by rw [hget]; exact h2, fun x hx => h4 x (by simp [hx]), rfl⟩, Res.ok_bind]
    · rintro (⟨h5, h6⟩ | ⟨h5, h6⟩)
      · have : perm = none := by cases perm <;> simp_all
        have : excl = none := by cases excl <;> simp_all
        subst_vars
        exact h3 ⟨(hnil h1).1 rfl, (hnil h2).1 rfl⟩
      · simp only [Str.len, hget] at h5 h6
        exact h3 ⟨(hnil h1).1 (List.length_eq_zero_iff.1 h5), (hnil h2).1 (List.length_eq_zero_iff.1 h6)⟩

/-! ## Creation -/

theorem encodes_nil_iff {x : Bytes} : Encodes .nil x ↔ x = [] :=
  ⟨fun h => by cases h; rfl, fun h => h ▸ .nil⟩

theorem encodes_add_iff {v x : Bytes} {r : CB.Prog} : Encodes (.add v r) x ↔ ∃ y, Encodes r y ∧ x = v ++ y :=
  ⟨fun h => by cases h with | add _ h => exact ⟨_, h, rfl⟩, fun ⟨_, h, e⟩ => e ▸ .add v h⟩

theorem encodes_asn1_iff {t : Tag} {x : Bytes} {b r : CB.Prog} : Encodes (.asn1 t b r) x ↔
    LowTag t ∧ ∃ c y, Encodes b c ∧ c.length ≤ 2 ^ 32 - 2 ∧ Encodes r y ∧ x = elem t c ++ y := by
  constructor
  · intro h
    cases h with
    | @asn1 _ _ _ c l y ht hb hl hlen hr =>
      have hll : l = lenOctets c.length := (isLength_iff (byteLen_lt_127 (by omega))).1 hlen
      subst hll
      exact ⟨(lowTag_iff t).2 ht, c, y, hb, hl, hr, by simp [elem]⟩
  · rintro ⟨ht, c, y, hb, hl, hr, rfl⟩
    have := Encodes.asn1 ((lowTag_iff t).1 ht) hb hl ((isLength_iff (byteLen_lt_127 (by omega))).2 rfl) hr
    simpa [elem] using this

theorem length_lt_elem (t : Byte) (c : Bytes) : c.length < (elem t c).length := by
  rw [length_elem]; omega

theorem encodes_constraintProg : ∀ (items : List (Tag × Bytes)) (x : Bytes), (∀ i ∈ items, LowTag i.1.contextSpecific) →
    (Encodes (constraintProg items) x ↔ x = items.flatMap (fun i => subtree (i.1.contextSpecific, i.2) []) ∧
      ∀ i ∈ items, (elem i.1.contextSpecific i.2).length ≤ 2 ^ 32 - 2) := by
  intro items
  induction items with
  | nil => intro x _; simp [constraintProg, encodes_nil_iff]
  | cons i items ih =>
    intro x ht
    rw [List.forall_mem_cons] at ht
    obtain ⟨t, v⟩ := i
    simp only [constraintProg, encodes_asn1_iff, encodes_add_iff, encodes_nil_iff, ih _ ht.2, List.forall_mem_cons, List.flatMap_cons]
    constructor
    · rintro ⟨_, _, _, ⟨_, c, _, ⟨_, rfl, rfl⟩, h1, rfl, rfl⟩, h2, ⟨rfl, h3⟩, rfl⟩
      rw [List.append_nil] at *
      rw [List.append_nil] at *
      refine ⟨?_, h2, h3⟩
      unfold subtree; rw [List.append_nil]; rfl
    · rintro ⟨rfl, h2, h3⟩
      refine ⟨by decide, _, _, ⟨ht.1, v, [], ⟨[], rfl, (List.append_nil _).symm⟩, ?_, rfl, rfl⟩, ?_, ⟨rfl, h3⟩, rfl⟩
      · have := length_lt_elem t.contextSpecific v
        omega
      · rw [List.append_nil]; exact h2

theorem plain_constraintProg : ∀ items, Plain (constraintProg items)
  | [] => trivial
  | (_, _) :: rest => ⟨⟨trivial, trivial⟩, plain_constraintProg rest⟩

theorem runBuilder_plain (env : Env U) (p : CB.Prog) (hp : Plain p) :
    (∃ x, Encodes p x ∧ runBuilder env p = .ok x) ∨ ((¬ ∃ x, Encodes p x) ∧ ∃ m, runBuilder env p = .err m) := by
  have hv : Slice.Valid [[]] ⟨0, 0, 0, 0⟩ := ⟨Nat.le_refl _, [], rfl, by simp⟩
  have := C28_additions env.growth [[]] ⟨0, 0, 0, 0⟩ hv p hp
  simpa [runBuilder, Slice.get] using this

theorem runBuilder_iff (env : Env U) (p : CB.Prog) (hp : Plain p) (x : Bytes) : runBuilder env p = .ok x ↔ Encodes p x := by
  rcases runBuilder_plain env p hp with ⟨y, h1, h2⟩ | ⟨h1, m, h2⟩
  · rw [h2]
    constructor
    · intro h; cases h; exact h1
    · intro h; rw [C28_unique p x y h h1]
  · rw [h2]
    constructor
    · intro h; cases h
    · intro h; exact absurd ⟨x, h⟩ h1

/-- The bases of `serialiseConstraints`, with the wire form of the address ranges. -/
def basesOf (dns ips emails uris : List Bytes) : List Base :=
  dns.map (fun v => ((0x82 : Byte), v)) ++ ips.map (fun v => ((0x87 : Byte), v)) ++ emails.map (fun v => ((0x81 : Byte), v)) ++
    uris.map (fun v => ((0x86 : Byte), v))

theorem constraintItems_eq (dns : List Bytes) (ips : List IPNet) (emails uris : List Bytes) :
    (constraintItems dns ips emails uris).map (fun i => (i.1.contextSpecific, i.2)) = basesOf dns (ips.map ipAndMask) emails uris := by
  have t2 : ((2 : Tag).contextSpecific) = (0x82 : Byte) := by decide
  have t7 : ((7 : Tag).contextSpecific) = (0x87 : Byte) := by decide
  have t1 : ((1 : Tag).contextSpecific) = (0x81 : Byte) := by decide
  have t6 : ((6 : Tag).contextSpecific) = (0x86 : Byte) := by decide
  unfold constraintItems basesOf
  simp only [List.map_append, List.map_map, Function.comp_def, t2, t7, t1, t6]

theorem basesOf_tags {dns ips emails uris : List Bytes} {b : Base} (h : b ∈ basesOf dns ips emails uris) :
    b.1 ∈ ([0x82, 0x87, 0x81, 0x86] : List Byte) := by
  unfold basesOf at h
  simp only [List.mem_append, List.mem_map] at h
  rcases h with ((⟨a, _, rfl⟩ | ⟨a, _, rfl⟩) | ⟨a, _, rfl⟩) | ⟨a, _, rfl⟩ <;> simp

theorem basesOf_lowTag {dns ips emails uris : List Bytes} {b : Base} (h : b ∈ basesOf dns ips emails uris) : LowTag b.1 := by
  have : ∀ x ∈ ([0x82, 0x87, 0x81, 0x86] : List Byte), LowTag x := by decide
  exact this _ (basesOf_tags h)

theorem serialise_iff (env : Env U) (dns : List Bytes) (ips : List IPNet) (emails uris : List Bytes) (x : Bytes) :
    serialiseConstraints env dns ips emails uris = .ok x ↔
      (∀ s ∈ dns ++ emails ++ uris, IA5 s) ∧ x = (basesOf dns (ips.map ipAndMask) emails uris).flatMap (fun b => subtree b []) ∧
        ∀ b ∈ basesOf dns (ips.map ipAndMask) emails uris, (elem b.1 b.2).length ≤ 2 ^ 32 - 2 := by
  unfold serialiseConstraints
  by_cases h : ∀ s ∈ dns ++ emails ++ uris, IA5 s
  · rw [if_neg, runBuilder_iff env _ (plain_constraintProg _), encodes_constraintProg]
    · rw [← constraintItems_eq, List.flatMap_map, List.forall_mem_map]
      exact ⟨fun ⟨a, b⟩ => ⟨h, a, b⟩, fun ⟨_, a, b⟩ => ⟨a, b⟩⟩
    · intro i hi
      have : (i.1.contextSpecific, i.2) ∈ basesOf dns (ips.map ipAndMask) emails uris := by
        rw [← constraintItems_eq]; exact List.mem_map_of_mem hi
      exact basesOf_lowTag this
    · rw [List.any_eq_true]
      rintro ⟨s, hs, hf⟩
      exact (ia5_false s).1 (by simpa using hf) (h s hs)
  · rw [if_pos]
    · constructor
      · intro h; cases h
      · rintro ⟨h', _⟩; exact absurd h' h
    · rw [List.any_eq_true]
      push Not at h
      obtain ⟨s, hs, hf⟩ := h
      exact ⟨s, hs, by simpa using (ia5_false s).2 hf⟩

theorem serialise_returned (env : Env U) (dns : List Bytes) (ips : List IPNet) (emails uris : List Bytes) :
    (∃ x, serialiseConstraints env dns ips emails uris = .ok x) ∨ ∃ m, serialiseConstraints env dns ips emails uris = .err m := by
  unfold serialiseConstraints
  split
  · exact .inr ⟨_, rfl⟩
  · rcases runBuilder_plain env _ (plain_constraintProg (constraintItems dns ips emails uris)) with ⟨y, _, h⟩ | ⟨_, m, h⟩
    · exact .inl ⟨y, h⟩
    · exact .inr ⟨m, h⟩

/-- A field that is left out when empty. -/
def ne (b : Bytes) : Option Bytes := if b = [] then none else some b

theorem plain_ncProg (p x : Bytes) : Plain (nameConstraintsProg p x) := by
  unfold nameConstraintsProg
  split <;> split <;> simp [Plain]

theorem encodes_ncProg (p x v : Bytes) : Encodes (nameConstraintsProg p x) v ↔
    v = nameConstraints (ne p) (ne x) ∧ (optField 0xa0 (ne p) ++ optField 0xa1 (ne x)).length ≤ 2 ^ 32 - 2 := by
  have t0 : ((0 : Tag).contextSpecific).constructed = (0xa0 : Byte) := by decide
  have t1 : ((1 : Tag).contextSpecific).constructed = (0xa1 : Byte) := by decide
  have ts : tagSEQUENCE = (0x30 : Byte) := by decide
  have second : ∀ w, Encodes (if x.length > 0 then .asn1 ((1 : CB.Tag).contextSpecific).constructed (.add x .nil) .nil else .nil) w ↔
      w = optField 0xa1 (ne x) ∧ x.length ≤ 2 ^ 32 - 2 := by
    intro w
    unfold ne
    cases x with
    | nil => simp [encodes_nil_iff, optField]
    | cons a x =>
      rw [if_pos (by simp), if_neg (by simp), encodes_asn1_iff, t1]
      simp only [encodes_add_iff, encodes_nil_iff, optField]
      constructor
      · rintro ⟨_, c, _, ⟨_, rfl, rfl⟩, h, rfl, rfl⟩
        rw [List.append_nil] at *
        rw [List.append_nil] at *
        exact ⟨rfl, h⟩
      · rintro ⟨rfl, h⟩
        exact ⟨by decide, a :: x, [], ⟨[], rfl, (List.append_nil _).symm⟩, h, rfl, (List.append_nil _).symm⟩
  have hlen : ∀ (t : Byte) (b : Bytes), b.length ≤ (optField t (ne b)).length := by
    intro t b
    unfold ne
    split
    · rename_i h; rw [h]; simp
    · exact (length_lt_elem t b).le
  have body : ∀ w, Encodes (if p.length > 0 then .asn1 ((0 : CB.Tag).contextSpecific).constructed (.add p .nil)
      (if x.length > 0 then .asn1 ((1 : CB.Tag).contextSpecific).constructed (.add x .nil) .nil else .nil)
      else (if x.length > 0 then .asn1 ((1 : CB.Tag).contextSpecific).constructed (.add x .nil) .nil else .nil)) w ↔
      w = optField 0xa0 (ne p) ++ optField 0xa1 (ne x) ∧ p.length ≤ 2 ^ 32 - 2 ∧ x.length ≤ 2 ^ 32 - 2 := by
    intro w
    cases p with
    | nil =>
      rw [if_neg (by simp), second]
      simp [ne, optField]
    | cons a p =>
      rw [if_pos (by simp), encodes_asn1_iff, t0]
      simp only [second]
      simp only [encodes_add_iff, encodes_nil_iff, ne, reduceCtorEq, if_false]
      constructor
      · rintro ⟨_, c, _, ⟨_, rfl, rfl⟩, h, ⟨rfl, h'⟩, rfl⟩
        rw [List.append_nil] at *
        exact ⟨rfl, h, h'⟩
      · rintro ⟨rfl, h, h'⟩
        exact ⟨by decide, a :: p, _, ⟨[], rfl, (List.append_nil _).symm⟩, h, ⟨rfl, h'⟩, rfl⟩
  unfold nameConstraintsProg
  dsimp only
  rw [encodes_asn1_iff, ts]
  simp only [body, encodes_nil_iff]
  constructor
  · rintro ⟨_, c, _, ⟨rfl, _, _⟩, h, rfl, rfl⟩
    rw [List.append_nil]
    exact ⟨rfl, h⟩
  · rintro ⟨rfl, h⟩
    have h1 := hlen 0xa0 p
    have h2 := hlen 0xa1 x
    have h' := h
    rw [List.length_append] at h'
    exact ⟨by decide, _, [], ⟨rfl, by omega, by omega⟩, h, rfl, (List.append_nil _).symm⟩

end Verif.Cert
