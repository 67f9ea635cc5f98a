import Verif.CB.OidSpec
import Verif.CB.AddLemmas
/-! OBJECT IDENTIFIER reader and writer of asn1.go against X.690 8.19. -/
namespace Verif.CB
open Spec.DER Spec.Builder

theorem subValue_foldl (bs : Bytes) (v : Nat) :
    bs.foldl (fun v b => v * 128 + b.toNat % 128) v = v * 128 ^ bs.length + subValue bs := by
  unfold subValue
  induction bs generalizing v with
  | nil => simp
  | cons b bs ih =>
    rw [List.foldl_cons, List.foldl_cons, ih, ih (0 * 128 + b.toNat % 128), List.length_cons, Nat.pow_succ]
    ring

theorem subValue_cons (b : Byte) (bs : Bytes) : subValue (b :: bs) = b.toNat % 128 * 128 ^ bs.length + subValue bs := by
  have := subValue_foldl bs (0 * 128 + b.toNat % 128)
  rw [show subValue (b :: bs) = List.foldl (fun v b => v * 128 + b.toNat % 128) (0 * 128 + b.toNat % 128) bs from rfl, this]
  ring

@[simp] theorem subValue_nil : subValue [] = 0 := rfl

theorem subValue_lt (bs : Bytes) : subValue bs < 128 ^ bs.length := by
  induction bs with
  | nil => simp
  | cons b bs ih =>
    rw [subValue_cons, List.length_cons, Nat.pow_succ]
    have : b.toNat % 128 < 128 := Nat.mod_lt _ (by omega)
    have : b.toNat % 128 * 128 ^ bs.length ≤ 127 * 128 ^ bs.length := Nat.mul_le_mul_right _ (by omega)
    omega

theorem isGroup_cons (b : Byte) (bs : Bytes) : IsGroup (b :: bs) ↔ (b.toNat < 128 ∧ bs = []) ∨ (128 ≤ b.toNat ∧ IsGroup bs) := by
  constructor
  · rintro ⟨init, last, h, h1, h2⟩
    cases init with
    | nil => simp at h; rw [h.1, h.2]; exact .inl ⟨h2, rfl⟩
    | cons x xs =>
      simp at h
      obtain ⟨rfl, rfl⟩ := h
      exact .inr ⟨h1 _ (by simp), xs, last, rfl, fun b hb => h1 b (by simp [hb]), h2⟩
  · rintro (⟨h, rfl⟩ | ⟨h, init, last, rfl, h1, h2⟩)
    · exact ⟨[], b, rfl, by simp, h⟩
    · refine ⟨b :: init, last, rfl, ?_, h2⟩
      intro x hx
      rcases List.mem_cons.1 hx with rfl | hx
      · exact h
      · exact h1 x hx

theorem not_isGroup_nil : ¬ IsGroup [] := by rintro ⟨i, l, h, _⟩; simp at h

/-- A group is determined by the bytes it starts. -/
theorem group_append_inj : ∀ {g g' x y : Bytes}, IsGroup g → IsGroup g' → g ++ x = g' ++ y → g = g' ∧ x = y := by
  intro g
  induction g with
  | nil => intro g' x y h; exact absurd h not_isGroup_nil
  | cons b bs ih =>
    intro g' x y h h' e
    cases g' with
    | nil => exact absurd h' not_isGroup_nil
    | cons b' bs' =>
      simp at e
      obtain ⟨rfl, e⟩ := e
      rw [isGroup_cons] at h h'
      rcases h with ⟨h1, rfl⟩ | ⟨h1, h2⟩ <;> rcases h' with ⟨h1', rfl⟩ | ⟨h1', h2'⟩
      · exact ⟨rfl, by simpa using e⟩
      · omega
      · omega
      · obtain ⟨rfl, rfl⟩ := ih h2 h2' e
        exact ⟨rfl, rfl⟩

theorem base128Loop_nil (k ret : Nat) (s : Str) (h : s.len = 0) : base128Loop k ret s = .ok (none, s) := by
  unfold base128Loop; rw [if_pos h]

theorem base128Loop_cons (k ret : Nat) (b : Byte) (bs : Bytes) :
    base128Loop (k + 1) ret (some (b :: bs)) =
      if b.toNat < 128 then .ok (some (ret * 128 + b.toNat % 128), some bs) else base128Loop k (ret * 128 + b.toNat % 128) (some bs) := by
  rw [base128Loop, if_neg (by simp)]
  have : read 1 (some (b :: bs)) = .ok (some [b], some bs) := by
    have := read_some (bs := b :: bs) (n := 1) (by simp)
    simpa using this
  simp only [this, Res.ok_bind]
  rw [at_some (by simp)]
  simp only [Res.ok_bind, List.getElem_cons_zero, and_7f]
  by_cases h : b.toNat < 128
  · rw [if_pos h, if_pos ((and_80 b).2 h)]
  · rw [if_neg h, if_neg (by rw [and_80]; exact h)]

/-- Reading a group. -/
theorem base128Loop_group : ∀ (g : Bytes) (k ret : Nat) (rest : Bytes), IsGroup g → g.length ≤ k →
    base128Loop k ret (some (g ++ rest)) = .ok (some (ret * 128 ^ g.length + subValue g), some rest) := by
  intro g
  induction g with
  | nil => intro _ _ _ h; exact absurd h not_isGroup_nil
  | cons b bs ih =>
    intro k ret rest h hl
    cases k with
    | zero => simp at hl
    | succ k =>
      rw [List.cons_append, base128Loop_cons]
      rw [isGroup_cons] at h
      rcases h with ⟨h1, rfl⟩ | ⟨h1, h2⟩
      · rw [if_pos h1]; simp [subValue_cons]
      · rw [if_neg (by omega), ih k _ rest h2 (by simpa using hl), subValue_cons, List.length_cons, Nat.pow_succ]
        congr 3
        ring

/-- Everything the base-128 reader can do: fail having consumed a prefix, or read a group of at most `k`
octets. -/
theorem base128Loop_sound : ∀ (k ret : Nat) (bs : Bytes),
    (∃ pre rest, bs = pre ++ rest ∧ base128Loop k ret (some bs) = .ok (none, some rest)) ∨
    (∃ g rest, IsGroup g ∧ g.length ≤ k ∧ bs = g ++ rest ∧
      base128Loop k ret (some bs) = .ok (some (ret * 128 ^ g.length + subValue g), some rest)) := by
  intro k
  induction k with
  | zero =>
    intro ret bs
    left
    refine ⟨[], bs, rfl, ?_⟩
    unfold base128Loop
    split <;> rfl
  | succ k ih =>
    intro ret bs
    cases bs with
    | nil => left; exact ⟨[], [], rfl, base128Loop_nil _ _ _ (by simp)⟩
    | cons b bs =>
      rw [base128Loop_cons]
      by_cases h : b.toNat < 128
      · right
        refine ⟨[b], bs, (isGroup_cons b []).2 (.inl ⟨h, rfl⟩), by simp, rfl, ?_⟩
        rw [if_pos h]; simp [subValue_cons]
      · rw [if_neg h]
        rcases ih (ret * 128 + b.toNat % 128) bs with ⟨pre, rest, h1, h2⟩ | ⟨g, rest, h1, h2, h3, h4⟩
        · left; exact ⟨b :: pre, rest, by rw [h1]; rfl, h2⟩
        · right
          refine ⟨b :: g, rest, (isGroup_cons b g).2 (.inr ⟨by omega, h1⟩), by simpa using h2, by rw [h3]; rfl, ?_⟩
          rw [h4, subValue_cons, List.length_cons, Nat.pow_succ]
          congr 3
          ring

/-- A group that `readBase128Int` accepts, and its value. -/
def ShortGroup (n : Nat) (g : Bytes) : Prop := IsGroup g ∧ subValue g = n ∧ g.length ≤ 4

theorem group_ne_nil {g : Bytes} (h : IsGroup g) : 0 < g.length := by
  cases g with
  | nil => exact absurd h not_isGroup_nil
  | cons _ _ => simp

theorem oidLoop_ok (cap : Nat) : ∀ (gs : List Bytes) (vs : List Nat) (fuel : Nat) (acc : List Nat),
    List.Forall₂ ShortGroup vs gs → gs.flatten.length ≤ fuel → acc.length + gs.length ≤ cap →
    oidLoop cap fuel acc (some gs.flatten) = .ok (some (acc ++ vs)) := by
  intro gs
  induction gs with
  | nil =>
    intro vs fuel acc h _ _
    cases h
    unfold oidLoop
    simp
  | cons g gs ih =>
    intro vs fuel acc h hf hc
    cases h with
    | cons hv ht =>
      rename_i v vs
      have hpos := group_ne_nil hv.1
      simp only [List.flatten_cons, List.length_append] at hf
      cases fuel with
      | zero => omega
      | succ fuel =>
        unfold oidLoop
        rw [if_neg (by simp; intro h; rw [h] at hpos; simp at hpos)]
        simp only [List.flatten_cons]
        have : readBase128Int (some (g ++ gs.flatten)) = .ok (some v, some gs.flatten) := by
          unfold readBase128Int
          rw [base128Loop_group g 4 0 _ hv.1 hv.2.2, hv.2.1]; simp
        simp only [this, Res.ok_bind]
        rw [List.length_cons] at hc
        rw [if_pos (by omega), ih vs fuel (acc ++ [v]) ht (by omega) (by simp; omega)]
        simp

theorem oidLoop_sound (cap : Nat) : ∀ (fuel : Nat) (acc : List Nat) (bs : Bytes),
    bs.length ≤ fuel → acc.length + bs.length ≤ cap →
    oidLoop cap fuel acc (some bs) = .ok none ∨
    ∃ gs vs, List.Forall₂ ShortGroup vs gs ∧ bs = gs.flatten ∧ oidLoop cap fuel acc (some bs) = .ok (some (acc ++ vs)) := by
  intro fuel
  induction fuel with
  | zero =>
    intro acc bs h _
    have : bs = [] := by cases bs <;> simp_all
    subst this
    right
    refine ⟨[], [], .nil, rfl, ?_⟩
    unfold oidLoop; simp
  | succ fuel ih =>
    intro acc bs h hc
    cases bs with
    | nil => right; refine ⟨[], [], .nil, rfl, ?_⟩; unfold oidLoop; simp
    | cons b bs =>
      unfold oidLoop
      rw [if_neg (by simp)]
      simp only
      rcases base128Loop_sound 4 0 (b :: bs) with ⟨pre, rest, h1, h2⟩ | ⟨g, rest, h1, h2, h3, h4⟩
      · left
        have : readBase128Int (some (b :: bs)) = .ok (none, some rest) := h2
        rw [this]; rfl
      · have : readBase128Int (some (b :: bs)) = .ok (some (subValue g), some rest) := by
          unfold readBase128Int; rw [h4]; simp
        rw [this]
        simp only [Res.ok_bind]
        have hpos := group_ne_nil h1
        have hlen := congrArg List.length h3
        simp only [List.length_append] at hlen
        rw [if_pos (by simp at hc hlen; omega)]
        rcases ih (acc ++ [subValue g]) rest (by simp at h hlen ⊢; omega) (by simp at hc hlen ⊢; omega) with h5 | ⟨gs, vs, h5, h6, h7⟩
        · left; exact h5
        · right
          refine ⟨g :: gs, subValue g :: vs, .cons ⟨h1, rfl, h2⟩ h5, by rw [h3, h6]; rfl, ?_⟩
          rw [h7]; simp

theorem firstComponents_valid (v : Nat) (tl : List Nat) : ValidOID (firstComponents v ++ tl) ∧ subids (firstComponents v ++ tl) = v :: tl := by
  unfold firstComponents
  split
  · refine ⟨⟨by omega, fun _ => Nat.mod_lt _ (by omega)⟩, ?_⟩
    simp [subids]; omega
  · refine ⟨⟨by omega, fun h => by omega⟩, ?_⟩
    simp [subids]; omega

theorem firstComponents_of_valid {a b : Nat} (tl : List Nat) (h : ValidOID (a :: b :: tl)) : firstComponents (40 * a + b) = [a, b] := by
  obtain ⟨h1, h2⟩ := h
  unfold firstComponents
  split
  · have : a ≤ 1 ∨ (a = 2) := by omega
    rcases this with h3 | rfl
    · have := h2 h3
      rw [show (40 * a + b) / 40 = a by omega, show (40 * a + b) % 40 = b by omega]
    · omega
  · have : a = 2 := by
      rcases Nat.lt_or_ge a 2 with h3 | h3
      · have := h2 (by omega); omega
      · omega
    subst this
    rw [show 40 * 2 + b - 80 = b by omega]

/-- The contents octets `ReadASN1ObjectIdentifier` accepts, and with what result. -/
def OIDContent (oid : List Nat) (c : Bytes) : Prop :=
  ValidOID oid ∧ ∃ gs, c = gs.flatten ∧ List.Forall₂ ShortGroup (subids oid) gs

theorem subids_valid {oid : List Nat} (h : ValidOID oid) : ∃ a b tl, oid = a :: b :: tl ∧ subids oid = (40 * a + b) :: tl := by
  match oid with
  | [] => exact absurd h id
  | [_] => exact absurd h id
  | a :: b :: tl => exact ⟨a, b, tl, rfl, rfl⟩

theorem readASN1ObjectIdentifier_elem {oid : List Nat} {c : Bytes} (rest : Bytes) (h : OIDContent oid c) (hl : (elem tagOBJECT_IDENTIFIER c).length < 2 ^ 32) :
    readASN1ObjectIdentifier (some (elem tagOBJECT_IDENTIFIER c ++ rest)) = .ok (some oid, some rest) := by
  obtain ⟨hv, gs, rfl, hg⟩ := h
  obtain ⟨a, b, tl, rfl, hs⟩ := subids_valid hv
  rw [hs] at hg
  cases hg with
  | cons h1 h2 =>
    rename_i g gs
    have hpos := group_ne_nil h1.1
    unfold readASN1ObjectIdentifier
    rw [readASN1Tag_elem rest lowTag_OID hl]
    simp only [Res.ok_bind]
    rw [if_neg (by simp; intro h; rw [h] at hpos; simp at hpos)]
    have : readBase128Int (some (g :: gs).flatten) = .ok (some (40 * a + b), some gs.flatten) := by
      unfold readBase128Int
      rw [List.flatten_cons, base128Loop_group g 4 0 _ h1.1 h1.2.2, h1.2.1]; simp
    simp only [this, Res.ok_bind]
    rw [if_neg (by simp; omega), firstComponents_of_valid tl hv]
    have hlen : gs.length ≤ gs.flatten.length := by
      clear this hpos hs hv hl h1
      generalize gs = G at *
      induction h2 with
      | nil => simp
      | cons h _ ih => have := group_ne_nil h.1; simp; simp at ih; omega
    rw [oidLoop_ok _ gs tl _ [a, b] h2 (by simp) (by simp at hlen ⊢; omega)]
    rfl

/-- Everything `ReadASN1ObjectIdentifier` can do. -/
theorem readASN1ObjectIdentifier_sound (s : Str) :
    (∃ pre s', (s' = s ∨ ∃ bs rest, s = some bs ∧ s' = some rest ∧ bs = pre ++ rest) ∧ readASN1ObjectIdentifier s = .ok (none, s')) ∨
    ∃ oid c rest, OIDContent oid c ∧ (elem tagOBJECT_IDENTIFIER c).length < 2 ^ 32 ∧ s = some (elem tagOBJECT_IDENTIFIER c ++ rest) ∧
      readASN1ObjectIdentifier s = .ok (some oid, some rest) := by
  unfold readASN1ObjectIdentifier
  rcases readASN1Tag_cases tagOBJECT_IDENTIFIER s with h | ⟨t, c, rest, h1, h2, h3, h4, h5⟩ | ⟨c, rest, h1, h2, h3, h4⟩
  · left; rw [h]; exact ⟨[], s, .inl rfl, rfl⟩
  · left; rw [h5]; exact ⟨elem t c, some rest, .inr ⟨_, _, h4, rfl, rfl⟩, rfl⟩
  · rw [h4]
    simp only [Res.ok_bind]
    have fail : ∀ r : Res (Option (List Nat) × Str), r = .ok (none, some rest) →
        ((∃ pre s', (s' = s ∨ ∃ bs rest, s = some bs ∧ s' = some rest ∧ bs = pre ++ rest) ∧ r = .ok (none, s')) ∨
        ∃ oid c rest, OIDContent oid c ∧ (elem tagOBJECT_IDENTIFIER c).length < 2 ^ 32 ∧ s = some (elem tagOBJECT_IDENTIFIER c ++ rest) ∧
        r = .ok (some oid, some rest)) := by
      intro r hr
      left; exact ⟨elem tagOBJECT_IDENTIFIER c, some rest, .inr ⟨_, _, h3, rfl, rfl⟩, hr⟩
    by_cases hc : Str.len (some c) = 0
    · rw [if_pos hc]; exact fail _ rfl
    · rw [if_neg hc]
      rcases base128Loop_sound 4 0 c with ⟨pre, r2, h5, h6⟩ | ⟨g, r2, h5, h6, h7, h8⟩
      · have : readBase128Int (some c) = .ok (none, some r2) := h6
        rw [this]
        exact fail _ rfl
      · have : readBase128Int (some c) = .ok (some (subValue g), some r2) := by
          unfold readBase128Int; rw [h8]; simp
        rw [this]
        simp only [Res.ok_bind]
        rw [len_some] at hc ⊢
        rw [if_neg (by omega)]
        have hpos := group_ne_nil h5
        have hlen := congrArg List.length h7
        simp only [List.length_append] at hlen
        have hfc : (firstComponents (subValue g)).length = 2 := by unfold firstComponents; split <;> rfl
        rcases oidLoop_sound (c.length + 1) r2.length (firstComponents (subValue g)) r2 (Nat.le_refl _) (by omega) with h9 | ⟨gs, vs, h9, h10, h11⟩
        · simp only [len_some, h9, Res.ok_bind]
          exact fail _ rfl
        · right
          have hfv := firstComponents_valid (subValue g) vs
          refine ⟨firstComponents (subValue g) ++ vs, c, rest, ⟨hfv.1, g :: gs, by rw [h7, h10]; rfl, ?_⟩, h2, h3, ?_⟩
          · rw [hfv.2]; exact .cons ⟨h5, rfl, h6⟩ h9
          · simp only [len_some, h11, Res.ok_bind]

/-! The writer. -/

theorem base128Len_spec : ∀ (fuel : Nat) (i len : Nat), i < 128 ^ fuel →
    ∃ k, k ≤ fuel ∧ base128Len fuel i len = len + k ∧ i < 128 ^ k ∧ (k = 0 ∨ 128 ^ (k - 1) ≤ i) := by
  intro fuel
  induction fuel with
  | zero => intro i len h; exact ⟨0, Nat.le_refl _, rfl, h, .inl rfl⟩
  | succ fuel ih =>
    intro i len h
    simp only [base128Len]
    by_cases hc : (i : Int) > 0
    · rw [if_pos hc]
      have e : ((i : Int) >>> 7) = ((i / 128 : Nat) : Int) := by
        rw [Int.shiftRight_eq_div_pow]; push_cast; rfl
      rw [e]
      have h' : i / 128 < 128 ^ fuel := by rw [Nat.pow_succ] at h; omega
      obtain ⟨k, h1, h2, h3, h4⟩ := ih (i / 128) (len + 1) h'
      refine ⟨k + 1, by omega, by rw [h2]; omega, by rw [Nat.pow_succ]; omega, .inr ?_⟩
      rw [Nat.add_sub_cancel]
      rcases Nat.eq_zero_or_pos k with rfl | hk
      · simp at *; omega
      · rcases h4 with rfl | h4
        · omega
        · have : 128 ^ k = 128 ^ (k - 1) * 128 := by rw [← Nat.pow_succ]; congr 1; omega
          omega
    · rw [if_neg hc]
      exact ⟨0, Nat.zero_le _, rfl, by simp; omega, .inl rfl⟩

theorem or80 (o : Byte) (h : o.toNat < 128) : (o ||| 0x80).toNat = 128 + o.toNat := by
  revert o; decide +kernel

theorem sshiftRight_septet (n : BitVec 64) (i : Nat) (hn : n.toNat < 2 ^ 63) :
    ((n.sshiftRight (i * 7)).setWidth 8 &&& (0x7f : Byte)).toNat = n.toNat / 128 ^ i % 128 := by
  have hmsb : n.msb = false := by
    rw [BitVec.msb_eq_decide]; simp; omega
  rw [BitVec.sshiftRight_eq_of_msb_false hmsb, and_7f, BitVec.toNat_setWidth, BitVec.toNat_ushiftRight, Nat.shiftRight_eq_div_pow]
  rw [show (128 : Nat) ^ i = 2 ^ (i * 7) by rw [Nat.mul_comm, Nat.pow_mul]]
  omega

theorem base128Bytes_spec (n : BitVec 64) (hn : n.toNat < 2 ^ 63) : ∀ L : Nat,
    (base128Bytes n L).length = L ∧ subValue (base128Bytes n L) = n.toNat % 128 ^ L ∧ (0 < L → IsGroup (base128Bytes n L)) := by
  intro L
  induction L with
  | zero => exact ⟨rfl, by simp [base128Bytes, Nat.mod_one], by omega⟩
  | succ i ih =>
    obtain ⟨h1, h2, h3⟩ := ih
    have ho := sshiftRight_septet n i hn
    have holt : ((n.sshiftRight (i * 7)).setWidth 8 &&& (0x7f : Byte)).toNat < 128 := by
      rw [ho]; exact Nat.mod_lt _ (by omega)
    simp only [base128Bytes]
    have hb : (if i ≠ 0 then (n.sshiftRight (i * 7)).setWidth 8 &&& (0x7f : Byte) ||| 0x80 else (n.sshiftRight (i * 7)).setWidth 8 &&& (0x7f : Byte)).toNat
        = (if i ≠ 0 then 128 else 0) + n.toNat / 128 ^ i % 128 := by
      split
      · rw [or80 _ holt, ho]
      · rw [ho]; omega
    refine ⟨by simp [h1], ?_, ?_⟩
    · rw [subValue_cons, hb, h1, h2, Nat.pow_succ, Nat.mod_mul]
      have : ((if i ≠ 0 then 128 else 0) + n.toNat / 128 ^ i % 128) % 128 = n.toNat / 128 ^ i % 128 := by
        split <;> omega
      rw [this]
      ring
    · intro _
      rw [isGroup_cons]
      rcases Nat.eq_zero_or_pos i with rfl | hi
      · left
        refine ⟨?_, rfl⟩
        rw [hb]; simp; exact Nat.mod_lt _ (by omega)
      · right
        exact ⟨by rw [hb, if_pos (by omega)]; omega, h3 hi⟩

/-- `addBase128Int` writes the minimal subidentifier of a non-negative number. -/
theorem addBase128Int_spec (n : BitVec 64) (hn : n.toNat < 2 ^ 63) : IsSubid n.toNat (addBase128Int n) := by
  unfold addBase128Int
  by_cases h0 : n = 0
  · subst h0
    rw [if_pos rfl]
    refine ⟨⟨[], 0, by decide, by simp, by decide⟩, by decide, by decide⟩
  · rw [if_neg h0]
    have hpos : n.toNat ≠ 0 := by
      intro h; exact h0 (BitVec.eq_of_toNat_eq (by simpa using h))
    rw [toInt_of_lt (by omega) hn]
    obtain ⟨k, h1, h2, h3, h4⟩ := base128Len_spec 10 n.toNat 0 (by omega)
    rw [h2, Nat.zero_add]
    obtain ⟨b1, b2, b3⟩ := base128Bytes_spec n hn k
    have hk : k ≠ 0 := by rintro rfl; simp at h3; exact hpos h3
    refine ⟨b3 (by omega), ?_, by rw [b2, Nat.mod_eq_of_lt h3]⟩
    obtain ⟨i, rfl⟩ := Nat.exists_eq_succ_of_ne_zero hk
    rcases h4 with h4 | h4
    · exact absurd h4 hk
    · intro hh
      simp only [Nat.succ_eq_add_one] at *
      have hsv := b2
      cases hbs : base128Bytes n (i + 1) with
      | nil => rw [hbs] at hh; simp at hh
      | cons b bs =>
        rw [hbs] at hh b1 hsv
        simp at hh
        subst hh
        rw [subValue_cons, Nat.mod_eq_of_lt h3] at hsv
        have := subValue_lt bs
        simp at b1
        rw [b1] at this
        simp at hsv h4
        omega

theorem isSubid_length {n k : Nat} {g : Bytes} (h : IsSubid n g) (hn : n < 128 ^ k) (hk : 0 < k) : g.length ≤ k := by
  obtain ⟨h1, h2, h3⟩ := h
  cases g with
  | nil => simp
  | cons b bs =>
    by_contra hl
    simp at hl
    rw [isGroup_cons] at h1
    rcases h1 with ⟨_, rfl⟩ | ⟨h1, _⟩
    · simp at hl; omega
    · have hb : 0 < b.toNat % 128 := by
        rcases Nat.eq_zero_or_pos (b.toNat % 128) with h | h
        · have hlt := b.isLt
          have : b.toNat = 128 := by omega
          exfalso; apply h2
          simp
          exact BitVec.eq_of_toNat_eq (by simpa using this)
        · exact h
      rw [subValue_cons] at h3
      have : 1 * 128 ^ bs.length ≤ b.toNat % 128 * 128 ^ bs.length := Nat.mul_le_mul_right _ hb
      have : 128 ^ k ≤ 128 ^ bs.length := Nat.pow_le_pow_right (by omega) (by omega)
      omega

/-- Minimal subidentifiers are unique. -/
theorem subValue_inj : ∀ {g g' : Bytes}, IsGroup g → IsGroup g' → g.length = g'.length → subValue g = subValue g' → g = g' := by
  intro g
  induction g with
  | nil => intro g' h; exact absurd h not_isGroup_nil
  | cons b bs ih =>
    intro g' h h' hl hv
    cases g' with
    | nil => exact absurd h' not_isGroup_nil
    | cons b' bs' =>
      simp at hl
      rw [subValue_cons, subValue_cons, ← hl] at hv
      have l1 := subValue_lt bs
      have l2 := subValue_lt bs'
      rw [← hl] at l2
      have e : b.toNat % 128 = b'.toNat % 128 ∧ subValue bs = subValue bs' := by
        have hp : 0 < 128 ^ bs.length := Nat.pow_pos (by omega)
        have e1 : (b.toNat % 128 * 128 ^ bs.length + subValue bs) / 128 ^ bs.length = b.toNat % 128 := by
          rw [Nat.mul_comm, Nat.mul_add_div hp, Nat.div_eq_of_lt l1]; simp
        have e2 : (b'.toNat % 128 * 128 ^ bs.length + subValue bs') / 128 ^ bs.length = b'.toNat % 128 := by
          rw [Nat.mul_comm, Nat.mul_add_div hp, Nat.div_eq_of_lt l2]; simp
        have : b.toNat % 128 = b'.toNat % 128 := by rw [← e1, hv, e2]
        rw [this] at hv
        exact ⟨this, by omega⟩
      have hb := b.isLt
      have hb' := b'.isLt
      rw [isGroup_cons] at h h'
      rcases h with ⟨h1, rfl⟩ | ⟨h1, h2⟩ <;> rcases h' with ⟨h1', rfl⟩ | ⟨h1', h2'⟩
      · rw [BitVec.eq_of_toNat_eq (show b.toNat = b'.toNat by omega)]
      · have := group_ne_nil h2'; simp at hl; simp [← hl] at this
      · have := group_ne_nil h2; simp at hl; simp [hl] at this
      · rw [BitVec.eq_of_toNat_eq (show b.toNat = b'.toNat by omega), ih h2 h2' hl e.2]

theorem isSubid_lower {n : Nat} {g : Bytes} (h : IsSubid n g) : g.length = 1 ∨ 128 ^ (g.length - 1) ≤ n := by
  rcases Nat.lt_or_ge 1 g.length with h1 | h1
  · right
    by_contra hn
    have := isSubid_length h (Nat.lt_of_not_le hn) (by omega)
    omega
  · left; have := group_ne_nil h.1; omega

theorem isSubid_unique {n : Nat} {g g' : Bytes} (h : IsSubid n g) (h' : IsSubid n g') : g = g' := by
  apply subValue_inj h.1 h'.1 _ (by rw [h.2.2, h'.2.2])
  have key : ∀ {g g' : Bytes}, IsSubid n g → IsSubid n g' → g.length ≤ g'.length := by
    intro g g' h h'
    have := subValue_lt g'
    rw [h'.2.2] at this
    exact isSubid_length h this (group_ne_nil h'.1)
  exact Nat.le_antisymm (key h h') (key h' h)

/-- The contents of an OID are unique. -/
theorem isOID_unique {oid : List Nat} {c c' : Bytes} (h : IsOID oid c) (h' : IsOID oid c') : c = c' := by
  obtain ⟨_, gs, rfl, hg⟩ := h
  obtain ⟨_, gs', rfl, hg'⟩ := h'
  have : ∀ {vs : List Nat} {gs gs' : List Bytes}, List.Forall₂ IsSubid vs gs → List.Forall₂ IsSubid vs gs' → gs = gs' := by
    intro vs gs gs' h
    induction h generalizing gs' with
    | nil => intro h'; cases h'; rfl
    | cons h1 _ ih => intro h'; cases h' with | cons h1' h2' => rw [isSubid_unique h1 h1', ih h2']
  rw [this hg hg']

/-- Go's `isValidOID` on components that are all non-negative ints. -/
theorem isValidOID_iff (oid : List (BitVec 64)) :
    isValidOID oid = true ↔ ValidOID (oid.map BitVec.toNat) ∧ ∀ v ∈ oid, v.toNat < 2 ^ 63 := by
  match oid with
  | [] => simp [isValidOID, ValidOID]
  | [_] => simp [isValidOID, ValidOID]
  | o0 :: o1 :: tl =>
    have nn : ∀ v : BitVec 64, (¬ v.toInt < 0) ↔ v.toNat < 2 ^ 63 := by
      intro v
      rw [BitVec.toInt_eq_toNat_cond]
      have := v.isLt
      split <;> omega
    constructor
    · intro h
      simp only [isValidOID] at h
      split at h
      · simp at h
      · rename_i hc
        simp only [List.all_eq_true, Bool.not_eq_true', decide_eq_false_iff_not] at h
        have hall : ∀ v ∈ o0 :: o1 :: tl, v.toNat < 2 ^ 63 := fun v hv => (nn v).1 (h v hv)
        refine ⟨?_, hall⟩
        have e0 := toInt_of_lt (w := 64) (by omega) (hall o0 (by simp))
        have e1 := toInt_of_lt (w := 64) (by omega) (hall o1 (by simp))
        rw [e0, e1] at hc
        simp only [List.map_cons]
        exact ⟨by omega, fun _ => by omega⟩
    · rintro ⟨⟨h1, h2⟩, h3⟩
      have e0 := toInt_of_lt (w := 64) (by omega) (h3 o0 (by simp))
      have e1 := toInt_of_lt (w := 64) (by omega) (h3 o1 (by simp))
      simp only [isValidOID]
      rw [if_neg (by rw [e0, e1]; omega)]
      simp only [List.all_eq_true, Bool.not_eq_true', decide_eq_false_iff_not]
      intro v hv; exact (nn v).2 (h3 v hv)

/-- The contents written by `AddASN1ObjectIdentifier` when the sum of the first two components does not
overflow. -/
theorem eval_oidBody {oid : List (BitVec 64)} (hv : isValidOID oid = true)
    (ho : ∀ o1, oid[1]? = some o1 → o1.toNat < 2 ^ 63 - 80) (anc : List Bool) :
    ∃ c, eval (oidBody oid) false anc = .done (some c) anc ∧ IsOID (oid.map BitVec.toNat) c := by
  have hiff := (isValidOID_iff oid).1 hv
  match oid with
  | [] => simp [isValidOID] at hv
  | [_] => simp [isValidOID] at hv
  | o0 :: o1 :: tl =>
    unfold oidBody
    rw [if_neg (by simp [hv])]
    simp only
    refine ⟨_, eval_addEach _ _, hiff.1, (addBase128Int (o0 * 40 + o1)) :: tl.map addBase128Int, ?_, ?_⟩
    · simp [List.flatMap]
    · obtain ⟨h1, h2⟩ := hiff.1
      have ho1 := ho o1 (by simp)
      have hsum : (o0 * 40 + o1).toNat = 40 * o0.toNat + o1.toNat := by
        rw [BitVec.toNat_add, BitVec.toNat_mul]
        simp
        omega
      simp only [List.map_cons, subids]
      refine .cons ?_ ?_
      · rw [← hsum]
        exact addBase128Int_spec _ (by rw [hsum]; omega)
      · have : ∀ v ∈ tl, v.toNat < 2 ^ 63 := fun v hv => hiff.2 v (by simp [hv])
        clear hiff h1 h2 ho ho1 hsum hv
        induction tl with
        | nil => exact .nil
        | cons v tl ih =>
          exact .cons (addBase128Int_spec v (this v (by simp))) (ih fun w hw => this w (by simp [hw]))

theorem eval_oidBody_invalid {oid : List (BitVec 64)} (hv : isValidOID oid = false) (anc : List Bool) :
    eval (oidBody oid) false anc = .done none anc := by
  unfold oidBody
  rw [if_pos (by simp [hv])]
  rfl

end Verif.CB
