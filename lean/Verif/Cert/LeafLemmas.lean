import Verif.Cert.Leaf
import Verif.Cert.NameSpec
import Mathlib.Tactic.ByContra
/-!
# Lemmas about the string and bit helpers
-/
namespace Verif.Cert
open Verif Verif.Spec.Names

/-! ## Splitting at periods -/

theorem lastIndexByte_none {c : Byte} {s : Bytes} (h : c ∉ s) : lastIndexByte c s = none := by
  induction s with
  | nil => rfl
  | cons b s ih =>
    rw [List.mem_cons, not_or] at h
    rw [lastIndexByte, ih h.2]
    exact if_neg fun e => h.1 e.symm

theorem lastIndexByte_some {c : Byte} (a : Bytes) {b : Bytes} (h : c ∉ b) : lastIndexByte c (a ++ c :: b) = some a.length := by
  induction a with
  | nil => simp [lastIndexByte, lastIndexByte_none h]
  | cons x a ih => simp [lastIndexByte, ih]

theorem last_split {c : Byte} {s : Bytes} (h : c ∈ s) : ∃ a b, s = a ++ c :: b ∧ c ∉ b := by
  induction s with
  | nil => simp at h
  | cons x s ih =>
    by_cases h' : c ∈ s
    · obtain ⟨a, b, rfl, hb⟩ := ih h'
      exact ⟨x :: a, b, rfl, hb⟩
    · rw [List.mem_cons] at h
      rcases h with rfl | h
      · exact ⟨[], s, rfl, h'⟩
      · exact absurd h h'

theorem splitLabels_nil (k : Nat) : splitLabels k [] = [] := by cases k <;> simp [splitLabels]

theorem splitLabels_one {k : Nat} {s : Bytes} (hs : s ≠ []) (h : dot ∉ s) : splitLabels (k + 1) s = [s] := by
  rw [splitLabels, if_neg hs, lastIndexByte_none h]

theorem splitLabels_dot {k : Nat} (a : Bytes) {b : Bytes} (h : dot ∉ b) :
    splitLabels (k + 1) (a ++ dot :: b) = b :: splitLabels k a := by
  rw [splitLabels, if_neg (by simp), lastIndexByte_some a h]
  have e : a ++ dot :: b = (a ++ [dot]) ++ b := by simp
  have e1 : (a ++ dot :: b).drop (a.length + 1) = b := by
    rw [e, List.drop_left' (by simp)]
  show (a ++ dot :: b).drop (a.length + 1) :: _ = _
  rw [e1]
  simp

theorem dotJoin_snoc {xs : List Bytes} (b : Bytes) (h : xs ≠ []) : dotJoin (xs ++ [b]) = dotJoin xs ++ dot :: b := by
  induction xs with
  | nil => exact absurd rfl h
  | cons x xs ih =>
    match xs with
    | [] => rfl
    | y :: ys =>
      have := ih (by simp)
      have e1 : ∀ z zs, dotJoin (x :: z :: zs) = x ++ dot :: dotJoin (z :: zs) := fun _ _ => rfl
      simp only [List.cons_append] at this ⊢
      rw [e1, e1, this]
      simp

/-- What the splitting loop has done: the pieces contain no period, and joining them in the opposite order gives the
input without its first byte if that is a period, or the input. -/
theorem splitLabels_join (k : Nat) : ∀ s : Bytes, s.length ≤ k →
    (∀ l ∈ splitLabels k s, dot ∉ l) ∧
    (s = dotJoin (splitLabels k s).reverse ∨ (splitLabels k s ≠ [] ∧ s = dot :: dotJoin (splitLabels k s).reverse)) := by
  induction k with
  | zero =>
    intro s hs
    have : s = [] := List.length_eq_zero_iff.1 (by omega)
    subst this
    exact ⟨by simp [splitLabels], .inl rfl⟩
  | succ k ih =>
    intro s hs
    by_cases hn : s = []
    · subst hn; rw [splitLabels_nil]; exact ⟨by simp, .inl rfl⟩
    by_cases hd : dot ∈ s
    · obtain ⟨a, b, rfl, hb⟩ := last_split hd
      rw [splitLabels_dot a hb]
      obtain ⟨h1, h2⟩ := ih a (by simp at hs; omega)
      refine ⟨?_, ?_⟩
      · rw [List.forall_mem_cons]; exact ⟨hb, h1⟩
      · by_cases ha : a = []
        · subst ha; right; rw [splitLabels_nil]; exact ⟨by simp, rfl⟩
        · have hne : splitLabels k a ≠ [] := by
            rcases h2 with h2 | h2
            · intro e; rw [e] at h2; exact ha h2
            · exact h2.1
          rw [List.reverse_cons, dotJoin_snoc b (by simpa using hne)]
          rcases h2 with h2 | ⟨_, h2⟩
          · left; rw [← h2]
          · right; refine ⟨by simp, ?_⟩; rw [← List.cons_append, ← h2]
    · rw [splitLabels_one hn hd]
      exact ⟨by simpa using hd, .inl rfl⟩

theorem label_dot {l : Bytes} (h : Label l) : dot ∉ l := fun hm => (h.2 _ hm).2.2 rfl

/-- The loop finds the labels again. -/
theorem splitLabels_dotJoin (ls : List Bytes) (h : ∀ l ∈ ls, Label l) : ∀ k,
    (dotJoin ls.reverse).length ≤ k → splitLabels k (dotJoin ls.reverse) = ls := by
  induction ls with
  | nil => intro k _; exact splitLabels_nil k
  | cons b ls ih =>
    intro k hk
    have hb := h b (by simp)
    by_cases hne : ls = []
    · subst hne
      have : dotJoin [b].reverse = b := rfl
      rw [this] at hk ⊢
      obtain ⟨k, rfl⟩ : ∃ j, k = j + 1 := ⟨k - 1, by have := List.length_pos_iff.2 hb.1; omega⟩
      exact splitLabels_one hb.1 (label_dot hb)
    · rw [List.reverse_cons, dotJoin_snoc b (by simpa using hne)] at hk ⊢
      obtain ⟨k, rfl⟩ : ∃ j, k = j + 1 := ⟨k - 1, by simp at hk; omega⟩
      rw [splitLabels_dot _ (label_dot hb), ih (fun l hl => h l (by simp [hl])) k (by simp at hk; omega)]

theorem splitLabels_dot_dotJoin (ls : List Bytes) (h : ∀ l ∈ ls, Label l) (hls : ls ≠ []) : ∀ k,
    (dotJoin ls.reverse).length < k → splitLabels k (dot :: dotJoin ls.reverse) = ls := by
  induction ls with
  | nil => exact absurd rfl hls
  | cons b ls ih =>
    intro k hk
    have hb := h b (by simp)
    obtain ⟨k, rfl⟩ : ∃ j, k = j + 1 := ⟨k - 1, by omega⟩
    by_cases hne : ls = []
    · subst hne
      have : dotJoin [b].reverse = b := rfl
      rw [this]
      rw [show dot :: b = [] ++ dot :: b from rfl, splitLabels_dot [] (label_dot hb), splitLabels_nil]
    · rw [List.reverse_cons, dotJoin_snoc b (by simpa using hne)] at hk ⊢
      rw [← List.cons_append, splitLabels_dot _ (label_dot hb),
        ih (fun l hl => h l (by simp [hl])) hne k (by simp at hk; omega)]

/-- `domainToReverseLabels` succeeds exactly on pieces that are labels. -/
theorem domainToReverseLabels_eq_some (s : Bytes) (ls : List Bytes) :
    domainToReverseLabels s = some ls ↔ splitLabels s.length s = ls ∧ ∀ l ∈ ls, Label l := by
  have hl := (splitLabels_join s.length s (Nat.le_refl _)).1
  unfold domainToReverseLabels
  dsimp only
  generalize splitLabels s.length s = xs at *
  have hrange : ∀ l : Bytes, (∀ c ∈ Utf8.runes l, ¬(c < 33 ∨ c > 126)) ↔ ∀ b ∈ l, 33 ≤ b.toNat ∧ b.toNat ≤ 126 := by
    intro l
    rw [Utf8.runes_all_iff (fun c => ¬(c < 33 ∨ c > 126)) (fun n hn => by omega)]
    exact forall_congr' fun b => imp_congr_right fun _ => by omega
  have hbad : (xs.any fun label => label == [] || (Utf8.runes label).any fun c => c < 33 || c > 126) = true ↔
      ¬ ∀ l ∈ xs, Label l := by
    rw [List.any_eq_true]
    constructor
    · rintro ⟨l, hm, he⟩ hall
      have hL := hall l hm
      simp only [Bool.or_eq_true, beq_iff_eq, List.any_eq_true, decide_eq_true_eq] at he
      rcases he with rfl | ⟨c, hc, hc'⟩
      · exact hL.1 rfl
      · exact (hrange l).2 (fun b hb => ⟨(hL.2 b hb).1, (hL.2 b hb).2.1⟩) c hc hc'
    · intro hall
      rw [not_forall] at hall
      obtain ⟨l, hl'⟩ := hall
      rw [Classical.not_imp] at hl'
      refine ⟨l, hl'.1, ?_⟩
      simp only [Bool.or_eq_true, beq_iff_eq, List.any_eq_true, decide_eq_true_eq]
      by_cases h0 : l = []
      · exact .inl h0
      · right
        by_contra hc
        refine hl'.2 ⟨h0, fun b hb => ?_⟩
        have := (hrange l).1 (fun c hc' hc'' => hc ⟨c, hc', hc''⟩) b hb
        exact ⟨this.1, this.2, fun e => hl l hl'.1 (e ▸ hb)⟩
  split
  · rename_i h0
    constructor
    · intro h; simp at h
    · rintro ⟨rfl, h⟩
      cases xs with
      | nil => simp at h0
      | cons x xs => simp at h0; subst h0; exact absurd rfl (h [] (by simp)).1
  · split
    · rename_i h1
      constructor
      · intro h; simp at h
      · rintro ⟨rfl, h⟩; exact absurd h (hbad.1 h1)
    · rename_i h1
      rw [hbad, not_not] at h1
      constructor
      · rintro h; simp only [Option.some.injEq] at h; subst h; exact ⟨rfl, h1⟩
      · rintro ⟨rfl, _⟩; rfl

theorem isIA5String_iff (s : Bytes) : isIA5String s = true ↔ ∀ b ∈ s, b.toNat < 0x80 := by
  unfold isIA5String
  rw [List.all_eq_true, ← Utf8.runes_all_iff (fun n => n < 0x80) (fun _ h => h)]
  simp

/-! ## Masks -/

/-- Ones, then zeros, as a test. -/
def contig (l : List Bool) : Bool := (l.dropWhile id).all (!·)

theorem contig_iff (l : List Bool) : contig l = true ↔ ∃ a b, l = List.replicate a true ++ List.replicate b false := by
  have hz : ∀ l : List Bool, l.all (!·) = true ↔ ∃ b, l = List.replicate b false := by
    intro l
    constructor
    · intro h; exact ⟨l.length, List.eq_replicate_iff.2 ⟨rfl, fun b hb => by simpa using List.all_eq_true.1 h b hb⟩⟩
    · rintro ⟨b, rfl⟩; simp
  induction l with
  | nil => exact ⟨fun _ => ⟨0, 0, rfl⟩, fun _ => rfl⟩
  | cons x l ih =>
    cases x with
    | true =>
      have : contig (true :: l) = contig l := rfl
      rw [this]
      refine ih.trans ?_
      constructor
      · rintro ⟨a, b, rfl⟩; exact ⟨a + 1, b, rfl⟩
      · rintro ⟨a, b, h⟩
        cases a with
        | zero => cases b with
          | zero => simp at h
          | succ b => simp [List.replicate_succ] at h
        | succ a => exact ⟨a, b, by simpa [List.replicate_succ] using h⟩
    | false =>
      have : contig (false :: l) = (false :: l).all (!·) := rfl
      rw [this, hz]
      constructor
      · rintro ⟨b, h⟩; exact ⟨0, b, by simpa using h⟩
      · rintro ⟨a, b, h⟩
        cases a with
        | zero => exact ⟨b, by simpa using h⟩
        | succ a => simp [List.replicate_succ] at h

theorem contig_append (xs ys : List Bool) :
    contig (xs ++ ys) = if xs.all id then contig ys else (contig xs && ys.all (!·)) := by
  induction xs with
  | nil => rfl
  | cons x xs ih =>
    cases x with
    | true => exact ih
    | false =>
      show ((false :: xs) ++ ys).all (!·) = _
      rw [List.all_append]
      rfl

theorem byte_ones (b : Byte) : (bitsOf b).all id = decide (b = 0xff) := by revert b; decide +kernel
theorem byte_zeros (b : Byte) : (bitsOf b).all (!·) = decide (b = 0) := by revert b; decide +kernel
theorem byte_contig (b : Byte) :
    contig (bitsOf b) = (decide (b ∈ ([0x00, 0x80, 0xc0, 0xe0, 0xf0, 0xf8, 0xfc, 0xfe] : List Byte)) || decide (b = 0xff)) := by
  revert b; decide +kernel

theorem isValidIPMaskLoop_true (m : Bytes) : isValidIPMaskLoop true m = (bits m).all (!·) := by
  induction m with
  | nil => rfl
  | cons b m ih =>
    rw [isValidIPMaskLoop, ih]
    show _ = (bitsOf b ++ bits m).all (!·)
    rw [List.all_append, byte_zeros]
    by_cases h : b = 0 <;> simp [h]

theorem isValidIPMaskLoop_false (m : Bytes) : isValidIPMaskLoop false m = contig (bits m) := by
  induction m with
  | nil => rfl
  | cons b m ih =>
    rw [isValidIPMaskLoop, ih, isValidIPMaskLoop_true]
    show _ = contig (bitsOf b ++ bits m)
    rw [contig_append, byte_ones, byte_contig]
    by_cases h : b = 0xff
    · subst h; rw [if_neg (by decide)]; simp
    · by_cases h' : b ∈ ([0x00, 0x80, 0xc0, 0xe0, 0xf0, 0xf8, 0xfc, 0xfe] : List Byte)
      · rw [if_pos h', decide_eq_true h', decide_eq_false h]; simp
      · rw [if_neg h', if_neg h, decide_eq_false h', decide_eq_false h]; simp

/-! ## Mailboxes -/

theorem byteAt_zero (b : Byte) (bs : Bytes) : byteAt (b :: bs) 0 = .ok b := rfl

theorem atextOk_iff (c : Byte) : atextOk c = true ↔ Atext c ∨ c = dot := by
  unfold Atext; revert c; decide +kernel
theorem qtextOk_iff (c : Byte) : qtextOk c = true ↔ Qtext c := by
  unfold Qtext Text; revert c; decide +kernel
theorem quotedPairOk_iff (c : Byte) : quotedPairOk c = true ↔ Text c := by
  unfold Text; revert c; decide +kernel

theorem quotedLoop_of {src v : Bytes} (h : Quoted src v) : ∀ (k : Nat) (lp rest : Bytes), src.length + 1 + rest.length < k →
    quotedLoop k (src ++ 0x22 :: rest) lp = .ok (some (lp ++ v, rest)) := by
  induction h with
  | nil =>
    intro k lp rest hk
    obtain ⟨k, rfl⟩ : ∃ j, k = j + 1 := ⟨k - 1, by omega⟩
    simp [quotedLoop, byteAt]
  | @char c src v hc _ ih =>
    intro k lp rest hk
    obtain ⟨k, rfl⟩ : ∃ j, k = j + 1 := ⟨k - 1, by omega⟩
    have h1 : c ≠ 0x22 := fun e => hc.2.2.1 (by rw [e]; rfl)
    have h2 : c ≠ 0x5c := fun e => hc.2.2.2 (by rw [e]; rfl)
    rw [List.cons_append, quotedLoop, if_neg (by simp), byteAt_zero]
    simp only [Res.ok_bind, List.drop_succ_cons, List.drop_zero]
    rw [if_neg h1, if_neg h2, if_pos ((qtextOk_iff c).2 hc), ih k _ rest (by simp at hk; omega)]
    simp
  | @pair c src v hc _ ih =>
    intro k lp rest hk
    obtain ⟨k, rfl⟩ : ∃ j, k = j + 1 := ⟨k - 1, by omega⟩
    rw [List.cons_append, quotedLoop, if_neg (by simp), byteAt_zero]
    simp only [Res.ok_bind, List.drop_succ_cons, List.drop_zero, List.cons_append]
    rw [if_neg (by decide), if_pos trivial, if_neg (by simp), byteAt_zero]
    simp only [Res.ok_bind]
    rw [if_pos ((quotedPairOk_iff c).2 hc), ih k _ rest (by simp at hk; omega)]
    simp

theorem quotedLoop_cases (k : Nat) : ∀ (inp lp : Bytes), inp.length < k →
    quotedLoop k inp lp = .ok none ∨
    ∃ src v rest, inp = src ++ 0x22 :: rest ∧ Quoted src v ∧ quotedLoop k inp lp = .ok (some (lp ++ v, rest)) := by
  induction k with
  | zero => intro _ _ h; omega
  | succ k ih =>
    intro inp lp hk
    match inp with
    | [] => left; simp [quotedLoop]
    | c :: inp =>
      rw [quotedLoop, if_neg (by simp), byteAt_zero]
      simp only [Res.ok_bind, List.drop_succ_cons, List.drop_zero]
      by_cases h1 : c = 0x22
      · right; exact ⟨[], [], inp, by rw [h1]; rfl, .nil, by rw [if_pos h1]; simp⟩
      rw [if_neg h1]
      by_cases h2 : c = 0x5c
      · rw [if_pos h2]
        match inp with
        | [] => left; rfl
        | d :: inp =>
          rw [if_neg (by simp), byteAt_zero]
          simp only [Res.ok_bind, List.drop_succ_cons, List.drop_zero]
          by_cases h3 : quotedPairOk d = true
          · rw [if_pos h3]
            rcases ih inp (lp ++ [d]) (by simp at hk; omega) with h | ⟨src, v, rest, rfl, hq, h⟩
            · exact .inl h
            · right
              exact ⟨0x5c :: d :: src, d :: v, rest, by rw [h2]; rfl, .pair ((quotedPairOk_iff d).1 h3) hq, by rw [h]; simp⟩
          · rw [if_neg h3]; exact .inl rfl
      · rw [if_neg h2]
        by_cases h3 : qtextOk c = true
        · rw [if_pos h3]
          rcases ih inp (lp ++ [c]) (by simp at hk; omega) with h | ⟨src, v, rest, rfl, hq, h⟩
          · exact .inl h
          · right
            exact ⟨c :: src, c :: v, rest, rfl, .char ((qtextOk_iff c).1 h3) hq, by rw [h]; simp⟩
        · rw [if_neg h3]; exact .inl rfl

/-- The byte after the atoms. -/
def Stops (rest : Bytes) : Prop := ∀ c, rest.head? = some c → c ≠ 0x5c ∧ ¬(Atext c ∨ c = dot)

theorem atomLoop_of {src v : Bytes} (h : Atoms src v) : ∀ (k : Nat) (lp rest : Bytes), Stops rest → src.length + rest.length < k →
    atomLoop k (src ++ rest) lp = .ok (some (lp ++ v, rest)) := by
  induction h with
  | nil =>
    intro k lp rest hs hk
    obtain ⟨k, rfl⟩ : ∃ j, k = j + 1 := ⟨k - 1, by omega⟩
    match rest, hs with
    | [], _ => simp [atomLoop]
    | c :: rest, hs =>
      obtain ⟨h1, h2⟩ := hs c rfl
      rw [List.nil_append, atomLoop, if_pos (by simp), byteAt_zero]
      simp only [Res.ok_bind]
      rw [if_neg h1, if_neg (fun h => h2 ((atextOk_iff c).1 h))]
      simp
  | @char c src v hc _ ih =>
    intro k lp rest hs hk
    obtain ⟨k, rfl⟩ : ∃ j, k = j + 1 := ⟨k - 1, by omega⟩
    have h2 : c ≠ 0x5c := by
      rintro rfl
      exact absurd ((atextOk_iff _).2 hc) (by decide)
    rw [List.cons_append, atomLoop, if_pos (by simp), byteAt_zero]
    simp only [Res.ok_bind, List.drop_succ_cons, List.drop_zero]
    rw [if_neg h2, if_pos ((atextOk_iff c).2 hc), ih k _ rest hs (by simp at hk; omega)]
    simp
  | @pair c src v _ ih =>
    intro k lp rest hs hk
    obtain ⟨k, rfl⟩ : ∃ j, k = j + 1 := ⟨k - 1, by omega⟩
    rw [List.cons_append, atomLoop, if_pos (by simp), byteAt_zero]
    simp only [Res.ok_bind, List.drop_succ_cons, List.drop_zero, List.cons_append]
    rw [if_pos trivial, if_neg (by simp), byteAt_zero]
    simp only [Res.ok_bind]
    rw [ih k _ rest hs (by simp at hk; omega)]
    simp

theorem atomLoop_cases (k : Nat) : ∀ (inp lp : Bytes), inp.length < k →
    atomLoop k inp lp = .ok none ∨
    ∃ src v rest, inp = src ++ rest ∧ Atoms src v ∧ Stops rest ∧ atomLoop k inp lp = .ok (some (lp ++ v, rest)) := by
  induction k with
  | zero => intro _ _ h; omega
  | succ k ih =>
    intro inp lp hk
    match inp with
    | [] => right; exact ⟨[], [], [], rfl, .nil, by simp [Stops], by simp [atomLoop]⟩
    | c :: inp =>
      rw [atomLoop, if_pos (by simp), byteAt_zero]
      simp only [Res.ok_bind, List.drop_succ_cons, List.drop_zero]
      by_cases h2 : c = 0x5c
      · rw [if_pos h2]
        match inp with
        | [] => left; rfl
        | d :: inp =>
          rw [if_neg (by simp), byteAt_zero]
          simp only [Res.ok_bind, List.drop_succ_cons, List.drop_zero]
          rcases ih inp (lp ++ [d]) (by simp at hk; omega) with h | ⟨src, v, rest, rfl, hq, hs, h⟩
          · exact .inl h
          · right
            exact ⟨0x5c :: d :: src, d :: v, rest, by rw [h2]; rfl, .pair hq, hs, by rw [h]; simp⟩
      · rw [if_neg h2]
        by_cases h3 : atextOk c = true
        · rw [if_pos h3]
          rcases ih inp (lp ++ [c]) (by simp at hk; omega) with h | ⟨src, v, rest, rfl, hq, hs, h⟩
          · exact .inl h
          · right
            exact ⟨c :: src, c :: v, rest, rfl, .char ((atextOk_iff c).1 h3) hq, hs, by rw [h]; simp⟩
        · rw [if_neg h3]
          right
          refine ⟨[], [], c :: inp, rfl, .nil, ?_, by simp⟩
          rintro _ ⟨⟩
          exact ⟨h2, fun h => h3 ((atextOk_iff c).2 h)⟩

/-- A local part as the checks after the atoms want it. -/
def DotsGood (l : Bytes) : Prop := l ≠ [] ∧ l.head? ≠ some dot ∧ l.getLast? ≠ some dot ∧ containsTwoDots l = false

theorem dotsOk_eq (l : Bytes) : ∃ b, dotsOk l = .ok b ∧ (b = true ↔ DotsGood l) := by
  unfold dotsOk DotsGood
  match l with
  | [] => exact ⟨false, rfl, by simp⟩
  | c :: l =>
    rw [if_neg (by simp), byteAt_zero]
    have hlast : byteAt (c :: l) ((c :: l).length - 1) = .ok ((c :: l).getLast (by simp)) := by
      unfold byteAt
      rw [List.getLast_eq_getElem, List.getElem?_eq_getElem]
    simp only [Res.ok_bind, hlast]
    by_cases h1 : c = 0x2e
    · exact ⟨false, by rw [if_pos h1], by simp [h1]⟩
    · rw [if_neg h1]
      by_cases h2 : (c :: l).getLast (by simp) = 0x2e
      · refine ⟨false, by rw [if_pos h2], ?_⟩
        rw [List.getLast?_eq_some_getLast (l := c :: l) (by simp), h2]
        simp
      · refine ⟨_, by rw [if_neg h2], ?_⟩
        rw [List.getLast?_eq_some_getLast (l := c :: l) (by simp)]
        have h1 : ¬c = dot := h1
        have h2 : ¬(c :: l).getLast (by simp) = dot := h2
        simp only [Bool.not_eq_true', ne_eq, reduceCtorEq, not_false_eq_true, List.head?_cons, Option.some.injEq, h1, h2, true_and]

theorem containsTwoDots_append {a : Bytes} (h : dot ∉ a) (s : Bytes) : containsTwoDots (a ++ s) = containsTwoDots s := by
  induction a with
  | nil => rfl
  | cons c a ih =>
    rw [List.mem_cons, not_or] at h
    rw [← ih h.2, List.cons_append]
    match a ++ s with
    | [] => rfl
    | d :: r =>
      rw [containsTwoDots]
      have : (c == 0x2e) = false := by simpa using fun e => h.1 e.symm
      rw [this]; simp

theorem containsTwoDots_cons {m : Bytes} (h : m.head? ≠ some dot) : containsTwoDots (dot :: m) = containsTwoDots m := by
  match m with
  | [] => rfl
  | d :: r =>
    have : (d == 0x2e) = false := by simpa using h
    rw [containsTwoDots, this]; simp

theorem first_split {c : Byte} {s : Bytes} (h : c ∈ s) : ∃ a b, s = a ++ c :: b ∧ c ∉ a := by
  induction s with
  | nil => simp at h
  | cons x s ih =>
    by_cases hx : c = x
    · subst hx; exact ⟨[], s, rfl, by simp⟩
    · rw [List.mem_cons] at h
      obtain ⟨a, b, rfl, ha⟩ := ih (h.resolve_left hx)
      exact ⟨x :: a, b, rfl, by simp [hx, ha]⟩

theorem dotsGood_iff (l : Bytes) : DotsGood l ↔ DotAtom l := by
  have e1 : ∀ (x z : Bytes) zs, dotJoin (x :: z :: zs) = x ++ dot :: dotJoin (z :: zs) := fun _ _ _ => rfl
  have one : ∀ a : Bytes, a ≠ [] → dot ∉ a → DotsGood a := by
    intro a h1 h2
    refine ⟨h1, ?_, ?_, ?_⟩
    · intro h; exact h2 (List.mem_of_mem_head? h)
    · intro h; exact h2 (List.mem_of_getLast? h)
    · have := containsTwoDots_append h2 []; simpa [containsTwoDots] using this
  constructor
  · intro h
    have : ∀ (k : Nat) (l : Bytes), l.length ≤ k → DotsGood l → DotAtom l := by
      intro k
      induction k with
      | zero => intro l hk h; exact absurd (List.length_eq_zero_iff.1 (by omega)) h.1
      | succ k ih =>
        intro l hk h
        by_cases hd : dot ∈ l
        · obtain ⟨a, b, rfl, ha⟩ := first_split hd
          obtain ⟨h1, h2, h3, h4⟩ := h
          have ha0 : a ≠ [] := by rintro rfl; simp at h2
          have hb0 : b ≠ [] := by rintro rfl; simp at h3
          rw [containsTwoDots_append ha] at h4
          have hbh : b.head? ≠ some dot := by
            intro e
            match b with
            | [] => simp at e
            | d :: r => simp at e; subst e; simp [containsTwoDots] at h4
          rw [containsTwoDots_cons hbh] at h4
          have hbl : b.getLast? ≠ some dot := by
            intro e; apply h3
            rw [List.getLast?_append, List.getLast?_cons, e]; simp
          obtain ⟨atoms, hn, hall, rfl⟩ := ih b (by simp at hk; omega) ⟨hb0, hbh, hbl, h4⟩
          refine ⟨a :: atoms, by simp, ?_, ?_⟩
          · rw [List.forall_mem_cons]; exact ⟨⟨ha0, ha⟩, hall⟩
          · match atoms with
            | [] => exact absurd rfl hn
            | z :: zs => rw [e1]
        · exact ⟨[l], by simp, by simpa using ⟨h.1, hd⟩, rfl⟩
    exact this _ l (Nat.le_refl _) h
  · rintro ⟨atoms, hn, hall, rfl⟩
    induction atoms with
    | nil => exact absurd rfl hn
    | cons a atoms ih =>
      rw [List.forall_mem_cons] at hall
      match atoms with
      | [] => exact one _ hall.1.1 hall.1.2
      | z :: zs =>
        obtain ⟨h1, h2, h3, h4⟩ := ih (by simp) hall.2
        rw [e1]
        refine ⟨by simp, ?_, ?_, ?_⟩
        · intro h
          match a, hall.1 with
          | [], h' => exact h'.1 rfl
          | x :: a, h' => simp at h; exact h'.2 (by simp [h])
        · rw [List.getLast?_append, List.getLast?_cons]
          rw [List.getLast?_eq_some_getLast h1] at h3 ⊢
          simpa using h3
        · rw [containsTwoDots_append hall.1.2, containsTwoDots_cons h2, h4]

theorem mailboxDomain_eq (l inp : Bytes) : (∃ d ls, inp = 0x40 :: d ∧ domainToReverseLabels d = some ls ∧ mailboxDomain l inp = .ok (some (l, d))) ∨
    ((¬∃ d ls, inp = 0x40 :: d ∧ domainToReverseLabels d = some ls) ∧ mailboxDomain l inp = .ok none) := by
  unfold mailboxDomain
  match inp with
  | [] => right; simp
  | c :: inp =>
    rw [if_neg (by simp), byteAt_zero]
    simp only [Res.ok_bind, List.drop_succ_cons, List.drop_zero]
    by_cases h : c = 0x40
    · rw [if_neg (by simpa using h)]
      cases hd : domainToReverseLabels inp with
      | none =>
        right; refine ⟨?_, rfl⟩
        rintro ⟨d, ls, he, h'⟩
        rw [List.cons.injEq] at he
        rw [← he.2, hd] at h'; simp at h'
      | some ls => left; exact ⟨inp, ls, by rw [h], hd, rfl⟩
    · rw [if_pos h]
      right; refine ⟨?_, rfl⟩
      rintro ⟨d, ls, he, _⟩
      rw [List.cons.injEq] at he
      exact h he.1

end Verif.Cert
