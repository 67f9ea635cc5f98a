import Verif.Props.CryptobyteRoundTrip
import Verif.CB.FixedLemmas
import Verif.Util.PaddingLemmas
/-!
# Properties C28-C31: the Builder as a whole

Programs `Prog` are arbitrary finite uses of a builder, with nested continuations, errors, panics and calls on
ancestors. The specification below is a relation on programs that knows nothing of buffers.
-/
namespace Verif.Props
open Verif Verif.CB Verif.Spec.DER Verif.Spec.Builder

/-- `Encodes p x`: the program only adds things and `x` is the concatenation of their encodings. A length-prefixed
item is its content's length in `k+1` big-endian bytes and its content; an ASN.1 item is tag, DER length octets
and content. -/
inductive Encodes : Prog → Bytes → Prop
  | nil : Encodes .nil []
  | add {r x} (bs : Bytes) : Encodes r x → Encodes (.add bs r) (bs ++ x)
  | lenPrefixed {b r c x} (k : Fin 4) : Encodes b c → c.length < 256 ^ (k.val + 1) → Encodes r x →
      Encodes (.lenPrefixed k b r) (toBE (k.val + 1) c.length ++ c ++ x)
  | asn1 {t b r c l x} : t &&& 0x1f ≠ 0x1f → Encodes b c → c.length ≤ 2 ^ 32 - 2 → IsLength c.length l → Encodes r x →
      Encodes (.asn1 t b r) (t :: l ++ c ++ x)

/-! ## From and to the meaning function -/

theorem lowTag_iff (t : Tag) : LowTag t ↔ t &&& 0x1f ≠ 0x1f := by
  revert t; decide +kernel

theorem eval_of_encodes {p : Prog} {x : Bytes} (h : Encodes p x) : ∀ anc, eval p false anc = .done (some x) anc := by
  induction h with
  | nil => intro anc; rfl
  | add bs _ ih => intro anc; simp [eval, ih, Den.prepend]
  | lenPrefixed k _ hl _ ihb ihr =>
    intro anc
    simp [eval, ihb, Den.item, lpItem, hl, ihr, Den.prepend]
  | @asn1 t b r c l x ht _ hl hlen _ ihb ihr =>
    intro anc
    have hlt : LowTag t := (lowTag_iff t).2 ht
    have hll : l = lenOctets c.length := (isLength_iff (byteLen_lt_127 (by omega))).1 hlen
    subst hll
    simp only [eval, hlt, ihb, Den.item, derItem, if_true, Bool.false_eq_true, if_false]
    rw [if_pos (by omega)]
    simp [ihr, Den.prepend, elem]

theorem upDen_true {f f' : Bool} {act : UpAct} (h : upDen f act = some f') : f' = true := by
  cases act <;> simp only [upDen] at h
  · split at h <;> simp_all
  · split at h <;> simp_all
  · split at h <;> simp_all
  · simp_all

/-- Error flags of ancestors are never cleared. -/
theorem flags_mono (p : Prog) : ∀ (e : Bool) (anc anc' : List Bool) (r : Option Bytes), eval p e anc = .done r anc' →
    ∀ k : Nat, anc[k]? = some true → anc'[k]? = some true := by
  have prep : ∀ {d : Den} {bs : Bytes} {r : Option Bytes} {anc' : List Bool}, d.prepend bs = .done r anc' → ∃ r', d = .done r' anc' := by
    intro d bs r anc' h
    obtain ⟨r', h, _⟩ := prepend_done h
    exact ⟨r', h⟩
  have item_mono : ∀ (item : Bytes → Option Bytes) (body rest : Prog) (anc anc' : List Bool) (r : Option Bytes),
      (∀ e anc anc' r, eval body e anc = .done r anc' → ∀ k : Nat, anc[k]? = some true → anc'[k]? = some true) →
      (∀ e anc anc' r, eval rest e anc = .done r anc' → ∀ k : Nat, anc[k]? = some true → anc'[k]? = some true) →
      Den.item item (eval body false (false :: anc)) anc.isEmpty (eval rest) = .done r anc' → ∀ k : Nat, anc[k]? = some true → anc'[k]? = some true := by
    intro item body rest anc anc' r ihb ihr
    cases hb : eval body false (false :: anc) with
    | panicked => simp [Den.item]
    | thrown =>
      simp only [Den.item]
      split
      · rename_i h
        intro hr k hk
        cases anc with
        | nil => simp at hk
        | cons _ _ => simp at h
      · simp
    | done r2 fl =>
      cases fl with
      | nil => simp [Den.item]
      | cons f fl =>
        have h1 : ∀ k : Nat, anc[k]? = some true → fl[k]? = some true := by
          intro k hk
          have := ihb _ _ _ _ hb (k + 1) (by simpa using hk)
          simpa using this
        cases r2 with
        | none => simp only [Den.item]; intro hr k hk; exact ihr _ _ _ _ hr k (h1 k hk)
        | some c =>
          simp only [Den.item]
          cases item c with
          | none => intro hr k hk; exact ihr _ _ _ _ hr k (h1 k hk)
          | some bs =>
            simp only
            split
            · intro hr k hk; exact ihr _ _ _ _ hr k (h1 k hk)
            · intro hr k hk
              obtain ⟨r', hr'⟩ := prep hr
              exact ihr _ _ _ _ hr' k (h1 k hk)
  induction p with
  | nil => intro e anc anc' r h k hk; simp [eval] at h; rw [← h.2]; exact hk
  | add bs rest ih =>
    intro e anc anc' r h k hk
    simp only [eval] at h
    split at h
    · exact ih _ _ _ _ h k hk
    · obtain ⟨r', hr'⟩ := prep h
      exact ih _ _ _ _ hr' k hk
  | lenPrefixed k body rest ihb ihr =>
    intro e anc anc' r h
    simp only [eval] at h
    split at h
    · exact ihr _ _ _ _ h
    · exact item_mono _ _ _ _ _ _ ihb ihr h
  | asn1 t body rest ihb ihr =>
    intro e anc anc' r h
    simp only [eval] at h
    split at h
    · exact ihr _ _ _ _ h
    · split at h
      · exact item_mono _ _ _ _ _ _ ihb ihr h
      · exact ihr _ _ _ _ h
  | setErr keep m rest ih => intro e anc anc' r h; exact ih _ _ _ _ h
  | throw m => intro e anc anc' r h; simp [eval] at h
  | panic => intro e anc anc' r h; simp [eval] at h
  | up k act rest ih =>
    intro e anc anc' r h j hj
    simp only [eval] at h
    split at h
    · simp at h
    · rename_i f hf
      split at h
      · simp at h
      · rename_i f' hf'
        have ht : f' = true := upDen_true hf'
        subst ht
        refine ih _ _ _ _ h j ?_
        rw [List.getElem?_set]
        split
        · subst_vars
          simp [(List.getElem?_eq_some_iff.1 hj).1]
        · exact hj

/-- A program that ends without any error only added things. -/
theorem encodes_of_eval (p : Prog) : ∀ (anc anc' : List Bool) (x : Bytes), eval p false anc = .done (some x) anc' →
    (∀ k : Nat, anc'[k]? ≠ some true) → Encodes p x := by
  induction p with
  | nil => intro anc anc' x h _; simp [eval] at h; rw [h.1]; exact .nil
  | add bs rest ih =>
    intro anc anc' x h hf
    simp only [eval, Bool.false_eq_true, if_false] at h
    obtain ⟨r', h1, h2⟩ := prepend_done h
    cases r' with
    | none => simp at h2
    | some y =>
      simp at h2
      rw [h2]
      exact .add bs (ih _ _ _ h1 hf)
  | lenPrefixed k body rest ihb ihr =>
    intro anc anc' x h hf
    simp only [eval, Bool.false_eq_true, if_false] at h
    cases hb : eval body false (false :: anc) with
    | panicked => rw [hb] at h; simp [Den.item] at h
    | thrown =>
      rw [hb] at h
      simp only [Den.item] at h
      split at h
      · exact absurd h (eval_err rest _ _ _)
      · simp at h
    | done r fl =>
      rw [hb] at h
      match r, fl with
      | _, [] => simp [Den.item] at h
      | none, _ :: _ => simp only [Den.item] at h; exact absurd h (eval_err rest _ _ _)
      | some c, e :: fl =>
        simp only [Den.item, lpItem] at h
        by_cases hl : c.length < 256 ^ (k.val + 1)
        · simp only [hl, if_true] at h
          cases e with
          | true => simp only [if_true] at h; exact absurd h (eval_err rest _ _ _)
          | false =>
            simp only [Bool.false_eq_true, if_false] at h
            obtain ⟨r', h1, h2⟩ := prepend_done h
            cases r' with
            | none => simp at h2
            | some y =>
              simp only [Option.map_some, Option.some.injEq] at h2
              rw [h2]
              have hfl : ∀ j : Nat, fl[j]? ≠ some true := fun j hj => hf j (flags_mono rest _ _ _ _ h1 j hj)
              refine .lenPrefixed k (ihb _ _ _ hb ?_) hl (ihr _ _ _ h1 hf)
              intro j
              cases j with
              | zero => simp
              | succ j => simpa using hfl j
        · simp only [hl, if_false] at h
          exact absurd h (eval_err rest _ _ _)
  | asn1 t body rest ihb ihr =>
    intro anc anc' x h hf
    simp only [eval, Bool.false_eq_true, if_false] at h
    by_cases ht : LowTag t
    · simp only [ht, if_true] at h
      cases hb : eval body false (false :: anc) with
      | panicked => rw [hb] at h; simp [Den.item] at h
      | thrown =>
        rw [hb] at h
        simp only [Den.item] at h
        split at h
        · exact absurd h (eval_err rest _ _ _)
        · simp at h
      | done r fl =>
        rw [hb] at h
        match r, fl with
        | _, [] => simp [Den.item] at h
        | none, _ :: _ => simp only [Den.item] at h; exact absurd h (eval_err rest _ _ _)
        | some c, e :: fl =>
          simp only [Den.item, derItem] at h
          by_cases hl : c.length ≤ 0xfffffffe
          · simp only [hl, if_true] at h
            cases e with
            | true => simp only [if_true] at h; exact absurd h (eval_err rest _ _ _)
            | false =>
              simp only [Bool.false_eq_true, if_false] at h
              obtain ⟨r', h1, h2⟩ := prepend_done h
              cases r' with
              | none => simp at h2
              | some y =>
                simp only [Option.map_some, Option.some.injEq] at h2
                rw [h2]
                have hfl : ∀ j : Nat, fl[j]? ≠ some true := fun j hj => hf j (flags_mono rest _ _ _ _ h1 j hj)
                refine .asn1 ((lowTag_iff t).1 ht) (ihb _ _ _ hb ?_) (by omega)
                  ((isLength_iff (byteLen_lt_127 (by omega))).2 rfl) (ihr _ _ _ h1 hf)
                intro j
                cases j with
                | zero => simp
                | succ j => simpa using hfl j
          · simp only [hl, if_false] at h
            exact absurd h (eval_err rest _ _ _)
    · simp only [ht, if_false] at h
      exact absurd h (eval_err rest _ _ _)
  | setErr keep m rest ih => intro anc anc' x h; exact absurd h (eval_err rest _ _ _)
  | throw m => intro anc anc' x h; simp [eval] at h
  | panic => intro anc anc' x h; simp [eval] at h
  | up k act rest ih =>
    intro anc anc' x h hf
    simp only [eval] at h
    split at h
    · simp at h
    · rename_i f hf1
      split at h
      · simp at h
      · rename_i f' hf'
        have ht := upDen_true hf'
        subst ht
        have hk : k < anc.length := (List.getElem?_eq_some_iff.1 hf1).1
        exact absurd (flags_mono rest _ _ _ _ h k (by simp [hk])) (hf k)

/-! ## C28 -/

/-- C28: `Bytes()` succeeds exactly for the programs that only add things that fit, and then returns the buffer
followed by the concatenated encodings, for every growth policy of `append` and every initial heap. -/
theorem C28_builder_iff (g : Growth) (h : Heap) (buf : Slice) (hv : buf.Valid h) (p : Prog) (out : Bytes) :
    run g h buf p = .ok out ↔ ∃ x, Encodes p x ∧ out = buf.get h ++ x := by
  rw [run_ok_iff g h buf hv]
  constructor
  · rintro ⟨x, rfl, h1⟩
    exact ⟨x, encodes_of_eval p _ _ _ h1 (by simp), rfl⟩
  · rintro ⟨x, h1, rfl⟩
    exact ⟨x, rfl, eval_of_encodes h1 []⟩

/-- A program of additions only: no errors, panics or calls on ancestors by the user. -/
def Plain : Prog → Prop
  | .nil => True
  | .add _ r => Plain r
  | .lenPrefixed _ b r => Plain b ∧ Plain r
  | .asn1 _ b r => Plain b ∧ Plain r
  | _ => False

/-- No panic other than a `BuildError` is written in the program, at continuation depth `d`; calls on
ancestors only set errors. -/
def NoPanic : Nat → Prog → Prop
  | _, .nil => True
  | d, .add _ r => NoPanic d r
  | d, .lenPrefixed _ b r => NoPanic (d + 1) b ∧ NoPanic d r
  | d, .asn1 _ b r => NoPanic (d + 1) b ∧ NoPanic d r
  | d, .setErr _ _ r => NoPanic d r
  | _, .throw _ => True
  | _, .panic => False
  | d, .up k act r => k < d ∧ (∃ keep m, act = .setErr keep m) ∧ NoPanic d r

/-- `BuildError` is only thrown inside continuations. -/
def ThrowsInside : Prog → Prop
  | .nil => True
  | .add _ r => ThrowsInside r
  | .lenPrefixed _ _ r => ThrowsInside r
  | .asn1 _ _ r => ThrowsInside r
  | .setErr _ _ r => ThrowsInside r
  | .throw _ => False
  | .panic => True
  | .up _ _ r => ThrowsInside r

theorem prepend_eq_panicked {d : Den} {bs : Bytes} : d.prepend bs = .panicked ↔ d = .panicked := by
  cases d <;> simp [Den.prepend]

theorem prepend_eq_thrown {d : Den} {bs : Bytes} : d.prepend bs = .thrown ↔ d = .thrown := by
  cases d <;> simp [Den.prepend]

theorem eval_noPanic (p : Prog) : ∀ (e : Bool) (anc : List Bool), NoPanic anc.length p → eval p e anc ≠ .panicked := by
  have item_np : ∀ (item : Bytes → Option Bytes) (body rest : Prog) (anc : List Bool),
      (eval body false (false :: anc) ≠ .panicked) → (∀ e (anc' : List Bool), anc'.length = anc.length → eval rest e anc' ≠ .panicked) →
      Den.item item (eval body false (false :: anc)) anc.isEmpty (eval rest) ≠ .panicked := by
    intro item body rest anc ihb ihr
    cases hb : eval body false (false :: anc) with
    | panicked => exact absurd hb ihb
    | thrown =>
      simp only [Den.item]
      split
      · rename_i h
        exact ihr true [] (by rw [List.isEmpty_iff.1 h])
      · simp
    | done r fl =>
      have hl := eval_anc_length _ _ _ _ _ hb
      match r, fl with
      | _, [] => simp at hl
      | none, _ :: fl => simp only [Den.item]; exact ihr _ _ (by simpa using hl)
      | some c, e :: fl =>
        have hl' : fl.length = anc.length := by simpa using hl
        simp only [Den.item]
        split
        · exact ihr _ _ hl'
        · split
          · exact ihr _ _ hl'
          · rw [Ne, prepend_eq_panicked]; exact ihr _ _ hl'
  induction p with
  | nil => intro e anc _; simp [eval]
  | add bs rest ih =>
    intro e anc h
    simp only [eval]
    split
    · exact ih _ _ h
    · rw [Ne, prepend_eq_panicked]; exact ih _ _ h
  | lenPrefixed k body rest ihb ihr =>
    intro e anc h
    simp only [eval]
    split
    · exact ihr _ _ h.2
    · exact item_np _ _ _ _ (ihb _ _ (by simpa using h.1)) (fun e anc' hl => ihr e anc' (by rw [hl]; exact h.2))
  | asn1 t body rest ihb ihr =>
    intro e anc h
    simp only [eval]
    split
    · exact ihr _ _ h.2
    · split
      · exact item_np _ _ _ _ (ihb _ _ (by simpa using h.1)) (fun e anc' hl => ihr e anc' (by rw [hl]; exact h.2))
      · exact ihr _ _ h.2
  | setErr keep m rest ih => intro e anc h; exact ih _ _ h
  | throw m => intro e anc _; simp [eval]
  | panic => intro e anc h; exact absurd h id
  | up k act rest ih =>
    rintro e anc ⟨hk, ⟨keep, m, rfl⟩, h⟩
    simp only [eval, List.getElem?_eq_getElem hk, upDen]
    exact ih _ _ (by simpa using h)

theorem eval_throwsInside (p : Prog) : ∀ e, ThrowsInside p → eval p e [] ≠ .thrown := by
  have item_nt : ∀ (item : Bytes → Option Bytes) (body rest : Prog), (∀ e, eval rest e [] ≠ .thrown) →
      Den.item item (eval body false (false :: [])) ([] : List Bool).isEmpty (eval rest) ≠ .thrown := by
    intro item body rest ihr
    cases hb : eval body false [false] with
    | panicked => simp [Den.item]
    | thrown => simp only [Den.item, List.isEmpty_nil, if_true]; exact ihr true
    | done r fl =>
      have hl := eval_anc_length _ _ _ _ _ hb
      match r, fl with
      | _, [] => simp at hl
      | none, _ :: fl =>
        simp only [Den.item]
        have : fl = [] := by simpa using hl
        rw [this]; exact ihr _
      | some c, e :: fl =>
        have : fl = [] := by simpa using hl
        subst this
        simp only [Den.item]
        split
        · exact ihr _
        · split
          · exact ihr _
          · rw [Ne, prepend_eq_thrown]; exact ihr _
  induction p with
  | nil => intro e _; simp [eval]
  | add bs rest ih =>
    intro e h
    simp only [eval]
    split
    · exact ih _ h
    · rw [Ne, prepend_eq_thrown]; exact ih _ h
  | lenPrefixed k body rest ihb ihr =>
    intro e h
    simp only [eval]
    split
    · exact ihr _ h
    · exact item_nt _ _ _ (fun e => ihr e h)
  | asn1 t body rest ihb ihr =>
    intro e h
    simp only [eval]
    split
    · exact ihr _ h
    · split
      · exact item_nt _ _ _ (fun e => ihr e h)
      · exact ihr _ h
  | setErr keep m rest ih => intro e h; exact ih _ h
  | throw m => intro e h; exact absurd h id
  | panic => intro e _; simp [eval]
  | up k act rest ih => intro e h; simp [eval]

theorem plain_noPanic (p : Prog) : ∀ d, Plain p → NoPanic d p := by
  induction p with
  | nil => intro d _; trivial
  | add bs rest ih => intro d h; exact ih d h
  | lenPrefixed k body rest ihb ihr => intro d h; exact ⟨ihb _ h.1, ihr _ h.2⟩
  | asn1 t body rest ihb ihr => intro d h; exact ⟨ihb _ h.1, ihr _ h.2⟩
  | _ => intro d h; exact absurd h id

theorem plain_throwsInside (p : Prog) : Plain p → ThrowsInside p := by
  induction p with
  | nil => intro _; trivial
  | add bs rest ih => intro h; exact ih h
  | lenPrefixed k body rest ihb ihr => intro h; exact ihr h.2
  | asn1 t body rest ihb ihr => intro h; exact ihr h.2
  | _ => intro h; exact absurd h id

theorem run_trichotomy (g : Growth) (h : Heap) (buf : Slice) (hv : buf.Valid h) (p : Prog) :
    (∃ out, run g h buf p = .ok out) ∨ (∃ m, run g h buf p = .err m) ∨ run g h buf p = .panic := by
  have hd : ∀ r anc, eval p false [] = .done r anc → anc = [] := by
    intro r anc he
    simpa using eval_anc_length _ _ _ _ _ he
  cases he : eval p false [] with
  | done r anc =>
    have := hd _ _ he
    subst this
    cases r with
    | none => exact .inr (.inl ((run_err_iff g h buf hv p).2 he))
    | some x => exact .inl ⟨_, (run_ok_iff g h buf hv p _).2 ⟨x, rfl, he⟩⟩
  | thrown => exact .inr (.inr ((run_panic_iff g h buf hv p).2 (.inr he)))
  | panicked => exact .inr (.inr ((run_panic_iff g h buf hv p).2 (.inl he)))

/-- C28: a program of additions never panics: it yields the concatenation of the encodings, or an error when it has
none (something does not fit its prefix, or a high tag number). -/
theorem C28_additions (g : Growth) (h : Heap) (buf : Slice) (hv : buf.Valid h) (p : Prog) (hp : Plain p) :
    (∃ x, Encodes p x ∧ run g h buf p = .ok (buf.get h ++ x)) ∨ ((¬ ∃ x, Encodes p x) ∧ ∃ m, run g h buf p = .err m) := by
  rcases run_trichotomy g h buf hv p with ⟨out, ho⟩ | he | hpn
  · obtain ⟨x, hx, rfl⟩ := (C28_builder_iff g h buf hv p out).1 ho
    exact .inl ⟨x, hx, ho⟩
  · refine .inr ⟨?_, he⟩
    rintro ⟨x, hx⟩
    have := (C28_builder_iff g h buf hv p _).2 ⟨x, hx, rfl⟩
    obtain ⟨m, hm⟩ := he
    rw [this] at hm; cases hm
  · rcases (run_panic_iff g h buf hv p).1 hpn with h1 | h1
    · exact absurd h1 (eval_noPanic p _ _ (plain_noPanic p _ hp))
    · exact absurd h1 (eval_throwsInside p _ (plain_throwsInside p hp))

/-- C28: the encoding of a program is unique. -/
theorem C28_unique (p : Prog) (x y : Bytes) (hx : Encodes p x) (hy : Encodes p y) : x = y := by
  have h1 := eval_of_encodes hx []
  rw [eval_of_encodes hy []] at h1
  simp at h1
  exact h1.symm

/-- A nested program: a two-byte-prefixed list of a byte and an OCTET STRING. -/
def exProg : Prog := .add [9] (.lenPrefixed 1 (.add [7] (.asn1 4 (.add [1, 2] .nil) .nil)) (.add [8] .nil))

example : Encodes exProg [9, 0, 5, 7, 4, 2, 1, 2, 8] :=
  .add [9] (.lenPrefixed (c := [7, 4, 2, 1, 2]) 1
    (.add [7] (.asn1 (c := [1, 2]) (l := [2]) (by decide) (.add [1, 2] .nil) (by decide) (IsLength.short 2 (by decide)) .nil)) (by decide)
    (.add [8] .nil))
example : Plain exProg := by simp [exProg, Plain]
example : run (fun _ _ n => n) [[0, 5, 6, 0]] ⟨0, 1, 2, 3⟩ exProg = .ok [5, 6, 9, 0, 5, 7, 4, 2, 1, 2, 8] := by decide

/-! ## C29 -/

/-- The program lets a `BuildError` panic out, after additions only. -/
inductive Throws : Prog → Prop
  | here (m : String) : Throws (.throw m)
  | add {r} (bs : Bytes) : Throws r → Throws (.add bs r)
  | setErr {r} (keep : Bool) (m : String) : Throws r → Throws (.setErr keep m r)

/-- An error occurs on the program's builder, at this point, at an earlier one, or in a continuation of any depth. -/
inductive Errs : Prog → Prop
  /-- `AddValue` failed, an OID was invalid, … -/
  | setErr (keep : Bool) (m : String) (r : Prog) : Errs (.setErr keep m r)
  /-- high tag number -/
  | highTag {t : Tag} (b r : Prog) : t &&& 0x1f = 0x1f → Errs (.asn1 t b r)
  /-- length overflow -/
  | tooLong {b c} (k : Fin 4) (r : Prog) : Encodes b c → 256 ^ (k.val + 1) ≤ c.length → Errs (.lenPrefixed k b r)
  | tooLongASN1 {b c} (t : Tag) (r : Prog) : Encodes b c → 2 ^ 32 - 1 ≤ c.length → Errs (.asn1 t b r)
  /-- a `BuildError` panic in the continuation -/
  | thrown {b} (k : Fin 4) (r : Prog) : Throws b → Errs (.lenPrefixed k b r)
  | thrownASN1 {b} (t : Tag) (r : Prog) : Throws b → Errs (.asn1 t b r)
  /-- any of these inside a continuation -/
  | inside {b} (k : Fin 4) (r : Prog) : Errs b → Errs (.lenPrefixed k b r)
  | insideASN1 {b} (t : Tag) (r : Prog) : Errs b → Errs (.asn1 t b r)
  /-- any of these later -/
  | afterAdd {r} (bs : Bytes) : Errs r → Errs (.add bs r)
  | after {r} (k : Fin 4) (b : Prog) : Errs r → Errs (.lenPrefixed k b r)
  | afterASN1 {r} (t : Tag) (b : Prog) : Errs r → Errs (.asn1 t b r)

theorem errs_not_encodes {p : Prog} (h : Errs p) : ∀ x, ¬ Encodes p x := by
  have throws_ne : ∀ {b : Prog}, Throws b → ∀ x, ¬ Encodes b x := by
    intro b hb
    induction hb with
    | here m => intro x hx; cases hx
    | add bs _ ih => intro x hx; cases hx with | add _ h => exact ih _ h
    | setErr keep m _ ih => intro x hx; cases hx
  induction h with
  | setErr keep m r => intro x hx; cases hx
  | highTag b r ht => intro x hx; cases hx with | asn1 h _ _ _ _ => exact h ht
  | tooLong k r hb hl =>
    intro x hx
    cases hx with
    | lenPrefixed _ h1 h2 _ => have := C28_unique _ _ _ hb h1; subst this; omega
  | tooLongASN1 t r hb hl =>
    intro x hx
    cases hx with
    | asn1 _ h1 h2 _ _ => have := C28_unique _ _ _ hb h1; subst this; omega
  | thrown k r hb => intro x hx; cases hx with | lenPrefixed _ h _ _ => exact throws_ne hb _ h
  | thrownASN1 t r hb => intro x hx; cases hx with | asn1 _ h _ _ _ => exact throws_ne hb _ h
  | inside k r _ ih => intro x hx; cases hx with | lenPrefixed _ h _ _ => exact ih _ h
  | insideASN1 t r _ ih => intro x hx; cases hx with | asn1 _ h _ _ _ => exact ih _ h
  | afterAdd bs _ ih => intro x hx; cases hx with | add _ h => exact ih _ h
  | after k b _ ih => intro x hx; cases hx with | lenPrefixed _ _ _ h => exact ih _ h
  | afterASN1 t b _ ih => intro x hx; cases hx with | asn1 _ _ _ _ h => exact ih _ h

/-- C29: once an error occurred, at any depth and whatever is done afterwards, `Bytes` returns no bytes. -/
theorem C29_error_no_bytes (g : Growth) (h : Heap) (buf : Slice) (hv : buf.Valid h) (p : Prog) (hp : Errs p) (out : Bytes) :
    run g h buf p ≠ .ok out := by
  intro ho
  obtain ⟨x, hx, _⟩ := (C28_builder_iff g h buf hv p out).1 ho
  exact errs_not_encodes hp x hx

/-- C29: and it is reported as an error unless the user's own code panics with something else. -/
theorem C29_error_reported (g : Growth) (h : Heap) (buf : Slice) (hv : buf.Valid h) (p : Prog) (hp : Errs p)
    (hn : NoPanic 0 p) (ht : ThrowsInside p) : ∃ m, run g h buf p = .err m := by
  rcases run_trichotomy g h buf hv p with ⟨out, ho⟩ | he | hpn
  · exact absurd ho (C29_error_no_bytes g h buf hv p hp out)
  · exact he
  · rcases (run_panic_iff g h buf hv p).1 hpn with h1 | h1
    · exact absurd h1 (eval_noPanic p _ _ hn)
    · exact absurd h1 (eval_throwsInside p _ ht)

/-- C29, sticky: after a program that ended with an error no continuation of it returns bytes. -/
theorem C29_sticky (g : Growth) (h : Heap) (buf : Slice) (hv : buf.Valid h) (p q : Prog) (m : String)
    (hp : run g h buf p = .err m) (out : Bytes) : run g h buf (p.append q) ≠ .ok out := by
  intro ho
  have he := (run_err_iff g h buf hv p).1 ⟨m, hp⟩
  obtain ⟨x, _, h2⟩ := (run_ok_iff g h buf hv _ _).1 ho
  rw [eval_append, he] at h2
  exact eval_err q _ _ _ h2

/-- C29: a `BuildError` panic inside a continuation never escapes: without any other kind of panic the program
does not panic. -/
theorem C29_buildError_contained (g : Growth) (h : Heap) (buf : Slice) (hv : buf.Valid h) (p : Prog)
    (hn : NoPanic 0 p) (ht : ThrowsInside p) : run g h buf p ≠ .panic := by
  intro hpn
  rcases (run_panic_iff g h buf hv p).1 hpn with h1 | h1
  · exact absurd h1 (eval_noPanic p _ _ hn)
  · exact absurd h1 (eval_throwsInside p _ ht)

/-- Execution of `p` at continuation depth `d` (with error flag `e` on the running builder and none on its
ancestors) comes to a point where `P` holds of the depth and of what remains. -/
inductive Reaches (P : Nat → Prog → Prop) : Nat → Bool → Prog → Prop
  | here {d e p} : P d p → Reaches P d e p
  | add {d e r} (bs : Bytes) : Reaches P d e r → Reaches P d e (.add bs r)
  | setErr {d e r} (keep : Bool) (m : String) : Reaches P d true r → Reaches P d e (.setErr keep m r)
  | highTag {d e t r} (b : Prog) : t &&& 0x1f = 0x1f → Reaches P d true r → Reaches P d e (.asn1 t b r)
  /-- inside a continuation -/
  | inside {d b} (k : Fin 4) (r : Prog) : Reaches P (d + 1) false b → Reaches P d false (.lenPrefixed k b r)
  | insideASN1 {d t b} (r : Prog) : t &&& 0x1f ≠ 0x1f → Reaches P (d + 1) false b → Reaches P d false (.asn1 t b r)
  /-- after an item -/
  | after {d k b r x} : Encodes (.lenPrefixed k b .nil) x → Reaches P d false r → Reaches P d false (.lenPrefixed k b r)
  | afterASN1 {d t b r x} : Encodes (.asn1 t b .nil) x → Reaches P d false r → Reaches P d false (.asn1 t b r)
  /-- after an item that is skipped because of an earlier error -/
  | skip {d r} (k : Fin 4) (b : Prog) : Reaches P d true r → Reaches P d true (.lenPrefixed k b r)
  | skipASN1 {d r} (t : Tag) (b : Prog) : Reaches P d true r → Reaches P d true (.asn1 t b r)

theorem eval_reaches {P : Nat → Prog → Prop} (hP : ∀ d p e, P d p → eval p e (List.replicate d false) = .panicked) {d : Nat} {e : Bool} {p : Prog}
    (h : Reaches P d e p) : eval p e (List.replicate d false) = .panicked := by
  induction h with
  | here h => exact hP _ _ _ h
  | @add d e r bs _ ih => cases e <;> simp [eval, ih, Den.prepend]
  | setErr keep m _ ih => simpa [eval] using ih
  | @highTag d e t r b ht _ ih =>
    have : ¬ LowTag t := fun hl => (lowTag_iff t).1 hl ht
    cases e <;> simp [eval, this, ih]
  | @inside d b k r _ ih =>
    simp only [List.replicate_succ] at ih
    simp [eval, ih, Den.item]
  | @insideASN1 d t b r ht _ ih =>
    have : LowTag t := (lowTag_iff t).2 ht
    simp only [List.replicate_succ] at ih
    simp [eval, ih, this, Den.item]
  | @after d k b r x hx _ ih =>
    cases hx with
    | lenPrefixed _ hb hl _ =>
      simp [eval, eval_of_encodes hb, Den.item, lpItem, hl, ih, Den.prepend]
  | @afterASN1 d t b r x hx _ ih =>
    cases hx with
    | asn1 ht hb hl _ _ =>
      have : LowTag t := (lowTag_iff t).2 ht
      simp only [eval, eval_of_encodes hb, Den.item, derItem, this, if_true, Bool.false_eq_true, if_false]
      rw [if_pos (by omega)]
      simp [ih, Den.prepend]
  | skip k b _ ih => simpa [eval] using ih
  | skipASN1 t b _ ih => simpa [eval] using ih

/-- C29: any other panic reached by the user's code escapes. -/
theorem C29_panic_escapes (g : Growth) (h : Heap) (buf : Slice) (hv : buf.Valid h) (p : Prog)
    (hp : Reaches (fun _ q => q = .panic) 0 false p) : run g h buf p = .panic := by
  rw [run_panic_iff g h buf hv]
  left
  refine eval_reaches (d := 0) ?_ hp
  rintro d q e rfl
  rfl

example : Errs (.lenPrefixed 0 (.add [1] (.asn1 0x30 (.throw "x") .nil)) (.add [3] .nil)) :=
  .inside 0 _ (.afterAdd [1] (.thrownASN1 _ _ (.here "x")))
example : run (fun _ _ _ => 0) exHeap exBuf (.lenPrefixed 0 (.add [1] (.asn1 0x30 (.throw "x") .nil)) (.add [3] .nil)) = .err "x" := by decide
example : NoPanic 0 (.lenPrefixed 0 (.add [1] (.asn1 0x30 (.throw "x") .nil)) (.add [3] .nil)) ∧
    ThrowsInside (.lenPrefixed 0 (.add [1] (.asn1 0x30 (.throw "x") .nil)) (.add [3] .nil)) := by simp [NoPanic, ThrowsInside]
example : Reaches (fun _ q => q = .panic) 0 false (.setErr false "e" (.lenPrefixed 0 (.throw "x") .panic)) :=
  .setErr false "e" (.skip 0 _ (.here rfl))

/-! ## C31 -/

/-- A write: `AddUintN`, `AddBytes` (empty or not), a length-prefixed item, or an ASN.1 item with a tag number
below 31. -/
def IsWrite : UpAct → Prop
  | .add _ => True
  | .lenPrefixed => True
  | .asn1 t => t &&& 0x1f ≠ 0x1f
  | .setErr _ _ => False

/-- C31: a write to an ancestor (parent, grandparent, …) that has no error yet, at any depth and after anything,
panics. -/
theorem C31_write_to_ancestor_panics (g : Growth) (h : Heap) (buf : Slice) (hv : buf.Valid h) (p : Prog)
    (hp : Reaches (fun d q => ∃ k act r, q = .up k act r ∧ k < d ∧ IsWrite act) 0 false p) : run g h buf p = .panic := by
  rw [run_panic_iff g h buf hv]
  left
  refine eval_reaches (d := 0) ?_ hp
  rintro d q e ⟨k, act, r, rfl, hk, hw⟩
  have : upDen false act = none := by
    cases act with
    | add bs => rfl
    | lenPrefixed => rfl
    | asn1 t => simp [upDen, (lowTag_iff t).2 hw]
    | setErr keep m => exact absurd hw id
  simp [eval, hk, this]

/-- C31: whatever is done to ancestors, it never shows in the output: a run that succeeds made no call on an ancestor
(the output is the encoding of a program of additions). -/
theorem C31_no_corruption (g : Growth) (h : Heap) (buf : Slice) (hv : buf.Valid h) (p : Prog) (out : Bytes)
    (ho : run g h buf p = .ok out) : Plain p := by
  obtain ⟨x, hx, hout⟩ := (C28_builder_iff g h buf hv p out).1 ho
  clear ho hout
  induction hx with
  | nil => trivial
  | add _ _ ih => exact ih
  | lenPrefixed _ _ _ _ ihb ihr => exact ⟨ihb, ihr⟩
  | asn1 _ _ _ _ _ ihb ihr => exact ⟨ihb, ihr⟩

/-- An empty write to the grandparent. -/
example : Reaches (fun d q => ∃ k act r, q = .up k act r ∧ k < d ∧ IsWrite act) 0 false
    (.lenPrefixed 0 (.asn1 0x30 (.up 1 (.add []) .nil) .nil) .nil) :=
  .inside 0 _ (.insideASN1 _ (by decide) (.here ⟨1, .add [], .nil, rfl, by decide, trivial⟩))

/-! ## C30 -/

/-- A program of byte additions without continuations. -/
def flat : List Bytes → Prog
  | [] => .nil
  | bs :: r => .add bs (flat r)

theorem exec_flat_err (g : Growth) (adds : List Bytes) : ∀ st, st.cur.err.isSome = true → exec g (flat adds) st = .done st := by
  induction adds with
  | nil => intro st _; rfl
  | cons bs r ih =>
    intro st h
    simp only [flat, exec, addBytes, h, if_true]
    exact ih st h

theorem exec_flat (g : Growth) (adds : List Bytes) : ∀ st : St, st.cur.fixedSize = true → st.cur.err = none → st.cur.result.Valid st.heap →
    ∃ st', exec g (flat adds) st = .done st' ∧ st'.cur.offset = st.cur.offset ∧
      (if st.cur.result.len + adds.flatten.length ≤ st.cur.result.cap then
        st'.cur.err = none ∧ st'.cur.result.get st'.heap = st.cur.result.get st.heap ++ adds.flatten
      else st'.cur.err.isSome = true) := by
  induction adds with
  | nil =>
    intro st _ he hv
    refine ⟨st, rfl, rfl, ?_⟩
    rw [if_pos (by have := hv.1; simpa using this)]
    simp [he]
  | cons bs r ih =>
    intro st hf he hv
    by_cases hfit : st.cur.result.len + bs.length ≤ st.cur.result.cap
    · have hadd : addBytes g st.heap st.cur bs = ((goAppend (g st.heap st.cur.result bs.length) st.heap st.cur.result bs).1,
          { st.cur with result := (goAppend (g st.heap st.cur.result bs.length) st.heap st.cur.result bs).2 }) := by
        unfold addBytes
        rw [if_neg (by simp [he]), if_neg (by omega)]
      have hlen := goAppend_len (spare := g st.heap st.cur.result bs.length) (h := st.heap) (s := st.cur.result) (ext := bs)
      have hcap : (goAppend (g st.heap st.cur.result bs.length) st.heap st.cur.result bs).2.cap = st.cur.result.cap := by
        unfold goAppend; rw [if_pos hfit]
      have hget := Padding.goAppend_get (spare := g st.heap st.cur.result bs.length) (ext := bs) hv
      have hval := goAppend_valid (spare := g st.heap st.cur.result bs.length) (ext := bs) hv
      simp only [flat, exec, hadd]
      obtain ⟨st', h1, h2, h3⟩ := ih ⟨(goAppend (g st.heap st.cur.result bs.length) st.heap st.cur.result bs).1,
          { st.cur with result := (goAppend (g st.heap st.cur.result bs.length) st.heap st.cur.result bs).2 }, st.anc, st.inContinuation⟩ hf he hval
      refine ⟨st', h1, h2, ?_⟩
      simp only [hlen, hcap, hget] at h3
      simp only [List.flatten_cons, List.length_append]
      rw [← Nat.add_assoc]
      split at h3
      · rename_i hc
        rw [if_pos hc]
        exact ⟨h3.1, by rw [h3.2]; simp⟩
      · rename_i hc
        rw [if_neg hc]
        exact h3
    · have hadd : addBytes g st.heap st.cur bs = (st.heap, { st.cur with err := some "cryptobyte: Builder is exceeding its fixed-size buffer" }) := by
        unfold addBytes
        rw [if_neg (by simp [he]), if_pos ⟨hf, by omega⟩]
      simp only [flat, exec, hadd]
      refine ⟨_, exec_flat_err g r _ rfl, rfl, ?_⟩
      rw [if_neg (by simp; omega)]
      rfl

/-- C30 for programs without continuations: the fixed builder returns the growing builder's bytes when they fit in
the capacity, otherwise an error; it never panics. `_partial`: fails with continuations,
`C30_child_lost_violated` and `C30_overflow_panics_violated`. -/
theorem C30_flat_partial (g g' : Growth) (h : Heap) (buf : Slice) (hv : buf.Valid h) (adds : List Bytes) :
    (if buf.len + adds.flatten.length ≤ buf.cap then
      runFixed g h buf (flat adds) = .ok (buf.get h ++ adds.flatten) ∧ run g' h buf (flat adds) = .ok (buf.get h ++ adds.flatten)
    else ∃ m, runFixed g h buf (flat adds) = .err m) := by
  obtain ⟨st', h1, h2, h3⟩ := exec_flat g adds (newBuilder true h buf) rfl rfl hv
  have hrun : run g' h buf (flat adds) = .ok (buf.get h ++ adds.flatten) := by
    rw [C28_builder_iff g' h buf hv]
    refine ⟨_, ?_, rfl⟩
    clear h1 h2 h3
    induction adds with
    | nil => exact .nil
    | cons bs r ih => exact .add bs ih
  unfold runFixed
  rw [h1]
  have h2' : st'.cur.offset = 0 := h2
  split
  · rename_i hc
    rw [if_pos (show (newBuilder true h buf).cur.result.len + adds.flatten.length ≤ (newBuilder true h buf).cur.result.cap from hc)] at h3
    refine ⟨?_, hrun⟩
    simp only [bytesOf, h3.1, h2', List.drop_zero, h3.2]
    rfl
  · rename_i hc
    rw [if_neg (show ¬ (newBuilder true h buf).cur.result.len + adds.flatten.length ≤ (newBuilder true h buf).cur.result.cap from hc)] at h3
    obtain ⟨m, hm⟩ := Option.isSome_iff_exists.1 h3
    exact ⟨m, by simp only [bytesOf, hm]⟩

/-- Heap left behind by a program, however it ended. -/
def heapAfter : Out → Heap
  | .done st => st.heap
  | .thrown _ st => st.heap
  | .panicked h => h

/-- C30, memory safety for every program (continuations, errors and panics included): a fixed builder allocates
nothing and changes no byte outside the capacity of its buffer. -/
theorem C30_memory_safe (g : Growth) (h : Heap) (buf : Slice) (hv : buf.Valid h) (p : Prog) :
    let h' := heapAfter (exec g p (newBuilder true h buf))
    h'.length = h.length ∧ ∀ (i : Nat) (a : Bytes), h[i]? = some a → ∃ a', h'[i]? = some a' ∧ a'.length = a.length ∧
      ∀ j, (i ≠ buf.arr ∨ j < buf.off ∨ buf.off + buf.cap ≤ j) → a'[j]? = a[j]? := by
  have := exec_fx g (s0 := buf) p (newBuilder true h buf) ⟨hv.2, ⟨rfl, rfl, rfl, rfl, hv.1⟩, by simp [newBuilder]⟩
  intro h'
  show Within buf h h'
  revert this
  show _ → Within buf h (heapAfter _)
  cases exec g p (newBuilder true h buf) with
  | done st => intro this; exact this.1
  | thrown m st => intro this; exact this.1
  | panicked h'' => intro this; exact this

/-- C30 fails: with room for everything, the content of a continuation is missing from the fixed builder's bytes (line
271 of builder.go skips the update) and is overwritten by the next addition. -/
theorem C30_child_lost_violated :
    let h : Heap := [List.replicate 10 0]
    let buf : Slice := ⟨0, 0, 0, 10⟩
    let p : Prog := .lenPrefixed 0 (.add [7, 8] .nil) (.add [9] .nil)
    buf.Valid h ∧ (∀ g, run g h buf p = .ok [2, 7, 8, 9]) ∧ runFixed (fun _ _ _ => 0) h buf p = .ok [2, 9] := by
  refine ⟨⟨by decide, _, rfl, by decide⟩, fun g => ?_, by decide⟩
  rw [C28_builder_iff _ _ _ ⟨by decide, _, rfl, by decide⟩]
  exact ⟨_, .lenPrefixed (c := [7, 8]) 0 (.add [7, 8] .nil) (by decide) (.add [9] .nil), rfl⟩

/-- C30 fails: whenever the length prefix itself does not fit, the fixed builder panics ("cryptobyte: internal error",
line 214 of builder.go) instead of reporting an error. -/
theorem C30_overflow_panics_violated (g : Growth) (h : Heap) (buf : Slice) (hv : buf.Valid h) (k : Fin 4)
    (hc : buf.cap < buf.len + (k.val + 1)) (r : Prog) : runFixed g h buf (.lenPrefixed k .nil r) = .panic := by
  have hadd : addBytes g h ⟨none, buf, true, 0, 0, false⟩ (List.replicate (k.val + 1) 0) =
      (h, ⟨some "cryptobyte: Builder is exceeding its fixed-size buffer", buf, true, 0, 0, false⟩) := by
    unfold addBytes
    rw [if_neg (by simp), if_pos (by simp; omega)]
  have : exec g (.lenPrefixed k .nil r) (newBuilder true h buf) = .panicked h := by
    simp only [exec, newBuilder, enter, hadd, leave, flushN, flush1]
    simp only [Option.isSome_none, Bool.false_eq_true, if_false]
    rw [if_pos (by have := hv.1; omega)]
    rfl
  unfold runFixed
  rw [this]
  rfl

example : (⟨0, 0, 0, 0⟩ : Slice).Valid exHeap ∧ (⟨0, 0, 0, 0⟩ : Slice).cap < 0 + ((0 : Fin 4).val + 1) := ⟨exValid, by decide⟩
example : runFixed (fun _ _ _ => 0) [List.replicate 3 0] ⟨0, 0, 0, 3⟩ (flat [[1], [2, 3]]) = .ok [1, 2, 3] := by decide

end Verif.Props
