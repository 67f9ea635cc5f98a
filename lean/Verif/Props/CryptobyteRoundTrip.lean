import Verif.Props.CryptobyteRead
/-!
# Properties C17, C18, C21-C24, C26 (round-trips): what the Builder writes, the String reads

In every theorem `p` is an arbitrary program that has already run on the growing builder
(`NewBuilder(buf)`), with result `a`; `g` is the arbitrary growth policy of `append`; `rest` is whatever
follows. `run` includes the final `Bytes()`.
-/
namespace Verif.Props
open Verif Verif.CB Verif.Spec.DER Verif.Spec.Builder

/-- Appending `q` to any successful program appends some bytes `e`, and `rd` reads `v` back from them, leaving
exactly what follows. -/
def RoundTrips {α : Type} (q : Prog) (rd : Reader α) (v : α) : Prop :=
  ∀ (g : Growth) (h : Heap) (buf : Slice) (p : Prog) (a : Bytes), buf.Valid h → run g h buf p = .ok a →
    ∃ e, run g h buf (p.append q) = .ok (a ++ e) ∧ ∀ rest, rd (some (e ++ rest)) = .ok (some v, some rest)

/-- Appending `q` to any successful program makes `Bytes` report an error. -/
def Reports (q : Prog) : Prop :=
  ∀ (g : Growth) (h : Heap) (buf : Slice) (p : Prog) (a : Bytes), buf.Valid h → run g h buf p = .ok a →
    ∃ m, run g h buf (p.append q) = .err m

/-- Appending `q` to any successful program appends exactly `e`. -/
def Writes (q : Prog) (e : Bytes) : Prop :=
  ∀ (g : Growth) (h : Heap) (buf : Slice) (p : Prog) (a : Bytes), buf.Valid h → run g h buf p = .ok a →
    run g h buf (p.append q) = .ok (a ++ e)

/-- A fresh builder on any buffer appends exactly `c` when running `body`. -/
def Produces (body : Prog) (c : Bytes) : Prop :=
  ∃ (g : Growth) (h : Heap) (buf : Slice), buf.Valid h ∧ run g h buf body = .ok (buf.get h ++ c)

theorem roundTrips_of_eval {α : Type} {q : Prog} {rd : Reader α} {v : α} (e : Bytes) (he : eval q false [] = .done (some e) [])
    (hr : ∀ rest, rd (some (e ++ rest)) = .ok (some v, some rest)) : RoundTrips q rd v :=
  fun g h buf _ _ hv hp => ⟨e, run_append g h buf hv hp he, hr⟩

theorem writes_of_eval {q : Prog} {e : Bytes} (he : eval q false [] = .done (some e) []) : Writes q e :=
  fun g h buf _ _ hv hp => run_append g h buf hv hp he

theorem reports_of_eval {q : Prog} (he : eval q false [] = .done none []) : Reports q :=
  fun g h buf _ _ hv hp => run_append_err g h buf hv hp he

theorem eval_of_produces {body : Prog} {c : Bytes} (h : Produces body c) : eval body false [] = .done (some c) [] := by
  obtain ⟨g, hp, buf, hv, hr⟩ := h
  obtain ⟨bs, h1, h2⟩ := (run_ok_iff g hp buf hv body _).1 hr
  rw [List.append_cancel_left h1]
  exact h2

/-! ## C17 -/

theorem read_append (e rest : Bytes) (n : Nat) (h : e.length = n) : CB.read (n : Int) (some (e ++ rest)) = .ok (some e, some rest) := by
  rw [read_some (by simp; omega)]
  subst h
  simp

theorem C17_uint8 (v : Byte) : RoundTrips (addUint8 v .nil) readUint8 v := by
  refine roundTrips_of_eval [v] rfl fun rest => ?_
  have := read_append [v] rest 1 rfl
  unfold readUint8
  rw [show (1 : Int) = (1 : Nat) from rfl, this]
  rfl

theorem C17_uint16 (v : BitVec 16) : RoundTrips (addUint16 v .nil) readUint16 v := by
  refine roundTrips_of_eval [(v >>> 8).setWidth 8, v.setWidth 8] rfl fun rest => ?_
  have := read_append [(v >>> 8).setWidth 8, v.setWidth 8] rest 2 rfl
  unfold readUint16
  rw [show (2 : Int) = (2 : Nat) from rfl, this]
  simp only [Res.ok_bind, Str.at, bytes_some, List.getElem?_cons_zero, List.getElem?_cons_succ]
  congr 3
  apply BitVec.eq_of_getLsbD_eq
  intro i hi
  simp only [BitVec.getLsbD_or, BitVec.getLsbD_shiftLeft, BitVec.getLsbD_setWidth, BitVec.getLsbD_ushiftRight, hi, decide_true, Bool.true_and]
  by_cases h8 : i < 8
  · simp [h8]
  · simp [h8, show i - 8 < 16 by omega, show i - 8 < 8 by omega, show 8 + (i - 8) = i by omega]

/-- `AddUint24` keeps the low 24 bits. -/
theorem C17_uint24 (v : Word) : RoundTrips (addUint24 v .nil) readUint24 (v &&& 0xffffff) := by
  refine roundTrips_of_eval [(v >>> 16).setWidth 8, (v >>> 8).setWidth 8, v.setWidth 8] rfl fun rest => ?_
  have := read_append [(v >>> 16).setWidth 8, (v >>> 8).setWidth 8, v.setWidth 8] rest 3 rfl
  unfold readUint24
  rw [show (3 : Int) = (3 : Nat) from rfl, this]
  simp only [Res.ok_bind, Str.at, bytes_some, List.getElem?_cons_zero, List.getElem?_cons_succ]
  congr 3
  apply BitVec.eq_of_getLsbD_eq
  intro i hi
  have hm : (0xffffff : Word).getLsbD i = decide (i < 24) := by
    revert hi; revert i; decide
  simp only [BitVec.getLsbD_or, BitVec.getLsbD_and, BitVec.getLsbD_shiftLeft, BitVec.getLsbD_setWidth, BitVec.getLsbD_ushiftRight, hm, hi, decide_true, Bool.true_and]
  by_cases h8 : i < 8
  · simp [h8, show i < 16 by omega, show i < 24 by omega]
  · by_cases h16 : i < 16
    · simp [h8, h16, show i - 8 < 32 by omega, show i - 8 < 8 by omega, show 8 + (i - 8) = i by omega, show i < 24 by omega]
    · by_cases h24 : i < 24
      · simp [h8, h16, h24, show i - 16 < 32 by omega, show i - 16 < 8 by omega, show 16 + (i - 16) = i by omega, show ¬ i - 8 < 8 by omega]
      · simp [h8, h16, h24, show ¬ i - 16 < 8 by omega, show ¬ i - 8 < 8 by omega]

theorem readUint32_bytes (v : Word) (rest : Bytes) :
    readUint32 (some ([(v >>> 24).setWidth 8, (v >>> 16).setWidth 8, (v >>> 8).setWidth 8, v.setWidth 8] ++ rest)) = .ok (some v, some rest) := by
  have := read_append [(v >>> 24).setWidth 8, (v >>> 16).setWidth 8, (v >>> 8).setWidth 8, v.setWidth 8] rest 4 rfl
  unfold readUint32
  rw [show (4 : Int) = (4 : Nat) from rfl, this]
  simp only [Res.ok_bind, Str.at, bytes_some, List.getElem?_cons_zero, List.getElem?_cons_succ]
  congr 3
  apply BitVec.eq_of_getLsbD_eq
  intro i hi
  simp only [BitVec.getLsbD_or, BitVec.getLsbD_shiftLeft, BitVec.getLsbD_setWidth, BitVec.getLsbD_ushiftRight, hi, decide_true, Bool.true_and]
  by_cases h8 : i < 8
  · simp [h8, show i < 16 by omega, show i < 24 by omega]
  · by_cases h16 : i < 16
    · simp [h8, h16, show i - 8 < 32 by omega, show i - 8 < 8 by omega, show 8 + (i - 8) = i by omega, show i < 24 by omega]
    · by_cases h24 : i < 24
      · simp [h8, h16, h24, show i - 16 < 32 by omega, show i - 16 < 8 by omega, show 16 + (i - 16) = i by omega, show ¬ i - 8 < 8 by omega]
      · simp [h8, h16, h24, show ¬ i - 16 < 8 by omega, show ¬ i - 8 < 8 by omega, show i - 24 < 32 by omega, show i - 24 < 8 by omega, show 24 + (i - 24) = i by omega]

theorem C17_uint32 (v : Word) : RoundTrips (addUint32 v .nil) readUint32 v :=
  roundTrips_of_eval [(v >>> 24).setWidth 8, (v >>> 16).setWidth 8, (v >>> 8).setWidth 8, v.setWidth 8] rfl fun rest => readUint32_bytes v rest

theorem C17_bytes (v : Bytes) : RoundTrips (.add v .nil) (readBytes v.length) (some v) := by
  refine roundTrips_of_eval v (by simp [eval, Den.prepend]) fun rest => ?_
  unfold readBytes
  rw [read_append v rest _ rfl]
  rfl

theorem C17_copyBytes (v : Bytes) : RoundTrips (.add v .nil) (copyBytes v.length) v := by
  refine roundTrips_of_eval v (by simp [eval, Den.prepend]) fun rest => ?_
  unfold copyBytes
  rw [read_append v rest _ rfl]
  simp

/-- A fresh builder with no buffer, as used in the examples. -/
def exHeap : Heap := [[]]
def exBuf : Slice := ⟨0, 0, 0, 0⟩
theorem exValid : exBuf.Valid exHeap := ⟨by decide, [], rfl, by decide⟩

/-- The hypotheses are met, here after an earlier write. -/
example : run (fun _ _ _ => 3) exHeap exBuf (.add [1] .nil) = .ok [1] ∧
    run (fun _ _ _ => 3) exHeap exBuf ((Prog.add [1] .nil).append (addUint24 0x1234567 .nil)) = .ok [1, 0x23, 0x45, 0x67] ∧
    readUint24 (some [0x23, 0x45, 0x67, 9]) = .ok (some 0x234567, some [9]) := by decide

/-! ## C18 -/

theorem lp_round_trip (k : Fin 4) {body : Prog} {c : Bytes} (hb : Produces body c) (hl : c.length < 256 ^ (k.val + 1)) :
    RoundTrips (.lenPrefixed k body .nil) (readLengthPrefixed (k.val + 1)) (some c) := by
  have he := eval_lenPrefixed (k := k) (eval_of_produces hb)
  rw [if_pos hl] at he
  refine roundTrips_of_eval _ he fun rest => ?_
  have hk := k.isLt
  rw [readLengthPrefixed_eq (by simp) (by omega)]
  have h1 : (toBE (k.val + 1) c.length ++ c ++ rest).take (k.val + 1) = toBE (k.val + 1) c.length := by
    rw [List.append_assoc, List.take_left' (by simp)]
  have h2 : (toBE (k.val + 1) c.length ++ c ++ rest).drop (k.val + 1) = c ++ rest := by
    rw [List.append_assoc, List.drop_left' (by simp)]
  rw [h1, h2, beNat_toBE_of_lt hl, if_pos (by simp)]
  simp

/-- C18, `AddUint8LengthPrefixed`. -/
theorem C18_uint8_prefix {body : Prog} {c : Bytes} (hb : Produces body c) (hl : c.length < 2 ^ 8) :
    RoundTrips (.lenPrefixed 0 body .nil) readUint8LengthPrefixed (some c) := lp_round_trip 0 hb (by simpa using hl)
/-- C18, `AddUint16LengthPrefixed`. -/
theorem C18_uint16_prefix {body : Prog} {c : Bytes} (hb : Produces body c) (hl : c.length < 2 ^ 16) :
    RoundTrips (.lenPrefixed 1 body .nil) readUint16LengthPrefixed (some c) := lp_round_trip 1 hb (by simpa using hl)
/-- C18, `AddUint24LengthPrefixed`. -/
theorem C18_uint24_prefix {body : Prog} {c : Bytes} (hb : Produces body c) (hl : c.length < 2 ^ 24) :
    RoundTrips (.lenPrefixed 2 body .nil) readUint24LengthPrefixed (some c) := lp_round_trip 2 hb (by simpa using hl)

/-- How a value with a prefix of 32 bits is read, for which `String` has no method: `ReadUint32`, then `ReadBytes`. -/
def readUint32ThenBytes : Reader Str := fun s => do
  let (n, s) ← readUint32 s
  match n with
  | none => .ok (none, s)
  | some n => readBytes n.toNat s

/-- C18, `AddUint32LengthPrefixed`. -/
theorem C18_uint32_prefix {body : Prog} {c : Bytes} (hb : Produces body c) (hl : c.length < 2 ^ 32) :
    RoundTrips (.lenPrefixed 3 body .nil) readUint32ThenBytes (some c) := by
  have he := eval_lenPrefixed (k := 3) (eval_of_produces hb)
  rw [if_pos (by simpa using hl)] at he
  refine roundTrips_of_eval _ he fun rest => ?_
  have h1 : toBE 4 c.length = [((BitVec.ofNat 32 c.length) >>> 24).setWidth 8, ((BitVec.ofNat 32 c.length) >>> 16).setWidth 8,
      ((BitVec.ofNat 32 c.length) >>> 8).setWidth 8, (BitVec.ofNat 32 c.length).setWidth 8] := by
    simp only [toBE, List.nil_append, List.cons_append, List.cons.injEq, and_true]
    refine ⟨?_, ?_, ?_, ?_⟩ <;> apply BitVec.eq_of_toNat_eq <;> simp [Nat.shiftRight_eq_div_pow] <;> omega
  have h2 : (BitVec.ofNat 32 c.length).toNat = c.length := by simp; omega
  unfold readUint32ThenBytes
  show (do let (n, s) ← readUint32 (some (toBE 4 c.length ++ c ++ rest)); _) = _
  rw [List.append_assoc, h1, readUint32_bytes]
  simp only [Res.ok_bind, h2]
  unfold readBytes
  rw [read_append c rest _ rfl]
  rfl

/-- C18: content that does not fit its prefix makes `Bytes` report an error (all four prefix sizes). -/
theorem C18_too_long (k : Fin 4) {body : Prog} {c : Bytes} (hb : Produces body c) (hl : 256 ^ (k.val + 1) ≤ c.length) :
    Reports (.lenPrefixed k body .nil) := by
  have he := eval_lenPrefixed (k := k) (eval_of_produces hb)
  rw [if_neg (by omega)] at he
  exact reports_of_eval he

/-- A nested body meeting the hypotheses. -/
example : Produces (.add [1] (.lenPrefixed 1 (.add [2, 3] .nil) .nil)) [1, 0, 2, 2, 3] :=
  ⟨fun _ _ _ => 0, exHeap, exBuf, exValid, by decide⟩

/-! ## C21 -/

/-- C21: `AddASN1` then `ReadASN1`. -/
theorem C21_add_read {t : Tag} (ht : LowTag t) {body : Prog} {c : Bytes} (hb : Produces body c) (hl : c.length < 2 ^ 32 - 6) :
    RoundTrips (.asn1 t body .nil) (readASN1Tag t) (some c) := by
  have he := eval_asn1 (eval_of_produces hb) ht
  rw [if_pos (by omega)] at he
  exact roundTrips_of_eval _ he fun rest => readASN1Tag_elem rest ht (length_elem_small hl)

/-- C21: and `ReadAnyASN1` also returns the tag. -/
theorem C21_add_readAny {t : Tag} (ht : LowTag t) {body : Prog} {c : Bytes} (hb : Produces body c) (hl : c.length < 2 ^ 32 - 6) :
    RoundTrips (.asn1 t body .nil) readAnyASN1 (t, some c) := by
  have he := eval_asn1 (eval_of_produces hb) ht
  rw [if_pos (by omega)] at he
  exact roundTrips_of_eval _ he fun rest => readASN1_elem true rest ht (length_elem_small hl)

/-- C21: re-building what `ReadAnyASN1` returned reproduces the bytes it consumed. -/
theorem C21_read_add (s : Bytes) (t : Tag) (out : Str) (s' : Str) (h : readAnyASN1 (some s) = .ok (some (t, out), s')) :
    ∃ e rest, s = e ++ rest ∧ s' = some rest ∧ Writes (.asn1 t (.add out.bytes .nil) .nil) e := by
  obtain ⟨c, e, rest, h1, h2, rfl, rfl, rfl⟩ := (C20_readAnyASN1_iff s t out s').1 h
  refine ⟨e, rest, rfl, rfl, ?_⟩
  obtain ⟨rfl, ht⟩ := elem_of_isElem h1 (by omega)
  have := eval_asn1 (t := t) (body := .add c .nil) (c := c) (by simp [eval, Den.prepend]) ht
  rw [if_pos (by rw [length_elem, length_lenOctets] at h2; split at h2 <;> omega)] at this
  exact writes_of_eval this

/-- C21: high-tag-number tags and contents of 2^32-1 bytes or more are reported as errors. -/
theorem C21_refused {t : Tag} {body : Prog} {c : Bytes} (hb : Produces body c) (h : ¬ LowTag t ∨ 2 ^ 32 - 1 ≤ c.length) :
    Reports (.asn1 t body .nil) := by
  by_cases ht : LowTag t
  · rcases h with h | h
    · exact absurd ht h
    · have he := eval_asn1 (eval_of_produces hb) ht
      rw [if_neg (by omega)] at he
      exact reports_of_eval he
  · exact reports_of_eval (by simp [eval, ht])

example : readAnyASN1 (some [0x30, 3, 2, 1, 5, 9]) = .ok (some (0x30, some [2, 1, 5]), some [9]) := by decide

/-! ## C22 -/

theorem eval_asn1_each {t : Tag} (ht : LowTag t) {c : Bytes} (hl : c.length ≤ 9) :
    eval (.asn1 t (addEach c) .nil) false [] = .done (some (elem t c)) [] := by
  have := eval_asn1 (eval_addEach c []) ht
  rwa [if_pos (by omega)] at this

/-- C22: `AddASN1Int64` then `ReadASN1Integer(*int64)`. -/
theorem C22_int64 (v : BitVec 64) : RoundTrips (addASN1Int64 v .nil) readASN1Int64 v :=
  roundTrips_of_eval _ (eval_asn1_each lowTag_INTEGER (Nat.le_succ_of_le (isInt64_length (isInt_signedBytes v))))
    fun rest => (readASN1Int64_iff _ v rest).2 ⟨_, isInt_signedBytes v, rfl⟩

/-- C22: `AddASN1Enum` then `ReadASN1Enum`. -/
theorem C22_enum (v : BitVec 64) : RoundTrips (addASN1Enum v .nil) readASN1Enum v :=
  roundTrips_of_eval _ (eval_asn1_each lowTag_ENUM (Nat.le_succ_of_le (isInt64_length (isInt_signedBytes v))))
    fun rest => (readASN1Enum_iff _ v rest).2 ⟨_, isInt_signedBytes v, rfl⟩

/-- C22: `AddASN1Uint64` then `ReadASN1Integer(*uint64)`. -/
theorem C22_uint64 (v : BitVec 64) : RoundTrips (addASN1Uint64 v .nil) readASN1Uint64 v :=
  roundTrips_of_eval _ (eval_asn1_each lowTag_INTEGER (isUint64_length (isInt_unsignedBytes v)))
    fun rest => (readASN1Uint64_iff _ v rest).2 ⟨_, isInt_unsignedBytes v, rfl⟩

/-- An encoding `e` of a small INTEGER-like value under tag `t`, by X.690 8.3. -/
def IsIntElem (t : Tag) (z : Int) (e : Bytes) : Prop := ∃ c, IsInt z c ∧ IsElem t c e

theorem isIntElem_small {t : Tag} (ht : LowTag t) {z : Int} {s rest : Bytes} (hs : ∀ c, IsInt z c → c.length ≤ 9) :
    (∃ c, IsInt z c ∧ s = elem t c ++ rest) ↔ ∃ e, IsIntElem t z e ∧ s = e ++ rest := by
  constructor
  · rintro ⟨c, h, rfl⟩
    exact ⟨_, ⟨c, h, isElem_elem ht (length_elem_small (by have := hs c h; omega))⟩, rfl⟩
  · rintro ⟨e, ⟨c, h, he⟩, rfl⟩
    have hc := hs c h
    have := (isElem_iff (t := t) (c := c) (e := e) (byteLen_lt_127 (by omega))).1 he
    exact ⟨c, h, by rw [this.2]⟩

/-- C22, what the signed reader accepts: exactly the DER encodings of int64 values. -/
theorem C22_int64_accepts_iff (s rest : Bytes) (v : BitVec 64) :
    readASN1Int64 (some s) = .ok (some v, some rest) ↔ ∃ e, IsIntElem tagINTEGER v.toInt e ∧ s = e ++ rest := by
  rw [readASN1Int64_iff]
  exact isIntElem_small lowTag_INTEGER fun c h => Nat.le_succ_of_le (isInt64_length h)

/-- C22, what the unsigned reader accepts: exactly the DER encodings of uint64 values. -/
theorem C22_uint64_accepts_iff (s rest : Bytes) (v : BitVec 64) :
    readASN1Uint64 (some s) = .ok (some v, some rest) ↔ ∃ e, IsIntElem tagINTEGER v.toNat e ∧ s = e ++ rest := by
  rw [readASN1Uint64_iff]
  exact isIntElem_small lowTag_INTEGER fun c h => isUint64_length h

/-- C22, what `ReadASN1Enum` accepts. -/
theorem C22_enum_accepts_iff (s rest : Bytes) (v : BitVec 64) :
    readASN1Enum (some s) = .ok (some v, some rest) ↔ ∃ e, IsIntElem tagENUM v.toInt e ∧ s = e ++ rest := by
  rw [readASN1Enum_iff]
  exact isIntElem_small lowTag_ENUM fun c h => Nat.le_succ_of_le (isInt64_length h)

/-- C22, canonicity: an accepted encoding is the one the builder writes. -/
theorem C22_int64_canonical (s rest : Bytes) (v : BitVec 64) (h : readASN1Int64 (some s) = .ok (some v, some rest)) :
    ∃ e, s = e ++ rest ∧ Writes (addASN1Int64 v .nil) e := by
  obtain ⟨c, hc, rfl⟩ := (readASN1Int64_iff s v rest).1 h
  refine ⟨_, rfl, ?_⟩
  rw [isInt_unique hc (isInt_signedBytes v)]
  exact writes_of_eval (eval_asn1_each lowTag_INTEGER (Nat.le_succ_of_le (isInt64_length (isInt_signedBytes v))))

theorem C22_enum_canonical (s rest : Bytes) (v : BitVec 64) (h : readASN1Enum (some s) = .ok (some v, some rest)) :
    ∃ e, s = e ++ rest ∧ Writes (addASN1Enum v .nil) e := by
  obtain ⟨c, hc, rfl⟩ := (readASN1Enum_iff s v rest).1 h
  refine ⟨_, rfl, ?_⟩
  rw [isInt_unique hc (isInt_signedBytes v)]
  exact writes_of_eval (eval_asn1_each lowTag_ENUM (Nat.le_succ_of_le (isInt64_length (isInt_signedBytes v))))

theorem C22_uint64_canonical (s rest : Bytes) (v : BitVec 64) (h : readASN1Uint64 (some s) = .ok (some v, some rest)) :
    ∃ e, s = e ++ rest ∧ Writes (addASN1Uint64 v .nil) e := by
  obtain ⟨c, hc, rfl⟩ := (readASN1Uint64_iff s v rest).1 h
  refine ⟨_, rfl, ?_⟩
  rw [isInt_unique hc (isInt_unsignedBytes v)]
  exact writes_of_eval (eval_asn1_each lowTag_INTEGER (isUint64_length (isInt_unsignedBytes v)))

theorem signExtend_setWidth_iff {w : Nat} (hw : 0 < w) (hw' : w ≤ 64) (i : BitVec 64) (u : BitVec w) :
    ((i.setWidth w).signExtend 64 = i ∧ i.setWidth w = u) ↔ i.toInt = u.toInt := by
  constructor
  · rintro ⟨h1, h2⟩
    rw [← h1, h2, BitVec.toInt_signExtend_of_le hw']
  · intro h
    have e : i = u.signExtend 64 := BitVec.eq_of_toInt_eq (by rw [h, BitVec.toInt_signExtend_of_le hw'])
    subst e
    have : (u.signExtend 64).setWidth w = u := by
      apply BitVec.eq_of_getLsbD_eq
      intro j hj
      rw [BitVec.getLsbD_setWidth, BitVec.getLsbD_signExtend]
      simp [hj, show j < 64 by omega]
    rw [this]
    exact ⟨rfl, rfl⟩

/-- C22: a signed target of `w` bits (int8, int16, int32, int64) accepts exactly the encodings of the values it can
hold. -/
theorem C22_signed_width_iff (w : Nat) (hw : 0 < w) (hw' : w ≤ 64) (s rest : Bytes) (u : BitVec w) :
    readASN1IntegerSigned w (some s) = .ok (some u, some rest) ↔ ∃ e, IsIntElem tagINTEGER u.toInt e ∧ s = e ++ rest := by
  have step : readASN1IntegerSigned w (some s) = .ok (some u, some rest) ↔
      ∃ i, readASN1Int64 (some s) = .ok (some i, some rest) ∧ i.toInt = u.toInt := by
    unfold readASN1IntegerSigned
    obtain ⟨r, s', _, h1, _, _⟩ := safe_readASN1Int64 (some s)
    rw [h1]
    simp only [Res.ok_bind]
    cases r with
    | none => simp
    | some i =>
      simp only
      constructor
      · intro h
        split at h
        · simp at h
        · rename_i hi
          simp at h hi
          obtain ⟨rfl, rfl⟩ := h
          exact ⟨i, rfl, (signExtend_setWidth_iff hw hw' i _).1 ⟨hi, rfl⟩⟩
      · rintro ⟨i', h, hi⟩
        simp at h
        obtain ⟨rfl, rfl⟩ := h
        obtain ⟨h2, h3⟩ := (signExtend_setWidth_iff hw hw' i u).2 hi
        rw [if_neg (by simpa using h2), h3]
  rw [step]
  constructor
  · rintro ⟨i, h1, h2⟩
    rw [← h2]
    exact (C22_int64_accepts_iff s rest i).1 h1
  · intro h
    have : (u.signExtend 64).toInt = u.toInt := BitVec.toInt_signExtend_of_le hw'
    exact ⟨u.signExtend 64, (C22_int64_accepts_iff s rest _).2 (by rwa [this]), this⟩

/-- C22: an unsigned target of `w` bits accepts exactly the encodings of the values it can hold. -/
theorem C22_unsigned_width_iff (w : Nat) (hw' : w ≤ 64) (s rest : Bytes) (u : BitVec w) :
    readASN1IntegerUnsigned w (some s) = .ok (some u, some rest) ↔ ∃ e, IsIntElem tagINTEGER u.toNat e ∧ s = e ++ rest := by
  have h64 : 2 ^ w ≤ 2 ^ 64 := Nat.pow_le_pow_right (by omega) hw'
  have key : ∀ i : BitVec 64, ((i.setWidth w).setWidth 64 = i ∧ i.setWidth w = u) ↔ i.toNat = u.toNat := by
    intro i
    have hu := u.isLt
    constructor
    · rintro ⟨h1, h2⟩
      rw [← h1, h2, BitVec.toNat_setWidth, Nat.mod_eq_of_lt (by omega)]
    · intro h
      have e : i.setWidth w = u := BitVec.eq_of_toNat_eq (by rw [BitVec.toNat_setWidth, h, Nat.mod_eq_of_lt hu])
      refine ⟨BitVec.eq_of_toNat_eq ?_, e⟩
      rw [e, BitVec.toNat_setWidth, Nat.mod_eq_of_lt (by omega), h]
  have step : readASN1IntegerUnsigned w (some s) = .ok (some u, some rest) ↔
      ∃ i, readASN1Uint64 (some s) = .ok (some i, some rest) ∧ i.toNat = u.toNat := by
    unfold readASN1IntegerUnsigned
    obtain ⟨r, s', _, h1, _, _⟩ := safe_readASN1Uint64 (some s)
    rw [h1]
    simp only [Res.ok_bind]
    cases r with
    | none => simp
    | some i =>
      simp only
      constructor
      · intro h
        split at h
        · simp at h
        · rename_i hi
          simp only [Res.ok.injEq, Prod.mk.injEq, Option.some.injEq, ne_eq, not_not] at h hi
          obtain ⟨rfl, rfl⟩ := h
          refine ⟨i, rfl, ?_⟩
          have := congrArg BitVec.toNat hi
          rw [BitVec.toNat_setWidth, Nat.mod_eq_of_lt (by have := (i.setWidth w).isLt; omega)] at this
          exact this.symm
      · rintro ⟨i', h, hi⟩
        simp only [Res.ok.injEq, Prod.mk.injEq, Option.some.injEq] at h
        obtain ⟨rfl, rfl⟩ := h
        obtain ⟨h2, h3⟩ := (key i).2 hi
        rw [if_neg (by rw [not_not]; exact h2), h3]
  rw [step]
  constructor
  · rintro ⟨i, h1, h2⟩
    rw [← h2]
    exact (C22_uint64_accepts_iff s rest i).1 h1
  · intro h
    have : (u.setWidth 64).toNat = u.toNat := by
      rw [BitVec.toNat_setWidth, Nat.mod_eq_of_lt (by have := u.isLt; omega)]
    exact ⟨u.setWidth 64, (C22_uint64_accepts_iff s rest _).2 (by rwa [this]), this⟩

example : IsIntElem tagINTEGER (-128) [2, 1, 0x80] :=
  ⟨[0x80], by decide, by decide, [1], IsLength.short 1 (by decide), rfl⟩
example : readASN1IntegerSigned 8 (some [2, 1, 0x80]) = .ok (some (-128), some []) := by decide
example : readASN1IntegerSigned 8 (some [2, 2, 0, 0x80]) = .ok (none, some []) := by decide
example : readASN1IntegerUnsigned 8 (some [2, 2, 0, 0x80]) = .ok (some 128, some []) := by decide
/-- Non-minimal encodings are refused. -/
example : readASN1Int64 (some [2, 2, 0, 0x7f]) = .ok (none, some []) := by decide

/-! ## C23 -/

theorem isInt_byteLen {n : Int} {c : Bytes} (h : IsInt n c) : c.length ≤ byteLen n.natAbs + 1 := by
  have h1 := isInt_inRange h
  rcases h1.2.2 with h2 | h2
  · omega
  · by_contra hc
    apply h2
    have : InRange n (byteLen n.natAbs) := by
      unfold InRange
      have := lt_pow_byteLen n.natAbs
      have h3 : ((n.natAbs : Int)) < 256 ^ byteLen n.natAbs := by exact_mod_cast this
      generalize (256 : Int) ^ byteLen n.natAbs = P at *
      omega
    exact this.mono (by omega)

/-- C23 for every integer except -1 (of at most 2^32-8 bytes). `_partial`: -1 panics,
`C23_bigInt_violated`. -/
theorem C23_bigInt_partial (n : Int) (hn : n ≠ -1) (hs : byteLen n.natAbs ≤ 2 ^ 32 - 8) :
    RoundTrips (addASN1BigInt n .nil) readASN1BigInt n := by
  obtain ⟨c, h1, h2⟩ := eval_bigIntBody hn []
  have hl := isInt_byteLen h2
  have he := eval_asn1 h1 lowTag_INTEGER
  rw [if_pos (by omega)] at he
  exact roundTrips_of_eval _ he fun rest => (readASN1BigInt_iff _ n rest).2 ⟨c, h2, length_elem_small (by omega), rfl⟩

/-- C23: what is written for `n ≠ -1` is the DER encoding of `n`. -/
theorem C23_bigInt_der_partial (n : Int) (hn : n ≠ -1) (hs : byteLen n.natAbs ≤ 2 ^ 32 - 8) :
    ∃ e, IsIntElem tagINTEGER n e ∧ Writes (addASN1BigInt n .nil) e := by
  obtain ⟨c, h1, h2⟩ := eval_bigIntBody hn []
  have hl := isInt_byteLen h2
  have he := eval_asn1 h1 lowTag_INTEGER
  rw [if_pos (by omega)] at he
  exact ⟨_, ⟨c, h2, isElem_elem lowTag_INTEGER (length_elem_small (by omega))⟩, writes_of_eval he⟩

/-- C23 fails at -1: `nMinus1.Bytes()` is empty and `bytes[0]` on line 74 of asn1.go panics, after any program. -/
theorem C23_bigInt_violated (g : Growth) (h : Heap) (buf : Slice) (p : Prog) (a : Bytes) (hv : buf.Valid h)
    (hp : run g h buf p = .ok a) : run g h buf (p.append (addASN1BigInt (-1) .nil)) = .panic := by
  obtain ⟨bs, rfl, hbs⟩ := (run_ok_iff g h buf hv p a).1 hp
  rw [run_panic_iff g h buf hv, eval_append, hbs]
  left
  have : eval (addASN1BigInt (-1) .nil) false [] = .panicked := by decide
  simp only [Den.andThen, this, Den.prepend]

example : run (fun _ _ _ => 0) exHeap exBuf (addASN1BigInt (-129) .nil) = .ok [2, 2, 0xff, 0x7f] := by decide
example : readASN1BigInt (some [2, 2, 0xff, 0x7f, 7]) = .ok (some (-129), some [7]) := by decide

/-! ## C24 -/

/-- C24: OIDs that X.660 does not allow, or with negative components, are reported as errors. -/
theorem C24_invalid_reported (oid : List (BitVec 64)) (h : ¬ (ValidOID (oid.map BitVec.toNat) ∧ ∀ v ∈ oid, 0 ≤ v.toInt)) :
    Reports (addASN1ObjectIdentifier oid .nil) := by
  have hinv : isValidOID oid = false := by
    rw [Bool.eq_false_iff]
    intro hv
    obtain ⟨h1, h2⟩ := (isValidOID_iff oid).1 hv
    exact h ⟨h1, fun v hm => by rw [toInt_of_lt (by omega) (h2 v hm)]; omega⟩
  refine reports_of_eval ?_
  simp only [addASN1ObjectIdentifier, eval, Bool.false_eq_true, if_false, lowTag_OID, if_true, eval_oidBody_invalid hinv, Den.item]

theorem length_flatten_le {vs : List Nat} {gs : List Bytes} {k : Nat} (h : List.Forall₂ (fun (_ : Nat) g => g.length ≤ k) vs gs) :
    gs.flatten.length ≤ k * vs.length := by
  induction h with
  | nil => simp
  | cons h1 _ ih => simp; simp at ih; rw [Nat.mul_add]; omega

theorem isOID_length {oid : List Nat} {c : Bytes} (h : IsOID oid c) {k : Nat} (hk : 0 < k) (hs : ∀ v ∈ subids oid, v < 128 ^ k) :
    c.length ≤ k * oid.length := by
  obtain ⟨hv, gs, rfl, hg⟩ := h
  have : List.Forall₂ (fun (_ : Nat) g => g.length ≤ k) (subids oid) gs := by
    generalize subids oid = vs at *
    induction hg with
    | nil => exact .nil
    | cons h1 _ ih => exact .cons (isSubid_length h1 (hs _ (by simp)) hk) (ih fun v hv => hs v (by simp [hv]))
  have h2 := length_flatten_le this
  obtain ⟨a, b, tl, rfl, e⟩ := subids_valid hv
  rw [e] at h2
  simp at h2 ⊢
  have : k * (tl.length + 1) ≤ k * (tl.length + 1 + 1) := Nat.mul_le_mul_left _ (by omega)
  omega

/-- C24: for every valid OID whose first two components do not overflow an int64 together, the bytes written are the
encoding of X.690 8.19. `_partial`: without the bound on the second component see
`C24_overflow_violated`. -/
theorem C24_builder_der_partial (oid : List (BitVec 64)) (hv : ValidOID (oid.map BitVec.toNat))
    (hn : ∀ v ∈ oid, 0 ≤ v.toInt) (ho : ∀ o1, oid[1]? = some o1 → o1.toNat < 2 ^ 63 - 80) (hs : oid.length < 2 ^ 28) :
    ∃ c e, IsOID (oid.map BitVec.toNat) c ∧ IsElem tagOBJECT_IDENTIFIER c e ∧ Writes (addASN1ObjectIdentifier oid .nil) e := by
  have hnn : ∀ v ∈ oid, v.toNat < 2 ^ 63 := by
    intro v hm
    have hp := hn v hm
    rw [BitVec.toInt_eq_toNat_cond] at hp
    have := v.isLt
    split at hp <;> omega
  obtain ⟨c, h1, h2⟩ := eval_oidBody ((isValidOID_iff oid).2 ⟨hv, hnn⟩) ho []
  have hlen : c.length ≤ 10 * oid.length := by
    have := isOID_length h2 (k := 10) (by omega) ?_
    · simpa using this
    · intro v hm
      match oid with
      | [] => exact absurd hv id
      | [_] => exact absurd hv id
      | o0 :: o1 :: tl =>
        simp [subids] at hm
        rcases hm with rfl | ⟨a, ha, rfl⟩
        · have := ho o1 (by simp)
          have := hv.1
          omega
        · have := hnn a (by simp [ha]); omega
  have he := eval_asn1 h1 lowTag_OID
  rw [if_pos (by omega)] at he
  exact ⟨c, _, h2, isElem_elem lowTag_OID (length_elem_small (by omega)), writes_of_eval he⟩

/-- C24, round-trip, for OIDs all of whose subidentifiers are below 2^28. `_partial`: larger ones are
written but not read, `C24_large_component_violated`. -/
theorem C24_round_trip_partial (oid : List (BitVec 64)) (hv : ValidOID (oid.map BitVec.toNat))
    (hsm : ∀ v ∈ subids (oid.map BitVec.toNat), v < 2 ^ 28) (hs : oid.length < 2 ^ 28) :
    RoundTrips (addASN1ObjectIdentifier oid .nil) readASN1ObjectIdentifier (oid.map BitVec.toNat) := by
  have hsmall : ∀ v ∈ oid, v.toNat < 2 ^ 28 := by
    match oid with
    | [] => simp
    | [_] => exact absurd hv id
    | o0 :: o1 :: tl =>
      intro v hm
      simp [subids] at hm hsm
      rcases hm with rfl | rfl | hm
      · have := hv.1; omega
      · omega
      · exact hsm.2 v hm
  have hvalid : isValidOID oid = true := (isValidOID_iff oid).2 ⟨hv, fun v hm => by have := hsmall v hm; omega⟩
  have ho : ∀ o1, oid[1]? = some o1 → o1.toNat < 2 ^ 63 - 80 := by
    intro o1 h1
    have := hsmall o1 (List.mem_of_getElem? h1); omega
  obtain ⟨c, h1, h2⟩ := eval_oidBody hvalid ho []
  have hlen : c.length ≤ 4 * oid.length := by
    have := isOID_length h2 (k := 4) (by omega) (fun v hm => by have := hsm v hm; omega)
    simpa using this
  have he := eval_asn1 h1 lowTag_OID
  rw [if_pos (by omega)] at he
  refine roundTrips_of_eval _ he fun rest => ?_
  refine readASN1ObjectIdentifier_elem rest ⟨h2.1, ?_⟩ (length_elem_small (by omega))
  obtain ⟨_, gs, rfl, hg⟩ := h2
  refine ⟨gs, rfl, ?_⟩
  generalize subids (oid.map BitVec.toNat) = vs at *
  clear he h1 hlen hv
  induction hg with
  | nil => exact .nil
  | cons g1 _ ih =>
    refine .cons ⟨g1.1, g1.2.2, isSubid_length g1 (by have := hsm _ (List.mem_cons_self); omega) (by omega)⟩ (ih fun v hv => hsm v (by simp [hv]))

/-- C24, exactly what the reader accepts: groups of at most four octets, minimal or not. `_partial`: X.690
demands minimal groups and has no limit of four octets. -/
theorem C24_reader_accepts_partial (s rest : Bytes) (oid : List Nat) :
    readASN1ObjectIdentifier (some s) = .ok (some oid, some rest) ↔
      ∃ gs e, ValidOID oid ∧ List.Forall₂ (fun n g => IsGroup g ∧ subValue g = n ∧ g.length ≤ 4) (subids oid) gs ∧
        IsElem tagOBJECT_IDENTIFIER gs.flatten e ∧ e.length < 2 ^ 32 ∧ s = e ++ rest := by
  constructor
  · intro h
    rcases readASN1ObjectIdentifier_sound (some s) with ⟨_, s', _, h2⟩ | ⟨oid', c, rest', ⟨h1, gs, rfl, hg⟩, h2, h3, h4⟩
    · rw [h2] at h; simp at h
    · rw [h4] at h
      simp at h h3
      obtain ⟨rfl, rfl⟩ := h
      exact ⟨gs, _, h1, hg, isElem_elem lowTag_OID h2, h2, h3⟩
  · rintro ⟨gs, e, h1, h2, h3, h4, rfl⟩
    obtain ⟨rfl, _⟩ := elem_of_isElem h3 h4
    exact readASN1ObjectIdentifier_elem rest ⟨h1, gs, rfl, h2⟩ h4

/-- C24, uniqueness among minimal encodings: two accepted encodings of the same OID without leading 0x80
octets are equal. `_partial`: the reader also accepts others, `C24_unique_violated`. -/
theorem C24_unique_partial (oid : List Nat) (c c' : Bytes) (h : IsOID oid c) (h' : IsOID oid c') : c = c' :=
  isOID_unique h h'

/-- C24 fails: components from 2^28 on are accepted by the builder and refused by the reader. -/
theorem C24_large_component_violated :
    ∃ (oid : List (BitVec 64)) (e : Bytes), ValidOID (oid.map BitVec.toNat) ∧
      Writes (addASN1ObjectIdentifier oid .nil) e ∧ readASN1ObjectIdentifier (some e) = .ok (none, some []) :=
  ⟨[1, 2, 0x10000000], [6, 6, 0x2a, 0x81, 0x80, 0x80, 0x80, 0], by decide, writes_of_eval (by decide), by decide⟩

/-- C24 fails: `40*2 + oid[1]` overflows for `oid[1]` close to 2^63; the builder reports no error and
writes an empty OID. -/
theorem C24_overflow_violated :
    ∃ (oid : List (BitVec 64)), ValidOID (oid.map BitVec.toNat) ∧ (∀ v ∈ oid, 0 ≤ v.toInt) ∧
      Writes (addASN1ObjectIdentifier oid .nil) [6, 0] ∧ readASN1ObjectIdentifier (some [6, 0]) = .ok (none, some []) :=
  ⟨[2, 0x7fffffffffffffff], by decide, by simp, writes_of_eval (by decide +kernel), by decide⟩

/-- C24 fails: two encodings of the same OID are accepted. -/
theorem C24_unique_violated :
    readASN1ObjectIdentifier (some [6, 2, 0x2a, 3]) = .ok (some [1, 2, 3], some []) ∧
    readASN1ObjectIdentifier (some [6, 3, 0x2a, 0x80, 3]) = .ok (some [1, 2, 3], some []) := by decide

example : run (fun _ _ _ => 0) exHeap exBuf (addASN1ObjectIdentifier [1, 2, 840, 113549] .nil) = .ok [6, 6, 0x2a, 0x86, 0x48, 0x86, 0xf7, 0x0d] := by decide
example : readASN1ObjectIdentifier (some [6, 6, 0x2a, 0x86, 0x48, 0x86, 0xf7, 0x0d]) = .ok (some [1, 2, 840, 113549], some []) := by decide
example : ∀ v ∈ subids ([1, 2, 840, 113549] : List Nat), v < 2 ^ 28 := by decide

/-! ## C25: the writer writes what X.690 8.2/11.1 says, so the reader is at fault -/

/-- What `AddASN1Boolean` writes. -/
theorem C25_writer_partial (v : Bool) : Writes (addASN1Boolean v .nil) (elem tagBOOLEAN [if v then 0xff else 0]) := by
  cases v <;> exact writes_of_eval (by decide)

/-! ## C26 -/

/-- C26: octet strings. -/
theorem C26_octetString (data : Bytes) (hl : data.length < 2 ^ 32 - 6) :
    RoundTrips (addASN1OctetString data .nil) (readASN1Bytes tagOCTET_STRING) (some data) :=
  C21_add_read lowTag_OCTET ⟨fun _ _ _ => 0, exHeap, exBuf, exValid, (run_ok_iff _ _ _ exValid _ _).2 ⟨data, rfl, by simp [eval, Den.prepend]⟩⟩ hl

theorem eval_bitString (data : Bytes) (hl : data.length < 2 ^ 32 - 7) :
    eval (addASN1BitString data .nil) false [] = .done (some (elem tagBIT_STRING (0 :: data))) [] := by
  have := eval_asn1 (t := tagBIT_STRING) (body := addUint8 0 (.add data .nil)) (c := 0 :: data)
    (by simp [addUint8, eval, Den.prepend]) lowTag_BITSTR
  rwa [if_pos (by simp; omega)] at this

theorem isBitString_whole (data : Bytes) : IsBitString data (8 * data.length) (0 :: data) :=
  ⟨0, rfl, by decide, by simp, by simp [Nat.mod_one]⟩

/-- C26: bit strings; the bit length is eight times the byte length. -/
theorem C26_bitString (data : Bytes) (hl : data.length < 2 ^ 32 - 7) :
    RoundTrips (addASN1BitString data .nil) readASN1BitString ⟨data, 8 * data.length⟩ := by
  have hlen : (elem tagBIT_STRING (0 :: data)).length < 2 ^ 32 := length_elem_small (by simp; omega)
  exact roundTrips_of_eval _ (eval_bitString data hl) fun rest =>
    (C26_readBitString_iff _ _ rest).2 ⟨8 * data.length, _, _, isBitString_whole data, by simp, isElem_elem lowTag_BITSTR hlen, hlen, rfl⟩

/-- C26: bit strings read as bytes. -/
theorem C26_bitStringAsBytes (data : Bytes) (hl : data.length < 2 ^ 32 - 7) :
    RoundTrips (addASN1BitString data .nil) readASN1BitStringAsBytes (some data) := by
  have hlen : (elem tagBIT_STRING (0 :: data)).length < 2 ^ 32 := length_elem_small (by simp; omega)
  exact roundTrips_of_eval _ (eval_bitString data hl) fun rest =>
    (C26_readBitStringAsBytes_iff _ _ rest).2 ⟨data, _, _, rfl, isBitString_whole data, isElem_elem lowTag_BITSTR hlen, hlen, rfl⟩

example : run (fun _ _ _ => 0) exHeap exBuf (addASN1BitString [7, 8] .nil) = .ok [3, 3, 0, 7, 8] := by decide

end Verif.Props
