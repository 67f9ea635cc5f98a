import Verif.Props.CryptobyteBuilder
import Verif.Props.CryptobyteLocal
/-!
# Property C138: nested messages, written and read

A format is what a user of the package writes down twice: as calls of a Builder and as calls on a String. `Fmt.write` and
`Fmt.read` are these two programs for every format.
-/
namespace Verif.Props
open Verif Verif.CB Verif.Spec.DER Verif.Spec.Builder

/-- Formats of messages, nested to any depth. -/
inductive Fmt where
  | u8 | u16 | u32
  | int64 | enum | uint64
  /-- a fixed number of bytes -/
  | bytes (n : Nat)
  /-- all bytes that are left -/
  | remainder
  /-- content behind its length in 1, 2 or 3 bytes -/
  | prefixed (k : Fin 3) (f : Fmt)
  /-- an ASN.1 element -/
  | element (t : Tag) (f : Fmt)
  | unit
  | pair (f g : Fmt)
  /-- any number of items up to the end -/
  | many (f : Fmt)

/-- The values of a format. -/
def Fmt.Val : Fmt → Type
  | .u8 => Byte
  | .u16 => BitVec 16
  | .u32 => Word
  | .int64 | .enum | .uint64 => BitVec 64
  | .bytes n => { b : Bytes // b.length = n }
  | .remainder => Bytes
  | .prefixed _ f | .element _ f => f.Val
  | .unit => Unit
  | .pair f g => f.Val × g.Val
  | .many f => List f.Val

/-- The calls of a Builder that write a value, before the calls `r`. -/
def Fmt.write : (f : Fmt) → f.Val → Prog → Prog
  | .u8, v, r => addUint8 v r
  | .u16, v, r => addUint16 v r
  | .u32, v, r => addUint32 v r
  | .int64, v, r => addASN1Int64 v r
  | .enum, v, r => addASN1Enum v r
  | .uint64, v, r => addASN1Uint64 v r
  | .bytes _, v, r => .add v.1 r
  | .remainder, v, r => .add v r
  | .prefixed k f, v, r => .lenPrefixed (k.castSucc) (f.write v .nil) r
  | .element t f, v, r => .asn1 t (f.write v .nil) r
  | .unit, _, r => r
  | .pair f g, v, r => f.write v.1 (g.write v.2 r)
  | .many f, vs, r => vs.foldr (fun v p => f.write v p) r

/-- Read the content `c` to its end. -/
def within {α : Type} (rd : Reader α) (c : Str) : Res (Option α) := do
  let (v, c) ← rd c
  .ok (if c.empty then v else none)

/-- `for !s.Empty() { … }`; the fuel only serves termination. -/
def readMany {α : Type} (rd : Reader α) : Nat → Reader (List α)
  | 0, s => if s.empty then .ok (some [], s) else .loop
  | fuel + 1, s =>
    if s.empty then .ok (some [], s)
    else do
      let (v, s) ← rd s
      match v with
      | none => .ok (none, s)
      | some v =>
        let (vs, s) ← readMany rd fuel s
        .ok (vs.map (v :: ·), s)

/-- The calls on a String that read a value. -/
def Fmt.read : (f : Fmt) → Reader f.Val
  | .u8 => readUint8
  | .u16 => readUint16
  | .u32 => readUint32
  | .int64 => readASN1Int64
  | .enum => readASN1Enum
  | .uint64 => readASN1Uint64
  | .bytes n => fun s => do
    let (v, s) ← copyBytes n s
    match v with
    | none => .ok (none, s)
    | some b => if h : b.length = n then .ok (some ⟨b, h⟩, s) else .panic
  | .remainder => fun s => copyBytes s.len s
  | .prefixed k f => fun s => do
    let (c, s) ← readLengthPrefixed (k.val + 1) s
    match c with
    | none => .ok (none, s)
    | some c =>
      let v ← within f.read c
      .ok (v, s)
  | .element t f => fun s => do
    let (c, s) ← readASN1Tag t s
    match c with
    | none => .ok (none, s)
    | some c =>
      let v ← within f.read c
      .ok (v, s)
  | .unit => fun s => .ok (some (), s)
  | .pair f g => fun s => do
    let (a, s) ← f.read s
    match a with
    | none => .ok (none, s)
    | some a =>
      let (b, s) ← g.read s
      .ok (b.map (a, ·), s)
  | .many f => fun s => readMany f.read s.len s

/-- The end of a value can be told from the value. -/
def Fmt.Closed : Fmt → Prop
  | .remainder | .many _ => False
  | .pair f g => f.Closed ∧ g.Closed
  | _ => True

/-- Every value takes at least one byte. -/
def Fmt.Solid : Fmt → Prop
  | .bytes n => 0 < n
  | .remainder | .unit | .many _ => False
  | .pair f g => f.Solid ∨ g.Solid
  | _ => True

/-- What is repeated or followed by something can be told from what follows, and what is repeated is not empty. -/
def Fmt.Proper : Fmt → Prop
  | .prefixed _ f | .element _ f => f.Proper
  | .pair f g => f.Proper ∧ f.Closed ∧ g.Proper
  | .many f => f.Proper ∧ f.Closed ∧ f.Solid
  | _ => True

/-! ## What is written -/

theorem enc_add {bs : Bytes} {r : Prog} {z : Bytes} : Encodes (.add bs r) z ↔ ∃ y, Encodes r y ∧ z = bs ++ y :=
  ⟨fun h => by cases h with | add _ h => exact ⟨_, h, rfl⟩, fun ⟨y, h, e⟩ => e ▸ .add bs h⟩

theorem enc_lp {k : Fin 4} {b r : Prog} {z : Bytes} : Encodes (.lenPrefixed k b r) z ↔
    ∃ c y, Encodes b c ∧ c.length < 256 ^ (k.val + 1) ∧ Encodes r y ∧ z = toBE (k.val + 1) c.length ++ c ++ y :=
  ⟨fun h => by cases h with | lenPrefixed _ h1 h2 h3 => exact ⟨_, _, h1, h2, h3, rfl⟩, fun ⟨c, y, h1, h2, h3, e⟩ => e ▸ .lenPrefixed k h1 h2 h3⟩

theorem enc_asn1 {t : Tag} {b r : Prog} {z : Bytes} : Encodes (.asn1 t b r) z ↔
    ∃ c y, LowTag t ∧ Encodes b c ∧ c.length ≤ 2 ^ 32 - 2 ∧ Encodes r y ∧ z = elem t c ++ y := by
  constructor
  · intro h
    cases h with
    | @asn1 _ _ _ c l x h1 h2 h3 h4 h5 =>
      have hll : l = lenOctets c.length := (isLength_iff (byteLen_lt_127 (by omega))).1 h4
      subst hll
      exact ⟨c, x, (lowTag_iff t).2 h1, h2, h3, h5, by simp [elem]⟩
  · rintro ⟨c, y, h1, h2, h3, h5, rfl⟩
    have := Encodes.asn1 (t := t) ((lowTag_iff t).1 h1) h2 h3 ((isLength_iff (byteLen_lt_127 (by omega))).2 rfl) h5
    simpa [elem] using this

theorem enc_each (bs c : Bytes) : Encodes (addEach bs) c ↔ c = bs := by
  induction bs generalizing c with
  | nil => exact ⟨fun h => by cases h; rfl, fun h => by subst h; exact .nil⟩
  | cons b bs ih =>
    rw [addEach, enc_add]
    constructor
    · rintro ⟨y, h, rfl⟩; rw [(ih y).1 h]; rfl
    · rintro rfl; exact ⟨bs, (ih bs).2 rfl, rfl⟩

theorem enc_nil (z : Bytes) : Encodes .nil z ↔ z = [] := ⟨fun h => by cases h; rfl, fun h => h ▸ .nil⟩

/-- The bytes of a value, then those of what follows. -/
theorem enc_write (f : Fmt) : ∀ (v : f.Val) (r : Prog) (z : Bytes), Encodes (f.write v r) z ↔
    ∃ x y, Encodes (f.write v .nil) x ∧ Encodes r y ∧ z = x ++ y := by
  have hadd : ∀ (bs : Bytes) (r : Prog) (z : Bytes), Encodes (.add bs r) z ↔ ∃ x y, Encodes (.add bs .nil) x ∧ Encodes r y ∧ z = x ++ y := by
    intro bs r z
    simp only [enc_add, enc_nil]
    constructor
    · rintro ⟨y, h, rfl⟩; exact ⟨bs, y, ⟨[], rfl, by simp⟩, h, rfl⟩
    · rintro ⟨x, y, ⟨_, rfl, rfl⟩, h, rfl⟩; exact ⟨y, h, by simp⟩
  have hasn : ∀ (t : Tag) (b r : Prog) (z : Bytes), Encodes (.asn1 t b r) z ↔ ∃ x y, Encodes (.asn1 t b .nil) x ∧ Encodes r y ∧ z = x ++ y := by
    intro t b r z
    simp only [enc_asn1, enc_nil]
    constructor
    · rintro ⟨c, y, h1, h2, h3, h4, rfl⟩; exact ⟨_, y, ⟨c, [], h1, h2, h3, rfl, rfl⟩, h4, by simp⟩
    · rintro ⟨_, y, ⟨c, _, h1, h2, h3, rfl, rfl⟩, h4, rfl⟩; exact ⟨c, y, h1, h2, h3, h4, by simp⟩
  induction f with
  | u8 => intro v r z; exact hadd _ r z
  | u16 => intro v r z; exact hadd _ r z
  | u32 => intro v r z; exact hadd _ r z
  | int64 => intro v r z; exact hasn _ _ r z
  | enum => intro v r z; exact hasn _ _ r z
  | uint64 => intro v r z; exact hasn _ _ r z
  | bytes n => intro v r z; exact hadd _ r z
  | remainder => intro v r z; exact hadd _ r z
  | prefixed k f ih =>
    intro v r z
    simp only [Fmt.write, enc_lp, enc_nil]
    constructor
    · rintro ⟨c, y, h1, h2, h3, rfl⟩; exact ⟨_, y, ⟨c, [], h1, h2, rfl, rfl⟩, h3, by simp⟩
    · rintro ⟨_, y, ⟨c, _, h1, h2, rfl, rfl⟩, h3, rfl⟩; exact ⟨c, y, h1, h2, h3, by simp⟩
  | element t f ih => intro v r z; exact hasn _ _ r z
  | unit => intro v r z; simp only [Fmt.write, enc_nil]; exact ⟨fun h => ⟨[], z, rfl, h, rfl⟩, fun ⟨x, y, h1, h2, h3⟩ => by subst h1; rw [h3]; exact h2⟩
  | pair f g ihf ihg =>
    intro v r z
    simp only [Fmt.write]
    rw [ihf v.1 (g.write v.2 r)]
    constructor
    · rintro ⟨x, y, h1, h2, rfl⟩
      obtain ⟨x', y', h3, h4, rfl⟩ := (ihg v.2 r y).1 h2
      exact ⟨x ++ x', y', (ihf v.1 _ _).2 ⟨x, x', h1, h3, rfl⟩, h4, by simp⟩
    · rintro ⟨w, y, h1, h2, rfl⟩
      obtain ⟨x, x', h3, h4, rfl⟩ := (ihf v.1 _ w).1 h1
      exact ⟨x, x' ++ y, h3, (ihg v.2 r _).2 ⟨x', y, h4, h2, rfl⟩, by simp⟩
  | many f ih =>
    intro vs
    simp only [Fmt.write]
    induction vs with
    | nil => intro r z; simp only [List.foldr_nil, enc_nil]; exact ⟨fun h => ⟨[], z, rfl, h, rfl⟩, fun ⟨x, y, h1, h2, h3⟩ => by subst h1; rw [h3]; exact h2⟩
    | cons v vs ihv =>
      intro r z
      simp only [List.foldr_cons]
      rw [ih v]
      constructor
      · rintro ⟨x, y, h1, h2, rfl⟩
        obtain ⟨x', y', h3, h4, rfl⟩ := (ihv r y).1 h2
        exact ⟨x ++ x', y', (ih v _ _).2 ⟨x, x', h1, h3, rfl⟩, h4, by simp⟩
      · rintro ⟨w, y, h1, h2, rfl⟩
        obtain ⟨x, x', h3, h4, rfl⟩ := (ih v _ w).1 h1
        exact ⟨x, x' ++ y, h3, (ihv r _).2 ⟨x', y, h4, h2, rfl⟩, by simp⟩

/-- Values of a solid format take at least one byte. -/
theorem solid_pos (f : Fmt) : ∀ (v : f.Val) (x : Bytes), f.Solid → Encodes (f.write v .nil) x → x ≠ [] := by
  have hasn : ∀ (t : Tag) (b : Prog) (x : Bytes), Encodes (.asn1 t b .nil) x → x ≠ [] := by
    intro t b x h
    obtain ⟨c, y, _, _, _, _, rfl⟩ := enc_asn1.1 h
    simp [elem]
  induction f with
  | u8 => intro v x _ h; obtain ⟨y, _, rfl⟩ := enc_add.1 h; simp
  | u16 => intro v x _ h; obtain ⟨y, _, rfl⟩ := enc_add.1 h; simp
  | u32 => intro v x _ h; obtain ⟨y, _, rfl⟩ := enc_add.1 h; simp
  | int64 => intro v x _ h; exact hasn _ _ _ h
  | enum => intro v x _ h; exact hasn _ _ _ h
  | uint64 => intro v x _ h; exact hasn _ _ _ h
  | bytes n =>
    intro v x hs h
    obtain ⟨y, _, rfl⟩ := enc_add.1 h
    obtain ⟨b, hb⟩ := v
    simp only [Fmt.Solid] at hs
    intro he
    simp only [List.append_eq_nil_iff] at he
    rw [he.1] at hb
    simp at hb
    omega
  | remainder => intro v x hs; exact hs.elim
  | prefixed k f ih =>
    intro v x _ h
    obtain ⟨c, y, _, _, _, rfl⟩ := enc_lp.1 h
    have := length_toBE (k.castSucc.val + 1) c.length
    intro he
    simp only [List.append_eq_nil_iff] at he
    rw [he.1.1] at this
    simp at this
  | element t f ih => intro v x _ h; exact hasn _ _ _ h
  | unit => intro v x hs; exact hs.elim
  | pair f g ihf ihg =>
    intro v x hs h
    obtain ⟨x', y, h1, h2, rfl⟩ := (enc_write f v.1 _ _).1 h
    rcases hs with hs | hs
    · have := ihf v.1 _ hs h1; simp [this]
    · have := ihg v.2 _ hs h2; simp [this]
  | many f ih => intro v x hs; exact hs.elim

/-! ## What is read -/

/-- Reading gives exactly what writing wrote. -/
def Exact (f : Fmt) : Prop :=
  ∀ (s : Bytes) (v : f.Val) (t : Str), s.length < 2 ^ 32 → (f.read (some s) = .ok (some v, t) ↔
    ∃ x rest, t = some rest ∧ Encodes (f.write v .nil) x ∧ s = x ++ rest ∧ (f.Closed ∨ rest = []))

theorem exact_add {f : Fmt} (hc : f.Closed) (w : f.Val → Bytes) (hw : ∀ v r, f.write v r = .add (w v) r)
    (hl : Local f.read) (h : ∀ s v rest, f.read (some s) = .ok (some v, some rest) ↔ s = w v ++ rest) : Exact f := by
  intro s v t _
  constructor
  · intro hr
    obtain ⟨_, rest, _, rfl, _⟩ := hl _ _ _ hr
    exact ⟨w v, rest, rfl, by rw [hw]; exact enc_add.2 ⟨[], .nil, by simp⟩, (h _ _ _).1 hr, .inl hc⟩
  · rintro ⟨x, rest, rfl, hx, rfl, _⟩
    rw [hw] at hx
    obtain ⟨y, hy, rfl⟩ := enc_add.1 hx
    cases hy
    exact (h _ _ _).2 (by simp)

theorem exact_asn {f : Fmt} (hc : f.Closed) (tag : Tag) (ht : LowTag tag) (w : f.Val → Bytes) (hs : ∀ v, (w v).length ≤ 2 ^ 32 - 2)
    (b : f.Val → Prog) (hw : ∀ v r, f.write v r = .asn1 tag (b v) r) (hb : ∀ v c, Encodes (b v) c ↔ c = w v)
    (hl : Local f.read) (h : ∀ s v rest, f.read (some s) = .ok (some v, some rest) ↔ s = elem tag (w v) ++ rest) : Exact f := by
  intro s v t _
  constructor
  · intro hr
    obtain ⟨_, rest, _, rfl, _⟩ := hl _ _ _ hr
    exact ⟨elem tag (w v), rest, rfl, by rw [hw]; exact enc_asn1.2 ⟨w v, [], ht, (hb _ _).2 rfl, hs v, .nil, by simp⟩, (h _ _ _).1 hr, .inl hc⟩
  · rintro ⟨x, rest, rfl, hx, rfl, _⟩
    rw [hw] at hx
    obtain ⟨c, y, _, h1, _, hy, rfl⟩ := enc_asn1.1 hx
    cases hy
    rw [(hb _ _).1 h1]
    exact (h _ _ _).2 (by simp)

theorem readUint8_iff (s : Bytes) (v : Byte) (rest : Bytes) : readUint8 (some s) = .ok (some v, some rest) ↔ s = [v] ++ rest := by
  match s with
  | [] => simp [readUint8, CB.read]
  | a :: s =>
    have := read_append [a] s 1 rfl
    unfold readUint8
    rw [show (1 : Int) = (1 : Nat) from rfl, show a :: s = [a] ++ s from rfl, this]
    simp [Str.at]

theorem readUint16_iff (s : Bytes) (v : BitVec 16) (rest : Bytes) :
    readUint16 (some s) = .ok (some v, some rest) ↔ s = [(v >>> 8).setWidth 8, v.setWidth 8] ++ rest := by
  match s with
  | [] => simp [readUint16, CB.read]
  | [_] => simp [readUint16, CB.read]
  | a :: b :: s =>
    have := read_append [a, b] s 2 rfl
    unfold readUint16
    rw [show (2 : Int) = (2 : Nat) from rfl, show a :: b :: s = [a, b] ++ s from rfl, this]
    simp only [Res.ok_bind, Str.at, bytes_some, List.getElem?_cons_zero, List.getElem?_cons_succ, Res.ok.injEq, Prod.mk.injEq, Option.some.injEq,
      List.cons_append, List.nil_append, List.cons.injEq]
    rw [← and_assoc]
    refine and_congr ?_ Iff.rfl
    constructor
    · rintro rfl
      constructor
      · apply BitVec.eq_of_getLsbD_eq
        intro i hi
        simp [hi, show 8 + i < 16 by omega]
      · apply BitVec.eq_of_getLsbD_eq
        intro i hi
        simp [hi]
    · rintro ⟨rfl, rfl⟩
      apply BitVec.eq_of_getLsbD_eq
      intro i hi
      simp only [BitVec.getLsbD_or, BitVec.getLsbD_shiftLeft, BitVec.getLsbD_setWidth, BitVec.getLsbD_ushiftRight, hi, decide_true, Bool.true_and]
      by_cases h8 : i < 8
      · simp [h8]
      · simp [h8, show i - 8 < 16 by omega, show i - 8 < 8 by omega, show 8 + (i - 8) = i by omega]

theorem readUint32_iff (s : Bytes) (v : Word) (rest : Bytes) :
    readUint32 (some s) = .ok (some v, some rest) ↔
      s = [(v >>> 24).setWidth 8, (v >>> 16).setWidth 8, (v >>> 8).setWidth 8, v.setWidth 8] ++ rest := by
  constructor
  · intro h
    match s, h with
    | [], h => simp [readUint32, CB.read] at h
    | [_], h => simp [readUint32, CB.read] at h
    | [_, _], h => simp [readUint32, CB.read] at h
    | [_, _, _], h => simp [readUint32, CB.read] at h
    | a :: b :: c :: d :: s, h =>
      have := read_append [a, b, c, d] s 4 rfl
      unfold readUint32 at h
      rw [show (4 : Int) = (4 : Nat) from rfl, show a :: b :: c :: d :: s = [a, b, c, d] ++ s from rfl, this] at h
      simp only [Res.ok_bind, Str.at, bytes_some, List.getElem?_cons_zero, List.getElem?_cons_succ, Res.ok.injEq, Prod.mk.injEq, Option.some.injEq] at h
      obtain ⟨rfl, rfl⟩ := h
      simp only [List.cons_append, List.nil_append, List.cons.injEq, and_true]
      refine ⟨?_, ?_, ?_, ?_⟩
      all_goals
        apply BitVec.eq_of_getLsbD_eq
        intro i hi
        simp only [BitVec.getLsbD_or, BitVec.getLsbD_shiftLeft, BitVec.getLsbD_setWidth, BitVec.getLsbD_ushiftRight, hi, decide_true, Bool.true_and]
      · simp [hi, show 24 + i < 32 by omega, show i < 32 by omega, BitVec.getLsbD_of_ge b (24 + i - 16) (by omega), BitVec.getLsbD_of_ge c (24 + i - 8) (by omega), BitVec.getLsbD_of_ge d (24 + i) (by omega)]
      · simp [hi, show 16 + i < 32 by omega, show i < 32 by omega, show 16 + i < 24 by omega, BitVec.getLsbD_of_ge c (16 + i - 8) (by omega), BitVec.getLsbD_of_ge d (16 + i) (by omega)]
      · simp [hi, show 8 + i < 32 by omega, show i < 32 by omega, show 8 + i < 24 by omega, show 8 + i < 16 by omega]
      · simp [hi, show i < 32 by omega, show i < 24 by omega, show i < 16 by omega]
  · rintro rfl
    exact readUint32_bytes v rest

theorem copyBytes_iff (n : Nat) (s v rest : Bytes) : copyBytes n (some s) = .ok (some v, some rest) ↔ v.length = n ∧ s = v ++ rest := by
  unfold copyBytes
  by_cases h : n ≤ s.length
  · rw [read_some h]
    simp only [Res.ok_bind]
    rw [if_pos (by simp; omega)]
    simp only [List.take_take, Nat.min_self, Res.ok.injEq, Prod.mk.injEq, Option.some.injEq]
    constructor
    · rintro ⟨rfl, rfl⟩; exact ⟨by simp; omega, by simp⟩
    · rintro ⟨rfl, rfl⟩; simp
  · rw [read_short (by simp; omega)]
    simp only [Res.ok_bind, Res.ok.injEq, Prod.mk.injEq]
    constructor
    · rintro ⟨h, _⟩; cases h
    · rintro ⟨rfl, rfl⟩; simp at h

theorem readLengthPrefixed_iff (k : Nat) (hk : k ≤ 4) (s : Bytes) (c t : Str) : readLengthPrefixed k (some s) = .ok (some c, t) ↔
    ∃ c' rest, c = some c' ∧ t = some rest ∧ c'.length < 256 ^ k ∧ s = toBE k c'.length ++ c' ++ rest := by
  by_cases h : k ≤ s.length
  · rw [readLengthPrefixed_eq h hk]
    have hlt := beNat_lt (s.take k)
    have hlen : (s.take k).length = k := by simp; omega
    rw [hlen] at hlt
    split
    · rename_i h2
      simp only [Res.ok.injEq, Prod.mk.injEq, Option.some.injEq]
      have hl : ((s.drop k).take (beNat (s.take k))).length = beNat (s.take k) := by simp; omega
      constructor
      · rintro ⟨rfl, rfl⟩
        refine ⟨_, _, rfl, rfl, by omega, ?_⟩
        rw [hl, toBE_beNat' hlen, List.append_assoc, List.take_append_drop, List.take_append_drop]
      · rintro ⟨c', rest, rfl, rfl, h3, h4⟩
        have h5 : s.take k = toBE k c'.length := by rw [h4, List.append_assoc]; exact List.take_left' (by simp)
        have h6 : s.drop k = c' ++ rest := by rw [h4, List.append_assoc]; exact List.drop_left' (by simp)
        rw [h5, h6, beNat_toBE_of_lt h3]
        simp
    · rename_i h2
      simp only [Res.ok.injEq, Prod.mk.injEq, reduceCtorEq, false_and, false_iff]
      rintro ⟨c', rest, rfl, rfl, h3, h4⟩
      have h5 : s.take k = toBE k c'.length := by rw [h4, List.append_assoc]; exact List.take_left' (by simp)
      rw [h5, beNat_toBE_of_lt h3, h4] at h2
      simp at h2
  · have hr : readLengthPrefixed k (some s) = .ok (none, some s) := by
      unfold readLengthPrefixed; rw [read_short (by simp; omega)]; rfl
    rw [hr]
    simp only [Res.ok.injEq, Prod.mk.injEq, reduceCtorEq, false_and, false_iff]
    rintro ⟨c', rest, rfl, rfl, h3, h4⟩
    rw [h4] at h
    simp at h

theorem readASN1Tag_iff (tag : Tag) (s : Bytes) (c t : Str) : readASN1Tag tag (some s) = .ok (some c, t) ↔
    ∃ c' rest, c = some c' ∧ t = some rest ∧ LowTag tag ∧ (elem tag c').length < 2 ^ 32 ∧ s = elem tag c' ++ rest := by
  constructor
  · intro h
    rcases readASN1Tag_cases tag (some s) with h1 | ⟨t', c', rest, h1, h2, h3, h4, h5⟩ | ⟨c', rest, h1, h2, h3, h4⟩
    · rw [h1] at h; simp at h
    · rw [h5] at h; simp at h
    · rw [h4] at h
      simp only [Res.ok.injEq, Prod.mk.injEq, Option.some.injEq] at h h3
      exact ⟨c', rest, h.1.symm, h.2.symm, h1, h2, h3⟩
  · rintro ⟨c', rest, rfl, rfl, h1, h2, rfl⟩
    exact readASN1Tag_elem rest h1 h2

/-- Content read to its end. -/
theorem within_iff {f : Fmt} (h : Exact f) (c : Bytes) (v : f.Val) (hc : c.length < 2 ^ 32) :
    within f.read (some c) = .ok (some v) ↔ Encodes (f.write v .nil) c := by
  unfold within
  rw [Res.bind_eq_ok]
  constructor
  · rintro ⟨⟨r, t⟩, h1, h2⟩
    simp only [Res.ok.injEq] at h2
    split at h2
    · rename_i he
      subst h2
      obtain ⟨x, rest, rfl, h3, rfl, _⟩ := (h _ _ _ hc).1 h1
      simp [Str.empty] at he
      subst he
      simpa using h3
    · cases h2
  · intro h1
    exact ⟨(some v, some []), (h _ _ _ hc).2 ⟨c, [], rfl, h1, by simp, .inr rfl⟩, by simp [Str.empty]⟩

theorem elem_longer (t : Tag) (c : Bytes) : c.length + 2 ≤ (elem t c).length := by
  have : 1 ≤ (lenOctets c.length).length := by rw [length_lenOctets]; split <;> omega
  simp only [elem, List.length_cons, List.length_append]
  omega

theorem exact_many {f : Fmt} (h : Exact f) (hc : f.Closed) (hsol : f.Solid) : ∀ (fuel : Nat) (s : Bytes) (vs : List f.Val) (t : Str),
    s.length ≤ fuel → s.length < 2 ^ 32 →
    (readMany f.read fuel (some s) = .ok (some vs, t) ↔ t = some [] ∧ Encodes (vs.foldr (fun v p => f.write v p) .nil) s) := by
  intro fuel
  induction fuel with
  | zero =>
    intro s vs t hf _
    have : s = [] := List.length_eq_zero_iff.1 (by omega)
    subst this
    simp only [readMany, Str.empty, len_some, List.length_nil, decide_true, if_true, Res.ok.injEq, Prod.mk.injEq, Option.some.injEq]
    constructor
    · rintro ⟨rfl, rfl⟩; exact ⟨rfl, .nil⟩
    · rintro ⟨rfl, h1⟩
      refine ⟨?_, rfl⟩
      cases vs with
      | nil => rfl
      | cons v vs =>
        obtain ⟨x, y, h2, _, h3⟩ := (enc_write f v _ _).1 h1
        exact absurd (List.append_eq_nil_iff.1 h3.symm).1 (solid_pos f v x hsol h2)
  | succ fuel ih =>
    intro s vs t hf hl
    cases s with
    | nil =>
      simp only [readMany, Str.empty, len_some, List.length_nil, decide_true, if_true, Res.ok.injEq, Prod.mk.injEq, Option.some.injEq]
      constructor
      · rintro ⟨rfl, rfl⟩; exact ⟨rfl, .nil⟩
      · rintro ⟨rfl, h1⟩
        refine ⟨?_, rfl⟩
        cases vs with
        | nil => rfl
        | cons v vs =>
          obtain ⟨x, y, h2, _, h3⟩ := (enc_write f v _ _).1 h1
          exact absurd (List.append_eq_nil_iff.1 h3.symm).1 (solid_pos f v x hsol h2)
    | cons b s =>
      rw [readMany, if_neg (by simp [Str.empty]), Res.bind_eq_ok]
      constructor
      · rintro ⟨⟨r, s1⟩, h1, h2⟩
        cases r with
        | none => simp at h2
        | some v =>
          simp only [Res.bind_eq_ok] at h2
          obtain ⟨⟨r2, s2⟩, h2, h3⟩ := h2
          simp only [Res.ok.injEq, Prod.mk.injEq, Option.map_eq_some_iff] at h3
          obtain ⟨⟨vs', rfl, rfl⟩, rfl⟩ := h3
          obtain ⟨x, rest, rfl, h4, h5, _⟩ := (h _ _ _ hl).1 h1
          have h6 := congrArg List.length h5
          have h7 := List.length_pos_of_ne_nil (solid_pos f v x hsol h4)
          simp only [List.length_cons, List.length_append] at h6 hf hl
          obtain ⟨h8, h9⟩ := (ih rest vs' s2 (by omega) (by omega)).1 h2
          exact ⟨h8, (enc_write f v _ _).2 ⟨x, rest, h4, h9, h5⟩⟩
      · rintro ⟨rfl, h1⟩
        cases vs with
        | nil => cases h1
        | cons v vs =>
          obtain ⟨x, rest, h4, h9, h5⟩ := (enc_write f v _ _).1 h1
          have h6 := congrArg List.length h5
          have h7 := List.length_pos_of_ne_nil (solid_pos f v x hsol h4)
          have h10 := (h _ v (some rest) hl).2 ⟨x, rest, rfl, h4, h5, .inl hc⟩
          simp only [List.length_cons, List.length_append] at h6 hf hl
          refine ⟨_, h10, ?_⟩
          simp only [(ih rest vs (some []) (by omega) (by omega)).2 ⟨rfl, h9⟩, Res.ok_bind, Option.map_some]

theorem exact_remainder (s v : Bytes) (t : Str) : copyBytes (Str.len (some s)) (some s) = .ok (some v, t) ↔
    ∃ x rest, t = some rest ∧ Encodes (.add v .nil) x ∧ s = x ++ rest ∧ (False ∨ rest = []) := by
  simp only [false_or, len_some]
  constructor
  · intro h
    obtain ⟨_, rest, _, rfl, _⟩ := C93_copyBytes _ _ _ _ h
    obtain ⟨h1, h2⟩ := (copyBytes_iff _ _ _ _).1 h
    have : rest = [] := by
      have := congrArg List.length h2
      simp only [List.length_append] at this
      exact List.length_eq_zero_iff.1 (by omega)
    subst this
    exact ⟨v, [], rfl, enc_add.2 ⟨[], .nil, by simp⟩, h2, rfl⟩
  · rintro ⟨x, rest, rfl, hx, rfl, rfl⟩
    obtain ⟨y, hy, rfl⟩ := enc_add.1 hx
    cases hy
    exact (copyBytes_iff _ _ _ _).2 ⟨by simp, by simp⟩

theorem fmt_exact (f : Fmt) : f.Proper → Exact f := by
  induction f with
  | u8 => intro _; exact exact_add trivial (fun v => [v]) (fun _ _ => rfl) C93_readUint8 readUint8_iff
  | u16 => intro _; exact exact_add trivial _ (fun _ _ => rfl) C93_readUint16 readUint16_iff
  | u32 => intro _; exact exact_add trivial _ (fun _ _ => rfl) C93_readUint32 readUint32_iff
  | int64 =>
    intro _
    refine exact_asn trivial tagINTEGER lowTag_INTEGER (fun v => signedBytes v (signedLen 8 v.toInt 1)) (fun v => ?_) _ (fun _ _ => rfl) (fun v c => enc_each _ _)
      C93_readASN1Int64 fun s v rest => ?_
    · have := isInt64_length (isInt_signedBytes v); omega
    · refine (readASN1Int64_iff s v rest).trans ⟨?_, fun h => ⟨_, isInt_signedBytes v, h⟩⟩
      rintro ⟨c, h1, h2⟩; rw [h2, isInt_unique h1 (isInt_signedBytes v)]
  | enum =>
    intro _
    refine exact_asn trivial tagENUM lowTag_ENUM (fun v => signedBytes v (signedLen 8 v.toInt 1)) (fun v => ?_) _ (fun _ _ => rfl) (fun v c => enc_each _ _)
      C93_readASN1Enum fun s v rest => ?_
    · have := isInt64_length (isInt_signedBytes v); omega
    · refine (readASN1Enum_iff s v rest).trans ⟨?_, fun h => ⟨_, isInt_signedBytes v, h⟩⟩
      rintro ⟨c, h1, h2⟩; rw [h2, isInt_unique h1 (isInt_signedBytes v)]
  | uint64 =>
    intro _
    refine exact_asn trivial tagINTEGER lowTag_INTEGER (fun v => unsignedBytes v (unsignedLen 8 v.toNat 1)) (fun v => ?_) _ (fun _ _ => rfl) (fun v c => enc_each _ _)
      C93_readASN1Uint64 fun s v rest => ?_
    · have := isUint64_length (isInt_unsignedBytes v); omega
    · refine (readASN1Uint64_iff s v rest).trans ⟨?_, fun h => ⟨_, isInt_unsignedBytes v, h⟩⟩
      rintro ⟨c, h1, h2⟩; rw [h2, isInt_unique h1 (isInt_unsignedBytes v)]
  | bytes n =>
    intro _
    have hrd : ∀ s v t, (Fmt.bytes n).read s = .ok (some v, t) ↔ copyBytes n s = .ok (some v.1, t) := by
      intro s v t
      simp only [Fmt.read, Res.bind_eq_ok]
      constructor
      · rintro ⟨⟨r, s1⟩, h1, h2⟩
        cases r with
        | none => simp at h2
        | some b =>
          simp only at h2
          split at h2
          · cases h2
            exact h1
          · cases h2
      · intro h
        exact ⟨_, h, by simp only [v.2, dif_pos]; rfl⟩
    intro s v t _
    rw [hrd]
    constructor
    · intro h
      obtain ⟨_, rest, _, rfl, _⟩ := C93_copyBytes n _ _ _ h
      exact ⟨v.1, rest, rfl, enc_add.2 ⟨[], .nil, by simp⟩, ((copyBytes_iff _ _ _ _).1 h).2, .inl trivial⟩
    · rintro ⟨x, rest, rfl, hx, rfl, _⟩
      obtain ⟨y, hy, rfl⟩ := enc_add.1 hx
      cases hy
      exact (copyBytes_iff _ _ _ _).2 ⟨v.2, by simp⟩
  | remainder => intro _ s v t _; exact exact_remainder s v t
  | prefixed k f ih =>
    intro hp s v t hl
    have ih := ih hp
    simp only [Fmt.read, Fmt.write, Res.bind_eq_ok]
    constructor
    · rintro ⟨⟨r, s1⟩, h1, h2⟩
      cases r with
      | none => simp at h2
      | some c =>
        obtain ⟨c', rest, rfl, rfl, h3, rfl⟩ := (readLengthPrefixed_iff _ (by omega) _ _ _).1 h1
        simp only [Res.bind_eq_ok] at h2
        obtain ⟨r, h2, h5⟩ := h2
        cases h5
        simp only [List.length_append] at hl
        refine ⟨_, rest, rfl, enc_lp.2 ⟨c', [], (within_iff ih _ _ (by omega)).1 h2, by simpa using h3, .nil, rfl⟩, by simp, .inl trivial⟩
    · rintro ⟨x, rest, rfl, hx, rfl, _⟩
      obtain ⟨c, y, h1, h2, hy, rfl⟩ := enc_lp.1 hx
      cases hy
      simp only [List.length_append] at hl
      refine ⟨(some (some c), some rest), (readLengthPrefixed_iff _ (by omega) _ _ _).2 ⟨c, rest, rfl, rfl, by simpa using h2, by simp⟩, ?_⟩
      simp only [(within_iff ih c v (by omega)).2 h1, Res.ok_bind]
      rfl
  | element tag f ih =>
    intro hp s v t hl
    have ih := ih hp
    simp only [Fmt.read, Fmt.write, Res.bind_eq_ok]
    constructor
    · rintro ⟨⟨r, s1⟩, h1, h2⟩
      cases r with
      | none => simp at h2
      | some c =>
        obtain ⟨c', rest, rfl, rfl, h3, h4, rfl⟩ := (readASN1Tag_iff _ _ _ _).1 h1
        have := elem_longer tag c'
        simp only [Res.bind_eq_ok] at h2
        obtain ⟨r, h2, h5⟩ := h2
        cases h5
        refine ⟨_, rest, rfl, enc_asn1.2 ⟨c', [], h3, (within_iff ih _ _ (by omega)).1 h2, by omega, .nil, rfl⟩, by simp, .inl trivial⟩
    · rintro ⟨x, rest, rfl, hx, rfl, _⟩
      obtain ⟨c, y, h0, h1, h2, hy, rfl⟩ := enc_asn1.1 hx
      cases hy
      simp only [List.length_append] at hl
      have := elem_longer tag c
      refine ⟨(some (some c), some rest), (readASN1Tag_iff _ _ _ _).2 ⟨c, rest, rfl, rfl, h0, by omega, by simp⟩, ?_⟩
      simp only [(within_iff ih c v (by omega)).2 h1, Res.ok_bind]
      rfl
  | unit =>
    intro _ s v t _
    simp only [Fmt.read, Fmt.write, enc_nil, Fmt.Closed, true_or, and_true, Res.ok.injEq, Prod.mk.injEq]
    constructor
    · rintro ⟨_, rfl⟩; exact ⟨[], s, rfl, rfl, rfl⟩
    · rintro ⟨x, rest, rfl, rfl, rfl⟩; exact ⟨rfl, rfl⟩
  | pair f g ihf ihg =>
    rintro ⟨hf, hc, hg⟩ s v t hl
    have ihf := ihf hf
    have ihg := ihg hg
    simp only [Fmt.read, Fmt.write, Res.bind_eq_ok]
    constructor
    · rintro ⟨⟨r, s1⟩, h1, h2⟩
      cases r with
      | none => simp at h2
      | some a =>
        simp only [Res.bind_eq_ok] at h2
        obtain ⟨⟨r2, s2⟩, h2, h6⟩ := h2
        cases r2 with
        | none => cases h6
        | some b =>
        cases h6
        obtain ⟨x, rest, rfl, h3, rfl, _⟩ := (ihf _ _ _ hl).1 h1
        simp only [List.length_append] at hl
        obtain ⟨y, rest', rfl, h4, rfl, h5⟩ := (ihg _ _ _ (by omega)).1 h2
        exact ⟨x ++ y, rest', rfl, (enc_write f a _ _).2 ⟨x, y, h3, h4, rfl⟩, by simp, h5.imp (fun h => ⟨hc, h⟩) id⟩
    · rintro ⟨z, rest, rfl, hz, rfl, hr⟩
      obtain ⟨x, y, h1, h2, rfl⟩ := (enc_write f v.1 _ _).1 hz
      simp only [List.length_append] at hl
      refine ⟨(some v.1, some (y ++ rest)), (ihf _ _ _ (by simp; omega)).2 ⟨x, y ++ rest, rfl, h1, by simp, .inl hc⟩, ?_⟩
      simp only [(ihg (y ++ rest) v.2 (some rest) (by simp; omega)).2 ⟨y, rest, rfl, h2, rfl, hr.imp (fun h => h.2) id⟩, Res.ok_bind]
      rfl
  | many f ih =>
    rintro ⟨hf, hc, hs⟩ s v t hl
    have := exact_many (ih hf) hc hs s.length s v t (Nat.le_refl _) hl
    refine this.trans ?_
    simp only [Fmt.write, Fmt.Closed, false_or]
    constructor
    · rintro ⟨rfl, h⟩; exact ⟨s, [], rfl, h, by simp, rfl⟩
    · rintro ⟨x, rest, rfl, h, rfl, rfl⟩; exact ⟨rfl, by simpa using h⟩

/-! ## Reading always returns -/

/-- The reader returns, never with more than it got; with less if it succeeds on a solid format. -/
def Ends {α : Type} (rd : Reader α) (solid : Prop) : Prop :=
  ∀ s : Str, ∃ r s', rd s = .ok (r, s') ∧ s'.len ≤ s.len ∧ (solid → r ≠ none → s'.len < s.len)

theorem ends_of {α : Type} {rd : Reader α} {p : α → List Bytes} {solid : Prop} (hs : Safe rd p) (hl : Local rd)
    (h : solid → ∀ s v rest, rd (some s) = .ok (some v, some rest) → ∃ e, e ≠ [] ∧ s = e ++ rest) : Ends rd solid := by
  intro s
  obtain ⟨r, s', pre, h1, h2, _⟩ := hs s
  refine ⟨r, s', h1, by have := congrArg List.length h2; simp only [List.length_append] at this; simp only [Str.len]; omega, ?_⟩
  intro hsol hr
  cases r with
  | none => exact absurd rfl hr
  | some v =>
    obtain ⟨used, rest, rfl, rfl, _⟩ := hl _ _ _ h1
    obtain ⟨e, h3, h4⟩ := h hsol _ _ _ h1
    rw [h4]
    have := List.length_pos_of_ne_nil h3
    simp only [len_some, List.length_append]; omega

theorem ends_within {α : Type} {rd : Reader α} {solid : Prop} (h : Ends rd solid) (c : Str) : ∃ r, within rd c = .ok r := by
  obtain ⟨r, s', h1, _⟩ := h c
  exact ⟨_, by unfold within; rw [h1]; rfl⟩

/-- Reading the content of a value behind its header. -/
theorem ends_inner {α : Type} {hd : Reader Str} {rd : Reader α} {solid : Prop} (hh : Ends hd True) (h : Ends rd solid) :
    Ends (fun s => do
      let (c, s) ← hd s
      match c with
      | none => .ok (none, s)
      | some c =>
        let v ← within rd c
        .ok (v, s)) True := by
  intro s
  obtain ⟨r, s', h1, h2, h3⟩ := hh s
  cases r with
  | none => exact ⟨none, s', by simp only [h1, Res.ok_bind], h2, fun _ h => absurd rfl h⟩
  | some c =>
    obtain ⟨r, hr⟩ := ends_within h c
    exact ⟨r, s', by simp only [h1, Res.ok_bind, hr], h2, fun _ _ => h3 trivial (by simp)⟩

theorem ends_many {α : Type} {rd : Reader α} (h : Ends rd True) : ∀ (fuel : Nat) (s : Str), s.len ≤ fuel →
    ∃ r s', readMany rd fuel s = .ok (r, s') ∧ s'.len ≤ s.len := by
  intro fuel
  induction fuel with
  | zero => intro s hs; exact ⟨some [], s, by simp [readMany, Str.empty, show s.len = 0 by omega], Nat.le_refl _⟩
  | succ fuel ih =>
    intro s hs
    by_cases he : s.len = 0
    · exact ⟨some [], s, by simp [readMany, Str.empty, he], Nat.le_refl _⟩
    · obtain ⟨r, s', h1, h2, h3⟩ := h s
      rw [readMany, if_neg (by simpa [Str.empty] using he), h1]
      cases r with
      | none => exact ⟨none, s', rfl, h2⟩
      | some v =>
        have := h3 trivial (by simp)
        obtain ⟨r, s'', h4, h5⟩ := ih s' (by omega)
        exact ⟨r.map (v :: ·), s'', by simp only [Res.ok_bind, h4], by omega⟩

theorem fmt_ends (f : Fmt) : f.Proper → Ends f.read f.Solid := by
  induction f with
  | u8 => intro _; exact ends_of C19_readUint8 C93_readUint8 fun _ s v rest h => ⟨_, by simp, (readUint8_iff s v rest).1 h⟩
  | u16 => intro _; exact ends_of C19_readUint16 C93_readUint16 fun _ s v rest h => ⟨_, by simp, (readUint16_iff s v rest).1 h⟩
  | u32 => intro _; exact ends_of C19_readUint32 C93_readUint32 fun _ s v rest h => ⟨_, by simp, (readUint32_iff s v rest).1 h⟩
  | int64 =>
    intro _
    exact ends_of safe_readASN1Int64 C93_readASN1Int64 fun _ s v rest h => by
      obtain ⟨c, _, h2⟩ := (readASN1Int64_iff s v rest).1 h; exact ⟨_, by simp [elem], h2⟩
  | enum =>
    intro _
    exact ends_of safe_readASN1Enum C93_readASN1Enum fun _ s v rest h => by
      obtain ⟨c, _, h2⟩ := (readASN1Enum_iff s v rest).1 h; exact ⟨_, by simp [elem], h2⟩
  | uint64 =>
    intro _
    exact ends_of safe_readASN1Uint64 C93_readASN1Uint64 fun _ s v rest h => by
      obtain ⟨c, _, h2⟩ := (readASN1Uint64_iff s v rest).1 h; exact ⟨_, by simp [elem], h2⟩
  | bytes n =>
    intro _
    have h : Ends (copyBytes n) (0 < n) := ends_of (safe_copyBytes n) (C93_copyBytes n) fun hn s v rest h => by
      obtain ⟨h1, h2⟩ := (copyBytes_iff n s v rest).1 h
      exact ⟨v, by rintro rfl; simp at h1; omega, h2⟩
    intro s
    obtain ⟨r, s', h1, h2, h3⟩ := h s
    cases r with
    | none => exact ⟨none, s', by simp only [Fmt.read, h1, Res.ok_bind], h2, fun _ h => absurd rfl h⟩
    | some b =>
      obtain ⟨used, rest, rfl, rfl, _⟩ := C93_copyBytes n _ _ _ h1
      have hb := ((copyBytes_iff n _ b rest).1 h1).1
      exact ⟨some ⟨b, hb⟩, some rest, by simp only [Fmt.read, h1, Res.ok_bind, hb, dif_pos], h2, fun hs _ => h3 hs (by simp)⟩
  | remainder =>
    intro _ s
    obtain ⟨r, s', h1, h2, _⟩ := (ends_of (safe_copyBytes s.len) (C93_copyBytes s.len) (solid := False) fun h => h.elim) s
    exact ⟨r, s', h1, h2, fun h => h.elim⟩
  | prefixed k f ih =>
    intro hp
    refine ends_inner (hd := readLengthPrefixed (k.val + 1)) (ends_of (safe_readLengthPrefixed _ (by omega)) (local_readLengthPrefixed _ (by omega)) fun _ s c rest h => ?_) (ih hp)
    obtain ⟨c', rest', _, h2, _, h4⟩ := (readLengthPrefixed_iff _ (by omega) _ _ _).1 h
    cases h2
    exact ⟨_, by simp [toBE], h4⟩
  | element t f ih =>
    intro hp
    refine ends_inner (hd := readASN1Tag t) (ends_of (safe_readASN1Tag t) (C93_readASN1 t) fun _ s c rest h => ?_) (ih hp)
    obtain ⟨c', rest', _, h2, _, _, h4⟩ := (readASN1Tag_iff _ _ _ _).1 h
    cases h2
    exact ⟨_, by simp [elem], h4⟩
  | unit => intro _ s; exact ⟨some (), s, rfl, Nat.le_refl _, fun h => h.elim⟩
  | pair f g ihf ihg =>
    rintro ⟨hf, _, hg⟩ s
    obtain ⟨r, s', h1, h2, h3⟩ := ihf hf s
    cases r with
    | none => exact ⟨none, s', by simp only [Fmt.read, h1, Res.ok_bind], h2, fun _ h => absurd rfl h⟩
    | some a =>
      obtain ⟨r, s'', h4, h5, h6⟩ := ihg hg s'
      refine ⟨r.map (a, ·), s'', by simp only [Fmt.read, h1, Res.ok_bind, h4], by omega, fun hs hr => ?_⟩
      have hr : r ≠ none := by rintro rfl; exact hr rfl
      rcases hs with hs | hs
      · have := h3 hs (by simp); omega
      · have := h6 hs hr; omega
  | many f ih =>
    rintro ⟨hf, _, hs⟩ s
    obtain ⟨r, s', h1, h2⟩ := ends_many (fun s => by
      obtain ⟨r, s', h1, h2, h3⟩ := ih hf s
      exact ⟨r, s', h1, h2, fun _ => h3 hs⟩) s.len s (Nat.le_refl _)
    exact ⟨r, s', h1, h2, fun h => h.elim⟩

/-! ## C138 -/

/-- C138: for every format in which ends can be told, a message reads as a value exactly when the Builder writes this message for
this value. In particular no message reads as two values and no value has two messages that are read. -/
theorem C138_message (f : Fmt) (hf : f.Proper) (g : Growth) (h : Heap) (buf : Slice) (hv : buf.Valid h) (s : Bytes) (hs : s.length < 2 ^ 32) (v : f.Val) :
    f.read (some s) = .ok (some v, some []) ↔ run g h buf (f.write v .nil) = .ok (buf.get h ++ s) := by
  rw [fmt_exact f hf s v _ hs, C28_builder_iff g h buf hv]
  constructor
  · rintro ⟨x, rest, h1, h2, rfl, _⟩
    cases h1
    exact ⟨x, h2, by simp⟩
  · rintro ⟨x, h1, h2⟩
    rw [List.append_cancel_left h2]
    exact ⟨x, [], rfl, h1, by simp, .inr rfl⟩

/-- C138: a value whose end can be told is read back whatever follows it, and what is read from the front of any bytes is what the
Builder writes. -/
theorem C138_front (f : Fmt) (hf : f.Proper) (hc : f.Closed) (g : Growth) (h : Heap) (buf : Slice) (hv : buf.Valid h) (s : Bytes)
    (hs : s.length < 2 ^ 32) (v : f.Val) (t : Str) :
    f.read (some s) = .ok (some v, t) ↔ ∃ x rest, t = some rest ∧ s = x ++ rest ∧ run g h buf (f.write v .nil) = .ok (buf.get h ++ x) := by
  rw [fmt_exact f hf s v _ hs]
  constructor
  · rintro ⟨x, rest, rfl, h2, rfl, _⟩
    exact ⟨x, rest, rfl, rfl, (C28_builder_iff g h buf hv _ _).2 ⟨x, h2, rfl⟩⟩
  · rintro ⟨x, rest, rfl, rfl, h1⟩
    obtain ⟨y, h2, h3⟩ := (C28_builder_iff g h buf hv _ _).1 h1
    rw [List.append_cancel_left h3]
    exact ⟨y, rest, rfl, h2, rfl, .inl hc⟩

/-- C138: reading any bytes, or a nil String, in any such format returns and leaves no more than it got. -/
theorem C138_total (f : Fmt) (hf : f.Proper) (s : Str) : ∃ r t, f.read s = .ok (r, t) ∧ t.len ≤ s.len := by
  obtain ⟨r, t, h1, h2, _⟩ := fmt_ends f hf s
  exact ⟨r, t, h1, h2⟩

/-- C138: repeating an item that may be empty never ends. -/
theorem C138_endless (n : Nat) (b : Byte) (s : Bytes) : readMany Fmt.unit.read n (some (b :: s)) = .loop := by
  induction n with
  | zero => rfl
  | succ n ih =>
    rw [readMany, if_neg (by simp [Str.empty])]
    show (do let (vs, s) ← readMany Fmt.unit.read n (some (b :: s)); _) = _
    rw [ih]
    rfl

/-- A version, then a list of extensions (number, content) behind a length of 16 bits, then an ASN.1 sequence of integers. -/
def exFormat : Fmt :=
  .pair .u8 (.pair (.prefixed 1 (.many (.pair .u16 (.prefixed 0 .remainder)))) (.element tagSEQUENCE (.many .int64)))

example : exFormat.Proper ∧ exFormat.Closed := by simp [exFormat, Fmt.Proper, Fmt.Closed, Fmt.Solid]

/-- The bytes of a message in this format, and its value. -/
def exMessage : Bytes := [3, 0, 9, 0, 1, 2, 7, 8, 0, 2, 1, 9, 0x30, 7, 2, 1, 5, 2, 2, 0xff, 0x7f]
def exValue : exFormat.Val := ((3 : Byte), ([((1 : BitVec 16), ([7, 8] : Bytes)), ((2 : BitVec 16), ([9] : Bytes))], ([5, -129] : List (BitVec 64))))

example : run (fun _ => 0) [] ⟨0, 0, 0, 0⟩ (exFormat.write exValue .nil) = .ok exMessage := by decide +kernel

example : exFormat.read (some exMessage) = .ok (some exValue, some []) :=
  (C138_message exFormat (by simp [exFormat, Fmt.Proper, Fmt.Closed, Fmt.Solid]) (fun _ => 0) exHeap ⟨0, 0, 0, 0⟩ exValid exMessage (by decide) exValue).2
    (by decide +kernel)

/-- A length of the list that ends inside an extension is refused. -/
example : (match exFormat.read (some (exMessage.set 2 8)) with | .ok (none, _) => true | _ => false) = true := by decide +kernel

end Verif.Props
