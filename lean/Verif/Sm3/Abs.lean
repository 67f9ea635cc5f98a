import Verif.Sm3.Compress
/-!
Representation invariant of the SM3 machine: which message the state stands for.
-/
namespace Verif.Sm3
open Verif

/-- The words `ws` as bytes. -/
def wbytes (ws : List Word) : Bytes := ws.flatMap put32

@[simp] theorem wbytes_nil : wbytes [] = [] := rfl
@[simp] theorem wbytes_append (a b : List Word) : wbytes (a ++ b) = wbytes a ++ wbytes b := by
  simp [wbytes]
@[simp] theorem wbytes_singleton (a : Word) : wbytes [a] = put32 a := by simp [wbytes]
@[simp] theorem length_wbytes (ws : List Word) : (wbytes ws).length = 4 * ws.length := by
  induction ws with
  | nil => rfl
  | cons w ws ih =>
    have : wbytes (w :: ws) = put32 w ++ wbytes ws := by simp [wbytes]
    rw [this, List.length_append, length_put32, ih, List.length_cons]; omega

theorem wbytes_word (ws : List Word) (j : Nat) (h : j < ws.length) :
    be32 (((wbytes ws).drop (4 * j)).take 4) = ws.getD j 0 := by
  induction ws generalizing j with
  | nil => simp at h
  | cons w ws ih =>
    have e : wbytes (w :: ws) = put32 w ++ wbytes ws := by simp [wbytes]
    rw [e]
    cases j with
    | zero =>
      rw [Nat.mul_zero, List.drop_zero, List.take_left' (length_put32 w)]
      simp
    | succ j =>
      rw [show 4 * (j + 1) = (put32 w).length + 4 * j by simp; omega, List.drop_append]
      rw [List.drop_of_length_le (by simp), List.nil_append]
      simp only [Nat.add_sub_cancel_left]
      rw [ih j (by simpa using h)]
      simp

/-- Word part of the state: `blocks` have been compressed, `ws` are buffered. -/
structure AbsW (d : Digest) (blocks : Bytes) (ws : List Word) : Prop where
  dvd : 64 ∣ blocks.length
  hws : ws.length ≤ 16
  hv : regs d.v = Spec.SM3.V blocks (blocks.length / 64)
  hoff : d.xOff = ws.length
  htake : d.inWords.take ws.length = ws
  lin : d.inWords.length = 16
  lw : d.w.length = 68

/-- The complete words absorbed so far are `m`. -/
def AbsV (d : Digest) (m : Bytes) : Prop :=
  ∃ blocks ws, AbsW d blocks ws ∧ ws.length < 16 ∧ m = blocks ++ wbytes ws

/-- Byte part of the state: `tail` is buffered. -/
structure AbsB (d : Digest) (tail : Bytes) : Prop where
  hoff : d.xBufOff = tail.length
  htake : d.xBuf.take tail.length = tail
  lbuf : d.xBuf.length = 4

/-- The state stands for the message `m`. -/
def Abs (d : Digest) (m : Bytes) : Prop :=
  ∃ m' tail, m = m' ++ tail ∧ AbsV d m' ∧ AbsB d tail ∧ tail.length < 4

theorem AbsV.dvd {d : Digest} {m : Bytes} (h : AbsV d m) : 4 ∣ m.length := by
  obtain ⟨blocks, ws, h1, _, rfl⟩ := h
  obtain ⟨k, hk⟩ := h1.dvd
  rw [List.length_append, length_wbytes, hk]
  exact ⟨16 * k + ws.length, by omega⟩

theorem Abs.xBufOff {d : Digest} {m : Bytes} (h : Abs d m) : d.xBufOff = m.length % 4 := by
  obtain ⟨m', tail, rfl, hV, hB, hlt⟩ := h
  obtain ⟨k, hk⟩ := hV.dvd
  rw [hB.hoff, List.length_append, hk]; omega

/-- Same word part. -/
theorem AbsW.congr {d d' : Digest} {blocks : Bytes} {ws : List Word} (h : AbsW d blocks ws)
    (h1 : d'.v = d.v) (h2 : d'.xOff = d.xOff) (h3 : d'.inWords = d.inWords) (h4 : d'.w = d.w) : AbsW d' blocks ws := by
  obtain ⟨a, b, c, e, f, g, i⟩ := h
  exact ⟨a, b, by rw [h1]; exact c, by rw [h2]; exact e, by rw [h3]; exact f, by rw [h3]; exact g, by rw [h4]; exact i⟩

theorem AbsV.congr {d d' : Digest} {m : Bytes} (h : AbsV d m)
    (h1 : d'.v = d.v) (h2 : d'.xOff = d.xOff) (h3 : d'.inWords = d.inWords) (h4 : d'.w = d.w) : AbsV d' m := by
  obtain ⟨b, ws, h, h5, h6⟩ := h
  exact ⟨b, ws, h.congr h1 h2 h3 h4, h5, h6⟩

theorem AbsB.congr {d d' : Digest} {t : Bytes} (h : AbsB d t) (h1 : d'.xBuf = d.xBuf) (h2 : d'.xBufOff = d.xBufOff) :
    AbsB d' t := by
  obtain ⟨a, b, c⟩ := h
  exact ⟨by rw [h2]; exact a, by rw [h1]; exact b, by rw [h1]; exact c⟩

theorem take_set_succ {α : Type} {l : List α} {i : Nat} (h : i < l.length) (x : α) :
    (l.set i x).take (i + 1) = l.take i ++ [x] := by
  rw [List.take_succ_eq_append_getElem (by simpa using h)]
  rw [List.take_set_of_le (Nat.le_refl i)]
  simp

theorem putWord_abs {d : Digest} {blocks : Bytes} {ws : List Word} (h : AbsW d blocks ws) (hlt : ws.length < 16)
    (x : Word) :
    ∃ d', putWord d x = .ok d' ∧ AbsW d' blocks (ws ++ [x]) ∧ d'.xBuf = d.xBuf ∧ d'.xBufOff = d.xBufOff ∧
      d'.byteCount = d.byteCount := by
  unfold putWord
  rw [if_pos (by rw [h.hoff, h.lin]; exact hlt)]
  refine ⟨_, rfl, ?_, rfl, rfl, rfl⟩
  refine ⟨h.dvd, by simp; omega, h.hv, by simp [h.hoff], ?_, by simp [h.lin], h.lw⟩
  simp only [List.length_append, List.length_singleton]
  rw [h.hoff, take_set_succ (by rw [h.lin]; exact hlt), h.htake]

theorem processBlock_abs {d : Digest} {blocks : Bytes} {ws : List Word} (h : AbsW d blocks ws) (h16 : ws.length = 16) :
    AbsW (processBlock d) (blocks ++ wbytes ws) [] := by
  have hl : (wbytes ws).length = 64 := by simp [h16]
  obtain ⟨k, hk⟩ := h.dvd
  have hin : d.inWords = ws := by
    have := h.htake
    rwa [List.take_of_length_le (by rw [h.lin, h16]; exact Nat.le_refl _)] at this
  obtain ⟨e1, e2⟩ := expand_spec (wbytes ws) d.inWords d.w h.lw
    (fun j hj => by rw [wbytes_word ws j (by omega), hin])
  refine ⟨?_, by simp, ?_, rfl, by simp, h.lin, e1⟩
  · rw [List.length_append, hl, hk]; exact ⟨k + 1, by omega⟩
  · show regs (compress d.v (expand d.inWords d.w)) = _
    rw [compress_spec e2, h.hv, List.length_append, hl, hk, show (64 * k + 64) / 64 = k + 1 by omega,
      show 64 * k / 64 = k by omega, V_succ_append blocks (wbytes ws) k hk hl]

/-- `processWord` after the slice expression: store a word and compress when sixteen are there. -/
theorem pushWord_abs {d : Digest} {m : Bytes} (h : AbsV d m) (x : Word) :
    ∃ d', (do let d ← putWord d x
              if d.xOff ≥ 16 then Res.ok (processBlock d) else Res.ok d) = .ok d' ∧ AbsV d' (m ++ put32 x) ∧
      d'.xBuf = d.xBuf ∧ d'.xBufOff = d.xBufOff ∧ d'.byteCount = d.byteCount := by
  obtain ⟨blocks, ws, h, hlt, rfl⟩ := h
  obtain ⟨d1, h1, h2, h3, h4, h5⟩ := putWord_abs h hlt x
  rw [h1, Res.ok_bind]
  by_cases h16 : ws.length + 1 = 16
  · rw [if_pos (by rw [h2.hoff]; simp; omega)]
    have := processBlock_abs h2 (by simp; omega)
    refine ⟨_, rfl, ⟨_, [], this, by simp, by simp⟩, h3, h4, h5⟩
  · rw [if_neg (by rw [h2.hoff]; simp; omega)]
    exact ⟨_, rfl, ⟨blocks, ws ++ [x], h2, by simp; omega, by simp⟩, h3, h4, h5⟩

theorem toInt_small {i : Nat} (h : i < 2 ^ 31) : (BitVec.ofNat 32 i).toInt = i := by
  rw [BitVec.toInt_ofNat', Int.bmod_def]
  split <;> omega

theorem toInt_ge {i : Nat} (h : 2 ^ 31 ≤ i) (h2 : i < 2 ^ 32) : (BitVec.ofNat 32 i).toInt = (i : Int) - 2 ^ 32 := by
  rw [BitVec.toInt_ofNat', Int.bmod_def]
  split <;> omega

theorem processWord_small {d : Digest} {p : Bytes} {i : Nat} (hi : i + 4 ≤ p.length) (hb : i + 4 < 2 ^ 31) :
    processWord d p (BitVec.ofNat 32 i) = (do
      let d ← putWord d (be32 ((p.drop i).take 4))
      if d.xOff ≥ 16 then Res.ok (processBlock d) else Res.ok d) := by
  unfold processWord
  have e : (BitVec.ofNat 32 i + 4) = BitVec.ofNat 32 (i + 4) := by
    rw [show (4 : BitVec 32) = BitVec.ofNat 32 4 from rfl, BitVec.ofNat_add]
  rw [e, toInt_small (by omega), toInt_small hb]
  simp only
  rw [if_pos (by omega)]
  have e1 : (((i + 4 : Nat) : Int) - (i : Int)).toNat = 4 := by omega
  rw [e1, Int.toNat_natCast]

theorem processWord_big {d : Digest} {p : Bytes} {i : Nat} (hi : 2 ^ 31 ≤ i + 4) (hb : i < 2 ^ 31) :
    processWord d p (BitVec.ofNat 32 i) = .panic := by
  unfold processWord
  have e : (BitVec.ofNat 32 i + 4) = BitVec.ofNat 32 (i + 4) := by
    rw [show (4 : BitVec 32) = BitVec.ofNat 32 4 from rfl, BitVec.ofNat_add]
  rw [e, toInt_small (by omega), toInt_ge hi (by omega)]
  simp only
  rw [if_neg (by omega)]

theorem take_add_drop (p : Bytes) (i j k : Nat) :
    (p.drop i).take j ++ (p.drop (i + j)).take k = (p.drop i).take (j + k) := by
  rw [← List.drop_drop, List.take_add]

theorem wordLoop_abs {p : Bytes} (cnt : Nat) {d : Digest} {m : Bytes} {i : Nat} (h : AbsV d m)
    (hi : i + 4 * cnt ≤ p.length) (hb : i + 4 * cnt < 2 ^ 31) :
    ∃ d', wordLoop p d i cnt = .ok (d', i + 4 * cnt) ∧ AbsV d' (m ++ (p.drop i).take (4 * cnt)) ∧
      d'.xBuf = d.xBuf ∧ d'.xBufOff = d.xBufOff ∧ d'.byteCount = d.byteCount := by
  induction cnt generalizing d m i with
  | zero => exact ⟨d, rfl, by simpa using h, rfl, rfl, rfl⟩
  | succ cnt ih =>
    obtain ⟨d1, h1, h2, h3, h4, h5⟩ := pushWord_abs h (be32 ((p.drop i).take 4))
    rw [wordLoop, processWord_small (by omega) (by omega), h1, Res.ok_bind]
    obtain ⟨d2, g1, g2, g3, g4, g5⟩ := ih (i := i + 4) h2 (by omega) (by omega)
    refine ⟨d2, ?_, ?_, g3.trans h3, g4.trans h4, g5.trans h5⟩
    · rw [g1]; congr 2; omega
    · rw [put32_be32 (by simp; omega), List.append_assoc, take_add_drop] at g2
      rw [show 4 * (cnt + 1) = 4 + 4 * cnt by omega]
      exact g2

theorem wordLoop_panic {p : Bytes} (cnt : Nat) {d : Digest} {m : Bytes} {i : Nat} (h : AbsV d m)
    (hi : i + 4 * cnt ≤ p.length) (hb : 2 ^ 31 ≤ i + 4 * cnt) (h0 : i < 2 ^ 31) :
    wordLoop p d i cnt = .panic := by
  induction cnt generalizing d m i with
  | zero => omega
  | succ cnt ih =>
    rw [wordLoop]
    by_cases hb4 : 2 ^ 31 ≤ i + 4
    · rw [processWord_big hb4 h0]; rfl
    · obtain ⟨d1, h1, h2, _⟩ := pushWord_abs h (be32 ((p.drop i).take 4))
      rw [processWord_small (by omega) (by omega), h1, Res.ok_bind]
      exact ih h2 (by omega) (by omega) (by omega)

theorem putByte_abs {d : Digest} {t : Bytes} (h : AbsB d t) (hlt : t.length < 4) (b : Byte) :
    ∃ d', putByte d b = .ok d' ∧ AbsB d' (t ++ [b]) ∧ d'.v = d.v ∧ d'.xOff = d.xOff ∧ d'.inWords = d.inWords ∧
      d'.w = d.w ∧ d'.byteCount = d.byteCount := by
  unfold putByte
  rw [if_pos (by rw [h.hoff, h.lbuf]; exact hlt)]
  refine ⟨_, rfl, ⟨by simp [h.hoff], ?_, by simp [h.lbuf]⟩, rfl, rfl, rfl, rfl, rfl⟩
  simp only [List.length_append, List.length_singleton]
  rw [h.hoff, take_set_succ (by rw [h.lbuf]; exact hlt), h.htake]

theorem tailLoop_abs {d : Digest} {t : Bytes} (bs : Bytes) (h : AbsB d t) (hlt : t.length + bs.length ≤ 4) :
    ∃ d', tailLoop d bs = .ok d' ∧ AbsB d' (t ++ bs) ∧ d'.v = d.v ∧ d'.xOff = d.xOff ∧ d'.inWords = d.inWords ∧
      d'.w = d.w ∧ d'.byteCount = d.byteCount := by
  induction bs generalizing d t with
  | nil => exact ⟨d, rfl, by simpa using h, rfl, rfl, rfl, rfl, rfl⟩
  | cons b bs ih =>
    simp only [List.length_cons] at hlt
    obtain ⟨d1, h1, h2, h3, h4, h5, h6, h7⟩ := putByte_abs h (by omega) b
    obtain ⟨d2, g1, g2, g3, g4, g5, g6, g7⟩ := ih h2 (by simp; omega)
    rw [tailLoop, h1, Res.ok_bind]
    refine ⟨d2, g1, by simpa using g2, g3.trans h3, g4.trans h4, g5.trans h5, g6.trans h6, g7.trans h7⟩

/-- The first loop of `Write`: `n` bytes are taken from `p`, then either the buffer became a word
and was absorbed, or `p` is used up. -/
theorem fillLoop_abs {d : Digest} {m t : Bytes} (i : Nat) (p : Bytes) (hV : AbsV d m) (hB : AbsB d t)
    (h0 : 0 < t.length) (h4 : t.length < 4) :
    ∃ d' m' t' n, fillLoop d i p = .ok (d', i + n) ∧ n ≤ p.length ∧ n = min (4 - t.length) p.length ∧
      AbsV d' m' ∧ AbsB d' t' ∧
      m' ++ t' = m ++ t ++ p.take n ∧ t'.length < 4 ∧ (n < p.length → t' = []) ∧ d'.byteCount = d.byteCount := by
  induction p generalizing d t i with
  | nil => exact ⟨d, m, t, 0, rfl, by simp, by simp, hV, hB, by simp, h4, by simp, rfl⟩
  | cons b p ih =>
    obtain ⟨d1, h1, h2, h3, hx, h5, h6, h7⟩ := putByte_abs hB h4 b
    have hV1 : AbsV d1 m := hV.congr h3 hx h5 h6
    rw [fillLoop, h1, Res.ok_bind]
    by_cases hfull : t.length = 3
    · rw [if_pos (by rw [h2.hoff]; simp; omega)]
      have hbuf : d1.xBuf = t ++ [b] := by
        have := h2.htake
        rwa [List.take_of_length_le (by rw [h2.lbuf]; simp; omega)] at this
      have e0 : (0 : BitVec 32) = BitVec.ofNat 32 0 := rfl
      rw [e0, processWord_small (by rw [h2.lbuf]; decide) (by decide)]
      obtain ⟨d2, g1, g2, g3, g4, g5⟩ := pushWord_abs hV1 (be32 ((d1.xBuf.drop 0).take 4))
      rw [g1, Res.ok_bind]
      rw [List.drop_zero, List.take_of_length_le (by rw [h2.lbuf]; decide), put32_be32 h2.lbuf, hbuf] at g2
      refine ⟨_, m ++ (t ++ [b]), [], 1, rfl, by simp, ?_, g2.congr rfl rfl rfl rfl,
        ⟨rfl, by simp, by simpa [g3] using h2.lbuf⟩, by simp, by simp, by simp, by simpa using g5.trans h7⟩
      simp only [List.length_cons]; omega
    · rw [if_neg (by rw [h2.hoff]; simp; omega)]
      obtain ⟨d2, m2, t2, n, g1, g2, gm, g3, g4, g5, g6, g7, g8⟩ :=
        ih (i := i + 1) hV1 h2 (by simp) (by simp; omega)
      refine ⟨d2, m2, t2, n + 1, ?_, by simpa using g2, ?_, g3, g4, ?_, g6, ?_, g8.trans h7⟩
      · rw [g1]; congr 2; omega
      · simp only [List.length_append, List.length_cons, List.length_nil] at gm ⊢; omega
      · rw [g5]; simp
      · intro hn; exact g7 (by simpa using hn)

/-- Bytes that go into the byte buffer before the word loop of `Write` starts, when `off` bytes are
buffered. -/
def skip (off len : Nat) : Nat := if off = 0 then 0 else min (4 - off) len

/-- Index where the word loop of `Write` ends. -/
def limit (off len : Nat) : Nat := skip off len + 4 * ((len - skip off len) / 4)

theorem write_cases {d : Digest} {m : Bytes} (h : Abs d m) (p : Bytes) (hne : p ≠ []) :
    (limit d.xBufOff p.length < 2 ^ 31 →
      ∃ d', write d p = .ok d' ∧ Abs d' (m ++ p) ∧ d'.byteCount = d.byteCount + BitVec.ofNat 64 p.length) ∧
    (2 ^ 31 ≤ limit d.xBufOff p.length → write d p = .panic) := by
  obtain ⟨m0, t0, rfl, hV, hB, hlt⟩ := h
  unfold write
  rw [if_neg hne]
  -- after the first loop
  have first : ∃ d1 m1 t1, fill d p = .ok (d1, skip d.xBufOff p.length) ∧ skip d.xBufOff p.length ≤ p.length ∧ skip d.xBufOff p.length < 4 ∧
      AbsV d1 m1 ∧ AbsB d1 t1 ∧
      m1 ++ t1 = m0 ++ t0 ++ p.take (skip d.xBufOff p.length) ∧ t1.length < 4 ∧
      (skip d.xBufOff p.length < p.length → t1 = []) ∧ d1.byteCount = d.byteCount := by
    unfold fill
    by_cases h0 : d.xBufOff = 0
    · have ht : t0 = [] := by rw [hB.hoff] at h0; exact List.length_eq_zero_iff.1 h0
      subst ht
      simp only [h0, skip, ne_eq, not_true_eq_false, if_false, if_true]
      exact ⟨d, m0, [], rfl, by omega, by omega, hV, hB, by simp, by simp, by simp, rfl⟩
    · have hpos : 0 < t0.length := by rw [hB.hoff] at h0; omega
      obtain ⟨d1, m1, t1, n, g1, g2, gm, g3, g4, g5, g6, g7, g8⟩ := fillLoop_abs 0 p hV hB hpos hlt
      have hn : skip d.xBufOff p.length = n := by unfold skip; rw [if_neg h0, hB.hoff, gm]
      rw [if_pos h0, hn]
      exact ⟨d1, m1, t1, by rw [g1]; congr 2; omega, g2, by omega, g3, g4, g5, g6, g7, g8⟩
  obtain ⟨d1, m1, t1, g1, g2, g2', g3, g4, g5, g6, g7, g8⟩ := first
  rw [g1, Res.ok_bind]
  unfold limit
  generalize skip d.xBufOff p.length = n at *
  simp only
  constructor
  · intro hb
    obtain ⟨d2, k1, k2, k3, k4, k5⟩ := wordLoop_abs (p := p) ((p.length - n) / 4) g3 (i := n) (by omega) hb
    rw [k1, Res.ok_bind]
    simp only
    have hB2 : AbsB d2 t1 := g4.congr k3 k4
    by_cases hn : n < p.length
    · have ht1 : t1 = [] := g7 hn
      subst ht1
      obtain ⟨d3, l1, l2, l3, l4, l5, l6, l7⟩ := tailLoop_abs (p.drop (n + 4 * ((p.length - n) / 4))) hB2
        (by simp; omega)
      rw [l1, Res.ok_bind]
      refine ⟨_, rfl, ⟨_, _, ?_, k2.congr l3 l4 l5 l6, l2.congr rfl rfl, by simp; omega⟩, by
        simp [l7, k5, g8]⟩
      rw [List.append_nil] at g5
      rw [g5, List.nil_append, List.append_assoc, List.append_assoc, ← List.drop_drop, List.take_append_drop,
        List.append_assoc, List.take_append_drop, List.append_assoc]
    · have hn' : n = p.length := by omega
      subst hn'
      have e0 : (p.length - p.length) / 4 = 0 := by omega
      rw [e0] at k2 ⊢
      rw [List.drop_of_length_le (by omega)]
      refine ⟨_, rfl, ⟨_, t1, ?_, k2.congr rfl rfl rfl rfl, hB2.congr rfl rfl, g6⟩, by simp [k5, g8]⟩
      simpa using g5.symm
  · intro hb
    rw [wordLoop_panic ((p.length - n) / 4) g3 (by omega) hb (by omega)]
    rfl

theorem limit_le (off len : Nat) : limit off len ≤ len := by
  unfold limit skip; split <;> omega

theorem write_ok {d : Digest} {m : Bytes} (h : Abs d m) (p : Bytes) (hne : p ≠ []) (hl : p.length < 2 ^ 31) :
    ∃ d', write d p = .ok d' ∧ Abs d' (m ++ p) ∧ d'.byteCount = d.byteCount + BitVec.ofNat 64 p.length :=
  (write_cases h p hne).1 (Nat.lt_of_le_of_lt (limit_le _ _) hl)

/-- `flush` writes the zero bytes that complete the buffered word. -/
theorem flush_ok (fuel : Nat) {d : Digest} {m : Bytes} (h : Abs d m) (hf : (4 - m.length % 4) % 4 < fuel) :
    ∃ d' f, flush d fuel = .ok d' ∧ Abs d' (m ++ List.replicate f 0) ∧ f < 4 ∧ (m.length + f) % 4 = 0 := by
  induction fuel generalizing d m with
  | zero => omega
  | succ fuel ih =>
    have hx := h.xBufOff
    unfold flush
    by_cases h0 : d.xBufOff = 0
    · rw [if_neg (by omega)]
      exact ⟨d, 0, rfl, by simpa using h, by omega, by omega⟩
    · rw [if_pos h0]
      obtain ⟨d1, h1, h2, _⟩ := write_ok h [0] (by simp) (by decide)
      rw [h1, Res.ok_bind]
      obtain ⟨d2, f, g1, g2, g3, g4⟩ := ih h2 (by simp only [List.length_append, List.length_singleton]; omega)
      simp only [List.length_append, List.length_singleton] at g4
      refine ⟨d2, f + 1, g1, ?_, ?_, by omega⟩
      · rw [List.replicate_succ]; simpa using g2
      · by_cases hf3 : f = 3
        · omega
        · omega

theorem zeroWords_ok (fuel : Nat) {d : Digest} {blocks : Bytes} {ws : List Word} (h : AbsW d blocks ws)
    (h14 : ws.length ≤ 14) (hf : 14 - ws.length ≤ fuel) :
    ∃ d', zeroWords d fuel = .ok d' ∧ AbsW d' blocks (ws ++ List.replicate (14 - ws.length) 0) ∧
      d'.xBuf = d.xBuf ∧ d'.xBufOff = d.xBufOff := by
  induction fuel generalizing d ws with
  | zero =>
    unfold zeroWords
    rw [if_neg (by rw [h.hoff]; omega)]
    have : 14 - ws.length = 0 := by omega
    exact ⟨d, rfl, by simpa [this] using h, rfl, rfl⟩
  | succ fuel ih =>
    unfold zeroWords
    by_cases hlt : ws.length < 14
    · rw [if_pos (by rw [h.hoff]; omega)]
      obtain ⟨d1, h1, h2, h3, h4, h5⟩ := putWord_abs h (by omega) 0
      rw [h1, Res.ok_bind]
      obtain ⟨d2, g1, g2, g3, g4⟩ := ih h2 (by simp; omega) (by simp; omega)
      refine ⟨d2, g1, ?_, g3.trans h3, g4.trans h4⟩
      simp only [List.length_append, List.length_singleton] at g2
      rw [show 14 - ws.length = (14 - (ws.length + 1)) + 1 by omega, List.replicate_succ]
      simpa using g2
    · rw [if_neg (by rw [h.hoff]; omega)]
      have : 14 - ws.length = 0 := by omega
      exact ⟨d, rfl, by simpa [this] using h, rfl, rfl⟩

theorem length_words_split (n : BitVec 64) :
    put32 ((n.sshiftRight 32).setWidth 32) ++ put32 (n.setWidth 32) = toBE 8 n.toNat := by
  apply beNat_inj
  · simp
  · have hn := n.isLt
    rw [beNat_append, beNat_toBE_of_lt (by omega)]
    unfold put32
    rw [length_toBE, beNat_toBE_of_lt (by have := (n.setWidth 32).isLt; omega),
      beNat_toBE_of_lt (by have := ((n.sshiftRight 32).setWidth 32).isLt; omega)]
    have e : ((n.sshiftRight 32).setWidth 32).toNat = n.toNat / 2 ^ 32 := by
      have : (n.sshiftRight 32).setWidth 32 = (n >>> 32).setWidth 32 := by
        apply BitVec.eq_of_getLsbD_eq
        intro i hi
        simp only [BitVec.getLsbD_setWidth, BitVec.getLsbD_sshiftRight, BitVec.getLsbD_ushiftRight]
        simp [hi, show ¬ 64 ≤ i by omega, show 32 + i < 64 by omega]
      rw [this, BitVec.toNat_setWidth, BitVec.toNat_ushiftRight, Nat.shiftRight_eq_div_pow]
      omega
    rw [e, BitVec.toNat_setWidth]
    omega

theorem wbytes_zero (k : Nat) : wbytes (List.replicate k 0) = List.replicate (4 * k) 0 := by
  induction k with
  | zero => rfl
  | succ k ih =>
    rw [List.replicate_succ, show (0 : Word) :: List.replicate k 0 = [0] ++ List.replicate k 0 from rfl, wbytes_append, ih,
      show 4 * (k + 1) = 4 + 4 * k by omega, List.replicate_append_replicate.symm]
    rfl

/-- The whole padding: from a state that stands for `m`, `finish` leaves a state whose chaining
value is the standard's hash of `m` when `byteCount` is right. -/
theorem finish_ok {d : Digest} {m : Bytes} (h : Abs d m) :
    ∃ d' z, finish d = .ok d' ∧ z < 64 ∧ (m.length + 1 + z) % 64 = 56 ∧
      AbsW d' (m ++ ([0x80] : Bytes) ++ List.replicate z (0 : Byte) ++ toBE 8 (d.byteCount <<< 3).toNat) [] ∧ AbsB d' [] := by
  unfold finish
  obtain ⟨d1, h1, h2, h3⟩ := write_ok h [128] (by simp) (by decide)
  rw [h1, Res.ok_bind]
  obtain ⟨d2, f, g1, g2, g3, g4⟩ := flush_ok 4 h2 (by omega)
  rw [g1, Res.ok_bind]
  simp only [List.length_append, List.length_singleton] at g4
  have hx := g2.xBufOff
  simp only [List.length_append, List.length_singleton, List.length_replicate] at hx
  obtain ⟨m', t, hm, ⟨blocks, ws, hW, hws, hm'⟩, hB, ht⟩ := g2
  have ht0 : t = [] := List.length_eq_zero_iff.1 (by rw [← hB.hoff, hx]; omega)
  subst ht0
  rw [List.append_nil] at hm
  subst hm'
  obtain ⟨kb, hkb⟩ := hW.dvd
  have hlen : m.length + 1 + f = 64 * kb + 4 * ws.length := by
    have := congrArg List.length hm
    simp only [List.length_append, List.length_singleton, List.length_replicate, length_wbytes] at this
    omega
  unfold processLength
  -- bring the word count to at most 14
  have pre : ∃ d3 blocks3 ws3 z3, lengthRoom d2 = .ok d3 ∧ AbsW d3 blocks3 ws3 ∧ ws3.length ≤ 14 ∧
      blocks3 ++ wbytes ws3 = blocks ++ wbytes ws ++ List.replicate z3 (0 : Byte) ∧ z3 + 4 * (14 - ws3.length) + f < 64 ∧
      (64 * kb + 4 * ws.length + z3 + 4 * (14 - ws3.length)) % 64 = 56 ∧
      d3.xBuf = d2.xBuf ∧ d3.xBufOff = d2.xBufOff := by
    unfold lengthRoom
    by_cases h15 : ws.length > 14
    · rw [if_pos (by rw [hW.hoff]; exact h15)]
      obtain ⟨d3, k1, k2, k3, k4, k5⟩ := putWord_abs hW hws 0
      rw [k1, Res.ok_bind]
      have k6 := processBlock_abs k2 (by simp; omega)
      refine ⟨_, _, [], 4, rfl, k6, by simp, ?_, by simp; omega, by simp; omega, k3, k4⟩
      rw [wbytes_append, wbytes_singleton, wbytes_nil, List.append_nil, List.append_assoc]
      rfl
    · rw [if_neg (by rw [hW.hoff]; exact h15)]
      exact ⟨d2, blocks, ws, 0, rfl, hW, by omega, by simp, by omega, by omega, rfl, rfl⟩
  obtain ⟨d3, blocks3, ws3, z3, k1, k2, k3, k4, k5, k6, k7, k8⟩ := pre
  rw [k1, Res.ok_bind]
  obtain ⟨d4, l1, l2, l3, l4⟩ := zeroWords_ok 14 k2 k3 (by omega)
  rw [l1, Res.ok_bind]
  have hl4 : (ws3 ++ List.replicate (14 - ws3.length) (0 : Word)).length = 14 := by simp; omega
  obtain ⟨d5, n1, n2, n3, n4, n5⟩ := putWord_abs l2 (by omega) (((d.byteCount <<< 3).sshiftRight 32).setWidth 32)
  rw [n1, Res.ok_bind]
  obtain ⟨d6, o1, o2, o3, o4, o5⟩ := putWord_abs n2 (by rw [List.length_append, hl4, List.length_singleton]; decide)
    ((d.byteCount <<< 3).setWidth 32)
  rw [o1, Res.ok_bind]
  have q := processBlock_abs o2 (by rw [List.length_append, List.length_append, hl4]; rfl)
  refine ⟨_, f + z3 + 4 * (14 - ws3.length), rfl, by omega, by omega, ?_, ?_⟩
  · have e : blocks3 ++ wbytes (ws3 ++ List.replicate (14 - ws3.length) (0 : Word) ++
        [((d.byteCount <<< 3).sshiftRight 32).setWidth 32] ++ [(d.byteCount <<< 3).setWidth 32])
        = m ++ ([0x80] : Bytes) ++ List.replicate (f + z3 + 4 * (14 - ws3.length)) (0 : Byte) ++ toBE 8 (d.byteCount <<< 3).toNat := by
      rw [wbytes_append, wbytes_append, wbytes_append, wbytes_singleton, wbytes_singleton, wbytes_zero,
        List.append_assoc _ (put32 _) (put32 _), length_words_split, ← List.append_assoc, ← List.append_assoc, k4, ← hm]
      rw [List.replicate_append_replicate.symm, List.replicate_append_replicate.symm]
      simp only [List.append_assoc]
    rw [e] at q
    exact q
  · exact hB.congr (by show d6.xBuf = _; rw [o3, n3, l3, k7]) (by show d6.xBufOff = _; rw [o4, n4, l4, k8])

/-- With the right byte count the padded data are the standard's padding. -/
theorem pad_eq (m : Bytes) (z : Nat) (hz : z < 64) (h : (m.length + 1 + z) % 64 = 56) (bc : BitVec 64)
    (hb : bc = BitVec.ofNat 64 m.length) :
    m ++ ([0x80] : Bytes) ++ List.replicate z (0 : Byte) ++ toBE 8 (bc <<< 3).toNat = Spec.SM3.pad m := by
  unfold Spec.SM3.pad
  have e1 : z = (119 - m.length % 64) % 64 := by omega
  have e2 : toBE 8 (bc <<< 3).toNat = toBE 8 (8 * m.length) := by
    apply beNat_inj
    · simp
    · rw [beNat_toBE, beNat_toBE, hb, BitVec.toNat_shiftLeft, BitVec.toNat_ofNat, Nat.shiftLeft_eq]
      omega
  rw [e1, e2]

theorem checkSum_ok {d : Digest} {m : Bytes} (h : Abs d m) (hb : d.byteCount = BitVec.ofNat 64 m.length) :
    ∃ d', checkSum d = .ok (Spec.SM3.hash m, d') ∧ Abs d' (Spec.SM3.pad m) := by
  obtain ⟨d', z, h1, hz, hm, hW, hB⟩ := finish_ok h
  rw [pad_eq m z hz hm _ hb] at hW
  unfold checkSum
  rw [h1, Res.ok_bind]
  refine ⟨d', ?_, ⟨_, [], (List.append_nil _).symm, ⟨_, [], hW, by simp, (List.append_nil _).symm⟩, hB, by simp⟩⟩
  rw [out_spec, hW.hv]; rfl

/-- `checkSum` succeeds in every state that stands for something, and leaves such a state. -/
theorem checkSum_abs {d : Digest} {m : Bytes} (h : Abs d m) :
    ∃ o d' m', checkSum d = .ok (o, d') ∧ o.length = 32 ∧ Abs d' m' := by
  obtain ⟨d', z, h1, hz, hm, hW, hB⟩ := finish_ok h
  unfold checkSum
  rw [h1, Res.ok_bind]
  exact ⟨_, d', _, rfl, by simp [out], ⟨_, [], (List.append_nil _).symm, ⟨_, [], hW, by simp, (List.append_nil _).symm⟩, hB, by simp⟩⟩

theorem new_abs : Abs new [] :=
  ⟨[], [], rfl, ⟨[], [], ⟨⟨0, rfl⟩, by simp, rfl, rfl, rfl, rfl, rfl⟩, by simp, rfl⟩, ⟨rfl, rfl, rfl⟩, by simp⟩

/-- Array sizes, fixed by the Go types. -/
def Shape (d : Digest) : Prop := d.inWords.length = 16 ∧ d.w.length = 68 ∧ d.xBuf.length = 4

theorem Abs.shape {d : Digest} {m : Bytes} (h : Abs d m) : Shape d := by
  obtain ⟨_, _, _, ⟨_, _, hW, _, _⟩, hB, _⟩ := h
  exact ⟨hW.lin, hW.lw, hB.lbuf⟩

theorem map_zero {α : Type} {l : List α} {n : Nat} {z : α} (h : l.length = n) :
    l.map (fun _ => z) = List.replicate n z := by
  rw [List.map_const', h]

theorem reset_eq_new {d : Digest} (h : Shape d) : reset d = new := by
  obtain ⟨h1, h2, h3⟩ := h
  unfold reset new reset
  rw [map_zero h1, map_zero h2, map_zero h3]
  rfl

end Verif.Sm3
