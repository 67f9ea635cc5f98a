import Verif.Props.Sm3Collision
/-!
# Property C04, every history: what an SM3 object returns whatever was called before
-/
namespace Verif.Props
open Verif Verif.Sm3 Verif.Spec.SM3

/-- What an SM3 object has taken in: the bytes that went through the compression function or wait for it, and the number of bytes it
believes it was given. The two agree until the first `Sum`. -/
structure Taken where
  bytes : Bytes
  count : Nat

/-- What `Sum` puts behind the bytes taken in: `0x80`, zero bytes up to 56 mod 64, and the number of bits believed. -/
def Taken.padded (s : Taken) : Bytes :=
  s.bytes ++ [0x80] ++ List.replicate ((119 - s.bytes.length % 64) % 64) 0 ++ toBE 8 (8 * s.count)

/-- The digest of a state: the standard's iteration over the padded bytes. -/
def Taken.digest (s : Taken) : Bytes := outBytes (V s.padded (s.padded.length / 64))

/-- After `Sum` the padding itself is taken in; of it, only the byte `0x80` and the zero bytes up to a multiple of four are counted. -/
def Taken.summed (s : Taken) : Taken := ⟨s.padded, s.count + 1 + (3 - s.bytes.length % 4)⟩

/-- One call, by the description above. -/
def takenStep (s : Taken) : HashOp → Option Bytes × Taken
  | .write p => (none, ⟨s.bytes ++ p, s.count + p.length⟩)
  | .sum b => (some (b ++ s.digest), s.summed)
  | .reset => (none, ⟨[], 0⟩)

/-- A history of calls, by the description above. -/
def takenRun : Taken → List HashOp → List (Option Bytes) × Taken
  | s, [] => ([], s)
  | s, op :: ops => ((takenStep s op).1 :: (takenRun (takenStep s op).2 ops).1, (takenRun (takenStep s op).2 ops).2)

/-- Calls the code accepts in every state: each `Write` is given between 1 and 2^31 − 1 bytes. -/
def GoodOps (ops : List HashOp) : Prop := ∀ p, HashOp.write p ∈ ops → p ≠ [] ∧ p.length < 2 ^ 31

/-! ## The byte count -/

theorem putWord_count {d d' : Digest} {x : Word} (h : putWord d x = .ok d') : d'.byteCount = d.byteCount := by
  unfold putWord at h
  split at h
  · injection h with h; rw [← h]
  · cases h

theorem zeroWords_count (n : Nat) {d d' : Digest} (h : zeroWords d n = .ok d') : d'.byteCount = d.byteCount := by
  induction n generalizing d with
  | zero =>
    unfold zeroWords at h
    split at h
    · cases h
    · injection h with h; rw [h]
  | succ n ih =>
    unfold zeroWords at h
    split at h
    · rw [Res.bind_eq_ok] at h
      obtain ⟨d1, h1, h2⟩ := h
      rw [ih h2, putWord_count h1]
    · injection h with h; rw [h]

theorem processLength_count {d d' : Digest} {l : BitVec 64} (h : processLength d l = .ok d') : d'.byteCount = d.byteCount := by
  unfold processLength at h
  rw [Res.bind_eq_ok] at h
  obtain ⟨d1, h1, h⟩ := h
  rw [Res.bind_eq_ok] at h
  obtain ⟨d2, h2, h⟩ := h
  rw [Res.bind_eq_ok] at h
  obtain ⟨d3, h3, h⟩ := h
  rw [putWord_count h, putWord_count h3, zeroWords_count _ h2]
  unfold lengthRoom at h1
  split at h1
  · rw [Res.bind_eq_ok] at h1
    obtain ⟨d0, h0, h1⟩ := h1
    injection h1 with h1
    rw [← h1]
    show d0.byteCount = _
    exact putWord_count h0
  · injection h1 with h1; rw [h1]

theorem flush_count (n : Nat) {d d' : Digest} {m : Bytes} (ha : Abs d m) (h : flush d n = .ok d') :
    d'.byteCount = d.byteCount + BitVec.ofNat 64 ((4 - m.length % 4) % 4) := by
  induction n generalizing d m with
  | zero =>
    have hx := ha.xBufOff
    unfold flush at h
    split at h
    · cases h
    · injection h with h
      rw [h, show (4 - m.length % 4) % 4 = 0 by omega]
      simp
  | succ n ih =>
    have hx := ha.xBufOff
    unfold flush at h
    split at h
    · obtain ⟨d1, h1, h2, h3⟩ := write_ok ha [0] (by simp) (by decide)
      rw [h1, Res.ok_bind] at h
      rw [ih h2 h, h3, BitVec.add_assoc, ← BitVec.ofNat_add]
      congr 2
      simp only [List.length_append, List.length_singleton]
      omega
    · injection h with h
      rw [h, show (4 - m.length % 4) % 4 = 0 by omega]
      simp

theorem finish_count {d d' : Digest} {m : Bytes} (ha : Abs d m) (h : finish d = .ok d') :
    d'.byteCount = d.byteCount + BitVec.ofNat 64 (1 + (3 - m.length % 4)) := by
  unfold finish at h
  obtain ⟨d1, h1, h2, h3⟩ := write_ok ha [128] (by simp) (by decide)
  rw [h1, Res.ok_bind, Res.bind_eq_ok] at h
  obtain ⟨d2, g1, h⟩ := h
  rw [Res.bind_eq_ok] at h
  obtain ⟨d3, k1, h⟩ := h
  injection h with h
  rw [← h]
  show d3.byteCount = _
  rw [processLength_count k1, flush_count 4 h2 g1, h3, BitVec.add_assoc, ← BitVec.ofNat_add]
  congr 2
  simp only [List.length_append, List.length_singleton]
  omega

/-! ## One call, every call -/

/-- The object stands for a description. -/
def Stands (d : Digest) (s : Taken) : Prop := Abs d s.bytes ∧ d.byteCount = BitVec.ofNat 64 s.count

theorem checkSum_stands {d : Digest} {s : Taken} (h : Stands d s) : ∃ d', checkSum d = .ok (s.digest, d') ∧ Stands d' s.summed := by
  obtain ⟨ha, hc⟩ := h
  obtain ⟨d', z, h1, hz, hm, hW, hB⟩ := finish_ok ha
  have e : s.bytes ++ ([0x80] : Bytes) ++ List.replicate z (0 : Byte) ++ toBE 8 (d.byteCount <<< 3).toNat = s.padded := by
    unfold Taken.padded
    have e2 : toBE 8 (d.byteCount <<< 3).toNat = toBE 8 (8 * s.count) := by
      apply beNat_inj
      · simp
      · rw [beNat_toBE, beNat_toBE, hc, BitVec.toNat_shiftLeft, BitVec.toNat_ofNat, Nat.shiftLeft_eq]
        omega
    rw [e2, show z = (119 - s.bytes.length % 64) % 64 by omega]
  rw [e] at hW
  refine ⟨d', ?_, ⟨_, [], (List.append_nil _).symm, ⟨_, [], hW, by simp, (List.append_nil _).symm⟩, hB, by simp⟩, ?_⟩
  · unfold checkSum
    rw [h1, Res.ok_bind, out_spec, hW.hv]
    rfl
  · rw [finish_count ha h1, hc, ← BitVec.ofNat_add, ← Nat.add_assoc]
    rfl

theorem hashRun_stands (ops : List HashOp) (hg : GoodOps ops) {d : Digest} {s : Taken} (h : Stands d s) :
    ∃ d', hashRun d ops = .ok ((takenRun s ops).1, d') ∧ Stands d' (takenRun s ops).2 := by
  induction ops generalizing d s with
  | nil => exact ⟨d, rfl, h⟩
  | cons op ops ih =>
    have step : ∃ d1, hashStep d op = .ok ((takenStep s op).1, d1) ∧ Stands d1 (takenStep s op).2 := by
      cases op with
      | write p =>
        obtain ⟨hp, hl⟩ := hg p (by simp)
        obtain ⟨d1, h1, h2, h3⟩ := write_ok h.1 p hp hl
        refine ⟨d1, by rw [hashStep, h1, Res.ok_bind]; rfl, h2, ?_⟩
        rw [h3, h.2, ← BitVec.ofNat_add]
        rfl
      | sum b =>
        obtain ⟨d1, h1, h2⟩ := checkSum_stands h
        exact ⟨d1, by simp only [hashStep, sumMethod, h1, Res.ok_bind]; rfl, h2⟩
      | reset => exact ⟨reset d, rfl, by rw [reset_eq_new h.1.shape]; exact ⟨new_abs, rfl⟩⟩
    obtain ⟨d1, h1, h2⟩ := step
    obtain ⟨d2, h3, h4⟩ := ih (fun p hp => hg p (by simp [hp])) h2
    exact ⟨d2, by rw [hashRun, h1, Res.ok_bind, h3, Res.ok_bind]; rfl, h4⟩

/-- C04 for every history: whatever sequence of `Write`, `Sum` and `Reset` a new object is put through, what it returns is exactly what
the description by bytes taken in and bytes counted returns. In particular `Sum` answers with the digest of the bytes written since the
last `Reset` if no `Sum` came in between, and otherwise with the digest of those bytes with all earlier padding among them, closed by a
length that is none of the lengths the standard would put there. -/
theorem C04_history (ops : List HashOp) (hg : GoodOps ops) : ∃ d, hashRun new ops = .ok ((takenRun ⟨[], 0⟩ ops).1, d) := by
  obtain ⟨d, h, _⟩ := hashRun_stands ops hg (d := new) (s := ⟨[], 0⟩) ⟨new_abs, rfl⟩
  exact ⟨d, h⟩

/-- The description agrees with the standard as long as bytes and count agree. -/
theorem digest_standard (m : Bytes) : (Taken.mk m m.length).digest = Spec.SM3.hash m := rfl

/-- And after the first `Sum` the object has taken in the padded message. -/
theorem summed_standard (m : Bytes) : (Taken.mk m m.length).summed = ⟨pad m, m.length + 1 + (3 - m.length % 4)⟩ := rfl

/-- A `Sum`, a further `Write` and a `Sum`: the second digest is that of the padded message with the new bytes behind it, closed by a
count that leaves most of the padding out. -/
theorem C04_second_sum (m p b b' : Bytes) (hm : m ≠ []) (hp : p ≠ []) (hm' : m.length < 2 ^ 31) (hp' : p.length < 2 ^ 31) :
    ∃ d, hashRun new [.write m, .sum b, .write p, .sum b'] = .ok ([none, some (b ++ Spec.SM3.hash m), none,
      some (b' ++ (Taken.mk (pad m ++ p) (m.length + 1 + (3 - m.length % 4) + p.length)).digest)], d) := by
  obtain ⟨d, h⟩ := C04_history [.write m, .sum b, .write p, .sum b'] (by
    intro q hq
    simp only [List.mem_cons, HashOp.write.injEq, reduceCtorEq, List.not_mem_nil, or_false, false_or] at hq
    rcases hq with rfl | rfl
    · exact ⟨hm, hm'⟩
    · exact ⟨hp, hp'⟩)
  refine ⟨d, ?_⟩
  simpa only [takenRun, takenStep, List.nil_append, Nat.zero_add, digest_standard, summed_standard] using h

/-- Three calls of `Sum` with writes in between meet the hypothesis. -/
example : GoodOps [.write [0x61], .sum [], .write [0x62], .sum [7], .reset, .sum []] := by
  intro p hp
  simp only [List.mem_cons, HashOp.write.injEq, reduceCtorEq, List.not_mem_nil, or_false, false_or] at hp
  rcases hp with rfl | rfl <;> exact ⟨by decide, by decide⟩

/-! ## Sum twice -/

theorem padded_length (s : Taken) : s.padded.length % 64 = 0 ∧ 64 ≤ s.padded.length := by
  unfold Taken.padded
  simp only [List.length_append, List.length_replicate, List.length_cons, List.length_nil, length_toBE]
  omega

theorem drop_padded (s : Taken) : s.padded.drop (s.padded.length - 8) = toBE 8 (8 * s.count) := by
  unfold Taken.padded
  rw [List.drop_left']
  simp only [List.length_append, List.length_replicate, List.length_cons, List.length_nil, length_toBE]
  omega

/-- The last block a `Sum` in this state compresses. -/
def Taken.lastBlock (s : Taken) : Bytes := s.padded.drop (s.padded.length - 64)

/-- The chaining value it meets. -/
def Taken.lastChain (s : Taken) : Regs := V s.padded (s.padded.length / 64 - 1)

theorem digest_last (s : Taken) : s.digest = outBytes (CF s.lastChain s.lastBlock) := by
  obtain ⟨h1, h2⟩ := padded_length s
  unfold Taken.digest Taken.lastChain Taken.lastBlock
  obtain ⟨N, hN⟩ : ∃ N, s.padded.length / 64 = N + 1 := ⟨s.padded.length / 64 - 1, by omega⟩
  rw [hN]
  show outBytes (CF _ _) = _
  rw [show s.padded.length - 64 = 64 * N by omega, List.take_of_length_le (by simp; omega)]
  rfl

theorem lastBlock_count (s : Taken) : s.lastBlock.drop 56 = toBE 8 (8 * s.count) := by
  obtain ⟨h1, h2⟩ := padded_length s
  unfold Taken.lastBlock
  rw [List.drop_drop, show s.padded.length - 64 + 56 = s.padded.length - 8 by omega, drop_padded]

/-- C04 fails after every history, not just after one: two calls of `Sum` in a row compress different last blocks, so they return the
same digest only where SM3's compression function takes these two blocks, from the chaining values met, to the same value. -/
theorem C04_repeat_violated (ops : List HashOp) (hg : GoodOps ops) (b : Bytes) :
    ∃ s : Taken, ∃ outs d, hashRun new (ops ++ [.sum b, .sum b]) = .ok (outs ++ [some (b ++ s.digest), some (b ++ s.summed.digest)], d) ∧
      s.lastBlock ≠ s.summed.lastBlock ∧
      (b ++ s.digest = b ++ s.summed.digest → CF s.lastChain s.lastBlock = CF s.summed.lastChain s.summed.lastBlock) := by
  have app : ∀ (xs ys : List HashOp) (s : Taken), (takenRun s (xs ++ ys)).1 = (takenRun s xs).1 ++ (takenRun (takenRun s xs).2 ys).1 := by
    intro xs ys
    induction xs with
    | nil => intro s; rfl
    | cons x xs ih =>
      intro s
      rw [List.cons_append, takenRun, takenRun]
      simp only [ih, List.cons_append]
  obtain ⟨d, h⟩ := C04_history (ops ++ [.sum b, .sum b]) (by
    intro p hp
    simp only [List.mem_append, List.mem_cons, reduceCtorEq, List.not_mem_nil, or_false] at hp
    exact hg p hp)
  rw [app] at h
  refine ⟨(takenRun ⟨[], 0⟩ ops).2, _, d, h, ?_, ?_⟩
  · intro e
    have e2 := congrArg (List.drop 56) e
    rw [lastBlock_count, lastBlock_count] at e2
    have e3 := congrArg beNat e2
    rw [beNat_toBE, beNat_toBE] at e3
    simp only [Taken.summed] at e3
    omega
  · intro e
    have e2 := List.append_cancel_left e
    rw [digest_last, digest_last] at e2
    exact outBytes_inj e2

end Verif.Props
