import Verif.Sm3.Abs
/-!
# Properties C01–C05: SM3
-/
namespace Verif.Props
open Verif Verif.Sm3

/-- A sequence of `Write` calls. -/
def writeAll : Digest → List Bytes → Res Digest
  | d, [] => .ok d
  | d, p :: ps => do
    let d ← write d p
    writeAll d ps

/-- Chunks the code accepts in one `Write` call: not empty, shorter than 2^31 bytes. -/
def GoodChunks (cs : List Bytes) : Prop := ∀ p ∈ cs, p ≠ [] ∧ p.length < 2 ^ 31

theorem writeAll_abs (cs : List Bytes) (hc : GoodChunks cs) (d : Digest) (m : Bytes) (h : Abs d m)
    (hb : d.byteCount = BitVec.ofNat 64 m.length) :
    ∃ d', writeAll d cs = .ok d' ∧ Abs d' (m ++ cs.flatten) ∧
      d'.byteCount = BitVec.ofNat 64 (m ++ cs.flatten).length := by
  induction cs generalizing d m with
  | nil => exact ⟨d, rfl, by simpa using h, by simpa using hb⟩
  | cons p ps ih =>
    have hp := hc p (by simp)
    obtain ⟨d1, h1, h2, h3⟩ := write_ok h p hp.1 hp.2
    rw [writeAll, h1, Res.ok_bind]
    obtain ⟨d2, g1, g2, g3⟩ := ih (fun q hq => hc q (by simp [hq])) d1 (m ++ p) h2
      (by rw [h3, hb, List.length_append, BitVec.ofNat_add])
    exact ⟨d2, g1, by simpa using g2, by simpa using g3⟩

/-! ## C01 -/

/-- C01, `New`/`Write`…/`Sum(b)`: for every list of acceptable chunks (also none) the result is `b`
followed by the standard's hash of the concatenation. -/
theorem C01_write_sum_conforms (cs : List Bytes) (hc : GoodChunks cs) (b : Bytes) :
    ∃ d', (do let d ← writeAll new cs
              sumMethod d b) = .ok (b ++ Spec.SM3.hash cs.flatten, d') := by
  obtain ⟨d1, h1, h2, h3⟩ := writeAll_abs cs hc new [] new_abs rfl
  obtain ⟨d2, g1, _⟩ := checkSum_ok h2 h3
  rw [h1, Res.ok_bind]
  unfold sumMethod
  rw [g1, Res.ok_bind]
  exact ⟨d2, by simp⟩

/-- C01, function `sm3.Sum`. -/
theorem C01_sum_conforms (data : Bytes) (hne : data ≠ []) (hl : data.length < 2 ^ 31) :
    sum data = .ok (Spec.SM3.hash data) := by
  obtain ⟨d1, h1, h2, h3⟩ := write_ok new_abs data hne hl
  obtain ⟨d2, g1, _⟩ := checkSum_ok h2 (by rw [h3]; simp [new, reset])
  unfold sum
  rw [show reset zeroDigest = new from rfl, h1, Res.ok_bind, g1]
  rfl

/-- Test: the standard's first example, SM3("abc"). -/
example : sum [0x61, 0x62, 0x63] = .ok
    [0x66,0xc7,0xf0,0xf4,0x62,0xee,0xed,0xd9,0xd1,0xf2,0xd4,0x6b,0xdc,0x10,0xe4,0xe2,
     0x41,0x67,0xc4,0x87,0x5c,0xf2,0xf7,0xa2,0x29,0x7d,0xa0,0x2b,0x8f,0x4b,0xa8,0xe0] := by
  decide +kernel

example : GoodChunks [[1, 2, 3], [4], [5, 6, 7, 8, 9]] := by unfold GoodChunks; decide

/-- The digest always has 32 bytes. -/
theorem C01_hash_length (m : Bytes) : (Spec.SM3.hash m).length = 32 := by
  unfold Spec.SM3.hash Spec.SM3.outBytes
  simp

/-! ## C02 -/

/-- C02: the cut does not matter. -/
theorem C02_chunking (cs cs' : List Bytes) (hc : GoodChunks cs) (hc' : GoodChunks cs')
    (h : cs.flatten = cs'.flatten) (b : Bytes) (o o' : Bytes) (d d' : Digest)
    (hr : (do let d ← writeAll new cs; sumMethod d b) = .ok (o, d))
    (hr' : (do let d ← writeAll new cs'; sumMethod d b) = .ok (o', d')) : o = o' := by
  obtain ⟨_, h1⟩ := C01_write_sum_conforms cs hc b
  obtain ⟨_, h2⟩ := C01_write_sum_conforms cs' hc' b
  rw [h1] at hr; rw [h2] at hr'
  injection hr with hr; injection hr' with hr'
  injection hr with hr; injection hr' with hr'
  rw [← hr, ← hr', h]

example : GoodChunks [[1], [2, 3]] ∧ GoodChunks [[1, 2], [3]] ∧
    [[1], [2, 3]].flatten = ([[1, 2], [3]].flatten : Bytes) := by unfold GoodChunks; decide

/-! ## Operation histories -/

/-- Calls on a hash object. -/
inductive HashOp where
  | write (p : Bytes)
  | sum (b : Bytes)
  | reset

/-- One call: what the caller sees (the bytes of `Sum`) and the state afterwards. -/
def hashStep (d : Digest) : HashOp → Res (Option Bytes × Digest)
  | .write p => do let d ← write d p; .ok (none, d)
  | .sum b => do let r ← sumMethod d b; .ok (some r.1, r.2)
  | .reset => .ok (none, reset d)

/-- A history of calls: the visible results and the final state. -/
def hashRun : Digest → List HashOp → Res (List (Option Bytes) × Digest)
  | d, [] => .ok ([], d)
  | d, op :: ops => do
    let r ← hashStep d op
    let s ← hashRun r.2 ops
    .ok (r.1 :: s.1, s.2)

/-- Every state reached by successful calls stands for some message. -/
theorem hashStep_abs {d : Digest} {m : Bytes} (h : Abs d m) (op : HashOp) (o : Option Bytes) (d' : Digest)
    (hs : hashStep d op = .ok (o, d')) : ∃ m', Abs d' m' := by
  cases op with
  | write p =>
    by_cases hp : p = []
    · subst hp; simp [hashStep, write] at hs
    · rcases Nat.lt_or_ge (limit d.xBufOff p.length) (2 ^ 31) with hl | hl
      · obtain ⟨d1, h1, h2, _⟩ := (write_cases h p hp).1 hl
        simp only [hashStep, h1, Res.ok_bind, Res.ok.injEq, Prod.mk.injEq] at hs
        exact ⟨_, hs.2 ▸ h2⟩
      · simp only [hashStep, (write_cases h p hp).2 hl, Res.panic_bind] at hs
        cases hs
  | sum b =>
    obtain ⟨o1, d1, m1, h1, _, h2⟩ := checkSum_abs h
    simp only [hashStep, sumMethod, h1, Res.ok_bind, Res.ok.injEq, Prod.mk.injEq] at hs
    exact ⟨m1, hs.2 ▸ h2⟩
  | reset =>
    simp only [hashStep, Res.ok.injEq, Prod.mk.injEq] at hs
    rw [← hs.2, reset_eq_new h.shape]
    exact ⟨_, new_abs⟩

theorem hashRun_abs {d : Digest} {m : Bytes} (h : Abs d m) (ops : List HashOp) (o : List (Option Bytes)) (d' : Digest)
    (hs : hashRun d ops = .ok (o, d')) : ∃ m', Abs d' m' := by
  induction ops generalizing d m o with
  | nil => simp only [hashRun, Res.ok.injEq, Prod.mk.injEq] at hs; exact ⟨m, hs.2 ▸ h⟩
  | cons op ops ih =>
    rw [hashRun, Res.bind_eq_ok] at hs
    obtain ⟨⟨o1, d1⟩, h1, h2⟩ := hs
    rw [Res.bind_eq_ok] at h2
    obtain ⟨⟨o2, d2⟩, h3, h4⟩ := h2
    obtain ⟨m1, hm1⟩ := hashStep_abs h op o1 d1 h1
    simp only [Res.ok.injEq, Prod.mk.injEq] at h4
    obtain ⟨_, rfl⟩ := h4
    exact ih hm1 o2 h3

/-! ## C03 -/

/-- C03: after any history a Reset makes every continuation return what it returns on a new object,
panics included. -/
theorem C03_reset (hist cont : List HashOp) (o : List (Option Bytes)) (d : Digest)
    (hh : hashRun new hist = .ok (o, d)) :
    hashRun d (.reset :: cont) = (do let r ← hashRun new cont; .ok (none :: r.1, r.2)) := by
  obtain ⟨m, hm⟩ := hashRun_abs new_abs hist o d hh
  rw [hashRun, hashStep, Res.ok_bind, reset_eq_new hm.shape]

/-- C03 also for a state left behind by a panic: the Go types fix the array sizes, and that is all
`Reset` needs. -/
theorem C03_reset_any (d : Digest) (h : Shape d) : reset d = new := reset_eq_new h

example : ∃ o d, hashRun new [.write [1, 2, 3], .sum [9], .write [4]] = .ok (o, d) := by
  obtain ⟨d1, h1, h2, _⟩ := write_ok new_abs [1, 2, 3] (by decide) (by decide)
  obtain ⟨o2, d2, m2, g1, _, g2⟩ := checkSum_abs h2
  obtain ⟨d3, k1, _⟩ := write_ok g2 [4] (by decide) (by decide)
  refine ⟨[none, some ([9] ++ o2), none], d3, ?_⟩
  simp only [hashRun, hashStep, h1, sumMethod, g1, k1, Res.ok_bind]

/-! ## C04 -/

/-- C04, what holds: after any sequence of acceptable writes `Sum(b)` returns `b` followed by the
32-byte digest of everything written. `_partial`: the state is not left unchanged, see
`C04_sum_unchanged_violated`. -/
theorem C04_sum_partial (cs : List Bytes) (hc : GoodChunks cs) (d : Digest) (hd : writeAll new cs = .ok d) (b : Bytes) :
    ∃ o d', sumMethod d b = .ok (o, d') ∧ o.take b.length = b ∧ o.drop b.length = Spec.SM3.hash cs.flatten ∧
      o.length = b.length + 32 := by
  obtain ⟨d', h⟩ := C01_write_sum_conforms cs hc b
  rw [hd, Res.ok_bind] at h
  exact ⟨_, d', h, by simp, by simp, by simp [C01_hash_length]⟩

/-- C04 is violated: after `Write("a")` two calls of `Sum` return different digests. -/
theorem C04_sum_unchanged_violated :
    ∃ d d1 d2 o1 o2, write new [0x61] = .ok d ∧ sumMethod d [] = .ok (o1, d1) ∧ sumMethod d1 [] = .ok (o2, d2) ∧
      o1 ≠ o2 := by
  have key : (do let d ← write new [0x61]
                 let r1 ← sumMethod d []
                 let r2 ← sumMethod r1.2 []
                 Res.ok (decide (r1.1 = r2.1))) = Res.ok false := by decide +kernel
  rw [Res.bind_eq_ok] at key
  obtain ⟨d, h1, key⟩ := key
  rw [Res.bind_eq_ok] at key
  obtain ⟨⟨o1, d1⟩, h2, key⟩ := key
  rw [Res.bind_eq_ok] at key
  obtain ⟨⟨o2, d2⟩, h3, key⟩ := key
  refine ⟨d, d1, d2, o1, o2, h1, h2, h3, ?_⟩
  simp only [Res.ok.injEq, decide_eq_false_iff_not] at key
  exact key

/-- What `Sum` leaves behind, exactly: the object then stands for the padded message (so the next
`Write` or `Sum` continues from there). -/
theorem C04_state_after_sum (cs : List Bytes) (hc : GoodChunks cs) (d d' : Digest) (o b : Bytes)
    (hd : writeAll new cs = .ok d) (hs : sumMethod d b = .ok (o, d')) : Abs d' (Spec.SM3.pad cs.flatten) := by
  obtain ⟨d1, h1, h2, h3⟩ := writeAll_abs cs hc new [] new_abs rfl
  rw [h1] at hd
  injection hd with hd
  subst hd
  obtain ⟨d2, g1, g2⟩ := checkSum_ok h2 h3
  unfold sumMethod at hs
  rw [g1, Res.ok_bind] at hs
  simp only [Res.ok.injEq, Prod.mk.injEq] at hs
  rw [← hs.2]
  exact g2

/-! ## C05 -/

/-- C05, exactly: in every reachable state `Write(p)` panics iff `p` is empty or the word loop runs to
index 2^31 or beyond; otherwise it succeeds and the state stands for the longer message. -/
theorem C05_write_exact (hist : List HashOp) (o : List (Option Bytes)) (d : Digest) (hh : hashRun new hist = .ok (o, d))
    (p : Bytes) :
    ((p = [] ∨ 2 ^ 31 ≤ limit d.xBufOff p.length) → write d p = .panic) ∧
    (¬ (p = [] ∨ 2 ^ 31 ≤ limit d.xBufOff p.length) → ∃ m d', Abs d m ∧ write d p = .ok d' ∧ Abs d' (m ++ p) ∧
      d'.byteCount = d.byteCount + BitVec.ofNat 64 p.length) := by
  obtain ⟨m, hm⟩ := hashRun_abs new_abs hist o d hh
  constructor
  · rintro (rfl | hl)
    · rfl
    · by_cases hp : p = []
      · subst hp; rfl
      · exact (write_cases hm p hp).2 hl
  · intro hn
    have hp : p ≠ [] := fun h => hn (Or.inl h)
    obtain ⟨d', h1, h2, h3⟩ := (write_cases hm p hp).1 (by
      rcases Nat.lt_or_ge (limit d.xBufOff p.length) (2 ^ 31) with h | h
      · exact h
      · exact absurd (Or.inr h) hn)
    exact ⟨m, d', hm, h1, h2, h3⟩

/-- C05 for every non-empty slice below 2^31 bytes. `_partial`: empty slices and slices from 2^31
bytes on panic. -/
theorem C05_write_accepts_partial (hist : List HashOp) (o : List (Option Bytes)) (d : Digest)
    (hh : hashRun new hist = .ok (o, d)) (p : Bytes) (hp : p ≠ []) (hl : p.length < 2 ^ 31) :
    ∃ d', write d p = .ok d' := by
  obtain ⟨m, hm⟩ := hashRun_abs new_abs hist o d hh
  obtain ⟨d', h, _⟩ := write_ok hm p hp hl
  exact ⟨d', h⟩

/-- C05 is violated: writing an empty slice panics on a fresh object (and in every other state). -/
theorem C05_write_empty_violated : ∀ d, write d [] = .panic := fun _ => rfl

/-- C05 is violated at the other end too: on a fresh object every slice of 2^31 bytes or more panics. -/
theorem C05_write_long_violated (p : Bytes) (h : 2 ^ 31 ≤ p.length) : write new p = .panic := by
  apply (write_cases new_abs p (by rintro rfl; simp at h)).2
  show 2 ^ 31 ≤ limit 0 p.length
  unfold limit skip
  simp only [if_true]
  omega

end Verif.Props
