import Verif.Sm2.Model
import Verif.Sm2.Spec
import Verif.Sm2.Order
import Verif.Sm3.Abs
import Verif.Der.Lemmas
/-!
# Lemmas about the building blocks of the SM2 model
-/
namespace Verif.Sm2
open EC
open Verif.Spec.SM2 (coords fe)

/-! ## Loops -/

/-- If a loop ends with a value, some pass of its body did, in a state satisfying any invariant. -/
theorem forLoop_inv {σ α : Type} {body : σ → Res (σ ⊕ α)} (I : σ → Prop)
    (hI : ∀ s s', I s → body s = .ok (.inl s') → I s') :
    ∀ (fuel : Nat) (s : σ) (a : α), I s → forLoop body fuel s = .ok a → ∃ s', I s' ∧ body s' = .ok (.inr a) := by
  intro fuel
  induction fuel with
  | zero => intro s a _ h; cases h
  | succ fuel ih =>
    intro s a hs h
    unfold forLoop at h
    rw [Res.bind_eq_ok] at h
    obtain ⟨r, h1, h2⟩ := h
    cases r with
    | inl s' => exact ih s' a (hI s s' hs h1) h2
    | inr a' => simp only [Res.ok.injEq] at h2; subst h2; exact ⟨s, hs, h1⟩

theorem forLoop_ok {σ α : Type} {body : σ → Res (σ ⊕ α)} {fuel : Nat} {s : σ} {a : α}
    (h : forLoop body fuel s = .ok a) : ∃ s', body s' = .ok (.inr a) := by
  obtain ⟨s', _, h'⟩ := forLoop_inv (fun _ => True) (fun _ _ _ _ => trivial) fuel s a trivial h
  exact ⟨s', h'⟩

/-! ## Hashing -/

theorem hashOf_inv (cs : List Bytes) : ∀ (d : Sm3.Digest) (m : Bytes) (d' : Sm3.Digest), Sm3.Abs d m →
    d.byteCount = BitVec.ofNat 64 m.length → cs.foldlM (fun d c => Sm3.write d c) d = .ok d' →
    (∀ c ∈ cs, c ≠ [] ∧ c.length < 2 ^ 31 + 8) ∧ Sm3.Abs d' (m ++ cs.flatten) ∧
      d'.byteCount = BitVec.ofNat 64 (m ++ cs.flatten).length := by
  induction cs with
  | nil =>
    intro d m d' h1 h2 h3
    simp only [List.foldlM_nil, Res.pure_eq, Res.ok.injEq] at h3
    subst h3
    simp only [List.flatten_nil, List.append_nil]
    exact ⟨by simp, h1, h2⟩
  | cons c cs ih =>
    intro d m d' h1 h2 h3
    rw [List.foldlM_cons, Res.bind_eq_ok] at h3
    obtain ⟨d1, h3, h4⟩ := h3
    have hne : c ≠ [] := by
      rintro rfl
      unfold Sm3.write at h3
      simp at h3
    have hlim : Sm3.limit d.xBufOff c.length < 2 ^ 31 := by
      by_contra hc
      rw [(Sm3.write_cases h1 c hne).2 (by omega)] at h3
      cases h3
    obtain ⟨d2, g1, g2, g3⟩ := (Sm3.write_cases h1 c hne).1 hlim
    rw [g1] at h3
    cases h3
    obtain ⟨k1, k2, k3⟩ := ih d1 (m ++ c) d' g2 (by rw [g3, h2, List.length_append, BitVec.ofNat_add]) h4
    refine ⟨?_, by simpa using k2, by simpa using k3⟩
    intro c' hc'
    rcases List.mem_cons.1 hc' with rfl | hc'
    · refine ⟨hne, ?_⟩
      unfold Sm3.limit Sm3.skip at hlim
      split at hlim <;> omega
    · exact k1 c' hc'

/-- Whenever the hash computation returns, it returned the SM3 hash of the concatenation. -/
theorem hashOf_ok {cs : List Bytes} {h : Bytes} (hh : hashOf cs = .ok h) :
    h = Spec.SM3.hash cs.flatten ∧ ∀ c ∈ cs, c ≠ [] ∧ c.length < 2 ^ 31 + 8 := by
  unfold hashOf at hh
  rw [Res.bind_eq_ok] at hh
  obtain ⟨d, h1, h2⟩ := hh
  obtain ⟨g1, g2, g3⟩ := hashOf_inv cs Sm3.new [] d Sm3.new_abs rfl h1
  obtain ⟨d2, k1, _⟩ := Sm3.checkSum_ok g2 g3
  unfold Sm3.sumMethod at h2
  rw [k1] at h2
  simp at h2
  exact ⟨h2.symm, g1⟩

theorem hashOf_eq_of {cs : List Bytes} (hc : ∀ c ∈ cs, c ≠ [] ∧ c.length < 2 ^ 31) :
    hashOf cs = .ok (Spec.SM3.hash cs.flatten) := by
  have key : ∀ (cs : List Bytes), (∀ c ∈ cs, c ≠ [] ∧ c.length < 2 ^ 31) → ∀ (d : Sm3.Digest) (m : Bytes),
      Sm3.Abs d m → ∃ d', cs.foldlM (fun d c => Sm3.write d c) d = .ok d' := by
    intro cs
    induction cs with
    | nil => intro _ d m _; exact ⟨d, rfl⟩
    | cons c cs ih =>
      intro hc d m h
      obtain ⟨d1, h1, h2, _⟩ := Sm3.write_ok h c (hc c (by simp)).1 (hc c (by simp)).2
      obtain ⟨d', h'⟩ := ih (fun c' h' => hc c' (by simp [h'])) d1 _ h2
      exact ⟨d', by rw [List.foldlM_cons, h1, Res.ok_bind, h']⟩
  obtain ⟨d, hd⟩ := key cs hc Sm3.new [] Sm3.new_abs
  obtain ⟨g1, g2, g3⟩ := hashOf_inv cs Sm3.new [] d Sm3.new_abs rfl hd
  obtain ⟨d2, k1, _⟩ := Sm3.checkSum_ok g2 g3
  unfold hashOf Sm3.sumMethod
  rw [hd, Res.ok_bind, k1]
  simp

/-- The hash computation returns or panics, nothing else. -/
theorem hashOf_cases (cs : List Bytes) : hashOf cs = .panic ∨ hashOf cs = .ok (Spec.SM3.hash cs.flatten) := by
  have key : ∀ (cs : List Bytes) (d : Sm3.Digest) (m : Bytes), Sm3.Abs d m →
      cs.foldlM (fun d c => Sm3.write d c) d = .panic ∨ ∃ d', cs.foldlM (fun d c => Sm3.write d c) d = .ok d' := by
    intro cs
    induction cs with
    | nil => intro d m _; exact .inr ⟨d, rfl⟩
    | cons c cs ih =>
      intro d m h
      by_cases hne : c = []
      · left; subst hne; rw [List.foldlM_cons]
        have : Sm3.write d [] = .panic := by unfold Sm3.write; simp
        rw [this]; rfl
      · by_cases hl : Sm3.limit d.xBufOff c.length < 2 ^ 31
        · obtain ⟨d1, h1, h2, _⟩ := (Sm3.write_cases h c hne).1 hl
          rw [List.foldlM_cons, h1, Res.ok_bind]
          exact ih d1 _ h2
        · left
          rw [List.foldlM_cons, (Sm3.write_cases h c hne).2 (by omega)]; rfl
  rcases key cs Sm3.new [] Sm3.new_abs with h | ⟨d, h⟩
  · left; unfold hashOf; rw [h]; rfl
  · right
    obtain ⟨g1, g2, g3⟩ := hashOf_inv cs Sm3.new [] d Sm3.new_abs rfl h
    obtain ⟨d2, k1, _⟩ := Sm3.checkSum_ok g2 g3
    unfold hashOf Sm3.sumMethod
    rw [h, Res.ok_bind, k1]
    simp

theorem hash_length (m : Bytes) : (Spec.SM3.hash m).length = 32 := by
  unfold Spec.SM3.hash Spec.SM3.outBytes
  simp

attribute [local irreducible] Spec.SM3.hash

/-! ## 32-byte numbers -/

theorem keyBytes_eq : keyBytes = 32 := rfl

theorem bigIntTo32Bytes_lt {x : Int} (h : x.natAbs < 2 ^ 256) : bigIntTo32Bytes x = .ok (toBE 32 x.natAbs) := by
  have h' : x.natAbs < 256 ^ 32 := lt_of_lt_of_le h (by norm_num)
  have hl : byteLen x.natAbs ≤ 32 := (byteLen_le_iff _ _).2 h'
  unfold bigIntTo32Bytes intBytes
  simp only [length_natBytes, keyBytes_eq]
  rw [← pad_natBytes h']
  split
  · rename_i h32; rw [h32]; rfl
  · rw [if_neg (by omega)]; rfl

theorem bigIntTo32Bytes_ge {x : Int} (h : 2 ^ 256 ≤ x.natAbs) : bigIntTo32Bytes x = .panic := by
  have hl : ¬ byteLen x.natAbs ≤ 32 := by
    rw [byteLen_le_iff]
    have : (256 : ℕ) ^ 32 = 2 ^ 256 := by norm_num
    omega
  unfold bigIntTo32Bytes intBytes
  simp only [length_natBytes, keyBytes_eq]
  rw [if_neg (by omega), if_pos (by omega)]

theorem bigIntTo32Bytes_nat {x : ℕ} (h : x < 2 ^ 256) : bigIntTo32Bytes (x : Int) = .ok (fe x) :=
  bigIntTo32Bytes_lt (by simpa using h)

theorem length_fe (v : ℕ) : (fe v).length = 32 := length_toBE ..

theorem beNat_fe {v : ℕ} (h : v < 2 ^ 256) : beNat (fe v) = v :=
  beNat_toBE_of_lt (lt_of_lt_of_le h (by norm_num))

theorem fe_inj {v w : ℕ} (hv : v < 2 ^ 256) (hw : w < 2 ^ 256) (h : fe v = fe w) : v = w := by
  rw [← beNat_fe hv, ← beNat_fe hw, h]

theorem fe_beNat {bs : Bytes} (h : bs.length = 32) : fe (beNat bs) = bs := by
  unfold fe; rw [← h, toBE_beNat]

/-! ## Coordinates -/

theorem enc_coords {Q : Pt} {x y : ℕ} (h : coords Q = some (x, y)) : enc Q = ((x : Int), (y : Int)) := by
  cases Q with
  | zero => cases h
  | some u v hn =>
    simp only [coords, Option.some.injEq, Prod.mk.injEq] at h
    obtain ⟨rfl, rfl⟩ := h
    rfl

theorem coords_ne {Q : Pt} (h : Q ≠ 0) : ∃ x y, coords Q = some (x, y) ∧ x < p ∧ y < p := by
  cases Q with
  | zero => exact absurd rfl h
  | some u v hn => exact ⟨_, _, rfl, ZMod.val_lt _, ZMod.val_lt _⟩

theorem coords_some {Q : Pt} {x y : ℕ} (h : coords Q = some (x, y)) : Q ≠ 0 ∧ x < p ∧ y < p := by
  cases Q with
  | zero => cases h
  | some u v hn =>
    simp only [coords, Option.some.injEq, Prod.mk.injEq] at h
    obtain ⟨rfl, rfl⟩ := h
    exact ⟨WeierstrassCurve.Affine.Point.some_ne_zero _, ZMod.val_lt _, ZMod.val_lt _⟩

theorem coords_isAff {Q : Pt} {x y : ℕ} (h : coords Q = some (x, y)) : IsAff cv p ((x : Int), (y : Int)) Q := by
  rw [← enc_coords h]; exact enc_isAff (coords_some h).1

theorem coords_inj {Q R : Pt} {x y : ℕ} (h : coords Q = some (x, y)) (h' : coords R = some (x, y)) : Q = R :=
  enc_inj (by rw [enc_coords h, enc_coords h'])

theorem coords_none {Q : Pt} : coords Q = none ↔ Q = 0 := by
  cases Q with
  | zero => exact ⟨fun _ => rfl, fun _ => rfl⟩
  | some u v hn => simp [coords]

/-- Integer coordinates in `[0, p)` satisfying the curve equation belong to a unique point. -/
theorem exists_pt {x y : ℕ} (hx : x < p) (hy : y < p) (h : isOnCurve cv x y = true) :
    ∃ Q : Pt, coords Q = some (x, y) := by
  refine ⟨ptOf ((x : Int), (y : Int)) h, ?_⟩
  have hx' : ((x : ℕ) : ZMod p).val = x := ZMod.val_cast_of_lt hx
  have hy' : ((y : ℕ) : ZMod p).val = y := ZMod.val_cast_of_lt hy
  simp only [coords, ptOf, Int.cast_natCast, hx', hy']

theorem onCurve_of_coords {Q : Pt} {x y : ℕ} (h : coords Q = some (x, y)) : isOnCurve cv x y = true := by
  obtain ⟨h1, _⟩ := coords_isAff h
  rw [onCurve_iff]
  exact h1

theorem beNat_intBytes (x : Int) : beNat (intBytes x) = x.natAbs := beNat_natBytes _

theorem mult_int {b : Int × Int} {Q : Pt} (hb : IsAff cv p b Q) (k : Int) :
    scalarMult cv b (intBytes k) = .ok (enc (k.natAbs • Q)) := by rw [mult_spec hb, beNat_intBytes]

theorem baseMult_int (k : Int) : scalarBaseMult cv (intBytes k) = .ok (enc (k.natAbs • G)) := by
  rw [baseMult_spec, beNat_intBytes]

theorem isInf_enc (Q : Pt) : isEcPointInfinity (enc Q) = true ↔ Q = 0 := by
  rw [← enc_eq_zero]
  unfold isEcPointInfinity
  simp [Prod.ext_iff]

theorem smul_eq_zero {k : ℕ} {Q : Pt} (hQ : Q ≠ 0) : k • Q = 0 ↔ n ∣ k := smul_eq_zero_iff' hQ k

theorem not_dvd_of_lt {k : ℕ} (h1 : 1 ≤ k) (h2 : k < n) : ¬ n ∣ k := fun h => by
  have := Nat.le_of_dvd h1 h; omega

/-! ## Random numbers -/

theorem randInt_lt {max : Int} : ∀ {t : Tape} {r : Int × Tape}, randInt max t = .ok r → 0 ≤ r.1 ∧ r.1 < max := by
  intro t
  induction t with
  | nil => intro r h; cases h
  | cons o t ih =>
    intro r h
    cases o with
    | none => cases h
    | some bytes =>
      unfold randInt at h
      dsimp only at h
      generalize (beNat _ : ℕ) = v at h
      by_cases hlt : (v : Int) < max
      · rw [if_pos hlt] at h
        cases h
        exact ⟨by positivity, hlt⟩
      · rw [if_neg hlt] at h
        exact ih h

theorem nextK_range {t : Tape} {r : Int × Tape} (h : nextK t cv.N = .ok r) : 1 ≤ r.1 ∧ r.1 < n := by
  obtain ⟨t', h⟩ := forLoop_ok h
  rw [Res.bind_eq_ok] at h
  obtain ⟨r', h1, h2⟩ := h
  have h3 := randInt_lt h1
  split at h2
  · simp only [Res.ok.injEq, Sum.inr.injEq] at h2
    subst h2
    rw [cv_N] at h3
    exact ⟨by assumption, h3.2⟩
  · simp at h2

/-- A nonce as a natural number. -/
theorem nextK_nat {t : Tape} {r : Int × Tape} (h : nextK t cv.N = .ok r) :
    ∃ k : ℕ, r.1 = (k : Int) ∧ 1 ≤ k ∧ k < n := by
  have := nextK_range h
  exact ⟨r.1.toNat, by omega, by omega, by omega⟩

/-! ## copy -/

theorem copyAt_tile (pre old post src : Bytes) (h : src.length = old.length) :
    copyAt (pre ++ old ++ post) pre.length src = pre ++ src ++ post := by
  have t1 : (pre ++ old ++ post).take pre.length = pre := by rw [List.append_assoc, List.take_left]
  have t2 : (pre ++ old ++ post).drop (pre.length + old.length) = post := by rw [← List.length_append, List.drop_left]
  unfold copyAt
  rw [t1, h, t2, List.take_of_length_le (by simp; omega)]

theorem copyAt_tile' {buf src : Bytes} {off : Nat} (pre old post : Bytes) (hb : buf = pre ++ old ++ post)
    (ho : off = pre.length) (h : src.length = old.length) : copyAt buf off src = pre ++ src ++ post := by
  subst hb ho; exact copyAt_tile pre old post src h

/-- Three copies that fill a buffer. -/
theorem copy3 (a b c : Bytes) (z : Byte) :
    copyAt (copyAt (copyAt (List.replicate (a.length + b.length + c.length) z) 0 a) a.length b) (a.length + b.length) c
      = a ++ b ++ c := by
  rw [copyAt_tile' (off := 0) (src := a) [] (List.replicate a.length z) (List.replicate (b.length + c.length) z) (by
      rw [List.nil_append, List.replicate_append_replicate]; congr 1; omega) rfl (by simp)]
  rw [copyAt_tile' (off := a.length) (src := b) a (List.replicate b.length z) (List.replicate c.length z) (by
      rw [List.nil_append, List.append_assoc, List.replicate_append_replicate]) rfl (by simp)]
  rw [copyAt_tile' (off := a.length + b.length) (src := c) (a ++ b) (List.replicate c.length z) [] (by simp) (by simp) (by simp)]
  simp

theorem copyAt_full {buf src : Bytes} (h : src.length = buf.length) : copyAt buf 0 src = src := by
  have := copyAt_tile [] buf [] src h
  simpa using this

/-! ## Point encoding -/

theorem marshal_coords {Q : Pt} {x y : ℕ} (h : coords Q = some (x, y)) :
    marshal cv (enc Q) = .ok (4 :: (fe x ++ fe y)) := by
  obtain ⟨_, hx, hy⟩ := coords_some h
  have hx' : x < 256 ^ 32 := lt_trans hx (lt_of_lt_of_le p_lt (by norm_num))
  have hy' : y < 256 ^ 32 := lt_trans hy (lt_of_lt_of_le p_lt (by norm_num))
  have hlx : byteLen x ≤ 32 := (byteLen_le_iff _ _).2 hx'
  have hly : byteLen y ≤ 32 := (byteLen_le_iff _ _).2 hy'
  rw [enc_coords h]
  unfold marshal intBytes
  have hb : (cv.bitSize + 7) >>> 3 = 32 := rfl
  simp only [hb, Int.natAbs_natCast, length_natBytes]
  rw [if_neg (by omega), if_neg (by omega)]
  rw [copyAt_tile' (off := 1 + 32 - byteLen x) (src := natBytes x) (4 :: List.replicate (32 - byteLen x) 0#8) (List.replicate (byteLen x) 0#8) (List.replicate 32 0#8)
    (by rw [List.cons_append, List.cons_append, List.replicate_append_replicate, List.replicate_append_replicate]
        congr 2; omega)
    (by simp; omega) (by simp [length_natBytes])]
  rw [copyAt_tile' (off := 1 + 2 * 32 - byteLen y) (src := natBytes y) (4 :: (fe x ++ List.replicate (32 - byteLen y) 0#8)) (List.replicate (byteLen y) 0#8) []
    (by rw [List.cons_append, pad_natBytes hx']
        simp only [fe, List.cons_append, List.append_assoc, List.append_nil, List.replicate_append_replicate]
        congr 3; omega)
    (by simp [length_fe]; omega) (by simp [length_natBytes])]
  have := pad_natBytes hy'
  simp only [fe, List.cons_append, List.append_assoc, List.append_nil, this]

theorem unmarshal_iff (data : Bytes) (q : Int × Int) :
    unmarshal cv data = some q ↔
      ∃ (Q : Pt) (x y : ℕ), coords Q = some (x, y) ∧ q = ((x : Int), (y : Int)) ∧ data = 4 :: (fe x ++ fe y) := by
  have hb : (cv.bitSize + 7) >>> 3 = 32 := rfl
  unfold unmarshal
  simp only [hb]
  constructor
  · intro h
    split at h
    · cases h
    · rename_i hl
      push Not at hl
      split at h
      · cases h
      · rename_i h4
        push Not at h4
        split at h
        · cases h
        · rename_i hlt
          split at h
          · cases h
          · rename_i hon
            simp only [Option.some.injEq] at h
            subst h
            cases data with
            | nil => simp at hl
            | cons d data =>
              simp only [List.head?_cons, Option.some.injEq] at h4
              subst h4
              simp only [List.length_cons] at hl
              have e1 : List.drop (1 + 32) (4 :: data) = data.drop 32 := by rw [Nat.add_comm, List.drop_succ_cons]
              rw [e1, cv_P] at hlt
              rw [e1] at hon ⊢
              simp only [List.drop_one, List.tail_cons] at hlt hon ⊢
              obtain ⟨Q, hQ⟩ := exists_pt (x := beNat (data.take 32)) (y := beNat (data.drop 32)) (by omega) (by omega)
                (by simpa using hon)
              refine ⟨Q, _, _, hQ, rfl, ?_⟩
              rw [fe_beNat (by simp; omega), fe_beNat (by simp; omega), List.take_append_drop]
  · rintro ⟨Q, x, y, hQ, rfl, rfl⟩
    obtain ⟨_, hx, hy⟩ := coords_some hQ
    rw [if_neg (by simp [length_fe]), if_neg (by simp)]
    have e1 : List.take 32 (List.drop 1 (4 :: (fe x ++ fe y))) = fe x := by
      rw [List.drop_one, List.tail_cons, List.take_left' (length_fe x)]
    have e2 : List.drop (1 + 32) (4 :: (fe x ++ fe y)) = fe y := by
      rw [Nat.add_comm, List.drop_succ_cons, List.drop_left' (length_fe x)]
    rw [e1, e2, beNat_fe (lt_trans hx p_lt), beNat_fe (lt_trans hy p_lt), cv_P]
    rw [if_neg (by omega), onCurve_of_coords hQ]
    simp

/-! ## Key stream -/

/-- Block `i` of the key stream the code produces: a 32-bit counter starting at 1. -/
def streamBlock (x y i : ℕ) : Bytes := Spec.SM3.hash (fe x ++ fe y ++ put32 (BitVec.ofNat 32 (i + 1)))

/-- The first `len` bytes of the code's key stream, starting with block `i`. -/
def stream (x y : ℕ) (i len : ℕ) : Bytes := ((List.range' i ((len + 31) / 32)).flatMap (streamBlock x y)).take len

theorem length_flatMap_block (x y : ℕ) (l : List ℕ) : (l.flatMap (streamBlock x y)).length = 32 * l.length := by
  induction l with
  | nil => rfl
  | cons i l ih => simp only [List.flatMap_cons, List.length_append, ih, streamBlock, hash_length, List.length_cons]; omega

theorem length_stream (x y i len : ℕ) : (stream x y i len).length = len := by
  unfold stream
  rw [List.length_take, length_flatMap_block, List.length_range']
  omega

theorem length_streamBlock (x y i : ℕ) : (streamBlock x y i).length = 32 := hash_length _

theorem stream_zero (x y i : ℕ) : stream x y i 0 = [] := by simp [stream]

theorem stream_long {x y i len : ℕ} (h : 32 < len) :
    stream x y i len = streamBlock x y i ++ stream x y (i + 1) (len - 32) := by
  unfold stream
  have e : (len + 31) / 32 = (len - 32 + 31) / 32 + 1 := by omega
  rw [e, List.range'_succ, List.flatMap_cons, List.take_append, List.take_of_length_le (by simp [streamBlock, hash_length]; omega)]
  simp [streamBlock, hash_length]

theorem stream_short {x y i len : ℕ} (h : len ≤ 32) (h0 : 0 < len) : stream x y i len = (streamBlock x y i).take len := by
  unfold stream
  have e : (len + 31) / 32 = 1 := by omega
  rw [e]; simp

theorem toBE4_eq (v : ℕ) (h : v < 2 ^ 32) : put32 (BitVec.ofNat 32 v) = toBE 4 v := by
  rw [put32, BitVec.toNat_ofNat, Nat.mod_eq_of_lt h]

attribute [local irreducible] streamBlock

/-- The code's key stream is the standard's, as long as the 32-bit counter does not wrap. -/
theorem stream_eq_kdf {x y len : ℕ} (h : len ≤ 32 * (2 ^ 32 - 1)) : stream x y 0 len = Spec.SM2.kdf (fe x ++ fe y) len := by
  unfold stream Spec.SM2.kdf
  rw [← List.range_eq_range']
  congr 1
  rw [List.flatMap_congr]
  intro i hi
  rw [List.mem_range] at hi
  rw [streamBlock, toBE4_eq _ (by omega)]

theorem zipWith_append_stream (d : Bytes) (s1 s2 : Bytes) (h : s1.length ≤ d.length) :
    List.zipWith (· ^^^ ·) d (s1 ++ s2) =
      List.zipWith (· ^^^ ·) (d.take s1.length) s1 ++ List.zipWith (· ^^^ ·) (d.drop s1.length) s2 := by
  conv_lhs => rw [← List.take_append_drop s1.length d]
  rw [List.zipWith_append (by simp; omega)]

theorem zipWith_take_right (a b : Bytes) :
    List.zipWith (· ^^^ ·) a b = List.zipWith (· ^^^ ·) a (b.take a.length) := by
  induction a generalizing b with
  | nil => rfl
  | cons c a ih =>
    cases b with
    | nil => rfl
    | cons d b => simp only [List.zipWith_cons_cons, List.length_cons, List.take_succ_cons, ← ih]

theorem xor_ok {data out : Bytes} {k : ℕ} (h1 : k ≤ data.length) (h2 : k ≤ out.length) :
    xor data out k = .ok (List.zipWith (· ^^^ ·) (data.take k) out ++ data.drop k) := if_pos ⟨h1, h2⟩

/-- `kdf` xors the key stream into the data, for all lengths. -/
theorem kdf_eq {x y : ℕ} (hx : x < 2 ^ 256) (hy : y < 2 ^ 256) (data : Bytes) :
    kdf (x : Int) (y : Int) data = .ok (List.zipWith (· ^^^ ·) data (stream x y 0 data.length)) := by
  unfold kdf
  simp only [bigIntTo32Bytes_nat hx, bigIntTo32Bytes_nat hy, Res.ok_bind, Sm3.size]
  have key : ∀ (fuel : ℕ) (pre d : Bytes) (i : ℕ), pre.length + d.length = data.length → d.length < fuel →
      forLoop (fun (s : Bytes × Nat × BitVec 32) =>
        match s with
        | (data', off, ct) =>
          if off < data.length then do
            let tmp ← hashOf [fe x, fe y, put32 (ct + 1)]
            let d ← xor (data'.drop off) (tmp.take (if 4 < 32 then 32 else 4))
              (if data.length - off > 32 then 32 else data.length - off)
            .ok (.inl (data'.take off ++ d, off + (if data.length - off > 32 then 32 else data.length - off), ct + 1))
          else .ok (.inr data')) fuel (pre ++ d, pre.length, BitVec.ofNat 32 i) =
      .ok (pre ++ List.zipWith (· ^^^ ·) d (stream x y i d.length)) := by
    intro fuel
    induction fuel with
    | zero => intro pre d i _ h; omega
    | succ fuel ih =>
      intro pre d i hl hf
      unfold forLoop
      simp only
      by_cases hd : d.length = 0
      · obtain rfl := List.length_eq_zero_iff.1 hd
        rw [if_neg (by simp at hl; omega), Res.ok_bind]
        simp
      · have hgood : ∀ c ∈ [fe x, fe y, put32 (BitVec.ofNat 32 i + 1)], c ≠ [] ∧ c.length < 2 ^ 31 := by
          intro c hc
          have : c.length = 32 ∨ c.length = 4 := by
            simp only [List.mem_cons, List.not_mem_nil, or_false] at hc
            rcases hc with h | h | h
            · exact .inl (h ▸ length_fe x)
            · exact .inl (h ▸ length_fe y)
            · exact .inr (h ▸ length_put32 _)
          constructor
          · intro h; rw [h] at this; simp at this
          · omega
        have hh := hashOf_eq_of hgood
        have e1 : BitVec.ofNat 32 i + 1 = BitVec.ofNat 32 (i + 1) := by rw [BitVec.ofNat_add]; rfl
        have e2 : Spec.SM3.hash [fe x, fe y, put32 (BitVec.ofNat 32 i + 1)].flatten = streamBlock x y i := by
          rw [streamBlock, e1]; simp
        rw [if_pos (by omega), hh, Res.ok_bind, e2]
        have hbl := length_streamBlock x y i
        rw [List.take_of_length_le (by rw [hbl]; simp), List.drop_left, List.take_left, e1]
        have hlen : data.length - pre.length = d.length := by omega
        rw [hlen]
        by_cases hbig : d.length > 32
        · rw [if_pos hbig, xor_ok (by omega) (by omega), Res.ok_bind, Res.ok_bind]
          simp only
          have := ih (pre ++ List.zipWith (· ^^^ ·) (d.take 32) (streamBlock x y i)) (d.drop 32) (i + 1)
            (by simp [hbl]; omega) (by simp; omega)
          simp only [List.length_append, List.length_zipWith, List.length_take, hbl, List.append_assoc, List.length_drop] at this
          rw [show min (min 32 d.length) 32 = 32 by omega] at this
          rw [this, stream_long hbig, zipWith_append_stream _ _ _ (by omega), hbl]
        · rw [if_neg hbig, xor_ok (by omega) (by omega), Res.ok_bind, Res.ok_bind]
          simp only
          have := ih (pre ++ List.zipWith (· ^^^ ·) d (streamBlock x y i)) [] (i + 1)
            (by simp [hbl]; omega) (by simp; omega)
          simp only [List.length_append, List.length_zipWith, hbl, List.length_nil, stream_zero,
            List.zipWith_nil_right, List.append_nil] at this
          rw [show min d.length 32 = d.length by omega] at this
          rw [List.take_length, List.drop_length, List.append_nil, this, stream_short (by omega) (by omega)]
          rw [zipWith_take_right d (streamBlock x y i)]
  have := key (data.length + 1) [] data 0 (by simp) (by omega)
  simp only [List.nil_append, List.length_nil] at this
  exact this

theorem zipWith_xor_self (a s : Bytes) (h : s.length = a.length) :
    List.zipWith (· ^^^ ·) (List.zipWith (· ^^^ ·) a s) s = a := by
  induction a generalizing s with
  | nil => rfl
  | cons b a ih =>
    cases s with
    | nil => simp at h
    | cons c s =>
      simp only [List.zipWith_cons_cons, List.cons.injEq]
      refine ⟨?_, ih s (by simpa using h)⟩
      rw [BitVec.xor_assoc, BitVec.xor_self, BitVec.xor_zero]

theorem zipWith_xor_eq_self (a s : Bytes) (h : s.length = a.length) :
    List.zipWith (· ^^^ ·) a s = a ↔ s = List.replicate a.length 0 := by
  induction a generalizing s with
  | nil => simp at h; simp [h]
  | cons b a ih =>
    cases s with
    | nil => simp at h
    | cons c s =>
      simp only [List.zipWith_cons_cons, List.cons.injEq, List.length_cons, List.replicate_succ]
      rw [ih s (by simpa using h)]
      constructor
      · rintro ⟨h1, h2⟩
        refine ⟨?_, h2⟩
        have : b ^^^ (b ^^^ c) = b ^^^ b := by rw [h1]
        rw [← BitVec.xor_assoc, BitVec.xor_self, BitVec.zero_xor] at this
        exact this
      · rintro ⟨h1, h2⟩
        exact ⟨by rw [h1]; exact BitVec.xor_zero, h2⟩

end Verif.Sm2
