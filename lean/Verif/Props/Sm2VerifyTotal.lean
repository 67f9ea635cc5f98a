import Verif.Props.Sm2AnyKey
import Verif.Props.CertAccept
/-!
# C151: verification decides, whatever key and signature it is given

When `VerifyByRS` and `Verify` (/repo/sm2/sm2.go:543-585) return and when they panic, for every pair of integers as public key, every
identity, message and signature.
-/
namespace Verif.Props
open Verif Verif.Sm2 Verif.EC
open Verif.Spec.SM2 (fe)

/-! ## Lemmas -/

/-- The bytes in the buffer are those that do not fill a word. -/
theorem abs_off {d : Sm3.Digest} {m : Bytes} (h : Sm3.Abs d m) : d.xBufOff = m.length % 4 := by
  obtain ⟨m', t, rfl, hV, hB, hl⟩ := h
  obtain ⟨k, hk⟩ := hV.dvd
  rw [hB.hoff, List.length_append]
  omega

/-- Whether a chunk can be written after `l` bytes. -/
def ChunkFits (l : ℕ) (c : Bytes) : Prop := c ≠ [] ∧ Sm3.limit (l % 4) c.length < 2 ^ 31

/-- Whether all chunks can be written, after `l` bytes. -/
def ChunksFit : ℕ → List Bytes → Prop
  | _, [] => True
  | l, c :: cs => ChunkFits l c ∧ ChunksFit (l + c.length) cs

theorem fold_iff (cs : List Bytes) : ∀ (d : Sm3.Digest) (m : Bytes), Sm3.Abs d m →
    ((∃ d', cs.foldlM (fun d c => Sm3.write d c) d = .ok d') ↔ ChunksFit m.length cs) := by
  induction cs with
  | nil => intro d m _; exact ⟨fun _ => trivial, fun _ => ⟨d, rfl⟩⟩
  | cons c cs ih =>
    intro d m h
    have ho := abs_off h
    rw [List.foldlM_cons]
    by_cases hne : c = []
    · subst hne
      constructor
      · rintro ⟨d', h'⟩
        rw [show Sm3.write d [] = .panic by unfold Sm3.write; simp] at h'
        cases h'
      · intro h'; exact absurd rfl h'.1.1
    · by_cases hl : Sm3.limit d.xBufOff c.length < 2 ^ 31
      · obtain ⟨d1, h1, h2, _⟩ := (Sm3.write_cases h c hne).1 hl
        rw [h1, Res.ok_bind, ih d1 _ h2, List.length_append]
        exact ⟨fun h' => ⟨⟨hne, ho ▸ hl⟩, h'⟩, fun h' => h'.2⟩
      · rw [(Sm3.write_cases h c hne).2 (by omega)]
        constructor
        · rintro ⟨d', h'⟩; cases h'
        · intro h'; exact absurd (ho ▸ h'.1.2) hl

/-- Hashing panics exactly if one of the chunks cannot be written. -/
theorem hashOf_exact (cs : List Bytes) : (ChunksFit 0 cs → hashOf cs = .ok (Spec.SM3.hash cs.flatten)) ∧ (¬ ChunksFit 0 cs → hashOf cs = .panic) := by
  have key := fold_iff cs Sm3.new [] Sm3.new_abs
  rw [List.length_nil] at key
  constructor
  · intro h
    obtain ⟨d, hd⟩ := key.2 h
    obtain ⟨g1, g2, g3⟩ := hashOf_inv cs Sm3.new [] d Sm3.new_abs rfl hd
    obtain ⟨d2, k1, _⟩ := Sm3.checkSum_ok g2 g3
    unfold hashOf Sm3.sumMethod
    rw [hd, Res.ok_bind, k1]
    simp
  · intro h
    rcases hashOf_cases cs with h1 | h1
    · exact h1
    · exfalso
      unfold hashOf at h1
      rw [Res.bind_eq_ok] at h1
      exact h (key.1 ⟨_, h1.choose_spec.1⟩)

theorem chunkFits_small {l : ℕ} {c : Bytes} (h0 : c ≠ []) (h : c.length < 2 ^ 31) : ChunkFits l c := by
  refine ⟨h0, ?_⟩
  unfold Sm3.limit Sm3.skip
  split <;> omega

theorem fe_chunk (v l : ℕ) : ChunkFits l (fe v) :=
  chunkFits_small (List.ne_nil_of_length_pos (by rw [length_fe]; decide)) (by rw [length_fe]; decide)

/-- The chunks of `getZ`: only the identity can be too long, from 2^31 + 2 bytes on. -/
theorem getZ_exact (x y : Int) (id : Bytes) :
    ((x.natAbs < 2 ^ 256 ∧ y.natAbs < 2 ^ 256 ∧ id.length < 2 ^ 31 + 2) → getZ x y id = .ok (Spec.SM3.hash (zIn id x.natAbs y.natAbs))) ∧
    (¬ (x.natAbs < 2 ^ 256 ∧ y.natAbs < 2 ^ 256 ∧ id.length < 2 ^ 31 + 2) → getZ x y id = .panic) := by
  have ea : ∃ a, bigIntTo32Bytes sm2P256V1.A = .ok a := ⟨_, bigIntTo32Bytes_lt (by decide +kernel)⟩
  have eb : ∃ a, bigIntTo32Bytes cv.B = .ok a := ⟨_, bigIntTo32Bytes_lt (by decide +kernel)⟩
  have ex : ∃ a, bigIntTo32Bytes cv.Gx = .ok a := ⟨_, bigIntTo32Bytes_lt (by decide +kernel)⟩
  have ey : ∃ a, bigIntTo32Bytes cv.Gy = .ok a := ⟨_, bigIntTo32Bytes_lt (by decide +kernel)⟩
  obtain ⟨a, ea⟩ := ea
  obtain ⟨b, eb⟩ := eb
  obtain ⟨gx, ex⟩ := ex
  obtain ⟨gy, ey⟩ := ey
  by_cases hx : x.natAbs < 2 ^ 256
  swap
  · refine ⟨fun h => absurd h.1 hx, fun _ => ?_⟩
    unfold getZ zChunks
    dsimp only
    rw [ea, Res.ok_bind, eb, Res.ok_bind, ex, Res.ok_bind, ey, Res.ok_bind, bigIntTo32Bytes_ge (by omega)]
    rfl
  by_cases hy : y.natAbs < 2 ^ 256
  swap
  · refine ⟨fun h => absurd h.2.1 hy, fun _ => ?_⟩
    unfold getZ zChunks
    dsimp only
    rw [ea, Res.ok_bind, eb, Res.ok_bind, ex, Res.ok_bind, ey, Res.ok_bind, bigIntTo32Bytes_lt hx, Res.ok_bind, bigIntTo32Bytes_ge (by omega)]
    rfl
  have h1 : zChunks x y id = .ok ([toBE 2 (8 * id.length % 65536)] ++ (if id.length > 0 then [id] else []) ++
      [fe Spec.SM2.a, fe Spec.SM2.b, fe Spec.SM2.gx, fe Spec.SM2.gy, fe x.natAbs, fe y.natAbs]) := by
    unfold zChunks
    rw [ofInt_lt (z := sm2P256V1.A) (v := Spec.SM2.a) (by unfold Spec.SM2.a; norm_num) rfl,
      ofInt_lt (z := cv.B) (v := Spec.SM2.b) (by unfold Spec.SM2.b; norm_num) rfl,
      ofInt_lt (z := cv.Gx) (v := Spec.SM2.gx) (by unfold Spec.SM2.gx; norm_num) rfl,
      ofInt_lt (z := cv.Gy) (v := Spec.SM2.gy) (by unfold Spec.SM2.gy; norm_num) rfl,
      bigIntTo32Bytes_abs hx, bigIntTo32Bytes_abs hy]
    simp only [Res.ok_bind, BitVec.toNat_ofNat, Nat.mul_comm 8 id.length]
  generalize hc : ([toBE 2 (8 * id.length % 65536)] ++ (if id.length > 0 then [id] else []) ++
      [fe Spec.SM2.a, fe Spec.SM2.b, fe Spec.SM2.gx, fe Spec.SM2.gy, fe x.natAbs, fe y.natAbs]) = cs at h1
  have h2 : cs.flatten = zIn id x.natAbs y.natAbs := by
    rw [← hc]
    unfold zIn
    split
    · simp
    · have : id = [] := List.length_eq_zero_iff.1 (by omega)
      subst this
      simp
  have hfit : ChunksFit 0 cs ↔ id.length < 2 ^ 31 + 2 := by
    rw [← hc]
    have h2' : (toBE 2 (8 * id.length % 65536)).length = 2 := length_toBE ..
    have hh : ChunkFits 0 (toBE 2 (8 * id.length % 65536)) :=
      chunkFits_small (List.ne_nil_of_length_pos (by rw [h2']; decide)) (by rw [h2']; decide)
    by_cases h0 : id.length > 0
    · rw [if_pos h0]
      simp only [List.cons_append, List.nil_append, ChunksFit, hh, fe_chunk, and_true, true_and, h2']
      unfold ChunkFits Sm3.limit Sm3.skip
      rw [if_neg (by decide)]
      constructor
      · rintro ⟨_, h⟩; omega
      · intro h; exact ⟨List.ne_nil_of_length_pos h0, by omega⟩
    · rw [if_neg h0]
      simp only [List.cons_append, List.nil_append, List.append_nil, ChunksFit, hh, fe_chunk, and_true]
      exact ⟨fun _ => by omega, fun _ => trivial⟩
  unfold getZ
  rw [h1, Res.ok_bind]
  constructor
  · intro h; rw [(hashOf_exact cs).1 (hfit.2 h.2.2), h2]
  · intro h
    exact (hashOf_exact cs).2 (fun h' => h ⟨hx, hy, hfit.1 h'⟩)

/-- The digest that is signed. -/
theorem calculateE_exact (x y : Int) (id M : Bytes) :
    ((x.natAbs < 2 ^ 256 ∧ y.natAbs < 2 ^ 256 ∧ id.length < 2 ^ 31 + 2 ∧ M ≠ [] ∧ M.length < 2 ^ 31) → ∃ e, calculateE x y id M = .ok e) ∧
    (¬ (x.natAbs < 2 ^ 256 ∧ y.natAbs < 2 ^ 256 ∧ id.length < 2 ^ 31 + 2 ∧ M ≠ [] ∧ M.length < 2 ^ 31) → calculateE x y id M = .panic) := by
  have hz := getZ_exact x y id
  unfold calculateE
  by_cases h1 : x.natAbs < 2 ^ 256 ∧ y.natAbs < 2 ^ 256 ∧ id.length < 2 ^ 31 + 2
  swap
  · refine ⟨fun h => absurd ⟨h.1, h.2.1, h.2.2.1⟩ h1, fun _ => ?_⟩
    rw [hz.2 h1]; rfl
  rw [hz.1 h1, Res.ok_bind]
  generalize hZ : Spec.SM3.hash (zIn id x.natAbs y.natAbs) = Z
  have hl : Z.length = 32 := by rw [← hZ, hash_length]
  have hfit : ChunksFit 0 [Z, M] ↔ M ≠ [] ∧ M.length < 2 ^ 31 := by
    simp only [ChunksFit, and_true, hl]
    have : ChunkFits 0 Z := chunkFits_small (List.ne_nil_of_length_pos (by omega)) (by omega)
    simp only [this, true_and]
    unfold ChunkFits Sm3.limit Sm3.skip
    rw [if_pos (by decide)]
    constructor
    · rintro ⟨h, h'⟩; exact ⟨h, by omega⟩
    · rintro ⟨h, h'⟩; exact ⟨h, by omega⟩
  constructor
  · rintro ⟨_, _, _, h⟩
    rw [(hashOf_exact _).1 (hfit.2 h)]
    exact ⟨_, rfl⟩
  · intro h
    rw [(hashOf_exact _).2 (fun h' => h ⟨h1.1, h1.2.1, h1.2.2, hfit.1 h'⟩)]
    rfl

/-! ## C151 -/

/-- **C151, the part that holds** Whatever two numbers of at most 256 bits are the public key, on the curve or not, and whatever the signature
is: for messages that are not empty and identities and messages below the limits of SM3 `VerifyByRS` says yes or no. -/
theorem C151_decides_partial (pub : PublicKey) (hx : pub.X.natAbs < 2 ^ 256) (hy : pub.Y.natAbs < 2 ^ 256) (id : Option Bytes)
    (hid : (id.getD defaultUserId).length < 2 ^ 31 + 2) (M : Bytes) (hM : M ≠ []) (hM' : M.length < 2 ^ 31) (r s : Int) :
    ∃ b, verifyByRS pub id M r s = .ok b := by
  unfold verifyByRS
  dsimp only
  split
  · exact ⟨_, rfl⟩
  split
  · exact ⟨_, rfl⟩
  obtain ⟨e, he⟩ := (calculateE_exact pub.X pub.Y (id.getD defaultUserId) M).1 ⟨hx, hy, hid, hM, hM'⟩
  rw [he, Res.ok_bind]
  split
  · exact ⟨_, rfl⟩
  obtain ⟨u, v, h1, _⟩ := scalarMult_total (cv.Gx, cv.Gy) (intBytes s)
  obtain ⟨u', v', h2, _⟩ := scalarMult_total (pub.X, pub.Y) (intBytes ((r + s) % cv.N))
  obtain ⟨u'', v'', h3, _⟩ := add_total ((u : Int), (v : Int)) ((u' : Int), (v' : Int))
  unfold scalarBaseMult
  rw [h1, Res.ok_bind, h2, Res.ok_bind, h3, Res.ok_bind]
  split
  · exact ⟨_, rfl⟩
  · exact ⟨_, rfl⟩

/-- **C151** Exactly when `VerifyByRS` panics; in all other cases it says yes or no. -/
theorem C151_exact (pub : PublicKey) (id : Option Bytes) (M : Bytes) (r s : Int) :
    (verifyByRS pub id M r s = .panic ↔ (1 ≤ r ∧ r < n ∧ 1 ≤ s ∧ s < n) ∧
      (M = [] ∨ 2 ^ 31 ≤ M.length ∨ 2 ^ 31 + 2 ≤ (id.getD defaultUserId).length ∨ 2 ^ 256 ≤ pub.X.natAbs ∨ 2 ^ 256 ≤ pub.Y.natAbs)) ∧
    (verifyByRS pub id M r s ≠ .panic → ∃ b, verifyByRS pub id M r s = .ok b) := by
  by_cases hr : 1 ≤ r ∧ r < n ∧ 1 ≤ s ∧ s < n
  swap
  · rw [C36_range pub id M r s hr]
    exact ⟨⟨fun h => (nomatch h), fun h => absurd h.1 hr⟩, fun _ => ⟨_, rfl⟩⟩
  by_cases hc : pub.X.natAbs < 2 ^ 256 ∧ pub.Y.natAbs < 2 ^ 256 ∧ (id.getD defaultUserId).length < 2 ^ 31 + 2 ∧ M ≠ [] ∧ M.length < 2 ^ 31
  · obtain ⟨b, hb⟩ := C151_decides_partial pub hc.1 hc.2.1 id hc.2.2.1 M hc.2.2.2.1 hc.2.2.2.2 r s
    rw [hb]
    refine ⟨⟨fun h => (nomatch h), ?_⟩, fun _ => ⟨_, rfl⟩⟩
    rintro ⟨_, h | h | h | h | h⟩
    · exact absurd h hc.2.2.2.1
    all_goals omega
  · have hp : verifyByRS pub id M r s = .panic := by
      unfold verifyByRS
      dsimp only
      rw [cv_N, if_neg (by omega), if_neg (by omega), (calculateE_exact pub.X pub.Y (id.getD defaultUserId) M).2 hc]
      rfl
    rw [hp]
    refine ⟨⟨fun _ => ⟨hr, ?_⟩, fun _ => rfl⟩, fun h => absurd rfl h⟩
    by_contra hn
    exact hc ⟨by omega, by omega, by omega, fun h => hn (.inl h), by omega⟩

/-- **C151, the part that holds** `Verify` on any byte string as signature, under any key that `RawBytesToPublicKey` takes. -/
theorem C151_bytes_partial (raw : Bytes) (pub : PublicKey) (hpub : rawBytesToPublicKey raw = .ok pub) (id : Option Bytes)
    (hid : (id.getD defaultUserId).length < 2 ^ 31 + 2) (M : Bytes) (hM : M ≠ []) (hM' : M.length < 2 ^ 31) (sig : Bytes) :
    ∃ b, verify pub id M sig = .ok b := by
  have hk : pub.X.natAbs < 2 ^ 256 ∧ pub.Y.natAbs < 2 ^ 256 := by
    unfold rawBytesToPublicKey at hpub
    split at hpub
    · cases hpub
    · rename_i hl
      cases hpub
      rw [keyBytes_eq] at hl
      dsimp only
      rw [Int.natAbs_natCast, Int.natAbs_natCast, keyBytes_eq]
      have h1 := beNat_lt (raw.take 32)
      have h2 := beNat_lt (raw.drop 32)
      rw [List.length_take, show min 32 raw.length = 32 by omega] at h1
      rw [List.length_drop, show raw.length - 32 = 32 by omega] at h2
      exact ⟨lt_of_lt_of_eq h1 (by norm_num), lt_of_lt_of_eq h2 (by norm_num)⟩
  have hret := unmarshalSign_returned sig
  unfold verify
  cases hu : unmarshalSign sig with
  | ok rs => exact C151_decides_partial pub hk.1 hk.2 id hid M hM hM' _ _
  | err m => exact ⟨false, rfl⟩
  | panic => rw [hu] at hret; cases hret
  | loop => rw [hu] at hret; cases hret

/-- **C151 is violated** by the empty message: one signature of eight octets, for r = s = 1, makes `Verify` panic under every key and identity. -/
theorem C151_empty_violated : ∃ sig : Bytes, ∀ (pub : PublicKey) (id : Option Bytes), verify pub id [] sig = .panic := by
  refine ⟨[0x30, 6, 2, 1, 1, 2, 1, 1], fun pub id => ?_⟩
  have hu : unmarshalSign [0x30, 6, 2, 1, 1, 2, 1, 1] = .ok (1, 1) := by decide +kernel
  unfold verify
  rw [hu]
  have hn := n_gt
  exact (C151_exact pub id [] 1 1).1.2 ⟨⟨le_rfl, by omega, le_rfl, by omega⟩, .inl rfl⟩

/-- **C151** The other side: exactly when `SignToRS` panics on a random source without errors, for every integer as private key. In all other
cases it returns a signature or goes on drawing numbers. -/
theorem C151_sign_exact (d : Int) (id : Option Bytes) (M : Bytes) (tape : Tape) (ht : none ∉ tape) :
    (signToRS ⟨d⟩ id M tape = .panic ↔ M = [] ∨ 2 ^ 31 ≤ M.length ∨ 2 ^ 31 + 2 ≤ (id.getD defaultUserId).length) ∧
    (signToRS ⟨d⟩ id M tape ≠ .panic → (∃ rs, signToRS ⟨d⟩ id M tape = .ok rs) ∨ signToRS ⟨d⟩ id M tape = .loop) := by
  have hp := p_lt
  have b1 := enc_nonneg (d.natAbs • G)
  have b2 := enc_lt (d.natAbs • G)
  have hx : (enc (d.natAbs • G)).1.natAbs < 2 ^ 256 := by omega
  have hy : (enc (d.natAbs • G)).2.natAbs < 2 ^ 256 := by omega
  have key := calculateE_exact (enc (d.natAbs • G)).1 (enc (d.natAbs • G)).2 (id.getD defaultUserId) M
  by_cases hc : M = [] ∨ 2 ^ 31 ≤ M.length ∨ 2 ^ 31 + 2 ≤ (id.getD defaultUserId).length
  · have hpn : signToRS ⟨d⟩ id M tape = .panic := by
      unfold signToRS
      rw [baseMult_int, Res.ok_bind]
      dsimp only
      rw [key.2 (by
        rintro ⟨_, _, h1, h2, h3⟩
        rcases hc with h | h | h
        · exact h2 h
        all_goals omega)]
      rfl
    rw [hpn]
    exact ⟨⟨fun _ => hc, fun _ => rfl⟩, fun h => absurd rfl h⟩
  · obtain ⟨e, he⟩ := key.1 ⟨hx, hy, by omega, fun h => hc (.inl h), by omega⟩
    have := signToRS_res he tape ht
    refine ⟨⟨fun h => ?_, fun h => absurd h hc⟩, fun _ => this⟩
    rw [h] at this
    rcases this with ⟨_, h'⟩ | h' <;> cases h'

/-! ## Cases -/

/-- The pair (1, 1) is on no curve that the standard knows; any eight octets are judged. -/
example (M sig : Bytes) (hM : M ≠ []) (hM' : M.length < 2 ^ 31) : ∃ b, verify ⟨1, 1⟩ none M sig = .ok b := by
  have h : rawBytesToPublicKey (List.replicate 31 0 ++ [1] ++ List.replicate 31 0 ++ [1]) = .ok ⟨1, 1⟩ := by decide +kernel
  exact C151_bytes_partial _ _ h none (by decide) M hM hM' sig

/-- Negative coordinates, which only a caller who fills in the structure can give. -/
example : ∃ b, verifyByRS ⟨-1, -(2 ^ 256 - 1)⟩ (some []) [0x61] 5 7 = .ok b :=
  C151_decides_partial _ (by decide) (by decide +kernel) _ (by decide) _ (by decide) (by decide) _ _

/-- A coordinate of 257 bits panics for signatures in range, and is not looked at otherwise. -/
example : verifyByRS ⟨2 ^ 256, 0⟩ none [0x61] 5 7 = .panic ∧ verifyByRS ⟨2 ^ 256, 0⟩ none [0x61] 0 7 = .ok false := by
  have hn := n_gt
  refine ⟨(C151_exact _ _ _ _ _).1.2 ⟨⟨by norm_num, by omega, by norm_num, by omega⟩, ?_⟩, C36_range _ _ _ _ _ (by norm_num)⟩
  exact .inr (.inr (.inr (.inl (by decide +kernel))))

end Verif.Props
