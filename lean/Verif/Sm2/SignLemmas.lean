import Verif.Sm2.Lemmas
import Mathlib.Tactic.LinearCombination
/-!
# Lemmas about signing and verification
-/
namespace Verif.Sm2
open EC
open Verif.Spec.SM2 (coords fe)

attribute [local irreducible] Spec.SM2.fe Spec.SM3.hash

/-! ## The identity hash -/

/-- What the code hashes into `Z`: the length field is the bit length modulo 2^16. -/
def zIn (id : Bytes) (x y : ℕ) : Bytes :=
  toBE 2 (8 * id.length % 65536) ++ id ++ fe Spec.SM2.a ++ fe Spec.SM2.b ++ fe Spec.SM2.gx ++ fe Spec.SM2.gy ++ fe x ++ fe y

theorem zIn_eq {id : Bytes} (h : id.length < 8192) (x y : ℕ) : zIn id x y = Spec.SM2.zInput id x y := by
  unfold zIn Spec.SM2.zInput
  rw [Nat.mod_eq_of_lt (by omega)]

theorem ofInt_lt {v : ℕ} (h : v < 2 ^ 256) {z : Int} (hz : z = v) : bigIntTo32Bytes z = .ok (fe v) := by
  rw [hz]; exact bigIntTo32Bytes_nat h

theorem zChunks_eq {x y : ℕ} (hx : x < 2 ^ 256) (hy : y < 2 ^ 256) (id : Bytes) :
    ∃ cs, zChunks x y id = .ok cs ∧ cs.flatten = zIn id x y ∧
      ∀ c ∈ cs, c ≠ [] ∧ (c = id ∨ c.length ≤ 32) := by
  refine ⟨[toBE 2 (8 * id.length % 65536)] ++ (if id.length > 0 then [id] else []) ++
    [fe Spec.SM2.a, fe Spec.SM2.b, fe Spec.SM2.gx, fe Spec.SM2.gy, fe x, fe y], ?_, ?_, ?_⟩
  · unfold zChunks
    rw [ofInt_lt (z := sm2P256V1.A) (v := Spec.SM2.a) (by unfold Spec.SM2.a; norm_num) rfl,
      ofInt_lt (z := cv.B) (v := Spec.SM2.b) (by unfold Spec.SM2.b; norm_num) rfl,
      ofInt_lt (z := cv.Gx) (v := Spec.SM2.gx) (by unfold Spec.SM2.gx; norm_num) rfl,
      ofInt_lt (z := cv.Gy) (v := Spec.SM2.gy) (by unfold Spec.SM2.gy; norm_num) rfl,
      bigIntTo32Bytes_nat hx, bigIntTo32Bytes_nat hy]
    simp only [Res.ok_bind, BitVec.toNat_ofNat, Nat.mul_comm 8 id.length]
  · unfold zIn
    split
    · simp
    · have : id = [] := List.length_eq_zero_iff.1 (by omega)
      subst this
      simp
  · intro c hc
    have h32 : ∀ v, fe v ≠ [] ∧ (fe v = id ∨ (fe v).length ≤ 32) := fun v =>
      ⟨by intro h; have := length_fe v; rw [h] at this; simp at this, .inr (by rw [length_fe])⟩
    simp only [List.mem_append, List.mem_cons, List.not_mem_nil, or_false] at hc
    rcases hc with (h | h) | h | h | h | h | h | h
    · rw [h]
      refine ⟨fun h' => ?_, .inr (by rw [length_toBE]; omega)⟩
      have := length_toBE 2 (8 * id.length % 65536)
      rw [h'] at this; simp at this
    · split at h
      · rename_i hl
        rw [List.mem_singleton] at h
        subst h
        exact ⟨fun h' => by rw [h'] at hl; simp at hl, .inl rfl⟩
      · simp at h
    all_goals (rw [h]; exact h32 _)

theorem getZ_ok {x y : ℕ} (hx : x < 2 ^ 256) (hy : y < 2 ^ 256) {id z : Bytes} (h : getZ x y id = .ok z) :
    z = Spec.SM3.hash (zIn id x y) := by
  obtain ⟨cs, h1, h2, _⟩ := zChunks_eq hx hy id
  unfold getZ at h
  rw [h1, Res.ok_bind] at h
  rw [(hashOf_ok h).1, h2]

theorem getZ_eq {x y : ℕ} (hx : x < 2 ^ 256) (hy : y < 2 ^ 256) {id : Bytes} (hid : id.length < 2 ^ 31) :
    getZ x y id = .ok (Spec.SM3.hash (zIn id x y)) := by
  obtain ⟨cs, h1, h2, h3⟩ := zChunks_eq hx hy id
  unfold getZ
  rw [h1, Res.ok_bind, hashOf_eq_of, h2]
  intro c hc
  refine ⟨(h3 c hc).1, ?_⟩
  rcases (h3 c hc).2 with rfl | h
  · exact hid
  · omega

theorem calculateE_ok {x y : ℕ} (hx : x < 2 ^ 256) (hy : y < 2 ^ 256) {id M : Bytes} {e : Int}
    (h : calculateE x y id M = .ok e) :
    e = (beNat (Spec.SM3.hash (Spec.SM3.hash (zIn id x y) ++ M)) : ℕ) ∧ M ≠ [] := by
  unfold calculateE at h
  rw [Res.bind_eq_ok] at h
  obtain ⟨z, h1, h2⟩ := h
  rw [Res.bind_eq_ok] at h2
  obtain ⟨eh, h2, h3⟩ := h2
  have h4 := hashOf_ok h2
  rw [Res.ok.injEq] at h3
  rw [← h3, h4.1, getZ_ok hx hy h1]
  simp only [List.flatten_cons, List.flatten_nil, List.append_nil, true_and]
  exact (h4.2 M (by simp)).1

theorem calculateE_eq {x y : ℕ} (hx : x < 2 ^ 256) (hy : y < 2 ^ 256) {id M : Bytes} (hid : id.length < 2 ^ 31)
    (hM : M ≠ []) (hM' : M.length < 2 ^ 31) :
    calculateE x y id M = .ok (beNat (Spec.SM3.hash (Spec.SM3.hash (zIn id x y) ++ M)) : ℕ) := by
  unfold calculateE
  rw [getZ_eq hx hy hid, Res.ok_bind, hashOf_eq_of]
  · simp
  · intro c hc
    simp only [List.mem_cons, List.not_mem_nil, or_false] at hc
    rcases hc with h | h
    · rw [h]
      have := hash_length (zIn id x y)
      exact ⟨fun h' => by rw [h'] at this; simp at this, by omega⟩
    · rw [h]; exact ⟨hM, hM'⟩

theorem calculateE_empty {x y : ℕ} (hx : x < 2 ^ 256) (hy : y < 2 ^ 256) {id : Bytes} :
    calculateE x y id [] = .panic := by
  obtain ⟨cs, h1, h2, _⟩ := zChunks_eq hx hy id
  unfold calculateE getZ
  rw [h1, Res.ok_bind]
  rcases hashOf_cases cs with h | h
  · rw [h]; rfl
  · rw [h, Res.ok_bind]
    rcases hashOf_cases [Spec.SM3.hash cs.flatten, []] with h' | h'
    · rw [h']; rfl
    · exact absurd rfl ((hashOf_ok h').2 [] (by simp)).1

/-! ## Arithmetic modulo the order -/

theorem zn_cast_emod (v : Int) : ((v % cv.N : Int) : ZMod n) = v := by
  rw [cv_N]; simp

theorem cast_eq_zero_iff (v : Int) : (v : ZMod n) = 0 ↔ (n : Int) ∣ v := ZMod.intCast_zmod_eq_zero_iff_dvd v n

theorem zsmul_congr {u v : Int} (h : (u : ZMod n) = v) (Q : Pt) : u • Q = v • Q := by
  have hd : (n : Int) ∣ u - v := by rw [← cast_eq_zero_iff]; push_cast; rw [h, sub_self]
  obtain ⟨w, hw⟩ := hd
  rw [← sub_eq_zero, sub_eq_add_neg, ← sub_zsmul, hw, mul_comm, mul_zsmul, natCast_zsmul, n_smul, zsmul_zero]

/-- `util.ModInverse` modulo the order: an inverse, or 0 if there is none. -/
theorem utilModInverse_spec (g : Int) :
    ((g : ZMod n) ≠ 0 → ((utilModInverse g cv.N : Int) : ZMod n) * g = 1) ∧
    ((g : ZMod n) = 0 → utilModInverse g cv.N = 0) := by
  rw [cv_N]
  constructor
  · intro hg
    have hco : Int.gcd (g % n) n = 1 := by
      rw [Int.gcd_comm, Int.gcd_eq_natAbs, Int.natAbs_natCast]
      refine (Nat.Prime.coprime_iff_not_dvd n_prime).2 fun hd => hg ?_
      rw [← ZMod.intCast_mod, cast_eq_zero_iff]
      exact Int.natCast_dvd.2 hd
    unfold utilModInverse modInverse
    rw [if_pos hco, Option.getD_some, ZMod.intCast_mod]
    have h := Int.gcd_eq_gcd_ab (g % n) n
    rw [hco] at h
    have h2 := congrArg (Int.cast : Int → ZMod n) h
    push_cast at h2
    have h0 : ((n : ℕ) : ZMod n) = 0 := ZMod.natCast_self n
    rw [h0, zero_mul, add_zero] at h2
    rw [mul_comm]; exact h2.symm
  · intro hg
    have h0 : g % n = 0 := Int.emod_eq_zero_of_dvd ((cast_eq_zero_iff g).1 hg)
    have hn := n_gt
    unfold utilModInverse modInverse
    rw [h0, if_neg]
    · rfl
    · rw [Int.gcd_zero_left, Int.natAbs_natCast]; omega

/-! ## Signing -/

/-- `randInt` for the order: 32 bytes without a mask. -/
theorem modify_mask (bs : Bytes) :
    bs.modify 0 (· &&& BitVec.ofNat 8 (2 ^ (if ((cv.N - 1).natAbs.log2 + 1) % 8 = 0 then 8 else
      ((cv.N - 1).natAbs.log2 + 1) % 8) - 1)) = bs := by
  have h : (if ((cv.N - 1).natAbs.log2 + 1) % 8 = 0 then 8 else ((cv.N - 1).natAbs.log2 + 1) % 8) = 8 := by decide +kernel
  rw [h]
  have h2 : ∀ b : Byte, b &&& BitVec.ofNat 8 (2 ^ 8 - 1) = b := by decide +kernel
  cases bs with
  | nil => rfl
  | cons b bs => rw [List.modify_zero_cons, h2]

theorem randInt_N_cons (bs : Bytes) (t : Tape) :
    randInt cv.N (some bs :: t) = if beNat bs < n then .ok ((beNat bs : Int), t) else randInt cv.N t := by
  conv_lhs => unfold randInt
  dsimp only
  rw [modify_mask, cv_N]
  simp only [Nat.cast_lt]

theorem randInt_mem : ∀ {t : Tape} {r : Int × Tape}, randInt cv.N t = .ok r →
    ∃ raw, some raw ∈ t ∧ r.1 = (beNat raw : ℕ) ∧ r.2 <:+ t := by
  intro t
  induction t with
  | nil => intro r h; cases h
  | cons o t ih =>
    intro r h
    cases o with
    | none => cases h
    | some bs =>
      rw [randInt_N_cons] at h
      split at h
      · rw [Res.ok.injEq] at h
        subst h
        exact ⟨bs, by simp, rfl, List.suffix_cons _ _⟩
      · obtain ⟨raw, h1, h2, h3⟩ := ih h
        exact ⟨raw, by simp [h1], h2, h3.trans (List.suffix_cons _ _)⟩

theorem nextK_mem {t : Tape} {r : Int × Tape} (h : nextK t cv.N = .ok r) :
    ∃ raw, some raw ∈ t ∧ r.1 = (beNat raw : ℕ) ∧ r.2 <:+ t := by
  obtain ⟨t', h0, h⟩ := forLoop_inv (fun t' => t' <:+ t) (fun s s' hs h => by
    rw [Res.bind_eq_ok] at h
    obtain ⟨r', h1, h2⟩ := h
    obtain ⟨_, _, _, h3⟩ := randInt_mem h1
    split at h2
    · simp at h2
    · simp only [Res.ok.injEq, Sum.inl.injEq] at h2
      exact h2 ▸ h3.trans hs) _ _ _ (List.suffix_refl t) h
  rw [Res.bind_eq_ok] at h
  obtain ⟨r', h1, h2⟩ := h
  obtain ⟨raw, h3, h4, h5⟩ := randInt_mem h1
  split at h2
  · simp only [Res.ok.injEq, Sum.inr.injEq] at h2
    subst h2
    exact ⟨raw, h0.subset h3, h4, h5.trans h0⟩
  · simp at h2

/-- `raw` is one of the reads of the tape and its value is `k`. -/
def Delivers (t : Tape) (k : ℕ) : Prop := ∃ raw, some raw ∈ t ∧ beNat raw = k

theorem Delivers.mono {t t' : Tape} {k : ℕ} (h : Delivers t k) (hs : t <:+ t') : Delivers t' k := by
  obtain ⟨raw, h1, h2⟩ := h
  exact ⟨raw, hs.subset h1, h2⟩

theorem signInner_ok {e : Int} {t : Tape} {k r : Int} {t' : Tape} (h : signInner e t = .ok (k, r, t')) :
    (1 ≤ k ∧ k < n ∧ r = (e + (enc (k.toNat • G)).1) % n ∧ r ≠ 0 ∧ r + k ≠ n) ∧ Delivers t k.toNat ∧ t' <:+ t := by
  obtain ⟨t0, h0, h⟩ := forLoop_inv (fun t' => t' <:+ t) (fun s s' hs h => by
    rw [Res.bind_eq_ok] at h
    obtain ⟨kt, h1, h2⟩ := h
    obtain ⟨_, _, _, h3⟩ := nextK_mem h1
    rw [baseMult_int, Res.ok_bind] at h2
    dsimp only at h2
    split at h2
    · simp at h2
    · simp only [Res.ok.injEq, Sum.inl.injEq] at h2
      exact h2 ▸ h3.trans hs) _ _ _ (List.suffix_refl t) h
  rw [Res.bind_eq_ok] at h
  obtain ⟨kt, h1, h2⟩ := h
  obtain ⟨raw, h5, h6, h7⟩ := nextK_mem h1
  obtain ⟨k', hk, hk1, hk2⟩ := nextK_nat h1
  rw [baseMult_int, Res.ok_bind, hk, cv_N] at h2
  simp only [Int.natAbs_natCast] at h2
  split at h2
  · rename_i hc
    simp only [Res.ok.injEq, Sum.inr.injEq, Prod.mk.injEq] at h2
    obtain ⟨rfl, rfl, rfl⟩ := h2
    refine ⟨⟨by omega, by omega, by simp, hc.1, hc.2⟩, ⟨raw, h0.subset h5, by omega⟩, h7.trans h0⟩
  · simp at h2

/-- What a returned signature satisfies, for every private key. -/
theorem signToRS_ok {d : Int} {id : Option Bytes} {M : Bytes} {tape : Tape} {r s : Int}
    (h : signToRS ⟨d⟩ id M tape = .ok (r, s)) :
    ∃ (e : Int) (k : ℕ), calculateE (enc (d.natAbs • G)).1 (enc (d.natAbs • G)).2 (id.getD defaultUserId) M = .ok e ∧
      Delivers tape k ∧ 1 ≤ k ∧ k < n ∧ r = (e + (enc (k • G)).1) % n ∧ r ≠ 0 ∧ r + k ≠ n ∧
      s ≠ 0 ∧ 0 ≤ s ∧ s < n ∧ ((d : ZMod n) + 1) * s = k - r * d := by
  unfold signToRS at h
  rw [baseMult_int, Res.ok_bind, Res.bind_eq_ok] at h
  obtain ⟨e, h1, h2⟩ := h
  obtain ⟨t, h0, h2⟩ := forLoop_inv (fun t' => t' <:+ tape) (fun s s' hs h => by
    rw [Res.bind_eq_ok] at h
    obtain ⟨⟨k, r', t'⟩, h3, h4⟩ := h
    obtain ⟨_, _, h3⟩ := signInner_ok h3
    dsimp only at h4
    split at h4
    · simp at h4
    · simp only [Res.ok.injEq, Sum.inl.injEq] at h4
      exact h4 ▸ h3.trans hs) _ _ _ (List.suffix_refl tape) h2
  rw [Res.bind_eq_ok] at h2
  obtain ⟨⟨k, r', t'⟩, h3, h4⟩ := h2
  obtain ⟨⟨g1, g2, g3, g4, g5⟩, g6, _⟩ := signInner_ok h3
  dsimp only at h4
  split at h4
  · rename_i hs
    simp only [Res.ok.injEq, Sum.inr.injEq, Prod.mk.injEq] at h4
    obtain ⟨rfl, rfl⟩ := h4
    have hn := n_gt
    refine ⟨e, k.toNat, h1, g6.mono h0, by omega, by omega, g3, g4, by omega, hs, ?_, ?_, ?_⟩
    · exact Int.emod_nonneg _ (by rw [cv_N]; omega)
    · have := Int.emod_lt_of_pos (utilModInverse (d + 1) cv.N * ((k - r' * d) % cv.N)) (b := cv.N) (by rw [cv_N]; omega)
      rw [cv_N] at this ⊢
      exact this
    · have hk : ((k.toNat : ℕ) : ZMod n) = ((k : Int) : ZMod n) := by
        rw [← Int.cast_natCast, Int.toNat_of_nonneg (by omega)]
      rw [zn_cast_emod, hk]
      push_cast
      rw [zn_cast_emod]
      by_cases h0 : ((d + 1 : Int) : ZMod n) = 0
      · exfalso
        apply hs
        rw [(utilModInverse_spec (d + 1)).2 h0]
        simp
      · have := (utilModInverse_spec (d + 1)).1 h0
        push_cast at this ⊢
        linear_combination ((k : ZMod n) - r' * d) * this
  · simp at h4

/-! ## Termination of signing -/

/-- A loop ends if every state of `Good` either leaves the loop or goes to a smaller state of `Good`. -/
theorem forLoop_good {σ α : Type} {body : σ → Res (σ ⊕ α)} (m : σ → ℕ) (Good : σ → Prop) (Q : α → Prop)
    (h : ∀ s, Good s → (∃ a, body s = .ok (.inr a) ∧ Q a) ∨ ∃ s', body s = .ok (.inl s') ∧ Good s' ∧ m s' < m s) :
    ∀ (fuel : ℕ) (s : σ), Good s → m s < fuel → ∃ a, forLoop body fuel s = .ok a ∧ Q a := by
  intro fuel
  induction fuel with
  | zero => intro s _ h'; omega
  | succ fuel ih =>
    intro s hs hm
    unfold forLoop
    rcases h s hs with ⟨a, ha, hQ⟩ | ⟨s', ha, hs', hm'⟩
    · rw [ha]; exact ⟨a, rfl, hQ⟩
    · rw [ha]; exact ih s' hs' (by omega)

/-- Some read of the tape has a value satisfying `good`, and no read before it fails. -/
def Hits (good : ℕ → Prop) : Tape → Prop
  | [] => False
  | none :: _ => False
  | some raw :: t => good (beNat raw) ∨ Hits good t

theorem randInt_hits {good : ℕ → Prop} (hg : ∀ k, good k → k < n) : ∀ {t : Tape}, Hits good t →
    ∃ (k : ℕ) (t' : Tape), randInt cv.N t = .ok ((k : Int), t') ∧ (good k ∨ Hits good t') ∧ t'.length < t.length := by
  intro t
  induction t with
  | nil => intro h; exact h.elim
  | cons o t ih =>
    intro h
    cases o with
    | none => exact h.elim
    | some raw =>
      rw [randInt_N_cons]
      by_cases hlt : beNat raw < n
      · rw [if_pos hlt]; exact ⟨beNat raw, t, rfl, h, by simp⟩
      · rw [if_neg hlt]
        rcases h with h | h
        · exact absurd (hg _ h) hlt
        · obtain ⟨k, t', h1, h2, h3⟩ := ih h
          exact ⟨k, t', h1, h2, by simp; omega⟩

theorem nextK_hits {good : ℕ → Prop} (hg : ∀ k, good k → 1 ≤ k ∧ k < n) {t : Tape} (h : Hits good t) :
    ∃ (k : ℕ) (t' : Tape), nextK t cv.N = .ok ((k : Int), t') ∧ (1 ≤ k ∧ k < n) ∧ (good k ∨ Hits good t') ∧
      t'.length < t.length := by
  obtain ⟨a, h1, h2, h3⟩ := forLoop_good (σ := Tape) (α := Int × Tape) (body := fun t => do
      let r ← randInt cv.N t
      if r.1 ≥ 1 then .ok (.inr r) else .ok (.inl r.2)) List.length (fun s => Hits good s ∧ s.length ≤ t.length)
    (fun a => (∃ k : ℕ, a.1 = k ∧ (good k ∨ Hits good a.2)) ∧ a.2.length < t.length) (by
      rintro s ⟨hs, hl⟩
      obtain ⟨k, t', g1, g2, g3⟩ := randInt_hits (fun k hk => (hg k hk).2) hs
      rw [g1, Res.ok_bind]
      by_cases hk : (k : Int) ≥ 1
      · rw [if_pos hk]; exact .inl ⟨_, rfl, ⟨k, rfl, g2⟩, by dsimp only; omega⟩
      · rw [if_neg hk]
        refine .inr ⟨t', rfl, ⟨?_, by omega⟩, g3⟩
        rcases g2 with g2 | g2
        · have := (hg k g2).1; omega
        · exact g2) (t.length + 1) t ⟨h, le_refl _⟩ (by omega)
  obtain ⟨k, hk, h2⟩ := h2
  have h4 := nextK_range h1
  refine ⟨k, a.2, ?_, by omega, h2, h3⟩
  rw [← hk]
  exact h1

theorem signInner_hits {e : Int} {good : ℕ → Prop} (hg : ∀ k, good k → 1 ≤ k ∧ k < n)
    (hg' : ∀ k, good k → (e + (enc (k • G)).1) % n ≠ 0 ∧ (e + (enc (k • G)).1) % n + k ≠ n) {t : Tape} (h : Hits good t) :
    ∃ (k : ℕ) (r : Int) (t' : Tape), signInner e t = .ok ((k : Int), r, t') ∧ (good k ∨ Hits good t') ∧
      t'.length < t.length := by
  obtain ⟨a, h1, ⟨k, h2, h4⟩, h3⟩ := forLoop_good (σ := Tape) (α := Int × Int × Tape) (body := fun t => do
      let kt ← nextK t cv.N
      let px ← scalarBaseMult cv (intBytes kt.1)
      let r := (e + px.1) % cv.N
      let rk := r + kt.1
      if r ≠ 0 ∧ rk ≠ cv.N then .ok (.inr (kt.1, r, kt.2)) else .ok (.inl kt.2)) List.length
    (fun s => Hits good s ∧ s.length ≤ t.length)
    (fun a => (∃ k : ℕ, a.1 = k ∧ (good k ∨ Hits good a.2.2)) ∧ a.2.2.length < t.length) (by
      rintro s ⟨hs, hl⟩
      obtain ⟨k, t', g1, g2, g3, g4⟩ := nextK_hits hg hs
      rw [g1, Res.ok_bind]
      dsimp only
      rw [baseMult_int, Res.ok_bind, Int.natAbs_natCast, cv_N]
      by_cases hc : (e + (enc (k • G)).1) % (n : Int) ≠ 0 ∧ (e + (enc (k • G)).1) % (n : Int) + k ≠ n
      · rw [if_pos hc]; exact .inl ⟨_, rfl, ⟨k, rfl, g3⟩, by dsimp only; omega⟩
      · rw [if_neg hc]
        refine .inr ⟨t', rfl, ⟨?_, by omega⟩, g4⟩
        rcases g3 with g3 | g3
        · exact absurd (hg' k g3) hc
        · exact g3) (t.length + 1) t ⟨h, le_refl _⟩ (by omega)
  refine ⟨k, a.2.1, a.2.2, ?_, h4, h3⟩
  rw [← h2]
  exact h1

/-- Signing returns if the tape delivers a usable nonce. -/
theorem signToRS_hits {d e : Int} {id : Option Bytes} {M : Bytes}
    (he : calculateE (enc (d.natAbs • G)).1 (enc (d.natAbs • G)).2 (id.getD defaultUserId) M = .ok e)
    (hd : ((d : ZMod n) + 1) ≠ 0) {good : ℕ → Prop} (hg : ∀ k, good k → 1 ≤ k ∧ k < n)
    (hg' : ∀ k, good k → (e + (enc (k • G)).1) % n ≠ 0 ∧ (e + (enc (k • G)).1) % n + k ≠ n ∧
      (k : ZMod n) ≠ ((e + (enc (k • G)).1) % n : Int) * d) {tape : Tape} (h : Hits good tape) :
    ∃ rs, signToRS ⟨d⟩ id M tape = .ok rs := by
  unfold signToRS
  rw [baseMult_int, Res.ok_bind]
  dsimp only
  rw [he, Res.ok_bind]
  obtain ⟨a, h1, -⟩ := forLoop_good (σ := Tape) (α := Int × Int) (body := fun t => do
      let (k, r, t') ← signInner e t
      let dPlus1ModN := utilModInverse (d + 1) cv.N
      let s := r * d
      let s := k - s
      let s := s % cv.N
      let s := dPlus1ModN * s
      let s := s % cv.N
      if s ≠ 0 then .ok (.inr (r, s)) else .ok (.inl t')) List.length (Hits good) (fun _ => True) (by
      intro s hs
      obtain ⟨k, r, t', g1, g2, g3⟩ := signInner_hits hg (fun k hk => ⟨(hg' k hk).1, (hg' k hk).2.1⟩) hs
      obtain ⟨⟨_, _, g4, _⟩, _⟩ := signInner_ok g1
      rw [g1, Res.ok_bind]
      dsimp only
      split
      · exact .inl ⟨_, rfl, trivial⟩
      · rename_i hc
        refine .inr ⟨t', rfl, ?_, g3⟩
        rcases g2 with g2 | g2
        · exfalso
          apply hc
          intro h0
          rw [Int.toNat_natCast] at g4
          apply (hg' k g2).2.2
          rw [← g4]
          rw [cv_N] at h0
          have h1 := (cast_eq_zero_iff _).2 (Int.dvd_of_emod_eq_zero h0)
          push_cast at h1
          have hd' : ((d + 1 : Int) : ZMod n) ≠ 0 := by push_cast; exact hd
          have h2 := (utilModInverse_spec (d + 1)).1 hd'
          have h3 := zn_cast_emod (k - r * d)
          rw [cv_N] at h2 h3
          push_cast at h2 h3
          rw [h3] at h1
          linear_combination ((d : ZMod n) + 1) * h1 - ((k : ZMod n) - r * d) * h2
        · exact g2) (tape.length + 1) tape h (by omega)
  exact ⟨a, h1⟩

/-! ## Verification -/

theorem toNat_zsmul {v : Int} (h : 0 ≤ v) (Q : Pt) : v.natAbs • Q = v • Q := by
  rw [← natCast_zsmul, Int.natAbs_of_nonneg h]

/-- `VerifyByRS` for a public key on the curve, when the message hash is computed. -/
theorem verifyByRS_eq {P : Pt} {x y : ℕ} (hP : coords P = some (x, y)) {id : Option Bytes} {M : Bytes} {r s e : Int}
    (he : calculateE x y (id.getD defaultUserId) M = .ok e) :
    ∃ b, verifyByRS ⟨x, y⟩ id M r s = .ok b ∧
      (b = true ↔ 1 ≤ r ∧ r < n ∧ 1 ≤ s ∧ s < n ∧ (r + s) % n ≠ 0 ∧
        s • G + ((r + s) % n) • P ≠ 0 ∧ r = (e + (enc (s • G + ((r + s) % n) • P)).1) % n) := by
  have hn := n_gt
  unfold verifyByRS
  dsimp only
  rw [he, cv_N]
  by_cases h1 : r < 1 ∨ r ≥ n
  · rw [if_pos h1]; exact ⟨false, rfl, by simp; omega⟩
  rw [if_neg h1]
  by_cases h2 : s < 1 ∨ s ≥ n
  · rw [if_pos h2]; exact ⟨false, rfl, by simp; omega⟩
  rw [if_neg h2, Res.ok_bind]
  by_cases h3 : (r + s) % (n : Int) = 0
  · rw [if_pos h3]; exact ⟨false, rfl, by simp [h3]⟩
  rw [if_neg h3, baseMult_int, Res.ok_bind, mult_int (coords_isAff hP), Res.ok_bind, cvAdd_spec (enc_isPt _) (enc_isPt _),
    Res.ok_bind, toNat_zsmul (by omega), toNat_zsmul (Int.emod_nonneg _ (by omega))]
  generalize hQ : s • G + ((r + s) % (n : Int)) • P = Q
  by_cases h4 : Q = 0
  · have : isEcPointInfinity (enc Q) = true := (isInf_enc Q).2 h4
    rw [if_pos this]; exact ⟨false, rfl, by simp [h4]⟩
  · have : ¬ isEcPointInfinity (enc Q) = true := fun h => h4 ((isInf_enc Q).1 h)
    rw [if_neg this]
    refine ⟨_, rfl, ?_⟩
    rw [decide_eq_true_iff]
    constructor
    · intro h; exact ⟨by omega, by omega, by omega, by omega, h3, h4, h.symm⟩
    · intro h; exact h.2.2.2.2.2.2.symm

/-- The verification equation holds for what signing returns. -/
theorem sign_verify_point {d k : ℕ} {r s : Int} (hs : ((d : ZMod n) + 1) * s = k - r * d) :
    s • G + ((r + s) % (n : Int)) • (d • G) = k • G := by
  rw [← natCast_zsmul G d, ← mul_zsmul', ← add_zsmul, ← natCast_zsmul G k]
  apply zsmul_congr
  have := zn_cast_emod (r + s)
  rw [cv_N] at this
  push_cast at this ⊢
  rw [this]
  linear_combination hs

theorem sign_t_ne {d k : ℕ} {r s : Int} (hs : ((d : ZMod n) + 1) * s = k - r * d) (hk : 1 ≤ k) (hk' : k < n)
    (hr : 0 ≤ r) (hr' : r < n) (hrk : r + k ≠ n) : (r + s) % (n : Int) ≠ 0 := by
  intro h
  have h1 : ((r + s : Int) : ZMod n) = 0 := (cast_eq_zero_iff _).2 (Int.dvd_of_emod_eq_zero h)
  push_cast at h1
  have h2 : ((r + k : Int) : ZMod n) = 0 := by
    push_cast
    linear_combination ((d : ZMod n) + 1) * h1 - hs
  rw [cast_eq_zero_iff] at h2
  obtain ⟨w, hw⟩ := h2
  have hn := n_gt
  have : w = 1 := by
    have h3 : (0 : Int) < n * w := by omega
    have h4 : (n : Int) * w < n * 2 := by omega
    have h5 : w < 2 := lt_of_mul_lt_mul_left h4 (by omega)
    have h6 : 0 < w := by
      by_contra hc
      have : (n : Int) * w ≤ 0 := Int.mul_nonpos_of_nonneg_of_nonpos (by omega) (by omega)
      omega
    omega
  subst this
  omega

/-! ## The key (0, 0) -/

/-- States that `ScalarMult` of (0, 0) runs through. -/
def ZeroState (s : Jac) : Prop := s.z = 0 ∨ s = ⟨0, 0, 1⟩

theorem zeroState_double {s : Jac} (h : ZeroState s) : (doubleJacobian cv s).z = 0 := by
  rcases h with h | h
  · obtain ⟨x, y, z⟩ := s
    dsimp only at h
    subst h
    unfold doubleJacobian fixSign
    dsimp only
    have hP : (0 : Int) < cv.P := by decide +kernel
    have h1 : 0 ≤ y * y := mul_self_nonneg y
    have h2 : y * y % cv.P ≤ y * y := by
      have h3 := mul_nonneg hP.le (Int.ediv_nonneg h1 hP.le)
      rw [Int.emod_def]; omega
    rw [add_zero, if_neg (show ¬ y * y - y * y % cv.P < 0 by omega), mul_zero, Int.zero_emod, sub_zero, if_neg (by omega), Int.sub_emod, Int.emod_emod, sub_self,
      Int.zero_emod]
  · subst h; decide +kernel

theorem zeroState_bits (m : ℕ) (byte : Byte) {s : Jac} (h : ZeroState s) : ZeroState (scalarBits cv (0, 0) m byte s) := by
  induction m generalizing byte s with
  | zero => exact h
  | succ m ih =>
    unfold scalarBits
    dsimp only
    apply ih
    split
    · unfold addJacobian
      rw [if_neg (by decide), if_pos (zeroState_double h)]
      exact .inr rfl
    · exact .inl (zeroState_double h)

/-- Every multiple of the pair (0, 0), which is not on the curve, is (0, 0). -/
theorem mult_zero (k : Bytes) : scalarMult cv (0, 0) k = .ok (0, 0) := by
  have h : ∀ (k : Bytes) (s : Jac), ZeroState s → ZeroState (k.foldl (fun s byte => scalarBits cv (0, 0) 8 byte s) s) := by
    intro k
    induction k with
    | nil => intro s hs; exact hs
    | cons b k ih => intro s hs; exact ih _ (zeroState_bits 8 b hs)
  unfold scalarMult
  rcases h k ⟨0, 0, 0⟩ (.inl rfl) with h | h
  · unfold affineFromJacobian; rw [if_pos h]
  · rw [h]; decide +kernel

/-- `VerifyByRS` for the public key (0, 0). -/
theorem verifyByRS_zero {id : Option Bytes} {M : Bytes} {r s e : Int}
    (he : calculateE 0 0 (id.getD defaultUserId) M = .ok e) :
    ∃ b, verifyByRS ⟨0, 0⟩ id M r s = .ok b ∧
      (b = true ↔ 1 ≤ r ∧ r < n ∧ 1 ≤ s ∧ s < n ∧ (r + s) % n ≠ 0 ∧ r = (e + (enc (s • G)).1) % n) := by
  have hn := n_gt
  unfold verifyByRS
  dsimp only
  rw [he, cv_N]
  by_cases h1 : r < 1 ∨ r ≥ n
  · rw [if_pos h1]; exact ⟨false, rfl, by simp; omega⟩
  rw [if_neg h1]
  by_cases h2 : s < 1 ∨ s ≥ n
  · rw [if_pos h2]; exact ⟨false, rfl, by simp; omega⟩
  rw [if_neg h2, Res.ok_bind]
  by_cases h3 : (r + s) % (n : Int) = 0
  · rw [if_pos h3]; exact ⟨false, rfl, by simp [h3]⟩
  have hz : ((0, 0) : Int × Int) = enc (0 : Pt) := rfl
  rw [if_neg h3, baseMult_int, Res.ok_bind, mult_zero, Res.ok_bind, hz, cvAdd_spec (enc_isPt _) (enc_isPt _),
    Res.ok_bind, add_zero, toNat_zsmul (by omega)]
  have h4 : s • G ≠ 0 := by
    rw [← toNat_zsmul (by omega)]
    exact fun h => not_dvd_of_lt (by omega) (by omega) ((smul_eq_zero G_ne_zero).1 h)
  have : ¬ isEcPointInfinity (enc (s • G)) = true := fun h => h4 ((isInf_enc _).1 h)
  rw [if_neg this]
  refine ⟨_, rfl, ?_⟩
  rw [decide_eq_true_iff]
  constructor
  · intro h; exact ⟨by omega, by omega, by omega, by omega, h3, h.symm⟩
  · intro h; exact h.2.2.2.2.2.symm

end Verif.Sm2
