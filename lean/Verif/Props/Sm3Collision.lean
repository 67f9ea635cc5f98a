import Verif.Props.Sm3
/-!
# Property C103: a collision of SM3 is a collision of its compression function
-/
namespace Verif.Props
open Verif Verif.Sm3 Verif.Spec.SM3

/-- Block `i` of a padded message. -/
def sm3Block (m' : Bytes) (i : Nat) : Bytes := (m'.drop (64 * i)).take 64

theorem length_pad (m : Bytes) : (pad m).length % 64 = 0 ∧ 64 ≤ (pad m).length := by
  unfold pad
  simp only [List.length_append, List.length_replicate, List.length_cons, List.length_nil, length_toBE]
  omega

theorem drop_pad (m : Bytes) : (pad m).drop ((pad m).length - 8) = toBE 8 (8 * m.length) := by
  unfold pad
  rw [List.drop_left']
  simp only [List.length_append, List.length_replicate, List.length_cons, List.length_nil, length_toBE]
  omega

/-- The padding can be undone. -/
theorem pad_injective {m m' : Bytes} (hm : m.length < 2 ^ 61) (hm' : m'.length < 2 ^ 61) (h : pad m = pad m') : m = m' := by
  have e := drop_pad m
  rw [h, drop_pad m'] at e
  have hl := toBE_inj (by omega) (by omega) e
  have : m = (pad m).take m.length := by unfold pad; simp [List.append_assoc]
  rw [this, h, show m.length = m'.length by omega]
  unfold pad
  simp [List.append_assoc]

theorem outBytes_inj {v v' : Regs} (h : outBytes v = outBytes v') : v = v' := by
  obtain ⟨a, b, c, d, e, f, g, k⟩ := v
  obtain ⟨a', b', c', d', e', f', g', k'⟩ := v'
  have cut : ∀ (x x' : Word) (r r' : Bytes), toBE 4 x.toNat ++ r = toBE 4 x'.toNat ++ r' → x = x' ∧ r = r' := by
    intro x x' r r' h
    obtain ⟨h1, h2⟩ := List.append_inj h (by simp)
    exact ⟨BitVec.eq_of_toNat_eq (toBE_inj (by have := x.isLt; omega) (by have := x'.isLt; omega) h1), h2⟩
  simp only [outBytes, List.append_assoc] at h
  obtain ⟨h1, h⟩ := cut _ _ _ _ h
  obtain ⟨h2, h⟩ := cut _ _ _ _ h
  obtain ⟨h3, h⟩ := cut _ _ _ _ h
  obtain ⟨h4, h⟩ := cut _ _ _ _ h
  obtain ⟨h5, h⟩ := cut _ _ _ _ h
  obtain ⟨h6, h⟩ := cut _ _ _ _ h
  obtain ⟨h7, h⟩ := cut _ _ _ _ h
  obtain ⟨h8, _⟩ := cut _ _ [] [] (by simpa using h)
  rw [h1, h2, h3, h4, h5, h6, h7, h8]

/-- Two chaining values reached after equally many blocks: a collision on the way, or the same blocks. -/
theorem chain_cases (x y : Bytes) : ∀ k, V x k = V y k →
    (∃ i, i < k ∧ (V x i, sm3Block x i) ≠ (V y i, sm3Block y i) ∧ CF (V x i) (sm3Block x i) = CF (V y i) (sm3Block y i)) ∨
      ∀ i, i < k → sm3Block x i = sm3Block y i := by
  intro k
  induction k with
  | zero => intro _; right; intro i hi; omega
  | succ k ih =>
    intro h
    by_cases he : (V x k, sm3Block x k) = (V y k, sm3Block y k)
    · simp only [Prod.mk.injEq] at he
      rcases ih he.1 with ⟨i, h1, h2, h3⟩ | hb
      · exact .inl ⟨i, by omega, h2, h3⟩
      · right
        intro i hi
        by_cases hk : i = k
        · rw [hk]; exact he.2
        · exact hb i (by omega)
    · exact .inl ⟨k, by omega, he, h⟩

theorem eq_of_blocks (N : Nat) : ∀ (x y : Bytes), x.length = 64 * N → y.length = 64 * N →
    (∀ i, i < N → sm3Block x i = sm3Block y i) → x = y := by
  induction N with
  | zero => intro x y hx hy _; rw [List.length_eq_zero_iff.1 (by omega : x.length = 0), List.length_eq_zero_iff.1 (by omega : y.length = 0)]
  | succ N ih =>
    intro x y hx hy h
    have h0 := h 0 (by omega)
    simp only [sm3Block, Nat.mul_zero, List.drop_zero] at h0
    have := ih (x.drop 64) (y.drop 64) (by simp; omega) (by simp; omega) fun i hi => by
      have := h (i + 1) (by omega)
      simp only [sm3Block, List.drop_drop] at this ⊢
      rwa [show 64 + 64 * i = 64 * (i + 1) by omega]
    rw [← List.take_append_drop 64 x, ← List.take_append_drop 64 y, h0, this]

/-- The compression function collides at two steps of the computations of `m` and `m'`. -/
def StepsCollide (m m' : Bytes) : Prop := ∃ i j, i < (pad m).length / 64 ∧ j < (pad m').length / 64 ∧
  (V (pad m) i, sm3Block (pad m) i) ≠ (V (pad m') j, sm3Block (pad m') j) ∧
  CF (V (pad m) i) (sm3Block (pad m) i) = CF (V (pad m') j) (sm3Block (pad m') j)

theorem collide_of_hash {m m' : Bytes} (hm : m.length < 2 ^ 61) (hm' : m'.length < 2 ^ 61) (hne : m ≠ m') (h : Spec.SM3.hash m = Spec.SM3.hash m') :
    StepsCollide m m' := by
  have hV := outBytes_inj h
  obtain ⟨p1, p2⟩ := length_pad m
  obtain ⟨q1, q2⟩ := length_pad m'
  obtain ⟨N, hN⟩ : ∃ N, (pad m).length / 64 = N + 1 := ⟨(pad m).length / 64 - 1, by omega⟩
  obtain ⟨N', hN'⟩ : ∃ N', (pad m').length / 64 = N' + 1 := ⟨(pad m').length / 64 - 1, by omega⟩
  by_cases he : (V (pad m) N, sm3Block (pad m) N) = (V (pad m') N', sm3Block (pad m') N')
  · simp only [Prod.mk.injEq] at he
    -- the last blocks are equal, so the lengths are
    have hlast : ∀ (x : Bytes) (N : Nat), x.length % 64 = 0 → x.length / 64 = N + 1 → (sm3Block x N).drop 56 = x.drop (x.length - 8) := by
      intro x N h1 h2
      unfold sm3Block
      rw [List.take_of_length_le (by simp; omega), List.drop_drop]
      congr 1
      omega
    have e1 := hlast _ _ p1 hN
    have e2 := hlast _ _ q1 hN'
    rw [drop_pad] at e1 e2
    rw [he.2, e2] at e1
    have hl := toBE_inj (by omega) (by omega) e1
    have hlen : (pad m).length = (pad m').length := by
      unfold pad
      simp only [List.length_append, List.length_replicate, List.length_cons, List.length_nil, length_toBE]
      have : m.length = m'.length := by omega
      rw [this]
    have hNN : N = N' := by omega
    subst hNN
    rw [hN, hN'] at hV
    rcases chain_cases _ _ _ hV with ⟨i, h1, h2, h3⟩ | hb
    · exact ⟨i, i, by omega, by omega, h2, h3⟩
    · exact absurd (pad_injective hm hm' (eq_of_blocks (N + 1) _ _ (by omega) (by omega) hb)) hne
  · refine ⟨N, N', by omega, by omega, he, ?_⟩
    rw [hN, hN'] at hV
    exact hV

/-- C103: if `Sum` gives the same digest for two different messages, then the compression function has a collision, and it occurs
among the steps of the two computations: finding two messages is not easier than finding that. -/
theorem C103_collision (m m' v : Bytes) (hne : m ≠ m') (h0 : m ≠ []) (h0' : m' ≠ []) (hl : m.length < 2 ^ 31) (hl' : m'.length < 2 ^ 31)
    (h : sum m = .ok v) (h' : sum m' = .ok v) : StepsCollide m m' := by
  rw [C01_sum_conforms m h0 hl] at h
  rw [C01_sum_conforms m' h0' hl'] at h'
  exact collide_of_hash (by omega) (by omega) hne (by rw [Res.ok.inj h, Res.ok.inj h'])

/-- C103 for the running hash, any chunking; also of the empty message. -/
theorem C103_running (cs cs' : List Bytes) (hc : GoodChunks cs) (hc' : GoodChunks cs') (b v : Bytes) (hne : cs.flatten ≠ cs'.flatten)
    (hl : cs.flatten.length < 2 ^ 61) (hl' : cs'.flatten.length < 2 ^ 61)
    (h : ∃ d', (do let d ← writeAll new cs; sumMethod d b) = .ok (v, d')) (h' : ∃ d', (do let d ← writeAll new cs'; sumMethod d b) = .ok (v, d')) :
    StepsCollide cs.flatten cs'.flatten := by
  obtain ⟨d1, e1⟩ := h
  obtain ⟨d2, e2⟩ := h'
  obtain ⟨d3, e3⟩ := C01_write_sum_conforms cs hc b
  obtain ⟨d4, e4⟩ := C01_write_sum_conforms cs' hc' b
  have f1 := (Prod.mk.inj (Res.ok.inj (e1.symm.trans e3))).1
  have f2 := (Prod.mk.inj (Res.ok.inj (e2.symm.trans e4))).1
  exact collide_of_hash hl hl' hne (List.append_cancel_left (f1.symm.trans f2))

/-- The padding of the empty message and of "a" differ, as do their hashes; the reduction speaks about one block each. -/
example : (pad []).length / 64 = 1 ∧ (pad [0x61]).length / 64 = 1 ∧ (pad (List.replicate 56 0)).length / 64 = 2 := by decide +kernel

end Verif.Props
