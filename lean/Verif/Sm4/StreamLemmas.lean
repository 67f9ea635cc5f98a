import Verif.Sm4.Stream
import Verif.Sm4.StreamSpec
import Verif.Sm4.Lemmas
import Mathlib.Data.List.Basic
import Mathlib.Tactic.NormNum
/-! Lemmas for the stream modes. -/
namespace Verif.Sm4
open Verif Verif.Spec.SM4

/-- The bytes `a, …, a + n - 1` of a stream. -/
def seg (f : Nat → Byte) (a n : Nat) : Bytes := (List.range n).map fun j => f (a + j)

@[simp] theorem length_seg (f : Nat → Byte) (a n : Nat) : (seg f a n).length = n := by simp [seg]

theorem seg_add (f : Nat → Byte) (a m n : Nat) : seg f a (m + n) = seg f a m ++ seg f (a + m) n := by
  unfold seg
  rw [List.range_add, List.map_append, List.map_map]
  congr 1
  apply List.map_congr_left
  intro j _
  simp [Nat.add_assoc]

theorem take_seg {f : Nat → Byte} {a m n : Nat} (h : m ≤ n) : (seg f a n).take m = seg f a m := by
  obtain ⟨k, rfl⟩ := Nat.exists_eq_add_of_le h
  rw [seg_add]
  exact List.take_left' (by simp)

theorem drop_seg {f : Nat → Byte} {a m n : Nat} (h : m ≤ n) : (seg f a n).drop m = seg f (a + m) (n - m) := by
  obtain ⟨k, rfl⟩ := Nat.exists_eq_add_of_le h
  rw [seg_add, Nat.add_sub_cancel_left]
  exact List.drop_left' (by simp)

/-- The bytes of a stream of blocks. -/
def bytesOf (ks : Nat → Bytes) (j : Nat) : Byte := (ks (j / 16)).getD (j % 16) 0

theorem seg_block {ks : Nat → Bytes} (hl : ∀ i, (ks i).length = 16) (q : Nat) : seg (bytesOf ks) (16 * q) 16 = ks q := by
  apply List.ext_getElem (by simp [hl])
  intro j h1 h2
  rw [hl] at h2
  simp only [seg, List.getElem_map, List.getElem_range, bytesOf]
  rw [show (16 * q + j) / 16 = q by omega, show (16 * q + j) % 16 = j by omega, List.getD_eq_getElem?_getD,
    List.getElem?_eq_getElem (by rw [hl]; exact h2)]
  rfl

theorem flatten_blocks {ks : Nat → Bytes} (hl : ∀ i, (ks i).length = 16) : ∀ n, ((List.range n).map ks).flatten = seg (bytesOf ks) 0 (16 * n)
  | 0 => by simp [seg]
  | n + 1 => by
    rw [List.range_succ, List.map_append, List.flatten_append, flatten_blocks hl n, Nat.mul_add, seg_add, Nat.zero_add, Nat.mul_one,
      seg_block hl]
    simp

theorem length_xor (a b : Bytes) : (Spec.SM4.xor a b).length = min a.length b.length := by simp [Spec.SM4.xor]

theorem xor_append {a b c d : Bytes} (h : a.length = c.length) :
    Spec.SM4.xor (a ++ b) (c ++ d) = Spec.SM4.xor a c ++ Spec.SM4.xor b d := by
  unfold Spec.SM4.xor
  exact List.zipWith_append h

theorem xor_take (a b : Bytes) (n : Nat) (h : a.length ≤ n) : Spec.SM4.xor a (b.take n) = Spec.SM4.xor a b := by
  unfold Spec.SM4.xor
  apply List.ext_getElem?
  intro i
  rw [List.getElem?_zipWith, List.getElem?_zipWith]
  rcases Nat.lt_or_ge i a.length with hi | hi
  · rw [List.getElem?_take, if_pos (by omega)]
  · rw [List.getElem?_eq_none hi]

theorem xor_involutive {a b : Bytes} (h : a.length ≤ b.length) : Spec.SM4.xor (Spec.SM4.xor a b) b = a := by
  unfold Spec.SM4.xor
  induction a generalizing b with
  | nil => simp
  | cons x a ih =>
    cases b with
    | nil => simp at h
    | cons y b =>
      simp only [List.zipWith_cons_cons, List.cons.injEq]
      refine ⟨?_, ih (by simpa using h)⟩
      rw [BitVec.xor_assoc, BitVec.xor_self, BitVec.xor_zero]

theorem xor_min (a b : Bytes) (n : Nat) (h : min a.length b.length ≤ n) : Spec.SM4.xor (a.take n) b = Spec.SM4.xor a b := by
  unfold Spec.SM4.xor
  apply List.ext_getElem?
  intro i
  rw [List.getElem?_zipWith, List.getElem?_zipWith, List.getElem?_take]
  by_cases h1 : i < n
  · rw [if_pos h1]
  · rw [if_neg h1]
    rcases Nat.lt_or_ge i a.length with hi | hi
    · rw [List.getElem?_eq_none (l := b) (by omega)]
      cases a[i]? <;> rfl
    · rw [List.getElem?_eq_none hi]

theorem xor_split (f : Nat → Byte) (p : Nat) {src : Bytes} {k n : Nat} (hn : min src.length k = n) :
    Spec.SM4.xor src (seg f p src.length) = Spec.SM4.xor src (seg f p k) ++ Spec.SM4.xor (src.drop n) (seg f (p + n) (src.drop n).length) := by
  have h1 : Spec.SM4.xor src (seg f p src.length) = Spec.SM4.xor (src.take n ++ src.drop n) (seg f p n ++ seg f (p + n) (src.drop n).length) := by
    rw [List.take_append_drop, ← seg_add, show n + (src.drop n).length = src.length by simp; omega]
  rw [h1, xor_append (by simp; omega)]
  congr 1
  have h5 := xor_take (src.take n) (seg f p k) n (by simp)
  rw [take_seg (by omega)] at h5
  rw [h5, xor_min _ _ _ (by rw [length_seg]; omega)]

theorem withStream_eq {ks : Nat → Bytes} (hl : ∀ i, (ks i).length = 16) (m : Bytes) :
    withStream ks m = Spec.SM4.xor m (seg (bytesOf ks) 0 m.length) := by
  unfold withStream
  rw [flatten_blocks hl, ← xor_take _ _ m.length (Nat.le_refl _), take_seg (by omega)]

theorem withStream_append {ks : Nat → Bytes} (hl : ∀ i, (ks i).length = 16) (h s : Bytes) :
    withStream ks (h ++ s) = withStream ks h ++ Spec.SM4.xor s (seg (bytesOf ks) h.length s.length) := by
  rw [withStream_eq hl, withStream_eq hl, List.length_append, seg_add, Nat.zero_add, xor_append (by simp)]

theorem length_withStream {ks : Nat → Bytes} (hl : ∀ i, (ks i).length = 16) (m : Bytes) : (withStream ks m).length = m.length := by
  rw [withStream_eq hl, length_xor]; simp

/-! ## One call and several calls -/

/-- The calls so far had the sources `h`: the next one writes what `F` adds for its source, and nothing behind it. -/
def StepOK {σ : Type} (f : σ → Bytes → Bytes → Res (Bytes × σ)) (F : Bytes → Bytes) (Inv : Bytes → σ → Prop) : Prop :=
  ∀ h x dst src, Inv h x → src.length ≤ dst.length →
    ∃ x', f x dst src = .ok ((F (h ++ src)).drop h.length ++ dst.drop src.length, x') ∧ Inv (h ++ src) x'

theorem calls_ok {σ : Type} {f : σ → Bytes → Bytes → Res (Bytes × σ)} {F : Bytes → Bytes} {Inv : Bytes → σ → Prop}
    (hs : StepOK f F Inv) (hF : ∀ m, (F m).length = m.length) (hp : ∀ h s, (F (h ++ s)).take h.length = F h) :
    ∀ (l : List (Bytes × Bytes)) (h : Bytes) (x : σ), Inv h x → (∀ c ∈ l, c.2.length ≤ c.1.length) →
    ∃ os, calls f x l = .ok os ∧ os.length = l.length ∧
      (List.zipWith (fun o c => o.take c.2.length) os l).flatten = (F (h ++ (l.map Prod.snd).flatten)).drop h.length ∧
      ∀ (i : Nat) (o : Bytes) (c : Bytes × Bytes), os[i]? = some o → l[i]? = some c → o.length = c.1.length ∧ o.drop c.2.length = c.1.drop c.2.length
  | [], h, x, _, _ => ⟨[], rfl, rfl, by simp [hF, List.drop_eq_nil_of_le], by simp⟩
  | (dst, src) :: l, h, x, hi, hl => by
    have hle : src.length ≤ dst.length := hl (dst, src) (by simp)
    obtain ⟨x', e1, hi'⟩ := hs h x dst src hi hle
    obtain ⟨os, e2, h1, h2, h3⟩ := calls_ok hs hF hp l (h ++ src) x' hi' fun c hc => hl c (by simp [hc])
    have hlen : ((F (h ++ src)).drop h.length).length = src.length := by simp [hF]
    refine ⟨_, by rw [calls, e1]; simp only [Res.ok_bind]; rw [e2]; rfl, by simp [h1], ?_, ?_⟩
    · simp only [List.zipWith_cons_cons, List.flatten_cons, List.map_cons, h2]
      rw [List.take_left' hlen, ← List.append_assoc]
      have h4 := hp (h ++ src) (l.map Prod.snd).flatten
      rw [← h4, List.drop_take]
      generalize F (h ++ src ++ (l.map Prod.snd).flatten) = w
      rw [List.length_append, Nat.add_sub_cancel_left, ← List.drop_drop, List.take_append_drop]
    · intro i o c ho hc
      cases i with
      | zero =>
        simp only [List.getElem?_cons_zero, Option.some.injEq] at ho hc
        subst ho hc
        refine ⟨by rw [List.length_append, hlen, List.length_drop]; dsimp only; omega, List.drop_left' hlen⟩
      | succ i =>
        simp only [List.getElem?_cons_succ] at ho hc
        exact h3 i o c ho hc

/-! ## Counter mode -/

theorem incrLoop_eq : ∀ (n : Nat) (xs ys : Bytes), xs.length = n → incrLoop n (xs ++ ys) = toBE n (beNat xs + 1) ++ ys
  | 0, xs, ys, h => by
    have : xs = [] := List.length_eq_zero_iff.1 h
    subst this; rfl
  | n + 1, xs, ys, h => by
    obtain ⟨zs, b, rfl⟩ : ∃ zs b, xs = zs ++ [b] := by
      rcases List.eq_nil_or_concat xs with rfl | ⟨zs, b, rfl⟩
      · simp at h
      · exact ⟨zs, b, by simp⟩
    have hz : zs.length = n := by simpa using h
    have hb := b.isLt
    have e1 : (zs ++ [b] ++ ys).getD n 0 = b := by
      rw [List.getD_eq_getElem?_getD, List.append_assoc, List.getElem?_append_right (by omega), hz]; simp
    have e2 : ∀ v : Byte, (zs ++ [b] ++ ys).set n v = zs ++ [v] ++ ys := by
      intro v
      rw [List.append_assoc, List.set_append_right _ _ (by omega), hz]; simp
    have e3 : ∀ v : Byte, (zs ++ [v] ++ ys).getD n 0 = v := by
      intro v
      rw [List.getD_eq_getElem?_getD, List.append_assoc, List.getElem?_append_right (by omega), hz]; simp
    rw [incrLoop, e1, e2]
    rw [e3, beNat_snoc, toBE]
    by_cases hc : b.toNat + 1 < 256
    · have hne : b + 1 ≠ 0 := by
        intro h0
        have := congrArg BitVec.toNat h0
        rw [BitVec.toNat_add] at this
        simp at this
        omega
      rw [if_pos hne, show (beNat zs * 256 + b.toNat + 1) / 256 = beNat zs by omega, toBE_beNat' hz]
      congr 3
      apply BitVec.eq_of_toNat_eq
      rw [BitVec.toNat_add, BitVec.toNat_ofNat]
      simp
      omega
    · have h0 : b + 1 = 0 := by
        apply BitVec.eq_of_toNat_eq
        rw [BitVec.toNat_add]
        simp
        omega
      rw [h0, if_neg (by simp), List.append_assoc, incrLoop_eq n zs _ hz, show (beNat zs * 256 + b.toNat + 1) / 256 = beNat zs + 1 by omega,
        List.append_assoc]
      congr 2
      have : (beNat zs * 256 + b.toNat + 1) = (beNat zs + 1) * 256 := by omega
      rw [this]
      congr 1
      apply BitVec.eq_of_toNat_eq
      simp

theorem incr_counter (iv q : Nat) : incrLoop 16 (toBE 16 ((iv + q) % 2 ^ 128)) = toBE 16 ((iv + (q + 1)) % 2 ^ 128) := by
  have h := incrLoop_eq 16 (toBE 16 ((iv + q) % 2 ^ 128)) [] (by simp)
  rw [List.append_nil, List.append_nil] at h
  rw [h, beNat_toBE_of_lt (lt_of_lt_of_eq (Nat.mod_lt _ (by norm_num)) (by norm_num))]
  apply beNat_inj (by simp)
  rw [beNat_toBE, beNat_toBE]
  norm_num
  omega

theorem overwrite_zero {a b : Bytes} : overwrite a 0 b = b ++ a.drop b.length := by simp [overwrite]

theorem encryptV_ok {key : Bytes} {c : Cipher} (hc : c.enc = expandKey key true) {dst src : Bytes} (hd : 16 ≤ dst.length)
    (hs : src.length = 16) : c.encryptV dst src = .ok (Spec.SM4.encrypt key src ++ dst.drop 16) := by
  unfold Cipher.encryptV
  rw [if_neg (by omega), if_neg (by omega), overwrite_zero, hc, length_processBlock, processBlock_enc]

theorem length_encrypt (key blk : Bytes) : (Spec.SM4.encrypt key blk).length = 16 := by rw [← processBlock_enc, length_processBlock]

theorem length_ctrBlock (key iv : Bytes) (i : Nat) : (ctrBlock key iv i).length = 16 := length_encrypt _ _

theorem ctrFill_ok {key iv : Bytes} {c : Cipher} (hc : c.enc = expandKey key true) (L : Nat) :
    ∀ (fuel q remain : Nat) (buf : Bytes), buf.length = L → remain ≤ L → L < fuel + remain →
    ∃ q' buf' remain', ctrFill c fuel (toBE 16 ((beNat iv + q) % 2 ^ 128)) buf remain
        = .ok (toBE 16 ((beNat iv + q') % 2 ^ 128), buf', remain') ∧
      buf'.length = L ∧ L < remain' + 16 ∧ remain' ≤ L ∧ q ≤ q' ∧ remain' = remain + 16 * (q' - q) ∧
      buf'.take remain' = buf.take remain ++ seg (bytesOf (ctrBlock key iv)) (16 * q) (16 * (q' - q))
  | fuel, q, remain, buf, hb, hr, hf => by
    rw [ctrFill.eq_def]
    dsimp only
    by_cases hcond : remain + 16 ≤ buf.length
    · rw [if_pos hcond]
      cases fuel with
      | zero => omega
      | succ fuel =>
        simp only []
        rw [encryptV_ok hc (by simp; omega) (by simp)]
        simp only [Res.ok_bind, length_toBE, incr_counter]
        have hl := length_ctrBlock key iv q
        have hb' : (buf.take remain ++ (ctrBlock key iv q ++ (buf.drop remain).drop 16)).length = L := by
          simp only [List.length_append, List.length_take, List.length_drop, hl]; omega
        obtain ⟨q', buf', remain', e, h1, h2, h3, h4, h5, h6⟩ :=
          ctrFill_ok hc L fuel (q + 1) (remain + 16) (buf.take remain ++ (ctrBlock key iv q ++ (buf.drop remain).drop 16))
            hb' (by omega) (by omega)
        refine ⟨q', buf', remain', e, h1, h2, h3, by omega, by omega, ?_⟩
        have ht : (buf.take remain ++ (ctrBlock key iv q ++ (buf.drop remain).drop 16)).take (remain + 16) = buf.take remain ++ ctrBlock key iv q := by
          rw [← List.append_assoc]
          exact List.take_left' (by simp only [List.length_append, List.length_take, hl]; omega)
        rw [h6, ht, show 16 * (q' - q) = 16 + 16 * (q' - (q + 1)) by omega, seg_add, seg_block (length_ctrBlock key iv), ← List.append_assoc,
          show 16 * q + 16 = 16 * (q + 1) by omega]
    · rw [if_neg hcond]
      exact ⟨q, buf, remain, rfl, hb, by omega, hr, le_rfl, by simp, by simp [seg]⟩

/-- The object after `p` bytes. -/
def CtrInv (key iv : Bytes) (p : Nat) (x : Ctr) : Prop :=
  x.b.enc = expandKey key true ∧ x.buf.length = 512 ∧ x.used ≤ x.len ∧ x.len ≤ 512 ∧
  ∃ q, x.ctr = toBE 16 ((beNat iv + q) % 2 ^ 128) ∧ p + (x.len - x.used) = 16 * q ∧
    (x.buf.take x.len).drop x.used = seg (bytesOf (ctrBlock key iv)) p (x.len - x.used)

theorem ctr_refill {key iv : Bytes} {p : Nat} {x : Ctr} (h : CtrInv key iv p x) :
    ∃ x', x.refill = .ok x' ∧ CtrInv key iv p x' ∧ x'.used + 16 < x'.len := by
  obtain ⟨hc, hb, hu, hl, q, h1, h2, h3⟩ := h
  have hbl : (overwrite x.buf 0 ((x.buf.take x.len).drop x.used)).length = 512 := by
    rw [overwrite_zero]; simp; omega
  have hbt : (overwrite x.buf 0 ((x.buf.take x.len).drop x.used)).take (x.len - x.used) = (x.buf.take x.len).drop x.used := by
    rw [overwrite_zero]
    exact List.take_left' (by simp; omega)
  obtain ⟨q', buf', remain', e, g1, g2, g3, g4, g5, g6⟩ := ctrFill_ok (iv := iv) hc 512 (512 + 1) q (x.len - x.used) _ hbl (by omega) (by omega)
  refine ⟨{ x with ctr := toBE 16 ((beNat iv + q') % 2 ^ 128), buf := buf', len := remain', used := 0 }, ?_, ?_, by dsimp only; omega⟩
  · unfold Ctr.refill
    dsimp only
    rw [hbl, h1, e]
    rfl
  · refine ⟨hc, g1, Nat.zero_le _, g3, q', rfl, by dsimp only; omega, ?_⟩
    dsimp only
    rw [List.drop_zero, g6, hbt, h3, Nat.sub_zero, g5, seg_add]
    congr 2
    omega

theorem ctr_step {key iv : Bytes} {p n : Nat} {x : Ctr} (h : CtrInv key iv p x) (hn : n ≤ x.len - x.used) :
    CtrInv key iv (p + n) { x with used := x.used + n } := by
  obtain ⟨hc, hb, hu, hl, q, h1, h2, h3⟩ := h
  refine ⟨hc, hb, by dsimp only; omega, hl, q, h1, by dsimp only; omega, ?_⟩
  dsimp only
  rw [← List.drop_drop, h3, drop_seg hn]
  congr 1
  omega

theorem xorV_ok {dst src ks : Bytes} (h : src.length ≤ dst.length) :
    xorV dst src ks = .ok (min src.length ks.length, Spec.SM4.xor src ks ++ dst.drop (min src.length ks.length)) := by
  unfold xorV
  dsimp only
  rw [if_neg (by omega), overwrite_zero]
  congr 3
  simp [xorBytes]

theorem ctrLoop_ok {key iv : Bytes} : ∀ (fuel p : Nat) (x : Ctr) (done dst src : Bytes), CtrInv key iv p x → src.length ≤ dst.length →
    src.length < fuel → ∃ x', ctrLoop fuel x done dst src
      = .ok (done ++ Spec.SM4.xor src (seg (bytesOf (ctrBlock key iv)) p src.length) ++ dst.drop src.length, x') ∧
      CtrInv key iv (p + src.length) x'
  | 0, _, _, _, _, _, _, _, hf => by omega
  | fuel + 1, p, x, done, dst, src, hi, hd, hf => by
    rw [ctrLoop]
    by_cases hs : src.length > 0
    · rw [if_pos hs]
      simp only []
      obtain ⟨y, ey, hy, hlt⟩ : ∃ y, x.ready = .ok y ∧ CtrInv key iv p y ∧ y.used + 16 < y.len := by
        unfold Ctr.ready
        split
        · exact ctr_refill hi
        · exact ⟨x, rfl, hi, by omega⟩
      rw [ey]
      simp only [Res.ok_bind]
      obtain ⟨q, _, _, h3⟩ := hy.2.2.2.2
      rw [h3, xorV_ok hd, length_seg]
      simp only [Res.ok_bind]
      generalize hn : min src.length (y.len - y.used) = n
      have hlen : (Spec.SM4.xor src (seg (bytesOf (ctrBlock key iv)) p (y.len - y.used))).length = n := by
        rw [length_xor, length_seg, hn]
      rw [List.take_left' hlen, List.drop_left' hlen]
      obtain ⟨x', e, hx'⟩ := ctrLoop_ok fuel (p + n) { y with used := y.used + n }
        (done ++ Spec.SM4.xor src (seg (bytesOf (ctrBlock key iv)) p (y.len - y.used))) (dst.drop n) (src.drop n)
        (ctr_step hy (by omega)) (by simp; omega) (by simp; omega)
      refine ⟨x', ?_, ?_⟩
      · rw [e]
        congr 2
        rw [List.drop_drop, show n + (src.drop n).length = src.length by simp; omega, xor_split (bytesOf (ctrBlock key iv)) p hn, List.append_assoc done]
      · rw [show p + src.length = p + n + (src.drop n).length by simp; omega]
        exact hx'
    · rw [if_neg hs]
      have : src = [] := List.length_eq_zero_iff.1 (by omega)
      subst this
      exact ⟨x, by simp [Spec.SM4.xor], by simpa using hi⟩

/-! ## Output feedback -/

/-- The register after `q` blocks. -/
def ofbReg (key iv : Bytes) : Nat → Bytes
  | 0 => iv
  | q + 1 => ofbBlock key iv q

theorem ofbReg_succ (key iv : Bytes) (q : Nat) : ofbReg key iv (q + 1) = Spec.SM4.encrypt key (ofbReg key iv q) := by
  cases q <;> rfl

theorem length_ofbBlock (key iv : Bytes) (i : Nat) : (ofbBlock key iv i).length = 16 := by
  cases i <;> exact length_encrypt _ _

theorem length_ofbReg {iv : Bytes} (hiv : iv.length = 16) (key : Bytes) (q : Nat) : (ofbReg key iv q).length = 16 := by
  cases q
  · exact hiv
  · exact length_ofbBlock _ _ _

theorem ofbFill_ok {key iv : Bytes} (hiv : iv.length = 16) {c : Cipher} (hc : c.enc = expandKey key true) (L : Nat) :
    ∀ (fuel q remain : Nat) (buf : Bytes), buf.length = L → remain ≤ L → L < fuel + remain →
    ∃ q' buf' remain', ofbFill c fuel (ofbReg key iv q) buf remain = .ok (ofbReg key iv q', buf', remain') ∧
      buf'.length = L ∧ L ≤ remain' + 16 ∧ remain' ≤ L ∧ q ≤ q' ∧ remain' = remain + 16 * (q' - q) ∧
      buf'.take remain' = buf.take remain ++ seg (bytesOf (ofbBlock key iv)) (16 * q) (16 * (q' - q))
  | fuel, q, remain, buf, hb, hr, hf => by
    rw [ofbFill.eq_def]
    dsimp only
    by_cases hcond : remain + 16 < buf.length
    · rw [if_pos hcond]
      cases fuel with
      | zero => omega
      | succ fuel =>
        have hreg := length_ofbReg hiv key q
        simp only []
        rw [encryptV_ok hc (by omega) hreg, List.drop_eq_nil_of_le (by omega), List.append_nil]
        simp only [Res.ok_bind]
        rw [← ofbReg_succ]
        have hl : (ofbReg key iv (q + 1)).length = 16 := length_ofbReg hiv key (q + 1)
        rw [List.take_of_length_le (by omega)]
        have hb' : (overwrite buf remain (ofbReg key iv (q + 1))).length = L := by rw [length_overwrite (by omega), hb]
        obtain ⟨q', buf', remain', e, h1, h2, h3, h4, h5, h6⟩ :=
          ofbFill_ok hiv hc L fuel (q + 1) (remain + 16) (overwrite buf remain (ofbReg key iv (q + 1))) hb' (by omega) (by omega)
        refine ⟨q', buf', remain', e, h1, h2, h3, by omega, by omega, ?_⟩
        have ht : (overwrite buf remain (ofbReg key iv (q + 1))).take (remain + 16) = buf.take remain ++ ofbBlock key iv q := by
          unfold overwrite
          exact List.take_left' (by simp only [List.length_append, List.length_take, hl]; omega)
        rw [h6, ht, show 16 * (q' - q) = 16 + 16 * (q' - (q + 1)) by omega, seg_add, seg_block (length_ofbBlock key iv), ← List.append_assoc,
          show 16 * q + 16 = 16 * (q + 1) by omega]
    · rw [if_neg hcond]
      exact ⟨q, buf, remain, rfl, hb, by omega, hr, le_rfl, by simp, by simp [seg]⟩

/-- The object after `p` bytes. -/
def OfbInv (key iv : Bytes) (p : Nat) (x : Ofb) : Prop :=
  x.b.enc = expandKey key true ∧ x.buf.length = 512 ∧ x.used ≤ x.len ∧ x.len ≤ 512 ∧
  ∃ q, x.cipher = ofbReg key iv q ∧ p + (x.len - x.used) = 16 * q ∧
    (x.buf.take x.len).drop x.used = seg (bytesOf (ofbBlock key iv)) p (x.len - x.used)

theorem ofb_ready {key iv : Bytes} (hiv : iv.length = 16) {p : Nat} {x : Ofb} (h : OfbInv key iv p x) :
    ∃ x', x.ready = .ok x' ∧ OfbInv key iv p x' ∧ x'.used < x'.len := by
  have h0 := h
  obtain ⟨hc, hb, hu, hl, q, h1, h2, h3⟩ := h
  unfold Ofb.ready
  by_cases hr : x.len ≤ x.used + 16
  · rw [if_pos hr]
    unfold Ofb.refill
    dsimp only
    by_cases hr2 : x.len - x.used > x.used
    · rw [if_pos hr2]
      exact ⟨x, rfl, h0, by omega⟩
    · rw [if_neg hr2]
      have hbl : (overwrite x.buf 0 ((x.buf.take x.len).drop x.used)).length = 512 := by
        rw [overwrite_zero]; simp; omega
      have hbt : (overwrite x.buf 0 ((x.buf.take x.len).drop x.used)).take (x.len - x.used) = (x.buf.take x.len).drop x.used := by
        rw [overwrite_zero]
        exact List.take_left' (by simp; omega)
      obtain ⟨q', buf', remain', e, g1, g2, g3, g4, g5, g6⟩ :=
        ofbFill_ok hiv hc 512 (512 + 1) q (x.len - x.used) _ hbl (by omega) (by omega)
      refine ⟨{ x with cipher := ofbReg key iv q', buf := buf', len := remain', used := 0 }, ?_, ?_, by dsimp only; omega⟩
      · rw [hbl, h1, e]
        rfl
      · refine ⟨hc, g1, Nat.zero_le _, g3, q', rfl, by dsimp only; omega, ?_⟩
        dsimp only
        rw [List.drop_zero, g6, hbt, h3, Nat.sub_zero, g5, seg_add]
        congr 2
        omega
  · rw [if_neg hr]
    exact ⟨x, rfl, h0, by omega⟩

theorem ofb_step {key iv : Bytes} {p n : Nat} {x : Ofb} (h : OfbInv key iv p x) (hn : n ≤ x.len - x.used) :
    OfbInv key iv (p + n) { x with used := x.used + n } := by
  obtain ⟨hc, hb, hu, hl, q, h1, h2, h3⟩ := h
  refine ⟨hc, hb, by dsimp only; omega, hl, q, h1, by dsimp only; omega, ?_⟩
  dsimp only
  rw [← List.drop_drop, h3, drop_seg hn]
  congr 1
  omega

theorem ofbLoop_ok {key iv : Bytes} (hiv : iv.length = 16) : ∀ (fuel p : Nat) (x : Ofb) (done dst src : Bytes), OfbInv key iv p x →
    src.length ≤ dst.length → src.length < fuel → ∃ x', ofbLoop fuel x done dst src
      = .ok (done ++ Spec.SM4.xor src (seg (bytesOf (ofbBlock key iv)) p src.length) ++ dst.drop src.length, x') ∧
      OfbInv key iv (p + src.length) x'
  | 0, _, _, _, _, _, _, _, hf => by omega
  | fuel + 1, p, x, done, dst, src, hi, hd, hf => by
    rw [ofbLoop]
    by_cases hs : src.length > 0
    · rw [if_pos hs]
      simp only []
      obtain ⟨y, ey, hy, hlt⟩ := ofb_ready hiv hi
      rw [ey]
      simp only [Res.ok_bind]
      obtain ⟨q, _, _, h3⟩ := hy.2.2.2.2
      rw [h3, xorV_ok hd, length_seg]
      simp only [Res.ok_bind]
      generalize hn : min src.length (y.len - y.used) = n
      have hlen : (Spec.SM4.xor src (seg (bytesOf (ofbBlock key iv)) p (y.len - y.used))).length = n := by
        rw [length_xor, length_seg, hn]
      rw [List.take_left' hlen, List.drop_left' hlen]
      obtain ⟨x', e, hx'⟩ := ofbLoop_ok hiv fuel (p + n) { y with used := y.used + n }
        (done ++ Spec.SM4.xor src (seg (bytesOf (ofbBlock key iv)) p (y.len - y.used))) (dst.drop n) (src.drop n)
        (ofb_step hy (by omega)) (by simp; omega) (by simp; omega)
      refine ⟨x', ?_, ?_⟩
      · rw [e]
        congr 2
        rw [List.drop_drop, show n + (src.drop n).length = src.length by simp; omega, xor_split (bytesOf (ofbBlock key iv)) p hn, List.append_assoc done]
      · rw [show p + src.length = p + n + (src.drop n).length by simp; omega]
        exact hx'
    · rw [if_neg hs]
      have : src = [] := List.length_eq_zero_iff.1 (by omega)
      subst this
      exact ⟨x, by simp [Spec.SM4.xor], by simpa using hi⟩

/-! ## Cipher feedback -/

/-- The last complete block of the ciphertext so far. -/
def lastFull (iv c : Bytes) : Bytes := if c.length / 16 = 0 then iv else blk c (c.length / 16 - 1)

/-- What the next bytes are masked with. -/
def cfbMask (key iv c : Bytes) : Bytes := (Spec.SM4.encrypt key (lastFull iv c)).drop (c.length % 16)

theorem length_cfbMask (key iv c : Bytes) : (cfbMask key iv c).length = 16 - c.length % 16 := by
  unfold cfbMask; rw [List.length_drop, length_encrypt]

/-- The object when the ciphertext so far is `c`. -/
def CfbInv (key iv c : Bytes) (x : Cfb) : Prop :=
  x.b.enc = expandKey key true ∧ x.next.length = 16 ∧ x.out.length = 16 ∧
  ((x.used = 16 ∧ c.length % 16 = 0 ∧ x.next = lastFull iv c) ∨
   (x.used = c.length % 16 ∧ x.out = Spec.SM4.encrypt key (lastFull iv c) ∧ x.next.take x.used = c.drop (16 * (c.length / 16))))

theorem length_lastFull {iv : Bytes} (hiv : iv.length = 16) (c : Bytes) : (lastFull iv c).length = 16 := by
  unfold lastFull
  split
  · exact hiv
  · unfold blk; simp; omega

theorem cfb_ready {key iv c : Bytes} {x : Cfb} (h : CfbInv key iv c x) :
    ∃ x', x.ready = .ok x' ∧ CfbInv key iv c x' ∧ x'.used = c.length % 16 ∧ x'.out = Spec.SM4.encrypt key (lastFull iv c) ∧
      x'.next.take x'.used = c.drop (16 * (c.length / 16)) ∧ x'.decrypt = x.decrypt := by
  have h0 := h
  obtain ⟨hc, hn, ho, ⟨h1, h2, h3⟩ | ⟨h1, h2, h3⟩⟩ := h
  · unfold Cfb.ready
    rw [if_pos (by omega), encryptV_ok hc (by omega) hn, List.drop_eq_nil_of_le (by omega), List.append_nil]
    simp only [Res.ok_bind]
    have h4 : ([] : Bytes) = c.drop (16 * (c.length / 16)) := (List.drop_eq_nil_of_le (by omega)).symm
    refine ⟨_, rfl, ⟨hc, hn, length_encrypt _ _, .inr ⟨by dsimp only; omega, by dsimp only; rw [h3], ?_⟩⟩, by dsimp only; omega,
      by dsimp only; rw [h3], ?_, rfl⟩
    · dsimp only; rw [List.take_zero]; exact h4
    · dsimp only; rw [List.take_zero]; exact h4
  · unfold Cfb.ready
    rw [if_neg (by omega)]
    exact ⟨x, rfl, h0, h1, h2, h3, rfl⟩

/-- The object after `n` further bytes `y` of the ciphertext; what is fed may be longer. -/
theorem cfb_feed {key iv c y s : Bytes} {x : Cfb} {n : Nat} (h : CfbInv key iv c x) (hu : x.used = c.length % 16)
    (ho : x.out = Spec.SM4.encrypt key (lastFull iv c)) (ht : x.next.take x.used = c.drop (16 * (c.length / 16)))
    (hn : c.length % 16 + n ≤ 16) (hpos : 0 < n) (hy : s.take n = y) (hs : n ≤ s.length) :
    CfbInv key iv (c ++ y) { x.feed s with used := x.used + n } := by
  obtain ⟨hc, hnl, hol, _⟩ := h
  have hyl : y.length = n := by rw [← hy]; simp; omega
  have hcl : (c ++ y).length = c.length + n := by simp [hyl]
  have hfl : (s.take (x.next.length - x.used)).length ≤ 16 - x.used := by simp; omega
  have hnext : (x.feed s).next = overwrite x.next x.used (s.take (16 - x.used)) := by rw [Cfb.feed, hnl]
  have hlen : (x.feed s).next.length = 16 := by rw [hnext, length_overwrite (by simp; omega), hnl]
  have htake : (x.feed s).next.take (x.used + n) = c.drop (16 * (c.length / 16)) ++ y := by
    rw [hnext]
    unfold overwrite
    rw [List.append_assoc, ht, List.take_append, show (c.drop (16 * (c.length / 16))).length = x.used by simp; omega,
      List.take_of_length_le (l := c.drop _) (by simp; omega), show x.used + n - x.used = n by omega,
      List.take_append_of_le_length (by simp; omega), List.take_take, show min n (16 - x.used) = n by omega, hy]
  refine ⟨hc, hlen, hol, ?_⟩
  rcases Nat.lt_or_ge (c.length % 16 + n) 16 with hlt | hge
  · right
    have hq : (c ++ y).length / 16 = c.length / 16 := by rw [hcl]; omega
    have hlast : lastFull iv (c ++ y) = lastFull iv c := by
      unfold lastFull
      rw [hq]
      split
      · rfl
      · unfold blk
        rw [List.drop_append_of_le_length (by omega), List.take_append_of_le_length (by simp; omega)]
    refine ⟨by dsimp only; omega, by dsimp only; rw [hlast]; exact ho, ?_⟩
    dsimp only
    rw [hq, htake, List.drop_append_of_le_length (by omega)]
  · left
    have hq : (c ++ y).length / 16 = c.length / 16 + 1 := by rw [hcl]; omega
    refine ⟨by dsimp only; omega, by omega, ?_⟩
    dsimp only
    unfold lastFull
    rw [hq, if_neg (by omega), Nat.add_sub_cancel]
    unfold blk
    rw [List.drop_append_of_le_length (by omega), List.take_of_length_le (by simp; omega), ← htake, List.take_of_length_le (by omega)]

/-- What the two directions have in common: `f` gives the output and `g` the ciphertext for the sources so far. -/
structure CfbSpec (key iv : Bytes) (dec : Bool) (f g : Bytes → Bytes) : Prop where
  len : ∀ m, (f m).length = m.length
  glen : ∀ m, (g m).length = m.length
  step : ∀ h s, h.length % 16 + s.length ≤ 16 → f (h ++ s) = f h ++ Spec.SM4.xor s (cfbMask key iv (g h))
  gstep : ∀ h s, h.length % 16 + s.length ≤ 16 → g (h ++ s) = g h ++ (if dec then s else Spec.SM4.xor s (cfbMask key iv (g h)))

theorem cfb_prefix {key iv : Bytes} {dec : Bool} {f g : Bytes → Bytes} (hfg : CfbSpec key iv dec f g) :
    ∀ (k : Nat) (s : Bytes), s.length ≤ k → ∀ h, (f (h ++ s)).take h.length = f h
  | k, [], _, h => by rw [List.append_nil, List.take_of_length_le (by rw [hfg.len])]
  | 0, _ :: _, hk, _ => by simp at hk
  | k + 1, b :: s, hk, h => by
    generalize hn : min (b :: s).length (16 - h.length % 16) = n
    have h16 := Nat.mod_lt h.length (show 16 > 0 by omega)
    have hb : (b :: s).length = s.length + 1 := rfl
    have h1 := cfb_prefix hfg k ((b :: s).drop n) (by rw [List.length_drop]; omega) (h ++ (b :: s).take n)
    rw [List.append_assoc, List.take_append_drop, hfg.step h ((b :: s).take n) (by rw [List.length_take]; omega)] at h1
    have h2 := congrArg (List.take h.length) h1
    rw [List.take_take, List.length_append, show min h.length (h.length + ((b :: s).take n).length) = h.length by omega,
      List.take_left' (hfg.len h)] at h2
    exact h2

theorem cfbLoop_ok {key iv : Bytes} {dec : Bool} {f g : Bytes → Bytes} (hfg : CfbSpec key iv dec f g) :
    ∀ (fuel : Nat) (h : Bytes) (x : Cfb) (done dst src : Bytes), CfbInv key iv (g h) x → x.decrypt = dec → src.length ≤ dst.length →
    src.length < fuel → ∃ x', cfbLoop fuel x done dst src = .ok (done ++ (f (h ++ src)).drop h.length ++ dst.drop src.length, x') ∧
      CfbInv key iv (g (h ++ src)) x' ∧ x'.decrypt = dec
  | 0, _, _, _, _, _, _, _, _, hf => by omega
  | fuel + 1, h, x, done, dst, src, hi, hx, hd, hf => by
    rw [cfbLoop]
    by_cases hs : src.length > 0
    · rw [if_pos hs]
      simp only []
      obtain ⟨y, ey, hy, h1, h2, h3, h4⟩ := cfb_ready hi
      rw [ey]
      simp only [Res.ok_bind]
      have hgl := hfg.glen h
      have hmask : y.out.drop y.used = cfbMask key iv (g h) := by rw [h1, h2]; rfl
      have hml := length_cfbMask key iv (g h)
      have hout : (if y.decrypt then y.feed src else y).out.drop (if y.decrypt then y.feed src else y).used = cfbMask key iv (g h) := by
        split <;> exact hmask
      rw [hout, xorV_ok hd, hml]
      simp only [Res.ok_bind]
      generalize hn : min src.length (16 - (g h).length % 16) = n
      have hlen : (Spec.SM4.xor src (cfbMask key iv (g h))).length = n := by rw [length_xor, hml, hn]
      have hst : (src.take n).length = n := by simp; omega
      have hxs : Spec.SM4.xor (src.take n) (cfbMask key iv (g h)) = Spec.SM4.xor src (cfbMask key iv (g h)) :=
        xor_min _ _ _ (by rw [hml]; omega)
      have hf1 := hfg.step h (src.take n) (by omega)
      have hg1 := hfg.gstep h (src.take n) (by omega)
      rw [hxs] at hf1 hg1
      rw [List.take_left' hlen, List.drop_left' hlen]
      have key1 : ∃ z, (if (if y.decrypt then y.feed src else y).decrypt then (if y.decrypt then y.feed src else y)
          else (if y.decrypt then y.feed src else y).feed (Spec.SM4.xor src (cfbMask key iv (g h)) ++ dst.drop n)) = z ∧
          CfbInv key iv (g (h ++ src.take n)) { z with used := z.used + n } ∧ z.decrypt = dec := by
        refine ⟨_, rfl, ?_⟩
        rw [h4, hx]
        cases dec with
        | true =>
          have hz : (if true = true then y.feed src else y).decrypt = true := by
            show y.decrypt = true
            rw [h4, hx]
          rw [hz]
          refine ⟨?_, hz⟩
          rw [hg1]
          exact cfb_feed hy h1 h2 h3 (by omega) (by omega) rfl (by omega)
        | false =>
          have hz : (if false = true then y.feed src else y).decrypt = false := by
            show y.decrypt = false
            rw [h4, hx]
          rw [hz]
          refine ⟨?_, hz⟩
          rw [hg1]
          exact cfb_feed hy h1 h2 h3 (by omega) (by omega) (List.take_left' hlen) (by rw [List.length_append, hlen]; omega)
      obtain ⟨z, ez, hzi, hzd⟩ := key1
      rw [ez]
      obtain ⟨x', e, hx', hxd⟩ := cfbLoop_ok hfg fuel (h ++ src.take n) { z with used := z.used + n }
        (done ++ Spec.SM4.xor src (cfbMask key iv (g h))) (dst.drop n) (src.drop n) hzi hzd (by simp; omega) (by simp; omega)
      rw [List.append_assoc h, List.take_append_drop] at e hx'
      refine ⟨x', ?_, hx', hxd⟩
      rw [e]
      congr 2
      rw [List.drop_drop, show n + (src.drop n).length = src.length by simp; omega]
      congr 1
      rw [List.append_assoc]
      congr 1
      have hp := cfb_prefix hfg src.length (src.drop n) (by simp) (h ++ src.take n)
      rw [List.append_assoc h, List.take_append_drop, hf1] at hp
      generalize f (h ++ src) = w at hp ⊢
      have hw : w = f h ++ (Spec.SM4.xor src (cfbMask key iv (g h)) ++ w.drop (h ++ src.take n).length) := by
        rw [← List.append_assoc, ← hp, List.take_append_drop]
      conv_rhs => rw [hw, List.drop_left' (hfg.len h)]
    · rw [if_neg hs]
      have : src = [] := List.length_eq_zero_iff.1 (by omega)
      subst this
      exact ⟨x, by simp [List.drop_eq_nil_of_le, hfg.len], by simpa using hi, hx⟩

theorem length_flatten_blocks {ks : Nat → Bytes} : ∀ n, (∀ i, i < n → (ks i).length = 16) → ((List.range n).map ks).flatten.length = 16 * n
  | 0, _ => by simp
  | n + 1, h => by
    rw [List.range_succ, List.map_append, List.flatten_append, List.length_append, length_flatten_blocks n fun i hi => h i (by omega)]
    simp [h n]
    omega

theorem split_blocks {ks : Nat → Bytes} {len q : Nat} (h1 : 16 * q ≤ len) (h2 : len ≤ 16 * q + 16) (hnil : len = 16 * q → ks q = []) :
    ((List.range ((len + 15) / 16)).map ks).flatten = ((List.range q).map ks).flatten ++ ks q := by
  rcases Nat.eq_or_lt_of_le h1 with h | h
  · rw [show (len + 15) / 16 = q by omega, hnil h.symm, List.append_nil]
  · rw [show (len + 15) / 16 = q + 1 by omega, List.range_succ, List.map_append, List.flatten_append]
    simp

theorem xor_nil (b : Bytes) : Spec.SM4.xor [] b = [] := rfl

theorem xor_mask {a s e : Bytes} (h : a.length ≤ e.length) :
    Spec.SM4.xor (a ++ s) e = Spec.SM4.xor a e ++ Spec.SM4.xor s (e.drop a.length) := by
  conv_lhs => rw [← List.take_append_drop a.length e]
  rw [xor_append (by simp; omega), xor_take _ _ _ le_rfl]

theorem blk_eq_drop {m : Bytes} {q : Nat} (h : m.length ≤ 16 * q + 16) : blk m q = m.drop (16 * q) := by
  unfold blk
  exact List.take_of_length_le (by simp; omega)

theorem length_blk_full {m : Bytes} {i : Nat} (h : 16 * i + 16 ≤ m.length) : (blk m i).length = 16 := by unfold blk; simp; omega

theorem blk_append {h s : Bytes} {i : Nat} (hi : 16 * i + 16 ≤ h.length) : blk (h ++ s) i = blk h i := by
  unfold blk
  rw [List.drop_append_of_le_length (by omega), List.take_append_of_le_length (by simp; omega)]

theorem cfbBlock_append (key iv h s : Bytes) : ∀ i, 16 * i ≤ h.length → cfbBlock key iv (h ++ s) i = cfbBlock key iv h i
  | 0, _ => rfl
  | i + 1, hi => by rw [cfbBlock, cfbBlock, cfbBlock_append key iv h s i (by omega), blk_append (by omega)]

theorem cfbEncrypt_split {key iv m : Bytes} {q : Nat} (h1 : 16 * q ≤ m.length) (h2 : m.length ≤ 16 * q + 16) :
    cfbEncrypt key iv m = ((List.range q).map fun i => cfbBlock key iv m (i + 1)).flatten ++
      Spec.SM4.xor (m.drop (16 * q)) (Spec.SM4.encrypt key (cfbBlock key iv m q)) := by
  unfold cfbEncrypt
  rw [split_blocks h1 h2 (fun h => by rw [cfbBlock, blk_eq_drop h2, List.drop_eq_nil_of_le (by omega), xor_nil]), cfbBlock, blk_eq_drop h2]

theorem length_cfbBlocks {key iv m : Bytes} {q : Nat} (h1 : 16 * q ≤ m.length) :
    ((List.range q).map fun i => cfbBlock key iv m (i + 1)).flatten.length = 16 * q :=
  length_flatten_blocks q fun i hi => by rw [cfbBlock, length_xor, length_encrypt, length_blk_full (by omega)]; rfl

theorem length_cfbEncrypt (key iv m : Bytes) : (cfbEncrypt key iv m).length = m.length := by
  rw [cfbEncrypt_split (q := m.length / 16) (by omega) (by omega), List.length_append, length_cfbBlocks (by omega), length_xor, length_encrypt,
    List.length_drop]
  omega

theorem lastFull_cfbEncrypt (key iv m : Bytes) : lastFull iv (cfbEncrypt key iv m) = cfbBlock key iv m (m.length / 16) := by
  unfold lastFull
  rw [length_cfbEncrypt]
  split
  · rename_i h; rw [h]; rfl
  · rename_i h
    obtain ⟨q, hq⟩ := Nat.exists_eq_succ_of_ne_zero h
    rw [cfbEncrypt_split (q := m.length / 16) (by omega) (by omega), hq]
    simp only [Nat.succ_eq_add_one, Nat.add_sub_cancel]
    rw [List.range_succ, List.map_append, List.flatten_append, List.append_assoc]
    unfold blk
    rw [List.drop_left' (length_cfbBlocks (by omega))]
    simp only [List.map_cons, List.map_nil, List.flatten_cons, List.flatten_nil, List.append_nil]
    exact List.take_left' (by rw [cfbBlock, length_xor, length_encrypt, length_blk_full (by omega)]; rfl)

theorem cfbSpec_enc (key iv : Bytes) : CfbSpec key iv false (cfbEncrypt key iv) (cfbEncrypt key iv) := by
  have hstep : ∀ h s : Bytes, h.length % 16 + s.length ≤ 16 → cfbEncrypt key iv (h ++ s) =
      cfbEncrypt key iv h ++ Spec.SM4.xor s (cfbMask key iv (cfbEncrypt key iv h)) := by
    intro h s hs
    have hm : cfbMask key iv (cfbEncrypt key iv h) = (Spec.SM4.encrypt key (cfbBlock key iv h (h.length / 16))).drop (h.length % 16) := by
      unfold cfbMask
      rw [lastFull_cfbEncrypt, length_cfbEncrypt]
    rw [hm, cfbEncrypt_split (m := h ++ s) (q := h.length / 16) (by simp; omega) (by simp; omega),
      cfbEncrypt_split (m := h) (q := h.length / 16) (by omega) (by omega),
      List.drop_append_of_le_length (by omega), cfbBlock_append _ _ _ _ _ (by omega), xor_mask (by rw [length_encrypt]; simp; omega),
      List.append_assoc]
    congr 1
    · congr 1
      apply List.map_congr_left
      intro i hi
      have := List.mem_range.1 hi
      exact cfbBlock_append _ _ _ _ _ (by omega)
    · congr 3
      simp; omega
  exact ⟨length_cfbEncrypt key iv, length_cfbEncrypt key iv, hstep, hstep⟩

theorem cfbDecrypt_split {key iv c : Bytes} {q : Nat} (h1 : 16 * q ≤ c.length) (h2 : c.length ≤ 16 * q + 16) :
    cfbDecrypt key iv c = ((List.range q).map fun i => Spec.SM4.xor (blk c i) (Spec.SM4.encrypt key (if i = 0 then iv else blk c (i - 1)))).flatten ++
      Spec.SM4.xor (c.drop (16 * q)) (Spec.SM4.encrypt key (if q = 0 then iv else blk c (q - 1))) := by
  unfold cfbDecrypt
  rw [split_blocks h1 h2 (fun h => by rw [blk_eq_drop h2, List.drop_eq_nil_of_le (by omega), xor_nil]), blk_eq_drop h2]

theorem length_cfbDecrypt (key iv c : Bytes) : (cfbDecrypt key iv c).length = c.length := by
  rw [cfbDecrypt_split (q := c.length / 16) (by omega) (by omega), List.length_append, length_xor, length_encrypt,
    List.length_drop, length_flatten_blocks (c.length / 16) fun i hi => by rw [length_xor, length_encrypt, length_blk_full (by omega)]; rfl]
  omega

theorem cfbSpec_dec (key iv : Bytes) : CfbSpec key iv true (cfbDecrypt key iv) id := by
  refine ⟨length_cfbDecrypt key iv, fun _ => rfl, fun h s hs => ?_, fun h s hs => by simp⟩
  rw [cfbDecrypt_split (c := h ++ s) (q := h.length / 16) (by simp; omega) (by simp; omega),
    cfbDecrypt_split (c := h) (q := h.length / 16) (by omega) (by omega), List.drop_append_of_le_length (by omega),
    xor_mask (by rw [length_encrypt]; simp; omega), List.append_assoc]
  have hprev : ∀ q, 16 * q ≤ h.length → (if q = 0 then iv else blk (h ++ s) (q - 1)) = if q = 0 then iv else blk h (q - 1) := by
    intro q hq
    split
    · rfl
    · exact blk_append (by omega)
  rw [hprev _ (by omega)]
  congr 1
  · congr 1
    apply List.map_congr_left
    intro i hi
    have := List.mem_range.1 hi
    rw [hprev _ (by omega), blk_append (by omega)]
  · congr 2
    unfold cfbMask lastFull
    simp only [id]
    congr 1
    simp; omega

end Verif.Sm4
