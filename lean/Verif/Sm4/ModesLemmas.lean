import Verif.Sm4.Modes
import Verif.Sm4.HeapLemmas
import Verif.Sm4.Lemmas
import Verif.Util.HeapLemmas
/-! Lemmas about the modes on memory. -/
namespace Verif.Sm4

theorem sub_ok {s : Slice} {a b : Nat} (h1 : a ≤ b) (h2 : b ≤ s.cap) : sub s a b = .ok ⟨s.arr, s.off + a, b - a, s.cap - a⟩ := if_pos ⟨h1, h2⟩

theorem get_append {h : Heap} {s : Slice} (hv : s.Valid h) (x : List Bytes) : s.get (h ++ x) = s.get h := by
  unfold Slice.get
  rw [List.getElem?_append_left hv.lt]

theorem valid_append {h : Heap} {s : Slice} (hv : s.Valid h) (x : List Bytes) : s.Valid (h ++ x) := by
  have := hv.lt
  obtain ⟨h1, a, ha, h2⟩ := hv
  exact ⟨h1, a, by rw [List.getElem?_append_left this]; exact ha, h2⟩

theorem valid_sub {h : Heap} {s : Slice} (hv : s.Valid h) {a b : Nat} (h1 : a ≤ b) (h2 : b ≤ s.len) :
    Slice.Valid h ⟨s.arr, s.off + a, b - a, s.cap - a⟩ := by
  obtain ⟨h3, x, ha, h4⟩ := hv
  refine ⟨?_, x, ha, ?_⟩
  · show b - a ≤ s.cap - a
    omega
  · show s.off + a + (s.cap - a) ≤ x.length
    omega

theorem get_sub {h : Heap} (s : Slice) {a b : Nat} (h2 : b ≤ s.len) :
    Slice.get h ⟨s.arr, s.off + a, b - a, s.cap - a⟩ = ((s.get h).drop a).take (b - a) := by
  unfold Slice.get
  rw [List.drop_take, List.drop_drop, List.take_take, Nat.min_eq_left (by omega)]

theorem overwrite_twice {a x y : Bytes} {i : Nat} (h : i + x.length ≤ a.length) (hl : y.length = x.length) :
    overwrite (overwrite a i x) i y = overwrite a i y := by
  unfold overwrite
  have e : (a.take i ++ x ++ a.drop (i + x.length)).take i = a.take i := by
    rw [List.append_assoc, List.take_left' (by simp; omega)]
  have e2 : (a.take i ++ x ++ a.drop (i + x.length)).drop (i + y.length) = a.drop (i + y.length) := by
    rw [List.drop_left' (by simp; omega), hl]
  rw [e, e2]

/-- The last array of a heap. -/
theorem getElem?_last (h : Heap) (o : Bytes) : (h ++ [o])[h.length]? = some o := by simp

theorem set_last (h : Heap) (o x : Bytes) : (h ++ [o]).set h.length x = h ++ [x] := by
  rw [List.set_append_right _ _ (Nat.le_refl _)]
  simp

/-- A store into the last array. -/
theorem store_last (h : Heap) (o bs : Bytes) (off len cap : Nat) :
    store (h ++ [o]) ⟨h.length, off, len, cap⟩ bs = h ++ [overwrite o off bs] := by
  unfold store
  dsimp only
  rw [getElem?_last, set_last]
  rfl

theorem get_last (h : Heap) (o : Bytes) (off len cap : Nat) : Slice.get (h ++ [o]) ⟨h.length, off, len, cap⟩ = (o.drop off).take len := by
  unfold Slice.get
  dsimp only
  rw [getElem?_last]
  rfl

/-- A block into the last array. -/
theorem crypt_last (rk : List Word) (h : Heap) (o : Bytes) (off cap : Nat) (src : Slice) (hc : 16 ≤ cap) (ho : off + cap ≤ o.length) :
    processBlockH rk (h ++ [o]) src ⟨h.length, off, 16, cap⟩ = h ++ [overwrite o off (block rk ((src.get (h ++ [o])).take 16))] := by
  rw [processBlockH_eq rk _ src _ ⟨hc, o, getElem?_last h o, ho⟩ (Nat.le_refl 16)]
  dsimp only
  rw [getElem?_last, set_last]
  rfl

theorem length_block (rk : List Word) (b : Bytes) : (block rk b).length = 16 := length_processBlock rk b

/-! ## ECB -/

/-- The loop from block `k` on. -/
theorem ecbLoopH_eq (rk : List Word) (crypt : Heap → Slice → Slice → Res Heap)
    (hcr : ∀ (h : Heap) (d s : Slice), 16 ≤ s.len → 16 ≤ d.len → crypt h d s = .ok (processBlockH rk h s d))
    (h : Heap) (inp : Slice) (hv : inp.Valid h) : ∀ (cnt fuel k : Nat) (o : Bytes), cnt ≤ fuel → o.length = inp.len →
      16 * (k + cnt) = inp.len →
      ecbLoopH crypt inp ⟨h.length, 0, inp.len, inp.len⟩ inp.len fuel (16 * k) (h ++ [o]) =
        .ok (h ++ [ecbLoop rk (inp.get h) cnt k o])
  | 0, fuel, k, o, _, _, hk => by
    rw [ecbLoopH.eq_def]
    dsimp only
    rw [if_neg (by omega)]
    rfl
  | cnt + 1, 0, _, _, hf, _, _ => by omega
  | cnt + 1, fuel + 1, k, o, hf, ho, hk => by
    have hcap : inp.len ≤ inp.cap := hv.1
    rw [ecbLoopH.eq_def]
    dsimp only
    rw [if_pos (by omega)]
    rw [sub_ok (by omega) (by show _ ≤ inp.len; omega), Res.ok_bind, sub_ok (by omega) (by omega), Res.ok_bind,
      hcr _ _ _ (by show 16 ≤ 16 * k + 16 - 16 * k; omega) (by show 16 ≤ 16 * k + 16 - 16 * k; omega), Res.ok_bind]
    dsimp only
    rw [Nat.zero_add, show 16 * k + 16 - 16 * k = 16 by omega, crypt_last rk h o _ _ _ (by omega) (by omega),
      show 16 * k + 16 = 16 * (k + 1) by omega]
    have hg : Slice.get (h ++ [o]) ⟨inp.arr, inp.off + 16 * k, 16, inp.cap - 16 * k⟩ = ((inp.get h).drop (16 * k)).take 16 := by
      have := get_sub (h := h ++ [o]) inp (a := 16 * k) (b := 16 * k + 16) (by omega)
      rw [show 16 * k + 16 - 16 * k = 16 by omega] at this
      rw [this, get_append hv]
    rw [hg, List.take_take]
    exact ecbLoopH_eq rk crypt hcr h inp hv cnt fuel (k + 1) _ (by omega)
      (by rw [length_overwrite (by rw [length_block]; omega), ho]) (by omega)

theorem encryptH_ok (c : Cipher) (h : Heap) (d s : Slice) (h1 : 16 ≤ s.len) (h2 : 16 ≤ d.len) :
    c.encryptH h d s = .ok (processBlockH c.enc h s d) := by
  unfold Cipher.encryptH
  rw [if_neg (by omega), if_neg (by omega)]

theorem decryptH_ok (c : Cipher) (h : Heap) (d s : Slice) (h1 : 16 ≤ s.len) (h2 : 16 ≤ d.len) :
    c.decryptH h d s = .ok (processBlockH c.dec h s d) := by
  unfold Cipher.decryptH
  rw [if_neg (by omega), if_neg (by omega)]

theorem ecbEncryptH_eq (h : Heap) (key plain : Slice) (hp : plain.Valid h) :
    ecbEncryptH h key plain = (ecbEncrypt (key.get h) (plain.get h)).bind fun o => .ok (h ++ [o], ⟨h.length, 0, plain.len, plain.len⟩) := by
  unfold ecbEncryptH ecbEncrypt
  rw [Slice.length_get hp]
  by_cases hm : plain.len % 16 ≠ 0
  · rw [if_pos hm, if_pos hm]; rfl
  · rw [if_neg hm, if_neg hm]
    cases newCipher (key.get h) with
    | ok c =>
      rw [Res.ok_bind, Res.ok_bind]
      unfold alloc
      dsimp only
      have := ecbLoopH_eq c.enc c.encryptH (encryptH_ok c) h plain hp (plain.len / 16) (plain.len + 1) 0 (List.replicate plain.len 0)
        (by omega) (by simp) (by omega)
      rw [Nat.mul_zero] at this
      rw [this]
      rfl
    | err m => rfl
    | panic => rfl
    | loop => rfl

theorem ecbDecryptH_eq (h : Heap) (key cipher : Slice) (hp : cipher.Valid h) :
    ecbDecryptH h key cipher = (ecbDecrypt (key.get h) (cipher.get h)).bind fun o => .ok (h ++ [o], ⟨h.length, 0, cipher.len, cipher.len⟩) := by
  unfold ecbDecryptH ecbDecrypt
  rw [Slice.length_get hp]
  by_cases hm : cipher.len % 16 ≠ 0
  · rw [if_pos hm, if_pos hm]; rfl
  · rw [if_neg hm, if_neg hm]
    cases newCipher (key.get h) with
    | ok c =>
      rw [Res.ok_bind, Res.ok_bind]
      unfold alloc
      dsimp only
      have := ecbLoopH_eq c.dec c.decryptH (decryptH_ok c) h cipher hp (cipher.len / 16) (cipher.len + 1) 0 (List.replicate cipher.len 0)
        (by omega) (by simp) (by omega)
      rw [Nat.mul_zero] at this
      rw [this]
      rfl
    | err m => rfl
    | panic => rfl
    | loop => rfl

/-! ## CBC -/

/-- The encrypting loop from block `k` on. -/
theorem cbcEncLoopH_eq (c : Cipher) (x : Cbc) (h : Heap) (inp : Slice) (hv : inp.Valid h) : ∀ (cnt fuel k : Nat) (o : Bytes) (iv : Slice),
    cnt ≤ fuel → o.length = inp.len → 16 * (k + cnt) = inp.len → iv.len = 16 → (iv.get (h ++ [o])).length = 16 →
      ∃ b : Bytes, b.length = 16 ∧
      cbcEncLoopH c x fuel ⟨h.length, 16 * k, inp.len - 16 * k, inp.len - 16 * k⟩
        ⟨inp.arr, inp.off + 16 * k, inp.len - 16 * k, inp.cap - 16 * k⟩ iv (h ++ [o]) =
        .ok (store (h ++ [cbcEncLoop c.enc (inp.get h) cnt k (iv.get (h ++ [o])) o]) x.iv (b.take x.iv.len))
  | 0, fuel, k, o, iv, _, _, hk, hi, hi' => by
    rw [cbcEncLoopH.eq_def]
    dsimp only
    rw [if_neg (by show ¬ inp.len - 16 * k > 0; omega)]
    exact ⟨_, hi', rfl⟩
  | cnt + 1, 0, _, _, _, hf, _, _, _, _ => by omega
  | cnt + 1, fuel + 1, k, o, iv, hf, ho, hk, hi, hi' => by
    have hcap : inp.len ≤ inp.cap := hv.1
    have hl := Slice.length_get hv
    rw [cbcEncLoopH.eq_def]
    dsimp only
    rw [if_pos (by show inp.len - 16 * k > 0; omega)]
    rw [sub_ok (by omega) (by show 16 ≤ inp.len - 16 * k; omega), Res.ok_bind, sub_ok (by omega) (by show 16 ≤ inp.cap - 16 * k; omega), Res.ok_bind]
    dsimp only
    have hg : Slice.get (h ++ [o]) ⟨inp.arr, inp.off + 16 * k, 16, inp.cap - 16 * k⟩ = ((inp.get h).drop (16 * k)).take 16 := by
      have := get_sub (h := h ++ [o]) inp (a := 16 * k) (b := 16 * k + 16) (by omega)
      rw [show 16 * k + 16 - 16 * k = 16 by omega] at this
      rw [this, get_append hv]
    have hgl : (((inp.get h).drop (16 * k)).take 16).length = 16 := by simp; omega
    unfold xorH
    dsimp only
    rw [Nat.add_zero, Nat.add_zero, Nat.sub_zero, Nat.sub_zero, Nat.sub_zero]
    rw [if_neg (by omega), Res.ok_bind, hg, store_last, encryptH_ok c _ _ _ (Nat.le_refl 16) (Nat.le_refl 16), Res.ok_bind]
    have hxl : (xorBytes (((inp.get h).drop (16 * k)).take 16) (iv.get (h ++ [o]))).length = 16 := by
      exact length_xorBytes hgl hi'
    have hol : (overwrite o (16 * k) (xorBytes (((inp.get h).drop (16 * k)).take 16) (iv.get (h ++ [o])))).length = o.length :=
      length_overwrite (by omega)
    have hin : 16 * k + (xorBytes (((inp.get h).drop (16 * k)).take 16) (iv.get (h ++ [o]))).length ≤ o.length := by omega
    rw [crypt_last c.enc h _ _ _ _ (by omega) (by omega), get_last]
    have hd := drop_overwrite_take hin
    rw [hxl] at hd
    have htk := List.take_of_length_le (Nat.le_of_eq hxl)
    rw [hd, htk, overwrite_twice hin (by rw [length_block, hxl])]
    rw [sub_ok (s := ⟨inp.arr, inp.off + 16 * k, inp.len - 16 * k, inp.cap - 16 * k⟩) (by show 16 ≤ inp.len - 16 * k; omega)
        (by show inp.len - 16 * k ≤ inp.cap - 16 * k; omega), Res.ok_bind,
      sub_ok (s := ⟨h.length, 16 * k, inp.len - 16 * k, inp.len - 16 * k⟩) (by show 16 ≤ inp.len - 16 * k; omega)
        (Nat.le_refl _), Res.ok_bind]
    dsimp only
    generalize hblk : block c.enc (xorBytes (((inp.get h).drop (16 * k)).take 16) (iv.get (h ++ [o]))) = blk
    have hbl : blk.length = 16 := by rw [← hblk, length_block]
    have hout : 16 * k + blk.length ≤ o.length := by omega
    have hiv : Slice.get (h ++ [overwrite o (16 * k) blk]) ⟨h.length, 16 * k, 16, inp.len - 16 * k⟩ = blk := by
      rw [get_last]
      have := drop_overwrite_take hout
      rw [hbl] at this
      exact this
    obtain ⟨b, hb, he⟩ := cbcEncLoopH_eq c x h inp hv cnt fuel (k + 1) (overwrite o (16 * k) blk) ⟨h.length, 16 * k, 16, inp.len - 16 * k⟩
      (by omega) (by rw [length_overwrite hout, ho]) (by omega) rfl (by rw [hiv, hbl])
    refine ⟨b, hb, ?_⟩
    rw [hiv] at he
    rw [show inp.len - 16 * k - 16 = inp.len - 16 * (k + 1) by omega, show inp.cap - 16 * k - 16 = inp.cap - 16 * (k + 1) by omega,
      show 16 * k + 16 = 16 * (k + 1) by omega, show inp.off + 16 * k + 16 = inp.off + 16 * (k + 1) by omega, he]
    rw [cbcEncLoop, hblk]

/-- The decrypting loop with the blocks `0 … k` left. -/
theorem cbcDecLoopH_eq (c : Cipher) (x : Cbc) (h : Heap) (inp : Slice) (hv : inp.Valid h) (ivb : Bytes) (hxl : x.iv.len = 16) (hxv : x.iv.Valid h)
    (hx : x.iv.get h = ivb) : ∀ (k fuel : Nat) (o : Bytes),
    k ≤ fuel → o.length = inp.len → 16 * (k + 1) ≤ inp.len →
      cbcDecLoopH c x ⟨h.length, 0, inp.len, inp.len⟩ inp fuel (16 * k) (16 * (k + 1)) (h ++ [o]) =
        .ok (h ++ [cbcDecLoop c.dec (inp.get h) ivb (k + 1) o]) := by
  have hcap : inp.len ≤ inp.cap := hv.1
  have hl := Slice.length_get hv
  -- one block, with the preceding one in `p`
  have one : ∀ (k : Nat) (o : Bytes) (p : Slice), o.length = inp.len → 16 * (k + 1) ≤ inp.len → p.Valid h → p.len = 16 →
      (c.decryptH (h ++ [o]) ⟨h.length, 0 + 16 * k, 16 * (k + 1) - 16 * k, inp.len - 16 * k⟩
        ⟨inp.arr, inp.off + 16 * k, 16 * (k + 1) - 16 * k, inp.cap - 16 * k⟩ >>= fun h' =>
        xorH h' ⟨h.length, 0 + 16 * k, 16 * (k + 1) - 16 * k, inp.len - 16 * k⟩ ⟨h.length, 0 + 16 * k, 16 * (k + 1) - 16 * k, inp.len - 16 * k⟩ p) =
      .ok (h ++ [overwrite o (16 * k) (xorBytes (block c.dec (((inp.get h).drop (16 * k)).take 16)) (p.get h))]) := by
    intro k o p ho hk hp hpl
    rw [Nat.zero_add, show 16 * (k + 1) - 16 * k = 16 by omega, decryptH_ok c _ _ _ (Nat.le_refl 16) (Nat.le_refl 16), Res.ok_bind,
      crypt_last c.dec h _ _ _ _ (by omega) (by omega)]
    have hg : Slice.get (h ++ [o]) ⟨inp.arr, inp.off + 16 * k, 16, inp.cap - 16 * k⟩ = ((inp.get h).drop (16 * k)).take 16 := by
      have := get_sub (h := h ++ [o]) inp (a := 16 * k) (b := 16 * k + 16) (by omega)
      rw [show 16 * k + 16 - 16 * k = 16 by omega] at this
      rw [this, get_append hv]
    rw [hg, List.take_take]
    unfold xorH
    dsimp only
    rw [if_neg (by omega), store_last, get_append hp, get_last]
    have hin : 16 * k + (block c.dec (((inp.get h).drop (16 * k)).take 16)).length ≤ o.length := by rw [length_block]; omega
    have hd := drop_overwrite_take hin
    rw [length_block] at hd
    rw [show min 16 16 = 16 from rfl, hd, overwrite_twice hin (by rw [length_block, length_xorBytes (length_block _ _) (by rw [Slice.length_get hp, hpl])])]
  intro k
  induction k with
  | zero =>
    intro fuel o _ ho hk
    rw [cbcDecLoopH.eq_def]
    dsimp only
    rw [if_neg (by omega), sub_ok (by omega) (by show _ ≤ inp.len; omega), Res.ok_bind, sub_ok (by omega) (by omega), Res.ok_bind]
    rw [one 0 o x.iv ho hk hxv hxl, hx]
    rfl
  | succ k ih =>
    intro fuel o hf ho hk
    match fuel, hf with
    | fuel + 1, hf =>
      rw [cbcDecLoopH.eq_def]
      dsimp only
      rw [if_pos (by omega)]
      rw [sub_ok (by omega) (by show _ ≤ inp.len; omega), Res.ok_bind, sub_ok (by omega) (by omega), Res.ok_bind]
      have hp := sub_ok (s := inp) (a := 16 * (k + 1) - 16) (b := 16 * (k + 1)) (by omega) (by omega)
      simp only [hp, Res.ok_bind]
      have h1 := one (k + 1) o ⟨inp.arr, inp.off + (16 * (k + 1) - 16), 16 * (k + 1) - (16 * (k + 1) - 16), inp.cap - (16 * (k + 1) - 16)⟩ ho hk
        (valid_sub hv (by omega) (by omega)) (by show 16 * (k + 1) - (16 * (k + 1) - 16) = 16; omega)
      rw [Res.bind_eq_ok] at h1
      obtain ⟨h', g1, g2⟩ := h1
      rw [g1, Res.ok_bind, g2, Res.ok_bind, show 16 * (k + 1) - 16 = 16 * k by omega]
      have hlen : (xorBytes (block c.dec (((inp.get h).drop (16 * (k + 1))).take 16)) (((inp.get h).drop (16 * k)).take 16)).length = 16 := by
        exact length_xorBytes (length_block _ _) (by simp; omega)
      have hpg := get_sub (h := h) inp (a := 16 * (k + 1) - 16) (b := 16 * (k + 1)) (by omega)
      rw [show 16 * (k + 1) - 16 = 16 * k by omega] at hpg
      rw [hpg, show 16 * (k + 1) - 16 * k = 16 by omega]
      rw [ih fuel _ (by omega) (by rw [length_overwrite (by rw [hlen]; omega), ho]) (by omega)]
      rw [cbcDecLoop.eq_def _ _ _ (k + 1 + 1)]
      dsimp only
      rw [if_neg (by omega), Nat.add_sub_cancel]

theorem get_whole {h : Heap} {a : Nat} {b : Bytes} (hq : h[a]? = some b) (hb : b.length = 16) : Slice.get h ⟨a, 0, 16, 16⟩ = b := by
  unfold Slice.get
  dsimp only
  rw [hq]
  exact List.take_of_length_le (by simp [hb])

/-- The buffers that `newCBC` makes. -/
theorem newCBC_ok (h : Heap) (iv : Slice) (hv : iv.Valid h) (hl : iv.len = 16) :
    newCBC h iv = .ok (h ++ [iv.get h, List.replicate 16 0], ⟨⟨h.length, 0, 16, 16⟩, ⟨h.length + 1, 0, 16, 16⟩⟩) := by
  unfold newCBC
  rw [if_neg (by omega)]
  unfold alloc copyH
  dsimp only
  have hg := Slice.length_get hv
  rw [store_last, get_append hv, hl, List.take_of_length_le (by omega)]
  have : overwrite (List.replicate 16 0) 0 (iv.get h) = iv.get h := by
    unfold overwrite
    rw [List.drop_of_length_le (by simp; omega)]
    simp
  rw [this, List.append_assoc]
  simp

theorem cbcEncryptH_eq (h : Heap) (key iv plain : Slice) (hi : iv.Valid h) (hp : plain.Valid h) :
    ∃ a b : Bytes, cbcEncryptH h key iv plain = (cbcEncrypt (key.get h) (iv.get h) (plain.get h)).bind fun o =>
      .ok (h ++ [a, b, o], ⟨h.length + 2, 0, plain.len, plain.len⟩) := by
  unfold cbcEncryptH cbcEncrypt
  rw [Slice.length_get hp, Slice.length_get hi]
  by_cases hm : plain.len % 16 ≠ 0
  · rw [if_pos hm, if_pos hm]; exact ⟨[], [], rfl⟩
  rw [if_neg hm, if_neg hm]
  cases newCipher (key.get h) with
  | err m => exact ⟨[], [], rfl⟩
  | panic => exact ⟨[], [], rfl⟩
  | loop => exact ⟨[], [], rfl⟩
  | ok c =>
    simp only [Res.ok_bind]
    by_cases hl : iv.len ≠ 16
    · unfold newCBC
      rw [if_pos hl, if_pos hl]
      exact ⟨[], [], rfl⟩
    rw [if_neg hl, newCBC_ok h iv hi (by omega), Res.ok_bind]
    unfold alloc
    dsimp only
    have hi' : (iv.get h).length = 16 := by rw [Slice.length_get hi]; omega
    generalize hH : h ++ [iv.get h, List.replicate 16 0] = H
    have hHl : H.length = h.length + 2 := by rw [← hH]; simp
    have hHg : plain.get H = plain.get h := by rw [← hH, get_append hp]
    have hHv : plain.Valid H := by rw [← hH]; exact valid_append hp _
    unfold cbcEncBlocksH
    dsimp only
    have hov : inexactOverlap ⟨H.length, 0, plain.len, plain.len⟩ plain = false := by
      unfold inexactOverlap
      have := hHv.lt
      have hne : H.length ≠ plain.arr := by omega
      simp [hne]
    rw [if_neg hm, if_neg (by omega), hov, if_neg (by simp)]
    have hivg : Slice.get (H ++ [List.replicate plain.len 0]) ⟨h.length, 0, 16, 16⟩ = iv.get h := by
      refine get_whole ?_ hi'
      rw [← hH, List.append_assoc, List.getElem?_append_right (Nat.le_refl _), Nat.sub_self]
      rfl
    obtain ⟨b, hb, he⟩ := cbcEncLoopH_eq c ⟨⟨h.length, 0, 16, 16⟩, ⟨h.length + 1, 0, 16, 16⟩⟩ H plain hHv (plain.len / 16) (plain.len + 1) 0
      (List.replicate plain.len 0) ⟨h.length, 0, 16, 16⟩ (by omega) (by simp) (by omega) rfl (by rw [hivg, hi'])
    rw [Nat.mul_zero, Nat.sub_zero, Nat.sub_zero, Nat.add_zero] at he
    rw [show cbcEncLoopH c _ _ _ plain _ _ = _ from he, Res.ok_bind, hivg, hHg, hHl]
    refine ⟨overwrite (iv.get h) 0 (b.take 16), List.replicate 16 0, ?_⟩
    show Res.ok _ = Res.ok _
    congr 2
    unfold store
    rw [← hH]
    dsimp only
    rw [List.append_assoc, List.getElem?_append_right (Nat.le_refl _), List.set_append_right _ _ (Nat.le_refl _)]
    simp

theorem cbcDecryptH_eq (h : Heap) (key iv cipher : Slice) (hi : iv.Valid h) (hp : cipher.Valid h) :
    ∃ a b : Bytes, cbcDecryptH h key iv cipher = (cbcDecrypt (key.get h) (iv.get h) (cipher.get h)).bind fun o =>
      .ok (h ++ [a, b, o], ⟨h.length + 2, 0, cipher.len, cipher.len⟩) := by
  unfold cbcDecryptH cbcDecrypt
  rw [Slice.length_get hp, Slice.length_get hi]
  by_cases hm : cipher.len % 16 ≠ 0
  · rw [if_pos hm, if_pos hm]; exact ⟨[], [], rfl⟩
  rw [if_neg hm, if_neg hm]
  cases newCipher (key.get h) with
  | err m => exact ⟨[], [], rfl⟩
  | panic => exact ⟨[], [], rfl⟩
  | loop => exact ⟨[], [], rfl⟩
  | ok c =>
    simp only [Res.ok_bind]
    by_cases hl : iv.len ≠ 16
    · unfold newCBC
      rw [if_pos hl, if_pos hl]
      exact ⟨[], [], rfl⟩
    rw [if_neg hl, newCBC_ok h iv hi (by omega), Res.ok_bind]
    unfold alloc
    dsimp only
    have hi' : (iv.get h).length = 16 := by rw [Slice.length_get hi]; omega
    -- the heap with `t` in the second buffer
    have facts : ∀ t : Bytes, (h ++ [iv.get h, t]).length = h.length + 2 ∧ cipher.get (h ++ [iv.get h, t]) = cipher.get h ∧
        cipher.Valid (h ++ [iv.get h, t]) ∧ Slice.get (h ++ [iv.get h, t]) ⟨h.length, 0, 16, 16⟩ = iv.get h ∧
        Slice.Valid (h ++ [iv.get h, t]) ⟨h.length, 0, 16, 16⟩ := by
      intro t
      have hq : (h ++ [iv.get h, t])[h.length]? = some (iv.get h) := by
        rw [List.getElem?_append_right (Nat.le_refl _), Nat.sub_self]; rfl
      refine ⟨by simp, get_append hp _, valid_append hp _, ?_, ⟨Nat.le_refl _, iv.get h, hq, by simp [hi']⟩⟩
      exact get_whole hq hi'
    unfold cbcDecBlocksH
    dsimp only
    obtain ⟨f1, f2, f3, f4, f5⟩ := facts (List.replicate 16 0)
    have hov : inexactOverlap ⟨(h ++ [iv.get h, List.replicate 16 0]).length, 0, cipher.len, cipher.len⟩ cipher = false := by
      unfold inexactOverlap
      have := f3.lt
      have hne : (h ++ [iv.get h, List.replicate 16 0]).length ≠ cipher.arr := by omega
      simp only [hne, false_and, decide_false, ite_self]
    rw [if_neg hm, if_neg (by omega), hov, if_neg (by simp)]
    by_cases h0 : cipher.len = 0
    · rw [if_pos h0, Res.ok_bind, f1]
      refine ⟨iv.get h, List.replicate 16 0, ?_⟩
      rw [h0]
      show Res.ok _ = Res.ok _
      simp [cbcDecLoop]
    rw [if_neg h0, sub_ok (by omega) (by have := hp.1; omega), Res.ok_bind]
    -- the copy into the second buffer
    obtain ⟨t, ht⟩ : ∃ t, copyH (h ++ [iv.get h, List.replicate 16 0] ++ [List.replicate cipher.len 0]) ⟨h.length + 1, 0, 16, 16⟩
        ⟨cipher.arr, cipher.off + (cipher.len - 16), cipher.len - (cipher.len - 16), cipher.cap - (cipher.len - 16)⟩ =
        h ++ [iv.get h, t] ++ [List.replicate cipher.len 0] := by
      unfold copyH store
      dsimp only
      rw [List.append_assoc, List.set_append_right _ _ (by omega), show h.length + 1 - h.length = 1 by omega]
      exact ⟨_, by rw [List.append_assoc]; rfl⟩
    obtain ⟨g1, g2, g3, g4, g5⟩ := facts t
    rw [ht, f1]
    have he := cbcDecLoopH_eq c ⟨⟨h.length, 0, 16, 16⟩, ⟨h.length + 1, 0, 16, 16⟩⟩ (h ++ [iv.get h, t]) cipher g3 (iv.get h) rfl g5 g4
      (cipher.len / 16 - 1) (cipher.len + 1) (List.replicate cipher.len 0) (by omega) (by simp) (by omega)
    rw [show 16 * (cipher.len / 16 - 1) = cipher.len - 16 by omega, show 16 * (cipher.len / 16 - 1 + 1) = cipher.len by omega, g1] at he
    rw [he, Res.ok_bind, g2, show cipher.len / 16 - 1 + 1 = cipher.len / 16 by omega]
    refine ⟨iv.get h, t, ?_⟩
    show Res.ok _ = Res.ok _
    simp

end Verif.Sm4
