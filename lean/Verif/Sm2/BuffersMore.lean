import Verif.Sm2.BuffersLemmas
/-!
# The programs on buffers: decryption, the ciphertext formats, the encodings of keys
-/
namespace Verif.Sm2.Buf
open Verif EC

variable {α β γ δ : Type}

/-! ## `Decrypt` and `MarshalCipher` -/

theorem copyAt_take (b src : Bytes) : copyAt b 0 src = overwrite b 0 (src.take b.length) := by
  unfold copyAt overwrite
  rw [Nat.sub_zero, Nat.zero_add, Nat.zero_add, List.length_take]
  by_cases h : src.length ≤ b.length
  · rw [Nat.min_eq_right h]
  · rw [Nat.min_eq_left (by omega), List.drop_of_length_le (by omega), List.drop_of_length_le (by omega)]

/-- `copy(c, s[lo:hi])`. -/
theorem gives_fetch {W : ℕ → Prop} {h : Heap} {s c : Slice} {b sp z : Bytes} (x : Has h s b sp) (y : Has h c z []) (lo hi : Int) (hW : W c.arr)
    {f : HM γ} {k : Bytes → Res δ} {S : δ → γ → Heap → Prop}
    (hf : ∀ a h', sliceCap b sp lo hi = .ok a → Frame (· = c.arr) h h' → Has h' c (copyAt z 0 a) [] → Gives W h' (f h') (k a) S) :
    Gives W h ((sub s lo hi >>= fun d => copy c d >>= fun _ => f) h) (sliceCap b sp lo hi >>= k) S := by
  refine Gives.bind (gives_sub (W := fun _ => False) x lo hi) (fun _ _ h => h.elim) ?_
  intro a d m e _ ⟨em, _, _, _, _, sp', xd⟩
  subst em
  refine Gives.step (gives_copy y xd (d := c) (lo := 0) rfl rfl (by rw [y.len]; omega)) (fun i _ e => e ▸ hW) ?_
  intro _ m' f' ⟨x', _⟩
  rw [y.len, ← copyAt_take] at x'
  exact hf a m' e f' x'

theorem length_sliceCap {b sp a : Bytes} {lo hi : Int} (h : sliceCap b sp lo hi = .ok a) : (a.length : Int) = hi - lo := by
  unfold sliceCap at h
  split at h
  · rw [Res.ok.injEq] at h
    rw [← h, List.length_take, List.length_drop, List.length_append]
    omega
  · exact absurd h (by simp)

theorem copyAt_all {z a : Bytes} (h : z.length = a.length) : copyAt z 0 a = a := by
  rw [copyAt_take, List.take_of_length_le (by omega), overwrite_all h.symm]

theorem gives_splitCipher {h : Heap} (k : Int) {inp : Slice} {b sb : Bytes} (x : Has h inp b sb) (t : Int) :
    Gives (fun _ => False) h (splitCipher k inp t h) (splitCipherCap k b sb t)
      (fun v s h' => New h v.1 s.1 h' ∧ New h v.2 s.2 h' ∧ s.1.arr ≠ s.2.arr ∧ Has h' s.1 v.1 []) := by
  refine Gives.new ?_ _
  unfold splitCipher splitCipherCap
  have hlt := x.lt
  rw [x.len]
  dsimp only
  refine Gives.bind (gives_make _) (fun _ _ h => h.elim) ?_
  intro z2 c2 m1 _ f1 ⟨x2, e2⟩
  have l1 := f1.1
  have i1 := x2.lt
  refine Gives.bind (gives_make _) (fun _ _ h => h.elim) ?_
  intro z3 c3 m2 _ f2 ⟨x3, e3⟩
  have l2 := f2.1
  have xi := (x.frame f1 id).frame f2 id
  have x2 := x2.frame f2 id
  by_cases h1 : t = C1C2C3
  · rw [if_pos h1, if_pos h1]
    refine gives_fetch xi x2 _ _ (by omega) ?_
    intro a m3 _ f3 y2
    refine gives_fetch (xi.frame f3 (by omega)) (x3.frame f3 (by omega)) _ _ (by omega) ?_
    intro a' m4 _ f4 y3
    have y2 := y2.frame f4 (by omega)
    exact gives_pure ⟨⟨⟨_, y2⟩, by dsimp only; omega⟩, ⟨⟨_, y3⟩, by dsimp only; omega⟩, by dsimp only; omega, y2⟩
  · rw [if_neg h1, if_neg h1]
    by_cases h2 : t = C1C3C2
    · rw [if_pos h2, if_pos h2]
      refine gives_fetch xi x3 _ _ (by omega) ?_
      intro a m3 _ f3 y3
      refine gives_fetch (xi.frame f3 (by omega)) (x2.frame f3 (by omega)) _ _ (by omega) ?_
      intro a' m4 _ f4 y2
      have y3 := y3.frame f4 (by omega)
      exact gives_pure ⟨⟨⟨_, y2⟩, by dsimp only; omega⟩, ⟨⟨_, y3⟩, by dsimp only; omega⟩, by dsimp only; omega, y2⟩
    · rw [if_neg h2, if_neg h2]
      exact gives_fail rfl

theorem gives_decrypt {g : ℕ → ℕ} {h : Heap} (priv : PrivateKey) {inp : Slice} {b sb : Bytes} (x : Has h inp b sb) (t : Int) :
    Gives (fun _ => False) h (decrypt g priv inp t h) (decryptCap priv b sb t) (fun b s h' => New h b s h') := by
  refine Gives.new ?_ _
  unfold decrypt decryptCap
  have hlt := x.lt
  refine Gives.step (gives_make_nat _) (fun _ _ h => h.elim) ?_
  intro c1 m1 f1 ⟨x1, e1⟩
  have l1 := f1.1
  refine gives_fetch (x.frame f1 id) x1 _ _ (by omega) ?_
  intro a m2 ea f2 x1
  have l2 := f2.1
  have xi := (x.frame f1 id).frame f2 (by omega)
  rw [copyAt_all (by have := length_sliceCap ea; rw [List.length_replicate]; omega)] at x1
  refine Gives.step (gives_read (W := (h.length ≤ ·)) x1) (fun _ _ h => h) ?_
  intro bs m3 _ hR
  obtain ⟨e1', e2'⟩ := hR
  subst e1' e2'
  cases unmarshal cv bs with
  | none => exact gives_fail trivial
  | some c1p =>
    dsimp only
    refine Gives.bind (gives_lift (W := (h.length ≤ ·))) (fun _ _ h => h) ?_
    intro s s' m4 _ _ hR
    obtain ⟨e1', e2'⟩ := hR
    subst e1' e2'
    split
    · exact gives_fail rfl
    refine Gives.bind (gives_lift (W := (h.length ≤ ·))) (fun _ _ h => h) ?_
    intro q q' m5 _ _ hR
    obtain ⟨e1', e2'⟩ := hR
    subst e1' e2'
    unfold decryptRest
    refine Gives.bind (gives_splitCipher _ xi t) (fun _ _ h => h.elim) ?_
    rintro ⟨v2, v3⟩ ⟨c2, c3⟩ m6 _ f6 ⟨⟨_, n2⟩, ⟨⟨s3, y3⟩, n3⟩, hne, y2⟩
    have l6 := f6.1
    dsimp only at *
    refine Gives.bind (gives_kdf _ _ y2) (fun i _ e => by omega) ?_
    intro v2 _ m7 _ f7 y2
    have l7 := f7.1
    have y3 := y3.frame f7 (by omega)
    refine Gives.bind (gives_bigInt _) (fun _ _ h => h.elim) ?_
    intro xb xs m8 _ f8 ⟨⟨sx, xx⟩, ex⟩
    refine Gives.bind (gives_bigInt _) (fun _ _ h => h.elim) ?_
    intro yb ys m9 _ f9 ⟨⟨sy, xy⟩, ey⟩
    refine Gives.bind (gives_hash [xs, c2, ys] [xb, v2, yb] (by
      simp only [List.map_cons, List.map_nil, (xx.frame f9 id).get, xy.get, ((y2.frame f8 id).frame f9 id).get])) (fun _ _ h => h.elim) ?_
    intro v4 c4 m10 _ f10 ⟨⟨s4, y4⟩, _⟩
    have y2 := ((y2.frame f8 id).frame f9 id).frame f10 id
    have y3 := ((y3.frame f8 id).frame f9 id).frame f10 id
    refine Gives.step (gives_read (W := (h.length ≤ ·)) y4) (fun _ _ h => h) ?_
    intro bs' m11 _ hR
    obtain ⟨e1', e2'⟩ := hR
    subst e1' e2'
    refine Gives.step (gives_read (W := (h.length ≤ ·)) y3) (fun _ _ h => h) ?_
    intro bs'' m11 _ hR
    obtain ⟨e1', e2'⟩ := hR
    subst e1' e2'
    split
    · exact gives_pure ⟨⟨_, y2⟩, by omega⟩
    · exact gives_fail rfl

theorem gives_marshalCipher {g : ℕ → ℕ} {h : Heap} {inp : Slice} {b sb : Bytes} (x : Has h inp b sb) (t : Int) :
    Gives (fun _ => False) h (marshalCipher g inp t h) (marshalCipherCap b sb t) (fun b s h' => New h b s h') := by
  refine Gives.new ?_ _
  unfold marshalCipher marshalCipherCap
  have hlt := x.lt
  rw [x.len]
  dsimp only
  refine Gives.step (gives_make_nat _) (fun _ _ h => h.elim) ?_
  intro cx m1 f1 ⟨xx, ex⟩
  have l1 := f1.1
  have i1 := xx.lt
  refine Gives.step (gives_make_nat _) (fun _ _ h => h.elim) ?_
  intro cy m2 f2 ⟨xy, ey⟩
  have l2 := f2.1
  have i2 := xy.lt
  refine Gives.bind (gives_make _) (fun _ _ h => h.elim) ?_
  intro z2 c2 m3 _ f3 ⟨x2, e2⟩
  have l3 := f3.1
  have i3 := x2.lt
  refine Gives.bind (gives_make _) (fun _ _ h => h.elim) ?_
  intro z3 c3 m4 _ f4 ⟨x3, e3⟩
  have l4 := f4.1
  have xi := (((x.frame f1 id).frame f2 id).frame f3 id).frame f4 id
  have xx := ((xx.frame f2 id).frame f3 id).frame f4 id
  have xy := (xy.frame f3 id).frame f4 id
  have x2 := x2.frame f4 id
  refine gives_fetch xi xx _ _ (by omega) ?_
  intro ax m5 ea f5 xx
  rw [copyAt_all (by have := length_sliceCap ea; rw [List.length_replicate]; omega)] at xx
  have xi := xi.frame f5 (by omega)
  have xy := xy.frame f5 (by omega)
  have x2 := x2.frame f5 (by omega)
  have x3 := x3.frame f5 (by omega)
  refine gives_fetch xi xy _ _ (by omega) ?_
  intro ay m6 ea f6 xy
  rw [copyAt_all (by have := length_sliceCap ea; rw [List.length_replicate]; omega)] at xy
  have xi := xi.frame f6 (by omega)
  have xx := xx.frame f6 (by omega)
  have x2 := x2.frame f6 (by omega)
  have x3 := x3.frame f6 (by omega)
  have l6 := f5.1
  have l7 := f6.1
  refine Gives.step (gives_read (W := (h.length ≤ ·)) xx) (fun _ _ h => h) ?_
  intro bx m7 _ hR
  obtain ⟨e1', e2'⟩ := hR
  subst e1' e2'
  refine Gives.step (gives_read (W := (h.length ≤ ·)) xy) (fun _ _ h => h) ?_
  intro bx m8 _ hR
  obtain ⟨e1', e2'⟩ := hR
  subst e1' e2'
  by_cases h1 : t = C1C2C3
  · rw [if_pos h1, if_pos h1]
    refine gives_fetch xi x2 _ _ (by omega) ?_
    intro a m9 _ f9 y2
    refine gives_fetch (xi.frame f9 (by omega)) (x3.frame f9 (by omega)) _ _ (by omega) ?_
    intro a' m10 _ f10 y3
    have y2 := y2.frame f10 (by omega)
    have l9 := f9.1
    have l10 := f10.1
    refine Gives.step (gives_read (W := (h.length ≤ ·)) y2) (fun _ _ h => h) ?_
    intro bx m11 _ hR
    obtain ⟨e1', e2'⟩ := hR
    subst e1' e2'
    refine Gives.step (gives_read (W := (h.length ≤ ·)) y3) (fun _ _ h => h) ?_
    intro bx m12 _ hR
    obtain ⟨e1', e2'⟩ := hR
    subst e1' e2'
    refine (gives_fresh _ _).mono (fun _ _ h => h.elim) ?_
    intro _ _ _ _ _ ⟨y, e⟩
    exact ⟨⟨_, y⟩, by omega⟩
  · rw [if_neg h1, if_neg h1]
    by_cases h2 : t = C1C3C2
    · rw [if_pos h2, if_pos h2]
      refine gives_fetch xi x3 _ _ (by omega) ?_
      intro a m9 _ f9 y3
      refine gives_fetch (xi.frame f9 (by omega)) (x2.frame f9 (by omega)) _ _ (by omega) ?_
      intro a' m10 _ f10 y2
      have y3 := y3.frame f10 (by omega)
      have l9 := f9.1
      have l10 := f10.1
      refine Gives.step (gives_read (W := (h.length ≤ ·)) y3) (fun _ _ h => h) ?_
      intro bx m11 _ hR
      obtain ⟨e1', e2'⟩ := hR
      subst e1' e2'
      refine Gives.step (gives_read (W := (h.length ≤ ·)) y2) (fun _ _ h => h) ?_
      intro bx m12 _ hR
      obtain ⟨e1', e2'⟩ := hR
      subst e1' e2'
      refine (gives_fresh _ _).mono (fun _ _ h => h.elim) ?_
      intro _ _ _ _ _ ⟨y, e⟩
      exact ⟨⟨_, y⟩, by omega⟩
    · rw [if_neg h2, if_neg h2]
      exact gives_fail rfl

theorem Gives.lift {W : ℕ → Prop} {h : Heap} {r : Res α} {f : α → HM γ} {k : α → Res δ} {S : δ → γ → Heap → Prop}
    (hf : ∀ b, r = .ok b → Gives W h (f b h) (k b) S) : Gives W h ((Buf.lift r >>= f) h) (r >>= k) S := by
  refine Gives.bind (gives_lift (W := W)) (fun _ _ h => h) ?_
  rintro b a m e _ ⟨rfl, rfl⟩
  exact hf _ e

theorem Gives.read {W : ℕ → Prop} {h : Heap} {s : Slice} {b sp : Bytes} {f : Bytes → HM γ} {r : Res δ} {S : δ → γ → Heap → Prop}
    (x : Has h s b sp) (hf : Gives W h (f b h) r S) : Gives W h ((Buf.read s >>= f) h) r S := by
  refine Gives.step (gives_read (W := W) x) (fun _ _ h => h) ?_
  rintro a m _ ⟨rfl, rfl⟩
  exact hf

/-! ## `UnmarshalCipher` and the encodings of keys -/

theorem gives_setFirst {h : Heap} {s : Slice} {n : ℕ} (x : Has h s (List.replicate (1 + n) 0) []) (v : Byte) :
    Gives (· = s.arr) h (setIndex s 0 v h) (.ok ()) (fun _ _ h' => Has h' s (v :: List.replicate n 0) [] ∧ h'.length = h.length) := by
  have hl := x.len
  rw [List.length_replicate] at hl
  unfold setIndex
  rw [if_pos (by omega)]
  have := gives_store x (d := ⟨s.arr, s.off + 0, 1, s.cap - 0⟩) (lo := 0) (bs := [v]) rfl rfl (by rw [List.length_replicate]; simp)
  have e : overwrite (List.replicate (1 + n) (0 : Byte)) 0 [v] = v :: List.replicate n 0 := by
    rw [Nat.add_comm, List.replicate_succ]; rfl
  rwa [e] at this

theorem gives_unmarshalCipher {g : ℕ → ℕ} {h : Heap} {inp : Slice} {b sb : Bytes} (x : Has h inp b sb) (t : Int) :
    Gives (fun _ => False) h (unmarshalCipher g inp t h) (Sm2.unmarshalCipher b t) (fun b s h' => New h b s h') := by
  refine Gives.new ?_ _
  unfold unmarshalCipher Sm2.unmarshalCipher
  split
  swap
  · exact gives_fail rfl
  refine Gives.read x (Gives.lift ?_)
  rintro ⟨vx, vy, v1, v2⟩ _
  dsimp only
  refine Gives.step (gives_fresh _ _) (fun _ _ h => h.elim) ?_
  intro fst m3 f3 ⟨x1, e1⟩
  have l3 := f3.1
  have i1 := x1.lt
  refine Gives.step (gives_fresh _ _) (fun _ _ h => h.elim) ?_
  intro snd m4 f4 ⟨x2, e2⟩
  have l4 := f4.1
  have i2 := x2.lt
  refine Gives.bind (gives_bigInt _) (fun _ _ h => h.elim) ?_
  intro xb xs m5 _ f5 ⟨⟨sx, xx⟩, ex⟩
  have l5 := f5.1
  have i3 := xx.lt
  refine Gives.bind (gives_bigInt _) (fun _ _ h => h.elim) ?_
  intro yb ys m6 _ f6 ⟨⟨sy, xy⟩, ey⟩
  have l6 := f6.1
  have i4 := xy.lt
  rw [x1.len, x2.len, xx.len, xy.len]
  refine Gives.step (gives_make_nat _) (fun _ _ h => h.elim) ?_
  intro res m7 f7 ⟨xr, er⟩
  rw [Nat.add_assoc 1, Nat.add_assoc 1, Nat.add_assoc 1] at xr
  have l7 := f7.1
  have x1 := (((x1.frame f4 id).frame f5 id).frame f6 id).frame f7 id
  have x2 := ((x2.frame f5 id).frame f6 id).frame f7 id
  have xx := (xx.frame f6 id).frame f7 id
  have xy := xy.frame f7 id
  refine Gives.step (gives_setFirst xr _) (fun i _ e => by omega) ?_
  intro _ m8 f8 ⟨xr, _⟩
  have x1 := x1.frame f8 (by omega)
  have x2 := x2.frame f8 (by omega)
  have xx := xx.frame f8 (by omega)
  have xy := xy.frame f8 (by omega)
  have r0 := xr.len
  rw [List.length_cons, List.length_replicate] at r0
  refine gives_part (lo := 1) (hi := 1 + xb.length) xr xx rfl (by have := xr.len; omega) (by omega) ?_
  intro m9 f9 xr1
  have r1 := xr1.len
  refine gives_part (lo := 1 + xb.length) (hi := 1 + xb.length + yb.length) xr1 (xy.frame f9 (by omega)) rfl (by omega)
    (by show h.length ≤ res.arr; omega) ?_
  intro m10 f10 xr2
  have r2 := xr2.len
  refine gives_part (lo := 1 + xb.length + yb.length) (hi := 1 + xb.length + yb.length + v1.length) xr2 ((x1.frame f9 (by omega)).frame f10 (by omega)) rfl (by omega) (by omega) ?_
  intro m11 f11 xr3
  have r3 := xr3.len
  refine gives_part (lo := 1 + xb.length + yb.length + v1.length) (hi := 1 + xb.length + yb.length + v1.length + v2.length)
    xr3 (((x2.frame f9 (by omega)).frame f10 (by omega)).frame f11 (by omega)) rfl (by omega) (by omega) ?_
  intro m12 f12 xr4
  refine gives_pure ⟨⟨[], ?_⟩, by omega⟩
  rw [copyAt_eq (src := xb) (by have := xr.len; omega), copyAt_eq (src := yb) (by omega), copyAt_eq (src := v1) (by omega),
    copyAt_eq (src := v2) (by omega)]
  exact xr4

theorem length_bigInt {x : Int} {b : Bytes} (h : Sm2.bigIntTo32Bytes x = .ok b) : b.length = keyBytes := by
  by_cases hx : x.natAbs < 2 ^ 256
  · rw [bigIntTo32Bytes_lt hx, Res.ok.injEq] at h
    rw [← h, length_toBE]; rfl
  · rw [bigIntTo32Bytes_ge (by omega)] at h
    exact absurd h (by simp)

theorem gives_unCompress {g : ℕ → ℕ} {h : Heap} (pub : PublicKey) :
    Gives (fun _ => False) h (getUnCompressBytes g pub h) pub.getUnCompressBytes (fun b s h' => New h b s h' ∧ b.length = 1 + keyBytes * 2 ∧
      Has h' s b []) := by
  refine Gives.new ?_ _
  unfold getUnCompressBytes PublicKey.getUnCompressBytes
  refine Gives.bind (gives_bigInt _) (fun _ _ h => h.elim) ?_
  intro xb xs m1 e1 f1 ⟨⟨sx, xx⟩, ex⟩
  have l1 := f1.1
  have i1 := xx.lt
  have k1 := length_bigInt e1
  refine Gives.bind (gives_bigInt _) (fun _ _ h => h.elim) ?_
  intro yb ys m2 e2 f2 ⟨⟨sy, xy⟩, ey⟩
  have l2 := f2.1
  have i2 := xy.lt
  have k2 := length_bigInt e2
  have xx := xx.frame f2 id
  have n1 := xx.len
  have n2 := xy.len
  dsimp only
  refine Gives.step (gives_make_nat _) (fun _ _ h => h.elim) ?_
  intro res m3 f3 ⟨xr, er⟩
  have l3 := f3.1
  refine Gives.step (gives_setFirst xr _) (fun i _ e => by omega) ?_
  intro _ m4 f4 ⟨xr, _⟩
  have xx := (xx.frame f3 id).frame f4 (by omega)
  have xy := (xy.frame f3 id).frame f4 (by omega)
  have r0 := xr.len
  rw [List.length_cons, List.length_replicate] at r0
  rw [if_neg (by omega), if_neg (by omega), if_neg (by omega), if_neg (by omega), if_neg (by omega), if_neg (by omega), if_neg (by omega),
    if_neg (by omega)]
  refine gives_part (lo := 1) (hi := 1 + keyBytes) xr xx (by omega) (by have := xr.len; omega) (by omega) ?_
  intro m5 f5 xr1
  have r1 := xr1.len
  rw [r0]
  refine gives_part xr1 (xy.frame f5 (by omega)) (by omega) (by omega) (by omega) ?_
  intro m6 f6 xr2
  have r2 := xr2.len
  rw [copyAt_eq (src := xb) (by have := xr.len; omega), copyAt_eq (src := yb) (by omega)]
  exact gives_pure ⟨⟨⟨_, xr2⟩, by omega⟩, by omega, xr2⟩

theorem gives_rawBytes {g : ℕ → ℕ} {h : Heap} (pub : PublicKey) :
    Gives (fun _ => False) h (getRawBytes g pub h) pub.getRawBytes (fun b s h' => New h b s h') := by
  unfold getRawBytes PublicKey.getRawBytes
  refine Gives.bind (gives_unCompress _) (fun _ _ h => h.elim) ?_
  intro b s m1 _ f1 ⟨⟨_, e⟩, hl, xs⟩
  have l1 := xs.len
  have := gives_sub_in (W := fun _ => False) xs (lo := 1) (hi := s.len) (by omega) (by omega)
  rw [List.take_of_length_le (by rw [List.length_drop]; omega)] at this
  refine this.mono (fun _ _ h => h) ?_
  rintro b' s' m2 eb _ ⟨rfl, rfl, sp, x⟩
  exact ⟨⟨sp, x⟩, e⟩

theorem gives_rawBytesPriv {g : ℕ → ℕ} {h : Heap} (pri : PrivateKey) :
    Gives (fun _ => False) h (getRawBytesPriv g pri h) pri.getRawBytes (fun b s h' => New h b s h') := by
  unfold getRawBytesPriv PrivateKey.getRawBytes
  refine Gives.bind (gives_bigInt _) (fun _ _ h => h.elim) ?_
  intro xb xs m1 e1 f1 ⟨⟨sx, xx⟩, ex⟩
  have k1 := length_bigInt e1
  have n1 := xx.len
  dsimp only
  rw [if_neg (by omega), if_neg (by omega), if_neg (by omega), if_neg (by omega)]
  exact gives_pure ⟨⟨_, xx⟩, ex⟩

/-! ## Digests, signatures -/

theorem gives_getZ {g : ℕ → ℕ} {h : Heap} (x y : Int) {uid : Slice} {b sb : Bytes} (hu : Has h uid b sb) :
    Gives (fun _ => False) h (getZ g x y uid h) (Sm2.getZ x y b) (fun b s h' => New h b s h') := by
  refine Gives.new ?_ _
  unfold getZ Sm2.getZ zChunks
  have hlt := hu.lt
  rw [hu.len]
  refine Gives.step (gives_make_nat 2) (fun _ _ h => h.elim) ?_
  intro ul m1 f1 ⟨x1, e1⟩
  have l1 := f1.1
  refine Gives.step (gives_store x1 (d := ul) (lo := 0) rfl rfl (by rw [length_toBE]; rfl)) (fun i _ e => by omega) ?_
  intro _ m2 f2 ⟨x2, _⟩
  have l2 := f2.1
  rw [overwrite_all (by rw [length_toBE]; rfl)] at x2
  have hu := (hu.frame f1 id).frame f2 (by omega)
  rw [bind_assoc]
  refine Gives.bind (gives_bigInt _) (fun _ _ h => h.elim) ?_
  intro va sa m3 _ f3 ⟨⟨_, xa⟩, _⟩
  rw [bind_assoc]
  refine Gives.bind (gives_bigInt _) (fun _ _ h => h.elim) ?_
  intro vb sb m4 _ f4 ⟨⟨_, xb⟩, _⟩
  rw [bind_assoc]
  refine Gives.bind (gives_bigInt _) (fun _ _ h => h.elim) ?_
  intro vgx sgx m5 _ f5 ⟨⟨_, xgx⟩, _⟩
  rw [bind_assoc]
  refine Gives.bind (gives_bigInt _) (fun _ _ h => h.elim) ?_
  intro vgy sgy m6 _ f6 ⟨⟨_, xgy⟩, _⟩
  rw [bind_assoc]
  refine Gives.bind (gives_bigInt _) (fun _ _ h => h.elim) ?_
  intro vpx spx m7 _ f7 ⟨⟨_, xpx⟩, _⟩
  rw [bind_assoc]
  refine Gives.bind (gives_bigInt _) (fun _ _ h => h.elim) ?_
  intro vpy spy m8 _ f8 ⟨⟨_, xpy⟩, _⟩
  rw [Res.ok_bind]
  have l3 := f3.1
  have l4 := f4.1
  have l5 := f5.1
  have l6 := f6.1
  have l7 := f7.1
  have l8 := f8.1
  have q : Frame (fun _ => False) m2 m8 := ((((f3.trans f4).trans f5).trans f6).trans f7).trans f8
  have gu := (hu.frame q id).get
  have g2 := (x2.frame q id).get
  have ga := (xa.frame ((((f4.trans f5).trans f6).trans f7).trans f8) id).get
  have gb := (xb.frame (((f5.trans f6).trans f7).trans f8) id).get
  have ggx := (xgx.frame ((f6.trans f7).trans f8) id).get
  have ggy := (xgy.frame (f7.trans f8) id).get
  have gpx := (xpx.frame f8 id).get
  refine (gives_hash _ _ ?_).mono (fun _ _ h => h.elim) ?_
  · by_cases hb : b.length > 0
    · rw [if_pos hb, if_pos hb]
      simp only [List.map_cons, List.map_nil, List.cons_append, List.nil_append, gu, g2, ga, gb, ggx, ggy, gpx, xpy.get]
    · rw [if_neg hb, if_neg hb]
      simp only [List.map_cons, List.map_nil, List.cons_append, List.nil_append, g2, ga, gb, ggx, ggy, gpx, xpy.get]
  · intro _ _ _ _ _ ⟨y, e⟩
    exact ⟨y, by omega⟩

theorem gives_calculateE {g : ℕ → ℕ} {h : Heap} (x y : Int) {uid src : Slice} {b sb c sc : Bytes} (hu : Has h uid b sb) (hc : Has h src c sc) :
    Gives (fun _ => False) h (calculateE g x y uid src h) (Sm2.calculateE x y b c) (fun b a _ => a = b) := by
  unfold calculateE Sm2.calculateE
  refine Gives.bind (gives_getZ x y hu) (fun _ _ h => h) ?_
  intro z s m1 _ f1 ⟨⟨_, x1⟩, _⟩
  refine Gives.bind (gives_hash [s, src] [z, c] (by simp only [List.map_cons, List.map_nil, x1.get, (hc.frame f1 id).get])) (fun _ _ h => h) ?_
  intro v t m2 _ f2 ⟨⟨_, x2⟩, _⟩
  exact Gives.read x2 (gives_pure rfl)

/-- The user id that is used: the argument, or the default one (/repo/sm2/sm2.go:493-495). -/
theorem has_userId {h : Heap} {dflt : Slice} {db : Bytes} (hd : Has h dflt defaultUserId db) {uid : Option Slice} (hu : ∀ s ∈ uid, s.Valid h) :
    ∃ sp, Has h (uid.getD dflt) ((uid.map (Slice.get h)).getD defaultUserId) sp := by
  cases uid with
  | none => exact ⟨_, hd⟩
  | some s => exact has_of_valid (hu s rfl)

theorem gives_signToRS {g : ℕ → ℕ} {h : Heap} {dflt : Slice} {db : Bytes} (hd : Has h dflt defaultUserId db) (priv : PrivateKey)
    {uid : Option Slice} (hu : ∀ s ∈ uid, s.Valid h) {inp : Slice} {c sc : Bytes} (hc : Has h inp c sc) (tape : Tape) :
    Gives (fun _ => False) h (signToRS g dflt priv uid inp tape h) (Sm2.signToRS priv (uid.map (Slice.get h)) c tape) (fun b a _ => a = b) := by
  obtain ⟨sp, hu⟩ := has_userId hd hu
  unfold signToRS Sm2.signToRS
  refine Gives.lift ?_
  intro p _
  refine Gives.bind (gives_calculateE _ _ hu hc) (fun _ _ h => h) ?_
  rintro e _ m1 _ f1 rfl
  exact gives_lift.mono (fun _ _ h => h) (fun _ _ _ _ _ h => h.1)

theorem gives_sign {g : ℕ → ℕ} {h : Heap} {dflt : Slice} {db : Bytes} (hd : Has h dflt defaultUserId db) (priv : PrivateKey)
    {uid : Option Slice} (hu : ∀ s ∈ uid, s.Valid h) {inp : Slice} {c sc : Bytes} (hc : Has h inp c sc) (tape : Tape) :
    Gives (fun _ => False) h (sign g dflt priv uid inp tape h) (Sm2.sign priv (uid.map (Slice.get h)) c tape) (fun b s h' => New h b s h') := by
  unfold sign Sm2.sign
  refine Gives.bind (gives_signToRS hd priv hu hc tape) (fun _ _ h => h) ?_
  rintro rs _ m1 _ f1 rfl
  have l1 := f1.1
  refine Gives.last (W := fun _ => False) gives_lift (fun _ _ h => h) ?_
  rintro b _ m2 _ _ ⟨rfl, rfl⟩
  refine (gives_fresh _ _).mono (fun _ _ h => h) ?_
  intro _ _ _ _ _ ⟨y, e⟩
  exact ⟨⟨_, y⟩, by omega⟩

theorem gives_verifyByRS {g : ℕ → ℕ} {h : Heap} {dflt : Slice} {db : Bytes} (hd : Has h dflt defaultUserId db) (pub : PublicKey)
    {uid : Option Slice} (hu : ∀ s ∈ uid, s.Valid h) {inp : Slice} {c sc : Bytes} (hc : Has h inp c sc) (r s : Int) :
    Gives (fun _ => False) h (verifyByRS g dflt pub uid inp r s h) (Sm2.verifyByRS pub (uid.map (Slice.get h)) c r s) (fun b a _ => a = b) := by
  obtain ⟨sp, hu⟩ := has_userId hd hu
  unfold verifyByRS Sm2.verifyByRS
  split
  · exact gives_pure rfl
  split
  · exact gives_pure rfl
  refine Gives.bind (gives_calculateE _ _ hu hc) (fun _ _ h => h) ?_
  rintro e _ m1 _ f1 rfl
  dsimp only
  split
  · exact gives_pure rfl
  refine Gives.lift fun _ _ => Gives.lift fun _ _ => Gives.lift fun _ _ => ?_
  split
  · exact gives_pure rfl
  · exact gives_pure rfl

theorem gives_verify {g : ℕ → ℕ} {h : Heap} {dflt : Slice} {db : Bytes} (hd : Has h dflt defaultUserId db) (pub : PublicKey)
    {uid : Option Slice} (hu : ∀ s ∈ uid, s.Valid h) {inp sig : Slice} {c sc b sb : Bytes} (hc : Has h inp c sc) (hs : Has h sig b sb) :
    Gives (fun _ => False) h (verify g dflt pub uid inp sig h) (Sm2.verify pub (uid.map (Slice.get h)) c b) (fun b a _ => a = b) := by
  unfold verify Sm2.verify
  refine Gives.read hs ?_
  cases unmarshalSign b with
  | ok rs => exact gives_verifyByRS hd pub hu hc _ _
  | err _ => exact gives_pure rfl
  | panic => exact gives_fail trivial
  | loop => exact gives_fail trivial

end Verif.Sm2.Buf
