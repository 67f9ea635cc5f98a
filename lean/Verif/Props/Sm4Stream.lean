import Verif.Sm4.StreamLemmas
import Verif.Sm4.HeapLemmas
/-!
# SM4 in Go's stream modes (C130)
-/
namespace Verif.Props
open Verif Verif.Sm4 Verif.Spec.SM4

/-- However the message is divided into calls, and however long the destinations are beyond their sources: no call fails, what the
calls write is together `F` of the message, and behind it the destinations keep their contents. -/
def Enciphers {σ : Type} (f : σ → Bytes → Bytes → Res (Bytes × σ)) (x : σ) (F : Bytes → Bytes) : Prop :=
  ∀ l : List (Bytes × Bytes), (∀ c ∈ l, c.2.length ≤ c.1.length) →
    ∃ os, calls f x l = .ok os ∧ os.length = l.length ∧
      (List.zipWith (fun o c => o.take c.2.length) os l).flatten = F (l.map Prod.snd).flatten ∧
      ∀ (i : ℕ) (o : Bytes) (c : Bytes × Bytes), os[i]? = some o → l[i]? = some c →
        o.length = c.1.length ∧ o.drop c.2.length = c.1.drop c.2.length

theorem enciphers_of_step {σ : Type} {f : σ → Bytes → Bytes → Res (Bytes × σ)} {F : Bytes → Bytes} {Inv : Bytes → σ → Prop} {x : σ}
    (hs : StepOK f F Inv) (hF : ∀ m, (F m).length = m.length) (hp : ∀ h s, (F (h ++ s)).take h.length = F h) (h0 : Inv [] x) :
    Enciphers f x F := by
  intro l hl
  have := calls_ok hs hF hp l [] x h0 hl
  simpa using this

theorem newCipher_enc {key : Bytes} (hk : key.length = 16) : ∃ c, newCipher key = .ok c ∧ c.enc = expandKey key true := by
  unfold newCipher
  rw [if_neg (by omega)]
  exact ⟨_, rfl, rfl⟩

theorem overwrite_all {iv : Bytes} (hiv : iv.length = 16) : overwrite (List.replicate 16 0) 0 iv = iv := by
  simp [overwrite, hiv]

/-- C130, counter mode. -/
theorem C130_ctr (key iv : Bytes) (hk : key.length = 16) (hiv : iv.length = 16) :
    ∃ c x, newCipher key = .ok c ∧ newCTR c iv = .ok x ∧ Enciphers Ctr.xorKeyStream x (withStream (ctrBlock key iv)) := by
  obtain ⟨c, hc, he⟩ := newCipher_enc hk
  have hks := length_ctrBlock key iv
  refine ⟨c, ⟨c, iv, List.replicate 512 0, 0, 0⟩, hc, by unfold newCTR; rw [if_neg (by omega)]; rfl,
    enciphers_of_step (Inv := fun h x => CtrInv key iv h.length x) ?_ (length_withStream hks) ?_ ?_⟩
  · intro h x dst src hi hle
    obtain ⟨x', e, hi'⟩ := ctrLoop_ok (src.length + 1) h.length x [] dst src hi hle (by omega)
    refine ⟨x', ?_, by dsimp only; rw [List.length_append]; exact hi'⟩
    unfold Ctr.xorKeyStream
    rw [if_neg (by omega), e, withStream_append hks, List.drop_left' (length_withStream hks h), List.nil_append]
  · intro h s
    rw [withStream_append hks]
    exact List.take_left' (length_withStream hks h)
  · refine ⟨he, List.length_replicate, le_rfl, Nat.zero_le _, 0, ?_, rfl, rfl⟩
    have h1 := beNat_lt iv
    rw [hiv] at h1
    rw [Nat.add_zero, Nat.mod_eq_of_lt (lt_of_lt_of_eq h1 (by norm_num)), toBE_beNat' hiv]

/-- C130, output feedback. -/
theorem C130_ofb (key iv : Bytes) (hk : key.length = 16) (hiv : iv.length = 16) :
    ∃ c x, newCipher key = .ok c ∧ newOFB c iv = .ok x ∧ Enciphers Ofb.xorKeyStream x (withStream (ofbBlock key iv)) := by
  obtain ⟨c, hc, he⟩ := newCipher_enc hk
  have hks := length_ofbBlock key iv
  refine ⟨c, ⟨c, iv, List.replicate 512 0, 0, 0⟩, hc, by unfold newOFB; rw [if_neg (by omega), overwrite_all hiv]; rfl,
    enciphers_of_step (Inv := fun h x => OfbInv key iv h.length x) ?_ (length_withStream hks) ?_ ?_⟩
  · intro h x dst src hi hle
    obtain ⟨x', e, hi'⟩ := ofbLoop_ok hiv (src.length + 1) h.length x [] dst src hi hle (by omega)
    refine ⟨x', ?_, by dsimp only; rw [List.length_append]; exact hi'⟩
    unfold Ofb.xorKeyStream
    rw [if_neg (by omega), e, withStream_append hks, List.drop_left' (length_withStream hks h), List.nil_append]
  · intro h s
    rw [withStream_append hks]
    exact List.take_left' (length_withStream hks h)
  · exact ⟨he, List.length_replicate, le_rfl, Nat.zero_le _, 0, rfl, rfl, rfl⟩

theorem cfb_enciphers {key iv : Bytes} (hk : key.length = 16) (hiv : iv.length = 16) {dec : Bool} {f g : Bytes → Bytes}
    (hfg : CfbSpec key iv dec f g) : ∃ c x, newCipher key = .ok c ∧ newCFB c iv dec = .ok x ∧ Enciphers Cfb.xorKeyStream x f := by
  obtain ⟨c, hc, he⟩ := newCipher_enc hk
  refine ⟨c, ⟨c, iv, List.replicate 16 0, 16, dec⟩, hc, by unfold newCFB; rw [if_neg (by omega), overwrite_all hiv],
    enciphers_of_step (Inv := fun h x => CfbInv key iv (g h) x ∧ x.decrypt = dec) ?_ hfg.len (fun h s => cfb_prefix hfg s.length s le_rfl h) ?_⟩
  · intro h x dst src hi hle
    obtain ⟨x', e, hi'⟩ := cfbLoop_ok hfg (src.length + 1) h x [] dst src hi.1 hi.2 hle (by omega)
    refine ⟨x', ?_, hi'⟩
    unfold Cfb.xorKeyStream
    rw [if_neg (by omega), e, List.nil_append]
  · have h0 : g [] = [] := List.length_eq_zero_iff.1 (hfg.glen [])
    rw [h0]
    exact ⟨⟨he, hiv, by simp, .inl ⟨rfl, rfl, rfl⟩⟩, rfl⟩

/-- C130, cipher feedback in both directions. -/
theorem C130_cfb (key iv : Bytes) (hk : key.length = 16) (hiv : iv.length = 16) :
    (∃ c x, newCipher key = .ok c ∧ newCFB c iv false = .ok x ∧ Enciphers Cfb.xorKeyStream x (cfbEncrypt key iv)) ∧
    (∃ c x, newCipher key = .ok c ∧ newCFB c iv true = .ok x ∧ Enciphers Cfb.xorKeyStream x (cfbDecrypt key iv)) :=
  ⟨cfb_enciphers hk hiv (cfbSpec_enc key iv), cfb_enciphers hk hiv (cfbSpec_dec key iv)⟩

/-- C130: initial vectors of other lengths and destinations that are too short end the program. -/
theorem C130_sizes (c : Cipher) (iv : Bytes) (b : Bool) :
    (iv.length ≠ 16 → newCTR c iv = .panic ∧ newOFB c iv = .panic ∧ newCFB c iv b = .panic) ∧
    ∀ dst src : Bytes, dst.length < src.length → (∀ x : Ctr, x.xorKeyStream dst src = .panic) ∧ (∀ x : Ofb, x.xorKeyStream dst src = .panic) ∧
      ∀ x : Cfb, x.xorKeyStream dst src = .panic := by
  refine ⟨fun h => ⟨by simp [newCTR, h], by simp [newOFB, h], by simp [newCFB, h]⟩, fun dst src h => ⟨fun x => ?_, fun x => ?_, fun x => ?_⟩⟩
  · unfold Ctr.xorKeyStream; rw [if_pos h]
  · unfold Ofb.xorKeyStream; rw [if_pos h]
  · unfold Cfb.xorKeyStream; rw [if_pos h]

theorem withStream_involutive {ks : ℕ → Bytes} (hl : ∀ i, (ks i).length = 16) (m : Bytes) : withStream ks (withStream ks m) = m := by
  rw [withStream_eq hl, length_withStream hl, withStream_eq hl, xor_involutive (by simp)]

theorem cfb_inverse (key iv m : Bytes) : cfbDecrypt key iv (cfbEncrypt key iv m) = m := by
  have hnil : cfbDecrypt key iv (cfbEncrypt key iv []) = [] :=
    List.length_eq_zero_iff.1 (by rw [length_cfbDecrypt, length_cfbEncrypt]; rfl)
  have h : ∀ k m, List.length m ≤ k → cfbDecrypt key iv (cfbEncrypt key iv m) = m := by
    intro k
    induction k with
    | zero =>
      intro m hm
      have : m = [] := List.length_eq_zero_iff.1 (by omega)
      subst this; exact hnil
    | succ k ih =>
      intro m hm
      rcases List.eq_nil_or_concat m with rfl | ⟨h, b, rfl⟩
      · exact hnil
      · rw [List.concat_eq_append] at *
        have hh := ih h (by simp at hm; omega)
        have e1 := (cfbSpec_enc key iv).step h [b] (by simp; omega)
        have hl := length_cfbMask key iv (cfbEncrypt key iv h)
        have e2 := (cfbSpec_dec key iv).step (cfbEncrypt key iv h) (Spec.SM4.xor [b] (cfbMask key iv (cfbEncrypt key iv h)))
          (by rw [length_xor]; simp; omega)
        rw [e1, e2, hh]
        congr 1
        exact xor_involutive (by rw [hl]; simp; omega)
  exact h _ m le_rfl

/-- The sources of calls. -/
def sourceOf (l : List (Bytes × Bytes)) : Bytes := (l.map Prod.snd).flatten

/-- What calls wrote for their sources. -/
def outputOf (os : List Bytes) (l : List (Bytes × Bytes)) : Bytes := (List.zipWith (fun o c => o.take c.2.length) os l).flatten

/-- Whatever the first object makes of a message, the second turns back, with any other division into calls. -/
def Undoes {σ : Type} (f : σ → Bytes → Bytes → Res (Bytes × σ)) (y x : σ) : Prop :=
  ∀ l l' : List (Bytes × Bytes), (∀ c ∈ l, c.2.length ≤ c.1.length) → (∀ c ∈ l', c.2.length ≤ c.1.length) →
    ∃ os os', calls f x l = .ok os ∧ calls f y l' = .ok os' ∧ (sourceOf l' = outputOf os l → outputOf os' l' = sourceOf l)

theorem undoes_of {σ : Type} {f : σ → Bytes → Bytes → Res (Bytes × σ)} {x y : σ} {F G : Bytes → Bytes} (hx : Enciphers f x F)
    (hy : Enciphers f y G) (h : ∀ m, G (F m) = m) : Undoes f y x := by
  intro l l' hl hl'
  obtain ⟨os, e, _, h1, _⟩ := hx l hl
  obtain ⟨os', e', _, h1', _⟩ := hy l' hl'
  refine ⟨os, os', e, e', fun hs => ?_⟩
  unfold outputOf sourceOf at *
  rw [h1', hs, h1, h]

/-- C130: decrypting inverts encrypting in all three modes. -/
theorem C130_inverse (key iv : Bytes) (hk : key.length = 16) (hiv : iv.length = 16) :
    ∃ c, newCipher key = .ok c ∧ (∃ x, newCTR c iv = .ok x ∧ Undoes Ctr.xorKeyStream x x) ∧
      (∃ x, newOFB c iv = .ok x ∧ Undoes Ofb.xorKeyStream x x) ∧
      ∃ x y, newCFB c iv false = .ok x ∧ newCFB c iv true = .ok y ∧ Undoes Cfb.xorKeyStream y x := by
  obtain ⟨c, x1, hc, e1, h1⟩ := C130_ctr key iv hk hiv
  obtain ⟨c2, x2, hc2, e2, h2⟩ := C130_ofb key iv hk hiv
  obtain ⟨⟨c3, x3, hc3, e3, h3⟩, ⟨c4, x4, hc4, e4, h4⟩⟩ := C130_cfb key iv hk hiv
  rw [hc] at hc2 hc3 hc4
  obtain rfl := Res.ok.inj hc2
  obtain rfl := Res.ok.inj hc3
  obtain rfl := Res.ok.inj hc4
  exact ⟨c, hc, ⟨x1, e1, undoes_of h1 h1 (withStream_involutive (length_ctrBlock key iv))⟩,
    ⟨x2, e2, undoes_of h2 h2 (withStream_involutive (length_ofbBlock key iv))⟩, x3, x4, e3, e4, undoes_of h3 h4 (cfb_inverse key iv)⟩

/-- C130: `Encrypt` on memory, as the modes use it, changes the destination as its version on values says, also when source and
destination overlap. -/
theorem C130_value (c : Cipher) (h : Heap) (dst src : Slice) (hd : dst.Valid h) (hs : src.Valid h) (hl : 16 ≤ dst.len) (hl2 : 16 ≤ src.len) :
    ∃ h', c.encryptH h dst src = .ok h' ∧ c.encryptV (dst.get h) (src.get h) = .ok (dst.get h') := by
  have hlt := hd.lt
  have hgl : (dst.get h).length = dst.len := by
    obtain ⟨h1, a, ha, h2⟩ := hd
    simp [Slice.get, ha]; omega
  have hsl : (src.get h).length = src.len := by
    obtain ⟨h1, a, ha, h2⟩ := hs
    simp [Slice.get, ha]; omega
  refine ⟨_, by unfold Cipher.encryptH; rw [if_neg (by omega), if_neg (by omega)], ?_⟩
  unfold Cipher.encryptV
  rw [if_neg (by omega), if_neg (by omega), processBlockH_eq _ _ _ _ hd hl, ← processBlock_take]
  obtain ⟨h1, a, ha, h2⟩ := hd
  congr 1
  generalize hb : processBlock c.enc (src.get h) = blk
  have hbl : blk.length = 16 := by rw [← hb]; exact length_processBlock _ _
  simp only [Slice.get, ha, Option.getD_some, List.getElem?_set_self hlt]
  apply List.ext_getElem?
  intro i
  have hlen : ((a.drop dst.off).take dst.len).length = dst.len := by simp; omega
  rw [getElem?_overwrite (by omega)]
  simp only [List.getElem?_take, List.getElem?_drop]
  rw [getElem?_overwrite (by omega)]
  by_cases hi : i < 16
  · rw [if_pos (by omega), if_pos (by omega), if_pos (by omega)]
    congr 1; omega
  · rw [if_neg (by omega)]
    split
    · rw [if_neg (by omega)]
    · rfl

/-- Key and initial vector of the example in draft-ribose-cfrg-sm4, appendix A. -/
def exStreamKey : Bytes := [0x01, 0x23, 0x45, 0x67, 0x89, 0xab, 0xcd, 0xef, 0xfe, 0xdc, 0xba, 0x98, 0x76, 0x54, 0x32, 0x10]

def exStreamIv : Bytes := [0, 1, 2, 3, 4, 5, 6, 7, 8, 9, 10, 11, 12, 13, 14, 15]

example : exStreamKey.length = 16 ∧ exStreamIv.length = 16 := by decide

/-- Two calls, the first with a destination that is longer than its source: the first bytes of the example for counter mode. -/
example : (do let c ← newCipher exStreamKey; let x ← newCTR c exStreamIv
              calls Ctr.xorKeyStream x [(List.replicate 5 7, List.replicate 3 0xaa), (List.replicate 5 0, List.replicate 5 0xaa)])
    = .ok [[0xac, 0x32, 0x36, 7, 7], [0xcb, 0x97, 0x0c, 0xc2, 0x07]] := by decide +kernel

/-- The counter carries over all its bytes. -/
example : incrLoop 16 (List.replicate 16 0xff) = List.replicate 16 0 := by decide +kernel

/-- The same example for cipher feedback, with a message that ends inside the second block. -/
example : cfbEncrypt exStreamKey exStreamIv (List.replicate 4 0xaa ++ List.replicate 4 0xbb ++ List.replicate 4 0xcc ++ List.replicate 4 0xdd ++
    List.replicate 2 0xee) = [0xac, 0x32, 0x36, 0xcb, 0x86, 0x1d, 0xd3, 0x16, 0xe6, 0x41, 0x3b, 0x4e, 0x3c, 0x75, 0x24, 0xb7, 0x69, 0xd4] := by
  decide +kernel

end Verif.Props
