import Verif.Sm3.Hmac
import Verif.Props.Sm3
/-!
# HMAC with the hash object of this package (C99)
-/
namespace Verif.Props
open Verif Verif.Sm3

attribute [local irreducible] Spec.SM3.hash

/-- Calls of `Write` on the hmac object. -/
def hmacWriteAll : Hmac → List Bytes → Res Hmac
  | h, [] => .ok h
  | h, p :: ps => do
    let h ← hmacWrite h p
    hmacWriteAll h ps

/-- The 16 bytes of the key that the code uses. -/
def key16 (key : Bytes) : Bytes := copyPad 16 (if key.length > 16 then Spec.SM3.hash key else key)

theorem length_copyPad (n : Nat) (l : Bytes) : (copyPad n l).length = n := by
  unfold copyPad; rw [List.length_append, List.length_take, List.length_replicate]; omega

/-- The object has been fed `m`. -/
structure HmacAbs (h : Hmac) (key m : Bytes) : Prop where
  opad : h.opad = (key16 key).map (· ^^^ 0x5c)
  ipad : h.ipad = (key16 key).map (· ^^^ 0x36)
  outer : Shape h.outer
  inner : Abs h.inner ((key16 key).map (· ^^^ 0x36) ++ m)
  count : h.inner.byteCount = BitVec.ofNat 64 ((key16 key).map (· ^^^ 0x36) ++ m).length

theorem pad_ok (key : Bytes) (b : Byte) : (key16 key).map (· ^^^ b) ≠ [] ∧ ((key16 key).map (· ^^^ b)).length = 16 := by
  have h : ((key16 key).map (· ^^^ b)).length = 16 := by rw [List.length_map, key16, length_copyPad]
  exact ⟨fun h' => by rw [h'] at h; simp at h, h⟩

theorem hmacNew_abs (key : Bytes) (hk : key.length < 2 ^ 31) : ∃ h, hmacNew key = .ok h ∧ HmacAbs h key [] := by
  have fin : ∀ (r : Bytes × Digest), Shape r.2 → copyPad blockSize r.1 = key16 key → ∃ h, (do
      let inner ← write new ((copyPad blockSize r.1).map (· ^^^ 0x36))
      Res.ok (Hmac.mk ((copyPad blockSize r.1).map (· ^^^ 0x5c)) ((copyPad blockSize r.1).map (· ^^^ 0x36)) r.2 inner)) = .ok h ∧
      HmacAbs h key [] := by
    intro r hr he
    rw [he]
    obtain ⟨p1, p2⟩ := pad_ok key 0x36
    obtain ⟨d1, h1, h2, h3⟩ := write_ok new_abs ((key16 key).map (· ^^^ 0x36)) p1 (by omega)
    rw [h1, Res.ok_bind]
    refine ⟨_, rfl, rfl, rfl, hr, ?_, ?_⟩
    · rw [List.append_nil]; exact h2
    · rw [List.append_nil]
      show d1.byteCount = _
      rw [h3]; simp [new, reset]
  unfold hmacNew
  split
  · rename_i hgt
    have hne : key ≠ [] := by rintro rfl; simp at hgt
    obtain ⟨d1, h1, h2, h3⟩ := write_ok new_abs key hne hk
    obtain ⟨d2, g1, g2⟩ := checkSum_ok h2 (by rw [h3]; simp [new, reset])
    rw [h1, Res.ok_bind]
    unfold sumMethod
    rw [g1, Res.ok_bind]
    dsimp only
    rw [Res.ok_bind]
    refine fin (_, d2) g2.shape ?_
    unfold key16
    rw [if_pos (show key.length > 16 from hgt)]
    rfl
  · rename_i hgt
    rw [Res.ok_bind]
    refine fin (_, _) new_abs.shape ?_
    unfold key16
    rw [if_neg (show ¬ key.length > 16 from hgt)]
    rfl

theorem hmacWriteAll_abs {key : Bytes} (cs : List Bytes) (hc : GoodChunks cs) {h : Hmac} {m : Bytes} (ha : HmacAbs h key m) :
    ∃ h', hmacWriteAll h cs = .ok h' ∧ HmacAbs h' key (m ++ cs.flatten) := by
  induction cs generalizing h m with
  | nil => exact ⟨h, rfl, by simpa using ha⟩
  | cons p ps ih =>
    have hp := hc p (by simp)
    obtain ⟨d1, h1, h2, h3⟩ := write_ok ha.inner p hp.1 hp.2
    rw [hmacWriteAll, hmacWrite, h1, Res.ok_bind, Res.ok_bind]
    obtain ⟨h', g1, g2⟩ := ih (fun q hq => hc q (by simp [hq])) (h := { h with inner := d1 }) (m := m ++ p) ⟨ha.opad, ha.ipad, ha.outer, by
      rw [← List.append_assoc]; exact h2, by
      rw [← List.append_assoc]
      show d1.byteCount = _
      rw [h3, ha.count, List.length_append (bs := p), BitVec.ofNat_add]⟩
    exact ⟨h', g1, by simpa using g2⟩

theorem hmacSum_abs {key : Bytes} {h : Hmac} {m : Bytes} (ha : HmacAbs h key m) (b : Bytes) : ∃ h',
    hmacSum h b = .ok (b ++ Spec.SM3.hash ((key16 key).map (· ^^^ 0x5c) ++ Spec.SM3.hash ((key16 key).map (· ^^^ 0x36) ++ m)), h') ∧
      h'.opad = h.opad ∧ h'.ipad = h.ipad ∧ Shape h'.outer ∧ Shape h'.inner := by
  obtain ⟨d2, g1, g2⟩ := checkSum_ok ha.inner ha.count
  unfold hmacSum sumMethod
  rw [g1, Res.ok_bind]
  dsimp only
  rw [Res.ok_bind]
  dsimp only
  rw [reset_eq_new ha.outer, ha.opad]
  obtain ⟨p1, p2⟩ := pad_ok key 0x5c
  obtain ⟨d3, h1, h2, h3⟩ := write_ok new_abs _ p1 (by omega)
  rw [h1, Res.ok_bind, List.drop_left, List.take_left]
  have hl := C01_hash_length ((key16 key).map (· ^^^ 0x36) ++ m)
  obtain ⟨d4, k1, k2, k3⟩ := write_ok h2 (Spec.SM3.hash ((key16 key).map (· ^^^ 0x36) ++ m)) (fun h' => by rw [h'] at hl; simp at hl) (by omega)
  rw [k1, Res.ok_bind]
  obtain ⟨d5, q1, q2⟩ := checkSum_ok k2 (by rw [k3, h3]; simp [new, reset, BitVec.ofNat_add])
  rw [q1, Res.ok_bind]
  exact ⟨_, rfl, rfl, rfl, q2.shape, g2.shape⟩

/-- C99, what holds: with `hmac.New(sm3.New, key)`, writes of the chunks and one `Sum`, the result is HMAC with the hash SM3, but
with 16 bytes of key instead of a block of 64. For all keys below 2 GiB and all messages in acceptable chunks (also none). -/
theorem C99_value_partial (key b : Bytes) (hk : key.length < 2 ^ 31) (cs : List Bytes) (hc : GoodChunks cs) : ∃ h',
    (do let h ← hmacNew key
        let h ← hmacWriteAll h cs
        hmacSum h b) = .ok (b ++ Spec.SM3.hash ((key16 key).map (· ^^^ 0x5c) ++ Spec.SM3.hash ((key16 key).map (· ^^^ 0x36) ++ cs.flatten)), h') := by
  obtain ⟨h0, h1, h2⟩ := hmacNew_abs key hk
  obtain ⟨h3, h4, h5⟩ := hmacWriteAll_abs cs hc h2
  obtain ⟨h', h6, _⟩ := hmacSum_abs h5 b
  rw [h1, Res.ok_bind, h4, Res.ok_bind]
  exact ⟨h', h6⟩

/-- C99, what holds: for keys of at most 16 bytes this is the HMAC formula with `B = 16`. -/
theorem C99_formula_partial (key b : Bytes) (hk : key.length ≤ 16) (cs : List Bytes) (hc : GoodChunks cs) : ∃ h',
    (do let h ← hmacNew key
        let h ← hmacWriteAll h cs
        hmacSum h b) = .ok (b ++ Spec.SM3.hmac 16 key cs.flatten, h') := by
  obtain ⟨h', h⟩ := C99_value_partial key b (by omega) cs hc
  have e : key16 key = key ++ List.replicate (16 - key.length) 0 := by
    unfold key16 copyPad
    rw [if_neg (by omega), List.take_of_length_le hk]
  refine ⟨h', h.trans ?_⟩
  unfold Spec.SM3.hmac
  dsimp only
  rw [if_neg (by omega), e]

/-- C99, what holds: `Reset` makes the object as good as new, also after `Sum`. -/
theorem C99_reset (key b b' : Bytes) (hk : key.length < 2 ^ 31) (cs cs' : List Bytes) (hc : GoodChunks cs) (hc' : GoodChunks cs') :
    ∃ o h1 h2, (do let h ← hmacNew key
                   let h ← hmacWriteAll h cs
                   let r ← hmacSum h b
                   let h ← hmacReset r.2
                   let h ← hmacWriteAll h cs'
                   hmacSum h b') = .ok (o, h1) ∧
      (do let h ← hmacNew key
          let h ← hmacWriteAll h cs'
          hmacSum h b') = .ok (o, h2) := by
  obtain ⟨h0, h1, h2⟩ := hmacNew_abs key hk
  obtain ⟨h3, h4, h5⟩ := hmacWriteAll_abs cs hc h2
  obtain ⟨h6, e1, e2, e3, e4, e5⟩ := hmacSum_abs h5 b
  obtain ⟨p1, p2⟩ := pad_ok key 0x36
  obtain ⟨d1, w1, w2, w3⟩ := write_ok new_abs ((key16 key).map (· ^^^ 0x36)) p1 (by omega)
  have hr : hmacReset h6 = .ok { h6 with inner := d1 } := by
    unfold hmacReset
    rw [reset_eq_new e5, e3, h5.ipad, w1, Res.ok_bind]
  have ha : HmacAbs { h6 with inner := d1 } key [] := ⟨by rw [← h5.opad, ← e2], by rw [← h5.ipad, ← e3], e4, by
    rw [List.append_nil]; exact w2, by
    rw [List.append_nil]
    show d1.byteCount = _
    rw [w3]; simp [new, reset]⟩
  obtain ⟨h7, f1, f2⟩ := hmacWriteAll_abs cs' hc' ha
  obtain ⟨h8, f3, _⟩ := hmacSum_abs f2 b'
  obtain ⟨h9, f4, f5⟩ := hmacWriteAll_abs cs' hc' h2
  obtain ⟨h10, f6, _⟩ := hmacSum_abs f5 b'
  refine ⟨b' ++ Spec.SM3.hash ((key16 key).map (· ^^^ 0x5c) ++ Spec.SM3.hash ((key16 key).map (· ^^^ 0x36) ++ ([] ++ cs'.flatten))), h8, h10, ?_, ?_⟩
  · rw [h1, Res.ok_bind, h4, Res.ok_bind, e1, Res.ok_bind, hr, Res.ok_bind, f1, Res.ok_bind, f3]
  · rw [h1, Res.ok_bind, f4, Res.ok_bind, f6]

theorem hash_of_sum {m v : Bytes} (hne : m ≠ []) (hl : m.length < 2 ^ 31) (h : sum m = .ok v) : Spec.SM3.hash m = v := by
  rw [C01_sum_conforms m hne hl, Res.ok.injEq] at h
  exact h

/-- C99 is violated: HMAC-SM3 of the message "a" under the key "k". (The standard's value is 20af94a3…, the code's e2ca2848….) -/
theorem C99_standard_violated : ∃ h', (do
      let h ← hmacNew [0x6b]
      let h ← hmacWriteAll h [[0x61]]
      hmacSum h []) = .ok (toBE 32 0xe2ca2848df0634ddae20fa6222b685fab7a929bfbd46477d451bf874774a2160, h') ∧
    Spec.SM3.hmac 64 [0x6b] [0x61] ≠ toBE 32 0xe2ca2848df0634ddae20fa6222b685fab7a929bfbd46477d451bf874774a2160 := by
  have hs : Spec.SM3.hmac 64 [0x6b] [0x61] = toBE 32 0x20af94a3028844f6d8582f95252e23aae4e65f2d35e062dc8b27a6e2b655050b := by
    unfold Spec.SM3.hmac
    dsimp only
    rw [if_neg (by decide), hash_of_sum (m := (([0x6b] ++ List.replicate (64 - [(0x6b : Byte)].length) 0 : Bytes)).map (· ^^^ 0x36) ++ [0x61])
      (v := toBE 32 0x57fa89dbc649fb3784cab41e231be5369bc4a2bc0949fb2d5afaa02f35801836) (by decide) (by decide) (by decide +kernel)]
    exact hash_of_sum (by decide) (by decide) (by decide +kernel)
  have hm : Spec.SM3.hmac 16 [0x6b] [0x61] = toBE 32 0xe2ca2848df0634ddae20fa6222b685fab7a929bfbd46477d451bf874774a2160 := by
    unfold Spec.SM3.hmac
    dsimp only
    rw [if_neg (by decide), hash_of_sum (m := (([0x6b] ++ List.replicate (16 - [(0x6b : Byte)].length) 0 : Bytes)).map (· ^^^ 0x36) ++ [0x61])
      (v := toBE 32 0x6fd64f053ca20ca607d6bb840677b820013bea12cab8ef564213ecd654dbb2b8) (by decide) (by decide) (by decide +kernel)]
    exact hash_of_sum (by decide) (by decide) (by decide +kernel)
  obtain ⟨h', h⟩ := C99_formula_partial [0x6b] [] (by decide) [[0x61]] (by intro p hp; simp at hp; subst hp; decide)
  rw [List.nil_append, show [[(0x61 : Byte)]].flatten = [0x61] from rfl, hm] at h
  exact ⟨h', h, by rw [hs]; decide +kernel⟩

/-- C99 is violated: `Sum` called twice returns two different values. -/
theorem C99_twice_violated : ∃ h h1 h2 o1 o2, hmacNew [0x6b] = .ok h ∧ hmacSum h [] = .ok (o1, h1) ∧ hmacSum h1 [] = .ok (o2, h2) ∧ o1 ≠ o2 := by
  have key : (do let h ← hmacNew [0x6b]
                 let r1 ← hmacSum h []
                 let r2 ← hmacSum r1.2 []
                 Res.ok (decide (r1.1 = r2.1))) = Res.ok false := by decide +kernel
  obtain ⟨h, h1, key⟩ := (Res.bind_eq_ok ..).1 key
  obtain ⟨r1, h2, key⟩ := (Res.bind_eq_ok ..).1 key
  obtain ⟨r2, h3, key⟩ := (Res.bind_eq_ok ..).1 key
  rw [Res.ok.injEq, decide_eq_false_iff_not] at key
  exact ⟨h, r1.2, r2.2, r1.1, r2.1, h1, h2, h3, key⟩

end Verif.Props
