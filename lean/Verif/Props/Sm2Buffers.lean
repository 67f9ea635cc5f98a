import Verif.Sm2.BuffersExchange
import Verif.Props.Sm2Capacity
import Verif.Props.Sm2Sign
/-!
# C124: SM2 leaves the caller's bytes alone and returns memory of its own

Memory is a list of arrays, byte slices point into it, `make`, `append`, `copy`, `b[i] = v` and the slice expressions act on it
as in Go. `g` says how much spare capacity the library functions leave behind what they allocate.
-/
namespace Verif.Props
open Verif EC Sm2

/-- A call that began with the memory `h` and ended with the outcome and the memory `o` did what the computation `r` on byte
strings does. What was there is still there, and a slice that is returned lies in an array that was not. -/
structure Apart (h : Heap) (o : Res Slice × Heap) (r : Res Bytes) : Prop where
  old : h <+: o.2
  same : (do let s ← o.1; .ok (s.get o.2)) = r
  apart : ∀ s, o.1 = .ok s → h.length ≤ s.arr ∧ s.Valid o.2

/-- The same for calls that return no slice. -/
def LeavesAll {α : Type} (h : Heap) (o : Res α × Heap) (r : Res α) : Prop := h <+: o.2 ∧ o.1 = r

theorem prefix_of_frame {h h' : Heap} (f : Buf.Frame (fun _ => False) h h') : h <+: h' := by
  rw [List.prefix_iff_eq_take]
  refine List.ext_getElem? fun i => ?_
  by_cases hi : i < h.length
  · rw [List.getElem?_take, if_pos hi, f.2 i hi id]
  · rw [List.getElem?_take, if_neg hi, List.getElem?_eq_none (by omega)]

theorem apart_of_gives {h : Heap} {o : Res Slice × Heap} {r : Res Bytes}
    (x : Buf.Gives (fun _ => False) h o r (fun b s h' => Buf.New h b s h')) : Apart h o r := by
  obtain ⟨o, h'⟩ := o
  obtain ⟨x1, x2⟩ := x
  refine ⟨prefix_of_frame x1, ?_, ?_⟩
  · cases o <;> cases r <;> try exact absurd x2 id
    · rw [Res.ok_bind, x2.1.choose_spec.get]
    · exact congrArg Res.err x2
    · rfl
    · rfl
  · intro s e
    cases r <;> cases e <;> try exact absurd x2 id
    exact ⟨x2.2, x2.1.choose_spec.valid⟩

theorem leavesAll_of_gives {α : Type} {h : Heap} {o : Res α × Heap} {r : Res α}
    (x : Buf.Gives (fun _ => False) h o r (fun b a _ => a = b)) : LeavesAll h o r := by
  obtain ⟨o, h'⟩ := o
  obtain ⟨x1, x2⟩ := x
  refine ⟨prefix_of_frame x1, ?_⟩
  cases o <;> cases r <;> try exact absurd x2 id
  · exact congrArg Res.ok x2
  · exact congrArg Res.err x2
  · rfl
  · rfl

theorem has_bytes {h : Heap} {s : Slice} {b : Bytes} (hv : s.Valid h) (hb : s.get h = b) : ∃ sp, Buf.Has h s b sp := by
  rw [← hb]
  exact Buf.has_of_valid hv

variable (g : ℕ → ℕ) (h : Heap)

/-- C124: `Encrypt`, for every plaintext anywhere in memory. Also when it fails, panics or does not return, the plaintext and
everything else is as before. -/
theorem C124_encrypt (pub : PublicKey) (inp : Slice) (hv : inp.Valid h) (t : Int) (tape : Tape) :
    Apart h (Buf.encrypt g pub inp t tape h) (encrypt pub (inp.get h) t tape) :=
  apart_of_gives (Buf.gives_encrypt pub (Buf.has_of_valid hv).choose_spec t tape)

/-- C124: `Decrypt`. -/
theorem C124_decrypt (d : ℕ) (inp : Slice) (hv : inp.Valid h) (t : Int) :
    Apart h (Buf.decrypt g ⟨d⟩ inp t h) (decrypt ⟨d⟩ (inp.get h) t) := by
  rw [← C46_capacity d (inp.get h) (Buf.has_of_valid hv).choose t]
  exact apart_of_gives (Buf.gives_decrypt _ (Buf.has_of_valid hv).choose_spec t)

/-- C124: `MarshalCipher`. -/
theorem C124_marshal (inp : Slice) (hv : inp.Valid h) (t : Int) :
    Apart h (Buf.marshalCipher g inp t h) (marshalCipher (inp.get h) t) := by
  rw [← C63_capacity (inp.get h) (Buf.has_of_valid hv).choose t]
  exact apart_of_gives (Buf.gives_marshalCipher (Buf.has_of_valid hv).choose_spec t)

/-- C124: `UnmarshalCipher`. -/
theorem C124_unmarshal (inp : Slice) (hv : inp.Valid h) (t : Int) :
    Apart h (Buf.unmarshalCipher g inp t h) (unmarshalCipher (inp.get h) t) :=
  apart_of_gives (Buf.gives_unmarshalCipher (Buf.has_of_valid hv).choose_spec t)

/-- C124: the encodings of keys. Each call returns a new array, so a caller who overwrites one (a private key, say) does not
change another. -/
theorem C124_keys (pub : PublicKey) (pri : PrivateKey) :
    Apart h (Buf.getUnCompressBytes g pub h) pub.getUnCompressBytes ∧ Apart h (Buf.getRawBytes g pub h) pub.getRawBytes ∧
    Apart h (Buf.getRawBytesPriv g pri h) pri.getRawBytes :=
  ⟨apart_of_gives ((Buf.gives_unCompress pub).mono (fun _ _ h => h) (fun _ _ _ _ _ hr => hr.1)), apart_of_gives (Buf.gives_rawBytes pub),
    apart_of_gives (Buf.gives_rawBytesPriv pri)⟩

/-- C124: `Sign`. The variable with the default user id keeps its bytes as well, when it is one of the arrays of `h`. -/
theorem C124_sign (dflt : Slice) (hd : dflt.Valid h) (hd' : dflt.get h = defaultUserId) (priv : PrivateKey) (userId : Option Slice)
    (hu : ∀ s ∈ userId, s.Valid h) (inp : Slice) (hv : inp.Valid h) (tape : Tape) :
    Apart h (Buf.sign g dflt priv userId inp tape h) (sign priv (userId.map (Slice.get h)) (inp.get h) tape) :=
  apart_of_gives (Buf.gives_sign (has_bytes hd hd').choose_spec priv hu (Buf.has_of_valid hv).choose_spec tape)

/-- C124: `Verify`. -/
theorem C124_verify (dflt : Slice) (hd : dflt.Valid h) (hd' : dflt.get h = defaultUserId) (pub : PublicKey) (userId : Option Slice)
    (hu : ∀ s ∈ userId, s.Valid h) (src sig : Slice) (hv : src.Valid h) (hs : sig.Valid h) :
    LeavesAll h (Buf.verify g dflt pub userId src sig h) (verify pub (userId.map (Slice.get h)) (src.get h) (sig.get h)) :=
  leavesAll_of_gives (Buf.gives_verify (has_bytes hd hd').choose_spec pub hu (Buf.has_of_valid hv).choose_spec
    (Buf.has_of_valid hs).choose_spec)

/-- The bytes of an `ExchangeResult`. -/
def exchangedBytes (h : Heap) (r : Buf.Exchanged) : ExchangeResult := ⟨r.Key.get h, (r.S1.map (Slice.get h)).getD [], r.S2.get h⟩

/-- The slices of an `ExchangeResult`. -/
def exchangedSlices (r : Buf.Exchanged) : List Slice := r.Key :: r.S2 :: r.S1.toList

/-- C124: `CalculateKeyWithConfirmation`. Ids, confirmation tag and everything else stay as they are; the key and the tags lie in
arrays that were not there, no two of them in the same one. -/
theorem C124_exchange (initiator : Bool) (keyBits : Int) (tag : Option Slice) (d1 d2 : PrivateKey) (selfId : Option Slice)
    (p1 p2 : PublicKey) (otherId : Option Slice) (h1 : ∀ s ∈ tag, s.Valid h) (h2 : ∀ s ∈ selfId, s.Valid h) (h3 : ∀ s ∈ otherId, s.Valid h) :
    let o := Buf.calculateKeyWithConfirmation g initiator keyBits tag d1 d2 selfId p1 p2 otherId h
    h <+: o.2 ∧
    (do let r ← o.1; .ok (exchangedBytes o.2 r)) = calculateKeyWithConfirmation initiator keyBits (tag.map (Slice.get h)) d1 d2
      (selfId.map (Slice.get h)) p1 p2 (otherId.map (Slice.get h)) ∧
    ∀ r, o.1 = .ok r → (∀ s ∈ exchangedSlices r, h.length ≤ s.arr ∧ s.Valid o.2) ∧ (exchangedSlices r).Pairwise (fun a b => a.arr ≠ b.arr) := by
  intro o
  have x := Buf.gives_exchange (g := g) initiator keyBits d1 d2 p1 p2 h1 h2 h3
  change Buf.Gives _ h o _ _ at x
  generalize o = o at x ⊢
  generalize calculateKeyWithConfirmation initiator keyBits (tag.map (Slice.get h)) d1 d2 (selfId.map (Slice.get h)) p1 p2
    (otherId.map (Slice.get h)) = r at x ⊢
  obtain ⟨o, h'⟩ := o
  obtain ⟨x1, x2⟩ := x
  refine ⟨prefix_of_frame x1, ?_⟩
  cases o with
  | err e => cases r <;> first | exact ⟨congrArg Res.err x2, fun _ e => nomatch e⟩ | exact absurd x2 id
  | panic => cases r <;> first | exact ⟨rfl, fun _ e => nomatch e⟩ | exact absurd x2 id
  | loop => cases r <;> first | exact ⟨rfl, fun _ e => nomatch e⟩ | exact absurd x2 id
  | ok a =>
    cases r with
    | err _ => exact absurd x2 id
    | panic => exact absurd x2 id
    | loop => exact absurd x2 id
    | ok v =>
      obtain ⟨k, s1, s2⟩ := a
      obtain ⟨vk, v1, v2⟩ := v
      obtain ⟨nk, n2, hne, n1⟩ := x2
      have ek := nk.1.choose_spec.get
      have e2 := n2.1.choose_spec.get
      have wk := nk.1.choose_spec.valid
      have w2 := n2.1.choose_spec.valid
      dsimp only at *
      rw [Res.ok_bind]
      cases s1 with
      | none =>
        refine ⟨?_, ?_⟩
        · change v1 = [] at n1
          rw [exchangedBytes, ek, e2, n1]
          rfl
        · rintro _ ⟨rfl⟩
          refine ⟨?_, ?_⟩
          · intro s hs
            simp only [exchangedSlices, Option.toList_none, List.mem_cons, List.not_mem_nil, or_false] at hs
            rcases hs with rfl | rfl
            · exact ⟨nk.2, wk⟩
            · exact ⟨n2.2, w2⟩
          · simpa [exchangedSlices] using hne
      | some s =>
        obtain ⟨n1, d1, d2⟩ := n1
        have e1 := n1.1.choose_spec.get
        have w1 := n1.1.choose_spec.valid
        refine ⟨?_, ?_⟩
        · rw [exchangedBytes, ek, e2, Option.map_some, Option.getD_some, e1]
        · rintro _ ⟨rfl⟩
          refine ⟨?_, ?_⟩
          · intro s' hs
            simp only [exchangedSlices, Option.toList_some, List.mem_cons, List.not_mem_nil, or_false] at hs
            rcases hs with rfl | rfl | rfl
            · exact ⟨nk.2, wk⟩
            · exact ⟨n2.2, w2⟩
            · exact ⟨n1.2, w1⟩
          · simp only [exchangedSlices, Option.toList_some, List.pairwise_cons, List.mem_cons, List.not_mem_nil, or_false, forall_eq_or_imp,
              forall_eq, List.Pairwise.nil, and_true, false_implies, implies_true]
            exact ⟨⟨hne, fun e => d1 e.symm⟩, fun e => d2 e.symm⟩

variable {h}

/-- C124: what is returned stays the same whatever happens to the old arrays afterwards, and writing to it changes none of them. -/
theorem C124_later {o : Res Slice × Heap} {r : Res Bytes} (x : Apart h o r) {s : Slice} (hs : o.1 = .ok s) :
    (∀ h' : Heap, (∀ i, h.length ≤ i → h'[i]? = o.2[i]?) → s.get h' = s.get o.2) ∧ ∀ bs : Bytes, h <+: (Buf.store s bs o.2).2 := by
  obtain ⟨a, b⟩ := x.apart s hs
  refine ⟨fun h' hh => by rw [Slice.get, Slice.get, hh _ a], fun bs => ?_⟩
  refine prefix_of_frame ⟨?_, fun i hi _ => ?_⟩
  · have := x.old.length_le
    simpa [Buf.store] using this
  · show (o.2.set s.arr _)[i]? = _
    rw [List.getElem?_set_ne (by omega)]
    obtain ⟨t, ht⟩ := x.old
    rw [← ht, List.getElem?_append_left hi]

/-- C124: a plaintext that is encrypted, and the ciphertext decrypted with the key that belongs to it, is there twice afterwards,
in arrays of its own, and the ciphertext still is what `Encrypt` returned. -/
theorem C124_round_trip (d : ℕ) (pub : PublicKey) (hpub : calculatePubKey ⟨d⟩ = .ok pub) (inp : Slice) (hv : inp.Valid h) (t : Int)
    (tape : Tape) (c : Slice) (hc : (Buf.encrypt g pub inp t tape h).1 = .ok c) :
    ∃ m h', Buf.decrypt g ⟨d⟩ c t (Buf.encrypt g pub inp t tape h).2 = (.ok m, h') ∧ m.get h' = inp.get h ∧ inp.get h' = inp.get h ∧
      c.get h' = c.get (Buf.encrypt g pub inp t tape h).2 ∧ m.arr ≠ inp.arr ∧ m.arr ≠ c.arr ∧ c.arr ≠ inp.arr := by
  have x := C124_encrypt g h pub inp hv t tape
  generalize Buf.encrypt g pub inp t tape h = o at x hc ⊢
  obtain ⟨e, h1⟩ := o
  dsimp only at hc
  subst hc
  obtain ⟨a, b⟩ := x.apart c rfl
  have e1 := x.same
  rw [Res.ok_bind] at e1
  have e2 := (C42_round_trip d pub hpub _ _ _ _ e1.symm).1
  have y := C124_decrypt g h1 d c b t
  have hl := x.old.length_le
  have gi : ∀ {s : Slice} {u v : Heap}, u <+: v → s.arr < u.length → s.get v = s.get u := by
    rintro s u v ⟨w, rfl⟩ hs
    rw [Slice.get, Slice.get, List.getElem?_append_left hs]
  have hi : inp.arr < h.length := (Buf.has_of_valid hv).choose_spec.lt
  have hcl : c.arr < h1.length := (Buf.has_of_valid b).choose_spec.lt
  dsimp only at hl e1 e2 y ⊢
  generalize Buf.decrypt g ⟨d⟩ c t h1 = o at y ⊢
  obtain ⟨e, h2⟩ := o
  have e3 := y.same
  rw [e2, Res.bind_eq_ok] at e3
  obtain ⟨m, rfl, e4⟩ := e3
  rw [Res.ok.injEq] at e4
  have := (y.apart m rfl).1
  exact ⟨m, h2, rfl, e4, by rw [gi y.old (by omega), gi x.old hi], gi y.old hcl, by omega, by omega, by omega⟩

/-! Concrete cases: the ciphertext of the byte `a` in the middle of an array; the key stream that `kdf` does add in place. -/

def bufExample : Heap := [[9], [7, 7] ++ exC1 ++ exC2 ++ exC3 ++ [8, 8]]

example : Slice.Valid bufExample ⟨1, 2, 98, 100⟩ := ⟨by decide, _, rfl, by decide +kernel⟩
example : (Buf.decrypt (fun _ => 3) ⟨(2 : ℕ)⟩ ⟨1, 2, 98, 100⟩ 1 bufExample).1 = .ok ⟨3, 0, 1, 1⟩ := by decide +kernel
example : (Buf.decrypt (fun _ => 3) ⟨(2 : ℕ)⟩ ⟨1, 2, 98, 100⟩ 1 bufExample).2.take 2 = bufExample ∧
    (Buf.decrypt (fun _ => 3) ⟨(2 : ℕ)⟩ ⟨1, 2, 98, 100⟩ 1 bufExample).2[3]? = some [0x61] := by decide +kernel
/-- The hypotheses of the round trip: the byte `a` in the middle of an array, encrypted to the key of 2. -/
example : ∃ pub c, calculatePubKey ⟨(2 : ℕ)⟩ = .ok pub ∧ Slice.Valid [[7, 0x61, 8]] ⟨0, 1, 1, 2⟩ ∧
    (Buf.encrypt (fun _ => 3) pub ⟨0, 1, 1, 2⟩ 1 [some (toBE 32 3)] [[7, 0x61, 8]]).1 = .ok c := by
  have hv : Slice.Valid [[7, 0x61, 8]] ⟨0, 1, 1, 2⟩ := ⟨by decide, _, rfl, by decide⟩
  obtain ⟨pub, h1, h2⟩ := (Res.bind_eq_ok ..).1 example_encrypt
  obtain ⟨c, h3, _⟩ := (Res.bind_eq_ok ..).1 ((C124_encrypt (fun _ => 3) _ pub ⟨0, 1, 1, 2⟩ hv 1 [some (toBE 32 3)]).same.trans h2)
  exact ⟨pub, c, h1, hv, h3⟩
example : ((Buf.kdf (fun _ => 3) 1 2 ⟨0, 1, 1, 1⟩ [[5, 0, 6]]).2)[0]? ≠ some [5, 0, 6] := by decide +kernel

end Verif.Props
