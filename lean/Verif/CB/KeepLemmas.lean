import Verif.CB.BuilderMemory
import Verif.Util.HeapLemmas
/-!
# A builder writes only behind what it holds

`s0` is what the outermost builder held at some moment and `n0` the number of arrays then. From then on the bytes of
these arrays change in the spare capacity of `s0` only.
-/
namespace Verif.CB
open Verif

/-- Between `h` and `h'` the first `n0` arrays change in the spare capacity of `s0` only; no array is resized. -/
def Kept (s0 : Slice) (n0 : Nat) (h h' : Heap) : Prop :=
  h.length ≤ h'.length ∧ ∀ (i : Nat) (a : Bytes), h[i]? = some a → ∃ a', h'[i]? = some a' ∧ a'.length = a.length ∧
    ∀ j, (i < n0 ∧ (i ≠ s0.arr ∨ j < s0.off + s0.len ∨ s0.off + s0.cap ≤ j)) → a'[j]? = a[j]?

theorem Kept.refl (s0 : Slice) (n0 : Nat) (h : Heap) : Kept s0 n0 h h := ⟨Nat.le_refl _, fun _ a ha => ⟨a, ha, rfl, fun _ _ => rfl⟩⟩

theorem Kept.trans {s0 : Slice} {n0 : Nat} {h1 h2 h3 : Heap} (a : Kept s0 n0 h1 h2) (b : Kept s0 n0 h2 h3) : Kept s0 n0 h1 h3 := by
  refine ⟨Nat.le_trans a.1 b.1, fun i x hx => ?_⟩
  obtain ⟨y, hy, l1, e1⟩ := a.2 i x hx
  obtain ⟨z, hz, l2, e2⟩ := b.2 i y hy
  exact ⟨z, hz, by omega, fun j hj => (e2 j hj).trans (e1 j hj)⟩

theorem Kept.ext {s0 : Slice} {n0 : Nat} {h h' : Heap} (a : Kept s0 n0 h h') : h.Ext h' := fun i x hx => by
  obtain ⟨y, hy, l, _⟩ := a.2 i x hx
  exact ⟨y, hy, l⟩

/-- A buffer that begins with `s0`, or one that was allocated since. -/
structure Up (s0 : Slice) (n0 : Nat) (h : Heap) (s : Slice) : Prop where
  valid : s.Valid h
  old : n0 ≤ h.length
  len : s0.len ≤ s.len
  place : (s.arr = s0.arr ∧ s.off = s0.off ∧ s.cap = s0.cap) ∨ n0 ≤ s.arr

theorem Up.mono {s0 : Slice} {n0 : Nat} {h h' : Heap} {s : Slice} (hu : Up s0 n0 h s) (hk : Kept s0 n0 h h') : Up s0 n0 h' s :=
  ⟨hu.valid.mono hk.ext, Nat.le_trans hu.old hk.1, hu.len, hu.place⟩

/-- A store behind the length of `s0`. -/
theorem kept_set {s0 : Slice} {n0 : Nat} {h : Heap} {s : Slice} (hu : Up s0 n0 h s) {i : Nat} {bs : Bytes} (hi : i + bs.length ≤ s.cap)
    (hl : s.arr < n0 → s0.len ≤ i) :
    Kept s0 n0 h (h.set s.arr (overwrite ((h[s.arr]?).getD []) (s.off + i) bs)) := by
  obtain ⟨⟨_, a, ha, hlen⟩, _, _, hp⟩ := hu
  refine ⟨by simp, fun k x hx => ?_⟩
  by_cases hk : k = s.arr
  · subst hk
    rw [ha] at hx
    cases hx
    have hlt : s.arr < h.length := (List.getElem?_eq_some_iff.1 ha).1
    refine ⟨overwrite a (s.off + i) bs, by rw [List.getElem?_set_self hlt, ha]; rfl, length_overwrite (by omega), fun j hj => ?_⟩
    rw [getElem?_overwrite (by omega), if_neg]
    obtain ⟨hn, hj⟩ := hj
    have := hl hn
    rcases hp with ⟨e1, e2, e3⟩ | hp
    · rcases hj with hj | hj | hj
      · exact absurd e1 hj
      · omega
      · omega
    · omega
  · exact ⟨x, by rw [List.getElem?_set_ne (Ne.symm hk), hx], rfl, fun _ _ => rfl⟩

theorem goAppend_up {s0 : Slice} {n0 : Nat} {h : Heap} {s : Slice} (spare : Nat) (hu : Up s0 n0 h s) (bs : Bytes) :
    Kept s0 n0 h (goAppend spare h s bs).1 ∧ Up s0 n0 (goAppend spare h s bs).1 (goAppend spare h s bs).2 ∧
      s.len ≤ (goAppend spare h s bs).2.len := by
  have hv := goAppend_valid (spare := spare) (ext := bs) hu.valid
  have hl := goAppend_len (spare := spare) (h := h) (s := s) (ext := bs)
  have hold := hu.old
  revert hv hl
  unfold goAppend
  split
  · rename_i hfit
    intro hv _
    have hk : Kept s0 n0 h (h.set s.arr (overwrite ((h[s.arr]?).getD []) (s.off + s.len) bs)) := by
      exact kept_set hu hfit fun _ => hu.len
    exact ⟨hk, ⟨hv, by simpa using hold, Nat.le_trans hu.len (by simp), hu.place⟩, by simp⟩
  · intro hv _
    refine ⟨⟨by simp, fun i a ha => ⟨a, ?_, rfl, fun _ _ => rfl⟩⟩, ⟨hv, by simp; omega, Nat.le_trans hu.len (by simp), .inr hold⟩, by simp⟩
    have hlt : i < h.length := (List.getElem?_eq_some_iff.1 ha).1
    rw [List.getElem?_append_left hlt, ha]

/-- What an operation on a builder leaves behind, in every outcome. -/
def ExKept {α : Type} (s0 : Slice) (n0 : Nat) (h : Heap) (P : Heap → α → Prop) (e : Except Heap (Heap × α)) : Prop :=
  match e with
  | .error h' => Kept s0 n0 h h'
  | .ok (h', x) => Kept s0 n0 h h' ∧ P h' x

theorem ExKept.trans {α : Type} {s0 : Slice} {n0 : Nat} {h h1 : Heap} {P : Heap → α → Prop} {e : Except Heap (Heap × α)}
    (hk : Kept s0 n0 h h1) (he : ExKept s0 n0 h1 P e) : ExKept s0 n0 h P e := by
  revert he
  unfold ExKept
  split
  · exact fun he => hk.trans he
  · exact fun he => ⟨hk.trans he.1, he.2⟩

theorem addBytes_up (g : Growth) {s0 : Slice} {n0 : Nat} {h : Heap} {b : Bd} (hb : Up s0 n0 h b.result) (bs : Bytes) :
    Kept s0 n0 h (addBytes g h b bs).1 ∧ Up s0 n0 (addBytes g h b bs).1 (addBytes g h b bs).2.result ∧
      (addBytes g h b bs).2.offset = b.offset ∧ (addBytes g h b bs).2.pendingLenLen = b.pendingLenLen := by
  unfold addBytes
  split
  · exact ⟨.refl _ _ _, hb, rfl, rfl⟩
  · split
    · exact ⟨.refl _ _ _, hb, rfl, rfl⟩
    · have := goAppend_up (g h b.result bs.length) hb bs
      exact ⟨this.1, this.2.1, rfl, rfl⟩

theorem setByte_up {s0 : Slice} {n0 : Nat} {h : Heap} {s : Slice} (hb : Up s0 n0 h s) (i : Nat) (hi : s0.len ≤ i) (v : Byte) :
    match setByte h s i v with
    | .error h' => Kept s0 n0 h h'
    | .ok h' => Kept s0 n0 h h' := by
  unfold setByte
  by_cases hc : i < s.len
  · rw [if_pos hc]
    have := hb.valid.1
    exact kept_set hb (by simp; omega) fun _ => hi
  · rw [if_neg hc]
    exact .refl _ _ _

theorem storeLen_up {s0 : Slice} {n0 : Nat} {s : Slice} (off : Nat) (ho : s0.len ≤ off) : ∀ (k : Nat) {h : Heap} (l : Nat),
    Up s0 n0 h s → ExKept s0 n0 h (fun _ _ => True) (storeLen s off k h l) := by
  intro k
  induction k with
  | zero => intro h l _; exact ⟨.refl _ _ _, trivial⟩
  | succ k ih =>
    intro h l hr
    unfold storeLen
    have h1 := setByte_up hr (off + k) (by omega) (BitVec.ofNat 8 l)
    split
    · rename_i h' e
      rw [e] at h1
      exact h1
    · rename_i h' e
      rw [e] at h1
      exact (ih (l / 256) (hr.mono h1)).trans h1

theorem flushLen_up {s0 : Slice} {n0 : Nat} {h : Heap} {child b : Bd} (hc : Up s0 n0 h child.result) (ho : s0.len ≤ child.offset)
    (hb : Up s0 n0 h b.result) (l : Nat) :
    ExKept s0 n0 h (fun h' b' => Up s0 n0 h' b'.result ∧ b'.offset = b.offset) (flushLen h child b l) := by
  unfold flushLen
  have h1 := storeLen_up child.offset ho child.pendingLenLen l hc
  split
  · rename_i h' e
    rw [e] at h1
    exact h1
  · rename_i h' l' e
    rw [e] at h1
    have hk : Kept s0 n0 h h' := h1.1
    split
    · exact ⟨hk, hb.mono hk, rfl⟩
    · split
      · exact ⟨hk, hc.mono hk, rfl⟩
      · exact ⟨hk, hb.mono hk, rfl⟩

theorem copyUp_up {s0 : Slice} {n0 : Nat} {h : Heap} {s : Slice} (hb : Up s0 n0 h s) (to from' : Nat) (ht : s0.len ≤ to) :
    match copyUp h s to from' with
    | .error h' => Kept s0 n0 h h'
    | .ok h' => Kept s0 n0 h h' := by
  unfold copyUp
  by_cases hc : to ≤ s.len ∧ from' ≤ s.len
  · rw [if_pos hc]
    have := hb.valid.1
    exact kept_set hb (by simp; omega) fun _ => ht
  · rw [if_neg hc]
    exact .refl _ _ _

theorem makeRoom_up (g : Growth) {s0 : Slice} {n0 : Nat} {h : Heap} {child : Bd} (hc : Up s0 n0 h child.result)
    (ho : s0.len ≤ child.offset) (n : Nat) :
    ExKept s0 n0 h (fun h' b' => Up s0 n0 h' b'.result ∧ b'.offset = child.offset) (makeRoom g h child n) := by
  unfold makeRoom
  split
  · have h1 := addBytes_up g hc (List.replicate n 0)
    simp only
    have h2 := copyUp_up h1.2.1 ((addBytes g h child (List.replicate n 0)).2.offset + (addBytes g h child (List.replicate n 0)).2.pendingLenLen + n)
      ((addBytes g h child (List.replicate n 0)).2.offset + (addBytes g h child (List.replicate n 0)).2.pendingLenLen)
      (by rw [h1.2.2.1]; omega)
    split
    · rename_i h' e
      rw [e] at h2
      exact h1.1.trans h2
    · rename_i h' e
      rw [e] at h2
      exact ⟨h1.1.trans h2, h1.2.1.mono h2, h1.2.2.1⟩
  · exact ⟨.refl _ _ _, hc, rfl⟩

theorem flushASN1_up (g : Growth) {s0 : Slice} {n0 : Nat} {h : Heap} {child b : Bd} (hc : Up s0 n0 h child.result)
    (ho : s0.len ≤ child.offset) (hb : Up s0 n0 h b.result) (l : Nat) :
    ExKept s0 n0 h (fun h' b' => Up s0 n0 h' b'.result ∧ b'.offset = b.offset) (flushASN1 g h child b l) := by
  unfold flushASN1
  split
  · exact .refl _ _ _
  · split
    · exact ⟨.refl _ _ _, hb, rfl⟩
    · simp only
      have h1 := setByte_up hc child.offset ho (asn1LenForm l).2.1
      split
      · rename_i h' e
        rw [e] at h1
        exact h1
      · rename_i h' e
        rw [e] at h1
        have h2 := makeRoom_up g (hc.mono h1) ho ((asn1LenForm l).1 - 1)
        split
        · rename_i h'' e
          rw [e] at h2
          exact h1.trans h2
        · rename_i h'' c' e
          rw [e] at h2
          have hk : Kept s0 n0 h' h'' := h2.1
          have ho' : c'.offset = child.offset := h2.2.2
          exact ExKept.trans (h1.trans hk) (flushLen_up
            (child := { c' with offset := c'.offset + 1, pendingLenLen := (asn1LenForm l).1 - 1 })
            h2.2.1 (by simp only; omega) ((hb.mono h1).mono hk) (asn1LenForm l).2.2)

theorem flush1_up (g : Growth) {s0 : Slice} {n0 : Nat} {h : Heap} {child b : Bd} (hc : Up s0 n0 h child.result)
    (ho : s0.len ≤ child.offset) (hb : Up s0 n0 h b.result) :
    ExKept s0 n0 h (fun h' b' => Up s0 n0 h' b'.result ∧ b'.offset = b.offset) (flush1 g h child b) := by
  unfold flush1
  split
  · exact ⟨.refl _ _ _, hb, rfl⟩
  · split
    · exact .refl _ _ _
    · simp only
      split
      · exact flushASN1_up g hc ho hb _
      · exact flushLen_up hc ho hb _

/-- The builders of a chain; all but the outermost begin behind `s0`. -/
def UpChain (s0 : Slice) (n0 : Nat) (h : Heap) : Bd → List Bd → Prop
  | b, [] => Up s0 n0 h b.result
  | b, p :: l => Up s0 n0 h b.result ∧ s0.len ≤ b.offset ∧ UpChain s0 n0 h p l

theorem UpChain.head {s0 : Slice} {n0 : Nat} {h : Heap} {b : Bd} {l : List Bd} (hc : UpChain s0 n0 h b l) : Up s0 n0 h b.result := by
  cases l with
  | nil => exact hc
  | cons p l => exact hc.1

theorem UpChain.mono {s0 : Slice} {n0 : Nat} {h h' : Heap} (hk : Kept s0 n0 h h') : ∀ {l : List Bd} {b : Bd}, UpChain s0 n0 h b l →
    UpChain s0 n0 h' b l
  | [], _, hc => Up.mono hc hk
  | _ :: _, _, hc => ⟨hc.1.mono hk, hc.2.1, UpChain.mono hk hc.2.2⟩

theorem UpChain.replace {s0 : Slice} {n0 : Nat} {h : Heap} {b b' : Bd} {l : List Bd} (hc : UpChain s0 n0 h b l)
    (hr : Up s0 n0 h b'.result) (ho : b'.offset = b.offset) : UpChain s0 n0 h b' l := by
  cases l with
  | nil => exact hr
  | cons p l => exact ⟨hr, by rw [ho]; exact hc.2.1, hc.2.2⟩

theorem UpChain.setAnc {s0 : Slice} {n0 : Nat} {h : Heap} : ∀ {l : List Bd} {b : Bd} {k : Nat} {c c' : Bd}, UpChain s0 n0 h b l →
    l[k]? = some c → c'.result = c.result → c'.offset = c.offset → UpChain s0 n0 h b (l.set k c')
  | [], _, _, _, _, hc, _, _, _ => hc
  | p :: l, b, 0, c, c', hc, hk, hr, ho => by
    simp only [List.getElem?_cons_zero, Option.some.injEq] at hk
    subst hk
    exact ⟨hc.1, hc.2.1, hc.2.2.replace (by rw [hr]; exact hc.2.2.head) ho⟩
  | p :: l, b, k + 1, c, c', hc, hk, hr, ho => by
    simp only [List.getElem?_cons_succ] at hk
    exact ⟨hc.1, hc.2.1, UpChain.setAnc hc.2.2 hk hr ho⟩

theorem flushN_up (g : Growth) {s0 : Slice} {n0 : Nat} : ∀ (n : Nat) {h : Heap} {cur : Bd} {anc : List Bd}, UpChain s0 n0 h cur anc →
    ExKept s0 n0 h (fun h' x => UpChain s0 n0 h' x.1 x.2) (flushN g n h cur anc) := by
  intro n
  induction n with
  | zero => intro h cur anc hc; exact ⟨.refl _ _ _, hc⟩
  | succ n ih =>
    intro h cur anc hc
    cases anc with
    | nil => exact .refl _ _ _
    | cons b anc =>
      unfold flushN
      have h1 := flush1_up g hc.1 hc.2.1 hc.2.2.head
      split
      · rename_i h' e
        rw [e] at h1
        exact h1
      · rename_i h' b' e
        rw [e] at h1
        have hk : Kept s0 n0 h h' := h1.1
        exact (ih ((hc.2.2.mono hk).replace h1.2.1 h1.2.2)).trans hk

def UpSt (s0 : Slice) (n0 : Nat) (st : St) : Prop := UpChain s0 n0 st.heap st.cur st.anc

def OutKept (s0 : Slice) (n0 : Nat) (h : Heap) : Out → Prop
  | .done st => Kept s0 n0 h st.heap ∧ UpSt s0 n0 st
  | .thrown _ st => Kept s0 n0 h st.heap ∧ UpSt s0 n0 st
  | .panicked h' => Kept s0 n0 h h'

theorem OutKept.trans {s0 : Slice} {n0 : Nat} {h h1 : Heap} (hw : Kept s0 n0 h h1) {o : Out} (ho : OutKept s0 n0 h1 o) : OutKept s0 n0 h o := by
  cases o with
  | done st => exact ⟨hw.trans ho.1, ho.2⟩
  | thrown m st => exact ⟨hw.trans ho.1, ho.2⟩
  | panicked h' => exact Kept.trans hw ho

theorem andThen_up {s0 : Slice} {n0 : Nat} {h : Heap} {o : Out} {f : St → Out} (ho : OutKept s0 n0 h o)
    (hf : ∀ st, UpSt s0 n0 st → OutKept s0 n0 st.heap (f st)) : OutKept s0 n0 h (o.andThen f) := by
  cases o with
  | done st => exact (hf st ho.2).trans ho.1
  | thrown m st => exact ho
  | panicked h' => exact ho

theorem leave_up (g : Growth) {s0 : Slice} {n0 : Nat} {h : Heap} (outer : Bool) (d : Nat) {o : Out} (ho : OutKept s0 n0 h o) :
    OutKept s0 n0 h (leave g outer d o) := by
  unfold leave
  cases o with
  | panicked h' => exact ho
  | done st =>
    simp only
    obtain ⟨hw, hc⟩ := ho
    have h1 := flushN_up g 1 hc
    split
    · rename_i h' e
      rw [e] at h1
      exact Kept.trans hw h1
    · rename_i h' cur anc e
      rw [e] at h1
      exact ⟨hw.trans h1.1, h1.2⟩
  | thrown msg st =>
    simp only
    split
    · unfold recovered
      obtain ⟨hw, hc⟩ := ho
      split
      · rename_i h' e
        split at e
        · cases e; exact hw
        · rename_i b hb
          have h1 := flushN_up g (st.anc.length - d) (hc.setAnc (c' := { b with err := some msg }) hb rfl rfl)
          split at e
          · rename_i h'' e'
            rw [e'] at h1
            cases e
            exact Kept.trans hw h1
          · cases e
      · rename_i st' e
        split at e
        · cases e
        · rename_i b hb
          have h1 := flushN_up g (st.anc.length - d) (hc.setAnc (c' := { b with err := some msg }) hb rfl rfl)
          split at e
          · cases e
          · rename_i h'' cur anc e'
            rw [e'] at h1
            cases e
            exact ⟨hw.trans h1.1, h1.2⟩
    · exact ho

theorem enter_up (g : Growth) {s0 : Slice} {n0 : Nat} (n : Nat) (ia : Bool) {st : St} (hs : UpSt s0 n0 st) :
    Kept s0 n0 st.heap (enter g n ia st).heap ∧ UpSt s0 n0 (enter g n ia st) := by
  have h1 := addBytes_up g hs.head (List.replicate n 0)
  exact ⟨h1.1, h1.2.1, hs.head.len, (UpChain.mono h1.1 hs).replace h1.2.1 h1.2.2.1⟩

theorem upAct_up {b b' : Bd} {act : UpAct} (h : upAct b act = some b') : b'.result = b.result ∧ b'.offset = b.offset := by
  unfold upAct at h
  cases act with
  | add bs => simp only at h; split at h <;> simp at h; rw [← h]; exact ⟨rfl, rfl⟩
  | lenPrefixed => simp only at h; split at h <;> simp at h; rw [← h]; exact ⟨rfl, rfl⟩
  | asn1 t =>
    simp only at h
    split at h
    · simp at h; rw [← h]; exact ⟨rfl, rfl⟩
    · split at h <;> simp at h
      rw [← h]; exact ⟨rfl, rfl⟩
  | setErr keep m => simp at h; rw [← h]; exact ⟨rfl, rfl⟩

theorem exec_up (g : Growth) {s0 : Slice} {n0 : Nat} (p : Prog) : ∀ st, UpSt s0 n0 st → OutKept s0 n0 st.heap (exec g p st) := by
  induction p with
  | nil => intro st hs; exact ⟨.refl _ _ _, hs⟩
  | add bs rest ih =>
    intro st hs
    have h1 := addBytes_up g hs.head bs
    simp only [exec]
    have := ih { st with heap := (addBytes g st.heap st.cur bs).1, cur := (addBytes g st.heap st.cur bs).2 }
      ((UpChain.mono h1.1 hs).replace h1.2.1 h1.2.2.1)
    exact this.trans h1.1
  | lenPrefixed k body rest ihb ihr =>
    intro st hs
    simp only [exec]
    split
    · exact ihr st hs
    · have h1 := enter_up g (k.val + 1) false hs
      exact andThen_up (leave_up g _ _ ((ihb _ h1.2).trans h1.1)) ihr
  | asn1 tag body rest ihb ihr =>
    intro st hs
    simp only [exec]
    split
    · exact ihr st hs
    · split
      · exact ihr { st with cur := { st.cur with err := _ } } (hs.replace hs.head rfl)
      · have h0 := addBytes_up g hs.head [tag]
        have hs' : UpSt s0 n0 { st with heap := (addBytes g st.heap st.cur [tag]).1, cur := (addBytes g st.heap st.cur [tag]).2 } :=
          (UpChain.mono h0.1 hs).replace h0.2.1 h0.2.2.1
        split
        · exact (ihr _ hs').trans h0.1
        · have h1 := enter_up g 1 true hs'
          have := andThen_up (leave_up g (!st.inContinuation) st.anc.length ((ihb _ h1.2).trans h1.1)) ihr
          exact this.trans h0.1
  | setErr keep m rest ih =>
    intro st hs
    simp only [exec]
    exact ih { st with cur := { st.cur with err := _ } } (hs.replace hs.head rfl)
  | throw m => intro st hs; exact ⟨.refl _ _ _, hs⟩
  | panic => intro st hs; exact .refl _ _ _
  | up k act rest ih =>
    intro st hs
    simp only [exec]
    split
    · exact .refl _ _ _
    · rename_i b hb
      split
      · exact .refl _ _ _
      · rename_i b' hb'
        have := upAct_up hb'
        exact ih { st with anc := st.anc.set k b' } (hs.setAnc hb this.1 this.2)

theorem flushN_length (g : Growth) : ∀ (n : Nat) {h h' : Heap} {cur cur' : Bd} {anc anc' : List Bd},
    flushN g n h cur anc = .ok (h', cur', anc') → anc'.length + n = anc.length
  | 0, _, _, _, _, _, _, e => by cases e; rfl
  | _ + 1, _, _, _, _, [], _, e => by cases e
  | n + 1, _, _, _, _, _ :: _, _, e => by
    unfold flushN at e
    split at e
    · cases e
    · have := flushN_length g n e
      simp only [List.length_cons]
      omega

/-- The number of builders around the current one, before and after. -/
def SameDepth (n : Nat) : Out → Prop
  | .done st => st.anc.length = n
  | .thrown _ st => n ≤ st.anc.length
  | .panicked _ => True

theorem leave_depth (g : Growth) (outer : Bool) (n : Nat) {o : Out} (ho : SameDepth (n + 1) o) : SameDepth n (leave g outer n o) := by
  unfold leave
  cases o with
  | panicked h => trivial
  | done st =>
    simp only
    split
    · trivial
    · rename_i h cur anc e
      have := flushN_length g 1 e
      have ho : st.anc.length = n + 1 := ho
      show anc.length = n
      omega
  | thrown m st =>
    have ho : n + 1 ≤ st.anc.length := ho
    simp only
    split
    · split
      · trivial
      · rename_i st' e
        unfold recovered at e
        split at e
        · cases e
        · split at e
          · cases e
          · rename_i h cur anc e'
            have := flushN_length g _ e'
            cases e
            rw [List.length_set] at this
            show anc.length = n
            omega
    · show n ≤ st.anc.length
      omega

theorem andThen_depth {n : Nat} {o : Out} {f : St → Out} (ho : SameDepth n o) (hf : ∀ st, st.anc.length = n → SameDepth n (f st)) :
    SameDepth n (o.andThen f) := by
  cases o with
  | done st => exact hf st ho
  | thrown m st => exact ho
  | panicked h => exact ho

theorem exec_depth (g : Growth) (p : Prog) : ∀ st, SameDepth st.anc.length (exec g p st) := by
  induction p with
  | nil => intro st; exact rfl
  | add bs rest ih =>
    intro st
    exact ih { st with heap := (addBytes g st.heap st.cur bs).1, cur := (addBytes g st.heap st.cur bs).2 }
  | lenPrefixed k body rest ihb ihr =>
    intro st
    simp only [exec]
    split
    · exact ihr st
    · exact andThen_depth (leave_depth g _ _ (ihb (enter g (k.val + 1) false st))) fun st' e => e ▸ ihr st'
  | asn1 tag body rest ihb ihr =>
    intro st
    simp only [exec]
    split
    · exact ihr st
    · split
      · exact ihr { st with cur := { st.cur with err := _ } }
      · split
        · exact ihr { st with heap := (addBytes g st.heap st.cur [tag]).1, cur := (addBytes g st.heap st.cur [tag]).2 }
        · exact andThen_depth (leave_depth g _ _ (ihb (enter g 1 true
            { st with heap := (addBytes g st.heap st.cur [tag]).1, cur := (addBytes g st.heap st.cur [tag]).2 })))
            fun st' e => e ▸ ihr st'
  | setErr keep m rest ih => intro st; exact ih { st with cur := { st.cur with err := _ } }
  | throw m => intro st; exact Nat.le_refl _
  | panic => intro st; trivial
  | up k act rest ih =>
    intro st
    simp only [exec]
    split
    · trivial
    · split
      · trivial
      · rename_i b' _
        have := ih { st with anc := st.anc.set k b' }
        simpa only [List.length_set] using this

/-- Reading through a slice of the old arrays that lies outside the spare capacity. -/
theorem Kept.get {s0 : Slice} {n0 : Nat} {h h' : Heap} (hk : Kept s0 n0 h h') {s : Slice} (hv : s.Valid h) (hn : s.arr < n0)
    (hd : s.arr = s0.arr → s.off + s.len ≤ s0.off + s0.len ∨ s0.off + s0.cap ≤ s.off) : s.get h' = s.get h := by
  obtain ⟨_, a, ha, _⟩ := hv
  obtain ⟨a', ha', hl, e⟩ := hk.2 _ _ ha
  unfold Slice.get
  rw [ha, ha', Option.getD_some, Option.getD_some]
  apply List.ext_getElem?
  intro j
  rw [List.getElem?_take, List.getElem?_take]
  split
  · rename_i hj
    rw [List.getElem?_drop, List.getElem?_drop]
    refine e _ ⟨hn, ?_⟩
    by_cases ha : s.arr = s0.arr
    · rcases hd ha with h | h
      · exact .inr (.inl (by omega))
      · exact .inr (.inr (by omega))
    · exact .inl ha
  · rfl

end Verif.CB
