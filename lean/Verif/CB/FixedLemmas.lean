import Verif.CB.Builder
import Verif.Util.HeapLemmas
/-!
# A fixed-size builder never writes outside its buffer
-/
namespace Verif.CB
open Verif

/-- Between `h` and `h'` only bytes inside the capacity window of `s0` changed; nothing was allocated or resized. -/
def Within (s0 : Slice) (h h' : Heap) : Prop :=
  h'.length = h.length ∧ ∀ (i : Nat) (a : Bytes), h[i]? = some a → ∃ a', h'[i]? = some a' ∧ a'.length = a.length ∧
    ∀ j, (i ≠ s0.arr ∨ j < s0.off ∨ s0.off + s0.cap ≤ j) → a'[j]? = a[j]?

theorem Within.refl (s0 : Slice) (h : Heap) : Within s0 h h := ⟨rfl, fun _ a ha => ⟨a, ha, rfl, fun _ _ => rfl⟩⟩

theorem Within.trans {s0 : Slice} {h1 h2 h3 : Heap} (a : Within s0 h1 h2) (b : Within s0 h2 h3) : Within s0 h1 h3 := by
  refine ⟨b.1.trans a.1, fun i x hx => ?_⟩
  obtain ⟨y, hy, l1, e1⟩ := a.2 i x hx
  obtain ⟨z, hz, l2, e2⟩ := b.2 i y hy
  exact ⟨z, hz, by omega, fun j hj => (e2 j hj).trans (e1 j hj)⟩

/-- The window exists. -/
def Room (s0 : Slice) (h : Heap) : Prop := ∃ a, h[s0.arr]? = some a ∧ s0.off + s0.cap ≤ a.length

theorem Room.mono {s0 : Slice} {h h' : Heap} (hr : Room s0 h) (hw : Within s0 h h') : Room s0 h' := by
  obtain ⟨a, ha, hl⟩ := hr
  obtain ⟨a', ha', hl', _⟩ := hw.2 _ _ ha
  exact ⟨a', ha', by omega⟩

/-- A builder living in the window. -/
structure Fx (s0 : Slice) (b : Bd) : Prop where
  fixed : b.fixedSize = true
  arr : b.result.arr = s0.arr
  off : b.result.off = s0.off
  cap : b.result.cap = s0.cap
  len : b.result.len ≤ s0.cap

theorem within_set {s0 : Slice} {h : Heap} (hr : Room s0 h) {i : Nat} {bs : Bytes} (hi : i + bs.length ≤ s0.cap) :
    Within s0 h (h.set s0.arr (overwrite ((h[s0.arr]?).getD []) (s0.off + i) bs)) := by
  obtain ⟨a, ha, hl⟩ := hr
  refine ⟨by simp, fun k x hx => ?_⟩
  by_cases hk : k = s0.arr
  · subst hk
    rw [ha] at hx
    cases hx
    have hlt : s0.arr < h.length := (List.getElem?_eq_some_iff.1 ha).1
    refine ⟨overwrite a (s0.off + i) bs, by rw [List.getElem?_set_self hlt, ha]; rfl, length_overwrite (by omega), fun j hj => ?_⟩
    rw [getElem?_overwrite (by omega), if_neg]
    rcases hj with hj | hj | hj
    · exact absurd rfl hj
    · omega
    · omega
  · exact ⟨x, by rw [List.getElem?_set_ne (Ne.symm hk), hx], rfl, fun _ _ => rfl⟩

theorem addBytes_fx (g : Growth) {s0 : Slice} {h : Heap} {b : Bd} (hr : Room s0 h) (hb : Fx s0 b) (bs : Bytes) :
    Within s0 h (addBytes g h b bs).1 ∧ Fx s0 (addBytes g h b bs).2 := by
  unfold addBytes
  split
  · exact ⟨.refl _ _, hb⟩
  · split
    · exact ⟨.refl _ _, ⟨hb.fixed, hb.arr, hb.off, hb.cap, hb.len⟩⟩
    · rename_i h1
      have hfit : b.result.len + bs.length ≤ b.result.cap := by
        have := hb.fixed
        simp only [this, true_and] at h1
        omega
      unfold goAppend
      rw [if_pos hfit]
      have hc := hb.cap
      refine ⟨?_, ⟨hb.fixed, hb.arr, hb.off, hb.cap, by simp only; omega⟩⟩
      simp only
      rw [hb.arr, hb.off]
      exact within_set hr (by omega)

/-- Every outcome of an operation on a builder stays within the window. -/
def ExWithin {α : Type} (s0 : Slice) (h : Heap) (P : α → Prop) (e : Except Heap (Heap × α)) : Prop :=
  match e with
  | .error h' => Within s0 h h'
  | .ok (h', x) => Within s0 h h' ∧ P x

theorem setByte_fx {s0 : Slice} {h : Heap} {b : Bd} (hr : Room s0 h) (hb : Fx s0 b) (i : Nat) (v : Byte) :
    match setByte h b.result i v with
    | .error h' => Within s0 h h'
    | .ok h' => Within s0 h h' := by
  unfold setByte
  by_cases hi : i < b.result.len
  · rw [if_pos hi]
    simp only
    rw [hb.arr, hb.off]
    have := hb.len
    exact within_set hr (by simp; omega)
  · rw [if_neg hi]
    exact .refl _ _

theorem storeLen_fx {s0 : Slice} {b : Bd} (hb : Fx s0 b) (off : Nat) : ∀ (k : Nat) {h : Heap} (l : Nat), Room s0 h →
    ExWithin s0 h (fun _ => True) (storeLen b.result off k h l) := by
  intro k
  induction k with
  | zero => intro h l _; exact ⟨.refl _ _, trivial⟩
  | succ k ih =>
    intro h l hr
    unfold storeLen
    have h1 := setByte_fx hr hb (off + k) (BitVec.ofNat 8 l)
    split
    · rename_i h' e
      rw [e] at h1
      exact h1
    · rename_i h' e
      rw [e] at h1
      have := ih (l / 256) (hr.mono h1)
      revert this
      unfold ExWithin
      split <;> intro h2
      · exact h1.trans h2
      · exact ⟨h1.trans h2.1, trivial⟩

theorem flushLen_fx {s0 : Slice} {h : Heap} {child b : Bd} (hr : Room s0 h) (hc : Fx s0 child) (hb : Fx s0 b) (l : Nat) :
    ExWithin s0 h (Fx s0) (flushLen h child b l) := by
  unfold flushLen
  have h1 := storeLen_fx hc child.offset child.pendingLenLen l hr
  split
  · rename_i h' e
    rw [e] at h1
    exact h1
  · rename_i h' l' e
    rw [e] at h1
    split
    · exact ⟨h1.1, ⟨hb.fixed, hb.arr, hb.off, hb.cap, hb.len⟩⟩
    · rw [hb.fixed]
      exact ⟨h1.1, hb⟩

theorem copyUp_fx {s0 : Slice} {h : Heap} {b : Bd} (hr : Room s0 h) (hb : Fx s0 b) (to from' : Nat) :
    match copyUp h b.result to from' with
    | .error h' => Within s0 h h'
    | .ok h' => Within s0 h h' := by
  unfold copyUp
  by_cases hc : to ≤ b.result.len ∧ from' ≤ b.result.len
  · rw [if_pos hc]
    simp only
    rw [hb.arr, hb.off]
    have := hb.len
    exact within_set hr (by simp; omega)
  · rw [if_neg hc]
    exact .refl _ _

theorem makeRoom_fx (g : Growth) {s0 : Slice} {h : Heap} {child : Bd} (hr : Room s0 h) (hc : Fx s0 child) (n : Nat) :
    ExWithin s0 h (Fx s0) (makeRoom g h child n) := by
  unfold makeRoom
  split
  · have h1 := addBytes_fx g hr hc (List.replicate n 0)
    simp only
    have h2 := copyUp_fx (hr.mono h1.1) h1.2 ((addBytes g h child (List.replicate n 0)).2.offset + (addBytes g h child (List.replicate n 0)).2.pendingLenLen + n)
      ((addBytes g h child (List.replicate n 0)).2.offset + (addBytes g h child (List.replicate n 0)).2.pendingLenLen)
    split
    · rename_i h' e
      rw [e] at h2
      exact h1.1.trans h2
    · rename_i h' e
      rw [e] at h2
      exact ⟨h1.1.trans h2, h1.2⟩
  · exact ⟨.refl _ _, hc⟩

theorem flushASN1_fx (g : Growth) {s0 : Slice} {h : Heap} {child b : Bd} (hr : Room s0 h) (hc : Fx s0 child) (hb : Fx s0 b) (l : Nat) :
    ExWithin s0 h (Fx s0) (flushASN1 g h child b l) := by
  unfold flushASN1
  split
  · exact .refl _ _
  · split
    · exact ⟨.refl _ _, ⟨hb.fixed, hb.arr, hb.off, hb.cap, hb.len⟩⟩
    · simp only
      have h1 := setByte_fx hr hc child.offset (asn1LenForm l).2.1
      split
      · rename_i h' e
        rw [e] at h1
        exact h1
      · rename_i h' e
        rw [e] at h1
        have h2 := makeRoom_fx g (hr.mono h1) hc ((asn1LenForm l).1 - 1)
        split
        · rename_i h'' e
          rw [e] at h2
          exact h1.trans h2
        · rename_i h'' c' e
          rw [e] at h2
          have h3 := flushLen_fx (child := { c' with offset := c'.offset + 1, pendingLenLen := (asn1LenForm l).1 - 1 })
            ((hr.mono h1).mono h2.1) ⟨h2.2.fixed, h2.2.arr, h2.2.off, h2.2.cap, h2.2.len⟩ hb (asn1LenForm l).2.2
          revert h3
          unfold ExWithin
          split <;> intro h3
          · exact (h1.trans h2.1).trans h3
          · exact ⟨(h1.trans h2.1).trans h3.1, h3.2⟩

theorem flush1_fx (g : Growth) {s0 : Slice} {h : Heap} {child b : Bd} (hr : Room s0 h) (hc : Fx s0 child) (hb : Fx s0 b) :
    ExWithin s0 h (Fx s0) (flush1 g h child b) := by
  unfold flush1
  split
  · exact ⟨.refl _ _, ⟨hb.fixed, hb.arr, hb.off, hb.cap, hb.len⟩⟩
  · split
    · exact .refl _ _
    · simp only
      split
      · exact flushASN1_fx g hr hc hb _
      · exact flushLen_fx hr hc hb _

theorem flushN_fx (g : Growth) {s0 : Slice} : ∀ (n : Nat) {h : Heap} {cur : Bd} {anc : List Bd}, Room s0 h → Fx s0 cur → (∀ b ∈ anc, Fx s0 b) →
    ExWithin s0 h (fun x => Fx s0 x.1 ∧ ∀ b ∈ x.2, Fx s0 b) (flushN g n h cur anc) := by
  intro n
  induction n with
  | zero => intro h cur anc _ hc ha; exact ⟨.refl _ _, hc, ha⟩
  | succ n ih =>
    intro h cur anc hr hc ha
    cases anc with
    | nil => exact .refl _ _
    | cons b anc =>
      unfold flushN
      have h1 := flush1_fx g hr hc (ha b (by simp))
      split
      · rename_i h' e
        rw [e] at h1
        exact h1
      · rename_i h' b' e
        rw [e] at h1
        have := ih (hr.mono h1.1) h1.2 (anc := anc) (fun b hb => ha b (by simp [hb]))
        revert this
        unfold ExWithin
        split <;> intro h2
        · exact h1.1.trans h2
        · exact ⟨h1.1.trans h2.1, h2.2⟩

/-- The whole chain lives in the window. -/
def FxSt (s0 : Slice) (st : St) : Prop := Room s0 st.heap ∧ Fx s0 st.cur ∧ ∀ b ∈ st.anc, Fx s0 b

def OutWithin (s0 : Slice) (h : Heap) : Out → Prop
  | .done st => Within s0 h st.heap ∧ FxSt s0 st
  | .thrown _ st => Within s0 h st.heap ∧ FxSt s0 st
  | .panicked h' => Within s0 h h'

theorem OutWithin.trans {s0 : Slice} {h h1 : Heap} (hw : Within s0 h h1) {o : Out} (ho : OutWithin s0 h1 o) : OutWithin s0 h o := by
  cases o with
  | done st => exact ⟨hw.trans ho.1, ho.2⟩
  | thrown m st => exact ⟨hw.trans ho.1, ho.2⟩
  | panicked h' => exact Within.trans hw ho

theorem andThen_fx {s0 : Slice} {h : Heap} {o : Out} {f : St → Out} (ho : OutWithin s0 h o)
    (hf : ∀ st, FxSt s0 st → OutWithin s0 st.heap (f st)) : OutWithin s0 h (o.andThen f) := by
  cases o with
  | done st => exact (hf st ho.2).trans ho.1
  | thrown m st => exact ho
  | panicked h' => exact ho

theorem leave_fx (g : Growth) {s0 : Slice} {h : Heap} (outer : Bool) (d : Nat) {o : Out} (ho : OutWithin s0 h o) :
    OutWithin s0 h (leave g outer d o) := by
  unfold leave
  cases o with
  | panicked h' => exact ho
  | done st =>
    simp only
    obtain ⟨hw, hr, hc, ha⟩ := ho
    have h1 := flushN_fx g 1 hr hc ha
    split
    · rename_i h' e
      rw [e] at h1
      exact Within.trans hw h1
    · rename_i h' cur anc e
      rw [e] at h1
      exact ⟨hw.trans h1.1, hr.mono h1.1, h1.2.1, h1.2.2⟩
  | thrown msg st =>
    simp only
    split
    · unfold recovered
      obtain ⟨hw, hr, hc, ha⟩ := ho
      split
      · rename_i h' e
        split at e
        · cases e; exact hw
        · rename_i b hb
          have hset : ∀ x ∈ st.anc.set (st.anc.length - d - 1) { b with err := some msg }, Fx s0 x := by
            intro x hx
            rcases List.mem_or_eq_of_mem_set hx with hx | rfl
            · exact ha x hx
            · have := ha b (List.mem_of_getElem? hb)
              exact ⟨this.fixed, this.arr, this.off, this.cap, this.len⟩
          have h1 := flushN_fx g (st.anc.length - d) hr hc hset
          split at e
          · rename_i h'' e'
            rw [e'] at h1
            cases e
            exact Within.trans hw h1
          · cases e
      · rename_i st' e
        split at e
        · cases e
        · rename_i b hb
          have hset : ∀ x ∈ st.anc.set (st.anc.length - d - 1) { b with err := some msg }, Fx s0 x := by
            intro x hx
            rcases List.mem_or_eq_of_mem_set hx with hx | rfl
            · exact ha x hx
            · have := ha b (List.mem_of_getElem? hb)
              exact ⟨this.fixed, this.arr, this.off, this.cap, this.len⟩
          have h1 := flushN_fx g (st.anc.length - d) hr hc hset
          split at e
          · cases e
          · rename_i h'' cur anc e'
            rw [e'] at h1
            cases e
            exact ⟨hw.trans h1.1, hr.mono h1.1, h1.2.1, h1.2.2⟩
    · exact ho

theorem enter_fx (g : Growth) {s0 : Slice} (n : Nat) (ia : Bool) {st : St} (hs : FxSt s0 st) :
    Within s0 st.heap (enter g n ia st).heap ∧ FxSt s0 (enter g n ia st) := by
  obtain ⟨hr, hc, ha⟩ := hs
  have h1 := addBytes_fx g hr hc (List.replicate n 0)
  refine ⟨h1.1, hr.mono h1.1, ⟨h1.2.fixed, h1.2.arr, h1.2.off, h1.2.cap, h1.2.len⟩, ?_⟩
  intro b hb
  rcases List.mem_cons.1 hb with rfl | hb
  · exact h1.2
  · exact ha b hb

theorem upAct_fx {s0 : Slice} {b b' : Bd} {act : UpAct} (hb : Fx s0 b) (h : upAct b act = some b') : Fx s0 b' := by
  unfold upAct at h
  cases act with
  | add bs => simp only at h; split at h <;> simp at h; rw [← h]; exact hb
  | lenPrefixed => simp only at h; split at h <;> simp at h; rw [← h]; exact hb
  | asn1 t =>
    simp only at h
    split at h
    · simp at h; rw [← h]; exact hb
    · split at h <;> simp at h
      rw [← h]; exact ⟨hb.fixed, hb.arr, hb.off, hb.cap, hb.len⟩
  | setErr keep m => simp at h; rw [← h]; exact ⟨hb.fixed, hb.arr, hb.off, hb.cap, hb.len⟩

theorem exec_fx (g : Growth) {s0 : Slice} (p : Prog) : ∀ st, FxSt s0 st → OutWithin s0 st.heap (exec g p st) := by
  induction p with
  | nil => intro st hs; exact ⟨.refl _ _, hs⟩
  | add bs rest ih =>
    intro st hs
    have h1 := addBytes_fx g hs.1 hs.2.1 bs
    simp only [exec]
    have := ih { st with heap := (addBytes g st.heap st.cur bs).1, cur := (addBytes g st.heap st.cur bs).2 } ⟨hs.1.mono h1.1, h1.2, hs.2.2⟩
    exact this.trans h1.1
  | lenPrefixed k body rest ihb ihr =>
    intro st hs
    simp only [exec]
    split
    · exact ihr st hs
    · have h1 := enter_fx g (k.val + 1) false hs
      exact andThen_fx (leave_fx g _ _ ((ihb _ h1.2).trans h1.1)) ihr
  | asn1 tag body rest ihb ihr =>
    intro st hs
    simp only [exec]
    split
    · exact ihr st hs
    · split
      · exact ihr _ ⟨hs.1, ⟨hs.2.1.fixed, hs.2.1.arr, hs.2.1.off, hs.2.1.cap, hs.2.1.len⟩, hs.2.2⟩
      · have h0 := addBytes_fx g hs.1 hs.2.1 [tag]
        have hs' : FxSt s0 { st with heap := (addBytes g st.heap st.cur [tag]).1, cur := (addBytes g st.heap st.cur [tag]).2 } :=
          ⟨hs.1.mono h0.1, h0.2, hs.2.2⟩
        split
        · exact (ihr _ hs').trans h0.1
        · have h1 := enter_fx g 1 true hs'
          have := andThen_fx (leave_fx g (!st.inContinuation) st.anc.length ((ihb _ h1.2).trans h1.1)) ihr
          exact this.trans h0.1
  | setErr keep m rest ih =>
    intro st hs
    simp only [exec]
    exact ih _ ⟨hs.1, ⟨hs.2.1.fixed, hs.2.1.arr, hs.2.1.off, hs.2.1.cap, hs.2.1.len⟩, hs.2.2⟩
  | throw m => intro st hs; exact ⟨.refl _ _, hs⟩
  | panic => intro st hs; exact .refl _ _
  | up k act rest ih =>
    intro st hs
    simp only [exec]
    split
    · exact .refl _ _
    · rename_i b hb
      split
      · exact .refl _ _
      · rename_i b' hb'
        refine ih { st with anc := st.anc.set k b' } ⟨hs.1, hs.2.1, ?_⟩
        intro x hx
        rcases List.mem_or_eq_of_mem_set hx with hx | rfl
        · exact hs.2.2 x hx
        · exact upAct_fx (hs.2.2 b (List.mem_of_getElem? hb)) hb'

end Verif.CB
