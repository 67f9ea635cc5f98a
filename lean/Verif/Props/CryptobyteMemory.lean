import Verif.Props.CryptobyteBuilder
import Verif.CB.KeepLemmas
/-!
# C126: what `Bytes` returned stays as it is

A builder is used in two parts. Between them `Bytes` is called, and the slice it returned is kept while the builder goes on.
`heapAfter` is the memory when the second part ends, be it regularly, with an error or with a panic; as a panic can be put
anywhere in the second part, this is every moment of it.
-/
namespace Verif.Props
open Verif Verif.CB Verif.Spec.DER Verif.Spec.Builder

theorem new_up (fixed : Bool) (h : Heap) (buf : Slice) (hv : buf.Valid h) : UpSt buf h.length (newBuilder fixed h buf) :=
  show Up _ _ _ _ from ⟨hv, Nat.le_refl _, Nat.le_refl _, .inl ⟨rfl, rfl, rfl⟩⟩

theorem heapAfter_kept {s0 : Slice} {n0 : Nat} {h : Heap} {o : Out} (ho : OutKept s0 n0 h o) : Kept s0 n0 h (heapAfter o) := by
  cases o with
  | done st => exact ho.1
  | thrown m st => exact ho.1
  | panicked h' => exact ho

/-- The builder between two calls at the outermost level. -/
theorem exec_outermost (g : Growth) (p : Prog) (fixed : Bool) (h : Heap) (buf : Slice) (hv : buf.Valid h) {st : St}
    (hp : exec g p (newBuilder fixed h buf) = .done st) : st.cur.result.Valid st.heap ∧ st.anc = [] := by
  have := exec_up g p _ (new_up fixed h buf hv)
  have hd := exec_depth g p (newBuilder fixed h buf)
  rw [hp] at this hd
  exact ⟨this.2.head.valid, List.length_eq_zero_iff.1 hd⟩

/-- C126: after `Bytes()` the builder may be used further in any way (continuations, errors, panics; growing or fixed, any buffer):
the bytes of the slice that was returned do not change. -/
theorem C126_kept (g : Growth) (fixed : Bool) (h : Heap) (buf : Slice) (hv : buf.Valid h) (p q : Prog) (st : St) (s : Slice)
    (hp : exec g p (newBuilder fixed h buf) = .done st) (hs : st.cur.bytesAt = .ok s) :
    bytesOf (.done st) = .ok (s.get st.heap) ∧ s.get (heapAfter (exec g q st)) = s.get st.heap := by
  obtain ⟨hval, ho⟩ := exec_outermost g p fixed h buf hv hp
  unfold Bd.bytesAt at hs
  split at hs
  · cases hs
  · rename_i he
    split at hs
    · rename_i hoff
      simp only [Res.ok.injEq] at hs
      subst hs
      constructor
      · simp only [bytesOf, he, Slice.get]
        rw [List.drop_take, List.drop_drop]
      · have hup : UpSt st.cur.result st.heap.length st := by
          unfold UpSt
          rw [ho]
          exact show Up _ _ _ _ from ⟨hval, Nat.le_refl _, Nat.le_refl _, .inl ⟨rfl, rfl, rfl⟩⟩
        refine (heapAfter_kept (exec_up g q st hup)).get (s := ⟨_, _, _, _⟩) ?_ hval.lt fun _ => .inl (by simp only; omega)
        obtain ⟨h1, a, ha, h2⟩ := hval
        exact ⟨by simp only; omega, a, ha, by simp only; omega⟩
    · cases hs

/-- C126: a builder changes no memory of its caller but the spare capacity of the buffer it was given. -/
theorem C126_caller (g : Growth) (fixed : Bool) (h : Heap) (buf : Slice) (hv : buf.Valid h) (p : Prog) (t : Slice) (ht : t.Valid h)
    (hd : t.arr = buf.arr → t.off + t.len ≤ buf.off + buf.len ∨ buf.off + buf.cap ≤ t.off) :
    t.get (heapAfter (exec g p (newBuilder fixed h buf))) = t.get h :=
  (heapAfter_kept (exec_up g p _ (new_up fixed h buf hv))).get ht ht.lt hd

/-- C126: without spare capacity (`NewBuilder(nil)`) no byte of the caller changes, and what was added is in new memory. -/
theorem C126_fresh (g : Growth) (h : Heap) (buf : Slice) (hv : buf.Valid h) (hc : buf.cap = buf.len) (p : Prog) :
    (∀ (i : Nat) (a : Bytes), h[i]? = some a → (heapAfter (exec g p (newBuilder false h buf)))[i]? = some a) ∧
      ∀ st s, exec g p (newBuilder false h buf) = .done st → st.cur.bytesAt = .ok s → buf.len < s.len →
        h.length ≤ s.arr := by
  have hk := exec_up g p _ (new_up false h buf hv)
  constructor
  · intro i a ha
    obtain ⟨a', ha', _, e⟩ := (heapAfter_kept hk).2 i a ha
    rw [ha']
    congr 1
    apply List.ext_getElem?
    intro j
    exact e j ⟨(List.getElem?_eq_some_iff.1 ha).1, .inr (by omega)⟩
  · intro st s hst hs hlen
    rw [hst] at hk
    have hup := hk.2.head
    unfold Bd.bytesAt at hs
    split at hs
    · cases hs
    · split at hs
      · simp only [Res.ok.injEq] at hs
        subst hs
        rcases hup.place with ⟨_, _, e⟩ | e
        · exfalso
          have := hup.valid.1
          simp only at hlen
          omega
        · exact e
      · cases hs

/-- C126 fails for two builders on one buffer with spare capacity: the second writes over what the first returned. -/
theorem C126_two_violated (g : Growth) (h : Heap) (buf : Slice) (hv : buf.Valid h) (x y : Bytes) (hx : buf.len + x.length ≤ buf.cap)
    (hy : y.length ≤ x.length) :
    ∃ st1 s st2, exec g (.add x .nil) (newBuilder false h buf) = .done st1 ∧ st1.cur.bytesAt = .ok s ∧
      s.get st1.heap = buf.get h ++ x ∧ exec g (.add y .nil) (newBuilder false st1.heap buf) = .done st2 ∧
      s.get st2.heap = buf.get h ++ y ++ x.drop y.length := by
  have hrun : ∀ (h : Heap) (z : Bytes), buf.len + z.length ≤ buf.cap → exec g (.add z .nil) (newBuilder false h buf) =
      .done ⟨h.set buf.arr (overwrite ((h[buf.arr]?).getD []) (buf.off + buf.len) z),
        ⟨none, { buf with len := buf.len + z.length }, false, 0, 0, false⟩, [], false⟩ := by
    intro h z hz
    simp only [exec, newBuilder, addBytes, Option.isSome_none, Bool.false_eq_true, if_false, false_and, goAppend, hz, if_true]
  have hvx : ({ buf with len := buf.len + x.length } : Slice).Valid h := ⟨hx, hv.2⟩
  have hgrow : ({ buf with len := buf.len + x.length } : Slice).get h =
      buf.get h ++ (({ buf with len := buf.len + x.length } : Slice).get h).drop buf.len := by
    have : buf.get h = (({ buf with len := buf.len + x.length } : Slice).get h).take buf.len := by
      simp only [Slice.get, List.take_take]
      congr 1
      omega
    rw [this, List.take_append_drop]
  have hlb := Slice.length_get hv
  have hlx := Slice.length_get hvx
  simp only at hlx
  have e1 := Slice.get_set_overwrite (i := buf.len) (bs := x) hvx (by simp)
  have hv1 : ({ buf with len := buf.len + x.length } : Slice).Valid
      (h.set buf.arr (overwrite ((h[buf.arr]?).getD []) (buf.off + buf.len) x)) :=
    hvx.mono (Heap.ext_set_overwrite hv hx)
  have e2 := Slice.get_set_overwrite (i := buf.len) (bs := y) hv1 (by simp only; omega)
  simp only at e1 e2 hv1
  have v1 : overwrite (({ buf with len := buf.len + x.length } : Slice).get h) buf.len x = buf.get h ++ x := by
    generalize ({ buf with len := buf.len + x.length } : Slice).get h = c at hgrow hlx ⊢
    generalize c.drop buf.len = d at hgrow
    subst hgrow
    have hd : d.length = x.length := by simp at hlx; omega
    have := overwrite_append (buf.get h) d [] x hd
    rw [hlb, List.append_nil, List.append_nil] at this
    exact this
  have v2 : overwrite (buf.get h ++ x) buf.len y = buf.get h ++ y ++ x.drop y.length := by
    have := overwrite_append (buf.get h) (x.take y.length) (x.drop y.length) y (by simp; omega)
    rw [hlb, List.append_assoc, List.take_append_drop] at this
    exact this
  refine ⟨_, _, _, hrun h x hx, rfl, ?_, hrun _ y (by omega), ?_⟩
  · show Slice.get _ ⟨_, _ + 0, _ - 0, _ - 0⟩ = _
    rw [Nat.add_zero, Nat.sub_zero, Nat.sub_zero]
    exact e1.trans v1
  · show Slice.get _ ⟨_, _ + 0, _ - 0, _ - 0⟩ = _
    rw [Nat.add_zero, Nat.sub_zero, Nat.sub_zero]
    rw [e1.trans v1] at e2
    exact e2.trans v2

/-! ## Inside a continuation -/

theorem new_start (h : Heap) (buf : Slice) (hv : buf.Valid h) : Start (newBuilder false h buf) :=
  ⟨show Good _ _ from ⟨rfl, hv, Nat.zero_le _, by intro e; cases e⟩, rfl⟩

/-- The state inside a continuation whose code only adds things. -/
theorem inside_state (g : Growth) (h : Heap) (buf : Slice) (hv : buf.Valid h) {p body : Prog} (k : Fin 4) {x c : Bytes}
    (hp : Encodes p x) (hb : Encodes body c) :
    ∃ st st' b, exec g p (newBuilder false h buf) = .done st ∧ Start st ∧ st.cur.err = none ∧ inside g k body st = .done st' ∧
      st'.cur.err = none ∧ st'.cur.result.Valid st'.heap ∧ st'.cur.offset = st.cur.result.len ∧ st'.cur.pendingIsASN1 = false ∧
      st'.cur.pendingLenLen = k.val + 1 ∧ st'.anc = [b] ∧ b.fixedSize = false ∧
      st'.cur.result.get st'.heap = st.cur.result.get st.heap ++ (List.replicate (k.val + 1) 0 ++ c) := by
  have h0 : Agrees _ _ (eval p false []) := exec_eval g p _ (new_start h buf hv)
  rw [eval_of_encodes hp []] at h0
  obtain ⟨st, e0, en, ha, he, _⟩ := h0
  have hnil : st.anc = [] := List.map_eq_nil_iff.1 ha
  have hs : Start st := ⟨en.chain, by rw [en.inC, hnil]; rfl⟩
  obtain ⟨h1, s1, hent, _, hget, hs1⟩ := enter_eq g (n := k.val + 1) (ia := false) hs he (by intro e; cases e)
  have h2 := exec_eval g body _ hs1
  rw [show (enter g (k.val + 1) false st).cur.err.isSome = false by rw [hent]; rfl, eval_of_encodes hb] at h2
  obtain ⟨st', e2, en2, _, he2, hg2⟩ := h2
  have hf := en2.frame
  have hanc := en2.anc
  rw [hent] at hf hanc
  simp only [Bd.frame, Prod.mk.injEq] at hf
  simp only [hnil, List.map_cons, List.map_nil] at hanc
  obtain ⟨b, hb1, hb2⟩ := List.map_eq_singleton_iff.1 hanc
  refine ⟨st, st', b, e0, hs, he, e2, he2, en2.chain.good.valid, hf.2.1, hf.2.2.2, hf.2.2.1, hb1, ?_, ?_⟩
  · have := congrArg Bd.fixedSize hb2
    simpa only [Bd.clr, hs.1.good.grow] using this
  · rw [hg2, hent, hget, List.append_assoc]

/-- C126 fails inside a continuation: `Bytes` of the child begins with the octets kept free for the length (zeros), which nobody
added; whatever was added before, and whatever the continuation adds. -/
theorem C126_child_violated (g : Growth) (h : Heap) (buf : Slice) (hv : buf.Valid h) (p body : Prog) (k : Fin 4) (x c : Bytes)
    (hp : Encodes p x) (hb : Encodes body c) :
    ∃ st, exec g p (newBuilder false h buf) = .done st ∧
      bytesOf (inside g k body st) = .ok (List.replicate (k.val + 1) 0 ++ c) := by
  obtain ⟨st, st', b, e0, hs, _, e2, he2, _, hoff, _, _, _, _, hg⟩ := inside_state g h buf hv k hp hb
  refine ⟨st, e0, ?_⟩
  rw [e2]
  simp only [bytesOf, he2]
  rw [hg, hoff, ← Slice.length_get hs.1.good.valid, List.drop_left]

/-- C126 fails for what `Bytes` of a child returned: when the continuation ends its first octets are replaced by the length. -/
theorem C126_child_changes_violated (g : Growth) (h : Heap) (buf : Slice) (hv : buf.Valid h) (p body : Prog) (k : Fin 4) (x c : Bytes)
    (hp : Encodes p x) (hb : Encodes body c) (hc : c.length < 256 ^ (k.val + 1)) :
    ∃ st st' s st'', exec g p (newBuilder false h buf) = .done st ∧ inside g k body st = .done st' ∧ st'.cur.bytesAt = .ok s ∧
      s.get st'.heap = List.replicate (k.val + 1) 0 ++ c ∧
      exec g (.lenPrefixed k body .nil) st = .done st'' ∧ s.get st''.heap = toBE (k.val + 1) c.length ++ c := by
  obtain ⟨st, st', b, e0, hs, he, e2, he2, hv2, hoff, hia, hpl, hanc, hfix, hg⟩ := inside_state g h buf hv k hp hb
  have hlen := Slice.length_get hs.1.good.valid
  have hlen2 := Slice.length_get hv2
  rw [hg] at hlen2
  simp only [List.length_append, List.length_replicate] at hlen2
  have hle : st'.cur.offset ≤ st'.cur.result.len := by omega
  have h3 := exec_eval g (.lenPrefixed k body .nil) st hs
  rw [he, Option.isSome_none, eval_of_encodes (.lenPrefixed k hb hc .nil)] at h3
  obtain ⟨st'', e3, en3, _, he3, hg3⟩ := h3
  have hres : st''.cur.result = st'.cur.result := by
    simp only [exec, he, Option.isSome_none, Bool.false_eq_true, if_false] at e3
    rw [show exec g body (enter g (k.val + 1) false st) = .done st' from e2] at e3
    simp only [leave, hanc, flushN, flush1, he2, hia, Bool.false_eq_true, if_false] at e3
    rw [if_neg (by rw [hpl]; omega)] at e3
    simp only [flushLen] at e3
    split at e3
    · cases e3
    · rename_i e4
      simp only [Out.andThen, Out.done.injEq] at e3
      split at e4
      · cases e4
      · rename_i e5
        split at e5
        · cases e5
        · split at e5
          · cases e5
            cases e4
            rw [← e3] at he3
            simp at he3
          · rw [hfix] at e5
            simp only [Bool.not_false, if_true, Except.ok.injEq, Prod.mk.injEq] at e5
            cases e4
            rw [← e3, ← e5.2]
  have hread : ∀ h' : Heap, Slice.get h' ⟨st'.cur.result.arr, st'.cur.result.off + st'.cur.offset, st'.cur.result.len - st'.cur.offset,
      st'.cur.result.cap - st'.cur.offset⟩ = (st'.cur.result.get h').drop st.cur.result.len := by
    intro h'
    simp only [Slice.get]
    rw [List.drop_take, List.drop_drop, hoff]
  refine ⟨st, st', ⟨st'.cur.result.arr, st'.cur.result.off + st'.cur.offset, st'.cur.result.len - st'.cur.offset,
    st'.cur.result.cap - st'.cur.offset⟩, st'', e0, e2, ?_, ?_, e3, ?_⟩
  · unfold Bd.bytesAt
    rw [he2]
    simp only
    rw [if_pos hle]
  · rw [hread, hg, ← hlen, List.drop_left]
  · rw [hread, ← hres, hg3, ← hlen, List.drop_left]
    simp

/-! ## Cases -/

example : exec (fun _ _ _ => 0) (.add [1, 2] .nil) (newBuilder false exHeap ⟨0, 0, 0, 0⟩) =
    .done ⟨exHeap ++ [[1, 2]], ⟨none, ⟨exHeap.length, 0, 2, 2⟩, false, 0, 0, false⟩, [], false⟩ := by decide

/-- With spare capacity the second use writes directly behind the slice returned before. -/
example : let h : Heap := [[9, 0, 0, 0, 0, 7]]
    let buf : Slice := ⟨0, 0, 1, 5⟩
    ∃ st, exec (fun _ _ _ => 0) (.add [1] .nil) (newBuilder false h buf) = .done st ∧ st.cur.bytesAt = .ok ⟨0, 0, 2, 5⟩ ∧
      heapAfter (exec (fun _ _ _ => 0) (.lenPrefixed 0 (.add [5] .nil) .nil) st) = [[9, 1, 1, 5, 0, 7]] := ⟨_, rfl, rfl, by decide⟩

/-- The content of an ASN.1 child of 128 octets is moved when the continuation ends: the octets which a slice taken inside shows
afterwards are others. -/
example : let h : Heap := [List.replicate 140 0]
    let body : Prog := .add (List.replicate 127 1 ++ [2]) .nil
    let st := newBuilder false h ⟨0, 0, 0, 140⟩
    let st1 : St := { st with heap := (addBytes (fun _ _ _ => 0) st.heap st.cur [0x30]).1,
                              cur := (addBytes (fun _ _ _ => 0) st.heap st.cur [0x30]).2 }
    bytesOf (exec (fun _ _ _ => 0) body (enter (fun _ _ _ => 0) 1 true st1)) = .ok (0 :: List.replicate 127 1 ++ [2]) ∧
      Slice.get (heapAfter (exec (fun _ _ _ => 0) body (enter (fun _ _ _ => 0) 1 true st1))) ⟨0, 1, 129, 139⟩ =
        0 :: List.replicate 127 1 ++ [2] ∧
      Slice.get (heapAfter (exec (fun _ _ _ => 0) (.asn1 0x30 body .nil) st)) ⟨0, 1, 129, 139⟩ = 0x81 :: 0x80 :: List.replicate 127 1 := by
  decide +kernel

end Verif.Props
