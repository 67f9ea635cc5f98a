import Verif.Props.CryptobyteBuilder
/-!
# Property C30: exactly what a fixed-size Builder returns

The outcome of every program of additions, with continuations of any depth.
-/
namespace Verif.Props
open Verif Verif.CB Verif.Spec.DER Verif.Spec.Builder

/-- `Left p x n`: what remains of the additions of `p` when the content of each continuation is dropped and only its length prefix
is kept, and how many bytes of room they take. An ASN.1 item leaves its tag and the first of its length octets. -/
inductive Left : Prog → Bytes → Nat → Prop
  | nil : Left .nil [] 0
  | add {r x n} (bs : Bytes) : Left r x n → Left (.add bs r) (bs ++ x) (bs.length + n)
  | lenPrefixed {b r c m x n} (k : Fin 4) : Left b c m → c.length < 256 ^ (k.val + 1) → Left r x n →
      Left (.lenPrefixed k b r) (toBE (k.val + 1) c.length ++ x) (k.val + 1 + max m n)
  | asn1 {t b r c m l x n} : t &&& 0x1f ≠ 0x1f → Left b c m → c.length ≤ 2 ^ 32 - 2 → IsLength c.length l → Left r x n →
      Left (.asn1 t b r) (t :: l.take 1 ++ x) (2 + max m n)

/-- No continuation of the program adds anything. -/
def Hollow : Prog → Prop
  | .add _ r => Hollow r
  | .lenPrefixed _ b r => Encodes b [] ∧ Hollow r
  | .asn1 _ b r => Encodes b [] ∧ Hollow r
  | _ => True

/-! ## The steps of the machine -/

theorem get_shorter (h : Heap) (s : Slice) {a b : Nat} (hab : a ≤ b) :
    Slice.get h { s with len := a } = (Slice.get h { s with len := b }).take a := by
  unfold Slice.get
  dsimp only
  rw [List.take_take, Nat.min_eq_left hab]

theorem addBytes_fits (g : Growth) {h : Heap} {b : Bd} {bs : Bytes} (he : b.err = none)
    (hv : b.result.Valid h) (hc : b.result.len + bs.length ≤ b.result.cap) :
    ∃ h', addBytes g h b bs = (h', { b with result := { b.result with len := b.result.len + bs.length } }) ∧ h.Ext h' ∧
      Slice.Valid h' { b.result with len := b.result.len + bs.length } ∧
      Slice.get h' { b.result with len := b.result.len + bs.length } = b.result.get h ++ bs := by
  have x := goAppend_ext (spare := g h b.result bs.length) (ext := bs) hv
  have v := goAppend_valid (spare := g h b.result bs.length) (ext := bs) hv
  have e := Padding.goAppend_get (spare := g h b.result bs.length) (ext := bs) hv
  have hs : (goAppend (g h b.result bs.length) h b.result bs).2 = { b.result with len := b.result.len + bs.length } := by
    unfold goAppend; rw [if_pos hc]
  rw [hs] at v e
  refine ⟨(goAppend (g h b.result bs.length) h b.result bs).1, ?_, x, v, e⟩
  unfold addBytes
  rw [if_neg (by simp [he]), if_neg (by omega)]
  dsimp only
  rw [hs]

theorem addBytes_full (g : Growth) {h : Heap} {b : Bd} {bs : Bytes} (hf : b.fixedSize = true) (he : b.err = none)
    (hc : ¬ b.result.len + bs.length ≤ b.result.cap) :
    addBytes g h b bs = (h, { b with err := some "cryptobyte: Builder is exceeding its fixed-size buffer" }) := by
  unfold addBytes
  rw [if_neg (by simp [he]), if_pos ⟨hf, by omega⟩]

theorem flushLen_fixed {h : Heap} {child b : Bd} {l : Nat} {pre mid post : Bytes} (hv : child.result.Valid h)
    (hb : b.fixedSize = true) (hg : child.result.get h = pre ++ mid ++ post) (hp : pre.length = child.offset)
    (hm : mid.length = child.pendingLenLen) :
    ∃ h', flushLen h child b l = .ok (h', if l < 256 ^ child.pendingLenLen then b else
        { b with err := some (pendingError l child.pendingLenLen) }) ∧ h.Ext h' ∧
      child.result.get h' = pre ++ toBE child.pendingLenLen l ++ post := by
  obtain ⟨h', e, x, g⟩ := storeLen_ok (l := l) hv hg hp hm
  refine ⟨h', ?_, x, g⟩
  unfold flushLen
  rw [e]
  have hpos : 0 < 256 ^ child.pendingLenLen := Nat.pow_pos (by omega)
  simp only [hb]
  by_cases hlt : l < 256 ^ child.pendingLenLen
  · rw [if_neg (by rw [Nat.div_eq_of_lt hlt]; simp), if_pos hlt]; rfl
  · rw [if_pos (by intro h0; rcases Nat.div_eq_zero_iff.1 h0 with h0 | h0 <;> omega), if_neg hlt]

theorem asn1LenForm_room (n : Nat) : (asn1LenForm n).1 - 1 ≠ 0 → 2 * ((asn1LenForm n).1 - 1) ≤ n := by
  unfold asn1LenForm
  split
  · intro _; dsimp only; omega
  split
  · intro _; dsimp only; omega
  split
  · intro _; dsimp only; omega
  split
  · intro _; dsimp only; omega
  · intro h; exact absurd rfl h

/-- The ASN.1 case of `flushChild` on fixed-size builders: the parent keeps the length it has, and sees the first length octet. It
makes no difference whether there is room for further ones. -/
theorem flushASN1_fixed (g : Growth) {h : Heap} {child b : Bd} {pre c : Bytes} {z : Byte} (hv : child.result.Valid h)
    (hc : child.fixedSize = true) (hce : child.err = none) (hb : b.fixedSize = true) (hg : child.result.get h = pre ++ [z] ++ c)
    (hp : pre.length = child.offset) (hk : child.pendingLenLen = 1) (hlong : c.length ≤ 0xfffffffe) :
    ∃ h', flushASN1 g h child b c.length = .ok (h', b) ∧ h.Ext h' ∧
      (child.result.get h').take (pre.length + 1) = pre ++ (lenOctets c.length).take 1 := by
  unfold flushASN1
  rw [if_neg (by simp [hk]), if_neg (by omega)]
  have hlen := Slice.length_get hv
  rw [hg] at hlen
  simp only [List.length_append, List.length_cons, List.length_nil] at hlen
  obtain ⟨f1, f2, f3, f4⟩ := asn1LenForm_spec (n := c.length) hlong
  have f5 := asn1LenForm_room c.length
  generalize hform : asn1LenForm c.length = form at *
  obtain ⟨lenLen, lenByte, l⟩ := form
  simp only at f1 f2 f3 f4 f5 ⊢
  have ht1 : (lenOctets c.length).take 1 = [lenByte] := by rw [f3]; rfl
  obtain ⟨h1, e1, x1, g1⟩ := setByte_ok (v := lenByte) (i := child.offset) hv (by omega)
  rw [e1]
  simp only
  rw [hg, ← hp, overwrite_append pre [z] c [lenByte] rfl] at g1
  rw [ht1]
  have fin : ∀ y : Bytes, (pre ++ [lenByte] ++ y).take (pre.length + 1) = pre ++ [lenByte] := fun y => List.take_left' (by simp)
  by_cases hex : lenLen - 1 = 0
  · unfold makeRoom
    rw [if_neg (by simp [hex])]
    simp only
    obtain ⟨h2, e2, x2, g2⟩ := flushLen_fixed (h := h1) (l := l) (b := b)
      (child := { child with offset := child.offset + 1, pendingLenLen := lenLen - 1 })
      (pre := pre ++ [lenByte]) (mid := []) (post := c) (hv.mono x1) hb (by simpa using g1) (by simp [hp]) (by simp [hex])
    rw [if_pos f2] at e2
    refine ⟨h2, e2, x1.trans x2, ?_⟩
    simp only at g2
    rw [g2, List.append_assoc]
    exact fin _
  · unfold makeRoom
    rw [if_pos hex]
    have hv1 := hv.mono x1
    by_cases hfit : child.result.len + (lenLen - 1) ≤ child.result.cap
    · obtain ⟨h2, ea, xa, va, ga⟩ := addBytes_fits g (bs := List.replicate (lenLen - 1) (0 : Byte)) hce hv1 (by simpa using hfit)
      rw [ea]
      simp only
      rw [g1] at ga
      obtain ⟨h3, e3, x3, g3⟩ := copyUp_ok (e := lenLen - 1) va ga (by simp) (f4 hex)
      rw [show (pre ++ [lenByte]).length = child.offset + child.pendingLenLen by simp [hp, hk]] at e3
      rw [e3]
      simp only
      obtain ⟨h4, e4, x4, g4⟩ := flushLen_fixed (h := h3) (l := l) (b := b)
        (child := { child with result := { child.result with len := child.result.len + (List.replicate (lenLen - 1) (0 : Byte)).length }, offset := child.offset + 1, pendingLenLen := lenLen - 1 })
        (pre := pre ++ [lenByte]) (mid := c.take (lenLen - 1)) (post := c) (va.mono x3) hb (by simpa using g3) (by simp [hp])
        (by have := f4 hex; simp; omega)
      rw [if_pos f2] at e4
      refine ⟨h4, e4, x1.trans (xa.trans (x3.trans x4)), ?_⟩
      simp only at g4
      have : child.result.get h4 = (Slice.get h4 { child.result with len := child.result.len + (List.replicate (lenLen - 1) (0 : Byte)).length }).take child.result.len :=
        get_shorter h4 child.result (Nat.le_add_right _ _)
      rw [this, g4, List.take_take, Nat.min_eq_left (by omega), List.append_assoc]
      exact fin _
    · rw [addBytes_full g hc hce (by simpa using hfit)]
      simp only
      have f5 := f5 hex
      have hsplit : pre ++ [lenByte] ++ c = pre ++ [lenByte] ++ c.take (c.length - (lenLen - 1)) ++ c.drop (c.length - (lenLen - 1)) := by
        rw [List.append_assoc _ (c.take _), List.take_append_drop]
      obtain ⟨h3, e3, x3, g3⟩ := copyUp_ok (e := lenLen - 1) hv1 (g1.trans hsplit) (by simp; omega) (by simp; omega)
      rw [show (pre ++ [lenByte]).length = child.offset + child.pendingLenLen by simp [hp, hk]] at e3
      rw [e3]
      simp only
      obtain ⟨h4, e4, x4, g4⟩ := flushLen_fixed (h := h3) (l := l) (b := b)
        (child := { child with err := some "cryptobyte: Builder is exceeding its fixed-size buffer", offset := child.offset + 1, pendingLenLen := lenLen - 1 })
        (pre := pre ++ [lenByte]) (mid := (c.take (c.length - (lenLen - 1))).take (lenLen - 1)) (post := c.take (c.length - (lenLen - 1)))
        (hv1.mono x3) hb (by simpa using g3) (by simp [hp]) (by simp; omega)
      rw [if_pos f2] at e4
      refine ⟨h4, e4, x1.trans (x3.trans x4), ?_⟩
      simp only at g4
      rw [g4, List.append_assoc]
      exact fin _

/-! ## Programs -/

/-- The builder after `x` was added to it. -/
def grown (b : Bd) (x : Bytes) : Bd := { b with result := { b.result with len := b.result.len + x.length } }

theorem grown_append (b : Bd) (x y : Bytes) : grown (grown b x) y = grown b (x ++ y) := by
  unfold grown
  simp only [List.length_append, Nat.add_assoc]

/-- What a program leaves is added to the builder when there is room for it. -/
theorem exec_left (g : Growth) {p : Prog} {x : Bytes} {n : Nat} (hl : Left p x n) : ∀ st : St, st.cur.fixedSize = true → st.cur.err = none →
    st.cur.result.Valid st.heap → st.cur.result.len + n ≤ st.cur.result.cap →
    ∃ h', exec g p st = .done ⟨h', grown st.cur x, st.anc, st.inContinuation⟩ ∧ st.heap.Ext h' ∧
      (grown st.cur x).result.Valid h' ∧ (grown st.cur x).result.get h' = st.cur.result.get st.heap ++ x := by
  induction hl with
  | nil =>
    intro st _ _ hv _
    exact ⟨st.heap, rfl, .refl _, hv, (List.append_nil _).symm⟩
  | @add r x n bs _ ih =>
    intro st hf he hv hc
    obtain ⟨h1, e1, x1, v1, g1⟩ := addBytes_fits g (bs := bs) he hv (by omega)
    obtain ⟨h2, e2, x2, v2, g2⟩ := ih ⟨h1, grown st.cur bs, st.anc, st.inContinuation⟩ hf he v1 (by simp only [grown]; omega)
    simp only [grown_append] at e2 v2 g2
    refine ⟨h2, ?_, x1.trans x2, v2, ?_⟩
    · simp only [exec, e1]; exact e2
    · rw [g2, ← List.append_assoc]; congr 1
  | @lenPrefixed b r c m x n k _ hlen _ ihb ihr =>
    intro st hf he hv hc
    have hL := Slice.length_get hv
    obtain ⟨h1, e1, x1, v1, g1⟩ := addBytes_fits g (bs := List.replicate (k.val + 1) (0 : Byte)) he hv (by simp; omega)
    have hent : enter g (k.val + 1) false st = ⟨h1, ⟨none, (grown st.cur (List.replicate (k.val + 1) 0)).result, true, st.cur.result.len, k.val + 1, false⟩,
        grown st.cur (List.replicate (k.val + 1) 0) :: st.anc, true⟩ := by
      simp only [enter, e1, grown, hf]
    obtain ⟨h2, e2, x2, v2, g2⟩ := ihb ⟨h1, ⟨none, (grown st.cur (List.replicate (k.val + 1) 0)).result, true, st.cur.result.len, k.val + 1, false⟩,
        grown st.cur (List.replicate (k.val + 1) 0) :: st.anc, true⟩ rfl rfl v1 (by simp only [grown, List.length_replicate]; omega)
    simp only [exec]
    rw [if_neg (by simp [he]), hent, e2]
    obtain ⟨h3, e3, x3, g3⟩ := flushLen_fixed (h := h2) (l := c.length) (b := grown st.cur (List.replicate (k.val + 1) 0))
      (child := grown ⟨none, (grown st.cur (List.replicate (k.val + 1) 0)).result, true, st.cur.result.len, k.val + 1, false⟩ c)
      (pre := st.cur.result.get st.heap) (mid := List.replicate (k.val + 1) 0) (post := c) v2 hf
      (by rw [g2]; exact congrArg (· ++ c) g1) hL (by simp [grown])
    have hfl : flush1 g h2 (grown ⟨none, (grown st.cur (List.replicate (k.val + 1) 0)).result, true, st.cur.result.len, k.val + 1, false⟩ c)
        (grown st.cur (List.replicate (k.val + 1) 0)) = .ok (h3, grown st.cur (List.replicate (k.val + 1) 0)) := by
      unfold flush1
      simp only [grown, List.length_replicate] at e3 ⊢
      rw [if_neg (by omega), if_neg (by simp), show st.cur.result.len + (k.val + 1) + c.length - (k.val + 1) - st.cur.result.len = c.length by omega, e3,
        if_pos hlen]
    simp only [leave, flushN, hfl, Out.andThen]
    have gs : (grown st.cur (List.replicate (k.val + 1) 0)).result.get h3 = st.cur.result.get st.heap ++ toBE (k.val + 1) c.length := by
      have := get_shorter h3 st.cur.result (a := st.cur.result.len + (k.val + 1)) (b := st.cur.result.len + (k.val + 1) + c.length) (by omega)
      simp only [grown, List.length_replicate] at g3 ⊢
      rw [this, g3]
      exact List.take_left' (by simp [hL])
    obtain ⟨h4, e4, x4, v4, g4⟩ := ihr ⟨h3, grown st.cur (List.replicate (k.val + 1) 0), st.anc, if (!st.inContinuation) = true then false else true⟩ hf he
      ((v1.mono x2).mono x3) (by simp only [grown, List.length_replicate]; omega)
    have hgr : grown (grown st.cur (List.replicate (k.val + 1) 0)) x = grown st.cur (toBE (k.val + 1) c.length ++ x) := by
      unfold grown; simp [Nat.add_assoc]
    have hin : (if (!st.inContinuation) = true then false else true) = st.inContinuation := by cases st.inContinuation <;> rfl
    simp only [hgr, hin] at e4 v4 g4 ⊢
    refine ⟨h4, e4, x1.trans (x2.trans (x3.trans x4)), v4, ?_⟩
    rw [g4, gs, List.append_assoc]
  | @asn1 t b r c m l x n ht _ hlen hil _ ihb ihr =>
    intro st hf he hv hc
    have hL := Slice.length_get hv
    obtain ⟨h0, e0, x0, v0, g0⟩ := addBytes_fits g (bs := [t]) he hv (by simp; omega)
    obtain ⟨h1, e1, x1, v1, g1⟩ := addBytes_fits g (b := grown st.cur [t]) (bs := [(0 : Byte)]) he v0 (by simp [grown]; omega)
    have hll : l = lenOctets c.length := (isLength_iff (byteLen_lt_127 (by omega))).1 hil
    have hent : enter g 1 true { st with heap := h0, cur := grown st.cur [t] } =
        ⟨h1, ⟨none, (grown st.cur [t, 0]).result, true, st.cur.result.len + 1, 1, true⟩, grown st.cur [t, 0] :: st.anc, true⟩ := by
      simp only [enter, List.replicate_one, e1]
      simp [grown, hf]
    obtain ⟨h2, e2, x2, v2, g2⟩ := ihb ⟨h1, ⟨none, (grown st.cur [t, 0]).result, true, st.cur.result.len + 1, 1, true⟩, grown st.cur [t, 0] :: st.anc, true⟩
      rfl rfl v1 (by simp only [grown, List.length_cons, List.length_nil]; omega)
    simp only [exec]
    rw [if_neg (by simp [he]), if_neg ht, e0]
    simp only
    rw [if_neg (by simp [he])]
    change ∃ h', (leave g _ _ (exec g b (enter g 1 true { st with heap := h0, cur := grown st.cur [t] }))).andThen (exec g r) = _ ∧ _
    rw [hent, e2]
    have hpre : (st.cur.result.get st.heap ++ [t]).length = st.cur.result.len + 1 := by simp [hL]
    obtain ⟨h3, e3, x3, g3⟩ := flushASN1_fixed g (h := h2) (b := grown st.cur [t, 0])
      (child := grown ⟨none, (grown st.cur [t, 0]).result, true, st.cur.result.len + 1, 1, true⟩ c)
      (pre := st.cur.result.get st.heap ++ [t]) (z := 0) (c := c) v2 rfl rfl hf
      (by rw [g2]; exact congrArg (· ++ c) (g1.trans (congrArg (· ++ [0]) g0))) hpre rfl (by omega)
    have hfl : flush1 g h2 (grown ⟨none, (grown st.cur [t, 0]).result, true, st.cur.result.len + 1, 1, true⟩ c) (grown st.cur [t, 0]) =
        .ok (h3, grown st.cur [t, 0]) := by
      unfold flush1
      simp only [grown, List.length_cons, List.length_nil] at e3 ⊢
      rw [if_neg (by omega), if_pos trivial, show st.cur.result.len + (0 + 1 + 1) + c.length - 1 - (st.cur.result.len + 1) = c.length by omega, e3]
    simp only [leave, flushN, hfl, Out.andThen]
    have gs : (grown st.cur [t, 0]).result.get h3 = st.cur.result.get st.heap ++ t :: l.take 1 := by
      have := get_shorter h3 st.cur.result (a := st.cur.result.len + 2) (b := st.cur.result.len + 2 + c.length) (by omega)
      rw [hpre] at g3
      simp only [grown, List.length_cons, List.length_nil] at g3 ⊢
      rw [this]
      refine Eq.trans g3 ?_
      rw [hll]; simp
    obtain ⟨h4, e4, x4, v4, g4⟩ := ihr ⟨h3, grown st.cur [t, 0], st.anc, if (!st.inContinuation) = true then false else true⟩ hf he
      ((v1.mono x2).mono x3) (by simp only [grown, List.length_cons, List.length_nil]; omega)
    have hl1 : (l.take 1).length = 1 := by
      rw [hll, List.length_take, length_lenOctets]; split <;> omega
    have hgr : grown (grown st.cur [t, 0]) x = grown st.cur (t :: l.take 1 ++ x) := by
      have hx : st.cur.result.len + [t, 0].length + x.length = st.cur.result.len + (t :: l.take 1 ++ x).length := by
        simp only [List.cons_append, List.length_append, List.length_cons, List.length_nil, hl1]; omega
      show ({ st.cur with result := { st.cur.result with len := st.cur.result.len + [t, 0].length + x.length } } : Bd) = _
      rw [hx]; rfl
    have hin : (if (!st.inContinuation) = true then false else true) = st.inContinuation := by cases st.inContinuation <;> rfl
    simp only [hgr, hin] at e4 v4 g4 ⊢
    refine ⟨h4, e4, x0.trans (x1.trans (x2.trans (x3.trans x4))), v4, ?_⟩
    rw [g4, gs, List.append_assoc]

theorem exec_plain_err (g : Growth) (p : Prog) (hp : Plain p) : ∀ st : St, st.cur.err.isSome = true → exec g p st = .done st := by
  induction p with
  | nil => intro st _; rfl
  | add bs r ih =>
    intro st h
    simp only [exec, addBytes, h, if_true]
    exact ih hp st h
  | lenPrefixed k b r _ ih =>
    intro st h
    simp only [exec, h, if_true]
    exact ih hp.2 st h
  | asn1 t b r _ ih =>
    intro st h
    simp only [exec, h, if_true]
    exact ih hp.2 st h
  | setErr => exact hp.elim
  | throw => exact hp.elim
  | panic => exact hp.elim
  | up => exact hp.elim

/-- The other outcomes: an error, or a panic. -/
def Fails (st : St) (o : Out) : Prop := (∃ st', o = .done st' ∧ st'.cur.err.isSome = true ∧ st'.anc = st.anc) ∨ ∃ h', o = .panicked h'

/-- A program of additions leaves what `Left` says, or fails. -/
theorem exec_or_fails (g : Growth) (p : Prog) (hp : Plain p) : ∀ st : St, st.cur.fixedSize = true → st.cur.err = none →
    st.cur.result.Valid st.heap →
    (∃ x n, Left p x n ∧ st.cur.result.len + n ≤ st.cur.result.cap) ∨ Fails st (exec g p st) := by
  induction p with
  | nil => intro st _ _ hv; exact .inl ⟨[], 0, .nil, hv.1⟩
  | add bs r ih =>
    intro st hf he hv
    by_cases hc : st.cur.result.len + bs.length ≤ st.cur.result.cap
    · obtain ⟨h1, e1, x1, v1, g1⟩ := addBytes_fits g (bs := bs) he hv hc
      rcases ih hp ⟨h1, grown st.cur bs, st.anc, st.inContinuation⟩ hf he v1 with ⟨x, n, hl, hn⟩ | h
      · exact .inl ⟨_, _, .add bs hl, by simp only [grown] at hn; omega⟩
      · right
        simp only [exec, e1]
        exact h
    · right
      left
      simp only [exec, addBytes_full g hf he hc]
      exact ⟨_, exec_plain_err g r hp _ rfl, rfl, rfl⟩
  | lenPrefixed k b r ihb ihr =>
    intro st hf he hv
    have hL := Slice.length_get hv
    have step : ∀ st1 : St, exec g b (enter g (k.val + 1) false st) = .done st1 → st1.cur.err.isSome = true → st1.anc = (enter g (k.val + 1) false st).anc →
        Fails st ((leave g (!st.inContinuation) st.anc.length (exec g b (enter g (k.val + 1) false st))).andThen (exec g r)) := by
      intro st1 e1 e2 e3
      obtain ⟨m, hm⟩ := Option.isSome_iff_exists.1 e2
      rw [e1]
      simp only [leave, e3, enter, flushN, flush1, hm, Out.andThen]
      left
      exact ⟨_, exec_plain_err g r hp.2 _ rfl, rfl, rfl⟩
    have stepP : ∀ h', exec g b (enter g (k.val + 1) false st) = .panicked h' →
        Fails st ((leave g (!st.inContinuation) st.anc.length (exec g b (enter g (k.val + 1) false st))).andThen (exec g r)) := by
      intro h' e1
      rw [e1]
      exact .inr ⟨h', rfl⟩
    have hne : ¬ st.cur.err.isSome = true := by simp [he]
    simp only [exec]
    rw [if_neg hne]
    by_cases hc : st.cur.result.len + (k.val + 1) ≤ st.cur.result.cap
    · obtain ⟨h1, e1, x1, v1, g1⟩ := addBytes_fits g (bs := List.replicate (k.val + 1) (0 : Byte)) he hv (by simpa using hc)
      have hent : enter g (k.val + 1) false st = ⟨h1, ⟨none, (grown st.cur (List.replicate (k.val + 1) 0)).result, true, st.cur.result.len, k.val + 1, false⟩,
          grown st.cur (List.replicate (k.val + 1) 0) :: st.anc, true⟩ := by
        simp only [enter, e1, grown, hf]
      rcases ihb hp.1 (enter g (k.val + 1) false st) (by rw [hent]) (by rw [hent]) (by rw [hent]; exact v1) with ⟨c, m, hl, hm⟩ | ⟨st1, e2, e3, e4⟩ | ⟨h', e2⟩
      · rw [hent] at hm ⊢
        obtain ⟨h2, e2, x2, v2, g2⟩ := exec_left g hl ⟨h1, ⟨none, (grown st.cur (List.replicate (k.val + 1) 0)).result, true, st.cur.result.len, k.val + 1, false⟩,
          grown st.cur (List.replicate (k.val + 1) 0) :: st.anc, true⟩ rfl rfl v1 hm
        obtain ⟨h3, e3, x3, g3⟩ := flushLen_fixed (h := h2) (l := c.length) (b := grown st.cur (List.replicate (k.val + 1) 0))
          (child := grown ⟨none, (grown st.cur (List.replicate (k.val + 1) 0)).result, true, st.cur.result.len, k.val + 1, false⟩ c)
          (pre := st.cur.result.get st.heap) (mid := List.replicate (k.val + 1) 0) (post := c) v2 hf
          (by rw [g2]; exact congrArg (· ++ c) g1) hL (by simp [grown])
        have hfl : flush1 g h2 (grown ⟨none, (grown st.cur (List.replicate (k.val + 1) 0)).result, true, st.cur.result.len, k.val + 1, false⟩ c)
            (grown st.cur (List.replicate (k.val + 1) 0)) = .ok (h3, if c.length < 256 ^ (k.val + 1) then grown st.cur (List.replicate (k.val + 1) 0) else
              { grown st.cur (List.replicate (k.val + 1) 0) with err := some (pendingError c.length (k.val + 1)) }) := by
          unfold flush1
          simp only [grown, List.length_replicate] at e3 ⊢
          rw [if_neg (by omega), if_neg (by simp), show st.cur.result.len + (k.val + 1) + c.length - (k.val + 1) - st.cur.result.len = c.length by omega, e3]
        rw [e2]
        simp only [leave, flushN, hfl, Out.andThen]
        by_cases hlen : c.length < 256 ^ (k.val + 1)
        · rw [if_pos hlen]
          rcases ihr hp.2 ⟨h3, grown st.cur (List.replicate (k.val + 1) 0), st.anc, if (!st.inContinuation) = true then false else true⟩ hf he
            ((v1.mono x2).mono x3) with ⟨x, n, hr, hn⟩ | h
          · left
            refine ⟨_, _, .lenPrefixed k hl hlen hr, ?_⟩
            simp only [grown, List.length_replicate] at hm hn
            omega
          · exact .inr h
        · rw [if_neg hlen]
          right; left
          exact ⟨_, exec_plain_err g r hp.2 _ rfl, rfl, rfl⟩
      · exact .inr (step st1 e2 e3 e4)
      · exact .inr (stepP h' e2)
    · right
      have hfull := addBytes_full g (h := st.heap) (bs := List.replicate (k.val + 1) (0 : Byte)) hf he (by simpa using hc)
      have hent : enter g (k.val + 1) false st = ⟨st.heap, ⟨none, st.cur.result, true, st.cur.result.len, k.val + 1, false⟩,
          { st.cur with err := some "cryptobyte: Builder is exceeding its fixed-size buffer" } :: st.anc, true⟩ := by
        simp only [enter, hfull, hf]
      rcases ihb hp.1 (enter g (k.val + 1) false st) (by rw [hent]) (by rw [hent]) (by rw [hent]; exact hv) with ⟨c, m, hl, hm⟩ | ⟨st1, e2, e3, e4⟩ | ⟨h', e2⟩
      · rw [hent] at hm ⊢
        obtain ⟨h2, e2, x2, v2, g2⟩ := exec_left g hl ⟨st.heap, ⟨none, st.cur.result, true, st.cur.result.len, k.val + 1, false⟩,
          { st.cur with err := some "cryptobyte: Builder is exceeding its fixed-size buffer" } :: st.anc, true⟩ rfl rfl hv hm
        rw [e2]
        have hv2 := v2.1
        simp only [grown] at hv2
        have hfl : flush1 g h2 (grown ⟨none, st.cur.result, true, st.cur.result.len, k.val + 1, false⟩ c)
            { st.cur with err := some "cryptobyte: Builder is exceeding its fixed-size buffer" } = .error h2 := by
          unfold flush1
          exact if_pos (show st.cur.result.len + c.length < k.val + 1 + st.cur.result.len by omega)
        simp only [leave, flushN, hfl]
        exact .inr ⟨h2, rfl⟩
      · exact step st1 e2 e3 e4
      · exact stepP h' e2
  | asn1 t b r ihb ihr =>
    intro st hf he hv
    have hL := Slice.length_get hv
    have hne : ¬ st.cur.err.isSome = true := by simp [he]
    simp only [exec]
    rw [if_neg hne]
    by_cases ht : t &&& 0x1f = 0x1f
    · rw [if_pos ht]
      right; left
      exact ⟨_, exec_plain_err g r hp.2 _ rfl, rfl, rfl⟩
    rw [if_neg ht]
    by_cases hc0 : st.cur.result.len + 1 ≤ st.cur.result.cap
    swap
    · right; left
      rw [addBytes_full g hf he (by simpa using hc0)]
      simp only [Option.isSome_some, if_true]
      exact ⟨_, exec_plain_err g r hp.2 _ rfl, rfl, rfl⟩
    obtain ⟨h0, e0, x0, v0, g0⟩ := addBytes_fits g (bs := [t]) he hv (by simpa using hc0)
    rw [e0]
    simp only
    rw [if_neg hne]
    change _ ∨ Fails st ((leave g (!st.inContinuation) st.anc.length (exec g b (enter g 1 true { st with heap := h0, cur := grown st.cur [t] }))).andThen (exec g r))
    have step : ∀ st1 : St, exec g b (enter g 1 true { st with heap := h0, cur := grown st.cur [t] }) = .done st1 → st1.cur.err.isSome = true →
        st1.anc = (enter g 1 true { st with heap := h0, cur := grown st.cur [t] }).anc →
        Fails st ((leave g (!st.inContinuation) st.anc.length (exec g b (enter g 1 true { st with heap := h0, cur := grown st.cur [t] }))).andThen (exec g r)) := by
      intro st1 e1 e2 e3
      obtain ⟨m, hm⟩ := Option.isSome_iff_exists.1 e2
      rw [e1]
      simp only [leave, e3, enter, flushN, flush1, hm, Out.andThen]
      left
      exact ⟨_, exec_plain_err g r hp.2 _ rfl, rfl, rfl⟩
    have stepP : ∀ h', exec g b (enter g 1 true { st with heap := h0, cur := grown st.cur [t] }) = .panicked h' →
        Fails st ((leave g (!st.inContinuation) st.anc.length (exec g b (enter g 1 true { st with heap := h0, cur := grown st.cur [t] }))).andThen (exec g r)) := by
      intro h' e1
      rw [e1]
      exact .inr ⟨h', rfl⟩
    by_cases hc : st.cur.result.len + 2 ≤ st.cur.result.cap
    · obtain ⟨h1, e1, x1, v1, g1⟩ := addBytes_fits g (b := grown st.cur [t]) (bs := [(0 : Byte)]) he v0 (by simp [grown]; omega)
      have hent : enter g 1 true { st with heap := h0, cur := grown st.cur [t] } =
          ⟨h1, ⟨none, (grown st.cur [t, 0]).result, true, st.cur.result.len + 1, 1, true⟩, grown st.cur [t, 0] :: st.anc, true⟩ := by
        simp only [enter, List.replicate_one, e1]
        simp [grown, hf]
      rcases ihb hp.1 (enter g 1 true { st with heap := h0, cur := grown st.cur [t] }) (by rw [hent]) (by rw [hent]) (by rw [hent]; exact v1) with
        ⟨c, m, hl, hm⟩ | ⟨st1, e2, e3, e4⟩ | ⟨h', e2⟩
      · rw [hent] at hm ⊢
        obtain ⟨h2, e2, x2, v2, g2⟩ := exec_left g hl ⟨h1, ⟨none, (grown st.cur [t, 0]).result, true, st.cur.result.len + 1, 1, true⟩, grown st.cur [t, 0] :: st.anc, true⟩
          rfl rfl v1 hm
        rw [e2]
        have hpre : (st.cur.result.get st.heap ++ [t]).length = st.cur.result.len + 1 := by simp [hL]
        by_cases hlen : c.length ≤ 0xfffffffe
        · obtain ⟨h3, e3, x3, g3⟩ := flushASN1_fixed g (h := h2) (b := grown st.cur [t, 0])
            (child := grown ⟨none, (grown st.cur [t, 0]).result, true, st.cur.result.len + 1, 1, true⟩ c)
            (pre := st.cur.result.get st.heap ++ [t]) (z := 0) (c := c) v2 rfl rfl hf
            (by rw [g2]; exact congrArg (· ++ c) (g1.trans (congrArg (· ++ [0]) g0))) hpre rfl hlen
          have hfl : flush1 g h2 (grown ⟨none, (grown st.cur [t, 0]).result, true, st.cur.result.len + 1, 1, true⟩ c) (grown st.cur [t, 0]) =
              .ok (h3, grown st.cur [t, 0]) := by
            unfold flush1
            simp only [grown, List.length_cons, List.length_nil] at e3 ⊢
            rw [if_neg (by omega), if_pos trivial, show st.cur.result.len + (0 + 1 + 1) + c.length - 1 - (st.cur.result.len + 1) = c.length by omega, e3]
          simp only [leave, flushN, hfl, Out.andThen]
          rcases ihr hp.2 ⟨h3, grown st.cur [t, 0], st.anc, if (!st.inContinuation) = true then false else true⟩ hf he
            ((v1.mono x2).mono x3) with ⟨x, n, hr, hn⟩ | h
          · left
            refine ⟨_, _, .asn1 ht hl (by omega) ((isLength_iff (byteLen_lt_127 (by omega))).2 rfl) hr, ?_⟩
            simp only [grown, List.length_cons, List.length_nil] at hm hn
            omega
          · exact .inr h
        · right; left
          have hfl : flush1 g h2 (grown ⟨none, (grown st.cur [t, 0]).result, true, st.cur.result.len + 1, 1, true⟩ c) (grown st.cur [t, 0]) =
              .ok (h2, { grown st.cur [t, 0] with err := some "pending ASN.1 child too long" }) := by
            unfold flush1 flushASN1
            simp only [grown, List.length_cons, List.length_nil]
            rw [if_neg (by omega), if_pos trivial]
            exact (if_neg (show ¬ ((1 : Nat) ≠ 1) by decide)).trans (if_pos (by omega))
          simp only [leave, flushN, hfl, Out.andThen]
          exact ⟨_, exec_plain_err g r hp.2 _ rfl, rfl, rfl⟩
      · exact .inr (step st1 e2 e3 e4)
      · exact .inr (stepP h' e2)
    · right
      have hfull := addBytes_full g (h := h0) (b := grown st.cur [t]) (bs := List.replicate 1 (0 : Byte)) hf he (by simp [grown]; omega)
      have hent : enter g 1 true { st with heap := h0, cur := grown st.cur [t] } = ⟨h0, ⟨none, (grown st.cur [t]).result, true, st.cur.result.len + 1, 1, true⟩,
          { grown st.cur [t] with err := some "cryptobyte: Builder is exceeding its fixed-size buffer" } :: st.anc, true⟩ := by
        simp only [enter, hfull]
        simp [grown, hf]
      rcases ihb hp.1 (enter g 1 true { st with heap := h0, cur := grown st.cur [t] }) (by rw [hent]) (by rw [hent]) (by rw [hent]; exact v0) with
        ⟨c, m, hl, hm⟩ | ⟨st1, e2, e3, e4⟩ | ⟨h', e2⟩
      · rw [hent] at hm ⊢
        obtain ⟨h2, e2, x2, v2, g2⟩ := exec_left g hl ⟨h0, ⟨none, (grown st.cur [t]).result, true, st.cur.result.len + 1, 1, true⟩,
          { grown st.cur [t] with err := some "cryptobyte: Builder is exceeding its fixed-size buffer" } :: st.anc, true⟩ rfl rfl v0 hm
        rw [e2]
        have hv2 := v2.1
        simp only [grown, List.length_cons, List.length_nil] at hv2
        have hfl : flush1 g h2 (grown ⟨none, (grown st.cur [t]).result, true, st.cur.result.len + 1, 1, true⟩ c)
            { grown st.cur [t] with err := some "cryptobyte: Builder is exceeding its fixed-size buffer" } = .error h2 := by
          unfold flush1
          exact if_pos (show st.cur.result.len + (0 + 1) + c.length < 1 + (st.cur.result.len + 1) by omega)
        simp only [leave, flushN, hfl]
        exact .inr ⟨h2, rfl⟩
      · exact step st1 e2 e3 e4
      · exact stepP h' e2
  | setErr => exact hp.elim
  | throw => exact hp.elim
  | panic => exact hp.elim
  | up => exact hp.elim

/-! ## C30 -/

theorem plain_of_left {p : Prog} {x : Bytes} {n : Nat} (h : Left p x n) : Plain p := by
  induction h with
  | nil => trivial
  | add _ _ ih => exact ih
  | lenPrefixed _ _ _ _ ihb ihr => exact ⟨ihb, ihr⟩
  | asn1 _ _ _ _ _ ihb ihr => exact ⟨ihb, ihr⟩

/-- C30, exactly when a fixed-size builder returns bytes, and which: its buffer, and what is left of the additions when the content
of every continuation is dropped. `_partial`: with a continuation that adds anything these are not the bytes of a growing builder. -/
theorem C30_returns_partial (g : Growth) (h : Heap) (buf : Slice) (hv : buf.Valid h) (p : Prog) (hp : Plain p) (out : Bytes) :
    runFixed g h buf p = .ok out ↔ ∃ x n, Left p x n ∧ buf.len + n ≤ buf.cap ∧ out = buf.get h ++ x := by
  constructor
  · intro ho
    rcases exec_or_fails g p hp (newBuilder true h buf) rfl rfl hv with ⟨x, n, hl, hn⟩ | ⟨st', e1, e2, _⟩ | ⟨h', e⟩
    · obtain ⟨h', e, _, _, gg⟩ := exec_left g hl (newBuilder true h buf) rfl rfl hv hn
      unfold runFixed at ho
      rw [e] at ho
      refine ⟨x, n, hl, hn, ?_⟩
      have : bytesOf (.done ⟨h', grown (newBuilder true h buf).cur x, (newBuilder true h buf).anc, (newBuilder true h buf).inContinuation⟩) =
          .ok (((grown (newBuilder true h buf).cur x).result.get h').drop 0) := rfl
      rw [this, List.drop_zero, gg, Res.ok.injEq] at ho
      exact ho.symm
    · unfold runFixed at ho
      obtain ⟨m, hm⟩ := Option.isSome_iff_exists.1 e2
      rw [e1] at ho
      simp only [bytesOf, hm] at ho
      cases ho
    · unfold runFixed at ho
      rw [e] at ho
      cases ho
  · rintro ⟨x, n, hl, hn, rfl⟩
    obtain ⟨h', e, _, _, gg⟩ := exec_left g hl (newBuilder true h buf) rfl rfl hv hn
    unfold runFixed
    rw [e]
    have : bytesOf (.done ⟨h', grown (newBuilder true h buf).cur x, (newBuilder true h buf).anc, (newBuilder true h buf).inContinuation⟩) =
        .ok (((grown (newBuilder true h buf).cur x).result.get h').drop 0) := rfl
    rw [this, List.drop_zero, gg]
    rfl

theorem encodes_unique {p : Prog} {x y : Bytes} (h : Encodes p x) (h' : Encodes p y) : x = y := by
  have a := eval_of_encodes h []
  rw [eval_of_encodes h' []] at a
  simpa using a.symm

theorem length_lenOctets_mono {a b : Nat} (h : a ≤ b) : (lenOctets a).length ≤ (lenOctets b).length := by
  rw [length_lenOctets, length_lenOctets]
  have := (byteLen_le_iff a (byteLen b)).2 (lt_of_le_of_lt h ((byteLen_le_iff b (byteLen b)).1 le_rfl))
  split <;> split <;> omega

theorem length_left {p : Prog} {x : Bytes} {n : Nat} (h : Left p x n) : x.length ≤ n := by
  induction h with
  | nil => exact le_rfl
  | add _ _ ih => rw [List.length_append]; omega
  | lenPrefixed _ _ _ _ ihb ihr => rw [List.length_append, length_toBE]; omega
  | asn1 _ _ _ _ _ ihb ihr =>
    simp only [List.cons_append, List.length_cons, List.length_append, List.length_take]
    omega

/-- What is encoded leaves something that needs no more room, and it is the encoding exactly when no continuation adds anything. -/
theorem left_of_encodes {p : Prog} {y : Bytes} (h : Encodes p y) : ∃ x n, Left p x n ∧ n ≤ y.length ∧ (x.length = y.length ↔ Hollow p) ∧ (Hollow p → x = y) := by
  induction h with
  | nil => exact ⟨[], 0, .nil, le_rfl, ⟨fun _ => trivial, fun _ => rfl⟩, fun _ => rfl⟩
  | @add r y bs _ ih =>
    obtain ⟨x, n, a, b, c, d⟩ := ih
    refine ⟨_, _, .add bs a, by rw [List.length_append]; omega, ?_, fun hh => by rw [d hh]⟩
    rw [List.length_append, List.length_append, Nat.add_left_cancel_iff]
    exact c
  | @lenPrefixed b r c y k hb hlen _ ihb ihr =>
    obtain ⟨x1, n1, a1, b1, c1, d1⟩ := ihb
    obtain ⟨x2, n2, a2, b2, c2, d2⟩ := ihr
    have l1 := length_left a1
    have l2 := length_left a2
    refine ⟨_, _, .lenPrefixed k a1 (by omega) a2, ?_, ?_, ?_⟩
    · simp only [List.length_append, length_toBE]; omega
    · simp only [List.length_append, length_toBE, Hollow]
      rw [← c2]
      constructor
      · intro e
        have : c = [] := List.length_eq_zero_iff.1 (by omega)
        exact ⟨this ▸ hb, by omega⟩
      · rintro ⟨e1, e2⟩
        rw [encodes_unique hb e1] at *
        simp only [List.length_nil] at *
        omega
    · rintro ⟨e1, e2⟩
      have hc := encodes_unique hb e1
      subst hc
      have : x1 = [] := List.length_eq_zero_iff.1 (by simp only [List.length_nil] at b1; omega)
      rw [this, d2 e2]; simp
  | @asn1 t b r c l y ht hb hlen hil _ ihb ihr =>
    obtain ⟨x1, n1, a1, b1, c1, d1⟩ := ihb
    obtain ⟨x2, n2, a2, b2, c2, d2⟩ := ihr
    have l1 := length_left a1
    have l2 := length_left a2
    have hll : l = lenOctets c.length := (isLength_iff (byteLen_lt_127 (by omega))).1 hil
    have hm := length_lenOctets_mono (show x1.length ≤ c.length by omega)
    have hpos : 1 ≤ (lenOctets x1.length).length := by rw [length_lenOctets]; split <;> omega
    refine ⟨_, _, .asn1 ht a1 (by omega) ((isLength_iff (byteLen_lt_127 (by omega))).2 rfl) a2, ?_, ?_, ?_⟩
    · rw [hll]
      simp only [List.cons_append, List.length_cons, List.length_append]; omega
    · rw [hll]
      simp only [List.cons_append, List.length_cons, List.length_append, List.length_take, Hollow]
      rw [← c2]
      constructor
      · intro e
        have : c = [] := List.length_eq_zero_iff.1 (by omega)
        exact ⟨this ▸ hb, by omega⟩
      · rintro ⟨e1, e2⟩
        have hc := encodes_unique hb e1
        subst hc
        have : (lenOctets ([] : Bytes).length).length = 1 := rfl
        rw [this]
        simp only [List.length_nil]
        omega
    · rintro ⟨e1, e2⟩
      have hc := encodes_unique hb e1
      subst hc
      have : x1 = [] := List.length_eq_zero_iff.1 (by simp only [List.length_nil] at b1; omega)
      rw [this, d2 e2, hll]; rfl

/-- **C30, exactly**: when the bytes of the growing builder fit in the buffer of a fixed-size one, it returns bytes without an
error, and they are those of the growing builder exactly when no continuation adds anything. -/
theorem C30_exact_violated (g g' : Growth) (h h' : Heap) (buf buf' : Slice) (hv : buf.Valid h) (hv' : buf'.Valid h') (hb : buf'.get h' = buf.get h) (p : Prog)
    (out : Bytes) (hr : run g' h' buf' p = .ok out) (hc : out.length ≤ buf.cap) :
    ∃ out', runFixed g h buf p = .ok out' ∧ out'.length ≤ out.length ∧ (out' = out ↔ Hollow p) := by
  obtain ⟨y, hy, rfl⟩ := (C28_builder_iff g' h' buf' hv' p out).1 hr
  obtain ⟨x, n, a, b, c, d⟩ := left_of_encodes hy
  have hL := Slice.length_get hv
  have lx := length_left a
  rw [hb] at hc ⊢
  rw [List.length_append, hL] at hc
  refine ⟨_, (C30_returns_partial g h buf hv p (plain_of_left a) _).2 ⟨x, n, a, by omega, rfl⟩, ?_, ?_⟩
  · simp only [List.length_append]; omega
  · rw [List.append_cancel_left_eq]
    exact ⟨fun e => c.1 (by rw [e]), d⟩

set_option maxRecDepth 8000 in
/-- Nested continuations: of SEQUENCE { OCTET STRING of 200 bytes } and a byte only the tag of the SEQUENCE, the length 2 and the
byte are left. -/
example : Left (.asn1 0x30 (.asn1 0x04 (.add (List.replicate 200 7) .nil) .nil) (.add [9] .nil)) [0x30, 2, 9] 204 := by
  have h := Left.asn1 (t := 0x30) (l := [2]) (by decide) (.asn1 (t := 0x04) (l := [0x81, 200]) (by decide) (.add (List.replicate 200 7) .nil) (by decide)
    ((isLength_iff (by decide)).2 (by decide)) .nil) (by decide) ((isLength_iff (by decide)).2 (by decide)) (.add [9] .nil)
  exact h
example : runFixed (fun _ _ _ => 0) [List.replicate 250 0] ⟨0, 0, 0, 250⟩ (.asn1 0x30 (.asn1 0x04 (.add (List.replicate 200 7) .nil) .nil) (.add [9] .nil)) =
    .ok [0x30, 2, 9] := by decide +kernel
/-- A continuation that adds nothing does no harm. -/
example : Hollow (.add [5] (.asn1 0x05 .nil (.lenPrefixed 1 .nil .nil))) ∧
    runFixed (fun _ _ _ => 0) [List.replicate 9 0] ⟨0, 0, 0, 9⟩ (.add [5] (.asn1 0x05 .nil (.lenPrefixed 1 .nil .nil))) = .ok [5, 5, 0, 0, 0] :=
  ⟨⟨.nil, .nil, trivial⟩, by decide +kernel⟩

end Verif.Props
