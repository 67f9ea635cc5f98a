import Verif.CB.BuilderLemmas
/-! `exec` on a growing builder computes `Spec.Builder.eval`. -/
namespace Verif.CB
open Spec.Builder Spec.DER

/-- What a flushed child contributes behind its offset. -/
def itemOf (child : Bd) (c : Bytes) : Option Bytes :=
  if child.pendingIsASN1 then (if c.length ≤ 0xfffffffe then some (lenOctets c.length ++ c) else none)
  else lpItem child.pendingLenLen c

/-- The error for a content that is too long. -/
def longError (child : Bd) (n : Nat) : String :=
  if child.pendingIsASN1 then "pending ASN.1 child too long" else pendingError n child.pendingLenLen

theorem flush1_ok (g : Growth) {h : Heap} {child b : Bd} (hc : Good h child) (hb : Good h b)
    (hroom : b.offset + b.pendingLenLen ≤ child.offset) (hce : child.err = none) :
    ∃ h' b', flush1 g h child b = .ok (h', b') ∧ h.Ext h' ∧ Good h' b' ∧ b'.frame = b.frame ∧
      (match itemOf child ((child.result.get h).drop (child.offset + child.pendingLenLen)) with
        | none => b'.err = some (longError child ((child.result.get h).drop (child.offset + child.pendingLenLen)).length)
        | some y => b'.err = b.err ∧ b'.result.get h' = (child.result.get h).take child.offset ++ y) := by
  have hlen := Slice.length_get hc.valid
  have hroom' := hc.room
  generalize hx : child.result.get h = x at *
  have hsplit : x = x.take child.offset ++ (x.drop child.offset).take child.pendingLenLen ++ x.drop (child.offset + child.pendingLenLen) := by
    rw [List.append_assoc, ← List.drop_drop, List.take_append_drop, List.take_append_drop]
  have hl1 : (x.take child.offset).length = child.offset := by simp; omega
  have hl2 : ((x.drop child.offset).take child.pendingLenLen).length = child.pendingLenLen := by simp; omega
  have hlc : child.result.len - child.pendingLenLen - child.offset = (x.drop (child.offset + child.pendingLenLen)).length := by
    simp; omega
  generalize x.drop (child.offset + child.pendingLenLen) = c at *
  generalize x.take child.offset = pre at *
  generalize (x.drop child.offset).take child.pendingLenLen = mid at *
  unfold flush1
  rw [hce]
  simp only
  rw [if_neg (by omega), hlc]
  by_cases ha : child.pendingIsASN1 = true
  · rw [if_pos ha]
    have hk := hc.asn1 ha
    obtain ⟨z, hz⟩ : ∃ z, mid = [z] := List.length_eq_one_iff.1 (by rw [hl2, hk])
    subst hz
    obtain ⟨h', b', s', e, xx, v, l, gg, eb⟩ := flushASN1_ok g (b := b) hc.valid hc.grow hce hb.grow (hx.trans hsplit) hl1 hk
    refine ⟨h', b', e, xx, ?_, ?_, ?_⟩
    · by_cases hle : c.length ≤ 0xfffffffe
      · rw [if_pos hle] at eb; subst eb
        exact ⟨hb.grow, v, by show b.offset + b.pendingLenLen ≤ s'.len; omega, hb.asn1⟩
      · rw [if_neg hle] at eb; subst eb
        exact ⟨hb.grow, hb.valid.mono xx, hb.room, hb.asn1⟩
    · rw [eb]; split <;> rfl
    · unfold itemOf
      rw [if_pos ha]
      by_cases hle : c.length ≤ 0xfffffffe
      · rw [if_pos hle] at eb ⊢; subst eb
        exact ⟨rfl, by rw [gg hle, List.append_assoc]⟩
      · rw [if_neg hle] at eb ⊢; subst eb; simp [longError, ha]
  · rw [if_neg ha]
    obtain ⟨h', b', e, xx, gg, eb⟩ := flushLen_ok (b := b) (l := c.length) hc.valid hb.grow (hx.trans hsplit) hl1 hl2 rfl
    refine ⟨h', b', e, xx, ?_, ?_, ?_⟩
    · by_cases hle : c.length < 256 ^ child.pendingLenLen
      · rw [if_pos hle] at eb; subst eb
        exact ⟨hb.grow, hc.valid.mono xx, by show b.offset + b.pendingLenLen ≤ child.result.len; omega, hb.asn1⟩
      · rw [if_neg hle] at eb; subst eb
        exact ⟨hb.grow, hb.valid.mono xx, hb.room, hb.asn1⟩
    · rw [eb]; split <;> rfl
    · unfold itemOf lpItem
      rw [if_neg ha]
      by_cases hle : c.length < 256 ^ child.pendingLenLen
      · rw [if_pos hle] at eb ⊢; subst eb
        exact ⟨rfl, by simp only; rw [gg, List.append_assoc]⟩
      · rw [if_neg hle] at eb ⊢; subst eb; simp [longError, ha]

/-- Flushing never panics and never clears an error. -/
theorem flush1_any (g : Growth) {h : Heap} {child b : Bd} (hc : Good h child) (hb : Good h b)
    (hroom : b.offset + b.pendingLenLen ≤ child.offset) :
    ∃ h' b', flush1 g h child b = .ok (h', b') ∧ h.Ext h' ∧ Good h' b' ∧ b'.frame = b.frame ∧
      (b.err.isSome = true → b'.err.isSome = true) := by
  cases hce : child.err with
  | none =>
    obtain ⟨h', b', e, x, gd, f, m⟩ := flush1_ok g hc hb hroom hce
    refine ⟨h', b', e, x, gd, f, fun hs => ?_⟩
    revert m
    split
    · exact fun m => by rw [m]; rfl
    · rintro ⟨m, _⟩; rw [m]; exact hs
  | some m =>
    refine ⟨h, { b with err := some m }, by unfold flush1; rw [hce], Heap.Ext.refl h, ?_, rfl, fun _ => rfl⟩
    exact ⟨hb.grow, hb.valid, hb.room, hb.asn1⟩

/-- A chain of nested builders in good order. -/
def Chain (h : Heap) : Bd → List Bd → Prop
  | cur, [] => Good h cur
  | cur, b :: anc => Good h cur ∧ b.offset + b.pendingLenLen ≤ cur.offset ∧ Chain h b anc

theorem Chain.good {h : Heap} {cur : Bd} {anc : List Bd} (hc : Chain h cur anc) : Good h cur := by
  cases anc with
  | nil => exact hc
  | cons b anc => exact hc.1

theorem Good.setErr {h : Heap} {b : Bd} (hg : Good h b) (e : Option String) : Good h { b with err := e } :=
  ⟨hg.grow, hg.valid, hg.room, hg.asn1⟩

theorem Chain.mono {h h' : Heap} (he : h.Ext h') : ∀ {cur : Bd} {anc : List Bd}, Chain h cur anc → Chain h' cur anc := by
  intro cur anc
  induction anc generalizing cur with
  | nil => intro hc; exact Good.mono hc he
  | cons b anc ih => intro hc; exact ⟨hc.1.mono he, hc.2.1, ih hc.2.2⟩

/-- Replace the head of a chain by a builder with the same fixed fields. -/
theorem Chain.replace {h : Heap} {cur cur' : Bd} {anc : List Bd} (hc : Chain h cur anc) (hg : Good h cur')
    (hf : cur'.frame = cur.frame) : Chain h cur' anc := by
  cases anc with
  | nil => exact hg
  | cons b anc =>
    refine ⟨hg, ?_, hc.2.2⟩
    have : cur'.offset = cur.offset := congrArg (fun f => f.2.1) hf
    rw [this]; exact hc.2.1

theorem Chain.setAnc {h : Heap} : ∀ {anc : List Bd} {cur : Bd} {k : Nat} {b b' : Bd}, Chain h cur anc → anc[k]? = some b →
    b'.clr = b.clr → Chain h cur (anc.set k b') := by
  intro anc
  induction anc with
  | nil => intro cur k b b' hc hk; simp at hk
  | cons a anc ih =>
    intro cur k b b' hc hk hb
    have ho : b'.offset = b.offset := by simpa [Bd.clr] using congrArg Bd.offset hb
    have hp : b'.pendingLenLen = b.pendingLenLen := by simpa [Bd.clr] using congrArg Bd.pendingLenLen hb
    cases k with
    | zero =>
      simp at hk
      subst hk
      refine ⟨hc.1, by have := hc.2.1; omega, ?_⟩
      have hga := Chain.good hc.2.2
      have hg' : Good h b' := by
        have e1 : b' = { a with err := b'.err } := by
          cases b'; cases a; simp [Bd.clr] at hb; simp [hb]
        rw [e1]; exact hga.setErr _
      refine Chain.replace hc.2.2 hg' ?_
      cases b'; cases a; simp [Bd.clr] at hb; simp [Bd.frame, hb]
    | succ k =>
      simp at hk
      exact ⟨hc.1, hc.2.1, ih hc.2.2 hk hb⟩

theorem upAct_clr {b b' : Bd} {act : UpAct} (h : upAct b act = some b') : b'.clr = b.clr := by
  cases act <;> simp only [upAct] at h
  · split at h <;> simp at h; rw [← h]
  · split at h <;> simp at h; rw [← h]
  · split at h
    · simp at h; rw [← h]
    · split at h <;> simp at h; rw [← h]; rfl
  · simp at h; rw [← h]; rfl

theorem upAct_den (b : Bd) (act : UpAct) :
    upDen b.err.isSome act = (upAct b act).map (fun b => b.err.isSome) := by
  cases act with
  | add bs => simp only [upDen, upAct]; split <;> simp_all
  | lenPrefixed => simp only [upDen, upAct]; split <;> simp_all
  | asn1 t =>
    simp only [upDen, upAct]
    split
    · simp_all
    · by_cases ht : LowTag t
      · rw [if_pos ht, if_neg (by rw [and_1f]; exact ht)]; rfl
      · rw [if_neg ht, if_pos (by rw [and_1f]; simpa [LowTag] using ht)]; rfl
  | setErr keep m => rfl

/-- After a `BuildError` panic every pending builder is flushed and the outermost one keeps its error. -/
theorem flushN_all (g : Growth) : ∀ {anc : List Bd} {h : Heap} {cur : Bd}, Chain h cur anc → anc ≠ [] →
    (∃ b, anc.getLast? = some b ∧ b.err.isSome = true) →
    ∃ h' b' b, flushN g anc.length h cur anc = .ok (h', b', []) ∧ h.Ext h' ∧ Good h' b' ∧ anc.getLast? = some b ∧
      b'.frame = b.frame ∧ b'.err.isSome = true := by
  intro anc
  induction anc with
  | nil => intro h cur _ hne; exact absurd rfl hne
  | cons b anc ih =>
    intro h cur hc _ hlast
    obtain ⟨h1, b1, e1, x1, g1, f1, s1⟩ := flush1_any g hc.1 (Chain.good hc.2.2) hc.2.1
    cases anc with
    | nil =>
      obtain ⟨b', hb', hs⟩ := hlast
      simp at hb'
      subst hb'
      refine ⟨h1, b1, b, ?_, x1, g1, rfl, f1, s1 hs⟩
      simp only [List.length_cons, List.length_nil, flushN, e1]
    | cons b2 anc =>
      have hc' : Chain h1 b1 (b2 :: anc) := Chain.replace (Chain.mono x1 hc.2.2) g1 f1
      obtain ⟨h3, b3, b4, e3, x3, g3, l3, f3, s3⟩ := ih hc' (by simp) (by simpa using hlast)
      refine ⟨h3, b3, b4, ?_, x1.trans x3, g3, by simpa using l3, f3, s3⟩
      rw [List.length_cons, flushN, e1]
      exact e3

/-- The state `exec` ends in, related to the state it started in. -/
structure Ends (st st' : St) : Prop where
  ext : st.heap.Ext st'.heap
  chain : Chain st'.heap st'.cur st'.anc
  inC : st'.inContinuation = st.inContinuation
  frame : st'.cur.frame = st.cur.frame
  anc : st'.anc.map Bd.clr = st.anc.map Bd.clr

theorem Ends.trans {a b c : St} (h1 : Ends a b) (h2 : Ends b c) : Ends a c :=
  ⟨h1.ext.trans h2.ext, h2.chain, h2.inC.trans h1.inC, h2.frame.trans h1.frame, h2.anc.trans h1.anc⟩

/-- Outcome of `exec` predicted by a meaning. -/
def Agrees (st : St) (o : Out) : Den → Prop
  | .panicked => ∃ h, o = .panicked h
  | .thrown => ∃ m st', o = .thrown m st' ∧ Chain st'.heap st'.cur st'.anc ∧ st.heap.Ext st'.heap ∧
      (∃ q, st'.anc.map Bd.clr = q ++ st.anc.map Bd.clr ∧ (q = [] → st'.cur.frame = st.cur.frame) ∧
        (q ≠ [] → ∃ b, q.getLast? = some b ∧ b.frame = st.cur.frame))
  | .done r flags => ∃ st', o = .done st' ∧ Ends st st' ∧ st'.anc.map (fun b => b.err.isSome) = flags ∧
      (match r with
        | none => st'.cur.err.isSome = true
        | some bs => st'.cur.err = none ∧ st'.cur.result.get st'.heap = st.cur.result.get st.heap ++ bs)

/-- Good starting states. -/
def Start (st : St) : Prop := Chain st.heap st.cur st.anc ∧ st.inContinuation = !st.anc.isEmpty

theorem Agrees.after {st st1 : St} {o : Out} {d : Den} {bs : Bytes} (he : Ends st st1)
    (hv : st1.cur.result.get st1.heap = st.cur.result.get st.heap ++ bs) (h : Agrees st1 o d) : Agrees st o (d.prepend bs) := by
  cases d with
  | panicked => exact h
  | thrown =>
    obtain ⟨m, st', h1, h2, h3, q, h4, h5, h6⟩ := h
    refine ⟨m, st', h1, h2, he.ext.trans h3, q, by rw [h4, he.anc], fun hq => (h5 hq).trans he.frame, fun hq => ?_⟩
    obtain ⟨b, hb, hf⟩ := h6 hq
    exact ⟨b, hb, hf.trans he.frame⟩
  | done r flags =>
    obtain ⟨st', h1, h2, h3, h4⟩ := h
    refine ⟨st', h1, he.trans h2, h3, ?_⟩
    cases r with
    | none => exact h4
    | some bs' => exact ⟨h4.1, by rw [h4.2, hv, List.append_assoc]⟩

/-- Once an error is recorded the buffer no longer matters. -/
theorem Agrees.after_err {st st1 : St} {o : Out} {d : Den} (he : Ends st st1)
    (hd : ∀ bs flags, d ≠ .done (some bs) flags) (h : Agrees st1 o d) : Agrees st o d := by
  cases d with
  | panicked => exact h
  | thrown =>
    obtain ⟨m, st', h1, h2, h3, q, h4, h5, h6⟩ := h
    refine ⟨m, st', h1, h2, he.ext.trans h3, q, by rw [h4, he.anc], fun hq => (h5 hq).trans he.frame, fun hq => ?_⟩
    obtain ⟨b, hb, hf⟩ := h6 hq
    exact ⟨b, hb, hf.trans he.frame⟩
  | done r flags =>
    obtain ⟨st', h1, h2, h3, h4⟩ := h
    refine ⟨st', h1, he.trans h2, h3, ?_⟩
    cases r with
    | none => exact h4
    | some bs' => exact absurd rfl (hd bs' flags)

theorem prepend_not_some {d : Den} (bs0 : Bytes) (h : ∀ bs flags, d ≠ .done (some bs) flags) : ∀ bs flags, d.prepend bs0 ≠ .done (some bs) flags := by
  intro bs flags
  cases d with
  | done r a =>
    cases r with
    | none => simp [Den.prepend]
    | some x => exact absurd rfl (h x a)
  | thrown => simp [Den.prepend]
  | panicked => simp [Den.prepend]

/-- With an error already recorded no bytes result. -/
theorem eval_err (p : Prog) : ∀ (anc : List Bool) (bs : Bytes) (flags : List Bool), eval p true anc ≠ .done (some bs) flags := by
  induction p with
  | nil => intro anc bs flags; simp [eval]
  | add b rest ih => intro anc; simpa [eval] using ih anc
  | lenPrefixed k b rest _ ih => intro anc; simpa [eval] using ih anc
  | asn1 t b rest _ ih => intro anc; simpa [eval] using ih anc
  | setErr keep m rest ih => intro anc; simpa [eval] using ih anc
  | throw m => intro anc bs flags; simp [eval]
  | panic => intro anc bs flags; simp [eval]
  | up k act rest ih =>
    intro anc bs flags
    simp only [eval]
    split
    · simp
    · split
      · simp
      · exact ih _ bs flags

theorem enter_eq (g : Growth) {st : St} {n : Nat} {ia : Bool} (hs : Start st) (he : st.cur.err = none) (hn : ia = true → n = 1) :
    ∃ h s, enter g n ia st = ⟨h, ⟨none, s, false, st.cur.result.len, n, ia⟩, { st.cur with result := s } :: st.anc, true⟩ ∧
      st.heap.Ext h ∧ s.get h = st.cur.result.get st.heap ++ List.replicate n (0 : Byte) ∧ Start (enter g n ia st) := by
  have hg := hs.1.good
  have hv := hg.valid
  have hlen := Slice.length_get hv
  refine ⟨(goAppend (g st.heap st.cur.result n) st.heap st.cur.result (List.replicate n 0)).1,
    (goAppend (g st.heap st.cur.result n) st.heap st.cur.result (List.replicate n 0)).2, ?_, goAppend_ext hv, Padding.goAppend_get hv, ?_⟩
  · unfold enter
    rw [addBytes_grow g _ hg.grow he]
    simp [hg.grow]
  · unfold enter
    rw [addBytes_grow g _ hg.grow he]
    have xx := goAppend_ext (spare := g st.heap st.cur.result (List.replicate n (0 : Byte)).length) (ext := List.replicate n 0) hv
    have vv := goAppend_valid (spare := g st.heap st.cur.result (List.replicate n (0 : Byte)).length) (ext := List.replicate n 0) hv
    have ll := goAppend_len (spare := g st.heap st.cur.result (List.replicate n (0 : Byte)).length) (h := st.heap) (s := st.cur.result) (ext := List.replicate n 0)
    generalize goAppend (g st.heap st.cur.result (List.replicate n (0 : Byte)).length) st.heap st.cur.result (List.replicate n 0) = ap at *
    obtain ⟨h, s⟩ := ap
    simp only [List.length_replicate] at *
    have hroom := hg.room
    refine ⟨⟨⟨hg.grow, vv, by show st.cur.result.len + n ≤ s.len; omega, hn⟩, hroom, ?_⟩, rfl⟩
    exact Chain.replace (Chain.mono xx hs.1) ⟨hg.grow, vv, by show st.cur.offset + st.cur.pendingLenLen ≤ s.len; omega, hg.asn1⟩ rfl

theorem map_err_cons {st' : List Bd} {e : Bool} {flags : List Bool} (h : st'.map (fun b => b.err.isSome) = e :: flags) :
    ∃ b anc, st' = b :: anc ∧ b.err.isSome = e ∧ anc.map (fun b => b.err.isSome) = flags := by
  cases st' with
  | nil => simp at h
  | cons b anc => simp at h; exact ⟨b, anc, rfl, h.1, h.2⟩

theorem Good.of_clr {h : Heap} {b b' : Bd} (hg : Good h b) (hc : b'.clr = b.clr) : Good h b' := by
  have e1 : b' = { b with err := b'.err } := by
    cases b'; cases b; simp [Bd.clr] at hc; simp [hc]
  rw [e1]; exact hg.setErr _

theorem frame_of_clr {b b' : Bd} (hc : b'.clr = b.clr) : b'.frame = b.frame := by
  cases b'; cases b; simp [Bd.clr] at hc; simp [Bd.frame, hc]

/-- One length-prefixed or ASN.1 item: the continuation's meaning, the item, and what follows. -/
theorem leave_agrees (g : Growth) {st : St} {n : Nat} {ia : Bool} {o : Out} {d : Den} {rest : Bool → List Bool → Den} {cont : St → Out}
    {pre : Bytes} {item : Bytes → Option Bytes} {st0 : St}
    (hs : Start st) (he : st.cur.err = none) (hn : ia = true → n = 1)
    (h0 : Ends st0 st) (hv0 : st.cur.result.get st.heap = st0.cur.result.get st0.heap ++ pre) (hs0 : st0.anc = st.anc)
    (hitem : ∀ c, item c = (itemOf ⟨none, st.cur.result, false, 0, n, ia⟩ c).map (pre ++ ·))
    (hbody : Agrees (enter g n ia st) o d)
    (hrest : ∀ st1, Start st1 → Agrees st1 (cont st1) (rest st1.cur.err.isSome (st1.anc.map fun b => b.err.isSome)))
    (hrestErr : ∀ anc bs flags, rest true anc ≠ .done (some bs) flags) :
    Agrees st0 ((leave g (!st.inContinuation) st.anc.length o).andThen cont) (Den.item item d st.anc.isEmpty rest) := by
  obtain ⟨h1, s1, hent, x1, g1, hs1⟩ := enter_eq g hs he hn
  have hlen := Slice.length_get hs.1.good.valid
  -- a step to an errored builder at the level of `st`
  have stepErr : ∀ st2 : St, Ends st st2 → st2.cur.err.isSome = true → Start st2 → ∀ flags,
      st2.anc.map (fun b => b.err.isSome) = flags → Agrees st0 (cont st2) (rest true flags) := by
    intro st2 e2 er2 s2 flags hf
    have := hrest st2 s2
    rw [er2, hf] at this
    exact this.after_err (h0.trans e2) (hrestErr flags)
  cases d with
  | panicked =>
    obtain ⟨h, rfl⟩ := hbody
    exact ⟨h, rfl⟩
  | thrown =>
    obtain ⟨m, st', rfl, hch, hx, q, hq1, hq2, hq3⟩ := hbody
    rw [hent] at hx hq1 hq2 hq3
    simp only at hx hq1 hq2 hq3
    by_cases hanc : st.anc = []
    · -- outermost: recover
      have hic : st.inContinuation = false := by rw [hs.2, hanc]; rfl
      rw [hic, hanc]
      simp only [Den.item, List.isEmpty_nil, if_true]
      rw [hanc] at hq1
      simp only [List.map_cons, List.map_nil] at hq1
      have hne : st'.anc ≠ [] := by
        intro hn; rw [hn] at hq1; simp at hq1
      have hlast : ∃ b, st'.anc.getLast? = some b ∧ b.clr = ({ st.cur with result := s1 } : Bd).clr := by
        have : (st'.anc.map Bd.clr).getLast? = some ({ st.cur with result := s1 } : Bd).clr := by rw [hq1]; simp
        rw [List.getLast?_map] at this
        cases hl : st'.anc.getLast? with
        | none => rw [hl] at this; simp at this
        | some b => rw [hl] at this; simp at this; exact ⟨b, rfl, this⟩
      obtain ⟨b, hb, hbc⟩ := hlast
      have hbi : st'.anc[st'.anc.length - 1]? = some b := by rw [← List.getLast?_eq_getElem?]; exact hb
      have hch2 : Chain st'.heap st'.cur (st'.anc.set (st'.anc.length - 1) { b with err := some m }) :=
        Chain.setAnc hch hbi rfl
      have hlen1 : 0 < st'.anc.length := List.length_pos_iff.2 hne
      have hlast2 : (st'.anc.set (st'.anc.length - 1) { b with err := some m }).getLast? = some { b with err := some m } := by
        rw [List.getLast?_eq_getElem?, List.length_set, List.getElem?_set_self (by omega)]
      obtain ⟨h3, b3, b4, e3, x3, g3, l3, f3, er3⟩ := flushN_all g hch2 (by
        intro hh; have := congrArg List.length hh; rw [List.length_set] at this; simp at this; exact hne this) ⟨_, hlast2, rfl⟩
      rw [hlast2] at l3
      cases l3
      have hrec : recovered g m (st'.anc.length - 0) st' = .ok ⟨h3, b3, [], false⟩ := by
        unfold recovered
        rw [Nat.sub_zero, hbi]
        simp only
        rw [List.length_set] at e3
        rw [e3]
      have hleave : leave g (!false) ([] : List Bd).length (Out.thrown m st') = .done ⟨h3, b3, [], false⟩ := by
        unfold leave
        simp only [Bool.not_false, if_true, List.length_nil]
        rw [hrec]
      rw [hleave]
      refine stepErr ⟨h3, b3, [], false⟩ ⟨x1.trans (hx.trans x3), g3, hic.symm, ?_, by rw [hanc]⟩ er3 ⟨g3, rfl⟩ [] rfl
      rw [f3]
      have := frame_of_clr hbc
      simpa [Bd.frame] using this
    · -- nested: the panic travels on
      have hic : st.inContinuation = true := by rw [hs.2]; cases h : st.anc with | nil => exact absurd h hanc | cons _ _ => rfl
      have hem : st.anc.isEmpty = false := by cases h : st.anc with | nil => exact absurd h hanc | cons _ _ => rfl
      rw [hic, hem]
      simp only [Den.item]
      refine ⟨m, st', rfl, hch, h0.ext.trans (x1.trans hx), q ++ [({ st.cur with result := s1 } : Bd).clr], ?_, fun hq => absurd hq (by simp), fun _ => ⟨({ st.cur with result := s1 } : Bd).clr, by rw [List.getLast?_append]; rfl, ?_⟩⟩
      · rw [hq1, hs0]; simp
      · have := h0.frame; simpa [Bd.frame, Bd.clr] using this
  | done r flags =>
    obtain ⟨st2, rfl, e2, hfl, hr⟩ := hbody
    have hanc2 := e2.anc
    rw [hent] at hanc2
    simp only [List.map_cons] at hanc2
    obtain ⟨b2, anc2, hst2anc⟩ : ∃ b2 anc2, st2.anc = b2 :: anc2 := by
      cases h : st2.anc with
      | nil => rw [h] at hanc2; simp at hanc2
      | cons b a => exact ⟨b, a, rfl⟩
    rw [hst2anc] at hanc2 hfl
    simp only [List.map_cons, List.cons.injEq] at hanc2 hfl
    obtain ⟨hb2, hanc2⟩ := hanc2
    cases flags with
    | nil => simp at hfl
    | cons e flags =>
    simp only [List.cons.injEq] at hfl
    obtain ⟨hfe, hfl⟩ := hfl
    have hch2 := e2.chain
    rw [hst2anc] at hch2
    obtain ⟨gc, hroom, hch3⟩ := hch2
    have gb := hch3.good
    have hframe2 := e2.frame
    have hinC2 := e2.inC
    rw [hent] at hframe2 hinC2
    simp only [Bd.frame, Prod.mk.injEq] at hframe2
    obtain ⟨ff, fo, fp, fa⟩ := hframe2
    have hext2 : st.heap.Ext st2.heap := by
      have := e2.ext; rw [hent] at this; exact x1.trans this
    have hfb2 : b2.frame = st.cur.frame := by
      have := frame_of_clr hb2; simpa [Bd.frame] using this
    -- state after a successful flush
    have hinC : (if (!st.inContinuation) = true then false else st2.inContinuation) = st.inContinuation := by
      rw [hinC2]; cases st.inContinuation <;> rfl
    have mk : ∀ h' b', flush1 g st2.heap st2.cur b2 = .ok (h', b') →
        leave g (!st.inContinuation) st.anc.length (.done st2) = .done ⟨h', b', anc2, st.inContinuation⟩ := by
      intro h' b' hf
      unfold leave
      simp only [hst2anc, flushN, hf]
      rw [hinC]
    have hanclen : anc2.isEmpty = st.anc.isEmpty := by
      have := congrArg List.length hanc2
      simp at this
      cases anc2 <;> cases h : st.anc <;> simp_all
    have ends : ∀ h' b', st2.heap.Ext h' → Good h' b' → b'.frame = b2.frame →
        Ends st ⟨h', b', anc2, st.inContinuation⟩ ∧ Start ⟨h', b', anc2, st.inContinuation⟩ := by
      intro h' b' hx hg hf
      have hc : Chain h' b' anc2 := Chain.replace (Chain.mono hx hch3) hg hf
      exact ⟨⟨hext2.trans hx, hc, rfl, hf.trans hfb2, hanc2⟩, hc, by rw [hanclen]; exact hs.2⟩
    cases hce : st2.cur.err with
    | some m =>
      have hrn : r = none := by
        cases r with
        | none => rfl
        | some bs => rw [hce] at hr; exact absurd hr.1 (by simp)
      subst hrn
      simp only [Den.item]
      have hf : flush1 g st2.heap st2.cur b2 = .ok (st2.heap, { b2 with err := some m }) := by unfold flush1; rw [hce]
      obtain ⟨en, sn⟩ := ends st2.heap { b2 with err := some m } (Heap.Ext.refl _) (gb.setErr _) rfl
      rw [mk _ _ hf]
      exact stepErr _ en rfl sn flags hfl
    | none =>
      obtain ⟨c, hrc⟩ : ∃ c, r = some c := by
        cases r with
        | none => rw [hce] at hr; simp at hr
        | some c => exact ⟨c, rfl⟩
      subst hrc
      have hget := hr.2
      rw [hent] at hget
      simp only at hget
      rw [g1] at hget
      obtain ⟨h', b', hf, hx, gb', hfr, hm⟩ := flush1_ok g gc gb hroom hce
      have hd : (st2.cur.result.get st2.heap).drop (st2.cur.offset + st2.cur.pendingLenLen) = c := by
        rw [hget, fo, fp]
        rw [show st.cur.result.len + n = (st.cur.result.get st.heap ++ List.replicate n (0 : Byte)).length by simp [hlen]]
        exact List.drop_left
      have ht : (st2.cur.result.get st2.heap).take st2.cur.offset = st.cur.result.get st.heap := by
        rw [hget, fo, List.append_assoc, ← hlen]
        exact List.take_left
      rw [hd, ht] at hm
      have hit : itemOf st2.cur c = itemOf ⟨none, st.cur.result, false, 0, n, ia⟩ c := by
        unfold itemOf; rw [fp, fa]
      rw [hit] at hm
      obtain ⟨en, sn⟩ := ends h' b' hx gb' hfr
      rw [mk _ _ hf]
      simp only [Den.item, hitem]
      cases hio : itemOf ⟨none, st.cur.result, false, 0, n, ia⟩ c with
      | none =>
        rw [hio] at hm
        exact stepErr _ en (by rw [hm]; rfl) sn flags hfl
      | some y =>
        rw [hio] at hm
        simp only [Option.map_some]
        cases e with
        | true =>
          simp only [if_true]
          have : b'.err.isSome = true := by rw [hm.1]; exact hfe
          exact stepErr _ en this sn flags hfl
        | false =>
          simp only [Bool.false_eq_true, if_false]
          have hbe : b'.err = none := by
            rw [hm.1]; cases hbe : b2.err with | none => rfl | some _ => rw [hbe] at hfe; simp at hfe
          have := hrest ⟨h', b', anc2, st.inContinuation⟩ sn
          simp only [hbe, hfl] at this
          refine Agrees.after (h0.trans en) ?_ this
          show b'.result.get h' = _
          rw [hm.2, hv0, List.append_assoc]

/-- The machine computes the meaning. -/
theorem exec_eval (g : Growth) (p : Prog) : ∀ st, Start st →
    Agrees st (exec g p st) (eval p st.cur.err.isSome (st.anc.map fun b => b.err.isSome)) := by
  have ends_refl : ∀ st, Start st → Ends st st := fun st hs => ⟨Heap.Ext.refl _, hs.1, rfl, rfl, rfl⟩
  have empty_map : ∀ l : List Bd, (l.map fun b => b.err.isSome).isEmpty = l.isEmpty := by intro l; cases l <;> rfl
  -- recording an error on the current builder
  have setErr_step : ∀ (rest : Prog) (st : St) (m : String), Start st →
      (∀ st, Start st → Agrees st (exec g rest st) (eval rest st.cur.err.isSome (st.anc.map fun b => b.err.isSome))) →
      Agrees st (exec g rest { st with cur := { st.cur with err := some m } }) (eval rest true (st.anc.map fun b => b.err.isSome)) := by
    intro rest st m hs ih
    have hc : Chain st.heap { st.cur with err := some m } st.anc := Chain.replace hs.1 (hs.1.good.setErr _) rfl
    have := ih { st with cur := { st.cur with err := some m } } ⟨hc, hs.2⟩
    simp only [Option.isSome_some] at this
    have en : Ends st { st with cur := { st.cur with err := some m } } := ⟨Heap.Ext.refl _, hc, rfl, rfl, rfl⟩
    exact this.after_err en (eval_err rest _)
  have add_step : ∀ (st : St) (bs : Bytes), Start st → st.cur.err = none →
      ∃ st1 : St, { st with heap := (addBytes g st.heap st.cur bs).1, cur := (addBytes g st.heap st.cur bs).2 } = st1 ∧
        st1.cur.err = none ∧ st1.anc = st.anc ∧ Ends st st1 ∧ Start st1 ∧ st1.cur.result.get st1.heap = st.cur.result.get st.heap ++ bs := by
    intro st bs hs he
    have hg := hs.1.good
    rw [addBytes_grow g bs hg.grow he]
    have xx := goAppend_ext (spare := g st.heap st.cur.result bs.length) (ext := bs) hg.valid
    have vv := goAppend_valid (spare := g st.heap st.cur.result bs.length) (ext := bs) hg.valid
    have ll := goAppend_len (spare := g st.heap st.cur.result bs.length) (h := st.heap) (s := st.cur.result) (ext := bs)
    have gg := Padding.goAppend_get (spare := g st.heap st.cur.result bs.length) (ext := bs) hg.valid
    generalize goAppend (g st.heap st.cur.result bs.length) st.heap st.cur.result bs = ap at *
    obtain ⟨h, s⟩ := ap
    simp only at *
    have hroom := hg.room
    have hc : Chain h { st.cur with result := s } st.anc :=
      Chain.replace (Chain.mono xx hs.1) ⟨hg.grow, vv, by show st.cur.offset + st.cur.pendingLenLen ≤ s.len; omega, hg.asn1⟩ rfl
    exact ⟨_, rfl, he, rfl, ⟨xx, hc, rfl, rfl, rfl⟩, ⟨hc, hs.2⟩, gg⟩
  induction p with
  | nil =>
    intro st hs
    refine ⟨st, rfl, ends_refl st hs, rfl, ?_⟩
    cases he : st.cur.err with
    | none => exact ⟨rfl, by simp⟩
    | some m => rfl
  | add bs rest ih =>
    intro st hs
    simp only [exec, eval]
    cases he : st.cur.err with
    | some m =>
      rw [addBytes_err g bs (by rw [he]; rfl)]
      have := ih st hs
      rw [he] at this
      simpa using this
    | none =>
      obtain ⟨st1, e1, er1, an1, en1, s1, g1⟩ := add_step st bs hs he
      rw [e1]
      have := ih st1 s1
      rw [er1, an1] at this
      exact this.after en1 g1
  | lenPrefixed k body rest ihb ihr =>
    intro st hs
    simp only [exec, eval]
    cases he : st.cur.err with
    | some m =>
      have := ihr st hs
      rw [he] at this
      simpa using this
    | none =>
      simp only [Option.isSome_none, Bool.false_eq_true, if_false]
      obtain ⟨h1, s1, hent, x1, g1, hs1⟩ := enter_eq g (n := k.val + 1) (ia := false) hs he (by simp)
      have hb := ihb _ hs1
      have hfl : (enter g (k.val + 1) false st).cur.err.isSome = false ∧
          (enter g (k.val + 1) false st).anc.map (fun b => b.err.isSome) = false :: st.anc.map (fun b => b.err.isSome) := by
        rw [hent]; simp [he]
      rw [hfl.1, hfl.2] at hb
      rw [empty_map]
      exact leave_agrees g (pre := []) hs he (by simp) (ends_refl st hs) (by simp) rfl
        (by intro c; simp [itemOf]) hb ihr (eval_err rest)
  | asn1 t body rest ihb ihr =>
    intro st hs
    simp only [exec, eval]
    cases he : st.cur.err with
    | some m =>
      have := ihr st hs
      rw [he] at this
      simpa using this
    | none =>
      simp only [Option.isSome_none, Bool.false_eq_true, if_false]
      by_cases ht : LowTag t
      · rw [if_pos ht, if_neg (by rw [and_1f]; exact ht)]
        obtain ⟨st1, e1, er1, an1, en1, s1, g1⟩ := add_step st [t] hs he
        have e1' : st1.cur = (addBytes g st.heap st.cur [t]).2 := by rw [← e1]
        rw [← e1', er1]
        simp only [Option.isSome_none, Bool.false_eq_true, if_false]
        have e1'' : ({ heap := (addBytes g st.heap st.cur [t]).1, cur := st1.cur, anc := st.anc, inContinuation := st.inContinuation } : St) = st1 := by
          rw [e1']; exact e1
        rw [e1'']
        have hin : st.inContinuation = st1.inContinuation := by rw [← e1]
        rw [hin]
        obtain ⟨h2, s2, hent, x2, g2, hs2⟩ := enter_eq g (n := 1) (ia := true) s1 er1 (by simp)
        have hb := ihb _ hs2
        have hfl : (enter g 1 true st1).cur.err.isSome = false ∧
            (enter g 1 true st1).anc.map (fun b => b.err.isSome) = false :: st.anc.map (fun b => b.err.isSome) := by
          rw [hent]; simp [er1, an1]
        rw [hfl.1, hfl.2] at hb
        rw [← an1] at hb
        rw [empty_map, ← an1]
        refine leave_agrees g (pre := [t]) (n := 1) (ia := true) s1 er1 (fun _ => rfl) en1 g1 an1.symm ?_ hb ihr (eval_err rest)
        intro c
        simp only [derItem, itemOf, if_true, elem]
        split <;> simp
      · rw [if_neg ht, if_pos (by rw [and_1f]; simpa [LowTag] using ht)]
        have := setErr_step rest st (highTagError t) hs ihr
        simpa [he] using this
  | setErr keep m rest ih =>
    intro st hs
    exact setErr_step rest st (errAfter st.cur.err keep m) hs ih
  | throw m =>
    intro st hs
    exact ⟨m, st, rfl, hs.1, Heap.Ext.refl _, [], rfl, fun _ => rfl, fun h => absurd rfl h⟩
  | panic =>
    intro st hs
    exact ⟨st.heap, rfl⟩
  | up k act rest ih =>
    intro st hs
    simp only [exec, eval, List.getElem?_map]
    cases hk : st.anc[k]? with
    | none => exact ⟨st.heap, rfl⟩
    | some b =>
      simp only [Option.map_some, upAct_den]
      cases hu : upAct b act with
      | none => exact ⟨st.heap, rfl⟩
      | some b' =>
        simp only [Option.map_some]
        have hclr := upAct_clr hu
        have hc := Chain.setAnc hs.1 hk hclr
        have hst : Start { st with anc := st.anc.set k b' } := by
          refine ⟨hc, ?_⟩
          rw [hs.2]
          cases h : st.anc with
          | nil => rw [h] at hk; simp at hk
          | cons a l => cases k <;> rfl
        have := ih _ hst
        simp only [List.map_set] at this
        have hmap : (st.anc.set k b').map Bd.clr = st.anc.map Bd.clr := by
          rw [List.map_set, hclr]
          apply List.ext_getElem?
          intro i
          rw [List.getElem?_set]
          by_cases hi : k = i
          · subst hi
            simp [hk]
            exact (List.getElem?_eq_some_iff.1 hk).1
          · rw [if_neg hi]
        have e : Ends st { st with anc := st.anc.set k b' } := ⟨Heap.Ext.refl _, hc, rfl, rfl, hmap⟩
        have := Agrees.after (bs := []) e (by simp) this
        have hp : ∀ d : Den, d.prepend [] = d := by intro d; cases d <;> simp [Den.prepend]
        rwa [hp] at this

end Verif.CB
