import Verif.Cert.Memory
import Verif.Cert.Accept
import Verif.Util.HeapLemmas
/-! Lemmas on parsed requests and certificates in memory. -/
namespace Verif
open Verif.Der

/-- Two outcomes are the same, up to a relation of the values. -/
def Sim {α β : Type} (R : α → β → Prop) : Res α → Res β → Prop
  | .ok a, .ok b => R a b
  | .err m, .err m' => m = m'
  | .panic, .panic => True
  | .loop, .loop => True
  | _, _ => False

theorem Sim.bind {α β γ δ : Type} {R : α → β → Prop} {S : γ → δ → Prop} {x : Res α} {y : Res β} {f : α → Res γ} {g : β → Res δ}
    (h : Sim R x y) (hf : ∀ a b, x = .ok a → R a b → Sim S (f a) (g b)) : Sim S (x >>= f) (y >>= g) := by
  cases x <;> cases y <;> first | exact h.elim | exact h | exact hf _ _ rfl h

theorem Sim.mono {α β : Type} {R S : α → β → Prop} {x : Res α} {y : Res β} (h : Sim R x y) (hf : ∀ a b, R a b → S a b) : Sim S x y := by
  cases x <;> cases y <;> first | exact h.elim | exact h | exact hf _ _ h

theorem Sim.refl {α : Type} (x : Res α) : Sim Eq x x := by
  cases x <;> simp [Sim]

/-- Slice `t` is the part of `s` from `k` on. -/
structure Slice.In (t s : Slice) (k : Nat) : Prop where
  arr : t.arr = s.arr
  off : t.off = s.off + k
  fits : k + t.len ≤ s.len

theorem Slice.In.get {t s : Slice} {k : Nat} (i : t.In s k) (h : Heap) : t.get h = ((s.get h).drop k).take t.len := by
  unfold Slice.get
  rw [i.arr, i.off, List.drop_take, List.take_take, List.drop_drop, Nat.min_eq_left (by have := i.fits; omega)]

theorem Slice.In.trans {t s u : Slice} {k l : Nat} (i : t.In s k) (j : s.In u l) : t.In u (l + k) :=
  ⟨i.arr.trans j.arr, by rw [i.off, j.off]; omega, by have := i.fits; have := j.fits; omega⟩

theorem Slice.in_sub (s : Slice) {i j : Nat} (h1 : i ≤ j) (h2 : j ≤ s.len) : (s.sub i j).In s i :=
  ⟨rfl, rfl, by simp only [Slice.sub]; omega⟩

theorem Slice.In.refl (s : Slice) : s.In s 0 := ⟨rfl, rfl, by omega⟩

end Verif

namespace Verif.Cert
open Verif Verif.Der

variable {U : Type} {α : Type}

/-- A slice whose bytes are all there. -/
def Full (h : Heap) (s : Slice) : Prop := (s.get h).length = s.len

theorem Full.sub {h : Heap} {s : Slice} (hs : Full h s) {i j : Nat} (h1 : i ≤ j) (h2 : j ≤ s.len) : Full h (s.sub i j) := by
  unfold Full
  rw [(s.in_sub h1 h2).get, List.length_take, List.length_drop, hs]
  simp only [Slice.sub]; omega

theorem get_sub {h : Heap} {s : Slice} {i j : Nat} (h1 : i ≤ j) (h2 : j ≤ s.len) :
    (s.sub i j).get h = ((s.get h).drop i).take (j - i) := by
  rw [(s.in_sub h1 h2).get]; rfl

/-- The element and the rest are the two parts of the slice. -/
structure Placed (h : Heap) (s e r : Slice) : Prop where
  elem : e.In s 0
  rest : r.In s e.len
  all : e.len + r.len = s.len
  fullElem : Full h e
  fullRest : Full h r

theorem placed_sub {h : Heap} {s : Slice} (hs : Full h s) {k : Nat} (hk : k ≤ s.len) : Placed h s (s.sub 0 k) (s.sub k s.len) where
  elem := s.in_sub (Nat.zero_le _) hk
  rest := by
    have := s.in_sub hk (Nat.le_refl _)
    simpa [Slice.sub] using this
  all := by simp only [Slice.sub]; omega
  fullElem := hs.sub (Nat.zero_le _) hk
  fullRest := hs.sub hk (Nat.le_refl _)

/-- What parsing a field on slices has in common with parsing it on bytes. -/
structure Same {β : Type} (h : Heap) (s : Slice) (val : β → α) (r : α × Bytes) (l : Loc β) : Prop where
  val : val l.val = r.1
  rest : l.rest.get h = r.2
  placed : Placed h s l.elem l.rest

theorem suffix_drop {a b : Bytes} (h : a <:+ b) : b.drop (b.length - a.length) = a := by
  obtain ⟨c, rfl⟩ := h
  simp

theorem ok_sim {α β : Type} {R : α → β → Prop} {x : Res α} {f : α → β} (h : ∀ a, x = .ok a → R a (f a)) :
    Sim R x (x >>= fun a => .ok (f a)) := by
  cases x <;> first | exact h _ rfl | rfl | trivial

theorem get_end {h : Heap} {s : Slice} (hs : Full h s) {k : Nat} (hk : k ≤ s.len) : (s.sub k s.len).get h = (s.get h).drop k := by
  rw [get_sub hk (Nat.le_refl _)]
  exact List.take_of_length_le (by rw [List.length_drop, hs])

theorem fieldAt_sim (ty : Ty α) (p : Params) {h : Heap} {s : Slice} (hs : Full h s) :
    Sim (Same h s id) (parseField ty p (s.get h)) (fieldAt ty p h s) := by
  refine ok_sim fun r hr => ?_
  have hsuf := parseField_suffix (v := r.1) (rest := r.2) hr
  refine ⟨rfl, ?_, placed_sub hs (by omega)⟩
  rw [get_end hs (by omega), ← hs]
  obtain ⟨pre, e⟩ := hsuf
  exact suffix_drop ⟨pre, e.symm⟩

/-- A struct: a SEQUENCE, then the fields. -/
theorem parseField_tyStruct {zero : α} {isZero : α → Bool} {body : Bytes → Bytes → Res α} {make : α → Res Bytes} (bs : Bytes) :
    parseField (tyStruct zero isZero body make) {} bs = (do
      let r ← parseElem 0 16 true bs
      let v ← body r.1 (bs.take (bs.length - r.2.length))
      .ok (v, r.2)) := by
  unfold parseField parseElem
  split
  · rfl
  · simp only [bind_assoc]
    congr 1
    funext r
    simp only [Bool.false_eq_true, if_false]
    unfold parseInner tyStruct
    simp only [Bool.false_eq_true, false_and, if_false, true_and]
    by_cases hc : r.1.cls ≠ 0 ∨ r.1.tag ≠ 16 ∨ r.1.isCompound ≠ true
    · rw [if_pos (by simpa [or_assoc] using hc), if_pos hc]; rfl
    · rw [if_neg (by simpa [or_assoc] using hc), if_neg hc]
      split
      · rfl
      · simp

theorem sequenceAt_sim {h : Heap} {s : Slice} (hs : Full h s) :
    Sim (fun r l => l.val.get h = r.1 ∧ l.rest.get h = r.2 ∧ l.elem.get h = (s.get h).take ((s.get h).length - r.2.length) ∧
      Placed h s l.elem l.rest ∧ (∃ k, l.val.In s k) ∧ Full h l.val) (parseElem 0 16 true (s.get h)) (sequenceAt h s) := by
  refine ok_sim fun r hr => ?_
  obtain ⟨_, e⟩ := (parseElem_iff (by decide) (by decide) (s.get h) r.1 r.2).1 hr
  have hl : (s.get h).length = s.len := hs
  have hlen := congrArg List.length e
  simp only [Spec.DER.elem, List.length_append, List.length_cons] at hlen
  have e2 : s.get h = ((idOctet 0 16 true :: Spec.DER.lenOctets r.1.length) ++ r.1) ++ r.2 := by rw [e]; simp [Spec.DER.elem]
  refine ⟨?_, ?_, ?_, placed_sub hs (by omega), ⟨_, s.in_sub (by omega) (by omega)⟩, hs.sub (by omega) (by omega)⟩
  · dsimp only
    rw [get_sub (by omega) (by omega), show s.len - r.2.length - (s.len - r.2.length - r.1.length) = r.1.length by omega,
      show s.len - r.2.length - r.1.length = (idOctet 0 16 true :: Spec.DER.lenOctets r.1.length).length by simp; omega, e2,
      List.append_assoc, List.drop_left, List.take_left]
  · dsimp only
    rw [get_end hs (by omega), ← hs]
    exact suffix_drop ⟨_, e.symm⟩
  · dsimp only
    rw [get_sub (by omega) (by omega), hl]; simp

theorem bitsAt_sim {h : Heap} {s : Slice} (hs : Full h s) :
    Sim (fun r l => Same h s Prod.fst r l ∧ l.val.2.get h = r.1.bytes ∧ (∃ k, l.val.2.In s k) ∧ Full h l.val.2)
      (parseField tyBits {} (s.get h)) (bitsAt h s) := by
  unfold bitsAt
  rw [show parseField tyBits {} (s.get h) = parseField tyBits {} (s.get h) >>= Res.ok by cases parseField tyBits {} (s.get h) <;> rfl]
  refine (fieldAt_sim tyBits {} hs).bind fun r l hr hl => ?_
  obtain ⟨hv, hrest, hp⟩ := hl
  obtain ⟨c, _, e, hc⟩ := (parseField_iff (p := {}) (v := r.1) (rest := r.2) rfl rfl rfl rfl (by decide)).1 hr
  simp only [id_eq] at hv
  have hl : (s.get h).length = s.len := hs
  have hr2 : l.rest.len = r.2.length := by rw [← hrest]; exact hp.fullRest.symm
  have hall := hp.all
  have hlen := congrArg List.length e
  rw [List.length_append, hl] at hlen
  obtain ⟨pre, hpre⟩ : ∃ pre, Spec.DER.elem (idOctet (wireCls {}) (wireTag tyBits {}) tyBits.compound) c = pre ++ r.1.bytes := by
    replace hc : parseBitString c = .ok r.1 := hc
    cases c with
    | nil => cases hc
    | cons b bs =>
      simp only [parseBitString] at hc
      split at hc
      · cases hc
      · simp only [Res.ok.injEq] at hc
        rw [← hc]
        exact ⟨idOctet (wireCls {}) (wireTag tyBits {}) tyBits.compound :: (Spec.DER.lenOctets (b :: bs).length ++ [b]), by simp [Spec.DER.elem]⟩
  have he : l.elem.get h = pre ++ r.1.bytes := by
    have h1 := hp.elem.get h
    rw [h1, ← hpre, e, List.drop_zero, show l.elem.len = (Spec.DER.elem (idOctet (wireCls {}) (wireTag tyBits {}) tyBits.compound) c).length by omega,
      List.take_left]
  have hel : l.elem.len = pre.length + r.1.bytes.length := by
    rw [← List.length_append, ← he]; exact hp.fullElem.symm
  rw [hv]
  refine ⟨⟨rfl, hrest, hp⟩, ?_, ⟨_, (l.elem.in_sub (by omega) (Nat.le_refl _)).trans hp.elem⟩, hp.fullElem.sub (by omega) (Nat.le_refl _)⟩
  dsimp only
  rw [get_end hp.fullElem (by omega), he, hel, Nat.add_sub_cancel, List.drop_left]

theorem Placed.first {h : Heap} {s e r : Slice} (p : Placed h s e r) : e.get h = (s.get h).take e.len := by
  rw [p.elem.get]; rfl

/-- The bytes of the element. -/
theorem Same.elem {β : Type} {h : Heap} {s : Slice} {val : β → α} {r : α × Bytes} {l : Loc β} (hs : Full h s) (p : Same h s val r l) :
    l.elem.get h = (s.get h).take ((s.get h).length - r.2.length) := by
  rw [p.placed.first, hs, ← p.rest, p.placed.fullRest, ← p.placed.all, Nat.add_sub_cancel]

/-- The slice lies in `s` and its bytes are there. -/
def Within (h : Heap) (t s : Slice) : Prop := (∃ k, t.In s k) ∧ Full h t

theorem Within.trans {h : Heap} {t s u : Slice} (i : Within h t s) (j : Within h s u) : Within h t u := by
  obtain ⟨⟨k, i1⟩, i2⟩ := i
  obtain ⟨⟨l, j1⟩, _⟩ := j
  exact ⟨⟨_, i1.trans j1⟩, i2⟩

theorem Placed.withinElem {h : Heap} {s e r : Slice} (p : Placed h s e r) : Within h e s := ⟨⟨_, p.elem⟩, p.fullElem⟩
theorem Placed.withinRest {h : Heap} {s e r : Slice} (p : Placed h s e r) : Within h r s := ⟨⟨_, p.rest⟩, p.fullRest⟩

theorem spkiAt_sim {h : Heap} {s : Slice} (hs : Full h s) :
    Sim (fun r l => Same h s id r l ∧ r.1.raw = l.elem.get h) (parseField tyPublicKeyInfo {} (s.get h)) (spkiAt h s) := by
  unfold spkiAt tyPublicKeyInfo
  rw [parseField_tyStruct]
  refine (sequenceAt_sim hs).bind fun r f hr hf => ?_
  obtain ⟨f1, f2, f3, f4, f5, f6⟩ := hf
  simp only [bind_assoc]
  rw [← f1]
  refine (fieldAt_sim tyAlgId {} f6).bind fun a a' _ ha => ?_
  rw [← ha.rest]
  refine (bitsAt_sim ha.placed.fullRest).bind fun b b' _ hb => ?_
  rw [Res.ok_bind]
  exact ⟨⟨by simp only [id_eq]; rw [f3, hb.1.val]; exact congrArg (fun x => PublicKeyInfo.mk _ x _) ha.val, f2, f4⟩, f3.symm⟩

/-- The whole element of a `RawValue` field. -/
theorem raw_full {h : Heap} {s : Slice} (hs : Full h s) {r : RawValue × Bytes} {l : Loc RawValue} (hr : parseField tyRaw {} (s.get h) = .ok r)
    (p : Same h s id r l) : r.1.fullBytes = l.elem.get h := by
  have hne : s.get h ≠ [] := by
    intro e
    rw [e] at hr
    simp [parseField] at hr
  obtain ⟨e, _⟩ := parseField_raw_split (v := r.1) (rest := r.2) rfl rfl hne hr
  rw [p.elem hs, e]
  simp

theorem tbsCSRAt_sim {h : Heap} {s : Slice} (hs : Full h s) :
    Sim (fun r l => Same h s Prod.fst r l ∧ r.1.raw = l.val.2.raw.get h ∧ r.1.publicKey.raw = l.val.2.spki.get h ∧
        r.1.subject.fullBytes = l.val.2.subject.get h ∧ Within h l.val.2.raw s ∧ Within h l.val.2.spki s ∧ Within h l.val.2.subject s)
      (parseField tyTbsCSR {} (s.get h)) (tbsCSRAt h s) := by
  unfold tbsCSRAt tyTbsCSR
  rw [parseField_tyStruct]
  refine (sequenceAt_sim hs).bind fun r f hr hf => ?_
  obtain ⟨f1, f2, f3, f4, f5, f6⟩ := hf
  have w : Within h f.val s := ⟨f5, f6⟩
  simp only [bind_assoc]
  rw [← f1]
  refine (fieldAt_sim tyInt {} f6).bind fun a a' _ ha => ?_
  have wa := ha.placed.withinRest.trans w
  rw [← ha.rest]
  refine (fieldAt_sim tyRaw {} wa.2).bind fun b b' hb0 hb => ?_
  have wb := hb.placed.withinRest.trans wa
  rw [← hb.rest]
  refine (spkiAt_sim wb.2).bind fun c c' _ hc => ?_
  have wc := hc.1.placed.withinRest.trans wb
  rw [← hc.1.rest]
  refine (fieldAt_sim _ _ wc.2).bind fun d d' _ hd => ?_
  rw [Res.ok_bind]
  have va : a'.val = a.1 := ha.val
  have vb : b'.val = b.1 := hb.val
  have vc : c'.val = c.1 := hc.1.val
  have vd : d'.val = d.1 := hd.val
  refine ⟨⟨by dsimp only; rw [f3, va, vb, vc, vd], f2, f4⟩, f3.symm, hc.2, ?_, f4.withinElem, hc.1.placed.withinElem.trans wb,
    hb.placed.withinElem.trans wa⟩
  exact raw_full wa.2 hb0 hb

/-- The places of a request or certificate: what is there, and that it is in the buffer. -/
structure PlacesOk (h : Heap) (s : Slice) (raw tbsRaw spki subject sig : Bytes) (p : Places) : Prop where
  raw : raw = p.raw.get h
  tbsRaw : tbsRaw = p.tbs.raw.get h
  spki : spki = p.tbs.spki.get h
  subject : subject = p.tbs.subject.get h
  sig : sig = p.sig.get h
  inRaw : p.raw.In s 0 ∧ Full h p.raw
  inTbs : Within h p.tbs.raw s
  inSpki : Within h p.tbs.spki s
  inSubject : Within h p.tbs.subject s
  inSig : Within h p.sig s

theorem csrAt_sim {h : Heap} {s : Slice} (hs : Full h s) :
    Sim (fun r l => Same h s Prod.fst r l ∧
        PlacesOk h s r.1.raw r.1.tbs.raw r.1.tbs.publicKey.raw r.1.tbs.subject.fullBytes r.1.sigValue.bytes l.val.2 ∧ l.val.2.raw = l.elem)
      (parseField tyCSR {} (s.get h)) (csrAt h s) := by
  unfold csrAt tyCSR
  rw [parseField_tyStruct]
  refine (sequenceAt_sim hs).bind fun r f hr hf => ?_
  obtain ⟨f1, f2, f3, f4, f5, f6⟩ := hf
  have w : Within h f.val s := ⟨f5, f6⟩
  simp only [bind_assoc]
  rw [← f1]
  refine (tbsCSRAt_sim f6).bind fun a a' _ ha => ?_
  have wa := ha.1.placed.withinRest.trans w
  rw [← ha.1.rest]
  refine (fieldAt_sim tyAlgId {} wa.2).bind fun b b' _ hb => ?_
  have wb := hb.placed.withinRest.trans wa
  rw [← hb.rest]
  refine (bitsAt_sim wb.2).bind fun c c' _ hc => ?_
  rw [Res.ok_bind]
  have va : a'.val.1 = a.1 := ha.1.val
  have vb : b'.val = b.1 := hb.val
  have vc : c'.val.1 = c.1 := hc.1.val
  obtain ⟨_, a2, a3, a4, a5, a6, a7⟩ := ha
  refine ⟨⟨by dsimp only; rw [f3, va, vb, vc], f2, f4⟩, ⟨f3.symm, a2, a3, a4, hc.2.1.symm, ⟨f4.elem, f4.fullElem⟩, a5.trans w, a6.trans w,
    a7.trans w, Within.trans ⟨hc.2.2.1, hc.2.2.2⟩ wb⟩, rfl⟩

theorem tbsCertAt_sim {h : Heap} {s : Slice} (hs : Full h s) :
    Sim (fun r l => Same h s Prod.fst r l ∧ r.1.raw = l.val.2.raw.get h ∧ r.1.publicKey.raw = l.val.2.spki.get h ∧
        r.1.subject.fullBytes = l.val.2.subject.get h ∧ r.1.issuer.fullBytes = l.val.2.issuer.get h ∧
        Within h l.val.2.raw s ∧ Within h l.val.2.spki s ∧ Within h l.val.2.subject s ∧ Within h l.val.2.issuer s)
      (parseField tyTbsCert {} (s.get h)) (tbsCertAt h s) := by
  unfold tbsCertAt tyTbsCert
  rw [parseField_tyStruct]
  refine (sequenceAt_sim hs).bind fun r f hr hf => ?_
  obtain ⟨f1, f2, f3, f4, f5, f6⟩ := hf
  have w : Within h f.val s := ⟨f5, f6⟩
  simp only [bind_assoc]
  rw [← f1]
  refine (fieldAt_sim tyInt _ f6).bind fun a a' _ ha => ?_
  have wa := ha.placed.withinRest.trans w
  rw [← ha.rest]
  refine (fieldAt_sim tyBig {} wa.2).bind fun b b' _ hb => ?_
  have wb := hb.placed.withinRest.trans wa
  rw [← hb.rest]
  refine (fieldAt_sim tyAlgId {} wb.2).bind fun c c' _ hc => ?_
  have wc := hc.placed.withinRest.trans wb
  rw [← hc.rest]
  refine (fieldAt_sim tyRaw {} wc.2).bind fun d d' hd0 hd => ?_
  have wd := hd.placed.withinRest.trans wc
  rw [← hd.rest]
  refine (fieldAt_sim tyValidity {} wd.2).bind fun e e' _ he => ?_
  have we := he.placed.withinRest.trans wd
  rw [← he.rest]
  refine (fieldAt_sim tyRaw {} we.2).bind fun g g' hg0 hg => ?_
  have wg := hg.placed.withinRest.trans we
  rw [← hg.rest]
  refine (spkiAt_sim wg.2).bind fun k k' _ hk => ?_
  have wk := hk.1.placed.withinRest.trans wg
  rw [← hk.1.rest]
  refine (fieldAt_sim _ _ wk.2).bind fun l l' _ hl => ?_
  have wl := hl.placed.withinRest.trans wk
  rw [← hl.rest]
  refine (fieldAt_sim _ _ wl.2).bind fun m m' _ hm => ?_
  have wm := hm.placed.withinRest.trans wl
  rw [← hm.rest]
  refine (fieldAt_sim _ _ wm.2).bind fun n n' _ hn => ?_
  rw [Res.ok_bind]
  have va : a'.val = a.1 := ha.val
  have vb : b'.val = b.1 := hb.val
  have vc : c'.val = c.1 := hc.val
  have vd : d'.val = d.1 := hd.val
  have ve : e'.val = e.1 := he.val
  have vg : g'.val = g.1 := hg.val
  have vk : k'.val = k.1 := hk.1.val
  have vl : l'.val = l.1 := hl.val
  have vm : m'.val = m.1 := hm.val
  have vn : n'.val = n.1 := hn.val
  exact ⟨⟨by dsimp only; rw [f3, va, vb, vc, vd, ve, vg, vk, vl, vm, vn], f2, f4⟩, f3.symm, hk.2, raw_full we.2 hg0 hg, raw_full wc.2 hd0 hd,
    f4.withinElem, hk.1.placed.withinElem.trans wg, hg.placed.withinElem.trans we, hd.placed.withinElem.trans wc⟩

theorem certAt_sim {h : Heap} {s : Slice} (hs : Full h s) :
    Sim (fun r l => Same h s Prod.fst r l ∧
        PlacesOk h s r.1.raw r.1.tbs.raw r.1.tbs.publicKey.raw r.1.tbs.subject.fullBytes r.1.sigValue.bytes l.val.2 ∧ l.val.2.raw = l.elem ∧
        r.1.tbs.issuer.fullBytes = l.val.2.tbs.issuer.get h ∧ Within h l.val.2.tbs.issuer s)
      (parseField tyCertificate {} (s.get h)) (certAt h s) := by
  unfold certAt tyCertificate
  rw [parseField_tyStruct]
  refine (sequenceAt_sim hs).bind fun r f hr hf => ?_
  obtain ⟨f1, f2, f3, f4, f5, f6⟩ := hf
  have w : Within h f.val s := ⟨f5, f6⟩
  simp only [bind_assoc]
  rw [← f1]
  refine (tbsCertAt_sim f6).bind fun a a' _ ha => ?_
  have wa := ha.1.placed.withinRest.trans w
  rw [← ha.1.rest]
  refine (fieldAt_sim tyAlgId {} wa.2).bind fun b b' _ hb => ?_
  have wb := hb.placed.withinRest.trans wa
  rw [← hb.rest]
  refine (bitsAt_sim wb.2).bind fun c c' _ hc => ?_
  rw [Res.ok_bind]
  have va : a'.val.1 = a.1 := ha.1.val
  have vb : b'.val = b.1 := hb.val
  have vc : c'.val.1 = c.1 := hc.1.val
  obtain ⟨_, a2, a3, a4, a4', a5, a6, a7, a8⟩ := ha
  exact ⟨⟨by dsimp only; rw [f3, va, vb, vc], f2, f4⟩, ⟨f3.symm, a2, a3, a4, hc.2.1.symm, ⟨f4.elem, f4.fullElem⟩, a5.trans w, a6.trans w,
    a7.trans w, Within.trans ⟨hc.2.2.1, hc.2.2.2⟩ wb⟩, rfl, a4', a8.trans w⟩

/-! ## The whole functions -/

theorem rightAlignAt_ok {h : Heap} {b : BitString} {place : Slice} (hb : b.bytes = place.get h) :
    (rightAlignAt h b place).1.get (rightAlignAt h b place).2 = b.rightAlign ∧ h <+: (rightAlignAt h b place).2 ∧
    ((rightAlignAt h b place).1 = place ∧ (rightAlignAt h b place).2 = h ∨
      (rightAlignAt h b place).1.arr = h.length ∧ (rightAlignAt h b place).1.off = 0 ∧
        (rightAlignAt h b place).2 = h ++ [b.rightAlign] ∧ (rightAlignAt h b place).1.len = b.rightAlign.length) := by
  unfold rightAlignAt
  split
  · rename_i hc
    refine ⟨?_, List.prefix_rfl, .inl ⟨rfl, rfl⟩⟩
    rw [← hb]
    unfold BitString.rightAlign
    rcases hc with hc | hc
    · rw [if_pos (by omega)]
    · rw [hc]; dsimp only; simp
  · exact ⟨by simp [Slice.get], List.prefix_append _ _, .inr ⟨rfl, rfl, rfl, rfl⟩⟩

theorem full_of_valid {h : Heap} {s : Slice} (hs : s.Valid h) : Full h s := Slice.length_get hs

theorem get_prefix {h h' : Heap} {s t : Slice} (hs : s.Valid h) (hp : h <+: h') (ha : t.arr = s.arr) : t.get h' = t.get h := by
  obtain ⟨l, rfl⟩ := hp
  unfold Slice.get
  rw [ha, List.getElem?_append_left hs.lt]

/-- The slices of a parsed request. -/
structure ReqOk (h : Heap) (s : Slice) (csr : CertReq U) (m : ReqMem U) (h' : Heap) : Prop where
  view : m.view h' = csr
  kept : m.kept = csr
  grows : h <+: h'
  inRaw : m.raw.In s 0 ∧ Full h m.raw ∧ m.raw.len = s.len
  inTbs : Within h m.rawTBS s
  inSpki : Within h m.rawSPKI s
  inSubject : Within h m.rawSubject s
  sig : (Within h m.signature s ∧ h' = h) ∨ (m.signature.arr = h.length ∧ h'.length = h.length + 1)

theorem parseCSR_fields {env : Env U} {inp : CSR} {r : CertReq U} (h : parseCSR env inp = .ok r) :
    r.raw = inp.raw ∧ r.rawTBS = inp.tbs.raw ∧ r.rawSPKI = inp.tbs.publicKey.raw ∧ r.rawSubject = inp.tbs.subject.fullBytes ∧
      r.signature = inp.sigValue.rightAlign := by
  unfold parseCSR at h
  rw [Res.bind_eq_ok] at h
  obtain ⟨_, _, h⟩ := h
  rcases ite_ok h with ⟨_, h⟩ | ⟨_, h⟩
  · cases h
  rcases ite_ok h with ⟨_, h⟩ | ⟨_, h⟩
  · cases h
  simp only [Res.bind_eq_ok] at h
  obtain ⟨_, _, _, _, _, _, _, _, h⟩ := h
  simp only [Res.ok.injEq] at h
  rw [← h]
  exact ⟨rfl, rfl, rfl, rfl, rfl⟩

theorem sim_map {α β γ : Type} {R : α → β → Prop} {x : Res α} {y : Res β} {f : β → γ} {g : α → γ} (h : Sim R x y) (hf : ∀ a b, R a b → g a = f b) :
    (x >>= fun a => .ok (g a)) = (y >>= fun b => .ok (f b)) := by
  cases x <;> cases y <;> first | exact h.elim | exact congrArg Res.ok (hf _ _ h) | exact congrArg Res.err h | rfl

theorem sim_request (env : Env U) {h : Heap} {s : Slice} (hs : s.Valid h) :
    Sim (fun csr r => ReqOk h s csr r.1 r.2) (parseCertificateRequest env (s.get h)) (parseCertificateRequestAt env h s) := by
  unfold parseCertificateRequest parseCertificateRequestAt
  refine (csrAt_sim (full_of_valid hs)).bind fun r l _ hl => ?_
  obtain ⟨⟨hv, hr, hp⟩, hok, hraw⟩ := hl
  have hr' : l.rest.len = r.2.length := by rw [← hr]; exact hp.fullRest.symm
  rw [hr']
  by_cases h0 : r.2.length ≠ 0
  · rw [if_pos h0, if_pos h0]; rfl
  · rw [if_neg h0, if_neg h0, hv]
    refine ok_sim fun csr hcsr => ?_
    obtain ⟨e1, e2, e3, e4, e5⟩ := parseCSR_fields hcsr
    obtain ⟨s1, s2, s3⟩ := rightAlignAt_ok (h := h) (b := r.1.sigValue) (place := l.val.2.sig) hok.sig
    have arr : ∀ {t : Slice}, Within h t s → t.get (rightAlignAt h r.1.sigValue l.val.2.sig).2 = t.get h := by
      rintro t ⟨⟨k, hk⟩, _⟩
      exact get_prefix hs s2 hk.arr
    refine ⟨?_, rfl, s2, ⟨hok.inRaw.1, hok.inRaw.2, ?_⟩, hok.inTbs, hok.inSpki, hok.inSubject, ?_⟩
    · show ({ csr with raw := _, rawTBS := _, rawSPKI := _, rawSubject := _, signature := _ } : CertReq U) = csr
      dsimp only
      rw [arr ⟨⟨0, hok.inRaw.1⟩, hok.inRaw.2⟩, arr hok.inTbs, arr hok.inSpki, arr hok.inSubject, s1, ← hok.raw, ← hok.tbsRaw, ← hok.spki,
        ← hok.subject, ← e1, ← e2, ← e3, ← e4, ← e5]
    · dsimp only
      rw [hraw]
      have := hp.all
      omega
    · rcases s3 with ⟨g1, g2⟩ | ⟨g1, _, g3, _⟩
      · exact .inl ⟨by dsimp only; rw [g1]; exact hok.inSig, g2⟩
      · exact .inr ⟨g1, by rw [g3]; simp⟩

/-- The fields of a certificate that are slices. -/
def rawFields (c : X509Cert U) : Bytes × Bytes × Bytes × Bytes × Bytes × Bytes :=
  (c.raw, c.rawTBS, c.rawSPKI, c.rawSubject, c.rawIssuer, c.signature)

theorem parseExtension_raw {env : Env U} {out o : X509Cert U} {e : Extension} {u : Bool} (h : parseExtension env out e = .ok (o, u)) :
    rawFields o = rawFields out := by
  unfold parseExtension at h
  iterate 10
    rcases ite_ok h with ⟨_, h⟩ | ⟨_, h⟩
    · rw [Res.bind_eq_ok] at h
      obtain ⟨_, _, h⟩ := h
      simp only [Res.ok.injEq, Prod.mk.injEq] at h
      rw [← h.1]
      rfl
  simp only [Res.ok.injEq, Prod.mk.injEq] at h
  rw [← h.1]

theorem parseExtensions_raw {env : Env U} : ∀ {es : List Extension} {out o : X509Cert U}, parseExtensions env es out = .ok o →
    rawFields o = rawFields out
  | [], out, o, h => by simp only [parseExtensions, Res.ok.injEq] at h; rw [h]
  | e :: es, out, o, h => by
    simp only [parseExtensions] at h
    rw [Res.bind_eq_ok] at h
    obtain ⟨⟨o1, u⟩, h1, h2⟩ := h
    have g1 := parseExtension_raw h1
    have g2 := parseExtensions_raw h2
    rw [g2, ← show rawFields ({ out with extensions := out.extensions ++ [e] } : X509Cert U) = rawFields out from rfl, ← g1]
    split <;> rfl

theorem parseCert_fields {env : Env U} {inp : Certificate} {r : X509Cert U} (h : parseCert env inp = .ok r) :
    rawFields r = (inp.raw, inp.tbs.raw, inp.tbs.publicKey.raw, inp.tbs.subject.fullBytes, inp.tbs.issuer.fullBytes, inp.sigValue.rightAlign) := by
  unfold parseCert at h
  rcases ite_ok h with ⟨_, h⟩ | ⟨_, h⟩
  · cases h
  rcases ite_ok h with ⟨_, h⟩ | ⟨_, h⟩
  · cases h
  simp only [Res.bind_eq_ok] at h
  obtain ⟨_, _, _, _, _, _, h⟩ := h
  rw [parseExtensions_raw h]
  rfl

/-- The slices of a parsed certificate. -/
structure CertOk (h : Heap) (s : Slice) (cert : X509Cert U) (m : CertMem U) (h' : Heap) : Prop where
  view : m.view h' = cert
  kept : m.kept = cert
  grows : h <+: h'
  inRaw : m.raw.In s 0 ∧ Full h m.raw ∧ m.raw.len = s.len
  inTbs : Within h m.rawTBS s
  inSpki : Within h m.rawSPKI s
  inSubject : Within h m.rawSubject s
  inIssuer : Within h m.rawIssuer s
  sig : (Within h m.signature s ∧ h' = h) ∨ (m.signature.arr = h.length ∧ h'.length = h.length + 1)

theorem sim_certificate (env : Env U) {h : Heap} {s : Slice} (hs : s.Valid h) :
    Sim (fun cert r => CertOk h s cert r.1 r.2) (parseCertificate env (s.get h)) (parseCertificateAt env h s) := by
  unfold parseCertificate parseCertificateAt
  refine (certAt_sim (full_of_valid hs)).bind fun r l _ hl => ?_
  obtain ⟨⟨hv, hr, hp⟩, hok, hraw, hiss, hin⟩ := hl
  have hr' : l.rest.len = r.2.length := by rw [← hr]; exact hp.fullRest.symm
  rw [hr']
  by_cases h0 : r.2.length > 0
  · rw [if_pos h0, if_pos h0]; rfl
  · rw [if_neg h0, if_neg h0, hv]
    refine ok_sim fun cert hcert => ?_
    have e := parseCert_fields hcert
    simp only [rawFields, Prod.mk.injEq] at e
    obtain ⟨e1, e2, e3, e4, e5, e6⟩ := e
    obtain ⟨s1, s2, s3⟩ := rightAlignAt_ok (h := h) (b := r.1.sigValue) (place := l.val.2.sig) hok.sig
    have arr : ∀ {t : Slice}, Within h t s → t.get (rightAlignAt h r.1.sigValue l.val.2.sig).2 = t.get h := by
      rintro t ⟨⟨k, hk⟩, _⟩
      exact get_prefix hs s2 hk.arr
    refine ⟨?_, rfl, s2, ⟨hok.inRaw.1, hok.inRaw.2, ?_⟩, hok.inTbs, hok.inSpki, hok.inSubject, hin, ?_⟩
    · show ({ cert with raw := _, rawTBS := _, rawSPKI := _, rawSubject := _, rawIssuer := _, signature := _ } : X509Cert U) = cert
      dsimp only
      rw [arr ⟨⟨0, hok.inRaw.1⟩, hok.inRaw.2⟩, arr hok.inTbs, arr hok.inSpki, arr hok.inSubject, arr hin, s1, ← hok.raw, ← hok.tbsRaw,
        ← hok.spki, ← hok.subject, ← hiss, ← e1, ← e2, ← e3, ← e4, ← e5, ← e6]
    · dsimp only
      rw [hraw]
      have := hp.all
      omega
    · rcases s3 with ⟨g1, g2⟩ | ⟨g1, _, g3, _⟩
      · exact .inl ⟨by dsimp only; rw [g1]; exact hok.inSig, g2⟩
      · exact .inr ⟨g1, by rw [g3]; simp⟩

end Verif.Cert
