import Verif.Sm2.BuffersMore
import Verif.Sm2.Exchange
/-!
# The programs on buffers: the key exchange
-/
namespace Verif.Sm2.Buf
open Verif EC

variable {α β γ δ : Type}

theorem slice_eq (b : Bytes) (lo hi : Int) : slice b lo hi = sliceCap b [] lo hi := by
  unfold slice sliceCap
  simp

theorem slice_nat {b : Bytes} {lo hi : ℕ} (h1 : lo ≤ hi) (h2 : hi ≤ b.length) : slice b (lo : Int) (hi : Int) = .ok ((b.drop lo).take (hi - lo)) := by
  unfold slice
  rw [if_pos (by omega), Int.toNat_natCast, show ((hi : Int) - lo).toNat = hi - lo by omega]

/-- The state of the loop of `kdfForExch`. -/
def ExchInv (buf rv xs ys za zb : Slice) (xb yb va vb : Bytes) (t : ExchState) (s : ℕ × BitVec 32) (h : Heap) : Prop :=
  s = (t.off, t.ct) ∧ Has h buf t.buf [] ∧ t.buf.length = 16 ∧ Has h rv t.rv [] ∧ (∃ sp, Has h xs xb sp) ∧ (∃ sp, Has h ys yb sp) ∧
    (∃ sp, Has h za va sp) ∧ ∃ sp, Has h zb vb sp

theorem gives_exchBody {g : ℕ → ℕ} {n : ℕ} {buf rv xs ys za zb : Slice} {xb yb va vb : Bytes} (hb : n ≤ buf.arr) (hr : n ≤ rv.arr)
    (hbr : buf.arr ≠ rv.arr) (hx : xs.arr ≠ buf.arr ∧ xs.arr ≠ rv.arr) (hy : ys.arr ≠ buf.arr ∧ ys.arr ≠ rv.arr)
    (ha : za.arr ≠ buf.arr ∧ za.arr ≠ rv.arr) (hz : zb.arr ≠ buf.arr ∧ zb.arr ≠ rv.arr) (t : ExchState) (s : ℕ × BitVec 32) (h : Heap)
    (hI : ExchInv buf rv xs ys za zb xb yb va vb t s h) :
    Gives (n ≤ ·) h (kdfForExchBody g buf rv xs ys za zb 16 s h) (Sm2.kdfForExchBody 16 xb yb va vb t)
      (Pass (ExchInv buf rv xs ys za zb xb yb va vb) (fun b (_ : Unit) h' => Has h' rv b [])) := by
  obtain ⟨rfl, x1, hl, x2, ⟨sx, xx⟩, ⟨sy, xy⟩, ⟨sa, xa⟩, ⟨sb, xz⟩⟩ := hI
  unfold kdfForExchBody Sm2.kdfForExchBody
  dsimp only
  rw [x2.len]
  by_cases ho : t.off < t.rv.length
  swap
  · rw [if_neg ho, if_neg ho]
    exact gives_pure x2
  rw [if_pos ho, if_pos ho]
  -- PutUint32
  refine Gives.step (gives_put x1 (by omega) (t.ct + 1)) (fun i _ e => by omega) ?_
  intro _ m1 f1 ⟨x1, _⟩
  have hl1 : (overwrite t.buf 0 (put32 (t.ct + 1))).length = 16 := by rw [length_overwrite (by rw [length_put32]; omega), hl]
  rw [copyAt_eq (src := put32 (t.ct + 1)) (by rw [length_put32]; omega)]
  generalize overwrite t.buf 0 (put32 (t.ct + 1)) = b1 at x1 hl1 ⊢
  have x2 := x2.frame f1 (by omega)
  have xx := xx.frame f1 hx.1
  have xy := xy.frame f1 hy.1
  have xa := xa.frame f1 ha.1
  have xz := xz.frame f1 hz.1
  -- buf[:4]
  rw [slice_eq]
  refine Gives.bind (gives_sub (W := fun _ => False) x1 0 4) (fun _ _ h => h.elim) ?_
  rintro v4 b4 m2 _ _ ⟨rfl, _, _, _, _, sp4, x4⟩
  -- the hash
  refine Gives.bind (gives_hash [xs, ys, za, zb, b4] [xb, yb, va, vb, v4] (by
    simp only [List.map_cons, List.map_nil, xx.get, xy.get, xa.get, xz.get, x4.get])) (fun _ _ h => h.elim) ?_
  intro vt tmp m3 hh f3 ⟨⟨spt, xt⟩, ht⟩
  have hlt := hashOf_length hh
  have x1 := x1.frame f3 id
  have x2 := x2.frame f3 id
  have xx := xx.frame f3 id
  have xy := xy.frame f3 id
  have xa := xa.frame f3 id
  have xz := xz.frame f3 id
  -- copy(buf[:bufSize], tmp[:bufSize])
  refine Gives.step (gives_sub_in (W := fun _ => False) x1 (lo := 0) (hi := 16) (by omega) (by omega)) (fun _ _ h => h.elim) ?_
  rintro d m4 _ ⟨rfl, ed, _⟩
  have es := slice_nat (b := vt) (lo := 0) (hi := 16) (by omega) (by omega)
  refine Gives.bind (es ▸ gives_sub_in (W := fun _ => False) xt (lo := 0) (hi := 16) (by omega) (by omega)) (fun _ _ h => h.elim) ?_
  rintro v5 t5 m5 e5 _ ⟨rfl, _, sp5, x5⟩
  have l5 : v5.length = 16 := by
    rw [show slice vt 0 ((16 : ℕ) : Int) = _ from es, Res.ok.injEq] at e5
    rw [← e5, List.length_take, List.length_drop]; omega
  refine Gives.step (gives_copy x1 x5 (d := d) (lo := 0) (by rw [ed]) (by rw [ed]) (by rw [ed]; dsimp only; omega)) (fun i _ e => by omega) ?_
  intro _ m6 f6 ⟨x1, _⟩
  rw [ed] at x1
  dsimp only at x1
  rw [List.take_of_length_le (by omega), overwrite_all (by omega)] at x1
  rw [copyAt_all (z := b1) (a := v5) (by omega)]
  have x2 := x2.frame f6 (by omega)
  have xx := xx.frame f6 hx.1
  have xy := xy.frame f6 hy.1
  have xa := xa.frame f6 ha.1
  have xz := xz.frame f6 hz.1
  -- copy(rv[off:off+copyLen], buf[:copyLen])
  refine Gives.step (gives_sub_in (W := fun _ => False) x2 (lo := t.off) (hi := t.off + (t.rv.length - t.off)) (by omega) (by omega))
    (fun _ _ h => h.elim) ?_
  rintro d' m7 _ ⟨rfl, ed', _⟩
  rw [slice_eq]
  refine Gives.bind (gives_sub (W := fun _ => False) x1 0 _) (fun _ _ h => h.elim) ?_
  rintro v8 t8 m8 e8 _ ⟨rfl, _, _, _, _, sp8, x8⟩
  have l8 := length_sliceCap e8
  refine Gives.step (gives_copy x2 x8 (d := d') (lo := t.off) (by rw [ed']) (by rw [ed']) (by rw [ed']; dsimp only; omega))
    (fun i _ e => by omega) ?_
  intro _ m9 f9 ⟨x2, _⟩
  rw [ed'] at x2
  dsimp only at x2
  rw [List.take_of_length_le (by omega)] at x2
  rw [copyAt_eq (src := v8) (by omega)]
  exact gives_pure ⟨rfl, x1.frame f9 hbr, l5, x2, ⟨_, xx.frame f9 hx.2⟩, ⟨_, xy.frame f9 hy.2⟩, ⟨_, xa.frame f9 ha.2⟩, ⟨_, xz.frame f9 hz.2⟩⟩

theorem gives_kdfForExch {g : ℕ → ℕ} {h : Heap} (ux uy : Int) {za zb : Slice} {va vb sa sb : Bytes} (xa : Has h za va sa) (xz : Has h zb vb sb)
    (keyBits : Int) :
    Gives (fun _ => False) h (kdfForExch g ux uy za zb keyBits h) (Sm2.kdfForExch ux uy va vb keyBits) (fun b s h' => New h b s h') := by
  refine Gives.new ?_ _
  unfold kdfForExch Sm2.kdfForExch
  dsimp only
  rw [if_pos (by omega)]
  have la := xa.lt
  have lz := xz.lt
  refine Gives.step (gives_make_nat 16) (fun _ _ h => h.elim) ?_
  intro buf m1 f1 ⟨x1, e1⟩
  have l1 := f1.1
  have i1 := x1.lt
  refine Gives.bind (gives_make _) (fun _ _ h => h.elim) ?_
  intro z rv m2 _ f2 ⟨x2, e2⟩
  have l2 := f2.1
  have i2 := x2.lt
  refine Gives.step (gives_fresh _ _) (fun _ _ h => h.elim) ?_
  intro xs m3 f3 ⟨xx, e3⟩
  have l3 := f3.1
  refine Gives.step (gives_fresh _ _) (fun _ _ h => h.elim) ?_
  intro ys m4 f4 ⟨xy, e4⟩
  have l4 := f4.1
  rw [x2.len]
  refine Gives.last (gives_forLoop (W := (h.length ≤ ·)) (I := ExchInv buf rv xs ys za zb (intBytes ux) (intBytes uy) va vb)
    (R := fun b (_ : Unit) h' => Has h' rv b []) ?_ _ ⟨List.replicate 16 0, z, 0, 0⟩ _ _
    ⟨rfl, ((x1.frame f2 id).frame f3 id).frame f4 id, rfl, (x2.frame f3 id).frame f4 id, ⟨_, xx.frame f4 id⟩, ⟨_, xy⟩,
      ⟨_, (((xa.frame f1 id).frame f2 id).frame f3 id).frame f4 id⟩, ⟨_, (((xz.frame f1 id).frame f2 id).frame f3 id).frame f4 id⟩⟩)
    (fun _ _ h => h) ?_
  · intro t s h' hI
    exact gives_exchBody (n := h.length) (by omega) (by omega) (by omega) (by omega) (by omega) (by omega) (by omega) t s h' hI
  · intro b _ m5 _ _ x5
    exact gives_pure ⟨⟨_, x5⟩, by omega⟩

theorem gives_innerHash {g : ℕ → ℕ} {h : Heap} (ux : Int) {za zb : Slice} {va vb sa sb : Bytes} (xa : Has h za va sa) (xz : Has h zb vb sb)
    (p1 p2 p3 p4 : Int) :
    Gives (fun _ => False) h (calculateInnerHash g ux za zb p1 p2 p3 p4 h) (Sm2.calculateInnerHash ux va vb p1 p2 p3 p4)
      (fun b s h' => New h b s h') := by
  unfold calculateInnerHash Sm2.calculateInnerHash
  refine Gives.step (gives_fresh _ _) (fun _ _ h => h) ?_
  intro s1 m1 f1 ⟨x1, _⟩
  refine Gives.step (gives_fresh _ _) (fun _ _ h => h) ?_
  intro s2 m2 f2 ⟨x2, _⟩
  refine Gives.step (gives_fresh _ _) (fun _ _ h => h) ?_
  intro s3 m3 f3 ⟨x3, _⟩
  refine Gives.step (gives_fresh _ _) (fun _ _ h => h) ?_
  intro s4 m4 f4 ⟨x4, _⟩
  refine Gives.step (gives_fresh _ _) (fun _ _ h => h) ?_
  intro s5 m5 f5 ⟨x5, _⟩
  have q : Frame (fun _ => False) h m5 := (((f1.trans f2).trans f3).trans f4).trans f5
  have lq := q.1
  refine (gives_hash _ _ ?_).mono (fun _ _ h => h) (fun _ _ _ _ _ y => ⟨y.1, by have := y.2; omega⟩)
  simp only [List.map_cons, List.map_nil, (xa.frame q id).get, (xz.frame q id).get, (x1.frame (((f2.trans f3).trans f4).trans f5) id).get,
    (x2.frame ((f3.trans f4).trans f5) id).get, (x3.frame (f4.trans f5) id).get, (x4.frame f5 id).get, x5.get]

theorem gives_tag {g : ℕ → ℕ} {h : Heap} (first : Byte) (uy : Int) {ih : Slice} {v sv : Bytes} (x : Has h ih v sv) :
    Gives (fun _ => False) h (tag g first uy ih h) (hashOf [[first], intBytes uy, v]) (fun b s h' => New h b s h') := by
  unfold tag
  refine Gives.step (gives_fresh _ _) (fun _ _ h => h) ?_
  intro s1 m1 f1 ⟨x1, _⟩
  refine Gives.step (gives_fresh _ _) (fun _ _ h => h) ?_
  intro s2 m2 f2 ⟨x2, _⟩
  have q : Frame (fun _ => False) h m2 := f1.trans f2
  have lq := q.1
  refine (gives_hash _ _ ?_).mono (fun _ _ h => h) (fun _ _ _ _ _ y => ⟨y.1, by have := y.2; omega⟩)
  simp only [List.map_cons, List.map_nil, (x.frame q id).get, (x1.frame f2 id).get, x2.get]

theorem gives_id {h : Heap} {uid : Option Slice} (hu : ∀ s ∈ uid, s.Valid h) :
    Gives (fun _ => False) h (orEmpty uid h) (.ok ((uid.map (Slice.get h)).getD [])) (fun b a h' => ∃ sp, Has h' a b sp) := by
  cases uid with
  | some s => exact gives_pure (has_of_valid (hu s rfl))
  | none => exact (gives_make_nat 0).mono (fun _ _ h => h) (fun _ _ _ _ _ y => ⟨_, y.1⟩)

theorem Gives.readOr {W : ℕ → Prop} {h : Heap} {o : Option Slice} (hv : ∀ s ∈ o, s.Valid h) {f : Bytes → HM γ} {r : Res δ}
    {S : δ → γ → Heap → Prop} (hf : Gives W h (f ((o.map (Slice.get h)).getD []) h) r S) : Gives W h ((Buf.readOr o >>= f) h) r S := by
  cases o with
  | some s => exact Gives.read (has_of_valid (hv s rfl)).choose_spec hf
  | none => exact hf

theorem Slice.Valid.frame {h h' : Heap} {s : Slice} (hv : s.Valid h) (f : Frame (fun _ => False) h h') : s.Valid h' ∧ s.get h' = s.get h := by
  obtain ⟨sp, x⟩ := has_of_valid hv
  exact ⟨(x.frame f id).valid, (x.frame f id).get⟩

theorem map_get_frame {h h' : Heap} {o : Option Slice} (hv : ∀ s ∈ o, s.Valid h) (f : Frame (fun _ => False) h h') :
    o.map (Slice.get h') = o.map (Slice.get h) := by
  cases o with
  | none => rfl
  | some s => rw [Option.map_some, Option.map_some, (Slice.Valid.frame (hv s rfl) f).2]

/-- The parts of the result are new, and no two of them share memory. -/
def NewResult (h : Heap) (v : ExchangeResult) (r : Exchanged) (h' : Heap) : Prop :=
  New h v.Key r.Key h' ∧ New h v.S2 r.S2 h' ∧ r.Key.arr ≠ r.S2.arr ∧
    match r.S1 with
    | none => v.S1 = []
    | some s => New h v.S1 s h' ∧ s.arr ≠ r.Key.arr ∧ s.arr ≠ r.S2.arr

theorem New.mono {h1 h2 h' : Heap} {b : Bytes} {s : Slice} (x : New h2 b s h') (hl : h1.length ≤ h2.length) : New h1 b s h' :=
  ⟨x.1, by have := x.2; omega⟩

theorem New.frame {h h1 h2 : Heap} {b : Bytes} {s : Slice} (x : New h b s h1) (f : Frame (fun _ => False) h1 h2) : New h b s h2 := by
  obtain ⟨⟨sp, y⟩, e⟩ := x
  exact ⟨⟨sp, y.frame f id⟩, e⟩

theorem gives_initiator {g : ℕ → ℕ} {h : Heap} (keyBits : Int) {ct : Option Slice} (h1 : ∀ s ∈ ct, s.Valid h) (u : Int × Int) {za zb : Slice}
    {va vb sa sb : Bytes} (xa : Has h za va sa) (xz : Has h zb vb sb) (p q : PublicKey) :
    Gives (fun _ => False) h (initiatorPart g keyBits ct u za zb p q h)
      (Sm2.initiatorPart keyBits ((ct.map (Slice.get h)).getD []) u va vb p q) (NewResult h) := by
  unfold initiatorPart Sm2.initiatorPart s1 s2
  refine Gives.bind (gives_kdfForExch _ _ xa xz _) (fun _ _ h => h) ?_
  intro vk rv m1 _ f1 nk
  have i1 := nk.1.choose_spec.lt
  refine Gives.bind (gives_innerHash _ (xa.frame f1 id) (xz.frame f1 id) _ _ _ _) (fun _ _ h => h) ?_
  intro vi ih m2 _ f2 ⟨⟨si, xi⟩, _⟩
  refine Gives.bind (gives_tag _ _ xi) (fun _ _ h => h) ?_
  intro v1 t1 m3 _ f3 ⟨⟨_, x1⟩, _⟩
  have f : Frame (fun _ => False) h m3 := (f1.trans f2).trans f3
  refine Gives.read x1 (Gives.readOr (fun s hs => (Slice.Valid.frame (h1 s hs) f).1) ?_)
  rw [map_get_frame h1 f]
  split
  · exact gives_fail rfl
  refine Gives.bind (gives_tag _ _ (xi.frame f3 id)) (fun _ _ h => h) ?_
  intro v2 t2 m4 _ f4 n2
  have l1 := f1.1
  have l2 := f2.1
  have l3 := f3.1
  have e2 := n2.2
  exact gives_pure ⟨nk.frame ((f2.trans f3).trans f4), n2.mono f.1, by dsimp only; omega, rfl⟩

theorem gives_responder {g : ℕ → ℕ} {h : Heap} (keyBits : Int) (u : Int × Int) {za zb : Slice}
    {va vb sa sb : Bytes} (xa : Has h za va sa) (xz : Has h zb vb sb) (p q : PublicKey) :
    Gives (fun _ => False) h (responderPart g keyBits u za zb p q h) (Sm2.responderPart keyBits u va vb p q) (NewResult h) := by
  unfold responderPart Sm2.responderPart s1 s2
  refine Gives.bind (gives_kdfForExch _ _ xz xa _) (fun _ _ h => h) ?_
  intro vk rv m1 _ f1 nk
  have i1 := nk.1.choose_spec.lt
  refine Gives.bind (gives_innerHash _ (xz.frame f1 id) (xa.frame f1 id) _ _ _ _) (fun _ _ h => h) ?_
  intro vi ih m2 _ f2 ⟨⟨si, xi⟩, _⟩
  refine Gives.bind (gives_tag _ _ xi) (fun _ _ h => h) ?_
  intro v1 t1 m3 _ f3 n1
  refine Gives.bind (gives_tag _ _ (xi.frame f3 id)) (fun _ _ h => h) ?_
  intro v2 t2 m4 _ f4 n2
  have i3 := n1.1.choose_spec.lt
  have l1 := f1.1
  have l2 := f2.1
  have l3 := f3.1
  have e1 := n1.2
  have e2 := n2.2
  exact gives_pure ⟨nk.frame ((f2.trans f3).trans f4), n2.mono (by omega), by dsimp only; omega,
    (n1.mono (by omega)).frame f4, by dsimp only; omega, by dsimp only; omega⟩

theorem gives_exchange {g : ℕ → ℕ} {h : Heap} (initiator : Bool) (keyBits : Int) {ct : Option Slice} (d1 d2 : PrivateKey) {sid : Option Slice}
    (p1 p2 : PublicKey) {oid : Option Slice} (h1 : ∀ s ∈ ct, s.Valid h) (h2 : ∀ s ∈ sid, s.Valid h) (h3 : ∀ s ∈ oid, s.Valid h) :
    Gives (fun _ => False) h (calculateKeyWithConfirmation g initiator keyBits ct d1 d2 sid p1 p2 oid h)
      (Sm2.calculateKeyWithConfirmation initiator keyBits (ct.map (Slice.get h)) d1 d2 (sid.map (Slice.get h)) p1 p2 (oid.map (Slice.get h)))
      (NewResult h) := by
  unfold calculateKeyWithConfirmation Sm2.calculateKeyWithConfirmation
  dsimp only
  refine Gives.step (gives_id h2) (fun _ _ h => h) ?_
  intro si m1 f1 ⟨ss, xs⟩
  rw [← map_get_frame h3 f1]
  refine Gives.step (gives_id (fun s hs => (Slice.Valid.frame (h3 s hs) f1).1)) (fun _ _ h => h) ?_
  intro so m2 f2 ⟨_, xo⟩
  have f : Frame (fun _ => False) h m2 := f1.trans f2
  have xs := xs.frame f2 id
  by_cases hn : initiator = true ∧ ct = none
  · rw [if_pos hn, if_pos ⟨hn.1, Option.map_eq_none_iff.2 hn.2⟩]
    exact gives_fail rfl
  rw [if_neg hn, if_neg (fun e => hn ⟨e.1, Option.map_eq_none_iff.1 e.2⟩)]
  refine Gives.lift fun q1 _ => ?_
  refine Gives.bind (gives_getZ _ _ xs) (fun _ _ h => h) ?_
  intro va za m3 _ f3 ⟨⟨_, xa⟩, _⟩
  refine Gives.bind (gives_getZ _ _ (xo.frame f3 id)) (fun _ _ h => h) ?_
  intro vb zb m4 _ f4 ⟨⟨_, xb⟩, _⟩
  refine Gives.lift fun q2 _ => ?_
  refine Gives.lift fun u _ => ?_
  have xa := xa.frame f4 id
  have f := (f.trans f3).trans f4
  have hm : ∀ v r h', NewResult m4 v r h' → NewResult h v r h' := by
    rintro v ⟨k, s1, s2⟩ h' ⟨a, b, c, d⟩
    refine ⟨a.mono f.1, b.mono f.1, c, ?_⟩
    cases s1 with
    | none => exact d
    | some s => exact ⟨d.1.mono f.1, d.2⟩
  split
  · rw [← map_get_frame h1 f]
    exact (gives_initiator keyBits (fun s hs => (Slice.Valid.frame (h1 s hs) f).1) u xa xb q2 p2).mono (fun _ _ h => h)
      (fun _ _ _ _ _ hr => hm _ _ _ hr)
  · exact (gives_responder keyBits u xa xb q2 p2).mono (fun _ _ h => h) (fun _ _ _ _ _ hr => hm _ _ _ hr)

end Verif.Sm2.Buf
