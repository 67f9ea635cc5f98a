import Verif.Sm2.Buffers
import Verif.Sm2.Capacity
import Verif.Util.HeapLemmas
import Verif.Sm2.ExchangeLemmas
/-!
# The programs on buffers compute what the programs on byte strings compute

`Gives W h o r R`: the run `o` that began in the memory `h` ended like the computation `r` on values, the results are related
by `R`, and of the memory that was there only arrays in `W` have changed.
-/
namespace Verif.Sm2.Buf
open Verif EC

variable {α β γ δ : Type}

/-- Memory from `h` on, with changes of old arrays only in `W`. -/
def Frame (W : ℕ → Prop) (h h' : Heap) : Prop := h.length ≤ h'.length ∧ ∀ i, i < h.length → ¬ W i → h'[i]? = h[i]?

theorem Frame.refl (W : ℕ → Prop) (h : Heap) : Frame W h h := ⟨Nat.le_refl _, fun _ _ _ => rfl⟩

theorem Frame.trans {W : ℕ → Prop} {h h1 h2 : Heap} (a : Frame W h h1) (b : Frame W h1 h2) : Frame W h h2 :=
  ⟨Nat.le_trans a.1 b.1, fun i hi hw => by rw [b.2 i (Nat.lt_of_lt_of_le hi a.1) hw, a.2 i hi hw]⟩

theorem Frame.mono {W W' : ℕ → Prop} {h h' : Heap} (a : Frame W h h') (hw : ∀ i, i < h.length → W i → W' i) : Frame W' h h' :=
  ⟨a.1, fun i hi hn => a.2 i hi (fun hc => hn (hw i hi hc))⟩

/-- The outcomes are of the same kind, and values are related. -/
def Same (Q : β → α → Prop) : Res α → Res β → Prop
  | .ok a, .ok b => Q b a
  | .err e, .err e' => e = e'
  | .panic, .panic => True
  | .loop, .loop => True
  | _, _ => False

theorem Same.mono {Q Q' : β → α → Prop} {o : Res α} {r : Res β} (h : Same Q o r) (hq : ∀ b a, r = .ok b → Q b a → Q' b a) : Same Q' o r := by
  cases o <;> cases r <;> first | exact h | exact hq _ _ rfl h

def Gives (W : ℕ → Prop) (h : Heap) (o : Res α × Heap) (r : Res β) (R : β → α → Heap → Prop) : Prop :=
  Frame W h o.2 ∧ Same (fun b a => R b a o.2) o.1 r

theorem Gives.mono {W W' : ℕ → Prop} {h : Heap} {o : Res α × Heap} {r : Res β} {R R' : β → α → Heap → Prop} (x : Gives W h o r R)
    (hw : ∀ i, i < h.length → W i → W' i) (hr : ∀ b a h', r = .ok b → Frame W h h' → R b a h' → R' b a h') : Gives W' h o r R' :=
  ⟨x.1.mono hw, x.2.mono fun b a e hq => hr b a _ e x.1 hq⟩

theorem Gives.bind {V W : ℕ → Prop} {h : Heap} {x : HM α} {f : α → HM γ} {r : Res β} {k : β → Res δ} {R : β → α → Heap → Prop}
    {S : δ → γ → Heap → Prop} (hx : Gives V h (x h) r R) (hv : ∀ i, i < h.length → V i → W i)
    (hf : ∀ b a h', r = .ok b → Frame V h h' → R b a h' → Gives W h' (f a h') (k b) S) : Gives W h ((x >>= f) h) (r >>= k) S := by
  show Gives W h (match x h with
    | (.ok a, h') => f a h'
    | (.err e, h') => (.err e, h')
    | (.panic, h') => (.panic, h')
    | (.loop, h') => (.loop, h')) _ _
  generalize x h = y at hx ⊢
  obtain ⟨o, h'⟩ := y
  obtain ⟨h1, h2⟩ := hx
  cases o <;> cases r <;> try exact absurd h2 id
  · have := hf _ _ _ rfl h1 h2
    exact ⟨(h1.mono hv).trans this.1, this.2⟩
  · exact ⟨h1.mono hv, h2⟩
  · exact ⟨h1.mono hv, trivial⟩
  · exact ⟨h1.mono hv, trivial⟩

/-- A step of the program that has no counterpart in the computation. -/
theorem Gives.step {V W : ℕ → Prop} {h : Heap} {x : HM α} {f : α → HM γ} {b : β} {r : Res δ} {R : β → α → Heap → Prop}
    {S : δ → γ → Heap → Prop} (hx : Gives V h (x h) (.ok b) R) (hv : ∀ i, i < h.length → V i → W i)
    (hf : ∀ a h', Frame V h h' → R b a h' → Gives W h' (f a h') r S) : Gives W h ((x >>= f) h) r S := by
  have := Gives.bind (k := fun _ => r) hx hv (fun b' a h' e hF hR => by
    rw [Res.ok.injEq] at e; subst e; exact hf a h' hF hR)
  rwa [Res.ok_bind] at this

/-- The computation is done, the program goes on. -/
theorem Gives.last {V W : ℕ → Prop} {h : Heap} {x : HM α} {f : α → HM γ} {r : Res β} {R : β → α → Heap → Prop}
    {S : β → γ → Heap → Prop} (hx : Gives V h (x h) r R) (hv : ∀ i, i < h.length → V i → W i)
    (hf : ∀ b a h', r = .ok b → Frame V h h' → R b a h' → Gives W h' (f a h') (.ok b) S) : Gives W h ((x >>= f) h) r S := by
  have := Gives.bind (k := fun b => .ok b) hx hv hf
  rwa [show (r >>= fun b => Res.ok b) = r by cases r <;> rfl] at this

/-- What was allocated on the way may have been written. -/
theorem Gives.new {h : Heap} {o : Res α × Heap} {r : Res β} {R : β → α → Heap → Prop} (x : Gives (h.length ≤ ·) h o r R) (W : ℕ → Prop) :
    Gives W h o r R := x.mono (fun _ hi hw => absurd hw (Nat.not_le.2 hi)) (fun _ _ _ _ _ hr => hr)

theorem gives_pure {W : ℕ → Prop} {h : Heap} {a : α} {b : β} {R : β → α → Heap → Prop} (hr : R b a h) :
    Gives W h ((pure a : HM α) h) (.ok b) R := ⟨Frame.refl _ _, hr⟩

theorem gives_lift {W : ℕ → Prop} {h : Heap} {r : Res α} : Gives W h (lift r h) r (fun b a h' => a = b ∧ h' = h) := by
  refine ⟨Frame.refl _ _, ?_⟩
  cases r <;> simp [Same, lift]

theorem gives_fail {W : ℕ → Prop} {h : Heap} {r : Res α} {r' : Res β} {R : β → α → Heap → Prop} (hs : Same (fun _ _ => False) r r') :
    Gives W h (lift r h) r' R := ⟨Frame.refl _ _, hs.mono fun _ _ _ hf => hf.elim⟩

/-! ## Contents of slices -/

/-- The slice shows the bytes `b`; behind them, up to its capacity, are the bytes `sp`. -/
def Has (h : Heap) (s : Slice) (b sp : Bytes) : Prop :=
  ∃ pre post, h[s.arr]? = some (pre ++ (b ++ (sp ++ post))) ∧ s.off = pre.length ∧ s.len = b.length ∧ s.cap = b.length + sp.length

theorem Has.lt {h : Heap} {s : Slice} {b sp : Bytes} (x : Has h s b sp) : s.arr < h.length := by
  obtain ⟨pre, post, h1, _⟩ := x
  exact (List.getElem?_eq_some_iff.1 h1).1

theorem Has.get {h : Heap} {s : Slice} {b sp : Bytes} (x : Has h s b sp) : s.get h = b := by
  obtain ⟨pre, post, h1, h2, h3, _⟩ := x
  rw [Slice.get, h1, Option.getD_some, h2, List.drop_left, h3, List.take_left]

theorem Has.len {h : Heap} {s : Slice} {b sp : Bytes} (x : Has h s b sp) : s.len = b.length := x.choose_spec.choose_spec.2.2.1

theorem Has.cap {h : Heap} {s : Slice} {b sp : Bytes} (x : Has h s b sp) : s.cap = b.length + sp.length :=
  x.choose_spec.choose_spec.2.2.2

theorem Has.frame {W : ℕ → Prop} {h h' : Heap} {s : Slice} {b sp : Bytes} (x : Has h s b sp) (hf : Frame W h h') (hw : ¬ W s.arr) :
    Has h' s b sp := by
  have hl := x.lt
  obtain ⟨pre, post, h1, h2⟩ := x
  exact ⟨pre, post, by rw [hf.2 _ hl hw, h1], h2⟩

/-- A valid slice has some contents. -/
theorem has_of_valid {h : Heap} {s : Slice} (hv : s.Valid h) : ∃ sp, Has h s (s.get h) sp := by
  have hl := Slice.length_get hv
  obtain ⟨h1, a, ha, h2⟩ := hv
  refine ⟨(a.drop (s.off + s.len)).take (s.cap - s.len), a.take s.off, a.drop (s.off + s.cap), ?_, ?_, hl.symm, ?_⟩
  · rw [ha]
    congr 1
    have e1 : s.get h = (a.drop s.off).take s.len := by rw [Slice.get, ha, Option.getD_some]
    have e2 : a.drop (s.off + s.cap) = (a.drop (s.off + s.len)).drop (s.cap - s.len) := by
      rw [List.drop_drop]; congr 1; omega
    rw [e1, e2, List.take_append_drop, ← List.drop_drop, List.take_append_drop, List.take_append_drop]
  · rw [List.length_take]; omega
  · rw [hl, List.length_take, List.length_drop]; omega

theorem Has.valid {h : Heap} {s : Slice} {b sp : Bytes} (x : Has h s b sp) : s.Valid h := by
  obtain ⟨pre, post, h1, h2, h3, h4⟩ := x
  exact ⟨by omega, _, h1, by simp; omega⟩

theorem Has.sub {h : Heap} {s : Slice} {b sp : Bytes} (x : Has h s b sp) {lo hi : ℕ} (h1 : lo ≤ hi) (h2 : hi ≤ s.cap) :
    Has h ⟨s.arr, s.off + lo, hi - lo, s.cap - lo⟩ (((b ++ sp).drop lo).take (hi - lo)) ((b ++ sp).drop hi) := by
  obtain ⟨pre, post, g1, g2, g3, g4⟩ := x
  have hl : (b ++ sp).length = s.cap := by rw [g4, List.length_append]
  refine ⟨pre ++ (b ++ sp).take lo, post, ?_, ?_, ?_, ?_⟩
  · rw [g1]
    congr 1
    have : (b ++ sp).drop hi = ((b ++ sp).drop lo).drop (hi - lo) := by rw [List.drop_drop]; congr 1; omega
    rw [List.append_assoc, this, ← List.append_assoc (List.take _ (List.drop _ _)), List.take_append_drop,
      ← List.append_assoc (List.take lo _), List.take_append_drop, List.append_assoc]
  · rw [List.length_append, List.length_take, hl, g2]; dsimp only; omega
  · rw [List.length_take, List.length_drop, hl]; dsimp only; omega
  · rw [List.length_take, List.length_drop, List.length_drop, hl]; dsimp only; omega

theorem gives_sub {W : ℕ → Prop} {h : Heap} {s : Slice} {b sp : Bytes} (x : Has h s b sp) (lo hi : Int) :
    Gives W h (sub s lo hi h) (sliceCap b sp lo hi) (fun b' s' h' => h' = h ∧ 0 ≤ lo ∧ lo ≤ hi ∧ hi ≤ s.cap ∧
      s' = ⟨s.arr, s.off + lo.toNat, (hi - lo).toNat, s.cap - lo.toNat⟩ ∧ ∃ sp', Has h s' b' sp') := by
  unfold sub sliceCap
  have hc := x.cap
  by_cases hb : 0 ≤ lo ∧ lo ≤ hi ∧ hi ≤ s.cap
  · rw [if_pos hb, if_pos (by omega)]
    refine ⟨Frame.refl _ _, rfl, hb.1, hb.2.1, hb.2.2, rfl, (b ++ sp).drop hi.toNat, ?_⟩
    have := x.sub (lo := lo.toNat) (hi := hi.toNat) (by omega) (by omega)
    rwa [show hi.toNat - lo.toNat = (hi - lo).toNat by omega] at this
  · rw [if_neg hb, if_neg (by omega)]
    exact gives_fail trivial

theorem gives_fresh {h : Heap} (k : ℕ) (bs : Bytes) : Gives (fun _ => False) h (fresh k bs h) (.ok bs)
    (fun b s h' => Has h' s b (List.replicate k 0) ∧ s.arr = h.length) := by
  refine ⟨⟨by simp [fresh], fun i hi _ => List.getElem?_append_left hi⟩, ⟨[], [], ?_, rfl, rfl, ?_⟩, rfl⟩
  · simp [fresh]
  · simp

theorem gives_make {h : Heap} (n : Int) : Gives (fun _ => False) h (make n h) (makeBytes n)
    (fun b s h' => Has h' s b [] ∧ s.arr = h.length) := by
  unfold make makeBytes
  split
  · exact gives_fail trivial
  · exact gives_fresh 0 _

theorem gives_read {W : ℕ → Prop} {h : Heap} {s : Slice} {b sp : Bytes} (x : Has h s b sp) :
    Gives W h (read s h) (.ok b) (fun b' a h' => a = b' ∧ h' = h) := ⟨Frame.refl _ _, x.get, rfl⟩

/-- Writing into a part of a slice. -/
theorem gives_store {h : Heap} {p : Slice} {b sp : Bytes} (x : Has h p b sp) {d : Slice} {lo : ℕ} {bs : Bytes} (h1 : d.arr = p.arr)
    (h2 : d.off = p.off + lo) (h3 : lo + bs.length ≤ b.length) :
    Gives (· = p.arr) h (store d bs h) (.ok ()) (fun _ _ h' => Has h' p (overwrite b lo bs) sp ∧ h'.length = h.length) := by
  have hl := x.lt
  obtain ⟨pre, post, g1, g2, g3, g4⟩ := x
  refine ⟨⟨by simp [store], fun i hi hn => ?_⟩, ⟨pre, post, ?_, g2, ?_, ?_⟩, by simp [store]⟩
  · show (h.set _ _)[i]? = _
    rw [List.getElem?_set_ne (by rw [h1]; exact fun e => hn e.symm)]
  · show (h.set _ _)[p.arr]? = _
    rw [h1, List.getElem?_set_self hl, g1, Option.getD_some, h2, g2]
    congr 1
    unfold overwrite
    rw [show pre.length + lo = pre.length + lo from rfl, List.take_append, List.take_of_length_le (Nat.le_add_right _ _),
      Nat.add_sub_cancel_left, List.take_append_of_le_length (by omega), Nat.add_assoc, ← List.drop_drop, List.drop_left,
      List.drop_append_of_le_length h3]
    simp only [List.append_assoc]
  · rw [g3, length_overwrite h3]
  · rw [g4, length_overwrite h3]

theorem gives_copy {h : Heap} {p d s : Slice} {b sp c sc : Bytes} (x : Has h p b sp) (y : Has h s c sc) {lo : ℕ} (h1 : d.arr = p.arr)
    (h2 : d.off = p.off + lo) (h3 : lo + d.len ≤ b.length) :
    Gives (· = p.arr) h (copy d s h) (.ok ()) (fun _ _ h' => Has h' p (overwrite b lo (c.take d.len)) sp ∧ h'.length = h.length) := by
  unfold copy
  refine Gives.step (W := (· = p.arr)) (gives_read (W := (· = p.arr)) y) (fun _ _ h => h) ?_
  rintro a h' _ ⟨rfl, rfl⟩
  exact gives_store x h1 h2 (by rw [List.length_take]; omega)

theorem copyAt_eq {b src : Bytes} {off : ℕ} (h : off + src.length ≤ b.length) : copyAt b off src = overwrite b off src := by
  unfold copyAt overwrite
  rw [List.take_of_length_le (l := src) (by omega)]

theorem overwrite_all {b src : Bytes} (h : src.length = b.length) : overwrite b 0 src = src := by
  unfold overwrite
  rw [List.take_zero, List.nil_append, List.drop_of_length_le (by omega), List.append_nil]

theorem gives_index {W : ℕ → Prop} {h : Heap} {s : Slice} {b sp : Bytes} (x : Has h s b sp) {i : ℕ} (hi : i < b.length) :
    Gives W h (index s i h) (.ok b[i]) (fun b' a h' => a = b' ∧ h' = h) := by
  unfold index
  rw [x.get, List.getElem?_eq_getElem hi]
  exact ⟨Frame.refl _ _, rfl, rfl⟩

/-- The states after a pass, or the results, are related. -/
def Pass {σ τ : Type} (I : τ → σ → Heap → Prop) (R : β → α → Heap → Prop) : τ ⊕ β → σ ⊕ α → Heap → Prop
  | .inl t, .inl s, h => I t s h
  | .inr b, .inr a, h => R b a h
  | _, _, _ => False

/-- A loop runs like the loop on values when every pass does. -/
theorem gives_forLoop {σ τ : Type} {W : ℕ → Prop} {body : σ → HM (σ ⊕ α)} {vbody : τ → Res (τ ⊕ β)} {R : β → α → Heap → Prop}
    (I : τ → σ → Heap → Prop)
    (hb : ∀ t s h, I t s h → Gives W h (body s h) (vbody t) (Pass I R)) (fuel : ℕ) :
    ∀ t s h, I t s h → Gives W h (forLoop body fuel s h) (Sm2.forLoop vbody fuel t) R := by
  induction fuel with
  | zero => intro t s h _; exact gives_fail trivial
  | succ fuel ih =>
    intro t s h hI
    unfold forLoop Sm2.forLoop
    refine Gives.bind (hb t s h hI) (fun _ _ h => h) ?_
    intro x y h' _ _ hR
    rcases x with t' | b <;> rcases y with s' | a
    · exact ih t' s' h' hR
    · exact hR.elim
    · exact hR.elim
    · exact gives_pure hR

/-- A slice in memory that was not there in `h`. -/
def New (h : Heap) (b : Bytes) (s : Slice) (h' : Heap) : Prop := (∃ sp, Has h' s b sp) ∧ h.length ≤ s.arr

theorem gives_append {g : ℕ → ℕ} {h : Heap} {s t : Slice} {b c sc : Bytes} (x : Has h s b []) (y : Has h t c sc) :
    Gives (· = s.arr) h (append g s t h) (.ok (b ++ c)) (fun b' r h' => (∃ sp, Has h' r b' sp) ∧ (r.arr = s.arr ∨ r.arr = h.length)) := by
  have e1 := x.len
  have e2 := x.cap
  have e3 := x.get
  have e4 := y.get
  unfold append goAppend
  rw [List.length_nil] at e2
  by_cases hc : s.len + (t.get h).length ≤ s.cap
  · rw [if_pos hc]
    have : c = [] := List.eq_nil_of_length_eq_zero (by rw [e4] at hc; omega)
    subst this
    have := (gives_store x (d := ⟨s.arr, s.off + b.length, 0, 0⟩) (lo := b.length) (bs := []) rfl rfl (Nat.le_refl _))
    obtain ⟨h1, h2, h3⟩ := this
    rw [show store ⟨s.arr, s.off + b.length, 0, 0⟩ [] h =
      (.ok (), h.set s.arr (overwrite ((h[s.arr]?).getD []) (s.off + b.length) [])) from rfl] at h1 h2
    dsimp only
    rw [e4, e1]
    refine ⟨h1, ⟨[], ?_⟩, Or.inl rfl⟩
    have e5 : overwrite b b.length [] = b ++ [] := by simp [overwrite]
    rw [e5] at h2
    obtain ⟨pre, post, g1, g2, g3, g4⟩ := h2
    exact ⟨pre, post, g1, g2, by rw [List.append_nil]; rfl, by rw [g4]⟩
  · rw [if_neg hc]
    dsimp only
    rw [e3, e4, e1]
    refine ⟨⟨by simp, fun i hi _ => List.getElem?_append_left hi⟩, ⟨List.replicate (g (b.length + t.len)) 0, [], [], ?_, rfl, ?_, ?_⟩, Or.inr rfl⟩
    · simp
    · simp
    · simp

theorem gives_hash {g : ℕ → ℕ} {h : Heap} (cs : List Slice) (bs : List Bytes) (hc : cs.map (Slice.get h) = bs) :
    Gives (fun _ => False) h (hash g cs h) (hashOf bs) (fun b s h' => New h b s h') := by
  unfold hash
  refine Gives.step (V := fun _ => False) (b := bs) (R := fun b a h' => a = b ∧ h' = h) ⟨Frame.refl _ _, hc, rfl⟩ (fun _ _ h => h) ?_
  intro a h' _ hR
  obtain ⟨e1, e2⟩ := hR
  subst e1 e2
  refine Gives.last (gives_lift (W := fun _ => False)) (fun _ _ h => h) ?_
  intro b' a' h'' _ _ hR
  obtain ⟨e1, e2⟩ := hR
  subst e1 e2
  exact (gives_fresh _ _).mono (fun _ _ h => h) (fun _ _ _ _ _ hR => ⟨⟨_, hR.1⟩, Nat.le_of_eq hR.2.symm⟩)

theorem gives_bigInt {g : ℕ → ℕ} {h : Heap} (x : Int) : Gives (fun _ => False) h (bigIntTo32Bytes g x h) (Sm2.bigIntTo32Bytes x)
    (fun b s h' => New h b s h') := by
  unfold bigIntTo32Bytes Sm2.bigIntTo32Bytes
  dsimp only
  refine Gives.new ?_ _
  refine Gives.step (gives_fresh _ _) (fun _ _ h => h.elim) ?_
  intro s h1 f1 ⟨x1, x2⟩
  rw [x1.len]
  by_cases hk : (intBytes x).length = keyBytes
  · rw [if_pos hk, if_pos hk]
    exact gives_pure ⟨⟨_, x1⟩, Nat.le_of_eq x2.symm⟩
  rw [if_neg hk, if_neg hk]
  by_cases hk2 : keyBytes < (intBytes x).length
  · rw [if_pos hk2]
    have : make ((keyBytes : Int) - ((intBytes x).length : ℕ)) = lift .panic := by unfold make; rw [if_pos (by omega)]
    rw [this]
    exact ⟨Frame.refl _ _, trivial⟩
  · rw [if_neg hk2]
    have hm := gives_make (h := h1) ((keyBytes : Int) - ((intBytes x).length : ℕ))
    have e : makeBytes ((keyBytes : Int) - ((intBytes x).length : ℕ)) = .ok (List.replicate (keyBytes - (intBytes x).length) 0) := by
      unfold makeBytes
      rw [if_neg (by omega)]
      congr 2; omega
    rw [e] at hm
    refine Gives.step hm (fun _ _ h => h.elim) ?_
    intro z h2 f2 ⟨z1, z2⟩
    have := gives_append (g := g) z1 (x1.frame f2 id)
    have hlen := f1.1
    have hlen2 := f2.1
    have hlt := x1.lt
    refine this.mono (fun i _ e => by omega) (fun b a h' _ _ hR => ⟨hR.1, ?_⟩)
    rcases hR.2 with h | h <;> omega

theorem overwrite_twice {a x y : Bytes} {i : ℕ} (h : i + x.length + y.length ≤ a.length) :
    overwrite (overwrite a i x) (i + x.length) y = overwrite a i (x ++ y) := by
  unfold overwrite
  have h1 : (a.take i ++ x).length = i + x.length := by rw [List.length_append, List.length_take]; omega
  rw [← h1, List.take_left, ← List.drop_drop, List.drop_left, List.drop_drop, List.length_append]
  simp only [List.append_assoc, Nat.add_assoc, List.length_append, List.length_take]
  congr 5
  omega

theorem overwrite_none (a : Bytes) (i : ℕ) : overwrite a i [] = a := by
  simp [overwrite]

theorem drop_overwrite {a x : Bytes} {i : ℕ} (h : i + x.length ≤ a.length) : (overwrite a i x).drop (i + x.length) = a.drop (i + x.length) := by
  unfold overwrite
  have h1 : (a.take i ++ x).length = i + x.length := by rw [List.length_append, List.length_take]; omega
  rw [← h1, List.drop_left]

theorem gives_xor {p k : Slice} {c sc : Bytes} {off : ℕ} (hne : k.arr ≠ p.arr) (m : ℕ) :
    ∀ (i : ℕ) (h : Heap) (b sp : Bytes), Has h p b sp → Has h k c sc → i + m ≤ c.length → off + i + m ≤ b.length →
      Gives (· = p.arr) h (xor ⟨p.arr, p.off + off, b.length - off, p.cap - off⟩ k i m h) (.ok ()) (fun _ _ h' =>
        Has h' p (overwrite b (off + i) (List.zipWith (· ^^^ ·) ((b.drop (off + i)).take m) (c.drop i))) sp) := by
  induction m with
  | zero =>
    intro i h b sp x y _ _
    refine gives_pure ?_
    rw [List.take_zero, List.zipWith_nil_left, overwrite_none]
    exact x
  | succ m ih =>
    intro i h b sp x y h1 h2
    have hc := x.cap
    have hsub := x.sub (lo := off) (hi := b.length) (by omega) (by omega)
    have hcont : ((b ++ sp).drop off).take (b.length - off) = b.drop off := by
      rw [List.drop_append_of_le_length (by omega), List.take_append_of_le_length (by rw [List.length_drop]),
        List.take_of_length_le (by rw [List.length_drop])]
    rw [hcont] at hsub
    unfold xor
    refine Gives.step (gives_index (W := (· = p.arr)) hsub (i := i) (by rw [List.length_drop]; omega)) (fun _ _ h => h) ?_
    intro a h' _ hR
    obtain ⟨e1, e2⟩ := hR
    subst e1 e2
    refine Gives.step (gives_index (W := (· = p.arr)) y (i := i) (by omega)) (fun _ _ h => h) ?_
    intro a h' _ hR
    obtain ⟨e1, e2⟩ := hR
    subst e1 e2
    unfold setIndex
    rw [if_pos (by dsimp only; omega)]
    refine Gives.step (gives_store x (d := ⟨p.arr, p.off + off + i, 1, p.cap - off - i⟩) (lo := off + i) rfl (by simp only [Nat.add_assoc])
      (by rw [List.length_singleton]; omega)) (fun _ _ h => h) ?_
    intro _ h' f ⟨x', hl⟩
    have hlen : (overwrite b (off + i) [(b.drop off)[i]'(by rw [List.length_drop]; omega) ^^^ c[i]]).length = b.length :=
      length_overwrite (by rw [List.length_singleton]; omega)
    have := ih (i + 1) h' _ sp x' (y.frame f (fun e => hne e)) (by omega) (by rw [hlen]; omega)
    rw [hlen] at this
    refine this.mono (fun _ _ h => h) (fun _ _ h'' _ _ hR => ?_)
    have e1 : off + (i + 1) = off + i + [(b.drop off)[i]'(by rw [List.length_drop]; omega) ^^^ c[i]].length := rfl
    rw [e1, drop_overwrite (by rw [List.length_singleton]; omega), overwrite_twice (by
      simp only [List.length_zipWith, List.length_take, List.length_drop, List.length_singleton]; omega)] at hR
    rw [List.drop_eq_getElem_cons (i := off + i) (by omega), List.take_succ_cons, List.drop_eq_getElem_cons (i := i) (l := c) (by omega),
      List.zipWith_cons_cons]
    rw [List.getElem_drop] at hR
    exact hR

/-! ## The key derivation -/

theorem gives_put {h : Heap} {buf : Slice} {bb sp : Bytes} (x : Has h buf bb sp) (hl : 4 ≤ bb.length) (v : BitVec 32) :
    Gives (· = buf.arr) h (putUint32 buf v h) (.ok ()) (fun _ _ h' => Has h' buf (overwrite bb 0 (put32 v)) sp ∧ h'.length = h.length) := by
  unfold putUint32
  rw [if_pos (by rw [x.len]; omega)]
  exact gives_store x rfl rfl (by rw [length_put32]; omega)

/-- Slicing inside the length. -/
theorem gives_sub_in {W : ℕ → Prop} {h : Heap} {s : Slice} {b sp : Bytes} (x : Has h s b sp) {lo hi : ℕ} (h1 : lo ≤ hi) (h2 : hi ≤ b.length) :
    Gives W h (sub s lo hi h) (.ok ((b.drop lo).take (hi - lo))) (fun b' s' h' => h' = h ∧
      s' = ⟨s.arr, s.off + lo, hi - lo, s.cap - lo⟩ ∧ ∃ sp', Has h s' b' sp') := by
  have hc := x.cap
  have := gives_sub (W := W) x (lo : Int) (hi : Int)
  unfold sliceCap at this
  rw [if_pos (by omega)] at this
  have e : (((b ++ sp).drop (lo : Int).toNat).take ((hi : Int) - lo).toNat) = (b.drop lo).take (hi - lo) := by
    rw [Int.toNat_natCast, show ((hi : Int) - lo).toNat = hi - lo by omega, List.drop_append_of_le_length (by omega),
      List.take_append_of_le_length (by rw [List.length_drop]; omega)]
  rw [e] at this
  refine this.mono (fun _ _ h => h) (fun b' s' h' _ _ hR => ⟨hR.1, ?_, hR.2.2.2.2.2⟩)
  rw [hR.2.2.2.2.1, Int.toNat_natCast, show ((hi : Int) - lo).toNat = hi - lo by omega]

theorem gives_kdfBody {g : ℕ → ℕ} {n L : ℕ} {buf xs ys enc : Slice} {xb yb sp : Bytes} (h1 : buf.arr ≠ enc.arr) (h2 : xs.arr ≠ enc.arr)
    (h3 : ys.arr ≠ enc.arr) (h4 : xs.arr ≠ buf.arr) (h5 : ys.arr ≠ buf.arr) (hn : n ≤ buf.arr)
    (t : Bytes × ℕ × BitVec 32) (s : ℕ × BitVec 32) (h : Heap)
    (hI : s = (t.2.1, t.2.2) ∧ Has h enc t.1 sp ∧ t.1.length = L ∧ (∃ bb, Has h buf bb [] ∧ bb.length = 32) ∧ (∃ sx, Has h xs xb sx) ∧
      ∃ sy, Has h ys yb sy) :
    Gives (fun i => i = enc.arr ∨ n ≤ i) h (kdfBody g buf xs ys enc 32 s h) (do
      let (data, off, ct) := t
      if off < L then
        let ct := ct + 1
        let tmp ← hashOf [xb, yb, put32 ct]
        let buf := tmp.take 32
        let xorLen := L - off
        let xorLen := if xorLen > Sm3.size then Sm3.size else xorLen
        let d ← Sm2.xor (data.drop off) buf xorLen
        .ok (.inl (data.take off ++ d, off + xorLen, ct))
      else .ok (.inr data) : Res ((Bytes × ℕ × BitVec 32) ⊕ Bytes))
      (Pass (fun t' s' h' => s' = (t'.2.1, t'.2.2) ∧ Has h' enc t'.1 sp ∧ t'.1.length = L ∧
        (∃ bb, Has h' buf bb [] ∧ bb.length = 32) ∧ (∃ sx, Has h' xs xb sx) ∧ ∃ sy, Has h' ys yb sy) (fun b (_ : Unit) h' => Has h' enc b sp)) := by
  obtain ⟨data, off, ct⟩ := t
  obtain ⟨rfl, x, hL, ⟨bb, xbuf, hbb⟩, ⟨sx, xx⟩, ⟨sy, xy⟩⟩ := hI
  dsimp only at x hL ⊢
  unfold kdfBody
  dsimp only
  rw [x.len, hL]
  by_cases ho : off < L
  swap
  · rw [if_neg ho, if_neg ho]
    exact gives_pure x
  rw [if_pos ho, if_pos ho]
  have hbuflt := xbuf.lt
  -- PutUint32
  refine Gives.step (gives_put xbuf (by omega) (ct + 1)) (fun i _ e => Or.inr (by omega)) ?_
  intro _ m1 f1 ⟨xbuf1, _⟩
  have hl1 : (overwrite bb 0 (put32 (ct + 1))).length = 32 := by rw [length_overwrite (by rw [length_put32]; omega), hbb]
  have x1 := x.frame f1 (fun e => h1 e.symm)
  have xx1 := xx.frame f1 h4
  have xy1 := xy.frame f1 h5
  -- buf[:4]
  refine Gives.step (gives_sub_in (W := fun _ => False) xbuf1 (lo := 0) (hi := 4) (by omega) (by omega)) (fun _ _ h => h.elim) ?_
  intro b4 m2 _ ⟨e, _, sp4, x4⟩
  subst e
  have e4 : ((overwrite bb 0 (put32 (ct + 1))).drop 0).take (4 - 0) = put32 (ct + 1) := by
    have := drop_overwrite_take (a := bb) (i := 0) (bs := put32 (ct + 1)) (by rw [length_put32]; omega)
    rwa [length_put32] at this
  rw [e4] at x4
  -- the hash
  refine Gives.bind (gives_hash [xs, ys, b4] [xb, yb, put32 (ct + 1)] (by
    simp only [List.map_cons, List.map_nil, xx1.get, xy1.get, x4.get])) (fun _ _ h => h.elim) ?_
  intro tmpb tmp m3 hh f3 ⟨⟨spt, xt⟩, ht⟩
  have hlt := hashOf_length hh
  have x3 := x1.frame f3 id
  have xbuf3 := xbuf1.frame f3 id
  have xx3 := xx1.frame f3 id
  have xy3 := xy1.frame f3 id
  -- copy(buf[:bufSize], tmp[:bufSize])
  refine Gives.step (gives_sub_in (W := fun _ => False) xbuf3 (lo := 0) (hi := 32) (by omega) (by omega)) (fun _ _ h => h.elim) ?_
  intro d m4 _ ⟨e, ed, _⟩
  subst e
  refine Gives.step (gives_sub_in (W := fun _ => False) xt (lo := 0) (hi := 32) (by omega) (by omega)) (fun _ _ h => h.elim) ?_
  intro t m5 _ ⟨e, _, sp5, xt5⟩
  subst e
  refine Gives.step (gives_copy xbuf3 xt5 (d := d) (lo := 0) (by rw [ed]) (by rw [ed]) (by rw [ed]; dsimp only; omega))
    (fun i _ e => Or.inr (by omega)) ?_
  intro _ m6 f6 ⟨xbuf6, _⟩
  have e6 : overwrite (overwrite bb 0 (put32 (ct + 1))) 0 (((tmpb.drop 0).take (32 - 0)).take d.len) = tmpb := by
    rw [ed]
    dsimp only
    rw [List.drop_zero, List.take_of_length_le (by rw [List.length_take]; omega), List.take_of_length_le (by omega)]
    exact overwrite_all (by omega)
  rw [e6] at xbuf6
  have x6 := x3.frame f6 (fun e => h1 e.symm)
  have xx6 := xx3.frame f6 h4
  have xy6 := xy3.frame f6 h5
  -- encData[off:]
  refine Gives.step (gives_sub_in (W := fun _ => False) x6 (lo := off) (hi := L) (by omega) (by omega)) (fun _ _ h => h.elim) ?_
  intro e m7 _ ⟨e7, ee, _⟩
  subst e7
  generalize hm : (if L - off > Sm3.size then Sm3.size else L - off) = m
  have s32 : Sm3.size = 32 := rfl
  have hm1 : m ≤ 32 ∧ m ≤ L - off := by rw [← hm]; split <;> omega
  have hx := gives_xor (off := off) h1 m 0 _ data sp x6 xbuf6 (by omega) (by omega)
  rw [show (⟨enc.arr, enc.off + off, data.length - off, enc.cap - off⟩ : Slice) = e by rw [ee, hL]] at hx
  have hxor : Sm2.xor (data.drop off) (tmpb.take 32) m = .ok (List.zipWith (· ^^^ ·) ((data.drop off).take m) tmpb ++ (data.drop off).drop m) := by
    unfold Sm2.xor
    rw [if_pos (by rw [List.length_drop, List.length_take]; omega), List.take_of_length_le (l := tmpb) (by omega)]
  rw [hxor, Res.ok_bind]
  refine Gives.step hx (fun i _ e => Or.inl e) ?_
  intro _ m8 f8 x8
  have e8 : overwrite data (off + 0) (List.zipWith (· ^^^ ·) ((data.drop (off + 0)).take m) (tmpb.drop 0)) =
      data.take off ++ (List.zipWith (· ^^^ ·) ((data.drop off).take m) tmpb ++ (data.drop off).drop m) := by
    unfold overwrite
    rw [Nat.add_zero, List.drop_zero, List.length_zipWith, List.length_take, List.length_drop, List.drop_drop, List.append_assoc,
      Nat.min_eq_left (a := m) (by omega), Nat.min_eq_left (by omega)]
  rw [e8] at x8
  refine gives_pure ⟨rfl, x8, ?_, ⟨tmpb, xbuf6.frame f8 h1, hlt⟩, ⟨_, xx6.frame f8 h2⟩, ⟨_, xy6.frame f8 h3⟩⟩
  dsimp only
  rw [List.length_append, List.length_append, List.length_zipWith, List.length_take, List.length_take, List.length_drop, List.length_drop,
    List.length_drop]
  omega

theorem gives_kdf {g : ℕ → ℕ} {h : Heap} {enc : Slice} {b sp : Bytes} (x y : Int) (hb : Has h enc b sp) :
    Gives (· = enc.arr) h (kdf g x y enc h) (Sm2.kdf x y b) (fun b' _ h' => Has h' enc b' sp) := by
  refine Gives.mono (W := fun i => i = enc.arr ∨ h.length ≤ i) ?_ (fun i hi e => e.resolve_right (by omega)) (fun _ _ _ _ _ hr => hr)
  unfold kdf Sm2.kdf
  dsimp only
  have s32 : Sm3.size = 32 := rfl
  rw [if_pos (by rw [s32]; omega)]
  have hlt := hb.lt
  have hmk := gives_make (h := h) ((Sm3.size : ℕ) : Int)
  have hm : makeBytes ((Sm3.size : ℕ) : Int) = .ok (List.replicate 32 0) := rfl
  rw [hm] at hmk
  refine Gives.step hmk (fun _ _ h => h.elim) ?_
  intro buf m1 f1 ⟨xb1, eb⟩
  have b1 := hb.frame f1 id
  refine Gives.bind (gives_bigInt x) (fun _ _ h => h.elim) ?_
  intro xb xs m2 _ f2 ⟨⟨sx, xx⟩, ex⟩
  have b2 := b1.frame f2 id
  have xb2 := xb1.frame f2 id
  refine Gives.bind (gives_bigInt y) (fun _ _ h => h.elim) ?_
  intro yb ys m3 _ f3 ⟨⟨sy, xy⟩, ey⟩
  have l1 := f1.1
  have l2 := f2.1
  have l3 := xx.lt
  have l4 := xb1.lt
  rw [b1.len]
  refine gives_forLoop (I := fun t s h => s = (t.2.1, t.2.2) ∧ Has h enc t.1 sp ∧ t.1.length = b.length ∧
      (∃ bb, Has h buf bb [] ∧ bb.length = 32) ∧ (∃ sx, Has h xs xb sx) ∧ ∃ sy, Has h ys yb sy) ?_ _ _ _ _
    ⟨rfl, b2.frame f3 id, rfl, ⟨_, xb2.frame f3 id, by rw [List.length_replicate]⟩, ⟨_, xx.frame f3 id⟩, ⟨_, xy⟩⟩
  rintro ⟨data, off, ct⟩ s h' hI
  exact gives_kdfBody (g := g) (n := h.length) (L := b.length) (by omega) (by omega) (by omega) (by omega) (by omega) (by omega) (data, off, ct) s h' hI

/-! ## `Encrypt` -/

theorem gives_notEncrypted {W : ℕ → Prop} {h : Heap} {e i : Slice} {b c sb sc : Bytes} (x : Has h e b sb) (y : Has h i c sc)
    (hl : b.length = c.length) (m : ℕ) : ∀ k, k + m = b.length →
      Gives W h (notEncrypted e i k m h) (.ok (decide (b.drop k = c.drop k))) (fun r a h' => a = r ∧ h' = h) := by
  induction m with
  | zero =>
    intro k hk
    refine gives_pure ⟨?_, rfl⟩
    rw [List.drop_of_length_le (by omega), List.drop_of_length_le (by omega)]
    rfl
  | succ m ih =>
    intro k hk
    unfold notEncrypted
    refine Gives.step (gives_index (W := W) x (i := k) (by omega)) (fun _ _ h => h) ?_
    intro a h' _ hR
    obtain ⟨e1, e2⟩ := hR
    subst e1 e2
    refine Gives.step (gives_index (W := W) y (i := k) (by omega)) (fun _ _ h => h) ?_
    intro a h' _ hR
    obtain ⟨e1, e2⟩ := hR
    subst e1 e2
    have e1 := List.drop_eq_getElem_cons (i := k) (l := b) (by omega)
    have e2 := List.drop_eq_getElem_cons (i := k) (l := c) (by omega)
    by_cases hn : b[k]'(by omega) = c[k]'(by omega)
    · rw [if_neg (not_not.2 hn)]
      have := ih (k + 1) (by omega)
      refine (show decide (b.drop k = c.drop k) = decide (b.drop (k + 1) = c.drop (k + 1)) from ?_) ▸ this
      rw [e1, e2, hn, decide_eq_decide, List.cons.injEq]
      exact ⟨fun h => h.2, fun h => ⟨rfl, h⟩⟩
    · rw [if_pos hn]
      refine gives_pure ⟨?_, rfl⟩
      rw [e1, e2, eq_comm, decide_eq_false_iff_not, List.cons.injEq]
      exact fun h => hn h.1

theorem gives_encryptBody {g : ℕ → ℕ} {n : ℕ} (pub : PublicKey) {inp c2 : Slice} {b sb : Bytes} (h1 : inp.arr < n) (h2 : n ≤ c2.arr)
    (hl : c2.len = b.length) (t : Tape × Bytes) (s : Tape) (h : Heap) (hh : n ≤ h.length)
    (hI : s = t.1 ∧ Has h c2 t.2 [] ∧ Has h inp b sb) :
    Gives (n ≤ ·) h (encryptBody g pub inp c2 s h) (do
      let r ← nextK t.1 cv.N
      let kBytes := intBytes r.1
      let c1p ← scalarBaseMult cv kBytes
      let c1 ← marshal cv c1p
      let kPB ← scalarMult cv (pub.X, pub.Y) kBytes
      let c2 ← Sm2.kdf kPB.1 kPB.2 t.2
      if !Sm2.notEncrypted c2 b then .ok (.inr (c1, c2, kPB)) else .ok (.inl (r.2, c2)) : Res ((Tape × Bytes) ⊕ (Bytes × Bytes × (Int × Int))))
      (Pass (fun t s h => s = t.1 ∧ Has h c2 t.2 [] ∧ Has h inp b sb) (fun v a h' => a.2 = v.2.2 ∧ (∃ sp, Has h' a.1 v.1 sp) ∧ n ≤ a.1.arr ∧
        Has h' c2 v.2.1 [] ∧ Has h' inp b sb)) := by
  obtain ⟨tape, data⟩ := t
  obtain ⟨rfl, x, y⟩ := hI
  dsimp only at x ⊢
  unfold encryptBody
  refine Gives.bind (gives_lift (W := (n ≤ ·))) (fun _ _ h => h) ?_
  intro r a m1 _ _ hR
  obtain ⟨e1, e2⟩ := hR
  subst e1 e2
  refine Gives.step (gives_fresh _ _) (fun _ _ h => h.elim) ?_
  intro kb m2 f2 ⟨xk, ek⟩
  have x2 := x.frame f2 id
  have y2 := y.frame f2 id
  refine Gives.step (gives_read (W := (n ≤ ·)) xk) (fun _ _ h => h) ?_
  intro kbs m3 _ hR
  obtain ⟨e1, e2⟩ := hR
  subst e1 e2
  refine Gives.bind (gives_lift (W := (n ≤ ·))) (fun _ _ h => h) ?_
  intro c1p p' m4 _ _ hR
  obtain ⟨e1, e2⟩ := hR
  subst e1 e2
  refine Gives.bind (gives_lift (W := (n ≤ ·))) (fun _ _ h => h) ?_
  intro c1b p' m5 _ _ hR
  obtain ⟨e1, e2⟩ := hR
  subst e1 e2
  refine Gives.step (gives_fresh _ _) (fun _ _ h => h.elim) ?_
  intro c1 m6 f6 ⟨xc1, ec1⟩
  have x6 := x2.frame f6 id
  have y6 := y2.frame f6 id
  refine Gives.step (gives_read (W := (n ≤ ·)) (xk.frame f6 id)) (fun _ _ h => h) ?_
  intro kbs m7 _ hR
  obtain ⟨e1, e2⟩ := hR
  subst e1 e2
  refine Gives.bind (gives_lift (W := (n ≤ ·))) (fun _ _ h => h) ?_
  intro kPB p' m8 _ _ hR
  obtain ⟨e1, e2⟩ := hR
  subst e1 e2
  refine Gives.bind (gives_kdf _ _ x6) (fun i _ e => by omega) ?_
  intro d2 _ m9 _ f9 x9
  have l2 := f2.1
  have l6 := f6.1
  have lx := x2.lt
  have y9 := y6.frame f9 (fun e => by omega)
  have xc9 := xc1.frame f9 (fun e => by omega)
  have hd : d2.length = b.length := by rw [← x9.len, hl]
  rw [hl]
  refine Gives.step (gives_notEncrypted (W := (n ≤ ·)) x9 y9 hd b.length 0 (by omega)) (fun _ _ h => h) ?_
  intro ne m10 _ hR
  obtain ⟨e1, e2⟩ := hR
  subst e1 e2
  rw [List.drop_zero, List.drop_zero]
  unfold Sm2.notEncrypted
  split
  · exact gives_pure ⟨rfl, ⟨_, xc9⟩, by dsimp only; omega, x9, y9⟩
  · exact gives_pure ⟨rfl, x9, y9⟩

/-- `copy(p[lo:hi], s)`. -/
theorem gives_part {W : ℕ → Prop} {h : Heap} {p s : Slice} {b sp c sc : Bytes} {lo hi : ℕ} (x : Has h p b sp) (y : Has h s c sc)
    (h1 : lo + c.length = hi) (h2 : hi ≤ b.length) (hW : W p.arr) {f : HM γ} {r : Res δ} {S : δ → γ → Heap → Prop}
    (hf : ∀ h', Frame (· = p.arr) h h' → Has h' p (overwrite b lo c) sp → Gives W h' (f h') r S) :
    Gives W h ((sub p lo hi >>= fun d => copy d s >>= fun _ => f) h) r S := by
  refine Gives.step (gives_sub_in (W := fun _ => False) x (lo := lo) (hi := hi) (by omega) h2) (fun _ _ h => h.elim) ?_
  intro d m _ ⟨e, ed, _⟩
  subst e
  refine Gives.step (gives_copy x y (d := d) (lo := lo) (by rw [ed]) (by rw [ed]) (by rw [ed]; dsimp only; omega)) (fun i _ e => e ▸ hW) ?_
  intro _ m' f' ⟨x', _⟩
  rw [List.take_of_length_le (by rw [ed]; dsimp only; omega)] at x'
  exact hf m' f' x'

theorem makeBytes_nat (n : ℕ) : makeBytes (n : Int) = .ok (List.replicate n 0) := by
  unfold makeBytes
  rw [if_neg (by omega), Int.toNat_natCast]

theorem gives_make_nat {h : Heap} (n : ℕ) : Gives (fun _ => False) h (make (n : Int) h) (.ok (List.replicate n 0))
    (fun b s h' => Has h' s b [] ∧ s.arr = h.length) := makeBytes_nat n ▸ gives_make (n : Int)

theorem overwrite_three (a b c : Bytes) (n : ℕ) (h : n = a.length + b.length + c.length) :
    overwrite (overwrite (overwrite (List.replicate n (0 : Byte)) 0 a) a.length b) (a.length + b.length) c = a ++ b ++ c := by
  subst h
  have e1 : overwrite (List.replicate (a.length + b.length + c.length) (0 : Byte)) 0 a = a ++ List.replicate (b.length + c.length) 0 := by
    rw [overwrite, List.take_zero, List.nil_append, List.drop_replicate]; congr 2; omega
  have e2 : overwrite (a ++ List.replicate (b.length + c.length) (0 : Byte)) a.length b = (a ++ b) ++ List.replicate c.length 0 := by
    rw [overwrite, List.take_left, ← List.drop_drop, List.drop_left, List.drop_replicate, List.append_assoc, List.append_assoc]; congr 3; omega
  rw [e1, e2, ← List.length_append, overwrite, List.take_left, ← List.drop_drop, List.drop_left, List.drop_replicate, Nat.sub_self,
    List.replicate_zero, List.append_nil]

theorem copyAt_three (a b c : Bytes) (n : ℕ) (h : n = a.length + b.length + c.length) :
    copyAt (copyAt (copyAt (List.replicate n (0 : Byte)) 0 a) a.length b) (a.length + b.length) c = a ++ b ++ c := by
  have l1 : (overwrite (List.replicate n (0 : Byte)) 0 a).length = n := by
    rw [length_overwrite (by rw [List.length_replicate]; omega), List.length_replicate]
  have l2 : (overwrite (overwrite (List.replicate n (0 : Byte)) 0 a) a.length b).length = n := by
    rw [length_overwrite (by omega), l1]
  rw [copyAt_eq (src := a) (by rw [List.length_replicate]; omega), copyAt_eq (src := b) (by omega), copyAt_eq (src := c) (by omega),
    overwrite_three a b c n h]

/-- Three copies that fill a new array. -/
theorem gives_three {W : ℕ → Prop} {h : Heap} {p s1 s2 s3 : Slice} {a b c sa sb sc : Bytes} {n hi1 hi2 hi3 : ℕ}
    (x : Has h p (List.replicate n 0) []) (y1 : Has h s1 a sa) (y2 : Has h s2 b sb) (y3 : Has h s3 c sc)
    (d2 : s2.arr ≠ p.arr) (d3 : s3.arr ≠ p.arr) (hn : n = a.length + b.length + c.length) (e1 : hi1 = a.length) (e2 : hi2 = a.length + b.length)
    (e3 : hi3 = n) (hW : W p.arr) {f : HM γ} {r : Res δ} {S : δ → γ → Heap → Prop}
    (hf : ∀ h', Frame (· = p.arr) h h' → Has h' p (a ++ b ++ c) [] → Gives W h' (f h') r S) :
    Gives W h ((sub p (0 : ℕ) hi1 >>= fun d => copy d s1 >>= fun _ => sub p hi1 hi2 >>= fun d => copy d s2 >>= fun _ =>
      sub p hi2 hi3 >>= fun d => copy d s3 >>= fun _ => f) h) r S := by
  rw [e1, e2, e3]
  have l1 : (overwrite (List.replicate n (0 : Byte)) 0 a).length = n := by
    rw [length_overwrite (by rw [List.length_replicate]; omega), List.length_replicate]
  have l2 : (overwrite (overwrite (List.replicate n (0 : Byte)) 0 a) a.length b).length = n := by
    rw [length_overwrite (by omega), l1]
  refine gives_part x y1 (by omega) (by rw [List.length_replicate]; omega) hW ?_
  intro m8 f8 xr
  refine gives_part xr (y2.frame f8 d2) rfl (by omega) hW ?_
  intro m9 f9 xr
  refine gives_part xr ((y3.frame f8 d3).frame f9 d3) (by omega) (by omega) hW ?_
  intro m10 f10 xr
  rw [overwrite_three a b c n hn] at xr
  exact hf m10 ((f8.trans f9).trans f10) xr

theorem gives_encrypt {g : ℕ → ℕ} {h : Heap} (pub : PublicKey) {inp : Slice} {b sb : Bytes} (x : Has h inp b sb) (t : Int) (tape : Tape) :
    Gives (fun _ => False) h (encrypt g pub inp t tape h) (Sm2.encrypt pub b t tape) (fun b s h' => New h b s h') := by
  refine Gives.new ?_ _
  unfold encrypt Sm2.encrypt
  have hlt := x.lt
  rw [x.len]
  refine Gives.step (gives_make_nat _) (fun _ _ h => h.elim) ?_
  intro c2 m1 f1 ⟨x2, e2⟩
  have x1 := x.frame f1 id
  have hc2 := x2.len
  rw [List.length_replicate] at hc2
  refine Gives.step (gives_copy x2 x1 (d := c2) (lo := 0) rfl rfl (by rw [List.length_replicate]; omega)) (fun i _ e => by omega) ?_
  intro _ m2 f2 ⟨x2', _⟩
  rw [List.take_of_length_le (by omega), overwrite_all (by rw [List.length_replicate])] at x2'
  have l1 := f1.1
  have l2 := f2.1
  unfold encryptLoop
  refine Gives.bind (V := (h.length ≤ ·)) (gives_forLoop (I := fun t s h' => (s = t.1 ∧ Has h' c2 t.2 [] ∧ Has h' inp b sb) ∧ h.length ≤ h'.length)
    (R := fun v a h' => (a.2 = v.2.2 ∧ (∃ sp, Has h' a.1 v.1 sp) ∧ h.length ≤ a.1.arr ∧ Has h' c2 v.2.1 [] ∧ Has h' inp b sb)) ?_ _ (tape, b) _ _
    ⟨⟨rfl, x2', x1.frame f2 (fun e => by omega)⟩, by omega⟩) (fun _ _ h => h) ?_
  · rintro ⟨tp, dt⟩ s h' ⟨hI, hl⟩
    have := gives_encryptBody (g := g) pub hlt (n := h.length) (by omega) hc2 (tp, dt) s h' hl hI
    refine this.mono (fun _ _ h => h) ?_
    intro v a h'' _ fr hP
    rcases v with v | v <;> rcases a with a | a
    · exact ⟨hP, by have := fr.1; omega⟩
    · exact hP.elim
    · exact hP.elim
    · exact hP
  rintro ⟨v1, v2, kPB⟩ ⟨c1, kPB'⟩ m3 _ f3 ⟨e, ⟨sp1, y1⟩, hn1, y2, yi⟩
  dsimp only at e y1 hn1 y2
  subst e
  dsimp only
  have l3 := f3.1
  refine Gives.bind (gives_bigInt _) (fun _ _ h => h.elim) ?_
  intro xb xs m4 _ f4 ⟨⟨sx, xx⟩, ex⟩
  have l4 := f4.1
  refine Gives.bind (gives_bigInt _) (fun _ _ h => h.elim) ?_
  intro yb ys m5 _ f5 ⟨⟨sy, xy⟩, ey⟩
  have l5 := f5.1
  refine Gives.bind (gives_hash [xs, inp, ys] [xb, b, yb] (by
    simp only [List.map_cons, List.map_nil, (xx.frame f5 id).get, xy.get, ((yi.frame f4 id).frame f5 id).get])) (fun _ _ h => h.elim) ?_
  intro v3 c3 m6 _ f6 ⟨⟨s3, y3⟩, e3⟩
  have l6 := f6.1
  rw [y1.len, y2.len, y3.len]
  refine Gives.step (gives_make_nat _) (fun _ _ h => h.elim) ?_
  intro res m7 f7 ⟨xr, er⟩
  have l7 := f7.1
  have hrl := xr.len
  rw [List.length_replicate] at hrl
  have z1 := (((y1.frame f4 id).frame f5 id).frame f6 id).frame f7 id
  have z2 := (((y2.frame f4 id).frame f5 id).frame f6 id).frame f7 id
  have z3 := y3.frame f7 id
  have lz1 := y1.lt
  have lz2 := y2.lt
  have lz3 := y3.lt
  rw [hrl]
  by_cases h1 : t = C1C2C3
  · rw [if_pos h1, if_pos h1, copyAt_three v1 v2 v3 _ rfl]
    refine gives_three xr z1 z2 z3 (by omega) (by omega) rfl rfl rfl rfl (by omega) ?_
    intro m8 f8 xr
    exact gives_pure ⟨⟨_, xr⟩, by omega⟩
  · rw [if_neg h1, if_neg h1]
    by_cases h2 : t = C1C3C2
    · rw [if_pos h2, if_pos h2, copyAt_three v1 v3 v2 _ (by omega)]
      refine gives_three xr z1 z3 z2 (by omega) (by omega) (by omega) rfl rfl rfl (by omega) ?_
      intro m8 f8 xr
      exact gives_pure ⟨⟨_, xr⟩, by omega⟩
    · rw [if_neg h2, if_neg h2]
      exact gives_fail rfl

end Verif.Sm2.Buf
