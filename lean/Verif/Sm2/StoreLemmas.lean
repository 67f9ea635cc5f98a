import Verif.EC.StoreLemmas
import Verif.Sm2.Store
/-! The programs of `Verif.Sm2.Store` run: they only append to memory, and their results are those of `Verif.Sm2.Model`. -/
namespace Verif.Sm2.Store
open Verif EC EC.Store

/-- `p` points to the number `v`. -/
def At (m : Mem) (p : Ptr) (v : Int) : Prop := p < m.length ∧ rd m p = v

theorem At.append {m : Mem} {p : Ptr} {v : Int} (h : At m p v) (L : List Int) : At (m ++ L) p v := ⟨lt_append h.1 L, by rw [rd_old h.1, h.2]⟩

/-- The curve pointers and the variable `sm2H` hold the numbers that `init` stored (/repo/sm2/sm2.go:33-93). -/
structure World (g : Globals) (m : Mem) : Prop where
  holds : Holds cv g.curve.toCurvePtrs m
  A : At m g.curve.A sm2P256V1.A
  H : At m g.H sm2H

theorem World.append {g : Globals} {m : Mem} (h : World g m) (L : List Int) : World g (m ++ L) := ⟨h.holds.append L, h.A.append L, h.H.append L⟩
theorem World.N {g : Globals} {m : Mem} (h : World g m) : At m g.curve.N cv.N := h.holds.N
theorem World.P {g : Globals} {m : Mem} (h : World g m) : At m g.curve.P cv.P := h.holds.P
theorem World.B {g : Globals} {m : Mem} (h : World g m) : At m g.curve.B cv.B := h.holds.B
theorem World.Gx {g : Globals} {m : Mem} (h : World g m) : At m g.curve.Gx cv.Gx := h.holds.Gx
theorem World.Gy {g : Globals} {m : Mem} (h : World g m) : At m g.curve.Gy cv.Gy := h.holds.Gy

/-! ## Rules -/

/-- Started in `m`, the program ends as `want` does, has only appended to memory, and in the memory it leaves its value is related to
that of `want`. -/
def Ends {α β : Type} (Q : Mem → α → β → Prop) (m : Mem) (r : Out α) : Res β → Prop
  | .ok b => ∃ a L, r = .ok (a, m ++ L) ∧ Q (m ++ L) a b
  | .err e => ∃ L, r = .err e (m ++ L)
  | .panic => ∃ L, r = .panic (m ++ L)
  | .loop => ∃ L, r = .loop (m ++ L)

section
variable {α β γ δ : Type} {Q : Mem → α → β → Prop} {Q' : Mem → γ → δ → Prop} {m : Mem}

theorem Ends.bind {x : M α} {f : α → M γ} {w : Res β} {g : β → Res δ} (hx : Ends Q m (x m) w)
    (hf : ∀ a b L, Q (m ++ L) a b → Ends Q' (m ++ L) (f a (m ++ L)) (g b)) : Ends Q' m ((x >>= f) m) (w >>= g) := by
  rw [bind_run]
  cases w with
  | ok v =>
    obtain ⟨p, L', h0, h1⟩ := hx
    rw [h0, ok_bind', Res.ok_bind]
    have := hf p v L' h1
    dsimp only
    cases hg : g v with
    | ok b =>
      rw [hg] at this
      obtain ⟨q, L2, h2, h3⟩ := this
      exact ⟨q, L' ++ L2, by rw [h2, List.append_assoc], by rw [← List.append_assoc]; exact h3⟩
    | err e => rw [hg] at this; obtain ⟨L2, h2⟩ := this; exact ⟨L' ++ L2, by rw [h2, List.append_assoc]⟩
    | panic => rw [hg] at this; obtain ⟨L2, h2⟩ := this; exact ⟨L' ++ L2, by rw [h2, List.append_assoc]⟩
    | loop => rw [hg] at this; obtain ⟨L2, h2⟩ := this; exact ⟨L' ++ L2, by rw [h2, List.append_assoc]⟩
  | err e => obtain ⟨L', h0⟩ := hx; exact ⟨L', by rw [h0]; rfl⟩
  | panic => obtain ⟨L', h0⟩ := hx; exact ⟨L', by rw [h0]; rfl⟩
  | loop => obtain ⟨L', h0⟩ := hx; exact ⟨L', by rw [h0]; rfl⟩

/-- A step that cannot fail. -/
theorem Ends.step {x : M α} {f : α → M γ} {b : β} {w : Res δ} (hx : Ends Q m (x m) (.ok b))
    (hf : ∀ a L, Q (m ++ L) a b → Ends Q' (m ++ L) (f a (m ++ L)) w) : Ends Q' m ((x >>= f) m) w := by
  have hx' : Ends (fun m a b' => Q m a b' ∧ b' = b) m (x m) (.ok b) := by
    obtain ⟨p, L', h0, h1⟩ := hx
    exact ⟨p, L', h0, h1, rfl⟩
  exact Ends.bind (w := .ok b) (g := fun _ => w) hx' (fun a b' L h => hf a L (h.2 ▸ h.1))

theorem Ends.get {p : Ptr} {v : Int} {f : Int → M γ} {w : Res δ} (hp : At m p v) (h : Ends Q' m (f v m) w) : Ends Q' m ((Store.get p >>= f) m) w := by
  rw [bind_run, get_run, hp.2]; exact h

theorem Ends.lifted {r : Res α} {f : α → M γ} {g : α → Res δ} (h : ∀ a, Ends Q' m (f a m) (g a)) :
    Ends Q' m ((Store.lift r >>= f) m) (r >>= g) := by
  rw [bind_run]
  unfold Store.lift
  cases r with
  | ok v => exact h v
  | err e => exact ⟨[], by rw [List.append_nil]; rfl⟩
  | panic => exact ⟨[], by rw [List.append_nil]; rfl⟩
  | loop => exact ⟨[], by rw [List.append_nil]; rfl⟩

theorem Ends.done {a : α} {b : β} (h : Q m a b) : Ends Q m ((pure a : M α) m) (.ok b) := ⟨a, [], by rw [pure_run, List.append_nil], by rw [List.append_nil]; exact h⟩

theorem Ends.ite {c : Prop} [Decidable c] {x y : M α} {w v : Res β} (h1 : c → Ends Q m (x m) w) (h2 : ¬c → Ends Q m (y m) v) :
    Ends Q m ((if c then x else y) m) (if c then w else v) := by
  by_cases h : c
  · rw [if_pos h, if_pos h]; exact h1 h
  · rw [if_neg h, if_neg h]; exact h2 h

theorem Ends.shorten {L : List Int} {r : Out α} {w : Res β} (h : Ends Q (m ++ L) r w) : Ends Q m r w := by
  cases w with
  | ok v =>
    obtain ⟨p, L', h0, h1⟩ := h
    exact ⟨p, L ++ L', by rw [h0, List.append_assoc], by rw [← List.append_assoc]; exact h1⟩
  | err e => obtain ⟨L', h0⟩ := h; exact ⟨L ++ L', by rw [h0, List.append_assoc]⟩
  | panic => obtain ⟨L', h0⟩ := h; exact ⟨L ++ L', by rw [h0, List.append_assoc]⟩
  | loop => obtain ⟨L', h0⟩ := h; exact ⟨L ++ L', by rw [h0, List.append_assoc]⟩

theorem Ends.mono {Q2 : Mem → α → β → Prop} {r : Out α} {w : Res β} (h : Ends Q m r w) (hq : ∀ L a b, Q (m ++ L) a b → Q2 (m ++ L) a b) :
    Ends Q2 m r w := by
  cases w with
  | ok v =>
    obtain ⟨p, L', h0, h1⟩ := h
    exact ⟨p, L', h0, hq _ _ _ h1⟩
  | err e => exact h
  | panic => exact h
  | loop => exact h
end

/-- The same value, not a pointer. -/
def Same {α : Type} (_ : Mem) (a b : α) : Prop := a = b

theorem Ends.same {α : Type} {m : Mem} {r : Res α} : Ends Same m (lift r m) r := by
  rw [lift_run]
  cases r with
  | ok v => exact ⟨v, [], by rw [List.append_nil], rfl⟩
  | err e => exact ⟨[], by rw [List.append_nil]⟩
  | panic => exact ⟨[], by rw [List.append_nil]⟩
  | loop => exact ⟨[], by rw [List.append_nil]⟩

theorem Ends.failed {α β : Type} {Q : Mem → α → β → Prop} {m : Mem} (e : String) : Ends Q m ((lift (.err e) : M α) m) (.err e) :=
  ⟨[], by rw [List.append_nil]; rfl⟩

/-- A value leaves a loop, or the loop goes on with the same state. -/
def SumRel {σ α β : Type} (Q : Mem → α → β → Prop) (m : Mem) : σ ⊕ α → σ ⊕ β → Prop
  | .inl s, .inl t => s = t
  | .inr a, .inr b => Q m a b
  | _, _ => False

theorem forLoop_ends {σ α β : Type} {Q : Mem → α → β → Prop} {I : Mem → Prop} (hI : ∀ m L, I m → I (m ++ L))
    {bodyM : σ → M (σ ⊕ α)} {body : σ → Res (σ ⊕ β)} (h : ∀ m s, I m → Ends (SumRel Q) m (bodyM s m) (body s)) : ∀ (fuel : Nat) (s : σ) (m : Mem),
    I m → Ends Q m (forLoopM bodyM fuel s m) (forLoop body fuel s)
  | 0, _, _, _ => ⟨[], by rw [List.append_nil]; rfl⟩
  | fuel + 1, s, m, hm => by
    rw [forLoopM, forLoop]
    refine Ends.bind (h m s hm) ?_
    intro a b L hab
    cases a <;> cases b
    · rw [show _ = _ from hab]
      exact forLoop_ends hI h fuel _ _ (hI _ _ hm)
    · exact hab.elim
    · exact hab.elim
    · exact Ends.done hab

/-- A pointer allocated after the first `n` numbers, and the number there. -/
def New (n : Nat) (m : Mem) (p : Ptr) (v : Int) : Prop := n ≤ p ∧ At m p v
def New2 (n : Nat) (m : Mem) (p : Ptr × Ptr) (v : Int × Int) : Prop := New n m p.1 v.1 ∧ New n m p.2 v.2

theorem New.append {n : Nat} {m : Mem} {p : Ptr} {v : Int} (h : New n m p v) (L : List Int) : New n (m ++ L) p v := ⟨h.1, h.2.append L⟩
theorem New2.append {n : Nat} {m : Mem} {p : Ptr × Ptr} {v : Int × Int} (h : New2 n m p v) (L : List Int) : New2 n (m ++ L) p v := ⟨h.1.append L, h.2.append L⟩

theorem runs_ends2 {n : Nat} {m : Mem} (hn : n ≤ m.length) {r : Out (Ptr × Ptr)} {w : Res (Int × Int)} (h : Runs Fresh2 m r w) :
    Ends (New2 n) m r w := by
  cases w with
  | ok v =>
    obtain ⟨p, L', h0, h1, h2⟩ := h
    exact ⟨p, L', h0, ⟨hn.trans h1.1, h1.2⟩, ⟨hn.trans h2.1, h2.2⟩⟩
  | err e => exact h
  | panic => exact h
  | loop => exact h

section
variable {n : Nat} {m : Mem} (hn : n ≤ m.length) {x y : Ptr} {a b : Int}
include hn

theorem new_lt (v : Int) : New n (m ++ [v]) (cell m 0) v :=
  ⟨by unfold cell; omega, by unfold cell; rw [List.length_append]; exact Nat.lt_add_of_pos_right (by simp), by rw [rd_cell]; rfl⟩

theorem newInt_ends (v : Int) : Ends (New n) m (newInt v m) (.ok v) := by
  unfold newInt
  rw [bind_run, new_run_nil, ok_bind', bSetInt_run]
  exact ⟨_, [v], rfl, new_lt hn v⟩

theorem uAdd_ends (hx : At m x a) (hy : At m y b) : Ends (New n) m (uAdd x y m) (.ok (a + b)) := by
  unfold uAdd
  rw [bind_run, new_run_nil, ok_bind', bind_run, bAdd_run, ok_bind', pure_run, (hx.append _).2, (hy.append _).2]
  exact ⟨_, [_], rfl, new_lt hn _⟩
theorem uSub_ends (hx : At m x a) (hy : At m y b) : Ends (New n) m (uSub x y m) (.ok (a - b)) := by
  unfold uSub
  rw [bind_run, new_run_nil, ok_bind', bind_run, bSub_run, ok_bind', pure_run, (hx.append _).2, (hy.append _).2]
  exact ⟨_, [_], rfl, new_lt hn _⟩
theorem uMul_ends (hx : At m x a) (hy : At m y b) : Ends (New n) m (uMul x y m) (.ok (a * b)) := by
  unfold uMul
  rw [bind_run, new_run_nil, ok_bind', bind_run, bMul_run, ok_bind', pure_run, (hx.append _).2, (hy.append _).2]
  exact ⟨_, [_], rfl, new_lt hn _⟩
theorem uMod_ends (hx : At m x a) (hy : At m y b) (h0 : b ≠ 0) : Ends (New n) m (uMod x y m) (.ok (a % b)) := by
  unfold uMod
  rw [bind_run, new_run_nil, ok_bind', bind_run, bMod_run _ _ _ _ _ (by rw [(hy.append _).2]; exact h0), ok_bind', pure_run, (hx.append _).2,
    (hy.append _).2]
  exact ⟨_, [_], rfl, new_lt hn _⟩
theorem uAnd_ends (hx : At m x a) (hy : At m y b) : Ends (New n) m (uAnd x y m) (.ok (Int.land a b)) := by
  unfold uAnd
  rw [bind_run, new_run_nil, ok_bind', bind_run, bAnd_run, ok_bind', pure_run, (hx.append _).2, (hy.append _).2]
  exact ⟨_, [_], rfl, new_lt hn _⟩
theorem uLsh_ends (hx : At m x a) (w : Nat) : Ends (New n) m (uLsh x w m) (.ok (a * 2 ^ w)) := by
  unfold uLsh
  rw [bind_run, new_run_nil, ok_bind', bind_run, bLsh_run, ok_bind', pure_run, (hx.append _).2]
  exact ⟨_, [_], rfl, new_lt hn _⟩
theorem uSetBit_ends (hx : At m x a) (w : Nat) : Ends (New n) m (uSetBit x w m) (.ok (Int.lor a (2 ^ w))) := by
  unfold uSetBit
  rw [bind_run, new_run_nil, ok_bind', bind_run, bSetBit_run, ok_bind', pure_run, (hx.append _).2]
  exact ⟨_, [_], rfl, new_lt hn _⟩
theorem uModInverse_ends (hx : At m x a) (hy : At m y b) : Ends (New n) m (uModInverse x y m) (.ok (utilModInverse a b)) := by
  unfold uModInverse utilModInverse
  rw [bind_run, new_run_nil, ok_bind', bind_run, bModInverse_run, (hx.append _).2, (hy.append _).2]
  cases modInverse a b with
  | none => exact ⟨_, [_], rfl, new_lt hn _⟩
  | some v =>
    dsimp only
    rw [put_run, ok_bind', ok_bind', pure_run]
    exact ⟨_, [_], rfl, new_lt hn _⟩
end

theorem uIsInfinity_ends {m : Mem} {x y : Ptr} {a b : Int} (hx : At m x a) (hy : At m y b) :
    Ends Same m (uIsInfinity x y m) (.ok (isEcPointInfinity (a, b))) := by
  unfold uIsInfinity
  refine Ends.get hx (Ends.get hy (Ends.done rfl))

set_option hygiene false in
/-- What is known about memory still holds in a longer one. -/
macro "more" L:ident : tactic => `(tactic| (
  try replace hn := Nat.le_trans hn (le_append _ $L)
  try replace hw := World.append hw $L
  try replace hD := At.append hD $L
  try replace hD2 := At.append hD2 $L
  try replace hX := At.append hX $L
  try replace hY := At.append hY $L
  try replace hX2 := At.append hX2 $L
  try replace hY2 := At.append hY2 $L
  try replace hr := At.append hr $L
  try replace hs := At.append hs $L
  try replace hp1 := New.append hp1 $L
  try replace hp2 := New.append hp2 $L
  try replace hp3 := New.append hp3 $L
  try replace hp4 := New.append hp4 $L
  try replace hp5 := New.append hp5 $L
  try replace hp6 := New.append hp6 $L
  try replace hp7 := New.append hp7 $L
  try replace hp8 := New.append hp8 $L
  try replace hp9 := New.append hp9 $L
  try replace hq1 := New2.append hq1 $L
  try replace hq2 := New2.append hq2 $L
  try replace hq3 := New2.append hq3 $L))

theorem le_append (m : Mem) (L : List Int) : m.length ≤ (m ++ L).length := by rw [List.length_append]; exact Nat.le_add_right _ _

/-! ## Random numbers -/

def NewT (n : Nat) (m : Mem) (p : Ptr × Tape) (v : Int × Tape) : Prop := New n m p.1 v.1 ∧ p.2 = v.2

theorem randLoop_ends {n : Nat} {m : Mem} (hn : n ≤ m.length) {max : Ptr} {v : Int} (hX : At m max v) : ∀ (tape : Tape) (u : Int),
    Ends (NewT n) m (randLoop (cell m 0) max (if ((v - 1).natAbs.log2 + 1) % 8 = 0 then 8 else ((v - 1).natAbs.log2 + 1) % 8) tape (m ++ [u]))
      (Sm2.randInt v tape)
  | [], _ => ⟨[_], rfl⟩
  | none :: _, _ => ⟨[_], rfl⟩
  | some bytes :: rest, u => by
    rw [randLoop, Sm2.randInt, bind_run, bSetInt_run, ok_bind', bind_run, get_run, ok_bind', bind_run, get_run, ok_bind', (hX.append _).2, rd_cell]
    simp only [List.set_cons_zero, List.getD_cons_zero]
    generalize hb : (if ((v - 1).natAbs.log2 + 1) % 8 = 0 then 8 else ((v - 1).natAbs.log2 + 1) % 8) = b
    split
    · exact ⟨_, [_], rfl, new_lt hn _, rfl⟩
    · rw [← hb]
      exact randLoop_ends hn hX rest _

theorem randInt_ends {n : Nat} {m : Mem} (hn : n ≤ m.length) {max : Ptr} {v : Int} (hX : At m max v) (tape : Tape) :
    Ends (NewT n) m (randInt max tape m) (Sm2.randInt v tape) := by
  have h := randLoop_ends hn hX tape (v - 1)
  unfold randInt newInt
  rw [bind_run, bind_run, new_run_nil, ok_bind', bSetInt_run, ok_bind', bind_run, bSub_run, ok_bind', bind_run, get_run, ok_bind', (hX.append _).2,
    rd_cell, rd_cell]
  exact h

theorem nextK_ends {n : Nat} {m : Mem} (hn : n ≤ m.length) {max : Ptr} {v : Int} (hX : At m max v) (tape : Tape) :
    Ends (NewT n) m (nextK tape max m) (Sm2.nextK tape v) := by
  unfold nextK Sm2.nextK
  refine Ends.step (newInt_ends hn 1) ?_
  intro p L
  more L
  intro hp1
  refine forLoop_ends (I := fun m => n ≤ m.length ∧ At m max v ∧ New n m p 1) ?_ ?_ _ _ _ ⟨hn, hX, hp1⟩
  · intro m L h
    exact ⟨h.1.trans (le_append _ _), h.2.1.append L, h.2.2.append L⟩
  intro m t h
  obtain ⟨hn, hX, hp1⟩ := h
  refine Ends.bind (randInt_ends hn hX t) ?_
  intro r r' L
  more L
  intro hr
  refine Ends.get hr.1.2 (Ends.get hp1.2 ?_)
  split
  · exact Ends.done hr
  · exact Ends.done hr.2

/-! ## Keys -/

/-- A private key with a new number. -/
def NewPriv (n : Nat) (c : SmCurve) (m : Mem) (k : PrivKey) (v : PrivateKey) : Prop := New n m k.D v.D ∧ k.curve = c
/-- A public key with new numbers. -/
def NewPub (n : Nat) (c : SmCurve) (m : Mem) (k : PubKey) (v : PublicKey) : Prop := New n m k.X v.X ∧ New n m k.Y v.Y ∧ k.curve = c

variable {g : Globals} {n : Nat} {m : Mem}

theorem baseMult_ends (hw : World g m) (hn : n ≤ m.length) (k : Bytes) :
    Ends (New2 n) m (scalarBaseMultM g.curve.toCurvePtrs k m) (scalarBaseMult cv k) := runs_ends2 hn (scalarBaseMult_runs cv _ m hw.holds k)

theorem mult_ends (hw : World g m) (hn : n ≤ m.length) {x y : Ptr} {a b : Int} (hX : At m x a) (hY : At m y b) (k : Bytes) :
    Ends (New2 n) m (scalarMultM g.curve.toCurvePtrs x y k m) (scalarMult cv (a, b) k) := by
  have := scalarMult_runs cv _ m hw.holds x y hX.1 hY.1 k
  rw [hX.2, hY.2] at this
  exact runs_ends2 hn this

theorem add_ends (hw : World g m) (hn : n ≤ m.length) {x y x2 y2 : Ptr} {p q : Int × Int} (hX : At m x p.1) (hY : At m y p.2) (hX2 : At m x2 q.1)
    (hY2 : At m y2 q.2) : Ends (New2 n) m (addM g.curve.toCurvePtrs x y x2 y2 m) (EC.add cv p q) := by
  have := add_runs cv _ m hw.holds x y x2 y2 hX.1 hY.1 hX2.1 hY2.1
  rw [hX.2, hY.2, hX2.2, hY2.2] at this
  exact runs_ends2 hn this

theorem ellipticGenerateKey_ends : ∀ (tape : Tape) {m : Mem}, World g m → n ≤ m.length →
    Ends (fun m a b => a.1 = b.1 ∧ New2 n m a.2 b.2) m (ellipticGenerateKey g.curve.toCurvePtrs tape m) (EC.generateKey cv tape)
  | [], _, _, _ => ⟨[], by rw [List.append_nil]; rfl⟩
  | none :: _, _, _, _ => ⟨[], by rw [List.append_nil]; rfl⟩
  | some raw :: rest, m, hw, hn => by
    rw [ellipticGenerateKey, EC.generateKey]
    refine Ends.step (newInt_ends hn _) ?_
    intro p L
    more L
    intro hp1
    refine Ends.get hp1.2 (Ends.get hw.N ?_)
    split
    · exact ellipticGenerateKey_ends rest hw hn
    · refine Ends.bind (baseMult_ends hw hn _) ?_
      intro q q' L hq
      exact Ends.done ⟨rfl, hq⟩

theorem generateKey_ends (hw : World g m) (hn : n ≤ m.length) (tape : Tape) :
    Ends (fun m a b => NewPriv n g.curve m a.1 b.1 ∧ NewPub n g.curve m a.2 b.2) m (generateKey g tape m) (Sm2.generateKey tape) := by
  unfold generateKey Sm2.generateKey
  refine Ends.bind (ellipticGenerateKey_ends tape hw hn) ?_
  intro r r' L
  more L
  intro hr
  obtain ⟨h1, hq1⟩ := hr
  refine Ends.step (newInt_ends hn _) ?_
  intro d L2
  more L2
  intro hd
  rw [h1] at hd
  exact Ends.done ⟨⟨hd, rfl⟩, hq1.1, hq1.2, rfl⟩

theorem rawBytesToPublicKey_ends (hn : n ≤ m.length) (b : Bytes) :
    Ends (NewPub n g.curve) m (rawBytesToPublicKey g b m) (Sm2.rawBytesToPublicKey b) := by
  unfold rawBytesToPublicKey Sm2.rawBytesToPublicKey
  split
  · exact Ends.failed _
  refine Ends.step (newInt_ends hn _) ?_
  intro d L
  more L
  intro hp1
  refine Ends.step (newInt_ends hn _) ?_
  intro d2 L2
  more L2
  intro hp2
  exact Ends.done ⟨hp1, hp2, rfl⟩

theorem rawBytesToPrivateKey_ends (hn : n ≤ m.length) (b : Bytes) :
    Ends (NewPriv n g.curve) m (rawBytesToPrivateKey g b m) (Sm2.rawBytesToPrivateKey b) := by
  unfold rawBytesToPrivateKey Sm2.rawBytesToPrivateKey
  split
  · exact Ends.failed _
  refine Ends.step (newInt_ends hn _) ?_
  intro d L hp1
  exact Ends.done ⟨hp1, rfl⟩

theorem calculatePubKey_ends (hw : World g m) (hn : n ≤ m.length) {k : PrivKey} (hk : k.curve = g.curve) {d : Int} (hD : At m k.D d) :
    Ends (NewPub n g.curve) m (calculatePubKey k m) (Sm2.calculatePubKey ⟨d⟩) := by
  unfold calculatePubKey Sm2.calculatePubKey
  refine Ends.get hD ?_
  rw [hk]
  refine Ends.bind (baseMult_ends hw hn _) ?_
  intro q q' L hq
  exact Ends.done ⟨hq.1, hq.2, rfl⟩

/-! ## Signatures -/

theorem getZ_ends (hw : World g m) {x y : Ptr} {a b : Int} (hX : At m x a) (hY : At m y b) (uid : Bytes) :
    Ends Same m (getZ g.curve x y uid m) (Sm2.getZ a b uid) := by
  unfold getZ Sm2.getZ
  refine Ends.get hw.A (Ends.get hw.B (Ends.get hw.Gx (Ends.get hw.Gy (Ends.get hX (Ends.get hY ?_)))))
  rw [show zChunksOf sm2P256V1.A cv.B cv.Gx cv.Gy a b uid = zChunks a b uid from rfl]
  exact Ends.lifted fun cs => Ends.same

theorem calculateE_ends (hw : World g m) (hn : n ≤ m.length) {x y : Ptr} {a b : Int} (hX : At m x a) (hY : At m y b) (uid src : Bytes) :
    Ends (New n) m (calculateE g.curve x y uid src m) (Sm2.calculateE a b uid src) := by
  unfold calculateE Sm2.calculateE
  refine Ends.bind (getZ_ends hw hX hY uid) ?_
  intro z z' L
  more L
  intro hz
  rw [show z = z' from hz]
  refine Ends.lifted ?_
  intro h
  exact newInt_ends hn _

theorem setAdd_step {γ δ : Type} {Q' : Mem → γ → δ → Prop} (hn : n ≤ m.length) {x y : Ptr} {a b : Int} (hx : At m x a) (hy : At m y b)
    {f : Ptr → M γ} {w : Res δ} (hf : ∀ p L, New n (m ++ L) p (a + b) → Ends Q' (m ++ L) (f p (m ++ L)) w) :
    Ends Q' m ((new >>= fun z => bSet z x >>= fun z => bAdd z z y >>= f) m) w := by
  have := (hf (cell m 0) [a + b] (new_lt hn _)).shorten
  rw [bind_run, new_run_nil, ok_bind', bind_run, bSet_run, ok_bind', bind_run, bAdd_run, ok_bind', rd_cell, (hx.append _).2, (hy.append _).2]
  exact this

def NewKR (n : Nat) (m : Mem) (p : Ptr × Ptr × Tape) (v : Int × Int × Tape) : Prop := New n m p.1 v.1 ∧ New n m p.2.1 v.2.1 ∧ p.2.2 = v.2.2

theorem signInner_ends (hw : World g m) (hn : n ≤ m.length) {k : PrivKey} (hk : k.curve = g.curve) {e z : Ptr} {ev : Int} (hX : At m e ev)
    (hY : At m z 0) (tape : Tape) : Ends (NewKR n) m (signInner k e z tape m) (Sm2.signInner ev tape) := by
  unfold signInner Sm2.signInner
  rw [hk]
  refine forLoop_ends (I := fun m => World g m ∧ n ≤ m.length ∧ At m e ev ∧ At m z 0) ?_ ?_ _ _ _ ⟨hw, hn, hX, hY⟩
  · intro m L h
    exact ⟨h.1.append L, h.2.1.trans (le_append _ _), h.2.2.1.append L, h.2.2.2.append L⟩
  clear hw hn hX hY
  intro m t h
  obtain ⟨hw, hn, hX, hY⟩ := h
  refine Ends.bind (nextK_ends hn hw.N t) ?_
  intro kt kt' L
  more L
  intro hkt
  obtain ⟨hp1, ht⟩ := hkt
  refine Ends.get hp1.2 ?_
  refine Ends.bind (baseMult_ends hw hn _) ?_
  intro px px' L
  more L
  intro hq1
  refine Ends.step (uAdd_ends hn hX hq1.1.2) ?_
  intro r0 L
  more L
  intro hp2
  refine Ends.step (uMod_ends hn hp2.2 hw.N hw.holds.posN) ?_
  intro r L
  more L
  intro hp3
  refine setAdd_step hn hp3.2 hp1.2 ?_
  intro rk L
  more L
  intro hp4
  refine Ends.get hp3.2 (Ends.get hY (Ends.get hp4.2 (Ends.get hw.N ?_)))
  exact Ends.ite (fun _ => Ends.done ⟨hp1, hp3, ht⟩) (fun _ => Ends.done ht)

theorem signToRS_ends (hw : World g m) (hn : n ≤ m.length) {k : PrivKey} (hk : k.curve = g.curve) {d : Int} (hD : At m k.D d) (uid : Option Bytes)
    (inp : Bytes) (tape : Tape) : Ends (New2 n) m (signToRS k uid inp tape m) (Sm2.signToRS ⟨d⟩ uid inp tape) := by
  unfold signToRS Sm2.signToRS
  rw [hk]
  refine Ends.get hD ?_
  refine Ends.bind (baseMult_ends hw hn _) ?_
  intro px px' L
  more L
  intro hq1
  refine Ends.bind (calculateE_ends hw hn hq1.1.2 hq1.2.2 _ _) ?_
  intro e e' L
  more L
  intro hp1
  refine Ends.step (newInt_ends hn 0) ?_
  intro z L
  more L
  intro hp2
  refine Ends.step (newInt_ends hn 1) ?_
  intro o L
  more L
  intro hp3
  refine forLoop_ends (I := fun m => (World g m ∧ n ≤ m.length ∧ At m k.D d) ∧ New n m e e' ∧ New n m z 0 ∧ New n m o 1) ?_ ?_ _ _ _
    ⟨⟨hw, hn, hD⟩, hp1, hp2, hp3⟩
  · intro m L h
    exact ⟨⟨h.1.1.append L, h.1.2.1.trans (le_append _ _), h.1.2.2.append L⟩, h.2.1.append L, h.2.2.1.append L, h.2.2.2.append L⟩
  clear hw hn hD hp1 hp2 hp3 hq1
  intro m t h
  obtain ⟨⟨hw, hn, hD⟩, hp1, hp2, hp3⟩ := h
  refine Ends.bind (signInner_ends hw hn hk hp1.2 hp2.2 t) ?_
  intro krt krt' L
  more L
  intro hkrt
  obtain ⟨hp4, hp5, ht⟩ := hkrt
  obtain ⟨kv, rv, tv⟩ := krt'
  refine Ends.step (uAdd_ends hn hD hp3.2) ?_
  intro d1 L
  more L
  intro hp6
  refine Ends.step (uModInverse_ends hn hp6.2 hw.N) ?_
  intro di L
  more L
  intro hp7
  refine Ends.step (uMul_ends hn hp5.2 hD) ?_
  intro s1 L
  more L
  intro hp8
  refine Ends.step (uSub_ends hn hp4.2 hp8.2) ?_
  intro s2 L
  more L
  intro hp9
  clear hp8
  refine Ends.step (uMod_ends hn hp9.2 hw.N hw.holds.posN) ?_
  intro s3 L
  more L
  intro hp8
  refine Ends.step (uMul_ends hn hp7.2 hp8.2) ?_
  intro s4 L
  more L
  clear hp9
  intro hp9
  refine Ends.step (uMod_ends hn hp9.2 hw.N hw.holds.posN) ?_
  intro s5 L
  more L
  clear hp8
  intro hp8
  refine Ends.get hp8.2 (Ends.get hp2.2 ?_)
  exact Ends.ite (fun _ => Ends.done ⟨hp5, hp8⟩) (fun _ => Ends.done ht)

theorem sign_ends (hw : World g m) {k : PrivKey} (hk : k.curve = g.curve) {d : Int} (hD : At m k.D d) (uid : Option Bytes)
    (inp : Bytes) (tape : Tape) : Ends Same m (sign k uid inp tape m) (Sm2.sign ⟨d⟩ uid inp tape) := by
  unfold sign Sm2.sign
  refine Ends.bind (signToRS_ends hw (Nat.le_refl _) hk hD uid inp tape) ?_
  intro rs rs' L hrs
  unfold marshalSign
  exact Ends.get hrs.1.2 (Ends.get hrs.2.2 Ends.same)

theorem verifyByRS_ends (hw : World g m) {k : PubKey} (hk : k.curve = g.curve) {x y rv sv : Int} (hX : At m k.X x) (hY : At m k.Y y) {r s : Ptr}
    (hr : At m r rv) (hs : At m s sv) (uid : Option Bytes) (src : Bytes) :
    Ends Same m (verifyByRS k uid src r s m) (Sm2.verifyByRS ⟨x, y⟩ uid src rv sv) := by
  unfold verifyByRS Sm2.verifyByRS
  have hn : 0 ≤ m.length := Nat.zero_le _
  rw [hk]
  refine Ends.step (newInt_ends hn 1) ?_
  intro o L
  more L
  intro hp1
  refine Ends.get hp1.2 (Ends.get hr (Ends.get hw.N ?_))
  refine Ends.ite (fun _ => Ends.done rfl) (fun _ => ?_)
  refine Ends.get hs ?_
  refine Ends.ite (fun _ => Ends.done rfl) (fun _ => ?_)
  refine Ends.bind (calculateE_ends hw hn hX hY _ _) ?_
  intro e e' L
  more L
  intro hp2
  refine Ends.step (newInt_ends hn 0) ?_
  intro z L
  more L
  intro hp3
  refine Ends.step (uAdd_ends hn hr hs) ?_
  intro t0 L
  more L
  intro hp4
  refine Ends.step (uMod_ends hn hp4.2 hw.N hw.holds.posN) ?_
  intro t L
  more L
  intro hp5
  refine Ends.get hp5.2 (Ends.get hp3.2 ?_)
  refine Ends.ite (fun _ => Ends.done rfl) (fun _ => ?_)
  refine Ends.get hs ?_
  refine Ends.bind (baseMult_ends hw hn _) ?_
  intro sg sg' L
  more L
  intro hq1
  refine Ends.bind (mult_ends hw hn hX hY _) ?_
  intro tp tp' L
  more L
  intro hq2
  refine Ends.bind (add_ends hw hn hq1.1.2 hq1.2.2 hq2.1.2 hq2.2.2) ?_
  intro q q' L
  more L
  intro hq3
  refine Ends.step (uIsInfinity_ends hq3.1.2 hq3.2.2) ?_
  intro inf L
  more L
  intro hinf
  rw [show inf = isEcPointInfinity q' from hinf]
  refine Ends.ite (fun _ => Ends.done rfl) (fun _ => ?_)
  refine Ends.step (uAdd_ends hn hp2.2 hq3.1.2) ?_
  intro er L
  more L
  intro hp6
  refine Ends.step (uMod_ends hn hp6.2 hw.N hw.holds.posN) ?_
  intro er2 L
  more L
  intro hp7
  refine Ends.get hp7.2 (Ends.get hr (Ends.done rfl))

theorem unmarshalSign_ends (hn : n ≤ m.length) (sig : Bytes) : Ends (New2 n) m (unmarshalSign sig m) (Sm2.unmarshalSign sig) := by
  unfold unmarshalSign
  have e : Sm2.unmarshalSign sig = Sm2.unmarshalSign sig >>= fun rs => .ok rs := by cases Sm2.unmarshalSign sig <;> rfl
  rw (occs := .pos [2]) [e]
  refine Ends.lifted ?_
  intro rs
  refine Ends.step (newInt_ends hn _) ?_
  intro r L
  more L
  intro hp1
  refine Ends.step (newInt_ends hn _) ?_
  intro s L
  more L
  intro hp2
  exact Ends.done ⟨hp1, hp2⟩

/-- `Verify` (/repo/sm2/sm2.go:578-585). -/
theorem verify_ends (hw : World g m) {k : PubKey} (hk : k.curve = g.curve) {x y : Int} (hX : At m k.X x) (hY : At m k.Y y) (uid : Option Bytes)
    (src sig : Bytes) : Ends Same m (verify k uid src sig m) (Sm2.verify ⟨x, y⟩ uid src sig) := by
  unfold verify Sm2.verify
  rw [bind_run, attempt_run]
  cases h : Sm2.unmarshalSign sig with
  | ok rs =>
    have hu := unmarshalSign_ends (Nat.zero_le m.length) sig
    rw [h] at hu
    obtain ⟨p, L, h0, h1⟩ := hu
    rw [h0]
    have := verifyByRS_ends (World.append hw L) hk (hX.append L) (hY.append L) h1.1.2 h1.2.2 uid src
    dsimp only
    exact this.shorten
  | err e =>
    have hu := unmarshalSign_ends (Nat.zero_le m.length) sig
    rw [h] at hu
    obtain ⟨L, h0⟩ := hu
    rw [h0]
    exact ⟨false, L, rfl, rfl⟩
  | panic =>
    have hu := unmarshalSign_ends (Nat.zero_le m.length) sig
    rw [h] at hu
    obtain ⟨L, h0⟩ := hu
    rw [h0]
    exact ⟨L, rfl⟩
  | loop =>
    have hu := unmarshalSign_ends (Nat.zero_le m.length) sig
    rw [h] at hu
    obtain ⟨L, h0⟩ := hu
    rw [h0]
    exact ⟨L, rfl⟩

/-! ## Encryption -/

def NewC (n : Nat) (m : Mem) (a : Bytes × Bytes × (Ptr × Ptr)) (b : Bytes × Bytes × (Int × Int)) : Prop := a.1 = b.1 ∧ a.2.1 = b.2.1 ∧ New2 n m a.2.2 b.2.2

theorem encryptLoop_ends (hw : World g m) (hn : n ≤ m.length) {k : PubKey} (hk : k.curve = g.curve) {x y : Int} (hX : At m k.X x) (hY : At m k.Y y)
    (inp : Bytes) (tape : Tape) : Ends (NewC n) m (encryptLoop k inp tape m) (Sm2.encryptLoop ⟨x, y⟩ inp tape) := by
  unfold encryptLoop Sm2.encryptLoop
  rw [hk]
  refine forLoop_ends (I := fun m => World g m ∧ n ≤ m.length ∧ At m k.X x ∧ At m k.Y y) ?_ ?_ _ _ _ ⟨hw, hn, hX, hY⟩
  · intro m L h
    exact ⟨h.1.append L, h.2.1.trans (le_append _ _), h.2.2.1.append L, h.2.2.2.append L⟩
  clear hw hn hX hY
  intro m s h
  obtain ⟨hw, hn, hX, hY⟩ := h
  refine Ends.bind (nextK_ends hn hw.N s.1) ?_
  intro kt kt' L
  more L
  intro hkt
  obtain ⟨hp1, ht⟩ := hkt
  refine Ends.get hp1.2 ?_
  refine Ends.bind (baseMult_ends hw hn _) ?_
  intro c1 c1' L
  more L
  intro hq1
  refine Ends.get hq1.1.2 (Ends.get hq1.2.2 (Ends.lifted fun c1b => ?_))
  refine Ends.bind (mult_ends hw hn hX hY _) ?_
  intro kp kp' L
  more L
  intro hq2
  refine Ends.get hq2.1.2 (Ends.get hq2.2.2 (Ends.lifted fun c2 => ?_))
  exact Ends.ite (fun _ => Ends.done ⟨rfl, rfl, hq2⟩) (fun _ => Ends.done (by rw [ht]; rfl))

theorem encrypt_ends (hw : World g m) {k : PubKey} (hk : k.curve = g.curve) {x y : Int} (hX : At m k.X x) (hY : At m k.Y y) (inp : Bytes) (ct : Int)
    (tape : Tape) : Ends Same m (encrypt k inp ct tape m) (Sm2.encrypt ⟨x, y⟩ inp ct tape) := by
  unfold encrypt Sm2.encrypt
  refine Ends.bind (encryptLoop_ends hw (Nat.zero_le _) hk hX hY inp tape) ?_
  intro r r' L hr
  obtain ⟨h1, h2, h3⟩ := hr
  obtain ⟨c1, c2, kp⟩ := r'
  refine Ends.get h3.1.2 (Ends.get h3.2.2 (Ends.lifted fun xb => Ends.lifted fun yb => Ends.lifted fun c3 => ?_))
  rw [h1, h2]
  refine Ends.ite (fun _ => Ends.done rfl) (fun _ => ?_)
  exact Ends.ite (fun _ => Ends.done rfl) (fun _ => Ends.failed _)

theorem isOnCurve_ends (hw : World g m) {x y : Ptr} {a b : Int} (hX : At m x a) (hY : At m y b) :
    Ends Same m (isOnCurveM g.curve.toCurvePtrs x y m) (.ok (isOnCurve cv a b)) := by
  have hc : Holds cv g.curve.toCurvePtrs m := hw.holds
  have hx' : ∀ L, rd (m ++ L) x = a := fun L => (hX.append L).2
  have hy' : ∀ L, rd (m ++ L) y = b := fun L => (hY.append L).2
  have hB' : ∀ L, rd (m ++ L) g.curve.B = cv.B := fun L => (hw.B.append L).2
  have e1 : (2 : Int) ^ 1 = 2 := rfl
  generalize hQ : (fun r : Out Bool => Ends Same m r (.ok (isOnCurve cv a b))) = Q
  suffices h : Q (isOnCurveM g.curve.toCurvePtrs x y (m ++ [])) by rw [← hQ, List.append_nil] at h; exact h
  unfold isOnCurveM
  nw; stp v1 h1 [hx', hy']; stp v2 h2 [hx']
  nw; stp v3 h3 [hx']; stp v4 h4 [hx']
  nw; stp v5 h5 [hx', e1]; stp v6 h6 [hx']; stp v7 h7 [hx']; stp v8 h8 [hB']; stp v9 h9 [hx']
  refine step_get ?_
  refine step_get ?_
  rw [pure_run, ← hQ, rd_cell, rd_cell]
  refine ⟨_, _, rfl, ?_⟩
  unfold isOnCurve
  simp only [List.getD_cons_zero, List.getD_cons_succ, h9, h8, h7, h6, h5, h4, h3, h2, h1]
  rfl

def OptRel {α β : Type} (Q : Mem → α → β → Prop) (m : Mem) : Option α → Option β → Prop
  | none, none => True
  | some a, some b => Q m a b
  | _, _ => False

theorem unmarshal_ends (hw : World g m) (hn : n ≤ m.length) (data : Bytes) :
    Ends (OptRel (New2 n)) m (unmarshalM g.curve.toCurvePtrs data m) (.ok (unmarshal cv data)) := by
  unfold unmarshalM unmarshal
  by_cases h1 : data.length ≠ 1 + 2 * ((cv.bitSize + 7) >>> 3)
  · rw [if_pos h1]
    dsimp only
    rw [if_pos h1]
    exact Ends.done trivial
  rw [if_neg h1]
  dsimp only
  rw [if_neg h1]
  by_cases h2 : data.head? ≠ some 4
  · rw [if_pos h2, if_pos h2]
    exact Ends.done trivial
  rw [if_neg h2, if_neg h2]
  refine Ends.step (newInt_ends hn _) ?_
  intro x L
  more L
  intro hp1
  refine Ends.step (newInt_ends hn _) ?_
  intro y L
  more L
  intro hp2
  refine Ends.get hp1.2 (Ends.get hp2.2 (Ends.get hw.P ?_))
  split
  · exact Ends.done trivial
  refine Ends.step (isOnCurve_ends hw hp1.2 hp2.2) ?_
  intro on L
  more L
  intro hon
  rw [show on = _ from hon]
  split
  · exact Ends.done trivial
  · exact Ends.done ⟨hp1, hp2⟩

theorem decryptPoint_ends (hw : World g m) {k : PrivKey} (hk : k.curve = g.curve) {d : Int} (hD : At m k.D d) {p : Ptr × Ptr} {v : Int × Int}
    (hq1 : New2 0 m p v) {hh : Int} (hH : At m g.H hh) (c1Len : Int) (inp : Bytes) (ct : Int) :
    Ends Same m (decryptPoint g k p c1Len inp ct m) (do
      let s ← scalarMult cv v (intBytes hh)
      if isEcPointInfinity s then .err "[h]C1 at infinity"
      else do
        let c1p ← scalarMult cv v (intBytes d)
        decryptRest c1p c1Len inp ct) := by
  unfold decryptPoint
  have hn : 0 ≤ m.length := Nat.zero_le _
  rw [hk]
  refine Ends.get hH ?_
  refine Ends.bind (mult_ends hw hn hq1.1.2 hq1.2.2 _) ?_
  intro s s' L
  more L
  intro hq2
  refine Ends.step (uIsInfinity_ends hq2.1.2 hq2.2.2) ?_
  intro inf L
  more L
  intro hinf
  rw [show inf = isEcPointInfinity s' from hinf]
  refine Ends.ite (fun _ => Ends.failed _) (fun _ => ?_)
  refine Ends.get hD ?_
  refine Ends.bind (mult_ends hw hn hq1.1.2 hq1.2.2 _) ?_
  intro u u' L
  more L
  intro hq3
  exact Ends.get hq3.1.2 (Ends.get hq3.2.2 Ends.same)

theorem decrypt_ends (hw : World g m) {k : PrivKey} (hk : k.curve = g.curve) {d : Int} (hD : At m k.D d) (inp : Bytes) (ct : Int) :
    Ends Same m (decrypt g k inp ct m) (Sm2.decrypt ⟨d⟩ inp ct) := by
  unfold decrypt Sm2.decrypt
  generalize ((((cv.bitSize + 7) >>> 3) * 2 + 1 : Nat) : Int) = c1Len
  have hH := hw.H
  generalize sm2H = hh at hH ⊢
  refine Ends.lifted fun c1 => ?_
  have hu := unmarshal_ends hw (Nat.zero_le _) c1
  rw [← hk] at hu
  generalize hv : unmarshal cv c1 = v at hu ⊢
  refine Ends.step hu ?_
  intro p L
  more L
  intro hp
  match p, v, hp with
  | none, none, _ => exact ⟨[], by rw [List.append_nil]; rfl⟩
  | some p, some v, hp => exact decryptPoint_ends hw hk hD hp (hH.append L) c1Len inp ct

/-! ## Key exchange -/

theorem reduce_ends (hn : n ≤ m.length) {x : Ptr} {a : Int} (hX : At m x a) (w : Nat) : Ends (New n) m (reduce x w m) (.ok (Sm2.reduce a w)) := by
  unfold reduce Sm2.reduce
  refine Ends.step (newInt_ends hn 1) ?_
  intro o L
  more L
  intro hp1
  refine Ends.step (uLsh_ends hn hp1.2 w) ?_
  intro r L
  more L
  intro hp2
  refine Ends.step (uSub_ends hn hp2.2 hp1.2) ?_
  intro r2 L
  more L
  intro hp3
  refine Ends.step (uAnd_ends hn hX hp3.2) ?_
  intro r3 L
  more L
  intro hp4
  exact uSetBit_ends hn hp4.2 w

theorem calculateU_ends (hw : World g m) (hn : n ≤ m.length) (w : Nat) {ks ke : PrivKey} (hk : ks.curve = g.curve) {ds de : Int} (hD : At m ks.D ds)
    (hD2 : At m ke.D de) {ps po pe : PubKey} {sx sy ox oy ex ey : Int} (hr : At m ps.X sx) (hX : At m po.X ox)
    (hY : At m po.Y oy) (hX2 : At m pe.X ex) (hY2 : At m pe.Y ey) :
    Ends (New2 n) m (calculateU g w ks ke ps po pe m) (Sm2.calculateU w ⟨ds⟩ ⟨de⟩ ⟨sx, sy⟩ ⟨ox, oy⟩ ⟨ex, ey⟩) := by
  unfold calculateU Sm2.calculateU
  rw [hk]
  refine Ends.step (reduce_ends hn hr w) ?_
  intro x1 L
  more L
  intro hp1
  refine Ends.step (reduce_ends hn hX2 w) ?_
  intro x2 L
  more L
  intro hp2
  refine Ends.step (uMul_ends hn hp1.2 hD2) ?_
  intro t0 L
  more L
  intro hp3
  refine Ends.step (uAdd_ends hn hD hp3.2) ?_
  intro t1 L
  more L
  intro hp4
  refine Ends.step (uMul_ends hn hw.H hp4.2) ?_
  intro k0 L
  more L
  intro hp5
  refine Ends.step (uMod_ends hn hp5.2 hw.N hw.holds.posN) ?_
  intro k1 L
  more L
  intro hp6
  refine Ends.step (uMul_ends hn hp6.2 hp2.2) ?_
  intro k2 L
  more L
  intro hp7
  refine Ends.step (uMod_ends hn hp7.2 hw.N hw.holds.posN) ?_
  intro k3 L
  more L
  intro hp8
  refine Ends.get hp6.2 ?_
  refine Ends.bind (mult_ends hw hn hX hY _) ?_
  intro p1 p1' L
  more L
  intro hq1
  refine Ends.get hp8.2 ?_
  refine Ends.bind (mult_ends hw hn hX2 hY2 _) ?_
  intro p2 p2' L
  more L
  intro hq2
  exact add_ends hw hn hq1.1.2 hq1.2.2 hq2.1.2 hq2.2.2

theorem readPub_ends {k : PubKey} {x y : Int} (hX : At m k.X x) (hY : At m k.Y y) : Ends Same m (readPub k m) (.ok ⟨x, y⟩) := by
  unfold readPub
  exact Ends.get hX (Ends.get hY (Ends.done rfl))

theorem calculateKeyWithConfirmation_ends (hw : World g m) (ini : Bool) (bits : Int) (tag : Option Bytes) {ks ke : PrivKey} (hk : ks.curve = g.curve)
    (hk2 : ke.curve = g.curve) {ds de : Int} (hD : At m ks.D ds) (hD2 : At m ke.D de) (sid oid : Option Bytes) {po pe : PubKey} {ox oy ex ey : Int}
    (hX : At m po.X ox) (hY : At m po.Y oy) (hX2 : At m pe.X ex) (hY2 : At m pe.Y ey) :
    Ends Same m (calculateKeyWithConfirmation g ini bits tag ks ke sid po pe oid m)
      (Sm2.calculateKeyWithConfirmation ini bits tag ⟨ds⟩ ⟨de⟩ sid ⟨ox, oy⟩ ⟨ex, ey⟩ oid) := by
  unfold calculateKeyWithConfirmation Sm2.calculateKeyWithConfirmation
  have hn : 0 ≤ m.length := Nat.zero_le _
  rw [hk]
  refine Ends.ite (fun _ => Ends.failed _) (fun _ => ?_)
  refine Ends.bind (calculatePubKey_ends hw hn hk hD) ?_
  intro p p' L
  more L
  intro hp
  obtain ⟨hp1, hp2, hp0⟩ := hp
  refine Ends.bind (getZ_ends hw hp1.2 hp2.2 _) ?_
  intro za za' L
  more L
  intro hza
  rw [show za = za' from hza]
  refine Ends.bind (getZ_ends hw hX hY _) ?_
  intro zb zb' L
  more L
  intro hzb
  rw [show zb = zb' from hzb]
  refine Ends.bind (calculatePubKey_ends hw hn hk2 hD2) ?_
  intro e e' L
  more L
  intro he
  obtain ⟨hp3, hp4, hp00⟩ := he
  refine Ends.bind (calculateU_ends hw hn _ hk hD hD2 hp3.2 hX hY hX2 hY2) ?_
  intro u u' L
  more L
  intro hq1
  refine Ends.get hq1.1.2 (Ends.get hq1.2.2 ?_)
  refine Ends.step (readPub_ends hp3.2 hp4.2) ?_
  intro a L
  more L
  intro ha
  rw [show a = _ from ha]
  refine Ends.step (readPub_ends hX2 hY2) ?_
  intro b L hb
  rw [show b = _ from hb]
  exact Ends.ite (fun _ => Ends.same) (fun _ => Ends.same)

end Verif.Sm2.Store
