import Verif.Sm4.Conc
import Verif.Sm4.Lemmas
import Mathlib.Tactic.Common
/-!
# Goroutines on separate memory do not influence each other
-/
namespace Verif.Sm4.Conc
open Verif Verif.Sm4

/-- A goroutine alone. -/
def run : Prog → Memory → Memory
  | .done, m => m
  | .read l k, m => run (k (m l)) m
  | .write l v k, m => run k (Function.update m l v)

/-- The cells a program may read and write. -/
inductive Confined (R W : Loc → Prop) : Prog → Prop
  | done : Confined R W .done
  | read (l : Loc) (k : Cell l → Prog) (hl : R l) (hk : ∀ v, Confined R W (k v)) : Confined R W (.read l k)
  | write (l : Loc) (v : Cell l) (k : Prog) (hl : W l) (hk : Confined R W k) : Confined R W (.write l v k)

theorem run_agree {R W : Loc → Prop} {p : Prog} (hp : Confined R W p) : ∀ (m m' : Memory), (∀ l, R l ∨ W l → m l = m' l) →
    ∀ l, R l ∨ W l → run p m l = run p m' l := by
  induction hp with
  | done => intro m m' h l hl; exact h l hl
  | read l k hl hk ih =>
    intro m m' h
    unfold run
    rw [h l (.inl hl)]
    exact ih _ m m' h
  | write l v k hl hk ih =>
    intro m m' h
    unfold run
    apply ih
    intro l' hl'
    by_cases e : l' = l
    · subst e; rw [Function.update_self, Function.update_self]
    · rw [Function.update_of_ne e, Function.update_of_ne e]; exact h l' hl'

theorem run_frame {R W : Loc → Prop} {p : Prog} (hp : Confined R W p) : ∀ (m : Memory) (l : Loc), ¬ W l → run p m l = m l := by
  induction hp with
  | done => intro m l _; rfl
  | read l k hl hk ih => intro m l' h; unfold run; exact ih _ m l' h
  | write l v k hl hk ih =>
    intro m l' h
    unfold run
    rw [ih _ l' h, Function.update_of_ne]
    rintro rfl
    exact h hl

theorem step_spec {R W : Loc → Prop} {p p' : Prog} {m m' : Memory} (hp : Confined R W p) (h : p.step m = some (p', m')) :
    Confined R W p' ∧ run p' m' = run p m ∧ ∀ l, ¬ W l → m' l = m l := by
  cases hp with
  | done => cases h
  | read l k hl hk =>
    unfold Prog.step at h
    rw [Option.some.injEq, Prod.mk.injEq] at h
    obtain ⟨rfl, rfl⟩ := h
    exact ⟨hk _, rfl, fun _ _ => rfl⟩
  | write l v k hl hk =>
    unfold Prog.step at h
    rw [Option.some.injEq, Prod.mk.injEq] at h
    obtain ⟨rfl, rfl⟩ := h
    refine ⟨hk, rfl, fun l' h' => ?_⟩
    rw [Function.update_of_ne]
    rintro rfl
    exact h' hl

/-- What holds all the time. -/
structure Inv (R W : Nat → Loc → Prop) (ts₀ : List Prog) (m₀ : Memory) (ts : List Prog) (m : Memory) : Prop where
  len : ts.length = ts₀.length
  conf : ∀ i p, ts[i]? = some p → Confined (R i) (W i) p
  own : ∀ i p p₀, ts[i]? = some p → ts₀[i]? = some p₀ → ∀ l, W i l → run p m l = run p₀ m₀ l
  rest : ∀ l, (∀ i, i < ts₀.length → ¬ W i l) → m l = m₀ l

theorem Inv.step {R W : Nat → Loc → Prop} {ts₀ : List Prog} {m₀ : Memory} (hsep : ∀ i j, i < ts₀.length → j < ts₀.length → i ≠ j → ∀ l, W i l → ¬ W j l ∧ ¬ R j l)
    {s t : List Prog × Memory} (hs : Inv R W ts₀ m₀ s.1 s.2) (h : Step s t) : Inv R W ts₀ m₀ t.1 t.2 := by
  cases h with
  | access ts m i p p' m' hi hp =>
    have hlt : i < ts.length := (List.getElem?_eq_some_iff.1 hi).1
    obtain ⟨hc, hr, hf⟩ := step_spec (hs.conf i p hi) hp
    have hlen : ts.length = ts₀.length := hs.len
    refine ⟨by simpa using hs.len, ?_, ?_, ?_⟩
    · intro j q hq
      by_cases e : i = j
      · subst e
        rw [List.getElem?_set_self hlt, Option.some.injEq] at hq
        subst hq
        exact hc
      · rw [List.getElem?_set_ne e] at hq
        exact hs.conf j q hq
    · intro j q q₀ hq hq₀ l hl
      by_cases e : i = j
      · subst e
        rw [List.getElem?_set_self hlt, Option.some.injEq] at hq
        subst hq
        rw [hr]
        exact hs.own i p q₀ hi hq₀ l hl
      · rw [List.getElem?_set_ne e] at hq
        have hj : j < ts.length := (List.getElem?_eq_some_iff.1 hq).1
        rw [← hs.own j q q₀ hq hq₀ l hl]
        apply run_agree (hs.conf j q hq) m' m
        · intro l' hl'
          apply hf
          intro hw
          have := hsep i j (by omega) (by omega) e l' hw
          rcases hl' with h | h
          · exact this.2 h
          · exact this.1 h
        · exact .inr hl
    · intro l hl
      show m' l = m₀ l
      rw [hf l (hl i (by omega))]
      exact hs.rest l hl

theorem Inv.steps {R W : Nat → Loc → Prop} {ts₀ : List Prog} {m₀ : Memory} (hsep : ∀ i j, i < ts₀.length → j < ts₀.length → i ≠ j → ∀ l, W i l → ¬ W j l ∧ ¬ R j l)
    (hc : ∀ i p, ts₀[i]? = some p → Confined (R i) (W i) p)
    {n : Nat} {t : List Prog × Memory} (h : Steps n (ts₀, m₀) t) : Inv R W ts₀ m₀ t.1 t.2 := by
  generalize hs : (ts₀, m₀) = s at h
  induction h with
  | refl =>
    subst hs
    refine ⟨rfl, hc, ?_, fun _ _ => rfl⟩
    intro i p p₀ h1 h2 l _
    rw [show p = p₀ from Option.some.inj (h1.symm.trans h2)]
  | snoc n s t u h hu ih => exact (ih hs).step hsep hu

/-! ## The calls -/

/-- `n` bytes of array `arr` from `off` on. -/
def bytesAt (m : Memory) (arr off n : Nat) : Bytes := (List.range n).map fun j => m.byte arr (off + j)

theorem bytesAt_succ (m : Memory) (arr off n : Nat) : bytesAt m arr off (n + 1) = m.byte arr off :: bytesAt m arr (off + 1) n := by
  unfold bytesAt
  rw [List.range_succ_eq_map, List.map_cons, List.map_map]
  congr 1
  apply List.map_congr_left
  intro j _
  show m.byte arr (off + (j + 1)) = m.byte arr (off + 1 + j)
  rw [show off + (j + 1) = off + 1 + j by omega]

theorem run_readBytes (arr : Nat) (m : Memory) : ∀ (n off : Nat) (k : Bytes → Prog), run (readBytes arr n off k) m = run (k (bytesAt m arr off n)) m
  | 0, _, _ => rfl
  | n + 1, off, k => by
    rw [bytesAt_succ]
    exact run_readBytes arr m n (off + 1) _

/-- Memory after bytes were written. -/
def writeAll (m : Memory) (arr : Nat) : Nat → Bytes → Memory
  | _, [] => m
  | off, b :: bs => writeAll (Function.update m (.byte arr off) b) arr (off + 1) bs

theorem run_writeBytes (arr : Nat) (k : Prog) : ∀ (bs : Bytes) (off : Nat) (m : Memory), run (writeBytes arr off bs k) m = run k (writeAll m arr off bs)
  | [], _, _ => rfl
  | b :: bs, off, m => by
    exact run_writeBytes arr k bs (off + 1) _

theorem writeAll_append (arr : Nat) : ∀ (bs cs : Bytes) (off : Nat) (m : Memory),
    writeAll (writeAll m arr off bs) arr (off + bs.length) cs = writeAll m arr off (bs ++ cs)
  | [], _, _, _ => rfl
  | b :: bs, cs, off, m => by
    rw [writeAll, List.length_cons, show off + (bs.length + 1) = off + 1 + bs.length by omega, writeAll_append arr bs]
    rfl

theorem writeAll_key (arr : Nat) (e : Bool) (i : Nat) : ∀ (bs : Bytes) (off : Nat) (m : Memory), (writeAll m arr off bs).word e i = m.word e i
  | [], _, _ => rfl
  | b :: bs, off, m => by
    rw [writeAll, writeAll_key arr e i bs]
    exact Function.update_of_ne (by simp) _ _

theorem writeAll_byte (arr a j : Nat) : ∀ (bs : Bytes) (off : Nat) (m : Memory),
    (writeAll m arr off bs).byte a j = if a = arr ∧ off ≤ j ∧ j < off + bs.length then bs.getD (j - off) 0 else m.byte a j
  | [], off, m => by rw [if_neg (by simp)]; rfl
  | b :: bs, off, m => by
    rw [writeAll, writeAll_byte arr a j bs]
    by_cases h : a = arr ∧ off + 1 ≤ j ∧ j < off + 1 + bs.length
    · rw [if_pos h, if_pos (by simp; omega), show j - off = j - (off + 1) + 1 by omega]
      rfl
    · rw [if_neg h]
      by_cases h' : a = arr ∧ off = j
      · obtain ⟨rfl, rfl⟩ := h'
        rw [if_pos (by simp), Nat.sub_self]
        exact Function.update_self ..
      · rw [if_neg (by simp; omega)]
        exact Function.update_of_ne (by simp; omega) _ _

theorem run_fourRoundsP (e : Bool) (m : Memory) (rk : List Word) (hk : ∀ i, i < 32 → m.word e i = rk.getD i 0) (x : W4) (i : Nat) (k : W4 → Prog)
    (h : i + 4 ≤ 32) : run (fourRoundsP e x i k) m = run (k (fourRounds rk x i)) m := by
  unfold fourRounds
  rw [← hk i (by omega), ← hk (i + 1) (by omega), ← hk (i + 2) (by omega), ← hk (i + 3) (by omega)]
  rfl

theorem run_roundsP (e : Bool) (m : Memory) (rk : List Word) (hk : ∀ i, i < 32 → m.word e i = rk.getD i 0) :
    ∀ (n i : Nat) (x : W4) (k : W4 → Prog), i + 4 * n ≤ 32 →
      run (roundsP e n i x k) m = run (k ((List.range n).foldl (fun x j => fourRounds rk x (i + 4 * j)) x)) m
  | 0, _, _, _, _ => rfl
  | n + 1, i, x, k, h => by
    rw [roundsP, run_fourRoundsP e m rk hk _ _ _ (by omega), run_roundsP e m rk hk n (i + 4) _ k (by omega), List.range_succ_eq_map,
      List.foldl_cons, List.foldl_map]
    have e4 : ∀ j : Nat, i + 4 + 4 * j = i + 4 * j.succ := by intro j; omega
    simp only [e4, Nat.mul_zero, Nat.add_zero]

/-- A call alone: the block is written to the destination. -/
theorem run_call (c : Call) (k : Prog) (m : Memory) (rk : List Word) (hk : ∀ i, i < 32 → m.word c.enc i = rk.getD i 0) :
    run (c.prog k) m = run k (writeAll m c.dstArr c.dstOff (processBlock rk (bytesAt m c.srcArr c.srcOff 16))) := by
  unfold Call.prog processBlockP
  rw [run_readBytes, run_roundsP _ _ rk hk _ _ _ _ (by omega), run_writeBytes, run_writeBytes, run_writeBytes, run_writeBytes]
  unfold processBlock rounds
  simp only [Nat.zero_add]
  generalize r _ = x
  have hl : ∀ w : Word, (put32 w).length = 4 := fun w => by simp [put32]
  rw [← writeAll_append, ← writeAll_append, ← writeAll_append]
  simp only [hl, List.length_append]

/-- The cells that the calls of a goroutine read. -/
def Reads (cs : List Call) : Loc → Prop
  | .byte a j => ∃ c ∈ cs, a = c.srcArr ∧ c.srcOff ≤ j ∧ j < c.srcOff + 16
  | .key _ _ => True

/-- The cells that they write. -/
def Writes (cs : List Call) : Loc → Prop
  | .byte a j => ∃ c ∈ cs, a = c.dstArr ∧ c.dstOff ≤ j ∧ j < c.dstOff + 16
  | .key _ _ => False

theorem confined_readBytes {R W : Loc → Prop} (arr : Nat) : ∀ (n off : Nat) (k : Bytes → Prog), (∀ j, j < n → R (.byte arr (off + j))) →
    (∀ bs, Confined R W (k bs)) → Confined R W (readBytes arr n off k)
  | 0, _, k, _, hk => hk []
  | n + 1, off, k, h, hk => .read _ _ (h 0 (by omega)) fun (v : Byte) =>
      confined_readBytes arr n (off + 1) _ (fun j hj => by have := h (j + 1) (by omega); rwa [show off + (j + 1) = off + 1 + j by omega] at this)
        fun _ => hk _

theorem confined_writeBytes {R W : Loc → Prop} (arr : Nat) (k : Prog) (hk : Confined R W k) : ∀ (bs : Bytes) (off : Nat),
    (∀ j, j < bs.length → W (.byte arr (off + j))) → Confined R W (writeBytes arr off bs k)
  | [], _, _ => hk
  | b :: bs, off, h => .write _ _ _ (h 0 (by simp)) (confined_writeBytes arr k hk bs (off + 1) fun j hj => by
      have := h (j + 1) (by simp; omega)
      rwa [show off + (j + 1) = off + 1 + j by omega] at this)

theorem confined_roundsP {R W : Loc → Prop} (e : Bool) (hR : ∀ i, R (.key e i)) : ∀ (n i : Nat) (x : W4) (k : W4 → Prog), (∀ x, Confined R W (k x)) →
    Confined R W (roundsP e n i x k)
  | 0, _, _, _, hk => hk _
  | n + 1, _, _, k, hk => .read _ _ (hR _) fun (_ : Word) => .read _ _ (hR _) fun (_ : Word) => .read _ _ (hR _) fun (_ : Word) =>
      .read _ _ (hR _) fun (_ : Word) => confined_roundsP e hR n _ _ k hk

theorem confined_call {R W : Loc → Prop} (c : Call) (k : Prog) (hk : Confined R W k) (hR : ∀ i, R (.key c.enc i))
    (hs : ∀ j, j < 16 → R (.byte c.srcArr (c.srcOff + j))) (hd : ∀ j, j < 16 → W (.byte c.dstArr (c.dstOff + j))) : Confined R W (c.prog k) := by
  have hl : ∀ w : Word, (put32 w).length = 4 := fun w => by simp [put32]
  unfold Call.prog processBlockP
  apply confined_readBytes _ _ _ _ hs
  intro inp
  apply confined_roundsP _ hR
  intro x
  refine confined_writeBytes _ _ (confined_writeBytes _ _ (confined_writeBytes _ _ (confined_writeBytes _ _ hk _ _ ?_) _ _ ?_) _ _ ?_) _ _ ?_
  all_goals
    intro j hj
    rw [hl] at hj
  · have := hd (12 + j) (by omega); rwa [← Nat.add_assoc] at this
  · have := hd (8 + j) (by omega); rwa [← Nat.add_assoc] at this
  · have := hd (4 + j) (by omega); rwa [← Nat.add_assoc] at this
  · exact hd j (by omega)

theorem confined_goroutine (cs : List Call) : Confined (Reads cs) (Writes cs) (goroutine cs) := by
  have gen : ∀ ds : List Call, (∀ c ∈ ds, c ∈ cs) → Confined (Reads cs) (Writes cs) (goroutine ds) := by
    intro ds
    induction ds with
    | nil => intro _; exact .done
    | cons c ds ih =>
      intro h
      refine confined_call c _ (ih fun c hc => h c (by simp [hc])) (fun _ => trivial) ?_ ?_
      · intro j hj; exact ⟨c, h c (by simp), rfl, by omega, by omega⟩
      · intro j hj; exact ⟨c, h c (by simp), rfl, by omega, by omega⟩
  exact gen cs fun _ h => h

/-! ## Numbers of accesses -/

/-- The program makes `n` accesses, whatever it reads. -/
inductive Len : Nat → Prog → Prop
  | done : Len 0 .done
  | read (n : Nat) (l : Loc) (k : Cell l → Prog) (hk : ∀ v, Len n (k v)) : Len (n + 1) (.read l k)
  | write (n : Nat) (l : Loc) (v : Cell l) (k : Prog) (hk : Len n k) : Len (n + 1) (.write l v k)

theorem Len.step {r : Nat} {p p' : Prog} {m m' : Memory} (hp : Len r p) (h : p.step m = some (p', m')) : ∃ r', r = r' + 1 ∧ Len r' p' := by
  cases hp with
  | done => cases h
  | read n l k hk =>
    unfold Prog.step at h
    rw [Option.some.injEq, Prod.mk.injEq] at h
    obtain ⟨rfl, rfl⟩ := h
    exact ⟨n, rfl, hk _⟩
  | write n l v k hk =>
    unfold Prog.step at h
    rw [Option.some.injEq, Prod.mk.injEq] at h
    obtain ⟨rfl, rfl⟩ := h
    exact ⟨n, rfl, hk⟩

theorem len_readBytes (arr r : Nat) : ∀ (n off : Nat) (k : Bytes → Prog), (∀ bs, Len r (k bs)) → Len (n + r) (readBytes arr n off k)
  | 0, _, _, hk => by rw [Nat.zero_add]; exact hk []
  | n + 1, off, k, hk => by
    rw [show n + 1 + r = n + r + 1 by omega]
    exact .read _ _ _ fun (v : Byte) => len_readBytes arr r n (off + 1) _ fun _ => hk _

theorem len_writeBytes (arr r : Nat) (k : Prog) (hk : Len r k) : ∀ (bs : Bytes) (off : Nat), Len (bs.length + r) (writeBytes arr off bs k)
  | [], _ => by rw [List.length_nil, Nat.zero_add]; exact hk
  | b :: bs, off => by
    rw [List.length_cons, show bs.length + 1 + r = bs.length + r + 1 by omega]
    exact .write _ _ _ _ (len_writeBytes arr r k hk bs (off + 1))

theorem len_roundsP (e : Bool) (r : Nat) : ∀ (n i : Nat) (x : W4) (k : W4 → Prog), (∀ x, Len r (k x)) → Len (4 * n + r) (roundsP e n i x k)
  | 0, _, _, _, hk => by rw [Nat.mul_zero, Nat.zero_add]; exact hk _
  | n + 1, _, _, k, hk => by
    rw [show 4 * (n + 1) + r = 4 * n + r + 1 + 1 + 1 + 1 by omega]
    exact .read _ _ _ fun (_ : Word) => .read _ _ _ fun (_ : Word) => .read _ _ _ fun (_ : Word) => .read _ _ _ fun (_ : Word) =>
      len_roundsP e r n _ _ k hk

theorem len_call (c : Call) (r : Nat) (k : Prog) (hk : Len r k) : Len (64 + r) (c.prog k) := by
  have hl : ∀ w : Word, (put32 w).length = 4 := fun w => by simp [put32]
  unfold Call.prog processBlockP
  have h := len_readBytes (k := fun inp => roundsP c.enc 8 0 (load inp) fun x =>
    let x := Sm4.r x
    writeBytes c.dstArr c.dstOff (put32 x.x0) (writeBytes c.dstArr (c.dstOff + 4) (put32 x.x1)
      (writeBytes c.dstArr (c.dstOff + 8) (put32 x.x2) (writeBytes c.dstArr (c.dstOff + 12) (put32 x.x3) k)))) c.srcArr (48 + r) 16 c.srcOff ?_
  · rwa [show 16 + (48 + r) = 64 + r by omega] at h
  intro bs
  have h2 := len_roundsP c.enc (16 + r) 8 0 (load bs) (fun x =>
    let x := Sm4.r x
    writeBytes c.dstArr c.dstOff (put32 x.x0) (writeBytes c.dstArr (c.dstOff + 4) (put32 x.x1)
      (writeBytes c.dstArr (c.dstOff + 8) (put32 x.x2) (writeBytes c.dstArr (c.dstOff + 12) (put32 x.x3) k)))) ?_
  · rwa [show 4 * 8 + (16 + r) = 48 + r by omega] at h2
  intro x
  have h3 := len_writeBytes c.dstArr r k hk (put32 (Sm4.r x).x3) (c.dstOff + 12)
  have h4 := len_writeBytes c.dstArr _ _ h3 (put32 (Sm4.r x).x2) (c.dstOff + 8)
  have h5 := len_writeBytes c.dstArr _ _ h4 (put32 (Sm4.r x).x1) (c.dstOff + 4)
  have h6 := len_writeBytes c.dstArr _ _ h5 (put32 (Sm4.r x).x0) c.dstOff
  rw [hl, hl, hl, hl, show 4 + (4 + (4 + (4 + r))) = 16 + r by omega] at h6
  exact h6

theorem len_goroutine : ∀ cs : List Call, Len (64 * cs.length) (goroutine cs)
  | [] => .done
  | c :: cs => by
    rw [List.length_cons, show 64 * (cs.length + 1) = 64 + 64 * cs.length by omega]
    exact len_call c _ _ (len_goroutine cs)

theorem sum_set_pred (f : List Nat) (i r : Nat) (h : f[i]? = some (r + 1)) : (f.set i r).sum + 1 = f.sum := by
  induction f generalizing i with
  | nil => simp at h
  | cons a f ih =>
    cases i with
    | zero =>
      rw [List.getElem?_cons_zero, Option.some.injEq] at h
      rw [List.set_cons_zero, List.sum_cons, List.sum_cons]
      omega
    | succ i =>
      rw [List.getElem?_cons_succ] at h
      rw [List.set_cons_succ, List.sum_cons, List.sum_cons, ← ih i h]
      omega

/-- Accesses made and accesses left. -/
theorem steps_len {n : Nat} {s t : List Prog × Memory} (h : Steps n s t) (f : List Nat) (hl : f.length = s.1.length)
    (hf : ∀ (i r : Nat) (p : Prog), f[i]? = some r → s.1[i]? = some p → Len r p) :
    ∃ g : List Nat, g.length = t.1.length ∧ (∀ (i r : Nat) (p : Prog), g[i]? = some r → t.1[i]? = some p → Len r p) ∧ n + g.sum = f.sum := by
  induction h with
  | refl s => exact ⟨f, hl, hf, by omega⟩
  | snoc n s t u h hu ih =>
    obtain ⟨g, h1, h2, h3⟩ := ih hl hf
    cases hu with
    | access ts m i p p' m' hi hp =>
      have hlt : i < g.length := by
        rw [h1]
        exact (List.getElem?_eq_some_iff.1 hi).1
      obtain ⟨r, hr, hlen⟩ := (h2 i _ p (List.getElem?_eq_getElem hlt) hi).step hp
      refine ⟨g.set i r, by simpa using h1, ?_, ?_⟩
      · intro j q p'' hq hp''
        by_cases e : i = j
        · subst e
          rw [List.getElem?_set_self hlt, Option.some.injEq] at hq
          rw [List.getElem?_set_self (by rw [h1] at hlt; exact hlt), Option.some.injEq] at hp''
          rw [← hq, ← hp'']
          exact hlen
        · rw [List.getElem?_set_ne e] at hq hp''
          exact h2 j q p'' hq hp''
      · have := sum_set_pred g i r (by rw [List.getElem?_eq_getElem hlt, hr])
        omega

end Verif.Sm4.Conc
