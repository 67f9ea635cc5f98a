import Verif.Sm4.ConcLemmas
import Verif.Sm4.Spec
/-!
# C119: one SM4 cipher used by several goroutines

Every goroutine makes calls of `Encrypt` and `Decrypt` of one cipher; the accesses to memory of all goroutines are interleaved in any
order. The goroutines share the cipher and may read the same bytes; what one of them writes no other reads or writes. The windows of one
goroutine may overlap in any way.
-/
namespace Verif.Props
open Verif Verif.Sm4 Verif.Sm4.Conc

/-- The byte is in the destination of one of the calls. -/
def InDst (cs : List Call) (a j : Nat) : Prop := ∃ c ∈ cs, a = c.dstArr ∧ c.dstOff ≤ j ∧ j < c.dstOff + 16

/-- The byte is in the source of one of the calls. -/
def InSrc (cs : List Call) (a j : Nat) : Prop := ∃ c ∈ cs, a = c.srcArr ∧ c.srcOff ≤ j ∧ j < c.srcOff + 16

/-- What one goroutine writes no other reads or writes. -/
def Separate (gs : List (List Call)) : Prop :=
  ∀ (i j : Nat) (cs ds : List Call), i ≠ j → gs[i]? = some cs → gs[j]? = some ds → ∀ a k, InDst cs a k → ¬ InDst ds a k ∧ ¬ InSrc ds a k

/-- The memory holds the cipher that `NewCipher` makes of the key. -/
def HoldsCipher (m : Memory) (key : Bytes) : Prop :=
  ∃ c, newCipher key = .ok c ∧ (∀ i, i < 32 → m.word true i = c.enc.getD i 0) ∧ ∀ i, i < 32 → m.word false i = c.dec.getD i 0

/-- What the standard says about a call: the destination becomes the block of the source, all other bytes stay. -/
def afterCall (key : Bytes) (b : Nat → Nat → Byte) (c : Call) : Nat → Nat → Byte := fun a j =>
  let src := (List.range 16).map fun i => b c.srcArr (c.srcOff + i)
  if a = c.dstArr ∧ c.dstOff ≤ j ∧ j < c.dstOff + 16 then
    (if c.enc then Spec.SM4.encrypt key src else Spec.SM4.decrypt key src).getD (j - c.dstOff) 0
  else b a j

theorem run_goroutine (key : Bytes) (cs : List Call) (m : Memory) (hm : HoldsCipher m key) (a j : Nat) :
    (run (goroutine cs) m).byte a j = cs.foldl (afterCall key) m.byte a j := by
  induction cs generalizing m with
  | nil => rfl
  | cons c cs ih =>
    obtain ⟨ci, hci, he, hd⟩ := hm
    obtain ⟨_, hce, hcd⟩ := newCipher_ok hci
    rw [hce] at he
    rw [hcd] at hd
    have hk : ∀ i, i < 32 → m.word c.enc i = (expandKey key c.enc).getD i 0 := by
      cases c.enc
      · exact hd
      · exact he
    have hrun : run (goroutine (c :: cs)) m = _ := run_call c (goroutine cs) m _ hk
    rw [hrun, ih, List.foldl_cons]
    · refine congrArg (fun b => List.foldl (afterCall key) b cs a j) ?_
      funext a' j'
      rw [writeAll_byte, length_processBlock]
      unfold afterCall
      have : processBlock (expandKey key c.enc) (bytesAt m c.srcArr c.srcOff 16) =
          if c.enc then Spec.SM4.encrypt key (bytesAt m c.srcArr c.srcOff 16) else Spec.SM4.decrypt key (bytesAt m c.srcArr c.srcOff 16) := by
        cases c.enc
        · exact processBlock_dec _ _
        · exact processBlock_enc _ _
      rw [this]
      rfl
    · refine ⟨ci, hci, ?_, ?_⟩
      · intro i hi; rw [writeAll_key, hce]; exact he i hi
      · intro i hi; rw [writeAll_key, hcd]; exact hd i hi

/-- The cells of the goroutines. -/
theorem sep_cells {gs : List (List Call)} (hs : Separate gs) : ∀ i j, i < (gs.map goroutine).length → j < (gs.map goroutine).length → i ≠ j → ∀ l,
    Writes (gs.getD i []) l → ¬ Writes (gs.getD j []) l ∧ ¬ Reads (gs.getD j []) l := by
  intro i j hi hj hne l hl
  rw [List.length_map] at hi hj
  rw [List.getD_eq_getElem?_getD, List.getElem?_eq_getElem hi, Option.getD_some] at hl
  rw [List.getD_eq_getElem?_getD, List.getElem?_eq_getElem hj, Option.getD_some]
  cases l with
  | byte a k => exact hs i j _ _ hne (List.getElem?_eq_getElem hi) (List.getElem?_eq_getElem hj) a k hl
  | key e k => exact absurd hl id

theorem conf_cells (gs : List (List Call)) : ∀ i p, (gs.map goroutine)[i]? = some p → Confined (Reads (gs.getD i [])) (Writes (gs.getD i [])) p := by
  intro i p hp
  rw [List.getElem?_map, Option.map_eq_some_iff] at hp
  obtain ⟨cs, hcs, rfl⟩ := hp
  rw [List.getD_eq_getElem?_getD, hcs]
  exact confined_goroutine cs

/-- When all goroutines are done, each finds in its destinations what it would find had it run alone, according to the standard; all other
bytes are unchanged, and so are the round keys. -/
theorem C119_results (key : Bytes) (gs : List (List Call)) (hs : Separate gs) (m₀ m : Memory) (hm : HoldsCipher m₀ key) (n : Nat)
    (ts : List Prog) (h : Steps n (gs.map goroutine, m₀) (ts, m)) (hdone : ∀ p ∈ ts, p = .done) :
    (∀ (i : Nat) (cs : List Call), gs[i]? = some cs → ∀ a j, InDst cs a j → m.byte a j = cs.foldl (afterCall key) m₀.byte a j) ∧
    (∀ a j, (∀ cs ∈ gs, ¬ InDst cs a j) → m.byte a j = m₀.byte a j) ∧
    (∀ e i, m.word e i = m₀.word e i) := by
  have inv := Inv.steps (sep_cells hs) (conf_cells gs) h
  have hlen : ts.length = gs.length := by have := inv.len; simpa using this
  refine ⟨?_, ?_, ?_⟩
  · intro i cs hcs a j hd
    have hi : i < ts.length := by rw [hlen]; exact (List.getElem?_eq_some_iff.1 hcs).1
    have h1 := inv.own i ts[i] (goroutine cs) (List.getElem?_eq_getElem hi) (by rw [List.getElem?_map, hcs]; rfl) (.byte a j)
      (by rw [List.getD_eq_getElem?_getD, hcs]; exact hd)
    rw [hdone _ (List.getElem_mem hi)] at h1
    rw [← run_goroutine key cs m₀ hm]
    exact h1
  · intro a j hd
    apply inv.rest
    intro i hi
    rw [List.length_map] at hi
    rw [List.getD_eq_getElem?_getD, List.getElem?_eq_getElem hi]
    exact hd _ (List.getElem_mem hi)
  · intro e i
    apply inv.rest
    intro j _ hw
    exact hw

/-- At no time do two goroutines have a conflicting access before them: where two of them are about to access the same cell, both read. -/
theorem C119_no_race (gs : List (List Call)) (hs : Separate gs) (m₀ m : Memory) (n : Nat) (ts : List Prog)
    (h : Steps n (gs.map goroutine, m₀) (ts, m)) (i j : Nat) (p q : Prog) (hij : i ≠ j) (hi : ts[i]? = some p) (hj : ts[j]? = some q)
    (l : Loc) (w w' : Bool) (hp : p.next = some (l, w)) (hq : q.next = some (l, w')) : w = false ∧ w' = false := by
  have inv := Inv.steps (sep_cells hs) (conf_cells gs) h
  have hlen : ts.length = (gs.map goroutine).length := inv.len
  have hil : i < (gs.map goroutine).length := by rw [← hlen]; exact (List.getElem?_eq_some_iff.1 hi).1
  have hjl : j < (gs.map goroutine).length := by rw [← hlen]; exact (List.getElem?_eq_some_iff.1 hj).1
  have acc : ∀ (R W : Loc → Prop) (p : Prog) (w : Bool), Confined R W p → p.next = some (l, w) → if w then W l else R l := by
    intro R W p w hc hn
    cases hc with
    | done => cases hn
    | read l' k hl hk => simp only [Prog.next, Option.some.injEq, Prod.mk.injEq] at hn; obtain ⟨rfl, rfl⟩ := hn; exact hl
    | write l' v k hl hk => simp only [Prog.next, Option.some.injEq, Prod.mk.injEq] at hn; obtain ⟨rfl, rfl⟩ := hn; exact hl
  have h1 := acc _ _ p w (inv.conf i p hi) hp
  have h2 := acc _ _ q w' (inv.conf j q hj) hq
  have s1 := sep_cells hs i j hil hjl hij l
  have s2 := sep_cells hs j i hjl hil (Ne.symm hij) l
  cases w <;> cases w'
  · exact ⟨rfl, rfl⟩
  · exact absurd h1 (s2 h2).2
  · exact absurd h2 (s1 h1).2
  · exact absurd h2 (s1 h1).1

/-- A call takes 64 accesses: no schedule makes more, all are done after exactly so many, and until then some goroutine can go on. -/
theorem C119_finishes (gs : List (List Call)) (m₀ m : Memory) (n : Nat) (ts : List Prog) (h : Steps n (gs.map goroutine, m₀) (ts, m)) :
    n ≤ 64 * (gs.map List.length).sum ∧ (n = 64 * (gs.map List.length).sum ↔ ∀ p ∈ ts, p = .done) ∧
    ((∃ p ∈ ts, p ≠ .done) → ∃ t, Step (ts, m) t) := by
  obtain ⟨g, h1, h2, h3⟩ := steps_len h (gs.map fun cs => 64 * cs.length) (by simp) (by
    intro i r p hr hp
    simp only [List.getElem?_map, Option.map_eq_some_iff] at hr hp
    obtain ⟨cs, hcs, rfl⟩ := hr
    obtain ⟨ds, hds, rfl⟩ := hp
    rw [hcs, Option.some.injEq] at hds
    rw [hds]
    exact len_goroutine ds)
  have hsum : (gs.map fun cs => 64 * cs.length).sum = 64 * (gs.map List.length).sum := by
    clear h2 h3 h h1
    induction gs with
    | nil => rfl
    | cons cs gs ih => simp only [List.map_cons, List.sum_cons]; rw [ih]; omega
  rw [hsum] at h3
  have hzero : g.sum = 0 ↔ ∀ p ∈ ts, p = .done := by
    constructor
    · intro h0 p hp
      obtain ⟨i, hi, rfl⟩ := List.getElem_of_mem hp
      have hig : i < g.length := by rw [h1]; exact hi
      have hl := h2 i g[i] ts[i] (List.getElem?_eq_getElem hig) (List.getElem?_eq_getElem hi)
      have : g[i] = 0 := by
        exact List.sum_eq_zero_iff_forall_eq_nat.1 h0 _ (List.getElem_mem hig)
      rw [this] at hl
      generalize ts[i] = p at hl
      cases hl
      rfl
    · intro hd
      apply List.sum_eq_zero_iff_forall_eq_nat.2
      intro r hr
      obtain ⟨i, hi, rfl⟩ := List.getElem_of_mem hr
      have hit : i < ts.length := by rw [h1] at hi; exact hi
      have hl := h2 i g[i] ts[i] (List.getElem?_eq_getElem hi) (List.getElem?_eq_getElem hit)
      rw [hd _ (List.getElem_mem hit)] at hl
      generalize g[i] = r at hl
      cases hl
      rfl
  refine ⟨by omega, by rw [← hzero]; omega, ?_⟩
  rintro ⟨p, hp, hne⟩
  obtain ⟨i, hi, rfl⟩ := List.getElem_of_mem hp
  cases e : ts[i] with
  | done => exact absurd e hne
  | read l k => exact ⟨_, .access ts m i _ _ m (List.getElem?_eq_getElem hi) (by rw [e]; rfl)⟩
  | write l v k => exact ⟨_, .access ts m i _ _ _ (List.getElem?_eq_getElem hi) (by rw [e]; rfl)⟩

/-- Two goroutines: one encrypts a block of array 0 in place and then again, the other decrypts two overlapping windows of array 1
into array 2 and reads the same source twice. -/
def exGoroutines : List (List Call) :=
  [[⟨true, 0, 0, 0, 0⟩, ⟨true, 0, 0, 0, 0⟩], [⟨false, 2, 0, 1, 0⟩, ⟨false, 2, 8, 1, 0⟩]]

theorem ex_separate : Separate exGoroutines := by
  intro i j cs ds hij hi hj a k
  have hi' : i = 0 ∨ i = 1 := by have := (List.getElem?_eq_some_iff.1 hi).1; simp [exGoroutines] at this; omega
  have hj' : j = 0 ∨ j = 1 := by have := (List.getElem?_eq_some_iff.1 hj).1; simp [exGoroutines] at this; omega
  rcases hi' with rfl | rfl <;> rcases hj' with rfl | rfl
  · exact absurd rfl hij
  · simp [exGoroutines] at hi hj
    subst hi hj
    simp [InDst, InSrc]
    omega
  · simp [exGoroutines] at hi hj
    subst hi hj
    simp [InDst, InSrc]
    omega
  · exact absurd rfl hij

/-- A memory with the cipher of a key. -/
def exMemory (key : Bytes) : Memory
  | .byte a j => BitVec.ofNat 8 (a + j)
  | .key e i => (expandKey key e).getD i 0

example (key : Bytes) (hk : key.length = 16) : HoldsCipher (exMemory key) key :=
  ⟨⟨expandKey key true, expandKey key false⟩, by unfold newCipher; rw [if_neg (by omega)], fun _ _ => rfl, fun _ _ => rfl⟩

/-- A schedule that ends exists: by `C119_finishes` every schedule can be continued until all are done. -/
example (m₀ : Memory) : ∃ ts m, Steps 256 (exGoroutines.map goroutine, m₀) (ts, m) ∧ ∀ p ∈ ts, p = .done := by
  have go : ∀ n, n ≤ 256 → ∃ ts m, Steps n (exGoroutines.map goroutine, m₀) (ts, m) := by
    intro n
    induction n with
    | zero => intro _; exact ⟨_, _, .refl _⟩
    | succ n ih =>
      intro hn
      obtain ⟨ts, m, h⟩ := ih (by omega)
      obtain ⟨_, h2, h3⟩ := C119_finishes _ _ _ _ _ h
      have h256 : 64 * (exGoroutines.map List.length).sum = 256 := rfl
      rw [h256] at h2
      obtain ⟨⟨ts', m'⟩, ht⟩ := h3 (by
        by_contra hc
        have := h2.2 (fun p hp => by by_contra hne; exact hc ⟨p, hp, hne⟩)
        omega)
      exact ⟨ts', m', .snoc _ _ _ _ h ht⟩
  obtain ⟨ts, m, h⟩ := go 256 (by omega)
  exact ⟨ts, m, h, (C119_finishes _ _ _ _ _ h).2.1.1 rfl⟩

end Verif.Props
