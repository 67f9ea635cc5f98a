import Verif.EC.Store
/-!
# Several goroutines that work on numbers in memory

The programs of `Verif.EC.Store` with their accesses interleaved in any order. There are the numbers that existed before the goroutines
started (`shared`), which all of them can read and write, and the numbers that a goroutine has allocated itself, which nobody else has a
pointer to. For a goroutine the pointers below `shared.length` are those of the shared numbers, the others those of its own. That memory is
sequentially consistent is assumed; the Go memory model promises this for programs without data races.
-/
namespace Verif.EC.Store

/-- A goroutine: what it still has to do, and the numbers that it has allocated. -/
structure Thread (α : Type) where
  prog : M α
  own : List Int

/-- The goroutine has ended, with a value or a failure. -/
def M.ended {α : Type} : M α → Bool
  | .pure _ => true
  | .fail _ => true
  | _ => false

/-- One access. -/
def Thread.step {α : Type} (t : Thread α) (shared : Mem) : Option (Thread α × Mem) :=
  match t.prog with
  | .pure _ => none
  | .fail _ => none
  | .read p k => some (⟨k (if p < shared.length then rd shared p else rd t.own (p - shared.length)), t.own⟩, shared)
  | .write z v k => if z < shared.length then some (⟨k, t.own⟩, shared.set z v) else some (⟨k, t.own.set (z - shared.length) v⟩, shared)
  | .alloc k => some (⟨k (shared.length + t.own.length), t.own ++ [0]⟩, shared)

/-- The number that the next access is about, and whether it is a write; `none` for an allocation and at the end. -/
def M.next {α : Type} : M α → Option (Ptr × Bool)
  | .read p _ => some (p, false)
  | .write z _ _ => some (z, true)
  | _ => none

/-- One of the goroutines makes an access. -/
inductive Step {α : Type} : Mem × List (Thread α) → Mem × List (Thread α) → Prop
  | access (shared shared' : Mem) (ts : List (Thread α)) (i : Nat) (t t' : Thread α) (hi : ts[i]? = some t)
      (ht : t.step shared = some (t', shared')) : Step (shared, ts) (shared', ts.set i t')

/-- `n` accesses. -/
inductive Steps {α : Type} : Nat → Mem × List (Thread α) → Mem × List (Thread α) → Prop
  | refl (s : Mem × List (Thread α)) : Steps 0 s s
  | snoc (n : Nat) (s t u : Mem × List (Thread α)) (h : Steps n s t) (hu : Step t u) : Steps (n + 1) s u

/-- All goroutines before their first access. -/
def start {α : Type} (ps : List (M α)) : List (Thread α) := ps.map fun p => ⟨p, []⟩

/-- The number of accesses of a program that works alone. -/
def M.work {α : Type} : M α → Mem → Nat
  | .pure _, _ => 0
  | .fail _, _ => 0
  | .read p k, m => (k (rd m p)).work m + 1
  | .write z v k, m => k.work (m.set z v) + 1
  | .alloc k, m => (k m.length).work (m ++ [0]) + 1

/-- Whatever the numbers in memory are, the program writes only numbers from `n` on and ends with a value that has the property `Q`;
what it allocates is from `n` on. -/
def Writes {α : Type} (n : Nat) : M α → (α → Prop) → Prop
  | .pure a, Q => Q a
  | .fail _, _ => True
  | .read _ k, Q => ∀ v, Writes n (k v) Q
  | .write z _ k, Q => n ≤ z ∧ Writes n k Q
  | .alloc k, Q => ∀ p, n ≤ p → Writes n (k p) Q

theorem Writes.mono {α : Type} {n : Nat} {Q R : α → Prop} (hQ : ∀ a, Q a → R a) : ∀ {x : M α}, Writes n x Q → Writes n x R := by
  intro x
  induction x with
  | pure a => exact hQ a
  | fail e => exact fun _ => trivial
  | read p k ih => exact fun h v => ih v (h v)
  | write z v k ih => exact fun h => ⟨h.1, ih h.2⟩
  | alloc k ih => exact fun h p hp => ih p (h p hp)

theorem Writes.bind {α β : Type} {n : Nat} {Q : α → Prop} {R : β → Prop} {x : M α} {f : α → M β} (hx : Writes n x Q)
    (hf : ∀ a, Q a → Writes n (f a) R) : Writes n (x >>= f) R := by
  show Writes n (M.bind x f) R
  induction x with
  | pure a => exact hf a hx
  | fail e => trivial
  | read p k ih => exact fun v => ih v (hx v)
  | write z v k ih => exact ⟨hx.1, ih hx.2⟩
  | alloc k ih => exact fun p hp => ih p (hx p hp)

/-! ## Interleaving -/

/-- Every goroutine, continued alone, ends as it would have ended alone from the beginning, and has that much less to do. -/
structure Inv {α : Type} (m : Mem) (ps : List (M α)) (n : Nat) (s : Mem × List (Thread α)) : Prop where
  shared : s.1 = m
  len : s.2.length = ps.length
  run : ∀ (i : Nat) (p : M α) (t : Thread α), ps[i]? = some p → s.2[i]? = some t → t.prog.run (m ++ t.own) = p.run m ∧ Writes m.length t.prog (fun _ => True)
  work : n + (s.2.map fun t => t.prog.work (m ++ t.own)).sum = (ps.map fun p => p.work m).sum

theorem rd_view (m : Mem) (L : List Int) (p : Ptr) : (if p < m.length then rd m p else rd L (p - m.length)) = rd (m ++ L) p := by
  unfold rd
  split
  · rename_i h; rw [List.getD_append _ _ _ _ h]
  · rename_i h; rw [List.getD_append_right _ _ _ _ (Nat.le_of_not_lt h)]

theorem sum_set : ∀ (l : List Nat) (i a b : Nat), l[i]? = some (a + 1) → b = a → (l.set i b).sum + 1 = l.sum
  | [], _, _, _, h, _ => by simp at h
  | x :: l, 0, a, b, h, hb => by simp at h; simp; omega
  | x :: l, i + 1, a, b, h, hb => by
    have := sum_set l i a b (by simpa using h) hb
    simp only [List.set_cons_succ, List.sum_cons]
    omega

theorem Inv.next {α : Type} {m : Mem} {ps : List (M α)} {n : Nat} {s u : Mem × List (Thread α)} (h : Inv m ps n s) (hu : Step s u) :
    Inv m ps (n + 1) u := by
  cases hu with
  | access shared shared' ts i t t' hi ht =>
    obtain ⟨h1, h2, h3, h4⟩ := h
    dsimp only at h1 h2 h3 h4
    subst h1
    have hlt : i < ts.length := (List.getElem?_eq_some_iff.1 hi).1
    obtain ⟨p, hp⟩ : ∃ p, ps[i]? = some p := ⟨ps[i]'(by omega), List.getElem?_eq_getElem _⟩
    obtain ⟨hrun, hw⟩ := h3 i p t hp hi
    have key : shared' = shared ∧ t'.prog.run (shared ++ t'.own) = t.prog.run (shared ++ t.own) ∧ Writes shared.length t'.prog (fun _ => True) ∧
        t.prog.work (shared ++ t.own) = t'.prog.work (shared ++ t'.own) + 1 := by
      obtain ⟨pr, own⟩ := t
      cases pr with
      | pure a => cases ht
      | fail e => cases ht
      | read q k =>
        simp only [Thread.step, rd_view, Option.some.injEq, Prod.mk.injEq] at ht
        obtain ⟨rfl, rfl⟩ := ht
        exact ⟨rfl, rfl, hw _, rfl⟩
      | write z v k =>
        have hz : ¬ z < shared.length := Nat.not_lt.2 hw.1
        simp only [Thread.step, if_neg hz, Option.some.injEq, Prod.mk.injEq] at ht
        obtain ⟨rfl, rfl⟩ := ht
        have e : (shared ++ own).set z v = shared ++ own.set (z - shared.length) v := by rw [List.set_append_right _ _ hw.1]
        refine ⟨rfl, ?_, hw.2, ?_⟩
        · simp only [M.run, e]
        · simp only [M.work, e]
      | alloc k =>
        simp only [Thread.step, Option.some.injEq, Prod.mk.injEq] at ht
        obtain ⟨rfl, rfl⟩ := ht
        refine ⟨rfl, ?_, hw _ (Nat.le_add_right _ _), ?_⟩
        · simp only [M.run, List.length_append, List.append_assoc]
        · simp only [M.work, List.length_append, List.append_assoc]
    obtain ⟨rfl, k1, k2, k3⟩ := key
    refine ⟨rfl, by simpa using h2, ?_, ?_⟩
    · intro j q t2 hq ht2
      dsimp only at ht2
      rw [List.getElem?_set] at ht2
      split at ht2
      · rename_i hij
        subst hij
        simp only [Option.some.injEq] at ht2
        subst ht2
        rw [hp, Option.some.injEq] at hq
        subst hq
        exact ⟨k1.trans hrun, k2⟩
      · exact h3 j q t2 hq ht2
    · dsimp only
      rw [← h4, List.map_set]
      have := sum_set (ts.map fun t => t.prog.work (shared' ++ t.own)) i (t'.prog.work (shared' ++ t'.own)) _
        (by rw [List.getElem?_map, hi, Option.map_some, k3]) rfl
      omega

theorem Inv.start {α : Type} (m : Mem) (ps : List (M α)) (hs : ∀ p ∈ ps, Writes m.length p (fun _ => True)) : Inv m ps 0 (m, Store.start ps) := by
  refine ⟨rfl, by simp [Store.start], ?_, ?_⟩
  · intro i p t hp ht
    simp only [Store.start, List.getElem?_map, hp, Option.map_some, Option.some.injEq] at ht
    subst ht
    exact ⟨by rw [List.append_nil], hs p (List.mem_of_getElem? hp)⟩
  · simp only [Store.start, List.map_map, Function.comp_def, List.append_nil, Nat.zero_add]

theorem Inv.steps {α : Type} {m : Mem} {ps : List (M α)} (hs : ∀ p ∈ ps, Writes m.length p (fun _ => True)) {n : Nat}
    {s u : Mem × List (Thread α)} (h : Steps n s u) (hst : s = (m, Store.start ps)) : Inv m ps n u := by
  induction h with
  | refl s => subst hst; exact Inv.start m ps hs
  | snoc n s t u h hu ih => exact (ih hst).next hu

/-- A goroutine that has not ended can make an access. -/
theorem Thread.can {α : Type} (t : Thread α) (shared : Mem) (h : t.prog.ended = false) : ∃ r, t.step shared = some r := by
  obtain ⟨pr, own⟩ := t
  cases pr with
  | pure a => cases h
  | fail e => cases h
  | read q k => exact ⟨_, rfl⟩
  | write z v k =>
    simp only [Thread.step]
    split <;> exact ⟨_, rfl⟩
  | alloc k => exact ⟨_, rfl⟩

theorem work_ended {α : Type} {x : M α} (h : x.ended = true) (m : Mem) : x.work m = 0 := by
  cases x <;> first | rfl | cases h

theorem Steps.trans {α : Type} {a b : Nat} {s t u : Mem × List (Thread α)} (h1 : Steps a s t) (h2 : Steps b t u) : Steps (a + b) s u := by
  induction h2 with
  | refl s => exact h1
  | snoc n s t u h hu ih => exact .snoc _ _ _ _ (ih h1) hu

/-- One goroutine can work to its end while the others wait. -/
theorem alone {α : Type} (m : Mem) : ∀ (ts : List (Thread α)) (i : Nat) (x : M α) (own : List Int), ts[i]? = some ⟨x, own⟩ →
    Writes m.length x (fun _ => True) →
    ∃ n t, Steps n (m, ts) (m, ts.set i t) ∧ t.prog.ended = true ∧ t.prog.run (m ++ t.own) = x.run (m ++ own) := by
  intro ts i x own hi hw
  have hset : ∀ (t : Thread α), ts[i]? = some t → ts.set i t = ts := by
    intro t ht
    obtain ⟨h1, h2⟩ := List.getElem?_eq_some_iff.1 ht
    rw [← h2]
    exact List.set_getElem_self h1
  have hlt : i < ts.length := (List.getElem?_eq_some_iff.1 hi).1
  suffices h : ∀ own, Writes m.length x (fun _ => True) →
      ∃ n t, Steps n (m, ts.set i ⟨x, own⟩) (m, ts.set i t) ∧ t.prog.ended = true ∧ t.prog.run (m ++ t.own) = x.run (m ++ own) by
    have := h own hw
    rwa [hset _ hi] at this
  clear hi hw hset own
  have one : ∀ (y : M α) (own own' : List Int) (y' : M α), Thread.step ⟨y, own⟩ m = some (⟨y', own'⟩, m) →
      Steps 1 (m, ts.set i ⟨y, own⟩) (m, ts.set i ⟨y', own'⟩) := by
    intro y own own' y' h
    refine .snoc 0 _ _ _ (.refl _) ?_
    have := Step.access m m (ts.set i ⟨y, own⟩) i _ _ (by rw [List.getElem?_set_self hlt]) h
    rwa [List.set_set] at this
  induction x with
  | pure a => exact fun own _ => ⟨0, ⟨.pure a, own⟩, .refl _, rfl, rfl⟩
  | fail e => exact fun own _ => ⟨0, ⟨.fail e, own⟩, .refl _, rfl, rfl⟩
  | read p k ih =>
    intro own hw
    obtain ⟨n, t, h1, h2, h3⟩ := ih (rd (m ++ own) p) own (hw _)
    exact ⟨_, t, (one _ _ _ _ (by simp only [Thread.step, rd_view])).trans h1, h2, h3⟩
  | write z v k ih =>
    intro own hw
    have e : (m ++ own).set z v = m ++ own.set (z - m.length) v := by rw [List.set_append_right _ _ hw.1]
    obtain ⟨n, t, h1, h2, h3⟩ := ih (own.set (z - m.length) v) hw.2
    exact ⟨_, t, (one _ _ _ _ (by simp only [Thread.step, if_neg (Nat.not_lt.2 hw.1)])).trans h1, h2, by rw [h3]; simp only [M.run, e]⟩
  | alloc k ih =>
    intro own hw
    obtain ⟨n, t, h1, h2, h3⟩ := ih (m.length + own.length) (own ++ [0]) (hw _ (Nat.le_add_right _ _))
    exact ⟨_, t, (one _ _ _ _ rfl).trans h1, h2, by rw [h3]; simp only [M.run, List.length_append, List.append_assoc]⟩

end Verif.EC.Store
