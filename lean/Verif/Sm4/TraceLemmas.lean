import Verif.Sm4.Trace
import Verif.Sm4.Lemmas
/-! The indices in terms of the standard's recurrences. -/
namespace Verif.Sm4
open Verif

theorem readTable_eq (as : Bytes) : readTable as = (as.map sBox, as) := by
  induction as with
  | nil => rfl
  | cons a as ih => simp [readTable, ih]

theorem tApT_eq (z : Word) : tApT z = (tAp z, put32 z) := by simp [tApT, tauT, readTable_eq, tAp, tau]
theorem tT_eq (z : Word) : tT z = (t z, put32 z) := by simp [tT, tauT, readTable_eq, t, tau]

/-- The words looked up by `expandKey`, per round. -/
def keyLookup (key : Bytes) (i : Nat) : Word :=
  Spec.SM4.K key (i + 1) ^^^ Spec.SM4.K key (i + 2) ^^^ Spec.SM4.K key (i + 3) ^^^ cK.getD i 0

/-- The words looked up by `processBlock`, per round. -/
def blockLookup (k : Nat → Word) (inp : Bytes) (i : Nat) : Word :=
  Spec.SM4.X k inp (i + 1) ^^^ Spec.SM4.X k inp (i + 2) ^^^ Spec.SM4.X k inp (i + 3) ^^^ k i

theorem expInit_inv (key : Bytes) (forEnc : Bool) :
    ExpInv key (fun j => if forEnc then j else 31 - j) 0 (expandInit key, List.replicate 32 0) := by
  refine ⟨rfl, by simp, ?_, fun j hj => by omega⟩
  intro j _ hj
  have : j = 0 ∨ j = 1 ∨ j = 2 ∨ j = 3 := by omega
  rcases this with rfl | rfl | rfl | rfl <;> rfl

theorem expandFoldT (key : Bytes) (forEnc : Bool) (m : Nat) (hm : m ≤ 32) :
    (List.range m).foldl (expandStepT forEnc) ((expandInit key, List.replicate 32 0), []) =
      ((List.range m).foldl (expandStep forEnc) (expandInit key, List.replicate 32 0),
        (List.range m).flatMap fun i => put32 (keyLookup key i)) := by
  induction m with
  | zero => rfl
  | succ m ih =>
    have inv := expandFold_inv m (by omega) _ (expInit_inv key forEnc)
    rw [List.range_succ, List.foldl_append, List.foldl_append, List.flatMap_append, ih (by omega)]
    generalize (List.range m).foldl (expandStep forEnc) (expandInit key, List.replicate 32 0) = st at inv
    obtain ⟨x, rk⟩ := st
    simp only [List.foldl_cons, List.foldl_nil, List.flatMap_cons, List.flatMap_nil, List.append_nil, expandStepT, expandStep, tApT_eq]
    have h1 := inv.hx (m + 1) (by omega) (by omega)
    have h2 := inv.hx (m + 2) (by omega) (by omega)
    have h3 := inv.hx (m + 3) (by omega) (by omega)
    simp only at h1 h2 h3
    rw [h1, h2, h3]
    rfl

theorem expandKeyT_eq (key : Bytes) (forEnc : Bool) :
    expandKeyT key forEnc = (expandKey key forEnc, (List.range 32).flatMap fun i => put32 (keyLookup key i)) := by
  unfold expandKeyT expandKey
  rw [expandFoldT key forEnc 32 (Nat.le_refl _)]

theorem roundsT (ks : List Word) (k : Nat → Word) (hk : ∀ j, j < 32 → ks.getD j 0 = k j) (inp : Bytes) (m : Nat) (hm : m ≤ 8) :
    (List.range m).foldl (fun st j => fourRoundsT ks st (4 * j)) (load inp, []) =
      ((List.range m).foldl (fun x j => fourRounds ks x (4 * j)) (load inp),
        (List.range (4 * m)).flatMap fun i => put32 (blockLookup k inp i)) := by
  induction m with
  | zero => rfl
  | succ m ih =>
    rw [List.range_succ, List.foldl_append, List.foldl_append, ih (by omega), rounds_spec ks k hk inp m (by omega)]
    rw [show 4 * (m + 1) = 4 * m + 1 + 1 + 1 + 1 by omega]
    simp only [List.range_succ, List.flatMap_append, List.foldl_cons, List.foldl_nil, List.flatMap_cons, List.flatMap_nil,
      List.append_nil, fourRoundsT, fourRounds, tT_eq, f0, f1, f2, f3]
    rw [hk _ (by omega), hk _ (by omega), hk _ (by omega), hk _ (by omega)]
    have h4 : ∀ n, Spec.SM4.X k inp (n + 4) = Spec.SM4.X k inp n ^^^
      t (Spec.SM4.X k inp (n + 1) ^^^ Spec.SM4.X k inp (n + 2) ^^^ Spec.SM4.X k inp (n + 3) ^^^ k n) := by
      intro n; rw [t_spec]; rfl
    simp only [blockLookup, Nat.add_assoc, Nat.reduceAdd]
    rw [show 4 * m + 4 = (4 * m) + 4 from rfl, h4 (4 * m), show 4 * m + 5 = (4 * m + 1) + 4 by omega, h4 (4 * m + 1),
      show 4 * m + 6 = (4 * m + 2) + 4 by omega, h4 (4 * m + 2)]
    simp only [Nat.add_assoc, Nat.reduceAdd]
    rw [h4 (4 * m), show 4 * m + 5 = (4 * m + 1) + 4 by omega, h4 (4 * m + 1)]
    simp only [Nat.add_assoc, Nat.reduceAdd]
    rw [h4 (4 * m)]

theorem processBlockT_eq (ks : List Word) (k : Nat → Word) (hk : ∀ j, j < 32 → ks.getD j 0 = k j) (inp : Bytes) :
    processBlockT ks inp = (processBlock ks inp, (List.range 32).flatMap fun i => put32 (blockLookup k inp i)) := by
  unfold processBlockT processBlock rounds
  rw [roundsT ks k hk inp 8 (Nat.le_refl _)]

theorem length_lookups (f : Nat → Word) (n : Nat) : ((List.range n).flatMap fun i => put32 (f i)).length = 4 * n := by
  induction n with
  | zero => rfl
  | succ n ih =>
    rw [List.range_succ, List.flatMap_append, List.length_append, ih]
    simp [put32]
    omega

theorem lookup_window (f : Nat → Word) (n i : Nat) (hi : i < n) :
    (((List.range n).flatMap fun i => put32 (f i)).drop (4 * i)).take 4 = put32 (f i) := by
  induction n with
  | zero => omega
  | succ n ih =>
    rw [List.range_succ, List.flatMap_append]
    have hl := length_lookups f n
    rcases Nat.lt_or_ge i n with h | h
    · rw [List.drop_append_of_le_length (by omega), List.take_append_of_le_length (by rw [List.length_drop, hl]; omega)]
      exact ih h
    · have : i = n := by omega
      subst this
      rw [← hl, List.drop_left]
      simp only [List.flatMap_cons, List.flatMap_nil, List.append_nil]
      exact List.take_of_length_le (by simp [put32])

theorem put32_inj {a b : Word} (h : put32 a = put32 b) : a = b := by rw [← be32_put32 a, h, be32_put32]

/-- Equal indices in the rounds `i` … `i + m - 1` mean equal words looked up in them. -/
theorem lookups_eq {f g : Nat → Word} {n i m : Nat} (hn : i + m ≤ n)
    (h : (((List.range n).flatMap fun i => put32 (f i)).drop (4 * i)).take (4 * m) =
      (((List.range n).flatMap fun i => put32 (g i)).drop (4 * i)).take (4 * m)) (j : Nat) (hj : j < m) : f (i + j) = g (i + j) := by
  apply put32_inj
  rw [← lookup_window f n (i + j) (by omega), ← lookup_window g n (i + j) (by omega)]
  have e : ∀ l : List Byte, (l.drop (4 * (i + j))).take 4 = (((l.drop (4 * i)).take (4 * m)).drop (4 * j)).take 4 := by
    intro l
    rw [List.drop_take, List.take_take, List.drop_drop, show 4 * i + 4 * j = 4 * (i + j) by omega,
      show min 4 (4 * m - 4 * j) = 4 by omega]
  rw [e, e, h]

end Verif.Sm4
