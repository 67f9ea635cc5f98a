import Verif.CB.StrMemory
import Verif.CB.ReadLemmas
import Verif.Util.HeapLemmas
/-! Lemmas about the readers on slices and variables (`Verif.CB.StrMemory`). -/
namespace Verif.CB
open Verif

/-- A variable that is nil or holds an existing slice. -/
def StrVar.Valid (h : Heap) (s : StrVar) : Prop := ∀ x, s = some x → x.Valid h

/-- Go `x[i:j]`. -/
def Slice.part (x : Slice) (i j : Nat) : Slice := ⟨x.arr, x.off + i, j - i, x.cap - i⟩

theorem Slice.part_get {h : Heap} {x : Slice} {i j : Nat} (hj : j ≤ x.len) :
    (Slice.part x i j).get h = ((x.get h).take j).drop i := by
  simp only [Slice.part, Slice.get]
  rw [List.take_take, Nat.min_eq_left hj, List.drop_take, List.drop_drop]

theorem Slice.part_valid {h : Heap} {x : Slice} {i j : Nat} (hv : x.Valid h) (hi : i ≤ j) (hj : j ≤ x.len) :
    (Slice.part x i j).Valid h := by
  obtain ⟨h1, a, ha, h2⟩ := hv
  exact ⟨by simp only [Slice.part]; omega, a, ha, by simp only [Slice.part]; omega⟩

theorem StrVar.len_get {h : Heap} {s : StrVar} (hv : s.Valid h) : (s.get h).len = s.len := by
  cases s with
  | none => rfl
  | some x => exact Slice.length_get (hv x rfl)

@[simp] theorem Vars.set_self (m : Vars) (p : Nat) (v : StrVar) : m.set p v p = v := by simp [Vars.set]
theorem Vars.set_ne (m : Vars) {p q : Nat} (v : StrVar) (h : q ≠ p) : m.set p v q = m q := by simp [Vars.set, h]
@[simp] theorem Vars.set_set (m : Vars) (p : Nat) (v w : StrVar) : (m.set p v).set p w = m.set p w := by
  funext q; simp only [Vars.set]; split <;> rfl
theorem Vars.set_same (m : Vars) (p : Nat) : m.set p (m p) = m := by
  funext q; simp only [Vars.set]; split
  · rename_i e; rw [e]
  · rfl

theorem readV_none {n s : Nat} {m : Vars} (hm : m s = none) : readV (n : Int) s m = .ok (none, m) := by
  unfold readV
  rw [hm]
  by_cases h : n = 0
  · subst h
    simp only [StrVar.len, StrVar.slice, Option.elim]
    simp only [Int.ofNat_zero, Int.lt_irrefl, if_false, and_self, if_true, Res.ok_bind]
    rw [← hm, Vars.set_same]
  · rw [if_pos (by simp [StrVar.len]; omega)]

theorem readV_short {n s : Nat} {m : Vars} (h : (m s).len < n) : readV (n : Int) s m = .ok (none, m) := by
  unfold readV
  rw [if_pos (by omega)]

theorem readV_ok {h : Heap} {n s : Nat} {m : Vars} {x : Slice} (hm : m s = some x) (hv : x.Valid h) (hn : n ≤ x.len) :
    readV (n : Int) s m = .ok (some (Slice.part x 0 n), m.set s (some (Slice.part x n x.len))) := by
  unfold readV
  have := hv.1
  simp only [hm, StrVar.len, StrVar.slice, Option.elim]
  rw [if_neg (by omega), if_pos (by omega), Res.ok_bind, if_pos (by omega), Res.ok_bind]
  simp [Slice.part]

theorem takeElementV_short {L H : Word} {sk : Bool} {s out : Nat} {m : Vars} (hL : (m s).len < L.toNat) :
    takeElementV L H sk s out m = .ok (false, m) := by
  unfold takeElementV
  split
  · rfl
  · unfold readBytesV
    rw [readV_short hL]
    rfl

theorem takeElementV_ok {h : Heap} {L H : Word} {sk : Bool} {s out : Nat} {m : Vars} {x : Slice} (hm : m s = some x)
    (hv : x.Valid h) (hL : L.toNat ≤ x.len) (hH : H.toNat ≤ L.toNat) :
    takeElementV L H sk s out m = .ok (true, (m.set s (some (Slice.part x L.toNat x.len))).set out
      (some (Slice.part x (if sk then H.toNat else 0) L.toNat))) := by
  unfold takeElementV
  have hne : ¬ BitVec.ofInt 32 (L.toNat : Int) ≠ L := by
    simp
  rw [if_neg hne]
  unfold readBytesV
  rw [readV_ok hm hv hL]
  simp only [Res.ok_bind, Bool.not_true, Bool.false_eq_true, if_false]
  cases sk with
  | false => rfl
  | true =>
    simp only [if_true]
    unfold skipV
    have hv' := Slice.part_valid hv (Nat.zero_le _) hL
    rw [readV_ok (h := h) (x := Slice.part x 0 L.toNat) (Vars.set_self _ _ _) hv' (by simp [Slice.part]; omega)]
    simp only [Res.ok_bind, Option.isSome_some, Bool.not_true, Bool.false_eq_true, if_false, Vars.set_set]
    congr 3

theorem StrVar.slice_get {h : Heap} {x : Slice} {a b : Nat} (hv : x.Valid h) (hab : a ≤ b) (hb : b ≤ x.len) :
    StrVar.slice (some x) (a : Int) (b : Int) = .ok (some (Slice.part x a b)) := by
  have := hv.1
  simp only [StrVar.slice]
  rw [if_pos (by omega)]
  simp [Slice.part]

/-- `readASN1` on variables: it fails and changes nothing, exactly when it fails on the bytes, or the output variable gets a
window at the front and the String variable the rest. -/
theorem readASN1V_cases (h : Heap) (sk : Bool) (s out : Nat) (m : Vars) (hv : (m s).Valid h) :
    (readASN1 sk ((m s).get h) = .ok (none, (m s).get h) ∧ ∃ tg, readASN1V h sk s out m = .ok (false, tg, m)) ∨
    (∃ x t L H, m s = some x ∧ H ≤ L ∧ 2 ≤ H ∧ L ≤ x.len ∧
      readASN1 sk ((m s).get h) = .ok (some (t, some (((x.get h).take L).drop (if sk then H else 0))), some ((x.get h).drop L)) ∧
      readASN1V h sk s out m = .ok (true, some t, (m.set s (some (Slice.part x L x.len))).set out
        (some (Slice.part x (if sk then H else 0) L)))) := by
  cases hm : m s with
  | none =>
    left
    refine ⟨readASN1_nil sk, none, ?_⟩
    unfold readASN1V
    rw [if_pos (by simp [hm, StrVar.len])]
  | some x =>
    have hx : x.Valid h := hv x hm
    have hlen := Slice.length_get hx
    have key : ∀ (t : Tag) (L H : Word), H.toNat ≤ L.toNat → 2 ≤ H.toNat →
        (takeElement t L H sk (some (x.get h)) = .ok (none, some (x.get h)) ∧ takeElementV L H sk s out m = .ok (false, m)) ∨
        (L.toNat ≤ x.len ∧ takeElement t L H sk (some (x.get h)) =
            .ok (some (t, some (((x.get h).take L.toNat).drop (if sk then H.toNat else 0))), some ((x.get h).drop L.toNat)) ∧
          takeElementV L H sk s out m = .ok (true, (m.set s (some (Slice.part x L.toNat x.len))).set out
            (some (Slice.part x (if sk then H.toNat else 0) L.toNat)))) := by
      intro t L H hH _
      by_cases hL : L.toNat ≤ x.len
      · right
        refine ⟨hL, ?_, takeElementV_ok hm hx hL hH⟩
        rw [takeElement_ok (by omega) hH]
      · left
        exact ⟨takeElement_short (by omega), takeElementV_short (by rw [hm]; simp only [StrVar.len, Option.elim]; omega)⟩
    unfold readASN1 readASN1V
    simp only [hm, StrVar.get, Option.map_some, len_some, StrVar.len, Option.elim, hlen]
    by_cases h2 : x.len < 2
    · left; rw [if_pos h2, if_pos h2]; exact ⟨rfl, none, rfl⟩
    rw [if_neg h2, if_neg h2]
    rw [at_some (by omega : 0 < (x.get h).length), at_some (by omega : 1 < (x.get h).length)]
    simp only [Res.ok_bind]
    generalize (x.get h)[0] = t
    generalize (x.get h)[1] = b
    by_cases h3 : t &&& 0x1f = 0x1f
    · left; rw [if_pos h3, if_pos h3]; exact ⟨rfl, none, rfl⟩
    rw [if_neg h3, if_neg h3]
    by_cases h4 : b &&& 0x80 = 0
    · rw [if_pos h4, if_pos h4]
      have hb := (and_80 b).1 h4
      have hL : (b.setWidth 32 + 2 : Word).toNat = b.toNat + 2 := by
        simp [BitVec.toNat_add]; omega
      rcases key t (b.setWidth 32 + 2) 2 (by rw [hL]; simp) (by simp) with ⟨e1, e2⟩ | ⟨e0, e1, e2⟩
      · left; rw [e1, e2]; exact ⟨rfl, _, rfl⟩
      · right; rw [e1, e2]; exact ⟨x, t, _, 2, rfl, by rw [hL]; omega, Nat.le_refl _, e0, rfl, rfl⟩
    rw [if_neg h4, if_neg h4]
    by_cases h5 : b &&& 0x7f = 0 ∨ 4 < b &&& 0x7f ∨ x.len < (2 + (b &&& 0x7f)).toNat
    · left; rw [if_pos h5, if_pos h5]; exact ⟨rfl, _, rfl⟩
    rw [if_neg h5, if_neg h5]
    generalize b &&& 0x7f = k at *
    have hk4 : k.toNat ≤ 4 := by
      have : ¬ 4 < k := fun hh => h5 (.inr (.inl hh))
      simpa [BitVec.lt_def] using this
    have hk2 : (2 + k).toNat = 2 + k.toNat := by
      simp [BitVec.toNat_add]; omega
    have hkl : 2 + k.toNat ≤ x.len := by
      have : ¬ x.len < (2 + k).toNat := fun hh => h5 (.inr (.inr hh))
      omega
    rw [hk2]
    have es := StrVar.slice_get (h := h) (x := x) (a := 2) (b := 2 + k.toNat) hx (by omega) hkl
    rw [show ((2 : Nat) : Int) = 2 from rfl] at es
    rw [es]
    have es' := slice_some (bs := x.get h) (a := 2) (b := 2 + k.toNat) (by omega) (by omega)
    rw [show ((2 : Nat) : Int) = 2 from rfl] at es'
    rw [es']
    simp only [Res.ok_bind, Option.map_some]
    rw [Slice.part_get hkl]
    rw [readUnsigned_ok (by simp; omega)]
    simp only [Res.ok_bind]
    generalize BitVec.ofNat 32 (beNat _) = n
    by_cases h6 : n < 128
    · left; rw [if_pos h6, if_pos h6]; exact ⟨rfl, _, rfl⟩
    rw [if_neg h6, if_neg h6]
    by_cases h7 : n >>> ((k - 1) * 8).toNat = 0
    · left; rw [if_pos h7, if_pos h7]; exact ⟨rfl, _, rfl⟩
    rw [if_neg h7, if_neg h7]
    have hH : (2 + k.setWidth 32 : Word).toNat = 2 + k.toNat := by
      simp [BitVec.toNat_add]; omega
    by_cases h8 : 2 + k.setWidth 32 + n < n
    · left; rw [if_pos h8, if_pos h8]; exact ⟨rfl, _, rfl⟩
    rw [if_neg h8, if_neg h8]
    have hL : (2 + k.setWidth 32 + n : Word).toNat = 2 + k.toNat + n.toNat := by
      rw [BitVec.lt_def, BitVec.toNat_add, hH] at h8
      rw [BitVec.toNat_add, hH]
      have := n.isLt
      omega
    rcases key t (2 + k.setWidth 32 + n) (2 + k.setWidth 32) (by omega) (by omega) with ⟨e1, e2⟩ | ⟨e0, e1, e2⟩
    · left; rw [e1, e2]; exact ⟨rfl, _, rfl⟩
    · right; rw [e1, e2]; exact ⟨x, t, _, _, rfl, by omega, by omega, e0, rfl, rfl⟩

/-- The value reader of `readTagV`. -/
def readTag (sk : Bool) (tag : Tag) : Reader Str := if sk then readASN1Tag tag else readASN1Element tag

theorem readTagV_cases (h : Heap) (sk : Bool) (tag : Tag) (s out : Nat) (m : Vars) (hv : (m s).Valid h) :
    (readTag sk tag ((m s).get h) = .ok (none, (m s).get h) ∧ readTagV h sk tag s out m = .ok (false, m)) ∨
    (∃ x t L H, m s = some x ∧ H ≤ L ∧ 2 ≤ H ∧ L ≤ x.len ∧
      readTag sk tag ((m s).get h) =
        .ok (if t = tag then some (some (((x.get h).take L).drop (if sk then H else 0))) else none, some ((x.get h).drop L)) ∧
      readTagV h sk tag s out m = .ok (decide (t = tag), (m.set s (some (Slice.part x L x.len))).set out
        (some (Slice.part x (if sk then H else 0) L)))) := by
  rcases readASN1V_cases h sk s out m hv with ⟨e1, tg, e2⟩ | ⟨x, t, L, H, hm, a1, a2, a3, e1, e2⟩
  · left
    refine ⟨?_, ?_⟩
    · cases sk <;> simp [readTag, readASN1Tag, readASN1Element, readAnyASN1, readAnyASN1Element, e1]
    · simp [readTagV, e2]
  · right
    refine ⟨x, t, L, H, hm, a1, a2, a3, ?_, ?_⟩
    · cases sk <;> simp only [readTag, readASN1Tag, readASN1Element, readAnyASN1, readAnyASN1Element, e1, Res.ok_bind,
        Bool.false_eq_true, if_true, if_false] <;> by_cases ht : t = tag <;> simp [ht]
    · simp only [readTagV, e2, Res.ok_bind]
      by_cases ht : t = tag <;> simp [ht]

/-- What the readers do to the variables: `s` keeps a part of its window, some variable gets a part of that of `s`. -/
theorem readLengthPrefixedV_cases (h : Heap) (k s out : Nat) (m : Vars) (hv : (m s).Valid h) :
    (∃ r, readLengthPrefixed k ((m s).get h) = .ok (none, (StrVar.get h r)) ∧
      readLengthPrefixedV h k s out m = .ok (false, m.set s r) ∧ (r = m s ∨ ∃ x, m s = some x ∧ k ≤ x.len ∧ r = some (Slice.part x k x.len))) ∨
    (∃ x L, m s = some x ∧ k ≤ L ∧ L ≤ x.len ∧
      readLengthPrefixed k ((m s).get h) = .ok (some (some (((x.get h).take L).drop k)), some ((x.get h).drop L)) ∧
      readLengthPrefixedV h k s out m = .ok (true, (m.set s (some (Slice.part x L x.len))).set out (some (Slice.part x k L)))) := by
  cases hm : m s with
  | none =>
    left
    refine ⟨none, ?_, ?_, .inl rfl⟩
    · simp [readLengthPrefixed, StrVar.get, read_none]
    · simp only [readLengthPrefixedV, readV_none hm, Res.ok_bind]
      rw [← hm, Vars.set_same]
  | some x =>
    have hx : x.Valid h := hv x hm
    have hlen := Slice.length_get hx
    by_cases hk : k ≤ x.len
    · have hp : (Slice.part x k x.len).Valid h := Slice.part_valid hx hk (Nat.le_refl _)
      have e1 : readLengthPrefixed k (StrVar.get h (some x)) = (do
          let length := ((x.get h).take k).foldl (fun (l : Word) b => l <<< 8 ||| b.setWidth 32) 0
          let (v, s) ← read (length.toNat : Int) (some ((x.get h).drop k))
          match v with
          | none => .ok (none, s)
          | some _ => .ok (some v, s)) := by
        simp only [readLengthPrefixed, StrVar.get, Option.map_some]
        rw [read_some (by omega)]
        rfl
      have e2 : readLengthPrefixedV h k s out m = (do
          let length := ((x.get h).take k).foldl (fun (l : Word) b => l <<< 8 ||| b.setWidth 32) 0
          let (v, m) ← readV (length.toNat : Int) s (m.set s (some (Slice.part x k x.len)))
          match v with
          | none => .ok (false, m)
          | some _ => .ok (true, m.set out v)) := by
        simp only [readLengthPrefixedV]
        rw [readV_ok hm hx hk]
        simp only [Res.ok_bind, Slice.part_get hk, List.drop_zero]
        rfl
      rw [e1, e2]
      generalize List.foldl _ _ ((x.get h).take k) = n
      simp only
      by_cases hn : k + n.toNat ≤ x.len
      · right
        refine ⟨x, k + n.toNat, rfl, by omega, hn, ?_, ?_⟩
        · rw [read_some (by simp; omega)]
          simp only [Res.ok_bind, List.drop_drop]
          rw [List.drop_take, show k + n.toNat - k = n.toNat by omega]
        · rw [readV_ok (h := h) (x := Slice.part x k x.len) (Vars.set_self _ _ _) hp (by simp only [Slice.part]; omega)]
          simp only [Res.ok_bind, Vars.set_set]
          simp only [Slice.part, Nat.add_zero, Nat.sub_zero, Nat.add_assoc]
          rw [show x.len - k - n.toNat = x.len - (k + n.toNat) by omega, show k + n.toNat - k = n.toNat by omega,
            show x.cap - k - n.toNat = x.cap - (k + n.toNat) by omega]
      · left
        refine ⟨some (Slice.part x k x.len), ?_, ?_, .inr ⟨x, rfl, hk, rfl⟩⟩
        · rw [read_short (by simp; omega)]
          simp only [Res.ok_bind, StrVar.get, Option.map_some, Slice.part_get (Nat.le_refl _)]
          rw [List.take_of_length_le (by omega)]
        · rw [readV_short (by rw [Vars.set_self]; simp only [StrVar.len, Option.elim, Slice.part]; omega)]
          rfl
    · left
      refine ⟨some x, ?_, ?_, .inl rfl⟩
      · simp only [readLengthPrefixed, StrVar.get, Option.map_some]
        rw [read_short (by simp; omega)]; rfl
      · simp only [readLengthPrefixedV]
        rw [readV_short (by rw [hm]; simp only [StrVar.len, Option.elim]; omega)]
        simp only [Res.ok_bind]
        rw [← hm, Vars.set_same]

end Verif.CB
