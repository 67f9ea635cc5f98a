import Verif.CB.StrMemoryLemmas
import Verif.Util.PaddingLemmas
/-!
# C127 — What was read from a String is independent of the String

The slices that the readers hand out are windows of the buffer that is parsed. They agree with the byte-list model, lie
inside the window of the String, and never overlap what is still to be read. But their capacity reaches to the end of the
buffer: an `append` to what was read overwrites what is still to be read. A read that fails on the tag stores the content of
the wrong element in the output variable.
-/
namespace Verif.Props
open Verif Verif.CB Verif.Spec.DER

/-! ## The readers on variables agree with the readers on byte lists -/

/-- A call with pointers to `s` and `out` ends with variables in which `out` and `s` read as the byte-list model says, and
no other variable has changed. -/
def Agrees (h : Heap) (s out : Nat) (m : Vars) (r : Res (Bool × Vars)) (v : Res (Option Str × Str)) : Prop :=
  ∃ ok m', r = .ok (ok, m') ∧ v = .ok (if ok then some ((m' out).get h) else none, (m' s).get h) ∧
    ∀ q, q ≠ s → q ≠ out → m' q = m q

theorem part_rest {h : Heap} {x : Slice} {n : Nat} (hx : x.Valid h) : (Slice.part x n x.len).get h = (x.get h).drop n := by
  rw [Slice.part_get (Nat.le_refl _), List.take_of_length_le (by rw [Slice.length_get hx]; omega)]

theorem C127_bytes (h : Heap) (n s out : Nat) (m : Vars) (hne : s ≠ out) (hv : (m s).Valid h) :
    Agrees h s out m (readBytesV n s out m) (readBytes n ((m s).get h)) := by
  cases hm : m s with
  | none =>
    refine ⟨false, m, by simp [readBytesV, readV_none hm], ?_, fun _ _ _ => rfl⟩
    simp [readBytes, StrVar.get, read_none, hm]
  | some x =>
    have hx := hv x hm
    have hlen := Slice.length_get hx
    by_cases hn : n ≤ x.len
    · refine ⟨true, (m.set s (some (Slice.part x n x.len))).set out (some (Slice.part x 0 n)), ?_, ?_, ?_⟩
      · simp [readBytesV, readV_ok hm hx hn]
      · rw [Vars.set_self, Vars.set_ne _ _ hne, Vars.set_self]
        simp only [StrVar.get, Option.map_some, part_rest hx, Slice.part_get hn, List.drop_zero]
        exact readBytes_ok (by omega)
      · intro q h1 h2; rw [Vars.set_ne _ _ h2, Vars.set_ne _ _ h1]
    · refine ⟨false, m, ?_, ?_, fun _ _ _ => rfl⟩
      · simp only [readBytesV]
        rw [readV_short (by rw [hm]; simp only [StrVar.len, Option.elim]; omega)]
        rfl
      · rw [hm]
        exact readBytes_short (by simp [StrVar.get]; omega)

theorem C127_prefixed (h : Heap) (k s out : Nat) (m : Vars) (hne : s ≠ out) (hv : (m s).Valid h) :
    Agrees h s out m (readLengthPrefixedV h k s out m) (readLengthPrefixed k ((m s).get h)) := by
  rcases readLengthPrefixedV_cases h k s out m hv with ⟨r, e1, e2, _⟩ | ⟨x, L, hm, a1, a2, e1, e2⟩
  · refine ⟨false, m.set s r, e2, ?_, fun q h1 _ => Vars.set_ne _ _ h1⟩
    rw [e1, Vars.set_self]; rfl
  · refine ⟨true, _, e2, ?_, ?_⟩
    · rw [e1, Vars.set_self, Vars.set_ne _ _ hne, Vars.set_self]
      simp only [StrVar.get, Option.map_some, part_rest (hv x hm), Slice.part_get a2, if_true]
    · intro q h1 h2; rw [Vars.set_ne _ _ h2, Vars.set_ne _ _ h1]

theorem agrees_tag (h : Heap) (sk : Bool) (tag : Tag) (s out : Nat) (m : Vars) (hne : s ≠ out) (hv : (m s).Valid h) :
    Agrees h s out m (readTagV h sk tag s out m) (readTag sk tag ((m s).get h)) := by
  rcases readTagV_cases h sk tag s out m hv with ⟨e1, e2⟩ | ⟨x, t, L, H, hm, a1, a2, a3, e1, e2⟩
  · exact ⟨false, m, e2, by rw [e1]; rfl, fun _ _ _ => rfl⟩
  · refine ⟨_, _, e2, ?_, ?_⟩
    · rw [e1, Vars.set_self, Vars.set_ne _ _ hne, Vars.set_self]
      simp only [StrVar.get, Option.map_some, part_rest (hv x hm), Slice.part_get a3, decide_eq_true_eq]
    · intro q h1 h2; rw [Vars.set_ne _ _ h2, Vars.set_ne _ _ h1]

/-- `ReadASN1` and `ReadASN1Element`. -/
theorem C127_asn1 (h : Heap) (tag : Tag) (s out : Nat) (m : Vars) (hne : s ≠ out) (hv : (m s).Valid h) :
    Agrees h s out m (readTagV h true tag s out m) (readASN1Tag tag ((m s).get h)) ∧
      Agrees h s out m (readTagV h false tag s out m) (readASN1Element tag ((m s).get h)) :=
  ⟨agrees_tag h true tag s out m hne hv, agrees_tag h false tag s out m hne hv⟩

theorem localOf_ne (s out : Nat) : s ≠ localOf s out ∧ out ≠ localOf s out := by
  unfold localOf; omega

/-- What `ReadASN1BitStringAsBytes` does to the variables. -/
theorem readBitStringAsBytesV_cases (h : Heap) (s out : Nat) (m : Vars) (hv : (m s).Valid h) :
    (∃ r, readASN1BitStringAsBytes ((m s).get h) = .ok (none, StrVar.get h r) ∧
      readBitStringAsBytesV h s out m = .ok (false, m.set s r) ∧
      (r = m s ∨ ∃ x L, m s = some x ∧ L ≤ x.len ∧ r = some (Slice.part x L x.len))) ∨
    (∃ x L H, m s = some x ∧ H ≤ L ∧ L ≤ x.len ∧
      readASN1BitStringAsBytes ((m s).get h) = .ok (some (some (((x.get h).take L).drop H)), some ((x.get h).drop L)) ∧
      readBitStringAsBytesV h s out m = .ok (true, (m.set s (some (Slice.part x L x.len))).set out (some (Slice.part x H L)))) := by
  obtain ⟨hl1, hl2⟩ := localOf_ne s out
  have back : ∀ (r v : StrVar), (((m.set s r).set (localOf s out) v).set (localOf s out) (m (localOf s out))) = m.set s r := by
    intro r v
    funext q
    simp only [Vars.set]
    by_cases h1 : q = localOf s out
    · subst h1; rw [if_pos rfl, if_neg (Ne.symm hl1)]
    · rw [if_neg h1, if_neg h1]
  rcases readTagV_cases h true tagBIT_STRING s (localOf s out) m hv with ⟨e1, e2⟩ | ⟨x, t, L, H, hm, a1, a2, a3, e1, e2⟩
  · left
    refine ⟨m s, ?_, ?_, .inl rfl⟩
    · have e1' : readASN1Tag tagBIT_STRING ((m s).get h) = .ok (none, (m s).get h) := e1
      unfold readASN1BitStringAsBytes
      rw [e1']; rfl
    · unfold readBitStringAsBytesV
      simp only [e2, Res.ok_bind, Bool.not_false, Bool.true_or, if_true, Vars.set_same]
  · have hx := hv x hm
    have hlen := Slice.length_get hx
    have e1' : readASN1Tag tagBIT_STRING ((m s).get h) = .ok (if t = tagBIT_STRING then
      some (some (((x.get h).take L).drop H)) else none, some ((x.get h).drop L)) := e1
    simp only [if_true] at e2
    have hv2 := Slice.part_valid hx a1 a3
    have hlp : (Slice.part x H L).len = L - H := rfl
    have hlv : StrVar.len (some (Slice.part x H L)) = L - H := rfl
    by_cases ht : t = tagBIT_STRING
    · rw [if_pos ht] at e1'
      by_cases h0 : L = H
      · left
        refine ⟨some (Slice.part x L x.len), ?_, ?_, .inr ⟨x, L, hm, a3, rfl⟩⟩
        · unfold readASN1BitStringAsBytes
          rw [e1']
          simp only [Res.ok_bind, StrVar.get, Option.map_some, part_rest hx]
          rw [if_pos (by rw [len_some]; simp; omega)]
        · unfold readBitStringAsBytesV
          simp only [e2, Res.ok_bind, Vars.set_self, back]
          rw [if_pos]
          rw [hlv, h0]; simp
      · have hpos : 0 < (((x.get h).take L).drop H).length := by simp; omega
        have hg : StrVar.get h (some (Slice.part x H L)) = some (((x.get h).take L).drop H) := by
          simp [StrVar.get, Slice.part_get a3]
        by_cases hp : (((x.get h).take L).drop H)[0] = 0
        · right
          refine ⟨x, L, H + 1, hm, by omega, a3, ?_, ?_⟩
          · unfold readASN1BitStringAsBytes
            rw [e1']
            simp only [Res.ok_bind]
            rw [if_neg (by rw [len_some]; omega), at_some hpos, Res.ok_bind, if_neg (by simpa using hp)]
            have := slice_some (bs := ((x.get h).take L).drop H) (a := 1) (b := (((x.get h).take L).drop H).length) (by omega) (Nat.le_refl _)
            rw [show ((1 : Nat) : Int) = 1 from rfl] at this
            rw [len_some, this]
            simp only [Res.ok_bind, List.take_length, List.drop_drop]
          · unfold readBitStringAsBytesV
            simp only [e2, Res.ok_bind, Vars.set_self, back, hg]
            rw [if_neg (by rw [hlv]; simp [ht]; omega), at_some hpos, Res.ok_bind, if_neg (by simpa using hp)]
            have := StrVar.slice_get (x := Slice.part x H L) (a := 1) (b := (Slice.part x H L).len) hv2 (by omega) (Nat.le_refl _)
            rw [show ((1 : Nat) : Int) = 1 from rfl] at this
            rw [hlv, ← hlp, this, Res.ok_bind]
            simp only [Slice.part]
            rw [show L - H - 1 = L - (H + 1) by omega, show x.cap - H - 1 = x.cap - (H + 1) by omega, Nat.add_assoc]
        · left
          refine ⟨some (Slice.part x L x.len), ?_, ?_, .inr ⟨x, L, hm, a3, rfl⟩⟩
          · unfold readASN1BitStringAsBytes
            rw [e1']
            simp only [Res.ok_bind, StrVar.get, Option.map_some, part_rest hx]
            rw [if_neg (by rw [len_some]; omega), at_some hpos, Res.ok_bind, if_pos (by simpa using hp)]
          · unfold readBitStringAsBytesV
            simp only [e2, Res.ok_bind, Vars.set_self, back, hg]
            rw [if_neg (by rw [hlv]; simp [ht]; omega), at_some hpos, Res.ok_bind, if_pos (by simpa using hp)]
    · rw [if_neg ht] at e1'
      left
      refine ⟨some (Slice.part x L x.len), ?_, ?_, .inr ⟨x, L, hm, a3, rfl⟩⟩
      · unfold readASN1BitStringAsBytes
        rw [e1']
        simp only [Res.ok_bind, StrVar.get, Option.map_some, part_rest hx]
      · unfold readBitStringAsBytesV
        simp only [e2, Res.ok_bind, Vars.set_self, back, ht, decide_false, Bool.not_false, Bool.true_or, if_true]

theorem C127_bits (h : Heap) (s out : Nat) (m : Vars) (hne : s ≠ out) (hv : (m s).Valid h) :
    Agrees h s out m (readBitStringAsBytesV h s out m) (readASN1BitStringAsBytes ((m s).get h)) := by
  rcases readBitStringAsBytesV_cases h s out m hv with ⟨r, e1, e2, _⟩ | ⟨x, L, H, hm, a1, a2, e1, e2⟩
  · refine ⟨false, m.set s r, e2, ?_, fun q h1 _ => Vars.set_ne _ _ h1⟩
    rw [e1, Vars.set_self]; rfl
  · refine ⟨true, _, e2, ?_, ?_⟩
    · rw [e1, Vars.set_self, Vars.set_ne _ _ hne, Vars.set_self]
      simp only [StrVar.get, Option.map_some, part_rest (hv x hm), Slice.part_get a2, if_true]
    · intro q h1 h2; rw [Vars.set_ne _ _ h2, Vars.set_ne _ _ h1]

/-! ## Every variable stays inside the buffers the program started with -/

/-- `b` is nil or a window of `a`: the same array, not in front of `a`, not beyond its length. The capacities end at the same
place. -/
def Inside (a b : StrVar) : Prop :=
  b = none ∨ ∃ x y, a = some x ∧ b = some y ∧ y.arr = x.arr ∧ x.off ≤ y.off ∧ y.off + y.len ≤ x.off + x.len ∧
    y.len ≤ y.cap ∧ y.off + y.cap = x.off + x.cap

theorem inside_refl {h : Heap} {a : StrVar} (hv : a.Valid h) : Inside a a := by
  cases a with
  | none => exact .inl rfl
  | some x => exact .inr ⟨x, x, rfl, rfl, rfl, Nat.le_refl _, Nat.le_refl _, (hv x rfl).1, rfl⟩

theorem inside_part {h : Heap} {x : Slice} {i j : Nat} (hx : x.Valid h) (hi : i ≤ j) (hj : j ≤ x.len) :
    Inside (some x) (some (Slice.part x i j)) := by
  have := hx.1
  refine .inr ⟨x, _, rfl, rfl, rfl, ?_, ?_, ?_, ?_⟩ <;> simp only [Slice.part] <;> omega

theorem inside_trans {a b c : StrVar} (h1 : Inside a b) (h2 : Inside b c) : Inside a c := by
  rcases h2 with rfl | ⟨y, z, rfl, rfl, b1, b2, b3, b4, b5⟩
  · exact .inl rfl
  · rcases h1 with h1 | ⟨x, y', rfl, e, c1, c2, c3, c4, c5⟩
    · cases h1
    · cases e
      exact .inr ⟨x, z, rfl, rfl, by omega, by omega, by omega, b4, by omega⟩

theorem inside_valid {h : Heap} {a b : StrVar} (hv : a.Valid h) (hi : Inside a b) : b.Valid h := by
  rcases hi with rfl | ⟨x, y, rfl, rfl, b1, b2, b3, b4, b5⟩
  · intro x hx; cases hx
  · intro z hz
    cases hz
    obtain ⟨h1, arr, h2, h3⟩ := hv x rfl
    exact ⟨b4, arr, by rw [b1]; exact h2, by omega⟩

/-- All variables of `m'` are windows of variables of `m`. -/
def AllInside (m m' : Vars) : Prop := ∀ q, ∃ p, Inside (m p) (m' q)

theorem allInside_refl {h : Heap} {m : Vars} (hv : ∀ p, (m p).Valid h) : AllInside m m := fun q => ⟨q, inside_refl (hv q)⟩

theorem allInside_trans {m m' m'' : Vars} (h1 : AllInside m m') (h2 : AllInside m' m'') : AllInside m m'' := by
  intro q
  obtain ⟨p, hp⟩ := h2 q
  obtain ⟨p', hp'⟩ := h1 p
  exact ⟨p', inside_trans hp' hp⟩

theorem allInside_valid {h : Heap} {m m' : Vars} (hv : ∀ p, (m p).Valid h) (hi : AllInside m m') : ∀ p, (m' p).Valid h := by
  intro q
  obtain ⟨p, hp⟩ := hi q
  exact inside_valid (hv p) hp

theorem allInside_set {m m' : Vars} {p : Nat} {v : StrVar} (hi : AllInside m m') (hv : ∃ q, Inside (m q) v) :
    AllInside m (m'.set p v) := by
  intro q
  simp only [Vars.set]
  split
  · exact hv
  · exact hi q

theorem allInside_parts {h : Heap} {m : Vars} (hv : ∀ p, (m p).Valid h) {s out : Nat} {x : Slice} (hm : m s = some x)
    {L i j : Nat} (hL : L ≤ x.len) (hi : i ≤ j) (hj : j ≤ x.len) :
    AllInside m ((m.set s (some (Slice.part x L x.len))).set out (some (Slice.part x i j))) :=
  allInside_set (allInside_set (allInside_refl hv) ⟨s, by rw [hm]; exact inside_part (hv s x hm) hL (Nat.le_refl _)⟩)
    ⟨s, by rw [hm]; exact inside_part (hv s x hm) hi hj⟩

theorem tag_inside {h : Heap} {m : Vars} (hv : ∀ p, (m p).Valid h) (sk : Bool) (tag : Tag) (s out : Nat) :
    ∃ ok m', readTagV h sk tag s out m = .ok (ok, m') ∧ AllInside m m' := by
  rcases readTagV_cases h sk tag s out m (hv s) with ⟨_, e⟩ | ⟨x, t, L, H, hm, a1, a2, a3, _, e⟩
  · exact ⟨_, _, e, allInside_refl hv⟩
  · exact ⟨_, _, e, allInside_parts hv hm a3 (by split <;> omega) a3⟩

theorem peek_ok (tag : Tag) (v : Str) : ∃ b, peekASN1Tag tag v = .ok b := by
  unfold peekASN1Tag
  split
  · exact ⟨_, rfl⟩
  · rename_i h0
    cases v with
    | none => exact absurd rfl h0
    | some bs =>
      rw [len_some] at h0
      rw [at_some (by omega : 0 < bs.length)]
      exact ⟨_, rfl⟩

theorem optional_inside {h : Heap} {m : Vars} (hv : ∀ p, (m p).Valid h) (tag : Tag) (s out : Nat) :
    ∃ ok pr m', readOptionalV h tag s out m = .ok (ok, pr, m') ∧ AllInside m m' := by
  obtain ⟨b, hb⟩ := peek_ok tag ((m s).get h)
  obtain ⟨ok, m', e, hi⟩ := tag_inside hv true tag s out
  unfold readOptionalV
  rw [hb, Res.ok_bind]
  cases b with
  | true => rw [if_pos rfl, e]; exact ⟨ok, true, m', rfl, hi⟩
  | false => exact ⟨true, false, m, rfl, allInside_refl hv⟩

theorem octets_inside {h : Heap} {m : Vars} (hv : ∀ p, (m p).Valid h) (tag : Tag) (s out : Nat) :
    ∃ ok pr m', readOptionalOctetStringV h tag s out m = .ok (ok, pr, m') ∧ AllInside m m' := by
  have i0 : AllInside m (m.set (localOf s out) none) := allInside_set (allInside_refl hv) ⟨0, .inl rfl⟩
  have v0 := allInside_valid hv i0
  have own : ∀ q, ∃ p, Inside (m p) (m q) := fun q => ⟨q, inside_refl (hv q)⟩
  obtain ⟨ok, pr, m1, e1, i1⟩ := optional_inside v0 tag s (localOf s out)
  have i1' := allInside_trans i0 i1
  have v1 := allInside_valid hv i1'
  obtain ⟨ok2, m2, e2, i2⟩ := tag_inside v1 true tagOCTET_STRING (localOf s out) (localOf s out + 1)
  have i2' := allInside_trans i1' i2
  unfold readOptionalOctetStringV
  simp only [e1, Res.ok_bind]
  cases ok with
  | false => exact ⟨_, _, _, rfl, allInside_set i1' (own _)⟩
  | true =>
    simp only [Bool.not_true, Bool.false_eq_true, if_false]
    cases pr with
    | false => exact ⟨_, _, _, rfl, allInside_set (allInside_set i1' (own _)) ⟨0, .inl rfl⟩⟩
    | true =>
      simp only [if_true, e2, Res.ok_bind]
      have i3 := allInside_set (p := localOf s out + 1) (allInside_set (p := localOf s out) i2' (own (localOf s out)))
        (own (localOf s out + 1))
      split
      · exact ⟨_, _, _, rfl, i3⟩
      · exact ⟨_, _, _, rfl, allInside_set i3 (i2' _)⟩

theorem step_inside {h : Heap} {m : Vars} (hv : ∀ p, (m p).Valid h) (o : ReadOp) :
    ∃ m', o.step h m = .ok m' ∧ AllInside m m' := by
  cases o with
  | skip n s =>
    simp only [ReadOp.step, skipV]
    cases hm : m s with
    | none => rw [readV_none hm]; exact ⟨m, rfl, allInside_refl hv⟩
    | some x =>
      by_cases hn : n ≤ x.len
      · rw [readV_ok hm (hv s x hm) hn]
        exact ⟨_, rfl, allInside_set (allInside_refl hv) ⟨s, by rw [hm]; exact inside_part (hv s x hm) hn (Nat.le_refl _)⟩⟩
      · rw [readV_short (by rw [hm]; simp only [StrVar.len, Option.elim]; omega)]
        exact ⟨m, rfl, allInside_refl hv⟩
  | bytes n s out =>
    simp only [ReadOp.step, readBytesV]
    cases hm : m s with
    | none => rw [readV_none hm]; exact ⟨m, rfl, allInside_refl hv⟩
    | some x =>
      by_cases hn : n ≤ x.len
      · rw [readV_ok hm (hv s x hm) hn]
        exact ⟨_, rfl, allInside_parts hv hm hn (Nat.zero_le _) hn⟩
      · rw [readV_short (by rw [hm]; simp only [StrVar.len, Option.elim]; omega)]
        exact ⟨m, rfl, allInside_refl hv⟩
  | prefixed k s out =>
    simp only [ReadOp.step]
    rcases readLengthPrefixedV_cases h k s out m (hv s) with ⟨r, _, e, hr⟩ | ⟨x, L, hm, a1, a2, _, e⟩
    · rw [e]
      refine ⟨_, rfl, allInside_set (allInside_refl hv) ⟨s, ?_⟩⟩
      rcases hr with rfl | ⟨x, hm, hk, rfl⟩
      · exact inside_refl (hv s)
      · rw [hm]; exact inside_part (hv s x hm) hk (Nat.le_refl _)
    · rw [e]
      exact ⟨_, rfl, allInside_parts hv hm a2 a1 a2⟩
  | any sk s out =>
    simp only [ReadOp.step]
    rcases readASN1V_cases h sk s out m (hv s) with ⟨_, tg, e⟩ | ⟨x, t, L, H, hm, a1, a2, a3, _, e⟩
    · rw [e]; exact ⟨m, rfl, allInside_refl hv⟩
    · rw [e]; exact ⟨_, rfl, allInside_parts hv hm a3 (by split <;> omega) a3⟩
  | asn1 sk t s out =>
    obtain ⟨ok, m', e, hi⟩ := tag_inside hv sk t s out
    simp only [ReadOp.step, e]
    exact ⟨m', rfl, hi⟩
  | bits s out =>
    simp only [ReadOp.step]
    rcases readBitStringAsBytesV_cases h s out m (hv s) with ⟨r, _, e, hr⟩ | ⟨x, L, H, hm, a1, a2, _, e⟩
    · rw [e]
      refine ⟨_, rfl, allInside_set (allInside_refl hv) ⟨s, ?_⟩⟩
      rcases hr with rfl | ⟨x, L, hm, hk, rfl⟩
      · exact inside_refl (hv s)
      · rw [hm]; exact inside_part (hv s x hm) hk (Nat.le_refl _)
    · rw [e]
      exact ⟨_, rfl, allInside_parts hv hm a2 a1 a2⟩
  | optional t s out =>
    obtain ⟨ok, pr, m', e, hi⟩ := optional_inside hv t s out
    simp only [ReadOp.step, e]
    exact ⟨m', rfl, hi⟩
  | octets t s out =>
    obtain ⟨ok, pr, m', e, hi⟩ := octets_inside hv t s out
    simp only [ReadOp.step, e]
    exact ⟨m', rfl, hi⟩
  | assign p q => exact ⟨_, rfl, allInside_set (allInside_refl hv) ⟨q, inside_refl (hv q)⟩⟩

/-- Whatever a program reads, however it passes pointers (also the same pointer as String and as output) and copies its
variables: no call panics, and every variable is nil or a window, inside the length, of a buffer the program started with. -/
theorem C127_windows (h : Heap) (ops : List ReadOp) (m : Vars) (hv : ∀ p, (m p).Valid h) :
    ∃ m', runReads h ops m = .ok m' ∧ ∀ q, ∃ p, Inside (m p) (m' q) := by
  induction ops generalizing m with
  | nil => exact ⟨m, rfl, allInside_refl hv⟩
  | cons o os ih =>
    obtain ⟨m1, e1, i1⟩ := step_inside hv o
    obtain ⟨m2, e2, i2⟩ := ih m1 (allInside_valid hv i1)
    refine ⟨m2, ?_, allInside_trans i1 i2⟩
    simp only [runReads, e1, Res.ok_bind, e2]

/-! ## Optional elements -/

/-- `ReadOptionalASN1`: an absent element leaves the output variable alone. -/
theorem C127_optional (h : Heap) (tag : Tag) (s out : Nat) (m : Vars) (hne : s ≠ out) (hv : (m s).Valid h) :
    ∃ ok present m', readOptionalV h tag s out m = .ok (ok, present, m') ∧
      readOptionalASN1 tag ((m s).get h) =
        .ok (if ok then some (if present then some ((m' out).get h) else none) else none, (m' s).get h) ∧
      (present = false → m' = m) ∧ ∀ q, q ≠ s → q ≠ out → m' q = m q := by
  obtain ⟨b, hb⟩ := peek_ok tag ((m s).get h)
  obtain ⟨ok, m', e1, e2, e3⟩ := (C127_asn1 h tag s out m hne hv).1
  unfold readOptionalV readOptionalASN1
  rw [hb, Res.ok_bind, Res.ok_bind]
  cases b with
  | true =>
    refine ⟨ok, true, m', by rw [if_pos rfl, e1]; rfl, ?_, by simp, e3⟩
    rw [if_pos rfl, e2]
    cases ok <;> rfl
  | false => exact ⟨true, false, m, rfl, rfl, fun _ => rfl, fun _ _ _ => rfl⟩

/-- `ReadOptionalASN1OctetString`: an absent element sets the output variable to nil. -/
theorem C127_octets (h : Heap) (tag : Tag) (s out : Nat) (m : Vars) (hne : s ≠ out) (hv : ∀ p, (m p).Valid h) :
    ∃ ok present m', readOptionalOctetStringV h tag s out m = .ok (ok, present, m') ∧
      readOptionalASN1OctetString tag ((m s).get h) =
        .ok (if ok then some ((m' out).get h, present) else none, (m' s).get h) ∧
      (ok = false → m' out = m out) ∧ ∀ q, q ≠ s → q ≠ out → m' q = m q := by
  obtain ⟨hl1, hl2⟩ := localOf_ne s out
  have i0 : AllInside m (m.set (localOf s out) none) := allInside_set (allInside_refl hv) ⟨0, .inl rfl⟩
  have v0 := allInside_valid hv i0
  obtain ⟨ok, pr, m1, e1, e2, e3, e4⟩ := C127_optional h tag s (localOf s out) (m.set (localOf s out) none) hl1 (v0 s)
  obtain ⟨_, _, m1', e1', i1⟩ := optional_inside v0 tag s (localOf s out)
  rw [e1] at e1'
  obtain ⟨_, _, rfl⟩ : _ ∧ _ ∧ m1 = m1' := by
    simp only [Res.ok.injEq, Prod.mk.injEq] at e1'; exact e1'
  have v1 := allInside_valid v0 i1
  rw [Vars.set_ne _ _ hl1] at e2
  have e4' : ∀ q, q ≠ s → q ≠ localOf s out → m1 q = m q := by
    intro q h1 h2; rw [e4 q h1 h2, Vars.set_ne _ _ h2]
  have back : ∀ q, q ≠ s → (m1.set (localOf s out) (m (localOf s out))) q = m q := by
    intro q h1
    simp only [Vars.set]
    split
    · rename_i h2; rw [h2]
    · rename_i h2; exact e4' q h1 h2
  unfold readOptionalOctetStringV readOptionalASN1OctetString
  simp only [e1, e2, Res.ok_bind]
  cases ok with
  | false =>
    refine ⟨false, pr, m1.set (localOf s out) (m (localOf s out)), rfl, ?_, fun _ => back out (Ne.symm hne), fun q h1 _ => back q h1⟩
    rw [Vars.set_ne _ _ hl1]; rfl
  | true =>
    simp only [Bool.not_true, Bool.false_eq_true, if_false, if_true]
    cases pr with
    | false =>
      refine ⟨true, false, (m1.set (localOf s out) (m (localOf s out))).set out none, rfl, ?_, by simp, ?_⟩
      · rw [Vars.set_self, Vars.set_ne _ _ hne, Vars.set_ne _ _ hl1]; rfl
      · intro q h1 h2; rw [Vars.set_ne _ _ h2]; exact back q h1
    | true =>
      simp only [if_true]
      obtain ⟨ok2, m2, f1, f2, f3⟩ := (C127_asn1 h tagOCTET_STRING (localOf s out) (localOf s out + 1) m1 (by omega) (v1 _)).1
      obtain ⟨_, m2', f1', i2⟩ := tag_inside v1 true tagOCTET_STRING (localOf s out) (localOf s out + 1)
      rw [f1] at f1'
      obtain ⟨_, rfl⟩ : _ ∧ m2 = m2' := by
        simp only [Res.ok.injEq, Prod.mk.injEq] at f1'; exact f1'
      have v2 := allInside_valid v1 i2
      simp only [f1, f2, Res.ok_bind]
      have hs1 : s ≠ localOf s out + 1 := by unfold localOf; omega
      have ho1 : out ≠ localOf s out + 1 := by unfold localOf; omega
      have hs : ((m2.set (localOf s out) (m (localOf s out))).set (localOf s out + 1) (m (localOf s out + 1))) s = m1 s := by
        rw [Vars.set_ne _ _ hs1, Vars.set_ne _ _ hl1, f3 s hl1 hs1]
      have hq : ∀ q, q ≠ s →
          ((m2.set (localOf s out) (m (localOf s out))).set (localOf s out + 1) (m (localOf s out + 1))) q = m q := by
        intro q h1
        simp only [Vars.set]
        split
        · rename_i h2; rw [h2]
        · rename_i h2
          split
          · rename_i h3; rw [h3]
          · rename_i h3; rw [f3 q h3 h2]; exact e4' q h1 h3
      have hlen := StrVar.len_get (v2 (localOf s out))
      cases ok2 with
      | false =>
        refine ⟨false, true, _, rfl, ?_, fun _ => hq out (Ne.symm hne), fun q h1 _ => hq q h1⟩
        rw [hs]; rfl
      | true =>
        by_cases hr : (m2 (localOf s out)).len = 0
        · refine ⟨true, true, ((m2.set (localOf s out) (m (localOf s out))).set (localOf s out + 1) (m (localOf s out + 1))).set out
            (m2 (localOf s out + 1)), ?_, ?_, by simp, ?_⟩
          · simp [hr]
          · rw [Vars.set_self, Vars.set_ne _ _ hne, hs]
            simp [Str.empty, hlen, hr]
          · intro q h1 h2; rw [Vars.set_ne _ _ h2]; exact hq q h1
        · refine ⟨false, true, _, by rw [if_pos (by simp [hr])], ?_, fun _ => hq out (Ne.symm hne), fun q h1 _ => hq q h1⟩
          rw [hs]
          simp [Str.empty, hlen, hr]

/-! ## What was read and what is still to be read -/

/-- The methods that hand out a slice: a successful call with pointers to `s` and `out` that ends with the variables `m'`. -/
def HandsOut (h : Heap) (s out : Nat) (m m' : Vars) : Prop :=
  (∃ n : Nat, readBytesV n s out m = .ok (true, m')) ∨
  (∃ k, readLengthPrefixedV h k s out m = .ok (true, m')) ∨
  (∃ sk tag, readTagV h sk tag s out m = .ok (true, m')) ∨
  readBitStringAsBytesV h s out m = .ok (true, m')

theorem handsOut_parts {h : Heap} {s out : Nat} {m m' : Vars} (hv : (m s).Valid h) (hc : HandsOut h s out m m') :
    ∃ x i L, m s = some x ∧ i ≤ L ∧ L ≤ x.len ∧
      m' = (m.set s (some (Slice.part x L x.len))).set out (some (Slice.part x i L)) := by
  rcases hc with ⟨n, e⟩ | ⟨k, e⟩ | ⟨sk, tag, e⟩ | e
  · cases hm : m s with
    | none => simp [readBytesV, readV_none hm] at e
    | some x =>
      by_cases hn : n ≤ x.len
      · simp only [readBytesV, readV_ok hm (hv x hm) hn, Res.ok_bind, Res.ok.injEq, Prod.mk.injEq, true_and] at e
        exact ⟨x, 0, n, rfl, Nat.zero_le _, hn, e.symm⟩
      · simp only [readBytesV] at e
        rw [readV_short (by rw [hm]; simp only [StrVar.len, Option.elim]; omega)] at e
        simp at e
  · rcases readLengthPrefixedV_cases h k s out m hv with ⟨r, _, e2, _⟩ | ⟨x, L, hm, a1, a2, _, e2⟩
    · rw [e2] at e; simp at e
    · rw [e2] at e
      simp only [Res.ok.injEq, Prod.mk.injEq, true_and] at e
      exact ⟨x, k, L, hm, a1, a2, e.symm⟩
  · rcases readTagV_cases h sk tag s out m hv with ⟨_, e2⟩ | ⟨x, t, L, H, hm, a1, a2, a3, _, e2⟩
    · rw [e2] at e; simp at e
    · rw [e2] at e
      simp only [Res.ok.injEq, Prod.mk.injEq] at e
      exact ⟨x, _, L, hm, by split <;> omega, a3, e.2.symm⟩
  · rcases readBitStringAsBytesV_cases h s out m hv with ⟨r, _, e2, _⟩ | ⟨x, L, H, hm, a1, a2, _, e2⟩
    · rw [e2] at e; simp at e
    · rw [e2] at e
      simp only [Res.ok.injEq, Prod.mk.injEq, true_and] at e
      exact ⟨x, H, L, hm, a1, a2, e.symm⟩

/-- A store in array `a` from position `i` on. -/
def store (h : Heap) (a i : Nat) (bs : Bytes) : Heap := h.set a (overwrite ((h[a]?).getD []) i bs)

theorem get_store_outside {h : Heap} {y : Slice} {a i : Nat} {arr bs : Bytes} (ha : h[a]? = some arr)
    (hi : i + bs.length ≤ arr.length) (hd : y.arr ≠ a ∨ y.off + y.len ≤ i ∨ i + bs.length ≤ y.off) :
    y.get (store h a i bs) = y.get h := by
  have hlt : a < h.length := by
    rcases Nat.lt_or_ge a h.length with h1 | h1
    · exact h1
    · rw [List.getElem?_eq_none h1] at ha; cases ha
  simp only [Slice.get, store]
  by_cases e : y.arr = a
  · rw [e, List.getElem?_set_self hlt, ha]
    simp only [Option.getD_some]
    apply List.ext_getElem?
    intro j
    simp only [List.getElem?_take, List.getElem?_drop]
    split
    · rw [getElem?_overwrite hi, if_neg (by omega)]
    · rfl
  · rw [List.getElem?_set_ne (Ne.symm e)]

/-- What was read and what is still to be read do not overlap: a store inside one does not change the other. -/
theorem C127_disjoint (h : Heap) (s out : Nat) (m m' : Vars) (hne : s ≠ out) (hv : (m s).Valid h) (hc : HandsOut h s out m m') :
    ∃ o r, m' out = some o ∧ m' s = some r ∧
      (∀ i bs, i + bs.length ≤ o.len → r.get (store h o.arr (o.off + i) bs) = r.get h) ∧
      (∀ i bs, i + bs.length ≤ r.len → o.get (store h r.arr (r.off + i) bs) = o.get h) := by
  obtain ⟨x, i0, L, hm, a1, a2, rfl⟩ := handsOut_parts hv hc
  obtain ⟨h1, arr, h2, h3⟩ := hv x hm
  refine ⟨_, _, Vars.set_self _ _ _, by rw [Vars.set_ne _ _ hne, Vars.set_self], ?_, ?_⟩
  · intro i bs hi
    simp only [Slice.part] at hi
    exact get_store_outside h2 (by simp only [Slice.part]; omega) (by simp only [Slice.part]; omega)
  · intro i bs hi
    simp only [Slice.part] at hi
    exact get_store_outside h2 (by simp only [Slice.part]; omega) (by simp only [Slice.part]; omega)

/-- What was read is not independent of the String: appending to it overwrites what is still to be read. For every
successful call and all bytes `ext`, not more than are still to be read, `append(out, ext...)` puts `ext` at the front of the
String, whatever capacity the run-time would pick for a new array. -/
theorem C127_append_violated (h : Heap) (s out : Nat) (m m' : Vars) (hne : s ≠ out) (hv : (m s).Valid h)
    (hc : HandsOut h s out m m') :
    ∃ o r, m' out = some o ∧ m' s = some r ∧ ∀ (spare : Nat) (ext : Bytes), ext.length ≤ r.len →
      r.get (goAppend spare h o ext).1 = ext ++ (r.get h).drop ext.length := by
  obtain ⟨x, i0, L, hm, a1, a2, rfl⟩ := handsOut_parts hv hc
  have hx := hv x hm
  obtain ⟨h1, arr, h2, h3⟩ := hv x hm
  refine ⟨_, _, Vars.set_self _ _ _, by rw [Vars.set_ne _ _ hne, Vars.set_self], ?_⟩
  intro spare ext he
  simp only [Slice.part] at he
  unfold goAppend
  rw [if_pos (by simp only [Slice.part]; omega)]
  have hvr : (Slice.part x L x.len).Valid h := Slice.part_valid hx a2 (Nat.le_refl _)
  have hg := Slice.get_set_overwrite (s := Slice.part x L x.len) (i := 0) (bs := ext) hvr (by simp only [Slice.part]; omega)
  have ho : overwrite ((Slice.part x L x.len).get h) 0 ext = ext ++ ((Slice.part x L x.len).get h).drop ext.length := by
    simp [overwrite]
  rw [← ho, ← hg]
  simp only [Slice.part]
  rw [show x.off + i0 + (L - i0) = x.off + L + 0 by omega]

/-- `CopyBytes` copies: the output gets the bytes in front, also when it overlaps the String; nothing outside the output
changes; and later stores in another array than that of the output do not change it. With too few bytes nothing happens. -/
theorem C127_copy (h : Heap) (s : Nat) (m : Vars) (o x : Slice) (ho : o.Valid h) (hm : m s = some x) (hx : x.Valid h) :
    if o.len ≤ x.len then
      ∃ h', copyBytesV h (some o) s m = .ok (true, m.set s (some (Slice.part x o.len x.len)), h') ∧
        copyBytes o.len ((m s).get h) = .ok (some (o.get h'), (StrVar.get h (some (Slice.part x o.len x.len)))) ∧
        (∀ y : Slice, y.arr ≠ o.arr ∨ y.off + y.len ≤ o.off ∨ o.off + o.len ≤ y.off → y.get h' = y.get h) ∧
        (∀ a i bs arr, a ≠ o.arr → h'[a]? = some arr → i + bs.length ≤ arr.length → o.get (store h' a i bs) = o.get h')
    else copyBytesV h (some o) s m = .ok (false, m, h) ∧ copyBytes o.len ((m s).get h) = .ok (none, (m s).get h) := by
  have hlen := Slice.length_get hx
  split
  · rename_i hle
    have hbs : (((Slice.part x 0 o.len).get h).take (min o.len (Slice.part x 0 o.len).len)) = (x.get h).take o.len := by
      rw [Slice.part_get hle]; simp [Slice.part, List.take_take]
    have hbl : ((x.get h).take o.len).length = o.len := by simp; omega
    refine ⟨store h o.arr o.off ((x.get h).take o.len), ?_, ?_, ?_, ?_⟩
    · unfold copyBytesV
      have : readV ((StrVar.len (some o) : Nat) : Int) s m = _ := readV_ok hm hx (n := o.len) hle
      rw [this]
      simp only [Res.ok_bind, hbs, StrVar.len, Option.elim]
      simp [store, Slice.part]
    · have hg := Slice.get_set_overwrite (s := o) (i := 0) (bs := (x.get h).take o.len) ho (by omega)
      have hg' : o.get (store h o.arr o.off ((x.get h).take o.len)) = (x.get h).take o.len := by
        unfold store
        rw [Nat.add_zero] at hg
        rw [hg]
        have hol := Slice.length_get ho
        simp only [overwrite, List.take_zero, List.nil_append, Nat.zero_add, hbl]
        rw [List.drop_of_length_le (by omega), List.append_nil]
      rw [hg', hm]
      simp only [copyBytes, StrVar.get, Option.map_some, part_rest hx]
      rw [read_some (by omega)]
      simp only [Res.ok_bind]
      rw [if_pos (by omega)]
      simp [List.take_take]
    · intro y hy
      obtain ⟨h1, arr, h2, h3⟩ := ho
      exact get_store_outside h2 (by omega) (by omega)
    · intro a i bs arr ha harr hi
      exact get_store_outside harr hi (.inl (Ne.symm ha))
  · rename_i hle
    constructor
    · unfold copyBytesV
      rw [readV_short (by rw [hm]; simp only [StrVar.len, Option.elim]; omega)]
      rfl
    · unfold copyBytes
      rw [hm]
      rw [read_short (by simp [StrVar.get]; omega)]
      rfl

/-! ## One variable as String and as output; failing reads -/

/-- `s.ReadASN1(&s, tag)`: on success the variable holds the content (what follows the element is forgotten), no other
variable changes. -/
theorem C127_self (h : Heap) (sk : Bool) (tag : Tag) (s : Nat) (m : Vars) (c : Str) (rest : Str) (hv : (m s).Valid h)
    (hr : (if sk then readASN1Tag tag else readASN1Element tag) ((m s).get h) = .ok (some c, rest)) :
    ∃ m', readTagV h sk tag s s m = .ok (true, m') ∧ (m' s).get h = c ∧ ∀ q, q ≠ s → m' q = m q := by
  have hr' : readTag sk tag ((m s).get h) = .ok (some c, rest) := hr
  rcases readTagV_cases h sk tag s s m hv with ⟨e1, _⟩ | ⟨x, t, L, H, hm, a1, a2, a3, e1, e2⟩
  · rw [e1] at hr'; simp at hr'
  · rw [e1] at hr'
    simp only [Res.ok.injEq, Prod.mk.injEq] at hr'
    by_cases ht : t = tag
    · rw [if_pos ht] at hr'
      refine ⟨_, by rw [e2, decide_eq_true ht], ?_, ?_⟩
      · rw [Vars.set_self]
        simp only [StrVar.get, Option.map_some, Slice.part_get a3]
        exact Option.some.inj hr'.1
      · intro q hq; rw [Vars.set_ne _ _ hq, Vars.set_ne _ _ hq]
    · rw [if_neg ht] at hr'; simp at hr'

/-- A read that fails does not leave the output variable alone: in front of an element with another tag, `ReadASN1` and
`ReadASN1Element` report failure, but the output variable holds the content of that element (the element). With
`s.ReadASN1(&s, tag)` the String itself is lost. -/
theorem C127_failed_violated (h : Heap) (sk : Bool) (tag t : Tag) (c rest : Bytes) (s out : Nat) (m : Vars)
    (hv : (m s).Valid h) (hs : (m s).get h = some (elem t c ++ rest)) (ht : LowTag t) (hl : (elem t c).length < 2 ^ 32)
    (hne : t ≠ tag) :
    ∃ m', readTagV h sk tag s out m = .ok (false, m') ∧ (m' out).get h = some (if sk then c else elem t c) := by
  have e0 := readASN1_elem sk rest ht hl
  rw [← hs] at e0
  rcases readASN1V_cases h sk s out m hv with ⟨e1, _⟩ | ⟨x, t', L, H, hm, a1, a2, a3, e1, e2⟩
  · rw [e0] at e1; simp at e1
  · rw [e0] at e1
    simp only [Res.ok.injEq, Prod.mk.injEq, Option.some.injEq] at e1
    obtain ⟨⟨rfl, e3⟩, _⟩ := e1
    refine ⟨(m.set s (some (Slice.part x L x.len))).set out (some (Slice.part x (if sk then H else 0) L)), ?_, ?_⟩
    · unfold readTagV
      rw [e2]
      simp [hne]
    · rw [Vars.set_self]
      simp only [StrVar.get, Option.map_some, Slice.part_get a3]
      rw [← e3]

/-- `ReadBytes` and the length-prefixed readers leave the output variable alone when they fail. -/
theorem C127_failed (h : Heap) (k s out : Nat) (m m' : Vars) (hne : s ≠ out) (hv : (m s).Valid h)
    (hf : readBytesV k s out m = .ok (false, m') ∨ readLengthPrefixedV h k s out m = .ok (false, m')) : m' out = m out := by
  rcases hf with e | e
  · cases hm : m s with
    | none =>
      simp only [readBytesV, readV_none hm, Res.ok_bind, Res.ok.injEq, Prod.mk.injEq, true_and] at e
      rw [← e]
    | some x =>
      by_cases hn : k ≤ x.len
      · simp [readBytesV, readV_ok hm (hv x hm) hn] at e
      · simp only [readBytesV] at e
        rw [readV_short (by rw [hm]; simp only [StrVar.len, Option.elim]; omega)] at e
        simp only [Res.ok_bind, Res.ok.injEq, Prod.mk.injEq, true_and] at e
        rw [← e]
  · rcases readLengthPrefixedV_cases h k s out m hv with ⟨r, _, e2, _⟩ | ⟨x, L, hm, a1, a2, _, e2⟩
    · rw [e2] at e
      simp only [Res.ok.injEq, Prod.mk.injEq, true_and] at e
      rw [← e, Vars.set_ne _ _ (Ne.symm hne)]
    · rw [e2] at e; simp at e

/-! ## Examples -/

/-- A buffer with the OCTET STRINGs 07 and 09 and two spare bytes; variable 0 is a String on the first six bytes. -/
def exStrHeap : Heap := [[4, 1, 7, 4, 1, 9, 0xee, 0xee]]
def exVars : Vars := fun p => if p = 0 then some ⟨0, 0, 6, 8⟩ else none

example : ∀ p, (exVars p).Valid exStrHeap := by
  intro p x hx
  simp only [exVars] at hx
  split at hx
  · cases hx; exact ⟨by decide, _, rfl, by decide⟩
  · cases hx

/-- The content of variable `p` after a call. -/
def after (r : Res (Bool × Vars)) (p : Nat) : Option (Bool × StrVar) :=
  match r with
  | .ok (b, m) => some (b, m p)
  | _ => none

/-- `ReadASN1` gives a window on the 07 whose capacity goes to the end of the buffer, and moves the String. -/
example : after (readTagV exStrHeap true tagOCTET_STRING 0 1 exVars) 1 = some (true, some ⟨0, 2, 1, 6⟩) ∧
    after (readTagV exStrHeap true tagOCTET_STRING 0 1 exVars) 0 = some (true, some ⟨0, 3, 3, 5⟩) := by
  decide +kernel

/-- Appending `04 01 08` to it changes the second OCTET STRING from 09 to 08. -/
example : (⟨0, 3, 3, 5⟩ : Slice).get (goAppend 0 exStrHeap ⟨0, 2, 1, 6⟩ [4, 1, 8]).1 = [4, 1, 8] := by decide +kernel

/-- A failing `ReadASN1` (INTEGER wanted) sets the output variable; with the same variable as String and output, the String is
the content of the wrong element. -/
example : after (readTagV exStrHeap true tagINTEGER 0 1 exVars) 1 = some (false, some ⟨0, 2, 1, 6⟩) ∧
    after (readTagV exStrHeap true tagINTEGER 0 0 exVars) 0 = some (false, some ⟨0, 2, 1, 6⟩) := by
  decide +kernel

/-- A program: split off the first element, parse it, then skip over the second one. -/
example : (match runReads exStrHeap [.asn1 false tagOCTET_STRING 0 1, .assign 2 1, .octets 5 2 3, .asn1 true tagOCTET_STRING 1 1,
      .skip 3 0] exVars with
    | .ok m => some (m 0, m 1, m 2, m 3)
    | _ => none) = some (some ⟨0, 6, 0, 2⟩, some ⟨0, 2, 1, 6⟩, some ⟨0, 0, 3, 8⟩, none) := by
  decide +kernel

/-- `CopyBytes` into the middle of the String's own buffer. -/
example : (match copyBytesV exStrHeap (some ⟨0, 1, 3, 7⟩) 0 exVars with
    | .ok (b, m, h) => some (b, m 0, h)
    | _ => none) = some (true, some ⟨0, 3, 3, 5⟩, [[4, 4, 1, 7, 1, 9, 0xee, 0xee]]) := by
  decide +kernel

end Verif.Props
