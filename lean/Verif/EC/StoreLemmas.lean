import Verif.EC.Store
/-! The programs of `Verif.EC.Store` run: they only append to memory, and their results are those of `Verif.EC.Model`. -/
namespace Verif.EC.Store
open Verif

/-- The `i`-th cell allocated after `m`. -/
def cell (m : Mem) (i : Nat) : Ptr := m.length + i

theorem bind_run {α β : Type} (x : M α) (f : α → M β) (m : Mem) : (x >>= f) m = (x m).bind fun r => f r.1 r.2 := by
  show (M.bind x f).run m = _
  induction x generalizing m with
  | pure a => rfl
  | fail e => cases e <;> rfl
  | read p k ih => exact ih _ m
  | write z v k ih => exact ih _
  | alloc k ih => exact ih _ _
theorem pure_run {α : Type} (a : α) (m : Mem) : (pure a : M α) m = .ok (a, m) := rfl
theorem lift_run {α : Type} (r : Res α) (m : Mem) : lift r m =
    match r with
    | .ok a => .ok (a, m)
    | .err e => .err e m
    | .panic => .panic m
    | .loop => .loop m := by cases r <;> rfl
theorem attempt_run {α : Type} (x : M α) (m : Mem) : attempt x m =
    match x m with
    | .ok r => .ok (some r.1, r.2)
    | .err _ m => .ok (none, m)
    | .panic m => .panic m
    | .loop m => .loop m := by
  induction x generalizing m with
  | pure a => rfl
  | fail e => cases e <;> rfl
  | read p k ih => exact ih _ m
  | write z v k ih => exact ih _
  | alloc k ih => exact ih _ _
theorem ok_bind' {α β : Type} (a : α × Mem) (f : α × Mem → Out β) : (Out.ok a).bind f = f a := rfl

theorem new_run (m : Mem) (L : List Int) : new (m ++ L) = .ok (cell m L.length, m ++ (L ++ [0])) := by
  show Out.ok ((m ++ L).length, m ++ L ++ [0]) = _
  unfold cell
  rw [List.length_append, List.append_assoc]

theorem new_run_nil (m : Mem) : new m = .ok (cell m 0, m ++ [0]) := rfl

theorem rd_cell (m : Mem) (L : List Int) (i : Nat) : rd (m ++ L) (cell m i) = L.getD i 0 := by
  unfold rd cell
  rw [List.getD_append_right _ _ _ _ (Nat.le_add_right _ _), Nat.add_sub_cancel_left]

theorem rd_old {m : Mem} {x : Ptr} (h : x < m.length) (L : List Int) : rd (m ++ L) x = rd m x := by
  unfold rd
  rw [List.getD_append _ _ _ _ h]

theorem put_run (m : Mem) (L : List Int) (i : Nat) (v : Int) : put (cell m i) v (m ++ L) = .ok (cell m i, m ++ L.set i v) := by
  show Out.ok (m.length + i, (m ++ L).set (m.length + i) v) = _
  unfold cell
  rw [List.set_append_right _ _ (Nat.le_add_right _ _), Nat.add_sub_cancel_left]

theorem bMod_run (m : Mem) (L : List Int) (i : Nat) (x y : Ptr) (h : rd (m ++ L) y ≠ 0) :
    bMod (cell m i) x y (m ++ L) = .ok (cell m i, m ++ L.set i (rd (m ++ L) x % rd (m ++ L) y)) := by
  show (if rd (m ++ L) y = 0 then (.fail .panic : M Ptr) else put (cell m i) (rd (m ++ L) x % rd (m ++ L) y)).run (m ++ L) = _
  rw [if_neg h, put_run]

theorem bModInverse_run (z x y : Ptr) (m : Mem) : bModInverse z x y m =
    match modInverse (rd m x) (rd m y) with
    | none => .ok (none, m)
    | some v => (put z v m).bind fun r => .ok (some r.1, r.2) := by
  show (match modInverse (rd m x) (rd m y) with
    | none => M.pure none
    | some v => M.write z v (.pure (some z)) : M (Option Ptr)).run m = _
  cases modInverse (rd m x) (rd m y) <;> rfl

theorem get_run (p : Ptr) (m : Mem) : get p m = .ok (rd m p, m) := rfl
theorem bSet_run (m : Mem) (L : List Int) (i : Nat) (x : Ptr) : bSet (cell m i) x (m ++ L) = .ok (cell m i, m ++ L.set i (rd (m ++ L) x)) := put_run _ _ _ _
theorem bSetInt_run (m : Mem) (L : List Int) (i : Nat) (v : Int) : bSetInt (cell m i) v (m ++ L) = .ok (cell m i, m ++ L.set i v) := put_run _ _ _ _
theorem bAdd_run (m : Mem) (L : List Int) (i : Nat) (x y : Ptr) :
    bAdd (cell m i) x y (m ++ L) = .ok (cell m i, m ++ L.set i (rd (m ++ L) x + rd (m ++ L) y)) := put_run _ _ _ _
theorem bSub_run (m : Mem) (L : List Int) (i : Nat) (x y : Ptr) :
    bSub (cell m i) x y (m ++ L) = .ok (cell m i, m ++ L.set i (rd (m ++ L) x - rd (m ++ L) y)) := put_run _ _ _ _
theorem bMul_run (m : Mem) (L : List Int) (i : Nat) (x y : Ptr) :
    bMul (cell m i) x y (m ++ L) = .ok (cell m i, m ++ L.set i (rd (m ++ L) x * rd (m ++ L) y)) := put_run _ _ _ _
theorem bLsh_run (m : Mem) (L : List Int) (i : Nat) (x : Ptr) (n : Nat) :
    bLsh (cell m i) x n (m ++ L) = .ok (cell m i, m ++ L.set i (rd (m ++ L) x * 2 ^ n)) := put_run _ _ _ _
theorem bAnd_run (m : Mem) (L : List Int) (i : Nat) (x y : Ptr) :
    bAnd (cell m i) x y (m ++ L) = .ok (cell m i, m ++ L.set i (Int.land (rd (m ++ L) x) (rd (m ++ L) y))) := put_run _ _ _ _
theorem bSetBit_run (m : Mem) (L : List Int) (i : Nat) (x : Ptr) (n : Nat) :
    bSetBit (cell m i) x n (m ++ L) = .ok (cell m i, m ++ L.set i (Int.lor (rd (m ++ L) x) (2 ^ n))) := put_run _ _ _ _

theorem fixSignM_run (cp : CurveParams) (c : CurvePtrs) (m : Mem) (L : List Int) (i : Nat) (hc : c.P < m.length) (hP : rd m c.P = cp.P)
    : fixSignM c (cell m i) (m ++ L) = .ok ((), m ++ L.set i (fixSign cp (L.getD i 0))) := by
  unfold fixSignM fixSign
  simp only [bind_run, ok_bind', rd_cell, get_run]
  split
  · simp only [bind_run, ok_bind', rd_cell, rd_old hc, hP, bAdd_run, pure_run]
  · rw [pure_run]
    congr
    rcases Nat.lt_or_ge i L.length with hi | hi
    · rw [List.getD_eq_getElem _ _ hi, List.set_getElem_self]
    · rw [List.set_eq_of_length_le hi]

attribute [local irreducible] new get put bSet bSetInt bAdd bSub bMul bMod bLsh bAnd bSetBit fixSignM

/-! Running a program step by step, with a name for every number that is stored. -/

theorem step_new {β : Type} {Q : Out β → Prop} {m : Mem} {L : List Int} {f : Ptr → M β} (h : Q (f (cell m L.length) (m ++ (L ++ [0])))) :
    Q ((new >>= f) (m ++ L)) := by rw [bind_run, new_run]; exact h
theorem step_get {β : Type} {Q : Out β → Prop} {m : Mem} {p : Ptr} {f : Int → M β} (h : Q (f (rd m p) m)) :
    Q ((get p >>= f) m) := by rw [bind_run, get_run]; exact h
theorem step_set {β : Type} {Q : Out β → Prop} {m : Mem} {L : List Int} {i : Nat} {x : Ptr} {f : Ptr → M β}
    (h : ∀ v, v = rd (m ++ L) x → Q (f (cell m i) (m ++ L.set i v))) : Q ((bSet (cell m i) x >>= f) (m ++ L)) := by
  rw [bind_run, bSet_run]; exact h _ rfl
theorem step_add {β : Type} {Q : Out β → Prop} {m : Mem} {L : List Int} {i : Nat} {x y : Ptr} {f : Ptr → M β}
    (h : ∀ v, v = rd (m ++ L) x + rd (m ++ L) y → Q (f (cell m i) (m ++ L.set i v))) : Q ((bAdd (cell m i) x y >>= f) (m ++ L)) := by
  rw [bind_run, bAdd_run]; exact h _ rfl
theorem step_sub {β : Type} {Q : Out β → Prop} {m : Mem} {L : List Int} {i : Nat} {x y : Ptr} {f : Ptr → M β}
    (h : ∀ v, v = rd (m ++ L) x - rd (m ++ L) y → Q (f (cell m i) (m ++ L.set i v))) : Q ((bSub (cell m i) x y >>= f) (m ++ L)) := by
  rw [bind_run, bSub_run]; exact h _ rfl
theorem step_mul {β : Type} {Q : Out β → Prop} {m : Mem} {L : List Int} {i : Nat} {x y : Ptr} {f : Ptr → M β}
    (h : ∀ v, v = rd (m ++ L) x * rd (m ++ L) y → Q (f (cell m i) (m ++ L.set i v))) : Q ((bMul (cell m i) x y >>= f) (m ++ L)) := by
  rw [bind_run, bMul_run]; exact h _ rfl
theorem step_lsh {β : Type} {Q : Out β → Prop} {m : Mem} {L : List Int} {i n : Nat} {x : Ptr} {f : Ptr → M β}
    (h : ∀ v, v = rd (m ++ L) x * 2 ^ n → Q (f (cell m i) (m ++ L.set i v))) : Q ((bLsh (cell m i) x n >>= f) (m ++ L)) := by
  rw [bind_run, bLsh_run]; exact h _ rfl

/-- The curve pointers hold the numbers of the curve. -/
structure Holds (cp : CurveParams) (c : CurvePtrs) (m : Mem) : Prop where
  P : c.P < m.length ∧ rd m c.P = cp.P
  N : c.N < m.length ∧ rd m c.N = cp.N
  B : c.B < m.length ∧ rd m c.B = cp.B
  Gx : c.Gx < m.length ∧ rd m c.Gx = cp.Gx
  Gy : c.Gy < m.length ∧ rd m c.Gy = cp.Gy
  pos : cp.P ≠ 0
  posN : cp.N ≠ 0

theorem step_mod {β : Type} {Q : Out β → Prop} {cp : CurveParams} {c : CurvePtrs} {m : Mem} (hc : Holds cp c m) {L : List Int} {i : Nat} {x : Ptr}
    {f : Ptr → M β} (h : ∀ v, v = rd (m ++ L) x % cp.P → Q (f (cell m i) (m ++ L.set i v))) : Q ((bMod (cell m i) x c.P >>= f) (m ++ L)) := by
  have hP' : rd (m ++ L) c.P = cp.P := by rw [rd_old hc.P.1, hc.P.2]
  rw [bind_run, bMod_run _ _ _ _ _ (by rw [hP']; exact hc.pos)]
  exact h _ (by rw [hP'])

theorem step_fix {β : Type} {Q : Out β → Prop} {cp : CurveParams} {c : CurvePtrs} {m : Mem} (hc : Holds cp c m) {L : List Int} {i : Nat}
    {f : Unit → M β} (h : ∀ v, v = fixSign cp (L.getD i 0) → Q (f () (m ++ L.set i v))) : Q ((fixSignM c (cell m i) >>= f) (m ++ L)) := by
  rw [bind_run, fixSignM_run cp c m L i hc.P.1 hc.P.2]
  exact h _ rfl

set_option hygiene false in
/-- One statement; the arguments in front of memory are `hx hy hz …`. -/
macro "stp" v:ident h:ident "[" ts:Lean.Parser.Tactic.simpLemma,* "]" : tactic => `(tactic| (
  first
    | refine step_mul ?_
    | refine step_mod hc ?_
    | refine step_sub ?_
    | refine step_add ?_
    | refine step_lsh ?_
    | refine step_set ?_
    | refine step_fix hc ?_
  intro $v $h
  simp only [rd_cell, List.getD_cons_zero, List.getD_cons_succ, $ts,*] at $h:ident
  simp only [List.set_cons_zero, List.set_cons_succ]))

set_option hygiene false in
macro "nw" : tactic => `(tactic| (refine step_new ?_; simp only [List.length_cons, List.length_nil, List.cons_append, List.nil_append, Nat.reduceAdd]))

theorem doubleJacobianM_run (cp : CurveParams) (c : CurvePtrs) (m : Mem) (hc : Holds cp c m)
    (x y z : Ptr) (hx : x < m.length) (hy : y < m.length) (hz : z < m.length) : ∃ L : List Int, L.length = 7 ∧
    doubleJacobianM c x y z m = .ok ((cell m 4, cell m 2, cell m 6), m ++ L) ∧
      (⟨L.getD 4 0, L.getD 2 0, L.getD 6 0⟩ : Jac) = doubleJacobian cp ⟨rd m x, rd m y, rd m z⟩ := by
  have hx' : ∀ L, rd (m ++ L) x = rd m x := rd_old hx
  have hy' : ∀ L, rd (m ++ L) y = rd m y := rd_old hy
  have hz' : ∀ L, rd (m ++ L) z = rd m z := rd_old hz
  suffices h : (fun r : Out (Ptr × Ptr × Ptr) => ∃ L : List Int, L.length = 7 ∧ r = .ok ((cell m 4, cell m 2, cell m 6), m ++ L) ∧
      (⟨L.getD 4 0, L.getD 2 0, L.getD 6 0⟩ : Jac) = doubleJacobian cp ⟨rd m x, rd m y, rd m z⟩) (doubleJacobianM c x y z (m ++ [])) by
    rw [List.append_nil] at h; exact h
  generalize hQ : (fun r : Out (Ptr × Ptr × Ptr) => _) = Q
  unfold doubleJacobianM
  nw; stp v1 h1 [hx', hy', hz']; stp v2 h2 [hx', hy', hz']
  nw; stp v3 h3 [hx', hy', hz']; stp v4 h4 [hx', hy', hz']
  nw; stp v5 h5 [hx', hy', hz']; stp v6 h6 [hx', hy', hz']
  nw; stp v7 h7 [hx', hy', hz']; stp v8 h8 [hx', hy', hz']; stp v9 h9 [hx', hy', hz']; stp v10 h10 [hx', hy', hz']; stp v11 h11 [hx', hy', hz']
  stp v12 h12 [hx', hy', hz']
  nw; stp v13 h13 [hx', hy', hz']
  nw; stp v14 h14 [hx', hy', hz']; stp v15 h15 [hx', hy', hz']; stp v16 h16 [hx', hy', hz']; stp v17 h17 [hx', hy', hz']; stp v18 h18 [hx', hy', hz']
  nw; stp v19 h19 [hx', hy', hz']; stp v20 h20 [hx', hy', hz']; stp v21 h21 [hx', hy', hz']; stp v22 h22 [hx', hy', hz']; stp v23 h23 [hx', hy', hz']
  stp v24 h24 [hx', hy', hz']; stp v25 h25 [hx', hy', hz']
  stp v26 h26 [hx', hy', hz']; stp v27 h27 [hx', hy', hz']; stp v28 h28 [hx', hy', hz']; stp v29 h29 [hx', hy', hz']; stp v30 h30 [hx', hy', hz']
  stp v31 h31 [hx', hy', hz']; stp v32 h32 [hx', hy', hz']; stp v33 h33 [hx', hy', hz']; stp v34 h34 [hx', hy', hz']; stp v35 h35 [hx', hy', hz']
  rw [pure_run, ← hQ]
  refine ⟨_, rfl, rfl, ?_⟩
  simp only [List.getD_cons_zero, List.getD_cons_succ]
  unfold doubleJacobian
  dsimp only
  have e1 : (2 : Int) ^ 1 = 2 := rfl
  have e2 : (2 : Int) ^ 2 = 4 := rfl
  have e3 : (2 : Int) ^ 3 = 8 := rfl
  rw [e1] at h10
  rw [e3] at h14 h31
  rw [e2] at h26
  subst h9
  simp only [← h1, ← h2, ← h3, ← h4, ← h5, ← h6, ← h7, ← h8, ← h10, ← h11, ← h12, ← h13, ← h14, ← h15, ← h16, ← h17, ← h18, ← h19, ← h20, ← h21,
    ← h22, ← h23, ← h24, ← h25, ← h26, ← h27, ← h28, ← h29, ← h30, ← h31, ← h32, ← h33, ← h34, ← h35]

/-- In the memory `m ++ L`, `p` points behind `m` and to the number `v`. -/
def Fresh (m : Mem) (L : List Int) (p : Ptr) (v : Int) : Prop := m.length ≤ p ∧ p < (m ++ L).length ∧ rd (m ++ L) p = v

theorem fresh_cell {m : Mem} {L : List Int} {i : Nat} {v : Int} (hi : i < L.length) (hv : L.getD i 0 = v) : Fresh m L (cell m i) v := by
  refine ⟨Nat.le_add_right _ _, ?_, by rw [rd_cell, hv]⟩
  rw [List.length_append]
  exact Nat.add_lt_add_left hi _

/-- Started in `m`, the program returns new pointers to the coordinates of `v` and has not written to `m`. -/
def Gives3 (m : Mem) (r : Out (Ptr × Ptr × Ptr)) (v : Jac) : Prop :=
  ∃ p L, r = .ok (p, m ++ L) ∧ Fresh m L p.1 v.x ∧ Fresh m L p.2.1 v.y ∧ Fresh m L p.2.2 v.z

theorem Fresh.lift {m : Mem} {L L' : List Int} {p : Ptr} {v : Int} (h : Fresh (m ++ L) L' p v) : Fresh m (L ++ L') p v := by
  obtain ⟨h1, h2, h3⟩ := h
  rw [List.length_append] at h1
  rw [List.append_assoc] at h2 h3
  exact ⟨by omega, h2, h3⟩

theorem Gives3.lift {m : Mem} {L : List Int} {r : Out (Ptr × Ptr × Ptr)} {v : Jac} (h : Gives3 (m ++ L) r v) : Gives3 m r v := by
  obtain ⟨p, L', h0, h1, h2, h3⟩ := h
  exact ⟨p, L ++ L', by rw [h0, List.append_assoc], h1.lift, h2.lift, h3.lift⟩

theorem double_gives (cp : CurveParams) (c : CurvePtrs) (m : Mem) (hc : Holds cp c m) (x y z : Ptr) (hx : x < m.length) (hy : y < m.length)
    (hz : z < m.length) : Gives3 m (doubleJacobianM c x y z m) (doubleJacobian cp ⟨rd m x, rd m y, rd m z⟩) := by
  obtain ⟨L, hL, h1, h2⟩ := doubleJacobianM_run cp c m hc x y z hx hy hz
  rw [← h2]
  exact ⟨_, L, h1, fresh_cell (by omega) rfl, fresh_cell (by omega) rfl, fresh_cell (by omega) rfl⟩

theorem Holds.append {cp : CurveParams} {c : CurvePtrs} {m : Mem} (h : Holds cp c m) (L : List Int) : Holds cp c (m ++ L) := by
  have : ∀ {p v}, p < m.length ∧ rd m p = v → p < (m ++ L).length ∧ rd (m ++ L) p = v := by
    intro p v hp
    refine ⟨?_, by rw [rd_old hp.1, hp.2]⟩
    rw [List.length_append]
    exact Nat.lt_add_right _ hp.1
  exact ⟨this h.P, this h.N, this h.B, this h.Gx, this h.Gy, h.pos, h.posN⟩

theorem add'_gives (cp : CurveParams) (c : CurvePtrs) (m : Mem) (hc : Holds cp c m) (x1 y1 z1 x2 y2 z2 : Ptr) (hx1 : x1 < m.length)
    (hy1 : y1 < m.length) (hz1 : z1 < m.length) (hx2 : x2 < m.length) (hy2 : y2 < m.length) (hz2 : z2 < m.length) (h1 : rd m z1 ≠ 0) (h2 : rd m z2 ≠ 0) :
    Gives3 m (addJacobianM' c (cell m 0) (cell m 1) (cell m 2) x1 y1 z1 x2 y2 z2 (m ++ [0, 0, 0]))
      (addJacobian cp ⟨rd m x1, rd m y1, rd m z1⟩ ⟨rd m x2, rd m y2, rd m z2⟩) := by
  have ex1 : ∀ L, rd (m ++ L) x1 = rd m x1 := rd_old hx1
  have ey1 : ∀ L, rd (m ++ L) y1 = rd m y1 := rd_old hy1
  have ez1 : ∀ L, rd (m ++ L) z1 = rd m z1 := rd_old hz1
  have ex2 : ∀ L, rd (m ++ L) x2 = rd m x2 := rd_old hx2
  have ey2 : ∀ L, rd (m ++ L) y2 = rd m y2 := rd_old hy2
  have ez2 : ∀ L, rd (m ++ L) z2 = rd m z2 := rd_old hz2
  have e1 : (2 : Int) ^ 1 = 2 := rfl
  generalize hQ : (fun r : Out (Ptr × Ptr × Ptr) =>
    Gives3 m r (addJacobian cp ⟨rd m x1, rd m y1, rd m z1⟩ ⟨rd m x2, rd m y2, rd m z2⟩)) = Q
  suffices h : Q (addJacobianM' c (cell m 0) (cell m 1) (cell m 2) x1 y1 z1 x2 y2 z2 (m ++ [0, 0, 0])) by rw [← hQ] at h; exact h
  unfold addJacobianM'
  nw; stp v1 g1 [ez1]; stp v2 g2 [ez1]
  nw; stp v3 g3 [ez2]; stp v4 g4 [ez2]
  nw; stp v5 g5 [ex1]; stp v6 g6 [ex1]
  nw; stp v7 g7 [ex2]; stp v8 g8 [ex2]
  nw; stp v9 g9 [ex2]
  refine step_get ?_
  rw [rd_cell]
  simp only [List.getD_cons_zero, List.getD_cons_succ]
  stp v10 g10 [ex1]
  nw; stp v11 g11 [ex1, e1]; stp v12 g12 [ex1]
  nw; stp v13 g13 [ex1]
  nw; stp v14 g14 [ey1, ez2]; stp v15 g15 [ey1]; stp v16 g16 [ey1]
  nw; stp v17 g17 [ey2, ez1]; stp v18 g18 [ey2]; stp v19 g19 [ey2]
  nw; stp v20 g20 [ey1]; stp v21 g21 [ey1]
  refine step_get ?_
  rw [rd_cell]
  simp only [List.getD_cons_zero, List.getD_cons_succ]
  have key : addJacobian cp ⟨rd m x1, rd m y1, rd m z1⟩ ⟨rd m x2, rd m y2, rd m z2⟩ =
      if v9 = 0 ∧ v21 = 0 then doubleJacobian cp ⟨rd m x1, rd m y1, rd m z1⟩
      else
        ⟨(v21 * 2 * (v21 * 2) - v13 - v6 * v12 - v6 * v12) % cp.P,
          (v21 * 2 * (v6 * v12 - (v21 * 2 * (v21 * 2) - v13 - v6 * v12 - v6 * v12) % cp.P) - v16 * v13 * 2) % cp.P,
          ((rd m z1 + rd m z2) * (rd m z1 + rd m z2) - v2 - v4) * v10 % cp.P⟩ := by
    unfold addJacobian
    rw [if_neg h1, if_neg h2]
    dsimp only
    simp only [← g1, ← g2, ← g3, ← g4, ← g5, ← g6, ← g7, ← g8, ← g9, ← g10, ← g11, ← g12, ← g13, ← g14, ← g15, ← g16, ← g17, ← g18, ← g19, ← g20, ← g21]
  by_cases hd : v9 = 0 ∧ v21 = 0
  · rw [if_pos (by simp [hd.1, hd.2]), ← hQ]
    rw [if_pos hd] at key
    dsimp only
    rw [key]
    have lt : ∀ {p}, p < m.length → ∀ L, p < (m ++ L).length := fun hp L => by rw [List.length_append]; exact Nat.lt_add_right _ hp
    have := double_gives cp c _ (hc.append [0, 0, 0, v2, v4, v6, v8, v10, v12, v13, v16, v19, v21]) x1 y1 z1 (lt hx1 _) (lt hy1 _) (lt hz1 _)
    rw [ex1, ey1, ez1] at this
    exact this.lift
  · rw [if_neg (by simpa using hd)]
    rw [if_neg hd] at key
    stp w1 k1 [e1]
    nw; stp w2 k2 [e1]
    stp w3 k3 [e1]; subst k3; stp w4 k4 [e1]; stp w5 k5 [e1]; stp w6 k6 [e1]; stp w7 k7 [e1]; stp w8 k8 [e1]
    stp w9 k9 [e1]; subst k9; stp w10 k10 [e1]; stp w11 k11 [e1]; stp w12 k12 [e1]; stp w13 k13 [e1]; stp w14 k14 [e1]; stp w15 k15 [e1]
    stp w16 k16 [ez1, ez2]; stp w17 k17 [e1]; stp w18 k18 [e1]; stp w19 k19 [e1]; stp w20 k20 [e1]; stp w21 k21 [e1]
    rw [pure_run, ← hQ]
    dsimp only
    rw [key]
    refine ⟨_, _, rfl, fresh_cell (by simp) ?_, fresh_cell (by simp) ?_, fresh_cell (by simp) ?_⟩
    · simp only [List.getD_cons_zero, k8, k7, k6, k5, k4, k2, k1]
    · simp only [List.getD_cons_zero, List.getD_cons_succ, k15, k14, k13, k12, k11, k10, k8, k7, k6, k5, k4, k2, k1]
    · simp only [List.getD_cons_zero, List.getD_cons_succ, k21, k20, k19, k18, k17, k16]

theorem addJac_gives (cp : CurveParams) (c : CurvePtrs) (m : Mem) (hc : Holds cp c m) (x1 y1 z1 x2 y2 z2 : Ptr) (hx1 : x1 < m.length)
    (hy1 : y1 < m.length) (hz1 : z1 < m.length) (hx2 : x2 < m.length) (hy2 : y2 < m.length) (hz2 : z2 < m.length) :
    Gives3 m (addJacobianM c x1 y1 z1 x2 y2 z2 m) (addJacobian cp ⟨rd m x1, rd m y1, rd m z1⟩ ⟨rd m x2, rd m y2, rd m z2⟩) := by
  generalize hQ : (fun r : Out (Ptr × Ptr × Ptr) =>
    Gives3 m r (addJacobian cp ⟨rd m x1, rd m y1, rd m z1⟩ ⟨rd m x2, rd m y2, rd m z2⟩)) = Q
  suffices h : Q (addJacobianM c x1 y1 z1 x2 y2 z2 (m ++ [])) by rw [← hQ, List.append_nil] at h; exact h
  unfold addJacobianM
  nw; nw; nw
  refine step_get ?_
  rw [rd_old hz1]
  by_cases h1 : rd m z1 = 0
  · rw [if_pos h1]
    stp v1 g1 [rd_old hx2]; stp v2 g2 [rd_old hy2]; stp v3 g3 [rd_old hz2]
    rw [pure_run, ← hQ]
    unfold addJacobian
    dsimp only
    rw [if_pos h1, ← g1, ← g2, ← g3]
    exact ⟨_, _, rfl, fresh_cell (by simp) rfl, fresh_cell (by simp) rfl, fresh_cell (by simp) rfl⟩
  rw [if_neg h1]
  refine step_get ?_
  rw [rd_old hz2]
  by_cases h2 : rd m z2 = 0
  · rw [if_pos h2]
    stp v1 g1 [rd_old hx1]; stp v2 g2 [rd_old hy1]; stp v3 g3 [rd_old hz1]
    rw [pure_run, ← hQ]
    unfold addJacobian
    dsimp only
    rw [if_neg h1, if_pos h2, ← g1, ← g2, ← g3]
    exact ⟨_, _, rfl, fresh_cell (by simp) rfl, fresh_cell (by simp) rfl, fresh_cell (by simp) rfl⟩
  rw [if_neg h2, ← hQ]
  exact add'_gives cp c m hc x1 y1 z1 x2 y2 z2 hx1 hy1 hz1 hx2 hy2 hz2 h1 h2

/-- Started in `m`, the program fails as `want` does, or returns new pointers to the coordinates and has not written to `m`. -/
def Gives2 (m : Mem) (r : Out (Ptr × Ptr)) : Res (Int × Int) → Prop
  | .ok v => ∃ p L, r = .ok (p, m ++ L) ∧ Fresh m L p.1 v.1 ∧ Fresh m L p.2 v.2
  | .err e => ∃ L, r = .err e (m ++ L)
  | .panic => ∃ L, r = .panic (m ++ L)
  | .loop => ∃ L, r = .loop (m ++ L)

theorem Gives2.lift {m : Mem} {L : List Int} {r : Out (Ptr × Ptr)} {v : Res (Int × Int)} (h : Gives2 (m ++ L) r v) : Gives2 m r v := by
  cases v with
  | ok v =>
    obtain ⟨p, L', h0, h1, h2⟩ := h
    exact ⟨p, L ++ L', by rw [h0, List.append_assoc], h1.lift, h2.lift⟩
  | err e => obtain ⟨L', h0⟩ := h; exact ⟨L ++ L', by rw [h0, List.append_assoc]⟩
  | panic => obtain ⟨L', h0⟩ := h; exact ⟨L ++ L', by rw [h0, List.append_assoc]⟩
  | loop => obtain ⟨L', h0⟩ := h; exact ⟨L ++ L', by rw [h0, List.append_assoc]⟩

theorem affine_gives (cp : CurveParams) (c : CurvePtrs) (m : Mem) (hc : Holds cp c m) (x y z : Ptr) (hx : x < m.length) (hy : y < m.length)
    (hz : z < m.length) : Gives2 m (affineFromJacobianM c x y z m) (affineFromJacobian cp ⟨rd m x, rd m y, rd m z⟩) := by
  generalize hQ : (fun r : Out (Ptr × Ptr) => Gives2 m r (affineFromJacobian cp ⟨rd m x, rd m y, rd m z⟩)) = Q
  suffices h : Q (affineFromJacobianM c x y z (m ++ [])) by rw [← hQ, List.append_nil] at h; exact h
  unfold affineFromJacobianM
  refine step_get ?_
  rw [rd_old hz]
  by_cases h1 : rd m z = 0
  · rw [if_pos h1]
    nw; nw
    rw [pure_run, ← hQ]
    unfold affineFromJacobian
    dsimp only
    rw [if_pos h1]
    exact ⟨_, _, rfl, fresh_cell (by simp) rfl, fresh_cell (by simp) rfl⟩
  rw [if_neg h1]
  nw
  unfold affineFromJacobian at hQ
  dsimp only at hQ
  rw [if_neg h1] at hQ
  rw [bind_run, bModInverse_run, rd_old hz, rd_old hc.P.1, hc.P.2]
  cases hi : modInverse (rd m z) cp.P with
  | none =>
    rw [hi] at hQ
    rw [← hQ]
    exact ⟨[0], rfl⟩
  | some zinv =>
    rw [hi] at hQ
    dsimp only at hQ ⊢
    rw [put_run, ok_bind', ok_bind']
    simp only [List.set_cons_zero]
    nw; stp v1 g1 [hx]
    nw; stp v2 g2 [rd_old hx]; stp v3 g3 [hx]; stp v4 g4 [hx]
    nw; stp v5 g5 [rd_old hy]; stp v6 g6 [hx]
    rw [pure_run, ← hQ]
    refine ⟨_, _, rfl, fresh_cell (by simp) ?_, fresh_cell (by simp) ?_⟩
    · simp only [List.getD_cons_zero, List.getD_cons_succ, g3, g2, g1]
    · simp only [List.getD_cons_zero, List.getD_cons_succ, g6, g5, g4, g1]

/-! ## Composition -/

/-- Started in `m`, the program ends as `want` does, has only appended to memory, and its value is related to that of `want`. -/
def Runs {α β : Type} (R : Mem → List Int → α → β → Prop) (m : Mem) (r : Out α) : Res β → Prop
  | .ok b => ∃ a L, r = .ok (a, m ++ L) ∧ R m L a b
  | .err e => ∃ L, r = .err e (m ++ L)
  | .panic => ∃ L, r = .panic (m ++ L)
  | .loop => ∃ L, r = .loop (m ++ L)

/-- The relation does not see where the memory of a part of the program began. -/
def Lifts {α β : Type} (R : Mem → List Int → α → β → Prop) : Prop := ∀ m L L' a b, R (m ++ L) L' a b → R m (L ++ L') a b

theorem Runs.lift {α β : Type} {R : Mem → List Int → α → β → Prop} (hR : Lifts R) {m : Mem} {L : List Int} {r : Out α} {w : Res β}
    (h : Runs R (m ++ L) r w) : Runs R m r w := by
  cases w with
  | ok v =>
    obtain ⟨p, L', h0, h1⟩ := h
    exact ⟨p, L ++ L', by rw [h0, List.append_assoc], hR _ _ _ _ _ h1⟩
  | err e => obtain ⟨L', h0⟩ := h; exact ⟨L ++ L', by rw [h0, List.append_assoc]⟩
  | panic => obtain ⟨L', h0⟩ := h; exact ⟨L ++ L', by rw [h0, List.append_assoc]⟩
  | loop => obtain ⟨L', h0⟩ := h; exact ⟨L ++ L', by rw [h0, List.append_assoc]⟩

theorem Runs.bind {α β γ δ : Type} {R : Mem → List Int → α → β → Prop} {R' : Mem → List Int → γ → δ → Prop} (hR : Lifts R') {m : Mem} {x : M α}
    {f : α → M γ} {w : Res β} {g : β → Res δ} (hx : Runs R m (x m) w) (hf : ∀ a b L, R m L a b → Runs R' (m ++ L) (f a (m ++ L)) (g b)) :
    Runs R' m ((x >>= f) m) (w >>= g) := by
  rw [bind_run]
  cases w with
  | ok v =>
    obtain ⟨p, L', h0, h1⟩ := hx
    rw [h0, ok_bind', Res.ok_bind]
    exact (hf p v L' h1).lift hR
  | err e => obtain ⟨L', h0⟩ := hx; exact ⟨L', by rw [h0]; rfl⟩
  | panic => obtain ⟨L', h0⟩ := hx; exact ⟨L', by rw [h0]; rfl⟩
  | loop => obtain ⟨L', h0⟩ := hx; exact ⟨L', by rw [h0]; rfl⟩

/-- A step that cannot fail. -/
theorem Runs.bind_ok {α β γ δ : Type} {R : Mem → List Int → α → β → Prop} {R' : Mem → List Int → γ → δ → Prop} (hR : Lifts R') {m : Mem} {x : M α}
    {f : α → M γ} {b : β} {w : Res δ} (hx : Runs R m (x m) (.ok b)) (hf : ∀ a L, R m L a b → Runs R' (m ++ L) (f a (m ++ L)) w) :
    Runs R' m ((x >>= f) m) w := by
  obtain ⟨p, L', h0, h1⟩ := hx
  rw [bind_run, h0, ok_bind']
  exact (hf p L' h1).lift hR

/-- Reading a number. -/
theorem Runs.get {γ δ : Type} {R' : Mem → List Int → γ → δ → Prop} {m : Mem} {p : Ptr} {f : Int → M γ} {w : Res δ}
    (h : Runs R' m (f (rd m p) m) w) : Runs R' m ((Store.get p >>= f) m) w := by rw [bind_run, get_run]; exact h

/-- A computation without memory. -/
theorem Runs.lifted {α γ δ : Type} {R' : Mem → List Int → γ → δ → Prop} {m : Mem} {r : Res α} {f : α → M γ} {g : α → Res δ}
    (h : ∀ a, Runs R' m (f a m) (g a)) : Runs R' m ((Store.lift r >>= f) m) (r >>= g) := by
  rw [bind_run]
  unfold Store.lift
  cases r with
  | ok v => exact h v
  | err e => exact ⟨[], by rw [List.append_nil]; rfl⟩
  | panic => exact ⟨[], by rw [List.append_nil]; rfl⟩
  | loop => exact ⟨[], by rw [List.append_nil]; rfl⟩

theorem Runs.done {α β : Type} {R : Mem → List Int → α → β → Prop} {m : Mem} {a : α} {b : β} (h : R m [] a b) : Runs R m ((pure a : M α) m) (.ok b) :=
  ⟨a, [], by rw [pure_run, List.append_nil], h⟩

/-- New pointers to the coordinates of a point. -/
def Fresh2 (m : Mem) (L : List Int) (p : Ptr × Ptr) (v : Int × Int) : Prop := Fresh m L p.1 v.1 ∧ Fresh m L p.2 v.2

theorem fresh_lifts : Lifts Fresh := fun _ _ _ _ _ h => h.lift
theorem fresh2_lifts : Lifts Fresh2 := fun _ _ _ _ _ h => ⟨h.1.lift, h.2.lift⟩

/-- Pointers to the coordinates of a point, possibly old ones. -/
def At3 (m : Mem) (L : List Int) (p : Ptr × Ptr × Ptr) (v : Jac) : Prop :=
  (p.1 < (m ++ L).length ∧ p.2.1 < (m ++ L).length ∧ p.2.2 < (m ++ L).length) ∧ (⟨rd (m ++ L) p.1, rd (m ++ L) p.2.1, rd (m ++ L) p.2.2⟩ : Jac) = v

theorem at3_lifts : Lifts At3 := fun m L L' a b h => by
  unfold At3 at h ⊢
  rw [← List.append_assoc]
  exact h

theorem Gives3.runs {m : Mem} {r : Out (Ptr × Ptr × Ptr)} {v : Jac} (h : Gives3 m r v) : Runs At3 m r (.ok v) := by
  obtain ⟨p, L, h0, h1, h2, h3⟩ := h
  refine ⟨p, L, h0, ⟨h1.2.1, h2.2.1, h3.2.1⟩, ?_⟩
  rw [h1.2.2, h2.2.2, h3.2.2]

theorem Gives2.runs {m : Mem} {r : Out (Ptr × Ptr)} {v : Res (Int × Int)} (h : Gives2 m r v) : Runs Fresh2 m r v := by
  cases v with
  | ok v => exact h
  | err e => exact h
  | panic => exact h
  | loop => exact h

theorem lt_append {m : Mem} {p : Ptr} (h : p < m.length) (L : List Int) : p < (m ++ L).length := by
  rw [List.length_append]
  exact Nat.lt_add_right _ h

theorem zForAffine_runs (m : Mem) (x y : Ptr) (hx : x < m.length) (hy : y < m.length) :
    Runs Fresh m (zForAffineM x y m) (.ok (zForAffine (rd m x) (rd m y))) := by
  unfold zForAffineM zForAffine
  rw [bind_run, new_run_nil, ok_bind', bind_run, get_run, ok_bind', bind_run, get_run, ok_bind', rd_old hx, rd_old hy]
  by_cases h : rd m x ≠ 0 ∨ rd m y ≠ 0
  · rw [if_pos h, if_pos h, bSetInt_run]
    exact ⟨_, _, rfl, fresh_cell (by simp) rfl⟩
  · rw [if_neg h, if_neg h, pure_run]
    exact ⟨_, _, rfl, fresh_cell (by simp) rfl⟩

theorem scalarBits_runs (cp : CurveParams) (c : CurvePtrs) (Bx By Bz : Ptr) (b : Int × Int) : ∀ (k : Nat) (byte : Byte) (m : Mem) (s : Ptr × Ptr × Ptr)
    (v : Jac), Holds cp c m → Bx < m.length → By < m.length → Bz < m.length → rd m Bx = b.1 → rd m By = b.2 → rd m Bz = 1 → At3 m [] s v →
    Runs At3 m (scalarBitsM c Bx By Bz k byte s m) (.ok (scalarBits cp b k byte v))
  | 0, _, m, s, v, _, _, _, _, _, _, _, hs => Runs.done hs
  | k + 1, byte, m, s, v, hc, hx, hy, hz, ex, ey, ez, hs => by
    obtain ⟨⟨h1, h2, h3⟩, hv⟩ := hs
    rw [List.append_nil] at h1 h2 h3 hv
    unfold scalarBitsM
    rw [show scalarBits cp b (k + 1) byte v = scalarBits cp b k (byte <<< 1) (if byte &&& 0x80 = 0x80 then addJacobian cp ⟨b.1, b.2, 1⟩
      (doubleJacobian cp v) else doubleJacobian cp v) from rfl]
    have hd := (double_gives cp c m hc s.1 s.2.1 s.2.2 h1 h2 h3).runs
    rw [hv] at hd
    refine Runs.bind_ok at3_lifts hd ?_
    intro s1 L hs1
    have hc1 := hc.append L
    by_cases hb : byte &&& 0x80 = 0x80
    · rw [if_pos hb, if_pos hb]
      have ha := (addJac_gives cp c (m ++ L) hc1 Bx By Bz s1.1 s1.2.1 s1.2.2 (lt_append hx L) (lt_append hy L) (lt_append hz L) hs1.1.1 hs1.1.2.1
        hs1.1.2.2).runs
      rw [hs1.2, rd_old hx, rd_old hy, rd_old hz, ex, ey, ez] at ha
      refine Runs.bind_ok at3_lifts ha ?_
      intro s2 L2 hs2
      refine scalarBits_runs cp c Bx By Bz b k (byte <<< 1) _ s2 _ (hc1.append L2) (lt_append (lt_append hx L) L2) (lt_append (lt_append hy L) L2)
        (lt_append (lt_append hz L) L2) ?_ ?_ ?_ ?_
      · rw [rd_old (lt_append hx L), rd_old hx, ex]
      · rw [rd_old (lt_append hy L), rd_old hy, ey]
      · rw [rd_old (lt_append hz L), rd_old hz, ez]
      · unfold At3 at hs2 ⊢
        rw [List.append_nil]
        exact hs2
    · rw [if_neg hb, if_neg hb]
      refine Runs.bind_ok (R := At3) (b := doubleJacobian cp v) at3_lifts (Runs.done ?_) ?_
      · unfold At3 at hs1 ⊢
        rw [List.append_nil]
        exact hs1
      intro s2 L2 hs2
      refine scalarBits_runs cp c Bx By Bz b k (byte <<< 1) _ s2 _ (hc1.append L2) (lt_append (lt_append hx L) L2) (lt_append (lt_append hy L) L2)
        (lt_append (lt_append hz L) L2) ?_ ?_ ?_ ?_
      · rw [rd_old (lt_append hx L), rd_old hx, ex]
      · rw [rd_old (lt_append hy L), rd_old hy, ey]
      · rw [rd_old (lt_append hz L), rd_old hz, ez]
      · unfold At3 at hs2 ⊢
        rw [List.append_nil]
        exact hs2

theorem scalarBytes_runs (cp : CurveParams) (c : CurvePtrs) (Bx By Bz : Ptr) (b : Int × Int) : ∀ (k : Bytes) (m : Mem) (s : Ptr × Ptr × Ptr)
    (v : Jac), Holds cp c m → Bx < m.length → By < m.length → Bz < m.length → rd m Bx = b.1 → rd m By = b.2 → rd m Bz = 1 → At3 m [] s v →
    Runs At3 m (scalarBytesM c Bx By Bz k s m) (.ok (k.foldl (fun s byte => scalarBits cp b 8 byte s) v))
  | [], m, s, v, _, _, _, _, _, _, _, hs => Runs.done hs
  | byte :: k, m, s, v, hc, hx, hy, hz, ex, ey, ez, hs => by
    unfold scalarBytesM
    refine Runs.bind_ok at3_lifts (scalarBits_runs cp c Bx By Bz b 8 byte m s v hc hx hy hz ex ey ez hs) ?_
    intro s1 L hs1
    rw [List.foldl_cons]
    refine scalarBytes_runs cp c Bx By Bz b k _ s1 _ (hc.append L) (lt_append hx L) (lt_append hy L) (lt_append hz L) ?_ ?_ ?_ ?_
    · rw [rd_old hx, ex]
    · rw [rd_old hy, ey]
    · rw [rd_old hz, ez]
    · unfold At3 at hs1 ⊢
      rw [List.append_nil]
      exact hs1

theorem scalarMult_runs (cp : CurveParams) (c : CurvePtrs) (m : Mem) (hc : Holds cp c m) (Bx By : Ptr) (hx : Bx < m.length) (hy : By < m.length)
    (k : Bytes) : Runs Fresh2 m (scalarMultM c Bx By k m) (scalarMult cp (rd m Bx, rd m By) k) := by
  unfold scalarMultM scalarMult
  rw [bind_run, new_run_nil, ok_bind', bind_run, bSetInt_run, ok_bind', List.set_cons_zero]
  rw [bind_run, new_run, ok_bind', bind_run, new_run, ok_bind', bind_run, new_run, ok_bind']
  simp only [List.length_cons, List.length_nil, List.cons_append, List.nil_append, Nat.reduceAdd]
  refine Runs.lift fresh2_lifts (L := [1, 0, 0, 0]) ?_
  have lt : ∀ i, i < 4 → cell m i < (m ++ [1, 0, 0, 0]).length := by
    intro i hi
    unfold cell
    rw [List.length_append]
    exact Nat.add_lt_add_left hi _
  have hb := scalarBytes_runs cp c Bx By (cell m 0) (rd m Bx, rd m By) k (m ++ [1, 0, 0, 0]) (cell m 1, cell m 2, cell m 3) ⟨0, 0, 0⟩ (hc.append _)
    (lt_append hx _) (lt_append hy _) (lt 0 (by omega)) (rd_old hx _) (rd_old hy _) (rd_cell _ _ _) ?_
  · refine Runs.bind_ok fresh2_lifts hb ?_
    intro s L hs
    have := (affine_gives cp c _ ((hc.append [1, 0, 0, 0]).append L) s.1 s.2.1 s.2.2 hs.1.1 hs.1.2.1 hs.1.2.2).runs
    rw [hs.2] at this
    exact this
  · unfold At3
    rw [List.append_nil]
    refine ⟨⟨lt 1 (by omega), lt 2 (by omega), lt 3 (by omega)⟩, ?_⟩
    simp only [rd_cell]
    rfl

theorem scalarBaseMult_runs (cp : CurveParams) (c : CurvePtrs) (m : Mem) (hc : Holds cp c m) (k : Bytes) :
    Runs Fresh2 m (scalarBaseMultM c k m) (scalarBaseMult cp k) := by
  have := scalarMult_runs cp c m hc c.Gx c.Gy hc.Gx.1 hc.Gy.1 k
  rw [hc.Gx.2, hc.Gy.2] at this
  exact this

theorem add_runs (cp : CurveParams) (c : CurvePtrs) (m : Mem) (hc : Holds cp c m) (x1 y1 x2 y2 : Ptr) (hx1 : x1 < m.length) (hy1 : y1 < m.length)
    (hx2 : x2 < m.length) (hy2 : y2 < m.length) : Runs Fresh2 m (addM c x1 y1 x2 y2 m) (add cp (rd m x1, rd m y1) (rd m x2, rd m y2)) := by
  unfold addM add
  refine Runs.bind_ok fresh2_lifts (zForAffine_runs m x1 y1 hx1 hy1) ?_
  intro z1 L hz1
  refine Runs.bind_ok fresh2_lifts (zForAffine_runs (m ++ L) x2 y2 (lt_append hx2 L) (lt_append hy2 L)) ?_
  intro z2 L2 hz2
  have ha := (addJac_gives cp c _ ((hc.append L).append L2) x1 y1 z1 x2 y2 z2 (lt_append (lt_append hx1 L) L2) (lt_append (lt_append hy1 L) L2)
    (lt_append hz1.2.1 L2) (lt_append (lt_append hx2 L) L2) (lt_append (lt_append hy2 L) L2) hz2.2.1).runs
  rw [hz2.2.2, rd_old hz1.2.1, hz1.2.2] at ha
  rw [rd_old (lt_append hx1 L), rd_old hx1, rd_old (lt_append hy1 L), rd_old hy1, rd_old (lt_append hx2 L), rd_old hx2, rd_old (lt_append hy2 L),
    rd_old hy2] at ha
  refine Runs.bind_ok fresh2_lifts ha ?_
  intro s L3 hs
  have := (affine_gives cp c _ (((hc.append L).append L2).append L3) s.1 s.2.1 s.2.2 hs.1.1 hs.1.2.1 hs.1.2.2).runs
  rw [hs.2] at this
  exact this

end Verif.EC.Store
