import Verif.CB.BuilderRefine
import Verif.CB.Add
/-! Running a program against its meaning; composition of programs. -/
namespace Verif.CB
open Spec.Builder Spec.DER

theorem prepend_done {d : Den} {bs : Bytes} {r : Option Bytes} {anc : List Bool} (h : d.prepend bs = .done r anc) :
    ∃ r', d = .done r' anc ∧ r = r'.map (bs ++ ·) := by
  cases d <;> simp [Den.prepend] at h
  obtain ⟨rfl, rfl⟩ := h
  exact ⟨_, rfl, rfl⟩

theorem eval_anc_length (p : Prog) : ∀ (e : Bool) (anc : List Bool) (r : Option Bytes) (anc' : List Bool),
    eval p e anc = .done r anc' → anc'.length = anc.length := by
  have item_len : ∀ (item : Bytes → Option Bytes) (body rest : Prog) (anc : List Bool) (r : Option Bytes) (anc' : List Bool),
      (∀ e anc r anc', eval body e anc = .done r anc' → anc'.length = anc.length) →
      (∀ e anc r anc', eval rest e anc = .done r anc' → anc'.length = anc.length) →
      Den.item item (eval body false (false :: anc)) anc.isEmpty (eval rest) = .done r anc' → anc'.length = anc.length := by
    intro item body rest anc r anc' ihb ihr
    cases hb : eval body false (false :: anc) with
    | panicked => simp [Den.item]
    | thrown =>
      simp only [Den.item]
      split
      · rename_i h
        intro hr
        have := ihr _ _ _ _ hr
        cases anc with
        | nil => exact this
        | cons _ _ => simp at h
      · simp
    | done r2 fl =>
      have hl := ihb _ _ _ _ hb
      cases fl with
      | nil => simp at hl
      | cons f fl =>
        simp at hl
        cases r2 with
        | none => simp only [Den.item]; intro hr; have := ihr _ _ _ _ hr; omega
        | some c =>
          simp only [Den.item]
          cases item c with
          | none => simp only; intro hr; have := ihr _ _ _ _ hr; omega
          | some bs =>
            simp only
            split
            · intro hr; have := ihr _ _ _ _ hr; omega
            · intro hr
              obtain ⟨r', h', _⟩ := prepend_done hr
              have := ihr _ _ _ _ h'; omega
  induction p with
  | nil => intro e anc r anc' h; simp [eval] at h; rw [h.2]
  | add bs rest ih =>
    intro e anc r anc' h
    simp only [eval] at h
    split at h
    · exact ih _ _ _ _ h
    · obtain ⟨r', h', _⟩ := prepend_done h; exact ih _ _ _ _ h'
  | lenPrefixed k body rest ihb ihr =>
    intro e anc r anc' h
    simp only [eval] at h
    split at h
    · exact ihr _ _ _ _ h
    · exact item_len _ body rest anc r anc' ihb ihr h
  | asn1 t body rest ihb ihr =>
    intro e anc r anc' h
    simp only [eval] at h
    split at h
    · exact ihr _ _ _ _ h
    · split at h
      · exact item_len _ body rest anc r anc' ihb ihr h
      · exact ihr _ _ _ _ h
  | setErr keep m rest ih => intro e anc r anc' h; exact ih _ _ _ _ h
  | throw m => intro e anc r anc' h; simp [eval] at h
  | panic => intro e anc r anc' h; simp [eval] at h
  | up k act rest ih =>
    intro e anc r anc' h
    simp only [eval] at h
    split at h
    · simp at h
    · split at h
      · simp at h
      · have := ih _ _ _ _ h; simpa using this

/-- What `NewBuilder(buf)`, the program and `Bytes()` return, read off the meaning. -/
def denResult (buf : Bytes) (d : Den) (r : Res Bytes) : Prop :=
  match d with
  | .done (some bs) _ => r = .ok (buf ++ bs)
  | .done none _ => ∃ m, r = .err m
  | .thrown => r = .panic
  | .panicked => r = .panic

theorem run_eval (g : Growth) (h : Heap) (buf : Slice) (hv : buf.Valid h) (p : Prog) :
    denResult (buf.get h) (eval p false []) (run g h buf p) := by
  have hs : Start (newBuilder false h buf) := ⟨⟨rfl, hv, by simp [newBuilder], by simp [newBuilder]⟩, rfl⟩
  have := exec_eval g p _ hs
  simp only [newBuilder, Option.isSome_none, List.map_nil] at this
  unfold run newBuilder
  cases he : eval p false [] with
  | panicked =>
    rw [he] at this
    obtain ⟨h', e⟩ := this
    rw [e]; rfl
  | thrown =>
    rw [he] at this
    obtain ⟨m, st', e, _⟩ := this
    rw [e]; rfl
  | done r fl =>
    rw [he] at this
    obtain ⟨st', e, en, _, hr⟩ := this
    rw [e]
    have hoff : st'.cur.offset = 0 := congrArg (fun f => f.2.1) en.frame
    cases r with
    | none =>
      obtain ⟨m, hm⟩ := Option.isSome_iff_exists.1 hr
      exact ⟨m, by simp only [bytesOf, hm]⟩
    | some bs =>
      simp only [denResult, bytesOf, hr.1, hoff, List.drop_zero, hr.2]

theorem run_ok_iff (g : Growth) (h : Heap) (buf : Slice) (hv : buf.Valid h) (p : Prog) (out : Bytes) :
    run g h buf p = .ok out ↔ ∃ bs, out = buf.get h ++ bs ∧ eval p false [] = .done (some bs) [] := by
  have := run_eval g h buf hv p
  constructor
  · intro hr
    rw [hr] at this
    cases he : eval p false [] with
    | panicked => rw [he] at this; cases this
    | thrown => rw [he] at this; cases this
    | done r fl =>
      rw [he] at this
      have hl := eval_anc_length p _ _ _ _ he
      cases fl with
      | cons _ _ => simp at hl
      | nil =>
        cases r with
        | none => obtain ⟨m, hm⟩ := this; cases hm
        | some bs => exact ⟨bs, by simpa [denResult] using this, rfl⟩
  · rintro ⟨bs, rfl, he⟩
    rw [he] at this
    exact this

theorem run_err_iff (g : Growth) (h : Heap) (buf : Slice) (hv : buf.Valid h) (p : Prog) :
    (∃ m, run g h buf p = .err m) ↔ eval p false [] = .done none [] := by
  have := run_eval g h buf hv p
  constructor
  · rintro ⟨m, hr⟩
    rw [hr] at this
    cases he : eval p false [] with
    | panicked => rw [he] at this; cases this
    | thrown => rw [he] at this; cases this
    | done r fl =>
      rw [he] at this
      have hl := eval_anc_length p _ _ _ _ he
      cases fl with
      | cons _ _ => simp at hl
      | nil =>
        cases r with
        | none => rfl
        | some bs => cases this
  · intro he
    rw [he] at this
    exact this

theorem run_panic_iff (g : Growth) (h : Heap) (buf : Slice) (hv : buf.Valid h) (p : Prog) :
    run g h buf p = .panic ↔ (eval p false [] = .panicked ∨ eval p false [] = .thrown) := by
  have := run_eval g h buf hv p
  constructor
  · intro hr
    rw [hr] at this
    cases he : eval p false [] with
    | panicked => exact .inl rfl
    | thrown => exact .inr rfl
    | done r fl =>
      rw [he] at this
      cases r with
      | none => obtain ⟨m, hm⟩ := this; cases hm
      | some bs => cases this
  · rintro (he | he) <;> (rw [he] at this; exact this)

/-- The program followed by another. -/
def Den.andThen (d : Den) (f : Bool → List Bool → Den) : Den :=
  match d with
  | .done none anc => f true anc
  | .done (some a) anc => (f false anc).prepend a
  | .thrown => .thrown
  | .panicked => .panicked

theorem prepend_prepend (a b : Bytes) (d : Den) : (d.prepend b).prepend a = d.prepend (a ++ b) := by
  cases d with
  | done r anc => cases r <;> simp [Den.prepend]
  | thrown => rfl
  | panicked => rfl

theorem prepend_nil (d : Den) : d.prepend [] = d := by
  cases d with
  | done r anc => cases r <;> simp [Den.prepend]
  | thrown => rfl
  | panicked => rfl

theorem prepend_of_no_some {d : Den} (a : Bytes) (h : ∀ bs fl, d ≠ .done (some bs) fl) : d.prepend a = d := by
  cases d with
  | done r anc =>
    cases r with
    | none => rfl
    | some b => exact absurd rfl (h b anc)
  | thrown => rfl
  | panicked => rfl

theorem andThen_prepend (a : Bytes) (d : Den) {f : Bool → List Bool → Den} (hf : ∀ anc bs fl, f true anc ≠ .done (some bs) fl) :
    Den.andThen (d.prepend a) f = (Den.andThen d f).prepend a := by
  cases d with
  | done r anc =>
    cases r with
    | none =>
      show f true anc = (f true anc).prepend a
      rw [prepend_of_no_some a (hf anc)]
    | some b =>
      show (f false anc).prepend (a ++ b) = ((f false anc).prepend b).prepend a
      rw [prepend_prepend]
  | thrown => rfl
  | panicked => rfl

theorem item_andThen (item : Bytes → Option Bytes) (body : Den) (o : Bool) (rest : Bool → List Bool → Den)
    {f : Bool → List Bool → Den} (hf : ∀ anc bs fl, f true anc ≠ .done (some bs) fl) :
    Den.andThen (Den.item item body o rest) f = Den.item item body o (fun e anc => Den.andThen (rest e anc) f) := by
  unfold Den.item
  cases body with
  | panicked => rfl
  | thrown => simp only; split <;> rfl
  | done r fl =>
    cases fl with
    | nil => rfl
    | cons e fl =>
      cases r with
      | none => rfl
      | some c =>
        simp only
        cases item c with
        | none => rfl
        | some bs =>
          simp only
          split
          · rfl
          · rw [andThen_prepend bs _ hf]

theorem eval_append (p q : Prog) : ∀ (e : Bool) (anc : List Bool), eval (p.append q) e anc = Den.andThen (eval p e anc) (eval q) := by
  induction p with
  | nil =>
    intro e anc
    cases e
    · simp [Prog.append, eval, Den.andThen, prepend_nil]
    · simp [Prog.append, eval, Den.andThen]
  | add bs rest ih =>
    intro e anc
    simp only [Prog.append, eval]
    split
    · exact ih _ _
    · rw [ih, andThen_prepend _ _ (eval_err q)]
  | lenPrefixed k body rest _ ih =>
    intro e anc
    simp only [Prog.append, eval]
    split
    · exact ih _ _
    · rw [item_andThen _ _ _ _ (eval_err q)]
      congr 1
      funext e anc; exact ih e anc
  | asn1 t body rest _ ih =>
    intro e anc
    simp only [Prog.append, eval]
    split
    · exact ih _ _
    · split
      · rw [item_andThen _ _ _ _ (eval_err q)]
        congr 1
        funext e anc; exact ih e anc
      · exact ih _ _
  | setErr keep m rest ih => intro e anc; exact ih _ _
  | throw m => intro e anc; rfl
  | panic => intro e anc; rfl
  | up k act rest ih =>
    intro e anc
    simp only [Prog.append, eval]
    cases anc[k]? with
    | none => rfl
    | some f =>
      simp only
      cases upDen f act with
      | none => rfl
      | some f => exact ih _ _

/-- A program that succeeds with given ancestors does the same with further ancestors outside them. -/
theorem eval_extend (p : Prog) : ∀ (e : Bool) (anc anc' : List Bool) (c : Bytes) (ext : List Bool),
    eval p e anc = .done (some c) anc' → eval p e (anc ++ ext) = .done (some c) (anc' ++ ext) := by
  have item_ext : ∀ (item : Bytes → Option Bytes) (body rest : Prog) (anc anc' : List Bool) (c : Bytes) (ext : List Bool),
      (∀ e anc anc' c ext, eval body e anc = .done (some c) anc' → eval body e (anc ++ ext) = .done (some c) (anc' ++ ext)) →
      (∀ e anc anc' c ext, eval rest e anc = .done (some c) anc' → eval rest e (anc ++ ext) = .done (some c) (anc' ++ ext)) →
      Den.item item (eval body false (false :: anc)) anc.isEmpty (eval rest) = .done (some c) anc' →
      Den.item item (eval body false (false :: (anc ++ ext))) (anc ++ ext).isEmpty (eval rest) = .done (some c) (anc' ++ ext) := by
    intro item body rest anc anc' c ext ihb ihr
    cases hb : eval body false (false :: anc) with
    | panicked => simp [Den.item]
    | thrown =>
      simp only [Den.item]
      split
      · intro h; exact absurd h (eval_err rest _ _ _)
      · simp
    | done r fl =>
      cases fl with
      | nil => simp [Den.item]
      | cons f fl =>
        cases r with
        | none => simp only [Den.item]; intro h; exact absurd h (eval_err rest _ _ _)
        | some c2 =>
          have hb' := ihb _ _ _ _ ext hb
          rw [List.cons_append, List.cons_append] at hb'
          rw [hb']
          simp only [Den.item]
          cases item c2 with
          | none => intro h; exact absurd h (eval_err rest _ _ _)
          | some bs =>
            simp only
            split
            · intro h; exact absurd h (eval_err rest _ _ _)
            · intro h
              obtain ⟨r', h', hr⟩ := prepend_done h
              cases r' with
              | none => simp at hr
              | some c3 =>
                rw [ihr _ _ _ _ ext h']
                simp only [Den.prepend]
                rw [← hr]
  induction p with
  | nil => intro e anc anc' c ext h; simp [eval] at h ⊢; exact ⟨h.1, h.2 ▸ rfl⟩
  | add bs rest ih =>
    intro e anc anc' c ext h
    simp only [eval] at h ⊢
    split at h
    · exact absurd h (eval_err rest _ _ _)
    · rename_i he
      rw [if_neg he]
      obtain ⟨r', h', hr⟩ := prepend_done h
      cases r' with
      | none => simp at hr
      | some c3 => rw [ih _ _ _ _ ext h']; simp only [Den.prepend]; rw [← hr]
  | lenPrefixed k body rest ihb ihr =>
    intro e anc anc' c ext h
    simp only [eval] at h ⊢
    split at h
    · exact absurd h (eval_err rest _ _ _)
    · rename_i he
      rw [if_neg he]
      exact item_ext _ body rest _ _ _ _ ihb ihr h
  | asn1 t body rest ihb ihr =>
    intro e anc anc' c ext h
    simp only [eval] at h ⊢
    split at h
    · exact absurd h (eval_err rest _ _ _)
    · rename_i he
      rw [if_neg he]
      split at h
      · rename_i ht
        rw [if_pos ht]
        exact item_ext _ body rest _ _ _ _ ihb ihr h
      · exact absurd h (eval_err rest _ _ _)
  | setErr keep m rest ih => intro e anc anc' c ext h; exact absurd h (eval_err rest _ _ _)
  | throw m => intro e anc anc' c ext h; simp [eval] at h
  | panic => intro e anc anc' c ext h; simp [eval] at h
  | up k act rest ih =>
    intro e anc anc' c ext h
    simp only [eval] at h ⊢
    cases hk : anc[k]? with
    | none => rw [hk] at h; simp at h
    | some f =>
      rw [hk] at h
      have hlt := (List.getElem?_eq_some_iff.1 hk).1
      rw [List.getElem?_append_left hlt, hk]
      simp only at h ⊢
      cases hu : upDen f act with
      | none => rw [hu] at h; simp at h
      | some f2 =>
        rw [hu] at h
        simp only at h ⊢
        rw [List.set_append_left _ _ hlt]
        exact ih _ _ _ _ ext h

/-- The meaning of a list of single-byte writes. -/
theorem eval_addEach (bs : Bytes) (anc : List Bool) : eval (addEach bs) false anc = .done (some bs) anc := by
  induction bs with
  | nil => rfl
  | cons b bs ih => simp only [addEach, eval, ih, Den.prepend]; rfl

/-- Appending a successful program. -/
theorem run_append (g : Growth) (h : Heap) (buf : Slice) (hv : buf.Valid h) {p q : Prog} {a b : Bytes}
    (hp : run g h buf p = .ok a) (hq : eval q false [] = .done (some b) []) : run g h buf (p.append q) = .ok (a ++ b) := by
  obtain ⟨c, rfl, hc⟩ := (run_ok_iff g h buf hv p a).1 hp
  rw [run_ok_iff g h buf hv]
  refine ⟨c ++ b, by simp, ?_⟩
  rw [eval_append, hc]
  simp only [Den.andThen, hq, Den.prepend]
  rfl

/-- Appending a failing program. -/
theorem run_append_err (g : Growth) (h : Heap) (buf : Slice) (hv : buf.Valid h) {p q : Prog} {a : Bytes}
    (hp : run g h buf p = .ok a) (hq : eval q false [] = .done none []) : ∃ m, run g h buf (p.append q) = .err m := by
  obtain ⟨c, rfl, hc⟩ := (run_ok_iff g h buf hv p a).1 hp
  rw [run_err_iff g h buf hv]
  rw [eval_append, hc]
  simp only [Den.andThen, hq, Den.prepend]
  rfl

theorem eval_lenPrefixed {k : Fin 4} {body : Prog} {c : Bytes} (hb : eval body false [] = .done (some c) []) :
    eval (.lenPrefixed k body .nil) false [] =
      if c.length < 256 ^ (k.val + 1) then .done (some (toBE (k.val + 1) c.length ++ c)) [] else .done none [] := by
  have := eval_extend body _ _ _ _ [false] hb
  simp only [List.nil_append] at this
  simp only [eval, Bool.false_eq_true, if_false, this, Den.item, lpItem]
  split
  · rename_i y hy
    split at hy
    · simp at hy
    · rename_i hn; rw [if_neg hn]; rfl
  · rename_i y bs hy
    split at hy
    · rename_i hn
      rw [if_pos hn]
      simp at hy
      simp [Den.prepend, hy]
    · simp at hy

theorem eval_asn1 {t : Tag} {body : Prog} {c : Bytes} (hb : eval body false [] = .done (some c) []) (ht : LowTag t) :
    eval (.asn1 t body .nil) false [] =
      if c.length ≤ 0xfffffffe then .done (some (elem t c)) [] else .done none [] := by
  have := eval_extend body _ _ _ _ [false] hb
  simp only [List.nil_append] at this
  simp only [eval, Bool.false_eq_true, if_false, this, Den.item, derItem, ht, if_true]
  split
  · rename_i y hy
    split at hy
    · simp at hy
    · rename_i hn; rw [if_neg hn]
  · rename_i y bs hy
    split at hy
    · rename_i hn
      rw [if_pos hn]
      simp at hy
      simp [Den.prepend, hy]
    · simp at hy

end Verif.CB
