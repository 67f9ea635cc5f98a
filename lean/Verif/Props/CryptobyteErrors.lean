import Verif.Props.CryptobyteBuilder
import Verif.CB.Time
/-!
# Property C134: which error `Bytes` returns

C29 says that an error is reported; here it is said which one.
-/
namespace Verif.Props
open Verif Verif.CB Verif.Spec.DER Verif.Spec.Builder

/-- `FirstError p m`: when the calls of `p` are made in order, the first error is `m`; everything before it can be
encoded. -/
inductive FirstError : Prog → String → Prop
  /-- `AddValue` or `MarshalASN1` fails, a time or an object identifier cannot be represented -/
  | report (keep : Bool) (m : String) (r : Prog) : FirstError (.setErr keep m r) m
  /-- the same on an ancestor -/
  | reportUp (k : Nat) (keep : Bool) (m : String) (r : Prog) : FirstError (.up k (.setErr keep m) r) m
  /-- the user's code panics with a `BuildError` -/
  | throw (m : String) : FirstError (.throw m) m
  | highTag {t : Tag} (b r : Prog) : t &&& 0x1f = 0x1f → FirstError (.asn1 t b r) (highTagError t)
  | tooLong {b c} (k : Fin 4) (r : Prog) : Encodes b c → 256 ^ (k.val + 1) ≤ c.length →
      FirstError (.lenPrefixed k b r) (pendingError c.length (k.val + 1))
  | tooLongASN1 {t b c} (r : Prog) : t &&& 0x1f ≠ 0x1f → Encodes b c → 2 ^ 32 - 1 ≤ c.length →
      FirstError (.asn1 t b r) "pending ASN.1 child too long"
  | inside {b m} (k : Fin 4) (r : Prog) : FirstError b m → FirstError (.lenPrefixed k b r) m
  | insideASN1 {t b m} (r : Prog) : t &&& 0x1f ≠ 0x1f → FirstError b m → FirstError (.asn1 t b r) m
  | afterAdd {r m} (bs : Bytes) : FirstError r m → FirstError (.add bs r) m
  | after {b c r m} (k : Fin 4) : Encodes b c → c.length < 256 ^ (k.val + 1) → FirstError r m →
      FirstError (.lenPrefixed k b r) m
  | afterASN1 {t b c r m} : t &&& 0x1f ≠ 0x1f → Encodes b c → c.length ≤ 2 ^ 32 - 2 → FirstError r m →
      FirstError (.asn1 t b r) m

/-- The program does not panic, makes no calls on ancestors and reports an error by assigning it only to a
builder that cannot carry one yet (`e`: the builder may carry an error). -/
def Calm : Bool → Prog → Prop
  | _, .nil => True
  | e, .add _ r => Calm e r
  | _, .lenPrefixed _ b r => Calm false b ∧ Calm true r
  | _, .asn1 _ b r => Calm false b ∧ Calm true r
  | e, .setErr keep _ r => (keep = true ∨ e = false) ∧ Calm true r
  | _, .throw _ => False
  | _, .panic => False
  | _, .up _ _ _ => False

/-- A builder with an error keeps it. -/
theorem exec_stuck (g : Growth) (p : Prog) : ∀ (st : St) (m : String), Calm true p → st.cur.err = some m →
    ∃ st', exec g p st = .done st' ∧ st'.cur.err = some m ∧ st'.anc = st.anc := by
  induction p with
  | nil => intro st m _ he; exact ⟨st, rfl, he, rfl⟩
  | add bs r ih =>
    intro st m hc he
    simp only [exec]
    rw [addBytes_err g bs (by simp [he])]
    exact ih st m hc he
  | lenPrefixed k b r _ ih =>
    intro st m hc he
    simp only [exec, he, Option.isSome_some, if_true]
    exact ih st m hc.2 he
  | asn1 t b r _ ih =>
    intro st m hc he
    simp only [exec, he, Option.isSome_some, if_true]
    exact ih st m hc.2 he
  | setErr keep m' r ih =>
    intro st m hc he
    have hk : keep = true := by simpa using hc.1
    simp only [exec]
    exact ih { st with cur := { st.cur with err := some (errAfter st.cur.err keep m') } } m hc.2 (by simp [errAfter, hk, he])
  | throw m => intro st m hc; exact hc.elim
  | panic => intro st m hc; exact hc.elim
  | up k a r => intro st m hc; exact hc.elim

theorem start_of_ends {st st1 : St} (hs : Start st) (he : Ends st st1) : Start st1 ∧ st1.anc.length = st.anc.length := by
  have hl : st1.anc.length = st.anc.length := by simpa using congrArg List.length he.anc
  refine ⟨⟨he.chain, ?_⟩, hl⟩
  rw [he.inC, hs.2]
  cases h1 : st.anc <;> cases h2 : st1.anc <;> simp_all

/-- A program that can be encoded ends without error, having appended its encoding. -/
theorem exec_encodes (g : Growth) {p : Prog} {x : Bytes} (h : Encodes p x) {st : St} (hs : Start st) (he : st.cur.err = none) :
    ∃ st1, exec g p st = .done st1 ∧ Ends st st1 ∧ st1.cur.err = none ∧
      st1.cur.result.get st1.heap = st.cur.result.get st.heap ++ x := by
  have := exec_eval g p st hs
  rw [he, Option.isSome_none, eval_of_encodes h] at this
  obtain ⟨st1, e1, e2, _, e3, e4⟩ := this
  exact ⟨st1, e1, e2, e3, e4⟩

theorem exec_lenPrefixed_split (g : Growth) {k : Fin 4} {b r : Prog} {st st1 : St} (he : st.cur.err = none)
    (h : exec g (.lenPrefixed k b .nil) st = .done st1) : exec g (.lenPrefixed k b r) st = exec g r st1 := by
  simp only [exec, he, Option.isSome_none, Bool.false_eq_true, if_false] at h ⊢
  cases ho : leave g (!st.inContinuation) st.anc.length (exec g b (enter g (k.val + 1) false st)) with
  | done s => rw [ho] at h; simp only [Out.andThen] at h ⊢; cases h; rfl
  | thrown m s => rw [ho] at h; simp [Out.andThen] at h
  | panicked s => rw [ho] at h; simp [Out.andThen] at h

/-- An item whose continuation ends in `st2` with the error `m`, or too long. -/
theorem leave_error (g : Growth) {outer : Bool} {d : Nat} {st2 : St} {h' : Heap} {b b' : Bd} {anc : List Bd} {m : String} (r : Prog)
    (ha : st2.anc = b :: anc) (hf : flush1 g st2.heap st2.cur b = .ok (h', b')) (hm : b'.err = some m) (hc : Calm true r) :
    ∃ st', (leave g outer d (.done st2)).andThen (exec g r) = .done st' ∧ st'.cur.err = some m ∧ st'.anc = anc := by
  simp only [leave, ha, flushN, hf, Out.andThen]
  exact exec_stuck g r _ m hc hm

/-- What follows `b` in an item when the content is too long. -/
theorem flush_tooLong (g : Growth) {st st2 : St} {n : Nat} {ia : Bool} {c : Bytes} (hs : Start st) (he : st.cur.err = none)
    (hn : ia = true → n = 1) (h2 : Ends (enter g n ia st) st2) (h3 : st2.cur.err = none)
    (h4 : st2.cur.result.get st2.heap = (enter g n ia st).cur.result.get (enter g n ia st).heap ++ c)
    (hl : itemOf ⟨none, st.cur.result, false, 0, n, ia⟩ c = none) :
    ∃ h' b b' anc, st2.anc = b :: anc ∧ anc.length = st.anc.length ∧ flush1 g st2.heap st2.cur b = .ok (h', b') ∧
      b'.err = some (longError ⟨none, st.cur.result, false, 0, n, ia⟩ c.length) := by
  obtain ⟨h0, s0, hent, hx0, hg0, hst0⟩ := enter_eq g hs he hn
  obtain ⟨_, hlen⟩ := start_of_ends hst0 h2
  rw [hent] at hlen h2 h4
  simp only at hlen h4
  rw [hg0] at h4
  cases ha : st2.anc with
  | nil => rw [ha] at hlen; simp at hlen
  | cons b anc =>
    have hch := h2.chain
    rw [ha] at hch hlen
    obtain ⟨hgc, hroom, hgb⟩ := hch
    have fr := h2.frame
    simp only [Bd.frame, Prod.mk.injEq] at fr
    obtain ⟨_, fo, fp, fa⟩ := fr
    obtain ⟨h', b', hf, _, _, _, hm⟩ := flush1_ok g hgc hgb.good hroom h3
    have hd : (st2.cur.result.get st2.heap).drop (st2.cur.offset + st2.cur.pendingLenLen) = c := by
      rw [h4, fo, fp, show st.cur.result.len + n = (st.cur.result.get st.heap ++ List.replicate n (0 : Byte)).length by
        simp [Slice.length_get hs.1.good.valid]]
      exact List.drop_left
    have hit : itemOf st2.cur c = none := by rw [← hl]; unfold itemOf; rw [fp, fa]
    have hle : longError st2.cur c.length = longError ⟨none, st.cur.result, false, 0, n, ia⟩ c.length := by
      unfold longError; rw [fp, fa]
    rw [hd, hit, hle] at hm
    exact ⟨h', b, b', anc, rfl, by simpa using hlen, hf, hm⟩

/-- The state after the tag of an ASN.1 item. -/
theorem tag_step (g : Growth) (t : Tag) {st : St} (hs : Start st) (he : st.cur.err = none) :
    ∃ st1 : St, { st with heap := (addBytes g st.heap st.cur [t]).1, cur := (addBytes g st.heap st.cur [t]).2 } = st1 ∧
      st1.cur.err = none ∧ Start st1 ∧ st1.anc = st.anc ∧ st1.inContinuation = st.inContinuation := by
  obtain ⟨st1, e1, e2, e3, _⟩ := exec_encodes g (.add [t] .nil) hs he
  simp only [exec, Out.done.injEq] at e1
  refine ⟨st1, e1, e3, (start_of_ends hs e2).1, ?_, ?_⟩ <;> rw [← e1]

theorem exec_asn1_split (g : Growth) {t : Tag} {b r : Prog} {st st1 : St} (he : st.cur.err = none) (ht : t &&& 0x1f ≠ 0x1f)
    (h1 : (addBytes g st.heap st.cur [t]).2.err = none)
    (h : exec g (.asn1 t b .nil) st = .done st1) : exec g (.asn1 t b r) st = exec g r st1 := by
  simp only [exec, he, ht, h1, Option.isSome_none, Bool.false_eq_true, if_false] at h ⊢
  generalize leave g (!st.inContinuation) st.anc.length (exec g b (enter g 1 true _)) = o at h ⊢
  cases o with
  | done s => simp only [Out.andThen] at h ⊢; cases h; rfl
  | thrown m s => simp [Out.andThen] at h
  | panicked s => simp [Out.andThen] at h

theorem exec_first (g : Growth) {p : Prog} {m : String} (h : FirstError p m) : ∀ (e : Bool) (st : St), Calm e p → Start st →
    st.cur.err = none → ∃ st', exec g p st = .done st' ∧ st'.cur.err = some m ∧ st'.anc.length = st.anc.length := by
  induction h with
  | report keep m r =>
    intro e st hc hs he
    simp only [exec]
    obtain ⟨st', a, b, c⟩ := exec_stuck g r { st with cur := { st.cur with err := some (errAfter st.cur.err keep m) } } m hc.2
      (by simp [errAfter, he])
    exact ⟨st', a, b, by rw [c]⟩
  | reportUp k keep m r => intro e st hc; exact hc.elim
  | throw m => intro e st hc; exact hc.elim
  | @highTag t b r ht =>
    intro e st hc hs he
    simp only [exec, he, Option.isSome_none, Bool.false_eq_true, if_false, ht, if_true]
    obtain ⟨st', a, b, c⟩ := exec_stuck g r { st with cur := { st.cur with err := some (highTagError t) } } _ hc.2 rfl
    exact ⟨st', a, b, by rw [c]⟩
  | @tooLong b c k r hb hl =>
    intro e st hc hs he
    simp only [exec, he, Option.isSome_none, Bool.false_eq_true, if_false]
    obtain ⟨_, _, hent, _, _, hst⟩ := enter_eq g (n := k.val + 1) (ia := false) hs he (by simp)
    obtain ⟨st2, e1, e2, e3, e4⟩ := exec_encodes g hb hst (by rw [hent])
    obtain ⟨h', b1, b', anc, ha, hla, hf, hm⟩ := flush_tooLong g hs he (by simp) e2 e3 e4
      (by simp [itemOf, lpItem]; omega)
    rw [e1]
    obtain ⟨st', x, y, z⟩ := leave_error g (outer := !st.inContinuation) (d := st.anc.length) r ha hf hm hc.2
    exact ⟨st', x, y, by rw [z, hla]⟩
  | @tooLongASN1 t b c r ht hb hl =>
    intro e st hc hs he
    obtain ⟨st1, q1, q2, q3, q4, q5⟩ := tag_step g t hs he
    have q6 : (addBytes g st.heap st.cur [t]).2.err = none := by rw [← q1] at q2; exact q2
    simp only [exec, he, ht, q6, Option.isSome_none, Bool.false_eq_true, if_false]
    rw [q1]
    obtain ⟨_, _, hent, _, _, hst⟩ := enter_eq g (n := 1) (ia := true) q3 q2 (by simp)
    obtain ⟨st2, e1, e2, e3, e4⟩ := exec_encodes g hb hst (by rw [hent])
    obtain ⟨h', b1, b', anc, ha, hla, hf, hm⟩ := flush_tooLong g q3 q2 (by simp) e2 e3 e4
      (by simp [itemOf]; omega)
    rw [e1]
    obtain ⟨st', x, y, z⟩ := leave_error g (outer := !st.inContinuation) (d := st.anc.length) r ha hf hm hc.2
    exact ⟨st', x, y, by rw [z, hla, q4]⟩
  | @inside b m k r hb ih =>
    intro e st hc hs he
    simp only [exec, he, Option.isSome_none, Bool.false_eq_true, if_false]
    obtain ⟨_, _, hent, _, _, hst⟩ := enter_eq g (n := k.val + 1) (ia := false) hs he (by simp)
    obtain ⟨st2, e1, e2, e3⟩ := ih false (enter g (k.val + 1) false st) hc.1 hst (by rw [hent])
    rw [e1]
    rw [hent] at e3
    cases ha : st2.anc with
    | nil => rw [ha] at e3; simp at e3
    | cons b1 anc =>
      rw [ha] at e3
      obtain ⟨st', x, y, z⟩ := leave_error g (outer := !st.inContinuation) (d := st.anc.length) (b' := { b1 with err := some m }) r ha
        (by unfold flush1; rw [e2]) rfl hc.2
      exact ⟨st', x, y, by rw [z]; simpa using e3⟩
  | @insideASN1 t b m r ht hb ih =>
    intro e st hc hs he
    obtain ⟨st1, q1, q2, q3, q4, q5⟩ := tag_step g t hs he
    have q6 : (addBytes g st.heap st.cur [t]).2.err = none := by rw [← q1] at q2; exact q2
    simp only [exec, he, ht, q6, Option.isSome_none, Bool.false_eq_true, if_false]
    rw [q1]
    obtain ⟨_, _, hent, _, _, hst⟩ := enter_eq g (n := 1) (ia := true) q3 q2 (by simp)
    obtain ⟨st2, e1, e2, e3⟩ := ih false (enter g 1 true st1) hc.1 hst (by rw [hent])
    rw [e1]
    rw [hent] at e3
    cases ha : st2.anc with
    | nil => rw [ha] at e3; simp at e3
    | cons b1 anc =>
      rw [ha] at e3
      obtain ⟨st', x, y, z⟩ := leave_error g (outer := !st.inContinuation) (d := st.anc.length) (b' := { b1 with err := some m }) r ha
        (by unfold flush1; rw [e2]) rfl hc.2
      exact ⟨st', x, y, by rw [z, ← q4]; simpa using e3⟩
  | @afterAdd r m bs hr ih =>
    intro e st hc hs he
    obtain ⟨st1, e1, e2, e3, _⟩ := exec_encodes g (.add bs .nil) hs he
    obtain ⟨s1, l1⟩ := start_of_ends hs e2
    obtain ⟨st', x, y, z⟩ := ih e st1 hc s1 e3
    simp only [exec, Out.done.injEq] at e1
    exact ⟨st', by simp only [exec]; rw [e1]; exact x, y, by rw [z, l1]⟩
  | @after b c r m k hb hl hr ih =>
    intro e st hc hs he
    obtain ⟨st1, e1, e2, e3, _⟩ := exec_encodes g (.lenPrefixed k hb hl .nil) hs he
    obtain ⟨s1, l1⟩ := start_of_ends hs e2
    obtain ⟨st', x, y, z⟩ := ih true st1 hc.2 s1 e3
    exact ⟨st', by rw [exec_lenPrefixed_split g he e1]; exact x, y, by rw [z, l1]⟩
  | @afterASN1 t b c r m ht hb hl hr ih =>
    intro e st hc hs he
    obtain ⟨st0, q1, q2, _⟩ := tag_step g t hs he
    obtain ⟨st1, e1, e2, e3, _⟩ := exec_encodes g
      (.asn1 ht hb hl ((isLength_iff (byteLen_lt_127 (by omega))).2 rfl) .nil) hs he
    obtain ⟨s1, l1⟩ := start_of_ends hs e2
    obtain ⟨st', x, y, z⟩ := ih true st1 hc.2 s1 e3
    refine ⟨st', ?_, y, by rw [z, l1]⟩
    rw [exec_asn1_split g he ht (by rw [← q1] at q2; exact q2) e1]
    exact x

/-- Every program of this kind can be encoded or has a first error. -/
theorem encodes_or_fails (p : Prog) : ∀ e, Calm e p → (∃ x, Encodes p x) ∨ ∃ m, FirstError p m := by
  induction p with
  | nil => intro e _; exact .inl ⟨_, .nil⟩
  | add bs r ih =>
    intro e hc
    rcases ih e hc with ⟨x, hx⟩ | ⟨m, hm⟩
    · exact .inl ⟨_, .add bs hx⟩
    · exact .inr ⟨m, .afterAdd bs hm⟩
  | lenPrefixed k b r ihb ihr =>
    intro e hc
    rcases ihb _ hc.1 with ⟨c, hb⟩ | ⟨m, hm⟩
    · by_cases hl : c.length < 256 ^ (k.val + 1)
      · rcases ihr _ hc.2 with ⟨x, hx⟩ | ⟨m, hm⟩
        · exact .inl ⟨_, .lenPrefixed k hb hl hx⟩
        · exact .inr ⟨m, .after k hb hl hm⟩
      · exact .inr ⟨_, .tooLong k r hb (by omega)⟩
    · exact .inr ⟨m, .inside k r hm⟩
  | asn1 t b r ihb ihr =>
    intro e hc
    by_cases ht : t &&& 0x1f = 0x1f
    · exact .inr ⟨_, .highTag b r ht⟩
    rcases ihb _ hc.1 with ⟨c, hb⟩ | ⟨m, hm⟩
    · by_cases hl : c.length ≤ 2 ^ 32 - 2
      · rcases ihr _ hc.2 with ⟨x, hx⟩ | ⟨m, hm⟩
        · exact .inl ⟨_, .asn1 ht hb hl ((isLength_iff (byteLen_lt_127 (by omega))).2 rfl) hx⟩
        · exact .inr ⟨m, .afterASN1 ht hb hl hm⟩
      · exact .inr ⟨_, .tooLongASN1 r ht hb (by omega)⟩
    · exact .inr ⟨m, .insideASN1 r ht hm⟩
  | setErr keep m r _ => intro e _; exact .inr ⟨m, .report keep m r⟩
  | throw m => intro e hc; exact hc.elim
  | panic => intro e hc; exact hc.elim
  | up k a r => intro e hc; exact hc.elim

/-- C134: `Bytes` returns the first error, for programs that do not panic, do not call ancestors and assign errors
only to builders that have none. Missing: the other programs, see `C134_first_error_violated`. -/
theorem C134_first_error_partial (g : Growth) (h : Heap) (buf : Slice) (hv : buf.Valid h) (p : Prog) (hc : Calm false p)
    (m : String) : run g h buf p = .err m ↔ FirstError p m := by
  have hs : Start (newBuilder false h buf) := ⟨⟨rfl, hv, by simp [newBuilder], by simp [newBuilder]⟩, rfl⟩
  have key : ∀ m', FirstError p m' → run g h buf p = .err m' := by
    intro m' hm
    obtain ⟨st', e1, e2, _⟩ := exec_first g hm false _ hc hs rfl
    unfold run
    rw [e1]
    simp only [bytesOf, e2]
  refine ⟨fun hr => ?_, key m⟩
  rcases encodes_or_fails p false hc with ⟨x, hx⟩ | ⟨m', hm'⟩
  · rw [(C28_builder_iff g h buf hv p _).2 ⟨x, hx, rfl⟩] at hr
    cases hr
  · rw [key m' hm'] at hr
    cases hr
    exact hm'

/-- C134: the methods that can fail in a program of this kind. -/
theorem C134_calm_methods (e : Bool) (oid : List (BitVec 64)) (r : Except String Bytes) (t : Tag) (bs : Bytes) (rest : Prog)
    (hr : Calm true rest) (hr' : Calm e rest) :
    Calm e (addASN1ObjectIdentifier oid rest) ∧ Calm e (marshalASN1 r rest) ∧ Calm e (.asn1 t (.add bs .nil) rest) := by
  have each : ∀ l : Bytes, Calm false (addEach l) := by
    intro l
    induction l with
    | nil => trivial
    | cons b l ih => exact ih
  refine ⟨⟨?_, hr⟩, ?_, trivial, hr⟩
  · unfold oidBody
    split
    · exact ⟨.inr rfl, trivial⟩
    · split
      · exact each _
      · rename_i h1 _ h2
        exfalso
        simp only [Bool.not_eq_eq_eq_not, Bool.not_true, Bool.not_eq_false] at h1
        unfold isValidOID at h1
        split at h1
        · rename_i o0 o1 tl
          exact h2 o0 o1 tl rfl
        · simp at h1
  · unfold marshalASN1
    cases r with
    | ok bs => exact hr'
    | error m => exact ⟨.inl rfl, hr⟩

/-- C134, violated: `AddValue` (and `AddASN1GeneralizedTime`) replace an earlier error by their own. -/
theorem C134_addValue_violated (g : Growth) (h : Heap) (buf : Slice) :
    FirstError (.asn1 0x1f .nil (addValue .nil (some "second"))) (highTagError 0x1f) ∧
    run g h buf (.asn1 0x1f .nil (addValue .nil (some "second"))) = .err "second" :=
  ⟨.highTag _ _ (by decide), rfl⟩

/-- C134, violated: so does a continuation that reports an error after having reported one on its parent. -/
theorem C134_ancestor_violated (g : Growth) (h : Heap) (buf : Slice) :
    FirstError (.lenPrefixed 0 (.up 0 (.setErr false "first") (.setErr false "second" .nil)) .nil) "first" ∧
    run g h buf (.lenPrefixed 0 (.up 0 (.setErr false "first") (.setErr false "second" .nil)) .nil) = .err "second" :=
  ⟨.inside _ _ (.reportUp _ _ _ _), rfl⟩

/-- C134, violated: the error of a `BuildError` panic is lost when what was written before it is too long for its
length prefix. -/
theorem C134_buildError_violated :
    FirstError (.lenPrefixed 0 (.add (List.replicate 256 0) (.throw "first")) .nil) "first" ∧
    run (fun _ _ _ => 0) [[]] ⟨0, 0, 0, 0⟩ (.lenPrefixed 0 (.add (List.replicate 256 0) (.throw "first")) .nil) =
      .err "cryptobyte: pending child length 256 exceeds 1-byte length prefix" :=
  ⟨.inside _ _ (.afterAdd _ (.throw _)), by decide +kernel⟩

/-! Two errors in one program: the first one, in a continuation, is reported with its text. -/
def exTwoErrors : Prog :=
  .lenPrefixed 1 (.add [1] (addASN1ObjectIdentifier [1, 40, -3] (marshalASN1 (.error "inner") .nil)))
    (marshalASN1 (.error "outer") (.asn1 0xbf .nil .nil))
example : Calm false exTwoErrors := by
  refine ⟨(C134_calm_methods false [1, 40, -3] (.error "inner") 0 [] _ ?_ ?_).1, ?_⟩
  · exact ⟨.inl rfl, trivial⟩
  · exact ⟨.inl rfl, trivial⟩
  · exact ⟨.inl rfl, trivial, trivial⟩
example : run (fun _ _ n => n) [[0, 5, 6, 0]] ⟨0, 1, 2, 3⟩ exTwoErrors = .err "cryptobyte: invalid OID: 1.40.-3" := by decide +kernel
example : highTagError 0xbf = "cryptobyte: high-tag number identifier octects not supported: 0xbf" := by decide +kernel
example : highTagError 0x1f = "cryptobyte: high-tag number identifier octects not supported: 0x1f" := by decide +kernel

end Verif.Props
