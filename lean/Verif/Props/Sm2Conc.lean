import Verif.Sm2.ConcLemmas
import Verif.Props.Sm2Memory
/-!
# C122: SM2 in several goroutines

Goroutines that call functions of sm2.go and keyexchange.go, with the same keys and the same curve, with their accesses to numbers in
memory interleaved in any order (`Verif.EC.Conc`). A call that needs random numbers has its own answers of the random source.
-/
namespace Verif.Props
open Verif EC.Store Sm2.Store

/-- A call, with the keys as pointers that existed before the goroutines. -/
inductive Sm2Call
  | sign (priv : PrivKey) (userId : Option Bytes) (msg : Bytes) (tape : Sm2.Tape)
  | signToRS (priv : PrivKey) (userId : Option Bytes) (msg : Bytes) (tape : Sm2.Tape)
  | verify (pub : PubKey) (userId : Option Bytes) (msg sig : Bytes)
  | verifyByRS (pub : PubKey) (userId : Option Bytes) (msg : Bytes) (r s : Ptr)
  | encrypt (pub : PubKey) (msg : Bytes) (layout : Int) (tape : Sm2.Tape)
  | decrypt (priv : PrivKey) (cipher : Bytes) (layout : Int)
  | exchange (initiator : Bool) (keyBits : Int) (tag : Option Bytes) (self ephemeral : PrivKey) (selfId : Option Bytes)
      (other otherEphemeral : PubKey) (otherId : Option Bytes)
  | generateKey (tape : Sm2.Tape)
  | publicKey (priv : PrivKey)

/-- What a caller has seen of the results. -/
inductive Sm2Answer
  | error
  | bytes (b : Bytes)
  | bool (b : Bool)
  | numbers (l : List Int)
  | exchanged (r : Sm2.ExchangeResult)
  deriving DecidableEq

/-- The keys and numbers of the call are in memory, and the keys have the curve of the package. -/
def Sm2Call.Valid (g : Globals) (m : Mem) : Sm2Call → Prop
  | .sign k _ _ _ => PrivIn g m k
  | .signToRS k _ _ _ => PrivIn g m k
  | .verify k _ _ _ => PubIn g m k
  | .verifyByRS k _ _ r s => PubIn g m k ∧ r < m.length ∧ s < m.length
  | .encrypt k _ _ _ => PubIn g m k
  | .decrypt k _ _ => PrivIn g m k
  | .exchange _ _ _ a b _ c d _ => PrivIn g m a ∧ PrivIn g m b ∧ PubIn g m c ∧ PubIn g m d
  | .generateKey _ => True
  | .publicKey k => PrivIn g m k

/-- A call whose error, if there is one, is looked at, and whose result is then read. -/
def ask {α : Type} (x : M α) (post : α → M Sm2Answer) : M Sm2Answer := do
  match ← attempt x with
  | none => pure .error
  | some a => post a

/-- The caller reads the numbers of a result. -/
def readAll : List Ptr → M (List Int)
  | [] => pure []
  | p :: ps => do
    let v ← get p
    let vs ← readAll ps
    pure (v :: vs)

def Sm2Call.prog (g : Globals) : Sm2Call → M Sm2Answer
  | .sign k u msg t => ask (Sm2.Store.sign k u msg t) fun b => pure (.bytes b)
  | .signToRS k u msg t => ask (Sm2.Store.signToRS k u msg t) fun p => do pure (.numbers (← readAll [p.1, p.2]))
  | .verify k u msg sig => ask (Sm2.Store.verify k u msg sig) fun b => pure (.bool b)
  | .verifyByRS k u msg r s => ask (Sm2.Store.verifyByRS k u msg r s) fun b => pure (.bool b)
  | .encrypt k msg l t => ask (Sm2.Store.encrypt k msg l t) fun b => pure (.bytes b)
  | .decrypt k c l => ask (Sm2.Store.decrypt g k c l) fun b => pure (.bytes b)
  | .exchange i kb tag a b sid c d oid => ask (Sm2.Store.calculateKeyWithConfirmation g i kb tag a b sid c d oid) fun r => pure (.exchanged r)
  | .generateKey t => ask (Sm2.Store.generateKey g t) fun k => do pure (.numbers (← readAll [k.1.D, k.2.X, k.2.Y]))
  | .publicKey k => ask (Sm2.Store.calculatePubKey k) fun p => do pure (.numbers (← readAll [p.X, p.Y]))

/-- One call after the other. -/
def goroutine (g : Globals) : List Sm2Call → M (List Sm2Answer)
  | [] => pure []
  | c :: cs => do
    let a ← c.prog g
    let l ← goroutine g cs
    pure (a :: l)

/-- The answer to a result of the model. -/
def answer {α : Type} (f : α → Sm2Answer) : Res α → Res Sm2Answer
  | .ok a => .ok (f a)
  | .err _ => .ok .error
  | .panic => .panic
  | .loop => .loop

/-- What the model of sm2.go answers, with the numbers that the keys had before the goroutines started. -/
def Sm2Call.want (m : Mem) : Sm2Call → Res Sm2Answer
  | .sign k u msg t => answer .bytes (Sm2.sign (privAt m k) u msg t)
  | .signToRS k u msg t => answer (fun v => .numbers [v.1, v.2]) (Sm2.signToRS (privAt m k) u msg t)
  | .verify k u msg sig => answer .bool (Sm2.verify (pubAt m k) u msg sig)
  | .verifyByRS k u msg r s => answer .bool (Sm2.verifyByRS (pubAt m k) u msg (rd m r) (rd m s))
  | .encrypt k msg l t => answer .bytes (Sm2.encrypt (pubAt m k) msg l t)
  | .decrypt k c l => answer .bytes (Sm2.decrypt (privAt m k) c l)
  | .exchange i kb tag a b sid c d oid => answer .exchanged
      (Sm2.calculateKeyWithConfirmation i kb tag (privAt m a) (privAt m b) sid (pubAt m c) (pubAt m d) oid)
  | .generateKey t => answer (fun v => .numbers [v.1.D, v.2.X, v.2.Y]) (Sm2.generateKey t)
  | .publicKey k => answer (fun v => .numbers [v.X, v.Y]) (Sm2.calculatePubKey (privAt m k))

/-- The answers to the calls of a goroutine, one after the other; a panic ends the goroutine. -/
def wantAll (m : Mem) : List Sm2Call → Res (List Sm2Answer)
  | [] => .ok []
  | c :: cs => do
    let a ← c.want m
    let l ← wantAll m cs
    .ok (a :: l)

/-- How an ended program has ended. -/
def outcome {α : Type} : M α → Option (Res α)
  | .pure a => some (.ok a)
  | .fail (.err e) => some (.err e)
  | .fail .panic => some .panic
  | .fail .loop => some .loop
  | _ => none

/-! ## Alone -/

theorem ask_ends {α β : Type} {Q : Mem → α → β → Prop} {m : Mem} {x : M α} {w : Res β} {post : α → M Sm2Answer} {f : β → Sm2Answer}
    (hx : Ends Q m (x m) w) (hp : ∀ L a b, Q (m ++ L) a b → Ends Same (m ++ L) (post a (m ++ L)) (.ok (f b))) :
    Ends Same m (ask x post m) (answer f w) := by
  unfold ask
  rw [bind_run, attempt_run]
  cases w with
  | ok b =>
    obtain ⟨a, L, h0, h1⟩ := hx
    rw [h0]
    exact (hp L a b h1).shorten
  | err e =>
    obtain ⟨L, h0⟩ := hx
    rw [h0]
    exact ⟨_, L, rfl, rfl⟩
  | panic => obtain ⟨L, h0⟩ := hx; rw [h0]; exact ⟨L, rfl⟩
  | loop => obtain ⟨L, h0⟩ := hx; rw [h0]; exact ⟨L, rfl⟩

theorem ask_same {β : Type} {m : Mem} {x : M β} {w : Res β} {f : β → Sm2Answer} (hx : Ends Same m (x m) w) :
    Ends Same m (ask x (fun b => pure (f b)) m) (answer f w) :=
  ask_ends hx fun _ a b h => Ends.done (show f a = f b by rw [show a = b from h])

theorem readAll_run : ∀ (ps : List Ptr) (m : Mem), readAll ps m = .ok (ps.map (rd m), m)
  | [], _ => rfl
  | p :: ps, m => by
    rw [readAll, bind_run, get_run, ok_bind', bind_run, readAll_run ps m]
    rfl

theorem numbers_ends (ps : List Ptr) (m : Mem) (vs : List Int) (h : ps.map (rd m) = vs) :
    Ends Same m ((do pure (.numbers (← readAll ps)) : M Sm2Answer) m) (.ok (.numbers vs)) := by
  rw [bind_run, readAll_run, h]
  exact ⟨_, [], by rw [List.append_nil]; rfl, rfl⟩

theorem PackageReady.append {g : Globals} {m : Mem} (h : PackageReady g m) (L : List Int) : PackageReady g (m ++ L) := h.kept (kept_append m L)

theorem priv_append {g : Globals} {m : Mem} {k : PrivKey} (h : PrivIn g m k) (L : List Int) : At (m ++ L) k.D (privAt m k).D :=
  ⟨lt_append h.1 L, rd_old h.1 L⟩
theorem pubX_append {g : Globals} {m : Mem} {k : PubKey} (h : PubIn g m k) (L : List Int) : At (m ++ L) k.X (pubAt m k).X :=
  ⟨lt_append h.1 L, rd_old h.1 L⟩
theorem pubY_append {g : Globals} {m : Mem} {k : PubKey} (h : PubIn g m k) (L : List Int) : At (m ++ L) k.Y (pubAt m k).Y :=
  ⟨lt_append h.2.1 L, rd_old h.2.1 L⟩

theorem call_ends (g : Globals) (m : Mem) (hg : PackageReady g m) (c : Sm2Call) (hc : c.Valid g m) (L : List Int) :
    Ends Same (m ++ L) (c.prog g (m ++ L)) (c.want m) := by
  have hw := (hg.append L).world
  cases c with
  | sign k u msg t => exact ask_same (sign_ends hw hc.2 (priv_append hc L) u msg t)
  | signToRS k u msg t =>
    refine ask_ends (signToRS_ends hw (Nat.le_refl _) hc.2 (priv_append hc L) u msg t) ?_
    intro L' a b h
    refine numbers_ends _ _ _ ?_
    rw [List.map_cons, List.map_cons, List.map_nil, h.1.2.2, h.2.2.2]
  | verify k u msg sig => exact ask_same (verify_ends hw hc.2.2 (pubX_append hc L) (pubY_append hc L) u msg sig)
  | verifyByRS k u msg r s =>
    obtain ⟨hc, hr, hs⟩ := hc
    exact ask_same (verifyByRS_ends hw hc.2.2 (pubX_append hc L) (pubY_append hc L) ⟨lt_append hr L, rd_old hr L⟩ ⟨lt_append hs L, rd_old hs L⟩ u msg)
  | encrypt k msg l t => exact ask_same (encrypt_ends hw hc.2.2 (pubX_append hc L) (pubY_append hc L) msg l t)
  | decrypt k c l => exact ask_same (decrypt_ends hw hc.2 (priv_append hc L) c l)
  | exchange i kb tag a b sid c d oid =>
    obtain ⟨h1, h2, h3, h4⟩ := hc
    exact ask_same (calculateKeyWithConfirmation_ends hw i kb tag h1.2 h2.2 (priv_append h1 L) (priv_append h2 L) sid oid (pubX_append h3 L)
      (pubY_append h3 L) (pubX_append h4 L) (pubY_append h4 L))
  | generateKey t =>
    refine ask_ends (generateKey_ends hw (Nat.le_refl _) t) ?_
    intro L' a b h
    refine numbers_ends _ _ _ ?_
    rw [List.map_cons, List.map_cons, List.map_cons, List.map_nil, h.1.1.2.2, h.2.1.2.2, h.2.2.1.2.2]
  | publicKey k =>
    refine ask_ends (calculatePubKey_ends hw (Nat.le_refl _) hc.2 (priv_append hc L)) ?_
    intro L' a b h
    refine numbers_ends _ _ _ ?_
    rw [List.map_cons, List.map_cons, List.map_nil, h.1.2.2, h.2.1.2.2]

theorem goroutine_ends (g : Globals) (m : Mem) (hg : PackageReady g m) : ∀ (cs : List Sm2Call), (∀ c ∈ cs, c.Valid g m) → ∀ L : List Int,
    Ends Same (m ++ L) (goroutine g cs (m ++ L)) (wantAll m cs)
  | [], _, _ => Ends.done rfl
  | c :: cs, h, L => by
    unfold goroutine wantAll
    refine Ends.bind (call_ends g m hg c (h c List.mem_cons_self) L) ?_
    intro a b L1 hab
    refine Ends.bind (Q := Same) ?_ ?_
    · rw [List.append_assoc]
      exact goroutine_ends g m hg cs (fun c hc => h c (List.mem_cons_of_mem _ hc)) (L ++ L1)
    · intro as bs L2 habs
      exact Ends.done (show a :: as = b :: bs by rw [show a = b from hab, show as = bs from habs])

theorem ask_writes {n : Nat} {α : Type} {Q : α → Prop} {x : M α} {post : α → M Sm2Answer} (hx : Writes n x Q)
    (hp : ∀ a, Writes n (post a) (fun _ => True)) : Writes n (ask x post) (fun _ => True) := by
  unfold ask
  refine Writes.bind (w_attempt hx) ?_
  intro o _
  cases o with
  | none => trivial
  | some a => exact hp a

theorem readAll_writes {n : Nat} : ∀ ps : List Ptr, Writes n (readAll ps) (fun _ => True)
  | [] => trivial
  | _ :: ps => Writes.bind (w_get _) fun _ _ => Writes.bind (readAll_writes ps) fun _ _ => trivial

theorem call_writes (g : Globals) (n : Nat) (c : Sm2Call) : Writes n (c.prog g) (fun _ => True) := by
  have hnum : ∀ ps : List Ptr, Writes n (do pure (.numbers (← readAll ps)) : M Sm2Answer) (fun _ => True) :=
    fun ps => Writes.bind (readAll_writes ps) fun _ _ => trivial
  cases c with
  | sign k u msg t => exact ask_writes (w_sign k u msg t) fun _ => trivial
  | signToRS k u msg t => exact ask_writes (w_signToRS k u msg t) fun _ => hnum _
  | verify k u msg sig => exact ask_writes (w_verify k u msg sig) fun _ => trivial
  | verifyByRS k u msg r s => exact ask_writes (w_verifyByRS k u msg r s) fun _ => trivial
  | encrypt k msg l t => exact ask_writes (w_encrypt k msg l t) fun _ => trivial
  | decrypt k c l => exact ask_writes (w_decrypt g k c l) fun _ => trivial
  | exchange i kb tag a b sid c d oid => exact ask_writes (w_exchange g i kb tag a b sid c d oid) fun _ => trivial
  | generateKey t => exact ask_writes (w_generateKey g t) fun _ => hnum _
  | publicKey k => exact ask_writes (w_calculatePubKey k) fun _ => hnum _

theorem goroutine_writes (g : Globals) (n : Nat) : ∀ cs : List Sm2Call, Writes n (goroutine g cs) (fun _ => True)
  | [] => trivial
  | c :: cs => Writes.bind (call_writes g n c) fun _ _ => Writes.bind (goroutine_writes g n cs) fun _ _ => trivial

theorem outcome_of_run {α : Type} {x : M α} {m m0 : Mem} {w : Res α} (hend : x.ended = true) (h : Ends Same m0 (x.run m) w) : outcome x = some w := by
  cases x with
  | pure a =>
    cases w with
    | ok b =>
      obtain ⟨a', L, h0, h1⟩ := h
      simp only [M.run, Out.ok.injEq, Prod.mk.injEq] at h0
      rw [outcome, h0.1, show a' = b from h1]
    | err e => obtain ⟨L, h0⟩ := h; cases h0
    | panic => obtain ⟨L, h0⟩ := h; cases h0
    | loop => obtain ⟨L, h0⟩ := h; cases h0
  | fail f =>
    cases f <;> cases w
    all_goals first
      | (obtain ⟨_, _, h0, _⟩ := h; cases h0)
      | (obtain ⟨_, h0⟩ := h; cases h0)
    all_goals rfl
  | read p k => cases hend
  | write z v k => cases hend
  | alloc k => cases hend

/-! ## Together -/

theorem conc_inv {g : Globals} {m : Mem} {css : List (List Sm2Call)} {k : Nat} {m' : Mem} {ts : List (Thread (List Sm2Answer))}
    (h : Steps k (m, start (css.map (goroutine g))) (m', ts)) : Inv m (css.map (goroutine g)) k (m', ts) := by
  refine Inv.steps ?_ h rfl
  intro p hp
  obtain ⟨cs, _, rfl⟩ := List.mem_map.1 hp
  exact goroutine_writes g _ cs

/-- However the accesses of the goroutines are interleaved, the numbers that existed before (the keys, the curve) keep their values all
the time, and a goroutine that has ended has the answers that the model gives to its calls when nobody else works. -/
theorem C122_results (g : Globals) (m : Mem) (hg : PackageReady g m) (css : List (List Sm2Call)) (hv : ∀ cs ∈ css, ∀ c ∈ cs, c.Valid g m)
    (k : Nat) (m' : Mem) (ts : List (Thread (List Sm2Answer))) (h : Steps k (m, start (css.map (goroutine g))) (m', ts)) :
    m' = m ∧ ts.length = css.length ∧
    ∀ (i : Nat) (cs : List Sm2Call) (t : Thread (List Sm2Answer)), css[i]? = some cs → ts[i]? = some t → t.prog.ended = true →
      outcome t.prog = some (wantAll m cs) := by
  obtain ⟨h1, h2, h3, _⟩ := conc_inv h
  refine ⟨h1, by rw [h2, List.length_map], ?_⟩
  intro i cs t hi ht hend
  obtain ⟨hr, _⟩ := h3 i (goroutine g cs) t (by rw [List.getElem?_map, hi]; rfl) ht
  have he := goroutine_ends g m hg cs (hv cs (List.mem_of_getElem? hi)) []
  rw [List.append_nil] at he
  have he' : Ends Same m (t.prog.run (m ++ t.own)) (wantAll m cs) := by rw [hr]; exact he
  exact outcome_of_run hend he'

/-- No data race: in no state that can be reached is the next access of any goroutine a write to a number that existed before. The
numbers that a goroutine has allocated are known to nobody else. -/
theorem C122_no_race (g : Globals) (m : Mem) (css : List (List Sm2Call)) (k : Nat) (m' : Mem) (ts : List (Thread (List Sm2Answer)))
    (h : Steps k (m, start (css.map (goroutine g))) (m', ts)) (t : Thread (List Sm2Answer)) (ht : t ∈ ts) (p : Ptr) (w : Bool)
    (hp : p < m.length) (hn : t.prog.next = some (p, w)) : w = false := by
  obtain ⟨h1, h2, h3, _⟩ := conc_inv h
  obtain ⟨i, hi⟩ := List.getElem?_of_mem ht
  have hlt : i < (css.map (goroutine g)).length := by rw [← h2]; exact (List.getElem?_eq_some_iff.1 hi).1
  obtain ⟨_, hw⟩ := h3 i _ t (List.getElem?_eq_getElem hlt) hi
  generalize t.prog = x at hn hw
  cases x with
  | pure a => cases hn
  | fail e => cases hn
  | read q k => simp only [M.next, Option.some.injEq, Prod.mk.injEq] at hn; exact hn.2.symm
  | write z v k =>
    simp only [M.next, Option.some.injEq, Prod.mk.injEq] at hn
    obtain ⟨rfl, _⟩ := hn
    exact absurd hw.1 (Nat.not_le.2 hp)
  | alloc k => cases hn

/-- Nothing blocks: as long as a goroutine has not ended, it can go on; and together they make exactly as many accesses as each of them
makes when it works alone. -/
theorem C122_ends (g : Globals) (m : Mem) (css : List (List Sm2Call)) (k : Nat) (m' : Mem) (ts : List (Thread (List Sm2Answer)))
    (h : Steps k (m, start (css.map (goroutine g))) (m', ts)) :
    k ≤ (css.map fun cs => (goroutine g cs).work m).sum ∧
    (∀ t ∈ ts, t.prog.ended = false → ∃ s, Step (m', ts) s) ∧
    ((∀ t ∈ ts, t.prog.ended = true) → k = (css.map fun cs => (goroutine g cs).work m).sum) := by
  obtain ⟨h1, h2, h3, h4⟩ := conc_inv h
  rw [List.map_map] at h4
  refine ⟨?_, ?_, ?_⟩
  · have : (css.map fun cs => (goroutine g cs).work m).sum = _ := h4.symm
    omega
  · intro t ht he
    obtain ⟨i, hi⟩ := List.getElem?_of_mem ht
    obtain ⟨⟨t', s'⟩, hr⟩ := t.can m' he
    exact ⟨_, Step.access m' s' ts i t t' hi hr⟩
  · intro hall
    have hz : (ts.map fun t => t.prog.work (m ++ t.own)).sum = 0 := by
      clear h h1 h2 h3 h4
      induction ts with
      | nil => rfl
      | cons t ts ih =>
        rw [List.map_cons, List.sum_cons, work_ended (hall t List.mem_cons_self), ih fun t ht => hall t (List.mem_cons_of_mem _ ht)]
    have : (css.map fun cs => (goroutine g cs).work m).sum = _ := h4.symm
    dsimp only at this
    omega

/-- Every way of working can be continued until all have ended. -/
theorem C122_complete (g : Globals) (m : Mem) (css : List (List Sm2Call)) (k : Nat) (m' : Mem) (ts : List (Thread (List Sm2Answer)))
    (h : Steps k (m, start (css.map (goroutine g))) (m', ts)) :
    ∃ k' m2 ts', k ≤ k' ∧ Steps k' (m, start (css.map (goroutine g))) (m2, ts') ∧ ∀ t ∈ ts', t.prog.ended = true := by
  generalize hb : (css.map fun cs => (goroutine g cs).work m).sum - k = b
  induction b generalizing k m' ts with
  | zero =>
    refine ⟨k, m', ts, Nat.le_refl _, h, ?_⟩
    intro t ht
    by_contra hne
    obtain ⟨s, hs⟩ := (C122_ends g m css k m' ts h).2.1 t ht (by simpa using hne)
    have := (C122_ends g m css (k + 1) s.1 s.2 (.snoc k _ _ _ h hs)).1
    omega
  | succ b ih =>
    by_cases hall : ∀ t ∈ ts, t.prog.ended = true
    · exact ⟨k, m', ts, Nat.le_refl _, h, hall⟩
    · push Not at hall
      obtain ⟨t, ht, hne⟩ := hall
      obtain ⟨s, hs⟩ := (C122_ends g m css k m' ts h).2.1 t ht (by simpa using hne)
      obtain ⟨k', m2, ts', h1, h2, h3⟩ := ih (k + 1) s.1 s.2 (.snoc k _ _ _ h hs) (by omega)
      exact ⟨k', m2, ts', by omega, h2, h3⟩

/-- The promise is about the functions of the package: a caller's own goroutine that sets the order of the curve it was given to 0 (C115)
while another goroutine verifies decides by its timing what the verification answers. -/
theorem C122_caller_writes (g : Globals) (m : Mem) (hg : PackageReady g m) (pub : PubKey) (hp : PubIn g m pub) (userId : Option Bytes) (msg : Bytes)
    (r s : Ptr) (hr : r < m.length) (hs : s < m.length) (ht : Sm2.verifyByRS (pubAt m pub) userId msg (rd m r) (rd m s) = .ok true) :
    (∃ k m' ts, Steps k (m, start [clearOrder g >>= fun _ => pure [], goroutine g [.verifyByRS pub userId msg r s]]) (m', ts) ∧
      ts.map (fun t => outcome t.prog) = [some (.ok []), some (.ok [.bool true])]) ∧
    (∃ k m' ts, Steps k (m, start [clearOrder g >>= fun _ => pure [], goroutine g [.verifyByRS pub userId msg r s]]) (m', ts) ∧
      ts.map (fun t => outcome t.prog) = [some (.ok []), some (.ok [.bool false])]) := by
  have hN : g.curve.N < m.length := hg.2.2.2.1.1
  have clear : ∀ t2 : Thread (List Sm2Answer), Step (m, [⟨clearOrder g >>= fun _ => pure [], []⟩, t2]) (m.set g.curve.N 0, [⟨.pure [], []⟩, t2]) := by
    intro t2
    refine Step.access m _ [_, t2] 0 _ ⟨.pure [], []⟩ rfl ?_
    show (if g.curve.N < m.length then _ else _) = _
    rw [if_pos hN]
    rfl
  constructor
  · obtain ⟨n, t', h1, h2, h3⟩ := alone m [⟨clearOrder g >>= fun _ => pure [], []⟩, ⟨goroutine g [.verifyByRS pub userId msg r s], []⟩] 1 _ [] rfl
      (goroutine_writes g _ _)
    refine ⟨_, _, _, .snoc _ _ _ _ h1 (clear t'), ?_⟩
    have he := goroutine_ends g m hg [.verifyByRS pub userId msg r s] (fun c hc => by
      simp only [List.mem_cons, List.not_mem_nil, or_false] at hc
      subst hc
      exact ⟨hp, hr, hs⟩) []
    have he' : Ends Same (m ++ []) (t'.prog.run (m ++ t'.own)) (.ok [.bool true]) := by
      rw [h3]
      simpa only [wantAll, Sm2Call.want, ht, answer, Res.ok_bind] using he
    rw [List.map_cons, List.map_cons, List.map_nil, outcome_of_run h2 he']
    rfl
  · obtain ⟨n, t', h1, h2, h3⟩ := alone (m.set g.curve.N 0) [⟨.pure [], []⟩, ⟨goroutine g [.verifyByRS pub userId msg r s], []⟩] 1 _ [] rfl
      (goroutine_writes g _ _)
    refine ⟨_, _, _, Steps.trans (.snoc _ _ _ _ (.refl _) (clear _)) h1, ?_⟩
    obtain ⟨p, m', h4, _, h6⟩ := C115_shared_violated g m hg pub hp
    have h4' : m' = m.set g.curve.N 0 := by
      have : clearOrder g m = .ok (g.curve.N, m.set g.curve.N 0) := rfl
      rw [this, Out.ok.injEq, Prod.mk.injEq] at h4
      exact h4.2.symm
    subst h4'
    obtain ⟨m2, h5⟩ := h6 userId msg r s (by rw [List.length_set]; exact hr) (by rw [List.length_set]; exact hs)
    have he' : (goroutine g [.verifyByRS pub userId msg r s]).run (m.set g.curve.N 0 ++ []) = .ok ([.bool false], m2) := by
      rw [List.append_nil]
      have hask : (Sm2Call.prog g (.verifyByRS pub userId msg r s)).run (m.set g.curve.N 0) = .ok (.bool false, m2) := by
        rw [Sm2Call.prog, ask, bind_run, attempt_run, h5]
        rfl
      rw [goroutine, bind_run, hask]
      rfl
    rw [he'] at h3
    have hout : outcome t'.prog = some (.ok [.bool false]) :=
      outcome_of_run (m0 := m2) h2 ⟨_, [], by rw [List.append_nil]; exact h3, rfl⟩
    rw [show ([⟨.pure [], []⟩, ⟨goroutine g [.verifyByRS pub userId msg r s], []⟩] : List (Thread (List Sm2Answer))).set 1 t' = [⟨.pure [], []⟩, t'] from rfl,
      List.map_cons, List.map_cons, List.map_nil, hout]
    rfl

/-- A valid signature in memory. -/
example : ∃ (g : Globals) (m : Mem) (pub : PubKey) (r s : Ptr), PackageReady g m ∧ PubIn g m pub ∧ r < m.length ∧ s < m.length ∧
    Sm2.verifyByRS (pubAt m pub) none [0x61] (rd m r) (rd m s) = .ok true := by
  obtain ⟨pub, hp⟩ : ∃ pub, Sm2.calculatePubKey ⟨(2 : ℕ)⟩ = .ok pub := by
    unfold Sm2.calculatePubKey; rw [Sm2.baseMult_int]; exact ⟨_, rfl⟩
  have hl : 12 ≤ (exMem ++ [pub.X, pub.Y, exR, exS]).length := by rw [List.length_append]; exact Nat.le_refl _
  refine ⟨exGlobals, exMem ++ [pub.X, pub.Y, exR, exS], ⟨8, 9, exGlobals.curve⟩, 10, 11, ex_ready.append _, ⟨by exact Nat.lt_of_lt_of_le (by decide) hl, by exact Nat.lt_of_lt_of_le (by decide) hl, rfl⟩,
    Nat.lt_of_lt_of_le (by decide) hl, Nat.lt_of_lt_of_le (by decide) hl, ?_⟩
  exact C35_verifies 2 pub hp _ _ _ _ _ example_sign

/-- Two goroutines with the private key 2 of `exMem`: one signs "a", the other wants to sign with a random source that fails, and
then verifies with the number of the private key in the place of all numbers. -/
theorem conc_in (g : Globals) (m : Mem) (hg : PackageReady g m) (k : PrivKey) (hk : PrivIn g m k) (e : privAt m k = ⟨2⟩) (p : PubKey) (hp : PubIn g m p)
    (q : Ptr) (hq : q < m.length) (e2 : Sm2.verifyByRS (pubAt m p) none [0x61] (rd m q) (rd m q) = .ok false) :
    ∃ n ts t0 t1, Steps n (m, start ([[.signToRS k none [0x61] [some (toBE 32 3)]], [.sign k none [0x61] [none], .verifyByRS p none [0x61] q q]].map
        (goroutine g))) (m, ts) ∧ ts[0]? = some t0 ∧ ts[1]? = some t1 ∧ outcome t0.prog = some (.ok [.numbers [exR, exS]]) ∧
      outcome t1.prog = some (.ok [.error, .bool false]) := by
  obtain ⟨n, m2, ts, _, h1, h2⟩ := C122_complete g m [[.signToRS k none [0x61] [some (toBE 32 3)]], [.sign k none [0x61] [none], .verifyByRS p none [0x61] q q]]
    0 m _ (.refl _)
  obtain ⟨rfl, hl, hr⟩ := C122_results g m hg _ (by
    intro cs hcs c hc
    simp only [List.mem_cons, List.not_mem_nil, or_false] at hcs
    rcases hcs with rfl | rfl
    · simp only [List.mem_cons, List.not_mem_nil, or_false] at hc
      subst hc
      exact hk
    · simp only [List.mem_cons, List.not_mem_nil, or_false] at hc
      rcases hc with rfl | rfl
      · exact hk
      · exact ⟨hp, hq, hq⟩) n m2 ts h1
  have hl0 : 0 < ts.length := by rw [hl]; simp
  have hl1 : 1 < ts.length := by rw [hl]; simp
  refine ⟨n, ts, ts[0], ts[1], h1, List.getElem?_eq_getElem hl0, List.getElem?_eq_getElem hl1, ?_, ?_⟩
  · rw [hr 0 _ ts[0] rfl (List.getElem?_eq_getElem hl0) (h2 _ (List.getElem_mem hl0))]
    simp only [wantAll, Sm2Call.want, e, example_sign]
    rfl
  · rw [hr 1 _ ts[1] rfl (List.getElem?_eq_getElem hl1) (h2 _ (List.getElem_mem hl1))]
    have hw : Sm2.sign ⟨2⟩ none [0x61] [none] = .err "rand" := by decide +kernel
    simp only [wantAll, Sm2Call.want, e, hw, e2]
    rfl

example : ∃ n ts t0 t1, Steps n (exMem, start ([[.signToRS exPriv none [0x61] [some (toBE 32 3)]],
      [.sign exPriv none [0x61] [none], .verifyByRS ⟨7, 7, exGlobals.curve⟩ none [0x61] 7 7]].map (goroutine exGlobals))) (exMem, ts) ∧
    ts[0]? = some t0 ∧ ts[1]? = some t1 ∧ outcome t0.prog = some (.ok [.numbers [exR, exS]]) ∧ outcome t1.prog = some (.ok [.error, .bool false]) :=
  conc_in _ _ ex_ready _ ex_priv (by decide +kernel) _ (by unfold PubIn; decide +kernel) _ (by decide +kernel) (by decide +kernel)

end Verif.Props
