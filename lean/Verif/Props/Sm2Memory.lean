import Verif.Sm2.StoreLemmas
import Verif.Props.Sm2Keys
import Verif.Props.Sm2Cipher
/-!
# C114, C115: the numbers behind the pointers

`*big.Int` is a pointer, and the keys and the curve of sm2.go are structures of pointers. The functions are modelled on a memory of
numbers in `Verif.EC.Store` and `Verif.Sm2.Store`; the theorems compare memory before a call and after it. Nothing is assumed about
pointers being different: a key may use a number of the curve as its own, `r` and `s` may be the same number.
-/
namespace Verif.Props
open Verif EC.Store

/-- In the memory `m` the variables of the package hold the numbers of /repo/sm2/sm2.go:34 and 79-84. -/
def PackageReady (g : Sm2.Store.Globals) (m : Mem) : Prop :=
  (g.curve.P < m.length ∧ rd m g.curve.P = 0xFFFFFFFEFFFFFFFFFFFFFFFFFFFFFFFFFFFFFFFF00000000FFFFFFFFFFFFFFFF) ∧
  (g.curve.A < m.length ∧ rd m g.curve.A = 0xFFFFFFFEFFFFFFFFFFFFFFFFFFFFFFFFFFFFFFFF00000000FFFFFFFFFFFFFFFC) ∧
  (g.curve.B < m.length ∧ rd m g.curve.B = 0x28E9FA9E9D9F5E344D5A9E4BCF6509A7F39789F515AB8F92DDBCBD414D940E93) ∧
  (g.curve.N < m.length ∧ rd m g.curve.N = 0xFFFFFFFEFFFFFFFFFFFFFFFFFFFFFFFF7203DF6B21C6052B53BBF40939D54123) ∧
  (g.curve.Gx < m.length ∧ rd m g.curve.Gx = 0x32C4AE2C1F1981195F9904466A39C9948FE30BBFF2660BE1715A4589334C74C7) ∧
  (g.curve.Gy < m.length ∧ rd m g.curve.Gy = 0xBC3736A2F4F6779C59BDCEE36B692153D0A9877CC62A474002DF32E52139F0A0) ∧
  (g.H < m.length ∧ rd m g.H = 1)

theorem PackageReady.world {g : Sm2.Store.Globals} {m : Mem} (h : PackageReady g m) : Sm2.Store.World g m := by
  obtain ⟨h1, h2, h3, h4, h5, h6, h7⟩ := h
  exact ⟨⟨h1, h4, h3, h5, h6, by decide, by decide⟩, h2, h7⟩

/-- A private key whose number is in memory, with the curve of the package. -/
def PrivIn (g : Sm2.Store.Globals) (m : Mem) (k : Sm2.Store.PrivKey) : Prop := k.D < m.length ∧ k.curve = g.curve
/-- A public key whose numbers are in memory, with the curve of the package. -/
def PubIn (g : Sm2.Store.Globals) (m : Mem) (k : Sm2.Store.PubKey) : Prop := k.X < m.length ∧ k.Y < m.length ∧ k.curve = g.curve

/-- The key as numbers. -/
def privAt (m : Mem) (k : Sm2.Store.PrivKey) : Sm2.PrivateKey := ⟨rd m k.D⟩
def pubAt (m : Mem) (k : Sm2.Store.PubKey) : Sm2.PublicKey := ⟨rd m k.X, rd m k.Y⟩

/-- Every number of `m` is still there and has its value. -/
def Kept (m m' : Mem) : Prop := ∀ p < m.length, p < m'.length ∧ rd m' p = rd m p

/-- `r` is the outcome of a call started in the memory `m`. The call ends as `want` does, and however it ends, it has changed no number
that was in memory before; where `want` has a value, the call returns one that is related to it in the memory afterwards. -/
def Leaves {α β : Type} (rel : Mem → α → β → Prop) (m : Mem) (r : Out α) (want : Res β) : Prop :=
  match want with
  | .ok b => ∃ a m', r = .ok (a, m') ∧ Kept m m' ∧ rel m' a b
  | .err e => ∃ m', r = .err e m' ∧ Kept m m'
  | .panic => ∃ m', r = .panic m' ∧ Kept m m'
  | .loop => ∃ m', r = .loop m' ∧ Kept m m'

theorem kept_append (m : Mem) (L : List Int) : Kept m (m ++ L) := fun _ hp => ⟨lt_append hp L, rd_old hp L⟩

theorem leaves_of {α β : Type} {Q rel : Mem → α → β → Prop} {m : Mem} {r : Out α} {want : Res β} (h : Sm2.Store.Ends Q m r want)
    (hq : ∀ m' a b, Q m' a b → rel m' a b) : Leaves rel m r want := by
  cases want with
  | ok b =>
    obtain ⟨a, L, h0, h1⟩ := h
    exact ⟨a, _, h0, kept_append m L, hq _ _ _ h1⟩
  | err e => obtain ⟨L, h0⟩ := h; exact ⟨_, h0, kept_append m L⟩
  | panic => obtain ⟨L, h0⟩ := h; exact ⟨_, h0, kept_append m L⟩
  | loop => obtain ⟨L, h0⟩ := h; exact ⟨_, h0, kept_append m L⟩

theorem PackageReady.kept {g : Sm2.Store.Globals} {m m' : Mem} (h : PackageReady g m) (hk : Kept m m') : PackageReady g m' := by
  have step : ∀ {p v}, p < m.length ∧ rd m p = v → p < m'.length ∧ rd m' p = v := fun hp => ⟨(hk _ hp.1).1, by rw [(hk _ hp.1).2, hp.2]⟩
  obtain ⟨h1, h2, h3, h4, h5, h6, h7⟩ := h
  exact ⟨step h1, step h2, step h3, step h4, step h5, step h6, step h7⟩

theorem priv_at {g : Sm2.Store.Globals} {m : Mem} {k : Sm2.Store.PrivKey} (h : PrivIn g m k) : Sm2.Store.At m k.D (privAt m k).D := ⟨h.1, rfl⟩

/-- Signing returns the signature of the model and changes no number that existed before; the numbers of the signature are new. -/
theorem C114_sign (g : Sm2.Store.Globals) (m : Mem) (hg : PackageReady g m) (priv : Sm2.Store.PrivKey) (hp : PrivIn g m priv) (userId : Option Bytes)
    (msg : Bytes) (tape : Sm2.Tape) :
    Leaves (fun _ a b => a = b) m (Sm2.Store.sign priv userId msg tape m) (Sm2.sign (privAt m priv) userId msg tape) ∧
    Leaves (fun m' a b => (m.length ≤ a.1 ∧ rd m' a.1 = b.1) ∧ (m.length ≤ a.2 ∧ rd m' a.2 = b.2)) m (Sm2.Store.signToRS priv userId msg tape m)
      (Sm2.signToRS (privAt m priv) userId msg tape) :=
  ⟨leaves_of (Sm2.Store.sign_ends hg.world hp.2 (priv_at hp) userId msg tape) (fun _ _ _ h => h),
    leaves_of (Sm2.Store.signToRS_ends hg.world (Nat.le_refl _) hp.2 (priv_at hp) userId msg tape)
      (fun _ _ _ h => ⟨⟨h.1.1, h.1.2.2⟩, h.2.1, h.2.2.2⟩)⟩

/-- Verifying gives the answer of the model and changes no number that existed before. -/
theorem C114_verify (g : Sm2.Store.Globals) (m : Mem) (hg : PackageReady g m) (pub : Sm2.Store.PubKey) (hp : PubIn g m pub) (userId : Option Bytes)
    (msg sig : Bytes) (r s : Ptr) (hr : r < m.length) (hs : s < m.length) :
    Leaves (fun _ a b => a = b) m (Sm2.Store.verify pub userId msg sig m) (Sm2.verify (pubAt m pub) userId msg sig) ∧
    Leaves (fun _ a b => a = b) m (Sm2.Store.verifyByRS pub userId msg r s m) (Sm2.verifyByRS (pubAt m pub) userId msg (rd m r) (rd m s)) :=
  ⟨leaves_of (Sm2.Store.verify_ends hg.world hp.2.2 ⟨hp.1, rfl⟩ ⟨hp.2.1, rfl⟩ userId msg sig) (fun _ _ _ h => h),
    leaves_of (Sm2.Store.verifyByRS_ends hg.world hp.2.2 ⟨hp.1, rfl⟩ ⟨hp.2.1, rfl⟩ ⟨hr, rfl⟩ ⟨hs, rfl⟩ userId msg) (fun _ _ _ h => h)⟩

/-- Encrypting and decrypting give the results of the model and change no number that existed before. -/
theorem C114_cipher (g : Sm2.Store.Globals) (m : Mem) (hg : PackageReady g m) (pub : Sm2.Store.PubKey) (hp : PubIn g m pub)
    (priv : Sm2.Store.PrivKey) (hq : PrivIn g m priv) (inp : Bytes) (layout : Int) (tape : Sm2.Tape) :
    Leaves (fun _ a b => a = b) m (Sm2.Store.encrypt pub inp layout tape m) (Sm2.encrypt (pubAt m pub) inp layout tape) ∧
    Leaves (fun _ a b => a = b) m (Sm2.Store.decrypt g priv inp layout m) (Sm2.decrypt (privAt m priv) inp layout) :=
  ⟨leaves_of (Sm2.Store.encrypt_ends hg.world hp.2.2 ⟨hp.1, rfl⟩ ⟨hp.2.1, rfl⟩ inp layout tape) (fun _ _ _ h => h),
    leaves_of (Sm2.Store.decrypt_ends hg.world hq.2 (priv_at hq) inp layout) (fun _ _ _ h => h)⟩

/-- The key exchange gives the result of the model and changes no number that existed before. -/
theorem C114_exchange (g : Sm2.Store.Globals) (m : Mem) (hg : PackageReady g m) (initiator : Bool) (keyBits : Int) (tag : Option Bytes)
    (self ephemeral : Sm2.Store.PrivKey) (h1 : PrivIn g m self) (h2 : PrivIn g m ephemeral) (selfId otherId : Option Bytes)
    (other otherEphemeral : Sm2.Store.PubKey) (h3 : PubIn g m other) (h4 : PubIn g m otherEphemeral) :
    Leaves (fun _ a b => a = b) m (Sm2.Store.calculateKeyWithConfirmation g initiator keyBits tag self ephemeral selfId other otherEphemeral otherId m)
      (Sm2.calculateKeyWithConfirmation initiator keyBits tag (privAt m self) (privAt m ephemeral) selfId (pubAt m other) (pubAt m otherEphemeral)
        otherId) :=
  leaves_of (Sm2.Store.calculateKeyWithConfirmation_ends hg.world initiator keyBits tag h1.2 h2.2 (priv_at h1) (priv_at h2) selfId otherId ⟨h3.1, rfl⟩
    ⟨h3.2.1, rfl⟩ ⟨h4.1, rfl⟩ ⟨h4.2.1, rfl⟩) (fun _ _ _ h => h)

/-- A public key whose numbers are behind `n`, which has the numbers `b` and the curve of the package. -/
def NewPubAt (g : Sm2.Store.Globals) (n : Nat) (m : Mem) (a : Sm2.Store.PubKey) (b : Sm2.PublicKey) : Prop :=
  PubIn g m a ∧ n ≤ a.X ∧ n ≤ a.Y ∧ pubAt m a = b
def NewPrivAt (g : Sm2.Store.Globals) (n : Nat) (m : Mem) (a : Sm2.Store.PrivKey) (b : Sm2.PrivateKey) : Prop :=
  PrivIn g m a ∧ n ≤ a.D ∧ privAt m a = b

theorem newPub_at {g : Sm2.Store.Globals} {n : Nat} {m : Mem} {a : Sm2.Store.PubKey} {b : Sm2.PublicKey} (h : Sm2.Store.NewPub n g.curve m a b) :
    NewPubAt g n m a b := by
  obtain ⟨⟨h1, h2, h3⟩, ⟨h4, h5, h6⟩, h7⟩ := h
  refine ⟨⟨h2, h5, h7⟩, h1, h4, ?_⟩
  unfold pubAt
  rw [h3, h6]
theorem newPriv_at {g : Sm2.Store.Globals} {n : Nat} {m : Mem} {a : Sm2.Store.PrivKey} {b : Sm2.PrivateKey} (h : Sm2.Store.NewPriv n g.curve m a b) :
    NewPrivAt g n m a b := by
  obtain ⟨⟨h1, h2, h3⟩, h7⟩ := h
  refine ⟨⟨h2, h7⟩, h1, ?_⟩
  unfold privAt
  rw [h3]

/-- The functions that make keys put their numbers into new memory and change no number that existed before. -/
theorem C114_keys (g : Sm2.Store.Globals) (m : Mem) (hg : PackageReady g m) (tape : Sm2.Tape) (raw : Bytes) (priv : Sm2.Store.PrivKey)
    (hp : PrivIn g m priv) :
    Leaves (fun m' a b => NewPrivAt g m.length m' a.1 b.1 ∧ NewPubAt g m.length m' a.2 b.2) m (Sm2.Store.generateKey g tape m) (Sm2.generateKey tape) ∧
    Leaves (NewPubAt g m.length) m (Sm2.Store.rawBytesToPublicKey g raw m) (Sm2.rawBytesToPublicKey raw) ∧
    Leaves (NewPrivAt g m.length) m (Sm2.Store.rawBytesToPrivateKey g raw m) (Sm2.rawBytesToPrivateKey raw) ∧
    Leaves (NewPubAt g m.length) m (Sm2.Store.calculatePubKey priv m) (Sm2.calculatePubKey (privAt m priv)) :=
  ⟨leaves_of (Sm2.Store.generateKey_ends hg.world (Nat.le_refl _) tape) (fun _ _ _ h => ⟨newPriv_at h.1, newPub_at h.2⟩),
    leaves_of (Sm2.Store.rawBytesToPublicKey_ends (Nat.le_refl _) raw) (fun _ _ _ h => newPub_at h),
    leaves_of (Sm2.Store.rawBytesToPrivateKey_ends (Nat.le_refl _) raw) (fun _ _ _ h => newPriv_at h),
    leaves_of (Sm2.Store.calculatePubKey_ends hg.world (Nat.le_refl _) hp.2 (priv_at hp)) (fun _ _ _ h => newPub_at h)⟩

theorem leaves_ok {α β : Type} {rel : Mem → α → β → Prop} {m m' : Mem} {r : Out α} {want : Res β} {a : α} (h : Leaves rel m r want)
    (hr : r = .ok (a, m')) : ∃ b, want = .ok b ∧ Kept m m' ∧ rel m' a b := by
  cases want with
  | ok b =>
    obtain ⟨a', m2, h0, h1, h2⟩ := h
    rw [hr, Out.ok.injEq, Prod.mk.injEq] at h0
    obtain ⟨rfl, rfl⟩ := h0
    exact ⟨b, rfl, h1, h2⟩
  | err e => obtain ⟨_, h0, _⟩ := h; rw [hr] at h0; cases h0
  | panic => obtain ⟨_, h0, _⟩ := h; rw [hr] at h0; cases h0
  | loop => obtain ⟨_, h0, _⟩ := h; rw [hr] at h0; cases h0

/-- A key pair is made, other programs change memory as they like apart from the curve and the key, a message is signed, and again
memory is changed apart from the curve and the key: the signature verifies. -/
theorem C114_lifecycle (g : Sm2.Store.Globals) (m : Mem) (hg : PackageReady g m) (tape tape' : Sm2.Tape) (priv : Sm2.Store.PrivKey)
    (pub : Sm2.Store.PubKey) (m1 m1' : Mem) (h1 : Sm2.Store.generateKey g tape m = .ok ((priv, pub), m1)) (hg1 : PackageReady g m1')
    (hpriv : priv.D < m1'.length ∧ rd m1' priv.D = rd m1 priv.D) (userId : Option Bytes) (msg sig : Bytes) (m2 m2' : Mem)
    (h2 : Sm2.Store.sign priv userId msg tape' m1' = .ok (sig, m2)) (hg2 : PackageReady g m2')
    (hx : pub.X < m2'.length ∧ rd m2' pub.X = rd m1 pub.X) (hy : pub.Y < m2'.length ∧ rd m2' pub.Y = rd m1 pub.Y) :
    ∃ m3, Sm2.Store.verify pub userId msg sig m2' = .ok (true, m3) ∧ Kept m2' m3 := by
  obtain ⟨⟨kv, pv⟩, e1, _, hk, hp⟩ := leaves_ok (leaves_of (rel := fun m' a b => NewPrivAt g m.length m' a.1 b.1 ∧ NewPubAt g m.length m' a.2 b.2)
    (Sm2.Store.generateKey_ends hg.world (Nat.le_refl _) tape) (fun _ _ _ h => ⟨newPriv_at h.1, newPub_at h.2⟩)) h1
  obtain ⟨⟨_, hkc⟩, _, hkv⟩ := hk
  obtain ⟨⟨_, _, hpc⟩, _, _, hpv⟩ := hp
  dsimp only at hkc hkv hpc hpv
  obtain ⟨hd0, _, hpub⟩ := C34_consistent tape kv pv e1
  obtain ⟨sig', e2, _, hs⟩ := leaves_ok (C114_sign g m1' hg1 priv ⟨hpriv.1, hkc⟩ userId msg tape').1 h2
  subst hs
  have hkv' : privAt m1' priv = ⟨(kv.D.toNat : ℕ)⟩ := by
    unfold privAt
    rw [hpriv.2, show rd m1 priv.D = kv.D from by rw [← hkv]; rfl, Int.toNat_of_nonneg hd0]
  rw [hkv'] at e2
  have hkv2 : kv = ⟨(kv.D.toNat : ℕ)⟩ := by rw [Int.toNat_of_nonneg hd0]
  rw [hkv2] at hpub
  have hver := C35_der_verifies _ _ hpub userId msg tape' sig e2
  have hpv' : pubAt m2' pub = pv := by
    rw [← hpv]
    unfold pubAt
    rw [hx.2, hy.2]
  have hl := leaves_of (rel := fun _ a b => a = b) (Sm2.Store.verify_ends hg2.world hpc ⟨hx.1, rfl⟩ ⟨hy.1, rfl⟩ userId msg sig) (fun _ _ _ h => h)
  rw [show (⟨rd m2' pub.X, rd m2' pub.Y⟩ : Sm2.PublicKey) = pv from hpv', hver] at hl
  obtain ⟨b, m3, h3, h4, h5⟩ := hl
  rw [h5] at h3
  exact ⟨m3, h3, h4⟩

/-! ## C115 -/

/-- `GetSm2P256V1().N.SetInt64(0)` in the code of a caller. -/
def clearOrder (g : Sm2.Store.Globals) : M Ptr := bSetInt (Sm2.Store.getSm2P256V1 g).N 0

/-- The curve that `GetSm2P256V1` returns, and the curve of every key, point to the numbers of the package. A caller that sets the
order of the curve it was given to 0 makes every verification with every other key fail, also with keys that were made before. -/
theorem C115_shared_violated (g : Sm2.Store.Globals) (m : Mem) (hg : PackageReady g m) (pub : Sm2.Store.PubKey) (hp : PubIn g m pub) :
    ∃ p m', clearOrder g m = .ok (p, m') ∧ (∀ q, q ≠ g.curve.N → rd m' q = rd m q) ∧
      ∀ (userId : Option Bytes) (msg : Bytes) (r s : Ptr), r < m'.length → s < m'.length → ∃ m2, Sm2.Store.verifyByRS pub userId msg r s m' = .ok (false, m2) := by
  refine ⟨_, _, rfl, ?_, ?_⟩
  · intro q hq
    unfold rd
    rw [List.getD_eq_getElem?_getD, List.getD_eq_getElem?_getD, List.getElem?_set_ne (by exact fun h => hq h.symm)]
  intro userId msg r s hr hs
  have hN : Sm2.Store.At (m.set g.curve.N 0) g.curve.N 0 := by
    obtain ⟨_, _, _, h4, _⟩ := hg
    refine ⟨by rw [List.length_set]; exact h4.1, ?_⟩
    unfold rd
    rw [List.getD_eq_getElem?_getD, List.getElem?_set_self h4.1]
    rfl
  have hend : Sm2.Store.Ends Sm2.Store.Same (m.set g.curve.N 0) (Sm2.Store.verifyByRS pub userId msg r s (m.set g.curve.N 0)) (.ok false) := by
    unfold Sm2.Store.verifyByRS
    rw [hp.2.2]
    refine Sm2.Store.Ends.step (Sm2.Store.newInt_ends (Nat.le_refl _) 1) ?_
    intro o L hp1
    refine Sm2.Store.Ends.get hp1.2 (Sm2.Store.Ends.get (v := rd (m.set g.curve.N 0) r) ⟨lt_append hr L, rd_old hr L⟩ (Sm2.Store.Ends.get (hN.append L) ?_))
    rw [if_pos (by omega)]
    exact Sm2.Store.Ends.done rfl
  obtain ⟨a, L, h0, h1⟩ := hend
  exact ⟨_, by rw [← show a = false from h1]; exact h0⟩

/-! ## A memory -/

/-- The numbers of the package, a private key 2 and its public key. -/
def exMem : Mem :=
  [0xFFFFFFFEFFFFFFFFFFFFFFFFFFFFFFFFFFFFFFFF00000000FFFFFFFFFFFFFFFF, 0xFFFFFFFEFFFFFFFFFFFFFFFFFFFFFFFF7203DF6B21C6052B53BBF40939D54123,
    0x28E9FA9E9D9F5E344D5A9E4BCF6509A7F39789F515AB8F92DDBCBD414D940E93, 0x32C4AE2C1F1981195F9904466A39C9948FE30BBFF2660BE1715A4589334C74C7,
    0xBC3736A2F4F6779C59BDCEE36B692153D0A9877CC62A474002DF32E52139F0A0, 0xFFFFFFFEFFFFFFFFFFFFFFFFFFFFFFFFFFFFFFFF00000000FFFFFFFFFFFFFFFC,
    1, 2]
def exGlobals : Sm2.Store.Globals := ⟨⟨⟨0, 1, 2, 3, 4⟩, 5⟩, 6⟩
def exPriv : Sm2.Store.PrivKey := ⟨7, exGlobals.curve⟩

theorem ex_ready : PackageReady exGlobals exMem := by unfold PackageReady; decide +kernel
theorem ex_priv : PrivIn exGlobals exMem exPriv := by unfold PrivIn; decide +kernel

theorem sign_in (g : Sm2.Store.Globals) (m : Mem) (hg : PackageReady g m) (priv : Sm2.Store.PrivKey) (hp : PrivIn g m priv) (e : privAt m priv = ⟨2⟩) :
    ∃ a m', Sm2.Store.signToRS priv none [0x61] [some (toBE 32 3)] m = .ok (a, m') ∧ Kept m m' ∧ rd m' a.1 = exR ∧ rd m' a.2 = exS := by
  have h := (C114_sign g m hg priv hp none [0x61] [some (toBE 32 3)]).2
  rw [e, example_sign] at h
  obtain ⟨a, m', h0, h1, h2⟩ := h
  exact ⟨a, m', h0, h1, h2.1.2, h2.2.2⟩

/-- The signature of the example of C35, made in this memory. -/
example : ∃ a m', Sm2.Store.signToRS exPriv none [0x61] [some (toBE 32 3)] exMem = .ok (a, m') ∧ Kept exMem m' ∧ rd m' a.1 = exR ∧ rd m' a.2 = exS :=
  sign_in _ _ ex_ready _ ex_priv (by decide +kernel)

theorem verify_in (g : Sm2.Store.Globals) (m : Mem) (hg : PackageReady g m) (pub : Sm2.Store.PubKey) (hp : PubIn g m pub) (r s : Ptr) (hr : r < m.length)
    (hs : s < m.length) (e : Sm2.verifyByRS (pubAt m pub) none [0x61] (rd m r) (rd m s) = .ok false) :
    ∃ m', Sm2.Store.verifyByRS pub none [0x61] r s m = .ok (false, m') ∧ Kept m m' := by
  have h := (C114_verify g m hg pub hp none [0x61] [] r s hr hs).2
  rw [e] at h
  obtain ⟨a, m', h0, h1, h2⟩ := h
  rw [h2] at h0
  exact ⟨m', h0, h1⟩

/-- A signature whose `r` and `s` are the same number of memory, the one of the private key, under a public key whose coordinates are
that number too: nothing is assumed about different pointers. -/
example : ∃ m', Sm2.Store.verifyByRS ⟨7, 7, exGlobals.curve⟩ none [0x61] 7 7 exMem = .ok (false, m') ∧ Kept exMem m' :=
  verify_in _ _ ex_ready _ (by unfold PubIn; decide +kernel) _ _ (by decide +kernel) (by decide +kernel) (by decide +kernel)

theorem sign_fails_in (g : Sm2.Store.Globals) (m : Mem) (hg : PackageReady g m) (priv : Sm2.Store.PrivKey) (hp : PrivIn g m priv)
    (e : privAt m priv = ⟨2⟩) : ∃ m', Sm2.Store.signToRS priv none [0x61] [none] m = .err "rand" m' ∧ Kept m m' := by
  have h := (C114_sign g m hg priv hp none [0x61] [none]).2
  have hw : Sm2.signToRS ⟨2⟩ none [0x61] [none] = .err "rand" := by decide +kernel
  rw [e, hw] at h
  exact h

/-- The random source fails: the call returns the error, and the numbers are still as they were. -/
example : ∃ m', Sm2.Store.signToRS exPriv none [0x61] [none] exMem = .err "rand" m' ∧ Kept exMem m' :=
  sign_fails_in _ _ ex_ready _ ex_priv (by decide +kernel)

/-- `SetInt64(0)` on the order: the package is no longer ready. -/
example : ¬ PackageReady exGlobals (exMem.set 1 0) := by
  unfold PackageReady
  decide +kernel

end Verif.Props
