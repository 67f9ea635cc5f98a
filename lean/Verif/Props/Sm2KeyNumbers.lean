import Verif.Props.Sm2Memory
/-!
# C115, the part that holds: the numbers of a key are its own

The curve is shared by all keys (C115_shared_violated), the numbers `D`, `X` and `Y` are not: what a caller writes to the numbers of a key
that the package made has no effect on the curve and on the keys that were there before.
-/
namespace Verif.Props
open Verif EC.Store

/-- Assignments of a caller to numbers it holds pointers to, one after the other. -/
def assign : List (Ptr × Int) → Mem → Mem
  | [], m => m
  | w :: ws, m => assign ws (m.set w.1 w.2)

theorem assign_kept {m m1 : Mem} (h : Kept m m1) : ∀ (ws : List (Ptr × Int)), (∀ w ∈ ws, m.length ≤ w.1) → Kept m (assign ws m1) := by
  intro ws
  induction ws generalizing m1 with
  | nil => intro _; exact h
  | cons w ws ih =>
    intro hw
    refine ih (m1 := m1.set w.1 w.2) ?_ fun v hv => hw v (List.mem_cons_of_mem _ hv)
    intro p hp
    have hne : w.1 ≠ p := (Nat.lt_of_lt_of_le hp (hw w List.mem_cons_self)).ne'
    refine ⟨by rw [List.length_set]; exact (h p hp).1, ?_⟩
    rw [← (h p hp).2]
    unfold rd
    rw [List.getD_eq_getElem?_getD, List.getD_eq_getElem?_getD, List.getElem?_set_ne hne]

theorem PubIn.kept {g : Sm2.Store.Globals} {m m' : Mem} {k : Sm2.Store.PubKey} (h : PubIn g m k) (hk : Kept m m') : PubIn g m' k ∧ pubAt m' k = pubAt m k :=
  ⟨⟨(hk _ h.1).1, (hk _ h.2.1).1, h.2.2⟩, by unfold pubAt; rw [(hk _ h.1).2, (hk _ h.2.1).2]⟩

theorem PrivIn.kept {g : Sm2.Store.Globals} {m m' : Mem} {k : Sm2.Store.PrivKey} (h : PrivIn g m k) (hk : Kept m m') : PrivIn g m' k ∧ privAt m' k = privAt m k :=
  ⟨⟨(hk _ h.1).1, h.2⟩, by unfold privAt; rw [(hk _ h.1).2]⟩

/-- What the functions of the package do in the memory `m'` with keys of the memory `m`: the same as in `m`. -/
def Unaffected (g : Sm2.Store.Globals) (m m' : Mem) : Prop :=
  ∀ (priv : Sm2.Store.PrivKey) (pub : Sm2.Store.PubKey), PrivIn g m priv → PubIn g m pub → ∀ (userId : Option Bytes) (msg data : Bytes) (layout : Int) (tape : Sm2.Tape),
    Leaves (fun _ a b => a = b) m' (Sm2.Store.sign priv userId msg tape m') (Sm2.sign (privAt m priv) userId msg tape) ∧
    Leaves (fun _ a b => a = b) m' (Sm2.Store.verify pub userId msg data m') (Sm2.verify (pubAt m pub) userId msg data) ∧
    Leaves (fun _ a b => a = b) m' (Sm2.Store.encrypt pub msg layout tape m') (Sm2.encrypt (pubAt m pub) msg layout tape) ∧
    Leaves (fun _ a b => a = b) m' (Sm2.Store.decrypt g priv data layout m') (Sm2.decrypt (privAt m priv) data layout)

theorem unaffected {g : Sm2.Store.Globals} {m m' : Mem} (hg : PackageReady g m) (hk : Kept m m') : Unaffected g m m' := by
  intro priv pub h1 h2 userId msg data layout tape
  obtain ⟨i1, e1⟩ := h1.kept hk
  obtain ⟨i2, e2⟩ := h2.kept hk
  have hg' := hg.kept hk
  rw [← e1, ← e2]
  exact ⟨(C114_sign g m' hg' priv i1 userId msg tape).1,
    leaves_of (Sm2.Store.verify_ends hg'.world i2.2.2 ⟨i2.1, rfl⟩ ⟨i2.2.1, rfl⟩ userId msg data) (fun _ _ _ h => h),
    leaves_of (Sm2.Store.encrypt_ends hg'.world i2.2.2 ⟨i2.1, rfl⟩ ⟨i2.2.1, rfl⟩ msg layout tape) (fun _ _ _ h => h),
    leaves_of (Sm2.Store.decrypt_ends hg'.world i1.2 (priv_at i1) data layout) (fun _ _ _ h => h)⟩

/-- **C115, the part that holds** A key pair is generated, and its holder assigns to its three numbers whatever it likes, as often as it likes. The
package still has its numbers, and signing, verifying, encrypting and decrypting with every key that was there before give what they gave before. -/
theorem C115_pair_partial (g : Sm2.Store.Globals) (m : Mem) (hg : PackageReady g m) (tape : Sm2.Tape) (priv : Sm2.Store.PrivKey) (pub : Sm2.Store.PubKey) (m1 : Mem)
    (h : Sm2.Store.generateKey g tape m = .ok ((priv, pub), m1)) (ws : List (Ptr × Int)) (hw : ∀ w ∈ ws, w.1 = priv.D ∨ w.1 = pub.X ∨ w.1 = pub.Y) :
    PackageReady g (assign ws m1) ∧ Unaffected g m (assign ws m1) := by
  obtain ⟨_, _, hk, h1, h2⟩ := leaves_ok (leaves_of (rel := fun m' a b => NewPrivAt g m.length m' a.1 b.1 ∧ NewPubAt g m.length m' a.2 b.2)
    (Sm2.Store.generateKey_ends hg.world (Nat.le_refl _) tape) (fun _ _ _ h => ⟨newPriv_at h.1, newPub_at h.2⟩)) h
  have hka := assign_kept hk ws (fun w hm => by
    rcases hw w hm with e | e | e <;> rw [e]
    · exact h1.2.1
    · exact h2.2.1
    · exact h2.2.2.1)
  exact ⟨hg.kept hka, unaffected hg hka⟩

/-- **C115, the part that holds** The same for a public key read from 64 bytes. -/
theorem C115_public_partial (g : Sm2.Store.Globals) (m : Mem) (hg : PackageReady g m) (raw : Bytes) (pub : Sm2.Store.PubKey) (m1 : Mem)
    (h : Sm2.Store.rawBytesToPublicKey g raw m = .ok (pub, m1)) (ws : List (Ptr × Int)) (hw : ∀ w ∈ ws, w.1 = pub.X ∨ w.1 = pub.Y) :
    PackageReady g (assign ws m1) ∧ Unaffected g m (assign ws m1) := by
  obtain ⟨_, _, hk, h2⟩ := leaves_ok (leaves_of (rel := NewPubAt g m.length) (Sm2.Store.rawBytesToPublicKey_ends (Nat.le_refl _) raw) (fun _ _ _ h => newPub_at h)) h
  have hka := assign_kept hk ws (fun w hm => by
    rcases hw w hm with e | e <;> rw [e]
    · exact h2.2.1
    · exact h2.2.2.1)
  exact ⟨hg.kept hka, unaffected hg hka⟩

/-- **C115, the part that holds** The same for a private key read from 32 bytes and for the public key calculated from a private key. -/
theorem C115_private_partial (g : Sm2.Store.Globals) (m : Mem) (hg : PackageReady g m) (raw : Bytes) (priv : Sm2.Store.PrivKey) (m1 : Mem)
    (h : Sm2.Store.rawBytesToPrivateKey g raw m = .ok (priv, m1)) (pub : Sm2.Store.PubKey) (m2 : Mem) (h' : Sm2.Store.calculatePubKey priv m1 = .ok (pub, m2))
    (ws : List (Ptr × Int)) (hw : ∀ w ∈ ws, w.1 = priv.D ∨ w.1 = pub.X ∨ w.1 = pub.Y) :
    PackageReady g (assign ws m2) ∧ Unaffected g m (assign ws m2) := by
  obtain ⟨_, _, hk, h2⟩ := leaves_ok (leaves_of (rel := NewPrivAt g m.length) (Sm2.Store.rawBytesToPrivateKey_ends (Nat.le_refl _) raw) (fun _ _ _ h => newPriv_at h)) h
  have hg1 := hg.kept hk
  obtain ⟨_, _, hk', h3⟩ := leaves_ok (leaves_of (rel := NewPubAt g m1.length)
    (Sm2.Store.calculatePubKey_ends hg1.world (Nat.le_refl _) h2.1.2 (priv_at h2.1)) (fun _ _ _ h => newPub_at h)) h'
  have hk2 : Kept m m2 := fun p hp => ⟨(hk' p (hk p hp).1).1, by rw [(hk' p (hk p hp).1).2, (hk p hp).2]⟩
  have hle : m.length ≤ m1.length := by
    by_contra hc
    exact absurd (hk m1.length (by omega)).1 (lt_irrefl _)
  have hka := assign_kept hk2 ws (fun w hm => by
    rcases hw w hm with e | e | e <;> rw [e]
    · exact h2.2.1
    · exact le_trans hle h3.2.1
    · exact le_trans hle h3.2.2.1)
  exact ⟨hg.kept hka, unaffected hg hka⟩

/-- The pair (0, 0), read in the memory of the example of C114, and its numbers set to 5 and 7: the key of the example signs as before. -/
example : ∃ pub m1, Sm2.Store.rawBytesToPublicKey exGlobals (List.replicate 64 0) exMem = .ok (pub, m1) ∧
    Unaffected exGlobals exMem (assign [(pub.X, 5), (pub.Y, 7)] m1) := by
  have h : ∃ pub m1, Sm2.Store.rawBytesToPublicKey exGlobals (List.replicate 64 0) exMem = .ok (pub, m1) := ⟨_, _, rfl⟩
  obtain ⟨pub, m1, h⟩ := h
  exact ⟨pub, m1, h, (C115_public_partial _ _ ex_ready _ _ _ h _ (by simp)).2⟩

end Verif.Props
