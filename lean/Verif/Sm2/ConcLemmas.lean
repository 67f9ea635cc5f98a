import Verif.EC.Conc
import Verif.Sm2.Store
/-! The programs of `Verif.EC.Store` and `Verif.Sm2.Store` write only numbers that they have allocated themselves. -/
namespace Verif.EC.Store
open Verif

section
variable {n : Nat} {α : Type}

theorem w_pure {Q : α → Prop} {a : α} (h : Q a) : Writes n (pure a : M α) Q := h
theorem w_new : Writes n new (n ≤ ·) := fun _ hp => hp
theorem w_get (p : Ptr) : Writes n (get p) (fun _ => True) := fun _ => trivial
theorem w_lift (r : Res α) : Writes n (lift r) (fun _ => True) := by cases r <;> trivial
theorem w_err (e : String) (Q : α → Prop) : Writes n (lift (.err e)) Q := trivial
theorem w_panic (Q : α → Prop) : Writes n (lift .panic) Q := trivial
theorem w_loop (Q : α → Prop) : Writes n (lift .loop) Q := trivial
theorem w_attempt {Q : α → Prop} {x : M α} (h : Writes n x Q) : Writes n (attempt x) (fun o => ∀ a, o = some a → Q a) := by
  induction x with
  | pure a => intro b hb; cases hb; exact h
  | fail e =>
    cases e with
    | err e => intro b hb; cases hb
    | panic => trivial
    | loop => trivial
  | read p k ih => exact fun v => ih v (h v)
  | write z v k ih => exact ⟨h.1, ih h.2⟩
  | alloc k ih => exact fun p hp => ih p (h p hp)
theorem w_ite {c : Prop} [Decidable c] {x y : M α} {Q : α → Prop} (hx : c → Writes n x Q) (hy : ¬c → Writes n y Q) : Writes n (if c then x else y) Q := by
  by_cases h : c
  · rw [if_pos h]; exact hx h
  · rw [if_neg h]; exact hy h

variable {z x y : Ptr} (hz : n ≤ z)
include hz
theorem w_put {v : Int} : Writes n (put z v) (· = z) := ⟨hz, rfl⟩
theorem w_bSet : Writes n (bSet z x) (· = z) := fun _ => w_put hz
theorem w_bSetInt {v : Int} : Writes n (bSetInt z v) (· = z) := w_put hz
theorem w_bAdd : Writes n (bAdd z x y) (· = z) := fun _ _ => w_put hz
theorem w_bSub : Writes n (bSub z x y) (· = z) := fun _ _ => w_put hz
theorem w_bMul : Writes n (bMul z x y) (· = z) := fun _ _ => w_put hz
theorem w_bMod : Writes n (bMod z x y) (· = z) := fun _ _ => w_ite (fun _ => trivial) (fun _ => w_put hz)
theorem w_bLsh {k : Nat} : Writes n (bLsh z x k) (· = z) := fun _ => w_put hz
theorem w_bAnd : Writes n (bAnd z x y) (· = z) := fun _ _ => w_put hz
theorem w_bSetBit {k : Nat} : Writes n (bSetBit z x k) (· = z) := fun _ => w_put hz
theorem w_bModInverse : Writes n (bModInverse z x y) (fun o => ∀ p, o = some p → p = z) := by
  intro a b
  dsimp only
  cases modInverse a b with
  | none => intro p hp; cases hp
  | some v => exact ⟨hz, fun p hp => by cases hp; rfl⟩
end

attribute [local irreducible] new Store.get put lift bSet bSetInt bAdd bSub bMul bMod bLsh bAnd bSetBit bModInverse

/-- A step of a program that is an operation of math/big on a number that the program has allocated. -/
macro "wstep" : tactic => `(tactic| first
  | (refine Writes.bind w_new ?_; intro _ _)
  | (refine Writes.bind (w_get _) ?_; intro _ _)
  | (refine Writes.bind (w_bMul (by assumption)) ?_; intro a h; subst h)
  | (refine Writes.bind (w_bMod (by assumption)) ?_; intro a h; subst h)
  | (refine Writes.bind (w_bSub (by assumption)) ?_; intro a h; subst h)
  | (refine Writes.bind (w_bAdd (by assumption)) ?_; intro a h; subst h)
  | (refine Writes.bind (w_bLsh (by assumption)) ?_; intro a h; subst h)
  | (refine Writes.bind (w_bSet (by assumption)) ?_; intro a h; subst h)
  | (refine Writes.bind (w_bSetInt (by assumption)) ?_; intro a h; subst h)
  | (refine Writes.bind (w_bAnd (by assumption)) ?_; intro a h; subst h)
  | (refine Writes.bind (w_bSetBit (by assumption)) ?_; intro a h; subst h)
  | (refine Writes.bind (w_bModInverse (by assumption)) ?_; intro _ _)
  | (refine Writes.bind (w_lift _) ?_; intro _ _))

section
variable {n : Nat}

theorem w_uAdd (x y : Ptr) : Writes n (uAdd x y) (n ≤ ·) := by
  unfold uAdd
  repeat wstep
  exact w_pure (by assumption)
theorem w_uSub (x y : Ptr) : Writes n (uSub x y) (n ≤ ·) := by
  unfold uSub
  repeat wstep
  exact w_pure (by assumption)
theorem w_uMod (x y : Ptr) : Writes n (uMod x y) (n ≤ ·) := by
  unfold uMod
  repeat wstep
  exact w_pure (by assumption)
theorem w_uModInverse (x y : Ptr) : Writes n (uModInverse x y) (n ≤ ·) := by
  unfold uModInverse
  repeat wstep
  exact w_pure (by assumption)
theorem w_uMul (x y : Ptr) : Writes n (uMul x y) (n ≤ ·) := by
  unfold uMul
  repeat wstep
  exact w_pure (by assumption)
theorem w_uLsh (x : Ptr) (k : Nat) : Writes n (uLsh x k) (n ≤ ·) := by
  unfold uLsh
  repeat wstep
  exact w_pure (by assumption)
theorem w_uSetBit (x : Ptr) (k : Nat) : Writes n (uSetBit x k) (n ≤ ·) := by
  unfold uSetBit
  repeat wstep
  exact w_pure (by assumption)
theorem w_uAnd (x y : Ptr) : Writes n (uAnd x y) (n ≤ ·) := by
  unfold uAnd
  repeat wstep
  exact w_pure (by assumption)
theorem w_uIsInfinity (x y : Ptr) : Writes n (uIsInfinity x y) (fun _ => True) := by
  unfold uIsInfinity
  repeat wstep
  exact w_pure trivial

theorem w_fixSign (c : CurvePtrs) {v : Ptr} (hv : n ≤ v) : Writes n (fixSignM c v) (fun _ => True) := by
  unfold fixSignM
  wstep
  refine w_ite (fun _ => ?_) (fun _ => w_pure trivial)
  wstep
  exact w_pure trivial

/-- New numbers, as many as there are coordinates. -/
def Own2 (n : Nat) (s : Ptr × Ptr) : Prop := n ≤ s.1 ∧ n ≤ s.2
def Own3 (n : Nat) (s : Ptr × Ptr × Ptr) : Prop := n ≤ s.1 ∧ n ≤ s.2.1 ∧ n ≤ s.2.2

macro "wfix" : tactic => `(tactic| first | wstep | (refine Writes.bind (w_fixSign _ (by assumption)) ?_; intro _ _))

theorem w_double (c : CurvePtrs) (x y z : Ptr) : Writes n (doubleJacobianM c x y z) (Own3 n) := by
  unfold doubleJacobianM
  repeat wfix
  exact w_pure ⟨by assumption, by assumption, by assumption⟩

theorem w_add' (c : CurvePtrs) {x3 y3 z3 : Ptr} (hx : n ≤ x3) (hy : n ≤ y3) (hz : n ≤ z3) (x1 y1 z1 x2 y2 z2 : Ptr) :
    Writes n (addJacobianM' c x3 y3 z3 x1 y1 z1 x2 y2 z2) (Own3 n) := by
  unfold addJacobianM'
  repeat wfix
  refine w_ite (fun _ => w_double c x1 y1 z1) (fun _ => ?_)
  repeat wfix
  exact w_pure ⟨by assumption, by assumption, by assumption⟩

theorem w_addJacobian (c : CurvePtrs) (x1 y1 z1 x2 y2 z2 : Ptr) : Writes n (addJacobianM c x1 y1 z1 x2 y2 z2) (Own3 n) := by
  unfold addJacobianM
  repeat wstep
  refine w_ite (fun _ => ?_) (fun _ => ?_)
  · repeat wstep
    exact w_pure ⟨by assumption, by assumption, by assumption⟩
  · wstep
    refine w_ite (fun _ => ?_) (fun _ => ?_)
    · repeat wstep
      exact w_pure ⟨by assumption, by assumption, by assumption⟩
    · exact w_add' c (by assumption) (by assumption) (by assumption) x1 y1 z1 x2 y2 z2

theorem w_affine (c : CurvePtrs) (x y z : Ptr) : Writes n (affineFromJacobianM c x y z) (Own2 n) := by
  unfold affineFromJacobianM
  wstep
  refine w_ite (fun _ => ?_) (fun _ => ?_)
  · repeat wstep
    exact w_pure ⟨by assumption, by assumption⟩
  · wstep
    refine Writes.bind (w_bModInverse (by assumption)) ?_
    intro o ho
    cases o with
    | none => exact w_panic _
    | some zinv =>
      repeat wstep
      exact w_pure ⟨by assumption, by assumption⟩

theorem w_zForAffine (x y : Ptr) : Writes n (zForAffineM x y) (n ≤ ·) := by
  unfold zForAffineM
  repeat wstep
  refine w_ite (fun _ => ?_) (fun _ => w_pure (by assumption))
  refine Writes.mono ?_ (w_bSetInt (by assumption))
  rintro _ rfl
  assumption

theorem w_add (c : CurvePtrs) (x1 y1 x2 y2 : Ptr) : Writes n (addM c x1 y1 x2 y2) (Own2 n) := by
  unfold addM
  refine Writes.bind (w_zForAffine _ _) fun _ _ => Writes.bind (w_zForAffine _ _) fun _ _ => Writes.bind (w_addJacobian c _ _ _ _ _ _) fun r _ => ?_
  exact w_affine c _ _ _

theorem w_scalarBits (c : CurvePtrs) (Bx By Bz : Ptr) : ∀ (k : Nat) (byte : Byte) (s : Ptr × Ptr × Ptr), Own3 n s →
    Writes n (scalarBitsM c Bx By Bz k byte s) (Own3 n)
  | 0, _, _, hs => hs
  | k + 1, byte, s, _ => by
    unfold scalarBitsM
    refine Writes.bind (w_double c _ _ _) fun s hs => w_ite (fun _ => ?_) (fun _ => ?_)
    · exact Writes.bind (w_addJacobian c _ _ _ _ _ _) fun s hs => w_scalarBits c Bx By Bz k _ s hs
    · exact Writes.bind (w_pure (Q := Own3 n) hs) fun s hs => w_scalarBits c Bx By Bz k _ s hs

theorem w_scalarBytes (c : CurvePtrs) (Bx By Bz : Ptr) : ∀ (k : Bytes) (s : Ptr × Ptr × Ptr), Own3 n s → Writes n (scalarBytesM c Bx By Bz k s) (Own3 n)
  | [], _, hs => hs
  | byte :: k, s, hs => Writes.bind (w_scalarBits c Bx By Bz 8 byte s hs) fun s hs => w_scalarBytes c Bx By Bz k s hs

theorem w_scalarMult (c : CurvePtrs) (Bx By : Ptr) (k : Bytes) : Writes n (scalarMultM c Bx By k) (Own2 n) := by
  unfold scalarMultM
  repeat wstep
  refine Writes.bind (w_scalarBytes c _ _ _ k _ ⟨by assumption, by assumption, by assumption⟩) fun s _ => ?_
  exact w_affine c _ _ _

theorem w_scalarBaseMult (c : CurvePtrs) (k : Bytes) : Writes n (scalarBaseMultM c k) (Own2 n) := w_scalarMult c _ _ k
end
end Verif.EC.Store

namespace Verif.Sm2.Store
open Verif EC EC.Store
variable {n : Nat}

theorem w_newInt (v : Int) : Writes n (newInt v) (n ≤ ·) := by
  unfold newInt
  wstep
  refine Writes.mono ?_ (w_bSetInt (by assumption))
  rintro _ rfl
  assumption

attribute [local irreducible] new EC.Store.get put lift bSet bSetInt bAdd bSub bMul bMod bLsh bAnd bSetBit bModInverse newInt uAdd uSub uMod uMul uModInverse
  uLsh uSetBit uAnd uIsInfinity scalarMultM scalarBaseMultM addM

/-- A step of a program that is an operation of the package. -/
macro "sstep" : tactic => `(tactic| first
  | wstep
  | (refine Writes.bind (w_newInt _) ?_; intro _ _)
  | (refine Writes.bind (w_uAdd _ _) ?_; intro _ _)
  | (refine Writes.bind (w_uSub _ _) ?_; intro _ _)
  | (refine Writes.bind (w_uMod _ _) ?_; intro _ _)
  | (refine Writes.bind (w_uMul _ _) ?_; intro _ _)
  | (refine Writes.bind (w_uModInverse _ _) ?_; intro _ _)
  | (refine Writes.bind (w_uLsh _ _) ?_; intro _ _)
  | (refine Writes.bind (w_uSetBit _ _) ?_; intro _ _)
  | (refine Writes.bind (w_uAnd _ _) ?_; intro _ _)
  | (refine Writes.bind (w_uIsInfinity _ _) ?_; intro _ _)
  | (refine Writes.bind (w_scalarBaseMult _ _) ?_; intro _ _)
  | (refine Writes.bind (w_scalarMult _ _ _ _) ?_; intro _ _)
  | (refine Writes.bind (w_add _ _ _ _ _) ?_; intro _ _))

theorem w_forLoop {σ α : Type} {body : σ → M (σ ⊕ α)} {Q : α → Prop} (h : ∀ s, Writes n (body s) (fun r => ∀ a, r = .inr a → Q a)) :
    ∀ (fuel : Nat) (s : σ), Writes n (forLoopM body fuel s) Q
  | 0, _ => w_loop _
  | fuel + 1, s => by
    unfold forLoopM
    refine Writes.bind (h s) ?_
    intro r hr
    cases r with
    | inl s' => exact w_forLoop h fuel s'
    | inr a => exact w_pure (hr a rfl)

theorem w_ellipticGenerateKey (c : CurvePtrs) : ∀ tape : Tape, Writes n (ellipticGenerateKey c tape) (fun r => Own2 n r.2)
  | [] => w_loop _
  | none :: _ => w_err _ _
  | some raw :: rest => by
    unfold ellipticGenerateKey
    repeat sstep
    refine w_ite (fun _ => w_ellipticGenerateKey c rest) (fun _ => ?_)
    refine Writes.bind (w_scalarBaseMult _ _) ?_
    intro p hp
    exact w_pure hp

/-- The numbers of the keys are new. -/
def OwnPriv (n : Nat) (k : PrivKey) : Prop := n ≤ k.D
def OwnPub (n : Nat) (k : PubKey) : Prop := n ≤ k.X ∧ n ≤ k.Y

theorem w_generateKey (g : Globals) (tape : Tape) : Writes n (generateKey g tape) (fun r => OwnPriv n r.1 ∧ OwnPub n r.2) := by
  unfold generateKey
  refine Writes.bind (w_ellipticGenerateKey _ tape) ?_
  intro r hr
  sstep
  exact w_pure ⟨by assumption, hr⟩

theorem w_rawBytesToPublicKey (g : Globals) (b : Bytes) : Writes n (rawBytesToPublicKey g b) (OwnPub n) := by
  unfold rawBytesToPublicKey
  refine w_ite (fun _ => w_err _ _) (fun _ => ?_)
  repeat sstep
  exact w_pure ⟨by assumption, by assumption⟩

theorem w_rawBytesToPrivateKey (g : Globals) (b : Bytes) : Writes n (rawBytesToPrivateKey g b) (OwnPriv n) := by
  unfold rawBytesToPrivateKey
  refine w_ite (fun _ => w_err _ _) (fun _ => ?_)
  repeat sstep
  exact w_pure (by assumption)

theorem w_calculatePubKey (k : PrivKey) : Writes n (calculatePubKey k) (OwnPub n) := by
  unfold calculatePubKey
  wstep
  refine Writes.bind (w_scalarBaseMult _ _) ?_
  intro p hp
  exact w_pure hp

theorem w_randLoop {p max : Ptr} (hp : n ≤ p) (b : Nat) : ∀ tape : Tape, Writes n (randLoop p max b tape) (fun r => n ≤ r.1)
  | [] => w_loop _
  | none :: _ => w_err _ _
  | some bytes :: rest => by
    unfold randLoop
    repeat sstep
    exact w_ite (fun _ => w_pure hp) (fun _ => w_randLoop hp b rest)

theorem w_randInt (max : Ptr) (tape : Tape) : Writes n (randInt max tape) (fun r => n ≤ r.1) := by
  unfold randInt
  repeat sstep
  exact w_randLoop (by assumption) _ tape

theorem w_nextK (tape : Tape) (max : Ptr) : Writes n (nextK tape max) (fun r => n ≤ r.1) := by
  unfold nextK
  sstep
  refine w_forLoop (fun t => ?_) _ _
  refine Writes.bind (w_randInt max t) ?_
  intro r hr
  repeat sstep
  refine w_ite (fun _ => w_pure ?_) (fun _ => w_pure ?_)
  · intro a ha; cases ha; exact hr
  · intro a ha; cases ha

theorem w_encryptLoop (pub : PubKey) (inp : Bytes) (tape : Tape) : Writes n (encryptLoop pub inp tape) (fun _ => True) := by
  unfold encryptLoop
  refine w_forLoop (fun t => ?_) _ _
  refine Writes.bind (w_nextK _ _) ?_
  intro r hr
  repeat sstep
  exact w_ite (fun _ => w_pure fun _ _ => trivial) (fun _ => w_pure fun _ _ => trivial)

theorem w_encrypt (pub : PubKey) (inp : Bytes) (ct : Int) (tape : Tape) : Writes n (encrypt pub inp ct tape) (fun _ => True) := by
  unfold encrypt
  refine Writes.bind (w_encryptLoop pub inp tape) ?_
  intro r _
  repeat sstep
  exact w_ite (fun _ => w_pure trivial) (fun _ => w_ite (fun _ => w_pure trivial) (fun _ => w_err _ _))

theorem w_isOnCurve (c : CurvePtrs) (x y : Ptr) : Writes n (isOnCurveM c x y) (fun _ => True) := by
  unfold isOnCurveM
  repeat sstep
  exact w_pure trivial

theorem w_unmarshal (c : CurvePtrs) (data : Bytes) : Writes n (unmarshalM c data) (fun _ => True) := by
  unfold unmarshalM
  refine w_ite (fun _ => w_pure trivial) (fun _ => w_ite (fun _ => w_pure trivial) (fun _ => ?_))
  repeat sstep
  refine w_ite (fun _ => w_pure trivial) (fun _ => Writes.bind (w_isOnCurve _ _ _) fun _ _ => ?_)
  exact w_ite (fun _ => w_pure trivial) (fun _ => w_pure trivial)

theorem w_decrypt (g : Globals) (priv : PrivKey) (inp : Bytes) (ct : Int) : Writes n (decrypt g priv inp ct) (fun _ => True) := by
  unfold decrypt
  sstep
  refine Writes.bind (w_unmarshal _ _) ?_
  intro o _
  cases o with
  | none => exact w_panic _
  | some p =>
    dsimp only
    unfold decryptPoint
    repeat sstep
    refine w_ite (fun _ => w_err _ _) (fun _ => ?_)
    repeat sstep
    exact w_lift _

theorem w_getZ (c : SmCurve) (x y : Ptr) (uid : Bytes) : Writes n (getZ c x y uid) (fun _ => True) := by
  unfold getZ
  repeat sstep
  exact w_lift _

theorem w_calculateE (c : SmCurve) (x y : Ptr) (uid src : Bytes) : Writes n (calculateE c x y uid src) (n ≤ ·) := by
  unfold calculateE
  refine Writes.bind (w_getZ _ _ _ _) ?_
  intro _ _
  sstep
  exact w_newInt _

theorem w_marshalSign (r s : Ptr) : Writes n (marshalSign r s) (fun _ => True) := by
  unfold marshalSign
  repeat sstep
  exact w_lift _

theorem w_unmarshalSign (sig : Bytes) : Writes n (unmarshalSign sig) (Own2 n) := by
  unfold unmarshalSign
  repeat sstep
  exact w_pure ⟨by assumption, by assumption⟩

theorem w_signInner (priv : PrivKey) (e z : Ptr) (tape : Tape) : Writes n (signInner priv e z tape) (fun r => n ≤ r.1 ∧ n ≤ r.2.1) := by
  unfold signInner
  refine w_forLoop (fun t => ?_) _ _
  refine Writes.bind (w_nextK _ _) ?_
  intro r hr
  repeat sstep
  refine w_ite (fun _ => w_pure ?_) (fun _ => w_pure ?_)
  · intro a ha; cases ha; exact ⟨hr, by assumption⟩
  · intro a ha; cases ha

theorem w_signToRS (priv : PrivKey) (uid : Option Bytes) (inp : Bytes) (tape : Tape) : Writes n (signToRS priv uid inp tape) (Own2 n) := by
  unfold signToRS
  repeat sstep
  refine Writes.bind (w_calculateE _ _ _ _ _) ?_
  intro _ _
  repeat sstep
  refine w_forLoop (fun t => ?_) _ _
  refine Writes.bind (w_signInner _ _ _ _) ?_
  intro r hr
  repeat sstep
  refine w_ite (fun _ => w_pure ?_) (fun _ => w_pure ?_)
  · intro a ha; cases ha; exact ⟨hr.2, by assumption⟩
  · intro a ha; cases ha

theorem w_sign (priv : PrivKey) (uid : Option Bytes) (inp : Bytes) (tape : Tape) : Writes n (sign priv uid inp tape) (fun _ => True) :=
  Writes.bind (w_signToRS priv uid inp tape) fun _ _ => w_marshalSign _ _

theorem w_verifyByRS (pub : PubKey) (uid : Option Bytes) (src : Bytes) (r s : Ptr) : Writes n (verifyByRS pub uid src r s) (fun _ => True) := by
  unfold verifyByRS
  repeat sstep
  refine w_ite (fun _ => w_pure trivial) (fun _ => ?_)
  repeat sstep
  refine w_ite (fun _ => w_pure trivial) (fun _ => ?_)
  refine Writes.bind (w_calculateE _ _ _ _ _) ?_
  intro _ _
  repeat sstep
  refine w_ite (fun _ => w_pure trivial) (fun _ => ?_)
  repeat sstep
  refine w_ite (fun _ => w_pure trivial) (fun _ => ?_)
  repeat sstep
  exact w_pure trivial

theorem w_verify (pub : PubKey) (uid : Option Bytes) (src sig : Bytes) : Writes n (verify pub uid src sig) (fun _ => True) := by
  unfold verify
  refine Writes.bind (w_attempt (w_unmarshalSign sig)) ?_
  intro o _
  cases o with
  | none => trivial
  | some rs => exact w_verifyByRS _ _ _ _ _

theorem w_reduce (x : Ptr) (w : Nat) : Writes n (reduce x w) (n ≤ ·) := by
  unfold reduce
  repeat sstep
  exact w_uSetBit _ _

theorem w_calculateU (g : Globals) (w : Nat) (a b : PrivKey) (c d e : PubKey) : Writes n (calculateU g w a b c d e) (Own2 n) := by
  unfold calculateU
  refine Writes.bind (w_reduce _ _) fun _ _ => Writes.bind (w_reduce _ _) fun _ _ => ?_
  repeat sstep
  exact w_add _ _ _ _ _

theorem w_readPub (k : PubKey) : Writes n (readPub k) (fun _ => True) := by
  unfold readPub
  repeat sstep
  exact w_pure trivial

theorem w_exchange (g : Globals) (ini : Bool) (bits : Int) (tag : Option Bytes) (a b : PrivKey) (sid : Option Bytes) (c d : PubKey) (oid : Option Bytes) :
    Writes n (calculateKeyWithConfirmation g ini bits tag a b sid c d oid) (fun _ => True) := by
  unfold calculateKeyWithConfirmation
  refine w_ite (fun _ => w_err _ _) (fun _ => ?_)
  refine Writes.bind (w_calculatePubKey _) fun _ _ => Writes.bind (w_getZ _ _ _ _) fun _ _ => Writes.bind (w_getZ _ _ _ _) fun _ _ =>
    Writes.bind (w_calculatePubKey _) fun _ _ => Writes.bind (w_calculateU _ _ _ _ _ _ _) fun _ _ => ?_
  repeat sstep
  refine Writes.bind (w_readPub _) fun _ _ => Writes.bind (w_readPub _) fun _ _ => ?_
  exact w_ite (fun _ => w_lift _) (fun _ => w_lift _)

end Verif.Sm2.Store
