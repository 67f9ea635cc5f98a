import Verif.Cert.Accept
/-!
# The loop over the extensions: helper lemmas
-/
namespace Verif.Cert
open Verif Verif.Der

variable {U : Type}

/-- What the extensions do not change. -/
def X509Cert.core (c : X509Cert U) : Bytes × Bytes × Bytes × Bytes × Bytes × Bytes × Option Sm2.PublicKey × Int × Option Int ×
    Name × Name × Time × Time × List Extension :=
  (c.raw, c.rawTBS, c.rawSPKI, c.rawSubject, c.rawIssuer, c.signature, c.publicKey, c.version, c.serialNumber, c.issuer,
    c.subject, c.notBefore, c.notAfter, c.extraExtensions)

/-- One extension changes neither the core nor the two lists. -/
theorem parseExtension_core {env : Env U} {out o : X509Cert U} {e : Extension} {u : Bool}
    (h : parseExtension env out e = .ok (o, u)) :
    o.core = out.core ∧ o.extensions = out.extensions ∧ o.unhandledCriticalExtensions = out.unhandledCriticalExtensions := by
  unfold parseExtension at h
  rcases ite_ok h with ⟨_, h⟩ | ⟨_, h⟩
  · rw [Res.bind_eq_ok] at h
    obtain ⟨_, _, h⟩ := h
    simp only [Res.ok.injEq, Prod.mk.injEq] at h
    rw [← h.1]; exact ⟨rfl, rfl, rfl⟩
  rcases ite_ok h with ⟨_, h⟩ | ⟨_, h⟩
  · rw [Res.bind_eq_ok] at h
    obtain ⟨_, _, h⟩ := h
    simp only [Res.ok.injEq, Prod.mk.injEq] at h
    rw [← h.1]; exact ⟨rfl, rfl, rfl⟩
  rcases ite_ok h with ⟨_, h⟩ | ⟨_, h⟩
  · rw [Res.bind_eq_ok] at h
    obtain ⟨_, _, h⟩ := h
    simp only [Res.ok.injEq, Prod.mk.injEq] at h
    rw [← h.1]; exact ⟨rfl, rfl, rfl⟩
  rcases ite_ok h with ⟨_, h⟩ | ⟨_, h⟩
  · rw [Res.bind_eq_ok] at h
    obtain ⟨_, _, h⟩ := h
    simp only [Res.ok.injEq, Prod.mk.injEq] at h
    rw [← h.1]; exact ⟨rfl, rfl, rfl⟩
  rcases ite_ok h with ⟨_, h⟩ | ⟨_, h⟩
  · rw [Res.bind_eq_ok] at h
    obtain ⟨_, _, h⟩ := h
    simp only [Res.ok.injEq, Prod.mk.injEq] at h
    rw [← h.1]; exact ⟨rfl, rfl, rfl⟩
  rcases ite_ok h with ⟨_, h⟩ | ⟨_, h⟩
  · rw [Res.bind_eq_ok] at h
    obtain ⟨_, _, h⟩ := h
    simp only [Res.ok.injEq, Prod.mk.injEq] at h
    rw [← h.1]; exact ⟨rfl, rfl, rfl⟩
  rcases ite_ok h with ⟨_, h⟩ | ⟨_, h⟩
  · rw [Res.bind_eq_ok] at h
    obtain ⟨_, _, h⟩ := h
    simp only [Res.ok.injEq, Prod.mk.injEq] at h
    rw [← h.1]; exact ⟨rfl, rfl, rfl⟩
  rcases ite_ok h with ⟨_, h⟩ | ⟨_, h⟩
  · rw [Res.bind_eq_ok] at h
    obtain ⟨_, _, h⟩ := h
    simp only [Res.ok.injEq, Prod.mk.injEq] at h
    rw [← h.1]; exact ⟨rfl, rfl, rfl⟩
  rcases ite_ok h with ⟨_, h⟩ | ⟨_, h⟩
  · rw [Res.bind_eq_ok] at h
    obtain ⟨_, _, h⟩ := h
    simp only [Res.ok.injEq, Prod.mk.injEq] at h
    rw [← h.1]; exact ⟨rfl, rfl, rfl⟩
  rcases ite_ok h with ⟨_, h⟩ | ⟨_, h⟩
  · rw [Res.bind_eq_ok] at h
    obtain ⟨_, _, h⟩ := h
    simp only [Res.ok.injEq, Prod.mk.injEq] at h
    rw [← h.1]; exact ⟨rfl, rfl, rfl⟩
  · simp only [Res.ok.injEq, Prod.mk.injEq] at h
    rw [← h.1]; exact ⟨rfl, rfl, rfl⟩

theorem parseExtensions_core (env : Env U) : ∀ (es : List Extension) (out o : X509Cert U), parseExtensions env es out = .ok o →
    o.core = out.core ∧ o.extensions = out.extensions ++ es := by
  intro es
  induction es with
  | nil => intro out o h; simp only [parseExtensions, Res.ok.injEq] at h; subst h; simp
  | cons e es ih =>
    intro out o h
    rw [parseExtensions, Res.bind_eq_ok] at h
    obtain ⟨⟨o1, u⟩, h1, h2⟩ := h
    obtain ⟨c1, c2, c3⟩ := parseExtension_core h1
    obtain ⟨d1, d2⟩ := ih _ _ h2
    rw [d1, d2]
    split
    · exact ⟨c1, by dsimp only; rw [c2]; simp⟩
    · exact ⟨c1, by rw [c2]; simp⟩

end Verif.Cert
