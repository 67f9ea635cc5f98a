import Verif.Cert.TypesRT
import Verif.Cert.High
/-!
# Subject alternative names, helper lemmas
-/
namespace Verif.Cert
open Verif Verif.Der Verif.Spec.DER Verif.Spec.Cert

variable {U σ : Type}

/-! ## The loop -/

/-- The callback on a list of tags and contents. -/
def runItems (cb : σ → Nat → Bytes → Res σ) : List (Nat × Bytes) → σ → Res σ
  | [], s => .ok s
  | (t, c) :: l, s => do
    let s ← cb s t c
    runItems cb l s

theorem runItems_append (cb : σ → Nat → Bytes → Res σ) (l m : List (Nat × Bytes)) : ∀ s,
    runItems cb (l ++ m) s = (do let s ← runItems cb l s; runItems cb m s) := by
  induction l with
  | nil => intro s; rfl
  | cons x l ih =>
    intro s
    obtain ⟨t, c⟩ := x
    rw [List.cons_append, runItems, runItems]
    cases cb s t c with
    | ok s' => rw [Res.ok_bind, Res.ok_bind]; exact ih s'
    | err _ => rfl
    | panic => rfl
    | loop => rfl

theorem sanLoop_items (cb : σ → Nat → Bytes → Res σ) : ∀ (items : List (Nat × Bytes)) (fuel : Nat) (s : σ),
    (∀ x ∈ items, x.1 < 31 ∧ x.2.length < 2 ^ 31) →
    (items.flatMap fun x => elem (idOctet 2 x.1 false) x.2).length ≤ fuel →
    sanLoop cb fuel (items.flatMap fun x => elem (idOctet 2 x.1 false) x.2) s = runItems cb items s := by
  intro items
  induction items with
  | nil => intro fuel s _ _; cases fuel <;> rfl
  | cons x items ih =>
    intro fuel s h hf
    obtain ⟨t, c⟩ := x
    obtain ⟨h1, h2⟩ := h (t, c) (by simp)
    rw [List.flatMap_cons] at hf ⊢
    dsimp only at *
    rw [List.length_append] at hf
    cases fuel with
    | zero => simp [elem] at hf
    | succ fuel =>
      have hu : unmarshal tyRaw (elem (idOctet 2 t false) c ++ items.flatMap fun x => elem (idOctet 2 x.1 false) x.2) = _ :=
        parseField_raw (p := {}) _ rfl rfl (by decide) h1 h2
      obtain ⟨b, bs, hb⟩ : ∃ b bs, elem (idOctet 2 t false) c ++ (items.flatMap fun x => elem (idOctet 2 x.1 false) x.2) = b :: bs := ⟨_, _, rfl⟩
      rw [hb] at hu ⊢
      rw [sanLoop_cons, hu, Res.ok_bind, runItems]
      dsimp only
      have hlen : 0 < (elem (idOctet 2 t false) c).length := by simp [elem]
      cases cb s t c with
      | ok s' => rw [Res.ok_bind, Res.ok_bind]; exact ih fuel s' (fun x hx => h x (by simp [hx])) (by omega)
      | err _ => rfl
      | panic => rfl
      | loop => rfl

/-! ## What `marshalSANs` writes -/

/-- Tags and contents of the names. -/
def sanItems (env : Env U) (dns emails ips : List Bytes) (uris : List U) : List (Nat × Bytes) :=
  dns.map (fun v => (2, v)) ++ emails.map (fun v => (1, v)) ++ ips.map (fun v => (7, (to4 v).getD v)) ++
    uris.map (fun u => (6, env.urlString u))

theorem sanValues_items (env : Env U) (dns emails ips : List Bytes) (uris : List U) :
    sanValues env dns emails ips uris = (sanItems env dns emails ips uris).map fun x => ({ tag := x.1, cls := 2, bytes := x.2 } : RawValue) := by
  simp [sanValues, sanItems, List.map_append, Function.comp_def]

theorem makeElems_items (l : List (Nat × Bytes)) :
    makeElems tyRaw (l.map fun x => ({ tag := x.1, cls := 2, bytes := x.2 } : RawValue)) =
      .ok (l.flatMap fun x => makeElem 2 x.1 false x.2) := by
  induction l with
  | nil => rfl
  | cons x l ih =>
    rw [List.map_cons, makeElems, raw_parts_make rfl, Res.ok_bind, ih, Res.ok_bind, List.flatMap_cons]

theorem marshalSANs_ok (env : Env U) (dns emails ips : List Bytes) (uris : List U) :
    marshalSANs env dns emails ips uris = .ok (makeElem 0 16 true ((sanItems env dns emails ips uris).flatMap fun x => makeElem 2 x.1 false x.2)) := by
  unfold marshalSANs
  rw [sanValues_items]
  show makeTagged {} 16 true false (fun _ => false) (makeElems tyRaw _) = _
  rw [makeElems_items]
  rfl

theorem flatMap_length_mem {α : Type} {f : α → Bytes} {l : List α} {a : α} (h : a ∈ l) : (f a).length ≤ (l.flatMap f).length := by
  rw [List.flatMap_def]
  exact length_le_flatten (List.mem_map_of_mem h)

/-- The encoding, when it is not too long. -/
theorem marshalSANs_elem {env : Env U} {dns emails ips : List Bytes} {uris : List U} {v : Bytes}
    (h : marshalSANs env dns emails ips uris = .ok v) (hl : v.length < 2 ^ 31) :
    v = elem 0x30 ((sanItems env dns emails ips uris).flatMap fun x => elem (idOctet 2 x.1 false) x.2) ∧
    ((sanItems env dns emails ips uris).flatMap fun x => elem (idOctet 2 x.1 false) x.2).length < 2 ^ 31 ∧
    ∀ x ∈ sanItems env dns emails ips uris, x.1 < 31 ∧ x.2.length < 2 ^ 31 := by
  rw [marshalSANs_ok] at h
  simp only [Res.ok.injEq] at h
  subst h
  obtain ⟨h1, h2⟩ := makeElem_lt hl
  have h3 : ∀ x ∈ sanItems env dns emails ips uris, x.2.length < 2 ^ 31 ∧ makeElem 2 x.1 false x.2 = elem (idOctet 2 x.1 false) x.2 := by
    intro x hx
    have := flatMap_length_mem (f := fun x : Nat × Bytes => makeElem 2 x.1 false x.2) hx
    exact makeElem_lt (by omega)
  have h4 : ((sanItems env dns emails ips uris).flatMap fun x => makeElem 2 x.1 false x.2) =
      (sanItems env dns emails ips uris).flatMap fun x => elem (idOctet 2 x.1 false) x.2 :=
    List.flatMap_congr fun x hx => (h3 x hx).2
  rw [h4] at h1 h2
  refine ⟨by rw [h4]; exact h2, h1, fun x hx => ⟨?_, (h3 x hx).1⟩⟩
  simp only [sanItems, List.mem_append, List.mem_map] at hx
  rcases hx with ((⟨_, _, rfl⟩ | ⟨_, _, rfl⟩) | ⟨_, _, rfl⟩) | ⟨_, _, rfl⟩ <;> dsimp only <;> omega

/-- How the encoding is read. -/
theorem forEachSAN_marshal {env : Env U} {dns emails ips : List Bytes} {uris : List U} {v : Bytes}
    (h : marshalSANs env dns emails ips uris = .ok v) (hl : v.length < 2 ^ 31) (cb : σ → Nat → Bytes → Res σ) (s : σ) :
    forEachSAN v cb s = runItems cb (sanItems env dns emails ips uris) s := by
  obtain ⟨rfl, h1, h2⟩ := marshalSANs_elem h hl
  unfold forEachSAN
  have hu := parseField_raw (p := {}) (cls := 0) (tag := 16) (cmp := true) [] rfl rfl (by decide) (by decide) h1
  rw [List.append_nil] at hu
  rw [show unmarshal tyRaw (elem 0x30 _) = _ from hu, Res.ok_bind]
  dsimp only
  rw [if_neg (by simp), if_neg (by simp)]
  exact sanLoop_items cb _ _ s h2 (Nat.le_refl _)

/-! ## The four segments -/

theorem runItems_dns (env : Env U) : ∀ (l : List Bytes) (s : Sans U),
    runItems (sanCallback env) (l.map fun v => (2, v)) s = .ok { s with dnsNames := s.dnsNames ++ l } := by
  intro l
  induction l with
  | nil => intro s; simp [runItems]
  | cons a l ih =>
    intro s
    rw [List.map_cons, runItems, show sanCallback env s 2 a = .ok { s with dnsNames := s.dnsNames ++ [a] } from rfl, Res.ok_bind, ih]
    simp

theorem runItems_email (env : Env U) : ∀ (l : List Bytes) (s : Sans U),
    runItems (sanCallback env) (l.map fun v => (1, v)) s = .ok { s with emailAddresses := s.emailAddresses ++ l } := by
  intro l
  induction l with
  | nil => intro s; simp [runItems]
  | cons a l ih =>
    intro s
    rw [List.map_cons, runItems, show sanCallback env s 1 a = .ok { s with emailAddresses := s.emailAddresses ++ [a] } from rfl, Res.ok_bind, ih]
    simp

theorem runItems_ip (env : Env U) : ∀ (l : List Bytes) (s s' : Sans U),
    runItems (sanCallback env) (l.map fun v => (7, v)) s = .ok s' ↔
      (∀ v ∈ l, v.length = 4 ∨ v.length = 16) ∧ s' = { s with ipAddresses := s.ipAddresses ++ l } := by
  intro l
  induction l with
  | nil => intro s s'; obtain ⟨a, b, c, d⟩ := s; simp [runItems, eq_comm]
  | cons a l ih =>
    intro s s'
    rw [List.map_cons, runItems]
    have : sanCallback env s 7 a = if a.length = 4 ∨ a.length = 16 then .ok { s with ipAddresses := s.ipAddresses ++ [a] }
      else .err "x509: cannot parse IP address" := rfl
    rw [this, List.forall_mem_cons]
    by_cases hv : a.length = 4 ∨ a.length = 16
    · rw [if_pos hv, Res.ok_bind, ih]
      simp [hv]
    · rw [if_neg hv, Res.err_bind]
      simp [hv]

/-- The URI in a name, if it is accepted. -/
def acceptURI (env : Env U) (v : Bytes) : Option U :=
  (env.parseURL v).filter fun u => (env.urlHost u).length = 0 ∨ domainToReverseLabels (env.urlHost u) ≠ none

theorem sanCallback_uri (env : Env U) (s : Sans U) (v : Bytes) (s' : Sans U) :
    sanCallback env s 6 v = .ok s' ↔ ∃ u, acceptURI env v = some u ∧ s' = { s with uris := s.uris ++ [u] } := by
  have : sanCallback env s 6 v = match env.parseURL v with
    | none => .err "x509: cannot parse URI"
    | some uri =>
      if (env.urlHost uri).length > 0 ∧ domainToReverseLabels (env.urlHost uri) = none then
        .err "x509: cannot parse URI: invalid domain"
      else .ok { s with uris := s.uris ++ [uri] } := rfl
  rw [this]
  unfold acceptURI
  cases env.parseURL v with
  | none => simp
  | some u =>
    dsimp only
    by_cases hu : (env.urlHost u).length > 0 ∧ domainToReverseLabels (env.urlHost u) = none
    · rw [if_pos hu]
      have : ¬ ((env.urlHost u).length = 0 ∨ domainToReverseLabels (env.urlHost u) ≠ none) := by
        rintro (h | h)
        · omega
        · exact h hu.2
      simp only [Option.filter, this, decide_false, Bool.false_eq_true, if_false, reduceCtorEq, false_and, exists_false]
    · rw [if_neg hu]
      have : (env.urlHost u).length = 0 ∨ domainToReverseLabels (env.urlHost u) ≠ none := by
        by_contra h
        push Not at h
        exact hu ⟨by omega, h.2⟩
      simp only [Option.filter, this, decide_true, if_true, Res.ok.injEq, Option.some.injEq, exists_eq_left']
      exact eq_comm

theorem runItems_uri (env : Env U) : ∀ (l : List Bytes) (s s' : Sans U),
    runItems (sanCallback env) (l.map fun v => (6, v)) s = .ok s' ↔
      ∃ us, List.Forall₂ (fun v u => acceptURI env v = some u) l us ∧ s' = { s with uris := s.uris ++ us } := by
  intro l
  induction l with
  | nil => intro s s'; obtain ⟨a, b, c, d⟩ := s; simp [runItems, eq_comm]
  | cons a l ih =>
    intro s s'
    rw [List.map_cons, runItems, Res.bind_eq_ok]
    constructor
    · rintro ⟨x, h1, h2⟩
      obtain ⟨u, h3, rfl⟩ := (sanCallback_uri env s a x).1 h1
      obtain ⟨us, h4, rfl⟩ := (ih _ _).1 h2
      exact ⟨u :: us, .cons h3 h4, by simp⟩
    · rintro ⟨us, h1, rfl⟩
      cases h1 with
      | cons h2 h3 =>
        exact ⟨_, (sanCallback_uri env s a _).2 ⟨_, h2, rfl⟩, (ih _ _).2 ⟨_, h3, by simp⟩⟩

/-- The whole extension, in all cases. -/
theorem parseSAN_marshal {env : Env U} {dns emails ips : List Bytes} {uris : List U} {v : Bytes} (s : Sans U)
    (h : marshalSANs env dns emails ips uris = .ok v) (hl : v.length < 2 ^ 31) :
    parseSANExtension env v = .ok s ↔
      (∀ ip ∈ ips, ip.length = 4 ∨ ip.length = 16) ∧
      ∃ us, List.Forall₂ (fun u u' => acceptURI env (env.urlString u) = some u') uris us ∧
        s = ⟨dns, emails, ips.map fun ip => (to4 ip).getD ip, us⟩ := by
  unfold parseSANExtension
  rw [forEachSAN_marshal h hl]
  unfold sanItems
  rw [runItems_append, runItems_append, runItems_append, runItems_dns, Res.ok_bind, runItems_email, Res.ok_bind]
  have e1 : ips.map (fun v => ((7 : Nat), (to4 v).getD v)) = (ips.map fun v => (to4 v).getD v).map fun v => (7, v) := by simp
  have e2 : uris.map (fun u => ((6 : Nat), env.urlString u)) = (uris.map env.urlString).map fun v => (6, v) := by simp
  have hlen : ∀ ip : Bytes, ((to4 ip).getD ip).length = 4 ∨ ((to4 ip).getD ip).length = 16 ↔ ip.length = 4 ∨ ip.length = 16 := by
    intro ip
    unfold to4
    split
    · rename_i h; simp [h]
    · split
      · rename_i h; simp [h]
      · simp
  have hall : (∀ v ∈ ips.map (fun v => (to4 v).getD v), v.length = 4 ∨ v.length = 16) ↔ ∀ ip ∈ ips, ip.length = 4 ∨ ip.length = 16 := by
    simp only [List.forall_mem_map, hlen]
  rw [Res.bind_eq_ok, e1, e2]
  simp only [List.nil_append]
  constructor
  · rintro ⟨x, h1, h2⟩
    obtain ⟨h3, rfl⟩ := (runItems_ip _ _ _ _).1 h1
    obtain ⟨us, h4, rfl⟩ := (runItems_uri _ _ _ _).1 h2
    refine ⟨hall.1 h3, us, ?_, by simp⟩
    rwa [List.forall₂_map_left_iff] at h4
  · rintro ⟨h1, us, h2, rfl⟩
    refine ⟨_, (runItems_ip _ _ _ _).2 ⟨hall.2 h1, rfl⟩, (runItems_uri _ _ _ _).2 ⟨us, ?_, by simp⟩⟩
    rwa [List.forall₂_map_left_iff]

/-! ## Any extension -/

/-- What the loop has read: elements with any tags. -/
theorem sanLoop_sound {cb : σ → Nat → Bytes → Res σ} : ∀ {fuel : Nat} {bs : Bytes} {s s' : σ},
    sanLoop cb fuel bs s = .ok s' →
    ∃ items : List (Nat × Bool × Nat × Bytes × Bytes), (∀ x ∈ items, IsTLV x.1 x.2.1 x.2.2.1 x.2.2.2.1 x.2.2.2.2) ∧
      bs = items.flatMap (fun x => x.2.2.2.2) ∧ runItems cb (items.map fun x => (x.2.2.1, x.2.2.2.1)) s = .ok s' := by
  intro fuel
  induction fuel with
  | zero =>
    intro bs s s' h
    cases bs with
    | nil => exact ⟨[], by simp, rfl, h⟩
    | cons b bs => simp [sanLoop] at h
  | succ fuel ih =>
    intro bs s s' h
    cases bs with
    | nil => exact ⟨[], by simp, rfl, h⟩
    | cons b bs =>
      rw [sanLoop_cons, Res.bind_eq_ok] at h
      obtain ⟨⟨v, rest⟩, h1, h⟩ := h
      rw [Res.bind_eq_ok] at h
      obtain ⟨s1, h2, h3⟩ := h
      obtain ⟨items, g1, rfl, g3⟩ := ih h3
      obtain ⟨k1, k2, k3⟩ := parseField_raw_sound h1
      refine ⟨(v.cls, v.isCompound, v.tag, v.bytes, v.fullBytes) :: items, ?_, ?_, ?_⟩
      · rw [List.forall_mem_cons]; exact ⟨k1, g1⟩
      · rw [List.flatMap_cons]; exact k2
      · rw [List.map_cons, runItems, h2, Res.ok_bind]; exact g3

end Verif.Cert
