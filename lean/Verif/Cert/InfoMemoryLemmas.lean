import Verif.Cert.InfoMemory
import Verif.Cert.MemoryLemmas
/-! Lemmas on certificates to be signed in memory. -/
namespace Verif.Cert
open Verif Verif.Der

variable {U : Type}

theorem get_grown {h h' : Heap} {s : Slice} (hs : s.arr < h.length) (hp : h <+: h') : s.get h' = s.get h := by
  obtain ⟨l, rfl⟩ := hp
  unfold Slice.get
  rw [List.getElem?_append_left hs]

theorem alloc_get (h : Heap) (bs : Bytes) : (alloc h bs).1.get (alloc h bs).2 = bs := by
  simp [alloc, Slice.get]

theorem alloc_grows (h : Heap) (bs : Bytes) : h <+: (alloc h bs).2 := List.prefix_append _ _

theorem alloc_arr (h : Heap) (bs : Bytes) : (alloc h bs).1.arr = h.length := rfl

theorem alloc_length (h : Heap) (bs : Bytes) : (alloc h bs).2.length = h.length + 1 := by simp [alloc]

theorem allocAll_ok (es : List Extension) : ∀ h : Heap,
    h <+: (allocAll h es).2 ∧ (allocAll h es).1.map (fun e => e.view (allocAll h es).2) = es ∧
      ∀ e ∈ (allocAll h es).1, h.length ≤ e.value.arr ∧ e.value.arr < (allocAll h es).2.length := by
  induction es with
  | nil => intro h; exact ⟨List.prefix_refl _, rfl, by simp [allocAll]⟩
  | cons e es ih =>
    intro h
    obtain ⟨i1, i2, i3⟩ := ih (alloc h e.value).2
    have hl : (alloc h e.value).1.arr < (alloc h e.value).2.length := by rw [alloc_arr, alloc_length]; omega
    refine ⟨(alloc_grows h e.value).trans i1, ?_, ?_⟩
    · simp only [allocAll, List.map_cons]
      rw [i2]
      unfold ExtMem.view
      dsimp only
      rw [get_grown hl i1, alloc_get]
    · intro x hx
      simp only [allocAll, List.mem_cons] at hx ⊢
      rcases hx with rfl | hx
      · exact ⟨Nat.le_refl _, Nat.lt_of_lt_of_le hl i1.length_le⟩
      · have := i3 x hx
        rw [alloc_length] at this
        exact ⟨by omega, this.2⟩

/-- What `subjectBytes` returns in memory. -/
structure SubjectOk (h : Heap) (raw : Slice) (b : Bytes) (r : Slice × Heap) : Prop where
  get : r.1.get r.2 = b
  grows : h <+: r.2
  lt : r.1.arr < r.2.length
  place : (raw.len > 0 ∧ r.1 = raw) ∨ (raw.len = 0 ∧ h.length ≤ r.1.arr)

theorem subjectBytesAt_sim {h : Heap} {raw : Slice} (n : Name) (hv : raw.Valid h) :
    Sim (SubjectOk h raw) (subjectBytes (raw.get h) n) (subjectBytesAt h raw n) := by
  unfold subjectBytes subjectBytesAt
  have hf : (raw.get h).length = raw.len := full_of_valid hv
  rw [hf]
  by_cases h0 : raw.len > 0
  · rw [if_pos h0, if_pos h0]
    exact ⟨rfl, List.prefix_refl _, hv.lt, .inl ⟨h0, rfl⟩⟩
  · rw [if_neg h0, if_neg h0]
    refine ok_sim (f := fun b => alloc h b) fun b _ => ⟨alloc_get h b, alloc_grows h b, ?_, .inr ⟨by omega, Nat.le_refl _⟩⟩
    rw [alloc_arr, alloc_length]; omega

/-- The slices of the arguments denote windows of existing arrays. -/
structure ArgsValid (m : Memory) (t p : TemplateMem U) (q : ReqMem U) : Prop where
  tSubject : t.rawSubject.Valid m.heap
  tSubjectKeyId : t.subjectKeyId.Valid m.heap
  tAuthorityKeyId : t.authorityKeyId.Valid m.heap
  tExtra : ∀ e ∈ t.extra, e.value.Valid m.heap
  pSubject : p.rawSubject.Valid m.heap
  pSubjectKeyId : p.subjectKeyId.Valid m.heap
  spki : q.rawSPKI.Valid m.heap

theorem valid_grown {h h' : Heap} {s : Slice} (hs : s.Valid h) (hp : h <+: h') : s.Valid h' := by
  obtain ⟨l, rfl⟩ := hp
  obtain ⟨h1, a, h2, h3⟩ := hs
  exact ⟨h1, a, by rw [List.getElem?_append_left (Slice.Valid.lt ⟨h1, a, h2, h3⟩)]; exact h2, h3⟩

theorem extra_view_grown {h h' : Heap} {es : List ExtMem} (hv : ∀ e ∈ es, e.value.Valid h) (hp : h <+: h') :
    es.map (fun e => e.view h') = es.map fun e => e.view h := by
  refine List.map_congr_left fun e he => ?_
  unfold ExtMem.view
  rw [get_grown (hv e he).lt hp]

theorem template_view_grown {m m' : Memory} {t : TemplateMem U} (h1 : t.rawSubject.Valid m.heap) (h2 : t.subjectKeyId.Valid m.heap)
    (h3 : t.authorityKeyId.Valid m.heap) (h4 : ∀ e ∈ t.extra, e.value.Valid m.heap) (hp : m.heap <+: m'.heap) (hi : m'.ints = m.ints) :
    t.view m' = t.view m := by
  unfold TemplateMem.view
  rw [get_grown h1.lt hp, get_grown h2.lt hp, get_grown h3.lt hp, extra_view_grown h4 hp, hi]

theorem buildExtensions_extra {env : Env U} {t : X509Cert U} {b : Bool} {a : Bytes} {all : List Extension}
    (h : buildExtensions env t b a = .ok all) : ∃ own, all = own ++ t.extraExtensions := by
  unfold buildExtensions at h
  simp only [Res.bind_eq_ok, Res.ok.injEq] at h
  obtain ⟨_, _, _, _, _, _, _, _, _, _, _, _, _, _, _, _, _, _, own, _, h⟩ := h
  exact ⟨own, h.symm⟩

/-- What `buildExtensions` returns in memory. -/
structure ExtsOk (h : Heap) (extra : List ExtMem) (all : List Extension) (r : List ExtMem × Heap) : Prop where
  get : r.1.map (fun e => e.view r.2) = all
  grows : h <+: r.2
  place : ∃ own, r.1 = own ++ extra ∧ ∀ e ∈ own, h.length ≤ e.value.arr ∧ e.value.arr < r.2.length

theorem buildExtensionsAt_sim (env : Env U) {m : Memory} {t : TemplateMem U} (b : Bool) (a : Slice)
    (hv : ∀ e ∈ t.extra, e.value.Valid m.heap) :
    Sim (ExtsOk m.heap t.extra) (buildExtensions env (t.view m) b (a.get m.heap)) (buildExtensionsAt env m t b a) := by
  unfold buildExtensionsAt
  refine ok_sim (f := fun all : List Extension => ((allocAll m.heap (all.take (all.length - t.extra.length))).1 ++ t.extra,
    (allocAll m.heap (all.take (all.length - t.extra.length))).2)) fun all hall => ?_
  obtain ⟨own, rfl⟩ := buildExtensions_extra hall
  have he : (t.view m).extraExtensions = t.extra.map fun e => e.view m.heap := rfl
  have hl : (own ++ (t.view m).extraExtensions).take ((own ++ (t.view m).extraExtensions).length - t.extra.length) = own := by
    rw [he, List.length_append, List.length_map, Nat.add_sub_cancel, List.take_left]
  rw [hl]
  obtain ⟨i1, i2, i3⟩ := allocAll_ok own m.heap
  exact ⟨by rw [List.map_append, i2, extra_view_grown hv i1, he], i1, _, rfl, i3⟩

/-- What `CreateCertificateInfo` returns in memory. -/
structure InfoOk (m : Memory) (t p : TemplateMem U) (q : ReqMem U) (tbs : TbsCert) (c : InfoMem) (m' : Memory) : Prop where
  view : c.view m' = tbs
  ints : m'.ints = m.ints
  grows : m.heap <+: m'.heap
  raw : m.heap.length ≤ c.raw.arr ∧ c.raw.arr < m'.heap.length
  rawOnly : c.raw.arr ≠ c.issuer.arr ∧ c.raw.arr ≠ c.subject.arr ∧ c.raw.arr ≠ c.spki.arr ∧
    ∀ e ∈ c.extensions, c.raw.arr ≠ e.value.arr
  serial : t.serial = some c.serial
  issuer : (p.rawSubject.len > 0 ∧ c.issuer = p.rawSubject) ∨ (p.rawSubject.len = 0 ∧ m.heap.length ≤ c.issuer.arr)
  subject : (t.rawSubject.len > 0 ∧ c.subject = t.rawSubject) ∨ (t.rawSubject.len = 0 ∧ m.heap.length ≤ c.subject.arr)
  spki : c.spki.In q.rawSPKI 0 ∧ c.spki.len = q.rawSPKI.len
  extensions : ∃ own, c.extensions = own ++ t.extra ∧ ∀ e ∈ own, m.heap.length ≤ e.value.arr
  content : marshal tyTbsCert { tbs with raw := [] } = .ok tbs.raw

theorem createCertificateInfoAt_sim (env : Env U) {m : Memory} {t p : TemplateMem U} {q : ReqMem U} (hv : ArgsValid m t p q) :
    Sim (fun tbs r => InfoOk m t p q tbs r.1 r.2) (createCertificateInfo env (t.view m) (p.view m) (q.view m.heap))
      (createCertificateInfoAt env m t p q) := by
  unfold createCertificateInfo createCertificateInfoAt
  have hser : (t.view m).serialNumber = t.serial.map fun p => (m.ints[p]?).getD 0 := rfl
  rw [hser]
  cases hs : t.serial with
  | none => rfl
  | some serial =>
    simp only [Option.map_some]
    refine (subjectBytesAt_sim p.kept.subject hv.pSubject).bind fun issuer i _ hi => ?_
    have hsub : (t.view m).rawSubject = t.rawSubject.get i.2 := (get_grown hv.tSubject.lt hi.grows).symm
    rw [hsub]
    refine (subjectBytesAt_sim t.kept.subject (valid_grown hv.tSubject hi.grows)).bind fun subject s _ hsb => ?_
    have g2 : m.heap <+: s.2 := hi.grows.trans hsb.grows
    have ei : i.1.get s.2 = issuer := by rw [get_grown hi.lt hsb.grows, hi.get]
    have es : s.1.get s.2 = subject := hsb.get
    have hview : t.view ⟨s.2, m.ints⟩ = t.view m :=
      template_view_grown hv.tSubject hv.tSubjectKeyId hv.tAuthorityKeyId hv.tExtra g2 rfl
    rw [ei, es]
    have hpk : (p.view m).subjectKeyId.length = p.subjectKeyId.len := full_of_valid hv.pSubjectKeyId
    have hak : (if issuer ≠ subject ∧ (p.view m).subjectKeyId.length > 0 then (p.view m).subjectKeyId else (t.view m).authorityKeyId) =
        (if issuer ≠ subject ∧ p.subjectKeyId.len > 0 then p.subjectKeyId else t.authorityKeyId).get s.2 := by
      rw [hpk]
      split
      · exact (get_grown hv.pSubjectKeyId.lt g2).symm
      · exact (get_grown hv.tAuthorityKeyId.lt g2).symm
    rw [hak, ← hview]
    refine (buildExtensionsAt_sim env (m := ⟨s.2, m.ints⟩) _ _ fun e he => valid_grown (hv.tExtra e he) g2).bind fun exts x _ hx => ?_
    have g3 : m.heap <+: x.2 := g2.trans hx.grows
    have hq : (q.view m.heap).rawSPKI = q.rawSPKI.get x.2 := (get_grown hv.spki.lt g3).symm
    rw [hq]
    refine (spkiAt_sim (full_of_valid (valid_grown hv.spki g3))).bind fun k l _ hk => ?_
    obtain ⟨⟨kv, kr, kp⟩, kraw⟩ := hk
    have hr' : l.rest.len = k.2.length := by rw [← kr]; exact kp.fullRest.symm
    rw [hr']
    by_cases h0 : k.2.length ≠ 0
    · rw [if_pos h0, if_pos h0]; rfl
    · rw [if_neg h0, if_neg h0]
      have hlarr : l.elem.arr = q.rawSPKI.arr := kp.elem.arr
      have hkv : k.1 = { l.val with raw := l.elem.get x.2 } := by
        rw [← kraw, ← kv]; rfl
      have hI : i.1.get x.2 = issuer := by
        rw [get_grown (Nat.lt_of_lt_of_le hi.lt hsb.grows.length_le) hx.grows, ei]
      have hS : s.1.get x.2 = subject := by rw [get_grown hsb.lt hx.grows, es]
      generalize hc : (⟨⟨0, 0, 0, 0⟩, serial, i.1, s.1, l.elem, x.1,
        { version := 2, sigAlg := sigAlgSM3WithSM2, publicKey := l.val
          validity := ⟨toUTC t.kept.notBefore, toUTC t.kept.notAfter⟩ }⟩ : InfoMem) = c
      have hcv : c.view ⟨x.2, m.ints⟩ = {
          version := 2
          serial := (m.ints[serial]?).getD 0
          sigAlg := sigAlgSM3WithSM2
          issuer := { fullBytes := issuer }
          validity := ⟨toUTC t.kept.notBefore, toUTC t.kept.notAfter⟩
          subject := { fullBytes := subject }
          publicKey := k.1
          extensions := some exts } := by
        rw [← hc]
        simp only [InfoMem.view, hI, hS, hx.get, hkv]
        simp [Slice.get]
      show Sim _ (marshal tyTbsCert _ >>= _) (marshal tyTbsCert (c.view ⟨x.2, m.ints⟩) >>= _)
      rw [hcv]
      refine Sim.bind (Sim.refl _) fun b b' hb e => ?_
      subst e
      have g4 : m.heap <+: (alloc x.2 b).2 := g3.trans (alloc_grows x.2 b)
      have xlt : ∀ e ∈ x.1, e.value.arr < x.2.length := by
        obtain ⟨own, e1, e2⟩ := hx.place
        intro e he
        rw [e1, List.mem_append] at he
        rcases he with he | he
        · exact (e2 e he).2
        · exact Nat.lt_of_lt_of_le (hv.tExtra e he).lt g3.length_le
      have ilt : i.1.arr < x.2.length := Nat.lt_of_lt_of_le hi.lt (hsb.grows.trans hx.grows).length_le
      have slt : s.1.arr < x.2.length := Nat.lt_of_lt_of_le hsb.lt hx.grows.length_le
      have llt : l.elem.arr < x.2.length := by rw [hlarr]; exact Nat.lt_of_lt_of_le hv.spki.lt g3.length_le
      refine ⟨?_, rfl, g4, ⟨g3.length_le, by rw [alloc_length]; exact Nat.lt_succ_self _⟩, ?_, ?_, ?_, ?_, ?_, ?_, ?_⟩
      · simp only [InfoMem.view]
        rw [alloc_get, get_grown ilt (alloc_grows x.2 b), get_grown slt (alloc_grows x.2 b), get_grown llt (alloc_grows x.2 b), hI, hS, hkv]
        congr 2
        rw [← hx.get]
        exact List.map_congr_left fun e he => by
          unfold ExtMem.view
          rw [get_grown (xlt e he) (alloc_grows x.2 b)]
      · simp only [alloc_arr]
        exact ⟨by omega, by omega, by omega, fun e he => by have := xlt e he; omega⟩
      · exact hs
      · exact hi.place
      · rcases hsb.place with h | ⟨h1, h2⟩
        · exact .inl h
        · exact .inr ⟨h1, Nat.le_trans hi.grows.length_le h2⟩
      · refine ⟨kp.elem, ?_⟩
        have := kp.all
        dsimp only
        omega
      · obtain ⟨own, e1, e2⟩ := hx.place
        exact ⟨own, e1, fun e he => Nat.le_trans g2.length_le (e2 e he).1⟩
      · exact hb

end Verif.Cert
