import Verif.Lemmas.StillTwice

/-!
# `UnwrapShapes` on a model that is unwrapped
-/

namespace GoRaml.Still

open GoRaml GoRaml.Spec GoRaml.Load GoRaml.Whole

theorem Idle.cleared {t t' : St} (h : t'.bases = t.bases) (h2 : t'.pmaps = t.pmaps) (h3 : t'.ppmaps = t.ppmaps) (h4 : t'.slices = t.slices) {a : Addr} (i : Idle t a) : Idle t' a := by
  rcases i with ⟨b, hb, h5⟩ | c
  · exact .inl ⟨b, by rw [← hb]; simp only [St.base, h], h5⟩
  · exact .inr (c.same h h2 h3 h4)

/-- How unwrapping the model again ends. -/
structure Repeat (s : St) (r : Out Unit) (t : St) : Prop where
  noPanic : ∀ e, r ≠ .panic e
  noDiv : r ≠ .diverge
  same : StillSame s t
  shapes : ∀ x ∈ t.shapes, s.bases.length ≤ x
  ok : AnnotationsHome s → r = .ok ()

theorem unwrapShapes_again {s : St} (hs : Settled s) {fs fs' : List FragRef} (hf : fs.Perm (s.fragments.map (·.2))) (hf' : fs'.Perm (s.fragments.map (·.2)))
    (hi : ∀ f ∈ fs', ∀ a ∈ typesOf s f, Idle s a) (hx : ∀ d ∈ s.domainExts, ∃ a b, d.definedBy = some a ∧ s.base a = some b) :
    ∃ N r t, (∀ n, N ≤ n → unwrapShapes n fs fs' s = (r, t)) ∧ Repeat s r t := by
  have hs0 : Settled (cleared s) := ⟨hs.named, hs.done, hs.there, hs.dts⟩
  have h1 : ∃ t1, Tab (cleared s) t1 ∧ (∀ i l, FragRef.library i ∈ fs → s.libs[i]? = some l → l.annotationTypes ≠ [] → OMap.get t1.fragAnnotationTypes l.location ≠ none) ∧
      ∀ n, unwrapFragments (n + 1) fs (cleared s) = (.ok (), t1) := by
    obtain ⟨t1, e, r, k⟩ := unwrapFragments_again (n := 0) fs (cleared s) hs0 fun f hm => hf.mem_iff.1 hm
    refine ⟨t1, r, k, fun n => ?_⟩
    rw [Flat.unwrapFragments_at (show 0 + 1 ≤ n + 1 by omega) fs (cleared s) (by rw [e]; simp), e]
  obtain ⟨t1, r1, k1, e1⟩ := h1
  have hi1 : ∀ f ∈ fs', ∀ a ∈ typesOf t1 f, Idle t1 a := fun f hfs a ha => by
    refine Idle.cleared (t := s) (by rw [r1.rest]; rfl) (by rw [r1.rest]; rfl) (by rw [r1.rest]; rfl) (by rw [r1.rest]; rfl) (hi f hfs a ?_)
    rw [r1.rest] at ha
    exact ha
  obtain ⟨N, t2, e2, g⟩ := markFragments_again (hs0.tab r1) (fs := fs') (fun f hm => by rw [r1.fragments]; exact hf'.mem_iff.1 hm) hi1
  have hx2 : ∀ d ∈ t2.domainExts, ∃ a b, d.definedBy = some a ∧ t2.base a = some b := fun d hd => by
    rw [g.grown.exts, r1.rest] at hd
    obtain ⟨a, b, h1, h2⟩ := hx d hd
    obtain ⟨q, v, h3, _⟩ := g.inv.marked.old a b (by rw [r1.base]; exact h2)
    exact ⟨a, _, h1, h3⟩
  have r := unwrapDomainExtensions_run hx2
  refine ⟨N + 1, (unwrapDomainExtensions t2).1, (unwrapDomainExtensions t2).2, fun n hn => ?_, ⟨r.noPanic, r.noDiv, ?_, ?_, ?_⟩⟩
  · obtain ⟨n, rfl⟩ : ∃ k, n = k + 1 := ⟨n - 1, by omega⟩
    show (M.bind (unwrapFragments (n + 1) fs) fun _ => M.bind (markFragments (n + 1) fs') fun _ => unwrapDomainExtensions) (cleared s) = _
    rw [M.bind_of_ok (e1 n), M.bind_of_ok (e2 (n + 1) (by omega))]
  · obtain ⟨e, h1, h2, _⟩ := r.same
    rw [h1]
    have hb := g.grown
    have q := r1.rest
    rw [q] at hb
    exact ⟨hb.bases, hb.pmaps, by show _ <+: t2.ppmaps; rw [hb.ppmaps]; exact List.prefix_rfl, by show _ <+: t2.slices; rw [hb.slices]; exact List.prefix_rfl, hb.fmaps, hb.dts, hb.libs, hb.fragments,
      by
        have h3 : t2.domainExts = s.domainExts := hb.exts
        rw [← h3]; exact h2⟩
  · obtain ⟨e, h1, _⟩ := r.same
    rw [h1]
    intro x hx
    obtain ⟨l, h3, h4⟩ := g.grown.shapes
    have h5 : t1.shapes = [] := by rw [r1.rest]; rfl
    have h6 : t1.bases = s.bases := by rw [r1.rest]; rfl
    rw [h5, List.nil_append] at h3
    rw [← h6]
    exact h4 x (h3 ▸ hx)
  · intro hh
    cases ho : (unwrapDomainExtensions t2).1 with
    | ok _ => rfl
    | diverge => exact absurd ho r.noDiv
    | panic e => exact absurd ho (r.noPanic e)
    | err e =>
      obtain ⟨i, _, d, a, b, h1, h2, h3, h4⟩ := r.fails e ho
      have hd : d ∈ s.domainExts := by
        have := List.mem_of_getElem? h1
        rw [g.grown.exts, r1.rest] at this
        exact this
      obtain ⟨a', b', k, j, l, q1, q2, q3, q4, q5, q6⟩ := hh d hd
      rw [h2] at q1; cases q1
      obtain ⟨q, v, q7, _⟩ := g.inv.marked.old a b' (by rw [r1.base]; exact q2)
      rw [h3] at q7; cases q7
      rw [g.grown.anns] at h4
      exact absurd (q5 ▸ h4) (k1 j l (hf.mem_iff.2 (List.mem_map_of_mem (f := (·.2)) q3)) q4 q6)

end GoRaml.Still
