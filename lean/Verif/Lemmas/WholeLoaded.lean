import Verif.Lemmas.LoadParse
import Verif.Lemmas.WholeExt

/-!
# A loaded model is well-formed, and unwrapping keeps it so
-/

namespace GoRaml.Whole

open GoRaml GoRaml.Spec GoRaml.Load

variable {K : Par}

/-- The tables are filled anew by unwrapping. -/
def cleared (s : St) : St := { s with fragTypes := [], fragAnnotationTypes := [], shapes := [] }

theorem unwrapShapes_cleared (n : Nat) (fs fs' : List FragRef) (s : St) : unwrapShapes n fs fs' s = unwrapShapes n fs fs' (cleared s) := rfl

theorem loaded_wf {E : Env} {s : St} (h : Load.Loaded E s) (hsh : ∀ a sh, s.shapeAt a = some sh → (∀ f, sh ≠ .unknown f) → ShapeFine K sh)
    (hb : ∀ a b, s.base a = some b → BaseVals K b) (hm : ∀ m ∈ s.fmaps, ∀ e ∈ m, K.V e.2) : Wf K (cleared s) := by
  have g : Longer s (cleared s) := ⟨Nat.le_refl _, Nat.le_refl _, Nat.le_refl _, Nat.le_refl _, Nat.le_refl _, Nat.le_refl _, Nat.le_refl _, Nat.le_refl _⟩
  refine ⟨fun a b hab => ⟨(h.w.base a b hab).mono g, ?_, hb a b hab⟩, h.w.props, h.w.patProps, h.w.slices, hm, fun l hl => ?_, fun d hd => ?_, fun d hd a ha => ?_,
    fun _ h => by cases h⟩
  · obtain ⟨sh, h1, h2, h3⟩ := h.typed hab
    exact ⟨sh, h1, hsh a sh (by simp [St.shapeAt, show s.base a = some b from hab, h1]) fun f hf => h3 (by rw [hf]; rfl)⟩
  · obtain ⟨i, hi⟩ := List.mem_iff_getElem?.1 hl
    exact (h.w.lib i l hi).mono g
  · obtain ⟨i, hi⟩ := List.mem_iff_getElem?.1 hd
    exact (h.w.dt i d hi).mono g
  · obtain ⟨i, hi⟩ := List.mem_iff_getElem?.1 hd
    obtain ⟨a', h1, h2⟩ := h.exts i d hi
    rw [ha] at h1; cases h1
    exact (getReferenced_isBase (s := s) h.w (fun l hl => hl.annotationTypes) h2 : IsBase s _)

theorem loaded_there {E : Env} {s : St} (h : Load.Loaded E s) {fs : List FragRef} (hf : ∀ f ∈ fs, ∃ k, (k, f) ∈ s.fragments) : ∀ f ∈ fs, FragThere (cleared s) f := by
  intro f hm
  obtain ⟨k, hk⟩ := hf f hm
  have := h.w.frags _ hk
  cases f with
  | library i => obtain ⟨l, hl, _⟩ := this; exact (List.getElem?_eq_some_iff.1 hl).1
  | dataType i => obtain ⟨l, hl, _⟩ := this; exact (List.getElem?_eq_some_iff.1 hl).1
  | namedExample i => trivial

theorem loaded_exts {E : Env} {s : St} (h : Load.Loaded E s) : ∀ d ∈ s.domainExts, ∃ a, d.definedBy = some a := by
  intro d hd
  obtain ⟨i, hi⟩ := List.mem_iff_getElem?.1 hd
  obtain ⟨a, h1, _⟩ := h.exts i d hi
  exact ⟨a, h1⟩

theorem Wf.wellFormed {s : St} (hw : Wf K s) : WellFormed s := by
  intro a b hb
  obtain ⟨k, ⟨sh, hs, _⟩, _⟩ := hw.base a b hb
  have hP : ∀ i, i < s.pmaps.length → PropsOK s i := fun i hi => ⟨_, List.getElem?_eq_getElem hi, hw.props _ (List.getElem_mem hi)⟩
  have hPP : ∀ i, i < s.ppmaps.length → PatPropsOK s i := fun i hi => ⟨_, List.getElem?_eq_getElem hi, hw.patProps _ (List.getElem_mem hi)⟩
  have hS : ∀ i, i < s.slices.length → SliceOK s i := fun i hi => ⟨_, List.getElem?_eq_getElem hi, hw.slices _ (List.getElem_mem hi)⟩
  refine ⟨⟨sh, hs, ?_⟩, fun i hi => ?_, fun i hi => hP i (k.facetDefs i hi), k.alias, fun i hi => hS i (k.inherits i hi), fun i hi => ?_⟩
  · have hk := k.shape sh hs
    cases sh with
    | array f => exact hk
    | object f => exact ⟨fun i hi => hP i (hk.1 i hi), fun i hi => hPP i (hk.2 i hi)⟩
    | union l e => exact fun i hi => hS i (hk i hi)
    | recursive x => exact hk
    | _ => trivial
  · obtain ⟨j, h1, h2⟩ := k.facets
    rw [hi] at h1; cases h1
    exact ⟨_, List.getElem?_eq_getElem h2⟩
  · have hlt := k.link i hi
    obtain ⟨a', h1, h2⟩ := (hw.dt _ (List.getElem_mem hlt)).shape
    exact ⟨_, a', List.getElem?_eq_getElem hlt, h1, h2⟩

theorem Wf.whole {s : St} (hw : Wf K s) (hf : ∀ e ∈ s.fragments, FragThere s e.2) : WholeModel s := by
  refine ⟨hw.wellFormed, fun a f h => ?_, fun k i h => ⟨_, List.getElem?_eq_getElem (hf _ h)⟩, fun k i h => ⟨_, List.getElem?_eq_getElem (hf _ h)⟩, fun l hl => ⟨(hw.lib l hl).types, (hw.lib l hl).annotationTypes⟩,
    fun d hd => (hw.dt d hd).shape, hw.exts⟩
  obtain ⟨b, hb, hbs⟩ := base_of_shape h
  obtain ⟨_, ⟨sh, h1, h2⟩, _⟩ := hw.base a b hb
  rw [hbs] at h1; cases h1
  exact h2

theorem KeptNames.outline {s s' : St} (h : KeptNames s s') : SameOutline s s' := ⟨h.fragments, h.libs, h.dts, h.exts⟩

/-- Unwrapping a loaded model. -/
theorem loaded_unwrap [K.Rec] {E : Env} {s : St} (h : Load.Loaded E s) (hsh : ∀ a sh, s.shapeAt a = some sh → (∀ f, sh ≠ .unknown f) → ShapeFine K sh)
    (hb : ∀ a b, s.base a = some b → BaseVals K b) (hm : ∀ m ∈ s.fmaps, ∀ e ∈ m, K.V e.2) (n : Nat) {fs fs' : List FragRef}
    (hf : ∀ f ∈ fs, ∃ k, (k, f) ∈ s.fragments) (hf' : ∀ f ∈ fs', ∃ k, (k, f) ∈ s.fragments) :
    Safe K.X (Wf K) KeptNames (unwrapShapes n fs fs') (cleared s) fun _ _ => True :=
  unwrapShapes_safe (loaded_wf h hsh hb hm) (loaded_there h hf) (loaded_there h hf') fun d hd => loaded_exts h d hd

end GoRaml.Whole
