import Verif.Lemmas.TameNode
import Verif.Lemmas.LoadShape

/-!
# Parsing without panics: facets and types
-/

namespace GoRaml.Tame

open GoRaml GoRaml.Spec GoRaml.Load

variable {E : Env} {K : Vals E} {s : St} {Bad : St → Prop} {F : Addr → Prop}

/-- What the recursive calls do. -/
structure CallsOK (K : Vals E) (Bad : St → Prop) (c : Calls) : Prop where
  shape : ∀ v name loc s, Fit K s → Shaped v → TypeNode E loc v → Runs K Bad none_ (c.makeShape v name loc) s fun a s' => IsBase s' a
  type : ∀ p s, Fit K s → OnlyKind E p .dataType → Runs K Bad none_ (c.parseDataType p) s fun i s' => i < s'.dts.length
  lib : ∀ p s, Fit K s → OnlyKind E p .library → Runs K Bad none_ (c.parseLibrary p) s fun i s' => i < s'.libs.length

/-- The discriminator value of an object type. -/
def ShapeV (K : Vals E) (sh : Shape) : Prop := ∀ f, sh = .object f → K.V f.discriminatorValue

/-- A shape that may be stored in a base with a keyword as its type. -/
structure ShapeOK (K : Vals E) (s : St) (sh : Shape) : Prop where
  ptrs : ShapeIn s sh
  vals : ShapeV K sh
  known : ¬ IsUnknown sh

theorem ShapeOK.mono {s' : St} {sh : Shape} (h : ShapeOK K s sh) (l : Longer s s') : ShapeOK K s' sh := ⟨h.ptrs.mono l, h.vals, h.known⟩

theorem BaseFit.congr {b b' : Base} (h : BaseFit K s b) (h1 : b'.shape = b.shape) (h2 : b'.facets = b.facets) (h3 : b'.facetDefs = b.facetDefs) (h4 : b'.alias = b.alias)
    (h5 : b'.inherits = b.inherits) (h6 : b'.link = b.link) (h7 : b'.example_ = b.example_) (h8 : b'.examples = b.examples) (h9 : b'.default = b.default)
    (h10 : b'.location = b.location) (h11 : b'.type = b.type) : BaseFit K s b' where
  ptrs := ⟨h1 ▸ h.ptrs.shape, h2 ▸ h.ptrs.facets, h3 ▸ h.ptrs.facetDefs, h4 ▸ h.ptrs.alias, h5 ▸ h.ptrs.inherits, h6 ▸ h.ptrs.link⟩
  «example» := h7 ▸ h.example
  examples := h8 ▸ h.examples
  default := h9 ▸ h.default
  disc := h1 ▸ h.disc
  facets := by rw [h1, h10]; exact h.facets
  parents := by rw [h1, h11, h5]; exact h.parents
  known := by rw [h1, h11]; exact h.known

theorem Done.known {a : Addr} (hw : Fit K s) (hd : Done s a) {b : Base} (hb : s.base a = some b) : Known b.type := by
  obtain ⟨b', sh, h1, h2, h3⟩ := hd
  rw [hb] at h1; cases h1
  exact (hw.base a b hb).known sh h2 h3

theorem BaseFit.setShape {b : Base} {sh : Shape} (h : BaseFit K s b) (hk : Known b.type) (ho : ShapeOK K s sh) : BaseFit K s { b with shape := some sh } where
  ptrs := ⟨ifSome_some ho.ptrs, h.ptrs.facets, h.ptrs.facetDefs, h.ptrs.alias, h.ptrs.inherits, h.ptrs.link⟩
  «example» := h.example
  examples := h.examples
  default := h.default
  disc := fun f hf => ho.vals f (Option.some.inj hf)
  facets := fun fs hf => (ho.known ⟨_, Option.some.inj hf⟩).elim
  parents := fun fs hf => (ho.known ⟨_, Option.some.inj hf⟩).elim
  known := fun _ _ _ => hk

theorem Runs.setShape {a : Addr} {sh : Shape} (hw : Fit K s) (hF : F a) (hd : Done s a) (ho : ShapeOK K s sh) :
    Runs K Bad F (setShape a sh) s fun _ s' => Done s' a := by
  refine (Runs.upd (f := fun b => { b with shape := some sh }) hw hF (fun _ _ => rfl) fun b hb h => h.setShape (Done.known hw hd hb) ho).post fun _ s' _ _ e => ?_
  obtain ⟨b, _, hb, _⟩ := hd
  subst e
  exact ⟨_, sh, modify_base hb, rfl, ho.known⟩

/-- Bases outside `F` are unchanged, and resolved types stay so. -/
structure Keeps (F : Addr → Prop) (s s' : St) : Prop where
  dec : Dec F s s'
  res : Res s s'

theorem Keeps.refl {F : Addr → Prop} (s : St) : Keeps F s s := ⟨.refl s, .refl s⟩

theorem Keeps.trans {F : Addr → Prop} {s t u : St} (h : Keeps F s t) (k : Keeps F t u) : Keeps F s u := ⟨h.dec.trans k.dec, h.res.trans k.res⟩

theorem Dec.keeps {F : Addr → Prop} {s t : St} (h : Dec none_ s t) : Keeps F s t := ⟨h.wide, h.res fun _ h => h.elim⟩

theorem Dec.keepsAt {F : Addr → Prop} {s t : St} {a : Addr} (h : Dec (· = a) s t) (hF : F a) (hd : Done t a) : Keeps F s t :=
  ⟨h.weaken fun _ _ e => e ▸ hF, h.res fun _ e _ => by rw [e]; exact hd⟩

/-- Decoding into a resolved type. -/
abbrev Fills {α : Type} (K : Vals E) (Bad : St → Prop) (F : Addr → Prop) (m : M St α) (s : St) (Q : α → St → Prop) : Prop := Tame Bad (Fit K) (Keeps F) m s Q

theorem Fills.bind {α β : Type} {m : M St α} {f : α → M St β} {Q : α → St → Prop} {Q' : β → St → Prop} (h1 : Fills K Bad F m s Q)
    (h2 : ∀ x s', Fit K s' → Keeps F s s' → Q x s' → Fills K Bad F (f x) s' Q') : Fills K Bad F (M.bind m f) s Q' :=
  Tame.bind' h1 h2 (fun _ h => h) fun _ _ h k => h.trans k

theorem Fills.ret {α : Type} {x : α} {Q : α → St → Prop} (hw : Fit K s) (hq : Q x s) : Fills K Bad F (M.ret x) s Q := Tame.of rfl hw (.refl s) hq

theorem Fills.err {α : Type} {e : String} {Q : α → St → Prop} (hw : Fit K s) : Fills K Bad F (M.err e : M St α) s Q := ⟨hw, .refl s, trivial⟩

theorem Runs.fills {α : Type} {m : M St α} {Q : α → St → Prop} (h : Runs K Bad none_ m s Q) : Fills K Bad F m s Q := h.move fun _ _ h => h.keeps

theorem Fills.runs {α : Type} {m : M St α} {Q : α → St → Prop} (h : Fills K Bad F m s Q) : Runs K Bad F m s Q := h.move fun _ _ h => h.dec

/-- An assignment after which the base is resolved. -/
theorem Fills.upd {a : Addr} {f : Base → Base} (hw : Fit K s) (hF : F a) (hl : ∀ b, s.base a = some b → (f b).location = b.location)
    (hf : ∀ b, s.base a = some b → BaseFit K s b → BaseFit K s (f b)) (hd : Done { s with bases := s.bases.modify a f } a) :
    Fills K Bad F (Heap.updBase a f) s fun _ s' => s' = { s with bases := s.bases.modify a f } := by
  have := Runs.upd (K := K) (Bad := Bad) (F := (· = a)) hw rfl hl hf
  obtain ⟨h1, h2, h3⟩ := this.ok (x := ()) (s' := { s with bases := s.bases.modify a f }) rfl
  exact Tame.of rfl h1 (h2.keepsAt hF hd) rfl

theorem Fills.setShape {a : Addr} {sh : Shape} (hw : Fit K s) (hF : F a) (hd : Done s a) (ho : ShapeOK K s sh) :
    Fills K Bad F (setShape a sh) s fun _ s' => Done s' a := by
  have hd' : Done { s with bases := s.bases.modify a fun b => { b with shape := some sh } } a := by
    obtain ⟨b, _, hb, _⟩ := hd
    exact ⟨_, sh, modify_base hb, rfl, ho.known⟩
  refine (Fills.upd (f := fun b => { b with shape := some sh }) hw hF (fun _ _ => rfl) (fun b hb h => h.setShape (Done.known hw hd hb) ho) hd').post fun _ s' _ _ e => ?_
  rw [e]; exact hd'

/-- The base keeps being resolved if only its relatives change. -/
theorem Done.keep {a : Addr} {s' : St} (hd : Done s a) (d : Dec none_ s s') : Done s' a := d.done hd id

section
variable (hy : Yaml E) {c : Calls} (hc : CallsOK K Bad c)

include hc

theorem runs_arrayFacet {f : ArrayF} {loc k : String} {v : YNode} {m : M St ArrayF} (hv : Shaped v) (ht : k = "items" → TypeNode E loc v) (hf : IfSome (IsBase s) f.items) (hw : Fit K s)
    (hm : arrayFacet E c loc f k v = some m) : Runs K Bad none_ m s fun f' s' => IfSome (IsBase s') f'.items := by
  unfold arrayFacet at hm
  by_cases h1 : k = "minItems"
  · rw [if_pos h1] at hm; cases hm
    exact Runs.gets hw (Gets.bind (P := fun _ => True) (Q := fun f' : ArrayF => IfSome (IsBase s) f'.items) calm_orErr fun _ _ => hf) fun _ h => h
  rw [if_neg h1] at hm
  by_cases h2 : k = "maxItems"
  · rw [if_pos h2] at hm; cases hm
    exact Runs.gets hw (Gets.bind (P := fun _ => True) (Q := fun f' : ArrayF => IfSome (IsBase s) f'.items) calm_orErr fun _ _ => hf) fun _ h => h
  rw [if_neg h2] at hm
  by_cases h3 : k = "items"
  · rw [if_pos h3] at hm; cases hm
    exact Runs.bind (hc.shape v "items" loc s hw hv (ht h3)) fun a s' hw' _ hq => Runs.ret hw' (ifSome_some hq)
  rw [if_neg h3] at hm
  by_cases h4 : k = "uniqueItems"
  · rw [if_pos h4] at hm; cases hm
    exact Runs.gets hw (Gets.bind (P := fun _ => True) (Q := fun f' : ArrayF => IfSome (IsBase s) f'.items) calm_orErr fun _ _ => hf) fun _ h => h
  rw [if_neg h4] at hm; cases hm

theorem runs_makeDeclared {loc n : String} {v : YNode} (hv : Shaped v) (ht : TypeNode E loc v) (hw : Fit K s) :
    Runs K Bad none_ (makeDeclared E c loc n v) s fun d s' => match d with | .property p => IsBase s' p.base | .pattern _ p => IsBase s' p.base := by
  unfold makeDeclared
  refine Runs.bind (hc.shape v n loc s hw hv ht) fun a s1 hw1 _ ha => ?_
  refine Runs.bind (Runs.getBase hw1 ha) fun b s2 hw2 _ ⟨e, _⟩ => ?_
  subst e
  refine Runs.lift hw1 (fun e => ?_) fun d hd => ?_
  · unfold declareProperty
    simp only [Out.bind]
    split
    · split
      · simp
      · split <;> simp
    · simp
  unfold declareProperty at hd
  simp only [Out.bind] at hd
  split at hd
  · split at hd
    · cases hd
    · split at hd
      · cases hd; exact ha
      · cases hd
  · cases hd
    show IsBase _ (nameProperty _ _ _ _ _).base
    unfold nameProperty
    split <;> exact ha

theorem runs_unmarshalProperty {loc n : String} {v : YNode} {f : ObjectF} (hv : Shaped v) (ht : TypeNode E loc v) (hf : ShapeIn s (.object f)) (hd : K.V f.discriminatorValue) (hw : Fit K s) :
    Runs K Bad none_ (unmarshalProperty E c loc n v f) s fun f' s' => ShapeIn s' (.object f') ∧ K.V f'.discriminatorValue := by
  have hmono : ∀ {s1 : St}, Longer s s1 → ShapeIn s1 (.object f) := fun l => ShapeIn.mono l hf
  unfold unmarshalProperty
  split
  · have h0 : Runs K Bad none_ (ensurePatProps f.patternProperties) s (fun i s' => i < s'.ppmaps.length) := by
      unfold ensurePatProps
      cases hp : f.patternProperties with
      | some i => exact Runs.ret hw (hf.2 i hp)
      | none => exact (Runs.newPatProps hw (by simp)).post fun _ _ _ _ h => h.1
    refine Runs.bind h0 fun i s1 hw1 g1 hi => ?_
    refine Runs.bind (runs_makeDeclared hc hv ht hw1) fun d s2 hw2 g2 hd2 => ?_
    cases d with
    | property p => exact Runs.ret hw2 ⟨hmono (g1.trans g2).grown.longer, hd⟩
    | pattern k p =>
      refine Runs.bind (Runs.setPatProp hw2 hd2) fun _ s3 hw3 g3 _ => Runs.ret hw3 ⟨?_, hd⟩
      exact ⟨(hmono ((g1.trans g2).trans g3).grown.longer).1, ifSome_some (Nat.lt_of_lt_of_le hi (g2.trans g3).grown.longer.ppmaps)⟩
  · have h0 : Runs K Bad none_ (ensureProps f.properties) s (fun i s' => i < s'.pmaps.length) := by
      unfold ensureProps
      cases hp : f.properties with
      | some i => exact Runs.ret hw (hf.1 i hp)
      | none => exact (Runs.newProps hw (by simp)).post fun _ _ _ _ h => h.1
    refine Runs.bind h0 fun i s1 hw1 g1 hi => ?_
    refine Runs.bind (runs_makeDeclared hc hv ht hw1) fun d s2 hw2 g2 hd2 => ?_
    cases d with
    | pattern k p => exact Runs.ret hw2 ⟨hmono (g1.trans g2).grown.longer, hd⟩
    | property p =>
      refine Runs.bind (Runs.setProp hw2 hd2) fun _ s3 hw3 g3 _ => Runs.ret hw3 ⟨?_, hd⟩
      exact ⟨ifSome_some (Nat.lt_of_lt_of_le hi (g2.trans g3).grown.longer.pmaps), (hmono ((g1.trans g2).trans g3).grown.longer).2⟩

theorem runs_unmarshalProperties {loc : String} : ∀ (l : List YNode) (f : ObjectF) (s : St), (∀ u ∈ l, Shaped u) → (∀ k u, Entry k u l → TypeNode E loc u) → ShapeIn s (.object f) →
    K.V f.discriminatorValue → Fit K s →
    Runs K Bad none_ (unmarshalProperties E c loc l f) s fun f' s' => ShapeIn s' (.object f') ∧ K.V f'.discriminatorValue
  | [], f, s, _, _, hf, hd, hw => Runs.ret hw ⟨hf, hd⟩
  | [_], f, s, _, _, hf, hd, hw => Runs.ret hw ⟨hf, hd⟩
  | k :: v :: rest, f, s, hl, ht, hf, hd, hw => by
    unfold unmarshalProperties
    refine Runs.bind (runs_unmarshalProperty hc (hl v (by simp)) (ht _ _ .here) hf hd hw) fun f' s' hw' _ hf' => ?_
    exact runs_unmarshalProperties rest f' s' (fun u hu => hl u (by simp [hu])) (fun k u h => ht k u (.there h)) hf'.1 hf'.2 hw'

theorem runs_objectFacet {loc : String} {f : ObjectF} {k : String} {v : YNode} {m : M St ObjectF} (hv : Shaped v) (ht : k = "properties" → ∀ k' u', Entry k' u' v.content → TypeNode E loc u')
    (hf : ShapeIn s (.object f)) (hd : K.V f.discriminatorValue) (hw : Fit K s)
    (hm : objectFacet E c loc f k v = some m) : Runs K Bad none_ m s fun f' s' => ShapeIn s' (.object f') ∧ K.V f'.discriminatorValue := by
  have hs : ∀ {α : Type} {e : String} {o : Option α} {g : α → ObjectF}, (∀ x, ShapeIn s (.object (g x)) ∧ K.V (g x).discriminatorValue) →
      Runs K Bad none_ (M.lift ((orErr e o).bind fun n => .ok (g n))) s fun f' s' => ShapeIn s' (.object f') ∧ K.V f'.discriminatorValue := fun hg =>
    Runs.gets hw (Gets.bind (P := fun _ => True) (Q := fun f' => ShapeIn s (.object f') ∧ K.V f'.discriminatorValue) calm_orErr fun x _ => hg x) fun _ h => h
  unfold objectFacet at hm
  by_cases h1 : k = "additionalProperties"
  · rw [if_pos h1] at hm; cases hm; exact hs fun _ => ⟨hf, hd⟩
  rw [if_neg h1] at hm
  by_cases h1 : k = "discriminator"
  · rw [if_pos h1] at hm; cases hm; exact hs fun _ => ⟨hf, hd⟩
  rw [if_neg h1] at hm
  by_cases h1 : k = "discriminatorValue"
  · rw [if_pos h1] at hm; cases hm
    exact Runs.gets hw (Gets.bind (P := K.V) (Q := fun f' => ShapeIn s (.object f') ∧ K.V f'.discriminatorValue) (Gets.orErr fun x h => K.any _ _ h) fun x hx => ⟨hf, hx⟩) fun _ h => h
  rw [if_neg h1] at hm
  by_cases h1 : k = "minProperties"
  · rw [if_pos h1] at hm; cases hm; exact hs fun _ => ⟨hf, hd⟩
  rw [if_neg h1] at hm
  by_cases h1 : k = "maxProperties"
  · rw [if_pos h1] at hm; cases hm; exact hs fun _ => ⟨hf, hd⟩
  rw [if_neg h1] at hm
  by_cases h1 : k = "properties"
  · rw [if_pos h1] at hm; cases hm
    split
    · exact Runs.err hw
    · exact runs_unmarshalProperties hc v.content f s (fun u hu => shaped_content hv hu) (ht h1) hf hd hw
  rw [if_neg h1] at hm; cases hm

omit hc in
theorem runs_liftShape {α : Type} {o : Out α} {g : α → Shape} (ho : Calm o) (hg : ∀ x, ShapeOK K s (g x)) (hw : Fit K s) :
    Runs K Bad F (M.lift (o.bind fun f => .ok (g f))) s fun sh' s' => ShapeOK K s' sh' :=
  Runs.gets hw (Gets.bind (Q := fun sh => ShapeOK K s sh) ho fun x _ => hg x) fun _ h => h

omit hc in
theorem shapeOK_scalar {sh : Shape} (h1 : ShapeIn s sh) (h2 : ∀ f, sh ≠ .object f) (h3 : ∀ f, sh ≠ .unknown f) : ShapeOK K s sh :=
  ⟨h1, fun f h => absurd h (h2 f), fun ⟨f, h⟩ => h3 f h⟩

include hy

omit hc in
theorem calm_integerFacet {loc : String} (K : Vals E) {f : IntegerF} {k : String} {v : YNode} {o : Out IntegerF} (hv : Shaped v) (h : integerFacet E loc f k v = some o) : Calm o := by
  unfold integerFacet at h
  repeat' split at h
  all_goals first
    | cases h; done
    | (cases h; first
        | trivial
        | exact Gets.bind calm_orErr fun _ _ => trivial
        | exact Gets.bind (calm_enum hy K hv) fun _ _ => trivial)

omit hc in
theorem calm_numberFacet {loc : String} (K : Vals E) {f : NumberF} {k : String} {v : YNode} {o : Out NumberF} (hv : Shaped v) (h : numberFacet E loc f k v = some o) : Calm o := by
  unfold numberFacet at h
  repeat' split at h
  all_goals first
    | cases h; done
    | (cases h; first
        | trivial
        | exact Gets.bind calm_orErr fun _ _ => trivial
        | exact Gets.bind (calm_enum hy K hv) fun _ _ => trivial)

omit hc in
theorem calm_stringFacet {loc : String} (K : Vals E) {f : StringF} {k : String} {v : YNode} {o : Out StringF} (hv : Shaped v) (h : stringFacet E loc f k v = some o) : Calm o := by
  unfold stringFacet at h
  repeat' split at h
  all_goals first
    | cases h; done
    | (cases h; first
        | trivial
        | exact Gets.bind calm_orErr fun _ _ => trivial
        | exact Gets.bind (calm_enum hy K hv) fun _ _ => trivial)

omit hc in
theorem calm_fileFacet {loc : String} (K : Vals E) {f : FileF} {k : String} {v : YNode} {o : Out FileF} (hv : Shaped v) (h : fileFacet E loc f k v = some o) : Calm o := by
  unfold fileFacet at h
  repeat' split at h
  all_goals first
    | cases h; done
    | (cases h; first
        | trivial
        | exact Gets.bind calm_orErr fun _ _ => trivial
        | exact Gets.bind (calm_fileTypes hy K hv) fun _ _ => trivial)

theorem runs_shapeFacet {loc : String} {sh : Shape} {k : String} {v : YNode} {m : M St Shape} (hv : Shaped v) (hi : k = "items" → TypeNode E loc v)
    (hp : k = "properties" → ∀ k' u', Entry k' u' v.content → TypeNode E loc u') (ho : ShapeOK K s sh) (hw : Fit K s)
    (hm : shapeFacet E c loc sh k v = some m) : Runs K Bad none_ m s fun sh' s' => ShapeOK K s' sh' := by
  cases sh with
  | integer f =>
    obtain ⟨o, h, rfl⟩ := Option.map_eq_some_iff.1 hm
    exact runs_liftShape (calm_integerFacet hy K hv h) (fun _ => shapeOK_scalar trivial (by simp) (by simp)) hw
  | number f =>
    obtain ⟨o, h, rfl⟩ := Option.map_eq_some_iff.1 hm
    exact runs_liftShape (calm_numberFacet hy K hv h) (fun _ => shapeOK_scalar trivial (by simp) (by simp)) hw
  | string f =>
    obtain ⟨o, h, rfl⟩ := Option.map_eq_some_iff.1 hm
    exact runs_liftShape (calm_stringFacet hy K hv h) (fun _ => shapeOK_scalar trivial (by simp) (by simp)) hw
  | file f =>
    obtain ⟨o, h, rfl⟩ := Option.map_eq_some_iff.1 hm
    exact runs_liftShape (calm_fileFacet hy K hv h) (fun _ => shapeOK_scalar trivial (by simp) (by simp)) hw
  | boolean e =>
    unfold shapeFacet at hm
    simp only at hm
    split at hm
    · cases hm
      exact runs_liftShape (calm_enum hy K hv) (fun _ => shapeOK_scalar trivial (by simp) (by simp)) hw
    · cases hm
  | datetime e =>
    unfold shapeFacet at hm
    simp only at hm
    split at hm
    · cases hm
      split
      · exact Runs.lift hw (by simp) fun _ h => by cases h
      · exact runs_liftShape calm_orErr (fun _ => shapeOK_scalar trivial (by simp) (by simp)) hw
    · cases hm
  | array f =>
    obtain ⟨o, h, rfl⟩ := Option.map_eq_some_iff.1 hm
    exact Runs.bind (runs_arrayFacet hc hv hi ho.ptrs hw h) fun f' s' hw' _ hq => Runs.ret hw' (shapeOK_scalar hq (by simp) (by simp))
  | object f =>
    obtain ⟨o, h, rfl⟩ := Option.map_eq_some_iff.1 hm
    exact Runs.bind (runs_objectFacet hc hv hp ho.ptrs (ho.vals f rfl) hw h) fun f' s' hw' _ hq =>
      Runs.ret hw' ⟨hq.1, fun g hg => by cases hg; exact hq.2, fun ⟨_, h⟩ => by cases h⟩
  | _ => cases hm

omit hc in
theorem runs_customFacet {a : Addr} {loc k : String} {v : YNode} (hv : Shaped v) (hw : Fit K s) (ha : IsBase s a) :
    Runs K Bad F (customFacet E a loc k v) s fun _ s' => s'.bases = s.bases := by
  unfold customFacet
  refine Runs.bind (Runs.gets (Q := fun d s' => s' = s ∧ K.V d) hw (gets_root (K := K) hy hv) fun _ h => ⟨rfl, h⟩) fun n s1 hw1 _ e => ?_
  obtain ⟨rfl, hn⟩ := e
  refine Runs.bind (Runs.getBase hw ha) fun b s2 hw2 _ ⟨e, _, hb⟩ => ?_
  subst e
  obtain ⟨i, hi, _⟩ := hb.ptrs.facets
  rw [hi]
  exact Runs.setFacet hw hn

theorem runs_unmarshalFacet {a : Addr} {loc k : String} {sh : Shape} {v : YNode} (hF : F a) (hv : Shaped v) (hi : k = "items" → TypeNode E loc v)
    (hp : k = "properties" → ∀ k' u', Entry k' u' v.content → TypeNode E loc u') (hw : Fit K s) (hd : Done s a) (ho : ShapeOK K s sh) :
    Fills K Bad F (unmarshalFacet E c a loc sh k v) s fun sh' s' => Done s' a ∧ ShapeOK K s' sh' := by
  unfold unmarshalFacet
  cases hm : shapeFacet E c loc sh k v with
  | some m =>
    simp only
    refine Fills.bind (runs_shapeFacet hy hc hv hi hp ho hw hm).fills fun sh' s1 hw1 g1 ho1 => ?_
    refine Fills.bind (Fills.setShape hw1 hF (g1.res.done a hd) ho1) fun _ s2 hw2 g2 hd2 => ?_
    exact Fills.ret hw2 ⟨hd2, ho1.mono g2.dec.grown.longer⟩
  | none =>
    simp only
    refine Fills.bind (runs_customFacet hy hv hw (done_isBase hd)).fills fun _ s1 hw1 g1 _ => ?_
    exact Fills.ret hw1 ⟨g1.res.done a hd, ho.mono g1.dec.grown.longer⟩

theorem runs_unmarshalFacets {a : Addr} {loc : String} (hF : F a) : ∀ (l : List YNode) (sh : Shape) (s : St), FacetsOK E loc l → Fit K s → Done s a → ShapeOK K s sh →
    Fills K Bad F (unmarshalFacets E c a loc l sh) s fun _ s' => Done s' a
  | [], sh, s, _, hw, hd, _ => Fills.ret hw hd
  | [_], sh, s, _, hw, hd, _ => Fills.ret hw hd
  | k :: v :: rest, sh, s, hl, hw, hd, ho => by
    unfold unmarshalFacets
    refine Fills.bind (runs_unmarshalFacet hy hc hF (hl.shaped v (by simp)) (hl.items k v .here) (fun h k' u' he => hl.properties k v k' u' .here h he) hw hd ho)
      fun sh1 s1 hw1 _ h1 => ?_
    exact runs_unmarshalFacets hF rest sh1 s1 ⟨fun u hu => hl.shaped u (by simp [hu]), fun k u h => hl.items k u (.there h), fun k u k' u' h => hl.properties k u k' u' (.there h)⟩
      hw1 h1.1 h1.2

/-- The facets stored for the base are in order, and a type with several parents has one. -/
structure Stored (E : Env) (s : St) (a : Addr) (t : String) (facets : Option (List YNode)) : Prop where
  facets : ∀ b fs, s.base a = some b → facets = some fs → FacetsOK E b.location fs
  parents : ∀ b, s.base a = some b → t = "composite" → s.slice b.inherits ≠ []

theorem runs_makeConcrete {a : Addr} {t : String} {facets : Option (List YNode)} (hF : F a) (hw : Fit K s) (ha : IsBase s a) (hs : Stored E s a t facets) :
    Runs K Bad F (makeConcrete E c a t facets) s fun _ s' => Known t → Done s' a := by
  unfold makeConcrete
  refine Runs.bind (Runs.getBase hw ha) fun b s1 hw1 _ ⟨e, hb, hbf⟩ => ?_
  subst e
  have hin : ShapeIn s1 (emptyShape t) := emptyShape_in t
  have hval : ∀ f, emptyShape t = .object f → K.V f.discriminatorValue := by
    intro f hf
    rcases emptyShape_cases t with h | h | h | h | h | h | h | h | h | h | h | h | h | h | h | h <;> rw [h] at hf <;> cases hf
    exact K.nil
  refine Runs.bind (Runs.upd hw hF (fun _ _ => rfl) fun b' hb' h => ?_) fun _ s2 hw2 g2 e2 => ?_
  · exact ⟨⟨ifSome_some hin, h.ptrs.facets, h.ptrs.facetDefs, h.ptrs.alias, h.ptrs.inherits, h.ptrs.link⟩, h.example, h.examples, h.default,
      fun f hf => hval f (Option.some.inj hf), fun fs hf => (by
        simp only [Option.some.injEq] at hf
        rcases emptyShape_cases t with h | h | h | h | h | h | h | h | h | h | h | h | h | h | h | h <;> rw [h] at hf <;> cases hf),
      fun f _ ht => hs.parents b' hb' ht, fun sh hsh hn => fun f hf => hn ⟨f, by rw [← hf]; exact (Option.some.inj hsh).symm⟩⟩
  have hb2 : s2.base a = some { b with type := t, shape := some (emptyShape t) } := by rw [e2]; exact modify_base hb
  have hdone : ¬ IsUnknown (emptyShape t) → Done s2 a := fun hn => ⟨_, _, hb2, rfl, hn⟩
  have hok : ¬ IsUnknown (emptyShape t) → ShapeOK K s2 (emptyShape t) := fun hn => ⟨hin.mono g2.grown.longer, hval, hn⟩
  have hloop : ¬ IsUnknown (emptyShape t) → Runs K Bad F
      (if (facets.getD []).length % 2 ≠ 0 then M.err "odd number of nodes" else unmarshalFacets E c a b.location (facets.getD []) (emptyShape t)) s2
      fun _ s' => Known t → Done s' a := by
    intro hn
    split
    · exact Runs.err hw2
    · refine (runs_unmarshalFacets hy hc hF _ _ s2 ?_ hw2 (hdone hn) (hok hn)).runs.post fun _ _ _ _ h _ => h
      cases facets with
      | none => exact ⟨fun _ h => by simp at h, fun _ _ h => (by cases h), fun _ _ _ _ h => (by cases h)⟩
      | some fs => exact hs.facets b fs hb rfl
  have hsame : ¬ IsUnknown (emptyShape t) → Runs K Bad F (M.ret ()) s2 fun _ s' => Known t → Done s' a := fun hn => Runs.ret hw2 fun _ => hdone hn
  rcases emptyShape_cases t with h | h | h | h | h | h | h | h | h | h | h | h | h | h | h | h
  case inr.inr.inr.inr.inr.inr.inr.inr.inr.inr.inr.inr.inr.inl =>
    have := hsame (by rw [h]; rintro ⟨_, h⟩; cases h)
    rw [h]; exact this
  case inr.inr.inr.inr.inr.inr.inr.inr.inr.inr.inr.inr.inr.inr.inl =>
    have := hsame (by rw [h]; rintro ⟨_, h⟩; cases h)
    rw [h]; exact this
  case inr.inr.inr.inr.inr.inr.inr.inr.inr.inr.inr.inr.inr.inr.inr =>
    rw [h]
    show Runs K Bad F (setShape a (.unknown facets)) s2 fun _ s' => Known t → Done s' a
    refine (Runs.upd (f := fun b => { b with shape := some (.unknown facets) }) hw2 hF (fun _ _ => rfl) fun b' hb' hf => ?_).post fun _ _ _ _ _ (hk : Known t) => absurd h (hk none)
    rw [hb2] at hb'; cases hb'
    refine ⟨⟨ifSome_some trivial, hf.ptrs.facets, hf.ptrs.facetDefs, hf.ptrs.alias, hf.ptrs.inherits, hf.ptrs.link⟩, hf.example, hf.examples, hf.default,
      fun f hf => (by cases hf), fun fs hfs => ?_, fun f hff ht => hf.parents none (congrArg some h) ht, fun sh hsh hn => (hn ⟨facets, (Option.some.inj hsh).symm⟩).elim⟩
    simp only [Option.some.injEq, Shape.unknown.injEq] at hfs
    exact hs.facets b fs hb hfs
  all_goals
    have := hloop (by rw [h]; rintro ⟨_, h⟩; cases h)
    rw [h] at this ⊢
    exact this

/-- Making a type of a keyword. -/
theorem fills_makeConcrete {a : Addr} {t : String} {facets : Option (List YNode)} (hF : F a) (hw : Fit K s) (ha : IsBase s a) (ht : Known t)
    (hs : ∀ b fs, s.base a = some b → facets = some fs → FacetsOK E b.location fs) :
    Fills K Bad F (makeConcrete E c a t facets) s fun _ s' => Done s' a := by
  unfold makeConcrete
  refine Fills.bind (Runs.fills (Runs.getBase hw ha)) fun b s1 hw1 _ ⟨e, hb, hbf⟩ => ?_
  subst e
  have hin : ShapeIn s1 (emptyShape t) := emptyShape_in t
  have hnu : ¬ IsUnknown (emptyShape t) := fun ⟨f, h⟩ => ht f h
  have hval : ∀ f, emptyShape t = .object f → K.V f.discriminatorValue := by
    intro f hf
    rcases emptyShape_cases t with h | h | h | h | h | h | h | h | h | h | h | h | h | h | h | h <;> rw [h] at hf <;> cases hf
    exact K.nil
  have hd : Done { s1 with bases := s1.bases.modify a fun b => { b with type := t, shape := some (emptyShape t) } } a := ⟨_, _, modify_base hb, rfl, hnu⟩
  refine Fills.bind (Fills.upd hw hF (fun _ _ => rfl) (fun b' hb' h => ?_) hd) fun _ s2 hw2 g2 e2 => ?_
  · exact ⟨⟨ifSome_some hin, h.ptrs.facets, h.ptrs.facetDefs, h.ptrs.alias, h.ptrs.inherits, h.ptrs.link⟩, h.example, h.examples, h.default,
      fun f hf => hval f (Option.some.inj hf), fun fs hf => (hnu ⟨_, Option.some.inj hf⟩).elim, fun fs hf => (hnu ⟨_, Option.some.inj hf⟩).elim, fun _ _ _ => ht⟩
  have hd2 : Done s2 a := by rw [e2]; exact hd
  have hok : ShapeOK K s2 (emptyShape t) := ⟨hin.mono g2.dec.grown.longer, hval, hnu⟩
  have hloop : Fills K Bad F
      (if (facets.getD []).length % 2 ≠ 0 then M.err "odd number of nodes" else unmarshalFacets E c a b.location (facets.getD []) (emptyShape t)) s2
      fun _ s' => Done s' a := by
    split
    · exact Fills.err hw2
    · refine runs_unmarshalFacets hy hc hF _ _ s2 ?_ hw2 hd2 hok
      cases facets with
      | none => exact ⟨fun _ h => by simp at h, fun _ _ h => (by cases h), fun _ _ _ _ h => (by cases h)⟩
      | some fs => exact hs b fs hb rfl
  have hsame : Fills K Bad F (M.ret ()) s2 fun _ s' => Done s' a := Fills.ret hw2 hd2
  rcases emptyShape_cases t with h | h | h | h | h | h | h | h | h | h | h | h | h | h | h | h
  case inr.inr.inr.inr.inr.inr.inr.inr.inr.inr.inr.inr.inr.inl => rw [h]; exact hsame
  case inr.inr.inr.inr.inr.inr.inr.inr.inr.inr.inr.inr.inr.inr.inl => rw [h]; exact hsame
  case inr.inr.inr.inr.inr.inr.inr.inr.inr.inr.inr.inr.inr.inr.inr => exact absurd h (ht _)
  all_goals
    rw [h] at hloop ⊢
    exact hloop

end

end GoRaml.Tame
