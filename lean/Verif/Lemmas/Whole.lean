import Verif.Lemmas.LoadInv
import Verif.Lemmas.Scalars
import Verif.Model.UnwrapAll
import Verif.Spec.UnwrapAll

/-!
# Well-formed models: the invariant of unwrapping, and how each heap operation keeps it

`K.V` is a property of the values in the model (custom facets, discriminator values, examples, defaults), `K.C` one of the values in enums, and `K.X`
says which panics are allowed.
-/

namespace GoRaml.Whole

open GoRaml GoRaml.Spec GoRaml.Load

/-- Parameters: properties of values and of enum values; the allowed panics; whether there may be recursive types.  Comparisons of lists or of maps are
allowed, or no enum holds any. -/
structure Par where
  V : GoVal → Prop
  C : GoVal → Prop
  X : String → Prop
  R : Prop := True
  nil : V .nil
  cmp : (∀ v, C v → v.isScalarVal = true) ∨ ∀ e, Uncomparable e → X e

/-- There may be recursive types. -/
class Par.Rec (K : Par) : Prop where
  allowed : K.R

/-- The values of an enum satisfy `K.C`. -/
def EnumIn (K : Par) (e : Option (List GoVal)) : Prop := ∀ es, e = some es → ∀ v ∈ es, K.C v

/-- Not a reference left to resolve; the discriminator value satisfies `K.V`, enum values `K.C`. -/
def ShapeFine (K : Par) : Shape → Prop
  | .unknown _ => False
  | .recursive _ => K.R
  | .object f => K.V f.discriminatorValue
  | .string f => EnumIn K f.enum
  | .integer f => EnumIn K f.enum
  | .number f => EnumIn K f.enum
  | .boolean e => EnumIn K e
  | .file f => EnumIn K f.fileTypes
  | _ => True

/-- The values of a base satisfy `K.V`. -/
structure BaseVals (K : Par) (b : Base) : Prop where
  «example» : ∀ ex, b.example_ = some ex → K.V ex.data
  examples : ∀ exs m, b.examples = some exs → exs.map = some m → ∀ e ∈ m, K.V e.2.data
  default : ∀ v, b.default = some v → K.V v

/-- A base in a well-formed model. -/
structure BaseFine (K : Par) (s : St) (b : Base) : Prop where
  ptrs : BaseIn s b
  shape : ∃ sh, b.shape = some sh ∧ ShapeFine K sh
  vals : BaseVals K b

/-- A well-formed model. -/
structure Wf (K : Par) (s : St) : Prop where
  base : ∀ a b, s.base a = some b → BaseFine K s b
  props : ∀ m ∈ s.pmaps, ∀ e ∈ m, IsBase s e.2.base
  patProps : ∀ m ∈ s.ppmaps, ∀ e ∈ m, IsBase s e.2.base
  slices : ∀ l ∈ s.slices, ∀ a ∈ l, IsBase s a
  fmaps : ∀ m ∈ s.fmaps, ∀ e ∈ m, K.V e.2
  lib : ∀ l ∈ s.libs, LibIn s l
  dt : ∀ d ∈ s.dts, DTIn s d
  exts : ∀ d ∈ s.domainExts, IfSome (IsBase s) d.definedBy
  anns : ∀ e ∈ s.fragAnnotationTypes, ∀ e' ∈ e.2, IsBase s e'.2

/-- Types, maps and slices may be added; libraries, fragments, annotations and the tables of types are unchanged. -/
structure Bigger (s s' : St) : Prop where
  longer : Longer s s'
  libs : s'.libs = s.libs
  dts : s.dts <+: s'.dts
  fragments : s'.fragments = s.fragments
  exts : s'.domainExts = s.domainExts
  types : s'.fragTypes = s.fragTypes
  anns : s'.fragAnnotationTypes = s.fragAnnotationTypes

theorem Bigger.refl (s : St) : Bigger s s :=
  ⟨⟨Nat.le_refl _, Nat.le_refl _, Nat.le_refl _, Nat.le_refl _, Nat.le_refl _, Nat.le_refl _, Nat.le_refl _, Nat.le_refl _⟩, rfl, List.prefix_rfl, rfl, rfl, rfl, rfl⟩

theorem longer_trans {s t u : St} (h : Longer s t) (k : Longer t u) : Longer s u :=
  ⟨Nat.le_trans h.bases k.bases, Nat.le_trans h.pmaps k.pmaps, Nat.le_trans h.ppmaps k.ppmaps, Nat.le_trans h.fmaps k.fmaps,
    Nat.le_trans h.slices k.slices, Nat.le_trans h.libs k.libs, Nat.le_trans h.dts k.dts, Nat.le_trans h.nes k.nes⟩

theorem Bigger.trans {s t u : St} (h : Bigger s t) (k : Bigger t u) : Bigger s u :=
  ⟨longer_trans h.longer k.longer, k.libs.trans h.libs, h.dts.trans k.dts, k.fragments.trans h.fragments, k.exts.trans h.exts, k.types.trans h.types,
    k.anns.trans h.anns⟩

theorem Bigger.isBase {s t : St} (h : Bigger s t) {a : Addr} (ha : IsBase s a) : IsBase t a := Nat.lt_of_lt_of_le ha h.longer.bases

/-! ## Computations that keep an invariant and do not panic -/

/-- The outcome: a result that satisfies `Q`, an error, an allowed panic, or the bound was reached. -/
def Outcome {σ α : Type} (X : String → Prop) (Q : α → σ → Prop) (r : Out α × σ) : Prop :=
  match r.1 with
  | .ok x => Q x r.2
  | .panic e => X e
  | _ => True

/-- From `s`, the computation keeps `I`, moves along `R` and panics only as allowed; a result satisfies `Q`. -/
def Safe {σ α : Type} (X : String → Prop) (I : σ → Prop) (R : σ → σ → Prop) (m : M σ α) (s : σ) (Q : α → σ → Prop) : Prop :=
  I (m s).2 ∧ R s (m s).2 ∧ Outcome X Q (m s)

section
variable {σ α β : Type} {X : String → Prop} {I : σ → Prop} {R : σ → σ → Prop}

theorem Safe.bind (tr : ∀ a b c, R a b → R b c → R a c) {m : M σ α} {f : α → M σ β} {s : σ} {Q : α → σ → Prop} {Q' : β → σ → Prop}
    (h1 : Safe X I R m s Q) (h2 : ∀ x s', I s' → R s s' → Q x s' → Safe X I R (f x) s' Q') : Safe X I R (M.bind m f) s Q' := by
  obtain ⟨i1, r1, o1⟩ := h1
  unfold Safe M.bind
  unfold Outcome at o1
  cases hm : m s with
  | mk o s' =>
    rw [hm] at i1 r1 o1
    cases o with
    | ok x =>
      obtain ⟨i2, r2, o2⟩ := h2 x s' i1 r1 o1
      exact ⟨i2, tr _ _ _ r1 r2, o2⟩
    | err e => exact ⟨i1, r1, trivial⟩
    | panic e => exact ⟨i1, r1, o1⟩
    | diverge => exact ⟨i1, r1, trivial⟩

theorem Safe.congr {m m' : M σ α} {s : σ} {Q : α → σ → Prop} (e : m' s = m s) (h : Safe X I R m s Q) : Safe X I R m' s Q := by
  unfold Safe at h ⊢
  rw [e]
  exact h

theorem Safe.post {m : M σ α} {s : σ} {Q Q' : α → σ → Prop} (h : Safe X I R m s Q) (hq : ∀ x s', I s' → R s s' → Q x s' → Q' x s') : Safe X I R m s Q' := by
  obtain ⟨i1, r1, o1⟩ := h
  refine ⟨i1, r1, ?_⟩
  unfold Outcome at o1 ⊢
  cases hm : (m s).1 with
  | ok x => rw [hm] at o1; exact hq _ _ i1 r1 o1
  | err e => trivial
  | panic e => rw [hm] at o1; exact o1
  | diverge => trivial

theorem Safe.ret (rf : ∀ a, R a a) {x : α} {s : σ} {Q : α → σ → Prop} (hi : I s) (hq : Q x s) : Safe X I R (M.ret x) s Q := ⟨hi, rf s, hq⟩

theorem Safe.err (rf : ∀ a, R a a) {e : String} {s : σ} {Q : α → σ → Prop} (hi : I s) : Safe X I R (M.err e) s Q := ⟨hi, rf s, trivial⟩

theorem Safe.diverge (rf : ∀ a, R a a) {s : σ} {Q : α → σ → Prop} (hi : I s) : Safe X I R M.diverge s Q := ⟨hi, rf s, trivial⟩

theorem Safe.lift (rf : ∀ a, R a a) {o : Out α} {s : σ} {Q : α → σ → Prop} (hi : I s) (hp : ∀ e, o = .panic e → X e) (hq : ∀ x, o = .ok x → Q x s) :
    Safe X I R (M.lift o) s Q := by
  refine ⟨hi, rf s, ?_⟩
  unfold Outcome M.lift
  cases o with
  | ok x => exact hq x rfl
  | err e => trivial
  | panic e => exact hp e rfl
  | diverge => trivial

theorem Safe.get {f : σ → M σ α} {s : σ} {Q : α → σ → Prop} (h : Safe X I R (f s) s Q) : Safe X I R (M.bind M.get f) s Q := h

theorem Safe.attempt {m : M σ α} {s : σ} {Q : α → σ → Prop} (h : Safe X I R m s Q) : Safe X I R (M.attempt m) s fun r s' => ∀ x, r = .ok x → Q x s' := by
  obtain ⟨i1, r1, o1⟩ := h
  unfold Safe M.attempt
  unfold Outcome at o1
  cases hm : m s with
  | mk o s' =>
    rw [hm] at i1 r1 o1
    cases o with
    | ok x => exact ⟨i1, r1, fun y hy => by cases hy; exact o1⟩
    | err e => exact ⟨i1, r1, fun y hy => by cases hy⟩
    | panic e => exact ⟨i1, r1, o1⟩
    | diverge => exact ⟨i1, r1, trivial⟩

theorem Safe.forEach (rf : ∀ a, R a a) (tr : ∀ a b c, R a b → R b c → R a c) {f : α → M σ Unit} {Q : σ → Prop} (hQ : ∀ s, I s → Q s) :
    ∀ {l : List α} {s : σ}, I s → (∀ x ∈ l, ∀ s', I s' → R s s' → Safe X I R (f x) s' fun _ _ => True) → Safe X I R (M.forEach f l) s fun _ s' => Q s'
  | [], s, hi, _ => Safe.ret rf hi (hQ s hi)
  | x :: l, s, hi, h => by
    refine Safe.bind tr (h x (by simp) s hi (rf s)) fun _ s' hi' r' _ => ?_
    exact Safe.forEach rf tr hQ hi' fun y hy s'' hi'' r'' => h y (by simp [hy]) s'' hi'' (tr _ _ _ r' r'')

theorem Safe.collect (rf : ∀ a, R a a) (tr : ∀ a b c, R a b → R b c → R a c) {f : α → M σ β} {P : β → σ → Prop} (hP : ∀ y s s', R s s' → P y s → P y s') :
    ∀ {l : List α} {s : σ}, I s → (∀ x ∈ l, ∀ s', I s' → R s s' → Safe X I R (f x) s' P) → Safe X I R (M.collect f l) s fun ys s' => ∀ y ∈ ys, P y s'
  | [], s, hi, _ => Safe.ret rf hi fun _ h => by cases h
  | x :: l, s, hi, h => by
    refine Safe.bind tr (h x (by simp) s hi (rf s)) fun y s' hi' r' hy => ?_
    refine Safe.bind tr (Safe.collect rf tr hP hi' fun z hz s'' hi'' r'' => h z (by simp [hz]) s'' hi'' (tr _ _ _ r' r'')) fun ys s2 hi2 r2 hys => ?_
    refine Safe.ret rf hi2 fun z hz => ?_
    rcases List.mem_cons.1 hz with rfl | hz
    · exact hP _ _ _ r2 hy
    · exact hys z hz

theorem Safe.tryEach (rf : ∀ a, R a a) (tr : ∀ a b c, R a b → R b c → R a c) {f : α → M σ Unit} :
    ∀ {l : List α} {s : σ}, I s → (∀ x ∈ l, ∀ s', I s' → R s s' → Safe X I R (f x) s' fun _ _ => True) → Safe X I R (M.tryEach f l) s fun _ _ => True
  | [], s, hi, _ => Safe.ret rf hi trivial
  | x :: l, s, hi, h => by
    refine Safe.bind tr (h x (by simp) s hi (rf s)).attempt fun r s' hi' r' _ => ?_
    refine Safe.bind tr (Safe.tryEach rf tr hi' fun y hy s'' hi'' r'' => h y (by simp [hy]) s'' hi'' (tr _ _ _ r' r'')).attempt fun rs s2 hi2 r2 _ => ?_
    cases r with
    | ok _ => cases rs <;> first | exact Safe.ret rf hi2 trivial | exact Safe.err rf hi2
    | error _ => exact Safe.err rf hi2

end

/-! ## Heap operations -/

variable {K : Par}

/-- Safe on well-formed models. -/
abbrev Fine {α : Type} (K : Par) (m : M St α) (s : St) (Q : α → St → Prop) : Prop := Safe K.X (Wf K) Bigger m s Q

theorem Fine.bind {α β : Type} {m : M St α} {f : α → M St β} {s : St} {Q : α → St → Prop} {Q' : β → St → Prop} (h1 : Fine K m s Q)
    (h2 : ∀ x s', Wf K s' → Bigger s s' → Q x s' → Fine K (f x) s' Q') : Fine K (M.bind m f) s Q' :=
  Safe.bind (I := Wf K) (R := Bigger) (fun _ _ _ h k => Bigger.trans h k) h1 h2

theorem Fine.ret {α : Type} {x : α} {s : St} {Q : α → St → Prop} (hw : Wf K s) (hq : Q x s) : Fine K (M.ret x) s Q := Safe.ret Bigger.refl hw hq

theorem Fine.err {α : Type} {e : String} {s : St} {Q : α → St → Prop} (hw : Wf K s) : Fine K (M.err e : M St α) s Q := Safe.err Bigger.refl hw

theorem Fine.diverge {α : Type} {s : St} {Q : α → St → Prop} (hw : Wf K s) : Fine K (M.diverge : M St α) s Q := Safe.diverge Bigger.refl hw

theorem Fine.lift {α : Type} {o : Out α} {s : St} {Q : α → St → Prop} (hw : Wf K s) (hp : ∀ e, o = .panic e → K.X e) (hq : ∀ x, o = .ok x → Q x s) :
    Fine K (M.lift o) s Q := Safe.lift Bigger.refl hw hp hq

section
variable {s : St}

theorem isBase_base {s : St} {a : Addr} (h : IsBase s a) : ∃ b, s.base a = some b := ⟨_, List.getElem?_eq_getElem h⟩

theorem isBase_iff {s : St} {a : Addr} : IsBase s a ↔ ∃ b, s.base a = some b :=
  ⟨isBase_base, fun ⟨_, h⟩ => (List.getElem?_eq_some_iff.1 h).1⟩

theorem Fine.getBase {a : Addr} (hw : Wf K s) (ha : IsBase s a) : Fine K (Heap.getBase a) s fun b s' => s' = s ∧ s.base a = some b ∧ BaseFine K s b := by
  obtain ⟨b, hb⟩ := isBase_base ha
  have e : Heap.getBase a s = (.ok b, s) := by simp [Heap.getBase, hb]
  unfold Fine Safe Outcome
  rw [e]
  exact ⟨hw, Bigger.refl s, rfl, hb, hw.base a b hb⟩

theorem Fine.getShape {a : Addr} (hw : Wf K s) (ha : IsBase s a) : Fine K (Heap.getShape a) s fun sh s' => s' = s ∧ s.shapeAt a = some sh ∧ ShapeIn s sh ∧ ShapeFine K sh := by
  obtain ⟨b, hb⟩ := isBase_base ha
  obtain ⟨sh, h1, h2⟩ := (hw.base a b hb).shape
  have hsh : s.shapeAt a = some sh := by simp [St.shapeAt, hb, h1]
  have e : Heap.getShape a s = (.ok sh, s) := by simp [Heap.getShape, hsh]
  unfold Fine Safe Outcome
  rw [e]
  exact ⟨hw, Bigger.refl s, rfl, hsh, (hw.base a b hb).ptrs.shape sh h1, h2⟩

theorem BaseFine.mono {s' : St} (g : Longer s s') {b : Base} (h : BaseFine K s b) : BaseFine K s' b := ⟨h.ptrs.mono g, h.shape, h.vals⟩

/-- The parts of the invariant that refer to the bases only through their number. -/
theorem Wf.grow {s' : St} (hw : Wf K s) (g : Bigger s s') (hb : ∀ a b, s'.base a = some b → s.base a = some b ∨ BaseFine K s' b)
    (hp : ∀ m ∈ s'.pmaps, m ∈ s.pmaps ∨ ∀ e ∈ m, IsBase s' e.2.base) (hpp : ∀ m ∈ s'.ppmaps, m ∈ s.ppmaps ∨ ∀ e ∈ m, IsBase s' e.2.base)
    (hs : ∀ l ∈ s'.slices, l ∈ s.slices ∨ ∀ a ∈ l, IsBase s' a) (hf : ∀ m ∈ s'.fmaps, m ∈ s.fmaps ∨ ∀ e ∈ m, K.V e.2)
    (hd : ∀ d ∈ s'.dts, d ∈ s.dts ∨ DTIn s' d) : Wf K s' where
  base a b h := (hb a b h).elim (fun h => (hw.base a b h).mono g.longer) id
  props m h := (hp m h).elim (fun h e he => g.isBase (hw.props m h e he)) id
  patProps m h := (hpp m h).elim (fun h e he => g.isBase (hw.patProps m h e he)) id
  slices m h := (hs m h).elim (fun h e he => g.isBase (hw.slices m h e he)) id
  fmaps m h := (hf m h).elim (hw.fmaps m) id
  lib l h := (hw.lib l (g.libs ▸ h)).mono g.longer
  dt l h := (hd l h).elim (fun h => (hw.dt l h).mono g.longer) id
  exts d h := fun a ha => g.isBase (hw.exts d (g.exts ▸ h) a ha)
  anns e h e' he := g.isBase (hw.anns e (g.anns ▸ h) e' he)

theorem Fine.upd {a : Addr} {f : Base → Base} (hw : Wf K s) (hf : ∀ b, s.base a = some b → BaseFine K s b → BaseFine K s (f b)) :
    Fine K (Heap.updBase a f) s fun _ s' => s' = { s with bases := s.bases.modify a f } := by
  have g : Bigger s { s with bases := s.bases.modify a f } :=
    ⟨⟨by simp, Nat.le_refl _, Nat.le_refl _, Nat.le_refl _, Nat.le_refl _, Nat.le_refl _, Nat.le_refl _, Nat.le_refl _⟩, rfl, List.prefix_rfl, rfl, rfl, rfl, rfl⟩
  refine ⟨hw.grow g (fun x b hb => ?_) (fun _ h => .inl h) (fun _ h => .inl h) (fun _ h => .inl h) (fun _ h => .inl h) (fun _ h => .inl h), g, rfl⟩
  simp only [St.base, Heap.updBase, List.getElem?_modify] at hb
  by_cases hx : a = x
  · subst hx
    cases hb0 : s.bases[a]? with
    | none => rw [hb0] at hb; simp at hb
    | some b0 =>
      rw [hb0] at hb
      simp only [if_true, Option.map_eq_map, Option.map_some, Option.some.injEq] at hb
      subst hb
      exact .inr ((hf b0 hb0 (hw.base a b0 hb0)).mono g.longer)
  · simp only [hx, if_false] at hb
    refine .inl ?_
    cases hb0 : s.bases[x]? with
    | none => rw [hb0] at hb; simp at hb
    | some b0 => rw [hb0] at hb; simp at hb; subst hb; exact hb0

theorem Fine.newBase {b : Base} (hw : Wf K s) (hb : BaseFine K s b) :
    Fine K (Heap.newBase b) s fun a s' => IsBase s' a ∧ s' = { s with bases := s.bases ++ [b] } := by
  have g : Bigger s { s with bases := s.bases ++ [b] } :=
    ⟨⟨by simp, Nat.le_refl _, Nat.le_refl _, Nat.le_refl _, Nat.le_refl _, Nat.le_refl _, Nat.le_refl _, Nat.le_refl _⟩, rfl, List.prefix_rfl, rfl, rfl, rfl, rfl⟩
  refine ⟨hw.grow g (fun x c hc => ?_) (fun _ h => .inl h) (fun _ h => .inl h) (fun _ h => .inl h) (fun _ h => .inl h) (fun _ h => .inl h), g, by simp [IsBase, Heap.newBase], rfl⟩
  simp only [St.base, Heap.newBase, List.getElem?_append] at hc
  split at hc
  · exact .inl hc
  · rw [List.getElem?_singleton] at hc
    split at hc
    · cases hc; exact .inr (hb.mono g.longer)
    · cases hc

theorem mem_modify {α : Type} {l : List α} {i : Nat} {f : α → α} {x : α} (h : x ∈ l.modify i f) : x ∈ l ∨ ∃ y ∈ l, l[i]? = some y ∧ x = f y := by
  obtain ⟨j, hj⟩ := List.mem_iff_getElem?.1 h
  rw [List.getElem?_modify] at hj
  cases hl : l[j]? with
  | none => rw [hl] at hj; simp at hj
  | some y =>
    rw [hl] at hj
    have hy := List.mem_of_getElem? hl
    simp only [Option.map_eq_map, Option.map_some, Option.some.injEq] at hj
    split at hj
    · rename_i e; subst e; exact .inr ⟨y, hy, hl, hj.symm⟩
    · exact .inl (hj ▸ hy)

theorem Fine.newProps {m : OMap Property} (hw : Wf K s) (hm : ∀ e ∈ m, IsBase s e.2.base) :
    Fine K (Heap.newProps m) s fun i s' => i < s'.pmaps.length := by
  have g : Bigger s { s with pmaps := s.pmaps ++ [m] } :=
    ⟨⟨Nat.le_refl _, by simp, Nat.le_refl _, Nat.le_refl _, Nat.le_refl _, Nat.le_refl _, Nat.le_refl _, Nat.le_refl _⟩, rfl, List.prefix_rfl, rfl, rfl, rfl, rfl⟩
  refine ⟨hw.grow g (fun x c hc => .inl hc) (fun x h => ?_) (fun _ h => .inl h) (fun _ h => .inl h) (fun _ h => .inl h) (fun _ h => .inl h), g, by simp [Outcome, Heap.newProps]⟩
  rcases List.mem_append.1 h with h | h
  · exact .inl h
  · cases List.mem_singleton.1 h; exact .inr hm

theorem Fine.newPatProps {m : OMap PatternProperty} (hw : Wf K s) (hm : ∀ e ∈ m, IsBase s e.2.base) :
    Fine K (Heap.newPatProps m) s fun i s' => i < s'.ppmaps.length := by
  have g : Bigger s { s with ppmaps := s.ppmaps ++ [m] } :=
    ⟨⟨Nat.le_refl _, Nat.le_refl _, by simp, Nat.le_refl _, Nat.le_refl _, Nat.le_refl _, Nat.le_refl _, Nat.le_refl _⟩, rfl, List.prefix_rfl, rfl, rfl, rfl, rfl⟩
  refine ⟨hw.grow g (fun x c hc => .inl hc) (fun _ h => .inl h) (fun x h => ?_) (fun _ h => .inl h) (fun _ h => .inl h) (fun _ h => .inl h), g, by simp [Outcome, Heap.newPatProps]⟩
  rcases List.mem_append.1 h with h | h
  · exact .inl h
  · cases List.mem_singleton.1 h; exact .inr hm

theorem Fine.newSlice {m : List Addr} (hw : Wf K s) (hm : ∀ e ∈ m, IsBase s e) : Fine K (Heap.newSlice m) s fun i s' => i < s'.slices.length := by
  have g : Bigger s { s with slices := s.slices ++ [m] } :=
    ⟨⟨Nat.le_refl _, Nat.le_refl _, Nat.le_refl _, Nat.le_refl _, by simp, Nat.le_refl _, Nat.le_refl _, Nat.le_refl _⟩, rfl, List.prefix_rfl, rfl, rfl, rfl, rfl⟩
  refine ⟨hw.grow g (fun x c hc => .inl hc) (fun _ h => .inl h) (fun _ h => .inl h) (fun x h => ?_) (fun _ h => .inl h) (fun _ h => .inl h), g, by simp [Outcome, Heap.newSlice]⟩
  rcases List.mem_append.1 h with h | h
  · exact .inl h
  · cases List.mem_singleton.1 h; exact .inr hm

theorem Fine.newFacets {m : OMap GoVal} (hw : Wf K s) (hm : ∀ e ∈ m, K.V e.2) : Fine K (Heap.newFacets m) s fun i s' => i < s'.fmaps.length := by
  have g : Bigger s { s with fmaps := s.fmaps ++ [m] } :=
    ⟨⟨Nat.le_refl _, Nat.le_refl _, Nat.le_refl _, by simp, Nat.le_refl _, Nat.le_refl _, Nat.le_refl _, Nat.le_refl _⟩, rfl, List.prefix_rfl, rfl, rfl, rfl, rfl⟩
  refine ⟨hw.grow g (fun x c hc => .inl hc) (fun _ h => .inl h) (fun _ h => .inl h) (fun _ h => .inl h) (fun x h => ?_) (fun _ h => .inl h), g, by simp [Outcome, Heap.newFacets]⟩
  rcases List.mem_append.1 h with h | h
  · exact .inl h
  · cases List.mem_singleton.1 h; exact .inr hm

theorem Fine.newDT {d : DT} (hw : Wf K s) (hd : DTIn s d) : Fine K (Heap.newDT d) s fun i s' => i < s'.dts.length := by
  have g : Bigger s { s with dts := s.dts ++ [d] } :=
    ⟨⟨Nat.le_refl _, Nat.le_refl _, Nat.le_refl _, Nat.le_refl _, Nat.le_refl _, Nat.le_refl _, by simp, Nat.le_refl _⟩, rfl, List.prefix_append _ _, rfl, rfl, rfl, rfl⟩
  refine ⟨hw.grow g (fun x c hc => .inl hc) (fun _ h => .inl h) (fun _ h => .inl h) (fun _ h => .inl h) (fun _ h => .inl h) (fun x h => ?_), g, by simp [Outcome, Heap.newDT]⟩
  rcases List.mem_append.1 h with h | h
  · exact .inl h
  · cases List.mem_singleton.1 h; exact .inr (hd.mono g.longer)

theorem Fine.newID (hw : Wf K s) : Fine K Heap.newID s fun _ _ => True := by
  have g : Bigger s { s with idCounter := s.idCounter + 1 } :=
    ⟨⟨Nat.le_refl _, Nat.le_refl _, Nat.le_refl _, Nat.le_refl _, Nat.le_refl _, Nat.le_refl _, Nat.le_refl _, Nat.le_refl _⟩, rfl, List.prefix_rfl, rfl, rfl, rfl, rfl⟩
  exact ⟨hw.grow g (fun x c hc => .inl hc) (fun _ h => .inl h) (fun _ h => .inl h) (fun _ h => .inl h) (fun _ h => .inl h) (fun _ h => .inl h), g, trivial⟩

theorem Fine.putShape {a : Addr} (hw : Wf K s) : Fine K (Heap.putShape a) s fun _ _ => True := by
  have g : Bigger s { s with shapes := s.shapes ++ [a] } :=
    ⟨⟨Nat.le_refl _, Nat.le_refl _, Nat.le_refl _, Nat.le_refl _, Nat.le_refl _, Nat.le_refl _, Nat.le_refl _, Nat.le_refl _⟩, rfl, List.prefix_rfl, rfl, rfl, rfl, rfl⟩
  exact ⟨hw.grow g (fun x c hc => .inl hc) (fun _ h => .inl h) (fun _ h => .inl h) (fun _ h => .inl h) (fun _ h => .inl h) (fun _ h => .inl h), g, trivial⟩

theorem Fine.modPmaps {i : Nat} {f : OMap Property → OMap Property} (hw : Wf K s) (hf : ∀ m, s.pmaps[i]? = some m → ∀ e ∈ f m, e ∈ m ∨ IsBase s e.2.base) :
    Fine K (fun h => (.ok (), { h with pmaps := h.pmaps.modify i f }) : M St Unit) s fun _ _ => True := by
  have g : Bigger s { s with pmaps := s.pmaps.modify i f } :=
    ⟨⟨Nat.le_refl _, by simp, Nat.le_refl _, Nat.le_refl _, Nat.le_refl _, Nat.le_refl _, Nat.le_refl _, Nat.le_refl _⟩, rfl, List.prefix_rfl, rfl, rfl, rfl, rfl⟩
  refine ⟨hw.grow g (fun x c hc => .inl hc) (fun x h => ?_) (fun _ h => .inl h) (fun _ h => .inl h) (fun _ h => .inl h) (fun _ h => .inl h), g, trivial⟩
  rcases mem_modify h with h | ⟨y, h1, h2, rfl⟩
  · exact .inl h
  · exact .inr fun e he => (hf y h2 e he).elim (hw.props y h1 e) id

theorem Fine.modPpmaps {i : Nat} {f : OMap PatternProperty → OMap PatternProperty} (hw : Wf K s)
    (hf : ∀ m, s.ppmaps[i]? = some m → ∀ e ∈ f m, e ∈ m ∨ IsBase s e.2.base) :
    Fine K (fun h => (.ok (), { h with ppmaps := h.ppmaps.modify i f }) : M St Unit) s fun _ _ => True := by
  have g : Bigger s { s with ppmaps := s.ppmaps.modify i f } :=
    ⟨⟨Nat.le_refl _, Nat.le_refl _, by simp, Nat.le_refl _, Nat.le_refl _, Nat.le_refl _, Nat.le_refl _, Nat.le_refl _⟩, rfl, List.prefix_rfl, rfl, rfl, rfl, rfl⟩
  refine ⟨hw.grow g (fun x c hc => .inl hc) (fun _ h => .inl h) (fun x h => ?_) (fun _ h => .inl h) (fun _ h => .inl h) (fun _ h => .inl h), g, trivial⟩
  rcases mem_modify h with h | ⟨y, h1, h2, rfl⟩
  · exact .inl h
  · exact .inr fun e he => (hf y h2 e he).elim (hw.patProps y h1 e) id

theorem mem_omap_set {β : Type} {m : OMap β} {k : String} {v : β} {e : String × β} (h : e ∈ OMap.set m k v) : e ∈ m ∨ e = (k, v) := by
  induction m with
  | nil => right; simpa [OMap.set] using h
  | cons x m ih =>
    obtain ⟨k', v'⟩ := x
    unfold OMap.set at h
    split at h
    · rename_i hk
      rcases List.mem_cons.1 h with h | h
      · right; rw [h]
      · left; exact List.mem_cons_of_mem _ h
    · rcases List.mem_cons.1 h with h | h
      · left; rw [h]; exact List.mem_cons_self
      · exact (ih h).imp (List.mem_cons_of_mem _) id

theorem Fine.setProp {i : Nat} {k : String} {p : Property} (hw : Wf K s) (hp : IsBase s p.base) : Fine K (Heap.setProp i k p) s fun _ _ => True :=
  Fine.modPmaps hw fun _ _ _ he => (mem_omap_set he).imp id fun e => by rw [e]; exact hp

theorem Fine.setPatProp {i : Nat} {k : String} {p : PatternProperty} (hw : Wf K s) (hp : IsBase s p.base) : Fine K (Heap.setPatProp i k p) s fun _ _ => True :=
  Fine.modPpmaps hw fun _ _ _ he => (mem_omap_set he).imp id fun e => by rw [e]; exact hp

theorem Fine.setPropAt {i k : Nat} {p : String × Property} (hw : Wf K s) (hp : IsBase s p.2.base) : Fine K (Heap.setPropAt i k p) s fun _ _ => True :=
  Fine.modPmaps hw fun _ _ _ he => (List.mem_or_eq_of_mem_set he).imp id fun e => by rw [e]; exact hp

theorem Fine.setPatPropAt {i k : Nat} {p : String × PatternProperty} (hw : Wf K s) (hp : IsBase s p.2.base) : Fine K (Heap.setPatPropAt i k p) s fun _ _ => True :=
  Fine.modPpmaps hw fun _ _ _ he => (List.mem_or_eq_of_mem_set he).imp id fun e => by rw [e]; exact hp

theorem Fine.setSliceAt {i k : Nat} {a : Addr} (hw : Wf K s) (ha : IsBase s a) : Fine K (Heap.setSliceAt i k a) s fun _ _ => True := by
  have g : Bigger s { s with slices := s.slices.modify i fun l => l.set k a } :=
    ⟨⟨Nat.le_refl _, Nat.le_refl _, Nat.le_refl _, Nat.le_refl _, by simp, Nat.le_refl _, Nat.le_refl _, Nat.le_refl _⟩, rfl, List.prefix_rfl, rfl, rfl, rfl, rfl⟩
  refine ⟨hw.grow g (fun x c hc => .inl hc) (fun _ h => .inl h) (fun _ h => .inl h) (fun x h => ?_) (fun _ h => .inl h) (fun _ h => .inl h), g, trivial⟩
  rcases mem_modify h with h | ⟨y, h1, h2, rfl⟩
  · exact .inl h
  · exact .inr fun e he => (List.mem_or_eq_of_mem_set he).elim (hw.slices y h1 e) fun e' => by rw [e']; exact ha

theorem Fine.setFacet {i : Nat} {k : String} {v : GoVal} (hw : Wf K s) (hv : K.V v) : Fine K (Heap.setFacet i k v) s fun _ _ => True := by
  have g : Bigger s { s with fmaps := s.fmaps.modify i fun m => OMap.set m k v } :=
    ⟨⟨Nat.le_refl _, Nat.le_refl _, Nat.le_refl _, by simp, Nat.le_refl _, Nat.le_refl _, Nat.le_refl _, Nat.le_refl _⟩, rfl, List.prefix_rfl, rfl, rfl, rfl, rfl⟩
  refine ⟨hw.grow g (fun x c hc => .inl hc) (fun _ h => .inl h) (fun _ h => .inl h) (fun _ h => .inl h) (fun x h => ?_) (fun _ h => .inl h), g, trivial⟩
  rcases mem_modify h with h | ⟨y, h1, h2, rfl⟩
  · exact .inl h
  · exact .inr fun e he => (mem_omap_set he).elim (hw.fmaps y h1 e) fun e' => by rw [e']; exact hv

theorem Wf.propsOf (hw : Wf K s) {p : Option Nat} {e : String × Property} (he : e ∈ s.props p) : IsBase s e.2.base := by
  unfold St.props at he
  cases p with
  | none => cases he
  | some i =>
    simp only at he
    cases hi : s.pmaps[i]? with
    | none => rw [hi] at he; cases he
    | some m => rw [hi] at he; exact hw.props m (List.mem_of_getElem? hi) e he

theorem Wf.patPropsOf (hw : Wf K s) {p : Option Nat} {e : String × PatternProperty} (he : e ∈ s.patProps p) : IsBase s e.2.base := by
  unfold St.patProps at he
  cases p with
  | none => cases he
  | some i =>
    simp only at he
    cases hi : s.ppmaps[i]? with
    | none => rw [hi] at he; cases he
    | some m => rw [hi] at he; exact hw.patProps m (List.mem_of_getElem? hi) e he

theorem Wf.sliceOf (hw : Wf K s) {p : Option Nat} {e : Addr} (he : e ∈ s.slice p) : IsBase s e := by
  unfold St.slice at he
  cases p with
  | none => cases he
  | some i =>
    simp only at he
    cases hi : s.slices[i]? with
    | none => rw [hi] at he; cases he
    | some m => rw [hi] at he; exact hw.slices m (List.mem_of_getElem? hi) e he

theorem Wf.facetsOf (hw : Wf K s) {p : Option Nat} {e : String × GoVal} (he : e ∈ s.facetMap p) : K.V e.2 := by
  unfold St.facetMap at he
  cases p with
  | none => cases he
  | some i =>
    simp only at he
    cases hi : s.fmaps[i]? with
    | none => rw [hi] at he; cases he
    | some m => rw [hi] at he; exact hw.fmaps m (List.mem_of_getElem? hi) e he

/-- The shape of a base may be replaced. -/
theorem BaseFine.setShape {b : Base} {sh : Shape} (h : BaseFine K s b) (h1 : ShapeIn s sh) (h2 : ShapeFine K sh) : BaseFine K s { b with shape := some sh } :=
  ⟨{ h.ptrs with shape := fun x hx => by cases hx; exact h1 }, ⟨sh, rfl, h2⟩, ⟨h.vals.example, h.vals.examples, h.vals.default⟩⟩

theorem Fine.setShape {a : Addr} {sh : Shape} (hw : Wf K s) (h1 : ShapeIn s sh) (h2 : ShapeFine K sh) : Fine K (setShape a sh) s fun _ _ => True :=
  (Fine.upd hw fun _ _ h => h.setShape h1 h2).post fun _ _ _ _ _ => trivial

theorem Fine.setArray {a : Addr} {f : ArrayF} (hw : Wf K s) (h1 : IfSome (IsBase s) f.items) : Fine K (setArray a f) s fun _ _ => True := by
  refine (Fine.upd hw fun b _ h => ?_).post fun _ _ _ _ _ => trivial
  split
  · exact h.setShape (sh := .array f) h1 trivial
  · exact h

theorem Fine.setObject {a : Addr} {f : ObjectF} (hw : Wf K s) (h1 : ShapeIn s (.object f)) (h2 : K.V f.discriminatorValue) : Fine K (setObject a f) s fun _ _ => True := by
  refine (Fine.upd hw fun b _ h => ?_).post fun _ _ _ _ _ => trivial
  split
  · exact h.setShape (sh := .object f) h1 h2
  · exact h

theorem Wf.shapeAt (hw : Wf K s) {a : Addr} {sh : Shape} (h : s.shapeAt a = some sh) : ShapeIn s sh ∧ ShapeFine K sh := by
  unfold St.shapeAt at h
  obtain ⟨b, hb, hs⟩ := Option.bind_eq_some_iff.1 h
  obtain ⟨sh', h1, h2⟩ := (hw.base a b hb).shape
  rw [hs] at h1; cases h1
  exact ⟨(hw.base a b hb).ptrs.shape sh hs, h2⟩

theorem Wf.arrayAt (hw : Wf K s) (a : Addr) : IfSome (IsBase s) (arrayAt s a).items := by
  unfold GoRaml.arrayAt
  split
  · rename_i f hf; exact (hw.shapeAt hf).1
  · intro x hx; cases hx

theorem Wf.objectAt (hw : Wf K s) (a : Addr) : ShapeIn s (.object (objectAt s a)) ∧ K.V (objectAt s a).discriminatorValue := by
  unfold GoRaml.objectAt
  split
  · rename_i f hf; exact hw.shapeAt hf
  · exact ⟨⟨fun x hx => (by cases hx), fun x hx => (by cases hx)⟩, K.nil⟩

end

end GoRaml.Whole
