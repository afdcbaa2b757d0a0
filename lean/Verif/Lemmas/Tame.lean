import Verif.Lemmas.Whole
import Verif.Lemmas.LoadMain
import Verif.Spec.Orderly
import Verif.Props.Names

/-!
# Parsing without panics: a logic of computations that panic only in certain states

`Bad` says in which states a panic is accepted.
-/

namespace GoRaml.Tame

open GoRaml GoRaml.Spec GoRaml.Load

section logic
variable {σ α β : Type}

/-- From `s`, the computation keeps `I`, moves along `R` and panics only in a state where `Bad` holds; a result satisfies `Q`. -/
def Tame (Bad I : σ → Prop) (R : σ → σ → Prop) (m : M σ α) (s : σ) (Q : α → σ → Prop) : Prop :=
  I (m s).2 ∧ R s (m s).2 ∧
    match (m s).1 with
    | .ok x => Q x (m s).2
    | .panic _ => Bad (m s).2
    | _ => True

variable {Bad I : σ → Prop} {R R1 R2 : σ → σ → Prop} {s : σ}

theorem Tame.of {m : M σ α} {x : α} {s' : σ} {Q : α → σ → Prop} (e : m s = (.ok x, s')) (hi : I s') (hr : R s s') (hq : Q x s') : Tame Bad I R m s Q := by
  unfold Tame; rw [e]; exact ⟨hi, hr, hq⟩

theorem Tame.congr {m m' : M σ α} {Q : α → σ → Prop} (e : m' s = m s) (h : Tame Bad I R m s Q) : Tame Bad I R m' s Q := by
  unfold Tame at h ⊢; rw [e]; exact h

theorem Tame.bind' {m : M σ α} {f : α → M σ β} {Q : α → σ → Prop} {Q' : β → σ → Prop}
    (h1 : Tame Bad I R1 m s Q) (h2 : ∀ x s', I s' → R1 s s' → Q x s' → Tame Bad I R2 (f x) s' Q')
    (le : ∀ t, R1 s t → R s t) (tr : ∀ t u, R1 s t → R2 t u → R s u) : Tame Bad I R (M.bind m f) s Q' := by
  obtain ⟨i1, r1, o1⟩ := h1
  unfold Tame M.bind
  cases hm : m s with
  | mk o s' =>
    rw [hm] at i1 r1 o1
    cases o with
    | ok x =>
      obtain ⟨i2, r2, o2⟩ := h2 x s' i1 r1 o1
      exact ⟨i2, tr _ _ r1 r2, o2⟩
    | err e => exact ⟨i1, le _ r1, trivial⟩
    | panic e => exact ⟨i1, le _ r1, o1⟩
    | diverge => exact ⟨i1, le _ r1, trivial⟩

theorem Tame.post {m : M σ α} {Q Q' : α → σ → Prop} (h : Tame Bad I R m s Q) (hq : ∀ x s', I s' → R s s' → Q x s' → Q' x s') : Tame Bad I R m s Q' := by
  obtain ⟨i1, r1, o1⟩ := h
  refine ⟨i1, r1, ?_⟩
  cases hm : (m s).1 with
  | ok x => rw [hm] at o1; exact hq _ _ i1 r1 o1
  | err e => trivial
  | panic e => rw [hm] at o1; exact o1
  | diverge => trivial

theorem Tame.move {m : M σ α} {Q : α → σ → Prop} (h : Tame Bad I R1 m s Q) (hr : ∀ s', I s' → R1 s s' → R s s') : Tame Bad I R m s Q :=
  ⟨h.1, hr _ h.1 h.2.1, h.2.2⟩

theorem Tame.lift {o : Out α} {Q : α → σ → Prop} (rf : R s s) (hi : I s) (hp : ∀ e, o = .panic e → Bad s) (hq : ∀ x, o = .ok x → Q x s) :
    Tame Bad I R (M.lift o) s Q := by
  refine ⟨hi, rf, ?_⟩
  unfold M.lift
  cases o with
  | ok x => exact hq x rfl
  | err e => trivial
  | panic e => exact hp e rfl
  | diverge => trivial

theorem Tame.attempt {m : M σ α} {Q : α → σ → Prop} (h : Tame Bad I R m s Q) : Tame Bad I R (M.attempt m) s fun r s' => ∀ x, r = .ok x → Q x s' := by
  obtain ⟨i1, r1, o1⟩ := h
  unfold Tame M.attempt
  cases hm : m s with
  | mk o s' =>
    rw [hm] at i1 r1 o1
    cases o with
    | ok x => exact ⟨i1, r1, fun y hy => by cases hy; exact o1⟩
    | err e => exact ⟨i1, r1, fun y hy => by cases hy⟩
    | panic e => exact ⟨i1, r1, o1⟩
    | diverge => exact ⟨i1, r1, trivial⟩

theorem Tame.ok {m : M σ α} {x : α} {s' : σ} {Q : α → σ → Prop} (h : Tame Bad I R m s Q) (e : m s = (.ok x, s')) : I s' ∧ R s s' ∧ Q x s' := by
  unfold Tame at h; rw [e] at h; exact h

theorem Tame.panicked {m : M σ α} {e : String} {s' : σ} {Q : α → σ → Prop} (h : Tame Bad I R m s Q) (he : m s = (.panic e, s')) : Bad s' := by
  unfold Tame at h; rw [he] at h; exact h.2.2

end logic

/-! ## The invariant -/

/-- A property of the values in the model, which the decoded values satisfy. -/
structure Vals (E : Env) where
  V : GoVal → Prop
  nil : V .nil
  str : ∀ t, V (.str t)
  arr : ∀ l, (∀ x ∈ l, V x) → V (.arr l)
  map : ∀ l : List (String × GoVal), (∀ x ∈ l, V x.2) → V (.map l)
  any : ∀ n v, E.decodeAny n = some v → V v
  first : ∀ t v, E.jsonFirst t = some v → V v
  json : ∀ t v, E.jsonDecode t = some v → V v

variable {E : Env}

/-- The type name is a keyword. -/
def Known (t : String) : Prop := ∀ f, emptyShape t ≠ .unknown f

/-- A reference left to resolve. -/
def IsUnknown (sh : Shape) : Prop := ∃ f, sh = .unknown f

/-- The facets in a declaration in the file `loc` are in order. -/
structure FacetsOK (E : Env) (loc : String) (fs : List YNode) : Prop where
  shaped : ∀ u ∈ fs, Shaped u
  items : ∀ k u, Entry k u fs → k.value = "items" → TypeNode E loc u
  properties : ∀ k u k' u', Entry k u fs → k.value = "properties" → Entry k' u' u.content → TypeNode E loc u'

/-- A base while parsing. -/
structure BaseFit (K : Vals E) (s : St) (b : Base) : Prop where
  ptrs : BaseIn s b
  «example» : ∀ ex, b.example_ = some ex → K.V ex.data
  examples : ∀ exs m, b.examples = some exs → exs.map = some m → ∀ e ∈ m, K.V e.2.data
  default : ∀ v, b.default = some v → K.V v
  disc : ∀ f, b.shape = some (.object f) → K.V f.discriminatorValue
  facets : ∀ fs, b.shape = some (.unknown (some fs)) → FacetsOK E b.location fs
  parents : ∀ f, b.shape = some (.unknown f) → b.type = "composite" → s.slice b.inherits ≠ []
  known : ∀ sh, b.shape = some sh → ¬ IsUnknown sh → Known b.type

/-- A registered fragment exists. -/
def FragOK (s : St) : FragRef → Prop
  | .library i => i < s.libs.length
  | .dataType i => i < s.dts.length
  | .namedExample i => i < s.nes.length

/-- The kind of a registered fragment. -/
def refKind : FragRef → FragmentKind
  | .library _ => .library
  | .dataType _ => .dataType
  | .namedExample _ => .namedExample

/-- The state while parsing. -/
structure Fit (K : Vals E) (s : St) : Prop where
  base : ∀ a b, s.base a = some b → BaseFit K s b
  props : ∀ m ∈ s.pmaps, ∀ e ∈ m, IsBase s e.2.base
  patProps : ∀ m ∈ s.ppmaps, ∀ e ∈ m, IsBase s e.2.base
  slices : ∀ l ∈ s.slices, ∀ a ∈ l, IsBase s a
  fmaps : ∀ m ∈ s.fmaps, ∀ e ∈ m, K.V e.2
  lib : ∀ l ∈ s.libs, LibIn s l
  dt : ∀ d ∈ s.dts, DTIn s d
  frags : ∀ e ∈ s.fragments, FragOK s e.2 ∧ OfKind E e.1 (refKind e.2)
  exts : ∀ d ∈ s.domainExts, K.V d.value
  unresolved : ∀ a ∈ s.unresolved, IsBase s a

theorem Known.not_composite {t : String} (h : Known t) : t ≠ "composite" := fun e => h none (by rw [e]; rfl)

/-- What exists stays; slices are not changed. -/
structure Grown (s s' : St) : Prop where
  longer : Longer s s'
  slices : s.slices <+: s'.slices
  loc : ∀ a b, s.base a = some b → ∃ b', s'.base a = some b' ∧ b'.location = b.location

theorem Grown.refl (s : St) : Grown s s := ⟨(Whole.Bigger.refl s).longer, List.prefix_rfl, fun _ b h => ⟨b, h, rfl⟩⟩

theorem Grown.trans {s t u : St} (h : Grown s t) (k : Grown t u) : Grown s u :=
  ⟨Whole.longer_trans h.longer k.longer, h.slices.trans k.slices, fun a b hb => by
    obtain ⟨b1, h1, e1⟩ := h.loc a b hb
    obtain ⟨b2, h2, e2⟩ := k.loc a b1 h1
    exact ⟨b2, h2, e2.trans e1⟩⟩

theorem Grown.isBase {s t : St} (h : Grown s t) {a : Addr} (ha : IsBase s a) : IsBase t a := Nat.lt_of_lt_of_le ha h.longer.bases

theorem Grown.slice {s s' : St} (h : Grown s s') {p : Option Nat} (hp : IfSome (· < s.slices.length) p) : s'.slice p = s.slice p := by
  cases p with
  | none => rfl
  | some i =>
    have := hp i rfl
    show (s'.slices[i]?).getD [] = (s.slices[i]?).getD []
    obtain ⟨t, ht⟩ := h.slices
    rw [← ht, List.getElem?_append_left this]

/-- Existing bases outside `F` are unchanged. -/
structure Dec (F : Addr → Prop) (s s' : St) : Prop where
  grown : Grown s s'
  same : ∀ a, IsBase s a → ¬ F a → s'.base a = s.base a

theorem Dec.refl {F : Addr → Prop} (s : St) : Dec F s s := ⟨.refl s, fun _ _ _ => rfl⟩

theorem Dec.trans {F : Addr → Prop} {s t u : St} (h : Dec F s t) (k : Dec F t u) : Dec F s u :=
  ⟨h.grown.trans k.grown, fun a ha hf => (k.same a (h.grown.isBase ha) hf).trans (h.same a ha hf)⟩

theorem Dec.weaken {F F' : Addr → Prop} {s t : St} (h : Dec F s t) (hf : ∀ a, IsBase s a → F a → F' a) : Dec F' s t :=
  ⟨h.grown, fun a ha hn => h.same a ha fun hx => hn (hf a ha hx)⟩

/-- No base. -/
def none_ : Addr → Prop := fun _ => False

theorem Dec.wide {F : Addr → Prop} {s t : St} (h : Dec none_ s t) : Dec F s t := h.weaken fun _ _ h => h.elim

/-- The base is no reference left to resolve. -/
def Done (s : St) (a : Addr) : Prop := ∃ b sh, s.base a = some b ∧ b.shape = some sh ∧ ¬ IsUnknown sh

/-- While resolving: resolved types stay so. -/
structure Res (s s' : St) : Prop where
  grown : Grown s s'
  done : ∀ a, Done s a → Done s' a

theorem Res.refl (s : St) : Res s s := ⟨.refl s, fun _ h => h⟩

theorem Res.trans {s t u : St} (h : Res s t) (k : Res t u) : Res s u := ⟨h.grown.trans k.grown, fun a ha => k.done a (h.done a ha)⟩

theorem done_isBase {s : St} {a : Addr} (h : Done s a) : IsBase s a := by
  obtain ⟨b, _, hb, _⟩ := h
  exact (List.getElem?_eq_some_iff.1 hb).1

theorem Dec.done {F : Addr → Prop} {s t : St} (h : Dec F s t) {a : Addr} (ha : Done s a) (hf : ¬ F a) : Done t a := by
  obtain ⟨b, sh, h1, h2, h3⟩ := ha
  exact ⟨b, sh, (h.same a (done_isBase ⟨b, sh, h1, h2, h3⟩) hf).trans h1, h2, h3⟩

theorem Dec.res {F : Addr → Prop} {s t : St} (h : Dec F s t) (hf : ∀ a, F a → Done s a → Done t a) : Res s t :=
  ⟨h.grown, fun a ha => by
    by_cases hfa : F a
    · exact hf a hfa ha
    · exact h.done ha hfa⟩

/-! ## The parts of the invariant -/

variable {K : Vals E} {s : St}

theorem BaseFit.mono {s' : St} (g : Grown s s') {b : Base} (h : BaseFit K s b) : BaseFit K s' b :=
  { h with
    ptrs := h.ptrs.mono g.longer
    parents := fun f h1 h2 => by rw [g.slice h.ptrs.inherits]; exact h.parents f h1 h2 }

theorem FragOK.mono {s' : St} (l : Longer s s') {f : FragRef} (h : FragOK s f) : FragOK s' f := by
  cases f with
  | library i => exact Nat.lt_of_lt_of_le (show i < _ from h) l.libs
  | dataType i => exact Nat.lt_of_lt_of_le (show i < _ from h) l.dts
  | namedExample i => exact Nat.lt_of_lt_of_le (show i < _ from h) l.nes

/-- Each part may be replaced by what is in order. -/
theorem Fit.grow {s' : St} (hw : Fit K s) (g : Grown s s') (hb : ∀ a b, s'.base a = some b → s.base a = some b ∨ BaseFit K s' b)
    (hp : ∀ m ∈ s'.pmaps, m ∈ s.pmaps ∨ ∀ e ∈ m, IsBase s' e.2.base) (hpp : ∀ m ∈ s'.ppmaps, m ∈ s.ppmaps ∨ ∀ e ∈ m, IsBase s' e.2.base)
    (hs : ∀ l ∈ s'.slices, l ∈ s.slices ∨ ∀ a ∈ l, IsBase s' a) (hf : ∀ m ∈ s'.fmaps, m ∈ s.fmaps ∨ ∀ e ∈ m, K.V e.2)
    (hl : ∀ d ∈ s'.libs, d ∈ s.libs ∨ LibIn s' d) (hd : ∀ d ∈ s'.dts, d ∈ s.dts ∨ DTIn s' d)
    (hfr : ∀ e ∈ s'.fragments, e ∈ s.fragments ∨ (FragOK s' e.2 ∧ OfKind E e.1 (refKind e.2)))
    (he : ∀ d ∈ s'.domainExts, d ∈ s.domainExts ∨ K.V d.value) (hu : ∀ a ∈ s'.unresolved, a ∈ s.unresolved ∨ IsBase s' a) : Fit K s' where
  base a b h := (hb a b h).elim (fun h => (hw.base a b h).mono g) id
  props m h := (hp m h).elim (fun h e he => g.isBase (hw.props m h e he)) id
  patProps m h := (hpp m h).elim (fun h e he => g.isBase (hw.patProps m h e he)) id
  slices m h := (hs m h).elim (fun h e he => g.isBase (hw.slices m h e he)) id
  fmaps m h := (hf m h).elim (hw.fmaps m) id
  lib l h := (hl l h).elim (fun h => (hw.lib l h).mono g.longer) id
  dt l h := (hd l h).elim (fun h => (hw.dt l h).mono g.longer) id
  frags e h := (hfr e h).elim (fun h => ⟨(hw.frags e h).1.mono g.longer, (hw.frags e h).2⟩) id
  exts d h := (he d h).elim (hw.exts d) id
  unresolved a h := (hu a h).elim (fun h => g.isBase (hw.unresolved a h)) id

theorem Fit.sliceOf (hw : Fit K s) {p : Option Nat} {e : Addr} (he : e ∈ s.slice p) : IsBase s e := by
  unfold St.slice at he
  cases p with
  | none => cases he
  | some i =>
    simp only at he
    cases hi : s.slices[i]? with
    | none => rw [hi] at he; cases he
    | some m => rw [hi] at he; exact hw.slices m (List.mem_of_getElem? hi) e he

/-! ## Heap operations -/

/-- Decoding: the invariant is kept and bases outside `F` are unchanged. -/
abbrev Runs {α : Type} (K : Vals E) (Bad : St → Prop) (F : Addr → Prop) (m : M St α) (s : St) (Q : α → St → Prop) : Prop := Tame Bad (Fit K) (Dec F) m s Q

variable {Bad : St → Prop} {F : Addr → Prop}

theorem Runs.bind {α β : Type} {m : M St α} {f : α → M St β} {Q : α → St → Prop} {Q' : β → St → Prop} (h1 : Runs K Bad F m s Q)
    (h2 : ∀ x s', Fit K s' → Dec F s s' → Q x s' → Runs K Bad F (f x) s' Q') : Runs K Bad F (M.bind m f) s Q' :=
  Tame.bind' h1 h2 (fun _ h => h) fun _ _ h k => Dec.trans h k

theorem Runs.ret {α : Type} {x : α} {Q : α → St → Prop} (hw : Fit K s) (hq : Q x s) : Runs K Bad F (M.ret x) s Q := Tame.of rfl hw (.refl s) hq

theorem Runs.err {α : Type} {e : String} {Q : α → St → Prop} (hw : Fit K s) : Runs K Bad F (M.err e : M St α) s Q := ⟨hw, .refl s, trivial⟩

theorem Runs.diverge {α : Type} {Q : α → St → Prop} (hw : Fit K s) : Runs K Bad F (M.diverge : M St α) s Q := ⟨hw, .refl s, trivial⟩

theorem Runs.lift {α : Type} {o : Out α} {Q : α → St → Prop} (hw : Fit K s) (hp : ∀ e, o ≠ .panic e) (hq : ∀ x, o = .ok x → Q x s) :
    Runs K Bad F (M.lift o) s Q := Tame.lift (.refl s) hw (fun e h => absurd h (hp e)) hq

theorem Runs.wide {α : Type} {m : M St α} {Q : α → St → Prop} (h : Runs K Bad none_ m s Q) : Runs K Bad F m s Q := h.move fun _ _ h => h.wide

theorem Runs.getBase {a : Addr} (hw : Fit K s) (ha : IsBase s a) : Runs K Bad F (Heap.getBase a) s fun b s' => s' = s ∧ s.base a = some b ∧ BaseFit K s b := by
  obtain ⟨b, hb⟩ := Whole.isBase_base ha
  exact Tame.of (x := b) (s' := s) (by simp [Heap.getBase, hb]) hw (.refl s) ⟨rfl, hb, hw.base a b hb⟩

theorem base_modify {a x : Addr} {f : Base → Base} {b : Base} (h : (s.bases.modify a f)[x]? = some b) :
    s.bases[x]? = some b ∨ ∃ b0, x = a ∧ s.bases[a]? = some b0 ∧ b = f b0 := by
  rw [List.getElem?_modify] at h
  cases hb : s.bases[x]? with
  | none => rw [hb] at h; simp at h
  | some b0 =>
    rw [hb] at h
    simp only [Option.map_eq_map, Option.map_some, Option.some.injEq] at h
    split at h
    · rename_i e; subst e; exact .inr ⟨b0, rfl, hb, h.symm⟩
    · exact .inl (by rw [h])

theorem modify_base {a : Addr} {f : Base → Base} {b : Base} (h : s.base a = some b) : ({ s with bases := s.bases.modify a f } : St).base a = some (f b) := by
  show (s.bases.modify a f)[a]? = _
  rw [List.getElem?_modify, show s.bases[a]? = some b from h]
  simp

theorem grown_upd {a : Addr} {f : Base → Base} (hl : ∀ b, s.base a = some b → (f b).location = b.location) : Grown s { s with bases := s.bases.modify a f } := by
  refine ⟨⟨by simp, Nat.le_refl _, Nat.le_refl _, Nat.le_refl _, Nat.le_refl _, Nat.le_refl _, Nat.le_refl _, Nat.le_refl _⟩, List.prefix_rfl, fun x b hb => ?_⟩
  by_cases hx : x = a
  · subst hx; exact ⟨_, modify_base hb, hl b hb⟩
  · refine ⟨b, ?_, rfl⟩
    show (s.bases.modify a f)[x]? = _
    have hne : ¬ a = x := fun e => hx e.symm
    rw [List.getElem?_modify]
    simpa [hne, St.base] using hb

theorem Fit.upd {a : Addr} {f : Base → Base} (hw : Fit K s) (hl : ∀ b, s.base a = some b → (f b).location = b.location)
    (hf : ∀ b, s.base a = some b → BaseFit K s b → BaseFit K s (f b)) : Fit K { s with bases := s.bases.modify a f } := by
  have g := grown_upd hl
  refine hw.grow g (fun x b hb => ?_) (fun _ h => .inl h) (fun _ h => .inl h) (fun _ h => .inl h) (fun _ h => .inl h) (fun _ h => .inl h) (fun _ h => .inl h)
    (fun _ h => .inl h) (fun _ h => .inl h) (fun _ h => .inl h)
  rcases base_modify hb with h | ⟨b0, rfl, h0, rfl⟩
  · exact .inl h
  · exact .inr ((hf b0 h0 (hw.base _ b0 h0)).mono g)

theorem Runs.upd {a : Addr} {f : Base → Base} (hw : Fit K s) (hF : F a) (hl : ∀ b, s.base a = some b → (f b).location = b.location)
    (hf : ∀ b, s.base a = some b → BaseFit K s b → BaseFit K s (f b)) :
    Runs K Bad F (Heap.updBase a f) s fun _ s' => s' = { s with bases := s.bases.modify a f } := by
  refine Tame.of (x := ()) (s' := { s with bases := s.bases.modify a f }) rfl (hw.upd hl hf) ⟨grown_upd hl, fun x _ hx => ?_⟩ rfl
  show (s.bases.modify a f)[x]? = s.bases[x]?
  have hne : ¬ a = x := fun e => hx (e ▸ hF)
  rw [List.getElem?_modify]
  simp [hne]

/-- A state with the same bases, and grown lists. -/
theorem dec_of {s' : St} (hb : s'.bases = s.bases) (l : Longer s s') (hs : s.slices <+: s'.slices) : Dec F s s' := by
  have e : ∀ a, s'.base a = s.base a := fun a => by simp [St.base, hb]
  exact ⟨⟨l, hs, fun a b h => ⟨b, (e a).trans h, rfl⟩⟩, fun a _ _ => e a⟩

theorem Runs.newBase {b : Base} (hw : Fit K s) (hb : BaseFit K s b) :
    Runs K Bad F (Heap.newBase b) s fun a s' => a = s.bases.length ∧ IsBase s' a ∧ s' = { s with bases := s.bases ++ [b] } := by
  have hold : ∀ a, IsBase s a → ({ s with bases := s.bases ++ [b] } : St).base a = s.base a := fun a ha => List.getElem?_append_left ha
  have g : Grown s { s with bases := s.bases ++ [b] } :=
    ⟨⟨by simp, Nat.le_refl _, Nat.le_refl _, Nat.le_refl _, Nat.le_refl _, Nat.le_refl _, Nat.le_refl _, Nat.le_refl _⟩, List.prefix_rfl, fun a c hc =>
      ⟨c, (hold a (List.getElem?_eq_some_iff.1 hc).1).trans hc, rfl⟩⟩
  refine Tame.of (x := s.bases.length) (s' := { s with bases := s.bases ++ [b] }) rfl ?_ ⟨g, fun a ha _ => hold a ha⟩ ⟨rfl, by simp [IsBase], rfl⟩
  refine hw.grow g (fun x c hc => ?_) (fun _ h => .inl h) (fun _ h => .inl h) (fun _ h => .inl h) (fun _ h => .inl h) (fun _ h => .inl h) (fun _ h => .inl h)
    (fun _ h => .inl h) (fun _ h => .inl h) (fun _ h => .inl h)
  simp only [St.base, List.getElem?_append] at hc
  split at hc
  · exact .inl hc
  · rw [List.getElem?_singleton] at hc
    split at hc
    · cases hc; exact .inr (hb.mono g)
    · cases hc

theorem Runs.newProps {m : OMap Property} (hw : Fit K s) (hm : ∀ e ∈ m, IsBase s e.2.base) :
    Runs K Bad F (Heap.newProps m) s fun i s' => i < s'.pmaps.length ∧ s'.bases = s.bases := by
  have g : Dec F s { s with pmaps := s.pmaps ++ [m] } :=
    dec_of rfl ⟨Nat.le_refl _, by simp, Nat.le_refl _, Nat.le_refl _, Nat.le_refl _, Nat.le_refl _, Nat.le_refl _, Nat.le_refl _⟩ List.prefix_rfl
  refine Tame.of (x := s.pmaps.length) (s' := { s with pmaps := s.pmaps ++ [m] }) rfl ?_ g ⟨by simp, rfl⟩
  refine hw.grow g.grown (fun x c hc => .inl hc) (fun x h => ?_) (fun _ h => .inl h) (fun _ h => .inl h) (fun _ h => .inl h) (fun _ h => .inl h) (fun _ h => .inl h)
    (fun _ h => .inl h) (fun _ h => .inl h) (fun _ h => .inl h)
  rcases List.mem_append.1 h with h | h
  · exact .inl h
  · cases List.mem_singleton.1 h; exact .inr hm

theorem Runs.newPatProps {m : OMap PatternProperty} (hw : Fit K s) (hm : ∀ e ∈ m, IsBase s e.2.base) :
    Runs K Bad F (Heap.newPatProps m) s fun i s' => i < s'.ppmaps.length ∧ s'.bases = s.bases := by
  have g : Dec F s { s with ppmaps := s.ppmaps ++ [m] } :=
    dec_of rfl ⟨Nat.le_refl _, Nat.le_refl _, by simp, Nat.le_refl _, Nat.le_refl _, Nat.le_refl _, Nat.le_refl _, Nat.le_refl _⟩ List.prefix_rfl
  refine Tame.of (x := s.ppmaps.length) (s' := { s with ppmaps := s.ppmaps ++ [m] }) rfl ?_ g ⟨by simp, rfl⟩
  refine hw.grow g.grown (fun x c hc => .inl hc) (fun _ h => .inl h) (fun x h => ?_) (fun _ h => .inl h) (fun _ h => .inl h) (fun _ h => .inl h) (fun _ h => .inl h)
    (fun _ h => .inl h) (fun _ h => .inl h) (fun _ h => .inl h)
  rcases List.mem_append.1 h with h | h
  · exact .inl h
  · cases List.mem_singleton.1 h; exact .inr hm

theorem Runs.newSlice {m : List Addr} (hw : Fit K s) (hm : ∀ e ∈ m, IsBase s e) :
    Runs K Bad F (Heap.newSlice m) s fun i s' => i < s'.slices.length ∧ s'.slice (some i) = m ∧ s'.bases = s.bases := by
  have g : Dec F s { s with slices := s.slices ++ [m] } :=
    dec_of rfl ⟨Nat.le_refl _, Nat.le_refl _, Nat.le_refl _, Nat.le_refl _, by simp, Nat.le_refl _, Nat.le_refl _, Nat.le_refl _⟩ (List.prefix_append _ _)
  refine Tame.of (x := s.slices.length) (s' := { s with slices := s.slices ++ [m] }) rfl ?_ g ⟨by simp, by simp [St.slice], rfl⟩
  refine hw.grow g.grown (fun x c hc => .inl hc) (fun _ h => .inl h) (fun _ h => .inl h) (fun x h => ?_) (fun _ h => .inl h) (fun _ h => .inl h) (fun _ h => .inl h)
    (fun _ h => .inl h) (fun _ h => .inl h) (fun _ h => .inl h)
  rcases List.mem_append.1 h with h | h
  · exact .inl h
  · cases List.mem_singleton.1 h; exact .inr hm

theorem Runs.newFacets {m : OMap GoVal} (hw : Fit K s) (hm : ∀ e ∈ m, K.V e.2) :
    Runs K Bad F (Heap.newFacets m) s fun i s' => i < s'.fmaps.length ∧ s'.bases = s.bases := by
  have g : Dec F s { s with fmaps := s.fmaps ++ [m] } :=
    dec_of rfl ⟨Nat.le_refl _, Nat.le_refl _, Nat.le_refl _, by simp, Nat.le_refl _, Nat.le_refl _, Nat.le_refl _, Nat.le_refl _⟩ List.prefix_rfl
  refine Tame.of (x := s.fmaps.length) (s' := { s with fmaps := s.fmaps ++ [m] }) rfl ?_ g ⟨by simp, rfl⟩
  refine hw.grow g.grown (fun x c hc => .inl hc) (fun _ h => .inl h) (fun _ h => .inl h) (fun _ h => .inl h) (fun x h => ?_) (fun _ h => .inl h) (fun _ h => .inl h)
    (fun _ h => .inl h) (fun _ h => .inl h) (fun _ h => .inl h)
  rcases List.mem_append.1 h with h | h
  · exact .inl h
  · cases List.mem_singleton.1 h; exact .inr hm

theorem Runs.newDT {d : DT} (hw : Fit K s) (hd : DTIn s d) : Runs K Bad F (Heap.newDT d) s fun i s' => i < s'.dts.length := by
  have g : Dec F s { s with dts := s.dts ++ [d] } :=
    dec_of rfl ⟨Nat.le_refl _, Nat.le_refl _, Nat.le_refl _, Nat.le_refl _, Nat.le_refl _, Nat.le_refl _, by simp, Nat.le_refl _⟩ List.prefix_rfl
  refine Tame.of (x := s.dts.length) (s' := { s with dts := s.dts ++ [d] }) rfl ?_ g (by simp)
  refine hw.grow g.grown (fun x c hc => .inl hc) (fun _ h => .inl h) (fun _ h => .inl h) (fun _ h => .inl h) (fun _ h => .inl h) (fun _ h => .inl h) (fun x h => ?_)
    (fun _ h => .inl h) (fun _ h => .inl h) (fun _ h => .inl h)
  rcases List.mem_append.1 h with h | h
  · exact .inl h
  · cases List.mem_singleton.1 h; exact .inr (hd.mono g.grown.longer)

theorem Runs.newLib {d : Lib} (hw : Fit K s) (hd : LibIn s d) : Runs K Bad F (Heap.newLib d) s fun i s' => i < s'.libs.length := by
  have g : Dec F s { s with libs := s.libs ++ [d] } :=
    dec_of rfl ⟨Nat.le_refl _, Nat.le_refl _, Nat.le_refl _, Nat.le_refl _, Nat.le_refl _, by simp, Nat.le_refl _, Nat.le_refl _⟩ List.prefix_rfl
  refine Tame.of (x := s.libs.length) (s' := { s with libs := s.libs ++ [d] }) rfl ?_ g (by simp)
  refine hw.grow g.grown (fun x c hc => .inl hc) (fun _ h => .inl h) (fun _ h => .inl h) (fun _ h => .inl h) (fun _ h => .inl h) (fun x h => ?_) (fun _ h => .inl h)
    (fun _ h => .inl h) (fun _ h => .inl h) (fun _ h => .inl h)
  rcases List.mem_append.1 h with h | h
  · exact .inl h
  · cases List.mem_singleton.1 h; exact .inr (hd.mono g.grown.longer)

theorem Runs.newNE {d : OMap Example} (hw : Fit K s) : Runs K Bad F (Heap.newNE d) s fun i s' => i < s'.nes.length := by
  have g : Dec F s { s with nes := s.nes ++ [d] } :=
    dec_of rfl ⟨Nat.le_refl _, Nat.le_refl _, Nat.le_refl _, Nat.le_refl _, Nat.le_refl _, Nat.le_refl _, Nat.le_refl _, by simp⟩ List.prefix_rfl
  exact Tame.of (x := s.nes.length) (s' := { s with nes := s.nes ++ [d] }) rfl
    (hw.grow g.grown (fun x c hc => .inl hc) (fun _ h => .inl h) (fun _ h => .inl h) (fun _ h => .inl h) (fun _ h => .inl h) (fun _ h => .inl h) (fun _ h => .inl h)
      (fun _ h => .inl h) (fun _ h => .inl h) (fun _ h => .inl h)) g (by simp)

/-- A state that differs only in what the invariant does not speak about. -/
theorem Runs.other {α : Type} {m : M St α} {x : α} {s' : St} (hm : m s = (.ok x, s')) (hw : Fit K s)
    (h1 : s'.bases = s.bases) (h2 : s'.pmaps = s.pmaps) (h3 : s'.ppmaps = s.ppmaps) (h4 : s'.slices = s.slices) (h5 : s'.fmaps = s.fmaps) (h6 : s'.libs = s.libs)
    (h7 : s'.dts = s.dts) (h8 : s'.fragments = s.fragments) (h9 : s'.domainExts = s.domainExts) (h10 : s'.unresolved = s.unresolved) (h11 : s'.nes = s.nes) :
    Runs K Bad F m s fun y t => y = x ∧ t = s' := by
  have g : Dec F s s' := dec_of h1 ⟨by simp [h1], by simp [h2], by simp [h3], by simp [h5], by simp [h4], by simp [h6], by simp [h7], by simp [h11]⟩ (by rw [h4])
  exact Tame.of hm (hw.grow g.grown (fun x c hc => .inl (by simpa [St.base, h1] using hc)) (fun _ h => .inl (h2 ▸ h)) (fun _ h => .inl (h3 ▸ h)) (fun _ h => .inl (h4 ▸ h))
    (fun _ h => .inl (h5 ▸ h)) (fun _ h => .inl (h6 ▸ h)) (fun _ h => .inl (h7 ▸ h)) (fun _ h => .inl (h8 ▸ h)) (fun _ h => .inl (h9 ▸ h)) (fun _ h => .inl (h10 ▸ h))) g ⟨rfl, rfl⟩

theorem Runs.newID (hw : Fit K s) : Runs K Bad F Heap.newID s fun _ s' => s'.bases = s.bases :=
  (Runs.other (m := Heap.newID) (s := s) (x := s.idCounter + 1) (s' := { s with idCounter := s.idCounter + 1 }) rfl hw rfl rfl rfl rfl rfl rfl rfl rfl rfl rfl rfl).post fun _ _ _ _ h => by rw [h.2]

theorem Runs.putShape {a : Addr} (hw : Fit K s) : Runs K Bad F (Heap.putShape a) s fun _ s' => s'.bases = s.bases :=
  (Runs.other (m := Heap.putShape a) (s := s) (x := ()) (s' := { s with shapes := s.shapes ++ [a] }) rfl hw rfl rfl rfl rfl rfl rfl rfl rfl rfl rfl rfl).post fun _ _ _ _ h => by rw [h.2]

theorem Runs.putType {n l : String} {a : Addr} (hw : Fit K s) : Runs K Bad F (Heap.putType n l a) s fun _ _ => True :=
  (Runs.other (m := Heap.putType n l a) (s := s) (x := ()) (s' := { s with fragTypes := putTypeInto s.fragTypes n l a }) rfl hw rfl rfl rfl rfl rfl rfl rfl rfl rfl rfl rfl).post fun _ _ _ _ _ => trivial

theorem Runs.putAnnotationType {n l : String} {a : Addr} (hw : Fit K s) : Runs K Bad F (Heap.putAnnotationType n l a) s fun _ _ => True :=
  (Runs.other (m := Heap.putAnnotationType n l a) (s := s) (x := ()) (s' := { s with fragAnnotationTypes := putTypeInto s.fragAnnotationTypes n l a }) rfl hw rfl rfl rfl rfl rfl rfl rfl rfl rfl rfl rfl).post
    fun _ _ _ _ _ => trivial

theorem Runs.pushUnresolved {a : Addr} (hw : Fit K s) (ha : IsBase s a) : Runs K Bad F (Heap.pushUnresolved a) s fun _ s' => s'.bases = s.bases := by
  have g : Dec F s { s with unresolved := s.unresolved ++ [a] } :=
    dec_of rfl ⟨Nat.le_refl _, Nat.le_refl _, Nat.le_refl _, Nat.le_refl _, Nat.le_refl _, Nat.le_refl _, Nat.le_refl _, Nat.le_refl _⟩ List.prefix_rfl
  refine Tame.of (x := ()) (s' := { s with unresolved := s.unresolved ++ [a] }) rfl ?_ g rfl
  refine hw.grow g.grown (fun x c hc => .inl hc) (fun _ h => .inl h) (fun _ h => .inl h) (fun _ h => .inl h) (fun _ h => .inl h) (fun _ h => .inl h) (fun _ h => .inl h)
    (fun _ h => .inl h) (fun _ h => .inl h) (fun x h => ?_)
  rcases List.mem_append.1 h with h | h
  · exact .inl h
  · cases List.mem_singleton.1 h; exact .inr ha

theorem Runs.setProp {i : Nat} {k : String} {p : Property} (hw : Fit K s) (hp : IsBase s p.base) : Runs K Bad F (Heap.setProp i k p) s fun _ s' => s'.bases = s.bases := by
  have g : Dec F s { s with pmaps := s.pmaps.modify i fun m => OMap.set m k p } :=
    dec_of rfl ⟨Nat.le_refl _, by simp, Nat.le_refl _, Nat.le_refl _, Nat.le_refl _, Nat.le_refl _, Nat.le_refl _, Nat.le_refl _⟩ List.prefix_rfl
  refine Tame.of (x := ()) (s' := { s with pmaps := s.pmaps.modify i fun m => OMap.set m k p }) rfl ?_ g rfl
  refine hw.grow g.grown (fun x c hc => .inl hc) (fun x h => ?_) (fun _ h => .inl h) (fun _ h => .inl h) (fun _ h => .inl h) (fun _ h => .inl h) (fun _ h => .inl h)
    (fun _ h => .inl h) (fun _ h => .inl h) (fun _ h => .inl h)
  rcases Whole.mem_modify h with h | ⟨y, h1, _, rfl⟩
  · exact .inl h
  · refine .inr fun e he => (Whole.mem_omap_set he).elim (hw.props y h1 e) fun e' => ?_
    rw [e']; exact hp

theorem Runs.setPatProp {i : Nat} {k : String} {p : PatternProperty} (hw : Fit K s) (hp : IsBase s p.base) :
    Runs K Bad F (Heap.setPatProp i k p) s fun _ s' => s'.bases = s.bases := by
  have g : Dec F s { s with ppmaps := s.ppmaps.modify i fun m => OMap.set m k p } :=
    dec_of rfl ⟨Nat.le_refl _, Nat.le_refl _, by simp, Nat.le_refl _, Nat.le_refl _, Nat.le_refl _, Nat.le_refl _, Nat.le_refl _⟩ List.prefix_rfl
  refine Tame.of (x := ()) (s' := { s with ppmaps := s.ppmaps.modify i fun m => OMap.set m k p }) rfl ?_ g rfl
  refine hw.grow g.grown (fun x c hc => .inl hc) (fun _ h => .inl h) (fun x h => ?_) (fun _ h => .inl h) (fun _ h => .inl h) (fun _ h => .inl h) (fun _ h => .inl h)
    (fun _ h => .inl h) (fun _ h => .inl h) (fun _ h => .inl h)
  rcases Whole.mem_modify h with h | ⟨y, h1, _, rfl⟩
  · exact .inl h
  · refine .inr fun e he => (Whole.mem_omap_set he).elim (hw.patProps y h1 e) fun e' => ?_
    rw [e']; exact hp

theorem Runs.setFacet {i : Nat} {k : String} {v : GoVal} (hw : Fit K s) (hv : K.V v) : Runs K Bad F (Heap.setFacet i k v) s fun _ s' => s'.bases = s.bases := by
  have g : Dec F s { s with fmaps := s.fmaps.modify i fun m => OMap.set m k v } :=
    dec_of rfl ⟨Nat.le_refl _, Nat.le_refl _, Nat.le_refl _, by simp, Nat.le_refl _, Nat.le_refl _, Nat.le_refl _, Nat.le_refl _⟩ List.prefix_rfl
  refine Tame.of (x := ()) (s' := { s with fmaps := s.fmaps.modify i fun m => OMap.set m k v }) rfl ?_ g rfl
  refine hw.grow g.grown (fun x c hc => .inl hc) (fun _ h => .inl h) (fun _ h => .inl h) (fun _ h => .inl h) (fun x h => ?_) (fun _ h => .inl h) (fun _ h => .inl h)
    (fun _ h => .inl h) (fun _ h => .inl h) (fun _ h => .inl h)
  rcases Whole.mem_modify h with h | ⟨y, h1, _, rfl⟩
  · exact .inl h
  · refine .inr fun e he => (Whole.mem_omap_set he).elim (hw.fmaps y h1 e) fun e' => ?_
    rw [e']; exact hv

theorem UsesIn.set {u : OMap (String × Option Nat)} {k v : String} {l : Option Nat} (h : UsesIn s u) (hl : IfSome (· < s.libs.length) l) :
    UsesIn s (OMap.set u k (v, l)) := fun e he => (Whole.mem_omap_set he).elim (h e) fun e' => by rw [e']; exact hl

theorem Runs.linkLib {i : Nat} {k v : String} {l : Option Nat} (hw : Fit K s) (hl : IfSome (· < s.libs.length) l) : Runs K Bad F (Heap.linkLib i k v l) s fun _ _ => True := by
  let s1 : St := { s with libs := s.libs.modify i fun x => { x with uses := OMap.set x.uses k (v, l) } }
  have g : Dec F s s1 :=
    dec_of rfl ⟨Nat.le_refl _, Nat.le_refl _, Nat.le_refl _, Nat.le_refl _, Nat.le_refl _, by simp [s1], Nat.le_refl _, Nat.le_refl _⟩ List.prefix_rfl
  refine Tame.of (x := ()) (s' := s1) rfl ?_ g trivial
  refine hw.grow g.grown (fun x c hc => .inl hc) (fun _ h => .inl h) (fun _ h => .inl h) (fun _ h => .inl h) (fun _ h => .inl h) (fun x h => ?_) (fun _ h => .inl h)
    (fun _ h => .inl h) (fun _ h => .inl h) (fun _ h => .inl h)
  rcases Whole.mem_modify h with h | ⟨y, h1, _, rfl⟩
  · exact .inl h
  · have := hw.lib y h1
    exact .inr ((LibIn.mono g.grown.longer (x := { y with uses := OMap.set y.uses k (v, l) }) ⟨this.types, this.annotationTypes, UsesIn.set this.uses hl⟩))

theorem Runs.linkDT {i : Nat} {k v : String} {l : Option Nat} (hw : Fit K s) (hl : IfSome (· < s.libs.length) l) : Runs K Bad F (Heap.linkDT i k v l) s fun _ _ => True := by
  let s1 : St := { s with dts := s.dts.modify i fun x => { x with uses := OMap.set x.uses k (v, l) } }
  have g : Dec F s s1 :=
    dec_of rfl ⟨Nat.le_refl _, Nat.le_refl _, Nat.le_refl _, Nat.le_refl _, Nat.le_refl _, Nat.le_refl _, by simp [s1], Nat.le_refl _⟩ List.prefix_rfl
  refine Tame.of (x := ()) (s' := s1) rfl ?_ g trivial
  refine hw.grow g.grown (fun x c hc => .inl hc) (fun _ h => .inl h) (fun _ h => .inl h) (fun _ h => .inl h) (fun _ h => .inl h) (fun _ h => .inl h) (fun x h => ?_)
    (fun _ h => .inl h) (fun _ h => .inl h) (fun _ h => .inl h)
  rcases Whole.mem_modify h with h | ⟨y, h1, _, rfl⟩
  · exact .inl h
  · have := hw.dt y h1
    exact .inr ((DTIn.mono g.grown.longer (x := { y with uses := OMap.set y.uses k (v, l) }) ⟨this.shape, UsesIn.set this.uses hl⟩))

theorem Runs.putFragment {p : String} {f : FragRef} (hw : Fit K s) (hf : FragOK s f) (hk : OfKind E p (refKind f)) : Runs K Bad F (putFragment p f) s fun _ s' => Longer s s' := by
  unfold GoRaml.putFragment
  cases hg : OMap.get s.fragments p with
  | some x => exact Tame.of (x := ()) (s' := s) (by simp [hg]) hw (.refl s) (Whole.Bigger.refl s).longer
  | none =>
    have g : Dec F s { s with fragments := OMap.set s.fragments p f } := dec_of rfl ⟨Nat.le_refl _, Nat.le_refl _, Nat.le_refl _, Nat.le_refl _, Nat.le_refl _, Nat.le_refl _, Nat.le_refl _, Nat.le_refl _⟩ List.prefix_rfl
    refine Tame.of (x := ()) (s' := { s with fragments := OMap.set s.fragments p f }) (by simp [hg]) ?_ g g.grown.longer
    refine hw.grow g.grown (fun x c hc => .inl hc) (fun _ h => .inl h) (fun _ h => .inl h) (fun _ h => .inl h) (fun _ h => .inl h) (fun _ h => .inl h) (fun _ h => .inl h)
      (fun x h => ?_) (fun _ h => .inl h) (fun _ h => .inl h)
    exact (Whole.mem_omap_set h).imp id fun e => by rw [e]; exact ⟨hf.mono g.grown.longer, hk⟩

theorem Runs.newExt {α : Type} {x : St → α} {d : DomainExt} (hw : Fit K s) (hd : K.V d.value) :
    Runs K Bad F (fun h => (.ok (x h), { h with domainExts := h.domainExts ++ [d] }) : M St α) s fun _ s' => s'.bases = s.bases := by
  have g : Dec F s { s with domainExts := s.domainExts ++ [d] } := dec_of rfl ⟨Nat.le_refl _, Nat.le_refl _, Nat.le_refl _, Nat.le_refl _, Nat.le_refl _, Nat.le_refl _, Nat.le_refl _, Nat.le_refl _⟩ List.prefix_rfl
  refine Tame.of (x := x s) (s' := { s with domainExts := s.domainExts ++ [d] }) rfl ?_ g rfl
  refine hw.grow g.grown (fun x c hc => .inl hc) (fun _ h => .inl h) (fun _ h => .inl h) (fun _ h => .inl h) (fun _ h => .inl h) (fun _ h => .inl h) (fun _ h => .inl h)
    (fun _ h => .inl h) (fun x h => ?_) (fun _ h => .inl h)
  rcases List.mem_append.1 h with h | h
  · exact .inl h
  · cases List.mem_singleton.1 h; exact .inr hd

end GoRaml.Tame
