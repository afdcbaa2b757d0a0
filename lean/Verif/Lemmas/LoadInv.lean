import Verif.Model.Resolve
import Verif.Spec.Graph
import Verif.Spec.Inherit
import Verif.Spec.Load
import Verif.Lemmas.OMap
import Verif.Lemmas.Monad

/-!
# Loading: the invariant of decoding and resolution, and how each heap operation keeps it
-/

namespace GoRaml.Load

open GoRaml GoRaml.Spec

/-- The pointers inside a shape are in range. -/
def ShapeIn (s : St) : Shape → Prop
  | .array f => IfSome (IsBase s) f.items
  | .object f => IfSome (· < s.pmaps.length) f.properties ∧ IfSome (· < s.ppmaps.length) f.patternProperties
  | .union l _ => IfSome (· < s.slices.length) l
  | .recursive hd => IsBase s hd
  | _ => True

/-- The pointers of a base are in range. -/
structure BaseIn (s : St) (b : Base) : Prop where
  shape : IfSome (ShapeIn s) b.shape
  facets : ∃ i, b.facets = some i ∧ i < s.fmaps.length
  facetDefs : IfSome (· < s.pmaps.length) b.facetDefs
  «alias» : IfSome (IsBase s) b.alias
  inherits : IfSome (· < s.slices.length) b.inherits
  link : IfSome (· < s.dts.length) b.link

/-- Typed, or waiting to be resolved. -/
def Settled (s : St) (a : Addr) (b : Base) : Prop := (∃ f, b.shape = some (.unknown f) ∧ a ∈ s.unresolved) ∨ Typed b

/-- The links of a `uses` map are in range. -/
def UsesIn (s : St) (uses : OMap (String × Option Nat)) : Prop := ∀ e ∈ uses, IfSome (· < s.libs.length) e.2.2

/-- The pointers of a library are in range. -/
structure LibIn (s : St) (l : Lib) : Prop where
  types : ∀ e ∈ l.types, IsBase s e.2
  annotationTypes : ∀ e ∈ l.annotationTypes, IsBase s e.2
  uses : UsesIn s l.uses

/-- The pointers of a data type are in range, and it has a type. -/
structure DTIn (s : St) (d : DT) : Prop where
  shape : ∃ a, d.shape = some a ∧ IsBase s a
  uses : UsesIn s d.uses

/-- A registered fragment exists and was loaded from the path. -/
def FragIn (s : St) (p : String) : FragRef → Prop
  | .library i => ∃ l, s.libs[i]? = some l ∧ l.location = p
  | .dataType i => ∃ d, s.dts[i]? = some d ∧ d.location = p
  | .namedExample i => i < s.nes.length

/-- Every entry of `uses` is linked to the library loaded from the path it names, and the path is registered. -/
def UseLinked (E : Env) (s : St) (location : String) (uses : OMap (String × Option Nat)) : Prop :=
  ∀ k v link, OMap.get uses k = some (v, link) →
    ∃ j l, link = some j ∧ s.libs[j]? = some l ∧ l.location = E.joinDir location v ∧ ∃ f, getFragment s (E.joinDir location v) = some f

/-- Sets of bases, libraries, data types and paths. -/
structure Perm where
  b : Addr → Prop := fun _ => False
  l : Nat → Prop := fun _ => False
  d : Nat → Prop := fun _ => False
  f : String → Prop := fun _ => False

/-- All bases, libraries and data types; the paths `T`. -/
def Perm.top (T : String → Prop) : Perm := ⟨fun _ => True, fun _ => True, fun _ => True, T⟩

/-- With the base `a`. -/
def Perm.addB (π : Perm) (a : Addr) : Perm := { π with b := fun x => π.b x ∨ x = a }

/-- With the library `i`. -/
def Perm.addL (π : Perm) (i : Nat) : Perm := { π with l := fun x => π.l x ∨ x = i }

/-- With the data type `i`. -/
def Perm.addD (π : Perm) (i : Nat) : Perm := { π with d := fun x => π.d x ∨ x = i }

/-- Well-formed while loading; the bases, libraries and data types in `P` are under construction. -/
structure W (E : Env) (P : Perm) (s : St) : Prop where
  base : ∀ a b, s.base a = some b → BaseIn s b
  settled : ∀ a b, s.base a = some b → ¬ P.b a → Settled s a b
  idLe : ∀ a b, s.base a = some b → b.id ≤ s.idCounter
  idInj : ∀ a b x y, s.base a = some x → s.base b = some y → x.id = y.id → a = b
  props : ∀ m ∈ s.pmaps, ∀ e ∈ m, IsBase s e.2.base
  patProps : ∀ m ∈ s.ppmaps, ∀ e ∈ m, IsBase s e.2.base
  slices : ∀ l ∈ s.slices, ∀ a ∈ l, IsBase s a
  lib : ∀ (i : Nat) (l : Lib), s.libs[i]? = some l → LibIn s l
  libLinked : ∀ (i : Nat) (l : Lib), s.libs[i]? = some l → ¬ P.l i → UseLinked E s l.location l.uses
  dt : ∀ (i : Nat) (d : DT), s.dts[i]? = some d → DTIn s d
  dtLinked : ∀ (i : Nat) (d : DT), s.dts[i]? = some d → ¬ P.d i → UseLinked E s d.location d.uses
  frags : ∀ e ∈ s.fragments, FragIn s e.1 e.2
  unresolved : ∀ a ∈ s.unresolved, IsBase s a

/-- Everything of `s` is in `s'`, unchanged outside `π`; only paths of `π` are newly registered.  If `r`, bases may become concrete. -/
structure G (r : Prop) (π : Perm) (s s' : St) : Prop where
  bases : s.bases.length ≤ s'.bases.length
  pmaps : s.pmaps.length ≤ s'.pmaps.length
  ppmaps : s.ppmaps.length ≤ s'.ppmaps.length
  fmaps : s.fmaps.length ≤ s'.fmaps.length
  slices : s.slices <+: s'.slices
  libsLen : s.libs.length ≤ s'.libs.length
  dtsLen : s.dts.length ≤ s'.dts.length
  nesLen : s.nes.length ≤ s'.nes.length
  ids : s.idCounter ≤ s'.idCounter
  base : ∀ a, IsBase s a → ¬ π.b a → s'.base a = s.base a ∨ (r ∧ ¬ Concrete s a ∧ Concrete s' a)
  lib : ∀ i, i < s.libs.length → ¬ π.l i → s'.libs[i]? = s.libs[i]?
  libLoc : ∀ (i : Nat) (l : Lib), s.libs[i]? = some l → ∃ l', s'.libs[i]? = some l' ∧ l'.location = l.location
  dt : ∀ i, i < s.dts.length → ¬ π.d i → s'.dts[i]? = s.dts[i]?
  dtLoc : ∀ (i : Nat) (d : DT), s.dts[i]? = some d → ∃ d', s'.dts[i]? = some d' ∧ d'.location = d.location
  frag : ∀ p f, getFragment s p = some f → getFragment s' p = some f
  fresh : ∀ p f, getFragment s' p = some f → getFragment s p = some f ∨ π.f p
  unresolved : s.unresolved <+: s'.unresolved
  loc : ∀ a b, s.base a = some b → ∃ b', s'.base a = some b' ∧ b'.location = b.location

theorem G.refl (r : Prop) (π : Perm) (s : St) : G r π s s :=
  ⟨Nat.le_refl _, Nat.le_refl _, Nat.le_refl _, Nat.le_refl _, List.prefix_rfl, Nat.le_refl _, Nat.le_refl _, Nat.le_refl _, Int.le_refl _,
    fun _ _ _ => .inl rfl, fun _ _ _ => rfl, fun _ l h => ⟨l, h, rfl⟩, fun _ _ _ => rfl, fun _ d h => ⟨d, h, rfl⟩, fun _ _ h => h, fun _ _ h => .inl h, List.prefix_rfl, fun _ b h => ⟨b, h, rfl⟩⟩

theorem concrete_isBase {s : St} {a : Addr} (h : Concrete s a) : IsBase s a := by
  obtain ⟨b, hb, _⟩ := h
  exact (List.getElem?_eq_some_iff.1 hb).1

theorem G.trans {r : Prop} {π : Perm} {s t u : St} (h : G r π s t) (k : G r π t u) : G r π s u where
  bases := Nat.le_trans h.bases k.bases
  pmaps := Nat.le_trans h.pmaps k.pmaps
  ppmaps := Nat.le_trans h.ppmaps k.ppmaps
  fmaps := Nat.le_trans h.fmaps k.fmaps
  slices := h.slices.trans k.slices
  libsLen := Nat.le_trans h.libsLen k.libsLen
  dtsLen := Nat.le_trans h.dtsLen k.dtsLen
  nesLen := Nat.le_trans h.nesLen k.nesLen
  ids := Int.le_trans h.ids k.ids
  base := fun a ha hp => by
    rcases h.base a ha hp with h1 | ⟨hr, h1, h2⟩
    · rcases k.base a (Nat.lt_of_lt_of_le ha h.bases) hp with k1 | ⟨kr, k1, k2⟩
      · exact .inl (k1.trans h1)
      · exact .inr ⟨kr, fun ⟨b, hb, ht⟩ => k1 ⟨b, h1.trans hb, ht⟩, k2⟩
    · rcases k.base a (Nat.lt_of_lt_of_le ha h.bases) hp with k1 | ⟨_, k1, _⟩
      · obtain ⟨b, hb, ht⟩ := h2
        exact .inr ⟨hr, h1, b, k1.trans hb, ht⟩
      · exact absurd h2 k1
  lib := fun i hi hp => (k.lib i (Nat.lt_of_lt_of_le hi h.libsLen) hp).trans (h.lib i hi hp)
  libLoc := fun i l hl => by
    obtain ⟨l1, h1, e1⟩ := h.libLoc i l hl
    obtain ⟨l2, h2, e2⟩ := k.libLoc i l1 h1
    exact ⟨l2, h2, e2.trans e1⟩
  dt := fun i hi hp => (k.dt i (Nat.lt_of_lt_of_le hi h.dtsLen) hp).trans (h.dt i hi hp)
  dtLoc := fun i l hl => by
    obtain ⟨l1, h1, e1⟩ := h.dtLoc i l hl
    obtain ⟨l2, h2, e2⟩ := k.dtLoc i l1 h1
    exact ⟨l2, h2, e2.trans e1⟩
  frag := fun p f hf => k.frag p f (h.frag p f hf)
  fresh := fun p f hf => (k.fresh p f hf).elim (fun h1 => h.fresh p f h1) .inr
  unresolved := h.unresolved.trans k.unresolved
  loc := fun a b hb => by
    obtain ⟨b1, h1, e1⟩ := h.loc a b hb
    obtain ⟨b2, h2, e2⟩ := k.loc a b1 h1
    exact ⟨b2, h2, e2.trans e1⟩

/-- The permissions are only used up to what exists at the start. -/
theorem G.weaken {r r' : Prop} {π π' : Perm} {s s' : St} (h : G r π s s') (hr : r → r') (hb : ∀ a, IsBase s a → π.b a → π'.b a)
    (hl : ∀ i, i < s.libs.length → π.l i → π'.l i) (hd : ∀ i, i < s.dts.length → π.d i → π'.d i) (hf : ∀ p, π.f p → π'.f p) : G r' π' s s' :=
  { h with
    base := fun a ha hp => (h.base a ha fun hq => hp (hb a ha hq)).imp id fun ⟨h1, h2⟩ => ⟨hr h1, h2⟩
    lib := fun i hi hp => h.lib i hi fun hq => hp (hl i hi hq)
    dt := fun i hi hp => h.dt i hi fun hq => hp (hd i hi hq)
    fresh := fun p f hp => (h.fresh p f hp).imp id (hf p) }

theorem G.top {r : Prop} {π : Perm} {s s' : St} (h : G r π s s') : G r (Perm.top π.f) s s' :=
  h.weaken id (fun _ _ _ => trivial) (fun _ _ _ => trivial) (fun _ _ _ => trivial) fun _ h => h

theorem G.slice {r : Prop} {π : Perm} {s s' : St} (h : G r π s s') {p : Option Nat} (hp : IfSome (· < s.slices.length) p) :
    s'.slice p = s.slice p := by
  cases p with
  | none => rfl
  | some i =>
    have := hp i rfl
    show (s'.slices[i]?).getD [] = (s.slices[i]?).getD []
    obtain ⟨t, ht⟩ := h.slices
    rw [← ht, List.getElem?_append_left this]

theorem G.isBase {r : Prop} {π : Perm} {s s' : St} (h : G r π s s') {a : Addr} (ha : IsBase s a) : IsBase s' a := Nat.lt_of_lt_of_le ha h.bases

theorem G.concrete {r : Prop} {π : Perm} {s s' : St} (h : G r π s s') {a : Addr} (ha : Concrete s a) (hp : ¬ π.b a) : Concrete s' a := by
  rcases h.base a (concrete_isBase ha) hp with h1 | ⟨_, h1, _⟩
  · obtain ⟨b, hb, ht⟩ := ha
    exact ⟨b, h1.trans hb, ht⟩
  · exact absurd ha h1

/-- Without resolution, what may not be changed is the same. -/
theorem G.same {π : Perm} {s s' : St} (h : G False π s s') {a : Addr} {b : Base} (hb : s.base a = some b) (hp : ¬ π.b a) : s'.base a = some b := by
  rcases h.base a ((List.getElem?_eq_some_iff.1 hb).1) hp with h1 | ⟨h1, _⟩
  · exact h1.trans hb
  · exact h1.elim

/-! ## What a change of the arenas does -/

theorem IfSome.imp {α : Type} {P Q : α → Prop} {p : Option α} (h : IfSome P p) (hi : ∀ x, P x → Q x) : IfSome Q p := fun x hx => hi x (h x hx)

theorem ifSome_none {α : Type} {P : α → Prop} : IfSome P none := fun _ h => by cases h

theorem ifSome_some {α : Type} {P : α → Prop} {x : α} (h : P x) : IfSome P (some x) := fun _ hx => by cases hx; exact h

/-- The lengths that pointers are measured against. -/
structure Longer (s s' : St) : Prop where
  bases : s.bases.length ≤ s'.bases.length
  pmaps : s.pmaps.length ≤ s'.pmaps.length
  ppmaps : s.ppmaps.length ≤ s'.ppmaps.length
  fmaps : s.fmaps.length ≤ s'.fmaps.length
  slices : s.slices.length ≤ s'.slices.length
  libs : s.libs.length ≤ s'.libs.length
  dts : s.dts.length ≤ s'.dts.length
  nes : s.nes.length ≤ s'.nes.length

theorem G.longer {r : Prop} {π : Perm} {s s' : St} (h : G r π s s') : Longer s s' :=
  ⟨h.bases, h.pmaps, h.ppmaps, h.fmaps, h.slices.length_le, h.libsLen, h.dtsLen, h.nesLen⟩

theorem ShapeIn.mono {s s' : St} (l : Longer s s') {sh : Shape} (h : ShapeIn s sh) : ShapeIn s' sh := by
  cases sh with
  | array f => exact IfSome.imp h fun _ hx => Nat.lt_of_lt_of_le hx l.bases
  | object f => exact ⟨IfSome.imp h.1 fun _ hx => Nat.lt_of_lt_of_le hx l.pmaps, IfSome.imp h.2 fun _ hx => Nat.lt_of_lt_of_le hx l.ppmaps⟩
  | union p e => exact IfSome.imp h fun _ hx => Nat.lt_of_lt_of_le hx l.slices
  | recursive hd => exact Nat.lt_of_lt_of_le (show IsBase s hd from h) l.bases
  | _ => trivial

theorem BaseIn.mono {s s' : St} (l : Longer s s') {b : Base} (h : BaseIn s b) : BaseIn s' b where
  shape := IfSome.imp h.shape fun _ hx => hx.mono l
  facets := let ⟨i, h1, h2⟩ := h.facets; ⟨i, h1, Nat.lt_of_lt_of_le h2 l.fmaps⟩
  facetDefs := IfSome.imp h.facetDefs fun _ hx => Nat.lt_of_lt_of_le hx l.pmaps
  «alias» := IfSome.imp h.alias fun _ hx => Nat.lt_of_lt_of_le hx l.bases
  inherits := IfSome.imp h.inherits fun _ hx => Nat.lt_of_lt_of_le hx l.slices
  link := IfSome.imp h.link fun _ hx => Nat.lt_of_lt_of_le hx l.dts

theorem UsesIn.mono {s s' : St} (l : Longer s s') {u : OMap (String × Option Nat)} (h : UsesIn s u) : UsesIn s' u :=
  fun e he => IfSome.imp (h e he) fun _ hx => Nat.lt_of_lt_of_le hx l.libs

theorem LibIn.mono {s s' : St} (l : Longer s s') {x : Lib} (h : LibIn s x) : LibIn s' x :=
  ⟨fun e he => Nat.lt_of_lt_of_le (h.types e he) l.bases, fun e he => Nat.lt_of_lt_of_le (h.annotationTypes e he) l.bases, h.uses.mono l⟩

theorem DTIn.mono {s s' : St} (l : Longer s s') {x : DT} (h : DTIn s x) : DTIn s' x :=
  ⟨let ⟨a, h1, h2⟩ := h.shape; ⟨a, h1, Nat.lt_of_lt_of_le h2 l.bases⟩, h.uses.mono l⟩

theorem FragIn.mono {r : Prop} {π : Perm} {s s' : St} (g : G r π s s') {p : String} {f : FragRef} (h : FragIn s p f) : FragIn s' p f := by
  cases f with
  | library i =>
    obtain ⟨l, h1, h2⟩ := h
    obtain ⟨l', h3, h4⟩ := g.libLoc i l h1
    exact ⟨l', h3, h4.trans h2⟩
  | dataType i =>
    obtain ⟨l, h1, h2⟩ := h
    obtain ⟨l', h3, h4⟩ := g.dtLoc i l h1
    exact ⟨l', h3, h4.trans h2⟩
  | namedExample i => exact Nat.lt_of_lt_of_le (show i < _ from h) g.nesLen

theorem UseLinked.mono {E : Env} {r : Prop} {π : Perm} {s s' : St} (g : G r π s s') {loc : String} {u : OMap (String × Option Nat)} (h : UseLinked E s loc u) : UseLinked E s' loc u := by
  intro k v link hk
  obtain ⟨j, l, hj, hl, hloc, f, hf⟩ := h k v link hk
  obtain ⟨l', hl', hloc'⟩ := g.libLoc j l hl
  exact ⟨j, l', hj, hl', hloc'.trans hloc, f, g.frag _ _ hf⟩

theorem Settled.mono {s s' : St} (hu : ∀ a ∈ s.unresolved, a ∈ s'.unresolved) {a : Addr} {b : Base} (h : Settled s a b) : Settled s' a b :=
  h.imp (fun ⟨f, h1, h2⟩ => ⟨f, h1, hu a h2⟩) id

theorem W.mono {E : Env} {P Q : Perm} {s : St} (h : W E P s) (hb : ∀ a, P.b a → Q.b a) (hl : ∀ a, P.l a → Q.l a) (hd : ∀ a, P.d a → Q.d a) : W E Q s :=
  { h with
    settled := fun a b hb' hq => h.settled a b hb' fun hp => hq (hb a hp)
    libLinked := fun a b hb' hq => h.libLinked a b hb' fun hp => hq (hl a hp)
    dtLinked := fun a b hb' hq => h.dtLinked a b hb' fun hp => hq (hd a hp) }

theorem W.top {E : Env} {P : Perm} {s : St} (T : String → Prop) (h : W E P s) : W E (Perm.top T) s := h.mono (fun _ _ => trivial) (fun _ _ => trivial) fun _ _ => trivial

/-- A base is taken out of construction. -/
theorem W.dropB {E : Env} {P : Perm} {s : St} {a : Addr} (h : W E (P.addB a) s) (ha : ∀ b, s.base a = some b → Settled s a b) : W E P s :=
  { h with
    settled := fun x b hb hp => by
      by_cases hx : x = a
      · subst hx; exact ha b hb
      · exact h.settled x b hb fun hq => hq.elim hp hx }

/-- A library is taken out of construction. -/
theorem W.dropL {E : Env} {P : Perm} {s : St} {i : Nat} (h : W E (P.addL i) s) (ha : ∀ l, s.libs[i]? = some l → UseLinked E s l.location l.uses) : W E P s :=
  { h with
    libLinked := fun x b hb hp => by
      by_cases hx : x = i
      · subst hx; exact ha b hb
      · exact h.libLinked x b hb fun hq => hq.elim hp hx }

/-- A data type is taken out of construction. -/
theorem W.dropD {E : Env} {P : Perm} {s : St} {i : Nat} (h : W E (P.addD i) s) (ha : ∀ l, s.dts[i]? = some l → UseLinked E s l.location l.uses) : W E P s :=
  { h with
    dtLinked := fun x b hb hp => by
      by_cases hx : x = i
      · subst hx; exact ha b hb
      · exact h.dtLinked x b hb fun hq => hq.elim hp hx }

/-- A step that leaves the bases as they are. -/
theorem W.step {E : Env} {P P' : Perm} {r : Prop} {π : Perm} {s s' : St} (h : W E P s) (g : G r π s s') (hbases : s'.bases = s.bases)
    (hP : ∀ a, P.b a → P'.b a)
    (hun : ∀ a ∈ s'.unresolved, a ∈ s.unresolved ∨ IsBase s a)
    (hp : ∀ m ∈ s'.pmaps, m ∈ s.pmaps ∨ ∀ e ∈ m, IsBase s e.2.base)
    (hpp : ∀ m ∈ s'.ppmaps, m ∈ s.ppmaps ∨ ∀ e ∈ m, IsBase s e.2.base)
    (hs : ∀ l ∈ s'.slices, l ∈ s.slices ∨ ∀ a ∈ l, IsBase s a)
    (hl : ∀ (i : Nat) (l : Lib), s'.libs[i]? = some l → (s.libs[i]? = some l ∧ (P.l i → P'.l i)) ∨ (LibIn s' l ∧ (¬ P'.l i → UseLinked E s' l.location l.uses)))
    (hd : ∀ (i : Nat) (d : DT), s'.dts[i]? = some d → (s.dts[i]? = some d ∧ (P.d i → P'.d i)) ∨ (DTIn s' d ∧ (¬ P'.d i → UseLinked E s' d.location d.uses)))
    (hf : ∀ e ∈ s'.fragments, e ∈ s.fragments ∨ FragIn s' e.1 e.2) : W E P' s' := by
  have hb : ∀ a, s'.base a = s.base a := fun a => by show s'.bases[a]? = s.bases[a]?; rw [hbases]
  have hB : ∀ a, IsBase s a → IsBase s' a := fun a ha => g.isBase ha
  have hu : ∀ a ∈ s.unresolved, a ∈ s'.unresolved := fun a ha => g.unresolved.subset ha
  exact
    { base := fun a b hb' => (h.base a b (hb a ▸ hb')).mono g.longer
      settled := fun a b hb' hq => (h.settled a b (hb a ▸ hb') fun hp => hq (hP a hp)).mono hu
      idLe := fun a b hb' => Int.le_trans (h.idLe a b (hb a ▸ hb')) g.ids
      idInj := fun a b x y hx hy => h.idInj a b x y (hb a ▸ hx) (hb b ▸ hy)
      props := fun m hm e he => (hp m hm).elim (fun h1 => hB _ (h.props m h1 e he)) fun h1 => hB _ (h1 e he)
      patProps := fun m hm e he => (hpp m hm).elim (fun h1 => hB _ (h.patProps m h1 e he)) fun h1 => hB _ (h1 e he)
      slices := fun m hm e he => (hs m hm).elim (fun h1 => hB _ (h.slices m h1 e he)) fun h1 => hB _ (h1 e he)
      lib := fun i l hi => (hl i l hi).elim (fun h1 => (h.lib i l h1.1).mono g.longer) fun h1 => h1.1
      libLinked := fun i l hi hq => (hl i l hi).elim (fun h1 => (h.libLinked i l h1.1 fun hp => hq (h1.2 hp)).mono g) fun h1 => h1.2 hq
      dt := fun i l hi => (hd i l hi).elim (fun h1 => (h.dt i l h1.1).mono g.longer) fun h1 => h1.1
      dtLinked := fun i l hi hq => (hd i l hi).elim (fun h1 => (h.dtLinked i l h1.1 fun hp => hq (h1.2 hp)).mono g) fun h1 => h1.2 hq
      frags := fun e he => (hf e he).elim (fun h1 => (h.frags e h1).mono g) id
      unresolved := fun a ha => (hun a ha).elim (fun h1 => hB _ (h.unresolved a h1)) fun h1 => hB _ h1 }

theorem base_upd {s : St} {a x : Addr} {f : Base → Base} :
    St.base { s with bases := s.bases.modify a f } x = if x = a then (s.base a).map f else s.base x := by
  show (s.bases.modify a f)[x]? = _
  rw [List.getElem?_modify]
  by_cases hxa : a = x
  · subst hxa; simp [St.base]
  · have : ¬ x = a := fun hq => hxa hq.symm
    simp [hxa, this, St.base]

/-- Fields of a base are assigned. -/
theorem W.upd {E : Env} {P : Perm} {s : St} {a : Addr} {f : Base → Base} (h : W E P s)
    (hf : ∀ b, s.base a = some b → BaseIn s (f b) ∧ (f b).id = b.id ∧ (P.b a ∨ Settled s a (f b))) :
    W E P { s with bases := s.bases.modify a f } := by
  have l : Longer s { s with bases := s.bases.modify a f } := by
    constructor <;> simp
  have hB : ∀ x, IsBase s x → IsBase { s with bases := s.bases.modify a f } x := fun x hx => Nat.lt_of_lt_of_le hx l.bases
  have hb : ∀ x b, St.base { s with bases := s.bases.modify a f } x = some b → (x ≠ a ∧ s.base x = some b) ∨ (x = a ∧ ∃ b0, s.base a = some b0 ∧ b = f b0) := by
    intro x b hx
    rw [base_upd] at hx
    by_cases hxa : x = a
    · rw [if_pos hxa] at hx
      obtain ⟨b0, h0, h1⟩ := Option.map_eq_some_iff.1 hx
      exact .inr ⟨hxa, b0, h0, h1.symm⟩
    · rw [if_neg hxa] at hx
      exact .inl ⟨hxa, hx⟩
  have hid : ∀ x b, St.base { s with bases := s.bases.modify a f } x = some b → ∃ b', s.base x = some b' ∧ b.id = b'.id := by
    intro x b hx
    rcases hb x b hx with ⟨_, h1⟩ | ⟨rfl, b0, h0, rfl⟩
    · exact ⟨b, h1, rfl⟩
    · exact ⟨b0, h0, (hf b0 h0).2.1⟩
  exact
    { base := fun x b hx => by
        rcases hb x b hx with ⟨_, h1⟩ | ⟨rfl, b0, h0, rfl⟩
        · exact (h.base x b h1).mono l
        · exact (hf b0 h0).1.mono l
      settled := fun x b hx hq => by
        rcases hb x b hx with ⟨_, h1⟩ | ⟨rfl, b0, h0, rfl⟩
        · exact (h.settled x b h1 hq).mono fun _ hu => hu
        · exact ((hf b0 h0).2.2.resolve_left hq).mono fun _ hu => hu
      idLe := fun x b hx => by
        obtain ⟨b', h1, h2⟩ := hid x b hx
        rw [h2]; exact h.idLe x b' h1
      idInj := fun x y b c hx hy hbc => by
        obtain ⟨b', h1, h2⟩ := hid x b hx
        obtain ⟨c', h3, h4⟩ := hid y c hy
        exact h.idInj x y b' c' h1 h3 (by rw [← h2, ← h4]; exact hbc)
      props := fun m hm e he => hB _ (h.props m hm e he)
      patProps := fun m hm e he => hB _ (h.patProps m hm e he)
      slices := fun m hm e he => hB _ (h.slices m hm e he)
      lib := fun i l' hi => (h.lib i l' hi).mono l
      libLinked := h.libLinked
      dt := fun i l' hi => (h.dt i l' hi).mono l
      dtLinked := h.dtLinked
      frags := h.frags
      unresolved := fun x hx => hB _ (h.unresolved x hx) }

theorem G.upd {r : Prop} {π : Perm} {s : St} {a : Addr} {f : Base → Base} (ha : π.b a) (hloc : ∀ b, s.base a = some b → (f b).location = b.location) :
    G r π s { s with bases := s.bases.modify a f } :=
  { G.refl r π s with
    bases := by simp
    loc := fun x b hb => by
      rw [base_upd]
      by_cases hx : x = a
      · subst hx; rw [if_pos rfl, hb]; exact ⟨_, rfl, hloc b hb⟩
      · rw [if_neg hx]; exact ⟨b, hb, rfl⟩
    base := fun x _ hp => .inl (by rw [base_upd, if_neg (fun hq : x = a => hp (hq ▸ ha))]) }

end GoRaml.Load
