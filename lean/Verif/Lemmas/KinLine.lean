import Verif.Lemmas.KinTop
import Verif.Spec.Lineage

/-!
# Lines of scalar types: what unwrapping makes of them
-/

namespace GoRaml.Kin

open GoRaml GoRaml.Spec GoRaml.Whole

/-- The types `D` are not unwrapped and not being visited, none of them is part of another type, and no object type has its properties in the map of facet definitions
of one of them. -/
structure OnTheirOwn (h : St) (D : Addr → Prop) : Prop where
  fresh : ∀ d b, D d → h.base d = some b → b.unwrapped = false ∧ b.visited = false
  items : ∀ a b f i, h.base a = some b → b.shape = some (.array f) → f.items = some i → ¬ D i
  members : ∀ a b i e l p, h.base a = some b → b.shape = some (.union (some i) e) → h.slices[i]? = some l → p ∈ l → ¬ D p
  props : ∀ m ∈ h.pmaps, ∀ e ∈ m, ¬ D e.2.base
  pats : ∀ m ∈ h.ppmaps, ∀ e ∈ m, ¬ D e.2.base
  defs : ∀ a b f i d c, h.base a = some b → b.shape = some (.object f) → f.properties = some i → D d → h.base d = some c → c.facetDefs ≠ some i

/-- What a shape without components accepts. -/
def LeafV (E : Ext) (q : Shape) (v : GoVal) : Prop := validateShape E (fun _ _ => .diverge) {} q v = .ok ()

theorem Restricting.plain {q : Shape} (h : Restricting q) : Plain q := by
  cases q <;> first | exact h.elim | exact ⟨trivial, by simp⟩

/-! ## Lines -/

theorem BuiltOn.unique {h : St} {d x y : Addr} (hx : BuiltOn h d x) (hy : BuiltOn h d y) : x = y := by
  cases hx with
  | «alias» h1 h2 =>
    cases hy with
    | «alias» k1 k2 => rw [h1] at k1; cases k1; rw [h2] at k2; cases k2; rfl
    | included k1 k2 => rw [h1] at k1; cases k1; rw [h2] at k2; cases k2
    | parent k1 k2 => rw [h1] at k1; cases k1; rw [h2] at k2; cases k2
  | included h1 h2 h3 h4 h5 =>
    cases hy with
    | «alias» k1 k2 => rw [h1] at k1; cases k1; rw [h2] at k2; cases k2
    | included k1 k2 k3 k4 k5 =>
      rw [h1] at k1; cases k1; rw [h3] at k3; cases k3; rw [h4] at k4; cases k4; rw [h5] at k5; cases k5; rfl
    | parent k1 k2 k3 => rw [h1] at k1; cases k1; rw [h3] at k3; cases k3
  | parent h1 h2 h3 h4 =>
    cases hy with
    | «alias» k1 k2 => rw [h1] at k1; cases k1; rw [h2] at k2; cases k2
    | included k1 k2 k3 => rw [h1] at k1; cases k1; rw [h3] at k3; cases k3
    | parent k1 k2 k3 k4 => rw [h1] at k1; cases k1; rw [h4] at k4; cases k4; rfl

theorem BuiltOn.notRoot {h : St} {d x : Addr} {b : Base} (hb : h.base d = some b) (h1 : b.alias = none) (h2 : b.link = none) (h3 : h.slice b.inherits = [])
    (hx : BuiltOn h d x) : False := by
  cases hx with
  | «alias» k1 k2 => rw [hb] at k1; cases k1; rw [h1] at k2; cases k2
  | included k1 k2 k3 => rw [hb] at k1; cases k1; rw [h2] at k3; cases k3
  | parent k1 k2 k3 k4 => rw [hb] at k1; cases k1; rw [h3] at k4; cases k4

theorem Line.unique {h : St} {d : Addr} {l m : List Addr} (hl : Line h d l) (hm : Line h d m) : l = m := by
  induction hl generalizing m with
  | root h1 h2 h3 h4 =>
    cases hm with
    | root => rfl
    | «alias» k1 k2 => rw [h1] at k1; cases k1; rw [h2] at k2; cases k2
    | on _ _ k3 _ => exact (BuiltOn.notRoot h1 h2 h3 h4 k3).elim
  | «alias» h1 h2 _ ih =>
    cases hm with
    | root k1 k2 => rw [h1] at k1; cases k1; rw [h2] at k2; cases k2
    | «alias» k1 k2 k3 => rw [h1] at k1; cases k1; rw [h2] at k2; cases k2; exact ih k3
    | on k1 k2 => rw [h1] at k1; cases k1; rw [h2] at k2; cases k2
  | on h1 h2 h3 _ ih =>
    cases hm with
    | root k1 k2 k3 k4 => exact (BuiltOn.notRoot k1 k2 k3 k4 h3).elim
    | «alias» k1 k2 => rw [h1] at k1; cases k1; rw [h2] at k2; cases k2
    | on k1 k2 k3 k4 => rw [BuiltOn.unique h3 k3] at ih; rw [ih k4]

theorem Line.next {h : St} {d x : Addr} {l : List Addr} (hl : Line h d l) (hx : BuiltOn h d x) : ∃ m, Line h x m ∧ m <:+ l := by
  cases hl with
  | root h1 h2 h3 h4 => exact (BuiltOn.notRoot h1 h2 h3 h4 hx).elim
  | «alias» h1 h2 h3 => rw [BuiltOn.unique hx (.alias h1 h2)]; exact ⟨l, h3, List.suffix_rfl⟩
  | on h1 h2 h3 h4 => rw [BuiltOn.unique hx h3]; exact ⟨_, h4, List.suffix_cons _ _⟩

theorem Descends.line {h : St} {d x : Addr} {l : List Addr} (hl : Line h d l) (hx : Descends h d x) : ∃ m, Line h x m ∧ m <:+ l := by
  induction hx with
  | refl => exact ⟨l, hl, List.suffix_rfl⟩
  | step _ h2 ih =>
    obtain ⟨m, h3, h4⟩ := ih
    obtain ⟨m', h5, h6⟩ := Line.next h3 h2
    exact ⟨m', h5, h6.trans h4⟩

/-- The number of steps from a type to the root of its line. -/
inductive Height (h : St) : Addr → Nat → Prop where
  | root {d : Addr} : (∀ x, ¬ BuiltOn h d x) → Height h d 0
  | on {d x : Addr} {n : Nat} : BuiltOn h d x → Height h x n → Height h d (n + 1)

theorem Height.unique {h : St} {d : Addr} {n m : Nat} (hn : Height h d n) (hm : Height h d m) : n = m := by
  induction hn generalizing m with
  | root h1 =>
    cases hm with
    | root => rfl
    | on k1 => exact (h1 _ k1).elim
  | on h1 _ ih =>
    cases hm with
    | root k1 => exact (k1 _ h1).elim
    | on k1 k2 => rw [BuiltOn.unique h1 k1] at ih; rw [ih k2]

theorem Line.height {h : St} {d : Addr} {l : List Addr} (hl : Line h d l) : ∃ n, Height h d n := by
  induction hl with
  | root h1 h2 h3 h4 => exact ⟨0, .root fun _ hx => BuiltOn.notRoot h1 h2 h3 h4 hx⟩
  | «alias» h1 h2 _ ih => obtain ⟨n, hn⟩ := ih; exact ⟨n + 1, .on (.alias h1 h2) hn⟩
  | on _ _ h3 _ ih => obtain ⟨n, hn⟩ := ih; exact ⟨n + 1, .on h3 hn⟩

open Classical in
/-- The height, if there is one. -/
noncomputable def height (h : St) (d : Addr) : Nat := if k : ∃ n, Height h d n then k.choose else 0

theorem height_lt {h : St} {d x : Addr} {l : List Addr} (hl : Line h d l) (hx : BuiltOn h d x) : height h x < height h d := by
  obtain ⟨n, hn⟩ := Line.height hl
  cases hn with
  | root h1 => exact (h1 _ hx).elim
  | @on _ y m h1 h2 =>
    have e1 : ∃ n, Height h d n := ⟨_, .on h1 h2⟩
    have e2 : ∃ n, Height h x n := ⟨m, by rw [BuiltOn.unique hx h1]; exact h2⟩
    have f1 : height h d = m + 1 := by unfold height; rw [dif_pos e1]; exact e1.choose_spec.unique (.on h1 h2)
    have f2 : height h x = m := by unfold height; rw [dif_pos e2]; exact e2.choose_spec.unique (by rw [BuiltOn.unique hx h1]; exact h2)
    omega

/-! ## What inheriting makes of a scalar type -/

theorem leafInherit_and {t g q : Shape} (ht : Restricting t) (h : leafInherit t g = .ok q)
    (hp : ∀ f f', t = .string f → g = .string f' → f.pattern = none ∨ f'.pattern = none) :
    Plain q ∧ (∀ E v, LeafV E q v ↔ LeafV E t v ∧ LeafV E g v) ∧
      ∀ f, q = .string f → f.pattern ≠ none → (∃ f', t = .string f' ∧ f'.pattern ≠ none) ∨ ∃ f', g = .string f' ∧ f'.pattern ≠ none := by
  have same : ∀ {t : Shape}, Plain t → (∀ f, t ≠ .string f) → Plain t ∧ (∀ E v, LeafV E t v ↔ LeafV E t v ∧ LeafV E t v) ∧
      ∀ f, t = .string f → f.pattern ≠ none → (∃ f', t = .string f' ∧ f'.pattern ≠ none) ∨ ∃ f', t = .string f' ∧ f'.pattern ≠ none :=
    fun hpl hn => ⟨hpl, fun _ _ => by simp, fun f e => absurd e (hn f)⟩
  cases t with
  | string f =>
    cases g <;> simp only [leafInherit, reduceCtorEq] at h
    rename_i g
    obtain ⟨r, h1, h2⟩ := Out.bind_ok.1 h
    cases h2
    refine ⟨⟨trivial, by simp⟩, fun E v => ?_, fun f' e hf' => ?_⟩
    · have e : ({ g with pattern := if f.pattern = none then g.pattern else none } : StringF) = g := by
        rcases hp f g rfl rfl with hp | hp
        · simp [hp]
        · cases g; simp_all
      have := string_inherit_ok E h1 v
      rw [e] at this
      exact this
    · cases e
      simp only [StringF.inherit] at h1
      obtain ⟨lo, _, h1⟩ := Out.bind_ok.1 h1
      obtain ⟨hi', _, h1⟩ := Out.bind_ok.1 h1
      obtain ⟨en, _, h1⟩ := Out.bind_ok.1 h1
      simp only [Out.ok.injEq] at h1
      subst h1
      cases hfp : f.pattern with
      | some p => exact .inl ⟨f, rfl, by rw [hfp]; simp⟩
      | none =>
        rw [hfp] at hf'
        exact .inr ⟨g, rfl, by simpa using hf'⟩
  | integer f =>
    cases g <;> simp only [leafInherit, reduceCtorEq] at h
    obtain ⟨r, h1, h2⟩ := Out.bind_ok.1 h
    cases h2
    exact ⟨⟨trivial, by simp⟩, fun E v => integer_inherit_ok E h1 v, fun _ e => by cases e⟩
  | number f =>
    cases g <;> simp only [leafInherit, reduceCtorEq] at h
    obtain ⟨r, h1, h2⟩ := Out.bind_ok.1 h
    cases h2
    exact ⟨⟨trivial, by simp⟩, fun E v => number_inherit_ok E ht.1 ht.2 h1 v, fun _ e => by cases e⟩
  | boolean f =>
    cases g <;> simp only [leafInherit, reduceCtorEq] at h
    obtain ⟨r, h1, h2⟩ := Out.bind_ok.1 h
    cases h2
    exact ⟨⟨trivial, by simp⟩, fun E v => boolean_inherit_ok h1 v, fun _ e => by cases e⟩
  | file f =>
    cases g <;> simp only [leafInherit, reduceCtorEq] at h
    obtain ⟨r, h1, h2⟩ := Out.bind_ok.1 h
    cases h2
    exact ⟨⟨trivial, by simp⟩, fun E v => file_inherit_ok h1 v, fun _ e => by cases e⟩
  | nil => cases g <;> simp only [leafInherit, reduceCtorEq, Out.ok.injEq] at h; subst h; exact same ⟨trivial, by simp⟩ (by simp)
  | dateOnly => cases g <;> simp only [leafInherit, reduceCtorEq, Out.ok.injEq] at h; subst h; exact same ⟨trivial, by simp⟩ (by simp)
  | timeOnly => cases g <;> simp only [leafInherit, reduceCtorEq, Out.ok.injEq] at h; subst h; exact same ⟨trivial, by simp⟩ (by simp)
  | datetimeOnly => cases g <;> simp only [leafInherit, reduceCtorEq, Out.ok.injEq] at h; subst h; exact same ⟨trivial, by simp⟩ (by simp)
  | _ => exact ht.elim

/-- An alias gets the facets of its target, except for booleans. -/
theorem aliasShape_same {t g q : Shape} (ht : Restricting t) (hb : ∀ e, t ≠ .boolean e) (h : aliasShape t g = .ok q) : q = g := by
  cases t <;> first | exact ht.elim | exact absurd rfl (hb _) | (cases g <;> simp only [aliasShape, reduceCtorEq, Out.ok.injEq] at h; exact h.symm)

/-! ## The family of a type -/

/-- The types that `a` descends from; in the end each of them shall accept what all declarations of its line accept. -/
def family (s : St) (a : Addr) : Fam where
  D := Descends s a
  P d q := Plain q ∧ ∀ l, Line s d l → (∀ E v, LeafV E q v ↔ ∀ c ∈ l, ∃ sh, s.shapeAt c = some sh ∧ LeafV E sh v) ∧
    ∀ f, q = .string f → f.pattern ≠ none → ∃ c ∈ l, HasPattern s c
  s0 := s

section
variable {s : St} {a : Addr} {l : List Addr} (hwf : WellFormed s) (hl : Line s a l) (hd : ∀ x, Descends s a x → PlainDecl s x)
  (hp : l.Pairwise fun c c' => ¬ (HasPattern s c ∧ HasPattern s c')) (hap : OnTheirOwn s (Descends s a))
include hwf hl hd hp hap

theorem family_closed : Closed (family s a) (height s) := by
  have shape : ∀ x, Descends s a x → ∃ b sh, s.base x = some b ∧ b.shape = some sh ∧ Restricting sh ∧ s.shapeAt x = some sh := fun x hx => by
    obtain ⟨sh, h1, h2⟩ := (hd x hx).scalar
    obtain ⟨b, hb, hbs⟩ := base_of_shape h1
    exact ⟨b, sh, hb, hbs, h2, h1⟩
  -- inheriting
  have step : ∀ d x b sh, Descends s a d → s.base d = some b → b.shape = some sh → b.alias = none → BuiltOn s d x →
      ∀ q r, (family s a).P x q → leafInherit sh q = .ok r → (family s a).P d r := fun d x b sh hdd hb hsh hal hx q r hq hr => by
    obtain ⟨b', sh', hb', hsh', hres, hat⟩ := shape d hdd
    rw [hb] at hb'; cases hb'
    rw [hsh] at hsh'; cases hsh'
    obtain ⟨m, hm, hsuf⟩ := Descends.line hl (hdd.step hx)
    obtain ⟨md, hmd, hsufd⟩ := Descends.line hl hdd
    have hmd' : Line s d (d :: m) := .on hb hal hx hm
    rw [Line.unique hmd hmd'] at hsufd
    obtain ⟨hq1, hq2⟩ := hq.2 m hm
    have hpw := hp.sublist hsufd.sublist
    obtain ⟨k1, k2, k3⟩ := leafInherit_and hres hr fun f f' e e' => by
      by_cases hf : f.pattern = none
      · exact .inl hf
      · refine .inr (Classical.byContradiction fun hf' => ?_)
        obtain ⟨c, hc, hcp⟩ := hq2 f' e' hf'
        exact (List.pairwise_cons.1 hpw).1 c hc ⟨⟨f, by rw [hat, e], hf⟩, hcp⟩
    refine ⟨k1, fun l' hl' => ?_⟩
    rw [Line.unique hl' hmd']
    refine ⟨fun E v => ?_, fun f e hf => ?_⟩
    · rw [k2, hq1]
      simp only [List.mem_cons, forall_eq_or_imp]
      constructor
      · rintro ⟨h1, h2⟩; exact ⟨⟨sh, hat, h1⟩, h2⟩
      · rintro ⟨⟨sh', h0, h1⟩, h2⟩; rw [hat] at h0; cases h0; exact ⟨h1, h2⟩
    · rcases k3 f e hf with ⟨f', e', h'⟩ | ⟨f', e', h'⟩
      · exact ⟨d, by simp, f', by rw [hat, e'], h'⟩
      · obtain ⟨c, hc, hcp⟩ := hq2 f' e' h'
        exact ⟨c, by simp [hc], hcp⟩
  refine ⟨fun d q h => h.1, fun d hdd => ?_, fun d b sh t hdd hb hsh hal => ?_, fun d b sh k hdd hb hsh hal hlk => ?_, fun d b sh hdd hb hsh hal hlk => ?_⟩
  · obtain ⟨b, sh, hb, hsh, hres, _⟩ := shape d hdd
    obtain ⟨h1, h2⟩ := hap.fresh d b hdd hb
    exact ⟨b, sh, hb, hsh, Restricting.plain hres, h1, h2⟩
  · have hx : BuiltOn s d t := .alias hb hal
    obtain ⟨md, hmd, _⟩ := Descends.line hl hdd
    refine ⟨hdd.step hx, height_lt hmd hx, fun q r hq hr => ?_⟩
    obtain ⟨b', sh', hb', hsh', hres, hat⟩ := shape d hdd
    have hb : s.base d = some b := hb
    rw [hb] at hb'; cases hb'
    rw [hsh] at hsh'; cases hsh'
    have := aliasShape_same hres (fun e he => by
      have := (hd d hdd).boolean b e hb (by rw [hsh, he])
      rw [hal] at this; cases this) hr
    subst this
    refine ⟨hq.1, fun l' hl' => ?_⟩
    obtain ⟨m, hm, _⟩ := Descends.line hl (hdd.step hx)
    rw [Line.unique hl' (.alias hb hal hm)]
    exact hq.2 m hm
  · obtain ⟨md, hmd, _⟩ := Descends.line hl hdd
    have hb : s.base d = some b := hb
    obtain ⟨t, x, h1, h2, _⟩ := (hwf d b hb).link k hlk
    have hx : BuiltOn s d x := .included hb hal hlk h1 h2
    exact ⟨t, x, h1, h2, hdd.step hx, height_lt hmd hx, step d x b sh hdd hb hsh hal hx⟩
  · obtain ⟨md, hmd, _⟩ := Descends.line hl hdd
    have hb : s.base d = some b := hb
    have slice : ∀ {m : List Addr}, s.slice b.inherits = m → (b.inherits = none ∧ m = []) ∨ ∃ i : Nat, b.inherits = some i ∧ s.slices[i]? = some m := fun {m} hm => by
      cases hi : b.inherits with
      | none => rw [hi] at hm; exact .inl ⟨rfl, hm.symm⟩
      | some i =>
        obtain ⟨m', h1, _⟩ := (hwf d b hb).inherits i hi
        rw [hi] at hm
        simp only [St.slice, h1, Option.getD_some] at hm
        exact .inr ⟨i, rfl, by rw [← hm]; exact h1⟩
    cases hmd with
    | root h1 h2 h3 h4 =>
      rw [hb] at h1; cases h1
      refine .inl ⟨(slice h4).imp (fun h => h.1) fun ⟨i, h5, h6⟩ => ⟨i, h5, h6⟩, ?_⟩
      obtain ⟨b', sh', hb', hsh', hres, hat⟩ := shape d hdd
      rw [hb] at hb'; cases hb'
      rw [hsh] at hsh'; cases hsh'
      refine ⟨Restricting.plain hres, fun l' hl' => ?_⟩
      rw [Line.unique hl' (.root hb h2 h3 h4)]
      refine ⟨fun E v => ?_, fun f e hf => ⟨d, by simp, f, by rw [hat, e], hf⟩⟩
      simp only [List.mem_singleton, forall_eq]
      exact ⟨fun h => ⟨sh, hat, h⟩, fun ⟨sh', h0, h⟩ => by rw [hat] at h0; cases h0; exact h⟩
    | «alias» h1 h2 => rw [hb] at h1; cases h1; rw [hal] at h2; cases h2
    | @on _ x _ m h1 h2 h3 h4 =>
      right
      have hx := h3
      cases h3 with
      | «alias» k1 k2 => rw [hb] at k1; cases k1; rw [hal] at k2; cases k2
      | included k1 k2 k3 => rw [hb] at k1; cases k1; rw [hlk] at k3; cases k3
      | parent k1 k2 k3 k4 =>
        rw [hb] at k1; cases k1
        rcases slice k4 with ⟨_, h⟩ | ⟨i, h5, h6⟩
        · cases h
        · exact ⟨i, x, h5, h6, hdd.step hx, height_lt (.on hb hal hx h4) hx, step d x b sh hdd hb hsh hal hx⟩

omit hl hp in
theorem family_inv (hn : ∀ x, Descends s a x → NotFirstOfMany s x) : Inv (family s a) s where
  len d h := by
    obtain ⟨sh, h1, _⟩ := (hd d h).scalar
    obtain ⟨b, hb, _⟩ := base_of_shape h1
    exact (List.getElem?_eq_some_iff.1 hb).1
  base x b sh hb hsh := by
    cases sh with
    | array f => exact fun i hi => hap.items x b f i hb hsh hi
    | object f => exact fun i hi ⟨d, c, h1, h2, h3⟩ => hap.defs x b f i d c hb hsh hi h1 h2 h3
    | union o e => exact fun i hi ⟨m, h1, p, h2, h3⟩ => by subst hi; exact hap.members x b i e m p hb hsh h1 h2 h3
    | _ => trivial
  props := hap.props
  pats := hap.pats
  empt i := by
    rintro ⟨d, b, h1, h2, h3⟩
    have h2 : s.base d = some b := h2
    obtain ⟨m, h4, _⟩ := (hwf d b h2).facetDefs i h3
    have := (hd d h1).noFacets b h2
    rw [h3] at this
    simp only [St.props, h4, Option.getD_some] at this
    rw [h4, this]
  slc i m h hn p hp hD := hn ⟨m, h, p, hp, hD⟩
  one i p h _ := h
  zero i h := h
  many i p q m h hD := hn p hD _ (List.mem_of_getElem? h) q m rfl
  slen i := by rintro ⟨m, h, _⟩; exact (List.getElem?_eq_some_iff.1 h).1
  dts k d x h1 h2 _ := ⟨d, h1, h2⟩

/-- After a successful `UnwrapShapes` an unwrapped type accepts what all declarations of its line accept. -/
theorem unwrapShapes_line (hn : ∀ x, Descends s a x → NotFirstOfMany s x) {K : Par} [K.Rec] {s' : St} {n : Nat} {fs fs' : List FragRef} (hw : Wf K (cleared s))
    (hf : ∀ f ∈ fs, FragThere (cleared s) f) (hf' : ∀ f ∈ fs', FragThere (cleared s) f) (hx : ∀ d ∈ s.domainExts, ∃ a, d.definedBy = some a)
    (hr : unwrapShapes n fs fs' s = (.ok (), s')) (hv : ∀ x, Descends s a x → ¬ LeftVisited s' x)
    (hu : ∃ b, s'.base a = some b ∧ b.unwrapped = true) (E : Ext) (v : GoVal) : Accepts E s' a v ↔ ∀ c ∈ l, Accepts E s c v := by
  obtain ⟨q, h1, h2⟩ := unwrapShapes_family (family_closed hwf hl hd hp hap) hw hf hf' hx rfl (family_inv hwf hd hap hn) hr (fun x hxD hvis => by
    refine hv x hxD ?_
    unfold visitedAt at hvis
    obtain ⟨b, h3, h4⟩ := Option.map_eq_some_iff.1 hvis
    exact ⟨b, h3, h4⟩) (Descends.refl a) hu
  rw [leaf_accepts h1 h2.1.1]
  refine ((h2.2 l hl).1 E v).trans ?_
  have mem : ∀ c ∈ l, Descends s a c := by
    have key : ∀ {x : Addr} {m : List Addr}, Line s x m → Descends s a x → ∀ c ∈ m, Descends s a c := by
      intro x m hm
      induction hm with
      | root => intro h c hc; rw [List.mem_singleton.1 hc]; exact h
      | «alias» k1 k2 _ ih => intro h c hc; exact ih (h.step (.alias k1 k2)) c hc
      | on k1 k2 k3 _ ih =>
        intro h c hc
        rcases List.mem_cons.1 hc with rfl | hc
        · exact h
        · exact ih (h.step k3) c hc
    exact key hl (.refl a)
  constructor
  · intro h c hc
    obtain ⟨sh, h3, h4⟩ := h c hc
    obtain ⟨sh', h5, h6⟩ := (hd c (mem c hc)).scalar
    rw [h3] at h5; cases h5
    exact (leaf_accepts h3 (Restricting.plain h6).1 v).2 h4
  · intro h c hc
    obtain ⟨sh', h5, h6⟩ := (hd c (mem c hc)).scalar
    exact ⟨sh', h5, (leaf_accepts h5 (Restricting.plain h6).1 v).1 (h c hc)⟩

end

end GoRaml.Kin
