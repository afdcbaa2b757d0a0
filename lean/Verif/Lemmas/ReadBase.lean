import Verif.Spec.Decode
import Verif.Lemmas.LoadResolve

/-!
# Decoding fidelity: regions of the heap, and how descriptions survive changes elsewhere
-/

namespace GoRaml.Read

open GoRaml GoRaml.Spec GoRaml.Load

/-! ## Entries -/

theorem entriesOf_pair (k v : YNode) (rest : List YNode) : entriesOf (k :: v :: rest) = (k.value, v) :: entriesOf rest := rfl

theorem lastOf_snoc (k : String) (e : String × YNode) : ∀ es, lastOf k (es ++ [e]) = if e.1 = k then some e.2 else lastOf k es
  | [] => by simp only [List.nil_append, lastOf]
  | x :: es => by
    simp only [List.cons_append, lastOf, lastOf_snoc k e es]
    by_cases h : e.1 = k
    · simp [h]
    · simp [h]

theorem reads_here {α : Type} {k : String} {es : List (String × YNode)} {d x : α} {read : YNode → α → Prop} {v : YNode} (h : read v x) :
    Reads k (es ++ [(k, v)]) d read x := by
  simp only [Reads, lastOf_snoc, if_pos]; exact h

theorem reads_there {α : Type} {k k' : String} {es : List (String × YNode)} {d x : α} {read : YNode → α → Prop} {v : YNode} (hk : k' ≠ k)
    (h : Reads k es d read x) : Reads k (es ++ [(k', v)]) d read x := by
  simp only [Reads, lastOf_snoc, if_neg hk]; exact h

theorem reads_nil {α : Type} {k : String} {d : α} {read : YNode → α → Prop} : Reads k [] d read d := rfl

theorem Reads.mono {α : Type} {k : String} {es : List (String × YNode)} {d x : α} {read read' : YNode → α → Prop} (h : Reads k es d read x)
    (hr : ∀ v x, read v x → read' v x) : Reads k es d read' x := by
  unfold Reads at *
  split at h
  · exact h
  · exact hr _ _ h

theorem filled_snoc {α : Type} (l : List (String × α)) (e : String × α) : filled (l ++ [e]) = OMap.set (filled l) e.1 e.2 := by
  simp [filled]

theorem lists_nil {α : Type} {P : String × YNode → String × α → Prop} : Lists P [] [] := ⟨[], .nil, rfl⟩

theorem Lists.snoc {α : Type} {P : String × YNode → String × α → Prop} {es : List (String × YNode)} {m : OMap α} (h : Lists P es m) {e : String × YNode}
    {k : String} {x : α} (hx : P e (k, x)) : Lists P (es ++ [e]) (OMap.set m k x) := by
  obtain ⟨l, h1, rfl⟩ := h
  exact ⟨l ++ [(k, x)], List.rel_append h1 (.cons hx .nil), (filled_snoc l (k, x)).symm⟩

theorem forall₂_snoc {α β : Type} {P : α → β → Prop} {l : List α} {l' : List β} (h : List.Forall₂ P l l') {a : α} {b : β} (hx : P a b) :
    List.Forall₂ P (l ++ [a]) (l' ++ [b]) := List.rel_append h (.cons hx .nil)

theorem Lists.mono {α : Type} {P P' : String × YNode → String × α → Prop} {es : List (String × YNode)} {m : OMap α} (h : Lists P es m)
    (hp : ∀ e x, P e x → P' e x) : Lists P' es m := by
  obtain ⟨l, h1, h2⟩ := h
  exact ⟨l, h1.imp fun e x => hp e x, h2⟩

/-! ## Passing from one state to another -/

section
variable {E : Env} {s s' : St} {loc : String} {R R' : YNode → String → Addr → Prop}

/-- What may change: bases of parts keep their `required`. -/
def Carry (s s' : St) (R R' : YNode → String → Addr → Prop) : Prop :=
  ∀ v n a, R v n a → R' v n a ∧ ∀ b, s.base a = some b → ∃ b', s'.base a = some b' ∧ b'.required = b.required

theorem Carry.refl (h : ∀ v n a, R v n a → R' v n a) : Carry s s R R' := fun v n a hr => ⟨h v n a hr, fun b hb => ⟨b, hb, rfl⟩⟩

theorem PropertyReads.carry (c : Carry s s' R R') {e : String × YNode} {x : String × Property} (h : PropertyReads s R e x) : PropertyReads s' R' e x := by
  obtain ⟨h1, h2, b, h3, h4⟩ := h
  obtain ⟨h5, h6⟩ := c _ _ _ h2
  obtain ⟨b', h7, h8⟩ := h6 b h3
  exact ⟨h1, h5, b', h7, by rw [h8]; exact h4⟩

theorem PatternReads.carry (c : Carry s s' R R') {e : String × YNode} {x : String × PatternProperty} (h : PatternReads R e x) : PatternReads R' e x :=
  ⟨h.1, h.2.1, (c _ _ _ h.2.2).1⟩

/-- The maps of a shape are the same in both states. -/
def SameMaps (s s' : St) (sh : Shape) : Prop :=
  ∀ f, sh = .object f → s'.props f.properties = s.props f.properties ∧ s'.patProps f.patternProperties = s.patProps f.patternProperties

theorem FacetsRead.carry (c : Carry s s' R R') {own : Prop} {es : List (String × YNode)} {sh : Shape} (hm : SameMaps s s' sh)
    (h : FacetsRead E s loc R own es sh) : FacetsRead E s' loc R' own es sh := by
  cases sh with
  | array f =>
    obtain ⟨h1, h2, h3, h4⟩ := h
    exact ⟨h1, h2, h3, fun ho => Reads.mono (h4 ho) fun v x ⟨a, hx, hr⟩ => ⟨a, hx, (c _ _ _ hr).1⟩⟩
  | object f =>
    obtain ⟨h1, h2, h3, h4, h5, h6⟩ := h
    refine ⟨h1, h2, h3, h4, h5, ?_, ?_⟩
    · rw [(hm f rfl).1]; exact Lists.mono h6.props fun e x hx => PropertyReads.carry c hx
    · rw [(hm f rfl).2]; exact Lists.mono h6.patProps fun e x hx => PatternReads.carry c hx
  | _ => exact h

theorem Has.carry (c : Carry s s' R R') {own : Prop} {t : String} {facets : Option (List YNode)} {b : Base} (hm : ∀ sh, b.shape = some sh → SameMaps s s' sh)
    (hf : s'.facetMap b.facets = s.facetMap b.facets) (h : Has E s loc R own t facets b) : Has E s' loc R' own t facets b where
  type := h.type
  typed := h.typed
  reads := fun sh hs => FacetsRead.carry c (hm sh hs) (h.reads sh hs)
  custom := by rw [hf]; exact h.custom

theorem TreeHas.carry (c : Carry s s' R R') {facets : Option (List YNode)} {b : Base} (hm : ∀ sh, b.shape = some sh → SameMaps s s' sh)
    (hf : s'.facetMap b.facets = s.facetMap b.facets) (hr : ∀ t a, getReferenced s Lib.types t loc = .ok a → getReferenced s' Lib.types t loc = .ok a)
    (ht : ∀ a b, s.base a = some b → Typed b → ∃ b', s'.base a = some b' ∧ Typed b' ∧ b'.type = b.type) :
    ∀ tree, TreeHas E s loc R facets b tree → TreeHas E s' loc R' facets b tree
  | .prim _, h => Has.carry c hm hf h
  | .ref x y, ⟨ref, rb, h1, h2, h3, h4⟩ => by
    obtain ⟨rb', k1, k2, k3⟩ := ht _ _ h2 h3
    exact ⟨ref, rb', hr _ _ h1, k1, k2, by rw [k3]; exact Has.carry c hm hf h4⟩
  | .group e, h => TreeHas.carry c hm hf hr ht e h
  | .optional _, h => Has.carry c hm hf h
  | .union _ _, h => Has.carry c hm hf h
  | .array _, h => Has.carry c hm hf h

/-- Extensions keep their names, values and locations. -/
def SameExts (s s' : St) : Prop := ∀ (i : Nat) de, s.domainExts[i]? = some de →
  ∃ de', s'.domainExts[i]? = some de' ∧ de'.name = de.name ∧ de'.value = de.value ∧ de'.location = de.location

theorem SameExts.refl (s : St) : SameExts s s := fun _ de h => ⟨de, h, rfl, rfl, rfl⟩

theorem SameExts.trans {s1 s2 s3 : St} (h : SameExts s1 s2) (h' : SameExts s2 s3) : SameExts s1 s3 := fun i de hd => by
  obtain ⟨d2, k1, k2, k3, k4⟩ := h i de hd
  obtain ⟨d3, l1, l2, l3, l4⟩ := h' i d2 k1
  exact ⟨d3, l1, l2.trans k2, l3.trans k3, l4.trans k4⟩

theorem AnnotationReads.carry (h : SameExts s s') {e : String × YNode} {x : String × Nat} (ha : AnnotationReads E s loc e x) : AnnotationReads E s' loc e x := by
  obtain ⟨h1, de, h2, h3, h4, h5⟩ := ha
  obtain ⟨de', k1, k2, k3, k4⟩ := h _ _ h2
  exact ⟨h1, de', k1, k2.trans h3, k4.trans h4, by rw [k3]; exact h5⟩

theorem Heading.carry (c : Carry s s' R R') {es : List (String × YNode)} {b : Base} (hp : s'.props b.facetDefs = s.props b.facetDefs) (he : SameExts s s')
    (h : Heading E s loc R es b) : Heading E s' loc R' es b where
  displayName := h.displayName
  description := h.description
  required := h.required
  default := h.default
  example_ := h.example_
  examples := h.examples
  facetDefs := by rw [hp]; exact Reads.mono h.facetDefs fun v m hm => Lists.mono hm fun e x hx => PropertyReads.carry c hx
  annotations := Lists.mono h.annotations fun e x hx => AnnotationReads.carry he hx

end

/-! ## Regions -/

/-- Bases, property maps and pattern property maps. -/
structure Region where
  b : Nat → Prop
  p : Nat → Prop
  q : Nat → Prop

/-- All of it. -/
def Region.all : Region := ⟨fun _ => True, fun _ => True, fun _ => True⟩

def Region.none : Region := ⟨fun _ => False, fun _ => False, fun _ => False⟩

/-- What is not in the state yet. -/
def since (s : St) : Region := ⟨fun z => s.bases.length ≤ z, fun i => s.pmaps.length ≤ i, fun i => s.ppmaps.length ≤ i⟩

/-- What is in the second state but not in the first. -/
def between (s s' : St) : Region :=
  ⟨fun z => s.bases.length ≤ z ∧ z < s'.bases.length, fun i => s.pmaps.length ≤ i ∧ i < s'.pmaps.length, fun i => s.ppmaps.length ≤ i ∧ i < s'.ppmaps.length⟩

structure Region.Le (r r' : Region) : Prop where
  b : ∀ i, r.b i → r'.b i
  p : ∀ i, r.p i → r'.p i
  q : ∀ i, r.q i → r'.q i

theorem Region.Le.rfl {r : Region} : r.Le r := ⟨fun _ h => h, fun _ h => h, fun _ h => h⟩

theorem Region.Le.trans {r1 r2 r3 : Region} (h : r1.Le r2) (h' : r2.Le r3) : r1.Le r3 :=
  ⟨fun i hi => h'.b i (h.b i hi), fun i hi => h'.p i (h.p i hi), fun i hi => h'.q i (h.q i hi)⟩

def Region.or (r r' : Region) : Region := ⟨fun i => r.b i ∨ r'.b i, fun i => r.p i ∨ r'.p i, fun i => r.q i ∨ r'.q i⟩

theorem Region.le_left {r r' : Region} : r.Le (r.or r') := ⟨fun _ => .inl, fun _ => .inl, fun _ => .inl⟩
theorem Region.le_right {r r' : Region} : r'.Le (r.or r') := ⟨fun _ => .inr, fun _ => .inr, fun _ => .inr⟩
theorem Region.Le.or {r1 r2 r : Region} (h : r1.Le r) (h' : r2.Le r) : (r1.or r2).Le r :=
  ⟨fun i hi => hi.elim (h.b i) (h'.b i), fun i hi => hi.elim (h.p i) (h'.p i), fun i hi => hi.elim (h.q i) (h'.q i)⟩

theorem Region.none_le {r : Region} : Region.none.Le r := ⟨fun _ h => h.elim, fun _ h => h.elim, fun _ h => h.elim⟩
theorem Region.le_all {r : Region} : r.Le .all := ⟨fun _ _ => trivial, fun _ _ => trivial, fun _ _ => trivial⟩

theorem between_le_since {s s' : St} : (between s s').Le (since s) := ⟨fun _ h => h.1, fun _ h => h.1, fun _ h => h.1⟩

/-! ## Descriptions that allow for references still to be resolved -/

/-- The maps of a shape are there and in the region. -/
def MapsIn (s : St) (rg : Region) (sh : Option Shape) : Prop := ∀ f, sh = some (.object f) →
  (∀ i, f.properties = some i → rg.p i ∧ i < s.pmaps.length) ∧ ∀ i, f.patternProperties = some i → rg.q i ∧ i < s.ppmaps.length

/-- The base and its maps are in the region. -/
structure Foot (s : St) (rg : Region) (a : Addr) (b : Base) : Prop where
  at_ : rg.b a
  facets : b.facets = some a
  there : a < s.fmaps.length
  defs : ∀ i, b.facetDefs = some i → rg.p i ∧ i < s.pmaps.length
  maps : MapsIn s rg b.shape

/-- A reference still to be resolved. -/
def Pending (s : St) (R : YNode → String → Addr → Prop) (name : String) (b : Base) : Source → Prop
  | .named _ => False
  | .json _ => False
  | .expr text => b.type = text ∧ b.link = none ∧ b.inherits = none
  | .included path label => b.typeLabel = label ∧ ∃ i d, b.link = some i ∧ s.dts[i]? = some d ∧ d.location = path
  | .parents nodes => b.type = "composite" ∧ b.link = none ∧ ∃ i l, b.inherits = some i ∧ s.slices[i]? = some l ∧ List.Forall₂ (fun n p => R n name p) nodes l

/-- Sources that resolution deals with. -/
def Late : Source → Prop
  | .named _ => False
  | .json _ => False
  | _ => True

/-- As `TypeReads`, within a region; before resolution (`ρ` false) references are unresolved. -/
def Step (E : Env) (ρ : Prop) (rg : Region) (s : St) (loc : String) (R : YNode → String → Addr → Prop) (v : YNode) (name : String) (a : Addr) : Prop :=
  ∃ b es t facets src, s.base a = some b ∧ b.name = name ∧ b.location = loc ∧ Parts v es t facets ∧ Heading E s loc R es b ∧
    IsSource E loc (facets.getD []) t src ∧ Foot s rg a b ∧
    ((b.shape = some (.unknown facets) ∧ s.facetMap b.facets = [] ∧ Pending s R name b src) ∨ ((Late src → ρ) ∧ SourceReads E s loc R name facets b src))

/-- As `Describes`. -/
def D (E : Env) (ρ : Prop) (rg : Region) (s : St) (loc : String) (v : YNode) (name : String) (a : Addr) : Prop :=
  ∀ R : YNode → String → Addr → Prop, (∀ v name a, Step E ρ rg s loc R v name a → R v name a) → R v name a

/-- What stays of a base when it is resolved. -/
structure SameHead (b b' : Base) : Prop where
  name : b'.name = b.name
  location : b'.location = b.location
  displayName : b'.displayName = b.displayName
  description : b'.description = b.description
  required : b'.required = b.required
  default : b'.default = b.default
  example_ : b'.example_ = b.example_
  examples : b'.examples = b.examples
  facetDefs : b'.facetDefs = b.facetDefs
  domainProps : b'.domainProps = b.domainProps
  facets : b'.facets = b.facets
  link : b'.link = b.link

theorem SameHead.rfl {b : Base} : SameHead b b := ⟨_root_.rfl, _root_.rfl, _root_.rfl, _root_.rfl, _root_.rfl, _root_.rfl, _root_.rfl, _root_.rfl, _root_.rfl, _root_.rfl, _root_.rfl, _root_.rfl⟩

theorem SameHead.trans {b1 b2 b3 : Base} (h : SameHead b1 b2) (h' : SameHead b2 b3) : SameHead b1 b3 :=
  ⟨h'.name.trans h.name, h'.location.trans h.location, h'.displayName.trans h.displayName, h'.description.trans h.description, h'.required.trans h.required,
    h'.default.trans h.default, h'.example_.trans h.example_, h'.examples.trans h.examples, h'.facetDefs.trans h.facetDefs, h'.domainProps.trans h.domainProps,
    h'.facets.trans h.facets, h'.link.trans h.link⟩

/-- What the reference `b` has become: `b'`. -/
def ResolvedTo (E : Env) (n : Region) (s' : St) (b b' : Base) (facets : Option (List YNode)) : Prop :=
  match b.link with
  | some i => b'.inherits = b.inherits ∧ b'.typeLabel = b.typeLabel ∧ ∃ d l lb, s'.dts[i]? = some d ∧ d.shape = some l ∧ s'.base l = some lb ∧ Typed lb ∧
      Has E s' b.location (D E True n s' b.location) True lb.type facets b'
  | none =>
    if b.type = "composite" then b'.inherits = b.inherits ∧ ∃ p pb, (s'.slice b.inherits).head? = some p ∧ s'.base p = some pb ∧ Typed pb ∧
      Has E s' b.location (D E True n s' b.location) True pb.type facets b'
    else ∃ tree, parseTypeExpression b.type = some tree ∧ TreeHas E s' b.location (D E True n s' b.location) facets b' tree

/-- The reference `b` at `z` has been resolved; new parts are in `n`. -/
def Resolved (E : Env) (n : Region) (s' : St) (z : Addr) (b : Base) : Prop :=
  ∃ facets b', b.shape = some (.unknown facets) ∧ s'.base z = some b' ∧ SameHead b b' ∧ MapsIn s' n b'.shape ∧ Typed b' ∧ ResolvedTo E n s' b b' facets

/-- In the region nothing has changed, except that references have been resolved, with new parts in `n`. -/
structure Later (E : Env) (ρ : Prop) (rg n : Region) (s s' : St) : Prop where
  b : ∀ z b, rg.b z → s.base z = some b → (s'.base z = some b ∧ s'.fmaps[z]? = s.fmaps[z]?) ∨ (ρ ∧ Unk b ∧ Resolved E n s' z b)
  p : ∀ i m, rg.p i → s.pmaps[i]? = some m → s'.pmaps[i]? = some m
  q : ∀ i m, rg.q i → s.ppmaps[i]? = some m → s'.ppmaps[i]? = some m
  fmaps : s.fmaps.length ≤ s'.fmaps.length
  pmaps : s.pmaps.length ≤ s'.pmaps.length
  ppmaps : s.ppmaps.length ≤ s'.ppmaps.length
  slices : s.slices <+: s'.slices
  exts : SameExts s s'
  dts : ∀ (i : Nat) d, s.dts[i]? = some d → ∃ d', s'.dts[i]? = some d' ∧ d'.location = d.location ∧ d'.shape = d.shape
  types : ρ → ∀ z b, s.base z = some b → Typed b → ∃ b', s'.base z = some b' ∧ Typed b' ∧ b'.type = b.type
  refs : ρ → ∀ t loc a, getReferenced s Lib.types t loc = .ok a → getReferenced s' Lib.types t loc = .ok a

section
variable {E : Env} {ρ : Prop} {rg n : Region} {s s' : St} {loc : String}

theorem MapsIn.mono {r r' : Region} (hl : r.Le r') {sh : Option Shape} (h : MapsIn s r sh) : MapsIn s r' sh := fun f hf =>
  ⟨fun i hi => ⟨hl.p i ((h f hf).1 i hi).1, ((h f hf).1 i hi).2⟩, fun i hi => ⟨hl.q i ((h f hf).2 i hi).1, ((h f hf).2 i hi).2⟩⟩

theorem SourceReads.mono {R R' : YNode → String → Addr → Prop} (hR : ∀ v n a, R v n a → R' v n a) {name : String} {facets : Option (List YNode)} {b : Base} :
    ∀ {src : Source}, SourceReads E s loc R name facets b src → SourceReads E s loc R' name facets b src
  | .named _, h => Has.carry (.refl hR) (fun _ _ _ _ => ⟨rfl, rfl⟩) rfl h
  | .json _, h => h
  | .expr _, ⟨tree, h1, h2⟩ => ⟨tree, h1, TreeHas.carry (.refl hR) (fun _ _ _ _ => ⟨rfl, rfl⟩) rfl (fun _ _ h => h) (fun _ b h ht => ⟨b, h, ht, rfl⟩) tree h2⟩
  | .included _ _, ⟨h0, i, d, l, lb, h1, h2, h3, h4, h5, h6, h7⟩ =>
    ⟨h0, i, d, l, lb, h1, h2, h3, h4, h5, h6, Has.carry (.refl hR) (fun _ _ _ _ => ⟨rfl, rfl⟩) rfl h7⟩
  | .parents _, ⟨h0, p, pb, h1, h2, h3, h4⟩ => ⟨h0.imp fun n p => hR n name p, p, pb, h1, h2, h3, Has.carry (.refl hR) (fun _ _ _ _ => ⟨rfl, rfl⟩) rfl h4⟩

theorem Pending.mono {R R' : YNode → String → Addr → Prop} (hR : ∀ v n a, R v n a → R' v n a) {name : String} {b : Base} :
    ∀ {src : Source}, Pending s R name b src → Pending s R' name b src
  | .named _, h => h
  | .json _, h => h
  | .expr _, h => h
  | .included _ _, h => h
  | .parents _, ⟨h1, h2, i, l, h3, h4, h5⟩ => ⟨h1, h2, i, l, h3, h4, h5.imp fun n p => hR n name p⟩

theorem Step.mono {R R' : YNode → String → Addr → Prop} (hR : ∀ v n a, R v n a → R' v n a) {ρ' : Prop} {rg' : Region} (hρ : ρ → ρ') (hl : rg.Le rg')
    {v : YNode} {name : String} {a : Addr} (h : Step E ρ rg s loc R v name a) : Step E ρ' rg' s loc R' v name a := by
  obtain ⟨b, es, t, facets, src, h1, h2, h3, h4, h5, h6, h7, h8⟩ := h
  refine ⟨b, es, t, facets, src, h1, h2, h3, h4, Heading.carry (.refl hR) rfl (.refl s) h5, h6,
    ⟨hl.b _ h7.at_, h7.facets, h7.there, fun i hi => ⟨hl.p i (h7.defs i hi).1, (h7.defs i hi).2⟩, h7.maps.mono hl⟩, ?_⟩
  rcases h8 with ⟨k1, k2, k3⟩ | ⟨k1, k2⟩
  · exact .inl ⟨k1, k2, Pending.mono hR k3⟩
  · exact .inr ⟨fun hs => hρ (k1 hs), SourceReads.mono hR k2⟩

theorem D.fold {v : YNode} {name : String} {a : Addr} (h : Step E ρ rg s loc (D E ρ rg s loc) v name a) : D E ρ rg s loc v name a := fun R hR =>
  hR _ _ _ (h.mono (fun v n a hd => hd R hR) id .rfl)

theorem D.unfold {v : YNode} {name : String} {a : Addr} (h : D E ρ rg s loc v name a) : Step E ρ rg s loc (D E ρ rg s loc) v name a :=
  h (Step E ρ rg s loc (D E ρ rg s loc)) fun _ _ _ h' => h'.mono (fun _ _ _ hs => D.fold hs) id .rfl

theorem D.mono {ρ' : Prop} {rg' : Region} (hρ : ρ → ρ') (hl : rg.Le rg') {v : YNode} {name : String} {a : Addr} (h : D E ρ rg s loc v name a) :
    D E ρ' rg' s loc v name a := h _ fun _ _ _ h' => D.fold (h'.mono (fun _ _ _ x => x) hρ hl)

theorem D.foot {v : YNode} {name : String} {a : Addr} (h : D E ρ rg s loc v name a) : ∃ b, s.base a = some b ∧ Foot s rg a b := by
  obtain ⟨b, _, _, _, _, h1, _, _, _, _, _, h7, _⟩ := h.unfold
  exact ⟨b, h1, h7⟩

theorem props_eq {i : Option Nat} (hi : ∀ j, i = some j → rg.p j ∧ j < s.pmaps.length) (hl : Later E ρ rg n s s') : s'.props i = s.props i := by
  cases i with
  | none => rfl
  | some j =>
    obtain ⟨h1, h2⟩ := hi j rfl
    simp only [St.props]
    rw [hl.p j _ h1 (List.getElem?_eq_getElem h2), List.getElem?_eq_getElem h2]

theorem patProps_eq {i : Option Nat} (hi : ∀ j, i = some j → rg.q j ∧ j < s.ppmaps.length) (hl : Later E ρ rg n s s') : s'.patProps i = s.patProps i := by
  cases i with
  | none => rfl
  | some j =>
    obtain ⟨h1, h2⟩ := hi j rfl
    simp only [St.patProps]
    rw [hl.q j _ h1 (List.getElem?_eq_getElem h2), List.getElem?_eq_getElem h2]

theorem MapsIn.same {sh : Shape} (h : MapsIn s rg (some sh)) (hl : Later E ρ rg n s s') : SameMaps s s' sh := fun f hf => by
  subst hf
  exact ⟨props_eq (h f rfl).1 hl, patProps_eq (h f rfl).2 hl⟩

theorem MapsIn.later {sh : Option Shape} (h : MapsIn s rg sh) (hl : Later E ρ rg n s s') : MapsIn s' rg sh := fun f hf =>
  ⟨fun i hi => ⟨((h f hf).1 i hi).1, Nat.lt_of_lt_of_le ((h f hf).1 i hi).2 hl.pmaps⟩, fun i hi => ⟨((h f hf).2 i hi).1, Nat.lt_of_lt_of_le ((h f hf).2 i hi).2 hl.ppmaps⟩⟩

theorem Later.slice (hl : Later E ρ rg n s s') {i : Nat} {l : List Addr} (h : s.slices[i]? = some l) : s'.slices[i]? = some l := by
  obtain ⟨t, ht⟩ := hl.slices
  obtain ⟨hi, rfl⟩ := List.getElem?_eq_some_iff.1 h
  rw [← ht, List.getElem?_append_left hi, List.getElem?_eq_getElem hi]

theorem slice_head {i : Option Nat} {x : Addr} (h : (s.slice i).head? = some x) : ∃ j l, i = some j ∧ s.slices[j]? = some l ∧ s.slice i = l := by
  cases i with
  | none => simp [St.slice] at h
  | some j =>
    simp only [St.slice] at h ⊢
    cases hj : s.slices[j]? with
    | none => rw [hj] at h; simp at h
    | some l => exact ⟨j, l, rfl, hj, rfl⟩

theorem Later.sliceHead (hl : Later E ρ rg n s s') {i : Option Nat} {x : Addr} (h : (s.slice i).head? = some x) : s'.slice i = s.slice i := by
  obtain ⟨j, l, rfl, h1, h2⟩ := slice_head h
  rw [h2]; simp only [St.slice]; rw [hl.slice h1]; rfl

theorem facetMap_eq {a : Addr} {b : Base} (hf : b.facets = some a) (h : s'.fmaps[a]? = s.fmaps[a]?) : s'.facetMap b.facets = s.facetMap b.facets := by
  rw [hf]; simp only [St.facetMap]; rw [h]

theorem Unk.not_named {b : Base} {facets : Option (List YNode)} {name : String} {R : YNode → String → Addr → Prop} (hu : Unk b) :
    ∀ {src : Source}, ¬ SourceReads E s loc R name facets b src
  | .named _, h => hu.not_typed h.typed
  | .json _, ⟨_, _, _, _, h⟩ => by obtain ⟨f, hf⟩ := hu; rw [hf] at h; cases h
  | .expr _, ⟨tree, _, h⟩ => by
    have : ∀ tree, TreeHas E s loc R facets b tree → Typed b := by
      intro tree
      induction tree with
      | prim p => exact fun h => h.typed
      | ref x y => exact fun ⟨_, _, _, _, _, h⟩ => h.typed
      | group e ih => exact ih
      | optional e _ => exact fun h => h.typed
      | array e _ => exact fun h => h.typed
      | union l r _ _ => exact fun h => h.typed
    exact hu.not_typed (this tree h)
  | .included _ _, ⟨_, _, _, _, _, _, _, _, _, _, _, h⟩ => hu.not_typed h.typed
  | .parents _, ⟨_, _, _, _, _, _, h⟩ => hu.not_typed h.typed

theorem Unk.not_resolvedTo {b b' : Base} {facets : Option (List YNode)} (hr : ResolvedTo E n s' b b' facets) : ¬ Unk b' := by
  intro hu
  unfold ResolvedTo at hr
  split at hr
  · obtain ⟨_, _, _, _, _, _, _, _, _, h⟩ := hr; exact hu.not_typed h.typed
  · split at hr
    · obtain ⟨_, _, _, _, _, _, h⟩ := hr; exact hu.not_typed h.typed
    · obtain ⟨tree, h1, h2⟩ := hr
      exact Unk.not_named (src := .expr b.type) (name := "") hu ⟨tree, h1, h2⟩

/-- A reference that has been resolved is what it should be. -/
theorem resolved_source {R : YNode → String → Addr → Prop} {name : String} {b b' : Base} {facets : Option (List YNode)} {src : Source} (hb : b.location = loc)
    (hpend : Pending s R name b src) (hl : Later E ρ rg n s s') (hR : ∀ v m a, R v m a → D E True (rg.or n) s' loc v m a) (hh : SameHead b b')
    (hr : ResolvedTo E n s' b b' facets) : Late src ∧ SourceReads E s' loc (D E True (rg.or n) s' loc) name facets b' src := by
  have hD : ∀ v m a, D E True n s' loc v m a → D E True (rg.or n) s' loc v m a := fun v m a h => h.mono id Region.le_right
  unfold ResolvedTo at hr
  cases src with
  | named t => exact hpend.elim
  | json t => exact hpend.elim
  | expr text =>
    obtain ⟨h1, h2, h3⟩ := hpend
    simp only [h2] at hr
    split at hr
    · obtain ⟨_, p, pb, h4, _⟩ := hr
      rw [h3] at h4; simp [St.slice] at h4
    · obtain ⟨tree, h4, h5⟩ := hr
      rw [hb] at h5
      exact ⟨trivial, tree, by rw [← h1]; exact h4, TreeHas.carry (.refl hD) (fun _ _ _ _ => ⟨rfl, rfl⟩) rfl (fun _ _ h => h) (fun _ b h ht => ⟨b, h, ht, rfl⟩) tree h5⟩
  | included path label =>
    obtain ⟨h1, i, d, h2, h3, h4⟩ := hpend
    simp only [h2] at hr
    obtain ⟨_, k2, d', l, lb, k3, k4, k5, k6, k7⟩ := hr
    obtain ⟨d'', m1, m2, _⟩ := hl.dts i d h3
    rw [m1] at k3; cases k3
    rw [hb] at k7
    exact ⟨trivial, k2.trans h1, i, d', l, lb, hh.link.trans h2, m1, m2.trans h4, k4, k5, k6, Has.carry (.refl hD) (fun _ _ _ _ => ⟨rfl, rfl⟩) rfl k7⟩
  | parents nodes =>
    obtain ⟨h1, h2, i, l, h3, h4, h5⟩ := hpend
    simp only [h2] at hr
    rw [if_pos h1] at hr
    obtain ⟨k1, p, pb, k2, k3, k4, k5⟩ := hr
    rw [hb] at k5
    have hs : s'.slice b'.inherits = l := by rw [k1, h3]; simp only [St.slice]; rw [hl.slice h4]; rfl
    refine ⟨trivial, ?_, p, pb, ?_, k3, k4, Has.carry (.refl hD) (fun _ _ _ _ => ⟨rfl, rfl⟩) rfl k5⟩
    · rw [hs]; exact h5.imp fun m p => hR m name p
    · rw [k1]; exact k2

/-- Descriptions survive. -/
theorem D.later (hl : Later E ρ rg n s s') {v : YNode} {name : String} {a : Addr} (h : D E ρ rg s loc v name a) : D E ρ (rg.or n) s' loc v name a := by
  refine (h (fun v m a => D E ρ rg s loc v m a ∧ D E ρ (rg.or n) s' loc v m a) ?_).2
  intro v m a hs
  refine ⟨D.fold (hs.mono (fun _ _ _ x => x.1) id .rfl), ?_⟩
  have hc : Carry s s' (fun v m a => D E ρ rg s loc v m a ∧ D E ρ (rg.or n) s' loc v m a) (D E ρ (rg.or n) s' loc) := by
    rintro v m a ⟨h1, h2⟩
    refine ⟨h2, fun b hb => ?_⟩
    obtain ⟨b', hb', hf⟩ := h1.foot
    rw [hb] at hb'; cases hb'
    rcases hl.b a b hf.at_ hb with ⟨k, _⟩ | ⟨_, _, _, b'', _, k, k', _⟩
    · exact ⟨b, k, rfl⟩
    · exact ⟨b'', k, k'.required⟩
  obtain ⟨b, es, t, facets, src, h1, h2, h3, h4, h5, h6, h7, h8⟩ := hs
  have hdefs : s'.props b.facetDefs = s.props b.facetDefs := props_eq h7.defs hl
  have hhead : Heading E s' loc (D E ρ (rg.or n) s' loc) es b := Heading.carry hc hdefs hl.exts h5
  have hdi : ∀ i, b.facetDefs = some i → (rg.or n).p i ∧ i < s'.pmaps.length := fun i hi =>
    ⟨.inl (h7.defs i hi).1, Nat.lt_of_lt_of_le (h7.defs i hi).2 hl.pmaps⟩
  refine D.fold ?_
  rcases hl.b a b h7.at_ h1 with ⟨k1, k2⟩ | ⟨hρ, hu, facets', b', k1, k2, k3, k4, _, k5⟩
  · have hm : ∀ sh, b.shape = some sh → SameMaps s s' sh := fun sh hsh => MapsIn.same (by rw [← hsh]; exact h7.maps) hl
    have hfm := facetMap_eq h7.facets k2
    refine ⟨b, es, t, facets, src, k1, h2, h3, h4, hhead, h6,
      ⟨.inl h7.at_, h7.facets, Nat.lt_of_lt_of_le h7.there hl.fmaps, hdi, (h7.maps.later hl).mono Region.le_left⟩, ?_⟩
    rcases h8 with ⟨m1, m2, m3⟩ | ⟨m1, m2⟩
    · refine .inl ⟨m1, hfm.trans m2, ?_⟩
      cases src with
      | named t => exact m3
      | json t => exact m3
      | expr text => exact m3
      | included path label =>
        obtain ⟨x1, i, d, x2, x3, x4⟩ := m3
        obtain ⟨d', y1, y2, _⟩ := hl.dts i d x3
        exact ⟨x1, i, d', x2, y1, y2.trans x4⟩
      | parents nodes =>
        obtain ⟨x1, x2, i, l, x3, x4, x5⟩ := m3
        exact ⟨x1, x2, i, l, x3, hl.slice x4, x5.imp fun n p hp => hp.2⟩
    · refine .inr ⟨m1, ?_⟩
      cases src with
      | named t => exact Has.carry hc hm hfm m2
      | json t => exact ⟨m2.1, hfm.trans m2.2.1, m2.2.2⟩
      | expr text =>
        obtain ⟨tree, x1, x2⟩ := m2
        exact ⟨tree, x1, TreeHas.carry hc hm hfm (fun t a h => hl.refs (m1 trivial) t loc a h) (hl.types (m1 trivial)) tree x2⟩
      | included path label =>
        obtain ⟨x0, i, d, l, lb, x1, x2, x3, x4, x5, x6, x7⟩ := m2
        obtain ⟨d', y1, y2, y3⟩ := hl.dts i d x2
        obtain ⟨lb', z1, z2, z3⟩ := hl.types (m1 trivial) _ _ x5 x6
        exact ⟨x0, i, d', l, lb', x1, y1, y2.trans x3, y3.trans x4, z1, z2, by rw [z3]; exact Has.carry hc hm hfm x7⟩
      | parents nodes =>
        obtain ⟨x0, p, pb, x1, x2, x3, x4⟩ := m2
        obtain ⟨pb', z1, z2, z3⟩ := hl.types (m1 trivial) _ _ x2 x3
        have hs := hl.sliceHead x1
        refine ⟨?_, p, pb', by rw [hs]; exact x1, z1, z2, by rw [z3]; exact Has.carry hc hm hfm x4⟩
        rw [hs]; exact x0.imp fun n p hp => hp.2
  · have hρ' : ρ = True := eq_true hρ
    subst hρ'
    rcases h8 with ⟨m1, m2, m3⟩ | ⟨_, m2⟩
    · rw [m1] at k1; cases k1
      obtain ⟨x1, x2⟩ := resolved_source h3 m3 hl (fun v m a hp => hp.2) k3 k5
      refine ⟨b', es, t, facets, src, k2, k3.name.trans h2, k3.location.trans h3, h4, ?_, h6, ⟨.inl h7.at_, k3.facets.trans h7.facets,
        Nat.lt_of_lt_of_le h7.there hl.fmaps, fun i hi => hdi i (k3.facetDefs.symm.trans hi), k4.mono Region.le_right⟩, .inr ⟨fun _ => trivial, x2⟩⟩
      exact ⟨k3.displayName ▸ hhead.displayName, k3.description ▸ hhead.description, k3.required ▸ hhead.required, k3.default ▸ hhead.default,
        k3.example_ ▸ hhead.example_, k3.examples ▸ hhead.examples, k3.facetDefs ▸ hhead.facetDefs, k3.domainProps ▸ hhead.annotations⟩
    · exact (Unk.not_named hu m2).elim

end

end GoRaml.Read
