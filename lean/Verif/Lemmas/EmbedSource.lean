import Verif.Lemmas.EmbedClone
import Verif.Spec.Graph

/-!
# Cloning a type of a model gives the same copy in every larger model

`cloneR src n a` reads the originals from the fixed model `src` and builds the copy in a heap of its own.  Cloning the same type in any
model that extends `src` places that copy behind the model.
-/

namespace GoRaml.Emb

open GoRaml GoRaml.Spec

section
variable (src : St) (rec : Addr → M CSt Addr)

def clonePropMapR (i : Nat) : M CSt Nat := M.bind (cloneProps rec (src.props (some i))) fun ps => onHeap (Heap.newProps ps)

def clonePatPropMapR (i : Nat) : M CSt Nat := M.bind (clonePatProps rec (src.patProps (some i))) fun ps => onHeap (Heap.newPatProps ps)

def cloneSliceR (i : Option Nat) : M CSt Nat := M.bind (M.collect rec (src.slice i)) fun l => onHeap (Heap.newSlice l)

def cloneShapeR : Shape → M CSt Shape
  | .array f => M.bind (optM rec f.items) fun items => M.ret (.array { f with items })
  | .object f =>
    M.bind (optM (clonePropMapR src rec) f.properties) fun properties =>
    M.bind (optM (clonePatPropMapR src rec) f.patternProperties) fun patternProperties =>
    M.ret (.object { f with properties, patternProperties })
  | .union anyOf e => M.bind (cloneSliceR src rec anyOf) fun l => M.ret (.union (some l) e)
  | s => M.ret s

def cloneLinkR (i : Nat) : M CSt Nat :=
  match src.dts[i]? with
  | none => M.panic "nil pointer dereference"
  | some d =>
    match d.shape with
    | none => M.panic "nil pointer dereference"
    | some a => M.bind (rec a) fun c => onHeap (Heap.newDT { d with shape := some c })

def cloneFillR (s : Base) (c : Addr) : M CSt Addr :=
  M.bind (onHeap (Heap.newFacets (src.facetMap s.facets))) fun fm =>
  M.bind (M.bind (cloneProps rec (src.props s.facetDefs)) fun ps => onHeap (Heap.newProps ps)) fun fd =>
  M.bind (optM rec s.alias) fun «alias» =>
  M.bind (optM (fun i => cloneSliceR src rec (some i)) s.inherits) fun inherits =>
  M.bind (optM (cloneLinkR src rec) s.link) fun link =>
  match s.shape with
  | none => M.panic "nil pointer dereference"
  | some sh =>
    M.bind (cloneShapeR src rec sh) fun sh' =>
    M.bind (onHeap (Heap.updBase c fun _ =>
      { s with facets := some fm, facetDefs := some fd, «alias», inherits, link, shape := some sh' })) fun _ =>
    M.ret c

end

def cloneR (src : St) : Nat → Addr → M CSt Addr
  | 0, _ => M.diverge
  | n + 1, a =>
    match src.base a with
    | none => M.panic "nil pointer dereference"
    | some s =>
      M.bind M.get fun t =>
      match memoGet t.memo s.id with
      | some c => M.ret c
      | none =>
        M.bind (onHeap (Heap.newBase s)) fun c =>
        M.bind (memoPut s.id c) fun _ =>
        cloneFillR src (cloneR src n) s c

/-- The heap holds everything of `src` at its place. -/
structure Above (s t : St) : Prop where
  bases : s.bases <+: t.bases
  pmaps : s.pmaps <+: t.pmaps
  ppmaps : s.ppmaps <+: t.ppmaps
  slices : s.slices <+: t.slices
  fmaps : s.fmaps <+: t.fmaps
  dts : s.dts <+: t.dts

theorem Above.refl (s : St) : Above s s := ⟨List.prefix_rfl, List.prefix_rfl, List.prefix_rfl, List.prefix_rfl, List.prefix_rfl, List.prefix_rfl⟩

theorem Above.trans {s t u : St} (h : Above s t) (h' : Above t u) : Above s u :=
  ⟨h.bases.trans h'.bases, h.pmaps.trans h'.pmaps, h.ppmaps.trans h'.ppmaps, h.slices.trans h'.slices, h.fmaps.trans h'.fmaps, h.dts.trans h'.dts⟩

theorem Above.embed (e : Place) (r : St) : Above e.P (e.embed r) :=
  ⟨List.prefix_append .., List.prefix_append .., List.prefix_append .., List.prefix_append .., List.prefix_append .., List.prefix_append ..⟩

theorem getElem?_of_prefix {α : Type} {l l' : List α} (h : l <+: l') {i : Nat} {x : α} (hx : l[i]? = some x) : l'[i]? = some x := by
  obtain ⟨m, rfl⟩ := h
  rw [List.getElem?_append_left ((List.getElem?_eq_some_iff.1 hx).1)]; exact hx

theorem Above.base {s t : St} (h : Above s t) {a : Addr} {b : Base} (hb : s.base a = some b) : t.base a = some b := getElem?_of_prefix h.bases hb

/-- `T` is `R` placed behind the model, except for the copies in `p`, which are not filled yet. -/
def Rel (e : Place) (p : List Addr) (T R : CSt) : Prop :=
  ∃ L, T.h = { e.embed R.h with bases := e.P.bases ++ L } ∧ L.length = R.h.bases.length ∧ (∀ i, i ∉ p → L[i]? = (R.h.bases[i]?).map e.base) ∧
    T.memo = R.memo.map fun x => (x.1, e.sb x.2)

theorem Rel.whole {e : Place} {T R : CSt} (h : Rel e [] T R) : T.h = e.embed R.h := by
  obtain ⟨L, h1, -, h3, -⟩ := h
  have : L = R.h.bases.map e.base := by
    apply List.ext_getElem?
    intro i
    rw [h3 i (by simp), List.getElem?_map]
  rw [h1, this]; rfl

/-- `m'` does from the image of `R` what `m` does from `R`. -/
def J {α β : Type} (e : Place) (p : List Addr) (g : α → β) (m : M CSt α) (m' : M CSt β) (R : CSt) : Prop :=
  ∀ T, Rel e p T R → ∃ T', m' T = (out g (m R).1, T') ∧ ∀ x, (m R).1 = .ok x → Rel e p T' (m R).2

section
variable {α β γ δ : Type} {e : Place} {p : List Addr} {R : CSt}

theorem J.ret {g : α → β} {x : α} {y : β} (h : y = g x) : J e p g (M.ret x) (M.ret y) R := by
  subst h; exact fun T hT => ⟨T, rfl, fun _ _ => hT⟩

theorem J.panic {g : α → β} {x : String} : J e p g (M.panic x) (M.panic x) R := fun T _ => ⟨T, rfl, fun _ h => by cases h⟩

theorem J.diverge {g : α → β} : J e p g M.diverge M.diverge R := fun T _ => ⟨T, rfl, fun _ h => by cases h⟩

theorem J.bind {g : α → β} {k : γ → δ} {m : M CSt α} {m' : M CSt β} {f : α → M CSt γ} {f' : β → M CSt δ} (h : J e p g m m' R)
    (hf : ∀ x R', m R = (.ok x, R') → J e p k (f x) (f' (g x)) R') : J e p k (M.bind m f) (M.bind m' f') R := by
  intro T hT
  obtain ⟨T', h1, h2⟩ := h T hT
  unfold M.bind
  rw [h1]
  cases hm : m R with
  | mk o R' =>
    rw [hm] at h2
    cases o with
    | ok x => exact hf x R' hm T' (h2 x rfl)
    | _ => exact ⟨T', rfl, fun _ h => by cases h⟩

theorem J.collect {ι : Type} {g : α → β} {f : ι → M CSt α} {f' : ι → M CSt β} : ∀ (l : List ι) (R : CSt), (∀ x ∈ l, ∀ R, J e p g (f x) (f' x) R) →
    J e p (List.map g) (M.collect f l) (M.collect f' l) R
  | [], _, _ => J.ret rfl
  | x :: xs, R, h => (h x (by simp) R).bind fun _ R' _ => (J.collect xs R' fun y hy => h y (by simp [hy])).bind fun _ _ _ => J.ret rfl

theorem J.optM {ι : Type} {g : α → β} {f : ι → M CSt α} {f' : ι → M CSt β} (o : Option ι) (R : CSt) (h : ∀ x, o = some x → ∀ R, J e p g (f x) (f' x) R) :
    J e p (Option.map g) (GoRaml.optM f o) (GoRaml.optM f' o) R := by
  cases o with
  | none => exact J.ret rfl
  | some x => exact (h x rfl R).bind fun _ _ _ => J.ret rfl

theorem newProps_j {m m' : OMap Property} (h : m' = e.props m) : J e p e.sp (onHeap (Heap.newProps m)) (onHeap (Heap.newProps m')) R := by
  subst h
  rintro ⟨Th, Tm⟩ ⟨L, h1, h2, h3, h4⟩
  simp only at h1 h4
  subst h1 h4
  exact ⟨_, by simp only [onHeap, Heap.newProps, out, Place.sp, Place.embed, List.length_append, List.length_map]; rfl,
    fun _ _ => ⟨L, by simp [onHeap, Heap.newProps, Place.embed], h2, h3, rfl⟩⟩

theorem newPatProps_j {m m' : OMap PatternProperty} (h : m' = e.pats m) : J e p e.sq (onHeap (Heap.newPatProps m)) (onHeap (Heap.newPatProps m')) R := by
  subst h
  rintro ⟨Th, Tm⟩ ⟨L, h1, h2, h3, h4⟩
  simp only at h1 h4
  subst h1 h4
  exact ⟨_, by simp only [onHeap, Heap.newPatProps, out, Place.sq, Place.embed, List.length_append, List.length_map]; rfl,
    fun _ _ => ⟨L, by simp [onHeap, Heap.newPatProps, Place.embed], h2, h3, rfl⟩⟩

theorem newSlice_j {m m' : List Addr} (h : m' = m.map e.sb) : J e p e.ss (onHeap (Heap.newSlice m)) (onHeap (Heap.newSlice m')) R := by
  subst h
  rintro ⟨Th, Tm⟩ ⟨L, h1, h2, h3, h4⟩
  simp only at h1 h4
  subst h1 h4
  exact ⟨_, by simp only [onHeap, Heap.newSlice, out, Place.ss, Place.embed, List.length_append, List.length_map]; rfl,
    fun _ _ => ⟨L, by simp [onHeap, Heap.newSlice, Place.embed], h2, h3, rfl⟩⟩

theorem newFacets_j {m m' : OMap GoVal} (h : m' = m) : J e p e.sf (onHeap (Heap.newFacets m)) (onHeap (Heap.newFacets m')) R := by
  subst h
  rintro ⟨Th, Tm⟩ ⟨L, h1, h2, h3, h4⟩
  simp only at h1 h4
  subst h1 h4
  exact ⟨_, by simp only [onHeap, Heap.newFacets, out, Place.sf, Place.embed, List.length_append]; rfl,
    fun _ _ => ⟨L, by simp [onHeap, Heap.newFacets, Place.embed], h2, h3, rfl⟩⟩

theorem newDT_j {d d' : DT} (h : d' = e.dt d) : J e p e.sd (onHeap (Heap.newDT d)) (onHeap (Heap.newDT d')) R := by
  subst h
  rintro ⟨Th, Tm⟩ ⟨L, h1, h2, h3, h4⟩
  simp only at h1 h4
  subst h1 h4
  exact ⟨_, by simp only [onHeap, Heap.newDT, out, Place.sd, Place.embed, List.length_append, List.length_map]; rfl,
    fun _ _ => ⟨L, by simp [onHeap, Heap.newDT, Place.embed], h2, h3, rfl⟩⟩

end

section
variable {e : Place} {src : St} {p : List Addr} (ab : Above src e.P)
include ab

theorem Rel.above {T R : CSt} (h : Rel e p T R) : Above src T.h := by
  obtain ⟨L, h1, -⟩ := h
  rw [h1]
  exact ab.trans ⟨List.prefix_append .., List.prefix_append .., List.prefix_append .., List.prefix_append .., List.prefix_append .., List.prefix_append ..⟩

variable {rec rec' : Addr → M CSt Addr} (hr : ∀ a, IsBase src a → ∀ R, J e p e.sb (rec a) (rec' a) R)
include hr

theorem cloneProps_j (ps : OMap Property) (h : ∀ x ∈ ps, IsBase src x.2.base) (R : CSt) : J e p e.props (cloneProps rec ps) (cloneProps rec' ps) R :=
  J.collect (g := fun x : String × Property => (x.1, e.prop x.2)) ps R fun x hx R => (hr _ (h x hx) R).bind fun _ _ _ => J.ret rfl

theorem clonePatProps_j (ps : OMap PatternProperty) (h : ∀ x ∈ ps, IsBase src x.2.base) (R : CSt) : J e p e.pats (clonePatProps rec ps) (clonePatProps rec' ps) R :=
  J.collect (g := fun x : String × PatternProperty => (x.1, e.pat x.2)) ps R fun x hx R => (hr _ (h x hx) R).bind fun _ _ _ => J.ret rfl

theorem clonePropMap_j (i : Nat) (h : PropsOK src i) (R : CSt) : J e p e.sp (clonePropMapR src rec i) (clonePropMap rec' i) R := by
  obtain ⟨ps, h1, h2⟩ := h
  intro T hT
  have ha := Rel.above ab hT
  have h3 : T.h.props (some i) = ps := by simp only [St.props, getElem?_of_prefix ha.pmaps h1]; rfl
  have h4 : src.props (some i) = ps := by simp only [St.props, h1]; rfl
  unfold clonePropMapR clonePropMap
  rw [h3, h4]
  exact (cloneProps_j ab hr ps h2 R).bind (f' := fun ps => onHeap (Heap.newProps ps)) (fun _ _ _ => newProps_j rfl) T hT

theorem clonePatPropMap_j (i : Nat) (h : PatPropsOK src i) (R : CSt) : J e p e.sq (clonePatPropMapR src rec i) (clonePatPropMap rec' i) R := by
  obtain ⟨ps, h1, h2⟩ := h
  intro T hT
  have ha := Rel.above ab hT
  have h3 : T.h.patProps (some i) = ps := by simp only [St.patProps, getElem?_of_prefix ha.ppmaps h1]; rfl
  have h4 : src.patProps (some i) = ps := by simp only [St.patProps, h1]; rfl
  unfold clonePatPropMapR clonePatPropMap
  rw [h3, h4]
  exact (clonePatProps_j ab hr ps h2 R).bind (f' := fun ps => onHeap (Heap.newPatProps ps)) (fun _ _ _ => newPatProps_j rfl) T hT

theorem cloneSlice_j (i : Option Nat) (h : IfSome (SliceOK src) i) (R : CSt) : J e p e.ss (cloneSliceR src rec i) (cloneSlice rec' i) R := by
  intro T hT
  have ha := Rel.above ab hT
  obtain ⟨l, h3, h4, h2⟩ : ∃ l, T.h.slice i = l ∧ src.slice i = l ∧ ∀ a ∈ l, IsBase src a := by
    cases i with
    | none => exact ⟨[], rfl, rfl, by simp⟩
    | some j =>
      obtain ⟨l, h1, h2⟩ := h j rfl
      exact ⟨l, by simp only [St.slice, getElem?_of_prefix ha.slices h1]; rfl, by simp only [St.slice, h1]; rfl, h2⟩
  unfold cloneSliceR cloneSlice
  rw [h3, h4]
  exact (J.collect l R fun x hx R => hr x (h2 x hx) R).bind (f' := fun ps => onHeap (Heap.newSlice ps)) (fun _ _ _ => newSlice_j rfl) T hT

theorem cloneShape_j (s : Shape) (h : ShapeOK src s) (hn : ∀ x, s ≠ .recursive x) (R : CSt) : J e p e.shape (cloneShapeR src rec s) (cloneShape rec' s) R := by
  cases s with
  | array f => exact (J.optM f.items R fun x hx R => hr x (h x hx) R).bind fun _ _ _ => J.ret rfl
  | object f =>
    exact (J.optM f.properties R fun x hx R => clonePropMap_j ab hr x (h.1 x hx) R).bind fun _ R' _ =>
      (J.optM f.patternProperties R' fun x hx R => clonePatPropMap_j ab hr x (h.2 x hx) R).bind fun _ _ _ => J.ret rfl
  | union l e => exact (cloneSlice_j ab hr l h R).bind fun _ _ _ => J.ret rfl
  | recursive x => exact absurd rfl (hn x)
  | _ => exact J.ret rfl

theorem cloneLink_j (i : Nat) (h : ∃ d a, src.dts[i]? = some d ∧ d.shape = some a ∧ IsBase src a) (R : CSt) : J e p e.sd (cloneLinkR src rec i) (cloneLink rec' i) R := by
  obtain ⟨d, a, h1, h2, h3⟩ := h
  intro T hT
  have ha := Rel.above ab hT
  unfold cloneLinkR cloneLink
  rw [getElem?_of_prefix ha.dts h1, h1]
  simp only [h2]
  exact (hr a h3 R).bind (f' := fun c => onHeap (Heap.newDT { d with shape := some c })) (fun c _ _ => newDT_j (by simp [Place.dt])) T hT

end

/-- The pointers of the model are in range, there are no recursive references, and its IDs do not exceed `c0`. -/
structure Source (src : St) (c0 : Int) : Prop where
  wf : WellFormed src
  plain : ∀ a b x, src.base a = some b → b.shape ≠ some (.recursive x)
  ids : ∀ a b, src.base a = some b → b.id ≤ c0

theorem newBase_j {e : Place} {p : List Addr} {R : CSt} (b b' : Base) : ∀ T, Rel e p T R → ∃ T', onHeap (Heap.newBase b') T = (.ok (e.sb R.h.bases.length), T') ∧
    Rel e (R.h.bases.length :: p) T' (onHeap (Heap.newBase b) R).2 := by
  rintro ⟨Th, Tm⟩ ⟨L, h1, h2, h3, h4⟩
  simp only at h1 h4
  subst h1 h4
  refine ⟨_, by simp only [onHeap, Heap.newBase, Place.sb, List.length_append, h2]; rfl, L ++ [b'], by simp [onHeap, Heap.newBase, Place.embed], by simp [onHeap, Heap.newBase, h2], ?_, rfl⟩
  intro i hi
  simp only [List.mem_cons, not_or] at hi
  have := h3 i hi.2
  show (L ++ [b'])[i]? = ((R.h.bases ++ [b])[i]?).map e.base
  unfold Addr at *
  by_cases hl : i < L.length
  · rw [List.getElem?_append_left hl, List.getElem?_append_left (by omega)]; exact this
  · have : L.length < i := by have := hi.1; omega
    rw [List.getElem?_eq_none (by simp; omega), List.getElem?_eq_none (by simp; omega)]; rfl

theorem updBase_j {e : Place} {p : List Addr} {R : CSt} (c : Addr) (b : Base) : ∀ T, Rel e (c :: p) T R →
    ∃ T', onHeap (Heap.updBase (e.sb c) fun _ => e.base b) T = (.ok (), T') ∧ Rel e p T' (onHeap (Heap.updBase c fun _ => b) R).2 := by
  rintro ⟨Th, Tm⟩ ⟨L, h1, h2, h3, h4⟩
  simp only at h1 h4
  subst h1 h4
  refine ⟨_, rfl, L.modify c fun _ => e.base b, ?_, by simp [onHeap, Heap.updBase, h2], ?_, rfl⟩
  · have := Place.modify_shift e.P.bases L id (fun _ => e.base b) (fun _ => e.base b) (fun _ => rfl) c
    simp only [List.map_id] at this
    simp only [onHeap, Heap.updBase, Place.sb, Place.embed, this]
  · intro i hi
    show (L.modify c fun _ => e.base b)[i]? = ((R.h.bases.modify c fun _ => b)[i]?).map e.base
    rw [List.getElem?_modify, List.getElem?_modify]
    unfold Addr at *
    by_cases hc : c = i
    · subst hc
      by_cases hl : c < L.length
      · rw [List.getElem?_eq_getElem hl, List.getElem?_eq_getElem (by omega)]; simp
      · rw [List.getElem?_eq_none (by omega), List.getElem?_eq_none (by omega)]; rfl
    · have := h3 i (by simp only [List.mem_cons, not_or]; exact ⟨fun h => hc h.symm, hi⟩)
      rw [this]; cases R.h.bases[i]? <;> simp [hc]

section
variable {e : Place} {src : St} (ab : Above src e.P) (hs : Source src e.c0)
include ab hs

theorem cloneFill_j {p : List Addr} {rec rec' : Addr → M CSt Addr} {c : Addr} (hr : ∀ a, IsBase src a → ∀ R, J e (c :: p) e.sb (rec a) (rec' a) R)
    {a : Addr} {s : Base} (ha : src.base a = some s) (R : CSt) :
    ∀ T, Rel e (c :: p) T R → ∃ T', cloneFill rec' s (e.sb c) T = (out e.sb (cloneFillR src rec s c R).1, T') ∧
      ∀ x, (cloneFillR src rec s c R).1 = .ok x → Rel e p T' (cloneFillR src rec s c R).2 := by
  have hb := hs.wf a s ha
  obtain ⟨sh, hsh, hok⟩ := hb.shape
  have key : ∀ T R, Rel e (c :: p) T R → ∃ T', cloneFill rec' s (e.sb c) T = (out e.sb (cloneFillR src rec s c R).1, T') ∧
      ∀ x, (cloneFillR src rec s c R).1 = .ok x → Rel e p T' (cloneFillR src rec s c R).2 := by
    intro T R hT
    have bind : ∀ {α β : Type} {g : α → β} {m : M CSt α} {m' : M CSt β} {f : α → M CSt Addr} {f' : β → M CSt Addr} {T R : CSt}, Rel e (c :: p) T R → J e (c :: p) g m m' R →
        (∀ x T R, Rel e (c :: p) T R → ∃ T', f' (g x) T = (out e.sb (f x R).1, T') ∧ ∀ y, (f x R).1 = .ok y → Rel e p T' (f x R).2) →
        ∃ T', M.bind m' f' T = (out e.sb (M.bind m f R).1, T') ∧ ∀ y, (M.bind m f R).1 = .ok y → Rel e p T' (M.bind m f R).2 := by
      intro α β g m m' f f' T R hT hJ hf
      obtain ⟨T', h1, h2⟩ := hJ T hT
      unfold M.bind
      rw [h1]
      cases hm : m R with
      | mk o R' =>
        rw [hm] at h2
        cases o with
        | ok x => exact hf x T' R' (h2 x rfl)
        | _ => exact ⟨T', rfl, fun _ h => by cases h⟩
    have hfacets : T.h.facetMap s.facets = src.facetMap s.facets := by
      have hab := Rel.above ab hT
      have := hb.facets
      cases hf : s.facets with
      | none => rfl
      | some i => rw [hf] at this; obtain ⟨m, hm⟩ := this i rfl; simp only [St.facetMap, hm, getElem?_of_prefix hab.fmaps hm]
    unfold cloneFill cloneFillR
    refine bind (g := e.sf) hT (m' := fun t => onHeap (Heap.newFacets (t.h.facetMap s.facets)) t) ?_ fun fm T1 R1 hT1 => ?_
    · intro T2 hT2
      have h0 : T2.h.facetMap s.facets = src.facetMap s.facets := by
        have hab := Rel.above ab hT2
        have := hb.facets
        cases hf : s.facets with
        | none => rfl
        | some i => rw [hf] at this; obtain ⟨m, hm⟩ := this i rfl; simp only [St.facetMap, hm, getElem?_of_prefix hab.fmaps hm]
      simp only [h0]
      exact newFacets_j rfl T2 hT2
    refine bind (g := e.sp) hT1 ?_ fun fd T2 R2 hT2 => ?_
    · intro T2 hT2
      have hab := Rel.above ab hT2
      obtain ⟨ps, h3, h4, h2⟩ : ∃ l, T2.h.props s.facetDefs = l ∧ src.props s.facetDefs = l ∧ ∀ x ∈ l, IsBase src x.2.base := by
        have := hb.facetDefs
        cases hf : s.facetDefs with
        | none => exact ⟨[], rfl, rfl, by simp⟩
        | some j =>
          rw [hf] at this
          obtain ⟨l, h1, h2⟩ := this j rfl
          exact ⟨l, by simp only [St.props, getElem?_of_prefix hab.pmaps h1]; rfl, by simp only [St.props, h1]; rfl, h2⟩
      simp only [h3, h4]
      exact (cloneProps_j ab hr ps h2 R1).bind (f' := fun ps => onHeap (Heap.newProps ps)) (fun _ _ _ => newProps_j rfl) T2 hT2
    refine bind hT2 (J.optM s.alias R2 fun x hx R => hr x (hb.alias x hx) R) fun al T3 R3 hT3 => ?_
    refine bind hT3 (J.optM (g := e.ss) (f' := fun i => cloneSlice rec' (some i)) s.inherits R3 fun x hx R => cloneSlice_j ab hr (some x) (fun y hy => by cases hy; exact hb.inherits x hx) R) fun inh T4 R4 hT4 => ?_
    refine bind hT4 (J.optM s.link R4 fun x hx R => cloneLink_j ab hr x (hb.link x hx) R) fun ln T5 R5 hT5 => ?_
    simp only [hsh]
    refine bind hT5 (cloneShape_j ab hr sh hok (fun x hx => hs.plain a s x ha (by rw [hsh, hx])) R5) fun sh' T6 R6 hT6 => ?_
    have hid : e.num s.id = s.id := by unfold Place.num; rw [if_pos (hs.ids a s ha)]
    obtain ⟨T7, h7, h8⟩ := updBase_j (e := e) c { s with facets := some fm, facetDefs := some fd, «alias» := al, inherits := inh, link := ln, shape := some sh' } T6 hT6
    refine ⟨T7, ?_, fun _ _ => h8⟩
    have h9 : e.base { s with facets := some fm, facetDefs := some fd, «alias» := al, inherits := inh, link := ln, shape := some sh' } =
      { s with facets := some (e.sf fm), facetDefs := some (e.sp fd), «alias» := al.map e.sb, inherits := inh.map e.ss, link := ln.map e.sd, shape := some (e.shape sh') } := by
      simp [Place.base, hid]
    rw [h9] at h7
    unfold M.bind
    rw [h7]; rfl
  exact fun T hT => key T R hT

theorem clone_j : ∀ (n : Nat) (p : List Addr) (a : Addr), IsBase src a → ∀ R, J e p e.sb (cloneR src n a) (clone n a) R
  | 0, _, _, _, _ => J.diverge
  | n + 1, p, a, ha, R => by
    intro T hT
    obtain ⟨s, hb⟩ : ∃ s, src.base a = some s := ⟨_, List.getElem?_eq_getElem ha⟩
    have hT0 : T.h.base a = some s := (Rel.above ab hT).base hb
    have hmemo : memoGet T.memo s.id = (memoGet R.memo s.id).map e.sb := by
      obtain ⟨L, -, -, -, h⟩ := hT
      rw [h]
      generalize R.memo = m
      induction m with
      | nil => rfl
      | cons x m ih => obtain ⟨j, c⟩ := x; simp only [List.map_cons, memoGet]; split; · rfl
                       · exact ih
    have e1 : clone (n + 1) a T = (match memoGet T.memo s.id with
      | some c => M.ret c
      | none => M.bind (onHeap (Heap.newBase s)) fun c => M.bind (memoPut s.id c) fun _ => cloneFill (clone n) s c) T := by
      simp only [clone, M.bind, onHeap, Heap.getBase, hT0, M.get]
      cases memoGet T.memo s.id <;> rfl
    have e2 : cloneR src (n + 1) a R = (match memoGet R.memo s.id with
      | some c => M.ret c
      | none => M.bind (onHeap (Heap.newBase s)) fun c => M.bind (memoPut s.id c) fun _ => cloneFillR src (cloneR src n) s c) R := by
      simp only [cloneR, hb, M.bind, M.get]
    rw [e1, e2, hmemo]
    cases memoGet R.memo s.id with
    | some c => exact ⟨T, rfl, fun _ _ => hT⟩
    | none =>
      obtain ⟨T1, h1, h2⟩ := newBase_j s s T hT
      have h3 : Rel e (R.h.bases.length :: p) (memoPut s.id (e.sb R.h.bases.length) T1).2 (memoPut s.id R.h.bases.length (onHeap (Heap.newBase s) R).2).2 := by
        obtain ⟨L, k1, k2, k3, k4⟩ := h2
        exact ⟨L, k1, k2, k3, by simp only [memoPut, List.map_cons, k4]⟩
      have h4 := cloneFill_j ab hs (p := p) (c := R.h.bases.length) (fun a ha R1 => clone_j n (R.h.bases.length :: p) a ha R1) hb _ _ h3
      have e3 : (M.bind (onHeap (Heap.newBase s)) fun c => M.bind (memoPut s.id c) fun _ => cloneFill (clone n) s c) T =
        cloneFill (clone n) s (e.sb R.h.bases.length) (memoPut s.id (e.sb R.h.bases.length) T1).2 := by
        simp only [M.bind, h1, memoPut]
      simp only [Option.map_none]
      rw [e3]
      exact h4

end

/-- An empty heap whose counter starts at `c`. -/
def blank (c : Int) : St := { idCounter := c }

/-- The place behind `t`, for copies from a model with counter `c`. -/
def behind (t : St) (c : Int) (h : c ≤ t.idCounter) : Place := ⟨t, c, t.idCounter - c, by omega⟩

theorem behind_blank (t : St) (c : Int) (h : c ≤ t.idCounter) : (behind t c h).embed (blank c) = t := by
  have : c + (t.idCounter - c) = t.idCounter := by omega
  cases t
  simp_all [behind, blank, Place.embed]

/-- Cloning `a` in any model that extends `src`. -/
theorem cloneDetached_source {src t : St} {c : Int} (ab : Above src t) (hs : Source src c) (h : c ≤ t.idCounter) (n : Nat) {a : Addr} (ha : IsBase src a) :
    ∃ T', cloneDetached n a t = (out (behind t c h).sb (cloneR src n a ⟨blank c, []⟩).1, T') ∧
      ∀ x, (cloneR src n a ⟨blank c, []⟩).1 = .ok x → T' = (behind t c h).embed (cloneR src n a ⟨blank c, []⟩).2.h := by
  have hrel : Rel (behind t c h) [] ⟨t, []⟩ ⟨blank c, []⟩ := by
    refine ⟨[], ?_, rfl, fun _ _ => rfl, rfl⟩
    have := behind_blank t c h
    show t = { (behind t c h).embed (blank c) with bases := t.bases ++ [] }
    rw [this, List.append_nil]
  obtain ⟨T', h1, h2⟩ := clone_j (e := behind t c h) (src := src) ab hs n [] a ha ⟨blank c, []⟩ ⟨t, []⟩ hrel
  exact ⟨T'.h, by simp only [cloneDetached, h1], fun x hx => (h2 x hx).whole⟩

end GoRaml.Emb
