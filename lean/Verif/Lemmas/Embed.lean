import Verif.Lemmas.Fuel

/-!
# Computations do not depend on where their data lies

`embed` places a whole heap behind another one, with all addresses shifted.  What a computation does to the heap in its new place
is what it does to the heap by itself, and the heap in front is left alone.
-/

namespace GoRaml.Emb

open GoRaml

/-- The outcome with another result. -/
def out {α β : Type} (g : α → β) : Out α → Out β
  | .ok x => .ok (g x)
  | .err e => .err e
  | .panic e => .panic e
  | .diverge => .diverge

/-- A map of states, and an invariant. -/
structure Sim (σ τ : Type) where
  map : σ → τ
  inv : σ → Prop

/-- `m'` does from the image of `s` what `m` does from `s`. -/
def Com {σ τ α β : Type} (φ : Sim σ τ) (g : α → β) (m : M σ α) (m' : M τ β) (s : σ) : Prop :=
  φ.inv s → m' (φ.map s) = (out g (m s).1, φ.map (m s).2) ∧ φ.inv (m s).2

section
variable {σ τ α β γ δ : Type} {φ : Sim σ τ} {s : σ}

theorem Com.ret {g : α → β} {x : α} {y : β} (h : y = g x) : Com φ g (M.ret x) (M.ret y) s := by subst h; exact fun hi => ⟨rfl, hi⟩

theorem Com.err {g : α → β} {e : String} : Com φ g (M.err e) (M.err e) s := fun hi => ⟨rfl, hi⟩

theorem Com.panic {g : α → β} {e : String} : Com φ g (M.panic e) (M.panic e) s := fun hi => ⟨rfl, hi⟩

theorem Com.diverge {g : α → β} : Com φ g M.diverge M.diverge s := fun hi => ⟨rfl, hi⟩

theorem Com.lift {g : α → β} {o : Out α} {o' : Out β} (h : o' = out g o) : Com φ g (M.lift o) (M.lift o') s := by
  subst h; exact fun hi => ⟨rfl, hi⟩

theorem Com.bind {g : α → β} {k : γ → δ} {m : M σ α} {m' : M τ β} {f : α → M σ γ} {f' : β → M τ δ} (h : Com φ g m m' s)
    (hf : ∀ x s', Com φ k (f x) (f' (g x)) s') : Com φ k (M.bind m f) (M.bind m' f') s := by
  intro hi
  obtain ⟨h1, h2⟩ := h hi
  unfold M.bind
  rw [h1]
  cases hm : m s with
  | mk o s' =>
    rw [hm] at h2
    cases o with
    | ok x => exact hf x s' h2
    | _ => exact ⟨rfl, h2⟩

theorem Com.attempt {g : α → β} {m : M σ α} {m' : M τ β} (h : Com φ g m m' s) :
    Com φ (fun r : Except String α => match r with | .ok x => Except.ok (g x) | .error e => Except.error e) (M.attempt m) (M.attempt m') s := by
  intro hi
  obtain ⟨h1, h2⟩ := h hi
  unfold M.attempt
  rw [h1]
  cases hm : m s with
  | mk o s' => rw [hm] at h2; cases o <;> exact ⟨rfl, h2⟩

theorem Com.get {k : γ → δ} {f : σ → M σ γ} {f' : τ → M τ δ} (h : Com φ k (f s) (f' (φ.map s)) s) :
    Com φ k (M.bind M.get f) (M.bind M.get f') s := h

theorem Com.ite {c : Prop} [Decidable c] {g : α → β} {m n : M σ α} {m' n' : M τ β} (h : c → Com φ g m m' s) (h' : ¬ c → Com φ g n n' s) :
    Com φ g (if c then m else n) (if c then m' else n') s := by
  by_cases hc : c
  · rw [if_pos hc, if_pos hc]; exact h hc
  · rw [if_neg hc, if_neg hc]; exact h' hc

theorem Com.forEach {ι κ : Type} {q : ι → κ} {f : ι → M σ Unit} {f' : κ → M τ Unit} (h : ∀ x s, Com φ id (f x) (f' (q x)) s) :
    ∀ (l : List ι) (s : σ), Com φ id (M.forEach f l) (M.forEach f' (l.map q)) s
  | [], _ => fun hi => ⟨rfl, hi⟩
  | x :: xs, s => (h x s).bind fun _ s' => Com.forEach h xs s'

theorem Com.collect {ι κ : Type} {q : ι → κ} {g : α → β} {f : ι → M σ α} {f' : κ → M τ β} (h : ∀ x s, Com φ g (f x) (f' (q x)) s) :
    ∀ (l : List ι) (s : σ), Com φ (List.map g) (M.collect f l) (M.collect f' (l.map q)) s
  | [], _ => fun hi => ⟨rfl, hi⟩
  | x :: xs, s => (h x s).bind fun _ s' => (Com.collect h xs s').bind fun _ _ => Com.ret rfl

theorem Com.optM {ι κ : Type} {q : ι → κ} {g : α → β} {f : ι → M σ α} {f' : κ → M τ β} (h : ∀ x s, Com φ g (f x) (f' (q x)) s)
    (o : Option ι) (s : σ) : Com φ (Option.map g) (GoRaml.optM f o) (GoRaml.optM f' (o.map q)) s := by
  cases o with
  | none => exact fun hi => ⟨rfl, hi⟩
  | some x => exact (h x s).bind fun _ _ => Com.ret rfl

theorem Com.whenSome {ι κ : Type} {q : ι → κ} {f : ι → M σ Unit} {f' : κ → M τ Unit} (h : ∀ x s, Com φ id (f x) (f' (q x)) s)
    (o : Option ι) (s : σ) : Com φ id (GoRaml.whenSome o f) (GoRaml.whenSome (o.map q) f') s := by
  cases o with
  | none => exact fun hi => ⟨rfl, hi⟩
  | some x => exact h x s

end

/-- A heap in front, with IDs up to `c0` in common; later IDs are `δ` higher. -/
structure Place where
  P : St
  c0 : Int
  δ : Int
  pos : 0 ≤ δ

namespace Place

variable (e : Place)

def sb (a : Addr) : Addr := e.P.bases.length + a
def sp (i : Nat) : Nat := e.P.pmaps.length + i
def sq (i : Nat) : Nat := e.P.ppmaps.length + i
def ss (i : Nat) : Nat := e.P.slices.length + i
def sf (i : Nat) : Nat := e.P.fmaps.length + i
def sd (i : Nat) : Nat := e.P.dts.length + i
def num (i : Int) : Int := if i ≤ e.c0 then i else i + e.δ

def arr (f : ArrayF) : ArrayF := { f with items := f.items.map e.sb }
def obj (f : ObjectF) : ObjectF := { f with properties := f.properties.map e.sp, patternProperties := f.patternProperties.map e.sq }

def shape : Shape → Shape
  | .array f => .array (e.arr f)
  | .object f => .object (e.obj f)
  | .union l en => .union (l.map e.ss) en
  | .recursive hd => .recursive (e.sb hd)
  | s => s

def base (b : Base) : Base :=
  { b with
    shape := b.shape.map e.shape, id := e.num b.id, inherits := b.inherits.map e.ss, «alias» := b.alias.map e.sb, link := b.link.map e.sd
    facets := b.facets.map e.sf, facetDefs := b.facetDefs.map e.sp }

def prop (p : Property) : Property := { p with base := e.sb p.base }
def pat (p : PatternProperty) : PatternProperty := { p with base := e.sb p.base }
def props (m : OMap Property) : OMap Property := m.map fun x => (x.1, e.prop x.2)
def pats (m : OMap PatternProperty) : OMap PatternProperty := m.map fun x => (x.1, e.pat x.2)
def dt (d : DT) : DT := { d with shape := d.shape.map e.sb }

/-- The heap `r` behind the one in front. -/
def embed (r : St) : St :=
  { e.P with
    bases := e.P.bases ++ r.bases.map e.base
    pmaps := e.P.pmaps ++ r.pmaps.map e.props
    ppmaps := e.P.ppmaps ++ r.ppmaps.map e.pats
    slices := e.P.slices ++ r.slices.map (List.map e.sb)
    fmaps := e.P.fmaps ++ r.fmaps
    dts := e.P.dts ++ r.dts.map e.dt
    idCounter := r.idCounter + e.δ
    shapes := e.P.shapes ++ r.shapes.map e.sb }

theorem num_inj {i j : Int} : e.num i = e.num j ↔ i = j := by
  have := e.pos
  unfold num
  constructor
  · intro h; split at h <;> split at h <;> omega
  · rintro rfl; rfl

/-- Placing a heap whose counter has reached the common IDs. -/
def at' : Sim St St := ⟨e.embed, fun r => e.c0 ≤ r.idCounter⟩

/-! ## Reading -/

theorem base_embed (r : St) (a : Addr) : (e.embed r).base (e.sb a) = (r.base a).map e.base := by
  simp [St.base, embed, sb, List.getElem?_append_right]

theorem shapeAt_embed (r : St) (a : Addr) : (e.embed r).shapeAt (e.sb a) = (r.shapeAt a).map e.shape := by
  unfold St.shapeAt
  rw [base_embed]
  cases r.base a <;> rfl

theorem props_embed (r : St) (p : Option Nat) : (e.embed r).props (p.map e.sp) = e.props (r.props p) := by
  cases p with
  | none => rfl
  | some i =>
    simp only [Option.map_some, St.props, embed, sp]
    rw [List.getElem?_append_right (by omega)]
    simp only [Nat.add_sub_cancel_left, List.getElem?_map]
    cases r.pmaps[i]? <;> rfl

theorem patProps_embed (r : St) (p : Option Nat) : (e.embed r).patProps (p.map e.sq) = e.pats (r.patProps p) := by
  cases p with
  | none => rfl
  | some i =>
    simp only [Option.map_some, St.patProps, embed, sq]
    rw [List.getElem?_append_right (by omega)]
    simp only [Nat.add_sub_cancel_left, List.getElem?_map]
    cases r.ppmaps[i]? <;> rfl

theorem slice_embed (r : St) (p : Option Nat) : (e.embed r).slice (p.map e.ss) = (r.slice p).map e.sb := by
  cases p with
  | none => rfl
  | some i =>
    simp only [Option.map_some, St.slice, embed, ss]
    rw [List.getElem?_append_right (by omega)]
    simp only [Nat.add_sub_cancel_left, List.getElem?_map]
    cases r.slices[i]? <;> rfl

theorem facetMap_embed (r : St) (p : Option Nat) : (e.embed r).facetMap (p.map e.sf) = r.facetMap p := by
  cases p with
  | none => rfl
  | some i =>
    simp only [Option.map_some, St.facetMap, embed, sf]
    rw [List.getElem?_append_right (by omega)]
    simp only [Nat.add_sub_cancel_left]

theorem dts_embed (r : St) (i : Nat) : (e.embed r).dts[e.sd i]? = (r.dts[i]?).map e.dt := by
  simp only [embed, sd]
  rw [List.getElem?_append_right (by omega)]
  simp only [Nat.add_sub_cancel_left, List.getElem?_map]

theorem get_props (m : OMap Property) (k : String) : OMap.get (e.props m) k = (OMap.get m k).map e.prop := by
  induction m with
  | nil => rfl
  | cons x m ih =>
    obtain ⟨k', p⟩ := x
    simp only [props, List.map_cons, OMap.get]
    split
    · rfl
    · exact ih

theorem get_pats (m : OMap PatternProperty) (k : String) : OMap.get (e.pats m) k = (OMap.get m k).map e.pat := by
  induction m with
  | nil => rfl
  | cons x m ih =>
    obtain ⟨k', p⟩ := x
    simp only [pats, List.map_cons, OMap.get]
    split
    · rfl
    · exact ih

theorem set_props (m : OMap Property) (k : String) (p : Property) : OMap.set (e.props m) k (e.prop p) = e.props (OMap.set m k p) := by
  induction m with
  | nil => rfl
  | cons x m ih =>
    obtain ⟨k', q⟩ := x
    simp only [props, List.map_cons, OMap.set]
    split
    · rfl
    · simp only [List.map_cons, List.cons.injEq, true_and]; exact ih

theorem set_pats (m : OMap PatternProperty) (k : String) (p : PatternProperty) : OMap.set (e.pats m) k (e.pat p) = e.pats (OMap.set m k p) := by
  induction m with
  | nil => rfl
  | cons x m ih =>
    obtain ⟨k', q⟩ := x
    simp only [pats, List.map_cons, OMap.set]
    split
    · rfl
    · simp only [List.map_cons, List.cons.injEq, true_and]; exact ih

/-! ## Heap operations -/

variable {e} {s : St}

theorem getBase_com (a : Addr) : Com e.at' e.base (Heap.getBase a) (Heap.getBase (e.sb a)) s := by
  intro hi
  simp only [Heap.getBase, at', base_embed]
  cases s.base a <;> exact ⟨rfl, hi⟩

theorem getShape_com (a : Addr) : Com e.at' e.shape (Heap.getShape a) (Heap.getShape (e.sb a)) s := by
  intro hi
  simp only [Heap.getShape, at', shapeAt_embed]
  cases s.shapeAt a <;> exact ⟨rfl, hi⟩

theorem modify_shift {α β : Type} (P : List α) (l : List β) (g : β → α) (f : β → β) (f' : α → α) (h : ∀ b, f' (g b) = g (f b)) (i : Nat) :
    (P ++ l.map g).modify (P.length + i) f' = P ++ (l.modify i f).map g := by
  apply List.ext_getElem?
  intro j
  by_cases hj : j < P.length
  · rw [List.getElem?_modify, List.getElem?_append_left hj, List.getElem?_append_left hj]
    have : P.length + i ≠ j := by omega
    simp [this]
  · obtain ⟨k, rfl⟩ : ∃ k, j = P.length + k := ⟨j - P.length, by omega⟩
    rw [List.getElem?_modify, List.getElem?_append_right (by omega), List.getElem?_append_right (by omega)]
    simp only [Nat.add_sub_cancel_left, List.getElem?_map, List.getElem?_modify]
    by_cases h2 : i = k
    · subst h2; cases l[i]? <;> simp [h]
    · cases l[k]? <;> simp [h2]

theorem updBase_com (a : Addr) {f f' : Base → Base} (h : ∀ b, f' (e.base b) = e.base (f b)) :
    Com e.at' id (Heap.updBase a f) (Heap.updBase (e.sb a) f') s := by
  exact fun hi => ⟨by simp only [Heap.updBase, at', embed, sb]; rw [modify_shift _ _ _ f _ h]; rfl, hi⟩

theorem newBase_com {b b' : Base} (h : b' = e.base b) : Com e.at' e.sb (Heap.newBase b) (Heap.newBase b') s := by
  subst h
  exact fun hi => ⟨by simp [at', out, Heap.newBase, embed, sb], hi⟩

theorem newProps_com {m m' : OMap Property} (h : m' = e.props m) : Com e.at' e.sp (Heap.newProps m) (Heap.newProps m') s := by
  subst h
  exact fun hi => ⟨by simp [at', out, Heap.newProps, embed, sp], hi⟩

theorem newPatProps_com {m m' : OMap PatternProperty} (h : m' = e.pats m) : Com e.at' e.sq (Heap.newPatProps m) (Heap.newPatProps m') s := by
  subst h
  exact fun hi => ⟨by simp [at', out, Heap.newPatProps, embed, sq], hi⟩

theorem newSlice_com {m m' : List Addr} (h : m' = m.map e.sb) : Com e.at' e.ss (Heap.newSlice m) (Heap.newSlice m') s := by
  subst h
  exact fun hi => ⟨by simp [at', out, Heap.newSlice, embed, ss], hi⟩

theorem newFacets_com {m m' : OMap GoVal} (h : m' = m) : Com e.at' e.sf (Heap.newFacets m) (Heap.newFacets m') s := by
  subst h
  exact fun hi => ⟨by simp [at', out, Heap.newFacets, embed, sf], hi⟩

theorem newDT_com {d d' : DT} (h : d' = e.dt d) : Com e.at' e.sd (Heap.newDT d) (Heap.newDT d') s := by
  subst h
  exact fun hi => ⟨by simp [at', out, Heap.newDT, embed, sd], hi⟩

theorem setProp_com (i : Nat) (k : String) {p p' : Property} (h : p' = e.prop p) :
    Com e.at' id (Heap.setProp i k p) (Heap.setProp (e.sp i) k p') s := by
  subst h
  exact fun hi => ⟨by simp only [Heap.setProp, at', embed, sp]; rw [modify_shift _ _ _ (fun m => OMap.set m k p) _ (fun m => set_props e m k p)]; rfl, hi⟩

theorem setPatProp_com (i : Nat) (k : String) {p p' : PatternProperty} (h : p' = e.pat p) :
    Com e.at' id (Heap.setPatProp i k p) (Heap.setPatProp (e.sq i) k p') s := by
  subst h
  exact fun hi => ⟨by simp only [Heap.setPatProp, at', embed, sq]; rw [modify_shift _ _ _ (fun m => OMap.set m k p) _ (fun m => set_pats e m k p)]; rfl, hi⟩

theorem setFacet_com (i : Nat) (k : String) (v : GoVal) : Com e.at' id (Heap.setFacet i k v) (Heap.setFacet (e.sf i) k v) s := by
  have := modify_shift e.P.fmaps s.fmaps id (fun m => OMap.set m k v) (fun m => OMap.set m k v) (fun _ => rfl) i
  simp only [List.map_id] at this
  exact fun hi => ⟨by simp only [Heap.setFacet, at', embed, sf, this]; rfl, hi⟩

theorem newID_com : Com e.at' e.num Heap.newID Heap.newID s := by
  intro (hi : e.c0 ≤ s.idCounter)
  refine ⟨?_, by show e.c0 ≤ s.idCounter + 1; omega⟩
  have : e.num (s.idCounter + 1) = s.idCounter + e.δ + 1 := by unfold num; rw [if_neg (by omega)]; omega
  simp only [Heap.newID, at', embed, out, this]
  rw [show s.idCounter + 1 + e.δ = s.idCounter + e.δ + 1 by omega]

theorem putShape_com (a : Addr) : Com e.at' id (Heap.putShape a) (Heap.putShape (e.sb a)) s := by
  exact fun hi => ⟨by simp [at', out, Heap.putShape, embed], hi⟩

theorem setPropAt_com (i k : Nat) {p p' : String × Property} (h : p' = (p.1, e.prop p.2)) :
    Com e.at' id (Heap.setPropAt i k p) (Heap.setPropAt (e.sp i) k p') s := by
  subst h
  exact fun hi => ⟨by simp only [Heap.setPropAt, at', embed, sp]; rw [modify_shift _ _ e.props (fun m => (List.set m k p : List _)) _ (fun m => by simp [props, List.map_set])]; rfl, hi⟩

theorem setPatPropAt_com (i k : Nat) {p p' : String × PatternProperty} (h : p' = (p.1, e.pat p.2)) :
    Com e.at' id (Heap.setPatPropAt i k p) (Heap.setPatPropAt (e.sq i) k p') s := by
  subst h
  exact fun hi => ⟨by simp only [Heap.setPatPropAt, at', embed, sq]; rw [modify_shift _ _ e.pats (fun m => (List.set m k p : List _)) _ (fun m => by simp [pats, List.map_set])]; rfl, hi⟩

theorem setSliceAt_com (i k : Nat) (a : Addr) : Com e.at' id (Heap.setSliceAt i k a) (Heap.setSliceAt (e.ss i) k (e.sb a)) s := by
  exact fun hi => ⟨by simp only [Heap.setSliceAt, at', embed, ss]; rw [modify_shift _ _ (List.map e.sb) (fun m => m.set k a) _ (fun m => by simp [List.map_set])]; rfl, hi⟩

end Place

end GoRaml.Emb
