import Verif.Lemmas.ClimbNames
import Verif.Lemmas.MarkGuarded
import Verif.Props.Ancestry
import Verif.Props.FlatEnds

/-!
# Without unions and custom facets, validation after unwrapping gives an answer (C81)
-/

namespace GoRaml.Props

open GoRaml GoRaml.Spec

theorem markFragment_at {n m : Nat} (hn : n ≤ m) (f : FragRef) (s : St) : Fuel.At (markFragment n f) (markFragment m f) s := by
  cases f with
  | library i =>
    intro hd
    simp only [markFragment] at hd ⊢
    cases hl : s.libs[i]? with
    | none => rfl
    | some l =>
      rw [hl] at hd
      exact Fuel.At.forEach (fun (ka : String × Addr) s => (Fuel.mark_at n m hn ka.2 s).bind fun _ _ => .rfl) _ s hd
  | dataType i =>
    intro hd
    simp only [markFragment] at hd ⊢
    cases hl : (s.dts[i]?).bind (·.shape) with
    | none => rfl
    | some a =>
      rw [hl] at hd
      exact ((Fuel.mark_at n m hn a s).bind fun _ _ => .rfl) hd
  | namedExample i => exact .rfl

/-- More steps change nothing. -/
theorem unwrapShapes_at {n m : Nat} (hn : n ≤ m) (fs fs' : List FragRef) (s : St) : Fuel.At (unwrapShapes n fs fs') (unwrapShapes m fs fs') s :=
  Fuel.At.rfl.bind fun _ s => (Flat.unwrapFragments_at hn fs s).bind fun _ s => (Fuel.At.forEach (fun f s => markFragment_at hn f s) fs' s).bind fun _ _ => .rfl

section
variable (E : Env) (s : St) (h : Load.Ready E s) (hu : NoUnions s) (hc : NoCustomFacets s)

include h hu

theorem climb_start : Climb.J s (Whole.cleared s) := by
  have hl := h.held.loaded
  have hi : Apart.I s := h.own
  refine ⟨fun x b hb => ?_, fun x b hb _ => ⟨b, hb, rfl, rfl, rfl⟩, fun x b i hb hi => ⟨x, b, hb, hi, .refl⟩, fun o bo i hb hi p hp => .single (.parent hb (hi ▸ hp)),
    fun d D x hd hx => ⟨D, x, hd, hx, .refl _ _⟩, fun x b hb => ⟨b, hb, rfl, fun _ => ⟨rfl, fun _ h => h⟩⟩⟩
  obtain ⟨q, k1, k2, _⟩ := hl.typed hb
  have hv := (hi.fresh x b hb).2
  refine ⟨fun ht => ?_, fun ht => ?_, fun e => by rw [hv] at e; cases e⟩
  · rw [k1] at ht
    cases q <;> simp [Climb.tag] at ht
    exact hu x b _ _ hb k1
  · rw [k1] at ht
    cases q <;> simp [Climb.tag] at ht
    exact Emb.kind_not_recursive k2

include hc

omit hc in
/-- A run of `UnwrapShapes` that succeeds: unwrapping, the search for recursion, and annotations. -/
theorem climb_steps {K : Whole.Par} [K.Rec] (hw : Whole.Wf K (Whole.cleared s)) {k : Nat} {frags frags' : List FragRef} (hf : frags.Perm (s.fragments.map (·.2)))
    (hf' : frags'.Perm (s.fragments.map (·.2))) {s' : St} (hr : unwrapShapes k frags frags' s = (.ok (), s')) :
    ∃ s1 s2 e', unwrapFragments k frags (Whole.cleared s) = (.ok (), s1) ∧ (Climb.J s s1 ∧ Climb.L s s1) ∧ Whole.Wf K s1 ∧ Load.Longer (Whole.cleared s) s1 ∧ Whole.Looping K s1 s2 ∧
      Marked (Whole.There s1) s1 s2 ∧ s' = { s2 with domainExts := e' } := by
  have hl := h.held.loaded
  unfold unwrapShapes at hr
  obtain ⟨_, s0, e0, hr⟩ := M.bind_ok.1 hr
  cases e0
  have hr : (M.bind (unwrapFragments k frags) fun _ => M.bind (markFragments k frags') fun _ => unwrapDomainExtensions) (Whole.cleared s) = (.ok (), s') := hr
  obtain ⟨_, s1, e1, hr⟩ := M.bind_ok.1 hr
  obtain ⟨_, s2, e2, hr⟩ := M.bind_ok.1 hr
  have r1 := Whole.unwrapFragments_two (n := k) hw (Whole.loaded_there hl (perm_fragments hf)) fun _ h => by cases h
  unfold Whole.Sound2 Whole.Safe at r1
  rw [e1] at r1
  obtain ⟨⟨w1, _⟩, k1, _⟩ := r1
  obtain ⟨lp, mk, _⟩ := Whole.Looping.fragments w1 frags' s1 s2 (.refl w1) (fun f h => (Whole.loaded_there hl (perm_fragments hf') f h).kept k1) e2
  have hexts : s2.domainExts = s.domainExts := lp.bigger.exts.trans k1.exts
  have hrun := Whole.unwrapDomainExtensions_run (s := s2) fun d hd' => by
    obtain ⟨a, ha⟩ := Whole.loaded_exts hl d (hexts ▸ hd')
    obtain ⟨b, hb⟩ := Load.isBase_base (lp.wf.exts d hd' a ha)
    exact ⟨a, b, ha, hb⟩
  rw [hr] at hrun
  obtain ⟨_, _, _, e', p3, _⟩ := hrun
  have j0 := climb_start E s h hu
  have l0 : Climb.L s (Whole.cleared s) := fun i l hl => ⟨l, hl, fun c e he => ⟨e.2, he, .refl _ _⟩⟩
  exact ⟨s1, s2, e', e1, ⟨Climb.unwrapFragments_j j0 e1, Climb.unwrapFragments_l j0 l0 e1⟩, w1, k1.longer, lp, mk, p3⟩

/-- The stages of a successful run. -/
theorem climb_run {K : Whole.Par} [K.Rec] (hw : Whole.Wf K (Whole.cleared s)) {k : Nat} {frags frags' : List FragRef} (hf : frags.Perm (s.fragments.map (·.2)))
    (hf' : frags'.Perm (s.fragments.map (·.2))) {s' : St} (hr : unwrapShapes k frags frags' s = (.ok (), s')) :
    ∃ s1 s2 e', Climb.J s s1 ∧ (∀ a b, s1.base a = some b → s1.props b.facetDefs = []) ∧ Whole.Wf K s1 ∧ s.bases.length ≤ s1.bases.length ∧ Whole.Looping K s1 s2 ∧
      Marked (Whole.There s1) s1 s2 ∧ s' = { s2 with domainExts := e' } := by
  obtain ⟨s1, s2, e', e1, ⟨j, _⟩, w1, hlen, lp, mk, p3⟩ := climb_steps E s h hu hw hf hf' hr
  have hsh : ShareNothing s := h.own.share
  have i0 := stops_start hsh hu hc
  have i1 : Stops.Inv (facetMaps s) (Whole.cleared s) := ⟨i0.plain, i0.defs, i0.props, i0.none⟩
  obtain ⟨N, o, h1, _, h3⟩ := Stops.unwrapFragments_halts (frags := frags) (.inl fun _ h => h) i1
  have e3 := Flat.unwrapFragments_at (n := k) (m := max k N) (by omega) frags (Whole.cleared s) (by rw [e1]; simp)
  have e4 : o = (.ok (), s1) := (h1 (max k N) (max k N) (by omega) (by omega)).symm.trans (e3.trans e1)
  subst e4
  exact ⟨s1, s2, e', j, (Stops.Inv.bare (fun _ h => h) h3).1, w1, hlen.bases, lp, mk, p3⟩

omit hu hc in
/-- Parents are ancestors in the parsed model, or recursive references. -/
theorem climb_rooted {s1 s2 : St} (j : Climb.J s s1) (hlen : s.bases.length ≤ s1.bases.length) (mk : Marked (Whole.There s1) s1 s2) : Rooted s2 := by
  have hfine := h.fine
  have hacc : ∀ a, Acc (Relation.TransGen fun x a => DerivesFrom s a x) a := fun a => by
    refine Acc.transGen ?_
    induction hfine.acc a with
    | intro a _ ih => exact ⟨a, fun x hx => ih x (derives_edge E s h hx)⟩
  have root : ∀ y b, s1.base y = none → s2.base y = some b → ChainDefs s2 b.inherits [] := fun y b h1 h2 => by
    rw [mk.roots y b h1 h2]
    exact .root _ rfl
  intro a
  induction hacc a with
  | intro a _ ih =>
    intro b hb
    cases h1 : s1.base a with
    | none => exact ⟨_, root a b h1 hb⟩
    | some c =>
      obtain ⟨q, v, h2, _⟩ := mk.old a c h1
      rw [hb] at h2
      cases h2
      show ∃ l, ChainDefs s2 c.inherits l
      have hsl := mk.slices c.inherits
      cases h3 : s2.slice c.inherits with
      | nil => exact ⟨_, .root _ h3⟩
      | cons p ps =>
        rw [h3] at hsl
        generalize h4 : s1.slice c.inherits = l1 at hsl
        cases hsl with
        | @cons p0 _ ps0 _ hp _ =>
          rcases hp with rfl | ⟨_, h5, h6⟩
          · cases hi : c.inherits with
            | none => rw [hi] at h4; cases h4
            | some i =>
              obtain ⟨o, bo, k1, k2, k3⟩ := j.owned a c i h1 hi
              have hanc : AncestorOf s p a := Relation.TransGen.trans_right k3 (j.slots o bo i k1 k2 p (by rw [← hi, h4]; simp))
              obtain ⟨pb, hpb, _⟩ := ready_ancestors_resolved E s h hanc
              have hlt : p < s1.bases.length := Nat.lt_of_lt_of_le (Stops.base_len hpb) hlen
              obtain ⟨q', v', k4, _⟩ := mk.old p s1.bases[p] (List.getElem?_eq_getElem hlt)
              obtain ⟨l, hl⟩ := ih p (Relation.transGen_swap.2 hanc) _ k4
              exact ⟨_, .parent _ p ps _ l (hi ▸ h3) k4 hl⟩
          · obtain ⟨pb, hpb, _⟩ := base_of_shape h6
            exact ⟨_, .parent _ p ps pb _ h3 hpb (root p pb h5 hpb)⟩

omit h hu hc in
theorem climb_visited {K : Whole.Par} {s1 s2 : St} (j : Climb.J s s1) (hd : ∀ a b, s1.base a = some b → s1.props b.facetDefs = []) (lp : Whole.Looping K s1 s2)
    (mk : Marked (Whole.There s1) s1 s2) {a : Addr} {b : Base} (hb : s2.base a = some b) (hv : b.visited = true) : b.shape = some .any ∧ s2.props b.facetDefs = [] := by
  have hv2 : visitedAt s2 a = some true := by simp [visitedAt, hb, hv]
  cases h1 : s1.base a with
  | none => exact absurd hv2 (lp.vis.fresh a h1)
  | some c =>
    have hv1 := (lp.vis.old a (by rw [h1]; simp)).symm.trans hv2
    simp only [visitedAt, h1, Option.map_some, Option.some.injEq] at hv1
    have ht := (j.plain a c h1).2.2 hv1
    have hs : c.shape = some .any := by
      cases hs : c.shape with
      | none => rw [hs] at ht; cases ht
      | some q =>
        rw [hs] at ht
        cases q <;> simp [Climb.tag] at ht
        rfl
    obtain ⟨q, v, h2, h3⟩ := mk.old a c h1
    rw [hb] at h2
    cases h2
    rw [hs] at h3
    refine ⟨by cases h3; rfl, ?_⟩
    have := mk.props c.facetDefs
    rw [hd a c h1] at this
    exact List.forall₂_nil_left_iff.1 this

variable {k : Nat} {frags frags' : List FragRef} (hf : frags.Perm (s.fragments.map (·.2))) (hf' : frags'.Perm (s.fragments.map (·.2))) {s' : St}
  (hr : unwrapShapes k frags frags' s = (.ok (), s'))

include hf hf' hr

/-- After a successful `UnwrapShapes` only types that allow every value are still marked as visited. -/
theorem ready_left_visited {a : Addr} (hv : LeftVisited s' a) : s'.shapeAt a = some .any := by
  have hl := h.held.loaded
  have hw := Whole.loaded_wf (K := anyValues) hl (fun _ _ _ h => fine_any h) (fun _ _ _ => ⟨fun _ _ => trivial, fun _ _ _ _ _ _ => trivial, fun _ _ => trivial⟩)
    (fun _ _ _ _ => trivial)
  obtain ⟨s1, s2, e', j, hd, _, _, lp, mk, rfl⟩ := climb_run E s h hu hc hw hf hf' hr
  obtain ⟨b, hb, hbv⟩ := hv
  have hb : s2.base a = some b := hb
  show s2.shapeAt a = _
  simp [St.shapeAt, hb, (climb_visited s j hd lp mk hb hbv).1]

/-- No type has infinitely many first parents. -/
theorem ready_unwrapped_rooted : Rooted s' := by
  have hl := h.held.loaded
  have hw := Whole.loaded_wf (K := anyValues) hl (fun _ _ _ h => fine_any h) (fun _ _ _ => ⟨fun _ _ => trivial, fun _ _ _ _ _ _ => trivial, fun _ _ => trivial⟩)
    (fun _ _ _ _ => trivial)
  obtain ⟨s1, s2, e', j, hd, _, hlen, lp, mk, rfl⟩ := climb_run E s h hu hc hw hf hf' hr
  intro a b hb
  obtain ⟨l, hl⟩ := climb_rooted E s h j hlen mk a b hb
  refine ⟨l, ?_⟩
  clear hb
  generalize b.inherits = p at hl
  induction hl with
  | root p hp => exact .root _ hp
  | parent i p ps b l h1 h2 _ ih => exact .parent i p ps b l h1 h2 ih

/-- The components of every declared type are unwrapped, and no chain of components is infinite. -/
theorem ready_components {a : Addr} (ha : DeclaredType s' a) : NoInfiniteComponents s' a ∧ FullyUnwrapped s' a := by
  obtain ⟨hun, hno⟩ := loaded_after_unwrap E s h.held.loaded k hf hf' hr
  by_cases hv : LeftVisited s' a
  · have hl := h.held.loaded
    have hw := Whole.loaded_wf (K := anyValues) hl (fun _ _ _ h => fine_any h) (fun _ _ _ => ⟨fun _ _ => trivial, fun _ _ _ _ _ _ => trivial, fun _ _ => trivial⟩)
      (fun _ _ _ _ => trivial)
    obtain ⟨s1, s2, e', j, hd, _, _, lp, mk, rfl⟩ := climb_run E s h hu hc hw hf hf' hr
    obtain ⟨b, hb, hbv⟩ := hv
    obtain ⟨h1, h2⟩ := climb_visited s j hd lp mk (b := b) hb hbv
    have none : ∀ y, ¬ Component { s2 with domainExts := e' } a y := by
      rintro y ⟨b', hb', ⟨q, k1, k2⟩ | ⟨e, k1, _⟩⟩ <;> rw [hb] at hb' <;> cases hb'
      · rw [h1] at k1; cases k1; cases k2
      · rw [show St.props { s2 with domainExts := e' } b.facetDefs = [] from h2] at k1; cases k1
    refine ⟨fun g hg => ⟨0, hg ▸ none _⟩, fun y hy => ?_⟩
    cases hy with
    | refl => exact ⟨b, hb, hun.1 a b ha hb⟩
    | step hc _ => exact absurd hc (none _)
  · exact hno a ha hv

/-- `ValidateShapes` after a successful `UnwrapShapes` returns, does not panic, changes nothing, and reports no error exactly when the model is valid, if no annotation has lost its
type. -/
theorem ready_validates (hv : RuntimeModel s) (hx : ∀ d ∈ s'.domainExts, d.definedBy ≠ none) {vf : List FragRef}
    (X : Ext) {ord : OMap Property → OMap Property} (ho : ∀ l, (ord l).Perm l) (hvf : vf.Perm (s.fragments.map (·.2))) :
    Settled (fun k => (validateShapes X ord vf k s').1) (ModelOK X s') ∧ ∀ k, (validateShapes X ord vf k s').2 = s' := by
  have hl := h.held.loaded
  have hw := parsed_wf hl (K := goValues) rfl hv (fine_values hv.discriminators)
  obtain ⟨hun, _⟩ := loaded_after_unwrap E s h.held.loaded k hf hf' hr
  have hcomp := fun a ha => (ready_components E s h hu hc hf hf' hr (a := a) ha).1
  have hroot := ready_unwrapped_rooted E s h hu hc hf hf' hr
  have hwm := loaded_model_kept E s h.held.loaded k hf hf'
  rw [hr] at hwm
  obtain ⟨hwm, hso⟩ := hwm
  obtain ⟨s1, s2, e', j, hd, w1, _, lp, mk, rfl⟩ := climb_run E s h hu hc hw hf hf' hr
  have shape : ∀ {a q}, s1.shapeAt a = some q → Climb.tag q ≠ 1 ∧ Climb.tag q ≠ 2 := fun {a q} hq => by
    obtain ⟨b, hb, hbs⟩ := base_of_shape hq
    have := j.plain a b hb
    rw [hbs] at this
    exact ⟨fun e => this.1 (by simp [e]), fun e => this.2.1 (by simp [e])⟩
  have hg : Guarded s2 := guarded_marked (rank := fun _ => 0) (fun a u e hs => absurd rfl (shape hs).1) (fun a y hs => absurd rfl (shape hs).2) (Emb.Wf.closed (Emb.Wf.cleared w1)) mk
  have w3 : Whole.Wf goValues { s2 with domainExts := e' } := lp.wf.withExts fun d hd => hwm.annotations d hd
  have wc := Emb.Wf.cleared w3
  have hloaded : Spec.Loaded { s2 with domainExts := e' } := by
    refine ⟨hwm.libs, fun k i hi => ?_, fun a ha => ?_, fun d hd => ?_⟩
    · obtain ⟨d, hd⟩ := hwm.dts k i hi
      obtain ⟨a, h5, _⟩ := hwm.dtTypes d (List.mem_of_getElem? hd)
      exact ⟨d, a, hd, h5⟩
    · cases ha with
      | type _ hl he => exact (hwm.libTypes _ (List.mem_of_getElem? hl)).1 _ he
      | annotationType _ hl he => exact (hwm.libTypes _ (List.mem_of_getElem? hl)).2 _ he
      | dataType _ hd hs =>
        obtain ⟨a', h1, h2⟩ := hwm.dtTypes _ (List.mem_of_getElem? hd)
        rw [hs] at h1; cases h1
        exact h2
    · cases hda : d.definedBy with
      | none => exact absurd hda (hx d hd)
      | some a => exact ⟨a, rfl, hwm.annotations d hd a hda⟩
  have hprep : Prepared { s2 with domainExts := e' } := ⟨Emb.Wf.closed wc, hg, Emb.Wf.facetsClosed wc, hroot, Emb.Wf.values wc fun _ h => h⟩
  exact c44_unwrapped_model X hprep (Emb.Wf.discriminators wc fun _ h => h) hloaded hun (fun d hd => by
    have : (d.name, d.value, d.location) ∈ s.domainExts.map fun d => (d.name, d.value, d.location) := by
      rw [← hso.annotations]; exact List.mem_map.2 ⟨d, hd, rfl⟩
    obtain ⟨d', hd', he⟩ := List.mem_map.1 this
    have : d'.value = d.value := (Prod.mk.inj (Prod.mk.inj he).2).1
    exact this ▸ hv.annotations d' hd') hcomp ho (frags := vf) (by rw [hso.fragments]; exact hvf)

end

section
variable (E : Env) (n m : Nat) (path : String) (f : FragRef) (s : St) (h : parseFromPath E n m path {} = (.ok f, s)) (hu : NoUnions s) (hc : NoCustomFacets s)
  {k : Nat} {frags frags' : List FragRef} (hf : frags.Perm (s.fragments.map (·.2))) (hf' : frags'.Perm (s.fragments.map (·.2))) {s' : St}
  (hr : unwrapShapes k frags frags' s = (.ok (), s'))

include h hu hc hf hf' hr

/-- C81: after a successful `UnwrapShapes` only types that allow every value are still marked as visited. -/
theorem c81_left_visited {a : Addr} (hv : LeftVisited s' a) : s'.shapeAt a = some .any := ready_left_visited E s (Load.ready_parsed h) hu hc hf hf' hr hv

/-- C81: no type has infinitely many first parents. -/
theorem c81_rooted : Rooted s' := ready_unwrapped_rooted E s (Load.ready_parsed h) hu hc hf hf' hr

/-- C81: the components of every declared type are unwrapped, and no chain of components is infinite. -/
theorem c81_components {a : Addr} (ha : DeclaredType s' a) : NoInfiniteComponents s' a ∧ FullyUnwrapped s' a :=
  ready_components E s (Load.ready_parsed h) hu hc hf hf' hr ha

/-- C81: `ValidateShapes` after a successful `UnwrapShapes` returns, does not panic, changes nothing, and reports no error exactly when the model is valid, if no annotation has lost its
type. -/
theorem c81_validates (hv : RuntimeModel s) (hx : ∀ d ∈ s'.domainExts, d.definedBy ≠ none) {vf : List FragRef}
    (X : Ext) {ord : OMap Property → OMap Property} (ho : ∀ l, (ord l).Perm l) (hvf : vf.Perm (s.fragments.map (·.2))) :
    Settled (fun k => (validateShapes X ord vf k s').1) (ModelOK X s') ∧ ∀ k, (validateShapes X ord vf k s').2 = s' :=
  ready_validates E s (Load.ready_parsed h) hu hc hf hf' hr hv hx X ho hvf

end

/-- C81: once a file without unions and custom facets is parsed, parsing it with unwrapping and validation returns and does not panic.  It succeeds exactly when unwrapping does and the
unwrapped model is valid, whatever the orders in which fragments and facet declarations are visited. -/
theorem c81_answers (E : Env) (n m : Nat) (path : String) (f : FragRef) (s : St) (h : parseFromPath E n m path {} = (.ok f, s)) (hu : NoUnions s) (hc : NoCustomFacets s)
    (he : ScalarEnums s) (hv : RuntimeModel s) (ord : Orders) (ho : ∀ l, (ord.facets l).Perm l) (h1 : ∀ l, (ord.unwrap l).Perm (l.map (·.2))) (h2 : ∀ l, (ord.mark l).Perm (l.map (·.2)))
    (h3 : ∀ l, (ord.validate l).Perm (l.map (·.2)))
    (hx : ∀ k s', unwrapShapes k (ord.unwrap s.fragments) (ord.mark s.fragments) s = (.ok (), s') → ∀ d ∈ s'.domainExts, d.definedBy ≠ none) :
    ∃ N u s', (∀ k, N ≤ k → unwrapShapes k (ord.unwrap s.fragments) (ord.mark s.fragments) s = (u, s')) ∧
      ∀ n' m', N ≤ n' → N ≤ m' → (parseWith E ord n' m' path { withUnwrap := true, withValidate := true } {}).2 = s' ∧
        ((parseWith E ord n' m' path { withUnwrap := true, withValidate := true } {}).1 = .ok f ↔ u = .ok () ∧ ModelOK E.toExt s') ∧
        ((∃ e, (parseWith E ord n' m' path { withUnwrap := true, withValidate := true } {}).1 = .err e) ↔ ¬ (u = .ok () ∧ ModelOK E.toExt s')) := by
  obtain ⟨N, r, s', q1, q2⟩ := c79_answers E n m path f s h (h1 s.fragments) (h2 s.fragments) hu hc he
  have same : ∀ n' m', n ≤ n' → m ≤ m' → parseFromPath E n' m' path {} = (.ok f, s) := fun n' m' hn hm => by
    unfold parseFromPath at h ⊢
    cases hfile : E.file path with
    | none => rw [hfile] at h; cases h
    | some text =>
      rw [hfile] at h
      rw [← h]
      exact c76_result_unique E text path n m n' m' hn hm (by rw [show parseFragment E n m text path {} = _ from h]; simp)
  have e0 := q2 N (Nat.le_refl _)
  rcases q1 with rfl | ⟨e, rfl⟩
  · obtain ⟨⟨N', c1⟩, c2⟩ := c81_validates E n m path f s h hu hc (h1 s.fragments) (h2 s.fragments) e0 hv (hx _ _ e0) E.toExt ho (h3 s.fragments)
    have hfr : s'.fragments = s.fragments := by
      have := (c61_model_kept E n m path f s h N (h1 s.fragments) (h2 s.fragments)).2.fragments
      rw [e0] at this; exact this
    refine ⟨max (max N N') (max n m), .ok (), s', fun k hk => q2 k (by omega), fun n' m' hn hm => ?_⟩
    have e1 := q2 n' (by omega)
    obtain ⟨c3, c4⟩ := c1 n' (by omega)
    have e2 := c2 n'
    have hrun : parseWith E ord n' m' path { withUnwrap := true, withValidate := true } {} =
        ((validateShapes E.toExt ord.facets (ord.validate s.fragments) n' s').1.bind fun _ => .ok f, s') := by
      have e3 : finishParse E ord n' { withUnwrap := true, withValidate := true } s = validateShapes E.toExt ord.facets (ord.validate s'.fragments) n' s' :=
        (M.bind_of_ok (m := fun h => unwrapShapes n' (ord.unwrap h.fragments) (ord.mark h.fragments) h) e1).trans rfl
      unfold parseWith
      simp only [M.bind, same n' m' (by omega) (by omega), e3]
      rw [← hfr] at e2 ⊢
      cases hd : validateShapes E.toExt ord.facets (ord.validate s'.fragments) n' s' with
      | mk o t =>
        rw [hd] at e2
        cases e2
        cases o <;> rfl
    rw [hrun]
    simp only [true_and] at c3 c4 ⊢
    generalize (validateShapes E.toExt ord.facets (ord.validate s.fragments) n' s').1 = o at c3 c4 ⊢
    refine ⟨?_, ?_⟩
    · rw [← c3]; cases o <;> simp [Out.bind]
    · rw [← c4]; cases o <;> simp [Out.bind]
  · refine ⟨max N (max n m), .err e, s', fun k hk => q2 k (by omega), fun n' m' hn hm => ?_⟩
    have e1 := q2 n' (by omega)
    have e3 : finishParse E ord n' { withUnwrap := true, withValidate := true } s = (.err e, s') := by
      show M.bind (fun h => unwrapShapes n' (ord.unwrap h.fragments) (ord.mark h.fragments) h) _ s = _
      simp only [M.bind, e1]
    have hrun : parseWith E ord n' m' path { withUnwrap := true, withValidate := true } {} = (.err e, s') := by
      unfold parseWith
      simp only [M.bind, same n' m' (by omega) (by omega), e3]
    rw [hrun]
    simp

/-! ## A library -/

/-- Types that inherit from each other and refer to each other, with an annotation; one of them inherits from `any`.  The type of the default value is given. -/
def exHouse (type : String) : List (String × String × YNode) := [
  ("a.raml", "#%RAML 1.0 Library\na", exDoc [
    ("annotationTypes", exMap [("note", .str "string")]),
    ("types", exMap [
      ("Root", .str "any"),
      ("Node", exMap [("properties", exMap [("next?", .str "Leaf"), ("first", exMap [("type", .str "Root"), ("description", .str "x")]), ("kids", .str "Node[]"), ("name", .str "Name")]),
        ("(note)", .str "x")]),
      ("Leaf", exMap [("type", .str "Node"), ("properties", exMap [("next?", .str "Leaf"), ("size", .str "integer")])]),
      ("Name", exMap [("type", .str type), ("default", .str "x")]),
      ("Short", exMap [("type", .str "Name"), ("description", .str "x")])])])]

/-- It parses to this model. -/
def exHouseModel (type : String) : St := (parseFromPath (exFilesEnv (exHouse type)) 20 20 "a.raml" {}).2

/-- How unwrapping it ends. -/
def exHouseUnwrap (type : String) : Out Unit × St :=
  unwrapShapes 20 ((exHouseModel type).fragments.map (·.2)) ((exHouseModel type).fragments.map (·.2)) (exHouseModel type)

/-- How parsing with unwrapping and validation ends. -/
def exHouseRun (type : String) : Out FragRef × St := parseWith (exFilesEnv (exHouse type)) {} 40 40 "a.raml" { withUnwrap := true, withValidate := true } {}

/-- The hypotheses of C81 are met, by a model that is valid and by one that is not: a default value `x` is a string but not an integer.  One declared type, `Root`, is left visited. -/
example : (∀ type, type = "string" ∨ type = "integer" → parseFromPath (exFilesEnv (exHouse type)) 20 20 "a.raml" {} = (.ok (.library 0), exHouseModel type) ∧
      NoUnions (exHouseModel type) ∧ NoCustomFacets (exHouseModel type) ∧ ScalarEnums (exHouseModel type) ∧ RuntimeModel (exHouseModel type) ∧ (exHouseUnwrap type).1 = .ok () ∧
      (∀ k s', unwrapShapes k ((exHouseModel type).fragments.map (·.2)) ((exHouseModel type).fragments.map (·.2)) (exHouseModel type) = (.ok (), s') → ∀ d ∈ s'.domainExts, d.definedBy ≠ none) ∧
      (exHouseUnwrap type).2.libs.map (·.types) = [[("Root", 1), ("Node", 2), ("Leaf", 7), ("Name", 8), ("Short", 9)]] ∧ LeftVisited (exHouseUnwrap type).2 1) ∧
    exResult (exHouseRun "string") = some (.library 0) ∧ (exHouseRun "integer").1 = .err "invalid type" := by
  refine ⟨fun type hn => ?_, by decide +kernel, by decide +kernel⟩
  have h1 : exResult (parseFromPath (exFilesEnv (exHouse type)) 20 20 "a.raml" {}) = some (.library 0) := by rcases hn with rfl | rfl <;> decide +kernel
  obtain ⟨h2, h3⟩ := exPlain (s := exHouseModel type) (by rcases hn with rfl | rfl <;> decide +kernel)
  have h4 : Orderly (exFilesEnv (exHouse type)) := by
    rcases hn with rfl | rfl <;> exact orderly_files (n := 20) (by decide +kernel) (by decide +kernel) (by decide +kernel)
  have h5 : (exHouseUnwrap type).2.domainExts.map (·.definedBy) = [some 0] := by rcases hn with rfl | rfl <;> decide +kernel
  have h6 : ((exHouseUnwrap type).2.base 1).map (·.visited) = some true := by rcases hn with rfl | rfl <;> decide +kernel
  have h7 : (exHouseUnwrap type).1 = .ok () := by rcases hn with rfl | rfl <;> decide +kernel
  refine ⟨exParses h1, h2, h3, exEnums_scalar (by rcases hn with rfl | rfl <;> decide +kernel), c44_runtime_model _ (exFilesEnv_runtime _) h4 _ _ _ _ _ (exParses h1), h7,
    fun k s' hr d hd => ?_, by rcases hn with rfl | rfl <;> decide +kernel, Option.map_eq_some_iff.1 h6⟩
  have e1 := unwrapShapes_at (Nat.le_max_left k 20) _ _ _ (by rw [hr]; simp)
  have e2 := unwrapShapes_at (Nat.le_max_right k 20) _ _ _ (show (exHouseUnwrap type).1 ≠ .diverge by rw [h7]; simp)
  have hs : s' = (exHouseUnwrap type).2 := by
    have := hr.symm.trans (e1.symm.trans e2)
    exact congrArg Prod.snd this
  have : d.definedBy ∈ [some 0] := h5 ▸ List.mem_map_of_mem (hs ▸ hd)
  rw [List.mem_singleton.1 this]
  simp

end GoRaml.Props
