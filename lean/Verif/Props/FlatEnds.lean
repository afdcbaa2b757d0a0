import Verif.Lemmas.FlatEnds
import Verif.Props.Ends
import Verif.Props.Flat
import Verif.Props.ValidateAll

/-!
# Without inheritance, unwrapping and validating give an answer (C78)
-/

namespace GoRaml.Props

open GoRaml GoRaml.Spec

section
variable (E : Env) (n m : Nat) (path : String) (f : FragRef) (s : St) (h : parseFromPath E n m path {} = (.ok f, s)) (hp : NoInheritance s) (hu : NoUnionInItself s)
  (ha : AnnotationTypesDeclared s) (hv : RuntimeModel s)

include h hp hu ha hv

/-- C78: if no type of the parsed files is built on another and no union contains itself, `UnwrapShapes` succeeds, and `ValidateShapes` on what it leaves returns,
does not panic, changes nothing, and reports no error exactly when the model is valid. -/
theorem c78_validates {frags frags' vf : List FragRef} (hf : frags.Perm (s.fragments.map (·.2))) (hf' : frags'.Perm (s.fragments.map (·.2)))
    (X : Ext) {ord : OMap Property → OMap Property} (ho : ∀ l, (ord l).Perm l) (hvf : vf.Perm (s.fragments.map (·.2))) :
    ∃ N s', (∀ k, N ≤ k → unwrapShapes k frags frags' s = (.ok (), s')) ∧ s'.fragments = s.fragments ∧
      Settled (fun k => (validateShapes X ord vf k s').1) (ModelOK X s') ∧ ∀ k, (validateShapes X ord vf k s').2 = s' := by
  have hl := parsed_loaded E n m path f s h
  have hw := parsed_wf hl (K := goValues) rfl hv (fine_values hv.discriminators)
  obtain ⟨s1, s2, N, ⟨u1, w1, mk, nv, w2, h1⟩, h2, h3, h4⟩ := flat_unwrap E n m path f s h hf hf' hw hp
  obtain ⟨e', r, hdef⟩ := flat_annotations s ha h1 h2 h3
  have st := flat_start E n m path f s h hp
  have hr : ∀ k, N ≤ k → unwrapShapes k frags frags' s = (.ok (), { s2 with domainExts := e' }) := fun k hk => (h4 k hk).trans r
  have hrN := hr N (Nat.le_refl _)
  have hwm := c61_model_kept E n m path f s h N hf hf'
  rw [hrN] at hwm
  obtain ⟨hwm, hso⟩ := hwm
  obtain ⟨hun, hnoinf⟩ := c62_after_unwrap E n m path f s h N hf hf' hrN
  have hg : Guarded s2 := Flat.guarded_flat st hu (fun a y hs => by
    obtain ⟨b, hb, hbs⟩ := base_of_shape hs
    obtain ⟨q, k1, k2, _⟩ := hl.typed hb
    rw [hbs] at k1; cases k1
    exact Emb.kind_not_recursive k2) u1 w1 mk
  have hroot : Rooted s2 := Flat.rooted_marked (fun a b hb => u1.roots st hb) mk
  have w3 : Whole.Wf goValues { s2 with domainExts := e' } := w2.withExts fun d hd => hwm.annotations d hd
  have wc := Emb.Wf.cleared w3
  have hloaded : Spec.Loaded { s2 with domainExts := e' } := by
    refine ⟨hwm.libs, fun k i hi => ?_, fun a ha => ?_, fun d hd => ?_⟩
    · obtain ⟨d, hd⟩ := hwm.dts k i hi
      obtain ⟨a, h5, _⟩ := hwm.dtTypes d (List.mem_of_getElem? hd)
      exact ⟨d, a, hd, h5⟩
    · cases ha with
      | type _ hl he => exact (hwm.libTypes _ (List.mem_of_getElem? hl)).1 _ he
      | annotationType _ hl he => exact (hwm.libTypes _ (List.mem_of_getElem? hl)).2 _ he
      | dataType _ hd hs =>
        obtain ⟨a', h1, h2⟩ := hwm.dtTypes _ (List.mem_of_getElem? hd)
        rw [hs] at h1; cases h1
        exact h2
    · cases hda : d.definedBy with
      | none => exact absurd hda (hdef d hd)
      | some a => exact ⟨a, rfl, hwm.annotations d hd a hda⟩
  have hprep' : Prepared { s2 with domainExts := e' } := ⟨Emb.Wf.closed wc, hg, Emb.Wf.facetsClosed wc, fun a b hb => by
    obtain ⟨l, hl⟩ := hroot a b hb
    refine ⟨l, ?_⟩
    clear hb
    generalize b.inherits = p at hl
    induction hl with
    | root p hp => exact .root _ hp
    | parent i p ps b l h1 h2 _ ih => exact .parent i p ps b l h1 h2 ih, Emb.Wf.values wc fun _ h => h⟩
  obtain ⟨c1, c2⟩ := c44_unwrapped_model X hprep' (Emb.Wf.discriminators wc fun _ h => h) hloaded hun (fun d hd => by
    have : (d.name, d.value, d.location) ∈ s.domainExts.map fun d => (d.name, d.value, d.location) := by
      rw [← hso.annotations]; exact List.mem_map.2 ⟨d, hd, rfl⟩
    obtain ⟨d', hd', he⟩ := List.mem_map.1 this
    have : d'.value = d.value := (Prod.mk.inj (Prod.mk.inj he).2).1
    exact this ▸ hv.annotations d' hd') (fun a ha => (hnoinf a ha fun ⟨b, hb, hbv⟩ => by
      rw [nv a b hb] at hbv; cases hbv).1) ho (frags := vf) (by rw [hso.fragments]; exact hvf)
  exact ⟨N, _, hr, hso.fragments, c1, c2⟩

/-- C78: once a file is parsed, parsing it with unwrapping and validation returns, does not panic, and succeeds exactly when the unwrapped model is valid,
whatever the orders in which fragments and facet declarations are visited. -/
theorem c78_answers (ord : Orders) (ho : ∀ l, (ord.facets l).Perm l) (h1 : ∀ l, (ord.unwrap l).Perm (l.map (·.2))) (h2 : ∀ l, (ord.mark l).Perm (l.map (·.2)))
    (h3 : ∀ l, (ord.validate l).Perm (l.map (·.2))) :
    ∃ N s', ∀ n' m', N ≤ n' → N ≤ m' → (parseWith E ord n' m' path { withUnwrap := true, withValidate := true } {}).2 = s' ∧
      ((parseWith E ord n' m' path { withUnwrap := true, withValidate := true } {}).1 = .ok f ↔ ModelOK E.toExt s') ∧
      ((∃ e, (parseWith E ord n' m' path { withUnwrap := true, withValidate := true } {}).1 = .err e) ↔ ¬ ModelOK E.toExt s') := by
  obtain ⟨N, s', q1, q2, ⟨N', q3⟩, q4⟩ := c78_validates E n m path f s h hp hu ha hv (h1 s.fragments) (h2 s.fragments) E.toExt ho (h3 s.fragments)
  refine ⟨max (max N N') (max n m), s', fun n' m' hn hm => ?_⟩
  have hparse : parseFromPath E n' m' path {} = (.ok f, s) := by
    unfold parseFromPath at h ⊢
    cases hfile : E.file path with
    | none => rw [hfile] at h; cases h
    | some text =>
      rw [hfile] at h
      rw [← h]
      exact c76_result_unique E text path n m n' m' (by omega) (by omega) (by rw [show parseFragment E n m text path {} = _ from h]; simp)
  have e1 := q1 n' (by omega)
  obtain ⟨c1, c2⟩ := q3 n' (by omega)
  have e2 := q4 n'
  have hrun : parseWith E ord n' m' path { withUnwrap := true, withValidate := true } {} =
      ((validateShapes E.toExt ord.facets (ord.validate s.fragments) n' s').1.bind fun _ => .ok f, s') := by
    have e3 : finishParse E ord n' { withUnwrap := true, withValidate := true } s = validateShapes E.toExt ord.facets (ord.validate s'.fragments) n' s' :=
      (M.bind_of_ok (m := fun h => unwrapShapes n' (ord.unwrap h.fragments) (ord.mark h.fragments) h) e1).trans rfl
    unfold parseWith
    simp only [M.bind, hparse, e3]
    rw [← q2] at e2 ⊢
    cases hd : validateShapes E.toExt ord.facets (ord.validate s'.fragments) n' s' with
    | mk o t =>
      rw [hd] at e2
      cases e2
      cases o <;> rfl
  rw [hrun]
  simp only at c1 c2
  generalize (validateShapes E.toExt ord.facets (ord.validate s.fragments) n' s').1 = o at c1 c2 ⊢
  refine ⟨rfl, ?_, ?_⟩
  · rw [← c1]; cases o <;> simp [Out.bind]
  · rw [← c2]; cases o <;> simp [Out.bind]

end

/-- C78, from the files: with decoders that give Go values, files in order and no file leading back to one that includes it. -/
theorem c78_files (E : Env) (hE : RuntimeEnv E) (hor : Orderly E) (hw : NoWayBack E) (n m : Nat) (path : String) (f : FragRef) (s : St)
    (h : parseFromPath E n m path {} = (.ok f, s)) (hp : NoInheritance s) (hu : NoUnionInItself s) (ord : Orders) (ho : ∀ l, (ord.facets l).Perm l)
    (h1 : ∀ l, (ord.unwrap l).Perm (l.map (·.2))) (h2 : ∀ l, (ord.mark l).Perm (l.map (·.2))) (h3 : ∀ l, (ord.validate l).Perm (l.map (·.2))) :
    ∃ N s', ∀ n' m', N ≤ n' → N ≤ m' → (parseWith E ord n' m' path { withUnwrap := true, withValidate := true } {}).2 = s' ∧
      ((parseWith E ord n' m' path { withUnwrap := true, withValidate := true } {}).1 = .ok f ↔ ModelOK E.toExt s') ∧
      ((∃ e, (parseWith E ord n' m' path { withUnwrap := true, withValidate := true } {}).1 = .err e) ↔ ¬ ModelOK E.toExt s') :=
  c78_answers E n m path f s h hp hu (c77_annotation_types E n m path f s h hw) (c44_runtime_model E hE hor n m path f s h) ord ho h1 h2 h3

/-- C76 and C78: parsing with unwrapping and validation ends, if no file includes itself, no type needs itself to be resolved, and the types that the files declare
are not built on others and no union contains itself. -/
theorem c78_ends (E : Env) (hE : RuntimeEnv E) (hor : Orderly E) (hw : NoWayBack E) (hfin : FinitelyManyFiles E) (path : String)
    (href : ∀ text, E.file path = some text → ∀ a s, TakenUp E text path a s → ¬ Relation.TransGen (Needs s) a a)
    (hflat : ∀ n m f s, parseFromPath E n m path {} = (.ok f, s) → NoInheritance s ∧ NoUnionInItself s) (ord : Orders) (ho : ∀ l, (ord.facets l).Perm l)
    (h1 : ∀ l, (ord.unwrap l).Perm (l.map (·.2))) (h2 : ∀ l, (ord.mark l).Perm (l.map (·.2))) (h3 : ∀ l, (ord.validate l).Perm (l.map (·.2))) :
    ∃ N, ∀ n m, N ≤ n → N ≤ m → (parseWith E ord n m path { withUnwrap := true, withValidate := true } {}).1 ≠ .diverge := by
  obtain ⟨N, hN⟩ := c76_parsing_path_ends E path hfin (noIncludeCycle_of_noWayBack hw) href
  have hNN := hN N N (Nat.le_refl _) (Nat.le_refl _)
  have same : ∀ n m, N ≤ n → N ≤ m → parseFromPath E n m path {} = parseFromPath E N N path {} := by
    intro n m hn hm
    unfold parseFromPath at hNN ⊢
    cases hfile : E.file path with
    | none => rfl
    | some text =>
      rw [hfile] at hNN
      exact c76_result_unique E text path N N n m hn hm hNN
  cases hr : parseFromPath E N N path {} with
  | mk o s =>
    cases o with
    | ok f =>
      obtain ⟨hp, hu⟩ := hflat N N f s hr
      obtain ⟨N', s', h4⟩ := c78_files E hE hor hw N N path f s hr hp hu ord ho h1 h2 h3
      refine ⟨N', fun n m hn hm hd => ?_⟩
      obtain ⟨_, h5, h6⟩ := h4 n m hn hm
      by_cases hok : ModelOK E.toExt s'
      · rw [hd] at h5; cases h5.2 hok
      · obtain ⟨e, he⟩ := h6.2 hok
        rw [hd] at he; cases he
    | err e => exact ⟨N, fun n m hn hm => by simp [parseWith, M.bind, same n m hn hm, hr]⟩
    | panic e => exact ⟨N, fun n m hn hm => by simp [parseWith, M.bind, same n m hn hm, hr]⟩
    | diverge => rw [hr] at hNN; exact absurd rfl hNN

/-! ## Examples -/

/-- Without inheritance it suffices that no member of a union is a union. -/
theorem noUnionInItself_of_members {s : St} (hp : NoInheritance s) (h : ∀ a m, UnionMember s a m → ∀ u e, s.shapeAt m ≠ some (.union u e)) : NoUnionInItself s := by
  intro a m hm hr
  have key : ∀ x, Relation.ReflTransGen (fun x y => UnionMember s x y ∨ AliasOf s x y) m x → (∃ u e, s.shapeAt x = some (.union u e)) → ∃ u e, s.shapeAt m = some (.union u e) := by
    intro x hx
    induction hx with
    | refl => exact fun h0 => h0
    | @tail x y _ hxy ih =>
      rintro ⟨u0, e0, h0⟩
      rcases hxy with hxy | ⟨b, hb, hbt⟩
      · exact absurd h0 (h x y hxy _ _)
      · obtain ⟨⟨q, v, k1, k2, k3⟩, _⟩ := hp.aliases x b y hb hbt
        rw [h0] at k2; cases k2
        cases q <;> simp [Kind] at k3
        exact ih ⟨_, _, by simp only [St.shapeAt, hb, Option.bind_some]; exact k1⟩
  obtain ⟨u, e, h1⟩ := key a hr (hm.imp fun _ h => h.imp fun _ h => h.1)
  exact h a m hm u e h1

/-- Computed. -/
def exMembersPlain (s : St) : Bool := s.bases.all fun b =>
  match b.shape with
  | some (.union u _) => (s.slice u).all fun m => match s.shapeAt m with
    | some (.union _ _) => false
    | _ => true
  | _ => true

theorem exMembersPlain_sound {s : St} (hp : NoInheritance s) (h : exMembersPlain s = true) : NoUnionInItself s :=
  noUnionInItself_of_members hp fun a m ⟨u, e, h1, h2⟩ u' e' h3 => by
    obtain ⟨b, hb, hbs⟩ := base_of_shape h1
    have := List.all_eq_true.1 h b (List.mem_of_getElem? hb)
    rw [hbs] at this
    have := List.all_eq_true.1 this m h2
    rw [h3] at this
    cases this

/-- Types that refer to each other in cycles, with an annotation and a default value; the last type is given. -/
def exOpen (type : String) : List (String × String × YNode) := [
  ("a.raml", "#%RAML 1.0 Library\na", exDoc [
    ("annotationTypes", exMap [("note", .str "string")]),
    ("types", exMap [
      ("Tree", exMap [("properties", exMap [("left?", .str "Tree"), ("kids", .str "Forest"), ("other", .str "Either")]), ("(note)", .str "x")]),
      ("Forest", .str "Tree[]"),
      ("Either", .str "Forest | Name"),
      ("Again", .str "Either"),
      ("Name", exMap [("type", .str type), ("default", .str "x")])])])]

/-- It parses to this model. -/
def exOpenModel (type : String) : St := (parseFromPath (exFilesEnv (exOpen type)) 20 20 "a.raml" {}).2

/-- How parsing with unwrapping and validation ends. -/
def exOpenRun (type : String) : Out FragRef × St := parseWith (exFilesEnv (exOpen type)) {} 40 40 "a.raml" { withUnwrap := true, withValidate := true } {}

theorem exOpen_noWayBack (type : String) (hn : type = "string" ∨ type = "integer") : NoWayBack (exFilesEnv (exOpen type)) := by
  refine noWayBack_of_rank (fun _ => 0) (fun p q h => ?_) (fun p q h => Nat.le_refl _)
  rcases hn with rfl | rfl
  · have := exFiles_includes (fun p q => false) (by decide +kernel) p q h; cases this
  · have := exFiles_includes (fun p q => false) (by decide +kernel) p q h; cases this

theorem exOpen_orderly (type : String) (hn : type = "string" ∨ type = "integer") : Orderly (exFilesEnv (exOpen type)) := by
  rcases hn with rfl | rfl <;> exact orderly_files (n := 20) (by decide +kernel) (by decide +kernel) (by decide +kernel)

theorem exOpen_parses (type : String) (hn : type = "string" ∨ type = "integer") :
    parseFromPath (exFilesEnv (exOpen type)) 20 20 "a.raml" {} = (.ok (.library 0), exOpenModel type) := by
  have h : exResult (parseFromPath (exFilesEnv (exOpen type)) 20 20 "a.raml" {}) = some (.library 0) := by rcases hn with rfl | rfl <;> decide +kernel
  exact exParses h

/-- The hypotheses of C78 are met, by a model that is valid and by one that is not: a default value `x` is a string but not an integer. -/
example : (∀ type, type = "string" ∨ type = "integer" → RuntimeEnv (exFilesEnv (exOpen type)) ∧ Orderly (exFilesEnv (exOpen type)) ∧ NoWayBack (exFilesEnv (exOpen type)) ∧
      parseFromPath (exFilesEnv (exOpen type)) 20 20 "a.raml" {} = (.ok (.library 0), exOpenModel type) ∧ NoInheritance (exOpenModel type) ∧ NoUnionInItself (exOpenModel type)) ∧
    exResult (exOpenRun "string") = some (.library 0) ∧ (exOpenRun "integer").1 = .err "invalid type" := by
  refine ⟨fun type hn => ?_, by decide +kernel, by decide +kernel⟩
  have h1 : NoInheritance (exOpenModel type) := exFlat (by rcases hn with rfl | rfl <;> decide +kernel)
  exact ⟨exFilesEnv_runtime _, exOpen_orderly _ hn, exOpen_noWayBack _ hn, exOpen_parses _ hn, h1, exMembersPlain_sound h1 (by rcases hn with rfl | rfl <;> decide +kernel)⟩

/-- A union that contains itself, with a default value. -/
def exSelfUnion : List (String × YNode) := [("S", exMap [("type", .str "nil | S"), ("default", .str "x")])]

/-- The types at the addresses 0 and 2 are unions of the types at 1 and 3, and the type at 3 is the one at 2 again; computed. -/
def exSelfAt (s : St) : Bool :=
  match s.shapeAt 0, s.shapeAt 2, s.shapeAt 3 with
  | some (.union u _), some (.union u' _), some (.recursive x) => s.slice u == [1, 3] && s.slice u' == [1, 3] && x == 2
  | _, _, _ => false

theorem exSelfAt_never {s : St} (h : exSelfAt s = true) (hr : validate exE s 20 1 (.str "x") = .err "invalid type") (n : Nat) : validate exE s n 0 (.str "x") = .diverge := by
  unfold exSelfAt at h
  split at h
  · rename_i u e u' e' x h0 h2 h3
    simp only [Bool.and_eq_true, beq_iff_eq] at h
    obtain ⟨⟨h4, h5⟩, h6⟩ := h
    have h6 : x = 2 := h6
    subst h6
    have key := c11_self_union_diverges exE s 2 3 u' e' h2 [1] [] h5 (.inr h3) (.str "x") (by simp; exact ⟨20, _, hr⟩)
    cases n with
    | zero => rfl
    | succ n =>
      simp only [validate, h0, validateShape, h4, unionValidate]
      by_cases hd : validate exE s n 1 (.str "x") = .diverge
      · rw [hd]
      · rw [validate_det exE s hd (m := 20) (by rw [hr]; simp), hr]
        cases n with
        | zero => rfl
        | succ n => simp only [validate, h3, validateShape, key n]
  · cases h

/-- The default value of a type, if it is a string. -/
def exDefault (s : St) (a : Addr) : Option String :=
  match (s.base a).bind (·.default) with
  | some (.str x) => some x
  | _ => none

/-- C78, why unions must not contain themselves: this library is parsed, no type is built on another, and it is unwrapped; but checking its default value against
the type never ends. -/
theorem c78_self_union : exResult (parseFromPath (exLibEnv exSelfUnion) 20 20 "a.raml" {}) = some (.library 0) ∧ NoInheritance (exLibModel exSelfUnion) ∧
    ∃ s, ExUnwrapped exSelfUnion [("S", 0)] s ∧ exDefault s 0 = some "x" ∧ ∀ n, validate exE s n 0 (.str "x") = .diverge :=
  ⟨by decide +kernel, exFlat (by decide +kernel), _, exUnwrapped (by decide +kernel) (by decide +kernel) (by decide +kernel) (by decide +kernel), by decide +kernel, exSelfAt_never (by decide +kernel) (by decide +kernel)⟩

end GoRaml.Props
