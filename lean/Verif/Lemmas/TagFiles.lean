import Verif.Lemmas.HaltFrag
import Verif.Lemmas.ReadMake
import Verif.Lemmas.Apart
import Verif.Model.Parse
import Verif.Spec.History

/-!
# No path is registered twice, and no fragment is replaced

A parse adds a fragment under a path at most once: the paths of the fragments of a model stay different, and a fragment that is registered stays so.
-/

namespace GoRaml.Files

open GoRaml GoRaml.Spec

section
variable {s s' : St} {a : Addr} {α β : Type}

/-- The paths of the fragments are different. -/
def Distinct (s : St) : Prop := (s.fragments.map (·.1)).Nodup

/-- The paths stay different, and each leads to the same fragment. -/
def Keeps (s s' : St) : Prop := (Distinct s → Distinct s') ∧ ∀ p f, getFragment s p = some f → getFragment s' p = some f

theorem Keeps.refl (s : St) : Keeps s s := ⟨id, fun _ _ h => h⟩

theorem Keeps.trans {s'' : St} (h : Keeps s s') (h' : Keeps s' s'') : Keeps s s'' := ⟨fun k => h'.1 (h.1 k), fun p f k => h'.2 p f (h.2 p f k)⟩

theorem Keeps.of_eq (h : s'.fragments = s.fragments) : Keeps s s' := ⟨fun k => by unfold Distinct; rw [h]; exact k, fun p f k => by unfold getFragment; rw [h]; exact k⟩

/-- The computation does that, however it ends. -/
def Does (m : M St α) : Prop := ∀ s, Keeps s (m s).2

variable {m : M St α} {f : α → M St β}

theorem Does.bind (h : Does m) (hf : ∀ x, Does (f x)) : Does (M.bind m f) := fun s => by
  have h1 := h s
  unfold M.bind
  cases hm : m s with
  | mk o t =>
    rw [hm] at h1
    cases o with
    | ok x => exact h1.trans (hf x t)
    | err e => exact h1
    | panic e => exact h1
    | diverge => exact h1

theorem Does.still (h : ∀ s, (m s).2.fragments = s.fragments) : Does m := fun s => .of_eq (h s)

theorem Does.quiet (h : Halt.Quiet m) : Does m := .still fun s => (h s).2.2

theorem Does.ret {x : α} : Does (M.ret x : M St α) := .still fun _ => rfl
theorem Does.err {e : String} : Does (M.err e : M St α) := .still fun _ => rfl
theorem Does.panic {e : String} : Does (M.panic e : M St α) := .still fun _ => rfl
theorem Does.diverge : Does (M.diverge : M St α) := .still fun _ => rfl
theorem Does.lift {o : Out α} : Does (M.lift o : M St α) := .still fun _ => rfl
theorem Does.get : Does (Heap.getBase a) := .quiet .getBase

theorem Does.attempt (h : Does m) : Does (M.attempt m) := fun s => by
  have := h s
  unfold M.attempt
  cases hm : m s with
  | mk o t =>
    rw [hm] at this
    cases o <;> exact this

theorem Does.per {m : St → M St α} (h : ∀ t, Does (m t)) : Does (fun s => m s s) := fun s => h s s

theorem Does.upd {g : Base → Base} : Does (Heap.updBase a g) := .still fun _ => rfl

theorem Does.shape {sh : Shape} : Does (setShape a sh) := .still fun _ => rfl

theorem Does.made {n l : String} : Does (makeBaseShape n l) := .still fun _ => rfl

variable {E : Env} {c : Calls} {loc : String}

/-- What the recursive calls do. -/
structure CallsDo (c : Calls) : Prop where
  shape : ∀ v n l, Does (c.makeShape v n l)
  dataType : ∀ p, Does (c.parseDataType p)
  library : ∀ p, Does (c.parseLibrary p)

/-! ## Facets -/

theorem arrayFacet_does (hc : CallsDo c) {f : ArrayF} {key : String} {v : YNode} {m : M St ArrayF} (hm : arrayFacet E c loc f key v = some m) : Does m := by
  unfold arrayFacet at hm
  split at hm
  · cases hm; exact .lift
  split at hm
  · cases hm; exact .lift
  split at hm
  · cases hm; exact .bind (hc.shape _ _ _) fun _ => .ret
  split at hm
  · cases hm; exact .lift
  · cases hm

theorem makeDeclared_does (hc : CallsDo c) {n : String} {v : YNode} : Does (makeDeclared E c loc n v) :=
  .bind (hc.shape _ _ _) fun _ => .bind .get fun _ => .lift

theorem unmarshalProperty_does (hc : CallsDo c) {n : String} {v : YNode} {f : ObjectF} : Does (unmarshalProperty E c loc n v f) := by
  unfold unmarshalProperty
  split
  · refine .bind ?_ fun i => .bind (makeDeclared_does hc) fun d => ?_
    · unfold ensurePatProps
      split
      · exact .ret
      · exact .quiet Halt.quiet_newPatProps
    · cases d with
      | property p => exact .ret
      | pattern k p => exact .bind (.quiet Halt.quiet_setPatProp) fun _ => .ret
  · refine .bind ?_ fun i => .bind (makeDeclared_does hc) fun d => ?_
    · unfold ensureProps
      split
      · exact .ret
      · exact .quiet Halt.quiet_newProps
    · cases d with
      | pattern k p => exact .ret
      | property p => exact .bind (.quiet Halt.quiet_setProp) fun _ => .ret

theorem unmarshalProperties_does (hc : CallsDo c) : ∀ (l : List YNode) {f : ObjectF}, Does (unmarshalProperties E c loc l f)
  | [], f => .ret
  | [_], f => .ret
  | k :: v :: rest, f => by
    unfold unmarshalProperties
    exact .bind (unmarshalProperty_does hc) fun _ => unmarshalProperties_does hc rest

theorem objectFacet_does (hc : CallsDo c) {f : ObjectF} {key : String} {v : YNode} {m : M St ObjectF} (hm : objectFacet E c loc f key v = some m) : Does m := by
  unfold objectFacet at hm
  split at hm
  · cases hm; exact .lift
  split at hm
  · cases hm; exact .lift
  split at hm
  · cases hm; exact .lift
  split at hm
  · cases hm; exact .lift
  split at hm
  · cases hm; exact .lift
  split at hm
  · cases hm
    split
    · exact .err
    · exact unmarshalProperties_does hc _
  · cases hm

theorem shapeFacet_does (hc : CallsDo c) {sh : Shape} {key : String} {v : YNode} {m : M St Shape} (hm : shapeFacet E c loc sh key v = some m) : Does m := by
  cases sh with
  | integer f => obtain ⟨o, _, rfl⟩ := Option.map_eq_some_iff.1 hm; exact .lift
  | number f => obtain ⟨o, _, rfl⟩ := Option.map_eq_some_iff.1 hm; exact .lift
  | string f => obtain ⟨o, _, rfl⟩ := Option.map_eq_some_iff.1 hm; exact .lift
  | file f => obtain ⟨o, _, rfl⟩ := Option.map_eq_some_iff.1 hm; exact .lift
  | boolean e =>
    unfold shapeFacet at hm
    simp only at hm
    split at hm
    · cases hm; exact .lift
    · cases hm
  | datetime e =>
    unfold shapeFacet at hm
    simp only at hm
    split at hm
    · cases hm; exact .lift
    · cases hm
  | array f => obtain ⟨o, ho, rfl⟩ := Option.map_eq_some_iff.1 hm; exact .bind (arrayFacet_does hc ho) fun _ => .ret
  | object f => obtain ⟨o, ho, rfl⟩ := Option.map_eq_some_iff.1 hm; exact .bind (objectFacet_does hc ho) fun _ => .ret
  | _ => cases hm

theorem unmarshalFacets_does (hc : CallsDo c) : ∀ (l : List YNode) {sh : Shape}, Does (unmarshalFacets E c a loc l sh)
  | [], sh => .ret
  | [_], sh => .ret
  | key :: v :: rest, sh => by
    unfold unmarshalFacets
    refine .bind ?_ fun sh' => unmarshalFacets_does hc rest
    unfold unmarshalFacet
    cases hs : shapeFacet E c loc sh key.value v with
    | some m => exact .bind (shapeFacet_does hc hs) fun _ => .bind .shape fun _ => .ret
    | none => exact .bind (.quiet Halt.quiet_customFacet) fun _ => .ret

theorem makeConcrete_does (hc : CallsDo c) {t : String} {facets : Option (List YNode)} : Does (makeConcrete E c a t facets) := by
  refine .bind .get fun b => .bind .upd fun _ => ?_
  unfold unmarshalYAMLNodes
  split
  · exact .ret
  · exact .ret
  · exact .ret
  · exact .shape
  · simp only
    split
    · exact .err
    · exact unmarshalFacets_does hc _

/-! ## Types -/

theorem putFragment_does {p : String} {f : FragRef} : Does (putFragment p f) := fun s => by
  unfold putFragment
  cases hp : OMap.get s.fragments p with
  | some _ => exact .refl _
  | none =>
    refine ⟨fun hs => Apart.keys_set hs _ _, fun q g hq => ?_⟩
    have hq : OMap.get s.fragments q = some g := hq
    show OMap.get (OMap.set s.fragments p f) q = some g
    rw [OMap.get_set, if_neg fun e => by rw [e, hp] at hq; cases hq]
    exact hq

theorem decodeFragment_does {text : String} {f : YNode → M St α} (hf : ∀ y, Does (f y)) : Does (decodeFragment E text f) := by
  unfold decodeFragment
  split
  · exact .err
  split
  · exact .panic
  split
  · exact .err
  · exact hf _

theorem decodeNamedExample_does {text path : String} : Does (decodeNamedExample E text path) :=
  .bind (decodeFragment_does fun _ => .quiet (Halt.quiet_namedExamples _)) fun _ => .bind (.quiet Halt.quiet_newNE) fun _ => .bind putFragment_does fun _ => .ret

theorem parseNamedExample_does {path : String} : Does (parseNamedExample E path) := fun s => by
  unfold parseNamedExample
  cases getFragment s path with
  | some f => cases f <;> exact .refl _
  | none =>
    cases E.file path with
    | none => exact .refl _
    | some text => exact Does.bind .lift (fun _ => decodeNamedExample_does) s

theorem decodeExamples_does {v : YNode} : Does (decodeExamples E a loc v) := by
  unfold decodeExamples
  refine .bind .get fun b => ?_
  split
  · exact .err
  split
  · exact .bind parseNamedExample_does fun i => .per (m := fun h => Heap.updBase a (fun b => { b with examples := some { link := h.nes[i]? } })) fun t => .upd
  split
  · exact .err
  · exact .bind (.quiet (Halt.quiet_namedExamples _)) fun _ => .upd

theorem decodeFacetDefs_does (hc : CallsDo c) {i : Nat} : ∀ (l : List YNode), Does (decodeFacetDefs E c loc i l)
  | [] => .ret
  | [_] => .panic
  | key :: v :: rest => by
    unfold decodeFacetDefs
    exact .bind (hc.shape _ _ _) fun _ => .bind .get fun _ => .bind (.quiet Halt.quiet_setProp) fun _ => decodeFacetDefs_does hc rest

theorem Does.ite {p : Prop} [Decidable p] {m m' : M St α} (h : Does m) (h' : Does m') : Does (if p then m else m') := by
  by_cases hp : p
  · rw [if_pos hp]; exact h
  · rw [if_neg hp]; exact h'

theorem decodeValueNode_does (hc : CallsDo c) {k v : YNode} : Does (decodeValueNode E c a loc k v) := by
  unfold decodeValueNode
  extract_lets none_
  refine .ite .ret (.ite (.bind .lift fun _ => .bind (.upd) fun _ => .ret) (.ite (.bind .lift fun _ => .bind (.upd) fun _ => .ret)
    (.ite (.bind .lift fun _ => .bind (.upd) fun _ => .ret) (.ite ?_ (.ite ?_ (.ite ?_ (.ite (.bind .lift fun _ => .bind (.upd) fun _ => .ret)
    (.ite .ret (.ite (.bind (.quiet Halt.quiet_unmarshalExt) fun _ => .bind (.upd) fun _ => .ret) .ret)))))))))
  · exact .bind (.quiet Halt.quiet_newProps) fun _ => .bind (.upd) fun _ => .bind (decodeFacetDefs_does hc _) fun _ => .ret
  · refine .bind .get fun b => ?_
    cases b.examples with
    | some _ => exact .err
    | none => exact .bind (.quiet Halt.quiet_makeExample) fun _ => .bind (.upd) fun _ => .ret
  · exact .bind decodeExamples_does fun _ => .ret

theorem decodeEntries_does (hc : CallsDo c) : ∀ (l : List YNode) {t : Option YNode} {fs : List YNode}, Does (decodeEntries E c a loc l t fs)
  | [], t, fs => .ret
  | [_], t, fs => .panic
  | k :: v :: rest, t, fs => by
    unfold decodeEntries
    exact .bind (decodeValueNode_does hc) fun _ => decodeEntries_does hc rest

theorem decode_does (hc : CallsDo c) {v : YNode} : Does (decode E c a loc v) := by
  unfold decode
  split
  · exact .ret
  split
  · exact .err
  · exact .bind (decodeEntries_does hc _) fun _ => .ret

theorem makeInherits_does (hc : CallsDo c) {n : String} : ∀ (l : List YNode), Does (makeInherits c n loc l)
  | [] => .ret
  | x :: rest => by
    unfold makeInherits
    split
    · exact .err
    split
    · exact .err
    · exact .bind (hc.shape _ _ _) fun _ => .bind (makeInherits_does hc rest) fun _ => .ret

theorem makeShapeType_does (hc : CallsDo c) {t : YNode} {facets : Option (List YNode)} {n : String} : Does (makeShapeType E c t facets n loc a) := by
  unfold makeShapeType
  cases t.kind with
  | zero => exact .err
  | document => exact .err
  | mapping => exact .err
  | «alias» => exact .err
  | scalar =>
    simp only
    split
    · split
      · exact .bind .lift fun s => .ret
      split
      · exact .bind .upd fun _ => .bind .lift fun _ => .bind .shape fun _ => .ret
      · exact .ret
    split
    · exact .bind (hc.dataType _) fun d => .bind .upd fun _ => .ret
    split
    · exact .ret
    · exact .err
  | sequence => exact .bind (makeInherits_does hc _) fun l => .bind (Does.quiet Halt.quiet_newSlice) fun i => .bind .upd fun _ => .ret

theorem finishShape_does (hc : CallsDo c) {t : String} {facets : Option (List YNode)} : Does (finishShape E c a t facets) := by
  refine .bind (makeConcrete_does hc) fun _ => ?_
  split
  · exact .bind (.still fun _ => rfl) fun _ => .ret
  · exact .ret

theorem makeNewShapeYAML_does (hc : CallsDo c) {v : YNode} {n : String} : Does (makeNewShapeYAML E c v n loc) := by
  unfold makeNewShapeYAML
  refine .bind .made fun a => .bind (decode_does hc) fun r => ?_
  split
  · exact .bind .lift fun _ => finishShape_does hc
  · refine .bind (makeShapeType_does hc) fun st => ?_
    cases st with
    | none => exact .ret
    | some t => exact finishShape_does hc

/-! ## Fragments -/

theorem typeEntries_does (hc : CallsDo c) {put : String → String → Addr → M St Unit} (hput : ∀ n l a, Does (put n l a)) :
    ∀ (l : List YNode) {m : OMap Addr}, Does (typeEntries c put loc l m)
  | [], m => .ret
  | [_], m => .panic
  | k :: v :: rest, m => by
    unfold typeEntries
    exact .bind (hc.shape _ _ _) fun _ => .bind (hput _ _ _) fun _ => typeEntries_does hc hput rest

theorem sectionOf_does {v : YNode} {old : α} {read : List YNode → M St α} (h : ∀ l, Does (read l)) : Does (sectionOf v old read) := by
  unfold sectionOf
  split
  · exact .ret
  split
  · exact .err
  · exact h _

theorem libraryEntries_does (hc : CallsDo c) : ∀ (ns : List YNode) {l : Lib}, Does (libraryEntries E c ns l)
  | [], l => .ret
  | [_], l => .panic
  | k :: v :: rest, l => by
    unfold libraryEntries
    refine .bind ?_ fun l' => libraryEntries_does hc rest
    unfold libraryEntry
    split
    · exact .bind (sectionOf_does fun _ => .lift) fun _ => .ret
    split
    · exact .bind (sectionOf_does fun _ => typeEntries_does hc (fun _ _ _ => .quiet Halt.quiet_putType) _) fun _ => .ret
    split
    · exact .bind (sectionOf_does fun _ => typeEntries_does hc (fun _ _ _ => .quiet Halt.quiet_putAnnotationType) _) fun _ => .ret
    split
    · exact .bind .lift fun _ => .ret
    split
    · exact .bind (.quiet Halt.quiet_unmarshalExt) fun _ => .ret
    · exact .ret

theorem linkUses_does (hc : CallsDo c) {i : Nat} : ∀ (l : List (String × String × Option Nat)), Does (linkUses E c i loc l)
  | [] => .ret
  | (key, value, _) :: rest => by
    unfold linkUses
    refine .bind (hc.library _).attempt fun r => ?_
    cases r with
    | ok j => exact .bind (.quiet Halt.quiet_linkLib) fun _ => linkUses_does hc rest
    | error e => exact .bind (.quiet Halt.quiet_linkLib) fun _ => .bind (linkUses_does hc rest) fun _ => .ret

theorem decodeLibrary_does (hc : CallsDo c) {text path : String} : Does (decodeLibrary E c text path) := by
  refine .bind (decodeFragment_does fun _ => libraryEntries_does hc _) fun l => .bind (.quiet Halt.quiet_newLib) fun i => .bind putFragment_does fun _ =>
    .bind (linkUses_does hc _) fun good => ?_
  split
  · exact .ret
  · exact .err

theorem parseLibrary_does (hc : CallsDo c) {path : String} : Does (parseLibrary E c path) := fun s => by
  unfold parseLibrary
  cases getFragment s path with
  | some f => cases f <;> exact .refl _
  | none =>
    cases E.file path with
    | none => exact .refl _
    | some text => exact Does.bind .lift (fun _ => decodeLibrary_does hc) s

theorem unmarshalDataType_does (hc : CallsDo c) {path : String} {n : YNode} : Does (unmarshalDataType E c path n) :=
  .bind .lift fun _ => .bind (hc.shape _ _ _) fun _ => .ret

theorem linkDataTypeUses_does (hc : CallsDo c) {i : Nat} : ∀ (l : List (String × String × Option Nat)), Does (linkDataTypeUses E c i loc l)
  | [] => .ret
  | (key, value, _) :: rest => by
    unfold linkDataTypeUses
    exact .bind (hc.library _) fun _ => .bind (.quiet Halt.quiet_linkDT) fun _ => linkDataTypeUses_does hc rest

theorem decodeDataType_does (hc : CallsDo c) {text path : String} : Does (decodeDataType E c text path) := by
  unfold decodeDataType
  split
  · exact .bind (unmarshalDataType_does hc) fun _ => .bind (.quiet Halt.quiet_newDT) fun _ => .bind putFragment_does fun _ => .ret
  · exact .bind (decodeFragment_does fun _ => unmarshalDataType_does hc) fun _ => .bind (.quiet Halt.quiet_newDT) fun _ => .bind putFragment_does fun _ =>
      .bind (linkDataTypeUses_does hc _) fun _ => .ret

theorem parseDataType_does (hc : CallsDo c) {path : String} : Does (parseDataType E c path) := fun s => by
  unfold parseDataType
  cases getFragment s path with
  | some f => cases f <;> exact .refl _
  | none =>
    cases E.file path with
    | none => exact .refl _
    | some text => exact Does.bind .lift (fun _ => decodeDataType_does hc) s

theorem calls_do : ∀ n : Nat, CallsDo (calls E n)
  | 0 => ⟨fun _ _ _ => .diverge, fun _ => .diverge, fun _ => .diverge⟩
  | n + 1 => ⟨fun _ _ _ => makeNewShapeYAML_does (calls_do n), fun _ => parseDataType_does (calls_do n), fun _ => parseLibrary_does (calls_do n)⟩

theorem decodeEntry_does {n : Nat} {text path : String} : Does (decodeEntry E n text path) := by
  refine .bind .lift fun head => .bind .lift fun kind => ?_
  cases kind with
  | library => exact .bind (decodeLibrary_does (calls_do n)) fun _ => .ret
  | dataType => exact .bind (decodeDataType_does (calls_do n)) fun _ => .ret
  | namedExample => exact .bind decodeNamedExample_does fun _ => .ret

/-! ## Resolving -/

theorem makeNewShape_does (hc : CallsDo c) {n t : String} : Does (makeNewShape E c n t loc) :=
  .bind .made fun _ => .bind (makeConcrete_does hc) fun _ => .ret

theorem appendInherits_does {ref : Addr} : Does (appendInherits a ref) := fun s => by
  unfold appendInherits
  cases s.base a with
  | none => exact .refl _
  | some b => exact Does.bind (.quiet Halt.quiet_newSlice) (fun _ => .upd) s

variable {rec : Addr → M St Unit}

theorem visitReference_does (hc : CallsDo c) (hrec : ∀ a, Does (rec a)) {text : String} {fs : Option (List YNode)} : Does (visitReference E c rec text a fs) := by
  refine .bind .get fun t => .per (m := fun h => M.bind (M.lift (getReferenced h Lib.types text t.location)) fun ref =>
    M.bind (Heap.getBase ref) fun refBase =>
    if refBase.id = t.id then M.err "self recursion"
    else
      M.bind (rec ref) fun _ =>
      M.bind (Heap.getBase ref) fun refBase =>
      M.bind (makeConcrete E c a refBase.type fs) fun _ =>
      M.bind (Heap.updBase a fun b => { b with typeLabel := text }) fun _ =>
      match fs with
      | none => Heap.updBase a fun b => { b with «alias» := some ref }
      | some _ => appendInherits a ref) fun h => ?_
  refine .bind .lift fun ref => .bind .get fun rb => .ite .err (.bind (hrec _) fun _ => .bind .get fun _ => .bind (makeConcrete_does hc) fun _ => .bind .upd fun _ => ?_)
  cases fs with
  | none => exact .upd
  | some _ => exact appendInherits_does

theorem setAnyOf_does {ss : List Addr} : Does (setAnyOf a ss) := .bind (.quiet Halt.quiet_newSlice) fun _ => .shape

/-- What the visitor does with a tree. -/
structure VisitorDoes (v : Visitor) : Prop where
  at_ : ∀ a fs, Does (v.at_ a fs)
  members : ∀ loc, Does (v.members loc)

theorem last_does (hc : CallsDo c) {at_ : Addr → Option (List YNode) → M St Unit} (h : ∀ a fs, Does (at_ a fs)) : VisitorDoes (.last E c at_) :=
  ⟨h, fun _ => .bind (makeNewShape_does hc) fun _ => .bind (h _ _) fun _ => .ret⟩

theorem visitUnion_does (hc : CallsDo c) {members : String → M St (List Addr)} (h : ∀ loc, Does (members loc)) {fs : Option (List YNode)} : Does (visitUnion E c members a fs) :=
  .bind .get fun _ => .bind (makeConcrete_does hc) fun _ => .bind (h _) fun _ => setAnyOf_does

theorem visitOptional_does (hc : CallsDo c) {v : Visitor} (h : VisitorDoes v) {fs : Option (List YNode)} : Does (visitOptional E c v a fs) :=
  .bind .get fun _ => .bind (makeConcrete_does hc) fun _ => .bind (makeNewShape_does hc) fun _ => .bind (h.at_ _ _) fun _ => .bind (makeNewShape_does hc) fun _ => setAnyOf_does

theorem visitArray_does (hc : CallsDo c) {v : Visitor} (h : VisitorDoes v) {fs : Option (List YNode)} : Does (visitArray E c v a fs) :=
  .bind .get fun _ => .bind (makeConcrete_does hc) fun _ => .bind (makeNewShape_does hc) fun i => .bind (h.at_ _ _) fun _ => .still fun _ => rfl

theorem visitor_does (hc : CallsDo c) (hrec : ∀ a, Does (rec a)) : ∀ t, VisitorDoes (visitor E c rec t)
  | .prim p => last_does hc fun _ _ => makeConcrete_does hc
  | .ref x y => last_does hc fun _ _ => visitReference_does hc hrec
  | .group e => last_does hc (visitor_does hc hrec e).at_
  | .optional e => last_does hc fun _ _ => visitOptional_does hc (visitor_does hc hrec e)
  | .array e => last_does hc fun _ _ => visitArray_does hc (visitor_does hc hrec e)
  | .union l r => by
    have hm : ∀ loc, Does (M.bind (makeNewShape E c "" "" loc) fun m => M.bind ((visitor E c rec l).at_ m none) fun _ => M.bind ((visitor E c rec r).members loc) fun ms => M.ret (m :: ms)) :=
      fun loc => .bind (makeNewShape_does hc) fun _ => .bind ((visitor_does hc hrec l).at_ _ _) fun _ => .bind ((visitor_does hc hrec r).members _) fun _ => .ret
    exact ⟨fun _ _ => visitUnion_does hc hm, hm⟩

theorem forEach_does (hrec : ∀ a, Does (rec a)) : ∀ l : List Addr, Does (M.forEach rec l)
  | [] => .ret
  | x :: l => .bind (hrec x) fun _ => forEach_does hrec l

theorem resolveStep_does (hc : CallsDo c) (hrec : ∀ a, Does (rec a)) : Does (resolveStep E c rec a) := by
  refine .bind .get fun b => ?_
  split
  · exact .err
  · rename_i fs _
    split
    · intro s
      unfold resolveLink
      split
      · exact .refl _
      · exact Does.bind (hrec _) (fun _ => .bind .get fun _ => makeConcrete_does hc) s
    · refine .ite ?_ ?_
      · refine .bind .get fun b => fun s => Does.bind (forEach_does hrec (s.slice b.inherits)) (fun _ => ?_) s
        cases (s.slice b.inherits).head? with
        | none => exact .panic
        | some i => exact .bind .get fun _ => makeConcrete_does hc
      · split
        · exact .err
        · exact (visitor_does hc hrec _).at_ _ _
  · exact .ret

theorem resolveShape_does : ∀ (n : Nat) (a : Addr), Does (resolveShape E n a)
  | 0, _ => .diverge
  | n + 1, _ => resolveStep_does (calls_do n) (resolveShape_does n)

theorem resolveLoop_does {n : Nat} : ∀ (m : Nat) (good : Bool), Does (resolveLoop E n m good)
  | 0, good => fun s => by
    unfold resolveLoop
    split
    · cases good <;> exact .refl _
    · exact .refl _
  | m + 1, good => fun s => by
    unfold resolveLoop
    split
    · cases good <;> exact .refl _
    · exact Does.bind (resolveShape_does n _).attempt (fun _ => .bind (.still fun _ => rfl) fun _ => resolveLoop_does m _) s

theorem resolveDomainExtension_does {i : Nat} : Does (resolveDomainExtension i) := fun s => by
  unfold resolveDomainExtension
  split
  · exact .refl _
  · exact Does.bind .lift (fun _ => .still fun _ => rfl) s

theorem resolveExtLoop_does : ∀ (l : List Nat) (good : Bool), Does (resolveExtLoop l good)
  | [], good => by cases good; exacts [.err, .ret]
  | _ :: l, _ => .bind resolveDomainExtension_does.attempt fun _ => resolveExtLoop_does l _

theorem parseFragment_does {n m : Nat} {text path : String} : Does (parseFragment E n m text path) :=
  .bind decodeEntry_does fun _ => .bind (resolveLoop_does m true) fun _ => .bind (fun s => resolveExtLoop_does _ _ s) fun _ => .ret

theorem parseFromPath_does {n m : Nat} {path : String} : Does (parseFromPath E n m path) := by
  unfold parseFromPath
  split
  · exact .err
  · exact parseFragment_does

theorem distinct_calls (h : AfterCalls E s) : Distinct s := by
  induction h with
  | new => exact List.nodup_nil
  | call n m path _ ih => exact (parseFromPath_does _).1 ih

theorem calls_successes (h : Successes E {} s) : AfterCalls E s := by
  induction h with
  | none => exact .new
  | @call t u n m path f h1 _ e ih =>
    have := AfterCalls.call n m path ih
    rw [e] at this
    exact this

end

end GoRaml.Files
