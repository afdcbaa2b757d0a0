import Verif.Model.Hooked

/-!
# Hooks that let everything pass
-/

namespace GoRaml.Hooked

open GoRaml

variable {H : HookFn} (hq : ∀ key args h, H key args h = .ok ())
include hq

theorem quiet_bind {α : Type} (key : String) (args : List HookArg) (f : Unit → M St α) : M.bind (runHooks H key args) f = f () := by
  funext h
  simp only [M.bind, runHooks, hq]

theorem quiet_bindV {α : Type} (key : String) (args : List HookArg) (f : Unit → M VSt α) : M.bind (runHooksV H key args) f = f () := by
  funext h
  simp only [M.bind, runHooksV, hq]

theorem makeConcrete_quiet : makeConcreteH H = makeConcrete := by
  funext E c a t fs
  exact quiet_bind hq _ _ _

theorem makeNewShapeYAML_quiet : makeNewShapeYAMLH H = makeNewShapeYAML := by
  funext E c v name location
  unfold makeNewShapeYAMLH makeNewShapeYAML finishShapeH finishShape
  rw [quiet_bind hq, makeConcrete_quiet hq]
  rfl

theorem calls_quiet (E : Env) : ∀ n, callsH H E n = calls E n
  | 0 => rfl
  | n + 1 => by
    unfold callsH calls
    rw [calls_quiet E n, makeNewShapeYAML_quiet hq]
    congr
    funext p
    exact quiet_bind hq _ _ _

theorem makeNewShape_quiet : makeNewShapeH H = makeNewShape := by
  funext E c a t l
  unfold makeNewShapeH makeNewShape
  rw [makeConcrete_quiet hq]

theorem visitor_quiet (E : Env) (c : Calls) (rec : Addr → M St Unit) : ∀ t, visitorH H E c rec t = visitor E c rec t
  | .prim p => by
    unfold visitorH visitor Visitor.lastH Visitor.last
    rw [makeConcrete_quiet hq, makeNewShape_quiet hq]
  | .ref x y => by
    unfold visitorH visitor Visitor.lastH Visitor.last visitReferenceH visitReference
    rw [makeConcrete_quiet hq, makeNewShape_quiet hq]
    rfl
  | .group e => by
    unfold visitorH visitor Visitor.lastH Visitor.last
    rw [makeNewShape_quiet hq, visitor_quiet E c rec e]
  | .optional e => by
    unfold visitorH visitor Visitor.lastH Visitor.last visitOptionalH visitOptional
    rw [makeConcrete_quiet hq, makeNewShape_quiet hq, visitor_quiet E c rec e]
  | .array e => by
    unfold visitorH visitor Visitor.lastH Visitor.last visitArrayH visitArray
    rw [makeConcrete_quiet hq, makeNewShape_quiet hq, visitor_quiet E c rec e]
  | .union l r => by
    unfold visitorH visitor visitUnionH visitUnion
    rw [makeConcrete_quiet hq, makeNewShape_quiet hq, visitor_quiet E c rec l, visitor_quiet E c rec r]

theorem resolveShape_quiet (E : Env) : ∀ n, resolveShapeH H E n = resolveShape E n
  | 0 => rfl
  | n + 1 => by
    funext a
    unfold resolveShapeH resolveShape resolveStepH resolveStep resolveLinkH resolveLink resolveMultipleInheritanceH resolveMultipleInheritance
    simp only [makeConcrete_quiet hq, calls_quiet hq, visitor_quiet hq, resolveShape_quiet E n]
    rfl

theorem resolveLoop_quiet (E : Env) (n : Nat) : ∀ m good, resolveLoopH H E n m good = resolveLoop E n m good
  | 0, good => by
    funext h
    unfold resolveLoopH resolveLoop
    rfl
  | m + 1, good => by
    funext h
    unfold resolveLoopH resolveLoop
    simp only [resolveShape_quiet hq, resolveLoop_quiet E n m]
    rfl

theorem parseFromPath_quiet (E : Env) (n m : Nat) (path : String) : parseFromPathH H E n m path = parseFromPath E n m path := by
  unfold parseFromPathH parseFromPath parseFragmentH parseFragment decodeEntryH decodeEntry resolveShapes
  simp only [calls_quiet hq, resolveLoop_quiet hq]
  rfl

theorem inherit_quiet : ∀ n, inheritH H n = inherit n
  | 0 => rfl
  | n + 1 => by
    funext a b
    unfold inheritH inherit inheritDispatchH inheritDispatch inheritUnionSourceH inheritUnionTargetH
    simp only [quiet_bind hq, inherit_quiet n]
    rfl

theorem unwrapMoreParents_quiet (rec : Addr → M St Addr) (n : Nat) (ss : Addr) (i : Nat) :
    ∀ left k, unwrapMoreParentsH H rec n ss i left k = unwrapMoreParents rec n ss i left k
  | 0, k => rfl
  | left + 1, k => by
    funext h
    unfold unwrapMoreParentsH unwrapMoreParents
    simp only [inherit_quiet hq, unwrapMoreParents_quiet rec n ss i left]
    rfl

theorem unwrap_quiet : ∀ n, unwrapH H n = unwrap n
  | 0 => rfl
  | n + 1 => by
    funext a
    unfold unwrapH unwrap unwrapParentsH unwrapParents unwrapFinishH unwrapFinish
    simp only [quiet_bind hq, unwrap_quiet n, unwrapMoreParents_quiet hq, inherit_quiet hq]
    rfl

theorem mark_quiet : ∀ n, markH H n = mark n
  | 0 => rfl
  | n + 1 => by
    funext a
    unfold markH mark
    simp only [quiet_bind hq, mark_quiet n]

theorem unwrapFragment_quiet (n : Nat) : unwrapFragmentH H n = unwrapFragment n := by
  funext f h
  unfold unwrapFragmentH unwrapFragment unwrapLibraryH unwrapLibrary unwrapTypes unwrapDataTypeH unwrapDataType unwrapTypeH unwrapType
  simp only [unwrap_quiet hq]
  rfl

theorem markFragment_quiet (n : Nat) : markFragmentH H n = markFragment n := by
  funext f h
  unfold markFragmentH markFragment
  simp only [mark_quiet hq]
  rfl

theorem unwrapShapes_quiet (n : Nat) (fs fs' : List FragRef) : unwrapShapesH H n fs fs' = unwrapShapes n fs fs' := by
  unfold unwrapShapesH unwrapShapes unwrapFragments markFragments
  rw [unwrapFragment_quiet hq, markFragment_quiet hq]

theorem validateCommons_quiet (E : Ext) (h : St) (ord : OMap Property → OMap Property) : ∀ n, validateCommonsH H E h ord n = validateCommons E h ord n
  | 0 => rfl
  | n + 1 => by
    funext a
    have hc : ∀ s, validateComponentsH H (validateCommons E h ord n) h a s = validateComponents (validateCommons E h ord n) h s := fun s => by
      unfold validateComponentsH
      split
      · rw [hq]
        rfl
      · rfl
    have ho : ∀ {α : Type} (key args) (f : Unit → Out α), (H key args h).bind f = f () := fun key args f => by rw [hq]; rfl
    unfold validateCommonsH validateCommons
    simp only [ho, validateCommons_quiet E h ord n, hc]
    rfl

theorem validateType_quiet (E : Ext) (ord : OMap Property → OMap Property) (n : Nat) : validateTypeH H E ord n = validateType E ord n := by
  funext a
  unfold validateTypeH validateType unwrapCopyH unwrapCopy
  simp only [unwrap_quiet hq, mark_quiet hq, validateCommons_quiet hq]

theorem validateFragment_quiet (E : Ext) (ord : OMap Property → OMap Property) (n : Nat) : validateFragmentH H E ord n = validateFragment E ord n := by
  funext f s
  unfold validateFragmentH validateFragment validateLibraryH validateLibrary validateTypesH validateTypes
  cases f with
  | dataType i =>
    refine (congrFun (quiet_bindV hq _ _ _) s).trans ?_
    rw [validateType_quiet hq]
    rfl
  | library i =>
    simp only [quiet_bindV hq, validateType_quiet hq]
    rfl
  | namedExample i => rfl

theorem validateShapes_quiet (E : Ext) (ord : OMap Property → OMap Property) (fs : List FragRef) (n : Nat) :
    validateShapesH H E ord fs n = validateShapes E ord fs n := by
  unfold validateShapesH validateShapes validateFragmentsH validateDomainExtensionsH validateFragments
  refine (quiet_bind hq _ _ _).trans ?_
  simp only [quiet_bindV hq, validateFragment_quiet hq]
  rfl

theorem parseWith_quiet (E : Env) (ord : Orders) (n m : Nat) (path : String) (o : ParseOpts) : parseWithH H E ord n m path o = parseWith E ord n m path o := by
  unfold parseWithH parseWith finishParseH finishParse
  simp only [parseFromPath_quiet hq, unwrapShapes_quiet hq, validateShapes_quiet hq]

end GoRaml.Hooked
