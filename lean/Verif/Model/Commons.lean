import Verif.Model.Check

/-!
# Validation of types: custom facets, examples and defaults (validate.go:228-383)

`E`, the heap and the fuel `n` are as for `validate` and `check`; the heap is not changed.  Hooks are left out.

`ord` is the order in which one `range` loop over a Go map visits its entries: any function that permutes them.
-/

namespace GoRaml

/-- validate.go:346-353: the facet definitions of one ancestor; `own` are the definitions of the type itself, `acc` is the map
`validationFacetDefs`. -/
def collectFacetDefs (own : OMap Property) : OMap Property → OMap Property → Out (OMap Property)
  | [], acc => .ok acc
  | (_, f) :: rest, acc =>
    if (OMap.get own f.name).isSome then .err "duplicate custom facet" else collectFacetDefs own rest (OMap.set acc f.name f)

/-- validate.go:341-355: the loop over the first parents. -/
def facetDefLoop (h : St) (own : OMap Property) : Nat → Option Nat → OMap Property → Out (OMap Property)
  | 0, _, _ => .diverge
  | n + 1, inherits, acc =>
    match h.slice inherits with
    | [] => .ok acc
    | p :: _ =>
      match h.base p with
      | none => .panic "nil pointer dereference"
      | some b => (collectFacetDefs own (h.props b.facetDefs) acc).bind fun acc' => facetDefLoop h own n b.inherits acc'

/-- validate.go:359-372: one declared facet. -/
def validateFacet (E : Ext) (h : St) (n : Nat) (facets : OMap GoVal) (kd : String × Property) : Out Unit :=
  match OMap.get facets kd.1 with
  | none => if kd.2.required then .err "required custom facet is missing" else .ok ()
  | some v => validate E h n kd.2.base v

/-- validate.go:375-381: one facet that has a value. -/
def knownFacet (defs : OMap Property) (kv : String × GoVal) : Out Unit :=
  if (OMap.get defs kv.1).isSome then .ok () else .err "unknown facet"

/-- validate.go:333-383 `validateShapeFacets`. -/
def validateShapeFacets (E : Ext) (h : St) (ord : OMap Property → OMap Property) (n : Nat) (b : Base) : Out Unit :=
  (facetDefLoop h (h.props b.facetDefs) n b.inherits []).bind fun defs =>
  (Out.forEach (validateFacet E h n (h.facetMap b.facets)) (ord defs)).bind fun _ =>
  Out.forEach (knownFacet defs) (h.facetMap b.facets)

/-- validate.go:307-312, 316-319, 322-327: one example, or the default. -/
def validateGiven (E : Ext) (h : St) (n : Nat) (a : Addr) (v : Option GoVal) : Out Unit :=
  match v with
  | none => .ok ()
  | some v => validate E h n a v

/-- validate.go:303-329 `validateExamples`: the example, the inline examples and the default.  (Examples of a linked NamedExample are in
`Examples.Link`, whereas `Examples.Map` is nil then.) -/
def validateExamples (E : Ext) (h : St) (n : Nat) (a : Addr) (b : Base) : Out Unit :=
  (validateGiven E h n a (b.example_.map (·.data))).bind fun _ =>
  (Out.forEach (fun kv => validate E h n a kv.2.data) ((b.examples.bind (·.map)).getD [])).bind fun _ =>
  validateGiven E h n a b.default

/-- validate.go:230-253 `validateObjectShape`, 268-287: the component types. -/
def validateComponents (rec : Addr → Out Unit) (h : St) (s : Option Shape) : Out Unit :=
  match s with
  | some (.object f) =>
    (Out.forEach (fun kp => rec kp.2.base) (h.props f.properties)).bind fun _ =>
    Out.forEach (fun kp => rec kp.2.base) (h.patProps f.patternProperties)
  | some (.array f) =>
    match f.items with
    | none => .ok ()
    | some i => rec i
  | some (.union anyOf _) => Out.forEach rec (h.slice anyOf)
  | _ => .ok ()

/-- validate.go:257-299 `validateShapeCommons`. -/
def validateCommons (E : Ext) (h : St) (ord : OMap Property → OMap Property) : Nat → Addr → Out Unit
  | 0, _ => .diverge
  | n + 1, a =>
    match h.base a with
    | none => .panic "nil pointer dereference"
    | some b =>
      (validateShapeFacets E h ord n b).bind fun _ =>
      (validateExamples E h n a b).bind fun _ =>
      (validateComponents (validateCommons E h ord n) h b.shape).bind fun _ =>
      Out.forEach (fun kp => validateCommons E h ord n kp.2.base) (h.props b.facetDefs)

end GoRaml
