# Formal model of acronis/go-raml in Lean 4

The Lean project is in `lean/`.  Model modules live under `lean/Verif/Model`, helper
lemmas under `lean/Verif/Lemmas`, property theorems under `lean/Verif/Props`.

## Method

* One executable model.  Go pointers are addresses into an explicit heap (`*BaseShape`,
  `*orderedmap.OrderedMap`, slice backing arrays), so sharing and mutation in place are visible.
* Every Go function is a total Lean function.  Functions that recurse through the heap take
  fuel and return the explicit outcome `diverge` when it runs out; panics and errors are explicit
  outcomes too.  State is kept on error, as in Go.
* A claim about termination is a claim about fuel: "for enough fuel the outcome is not `diverge`".
  A non-termination finding is "for every fuel the outcome is `diverge`".
* Library code outside the repository is a parameter (`Ext`): regular-expression matching,
  `time.Parse`, JSON encoding + hashing, conversion of out-of-range floats.  Theorems hold for every value
  of the parameters (or name the law they need).
* When the code violates a property, the violation is proved on a concrete witness, and a `_partial`
  theorem states the strongest version that is true.

## Plan per property

| Property | What is modelled | How it is proved |
|---|---|---|
| C01-C04 | scalar `validate` methods | decision logic: accepted iff an independent predicate holds, case analysis |
| C05-C08 | `ArrayShape/ObjectShape.validate`, heap, ordered maps | iff characterisation by induction over items / entries / patterns |
| C09 | object validation over an association list standing for a map in iteration order | induction on fuel, permutation invariance at every depth |
| C10-C11 | union / recursive validation with fuel | iff; fuel monotonicity; termination measure = value size; divergence by induction on fuel |
| C12-C16 | `inherit` methods, `BaseShape.Inherit` on the heap | subset of accepted values; nested case by induction on fuel with a footprint (separation) invariant |
| C17-C20 | `inheritProperties`, `UnionShape.inherit`, union source / target cases | induction over the maps; concrete witnesses for the violations |
| C21 | `isCompatibleEnum` with Go interface equality | induction on lists |
| C22 | `check` methods | iff with an inductive consistency predicate |
| C23-C25 | `clone` with the clone map | heap-extension invariant, freshness invariant, bisimulation |
| C26-C29 | `AliasTo`, `UnwrapShape`, `unwrapParents` | direct computation on the heap; witnesses |
| C30 | `FindAndMarkRecursion` | measure = number of unvisited shapes; acyclicity invariant |
| C31 | `identifyShapeType` | closed-form specification on the set of facets |
| C32-C34 | type-expression lexer, parser, visitor, resolution | parser sound and complete for an inductive grammar; semantics of built shapes; fuel |
| C35-C37 | string cut, reference lookup, registries | specification by lists; invariants over operation histories |
| C38-C39 | include / uses loading as a recursive loader over an abstract file system | measure = files not yet registered; divergence by induction |
| C40-C41 | hook registry; slice backing array | refinement to lists; witness |
| C42 | atomic counter as a transition system | invariant over interleavings |
| C43, C53-C55 | YAML node model | decision logic, structural induction |
| C44-C46 | validation drivers | accumulate-errors loops as folds; permutation invariance |
| C47 | CLI loop | characterisation + witness |
| C48-C52 | converter, DeepCopy, Map | invariant on definitions; semantics of a JSON Schema fragment |
| C56-C57 | `Convert` with and without a wrapper | totality from a termination measure on components; for files, what marking leaves behind is shown to have finite components, by an invariant of the pass; panic for every unwrapped type |
| C58-C60 | decoding of fragments, `resolveShapes`, `resolveDomainExtensions` | invariant of the loader with ownership (types and fragments under construction), induction on nested calls |
| C61-C62 | `UnwrapShapes`, parse options | whole-model invariant through unwrapping and marking; a set closed under components that marking keeps finite; witnesses |
| C63 | the same decoding and resolution code | least relation between YAML nodes and types, kept by every later step outside the type being built; induction on nested calls |
| C64 | the same code, with its panics as outcomes | invariant that rules out every panic except on unlinked libraries; induction on nested calls; one witness for each condition on the files |
| C44, C65 on parsed models | the same drivers, on models that are not unwrapped | a type is judged by a detached copy: the region of the model it was parsed in is embedded into every larger heap, and cloning, unwrapping, marking and validating commute with the embedding (Lemmas/Fuel*, Embed*); hence the copy made in the middle of a run is judged like the one made alone, and nothing of the model changes |
| C66 | parsing and unwrapping of whole models | an invariant over the whole of unwrapping for a family of types that no other type contains: each type of the family is as parsed, or unwrapped with the shape its line gives (Lemmas/Kin*); the shape accepts what all declarations of the line accept |
| C67 | the whole of parsing | an invariant of decoding and resolving (Lemmas/Apart*): parts are held once and are not referred to, and a frame that says that what existed before a call gains no new place |
| C68 | the whole of parsing, on two file systems | every function of decoding and resolving does the same in the larger file system as long as the smaller one leads to a result (Lemmas/Files); the same walk shows that larger bounds change nothing |
| C69 | the whole of parsing and unwrapping, then validation | an invariant of unwrapping (Lemmas/Mean*): types that are finished mean what their line of declarations means, types in progress are as parsed, and heads of copies point to their originals; then induction on the value and on a rank of the unions. A property that an heir declares again (of scalar types) is merged in place into the heir's declaration, which is tracked by a set of merged components (`Over`, `Covers`): such a component means what both lines mean |
| C70 | decoding and resolving of declarations | the property is false: from C63, for every declaration of the violating forms, and a file as witness |
| C71 | `DeepCopy` on schemas that are objects in memory | a memory denotes at most one schema; new objects only lead to new or shareable ones (store invariant); by induction on the depth of the schema |
| C72 | `GetYamlError`, `FixYamlError` on trees of errors | induction on the tree; the recursive branch is never taken |
| C73 | parsing, unwrapping and conversion together | composition of C69, C56 and C50 |
| C74 | all functions with calls of hooks, once more, with the calls | the hooked functions equal the others for hooks that never fail; a simulation for runs that succeed (every function, with hooks that let more pass, does the same); induction on components for validation |
| C75 | `inheritUnionSource` and its callers | what existed is unchanged and each result narrows its member (induction on the members); two files for the violation |
| C76 | the whole of parsing | decoding ends by the number of files left and the weight of the nodes; each nested call of resolution happens in a smaller state (files left, then the multiset of the weights of the types left) or for a type that is needed first; every call that does not end has a nested one that does not (Lemmas/Halt*) |
| C77 | unwrapping of models without inheritance | depth-first search: each call flags a type, so the number of types without the flag falls; what a call flags has its parts flagged at its end, so marking (C30) is possible afterwards (Lemmas/Flat, FlatAll) |
| C78 | parsing with unwrapping and validation, without inheritance | a rank on unions of the parsed model decreases from a union to its members and survives unwrapping; marking replaces members by recursive references only below the rank, so the unwrapped model is guarded, and C44 applies (Lemmas/MarkGuarded, FlatEnds) |
| C79 | unwrapping of models with inheritance, without unions and custom facets | the number of types that are not unwrapped falls with every call that does something, and the number of types that are not being inherited from with every nested call of `Inherit`; a loop over properties is measured by the first number, then by the entries left; marking by the types not visited, apart from recursive references (Lemmas/Stops, StopsInherit, StopsUnwrap, StopsMark, StopsAll) |
| C80 | the types a parsed type is built on | decoding sets no alias, and parents and an included file only on types that are still to be resolved or have a type of their own; resolution gives a type its alias, parents or included type only after resolving these, so a new edge leads to a type that is resolved and cannot lead back (Lemmas/LinesDecode, LinesResolve) |
| C81 | unwrapping and validation of models with inheritance, without unions and custom facets | invariant of unwrapping: a type keeps its dynamic type, is left visited only if it is `any`, and the entries of its list of parents are ancestors of its first owner in the parsed model (Lemmas/ClimbInherit, ClimbUnwrap); with C80 and recursion marking this gives the hypotheses of C44 |
| C82 | unwrapping of models without unions: what types say of themselves and what names lead to | the invariant of C81 extended: what a type that is not an alias says of itself is what it said in the parsed model; unwrapping and inheritance return the type itself or an ancestor of type `any` (Lemmas/ClimbUnwrap); names of libraries lead to such results (Lemmas/ClimbNames); the loss of an heir is computed on a library |
| C83 | `ShallowCopy` on schemas in memory | the copy's object and the original's differ only in the places of three maps with equal contents, so they are the same schema in every later memory that leaves these alone; a finite schema does not contain itself, by its least depth |
| C84 | sequences of `ParseFromPath` on one object | the invariants of C58-C63, C67 and C79-C82 from any earlier state that satisfies them, by induction on the calls; types and maps of the earlier state are kept because only unresolved types change |
| C85 | `UnwrapShapes` after `UnwrapShapes` | after the first call each declared type is left visited, or all that can be reached from it is unwrapped and not visited, without infinite chains (invariant of the marking); so the second call only fills the tables and marks nothing but types left visited |
| C86 | names and locations of types, and types of annotations, after `UnwrapShapes` | every step of decoding, resolving, unwrapping, marking and validating keeps names and locations, in any state and with any outcome; invariant over the fragments: the table of annotation types has only types that a library visited so far declared when it was parsed, under its location, and the libraries not visited yet are unchanged; for the last theorem the run is a sequence of entries into this table, and by C82 each key leads to its own type in the end, so each was entered under its own name |
| C87 | registered fragments over any calls of `ParseFromPath`, `ParseFromString`, `UnwrapShapes` and `ValidateShapes` | every step of decoding, resolving, unwrapping, marking and validating keeps the paths different and what each of them leads to, in any state and with any outcome; induction over the depth of nested calls and over the calls |

## Layout of the Lean project

* `Model/` is the code.  Each definition cites the Go lines it models.
* `Spec/` is what the properties are stated with: acceptance of values (`Valid`), graphs (`Graph`), grammar (`Rdt`), JSON Schema
  validity (`Schema`), include graphs (`Load`), meaning of type expressions (`Expr`), references (`Refs`), what files say
  (`Decode`), files that parse without panics (`Orderly`), when a whole model is valid (`Verdict`).
* `Lemmas/` is proofs only.
* `Props/` has the theorems `cNN_...`, one or several for each property, each with an `example` that shows a concrete case which meets
  the hypotheses.

How to read a theorem:

* A run of the code is `m s = (outcome, s')` with outcomes `ok x`, `err msg`, `panic msg`, `diverge`.
* `n` (and `m` in `parseFromPath E n m`) bound nested calls (turns of a loop).  "For every `n`" covers every run; "there is an `N` such that
  for all `n >= N` the outcome is not `diverge`" is termination; "for every `n` the outcome is `diverge`" is unbounded recursion.
* `Ext` and `Env` are the library functions the code calls, the files and the YAML parser among them.  Theorems hold for all of them.

## What is modelled

| Go file | Modelled | Not modelled |
|---|---|---|
| scalars.go, complex.go | `validate`, `inherit`, `check`, `clone`, `alias`, `unmarshalYAMLNodes` of every type, property naming, enums | `String`, `Base`, positions in errors |
| shape.go | `BaseShape` (`Inherit`, `AliasTo`, `Clone`, `CloneDetached`, `Check`, `Validate`), `identifyShapeType`, `MakeConcreteShapeYAML`, `makeShapeType`, `makeNewShapeYAML`, `decode` | `String`, stack trace texts |
| unwrap.go | all | - |
| validate.go | `ValidateShapes`, `validateShapeCommons`, facets, examples, domain extensions | - |
| resolve.go, rdt_visitor.go | all | - |
| rdt/ | lexer and parser for the grammar files, written by hand | the generated ANTLR code and its error recovery |
| parse.go | `parseFragment`, `decodeX`, `parseX`, head identification, the unwrap and validate options, `ParseFromPath`, `ParseFromString` | contexts, closing of files |
| fragment.go, raml.go | fragments, lookups, registries, IDs, hooks | `Shapes`/`Location` accessors |
| node.go, example.go, extension.go | all | positions |
| jsonschemaconv.go, schema.go | `Convert` and the visitor, `DeepCopy` (on values in C52, on objects in memory in C71), `ShallowCopy` (C83), `Map` | struct tags for JSON and YAML |
| cmd/ | the loop of `validate` | flag parsing, output |
| stacktrace.go | `GetYamlError`, `FixYamlError` | positions, the stack traces |
| mocks.go, common.go | - | all |

## Simplifications

* The object of an ordered map, slice or base that is under construction is assigned after its facet, map or fragment has been decoded; Go may
  leave the part decoded so far behind after an error.
* `int` and `uint` values and bounds are unbounded integers, with the conversions that overflow as parameters; a `float64` is NaN, an infinity or a
  rational, with Go's comparisons.  The ID counter is a 64-bit vector in C42 and an integer elsewhere.
* Go maps in values are association lists in iteration order; C09 shows that the order does not matter for validation.
* The slices of hooks are modelled with their backing arrays (C40, C41); the other slices are immutable once stored, as in the code.
* Hooks called inside other functions are in `Hooked.lean` (C74) and are left out everywhere else. They may look at the model, fail or panic, but do not change it.

## Findings

Properties that are false of the code, with the theorem that shows it:

| Finding | Theorem |
|---|---|
| A float64 outside int64 may pass an integer range | `c01_float_overflow` |
| A number enum written with integers matches nothing | `c02_integer_enum_never_matches` |
| A child's pattern replaces the parent's; a NaN bound, a datetime child with rfc2616 widen | `c14_pattern_widens`, `c13_nan_bound_widens`, `c15_datetime_default_widens` |
| Objects widen through reopened additionalProperties, new properties and patterns | `c16_..._widens` |
| A union that inherits from another type ignores it | `c19_union_ignores_parent`, `c19_union_target_widens` |
| A property or items declaration that overrides a union gets none of the union's limits: the result of `Inherit` is dropped | `c75_in_files`, `c75_items_in_files` |
| The second child of an `any` or union parent, or after a failure, becomes the parent | `c20_any_parent_second_child`, `c20_union_parent_second_child`, `c20_after_failure` |
| Comparing two maps or arrays in enums panics | `c21_composite_panics` |
| A clone's recursive reference points into the original | `c24_recursive_head_shared` |
| An alias of a boolean loses the enum | `c26_boolean_enum_dropped` |
| Multiple inheritance changes the first parent | `c28_multiple_inheritance_changes_parent` |
| Nested occurrences of a recursive type miss inherited facets | `c29_recursive_occurrence_misses_facet` |
| Marking recursion does not end on a type that is its own facet type | `c30_own_facet_diverges` |
| `A: (B)`, `B: A` recurses forever | `c34_cycle_diverges` |
| A library that includes a data type which uses the library is decoded twice | `c38_violated` |
| A cycle of `!include` recurses forever | `c39_include_cycle_diverges` |
| A hook that removes itself makes the next one be skipped and the last run twice | `c41_self_removal`, `c41_skipped_and_repeated` |
| The error of a hook before inheritance from a union member is dropped, and the type becomes another one | `c74_error_lost_in_union` |
| Shapes are lost when two goroutines register at once | `c42_shape_lost` |
| Only the farthest declaration of a facet counts | `c45_nearer_declaration_ignored` |
| Included examples are not validated | `c46_linked_examples_ignored` |
| The last file decides the exit code | `c47_last_decides`, `c47_invalid_ignored` |
| References inside an embedded JSON schema dangle; same names collide; length counts differ | `c48_embedded_dangles`, `c51_collision`, `c50_length_differs` |
| Types and their schemas differ: integer types accept fractions (cut off), number enums written with integers accept nothing, `multipleOf` is only in the schema, a closed object type rejects what its pattern properties allow, of several patterns RAML asks for one and the schema for all, declared properties are exempt from patterns only in RAML | `c50_fraction_differs`, `c50_number_enum_differs`, `c50_multipleOf_differs`, `c50_closed_pattern_differs`, `c50_two_patterns_differ`, `c50_declared_pattern_differs` |
| A converter without a wrapper panics | `c57_no_wrapper_panics` |
| A list in enums of a type and its parent makes unwrapping panic | `c61_list_enum_panics` |
| Unwrapping can leave a type marked as visited, with infinite components; validation then never returns | `c62_left_visited` |
| Unwrapping can take away the type of an annotation; validation then panics | `c62_annotation_type_lost` |
| Parsing panics on `type: []`, `type: composite`, `facets: [x]` | `c64_declaration_panics` |
| Parsing panics on a document without content, and on `uses: [x]` in a data type | `c64_document_panics` |
| Parsing panics when a loaded file is asked for as another kind of fragment | `c64_kind_panics` |
| Parsing goes on after a library could not be loaded, and then panics | `c64_unlinked_panics` |
| Validation without unwrapping rejects a valid annotation whose library was decoded twice | `c44_library_read_twice` |
| Validation without unwrapping appends copies of all types to `GetShapes` | `c65_shapes_grow` |
| A pattern replaces the inherited one; an alias of a boolean loses the enum, through whole files | `c66_pattern_replaced`, `c66_boolean_alias` |
| Types that share no parts after parsing share property maps after unwrapping | `c67_shared_after_unwrapping` |
| ParseFromString of a text that includes itself as a value reads what was saved last | `c68_stale_include` |
| A recursive type that is built on another one loses its parent's restrictions where it refers to itself | `c69_recursive_heir_loses_restrictions` |
| Facets next to `(string)`, to a union and `items` next to `T[]` have no effect and are not reported | `c70_keyword_in_parentheses`, `c70_union`, `c70_facets_ignored` |
| A schema and its deep copy share numbers behind pointers and empty maps | `c71_number_shared`, `c71_empty_map_shared` |
| The text that wraps a YAML type error is lost | `c72_context_lost` |
| A type with two recursive parents makes unwrapping fail with an internal error | `c77_internal_error` |
| A union that contains itself is parsed and unwrapped, but checking a default value against it never ends | `c78_self_union` |
| In files: of two types whose parent is of type `any` the second is lost (C20), so its name leads to the parent, and errors in it go unreported | `c82_heir_lost` |
| In files: a recursive type that refers to itself by another name for it does not check the values there if that name is declared first; the type is marked as unwrapped before the alias gets its parts (unwrap.go) | `c69_declaration_order` |
| A failed `ParseFromPath` shows in later calls on the object: the same call again, or one for a file that uses the library with the error, can succeed (resolve.go takes the type off its list, raml.go keeps the fragment) | `c84_second_call_succeeds`, `c84_error_hidden` |
| After a `ParseFromPath` that failed because of an undeclared annotation, every later call on the object fails (the annotation stays on its list) | `c84_error_stays` |
| `ParseFromPath` for a file that the object has already, for example because a library uses it, makes a second library the entry point; `PutFragment` keeps the first one, so `GetFragment` gives another library and `UnwrapShapes` leaves the entry point out | `c84_read_again`, `c84_read_again_unwrapped` |
| A file that `ParseFromPath` with `OptWithUnwrap` accepts on a new object is rejected after a library that it uses has been unwrapped: an array type whose items are of the same type has a `RecursiveShape` in their place by then, and `ArrayShape.inherit` does not look through it (`ObjectShape.inherit` does) | `c84_unwrapped_before` |
| After a second `UnwrapShapes`, `GetShapes` returns none of the types of the model: the list is emptied (unwrap.go:129), and `UnwrapShape` returns before `PutShape` for a type that is already unwrapped | `c85_types_forgotten`, `c85_types_gone` |
| An annotation of the second of two annotation types whose parent is `any` loses its type in `UnwrapShapes`, which reports no error; `UnwrapShapes` called again panics | `c85_panics` |
| With a type `Root` that is `any`, an annotation type also named `Root`, and two more annotation types derived from the type `Root`, an annotation `(Root)` has one of the latter as its type after `UnwrapShapes`: the table of annotation types is filled under the name of the unwrapped type (unwrap.go:39-44), which for the second of the two is the type `Root` itself | `c86_type_exchanged` |

The findings of C16, C18, C19, C20 and C28 are about calls on types in memory; the theorems `cNN_in_files` show the same for types that were parsed from a
file and unwrapped.

## Trusted base

* Lean's kernel.
* The axioms `propext`, `Classical.choice` and `Quot.sound`, and no others; AXIOMS.md lists them for each theorem.
* The faithfulness of the model to the Go source, definition by definition, as cited in the comments.
* The specifications in `Spec/` and the statements in `Props/` as renderings of the English properties.

Parameters, which theorems quantify over: the YAML parser and the decoding of YAML scalars, the JSON parser and encoder, hashing, regular
expressions, time parsing, file contents and path joining, conversion of out-of-range floats.  Not covered at all: error texts, positions,
stack traces, `String()` methods, running time and memory.
