{
 "claims": [
  {
   "property": "C01",
   "status": "proved",
   "theorems": [
    "GoRaml.Props.c01_integer_validate",
    "GoRaml.Props.c01_other_kinds_rejected",
    "GoRaml.Props.c01_float_overflow"
   ],
   "note": ""
  },
  {
   "property": "C02",
   "status": "proved",
   "theorems": [
    "GoRaml.Props.c02_number_validate",
    "GoRaml.Props.c02_integer_enum_never_matches"
   ],
   "note": ""
  },
  {
   "property": "C03",
   "status": "proved",
   "theorems": [
    "GoRaml.Props.c03_string_validate",
    "GoRaml.Props.c03_file_validate"
   ],
   "note": ""
  },
  {
   "property": "C04",
   "status": "proved",
   "theorems": [
    "GoRaml.Props.c04_boolean_validate",
    "GoRaml.Props.c04_nil_validate",
    "GoRaml.Props.c04_any_validate",
    "GoRaml.Props.c04_time_validate",
    "GoRaml.Props.c04_datetime_validate"
   ],
   "note": ""
  },
  {
   "property": "C05",
   "status": "proved",
   "theorems": [
    "GoRaml.Props.c05_array_validate",
    "GoRaml.Props.c05_array_reject"
   ],
   "note": ""
  },
  {
   "property": "C06",
   "status": "proved",
   "theorems": [
    "GoRaml.Props.c06_duplicate_never_accepted",
    "GoRaml.Props.c06_distinct_accepted",
    "GoRaml.Props.c06_unique_items"
   ],
   "note": ""
  },
  {
   "property": "C07",
   "status": "proved",
   "theorems": [
    "GoRaml.Props.c07_object_validate",
    "GoRaml.Props.c07_object_sound",
    "GoRaml.Props.c07_declared_priority"
   ],
   "note": ""
  },
  {
   "property": "C08",
   "status": "proved",
   "theorems": [
    "GoRaml.Props.c08_pattern_rule"
   ],
   "note": ""
  },
  {
   "property": "C09",
   "status": "proved",
   "theorems": [
    "GoRaml.Props.c09_map_order"
   ],
   "note": ""
  },
  {
   "property": "C10",
   "status": "proved",
   "theorems": [
    "GoRaml.Props.c10_union_validate",
    "GoRaml.Props.c10_union_order"
   ],
   "note": ""
  },
  {
   "property": "C11",
   "status": "proved",
   "theorems": [
    "GoRaml.Props.c11_recursive_as_head",
    "GoRaml.Props.c11_validation_total",
    "GoRaml.Props.c11_guarded_terminates",
    "GoRaml.Props.c11_self_union_diverges"
   ],
   "note": "termination under guardedness, divergence for self-containing unions"
  },
  {
   "property": "C12",
   "status": "proved",
   "theorems": [
    "GoRaml.Props.c12_integer_narrows",
    "GoRaml.Props.c12_integer_fails_iff"
   ],
   "note": ""
  },
  {
   "property": "C13",
   "status": "proved",
   "theorems": [
    "GoRaml.Props.c13_number_narrows",
    "GoRaml.Props.c13_nan_bound_widens"
   ],
   "note": ""
  },
  {
   "property": "C14",
   "status": "proved",
   "theorems": [
    "GoRaml.Props.c14_string_narrows",
    "GoRaml.Props.c14_pattern_widens",
    "GoRaml.Props.c14_file_narrows"
   ],
   "note": ""
  },
  {
   "property": "C15",
   "status": "proved",
   "theorems": [
    "GoRaml.Props.c15_boolean_narrows",
    "GoRaml.Props.c15_plain_narrows",
    "GoRaml.Props.c15_datetime_narrows",
    "GoRaml.Props.c15_datetime_default_widens",
    "GoRaml.Props.c15_kinds_cannot_mix",
    "GoRaml.Props.c15_unknown_recursive_refused"
   ],
   "note": "The datetime default-format exception is proved as a violation."
  },
  {
   "property": "C21",
   "status": "proved",
   "theorems": [
    "GoRaml.Props.c21_enum_subset",
    "GoRaml.Props.c21_enum_sound",
    "GoRaml.Props.c21_composite_panics"
   ],
   "note": ""
  },
  {
   "property": "C23",
   "status": "proved",
   "theorems": [
    "GoRaml.Props.c23_clone_terminates",
    "GoRaml.Props.c23_cloneDetached_terminates"
   ],
   "note": "For every well-formed heap, cyclic or not, cloning returns within (number of types + 1) nested calls and leaves everything that existed unchanged."
  },
  {
   "property": "C24",
   "status": "proved",
   "theorems": [
    "GoRaml.Props.c24_clone_fresh",
    "GoRaml.Props.c24_clone_disjoint",
    "GoRaml.Props.c24_clone_independent",
    "GoRaml.Props.c24_recursive_head_shared"
   ],
   "note": "All types and containers reachable from a clone are new; full independence without recursive references; the stated violation for recursive references is proved for every heap."
  },
  {
   "property": "C25",
   "status": "proved",
   "theorems": [
    "GoRaml.Props.c25_clone_isomorphic",
    "GoRaml.Props.c25_clone_same_validation",
    "GoRaml.Props.c25_duplicate_ids_merge"
   ],
   "note": "One-to-one structure-preserving relation under unique IDs, equal validation outcome for every value; uniqueness of IDs shown necessary by a witness."
  },
  {
   "property": "C16",
   "status": "proved",
   "theorems": [
    "GoRaml.Props.c16_inherit_narrows",
    "GoRaml.Props.c16_others_unchanged",
    "GoRaml.Props.c16_reopened_widens",
    "GoRaml.Props.c16_new_property_in_closed_parent_widens",
    "GoRaml.Props.c16_redeclared_pattern_widens",
    "GoRaml.Props.c16_new_property_under_pattern_widens",
    "GoRaml.Props.c16_in_files"
   ],
   "note": "Narrowing under the stated provisos (MayNarrow), for every pair of types built from scalars, arrays and objects; each proviso on objects is shown necessary by a witness that widens."
  },
  {
   "property": "C17",
   "status": "proved",
   "theorems": [
    "GoRaml.Props.c17_required_kept",
    "GoRaml.Props.c17_required_enforced",
    "GoRaml.Props.c17_failure_reasons",
    "GoRaml.Props.c17_nothing_removed"
   ],
   "note": "For every pair of object types, with arbitrary nested types."
  },
  {
   "property": "C18",
   "status": "proved",
   "theorems": [
    "GoRaml.Props.c18_union_members",
    "GoRaml.Props.c18_scalar_union_narrows",
    "GoRaml.Props.c18_failed_member_spoils_next",
    "GoRaml.Props.c18_in_files"
   ],
   "note": "Structure for members of any type; narrowing for scalar members; the loss of a member's constraints after a failed pairing is a proved witness."
  },
  {
   "property": "C19",
   "status": "proved",
   "theorems": [
    "GoRaml.Props.c19_union_ignores_parent",
    "GoRaml.Props.c19_union_target_widens",
    "GoRaml.Props.c19_in_files"
   ],
   "note": "The property as stated is false of the code; proved: for every parent type there is a union child that inherits from it and accepts every value."
  },
  {
   "property": "C20",
   "status": "proved",
   "theorems": [
    "GoRaml.Props.c20_any_parent_second_child",
    "GoRaml.Props.c20_union_parent_second_child",
    "GoRaml.Props.c20_after_failure",
    "GoRaml.Props.c20_second_child_widens",
    "GoRaml.Props.c20_scalar_parent_independent",
    "GoRaml.Props.c20_second_child_narrows",
    "GoRaml.Props.c20_in_files"
   ],
   "note": "The violations are proved for every heap and every later child; the positive part for scalars is exact, for arrays and objects it is narrowing."
  },
  {
   "property": "C22",
   "status": "proved",
   "theorems": [
    "GoRaml.Props.c22_check_sound",
    "GoRaml.Props.c22_check_decides",
    "GoRaml.Props.c22_bounds_and_closed"
   ],
   "note": "Soundness of both verdicts for every heap; on closed heaps with marked recursion the check returns and decides consistency."
  },
  {
   "property": "C26",
   "status": "proved",
   "theorems": [
    "GoRaml.Props.c26_alias_same_values",
    "GoRaml.Props.c26_alias_succeeds",
    "GoRaml.Props.c26_unwrap_alias",
    "GoRaml.Props.c26_boolean_enum_dropped"
   ],
   "note": "For every kind except boolean; for booleans the loss of the enum is proved for every alias without an enum of its own."
  },
  {
   "property": "C27",
   "status": "proved",
   "theorems": [
    "GoRaml.Props.c27_already_unwrapped",
    "GoRaml.Props.c27_marked",
    "GoRaml.Props.c27_second_call",
    "GoRaml.Props.c27_union_parent_differs"
   ],
   "note": "For every heap; the last theorem is a caveat: the value returned by the first call may be a copy."
  },
  {
   "property": "C28",
   "status": "proved",
   "theorems": [
    "GoRaml.Props.c28_multiple_inheritance_changes_parent",
    "GoRaml.Props.c28_single_parent",
    "GoRaml.Props.c28_in_files"
   ],
   "note": "The property as stated is false of the code (proved witness); the positive part covers a single unwrapped parent under the conditions of C16."
  },
  {
   "property": "C29",
   "status": "proved",
   "theorems": [
    "GoRaml.Props.c29_recursive_occurrence_misses_facet"
   ],
   "note": "The property is false of the code: proved witness, through unwrapping and recursion marking. Where it does hold is part of C69: recursive types that are not built on others."
  },
  {
   "property": "C30",
   "status": "proved",
   "theorems": [
    "GoRaml.Props.c30_marking_terminates",
    "GoRaml.Props.c30_no_infinite_path",
    "GoRaml.Props.c30_values_unchanged",
    "GoRaml.Props.c30_acyclic_unchanged",
    "GoRaml.Props.c30_check_after_marking",
    "GoRaml.Props.c30_own_facet_diverges"
   ],
   "note": "Marking returns with at most two nested calls per type, leaves no infinite path, changes only references to types on a cycle, changes no type's values and leaves acyclic graphs alone. The proviso (types of custom facets have no custom facets, as unwrapping ensures) is shown to be needed."
  },
  {
   "property": "C31",
   "status": "proved",
   "theorems": [
    "GoRaml.Props.c31_inferred_type",
    "GoRaml.Props.c31_order_irrelevant",
    "GoRaml.Props.c31_default_string"
   ],
   "note": "The inferred type is characterised by the set of facets present (spec: Infers) and does not depend on their order."
  },
  {
   "property": "C35",
   "status": "proved",
   "theorems": [
    "GoRaml.Props.c35_cut_last",
    "GoRaml.Props.c35_reference_name",
    "GoRaml.Props.c35_round_trip"
   ],
   "note": "All strings and separators."
  },
  {
   "property": "C36",
   "status": "proved",
   "theorems": [
    "GoRaml.Props.c36_library_lookup",
    "GoRaml.Props.c36_library_lookup_fails",
    "GoRaml.Props.c36_data_type_lookup"
   ],
   "note": "For fragments whose used libraries have all been loaded (a nil link is dereferenced otherwise, modelled as a panic)."
  },
  {
   "property": "C37",
   "status": "proved",
   "theorems": [
    "GoRaml.c37_first_fragment",
    "GoRaml.c37_last_type",
    "GoRaml.c37_last_annotation_type"
   ],
   "note": "Every history of registrations."
  },
  {
   "property": "C40",
   "status": "proved",
   "theorems": [
    "GoRaml.c40_histories",
    "GoRaml.c40_run",
    "GoRaml.c40_all_run",
    "GoRaml.c40_same_code"
   ],
   "note": "Slices share arrays in the model, so removal and append in place are covered. Hooks may use the hook API while they run except for removing hooks of the running key (C41). Removal goes by code pointer, so closures of one literal are not told apart (c40_same_code)."
  },
  {
   "property": "C41",
   "status": "proved",
   "theorems": [
    "GoRaml.c41_self_removal",
    "GoRaml.c41_skipped_and_repeated"
   ],
   "note": "The property is false of the code: for every list of hooks in which a hook removes itself, the next hook is skipped and the last one runs once more."
  },
  {
   "property": "C42",
   "status": "proved",
   "theorems": [
    "GoRaml.c42_ids_distinct",
    "GoRaml.c42_ids_increasing",
    "GoRaml.c42_sequential_shapes",
    "GoRaml.c42_shape_lost"
   ],
   "note": "Every schedule of any number of callers, with the int64 counter as a 64-bit vector. Registering the shapes is not synchronised: proved witness of a lost shape."
  },
  {
   "property": "C43",
   "status": "proved",
   "theorems": [
    "GoRaml.Props.c43_property",
    "GoRaml.Props.c43_pattern",
    "GoRaml.Props.c43_collision",
    "GoRaml.Props.c43_annotation_key"
   ],
   "note": "c43_collision: properties a and a? of one object collide and the later one wins."
  },
  {
   "property": "C47",
   "status": "proved",
   "theorems": [
    "GoRaml.c47_log",
    "GoRaml.c47_last_decides",
    "GoRaml.c47_failure_is_real",
    "GoRaml.c47_single",
    "GoRaml.c47_invalid_ignored"
   ],
   "note": "The property as stated is false of the code: only the last argument decides the exit code (c47_last_decides, c47_invalid_ignored)."
  },
  {
   "property": "C55",
   "status": "proved",
   "theorems": [
    "GoRaml.Props.c55_fragment_kind",
    "GoRaml.Props.c55_check_kind",
    "GoRaml.Props.c55_no_newline"
   ],
   "note": "c55_no_newline: a head line without a line break is rejected."
  },
  {
   "property": "C32",
   "status": "proved",
   "theorems": [
    "GoRaml.c32_parser_exact",
    "GoRaml.c32_unambiguous",
    "GoRaml.c32_round_trip",
    "GoRaml.c32_accepted_is_tree",
    "GoRaml.c32_blanks",
    "GoRaml.c32_outer_blanks"
   ],
   "note": "The generated ANTLR lexer and parser are modelled by hand-written ones for the grammar files; the grammar is a separate derivation relation."
  },
  {
   "property": "C53",
   "status": "proved",
   "theorems": [
    "GoRaml.c53_value_has_structure",
    "GoRaml.c53_value_iff_readable",
    "GoRaml.c53_alias_rejected",
    "GoRaml.c53_nested_include_rejected",
    "GoRaml.c53_value_terminates",
    "GoRaml.c53_brace_is_json",
    "GoRaml.c53_root_include_nests"
   ],
   "note": "Decoding of scalars other than strings, time stamps and includes is yaml.v3's and a parameter. c53_root_include_nests: a value that is itself an include may hold one more level of includes."
  },
  {
   "property": "C54",
   "status": "proved",
   "theorems": [
    "GoRaml.c54_detailed_example",
    "GoRaml.c54_plain_example"
   ],
   "note": ""
  },
  {
   "property": "C45",
   "status": "proved",
   "theorems": [
    "GoRaml.Props.c45_facets_decided",
    "GoRaml.Props.c45_commons_decided",
    "GoRaml.Props.c45_nearer_declaration_ignored"
   ],
   "note": "Hypotheses: allocated references, finite first-parent chains, marked recursion, Go values. c45_nearer_declaration_ignored: of two ancestors' declarations of one facet only the farther counts."
  },
  {
   "property": "C46",
   "status": "proved",
   "theorems": [
    "GoRaml.Props.c46_examples_decided",
    "GoRaml.Props.c46_bad_value_found",
    "GoRaml.Props.c46_linked_examples_ignored"
   ],
   "note": "c46_linked_examples_ignored: examples included as a NamedExample fragment are never validated."
  },
  {
   "property": "C44",
   "status": "proved",
   "theorems": [
    "GoRaml.Props.c44_verdict",
    "GoRaml.Props.c44_no_panic",
    "GoRaml.Props.c44_again",
    "GoRaml.Props.c44_after_unwrap",
    "GoRaml.Props.c44_annotations_declared",
    "GoRaml.Props.c44_runtime_model",
    "GoRaml.Props.c44_files",
    "GoRaml.Props.c44_library_read_twice",
    "GoRaml.Props.c44_unwrapped_model"
   ],
   "note": "The specification is Spec/Verdict.lean: a type that is not unwrapped is judged by a copy unwrapped in the model as parsed. c44_verdict: no error implies that the model is valid, an error that it is not, for every order of visiting; a run that does not return says nothing (C62 shows one). c44_unwrapped_model also proves that it returns, for unwrapped models whose recursion is marked. c44_library_read_twice: the property is false for a library that is decoded twice (C38), whose annotation types are not registered; c44_annotations_declared shows that this needs a file that leads back to one including it."
  },
  {
   "property": "C48",
   "status": "proved",
   "theorems": [
    "GoRaml.Props.c48_refs_resolve",
    "GoRaml.Props.c48_embedded_dangles"
   ],
   "note": "c48_embedded_dangles: the references inside an embedded JSON schema dangle."
  },
  {
   "property": "C49",
   "status": "proved",
   "theorems": [
    "GoRaml.Props.c49_object_schema"
   ],
   "note": ""
  },
  {
   "property": "C50",
   "status": "proved",
   "theorems": [
    "GoRaml.Props.c50_same_values",
    "GoRaml.Props.c50_validation_agrees",
    "GoRaml.Props.c50_schema_accepts",
    "GoRaml.Props.c50_length_differs",
    "GoRaml.Props.c50_fraction_differs",
    "GoRaml.Props.c50_number_enum_differs",
    "GoRaml.Props.c50_multipleOf_differs",
    "GoRaml.Props.c50_closed_pattern_differs",
    "GoRaml.Props.c50_two_patterns_differ",
    "GoRaml.Props.c50_declared_pattern_differs"
   ],
   "note": "Validity against a schema is a specification of draft-07 keywords, with numbers compared by value. Provisos on the type are in Convertible, on the value in Common; the theorems with differs in their name show that these provisos are needed. For uniqueItems the value has to be one whose items have the same hash exactly if they are the same JSON value."
  },
  {
   "property": "C51",
   "status": "proved",
   "theorems": [
    "GoRaml.Props.c51_distinct_names",
    "GoRaml.Props.c51_name_taken",
    "GoRaml.Props.c51_collision"
   ],
   "note": "The property is false of the code: c51_name_taken and c51_collision. It holds when distinct recursive types have distinct names."
  },
  {
   "property": "C56",
   "status": "proved",
   "theorems": [
    "GoRaml.Props.c56_conversion_succeeds",
    "GoRaml.Props.c56_not_unwrapped",
    "GoRaml.Props.c56_declared_types_convert",
    "GoRaml.Props.c56_no_media_types"
   ],
   "note": "c56_declared_types_convert is about parsed and unwrapped files: all declared types convert, except where the conversion meets a type that unwrapping left marked as visited (see C62) or one that cannot be written; c56_no_media_types shows such a type."
  },
  {
   "property": "C57",
   "status": "proved",
   "theorems": [
    "GoRaml.Props.c57_no_wrapper",
    "GoRaml.Props.c57_no_wrapper_panics"
   ],
   "note": "The property is false of the code: a converter without a wrapper never returns a schema."
  },
  {
   "property": "C52",
   "status": "proved",
   "theorems": [
    "GoRaml.Props.c52_copy",
    "GoRaml.Props.c52_map_entries",
    "GoRaml.Props.c52_map_keys",
    "GoRaml.Props.c52_map_determines"
   ],
   "note": "Schemas are values in this model: what a copy shares in memory is not part of it."
  },
  {
   "property": "C38",
   "status": "proved",
   "theorems": [
    "GoRaml.c38_libraries_end",
    "GoRaml.c38_each_file_once",
    "GoRaml.c38_uses_linked",
    "GoRaml.c38_registered",
    "GoRaml.c38_entry",
    "GoRaml.c38_violated"
   ],
   "note": "Termination is for every uses graph. One fragment for each file and the link to the registered library need that no included file leads back to the file that includes it; c38_violated shows that this is needed. A library whose decoding fails is not registered and may be decoded again."
  },
  {
   "property": "C39",
   "status": "proved",
   "theorems": [
    "GoRaml.c39_decoding_ends",
    "GoRaml.c39_include_cycle_diverges"
   ],
   "note": "The property is false of the code: c39_include_cycle_diverges, for every set of data types that include each other in cycles. It holds for all files without a cycle of includes."
  },
  {
   "property": "C58",
   "status": "proved",
   "theorems": [
    "GoRaml.c58_all_resolved"
   ],
   "note": ""
  },
  {
   "property": "C59",
   "status": "proved",
   "theorems": [
    "GoRaml.c59_well_formed",
    "GoRaml.c59_unique_ids"
   ],
   "note": ""
  },
  {
   "property": "C33",
   "status": "proved",
   "theorems": [
    "GoRaml.c33_laid_out",
    "GoRaml.c33_meaning"
   ],
   "note": "c33_laid_out: after a successful load every type given by an expression has the layout of the tree of its expression, down to the referenced types. c33_meaning: in any heap with that layout, where validating an alias means validating the type it refers to (what unwrapping establishes, C26), the type accepts exactly the values of the expression's meaning."
  },
  {
   "property": "C60",
   "status": "proved",
   "theorems": [
    "GoRaml.c60_annotations_linked"
   ],
   "note": ""
  },
  {
   "property": "C34",
   "status": "proved",
   "theorems": [
    "GoRaml.c34_resolution_ends",
    "GoRaml.c34_cycle_diverges",
    "GoRaml.c34_self_reference"
   ],
   "note": "Per type, in every state the loader reaches between two resolutions: a type is resolved in bounded depth when the types it must resolve first (its plain reference, and the files it includes) form no cycle; members of arrays and unions are not among them. Any set of types that each plainly refer to another of the set diverges. InLoadedFile (every type lies in a loaded file) is a hypothesis of the first theorem."
  },
  {
   "property": "C61",
   "status": "proved",
   "theorems": [
    "GoRaml.Props.c61_panics",
    "GoRaml.Props.c61_no_panic",
    "GoRaml.Props.c61_model_kept",
    "GoRaml.Props.c61_list_enum_panics"
   ],
   "note": "Hooks are left out. c61_list_enum_panics shows the exception: a document whose enums list a list parses and panics when unwrapped."
  },
  {
   "property": "C62",
   "status": "proved",
   "theorems": [
    "GoRaml.Props.c62_after_unwrap",
    "GoRaml.Props.c62_left_visited",
    "GoRaml.Props.c62_annotation_type_lost"
   ],
   "note": "The property is false of the code for declared types that unwrapping leaves marked as visited (c62_left_visited, where validation then never returns); for all others it holds. c62_annotation_type_lost: unwrapping can set the type of an annotation to nil, after which validation panics."
  },
  {
   "property": "C63",
   "status": "proved",
   "theorems": [
    "GoRaml.Props.c63_libraries",
    "GoRaml.Props.c63_dataTypes",
    "GoRaml.Props.c63_namedExamples",
    "GoRaml.Props.c63_entry",
    "GoRaml.Props.c63_declared",
    "GoRaml.Props.c63_keyword",
    "GoRaml.Props.c63_string"
   ],
   "note": "The specification is Spec/Decode.lean. YAML parsing and the decoding of one scalar node are parameters. What a type expression means is the subject of C33, what facets without a type mean that of C31, and the Go value of a node that of C53."
  },
  {
   "property": "C64",
   "status": "proved",
   "theorems": [
    "GoRaml.Props.c64_no_panic",
    "GoRaml.Props.c64_unlinked_panics",
    "GoRaml.Props.c64_declaration_panics",
    "GoRaml.Props.c64_document_panics",
    "GoRaml.Props.c64_kind_panics"
   ],
   "note": "The property is false of the code. c64_no_panic: files in order (Spec/Orderly.lean) panic only in a state where some fragment uses a library that was not loaded; the other theorems show that each condition is needed. Stack overflow is the outcome diverge (C34, C39), not a panic. Running out of memory is not modelled."
  },
  {
   "property": "C65",
   "status": "proved",
   "theorems": [
    "GoRaml.Props.c65_unchanged",
    "GoRaml.Props.c65_same_values",
    "GoRaml.Props.c65_shapes_grow"
   ],
   "note": "For parsed models, after any number of calls of ValidateShapes that returned. c65_shapes_grow: the list that GetShapes returns is the exception; on models that are not unwrapped the copies made for validation are appended to it."
  },
  {
   "property": "C66",
   "status": "proved",
   "theorems": [
    "GoRaml.Props.c66_restrictions_add_up",
    "GoRaml.Props.c66_pattern_replaced",
    "GoRaml.Props.c66_boolean_alias"
   ],
   "note": "Provisos, as in the statement: at most one pattern in the line, no custom facet definitions, no alias of a boolean type, no type of the line is the first of several parents, and unwrapping leaves none of them marked as visited (see C62). c66_pattern_replaced and c66_boolean_alias show that two of them are needed."
  },
  {
   "property": "C67",
   "status": "proved",
   "theorems": [
    "GoRaml.Props.c67_share_nothing",
    "GoRaml.Props.c67_shared_after_unwrapping"
   ],
   "note": "c67_shared_after_unwrapping shows that the property ends with unwrapping."
  },
  {
   "property": "C68",
   "status": "proved",
   "theorems": [
    "GoRaml.Props.c68_more_files",
    "GoRaml.Props.c68_more_files_string",
    "GoRaml.Props.c68_string_like_file",
    "GoRaml.Props.c68_file_like_string",
    "GoRaml.Props.c68_stale_include",
    "GoRaml.Props.c68_bounds"
   ],
   "note": "c68_stale_include shows that the condition of c68_string_like_file is needed: the text must parse without being in the file system. c68_bounds says that the bounds of the model (nested calls, turns of the resolve loop) do not matter for any parse that ends."
  },
  {
   "property": "C69",
   "status": "proved",
   "theorems": [
    "GoRaml.Props.c69_unwrapping_keeps_meaning",
    "GoRaml.Props.c69_order_does_not_matter",
    "GoRaml.Props.c69_means_unfolds",
    "GoRaml.Props.c69_recursive_heir_loses_restrictions",
    "GoRaml.Props.c69_declaration_order"
   ],
   "note": "The meaning is the relation Means of Spec/Meaning.lean, on the parsed model; c69_means_unfolds says that it is a fixpoint. Provisos are the structure Straight there, as in the statement. c69_recursive_heir_loses_restrictions shows that the one about recursive types is needed, and c69_declaration_order that it is also needed for aliases (there the order of the declarations decides); a property that is declared again, with a scalar type, has to meet both declarations; C66 has similar theorems for patterns and aliases of booleans."
  },
  {
   "property": "C70",
   "status": "proved",
   "theorems": [
    "GoRaml.Props.c70_keyword_in_parentheses",
    "GoRaml.Props.c70_union",
    "GoRaml.Props.c70_facets_ignored"
   ],
   "note": "The property is false of the code. The first two theorems say so for every declaration of these forms in every parsed model; c70_facets_ignored is a file that parses, unwraps and validates without an error although four facets have no effect. For keywords, references, includes and parents the facets are in force: C63, C66, C69."
  },
  {
   "property": "C71",
   "status": "proved",
   "theorems": [
    "GoRaml.Props.c71_copy",
    "GoRaml.Props.c71_edit_copy",
    "GoRaml.Props.c71_edit_original",
    "GoRaml.Props.c71_depends",
    "GoRaml.Props.c71_one_schema",
    "GoRaml.Props.c71_number_shared",
    "GoRaml.Props.c71_empty_map_shared",
    "GoRaml.Props.c71_cycle_diverges"
   ],
   "note": "Here schemas are objects in memory (Model/SchemaMem.lean); in C52 they are values. The schema of the two counterexamples is what the converter returns for an object type without properties. Values of type any inside enum, examples, default and const are not looked into, so their sharing is not covered."
  },
  {
   "property": "C72",
   "status": "proved",
   "theorems": [
    "GoRaml.Props.c72_unchanged",
    "GoRaml.Props.c72_messages",
    "GoRaml.Props.c72_only",
    "GoRaml.Props.c72_idempotent",
    "GoRaml.Props.c72_context_lost",
    "GoRaml.Props.c72_others_lost"
   ],
   "note": "c72_context_lost: the branch of GetYamlError that prepends the wrapping text is dead, because errors.As already searches the whole tree. Errors with an As method of their own are not modelled."
  },
  {
   "property": "C73",
   "status": "proved",
   "theorems": [
    "GoRaml.Props.c73_schema_means",
    "GoRaml.Props.c73_schema_accepts",
    "GoRaml.Props.c73_schema_exists"
   ],
   "note": "Composes C69 and C50 and has the provisos of both: Straight on the parsed model, Convertible (or Covered) and DistinctNames on the unwrapped type, Common on the value. The example converts a type of two files that is built on others and holds a recursive type."
  },
  {
   "property": "C74",
   "status": "proved",
   "theorems": [
    "GoRaml.Props.c74_watching",
    "GoRaml.Props.c74_same_result",
    "GoRaml.Props.c74_no_error_lost",
    "GoRaml.Props.c74_declaration_rejected",
    "GoRaml.Props.c74_all_types_asked",
    "GoRaml.Props.c74_error_lost_in_union"
   ],
   "note": "Model/Hooked.lean has the functions with their calls of hooks. An error that is lost would show as a success where the hook panics instead (panicking in Spec/Hooked.lean). The proviso InheritanceUnhooked is needed: c74_error_lost_in_union. Hooks that change the model or register hooks while running are not covered; for the registry itself see C40 and C41."
  },
  {
   "property": "C75",
   "status": "proved",
   "theorems": [
    "GoRaml.Props.c75_result_narrows",
    "GoRaml.Props.c75_in_files",
    "GoRaml.Props.c75_items_in_files"
   ],
   "note": "c75_result_narrows is about one call of Inherit; the provisos on patterns, NaN bounds and datetime formats are those of C12-C15 for the pairs that are merged. The files show the violation, for a property and for items. Not covered: unions with array or object members."
  },
  {
   "property": "C76",
   "status": "proved",
   "theorems": [
    "GoRaml.Props.c76_parsing_ends",
    "GoRaml.Props.c76_endless_parsing",
    "GoRaml.Props.c76_parsing_path_ends",
    "GoRaml.Props.c76_result_unique"
   ],
   "note": "Composes C39 and C34 and goes through all states of the parse: TakenUp in Spec/Ends.lean says which types have to be resolved in which states, by the calls that are made. Unlike c34_resolution_ends it has no proviso on the states in between and covers types that fail. That both provisos are needed: c39_include_cycle_diverges, c34_cycle_diverges."
  },
  {
   "property": "C77",
   "status": "proved",
   "theorems": [
    "GoRaml.Props.c77_unwraps",
    "GoRaml.Props.c77_ends",
    "GoRaml.Props.c77_annotation_types",
    "GoRaml.Props.c77_internal_error"
   ],
   "note": "NoInheritance in Spec/Flat.lean: no parents, no included type, no custom facets, and aliases have the kind of their target and no parts of their own, as resolution makes them. c77_annotation_types: annotation types are declared if no file leads back to one that includes it. Without this c77_ends allows an error, if the location of an annotation type is not found. c77_internal_error shows why inheritance is excluded."
  },
  {
   "property": "C78",
   "status": "proved",
   "theorems": [
    "GoRaml.Props.c78_validates",
    "GoRaml.Props.c78_answers",
    "GoRaml.Props.c78_files",
    "GoRaml.Props.c78_ends",
    "GoRaml.Props.c78_self_union"
   ],
   "note": "Composes C77, C30 and C44: after marking, every cycle through members of unions is broken (NoUnionInItself in Spec/FlatEnds.lean), so the hypotheses of c44_unwrapped_model hold. c78_ends adds C76. c78_self_union shows why unions must not contain themselves. NoInheritance as in C77."
  },
  {
   "property": "C79",
   "status": "proved",
   "theorems": [
    "GoRaml.Props.c79_ends",
    "GoRaml.Props.c79_answers",
    "GoRaml.Props.c79_one_ends",
    "GoRaml.Props.c79_parse_ends",
    "GoRaml.Props.c79_marking_ends"
   ],
   "note": "Generalises the first half of C77 to models with inheritance. Each call of UnwrapShape flags a type before it calls itself and no type is made, each call of Inherit flags its source; a loop over properties may see entries that nested calls add, but then a further type is flagged. NoUnions and NoCustomFacets are in Spec/NoUnions.lean. For marking, custom facets are a real obstacle (c30_own_facet_diverges); c79_one_ends, about UnwrapShape alone, needs no such condition. Whether unwrapping can fail to end with unions is open: inheriting through unions copies types, so the number of types is no measure."
  },
  {
   "property": "C80",
   "status": "proved",
   "theorems": [
    "GoRaml.Props.c80_lineage_ends",
    "GoRaml.Props.c80_no_own_ancestor",
    "GoRaml.Props.c80_ancestors_resolved",
    "GoRaml.Props.c80_rooted"
   ],
   "note": "DerivesFrom and AncestorOf in Spec/Ancestry.lean. The cycles that code could make are those that c34_cycle_diverges shows resolution does not survive; the theorems are about the model that parsing leaves, before it is unwrapped. c80_rooted gives, for parsed models, the hypothesis Rooted of C30 and C44."
  },
  {
   "property": "C81",
   "status": "proved",
   "theorems": [
    "GoRaml.Props.c81_left_visited",
    "GoRaml.Props.c81_rooted",
    "GoRaml.Props.c81_components",
    "GoRaml.Props.c81_validates",
    "GoRaml.Props.c81_answers"
   ],
   "note": "Composes C79, C80, C30 and C44. Generalises C78 to models with inheritance but has no unions. The proviso that annotations keep their types is needed (c62_annotation_type_lost). c81_components removes the proviso of C62 for these models: a type left visited is any and has no components (unlike with unions, see C62). The example has a type that is left visited, a valid model and one that is not."
  },
  {
   "property": "C82",
   "status": "proved",
   "theorems": [
    "GoRaml.Props.c82_own_kept",
    "GoRaml.Props.c82_names",
    "GoRaml.Props.c82_data_types",
    "GoRaml.Props.c82_same_type",
    "GoRaml.Props.c82_heir_lost"
   ],
   "note": "SaysTheSame and StandsFor in Spec/Heirs.lean. Custom facets are allowed here. c82_heir_lost is the violation of the unqualified property, in a file: Inherit returns before it resets the flag of a source of type any (shape.go:157-160), and the next heir is replaced by that source (shape.go:132-135). Models with unions are not covered: there Inherit also leaves other types flagged and puts other types in place."
  },
  {
   "property": "C83",
   "status": "proved",
   "theorems": [
    "GoRaml.Props.c83_copy",
    "GoRaml.Props.c83_edit_copy",
    "GoRaml.Props.c83_edit_original",
    "GoRaml.Props.c83_follows",
    "GoRaml.Props.c83_definition_shared"
   ],
   "note": "In the memory model of C71 (Model/SchemaMem.lean). OwnCell in Spec/SchemaMem.lean lists the objects that are not shared. c83_edit_original is about assignments to fields: in a schema in which the original's own maps are also used further inside, changes to these maps would show in the copy."
  },
  {
   "property": "C84",
   "status": "proved",
   "theorems": [
    "GoRaml.Props.c84_nothing_left",
    "GoRaml.Props.c84_unread",
    "GoRaml.Props.c84_share_nothing",
    "GoRaml.Props.c84_unwrapping_ends",
    "GoRaml.Props.c84_all_resolved",
    "GoRaml.Props.c84_well_formed",
    "GoRaml.Props.c84_annotations_linked",
    "GoRaml.Props.c84_as_in_files",
    "GoRaml.Props.c84_lineage",
    "GoRaml.Props.c84_earlier_kept",
    "GoRaml.Props.c84_unwrap",
    "GoRaml.Props.c84_after_unwrap",
    "GoRaml.Props.c84_declared_names",
    "GoRaml.Props.c84_validates",
    "GoRaml.Props.c84_second_call_succeeds",
    "GoRaml.Props.c84_error_hidden",
    "GoRaml.Props.c84_error_stays",
    "GoRaml.Props.c84_read_again",
    "GoRaml.Props.c84_read_again_unwrapped",
    "GoRaml.Props.c84_unwrapped_before"
   ],
   "note": "AfterCalls and Successes in Spec/History.lean. The last six theorems are violations of the unqualified property: resolveShapes drops the types it could not resolve from its list, the fragments stay registered, the annotations stay on their list, and PutFragment keeps the first fragment of a path while the second becomes the entry point (the value of parseFromPath in the model). The positive theorems are about calls without options; c84_unwrapped_before shows that unwrapping between calls matters (ArrayShape.inherit, unlike ObjectShape.inherit, does not look through a RecursiveShape)."
  },
  {
   "property": "C85",
   "status": "proved",
   "theorems": [
    "GoRaml.Props.c85_model_kept",
    "GoRaml.Props.c85_succeeds",
    "GoRaml.Props.c85_types_forgotten",
    "GoRaml.Props.c85_types_gone",
    "GoRaml.Props.c85_panics"
   ],
   "note": "StillSame and AnnotationsHome in Spec/Twice.lean. Unions and custom facets are allowed. The last three theorems are violations of the unqualified property: UnwrapShapes starts with an empty list of types, and UnwrapShape returns before PutShape for a type that is unwrapped; c85_types_forgotten shows it for every model. Marking again can add recursive types for types left visited, which nothing refers to."
  },
  {
   "property": "C86",
   "status": "proved",
   "theorems": [
    "GoRaml.Props.c86_names_kept",
    "GoRaml.Props.c86_names_kept_single",
    "GoRaml.Props.c86_names_kept_validation",
    "GoRaml.Props.c86_names_kept_parsing",
    "GoRaml.Props.c86_annotations",
    "GoRaml.Props.c86_unwrapped_again",
    "GoRaml.Props.c86_annotations_kept",
    "GoRaml.Props.c86_type_exchanged"
   ],
   "note": "Unions and custom facets are allowed, except in c86_annotations_kept. c86_annotations_kept assumes AnnotationTypesDeclared (Spec/Flat.lean), as C77 does. c86_unwrapped_again is C85 without the hypothesis on the files of annotation types. c86_type_exchanged is a violation of the stronger property that an annotation keeps its type."
  },
  {
   "property": "C87",
   "status": "proved",
   "theorems": [
    "GoRaml.Props.c87_paths_once",
    "GoRaml.Props.c87_fragments_stay",
    "GoRaml.Props.c87_fragments_stay_with",
    "GoRaml.Props.c87_fragments_same"
   ],
   "note": "From any state and for every outcome: success, error, panic, or a run that does not return (the state it has reached, for every bound). In the model the cache is a list of entries, so that no path occurs twice is a theorem; in the code it holds because the cache is a Go map. What a registered fragment contains may still change while it is being loaded, when its uses are linked."
  }
 ]
}