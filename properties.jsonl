{"id": "C01", "title": "Integer validation decides exactly the declared range and enum", "statement": "Validating a Go int or uint against an integer type succeeds iff the number is >= minimum (when declared), <= maximum (when declared) and equal to some declared enum value (when an enum is declared). A float64 is judged as its truncation to int64, and every other kind of value is rejected.", "quantifier": "every integer type (all combinations of minimum, maximum, enum) and every value", "why_tests_cant": "the facets and the value range over unbounded integers and over all enum lists; the boundary cases are infinitely many", "anchors": ["scalars.go:IntegerShape.validate", "shape.go:BaseShape.Validate"]}
{"id": "C02", "title": "Number validation decides exactly the declared range and enum", "statement": "Validating an int, uint or float64 against a number type succeeds iff the value as float64 is not below minimum, not above maximum and, when an enum is declared, some enum value is a float64 equal to it. Every other kind of value is rejected. Corollary users care about: an enum written with integer literals can never be matched.", "quantifier": "every number type and every value, including NaN and infinities", "why_tests_cant": "floats including NaN/Inf and arbitrary enum lists cannot be enumerated", "anchors": ["scalars.go:NumberShape.validate", "scalars.go:NumberShape.check"]}
{"id": "C03", "title": "String and file validation decides exactly length, pattern and enum", "statement": "A string is accepted by a string type iff its length in bytes is within minLength..maxLength, the pattern (when present) matches it and it equals some enum value (when an enum is present); a file type checks the length only; non-strings are rejected.", "quantifier": "every string/file type, every value, every regular expression", "why_tests_cant": "string contents, lengths and enum lists are unbounded", "anchors": ["scalars.go:StringShape.validate", "scalars.go:FileShape.validate"]}
{"id": "C04", "title": "Boolean, nil, any and date/time types accept exactly their value sets", "statement": "A boolean type accepts exactly the booleans in its enum (all booleans when no enum); nil accepts exactly nil; any accepts every value; a date/time type accepts exactly the strings the time parser accepts for its layout; everything else is rejected.", "quantifier": "every such type and every value", "why_tests_cant": "must hold for every value, including deeply nested ones", "anchors": ["scalars.go:BooleanShape.validate", "scalars.go:DateTimeShape.validate", "scalars.go:NilShape.validate", "scalars.go:AnyShape.validate"]}
{"id": "C05", "title": "Array validation decides exactly item count and every item", "statement": "A value is accepted by an array type without uniqueItems iff it is an array, its length is within minItems..maxItems and every element is accepted by the items type (when declared).", "quantifier": "every array type, every items type to any nesting depth, every array of any length", "why_tests_cant": "arrays and nested types are unbounded", "anchors": ["complex.go:ArrayShape.validate"]}
{"id": "C06", "title": "uniqueItems never lets a duplicate through", "statement": "With uniqueItems, an array holding two elements with the same JSON encoding is always rejected; an array whose elements hash to pairwise different values is accepted when its other constraints hold.", "quantifier": "every array of any length and every hash function", "why_tests_cant": "quantifies over all hash functions and all arrays", "anchors": ["complex.go:ArrayShape.validate", "complex.go:ArrayShape.hashInterfaceFast"]}
{"id": "C07", "title": "Object validation decides exactly required, closed, counted and typed properties", "statement": "A map is accepted by an object type iff its size is within minProperties..maxProperties, every required property is present, every entry with a declared property is accepted by that property's type (the declaration has priority over pattern properties), and every other entry is allowed by additionalProperties and by the pattern-property rule.", "quantifier": "every object type, nesting depth, map and property set", "why_tests_cant": "objects and types are unbounded and mutually nested", "anchors": ["complex.go:ObjectShape.validate", "complex.go:ObjectShape.validateProperties", "complex.go:ObjectShape.findMissingRequired"]}
{"id": "C08", "title": "Pattern-property rule", "statement": "An entry without a declared property is accepted by the pattern properties iff no pattern matches its key or at least one matching pattern's type accepts its value.", "quantifier": "every set and order of pattern properties, every key and value", "why_tests_cant": "needs all patterns, keys and evaluation outcomes", "anchors": ["complex.go:ObjectShape.validatePatternProperty"]}
{"id": "C09", "title": "Validation verdict does not depend on Go's map iteration order", "statement": "Whether a value is accepted is the same for any order in which the entries of its maps, at any depth, are visited.", "quantifier": "every type, every value, every iteration schedule", "why_tests_cant": "Go randomises map iteration; a test sees only a few schedules", "anchors": ["complex.go:ObjectShape.validateProperties"]}
{"id": "C10", "title": "Union validation is the disjunction of its members", "statement": "A value is accepted by a union type iff at least one member accepts it, independently of the order and of the union's own enum.", "quantifier": "every union and every value", "why_tests_cant": "members are arbitrary nested types", "anchors": ["complex.go:UnionShape.validate"]}
{"id": "C11", "title": "Recursive types validate like their head, and validation terminates", "statement": "A recursive reference accepts exactly what the type it points to accepts. Validation of any finite value terminates whenever every recursive reference lies below an array item or an object property; it does not terminate for a union that contains itself directly (A: string | A) and a value no other member accepts.", "quantifier": "every type graph with back edges and every finite value", "why_tests_cant": "termination is a property of all inputs; a test cannot observe divergence", "anchors": ["complex.go:RecursiveShape.validate", "complex.go:UnionShape.validate"]}
{"id": "C12", "title": "Inheriting an integer type only narrows it", "statement": "If an integer type successfully inherits from another one, every value accepted by the result is accepted by the parent and by the original child, and inheritance fails exactly when the child's minimum is below the parent's, its maximum is above, its enum is not a subset of the parent's or its format belongs to a different width class.", "quantifier": "every pair of integer types and every value", "why_tests_cant": "range and enum spaces are infinite", "anchors": ["scalars.go:IntegerShape.inherit", "scalars.go:isCompatibleEnum", "shape.go:BaseShape.Inherit"]}
{"id": "C13", "title": "Inheriting a number type only narrows it", "statement": "If a number type with comparable (non-NaN) bounds successfully inherits from another one, every value accepted by the result is accepted by the parent; with a NaN bound this fails.", "quantifier": "every pair of number types and every value", "why_tests_cant": "float space including NaN is too large to enumerate", "anchors": ["scalars.go:NumberShape.inherit"]}
{"id": "C14", "title": "Inheriting a string or file type only narrows it", "statement": "If a string (file) type successfully inherits from another one, every value accepted by the result is accepted by the parent, unless the child declares its own pattern, in which case the parent's pattern is silently dropped.", "quantifier": "every pair of string/file types, every regex and value", "why_tests_cant": "regexes and strings are unbounded", "anchors": ["scalars.go:StringShape.inherit", "scalars.go:FileShape.inherit"]}
{"id": "C15", "title": "Inheriting boolean, nil and date types only narrows; kinds cannot be mixed", "statement": "For boolean, nil and date/time types, successful inheritance implies every value accepted by the child is accepted by the parent, except that a datetime child may switch a parent without a format (RFC 3339) to rfc2616; inheriting across different non-union kinds always fails.", "quantifier": "every pair of types and every value", "why_tests_cant": "all pairs of kinds and all values", "anchors": ["scalars.go:BooleanShape.inherit", "scalars.go:DateTimeShape.inherit", "scalars.go:NilShape.inherit"]}
{"id": "C16", "title": "Inheriting array and object types only narrows them", "statement": "If an array or object type (nested to any depth, without unions) successfully inherits from another one, every value accepted by the result is accepted by the parent, provided the child does not redeclare additionalProperties as open, does not re-declare pattern properties, the parent is not closed against the child's new properties and no new property of the child is covered by a pattern property of the parent. Each of these provisos is necessary: dropping it is refuted by a concrete pair of types.", "quantifier": "every pair of type trees and every value", "why_tests_cant": "trees of any depth and all values", "anchors": ["complex.go:ArrayShape.inherit", "complex.go:ObjectShape.inherit", "complex.go:ObjectShape.inheritProperties", "shape.go:BaseShape.Inherit"]}
{"id": "C17", "title": "A required property stays required through inheritance", "statement": "Object inheritance fails only if a property count is loosened, a property required by the parent is optional in the child, or a property or pattern declared on both sides fails to inherit; on success every property of the parent is present in the child, and required if it was required in the parent, so that values lacking it are rejected; no outcome ever removes a declared property.", "quantifier": "every pair of property maps", "why_tests_cant": "property maps are unbounded", "anchors": ["complex.go:ObjectShape.inheritProperties"]}
{"id": "C18", "title": "A union child narrows a union parent", "statement": "When a union type inherits from a union type successfully, each member of the result comes from a child member that inherited from a parent member of the same type name, and every parent member has at least one such child member; for scalar members every value of the result belongs to the parent. (Child members can lose their constraints: after one failed pairing, the next child member is replaced by the parent's.)", "quantifier": "every pair of unions", "why_tests_cant": "member lists are unbounded", "anchors": ["complex.go:UnionShape.inherit"]}
{"id": "C19", "title": "A union overriding a non-union type must still narrow it", "statement": "If a union type successfully inherits from a non-union type, values it accepts are accepted by the parent. (The code violates this: the parent is ignored.)", "quantifier": "every union and every non-union parent", "why_tests_cant": "violations need specific pairs of types", "anchors": ["shape.go:BaseShape.inheritUnionTarget"]}
{"id": "C20", "title": "Inheritance outcome does not depend on unrelated earlier inheritances", "statement": "Inheriting from the same parent twice, from two different children, gives each child the same outcome as doing it alone. (The code violates this for any parents, for union parents and after every failed call: the next child silently becomes the parent. It holds for scalar parents, and arrays and objects still narrow.)", "quantifier": "every parent and every sequence of children", "why_tests_cant": "depends on history of earlier operations", "anchors": ["shape.go:BaseShape.Inherit", "shape.go:BaseShape.inheritUnionSource"]}
{"id": "C21", "title": "Enum compatibility is the subset relation", "statement": "Enum compatibility holds iff each value of the child's enum equals some value of the parent's enum; it is decided without panicking as long as the values are scalars, and panics on two maps or two arrays.", "quantifier": "every pair of enum lists", "why_tests_cant": "value lists are unbounded", "anchors": ["scalars.go:isCompatibleEnum"]}
{"id": "C22", "title": "Checked scalar, array and object types are internally consistent", "statement": "If the definition check of a type passes, its lower bounds do not exceed its upper bounds, its enum values have the declared kind, its items / properties / members pass the check too, a discriminator names an existing scalar property that accepts the discriminator value, and closed objects have no pattern properties; the check fails only if one of these is violated.", "quantifier": "every type of any nesting depth", "why_tests_cant": "types are unbounded", "anchors": ["scalars.go:IntegerShape.check", "complex.go:ObjectShape.check", "complex.go:ArrayShape.check", "complex.go:UnionShape.check", "shape.go:BaseShape.Check"]}
{"id": "C23", "title": "Cloning never changes the original and terminates on cyclic types", "statement": "CloneDetached and Clone leave every existing type, property map and union list unchanged and terminate for every finite type graph, cyclic or not.", "quantifier": "every heap of types, including cyclic graphs", "why_tests_cant": "cyclic graphs of any size", "anchors": ["shape.go:BaseShape.clone", "shape.go:BaseShape.CloneDetached", "complex.go:ObjectShape.clone"]}
{"id": "C24", "title": "A detached clone is independent of the original", "statement": "Every type reachable from a detached clone through properties, items, union members, parents, alias and link is freshly allocated, so mutating the clone cannot affect the original. (Violated for unwrapped recursive types: the recursive head still points into the original.)", "quantifier": "every type graph", "why_tests_cant": "aliasing must be excluded for every reachable path", "anchors": ["shape.go:BaseShape.CloneDetached", "complex.go:RecursiveShape.clone"]}
{"id": "C25", "title": "A clone is structurally identical to the original", "statement": "A detached clone has the same facets and the same graph shape as the original (a bisimulation maps each cloned type to its original), hence accepts the same values.", "quantifier": "every type graph with unique IDs and every value", "why_tests_cant": "graph isomorphism over unbounded graphs", "anchors": ["shape.go:BaseShape.clone", "complex.go:ArrayShape.clone", "complex.go:UnionShape.clone"]}
{"id": "C26", "title": "An alias accepts exactly what its target accepts", "statement": "After unwrapping, a type declared as a plain reference to another type accepts exactly the values of that type. (Violated for boolean types with an enum: the enum is dropped.)", "quantifier": "every type and every value", "why_tests_cant": "types and values are unbounded", "anchors": ["shape.go:BaseShape.AliasTo", "scalars.go:BooleanShape.alias", "complex.go:ObjectShape.alias"]}
{"id": "C27", "title": "Unwrapping is idempotent", "statement": "Unwrapping an already unwrapped type returns that type and changes nothing; a successfully unwrapped type is marked unwrapped.", "quantifier": "every type graph", "why_tests_cant": "state space of type graphs is unbounded", "anchors": ["unwrap.go:RAML.UnwrapShape"]}
{"id": "C28", "title": "Unwrapping one type leaves other types unchanged", "statement": "Unwrapping a type never changes the set of values accepted by its parents. (Violated by multiple inheritance of objects: the first parent receives the other parents' properties.)", "quantifier": "every type graph", "why_tests_cant": "needs all graphs; requires aliasing reasoning", "anchors": ["unwrap.go:unwrapParents", "complex.go:ObjectShape.alias", "complex.go:ObjectShape.inheritProperties"]}
{"id": "C29", "title": "Recursive occurrences obey inherited constraints", "statement": "In a recursive type with a parent, nested occurrences of the type obey the facets inherited from the parent. (Violated: nested occurrences miss facets inherited after the recursion was taken.)", "quantifier": "every recursive type with a parent", "why_tests_cant": "needs specific recursive graphs", "anchors": ["unwrap.go:RAML.UnwrapShape", "shape.go:BaseShape.AliasTo"]}
{"id": "C30", "title": "Recursion marking terminates and leaves an acyclic structure", "statement": "Marking recursion terminates for every finite type graph and afterwards no path through properties, pattern properties, items and union members from the marked type is infinite; each back edge is replaced by a recursive reference to the type it pointed to.", "quantifier": "every finite type graph", "why_tests_cant": "cyclic graphs of any size", "anchors": ["unwrap.go:RAML.FindAndMarkRecursion", "shape.go:RAML.MakeRecursiveShape"]}
{"id": "C31", "title": "The default type is determined by the set of facets, not their order", "statement": "The type inferred from facets is the same for every order of the facets; it is string when no facet is type specific, and inference fails iff facets of two incompatible types occur.", "quantifier": "every list of facet names and every permutation", "why_tests_cant": "all subsets and orders of facets", "anchors": ["shape.go:identifyShapeType"]}
{"id": "C32", "title": "The type-expression parser accepts exactly the grammar and is unambiguous", "statement": "A token sequence is accepted with a tree iff the grammar derives it to that tree, and each sequence has at most one tree; printing a tree and parsing it back gives the tree.", "quantifier": "every token sequence and every expression tree", "why_tests_cant": "expressions are unbounded", "anchors": ["rdt/rdtParser.g4", "rdt/rdtLexer.g4", "resolve.go:RAML.resolveShape"]}
{"id": "C33", "title": "Type expressions mean what they say", "statement": "A type built from T? accepts nil and the values of T, T[] accepts exactly the arrays of values of T, A | B accepts exactly values of A or of B, and parentheses do not change the meaning.", "quantifier": "every expression tree over any reference environment, every value", "why_tests_cant": "expressions and values are unbounded", "anchors": ["rdt_visitor.go:RdtVisitor.VisitOptional", "rdt_visitor.go:RdtVisitor.VisitArray", "rdt_visitor.go:RdtVisitor.VisitUnion", "rdt_visitor.go:RdtVisitor.VisitGroup"]}
{"id": "C34", "title": "Reference resolution terminates exactly on acyclic references", "statement": "Resolving type references terminates when the reference relation is well-founded or the cycle passes through a composite type; a direct self reference is reported as an error; a cycle of two or more plain references (A: B, B: A) makes resolution recurse forever.", "quantifier": "every reference graph", "why_tests_cant": "divergence cannot be observed by a test and graphs are unbounded", "anchors": ["rdt_visitor.go:RdtVisitor.VisitReference", "resolve.go:RAML.resolveShape"]}
{"id": "C35", "title": "Reference names split at the last dot and round-trip", "statement": "Splitting a reference name at its last dot gives two parts whose join with a dot is the name and whose second part has no dot; it reports no split iff the name has no dot.", "quantifier": "every string", "why_tests_cant": "strings are unbounded", "anchors": ["common.go:CutLast", "fragment.go:CutReferenceName"]}
{"id": "C36", "title": "Library reference lookup precedence", "statement": "A name is looked up among the library's own types first, dotted or not; only then is it split at the last dot and looked up in the used library of that alias; lookups are not transitive and fail otherwise.", "quantifier": "every library and every name", "why_tests_cant": "all names and libraries", "anchors": ["fragment.go:Library.GetReferenceType", "fragment.go:Library.GetReferenceAnnotationType", "fragment.go:DataType.GetReferenceType"]}
{"id": "C37", "title": "Fragments are registered once and the type index returns the last stored type", "statement": "After any history of registrations, looking up a location returns the first fragment registered there; looking up a type returns the last type stored for that location and name, and storing one entry never changes another.", "quantifier": "every history of registration operations", "why_tests_cant": "histories are unbounded", "anchors": ["raml.go:RAML.PutFragment", "raml.go:RAML.GetFragment", "raml.go:RAML.PutTypeIntoFragment", "raml.go:RAML.GetTypeFromFragmentPtr"]}
{"id": "C38", "title": "Mutually dependent libraries load, each file once", "statement": "For every set of libraries and every `uses` graph, cyclic or not, loading terminates and each file becomes at most one fragment of the model; on success every entry of a uses is linked to the library registered for its path. (Violated when a library includes a data type that leads back to the library: it is decoded twice.)", "quantifier": "every finite uses graph", "why_tests_cant": "graphs are unbounded", "anchors": ["parse.go:RAML.parseLibrary", "parse.go:RAML.decodeLibrary"]}
{"id": "C39", "title": "Data type includes terminate", "statement": "Loading data type fragments terminates for every include graph. (Violated: a cyclic !include between data types recurses forever because registration happens after decoding; proved for acyclic includes.)", "quantifier": "every include graph", "why_tests_cant": "divergence cannot be observed by a test", "anchors": ["parse.go:RAML.parseDataType", "parse.go:RAML.decodeDataType"]}
{"id": "C40", "title": "Hooks run in order and the first error vetoes", "statement": "Hooks registered for a key run in registration order (prepended ones first), each exactly once, until one fails; the first failure is returned; removing a hook removes only its first registration and leaves other keys untouched.", "quantifier": "every history of hook operations and every hook behaviour", "why_tests_cant": "histories and hook behaviours are unbounded", "anchors": ["raml.go:RAML.AppendHook", "raml.go:RAML.PrependHook", "raml.go:RAML.RemoveHook", "raml.go:RAML.ClearHooks", "raml.go:RAML.callHooks"]}
{"id": "C41", "title": "Removing a hook from inside a hook does not disturb the running hooks", "statement": "If a hook removes itself while hooks run, the other hooks still run exactly once in that run. (Violated: removal shifts the shared slice, skipping one hook and running the last one twice.)", "quantifier": "every hook list and every removal point", "why_tests_cant": "needs the schedule of removal during iteration and slice aliasing", "anchors": ["raml.go:RAML.RemoveHook", "raml.go:RAML.callHooks"]}
{"id": "C42", "title": "Generated shape IDs are unique under every interleaving", "statement": "IDs generated by any number of concurrent callers are pairwise different and increasing per caller.", "quantifier": "every number of callers and every interleaving", "why_tests_cant": "all schedules", "anchors": ["shape.go:RAML.generateShapeID"]}
{"id": "C43", "title": "Property naming and required rules", "statement": "A property declared `name?` without a required facet is optional and called name; without `?` and facet it is required; with an explicit required facet its value is used and the name is kept as written, a trailing question mark included; at most one question mark is ever removed. Declarations `a` and `a?` of one object denote the same property, and the later one wins.", "quantifier": "every property name and facet", "why_tests_cant": "names are unbounded", "anchors": ["complex.go:RAML.makeProperty", "complex.go:RAML.chompImplicitOptional"]}
{"id": "C44", "title": "Clean parse with validation: the verdict covers every type", "statement": "Validating all shapes reports no error iff every type, annotation type, and annotation of every fragment is valid, whatever the order in which fragments are visited.", "quantifier": "every set of fragments and every iteration order", "why_tests_cant": "map iteration schedules and sets are unbounded", "anchors": ["validate.go:RAML.ValidateShapes", "validate.go:RAML.validateTypes", "validate.go:RAML.validateFragments"]}
{"id": "C45", "title": "Custom facets are validated exactly", "statement": "Custom facet validation of a type, and of every type it is composed of, passes iff the type redeclares no facet that an ancestor (by first parents) declares, each required facet declared by an ancestor has a value, each declared facet's value is accepted by its declaration (that of the farthest ancestor when several declare the name) and no undeclared facet has a value, whatever the order in which the declarations are visited.", "quantifier": "every inheritance chain and facet set", "why_tests_cant": "chains and facet sets are unbounded", "anchors": ["validate.go:RAML.validateShapeFacets"]}
{"id": "C46", "title": "Examples and default are validated", "statement": "Validation of a type fails if its default, its example or one of its inline examples is not accepted by the type. (Examples brought in by !include of a NamedExample fragment are not validated.)", "quantifier": "every type and every set of examples", "why_tests_cant": "examples and types are unbounded", "anchors": ["validate.go:RAML.validateExamples"]}
{"id": "C47", "title": "The CLI reports failure when any file is invalid", "statement": "The validate command fails iff at least one argument is invalid. (Violated: only the last argument decides.)", "quantifier": "every list of arguments", "why_tests_cant": "lists of arguments and outcomes are unbounded", "anchors": ["cmd/raml/validate.go:Execute"]}
{"id": "C48", "title": "Generated JSON Schema has no dangling references", "statement": "Every $ref in a schema converted from an unwrapped type without JSON-schema members points to an entry of its definitions.", "quantifier": "every unwrapped type graph", "why_tests_cant": "type graphs are unbounded", "anchors": ["jsonschemaconv.go:JSONSchemaConverter.Convert", "jsonschemaconv.go:JSONSchemaConverter.VisitRecursiveShape"]}
{"id": "C49", "title": "Generated JSON Schema requires exactly the required properties", "statement": "The schema of an object type lists its properties in declaration order, and `required` lists exactly the required ones in that order; pattern keys lose exactly their delimiting slashes.", "quantifier": "every object type", "why_tests_cant": "property maps are unbounded", "anchors": ["jsonschemaconv.go:JSONSchemaConverter.VisitObjectShape"]}
{"id": "C50", "title": "Generated JSON Schema accepts the same values", "statement": "For types built from any, nil, boolean, integer, number, string, file, array (also with uniqueItems), union, recursion and object (also with pattern properties), a JSON value in the common value domain is accepted by the schema iff it is accepted by the type; for types with dates and times as well the schema accepts every value that the type accepts. (The common domain: ASCII strings, whole numbers where an integer type is involved, integers that are float64s where a number type is involved. The code differs from its schemas outside it, and for multipleOf, number enums written with integers, closed objects with pattern properties, several patterns that match a key and patterns that match a declared property.)", "quantifier": "every such type of any depth and every value", "why_tests_cant": "types and values are unbounded", "anchors": ["jsonschemaconv.go:JSONSchemaConverter.Visit", "jsonschemaconv.go:JSONSchemaConverter.Convert"]}
{"id": "C51", "title": "Two recursive types with the same name do not collide in the generated schema", "statement": "Distinct recursive types referenced in one schema get distinct definitions. (Violated: definitions are keyed by name.)", "quantifier": "every type graph", "why_tests_cant": "needs specific graphs", "anchors": ["jsonschemaconv.go:JSONSchemaConverter.VisitRecursiveShape"]}
{"id": "C52", "title": "Schema copies and maps are lossless", "statement": "DeepCopy of a schema equals the schema; Map emits every keyword that is set and nothing else, so that two schemas with the same map are the same up to empty values.", "quantifier": "every schema of any depth", "why_tests_cant": "schemas are unbounded", "anchors": ["schema.go:JSONSchemaGeneric.DeepCopy", "schema.go:JSONSchemaGeneric.Map"]}
{"id": "C53", "title": "YAML nodes convert faithfully to values", "statement": "Converting a YAML tree yields a value of the same structure (sequences in order, mappings by key with the last duplicate winning); alias nodes and includes nested in included content are rejected; conversion always terminates.", "quantifier": "every YAML tree", "why_tests_cant": "trees are unbounded", "anchors": ["node.go:yamlNodeToDataNode", "node.go:scalarNodeToDataNode"]}
{"id": "C54", "title": "The `value` key decides the form of an example", "statement": "A mapping with a `value` key is read as a detailed example with that value; any other node is the example value itself.", "quantifier": "every YAML node", "why_tests_cant": "nodes are unbounded", "anchors": ["example.go:RAML.makeExample"]}
{"id": "C55", "title": "Fragment head identification", "statement": "The head is the first line with trailing spaces and line ends removed; it identifies a Library, DataType or NamedExample fragment iff it equals the corresponding header, for any content after the first line.", "quantifier": "every file content", "why_tests_cant": "contents are unbounded", "anchors": ["parse.go:ReadHead", "parse.go:IdentifyFragment"]}
{"id": "C56", "title": "Conversion to JSON Schema succeeds on unwrapped types", "statement": "Converting an unwrapped type whose components end, with a schema wrapper set, terminates and returns a schema; a type that is not unwrapped is refused with an error.", "quantifier": "every type graph and every wrapper", "why_tests_cant": "type graphs are unbounded and recursive", "anchors": ["jsonschemaconv.go:JSONSchemaConverter.Convert", "jsonschemaconv.go:JSONSchemaConverter.Visit"]}
{"id": "C57", "title": "A converter created without options works", "statement": "A converter created without the wrapper option converts types. (Violated: creation succeeds, and every conversion of an unwrapped type panics.)", "quantifier": "every type", "why_tests_cant": "must hold for every type", "anchors": ["jsonschemaconv.go:NewJSONSchemaConverter", "jsonschemaconv.go:WithWrapper"]}
{"id": "C58", "title": "Parsing resolves every type", "statement": "After a successful parse every type, declared or anonymous, has a shape whose kind is the one its Type says, and that kind is a built-in one: no unresolved reference is left anywhere.", "quantifier": "every set of files and every successful parse", "why_tests_cant": "files and type graphs are unbounded", "anchors": ["parse.go:RAML.parseFragment", "resolve.go:RAML.resolveShapes", "resolve.go:RAML.resolveShape"]}
{"id": "C59", "title": "A parsed model has no dangling pointers and no shared IDs", "statement": "After a successful parse every type that is referred to (property, item, union member, parent, alias, declared type, included data type) exists, and no two types have the same ID.", "quantifier": "every set of files and every successful parse", "why_tests_cant": "files and type graphs are unbounded", "anchors": ["parse.go:RAML.parseFragment", "shape.go:RAML.makeNewShapeYAML", "resolve.go:RAML.resolveShapes"]}
{"id": "C60", "title": "Annotations are linked to what they name", "statement": "After a successful parse every annotation is linked to the annotation type that its name denotes in the file it stands in, and that type is resolved.", "quantifier": "every set of files and every successful parse", "why_tests_cant": "files are unbounded", "anchors": ["resolve.go:RAML.resolveDomainExtensions", "resolve.go:RAML.resolveDomainExtension"]}
{"id": "C61", "title": "Unwrapping a whole model does not panic and keeps its outline", "statement": "Calling UnwrapShapes on a successfully parsed model never panics if no enum holds a list or a map, and otherwise only with Go's panic on comparing them; whether it succeeds or fails, the model has no dangling pointer and no unresolved type afterwards, the same fragments declare the same names in the same order, and the annotations keep their names, values and places.", "quantifier": "every set of files, every successful parse, every order in which the fragments are visited", "why_tests_cant": "files, type graphs and map iteration orders are unbounded", "anchors": ["unwrap.go:RAML.UnwrapShapes", "unwrap.go:RAML.unwrapFragments", "unwrap.go:RAML.unwrapDomainExtensions", "parse.go:OptWithUnwrap"]}
{"id": "C62", "title": "After unwrapping, declared types are finite", "statement": "After a successful UnwrapShapes every declared type is unwrapped, all its components are unwrapped and no chain of components is infinite, so that the model can be walked without a check for cycles. (Violated for types left marked as visited; and an annotation may lose its type.)", "quantifier": "every set of files, every successful parse, every order in which the fragments are visited", "why_tests_cant": "needs specific combinations of unions, several parents and recursion", "anchors": ["unwrap.go:RAML.UnwrapShapes", "unwrap.go:RAML.FindAndMarkRecursion", "unwrap.go:RAML.markShapeRecursions"]}
{"id": "C63", "title": "A parsed model says what its files say", "statement": "After a successful parse every library declares exactly the types and annotation types of its file, in order, the last of several entries with one key deciding; every type has the display name, description, required flag, default, example, examples, annotations, custom facets, facet definitions and built-in facets that its declaration gives and no others; properties are required unless their key ends in a question mark or their type says otherwise; data types and named examples are what their files say.", "quantifier": "every set of files, every successful parse, every declaration at every depth", "why_tests_cant": "files and declarations are unbounded, and later steps of a parse (resolution, decoding of other files) work on the same data", "anchors": ["shape.go:BaseShape.decode", "shape.go:RAML.makeNewShapeYAML", "shape.go:RAML.MakeConcreteShapeYAML", "fragment.go:Library.UnmarshalYAML", "fragment.go:DataType.UnmarshalYAML", "complex.go:ObjectShape.unmarshalYAMLNodes", "scalars.go:StringShape.unmarshalYAMLNodes", "resolve.go:RAML.resolveShape"]}
{"id": "C64", "title": "Parsing does not panic", "statement": "ParseFromPath never panics, whatever the files are: it returns a model or an error. (Violated by the code for an empty list of parents, the type name composite, facets or uses given as a list, an empty document, a file asked for as two kinds of fragment, and a library that could not be loaded; for all other files it holds.)", "quantifier": "every set of files and every entry file", "why_tests_cant": "files are unbounded, and a panic needs a specific combination of declarations", "anchors": ["parse.go:RAML.ParseFromPath", "shape.go:BaseShape.decode", "shape.go:RAML.makeNewShapeYAML", "fragment.go:Library.UnmarshalYAML", "resolve.go:RAML.resolveShapes", "resolve.go:RAML.resolveMultipleInheritance", "rdt_visitor.go:RdtVisitor.VisitReference"]}
{"id": "C65", "title": "Validation does not change the model", "statement": "ValidateShapes leaves the model as it was, whether it reports an error or not and however often it is called: fragments, libraries, annotations and every type with all its properties, members and facets stay the same, every type accepts the values it accepted before, and a further call gives the same verdict. (The list returned by GetShapes is the exception: unwrapped copies are appended to it.)", "quantifier": "every parsed model, every number of calls, every order in which the fragments are visited", "why_tests_cant": "types share their parents, properties and members, and copies are made and unwrapped among them during validation; histories of calls are unbounded", "anchors": ["validate.go:RAML.ValidateShapes", "validate.go:RAML.validateTypes", "validate.go:RAML.validateDomainExtensions", "shape.go:BaseShape.CloneDetached", "unwrap.go:RAML.UnwrapShape", "unwrap.go:RAML.FindAndMarkRecursion"]}
{"id": "C66", "title": "Inherited restrictions add up", "statement": "After parsing and unwrapping, a declared scalar type accepts exactly the values that every declaration of its line accepts: its own and those of the types it is built on through a single parent, an include or an alias, over any number of files. No restriction of an ancestor is lost and none is added. (Provisos: at most one declaration of the line has a pattern, since a pattern replaces the inherited one; an alias of a boolean type loses the enum; the types define no custom facets; none of them is the first of several parents of a type, or left marked as visited by unwrapping.)", "quantifier": "every set of files, every successful parse and unwrap, every declared scalar type, every value", "why_tests_cant": "lines of inheritance are unbounded and unwrapping visits types in map order, copying types that are used in several places", "anchors": ["unwrap.go:RAML.UnwrapShapes", "unwrap.go:RAML.UnwrapShape", "shape.go:BaseShape.Inherit", "shape.go:BaseShape.AliasTo", "scalars.go:StringShape.inherit", "scalars.go:IntegerShape.inherit", "scalars.go:NumberShape.inherit", "scalars.go:FileShape.inherit"]}
{"id": "C67", "title": "Types of a parsed model share no parts", "statement": "However files refer to each other and however often a type is used, the types of a parsed model do not share their parts: no items type, union member, property type or pattern property type is part of two types or of one type twice, none of them is itself a declared type, a parent or the target of an alias, and no two types have the same map of properties, pattern properties or facet definitions. So a change to a part of one type through the API does not show in another. (This holds until unwrapping, which lets a child hold the properties of its parent.)", "quantifier": "every set of files, every entry file, parsing that succeeds or fails", "why_tests_cant": "files are unbounded and a type can be used in any number of places; sharing does not show in the values a test compares", "anchors": ["shape.go:RAML.makeNewShapeYAML", "shape.go:RAML.MakeNewShape", "complex.go:ArrayShape.unmarshalYAMLNodes", "complex.go:ObjectShape.unmarshalYAMLNodes", "rdt_visitor.go:RdtVisitor.VisitUnion", "rdt_visitor.go:RdtVisitor.VisitReference", "resolve.go:RAML.resolveShape"]}
{"id": "C68", "title": "Other files do not matter", "statement": "A parse that succeeds is determined by the files it reads: if more files are added to the file system, parsing the same path (or the same text with ParseFromString) gives the same result and the same model, with and without the options to unwrap and validate. A text that parses with ParseFromString while it is not saved parses to the same model with ParseFromPath once it is saved, even if the libraries it uses refer back to it. (An include of the unsaved text as a value is the exception: it reads what was saved last.)", "quantifier": "every pair of file systems of which one contains the other, every path, every text, all options", "why_tests_cant": "file systems are unbounded, and whether a file is read depends on the contents of the others", "anchors": ["parse.go:RAML.ParseFromPath", "parse.go:RAML.ParseFromString", "parse.go:RAML.parseFragment", "parse.go:RAML.parseLibrary", "parse.go:RAML.parseDataType", "node.go:RAML.makeIncludedNode"]}
{"id": "C69", "title": "Unwrapping keeps what types mean", "statement": "After parsing and unwrapping, every declared type, of any kind, accepts exactly the values that the declarations mean as they are written: an object type the objects that satisfy the bounds, properties, pattern properties and the additionalProperties rule of its own declaration and of those it is built on, an array type the arrays that satisfy all of them, a union the values of one of its members, a scalar type the values that satisfy all declarations, a recursive type the values that can be unrolled; components are read the same way. The order in which files and types are unwrapped does not matter. (For models without multiple inheritance in which no declaration repeats the items or a pattern of an ancestor, properties that a declaration repeats are of scalar types - both declarations count then -, no type defines custom facets, and recursive types are not built on others: where such a type refers to itself it loses the restrictions of its parents, and where it refers to itself by another name for it, values are checked or not depending on which of the two names is declared first.)", "quantifier": "every set of files, every successful parse and unwrap, every order of the fragments, every declared type, every value", "why_tests_cant": "models and values are unbounded, types refer to each other in cycles, and unwrapping copies and changes types in an order that depends on maps", "anchors": ["unwrap.go:RAML.UnwrapShapes", "unwrap.go:RAML.UnwrapShape", "unwrap.go:RAML.unwrapObjShape", "unwrap.go:RAML.unwrapArrayShape", "unwrap.go:RAML.unwrapUnionShape", "unwrap.go:RAML.FindAndMarkRecursion", "shape.go:BaseShape.Inherit", "shape.go:BaseShape.Validate", "complex.go:ObjectShape.inherit", "complex.go:ArrayShape.inherit", "complex.go:UnionShape.inherit"]}
{"id": "C70", "title": "A facet that is written is in force", "statement": "A facet written in a type declaration is in force for the declared type, or parsing with validation reports an error. (Violated by the code: facets next to a keyword in parentheses are dropped, facets next to a union or an optional type are dropped, known or not, and the items next to an array expression are replaced; no error is reported.)", "quantifier": "every declaration in every file", "why_tests_cant": "declarations are unbounded combinations of type expressions and facets, and a facet without effect shows only in values that it should have excluded", "anchors": ["rdt_visitor.go:RdtVisitor.VisitPrimitive", "rdt_visitor.go:RdtVisitor.VisitGroup", "rdt_visitor.go:RdtVisitor.VisitUnion", "rdt_visitor.go:RdtVisitor.VisitOptional", "rdt_visitor.go:RdtVisitor.VisitArray", "complex.go:UnionShape.unmarshalYAMLNodes"]}
{"id": "C71", "title": "Deep copies of schemas are independent", "statement": "DeepCopy of a JSON schema (plain or with RAML extensions) returns, for every finite schema, an equal schema, changes no existing object, and shares no object with the original except the targets of number and boolean pointers and slices and maps without entries; so editing anything else in one of the two leaves the other as it was. (The exceptions are real: a number written through the copy's MaxProperties, or an entry put into the copy's empty Properties map, appears in the original.)", "quantifier": "every schema in every memory, every later sequence of writes", "why_tests_cant": "sharing shows only after a later write to the right object, and schemas are unbounded trees of pointers, slices and maps", "anchors": ["schema.go:JSONSchemaGeneric.ShallowCopy", "schema.go:JSONSchemaGeneric.DeepCopy", "schema.go:JSONSchema.DeepCopy", "schema.go:JSONSchemaRAML.DeepCopy"]}
{"id": "C72", "title": "Errors of the YAML decoder keep their messages", "statement": "FixYamlError leaves an error without a YAML type error in its tree as it is, and turns any other into a plain error with the messages of a type error from the tree, all of them in order; applying it twice is applying it once. (The text that wrapped the type error is always lost, although the code is written to keep it, and so are further type errors.)", "quantifier": "every tree of wrapped and joined errors", "why_tests_cant": "errors nest without bound, and the branch that should keep the context is never reached", "anchors": ["stacktrace.go:GetYamlError", "stacktrace.go:FixYamlError"]}
{"id": "C73", "title": "The schema means what the files say", "statement": "After parsing and unwrapping, a declared type converts to a JSON schema, and the schema accepts exactly the values that the declarations in the files mean as they are written, with all the restrictions of the types they are built on, across files and through recursion. (Under the provisos of the properties on unwrapping and on conversion.)", "quantifier": "every set of files, every successful parse and unwrap, every declared type in the scope of conversion, every value of the common domain", "why_tests_cant": "the path from files to a schema goes through parsing, inheritance, copying, recursion marking and conversion, and each input of each stage is unbounded", "anchors": ["parse.go:RAML.ParseFromPath", "unwrap.go:RAML.UnwrapShapes", "jsonschemaconv.go:JSONSchemaConverter.Convert"]}
{"id": "C74", "title": "Hooks can stop a run but not falsify it", "statement": "Hooks that never fail leave every result of parsing, unwrapping and validation as it is without hooks. If a hook returns an error, the operation returns an error; so an operation that succeeds with hooks has the result and the model it has without them. A hook that rejects the declaration of a type keeps its library from being parsed, and if validation of an unwrapped model succeeds, the hooks of validation have been asked about every declared type and every component of one, at any depth, and have accepted it. (Violated by the code for hooks before inheritance: their error is dropped with the member of a union it is about, unwrapping succeeds, and the type has become another one.)", "quantifier": "every behaviour of hooks that look at the model without changing it, every set of files, all options, every model", "why_tests_cant": "hooks are arbitrary code called at any depth of recursive operations, and errors are collected, joined and dropped on the way up", "anchors": ["raml.go:RAML.callHooks", "shape.go:RAML.MakeConcreteShapeYAML", "shape.go:RAML.makeNewShapeYAML", "parse.go:RAML.parseDataType", "shape.go:BaseShape.Inherit", "shape.go:BaseShape.inheritUnionSource", "unwrap.go:RAML.UnwrapShape", "unwrap.go:RAML.FindAndMarkRecursion", "validate.go:RAML.ValidateShapes", "validate.go:RAML.validateShapeCommons"]}
{"id": "C75", "title": "A type that overrides a union narrows it", "statement": "When a scalar type inherits from a union of scalar types, the type that Inherit returns accepts only values of the union; if it is not the type that inherits, that one is left as it was; and the type that inherits either keeps its kind and type name or is a union and is named so. A property or items declaration that overrides one of a union type therefore accepts only values of the union. (The second part is violated by the code: if one member of the union is compatible, Inherit returns a new type with the limits of that member, and the caller drops it; the heir's property keeps only its own limits and accepts what the parent rejects.)", "quantifier": "every union of scalar types, every scalar type that inherits from it, every model, every value", "why_tests_cant": "unions and limits combine without bound, and the loss shows only in values that the parent's limits exclude", "anchors": ["shape.go:BaseShape.Inherit", "shape.go:BaseShape.inheritUnionSource", "complex.go:ObjectShape.inherit", "complex.go:ArrayShape.inherit"]}
{"id": "C76", "title": "Parsing ends", "statement": "Parsing a text or a file ends, with a result or an error, if no file includes itself, directly or through other files, and no type that has to be resolved on the way needs itself first, directly or through other types. (A type needs first what it includes, its parents, and what it refers to by name alone; arrays, unions and optional types need nothing first, and libraries may use each other in cycles.) Facets that a reference carries are decoded when it is resolved, and declare more types to resolve: that comes to an end too. If parsing does not end, one of the two reasons can be found.", "quantifier": "every text, every finite set of files", "why_tests_cant": "that a run does not end cannot be observed by a test; the list of types to resolve grows while it is worked off, and included files are decoded at any depth of it", "anchors": ["parse.go:RAML.parseFragment", "parse.go:RAML.ParseFromPath", "resolve.go:RAML.resolveShapes", "resolve.go:RAML.resolveShape", "rdt_visitor.go:RdtVisitor.VisitReference", "shape.go:RAML.MakeConcreteShapeYAML"]}
{"id": "C77", "title": "Types that are not built on others can be unwrapped", "statement": "If no type of the parsed files is built on another, UnwrapShapes ends, whatever the order of the fragments and however objects, arrays, unions and aliases refer to each other, and it ends without an error if the types of all annotations are declared in libraries that the model knows; the annotations still have types then. (With inheritance it need not: a type with two recursive parents that say the same makes unwrapping fail with the internal error 'shape is not unwrapped'.)", "quantifier": "every set of files, every successful parse without inheritance, every order of the fragments", "why_tests_cant": "types refer to each other in cycles of any length, and that a run ends cannot be observed by a test", "anchors": ["unwrap.go:RAML.UnwrapShapes", "unwrap.go:RAML.UnwrapShape", "unwrap.go:RAML.unwrapObjShape", "unwrap.go:RAML.unwrapArrayShape", "unwrap.go:RAML.unwrapUnionShape", "unwrap.go:RAML.FindAndMarkRecursion", "shape.go:BaseShape.AliasTo"]}
{"id": "C78", "title": "Without inheritance, unwrapping and validating give an answer", "statement": "If a file is parsed, no type of it or of the files it refers to is built on another, and no union contains itself as a member, then parsing the file with unwrapping and validation returns, does not panic, and succeeds exactly when the unwrapped model is valid: all examples, defaults and annotations have values of their types, and all types are consistent. This holds in whatever order fragments and facet declarations are visited, and for types that refer to each other in cycles. (A union that contains itself is parsed and unwrapped, but checking a default value against it never ends.)", "quantifier": "every set of files, every successful parse without inheritance, all orders of the fragments and of the facet declarations", "why_tests_cant": "types refer to each other in cycles of any length, so that validation ends rests on the marks that unwrapping leaves for every such cycle; that a run ends cannot be observed by a test", "anchors": ["parse.go:RAML.ParseFromPath", "parse.go:RAML.parseFragment", "unwrap.go:RAML.UnwrapShapes", "unwrap.go:RAML.FindAndMarkRecursion", "unwrap.go:RAML.unwrapDomainExtensions", "validate.go:RAML.ValidateShapes", "complex.go:UnionShape.validate"]}
{"id": "C79", "title": "Without unions and custom facets, unwrapping ends", "statement": "If no type of the parsed files is a union (A | B, or A?) and none declares custom facets, UnwrapShapes ends, however the types inherit from each other, from several parents or from themselves through their parts, and whatever fragments it is given in whatever order. It then returns, with success or an error, or panics because the elements of an enumeration cannot be compared; if they are scalars it returns. Parsing with unwrapping then ends once parsing does. UnwrapShape ends on every type of every model without unions, parsed or not, with or without custom facets. FindAndMarkRecursion ends on every type of every model without custom facets, unwrapped or not, with or without unions.", "quantifier": "every set of files, every parse without unions and custom facets, all lists of fragments; for UnwrapShape and FindAndMarkRecursion, every model", "why_tests_cant": "properties are merged while they are iterated over, and inheritance follows cycles of any length; that a run ends cannot be observed by a test", "anchors": ["unwrap.go:RAML.UnwrapShapes", "unwrap.go:RAML.UnwrapShape", "unwrap.go:RAML.unwrapParents", "unwrap.go:RAML.FindAndMarkRecursion", "shape.go:BaseShape.Inherit", "complex.go:ObjectShape.inherit", "parse.go:RAML.ParseFromPath"]}
{"id": "C80", "title": "No parsed type is built on itself", "statement": "If parsing succeeds, following any type of the model to a type it is built on - the type it is another name for, the type of the file it includes, or one of its parents - and on from there always comes to an end: no type is its own ancestor, also if types refer back to each other through their parts, and every ancestor of a type is a fully resolved type of the model. So a program that walks up the ancestry of a type terminates.", "quantifier": "every set of files, every successful parse, every type of the model, declared, anonymous or made for a reference, and every way upwards", "why_tests_cant": "types are resolved in an order that depends on which reference is met first, and resolution can be entered again for a type that is being resolved; chains of ancestors can have any length", "anchors": ["resolve.go:RAML.resolveShape", "resolve.go:RAML.resolveMultipleInheritance", "resolve.go:RAML.resolveLink", "rdt_visitor.go:RdtVisitor.VisitReference", "shape.go:RAML.MakeConcreteShapeYAML", "parse.go:RAML.ParseFromPath"]}
{"id": "C81", "title": "Without unions and custom facets, validation gives an answer", "statement": "If a file is parsed and no type of the model is a union (A | B, or A?) or declares custom facets, then after a successful UnwrapShapes all components of declared types are unwrapped, no chain of components and no chain of first parents is infinite, and only types that allow every value (any) are still marked as visited; and ValidateShapes then returns, does not panic, changes nothing, and reports no error exactly when the model is valid, unless an annotation has lost its type. So parsing with unwrapping and validation ends, and succeeds exactly when unwrapping does and its result is valid, however the types inherit from each other and refer to each other.", "quantifier": "every set of files, every successful parse without unions and custom facets, all orders of the fragments and of the facet declarations", "why_tests_cant": "inheritance changes lists of parents that types share while the types are unwrapped in an order that depends on references; an endless chain shows only as a run that does not end", "anchors": ["unwrap.go:RAML.UnwrapShapes", "unwrap.go:RAML.UnwrapShape", "unwrap.go:RAML.unwrapParents", "unwrap.go:RAML.FindAndMarkRecursion", "shape.go:BaseShape.Inherit", "validate.go:RAML.ValidateShapes", "validate.go:RAML.validateShapeFacets", "parse.go:RAML.ParseFromPath"]}
{"id": "C82", "title": "Without unions, a declared name keeps its type, unless a parent allows every value", "statement": "If a file is parsed and no type of the model is a union, then a successful UnwrapShapes leaves what each type says of itself alone: name, display name, description if it has one, type expression, example, examples, default, required, annotations and location of each type that is not just another name for a type are what they were. Every library declares the same names, and each name of a type or annotation type leads to the type it led to before, or to an ancestor of that type that allows every value (any); so does the type of each data type file. A name whose type has no such ancestor keeps its type. But of two types whose parent allows every value, the second is lost: its name leads to the parent, and errors in it go unreported.", "quantifier": "every set of files, every successful parse without unions, all orders of the fragments, every library, name and type", "why_tests_cant": "which types are replaced depends on the order in which types are unwrapped and on flags that earlier types leave; that nothing else is replaced or overwritten is a claim about every graph of types", "anchors": ["unwrap.go:RAML.UnwrapShapes", "unwrap.go:RAML.UnwrapShape", "unwrap.go:RAML.unwrapTypes", "unwrap.go:RAML.unwrapParents", "shape.go:BaseShape.Inherit", "shape.go:BaseShape.AliasTo", "complex.go:ObjectShape.inherit"]}
{"id": "C83", "title": "Shallow copies of schemas share the schemas inside", "statement": "ShallowCopy of a schema, plain or with RAML extensions, returns the same schema and changes nothing. Assigning fields of the copy, or changing its annotations, facet data or list of facet definitions, leaves the original as it was, and assigning fields of the original leaves the copy as it was. Everything else belongs to both: whatever is changed inside, in a definition, a property or an item schema, a list or a number behind a pointer, the copy and the original remain the same schema.", "quantifier": "every finite schema in memory, with any sharing inside, and every later change of objects", "why_tests_cant": "what two structures share cannot be observed by comparing them; it shows only in later changes, and there are arbitrarily many objects to change", "anchors": ["schema.go:JSONSchemaGeneric.ShallowCopy", "schema.go:JSONSchema.ShallowCopy", "schema.go:JSONSchemaRAML.ShallowCopy"]}
{"id": "C84", "title": "Several calls on one object", "statement": "ParseFromPath can be called several times on one object. Whatever calls were made and however they ended, the types share no parts, UnwrapShapes ends if there are no unions and custom facets, and a call that succeeds leaves no type unresolved and no annotation without its type. A call that cannot open the file or finds no fragment head leaves the object unchanged. If all calls succeed, each for a file that the object does not have yet, the object is as after a single parse: every type is resolved, well-formed and with its own ID, every annotation is linked to the type it names, no type is built on itself, every library and data type is what its file says, and each call leaves what the object had before as it was; UnwrapShapes then panics at most on enums with lists or maps, leaves declared names and annotations, without unions also what the names lead to and what types say of themselves, and after it, without unions and custom facets, ValidateShapes gives the right answer. Not so otherwise: after a failed call the same call can succeed, a file that uses a library with an error can be parsed without one, or calls for files without errors fail; and a call for a file that the object already has makes a second library the entry point, which GetFragment does not give for the path and whose types UnwrapShapes leaves out; and with OptWithUnwrap a file that is parsed without an error on a new object can fail after a library that it uses has been unwrapped.", "quantifier": "every file system and every sequence of calls on one object, of any length", "why_tests_cant": "the effect of a call depends on the whole history of calls before it, of which there are unboundedly many; tests use a fresh object", "anchors": ["parse.go:RAML.ParseFromPath", "parse.go:RAML.parseFragment", "parse.go:RAML.decodeLibrary", "raml.go:RAML.PutFragment", "resolve.go:RAML.resolveShapes", "resolve.go:RAML.resolveDomainExtensions"]}
{"id": "C85", "title": "Unwrapping a model again", "statement": "If files have been parsed on one object, each call with success and for a new file, and UnwrapShapes has succeeded, then a second UnwrapShapes returns, does not panic, and leaves every type and everything it consists of, every file and what it declares, and every annotation's name, value and place as they were, in whatever order either call visits the fragments, if no annotation lost its type in the first call; and it succeeds if the file where each annotation's type is declared has annotation types. Not so otherwise: the second call empties the list of types, so that GetShapes returns none of the types that were in the model; and if an annotation has lost its type in the first call, without an error, the second one panics.", "quantifier": "every file system, every sequence of successful calls on one object, all orders of the fragments in both calls", "why_tests_cant": "whether anything is left to do depends on the marks the first call leaves on every type of every, possibly cyclic, graph of types, and that the second call ends cannot be observed by a test", "anchors": ["unwrap.go:RAML.UnwrapShapes", "unwrap.go:RAML.UnwrapShape", "unwrap.go:RAML.markShapeRecursions", "unwrap.go:RAML.FindAndMarkRecursion", "unwrap.go:RAML.unwrapDomainExtensions", "raml.go:RAML.GetShapes"]}
{"id": "C86", "title": "Names, locations and annotation types after unwrapping", "statement": "UnwrapShapes, UnwrapShape, FindAndMarkRecursion and ValidateShapes keep the name and the location of every type, and so do ParseFromPath and ParseFromString with any options for the types there were before the call, from any state and however they end. If files have been parsed on one object, each call with success and for a new file, and UnwrapShapes succeeds, then the type of every annotation is one that a file of the model declared as an annotation type, at the location of that file and with the name it had, or nil; if none is nil, a second UnwrapShapes succeeds and leaves the model as it was. If there are no unions and no annotation type has an ancestor that allows every value, all annotations are as they were. Otherwise an annotation need not have the annotation type that it names: if two annotation types are derived from a type that allows every value, an annotation of a third one, with the name of that type, gets one of the two.", "quantifier": "every state of the types in memory, all outcomes; for annotations every file system, every sequence of successful calls on one object, all orders of the fragments", "why_tests_cant": "types are replaced, aliased and copied during unwrapping, and the table of annotation types is filled under the names of the results, in an order and with collisions that depend on the whole model", "anchors": ["unwrap.go:RAML.UnwrapShapes", "unwrap.go:RAML.unwrapTypes", "unwrap.go:RAML.unwrapDomainExtensions", "raml.go:RAML.PutAnnotationTypeIntoFragment", "raml.go:RAML.GetAnnotationTypeFromFragmentPtr"]}
{"id": "C87", "title": "Registered fragments stay", "statement": "A call of ParseFromPath or ParseFromString, with any options, on an object in any state and however it ends, neither removes nor replaces a fragment that GetFragment returned for a path before the call: afterwards GetFragment returns the same fragment for that path. UnwrapShapes and ValidateShapes leave all registered fragments as they are, from any state and however they end. After any calls of ParseFromPath, successful or not, no path has two fragments.", "quantifier": "every file system, every state of the object, every path and every outcome of the call", "why_tests_cant": "the call reads files that use and include one another in any way, and it may stop at any point of any of them", "anchors": ["parse.go:RAML.ParseFromPath", "raml.go:RAML.PutFragment", "raml.go:RAML.GetFragment", "parse.go:RAML.decodeLibrary", "parse.go:RAML.decodeDataType", "unwrap.go:RAML.UnwrapShapes", "validate.go:RAML.ValidateShapes"]}
