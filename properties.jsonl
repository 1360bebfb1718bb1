{"id": "C01", "title": "JSON pointer token round trip", "statement": "For every non-empty list of tokens (any strings, including '/', '~', '~0', '~1', empty tokens), printing JsonPointer.from_list(tokens) and parsing the text again gives exactly the same tokens.", "quantifier": "all non-empty lists of arbitrary strings", "why_tests_cant": "The domain is infinite; a test samples a handful of inputs. Escaping bugs (wrong replacement order) only show on tokens mixing '~' and '/'.", "anchors": ["jsoned/json_pointer.py: JsonPointer.__init__, __str__, from_list, escape, unescape"]}
{"id": "C02", "title": "JSON pointer acceptance grammar", "statement": "JsonPointer(text) succeeds exactly on RFC 6901 pointer syntax (empty, or starting with '/', with every '~' followed by '0' or '1'), raises ValueError on every other string, and its tokens are the '/'-separated pieces decoded left to right as RFC 6901 says.", "quantifier": "all strings", "why_tests_cant": "The domain is infinite; a test samples a handful of inputs.", "anchors": ["jsoned/json_pointer.py: JsonPointer.POINTER_REGEX, __init__, unescape"]}
{"id": "C03", "title": "JSON pointer text round trip", "statement": "For every accepted pointer text p other than the empty text, str(JsonPointer(p)) == p; for the empty text it is '/'.", "quantifier": "all accepted pointer texts", "why_tests_cant": "The domain is infinite; a test samples a handful of inputs.", "anchors": ["jsoned/json_pointer.py: JsonPointer.__init__, __str__"]}
{"id": "C04", "title": "Pointer text determines the pointer", "statement": "Two JsonPointer objects with different token lists never print as the same text.", "quantifier": "all pairs of token lists", "why_tests_cant": "Injectivity is a statement about all pairs.", "anchors": ["jsoned/json_pointer.py: JsonPointer.__str__"]}
{"id": "C05", "title": "Wrapped JSON data equals its source", "statement": "For every plain JSON value d (null, booleans, ints, NaN-free floats and Decimals, strings, lists and string-keyed dicts nested to any depth) wrapping it as a JsonObject/JsonArray/... succeeds and the wrapped value compares equal to d, in both operand orders, without raising.", "quantifier": "all finite JSON values of any depth", "why_tests_cant": "The domain is infinite; a test samples a handful of inputs.", "anchors": ["jsoned/types/json_complex.py: _map_value, JsonObject.__init__, JsonArray.__init__", "jsoned/types/json_type.py: JsonType.__eq__", "jsoned/types/json_number.py: JsonNumber.__eq__", "jsoned/types/json_boolean.py: JsonBoolean.__eq__"]}
{"id": "C06", "title": "node.path is the inverse of query", "statement": "For every document built from plain data and every node n reachable in it, schema.query(n.path) is n itself, except when n.path is the single empty token; and n.path lists exactly the keys and indices walked from the root.", "quantifier": "all documents and all nodes in them", "why_tests_cant": "Must hold for every tree shape and depth; the parent pointers are set during construction while the parent is only half built.", "anchors": ["jsoned/types/json_type.py: JsonType.path, root, is_root", "jsoned/types/json_complex.py: _map_value", "jsoned/json_core.py: JsonSchema.query"]}
{"id": "C07", "title": "JsonNumber comparisons form one total order", "statement": "Comparing JsonNumbers (with each other or with int/Decimal/float operands, floats taken at their printed value) agrees with comparing exact numeric values: exactly one of <, ==, > holds for finite numbers, <= and >= are their unions, and order is transitive.", "quantifier": "all finite numbers", "why_tests_cant": "The domain is infinite; a test samples a handful of inputs.", "anchors": ["jsoned/types/json_number.py: JsonNumber.__eq__, __lt__, __le__, __gt__, __ge__"]}
{"id": "C08", "title": "JsonObject behaves as a string-keyed map", "statement": "Under every sequence of item assignments, deletions, lookups, membership tests, len and keys calls, a JsonObject answers like an insertion-ordered map from string keys to wrapped values, deletion of a missing key being a silent no-op and lookup of a missing key raising KeyError.", "quantifier": "all operation sequences", "why_tests_cant": "Histories are unbounded.", "anchors": ["jsoned/types/json_complex.py: JsonObject"]}
{"id": "C09", "title": "Equality of wrapped values is total and symmetric", "statement": "a == b never raises for wrapped JSON values a and b, and equals b == a.", "quantifier": "all pairs of wrapped values", "why_tests_cant": "A statement about all pairs of values of any type.", "anchors": ["jsoned/types/json_type.py: JsonType.__eq__", "jsoned/types/json_number.py: JsonNumber.__eq__", "jsoned/types/json_boolean.py: JsonBoolean.__eq__"]}
{"id": "C10", "title": "query evaluates the pointer step by step", "statement": "On a document without references and anchors, query(pointer) returns the node found by following object keys and array indices from the root as RFC 6901 says, and raises KeyError/IndexError/ValueError when a step does not exist.", "quantifier": "all documents and all pointers", "why_tests_cant": "The domain is infinite; a test samples a handful of inputs.", "anchors": ["jsoned/json_core.py: JsonSchema.query"]}
{"id": "C11", "title": "Cached queries equal fresh queries", "statement": "Whatever queries were made before, on whatever schemas, query returns what a fresh evaluation on the same unmodified document would return.", "quantifier": "all histories of queries over all schema objects sharing the cache, including evictions", "why_tests_cant": "The cache is shared by all schemas, bounded and history dependent.", "anchors": ["jsoned/json_core.py: JsonSchema.query (lru_cache)"]}
{"id": "C12", "title": "A schema accepts exactly when each of its keywords accepts", "statement": "For an object schema, validate(v) returns normally iff every recognised keyword present in the schema accepts v; keywords absent from the vocabulary have no influence.", "quantifier": "all schemas, vocabularies without the items/prefixItems pair, and values", "why_tests_cant": "The domain is infinite; a test samples a handful of inputs.", "anchors": ["jsoned/json_core.py: LazyValidator, can_apply_keyword", "jsoned/validators/core_validators.py: CompoundValidator.validate"]}
{"id": "C13", "title": "Boolean subschemas", "statement": "In every position that takes a subschema through allOf/anyOf/oneOf/properties/items/dependentSchemas/patternProperties, true accepts everything and false rejects everything with a ValidationError.", "quantifier": "all values", "why_tests_cant": "The domain is infinite; a test samples a handful of inputs.", "anchors": ["jsoned/json_core.py: LazyValidator._load_validator", "jsoned/validators/core_validators.py: FailValidator"]}
{"id": "C14", "title": "type keyword", "statement": "validate(v) with {type: T} (a name or a list of names) returns normally iff the JSON type of v is among the names, where ints count as both integer and number, booleans only as boolean; otherwise a type_error ValidationError is raised. Unknown names make every validation raise SchemaParseError.", "quantifier": "all values and all lists of type names", "why_tests_cant": "The domain is infinite; a test samples a handful of inputs.", "anchors": ["jsoned/keywords/type_keyword.py: TypeKeyword.apply", "jsoned/validators/core_validators.py: TypeValidator"]}
{"id": "C15", "title": "enum keyword on scalars", "statement": "validate(v) with {enum: [...]} of scalar members returns normally iff v is equal to a member with booleans distinguished from numbers; otherwise an enum_error is raised.", "quantifier": "all scalar values and all lists of scalars", "why_tests_cant": "The domain is infinite; a test samples a handful of inputs.", "anchors": ["jsoned/validators/core_validators.py: EnumValidator", "jsoned/keywords/enum_keyword.py"]}
{"id": "C16", "title": "const keyword", "statement": "validate(v) with {const: c}, c scalar, returns normally iff v equals c with booleans distinguished from numbers; otherwise a const_error is raised.", "quantifier": "all values and scalar constants", "why_tests_cant": "The domain is infinite; a test samples a handful of inputs.", "anchors": ["jsoned/validators/core_validators.py: ConstValidator", "jsoned/keywords/const_keyword.py"]}
{"id": "C17", "title": "Numeric bounds", "statement": "For every finite number v, {minimum: m}/{maximum: m} accept iff v>=m / v<=m, the numeric exclusiveMinimum/exclusiveMaximum accept iff v>m / v<m, and the boolean draft-4 form exclusiveX: true turns the bound strict while exclusiveX: false leaves it.", "quantifier": "all finite numbers and bounds", "why_tests_cant": "The domain is infinite; a test samples a handful of inputs.", "anchors": ["jsoned/validators/number_validators.py", "jsoned/keywords/minimum_keyword.py", "jsoned/keywords/maximum_keyword.py", "jsoned/keywords/exclusive_minimum_keyword.py", "jsoned/keywords/exclusive_maximum_keyword.py"]}
{"id": "C18", "title": "multipleOf", "statement": "For every finite number v and every m != 0 with |v/m| < 10^28, {multipleOf: m} accepts iff v (a float taken at its printed decimal value) is an exact integer multiple of m.", "quantifier": "all finite numbers", "why_tests_cant": "The domain is infinite; a test samples a handful of inputs. Float rounding makes sampled tests pass on neighbours of failing values.", "anchors": ["jsoned/validators/number_validators.py: NumberMultipleOfValidator", "jsoned/keywords/multiple_of_keyword.py"]}
{"id": "C19", "title": "String length bounds", "statement": "For every string s, {minLength: n} accepts iff len(s)>=n and {maxLength: n} iff len(s)<=n, non-integer limits being truncated towards zero.", "quantifier": "all strings and limits", "why_tests_cant": "The domain is infinite; a test samples a handful of inputs.", "anchors": ["jsoned/validators/string_validators.py", "jsoned/keywords/min_length_keyword.py", "jsoned/keywords/max_length_keyword.py", "jsoned/types/json_number.py: __int__"]}
{"id": "C20", "title": "Array and object size bounds", "statement": "For every list v, minItems/maxItems compare len(v) with the limit; for every dict v, minProperties/maxProperties compare the number of keys; with the matching error code otherwise.", "quantifier": "all lists, dicts and limits", "why_tests_cant": "The domain is infinite; a test samples a handful of inputs.", "anchors": ["jsoned/validators/array_validators.py", "jsoned/validators/object_validators.py"]}
{"id": "C21", "title": "uniqueItems", "statement": "For every list of scalars, {uniqueItems: true} accepts iff no two items are equal in the sense of Python equality; {uniqueItems: false} accepts everything.", "quantifier": "all lists of scalars", "why_tests_cant": "The domain is infinite; a test samples a handful of inputs.", "anchors": ["jsoned/validators/array_validators.py: ArrayUniqueValidators", "jsoned/keywords/unique_items_keyword.py"]}
{"id": "C22", "title": "contains / minContains / maxContains", "statement": "For every list v, {contains: S} with limits accepts iff the number of items accepted by S is at least minContains (default 1) and at most maxContains when given.", "quantifier": "all lists, subschemas and limits", "why_tests_cant": "The domain is infinite; a test samples a handful of inputs.", "anchors": ["jsoned/validators/array_validators.py: ArrayContainsValidator", "jsoned/keywords/contains_keyword.py"]}
{"id": "C23", "title": "items and prefixItems", "statement": "For every list v at least as long as the prefix, the i-th prefix schema constrains exactly the i-th item and items/additionalItems constrains exactly the remaining ones; shorter lists are valid as far as they go.", "quantifier": "all lists and schemas", "why_tests_cant": "The domain is infinite; a test samples a handful of inputs.", "anchors": ["jsoned/validators/array_validators.py: ArrayValidator", "jsoned/keywords/items_keyword.py", "jsoned/keywords/prefix_items_keyword.py"]}
{"id": "C24", "title": "properties / patternProperties / additionalProperties partition", "statement": "For every object, a member named in properties is validated by that schema, any other member by every patternProperties schema whose regex is found in its name, and a member matched by neither by additionalProperties; the object is accepted iff all of these accept.", "quantifier": "all objects, schemas and patterns", "why_tests_cant": "The domain is infinite; a test samples a handful of inputs.", "anchors": ["jsoned/validators/object_validators.py: ObjectValidator", "jsoned/keywords/properties_keyword.py", "jsoned/keywords/pattern_properties_keyword.py", "jsoned/keywords/additional_properties_keyword.py", "jsoned/keywords/unevaluated_properties_keyword.py"]}
{"id": "C25", "title": "propertyNames", "statement": "For every object, {propertyNames: S} accepts iff S accepts every member name as a string.", "quantifier": "all objects and schemas", "why_tests_cant": "The domain is infinite; a test samples a handful of inputs.", "anchors": ["jsoned/validators/object_validators.py: ObjectValidator", "jsoned/keywords/property_names_keyword.py"]}
{"id": "C26", "title": "required", "statement": "For every object, {required: [...]} accepts iff every listed name is a member name; otherwise required_property_error names the first missing one.", "quantifier": "all objects and name lists", "why_tests_cant": "The domain is infinite; a test samples a handful of inputs.", "anchors": ["jsoned/validators/object_validators.py: RequiredPropertiesValidator", "jsoned/keywords/required_properties_keyword.py"]}
{"id": "C27", "title": "dependentRequired and dependentSchemas", "statement": "For every object, dependentRequired accepts iff each present trigger has all its listed members present; dependentSchemas accepts iff for each present trigger the whole object is accepted by the trigger's schema; both accept every non-object.", "quantifier": "all values and maps", "why_tests_cant": "The domain is infinite; a test samples a handful of inputs.", "anchors": ["jsoned/validators/object_validators.py: DependentRequiredValidator, DependentSchemasValidator"]}
{"id": "C28", "title": "allOf / anyOf / oneOf / not are the boolean connectives", "statement": "When subschemas only accept or reject (no other exception), allOf accepts iff all members accept, anyOf (non-empty) iff at least one, oneOf (non-empty) iff exactly one, not iff its schema rejects.", "quantifier": "all values and lists of subschemas", "why_tests_cant": "The domain is infinite; a test samples a handful of inputs.", "anchors": ["jsoned/validators/composition_validators.py"]}
{"id": "C29", "title": "if / then / else", "statement": "When the subschemas only accept or reject, {if, then, else} accepts v iff (if accepts v and then accepts v) or (if rejects v and else accepts v); an absent then or else counts as accepting; then/else without if are ignored.", "quantifier": "all values and subschemas, all orders of the three keywords in the vocabulary", "why_tests_cant": "The domain is infinite; a test samples a handful of inputs.", "anchors": ["jsoned/validators/composition_validators.py: ConditionalValidator", "jsoned/keywords/if_keyword.py", "jsoned/keywords/then_keyword.py", "jsoned/keywords/else_keyword.py"]}
{"id": "C30", "title": "Malformed keyword values are reported independently of the instance", "statement": "If a schema object has a keyword value of the wrong JSON type, then validating any value whatsoever raises SchemaParseError, never ValidationError and never success.", "quantifier": "all values, all keywords", "why_tests_cant": "The domain is infinite; a test samples a handful of inputs.", "anchors": ["jsoned/keywords/*.py: apply", "jsoned/errors/schema_parse_error.py"]}
{"id": "C31", "title": "Validation has no memory", "statement": "The outcome of schema.validate(v) is the same whatever values were validated before with the same schema object, whether they passed, failed or made the lazily built validators fail to load half-way.", "quantifier": "all histories of validations", "why_tests_cant": "Lazily loaded validators are mutable, cached state; only an induction over histories covers all interleavings of partial loads.", "anchors": ["jsoned/json_core.py: LazyValidator.validate, _load_validator, JsonSchema.validator"]}
{"id": "C32", "title": "Error path points at the offending location", "statement": "Whenever validate raises a ValidationError its path is the dotted path of a location of the instance at which a keyword failed.", "quantifier": "all schemas and instances of any depth", "why_tests_cant": "The domain is infinite; a test samples a handful of inputs.", "anchors": ["jsoned/validators/core_validators.py: Context", "jsoned/validators/array_validators.py", "jsoned/validators/object_validators.py"]}
{"id": "C33", "title": "Reporting an error never fails", "statement": "Constructing and printing a ValidationError never raises another exception, whatever the property names and values of the instance are.", "quantifier": "all property names and values", "why_tests_cant": "Only names with braces trigger it.", "anchors": ["jsoned/errors/validation_error.py: ValidationError.__init__, __str__"]}
{"id": "C34", "title": "Keyword order in the vocabulary is irrelevant", "statement": "Permuting the vocabulary does not change which instances a schema accepts.", "quantifier": "all permutations of all vocabularies, all schemas, all values", "why_tests_cant": "The number of orders is factorial.", "anchors": ["jsoned/json_core.py: LazyValidator._load_validator", "jsoned/keywords/*.py"]}
{"id": "C35", "title": "Validation terminates", "statement": "validate returns or raises for every reference-free schema and every value.", "quantifier": "all reference-free schemas and values", "why_tests_cant": "Non-termination cannot be observed by a test.", "anchors": ["jsoned/validators/array_validators.py: ArrayValidator.validate", "jsoned/json_core.py: LazyValidator"]}
{"id": "C36", "title": "Type-correct instances are judged exactly as JSON Schema says", "statement": "For every reference-free schema whose keyword values are well formed and every instance to which the keywords present apply by type, validate returns normally iff the instance satisfies the schema in the sense of the JSON Schema specification and otherwise raises a ValidationError, never another exception.", "quantifier": "all schemas and instances of any size and depth", "why_tests_cant": "The domain is infinite; a test samples a handful of inputs.", "anchors": ["jsoned/json_core.py: LazyValidator", "jsoned/keywords/*.py", "jsoned/validators/*.py"]}
{"id": "C37", "title": "A literal satisfies its own bound", "statement": "Every number accepted in a schema satisfies const, enum, minimum and maximum with the very same literal.", "quantifier": "all numbers", "why_tests_cant": "Only floats that are not exact decimals fail, and a test with 0.5 passes.", "anchors": ["jsoned/types/json_number.py: JsonNumber.__init__", "jsoned/validators/number_validators.py", "jsoned/validators/core_validators.py"]}
{"id": "C38", "title": "The draft 2020-12 vocabulary contains every implemented keyword", "statement": "Every keyword class exported by jsoned.keywords is a member of DRAFT_2020_12_VOCABULARY, so that no implemented keyword is silently ignored.", "quantifier": "all exported keywords", "why_tests_cant": "A finite table, but silently ignored keywords make tests pass for the wrong reason.", "anchors": ["jsoned/vocabulary.py", "jsoned/keywords/__init__.py"]}
{"id": "C39", "title": "A reference shows its target", "statement": "For every document in which a $ref resolves to an object, the reference node's members are the target's members together with its own other members that the target does not define, and validating through the reference is validating that merged schema.", "quantifier": "all documents, targets and values", "why_tests_cant": "The domain is infinite; a test samples a handful of inputs.", "anchors": ["jsoned/keywords/ref_keyword.py: JsonReference, RefKeyword"]}
{"id": "C40", "title": "References are resolved wherever they occur", "statement": "A {$ref: ...} object is resolved in every schema position, including inside arrays such as allOf.", "quantifier": "all positions in all documents", "why_tests_cant": "The domain is infinite; a test samples a handful of inputs.", "anchors": ["jsoned/json_core.py: JsonSchema._process_node", "jsoned/keywords/ref_keyword.py"]}
{"id": "C41", "title": "Anchors", "statement": "After loading, for every object carrying $anchor: a outside arrays, query('/a') returns that object without its $anchor member, the last one in document order winning.", "quantifier": "all documents", "why_tests_cant": "The domain is infinite; a test samples a handful of inputs.", "anchors": ["jsoned/keywords/anchor_keyword.py", "jsoned/json_core.py: JsonSchema.query, _process_node"]}
{"id": "C42", "title": "Loading is idempotent", "statement": "Loading a schema a second time, or reading its value any number of times, changes neither the document, nor its anchors, nor the store.", "quantifier": "all documents and histories", "why_tests_cant": "Histories are unbounded.", "anchors": ["jsoned/json_core.py: JsonSchema.load, value"]}
{"id": "C43", "title": "Documents without core keywords are left unchanged by loading", "statement": "If no object outside arrays carries $ref, $anchor, $id or id, loading leaves the document exactly as built and registers nothing.", "quantifier": "all documents", "why_tests_cant": "The domain is infinite; a test samples a handful of inputs.", "anchors": ["jsoned/json_core.py: JsonSchema._process_node, can_apply_keyword"]}
{"id": "C44", "title": "A property named id is an ordinary property", "statement": "A schema describing an object member called 'id' can be loaded.", "quantifier": "all schemas", "why_tests_cant": "The domain is infinite; a test samples a handful of inputs.", "anchors": ["jsoned/keywords/id_keyword.py: IdKeyword.key, apply"]}
{"id": "C45", "title": "Circular references end", "statement": "Querying or validating through references returns or raises for every document.", "quantifier": "all reference graphs", "why_tests_cant": "Cycles can have any length.", "anchors": ["jsoned/keywords/ref_keyword.py: JsonReference.type, fragment"]}
{"id": "C46", "title": "JsonStore is a map keyed by base URI", "statement": "Under every sequence of add, get, contains and load calls, the store answers like a finite map from base URI text (fragment and query removed) to documents; add replaces; add of a relative URI raises ValueError and changes nothing.", "quantifier": "all operation histories", "why_tests_cant": "Histories are unbounded.", "anchors": ["jsoned/json_store.py: JsonStore"]}
{"id": "C47", "title": "Each document is loaded at most once", "statement": "Over every history, the loader is called successfully at most once per base URI, later loads return the same document object, and a failing load leaves the store unchanged, a missing file surfacing as JsonLoadError.", "quantifier": "all histories and loader behaviours, including failures at any point", "why_tests_cant": "Failures can be interleaved anywhere.", "anchors": ["jsoned/json_store.py: JsonStore.load, load_uri", "jsoned/errors/json_load_error.py"]}
{"id": "C48", "title": "URI print/parse round trip", "statement": "For every URI text with a scheme and '//' authority (or with neither scheme nor authority), printing a parsed URI and parsing it again gives an equal URI.", "quantifier": "all URI texts", "why_tests_cant": "The domain is infinite; a test samples a handful of inputs.", "anchors": ["jsoned/uri.py: Uri.__init__, __str__, __eq__", "jsoned/uri.py: Authority"]}
{"id": "C49", "title": "Normalisation is idempotent and copy_with() is the identity", "statement": "copy_with() without arguments returns an equal URI, base_uri is idempotent and drops exactly query and fragment.", "quantifier": "all URIs", "why_tests_cant": "The domain is infinite; a test samples a handful of inputs.", "anchors": ["jsoned/uri.py: Uri.copy_with, base_uri, Uri.__init__"]}
{"id": "C50", "title": "URI resolution", "statement": "base.resolve(u) returns u itself when u is absolute; for an empty path it keeps base's path and takes u's fragment; for an absolute path it replaces the path; otherwise it replaces the last path segment; the result path of a base with scheme never contains '.' or '..' segments.", "quantifier": "all base and reference URIs", "why_tests_cant": "The domain is infinite; a test samples a handful of inputs.", "anchors": ["jsoned/uri.py: Uri.resolve"]}
{"id": "C51", "title": "Equal URIs hash equally and print equally", "statement": "If two Uri objects compare equal then their hashes and texts are equal, and comparison is an equivalence relation.", "quantifier": "all pairs and triples of URIs", "why_tests_cant": "A statement about all pairs.", "anchors": ["jsoned/uri.py: Uri.__eq__, __hash__, __str__"]}
{"id": "C52", "title": "Mapped URIs stay below the mapped directory", "statement": "MappableUriResolver.resolve of a URI covered by a mapping returns a path inside the mapped directory, the first registered matching prefix deciding.", "quantifier": "all mappings and URIs", "why_tests_cant": "Traversal needs adversarial URIs.", "anchors": ["jsoned/uri_resolver.py: MappableUriResolver.resolve"]}
{"id": "C53", "title": "Scheme resolvers are honoured", "statement": "DefaultLoader.resolve returns what the resolver currently registered for the URI's scheme returns, or the path for scheme-less and file URIs, and raises ValueError otherwise.", "quantifier": "all histories of register and resolve calls", "why_tests_cant": "The result is cached; histories are unbounded.", "anchors": ["jsoned/uri_loader.py: DefaultLoader.register, resolve"]}
{"id": "C54", "title": "ISO date parsing", "statement": "parse_iso_date(s) succeeds iff s is YYYY-MM-DD with each dash optional (and an optional final newline) naming a real calendar date, and then returns that date; in particular it inverts the ISO printing of every date of years 1..9999; otherwise it raises ValueError.", "quantifier": "all strings, all dates", "why_tests_cant": "The domain is infinite; a test samples a handful of inputs.", "anchors": ["jsoned/iso_datetime.py: parse_iso_date, ISO_8601_DATE_REGEX"]}
{"id": "C55", "title": "ISO date-time parsing", "statement": "parse_iso_datetime returns the date, time and offset written in the string, and raises ValueError for every other string.", "quantifier": "all strings", "why_tests_cant": "The domain is infinite; a test samples a handful of inputs.", "anchors": ["jsoned/iso_datetime.py: parse_iso_datetime, ISO_8601_DATETIME_REGEX"]}
{"id": "C56", "title": "ISO time parsing", "statement": "parse_iso_time returns the time, fraction and offset written in the string, and raises ValueError for every other string.", "quantifier": "all strings", "why_tests_cant": "The domain is infinite; a test samples a handful of inputs.", "anchors": ["jsoned/iso_datetime.py: parse_iso_time, ISO_8601_TIME_REGEX"]}
{"id": "C57", "title": "ISO duration round trip", "statement": "For every timedelta of whole seconds, parse_iso_duration(timedelta_to_iso_duration(d)) == d.", "quantifier": "all whole-second durations", "why_tests_cant": "The domain is infinite; a test samples a handful of inputs. Carry and sign errors hide at unit boundaries.", "anchors": ["jsoned/iso_datetime.py: parse_iso_duration, timedelta_to_iso_duration"]}
{"id": "C58", "title": "Format checkers only answer yes or no", "statement": "StringFormat checkers never raise on a string: {format: f} either accepts or raises format_error.", "quantifier": "all strings and all built-in formats", "why_tests_cant": "The domain is infinite; a test samples a handful of inputs.", "anchors": ["jsoned/validators/format_validators.py", "jsoned/string_format.py", "jsoned/validators/string_validators.py: StringFormatValidator"]}
{"id": "C59", "title": "IPv4 format", "statement": "The ip-address-v4 format accepts a string iff it is four dot-separated decimal numbers 0..255 without leading zeros.", "quantifier": "all strings", "why_tests_cant": "The domain is infinite; a test samples a handful of inputs.", "anchors": ["jsoned/validators/format_validators.py: validate_format_ip_address_v4"]}
{"id": "C60", "title": "Anchored formats accept exactly the described language", "statement": "hostname, email and semver accept exactly the strings of their grammar.", "quantifier": "all strings", "why_tests_cant": "The domain is infinite; a test samples a handful of inputs. Python's '$' also matches before a final newline.", "anchors": ["jsoned/validators/format_validators.py: HOSTNAME_REGEX, EMAIL_REGEX, SEMVER_REGEX"]}
{"id": "C61", "title": "Format registry", "statement": "Under every history of registrations, a registered format is used by {format: name}; the latest registration wins; an unregistered name makes every validation raise SchemaParseError.", "quantifier": "all histories", "why_tests_cant": "Histories are unbounded.", "anchors": ["jsoned/string_format.py: _StringFormat", "jsoned/keywords/format_keyword.py"]}
{"id": "C62", "title": "ISO duration parsing", "statement": "parse_iso_duration returns the signed sum of the written weeks, days, hours, minutes and seconds of every duration text, and raises ValueError for every other string.", "quantifier": "all strings", "why_tests_cant": "The domain is infinite; a test samples a handful of inputs. Optional groups and the look-ahead interact.", "anchors": ["jsoned/iso_datetime.py: ISO_8601_TIME_DURATION_REGEX, parse_iso_duration"]}
{"id": "C63", "title": "uri and url formats", "statement": "The uri format accepts exactly a scheme, a colon and characters without white space; the url format accepts exactly http, https and ftp URLs whose host is a dotted name or a public IPv4 address, and never one whose host is a private IPv4 address.", "quantifier": "all strings", "why_tests_cant": "The domain is infinite; a test samples a handful of inputs. The pattern has five look-aheads and several overlapping repetitions, so which part of a text plays which role depends on backtracking.", "anchors": ["jsoned/validators/format_validators.py: URI_REGEX, URL_REGEX"]}
{"id": "C64", "title": "A failed load can be tried again", "statement": "If load raises, calling load on the same schema again returns or raises.", "quantifier": "all documents and vocabularies, all states a failed load can leave", "why_tests_cant": "A failed load leaves a partly processed document; the number of such documents is unbounded.", "anchors": ["jsoned/json_core.py: JsonSchema.load, _process_node", "jsoned/keywords/ref_keyword.py: JsonReference.type"]}
{"id": "C65", "title": "Loaded documents are read as their data says", "statement": "Any number of documents that refer only to themselves load one after the other. Afterwards the type and members of every node, and query with every pointer, return what the data says, or raise the same exception, where an object with $ref outside arrays is a reference, an $anchor names its object and all else is itself; they end exactly when reading the data ends.", "quantifier": "all sequences of documents whose references are local, all nodes and pointers", "why_tests_cant": "Loading replaces and modifies objects that are shared between the tree, the anchors and the references; the shapes of documents are unbounded.", "anchors": ["jsoned/json_core.py: JsonSchema.load, query, _process_node", "jsoned/keywords/ref_keyword.py: JsonReference", "jsoned/keywords/anchor_keyword.py"]}
{"id": "C66", "title": "References mean what they stand for", "statement": "Write out the references of a schema, to any depth, by what they show: whatever the result decides about a value, acceptance or a ValidationError, the schema with the references decides in the same way and with the same error.", "quantifier": "all documents, also with references to themselves, all vocabularies, depths, schemas, values and contexts", "why_tests_cant": "A recursive schema has infinitely many unfoldings; no number of values or depths covers them, and the error text depends on the path on which the reference was reached.", "anchors": ["jsoned/keywords/ref_keyword.py: JsonReference", "jsoned/json_core.py: LazyValidator"]}
{"id": "C67", "title": "IPv6 and IP address formats", "statement": "The ip-address-v6 format accepts a string iff it is the text of an IPv6 address of RFC 4291 (eight groups of one to four hexadecimal digits, or fewer with :: once in place of the others, the last two possibly an IPv4 address), with or without % and a zone; ip-address accepts a string iff it is an IPv4 or IPv6 address.", "quantifier": "all strings", "why_tests_cant": "The places of ::, the number of groups on both sides and the IPv4 suffix interact; samples miss the borders.", "anchors": ["jsoned/validators/format_validators.py: validate_format_ip_address_v6, validate_format_ip_address", "jsoned/string_format.py"]}
{"id": "C68", "title": "Documents can refer to documents loaded before", "statement": "Documents that refer to themselves, and by identifier to objects of documents loaded before them, load one after the other. Afterwards the store has every document under its identifier, and types, members and queries return what the data says, where a reference leads into the document that has the identifier.", "quantifier": "all sequences of such documents, all nodes and pointers", "why_tests_cant": "Chains of references run through any number of documents; loading one document reads objects of others while its own are being replaced.", "anchors": ["jsoned/keywords/ref_keyword.py", "jsoned/keywords/id_keyword.py", "jsoned/json_store.py: load_uri, add", "jsoned/json_core.py: JsonSchema.load, query", "jsoned/uri.py: __bool__"]}
{"id": "C69", "title": "Loading does not depend on what has been loaded", "statement": "A document that loads also loads when other documents, or an equal one, have been loaded before.", "quantifier": "all documents and histories", "why_tests_cant": "Histories are unbounded, and the state of the referred documents decides what a reference looks like.", "anchors": ["jsoned/json_core.py: JsonSchema._process_node, can_apply_keyword", "jsoned/keywords/id_keyword.py", "jsoned/json_store.py: load_uri"]}
{"id": "C70", "title": "A document can refer to itself by its identifier", "statement": "A reference to a document's own $id leads to that document.", "quantifier": "all documents with an $id", "why_tests_cant": "It depends on the order in which the members of a document are processed, for every shape of document.", "anchors": ["jsoned/keywords/id_keyword.py", "jsoned/keywords/ref_keyword.py", "jsoned/json_core.py: JsonSchema._process_node"]}
{"id": "C71", "title": "An object with an identifier is a document of its own", "statement": "References inside an object with its own $id are read in that object; it can be read through its identifier; and the identifier keeps naming the same schema.", "quantifier": "all documents with embedded identifiers, all programs", "why_tests_cant": "The embedded object is processed twice, once as a part and once as a document; what is left in between depends on the whole history.", "anchors": ["jsoned/keywords/id_keyword.py", "jsoned/json_core.py: JsonSchema.load, _process_node", "jsoned/keywords/ref_keyword.py"]}
{"id": "C72", "title": "Schemas given as data judge values as their data says", "statement": "After creating and loading schemas from data that refers to itself and to schemas loaded before, validate(value) of each schema accepts exactly the values that satisfy, as JSON Schema says, the data in which references stand for what they refer to; it raises ValidationError for the others and modifies no schema.", "quantifier": "all schema documents with local references and references to documents loaded before, all values", "why_tests_cant": "The schema may describe itself, so that values of any depth are judged through the same objects; and the objects are modified while loading.", "anchors": ["jsoned/json_core.py: JsonSchema.load, validate", "jsoned/keywords/ref_keyword.py", "jsoned/validators/"]}
{"id": "C73", "title": "The format uuid accepts the UUIDs of RFC 4122", "statement": "{format: uuid} accepts a text iff it is five groups of 8, 4, 4, 4 and 12 hexadecimal digits joined by hyphens (also in braces or after urn:uuid:).", "quantifier": "all texts, all formats registries at start, all Unicode tables that agree with ASCII", "why_tests_cant": "The checker removes prefixes, braces and hyphens and then reads an integer in base 16, which has its own syntax; the accepted texts are not a short list.", "anchors": ["jsoned/validators/format_validators.py:230-235", "jsoned/string_format.py:46-65"]}
{"id": "C74", "title": "The format byte accepts base64", "statement": "{format: byte} accepts a text iff it is a base64 text: groups of four characters of the alphabet, the last filled up with one or two =.", "quantifier": "all texts", "why_tests_cant": "The decoder is a loop with a state over texts of any length; which texts pass depends on the count of certain characters modulo four at each place.", "anchors": ["jsoned/validators/format_validators.py:45-50"]}
{"id": "C75", "title": "The format decimal accepts decimal numerals", "statement": "{format: decimal} accepts a text iff it is a numeral: sign, digits with a point, exponent; it refuses all other texts.", "quantifier": "all texts", "why_tests_cant": "There are unboundedly many numerals and near misses; white space, underscores and foreign digits are handled before the syntax is looked at.", "anchors": ["jsoned/validators/format_validators.py:148-160"]}
{"id": "C76", "title": "Writing to wrapped data writes to the data", "statement": "object[key] = value, del, pop, popitem, clear, update and setdefault on a wrapped object, and array[i] = value and del array[i], change the data that holds it in exactly that place: the member is replaced where it stands or appended, removed, and everything else in the document and in all other documents stays as it was, in the same order. The value may be plain data or, if it does not contain the object, wrapped. array[a:b] is a new array of the elements between the ends.", "quantifier": "all programs before, all states reached, all objects at any depth, all keys and values", "why_tests_cant": "Objects are shared by reference between parents, references and schemas; that no other place changes is a statement about every other object in memory after every history.", "anchors": ["jsoned/types/json_complex.py:12-52", "jsoned/types/json_complex.py:55-81", "jsoned/types/json_complex.py:94-117"]}
{"id": "C77", "title": "Paths and roots stay right when data is written to", "statement": "After any sequence of loading and writing, the path of every object is the sequence of keys and indices by which it is reached from its root, and a path or root that was computed once stays right.", "quantifier": "all programs of calls and writes", "why_tests_cant": "path and root are cached properties on each object; whether a cached value can become wrong depends on every later operation on every ancestor.", "anchors": ["jsoned/types/json_type.py:46-55", "jsoned/types/json_type.py:96-101", "jsoned/types/json_complex.py:36-75"]}
{"id": "C78", "title": "A schema without $id gets an identifier of its own data", "statement": "A schema created from a dictionary gets an absolute local:// uri made from its data: two schemas have the same one exactly if their data are the same, whatever the order of the members, it stays the same for the life of the schema, and an identifier that was set is kept.", "quantifier": "all JSON documents, all histories of reads, writes and settings of the identifier", "why_tests_cant": "The identifier is a hash of a nested text representation; whether two different documents can share one, and how reads and edits interleave, concerns all pairs of documents.", "anchors": ["jsoned/json_core.py:98-112", "jsoned/json_core.py:129-141", "jsoned/types/json_type.py:90-91", "jsoned/types/json_boolean.py:35-36"]}
{"id": "C79", "title": "Adding JsonNumbers adds their values", "statement": "JsonNumber + number is a JsonNumber with the exact sum (floats taken at their printed value), adding is commutative, associative and monotone, works with a plain number on either side, and anything but a number raises TypeError.", "quantifier": "all pairs and triples of numbers, including infinities and NaN", "why_tests_cant": "Rounding by the decimal context shows only for sums of more than 28 digits or extreme exponents, which sampled tests do not reach.", "anchors": ["jsoned/types/json_number.py:154-184"]}
{"id": "C80", "title": "int of a JsonNumber truncates towards zero", "statement": "int(number) is the integer part of the number with its sign; of NaN it raises ValueError and of infinities OverflowError.", "quantifier": "all numbers", "why_tests_cant": "Truncation and flooring differ only for negative fractions; a sample of integers or positive numbers does not tell them apart.", "anchors": ["jsoned/types/json_number.py:186-187"]}
{"id": "C81", "title": "Comparisons of wrapped values form one order", "statement": "On wrapped values <, <=, >, >= and == answer by one strict total order: numbers by value, texts by code points, arrays item by item; mirrored comparisons agree; plain data on the right give the same answer as the wrapped data; values of different kinds, null and objects raise TypeError.", "quantifier": "all pairs and triples of wrapped values, nested arrays included, and all four operators", "why_tests_cant": "Totality and transitivity quantify over all pairs and triples of nested values; asymmetries show only for particular pairs of kinds in one order of operands.", "anchors": ["jsoned/types/json_type.py:63-85"]}
{"id": "C82", "title": "A JsonPointer is the sequence of its tokens", "statement": "Indexing, slicing, membership, length, iteration, index, count and reversed of a pointer are those of its tokens, a slice being a pointer; pointers with the same tokens are equal; and a pointer's text is that of its two parts joined.", "quantifier": "all token lists, all integer indexes and all slices with any start, stop and step", "why_tests_cant": "Slices have three unbounded optional integers with clamping at both ends in both directions; a sample leaves most combinations out.", "anchors": ["jsoned/json_pointer.py:16-53"]}
{"id": "C83", "title": "A uri is loaded from the file it names", "statement": "A uri without scheme or of scheme file is read from the file it names (percent-decoded, on its host), parsed as json or yaml by its extension; other extensions raise ValueError, a missing file is reported by the store as JsonLoadError and nothing is stored.", "quantifier": "all uris, all file systems and parsers, all histories of the loader and all states of the store", "why_tests_cant": "The extension rule has to be right for every path (dots in folders, leading dots, several dots), and the store's state has to be right after any history.", "anchors": ["jsoned/uri_loader.py:18-22", "jsoned/uri_loader.py:63-77"]}
{"id": "C84", "title": "enum and const with arrays and objects", "statement": "enum accepts exactly the values equal as JSON to a member, also when members are arrays or objects of any depth, and rejects all others with ValidationError; const does so for its value.", "quantifier": "all schema values and Python values of any depth", "why_tests_cant": "Equality is recursive over two trees; that a comparison raises or takes true for 1 shows only below the top level for particular pairs of kinds.", "anchors": ["jsoned/validators/core_validators.py:136-172", "jsoned/keywords/const_keyword.py:10-14", "jsoned/types/json_number.py:40-48", "jsoned/types/json_boolean.py:27-33"]}
{"id": "C85", "title": "A reference is used as what it stands for", "statement": "in, [], len, keys, values and items of a reference to an object speak of the target's members and its own others, each name once, the target's value first; ref[i] of a reference to an array is its i-th element; a node compared with plain data answers as the data it stands for, references written out, does, and the comparison ends although documents may contain themselves.", "quantifier": "all sets of documents, references, keys, indices and Python values", "why_tests_cant": "A test has one document and looks at one member; which members are merged, and that an index is first looked for among the values, shows only when names collide or arrays hold particular numbers.", "anchors": ["jsoned/keywords/ref_keyword.py:34-81", "jsoned/types/json_type.py:57-61", "jsoned/json_core.py:181-201"]}
{"id": "C86", "title": "Truth of wrapped values", "statement": "bool of a wrapped value, or of a reference, is bool of the data it stands for.", "quantifier": "all Python values and all references", "why_tests_cant": "The domain is infinite; that an empty text or a zero decides is seen only for those values.", "anchors": ["jsoned/types/json_type.py:87-88", "jsoned/keywords/ref_keyword.py:34-58"]}
{"id": "C87", "title": "Keyword values given by reference", "statement": "A keyword whose value is a reference to a number, text, boolean or array means the same as with that value written in place.", "quantifier": "all documents with references, all values to validate", "why_tests_cant": "The value behind the reference and the validated value are arbitrary; no test gives a keyword other than a subschema by reference.", "anchors": ["jsoned/keywords/ref_keyword.py:24-69", "jsoned/keywords/maximum_keyword.py:11-20", "jsoned/keywords/const_keyword.py:10-14", "jsoned/keywords/multiple_of_keyword.py:11-15", "jsoned/keywords/type_keyword.py:12-26", "jsoned/keywords/required_properties_keyword.py:11-15", "jsoned/validators/number_validators.py:17-54"]}
{"id": "C88", "title": "SchemaParseError means a malformed schema", "statement": "A validation raises SchemaParseError only if the schema, one of its subschemas at any depth or a schema they refer to gives a keyword a value the keyword does not take (wrong JSON type, unknown type or format name, a boolean bound without the bound, limits of contains that are no numbers). Conversely a schema object with such a keyword gives no verdict on any value.", "quantifier": "all schemas and documents with references, all vocabularies, all values", "why_tests_cant": "Schemas nest and refer to each other without limit, and loading happens lazily while values are validated; tests load single faulty keywords.", "anchors": ["jsoned/keywords/type_keyword.py:12-26", "jsoned/keywords/exclusive_maximum_keyword.py:11-20", "jsoned/keywords/contains_keyword.py:11-27", "jsoned/keywords/format_keyword.py:12-24", "jsoned/errors/schema_parse_error.py:10-29", "jsoned/json_core.py:64-95"]}
{"id": "C89", "title": "What a SchemaParseError says", "statement": "The message of a SchemaParseError names the place of the faulty schema object, the keyword and what was expected of it.", "quantifier": "all schema objects, all keywords, all places", "why_tests_cant": "The tests only check that the exception is raised; the claim is about every keyword, type and place.", "anchors": ["jsoned/errors/schema_parse_error.py:17-29", "jsoned/keywords/contains_keyword.py:17-25", "jsoned/keywords/format_keyword.py:16-22"]}
{"id": "C90", "title": "A keyword about one type accepts values of other types", "statement": "A keyword that is about one JSON type (bounds and multipleOf about numbers, lengths and pattern about strings, items, contains, uniqueItems and limits on items about arrays, properties, required, dependencies and limits on members about objects) accepts every value of another type, as JSON Schema asks.", "quantifier": "all keywords about one type, all schemas, all values", "why_tests_cant": "The tests try keywords with values of their own type; the claim ranges over every keyword with every value of every other type.", "anchors": ["jsoned/validators/array_validators.py", "jsoned/validators/string_validators.py", "jsoned/validators/number_validators.py", "jsoned/validators/object_validators.py"]}
{"id": "C91", "title": "re.error means a regular expression that does not compile, and such an expression is reported as a malformed schema", "statement": "If a validation raises re.error, then the schema, a subschema or a schema they refer to has a pattern or a key of patternProperties that does not compile. A schema with such an expression is reported with SchemaParseError, like other malformed schemas.", "quantifier": "all schemas, referenced documents, vocabularies and values", "why_tests_cant": "No test uses an invalid expression; the first half says where an exception can come from in any schema graph.", "anchors": ["jsoned/keywords/pattern_keyword.py", "jsoned/keywords/pattern_properties_keyword.py", "jsoned/validators/string_validators.py", "jsoned/validators/object_validators.py"]}
{"id": "C92", "title": "Comparisons of wrapped values are decided by their first difference", "statement": "For every two wrapped values without references: == answers True if they are the same JSON value, raises TypeError if the first thing in which they differ is a number or boolean on the left against a value of another type, and answers False otherwise. <, <=, > and >= agree on one of: first, equal, second, TypeError, InvalidOperation; arrays are decided by the first items that are not the same, or by length.", "quantifier": "all pairs of wrapped values without references, of any depth", "why_tests_cant": "The tests compare a handful of scalars; nested arrays and objects of mixed types are unbounded.", "anchors": ["jsoned/types/json_type.py: __eq__, __lt__, __le__, __gt__, __ge__", "jsoned/types/json_number.py", "jsoned/types/json_boolean.py"]}
{"id": "C93", "title": "Documents of a library that refer to one another load, and mean what their data says", "statement": "For documents the loader finds, which refer to themselves and to each other in any pattern, cycles included: whatever schemas a program has created, asked the store for and loaded, in any order, every further creation, request and load succeeds; there is one schema for each identifier; and when all are loaded, reading and validating is what the data says, each reference leading to the schema with the identifier it names.", "quantifier": "all libraries of documents, finite or not, whose references lead to objects; all programs of creating, asking the store and loading", "why_tests_cant": "The tests load one file that refers to another; patterns of references between documents and orders of loading are unbounded.", "anchors": ["jsoned/json_store.py: JsonStore.load", "jsoned/keywords/ref_keyword.py", "jsoned/keywords/id_keyword.py", "jsoned/json_core.py: JsonSchema.load"]}
{"id": "C94", "title": "Schemas loaded on demand by a query give the answers of schemas loaded before", "statement": "For documents of a library as in C93, any of them loaded and the others not: schema.query(pointer) loads the schemas it comes to, and then returns the object, raises the exception or fails to end exactly as it does if these schemas, or these and any further ones, had been loaded before; the state it leaves is that after loading them. So its answer is what the data of the documents says.", "quantifier": "all libraries of documents with finitely many identifiers, all states reached by creating, asking the store and loading, all schemas and pointers", "why_tests_cant": "Which schemas are loaded when a query meets a reference depends on everything the program did before; the tests query schemas in one state each.", "anchors": ["jsoned/json_core.py: JsonSchema.query, JsonSchema.load", "jsoned/types/json_complex.py: JsonReference", "jsoned/keywords/ref_keyword.py"]}
{"id": "C95", "title": "Validation that loads schemas on the way judges as if they had been loaded before", "statement": "Keywords read the schema objects through type, value, members and elements, which follow references, and following a reference loads the schema it leads to. For documents of a library as in C93, any of them loaded and the others not: schema.validate(value) loads the schemas it comes to, and then accepts, raises the exception or fails to end exactly as it does if these schemas, or these and any further ones, had been loaded before; the state it leaves is that after loading them. When all are loaded it does what validation with the trees of the documents does. So it judges values as JSON Schema says of the data.", "quantifier": "all libraries of documents with finitely many identifiers, all states reached by creating, asking the store and loading, all schemas and values", "why_tests_cant": "The schemas needed depend on the value, on the order in which keywords read, and on everything loaded before; the tests validate with a schema in one state each.", "anchors": ["jsoned/json_core.py: LazyValidator, JsonSchema.validator, JsonSchema.validate, JsonSchema.load", "jsoned/keywords/ref_keyword.py", "jsoned/types/json_complex.py"]}
{"id": "C96", "title": "Schemas that keep their validators judge as with new ones, while schemas are loaded on the way", "statement": "A schema keeps its validators, which keep what the keywords read from the schema objects, half read if a call raised while reading. For documents of a library as in C93: in every state a program comes to by creating schemas, asking the store, loading and calling validate on any of the schemas with any values and any outcomes, a call of validate ends exactly if a call with new validators ends when the schemas the first needs, or these and any others, were loaded before, and with the same outcome. It loads schemas and changes no other object. So what was validated before, and what was loaded in between, makes no difference.", "quantifier": "all libraries of documents with finitely many identifiers, all sequences of creating, asking the store, loading and validating, all schemas and values", "why_tests_cant": "What is kept depends on all values validated before, on where earlier calls raised, and on what was loaded between them; the tests call validate on a schema a few times with everything in one document.", "anchors": ["jsoned/json_core.py: LazyValidator, JsonSchema.validator, JsonSchema.validate, JsonSchema.load", "jsoned/keywords/ref_keyword.py", "jsoned/validators/core_validators.py"]}
{"id": "C97", "title": "The order of the members of a value makes no difference", "statement": "JSON objects are unordered. For two values that differ only in the order of the members of the objects in them, at any depth, a schema accepts the one exactly if it accepts the other.", "quantifier": "all values and all reorderings of the objects in them, all schemas and documents", "why_tests_cant": "The code iterates over dictionaries in insertion order in a dozen keywords, compares them for enum, const and uniqueItems, and stops at the first error. Tests write each value down in one order.", "anchors": ["jsoned/validators/*.py", "jsoned/types/json_object.py: __eq__"]}
{"id": "C98", "title": "What an error says is true", "statement": "When validation raises a ValidationError, the code of the error, its path and the name in it are right: going along the path one reaches, through subschemas that apply there, a schema and a part of the value for which the keyword of the code is violated (a number above the maximum, a missing member with the name given, two equal items, ...).", "quantifier": "all schemas, documents and values, all vocabularies", "why_tests_cant": "Thirty places in the code raise errors with a code and a path, and the path is put together while validators call one another. Tests check the class of the error for one keyword at the top of a schema.", "anchors": ["jsoned/validators/*.py", "jsoned/errors/validation_error.py"]}
{"id": "C99", "title": "The order of the members of a schema makes no difference", "statement": "Two schemas, with their documents, that differ only in the order of the members of the objects in them accept the same values.", "quantifier": "all schemas, documents and values, all vocabularies", "why_tests_cant": "Members are read into dictionaries, looped over, and merged with the members beside a $ref in many places, and the validators run in the order of the vocabulary, not of the schema. A test writes each schema in one order.", "anchors": ["jsoned/json_core.py", "jsoned/keywords/*.py", "jsoned/validators/*.py", "jsoned/keywords/ref_keyword.py"]}
{"id": "C100", "title": "The text of a validation error", "statement": "Printing a validation error gives the sentence of its class with the values of its attributes in place, after the path at which validation failed; the error the code raises is the one the model of validation raises; and of two errors with the same reason the texts differ if the paths do.", "quantifier": "all places where validators raise, all paths and values of attributes", "why_tests_cant": "The text is made by str.format from a template the path is part of, with the attributes the class lists. A test prints a few errors at a few paths; names of properties are arbitrary texts.", "anchors": ["jsoned/errors/validation_error.py", "jsoned/errors/*.py", "jsoned/validators/*.py"]}
{"id": "C101", "title": "Durations print and parse to the microsecond", "statement": "For every timedelta d, parse_iso_duration(timedelta_to_iso_duration(d)) == d.", "quantifier": "all timedeltas: every number of microseconds below 10^9 days", "why_tests_cant": "Both directions go through binary floating point: divmod of floats, rounding to six digits, repr, float and the rounding of timedelta. There are about 10^20 timedeltas and the failures are at the ends of the range.", "anchors": ["jsoned/iso_datetime.py: timedelta_to_iso_duration, parse_iso_duration"]}
{"id": "C102", "title": "Floats survive in JsonNumber", "statement": "For every float x, float(JsonNumber(x)) == x, and JsonNumbers made from floats compare with each other and with floats, ints and Decimals as the floats themselves do.", "quantifier": "all floats, all pairs of numbers", "why_tests_cant": "JsonNumber goes through the text of the float and Decimal. Whether a text determines its float, and keeps the order, is a fact about all 2^64 floats.", "anchors": ["jsoned/types/json_number.py: JsonNumber.__init__, __float__, __eq__, __lt__, __le__, __gt__, __ge__"]}
{"id": "C103", "title": "Schemas that are neither objects nor booleans", "statement": "A schema or subschema that is a string, a number, null or an array is refused: validating any value with it raises.", "quantifier": "all such schemas, all values, all vocabularies", "why_tests_cant": "Loading such a schema asks of each keyword whether its name is in it, which for strings is a search for parts and for arrays a comparison with each element. Which texts and arrays pass is an infinite set.", "anchors": ["jsoned/json_core.py: LazyValidator._load_validator, can_apply_keyword"]}
{"id": "C104", "title": "A JSON file is read as the data it says", "statement": "load_json returns, for every text of RFC 8259, the data it stands for: integers and decimals with their exact values, texts with their escapes resolved, each name of an object once and with the value given last. Every other text raises ValueError.", "quantifier": "all texts, of any length and nesting", "why_tests_cant": "The texts form an infinite language, and whether a reader takes all of it and nothing else, and never mistakes one datum for another, is a statement about all of them.", "anchors": ["jsoned/uri_loader.py: load_json, DefaultLoader.load_file"]}
{"id": "C105", "title": "A JsonString is used as the text it holds", "statement": "A JsonString answers len, indexing, slicing, iteration, in, +, *, find, rfind, index, rindex, count, startswith, endswith, removeprefix, removesuffix, join, hash and repr as the str it holds does, whether the other text is given as a str or as a JsonString. Texts that come out are JsonStrings of their own, without parent and key.", "quantifier": "all texts, all arguments, all starts and ends", "why_tests_cant": "The operations take two texts and two bounds of any size and sign; the corner cases (empty texts, bounds outside of the text, overlapping occurrences) are too many to sample.", "anchors": ["jsoned/types/json_string.py: JsonString", "jsoned/types/json_type.py: JsonType.__eq__, __repr__"]}
{"id": "C106", "title": "A Uri has the parts that RFC 3986 gives its text", "statement": "Uri(text) has as scheme, user information, host, port, path, query and fragment the parts RFC 3986 gives the text, with scheme and host in lower case and percent encodings in upper case. Texts whose authority is none by RFC 3986 are refused, and no others. A Uri or Authority equals a text exactly when the text has its parts.", "quantifier": "all texts, and all pairs of a URI and a text", "why_tests_cant": "Two regular expressions with optional groups decide where a part ends; which of their ways is taken depends on every character of the text.", "anchors": ["jsoned/uri.py: Uri.__init__, __eq__", "jsoned/uri.py: Authority.__init__, __eq__"]}
{"id": "C107", "title": "A mapped URI is found where it is mapped to", "statement": "After any calls of MappableUriResolver.map, a URI that is mapped is resolved to the path it was mapped to last. A URI that lies under mapped ones is resolved to its rest in the path of the most specific of them. A URI that no mapped one reaches, from segment to segment, is resolved as if nothing was mapped.", "quantifier": "all sequences of calls of map and all URIs that can be made", "why_tests_cant": "The answer depends on the order of the calls and on which of the mapped texts happen to begin the URI; a test fixes a few mappings that do not overlap.", "anchors": ["jsoned/uri_resolver.py: MappableUriResolver.map, resolve"]}
