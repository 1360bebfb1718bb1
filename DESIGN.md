# Formal model of kodemore/jsoned in Lean 4

## Layout

* `lean/Verif/Py/*.lean` – the fragments of Python semantics the code rests on: exceptions as values, strings as
  lists of code points, `split/replace/join/rfind`, numbers (`int`, `float`, `Decimal`) by exact value,
  `==` on raw and wrapped values, `str.format`, `os.path.join`, `functools.lru_cache`, a backtracking regex engine.
* `lean/Verif/Model/*.lean` – the model proper, function by function; each definition cites the file and lines in `/repo`.
* `lean/Verif/Spec/*.lean` – small independent specifications (RFC 6901 pointers, JSON Schema satisfaction,
  calendar, finite maps, ...). They do not mention the model.
* `lean/Verif/Proofs/*.lean` – helper lemmas.
* `lean/Verif/Props/*.lean` – the property theorems, one or more per property, each followed by a concrete
  non-trivial instance of its hypotheses.

Conventions: an exception is the value `Res.err e`; non-termination is `Res.timeout` for every amount of fuel; a
function that mutates an object returns the new object. A property that is false of the code is refuted by a theorem
named `..._violated` (a concrete witness, checked by the kernel) next to the strongest `..._partial` theorem found. `Props/Exact`,
`Props/ExactDocs`, `Props/ExactTimes` and `Props/ExactUris` determine, for all inputs, what the code does where some of these properties fail.

## Plan per property

| Property | Modelled | Proof |
|---|---|---|
| C01–C04 | `JsonPointer` over code-point lists, the pointer regex as an AST run by the regex engine | induction over tokens / strings; C04 refuted on `[]` vs `[""]`, partial on non-empty lists |
| C05, C09 | wrapped values (`Node`), `_map_value`, every `__eq__` with Python's reflected dispatch, exceptions as values | mutual induction on JSON values; C09 refuted |
| C06, C10, C11 | a heap of node objects with parent/key slots filled during construction; `path`, `query`; `lru_cache` with eviction | invariant of all operations (`Proofs/Placed.lean`: every object is in the place its parent and key say); simulation for the cache |
| C07 | `JsonNumber` comparisons over exact values | order lemmas on rationals |
| C08 | `JsonObject` operations | refinement to an insertion-ordered finite map, induction over histories |
| C12–C30, C34–C37 | every keyword's `apply` and every validator's `validate`, `LazyValidator`, fuel for recursion | unfolding + induction; a JSON Schema satisfaction predicate as independent spec |
| C31 | lazy validators as explicit mutable state (loaded flag and partially filled dictionary) | simulation, induction over histories |
| C32, C33 | `Context` paths, `ValidationError.__init__/__str__` with a model of `str.format` | induction; C33 refuted; `Spec/FormatFault`: the faults of a format string, for which exception is raised instead. Not modelled: what attributes, indices, conversions and format specifications make of a field that is there, and field names that begin with (or have behind digits) a character outside ASCII |
| C38 | the two finite tables | `decide` over the whole table (refuted) |
| C39–C45 | `_process_node`, `RefKeyword`, `AnchorKeyword`, `IdKeyword`, `JsonReference`; documents as loaded trees | induction on trees; C40, C44, C45 refuted |
| C46, C47 | `JsonStore` with an arbitrary (possibly failing) loader | refinement, induction over histories |
| C48–C51 | `Uri`, `Authority`, and rfc3986's parser and normalisers | induction on strings |
| C52, C53 | `MappableUriResolver`, `DefaultLoader` with its cache, `os.path.join` | induction; violated parts refuted |
| C54–C57 | `iso_datetime.py`, with its regexes as ASTs | case analysis and induction over strings |
| C58–C61 | format checkers and the registry | regex language lemmas; C58 refuted |
| C62 | the duration pattern as an AST, `timedelta` arithmetic in microseconds | language lemmas on the pattern, arithmetic; refuted for the kind of exception raised |
| C63 | `validate_uri`, `validate_url` on the model of rfc3986 | language lemmas; the accepted set compared with RFC 3986 |
| C64 | `load` as a stateful program over schema objects (`Model/Objects`) | refuted by a document whose first load fails and whose second load never ends; holds for documents whose references stand in the first layer, when files could not be read: every further attempt returns or raises, and once the files are there it returns and the schema shows its data |
| C65 | the object-level model and the tree-level model of reading and following references | simulation in both directions, composed with the loading proof |
| C66 | trees, validation with and without references | unfolding of references as a function on trees; simulation that follows the calls of the validators |
| C67 | `IPv6Address` of Python's `ipaddress`, on pieces between colons | both directions between index arithmetic and the grammar |
| C68 | the object-level model with the store: `$id`, `JsonStore`, references to other documents | the simulation of C65, with the documents loaded before as an unmodified ground |
| C69–C71 | programs of `load` and `query` calls (`Model/Objects: calls`) | refuted by programs, evaluated for every IP pattern and world and extended to every larger bound on the depth of calls; C69 proved where targets have no core members; C71 proved for reads of embedded objects without `$ref` (`Spec/Embedded.lean`: which objects have which identifier, going down in the data) |
| C72 | `Model/Whole.lean`: `JsonSchema.validate` on the objects of loaded schemas, read as trees | C68 for loading, C66 and C36 for judging |
| C73–C75 | `Model/FormatTexts.lean`: `UUID`, `b64decode`, `Decimal` of a text | the accepted texts described apart from the code (`Spec/FormatTexts.lean`); induction over the text; refuted where the libraries take more |
| C76, C77 | `Model/Edit.lean`: the writing methods of `JsonObject`, `JsonArray` and `MutableMapping` on the memory of objects | what the data is afterwards (`Spec/Edit.lean`: `Rewritten`, `Written`); the invariant of C06 kept by every step; separation by paths; refuted where objects move |
| C78 | `Model/Repr.lean`: `repr` of wrapped data, `JsonSchema.id` | the text of a document determines it if strings are unmistakable (`Spec/Repr.lean`), by reading the text back; refuted otherwise |
| C79, C80 | `Model/Arith.lean`: `JsonNumber.__add__`, `__int__`; rounding of the default decimal context in `Py/Number.lean` | nearest number of 28 digits, even on ties (`Spec/Arith.lean`); uniqueness makes it a full description; refuted beyond 28 digits |
| C81 | `Model/Compare.lean`: the comparisons of `JsonType` | the order `Before` of `Spec/Compare.lean`, given by first differences; refuted across kinds |
| C82 | `Model/PointerSeq.lean`: `JsonPointer` as a sequence | slices position by position (`Spec/Slice.lean`); refuted: equality |
| C83 | `Model/Files.lean`: `load`, `load_file`, `os.path.splitext`; the disk is a parameter | extension as the text after the last dot of the last segment (`Spec/Files.lean`); refuted: decoding, host |
| C84 | `EnumValidator`, `ConstValidator` (`Model/Validators.lean`), `JsonType.__eq__` (`Model/Types.lean`) | JSON equality `SameJson` of `Spec/Validate.lean`; refuted where kinds meet |
| C85 | `Model/References.lean`: `JsonReference` as a container, comparing through references | union of names; data with references written out (`Spec/References.lean`); refuted: indices |
| C86 | `Model/References.lean`: `JsonType.__bool__` | what Python takes for true (`Spec/References.lean`) |
| C87 | `Model/Keywords.lean`, `runHeld` in `Model/Validators.lean`: keyword values that are references | what the value says in place; printed values of numbers; refuted for most keywords |
| C88 | reading keywords, `validateN` | `Spec/Malformed.lean`: keyword values that are not taken, schemas that belong to a schema; induction on fuel with programs as in C35 |
| C89 | `Model/ParseErrors.lean`: the `raise` statements and their messages | what can be told from the message; refuted for the keyword |
| C90 | `validateN` on values of other types | `Spec/OtherTypes.lean`: the type each keyword is about; exact results per keyword, refuted for most |
| C91 | `validateN`, sources of `re.error` | `Spec/BadRegex.lean`: expressions that do not compile in a schema graph; the report as malformed refuted |
| C92 | `nodeEq`, `nodeCmp` | `Spec/Equality.lean`: JSON equality, first differences; exact on all reference-free pairs |
| C93 | `Model/Objects.lean`: `storeLoad`, `applyRef`, `applyId`, `newDocument`, loading | `Spec/Web.lean`: libraries of documents (`WebDoc`), programs (`Reached`); the state mirrors the data (C65), judging as in C72; refuted for references that lead to references of other documents (`Props/WebChain.lean`) |
| C94 | `Model/Objects.lean`: `queryS`, `walk`, `kindS`, `membersS`, `elemsS` with `loadS` on the way | the same query after loading (`LoadsSome`), and `queryDoc` on the data as in C65; libraries whose references lead to references of other documents are refuted (`C94_violated`) |
| C95 | `Model/Validating.lean`: `JsonSchema.validate` with keywords that read the objects and load schemas on the way | the same after loading (`LoadsSome`), `Model/Schema.lean` on the trees, `Sat` of the data; `C95_violated` as in C94 |
| C96 | `Model/Remembering.lean`: `JsonSchema.validate` with the validators kept between calls, on the objects | `validateS` of C95 after loading, `Sat` of the data; `C96_violated` as in C94 |
| C97 | `validateN`, `schemaValidate` on values that differ in the order of members | `Reordered` of `Spec/Reordered`: permutations of the members of dictionaries, inductively |
| C98 | the errors of `validateN`, `schemaValidate` | `Complaint`, `Speaks`, `Spoken` of `Spec/Complaint`: what each code says of a part of the value |
| C99 | `validateN`, `schemaValidate` on two lists of documents | `Shuffled`, `ShuffledDocs` of `Spec/Shuffled`: the same JSON up to the order of members. Hypothesis `RefsPrinted`: `str` of a reference shows its URI only (ref_keyword.py 78-79) |
| C100 | `Raised.error`, `ErrObj.str` (`Model/ErrorText`) | `report`, `Filled` of `Spec/Wording`: the sentences, and `str.format` as documented. The values of attributes are given by the texts `format(value, "")` shows; format specifications in braces are not modelled |
| C101 | `printDuration`, `secMicros`, `microsOf` (`Model/Microseconds`) over `fl`, `divmod`, `round6`, `reprPos` (`Py/Binary64`) | `Double`, `Nearest` of `Spec/Binary64` say what IEEE rounding is; the round trip is about the two texts and nothing else. Overflow and subnormal numbers are in the model; NaN and -0.0 do not occur |
| C102 | `shown`, `fltOf`, `jnFloat` (`Model/Floats`) over `Py/Binary64` | `Double` of `Spec/Binary64`; comparisons of rationals. The sign of zero is not modelled |
| C103 | `loadNonObject`, `keyInArr` (`Model/Schema`) | `Unnoticed`, `assertionNames` beside the theorems: parts of texts and elements of arrays |
| C104 | `loads` (`Model/JsonText`): `json.load` with `parse_float=Decimal` | the grammar of RFC 8259 as an inductive relation of texts and data (`Spec/JsonText.lean`); refuted: NaN, long integers, numbers out of the range of `Decimal` |
| C105 | `JsonString` (`Model/JsonString`) with the methods of `UserString` of Python 3.11 | places of a text in a text, windows and numbers of places that do not overlap (`Spec/Substring.lean`), slices as in C82; refuted: hash, JsonStrings as arguments of some methods, repr |
| C106 | `parse`, `parseAuthority`, `compare`, `authorityEq` (`Model/Uri`) | `Parts`, `AuthorityText`, `Authority3986`, `Uppered` of `Spec/Uri.lean`; refuted: empty user information, long ports, newlines, case of hosts |
| C107 | `mapUri`, `mappings` (`Model/Mapping`), `mapResolve` (`Model/Store`) | `Given`, `MostSpecific`, `Under`, `Mapped` of `Spec/Mapping.lean`; refuted: the mapped URI itself, later more specific mappings, parts of segments, the empty path |

## Trusted base

* Lean 4.33.0's kernel. Axioms: at most `propext`, `Classical.choice`, `Quot.sound` (listed per theorem by
  `#print axioms`); none of our own.
* The reading of the Python source and of the Python standard library by the author. The code under study was not run.
* The third-party library `rfc3986` 1.5.0 is not available in the sandbox; its normalisers and regexes are
  modelled from its published source.

### What is modelled, and how

| Code | Model | Simplifications |
|---|---|---|
| `json_pointer.py` | `Model/Pointer` | strings are lists of Unicode scalar values (no lone surrogates) |
| `types/*` | `Model/Types` | numbers by exact rational value plus NaN/±∞/−0 tags, of at most 4300 digits; a float carries its value and the value of its text, and theorems hold for any two (`Model/Floats` gives those of CPython); `%` of decimals rounds as the default context (28 digits, exponents to ±999999) |
| `errors/*`, `Context` | `Model/Errors`, texts in `Model/ErrorText` | messages are `str.format` results on the model of `str.format` in `Py/Format` |
| `errors/schema_parse_error.py` and the `raise` statements of the keywords | `Model/ParseErrors` | the place of the schema object is given |
| `keywords/*` | `Model/Keywords` | `apply` reads the node and returns an update of the validator dictionary; by reference `enum`, `minContains`, `maxContains` and the lists in `dependentRequired` end in `unmodelled` |
| `validators/*` | `Model/Validators` | validators are a first-order datatype; calls between them spend fuel |
| `json_core.py` | `Model/Schema` | loading is redone on each use instead of being remembered; `Model/Lazy` models the remembering, and C31 shows that the two agree |
| `json_core.py`, `keywords/ref_keyword.py`, core keywords as mutable objects | `Model/Objects` | a memory of cells with parent and key slots and a list of schemas; every read that may trigger a load spends fuel |
| `LazyValidator` and the keywords reading these objects, schemas loaded in the middle of a validation | `Model/Validating`, `Model/Updates` | a keyword looks once at what the code looks at several times (C95_again); validators remember nothing, except in `Model/Remembering` |
| the validators a schema keeps, on these objects | `Model/Remembering` | `validateM` returns how the call ended together with what is kept, so that a call that raised leaves half-loaded validators |
| `lru_cache` on `query`, `JsonReference._fragment` | `Model/Cache` | one table for all schemas, as in the code, keyed by schema and argument; its size is a parameter; what is remembered during a load is not modelled |
| `LazyValidator`, `JsonSchema.validator`, `.validate` as mutable objects | `Model/Lazy`, `Model/Prog` | a call that does not end has no next call |
| writing methods of `types/json_complex.py` | `Model/Edit` | on the memory of `Model/Objects`; values written are plain data or wrapped objects |
| `__repr__` of the types, `JsonSchema.id` | `Model/Repr` | sha256 is a parameter (64 hexadecimal digits); numbers are their printed text |
| `JsonNumber.__add__`, `__int__` | `Model/Arith` | |
| `JsonNumber.__init__` and `__float__` for `float`s | `Model/Floats` | `repr` of a `float` as in `Py/Binary64`, without the sign of zero |
| `timedelta_to_iso_duration`, `parse_iso_duration` with fractions of a second | `Model/Microseconds` | `float`s are rationals rounded to 53 bits (`Py/Binary64`); `repr` searches for the shortest decimal with 1 to 17 digits that rounds back, as documented, not by David Gay's algorithm |
| `JsonType.__lt__`, `__le__`, `__gt__`, `__ge__` | `Model/Compare` | |
| `JsonPointer.__getitem__`, `__len__`, `__iter__`, `__contains__`, `from_list` and what `collections.abc.Sequence` adds | `Model/PointerSeq` | |
| container methods of `JsonReference`, comparing and testing for truth through references | `Model/References` | on the trees of `Model/Schema`, loaded; elements of arrays that are references are not looked for |
| `load_json` (`json.load` of Python 3.11 with `parse_float=Decimal`) | `Model/JsonText` | the text of the file is given; a `Decimal` is its value, without the sign of zero; escapes for halves of surrogate pairs are not modelled, nor is the recursion limit; the range of `Decimal` is that of machines with 64 bits (`Py/DecimalText`) |
| `JsonString` with `collections.UserString` of Python 3.11 | `Model/JsonString` | `str` methods by what they do to the characters; without tuples as arguments, the methods that look at what characters mean, `%`, `format`, `replace`, `split`, `partition` |
| `DefaultLoader.load`, `load_file` | `Model/Files` | `open` and the parsers are given by a parameter; that files are not closed is not modelled |
| `vocabulary.py` | `Model/Vocabulary` | none |
| `iso_datetime.py` | `Model/IsoDatetime`, `Model/IsoDuration` | results are calendar fields / whole microseconds instead of `datetime` objects |
| `string_format.py`, `validators/format_validators.py` | `Model/Formats` | `re.compile` and `Decimal` of lists are parameters; `UUID`, `b64decode`, `Decimal` of texts are those of Python 3.11 on machines with 64 bits (`Model/FormatTexts`, `Py/DecimalText`) |
| `uri.py` | `Model/Uri`, `Py/Rfc3986` | `str.lower` on ASCII; `hash(repr(u))` is represented by the text that is hashed |
| `json_store.py` | `Model/Store` | the loader is arbitrary (may fail, has a state) but does not call the store; its calls are recorded in a ghost list |
| `uri_resolver.py`, `uri_loader.py` | `Model/Store` | a scheme resolver is the function it computes; `load_file` is in `Model/Files`; the cache is one per program, other loaders may push entries out |

There are two models of documents. `Model/Schema` has loaded documents as trees in which a reference is a leaf naming
its document and pointer; validation is defined there. `Model/Objects` has the objects themselves, with loading,
registration of anchors, embedded documents and the store. C65 relates the two: a document without embedded
identifiers, once loaded, is read by the objects exactly as by the tree. `Model/Validating` validates with
the objects, and C95 relates that to validation with the trees.

Where the proofs are:

| Modules | Content |
|---|---|
| `Proofs/Pointer`, `Split`, `Query`, `Heap` | tokens, splitting, paths of constructed nodes, pointer evaluation |
| `Proofs/Types`, `Dict`, `Scalars`, `Single`, `Multi`, `Families`, `Group`, `Applicators` | values, dictionaries and each keyword on its own |
| `Proofs/Layer*`, `Order`, `Subs`, `Satisfies` | a schema's validators as a dictionary, order of keywords, the satisfaction predicate |
| `Proofs/Mono`, `Ends`, `Prog`, `Lazy`, `Parse` | fuel, termination, validators with memory, where exceptions come from |
| `Proofs/Load*`, `Steps`, `Later`, `Objects` | the run of `load` on objects, step by step, and what it leaves in memory |
| `Proofs/Refs`, `RefEnds`, `LocalRef`, `IterRef` | following references, when it ends, iterating over them |
| `Proofs/OnDemand`, `Validating*` | reading and validating while schemas are being loaded, against doing so afterwards; what keywords read from objects and from trees |
| `Proofs/Cache`, `Bridge`, `BridgeLoad` | readers as pure functions, cached against fresh reads, objects against trees |
| `Proofs/Regex*`, `Formats`, `Iso*`, `Duration`, `Uri*`, `Url` | the backtracking engine and the languages of the patterns |

The modules in `Check` are tests of the model, not proofs: the project's own tests (`tests/`), read as text and run on the model with `#guard`.
`Check/Suite` is written by `tools/conformance.py` from `tests/keywords` and `tests/validators`; `Check/Texts` and `Check/Objects` are those of
uris, dates, pointers, types, references, anchors and identifiers. A build fails if the model answers one of them otherwise than the test expects.
`Check/Meets` has cases that meet the hypotheses of theorems in `Props` that have none beside them.

Parameters every theorem quantifies over (so nothing is assumed of them beyond the stated laws):

* `World`: `re.search` for user supplied patterns, the format registry, `Decimal(str)`, `repr` of wrapped values.
* `UDB`: the Unicode tables behind `\d`, `\s` and `int()`; laws: they agree with ASCII, digit values are below 10, a digit
  is not white space, `ſ` is not a digit. All hold of CPython 3.11's tables.
* `Secs`: the rounding of a decimal fraction of seconds to microseconds by `float` and `timedelta`; law: a text without a
  fraction is exact. `Model/Microseconds` gives the one CPython has, with `float`s as in `Py/Binary64`; C101 and `C62_fraction` are about it.
* `IpRe`: the pattern for the inside of an IP literal (`[…]`) in rfc3986's authority pattern; laws: it has no groups, matches a
  set of texts independently of what surrounds them, and these contain only unreserved characters, `sub-delims`, `:` and `%`.
* `Env.lib`, `Env.str`: success of the library functions named above, `str()` of a value that is not a string. C97 alone asks for laws (`Printed`):
  `str` of a list or dictionary begins with a bracket or brace, `re.compile` and `Decimal` of a list do not look at the order of members in it.

Facts about CPython taken as given: `re` tries alternatives in the order of the backtracking matcher in `Py/Regex`;
under `re.I` the class `[a-z]` is the 52 letters and U+0130, U+0131, U+017F, U+212A; `int()` refuses more than 4300 digits;
`$` matches at the end and before a last newline; `ipaddress` of Python 3.11.

### What is not modelled

What `open` does and what `yaml.load` makes of a file, the network loaders, `__repr__` of validators and keywords, docstrings and type
annotations, the packaging scripts, `benchmark/` and `tests/`. Memory exhaustion and the recursion limit of CPython: a run that Python would stop with `RecursionError`
is `timeout` or a result in the model. Concurrent use from several threads.
