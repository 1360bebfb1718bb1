{
 "C04": "False of the code: the empty pointer and [\"\"] both print as \"/\"; that is the only clash.",
 "C06": "Documents as mutable objects with parents (Model/Objects.lean). Proved for every program: whatever schemas are made from plain data with whatever vocabularies, loaded, read and queried in any order, with whatever plain files and failures, the path of every object inside a schema is the path of the schema's value (empty for created schemas) followed by the tokens walked, also through own members of references; where no reference is passed, the root is that of the value, and in loaded schemas query(tokens) returns the very object and changes nothing. Before loading, for documents to which no applicator applies: query(path) loads and returns the very object. Refuted where an anchor has the name of a member, and for members beside $ref that the object referred to also has. Excluded: the single empty token, indices of more than 4300 digits.",
 "C09": "Refuted: comparing a wrapped number with a wrapped string raises TypeError, in the other order it answers False. C09_exact says for every pair of wrapped values (references aside) whether they compare equal, unequal or raise, by Same and Clash of Spec/Equality.lean. C09_equality_partial: where both orders answer they agree.",
 "C10": "query and queryDoc against RFC 6901 evaluation on documents without references and anchors. Refuted for the pointer '/' (returns the root) and for texts int() reads beyond RFC 6901 indices. Proved otherwise, with the exact condition for each exception. C10_exact determines the outcome of every pointer of ASCII tokens: the value found or the error raised, with numbers as Python's int reads them and negative ones counted from the end.",
 "C100": "C100_text_partial: at any path without braces the text is the sentence with the values, for each of the 22 places that raise. C100_filled: for any path that is in order as a format string the text shows what str.format makes of it. C100_agrees and C100_agrees_other: the error, or the exception of str.format, is the one of the model of validation. C100_path_partial: different paths, different texts. C100_path_violated: a property named {expected_maximum} is reported at `3`. C100_exclusive_violated: exclusiveMaximum 3 rejects 3 saying it must be lower or equal to 3. C100_array_violated: the error about a value that is no array has lost its path. Missing: paths with format specifications in braces.",
 "C101": "C101_floats: the arithmetic of floats of the model is that of IEEE 754. C101_round_trip_partial: durations of microseconds below 2^33 seconds, of which 0 or at least 100 microseconds are left within the minute, are read back exactly. C101_whole: on whole seconds the printer is the one C57 is about. C101_small_violated: every duration with 1 to 99 microseconds left in its last minute is printed with an exponent, which parse_iso_duration refuses; C101_microsecond_violated gives the text PT1e-06S. C101_large_violated: 2^33 seconds and a microsecond comes back a microsecond longer. C101_max_violated: the text of timedelta.max raises OverflowError. Missing: which of the durations of 2^33 seconds and more come back.",
 "C102": "C102_float and C102_special: every float comes back from its JsonNumber. C102_order: JsonNumbers of floats, and a JsonNumber and a float, compare as the floats do. C102_digits: a decimal of up to 15 digits given as a float is the JsonNumber it was written as, except among subnormal numbers; C102_sixteen_violated: with 16 digits the last may be lost. C102_integer: an integral float below 2^53 is the JsonNumber of the integer. C102_mixed_violated: 1e23 is not 10**23 in Python, but JsonNumber(1e23) == 10**23. C102_mixed_partial: below 2^53 comparisons with integers agree. C102_decimal: comparisons with Decimals of up to 15 digits go by the nearest float. C102_mixed_iff: for any integer or Decimal the comparisons agree with Python's exactly when the number is not between the float and the number it is printed as; C102_mixed_rounded: so they agree for all numbers that are not rounded to the same float.",
 "C103": "C103_decides_partial: such a schema accepts every value if no assertion keyword's name is part of the text, or an element of the array and all elements can be compared with texts; otherwise TypeError. C103_refuses: numbers and null are always refused. C103_text_violated and C103_array_violated: the text \"integer\" and the array [{\"type\": \"string\"}] accept every value. C103_loaded: arrays that contain references do not occur in loaded documents, so that this covers all that can stand there.",
 "C104": "C104_decides: exactly the texts of a dialect are read, as the data the grammar gives them. C104_reads, C104_reads_partial: that covers RFC 8259 for integers up to 4300 digits and other numbers in the range of Decimal. C104_strict_partial: without the words NaN and Infinity nothing else is read. C104_refuses_partial: what is not read raises ValueError. C104_exact, C104_plain: no binary floats come from such files. C104_file: the same through load_file. C104_constants_violated: NaN is read. C104_long_violated: longer integers are refused. C104_enormous_violated: a number out of the range of Decimal raises InvalidOperation, which is no ValueError. Missing: escapes for halves of surrogate pairs and Python's recursion limit.",
 "C105": "C105_characters, C105_index, C105_slice, C105_add, C105_repeat, C105_contains, C105_find, C105_count, C105_remove hold in full, with a str or a JsonString. C105_where_partial, C105_affix_partial, C105_join_partial: index, rindex, startswith, endswith and join with strs. C105_args_violated, C105_join_violated: with JsonStrings these raise TypeError. C105_hash_violated: a JsonString has no hash. C105_make_violated: a JsonString cannot be made of a JsonString. C105_repr_violated: repr is the text and a closing parenthesis.",
 "C106": "C106_authority, C106_parts: exactly which texts are read, with which parts; paths with a scheme and with dot segments are the subject of C50. C106_refuses: all others raise AttributeError. C106_rfc: an authority of RFC 3986 is read as its parts exactly if its user information is not empty and its port has at most five digits; C106_refused, C106_refused_violated: the others are refused. C106_loose_violated: a newline at the end, and a missing colon before a port behind an address in brackets, are accepted. C106_case_violated: hosts are not put in lower case. C106_compare, C106_compare_authority: comparison with texts and other values.",
 "C107": "C107_answers: what the resolver does after any calls of map: of the mapped texts that begin the URI the one mapped first decides, by the path it was given last, and empty segments of the rest are left out; C107_itself, C107_partial follow. Missing, and refuted: a mapped URI itself gets a slash behind its path (C107_violated); a more specific mapping made later is not looked at (C107_specific_violated); a mapping that ends inside a segment counts (C107_inside_violated); one to the empty path is not used and hides others (C107_here_violated).",
 "C11": "Refuted for histories of nothing but queries (C11_violated): a query loads its schema; a load that raised leaves references behind, the next load walks through them into the objects of another, loaded schema and puts a reference there; the table still has the former object. Positive part: Model/Cache.lean: the lru_cache of query (any size, shared by all schemas, keyed by schema and argument, pointers by identity) and the cached properties of references. Proved for every history of queries and reads of references on loaded schemas, also when more documents are loaded in between, provided what was there stays unmodified (C11_modified shows that this is needed). Not covered: entries made while a schema is being loaded.",
 "C17": "Proved for all finite numbers and both forms, except a numeric exclusiveMaximum/exclusiveMinimum of 1 next to maximum/minimum, which the code takes for true (1 == True) and so makes the other bound strict (refuted). C17_maximum_one, C17_minimum_one: there both bounds are strict, so that the only number judged wrongly is the bound itself.",
 "C18": "C18_multipleOf_partial: for quotients below 10^28 and numbers within the exponents of the default decimal context (no digit after the 1000026th after the point, magnitude at most 10^999999). C18_multipleOf_violated: beyond these Decimal's % rounds the remainder to 0 (1E-2000000 is accepted as a multiple of 1) or raises decimal.Overflow. C18_large: multipleOf 0 and quotients of 10^28 or more raise InvalidOperation, for multiples and others.",
 "C22": "Proved for all limits but maxContains: 0, which the code takes for absent (refuted). C22_zero: with it only minContains is looked at, for every list.",
 "C23": "items alone is proved in full. Tuples are proved for lists at least as long as the tuple. Refuted: shorter lists are rejected or loop for ever, and items next to prefixItems raises KeyError or starts at index 0. C23_short, C23_tuple_short, C23_short_never: what happens on every shorter list, of which none is accepted. C23_both, C23_both_order: what happens with items next to prefixItems, in either order of the vocabulary.",
 "C27": "C27_dependentRequired and C27_dependentSchemas are the rule. C27_dependentRequired_loose: a text or an object in place of the list of names is taken as its characters or its keys (the inside of dependentRequired is not checked, see C30).",
 "C29": "Proved where else is present whenever if rejects. Refuted: without else, a value rejected by if raises KeyError.",
 "C30": "C30_independent: the outcome does not depend on the value and is neither acceptance nor ValidationError. C30_parse_error_partial: it is SchemaParseError if the other keyword values are digestible. Refuted beyond: another exception may come first, and additionalItems, minContains and the inside of dependentRequired are not checked.",
 "C31": "Lazy validators are objects in a heap, created on loading the parent, filled on first use, possibly half filled by a failed load. For every history of ended calls on a loaded schema object the outcome of the next call is the one on a new object, and equals that of the memoryless model used elsewhere.",
 "C32": "Proved for every error but three kinds: uniqueItems appends the index to the path without a dot, items/prefixItems on a non-list lose the path, and a list shorter than the prefix is blamed one past its end. Each of the three is refuted by a witness.",
 "C33": "Raising is proved to work exactly when the formatted message parses, which holds for paths and details without braces; member names or format names with braces make the raise itself fail (refuted by witnesses). C33_fault and C33_exact: for every path of ASCII characters it is determined whether the error is raised or, by the first fault of the path as a format string, a KeyError, an IndexError or a ValueError; left out are attributes, indices, conversions and format specifications of fields that are there, as in {path.x}. C33_print_iff and C33_print_exact: the same for printing an error with a message of its own, which goes well exactly if the path and the message are in order.",
 "C34": "Proved in full for the vocabulary that ships with the library (C34_shipped), and for vocabularies or schemas without error-catching keywords and without items beside prefixItems, and for the instances of C36. Refuted beyond: not/anyOf/oneOf/contains/if treat a TypeError and a validation error differently, and items read before prefixItems raises KeyError.",
 "C35": "Refuted: an array of schemas (prefixItems, or items in its array form) longer than the instance list loops for ever when the missing element's schema accepts null. Proved in full for the shipped vocabulary with the shipped formats, and for every vocabulary without items/prefixItems; with them, for instances whose lists are at least as long as the schema's arrays.",
 "C36": "Proved for the schemas and values described by Fits, also with references (C36_refs_partial). Fits leaves out numbers beyond the exponents of the decimal context under multipleOf (C18) and what other properties refute: floats that print differently from their value, integral floats as integers, members named in properties and matched by a pattern, prefixItems next to items, lists shorter than the prefix, maxContains: 0, if without else, unevaluatedProperties: false next to other applicators, booleans as schemas in some places, enum members that cannot be compared with the value (C84), composite const values and uniqueItems items.",
 "C37": "Proved exactly when it holds: always for integers and decimals. Refuted for floats whose printed value differs from their exact value, such as 0.1. C37_integral: floats that are integers below 2^53 satisfy their own literal; an example shows the float of C37_float_violated is the one Python reads from 0.1.",
 "C38": "Refuted: two finite tables, compared in full; C38_members_partial lists what is contained and C38_ignored says that keywords outside a vocabulary have no effect.",
 "C39": "Model/Schema.lean. What a reference shows is the target's members with its own other members, without $ref (spec Merged, stated apart from the model's overlay), and validating through it is validating an object with those members. C39_objects says the same of the object model.",
 "C40": "Model/Objects.lean, from raw data through load. Proved outside arrays for every state, document and vocabulary with the core applicators, when load returns; load is proved to return for documents whose references are local (Proofs/LoadRuns.lean). Refuted inside arrays. C40_arrays: loading leaves every array as it was written.",
 "C41": "Proved with the order in which the loader registers names (an object after the objects inside it). Refuted for document order: an enclosing object registered later wins.",
 "C42": "Histories of create/load/value/query calls on any number of schemas, succeeding or failing. Once a schema has loaded, load and value change nothing and always give the same object.",
 "C43": "For every state, vocabulary and document without core members outside arrays: load succeeds, changes only the ready flag, and the document still shows its data.",
 "C44": "Refuted: a property named id whose schema is an object fails to load. Proved for vocabularies without the id applicator, for documents without $ref and $anchor.",
 "C45": "Refuted: {\"$ref\": \"#\"} loads and no query for a member of it ends; {\"not\": {\"$ref\": \"#\"}} never validates. Proved: a reference shows something exactly when no chain of references it needs is infinite; then queries end; with the shipped vocabulary validation then ends for every value, and for other vocabularies when the schemas applied to the value itself are well founded (Ranked).",
 "C46": "Proved for Uri arguments and for load. get and in take a text as key without parsing it: refuted for a text with a fragment, proved for texts that are base URI texts. C46_text determines what get and in answer to every text.",
 "C48": "Fails for paths that begin with a backslash (http://a\\/../x prints as http://ax); proved for all other texts of the stated shape. C48_exact: with scheme and authority, a URI is read again exactly if its path is empty or begins with a slash or a backslash; C48_relative: with neither, always.",
 "C50": "Each clause is proved where it holds; refuted: absolute URIs with an illegal character in the path, bases without a slash in the path, references beginning with // that look absolute, dot segments that lead above the root. C50_relative_cut: what happens for every base without a slash in the path; C50_illegal: every absolute URI with an illegal path loses scheme and authority. C50_dots_exact: exactly which paths that begin with a slash are normalised as RFC 3986 says; the others lose one slash.",
 "C52": "Holds exactly when what follows the mapped prefix does not climb; always when the URI has a scheme and the prefix ends at a slash or before the path. Refuted: prefix ending inside a segment, URIs without scheme.",
 "C53": "The lru_cache makes the answer stale after a new registration (refuted); proved for URIs not asked for before the last registration of their scheme. C53_stale: any answer once given stays, whatever is registered, at least until the 128th further question.",
 "C55": "Proved for date, time and offset. Refuted: the fraction is dropped, and a text with one colon raises IndexError instead of ValueError. For every text it is determined whether a result, IndexError or ValueError comes out (C55_exact).",
 "C56": "Proved for time and offset, and for fractions of exactly six digits. Refuted: a shorter fraction is read as that many microseconds; one colon raises IndexError, a final newline AttributeError. For every text it is determined whether a result, IndexError, AttributeError or ValueError comes out (C56_exact), and which fractions are read as written (C56_fraction).",
 "C57": "Proved for every duration of whole seconds but 0, which is printed as P and not read back (refuted). C57_exact: the empty duration is the only one that is not read again.",
 "C58": "Proved for all built in formats but date-time and time; for these two unless the text has one colon or ends in a newline, where IndexError or AttributeError is raised (refuted). For these two the outcome is determined for every text (C58_times).",
 "C60": "What is accepted is described exactly: the grammar with four more letters (case folding) and possibly a final newline. On ASCII text without final newline it is the grammar. Refuted for the newline and the Kelvin sign.",
 "C62": "Reading is proved for every duration text with whole seconds below 2^53 (C62_reads), exactly for fractions of up to six digits and seconds below 2^33 (C62_fraction), and to within a microsecond for longer fractions (C62_near). C62_large_violated: the text PT8589934592.000001S is read a microsecond too long. Refused texts raise ValueError, except AttributeError for a final newline and OverflowError for too long durations (refuted). C62_beyond: 10^9 days in seconds and more raise OverflowError.",
 "C63": "The accepted sets are described exactly by the patterns' languages. Refuted: a private address passes if an @ follows in the path, and an ideographic space is accepted in a host. C63_hidden: no text without white space before an @ is refused, private address or not.",
 "C64": "Refuted: {\"x\": {\"a\": {\"$ref\": \"#/b\"}}, \"y\": {\"$ref\": \"#foo\"}} raises ValueError when loaded, and a second load never ends, because the reference left by the first asks the schema that is still not loaded for its target. Proved where references stand in the first layer only and loads fail because files cannot be read: after any number of such attempts the next returns or raises, and once the files can be read it returns and the schema shows its data. Missing there: loads that fail for other reasons.",
 "C65": "Relates the objects (Model/Objects.lean) to the trees (Model/Schema.lean) on which C10, C39 and C45 are stated. Covers documents without $id and id whose references are local and have no $anchor beside them; vocabularies with the three core keywords in the usual order. Validation itself is modelled on trees only.",
 "C66": "On trees (Model/Schema.lean). Spec/Unfold.lean writes out the references at the places of subschemas; C66_unfold says that what the unfolding decides without any documents is what the schema decides. C36_refs_partial applies it to the meaning of schemas; the example covers lists of any length.",
 "C67": "The grammar (Spec/Formats.lean) is stated on texts built by joining pieces, apart from the index arithmetic of ipaddress that the model follows.",
 "C68": "Extends C65 to identifiers and references between documents; C65_query and C65_node apply to the resulting state. Covers documents whose objects, apart from the root, have no $id and id, and references to objects without core members of documents that have been loaded. Not covered: documents a reference loads from a file, embedded identifiers. C68_truth is the fact on which RefKeyword decides whether a reference is local.",
 "C69": "Refuted for every IP pattern and world: with {\"$id\": \"http://a/\", \"x\": true} found for every URI, {\"p\": {\"$ref\": \"http://a/\"}} loads, and after the query /p/x an equal document raises ValueError, since the $id of the loaded target is seen through the reference. C69_partial: it holds where the targets have no core members.",
 "C70": "Refuted: the $id of the root is registered after the members were processed, so {\"$id\": \"http://a/\", \"p\": {\"$ref\": \"http://a/#/q\"}, …} asks the loader for itself; it fails, or leads into a copy. Positive part (C70_partial): a document the store was asked for stands under its identifier before it is loaded, and then its references to its own identifier lead to it, for all libraries of C93. Local references of a document with $id are covered by C68.",
 "C71": "Refuted in three ways: local references in the embedded object are read in the outer document; if they lead somewhere, reading the object through its identifier raises AttributeError; and each load of the embedded schema puts another schema under the identifier. Positive part (C71_reads_partial): documents with identifiers at any depth outside arrays load, and every sequence of reads through the identifiers of objects without $ref finds the very objects of the document, each identifier keeping its object. Missing: embedded objects with $ref inside.",
 "C72": "Refuted in general by what refutes C36 (C72_violated: a member named in properties whose pattern is passed over, from the data on, with the vocabulary of draft 2020-12). Positive part: From raw data: C68 (loading) and C36_refs (judging) joined. Model/Whole.lean reads the objects of the loaded schemas as trees and validates with these; the code's validators hold the objects and read them through type, value and members; C95_whole says that this gives the same. Left out: what Fits leaves out (see C36), roots that are booleans (not constructible) or lists. C72_next is a case: a self-referring schema, values of any depth.",
 "C73": "UUID(text) of Python 3.11 is modelled (Model/FormatTexts.lean) for every Unicode table that agrees with ASCII. C73_accepts: every RFC 4122 text is accepted, also in braces or with urn:uuid:. C73_digits_partial: of the texts of hexadecimal digits and hyphens exactly those with 32 digits, wherever the hyphens are. C73_foreign_partial: a text with any character outside these, braces, urn:uuid:, x, _, +, white space and foreign decimal digits is refused. C73_violated: 0x, sign, underscores, blanks, misplaced hyphens are accepted. C73_decides (Spec/FormatExact.lean): exactly which texts are accepted, also beyond ASCII.",
 "C74": "b64decode of Python 3.11 (not strict) is modelled. C74_decides says exactly which texts are accepted: ASCII, and after dropping other characters `Enough`. C74_accepts: all base64 texts. C74_plain_partial: without = and foreign characters, only those. C74_violated: '!!!', 'AAA=A', '=' and others are accepted though not base64.",
 "C75": "C75_decides says which ASCII texts are accepted: a numeral in the range of Decimal between white space, underscores not counted. C75_plain_partial: texts without white space and underscores. C75_accepts_partial: numerals of reasonable size are accepted. C75_range_violated: numerals out of range are refused. C75_violated: underscores anywhere and outer white space are accepted. C75_others: values that are not texts. C75_all: the same as C75_decides for all texts, also beyond ASCII.",
 "C76": "Model/Edit.lean models the writing methods of JsonObject and JsonArray and the MutableMapping methods made of them, on the memory of Model/Objects.lean. For every state reached by any program of calls and such writes with plain data: each operation changes the object it is called on as said (Sets, Drops, SetsAll, Removes of Spec/Edit.lean), all data that leads to the object, also through a reference that stands for it, is rewritten in that place only; data that does not lead to it and all schemas stay. Not covered: array[i] = value with plain data, which is stored as it is, and the non-string keys of objects; setdefault returns the plain value, not the wrapped one, when it writes. C76_put and C76_putAt: writing wrapped values, which must not contain what they are written to (C76_cycle: else the document contains itself). C76_slice: slices without a step.",
 "C77": "C77_paths_partial: after any program of calls and writes of plain data to objects, the path of everything inside an object is that object's path followed by the tokens walked, and its root the same. C77_root: created documents stay roots. C77_stable_partial: path and root of an object never change, so the cached_property is harmless. Refuted where the code moves objects: del array[i] (C77_delAt_violated), writing wrapped values into objects and arrays (C77_put_violated, C77_putAt_violated), slices (C77_slice_violated).",
 "C78": "C78_uri: the identifier is local://<digest of the text of the data>/ and absolute. C78_apart_partial: documents in which no string looks like the text of something else (Clear) and whose texts do not collide under the hash have different identifiers. C78_kept, C78_set: it is kept, and a set one is kept. Refuted: strings are shown without quotes inside wrapped data, so that {'a': 1} and {'a': '1'} share an identifier (C78_apart_violated); the order of members matters (C78_order_violated); after an edit it does not follow the data (C78_edited_violated). C78_quote: names of members stand in quotes, escaped to printable characters.",
 "C79": "C79_sum: the result is the exact sum rounded to the nearest number of 28 digits, ties to even (Rounds of Spec/Arith.lean, which determines it), and sums of at least (10^28 - 1/2)*10^999972 raise decimal.Overflow. C79_exact_partial: exact for sums of at most 28 digits. C79_commutative, C79_monotone, C79_non_numbers. Refuted: exactness beyond 28 digits (C79_exact_violated), associativity (C79_associative_violated), a plain number on the left raises TypeError, as there is no __radd__ (C79_left_violated). Signalling NaNs are not modelled.",
 "C80": "Exponents so large that int() exhausts memory are not distinguished.",
 "C81": "C81_order_partial: on values of one shape (numbers without NaN, texts, booleans, arrays of one shape nested to any depth) all five comparisons answer by the order Before of Spec/Compare.lean, of which exactly one of before, equal, after holds. C81_transitive, C81_plain, C81_kinds. Refuted: a boolean on the left of a number answers while the mirrored comparison raises TypeError (C81_mirror_violated); NaN raises InvalidOperation (C81_nan_violated). C81_arrays with C81_arrays_cover: arrays of any items, decided by the first items that are not the same. References are not covered.",
 "C82": "C82_slice describes every slice position by position; C82_index, C82_members, C82_sequence, C82_index_range (index with start and stop), C82_refused, C82_from_list, C82_parts. Refuted: pointers with the same tokens are not equal, there is no __eq__ (C82_equal_violated); the text of an empty part is / (C82_parts_violated).",
 "C83": "C83_extension describes os.path.splitext for the supported extensions; C83_file, C83_load and C83_store follow a uri from the store to the file, after any history without a resolver for its scheme. Refuted: the path is not percent-decoded (C83_decoded_violated), the host is not looked at (C83_host_violated). What open and the parsers do is a parameter.",
 "C84": "C84_enum_partial: for members that are scalars or Comparable with the value (no number or boolean below the top level meets another kind, no float prints as another number) the answer is JSON equality (SameJson). Refuted: ['a'] against enum [[1]] raises TypeError (C84_raises_violated), [true] is accepted for [[1]] (C84_boolean_violated), const with an array or object raises SchemaParseError (C84_const_violated).",
 "C85": "C85_mapping: all six methods against the union of the names of the target and its own (Model/References.lean). C85_equal and C85_equal_itself: comparisons follow references (spec Stands); C85_ends: they end if no chain of references is infinite, also on documents that contain themselves. Refuted for arrays: ref[i], and query through a reference to an array, raise KeyError unless the number i is itself an element (C85_index_violated); C85_index_partial says exactly when the element is found. References of a schema that is being loaded and elements that are references, in `in`, are not modelled.",
 "C86": "JsonType.__bool__ against Truthy of Spec/References.lean; a float must be printed as zero exactly if it is zero (ZeroAlike), which repr of Python does.",
 "C87": "Refuted for most keywords. C87_lists_violated: required, allOf, anyOf, oneOf, prefixItems, items, type given as a reference to an array raise an exception for every value (JsonReference has no __iter__ and indexing looks the number up among the elements; that this always fails is a pigeonhole argument). C87_counts_violated: lengths and sizes raise TypeError. C87_type_violated: the name of a type is refused. C87_multipleOf_violated: no verdict. C87_const_violated: booleans are never accepted. C87_violated has concrete documents. What holds: bounds and const compare, floats by their printed value (C87_maximum_partial and the like, C87_const_partial); with bounds this differs from a bound in place (C87_bound_violated). Not modelled: enum, minContains, maxContains and the lists inside dependentRequired by reference. C87_format_violated: format by reference is refused; C87_pattern_violated: what pattern by reference accepts does not depend on the text it leads to, since both take the printed reference (C87_pattern_partial, C87_texts_violated).",
 "C88": "C88_blame, C88_subschema and, for the shipped vocabulary and formats, C88_library: the error implies HasFault (Spec/Malformed.lean), an object reached through subschema keywords and references that is malformed in a keyword of the vocabulary. C88_malformed is the converse for the object itself; a format given by reference is left out there, since a format could be registered under the printed reference. C88_hidden has a fault behind a reference. Registered checkers are assumed not to raise SchemaParseError themselves (FormatsSound; shown for the shipped ones).",
 "C89": "Refuted. In both class methods the second line of the message is an expression statement of its own, so that keyword and types are dropped: C89_message_violated, C89_keyword_violated (no function of the message yields the keyword). The messages about minContains and maxContains lack the place: C89_limit_violated. What holds: the path attribute and, otherwise, the place in the message (C89_place_partial); unknown formats and limits are named (C89_named_partial). C89_about: the statement that is reached is about the keyword that is read, and the dependency it names is the one that is missing. C89_raised links the raise statements to the model of loading. Not stated: behind a $ref the place is that of the reference.",
 "C90": "Holds for properties, patternProperties, additionalProperties, unevaluatedProperties, propertyNames, dependentRequired and dependentSchemas: C90_objects_partial (with any set of these keywords a value that is no object is treated like the empty object and never rejected; nested loading can still fail on a malformed schema). Refuted for each other keyword about one type: C90_violated gives for each a schema that accepts a value of its type and not null. The remaining theorems say what happens with every value of another type: C90_sizes_violated, C90_bounds_violated, C90_multipleOf_violated, C90_pattern_violated, C90_items_violated (items given as an array), C90_uniqueItems_violated, C90_contains_violated, C90_required_violated.",
 "C91": "First half proved: C91_blame (any formats that raise no re.error), C91_library (vocabulary and formats as shipped). A pattern given by reference counts as bad, since the text of the reference object is compiled (C87). Second half refuted: C91_violated; C91_pattern_violated (re.error instead, for every value), C91_key_unnoticed and C91_key_noticed (a key of patternProperties is compiled only when a property is tried against it). C91_pattern: a bad pattern never gives a verdict.",
 "C92": "C92_equality and C92_answers with C92_covers, against Same, Clash and Compares of Spec/Equality.lean. The operands are distinct objects (CPython's identity shortcut for list items is not modelled).",
 "C93": "Refuted in general (C93_violated): two documents, no cycle, one of which refers to a reference of the other, load in one order only (C93_order); in the other order load calls itself without end. Positive part: C93_loads, C93_mirrors, C93_completes, C93_judged_partial, for libraries in which a reference to another document leads to an object, without passing references, that has no $anchor, $id or id (WebRef, PlainLeads of Spec/Web.lean). Schemas loaded on demand: C94, C95.",
 "C94": "Refuted in general (C94_violated): of the two documents of C93_violated the first is loaded; a query that comes to the second never ends, though it returns an object if the second was loaded first. Positive part: C94_query, C94_kind, C94_says. The same results for every amount of fuel from some amount on, so queries that do not end are covered. Proved for the documents of C93 (references between documents lead to objects without $anchor, $id or id, without passing references), when the library has finitely many identifiers.",
 "C95": "Refuted in general (C95_violated: with the documents of C93_violated validate never ends, or accepts, by the order of loading). Positive part: C95_trees, C95_whole (all loaded: the same as with trees, both ways), C95_validate (any state), C95_judged_partial (JSON Schema), C95_again (a second look finds the same, so that the model, which looks once where the code looks several times, reads what the code reads), C95_hop (two documents that go on in each other, nothing loaded, values of any depth). Model/Validating.lean writes what a keyword reads as a program over objects or trees; readKw_tree of Proofs/Validating says that on trees it is the keyword of Model/Keywords. Left out: what Fits leaves out (see C36) in C95_judged_partial; (validators that remember what they read: C96).",
 "C96": "Refuted in general (C96_violated, as C95_violated). Positive part: C96_reached (the objects are those of a program that validates nothing), C96_validate (the outcome, both ways), C96_judged_partial (JSON Schema), C96_hop (two documents that go on in each other, three calls in a row, values of any depth). Left out: what Fits leaves out (see C36) in C96_judged_partial; a call with new validators from the state before the call is compared only through C96_judged_partial, since it may make the same documents in another order; the lru_cache of query.",
 "C97": "C97_shipped proves it in full for the vocabulary and formats the library ships with. C97_vocabulary_partial and C97_region_partial: any vocabulary, for schemas that do not use the keywords that catch errors (anyOf, oneOf, not, if and contains); C97_fits_partial: any vocabulary and these keywords, if the value has the types the keywords are for (Fits, see C36). C97_violated: without that it is false, since `not` accepts one order and raises TypeError for the other. C97_exception_violated: which exception is raised depends on the order, with the vocabulary that ships, too. Registered formats must not look at the order (FormatsBlind), proved of those that ship from Printed: str of a list or dictionary begins with a bracket or brace.",
 "C98": "C98_says_partial: every ValidationError tells the truth in the sense of Spec/Complaint, which lists for each code what is wrong; C98_schema_partial for a whole schema, C98_builtin_partial with the formats the library ships with and no hypothesis. Where the code deviates from JSON Schema the list says so: const by reference (C98_const_violated), items that are missing (C98_missing_violated), 1 as true for exclusiveMaximum, characters of a string as items, members of enum that cannot be compared.",
 "C99": "C99_region_partial and C99_schema_partial: what one order accepts, any other accepts, for schemas without the keywords that catch errors and with plain names in required and dependentRequired; with objects in enum, the other order may instead raise TypeError. C99_both_partial and C99_vocabulary_partial: then the two accept the same values. C99_shipped_partial: the vocabulary that ships, nothing asked of the schemas. C99_violated: an object in enum in two orders, one accepted and one TypeError; C99_not_violated: two orders of dependentSchemas under not."
}
