{"claims": [
{"property": "C01", "status": "proved", "theorems": ["Verif.Props.C01_token_round_trip"], "note": ""},
{"property": "C02", "status": "proved", "theorems": ["Verif.Props.C02_parse_iff", "Verif.Props.C02_parse_total"], "note": ""},
{"property": "C03", "status": "proved", "theorems": ["Verif.Props.C03_text_round_trip", "Verif.Props.C03_empty"], "note": ""},
{"property": "C04", "status": "partial", "theorems": ["Verif.Props.C04_print_injective_violated", "Verif.Props.C04_print_injective_partial"], "note": "False of the code: the empty pointer and [\"\"] both print as \"/\"; that is the only clash."},
{"property": "C05", "status": "proved", "theorems": ["Verif.Props.C05_wrapped_equals_source"], "note": ""},
{"property": "C06", "status": "partial", "theorems": ["Verif.Props.C06_path_partial", "Verif.Props.C06_anchor_violated", "Verif.Props.C06_programs_partial", "Verif.Props.C06_own_violated"], "note": "Documents as mutable objects with parents (Model/Objects.lean). Proved for every program: whatever schemas are made from plain data with whatever vocabularies, loaded, read and queried in any order, with whatever plain files and failures, the path of every object inside a schema is the path of the schema's value (empty for created schemas) followed by the tokens walked, also through own members of references; where no reference is passed, the root is that of the value, and in loaded schemas query(tokens) returns the very object and changes nothing. Before loading, for documents to which no applicator applies: query(path) loads and returns the very object. Refuted where an anchor has the name of a member, and for members beside $ref that the object referred to also has. Excluded: the single empty token, indices of more than 4300 digits."},
{"property": "C07", "status": "proved", "theorems": ["Verif.Props.C07_comparisons_exact", "Verif.Props.C07_trichotomy", "Verif.Props.C07_transitive", "Verif.Props.C07_non_numbers"], "note": ""},
{"property": "C08", "status": "proved", "theorems": ["Verif.Props.C08_object_is_map"], "note": ""},
{"property": "C09", "status": "partial", "theorems": ["Verif.Props.C09_exact", "Verif.Props.C09_equality_total_violated", "Verif.Props.C09_equality_symmetric_violated", "Verif.Props.C09_equality_partial"], "note": "Refuted: comparing a wrapped number with a wrapped string raises TypeError, in the other order it answers False. C09_exact says for every pair of wrapped values (references aside) whether they compare equal, unequal or raise, by Same and Clash of Spec/Equality.lean. C09_equality_partial: where both orders answer they agree."},
{"property": "C10", "status": "partial", "theorems": ["Verif.Props.C10_exact", "Verif.Props.C10_found", "Verif.Props.C10_query_partial", "Verif.Props.C10_text", "Verif.Props.C10_root_violated", "Verif.Props.C10_index_violated"], "note": "query and queryDoc against RFC 6901 evaluation on documents without references and anchors. Refuted for the pointer '/' (returns the root) and for texts int() reads beyond RFC 6901 indices. Proved otherwise, with the exact condition for each exception. C10_exact determines the outcome of every pointer of ASCII tokens: the value found or the error raised, with numbers as Python's int reads them and negative ones counted from the end."},
{"property": "C11", "status": "partial", "theorems": ["Verif.Props.C11_partial", "Verif.Props.C11_answers", "Verif.Props.C11_modified", "Verif.Props.C11_violated"], "note": "Refuted for histories of nothing but queries (C11_violated): a query loads its schema; a load that raised leaves references behind, the next load walks through them into the objects of another, loaded schema and puts a reference there; the table still has the former object. Positive part: Model/Cache.lean: the lru_cache of query (any size, shared by all schemas, keyed by schema and argument, pointers by identity) and the cached properties of references. Proved for every history of queries and reads of references on loaded schemas, also when more documents are loaded in between, provided what was there stays unmodified (C11_modified shows that this is needed). Not covered: entries made while a schema is being loaded."},
{"property": "C12", "status": "proved", "theorems": ["Verif.Props.C12_conjunction", "Verif.Props.C12_unknown"], "note": ""},
{"property": "C13", "status": "proved", "theorems": ["Verif.Props.C13_bool", "Verif.Props.C13_composition", "Verif.Props.C13_items", "Verif.Props.C13_dependentSchemas", "Verif.Props.C13_members", "Verif.Props.C13_object_only"], "note": ""},
{"property": "C14", "status": "proved", "theorems": ["Verif.Props.C14_type", "Verif.Props.C14_unknown_type"], "note": ""},
{"property": "C15", "status": "proved", "theorems": ["Verif.Props.C15_enum"], "note": ""},
{"property": "C16", "status": "proved", "theorems": ["Verif.Props.C16_const"], "note": ""},
{"property": "C17", "status": "partial", "theorems": ["Verif.Props.C17_maximum_one", "Verif.Props.C17_minimum_one", "Verif.Props.C17_maximum_partial", "Verif.Props.C17_exclusiveMaximum_one_violated", "Verif.Props.C17_minimum_partial", "Verif.Props.C17_exclusiveMinimum_one_violated"], "note": "Proved for all finite numbers and both forms, except a numeric exclusiveMaximum/exclusiveMinimum of 1 next to maximum/minimum, which the code takes for true (1 == True) and so makes the other bound strict (refuted). C17_maximum_one, C17_minimum_one: there both bounds are strict, so that the only number judged wrongly is the bound itself."},
{"property": "C18", "status": "partial", "theorems": ["Verif.Props.C18_large", "Verif.Props.C18_multipleOf_partial", "Verif.Props.C18_multipleOf_violated"], "note": "C18_multipleOf_partial: for quotients below 10^28 and numbers within the exponents of the default decimal context (no digit after the 1000026th after the point, magnitude at most 10^999999). C18_multipleOf_violated: beyond these Decimal's % rounds the remainder to 0 (1E-2000000 is accepted as a multiple of 1) or raises decimal.Overflow. C18_large: multipleOf 0 and quotients of 10^28 or more raise InvalidOperation, for multiples and others."},
{"property": "C19", "status": "proved", "theorems": ["Verif.Props.C19_minLength", "Verif.Props.C19_maxLength"], "note": ""},
{"property": "C20", "status": "proved", "theorems": ["Verif.Props.C20_minItems", "Verif.Props.C20_maxItems", "Verif.Props.C20_minProperties", "Verif.Props.C20_maxProperties"], "note": ""},
{"property": "C21", "status": "proved", "theorems": ["Verif.Props.C21_uniqueItems", "Verif.Props.C21_uniqueItems_false"], "note": ""},
{"property": "C22", "status": "partial", "theorems": ["Verif.Props.C22_contains_partial", "Verif.Props.C22_maxContains_zero_violated", "Verif.Props.C22_zero"], "note": "Proved for all limits but maxContains: 0, which the code takes for absent (refuted). C22_zero: with it only minContains is looked at, for every list."},
{"property": "C23", "status": "partial", "theorems": ["Verif.Props.C23_items", "Verif.Props.C23_prefixItems_partial", "Verif.Props.C23_tuple_items_partial", "Verif.Props.C23_short_list_violated", "Verif.Props.C23_both_violated", "Verif.Props.C23_short", "Verif.Props.C23_short_never", "Verif.Props.C23_tuple_short", "Verif.Props.C23_both_order", "Verif.Props.C23_both"], "note": "items alone is proved in full. Tuples are proved for lists at least as long as the tuple. Refuted: shorter lists are rejected or loop for ever, and items next to prefixItems raises KeyError or starts at index 0. C23_short, C23_tuple_short, C23_short_never: what happens on every shorter list, of which none is accepted. C23_both, C23_both_order: what happens with items next to prefixItems, in either order of the vocabulary."},
{"property": "C24", "status": "proved", "theorems": ["Verif.Props.C24_partition", "Verif.Props.C24_unevaluated", "Verif.Props.C24_additional_true_with_unevaluated_false"], "note": ""},
{"property": "C25", "status": "proved", "theorems": ["Verif.Props.C25_propertyNames"], "note": ""},
{"property": "C26", "status": "proved", "theorems": ["Verif.Props.C26_required"], "note": ""},
{"property": "C27", "status": "proved", "theorems": ["Verif.Props.C27_dependentRequired", "Verif.Props.C27_dependentRequired_loose", "Verif.Props.C27_dependentSchemas", "Verif.Props.C27_non_objects"], "note": "C27_dependentRequired and C27_dependentSchemas are the rule. C27_dependentRequired_loose: a text or an object in place of the list of names is taken as its characters or its keys (the inside of dependentRequired is not checked, see C30)."},
{"property": "C28", "status": "proved", "theorems": ["Verif.Props.C28_allOf", "Verif.Props.C28_anyOf", "Verif.Props.C28_oneOf", "Verif.Props.C28_not", "Verif.Props.C28_empty"], "note": ""},
{"property": "C29", "status": "partial", "theorems": ["Verif.Props.C29_conditional_partial", "Verif.Props.C29_no_if", "Verif.Props.C29_no_else_violated"], "note": "Proved where else is present whenever if rejects. Refuted: without else, a value rejected by if raises KeyError."},
{"property": "C30", "status": "partial", "theorems": ["Verif.Props.C30_independent", "Verif.Props.C30_parse_error_partial", "Verif.Props.C30_pattern_first_violated", "Verif.Props.C30_dependentRequired_violated", "Verif.Props.C30_unchecked_violated"], "note": "C30_independent: the outcome does not depend on the value and is neither acceptance nor ValidationError. C30_parse_error_partial: it is SchemaParseError if the other keyword values are digestible. Refuted beyond: another exception may come first, and additionalItems, minContains and the inside of dependentRequired are not checked."},
{"property": "C31", "status": "proved", "theorems": ["Verif.C31_agrees", "Verif.C31_no_memory", "Verif.C31_one_outcome", "Verif.C31_history"], "note": "Lazy validators are objects in a heap, created on loading the parent, filled on first use, possibly half filled by a failed load. For every history of ended calls on a loaded schema object the outcome of the next call is the one on a new object, and equals that of the memoryless model used elsewhere."},
{"property": "C32", "status": "partial", "theorems": ["Verif.Props.C32_blamed", "Verif.Props.C32_path_partial", "Verif.Props.C32_unique_violated", "Verif.Props.C32_missing_violated", "Verif.Props.C32_type_violated"], "note": "Proved for every error but three kinds: uniqueItems appends the index to the path without a dot, items/prefixItems on a non-list lose the path, and a list shorter than the prefix is blamed one past its end. Each of the three is refuted by a witness."},
{"property": "C33", "status": "partial", "theorems": ["Verif.Props.C33_fault", "Verif.Props.C33_exact", "Verif.Props.C33_print_iff", "Verif.Props.C33_print_exact", "Verif.Props.C33_raise_iff", "Verif.Props.C33_raise_partial", "Verif.Props.C33_print_partial", "Verif.Props.C33_name_violated", "Verif.Props.C33_value_violated"], "note": "Raising is proved to work exactly when the formatted message parses, which holds for paths and details without braces; member names or format names with braces make the raise itself fail (refuted by witnesses). C33_fault and C33_exact: for every path of ASCII characters it is determined whether the error is raised or, by the first fault of the path as a format string, a KeyError, an IndexError or a ValueError; left out are attributes, indices, conversions and format specifications of fields that are there, as in {path.x}. C33_print_iff and C33_print_exact: the same for printing an error with a message of its own, which goes well exactly if the path and the message are in order."},
{"property": "C34", "status": "partial", "theorems": ["Verif.Props.C34_region_partial", "Verif.Props.C34_vocabulary_partial", "Verif.Props.C34_shipped", "Verif.Props.C34_schema_partial", "Verif.Props.C34_fits_partial", "Verif.Props.C34_catching_violated", "Verif.Props.C34_prefix_violated"], "note": "Proved in full for the vocabulary that ships with the library (C34_shipped), and for vocabularies or schemas without error-catching keywords and without items beside prefixItems, and for the instances of C36. Refuted beyond: not/anyOf/oneOf/contains/if treat a TypeError and a validation error differently, and items read before prefixItems raises KeyError."},
{"property": "C35", "status": "partial", "theorems": ["Verif.Props.C35_vocabulary", "Verif.Props.C35_shipped", "Verif.Props.C35_long_partial", "Verif.Props.C35_library", "Verif.Props.C35_violated", "Verif.Props.C35_items_violated"], "note": "Refuted: an array of schemas (prefixItems, or items in its array form) longer than the instance list loops for ever when the missing element's schema accepts null. Proved in full for the shipped vocabulary with the shipped formats, and for every vocabulary without items/prefixItems; with them, for instances whose lists are at least as long as the schema's arrays."},
{"property": "C36", "status": "partial", "theorems": ["Verif.Props.C36_meaning", "Verif.Props.C36_judged_partial", "Verif.Props.C36_root_partial", "Verif.Props.C36_pattern_violated", "Verif.Props.C36_if_violated", "Verif.Props.C36_float_violated", "Verif.Props.C36_false_root_violated", "Verif.Props.C36_refs_partial"], "note": "Proved for the schemas and values described by Fits, also with references (C36_refs_partial). Fits leaves out numbers beyond the exponents of the decimal context under multipleOf (C18) and what other properties refute: floats that print differently from their value, integral floats as integers, members named in properties and matched by a pattern, prefixItems next to items, lists shorter than the prefix, maxContains: 0, if without else, unevaluatedProperties: false next to other applicators, booleans as schemas in some places, enum members that cannot be compared with the value (C84), composite const values and uniqueItems items."},
{"property": "C37", "status": "partial", "theorems": ["Verif.Props.C37_integral", "Verif.Props.C37_literal_iff", "Verif.Props.C37_float_violated"], "note": "Proved exactly when it holds: always for integers and decimals. Refuted for floats whose printed value differs from their exact value, such as 0.1. C37_integral: floats that are integers below 2^53 satisfy their own literal; an example shows the float of C37_float_violated is the one Python reads from 0.1."},
{"property": "C38", "status": "partial", "theorems": ["Verif.Props.C38_complete_violated", "Verif.Props.C38_members_partial", "Verif.Props.C38_ignored"], "note": "Refuted: two finite tables, compared in full; C38_members_partial lists what is contained and C38_ignored says that keywords outside a vocabulary have no effect."},
{"property": "C39", "status": "proved", "theorems": ["Verif.Props.C39_members", "Verif.Props.C39_validates", "Verif.Props.C39_objects"], "note": "Model/Schema.lean. What a reference shows is the target's members with its own other members, without $ref (spec Merged, stated apart from the model's overlay), and validating through it is validating an object with those members. C39_objects says the same of the object model."},
{"property": "C40", "status": "partial", "theorems": ["Verif.Props.C40_partial", "Verif.Props.C40_violated", "Verif.Props.C40_arrays"], "note": "Model/Objects.lean, from raw data through load. Proved outside arrays for every state, document and vocabulary with the core applicators, when load returns; load is proved to return for documents whose references are local (Proofs/LoadRuns.lean). Refuted inside arrays. C40_arrays: loading leaves every array as it was written."},
{"property": "C41", "status": "partial", "theorems": ["Verif.Props.C41_partial", "Verif.Props.C41_violated"], "note": "Proved with the order in which the loader registers names (an object after the objects inside it). Refuted for document order: an enclosing object registered later wins."},
{"property": "C42", "status": "proved", "theorems": ["Verif.Props.C42_again", "Verif.Props.C42_repeated"], "note": "Histories of create/load/value/query calls on any number of schemas, succeeding or failing. Once a schema has loaded, load and value change nothing and always give the same object."},
{"property": "C43", "status": "proved", "theorems": ["Verif.Props.C43_unchanged"], "note": "For every state, vocabulary and document without core members outside arrays: load succeeds, changes only the ready flag, and the document still shows its data."},
{"property": "C44", "status": "partial", "theorems": ["Verif.Props.C44_violated", "Verif.Props.C44_partial"], "note": "Refuted: a property named id whose schema is an object fails to load. Proved for vocabularies without the id applicator, for documents without $ref and $anchor."},
{"property": "C45", "status": "partial", "theorems": ["Verif.Props.C45_chains", "Verif.Props.C45_query_partial", "Verif.Props.C45_validates_partial", "Verif.Props.C45_shipped_partial", "Verif.Props.C45_violated", "Verif.Props.C45_not_violated"], "note": "Refuted: {\"$ref\": \"#\"} loads and no query for a member of it ends; {\"not\": {\"$ref\": \"#\"}} never validates. Proved: a reference shows something exactly when no chain of references it needs is infinite; then queries end; with the shipped vocabulary validation then ends for every value, and for other vocabularies when the schemas applied to the value itself are well founded (Ranked)."},
{"property": "C46", "status": "partial", "theorems": ["Verif.Props.C46_text", "Verif.Props.C46_get", "Verif.Props.C46_contains", "Verif.Props.C46_load", "Verif.Props.C46_load_text", "Verif.Props.C46_add", "Verif.Props.C46_text_partial", "Verif.Props.C46_text_violated"], "note": "Proved for Uri arguments and for load. get and in take a text as key without parsing it: refuted for a text with a fragment, proved for texts that are base URI texts. C46_text determines what get and in answer to every text."},
{"property": "C47", "status": "proved", "theorems": ["Verif.Props.C47_once", "Verif.Props.C47_failure", "Verif.Props.C47_stays"], "note": ""},
{"property": "C48", "status": "partial", "theorems": ["Verif.Props.C48_exact", "Verif.Props.C48_relative", "Verif.Props.C48_round_trip_partial", "Verif.Props.C48_round_trip_violated"], "note": "Fails for paths that begin with a backslash (http://a\\/../x prints as http://ax); proved for all other texts of the stated shape. C48_exact: with scheme and authority, a URI is read again exactly if its path is empty or begins with a slash or a backslash; C48_relative: with neither, always."},
{"property": "C49", "status": "proved", "theorems": ["Verif.Props.C49_copy", "Verif.Props.C49_base", "Verif.Props.C49_normal"], "note": ""},
{"property": "C50", "status": "partial", "theorems": ["Verif.Props.C50_relative_cut", "Verif.Props.C50_illegal", "Verif.Props.C50_dots_exact", "Verif.Props.C50_absolute_partial", "Verif.Props.C50_empty", "Verif.Props.C50_absolute_path", "Verif.Props.C50_relative_partial", "Verif.Props.C50_dots_partial", "Verif.Props.C50_dots_violated", "Verif.Props.C50_no_dots_partial", "Verif.Props.C50_absolute_violated", "Verif.Props.C50_relative_violated", "Verif.Props.C50_no_dots_violated"], "note": "Each clause is proved where it holds; refuted: absolute URIs with an illegal character in the path, bases without a slash in the path, references beginning with // that look absolute, dot segments that lead above the root. C50_relative_cut: what happens for every base without a slash in the path; C50_illegal: every absolute URI with an illegal path loses scheme and authority. C50_dots_exact: exactly which paths that begin with a slash are normalised as RFC 3986 says; the others lose one slash."},
{"property": "C51", "status": "proved", "theorems": ["Verif.Props.C51_hash", "Verif.Props.C51_equivalence", "Verif.Props.C51_parts"], "note": ""},
{"property": "C52", "status": "partial", "theorems": ["Verif.Props.C52_below_partial", "Verif.Props.C52_below_only", "Verif.Props.C52_scheme_partial", "Verif.Props.C52_uncovered", "Verif.Props.C52_below_violated", "Verif.Props.C52_relative_violated"], "note": "Holds exactly when what follows the mapped prefix does not climb; always when the URI has a scheme and the prefix ends at a slash or before the path. Refuted: prefix ending inside a segment, URIs without scheme."},
{"property": "C53", "status": "partial", "theorems": ["Verif.Props.C53_stale", "Verif.Props.C53_current_partial", "Verif.Props.C53_some_time", "Verif.Props.C53_current_violated"], "note": "The lru_cache makes the answer stale after a new registration (refuted); proved for URIs not asked for before the last registration of their scheme. C53_stale: any answer once given stays, whatever is registered, at least until the 128th further question."},
{"property": "C54", "status": "proved", "theorems": ["Verif.Props.C54_parse_iff", "Verif.Props.C54_otherwise", "Verif.Props.C54_inverts_printing"], "note": ""},
{"property": "C55", "status": "partial", "theorems": ["Verif.Props.C55_exact", "Verif.Props.C55_parse_partial", "Verif.Props.C55_failures_partial", "Verif.Props.C55_fraction_violated", "Verif.Props.C55_one_colon_violated"], "note": "Proved for date, time and offset. Refuted: the fraction is dropped, and a text with one colon raises IndexError instead of ValueError. For every text it is determined whether a result, IndexError or ValueError comes out (C55_exact)."},
{"property": "C56", "status": "partial", "theorems": ["Verif.Props.C56_exact", "Verif.Props.C56_fraction", "Verif.Props.C56_parse_partial", "Verif.Props.C56_six_digits_partial", "Verif.Props.C56_failures_partial", "Verif.Props.C56_fraction_violated", "Verif.Props.C56_errors_violated"], "note": "Proved for time and offset, and for fractions of exactly six digits. Refuted: a shorter fraction is read as that many microseconds; one colon raises IndexError, a final newline AttributeError. For every text it is determined whether a result, IndexError, AttributeError or ValueError comes out (C56_exact), and which fractions are read as written (C56_fraction)."},
{"property": "C57", "status": "partial", "theorems": ["Verif.Props.C57_round_trip_partial", "Verif.Props.C57_zero_violated", "Verif.Props.C57_exact"], "note": "Proved for every duration of whole seconds but 0, which is printed as P and not read back (refuted). C57_exact: the empty duration is the only one that is not read again."},
{"property": "C58", "status": "partial", "theorems": ["Verif.Props.C58_times", "Verif.Props.C58_answers_partial", "Verif.Props.C58_times_partial", "Verif.Props.C58_times_violated"], "note": "Proved for all built in formats but date-time and time; for these two unless the text has one colon or ends in a newline, where IndexError or AttributeError is raised (refuted). For these two the outcome is determined for every text (C58_times)."},
{"property": "C59", "status": "proved", "theorems": ["Verif.Props.C59_ipv4", "Verif.Props.C59_accepts"], "note": ""},
{"property": "C60", "status": "partial", "theorems": ["Verif.Props.C60_hostname_partial", "Verif.Props.C60_email_partial", "Verif.Props.C60_semver_partial", "Verif.Props.C60_ascii_partial", "Verif.Props.C60_newline_violated"], "note": "What is accepted is described exactly: the grammar with four more letters (case folding) and possibly a final newline. On ASCII text without final newline it is the grammar. Refuted for the newline and the Kelvin sign."},
{"property": "C61", "status": "proved", "theorems": ["Verif.Props.C61_registered", "Verif.Props.C61_unregistered", "Verif.Props.C61_others"], "note": ""},
{"property": "C62", "status": "partial", "theorems": ["Verif.Props.C62_reads", "Verif.Props.C62_refuses_partial", "Verif.Props.C62_errors_violated", "Verif.Props.C62_fraction", "Verif.Props.C62_beyond", "Verif.Props.C62_near", "Verif.Props.C62_large_violated"], "note": "Reading is proved for every duration text with whole seconds below 2^53 (C62_reads), exactly for fractions of up to six digits and seconds below 2^33 (C62_fraction), and to within a microsecond for longer fractions (C62_near). C62_large_violated: the text PT8589934592.000001S is read a microsecond too long. Refused texts raise ValueError, except AttributeError for a final newline and OverflowError for too long durations (refuted). C62_beyond: 10^9 days in seconds and more raise OverflowError."},
{"property": "C63", "status": "partial", "theorems": ["Verif.Props.C63_hidden", "Verif.Props.C63_uri_partial", "Verif.Props.C63_uri_ascii_partial", "Verif.Props.C63_url_partial", "Verif.Props.C63_private_partial", "Verif.Props.C63_private_violated", "Verif.Props.C63_space_violated"], "note": "The accepted sets are described exactly by the patterns' languages. Refuted: a private address passes if an @ follows in the path, and an ideographic space is accepted in a host. C63_hidden: no text without white space before an @ is refused, private address or not."},
{"property": "C64", "status": "partial", "theorems": ["Verif.Props.C64_violated", "Verif.Props.C64_partial"], "note": "Refuted: {\"x\": {\"a\": {\"$ref\": \"#/b\"}}, \"y\": {\"$ref\": \"#foo\"}} raises ValueError when loaded, and a second load never ends, because the reference left by the first asks the schema that is still not loaded for its target. Proved where references stand in the first layer only and loads fail because files cannot be read: after any number of such attempts the next returns or raises, and once the files can be read it returns and the schema shows its data. Missing there: loads that fail for other reasons."},
{"property": "C65", "status": "proved", "theorems": ["Verif.Props.C65_loads", "Verif.Props.C65_query", "Verif.Props.C65_node"], "note": "Relates the objects (Model/Objects.lean) to the trees (Model/Schema.lean) on which C10, C39 and C45 are stated. Covers documents without $id and id whose references are local and have no $anchor beside them; vocabularies with the three core keywords in the usual order. Validation itself is modelled on trees only."},
{"property": "C66", "status": "proved", "theorems": ["Verif.Props.C66_unfold"], "note": "On trees (Model/Schema.lean). Spec/Unfold.lean writes out the references at the places of subschemas; C66_unfold says that what the unfolding decides without any documents is what the schema decides. C36_refs_partial applies it to the meaning of schemas; the example covers lists of any length."},
{"property": "C67", "status": "proved", "theorems": ["Verif.Props.C67_ipv6", "Verif.Props.C67_ip", "Verif.Props.C67_apart"], "note": "The grammar (Spec/Formats.lean) is stated on texts built by joining pieces, apart from the index arithmetic of ipaddress that the model follows."},
{"property": "C68", "status": "proved", "theorems": ["Verif.Props.C68_loads", "Verif.Props.C68_truth"], "note": "Extends C65 to identifiers and references between documents; C65_query and C65_node apply to the resulting state. Covers documents whose objects, apart from the root, have no $id and id, and references to objects without core members of documents that have been loaded. Not covered: documents a reference loads from a file, embedded identifiers. C68_truth is the fact on which RefKeyword decides whether a reference is local."},
{"property": "C69", "status": "partial", "theorems": ["Verif.Props.C69_violated", "Verif.Props.C69_partial"], "note": "Refuted for every IP pattern and world: with {\"$id\": \"http://a/\", \"x\": true} found for every URI, {\"p\": {\"$ref\": \"http://a/\"}} loads, and after the query /p/x an equal document raises ValueError, since the $id of the loaded target is seen through the reference. C69_partial: it holds where the targets have no core members."},
{"property": "C70", "status": "partial", "theorems": ["Verif.Props.C70_violated", "Verif.Props.C70_partial"], "note": "Refuted: the $id of the root is registered after the members were processed, so {\"$id\": \"http://a/\", \"p\": {\"$ref\": \"http://a/#/q\"}, \u2026} asks the loader for itself; it fails, or leads into a copy. Positive part (C70_partial): a document the store was asked for stands under its identifier before it is loaded, and then its references to its own identifier lead to it, for all libraries of C93. Local references of a document with $id are covered by C68."},
{"property": "C71", "status": "partial", "theorems": ["Verif.Props.C71_reads_partial", "Verif.Props.C71_violated", "Verif.Props.C71_renamed_violated"], "note": "Refuted in three ways: local references in the embedded object are read in the outer document; if they lead somewhere, reading the object through its identifier raises AttributeError; and each load of the embedded schema puts another schema under the identifier. Positive part (C71_reads_partial): documents with identifiers at any depth outside arrays load, and every sequence of reads through the identifiers of objects without $ref finds the very objects of the document, each identifier keeping its object. Missing: embedded objects with $ref inside."},
{"property": "C72", "status": "partial", "theorems": ["Verif.Props.C72_judged_partial", "Verif.Props.C72_next", "Verif.Props.C72_violated"], "note": "Refuted in general by what refutes C36 (C72_violated: a member named in properties whose pattern is passed over, from the data on, with the vocabulary of draft 2020-12). Positive part: From raw data: C68 (loading) and C36_refs (judging) joined. Model/Whole.lean reads the objects of the loaded schemas as trees and validates with these; the code's validators hold the objects and read them through type, value and members; C95_whole says that this gives the same. Left out: what Fits leaves out (see C36), roots that are booleans (not constructible) or lists. C72_next is a case: a self-referring schema, values of any depth."},
{"property": "C73", "status": "partial", "theorems": ["Verif.Props.C73_decides", "Verif.Props.C73_accepts", "Verif.Props.C73_digits_partial", "Verif.Props.C73_foreign_partial", "Verif.Props.C73_violated"], "note": "UUID(text) of Python 3.11 is modelled (Model/FormatTexts.lean) for every Unicode table that agrees with ASCII. C73_accepts: every RFC 4122 text is accepted, also in braces or with urn:uuid:. C73_digits_partial: of the texts of hexadecimal digits and hyphens exactly those with 32 digits, wherever the hyphens are. C73_foreign_partial: a text with any character outside these, braces, urn:uuid:, x, _, +, white space and foreign decimal digits is refused. C73_violated: 0x, sign, underscores, blanks, misplaced hyphens are accepted. C73_decides (Spec/FormatExact.lean): exactly which texts are accepted, also beyond ASCII."},
{"property": "C74", "status": "partial", "theorems": ["Verif.Props.C74_decides", "Verif.Props.C74_accepts", "Verif.Props.C74_plain_partial", "Verif.Props.C74_violated"], "note": "b64decode of Python 3.11 (not strict) is modelled. C74_decides says exactly which texts are accepted: ASCII, and after dropping other characters `Enough`. C74_accepts: all base64 texts. C74_plain_partial: without = and foreign characters, only those. C74_violated: '!!!', 'AAA=A', '=' and others are accepted though not base64."},
{"property": "C75", "status": "partial", "theorems": ["Verif.Props.C75_all", "Verif.Props.C75_decides", "Verif.Props.C75_plain_partial", "Verif.Props.C75_accepts_partial", "Verif.Props.C75_range_violated", "Verif.Props.C75_violated", "Verif.Props.C75_others"], "note": "C75_decides says which ASCII texts are accepted: a numeral in the range of Decimal between white space, underscores not counted. C75_plain_partial: texts without white space and underscores. C75_accepts_partial: numerals of reasonable size are accepted. C75_range_violated: numerals out of range are refused. C75_violated: underscores anywhere and outer white space are accepted. C75_others: values that are not texts. C75_all: the same as C75_decides for all texts, also beyond ASCII."},
{"property": "C76", "status": "proved", "theorems": ["Verif.Props.C76_set", "Verif.Props.C76_del", "Verif.Props.C76_pop", "Verif.Props.C76_popitem_empty", "Verif.Props.C76_popitem", "Verif.Props.C76_clear", "Verif.Props.C76_update", "Verif.Props.C76_setdefault", "Verif.Props.C76_delAt", "Verif.Props.C76_put", "Verif.Props.C76_putAt", "Verif.Props.C76_slice", "Verif.Props.C76_cycle"], "note": "Model/Edit.lean models the writing methods of JsonObject and JsonArray and the MutableMapping methods made of them, on the memory of Model/Objects.lean. For every state reached by any program of calls and such writes with plain data: each operation changes the object it is called on as said (Sets, Drops, SetsAll, Removes of Spec/Edit.lean), all data that leads to the object, also through a reference that stands for it, is rewritten in that place only; data that does not lead to it and all schemas stay. Not covered: array[i] = value with plain data, which is stored as it is, and the non-string keys of objects; setdefault returns the plain value, not the wrapped one, when it writes. C76_put and C76_putAt: writing wrapped values, which must not contain what they are written to (C76_cycle: else the document contains itself). C76_slice: slices without a step."},
{"property": "C77", "status": "partial", "theorems": ["Verif.Props.C77_paths_partial", "Verif.Props.C77_stable_partial", "Verif.Props.C77_root", "Verif.Props.C77_delAt_violated", "Verif.Props.C77_put_violated", "Verif.Props.C77_putAt_violated", "Verif.Props.C77_slice_violated"], "note": "C77_paths_partial: after any program of calls and writes of plain data to objects, the path of everything inside an object is that object's path followed by the tokens walked, and its root the same. C77_root: created documents stay roots. C77_stable_partial: path and root of an object never change, so the cached_property is harmless. Refuted where the code moves objects: del array[i] (C77_delAt_violated), writing wrapped values into objects and arrays (C77_put_violated, C77_putAt_violated), slices (C77_slice_violated)."},
{"property": "C78", "status": "partial", "theorems": ["Verif.Props.C78_uri", "Verif.Props.C78_apart_partial", "Verif.Props.C78_apart_violated", "Verif.Props.C78_order_violated", "Verif.Props.C78_kept", "Verif.Props.C78_set", "Verif.Props.C78_edited_violated", "Verif.Props.C78_quote"], "note": "C78_uri: the identifier is local://<digest of the text of the data>/ and absolute. C78_apart_partial: documents in which no string looks like the text of something else (Clear) and whose texts do not collide under the hash have different identifiers. C78_kept, C78_set: it is kept, and a set one is kept. Refuted: strings are shown without quotes inside wrapped data, so that {'a': 1} and {'a': '1'} share an identifier (C78_apart_violated); the order of members matters (C78_order_violated); after an edit it does not follow the data (C78_edited_violated). C78_quote: names of members stand in quotes, escaped to printable characters."},
{"property": "C79", "status": "partial", "theorems": ["Verif.Props.C79_sum", "Verif.Props.C79_exact_partial", "Verif.Props.C79_commutative", "Verif.Props.C79_monotone", "Verif.Props.C79_non_numbers", "Verif.Props.C79_exact_violated", "Verif.Props.C79_associative_violated", "Verif.Props.C79_left_violated"], "note": "C79_sum: the result is the exact sum rounded to the nearest number of 28 digits, ties to even (Rounds of Spec/Arith.lean, which determines it), and sums of at least (10^28 - 1/2)*10^999972 raise decimal.Overflow. C79_exact_partial: exact for sums of at most 28 digits. C79_commutative, C79_monotone, C79_non_numbers. Refuted: exactness beyond 28 digits (C79_exact_violated), associativity (C79_associative_violated), a plain number on the left raises TypeError, as there is no __radd__ (C79_left_violated). Signalling NaNs are not modelled."},
{"property": "C80", "status": "proved", "theorems": ["Verif.Props.C80_int"], "note": "Exponents so large that int() exhausts memory are not distinguished."},
{"property": "C81", "status": "partial", "theorems": ["Verif.Props.C81_order_partial", "Verif.Props.C81_transitive", "Verif.Props.C81_plain", "Verif.Props.C81_kinds", "Verif.Props.C81_mirror_violated", "Verif.Props.C81_nan_violated", "Verif.Props.C81_arrays", "Verif.Props.C81_arrays_cover"], "note": "C81_order_partial: on values of one shape (numbers without NaN, texts, booleans, arrays of one shape nested to any depth) all five comparisons answer by the order Before of Spec/Compare.lean, of which exactly one of before, equal, after holds. C81_transitive, C81_plain, C81_kinds. Refuted: a boolean on the left of a number answers while the mirrored comparison raises TypeError (C81_mirror_violated); NaN raises InvalidOperation (C81_nan_violated). C81_arrays with C81_arrays_cover: arrays of any items, decided by the first items that are not the same. References are not covered."},
{"property": "C82", "status": "partial", "theorems": ["Verif.Props.C82_slice", "Verif.Props.C82_refused", "Verif.Props.C82_index", "Verif.Props.C82_members", "Verif.Props.C82_index_range", "Verif.Props.C82_sequence", "Verif.Props.C82_from_list", "Verif.Props.C82_equal_violated", "Verif.Props.C82_parts_violated", "Verif.Props.C82_parts"], "note": "C82_slice describes every slice position by position; C82_index, C82_members, C82_sequence, C82_index_range (index with start and stop), C82_refused, C82_from_list, C82_parts. Refuted: pointers with the same tokens are not equal, there is no __eq__ (C82_equal_violated); the text of an empty part is / (C82_parts_violated)."},
{"property": "C83", "status": "partial", "theorems": ["Verif.Props.C83_extension", "Verif.Props.C83_file", "Verif.Props.C83_load", "Verif.Props.C83_store", "Verif.Props.C83_decoded_violated", "Verif.Props.C83_host_violated"], "note": "C83_extension describes os.path.splitext for the supported extensions; C83_file, C83_load and C83_store follow a uri from the store to the file, after any history without a resolver for its scheme. Refuted: the path is not percent-decoded (C83_decoded_violated), the host is not looked at (C83_host_violated). What open and the parsers do is a parameter."},
{"property": "C84", "status": "partial", "theorems": ["Verif.Props.C84_enum_partial", "Verif.Props.C84_raises_violated", "Verif.Props.C84_boolean_violated", "Verif.Props.C84_const_violated"], "note": "C84_enum_partial: for members that are scalars or Comparable with the value (no number or boolean below the top level meets another kind, no float prints as another number) the answer is JSON equality (SameJson). Refuted: ['a'] against enum [[1]] raises TypeError (C84_raises_violated), [true] is accepted for [[1]] (C84_boolean_violated), const with an array or object raises SchemaParseError (C84_const_violated)."},
{"property": "C85", "status": "partial", "theorems": ["Verif.Props.C85_mapping", "Verif.Props.C85_index_partial", "Verif.Props.C85_index_violated", "Verif.Props.C85_array", "Verif.Props.C85_equal", "Verif.Props.C85_equal_itself", "Verif.Props.C85_ends"], "note": "C85_mapping: all six methods against the union of the names of the target and its own (Model/References.lean). C85_equal and C85_equal_itself: comparisons follow references (spec Stands); C85_ends: they end if no chain of references is infinite, also on documents that contain themselves. Refuted for arrays: ref[i], and query through a reference to an array, raise KeyError unless the number i is itself an element (C85_index_violated); C85_index_partial says exactly when the element is found. References of a schema that is being loaded and elements that are references, in `in`, are not modelled."},
{"property": "C86", "status": "proved", "theorems": ["Verif.Props.C86_truth", "Verif.Props.C86_reference"], "note": "JsonType.__bool__ against Truthy of Spec/References.lean; a float must be printed as zero exactly if it is zero (ZeroAlike), which repr of Python does."},
{"property": "C87", "status": "partial", "theorems": ["Verif.Props.C87_lists_violated", "Verif.Props.C87_type_violated", "Verif.Props.C87_counts_violated", "Verif.Props.C87_multipleOf_violated", "Verif.Props.C87_maximum_partial", "Verif.Props.C87_exclusiveMaximum_partial", "Verif.Props.C87_minimum_partial", "Verif.Props.C87_exclusiveMinimum_partial", "Verif.Props.C87_bound_other", "Verif.Props.C87_const_partial", "Verif.Props.C87_const_violated", "Verif.Props.C87_violated", "Verif.Props.C87_bound_violated", "Verif.Props.C87_format_violated", "Verif.Props.C87_builtin_violated", "Verif.Props.C87_pattern_violated", "Verif.Props.C87_pattern_partial", "Verif.Props.C87_texts_violated"], "note": "Refuted for most keywords. C87_lists_violated: required, allOf, anyOf, oneOf, prefixItems, items, type given as a reference to an array raise an exception for every value (JsonReference has no __iter__ and indexing looks the number up among the elements; that this always fails is a pigeonhole argument). C87_counts_violated: lengths and sizes raise TypeError. C87_type_violated: the name of a type is refused. C87_multipleOf_violated: no verdict. C87_const_violated: booleans are never accepted. C87_violated has concrete documents. What holds: bounds and const compare, floats by their printed value (C87_maximum_partial and the like, C87_const_partial); with bounds this differs from a bound in place (C87_bound_violated). Not modelled: enum, minContains, maxContains and the lists inside dependentRequired by reference. C87_format_violated: format by reference is refused; C87_pattern_violated: what pattern by reference accepts does not depend on the text it leads to, since both take the printed reference (C87_pattern_partial, C87_texts_violated)."},
{"property": "C88", "status": "proved", "theorems": ["Verif.Props.C88_blame", "Verif.Props.C88_subschema", "Verif.Props.C88_library", "Verif.Props.C88_malformed", "Verif.Props.C88_hidden", "Verif.Props.C88_hidden_fault"], "note": "C88_blame, C88_subschema and, for the shipped vocabulary and formats, C88_library: the error implies HasFault (Spec/Malformed.lean), an object reached through subschema keywords and references that is malformed in a keyword of the vocabulary. C88_malformed is the converse for the object itself; a format given by reference is left out there, since a format could be registered under the printed reference. C88_hidden has a fault behind a reference. Registered checkers are assumed not to raise SchemaParseError themselves (FormatsSound; shown for the shipped ones)."},
{"property": "C89", "status": "partial", "theorems": ["Verif.Props.C89_raised", "Verif.Props.C89_keyword_violated", "Verif.Props.C89_message_violated", "Verif.Props.C89_limit_violated", "Verif.Props.C89_place_partial", "Verif.Props.C89_named_partial", "Verif.Props.C89_about"], "note": "Refuted. In both class methods the second line of the message is an expression statement of its own, so that keyword and types are dropped: C89_message_violated, C89_keyword_violated (no function of the message yields the keyword). The messages about minContains and maxContains lack the place: C89_limit_violated. What holds: the path attribute and, otherwise, the place in the message (C89_place_partial); unknown formats and limits are named (C89_named_partial). C89_about: the statement that is reached is about the keyword that is read, and the dependency it names is the one that is missing. C89_raised links the raise statements to the model of loading. Not stated: behind a $ref the place is that of the reference."},
{"property": "C90", "status": "partial", "theorems": ["Verif.Props.C90_objects_partial", "Verif.Props.C90_sizes_violated", "Verif.Props.C90_bounds_violated", "Verif.Props.C90_multipleOf_violated", "Verif.Props.C90_pattern_violated", "Verif.Props.C90_items_violated", "Verif.Props.C90_uniqueItems_violated", "Verif.Props.C90_contains_violated", "Verif.Props.C90_required_violated", "Verif.Props.C90_violated"], "note": "Holds for properties, patternProperties, additionalProperties, unevaluatedProperties, propertyNames, dependentRequired and dependentSchemas: C90_objects_partial (with any set of these keywords a value that is no object is treated like the empty object and never rejected; nested loading can still fail on a malformed schema). Refuted for each other keyword about one type: C90_violated gives for each a schema that accepts a value of its type and not null. The remaining theorems say what happens with every value of another type: C90_sizes_violated, C90_bounds_violated, C90_multipleOf_violated, C90_pattern_violated, C90_items_violated (items given as an array), C90_uniqueItems_violated, C90_contains_violated, C90_required_violated."},
{"property": "C91", "status": "partial", "theorems": ["Verif.Props.C91_blame", "Verif.Props.C91_library", "Verif.Props.C91_pattern", "Verif.Props.C91_pattern_violated", "Verif.Props.C91_key_unnoticed", "Verif.Props.C91_key_noticed", "Verif.Props.C91_violated"], "note": "First half proved: C91_blame (any formats that raise no re.error), C91_library (vocabulary and formats as shipped). A pattern given by reference counts as bad, since the text of the reference object is compiled (C87). Second half refuted: C91_violated; C91_pattern_violated (re.error instead, for every value), C91_key_unnoticed and C91_key_noticed (a key of patternProperties is compiled only when a property is tried against it). C91_pattern: a bad pattern never gives a verdict."},
{"property": "C92", "status": "proved", "theorems": ["Verif.Props.C92_answers", "Verif.Props.C92_covers", "Verif.Props.C92_equality"], "note": "C92_equality and C92_answers with C92_covers, against Same, Clash and Compares of Spec/Equality.lean. The operands are distinct objects (CPython's identity shortcut for list items is not modelled)."},
{"property": "C93", "status": "partial", "theorems": ["Verif.Props.C93_loads", "Verif.Props.C93_mirrors", "Verif.Props.C93_completes", "Verif.Props.C93_judged_partial", "Verif.Props.C93_violated", "Verif.Props.C93_order"], "note": "Refuted in general (C93_violated): two documents, no cycle, one of which refers to a reference of the other, load in one order only (C93_order); in the other order load calls itself without end. Positive part: C93_loads, C93_mirrors, C93_completes, C93_judged_partial, for libraries in which a reference to another document leads to an object, without passing references, that has no $anchor, $id or id (WebRef, PlainLeads of Spec/Web.lean). Schemas loaded on demand: C94, C95."},
{"property": "C94", "status": "partial", "theorems": ["Verif.Props.C94_query", "Verif.Props.C94_kind", "Verif.Props.C94_says", "Verif.Props.C94_violated"], "note": "Refuted in general (C94_violated): of the two documents of C93_violated the first is loaded; a query that comes to the second never ends, though it returns an object if the second was loaded first. Positive part: C94_query, C94_kind, C94_says. The same results for every amount of fuel from some amount on, so queries that do not end are covered. Proved for the documents of C93 (references between documents lead to objects without $anchor, $id or id, without passing references), when the library has finitely many identifiers."},
{"property": "C95", "status": "partial", "theorems": ["Verif.Props.C95_trees", "Verif.Props.C95_whole", "Verif.Props.C95_validate", "Verif.Props.C95_again", "Verif.Props.C95_judged_partial", "Verif.Props.C95_hop", "Verif.Props.C95_violated"], "note": "Refuted in general (C95_violated: with the documents of C93_violated validate never ends, or accepts, by the order of loading). Positive part: C95_trees, C95_whole (all loaded: the same as with trees, both ways), C95_validate (any state), C95_judged_partial (JSON Schema), C95_again (a second look finds the same, so that the model, which looks once where the code looks several times, reads what the code reads), C95_hop (two documents that go on in each other, nothing loaded, values of any depth). Model/Validating.lean writes what a keyword reads as a program over objects or trees; readKw_tree of Proofs/Validating says that on trees it is the keyword of Model/Keywords. Left out: what Fits leaves out (see C36) in C95_judged_partial; (validators that remember what they read: C96)."},
{"property": "C96", "status": "partial", "theorems": ["Verif.Props.C96_reached", "Verif.Props.C96_validate", "Verif.Props.C96_judged_partial", "Verif.Props.C96_hop", "Verif.Props.C96_violated"], "note": "Refuted in general (C96_violated, as C95_violated). Positive part: C96_reached (the objects are those of a program that validates nothing), C96_validate (the outcome, both ways), C96_judged_partial (JSON Schema), C96_hop (two documents that go on in each other, three calls in a row, values of any depth). Left out: what Fits leaves out (see C36) in C96_judged_partial; a call with new validators from the state before the call is compared only through C96_judged_partial, since it may make the same documents in another order; the lru_cache of query."},
{"property": "C97", "status": "partial", "theorems": ["Verif.Props.C97_region_partial", "Verif.Props.C97_vocabulary_partial", "Verif.Props.C97_shipped", "Verif.Props.C97_fits_partial", "Verif.Props.C97_violated", "Verif.Props.C97_exception_violated"], "note": "C97_shipped proves it in full for the vocabulary and formats the library ships with. C97_vocabulary_partial and C97_region_partial: any vocabulary, for schemas that do not use the keywords that catch errors (anyOf, oneOf, not, if and contains); C97_fits_partial: any vocabulary and these keywords, if the value has the types the keywords are for (Fits, see C36). C97_violated: without that it is false, since `not` accepts one order and raises TypeError for the other. C97_exception_violated: which exception is raised depends on the order, with the vocabulary that ships, too. Registered formats must not look at the order (FormatsBlind), proved of those that ship from Printed: str of a list or dictionary begins with a bracket or brace."},
{"property": "C98", "status": "partial", "theorems": ["Verif.Props.C98_says_partial", "Verif.Props.C98_schema_partial", "Verif.Props.C98_builtin_partial", "Verif.Props.C98_const_violated", "Verif.Props.C98_missing_violated"], "note": "C98_says_partial: every ValidationError tells the truth in the sense of Spec/Complaint, which lists for each code what is wrong; C98_schema_partial for a whole schema, C98_builtin_partial with the formats the library ships with and no hypothesis. Where the code deviates from JSON Schema the list says so: const by reference (C98_const_violated), items that are missing (C98_missing_violated), 1 as true for exclusiveMaximum, characters of a string as items, members of enum that cannot be compared."},
{"property": "C99", "status": "partial", "theorems": ["Verif.Props.C99_region_partial", "Verif.Props.C99_schema_partial", "Verif.Props.C99_vocabulary_partial", "Verif.Props.C99_shipped_partial", "Verif.Props.C99_both_partial", "Verif.Props.C99_violated", "Verif.Props.C99_not_violated"], "note": "C99_region_partial and C99_schema_partial: what one order accepts, any other accepts, for schemas without the keywords that catch errors and with plain names in required and dependentRequired; with objects in enum, the other order may instead raise TypeError. C99_both_partial and C99_vocabulary_partial: then the two accept the same values. C99_shipped_partial: the vocabulary that ships, nothing asked of the schemas. C99_violated: an object in enum in two orders, one accepted and one TypeError; C99_not_violated: two orders of dependentSchemas under not."},
{"property": "C100", "status": "partial", "theorems": ["Verif.Props.C100_filled", "Verif.Props.C100_text_partial", "Verif.Props.C100_agrees", "Verif.Props.C100_agrees_other", "Verif.Props.C100_path_partial", "Verif.Props.C100_path_violated", "Verif.Props.C100_exclusive_violated", "Verif.Props.C100_array_violated"], "note": "C100_text_partial: at any path without braces the text is the sentence with the values, for each of the 22 places that raise. C100_filled: for any path that is in order as a format string the text shows what str.format makes of it. C100_agrees and C100_agrees_other: the error, or the exception of str.format, is the one of the model of validation. C100_path_partial: different paths, different texts. C100_path_violated: a property named {expected_maximum} is reported at `3`. C100_exclusive_violated: exclusiveMaximum 3 rejects 3 saying it must be lower or equal to 3. C100_array_violated: the error about a value that is no array has lost its path. Missing: paths with format specifications in braces."},
{"property": "C101", "status": "partial", "theorems": ["Verif.Props.C101_floats", "Verif.Props.C101_round_trip_partial", "Verif.Props.C101_small_violated", "Verif.Props.C101_microsecond_violated", "Verif.Props.C101_large_violated", "Verif.Props.C101_max_violated", "Verif.Props.C101_whole"], "note": "C101_floats: the arithmetic of floats of the model is that of IEEE 754. C101_round_trip_partial: durations of microseconds below 2^33 seconds, of which 0 or at least 100 microseconds are left within the minute, are read back exactly. C101_whole: on whole seconds the printer is the one C57 is about. C101_small_violated: every duration with 1 to 99 microseconds left in its last minute is printed with an exponent, which parse_iso_duration refuses; C101_microsecond_violated gives the text PT1e-06S. C101_large_violated: 2^33 seconds and a microsecond comes back a microsecond longer. C101_max_violated: the text of timedelta.max raises OverflowError. Missing: which of the durations of 2^33 seconds and more come back."},
{"property": "C102", "status": "partial", "theorems": ["Verif.Props.C102_float", "Verif.Props.C102_special", "Verif.Props.C102_order", "Verif.Props.C102_digits", "Verif.Props.C102_integer", "Verif.Props.C102_mixed_partial", "Verif.Props.C102_decimal", "Verif.Props.C102_mixed_iff", "Verif.Props.C102_mixed_rounded", "Verif.Props.C102_mixed_violated", "Verif.Props.C102_sixteen_violated"], "note": "C102_float and C102_special: every float comes back from its JsonNumber. C102_order: JsonNumbers of floats, and a JsonNumber and a float, compare as the floats do. C102_digits: a decimal of up to 15 digits given as a float is the JsonNumber it was written as, except among subnormal numbers; C102_sixteen_violated: with 16 digits the last may be lost. C102_integer: an integral float below 2^53 is the JsonNumber of the integer. C102_mixed_violated: 1e23 is not 10**23 in Python, but JsonNumber(1e23) == 10**23. C102_mixed_partial: below 2^53 comparisons with integers agree. C102_decimal: comparisons with Decimals of up to 15 digits go by the nearest float. C102_mixed_iff: for any integer or Decimal the comparisons agree with Python's exactly when the number is not between the float and the number it is printed as; C102_mixed_rounded: so they agree for all numbers that are not rounded to the same float."},
{"property": "C103", "status": "partial", "theorems": ["Verif.Props.C103_decides_partial", "Verif.Props.C103_loaded", "Verif.Props.C103_refuses", "Verif.Props.C103_text_violated", "Verif.Props.C103_array_violated"], "note": "C103_decides_partial: such a schema accepts every value if no assertion keyword's name is part of the text, or an element of the array and all elements can be compared with texts; otherwise TypeError. C103_refuses: numbers and null are always refused. C103_text_violated and C103_array_violated: the text \"integer\" and the array [{\"type\": \"string\"}] accept every value. C103_loaded: arrays that contain references do not occur in loaded documents, so that this covers all that can stand there."},
{"property": "C104", "status": "partial", "theorems": ["Verif.Props.C104_decides", "Verif.Props.C104_reads", "Verif.Props.C104_reads_partial", "Verif.Props.C104_strict_partial", "Verif.Props.C104_refuses_partial", "Verif.Props.C104_ends", "Verif.Props.C104_unique", "Verif.Props.C104_exact", "Verif.Props.C104_plain", "Verif.Props.C104_file", "Verif.Props.C104_file_refused_partial", "Verif.Props.C104_uri", "Verif.Props.C104_constants_violated", "Verif.Props.C104_long_violated", "Verif.Props.C104_enormous_violated"], "note": "C104_decides: exactly the texts of a dialect are read, as the data the grammar gives them. C104_reads, C104_reads_partial: that covers RFC 8259 for integers up to 4300 digits and other numbers in the range of Decimal. C104_strict_partial: without the words NaN and Infinity nothing else is read. C104_refuses_partial: what is not read raises ValueError. C104_exact, C104_plain: no binary floats come from such files. C104_file: the same through load_file. C104_constants_violated: NaN is read. C104_long_violated: longer integers are refused. C104_enormous_violated: a number out of the range of Decimal raises InvalidOperation, which is no ValueError. Missing: escapes for halves of surrogate pairs and Python's recursion limit."},
{"property": "C105", "status": "partial", "theorems": ["Verif.Props.C105_characters", "Verif.Props.C105_index", "Verif.Props.C105_slice", "Verif.Props.C105_add", "Verif.Props.C105_repeat", "Verif.Props.C105_contains", "Verif.Props.C105_find", "Verif.Props.C105_count", "Verif.Props.C105_where_partial", "Verif.Props.C105_affix_partial", "Verif.Props.C105_remove", "Verif.Props.C105_join_partial", "Verif.Props.C105_args_violated", "Verif.Props.C105_join_violated", "Verif.Props.C105_hash_violated", "Verif.Props.C105_make_violated", "Verif.Props.C105_repr_violated"], "note": "C105_characters, C105_index, C105_slice, C105_add, C105_repeat, C105_contains, C105_find, C105_count, C105_remove hold in full, with a str or a JsonString. C105_where_partial, C105_affix_partial, C105_join_partial: index, rindex, startswith, endswith and join with strs. C105_args_violated, C105_join_violated: with JsonStrings these raise TypeError. C105_hash_violated: a JsonString has no hash. C105_make_violated: a JsonString cannot be made of a JsonString. C105_repr_violated: repr is the text and a closing parenthesis."},
{"property": "C106", "status": "partial", "theorems": ["Verif.Props.C106_authority", "Verif.Props.C106_parts", "Verif.Props.C106_refuses", "Verif.Props.C106_rfc_partial", "Verif.Props.C106_refused", "Verif.Props.C106_refused_violated", "Verif.Props.C106_rfc", "Verif.Props.C106_loose_violated", "Verif.Props.C106_case_violated", "Verif.Props.C106_compare_authority", "Verif.Props.C106_compare"], "note": "C106_authority, C106_parts: exactly which texts are read, with which parts; paths with a scheme and with dot segments are the subject of C50. C106_refuses: all others raise AttributeError. C106_rfc: an authority of RFC 3986 is read as its parts exactly if its user information is not empty and its port has at most five digits; C106_refused, C106_refused_violated: the others are refused. C106_loose_violated: a newline at the end, and a missing colon before a port behind an address in brackets, are accepted. C106_case_violated: hosts are not put in lower case. C106_compare, C106_compare_authority: comparison with texts and other values."},
{"property": "C107", "status": "partial", "theorems": ["Verif.Props.C107_answers", "Verif.Props.C107_partial", "Verif.Props.C107_itself", "Verif.Props.C107_violated", "Verif.Props.C107_specific_violated", "Verif.Props.C107_inside_violated", "Verif.Props.C107_here_violated"], "note": "C107_answers: what the resolver does after any calls of map: of the mapped texts that begin the URI the one mapped first decides, by the path it was given last, and empty segments of the rest are left out; C107_itself, C107_partial follow. Missing, and refuted: a mapped URI itself gets a slash behind its path (C107_violated); a more specific mapping made later is not looked at (C107_specific_violated); a mapping that ends inside a segment counts (C107_inside_violated); one to the empty path is not used and hides others (C107_here_violated)."}
]}
