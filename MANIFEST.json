{
 "claims": [
  {
   "property": "C01",
   "status": "proved",
   "theorems": [
    "Firm.C01_lookup",
    "Firm.C01_unique",
    "Firm.C01_no_replace",
    "Firm.C01_accepted"
   ],
   "note": "Refinement of the graph state to the list of accepted entities, for every history."
  },
  {
   "property": "C02",
   "status": "proved",
   "theorems": [
    "Firm.C02_single",
    "Firm.C02_bulk_ok",
    "Firm.C02_bulk_err"
   ],
   "note": "Exact outcome and resulting graph of single and bulk adds."
  },
  {
   "property": "C03",
   "status": "proved",
   "theorems": [
    "Firm.C03_list_by_type",
    "Firm.C03_all_types"
   ],
   "note": "Listing equals the filtered list of accepted entities."
  },
  {
   "property": "C04",
   "status": "proved",
   "theorems": [
    "Firm.C04_outgoing"
   ],
   "note": "Edges after build against the inductive relation HoldsRef (any nesting depth)."
  },
  {
   "property": "C05",
   "status": "proved",
   "theorems": [
    "Firm.C05_idempotent",
    "Firm.C05_history_independent"
   ],
   "note": "The whole graph state after build is a function of the accepted entities."
  },
  {
   "property": "C06",
   "status": "proved",
   "theorems": [
    "Firm.C06_duality"
   ],
   "note": "Holds for every reachable graph, stale or built."
  },
  {
   "property": "C07",
   "status": "proved",
   "theorems": [
    "Firm.C07_related_set"
   ],
   "note": ""
  },
  {
   "property": "C08",
   "status": "proved",
   "theorems": [
    "Firm.C08_order_independent",
    "Firm.C08_bulk"
   ],
   "note": "For every two histories accepting permuted entities; all observers."
  },
  {
   "property": "C09",
   "status": "proved",
   "theorems": [
    "Firm.C09_resolves_iff",
    "Firm.C09_too_deep"
   ],
   "note": "Against the inductive relation ResolvesIn counting look-ups."
  },
  {
   "property": "C10",
   "status": "proved",
   "theorems": [
    "Firm.C10_stale_sound"
   ],
   "note": ""
  },
  {
   "property": "C11",
   "status": "proved",
   "theorems": [
    "Firm.C11_cyclic"
   ],
   "note": "Loop position counted in look-ups; both outcomes."
  },
  {
   "property": "C12",
   "status": "proved",
   "theorems": [
    "Firm.C12_related_ball",
    "Firm.C12_related_any"
   ],
   "note": "For every runtime hash order and every set of starts; Within is the ball of the undirected link relation."
  },
  {
   "property": "C13",
   "status": "partial",
   "theorems": [
    "Firm.C13_type_filter_partial",
    "Firm.C13_degree_zero"
   ],
   "note": "Partial: with degree 0 the type filter is not applied (C13_degree_zero); proved for degree >= 1."
  },
  {
   "property": "C14",
   "status": "proved",
   "theorems": [
    "Firm.C14_monotone",
    "Firm.C14_saturates"
   ],
   "note": ""
  },
  {
   "property": "C15",
   "status": "proved",
   "theorems": [
    "Firm.C15_verdict",
    "Firm.C15_order"
   ],
   "note": "For every schema, entity and hash enumeration order."
  },
  {
   "property": "C16",
   "status": "proved",
   "theorems": [
    "Firm.C16_sound",
    "Firm.C16_exactly_once",
    "Firm.C16_builders_unique"
   ],
   "note": ""
  },
  {
   "property": "C17",
   "status": "proved",
   "theorems": [
    "Firm.C17_extra_field",
    "Firm.C17_second_value"
   ],
   "note": ""
  },
  {
   "property": "C18",
   "status": "proved",
   "theorems": [
    "Firm.C18_enum",
    "Firm.C18_same_form"
   ],
   "note": "For every lower-casing function."
  },
  {
   "property": "C19",
   "status": "proved",
   "theorems": [
    "Firm.C19_where_ok",
    "Firm.C19_where_sublist",
    "Firm.C19_where_error"
   ],
   "note": ""
  },
  {
   "property": "C20",
   "status": "partial",
   "theorems": [
    "Firm.C20_chain_partial",
    "Firm.C20_chain_total_partial",
    "Firm.C20_not_equivalent"
   ],
   "note": "Partial: the chain can succeed where the conjunction fails (C20_not_equivalent); proved whenever the conjunction succeeds."
  },
  {
   "property": "C21",
   "status": "proved",
   "theorems": [
    "Firm.C21_meaning",
    "Firm.C21_reorder",
    "Firm.C21_first_error"
   ],
   "note": ""
  },
  {
   "property": "C22",
   "status": "proved",
   "theorems": [
    "Firm.C22_missing_field",
    "Firm.C22_match_has_field"
   ],
   "note": ""
  },
  {
   "property": "C23",
   "status": "partial",
   "theorems": [
    "Firm.C23_integer",
    "Firm.C23_currency_partial",
    "Firm.C23_no_decimal",
    "Firm.C23_dateTime",
    "Firm.C23_float",
    "Firm.C23_float_equal_tolerant"
   ],
   "note": "Partial: an amount that the decimal type cannot hold satisfies no operator (C23_no_decimal). Otherwise proved for integers, currencies, instants and floats; float == is tolerant (C23_float_equal_tolerant), as the statement says."
  },
  {
   "property": "C24",
   "status": "partial",
   "theorems": [
    "Firm.C24_not_equal_partial",
    "Firm.C24_both_false"
   ],
   "note": "Partial: != is not the negation of == for NaN, equal infinities and different currency codes (C24_both_false)."
  },
  {
   "property": "C25",
   "status": "proved",
   "theorems": [
    "Firm.C25_equal",
    "Firm.C25_equivalence",
    "Firm.C25_substring",
    "Firm.C25_coherent"
   ],
   "note": "For every lower-casing function; the law lower \"\" = \"\" is a hypothesis where used."
  },
  {
   "property": "C26",
   "status": "partial",
   "theorems": [
    "Firm.C26_error_table",
    "Firm.C26_exceptions",
    "Firm.C26_in_currency",
    "Firm.C26_in_rejected_partial"
   ],
   "note": "Partial: in on a currency field with another code (or an amount without decimal) is answered with no instead of being rejected (C26_in_currency). The rejection table is proved for all other cases."
  },
  {
   "property": "C27",
   "status": "partial",
   "theorems": [
    "Firm.C27_contains",
    "Firm.C27_contains_homogeneous",
    "Firm.C27_equal_partial",
    "Firm.C27_nested",
    "Firm.C27_length"
   ],
   "note": "Partial: == on lists is proved for lists without nested lists; a list containing a list equals nothing (C27_nested). contains without exception."
  },
  {
   "property": "C28",
   "status": "proved",
   "theorems": [
    "Firm.C28_local_day",
    "Firm.C28_partition"
   ],
   "note": ""
  },
  {
   "property": "C29",
   "status": "proved",
   "theorems": [
    "Firm.C29_stable_sort",
    "Firm.C29_input_order",
    "Firm.C29_two"
   ],
   "note": "For every runtime sort that meets the documented contract of sort_by."
  },
  {
   "property": "C30",
   "status": "partial",
   "theorems": [
    "Firm.C30_antisymmetric",
    "Firm.C30_reflexive",
    "Firm.C30_transitive_partial",
    "Firm.C30_not_transitive"
   ],
   "note": "Partial: transitivity fails across kinds and for Integer against Float near 2^53 (C30_not_transitive); antisymmetry and reflexivity hold for all values, transitivity within one kind."
  },
  {
   "property": "C31",
   "status": "partial",
   "theorems": [
    "Firm.C31_ascending_partial",
    "Firm.C31_descending_first",
    "Firm.C31_not_last"
   ],
   "note": "Partial: descending order puts entities without the field first (C31_descending_first); proved for ascending order."
  },
  {
   "property": "C32",
   "status": "proved",
   "theorems": [
    "Firm.C32_bag"
   ],
   "note": "For every reachable graph, runtime and operation list."
  },
  {
   "property": "C33",
   "status": "proved",
   "theorems": [
    "Firm.C33_first",
    "Firm.C33_prefix",
    "Firm.C33_min",
    "Firm.C33_bound"
   ],
   "note": ""
  },
  {
   "property": "C34",
   "status": "proved",
   "theorems": [
    "Firm.C34_from_type",
    "Firm.C34_from_all"
   ],
   "note": "For every hash enumeration order."
  },
  {
   "property": "C35",
   "status": "proved",
   "theorems": [
    "Firm.C35_commute",
    "Firm.C35_query"
   ],
   "note": ""
  },
  {
   "property": "C36",
   "status": "proved",
   "theorems": [
    "Firm.C36_count",
    "Firm.C36_query"
   ],
   "note": ""
  },
  {
   "property": "C37",
   "status": "partial",
   "theorems": [
    "Firm.C37_integers",
    "Firm.C37_integers_wrapping",
    "Firm.C37_currency_partial",
    "Firm.C37_empty",
    "Firm.C37_missing",
    "Firm.C37_currency_overflow"
   ],
   "note": "Partial: currency sums are exact while the mantissas at a common scale stay below 96 bits (Summable); beyond that the program can panic (C37_currency_overflow). Integers in checked and wrapping arithmetic."
  },
  {
   "property": "C38",
   "status": "partial",
   "theorems": [
    "Firm.C38_non_numeric",
    "Firm.C38_currency_and_number",
    "Firm.C38_mixed_codes",
    "Firm.C38_floats",
    "Firm.C38_integer_order_partial",
    "Firm.C38_integer_order_wrapping",
    "Firm.C38_currency_order_partial",
    "Firm.C38_overflow_order"
   ],
   "note": "Partial: the failures are proved without exception. Success and order independence need sums without overflow (C38_overflow_order, C37_currency_overflow); with wrapping arithmetic integer sums need nothing."
  },
  {
   "property": "C39",
   "status": "partial",
   "theorems": [
    "Firm.C39_failure",
    "Firm.C39_average_integers",
    "Firm.C39_median_odd",
    "Firm.C39_median_middle",
    "Firm.C39_median_even",
    "Firm.C39_mixes_currencies",
    "Firm.C39_no_mixing_partial",
    "Firm.C39_median_overflow"
   ],
   "note": "Partial: average and median mix currencies silently (C39_mixes_currencies) and an even median of huge numbers overflows (C39_median_overflow); the rest is proved."
  },
  {
   "property": "C40",
   "status": "proved",
   "theorems": [
    "Firm.C40_select",
    "Firm.C40_empty_cell"
   ],
   "note": ""
  },
  {
   "property": "C41",
   "status": "proved",
   "theorems": [
    "Firm.C41_build",
    "Firm.C41_fails"
   ],
   "note": "A build succeeds exactly for the workspaces meeting the independent ValidWorkspace specification, and gives exactly its entities and schemas."
  },
  {
   "property": "C42",
   "status": "proved",
   "theorems": [
    "Firm.C42_consistent"
   ],
   "note": ""
  },
  {
   "property": "C43",
   "status": "proved",
   "theorems": [
    "Firm.C43_order",
    "Firm.C43_failure"
   ],
   "note": "For every permutation of the files: same success and permuted result."
  },
  {
   "property": "C44",
   "status": "proved",
   "theorems": [
    "Firm.C44_duplicates",
    "Firm.C44_lookup"
   ],
   "note": ""
  },
  {
   "property": "C45",
   "status": "proved",
   "theorems": [
    "Firm.C45_last_load",
    "Firm.C45_untouched",
    "Firm.C45_one_entry"
   ],
   "note": "Over every sequence of loads from every workspace; unreadable or foreign files leave the workspace unchanged."
  },
  {
   "property": "C46",
   "status": "partial",
   "theorems": [
    "Firm.C46_same_name_partial",
    "Firm.C46_not_found"
   ],
   "note": "Partial: proved for type names that normalisation leaves unchanged; false for the others (C46_not_found with task2)."
  },
  {
   "property": "C47",
   "status": "partial",
   "theorems": [
    "Firm.C47_normal_partial",
    "Firm.C47_idempotent_partial",
    "Firm.C47_unchanged",
    "Firm.C47_title_case"
   ],
   "note": "Partial: a title-case letter (ǅ) is normalised to text that normalises again (C47_title_case). Proved for every case table meeting RegularCase, which the ASCII table does."
  },
  {
   "property": "C48",
   "status": "partial",
   "theorems": [
    "Firm.C48_decompose_partial",
    "Firm.C48_type",
    "Firm.C48_injective_partial",
    "Firm.C48_decompose_all",
    "Firm.C48_trailing",
    "Firm.C48_leading",
    "Firm.C48_camel_case"
   ],
   "note": "Partial: decomposition is exact when the type has no trailing and the id no leading delimiter (C48_trailing, C48_leading show why); a CamelCase type is not the type of the id it yields (C48_camel_case)."
  },
  {
   "property": "C49",
   "status": "partial",
   "theorems": [
    "Firm.C49_field_partial",
    "Firm.C49_ignored",
    "Firm.C49_found_partial",
    "Firm.C49_camel"
   ],
   "note": "Proved, from the query text to its result, for fields and types in snake case. False otherwise: C49_camel is a task with a field dueDate that is not found by dueDate == \"x\"; C49_ignored: a name that is not snake case never reaches the field written that way."
  },
  {
   "property": "C50",
   "status": "partial",
   "theorems": [
    "Firm.C50_boolean",
    "Firm.C50_integer",
    "Firm.C50_currency",
    "Firm.C50_entity_reference_partial",
    "Firm.C50_no_dot",
    "Firm.C50_field_reference_partial",
    "Firm.C50_entity_ids",
    "Firm.C50_json_reference"
   ],
   "note": "Partial: references must have the form type.id in normal form, which the ids of entities have (C50_entity_ids); a reference without a dot, which add_entity accepts (C50_json_reference), does not read back (C50_no_dot). Currency codes without blanks. Booleans and 64-bit integers without exception."
  },
  {
   "property": "C51",
   "status": "partial",
   "theorems": [
    "Firm.C51_single_line_partial",
    "Firm.C51_multi_line_partial",
    "Firm.C51_carriage_return",
    "Firm.C51_quotation_mark"
   ],
   "note": "Partial: single-line strings read back iff they contain no quotation mark, multi-line strings iff they are trimmed and contain no CR LF; both directions proved for all strings. A triple quote inside the text would end the literal in the grammar (outside the model)."
  },
  {
   "property": "C52",
   "status": "partial",
   "theorems": [
    "Firm.C52_reads_as",
    "Firm.C52_same_partial",
    "Firm.C52_half_hour",
    "Firm.C52_seconds"
   ],
   "note": "Partial: the exact value read back is C52_reads_as (offsets below a day, years in the range of chrono); it is the same value iff the offset is a whole number of hours and seconds and nanoseconds are zero (C52_same_partial); witnesses C52_half_hour, C52_seconds."
  },
  {
   "property": "C53",
   "status": "proved",
   "theorems": [
    "Firm.C53_accepted",
    "Firm.C53_error"
   ],
   "note": "Lists of parsed values: accepted iff all items have one kind, error names the first offending item."
  },
  {
   "property": "C54",
   "status": "partial",
   "theorems": [
    "Firm.C54_removes_partial",
    "Firm.C54_no_panic",
    "Firm.C54_panic",
    "Firm.C54_first_line",
    "Firm.C54_idempotent_partial",
    "Firm.C54_not_idempotent"
   ],
   "note": "Partial: per line exactly the common indentation is removed, but the final trim drops the relative indentation of the first line (C54_first_line); panics on multi-byte indentation (C54_panic; none with one-byte white space, C54_no_panic); not idempotent with carriage returns (C54_not_idempotent)."
  },
  {
   "property": "C55",
   "status": "partial",
   "theorems": [
    "Firm.C55_schema_partial",
    "Firm.C55_quotation_mark",
    "Firm.C55_not_enum",
    "Firm.C55_tree",
    "Firm.C55_text"
   ],
   "note": "Partial: quotation marks at the ends of names, and allowed values of fields that are not enums, are lost (witnesses). Orders are renumbered 0..n-1. The syntax tree of the generated text is given by Spec.schemaNode (tree-sitter is outside the model)."
  },
  {
   "property": "C56",
   "status": "partial",
   "theorems": [
    "Firm.C56_write_partial",
    "Firm.C56_delete",
    "Firm.C56_replace",
    "Firm.C56_binary"
   ],
   "note": "Partial: write_source is proved for disks on which every .firm file is readable as text; a failed write over one that is not deletes it (C56_binary). replace_source and delete_source without exception. Requests that are answered; for those that crash see C138."
  },
  {
   "property": "C57",
   "status": "proved",
   "theorems": [
    "Firm.C57_fresh"
   ],
   "note": "By induction over every sequence of requests; a failed rebuild after add_entity is the stated exception. A rebuild that crashes is another: C138."
  },
  {
   "property": "C58",
   "status": "partial",
   "theorems": [
    "Firm.C58_many_partial",
    "Firm.C58_alone",
    "Firm.C58_lost",
    "Firm.C58_distinct_partial",
    "Firm.C58_uninterrupted",
    "Firm.C58_same_file"
   ],
   "note": "All writing tools, any number of requests, every interleaving: proved when the places lie apart (C58_many_partial) and no file is unreadable text; false for the same file (C58_same_file, C58_lost)."
  },
  {
   "property": "C59",
   "status": "partial",
   "theorems": [
    "Firm.C59_default_extension",
    "Firm.C59_default_path",
    "Firm.C59_read",
    "Firm.C59_delete",
    "Firm.C59_write_partial",
    "Firm.C59_replace",
    "Firm.C59_add_partial",
    "Firm.C59_default_target",
    "Firm.C59_write_escapes",
    "Firm.C59_add_escapes"
   ],
   "note": "Partial: read, delete and replace stay inside without exception; write_source for relative paths and for targets that exist; add_entity for relative paths without two dots in a row. C59_write_escapes and C59_add_escapes are requests that write outside."
  },
  {
   "property": "C60",
   "status": "partial",
   "theorems": [
    "Firm.C60_replaces",
    "Firm.C60_accepts",
    "Firm.C60_one",
    "Firm.C60_exactly_once_partial",
    "Firm.C60_overlap",
    "Firm.C60_tool",
    "Firm.C60_tool_twice"
   ],
   "note": "Partial: exact for texts that do not overlap themselves; overlapping occurrences are counted without overlaps, so a text occurring twice is accepted as unique (C60_overlap)."
  },
  {
   "property": "C61",
   "status": "proved",
   "theorems": [
    "Firm.C61_first_fifty",
    "Firm.C61_line",
    "Firm.C61_error"
   ],
   "note": "Also which lines match (C61_line) and that only the empty search text is an error (C61_error)."
  },
  {
   "property": "C62",
   "status": "partial",
   "theorems": [
    "Firm.C62_existing_partial",
    "Firm.C62_appends_partial",
    "Firm.C62_refused",
    "Firm.C62_stale"
   ],
   "note": "Partial: for a server whose state is the build of the files on disk. After a failed rebuild the same entity can be added again (C62_stale). Refused requests change nothing, without exception."
  },
  {
   "property": "C63",
   "status": "proved",
   "theorems": [
    "Firm.C63_paths",
    "Firm.C63_resource",
    "Firm.C63_tree"
   ],
   "note": "For every workspace that load_directory builds: sorted paths, each once; resources and tree."
  },
  {
   "property": "C64",
   "status": "partial",
   "theorems": [
    "Firm.C64_saved_partial",
    "Firm.C64_one_build",
    "Firm.C64_two_crashes",
    "Firm.C64_backup_unused",
    "Firm.C64_cut_refused"
   ],
   "note": "Partial: holds unless two builds in a row are interrupted (C64_two_crashes); the backup is never read back (C64_backup_unused)."
  },
  {
   "property": "C65",
   "status": "partial",
   "theorems": [
    "Firm.C65_first",
    "Firm.C65_text",
    "Firm.C65_iff",
    "Firm.C65_unused_partial",
    "Firm.C65_exhausted",
    "Firm.C65_stale"
   ],
   "note": "Partial: for graphs with fewer than 1000 entities, a type that does not end in a delimiter and a chosen id that is not empty after sanitising; C65_iff is exact for every graph; C65_exhausted and C65_stale are failing cases."
  },
  {
   "property": "C66",
   "status": "proved",
   "theorems": [
    "Firm.C66_declaration_order",
    "Firm.C66_metadata_last",
    "Firm.C66_redeclared"
   ],
   "note": "The statement's last clause is C66_redeclared."
  },
  {
   "property": "C67",
   "status": "proved",
   "theorems": [
    "Firm.C67_list",
    "Firm.C67_tree",
    "Firm.C67_text"
   ],
   "note": "Iff, for every nesting depth."
  },
  {
   "property": "C68",
   "status": "partial",
   "theorems": [
    "Firm.C68_float_partial",
    "Firm.C68_infinite"
   ],
   "note": "Partial: under the documented contract of f64 parsing and printing (FloatText); infinities are written inf.0 and lost (C68_infinite)."
  },
  {
   "property": "C69",
   "status": "partial",
   "theorems": [
    "Firm.C69_exact_partial",
    "Firm.C69_reads_as",
    "Firm.C69_enum_partial"
   ],
   "note": "Partial: false of the code for some values; C69_exact_partial says for every enum value exactly when it reads back: enum\" does not occur in the value followed by a quotation mark, and neither end is a quotation mark. For values without quotation marks this is: not ending with enum; otherwise the ending is lost (C69_reads_as). That the grammar takes the generated text for one literal is outside the model."
  },
  {
   "property": "C70",
   "status": "partial",
   "theorems": [
    "Firm.C70_reads_as",
    "Firm.C70_entity_partial",
    "Firm.C70_capital_type",
    "Firm.C70_tree",
    "Firm.C70_text"
   ],
   "note": "Partial: types with capital letters come back in lower case (C70_capital_type)."
  },
  {
   "property": "C71",
   "status": "proved",
   "theorems": [
    "Firm.C71_load",
    "Firm.C71_kept",
    "Firm.C71_extension"
   ],
   "note": "Iff, over every directory tree."
  },
  {
   "property": "C72",
   "status": "partial",
   "theorems": [
    "Firm.C72_add_partial",
    "Firm.C72_failed",
    "Firm.C72_firm_file",
    "Firm.C72_glued"
   ],
   "note": "Partial: the text of the entity is appended, but without a line break, so behind a comment it is no entity (C72_glued); unless the given path ends in .. the target has the extension firm (C72_firm_file); bytes of files that are not text are not modelled."
  },
  {
   "property": "C73",
   "status": "proved",
   "theorems": [
    "Firm.C73_reads_back",
    "Firm.C73_valid",
    "Firm.C73_normal",
    "Firm.C73_injective",
    "Firm.C73_bounds"
   ],
   "note": ""
  },
  {
   "property": "C74",
   "status": "partial",
   "theorems": [
    "Firm.C74_literal_partial",
    "Firm.C74_leading",
    "Firm.C74_blank",
    "Firm.C74_unwritable"
   ],
   "note": "False: white space after the opening quote is dropped (C74_blank). C74_leading says exactly what is read; C74_unwritable: no query can name a text with leading white space or with both quotes."
  },
  {
   "property": "C75",
   "status": "partial",
   "theorems": [
    "Firm.C75_integer_partial",
    "Firm.C75_integer_exact",
    "Firm.C75_rounded",
    "Firm.C75_limit",
    "Firm.C75_limit_whole"
   ],
   "note": "Proved up to 2^53 in absolute value, and for limits completely. False beyond (C75_rounded). Assumes that parsing the text of an integer as f64 gives the nearest f64 (IntegerText)."
  },
  {
   "property": "C76",
   "status": "partial",
   "theorems": [
    "Firm.C76_metadata_partial",
    "Firm.C76_unknown"
   ],
   "note": "False: every name after @ other than id means the type (C76_unknown). C76_metadata_partial says exactly what each name means."
  },
  {
   "property": "C77",
   "status": "partial",
   "theorems": [
    "Firm.C77_blank_partial",
    "Firm.C77_time"
   ],
   "note": "Proved for all values but times of day without a zone, for which it is false (C77_time): the combinator is taken for the zone and the query is rejected."
  },
  {
   "property": "C78",
   "status": "partial",
   "theorems": [
    "Firm.C78_from",
    "Firm.C78_written_partial",
    "Firm.C78_camel"
   ],
   "note": "Proved for types in snake case, and C78_from says exactly what is found for every type. False otherwise (C78_camel)."
  },
  {
   "property": "C79",
   "status": "proved",
   "theorems": [
    "Firm.C79_same",
    "Firm.C79_accepted",
    "Firm.C79_letter_case"
   ],
   "note": ""
  },
  {
   "property": "C80",
   "status": "partial",
   "theorems": [
    "Firm.C80_unknown_partial",
    "Firm.C80_glued"
   ],
   "note": "Proved for clauses that do not start with one of the nine words. False for clauses that only start with one: `| countries` counts the field ries (C80_glued)."
  },
  {
   "property": "C81",
   "status": "partial",
   "theorems": [
    "Firm.C81_tree",
    "Firm.C81_file_partial",
    "Firm.C81_capital"
   ],
   "note": "Proved for ids and types in normal form and values that read back (C50–C54, C67–C69 say which do). False otherwise, e.g. C81_capital. C81_tree: the syntax tree that is read consists of the generated text."
  },
  {
   "property": "C82",
   "status": "proved",
   "theorems": [
    "Firm.C82_field",
    "Firm.C82_allowed",
    "Firm.C82_unrestricted",
    "Firm.C82_rejected",
    "Firm.C82_not_boolean",
    "Firm.C82_other_blocks"
   ],
   "note": "C82_not_boolean: a line required with another value than a boolean is taken as required = false."
  },
  {
   "property": "C83",
   "status": "partial",
   "theorems": [
    "Firm.C83_list",
    "Firm.C83_get_partial",
    "Firm.C83_schema",
    "Firm.C83_as_printed"
   ],
   "note": "Part: list prints type.id, but get needs the type and the id separately; with the id as printed it fails (C83_as_printed). The id after the type and the dot works. A type named schema is excluded: it cannot be written in a file."
  },
  {
   "property": "C84",
   "status": "proved",
   "theorems": [
    "Firm.C84_get",
    "Firm.C84_list",
    "Firm.C84_query"
   ],
   "note": "The command line reads the saved graph; it is taken to be the graph of the same build."
  },
  {
   "property": "C85",
   "status": "partial",
   "theorems": [
    "Firm.C85_entity_partial",
    "Firm.C85_normal",
    "Firm.C85_schema_partial",
    "Firm.C85_spelling"
   ],
   "note": "Part: holds for ids and names as they are spelled in the file; list prints the normalised id, for which find_source fails when the spelling is not in snake case (C85_spelling, C85_normal)."
  },
  {
   "property": "C86",
   "status": "proved",
   "theorems": [
    "Firm.C86_related",
    "Firm.C86_missing",
    "Firm.C86_command"
   ],
   "note": "The command line reads the saved graph; it is taken to be the graph of the same build."
  },
  {
   "property": "C87",
   "status": "proved",
   "theorems": [
    "Firm.C87_success",
    "Firm.C87_otherwise"
   ],
   "note": ""
  },
  {
   "property": "C88",
   "status": "partial",
   "theorems": [
    "Firm.C88_place_partial",
    "Firm.C88_unique",
    "Firm.C88_ending"
   ],
   "note": "False for literals that end with path (C88_ending): the ending is trimmed. Proved for all others."
  },
  {
   "property": "C89",
   "status": "partial",
   "theorems": [
    "Firm.C89_from_root",
    "Firm.C89_path_partial",
    "Firm.C89_dots"
   ],
   "note": "False for target files given with .. (C89_dots); names that end with path are cut when read (C88_ending). Proved for all other targets and paths without quotation marks."
  },
  {
   "property": "C90",
   "status": "partial",
   "theorems": [
    "Firm.C90_value_partial",
    "Firm.C90_accepted",
    "Firm.C90_item_type",
    "Firm.C90_entity_partial",
    "Firm.C90_reference"
   ],
   "note": "False for reference texts with other than two or three parts or with a type in capitals (C90_reference). Proved for all other requests whose target file is given without dots."
  },
  {
   "property": "C91",
   "status": "partial",
   "theorems": [
    "Firm.C91_accepted",
    "Firm.C91_means_partial",
    "Firm.C91_two_zones",
    "Firm.C91_wraps"
   ],
   "note": "False for a text with two zones (C91_two_zones: the second is ignored) and for zones whose seconds overflow (C91_wraps: panic with overflow checks, a wrapped zone without); C91_means_partial excludes both."
  },
  {
   "property": "C92",
   "status": "partial",
   "theorems": [
    "Firm.C92_value_partial",
    "Firm.C92_accepted",
    "Firm.C92_quoted",
    "Firm.C92_number_items",
    "Firm.C92_entity_partial",
    "Firm.C92_path_partial",
    "Firm.C92_dots"
   ],
   "note": "False for quotation marks in string and enum arguments (C92_quoted), for number items whose kind differs from the item type (C92_number_items), and for a target in a missing directory given with .. (C92_dots). The path part is stated of pathArgument, the value of the path parameter for an absolute workspace path."
  },
  {
   "property": "C93",
   "status": "partial",
   "theorems": [
    "Firm.C93_served_partial",
    "Firm.C93_builds_partial",
    "Firm.C93_command_partial",
    "Firm.C93_other_name"
   ],
   "note": "Stated for target files whose name ends in .firm inside the workspace; false for other names (C93_other_name: success, entity not served). Targets with .. (C89_dots), other texts for references (C90_reference), types with a dot and, for the command, a last line without line break (C72_glued) are excluded. That the grammar reads the appended block as one more child is a hypothesis (the grammar is a parameter)."
  },
  {
   "property": "C94",
   "status": "proved",
   "theorems": [
    "Firm.C94_means",
    "Firm.C94_written",
    "Firm.C94_mixed",
    "Firm.C94_succeeds"
   ],
   "note": "Against a meaning of query texts given in Spec/Meaning.lean, independent of parser, converter and executor. Floats are added in the order of the entities; a median of an even number is only bounded; literals of dates and currencies mean what the date and decimal libraries (parameters) read."
  },
  {
   "property": "C95",
   "status": "partial",
   "theorems": [
    "Firm.C95_same_partial",
    "Firm.C95_integers_partial",
    "Firm.C95_ordered_partial",
    "Firm.C95_by_id_partial",
    "Firm.C95_amounts_partial",
    "Firm.C95_average_partial",
    "Firm.C95_median_partial",
    "Firm.C95_limit",
    "Firm.C95_floats",
    "Firm.C95_zero",
    "Firm.C95_near_partial",
    "Firm.C95_near_average_partial"
   ],
   "note": "False with limit before an order (C95_limit), for sums of floats (C95_floats) and for medians with both zeros (C95_zero). Proved: the same entities, rows and counts, integer sums, sums of amounts that leave room (C95_amounts_partial), averages of integers up to 2^53 in all (C95_average_partial), medians without NaN and negative zero (C95_median_partial), exact results after an order without ties."
  },
  {
   "property": "C96",
   "status": "partial",
   "theorems": [
    "Firm.C96_loads_partial",
    "Firm.C96_refused",
    "Firm.C96_continues_partial",
    "Firm.C96_queries_partial",
    "Firm.C96_infinite",
    "Firm.C96_deep"
   ],
   "note": "Saved text is read back with the same answers, further histories and query results, for finite floats and at most 121 levels; every other graph is refused (C96_refused; witnesses C96_infinite, C96_deep). Texts of floats and dates are a parameter."
  },
  {
   "property": "C97",
   "status": "proved",
   "theorems": [
    "Firm.C97_beginning",
    "Firm.C97_followed",
    "Firm.C97_repeated",
    "Firm.C97_variants",
    "Firm.C97_never_torn"
   ],
   "note": "No proper beginning of a saved text is readable (C97_beginning); after any completed and interrupted builds a loaded graph answers like one that was saved (C97_never_torn)."
  },
  {
   "property": "C98",
   "status": "partial",
   "theorems": [
    "Firm.C98_plain_partial",
    "Firm.C98_exponent_partial",
    "Firm.C98_fifteen_partial",
    "Firm.C98_kept_partial",
    "Firm.C98_loads_partial",
    "Firm.C98_eleventh",
    "Firm.C98_changed"
   ],
   "note": "Proved for texts whose digits, as an integer, are at most 2^53 with a decimal exponent within -22..22 (hence all floats with at most 15 digits), without and with exponent, for single floats and for whole graphs. False beyond: C98_eleventh and C98_changed show that the float next to 1/11 is saved as 0.09090909090909091 and loaded as its neighbour. The reading of floats is that of the locked serde_json version without the feature float_roundtrip, modelled from its known algorithm (the library is not part of the repository)."
  },
  {
   "property": "C99",
   "status": "proved",
   "theorems": [
    "Firm.C99_conforms",
    "Firm.C99_built"
   ],
   "note": "For every sequence of answers and the schemas of any build; the allowed values of enums are normalised once and for all (lower-casing a trimmed lower-case text changes nothing)."
  },
  {
   "property": "C100",
   "status": "proved",
   "theorems": [
    "Firm.C100_value",
    "Firm.C100_no_value",
    "Firm.C100_entity",
    "Firm.C100_fields",
    "Firm.C100_failed"
   ],
   "note": "Exact: each prompt takes an answer iff the specification relates it to a value. The parsers of integers are specified; those of decimals, times and floats are the ones of C50, C91 and C68."
  },
  {
   "property": "C101",
   "status": "partial",
   "theorems": [
    "Firm.C101_skip_partial",
    "Firm.C101_enum",
    "Firm.C101_required",
    "Firm.C101_currency",
    "Firm.C101_offset"
   ],
   "note": "False for enums (C101_enum: no answer leaves out an optional enum), after the amount of a currency (C101_currency) and for offsets out of range (C101_offset): the whole dialogue ends. C101_skip_partial: escape as the first answer leaves out every optional field that is no enum."
  },
  {
   "property": "C102",
   "status": "proved",
   "theorems": [
    "Firm.C102_references"
   ],
   "note": "For graphs that a build makes."
  },
  {
   "property": "C103",
   "status": "partial",
   "theorems": [
    "Firm.C103_dialogue",
    "Firm.C103_command_partial",
    "Firm.C103_new_partial",
    "Firm.C103_empty"
   ],
   "note": "False for dialogues: the reported id lacks the type (C103_dialogue, for all dialogues), and it can be empty (C103_empty). C103_command_partial: true of the command with arguments. C103_new_partial: the id that is read is new below 1000 entities."
  },
  {
   "property": "C104",
   "status": "partial",
   "theorems": [
    "Firm.C104_value_partial",
    "Firm.C104_path_partial",
    "Firm.C104_entity_partial",
    "Firm.C104_added_partial"
   ],
   "note": "For legible values: quotation marks, enums ending with enum, paths ending with path and infinite floats do not read back (C51, C69, C88, C68). The reading of the appended block by the grammar is a hypothesis (ReadsAppended)."
  },
  {
   "property": "C105",
   "status": "proved",
   "theorems": [
    "Firm.C105_kept",
    "Firm.C105_new",
    "Firm.C105_return",
    "Firm.C105_answered"
   ],
   "note": "for every disk, answers and stopping point (the returned state is the state where the command stopped); the log lists the questions that were answered"
  },
  {
   "property": "C106",
   "status": "partial",
   "theorems": [
    "Firm.C106_marked",
    "Firm.C106_line_partial",
    "Firm.C106_again",
    "Firm.C106_repeat_partial",
    "Firm.C106_twice",
    "Firm.C106_comment"
   ],
   "note": "repetition is false: C106_twice, C106_again (for every content without .DS_Store); C106_comment: a remark with both texts keeps the line out"
  },
  {
   "property": "C107",
   "status": "proved",
   "theorems": [
    "Firm.C107_types",
    "Firm.C107_fields",
    "Firm.C107_text",
    "Firm.C107_read"
   ],
   "note": "assumes PlainCase (case data agree with ASCII on a-z)"
  },
  {
   "property": "C108",
   "status": "partial",
   "theorems": [
    "Firm.C108_builds_partial",
    "Firm.C108_quotation_mark",
    "Firm.C108_no_id"
   ],
   "note": "names with quotation marks or line breaks (C108_quotation_mark) and names without letters (C108_no_id) are missing; that the grammar reads generated text as the trees of C55_tree/C81_tree is assumed"
  },
  {
   "property": "C109",
   "status": "partial",
   "theorems": [
    "Firm.C109_alike_partial",
    "Firm.C109_alike_get_partial",
    "Firm.C109_entities_partial",
    "Firm.C109_entity_partial",
    "Firm.C109_list",
    "Firm.C109_distinct_partial",
    "Firm.C109_results_partial",
    "Firm.C109_not_a_number",
    "Firm.C109_schemas",
    "Firm.C109_schema_read"
   ],
   "note": "Read with the JSON reader of C96. Part: non-finite floats are printed as null (C109_not_a_number); reading back stops at the 127 levels of the reader. For values of any nesting two lists of entities are printed alike exactly when they differ only in the kind of non-finite floats (C109_alike_partial). Schemas and lists of ids are covered in full."
  },
  {
   "property": "C110",
   "status": "partial",
   "theorems": [
    "Firm.C110_reply_partial",
    "Firm.C110_get_partial",
    "Firm.C110_output_partial",
    "Firm.C110_list_partial",
    "Firm.C110_forged",
    "Firm.C110_forged_output"
   ],
   "note": "False for texts with line breaks (C110_forged, C110_forged_output): one entity can look like two. Proved when nothing that is shown contains a line break."
  },
  {
   "property": "C111",
   "status": "partial",
   "theorems": [
    "Firm.C111_table_partial",
    "Firm.C111_dash"
   ],
   "note": "A missing cell looks like the text - (C111_dash). Proved: columns, rows and shown texts are determined when no shown text contains a tab or line break."
  },
  {
   "property": "C112",
   "status": "partial",
   "theorems": [
    "Firm.C112_answer_partial",
    "Firm.C112_query_partial",
    "Firm.C112_unbuilt",
    "Firm.C112_frame",
    "Firm.C112_cached",
    "Firm.C112_last_partial",
    "Firm.C112_backup",
    "Firm.C112_infinite",
    "Firm.C112_blocked",
    "Firm.C112_add_partial"
   ],
   "note": "False in general: an infinite float or a deeply nested value anywhere in the files makes the saved graph unreadable, so that get, list, related and query print nothing (C112_infinite); a directory named like the backup blocks every command (C112_blocked). Proved otherwise."
  },
  {
   "property": "C113",
   "status": "proved",
   "theorems": [
    "Firm.C113_source",
    "Firm.C113_formats",
    "Firm.C113_unreadable",
    "Firm.C113_tool"
   ],
   "note": "Also when the workspace does not build. Names are compared as they are spelled in the file (see C85)."
  },
  {
   "property": "C114",
   "status": "partial",
   "theorems": [
    "Firm.C114_add_get_partial"
   ],
   "note": "Proved for arguments whose values read back, a target inside the workspace, and what C112 asks of the disk; the hypotheses on reading are those of C93."
  },
  {
   "property": "C115",
   "status": "partial",
   "theorems": [
    "Firm.C115_get_partial",
    "Firm.C115_list_partial",
    "Firm.C115_related_partial",
    "Firm.C115_query_partial"
   ],
   "note": "Proved for every disk on which C112 holds: get gives the same item, list the same names up to order, related the same ids in the same order, queries without limit and arithmetic the same result up to order. Missing: what C112 lacks, and files that became unreadable after the server read them."
  },
  {
   "property": "C116",
   "status": "proved",
   "theorems": [
    "Firm.C116_near",
    "Firm.C116_zero",
    "Firm.C116_refused",
    "Firm.C116_finite",
    "Firm.C116_any"
   ],
   "note": "Any number of digits, any exponent text; the bounds are on the number written. Numbers between 0 and 10^-288 (nearly subnormal) are read as finite (C116_finite) but without a bound on the relative error."
  },
  {
   "property": "C117",
   "status": "proved",
   "theorems": [
    "Firm.C117_valid",
    "Firm.C117_distinct"
   ],
   "note": ""
  },
  {
   "property": "C118",
   "status": "partial",
   "theorems": [
    "Firm.C118_snapshot",
    "Firm.C118_served_partial",
    "Firm.C118_stale"
   ],
   "note": "The state is always a build of the disk of some moment (C118_snapshot); current at the end when all requests succeed (C118_served_partial); false when a request is rejected (C118_stale)."
  },
  {
   "property": "C119",
   "status": "partial",
   "theorems": [
    "Firm.C119_dates",
    "Firm.C119_single",
    "Firm.C119_lists_partial",
    "Firm.C119_commas",
    "Firm.C119_empty",
    "Firm.C119_names_partial",
    "Firm.C119_capitals",
    "Firm.C119_reply_partial",
    "Firm.C119_results",
    "Firm.C119_output"
   ],
   "note": "Given the types of the fields, the texts of values, names and results are told apart: integers and amounts by reading them back, references by their dots, lists of one type by their commas (C119_single, C119_lists_partial, C119_results), normalised names by their words (C119_names_partial), whole replies (C119_reply_partial). That the libraries show different floats, dates and currencies differently is assumed (Spec.Faithful). Missing: items with commas or shown as nothing, nested lists, letters that share a capital; C119_commas, C119_empty and C119_capitals show that the claim is false there."
  },
  {
   "property": "C120",
   "status": "partial",
   "theorems": [
    "Firm.C120_schemas_partial",
    "Firm.C120_commas"
   ],
   "note": "The text of a schema tells its type and, in order, name, type, requiredness and allowed values of each field, when names and values have no line breaks and allowed values are not empty and have no commas. C120_commas: with commas two schemas that allow different values are shown alike."
  },
  {
   "property": "C121",
   "status": "proved",
   "theorems": [
    "Firm.C121_left_out",
    "Firm.C121_within",
    "Firm.C121_block",
    "Firm.C121_list",
    "Firm.C121_build",
    "Firm.C121_found"
   ],
   "note": ""
  },
  {
   "property": "C122",
   "status": "partial",
   "theorems": [
    "Firm.C122_silent",
    "Firm.C122_value_partial",
    "Firm.C122_refused_partial"
   ],
   "note": "False: C122_silent. ERROR nodes between blocks or fields are passed over by the build; only the tools that write sources ask for errors. Proved: an ERROR node in the place of a value fails the build, and the writing tools refuse every text with one."
  },
  {
   "property": "C123",
   "status": "proved",
   "theorems": [
    "Firm.C123_read",
    "Firm.C123_whole_minutes",
    "Firm.C123_files",
    "Firm.C123_kept",
    "Firm.C123_seconds"
   ],
   "note": ""
  },
  {
   "property": "C124",
   "status": "partial",
   "theorems": [
    "Firm.C124_never",
    "Firm.C124_query",
    "Firm.C124_days_partial"
   ],
   "note": "False: C124_never, C124_query. No literal with a time of day is understood by the filter; any where on a date field with one fails. Proved: literals without a time of day mean that day."
  },
  {
   "property": "C125",
   "status": "partial",
   "theorems": [
    "Firm.C125_filter",
    "Firm.C125_request_partial",
    "Firm.C125_years"
   ],
   "note": "The filter accepts every printed date with a zone of whole minutes. add_entity accepts those of the years 0 to 9999 and refuses all others (C125_years)."
  },
  {
   "property": "C126",
   "status": "partial",
   "theorems": [
    "Firm.C126_read",
    "Firm.C126_delete",
    "Firm.C126_replace",
    "Firm.C126_forced",
    "Firm.C126_write_partial",
    "Firm.C126_write_escapes",
    "Firm.C126_dangling",
    "Firm.C126_deletes_target"
   ],
   "note": "False of write_source for new files (C126_write_escapes, C126_dangling); proved for existing files, for workspaces without links, and for read, replace and delete."
  },
  {
   "property": "C127",
   "status": "partial",
   "theorems": [
    "Firm.C127_load",
    "Firm.C127_listed_partial",
    "Firm.C127_refused"
   ],
   "note": "Loading is proved for all disks; that listed files can be read is false for files linked from outside the workspace (C127_refused)."
  },
  {
   "property": "C128",
   "status": "proved",
   "theorems": [
    "Firm.C128_twice"
   ],
   "note": ""
  },
  {
   "property": "C129",
   "status": "proved",
   "theorems": [
    "Firm.C129_accepted",
    "Firm.C129_offered",
    "Firm.C129_capital"
   ],
   "note": ""
  },
  {
   "property": "C130",
   "status": "partial",
   "theorems": [
    "Firm.C130_exists",
    "Firm.C130_offered_partial",
    "Firm.C130_hidden",
    "Firm.C130_stored_partial"
   ],
   "note": "Suggested paths exist (C130_exists); not everything is suggested: nothing after a single dot (C130_hidden); stored paths as in C104."
  },
  {
   "property": "C131",
   "status": "partial",
   "theorems": [
    "Firm.C131_crashes",
    "Firm.C131_answer_partial",
    "Firm.C131_ascii_partial",
    "Firm.C131_crash"
   ],
   "note": "False: the searched text is cut at its hundredth byte, and the request crashes when that is inside a character (C131_crash; exactly when: C131_crashes). Proved otherwise."
  },
  {
   "property": "C132",
   "status": "partial",
   "theorems": [
    "Firm.C132_others",
    "Firm.C132_write_partial",
    "Firm.C132_replace_partial",
    "Firm.C132_delete_partial",
    "Firm.C132_add",
    "Firm.C132_calls",
    "Firm.C132_retry",
    "Firm.C132_lost",
    "Firm.C132_refused"
   ],
   "note": "Other files: all (C132_others). add_entity: the old content stays, followed by a beginning of the addition (C132_add). write_source, replace_source and delete_source: the target may hold a beginning of the old or the new content, even none of it (C132_lost, C132_refused). Repeating a write with force gives the files of the uninterrupted request (C132_retry)."
  },
  {
   "property": "C133",
   "status": "partial",
   "theorems": [
    "Firm.C133_asked",
    "Firm.C133_incomplete",
    "Firm.C133_honoured_partial",
    "Firm.C133_ignored",
    "Firm.C133_twice",
    "Firm.C133_hopeless"
   ],
   "note": "Part: a --list-value for a list that is not declared with exactly the same spelling changes nothing and is not reported (C133_ignored, for every command line), and of two declarations of a list only the last counts (C133_twice). Arguments that the schema cannot take are refused (C133_hopeless). The meaning of single values is that of C92."
  },
  {
   "property": "C134",
   "status": "partial",
   "theorems": [
    "Firm.C134_end",
    "Firm.C134_others",
    "Firm.C134_add",
    "Firm.C134_again_partial",
    "Firm.C134_cached",
    "Firm.C134_lost"
   ],
   "note": "C134_others, C134_add and C134_cached hold for every disk; C134_again_partial under the conditions of C112. C134_end: the disk of the uninterrupted command is one of those at which it can stop. C134_lost: after two stopped builds neither graph file need hold a graph."
  },
  {
   "property": "C135",
   "status": "partial",
   "theorems": [
    "Firm.C135_value_partial",
    "Firm.C135_list_partial",
    "Firm.C135_same_partial",
    "Firm.C135_differs",
    "Firm.C135_one_side",
    "Firm.C135_mixed"
   ],
   "note": "Proved for every type but paths. False for quotation marks, types with capitals, field names that are not in snake case and whole numbers for floats, which are stored differently (C135_differs); for references of one or four parts, currencies with two blanks and lists without values, which only the server accepts (C135_one_side); and for lists that mix references to entities and to fields (C135_mixed)."
  },
  {
   "property": "C136",
   "status": "proved",
   "theorems": [
    "Firm.C136_string",
    "Firm.C136_literal",
    "Firm.C136_build",
    "Firm.C136_never_built",
    "Firm.C136_plain"
   ],
   "note": "Both directions for one literal (C136_string, C136_literal); for the build the direction that matters: a crash needs such a value in some file (C136_build). Exhausting the stack or memory is not counted as a crash."
  },
  {
   "property": "C137",
   "status": "proved",
   "theorems": [
    "Firm.C137_conditions",
    "Firm.C137_sum",
    "Firm.C137_aggregations",
    "Firm.C137_order",
    "Firm.C137_circle",
    "Firm.C137_query",
    "Firm.C137_safe",
    "Firm.C137_witness"
   ],
   "note": "C137_sum is an equivalence; C137_order says when a sort may crash and that a runtime within the documented behaviour does. The sort inside median is modelled as the stable sort, which is right for values other than NaN (medianLe_preorder); NaN is no literal of the language."
  },
  {
   "property": "C138",
   "status": "proved",
   "theorems": [
    "Firm.C138_unserved",
    "Firm.C138_answered",
    "Firm.C138_lost",
    "Firm.C138_stuck",
    "Firm.C138_past",
    "Firm.C138_kept"
   ],
   "note": "A panic is taken to end the request only (unwinding, locks of tokio, one task per request in rmcp). `C138_answered` ties answered requests to the model of C56–C63; for lost ones their conclusions fail (`C138_kept`)."
  },
  {
   "property": "C139",
   "status": "partial",
   "theorems": [
    "Firm.C139_end",
    "Firm.C139_between",
    "Firm.C139_kept",
    "Firm.C139_again_partial",
    "Firm.C139_skipped",
    "Firm.C139_unfinished"
   ],
   "note": "That running again completes the workspace holds only if overwriting is agreed to (`C139_again_partial`). The return key, which stands for no, leaves cut and missing schema files (`C139_skipped`, `C139_unfinished`)."
  },
  {
   "property": "C140",
   "status": "partial",
   "theorems": [
    "Firm.C140_boolean",
    "Firm.C140_string",
    "Firm.C140_triple",
    "Firm.C140_enum",
    "Firm.C140_integer",
    "Firm.C140_integer_small",
    "Firm.C140_integer_lost",
    "Firm.C140_float",
    "Firm.C140_float_infinite",
    "Firm.C140_currency",
    "Firm.C140_date",
    "Firm.C140_moment",
    "Firm.C140_reference",
    "Firm.C140_field_reference",
    "Firm.C140_reference_normal",
    "Firm.C140_reference_lost",
    "Firm.C140_path_partial",
    "Firm.C140_list_partial",
    "Firm.C140_empty_list",
    "Firm.C140_nested",
    "Firm.C140_found_partial"
   ],
   "note": "Exact condition per kind of literal for an equality query with the same literal to find it; false for big integers, date-times, references that normalising changes, relative paths outside the workspace root and texts with leading white space."
  },
  {
   "property": "C141",
   "status": "partial",
   "theorems": [
    "Firm.C141_never",
    "Firm.C141_passes",
    "Firm.C141_query",
    "Firm.C141_or_partial"
   ],
   "note": "In the code in never answers yes (C141_never, C141_query): every kind refuses it, and a currency comparison without common ground says no. The or chain that does what the documentation says is C141_or_partial."
  },
  {
   "property": "C142",
   "status": "partial",
   "theorems": [
    "Firm.C142_from_partial",
    "Firm.C142_unknown",
    "Firm.C142_get_partial",
    "Firm.C142_related_partial",
    "Firm.C142_zero",
    "Firm.C142_case"
   ],
   "note": "Equality for from (C142_from_partial), permutation for related (C142_related_partial), equality for ids (C142_get_partial), if no other type or id differs in case only. False in three situations: C142_unknown, C142_case, C142_zero."
  },
  {
   "property": "C143",
   "status": "partial",
   "theorems": [
    "Firm.C143_delete_partial",
    "Firm.C143_entities",
    "Firm.C143_blind",
    "Firm.C143_deleted",
    "Firm.C143_written"
   ],
   "note": "Partial: false of the code. No check looks at the targets of references (C143_blind), so a file can be deleted although others refer to its entities (C143_deleted) and a file with a reference to nothing can be written (C143_written). Proved: the exact condition under which delete_source refuses."
  },
  {
   "property": "C144",
   "status": "partial",
   "theorems": [
    "Firm.C144_read",
    "Firm.C144_kept_partial",
    "Firm.C144_apart",
    "Firm.C144_guide",
    "Firm.C144_clash"
   ],
   "note": "Partial: false for ids that do not begin with the type and a dot, such as those in the guide (C144_guide, C144_clash). Proved: exactly what is read, when the id is kept, and when two ids become one."
  },
  {
   "property": "C145",
   "status": "partial",
   "theorems": [
    "Firm.C145_sum",
    "Firm.C145_average",
    "Firm.C145_drift",
    "Firm.C145_order",
    "Firm.C145_quotient",
    "Firm.C145_between_partial",
    "Firm.C145_outside",
    "Firm.C145_reordered",
    "Firm.C145_infinite"
   ],
   "note": "bounds proved for all column lengths; that the average lies between the smallest and the largest value is false of floats (C145_outside, C145_infinite) and proved for integers"
  },
  {
   "property": "C146",
   "status": "partial",
   "theorems": [
    "Firm.C146_chain",
    "Firm.C146_sum_partial",
    "Firm.C146_typed",
    "Firm.C146_mutual",
    "Firm.C146_union",
    "Firm.C146_all",
    "Firm.C146_beyond",
    "Firm.C146_lost"
   ],
   "note": "related(n) | related(m) is related(n+m) only while n+m is at most 5, because every clause stops after five links on its own (C146_beyond)"
  },
  {
   "property": "C147",
   "status": "partial",
   "theorems": [
    "Firm.C147_serial",
    "Firm.C147_files",
    "Firm.C147_in_turn_partial",
    "Firm.C147_forced",
    "Firm.C147_forced_files",
    "Firm.C147_refused",
    "Firm.C147_together",
    "Firm.C147_dots"
   ],
   "note": "false of the code: a request can be rejected because of the text of another one that is itself rejected, although it is accepted in either order (C147_refused), and two requests can both be accepted although in either order both are rejected (C147_together); proved: one after the other is one of the interleavings (C147_serial), and runs that accept the same requests leave the same files (C147_files, C147_in_turn_partial); with force and plain paths every interleaving gives the files of every order (C147_forced, C147_forced_files)"
  },
  {
   "property": "C148",
   "status": "partial",
   "theorems": [
    "Firm.C148_operators",
    "Firm.C148_words_partial",
    "Firm.C148_starts_with",
    "Firm.C148_follow_partial",
    "Firm.C148_mismatch_partial",
    "Firm.C148_list_mismatch",
    "Firm.C148_types_partial",
    "Firm.C148_again",
    "Firm.C148_all_types",
    "Firm.C148_tells",
    "Firm.C148_date_partial",
    "Firm.C148_iso"
   ],
   "note": "False of the code: text fields list starts_with and ends_with, which are no words of the query language (C148_starts_with); the ISO moments asked for cannot be written in a query (C148_iso); types not in snake case are advised in vain (C148_again); lists said not to be comparable with integers contain them (C148_list_mismatch). Proved: the list of operators is exact, all other words work, mismatches are final otherwise, snake case types and dates work."
  },
  {
   "property": "C149",
   "status": "partial",
   "theorems": [
    "Firm.C149_text",
    "Firm.C149_kept",
    "Firm.C149_sum_partial",
    "Firm.C149_all_partial",
    "Firm.C149_negative"
   ],
   "note": "False for amounts below zero: the advised clause drops them, so 100 EUR, -30 EUR and 5 USD give 100 EUR, and -30 EUR and 5 USD give the number 0 without a currency (C149_negative). Proved for queries that do not follow references: the advised query sums exactly the amounts of the named currency that are not negative."
  },
  {
   "property": "C150",
   "status": "partial",
   "theorems": [
    "Firm.C150_same",
    "Firm.C150_cause_partial",
    "Firm.C150_advice",
    "Firm.C150_stuff",
    "Firm.C150_value"
   ],
   "note": "False for a type that is defined twice: the text of that error is the word \"Stuff\" whatever the type is, and names neither the type nor the other file (C150_stuff). False for a value that cannot be read: the text names neither the entity nor the field (C150_value). Otherwise the file, the missing type, the invalid entity and each violating field are named (C150_cause_partial)."
  },
  {
   "property": "C151",
   "status": "partial",
   "theorems": [
    "Firm.C151_found",
    "Firm.C151_clash",
    "Firm.C151_entities_partial",
    "Firm.C151_worse"
   ],
   "note": "False of a workspace with an own schema of a built-in type outside the schema files: after the advised `firm init` that type has two schemas and no build succeeds any more (C151_clash in general, C151_worse for a concrete workspace). Otherwise no schema of a built-in type is missing any more (C151_found), and the schema files cause no error if the own schemas are readable and of other types (C151_entities_partial). The grammar is assumed to read generated schemas as the trees of C55_tree."
  },
  {
   "property": "C152",
   "status": "proved",
   "theorems": [
    "Firm.C152_fits",
    "Firm.C152_workspace",
    "Firm.C152_needed",
    "Firm.C152_lists",
    "Firm.C152_undeclared"
   ],
   "note": "Type soundness of queries: proved for every graph of conforming entities and every query that fits the schemas; also for workspaces and query texts (C152_workspace). List fields and undeclared fields never count as fitting, because schemas say nothing about the type of their elements or values (C152_lists and C152_undeclared show queries that fail there)."
  },
  {
   "property": "C153",
   "status": "partial",
   "theorems": [
    "Firm.C153_finer",
    "Firm.C153_agree_partial",
    "Firm.C153_never",
    "Firm.C153_nothing",
    "Firm.C153_alternative",
    "Firm.C153_documented",
    "Firm.C153_open",
    "Firm.C153_blanks",
    "Firm.C153_accents"
   ],
   "note": "False for values with blanks at the ends and for capitals beyond A-Z: they conform, but the condition that asks for the allowed value does not find them (C153_blanks, C153_accents). Proved: what a condition finds, the schema counts as that value; both agree otherwise (C153_agree_partial); a value that is not offered is found nowhere and not rejected. The documented query from project | where status == \"active\" | related task gives nothing in every workspace with the built-in schemas (C153_documented)."
  },
  {
   "property": "C154",
   "status": "partial",
   "theorems": [
    "Firm.C154_value_partial",
    "Firm.C154_neither",
    "Firm.C154_entity_partial",
    "Firm.C154_split_partial",
    "Firm.C154_count_partial",
    "Firm.C154_sum_partial",
    "Firm.C154_currencies"
   ],
   "note": "The split is proved for all values that can be told apart; it is false of amounts in another currency, NaN and lists (C154_neither, C154_currencies). Queries with related are left out: the order of their results may differ between runs."
  },
  {
   "property": "C155",
   "status": "partial",
   "theorems": [
    "Firm.C155_reads",
    "Firm.C155_request",
    "Firm.C155_source_format",
    "Firm.C155_file",
    "Firm.C155_kept_partial",
    "Firm.C155_zone",
    "Firm.C155_seconds"
   ],
   "note": "Reading is exact (C155_reads, C155_request). Keeping is false: a moment with a zone that is not in whole hours is accepted and comes back from the file moved by the minutes of the zone (C155_zone), seconds and fractions are cut (C155_seconds); C155_kept_partial says exactly which moments are kept."
  },
  {
   "property": "C156",
   "status": "partial",
   "theorems": [
    "Firm.C156_history",
    "Firm.C156_found_partial",
    "Firm.C156_new",
    "Firm.C156_count_partial",
    "Firm.C156_limit",
    "Firm.C156_fails",
    "Firm.C156_leads"
   ],
   "note": "Two runs side by side over any two histories. Partial because it is false with `limit` (`C156_limit`: a new entity pushes an old one out); the premise that the second query succeeds is needed (`C156_fails`: a field of another type in the new entity)."
  },
  {
   "property": "C157",
   "status": "partial",
   "theorems": [
    "Firm.C157_result",
    "Firm.C157_progress",
    "Firm.C157_unfinished",
    "Firm.C157_log",
    "Firm.C157_text",
    "Firm.C157_numbers",
    "Firm.C157_added_partial"
   ],
   "note": "Numbers and progress proved for all workspaces. False of the code: the progress never says that all files are done (`C157_unfinished`), and the log has its two numbers the other way round (`C157_log`). `C157_added_partial` has the premises of C93."
  },
  {
   "property": "C158",
   "status": "partial",
   "theorems": [
    "Firm.C158_entity",
    "Firm.C158_schema",
    "Firm.C158_build_partial",
    "Firm.C158_symmetric",
    "Firm.C158_failure_partial",
    "Firm.C158_served_partial",
    "Firm.C158_rename",
    "Firm.C158_path"
   ],
   "note": "Proved for definitions that stay in their directory or have no relative paths; for others the claim is false of the code: a relative path literal is read against the directory of its file (C158_path). Queries with a limit and sums, averages and medians are left out of the statement about queries: which entities a limit keeps and how roundings add up depend on the order of the files."
  },
  {
   "property": "C159",
   "status": "proved",
   "theorems": [
    "Firm.C159_change",
    "Firm.C159_same",
    "Firm.C159_stays",
    "Firm.C159_gone",
    "Firm.C159_write",
    "Firm.C159_delete",
    "Firm.C159_replace"
   ],
   "note": "Stated for servers whose state agrees with the disk before the call (Serves), which C57 shows to hold as long as nobody else changes the files and no change was forced."
  },
  {
   "property": "C160",
   "status": "partial",
   "theorems": [
    "Firm.C160_refines",
    "Firm.C160_written_partial",
    "Firm.C160_rolled_partial",
    "Firm.C160_refused",
    "Firm.C160_deleted",
    "Firm.C160_restored",
    "Firm.C160_honest",
    "Firm.C160_replaced",
    "Firm.C160_replace_rolled",
    "Firm.C160_added",
    "Firm.C160_binary",
    "Firm.C160_blamed",
    "Firm.C160_within"
   ],
   "note": "Partial: false of the code for a file that is not text (said to be created, and restored although it is gone, C160_binary); refusals of delete_source and add_entity are given as failed validation of a valid workspace (C160_blamed), and a name with two dots is said to be outside of the workspace (C160_within). The rest is proved for all disks, paths and contents."
  },
  {
   "property": "C161",
   "status": "proved",
   "theorems": [
    "Firm.C161_queries",
    "Firm.C161_answers",
    "Firm.C161_foreign",
    "Firm.C161_amount",
    "Firm.C161_commands"
   ],
   "note": "Partly false of the code and its documentation: queries about types that are not built in fail without schemas of ones own (C161_foreign), where amount > 1000 fails on money (C161_amount), two documented firm add commands are refused with the built-in schemas (C161_commands). Proved for all 29 documented queries about built-in types."
  },
  {
   "property": "C162",
   "status": "partial",
   "theorems": [
    "Firm.C162_write_partial",
    "Firm.C162_delete_partial",
    "Firm.C162_new_partial",
    "Firm.C162_add_partial",
    "Firm.C162_replace_partial",
    "Firm.C162_refused",
    "Firm.C162_dots",
    "Firm.C162_outside",
    "Firm.C162_twice",
    "Firm.C162_overlap",
    "Firm.C162_notes",
    "Firm.C162_all_partial",
    "Firm.C162_nested"
   ],
   "note": "Restored files and state after the opposite change, and after the opposite changes of any list of changes, for relative paths without two dots and texts that the syntax check accepts. False of the code otherwise: C162_refused, C162_dots, C162_outside, C162_twice, C162_overlap, C162_notes, C162_nested."
  },
  {
   "property": "C163",
   "status": "partial",
   "theorems": [
    "Firm.C163_block",
    "Firm.C163_accepted",
    "Firm.C163_valid",
    "Firm.C163_edit",
    "Firm.C163_added",
    "Firm.C163_optional_partial",
    "Firm.C163_removed_partial",
    "Firm.C163_relaxed_partial",
    "Firm.C163_graph",
    "Firm.C163_undeclared",
    "Firm.C163_uncovered",
    "Firm.C163_unrestricted"
   ],
   "note": "The condition is exact (C163_edit, C163_added). The bare claim is false of the code: adding an optional field breaks the build if an entity had it undeclared with another type (C163_undeclared), dropping a block brings back an earlier one about the same field (C163_uncovered), and dropping allowed_values forbids all values (C163_unrestricted)."
  },
  {
   "property": "C164",
   "status": "partial",
   "theorems": [
    "Firm.C164_next",
    "Firm.C164_apart",
    "Firm.C164_counted",
    "Firm.C164_earlier",
    "Firm.C164_file",
    "Firm.C164_where_partial",
    "Firm.C164_sorted"
   ],
   "note": "Conditions with a time of day are missing: they fail (C124)."
  },
  {
   "property": "C165",
   "status": "partial",
   "theorems": [
    "Firm.C165_keys",
    "Firm.C165_again",
    "Firm.C165_backwards_partial",
    "Firm.C165_first",
    "Firm.C165_greatest_partial",
    "Firm.C165_ties",
    "Firm.C165_without"
   ],
   "note": "False in general: ties keep their order in both directions (C165_ties) and entities without the field come first when sorting downwards (C165_without)."
  },
  {
   "property": "C166",
   "status": "partial",
   "theorems": [
    "Firm.C166_get",
    "Firm.C166_list",
    "Firm.C166_resolve",
    "Firm.C166_related_partial",
    "Firm.C166_query",
    "Firm.C166_follow_partial",
    "Firm.C166_resorted"
   ],
   "note": "Lookup, listing, field references and queries without related commute with every renaming of ids. get_related and related give the same entities renamed, but in the order of the new ids (C166_resorted), so these theorems are up to order and without limit."
  },
  {
   "property": "C167",
   "status": "proved",
   "theorems": [
    "Firm.C167_build",
    "Firm.C167_write",
    "Firm.C167_delete",
    "Firm.C167_replace",
    "Firm.C167_new",
    "Firm.C167_schema",
    "Firm.C167_entity"
   ],
   "note": "Exact acceptance conditions of the four tools, for paths into the workspace without two dots in a row (other paths: C59, C162_outside). The syntax check is a parameter of the model."
  },
  {
   "property": "C168",
   "status": "partial",
   "theorems": [
    "Firm.C168_again",
    "Firm.C168_limits",
    "Firm.C168_large",
    "Firm.C168_nothing",
    "Firm.C168_degrees",
    "Firm.C168_swap_partial",
    "Firm.C168_and_partial",
    "Firm.C168_sort_where_partial",
    "Firm.C168_sort_again",
    "Firm.C168_sort_related",
    "Firm.C168_steps_partial",
    "Firm.C168_limit_where",
    "Firm.C168_limit_order",
    "Firm.C168_swap_fails"
   ],
   "note": "Partial: where clauses can change places or be joined only if they do not fail on any entity (C168_swap_fails, C20_not_equivalent); sorting and filtering likewise, for a column of one kind; two related clauses add up to at most five degrees (C146_beyond). limit cannot change places with where or order (C168_limit_where, C168_limit_order)."
  },
  {
   "property": "C169",
   "status": "partial",
   "theorems": [
    "Firm.C169_accepted",
    "Firm.C169_success",
    "Firm.C169_order_partial",
    "Firm.C169_two_names"
   ],
   "note": "Refusal and success of add_entity characterised exactly, for every server state that comes from a build. The order of the fields decides when a request names a field twice in two spellings (C169_two_names), so the part about the order is partial."
  },
  {
   "property": "C170",
   "status": "partial",
   "theorems": [
    "Firm.C170_texts",
    "Firm.C170_text",
    "Firm.C170_init",
    "Firm.C170_changed",
    "Firm.C170_references_partial",
    "Firm.C170_contacts"
   ],
   "note": "The texts of the example workspace are written down line by line as the specification. Partial because secondary_contacts_ref is a list although its name ends in _ref (C170_contacts)."
  },
  {
   "property": "C171",
   "status": "proved",
   "theorems": [
    "Firm.C171_read",
    "Firm.C171_write",
    "Firm.C171_delete",
    "Firm.C171_replace",
    "Firm.C171_rebuild",
    "Firm.C171_run"
   ],
   "note": "A refinement between the two models of the disk; it carries what is proved about the server without links over to the server with links."
  },
  {
   "property": "C172",
   "status": "partial",
   "theorems": [
    "Firm.C172_accepted_partial",
    "Firm.C172_order",
    "Firm.C172_quoted"
   ],
   "note": "Equivalence proved for arguments that are not in three quotation marks, choices without quotation marks and date-times with one zone; C172_quoted shows a text in three quotation marks for which the program panics. Independence of the order of the lists is proved in full."
  },
  {
   "property": "C173",
   "status": "partial",
   "theorems": [
    "Firm.C173_added",
    "Firm.C173_inside_partial",
    "Firm.C173_unlinked_partial",
    "Firm.C173_run_partial",
    "Firm.C173_escapes",
    "Firm.C173_dangling"
   ],
   "note": "The claim that nothing outside the workspace changes is false of the code (C173_escapes, C173_dangling) and holds for relative targets without two dots in workspaces without links (C173_inside_partial); the agreement with the model without links leaves out targets with two dots. C173_added holds for all disks and targets."
  },
  {
   "property": "C174",
   "status": "partial",
   "theorems": [
    "Firm.C174_apart_partial",
    "Firm.C174_values_partial",
    "Firm.C174_same_partial",
    "Firm.C174_entities",
    "Firm.C174_fields",
    "Firm.C174_no_grammar",
    "Firm.C174_served",
    "Firm.C174_request_partial"
   ],
   "note": "Part: names without blanks or line breaks where these end a name, values without line breaks or texts of several lines none of which is three quotation marks (C174_apart_partial: same types, names, fields and value texts), and for values that read back and are no lists the values themselves (C174_values_partial, C174_same_partial). A request to add an entity none of whose texts has a line break or is three quotation marks cannot be taken for other entities or fields (C174_request_partial). False in general: any entity can be hidden in a path (C174_entities), any text field in a text of several lines (C174_fields), so that no grammar reads all generated files right (C174_no_grammar); C174_served shows a request for one field after which two are served."
  },
  {
   "property": "C175",
   "status": "proved",
   "theorems": [
    "Firm.C175_query",
    "Firm.C175_get",
    "Firm.C175_related",
    "Firm.C175_entity",
    "Firm.C175_ids",
    "Firm.C175_text",
    "Firm.C175_follows"
   ],
   "note": "Sorting by a column with values of several kinds needs a sorting that looks at comparisons only (ComparesOnly, which every sorting does that the standard library could use; the model leaves the order open there). C175_follows: for a query with related the kept references are needed."
  },
  {
   "property": "C176",
   "status": "partial",
   "theorems": [
    "Firm.C176_answers",
    "Firm.C176_default",
    "Firm.C176_refusal_partial",
    "Firm.C176_capitals"
   ],
   "note": "A refusal shows the lower-case form of the topic, so it does not show which capitals were asked for (C176_capitals)."
  },
  {
   "property": "C177",
   "status": "partial",
   "theorems": [
    "Firm.C177_texts",
    "Firm.C177_items_partial",
    "Firm.C177_enums",
    "Firm.C177_paths_partial",
    "Firm.C177_hidden",
    "Firm.C177_lists_partial",
    "Firm.C177_same_partial"
   ],
   "note": "Missing: texts with line breaks, lists of lists, items with commas other than texts, enums and paths, and paths that hold the opening of a path literal. C177_hidden: without reading back the claim is false."
  },
  {
   "property": "C178",
   "status": "partial",
   "theorems": [
    "Firm.C178_tree_partial",
    "Firm.C178_search_partial",
    "Firm.C178_breaks",
    "Firm.C178_query_breaks"
   ],
   "note": "false when names of files or queries have line breaks (C178_breaks, C178_query_breaks); proved without them"
  },
  {
   "property": "C179",
   "status": "partial",
   "theorems": [
    "Firm.C179_median_partial",
    "Firm.C179_count",
    "Firm.C179_integers",
    "Firm.C179_group_overflow",
    "Firm.C179_currency_partial",
    "Firm.C179_no_currency",
    "Firm.C179_types"
   ],
   "note": "Counts, integer sums and the division by type are proved in full; currency sums within the range of the decimal type and medians of floats below 2^1023. A group may panic where the whole does not (C179_group_overflow), and the sum of a group without amounts has no currency (C179_no_currency)."
  },
  {
   "property": "C180",
   "status": "partial",
   "theorems": [
    "Firm.C180_told_partial",
    "Firm.C180_known",
    "Firm.C180_last_partial",
    "Firm.C180_deleted",
    "Firm.C180_untouched",
    "Firm.C180_grows",
    "Firm.C180_outside",
    "Firm.C180_nameless"
   ],
   "note": "Proved for sessions of any length on disks whose files are text, one request after the other. False for files outside the workspace and files named .firm, which can be written and not read (C180_outside, C180_nameless)."
  }
 ]
}