# Design: a machine-checked model of Firm

Subject: `42futures/firm`, source in `/repo` (read as text, never built here).
Everything below is Lean 4 (4.33.0). The model is a set of total, computable
functions written function by function after the Rust source; every definition
cites the file and lines it follows and says where it simplifies.

## Layout

| path | contents |
|------|----------|
| `lean/Verif/Model/*.lean` | the model: one definition per Rust function, cited |
| `lean/Verif/Spec/*.lean` | small independent specifications used in statements |
| `lean/Verif/Lemmas/*.lean` | helper lemmas |
| `lean/Verif/Props/*.lean` | the property theorems `Cnn_…`, each followed by an `example` showing that a concrete non-trivial case meets its hypotheses |
| `lean/Verif/Conformance/*.lean` | unit tests of the project, run on the model (tests, not proofs) |
| `properties.jsonl` | the properties in English |
| `MANIFEST.json` | property → theorem names and status |
| `seeded/LOG.jsonl` | mutation tests: edits of the model and the theorems they break |

## How Rust is rendered

* `String`/`&str` → `Str := List Char`. `EntityId`, `EntityType`, `FieldId` are `Str`.
* `HashMap`/`HashSet` → association lists / lists. Where the code *iterates* over a
  hash container, the iteration order is an explicit parameter (any permutation) and
  theorems quantify over it.
* `Result`/`Option` stay data; `&mut self` becomes a returned new value; a Rust panic
  is an explicit error value or an explicit hypothesis, named in the comment.
* `i64`/`usize` → `Int`/`Nat`; where overflow is observable (integer `sum`) it is modelled.
* `f64` → `F64`: NaN, ±∞, −0 and exact rationals; rounding (`rnd`, round to nearest, ties to
  even, 53 bits, exponent range of binary64) is modelled for `as f64`, `+`, `-`, `/`.
* `rust_decimal::Decimal` → mantissa and scale, compared by exact value.
* `chrono::DateTime<FixedOffset>` → UTC seconds, nanoseconds, offset in seconds. Its texts and their
  reading (chrono 0.4, as remembered) are modelled in Model/Dates.lean and used in C119, C123–C125 only;
  elsewhere they stay parameters.
* `PathBuf` → `Str` with `std::path` (Unix) component semantics where order/equality matters.
* External functions with no source here are fields of `Env` (Unicode `to_lowercase`,
  decimal↔float conversion, chrono parsing, local UTC offset). Theorems hold for *every*
  `Env`; where a law is needed it is a separate hypothesis, shown satisfiable.
* Hash iteration order and `sort_by` are fields of `Runtime`. `Runtime.sort` may return any
  permutation or panic; only when the comparator is a total preorder on the elements is it the
  stable sort (`stableSort`, an insertion sort). This is what Rust's documentation promises.
  Theorems hold for every `Runtime`; C30 exhibits comparators that are not preorders.

## Trusted base

* Lean's kernel, and the axioms `propext`, `Classical.choice`, `Quot.sound` (at most; checked with
  `#print axioms`). No own axioms, no `sorry`, no `native_decide`, no `bv_decide`.
* That the model follows the Rust source as cited (by reading; not extracted).
* Behaviour of third-party crates as described in the comments: petgraph node/edge storage,
  `convert_case` 0.8 `Case::Snake` (default boundaries including letter/digit ones; the repo test
  `select.rs:105` shows `p1 → p_1`), chrono, rust_decimal, iso_currency, pest, path-clean, pathdiff
  (both as remembered: their sources are not available here).
* The tree-sitter grammar is an empty submodule in `/repo`. Syntax trees are inputs of the model; the
  round trips (C55, C67–C70, C81) use trees built in `Spec/Literals.lean`, whose texts are proved to be
  the generated text (`…_text`) and whose nodes are proved to lie side by side in it (`…_tree`). That
  tree-sitter yields these trees for these texts is assumed.
* Laws assumed of parameters, as hypotheses of the theorems that use them and shown satisfiable by an
  example: `RegularCase` (case tables), `FloatText` and `IntegerText` (printing and parsing of `f64`),
  `lower "" = ""`.

## Axioms

Every theorem `Cnn_…` depends on at most `propext`, `Classical.choice` and `Quot.sound`. To list them:
`import Verif` and `#print axioms Firm.Cnn_name` for each name in `MANIFEST.json`.

## Status per property

"all" = proved as stated; "part" = the statement is false of the code or only part of it is proved; the
theorems ending in `_partial` hold the true part and the others named are the counterexamples.
`MANIFEST.json` lists all theorems.

| id | modelled | proof and result |
|----|----------|-------|
| C01–C03 | `Graph` (nodes, edges, id map, type map) and the four mutators | invariant by induction over histories, refinement to the list of accepted entities — all |
| C04–C08 | `build`, `collect`, `getRelated` | membership against an inductive `RefersTo`; sortedness; permutation invariance — all |
| C09–C11 | `searchFieldReference` with depth and visited set | equivalence with an inductive chain relation; loop lemma for the visited set — all |
| C12–C14 | `getRelatedEntities` | levels are balls of the undirected link relation, induction on the degree — C13 part (`C13_degree_zero`) |
| C15–C18, C66 | schema validation and builders | decision logic against declarative `Conforms`; sorting by order — all |
| C19–C22 | `where`, compound conditions | list induction — C20 part (`C20_not_equivalent`) |
| C23–C28 | comparison functions per kind | case analysis — part: C23 (`C23_no_decimal`), C24 (`C24_both_false`), C26 (`C26_in_currency`), C27 (`C27_nested`) |
| C29–C31 | comparator and sort | total preorder on homogeneous values; uniqueness of the stable sort, a second `order` refines the first (`C29_two`), `limit` after `order` keeps the first ones (`C33_first`) — part: C30 (`C30_not_transitive`), C31 (`C31_not_last`) |
| C32–C35 | `Query::execute` | induction over operations; sort and filter commute — all |
| C36–C40 | aggregations | fold lemmas, permutation invariance — part: C37 (`C37_currency_overflow`), C38 (`C38_overflow_order`), C39 (`C39_mixes_currencies`, `C39_median_overflow`) |
| C41–C45, C71 | workspace loading and build | two-pass fold against a declarative specification; induction over directory trees — all |
| C46 | schema look-up by name | part (`C46_not_found`) |
| C47–C48 | `to_case(Snake)`, compose/decompose | boundary-splitting automaton, induction — part (`C47_title_case`, `C48_trailing`, `C48_leading`, `C48_camel_case`) |
| C49, C78 | names in queries against names in files | text to result — part (`C49_camel`, `C78_camel`) |
| C50–C54 | literal generators and parsers | induction on digits and characters — C53 all; part: C50 (`C50_no_dot`), C51 (`C51_quotation_mark`, `C51_carriage_return`), C52 (`C52_half_hour`, `C52_seconds`), C54 (`C54_panic`, `C54_first_line`, `C54_not_idempotent`) |
| C55, C67–C70, C81 | generated lists, entities, schemas and files | mutual induction over values and trees — C67 all; part: C55 (`C55_quotation_mark`, `C55_not_enum`), C68 (`C68_infinite`), C69 (`C69_reads_as`; `C69_exact_partial`: exactly which values read back), C70 (`C70_capital_type`), C81 (`C81_capital`) |
| C56–C63 | MCP tools over a finite file tree; the tools that write also as interleaved steps, any number at once | case analysis, induction over request lists and schedules — C57, C61, C63 all; part: C56 (`C56_binary`), C58 (`C58_same_file`, `C58_lost`), C59 (`C59_write_escapes`, `C59_add_escapes`), C60 (`C60_overlap`), C62 (`C62_stale`) |
| C64 | save, rename and write as steps that can be interrupted | invariant over runs — part (`C64_two_crashes`) |
| C65, C72 | `firm add` | induction on the counter; file tree lemmas — part: C65 (`C65_exhausted`, `C65_stale`), C72 (`C72_glued`) |
| C73–C77, C79, C80 | the query grammar and its readers | parser/printer round trip by induction, soundness of the parser — C73, C79 all; part: C74 (`C74_blank`), C75 (`C75_rounded`), C76 (`C76_unknown`), C77 (`C77_time`), C80 (`C80_glued`) |
| C83–C86 | `list`, `get`, `related`, `query`, `find_source` of the server and `firm list`, `get`, `related`, over the build and graph the server serves | against the entities of the build; uniqueness of ids — C84, C86 all; part: C83 (`C83_as_printed`), C85 (`C85_spelling`) |
| C87 | replies of the MCP tools that write | case analysis from an arbitrary state — all |
| C88–C89 | path literals, `path-clean`, `pathdiff`, `std::path` components | components of printed paths, induction over components — part: C88 (`C88_ending`), C89 (`C89_dots`) |
| C90 | values, list item types and fields of `add_entity` requests | against an inductive meaning of JSON values; induction over fields — part (`C90_reference`) |
| C91 | date-time literals with and without a zone | against an inductive meaning of date-time texts, both directions — part (`C91_two_zones`, `C91_wraps`) |
| C92 | arguments of `firm add`: scalars, lists, paths | against an inductive meaning of arguments; induction over argument lists; components of paths — part (`C92_quoted`, `C92_number_items`, `C92_dots`) |
| C93 | `add_entity` and `firm add` followed by loading and building | the files before and after differ in one file, its children by one block; permutation of built entities — part (`C93_other_name`, `C89_dots`, `C90_reference`, `C72_glued`); reading of the appended block is a hypothesis on the grammar |
| C94 | text of a query to its result | relation `Asks` (Spec/Meaning.lean) between query trees, entities and results; induction over the clauses, on top of C73, C74–C80, C12, C19–C31, C37–C39 — all; existence of a result without arithmetic (`C94_succeeds`) |
| C95 | two runs of one query text | `Asks` determines results up to permutation; uniqueness of sorted lists without ties and the middle of sorted numbers — part (`C95_limit`, `C95_floats`, `C95_zero`); sums and averages of floats of two runs differ by at most twice the bound of C145 (`C95_near_partial`, `C95_near_average_partial`) |
| C96 | saved graph: JSON text, derived (de)serialisation, hash map orders (Model/Saved.lean) | JSON reader inverts the writer (induction over depth); values, entities, maps; bisimulation of graphs that differ in map order — part, with an exact condition (`C96_refused`; `C96_infinite`, `C96_deep`) |
| C97 | beginnings of the saved text, interrupted builds | a value that was read is read again before more text; induction over the builds — all |
| C98 | `serde_json` reading of non-integer numbers without `float_roundtrip` (Model/Floats.lean) | digits that fit are collected exactly, powers of ten up to 22 and integers up to 2^53 are exact floats, so one rounding remains — part (≤ 15 digits always; `C98_eleventh`, `C98_changed` show that a float with 16 digits changes) |
| C99 | interactive add as a function of the answers (Model/Prompt.lean) | C100, schemas of a build have normalised enums — all |
| C100 | the prompts of `field_prompt.rs`, one by one | each prompt against a relation between answers and values; induction over the answers, the items of lists, the fields — all |
| C101 | escape at each prompt | C100 — part (`C101_enum`: an optional enum cannot be skipped; `C101_currency`, `C101_offset`: the whole dialogue ends) |
| C102 | `reference_prompt` and the saved graph | C100, C44 — all |
| C103 | ids of both ways of adding | no dot survives `sanitize`, composition adds one — part (`C103_dialogue`: the id a dialogue reports is never the id of the entity; `C103_empty`) |
| C104 | block of the entered entity, read back | C50–C52, C67–C69, C88 for each prompt, then C93's blocks — part (quotation marks, `…enum`, `…path`, infinite floats) |
| C105 | disk before and after `firm init`, log of the questions answered | invariant of every step: own files only, confirmation in the log |
| C106 | content of .gitignore | induction-free; repetition is false (`C106_twice`): the test asks for `.DS_Store`, which is never written — part |
| C107 | default schemas, written and read back | reduction to one concrete table (case data agree on ASCII lower case), then C55 |
| C108 | workspace after init | files on the disk as a list, C43 and C41 — part (names with quotation marks; names without letters give no id) |
| C109 | texts of `to_string_pretty`, read with the reader of C96 | induction over the tree, then left inverse of the derived `Serialize`; schemas are read back with the derived `Deserialize` (`C109_schema_read`); for any nesting, two results are printed alike iff they differ only in non-finite floats (`C109_alike_partial`) — part (non-finite floats; the reader stops at 127 levels) |
| C110 | `Display` of entities, layout of the lists | decoding of lines; false (`C110_forged`): a text value can imitate further entities — part (no line breaks in what is shown) |
| C111 | `Display` of tables | decoding of lines and tabs; an empty cell looks like the text `-` (`C111_dash`) — part |
| C112 | `main` on the disk: build, save, load, answer | C96 over the text on the disk, frame lemmas — part: infinite floats and deep nesting (`C112_infinite`), directories in the way (`C112_blocked`) |
| C113 | `firm source` on the disk | C71 and the search of C85 |
| C114 | `firm add`, then `get`, `add` or a server on the same disk | C92, C93 and C112 on the disk that the run leaves — part: values that do not read back, a last line without a line break, targets outside the workspace, what C112 lacks |
| C115 | the commands of C112 beside the tools of C84 and C86 | two builds of one disk are permutations of each other — part: what C112 lacks |
| C116 | `serdeFloat` of C98 for any number of digits | error bounds of one rounding (`rndPos_near`), of the dropped digits (`digits_near`) and of the table of powers, multiplied; for numbers below the normal floats an absolute error for each round of the loop (`C116_any`) |
| C117 | the builder calls of C66 and the validation of C15, C16 | the map after the calls says of each name what the last call says (`build_demand`, induction from the end); then C15 |
| C118 | all writing tools as steps of any number of requests (Model/Concurrent.lean) | invariant over schedules; false (`C118_stale`): a rejected request leaves its data in memory when another rebuild came before the rollback — part: all requests succeed |
| C119 | `Display` of values, of field names and of results (Model/Printed.lean) | texts of numbers read back, first blank and first colon, words of names — part: commas and empty texts in lists (`C119_commas`, `C119_empty`), nested lists, letters that share a capital (`C119_capitals`); that the libraries show different floats and currencies differently is assumed, of dates it is proved (`C119_dates`) |
| C120 | `Display` of schemas | decoding of lines — part: allowed values with commas or line breaks, empty ones (`C120_commas`) |
| C121 | trees and builds of C41; what counts of a tree is a separate function (Spec/Sources.lean) | every reader of the tree gives the same on a tree and on what counts of it (mutual induction), then the two passes — all |
| C122 | the same, `ERROR` nodes as tree-sitter's marks | false (`C122_silent`): such nodes between blocks or fields are passed over, `has_error` is only asked by `write_source` and `replace_source` — part: in the place of a value, and in texts given to these tools |
| C123 | chrono's texts of dates and its reading of them (Model/Dates.lean), the graph file, `parse_datetime` | each printed part read back, day numbers and calendar inverse to each other — zones with seconds, which `UTC1193047` reaches, are not kept (`C123_seconds`) |
| C124 | `compare_datetime` with chrono's readers | false (`C124_never`, `C124_query`): no literal with ` at ` is ever understood, although the query reference shows one — part: dates without a time |
| C125 | `parse_from_rfc3339` in `json_to_field_value`, `compare_datetime` | the strict reader on printed dates — part: years outside 0–9999 are refused (`C125_years`) |
| C126 | the file tools on disks with symbolic links (Model/Links.lean) | the walk of the kernel against an inductive relation, then invariants of writing, deleting and creating — false of `write_source` for new files (`C126_write_escapes`, `C126_dangling`), part: existing files, or no links in the workspace; deleting a link deletes its target (`C126_deletes_target`) |
| C127 | `load_directory` through links | the tree unfolded along the links, by the number of links still followed — loading: all; listed files can be read: part (`C127_refused`, files linked from outside) |
| C128 | `load_directory` and the build | the identifiers of both files in the graph — all |
| C129 | the reference prompt's suggestions, its check of an answer (Model/Suggest.lean), built workspaces | keys of a built graph are normal identifiers with one dot, normalising a beginning gives a beginning — all; answers in capitals are accepted but not suggested (`C129_capital`) |
| C130 | the path prompt's suggestions, `path_prompt` on directory trees | a suggestion's components lead where the listed directory led — existence: all; everything below the workspace is suggested: part, not after a single dot (`C130_hidden`); stored paths: part as in C104 |
| C131 | the refusals of `replace_source` with their texts (Model/Refusal.lean) | false (`C131_crash`): the searched text is cut at its hundredth byte, which may be inside a character; exactly when is `C131_crashes` — part: all other texts, in particular ASCII |
| C132 | the calls that change the disk, one after the other, with the disks inside each (Model/Interrupted.lean) | invariant over the calls of a request: only the target changes; the calls done completely are the requests of the other models (`C132_calls`) — other files: all, `add_entity`: all, repeating: `C132_retry`; false of the target of `write_source` (`C132_lost`, `C132_refused`): it is emptied before it is written — part: what can be left there |
| C133 | `add_entity` of the command line: which way of adding, and the options as pairs (Model/AddLine.lean) | C92's entity for the arguments that are honoured, case analysis for those that are refused — part: values for a list that is not declared are ignored (`C133_ignored`), and so is the first of two types of a list (`C133_twice`) |
| C134 | the calls of `firm` that change the disk, with the disks inside each (Model/Stopped.lean) | frame: only the graph files, and for `add` the target, change; loading does not see the graph files, so that C112 holds of the disk that is left; C97 for half a graph — other files, `add`, `--cached`: all; answers afterwards: as C112; the backup is lost after two stops (`C134_lost`) |
| C135 | nothing new: `Shell.entityToAdd` (C92) and `entityToAdd` (C90) | a relation between texts and JSON values that say the same (`Twin`), read off both programs by cases; induction over the fields and the lists — part: paths are left out, and the programs differ on quotation marks, capitals, whole numbers for floats (`C135_differs`), references of other lengths, blanks, empty lists (`C135_one_side`) and mixed references (`C135_mixed`) |
| C136 | nothing new: `trimCommonIndentation`, `parseDateTime`, `parseLeaf` (C22, C122, C123), `build` (C45) with their `panic` outcomes | both directions for one literal (`C136_string`, `C136_literal`: the crash is exactly an indentation that ends inside a character or a zone too wide), induction over the parse tree and over files for the build (`C136_build`) — all |
| C137 | nothing new: `Query.execute` (C32–C40) with its `panic` outcomes; `slice::sort_by` may panic on any comparator that is not a total preorder (`Runtime.sort_stable`) | conditions never yield `panic` (cases over kinds and operators, induction over lists); the sum panics exactly on an overrun (`C137_sum`); the sort panics only on a column of several kinds with a circle (`C137_order`); induction over the operations — all, except that medians are taken to sort (NaN, see below) |
| C138 | `Server.outcome` (Model/Lost.lean): the tools of `Server.handle` once more, with a panic of `rebuild` or of a refusal's wording ending the request | cases over the request; that `rebuild` panics only by C136 (`rebuild_panic`, induction over the tree), what is on the disk by the specifications of the writers (`C138_lost`), that nothing succeeds while the value is there (`C138_stuck`) — all; the change is not undone, so what C56 and C57 say of answered requests fails of lost ones (`C138_kept`) |
| C139 | `initOps` (Model/InitStopped.lean): the calls that `initWorkspace` (C105) makes, stopped as in C132 | the calls end at the disk of the model of C105 (`C139_end`); what a step can leave is put together over the parts of the command, which work at different places (`C139_between`, `C139_kept`) — part: running again completes the workspace if overwriting is agreed to (`C139_again_partial`); with the return key at every question it leaves schemas missing or cut (`C139_unfinished`, `C139_skipped`) |
| C140 | no new code: the reading of literals (C45), the query grammar (C73), the conversion (C49) and the comparison (C23–C28) composed; `FoundBy` (the literal equals what the same text means in a query) is the specification | one exact condition for each kind of literal (`C140_string`, `C140_enum`, `C140_integer`, `C140_float`, `C140_currency`, `C140_reference`, `C140_field_reference`, `C140_path_partial`), and from the block to the result of the query (`C140_found_partial`) — false of the code: whole numbers beyond 2^53 (`C140_integer_lost`), dates with a time of day (`C140_moment`), references not in snake case (`C140_reference_lost`), relative paths in a source file below the workspace or not in normal form, texts that begin with white space, empty lists and lists in lists (`C140_empty_list`, `C140_nested`) |
| C141 | no new code: `in` of the filter (C26) and the meaning of a query (C94) | `in` is answered with "yes" for no pair of value and literal (`C141_never`), so a query that has a clause with it and no `or` gives no entity whatever comes before and after (`C141_query`) — false of the documentation (docs/src/reference/query-reference.md, "Value in list"); `C141_or_partial`: the chain of `==` joined by `or` finds exactly the entities whose value is one of the list |
| C142 | no new code: selection, filter and `related` composed (C12, C25, C34, C73, C94) | `C142_from_partial`: equality of the two runs, errors included, under the condition that the text names exactly that type; `C142_related_partial`: a permutation, since the order of `related` is a hash order; `C142_get_partial`: `from * \| where @id == "…"` is the lookup of C01 — false of the code: types of which there is no entity (`C142_unknown`: error against nothing), types that differ in case only (`C142_case`), `related(0)` (`C142_zero`) |
| C143 | no new code: `write_source`, `delete_source` and the rebuild (C56–C58) | `C143_delete_partial`: the files before are the deleted one and the files after (`loads_without`), so the build splits; refusal exactly when an entity elsewhere loses its schema (`Orphans`); `C143_blind`: conformance looks at the kind of a value only — false of the code as described by the tools (firm_mcp/src/server.rs:241, 299): nothing checks where references lead to (`C143_deleted`, `C143_written`) |
| C144 | no new code: `Entity::new` with `EntityId::new`, generation and reading (C47, C48, C70) | `C144_read`: exactly what is read, from the words of the id; `C144_kept_partial`, `C144_apart` follow — false of the guide's own examples (docs/src/library): `C144_guide` (the id gets the type in front), `C144_clash` (two ids become one) |
| C145 | no new code: `sum` and `average` (C37, C39) over the modelled rounding of `f64` | `C145_sum`, `C145_average`: induction over the loop, one rounding per step with relative error 2^-53 (sums of floats are multiples of the smallest float, so nothing is lost to underflow); `C145_drift`: the bound in plain numbers; `C145_order`; `C145_quotient`: the average is the float sum divided by the count; `C145_between_partial` for integers — the range is false of floats: `C145_outside` (the average of three times `0.1` is above `0.1`), `C145_infinite`; `C145_reordered`: the bound on orders cannot be 0 |
| C146 | no new code: chains of `related` clauses (C12) | `C146_chain`: by induction over the chain, the entities within the sum of the degrees, each counted as at most 5; `C146_sum_partial` (sums up to 5), `C146_mutual`, `C146_union`, `C146_typed`, `C146_all` (every connected entity is found by some chain) — two clauses reach further than one with the sum: `C146_beyond`; a type in the first clause loses entities: `C146_lost` |
| C147 | no new code: the requests of C118 | false (`C147_refused`: rejected because of a text that is itself rejected, accepted in either order; `C147_together`: both accepted, both rejected in either order) — part: one after the other is one of the interleavings (`C147_serial`, by induction over the order), two interleavings that accept the same requests for places apart leave the same files (`C147_files`, `C147_in_turn_partial`); with `force` and plain paths it holds in full: a request is accepted exactly if it would be alone (`C147_forced`) and the files are those of any order (`C147_forced_files`); `C147_dots` shows why the paths have to be plain |
| C148 | Display of QueryError and the messages of aggregations (Model/Messages.lean); pest's own message about a syntax error is not modelled | the list of operators is exact (`C148_operators`, by cases over all comparisons) and each listed word is read as its operator (`C148_words_partial`), except `starts_with` and `ends_with`, which every query rejects as syntax errors (`C148_starts_with`); a query rewritten with a listed operator is not refused again if the field has one type (`C148_follow_partial`); mismatches are final (`C148_mismatch_partial`) except for lists (`C148_list_mismatch`); listed types are found if in snake case (`C148_types_partial`), otherwise the same error comes again (`C148_again`); dates as advised are accepted (`C148_date_partial`), the advised ISO moments are syntax errors (`C148_iso`); the message about an unknown type lists all types there are and no others (`C148_all_types`), and messages about operators and kinds of values differ whenever operator, type or kind differ (`C148_tells`, cut at the first quotation mark or space) |
| C149 | the message of a sum over several currencies (Model/Messages.lean), the condition on currencies and the sum | the message ends in a clause of the query language (`C149_text`); after that clause the sum is exactly that of the amounts of the named currency that are not negative and never mixes currencies again (`C149_kept` for entities, `C149_sum_partial` for queries as text, without `related`), so it is the sum of that currency if none is negative (`C149_all_partial`); amounts below zero are dropped without notice (`C149_negative`) |
| C150 | `WorkspaceError`, the conversion errors and `ValidationError` as texts and the build that makes them (Model/WorkspaceText.lean); `Debug` of a text is a parameter, the text of `io::Error` is opaque | the build with texts refines the build without (`C150_same`, induction over files); the text of each error that is no panic names the file of a block that is wrong, the type without schema, the field type that does not exist, the invalid entity, every violating field and in a full sentence what is wrong with it (`C150_cause_partial`, invariant of the first pass: the types of the table are those of the blocks before); `firm init` is advised exactly for the built-in types (`C150_advice`); a type defined twice gives only the word `Stuff` (`C150_stuff`), and an unreadable value names neither entity nor field (`C150_value`) |
| C151 | `firm init` (Model/Init.lean), loading and building (Model/Workspace.lean) and the advice of C150; the grammar is assumed to read generated schemas as in C55 | each firm file afterwards is a default schema, the new main.firm or a file from before (`init_firmFile`), so no schema of a built-in type is missing (`C151_found`) and, if the own schemas are readable and of other, different types, only an entity can be at fault (`C151_entities_partial`, through `C150_cause_partial`); an own schema of a built-in type in another file clashes with the new one and no build succeeds (`C151_clash`, `C151_worse`) |
| C152 | query execution (Model/Query.lean, Filter.lean, Aggregation.lean), schemas and builds; `FitsSchemas` follows which types of entities each operation can meet and looks the fields up in the schemas of these types, with the tables `operators` and `comparable` of Spec/Query.lean | induction on the operations with the invariant that all entities conform and are in scope (`fits_operations`); conditions by `C26_error_table`, orderings by `C137_order` and `C137_circle`, aggregations by `C137_sum` and C38; `C152_workspace` for builds and query texts, `C152_needed` for the converse; lists and undeclared fields have no declared element type, so nothing about them fits (`C152_lists`, `C152_undeclared` show that they can fail) |
| C153 | conditions (Model/Filter.lean) and validation (Model/Schema.lean); assumed of lower-casing only that it does not depend on the case of A–Z (`CaseBlind`) | what a condition takes for the same value the schemas do too (`C153_finer`), so a value that is not offered is found nowhere (`C153_never`, `C153_nothing`, `C153_alternative`); the converse holds without blanks at the ends and letters beyond A–Z (`C153_agree_partial`) and fails otherwise (`C153_blanks`, `C153_accents`); two documented queries ask for values that the built-in schemas do not offer (`C153_documented`, `C153_open`) |
| C154 | conditions, sources and aggregations of queries (Model/Filter.lean, Query.lean, Aggregation.lean) | an operator and its opposite (`==`/`!=`, `>`/`<=`, `<`/`>=`) have opposite answers for every value that can be told apart from the one asked for (`C154_value_partial`), combined conditions too with "and" and "or" exchanged (`C154_entity_partial`); so the results of a query with the condition and with its opposite are a split of the results without (`C154_split_partial`), their counts add up to the count of the field (`C154_count_partial`), their whole-number sums to the sum (`C154_sum_partial`); false of amounts in several currencies (`C154_currencies`), of NaN and lists (`C154_neither`); queries with `related` are left out because the order of its results may differ from run to run |
| C155 | `DateTime::parse_from_rfc3339` of chrono (Model/Dates.lean), `json_to_field_value` (Model/Mcp.lean), writing and reading of dates in source files | a grammar of RFC 3339 with the moment each text means; the reader accepts exactly these (`C155_reads`, `C155_request`), so dates alone and moments as source files write them are refused (`C155_source_format`); the file that is then written gives the moment back iff the zone is in whole hours and there are no seconds (`C155_kept_partial`), otherwise it is moved by the minutes of the zone (`C155_zone`) or cut (`C155_seconds`) |
| C156 | `Query::execute` over graphs built from two histories (Model/Graph.lean, Model/Query.lean) | induction over the clauses with two runs side by side: `where` and `order` keep the inclusion, `related` by its characterisation as a ball (C12) and because links stay when entities are added; hence found stays found (`C156_found_partial`) and counts do not go down (`C156_count_partial`), and without `related` all that is found in addition is new (`C156_new`); false with `limit` (`C156_limit`), and the second query may fail where the first did not (`C156_fails`) |
| C157 | `build_with_progress` with the calls of its callback, the log line of `Workspace::build`, the reply of the `build` tool (Model/Counted.lean) | induction over the files: the callback changes nothing (`C157_result`), each file is announced with the number of files before it, all of them if the build succeeds, and up to the one named by the error if an entity is at fault (`C157_progress`); the numbers of the reply are those of the blocks on the disk and of `from * | count` (`C157_numbers`), the text tells them (`C157_text`), and after a successful `add_entity` they are one more and the same (`C157_added_partial`, with C93); false: the progress never says that all files are done (`C157_unfinished`), and the log has its two numbers the other way round (`C157_log`). That another request rebuilds between the rebuild and the reading of the numbers (server.rs:420-425) is left out |
| C158 | `Workspace::build` over files whose definitions are distributed differently; path literals against the directory of the file (Model/Build.lean, Model/Dsl.lean) | the conversion of a block looks at the file name only for relative path literals: induction over the value (`C158_entity`, `C158_schema`); with it two workspaces with the same definitions, each in the same directory or without relative paths, have the same builds up to the order (`C158_build_partial`), fail together (`C158_failure_partial`), serve the same queries (`C158_served_partial`); renaming and moving files on disk is such a redistribution (`C158_rename`, with `LoadsAs`); the full claim is false: a relative path in a file of another directory is another path (`C158_path`) |
| C159 | the server's `write_source`, `delete_source` and `replace_source` followed by the rebuild (Model/Mcp.lean, Model/Build.lean) | the blocks of a workspace split into those of one file and the rest (`blocks_split`); if two served disks have the same source files but for one, the entities and schemas are a permutation of those of this file and a common rest (`C159_change`, `ChangesOnly`); entities of other files are served before and after (`C159_stays`), those of the changed file only if it still defines their id (`C159_gone`); the success of each tool is such a change at the place it names (`C159_write`, `C159_delete`, `C159_replace`), and writing outside the workspace changes nothing that is served (`C159_same`) |
| C160 | the replies of `write_source`, `delete_source`, `replace_source` and `add_entity` as texts (Model/Said.lean): the tools again, with the sentences they return; the wording of build errors and of io errors is a parameter (`Wording`), so is the cause of a refusal of `add_entity` (`why`) | the tools with texts do what the tools of Model/Mcp.lean do and answer with an error exactly when these do (`C160_refines`); a success says the number of bytes and whether the file was there (`C160_written_partial`, `C160_deleted`), the number of places replaced (`C160_replaced`) or the text appended (`C160_added`), and ends with `Workspace is valid.` only if the server now serves the files, else with a warning and the files do not build (`EndsRight`); a failed validation says that the change was taken back, and it was (`C160_rolled_partial`, `C160_restored`, `C160_replace_rolled`); a rollback by itself is called done only if it is, also when other programs have changed the disk since (`C160_honest`); other refusals change nothing and the causes `Invalid DSL syntax` and `Path must end with .firm` are true (`C160_refused`). False of the code: a file that is not text is said to be created and, when the validation fails, restored although it is gone (`C160_binary`); refusals of `delete_source` and `add_entity` are given as failed validation of the workspace (`C160_blamed`); a name with two dots is said to be outside of the workspace (`C160_within`) |
| C161 | the query text (Model/QueryText.lean), execution, builds, the built-in schemas (Model/Init.lean) and `firm add` (Model/AddLine.lean); the 29 documented queries about built-in types are listed in `documentedQueries` | a check of the parsed text against the built-in schemas and one unknown schema (`textFits`) is decided for the list and proved to imply `FitsSchemas` for all case data, all wordings of numbers and all schemas that contain the built-in fields (`tree_fits`); with C152 the only error in any such workspace is that no entity of the type exists (`C161_queries`, `C161_answers`). False of other documented examples: types that are not built in fail in every workspace with the built-in types only (`C161_foreign`), `where amount > 1000` fails on money (`C161_amount`), two `firm add` commands name fields that the built-in schemas do not have and are refused on every disk (`C161_commands`) |
| C162 | the server of Model/Mcp.lean (C53–C62): write_source, delete_source, replace_source, add_entity and the rebuild after each | Props/Undone.lean. Specification: `Restored` (the same files on the disk, the server serves them, the same entities and schemas as before), `DotlessPath` (not absolute, no two dots in a row), `OnceIn` (a text stands at one position only). For a server that serves readable files: writing the old text back undoes a write (`C162_write_partial`), a deletion (`C162_delete_partial`) and an added entity (`C162_add_partial`); deleting undoes a new file (`C162_new_partial`) and an entity added to a new file; the opposite replacement undoes a replacement of one text (`C162_replace_partial`). Any number of such changes can be undone in the opposite order, with `force` since the states in between may have errors (`C162_all_partial`, Props/UndoneAll.lean: by induction over the list of requests; the files decide whether a file can be written again, except for directories at its place, and a change makes directories only on the way to its own place). All this also when the change was forced or left errors behind and whatever the hash order is. The old files build again since building does not depend on their order (C43) and the walk finds the same files. Partial since the full claim is false of the code: an old text that the syntax check refuses is served but cannot be written back, not even with `force` (`C162_refused`); `a..b.firm` can be deleted but not written again (`C162_dots`); a file outside the workspace can be created by an absolute path but not deleted (`C162_outside`); the opposite replacement is refused when the new text was there already (`C162_twice`) and is made at another position when it overlaps with the text before it (`C162_overlap`); an entity can be added to `notes.txt`, which can neither be written nor deleted (`C162_notes`); after a file was deleted and its name used for a directory it cannot be written again (`C162_nested`). Directories that were created stay. |
| C163 | The schema reader of to_schema.rs (`toSchema`, `toSchemaField`), the validator and the build; a specification of what a field block asks (`DeclaresField`, from its lines) and of two workspaces that differ in one schema block (`SchemaEdit`) | `C163_block`, `C163_accepted` and `C163_valid` say exactly which schema blocks are accepted and which entities are valid for them (the last block about a field counts). `C163_edit`: after any change of a schema block the workspace builds exactly when the block is accepted and every entity of the type meets it; the entities and the graph (`C163_graph`) stay. `C163_added`: exact condition for an added field. `C163_optional_partial`, `C163_removed_partial`, `C163_relaxed_partial`: changes that ask no more keep the workspace valid. Not true without conditions: an optional field that an entity already has undeclared (`C163_undeclared`), a removed block that covered an earlier one (`C163_uncovered`), an enum whose `allowed_values` are removed (`C163_unrestricted`) |
| C164 | The day numbers of Calendar.lean (`Civil.toDays`, `civilOf`, `parseCivil`), the readers `parse_date`/`parse_datetime`, `compare_datetime` and the comparison of `order`; a specification of the calendar that knows no day numbers: leap years, the lengths of the twelve months (`MonthLength`), the next date (`NextDate`), n days later (`DaysAfter`), the earlier of two dates (`EarlierDate`) | `C164_next`, `C164_apart` and `C164_counted`: day numbers count the days of the calendar from 1970-01-01 on, one for each date. `C164_earlier`: smaller number, earlier date. `C164_file`: a date literal is accepted exactly if there is the date. `C164_sorted`: dates and moments without a zone are sorted by date and time of day. `C164_where_partial`: conditions with a date compare in the calendar; missing are those with a time of day, which fail (`C124`) |
| C165 | The operation loop with `order` and `limit` (types.rs) and the comparator (order.rs), for every sort that the standard library may be (`Runtime`); a specification of sorting by several keys (`KeysInOrder`, `TiedAll`) and of the n greatest (`Greatest`) | `C165_keys`: any number of `order` clauses gives the one list that is sorted by the last key first, ties by the earlier ones, and otherwise as before (induction over the keys). `C165_again`: an earlier `order` by the same field is void. `C165_first`: what `limit` leaves out stands after what it takes. `C165_backwards_partial` and `C165_greatest_partial`; false in general because ties keep their order in both directions (`C165_ties`) and entities without the field come first when sorting downwards (`C165_without`) |
| C166 | The graph with all its calls (`addEntity`, `addEntities`, `build`, `clear`), lookup, listing, `get_related`, field reference resolution and the query operations; a renaming of ids in definitions and references (`renamedEntity`, `renamedOp`), any that keeps different ids apart (`KeepsApart`) | `C166_get`, `C166_list` and `C166_resolve`: whatever the history, every answer of the graph is the old answer renamed (the whole graph commutes with the renaming, by induction over the history and the search). `C166_query`: so is the answer to a query without `related` whose fields hold no references and are not ids (`NoIdsClause`, `NoIdsAggregation`). `C166_related_partial` and `C166_follow_partial`: for `get_related` and for queries with `related` the same entities renamed, in some order. Missing: the order, which follows the ids (`C166_resorted`). Not covered, because ids may be compared as texts: conditions and sorting on `@id` or on references |
| C167 | The server of Model/Mcp.lean: `build`, `write_source`, `delete_source`, `replace_source` with the file system, loading, building and rollback; a specification of the source files after a change (`withFile`, `withoutFile`), of a valid set of source files (`ValidSources`: blocks converted, one schema for each type, entities conform, ids differ), of a place that can be written (`CanWrite`) and of replaced texts (`ReplacedTo`) | Exact conditions for success, for paths into the workspace without two dots in a row: `C167_build`, `C167_write`, `C167_delete`, `C167_replace`. Consequences in terms of what is served: `C167_new` (a new file: fresh ids, fresh schema types, conforming entities), `C167_schema` (one schema block changed; with C163), `C167_entity` (one entity block changed). The condition without syntax errors (`Host.accepts`) is the tree-sitter check, a parameter |
| C168 | The whole way of a query text (Model/QueryText.lean, Model/Query.lean); the answers that it may get over all runtimes (`MayAnswer`), and lists of clauses that can replace each other in every query (`Exchangeable`) | A run of clauses uses only the iteration orders of its own steps (`applyBefore_congr`), so the runtime of one query can be mixed into one for the other (`simulated_run`, `simulated_text`). Then the laws one by one: `C168_again`, `C168_limits`, `C168_large`, `C168_nothing`, `C168_degrees`, `C168_sort_again`, `C168_sort_related` (the result of `related` can come in every order: `related_any_order`). Partial where the exchange is false of the code: `C168_swap_partial`, `C168_and_partial`, `C168_sort_where_partial` need conditions that do not fail on any entity (`C168_swap_fails`), `C168_steps_partial` needs a sum of at most five (`C146_beyond`). `C168_limit_where` and `C168_limit_order`: `limit` cannot change places with the others |
| C169 | `addEntityTool` (Model/Mcp.lean) with `jsonToFieldValue`, `addFields`, `EntitySchema.validate` and `appendDsl`, against a specification of which JSON values fit a field (`Fits`, `FitsField`, `ItemWord`), what a schema asks of a request (`FieldsFit`) and where a text can be appended (`CanAppend`) | Each step is turned into an equivalence: a value is converted iff it fits (`fits_scalar`, `fits_field`), the loop over the fields gives one field per requested field (`addFields_iff`), and the entity conforms iff no required field is missing and the first word for each choice is allowed (`fields_conform`; types always agree). `C169_accepted` puts them together for any state that comes from some build; `C169_success` gives the answer after the append as in C167. The order of the fields does not matter (`C169_order_partial`) unless two of them are spellings of the same field: then the hash map decides whether the request is refused (`C169_two_names`) |
| C170 | `defaultSchemas` (Model/Init.lean), `generateSchema .default` (Model/Generate.lean) and `initWorkspace`, against the texts of the 16 files in `/repo/example/schemas`, written down line by line (`exampleSchemas`) | The generated texts of the default schemas are compared with the files character by character in the kernel (`example_same`, lifted to every language with plain case conversion by `defaultSchemas_plain`), so `C170_texts` ties the model of the defaults and of the generator to files of the repository. With C107 and C109 this gives: every enumeration of the fields yields the same text (`C170_text`), an accepted init leaves these files (`C170_init`), and an init makes or changes no other file under `schemas` (`C170_changed`). References are exactly the fields whose name ends in `_ref` (`C170_references_partial`), except one list (`C170_contacts`) |
| C171 | Both models of the disk: the server of Model/Mcp.lean and the one of Model/Links.lean (`LinkServer.write`, `delete`, `replace`, `build`, `readSource`) on a disk on which nothing is a link (`FsTree.unlinked`) | A refinement. A path of a request leads to the same place in both (`resolve_join`, `join_names`), so the calls of `std::fs` agree (`unlinked_read`, `unlinked_write`, `unlinked_remove`, `unlinked_create`), hence the tools and their rollbacks; loading agrees because unfolding no links changes nothing (`unlinked_tree`). `C171_run` lifts this to any number of requests: the workspace stays a directory (`edit_kept`). What is proved of one model about these requests therefore holds of the other. `add_entity` on disks with links is C173 |
| C172 | `Shell.add` (Model/Cli.lean) with `Shell.addFields`, `Shell.addLists`, `Shell.fieldValue`, `EntitySchema.validate` and `cliAppend`, against a specification of how a text is read for a field (`ReadAs`, one `ValueKind` per kind of value), what a schema asks of the arguments (`ArgumentsFit`) and where a file can be written (`CanWrite` of C167) | Each step is an equivalence: a text is read iff `ReadAs` says so (`read_iff`), the items of a list are accepted iff all are read as one kind (`items_iff`), the loops give one field per argument (`cli_addFields_iff`, `cli_addLists_iff`), the map of the lists keeps the last item type of each name (`insert_last`), and the entity conforms iff required fields are there and the first text of each field is read as its type (`arguments_conform`). `C172_accepted_partial` puts them together; missing are texts in three quotation marks, for some of which the program panics (`C172_quoted`), choices with quotation marks, and the date-times of C91. `C172_order`, without these limits: the order of the hash map of lists does not decide |
| C173 | `add_entity` on disks with links (Model/LinkAdd.lean: `LinkDisk.appendDsl`, `LinkServer.addExecute`, `LinkServer.add`, `LinkServer.handle`), against `TextAdded`, which says what may have changed, and `Separates`, which says what is put before the new text; paths are followed as in C126 (`Reaches`) | `createAll_only`: creating directories changes nothing else, by induction on the components; `appendDsl_links` follows the steps and gives the place to which the path leads; `C173_added` is the result for every disk and target. `C173_unlinked_partial` and `C173_run_partial` are the refinement to Model/Mcp.lean as for C171, now with requests of all kinds; missing are targets with two dots. That nothing outside the workspace changes is false: `C173_escapes` adds to a file outside through a linked directory, where `write_source` refuses the same path even when forced, and `C173_dangling` makes a file outside. `C173_inside_partial`: it holds for relative targets without two dots when there are no links in the workspace |
| C174 | no new code: `generateDsl` (Model/Generate.lean) and `add_entity`. The theorems compare texts, so they hold for every grammar; `Framed` and `FramedEntity` say which values and names stay within their lines, `AlikeInFile` what two entities of one text have in common | unique decoding of the text: `cut_inj` (a text up to a character it does not contain), `keeps_line` (induction over values), `blockLines_inj` (induction over the lines of a long text), `fields_inj`, `rest_inj`; `C174_apart_partial` and, with the values, `C174_same_partial` — part. `C174_request_partial`: a request whose texts have no line breaks gives a framed entity (`jsonValue_line` over every type, with the characters of `snake`, of path components and of words), hence no other reading. False in general: `C174_entities` hides any entity with a text as last field in the path of another, `C174_fields` hides any field with a text of several lines in another such text; therefore `C174_no_grammar`: no function from texts to trees reads all files of valid entities right. `C174_served`: a request with one field is answered with success, and an entity with two is served |
| C175 | no new code: `Query.execute`, `runQuery` and the graph. Specification: a change of entities that keeps ids and types (`KeepsNames`), the fields it leaves alone (`Untouched`), the references it keeps (`LinksKept`), the fields a query names (`AsksAbout`) | simulation between the two graphs over the whole history (`run_frame`: same places, same maps, the same pairs linked), then clause by clause (`matches_untouched`, `orderBy_untouched`, `related_frame`, `aggregation_untouched`); `C175_query`, `C175_get`, `C175_related`, for one entity `C175_entity` and `C175_ids`, for query texts and builds `C175_text`. `C175_follows`: `related` does look at fields it does not name — the references |
| C176 | `Model/Manual.lean`: `execute` of `dsl_reference.rs` with the two texts as parameters. Specification: spelling up to ASCII case (`Spells`) and what is used of Unicode (`OrdinaryLetters`) | induction on the topic (`lower_spelled`); `C176_answers`, `C176_default`. False of the code: a refusal shows the lower-case form, so topics that differ in capitals get the same refusal (`C176_capitals`); `C176_refusal_partial` for topics without capitals |
| C177 | no new code: `generateValue` on lists. Specification: reading back as in C69 and C174 | lists of texts without line breaks (`C177_texts`): reading from the left, either both lists are inside the same text or they fall out of step at a quotation mark and cannot get back in step (`in_step`, `out_of_step`); lists of enums that read back (`C177_enums`) and paths without `path"` (`C177_paths_partial`): the opening of the literals does not occur again (`afterOpening_inj`); all other items without commas (`C177_items_partial`, by C174); together `C177_lists_partial` for `Spec.PlainList`, with integers, booleans and dates shown to have no commas. `C177_same_partial` is `C174_same_partial` for files that also hold such lists. Not covered: texts with line breaks, lists of lists, items with commas of other kinds. `C177_hidden`: for enums that do not read back it is false |
| C178 | the texts of `source_tree` and `search_source` (`Model/Listing.lean`) on top of what they list (C61, C63). Specification: `FirmFile`, `Spec.shownMatches` (the first fifty of `Spec.allMatches`, trimmed), `Spec.MoreMatches`, `Spec.PlainPaths` | lines are recovered from the text although it is trimmed at the end (`unlines_tail`, `trimEnd_body`); in a tree the lines that end in `/` are directories and those that end in `m` are files (`readTree_tree`); in a search result the empty lines separate the files (`groupLines_inj`) and a number ends at the colon (`showMatch_end_inj`). `C178_tree_partial` and `C178_search_partial` need names and queries without line breaks; with them it is false (`C178_breaks`: one file called `a.firm`, line break, `b.firm` is shown like two; `C178_query_breaks`: a query with a line break and no match gets a reply that looks like a match) |
| C179 | no new code: the aggregations (C36–C39) and `from` (C34). Specification: `Spec.Divided` (a permutation of the groups one after the other), `Spec.summed`, `Spec.InCode` | `C179_count`, `C179_integers` (exact with overflow checks, up to a multiple of 2^64 without), `C179_currency_partial`; `C179_median_partial`: if every group's median were below, fewer than half of all values could be at least the median of all; for an even number of values the two middle values are compared one by one and rounding keeps the order (`nearest_mono`, `half_mono`); `C179_types` for queries. Missing: with overflow checks the sum of a group may panic where the sum of all does not (`C179_group_overflow`); the sum of a group without amounts has no currency (`C179_no_currency`); amounts and floats out of range (`C37_currency_overflow`, `C39_median_overflow`). Averages are compared in C145 |
| C180 | no new code: the requests of the server (C56–C62) and `read_source_file`. Specification: `Spec.Tells` (what the requests and answers tell of the text at a place), `Spec.Turns`, `Spec.TextAt`, `Spec.Quiet` | `C180_told_partial` by induction on the requests, each step from C58 for one request handled alone; `C180_known`: without added entities only one text is told; `C180_last_partial`, `C180_deleted`, `C180_untouched`, `C180_grows` for `read_source`. Missing: files that are not text (`C160_binary`), requests at the same time (`C58_lost`), files outside the workspace, which are written by their absolute path and cannot be read (`C180_outside`), and files named `.firm`, which are written and cannot be read (`C180_nameless`). What text `add_entity` appends is C90 |
| C82 | field blocks of schemas | look-up of lines — all; allowed values that are missing or not texts make an enum field without a list (`C82_unrestricted`), which the guide does not allow |

## Simplifications

* Graphemes of `convert_case` are Unicode scalars; the context-dependent final sigma is left out.
* The range of chrono's years appears only in C52 and C123; leap seconds only in C123–C125. Messages of errors are left out.
* Decimals: underscores in literals and negative zero are left out; `from_str_exact` is taken to accept
  what `from_str` accepts. Sums beyond the range are a parameter (`decAddWide`).
* Directory trees are finite; symbolic links appear only in C126–C128, C171 and C173, where a path follows at most a fixed
  number of them (a parameter, 40 on Linux), rollback and rebuild are as in the other models, and hard links and
  mount points are left out. File operations fail only because of the shape of
  the tree, an unreadable file or an unreadable directory; writes by the MCP tools are complete or fail, except in C132,
  where they stop after any byte (what the kernel accepted is on the disk; a full disk is left out).
* MCP: the workspace path is absolute and canonical; reply texts are omitted except in C131 (a crash while a refusal is
  worded is a refusal in the other models); `rebuild` is one step;
  `x/../y` with a missing `x` does not create `x`.
* CLI: renaming is atomic; writing can stop after any number of bytes (C134); power loss and `fsync` are not
  modelled; the relative path of a path argument is a parameter of commands, `pathArgument` is its value for
  an absolute workspace path.
* Requests (Model/Mcp.lean, Concurrent, Interrupted): a crash of `rebuild` counts as one of its errors. In fact it ends the
  request without a reply and without a rollback; Model/Lost.lean says so and C138 states where the two differ. That
  the server outlives the crash is assumed of `rmcp` and tokio (a task per request, locks that are not poisoned,
  panics that unwind).
* Requests at once (Model/Concurrent.lean, C58, C118): what a tool does to the disk between two rebuilds is one
  step, and a rebuild reads the whole disk at one moment; crashes of the server are left out.
* Reading floats from JSON (Model/Floats.lean, C98) follows the algorithm of the locked `serde_json` version; the
  library's source is not in /repo, so this is an assumption about it. C96 and C97 do not use it: there the reading of
  floats is a parameter.
* The saved graph: `serde_json`'s text layer is modelled after its documentation (compact output, 127 levels,
  non-finite floats as `null`), the derived implementations on JSON trees. The texts of floats and dates are a
  parameter (`Codec`); theorems ask that the texts of the values at hand are read back (`Kept`).
* Dialogues (Model/Prompt.lean): the library `inquire` is a function from answers to results; messages and
  editing of a line are left out; the empty line at "Add optional fields?" is the answer no; days are unbounded (C104 asks for
  a year of the calendar); parsing of times is that of the language (`parseTime`).
* Setting up (Model/Init.lean): the questions that were answered are logged (a ghost: nothing reads the log); the return key is
  the empty line and means the default; a write works or leaves the file as it was (in C139 it may stop after any number of bytes); the workspace path is absolute; the text of
  `AGENTS.md.template` is a parameter. C105–C108 assume `PlainCase`: beside `RegularCase`, a–z are not upper case and
  lower-casing texts of a–z, blanks and hyphens does nothing.
* Replies of the server (Model/Said.lean): the sentences of the four tools that change files are modelled; the wording of build errors, io errors
  and of the refusals of `add_entity` are parameters.
* Printed output (Model/Printed.lean): `Display` of floats, dates and currencies is a parameter (`Screen`); the layout of
  `serde_json::to_string_pretty` is modelled after its documentation. A write to standard output does not fail.
* The command line (Model/Main.lean): a run is one step on a disk that nothing else changes meanwhile (crashes in the middle of
  saving are C97's subject); parsing of the arguments and of the workspace path is left out; `init`, `mcp` and the dialogue of
  `add` are modelled elsewhere.
* Queries: pest's rules are transcribed by hand, with white space skipped where pest skips it; enums that
  correspond one to one are identified; `usize` has 64 bits.
* `Runtime.sort` with a comparator that is not a preorder may do anything; C39 on medians excludes NaN.

## Mutation tests

`seeded/LOG.jsonl` holds one line per edit of the model. The lists of failed theorems come from the tool
that ran the edit; an edit whose run came to no end, or whose model does not compile, is logged with no failed
theorem and a note that starts with "No verdict". Theorem names are those at the time of the run; later some got the suffix `_partial`. `failed` lists every theorem `Cnn_…`
that no longer has a proof: its own proof broke or it uses a lemma that broke (`failed_lemmas`). Later entries
list the former separately (`failed_directly`); for a theorem listed only because of a lemma, the run does not
show that its statement became false. `failed_examples` counts examples that failed; examples, and where the note
says so theorems proved by evaluation, whose build ran out of memory are named in the note: the former are not
counted, the latter are in `failed`. The project's tests below were left out of the runs from the fourth
edit for C178 on, because one of their files ran out of memory. No edits were run for the theorems of C179 and
C180 after they were written.

## The project's own tests on the model

`lean/Verif/Conformance` has 479 of the project's unit tests as `example`s about the model's functions on the
same values. They are tests on literals and no theorem uses them; they are there to show that the model
behaves like the code where the authors wrote down what they expect. The Rust tests themselves were not run.
No change of the model was needed for them to pass.

- Translated by a script that reads the Rust text: the tests of filters (163), of `order.rs` and of the
  aggregations sum, average, median and count (61), and of ids, field types and written values (41). For each of
  these 265 the number of assertions was compared with the source.
- Translated by hand and compared with the source: entities, schemas, graphs, `select` and queries (55),
  generated entities and schemas (12), `parser_query_tests.rs` and `convert_query_tests.rs` (35). The query
  texts run through the model of the query parser; `f64` parsing is a table of the numbers that occur. Some
  of these assert more than the original.
- The tests of `firm_mcp` (112 of 116). They write source files, so `Conformance/Sources.lean` has a small
  parser for the texts of these tests in place of the tree-sitter grammar; it occurs in no theorem. The tools
  that read (55 tests) were translated by a script, the ones that change files, `query` and `resources.rs` (57)
  by hand. Left out: the text of the refusal in `test_related_entity_not_found`, and the four tests of `replace_source` that only ask whether a result is an error.
- Not translated: tests through the tree-sitter grammar (all of `parser/dsl`, the other files of
  `firm_lang/tests`), serde round trips, tests of the current directory and of
  `From` conversions of literals.

## Not modelled

Logging and progress bars (except what a build passes to them, C157), terminal UI, messages on the error output (except the texts of errors of queries, C148, and of builds, C150),
rmcp transport, the texts of `dsl_reference`,
tree-sitter's parser, installation scripts, Windows path prefixes.
