{"id": "C01", "title": "Entity lookup is by unique identity, whatever the history", "statement": "After any sequence of add_entity / add_entities / build / clear calls on a graph that started empty, looking an id up with get_entity returns an entity e exactly when e has that id and e is the entity whose add was accepted for that id since the last clear; in particular there is never more than one entity behind an id, and a later add with the same id never replaces the earlier entity.", "quantifier": "for every finite history of graph operations and every id", "why_tests_cant": "the number and order of operations is unbounded; a test fixes one short history", "anchors": ["firm_core/src/graph/mod.rs: EntityGraph::add_entity, add_entities, clear, build", "firm_core/src/graph/access.rs: EntityGraph::get_entity"]}
{"id": "C02", "title": "A rejected add changes nothing; a bulk add keeps exactly the prefix before the first duplicate", "statement": "add_entity fails with EntityAlreadyExists(id) exactly when the graph already holds an entity with that id, and then the graph is unchanged. add_entities adds the entities in order up to the first one whose id is already present (in the graph or earlier in the batch), reports that id, and leaves the later ones out; it succeeds exactly when no such entity exists.", "quantifier": "for every reachable graph and every batch of entities", "why_tests_cant": "needs all positions of the duplicate and all batch lengths", "anchors": ["firm_core/src/graph/mod.rs: EntityGraph::add_entity, add_entities"]}
{"id": "C03", "title": "Listing by type is complete, exact and in insertion order", "statement": "list_by_type(t) returns exactly the entities accepted since the last clear whose type is t, each once, in the order in which they were added; get_all_entity_types returns exactly the types that have at least one entity, each once.", "quantifier": "for every history of graph operations and every type", "why_tests_cant": "the type index is a second data structure that must stay in step with the node store over unbounded histories", "anchors": ["firm_core/src/graph/mod.rs: EntityGraph::add_entity (entity_type_map)", "firm_core/src/graph/access.rs: list_by_type, get_all_entity_types"]}
{"id": "C04", "title": "After build the relationships are exactly the references written in the fields", "statement": "On a graph whose last operation was build, entity b is an outgoing relation of entity a exactly when some field of a holds, at any list nesting depth, an entity reference to b's id or a field reference to a field of b; references to ids that are not in the graph create no relation and no error.", "quantifier": "for every set of entities, every field value of any list nesting depth, every pair of entities", "why_tests_cant": "list nesting and graph size are unbounded; dangling and duplicate references interact", "anchors": ["firm_core/src/graph/mod.rs: EntityGraph::build, collect_relationships_from_field", "firm_core/src/graph/access.rs: get_related"]}
{"id": "C05", "title": "build is idempotent and forgets history", "statement": "Calling build twice in a row is the same as calling it once, and after build every observable answer of the graph (lookup, type listing, relations in all directions, reference resolution) depends only on the sequence of accepted entities, not on how many builds happened before or when.", "quantifier": "for every pair of histories that accepted the same entities since the last clear and end with build", "why_tests_cant": "quantifies over pairs of unbounded histories", "anchors": ["firm_core/src/graph/mod.rs: EntityGraph::build"]}
{"id": "C06", "title": "Incoming and outgoing relations are dual, and undirected relations are their union", "statement": "In every reachable graph (built or stale), b is listed in the outgoing relations of a exactly when a is listed in the incoming relations of b, and the relations of a without direction are exactly the union of its incoming and outgoing relations.", "quantifier": "for every history of graph operations and every pair of entities in the graph", "why_tests_cant": "relational statement over all pairs of nodes of all reachable graphs, including graphs with stale edges", "anchors": ["firm_core/src/graph/access.rs: EntityGraph::get_related"]}
{"id": "C07", "title": "get_related answers are deterministic sets", "statement": "get_related(id, direction) is None exactly when id is not in the graph; otherwise the answer is strictly increasing by id, hence contains no entity twice, no matter how many references connect the same two entities.", "quantifier": "for every reachable graph, id and direction", "why_tests_cant": "multi-edges, self references and all sizes; dedup only removes adjacent duplicates so it is correct only because of the preceding sort", "anchors": ["firm_core/src/graph/access.rs: EntityGraph::get_related (sort_by_key + dedup_by_key)"]}
{"id": "C08", "title": "The order in which entities are added does not matter", "statement": "Building two graphs from the same entities added in different orders gives, for every id, the same lookup result and the same related entities in every direction, the same field-reference resolution, and for every type the same entities up to order.", "quantifier": "for every duplicate-free list of entities and every permutation of it", "why_tests_cant": "the workspace enumerates files in hash order, so all permutations must agree; their number is factorial", "anchors": ["firm_core/src/graph/mod.rs: add_entities, build", "firm_core/src/graph/access.rs: get_related, resolve_field_reference, list_by_type", "firm_lang/src/workspace/build.rs"]}
{"id": "C09", "title": "Field references resolve to the end of the reference chain", "statement": "On a freshly built graph, resolving a field reference type.id.field succeeds with value v exactly when following field references from that field reaches, within ten field look-ups, a field whose value v is not itself a field reference. A chain that needs an eleventh look-up fails with MaxDepthExceeded.", "quantifier": "for every set of entities, every starting reference, chains of every length", "why_tests_cant": "chains of all lengths and shapes; the boundary at ten depends on the interaction of depth counter, visited set and edge check", "anchors": ["firm_core/src/graph/access.rs: resolve_field_reference, search_field_reference"]}
{"id": "C10", "title": "A stale graph never resolves a field reference to a wrong value", "statement": "In every reachable graph, built or not, if resolving a field reference succeeds with v then v is the value at the end of the reference chain in the current entities; when entities were added after the last build the only additional outcome is GraphNotBuilt; and directly after build GraphNotBuilt is never reported.", "quantifier": "for every history of graph operations and every field reference", "why_tests_cant": "staleness depends on the interleaving of adds and builds", "anchors": ["firm_core/src/graph/access.rs: search_field_reference (edges_connecting check)", "firm_core/src/graph/mod.rs: build"]}
{"id": "C11", "title": "Cyclic field references always end in an error", "statement": "On a built graph, if the chain of field references starting at a reference returns to a field it has already visited, resolution terminates with an error: CyclicReference when the loop closes within the first ten look-ups, MaxDepthExceeded otherwise; it never returns a value.", "quantifier": "for every set of entities and every cyclic chain, including cycles reached after a non-cyclic prefix", "why_tests_cant": "cycle length and prefix length are unbounded", "anchors": ["firm_core/src/graph/access.rs: search_field_reference (visited, max_depth)"]}
{"id": "C12", "title": "related(n) returns exactly the entities within n links", "statement": "For n at least 1, the related operation returns, each once, exactly the entities of the graph that are within min(n,5) reference links (in either direction) of some entity of the input, including the input entities themselves, restricted to the requested type if one is given.", "quantifier": "for every reachable graph, every input set of its entities, every degree and type filter", "why_tests_cant": "breadth-first search over arbitrary graphs including cycles; early exit must not lose entities", "anchors": ["firm_core/src/graph/query/related.rs: get_related_entities"]}
{"id": "C13", "title": "related never returns entities outside the requested type", "statement": "Whenever a type filter is given to related, every returned entity has that type.", "quantifier": "for every graph, input, degree (including 0) and type", "why_tests_cant": "boundary degree values are easy to miss; the claim is for all degrees", "anchors": ["firm_core/src/graph/query/related.rs: get_related_entities"]}
{"id": "C14", "title": "More degrees never lose results and more than five add none", "statement": "The result of related(n) is contained in the result of related(n+1) for n at least 1, and related(n) equals related(5) as a set for every n of 5 or more.", "quantifier": "for every graph, input and all degrees", "why_tests_cant": "monotonicity over all degrees and graphs", "anchors": ["firm_core/src/graph/query/related.rs: MAX_DEGREES, get_related_entities"]}
{"id": "C15", "title": "The validation verdict is exactly the documented rules", "statement": "An entity passes validation against a schema exactly when its type equals the schema's type, every required schema field is present, every present schema field has the declared type, and every present enum field of an enum schema field is, after trimming and lower-casing, one of the allowed values (a schema enum field without allowed values accepts nothing).", "quantifier": "for every schema, every entity, every order in which the schema's fields are enumerated", "why_tests_cant": "arbitrary numbers of fields and arbitrary hash enumeration order", "anchors": ["firm_core/src/schema/validation.rs: EntitySchema::validate"]}
{"id": "C16", "title": "Validation reports every violation exactly once", "statement": "When validation fails, the reported errors contain exactly one error for a wrong entity type, and for each schema field that is violated exactly one error naming that field and entity with the right kind; fields that conform yield no error.", "quantifier": "for every schema and entity", "why_tests_cant": "completeness of an error list over arbitrary schemas", "anchors": ["firm_core/src/schema/validation.rs: EntitySchema::validate", "firm_core/src/schema/validation_errors.rs"]}
{"id": "C17", "title": "Schemas are minimum requirements", "statement": "Adding a field that the schema does not mention to an entity, at any position, never changes the validation result; nor does appending a second value for a field the entity already has.", "quantifier": "for every schema, entity, extra field and position", "why_tests_cant": "all positions and contents of the extra field", "anchors": ["firm_core/src/schema/validation.rs: EntitySchema::validate", "firm_core/src/entity.rs: Entity::get_field", "docs/src/concepts/schemas.md"]}
{"id": "C18", "title": "Enum values match regardless of case and surrounding blanks", "statement": "For a schema enum field declared with allowed values L, an entity's enum value v is accepted exactly when some member of L equals v after both are trimmed and lower-cased; two values with the same normal form get the same verdict.", "quantifier": "for every list of allowed values and every value", "why_tests_cant": "all spellings of all values", "anchors": ["firm_core/src/schema/mod.rs: FieldSchema::new_enum", "firm_core/src/schema/validation.rs: EntitySchema::validate"]}
{"id": "C19", "title": "where keeps exactly the matching entities, in order", "statement": "If a where clause succeeds on a list of entities, the result is the sublist of those entities that match the condition, in the same relative order; it fails exactly when evaluating the condition fails on some entity, and the reported error is that of the first such entity.", "quantifier": "for every entity list and compound condition", "why_tests_cant": "arbitrary lists and positions of errors", "anchors": ["firm_core/src/graph/query/types.rs: Query::execute (Where)", "firm_core/src/graph/query/filter/mod.rs: CompoundFilterCondition::matches"]}
{"id": "C20", "title": "Chained where clauses are equivalent to and", "statement": "`where A | where B` gives the same result as `where A and B` (documented as equivalent).", "quantifier": "for every entity list and every pair of conditions", "why_tests_cant": "equivalence of two programs over all inputs including failing ones", "anchors": ["docs/src/reference/query-reference.md (Chaining where clauses)", "firm_core/src/graph/query/types.rs: Query::execute", "firm_core/src/graph/query/filter/mod.rs: CompoundFilterCondition::matches"]}
{"id": "C21", "title": "and / or have their logical meaning and ignore the order of conditions", "statement": "When a compound condition evaluates without error on an entity, `and` holds exactly when every condition holds and `or` exactly when at least one holds; reordering the conditions changes neither whether evaluation succeeds nor the answer.", "quantifier": "for every list of conditions, every permutation, every entity", "why_tests_cant": "arbitrary number and order of conditions", "anchors": ["firm_core/src/graph/query/filter/mod.rs: CompoundFilterCondition::matches"]}
{"id": "C22", "title": "A missing field never matches", "statement": "A condition on a regular field that the entity does not have is false and never an error, for every operator (including !=) and every value.", "quantifier": "for every entity, field, operator and value", "why_tests_cant": "the operator/value/type matrix is large and values are unbounded", "anchors": ["firm_core/src/graph/query/filter/mod.rs: matches_field"]}
{"id": "C23", "title": "Ordering operators form a consistent order", "statement": "For an integer, date-time or currency field compared with a value of the same kind (same currency code), exactly one of <, ==, > holds, <= is < or ==, >= is > or ==, and the relation is transitive through equal fields. For float fields this holds for <=, < and >, >= among themselves, but == is tolerant.", "quantifier": "for every field value and every filter value", "why_tests_cant": "all numeric values", "anchors": ["firm_core/src/graph/query/filter/numeric.rs: compare_integer, compare_float", "firm_core/src/graph/query/filter/currency.rs", "firm_core/src/graph/query/filter/datetime.rs"]}
{"id": "C24", "title": "!= is the opposite of ==", "statement": "For an entity that has the field, if == and != both evaluate without error, exactly one of them holds.", "quantifier": "for every field value and filter value of every type", "why_tests_cant": "needs every combination of field type, filter type and content, including NaN and currency mismatches", "anchors": ["firm_core/src/graph/query/filter/string.rs, numeric.rs, currency.rs, datetime.rs, boolean.rs, reference.rs"]}
{"id": "C25", "title": "Text matching is coherent", "statement": "For string, enum and path fields: == is an equivalence insensitive to ASCII case; whatever startswith or endswith accepts, contains accepts; every text contains, starts with and ends with the empty text; == by exact text implies contains, startswith and endswith.", "quantifier": "for all texts", "why_tests_cant": "all string pairs", "anchors": ["firm_core/src/graph/query/filter/string.rs: compare_string, compare_path"]}
{"id": "C26", "title": "Errors depend only on the kinds involved", "statement": "Whether a condition on a present scalar field is rejected (type mismatch or unsupported operator) depends only on the field's kind, the operator and the filter value's kind, according to a fixed table — never on the particular contents, with the documented exceptions of unparsable dates and mismatching currency codes; the `in` operator is rejected for every field kind.", "quantifier": "for every scalar field value, operator and filter value", "why_tests_cant": "finite table claim over infinitely many values", "anchors": ["firm_core/src/graph/query/filter/string.rs, numeric.rs, currency.rs, datetime.rs, boolean.rs, reference.rs, list.rs", "firm_core/src/graph/query/filter/mod.rs: matches_field"]}
{"id": "C27", "title": "contains on a list means some element matches", "statement": "For a list field whose elements all have the filter value's kind, `contains v` holds exactly when some element equals v (for strings: some element contains v as text); `== [..]` holds exactly when both lists have the same length and are element-wise equal.", "quantifier": "for every list length and contents", "why_tests_cant": "arbitrary list lengths", "anchors": ["firm_core/src/graph/query/filter/list.rs: compare_list, compare_list_item"]}
{"id": "C28", "title": "A date without time matches a whole local day", "statement": "Comparing a date-time field with a bare date compares the field's calendar date in its own UTC offset: == holds exactly for the instants of that local day, < exactly for earlier days, > exactly for later days, and these three partition all field values.", "quantifier": "for every instant, UTC offset and date", "why_tests_cant": "all instants and offsets including negative days", "anchors": ["firm_core/src/graph/query/filter/datetime.rs: compare_datetime"]}
{"id": "C29", "title": "order produces a stable sort", "statement": "Ordering by a field whose present values are all of one scalar kind returns a permutation of the input that is non-decreasing (non-increasing for desc) in the field, and entities that compare equal keep their relative order; the result is the only list with these properties.", "quantifier": "for every list of entities with a homogeneous column, both directions", "why_tests_cant": "arbitrary lengths and tie patterns; correctness of a sort depends on the comparator being a total preorder", "anchors": ["firm_core/src/graph/query/order.rs: compare_entities_by_field, compare_field_values", "firm_core/src/graph/query/types.rs: Query::execute (Order)"]}
{"id": "C30", "title": "The field comparator is a consistent total order", "statement": "compare(a,b) and compare(b,a) are opposite, compare is reflexive and transitive, so sorting is well defined for every mix of field values.", "quantifier": "for all pairs and triples of field values", "why_tests_cant": "all triples of values of ten kinds, nested lists included", "anchors": ["firm_core/src/graph/query/order.rs: compare_field_values, compare_type_precedence"]}
{"id": "C31", "title": "Entities without the ordering field come last", "statement": "After ordering by a field, the entities that lack the field come after all entities that have it, in their original relative order.", "quantifier": "for every entity list, field and direction", "why_tests_cant": "all positions of missing values and both directions", "anchors": ["firm_core/src/graph/query/order.rs: compare_entities_by_field"]}
{"id": "C32", "title": "Query results are unmodified entities of the graph, without repetition", "statement": "Every entity in the result of any query is an entity of the graph, unmodified, and no entity occurs twice in the result.", "quantifier": "for every reachable graph and every query (any number and order of operations)", "why_tests_cant": "operation sequences are unbounded", "anchors": ["firm_core/src/graph/query/types.rs: Query::execute", "docs/src/reference/query-reference.md (Bag of entities model)"]}
{"id": "C33", "title": "limit takes a prefix", "statement": "limit n yields the first n entities of its input (all if fewer); limit n | limit m equals limit min(n,m); a query without related never yields more entities than its last limit.", "quantifier": "for every n, m and input", "why_tests_cant": "all sizes", "anchors": ["firm_core/src/graph/query/types.rs: Query::execute (Limit)"]}
{"id": "C34", "title": "from selects exactly the requested entities or reports an unknown type", "statement": "`from T` fails with an unknown-type error exactly when the graph has no entity of type T and otherwise starts from exactly the entities of type T in insertion order; `from *` starts from every entity exactly once, whatever order the types are enumerated in.", "quantifier": "for every graph, type and enumeration order", "why_tests_cant": "hash iteration order is nondeterministic", "anchors": ["firm_core/src/graph/query/types.rs: Query::execute"]}
{"id": "C35", "title": "Filtering and sorting commute", "statement": "`where C | order f` gives the same result as `order f | where C` whenever the condition evaluates without error on all entities and the column is homogeneous.", "quantifier": "for every entity list, condition, field and direction", "why_tests_cant": "program equivalence over all inputs; relies on sort stability", "anchors": ["firm_core/src/graph/query/types.rs: Query::execute"]}
{"id": "C36", "title": "count counts", "statement": "count returns the number of entities in the result; count of a field returns the number of result entities that have the field; it never fails.", "quantifier": "for every entity list and field", "why_tests_cant": "all lists", "anchors": ["firm_core/src/graph/query/aggregation/count.rs"]}
{"id": "C37", "title": "sum of integers and of one currency is exact", "statement": "The sum of an integer field is the exact arithmetic sum whenever that fits in 64 bits and no partial sum overflows; the sum of a currency field with a single code is the exact decimal sum in that code; entities without the field do not contribute; with no values the sum is 0.", "quantifier": "for every entity list", "why_tests_cant": "all lists and values including extreme ones", "anchors": ["firm_core/src/graph/query/aggregation/sum.rs", "firm_core/src/graph/query/aggregation/mod.rs: collect_numeric_values, classify_numeric_type"]}
{"id": "C38", "title": "sum never mixes currencies or currency with plain numbers", "statement": "sum fails whenever the values contain two different currency codes, or currency together with integers or floats, or any non-numeric value; otherwise it succeeds. For integers and currencies the outcome does not depend on the order of the entities.", "quantifier": "for every entity list and every permutation", "why_tests_cant": "all orders and positions of the offending value", "anchors": ["firm_core/src/graph/query/aggregation/sum.rs", "firm_core/src/graph/query/aggregation/mod.rs: classify_numeric_type"]}
{"id": "C39", "title": "average and median", "statement": "average and median fail exactly when no entity has the field, the field is metadata or some value is not numeric; the median of an odd number of values is one of the values with at least half of the values on either side; of an even number it lies between the two middle values; neither mixes different currencies.", "quantifier": "for every entity list", "why_tests_cant": "all lengths and values", "anchors": ["firm_core/src/graph/query/aggregation/average.rs", "firm_core/src/graph/query/aggregation/median.rs"]}
{"id": "C40", "title": "select is rectangular and faithful", "statement": "select returns one row per entity in order, one cell per requested field in order; a cell is the entity's value for that field (its id or type for metadata) and is empty exactly when the entity lacks the field.", "quantifier": "for every entity list and field list", "why_tests_cant": "all shapes", "anchors": ["firm_core/src/graph/query/aggregation/select.rs"]}
{"id": "C41", "title": "A workspace builds exactly when everything in it is valid", "statement": "Building a workspace succeeds exactly when every schema and entity block converts, no two schemas define the same type, every entity's type has a schema and every entity validates against it; then the result contains exactly the converted schemas and entities.", "quantifier": "for every set of files with any number of blocks", "why_tests_cant": "all file sets", "anchors": ["firm_lang/src/workspace/build.rs: Workspace::build_with_progress"]}
{"id": "C42", "title": "A build never contains two schemas for one type, nor an invalid entity", "statement": "In every successful build each entity type has at most one schema, and each entity passes validation against the schema of its type.", "quantifier": "for every successful build", "why_tests_cant": "invariant over all workspaces", "anchors": ["firm_lang/src/workspace/build.rs"]}
{"id": "C43", "title": "The outcome of a build does not depend on file enumeration order", "statement": "Whether a workspace builds, and the set of entities and schemas it yields, is the same for every order in which its files are enumerated.", "quantifier": "for every workspace and every permutation of its files", "why_tests_cant": "hash-map iteration order is random per process; a test sees one order", "anchors": ["firm_lang/src/workspace/build.rs"]}
{"id": "C44", "title": "Two definitions of the same entity are always detected", "statement": "Loading a workspace into a graph fails exactly when two entities, in the same or in different files, have the same normalised id; otherwise every entity of the build can be looked up.", "quantifier": "for every workspace", "why_tests_cant": "any number of files between the two definitions", "anchors": ["firm_lang/src/workspace/build.rs", "firm_cli/src/commands/build.rs: build_graph", "firm_core/src/graph/mod.rs: add_entities"]}
{"id": "C45", "title": "Reloading a file replaces its previous contents", "statement": "After any sequence of file loads, the workspace holds for each path exactly the blocks of the last loaded contents of that path.", "quantifier": "for every sequence of loads", "why_tests_cant": "unbounded histories", "anchors": ["firm_lang/src/workspace/io.rs: load_file"]}
{"id": "C46", "title": "An entity is checked against the schema of the same name", "statement": "If a workspace contains `schema T` and an entity block of type T (same spelling), building validates the entity against that schema (it does not fail for lack of a schema).", "quantifier": "for every type name", "why_tests_cant": "all spellings; name normalisation differs between the two sides", "anchors": ["firm_lang/src/convert/to_entity.rs", "firm_lang/src/convert/to_schema.rs", "firm_lang/src/workspace/build.rs"]}
{"id": "C47", "title": "Identifier normalisation is idempotent and stable", "statement": "Normalising an already normalised identifier changes nothing; a normalised identifier contains no upper-case letter, blank or hyphen and no leading, trailing or doubled underscore; text already in that form without letter/digit contact is left unchanged.", "quantifier": "for every text", "why_tests_cant": "all strings", "anchors": ["firm_core/src/id.rs: typed_string_id! new, compose_entity_id"]}
{"id": "C48", "title": "Composite ids decompose into the parts they were composed of", "statement": "Decomposing the id composed of a type and an id gives back the normalised type and the normalised id, provided the type contains no dot; two entities get the same composite id exactly when their normalised types and normalised ids agree.", "quantifier": "for every pair of type and id", "why_tests_cant": "all strings", "anchors": ["firm_core/src/id.rs: compose_entity_id, decompose_entity_id"]}
{"id": "C49", "title": "A field can be queried under the name it was written with", "statement": "If an entity block has a field written f, then a query condition on f is evaluated on that field.", "quantifier": "for every identifier f", "why_tests_cant": "all spellings; DSL keeps names raw while queries normalise them", "anchors": ["firm_lang/src/convert/to_entity.rs", "firm_lang/src/convert/to_query.rs"]}
{"id": "C50", "title": "Generated numbers, booleans, references and currencies read back as the same value", "statement": "Reading the text generated for a boolean, integer, entity reference, field reference, or currency amount gives back an equal value.", "quantifier": "for every value of these kinds (64-bit range, valid identifiers)", "why_tests_cant": "all values", "anchors": ["firm_lang/src/generate/from_value.rs: generate_value", "firm_lang/src/parser/dsl/parsed_value.rs: parse_boolean, parse_number, parse_reference, parse_currency"]}
{"id": "C51", "title": "Generated strings read back as the same string", "statement": "Reading the literal generated for a string field gives back the same string.", "quantifier": "for every string", "why_tests_cant": "all strings, including quotes, newlines, indentation", "anchors": ["firm_lang/src/generate/from_value.rs: generate_string", "firm_lang/src/parser/dsl/parsed_value.rs: parse_string, trim_common_indentation"]}
{"id": "C52", "title": "Generated date-times read back as the same instant", "statement": "Reading the text generated for a date-time gives back the same instant and offset.", "quantifier": "for every date-time and UTC offset", "why_tests_cant": "all instants and offsets", "anchors": ["firm_lang/src/generate/from_value.rs: generate_datetime", "firm_lang/src/parser/dsl/parsed_value.rs: parse_datetime, parse_utc_offset"]}
{"id": "C53", "title": "Lists are homogeneous", "statement": "A list literal is accepted exactly when all items have the kind of its first item; otherwise the error names the first offending index with the expected and found kinds.", "quantifier": "for every list of values", "why_tests_cant": "all lengths and positions", "anchors": ["firm_lang/src/parser/dsl/parsed_value.rs: parse_list_from_vec"]}
{"id": "C54", "title": "Common indentation is removed from multi-line strings and nothing else", "statement": "Reading a triple-quoted string removes from every line the indentation common to all non-blank lines and nothing more; relative indentation is preserved; applying the step again changes nothing.", "quantifier": "for every text", "why_tests_cant": "all texts and indentations", "anchors": ["firm_lang/src/parser/dsl/parsed_value.rs: trim_common_indentation"]}
{"id": "C55", "title": "Generated schemas read back as the same schema", "statement": "Converting the field blocks generated for a schema back yields a schema with the same type, the same fields with the same types, required flags and allowed values, and the same field order.", "quantifier": "for every schema with distinct field orders", "why_tests_cant": "all schemas", "anchors": ["firm_lang/src/generate/from_schema.rs", "firm_lang/src/convert/to_schema.rs", "firm_core/src/schema/mod.rs: ordered_fields"]}
{"id": "C56", "title": "A rejected write leaves disk and server state as they were", "statement": "If write_source, replace_source or delete_source (without force) reports an error, then every file of the workspace has the content it had before the call and the server answers queries from the same in-memory state as before.", "quantifier": "for every workspace state, request and build outcome (requests processed one at a time)", "why_tests_cant": "all combinations of files, contents and failure points", "anchors": ["firm_mcp/src/server.rs: write_source, replace_source, delete_source", "firm_mcp/src/tools/write_source.rs", "firm_mcp/src/tools/delete_source.rs"]}
{"id": "C57", "title": "Without force the server never serves stale data", "statement": "Starting from a server whose in-memory state is the build of the files on disk, after any sequence of tool calls without force and without external edits, the in-memory state is still the build of the files on disk (add_entity excepted when its warning is shown).", "quantifier": "for every sequence of requests processed one at a time", "why_tests_cant": "unbounded histories", "anchors": ["firm_mcp/src/server.rs: rebuild, write_source, delete_source, replace_source, add_entity, build"]}
{"id": "C58", "title": "Concurrent writes do not interfere", "statement": "When two writing requests are processed concurrently, a request that is rejected leaves no trace on disk.", "quantifier": "for every interleaving of the steps of two requests", "why_tests_cant": "schedules; a test sees one interleaving", "anchors": ["firm_mcp/src/server.rs: write_source (lock released between write, rebuild and rollback)"]}
{"id": "C59", "title": "File tools stay inside the workspace", "statement": "read_source, write_source, replace_source, delete_source and add_entity never read, create, change or delete a file outside the workspace directory.", "quantifier": "for every path argument", "why_tests_cant": "all path spellings", "anchors": ["firm_mcp/src/resources.rs: to_absolute_path, write_source_file, read_source_file", "firm_mcp/src/tools/add_entity.rs"]}
{"id": "C60", "title": "replace_source replaces what it says", "statement": "replace_source succeeds in computing a replacement exactly when the searched text is non-empty and occurs exactly once, or at least once with replace_all; the reported number is the number of replaced occurrences and all text outside them is unchanged.", "quantifier": "for every file content, search text and replacement", "why_tests_cant": "all strings, overlapping occurrences included", "anchors": ["firm_mcp/src/tools/replace_source.rs: execute"]}
{"id": "C61", "title": "search_source returns the first 50 matches and says when there are more", "statement": "search_source returns exactly the first min(50, total) matching lines in file order and line order, and announces truncation exactly when there are more than 50.", "quantifier": "for every workspace and search text", "why_tests_cant": "all numbers and distributions of matches", "anchors": ["firm_mcp/src/tools/search_source.rs: execute"]}
{"id": "C62", "title": "add_entity only appends", "statement": "add_entity never creates an entity whose id already exists, and a successful add leaves the previous contents of the target file as a prefix of the new contents, separated by a line break.", "quantifier": "for every workspace state and request", "why_tests_cant": "all contents", "anchors": ["firm_mcp/src/tools/add_entity.rs: execute"]}
{"id": "C63", "title": "source_tree and resources list every source file exactly once", "statement": "Every loaded .firm file inside the workspace appears exactly once in the source tree, under its directory, and reading the resource URI listed for a file reads that file.", "quantifier": "for every set of files", "why_tests_cant": "all file sets", "anchors": ["firm_mcp/src/tools/source_tree.rs", "firm_mcp/src/resources.rs: source_file_uri, parse_source_uri"]}
{"id": "C64", "title": "Saving the graph is crash safe", "statement": "If a complete graph file exists before a build, then at every crash point during the following builds a complete graph (the new one or the previous one) exists on disk as current or backup.", "quantifier": "for every sequence of builds with a crash at any step of each", "why_tests_cant": "crash points and histories", "anchors": ["firm_cli/src/files.rs: save_graph_with_backup"]}
{"id": "C65", "title": "Interactive add picks an unused id", "statement": "The id chosen by interactive add does not belong to an existing entity.", "quantifier": "for every graph, type and entered name", "why_tests_cant": "any number of colliding ids", "anchors": ["firm_cli/src/commands/add.rs: compute_unique_entity_id, sanitize_entity_id"]}
{"id": "C66", "title": "Schemas list their fields in declaration order", "statement": "A schema declared through the builder methods with distinct field names lists its fields in declaration order, followed by the metadata fields (for up to 100 declared fields), whatever order the underlying hash map enumerates them in; declaring a field twice can make the listing depend on the hash map.", "quantifier": "for every sequence of builder calls and every hash enumeration order", "why_tests_cant": "hash iteration order is nondeterministic; schemas have any number of fields", "anchors": ["firm_core/src/schema/mod.rs: EntitySchema::ordered_fields, next_order, with_metadata"]}
{"id": "C67", "title": "Generated lists read back as the same list", "statement": "Reading the literal generated for a list gives the same list exactly when every item reads back and all items are of one kind.", "quantifier": "for every list, nested to any depth", "why_tests_cant": "all lengths, kinds and nesting depths", "anchors": ["firm_lang/src/generate/from_value.rs: generate_list", "firm_lang/src/parser/dsl/parsed_value.rs: parse_list_from_node, parse_list_from_vec"]}
{"id": "C68", "title": "Generated floats read back as the same float", "statement": "Reading the literal generated for a float gives back the same float.", "quantifier": "for every 64-bit float", "why_tests_cant": "2^64 values, including infinities and NaN", "anchors": ["firm_lang/src/generate/from_value.rs: generate_float", "firm_lang/src/parser/dsl/parsed_value.rs: parse_number"]}
{"id": "C69", "title": "Generated enum values read back as the same value", "statement": "Reading the literal generated for an enum value gives back the same value.", "quantifier": "for every enum value", "why_tests_cant": "all texts; the reader removes every occurrence of the literal's opening", "anchors": ["firm_lang/src/generate/from_value.rs: generate_enum", "firm_lang/src/parser/dsl/parsed_value.rs: parse_enum"]}
{"id": "C70", "title": "Generated entities read back as the same entity", "statement": "If every field value of an entity reads back, the block generated for the entity converts to the same entity: same id, same type, same fields in the same order.", "quantifier": "for every entity, with any number of fields", "why_tests_cant": "all entities; type and id are normalised on the way", "anchors": ["firm_lang/src/generate/from_entity.rs", "firm_lang/src/convert/to_entity.rs", "firm_core/src/id.rs: compose_entity_id, decompose_entity_id"]}
{"id": "C71", "title": "Loading a directory loads exactly its .firm files", "statement": "load_directory succeeds exactly when every directory below it can be listed and every file with the extension firm is readable text; the workspace then consists of exactly those files, each once, under its absolute path and with its path relative to the directory.", "quantifier": "for every directory tree", "why_tests_cant": "all trees, depths and names", "anchors": ["firm_lang/src/workspace/io.rs: load_directory, load_file"]}
{"id": "C72", "title": "firm add appends one valid entity to a firm file", "statement": "When firm add (with arguments) succeeds, exactly one entity has been appended to the target .firm file: it satisfies the schema of its type, its id is not in the saved graph, the old text of the file is unchanged in front of it, and no other file changes. When it fails no file changes.", "quantifier": "for all workspaces, saved graphs, schemas, disks and argument lists", "why_tests_cant": "the arguments, schemas, file trees and existing ids are unbounded; tests cover a handful of invocations", "anchors": ["firm_cli/src/commands/add.rs:72-287", "firm_cli/src/commands/add.rs:462-512"]}
{"id": "C73", "title": "Queries read back from their text", "statement": "Every query the language can express is read back exactly from its standard text; every accepted text denotes a query whose standard text is read as the same query; different queries have different standard texts.", "quantifier": "for all query texts and all queries, with any number of clauses and lists nested to any depth", "why_tests_cant": "the grammar is recursive and its texts are unbounded; ordered choice and white space skipping can silently change what a text means", "anchors": ["firm_lang/src/parser/query/grammar.pest", "firm_lang/src/parser/query/parser.rs:18-93"]}
{"id": "C74", "title": "A quoted text denotes the characters between its quotes", "statement": "In a query, a text in quotes that does not contain that quote denotes exactly the characters between the quotes.", "quantifier": "for all texts and both quotes", "why_tests_cant": "all texts, including ones with leading white space that pest may skip", "anchors": ["firm_lang/src/parser/query/grammar.pest"]}
{"id": "C75", "title": "Integers in queries denote themselves", "statement": "An integer written in a condition is compared as that integer; a limit is the written number if it is a whole number of 64 bits and the query is rejected otherwise.", "quantifier": "for all integers", "why_tests_cant": "numbers go through f64, which is exact only up to 2^53", "anchors": ["firm_lang/src/parser/query/parser.rs", "firm_lang/src/convert/to_query.rs"]}
{"id": "C76", "title": "Unknown metadata fields are rejected", "statement": "A condition on @id is on the id, one on @type is on the type, and a query with any other name after @ is rejected.", "quantifier": "for all names", "why_tests_cant": "all names", "anchors": ["firm_lang/src/convert/to_query.rs"]}
{"id": "C77", "title": "Another condition can follow any value", "statement": "After a condition, a blank, and/or, a blank and another condition are read as two conditions.", "quantifier": "for all conditions with values of every kind", "why_tests_cant": "all values; what follows a value decides how the value itself is read", "anchors": ["firm_lang/src/parser/query/grammar.pest"]}
{"id": "C78", "title": "Entities are found under the type they were written with", "statement": "The query `from t` finds every entity whose block is written with the type t, and reports the known types if there is none.", "quantifier": "for all types, graphs and entities", "why_tests_cant": "all spellings; blocks keep the type raw while queries normalise it", "anchors": ["firm_lang/src/convert/to_entity.rs", "firm_lang/src/convert/to_query.rs"]}
{"id": "C79", "title": "A where clause combines its conditions with one combinator", "statement": "A query is only accepted if all combinators of a where clause are the same; the clause then combines all its conditions, in order, with that combinator. Combinators are read in any letter case.", "quantifier": "for all query texts", "why_tests_cant": "any number of conditions and clauses", "anchors": ["firm_lang/src/parser/query/parser.rs:121-174"]}
{"id": "C80", "title": "Unknown clauses are rejected", "statement": "A query with a clause whose name is none of where, related, order, limit, select, count, sum, average and median is rejected.", "quantifier": "for all queries and clause texts", "why_tests_cant": "all texts", "anchors": ["firm_lang/src/parser/query/grammar.pest:4-17", "firm_lang/src/parser/query/grammar.pest:110-126"]}
{"id": "C81", "title": "Generated files read back as the entities they were generated from", "statement": "The text generated for a list of entities is a file whose entity blocks, in order, read back as exactly those entities.", "quantifier": "for all lists of entities, indentation styles and blank line settings", "why_tests_cant": "lists, ids, types and values are unbounded", "anchors": ["firm_lang/src/generate/mod.rs:19-31", "firm_lang/src/parser/dsl/parsed_source.rs:38-50", "firm_lang/src/convert/to_entity.rs:10-35"]}
{"id": "C82", "title": "The field blocks of a schema mean what they say", "statement": "A field block gives a field with the name and type of its lines; the field is required exactly if there is a line required = true and optional otherwise; the allowed values of an enum are the listed ones. The order of the lines does not matter. A block without a name, without a type or with an unknown type is rejected. Nested blocks of other types are ignored.", "quantifier": "for all syntax trees of schema blocks", "why_tests_cant": "any number of lines in any order with any other lines between them", "anchors": ["firm_lang/src/convert/to_schema.rs:14-75", "firm_lang/src/parser/dsl/parsed_schema_field.rs:35-109"]}
{"id": "C83", "title": "What list prints, get accepts", "statement": "Every id that the list tool prints for a type can be given to the get tool together with that type, and get then shows that entity; every name printed for the type 'schema' can be given to get as the name of a schema, which get then shows.", "quantifier": "for every served workspace, every type and every printed line", "why_tests_cant": "all workspaces and spellings; ids are normalised on both sides", "anchors": ["firm_mcp/src/tools/list.rs: execute", "firm_mcp/src/tools/get.rs: execute", "firm_core/src/id.rs: compose_entity_id"]}
{"id": "C84", "title": "All readers see the same entities", "statement": "In every served state, the get and related tools and the commands get and related agree on which entities exist, and show the same entity; the list tool, the list command and the query `from t` give the same entities in the same order.", "quantifier": "for every served workspace, every type and id", "why_tests_cant": "one reads the list of entities, the other the maps and nodes of the graph; all states", "anchors": ["firm_mcp/src/tools/get.rs", "firm_mcp/src/tools/list.rs", "firm_mcp/src/tools/related.rs", "firm_cli/src/commands/get.rs", "firm_cli/src/commands/list.rs"]}
{"id": "C85", "title": "find_source leads to the definition", "statement": "For every entity that list prints, find_source with its type and id returns the path of a file that read_source can read and whose content defines that entity; the same for schemas.", "quantifier": "for every served workspace, every entity and schema", "why_tests_cant": "all workspaces; find_source compares spellings, list prints normalised ids", "anchors": ["firm_mcp/src/tools/find_source.rs: execute", "firm_lang/src/workspace/mod.rs: find_entity_source, find_schema_source", "firm_mcp/src/tools/read_source.rs"]}
{"id": "C86", "title": "related prints exactly the linked entities", "statement": "For an existing entity the related tool prints, one per line in ascending order and each once, the ids of exactly those entities that refer to it (incoming), that it refers to (outgoing), or both; for a missing entity it reports an error. The command related with 'to' and 'from' gives the incoming and the outgoing ones.", "quantifier": "for every served workspace, entity and direction", "why_tests_cant": "all graphs and reference structures", "anchors": ["firm_mcp/src/tools/related.rs: execute", "firm_cli/src/commands/related.rs", "firm_cli/src/query.rs"]}
{"id": "C87", "title": "A reply says whether the server is up to date", "statement": "Whatever happened before (forced requests, edits of the files by other programs), a request answered with success leaves the server serving the build of the files on disk; after any other reply it serves what it served before, and after a warning the files on disk do not build.", "quantifier": "for every well-formed disk, every state of the server and every request", "why_tests_cant": "the state before the request is arbitrary", "anchors": ["firm_mcp/src/server.rs: rebuild, write_source, delete_source, replace_source, add_entity, build"]}
{"id": "C88", "title": "A path literal names one place", "statement": "The path stored for a path literal is in a normal form and, followed from the workspace, leads to the place to which the literal leads from the directory of its source file; two stored paths inside the workspace that lead to the same place are equal.", "quantifier": "for every literal, every source file name and every workspace directory", "why_tests_cant": "all nestings of directories and all mixtures of names, '.', '..' and '/'", "anchors": ["firm_lang/src/parser/dsl/parsed_value.rs: parse_path"]}
{"id": "C89", "title": "A path given to add_entity survives the file", "statement": "A path given in an add_entity request leads, after the tool has written it relative to the target file and the file has been read again, to the place to which the given path leads from the workspace.", "quantifier": "for every workspace, every target file and every given path", "why_tests_cant": "all pairs of paths", "anchors": ["firm_mcp/src/tools/add_entity.rs: json_to_field_value", "firm_lang/src/parser/dsl/parsed_value.rs: parse_path"]}
{"id": "C90", "title": "add_entity writes what was asked for", "statement": "If the request is not refused, the text appended to the target file is that of an entity with the requested type and id that conforms to its schema and has exactly the requested fields, in the order of the request, each with the value that the given JSON value means for the type in the schema (numbers, decimals with currency, date-times, references, paths, lists with the given item type). A value with a meaning is accepted.", "quantifier": "for every served workspace, every schema and every request", "why_tests_cant": "all schemas, field lists and JSON values", "anchors": ["firm_mcp/src/tools/add_entity.rs: execute, json_to_field_value, parse_list_item_type"]}
{"id": "C91", "title": "A date-time literal means the moment it names", "statement": "A literal DATE at TIME, DATE at TIME UTC or DATE at TIME UTC+h with a valid date, a valid time and a zone of less than 24 hours is read as that moment: the local date and time less the offset, with that offset, where the local offset stands in when no zone is given. Every other text is refused.", "quantifier": "for every text, and every local offset", "why_tests_cant": "all texts, all offsets and all zones of the machine", "anchors": ["firm_lang/src/parser/dsl/parsed_value.rs: parse_datetime, parse_utc_offset, parse_date"]}
{"id": "C92", "title": "firm add writes what was asked for", "statement": "If non-interactive firm add succeeds, the text appended to the target file is that of an entity with the requested type and id that conforms to its schema and has exactly the requested fields, each with the value that the argument means for the type in the schema; a list has the values given for it, in order, with the given item type; a path leads, after it is written and read back, to where it leads from the current directory. An argument with a meaning is accepted.", "quantifier": "for every workspace, every schema, every list of arguments and every order of the hash maps", "why_tests_cant": "all schemas, argument lists and hash orders", "anchors": ["firm_cli/src/commands/add.rs: add_entity_non_interactive, parse_field_value_from_string, parse_field_type"]}
{"id": "C93", "title": "An entity added with success is served", "statement": "If add_entity is answered with success, the server from then on serves the entities and schemas it served before and one entity more: the requested type and id, with the requested fields as they are read from the file. A request that is not refused and whose values read back is answered with success. After firm add has succeeded, the files of the workspace hold the same entities and one more.", "quantifier": "for every workspace, server state, request, target file and every order in which the files are read", "why_tests_cant": "all file trees, requests and directory orders", "anchors": ["firm_mcp/src/tools/add_entity.rs: execute", "firm_mcp/src/server.rs: add_entity, rebuild", "firm_cli/src/commands/add.rs: add_entity_non_interactive"]}
{"id": "C94", "title": "A query text gives what it asks for", "statement": "If a query text is answered, its result is what the clauses of the text say, read from left to right: entities of the named type or all, of these those whose field has a value that meets the condition (all conditions, or one of them, but never a mixture), the entities reachable over references within the given number of steps up to five, the entities in the order of the named column, the first so many; and finally the columns, the count, the sum, the average or the median of what is left. Literals mean the value they are written as. A well-formed query whose type exists, whose conditions are comparable and whose sort columns are of one kind is answered.", "quantifier": "for every query text, every graph history and every hash order", "why_tests_cant": "all texts, graphs and combinations of clauses", "anchors": ["firm_lang/src/parser/query/parser.rs: parse_query", "firm_lang/src/convert/to_query.rs: TryFrom<ParsedQuery> for Query", "firm_core/src/graph/query/types.rs: Query::execute"]}
{"id": "C95", "title": "The answer to a query depends on the entities only", "statement": "The same query on two graphs with the same entities, added in different orders and under different iteration orders of the hash containers, gives the same entities, rows and count up to order; a sum that is an integer in one run is the same integer in every other; and a query that sorts by a column without ties before it cuts the list off gives exactly the same result.", "quantifier": "for every query without limit (or with limit after a tie-free order), every pair of graph histories with the same entities and every pair of hash orders", "why_tests_cant": "hash orders differ per process; all pairs of insertion orders", "anchors": ["firm_core/src/graph/query/types.rs: Query::execute", "firm_core/src/graph/mod.rs: get_all_entity_types, list_by_type", "firm_core/src/graph/query/aggregation.rs"]}
{"id": "C96", "title": "A saved graph is loaded as it was", "statement": "For every history of a graph, the text that firm build writes is read back as a graph that gives the same answers: the same entities, edges, types, related entities and resolved references, the same results of queries, and the same effects of further changes. This holds exactly if all floats are finite and no value is nested more than 121 brackets deep; the text of any other graph is refused when it is read.", "quantifier": "for every history of the graph, every hash order and every value", "why_tests_cant": "all graphs, strings with any characters, all hash orders; the depth limit of the JSON reader", "anchors": ["firm_core/src/graph/mod.rs: EntityGraph, serialize_entity_type_map, deserialize_entity_type_map", "firm_cli/src/files.rs: save_graph_with_backup, load_current_graph", "firm_core/src/field.rs: FieldValue"]}
{"id": "C97", "title": "Half a graph is never taken for a graph", "statement": "No proper beginning of the text of a saved graph can be read, not even as another graph. Hence after any sequence of completed and interrupted builds the next command either refuses or works on a graph that was saved completely.", "quantifier": "for every history, every beginning of its text, every sequence of builds and every point of interruption", "why_tests_cant": "all beginnings of all texts, all points of interruption", "anchors": ["firm_cli/src/files.rs: save_graph_with_backup, load_current_graph"]}
{"id": "C98", "title": "A float that is saved is loaded as the same float", "statement": "When the decimal text that is written for a finite float lies next to that float, reading the text gives exactly this float, so that a saved and loaded graph holds the same floats.", "quantifier": "for every finite float, every sign, number of digits before and after the point and every exponent", "why_tests_cant": "2^64 floats; the error of one rounding step only shows for some texts with more than 15 digits", "anchors": ["firm_cli/src/files.rs: load_current_graph", "firm_cli/Cargo.toml: serde_json", "firm_core/src/entity.rs: Entity (Deserialize)"]}
{"id": "C99", "title": "A dialogue makes a valid entity", "statement": "Whatever the user answers, an entity that interactive add makes satisfies the schema that was picked: every required field is there and every value has the declared type and, for enums, an allowed spelling. (Unlike the other ways of adding, this one never validates.)", "quantifier": "for every set of schemas of a build, every graph, every sequence of answers", "why_tests_cant": "unboundedly many sequences of answers, refused ones among them; no test drives the prompts", "anchors": ["firm_cli/src/commands/add.rs: add_entity_interactive, prompt_required_fields, prompt_optional_fields", "firm_cli/src/commands/field_prompt.rs: prompt_for_field_value"]}
{"id": "C100", "title": "A dialogue stores what was answered", "statement": "Each prompt takes exactly the answers that it should, asks again after others, and stores the value that the answer means; the entity has the picked type, first the required fields in the order of their names, then the optional fields that were answered, and a dialogue that fails changes no file.", "quantifier": "for every field type, every sequence of answers, every schema and graph", "why_tests_cant": "unboundedly many sequences of answers and list items; no test drives the prompts", "anchors": ["firm_cli/src/commands/field_prompt.rs: bool_prompt, string_prompt, int_prompt, float_prompt, currency_prompt, reference_prompt, list_prompt, date_prompt, path_prompt, enum_prompt", "firm_cli/src/commands/add.rs: add_entity_interactive"]}
{"id": "C101", "title": "Optional fields can be left out, required ones cannot", "statement": "In a dialogue the escape key leaves out an optional field and goes on with the next one; a required field is never left out.", "quantifier": "for every field of a schema and every sequence of answers", "why_tests_cant": "the escape key at every step of every prompt; no test drives the prompts", "anchors": ["firm_cli/src/commands/field_prompt.rs: prompt_for_field_value, currency_prompt, date_prompt, enum_prompt"]}
{"id": "C102", "title": "References that were entered lead somewhere", "statement": "Every reference of an entity that a dialogue makes leads to an entity of the saved graph, and every reference to a field leads to a field of that entity.", "quantifier": "for every graph of a build, every schema, every sequence of answers", "why_tests_cant": "all graphs and answers; spellings are normalised between the check and the value", "anchors": ["firm_cli/src/commands/field_prompt.rs: reference_prompt, parse_reference"]}
{"id": "C103", "title": "The id that add reports is the id of the entity", "statement": "The id that `firm add` reports and prints for the new entity is the id under which the entity is found after the next build, and no entity had it before.", "quantifier": "for every way of adding, every type, id, graph and sequence of answers", "why_tests_cant": "relates the output of one command to what another reads from the file; all ids and counters", "anchors": ["firm_cli/src/commands/add.rs: add_entity_interactive, add_entity_non_interactive, compute_unique_entity_id, write_dsl"]}
{"id": "C104", "title": "What was entered is read from the file", "statement": "After a successful dialogue the target file ends with a block from which the next build reads an entity with the entered type and values, paths leading to the place that was entered, next to all the entities that were there before.", "quantifier": "for every sequence of answers, every target file and every workspace", "why_tests_cant": "all texts, numbers, dates and paths that can be typed, through generation and parsing", "anchors": ["firm_cli/src/commands/add.rs: add_entity_interactive, write_dsl", "firm_cli/src/commands/field_prompt.rs: path_prompt, date_prompt", "firm_lang/src/generate/mod.rs: generate_dsl"]}
{"id": "C105", "title": "Init replaces no file without a confirmation", "statement": "`firm init` touches nothing but the schema files, .gitignore, main.firm and AGENTS.md of the workspace; an existing schema file, main.firm or AGENTS.md keeps its content unless the user answered yes to the question about overwriting it, and .gitignore keeps its content as a beginning.", "quantifier": "for every disk, every sequence of answers and wherever the command stops", "why_tests_cant": "all combinations of existing files, answers, aborted prompts and failing writes", "anchors": ["firm_cli/src/commands/init.rs: init_workspace, create_default_schemas, create_or_update_gitignore, create_default_entities, create_ai_context"]}
{"id": "C106", "title": "Init can be repeated", "statement": "After an init that updated .gitignore the graph files are ignored, and running init once more with the same answers does not change .gitignore again.", "quantifier": "for every content of .gitignore", "why_tests_cant": "all file contents", "anchors": ["firm_cli/src/commands/init.rs: create_or_update_gitignore"]}
{"id": "C107", "title": "The default schemas are valid and are read back", "statement": "The default schemas have different normalised types and normalised field names without repetition; the files written for them are read back as schemas of the same types with the same fields, types, flags and allowed values, in the same order, whatever the order of the hash maps.", "quantifier": "for every case table and enumeration order of the field maps", "why_tests_cant": "all hash orders; the schemas pass through generation and parsing", "anchors": ["firm_lang/src/defaults.rs: all_default_schemas", "firm_lang/src/generate/from_schema.rs: generate_schema"]}
{"id": "C108", "title": "A new workspace builds", "statement": "After a successful init of a directory without firm files in which the schemas and the entities were accepted, the workspace builds; it has exactly the default schemas and two entities, a person and an organization with the names that were entered, which can be loaded into a graph.", "quantifier": "for every pair of names, every disk and every sequence of answers", "why_tests_cant": "all names; relates the files written by one command to what another command reads", "anchors": ["firm_cli/src/commands/init.rs: create_default_schemas, create_default_entities", "firm_lang/src/workspace/build.rs: Workspace::build"]}
{"id": "C109", "title": "JSON output gives the entities back", "statement": "The JSON that the commands get, related, query and list print is one valid JSON text, and a program that reads it gets exactly the entities (ids, types, fields and values, in order), the aggregation result or the texts that were printed; two different results are never printed alike.", "quantifier": "for every list of entities, every value and every result of an aggregation", "why_tests_cant": "values nest arbitrarily, texts contain any character, floats have edge cases", "anchors": ["firm_cli/src/ui.rs: json_output, list_output", "firm_cli/src/commands/get.rs", "firm_cli/src/commands/query.rs", "firm_cli/src/commands/related.rs", "firm_cli/src/commands/list.rs", "firm_core/src/graph/query/types.rs: AggregationResult"]}
{"id": "C110", "title": "Printed entities can be told apart", "statement": "From the text that the commands get, related, query and list print in the pretty format, and from the replies of the tools get and query, it can be told how many entities were found, in which order, which ids they have and what is shown for each of their fields.", "quantifier": "for every two lists of entities", "why_tests_cant": "values are arbitrary texts and may imitate the layout", "anchors": ["firm_core/src/entity.rs: Display for Entity", "firm_core/src/field.rs: Display for FieldValue", "firm_cli/src/ui.rs: pretty_output_entity_list", "firm_mcp/src/tools/query.rs: execute", "firm_mcp/src/tools/get.rs: execute"]}
{"id": "C111", "title": "Printed tables can be told apart", "statement": "From the table that a select query prints, the columns, the number of rows and the shown text of each cell can be told, and an empty cell can be told from a cell with a value.", "quantifier": "for every two tables", "why_tests_cant": "cells are arbitrary texts", "anchors": ["firm_core/src/graph/query/types.rs: Display for AggregationResult"]}
{"id": "C112", "title": "A command answers from the current files", "statement": "Without --cached, the commands get, list, related and query print the answer of the graph of the files that are on disk at that moment, whatever graph was saved before, and save that graph; if the files do not build, they print nothing and change nothing. With --cached they print the answer of the graph that was saved last. No command but add changes a file other than the two graph files, and the graph saved before becomes the backup.", "quantifier": "for every disk, every earlier history of the graph files, every command and every order of the hash containers", "why_tests_cant": "disks, saved graphs and enumeration orders are unbounded", "anchors": ["firm_cli/src/main.rs: main", "firm_cli/src/commands/build.rs: build_and_save_graph", "firm_cli/src/files.rs: save_graph_with_backup, load_current_graph"]}
{"id": "C113", "title": "firm source leads to the definition", "statement": "firm source prints the path of a file on disk that defines the named entity or schema exactly when some file of the workspace defines one of that name, also when the workspace does not build; it prints the same file in both formats, changes nothing, and agrees with the find_source tool.", "quantifier": "for every disk, name and enumeration order", "why_tests_cant": "file trees are unbounded", "anchors": ["firm_cli/src/commands/source.rs: find_item_source", "firm_lang/src/workspace/mod.rs: find_entity_source, find_schema_source"]}
{"id": "C114", "title": "What firm add adds, the next commands see", "statement": "After firm add has succeeded, the next firm get of that type and id prints the added entity in either format, adding the same entity again is refused, and a server that is started on the disk serves the entities from before and the new one, with the same schemas.", "quantifier": "for every disk, every graph saved before, all arguments, formats and enumeration orders", "why_tests_cant": "disks, field values and enumeration orders are unbounded, and the way leads through the printed text, the parser, the build and the saved graph", "anchors": ["firm_cli/src/main.rs: main", "firm_cli/src/commands/add.rs: add_entity", "firm_cli/src/commands/get.rs", "firm_mcp/src/server.rs: rebuild"]}
{"id": "C115", "title": "The command line and the server agree about one disk", "statement": "While a server serves the files on disk, firm get prints an entity or schema exactly when the get tool answers with it, firm list prints the ids that the list tool answers with, and firm related prints the entities whose ids the related tool answers with, whatever graph was saved before and in whatever order either of them read the files.", "quantifier": "for every disk, server state, type, id, direction, format and enumeration order", "why_tests_cant": "the two programs hold separate copies, one in memory and one in a saved file; all disks and orders", "anchors": ["firm_cli/src/commands/get.rs", "firm_cli/src/commands/list.rs", "firm_cli/src/commands/related.rs", "firm_mcp/src/tools/get.rs", "firm_mcp/src/tools/list.rs", "firm_mcp/src/tools/related.rs"]}
{"id": "C116", "title": "A number in the saved graph is read with a small error only", "statement": "However many digits it has before and after the point and with or without an exponent, a decimal number between 10^-288 and 10^308 in the saved graph is read as a float that differs from it by at most one part in 2^51, with the right sign; below 10^-288 it differs by at most one part in 2^49 and 2^-1074; zero is read as zero, a number from 2*10^308 on is refused, and no text at all is read as infinite or as not a number.", "quantifier": "for every sign, all digits before and after the point and every exponent", "why_tests_cant": "digit strings are unbounded; digits that do not fit into 64 bits are dropped and counted", "anchors": ["firm_cli/src/files.rs: load_current_graph", "firm_cli/Cargo.toml: serde_json", "Cargo.lock: serde_json 1.0.145"]}
{"id": "C117", "title": "A declared schema demands what the last declaration of each field says", "statement": "For a schema made by any sequence of builder calls, an entity is valid exactly when it has the type of the schema and for each field name meets the last call that declares that name: a required field is there, a field that is there has the declared type, and an enum is one of the listed values up to spaces around it and upper or lower case; when no name is declared twice, every call counts.", "quantifier": "for every sequence of builder calls, every entity and all case data", "why_tests_cant": "sequences of declarations and entities are unbounded", "anchors": ["firm_core/src/schema/mod.rs: with_required_field, with_optional_field, with_required_enum, with_optional_enum, with_metadata, add_field_schema", "firm_core/src/schema/validation.rs: validate"]}
{"id": "C118", "title": "Requests processed at the same time leave the server with what is on the disk", "statement": "However the steps of any number of requests of every kind are interleaved, the server at each moment answers from the build of the files as they were at one moment of the run, and once all requests have been answered it answers from the files on the disk.", "quantifier": "for every number and kind of requests, every interleaving of their steps and every order in which files are enumerated", "why_tests_cant": "the number of interleavings grows with the number of requests; tests call one tool after the other", "anchors": ["firm_mcp/src/server.rs: write_source, delete_source, replace_source, add_entity, build, rebuild", "firm_mcp/src/tools/write_source.rs: rollback", "firm_mcp/src/tools/delete_source.rs: rollback"]}
{"id": "C119", "title": "A shown value tells the value", "statement": "When it is known which types the fields have, the texts that get, query and related show tell the values: two values of one type that are shown alike are equal, two lists with items of one type that are shown alike have the same items, the shown name of a field tells the field, and the shown result of an aggregation tells the result.", "quantifier": "for every two values of one type, every two field names, every two entities and every two results", "why_tests_cant": "values are arbitrary texts, numbers and lists; the claim is about pairs", "anchors": ["firm_core/src/field.rs: Display for FieldValue, Display for ReferenceValue", "firm_core/src/entity.rs: Display for Entity", "firm_core/src/graph/query/types.rs: Display for AggregationResult"]}
{"id": "C120", "title": "A shown schema tells what it demands", "statement": "From the text shown for a schema one can tell its type, the names of its fields in their order, and for each field its type, whether it is required and which values it allows.", "quantifier": "for every two schemas", "why_tests_cant": "schemas have any number of fields with any names and any allowed values", "anchors": ["firm_core/src/schema/mod.rs: Display for EntitySchema", "firm_core/src/field.rs: Display for FieldType"]}
{"id": "C121", "title": "Comments and layout change nothing", "statement": "Adding, removing or changing comments, punctuation or any other node that carries no meaning, anywhere between blocks, within blocks, within fields and within lists, does not change the entities and schemas that a workspace is built into, nor whether it builds, nor in which file an entity or schema is found.", "quantifier": "for every workspace, every tree and every position", "why_tests_cant": "the extra nodes can stand at any position of a tree of any depth, in any combination", "anchors": ["firm_lang/src/parser/dsl/parsed_source.rs: entities, schemas", "firm_lang/src/parser/dsl/parsed_entity.rs", "firm_lang/src/parser/dsl/parsed_schema.rs", "firm_lang/src/parser/dsl/parsed_value.rs: from_node, parse_list_from_node", "firm_lang/src/workspace/build.rs", "firm_lang/src/workspace/mod.rs: find_entity_source, find_schema_source"]}
{"id": "C122", "title": "A syntax error is reported", "statement": "A workspace with a source file that contains text the grammar does not understand is not built silently: loading or building reports an error, and the tools refuse to write such a text.", "quantifier": "for every workspace and every position of the text", "why_tests_cant": "the error can be anywhere in any file", "anchors": ["firm_lang/src/parser/dsl/parsed_source.rs: has_error", "firm_lang/src/workspace/io.rs: load_file", "firm_lang/src/workspace/build.rs", "firm_mcp/src/tools/write_source.rs: validate_and_write"]}
{"id": "C123", "title": "Dates survive being saved", "statement": "A date and time with a zone of whole minutes is read back from the text written into the graph file or a JSON answer as the same moment in the same zone; every date and time a source file can contain with a sensible zone is kept that way.", "quantifier": "for every date and time chrono can hold, leap seconds included", "why_tests_cant": "there are unboundedly many dates, zones and fractions of a second", "anchors": ["firm_core/src/field.rs: FieldValue::DateTime", "firm_cli/src/files.rs: save_graph_with_backup, load_current_graph", "firm_lang/src/parser/dsl/parsed_value.rs: parse_datetime"]}
{"id": "C124", "title": "Date literals of queries are understood", "statement": "A date of a query, with or without a time of day, as described in the query reference, is compared as that date with the dates of entities.", "quantifier": "for every literal, operator and entity", "why_tests_cant": "the literals reach the filter only through a parser and a library that both accept unboundedly many texts", "anchors": ["firm_core/src/graph/query/filter/datetime.rs: compare_datetime", "firm_lang/src/parser/query/parsed_query.rs", "docs/src/reference/query-reference.md: Date/DateTime"]}
{"id": "C125", "title": "A date shown as JSON can be given back", "statement": "The text of a date in a JSON answer is accepted by add_entity as that date and by a filter as that moment.", "quantifier": "for every date and time with a zone of whole minutes", "why_tests_cant": "there are unboundedly many dates", "anchors": ["firm_mcp/src/tools/add_entity.rs: json_to_field_value", "firm_core/src/graph/query/filter/datetime.rs: compare_datetime", "firm_core/src/field.rs: FieldValue"]}
{"id": "C126", "title": "Symbolic links do not lead the file tools outside", "statement": "Whatever symbolic links there are, read_source returns only firm files inside the real workspace directory, and write_source, replace_source and delete_source leave everything outside it as it is; a refused request leaves all files and links as they were.", "quantifier": "for every disk with any symbolic links, every path, content and build result", "why_tests_cant": "links can be chained, cyclic, dangling and placed anywhere, so there are unboundedly many disks", "anchors": ["firm_mcp/src/resources.rs: to_absolute_path", "firm_mcp/src/tools/write_source.rs", "firm_mcp/src/tools/delete_source.rs", "firm_mcp/src/tools/replace_source.rs", "firm_mcp/src/tools/read_source.rs"]}
{"id": "C127", "title": "Loading follows links, and what is listed can be read", "statement": "Loading a directory succeeds exactly when everything paths below it lead to can be read, and then gives exactly the firm files such paths lead to, one for each path; each listed file can be read under its listed path.", "quantifier": "for every disk with any symbolic links, also cyclic ones", "why_tests_cant": "the directory structure and the links are arbitrary, and cycles are cut only by the kernel's limit", "anchors": ["firm_lang/src/workspace/io.rs: load_directory", "firm_mcp/src/tools/source_tree.rs", "firm_mcp/src/tools/read_source.rs"]}
{"id": "C128", "title": "A file reached by two paths breaks the build", "statement": "When two paths below the workspace lead to files with the same text and it contains an entity, the workspace cannot be built, in whatever order its files are enumerated.", "quantifier": "for every disk, workspace and order", "why_tests_cant": "the order of the hash map and the shape of the disk vary without bound", "anchors": ["firm_lang/src/workspace/io.rs: load_directory", "firm_core/src/graph/mod.rs: add_entities"]}
{"id": "C129", "title": "A suggested reference is accepted, and what exists is suggested", "statement": "In a built workspace every complete suggestion of the reference prompt is accepted as a reference to the existing entity or field it names, the others are existing types; a type, an entity and a field are suggested as soon as the part before and a beginning of the name have been typed.", "quantifier": "for every built workspace, order of the types and typed text", "why_tests_cant": "names, their normal forms and typed beginnings are arbitrary texts", "anchors": ["firm_cli/src/commands/field_prompt.rs: get_reference_suggestions", "firm_cli/src/commands/field_prompt.rs: reference_prompt"]}
{"id": "C130", "title": "Suggested paths lead to something", "statement": "Every suggestion of the path prompt begins with the typed text, leads from the workspace to something that exists and ends with a slash exactly if that is a directory; everything below the workspace is suggested once its directory and a beginning of its name are typed; a chosen suggestion is stored as a path that leads to the same place.", "quantifier": "for every disk, workspace directory, typed text and target file", "why_tests_cant": "directories, .. components and typed texts are unbounded", "anchors": ["firm_cli/src/commands/field_prompt.rs: get_path_suggestions", "firm_cli/src/commands/field_prompt.rs: path_prompt"]}
{"id": "C131", "title": "A refused replacement is answered", "statement": "When replace_source refuses a replacement because the searched text is not there or is there several times, the reply says so, shows the searched text or its first hundred bytes, and gives the number of occurrences.", "quantifier": "for every file content, searched text, path and option", "why_tests_cant": "the searched text is arbitrary, and where its characters end in bytes decides", "anchors": ["firm_mcp/src/tools/replace_source.rs: not_found_error", "firm_mcp/src/tools/replace_source.rs: multiple_matches_error", "firm_mcp/src/tools/replace_source.rs: execute"]}
{"id": "C132", "title": "A request that is stopped in the middle loses nothing", "statement": "When the server is killed at any moment of a writing request, every file but the target is as it was, the target holds its old or its new content, and the request can be repeated.", "quantifier": "for every disk, request, build result and moment (between two calls, between two directories, after any byte)", "why_tests_cant": "the moment of the interruption is arbitrary and cannot be chosen in a test", "anchors": ["firm_mcp/src/resources.rs: write_source_file", "firm_mcp/src/tools/write_source.rs: rollback", "firm_mcp/src/tools/delete_source.rs: rollback", "firm_mcp/src/tools/add_entity.rs: execute", "firm_mcp/src/server.rs: write_source"]}
{"id": "C133", "title": "No argument of firm add is dropped silently", "statement": "When firm add is called with arguments, either it is refused and writes nothing, or the entity that it writes has the field of every --field, the list of every --list and the item of every --list-value, and no other field; the user is asked only if nothing but a target file is given.", "quantifier": "for every command line, schema, graph and disk", "why_tests_cant": "any number of options with any names, spellings and values in any order", "anchors": ["firm_cli/src/cli.rs: FirmCliCommand::Add", "firm_cli/src/commands/add.rs: add_entity, add_entity_non_interactive, parse_field_type"]}
{"id": "C134", "title": "A command that is stopped loses nothing but the cached graph", "statement": "Whenever a firm command is stopped, between two changes of the disk or inside one, every file but the two graph files (and the target of add) is as before, the target of add keeps its content and has at most a beginning of the new text behind it, the next question without --cached is answered for the files as if nothing had happened, and one with --cached fails or is answered as before or as after the command.", "quantifier": "for every disk, command and point at which it stops", "why_tests_cant": "the command can be stopped after any number of bytes of any graph, on any workspace, at any command", "anchors": ["firm_cli/src/files.rs: save_graph_with_backup, load_current_graph", "firm_cli/src/commands/add.rs: write_dsl", "firm_cli/src/main.rs: main"]}
{"id": "C135", "title": "firm add and add_entity agree", "statement": "An argument of firm add and the JSON value for add_entity that says the same are stored as the same value; a command line and a request that say the same, on the same graph and schemas, are both refused or add the same entity, whatever the target files are.", "quantifier": "for every schema, graph, command line and request", "why_tests_cant": "the two programs read values with different code, and the texts, schemas and graphs on which they could differ are unbounded", "anchors": ["firm_cli/src/commands/add.rs: add_entity_non_interactive, parse_field_value_from_string", "firm_mcp/src/tools/add_entity.rs: execute, json_to_field_value", "firm_lang/src/parser/dsl/parsed_value.rs"]}
{"id": "C136", "title": "What can crash a build", "statement": "Building a workspace crashes only if one of its files contains a multi-line string whose common indentation ends inside a character, or (with overflow checks) a date-time whose zone is too wide for the integer type it is read into; a text outside these cases never makes reading a value crash, and each of these values does.", "quantifier": "for every workspace, every parse tree and every literal", "why_tests_cant": "the texts that crash are rare among unboundedly many files and literals; the claim is that there are no others", "anchors": ["firm_lang/src/parser/dsl/parsed_value.rs: trim_common_indentation, parse_utc_offset, from_node", "firm_lang/src/workspace/build.rs"]}
{"id": "C137", "title": "What can crash a query", "statement": "Running a query crashes only in two ways: it orders by a column whose values are of more than one kind and compare in a circle, or it sums a field whose running total leaves the range of 64-bit integers (with overflow checks) or of decimals; conditions, related, limit, select, count, average and median (of values that are numbers) never crash, nor does any query that orders by columns of one kind and does not sum.", "quantifier": "for every graph, query, hash order and sorting algorithm", "why_tests_cant": "values, graphs and queries are unbounded, and the crash in sorting depends on the library's algorithm and on the order of the entities", "anchors": ["firm_core/src/graph/query/types.rs: Query::execute", "firm_core/src/graph/query/order.rs: compare_field_values", "firm_core/src/graph/query/aggregation/sum.rs: execute", "firm_core/src/graph/query/filter/*.rs"]}
{"id": "C138", "title": "A request that crashes", "statement": "A request that changes sources, or a build, gets no reply only if rebuilding the workspace crashes because of a value in one of its files (or the wording of a refused replacement crashes, which changes nothing); the served state is then unchanged, but the change that was to be checked is not undone: the written, replaced or added text is on the disk in full, or the file is deleted, whether or not the request was forced. While an entity of the workspace has such a value, no request succeeds and the served state does not change; a request that is answered behaves as the other theorems say.", "quantifier": "for every disk, workspace, grammar, server state, request and load order", "why_tests_cant": "a test would have to hit the few texts that crash the reader, and the tests of the tools only look at requests that are answered", "anchors": ["firm_mcp/src/server.rs: write_source, replace_source, delete_source, add_entity, build", "firm_lang/src/workspace/build.rs: build"]}
{"id": "C139", "title": "Setting up a workspace that is stopped", "statement": "Wherever firm init is stopped (killed, or the disk full), every file is as it was before or as it would be at the end, except for at most one, which holds a beginning of its new text; existing files that the user did not agree to overwrite keep their content, and an existing .gitignore keeps its text and gets a beginning of the appended lines. Running firm init again completes the workspace.", "quantifier": "for every disk, workspace, answers and moment at which the command stops", "why_tests_cant": "a test cannot kill the command after every byte of every file for every disk and dialogue", "anchors": ["firm_cli/src/commands/init.rs: init_workspace, create_default_schemas, create_or_update_gitignore, create_default_entities, create_ai_context"]}
{"id": "C140", "title": "A field is found by the literal it is written with", "statement": "An entity whose block writes a field as a literal is in the result of the query that compares the field for equality with the same literal, from t | where f == literal.", "quantifier": "for every literal of every kind (boolean, text, enum value, number, amount, date, date and time, reference, path, list), every source file, schema and set of entities", "why_tests_cant": "two separate parsers and two number types meet in this comparison; a test tries a few literals, while the failures depend on the size of a number, the directory of the source file, white space and the digits in a name", "anchors": ["firm_lang/src/parser/dsl/parsed_value.rs: ParsedValue::from_node", "firm_lang/src/parser/query/parser.rs: parse_value", "firm_lang/src/convert/to_query.rs: convert_value", "firm_core/src/graph/query/filter/mod.rs: FilterCondition::matches"]}
{"id": "C141", "title": "in finds the values in a list", "statement": "The operator in keeps exactly the entities whose value equals one of the values of the list (query reference: \"in - Value in list\").", "quantifier": "for every field value, every literal, every graph and every query around the clause", "why_tests_cant": "the operator is accepted by the parser and refused or answered with no separately for every kind of value; that it never answers yes is a statement about all pairs of values", "anchors": ["firm_core/src/graph/query/filter/mod.rs: FilterCondition::matches", "firm_lang/src/parser/query/grammar.pest: operator", "docs/src/reference/query-reference.md: Operators"]}
{"id": "C142", "title": "Selecting by type is filtering by type", "statement": "from t gives the same result as from * | where @type == \"t\"; related(n) t gives the same entities as related(n) | where @type == \"t\"; from * | where @id == \"i\" gives the entity that get gives.", "quantifier": "for every graph, type, degree, id, clauses before and after, and orders of the hash containers", "why_tests_cant": "two separate code paths have to agree on every graph and under every continuation of the query; they differ for degree 0, unknown types and types that differ in case", "anchors": ["firm_core/src/graph/query/types.rs: Query::execute", "firm_core/src/graph/query/related.rs: get_related_entities", "firm_core/src/graph/query/filter/mod.rs: FilterCondition::matches", "firm_core/src/graph/access.rs: get_entity"]}
{"id": "C143", "title": "A change that leaves a reference to nothing is refused", "statement": "write_source, replace_source and delete_source without force are refused if afterwards an entity would hold a reference to an entity that does not exist (\"validated for correct syntax and semantics (references, schema conformance)\"; \"If deletion breaks the workspace (e.g. other files reference entities in the deleted file), the file is restored\").", "quantifier": "for every workspace on disk, every served state, every source file and every order of the hash containers", "why_tests_cant": "whether any reference anywhere in any file leads to something after a change is a statement about all files together", "anchors": ["firm_mcp/src/server.rs: write_source, delete_source", "firm_mcp/src/tools/delete_source.rs: execute", "firm_lang/src/workspace/build.rs: Workspace::build_with_progress", "firm_core/src/schema/validation.rs: validate"]}
{"id": "C144", "title": "Entities made by a program keep their ids when they are written", "statement": "An entity made with Entity::new(EntityId::new(i), EntityType::new(t)) and accepted by the graph is, after its generated text is read again, the same entity; in particular different ids stay different (the workflow of docs/src/library).", "quantifier": "for every id, type and list of fields whose values read back", "why_tests_cant": "ids are arbitrary texts, normalised when made, cut at the first dot when written and put together again when read", "anchors": ["firm_core/src/id.rs: EntityId::new, compose_entity_id, decompose_entity_id", "firm_lang/src/generate/from_entity.rs: generate_entity", "firm_lang/src/convert/to_entity.rs", "docs/src/library/getting-started.md", "docs/src/library/examples.md"]}
{"id": "C145", "title": "Sums and averages of floats are close to the exact ones", "statement": "The sum of a column with floats differs from the exact sum by at most ((1+2^-53)^n - 1) times the sum of the sizes of its n values, the average from the exact mean accordingly, and two orders of the same values give sums at most twice that far apart; the average of values lies between the smallest and the largest.", "quantifier": "for every number of integers and floats of at most 53 bits whose sizes do not sum to 2^1023 or more", "why_tests_cant": "the error accumulates over an unbounded number of roundings, and which roundings lose something depends on the values", "anchors": ["firm_core/src/graph/query/aggregation/sum.rs: execute", "firm_core/src/graph/query/aggregation/average.rs: execute", "firm_core/src/graph/query/aggregation/mod.rs: NumericValue::as_f64"]}
{"id": "C146", "title": "Steps of related entities add up", "statement": "related(n) followed by related(m) gives the same entities as related(n+m); being related is mutual; what is related to several entities is what is related to one of them; chains of related clauses find everything that is connected by references.", "quantifier": "for every graph, all degrees, every chain of clauses and every order of the hash sets", "why_tests_cant": "chains are of any length and the graph has any shape, with cycles; each clause stops after five links on its own", "anchors": ["firm_core/src/graph/query/related.rs: get_related_entities", "firm_core/src/graph/query/types.rs: Query::execute"]}
{"id": "C147", "title": "Requests at the same time have the effect of requests one after the other", "statement": "Whatever the interleaving of the steps of several requests, there is an order of them such that handling them one after the other gives the same replies and the same files.", "quantifier": "for every number of requests to write, replace, delete and build, every interleaving of their steps, every host and every disk", "why_tests_cant": "the interleavings are unboundedly many and a test run shows only one of them, chosen by the scheduler", "anchors": ["firm_mcp/src/server.rs: write_source", "firm_mcp/src/server.rs: replace_source", "firm_mcp/src/server.rs: delete_source", "firm_mcp/src/server.rs: rebuild"]}
{"id": "C148", "title": "The advice in the error of a query works", "statement": "If a query is refused because of an operator, the error lists exactly the operators that are not refused for this field and value, each in the word the query language has for it; a type listed by the error of `from` is found by `from`; a date written as the error about dates says is accepted; of a field and a value said not to be comparable, no operator compares them.", "quantifier": "for every query, every graph, every field value, every operator and every value", "why_tests_cant": "a test compares the text of one error with an expected text; that every piece of advice, written into a query, gives a query that is not refused quantifies over all fields, operators and values", "anchors": ["firm_core/src/graph/query/query_errors.rs: Display", "firm_core/src/graph/query/filter/mod.rs", "firm_lang/src/parser/query/grammar.pest"]}
{"id": "C149", "title": "The advice of a sum over several currencies gives the sum of the named currency", "statement": "If a query is told that its sum mixes currencies, then the same query with the advised clause `where field >= 0 CODE` before `sum` is not told so again and gives the sum of all amounts in the named currency.", "quantifier": "for every query, every graph, every field and every pair of currencies", "why_tests_cant": "a test sums a handful of positive amounts; that no amount of the named currency is lost and none of another is added quantifies over all graphs and queries", "anchors": ["firm_core/src/graph/query/aggregation/sum.rs:42-49", "firm_core/src/graph/query/filter/currency.rs"]}
{"id": "C150", "title": "The error of a failed build names its cause", "statement": "The text of the error of a failed build names the file of a block that is wrong, and in it what is wrong: the type without a schema, the type with two schemas, the entity and each field that violates its schema or cannot be read. It advises `firm init` exactly for the types of which that command creates a schema.", "quantifier": "for every workspace in every order of its files, and every text an error can contain", "why_tests_cant": "a test provokes one error of each kind and compares its text; that the named file really has the fault and that no violating field is left out quantifies over all workspaces", "anchors": ["firm_lang/src/workspace/workspace_errors.rs", "firm_lang/src/workspace/build.rs:43-92", "firm_lang/src/convert/conversion_errors.rs", "firm_core/src/schema/validation_errors.rs"]}
{"id": "C151", "title": "Following the advice to run `firm init` removes the error", "statement": "If a build fails for lack of a schema and its error advises `firm init`, then after that command, with the schemas accepted, a build fails neither for lack of a schema of a built-in type nor because of the new schema files.", "quantifier": "for every disk, every workspace on it, every sequence of answers and every order of the files", "why_tests_cant": "a test runs the command in an empty directory; the advice is given for workspaces that already have files, and that the new files never clash with them quantifies over all workspaces", "anchors": ["firm_lang/src/workspace/workspace_errors.rs:40-55", "firm_cli/src/commands/init.rs", "firm_lang/src/workspace/build.rs:43-58"]}
{"id": "C152", "title": "A query that fits the schemas does not fail", "statement": "If all entities conform to the schemas and every condition, ordering and aggregation of a query goes with the declared types of the fields it names, the query fails only if there is no entity of the type it begins with, if there is nothing to average, if amounts in two currencies are summed, or if a total leaves its range. If one value does not go with a condition, the query fails.", "quantifier": "for every set of schemas, every graph of conforming entities, every query, every hash order and every sorting algorithm", "why_tests_cant": "the claim is type soundness: it relates three tables (field types, operators, kinds of values) over all queries of any length and all workspaces, and has to follow which entities each operation can meet", "anchors": ["firm_core/src/graph/query/filter/mod.rs:99-131", "firm_core/src/graph/query/types.rs:145-210", "firm_core/src/graph/query/aggregation/mod.rs:75-143", "firm_core/src/schema/validation.rs", "docs/src/reference/query-reference.md"]}
{"id": "C153", "title": "Asking for an enum value finds the entities that have it", "statement": "A condition that asks whether an enum field equals a value is true of exactly those conforming entities whose value the schema counts as that value; for a value that no schema of the type offers it is true of none.", "quantifier": "for every set of schemas, every conforming entity, every spelling, every query that begins with such a condition", "why_tests_cant": "schemas and conditions normalise spellings by two different functions; that one is finer than the other, and that the empty answer holds for all workspaces, is a statement about all texts", "anchors": ["firm_core/src/schema/validation.rs", "firm_core/src/graph/query/filter/string.rs:9-65", "firm_lang/src/defaults.rs:188-280", "docs/src/reference/query-reference.md:60-75", "docs/src/reference/query-reference.md:305-309"]}
{"id": "C154", "title": "A condition and its opposite split the results", "statement": "For a query and a condition, each entity that the query finds and that has the fields asked about is found either with the condition or with the opposite condition, and not with both: the counts add up to the count of the field, and sums of whole numbers to the sum.", "quantifier": "for every workspace, every source, every list of earlier clauses, every combination of conditions, every value asked for", "why_tests_cant": "the comparison functions of nine types each have their own tables of operators and their own answers for values they cannot compare; that no entity is lost between two queries is a statement about all of them together", "anchors": ["firm_core/src/graph/query/filter/mod.rs:37-131", "firm_core/src/graph/query/filter/numeric.rs:10-91", "firm_core/src/graph/query/filter/currency.rs:11-64", "firm_core/src/graph/query/aggregation/count.rs:8-21", "firm_core/src/graph/query/aggregation/sum.rs"]}
{"id": "C155", "title": "A moment given to the server is understood and kept", "statement": "add_entity takes for a date-time field exactly the texts of RFC 3339, each as the moment for which the calendar and the clock of the given zone show what is written; and the file that add_entity writes gives this moment back.", "quantifier": "for every text, every zone, every fraction of a second, every date of the years 0 to 9999", "why_tests_cant": "the accepted texts are an infinite language read by thirteen scanning steps; that nothing else is accepted and nothing is shifted is a statement about all of them", "anchors": ["firm_mcp/src/tools/add_entity.rs:341-356", "firm_lang/src/generate/from_value.rs:79-97", "firm_lang/src/parser/dsl/parsed_value.rs: parse_datetime", "firm_mcp/src/server.rs:185"]}
{"id": "C156", "title": "What was found stays found as entities are added", "statement": "If a graph has all the entities of another one, then a query that succeeds on both finds in the larger graph everything that it finds in the smaller one, its counts do not go down, and if it follows no references it finds nothing in addition but entities that the smaller graph does not have.", "quantifier": "for all histories of additions, batches, builds and clearings, all queries, all hash orders of the two runs", "why_tests_cant": "it relates two runs over graphs of any size that were filled in any order; a traversal that misses an entity only for some order of insertion or some distance passes any fixed example", "anchors": ["firm_core/src/graph/query/types.rs:145-210", "firm_core/src/graph/query/related.rs:24-80", "firm_core/src/graph/mod.rs"]}
{"id": "C157", "title": "What a build says of the workspace is so", "statement": "The numbers in the reply of the build tool are the numbers of the entities and schemas in the source files and of what queries count; a successful add_entity raises the first by one and leaves the second; the progress of a build announces every file in order, ends with all files done if the build succeeds and with the file at fault if it fails; and the log shows current/total.", "quantifier": "for every disk, every server state, every order of the files, every workspace", "why_tests_cant": "the numbers come from the length of lists made in two passes over any number of files in hash order, and from a request that appends to any of them; a count that is off for some of them needs all of them to be looked at", "anchors": ["firm_lang/src/workspace/build.rs:21-96", "firm_mcp/src/tools/build.rs:12-25", "firm_mcp/src/server.rs:414-430"]}
{"id": "C158", "title": "It does not matter in which file a definition is written", "statement": "If the same entity and schema definitions are distributed differently over the files of a workspace, the build has the same entities and schemas, fails in the same cases, and the server answers queries the same; in particular after files are renamed or moved on disk.", "quantifier": "for all workspaces, all distributions of the definitions over files and directories, all renamings of files, all queries without limit, all hash orders", "why_tests_cant": "it relates two builds over any number of files whose definitions are permuted in any way; a dependence on the file name that shows only for some values or some depth of lists passes any fixed example", "anchors": ["firm_lang/src/workspace/build.rs:28-96", "firm_lang/src/parser/dsl/parsed_value.rs:337-359", "firm_lang/src/convert/to_entity.rs:10-35", "firm_lang/src/convert/to_schema.rs:14-55"]}
{"id": "C159", "title": "An accepted change of a file changes what is served by the definitions of this file only", "statement": "After write_source, delete_source or replace_source succeeded, the entities and schemas that the server answers with are those it had before, less those the file defined before, plus those it defines now; entities of other files are found unchanged, and an entity of the changed file is found afterwards exactly if the file still defines its id.", "quantifier": "for all disks, all workspaces, all paths and contents, all states of the server that agree with the disk, all hash orders", "why_tests_cant": "the server rebuilds from all files after each change; that nothing else is lost, doubled or exchanged depends on every other file and on the order in which the files come out of the hash map", "anchors": ["firm_mcp/src/server.rs:245-408", "firm_mcp/src/server.rs:504-530", "firm_mcp/src/tools/write_source.rs:45-97", "firm_mcp/src/tools/delete_source.rs:34-67", "firm_mcp/src/tools/replace_source.rs:51-92", "firm_lang/src/workspace/build.rs:28-96"]}
{"id": "C160", "title": "What a reply to a change says is so", "statement": "The text that write_source, delete_source, replace_source and add_entity answer with is true of the disk and of the server: created or updated, the number of bytes, the number of places replaced, the text appended, that the file is deleted, that the workspace is valid or has errors; and when the reply says that a change was rolled back or a file restored, the files are those from before.", "quantifier": "for all disks, workspaces, paths, contents, search texts, states of the server, hash orders and wordings of build errors", "why_tests_cant": "the texts are put together from flags that are computed before, during and after the change; the tests look for a few words in a few replies and do not compare them with the disk", "anchors": ["firm_mcp/src/server.rs:188-408", "firm_mcp/src/tools/write_source.rs:45-135", "firm_mcp/src/tools/delete_source.rs:34-95", "firm_mcp/src/tools/replace_source.rs:51-173", "firm_mcp/src/tools/add_entity.rs:131-166", "firm_mcp/src/tools/add_entity.rs:379-404", "firm_mcp/src/tools/build.rs:20-25", "firm_mcp/src/resources.rs:62-132"]}
{"id": "C161", "title": "The examples of the documentation work with the built-in types", "statement": "Every query that the documentation and the server's reference show for built-in types is accepted and answered in every workspace whose schemas contain the built-in fields, except for the error that there is no entity of the type it starts from; the commands shown for built-in types are accepted.", "quantifier": "for all workspaces that build and whose schemas of the documented types contain the built-in fields, all entities in them, all hash orders, all disks and graphs for the commands", "why_tests_cant": "no test runs the documented examples; whether a query fails depends on every entity that its steps can meet", "anchors": ["docs/src/reference/query-reference.md:1-361", "docs/src/reference/cli-reference.md:190-377", "docs/src/guide/querying.md:60-100", "firm_mcp/src/tools/dsl_reference_content.rs:143-316", "firm_lang/src/defaults.rs:1-324", "firm_core/src/graph/query/filter/mod.rs:1-268", "firm_cli/src/commands/add.rs:31-69"]}
{"id": "C162", "title": "A change of a file can be undone", "statement": "After a successful write_source, delete_source, replace_source or add_entity the old state can be had again with the tools of the server: writing the old text back undoes a write, a deletion and an added entity, deleting undoes a new file, and the opposite replacement undoes a replacement; afterwards the files are those from before and the server serves the same entities and schemas.", "quantifier": "for all disks, workspaces, paths, texts, states of the server, values of force and hash orders", "why_tests_cant": "each tool has its own conditions on the path and the text; the tests make single changes and never take one back", "anchors": ["firm_mcp/src/server.rs:188-408", "firm_mcp/src/tools/write_source.rs:45-135", "firm_mcp/src/tools/delete_source.rs:34-95", "firm_mcp/src/tools/replace_source.rs:51-173", "firm_mcp/src/tools/add_entity.rs:60-166", "firm_mcp/src/resources.rs:62-132"]}
{"id": "C163", "title": "A schema that asks no more than before keeps the workspace valid", "statement": "If one schema block of a valid workspace is changed so that it asks no more of its entities - an optional field is added, a field is dropped, a required field is made optional, more values are allowed - the workspace still builds, with the same entities and the same graph; and after any change of a schema block the build succeeds exactly if every entity of the type meets what the last block about each field asks.", "quantifier": "for all workspaces, schema blocks, field blocks, entities and language environments", "why_tests_cant": "The claim relates two builds of arbitrary workspaces through an arbitrary edit of a schema; tests validate single entities against single schemas.", "anchors": ["firm_lang/src/convert/to_schema.rs:14-75", "firm_lang/src/parser/dsl/parsed_schema_field.rs:35-109", "firm_core/src/schema/validation.rs:1-80", "firm_lang/src/workspace/build.rs:1-120"]}
{"id": "C164", "title": "Dates follow the calendar", "statement": "Dates are kept, compared and sorted by the calendar: the date that is n days after another one has the number of days n more, a date is accepted exactly if there is such a date in the Gregorian calendar, a condition with a date asks whether the day of a moment is earlier, the same or later in the calendar, and dates and moments of files are sorted by year, month, day and time of day.", "quantifier": "for every two dates of any years, every number of days, every literal, every operator", "why_tests_cant": "all dates of all years with leap years of centuries; the arithmetic of the library is compared with the calendar itself", "anchors": ["firm_lang/src/parser/dsl/parsed_value.rs: parse_date, parse_datetime", "firm_core/src/graph/query/filter/datetime.rs: compare_datetime", "firm_core/src/graph/query/order.rs: compare_field_values"]}
{"id": "C165", "title": "Sorting by several fields and the first n", "statement": "Several order clauses sort by the field of the last one, entities that it does not tell apart by the one before, and so on; an earlier order by the same field is void; descending is ascending backwards; sorting downwards and limiting to n gives the n entities with the greatest values.", "quantifier": "for every list of entities, every list of fields and directions of one kind each, every n", "why_tests_cant": "any number of clauses over any number of entities; uniqueness of the resulting order", "anchors": ["firm_core/src/graph/query/types.rs: execute", "firm_core/src/graph/query/order.rs: compare_entities_by_field", "docs/src/reference/query-reference.md: order, limit"]}
{"id": "C166", "title": "Giving entities new names everywhere", "statement": "If the ids of a workspace are replaced by others, in the definitions and in all references, and different ids stay different, every lookup, listing, field reference, relation and query that does not compare ids gives the answer of before with the new ids.", "quantifier": "for every renaming that keeps ids apart, every history of the graph, every query without conditions on ids", "why_tests_cant": "relates two executions over all graphs and all renamings; tests look at single graphs with fixed names", "anchors": ["firm_core/src/graph/mod.rs: add_entity, add_entities, build, clear", "firm_core/src/graph/access.rs: get_entity, list_by_type, get_related, resolve_field_reference", "firm_core/src/graph/query/types.rs: execute", "firm_core/src/graph/query/related.rs: get_related_entities"]}
{"id": "C167", "title": "A change of a file is accepted exactly when the files are valid afterwards", "statement": "build, write_source, delete_source and replace_source succeed exactly when the text has no syntax errors, the place can be written (or has a text to delete or replace) and the source files afterwards can be read and make a valid workspace; in particular a new file is accepted exactly when its entities are new, its schemas are of new types and its entities conform, and an edited block exactly when it conforms and its id is free or its own.", "quantifier": "for all disks, workspaces, texts, orders of enumeration and paths into the workspace without two dots in a row", "why_tests_cant": "the claim is an equivalence over all disks and texts: nothing valid is refused and nothing invalid accepted", "anchors": ["firm_mcp/src/server.rs: write_source, delete_source, replace_source, build, rebuild", "firm_mcp/src/tools/write_source.rs: validate_and_write", "firm_mcp/src/tools/delete_source.rs: execute", "firm_mcp/src/tools/replace_source.rs: execute", "firm_mcp/src/resources.rs: to_absolute_path, write_source_file"]}
{"id": "C168", "title": "Clauses that say no more can be left out, and independent clauses can change places", "statement": "Anywhere in a query, whatever stands before and after, the following can be replaced by each other without changing the answers that the query may get, failures included: a where clause twice and once; two limits and the smaller one; a limit of at least the number of entities and nothing; anything after limit 0 and nothing; related with more than five degrees and with five, with none and nothing; a sort before another sort by the same field, or before related, and nothing; two where clauses in either order or joined with and; a sort before and after a where clause; two related clauses and one with the sum of the degrees.", "quantifier": "for all graphs that can be reached, query texts around the clauses, iteration orders of hash containers and sorts", "why_tests_cant": "the claim is about every query in which the clauses can stand and about every order in which the containers may be visited", "anchors": ["firm_core/src/graph/query/types.rs: Query::execute", "firm_core/src/graph/query/related.rs: get_related_entities", "firm_lang/src/parser/query/parser.rs: parse_operation"]}
{"id": "C169", "title": "A request to add an entity is refused exactly when something it needs is missing", "statement": "add_entity is not refused exactly when the type is in its normal form, the id is new, there is a schema of the type, every field of the request is one of its fields and has a JSON value that fits the type of the field, no required field is missing, words for choices are allowed, and a text can be put at the end of the target file. A request that is not refused is answered with success exactly when the source files with the new text make a valid workspace. The order in which the fields are enumerated does not matter.", "quantifier": "for all servers, whose state may be older than the disk, all requests and all orders of enumeration", "why_tests_cant": "the claim is an equivalence over all JSON values, schemas and disks, and tests see one order of a hash map", "anchors": ["firm_mcp/src/tools/add_entity.rs: execute, json_to_field_value, parse_list_item_type", "firm_mcp/src/server.rs: add_entity", "firm_core/src/schema/validation.rs: validate"]}
{"id": "C170", "title": "Init writes the schemas of the example workspace", "statement": "The texts generated from the default schemas are exactly the 16 files of example/schemas, in whatever order the maps of fields are enumerated. After a successful init in which the schemas were accepted these files are there, and no init makes or changes another file in that directory. In the default schemas exactly the references have names that end in _ref.", "quantifier": "for all orders of enumeration, all disks, all answers and all languages with plain case conversion", "why_tests_cant": "tests see one order of each hash map and a few dialogues; no test compares the defaults with the example workspace", "anchors": ["firm_lang/src/defaults.rs", "example/schemas", "firm_cli/src/commands/init.rs: create_default_schemas"]}
{"id": "C171", "title": "Following links changes nothing where there are none", "statement": "On a disk without symbolic links, write_source, delete_source, replace_source, build and reading a source file do the same in the model of the server that follows links as in the one that knows no links: any number of requests get the same answers and leave the same state and the same disk.", "quantifier": "for all disks on which the workspace is a readable directory, all states, all sequences of requests and all orders of enumeration", "why_tests_cant": "the claim is a simulation over all sequences of requests, including their rollbacks, and all trees", "anchors": ["firm_mcp/src/resources.rs: to_absolute_path, read_source_file, write_source_file", "firm_mcp/src/tools/write_source.rs: validate_and_write, rollback", "firm_mcp/src/tools/delete_source.rs: execute, rollback", "firm_mcp/src/server.rs: write_source, delete_source, replace_source, build"]}
{"id": "C172", "title": "firm add succeeds exactly when its arguments fit the schema and the target can be written", "statement": "firm add succeeds exactly when the id is new, there is a schema of the type, every --field names one of its fields with a text that can be read for its type, every --list names a list field with a known item type and values that are all read as the same kind (of a list named twice the last item type counts), no required field is missing, the first text of each field is read as its type, the first word for a choice is allowed, and the target file can be written. The order in which the lists are enumerated does not matter.", "quantifier": "for all saved graphs, builds, disks, argument lists and orders of enumeration", "why_tests_cant": "the claim is an equivalence over all texts, schemas and disks, and tests see one order of a hash map", "anchors": ["firm_cli/src/commands/add.rs: add_entity_non_interactive, parse_field_value_from_string, write_dsl", "firm_core/src/schema/validation.rs: validate", "firm_lang/src/parser/dsl/parsed_value.rs: parse_list_from_vec"]}
{"id": "C173", "title": "Adding an entity on a disk with links only ever adds text, but not only inside the workspace", "statement": "Whatever symbolic links there are, an add_entity request that is not answered with an error adds the text of one entity, on a line of its own, to the end of the file to which the target path leads, or makes that file where there was nothing; all other files, all links and all directories stay. One answered with an error leaves all files and links. The state becomes what is loaded from the disk, or stays when that cannot be loaded. On disks without links, requests of all kinds are answered as in the model without links. Nothing outside the workspace directory changes.", "quantifier": "for all disks with links, states, requests and sequences of requests", "why_tests_cant": "the tests use temporary directories without links and look at one file; the claim is about every file of every disk", "anchors": ["firm_mcp/src/tools/add_entity.rs: execute", "firm_mcp/src/server.rs: add_entity"]}
{"id": "C174", "title": "Generated files can be told apart", "statement": "Two lists of entities whose generated texts are equal are the same list: the same entities in the same order, with the same fields and values. So no value that a user gives can put further fields or entities into a file.", "quantifier": "for all lists of entities, all values and all generator options with an indent, whatever grammar reads the files", "why_tests_cant": "the tests compare the text of single sample values with a literal; that no two of all possible lists have the same text is a claim about pairs of inputs of any size", "anchors": ["firm_lang/src/generate/mod.rs: generate_dsl_with_options", "firm_lang/src/generate/from_entity.rs: generate_entity", "firm_lang/src/generate/from_value.rs: generate_value, generate_string, generate_path, generate_enum", "firm_mcp/src/tools/add_entity.rs: execute"]}
{"id": "C175", "title": "A query looks at no other fields than those it names", "statement": "If an entity is changed in fields that a query does not name, keeping its id and type, the query selects the same entities in the same order, gives the same tables and numbers, and fails with the same error as before. If the query follows references, the entity must still refer to the same ids.", "quantifier": "for all graphs with any number of entities, all queries with any number of clauses, all changes and all iteration orders of the hash containers", "why_tests_cant": "a test compares the answers before and after one change of one sample; that no clause reads a field it does not name is a claim about all pairs of graphs and all queries", "anchors": ["firm_core/src/graph/query/types.rs: Query::execute", "firm_core/src/graph/query/filter/mod.rs: matches", "firm_core/src/graph/query/order.rs: compare_entities_by_field", "firm_core/src/graph/query/related.rs: get_related_entities", "firm_core/src/graph/query/aggregation/mod.rs"]}
{"id": "C176", "title": "The documentation tool answers every spelling of its topics and refuses the rest", "statement": "The topics dsl, query and all, in any mixture of small and capital letters, get their text; an empty topic and no topic get both texts; every other topic is refused. A refusal shows the topic as it was asked for.", "quantifier": "for all topics of any length, all documentation texts and all tables of lower-case forms that treat the letters of the three topics in the usual way", "why_tests_cant": "there are infinitely many other topics, among them texts whose lower-case form could collide with a topic", "anchors": ["firm_mcp/src/tools/dsl_reference.rs: execute, default_topic"]}
{"id": "C177", "title": "Different lists are written differently", "statement": "If two lists with items of one kind that read back are written the same, they are the same list: no item can be hidden in another, whatever quotation marks, commas and backslashes the items have.", "quantifier": "for all lists of any length, all items of any length and all options of the generator", "why_tests_cant": "a test writes a few lists; a collision needs two lists that were made for each other, and there are infinitely many pairs", "anchors": ["firm_lang/src/generate/from_value.rs: generate_list, generate_string, generate_enum, generate_path", "firm_lang/src/parser/dsl/parsed_value.rs: parse_enum"]}
{"id": "C178", "title": "The replies of source_tree and search_source tell what they list", "statement": "Two workspaces get the same reply from source_tree only if they have source files at the same places, and the same reply from search_source only if the first fifty matching lines have the same paths, numbers and trimmed texts, and either both or none have more.", "quantifier": "for all disks, workspaces, source texts and queries of any size", "why_tests_cant": "a test reads the replies for a few workspaces; that no two different workspaces share a reply is a statement about all pairs", "anchors": ["firm_mcp/src/tools/source_tree.rs: execute", "firm_mcp/src/tools/search_source.rs: execute"]}
{"id": "C179", "title": "What is computed for groups fits what is computed for all", "statement": "If the entities are divided into groups, the counts of the groups add up to the count of all; the sums of the groups add up to the sum of all, and sums of amounts of one currency stay in this currency; the median of all lies between the smallest and the largest median of the groups. What a query with conditions finds among all entities is divided into what it finds among the entities of each type.", "quantifier": "for every number of groups of every size, all integers and amounts, all floats below 2^1023, all conditions, graphs and iteration orders of the hash containers", "why_tests_cant": "all ways to divide a list of any length; the median of all is related to medians of lists that are sorted separately, and for an even number of values to floats that are rounded twice", "anchors": ["firm_core/src/graph/query/aggregation/count.rs: execute", "firm_core/src/graph/query/aggregation/sum.rs: execute", "firm_core/src/graph/query/aggregation/median.rs: execute", "firm_core/src/graph/query/types.rs: Query::execute"]}
{"id": "C180", "title": "What the answers said is what can be read", "statement": "Someone who sees the requests to the server and its answers, and not the disk, knows the text of every file: only requests that were not answered with an error change it, and only that of their own file, to what was asked for. In particular read_source gives the text of the last accepted write_source of the file, and nothing after an accepted delete_source, whatever was asked for other files or refused since.", "quantifier": "for all lists of requests of any length and kind, all disks whose files are text, all workspaces, paths and contents", "why_tests_cant": "a test reads a file after one change; that no other request of a session of any length changes it, also not one that is rolled back, is a statement about all sessions", "anchors": ["firm_mcp/src/resources.rs: read_source_file, write_source_file, to_absolute_path", "firm_mcp/src/server.rs: write_source, delete_source, replace_source, add_entity, read_source"]}
