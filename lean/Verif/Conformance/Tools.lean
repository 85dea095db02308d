import Verif.Conformance.Sources

/-!
# Tests of `firm_mcp`: the tools that read

Tests, not proofs; see Conformance/Basic.lean. Texts of errors are not compared.
-/

namespace Firm.Conformance

/-! ## `list_tests.rs` -/

/-- `test_list_entities_single_type` — firm_mcp/tests/list_tests.rs. -/
example : checksOn
    [("data.firm", ["",
          "schema person {",
          "    field { name = \"name\" type = \"string\" required = true }",
          "}",
          "",
          "person john { name = \"John\" }",
          "person jane { name = \"Jane\" }",
          "person bob { name = \"Bob\" }",
          ""])]
    fun f =>
      [builds f,
        (runList f "person").isSome,
        has (runList f "person") "person.john",
        has (runList f "person") "person.jane",
        has (runList f "person") "person.bob"] := by decide +kernel

/-- `test_list_entities_filters_by_type` — firm_mcp/tests/list_tests.rs. -/
example : checksOn
    [("data.firm", ["",
          "schema person {",
          "    field { name = \"name\" type = \"string\" required = true }",
          "}",
          "",
          "schema organization {",
          "    field { name = \"name\" type = \"string\" required = true }",
          "}",
          "",
          "person alice { name = \"Alice\" }",
          "person bob { name = \"Bob\" }",
          "organization acme { name = \"ACME\" }",
          "organization globex { name = \"Globex\" }",
          ""])]
    fun f =>
      [builds f,
        has (runList f "person") "person.alice",
        has (runList f "person") "person.bob",
        lacks (runList f "person") "organization",
        has (runList f "organization") "organization.acme",
        has (runList f "organization") "organization.globex",
        lacks (runList f "organization") "person"] := by decide +kernel

/-- `test_list_entities_nonexistent_type_returns_empty` — firm_mcp/tests/list_tests.rs. -/
example : checksOn
    [("data.firm", ["",
          "schema person {",
          "    field { name = \"name\" type = \"string\" required = true }",
          "}",
          "",
          "person john { name = \"John\" }",
          ""])]
    fun f =>
      [builds f,
        (runList f "project").isSome,
        (runList f "project") == some "".toList] := by decide +kernel

/-- `test_list_entities_no_entities_of_type` — firm_mcp/tests/list_tests.rs. -/
example : checksOn
    [("schema.firm", ["schema person { field { name = \"name\" type = \"string\" required = true } }"])]
    fun f =>
      [builds f,
        (runList f "person").isSome,
        (runList f "person") == some "".toList] := by decide +kernel

/-- `test_list_schemas` — firm_mcp/tests/list_tests.rs. -/
example : checksOn
    [("schemas.firm", ["",
          "schema person {",
          "    field { name = \"name\" type = \"string\" required = true }",
          "}",
          "",
          "schema organization {",
          "    field { name = \"name\" type = \"string\" required = true }",
          "}",
          "",
          "schema project {",
          "    field { name = \"title\" type = \"string\" required = true }",
          "}",
          ""])]
    fun f =>
      [builds f,
        (runList f "schema").isSome,
        has (runList f "schema") "person",
        has (runList f "schema") "organization",
        has (runList f "schema") "project"] := by decide +kernel

/-- `test_list_schemas_single` — firm_mcp/tests/list_tests.rs. -/
example : checksOn
    [("schema.firm", ["",
          "schema task {",
          "    field { name = \"title\" type = \"string\" required = true }",
          "}",
          ""])]
    fun f =>
      [builds f,
        (runList f "schema").isSome,
        (runList f "schema") == some "task".toList] := by decide +kernel

/-- `test_list_schemas_across_files` — firm_mcp/tests/list_tests.rs. -/
example : checksOn
    [("schemas/person.firm", ["",
          "schema person {",
          "    field { name = \"name\" type = \"string\" required = true }",
          "}",
          ""]),
      ("schemas/project.firm", ["",
          "schema project {",
          "    field { name = \"title\" type = \"string\" required = true }",
          "}",
          ""])]
    fun f =>
      [builds f,
        (runList f "schema").isSome,
        has (runList f "schema") "person",
        has (runList f "schema") "project"] := by decide +kernel

/-! ## `get_tests.rs` -/

/-- `test_get_entity_success` — firm_mcp/tests/get_tests.rs. -/
example : checksOn
    [("data.firm", ["",
          "schema person {",
          "    field { name = \"name\" type = \"string\" required = true }",
          "    field { name = \"age\" type = \"integer\" required = false }",
          "}",
          "",
          "person john {",
          "    name = \"John Doe\"",
          "    age = 42",
          "}",
          ""])]
    fun f =>
      [builds f,
        (runGet f "person" "john").isSome,
        has (runGet f "person" "john") "person.john",
        has (runGet f "person" "john") "John Doe",
        has (runGet f "person" "john") "42"] := by decide +kernel

/-- `test_get_entity_with_reference` — firm_mcp/tests/get_tests.rs. -/
example : checksOn
    [("data.firm", ["",
          "schema person {",
          "    field { name = \"name\" type = \"string\" required = true }",
          "    field { name = \"manager\" type = \"reference\" required = false }",
          "}",
          "",
          "person alice {",
          "    name = \"Alice\"",
          "}",
          "",
          "person bob {",
          "    name = \"Bob\"",
          "    manager = person.alice",
          "}",
          ""])]
    fun f =>
      [builds f,
        (runGet f "person" "bob").isSome,
        has (runGet f "person" "bob") "Bob",
        has (runGet f "person" "bob") "person.alice"] := by decide +kernel

/-- `test_get_entity_not_found` — firm_mcp/tests/get_tests.rs. -/
example : checksOn
    [("data.firm", ["",
          "schema person {",
          "    field { name = \"name\" type = \"string\" required = true }",
          "}",
          "",
          "person john {",
          "    name = \"John\"",
          "}",
          ""])]
    fun f =>
      [builds f,
        (runGet f "person" "nonexistent").isNone] := by decide +kernel

/-- `test_get_entity_wrong_type` — firm_mcp/tests/get_tests.rs. -/
example : checksOn
    [("data.firm", ["",
          "schema person {",
          "    field { name = \"name\" type = \"string\" required = true }",
          "}",
          "",
          "person john {",
          "    name = \"John\"",
          "}",
          ""])]
    fun f =>
      [builds f,
        (runGet f "organization" "john").isNone] := by decide +kernel

/-- `test_get_schema_success` — firm_mcp/tests/get_tests.rs. -/
example : checksOn
    [("schemas.firm", ["",
          "schema person {",
          "    field { name = \"name\" type = \"string\" required = true }",
          "    field { name = \"email\" type = \"string\" required = false }",
          "    field { name = \"age\" type = \"integer\" required = false }",
          "}",
          ""])]
    fun f =>
      [builds f,
        (runGet f "schema" "person").isSome,
        has (runGet f "schema" "person") "person",
        has (runGet f "schema" "person") "name",
        has (runGet f "schema" "person") "email",
        has (runGet f "schema" "person") "age"] := by decide +kernel

/-- `test_get_schema_with_enum` — firm_mcp/tests/get_tests.rs. -/
example : checksOn
    [("schemas.firm", ["",
          "schema task {",
          "    field { name = \"title\" type = \"string\" required = true }",
          "    field { name = \"status\" type = \"enum\" allowed_values = [\"todo\", \"in_progress\", \"done\"] required = true }",
          "}",
          ""])]
    fun f =>
      [builds f,
        (runGet f "schema" "task").isSome,
        has (runGet f "schema" "task") "task",
        has (runGet f "schema" "task") "status"] := by decide +kernel

/-- `test_get_schema_not_found` — firm_mcp/tests/get_tests.rs. -/
example : checksOn
    [("schemas.firm", ["",
          "schema person {",
          "    field { name = \"name\" type = \"string\" required = true }",
          "}",
          ""])]
    fun f =>
      [builds f,
        (runGet f "schema" "organization").isNone] := by decide +kernel

/-- `test_get_distinguishes_entity_from_schema_with_same_name` — firm_mcp/tests/get_tests.rs. -/
example : checksOn
    [("data.firm", ["",
          "schema person {",
          "    field { name = \"name\" type = \"string\" required = true }",
          "}",
          "",
          "person person {",
          "    name = \"A person named Person\"",
          "}",
          ""])]
    fun f =>
      [builds f,
        (runGet f "person" "person").isSome,
        has (runGet f "person" "person") "A person named Person",
        (runGet f "schema" "person").isSome,
        has (runGet f "schema" "person") "name",
        lacks (runGet f "schema" "person") "A person named Person"] := by decide +kernel

/-! ## `find_source_tests.rs` -/

/-- `test_find_entity_source_success` — firm_mcp/tests/find_source_tests.rs. -/
example : checksOn
    [("people.firm", ["",
          "schema person {",
          "    field { name = \"name\" type = \"string\" required = true }",
          "}",
          "",
          "person john {",
          "    name = \"John Doe\"",
          "}",
          ""])]
    fun f =>
      [(runFind f "person" "john").isSome,
        (runFind f "person" "john") == some "people.firm".toList] := by decide +kernel

/-- `test_find_entity_source_in_subdirectory` — firm_mcp/tests/find_source_tests.rs. -/
example : checksOn
    [("entities/people.firm", ["",
          "schema person {",
          "    field { name = \"name\" type = \"string\" required = true }",
          "}",
          "",
          "person jane {",
          "    name = \"Jane Smith\"",
          "}",
          ""])]
    fun f =>
      [(runFind f "person" "jane").isSome,
        (runFind f "person" "jane") == some "entities/people.firm".toList] := by decide +kernel

/-- `test_find_entity_source_not_found` — firm_mcp/tests/find_source_tests.rs. -/
example : checksOn
    [("people.firm", ["",
          "schema person {",
          "    field { name = \"name\" type = \"string\" required = true }",
          "}",
          "",
          "person john {",
          "    name = \"John Doe\"",
          "}",
          ""])]
    fun f =>
      [(runFind f "person" "nonexistent").isNone] := by decide +kernel

/-- `test_find_entity_wrong_type` — firm_mcp/tests/find_source_tests.rs. -/
example : checksOn
    [("data.firm", ["",
          "schema person {",
          "    field { name = \"name\" type = \"string\" required = true }",
          "}",
          "",
          "person john {",
          "    name = \"John\"",
          "}",
          ""])]
    fun f =>
      [(runFind f "organization" "john").isNone] := by decide +kernel

/-- `test_find_entity_across_multiple_files` — firm_mcp/tests/find_source_tests.rs. -/
example : checksOn
    [("schemas.firm", ["",
          "schema person {",
          "    field { name = \"name\" type = \"string\" required = true }",
          "}",
          "",
          "schema organization {",
          "    field { name = \"name\" type = \"string\" required = true }",
          "}",
          ""]),
      ("people.firm", ["",
          "person alice {",
          "    name = \"Alice\"",
          "}",
          ""]),
      ("orgs.firm", ["",
          "organization acme {",
          "    name = \"ACME Corp\"",
          "}",
          ""])]
    fun f =>
      [(runFind f "person" "alice").isSome,
        (runFind f "person" "alice") == some "people.firm".toList,
        (runFind f "organization" "acme").isSome,
        (runFind f "organization" "acme") == some "orgs.firm".toList] := by decide +kernel

/-- `test_find_schema_source_success` — firm_mcp/tests/find_source_tests.rs. -/
example : checksOn
    [("schemas/person.firm", ["",
          "schema person {",
          "    field { name = \"name\" type = \"string\" required = true }",
          "    field { name = \"age\" type = \"integer\" required = false }",
          "}",
          ""])]
    fun f =>
      [(runFind f "schema" "person").isSome,
        (runFind f "schema" "person") == some "schemas/person.firm".toList] := by decide +kernel

/-- `test_find_schema_source_not_found` — firm_mcp/tests/find_source_tests.rs. -/
example : checksOn
    [("schemas.firm", ["",
          "schema person {",
          "    field { name = \"name\" type = \"string\" required = true }",
          "}",
          ""])]
    fun f =>
      [(runFind f "schema" "organization").isNone] := by decide +kernel

/-- `test_find_schema_across_multiple_files` — firm_mcp/tests/find_source_tests.rs. -/
example : checksOn
    [("schemas/person.firm", ["",
          "schema person {",
          "    field { name = \"name\" type = \"string\" required = true }",
          "}",
          ""]),
      ("schemas/project.firm", ["",
          "schema project {",
          "    field { name = \"title\" type = \"string\" required = true }",
          "}",
          ""])]
    fun f =>
      [(runFind f "schema" "person").isSome,
        (runFind f "schema" "person") == some "schemas/person.firm".toList,
        (runFind f "schema" "project").isSome,
        (runFind f "schema" "project") == some "schemas/project.firm".toList] := by decide +kernel

/-- `test_find_source_empty_workspace` — firm_mcp/tests/find_source_tests.rs. -/
example : checksOn
    []
    fun f =>
      [(runFind f "person" "anyone").isNone] := by decide +kernel

/-! ## `related_tests.rs` -/

/-- `test_related_both_directions` — firm_mcp/tests/related_tests.rs. -/
example : checksOn
    [("data.firm", ["",
          "schema person {",
          "    field { name = \"name\" type = \"string\" required = true }",
          "    field { name = \"manager\" type = \"reference\" required = false }",
          "}",
          "",
          "person alice { name = \"Alice\" }",
          "person bob { name = \"Bob\" manager = person.alice }",
          "person charlie { name = \"Charlie\" manager = person.alice }",
          ""])]
    fun f =>
      [builds f,
        (runRelated f "person" "alice" none).isSome,
        has (runRelated f "person" "alice" none) "person.bob",
        has (runRelated f "person" "alice" none) "person.charlie"] := by decide +kernel

/-- `test_related_incoming_only` — firm_mcp/tests/related_tests.rs. -/
example : checksOn
    [("data.firm", ["",
          "schema person {",
          "    field { name = \"name\" type = \"string\" required = true }",
          "    field { name = \"manager\" type = \"reference\" required = false }",
          "}",
          "",
          "person alice { name = \"Alice\" }",
          "person bob { name = \"Bob\" manager = person.alice }",
          ""])]
    fun f =>
      [builds f,
        (runRelated f "person" "alice" (some .incoming)).isSome,
        has (runRelated f "person" "alice" (some .incoming)) "person.bob"] := by decide +kernel

/-- `test_related_outgoing_only` — firm_mcp/tests/related_tests.rs. -/
example : checksOn
    [("data.firm", ["",
          "schema person {",
          "    field { name = \"name\" type = \"string\" required = true }",
          "    field { name = \"manager\" type = \"reference\" required = false }",
          "}",
          "",
          "person alice { name = \"Alice\" }",
          "person bob { name = \"Bob\" manager = person.alice }",
          ""])]
    fun f =>
      [builds f,
        (runRelated f "person" "bob" (some .outgoing)).isSome,
        has (runRelated f "person" "bob" (some .outgoing)) "person.alice"] := by decide +kernel

/-- `test_related_no_relationships` — firm_mcp/tests/related_tests.rs. -/
example : checksOn
    [("data.firm", ["",
          "schema person {",
          "    field { name = \"name\" type = \"string\" required = true }",
          "}",
          "",
          "person alice { name = \"Alice\" }",
          "person bob { name = \"Bob\" }",
          ""])]
    fun f =>
      [builds f,
        (runRelated f "person" "alice" none).isSome,
        has (runRelated f "person" "alice" none) "No related entities"] := by decide +kernel

/-- `test_related_entity_not_found` — firm_mcp/tests/related_tests.rs. -/
example : checksOn
    [("data.firm", ["",
          "schema person {",
          "    field { name = \"name\" type = \"string\" required = true }",
          "}",
          "",
          "person alice { name = \"Alice\" }",
          ""])]
    fun f =>
      [builds f,
        (runRelated f "person" "nonexistent" none).isNone] := by decide +kernel

/-- `test_related_cross_type` — firm_mcp/tests/related_tests.rs. -/
example : checksOn
    [("data.firm", ["",
          "schema person {",
          "    field { name = \"name\" type = \"string\" required = true }",
          "    field { name = \"employer\" type = \"reference\" required = false }",
          "}",
          "",
          "schema organization {",
          "    field { name = \"name\" type = \"string\" required = true }",
          "}",
          "",
          "organization acme { name = \"ACME Corp\" }",
          "person alice { name = \"Alice\" employer = organization.acme }",
          "person bob { name = \"Bob\" employer = organization.acme }",
          ""])]
    fun f =>
      [builds f,
        (runRelated f "organization" "acme" (some .incoming)).isSome,
        has (runRelated f "organization" "acme" (some .incoming)) "person.alice",
        has (runRelated f "organization" "acme" (some .incoming)) "person.bob"] := by decide +kernel

/-- `test_related_chain` — firm_mcp/tests/related_tests.rs. -/
example : checksOn
    [("data.firm", ["",
          "schema person {",
          "    field { name = \"name\" type = \"string\" required = true }",
          "    field { name = \"manager\" type = \"reference\" required = false }",
          "}",
          "",
          "person ceo { name = \"CEO\" }",
          "person vp { name = \"VP\" manager = person.ceo }",
          "person manager { name = \"Manager\" manager = person.vp }",
          "person employee { name = \"Employee\" manager = person.manager }",
          ""])]
    fun f =>
      [builds f,
        (runRelated f "person" "vp" none).isSome,
        has (runRelated f "person" "vp" none) "person.ceo",
        has (runRelated f "person" "vp" none) "person.manager",
        lacks (runRelated f "person" "vp" none) "person.employee"] := by decide +kernel

/-- `test_related_incoming_no_refs` — firm_mcp/tests/related_tests.rs. -/
example : checksOn
    [("data.firm", ["",
          "schema person {",
          "    field { name = \"name\" type = \"string\" required = true }",
          "    field { name = \"manager\" type = \"reference\" required = false }",
          "}",
          "",
          "person alice { name = \"Alice\" }",
          "person bob { name = \"Bob\" manager = person.alice }",
          ""])]
    fun f =>
      [builds f,
        (runRelated f "person" "bob" (some .incoming)).isSome,
        has (runRelated f "person" "bob" (some .incoming)) "No related entities"] := by decide +kernel

/-! ## `read_source_tests.rs` -/

/-- `test_read_source_success` — firm_mcp/tests/read_source_tests.rs. -/
example : checksOn
    [("data.firm", ["schema person {",
          "    field { name = \"name\" type = \"string\" required = true }",
          "}",
          "",
          "person john {",
          "    name = \"John Doe\"",
          "}",
          ""])]
    fun f =>
      [(runRead f "data.firm").isSome] := by decide +kernel

/-- `test_read_source_in_subdirectory` — firm_mcp/tests/read_source_tests.rs. -/
example : checksOn
    [("schemas/person.firm", ["schema person {",
          "    field { name = \"name\" type = \"string\" required = true }",
          "}",
          ""])]
    fun f =>
      [(runRead f "schemas/person.firm").isSome] := by decide +kernel

/-- `test_read_source_preserves_formatting` — firm_mcp/tests/read_source_tests.rs. -/
example : checksOn
    [("tasks.firm", ["// This is a comment",
          "schema task {",
          "    field {",
          "        name = \"title\"",
          "        type = \"string\"",
          "        required = true",
          "    }",
          "}",
          "",
          "task example {",
          "    title = \"Example Task\"",
          "}",
          ""])]
    fun f =>
      [(runRead f "tasks.firm").isSome,
        (runRead f "tasks.firm") == some (fileText ["// This is a comment", "schema task {", "    field {", "        name = \"title\"", "        type = \"string\"", "        required = true", "    }", "}", "", "task example {", "    title = \"Example Task\"", "}", ""])] := by decide +kernel

/-- `test_read_source_file_not_found` — firm_mcp/tests/read_source_tests.rs. -/
example : checksOn
    []
    fun f =>
      [(runRead f "nonexistent.firm").isNone] := by decide +kernel

/-- `test_read_source_not_firm_file` — firm_mcp/tests/read_source_tests.rs. -/
example : checksOn
    [("readme.txt", ["This is a text file"])]
    fun f =>
      [(runRead f "readme.txt").isNone] := by decide +kernel

/-- `test_read_source_path_traversal_blocked` — firm_mcp/tests/read_source_tests.rs. -/
example : checksOn
    [("data.firm", ["schema test {}"])]
    fun f =>
      [(runRead f "../../../etc/passwd").isNone] := by decide +kernel

/-- `test_read_source_absolute_path_blocked` — firm_mcp/tests/read_source_tests.rs. -/
example : checksOn
    [("data.firm", ["schema test {}"])]
    fun f =>
      [(runRead f "/etc/passwd").isNone] := by decide +kernel

/-- `test_read_source_empty_file` — firm_mcp/tests/read_source_tests.rs. -/
example : checksOn
    [("empty.firm", [""])]
    fun f =>
      [(runRead f "empty.firm").isSome,
        (runRead f "empty.firm") == some "".toList] := by decide +kernel

/-- `test_read_source_deeply_nested` — firm_mcp/tests/read_source_tests.rs. -/
example : checksOn
    [("a/b/c/d/deep.firm", ["schema deep { field { name = \"x\" type = \"string\" required = true } }"])]
    fun f =>
      [(runRead f "a/b/c/d/deep.firm").isSome] := by decide +kernel

/-! ## `source_tree_tests.rs` -/

/-- `test_source_tree_single_file_at_root` — firm_mcp/tests/source_tree_tests.rs. -/
example : checksOn
    [("main.firm", ["",
          "schema person {",
          "    field { name = \"name\" type = \"string\" required = true }",
          "}",
          ""])]
    fun f =>
      [(runTree f).isSome,
        (runTree f) == some "main.firm".toList] := by decide +kernel

/-- `test_source_tree_files_in_subdirectories` — firm_mcp/tests/source_tree_tests.rs. -/
example : checksOn
    [("schemas/person.firm", ["",
          "schema person {",
          "    field { name = \"name\" type = \"string\" required = true }",
          "}",
          ""]),
      ("schemas/task.firm", ["",
          "schema task {",
          "    field { name = \"name\" type = \"string\" required = true }",
          "}",
          ""]),
      ("core/people.firm", ["",
          "person john {",
          "    name = \"John\"",
          "}",
          ""])]
    fun f =>
      [(runTree f).isSome,
        has (runTree f) "schemas/",
        has (runTree f) "  person.firm",
        has (runTree f) "  task.firm",
        has (runTree f) "core/",
        has (runTree f) "  people.firm"] := by decide +kernel

/-- `test_source_tree_mixed_root_and_subdirectory` — firm_mcp/tests/source_tree_tests.rs. -/
example : checksOn
    [("main.firm", ["",
          "schema person {",
          "    field { name = \"name\" type = \"string\" required = true }",
          "}",
          ""]),
      ("data/people.firm", ["",
          "person alice {",
          "    name = \"Alice\"",
          "}",
          ""])]
    fun f =>
      [(runTree f).isSome,
        has (runTree f) "main.firm",
        has (runTree f) "data/",
        has (runTree f) "  people.firm"] := by decide +kernel

/-- `test_source_tree_empty_workspace` — firm_mcp/tests/source_tree_tests.rs. -/
example : checksOn
    []
    fun f =>
      [(runTree f).isSome,
        (runTree f) == some "No .firm source files found.".toList] := by decide +kernel

/-- `test_source_tree_nested_directories` — firm_mcp/tests/source_tree_tests.rs. -/
example : checksOn
    [("schemas/crm/contact.firm", ["",
          "schema contact {",
          "    field { name = \"name\" type = \"string\" required = true }",
          "}",
          ""]),
      ("schemas/crm/account.firm", ["",
          "schema account {",
          "    field { name = \"name\" type = \"string\" required = true }",
          "}",
          ""])]
    fun f =>
      [(runTree f).isSome,
        has (runTree f) "schemas/crm/",
        has (runTree f) "  account.firm",
        has (runTree f) "  contact.firm"] := by decide +kernel

/-- `test_source_tree_files_are_sorted` — firm_mcp/tests/source_tree_tests.rs. -/
example : checksOn
    [("z_last.firm", ["schema z { field { name = \"n\" type = \"string\" required = true } }"]),
      ("a_first.firm", ["schema a { field { name = \"n\" type = \"string\" required = true } }"]),
      ("m_middle.firm", ["schema m { field { name = \"n\" type = \"string\" required = true } }"])]
    fun f =>
      [(runTree f).isSome,
        hasLine (runTree f) 0 "a_first.firm",
        hasLine (runTree f) 1 "m_middle.firm",
        hasLine (runTree f) 2 "z_last.firm"] := by decide +kernel

/-! ## `search_source_tests.rs` -/

/-- `test_search_finds_matching_lines` — firm_mcp/tests/search_source_tests.rs. -/
example : checksOn
    [("people.firm", ["",
          "schema person {",
          "    field { name = \"name\" type = \"string\" required = true }",
          "}",
          "",
          "person john {",
          "    name = \"John Doe\"",
          "}",
          ""])]
    fun f =>
      [(runSearch f "John" false).isSome,
        has (runSearch f "John" false) "people.firm:",
        has (runSearch f "John" false) "John Doe"] := by decide +kernel

/-- `test_search_case_insensitive_by_default` — firm_mcp/tests/search_source_tests.rs. -/
example : checksOn
    [("data.firm", ["",
          "schema task {",
          "    field { name = \"name\" type = \"string\" required = true }",
          "}",
          "",
          "task my_task {",
          "    name = \"Important Task\"",
          "}",
          ""])]
    fun f =>
      [(runSearch f "important" false).isSome,
        has (runSearch f "important" false) "Important Task"] := by decide +kernel

/-- `test_search_case_sensitive` — firm_mcp/tests/search_source_tests.rs. -/
example : checksOn
    [("data.firm", ["",
          "schema task {",
          "    field { name = \"name\" type = \"string\" required = true }",
          "}",
          "",
          "task my_task {",
          "    name = \"Important Task\"",
          "}",
          ""])]
    fun f =>
      [(runSearch f "important" true).isSome,
        has (runSearch f "important" true) "No matches found"] := by decide +kernel

/-- `test_search_across_multiple_files` — firm_mcp/tests/search_source_tests.rs. -/
example : checksOn
    [("schemas.firm", ["",
          "schema person {",
          "    field { name = \"name\" type = \"string\" required = true }",
          "}",
          ""]),
      ("people.firm", ["",
          "person alice {",
          "    name = \"Alice Smith\"",
          "}",
          ""]),
      ("orgs.firm", ["",
          "schema organization {",
          "    field { name = \"name\" type = \"string\" required = true }",
          "}",
          "",
          "organization smith_co {",
          "    name = \"Smith & Co\"",
          "}",
          ""])]
    fun f =>
      [(runSearch f "smith" false).isSome,
        has (runSearch f "smith" false) "people.firm:",
        has (runSearch f "smith" false) "orgs.firm:"] := by decide +kernel

/-- `test_search_no_matches` — firm_mcp/tests/search_source_tests.rs. -/
example : checksOn
    [("data.firm", ["",
          "schema person {",
          "    field { name = \"name\" type = \"string\" required = true }",
          "}",
          ""])]
    fun f =>
      [(runSearch f "nonexistent_term" false).isSome,
        has (runSearch f "nonexistent_term" false) "No matches found"] := by decide +kernel

/-- `test_search_empty_query_rejected` — firm_mcp/tests/search_source_tests.rs. -/
example : checksOn
    [("data.firm", ["schema test { field { name = \"n\" type = \"string\" required = true } }"])]
    fun f =>
      [(runSearch f "" false).isNone] := by decide +kernel

/-- `test_search_empty_workspace` — firm_mcp/tests/search_source_tests.rs. -/
example : checksOn
    []
    fun f =>
      [(runSearch f "anything" false).isSome,
        has (runSearch f "anything" false) "No matches found"] := by decide +kernel

/-- `test_search_shows_line_numbers` — firm_mcp/tests/search_source_tests.rs. -/
example : checksOn
    [("data.firm", ["schema person {",
          "    field { name = \"name\" type = \"string\" required = true }",
          "}",
          "",
          "person john {",
          "    name = \"John\"",
          "}",
          ""])]
    fun f =>
      [(runSearch f "john" false).isSome,
        has (runSearch f "john" false) "5:",
        has (runSearch f "john" false) "6:"] := by decide +kernel

end Firm.Conformance
