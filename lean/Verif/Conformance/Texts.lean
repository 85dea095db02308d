import Verif.Conformance.Basic

/-!
# The project's unit tests of identifiers, types and generated text
-/

namespace Firm.Conformance

/-! ## firm_lang/src/generate/from_value.rs -/

/- line 118: test_generate_boolean_true -/
example : checks [
    ((generateValue projectLang GeneratorOptions.default (FieldValue.boolean true)) ==
      "true".toList)] := by decide +kernel

/- line 125: test_generate_boolean_false -/
example : checks [
    ((generateValue projectLang GeneratorOptions.default (FieldValue.boolean false)) ==
      "false".toList)] := by decide +kernel

/- line 132: test_generate_string_single_line -/
example : checks [
    ((generateString GeneratorOptions.default "Hello World".toList) == "\"Hello World\"".toList)] := by decide +kernel

/- line 139: test_generate_string_with_quotes -/
example : checks [
    ((generateString GeneratorOptions.default "Say \"Hello\"".toList) ==
      "\"Say \\\"Hello\\\"\"".toList)] := by decide +kernel

/- line 146: test_generate_string_multiline -/
example : checks [
    ((generateString GeneratorOptions.default "Line 1\nLine 2\nLine 3".toList) ==
      "\"\"\"\n    Line 1\n    Line 2\n    Line 3\n    \"\"\"".toList)] := by decide +kernel

/- line 156: test_generate_string_empty -/
example : checks [
    ((generateString GeneratorOptions.default "".toList) == "\"\"".toList)] := by decide +kernel

/- line 163: test_generate_integer_positive -/
example : checks [
    ((generateValue projectLang GeneratorOptions.default (FieldValue.integer 42)) ==
      "42".toList)] := by decide +kernel

/- line 170: test_generate_integer_negative -/
example : checks [
    ((generateValue projectLang GeneratorOptions.default (FieldValue.integer (-123))) ==
      "-123".toList)] := by decide +kernel

/- line 177: test_generate_integer_zero -/
example : checks [
    ((generateValue projectLang GeneratorOptions.default (FieldValue.integer 0)) == "0".toList)] := by decide +kernel

/- line 184: test_generate_float_positive -/
example : checks [
    ((generateValue projectLang GeneratorOptions.default (FieldValue.float (F64.fin
      ((3537115888337719 : Rat) / 1125899906842624)))) == "3.14159".toList)] := by decide +kernel

/- line 191: test_generate_float_negative -/
example : checks [
    ((generateValue projectLang GeneratorOptions.default (FieldValue.float (F64.fin ((-5 : Rat)
      / 2)))) == "-2.5".toList)] := by decide +kernel

/- line 198: test_generate_float_zero -/
example : checks [
    ((generateValue projectLang GeneratorOptions.default (FieldValue.float (F64.fin 0))) ==
      "0.0".toList)] := by decide +kernel

/- line 205: test_generate_currency_usd -/
example : checks [
    ((generateValue projectLang GeneratorOptions.default (FieldValue.currency ⟨100050, 2⟩
      "USD".toList)) == "1000.50 USD".toList)] := by decide +kernel

/- line 218: test_generate_currency_eur -/
example : checks [
    ((generateValue projectLang GeneratorOptions.default (FieldValue.currency ⟨750, 0⟩
      "EUR".toList)) == "750 EUR".toList)] := by decide +kernel

/- line 231: test_generate_currency_zero -/
example : checks [
    ((generateValue projectLang GeneratorOptions.default (FieldValue.currency ⟨0, 0⟩
      "DKK".toList)) == "0 DKK".toList)] := by decide +kernel

/- line 244: test_generate_reference_entity -/
example : checks [
    ((generateValue projectLang GeneratorOptions.default (FieldValue.reference
      (ReferenceValue.entity "person.john".toList))) == "person.john".toList)] := by decide +kernel

/- line 251: test_generate_reference_field -/
example : checks [
    ((generateValue projectLang GeneratorOptions.default (FieldValue.reference
      (ReferenceValue.field "person.john".toList "name".toList))) == "person.john.name".toList)] := by decide +kernel

/- line 261: test_generate_empty_list -/
example : checks [
    ((generateValue projectLang GeneratorOptions.default (FieldValue.list [])) == "[]".toList)] := by decide +kernel

/- line 268: test_generate_string_list -/
example : checks [
    ((generateValue projectLang GeneratorOptions.default (FieldValue.list [(FieldValue.string
      "first".toList), (FieldValue.string "second".toList)])) ==
      "[\"first\", \"second\"]".toList)] := by decide +kernel

/- line 279: test_generate_integer_list -/
example : checks [
    ((generateValue projectLang GeneratorOptions.default (FieldValue.list [(FieldValue.integer
      1), (FieldValue.integer 2), (FieldValue.integer 3)])) == "[1, 2, 3]".toList)] := by decide +kernel

/- line 291: test_generate_boolean_list -/
example : checks [
    ((generateValue projectLang GeneratorOptions.default (FieldValue.list [(FieldValue.boolean
      true), (FieldValue.boolean false), (FieldValue.boolean true)])) ==
      "[true, false, true]".toList)] := by decide +kernel

/- line 303: test_generate_nested_lists -/
example : checks [
    ((generateValue projectLang GeneratorOptions.default (FieldValue.list [(FieldValue.list
      [(FieldValue.string "a".toList), (FieldValue.string "b".toList)]), (FieldValue.list
      [(FieldValue.string "c".toList), (FieldValue.string "d".toList)])])) ==
      "[[\"a\", \"b\"], [\"c\", \"d\"]]".toList)] := by decide +kernel

/- line 323: test_generate_datetime_utc -/
example : checks [
    ((generateDateTime ⟨1710945000, 0, 0⟩) == "2024-03-20 at 14:30 UTC".toList)] := by decide +kernel

/- line 333: test_generate_datetime_positive_offset -/
example : checks [
    ((generateDateTime ⟨1710934200, 0, 10800⟩) == "2024-03-20 at 14:30 UTC+3".toList)] := by decide +kernel

/- line 343: test_generate_datetime_negative_offset -/
example : checks [
    ((generateDateTime ⟨1710963000, 0, (-18000)⟩) == "2024-03-20 at 14:30 UTC-5".toList)] := by decide +kernel

/- line 353: test_generate_datetime_single_digit_hour -/
example : checks [
    ((generateDateTime ⟨1710925500, 0, 0⟩) == "2024-03-20 at 09:05 UTC".toList)] := by decide +kernel

/- line 363: test_generate_datetime_midnight -/
example : checks [
    ((generateDateTime ⟨1735603200, 0, 0⟩) == "2024-12-31 at 00:00 UTC".toList)] := by decide +kernel

/- line 373: test_generate_path -/
example : checks [
    ((generateValue projectLang GeneratorOptions.default (FieldValue.path
      "./relative/path.txt".toList)) == "path\"./relative/path.txt\"".toList)] := by decide +kernel

/-! ## firm_lang/src/generate/from_field.rs -/

/- line 21: test_generate_simple_field -/
example : checks [
    ((generateField projectLang GeneratorOptions.default "name".toList (FieldValue.string
      "test".toList)) == "name = \"test\"".toList)] := by decide +kernel

/- line 28: test_generate_boolean_field -/
example : checks [
    ((generateField projectLang GeneratorOptions.default "active".toList (FieldValue.boolean
      true)) == "active = true".toList)] := by decide +kernel

/-! ## firm_core/src/id.rs -/

/- line 69: test_preserves_snake_case -/
example : checks [
    ((asciiTable.snake "john_doe".toList) == "john_doe".toList)] := by decide +kernel

/- line 75: test_preserves_period -/
example : checks [
    ((asciiTable.snake "person.john_doe".toList) == "person.john_doe".toList)] := by decide +kernel

/- line 81: test_converts_to_snake_case -/
example : checks [
    ((asciiTable.snake "John Doe".toList) == "john_doe".toList),
    ((asciiTable.snake "JohnDoe".toList) == "john_doe".toList),
    ((asciiTable.snake "johnDoe".toList) == "john_doe".toList)] := by decide +kernel

/- line 93: test_preserves_period_when_converted_to_snake_case -/
example : checks [
    ((asciiTable.snake "Person.John Doe".toList) == "person.john_doe".toList),
    ((asciiTable.snake "Person.JohnDoe".toList) == "person.john_doe".toList),
    ((asciiTable.snake "person.johnDoe".toList) == "person.john_doe".toList)] := by decide +kernel

/-! ## firm_core/src/field.rs -/

/- line 189: test_field_value_get_type -/
example : checks [
    ((FieldValue.getType (FieldValue.string "test".toList)) == FieldType.string)] := by decide +kernel

/- line 195: test_field_value_is_type -/
example : checks [
    (FieldValue.isType (FieldValue.string "test".toList) FieldType.string)] := by decide +kernel

/- line 256: test_currency_field_value -/
example : checks [
    ((FieldValue.getType (FieldValue.currency ⟨12345, 2⟩ "USD".toList)) == FieldType.currency),
    (FieldValue.isType (FieldValue.currency ⟨12345, 2⟩ "USD".toList) FieldType.currency)] := by decide +kernel

/- line 269: test_entity_reference_field_value -/
example : checks [
    ((FieldValue.getType (FieldValue.reference (ReferenceValue.entity (asciiTable.snake
      "test_entity".toList)))) == FieldType.reference),
    (FieldValue.isType (FieldValue.reference (ReferenceValue.entity (asciiTable.snake
      "test_entity".toList))) FieldType.reference)] := by decide +kernel

/- line 277: test_field_reference_field_value -/
example : checks [
    ((FieldValue.getType (FieldValue.reference (ReferenceValue.field (asciiTable.snake
      "test_entity".toList) (asciiTable.snake "test_field".toList)))) == FieldType.reference),
    (FieldValue.isType (FieldValue.reference (ReferenceValue.field (asciiTable.snake
      "test_entity".toList) (asciiTable.snake "test_field".toList))) FieldType.reference)] := by decide +kernel

/- line 287: test_list_field_value -/
example : checks [
    ((FieldValue.getType (FieldValue.list [(FieldValue.string "item1".toList),
      (FieldValue.string "item2".toList)])) == FieldType.list),
    (FieldValue.isType (FieldValue.list [(FieldValue.string "item1".toList), (FieldValue.string
      "item2".toList)]) FieldType.list)] := by decide +kernel

/- line 423: test_enum_field_value -/
example : checks [
    ((FieldValue.getType (FieldValue.enum "active".toList)) == FieldType.enum),
    (FieldValue.isType (FieldValue.enum "active".toList) FieldType.enum)] := by decide +kernel


/-! ## firm_lang/src/generate/from_entity.rs, mod.rs, from_schema.rs -/

/-- Is the text these lines, each ended by a line break? -/
def isLines (t : Str) (ls : List String) : Bool := t == ls.flatMap fun l => l.toList ++ ['\n']

/-- `generate_entity` with the default options. -/
def aBlock (e : Entity) : Str := generateEntity projectLang .default e

/- test_generate_simple_person_entity -/
example : checks [isLines (aBlock ⟨"person.john_doe".toList, "person".toList,
    [("name".toList, .string "John Doe".toList), ("age".toList, .integer 42)]⟩)
    ["person john_doe {", "    name = \"John Doe\"", "    age = 42", "}"]] := by decide +kernel
/- test_generate_organization_with_multiple_fields -/
example : checks [isLines (aBlock ⟨"organization.acme_corp".toList, "organization".toList,
    [("name".toList, .string "ACME Corp".toList),
      ("primary_email".toList, .string "contact@acme.com".toList), ("active".toList, .boolean true),
      ("employee_count".toList, .integer 150)]⟩)
    ["organization acme_corp {", "    name = \"ACME Corp\"",
      "    primary_email = \"contact@acme.com\"", "    active = true", "    employee_count = 150",
      "}"]] := by decide +kernel
/- test_generate_entity_with_references -/
example : checks [isLines (aBlock ⟨"person.jane_smith".toList, "person".toList,
    [("name".toList, .string "Jane Smith".toList),
      ("manager".toList, .reference (.entity "person.john_doe".toList)),
      ("manager_email".toList, .reference (.field "person.john_doe".toList "email".toList))]⟩)
    ["person jane_smith {", "    name = \"Jane Smith\"", "    manager = person.john_doe",
      "    manager_email = person.john_doe.email", "}"]] := by decide +kernel
/- test_generate_entity_with_multiline_string -/
example : checks [isLines (aBlock ⟨"task.code_review".toList, "task".toList,
    [("title".toList, .string "Code Review".toList),
      ("description".toList, .string ("Review the pull request:".toList ++ '\n' ::
        "- Check logic".toList ++ '\n' :: "- Verify tests".toList ++ '\n' ::
        "- Approve changes".toList))]⟩)
    ["task code_review {", "    title = \"Code Review\"", "    description = \"\"\"",
      "    Review the pull request:", "    - Check logic", "    - Verify tests",
      "    - Approve changes", "    \"\"\"", "}"]] := by decide +kernel
/- test_generate_with_custom_indent, test_generate_with_tab_indent -/
example : checks [
    isLines (generateEntity projectLang ⟨.spaces 2, true⟩ ⟨"person.test".toList, "person".toList,
      [("name".toList, .string "Test".toList)]⟩) ["person test {", "  name = \"Test\"", "}"],
    isLines (generateEntity projectLang ⟨.tabs, true⟩ ⟨"person.test".toList, "person".toList,
      [("name".toList, .string "Test".toList)]⟩) ["person test {", "\tname = \"Test\"", "}"]] := by
  decide +kernel
/- test_generate_empty_entities_list, test_generate_multiple_entities -/
example : checks [generateDsl projectLang .default [] == [],
    isLines (generateDsl projectLang .default [
      ⟨"person.daniel_rothmann".toList, "person".toList,
        [("first_name".toList, .string "Daniel".toList),
          ("last_name".toList, .string "Rothmann".toList),
          ("primary_email".toList, .string "daniel@42futures.com".toList)]⟩,
      ⟨"organization.main".toList, "organization".toList,
        [("name".toList, .string "42futures".toList),
          ("primary_email".toList, .string "hello@42futures.com".toList)]⟩,
      ⟨"project.firm_language".toList, "project".toList,
        [("name".toList, .string "Firm Language Development".toList),
          ("owner_ref".toList, .reference (.entity "person.daniel_rothmann".toList)),
          ("organization_ref".toList, .reference (.entity "organization.main".toList)),
          ("budget".toList, .currency ⟨150000, 0⟩ "EUR".toList),
          ("technologies".toList, .list [.string "Rust".toList, .string "Tree-sitter".toList,
            .string "WASM".toList])]⟩])
      ["person daniel_rothmann {", "    first_name = \"Daniel\"", "    last_name = \"Rothmann\"",
        "    primary_email = \"daniel@42futures.com\"", "}", "", "organization main {",
        "    name = \"42futures\"", "    primary_email = \"hello@42futures.com\"", "}", "",
        "project firm_language {", "    name = \"Firm Language Development\"",
        "    owner_ref = person.daniel_rothmann", "    organization_ref = organization.main",
        "    budget = 150000 EUR", "    technologies = [\"Rust\", \"Tree-sitter\", \"WASM\"]",
        "}"]] := by decide +kernel
/- test_generate_with_custom_options -/
example : checks [isLines (generateDsl projectLang ⟨.spaces 2, false⟩ [
      ⟨"person.alice".toList, "person".toList, [("name".toList, .string "Alice".toList)]⟩,
      ⟨"person.bob".toList, "person".toList, [("name".toList, .string "Bob".toList)]⟩])
    ["person alice {", "  name = \"Alice\"", "}", "person bob {", "  name = \"Bob\"", "}"]] := by
  decide +kernel
/- test_generate_simple_schema -/
example : checks [isLines (generateSchema .default
    (((EntitySchema.new "person".toList).withRequiredField "name".toList .string).withOptionalField
      "email".toList .string))
    ["schema person {", "    field {", "        name = \"name\"", "        type = \"string\"",
      "        required = true", "    }", "    field {", "        name = \"email\"",
      "        type = \"string\"", "        required = false", "    }", "}"]] := by decide +kernel
/- test_generate_schema_with_various_types -/
example : checks [isLines (generateSchema .default
    ((((((EntitySchema.new "project".toList).withRequiredField "name".toList
      .string).withRequiredField "status".toList .string).withOptionalField "budget".toList
      .currency).withOptionalField "is_active".toList .boolean).withOptionalField
      "owner_ref".toList .reference))
    ["schema project {", "    field {", "        name = \"name\"", "        type = \"string\"",
      "        required = true", "    }", "    field {", "        name = \"status\"",
      "        type = \"string\"", "        required = true", "    }", "    field {",
      "        name = \"budget\"", "        type = \"currency\"", "        required = false",
      "    }", "    field {", "        name = \"is_active\"", "        type = \"boolean\"",
      "        required = false", "    }", "    field {", "        name = \"owner_ref\"",
      "        type = \"reference\"", "        required = false", "    }", "}"]] := by decide +kernel
/- test_generate_schema_with_enum -/
example : checks [isLines (generateSchema .default
    (((EntitySchema.new "account".toList).withRequiredField "name".toList .string).withRequiredEnum
      projectEnv "status".toList ["prospect".toList, "customer".toList, "partner".toList]))
    ["schema account {", "    field {", "        name = \"name\"", "        type = \"string\"",
      "        required = true", "    }", "    field {", "        name = \"status\"",
      "        type = \"enum\"",
      "        allowed_values = [\"prospect\", \"customer\", \"partner\"]",
      "        required = true", "    }", "}"]] := by decide +kernel

end Firm.Conformance
