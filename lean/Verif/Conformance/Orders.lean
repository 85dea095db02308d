import Verif.Conformance.Basic

/-!
# The project's unit tests of sorting and aggregation
-/

namespace Firm.Conformance

/-! ## firm_core/src/graph/query/order.rs -/

/- line 182: test_order_boolean_ascending -/
example : checks [
    ((compareEntitiesByField projectEnv (FieldRef.regular (asciiTable.snake "flag".toList))
      SortDirection.ascending ⟨(asciiTable.snake "e1".toList), (asciiTable.snake "test".toList),
      [((asciiTable.snake "flag".toList), (FieldValue.boolean true))]⟩ ⟨(asciiTable.snake
      "e2".toList), (asciiTable.snake "test".toList), [((asciiTable.snake "flag".toList),
      (FieldValue.boolean false))]⟩) == Ordering.gt)] := by decide +kernel

/- line 196: test_order_boolean_descending -/
example : checks [
    ((compareEntitiesByField projectEnv (FieldRef.regular (asciiTable.snake "flag".toList))
      SortDirection.descending ⟨(asciiTable.snake "e1".toList), (asciiTable.snake
      "test".toList), [((asciiTable.snake "flag".toList), (FieldValue.boolean true))]⟩
      ⟨(asciiTable.snake "e2".toList), (asciiTable.snake "test".toList), [((asciiTable.snake
      "flag".toList), (FieldValue.boolean false))]⟩) == Ordering.lt)] := by decide +kernel

/- line 211: test_order_integer_ascending -/
example : checks [
    ((compareEntitiesByField projectEnv (FieldRef.regular (asciiTable.snake "count".toList))
      SortDirection.ascending ⟨(asciiTable.snake "e1".toList), (asciiTable.snake "test".toList),
      [((asciiTable.snake "count".toList), (FieldValue.integer 10))]⟩ ⟨(asciiTable.snake
      "e2".toList), (asciiTable.snake "test".toList), [((asciiTable.snake "count".toList),
      (FieldValue.integer 5))]⟩) == Ordering.gt)] := by decide +kernel

/- line 225: test_order_integer_descending -/
example : checks [
    ((compareEntitiesByField projectEnv (FieldRef.regular (asciiTable.snake "count".toList))
      SortDirection.descending ⟨(asciiTable.snake "e1".toList), (asciiTable.snake
      "test".toList), [((asciiTable.snake "count".toList), (FieldValue.integer 10))]⟩
      ⟨(asciiTable.snake "e2".toList), (asciiTable.snake "test".toList), [((asciiTable.snake
      "count".toList), (FieldValue.integer 5))]⟩) == Ordering.lt)] := by decide +kernel

/- line 240: test_order_float_ascending -/
example : checks [
    ((compareEntitiesByField projectEnv (FieldRef.regular (asciiTable.snake "score".toList))
      SortDirection.ascending ⟨(asciiTable.snake "e1".toList), (asciiTable.snake "test".toList),
      [((asciiTable.snake "score".toList), (FieldValue.float (F64.fin ((7070651414971679 : Rat)
      / 2251799813685248))))]⟩ ⟨(asciiTable.snake "e2".toList), (asciiTable.snake
      "test".toList), [((asciiTable.snake "score".toList), (FieldValue.float (F64.fin
      ((3051188747543511 : Rat) / 1125899906842624))))]⟩) == Ordering.gt)] := by decide +kernel

/- line 254: test_order_float_descending -/
example : checks [
    ((compareEntitiesByField projectEnv (FieldRef.regular (asciiTable.snake "score".toList))
      SortDirection.descending ⟨(asciiTable.snake "e1".toList), (asciiTable.snake
      "test".toList), [((asciiTable.snake "score".toList), (FieldValue.float (F64.fin
      ((7070651414971679 : Rat) / 2251799813685248))))]⟩ ⟨(asciiTable.snake "e2".toList),
      (asciiTable.snake "test".toList), [((asciiTable.snake "score".toList), (FieldValue.float
      (F64.fin ((3051188747543511 : Rat) / 1125899906842624))))]⟩) == Ordering.lt)] := by decide +kernel

/- line 268: test_order_float_nan_sorts_to_end -/
example : checks [
    ((compareEntitiesByField projectEnv (FieldRef.regular (asciiTable.snake "score".toList))
      SortDirection.ascending ⟨(asciiTable.snake "e1".toList), (asciiTable.snake "test".toList),
      [((asciiTable.snake "score".toList), (FieldValue.float F64.nan))]⟩ ⟨(asciiTable.snake
      "e2".toList), (asciiTable.snake "test".toList), [((asciiTable.snake "score".toList),
      (FieldValue.float (F64.fin ((7070651414971679 : Rat) / 2251799813685248))))]⟩) ==
      Ordering.gt)] := by decide +kernel

/- line 283: test_order_string_ascending -/
example : checks [
    ((compareEntitiesByField projectEnv (FieldRef.regular (asciiTable.snake "name".toList))
      SortDirection.ascending ⟨(asciiTable.snake "e1".toList), (asciiTable.snake "test".toList),
      [((asciiTable.snake "name".toList), (FieldValue.string "Zebra".toList))]⟩
      ⟨(asciiTable.snake "e2".toList), (asciiTable.snake "test".toList), [((asciiTable.snake
      "name".toList), (FieldValue.string "Apple".toList))]⟩) == Ordering.gt)] := by decide +kernel

/- line 297: test_order_string_descending -/
example : checks [
    ((compareEntitiesByField projectEnv (FieldRef.regular (asciiTable.snake "name".toList))
      SortDirection.descending ⟨(asciiTable.snake "e1".toList), (asciiTable.snake
      "test".toList), [((asciiTable.snake "name".toList), (FieldValue.string "Zebra".toList))]⟩
      ⟨(asciiTable.snake "e2".toList), (asciiTable.snake "test".toList), [((asciiTable.snake
      "name".toList), (FieldValue.string "Apple".toList))]⟩) == Ordering.lt)] := by decide +kernel

/- line 311: test_order_string_case_insensitive -/
example : checks [
    ((compareEntitiesByField projectEnv (FieldRef.regular (asciiTable.snake "name".toList))
      SortDirection.ascending ⟨(asciiTable.snake "e1".toList), (asciiTable.snake "test".toList),
      [((asciiTable.snake "name".toList), (FieldValue.string "zebra".toList))]⟩
      ⟨(asciiTable.snake "e2".toList), (asciiTable.snake "test".toList), [((asciiTable.snake
      "name".toList), (FieldValue.string "APPLE".toList))]⟩) == Ordering.gt)] := by decide +kernel

/- line 326: test_order_enum_ascending -/
example : checks [
    ((compareEntitiesByField projectEnv (FieldRef.regular (asciiTable.snake "status".toList))
      SortDirection.ascending ⟨(asciiTable.snake "e1".toList), (asciiTable.snake "test".toList),
      [((asciiTable.snake "status".toList), (FieldValue.enum "pending".toList))]⟩
      ⟨(asciiTable.snake "e2".toList), (asciiTable.snake "test".toList), [((asciiTable.snake
      "status".toList), (FieldValue.enum "active".toList))]⟩) == Ordering.gt)] := by decide +kernel

/- line 340: test_order_enum_descending -/
example : checks [
    ((compareEntitiesByField projectEnv (FieldRef.regular (asciiTable.snake "status".toList))
      SortDirection.descending ⟨(asciiTable.snake "e1".toList), (asciiTable.snake
      "test".toList), [((asciiTable.snake "status".toList), (FieldValue.enum
      "pending".toList))]⟩ ⟨(asciiTable.snake "e2".toList), (asciiTable.snake "test".toList),
      [((asciiTable.snake "status".toList), (FieldValue.enum "active".toList))]⟩) ==
      Ordering.lt)] := by decide +kernel

/- line 355: test_order_datetime_ascending -/
example : checks [
    ((compareEntitiesByField projectEnv (FieldRef.regular (asciiTable.snake "date".toList))
      SortDirection.ascending ⟨(asciiTable.snake "e1".toList), (asciiTable.snake "test".toList),
      [((asciiTable.snake "date".toList), (FieldValue.dateTime ⟨1717236000, 0, 0⟩))]⟩
      ⟨(asciiTable.snake "e2".toList), (asciiTable.snake "test".toList), [((asciiTable.snake
      "date".toList), (FieldValue.dateTime ⟨1704103200, 0, 0⟩))]⟩) == Ordering.gt)] := by decide +kernel

/- line 378: test_order_datetime_descending -/
example : checks [
    ((compareEntitiesByField projectEnv (FieldRef.regular (asciiTable.snake "date".toList))
      SortDirection.descending ⟨(asciiTable.snake "e1".toList), (asciiTable.snake
      "test".toList), [((asciiTable.snake "date".toList), (FieldValue.dateTime ⟨1717236000, 0,
      0⟩))]⟩ ⟨(asciiTable.snake "e2".toList), (asciiTable.snake "test".toList),
      [((asciiTable.snake "date".toList), (FieldValue.dateTime ⟨1704103200, 0, 0⟩))]⟩) ==
      Ordering.lt)] := by decide +kernel

/- line 402: test_order_currency_same_code_ascending -/
example : checks [
    ((compareEntitiesByField projectEnv (FieldRef.regular (asciiTable.snake "price".toList))
      SortDirection.ascending ⟨(asciiTable.snake "e1".toList), (asciiTable.snake "test".toList),
      [((asciiTable.snake "price".toList), (FieldValue.currency ⟨10050, 2⟩ "USD".toList))]⟩
      ⟨(asciiTable.snake "e2".toList), (asciiTable.snake "test".toList), [((asciiTable.snake
      "price".toList), (FieldValue.currency ⟨5025, 2⟩ "USD".toList))]⟩) == Ordering.gt)] := by decide +kernel

/- line 430: test_order_currency_same_code_descending -/
example : checks [
    ((compareEntitiesByField projectEnv (FieldRef.regular (asciiTable.snake "price".toList))
      SortDirection.descending ⟨(asciiTable.snake "e1".toList), (asciiTable.snake
      "test".toList), [((asciiTable.snake "price".toList), (FieldValue.currency ⟨10050, 2⟩
      "USD".toList))]⟩ ⟨(asciiTable.snake "e2".toList), (asciiTable.snake "test".toList),
      [((asciiTable.snake "price".toList), (FieldValue.currency ⟨5025, 2⟩ "USD".toList))]⟩) ==
      Ordering.lt)] := by decide +kernel

/- line 458: test_order_currency_different_codes -/
example : checks [
    ((compareEntitiesByField projectEnv (FieldRef.regular (asciiTable.snake "price".toList))
      SortDirection.ascending ⟨(asciiTable.snake "e1".toList), (asciiTable.snake "test".toList),
      [((asciiTable.snake "price".toList), (FieldValue.currency ⟨10000, 2⟩ "USD".toList))]⟩
      ⟨(asciiTable.snake "e2".toList), (asciiTable.snake "test".toList), [((asciiTable.snake
      "price".toList), (FieldValue.currency ⟨10000, 2⟩ "EUR".toList))]⟩) == Ordering.gt)] := by decide +kernel

/- line 487: test_order_reference_ascending -/
example : checks [
    ((compareEntitiesByField projectEnv (FieldRef.regular (asciiTable.snake "ref".toList))
      SortDirection.ascending ⟨(asciiTable.snake "e1".toList), (asciiTable.snake "test".toList),
      [((asciiTable.snake "ref".toList), (FieldValue.reference (ReferenceValue.entity
      (asciiTable.snake "person.zebra".toList))))]⟩ ⟨(asciiTable.snake "e2".toList),
      (asciiTable.snake "test".toList), [((asciiTable.snake "ref".toList), (FieldValue.reference
      (ReferenceValue.entity (asciiTable.snake "person.apple".toList))))]⟩) == Ordering.gt)] := by decide +kernel

/- line 509: test_order_reference_descending -/
example : checks [
    ((compareEntitiesByField projectEnv (FieldRef.regular (asciiTable.snake "ref".toList))
      SortDirection.descending ⟨(asciiTable.snake "e1".toList), (asciiTable.snake
      "test".toList), [((asciiTable.snake "ref".toList), (FieldValue.reference
      (ReferenceValue.entity (asciiTable.snake "person.zebra".toList))))]⟩ ⟨(asciiTable.snake
      "e2".toList), (asciiTable.snake "test".toList), [((asciiTable.snake "ref".toList),
      (FieldValue.reference (ReferenceValue.entity (asciiTable.snake
      "person.apple".toList))))]⟩) == Ordering.lt)] := by decide +kernel

/- line 532: test_order_path_ascending -/
example : checks [
    ((compareEntitiesByField projectEnv (FieldRef.regular (asciiTable.snake "file".toList))
      SortDirection.ascending ⟨(asciiTable.snake "e1".toList), (asciiTable.snake "test".toList),
      [((asciiTable.snake "file".toList), (FieldValue.path "/z/file.txt".toList))]⟩
      ⟨(asciiTable.snake "e2".toList), (asciiTable.snake "test".toList), [((asciiTable.snake
      "file".toList), (FieldValue.path "/a/file.txt".toList))]⟩) == Ordering.gt)] := by decide +kernel

/- line 546: test_order_path_descending -/
example : checks [
    ((compareEntitiesByField projectEnv (FieldRef.regular (asciiTable.snake "file".toList))
      SortDirection.descending ⟨(asciiTable.snake "e1".toList), (asciiTable.snake
      "test".toList), [((asciiTable.snake "file".toList), (FieldValue.path
      "/z/file.txt".toList))]⟩ ⟨(asciiTable.snake "e2".toList), (asciiTable.snake
      "test".toList), [((asciiTable.snake "file".toList), (FieldValue.path
      "/a/file.txt".toList))]⟩) == Ordering.lt)] := by decide +kernel

/- line 561: test_order_list_ascending -/
example : checks [
    ((compareEntitiesByField projectEnv (FieldRef.regular (asciiTable.snake "tags".toList))
      SortDirection.ascending ⟨(asciiTable.snake "e1".toList), (asciiTable.snake "test".toList),
      [((asciiTable.snake "tags".toList), (FieldValue.list [(FieldValue.string "b".toList),
      (FieldValue.string "c".toList)]))]⟩ ⟨(asciiTable.snake "e2".toList), (asciiTable.snake
      "test".toList), [((asciiTable.snake "tags".toList), (FieldValue.list [(FieldValue.string
      "a".toList), (FieldValue.string "c".toList)]))]⟩) == Ordering.gt)] := by decide +kernel

/- line 589: test_order_list_descending -/
example : checks [
    ((compareEntitiesByField projectEnv (FieldRef.regular (asciiTable.snake "tags".toList))
      SortDirection.descending ⟨(asciiTable.snake "e1".toList), (asciiTable.snake
      "test".toList), [((asciiTable.snake "tags".toList), (FieldValue.list [(FieldValue.string
      "b".toList)]))]⟩ ⟨(asciiTable.snake "e2".toList), (asciiTable.snake "test".toList),
      [((asciiTable.snake "tags".toList), (FieldValue.list [(FieldValue.string "a".toList)]))]⟩)
      == Ordering.lt)] := by decide +kernel

/- line 612: test_order_integer_vs_float_ascending -/
example : checks [
    ((compareEntitiesByField projectEnv (FieldRef.regular (asciiTable.snake "value".toList))
      SortDirection.ascending ⟨(asciiTable.snake "e1".toList), (asciiTable.snake "test".toList),
      [((asciiTable.snake "value".toList), (FieldValue.integer 42))]⟩ ⟨(asciiTable.snake
      "e2".toList), (asciiTable.snake "test".toList), [((asciiTable.snake "value".toList),
      (FieldValue.float (F64.fin ((7070651414971679 : Rat) / 2251799813685248))))]⟩) ==
      Ordering.gt)] := by decide +kernel

/- line 626: test_order_float_vs_integer_ascending -/
example : checks [
    ((compareEntitiesByField projectEnv (FieldRef.regular (asciiTable.snake "value".toList))
      SortDirection.ascending ⟨(asciiTable.snake "e1".toList), (asciiTable.snake "test".toList),
      [((asciiTable.snake "value".toList), (FieldValue.float (F64.fin ((7070651414971679 : Rat)
      / 2251799813685248))))]⟩ ⟨(asciiTable.snake "e2".toList), (asciiTable.snake
      "test".toList), [((asciiTable.snake "value".toList), (FieldValue.integer 42))]⟩) ==
      Ordering.lt)] := by decide +kernel

/- line 641: test_order_type_precedence -/
example : checks [
    ((compareEntitiesByField projectEnv (FieldRef.regular (asciiTable.snake "field".toList))
      SortDirection.ascending ⟨(asciiTable.snake "e1".toList), (asciiTable.snake "test".toList),
      [((asciiTable.snake "field".toList), (FieldValue.boolean true))]⟩ ⟨(asciiTable.snake
      "e2".toList), (asciiTable.snake "test".toList), [((asciiTable.snake "field".toList),
      (FieldValue.integer 42))]⟩) == Ordering.lt),
    ((compareEntitiesByField projectEnv (FieldRef.regular (asciiTable.snake "field".toList))
      SortDirection.ascending ⟨(asciiTable.snake "e2".toList), (asciiTable.snake "test".toList),
      [((asciiTable.snake "field".toList), (FieldValue.integer 42))]⟩ ⟨(asciiTable.snake
      "e3".toList), (asciiTable.snake "test".toList), [((asciiTable.snake "field".toList),
      (FieldValue.string "test".toList))]⟩) == Ordering.lt),
    ((compareEntitiesByField projectEnv (FieldRef.regular (asciiTable.snake "field".toList))
      SortDirection.ascending ⟨(asciiTable.snake "e3".toList), (asciiTable.snake "test".toList),
      [((asciiTable.snake "field".toList), (FieldValue.string "test".toList))]⟩
      ⟨(asciiTable.snake "e4".toList), (asciiTable.snake "test".toList), [((asciiTable.snake
      "field".toList), (FieldValue.dateTime ⟨1704067200, 0, 0⟩))]⟩) == Ordering.lt)] := by decide +kernel

/- line 693: test_order_missing_value_sorts_to_end -/
example : checks [
    ((compareEntitiesByField projectEnv (FieldRef.regular (asciiTable.snake "value".toList))
      SortDirection.ascending ⟨(asciiTable.snake "e1".toList), (asciiTable.snake "test".toList),
      []⟩ ⟨(asciiTable.snake "e2".toList), (asciiTable.snake "test".toList), [((asciiTable.snake
      "value".toList), (FieldValue.integer 42))]⟩) == Ordering.gt)] := by decide +kernel

/- line 707: test_order_both_missing_equal -/
example : checks [
    ((compareEntitiesByField projectEnv (FieldRef.regular (asciiTable.snake "value".toList))
      SortDirection.ascending ⟨(asciiTable.snake "e1".toList), (asciiTable.snake "test".toList),
      []⟩ ⟨(asciiTable.snake "e2".toList), (asciiTable.snake "test".toList), []⟩) ==
      Ordering.eq)] := by decide +kernel

/- line 722: test_order_metadata_type_ascending -/
example : checks [
    ((compareEntitiesByField projectEnv (FieldRef.metadata MetadataField.type)
      SortDirection.ascending ⟨(asciiTable.snake "e1".toList), (asciiTable.snake "task".toList),
      [((asciiTable.snake "name".toList), (FieldValue.string "test".toList))]⟩
      ⟨(asciiTable.snake "e2".toList), (asciiTable.snake "person".toList), [((asciiTable.snake
      "name".toList), (FieldValue.string "test".toList))]⟩) == Ordering.gt)] := by decide +kernel

/- line 742: test_order_metadata_type_descending -/
example : checks [
    ((compareEntitiesByField projectEnv (FieldRef.metadata MetadataField.type)
      SortDirection.descending ⟨(asciiTable.snake "e1".toList), (asciiTable.snake
      "task".toList), [((asciiTable.snake "name".toList), (FieldValue.string "test".toList))]⟩
      ⟨(asciiTable.snake "e2".toList), (asciiTable.snake "person".toList), [((asciiTable.snake
      "name".toList), (FieldValue.string "test".toList))]⟩) == Ordering.lt)] := by decide +kernel

/- line 762: test_order_metadata_type_case_insensitive -/
example : checks [
    ((compareEntitiesByField projectEnv (FieldRef.metadata MetadataField.type)
      SortDirection.ascending ⟨(asciiTable.snake "e1".toList), (asciiTable.snake "TASK".toList),
      [((asciiTable.snake "name".toList), (FieldValue.string "test".toList))]⟩
      ⟨(asciiTable.snake "e2".toList), (asciiTable.snake "person".toList), [((asciiTable.snake
      "name".toList), (FieldValue.string "test".toList))]⟩) == Ordering.gt)] := by decide +kernel

/- line 783: test_order_metadata_id_ascending -/
example : checks [
    ((compareEntitiesByField projectEnv (FieldRef.metadata MetadataField.id)
      SortDirection.ascending ⟨(asciiTable.snake "zebra".toList), (asciiTable.snake
      "test".toList), []⟩ ⟨(asciiTable.snake "apple".toList), (asciiTable.snake "test".toList),
      []⟩) == Ordering.gt)] := by decide +kernel

/- line 797: test_order_metadata_id_descending -/
example : checks [
    ((compareEntitiesByField projectEnv (FieldRef.metadata MetadataField.id)
      SortDirection.descending ⟨(asciiTable.snake "zebra".toList), (asciiTable.snake
      "test".toList), []⟩ ⟨(asciiTable.snake "apple".toList), (asciiTable.snake "test".toList),
      []⟩) == Ordering.lt)] := by decide +kernel

/- line 811: test_order_metadata_id_case_insensitive -/
example : checks [
    ((compareEntitiesByField projectEnv (FieldRef.metadata MetadataField.id)
      SortDirection.ascending ⟨(asciiTable.snake "ZEBRA".toList), (asciiTable.snake
      "test".toList), []⟩ ⟨(asciiTable.snake "apple".toList), (asciiTable.snake "test".toList),
      []⟩) == Ordering.gt)] := by decide +kernel

/-! ## firm_core/src/graph/query/aggregation/sum.rs -/

/- line 84: test_sum_integers -/
example : checks [
    gives (executeSum projectEnv (FieldRef.regular (asciiTable.snake "val".toList))
      [⟨(asciiTable.snake "a".toList), (asciiTable.snake "item".toList), [((asciiTable.snake
      "val".toList), (FieldValue.integer 10))]⟩, ⟨(asciiTable.snake "b".toList),
      (asciiTable.snake "item".toList), [((asciiTable.snake "val".toList), (FieldValue.integer
      20))]⟩, ⟨(asciiTable.snake "c".toList), (asciiTable.snake "item".toList),
      [((asciiTable.snake "val".toList), (FieldValue.integer 30))]⟩]) (AggregationResult.sum
      (AggregateValue.integer 60))] := by decide +kernel

/- line 93: test_sum_floats -/
example : checks [
    gives (executeSum projectEnv (FieldRef.regular (asciiTable.snake "val".toList))
      [⟨(asciiTable.snake "a".toList), (asciiTable.snake "item".toList), [((asciiTable.snake
      "val".toList), (FieldValue.float (F64.fin ((3 : Rat) / 2))))]⟩, ⟨(asciiTable.snake
      "b".toList), (asciiTable.snake "item".toList), [((asciiTable.snake "val".toList),
      (FieldValue.float (F64.fin ((5 : Rat) / 2))))]⟩]) (AggregationResult.sum
      (AggregateValue.float (F64.fin 4)))] := by decide +kernel

/- line 107: test_sum_mixed_integer_and_float -/
example : checks [
    gives (executeSum projectEnv (FieldRef.regular (asciiTable.snake "val".toList))
      [⟨(asciiTable.snake "a".toList), (asciiTable.snake "item".toList), [((asciiTable.snake
      "val".toList), (FieldValue.integer 10))]⟩, ⟨(asciiTable.snake "b".toList),
      (asciiTable.snake "item".toList), [((asciiTable.snake "val".toList), (FieldValue.float
      (F64.fin ((5 : Rat) / 2))))]⟩]) (AggregationResult.sum (AggregateValue.float (F64.fin ((25
      : Rat) / 2))))] := by decide +kernel

/- line 121: test_sum_currency_same_code -/
example : checks [
    gives (executeSum projectEnv (FieldRef.regular (asciiTable.snake "amount".toList))
      [⟨(asciiTable.snake "a".toList), (asciiTable.snake "invoice".toList), [((asciiTable.snake
      "amount".toList), (FieldValue.currency ⟨10000, 2⟩ "USD".toList))]⟩, ⟨(asciiTable.snake
      "b".toList), (asciiTable.snake "invoice".toList), [((asciiTable.snake "amount".toList),
      (FieldValue.currency ⟨5000, 2⟩ "USD".toList))]⟩]) (AggregationResult.sum
      (AggregateValue.currency ⟨15000, 2⟩ "USD".toList))] := by decide +kernel

/- line 153: test_sum_currency_mixed_codes_error -/
example : checks [
    unaggregated (executeSum projectEnv (FieldRef.regular (asciiTable.snake "amount".toList))
      [⟨(asciiTable.snake "a".toList), (asciiTable.snake "invoice".toList), [((asciiTable.snake
      "amount".toList), (FieldValue.currency ⟨100, 0⟩ "USD".toList))]⟩, ⟨(asciiTable.snake
      "b".toList), (asciiTable.snake "invoice".toList), [((asciiTable.snake "amount".toList),
      (FieldValue.currency ⟨200, 0⟩ "EUR".toList))]⟩])] := by decide +kernel

/- line 182: test_sum_non_numeric_error -/
example : checks [
    unaggregated (executeSum projectEnv (FieldRef.regular (asciiTable.snake "name".toList))
      [⟨(asciiTable.snake "a".toList), (asciiTable.snake "item".toList), [((asciiTable.snake
      "name".toList), (FieldValue.string "hello".toList))]⟩])] := by decide +kernel

/- line 195: test_sum_empty_set -/
example : checks [
    gives (executeSum projectEnv (FieldRef.regular (asciiTable.snake "val".toList)) [])
      (AggregationResult.sum (AggregateValue.integer 0))] := by decide +kernel

/- line 203: test_sum_skips_missing_fields -/
example : checks [
    gives (executeSum projectEnv (FieldRef.regular (asciiTable.snake "val".toList))
      [⟨(asciiTable.snake "a".toList), (asciiTable.snake "item".toList), [((asciiTable.snake
      "val".toList), (FieldValue.integer 10))]⟩, ⟨(asciiTable.snake "b".toList),
      (asciiTable.snake "item".toList), []⟩]) (AggregationResult.sum (AggregateValue.integer
      10))] := by decide +kernel

/- line 217: test_sum_metadata_field_error -/
example : checks [
    unaggregated (executeSum projectEnv (FieldRef.metadata MetadataField.id) [⟨(asciiTable.snake
      "a".toList), (asciiTable.snake "item".toList), [((asciiTable.snake "val".toList),
      (FieldValue.integer 10))]⟩, ⟨(asciiTable.snake "b".toList), (asciiTable.snake
      "item".toList), [((asciiTable.snake "val".toList), (FieldValue.integer 20))]⟩,
      ⟨(asciiTable.snake "c".toList), (asciiTable.snake "item".toList), [((asciiTable.snake
      "val".toList), (FieldValue.integer 30))]⟩])] := by decide +kernel

/-! ## firm_core/src/graph/query/aggregation/average.rs -/

/- line 34: test_average_integers -/
example : checks [
    gives (executeAverage projectEnv (FieldRef.regular (asciiTable.snake "val".toList))
      [⟨(asciiTable.snake "a".toList), (asciiTable.snake "item".toList), [((asciiTable.snake
      "val".toList), (FieldValue.integer 10))]⟩, ⟨(asciiTable.snake "b".toList),
      (asciiTable.snake "item".toList), [((asciiTable.snake "val".toList), (FieldValue.integer
      20))]⟩, ⟨(asciiTable.snake "c".toList), (asciiTable.snake "item".toList),
      [((asciiTable.snake "val".toList), (FieldValue.integer 30))]⟩]) (AggregationResult.average
      (F64.fin 20))] := by decide +kernel

/- line 50: test_average_floats -/
example : checks [
    gives (executeAverage projectEnv (FieldRef.regular (asciiTable.snake "val".toList))
      [⟨(asciiTable.snake "a".toList), (asciiTable.snake "item".toList), [((asciiTable.snake
      "val".toList), (FieldValue.float (F64.fin 1)))]⟩, ⟨(asciiTable.snake "b".toList),
      (asciiTable.snake "item".toList), [((asciiTable.snake "val".toList), (FieldValue.float
      (F64.fin 2)))]⟩]) (AggregationResult.average (F64.fin ((3 : Rat) / 2)))] := by decide +kernel

/- line 64: test_average_mixed_integer_and_float -/
example : checks [
    gives (executeAverage projectEnv (FieldRef.regular (asciiTable.snake "val".toList))
      [⟨(asciiTable.snake "a".toList), (asciiTable.snake "item".toList), [((asciiTable.snake
      "val".toList), (FieldValue.integer 10))]⟩, ⟨(asciiTable.snake "b".toList),
      (asciiTable.snake "item".toList), [((asciiTable.snake "val".toList), (FieldValue.float
      (F64.fin 20)))]⟩]) (AggregationResult.average (F64.fin 15))] := by decide +kernel

/- line 78: test_average_skips_missing_fields -/
example : checks [
    gives (executeAverage projectEnv (FieldRef.regular (asciiTable.snake "val".toList))
      [⟨(asciiTable.snake "a".toList), (asciiTable.snake "item".toList), [((asciiTable.snake
      "val".toList), (FieldValue.integer 10))]⟩, ⟨(asciiTable.snake "b".toList),
      (asciiTable.snake "item".toList), []⟩]) (AggregationResult.average (F64.fin 10))] := by decide +kernel

/- line 92: test_average_empty_result_set_error -/
example : checks [
    unaggregated (executeAverage projectEnv (FieldRef.regular (asciiTable.snake "val".toList))
      [])] := by decide +kernel

/- line 103: test_average_no_entities_with_field_error -/
example : checks [
    unaggregated (executeAverage projectEnv (FieldRef.regular (asciiTable.snake
      "nonexistent".toList)) [⟨(asciiTable.snake "a".toList), (asciiTable.snake "item".toList),
      []⟩])] := by decide +kernel

/-! ## firm_core/src/graph/query/aggregation/median.rs -/

/- line 41: test_median_odd_count -/
example : checks [
    gives (executeMedian projectEnv (FieldRef.regular (asciiTable.snake "val".toList))
      [⟨(asciiTable.snake "a".toList), (asciiTable.snake "item".toList), [((asciiTable.snake
      "val".toList), (FieldValue.integer 10))]⟩, ⟨(asciiTable.snake "b".toList),
      (asciiTable.snake "item".toList), [((asciiTable.snake "val".toList), (FieldValue.integer
      20))]⟩, ⟨(asciiTable.snake "c".toList), (asciiTable.snake "item".toList),
      [((asciiTable.snake "val".toList), (FieldValue.integer 30))]⟩]) (AggregationResult.median
      (F64.fin 20))] := by decide +kernel

/- line 57: test_median_mixed_integer_and_float -/
example : checks [
    gives (executeMedian projectEnv (FieldRef.regular (asciiTable.snake "val".toList))
      [⟨(asciiTable.snake "a".toList), (asciiTable.snake "item".toList), [((asciiTable.snake
      "val".toList), (FieldValue.integer 10))]⟩, ⟨(asciiTable.snake "b".toList),
      (asciiTable.snake "item".toList), [((asciiTable.snake "val".toList), (FieldValue.float
      (F64.fin 20)))]⟩, ⟨(asciiTable.snake "c".toList), (asciiTable.snake "item".toList),
      [((asciiTable.snake "val".toList), (FieldValue.integer 30))]⟩]) (AggregationResult.median
      (F64.fin 20))] := by decide +kernel

/- line 73: test_median_even_count -/
example : checks [
    gives (executeMedian projectEnv (FieldRef.regular (asciiTable.snake "val".toList))
      [⟨(asciiTable.snake "a".toList), (asciiTable.snake "item".toList), [((asciiTable.snake
      "val".toList), (FieldValue.integer 10))]⟩, ⟨(asciiTable.snake "b".toList),
      (asciiTable.snake "item".toList), [((asciiTable.snake "val".toList), (FieldValue.integer
      20))]⟩]) (AggregationResult.median (F64.fin 15))] := by decide +kernel

/- line 87: test_median_single_value -/
example : checks [
    gives (executeMedian projectEnv (FieldRef.regular (asciiTable.snake "val".toList))
      [⟨(asciiTable.snake "a".toList), (asciiTable.snake "item".toList), [((asciiTable.snake
      "val".toList), (FieldValue.integer 42))]⟩]) (AggregationResult.median (F64.fin 42))] := by decide +kernel

/- line 97: test_median_unsorted_input -/
example : checks [
    gives (executeMedian projectEnv (FieldRef.regular (asciiTable.snake "val".toList))
      [⟨(asciiTable.snake "a".toList), (asciiTable.snake "item".toList), [((asciiTable.snake
      "val".toList), (FieldValue.integer 30))]⟩, ⟨(asciiTable.snake "b".toList),
      (asciiTable.snake "item".toList), [((asciiTable.snake "val".toList), (FieldValue.integer
      10))]⟩, ⟨(asciiTable.snake "c".toList), (asciiTable.snake "item".toList),
      [((asciiTable.snake "val".toList), (FieldValue.integer 20))]⟩]) (AggregationResult.median
      (F64.fin 20))] := by decide +kernel

/- line 113: test_median_empty_error -/
example : checks [
    unaggregated (executeMedian projectEnv (FieldRef.regular (asciiTable.snake "val".toList))
      [])] := by decide +kernel

/-! ## firm_core/src/graph/query/aggregation/count.rs -/

/- line 41: test_count_all -/
example : checks [
    ((executeCount none [⟨(asciiTable.snake "p1".toList), (asciiTable.snake "person".toList),
      [((asciiTable.snake "name".toList), (FieldValue.string "Alice".toList)),
      ((asciiTable.snake "age".toList), (FieldValue.integer 30))]⟩, ⟨(asciiTable.snake
      "p2".toList), (asciiTable.snake "person".toList), [((asciiTable.snake "name".toList),
      (FieldValue.string "Bob".toList))]⟩]) == (AggregationResult.count 2))] := by decide +kernel

/- line 49: test_count_with_present_field -/
example : checks [
    ((executeCount (some (FieldRef.regular (asciiTable.snake "name".toList)))
      [⟨(asciiTable.snake "p1".toList), (asciiTable.snake "person".toList), [((asciiTable.snake
      "name".toList), (FieldValue.string "Alice".toList)), ((asciiTable.snake "age".toList),
      (FieldValue.integer 30))]⟩, ⟨(asciiTable.snake "p2".toList), (asciiTable.snake
      "person".toList), [((asciiTable.snake "name".toList), (FieldValue.string
      "Bob".toList))]⟩]) == (AggregationResult.count 2))] := by decide +kernel

/- line 58: test_count_with_partial_field -/
example : checks [
    ((executeCount (some (FieldRef.regular (asciiTable.snake "age".toList))) [⟨(asciiTable.snake
      "p1".toList), (asciiTable.snake "person".toList), [((asciiTable.snake "name".toList),
      (FieldValue.string "Alice".toList)), ((asciiTable.snake "age".toList), (FieldValue.integer
      30))]⟩, ⟨(asciiTable.snake "p2".toList), (asciiTable.snake "person".toList),
      [((asciiTable.snake "name".toList), (FieldValue.string "Bob".toList))]⟩]) ==
      (AggregationResult.count 1))] := by decide +kernel

/- line 67: test_count_with_missing_field -/
example : checks [
    ((executeCount (some (FieldRef.regular (asciiTable.snake "nonexistent".toList)))
      [⟨(asciiTable.snake "p1".toList), (asciiTable.snake "person".toList), [((asciiTable.snake
      "name".toList), (FieldValue.string "Alice".toList)), ((asciiTable.snake "age".toList),
      (FieldValue.integer 30))]⟩, ⟨(asciiTable.snake "p2".toList), (asciiTable.snake
      "person".toList), [((asciiTable.snake "name".toList), (FieldValue.string
      "Bob".toList))]⟩]) == (AggregationResult.count 0))] := by decide +kernel

/- line 76: test_count_metadata_field_counts_all -/
example : checks [
    ((executeCount (some (FieldRef.metadata MetadataField.id)) [⟨(asciiTable.snake "p1".toList),
      (asciiTable.snake "person".toList), [((asciiTable.snake "name".toList), (FieldValue.string
      "Alice".toList)), ((asciiTable.snake "age".toList), (FieldValue.integer 30))]⟩,
      ⟨(asciiTable.snake "p2".toList), (asciiTable.snake "person".toList), [((asciiTable.snake
      "name".toList), (FieldValue.string "Bob".toList))]⟩]) == (AggregationResult.count 2))] := by decide +kernel

/- line 85: test_count_empty_set -/
example : checks [
    ((executeCount none []) == (AggregationResult.count 0))] := by decide +kernel

end Firm.Conformance
