import Verif.Conformance.Basic

/-!
# The project's unit tests of filters
-/

namespace Firm.Conformance

/-! ## firm_core/src/graph/query/filter/boolean.rs -/

/- line 45: test_true_equals_true -/
example : checks [
    answers true (compareBoolean (FieldValue.boolean true) FilterOperator.equal
      (FilterValue.boolean true))] := by decide +kernel

/- line 53: test_false_equals_false -/
example : checks [
    answers true (compareBoolean (FieldValue.boolean false) FilterOperator.equal
      (FilterValue.boolean false))] := by decide +kernel

/- line 61: test_true_not_equals_false -/
example : checks [
    answers false (compareBoolean (FieldValue.boolean true) FilterOperator.equal
      (FilterValue.boolean false))] := by decide +kernel

/- line 69: test_false_not_equals_true -/
example : checks [
    answers false (compareBoolean (FieldValue.boolean false) FilterOperator.equal
      (FilterValue.boolean true))] := by decide +kernel

/- line 77: test_true_not_equal_false -/
example : checks [
    answers true (compareBoolean (FieldValue.boolean true) FilterOperator.notEqual
      (FilterValue.boolean false))] := by decide +kernel

/- line 90: test_false_not_equal_true -/
example : checks [
    answers true (compareBoolean (FieldValue.boolean false) FilterOperator.notEqual
      (FilterValue.boolean true))] := by decide +kernel

/- line 103: test_true_not_not_equal_true -/
example : checks [
    answers false (compareBoolean (FieldValue.boolean true) FilterOperator.notEqual
      (FilterValue.boolean true))] := by decide +kernel

/- line 116: test_false_not_not_equal_false -/
example : checks [
    answers false (compareBoolean (FieldValue.boolean false) FilterOperator.notEqual
      (FilterValue.boolean false))] := by decide +kernel

/- line 129: test_unsupported_operator_greater_than -/
example : checks [
    unsupported (compareBoolean (FieldValue.boolean true) FilterOperator.greaterThan
      (FilterValue.boolean false))] := by decide +kernel

/- line 143: test_unsupported_operator_less_than -/
example : checks [
    unsupported (compareBoolean (FieldValue.boolean false) FilterOperator.lessThan
      (FilterValue.boolean true))] := by decide +kernel

/- line 157: test_unsupported_operator_contains -/
example : checks [
    unsupported (compareBoolean (FieldValue.boolean true) FilterOperator.contains
      (FilterValue.boolean true))] := by decide +kernel

/- line 171: test_wrong_filter_type_string -/
example : checks [
    mismatched (compareBoolean (FieldValue.boolean true) FilterOperator.equal
      (FilterValue.string "true".toList))] := by decide +kernel

/- line 182: test_wrong_filter_type_integer -/
example : checks [
    mismatched (compareBoolean (FieldValue.boolean true) FilterOperator.equal
      (FilterValue.integer 1))] := by decide +kernel

/- line 189: test_wrong_filter_type_float -/
example : checks [
    mismatched (compareBoolean (FieldValue.boolean false) FilterOperator.equal
      (FilterValue.float (F64.fin 0)))] := by decide +kernel

/-! ## firm_core/src/graph/query/filter/currency.rs -/

/- line 79: test_equal_same_currency -/
example : checks [
    answers true (compareCurrency projectEnv (FieldValue.currency ⟨10050, 2⟩ "EUR".toList)
      FilterOperator.equal (FilterValue.currency (F64.fin ((201 : Rat) / 2)) "EUR".toList))] := by decide +kernel

/- line 93: test_not_equal_different_amounts -/
example : checks [
    answers false (compareCurrency projectEnv (FieldValue.currency ⟨10050, 2⟩ "EUR".toList)
      FilterOperator.equal (FilterValue.currency (F64.fin 200) "EUR".toList))] := by decide +kernel

/- line 107: test_equal_different_currency_codes -/
example : checks [
    answers false (compareCurrency projectEnv (FieldValue.currency ⟨10050, 2⟩ "EUR".toList)
      FilterOperator.equal (FilterValue.currency (F64.fin ((201 : Rat) / 2)) "USD".toList))] := by decide +kernel

/- line 122: test_greater_than -/
example : checks [
    answers true (compareCurrency projectEnv (FieldValue.currency ⟨15000, 2⟩ "USD".toList)
      FilterOperator.greaterThan (FilterValue.currency (F64.fin 100) "USD".toList))] := by decide +kernel

/- line 136: test_less_than -/
example : checks [
    answers true (compareCurrency projectEnv (FieldValue.currency ⟨5000, 2⟩ "GBP".toList)
      FilterOperator.lessThan (FilterValue.currency (F64.fin 100) "GBP".toList))] := by decide +kernel

/- line 150: test_greater_or_equal_greater -/
example : checks [
    answers true (compareCurrency projectEnv (FieldValue.currency ⟨15000, 2⟩ "EUR".toList)
      FilterOperator.greaterOrEqual (FilterValue.currency (F64.fin 100) "EUR".toList))] := by decide +kernel

/- line 164: test_greater_or_equal_equal -/
example : checks [
    answers true (compareCurrency projectEnv (FieldValue.currency ⟨10000, 2⟩ "EUR".toList)
      FilterOperator.greaterOrEqual (FilterValue.currency (F64.fin 100) "EUR".toList))] := by decide +kernel

/- line 178: test_less_or_equal_less -/
example : checks [
    answers true (compareCurrency projectEnv (FieldValue.currency ⟨5000, 2⟩ "USD".toList)
      FilterOperator.lessOrEqual (FilterValue.currency (F64.fin 100) "USD".toList))] := by decide +kernel

/- line 192: test_less_or_equal_equal -/
example : checks [
    answers true (compareCurrency projectEnv (FieldValue.currency ⟨10000, 2⟩ "USD".toList)
      FilterOperator.lessOrEqual (FilterValue.currency (F64.fin 100) "USD".toList))] := by decide +kernel

/- line 206: test_not_equal_operator -/
example : checks [
    answers true (compareCurrency projectEnv (FieldValue.currency ⟨10050, 2⟩ "EUR".toList)
      FilterOperator.notEqual (FilterValue.currency (F64.fin 200) "EUR".toList))] := by decide +kernel

/- line 220: test_not_equal_same_amount_returns_false -/
example : checks [
    answers false (compareCurrency projectEnv (FieldValue.currency ⟨10050, 2⟩ "EUR".toList)
      FilterOperator.notEqual (FilterValue.currency (F64.fin ((201 : Rat) / 2)) "EUR".toList))] := by decide +kernel

/- line 234: test_mismatched_currency_with_greater_than -/
example : checks [
    answers false (compareCurrency projectEnv (FieldValue.currency ⟨15000, 2⟩ "EUR".toList)
      FilterOperator.greaterThan (FilterValue.currency (F64.fin 100) "USD".toList))] := by decide +kernel

/- line 249: test_unsupported_operator_contains -/
example : checks [
    unsupported (compareCurrency projectEnv (FieldValue.currency ⟨10050, 2⟩ "EUR".toList)
      FilterOperator.contains (FilterValue.currency (F64.fin ((201 : Rat) / 2)) "EUR".toList))] := by decide +kernel

/- line 263: test_wrong_filter_type -/
example : checks [
    mismatched (compareCurrency projectEnv (FieldValue.currency ⟨10050, 2⟩ "EUR".toList)
      FilterOperator.equal (FilterValue.float (F64.fin ((201 : Rat) / 2))))] := by decide +kernel

/- line 270: test_zero_amount -/
example : checks [
    answers true (compareCurrency projectEnv (FieldValue.currency ⟨0, 2⟩ "EUR".toList)
      FilterOperator.equal (FilterValue.currency (F64.fin 0) "EUR".toList))] := by decide +kernel

/- line 284: test_negative_amount -/
example : checks [
    answers true (compareCurrency projectEnv (FieldValue.currency ⟨(-10050), 2⟩ "EUR".toList)
      FilterOperator.lessThan (FilterValue.currency (F64.fin 0) "EUR".toList))] := by decide +kernel

/-! ## firm_core/src/graph/query/filter/datetime.rs -/

/- line 105: test_equal_full_datetime -/
example : checks [
    answers true (compareDateTime projectEnv (FieldValue.dateTime ⟨1759220100, 0, 7200⟩)
      FilterOperator.equal (FilterValue.dateTime "2025-09-30T10:15:00+02:00".toList))] := by decide +kernel

/- line 111: test_not_equal_full_datetime -/
example : checks [
    answers false (compareDateTime projectEnv (FieldValue.dateTime ⟨1759220100, 0, 7200⟩)
      FilterOperator.equal (FilterValue.dateTime "2025-09-30T11:15:00+02:00".toList))] := by decide +kernel

/- line 117: test_equal_date_only -/
example : checks [
    answers true (compareDateTime projectEnv (FieldValue.dateTime ⟨1759220100, 0, 7200⟩)
      FilterOperator.equal (FilterValue.dateTime "2025-09-30".toList))] := by decide +kernel

/- line 123: test_not_equal_date_only -/
example : checks [
    answers false (compareDateTime projectEnv (FieldValue.dateTime ⟨1759220100, 0, 7200⟩)
      FilterOperator.equal (FilterValue.dateTime "2025-10-01".toList))] := by decide +kernel

/- line 129: test_greater_than_date -/
example : checks [
    answers true (compareDateTime projectEnv (FieldValue.dateTime ⟨1760515200, 0, 7200⟩)
      FilterOperator.greaterThan (FilterValue.dateTime "2025-09-01".toList))] := by decide +kernel

/- line 135: test_less_than_date -/
example : checks [
    answers true (compareDateTime projectEnv (FieldValue.dateTime ⟨1757923200, 0, 7200⟩)
      FilterOperator.lessThan (FilterValue.dateTime "2025-10-01".toList))] := by decide +kernel

/- line 141: test_greater_or_equal_date -/
example : checks [
    answers true (compareDateTime projectEnv (FieldValue.dateTime ⟨1759219200, 0, 7200⟩)
      FilterOperator.greaterOrEqual (FilterValue.dateTime "2025-09-30".toList))] := by decide +kernel

/- line 147: test_less_or_equal_date -/
example : checks [
    answers true (compareDateTime projectEnv (FieldValue.dateTime ⟨1759219200, 0, 7200⟩)
      FilterOperator.lessOrEqual (FilterValue.dateTime "2025-09-30".toList))] := by decide +kernel

/- line 153: test_not_equal_operator -/
example : checks [
    answers true (compareDateTime projectEnv (FieldValue.dateTime ⟨1759219200, 0, 7200⟩)
      FilterOperator.notEqual (FilterValue.dateTime "2025-10-01".toList))] := by decide +kernel

/- line 159: test_different_timezones_same_instant -/
example : checks [
    answers true (compareDateTime projectEnv (FieldValue.dateTime ⟨1759219200, 0, 7200⟩)
      FilterOperator.equal (FilterValue.dateTime "2025-09-30T08:00:00+00:00".toList))] := by decide +kernel

/- line 165: test_different_timezones_different_instant -/
example : checks [
    answers false (compareDateTime projectEnv (FieldValue.dateTime ⟨1759219200, 0, 7200⟩)
      FilterOperator.equal (FilterValue.dateTime "2025-09-30T10:00:00+01:00".toList))] := by decide +kernel

/- line 171: test_greater_than_full_datetime -/
example : checks [
    answers true (compareDateTime projectEnv (FieldValue.dateTime ⟨1759239000, 0, 7200⟩)
      FilterOperator.greaterThan (FilterValue.dateTime "2025-09-30T10:00:00+02:00".toList))] := by decide +kernel

/- line 177: test_less_than_full_datetime -/
example : checks [
    answers true (compareDateTime projectEnv (FieldValue.dateTime ⟨1759215600, 0, 7200⟩)
      FilterOperator.lessThan (FilterValue.dateTime "2025-09-30T10:00:00+02:00".toList))] := by decide +kernel

/- line 183: test_unsupported_operator_contains -/
example : checks [
    unsupported (compareDateTime projectEnv (FieldValue.dateTime ⟨1759219200, 0, 7200⟩)
      FilterOperator.contains (FilterValue.dateTime "2025-09-30".toList))] := by decide +kernel

/- line 190: test_invalid_date_format -/
example : checks [
    misdated (compareDateTime projectEnv (FieldValue.dateTime ⟨1759219200, 0, 7200⟩)
      FilterOperator.equal (FilterValue.dateTime "not a date".toList))] := by decide +kernel

/- line 197: test_invalid_date_values -/
example : checks [
    misdated (compareDateTime projectEnv (FieldValue.dateTime ⟨1759219200, 0, 7200⟩)
      FilterOperator.equal (FilterValue.dateTime "2025-13-45".toList))] := by decide +kernel

/- line 205: test_wrong_filter_type -/
example : checks [
    mismatched (compareDateTime projectEnv (FieldValue.dateTime ⟨1759219200, 0, 7200⟩)
      FilterOperator.equal (FilterValue.string "2025-09-30".toList))] := by decide +kernel

/- line 212: test_year_boundary -/
example : checks [
    answers true (compareDateTime projectEnv (FieldValue.dateTime ⟨1735689600, 0, 0⟩)
      FilterOperator.greaterThan (FilterValue.dateTime "2024-12-31".toList))] := by decide +kernel

/- line 218: test_leap_year_date -/
example : checks [
    answers true (compareDateTime projectEnv (FieldValue.dateTime ⟨1709208000, 0, 0⟩)
      FilterOperator.equal (FilterValue.dateTime "2024-02-29".toList))] := by decide +kernel

/-! ## firm_core/src/graph/query/filter/list.rs -/

/- line 109: test_list_contains_string -/
example : checks [
    answers true (compareList projectEnv (FieldValue.list [(FieldValue.string "apple".toList),
      (FieldValue.string "banana".toList), (FieldValue.string "cherry".toList)])
      FilterOperator.contains (FilterValue.string "banana".toList)),
    answers true (compareList projectEnv (FieldValue.list [(FieldValue.string "apple".toList),
      (FieldValue.string "banana".toList), (FieldValue.string "cherry".toList)])
      FilterOperator.contains (FilterValue.string "APPLE".toList)),
    answers false (compareList projectEnv (FieldValue.list [(FieldValue.string "apple".toList),
      (FieldValue.string "banana".toList), (FieldValue.string "cherry".toList)])
      FilterOperator.contains (FilterValue.string "grape".toList))] := by decide +kernel

/- line 134: test_list_contains_string_substring -/
example : checks [
    answers true (compareList projectEnv (FieldValue.list [(FieldValue.string
      "https://www.linkedin.com/in/johndoe/".toList), (FieldValue.string
      "https://twitter.com/johndoe".toList)]) FilterOperator.contains (FilterValue.string
      "linkedin".toList)),
    answers true (compareList projectEnv (FieldValue.list [(FieldValue.string
      "https://www.linkedin.com/in/johndoe/".toList), (FieldValue.string
      "https://twitter.com/johndoe".toList)]) FilterOperator.contains (FilterValue.string
      "TWITTER".toList)),
    answers false (compareList projectEnv (FieldValue.list [(FieldValue.string
      "https://www.linkedin.com/in/johndoe/".toList), (FieldValue.string
      "https://twitter.com/johndoe".toList)]) FilterOperator.contains (FilterValue.string
      "github".toList))] := by decide +kernel

/- line 159: test_list_contains_integer -/
example : checks [
    answers true (compareList projectEnv (FieldValue.list [(FieldValue.integer 1),
      (FieldValue.integer 2), (FieldValue.integer 3)]) FilterOperator.contains
      (FilterValue.integer 2)),
    answers false (compareList projectEnv (FieldValue.list [(FieldValue.integer 1),
      (FieldValue.integer 2), (FieldValue.integer 3)]) FilterOperator.contains
      (FilterValue.integer 5))] := by decide +kernel

/- line 179: test_list_contains_float -/
example : checks [
    answers true (compareList projectEnv (FieldValue.list [(FieldValue.float (F64.fin ((3 : Rat)
      / 2))), (FieldValue.float (F64.fin ((5 : Rat) / 2))), (FieldValue.float (F64.fin ((7 :
      Rat) / 2)))]) FilterOperator.contains (FilterValue.float (F64.fin ((5 : Rat) / 2)))),
    answers false (compareList projectEnv (FieldValue.list [(FieldValue.float (F64.fin ((3 :
      Rat) / 2))), (FieldValue.float (F64.fin ((5 : Rat) / 2))), (FieldValue.float (F64.fin ((7
      : Rat) / 2)))]) FilterOperator.contains (FilterValue.float (F64.fin ((9 : Rat) / 2))))] := by decide +kernel

/- line 199: test_list_contains_boolean -/
example : checks [
    answers true (compareList projectEnv (FieldValue.list [(FieldValue.boolean true),
      (FieldValue.boolean false)]) FilterOperator.contains (FilterValue.boolean true)),
    answers true (compareList projectEnv (FieldValue.list [(FieldValue.boolean true),
      (FieldValue.boolean false)]) FilterOperator.contains (FilterValue.boolean false))] := by decide +kernel

/- line 215: test_list_contains_currency -/
example : checks [
    answers true (compareList projectEnv (FieldValue.list [(FieldValue.currency ⟨10050, 2⟩
      "USD".toList), (FieldValue.currency ⟨20075, 2⟩ "USD".toList)]) FilterOperator.contains
      (FilterValue.currency (F64.fin ((201 : Rat) / 2)) "USD".toList)),
    answers false (compareList projectEnv (FieldValue.list [(FieldValue.currency ⟨10050, 2⟩
      "USD".toList), (FieldValue.currency ⟨20075, 2⟩ "USD".toList)]) FilterOperator.contains
      (FilterValue.currency (F64.fin ((201 : Rat) / 2)) "EUR".toList))] := by decide +kernel

/- line 248: test_list_contains_datetime -/
example : checks [
    answers true (compareList projectEnv (FieldValue.list [(FieldValue.dateTime ⟨1705314600, 0,
      0⟩), (FieldValue.dateTime ⟨1708440300, 0, 0⟩)]) FilterOperator.contains
      (FilterValue.dateTime "2024-01-15T10:30:00+00:00".toList)),
    answers false (compareList projectEnv (FieldValue.list [(FieldValue.dateTime ⟨1705314600, 0,
      0⟩), (FieldValue.dateTime ⟨1708440300, 0, 0⟩)]) FilterOperator.contains
      (FilterValue.dateTime "2024-03-01T00:00:00+00:00".toList))] := by decide +kernel

/- line 273: test_list_contains_reference -/
example : checks [
    answers true (compareList projectEnv (FieldValue.list [(FieldValue.reference
      (ReferenceValue.entity (asciiTable.snake "person.john".toList))), (FieldValue.reference
      (ReferenceValue.entity (asciiTable.snake "person.jane".toList)))]) FilterOperator.contains
      (FilterValue.reference "person.john".toList)),
    answers true (compareList projectEnv (FieldValue.list [(FieldValue.reference
      (ReferenceValue.entity (asciiTable.snake "person.john".toList))), (FieldValue.reference
      (ReferenceValue.entity (asciiTable.snake "person.jane".toList)))]) FilterOperator.contains
      (FilterValue.reference "PERSON.JOHN".toList)),
    answers false (compareList projectEnv (FieldValue.list [(FieldValue.reference
      (ReferenceValue.entity (asciiTable.snake "person.john".toList))), (FieldValue.reference
      (ReferenceValue.entity (asciiTable.snake "person.jane".toList)))]) FilterOperator.contains
      (FilterValue.reference "person.bob".toList))] := by decide +kernel

/- line 297: test_list_contains_enum -/
example : checks [
    answers true (compareList projectEnv (FieldValue.list [(FieldValue.enum "active".toList),
      (FieldValue.enum "pending".toList), (FieldValue.enum "completed".toList)])
      FilterOperator.contains (FilterValue.enum "pending".toList)),
    answers true (compareList projectEnv (FieldValue.list [(FieldValue.enum "active".toList),
      (FieldValue.enum "pending".toList), (FieldValue.enum "completed".toList)])
      FilterOperator.contains (FilterValue.enum "ACTIVE".toList)),
    answers false (compareList projectEnv (FieldValue.list [(FieldValue.enum "active".toList),
      (FieldValue.enum "pending".toList), (FieldValue.enum "completed".toList)])
      FilterOperator.contains (FilterValue.enum "cancelled".toList))] := by decide +kernel

/- line 322: test_list_contains_path -/
example : checks [
    answers true (compareList projectEnv (FieldValue.list [(FieldValue.path
      "/path/to/file1.txt".toList), (FieldValue.path "/path/to/file2.txt".toList)])
      FilterOperator.contains (FilterValue.path "/path/to/file1.txt".toList)),
    answers false (compareList projectEnv (FieldValue.list [(FieldValue.path
      "/path/to/file1.txt".toList), (FieldValue.path "/path/to/file2.txt".toList)])
      FilterOperator.contains (FilterValue.path "/path/to/file3.txt".toList))] := by decide +kernel

/- line 341: test_list_equal_strings -/
example : checks [
    answers true (compareList projectEnv (FieldValue.list [(FieldValue.string "apple".toList),
      (FieldValue.string "banana".toList)]) FilterOperator.equal (FilterValue.list
      [(FilterValue.string "apple".toList), (FilterValue.string "banana".toList)]))] := by decide +kernel

/- line 360: test_list_equal_case_insensitive -/
example : checks [
    answers true (compareList projectEnv (FieldValue.list [(FieldValue.string "apple".toList),
      (FieldValue.string "banana".toList)]) FilterOperator.equal (FilterValue.list
      [(FilterValue.string "APPLE".toList), (FilterValue.string "BANANA".toList)]))] := by decide +kernel

/- line 379: test_list_equal_different_order -/
example : checks [
    answers false (compareList projectEnv (FieldValue.list [(FieldValue.string "apple".toList),
      (FieldValue.string "banana".toList)]) FilterOperator.equal (FilterValue.list
      [(FilterValue.string "banana".toList), (FilterValue.string "apple".toList)]))] := by decide +kernel

/- line 399: test_list_equal_different_length -/
example : checks [
    answers false (compareList projectEnv (FieldValue.list [(FieldValue.string "apple".toList),
      (FieldValue.string "banana".toList)]) FilterOperator.equal (FilterValue.list
      [(FilterValue.string "apple".toList)]))] := by decide +kernel

/- line 415: test_list_equal_integers -/
example : checks [
    answers true (compareList projectEnv (FieldValue.list [(FieldValue.integer 1),
      (FieldValue.integer 2), (FieldValue.integer 3)]) FilterOperator.equal (FilterValue.list
      [(FilterValue.integer 1), (FilterValue.integer 2), (FilterValue.integer 3)]))] := by decide +kernel

/- line 436: test_list_equal_floats -/
example : checks [
    answers true (compareList projectEnv (FieldValue.list [(FieldValue.float (F64.fin ((3 : Rat)
      / 2))), (FieldValue.float (F64.fin ((5 : Rat) / 2)))]) FilterOperator.equal
      (FilterValue.list [(FilterValue.float (F64.fin ((3 : Rat) / 2))), (FilterValue.float
      (F64.fin ((5 : Rat) / 2)))]))] := by decide +kernel

/- line 449: test_list_equal_booleans -/
example : checks [
    answers true (compareList projectEnv (FieldValue.list [(FieldValue.boolean true),
      (FieldValue.boolean false)]) FilterOperator.equal (FilterValue.list [(FilterValue.boolean
      true), (FilterValue.boolean false)]))] := by decide +kernel

/- line 462: test_list_equal_currency -/
example : checks [
    answers true (compareList projectEnv (FieldValue.list [(FieldValue.currency ⟨10050, 2⟩
      "USD".toList), (FieldValue.currency ⟨20075, 2⟩ "USD".toList)]) FilterOperator.equal
      (FilterValue.list [(FilterValue.currency (F64.fin ((201 : Rat) / 2)) "USD".toList),
      (FilterValue.currency (F64.fin ((803 : Rat) / 4)) "USD".toList)]))] := by decide +kernel

/- line 493: test_list_equal_datetime -/
example : checks [
    answers true (compareList projectEnv (FieldValue.list [(FieldValue.dateTime ⟨1705314600, 0,
      0⟩), (FieldValue.dateTime ⟨1708440300, 0, 0⟩)]) FilterOperator.equal (FilterValue.list
      [(FilterValue.dateTime "2024-01-15T10:30:00+00:00".toList), (FilterValue.dateTime
      "2024-02-20T14:45:00+00:00".toList)]))] := by decide +kernel

/- line 518: test_list_equal_references -/
example : checks [
    answers true (compareList projectEnv (FieldValue.list [(FieldValue.reference
      (ReferenceValue.entity (asciiTable.snake "person.john".toList))), (FieldValue.reference
      (ReferenceValue.entity (asciiTable.snake "person.jane".toList)))]) FilterOperator.equal
      (FilterValue.list [(FilterValue.reference "person.john".toList), (FilterValue.reference
      "person.jane".toList)]))] := by decide +kernel

/- line 537: test_list_equal_mixed_types -/
example : checks [
    answers true (compareList projectEnv (FieldValue.list [(FieldValue.string "test".toList),
      (FieldValue.integer 42), (FieldValue.boolean true)]) FilterOperator.equal
      (FilterValue.list [(FilterValue.string "test".toList), (FilterValue.integer 42),
      (FilterValue.boolean true)]))] := by decide +kernel

/- line 558: test_list_equal_type_mismatch -/
example : checks [
    mismatched (compareList projectEnv (FieldValue.list [(FieldValue.string "42".toList),
      (FieldValue.integer 100)]) FilterOperator.equal (FilterValue.list [(FilterValue.integer
      42), (FilterValue.integer 100)]))] := by decide +kernel

/- line 579: test_list_contains_empty_list -/
example : checks [
    answers false (compareList projectEnv (FieldValue.list []) FilterOperator.contains
      (FilterValue.string "test".toList))] := by decide +kernel

/- line 590: test_list_equal_empty_lists -/
example : checks [
    answers true (compareList projectEnv (FieldValue.list []) FilterOperator.equal
      (FilterValue.list []))] := by decide +kernel

/- line 602: test_list_unsupported_operator -/
example : checks [
    unsupported (compareList projectEnv (FieldValue.list [(FieldValue.string "apple".toList)])
      FilterOperator.greaterThan (FilterValue.string "apple".toList)),
    unsupported (compareList projectEnv (FieldValue.list [(FieldValue.string "apple".toList)])
      FilterOperator.lessThan (FilterValue.string "apple".toList))] := by decide +kernel

/- line 622: test_list_contains_cross_type_numeric -/
example : checks [
    answers true (compareList projectEnv (FieldValue.list [(FieldValue.integer 42),
      (FieldValue.integer 100)]) FilterOperator.contains (FilterValue.float (F64.fin 42))),
    answers false (compareList projectEnv (FieldValue.list [(FieldValue.integer 42),
      (FieldValue.integer 100)]) FilterOperator.contains (FilterValue.float (F64.fin 43)))] := by decide +kernel

/- line 639: test_list_equal_cross_type_numeric -/
example : checks [
    answers true (compareList projectEnv (FieldValue.list [(FieldValue.integer 42),
      (FieldValue.float (F64.fin ((7070651414971679 : Rat) / 2251799813685248)))])
      FilterOperator.equal (FilterValue.list [(FilterValue.float (F64.fin 42)),
      (FilterValue.float (F64.fin ((7070651414971679 : Rat) / 2251799813685248)))]))] := by decide +kernel

/- line 655: test_list_contains_nested_list_not_supported -/
example : checks [
    answers false (compareList projectEnv (FieldValue.list [(FieldValue.list [(FieldValue.string
      "inner".toList)])]) FilterOperator.contains (FilterValue.string "inner".toList))] := by decide +kernel

/-! ## firm_core/src/graph/query/filter/mod.rs -/

/- line 147: test_compound_condition_single -/
example : checks [
    answers true ((CompoundCondition.single ⟨(FieldRef.regular (asciiTable.snake
      "name".toList)), FilterOperator.equal, (FilterValue.string "Alice".toList)⟩).matches
      projectEnv ⟨(asciiTable.snake "test".toList), (asciiTable.snake "person".toList),
      [((asciiTable.snake "name".toList), (FieldValue.string "Alice".toList)),
      ((asciiTable.snake "age".toList), (FieldValue.integer 30)), ((asciiTable.snake
      "active".toList), (FieldValue.boolean true))]⟩)] := by decide +kernel

/- line 159: test_compound_condition_and_all_match -/
example : checks [
    answers true ((⟨[⟨(FieldRef.regular (asciiTable.snake "name".toList)), FilterOperator.equal,
      (FilterValue.string "Alice".toList)⟩, ⟨(FieldRef.regular (asciiTable.snake "age".toList)),
      FilterOperator.greaterThan, (FilterValue.integer 25)⟩], Combinator.and⟩ :
      CompoundCondition).matches projectEnv ⟨(asciiTable.snake "test".toList), (asciiTable.snake
      "person".toList), [((asciiTable.snake "name".toList), (FieldValue.string "Alice".toList)),
      ((asciiTable.snake "age".toList), (FieldValue.integer 30)), ((asciiTable.snake
      "active".toList), (FieldValue.boolean true))]⟩)] := by decide +kernel

/- line 181: test_compound_condition_and_one_fails -/
example : checks [
    answers false ((⟨[⟨(FieldRef.regular (asciiTable.snake "name".toList)),
      FilterOperator.equal, (FilterValue.string "Alice".toList)⟩, ⟨(FieldRef.regular
      (asciiTable.snake "age".toList)), FilterOperator.greaterThan, (FilterValue.integer 35)⟩],
      Combinator.and⟩ : CompoundCondition).matches projectEnv ⟨(asciiTable.snake "test".toList),
      (asciiTable.snake "person".toList), [((asciiTable.snake "name".toList), (FieldValue.string
      "Alice".toList)), ((asciiTable.snake "age".toList), (FieldValue.integer 30)),
      ((asciiTable.snake "active".toList), (FieldValue.boolean true))]⟩)] := by decide +kernel

/- line 203: test_compound_condition_or_one_matches -/
example : checks [
    answers true ((⟨[⟨(FieldRef.regular (asciiTable.snake "name".toList)), FilterOperator.equal,
      (FilterValue.string "Bob".toList)⟩, ⟨(FieldRef.regular (asciiTable.snake "age".toList)),
      FilterOperator.equal, (FilterValue.integer 30)⟩], Combinator.or⟩ :
      CompoundCondition).matches projectEnv ⟨(asciiTable.snake "test".toList), (asciiTable.snake
      "person".toList), [((asciiTable.snake "name".toList), (FieldValue.string "Alice".toList)),
      ((asciiTable.snake "age".toList), (FieldValue.integer 30)), ((asciiTable.snake
      "active".toList), (FieldValue.boolean true))]⟩)] := by decide +kernel

/- line 225: test_compound_condition_or_none_match -/
example : checks [
    answers false ((⟨[⟨(FieldRef.regular (asciiTable.snake "name".toList)),
      FilterOperator.equal, (FilterValue.string "Bob".toList)⟩, ⟨(FieldRef.regular
      (asciiTable.snake "age".toList)), FilterOperator.equal, (FilterValue.integer 25)⟩],
      Combinator.or⟩ : CompoundCondition).matches projectEnv ⟨(asciiTable.snake "test".toList),
      (asciiTable.snake "person".toList), [((asciiTable.snake "name".toList), (FieldValue.string
      "Alice".toList)), ((asciiTable.snake "age".toList), (FieldValue.integer 30)),
      ((asciiTable.snake "active".toList), (FieldValue.boolean true))]⟩)] := by decide +kernel

/- line 247: test_compound_condition_or_multiple_values_same_field -/
example : checks [
    answers true ((⟨[⟨(FieldRef.regular (asciiTable.snake "name".toList)), FilterOperator.equal,
      (FilterValue.string "Alice".toList)⟩, ⟨(FieldRef.regular (asciiTable.snake
      "name".toList)), FilterOperator.equal, (FilterValue.string "Bob".toList)⟩], Combinator.or⟩
      : CompoundCondition).matches projectEnv ⟨(asciiTable.snake "test".toList),
      (asciiTable.snake "person".toList), [((asciiTable.snake "name".toList), (FieldValue.string
      "Alice".toList)), ((asciiTable.snake "age".toList), (FieldValue.integer 30)),
      ((asciiTable.snake "active".toList), (FieldValue.boolean true))]⟩)] := by decide +kernel

/-! ## firm_core/src/graph/query/filter/numeric.rs -/

/- line 116: test_integer_equal_integer -/
example : checks [
    answers true (compareInteger (FieldValue.integer 42) FilterOperator.equal
      (FilterValue.integer 42))] := by decide +kernel

/- line 121: test_integer_not_equal_integer -/
example : checks [
    answers false (compareInteger (FieldValue.integer 42) FilterOperator.equal
      (FilterValue.integer 100))] := by decide +kernel

/- line 126: test_integer_greater_than -/
example : checks [
    answers true (compareInteger (FieldValue.integer 100) FilterOperator.greaterThan
      (FilterValue.integer 50))] := by decide +kernel

/- line 131: test_integer_less_than -/
example : checks [
    answers true (compareInteger (FieldValue.integer 50) FilterOperator.lessThan
      (FilterValue.integer 100))] := by decide +kernel

/- line 136: test_integer_greater_or_equal -/
example : checks [
    answers true (compareInteger (FieldValue.integer 100) FilterOperator.greaterOrEqual
      (FilterValue.integer 100)),
    answers true (compareInteger (FieldValue.integer 100) FilterOperator.greaterOrEqual
      (FilterValue.integer 50))] := by decide +kernel

/- line 142: test_integer_less_or_equal -/
example : checks [
    answers true (compareInteger (FieldValue.integer 100) FilterOperator.lessOrEqual
      (FilterValue.integer 100)),
    answers true (compareInteger (FieldValue.integer 50) FilterOperator.lessOrEqual
      (FilterValue.integer 100))] := by decide +kernel

/- line 148: test_integer_not_equal_operator -/
example : checks [
    answers true (compareInteger (FieldValue.integer 42) FilterOperator.notEqual
      (FilterValue.integer 100)),
    answers false (compareInteger (FieldValue.integer 42) FilterOperator.notEqual
      (FilterValue.integer 42))] := by decide +kernel

/- line 156: test_integer_equal_float -/
example : checks [
    answers true (compareInteger (FieldValue.integer 42) FilterOperator.equal (FilterValue.float
      (F64.fin 42)))] := by decide +kernel

/- line 161: test_integer_not_equal_float_with_decimal -/
example : checks [
    answers false (compareInteger (FieldValue.integer 42) FilterOperator.equal
      (FilterValue.float (F64.fin ((85 : Rat) / 2))))] := by decide +kernel

/- line 166: test_integer_greater_than_float -/
example : checks [
    answers true (compareInteger (FieldValue.integer 100) FilterOperator.greaterThan
      (FilterValue.float (F64.fin ((101 : Rat) / 2))))] := by decide +kernel

/- line 171: test_integer_less_than_float -/
example : checks [
    answers true (compareInteger (FieldValue.integer 50) FilterOperator.lessThan
      (FilterValue.float (F64.fin ((201 : Rat) / 2))))] := by decide +kernel

/- line 176: test_integer_greater_or_equal_float -/
example : checks [
    answers true (compareInteger (FieldValue.integer 100) FilterOperator.greaterOrEqual
      (FilterValue.float (F64.fin 100))),
    answers true (compareInteger (FieldValue.integer 100) FilterOperator.greaterOrEqual
      (FilterValue.float (F64.fin ((101 : Rat) / 2))))] := by decide +kernel

/- line 182: test_integer_less_or_equal_float -/
example : checks [
    answers true (compareInteger (FieldValue.integer 100) FilterOperator.lessOrEqual
      (FilterValue.float (F64.fin 100))),
    answers true (compareInteger (FieldValue.integer 50) FilterOperator.lessOrEqual
      (FilterValue.float (F64.fin ((201 : Rat) / 2))))] := by decide +kernel

/- line 190: test_float_equal_float -/
example : checks [
    answers true (compareFloat (FieldValue.float (F64.fin ((85 : Rat) / 2)))
      FilterOperator.equal (FilterValue.float (F64.fin ((85 : Rat) / 2))))] := by decide +kernel

/- line 195: test_float_not_equal_float -/
example : checks [
    answers false (compareFloat (FieldValue.float (F64.fin ((85 : Rat) / 2)))
      FilterOperator.equal (FilterValue.float (F64.fin ((201 : Rat) / 2))))] := by decide +kernel

/- line 200: test_float_greater_than -/
example : checks [
    answers true (compareFloat (FieldValue.float (F64.fin ((201 : Rat) / 2)))
      FilterOperator.greaterThan (FilterValue.float (F64.fin ((101 : Rat) / 2))))] := by decide +kernel

/- line 205: test_float_less_than -/
example : checks [
    answers true (compareFloat (FieldValue.float (F64.fin ((101 : Rat) / 2)))
      FilterOperator.lessThan (FilterValue.float (F64.fin ((201 : Rat) / 2))))] := by decide +kernel

/- line 210: test_float_greater_or_equal -/
example : checks [
    answers true (compareFloat (FieldValue.float (F64.fin ((201 : Rat) / 2)))
      FilterOperator.greaterOrEqual (FilterValue.float (F64.fin ((201 : Rat) / 2)))),
    answers true (compareFloat (FieldValue.float (F64.fin ((201 : Rat) / 2)))
      FilterOperator.greaterOrEqual (FilterValue.float (F64.fin ((101 : Rat) / 2))))] := by decide +kernel

/- line 216: test_float_less_or_equal -/
example : checks [
    answers true (compareFloat (FieldValue.float (F64.fin ((201 : Rat) / 2)))
      FilterOperator.lessOrEqual (FilterValue.float (F64.fin ((201 : Rat) / 2)))),
    answers true (compareFloat (FieldValue.float (F64.fin ((101 : Rat) / 2)))
      FilterOperator.lessOrEqual (FilterValue.float (F64.fin ((201 : Rat) / 2))))] := by decide +kernel

/- line 222: test_float_not_equal_operator -/
example : checks [
    answers true (compareFloat (FieldValue.float (F64.fin ((85 : Rat) / 2)))
      FilterOperator.notEqual (FilterValue.float (F64.fin ((201 : Rat) / 2)))),
    answers false (compareFloat (FieldValue.float (F64.fin ((85 : Rat) / 2)))
      FilterOperator.notEqual (FilterValue.float (F64.fin ((85 : Rat) / 2))))] := by decide +kernel

/- line 230: test_float_equal_integer -/
example : checks [
    answers true (compareFloat (FieldValue.float (F64.fin 42)) FilterOperator.equal
      (FilterValue.integer 42))] := by decide +kernel

/- line 235: test_float_not_equal_integer_with_decimal -/
example : checks [
    answers false (compareFloat (FieldValue.float (F64.fin ((85 : Rat) / 2)))
      FilterOperator.equal (FilterValue.integer 42))] := by decide +kernel

/- line 240: test_float_greater_than_integer -/
example : checks [
    answers true (compareFloat (FieldValue.float (F64.fin ((201 : Rat) / 2)))
      FilterOperator.greaterThan (FilterValue.integer 50))] := by decide +kernel

/- line 245: test_float_less_than_integer -/
example : checks [
    answers true (compareFloat (FieldValue.float (F64.fin ((101 : Rat) / 2)))
      FilterOperator.lessThan (FilterValue.integer 100))] := by decide +kernel

/- line 250: test_float_greater_or_equal_integer -/
example : checks [
    answers true (compareFloat (FieldValue.float (F64.fin 100)) FilterOperator.greaterOrEqual
      (FilterValue.integer 100)),
    answers true (compareFloat (FieldValue.float (F64.fin ((201 : Rat) / 2)))
      FilterOperator.greaterOrEqual (FilterValue.integer 50))] := by decide +kernel

/- line 256: test_float_less_or_equal_integer -/
example : checks [
    answers true (compareFloat (FieldValue.float (F64.fin 100)) FilterOperator.lessOrEqual
      (FilterValue.integer 100)),
    answers true (compareFloat (FieldValue.float (F64.fin ((101 : Rat) / 2)))
      FilterOperator.lessOrEqual (FilterValue.integer 100))] := by decide +kernel

/- line 264: test_float_precision -/
example : checks [
    answers true (compareFloat (FieldValue.float (F64.fin 1)) FilterOperator.equal
      (FilterValue.float (F64.fin 1)))] := by decide +kernel

/- line 270: test_integer_unsupported_operator -/
example : checks [
    unsupported (compareInteger (FieldValue.integer 42) FilterOperator.contains
      (FilterValue.integer 42))] := by decide +kernel

/- line 276: test_float_unsupported_operator -/
example : checks [
    unsupported (compareFloat (FieldValue.float (F64.fin ((85 : Rat) / 2)))
      FilterOperator.contains (FilterValue.float (F64.fin ((85 : Rat) / 2))))] := by decide +kernel

/- line 282: test_integer_wrong_filter_type -/
example : checks [
    mismatched (compareInteger (FieldValue.integer 42) FilterOperator.equal (FilterValue.string
      "42".toList))] := by decide +kernel

/- line 288: test_float_wrong_filter_type -/
example : checks [
    mismatched (compareFloat (FieldValue.float (F64.fin ((85 : Rat) / 2))) FilterOperator.equal
      (FilterValue.string "42.5".toList))] := by decide +kernel

/- line 294: test_large_integers -/
example : checks [
    answers true (compareInteger (FieldValue.integer 9223372036854775807) FilterOperator.equal
      (FilterValue.integer 9223372036854775807)),
    answers true (compareInteger (FieldValue.integer (-9223372036854775808))
      FilterOperator.equal (FilterValue.integer (-9223372036854775808)))] := by decide +kernel

/-! ## firm_core/src/graph/query/filter/reference.rs -/

/- line 79: test_entity_reference_equal_with_reference_value -/
example : checks [
    answers true (compareReference (FieldValue.reference (ReferenceValue.entity
      (asciiTable.snake "person.john_doe".toList))) FilterOperator.equal (FilterValue.reference
      "person.john_doe".toList))] := by decide +kernel

/- line 90: test_entity_reference_equal_with_string_value -/
example : checks [
    answers true (compareReference (FieldValue.reference (ReferenceValue.entity
      (asciiTable.snake "person.john_doe".toList))) FilterOperator.equal (FilterValue.string
      "person.john_doe".toList))] := by decide +kernel

/- line 101: test_entity_reference_not_equal -/
example : checks [
    answers false (compareReference (FieldValue.reference (ReferenceValue.entity
      (asciiTable.snake "person.john_doe".toList))) FilterOperator.equal (FilterValue.reference
      "person.jane_smith".toList))] := by decide +kernel

/- line 112: test_entity_reference_case_insensitive -/
example : checks [
    answers true (compareReference (FieldValue.reference (ReferenceValue.entity
      (asciiTable.snake "person.john_doe".toList))) FilterOperator.equal (FilterValue.reference
      "PERSON.JOHN_DOE".toList))] := by decide +kernel

/- line 123: test_field_reference_equal -/
example : checks [
    answers true (compareReference (FieldValue.reference (ReferenceValue.field (asciiTable.snake
      "person.john_doe".toList) (asciiTable.snake "name".toList))) FilterOperator.equal
      (FilterValue.reference "person.john_doe.name".toList))] := by decide +kernel

/- line 134: test_field_reference_equal_with_string -/
example : checks [
    answers true (compareReference (FieldValue.reference (ReferenceValue.field (asciiTable.snake
      "person.john_doe".toList) (asciiTable.snake "email".toList))) FilterOperator.equal
      (FilterValue.string "person.john_doe.email".toList))] := by decide +kernel

/- line 145: test_field_reference_not_equal -/
example : checks [
    answers false (compareReference (FieldValue.reference (ReferenceValue.field
      (asciiTable.snake "person.john_doe".toList) (asciiTable.snake "name".toList)))
      FilterOperator.equal (FilterValue.reference "person.john_doe.email".toList))] := by decide +kernel

/- line 156: test_field_reference_case_insensitive -/
example : checks [
    answers true (compareReference (FieldValue.reference (ReferenceValue.field (asciiTable.snake
      "person.john_doe".toList) (asciiTable.snake "name".toList))) FilterOperator.equal
      (FilterValue.reference "PERSON.JOHN_DOE.NAME".toList))] := by decide +kernel

/- line 167: test_entity_vs_field_reference_not_equal -/
example : checks [
    answers false (compareReference (FieldValue.reference (ReferenceValue.entity
      (asciiTable.snake "person.john_doe".toList))) FilterOperator.equal (FilterValue.reference
      "person.john_doe.name".toList))] := by decide +kernel

/- line 179: test_not_equal_operator -/
example : checks [
    answers true (compareReference (FieldValue.reference (ReferenceValue.entity
      (asciiTable.snake "person.john_doe".toList))) FilterOperator.notEqual
      (FilterValue.reference "person.jane_smith".toList))] := by decide +kernel

/- line 190: test_not_equal_operator_with_same_reference -/
example : checks [
    answers false (compareReference (FieldValue.reference (ReferenceValue.entity
      (asciiTable.snake "person.john_doe".toList))) FilterOperator.notEqual
      (FilterValue.reference "person.john_doe".toList))] := by decide +kernel

/- line 201: test_unsupported_operator_greater_than -/
example : checks [
    unsupported (compareReference (FieldValue.reference (ReferenceValue.entity (asciiTable.snake
      "person.john_doe".toList))) FilterOperator.greaterThan (FilterValue.reference
      "person.john_doe".toList))] := by decide +kernel

/- line 212: test_unsupported_operator_less_than -/
example : checks [
    unsupported (compareReference (FieldValue.reference (ReferenceValue.entity (asciiTable.snake
      "person.john_doe".toList))) FilterOperator.lessThan (FilterValue.reference
      "person.john_doe".toList))] := by decide +kernel

/- line 223: test_unsupported_operator_contains -/
example : checks [
    unsupported (compareReference (FieldValue.reference (ReferenceValue.entity (asciiTable.snake
      "person.john_doe".toList))) FilterOperator.contains (FilterValue.reference "john".toList))] := by decide +kernel

/- line 234: test_wrong_filter_type_integer -/
example : checks [
    mismatched (compareReference (FieldValue.reference (ReferenceValue.entity (asciiTable.snake
      "person.john_doe".toList))) FilterOperator.equal (FilterValue.integer 42))] := by decide +kernel

/- line 241: test_wrong_filter_type_boolean -/
example : checks [
    mismatched (compareReference (FieldValue.reference (ReferenceValue.entity (asciiTable.snake
      "person.john_doe".toList))) FilterOperator.equal (FilterValue.boolean true))] := by decide +kernel

/-! ## firm_core/src/graph/query/filter/string.rs -/

/- line 132: test_equal_exact_match -/
example : checks [
    answers true (compareString projectEnv (FieldValue.string "hello".toList)
      FilterOperator.equal (FilterValue.string "hello".toList))] := by decide +kernel

/- line 138: test_equal_case_insensitive -/
example : checks [
    answers true (compareString projectEnv (FieldValue.string "Hello".toList)
      FilterOperator.equal (FilterValue.string "hello".toList)),
    answers true (compareString projectEnv (FieldValue.string "HELLO".toList)
      FilterOperator.equal (FilterValue.string "hello".toList)),
    answers true (compareString projectEnv (FieldValue.string "hello".toList)
      FilterOperator.equal (FilterValue.string "HELLO".toList))] := by decide +kernel

/- line 145: test_not_equal -/
example : checks [
    answers false (compareString projectEnv (FieldValue.string "hello".toList)
      FilterOperator.equal (FilterValue.string "world".toList))] := by decide +kernel

/- line 150: test_not_equal_operator -/
example : checks [
    answers true (compareString projectEnv (FieldValue.string "hello".toList)
      FilterOperator.notEqual (FilterValue.string "world".toList)),
    answers false (compareString projectEnv (FieldValue.string "hello".toList)
      FilterOperator.notEqual (FilterValue.string "hello".toList))] := by decide +kernel

/- line 156: test_contains -/
example : checks [
    answers true (compareString projectEnv (FieldValue.string "hello world".toList)
      FilterOperator.contains (FilterValue.string "world".toList)),
    answers true (compareString projectEnv (FieldValue.string "hello world".toList)
      FilterOperator.contains (FilterValue.string "hello".toList)),
    answers true (compareString projectEnv (FieldValue.string "hello world".toList)
      FilterOperator.contains (FilterValue.string "lo wo".toList))] := by decide +kernel

/- line 163: test_contains_case_insensitive -/
example : checks [
    answers true (compareString projectEnv (FieldValue.string "Hello World".toList)
      FilterOperator.contains (FilterValue.string "world".toList)),
    answers true (compareString projectEnv (FieldValue.string "hello world".toList)
      FilterOperator.contains (FilterValue.string "WORLD".toList))] := by decide +kernel

/- line 169: test_contains_not_found -/
example : checks [
    answers false (compareString projectEnv (FieldValue.string "hello world".toList)
      FilterOperator.contains (FilterValue.string "goodbye".toList))] := by decide +kernel

/- line 174: test_starts_with -/
example : checks [
    answers true (compareString projectEnv (FieldValue.string "hello world".toList)
      FilterOperator.startsWith (FilterValue.string "hello".toList))] := by decide +kernel

/- line 179: test_starts_with_case_insensitive -/
example : checks [
    answers true (compareString projectEnv (FieldValue.string "Hello World".toList)
      FilterOperator.startsWith (FilterValue.string "hello".toList)),
    answers true (compareString projectEnv (FieldValue.string "hello world".toList)
      FilterOperator.startsWith (FilterValue.string "HELLO".toList))] := by decide +kernel

/- line 185: test_starts_with_not_match -/
example : checks [
    answers false (compareString projectEnv (FieldValue.string "hello world".toList)
      FilterOperator.startsWith (FilterValue.string "world".toList))] := by decide +kernel

/- line 190: test_ends_with -/
example : checks [
    answers true (compareString projectEnv (FieldValue.string "hello world".toList)
      FilterOperator.endsWith (FilterValue.string "world".toList))] := by decide +kernel

/- line 195: test_ends_with_case_insensitive -/
example : checks [
    answers true (compareString projectEnv (FieldValue.string "Hello World".toList)
      FilterOperator.endsWith (FilterValue.string "world".toList)),
    answers true (compareString projectEnv (FieldValue.string "hello world".toList)
      FilterOperator.endsWith (FilterValue.string "WORLD".toList))] := by decide +kernel

/- line 201: test_ends_with_not_match -/
example : checks [
    answers false (compareString projectEnv (FieldValue.string "hello world".toList)
      FilterOperator.endsWith (FilterValue.string "hello".toList))] := by decide +kernel

/- line 208: test_equal_with_enum_filter -/
example : checks [
    answers true (compareString projectEnv (FieldValue.enum "Active".toList)
      FilterOperator.equal (FilterValue.enum "Active".toList))] := by decide +kernel

/- line 213: test_equal_enum_case_insensitive -/
example : checks [
    answers true (compareString projectEnv (FieldValue.enum "Active".toList)
      FilterOperator.equal (FilterValue.enum "active".toList))] := by decide +kernel

/- line 218: test_contains_with_enum_filter -/
example : checks [
    answers true (compareString projectEnv (FieldValue.enum "IsActive".toList)
      FilterOperator.contains (FilterValue.enum "Active".toList))] := by decide +kernel

/- line 225: test_equal_with_path_filter -/
example : checks [
    answers true (compareString projectEnv (FieldValue.string "./docs/file.txt".toList)
      FilterOperator.equal (FilterValue.path "./docs/file.txt".toList))] := by decide +kernel

/- line 230: test_equal_path_case_insensitive -/
example : checks [
    answers true (compareString projectEnv (FieldValue.string "./Docs/File.txt".toList)
      FilterOperator.equal (FilterValue.path "./docs/file.txt".toList))] := by decide +kernel

/- line 235: test_contains_with_path_filter -/
example : checks [
    answers true (compareString projectEnv (FieldValue.string "./docs/my_file.txt".toList)
      FilterOperator.contains (FilterValue.path "my_file".toList))] := by decide +kernel

/- line 240: test_starts_with_path -/
example : checks [
    answers true (compareString projectEnv (FieldValue.string "./docs/file.txt".toList)
      FilterOperator.startsWith (FilterValue.path "./docs".toList))] := by decide +kernel

/- line 245: test_ends_with_path_extension -/
example : checks [
    answers true (compareString projectEnv (FieldValue.string "./docs/file.txt".toList)
      FilterOperator.endsWith (FilterValue.path ".txt".toList))] := by decide +kernel

/- line 252: test_empty_string_equal -/
example : checks [
    answers true (compareString projectEnv (FieldValue.string "".toList) FilterOperator.equal
      (FilterValue.string "".toList))] := by decide +kernel

/- line 257: test_empty_string_not_equal_nonempty -/
example : checks [
    answers false (compareString projectEnv (FieldValue.string "".toList) FilterOperator.equal
      (FilterValue.string "hello".toList))] := by decide +kernel

/- line 262: test_contains_empty_string -/
example : checks [
    answers true (compareString projectEnv (FieldValue.string "hello".toList)
      FilterOperator.contains (FilterValue.string "".toList))] := by decide +kernel

/- line 268: test_special_characters -/
example : checks [
    answers true (compareString projectEnv (FieldValue.string "hello@world.com".toList)
      FilterOperator.equal (FilterValue.string "hello@world.com".toList)),
    answers true (compareString projectEnv (FieldValue.string "hello@world.com".toList)
      FilterOperator.contains (FilterValue.string "@".toList))] := by decide +kernel

/- line 274: test_unicode_characters -/
example : checks [
    answers true (compareString projectEnv (FieldValue.string "café".toList)
      FilterOperator.equal (FilterValue.string "café".toList)),
    answers true (compareString projectEnv (FieldValue.string "こんにちは".toList)
      FilterOperator.contains (FilterValue.string "にち".toList))] := by decide +kernel

/- line 280: test_whitespace -/
example : checks [
    answers true (compareString projectEnv (FieldValue.string "hello world".toList)
      FilterOperator.equal (FilterValue.string "hello world".toList)),
    answers true (compareString projectEnv (FieldValue.string "hello world".toList)
      FilterOperator.contains (FilterValue.string " ".toList))] := by decide +kernel

/- line 286: test_multiline_string -/
example : checks [
    answers true (compareString projectEnv (FieldValue.string "hello\nworld".toList)
      FilterOperator.contains (FilterValue.string "world".toList))] := by decide +kernel

/- line 291: test_unsupported_operator_greater_than -/
example : checks [
    unsupported (compareString projectEnv (FieldValue.string "hello".toList)
      FilterOperator.greaterThan (FilterValue.string "hello".toList))] := by decide +kernel

/- line 297: test_unsupported_operator_less_than -/
example : checks [
    unsupported (compareString projectEnv (FieldValue.string "hello".toList)
      FilterOperator.lessThan (FilterValue.string "hello".toList))] := by decide +kernel

/- line 303: test_wrong_filter_type_integer -/
example : checks [
    mismatched (compareString projectEnv (FieldValue.string "42".toList) FilterOperator.equal
      (FilterValue.integer 42))] := by decide +kernel

/- line 309: test_wrong_filter_type_boolean -/
example : checks [
    mismatched (compareString projectEnv (FieldValue.string "true".toList) FilterOperator.equal
      (FilterValue.boolean true))] := by decide +kernel

end Firm.Conformance
