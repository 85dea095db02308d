import Verif.Conformance.Basic
import Verif.Model.QueryText

/-!
# The project's tests of query texts
-/

namespace Firm.Conformance

/-- `str::parse::<f64>()` on the numbers of the tests. -/
def queryLang : Lang :=
  { projectLang with
    parseF64 := fun s => if s = "5000.50".toList then some (.fin (10001 / 2)) else
      (parseNat s).map fun n => F64.ofInt n }

/-- A text parses, and the result satisfies `p`. -/
def parsesTo (s : String) (p : ParsedQuery → Bool) : Bool :=
  match parseQuery queryLang s.toList with
  | .ok q => p q
  | .error _ => false

/-- A text parses and converts, and the query satisfies `p`. -/
def convertsTo (s : String) (p : Query → Bool) : Bool :=
  parsesTo s fun q => p (convertQuery queryLang.cases q)

/-- The only condition of the first operation. -/
def firstValue (q : ParsedQuery) : Option ParsedQueryValue :=
  match q.operations with
  | .where [c] _ :: _ => some c.value
  | _ => none

/-- Number of conditions and combinator of the first operation. -/
def shapeOf (q : ParsedQuery) : Option (Nat × Combinator) :=
  match q.operations with
  | .where cs k :: _ => some (cs.length, k)
  | _ => none

/-! ## firm_lang/tests/parser_query_tests.rs -/

/- test_parse_simple_query -/
example : checks [parsesTo "from task | where is_completed == false | limit 5" fun q =>
    q.source == .type "task".toList && q.operations.length == 2] := by decide +kernel
/- test_parse_wildcard -/
example : checks [parsesTo "from * | where @type == \"task\"" fun q => q.source == .wildcard] := by
  decide +kernel
/- test_parse_related_with_degree -/
example : checks [parsesTo "from project | related(2) task" fun q =>
    match q.operations with
    | [.related d s] => d == some 2 && s == some (.type "task".toList)
    | _ => false] := by decide +kernel
/- test_parse_order_with_direction -/
example : checks [parsesTo "from task | order due_date desc" fun q =>
    match q.operations with
    | [.order f d] => f == .regular "due_date".toList && d == .descending
    | _ => false] := by decide +kernel
/- test_parse_currency_value -/
example : checks [parsesTo "from project | where budget == 5000.50 USD" fun q =>
    match firstValue q with
    | some (.currency a c) => a == .fin (10001 / 2) && c == "USD".toList
    | _ => false] := by decide +kernel
/- test_parse_datetime_value -/
example : checks [parsesTo "from task | where created > 2025-01-15" fun q =>
    match firstValue q with
    | some (.dateTime t) => t == "2025-01-15".toList
    | _ => false] := by decide +kernel
/- test_parse_reference_value -/
example : checks [parsesTo "from task | where assignee == person.john_doe" fun q =>
    match firstValue q with
    | some (.reference t) => t == "person.john_doe".toList
    | _ => false] := by decide +kernel
/- test_parse_enum_value -/
example : checks [parsesTo "from task | where status == enum\"completed\"" fun q =>
    match firstValue q with
    | some (.enum t) => t == "completed".toList
    | _ => false] := by decide +kernel
/- test_parse_path_value -/
example : checks [parsesTo "from document | where file == path\"./file.pdf\"" fun q =>
    match firstValue q with
    | some (.path t) => t == "./file.pdf".toList
    | _ => false] := by decide +kernel
/- test_parse_compound_condition_or -/
example : checks [parsesTo "from invoice | where status == \"draft\" or status == \"sent\"" fun q =>
    shapeOf q == some (2, .or)] := by decide +kernel
/- test_parse_compound_condition_and -/
example : checks [parsesTo "from task | where is_completed == true and priority > 5" fun q =>
    shapeOf q == some (2, .and)] := by decide +kernel
/- test_parse_compound_condition_multiple_or -/
example : checks [parsesTo
    "from invoice | where status == \"draft\" or status == \"sent\" or status == \"overdue\"" fun q =>
    shapeOf q == some (3, .or)] := by decide +kernel
/- test_parse_compound_condition_case_insensitive -/
example : checks [
    parsesTo "from invoice | where status == \"draft\" OR status == \"sent\"" fun q =>
      shapeOf q == some (2, .or),
    parsesTo "from task | where a == 1 AND b == 2" fun q => shapeOf q == some (2, .and)] := by
  decide +kernel
/- test_parse_compound_condition_mixed_error -/
example : checks [!parsesTo "from task | where a == 1 or b == 2 and c == 3" fun _ => true] := by
  decide +kernel
/- test_parse_count_no_field, test_parse_count_with_field, test_parse_sum, test_parse_average,
test_parse_median -/
example : checks [
    parsesTo "from task | count" fun q => q.aggregation == some (.count none),
    parsesTo "from task | count assignee" fun q =>
      q.aggregation == some (.count (some (.regular "assignee".toList))),
    parsesTo "from invoice | sum amount" fun q =>
      q.aggregation == some (.sum (.regular "amount".toList)),
    parsesTo "from employee | average age" fun q =>
      q.aggregation == some (.average (.regular "age".toList)),
    parsesTo "from employee | median salary" fun q =>
      q.aggregation == some (.median (.regular "salary".toList))] := by decide +kernel
/- test_parse_select_single_field, test_parse_select_multiple_fields -/
example : checks [
    parsesTo "from project | select name" fun q =>
      q.aggregation == some (.select [.regular "name".toList]),
    parsesTo "from task | select @id, name, priority" fun q =>
      q.aggregation == some (.select [.metadata "id".toList, .regular "name".toList,
        .regular "priority".toList])] := by decide +kernel
/- test_parse_aggregation_after_operations -/
example : checks [parsesTo "from task | where is_completed == false | count" fun q =>
    shapeOf q == some (1, .and) && q.operations.length == 1 &&
      q.aggregation == some (.count none)] := by decide +kernel
/- test_parse_query_without_aggregation_unchanged -/
example : checks [parsesTo "from task | limit 5" fun q =>
    q.aggregation == none && q.operations.length == 1] := by decide +kernel

/-! ## firm_lang/tests/convert_query_tests.rs -/

/- test_convert_simple_query -/
example : checks [convertsTo "from task | limit 5" fun q =>
    q.source == .type "task".toList && (match q.operations with
      | [.limit n] => n == 5
      | _ => false)] := by decide +kernel
/- test_convert_wildcard_selector -/
example : checks [convertsTo "from *" fun q => q.source == .all] := by decide +kernel
/- test_convert_where_with_regular_field -/
example : checks [convertsTo "from task | where is_completed == true" fun q =>
    match q.operations with
    | [.where ⟨[⟨.regular _, .equal, .boolean b⟩], _⟩] => b
    | _ => false] := by decide +kernel
/- test_convert_where_with_metadata_field -/
example : checks [convertsTo "from * | where @type == \"task\"" fun q =>
    match q.operations with
    | [.where ⟨[⟨.metadata .type, _, .string _⟩], _⟩] => true
    | _ => false] := by decide +kernel
/- test_convert_order_regular_field, test_convert_order_metadata_field -/
example : checks [
    convertsTo "from task | order name" fun q =>
      match q.operations with
      | [.order (.regular _) .ascending] => true
      | _ => false,
    convertsTo "from * | order @type desc" fun q =>
      match q.operations with
      | [.order (.metadata .type) .descending] => true
      | _ => false] := by decide +kernel
/- test_convert_related_with_degree, test_convert_related_with_type_filter,
test_convert_related_with_degree_and_type -/
example : checks [
    convertsTo "from person | related(2)" fun q =>
      match q.operations with
      | [.related d t] => d == 2 && t == none
      | _ => false,
    convertsTo "from person | related task" fun q =>
      match q.operations with
      | [.related d t] => d == 1 && t == some "task".toList
      | _ => false,
    convertsTo "from person | related(3) task" fun q =>
      match q.operations with
      | [.related d t] => d == 3 && t == some "task".toList
      | _ => false] := by decide +kernel
/- test_convert_chained_operations -/
example : checks [convertsTo "from task | where is_completed == false | order due_date | limit 10"
    fun q => match q.operations with
      | [.where _, .order _ _, .limit n] => n == 10
      | _ => false] := by decide +kernel
/- test_convert_currency_value -/
example : checks [convertsTo "from project | where budget == 5000.50 USD" fun q =>
    match q.operations with
    | [.where ⟨[⟨_, _, .currency a c⟩], _⟩] => a == .fin (10001 / 2) && c == "USD".toList
    | _ => false] := by decide +kernel
/- test_convert_reference_value -/
example : checks [convertsTo "from task | where assignee == person.john_doe" fun q =>
    match q.operations with
    | [.where ⟨[⟨_, _, .reference r⟩], _⟩] => r == "person.john_doe".toList
    | _ => false] := by decide +kernel

end Firm.Conformance
