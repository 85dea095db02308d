import Verif.Model.QueryText
import Verif.Model.Printed

/-!
# The texts of the errors of a query

Rust sources: `/repo/firm_core/src/graph/query/query_errors.rs` and the places where its errors are made.
The errors themselves are those of `Model/Filter.lean`; here they get their texts. The message of a syntax
error comes from `pest` and is not modelled.
-/

namespace Firm

/-- The operator that is refused: `format!("{:?}", operator)`, the derived `Debug` — filter/types.rs:29-42,
used in filter/string.rs:55, numeric.rs:96, boolean.rs:29, currency.rs:51, datetime.rs:65, 87,
reference.rs:27, list.rs:67. -/
def operatorName : FilterOperator → Str
  | .equal => "Equal".toList
  | .notEqual => "NotEqual".toList
  | .greaterThan => "GreaterThan".toList
  | .lessThan => "LessThan".toList
  | .greaterOrEqual => "GreaterOrEqual".toList
  | .lessOrEqual => "LessOrEqual".toList
  | .contains => "Contains".toList
  | .startsWith => "StartsWith".toList
  | .endsWith => "EndsWith".toList
  | .isIn => "In".toList

/-- The words in the lists of supported operators — filter/string.rs:56-62, 106-112, numeric.rs:7,
currency.rs:8, datetime.rs:8, boolean.rs:30, reference.rs:28, list.rs:68. `in` is in none of them. -/
def supportedWord : FilterOperator → Str
  | .equal => "==".toList
  | .notEqual => "!=".toList
  | .greaterThan => ">".toList
  | .lessThan => "<".toList
  | .greaterOrEqual => ">=".toList
  | .lessOrEqual => "<=".toList
  | .contains => "contains".toList
  | .startsWith => "starts_with".toList
  | .endsWith => "ends_with".toList
  | .isIn => "in".toList

/-- `FilterValue::type_name` — filter/types.rs:61-74. -/
def filterKindName : FilterKind → Str
  | .string => "String".toList
  | .integer => "Integer".toList
  | .float => "Float".toList
  | .boolean => "Boolean".toList
  | .currency => "Currency".toList
  | .dateTime => "DateTime".toList
  | .reference => "Reference".toList
  | .path => "Path".toList
  | .enum => "Enum".toList
  | .list => "List".toList

/-- The name of an aggregation in its errors — sum.rs:13, average.rs:13, 18, median.rs:13, 18. -/
def aggregationName : Aggregation → Str
  | .select _ => "select".toList
  | .count _ => "count".toList
  | .sum _ => "sum".toList
  | .average _ => "average".toList
  | .median _ => "median".toList

/-- The field of an aggregation in its errors: `field_id.as_str()`. -/
def aggregationField : Aggregation → FieldId
  | .sum (.regular f) | .average (.regular f) | .median (.regular f) => f
  | _ => []

/-- The messages of `InvalidAggregation` — aggregation/mod.rs:35-38, 94, 131-135, average.rs:18, median.rs:18,
sum.rs:42-49. -/
def aggregationMessage (a : Aggregation) : AggError → Str
  | .metadataField => "Cannot ".toList ++ aggregationName a ++
      " a metadata field. Use a regular numeric field.".toList
  | .emptyResult => "Cannot compute ".toList ++ aggregationName a ++ " of empty result set".toList
  | .nonNumeric f t => "Cannot aggregate non-numeric field '".toList ++ f ++ "'. Found type: ".toList ++
      showFieldType t
  | .mixedCurrencyAndNumber => "Cannot mix currency and numeric values in aggregation".toList
  | .mixedCurrencies expected found =>
      "Cannot sum mixed currencies (found ".toList ++ expected ++ ", ".toList ++ found ++
      "). Filter first, e.g.: where ".toList ++ aggregationField a ++ " >= 0 ".toList ++ expected

/-- `QueryError` as text — query_errors.rs:34-87. `a` is the aggregation of the query, if it has one. A panic
has no text of this kind. -/
def queryMessage (a : Option Aggregation) : QueryError → Str
  | .unsupportedOperator t op supported =>
    "Cannot use '".toList ++ operatorName op ++ "' operator on ".toList ++ showFieldType t ++
      " fields. Supported: ".toList ++ joinWith ", ".toList (supported.map supportedWord)
  | .typeMismatch t k =>
    "Type mismatch: ".toList ++ showFieldType t ++ " field cannot be compared with ".toList ++ filterKindName k ++
      " value".toList
  | .unknownEntityType requested available =>
    if available = [] then
      "Entity type '".toList ++ requested ++ "' not found. No entity types exist.".toList
    else
      "Entity type '".toList ++ requested ++ "' not found. Available types: ".toList ++
        joinWith ", ".toList available
  | .invalidDateFormat value =>
    "Invalid date '".toList ++ value ++
      "'. Expected format: YYYY-MM-DD or full ISO 8601 datetime.".toList
  | .invalidAggregation e =>
    "Invalid aggregation: ".toList ++ (match a with
      | some a => aggregationMessage a e
      | none => [])
  | .panic => []

end Firm
