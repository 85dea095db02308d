import Verif.Model.Query
import Verif.Model.Names
import Verif.Model.Literals

/-!
# The query language

Rust sources: `/repo/firm_lang/src/parser/query/grammar.pest` (the grammar, turned into a parser by
`pest`), `parser.rs` (reads the tree of matched rules), `parsed_query.rs`, and
`/repo/firm_lang/src/convert/to_query.rs`.

The grammar is modelled by one function per rule. Such a function takes the text that is left and
gives what the rule matched and the text after it, or `none`. As in `pest`, alternatives are tried in
order and are not revisited, `~` and `*` in a rule that is not atomic skip white space between
their parts, and an atomic rule (`@`) skips none. The tree keeps numbers as text, because `parser.rs`
reads them after the whole text was matched.
Simplification: the enumerations that `to_query.rs` converts one to one (operator, combinator,
direction) are the ones of the core crate. Error messages are not modelled.
-/

namespace Firm

/-! ## Characters and words -/

/-- `WHITESPACE` — grammar.pest:1. -/
def qWs (c : Char) : Bool := c == ' ' || c == '\t' || c == '\n'

/-- The white space that `pest` skips between the parts of a rule. -/
def qSkip (s : Str) : Str := s.dropWhile qWs

/-- A literal word. -/
def qLit (k s : Str) : Option Str := if k.isPrefixOf s then some (s.drop k.length) else none

/-- `char::to_ascii_lowercase`. -/
def lowerAscii (c : Char) : Char := if c.isUpper then Char.ofNat (c.toNat + 32) else c

/-- A literal word in any case (`^"…"`); `k` is in lower case. -/
def qLitI (k s : Str) : Option Str :=
  if (s.take k.length).map lowerAscii = k then some (s.drop k.length) else none

/-- `ASCII_ALPHA`. -/
def qAlpha (c : Char) : Bool := c.isUpper || c.isLower

/-- `ASCII_ALPHA | "_"`. -/
def identStart (c : Char) : Bool := qAlpha c || c == '_'

/-- `ASCII_ALPHANUMERIC | "_"`. -/
def identChar (c : Char) : Bool := qAlpha c || isDigit c || c == '_'

/-- `identifier` — grammar.pest:107. -/
def qIdent : Str → Option (Str × Str)
  | [] => none
  | c :: s => if identStart c then some (c :: s.takeWhile identChar, s.dropWhile identChar) else none

/-- `p{n}`: exactly `n` characters of a class. -/
def qCount (p : Char → Bool) (n : Nat) (s : Str) : Option (Str × Str) :=
  if (s.take n).length = n ∧ (s.take n).all p then some (s.take n, s.drop n) else none

/-- `("." ~ ASCII_DIGIT+)?` — grammar.pest:78. -/
def qFraction : Str → Str × Str
  | '.' :: r => if r.takeWhile isDigit = [] then ([], '.' :: r)
      else ('.' :: r.takeWhile isDigit, r.dropWhile isDigit)
  | s => ([], s)

/-- `"-"?` — grammar.pest:78. -/
def qSign : Str → Str × Str
  | '-' :: r => (['-'], r)
  | s => ([], s)

/-- `number` — grammar.pest:78. -/
def qNumber (s : Str) : Option (Str × Str) :=
  let r := (qSign s).2
  if r.takeWhile isDigit = [] then none
  else
    let f := qFraction (r.dropWhile isDigit)
    some ((qSign s).1 ++ r.takeWhile isDigit ++ f.1, f.2)

/-- The rest of a string after its opening quote `q` — grammar.pest:70-76. The rule `string` is not
atomic, so white space after the opening quote is skipped; the text between is atomic. -/
def qQuoted (q : Char) (s : Str) : Option (Str × Str) :=
  match (qSkip s).dropWhile (· != q) with
  | [] => none
  | _ :: r => some ((qSkip s).takeWhile (· != q), r)

/-- `string` — grammar.pest:70-73. -/
def qString : Str → Option (Str × Str)
  | [] => none
  | c :: s => if c = '"' then qQuoted '"' s else if c = '\'' then qQuoted '\'' s else none

/-- `currency_code` — grammar.pest:85. -/
def qCode (s : Str) : Option (Str × Str) :=
  if (qLitI "and".toList s).isSome || (qLitI "or".toList s).isSome then none else qCount qAlpha 3 s

/-- `currency` — grammar.pest:84. -/
def qCurrency (s : Str) : Option ((Str × Str) × Str) :=
  match qNumber s with
  | none => none
  | some (n, r) =>
    match qCode (qSkip r) with
    | none => none
    | some (c, r') => some ((n, c), r')

/-- `ASCII_DIGIT{4} ~ "-" ~ ASCII_DIGIT{2} ~ "-" ~ ASCII_DIGIT{2}` — grammar.pest:89. -/
def qDate (s : Str) : Option (Str × Str) :=
  match qCount isDigit 4 s with
  | none => none
  | some (y, r) =>
    match qLit ['-'] r with
    | none => none
    | some r1 =>
      match qCount isDigit 2 r1 with
      | none => none
      | some (m, r2) =>
        match qLit ['-'] r2 with
        | none => none
        | some r3 =>
          match qCount isDigit 2 r3 with
          | none => none
          | some (d, r4) => some (y ++ '-' :: m ++ '-' :: d, r4)

/-- `(" " ~ timezone)?` — grammar.pest:90-92. -/
def qZone : Str → Str × Str
  | ' ' :: r => if r.takeWhile qAlpha = [] then ([], ' ' :: r)
      else (' ' :: r.takeWhile qAlpha, r.dropWhile qAlpha)
  | s => ([], s)

/-- `" at " ~ ASCII_DIGIT{2} ~ ":" ~ ASCII_DIGIT{2}` — grammar.pest:90. -/
def qTime (s : Str) : Option (Str × Str) :=
  match qLit " at ".toList s with
  | none => none
  | some r =>
    match qCount isDigit 2 r with
    | none => none
    | some (h, r1) =>
      match qLit [':'] r1 with
      | none => none
      | some r2 =>
        match qCount isDigit 2 r2 with
        | none => none
        | some (m, r3) => some (" at ".toList ++ h ++ ':' :: m, r3)

/-- `datetime` — grammar.pest:88-91. -/
def qDateTime (s : Str) : Option (Str × Str) :=
  match qDate s with
  | none => none
  | some (d, r) =>
    match qTime r with
    | none => some (d, r)
    | some (t, r') => some (d ++ t ++ (qZone r').1, (qZone r').2)

/-- `"." ~ identifier` — grammar.pest:96. -/
def qDotIdent : Str → Option (Str × Str)
  | '.' :: r =>
    match qIdent r with
    | none => none
    | some (i, r') => some ('.' :: i, r')
  | _ => none

/-- `reference` — grammar.pest:95-97. -/
def qReference (s : Str) : Option (Str × Str) :=
  match qIdent s with
  | none => none
  | some (a, r) =>
    match qDotIdent r with
    | none => none
    | some (b, r') =>
      match qDotIdent r' with
      | none => some (a ++ b, r')
      | some (c, r'') => some (a ++ b ++ c, r'')

/-- A word followed by a string: `path` and `enum_value` — grammar.pest:100-103. -/
def qTagged (k s : Str) : Option (Str × Str) :=
  match qLit k s with
  | none => none
  | some r => qString (qSkip r)

/-! ## Repetition -/

/-- `p*` with white space skipped before each `p`. The first argument bounds the number of rounds;
every `p` of the grammar consumes something, so the length of the text is enough. -/
def qMany {α : Type} (p : Str → Option (α × Str)) : Nat → Str → List α × Str
  | 0, s => ([], s)
  | n + 1, s =>
    match p (qSkip s) with
    | none => ([], s)
    | some (a, r) => (a :: (qMany p n r).1, (qMany p n r).2)

/-- A fixed character followed by `p`: `"," ~ p` and `"|" ~ p`. -/
def qAfter {α : Type} (c : Char) (p : Str → Option (α × Str)) : Str → Option (α × Str)
  | [] => none
  | d :: r => if d = c then p (qSkip r) else none

/-! ## Values -/

/-- A value as matched by the grammar. -/
inductive QValue where
  | string (s : Str)
  | number (t : Str)
  | boolean (b : Bool)
  | currency (t code : Str)
  | dateTime (t : Str)
  | reference (t : Str)
  | path (s : Str)
  | enum (s : Str)
  | list (vs : List QValue)
  deriving Repr, Inhabited

/-- `boolean` — grammar.pest:80. -/
def qBoolean (s : Str) : Option (Bool × Str) :=
  match qLit "true".toList s with
  | some r => some (true, r)
  | none =>
    match qLit "false".toList s with
    | some r => some (false, r)
    | none => none

/-- `list`, given the rule for its items — grammar.pest:105. -/
def qList {α : Type} (p : Str → Option (α × Str)) : Str → Option (List α × Str)
  | [] => none
  | c :: s =>
    if c = '[' then
      match p (qSkip s) with
      | none => none
      | some (v, r) =>
        let m := qMany (qAfter ',' p) r.length r
        match qSkip m.2 with
        | [] => none
        | d :: r' => if d = ']' then some (v :: m.1, r') else none
    else none

/-- The alternatives of `value` without lists, in their order — grammar.pest:58-67. -/
def qLeaf (s : Str) : Option (QValue × Str) :=
  match qCurrency s with
  | some ((n, c), r) => some (.currency n c, r)
  | none =>
  match qDateTime s with
  | some (t, r) => some (.dateTime t, r)
  | none =>
  match qReference s with
  | some (t, r) => some (.reference t, r)
  | none =>
  match qTagged "path".toList s with
  | some (t, r) => some (.path t, r)
  | none =>
  match qTagged "enum".toList s with
  | some (t, r) => some (.enum t, r)
  | none =>
  match qString s with
  | some (t, r) => some (.string t, r)
  | none =>
  match qNumber s with
  | some (t, r) => some (.number t, r)
  | none =>
  match qBoolean s with
  | some (b, r) => some (.boolean b, r)
  | none => none

/-- `value` — grammar.pest:58-68. The first argument bounds the nesting of lists. -/
def qValue : Nat → Str → Option (QValue × Str)
  | 0, _ => none
  | n + 1, s =>
    match qLeaf s with
    | some x => some x
    | none =>
      match qList (qValue n) s with
      | none => none
      | some (vs, r) => some (.list vs, r)

/-! ## Clauses -/

/-- `ParsedField` — parsed_query.rs:81-84. -/
inductive QField where
  | metadata (name : Str)
  | regular (name : Str)
  deriving DecidableEq, Repr, Inhabited

/-- `ParsedEntitySelector` — parsed_query.rs:21-24. -/
inductive QSelector where
  | type (name : Str)
  | wildcard
  deriving DecidableEq, Repr, Inhabited

/-- `metadata_field | field_name` — grammar.pest:33-34, 51, 119, 121, 126. -/
def qField : Str → Option (QField × Str)
  | [] => none
  | c :: s =>
    if c = '@' then
      match qIdent (qSkip s) with
      | none => none
      | some (i, r) => some (.metadata i, r)
    else
      match qIdent (c :: s) with
      | none => none
      | some (i, r) => some (.regular i, r)

/-- `entity_selector` — grammar.pest:9; the text `*` is the wildcard — parser.rs:84-93. -/
def qSelector : Str → Option (QSelector × Str)
  | [] => none
  | c :: s =>
    if c = '*' then some (.wildcard, s)
    else
      match qIdent (c :: s) with
      | none => none
      | some (i, r) => some (.type i, r)

/-- The words of the operators in the order they are tried — grammar.pest:37-43, with their
meaning — parser.rs:218-235. -/
def operatorWords : List (Str × FilterOperator) :=
  [("==".toList, .equal), ("!=".toList, .notEqual), (">=".toList, .greaterOrEqual),
   ("<=".toList, .lessOrEqual), (">".toList, .greaterThan), ("<".toList, .lessThan),
   ("contains".toList, .contains), ("startswith".toList, .startsWith),
   ("endswith".toList, .endsWith), ("in".toList, .isIn)]

/-- The first word of a table that the text starts with. -/
def qWord {α : Type} : List (Str × α) → Str → Option (α × Str)
  | [], _ => none
  | (k, a) :: ws, s =>
    match qLit k s with
    | some r => some (a, r)
    | none => qWord ws s

/-- A condition as matched. -/
structure QCond where
  field : QField
  op : FilterOperator
  value : QValue
  deriving Repr, Inhabited

/-- `condition` — grammar.pest:28-31. -/
def qCond (n : Nat) (s : Str) : Option (QCond × Str) :=
  match qField s with
  | none => none
  | some (f, r) =>
    match qWord operatorWords (qSkip r) with
    | none => none
    | some (op, r1) =>
      match qValue n (qSkip r1) with
      | none => none
      | some (v, r2) => some (⟨f, op, v⟩, r2)

/-- `combinator` — grammar.pest:24-26, with its meaning — parser.rs:139-148. -/
def qCombinator (s : Str) : Option (Combinator × Str) :=
  match qLitI "and".toList s with
  | some r => some (.and, r)
  | none =>
    match qLitI "or".toList s with
    | some r => some (.or, r)
    | none => none

/-- `combinator ~ condition` — grammar.pest:22. -/
def qMore (n : Nat) (s : Str) : Option ((Combinator × QCond) × Str) :=
  match qCombinator s with
  | none => none
  | some (c, r) =>
    match qCond n (qSkip r) with
    | none => none
    | some (q, r') => some ((c, q), r')

/-- An operation as matched. -/
inductive QOp where
  | where (first : QCond) (more : List (Combinator × QCond))
  | related (degree : Option Str) (selector : Option QSelector)
  | order (field : QField) (dir : Option SortDirection)
  | limit (t : Str)
  deriving Repr, Inhabited

/-- `where_clause` — grammar.pest:20-22. -/
def qWhere (n : Nat) (s : Str) : Option (QOp × Str) :=
  match qLit "where".toList s with
  | none => none
  | some r =>
    match qCond n (qSkip r) with
    | none => none
    | some (c, r1) =>
      let m := qMany (qMore n) r1.length r1
      some (.where c m.1, m.2)

/-- `degree` — grammar.pest:47. -/
def qDegree : Str → Option (Str × Str)
  | '(' :: s =>
    match qNumber (qSkip s) with
    | none => none
    | some (t, r) =>
      match qSkip r with
      | ')' :: r' => some (t, r')
      | _ => none
  | _ => none

/-- `e?` after white space: nothing is consumed if `e` does not match. -/
def qOpt {α : Type} (p : Str → Option (α × Str)) (s : Str) : Option α × Str :=
  match p (qSkip s) with
  | none => (none, s)
  | some (a, r) => (some a, r)

/-- `related_clause` — grammar.pest:46. -/
def qRelated (s : Str) : Option (QOp × Str) :=
  match qLit "related".toList s with
  | none => none
  | some r =>
    let d := qOpt qDegree r
    let e := qOpt qSelector d.2
    some (.related d.1 e.1, e.2)

/-- `direction` — grammar.pest:52, with its meaning — parser.rs:393-399. -/
def directionWords : List (Str × SortDirection) :=
  [("asc".toList, .ascending), ("desc".toList, .descending)]

/-- `order_clause` — grammar.pest:50-51. -/
def qOrder (s : Str) : Option (QOp × Str) :=
  match qLit "order".toList s with
  | none => none
  | some r =>
    match qField (qSkip r) with
    | none => none
    | some (f, r1) =>
      let d := qOpt (qWord directionWords) r1
      some (.order f d.1, d.2)

/-- `limit_clause` — grammar.pest:55. -/
def qLimit (s : Str) : Option (QOp × Str) :=
  match qLit "limit".toList s with
  | none => none
  | some r =>
    match qNumber (qSkip r) with
    | none => none
    | some (t, r1) => some (.limit t, r1)

/-- `operation` — grammar.pest:12-17. -/
def qOperation (n : Nat) (s : Str) : Option (QOp × Str) :=
  match qWhere n s with
  | some x => some x
  | none =>
  match qRelated s with
  | some x => some x
  | none =>
  match qOrder s with
  | some x => some x
  | none => qLimit s

/-- `ParsedAggregation` — parsed_query.rs:43-54. -/
inductive QAgg where
  | select (fields : List QField)
  | count (field : Option QField)
  | sum (field : QField)
  | average (field : QField)
  | median (field : QField)
  deriving DecidableEq, Repr, Inhabited

/-- `select_clause` — grammar.pest:118-119, parser.rs:452-467. -/
def qSelect (s : Str) : Option (QAgg × Str) :=
  match qLit "select".toList s with
  | none => none
  | some r =>
    match qField (qSkip r) with
    | none => none
    | some (f, r1) =>
      let m := qMany (qAfter ',' qField) r1.length r1
      some (.select (f :: m.1), m.2)

/-- `count_clause` — grammar.pest:121, parser.rs:469-478. -/
def qCountClause (s : Str) : Option (QAgg × Str) :=
  match qLit "count".toList s with
  | none => none
  | some r => some (.count (qOpt qField r).1, (qOpt qField r).2)

/-- A word and a field: `sum_clause`, `average_clause`, `median_clause` — grammar.pest:122-126,
parser.rs:480-516. -/
def qOver (k : Str) (mk : QField → QAgg) (s : Str) : Option (QAgg × Str) :=
  match qLit k s with
  | none => none
  | some r =>
    match qField (qSkip r) with
    | none => none
    | some (f, r1) => some (mk f, r1)

/-- `aggregation` — grammar.pest:110-116. -/
def qAggregation (s : Str) : Option (QAgg × Str) :=
  match qSelect s with
  | some x => some x
  | none =>
  match qCountClause s with
  | some x => some x
  | none =>
  match qOver "sum".toList .sum s with
  | some x => some x
  | none =>
  match qOver "average".toList .average s with
  | some x => some x
  | none => qOver "median".toList .median s

/-- A query as matched. -/
structure QTree where
  source : QSelector
  operations : List QOp
  aggregation : Option QAgg
  deriving Repr, Inhabited

/-- `query` — grammar.pest:4-7. `SOI` is followed by `~`, so leading white space is skipped. -/
def qQuery (s : Str) : Option QTree :=
  match qLit "from".toList (qSkip s) with
  | none => none
  | some r =>
    match qSelector (qSkip r) with
    | none => none
    | some (sel, r1) =>
      let ops := qMany (qAfter '|' (qOperation (s.length + 1))) r1.length r1
      let agg := qOpt (qAfter '|' qAggregation) ops.2
      if qSkip agg.2 = [] then some ⟨sel, ops.1, agg.1⟩ else none

/-! ## Reading the matched tree (`parser.rs`) -/

/-- `QueryParseError` — parser.rs:12-16 (messages omitted). -/
inductive QueryParseError where
  | syntaxError
  | invalidNumber
  deriving DecidableEq, Repr, Inhabited

/-- `ParsedQueryValue` — parsed_query.rs:103-113. -/
inductive ParsedQueryValue where
  | string (s : Str)
  | number (n : F64)
  | boolean (b : Bool)
  | currency (amount : F64) (code : Str)
  | dateTime (s : Str)
  | reference (s : Str)
  | path (s : Str)
  | enum (s : Str)
  | list (vs : List ParsedQueryValue)
  deriving Repr, Inhabited

/-- `parse::<f64>()` with the error of parser.rs:255-257, 272-274. -/
def readF64 (L : Lang) (t : Str) : Except QueryParseError F64 :=
  match L.parseF64 t with
  | some f => .ok f
  | none => .error .invalidNumber

/-- `parse::<usize>()` with the error of parser.rs:339-344, 415-420 (64-bit `usize`). The texts come
from the rule `number`. -/
def readUsize (t : Str) : Except QueryParseError Nat :=
  match parseNat t with
  | some n => if n < 2 ^ 64 then .ok n else .error .invalidNumber
  | none => .error .invalidNumber

mutual
/-- `parse_value` — parser.rs:237-324. -/
def readQValue (L : Lang) : QValue → Except QueryParseError ParsedQueryValue
  | .string s => .ok (.string s)
  | .number t =>
    match readF64 L t with
    | .ok f => .ok (.number f)
    | .error e => .error e
  | .boolean b => .ok (.boolean b)
  | .currency t c =>
    match readF64 L t with
    | .ok f => .ok (.currency f c)
    | .error e => .error e
  | .dateTime t => .ok (.dateTime t)
  | .reference t => .ok (.reference t)
  | .path s => .ok (.path s)
  | .enum s => .ok (.enum s)
  | .list vs =>
    match readQValues L vs with
    | .ok ws => .ok (.list ws)
    | .error e => .error e
/-- The items of a list — parser.rs:310-317. -/
def readQValues (L : Lang) : List QValue → Except QueryParseError (List ParsedQueryValue)
  | [] => .ok []
  | v :: vs =>
    match readQValue L v with
    | .error e => .error e
    | .ok w =>
      match readQValues L vs with
      | .error e => .error e
      | .ok ws => .ok (w :: ws)
end

/-- `ParsedCondition` — parsed_query.rs:73-77. -/
structure ParsedCondition where
  field : QField
  op : FilterOperator
  value : ParsedQueryValue
  deriving Repr, Inhabited

/-- `parse_condition` — parser.rs:176-216. -/
def readCond (L : Lang) (c : QCond) : Except QueryParseError ParsedCondition :=
  match readQValue L c.value with
  | .ok v => .ok ⟨c.field, c.op, v⟩
  | .error e => .error e

/-- The choice of the combinator — parser.rs:156-168. -/
def readCombinator : List Combinator → Except QueryParseError Combinator
  | [] => .ok .and
  | c :: cs => if cs.all (· == c) then .ok c else .error .syntaxError

/-- `ParsedOperation` — parsed_query.rs:28-39. -/
inductive ParsedOperation where
  | where (conditions : List ParsedCondition) (combinator : Combinator)
  | related (degree : Option Nat) (selector : Option QSelector)
  | order (field : QField) (dir : SortDirection)
  | limit (n : Nat)
  deriving Repr, Inhabited

/-- `parse_operation` with `parse_where_clause`, `parse_compound_condition`, `parse_related_clause`,
`parse_order_clause`, `parse_limit_clause` — parser.rs:95-174, 326-427. -/
def readOp (L : Lang) : QOp → Except QueryParseError ParsedOperation
  | .where c more =>
    match collectResults (readCond L) (c :: more.map (·.2)) with
    | .error e => .error e
    | .ok cs =>
      match readCombinator (more.map (·.1)) with
      | .error e => .error e
      | .ok k => .ok (.where cs k)
  | .related none sel => .ok (.related none sel)
  | .related (some t) sel =>
    match readUsize t with
    | .ok n => .ok (.related (some n) sel)
    | .error e => .error e
  | .order f d => .ok (.order f (d.getD .ascending))
  | .limit t =>
    match readUsize t with
    | .ok n => .ok (.limit n)
    | .error e => .error e

/-- `ParsedQuery` — parsed_query.rs:7-11. -/
structure ParsedQuery where
  source : QSelector
  operations : List ParsedOperation
  aggregation : Option QAgg
  deriving Repr, Inhabited

/-- `parse_query` — parser.rs:31-68. -/
def parseQuery (L : Lang) (s : Str) : Except QueryParseError ParsedQuery :=
  match qQuery s with
  | none => .error .syntaxError
  | some t =>
    match collectResults (readOp L) t.operations with
    | .error e => .error e
    | .ok ops => .ok ⟨t.source, ops, t.aggregation⟩

/-! ## Conversion (`to_query.rs`) -/

/-- `n.fract() == 0.0 && n.is_finite()`, then `n as i64` (saturating) — to_query.rs:176-183. -/
def convertNumber : F64 → FilterValue
  | .negZero => .integer 0
  | .fin q => if q.den = 1 then .integer (max (-2 ^ 63) (min (2 ^ 63 - 1) q.num)) else .float (.fin q)
  | f => .float f

mutual
/-- `convert_value` — to_query.rs:173-204; it never fails. -/
def convertValue : ParsedQueryValue → FilterValue
  | .string s => .string s
  | .number n => convertNumber n
  | .boolean b => .boolean b
  | .currency a c => .currency a c
  | .dateTime s => .dateTime s
  | .reference s => .reference s
  | .path s => .path s
  | .enum s => .enum s
  | .list vs => .list (convertValues vs)
/-- The items of a list — to_query.rs:198-202. -/
def convertValues : List ParsedQueryValue → List FilterValue
  | [] => []
  | v :: vs => convertValue v :: convertValues vs
end

/-- `convert_field` — to_query.rs:144-156; `FieldId::new` changes the name to snake case. -/
def convertField (T : CaseTable) : QField → FieldRef
  | .metadata n => .metadata (if n = "id".toList then .id else .type)
  | .regular n => .regular (T.snake n)

/-- `convert_condition` — to_query.rs:89-95. -/
def convertCond (T : CaseTable) (c : ParsedCondition) : FilterCondition :=
  ⟨convertField T c.field, c.op, convertValue c.value⟩

/-- The type of a selector — to_query.rs:37-42, 116-119; `EntityType::new` changes the name to snake
case. -/
def selectorType (T : CaseTable) : QSelector → Option EntityType
  | .type n => some (T.snake n)
  | .wildcard => none

/-- `convert_operation` — to_query.rs:62-80, 97-125. -/
def convertOp (T : CaseTable) : ParsedOperation → QueryOperation
  | .where cs k => .where ⟨cs.map (convertCond T), k⟩
  | .related d sel => .related (d.getD 1) (sel.bind (selectorType T))
  | .order f d => .order (convertField T f) d
  | .limit n => .limit n

/-- `convert_aggregation` — to_query.rs:127-142. -/
def convertAgg (T : CaseTable) : QAgg → Aggregation
  | .select fs => .select (fs.map (convertField T))
  | .count f => .count (f.map (convertField T))
  | .sum f => .sum (convertField T f)
  | .average f => .average (convertField T f)
  | .median f => .median (convertField T f)

/-- `Query::try_from` — to_query.rs:35-59; it never fails. -/
def convertQuery (T : CaseTable) (p : ParsedQuery) : Query :=
  { source := match selectorType T p.source with
      | some t => .type t
      | none => .all
    operations := p.operations.map (convertOp T)
    aggregation := p.aggregation.map (convertAgg T) }

/-! ## Running a query text -/

/-- Why a query text gives no result. -/
inductive QueryFailure where
  | parse (e : QueryParseError)
  | execution (e : QueryError)
  deriving DecidableEq, Repr, Inhabited

/-- A query text from parsing to its result — firm_mcp/src/tools/query.rs:21-53,
firm_cli/src/commands/query.rs:18-37. -/
def runQuery (L : Lang) (rt : Runtime) (g : Graph) (s : Str) : Except QueryFailure QueryResult :=
  match parseQuery L s with
  | .error e => .error (.parse e)
  | .ok p =>
    match (convertQuery L.cases p).execute L.env rt g with
    | .error e => .error (.execution e)
    | .ok r => .ok r

end Firm
