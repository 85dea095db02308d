import Verif.Model.QueryText

/-!
# Specification of the query language

What the words of the language look like, which query trees can be written at all, and a standard
way to write one. Nothing here mentions the parser.
-/

namespace Firm.Spec

open Firm

/-- A letter or underscore, then letters, digits and underscores. -/
def IsIdent (s : Str) : Prop :=
  ∃ c cs, s = c :: cs ∧ identStart c = true ∧ ∀ d ∈ cs, identChar d = true

/-- Digits only, at least one. -/
def IsDigits (s : Str) : Prop := s ≠ [] ∧ ∀ d ∈ s, isDigit d = true

/-- A decimal number with an optional sign and an optional fraction. -/
def IsNumberText (s : Str) : Prop :=
  ∃ sg ds fr, s = sg ++ ds ++ fr ∧ (sg = [] ∨ sg = ['-']) ∧ IsDigits ds ∧
    (fr = [] ∨ ∃ fs, fr = '.' :: fs ∧ IsDigits fs)

/-- Three letters that do not begin with a combinator. -/
def IsCode (s : Str) : Prop :=
  s.length = 3 ∧ (∀ c ∈ s, qAlpha c = true) ∧ s.map lowerAscii ≠ "and".toList ∧
    (s.take 2).map lowerAscii ≠ "or".toList

/-- `n` digits. -/
def IsDigitsN (n : Nat) (s : Str) : Prop := s.length = n ∧ ∀ d ∈ s, isDigit d = true

/-- A day. -/
def IsDate (s : Str) : Prop :=
  ∃ y m d, IsDigitsN 4 y ∧ IsDigitsN 2 m ∧ IsDigitsN 2 d ∧ s = y ++ '-' :: m ++ '-' :: d

/-- A time of day with the word before it. -/
def IsTime (s : Str) : Prop :=
  ∃ h m, IsDigitsN 2 h ∧ IsDigitsN 2 m ∧ s = " at ".toList ++ h ++ ':' :: m

/-- A day, a day and a time, or a day, a time and a zone. -/
def IsDateTime (s : Str) : Prop :=
  ∃ d, IsDate d ∧ (s = d ∨ ∃ t, IsTime t ∧
    (s = d ++ t ∨ ∃ z, z ≠ [] ∧ (∀ c ∈ z, qAlpha c = true) ∧ s = d ++ t ++ ' ' :: z))

/-- Two or three names with dots between them. -/
def IsReference (s : Str) : Prop :=
  ∃ a b, IsIdent a ∧ IsIdent b ∧
    (s = a ++ '.' :: b ∨ ∃ c, IsIdent c ∧ s = a ++ '.' :: b ++ '.' :: c)

/-- A text that can be written in quotes: it does not start with white space and lacks one of the
two quotes. -/
def IsQuotable (s : Str) : Prop :=
  (∀ c, s.head? = some c → qWs c = false) ∧ ('"' ∉ s ∨ '\'' ∉ s)

mutual
/-- The values that can be written. -/
def ValidValue : QValue → Prop
  | .string s => IsQuotable s
  | .number t => IsNumberText t
  | .boolean _ => True
  | .currency t c => IsNumberText t ∧ IsCode c
  | .dateTime t => IsDateTime t
  | .reference t => IsReference t
  | .path s => IsQuotable s
  | .enum s => IsQuotable s
  | .list vs => vs ≠ [] ∧ ValidValues vs
/-- All items of a list. -/
def ValidValues : List QValue → Prop
  | [] => True
  | v :: vs => ValidValue v ∧ ValidValues vs
end

/-- A field that can be written. -/
def ValidField : QField → Prop
  | .metadata n => IsIdent n
  | .regular n => IsIdent n

/-- A selector that can be written. -/
def ValidSelector : QSelector → Prop
  | .type n => IsIdent n
  | .wildcard => True

/-- A condition that can be written. -/
def ValidCond (c : QCond) : Prop := ValidField c.field ∧ ValidValue c.value

/-- An operation that can be written. -/
def ValidOp : QOp → Prop
  | .where c more => ValidCond c ∧ ∀ m ∈ more, ValidCond m.2
  | .related d sel => (∀ t, d = some t → IsNumberText t) ∧ ∀ s, sel = some s → ValidSelector s
  | .order f _ => ValidField f
  | .limit t => IsNumberText t

/-- An aggregation that can be written. -/
def ValidAgg : QAgg → Prop
  | .select fs => fs ≠ [] ∧ ∀ f ∈ fs, ValidField f
  | .count f => ∀ x, f = some x → ValidField x
  | .sum f => ValidField f
  | .average f => ValidField f
  | .median f => ValidField f

/-- A query that can be written. -/
def ValidTree (q : QTree) : Prop :=
  ValidSelector q.source ∧ (∀ o ∈ q.operations, ValidOp o) ∧ ∀ a, q.aggregation = some a → ValidAgg a

/-! ## Writing a query -/

/-- A quoted text; double quotes if possible. -/
def quoteText (s : Str) : Str :=
  if '"' ∈ s then '\'' :: s ++ ['\''] else '"' :: s ++ ['"']

mutual
/-- A value in its standard form. -/
def showQValue : QValue → Str
  | .string s => quoteText s
  | .number t => t
  | .boolean b => if b then "true".toList else "false".toList
  | .currency t c => t ++ ' ' :: c
  | .dateTime t => t
  | .reference t => t
  | .path s => "path".toList ++ quoteText s
  | .enum s => "enum".toList ++ quoteText s
  | .list [] => "[]".toList
  | .list (v :: vs) => '[' :: showQValue v ++ showQItems vs ++ [']']
/-- The items of a list after the first one. -/
def showQItems : List QValue → Str
  | [] => []
  | v :: vs => ", ".toList ++ showQValue v ++ showQItems vs
end

/-- A field. -/
def showQField : QField → Str
  | .metadata n => '@' :: n
  | .regular n => n

/-- A selector. -/
def showQSelector : QSelector → Str
  | .type n => n
  | .wildcard => ['*']

/-- An operator. -/
def showQOperator : FilterOperator → Str
  | .equal => "==".toList
  | .notEqual => "!=".toList
  | .greaterThan => ">".toList
  | .lessThan => "<".toList
  | .greaterOrEqual => ">=".toList
  | .lessOrEqual => "<=".toList
  | .contains => "contains".toList
  | .startsWith => "startswith".toList
  | .endsWith => "endswith".toList
  | .isIn => "in".toList

/-- A condition. -/
def showQCond (c : QCond) : Str :=
  showQField c.field ++ ' ' :: showQOperator c.op ++ ' ' :: showQValue c.value

/-- A combinator. -/
def showQCombinator : Combinator → Str
  | .and => "and".toList
  | .or => "or".toList

/-- A further condition, on its own line. -/
def showQMore (m : Combinator × QCond) : Str :=
  '\n' :: showQCombinator m.1 ++ ' ' :: showQCond m.2

/-- The degree of `related`. -/
def showQDegree : Option Str → Str
  | some t => '(' :: t ++ [')']
  | none => []

/-- The selector of `related`. -/
def showQTarget : Option QSelector → Str
  | some s => ' ' :: showQSelector s
  | none => []

/-- The direction of `order`. -/
def showQDirection : Option SortDirection → Str
  | some .ascending => " asc".toList
  | some .descending => " desc".toList
  | none => []

/-- An operation. -/
def showQOp : QOp → Str
  | .where c more => "where ".toList ++ showQCond c ++ more.flatMap showQMore
  | .related d sel =>
    "related".toList ++ showQDegree d ++ showQTarget sel
  | .order f d =>
    "order ".toList ++ showQField f ++ showQDirection d
  | .limit t => "limit ".toList ++ t

/-- An aggregation. -/
def showQAgg : QAgg → Str
  | .select [] => "select".toList
  | .select (f :: fs) =>
    "select ".toList ++ showQField f ++ fs.flatMap fun x => ", ".toList ++ showQField x
  | .count none => "count".toList
  | .count (some f) => "count ".toList ++ showQField f
  | .sum f => "sum ".toList ++ showQField f
  | .average f => "average ".toList ++ showQField f
  | .median f => "median ".toList ++ showQField f

/-- The end of a query. -/
def showQEnd : Option QAgg → Str
  | some a => " | ".toList ++ showQAgg a
  | none => []

/-- A query in its standard form. -/
def showQuery (q : QTree) : Str :=
  "from ".toList ++ showQSelector q.source ++
    (q.operations.flatMap fun o => " | ".toList ++ showQOp o) ++
    showQEnd q.aggregation

end Firm.Spec
