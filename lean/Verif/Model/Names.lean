import Verif.Model.Basic

/-!
# Identifiers and their normalisation

Rust source: `/repo/firm_core/src/id.rs`; the conversion itself is `convert_case` 0.8.
-/

namespace Firm

/-- Case data of the characters (Unicode tables of `std`): which characters count as upper-case and
lower-case letters for `convert_case`, and `to_lowercase` of one character. -/
structure CaseTable where
  isUpper : Char → Bool
  isLower : Char → Bool
  lowerChar : Char → Str

/-- ASCII digit (`convert_case` tests `is_ascii_digit`). -/
def isDigit (c : Char) : Bool := 48 ≤ c.toNat && c.toNat ≤ 57

/-- The characters removed at a boundary: `Boundary::{Underscore, Hyphen, Space}`. -/
def isDelim (c : Char) : Bool := c == '_' || c == '-' || c == ' '

/-- `str::to_lowercase`, character by character. Simplification: the special rule for a final
capital sigma is not modelled. -/
def CaseTable.lower (t : CaseTable) (s : Str) : Str := s.flatMap t.lowerChar

/-- Is there a boundary between `a` and `b`, where `next` follows `b`? The default boundaries
`LowerUpper, UpperDigit, DigitUpper, DigitLower, LowerDigit, Acronym` of `convert_case` 0.8. -/
def CaseTable.cut (t : CaseTable) (a b : Char) (next : Option Char) : Bool :=
  (t.isLower a && t.isUpper b) || (t.isUpper a && isDigit b) || (isDigit a && t.isUpper b) ||
  (isDigit a && t.isLower b) || (t.isLower a && isDigit b) ||
  (t.isUpper a && t.isUpper b && next.any t.isLower)

/-- `convert_case::split` with the default boundaries: the first word and the following words, empty
ones included. Simplification: every scalar value is its own grapheme cluster. -/
def CaseTable.splitWords (t : CaseTable) : Str → Str × List Str
  | [] => ([], [])
  | c :: rest =>
    let (w, ws) := t.splitWords rest
    if isDelim c then ([], w :: ws)
    else
      match rest with
      | [] => ([c], [])
      | d :: r => if t.cut c d r.head? then ([c], w :: ws) else (c :: w, ws)

/-- Words joined by underscores (`[..].join("_")`). -/
def joinUnderscore : List Str → Str
  | [] => []
  | [w] => w
  | w :: ws => w ++ '_' :: joinUnderscore ws

/-- The words of a text: empty words are dropped by `convert_case`. -/
def CaseTable.words (t : CaseTable) (s : Str) : List Str :=
  ((t.splitWords s).1 :: (t.splitWords s).2).filter (fun w => !w.isEmpty)

/-- `to_case(Case::Snake)`; the constructors `EntityId::new`, `FieldId::new`, `EntityType::new` —
firm_core/src/id.rs:14-16. -/
def CaseTable.snake (t : CaseTable) (s : Str) : Str :=
  joinUnderscore ((t.words s).map t.lower)

/-- `compose_entity_id` — firm_core/src/id.rs:49-55. -/
def CaseTable.composeEntityId (t : CaseTable) (type id : Str) : EntityId :=
  t.snake (t.lower type ++ '.' :: id)

/-- `str::split_once('.')`. -/
def splitOnceDot : Str → Option (Str × Str)
  | [] => none
  | c :: s => if c = '.' then some ([], s) else (splitOnceDot s).map fun p => (c :: p.1, p.2)

/-- `decompose_entity_id` — firm_core/src/id.rs:58-62. -/
def decomposeEntityId (s : Str) : Str × Str := (splitOnceDot s).getD ("unknown".toList, s)

/-- The table restricted to ASCII: other characters have no case. -/
def asciiTable : CaseTable where
  isUpper c := 65 ≤ c.toNat && c.toNat ≤ 90
  isLower c := 97 ≤ c.toNat && c.toNat ≤ 122
  lowerChar c := [c.toLower]

/-- `asciiTable` with the Unicode data of `ǅ` (U+01C5, a title-case letter: neither equal to its
upper-case nor to its lower-case form) and of its lower-case form `ǆ` (U+01C6). -/
def titleTable : CaseTable where
  isUpper := asciiTable.isUpper
  isLower c := asciiTable.isLower c || c == 'ǆ'
  lowerChar c := if c = 'ǅ' then ['ǆ'] else asciiTable.lowerChar c

end Firm
