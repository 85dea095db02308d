import Verif.Model.Names

/-!
# Specification of normal identifiers
-/

namespace Firm.Spec

/-- No two neighbours in the text are related by `R`. -/
def NoNeighbours (R : Char → Char → Prop) : Str → Prop
  | [] => True
  | [_] => True
  | a :: b :: s => ¬ R a b ∧ NoNeighbours R (b :: s)

/-- A letter next to a digit. -/
def LetterDigit (t : CaseTable) (a b : Char) : Prop :=
  (t.isLower a = true ∧ isDigit b = true) ∨ (isDigit a = true ∧ t.isLower b = true)

/-- Snake case: no upper-case letter, blank or hyphen, no leading, trailing or doubled underscore, no
letter next to a digit. -/
structure IsSnake (t : CaseTable) (s : Str) : Prop where
  chars : ∀ c ∈ s, t.isUpper c = false ∧ c ≠ ' ' ∧ c ≠ '-'
  first : s.head? ≠ some '_'
  last : s.getLast? ≠ some '_'
  doubled : NoNeighbours (fun a b => a = '_' ∧ b = '_') s
  contact : NoNeighbours (LetterDigit t) s

/-- What the case data must satisfy: a letter that is not upper-case is its own lower-case form (true
of Unicode except for title-case letters), lower-case forms are not upper-case, and digits and
delimiters have no case. -/
structure RegularCase (t : CaseTable) : Prop where
  keep : ∀ c, t.isUpper c = false → t.lowerChar c = [c]
  nonempty : ∀ c, t.lowerChar c ≠ []
  lowered : ∀ c, t.isUpper c = true → ∀ d ∈ t.lowerChar c,
    t.isUpper d = false ∧ isDigit d = false ∧ isDelim d = false ∧ d ≠ '.'
  disjoint : ∀ c, t.isUpper c = true → t.isLower c = false
  digit : ∀ c, isDigit c = true → t.isUpper c = false ∧ t.isLower c = false
  delim : ∀ c, isDelim c = true ∨ c = '.' → t.isUpper c = false ∧ t.isLower c = false

end Firm.Spec
