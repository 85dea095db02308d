import Verif.Lemmas.QuerySound
import Verif.Lemmas.F64
import Verif.Lemmas.Text
import Verif.Props.Names
import Verif.Props.Related
import Verif.Props.Workspace

/-!
# Properties of the query language (C73)
-/

namespace Firm
open Spec

/-! ## C73: queries read back -/

/-- C73: every query that can be written is read back from its standard text: the parser gives the
very same tree, for queries of every length and lists of every depth. -/
theorem C73_reads_back {q : QTree} (h : ValidTree q) : qQuery (showQuery q) = some q :=
  qQuery_show h

/-- C73: whatever text the parser accepts, the tree it gives is one that can be written. -/
theorem C73_valid {s : Str} {q : QTree} (h : qQuery s = some q) : ValidTree q := qQuery_sound h

/-- C73: an accepted text and its standard form are the same query. -/
theorem C73_normal (L : Lang) {s : Str} {q : QTree} (h : qQuery s = some q) :
    parseQuery L (showQuery q) = parseQuery L s := by
  unfold parseQuery
  rw [h, qQuery_show (qQuery_sound h)]

/-- C73: different queries have different standard texts. -/
theorem C73_injective {p q : QTree} (hp : ValidTree p) (hq : ValidTree q)
    (h : showQuery p = showQuery q) : p = q := by
  have := qQuery_show hp
  rw [h, qQuery_show hq] at this
  exact (Option.some.inj this).symm

/-- The bounds in the model of the grammar never matter: any larger bound gives the same result. -/
theorem C73_bounds {n : Nat} {s : Str} (h : s.length < n) : qValue n s = qValue (s.length + 1) s :=
  qValue_bound n (s.length + 1) s h (by omega)

/-- A query with every kind of clause and a nested list. -/
def exQueryText : Str :=
  "from task | where tags in [\"a\", [1, -2.5], 10 EUR] AND due > 2025-01-15 at 14:30 | related(2) * | order @id desc | limit 3 | select @id,name".toList

def exQueryTree : QTree where
  source := .type "task".toList
  operations :=
    [.where ⟨.regular "tags".toList, .isIn, .list [.string "a".toList,
        .list [.number "1".toList, .number "-2.5".toList], .currency "10".toList "EUR".toList]⟩
       [(.and, ⟨.regular "due".toList, .greaterThan, .dateTime "2025-01-15 at 14:30".toList⟩)],
     .related (some "2".toList) (some .wildcard),
     .order (.metadata "id".toList) (some .descending),
     .limit "3".toList]
  aggregation := some (.select [.metadata "id".toList, .regular "name".toList])

theorem exQuery_parses : qQuery exQueryText = some exQueryTree := by
  set_option maxRecDepth 20000 in rfl

example : ValidTree exQueryTree := C73_valid exQuery_parses
example : qQuery (showQuery exQueryTree) = some exQueryTree := C73_reads_back (C73_valid exQuery_parses)

end Firm
