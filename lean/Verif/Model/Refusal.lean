import Verif.Model.Mcp

/-!
# The replies of `replace_source`

Rust sources: `/repo/firm_mcp/src/tools/replace_source.rs`. `Model/Mcp.lean` leaves the texts of replies out; here they are
kept, because one of them cuts the searched text at a byte.
-/

namespace Firm

/-- `&s[..n]`; `none` is the panic when `n` is not on a character boundary (or past the end). -/
def takeBytes : Nat → Str → Option Str
  | 0, _ => some []
  | _ + 1, [] => none
  | n + 1, c :: s => if c.utf8Size ≤ n + 1 then (takeBytes (n + 1 - c.utf8Size) s).map (c :: ·) else none

/-- The searched text as it is shown — replace_source.rs:132-136, 147-151; `none` is a panic. -/
def clip (old : Str) : Option Str :=
  if 100 < byteLen old then (takeBytes 100 old).map (· ++ "...".toList) else some old

/-- `not_found_error` — replace_source.rs:130-142. -/
def notFoundText (old path : Str) : Option Str :=
  (clip old).map fun shown =>
    "old_string not found in '".toList ++ path ++ "': \"".toList ++ shown ++ "\"".toList

/-- `multiple_matches_error` — replace_source.rs:145-159. -/
def severalText (count : Nat) (old : Str) : Option Str :=
  (clip old).map fun shown =>
    "old_string found ".toList ++ showNat count ++ " times: \"".toList ++ shown ++ "\". ".toList ++
      "Set 'replace_all: true' to replace all occurrences, ".toList ++
      "or provide more surrounding context to make the match unique.".toList

/-- What becomes of a replacement before anything is written. -/
inductive ReplaceOutcome
  | crash
  | refused (message : Str)
  | replaced (content : Str) (count : Nat)
  deriving DecidableEq

/-- A refusal whose message may panic. -/
def ReplaceOutcome.ofText : Option Str → ReplaceOutcome
  | none => .crash
  | some m => .refused m

/-- `execute` after the file was read — replace_source.rs:55-60, 66-91. -/
def replaceOutcome (content path old new : Str) (all : Bool) : ReplaceOutcome :=
  if old = [] then .refused "old_string cannot be empty.".toList
  else if matchCount old content = 0 then .ofText (notFoundText old path)
  else if matchCount old content > 1 ∧ all = false then .ofText (severalText (matchCount old content) old)
  else if all then .replaced (strReplace old new content) (matchCount old content)
  else .replaced (replaceFirst old new content) 1

end Firm
