import Verif.Model.Mcp

/-!
# The texts of `source_tree` and `search_source`

Rust sources: `/repo/firm_mcp/src/tools/{source_tree,search_source}.rs`. What they list is in
Model/Mcp.lean; this is how they write it.
-/

namespace Firm

/-- One directory of the tree — source_tree.rs:42-57. -/
def showDirectory (g : Str × List Str) : Str :=
  if g.1 = [] then g.2.flatMap fun f => f ++ ['\n']
  else g.1 ++ "/\n".toList ++ g.2.flatMap fun f => "  ".toList ++ f ++ ['\n']

/-- `execute` of `source_tree` — source_tree.rs:17-60. -/
def sourceTreeText (ws : Str) (w : Workspace) : Str :=
  if relativePaths ws w = [] then "No .firm source files found.".toList
  else trimEnd ((sourceTree ws w).flatMap showDirectory)

/-- One matching line — search_source.rs:74. -/
def showMatch (m : Nat × Str) : Str := "  ".toList ++ showNat m.1 ++ ":  ".toList ++ trim m.2

/-- The matches of one file — search_source.rs:71-77. -/
def showMatches (g : Str × List (Nat × Str)) : Str :=
  g.1 ++ ":\n".toList ++ (g.2.flatMap fun m => showMatch m ++ ['\n']) ++ ['\n']

/-- What is written when the result is cut off — search_source.rs:92-99. -/
def cutText : Str :=
  "\n\n... results truncated at 50 matches.".toList ++ " Narrow your search for more specific results.".toList

/-- `execute` of `search_source` — search_source.rs:28-102; `none` is the error for an empty query. There are
no matches exactly when no group is printed. -/
def searchText (H : Host) (s : Server) (query : Str) (caseSensitive : Bool) : Option Str :=
  (searchSource H s query caseSensitive).map fun r =>
    if r.1 = [] then "No matches found for '".toList ++ query ++ "'.".toList
    else trimEnd (r.1.flatMap showMatches) ++ (if r.2 then cutText else [])

end Firm
