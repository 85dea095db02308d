import Verif.Model.Prompt

/-!
# What the prompts of `firm add` suggest

Rust source: `/repo/firm_cli/src/commands/field_prompt.rs`. A suggestion that is chosen takes the place of the text
that was typed (`inquire`'s `Autocomplete` for a closure).
-/

namespace Firm

/-- `get_reference_suggestions` — field_prompt.rs:310-360. `types` are the types of the graph in the order in which
the hash map is enumerated. -/
def referenceSuggestions (T : CaseTable) (types : List EntityType) (g : Graph) (input : Str) : List Str :=
  match splitChar '.' input with
  | [t] => (types.filter fun k => t.isPrefixOf k).map (· ++ ['.'])
  | [t, i] => ((g.listByType t).filter fun e => (T.composeEntityId t i).isPrefixOf e.id).map (·.id)
  | [t, i, f] =>
    match g.getEntity (T.composeEntityId t i) with
    | some e => (e.fields.filter fun p => f.isPrefixOf p.1).map fun p => e.id ++ '.' :: p.1
    | none => []
  | _ => []

/-- `search_dir` — field_prompt.rs:569-578. The parent of the root is the workspace. -/
def suggestDir (ws : List Str) (input : Str) : List PathComp :=
  if input = [] ∨ input.getLast? = some '/' then joinComps ws input
  else
    match (joinComps ws input).getLast? with
    | none | some .rootDir => .rootDir :: ws.map .normal
    | some _ => (joinComps ws input).dropLast

/-- The slash after directories — field_prompt.rs:589-593. -/
def slashAfter : FsTree → Str
  | .dir _ => ['/']
  | _ => []

/-- One entry of the directory — field_prompt.rs:583-599. `to_string_lossy` changes nothing, since names are text. -/
def pathSuggestion (ws : List Str) (input : Str) (entry : Str × FsTree) : Option Str :=
  match diffComps (suggestDir ws input ++ [.normal entry.1]) (.rootDir :: ws.map .normal) with
  | some rel =>
    let s := showComps rel ++ slashAfter entry.2
    if input.isPrefixOf s then some s else none
  | none => none

/-- `get_path_suggestions` — field_prompt.rs:565-604. A directory that cannot be listed gives no suggestions; its
entries come in the order of the disk, which is arbitrary. -/
def pathSuggestions (d : FsTree) (ws : List Str) (input : Str) : List Str :=
  match (d.resolve [] (suggestDir ws input)).bind d.lookup with
  | some (.dir (some es)) => es.filterMap (pathSuggestion ws input)
  | _ => []

end Firm
