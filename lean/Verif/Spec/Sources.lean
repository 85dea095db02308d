import Verif.Model.Workspace
import Mathlib.Data.List.Forall2

/-!
# Specification of what counts in a source file
-/

namespace Firm.Spec

/-- The kinds of nodes that carry what a file says. -/
def carrying : List Str :=
  ["entity_block".toList, "schema_block".toList, "nested_block".toList, "block".toList, "field".toList,
    "value".toList, "entity_type".toList, "entity_id".toList, "schema_name".toList,
    "block_type".toList, "field_name".toList]

/-- The kinds whose text is a name. -/
def naming : List Str :=
  ["entity_type".toList, "entity_id".toList, "schema_name".toList, "block_type".toList,
    "field_name".toList]

/-- The text of a literal; the text of a list does not count. -/
def valueText (t : Str) : List Node → Str
  | [] => []
  | .mk h _ _ :: _ => if h = "list".toList then [] else t

mutual
/-- What counts of a node: of names their text, of values what `valueEssence` says, of everything else
only those children that carry something. -/
def essence : Node → Node
  | .mk k t cs =>
    if k ∈ naming then .mk k t []
    else if k = "value".toList then .mk k (valueText t cs) (valueEssence cs)
    else .mk k [] (essences cs)
/-- What counts of a value: the kind of a literal, the items of a list. -/
def valueEssence : List Node → List Node
  | [] => []
  | .mk h _ items :: _ =>
    if h = "list".toList then [.mk h [] (essences items)] else [.mk h [] []]
/-- What counts of a sequence of nodes: nodes of other kinds (comments, brackets, errors) do not. -/
def essences : List Node → List Node
  | [] => []
  | n :: ns => if n.kind ∈ carrying then essence n :: essences ns else essences ns
end

/-- Two source files at the same place say the same. -/
def SaysTheSame (f g : SourceFile) : Prop :=
  f.rel = g.rel ∧ essences f.root.children = essences g.root.children

/-- Two workspaces have the same files, which say the same. -/
def SameWorkspaces (w w' : Workspace) : Prop :=
  List.Forall₂ (fun p q => p.1 = q.1 ∧ SaysTheSame p.2 q.2) w w'

/-- A node somewhere in a tree. -/
inductive Inside : Node → Node → Prop where
  | here (n : Node) : Inside n n
  | under {n : Node} {k t : Str} {cs : List Node} {c : Node} : c ∈ cs → Inside n c → Inside n (.mk k t cs)

/-- tree-sitter could not make sense of some part of the file — `has_error`, parsed_source.rs:33-35,
missing tokens left out. -/
def Broken (f : SourceFile) : Prop := ∃ n, Inside n f.root ∧ n.kind = "ERROR".toList

end Firm.Spec
