import Verif.Model.Workspace
import Verif.Spec.Schema
import Mathlib.Data.List.Forall2

/-!
# Specification of a valid workspace
-/

namespace Firm.Spec

/-- All blocks of a kind in the files, each with the path of its file. -/
def blocksOf (kind : String) (w : Workspace) : List (Str × Node) :=
  w.flatMap fun p => (p.2.root.children.filter fun c => c.kind = kind.toList).map fun c => (p.2.rel, c)

/-- The files contain exactly the schemas `ss` and the entities `es`, in file order, and all of it is
valid. -/
structure ValidWorkspace (L : Lang) (w : Workspace) (ss : List EntitySchema) (es : List Entity) :
    Prop where
  /-- Every schema block converts, to `ss`. -/
  schemas : List.Forall₂ (fun b s => toSchema L b.1 b.2 = .ok s) (blocksOf "schema_block" w) ss
  /-- Every entity block converts, to `es`. -/
  entities : List.Forall₂ (fun b e => toEntity L b.1 b.2 = .ok e) (blocksOf "entity_block" w) es
  /-- No two schemas define the same type. -/
  oneSchema : (ss.map (·.entityType)).Nodup
  /-- Every entity has a schema of its type and conforms to it. -/
  checked : ∀ e ∈ es, ∃ s ∈ ss, s.entityType = e.entityType ∧ Conforms L.env s e

end Firm.Spec
