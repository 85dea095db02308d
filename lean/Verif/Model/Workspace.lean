import Verif.Model.Dsl
import Verif.Model.Graph

/-!
# Workspaces: loading source files and building

Rust sources: `/repo/firm_lang/src/workspace/{mod,io,build}.rs`, `/repo/firm_lang/src/parser/dsl/`
`parsed_source.rs` and the graph loading of `/repo/firm_cli/src/commands/build.rs`.
-/

namespace Firm

/-- `ParsedSource` — parsed_source.rs:15-24: the syntax tree and the workspace-relative path. The
text itself is the text of the tree's nodes. -/
structure SourceFile where
  root : Node
  rel : Str
  deriving Repr, Inhabited

/-- `ParsedSource::entities` — parsed_source.rs:38-50. -/
def SourceFile.entities (f : SourceFile) : List Node :=
  f.root.children.filter fun c => c.kind = "entity_block".toList

/-- `ParsedSource::schemas` — parsed_source.rs:53-65. -/
def SourceFile.schemas (f : SourceFile) : List Node :=
  f.root.children.filter fun c => c.kind = "schema_block".toList

/-- `Workspace` — workspace/mod.rs:17-19: the entries of the hash map in the order in which it is
enumerated (theorems about every list cover every order). -/
abbrev Workspace := List (Str × SourceFile)

/-- `WorkspaceError` — workspace/workspace_errors.rs:9-14, messages left out (see Model/WorkspaceText.lean); `panic` stands for a
panic while converting. -/
inductive WorkspaceError where
  | io
  | parse (path : Str)
  | validation (path : Str)
  | missingSchema (path : Str) (t : EntityType)
  | panic
  deriving DecidableEq, Repr, Inhabited

/-! ## Loading -/

/-- `path.strip_prefix(base)` on components; `none` is an error. -/
def stripComps : List PathComp → List PathComp → Option (List PathComp)
  | cs, [] => some cs
  | [], _ :: _ => none
  | c :: cs, b :: bs => if c = b then stripComps cs bs else none

/-- `Workspace::load_file` — workspace/io.rs:11-30. `text` is what `read_to_string` gives (`none` is an
error) and `grammar` is tree-sitter's parser, which always yields a tree. -/
def Workspace.loadFile (grammar : Str → Node) (w : Workspace) (path base : Str) (text : Option Str) :
    Workspace × Except WorkspaceError Unit :=
  match text with
  | none => (w, .error .io)
  | some t =>
    match stripComps (pathComponents path) (pathComponents base) with
    | none => (w, .error (.parse path))
    | some rel => (mapInsert w path ⟨grammar t, showComps rel⟩, .ok ())

/-- What a directory contains; `none` stands for a read error. Simplification: a finite tree, so no
cycles through symbolic links. -/
inductive FsTree where
  | file (text : Option Str)
  | other
  | dir (entries : Option (List (Str × FsTree)))
  deriving Repr, Inhabited

/-- `Path::extension` of a file name: what follows the last dot, unless that dot is the first
character or there is none. -/
def extensionOf (name : Str) : Option Str :=
  match splitChar '.' name with
  | [] => none
  | [_] => none
  | [p, e] => if p = [] then none else some e
  | ps => ps.getLast?

/-- `is_firm_file` — workspace/io.rs:60-65. -/
def isFirmFile (name : Str) : Bool := extensionOf name == some "firm".toList

/-- `dir.join(name)` for the name of a directory entry. -/
def joinPath (dir name : Str) : Str :=
  if dir = [] ∨ dir.getLast? = some '/' then dir ++ name else dir ++ '/' :: name

mutual
/-- `load_directory_recursive` — workspace/io.rs:38-57. -/
def loadTree (grammar : Str → Node) (base : Str) (w : Workspace) (path : Str) :
    FsTree → Workspace × Except WorkspaceError Unit
  | .dir none => (w, .error .io)
  | .dir (some es) => loadEntries grammar base w path es
  | _ => (w, .error .io)
/-- The loop over the directory entries — workspace/io.rs:45-54. -/
def loadEntries (grammar : Str → Node) (base : Str) (w : Workspace) (path : Str) :
    List (Str × FsTree) → Workspace × Except WorkspaceError Unit
  | [] => (w, .ok ())
  | (name, .dir d) :: es =>
    match loadTree grammar base w (joinPath path name) (.dir d) with
    | (w, .ok _) => loadEntries grammar base w path es
    | r => r
  | (name, .file text) :: es =>
    if isFirmFile name then
      match w.loadFile grammar (joinPath path name) base text with
      | (w, .ok _) => loadEntries grammar base w path es
      | r => r
    else loadEntries grammar base w path es
  | (_, .other) :: es => loadEntries grammar base w path es
end

/-- `Workspace::load_directory` — workspace/io.rs:33-35. -/
def Workspace.loadDirectory (grammar : Str → Node) (w : Workspace) (path : Str) (t : FsTree) :
    Workspace × Except WorkspaceError Unit := loadTree grammar path w path t

/-! ## Building -/

/-- `WorkspaceBuild` — workspace/build.rs:8-11. -/
structure WorkspaceBuild where
  entities : List Entity
  schemas : List EntitySchema
  deriving DecidableEq, Repr, Inhabited

/-- The schemas of one file in the first pass — workspace/build.rs:44-57. -/
def addSchemas (L : Lang) (path rel : Str) :
    List (EntityType × EntitySchema) → List Node →
      Except WorkspaceError (List (EntityType × EntitySchema))
  | m, [] => .ok m
  | m, n :: ns =>
    match toSchema L rel n with
    | .error .panic => .error .panic
    | .error _ => .error (.parse path)
    | .ok s =>
      if (mapGet m s.entityType).isSome then .error (.validation path)
      else addSchemas L path rel (mapInsert m s.entityType s) ns

/-- First pass — workspace/build.rs:43-58. -/
def schemaPass (L : Lang) : List (EntityType × EntitySchema) → Workspace →
    Except WorkspaceError (List (EntityType × EntitySchema))
  | m, [] => .ok m
  | m, (path, f) :: fs =>
    match addSchemas L path f.rel m f.schemas with
    | .error e => .error e
    | .ok m => schemaPass L m fs

/-- One entity of the second pass — workspace/build.rs:70-86. -/
def checkEntity (L : Lang) (schemas : List (EntityType × EntitySchema)) (path rel : Str) (n : Node) :
    Except WorkspaceError Entity :=
  match toEntity L rel n with
  | .error .panic => .error .panic
  | .error _ => .error (.parse path)
  | .ok e =>
    match mapGet schemas e.entityType with
    | none => .error (.missingSchema path e.entityType)
    | some s =>
      match s.validate L.env e with
      | .error _ => .error (.validation path)
      | .ok _ => .ok e

/-- Second pass — workspace/build.rs:65-92. -/
def entityPass (L : Lang) (schemas : List (EntityType × EntitySchema)) : Workspace →
    Except WorkspaceError (List Entity)
  | [] => .ok []
  | (path, f) :: fs =>
    match collectResults (checkEntity L schemas path f.rel) f.entities with
    | .error e => .error e
    | .ok es =>
      match entityPass L schemas fs with
      | .error e => .error e
      | .ok rest => .ok (es ++ rest)

/-- `Workspace::build` — workspace/build.rs:21-96; the progress callback is left out. -/
def Workspace.build (L : Lang) (w : Workspace) : Except WorkspaceError WorkspaceBuild :=
  match schemaPass L [] w with
  | .error e => .error e
  | .ok m =>
    match entityPass L m w with
    | .error e => .error e
    | .ok es => .ok ⟨es, m.map (·.2)⟩

/-- `find_entity_source` — workspace/mod.rs:50-59. -/
def Workspace.findEntitySource (w : Workspace) (type id : Str) : Option Str :=
  (w.find? fun p => p.2.entities.any fun n =>
    decide (entityTypeOf n = some type) && decide (entityIdOf n = some id)).map (·.1)

/-- `find_schema_source` — workspace/mod.rs:67-76. -/
def Workspace.findSchemaSource (w : Workspace) (name : Str) : Option Str :=
  (w.find? fun p => p.2.schemas.any fun n => decide (schemaName n = some name)).map (·.1)

/-- Loading a build into a graph — firm_cli/src/commands/build.rs:73-96. -/
def WorkspaceBuild.toGraph (b : WorkspaceBuild) : Graph × Except GraphError Unit :=
  match Graph.empty.addEntities b.entities with
  | (g, .error e) => (g, .error e)
  | (g, .ok _) => (g.build, .ok ())

end Firm
