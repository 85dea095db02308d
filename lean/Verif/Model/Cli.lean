import Verif.Model.Mcp

/-!
# The command line program

Rust sources: `/repo/firm_cli/src/files.rs`, `/repo/firm_cli/src/commands/add.rs`.

Messages, prompts and progress bars are left out.
-/

namespace Firm

/-! ## The saved graph (files.rs) -/

/-- The two graph files of a workspace — files.rs:7-8; `none` is a missing file. -/
structure GraphFiles where
  current : Option Str
  backup : Option Str
  deriving DecidableEq, Repr

/-- The backup step of `save_graph_with_backup` — files.rs:38-46; renaming is atomic. -/
def GraphFiles.setAside (f : GraphFiles) : GraphFiles :=
  match f.current with
  | none => f
  | some text => ⟨none, some text⟩

/-- The states the files pass through during `save_graph_with_backup` — files.rs:30-61. `fs::write`
creates an empty file and then writes the text piece by piece. -/
def GraphFiles.saveTrace (f : GraphFiles) (json : Str) : List GraphFiles :=
  f :: f.setAside :: (List.range (json.length + 1)).map fun n => ⟨some (json.take n), f.setAside.backup⟩

/-- The state when `save_graph_with_backup` returns `Ok` — files.rs:59-60. -/
def GraphFiles.save (f : GraphFiles) (json : Str) : GraphFiles := ⟨some json, f.setAside.backup⟩

/-- A run of `firm build`: completed, or interrupted after some of the steps. -/
inductive BuildRun where
  | done (json : Str)
  | cut (json : Str) (step : Nat)

/-- The files after a run. -/
def GraphFiles.after (f : GraphFiles) : BuildRun → GraphFiles
  | .done json => f.save json
  | .cut json step => ((f.saveTrace json)[step]?).getD (f.save json)

/-- `load_current_graph` — files.rs:64-93, for a given deserialiser. -/
def GraphFiles.load {α : Type} (f : GraphFiles) (read : Str → Option α) : Option α := f.current.bind read

/-! ## Adding entities (add.rs) -/

/-- What the command takes from its surroundings. -/
structure Shell where
  lang : Lang
  /-- `char::is_alphanumeric`. -/
  alnum : Char → Bool
  /-- The path field of an argument, relative to the target file — add.rs:557-583. -/
  pathArg : List PathComp → Str → Str
  /-- The order in which a hash map enumerates its entries. -/
  order : List (Str × Str) → List (Str × Str)
  /-- The workspace directory. -/
  ws : List Str

/-- `Path::canonicalize` of an absolute path, the path itself if it leads nowhere — add.rs:572-578. There are
no symbolic links. -/
def FsTree.canonical (d : FsTree) (cs : List PathComp) : List PathComp :=
  match d.resolve [] cs with
  | none => cs
  | some loc =>
    match d.lookup loc with
    | none => cs
    | some _ => .rootDir :: loc.map .normal

/-- The path branch of `parse_field_value_from_string` — add.rs:553-584: the value of `Shell.pathArg` for a
disk and a current directory. Simplification: the workspace path is absolute. -/
def pathArgument (d : FsTree) (cwd : List Str) (target : List PathComp) (s : Str) : Str :=
  let path := d.canonical (joinComps cwd s)
  match diffComps path (d.canonical (parentOf target)) with
  | some rel => showComps rel
  | none => showComps path

/-- `sanitize_entity_id` — add.rs:424-430. -/
def Shell.sanitize (S : Shell) (input : Str) : Str :=
  S.lang.cases.snake (input.filter fun c => c == ' ' || c == '_' || c == '-' || S.alnum c)

/-- The loop of `compute_unique_entity_id` — add.rs:447-454: `n` more rounds, counter `k`. -/
def Shell.uniqueLoop (S : Shell) (g : Graph) (type base : Str) : Nat → Nat → Str → Str
  | 0, _, id => id
  | n + 1, k, id =>
    if (g.getEntity (S.lang.cases.composeEntityId type id)).isSome then
      S.uniqueLoop g type base n (k + 1) (base ++ '_' :: showNat k)
    else id

/-- `compute_unique_entity_id` — add.rs:438-457: at most 999 rounds. -/
def Shell.uniqueEntityId (S : Shell) (g : Graph) (type chosen : Str) : Str :=
  S.uniqueLoop g type (S.sanitize chosen) 999 1 (S.sanitize chosen)

/-- `slice::chunks(2)`, incomplete chunks dropped — add.rs:118-119. -/
def pairsOf : List Str → List (Str × Str)
  | a :: b :: rest => (a, b) :: pairsOf rest
  | _ => []

/-- `parse_field_value_from_string` — add.rs:537-594. -/
def Shell.fieldValue (S : Shell) (target : List PathComp) (t : FieldType) (s : Str) : Option ParsedValue :=
  match t with
  | .boolean => (parseBoolean s).toOption
  | .string => (parseString s).toOption
  | .integer => (parseNumber S.lang s).toOption
  | .float => (parseNumber S.lang s).toOption
  | .currency => (parseCurrency S.lang s).toOption
  | .reference => (parseReference s).toOption
  | .dateTime =>
    match parseDateTime S.lang s with
    | .ok v => some v
    | .error _ => (parseDate S.lang s).toOption
  | .enum => (parseEnum s).toOption
  | .path => some (.path (S.pathArg target s))
  | .list => none

/-- The loop over `--field` — add.rs:141-188. -/
def Shell.addFields (S : Shell) (target : List PathComp) (sc : EntitySchema) :
    Entity → List (Str × Str) → Option Entity
  | e, [] => some e
  | e, (name, text) :: rest =>
    match mapGet sc.fields (S.lang.cases.snake name) with
    | none => none
    | some fd =>
      match S.fieldValue target fd.fieldType text with
      | none => none
      | some v =>
        S.addFields target sc (e.withField (S.lang.cases.snake name) (toFieldValue S.lang.cases v)) rest

/-- The items of one list — add.rs:239-247. -/
def Shell.items (S : Shell) (target : List PathComp) (t : FieldType) : List Str → Option (List ParsedValue)
  | [] => some []
  | s :: rest =>
    match S.fieldValue target t s with
    | none => none
    | some v => (S.items target t rest).map (v :: ·)

/-- The loop over `--list` — add.rs:191-267: `values` are the pairs given with `--list-value`. -/
def Shell.addLists (S : Shell) (target : List PathComp) (sc : EntitySchema) (values : List (Str × Str)) :
    Entity → List (Str × Str) → Option Entity
  | e, [] => some e
  | e, (name, itemType) :: rest =>
    match mapGet sc.fields (S.lang.cases.snake name) with
    | none => none
    | some fd =>
      if fd.fieldType = .list then
        match parseListItemType S.lang.env itemType with
        | none => none
        | some t =>
          match (values.filter fun p => decide (p.1 = name)).map (·.2) with
          | [] => none
          | texts =>
            match S.items target t texts with
            | none => none
            | some vs =>
              match parseListFromVec vs with
              | .error _ => none
              | .ok v =>
                S.addLists target sc values
                  (e.withField (S.lang.cases.snake name) (toFieldValue S.lang.cases v)) rest
      else none

/-- `Path::file_stem` of a file name. -/
def stemOf (name : Str) : Str :=
  match extensionOf name with
  | none => name
  | some ext => name.take (name.length - ext.length - 1)

/-- `Path::with_extension("firm")`. -/
def withFirmExtension (cs : List PathComp) : List PathComp :=
  match cs.getLast? with
  | some (.normal name) => cs.dropLast ++ [.normal (stemOf name ++ ".firm".toList)]
  | _ => cs

/-- The path before the extension is set — add.rs:470-475. -/
def Shell.basePath (S : Shell) (toFile : Option Str) (type : Str) : List PathComp :=
  match toFile with
  | some file => joinComps S.ws file
  | none => if type.head? = some '/' then pathComponents type else joinComps S.ws ("generated/".toList ++ type)

/-- `compute_dsl_path` — add.rs:462-478. -/
def Shell.dslPath (S : Shell) (toFile : Option Str) (type : Str) : List PathComp :=
  withFirmExtension (S.basePath toFile type)

/-- The arguments of `firm add` — add.rs:72-81. -/
structure AddArgs where
  toFile : Option Str
  type : Str
  id : Str
  fields : List Str
  lists : List Str
  listValues : List Str

/-- The entity that `add_entity_non_interactive` writes — add.rs:88-276; `g` is the saved graph and
`schemas` those of the build. -/
def Shell.entityToAdd (S : Shell) (g : Graph) (schemas : List EntitySchema) (a : AddArgs) : Option Entity :=
  match schemas.find? fun s => decide (s.entityType = a.type) with
  | none => none
  | some sc =>
    let id := S.lang.cases.composeEntityId a.type (S.sanitize a.id)
    match g.getEntity id with
    | some _ => none
    | none =>
      let target := S.dslPath a.toFile a.type
      match S.addFields target sc (Entity.new id sc.entityType) (pairsOf a.fields) with
      | none => none
      | some e =>
        let listTypes := (pairsOf a.lists).foldl (fun m p => mapInsert m p.1 p.2) []
        match S.addLists target sc (pairsOf a.listValues) e (S.order listTypes) with
        | none => none
        | some e =>
          match sc.validate S.lang.env e with
          | .error _ => none
          | .ok _ => some e

/-- `write_dsl` — add.rs:481-512: the text is put at the end of the file. A file that is not text
stays one that is not text. -/
def cliAppend (d : FsTree) (loc : List Str) (dsl : Str) : FsTree × Bool :=
  match d.createDirAll loc.dropLast with
  | none => (d, false)
  | some d1 =>
    match d1.lookup loc with
    | none =>
      match d1.writeFile loc dsl with
      | none => (d1, false)
      | some d2 => (d2, true)
    | some (.file (some old)) =>
      match d1.writeFile loc (old ++ dsl) with
      | none => (d1, false)
      | some d2 => (d2, true)
    | some (.file none) => (d1, true)
    | some _ => (d1, false)

/-- `add_entity_non_interactive` — add.rs:72-287: the disk afterwards and whether it succeeded. -/
def Shell.add (S : Shell) (g : Graph) (schemas : List EntitySchema) (d : FsTree) (a : AddArgs) : FsTree × Bool :=
  match S.entityToAdd g schemas a with
  | none => (d, false)
  | some e => cliAppend d (lexicalPlace [] (S.dslPath a.toFile a.type)) (generateDsl S.lang .default [e])

end Firm
