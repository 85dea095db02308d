import Verif.Model.Printed
import Verif.Model.Reading
import Verif.Model.Saved

/-!
# The command line

Rust sources: `/repo/firm_cli/src/{main,files}.rs` and `/repo/firm_cli/src/commands/{build,get,list,related,query,source,add}.rs`.

The output is what goes to the standard output; messages go to the standard error and are left out, and `none` is the exit
code of a failure. The workspace is given by an absolute path without symbolic links. `init` and `mcp` are modelled elsewhere
(`Model/Init.lean`, `Model/Mcp.lean`), as is the dialogue of `add` (`Model/Prompt.lean`).
-/

namespace Firm

/-! ## files.rs -/

/-- `CURRENT_GRAPH_NAME` — files.rs:7. -/
def currentName : Str := "current.firm.graph".toList

/-- `BACKUP_GRAPH_NAME` — files.rs:8. -/
def backupName : Str := "backup.firm.graph".toList

/-- `fs::rename` as `rename(2)` does it; `none` is an error. A directory whose entries cannot be listed counts as not empty. -/
def FsTree.rename (d : FsTree) (src dst : List Str) : Option FsTree :=
  match d.lookup src with
  | none => none
  | some (.dir e) =>
    match d.lookup dst with
    | none => some ((d.remove src).place dst (.dir e))
    | some (.dir (some [])) => some ((d.remove src).place dst (.dir e))
    | some _ => none
  | some t =>
    match d.lookup dst with
    | some (.dir _) => none
    | _ => some ((d.remove src).place dst t)

/-- The backup step — files.rs:37-45; `none` is an error. -/
def setGraphAside (ws : List Str) (d : FsTree) : Option FsTree :=
  match d.lookup (ws ++ [currentName]) with
  | none => some d
  | some _ => d.rename (ws ++ [currentName]) (ws ++ [backupName])

/-- `save_graph_with_backup` — files.rs:30-61: the disk afterwards and whether it succeeded. -/
def saveGraphFile (C : Codec) (o : MapOrder) (ws : List Str) (d : FsTree) (g : Graph) : FsTree × Bool :=
  match setGraphAside ws d with
  | none => (d, false)
  | some d1 =>
    match d1.writeFile (ws ++ [currentName]) (graphText C o g) with
    | none => (d1, false)
    | some d2 => (d2, true)

/-- `load_current_graph` — files.rs:64-93; `none` is an error. -/
def loadGraphFile (C : Codec) (ws : List Str) (d : FsTree) : Option Graph :=
  match d.lookup (ws ++ [currentName]) with
  | none => none
  | some _ => (d.readText (ws ++ [currentName])).bind (readGraph C)

/-! ## commands -/

/-- What a run takes from its surroundings and does not change. -/
structure Machine where
  host : Host
  screen : Screen
  shell : Shell

/-- What may differ from run to run: the orders in which hash containers are enumerated, and sorting. -/
structure Chance where
  /-- The files of the workspace in the first build. -/
  files : Workspace → Workspace
  /-- The files of the workspace where a command loads them itself. -/
  again : Workspace → Workspace
  /-- The maps of the graph when it is saved. -/
  maps : MapOrder
  rt : Runtime

/-- `load_workspace_files` — commands/build.rs:28-49; `none` is an error. -/
def loadFiles (H : Host) (d : FsTree) : Option Workspace :=
  match d.lookup H.ws with
  | none => none
  | some t =>
    match Workspace.loadDirectory H.grammar [] (placeText H.ws) t with
    | (w, .ok _) => some w
    | (_, .error _) => none

/-- `load_workspace_files` and `build_workspace` — commands/build.rs:28-70; `none` is an error. -/
def loadBuild (H : Host) (order : Workspace → Workspace) (d : FsTree) : Option WorkspaceBuild :=
  match loadFiles H d with
  | none => none
  | some w =>
    match (order w).build H.lang with
    | .ok b => some b
    | .error _ => none

/-- `build_and_save_graph` — commands/build.rs:10-25: the disk afterwards and whether it succeeded. -/
def buildAndSave (M : Machine) (x : Chance) (d : FsTree) : FsTree × Bool :=
  match loadBuild M.host x.files d with
  | none => (d, false)
  | some b =>
    match b.toGraph with
    | (_, .error _) => (d, false)
    | (g, .ok _) => saveGraphFile M.screen.codec x.maps M.host.ws d g

/-- `get_item` — commands/get.rs:11-91. -/
def getCommand (M : Machine) (x : Chance) (f : OutputFormat) (d : FsTree) (type id : Str) : Option Str :=
  if type = "schema".toList then
    match loadBuild M.host x.again d with
    | none => none
    | some b => (b.schemas.find? fun s => decide (s.entityType = id)).map fun s => outputSchema M.screen s f
  else
    match loadGraphFile M.screen.codec M.host.ws d with
    | none => none
    | some g => (cliGetEntity M.host.lang.cases g type id).map fun e => outputEntity M.screen e f

/-- `list_items` — commands/list.rs:10-63. -/
def listCommand (M : Machine) (x : Chance) (f : OutputFormat) (d : FsTree) (type : Str) : Option Str :=
  if type = "schema".toList then
    match loadBuild M.host x.again d with
    | none => none
    | some b => some (listOutput M.screen.codec (b.schemas.map (·.entityType)) f)
  else
    match loadGraphFile M.screen.codec M.host.ws d with
    | none => none
    | some g => some (listOutput M.screen.codec (cliListEntities g type) f)

/-- `get_related_entities` — commands/related.rs:10-53. -/
def relatedCommand (M : Machine) (f : OutputFormat) (d : FsTree) (type id : Str) (dir : Option CliDirection) : Option Str :=
  match loadGraphFile M.screen.codec M.host.ws d with
  | none => none
  | some g => (cliRelated M.host.lang.cases g type id dir).map fun es => outputEntities M.screen es f

/-- `query_entities` — commands/query.rs:11-54. -/
def queryCommand (M : Machine) (x : Chance) (f : OutputFormat) (d : FsTree) (text : Str) : Option Str :=
  match loadGraphFile M.screen.codec M.host.ws d with
  | none => none
  | some g =>
    match runQuery M.host.lang x.rt g text with
    | .error _ => none
    | .ok r => some (outputResult M.screen r f)

/-- `SourceResult` — commands/source.rs:41-45. -/
def saveSource (type id path : Str) : JVal :=
  .object [("target_type".toList, .string type), ("target_id".toList, .string id), ("source_path".toList, .string path)]

/-- `find_item_source` — commands/source.rs:9-68. The path is UTF-8. -/
def sourceCommand (M : Machine) (x : Chance) (f : OutputFormat) (d : FsTree) (type id : Str) : Option Str :=
  match loadFiles M.host d with
  | none => none
  | some w =>
    (if type = "schema".toList then (x.again w).findSchemaSource id else (x.again w).findEntitySource type id).map fun path =>
      match f with
      | .pretty => printLine path
      | .json => jsonOutput M.screen.codec (saveSource type id path)

/-- `add_entity_non_interactive` — commands/add.rs:72-287, with the graph and the schemas it loads (83-86). What it prints is
left out. -/
def addCommand (M : Machine) (x : Chance) (d : FsTree) (a : AddArgs) : FsTree × Option Str :=
  match loadGraphFile M.screen.codec M.host.ws d with
  | none => (d, none)
  | some g =>
    match loadBuild M.host x.again d with
    | none => (d, none)
    | some b =>
      match M.shell.add g b.schemas d a with
      | (d', true) => (d', some [])
      | (d', false) => (d', none)

/-! ## main.rs -/

/-- `FirmCliCommand` — cli.rs:34-95, without `Init` and `Mcp`. -/
inductive Command where
  | build
  | get (type id : Str)
  | list (type : Str)
  | related (type id : Str) (dir : Option CliDirection)
  | query (text : Str)
  | source (type id : Str)
  | add (a : AddArgs)

/-- The commands before which nothing is built — main.rs:38-45. -/
def Command.skipsBuild : Command → Bool
  | .build => true
  | .source _ _ => true
  | _ => false

/-- The subcommands — main.rs:55-101: the disk afterwards and the output. -/
def Command.run (M : Machine) (x : Chance) (f : OutputFormat) (d : FsTree) : Command → FsTree × Option Str
  | .build =>
    match buildAndSave M x d with
    | (d', true) => (d', some [])
    | (d', false) => (d', none)
  | .get type id => (d, getCommand M x f d type id)
  | .list type => (d, listCommand M x f d type)
  | .related type id dir => (d, relatedCommand M f d type id dir)
  | .query text => (d, queryCommand M x f d text)
  | .source type id => (d, sourceCommand M x f d type id)
  | .add a => addCommand M x d a

/-- `main` — main.rs:22-104. -/
def firm (M : Machine) (x : Chance) (cached : Bool) (f : OutputFormat) (d : FsTree) (c : Command) : FsTree × Option Str :=
  if cached || c.skipsBuild then c.run M x f d
  else
    match buildAndSave M x d with
    | (d', true) => c.run M x f d'
    | (d', false) => (d', none)

end Firm
