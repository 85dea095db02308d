import Verif.Model.Disk
import Verif.Model.Generate

/-!
# The MCP server

Rust sources: `/repo/firm_mcp/src/{server,resources}.rs` and `/repo/firm_mcp/src/tools/*.rs`.

Texts of replies are left out except where a property speaks about them.
-/

namespace Firm

/-- What the server does not compute itself. -/
structure Host where
  lang : Lang
  /-- tree-sitter's parser. -/
  grammar : Str → Node
  /-- `!ParsedSource::has_error()` of the parsed text — parsed_source.rs:33-35. -/
  accepts : Str → Bool
  /-- `parse_from_rfc3339`. -/
  parseRfc3339 : Str → Option DateTime
  /-- The workspace directory, an absolute path without symbolic links. -/
  ws : List Str

/-- `ServerState` — server.rs:54-58. -/
structure ServerState where
  workspace : Workspace
  build : WorkspaceBuild
  graph : Graph

/-- The server together with the disk it works on. -/
structure Server where
  disk : FsTree
  state : ServerState

/-- The kinds of replies: success, success with a warning that the workspace is broken, error. -/
inductive Reply where
  | success
  | warning
  | error
  deriving DecidableEq, Repr, Inhabited

/-! ## resources.rs -/

/-- `source_file_uri` — resources.rs:19-21. -/
def sourceFileUri (rel : Str) : Str := "firm://source/".toList ++ rel

/-- `parse_source_uri` — resources.rs:26-33. -/
def parseSourceUri (uri : Str) : Option Str :=
  if startsWith uri "firm://source/".toList then some (uri.drop "firm://source/".toList.length) else none

/-- `to_relative_path` — resources.rs:51-56. -/
def toRelativePath (ws path : Str) : Option Str :=
  (stripComps (pathComponents path) (pathComponents ws)).map showComps

/-- The last branch of `to_absolute_path` — resources.rs:79-86. -/
def newPath (ws : List Str) (rel : Str) : Option (List Str) :=
  if strContains rel "..".toList then none else some (lexicalPlace ws (pathComponents rel))

/-- `to_absolute_path` — resources.rs:62-87. -/
def toAbsolutePath (d : FsTree) (ws : List Str) (rel : Str) : Option (List Str) :=
  match d.resolve ws (pathComponents rel) with
  | none => newPath ws rel
  | some loc =>
    match d.lookup loc with
    | none => newPath ws rel
    | some _ => if ws.isPrefixOf loc then some loc else none

/-- `Path::extension` of a place is `firm`. -/
def hasFirmExtension (loc : List Str) : Bool :=
  match loc.getLast? with
  | none => false
  | some name => isFirmFile name

/-- `read_source_file` — resources.rs:90-103. -/
def readSourceFile (d : FsTree) (ws : List Str) (rel : Str) : Option Str :=
  match toAbsolutePath d ws rel with
  | none => none
  | some loc =>
    match d.lookup loc with
    | none => none
    | some _ => if hasFirmExtension loc then d.readText loc else none

/-- `write_source_file` — resources.rs:109-132: the disk afterwards and whether it succeeded. -/
def writeSourceFile (d : FsTree) (ws : List Str) (rel content : Str) : FsTree × Bool :=
  if endsWith rel ".firm".toList then
    match toAbsolutePath d ws rel with
    | none => (d, false)
    | some loc =>
      match d.createDirAll loc.dropLast with
      | none => (d, false)
      | some d1 =>
        match d1.writeFile loc content with
        | none => (d1, false)
        | some d2 => (d2, true)
  else (d, false)

/-! ## tools/write_source.rs -/

/-- `validate_and_write` — write_source.rs:45-84: the disk afterwards and, on success, the original
content kept for rollback. -/
def validateAndWrite (H : Host) (d : FsTree) (path content : Str) : FsTree × Option (Option Str) :=
  if H.accepts content then
    match writeSourceFile d H.ws path content with
    | (d', true) => (d', some (d.readText (d.placeOf H.ws path)))
    | (d', false) => (d', none)
  else (d, none)

/-- `rollback` — write_source.rs:87-97. -/
def rollbackWrite (d : FsTree) (ws : List Str) (path : Str) : Option Str → FsTree
  | some original => (d.writeFile (d.placeOf ws path) original).getD d
  | none => (d.removeFile (d.placeOf ws path)).getD d

/-! ## tools/delete_source.rs -/

/-- `execute` — delete_source.rs:34-56: the disk afterwards and the content of the deleted file. -/
def deleteExecute (d : FsTree) (ws : List Str) (path : Str) : Option (FsTree × Str) :=
  if endsWith path ".firm".toList then
    match toAbsolutePath d ws path with
    | none => none
    | some loc =>
      match d.readText loc with
      | none => none
      | some original => (d.removeFile loc).map fun d' => (d', original)
  else none

/-- `rollback` — delete_source.rs:59-67. -/
def rollbackDelete (d : FsTree) (ws : List Str) (path content : Str) : FsTree :=
  match d.createDirAll (d.placeOf ws path).dropLast with
  | none => d
  | some d1 => (d1.writeFile (d.placeOf ws path) content).getD d1

/-! ## tools/replace_source.rs -/

/-- `content.matches(old).count()` for non-empty `old`: one less than the number of pieces between
the matches. -/
def matchCount (old s : Str) : Nat := (splitStr old s).length - 1

/-- `content.replacen(old, new, 1)`. -/
def replaceFirst (old new : Str) : Str → Str
  | [] => if startsWith [] old then new else []
  | c :: cs =>
    if startsWith (c :: cs) old then new ++ (c :: cs).drop old.length
    else c :: replaceFirst old new cs

/-- The computation of `execute` on the content of the file — replace_source.rs:55-60, 66-91: new
content and number of replacements. -/
def replaceText (content old new : Str) (all : Bool) : Option (Str × Nat) :=
  if old = [] then none
  else if matchCount old content = 0 then none
  else if matchCount old content > 1 ∧ all = false then none
  else if all then some (strReplace old new content, matchCount old content)
  else some (replaceFirst old new content, 1)

/-- `execute` — replace_source.rs:51-92. -/
def replaceExecute (d : FsTree) (ws : List Str) (path old new : Str) (all : Bool) : Option (Str × Nat) :=
  if old = [] then none
  else
    match readSourceFile d ws path with
    | none => none
    | some content => replaceText content old new all

/-! ## server.rs -/

/-- `rebuild` without the lock — server.rs:504-530, and `new` — server.rs:77-106. `order` is the order
in which the hash map of the freshly loaded workspace is enumerated. -/
def rebuild (H : Host) (order : Workspace → Workspace) (d : FsTree) : Except WorkspaceError ServerState :=
  match d.lookup H.ws with
  | none => .error .io
  | some t =>
    match Workspace.loadDirectory H.grammar [] (placeText H.ws) t with
    | (_, .error e) => .error e
    | (w, .ok _) =>
      match (order w).build H.lang with
      | .error e => .error e
      | .ok b =>
        match b.toGraph with
        | (_, .error _) => .error (.validation (placeText H.ws))
        | (g, .ok _) => .ok ⟨order w, b, g⟩

/-- `write_source` — server.rs:245-296. -/
def writeSource (H : Host) (order : Workspace → Workspace) (s : Server) (path content : Str)
    (force : Bool) : Server × Reply :=
  match validateAndWrite H s.disk path content with
  | (d, none) => (⟨d, s.state⟩, .error)
  | (d, some original) =>
    match rebuild H order d with
    | .ok st => (⟨d, st⟩, .success)
    | .error _ =>
      if force then (⟨d, s.state⟩, .warning)
      else (⟨rollbackWrite d H.ws path original, s.state⟩, .error)

/-- `delete_source` — server.rs:302-337. -/
def deleteSource (H : Host) (order : Workspace → Workspace) (s : Server) (path : Str) (force : Bool) :
    Server × Reply :=
  match deleteExecute s.disk H.ws path with
  | none => (s, .error)
  | some (d, original) =>
    match rebuild H order d with
    | .ok st => (⟨d, st⟩, .success)
    | .error _ =>
      if force then (⟨d, s.state⟩, .warning)
      else (⟨rollbackDelete d H.ws path original, s.state⟩, .error)

/-- `replace_source` — server.rs:344-408. -/
def replaceSource (H : Host) (order : Workspace → Workspace) (s : Server) (path old new : Str)
    (all force : Bool) : Server × Reply :=
  match replaceExecute s.disk H.ws path old new all with
  | none => (s, .error)
  | some (content, _) =>
    match validateAndWrite H s.disk path content with
    | (d, none) => (⟨d, s.state⟩, .error)
    | (d, some original) =>
      match rebuild H order d with
      | .ok st => (⟨d, st⟩, .success)
      | .error _ =>
        if force then (⟨d, s.state⟩, .warning)
        else (⟨rollbackWrite d H.ws path original, s.state⟩, .error)

/-- `build` — server.rs:414-430. -/
def buildTool (H : Host) (order : Workspace → Workspace) (s : Server) : Server × Reply :=
  match rebuild H order s.disk with
  | .ok st => (⟨s.disk, st⟩, .success)
  | .error _ => (s, .error)

/-! ## tools/add_entity.rs -/

/-- `serde_json::Number`: a non-negative integer (`u64`), a negative one (`i64`, here `-n - 1`) or a float.
The lower bound of `i64` is left out. -/
inductive JsonNumber where
  | pos (n : Nat)
  | neg (n : Nat)
  | float (f : F64)
  deriving DecidableEq, Inhabited

/-- `serde_json::Value`. -/
inductive Json where
  | null
  | bool (b : Bool)
  | number (n : JsonNumber)
  | string (s : Str)
  | array (items : List Json)
  | object (entries : List (Str × Json))
  deriving Inhabited

/-- `Number::as_i64` (`is_i64` is its being present). -/
def JsonNumber.asI64 : JsonNumber → Option Int
  | .pos n => if (n : Int) ≤ 2 ^ 63 - 1 then some n else none
  | .neg n => some (Int.negSucc n)
  | .float _ => none

/-- `Number::as_f64`. -/
def JsonNumber.asF64 : JsonNumber → F64
  | .pos n => F64.ofInt n
  | .neg n => F64.ofInt (Int.negSucc n)
  | .float f => f

/-- `str::split_whitespace`. -/
def splitWhitespace (s : Str) : List Str := go s []
where
  go : Str → Str → List Str
    | [], cur => if cur = [] then [] else [cur.reverse]
    | c :: cs, cur =>
      if isWs c then (if cur = [] then go cs [] else cur.reverse :: go cs [])
      else go cs (c :: cur)

/-- The loop of `pathdiff::diff_paths` (0.2.3) on two absolute paths: `..` for every component of the base
after the common start, even for a `..` there; `none` when the first of them is a `..` and the path goes on. -/
def diffComps : List PathComp → List PathComp → Option (List PathComp)
  | a :: as, b :: bs =>
    if a = b then diffComps as bs
    else if b = .parentDir then none
    else some ((b :: bs).map (fun _ => PathComp.parentDir) ++ a :: as)
  | as, [] => some as
  | [], bs => some (bs.map fun _ => PathComp.parentDir)

/-- `workspace_path.join(path)` as components. -/
def joinComps (ws : List Str) (path : Str) : List PathComp :=
  match path with
  | '/' :: _ => pathComponents path
  | _ => .rootDir :: (ws.map .normal ++ (pathComponents path).filter fun c => decide (c ≠ .curDir))

/-- The components of a path without the last one, as `Path::parent`. -/
def parentOf (cs : List PathComp) : List PathComp :=
  match cs.getLast? with
  | none => []
  | some .rootDir => []
  | some _ => cs.dropLast

/-- The path value of `json_to_field_value` — add_entity.rs:297-316. -/
def jsonPath (ws : List Str) (target : List PathComp) (s : Str) : Str :=
  match diffComps (joinComps ws s) (parentOf target) with
  | some rel => showComps rel
  | none => showComps (joinComps ws s)

/-- The reference value of `json_to_field_value` — add_entity.rs:216-252. -/
def jsonReference (t : CaseTable) (s : Str) : ReferenceValue :=
  match splitChar '.' s with
  | a :: b :: f :: _ => .field (t.composeEntityId a b) (t.snake f)
  | _ => .entity (t.snake s)

/-- `parse_list_item_type` — add_entity.rs:361-377. -/
def parseListItemType (env : Env) (s : Str) : Option FieldType :=
  let s := env.lower s
  if s = "string".toList then some .string
  else if s = "integer".toList then some .integer
  else if s = "float".toList then some .float
  else if s = "boolean".toList then some .boolean
  else if s = "currency".toList then some .currency
  else if s = "reference".toList then some .reference
  else if s = "datetime".toList then some .dateTime
  else if s = "path".toList then some .path
  else if s = "enum".toList then some .enum
  else none

/-- `json_to_field_value` for every type but lists — add_entity.rs:169-358. `Decimal::from_str_exact`
is taken to accept what `Decimal::from_str` accepts. -/
def jsonScalar (H : Host) (target : List PathComp) (t : FieldType) (v : Json) : Option FieldValue :=
  match t, v with
  | .string, .string s => some (.string s)
  | .integer, .number n => n.asI64.map .integer
  | .float, .number n => some (.float n.asF64)
  | .boolean, .bool b => some (.boolean b)
  | .reference, .string s => some (.reference (jsonReference H.lang.cases s))
  | .enum, .string s => some (.enum s)
  | .path, .string s => some (.path (jsonPath H.ws target s))
  | .currency, .string s =>
    match splitWhitespace s with
    | [amount, code] =>
      match parseDecimal amount with
      | some d => if H.lang.knownCurrency code then some (.currency d code) else none
      | none => none
    | _ => none
  | .dateTime, .string s => (H.parseRfc3339 s).map .dateTime
  | _, _ => none

/-- The conversion of list items — add_entity.rs:271-282; `parse_list_item_type` never yields a list
type, so the items are not lists. -/
def jsonItems (H : Host) (target : List PathComp) (t : FieldType) : List Json → Option (List FieldValue)
  | [] => some []
  | v :: vs =>
    match jsonScalar H target t v with
    | none => none
    | some x => (jsonItems H target t vs).map (x :: ·)

/-- `json_to_field_value` — add_entity.rs:169-358. -/
def jsonToFieldValue (H : Host) (target : List PathComp) (listTypes : List (Str × Str)) (name : Str)
    (t : FieldType) (v : Json) : Option FieldValue :=
  match t, v with
  | .list, .array [] => some (.list [])
  | .list, .array vs =>
    match mapGet listTypes name with
    | none => none
    | some s =>
      match parseListItemType H.lang.env s with
      | none => none
      | some t => (jsonItems H target t vs).map .list
  | _, _ => jsonScalar H target t v

/-- `AddEntityParams` — add_entity.rs:20-43; the fields in the order in which the hash map is
enumerated. -/
structure AddParams where
  type : Str
  id : Str
  fields : List (Str × Json)
  toFile : Option Str
  listItemTypes : List (Str × Str)

/-- Components of `generated/<type>` — add_entity.rs:88-89. -/
def defaultComps (type : Str) : List PathComp :=
  match type with
  | '/' :: _ => pathComponents type
  | _ => .normal "generated".toList :: (pathComponents type).filter fun c => decide (c ≠ PathComp.curDir)

/-- The default target — add_entity.rs:86-91: `generated/<type>` with the extension `firm`. -/
def defaultTarget (type : Str) : Str :=
  let cs := defaultComps type
  match cs.getLast? with
  | some (.normal name) =>
    let stem := match extensionOf name with
      | none => name
      | some ext => name.take (name.length - ext.length - 1)
    showComps (cs.dropLast ++ [PathComp.normal (stem ++ ".firm".toList)])
  | _ => showComps cs

/-- The loop over the fields — add_entity.rs:98-120. -/
def addFields (H : Host) (target : List PathComp) (listTypes : List (Str × Str)) (s : EntitySchema) :
    Entity → List (Str × Json) → Option Entity
  | e, [] => some e
  | e, (name, v) :: fs =>
    match mapGet s.fields (H.lang.cases.snake name) with
    | none => none
    | some fd =>
      match jsonToFieldValue H target listTypes name fd.fieldType v with
      | none => none
      | some x => addFields H target listTypes s (e.withField (H.lang.cases.snake name) x) fs

/-- The entity that `execute` adds — add_entity.rs:66-126: none when the request is refused. -/
def entityToAdd (H : Host) (st : ServerState) (p : AddParams) : Option Entity :=
  match st.build.schemas.find? fun s => decide (s.entityType = p.type) with
  | none => none
  | some s =>
    let id := H.lang.cases.composeEntityId p.type (H.lang.cases.snake p.id)
    match st.graph.getEntity id with
    | some _ => none
    | none =>
      match addFields H (joinComps H.ws (p.toFile.getD (defaultTarget p.type))) p.listItemTypes s
          (Entity.new id (H.lang.cases.snake p.type)) p.fields with
      | none => none
      | some e =>
        match s.validate H.lang.env e with
        | .error _ => none
        | .ok _ => some e

/-- The separator written before the new text — add_entity.rs:138-149. -/
def appendPrefix (content : Str) : Str :=
  if content = [] ∨ content.getLast? = some '\n' then [] else ['\n']

/-- Step 7 of `execute` — add_entity.rs:131-159: the disk afterwards and whether it succeeded. -/
def appendDsl (d : FsTree) (loc : List Str) (dsl : Str) : FsTree × Bool :=
  match d.createDirAll loc.dropLast with
  | none => (d, false)
  | some d1 =>
    match d1.lookup loc with
    | none =>
      match d1.writeFile loc dsl with
      | none => (d1, false)
      | some d2 => (d2, true)
    | some _ =>
      match d1.readText loc with
      | none => (d1, false)
      | some content =>
        match d1.writeFile loc (content ++ (appendPrefix content ++ dsl)) with
        | none => (d1, false)
        | some d2 => (d2, true)

/-- `execute` — add_entity.rs:60-166. -/
def addExecute (H : Host) (s : Server) (p : AddParams) : FsTree × Bool :=
  match entityToAdd H s.state p with
  | none => (s.disk, false)
  | some e =>
    appendDsl s.disk (s.disk.placeOf H.ws (p.toFile.getD (defaultTarget p.type)))
      (generateDsl H.lang .default [e])

/-- `add_entity` — server.rs:188-208. -/
def addEntityTool (H : Host) (order : Workspace → Workspace) (s : Server) (p : AddParams) :
    Server × Reply :=
  match addExecute H s p with
  | (d, false) => (⟨d, s.state⟩, .error)
  | (d, true) =>
    match rebuild H order d with
    | .ok st => (⟨d, st⟩, .success)
    | .error _ => (⟨d, s.state⟩, .warning)

/-! ## Requests -/

/-- The requests that can change something. -/
inductive Request where
  | write (path content : Str) (force : Bool)
  | delete (path : Str) (force : Bool)
  | replace (path old new : Str) (all force : Bool)
  | add (p : AddParams)
  | build

/-- One request, processed alone. -/
def Server.handle (H : Host) (order : Workspace → Workspace) (s : Server) : Request → Server × Reply
  | .write path content force => writeSource H order s path content force
  | .delete path force => deleteSource H order s path force
  | .replace path old new all force => replaceSource H order s path old new all force
  | .add p => addEntityTool H order s p
  | .build => buildTool H order s

/-! ## Requests processed concurrently

`write_source` holds no lock between its three steps (server.rs:258-293), so other requests may run in
between. -/

/-- Where a `write_source` request is. -/
inductive Phase where
  | start
  | written (original : Option Str)
  | failed (original : Option Str)
  | done (r : Reply)
  deriving DecidableEq, Repr, Inhabited

/-- The parameters of a `write_source` request — write_source.rs:13-27. -/
structure WriteParams where
  path : Str
  content : Str
  force : Bool
  deriving DecidableEq, Repr, Inhabited

/-- The next step of a `write_source` request — server.rs:258-262, 265-283, 285-292. `rb` is what
`rebuild` gives. -/
def writeStep (H : Host) (rb : FsTree → Except WorkspaceError ServerState) (p : WriteParams)
    (s : Server) : Phase → Server × Phase
  | .start =>
    match validateAndWrite H s.disk p.path p.content with
    | (d, none) => (⟨d, s.state⟩, .done .error)
    | (d, some original) => (⟨d, s.state⟩, .written original)
  | .written original =>
    match rb s.disk with
    | .ok st => (⟨s.disk, st⟩, .done .success)
    | .error _ => if p.force then (s, .done .warning) else (s, .failed original)
  | .failed original => (⟨rollbackWrite s.disk H.ws p.path original, s.state⟩, .done .error)
  | .done r => (s, .done r)

/-- Two `write_source` requests at once. -/
structure Pair where
  server : Server
  a : Phase
  b : Phase

/-- One step of the pair: of the first request or of the second. -/
def Pair.step (H : Host) (p q : WriteParams) (x : Pair)
    (m : Bool × (FsTree → Except WorkspaceError ServerState)) : Pair :=
  if m.1 then ⟨(writeStep H m.2 p x.server x.a).1, (writeStep H m.2 p x.server x.a).2, x.b⟩
  else ⟨(writeStep H m.2 q x.server x.b).1, x.a, (writeStep H m.2 q x.server x.b).2⟩

/-- A schedule: which request moves next, and what `rebuild` gives if it is called. -/
def Pair.run (H : Host) (p q : WriteParams) (x : Pair)
    (sched : List (Bool × (FsTree → Except WorkspaceError ServerState))) : Pair :=
  sched.foldl (Pair.step H p q) x

/-! ## Listings -/

/-- `sort()` on strings, by code points as by bytes. -/
def sortStrs (xs : List Str) : List Str := stableSort (fun a b => strCmp a b != .gt) xs

/-- The relative paths of the loaded files, sorted — source_tree.rs:18-24, search_source.rs:34-39 and
server.rs:562-574. -/
def relativePaths (ws : Str) (w : Workspace) : List Str :=
  sortStrs (w.filterMap fun p => toRelativePath ws p.1)

/-- Lines of one file that match, with their numbers, until the limit is exceeded —
search_source.rs:52-69: the matches of the file, the new total and whether it was cut off. -/
def searchLines (hit : Str → Bool) (max : Nat) : Nat → Nat → List Str → List (Nat × Str) × Nat × Bool
  | total, _, [] => ([], total, false)
  | total, n, line :: rest =>
    if hit line then
      if total ≥ max then ([], total, true)
      else
        let r := searchLines hit max (total + 1) (n + 1) rest
        ((n + 1, line) :: r.1, r.2)
    else searchLines hit max total (n + 1) rest

/-- The loop over the files — search_source.rs:45-82: the groups printed, and whether the result was
cut off. -/
def searchFiles (read : Str → Option Str) (hit : Str → Bool) (max : Nat) :
    Nat → List Str → List (Str × List (Nat × Str)) × Bool
  | _, [] => ([], false)
  | total, path :: rest =>
    match read path with
    | none => searchFiles read hit max total rest
    | some content =>
      let r := searchLines hit max total 0 (strLines content)
      let groups := if r.1 = [] then [] else [(path, r.1)]
      if r.2.2 then (groups, true)
      else
        let q := searchFiles read hit max r.2.1 rest
        (groups ++ q.1, q.2)

/-- The test on one line — search_source.rs:55-59. -/
def lineMatches (env : Env) (query : Str) (caseSensitive : Bool) (line : Str) : Bool :=
  if caseSensitive then strContains line query else strContains (env.lower line) (env.lower query)

/-- `search_source` — search_source.rs:28-102 with the limit of line 13: the matches shown and whether
the result is marked as cut off; `none` is the error for an empty query. -/
def searchSource (H : Host) (s : Server) (query : Str) (caseSensitive : Bool) :
    Option (List (Str × List (Nat × Str)) × Bool) :=
  if query = [] then none
  else some (searchFiles (fun rel => s.disk.readText (s.disk.placeOf H.ws rel))
    (lineMatches H.lang.env query caseSensitive) 50 0
    (relativePaths (placeText H.ws) s.state.workspace))

/-- `str::rsplit_once('/')` with the default of source_tree.rs:33-36: directory and file name. -/
def splitDir (path : Str) : Str × Str :=
  match (splitChar '/' path).reverse with
  | [] => ([], path)
  | [_] => ([], path)
  | f :: ds => (joinWith ['/'] ds.reverse, f)

/-- `tree.entry(dir).or_default().push(file)` on a `BTreeMap`, kept sorted by directory. -/
def pushFile (dir file : Str) : List (Str × List Str) → List (Str × List Str)
  | [] => [(dir, [file])]
  | (d, fs) :: rest =>
    match strCmp dir d with
    | .lt => (dir, [file]) :: (d, fs) :: rest
    | .eq => (d, fs ++ [file]) :: rest
    | .gt => (d, fs) :: pushFile dir file rest

/-- `source_tree` — source_tree.rs:17-38: the directories with their files. -/
def sourceTree (ws : Str) (w : Workspace) : List (Str × List Str) :=
  (relativePaths ws w).foldl (fun t p => pushFile (splitDir p).1 (splitDir p).2 t) []

/-- The URIs of `list_resources` — server.rs:553-582. -/
def listResources (ws : Str) (w : Workspace) : List Str := (relativePaths ws w).map sourceFileUri

/-- `read_resource` — server.rs:584-605; `none` is an error. -/
def readResource (H : Host) (d : FsTree) (uri : Str) : Option Str :=
  match parseSourceUri uri with
  | none => none
  | some rel => readSourceFile d H.ws rel

end Firm
