import Verif.Model.Refusal

/-!
# The texts of the replies to changes

Rust sources: the result functions of `/repo/firm_mcp/src/tools/{write_source,delete_source,replace_source,add_entity}.rs`
and where `/repo/firm_mcp/src/server.rs` and `/repo/firm_mcp/src/resources.rs` use them. `Model/Mcp.lean` keeps the kind
of a reply only.

`say` is the text of an error of the workspace and `io` that of an error of the file system. The texts of the refusals of
`add_entity` are left out (`why`).
-/

namespace Firm

/-- `CallToolResult`: whether it is marked as an error, and its texts. -/
structure ToolReply where
  isError : Bool
  texts : List Str
  deriving DecidableEq, Repr, Inhabited

/-- What the texts take from outside. -/
structure Wording where
  say : WorkspaceError → Str
  io : Str

/-! ## write_source -/

/-- `write_source_file` with the texts of its errors — resources.rs:109-132. -/
def writeSourceFileT (W : Wording) (d : FsTree) (ws : List Str) (rel content : Str) : FsTree × Except Str Unit :=
  if endsWith rel ".firm".toList then
    match toAbsolutePath d ws rel with
    | none => (d, .error ("Invalid path (must be within workspace): ".toList ++ rel))
    | some loc =>
      match d.createDirAll loc.dropLast with
      | none => (d, .error ("Failed to create parent directories: ".toList ++ W.io))
      | some d1 =>
        match d1.writeFile loc content with
        | none => (d1, .error ("Failed to write file: ".toList ++ W.io))
        | some d2 => (d2, .ok ())
  else (d, .error ("Path must end with .firm extension: ".toList ++ rel))

/-- `WriteResult` — write_source.rs:31-36. -/
structure WriteResult where
  fileExisted : Bool
  original : Option Str

/-- `validate_and_write` — write_source.rs:45-84. -/
def validateAndWriteT (W : Wording) (H : Host) (d : FsTree) (path content : Str) : FsTree × Except Str WriteResult :=
  if H.accepts content then
    let original := d.readText (d.placeOf H.ws path)
    match writeSourceFileT W d H.ws path content with
    | (d', .ok _) => (d', .ok ⟨original.isSome, original⟩)
    | (d', .error e) => (d', .error e)
  else (d, .error ("Invalid DSL syntax: the content contains parse errors. ".toList ++
    "Please check for unclosed braces, missing values, or malformed references.".toList))

/-- `rollback` with its result — write_source.rs:87-97. -/
def rollbackWriteT (d : FsTree) (ws : List Str) (path : Str) (original : Option Str) : FsTree × Bool :=
  match original with
  | some text =>
    match d.writeFile (d.placeOf ws path) text with
    | some d' => (d', true)
    | none => (d, false)
  | none =>
    match d.removeFile (d.placeOf ws path) with
    | some d' => (d', true)
    | none => (d, false)

/-- The start of `success_result` and `force_success_result` — write_source.rs:100-120. -/
def writtenText (path content : Str) (existed : Bool) : Str :=
  (if existed then "Updated".toList else "Created".toList) ++ " ".toList ++ path ++ " (".toList ++
    showNat (byteLen content) ++ " bytes). ".toList

/-- The end of the success results — write_source.rs:102-105, delete_source.rs:69-74, replace_source.rs:95-105. -/
def validText : Str := "Workspace is valid.".toList

/-- The end of the results with force — write_source.rs:115-119, delete_source.rs:76-82, replace_source.rs:113-124. -/
def forcedText (error : Str) : Str :=
  "Warning: workspace has validation errors: ".toList ++ error ++
    ". Use 'build' to check status after making more changes.".toList

/-- `validation_error_result` — write_source.rs:123-135, replace_source.rs:162-173. -/
def rolledBackText (error : Str) (ok : Bool) : Str :=
  "Validation failed: ".toList ++ error ++ ". ".toList ++
    (if ok then "Changes have been rolled back.".toList else "Warning: Failed to rollback changes.".toList) ++
    " Use 'force: true' to write anyway.".toList

/-- `write_source` — server.rs:245-296. -/
def writeSourceT (W : Wording) (H : Host) (order : Workspace → Workspace) (s : Server) (path content : Str)
    (force : Bool) : Server × ToolReply :=
  match validateAndWriteT W H s.disk path content with
  | (d, .error e) => (⟨d, s.state⟩, ⟨true, [e]⟩)
  | (d, .ok r) =>
    match rebuild H order d with
    | .ok st => (⟨d, st⟩, ⟨false, [writtenText path content r.fileExisted ++ validText]⟩)
    | .error e =>
      if force then (⟨d, s.state⟩, ⟨false, [writtenText path content r.fileExisted ++ forcedText (W.say e)]⟩)
      else
        let b := rollbackWriteT d H.ws path r.original
        (⟨b.1, s.state⟩, ⟨true, [rolledBackText (W.say e) b.2]⟩)

/-! ## delete_source -/

/-- `execute` with the texts of its errors — delete_source.rs:34-56. -/
def deleteExecuteT (W : Wording) (d : FsTree) (ws : List Str) (path : Str) : Except Str (FsTree × Str) :=
  if endsWith path ".firm".toList then
    match toAbsolutePath d ws path with
    | none => .error ("Invalid path (must be within workspace): ".toList ++ path)
    | some loc =>
      match d.lookup loc with
      | none => .error ("File not found: ".toList ++ path)
      | some _ =>
        match d.readText loc with
        | none => .error ("Failed to read file: ".toList ++ W.io)
        | some original =>
          match d.removeFile loc with
          | none => .error ("Failed to delete file: ".toList ++ W.io)
          | some d' => .ok (d', original)
  else .error ("Path must end with .firm extension: ".toList ++ path)

/-- `rollback` with its result — delete_source.rs:59-67. -/
def rollbackDeleteT (d : FsTree) (ws : List Str) (path content : Str) : FsTree × Bool :=
  match d.createDirAll (d.placeOf ws path).dropLast with
  | none => (d, false)
  | some d1 =>
    match d1.writeFile (d.placeOf ws path) content with
    | none => (d1, false)
    | some d2 => (d2, true)

/-- The start of the success results — delete_source.rs:69-82. -/
def deletedText (path : Str) : Str := "Deleted '".toList ++ path ++ "'. ".toList

/-- `validation_error_result` — delete_source.rs:84-95. -/
def restoredText (error : Str) (ok : Bool) : Str :=
  "Deletion would break the workspace: ".toList ++ error ++ ". ".toList ++
    (if ok then "File has been restored.".toList else "Warning: Failed to restore file.".toList) ++
    " Use 'force: true' to delete anyway.".toList

/-- `tools::build::error_result` — tools/build.rs:20-25; `delete_source` and `add_entity` use it for their refusals. -/
def blamedText (error : Str) : Str := "Workspace validation failed: ".toList ++ error

/-- `delete_source` — server.rs:302-337. -/
def deleteSourceT (W : Wording) (H : Host) (order : Workspace → Workspace) (s : Server) (path : Str) (force : Bool) :
    Server × ToolReply :=
  match deleteExecuteT W s.disk H.ws path with
  | .error e => (s, ⟨true, [blamedText e]⟩)
  | .ok (d, original) =>
    match rebuild H order d with
    | .ok st => (⟨d, st⟩, ⟨false, [deletedText path ++ validText]⟩)
    | .error e =>
      if force then (⟨d, s.state⟩, ⟨false, [deletedText path ++ forcedText (W.say e)]⟩)
      else
        let b := rollbackDeleteT d H.ws path original
        (⟨b.1, s.state⟩, ⟨true, [restoredText (W.say e) b.2]⟩)

/-! ## replace_source -/

/-- `read_source_file` with the texts of its errors — resources.rs:90-103. -/
def readSourceFileT (W : Wording) (d : FsTree) (ws : List Str) (rel : Str) : Except Str Str :=
  match toAbsolutePath d ws rel with
  | none => .error ("Invalid path: ".toList ++ rel)
  | some loc =>
    match d.lookup loc with
    | none => .error ("File not found: ".toList ++ rel)
    | some _ =>
      if hasFirmExtension loc then
        match d.readText loc with
        | none => .error ("Failed to read file: ".toList ++ W.io)
        | some text => .ok text
      else .error ("Not a .firm file: ".toList ++ rel)

/-- The start of the success results — replace_source.rs:95-125. -/
def replacedText (path : Str) (k : Nat) : Str :=
  if k = 1 then "Replaced 1 occurrence in '".toList ++ path ++ "'. ".toList
  else "Replaced ".toList ++ showNat k ++ " occurrences in '".toList ++ path ++ "'. ".toList

/-- `execute` — replace_source.rs:51-92. -/
def replaceExecuteT (W : Wording) (d : FsTree) (ws : List Str) (path old new : Str) (all : Bool) : ReplaceOutcome :=
  if old = [] then .refused "old_string cannot be empty.".toList
  else
    match readSourceFileT W d ws path with
    | .error e => .refused e
    | .ok content => replaceOutcome content path old new all

/-- `replace_source` — server.rs:344-408. No reply at all is a panic. -/
def replaceSourceT (W : Wording) (H : Host) (order : Workspace → Workspace) (s : Server) (path old new : Str)
    (all force : Bool) : Server × Option ToolReply :=
  match replaceExecuteT W s.disk H.ws path old new all with
  | .crash => (s, none)
  | .refused e => (s, some ⟨true, [e]⟩)
  | .replaced content k =>
    match validateAndWriteT W H s.disk path content with
    | (d, .error e) => (⟨d, s.state⟩, some ⟨true, [e]⟩)
    | (d, .ok r) =>
      match rebuild H order d with
      | .ok st => (⟨d, st⟩, some ⟨false, [replacedText path k ++ validText]⟩)
      | .error e =>
        if force then (⟨d, s.state⟩, some ⟨false, [replacedText path k ++ forcedText (W.say e)]⟩)
        else
          let b := rollbackWriteT d H.ws path r.original
          (⟨b.1, s.state⟩, some ⟨true, [rolledBackText (W.say e) b.2]⟩)

/-! ## add_entity -/

/-- The first text of the results — add_entity.rs:379-404. -/
def addedText (path : Str) (new : Bool) : Str :=
  if new then "Created new file '".toList ++ path ++ "' and added entity.".toList
  else "Added entity to existing file '".toList ++ path ++ "'.".toList

/-- `execute` with its result — add_entity.rs:60-166: the disk afterwards and, on success, the generated text and whether
the file is new. `exists` is asked after the directories were created. -/
def addExecuteT (H : Host) (s : Server) (p : AddParams) : FsTree × Option (Str × Bool) :=
  match entityToAdd H s.state p with
  | none => (s.disk, none)
  | some e =>
    let loc := s.disk.placeOf H.ws (p.toFile.getD (defaultTarget p.type))
    let dsl := generateDsl H.lang .default [e]
    match s.disk.createDirAll loc.dropLast with
    | none => (s.disk, none)
    | some d1 =>
      match d1.lookup loc with
      | none =>
        match d1.writeFile loc dsl with
        | none => (d1, none)
        | some d2 => (d2, some (dsl, true))
      | some _ =>
        match d1.readText loc with
        | none => (d1, none)
        | some content =>
          match d1.writeFile loc (content ++ (appendPrefix content ++ dsl)) with
          | none => (d1, none)
          | some d2 => (d2, some (dsl, false))

/-- `add_entity` — server.rs:188-208, add_entity.rs:379-404. -/
def addEntityT (W : Wording) (why : Str) (H : Host) (order : Workspace → Workspace) (s : Server) (p : AddParams) :
    Server × ToolReply :=
  match addExecuteT H s p with
  | (d, none) => (⟨d, s.state⟩, ⟨true, [blamedText why]⟩)
  | (d, some (dsl, new)) =>
    let said := addedText (p.toFile.getD (defaultTarget p.type)) new
    match rebuild H order d with
    | .ok st => (⟨d, st⟩, ⟨false, [said, dsl]⟩)
    | .error e =>
      (⟨d, s.state⟩, ⟨false, [said, dsl, "Warning: workspace rebuild failed after adding entity: ".toList ++ W.say e]⟩)

end Firm
