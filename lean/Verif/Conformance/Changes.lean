import Verif.Conformance.Sources
import Verif.Conformance.Queries
import Verif.Conformance.Graphs
import Verif.Model.Said
import Verif.Model.Messages

/-!
# Tests of `firm_mcp`: the tools that change files, and `query`

Tests, not proofs; see Conformance/Basic.lean.
-/

namespace Firm.Conformance

/-- The text of an error of the operating system does not matter to these tests. -/
def projectWording : Wording := ⟨fun _ => "broken ref".toList, "os error".toList⟩

/-- The place of a path of a test. -/
def inside (path : String) : List Str := "w".toList :: splitChar '/' path.toList

/-- `dir.path().join(path).exists()`. -/
def onDisk (d : FsTree) (path : String) : Bool := (d.lookup (inside path)).isSome

/-- `fs::read_to_string(dir.path().join(path))`. -/
def contents (d : FsTree) (path : String) : Option Str := d.readText (inside path)

/-- `fs::write(dir.path().join(path), text)`. -/
def overwritten (d : FsTree) (path text : String) : FsTree := (d.writeFile (inside path) text.toList).getD d

/-- The error has this text. -/
def saysNo {α : Type} (r : Except Str α) (x : String) : Bool :=
  match r with
  | .ok _ => false
  | .error e => strContains e x.toList

/-! ## `query_tests.rs` -/

/-- `tools::query::execute`: whether it is an error, and its text — tools/query.rs:26-69. The text of a syntax error is
not compared. -/
def runQueryTool (f : Files) (q : String) : Bool × Option Str :=
  match runQuery queryLang projectRt (filesGraph f) q.toList with
  | .ok r => (false, some (queryReply projectScreen r))
  | .error (.parse _) => (true, none)
  | .error (.execution e) => (true, some (queryMessage none e))

def asked (f : Files) (q : String) : Option Str := (runQueryTool f q).2

def threePersons : Files :=
  [("data.firm", ["", "schema person {", "    field { name = \"name\" type = \"string\" required = true }", "}", "",
    "person alice { name = \"Alice\" }", "person bob { name = \"Bob\" }", "person charlie { name = \"Charlie\" }", ""])]

def personOnly : Files :=
  [("data.firm", ["", "schema person {", "    field { name = \"name\" type = \"string\" required = true }", "}", ""])]

/-- `test_query_from_type` — firm_mcp/tests/query_tests.rs. -/
example : checksOn threePersons fun f =>
    [builds f, !(runQueryTool f "from person").1, has (asked f "from person") "Alice",
      has (asked f "from person") "Bob", has (asked f "from person") "Charlie"] := by decide +kernel

/-- `test_query_unknown_entity_type`. -/
example : checksOn
    [("data.firm", ["", "schema person {", "    field { name = \"name\" type = \"string\" required = true }", "}", "",
      "person alice { name = \"Alice\" }", ""])]
    fun f =>
      [builds f, (runQueryTool f "from organization").1, has (asked f "from organization") "organization",
        has (asked f "from organization") "person"] := by decide +kernel

/-- `test_query_where_string_equals`. -/
example : checksOn threePersons fun f =>
    [!(runQueryTool f "from person | where name == \"Bob\"").1,
      has (asked f "from person | where name == \"Bob\"") "Bob",
      lacks (asked f "from person | where name == \"Bob\"") "Alice",
      lacks (asked f "from person | where name == \"Bob\"") "Charlie"] := by decide +kernel

/-- `test_query_where_string_contains`. -/
example : checksOn
    [("data.firm", ["", "schema person {", "    field { name = \"name\" type = \"string\" required = true }", "}", "",
      "person alice { name = \"Alice Smith\" }", "person bob { name = \"Bob Jones\" }",
      "person charlie { name = \"Charlie Smith\" }", ""])]
    fun f =>
      [builds f, !(runQueryTool f "from person | where name contains \"Smith\"").1,
        has (asked f "from person | where name contains \"Smith\"") "Alice",
        has (asked f "from person | where name contains \"Smith\"") "Charlie",
        lacks (asked f "from person | where name contains \"Smith\"") "Bob"] := by decide +kernel

/-- `test_query_where_boolean`. -/
example : checksOn
    [("data.firm", ["", "schema task {", "    field { name = \"title\" type = \"string\" required = true }",
      "    field { name = \"completed\" type = \"boolean\" required = true }", "}", "",
      "task task1 { title = \"First\" completed = true }", "task task2 { title = \"Second\" completed = false }",
      "task task3 { title = \"Third\" completed = true }", ""])]
    fun f =>
      [builds f, !(runQueryTool f "from task | where completed == false").1,
        has (asked f "from task | where completed == false") "Second",
        lacks (asked f "from task | where completed == false") "First",
        lacks (asked f "from task | where completed == false") "Third"] := by decide +kernel

/-- `test_query_where_integer_comparison`. -/
example : checksOn
    [("data.firm", ["", "schema person {", "    field { name = \"name\" type = \"string\" required = true }",
      "    field { name = \"age\" type = \"integer\" required = true }", "}", "",
      "person young { name = \"Young\" age = 20 }", "person middle { name = \"Middle\" age = 40 }",
      "person old { name = \"Old\" age = 60 }", ""])]
    fun f =>
      [builds f, !(runQueryTool f "from person | where age > 30").1,
        has (asked f "from person | where age > 30") "Middle",
        has (asked f "from person | where age > 30") "Old",
        lacks (asked f "from person | where age > 30") "Young"] := by decide +kernel

/-- `test_query_parse_error`. -/
example : checksOn personOnly fun f =>
    [builds f, (runQueryTool f "this is not valid query syntax").1] := by decide +kernel

/-- `test_query_empty_query_string`. -/
example : checksOn personOnly fun f => [builds f, (runQueryTool f "").1] := by decide +kernel

/-! ## `delete_source_tests.rs` -/

def runDelete (f : Files) (path : String) : Except Str (FsTree × Str) :=
  deleteExecuteT projectWording (diskOf f) projectHost.ws path.toList

/-- The disk after a deletion that worked satisfies `p`. -/
def deletedThen (r : Except Str (FsTree × Str)) (p : FsTree → Str → Bool) : Bool :=
  match r with
  | .ok (d, original) => p d original
  | .error _ => false

/-- `test_delete_source_success` — firm_mcp/tests/delete_source_tests.rs. -/
example : checksOn personOnly fun f =>
    [deletedThen (runDelete f "data.firm") fun d _ => !onDisk d "data.firm"] := by decide +kernel

/-- `test_delete_source_preserves_content_for_rollback`. -/
example : checksOn
    [("data.firm", ["schema person {", "    field { name = \"name\" type = \"string\" required = true }", "}", ""])]
    fun f => [deletedThen (runDelete f "data.firm") fun d original =>
      some original == contents (diskOf f) "data.firm" && !onDisk d "data.firm"] := by decide +kernel

/-- `test_delete_source_in_subdirectory`. -/
example : checksOn
    [("schemas/person.firm",
      ["", "schema person {", "    field { name = \"name\" type = \"string\" required = true }", "}", ""])]
    fun f => [onDisk (diskOf f) "schemas/person.firm",
      deletedThen (runDelete f "schemas/person.firm") fun d _ => !onDisk d "schemas/person.firm"] := by decide +kernel

/-- `test_delete_source_file_not_found`. -/
example : checksOn [] fun f => [saysNo (runDelete f "nonexistent.firm") "File not found"] := by decide +kernel

/-- `test_delete_source_not_firm_extension`; a refusal leaves the disk as it is by the type of the model's function. -/
example : checksOn [("data.txt", ["hello"])] fun f =>
    [saysNo (runDelete f "data.txt") ".firm extension", onDisk (diskOf f) "data.txt"] := by decide +kernel

/-- `test_delete_source_path_traversal_rejected`. -/
example : checksOn
    [("data.firm", ["schema test { field { name = \"n\" type = \"string\" required = true } }"])]
    fun f => [saysNo (runDelete f "../escape.firm") "Invalid path"] := by decide +kernel

/-- `test_rollback_restores_file`. -/
example : checksOn
    [("data.firm", ["schema person { field { name = \"name\" type = \"string\" required = true } }"])]
    fun f => [deletedThen (runDelete f "data.firm") fun d original =>
      !onDisk d "data.firm" &&
      (rollbackDeleteT d projectHost.ws "data.firm".toList original).2 &&
      onDisk (rollbackDeleteT d projectHost.ws "data.firm".toList original).1 "data.firm" &&
      contents (rollbackDeleteT d projectHost.ws "data.firm".toList original).1 "data.firm" ==
        contents (diskOf f) "data.firm"] := by decide +kernel

/-- `test_result_messages`; which results are errors is decided in `deleteSourceT`. -/
example : checks [
    has (some (deletedText "data.firm".toList ++ validText)) "Deleted",
    has (some (restoredText "broken ref".toList true)) "restored",
    has (some (restoredText "broken ref".toList false)) "Failed to restore"] := by decide +kernel

/-! ## `write_source_tests.rs` -/

def runWrite (d : FsTree) (path : String) (content : Str) : FsTree × Except Str WriteResult :=
  validateAndWriteT projectWording projectHost d path.toList content

def wrote (r : FsTree × Except Str WriteResult) (p : WriteResult → Bool) : Bool :=
  match r.2 with
  | .ok w => p w
  | .error _ => false

def unwritten (r : FsTree × Except Str WriteResult) : Bool := !wrote r fun _ => true

def newSchema : Str :=
  fileText ["schema test {", "    field { name = \"name\" type = \"string\" required = true }", "}"]

/-- `test_validate_and_write_new_file` — firm_mcp/tests/write_source_tests.rs. -/
example : checksOn [] fun f =>
    [wrote (runWrite (diskOf f) "new.firm" newSchema) fun w => !w.fileExisted && w.original.isNone,
      contents (runWrite (diskOf f) "new.firm" newSchema).1 "new.firm" == some newSchema] := by decide +kernel

def otherSchema : Str :=
  fileText ["schema new {", "    field { name = \"y\" type = \"integer\" required = true }", "}"]

/-- `test_validate_and_write_update_existing`. -/
example : checksOn
    [("existing.firm", ["schema old { field { name = \"x\" type = \"string\" required = true } }"])]
    fun f =>
      [wrote (runWrite (diskOf f) "existing.firm" otherSchema) fun w =>
          w.fileExisted && w.original.isSome && has w.original "schema old",
        contents (runWrite (diskOf f) "existing.firm" otherSchema).1 "existing.firm" == some otherSchema] := by
  decide +kernel

def deepSchema : Str := "schema deep { field { name = \"x\" type = \"string\" required = true } }".toList

/-- `test_validate_and_write_creates_subdirectories`. -/
example : checksOn [] fun f =>
    [wrote (runWrite (diskOf f) "a/b/c/deep.firm" deepSchema) fun _ => true,
      onDisk (runWrite (diskOf f) "a/b/c/deep.firm" deepSchema).1 "a/b/c/deep.firm"] := by decide +kernel

/-- `test_validate_and_write_syntax_error_rejected`. -/
example : checksOn [] fun f =>
    [unwritten (runWrite (diskOf f) "bad.firm" "this is not valid { syntax".toList),
      !onDisk (runWrite (diskOf f) "bad.firm" "this is not valid { syntax".toList).1 "bad.firm"] := by decide +kernel

def unclosed : Str := fileText ["schema test {", "    field { name = \"x\" type = \"string\" required = true }", ""]

/-- `test_validate_and_write_unclosed_brace_rejected`. -/
example : checksOn [] fun f =>
    [unwritten (runWrite (diskOf f) "unclosed.firm" unclosed),
      !onDisk (runWrite (diskOf f) "unclosed.firm" unclosed).1 "unclosed.firm"] := by decide +kernel

/-- `test_validate_and_write_not_firm_extension_rejected`. -/
example : checksOn [] fun f => [unwritten (runWrite (diskOf f) "file.txt" "schema test {}".toList)] := by decide +kernel

/-- `test_rollback_restores_original_content`. -/
example : checksOn [("test.firm", ["original content"])] fun f =>
    [contents (overwritten (diskOf f) "test.firm" "new content") "test.firm" == some "new content".toList,
      (rollbackWriteT (overwritten (diskOf f) "test.firm" "new content") projectHost.ws "test.firm".toList
        (some "original content".toList)).2,
      contents (rollbackWriteT (overwritten (diskOf f) "test.firm" "new content") projectHost.ws "test.firm".toList
        (some "original content".toList)).1 "test.firm" == some "original content".toList] := by decide +kernel

/-- `test_rollback_deletes_new_file`. -/
example : checksOn [("new.firm", ["new content"])] fun f =>
    [onDisk (diskOf f) "new.firm",
      (rollbackWriteT (diskOf f) projectHost.ws "new.firm".toList none).2,
      !onDisk (rollbackWriteT (diskOf f) projectHost.ws "new.firm".toList none).1 "new.firm"] := by decide +kernel

/-- `success_result(path, n, existed)`: the model's function takes the content and measures it. -/
def wroteBytes (path : String) (n : Nat) (existed : Bool) : Str :=
  writtenText path.toList (List.replicate n 'x') existed

/-- `test_success_result_created`. -/
example : checks [
    has (some (wroteBytes "new.firm" 100 false ++ validText)) "Created",
    has (some (wroteBytes "new.firm" 100 false ++ validText)) "new.firm",
    has (some (wroteBytes "new.firm" 100 false ++ validText)) "100 bytes",
    has (some (wroteBytes "new.firm" 100 false ++ validText)) "valid"] := by decide +kernel

/-- `test_success_result_updated`. -/
example : checks [
    has (some (wroteBytes "existing.firm" 200 true ++ validText)) "Updated",
    has (some (wroteBytes "existing.firm" 200 true ++ validText)) "existing.firm",
    has (some (wroteBytes "existing.firm" 200 true ++ validText)) "200 bytes"] := by decide +kernel

/-- `test_force_success_result`. -/
example : checks [
    has (some (wroteBytes "file.firm" 150 false ++ forcedText "missing schema for type X".toList)) "Created",
    has (some (wroteBytes "file.firm" 150 false ++ forcedText "missing schema for type X".toList)) "Warning",
    has (some (wroteBytes "file.firm" 150 false ++ forcedText "missing schema for type X".toList)) "missing schema"] := by
  decide +kernel

/-- `test_validation_error_result_with_rollback`. -/
example : checks [
    has (some (rolledBackText "invalid reference".toList true)) "invalid reference",
    has (some (rolledBackText "invalid reference".toList true)) "rolled back",
    has (some (rolledBackText "invalid reference".toList true)) "force: true"] := by decide +kernel

/-- `test_validation_error_result_rollback_failed`. -/
example : checks [has (some (rolledBackText "some error".toList false)) "Failed to rollback"] := by decide +kernel

/-- `test_validate_and_write_empty_content`. -/
example : checksOn [] fun f =>
    [wrote (runWrite (diskOf f) "empty.firm" []) fun _ => true,
      contents (runWrite (diskOf f) "empty.firm" []).1 "empty.firm" == some []] := by decide +kernel

/-- `test_validate_and_write_comment_only`. -/
example : checksOn [] fun f =>
    [wrote (runWrite (diskOf f) "comments.firm" (fileText ["// This is just a comment", "// Another comment"]))
      fun _ => true] := by decide +kernel

/-- `test_validate_and_write_multiple_schemas`. -/
example : checksOn [] fun f =>
    [wrote (runWrite (diskOf f) "multi.firm" (fileText ["",
      "schema person {", "    field { name = \"name\" type = \"string\" required = true }", "}", "",
      "schema organization {", "    field { name = \"name\" type = \"string\" required = true }", "}", "",
      "person john { name = \"John\" }", "organization acme { name = \"ACME\" }", ""])) fun _ => true] := by
  decide +kernel

/-! ## `replace_source_tests.rs` -/

def runReplace (d : FsTree) (path : String) (old new : Str) (all : Bool) : ReplaceOutcome :=
  replaceExecuteT projectWording d projectHost.ws path.toList old new all

def replacedThen (r : ReplaceOutcome) (p : Str → Nat → Bool) : Bool :=
  match r with
  | .replaced content n => p content n
  | _ => false

def refusedReplace (r : ReplaceOutcome) : Bool :=
  match r with
  | .refused _ => true
  | _ => false

/-- `test_replace_source_success_single_match` — firm_mcp/tests/replace_source_tests.rs. -/
example : checksOn
    [("data.firm", ["schema task {", "    field { name = \"title\" type = \"string\" required = true }",
      "    field { name = \"status\" type = \"enum\" required = true values = [\"pending\", \"done\"] }", "}",
      "task my_task {", "    title = \"Fix the bug\"", "    status = enum\"pending\"", "}"])]
    fun f => [replacedThen (runReplace (diskOf f) "data.firm" "status = enum\"pending\"".toList
        "status = enum\"done\"".toList false) fun content n =>
      n == 1 && has (some content) "status = enum\"done\"" && lacks (some content) "status = enum\"pending\""] := by
  decide +kernel

def taskOnly : Files :=
  [("data.firm", ["schema task {", "    field { name = \"title\" type = \"string\" required = true }", "}"])]

/-- `test_replace_source_not_found`. -/
example : checksOn taskOnly fun f =>
    [refusedReplace (runReplace (diskOf f) "data.firm" "nonexistent string".toList "replacement".toList false)] := by
  decide +kernel

/-- `test_replace_source_multiple_matches_error`. -/
example : checksOn
    [("data.firm", ["schema task {", "    field { name = \"title\" type = \"string\" required = true }", "}",
      "task task_one {", "    title = \"First\"", "}", "task task_two {", "    title = \"Second\"", "}"])]
    fun f => [refusedReplace (runReplace (diskOf f) "data.firm" "title".toList "name".toList false)] := by
  decide +kernel

/-- `test_replace_source_multiple_matches_with_replace_all`. -/
example : checksOn
    [("data.firm", ["task task_one {", "    title = \"First\"", "}", "task task_two {", "    title = \"Second\"", "}"])]
    fun f => [replacedThen (runReplace (diskOf f) "data.firm" "title".toList "name".toList true) fun content n =>
      n == 2 && lacks (some content) "title" && matchCount "name".toList content == 2] := by decide +kernel

/-- `test_replace_source_empty_old_string_error`. -/
example : checksOn [("data.firm", ["schema test {}"])] fun f =>
    [refusedReplace (runReplace (diskOf f) "data.firm" [] "something".toList false)] := by decide +kernel

/-- `test_replace_source_empty_new_string_deletion`. -/
example : checksOn
    [("data.firm", ["schema task {", "    field { name = \"title\" type = \"string\" required = true }", "}",
      "// This is a comment to remove", "task my_task {", "    title = \"Test\"", "}"])]
    fun f => [replacedThen (runReplace (diskOf f) "data.firm" (fileText ["// This is a comment to remove", ""]) [] false)
      fun content _ => lacks (some content) "comment to remove"] := by decide +kernel

/-- `test_replace_source_preserves_other_content`. -/
example : checksOn
    [("data.firm", ["schema task {", "    field { name = \"title\" type = \"string\" required = true }", "}",
      "task my_task {", "    title = \"Original Title\"", "}"])]
    fun f => [replacedThen (runReplace (diskOf f) "data.firm" "title = \"Original Title\"".toList
        "title = \"New Title\"".toList false) fun content _ =>
      has (some content) "schema task" && has (some content) "name = \"title\"" &&
        has (some content) "title = \"New Title\""] := by decide +kernel

/-- `test_replace_source_file_not_found`. -/
example : checksOn [("other.firm", ["schema x {}"])] fun f =>
    [refusedReplace (runReplace (diskOf f) "nonexistent.firm" "something".toList "else".toList false)] := by
  decide +kernel

/-- `test_replace_source_syntax_error_detected`. -/
example : checksOn taskOnly fun f =>
    [replacedThen (runReplace (diskOf f) "data.firm" "true }".toList "true".toList false) fun content _ =>
      unwritten (runWrite (diskOf f) "data.firm" content)] := by decide +kernel

/-- `test_replace_source_valid_change_writes_successfully`. -/
example : checksOn
    [("data.firm", ["schema task {", "    field { name = \"title\" type = \"string\" required = true }", "}",
      "task my_task {", "    title = \"Old\"", "}"])]
    fun f => [replacedThen (runReplace (diskOf f) "data.firm" "title = \"Old\"".toList "title = \"New\"".toList false)
      fun content _ =>
        (wrote (runWrite (diskOf f) "data.firm" content) fun _ => true) &&
        has (contents (runWrite (diskOf f) "data.firm" content).1 "data.firm") "title = \"New\""] := by decide +kernel

/-- `test_replace_source_rollback_on_failure`. -/
example : checksOn taskOnly fun f =>
    [(rollbackWriteT (overwritten (diskOf f) "data.firm" "invalid { syntax") projectHost.ws "data.firm".toList
        (contents (diskOf f) "data.firm")).2,
      contents (rollbackWriteT (overwritten (diskOf f) "data.firm" "invalid { syntax") projectHost.ws
        "data.firm".toList (contents (diskOf f) "data.firm")).1 "data.firm" == contents (diskOf f) "data.firm",
      (contents (diskOf f) "data.firm").isSome] := by decide +kernel

/-- `test_replace_source_force_writes_despite_validation_failure`. -/
example : checksOn
    [("data.firm", ["schema task {", "    field { name = \"title\" type = \"string\" required = true }", "}",
      "task my_task {", "    title = \"Test\"", "}"])]
    fun f => [replacedThen (runReplace (diskOf f) "data.firm" "title = \"Test\"".toList
        "title = \"Modified\"".toList false) fun content _ =>
      (wrote (runWrite (diskOf f) "data.firm" content) fun _ => true) &&
      has (contents (runWrite (diskOf f) "data.firm" content).1 "data.firm") "title = \"Modified\"" &&
      lacks (contents (runWrite (diskOf f) "data.firm" content).1 "data.firm") "title = \"Test\""] := by decide +kernel

/-- `test_replace_source_force_keeps_file_on_semantic_error`. -/
example : checksOn
    [("schema.firm", ["schema person {", "    field { name = \"name\" type = \"string\" required = true }", "}",
      "schema task {", "    field { name = \"title\" type = \"string\" required = true }",
      "    field { name = \"assignee\" type = \"reference\" required = true }", "}"]),
     ("data.firm", ["person john {", "    name = \"John\"", "}", "task my_task {", "    title = \"Test\"",
      "    assignee = person.john", "}"])]
    fun f => [replacedThen (runReplace (diskOf f) "data.firm"
        (fileText ["person john {", "    name = \"John\"", "}", ""]) [] false) fun content _ =>
      (wrote (runWrite (diskOf f) "data.firm" content) fun _ => true) &&
      lacks (contents (runWrite (diskOf f) "data.firm" content).1 "data.firm") "person john" &&
      has (contents (runWrite (diskOf f) "data.firm" content).1 "data.firm") "task my_task" &&
      has (contents (runWrite (diskOf f) "data.firm" content).1 "data.firm") "assignee = person.john"] := by
  decide +kernel

/-! The last four tests of the file assert only whether a result is an error; `replaceSourceT` says so by its flag. -/

/-! ## `add_entity_tests.rs` -/

def addParams (type id : String) (fields : List (String × Json)) (toFile : Option String)
    (lists : List (String × String)) : AddParams :=
  ⟨type.toList, id.toList, fields.map fun x => (x.1.toList, x.2), toFile.map (·.toList),
    lists.map fun x => (x.1.toList, x.2.toList)⟩

def jText (s : String) : Json := .string s.toList
def jWhole (n : Nat) : Json := .number (.pos n)

def runAdd (f : Files) (p : AddParams) : FsTree × Option (Str × Bool) := addExecuteT projectHost (serverOf f) p

/-- The file named in the result, after the call. -/
def addedFile (f : Files) (p : AddParams) : Option Str :=
  (runAdd f p).2.bind fun _ =>
    (runAdd f p).1.readText ((runAdd f p).1.placeOf projectHost.ws (p.toFile.getD (defaultTarget p.type)))

def bugFix : AddParams :=
  addParams "task" "bug_fix" [("title", jText "Fix bug"), ("priority", jWhole 1), ("done", .bool false)] none []

/-- `test_add_entity_success` — firm_mcp/tests/add_entity_tests.rs. -/
example : checksOn
    [("schema.firm", ["", "schema task {", "    field { name = \"title\" type = \"string\" required = true }",
      "    field { name = \"priority\" type = \"integer\" required = false }",
      "    field { name = \"done\" type = \"boolean\" required = true }", "}", ""])]
    fun f =>
      [builds f,
        ((runAdd f bugFix).2.map (·.2)) == some true,
        has (some (defaultTarget bugFix.type)) "generated",
        has (some (defaultTarget bugFix.type)) "task.firm",
        has (addedFile f bugFix) "task bug_fix {",
        has (addedFile f bugFix) "title = \"Fix bug\"",
        has (addedFile f bugFix) "priority = 1",
        has (addedFile f bugFix) "done = false"] := by decide +kernel

def launch : AddParams :=
  addParams "event" "launch" [("when", jText "2024-01-01T12:00:00Z"), ("cost", jText "100.50 USD"),
    ("attachment", jText "docs/plan.md"), ("organizer", jText "person.john")] (some "events/launch.firm") []

/-- `test_add_entity_with_special_types`. -/
example : checksOn
    [("schema.firm", ["", "schema event {", "    field { name = \"when\" type = \"datetime\" required = true }",
      "    field { name = \"cost\" type = \"currency\" required = true }",
      "    field { name = \"attachment\" type = \"path\" required = false }",
      "    field { name = \"organizer\" type = \"reference\" required = false }", "}", ""])]
    fun f =>
      [builds f,
        (runAdd f launch).2.isSome,
        has (addedFile f launch) "2024-01-01 at 12:00 UTC",
        has (addedFile f launch) "100.50 USD",
        has (addedFile f launch) "path\"../docs/plan.md\"",
        has (addedFile f launch) "organizer = person.john"] := by decide +kernel

def titledOnly : Files :=
  [("schema.firm", ["", "schema task {", "    field { name = \"title\" type = \"string\" required = true }", "}", ""])]

/-- `test_add_entity_validation_failure`. -/
example : checksOn titledOnly fun f =>
    [builds f, (runAdd f (addParams "task" "bug_fix" [] none [])).2.isNone] := by decide +kernel

/-- `test_add_entity_duplicate_id`. -/
example : checksOn
    [("data.firm", ["", "schema task {", "    field { name = \"title\" type = \"string\" required = true }", "}",
      "task bug_fix {", "    title = \"Existing\"", "}", ""])]
    fun f => [builds f,
      (runAdd f (addParams "task" "bug_fix" [("title", jText "Duplicate")] none [])).2.isNone] := by decide +kernel

def projOne : AddParams :=
  addParams "project" "proj_one" [("title", jText "New Project"),
    ("members", .array [jText "person.alice", jText "person.bob"])] none [("members", "reference")]

/-- `test_add_entity_with_list_of_references`. -/
example : checksOn
    [("schema.firm", ["", "schema person {", "    field { name = \"name\" type = \"string\" required = true }", "}",
      "schema project {", "    field { name = \"title\" type = \"string\" required = true }",
      "    field { name = \"members\" type = \"list\" required = false }", "}", ""])]
    fun f =>
      [builds f, (runAdd f projOne).2.isSome, has (addedFile f projOne) "project proj_one {",
        has (addedFile f projOne) "members = [person.alice, person.bob]"] := by decide +kernel

def taggedTask : Files :=
  [("schema.firm", ["", "schema task {", "    field { name = \"title\" type = \"string\" required = true }",
    "    field { name = \"tags\" type = \"list\" required = false }", "}", ""])]

def tagged (id : String) (lists : List (String × String)) : AddParams :=
  addParams "task" id [("title", jText "Fix bug"), ("tags", .array [jText "urgent", jText "frontend"])] none lists

/-- `test_add_entity_with_list_of_strings`. -/
example : checksOn taggedTask fun f =>
    [builds f, (runAdd f (tagged "bug_fix_tagged" [("tags", "string")])).2.isSome,
      has (addedFile f (tagged "bug_fix_tagged" [("tags", "string")])) "task bug_fix_tagged {",
      has (addedFile f (tagged "bug_fix_tagged" [("tags", "string")])) "tags = [\"urgent\", \"frontend\"]"] := by
  decide +kernel

/-- `test_add_entity_list_without_type_annotation_error`. -/
example : checksOn taggedTask fun f => [(runAdd f (tagged "bug_fix_no_type" [])).2.isNone] := by decide +kernel

/-- `test_add_entity_invalid_list_item_type_error`. -/
example : checksOn taggedTask fun f =>
    [(runAdd f (tagged "bug_fix_invalid" [("tags", "invalid_type")])).2.isNone] := by decide +kernel

/-! ## `search_source_tests.rs`, the test with a generated file -/

def manyMatches : Files :=
  [("data.firm", ["schema item {", "    field { name = \"name\" type = \"string\" required = true }", "}", ""] ++
    ((List.range 60).flatMap fun i =>
      [String.ofList ("item entry_".toList ++ showNat i ++ " {".toList), "    name = \"match\"", "}", ""]) ++ [""])]

/-- `test_search_truncates_at_limit`. -/
example : checksOn manyMatches fun f =>
    [has (runSearch f "match" false) "truncated",
      ((runSearch f "match" false).map fun t =>
        ((strLines t).filter fun l => startsWith l "  ".toList).length) == some 50] := by decide +kernel

/-! ## `resources.rs` -/

/-- `test_source_file_uri` — firm_mcp/src/resources.rs:139-144. -/
example : checks [sourceFileUri "core/people.firm".toList == "firm://source/core/people.firm".toList] := by decide +kernel

/-- `test_parse_source_uri` — resources.rs:147-154. -/
example : checks [parseSourceUri "firm://source/core/people.firm".toList == some "core/people.firm".toList,
    parseSourceUri "firm://source".toList == none,
    parseSourceUri "other://source/file.firm".toList == none] := by decide +kernel

/-- `test_to_relative_path` — resources.rs:157-164. -/
example : checks [toRelativePath "/workspace".toList "/workspace/core/people.firm".toList ==
    some "core/people.firm".toList] := by decide +kernel

end Firm.Conformance
