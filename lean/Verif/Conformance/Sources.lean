import Verif.Conformance.Basic
import Verif.Model.Listing
import Verif.Props.Printed

/-!
# A grammar for the tests of `firm_mcp`

The tests of the tools write source files. Tree-sitter's grammar is not part of the repository, so the
texts of these tests are read by a small parser made for them; it stands for the grammar in the
examples of this directory and nowhere else.
-/

namespace Firm.Conformance

/-- The characters that end a word. -/
def endsWord (c : Char) : Bool := isWs c || c ∈ ['{', '}', '[', ']', '=', ',', '"']

/-- Up to the quote that closes a text. -/
def quoted : Str → Str × Str
  | [] => ([], [])
  | '\\' :: c :: s => let r := quoted s; ('\\' :: c :: r.1, r.2)
  | c :: s => if c = '"' then ([c], s) else let r := quoted s; (c :: r.1, r.2)

/-- The words of a text, without comments. -/
def tokens : Nat → Str → List Str
  | 0, _ => []
  | _, [] => []
  | fuel + 1, c :: s =>
    if isWs c then tokens fuel s
    else if c = '/' ∧ s.head? = some '/' then tokens fuel (s.dropWhile (· ≠ '\n'))
    else if c = '"' then let r := quoted s; (c :: r.1) :: tokens fuel r.2
    else if endsWord c then [c] :: tokens fuel s
    else
      let word := c :: s.takeWhile (fun x => !endsWord x)
      match s.dropWhile (fun x => !endsWord x) with
      | '"' :: s' => let r := quoted s'; (word ++ '"' :: r.1) :: tokens fuel r.2
      | s' => word :: tokens fuel s'

def node (kind : String) (text : Str) (children : List Node) : Node := .mk kind.toList text children

/-- The kind of a value that is one word. -/
def wordKind (t : Str) : Option String :=
  if t.head? = some '"' then some "string"
  else if startsWith t "path\"".toList then some "path"
  else if startsWith t "enum\"".toList then some "enum"
  else if t = "true".toList ∨ t = "false".toList then some "boolean"
  else if (t.head?.map isDigit) = some true then (if '-' ∈ t then some "date" else some "number")
  else if '.' ∈ t then some "reference"
  else none

mutual
/-- A value and what comes after it. -/
def dslValue : Nat → List Str → Option (Node × List Str)
  | 0, _ => none
  | _, [] => none
  | fuel + 1, t :: ts =>
    if t = ['['] then (dslValues fuel ts).map fun r => (node "value" [] [node "list" [] r.1], r.2)
    else (wordKind t).map fun k => (node "value" t [node k t []], ts)
/-- The items of a list. -/
def dslValues : Nat → List Str → Option (List Node × List Str)
  | 0, _ => none
  | _, [] => none
  | fuel + 1, t :: ts =>
    if t = [']'] then some ([], ts)
    else if t = [','] then dslValues fuel ts
    else (dslValue fuel (t :: ts)).bind fun v => (dslValues fuel v.2).map fun r => (v.1 :: r.1, r.2)
end

/-- The contents of a block. -/
def dslBlock : Nat → List Str → Option (List Node × List Str)
  | 0, _ => none
  | fuel + 1, ts =>
    match ts with
    | ['}'] :: ts => some ([], ts)
    | name :: ['='] :: ts =>
      (dslValue fuel ts).bind fun v => (dslBlock fuel v.2).map fun r =>
        (node "field" [] [node "field_name" name [], v.1] :: r.1, r.2)
    | name :: ['{'] :: ts =>
      (dslBlock fuel ts).bind fun b => (dslBlock fuel b.2).map fun r =>
        (node "nested_block" [] [node "block_type" name [], node "block" [] b.1] :: r.1, r.2)
    | _ => none

/-- A source file. -/
def dslSource : Nat → List Str → Option (List Node)
  | 0, _ => none
  | fuel + 1, ts =>
    match ts with
    | [] => some []
    | type :: id :: ['{'] :: ts =>
      (dslBlock fuel ts).bind fun b => (dslSource fuel b.2).map fun r =>
        (if type = "schema".toList then node "schema_block" [] [node "schema_name" id [], node "block" [] b.1]
        else node "entity_block" [] [node "entity_type" type [], node "entity_id" id [], node "block" [] b.1]) :: r
    | _ => none

def dslParse (text : Str) : Option (List Node) :=
  let ts := tokens (text.length + 1) text
  dslSource (ts.length + 1) ts

/-- The workspace `/w` of the tests. -/
def projectHost : Host where
  lang := projectLang
  grammar text := node "source_file" text ((dslParse text).getD [])
  accepts text := (dslParse text).isSome
  parseRfc3339 s := if s = "2024-01-01T12:00:00Z".toList then some ⟨1704110400, 0, 0⟩ else none
  ws := ["w".toList]

def projectScreen : Screen := exScreen

/-- The files of a test: path and lines. -/
abbrev Files := List (String × List String)

def fileText (ls : List String) : Str := joinWith ['\n'] (ls.map (·.toList))

/-- The disk of a test: the files in `/w` — firm_mcp/tests/helpers.rs:33-43. -/
def diskOf (files : Files) : FsTree :=
  files.foldl (fun d f =>
    let loc := "w".toList :: splitChar '/' f.1.toList
    ((d.createDirAll loc.dropLast).bind fun d => d.writeFile loc (fileText f.2)).getD d)
    (.dir (some [("w".toList, .dir (some [])), ("etc".toList, .dir (some [("passwd".toList, .file (some "root".toList))]))]))

/-- `create_workspace` — firm_mcp/tests/helpers.rs:33-50. -/
def workspaceOf (files : Files) : Workspace :=
  match (diskOf files).lookup ["w".toList] with
  | none => []
  | some t => (Workspace.loadDirectory projectHost.grammar [] (placeText projectHost.ws) t).1

def builds (files : Files) : Bool :=
  match (workspaceOf files).build projectLang with
  | .ok _ => true
  | .error _ => false

/-- `workspace.build().unwrap()`. -/
def buildOf (files : Files) : WorkspaceBuild :=
  match (workspaceOf files).build projectLang with
  | .ok b => b
  | .error _ => ⟨[], []⟩

/-- `create_graph` — firm_mcp/tests/related_tests.rs:12-20. -/
def filesGraph (files : Files) : Graph := (buildOf files).toGraph.1

def serverOf (files : Files) : Server := ⟨diskOf files, ⟨workspaceOf files, buildOf files, filesGraph files⟩⟩

/-- `text.contains(x)`. -/
def has (r : Option Str) (x : String) : Bool :=
  match r with
  | some s => strContains s x.toList
  | none => false

/-- `!text.contains(x)`. -/
def lacks (r : Option Str) (x : String) : Bool :=
  match r with
  | some s => !strContains s x.toList
  | none => false

/-- `assert_eq!(lines[i], x)`. -/
def hasLine (r : Option Str) (i : Nat) (x : String) : Bool :=
  match r with
  | some s => (strLines s)[i]? == some x.toList
  | none => false

/-- All assertions of a test on its files. -/
abbrev checksOn (f : Files) (c : Files → List Bool) : Prop := checks (c f)

def runList (f : Files) (type : String) : Option Str := some (listTool (buildOf f) type.toList)
def runGet (f : Files) (type id : String) : Option Str :=
  (getTool projectLang.cases (buildOf f) type.toList id.toList).map (showItem projectScreen)
def runFind (f : Files) (type id : String) : Option Str :=
  findSourceTool (placeText projectHost.ws) (workspaceOf f) type.toList id.toList
def runRelated (f : Files) (type id : String) (dir : Option Direction) : Option Str :=
  relatedTool projectLang.cases (filesGraph f) type.toList id.toList dir
def runRead (f : Files) (path : String) : Option Str := readSourceFile (diskOf f) projectHost.ws path.toList
def runTree (f : Files) : Option Str := some (sourceTreeText (placeText projectHost.ws) (workspaceOf f))
def runSearch (f : Files) (query : String) (cs : Bool) : Option Str := searchText projectHost (serverOf f) query.toList cs

end Firm.Conformance
