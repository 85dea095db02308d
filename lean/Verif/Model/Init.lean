import Verif.Model.Prompt

/-!
# Setting up a workspace

Rust sources: `/repo/firm_cli/src/commands/init.rs`, `/repo/firm_lang/src/defaults.rs`.

The yes-or-no questions that were answered are logged; the log does not influence the result. The return key is the
empty line, which stands for the default of such a question. Messages are left out, and the text of the template
`/repo/firm_cli/AGENTS.md.template` is a parameter.
-/

namespace Firm

/-! ## Default schemas (defaults.rs) -/

/-- One call of a builder. -/
inductive DefaultRow where
  | metadata
  | field (mode : FieldMode) (name : String) (type : FieldType)
  | enum (mode : FieldMode) (name : String) (values : List String)
  deriving DecidableEq, Repr

/-- A type and the calls that make its schema. -/
structure DefaultSchema where
  type : String
  rows : List DefaultRow
  deriving DecidableEq, Repr

/-- `person` — defaults.rs:32-39. -/
def personDefault : DefaultSchema := ⟨"person", [
  .metadata, .field .required "name" .string, .field .optional "email" .string, .field .optional "phone" .string,
  .field .optional "urls" .list]⟩

/-- `organization` — defaults.rs:44-54. -/
def organizationDefault : DefaultSchema := ⟨"organization", [
  .metadata, .field .required "name" .string, .field .optional "address" .string, .field .optional "email" .string,
  .field .optional "phone" .string, .field .optional "urls" .list, .field .optional "vat_id" .string,
  .field .optional "industry_ref" .reference]⟩

/-- `industry` — defaults.rs:60-67. -/
def industryDefault : DefaultSchema := ⟨"industry", [
  .metadata, .field .required "name" .string, .field .optional "sector" .string,
  .field .optional "classification_code" .string, .field .optional "classification_system" .string]⟩

/-- `account` — defaults.rs:73-89. -/
def accountDefault : DefaultSchema := ⟨"account", [
  .metadata, .field .required "name" .string, .field .required "organization_ref" .reference,
  .field .optional "owner_ref" .reference,
  .enum .optional "status" ["prospect", "engaged", "client", "partner", "closed"]]⟩

/-- `channel` — defaults.rs:95-110. -/
def channelDefault : DefaultSchema := ⟨"channel", [
  .metadata, .field .required "name" .string,
  .enum .optional "type" ["website", "social media", "email", "meeting", "other"],
  .field .optional "description" .string]⟩

/-- `lead` — defaults.rs:116-132. -/
def leadDefault : DefaultSchema := ⟨"lead", [
  .metadata, .field .required "source_ref" .reference,
  .enum .optional "status" ["new", "qualified", "converted", "discarded"], .field .optional "person_ref" .reference,
  .field .optional "account_ref" .reference, .field .optional "score" .integer]⟩

/-- `contact` — defaults.rs:138-155. -/
def contactDefault : DefaultSchema := ⟨"contact", [
  .metadata, .field .optional "source_ref" .reference, .field .optional "person_ref" .reference,
  .field .optional "account_ref" .reference, .field .optional "role" .string,
  .enum .optional "status" ["prospect", "partner", "client", "network", "other"]]⟩

/-- `interaction` — defaults.rs:161-182. -/
def interactionDefault : DefaultSchema := ⟨"interaction", [
  .metadata, .enum .optional "type" ["online meeting", "in-person meeting", "chat", "email", "other"],
  .field .required "subject" .string, .field .required "initiator_ref" .reference,
  .field .required "primary_contact_ref" .reference, .field .required "interaction_date" .dateTime,
  .field .optional "outcome" .string, .field .optional "secondary_contacts_ref" .list,
  .field .optional "channel_ref" .reference, .field .optional "opportunity_ref" .reference]⟩

/-- `opportunity` — defaults.rs:188-203. -/
def opportunityDefault : DefaultSchema := ⟨"opportunity", [
  .metadata, .field .required "source_ref" .reference, .field .required "name" .string,
  .enum .optional "status" ["open", "closed won", "closed lost"], .field .optional "value" .currency,
  .field .optional "probability" .integer]⟩

/-- `strategy` — defaults.rs:209-227. -/
def strategyDefault : DefaultSchema := ⟨"strategy", [
  .metadata, .field .required "name" .string, .field .optional "description" .string,
  .field .optional "source_ref" .reference, .field .optional "owner_ref" .reference,
  .enum .optional "status" ["draft", "active", "completed", "archived"], .field .optional "start_date" .dateTime,
  .field .optional "end_date" .dateTime]⟩

/-- `objective` — defaults.rs:233-243. -/
def objectiveDefault : DefaultSchema := ⟨"objective", [
  .metadata, .field .required "name" .string, .field .optional "description" .string,
  .field .optional "strategy_ref" .reference, .field .optional "owner_ref" .reference,
  .field .optional "status" .string, .field .optional "start_date" .dateTime, .field .optional "end_date" .dateTime]⟩

/-- `key_result` — defaults.rs:248-258. -/
def keyResultDefault : DefaultSchema := ⟨"key_result", [
  .metadata, .field .required "name" .string, .field .required "objective_ref" .reference,
  .field .optional "owner_ref" .reference, .field .optional "start_value" .float,
  .field .optional "target_value" .float, .field .optional "current_value" .float, .field .optional "unit" .string]⟩

/-- `project` — defaults.rs:263-280. -/
def projectDefault : DefaultSchema := ⟨"project", [
  .metadata, .field .required "name" .string,
  .enum .optional "status" ["planned", "in progress", "completed", "cancelled"],
  .field .optional "description" .string, .field .optional "owner_ref" .reference,
  .field .optional "objective_refs" .list, .field .optional "due_date" .dateTime]⟩

/-- `task` — defaults.rs:286-296. -/
def taskDefault : DefaultSchema := ⟨"task", [
  .metadata, .field .required "name" .string, .field .optional "description" .string,
  .field .optional "source_ref" .reference, .field .optional "assignee_ref" .reference,
  .field .optional "due_date" .dateTime, .field .optional "is_completed" .boolean,
  .field .optional "completed_at" .dateTime]⟩

/-- `review` — defaults.rs:302-310. -/
def reviewDefault : DefaultSchema := ⟨"review", [
  .metadata, .field .required "name" .string, .field .required "date" .dateTime,
  .field .optional "owner_ref" .reference, .field .optional "source_refs" .list,
  .field .optional "attendee_refs" .list]⟩

/-- `file_asset` — defaults.rs:316-324. -/
def fileAssetDefault : DefaultSchema := ⟨"file_asset", [
  .metadata, .field .required "name" .string, .field .required "path" .path, .field .optional "description" .string,
  .field .optional "source_ref" .reference, .field .optional "owner_ref" .reference]⟩

/-- `all_default_schemas` — defaults.rs:4-27, as calls. -/
def defaultTable : List DefaultSchema :=
  [personDefault, organizationDefault, industryDefault, accountDefault, channelDefault, leadDefault,
   contactDefault, interactionDefault, opportunityDefault, strategyDefault, objectiveDefault, keyResultDefault,
   projectDefault, taskDefault, reviewDefault, fileAssetDefault]

/-- One call with its arguments; names go through `FieldId::new`. -/
def DefaultRow.op (T : CaseTable) : DefaultRow → SchemaOp
  | .metadata => .metadata
  | .field .required name t => .requiredField (T.snake name.toList) t
  | .field .optional name t => .optionalField (T.snake name.toList) t
  | .enum .required name vs => .requiredEnum (T.snake name.toList) (vs.map String.toList)
  | .enum .optional name vs => .optionalEnum (T.snake name.toList) (vs.map String.toList)

/-- The schema that the calls make. -/
def DefaultSchema.schema (L : Lang) (s : DefaultSchema) : EntitySchema :=
  EntitySchema.build L.env (L.cases.snake s.type.toList) (s.rows.map (DefaultRow.op L.cases))

/-- `all_default_schemas` — defaults.rs:4-27. -/
def defaultSchemas (L : Lang) : List EntitySchema := defaultTable.map (DefaultSchema.schema L)

/-! ## The dialogue (init.rs) -/

/-- The questions that are answered with yes or no. -/
inductive Question where
  | schemas | overwriteSchemas | updateGitignore | createGitignore | entities | overwriteMain | context | overwriteContext
  deriving DecidableEq, Repr

/-- What the return key means — init.rs:23, 36, 46, 66, 92, 167, 208, 246. -/
def Question.default : Question → Bool
  | .overwriteSchemas | .overwriteMain | .overwriteContext => false
  | _ => true

/-- The disk, the answers that are left and the questions that were answered. -/
structure InitState where
  disk : FsTree
  answers : List Answer
  log : List (Question × Bool)

/-- `Confirm` with a default. -/
def takeConfirm (dflt : Bool) : Answer → Option Bool
  | .yes b => some b
  | .text [] => some dflt
  | _ => none

/-- A question; without an answer the command ends with an error. -/
def InitState.confirm (s : InitState) (q : Question) (k : Bool → InitState → InitState × Bool) : InitState × Bool :=
  match ask false (takeConfirm q.default) s.answers with
  | some (some b, rest) => k b ⟨s.disk, rest, s.log ++ [(q, b)]⟩
  | _ => (s, false)

/-- A line of text; without one the command ends with an error. -/
def InitState.enter (s : InitState) (k : Str → InitState → InitState × Bool) : InitState × Bool :=
  match ask false (takeText some) s.answers with
  | some (some t, rest) => k t ⟨s.disk, rest, s.log⟩
  | _ => (s, false)

/-- The next step of the command, unless there was an error. -/
def initThen (r : InitState × Bool) (f : InitState → InitState × Bool) : InitState × Bool :=
  if r.2 then f r.1 else r

/-- A file is written. -/
def InitState.write (s : InitState) (loc : List Str) (text : Str) : InitState × Bool :=
  match s.disk.writeFile loc text with
  | none => (s, false)
  | some d => (⟨d, s.answers, s.log⟩, true)

/-- The file of a schema — init.rs:146, 152, 184. -/
def schemaPlace (ws : List Str) (type : Str) : List Str := ws ++ ["schemas".toList] ++ [type ++ ".firm".toList]

/-- The loop of `create_default_schemas` — init.rs:182-190. -/
def writeSchemas (ws : List Str) : List EntitySchema → InitState → InitState × Bool
  | [], s => (s, true)
  | sc :: scs, s => initThen (s.write (schemaPlace ws sc.entityType) (generateSchema .default sc)) (writeSchemas ws scs)

/-- The second half of `create_default_schemas` — init.rs:177-197. -/
def makeSchemas (S : Shell) (s : InitState) : InitState × Bool :=
  match s.disk.createDirAll (S.ws ++ ["schemas".toList]) with
  | none => (s, false)
  | some d => writeSchemas S.ws (defaultSchemas S.lang) ⟨d, s.answers, s.log⟩

/-- `create_default_schemas` — init.rs:145-198. -/
def createDefaultSchemas (S : Shell) (s : InitState) : InitState × Bool :=
  if (defaultSchemas S.lang).any fun sc => (s.disk.lookup (schemaPlace S.ws sc.entityType)).isSome then
    s.confirm .overwriteSchemas fun b s => if b then makeSchemas S s else (s, true)
  else makeSchemas S s

/-- The lines that are added — init.rs:203. -/
def gitignoreEntries : Str := "**/*.firm.graph\n".toList

/-- The text that is appended to an existing file — init.rs:221-240; `none` if the file is left as it is. -/
def gitignoreAppended (old : Str) : Option Str :=
  if strContains old ".DS_Store".toList && strContains old "*.firm.graph".toList then none
  else some ((if endsWith old ['\n'] then [] else ['\n']) ++ gitignoreEntries)

/-- An existing file is extended — init.rs:213-241. -/
def extendGitignore (S : Shell) (s : InitState) : InitState × Bool :=
  match s.disk.readText (S.ws ++ [".gitignore".toList]) with
  | none => (s, false)
  | some old =>
    match gitignoreAppended old with
    | none => (s, true)
    | some more => s.write (S.ws ++ [".gitignore".toList]) (old ++ more)

/-- `create_or_update_gitignore` — init.rs:201-262. -/
def updateGitignore (S : Shell) (s : InitState) : InitState × Bool :=
  if (s.disk.lookup (S.ws ++ [".gitignore".toList])).isSome then
    s.confirm .updateGitignore fun b s => if b then extendGitignore S s else (s, true)
  else
    s.confirm .createGitignore fun b s => if b then s.write (S.ws ++ [".gitignore".toList]) gitignoreEntries else (s, true)

/-- One of the two entities — init.rs:114-121, 123-130. -/
def initEntity (S : Shell) (type : String) (name : Str) : Entity :=
  (Entity.new (type.toList ++ '.' :: S.sanitize name) (S.lang.cases.snake type.toList)).withField
    (S.lang.cases.snake "name".toList) (.string name)

/-- The second half of `create_default_entities` — init.rs:102-141. -/
def makeEntities (S : Shell) (s : InitState) : InitState × Bool :=
  s.enter fun person s => s.enter fun org s =>
    s.write (S.ws ++ ["main.firm".toList])
      (generateDsl S.lang .default [initEntity S "person" person, initEntity S "organization" org])

/-- `create_default_entities` — init.rs:86-142. -/
def createDefaultEntities (S : Shell) (s : InitState) : InitState × Bool :=
  if (s.disk.lookup (S.ws ++ ["main.firm".toList])).isSome then
    s.confirm .overwriteMain fun b s => if b then makeEntities S s else (s, true)
  else makeEntities S s

/-- `create_ai_context` — init.rs:60-83. -/
def createContext (S : Shell) (template : Str) (s : InitState) : InitState × Bool :=
  if (s.disk.lookup (S.ws ++ ["AGENTS.md".toList])).isSome then
    s.confirm .overwriteContext fun b s => if b then s.write (S.ws ++ ["AGENTS.md".toList]) template else (s, true)
  else s.write (S.ws ++ ["AGENTS.md".toList]) template

/-- `init_workspace` — init.rs:15-57. -/
def initWorkspace (S : Shell) (template : Str) (s : InitState) : InitState × Bool :=
  s.confirm .schemas fun b s =>
    initThen (if b then createDefaultSchemas S s else (s, true)) fun s =>
      initThen (updateGitignore S s) fun s =>
        s.confirm .entities fun b s =>
          initThen (if b then createDefaultEntities S s else (s, true)) fun s =>
            s.confirm .context fun b s => if b then createContext S template s else (s, true)

end Firm
