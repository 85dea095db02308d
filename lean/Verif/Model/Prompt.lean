import Verif.Model.Cli

/-!
# Adding entities by dialogue

Rust sources: `/repo/firm_cli/src/commands/field_prompt.rs`, `/repo/firm_cli/src/commands/add.rs`.

A dialogue is a function of the list of the user's answers. A prompt of the library `inquire` asks again after an
answer that it does not take; escape ends a skippable prompt without a value and is an error for the others; anything
else that ends a prompt (interruption, no terminal) is an error. Messages and help texts are left out: they
do not influence the result; suggestions are in Model/Suggest.lean.
-/

namespace Firm

/-- What the user does at a prompt. -/
inductive Answer where
  /-- An interruption. -/
  | abort
  /-- The escape key. -/
  | skip
  /-- A line of text. -/
  | text (s : Str)
  /-- Yes or no. -/
  | yes (b : Bool)
  /-- The option with this number. -/
  | pick (k : Nat)
  /-- A day of the calendar, counted from 1970-01-01. -/
  | day (n : Int)
  deriving DecidableEq, Repr

/-- What a dialogue gives: an error (`none`), or a value (`none` if it was skipped) and the answers that are left. -/
abbrev Asked (α : Type) := Option (Option α × List Answer)

/-- A prompt of `inquire`: `take` is the value of an answer, `none` if the prompt asks again. -/
def ask {α : Type} (skippable : Bool) (take : Answer → Option α) : List Answer → Asked α
  | [] => none
  | .abort :: _ => none
  | .skip :: rest => if skippable then some (none, rest) else none
  | a :: rest =>
    match take a with
    | some v => some (some v, rest)
    | none => ask skippable take rest

/-- A value that goes on with the dialogue; skipping ends the field, errors end everything. -/
def Asked.andThen {α β : Type} (r : Asked α) (f : α → List Answer → Asked β) : Asked β :=
  match r with
  | none => none
  | some (none, rest) => some (none, rest)
  | some (some v, rest) => f v rest

/-- `Confirm`. -/
def takeYes : Answer → Option Bool
  | .yes b => some b
  | _ => none

/-- `Text` without a validator, `CustomType`: the answers that a parser takes. -/
def takeText {α : Type} (parse : Str → Option α) : Answer → Option α
  | .text s => parse s
  | _ => none

/-- `Select`. -/
def takeOption {α : Type} (options : List α) : Answer → Option α
  | .pick k => options[k]?
  | _ => none

/-- `DateSelect`. -/
def takeDay : Answer → Option Int
  | .day n => some n
  | _ => none

/-- `Select`, which refuses an empty list of options. -/
def askOption {α : Type} (skippable : Bool) (options : List α) (as : List Answer) : Asked α :=
  if options.isEmpty then none else ask skippable (takeOption options) as

/-- `CustomType` with a default: the empty line stands for it. -/
def orDefault {α : Type} (d : α) (parse : Str → Option α) (s : Str) : Option α :=
  if s = [] then some d else parse s

/-- What the dialogue takes from its surroundings besides those of the command. -/
structure Dialogue where
  shell : Shell
  /-- `Currency::iter()`, by code. -/
  currencies : List Str

/-- `bool_prompt` — field_prompt.rs:63-77. -/
def boolPrompt (skippable : Bool) (as : List Answer) : Asked FieldValue :=
  (ask skippable takeYes as).andThen fun b rest => some (some (.boolean b), rest)

/-- `string_prompt` — field_prompt.rs:81-122: blank lines are not taken. -/
def stringPrompt (skippable : Bool) (as : List Answer) : Asked FieldValue :=
  (ask skippable (takeText fun s => if (trim s).isEmpty then none else some s) as).andThen
    fun s rest => some (some (.string s), rest)

/-- `int_prompt` — field_prompt.rs:126-141. -/
def intPrompt (skippable : Bool) (as : List Answer) : Asked FieldValue :=
  (ask skippable (takeText parseI64) as).andThen fun n rest => some (some (.integer n), rest)

/-- `float_prompt` — field_prompt.rs:145-160. -/
def floatPrompt (L : Lang) (skippable : Bool) (as : List Answer) : Asked FieldValue :=
  (ask skippable (takeText L.parseF64) as).andThen fun f rest => some (some (.float f), rest)

/-- `currency_prompt` — field_prompt.rs:175-216: only the amount can be skipped. -/
def currencyPrompt (D : Dialogue) (skippable : Bool) (as : List Answer) : Asked FieldValue :=
  (ask skippable (takeText parseDecimal) as).andThen fun d rest =>
    (askOption false D.currencies rest).andThen fun c rest => some (some (.currency d c), rest)

/-- `date_prompt` — field_prompt.rs:435-522. The default offset is the whole hours of the local one, rounded towards
zero. An offset out of range is an error. -/
def datePrompt (D : Dialogue) (skippable : Bool) (as : List Answer) : Asked FieldValue :=
  (ask skippable takeDay as).andThen fun n rest =>
    (ask skippable (takeText (orDefault (12 * 60) parseTime)) rest).andThen fun t rest =>
      (ask skippable (takeText (orDefault (D.shell.lang.localOffset.tdiv 3600) parseI32)) rest).andThen fun o rest =>
        if -12 ≤ o ∧ o ≤ 14 then
          some (some (.dateTime ⟨n * 86400 + t * 60 - o * 3600, 0, o * 3600⟩), rest)
        else none

/-- `parse_reference` as a validator — field_prompt.rs:267-307. -/
def referenceExists (T : CaseTable) (g : Graph) (s : Str) : Bool :=
  match splitChar '.' s with
  | [t, i] => (g.getEntity (T.composeEntityId t i)).isSome
  | [t, i, f] =>
    match g.getEntity (T.composeEntityId t i) with
    | some e => (e.getField f).isSome
    | none => false
  | _ => false

/-- `reference_prompt` — field_prompt.rs:221-264; the last case is not reached. -/
def referencePrompt (T : CaseTable) (g : Graph) (skippable : Bool) (as : List Answer) : Asked FieldValue :=
  (ask skippable (takeText fun s => if referenceExists T g s then some s else none) as).andThen fun s rest =>
    match splitChar '.' s with
    | [t, i] => some (some (.reference (.entity (T.composeEntityId t i))), rest)
    | [t, i, f] => some (some (.reference (.field (T.composeEntityId t i) f)), rest)
    | _ => none

/-- The value of `path_prompt` — field_prompt.rs:556-562. -/
def promptedPath (ws : List Str) (target : List PathComp) (s : Str) : Str :=
  match diffComps (joinComps ws s) (parentOf target) with
  | some rel => showComps rel
  | none => s

/-- `path_prompt` — field_prompt.rs:525-563. -/
def pathPrompt (ws : List Str) (target : List PathComp) (skippable : Bool) (as : List Answer) : Asked FieldValue :=
  (ask skippable (takeText some) as).andThen fun s rest => some (some (.path (promptedPath ws target s)), rest)

/-- `enum_prompt` — field_prompt.rs:607-625: the prompt is never skippable. -/
def enumPrompt (allowed : Option (List Str)) (as : List Answer) : Asked FieldValue :=
  match allowed with
  | some values => (askOption false values as).andThen fun v rest => some (some (.enum v), rest)
  | none => none

/-- `prompt_for_field_value` for the types of list items — field_prompt.rs:35-40, 51. -/
def itemPrompt (D : Dialogue) (skippable : Bool) (t : FieldType) (as : List Answer) : Asked FieldValue :=
  match t with
  | .boolean => boolPrompt skippable as
  | .string => stringPrompt skippable as
  | .integer => intPrompt skippable as
  | .float => floatPrompt D.shell.lang skippable as
  | .currency => currencyPrompt D skippable as
  | .dateTime => datePrompt D skippable as
  | _ => none

/-- The loop of `list_prompt` — field_prompt.rs:405-428. The first argument bounds the number of items. -/
def listLoop (D : Dialogue) (t : FieldType) : Nat → List Answer → Option (List FieldValue × List Answer)
  | 0, _ => none
  | n + 1, as =>
    match itemPrompt D true t as with
    | none => none
    | some (none, rest) => some ([], rest)
    | some (some v, rest) => (listLoop D t n rest).map fun p => (v :: p.1, p.2)

/-- The types that a list can have — field_prompt.rs:373-380. -/
def listItemTypes : List FieldType := [.string, .integer, .float, .boolean, .dateTime, .currency]

/-- `list_prompt` — field_prompt.rs:365-431. An item takes an answer, so there are fewer items than answers. -/
def listPrompt (D : Dialogue) (skippable : Bool) (as : List Answer) : Asked FieldValue :=
  (askOption skippable listItemTypes as).andThen fun t rest =>
    (listLoop D t rest.length rest).map fun p => (some (.list p.1), p.2)

/-- `prompt_for_field_value` — field_prompt.rs:22-59. -/
def fieldPrompt (D : Dialogue) (g : Graph) (target : List PathComp) (fs : FieldSchema) (as : List Answer) :
    Asked FieldValue :=
  match fs.fieldType with
  | .reference => referencePrompt D.shell.lang.cases g (!fs.isRequired) as
  | .list => listPrompt D (!fs.isRequired) as
  | .path => pathPrompt D.shell.ws target (!fs.isRequired) as
  | .enum => enumPrompt fs.allowedValues as
  | t => itemPrompt D (!fs.isRequired) t as

/-- The loops of `prompt_required_fields` and `prompt_optional_fields` — add.rs:372-384, 404-416. -/
def promptFields (D : Dialogue) (g : Graph) (target : List PathComp) :
    List (FieldId × FieldSchema) → Entity → List Answer → Option (Entity × List Answer)
  | [], e, as => some (e, as)
  | (f, fs) :: more, e, as =>
    match fieldPrompt D g target fs as with
    | none => none
    | some (none, rest) => promptFields D g target more e rest
    | some (some v, rest) => promptFields D g target more (e.withField f v) rest

/-- The fields of one mode, by name — add.rs:365-371, 397-403. -/
def fieldsOfMode (sc : EntitySchema) (required : Bool) : List (FieldId × FieldSchema) :=
  stableSort (fun a b => (strCmp a.1 b.1).isLE) (sc.fields.filter fun p => p.2.isRequired == required)

/-- The entity of `add_entity_interactive`, the path of the target and the answers that are left — add.rs:296-343;
`g` is the saved graph and `schemas` those of the build. The id of the entity does not begin with its type. -/
def Dialogue.entity (D : Dialogue) (g : Graph) (schemas : List EntitySchema) (toFile : Option Str) (as : List Answer) :
    Option (Entity × List PathComp × List Answer) :=
  match askOption false (stableSort (fun a b => (strCmp a.entityType b.entityType).isLE) schemas) as with
  | some (some sc, as) =>
    match ask false (takeText some) as with
    | some (some chosen, as) =>
      let target := D.shell.dslPath toFile sc.entityType
      let e := Entity.new (D.shell.uniqueEntityId g sc.entityType chosen) sc.entityType
      match promptFields D g target (fieldsOfMode sc true) e as with
      | none => none
      | some (e, as) =>
        match ask false takeYes as with
        | some (some false, as) => some (e, target, as)
        | some (some true, as) =>
          match promptFields D g target (fieldsOfMode sc false) e as with
          | none => none
          | some (e, as) => some (e, target, as)
        | _ => none
    | _ => none
  | _ => none

/-- `add_entity_interactive` — add.rs:290-355: the disk afterwards and whether it succeeded. -/
def Dialogue.add (D : Dialogue) (g : Graph) (schemas : List EntitySchema) (d : FsTree) (toFile : Option Str)
    (as : List Answer) : FsTree × Bool :=
  match D.entity g schemas toFile as with
  | none => (d, false)
  | some (e, target, _) => cliAppend d (lexicalPlace [] target) (generateDsl D.shell.lang .default [e])

end Firm
