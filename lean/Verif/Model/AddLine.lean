import Verif.Model.Prompt

/-!
# The command line of `firm add`
-/

namespace Firm

/-- `FirmCliCommand::Add` — firm_cli/src/cli.rs:61-80. `--field`, `--list` and `--list-value` take two words each
(`num_args = 2`), so each of them is a list of pairs. -/
structure AddLine where
  toFile : Option Str
  type : Option Str
  id : Option Str
  fields : List (Str × Str)
  lists : List (Str × Str)
  values : List (Str × Str)

/-- The words of an option that was given several times, as clap collects them. -/
def wordsOf (ps : List (Str × Str)) : List Str := ps.flatMap fun p => [p.1, p.2]

/-- `is_non_interactive` — firm_cli/src/commands/add.rs:42-46. -/
def AddLine.nonInteractive (a : AddLine) : Bool :=
  a.type.isSome || a.id.isSome || !(wordsOf a.fields).isEmpty || !(wordsOf a.lists).isEmpty || !(wordsOf a.values).isEmpty

/-- `add_entity` — add.rs:31-69: the disk afterwards and whether it succeeded; `as` are the answers that the user would
give. The graph and the schemas are loaded by both ways of adding; here they are given. -/
def Dialogue.addEntity (D : Dialogue) (g : Graph) (schemas : List EntitySchema) (d : FsTree) (a : AddLine)
    (as : List Answer) : FsTree × Bool :=
  if a.nonInteractive then
    match a.type, a.id with
    | some type, some id =>
      D.shell.add g schemas d ⟨a.toFile, type, id, wordsOf a.fields, wordsOf a.lists, wordsOf a.values⟩
    | _, _ => (d, false)
  else D.add g schemas d a.toFile as

end Firm
