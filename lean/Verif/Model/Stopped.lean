import Verif.Model.Interrupted
import Verif.Model.Main

/-!
# Commands that are stopped

Rust sources: the calls of `std::fs` made by `/repo/firm_cli/src/files.rs` and `/repo/firm_cli/src/commands/add.rs`, in the
order in which they change the disk.

`Model/Main.lean` takes every call as done at once. Here a command may be stopped between two calls or inside one, as in
`Model/Interrupted.lean`; a rename is one step.
-/

namespace Firm

/-- The disks at which building and saving can stop — commands/build.rs:10-25, files.rs:30-61. -/
inductive BuildStop (M : Machine) (x : Chance) (d : FsTree) : FsTree → Prop
  /-- Before the old graph is set aside. -/
  | before : BuildStop M x d d
  /-- Before, while or after the new one is written. -/
  | saving {b : WorkspaceBuild} {g : Graph} {d1 d' : FsTree} (hb : loadBuild M.host x.files d = some b)
      (hg : b.toGraph = (g, .ok ())) (ha : setGraphAside M.host.ws d = some d1)
      (hs : StopsAt d1 [.write (M.host.ws ++ [currentName]) (graphText M.screen.codec x.maps g)] d') : BuildStop M x d d'

/-- The calls of `write_dsl` — add.rs:481-512. A file that is no text stays one. -/
def writeDslOps (d : FsTree) (loc : List Str) (dsl : Str) : List FsOp :=
  match d.createDirAll loc.dropLast with
  | none => [.mkdirs loc.dropLast]
  | some d1 =>
    match d1.lookup loc with
    | none => [.mkdirs loc.dropLast, .append loc dsl]
    | some (.file (some _)) => [.mkdirs loc.dropLast, .append loc dsl]
    | some _ => [.mkdirs loc.dropLast]

/-- The disks at which `firm add` can stop after the build — add.rs:72-287. -/
inductive AddStop (M : Machine) (x : Chance) (d : FsTree) (a : AddArgs) : FsTree → Prop
  /-- Before anything is written. -/
  | before : AddStop M x d a d
  /-- Before, while or after the entity is written. -/
  | writing {g : Graph} {b : WorkspaceBuild} {e : Entity} {d' : FsTree}
      (hg : loadGraphFile M.screen.codec M.host.ws d = some g) (hb : loadBuild M.host x.again d = some b)
      (he : M.shell.entityToAdd g b.schemas a = some e)
      (hs : StopsAt d (writeDslOps d (lexicalPlace [] (M.shell.dslPath a.toFile a.type))
        (generateDsl M.shell.lang .default [e])) d') : AddStop M x d a d'

/-- The disks at which a command can stop — main.rs:22-104. -/
inductive FirmStop (M : Machine) (x : Chance) (cached : Bool) (d : FsTree) : Command → FsTree → Prop
  /-- Before anything is changed. -/
  | before (c : Command) : FirmStop M x cached d c d
  /-- In the build that comes first. -/
  | first {c : Command} {d' : FsTree} (hc : (cached || c.skipsBuild) = false) (hb : BuildStop M x d d') :
      FirmStop M x cached d c d'
  /-- In `build`. -/
  | build {d' : FsTree} (hb : BuildStop M x d d') : FirmStop M x cached d .build d'
  /-- In `add` after the build. -/
  | add {a : AddArgs} {d1 d' : FsTree} (hc : cached = false) (hb : buildAndSave M x d = (d1, true))
      (ha : AddStop M x d1 a d') : FirmStop M x cached d (.add a) d'
  /-- In `add` with `--cached`. -/
  | addCached {a : AddArgs} {d' : FsTree} (hc : cached = true) (ha : AddStop M x d a d') :
      FirmStop M x cached d (.add a) d'

end Firm
