import Verif.Model.Open
import Verif.Model.TagsToSqlite
/-!
# Model of the program `src/bin/osmio-changeset-tags-to-sqlite.rs`: its arguments and its files

The disk holds, for each name, what opening it for reading gives, and the databases.
-/

namespace Osmio.TagsToSqlite
open QuickXml

/-- What is at each name, as a database; `src/bin/osmio-changeset-tags-to-sqlite.rs:18` and `28`. -/
abbrev Databases := FileName → File

/-- Where the program is: it has panicked because an argument is missing, it could not open the changeset file, or it runs on a database; `src/bin/osmio-changeset-tags-to-sqlite.rs:16-147`. -/
inductive Main where
  | panicked
  | unopened
  | running (db : FileName) (run : Run)

/-- `src/bin/osmio-changeset-tags-to-sqlite.rs:17-21`: arguments, and the reader. Nothing else has been touched yet. -/
def Main.start (later : Events) (dec : Bz2) (files : Files) (dbs : Databases) (args : List FileName) : Main :=
  match args[1]? with
  | none => .panicked
  | some changesetFilename =>
    match args[2]? with
    | none => .panicked
    | some sqliteFilename =>
      match Changesets.tagsFromFilename later dec files changesetFilename with
      | none => .unopened
      | some osc => .running sqliteFilename { phase := .check, file := dbs sqliteFilename, reader := osc }

/-- `src/bin/osmio-changeset-tags-to-sqlite.rs:23-147`: one operation. -/
def Main.step (fails : Bool) : Main → Main
  | .running db run => .running db (TagsToSqlite.step fails run)
  | m => m

/-- The state after some number of operations; `fails t` says whether operation `t` fails; `src/bin/osmio-changeset-tags-to-sqlite.rs:16-147`. -/
def Main.after (fails : Nat → Bool) (m : Main) : Nat → Main
  | 0 => m
  | n + 1 => Main.step (fails n) (Main.after fails m n)

/-- The databases on the disk, now; `dbs` is what they were before the program started; `src/bin/osmio-changeset-tags-to-sqlite.rs:28`. -/
def Main.databases (dbs : Databases) : Main → Databases
  | .running db run => fun name => if name = db then run.file else dbs name
  | _ => dbs

/-- The program has ended and reported success; `src/bin/osmio-changeset-tags-to-sqlite.rs:146`. -/
def Main.succeeded : Main → Bool
  | .running _ run => run.phase = .done
  | _ => false

/-- The program has ended with an error or a panic; `src/bin/osmio-changeset-tags-to-sqlite.rs:16-147`, every `?`, `expect` and `ensure!`. -/
def Main.failed : Main → Bool
  | .running _ run => run.phase = .failed
  | _ => true

end Osmio.TagsToSqlite
