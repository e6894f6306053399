import Verif.Lib.Json
import Verif.Lib.StrLit
import Verif.Model.Changesets
import Mathlib.Data.List.Sort
/-!
# Model of the program `src/bin/osmio-changeset-tags-to-sqlite.rs`

The program as a machine that makes one database operation per step. The source is the sequence of XML events of the
decompressed changeset file. SQLite is modelled by what a file holds after the last commit (that is also what is found after
a crash, since SQLite rolls an unfinished transaction back) and the rows inserted in the open transaction. Whether the
operation of a step fails for a reason of its own (disk full, file locked) is an input. Progress messages are not modelled,
and neither is a failure to print.
-/

namespace Osmio.TagsToSqlite
open Changesets QuickXml

/-- A row of the table `changeset_tags`: `id` and `other_tags`; `src/bin/osmio-changeset-tags-to-sqlite.rs:38-49`. -/
abbrev Row := Int64 × List UInt8

/-- A file: nothing, a database without the table, or one with the rows of the table; `src/bin/osmio-changeset-tags-to-sqlite.rs:23-49`. -/
abbrev File := Option (Option (List Row))

/-- How far the program has come; `src/bin/osmio-changeset-tags-to-sqlite.rs:16-147`. -/
inductive Phase where
  | check    -- lines 21-28
  | create   -- lines 38-49
  | begin    -- lines 51-53
  | insert   -- lines 67-119
  | commit   -- lines 120-121
  | report   -- lines 123-144
  | done     -- `Ok(())`, line 146
  | failed   -- an error was returned
  deriving DecidableEq

/-- The state of the program and its database file; `src/bin/osmio-changeset-tags-to-sqlite.rs:28-59`. -/
structure Run where
  phase : Phase
  file : File
  reader : TagReader
  /-- rows inserted in the transaction -/
  pending : List Row := []
  /-- `tag_popularity`, a `HashMap<String, usize>` -/
  popularity : List (Str × Nat) := []
  /-- `num_changesets_with_tags` -/
  num : Nat := 0
  /-- lines printed at the end -/
  output : List Str := []

/-- `src/bin/osmio-changeset-tags-to-sqlite.rs:103-107` -/
def countKey (k : Str) : List (Str × Nat) → List (Str × Nat)
  | [] => [(k, 1)]
  | (k', n) :: r => if k' = k then (k', n + 1) :: r else (k', n) :: countKey k r

/-- `src/bin/osmio-changeset-tags-to-sqlite.rs:102-108` -/
def countTags (tags : List (Str × Str)) (pop : List (Str × Nat)) : List (Str × Nat) :=
  tags.foldl (fun pop kv => countKey kv.1 pop) pop

/-- `src/bin/osmio-changeset-tags-to-sqlite.rs:109-112`: the parameters of the `INSERT`. -/
def rowOf (cid : UInt64) (tags : List (Str × Str)) : Row :=
  (cid.toInt64, Utf8.encode (Json.array tags))

/-- `(usize, String)`'s `Ord`, as "not greater"; `src/bin/osmio-changeset-tags-to-sqlite.rs:132`. -/
def pairLe (a b : Nat × Str) : Bool :=
  if a.1 = b.1 then compareStr a.2 b.2 != .gt else decide (a.1 < b.1)

/-- `src/bin/osmio-changeset-tags-to-sqlite.rs:128-133`; the map's order of iteration does not matter after sorting. -/
def ranking (pop : List (Str × Nat)) : List (Nat × Str) :=
  ((pop.map fun p => (p.2, p.1)).insertionSort fun a b => pairLe a b = true).reverse

/-- `{:>w}`; `src/bin/osmio-changeset-tags-to-sqlite.rs:139`. -/
def padLeft (w : Nat) (s : Str) : Str := List.replicate (w - s.length) ' ' ++ s

/-- `src/bin/osmio-changeset-tags-to-sqlite.rs:138-143` -/
def line (total : Nat) (p : Nat × Str) : Str :=
  padLeft 8 (natStr p.1) ++ ' ' :: (padLeft 3 (natStr (p.1 * 100 / total)) ++ str% "% tagged " ++ p.2)

/-- `src/bin/osmio-changeset-tags-to-sqlite.rs:123-144`. The products do not overflow: there are not that many tags. -/
def reportLines (num : Nat) (pop : List (Str × Nat)) : List Str :=
  (str% "Inserted " ++ natStr num ++ str% " changesets, and got " ++ natStr pop.length ++ str% " unique tags") ::
    (((ranking pop).take 100).takeWhile fun p => !decide (p.1 * 1000 < num)).map (line num)

/-- The id is already in the table: `id` is the primary key; `src/bin/osmio-changeset-tags-to-sqlite.rs:40`. -/
def hasId (rows : List Row) (id : Int64) : Bool := rows.any fun r => r.1 == id

/-- One round of the loop, `src/bin/osmio-changeset-tags-to-sqlite.rs:67-119`. -/
def insertStep (fails : Bool) (s : Run) : Run :=
  match nextTag (s.reader.evs.length + 1) s.reader with
  | some (.ok (some (cid, tags)), r) =>
    if fails || hasId s.pending (rowOf cid tags).1 then { s with phase := .failed, reader := r, pending := [] }
    else { s with reader := r, pending := s.pending ++ [rowOf cid tags], popularity := countTags tags s.popularity, num := s.num + 1 }
  | some (.ok none, r) => { s with phase := .commit, reader := r }
  | some (.error _, r) => { s with phase := .failed, reader := r, pending := [] }
  | none => s

/-- `src/bin/osmio-changeset-tags-to-sqlite.rs:16-147`, one operation. `fails`: the operation fails. A transaction
that is dropped is rolled back. -/
def step (fails : Bool) (s : Run) : Run :=
  match s.phase with
  | .check =>
    match s.file with
    | some _ => { s with phase := .failed }
    | none => if fails then { s with phase := .failed } else { s with phase := .create, file := some none }
  | .create => if fails then { s with phase := .failed } else { s with phase := .begin, file := some (some []) }
  | .begin => if fails then { s with phase := .failed } else { s with phase := .insert }
  | .insert => insertStep fails s
  | .commit =>
    if fails then { s with phase := .failed, pending := [] }
    else { s with phase := .report, file := some (some s.pending), pending := [] }
  | .report => { s with phase := .done, output := reportLines s.num s.popularity }
  | .done => s
  | .failed => s

/-- The state after some number of operations; `fails t` says whether operation `t` fails; `src/bin/osmio-changeset-tags-to-sqlite.rs:16-147`. -/
def after (fails : Nat → Bool) (s : Run) : Nat → Run
  | 0 => s
  | n + 1 => step (fails n) (after fails s n)

/-- The program starts with these events to read and this file at the path of the database; `src/bin/osmio-changeset-tags-to-sqlite.rs:21`. -/
def start (evs : Events) (file : File) : Run :=
  { phase := .check, file := file, reader := newTagReader evs }

end Osmio.TagsToSqlite
