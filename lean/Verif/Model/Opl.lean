import Verif.Lib.RustNum
import Verif.Lib.StrLit
import Verif.Lib.Utf8
import Verif.Lib.Machine
import Verif.Model.LatLon
/-!
# Model: `src/opl/mod.rs`

This module is not compiled into the crate (`src/lib.rs:51` is a comment, and `try!` is no longer a macro of the language); it is modelled
as it is written. `DecodeStringError` carries nothing, so `Result<_, DecodeStringError>` is `Option`. The writer, whose `write_obj` is
`unimplemented!()`, is not modelled. The objects are the old plain structures the file was written for, with the fields it sets. A `HashMap` is the list of its pairs in the order of iteration.
-/

namespace Osmio.Opl

/-- `char::to_digit(16)`; `src/opl/mod.rs:96`, within `from_str_radix`. -/
def hexVal? (c : Char) : Option Nat :=
  if 48 ≤ c.toNat ∧ c.toNat ≤ 57 then some (c.toNat - 48)
  else if 65 ≤ c.toNat ∧ c.toNat ≤ 70 then some (c.toNat - 55)
  else if 97 ≤ c.toNat ∧ c.toNat ≤ 102 then some (c.toNat - 87)
  else none

/-- The value of a string of hexadecimal digits, continuing from `acc`; `src/opl/mod.rs:96`, within `from_str_radix`. -/
def hexDigitsVal (acc : Nat) : Str → Option Nat
  | [] => some acc
  | c :: cs =>
    match hexVal? c with
    | some d => hexDigitsVal (16 * acc + d) cs
    | none => none

/-- `u32::from_str_radix(s, 16)`: an optional plus sign, at least one digit, range check; `src/opl/mod.rs:96`. -/
def parseHex (s : Str) : Option Nat :=
  match stripPlus s with
  | [] => none
  | c :: cs =>
    match hexDigitsVal 0 (c :: cs) with
    | some n => if n < 4294967296 then some n else none
    | none => none

/-- `src/opl/mod.rs:95-97`: the character an escape stands for. -/
def escapedChar (buffer : Str) : Option Char :=
  match parseHex buffer with
  | some n => if n.isValidChar then some (Char.ofNat n) else none
  | none => none

/-- `src/opl/mod.rs:87-114`. The state is `looking_for_percent` with its `buffer` (`some`), or not (`none`). -/
def decodeFrom : Option Str → Str → Option Str
  | _, [] => some []
  | some buffer, c :: r =>
    if c = '%' then
      match escapedChar buffer with
      | some x => (decodeFrom none r).map (x :: ·)
      | none => none
    else decodeFrom (some (buffer ++ [c])) r
  | none, c :: r =>
    if c = '%' then decodeFrom (some []) r
    else (decodeFrom none r).map (c :: ·)

/-- `src/opl/mod.rs:87-114` -/
def decodeString (s : Str) : Option Str := decodeFrom none s

/-- `str::replace` of a character by a string; `src/opl/mod.rs:119`. -/
def replaceChar (s : Str) (c : Char) (w : Str) : Str := s.flatMap fun x => if x = c then w else [x]

/-- The upper case hexadecimal digit of `n < 16`; `src/opl/mod.rs:119`, within `format!`. -/
def hexDigit (n : Nat) : Char := Char.ofNat (if n < 10 then 48 + n else 55 + n)

/-- `{:X}`; `src/opl/mod.rs:119`. -/
def hexStr (n : Nat) : Str :=
  if n < 16 then [hexDigit n] else hexStr (n / 16) ++ [hexDigit (n % 16)]
termination_by n
decreasing_by omega

/-- `format!("%{:X}%", c as u32)` (`src/opl/mod.rs:119`) -/
def escape (c : Char) : Str := '%' :: (hexStr c.toNat ++ ['%'])

/-- `src/opl/mod.rs:116-122` -/
def encodeString (s : Str) : Str :=
  [' ', '\n', ',', '=', '@'].foldl (fun s c => replaceChar s c (escape c)) s

/-- `str::split` at a character; `src/opl/mod.rs:131`, `148`, `161` and `197`. -/
def split (c : Char) : Str → List Str
  | [] => [[]]
  | x :: r =>
    if x = c then [] :: split c r
    else
      match split c r with
      | [] => [[x]]
      | p :: ps => (x :: p) :: ps

/-- `str::splitn(2, ..)` at a character: what is before it and, if it is there, what comes after it; `src/opl/mod.rs:132` and `164`. -/
def splitOnce (c : Char) : Str → Str × Option Str
  | [] => ([], none)
  | x :: r => if x = c then ([], some r) else (x :: (splitOnce c r).1, (splitOnce c r).2)

/-- `[String]::join(",")`; `src/opl/mod.rs:141`, `156` and `173`. -/
def join : List Str → Str
  | [] => []
  | [s] => s
  | s :: r => s ++ ',' :: join r

/-- `HashMap::insert`; a new key goes to the end; `src/opl/mod.rs:135`. -/
def insert (m : List (Str × Str)) (k v : Str) : List (Str × Str) := m.filter (fun p => p.1 != k) ++ [(k, v)]

/-- `src/opl/mod.rs:131-136`: `kv[1]` panics if there is no `=`. -/
def decodePairs (m : List (Str × Str)) : List Str → Res (Option (List (Str × Str)))
  | [] => .ok (some m)
  | kv :: r =>
    match decodeString (splitOnce '=' kv).1 with
    | none => .ok none
    | some k =>
      match (splitOnce '=' kv).2 with
      | none => .error .index
      | some v =>
        match decodeString v with
        | none => .ok none
        | some v => decodePairs (insert m k v) r

/-- `src/opl/mod.rs:125-138` -/
def decodeTags (line : Str) : Res (Option (List (Str × Str))) :=
  if line = [] then .ok (some []) else decodePairs [] (split ',' line)

/-- `src/opl/mod.rs:140-143` -/
def encodeTags (tags : List (Str × Str)) : Str :=
  join (tags.map fun kv => encodeString kv.1 ++ '=' :: encodeString kv.2)

/-- `src/opl/mod.rs:148-151` -/
def decodeIds : List Str → Option (List Int64)
  | [] => some []
  | x :: r =>
    match parseI64 (x.drop 1) with
    | some i => (decodeIds r).map (i :: ·)
    | none => none

/-- `src/opl/mod.rs:146-153` -/
def decodeWayNodes (line : Str) : Option (List Int64) := decodeIds (split ',' line)

/-- `src/opl/mod.rs:155-157` -/
def encodeWayNodes (nodes : List Int64) : Str := join (nodes.map fun n => 'n' :: i64Str n)

/-- `src/opl/mod.rs:176-193`. A character is at byte 1 if the first one is ASCII. -/
def splitKeyValue : Str → Option (Str × Str)
  | [] => none
  | [c] => if c.toNat < 128 then some ([c], []) else none
  | c :: r => if c.toNat < 128 then some ([c], r) else none

/-- One round of the loop (`src/opl/mod.rs:162-167`); `rest[1]` panics if there is no `@`. -/
def decodeMember (x : Str) : Res (Option (Char × Int64 × Str)) :=
  match splitKeyValue x with
  | none => .ok none
  | some (key, rest) =>
    match key with
    | [] => .ok none
    | objType :: _ =>
      match (splitOnce '@' rest).2 with
      | none => .error .index
      | some role =>
        match parseI64 (splitOnce '@' rest).1 with
        | none => .ok none
        | some id => .ok (some (objType, id, role))

/-- `src/opl/mod.rs:161-168` -/
def decodeMemberList : List Str → Res (Option (List (Char × Int64 × Str)))
  | [] => .ok (some [])
  | x :: r =>
    match decodeMember x with
    | .error p => .error p
    | .ok none => .ok none
    | .ok (some m) => (decodeMemberList r).map fun ms => ms.map (m :: ·)

/-- `src/opl/mod.rs:159-170` -/
def decodeMembers (line : Str) : Res (Option (List (Char × Int64 × Str))) := decodeMemberList (split ',' line)

/-- `src/opl/mod.rs:172-174` -/
def encodeMembers (members : List (Char × Int64 × Str)) : Str :=
  join (members.map fun m => m.1 :: (i64Str m.2.1 ++ '@' :: m.2.2))

/-- The fields the three kinds of objects share (`src/opl/mod.rs:213-220`, `230-237`, `246-253`). -/
structure Common where
  id : Int64
  version : UInt32
  deleted : Bool
  changesetId : UInt32
  timestamp : Str
  uid : UInt32
  user : Str
  tags : List (Str × Str)
  deriving DecidableEq

/-- `OSMObj` as this module uses it (`src/opl/mod.rs:212-224`, `229-240`, `245-256`). -/
inductive Obj where
  | node (c : Common) (lon : Option Lon) (lat : Option Lat)
  | way (c : Common) (nodes : List Int64)
  | relation (c : Common) (members : List (Char × Int64 × Str))
  deriving DecidableEq

/-- `items[n].1`; panics if there are not that many items; `src/opl/mod.rs:206-252`. -/
def field (items : List (Str × Str)) (n : Nat) : Res Str :=
  match items[n]? with
  | some p => .ok p.2
  | none => .error .index

/-- `src/opl/mod.rs:197-204`: the items of a line, or the error of the first one that has one. -/
def splitItems : List Str → Option (List (Str × Str))
  | [] => some []
  | x :: r =>
    match splitKeyValue x with
    | none => none
    | some p => (splitItems r).map (p :: ·)

/-- `src/opl/mod.rs:213-220` (and `230-237`, `246-253`): all but the tags are parsed here, after the tags and
what is particular to the kind. Items 0 to 6 are there when item 7 is. -/
def parseCommon (items : List (Str × Str)) (tags : List (Str × Str)) : Res (Option Common) :=
  match field items 0, field items 1, field items 2, field items 3, field items 4, field items 5, field items 6 with
  | .ok f0, .ok f1, .ok f2, .ok f3, .ok f4, .ok f5, .ok f6 =>
    match parseI64 f0, parseU32 f1, parseU32 f3, parseU32 f5 with
    | some id, some version, some changesetId, some uid =>
      .ok (some ⟨id, version, decide (f2 = ['D']), changesetId, f4, uid, f6, tags⟩)
    | _, _, _, _ => .ok none
  | _, _, _, _, _, _, _ => .error .index

/-- `src/opl/mod.rs:209-210`: an empty coordinate is no coordinate. The outer `Option` is the error. -/
def parseCoord (s : Str) : Option (Option Int32) :=
  if s = [] then some none
  else
    match innerFromStr s with
    | .ok i => some (some i)
    | .error _ => none

/-- `src/opl/mod.rs:207-225` -/
def decodeNode (items : List (Str × Str)) : Res (Option Obj) :=
  match field items 7 with
  | .error p => .error p
  | .ok f7 =>
    match decodeTags f7 with
    | .error p => .error p
    | .ok none => .ok none
    | .ok (some tags) =>
      match field items 8 with
      | .error p => .error p
      | .ok f8 =>
        match parseCoord f8 with
        | none => .ok none
        | some lon =>
          match field items 9 with
          | .error p => .error p
          | .ok f9 =>
            match parseCoord f9 with
            | none => .ok none
            | some lat =>
              (parseCommon items tags).map fun c => c.map fun c => .node c (lon.map Lon.mk) (lat.map Lat.mk)

/-- `src/opl/mod.rs:226-241` -/
def decodeWay (items : List (Str × Str)) : Res (Option Obj) :=
  match field items 7 with
  | .error p => .error p
  | .ok f7 =>
    match decodeTags f7 with
    | .error p => .error p
    | .ok none => .ok none
    | .ok (some tags) =>
      match field items 8 with
      | .error p => .error p
      | .ok f8 =>
        match decodeWayNodes f8 with
        | none => .ok none
        | some nodes => (parseCommon items tags).map fun c => c.map fun c => .way c nodes

/-- `src/opl/mod.rs:242-257` -/
def decodeRelation (items : List (Str × Str)) : Res (Option Obj) :=
  match field items 7 with
  | .error p => .error p
  | .ok f7 =>
    match decodeTags f7 with
    | .error p => .error p
    | .ok none => .ok none
    | .ok (some tags) =>
      match field items 8 with
      | .error p => .error p
      | .ok f8 =>
        match decodeMembers f8 with
        | .error p => .error p
        | .ok none => .ok none
        | .ok (some members) => (parseCommon items tags).map fun c => c.map fun c => .relation c members

/-- `src/opl/mod.rs:196-260` -/
def decodeLine (line : Str) : Res (Option Obj) :=
  match splitItems (split ' ' line) with
  | none => .ok none
  | some items =>
    match items with
    | [] => .error .index
    | (kind, _) :: _ =>
      if kind = ['n'] then decodeNode items
      else if kind = ['w'] then decodeWay items
      else if kind = ['r'] then decodeRelation items
      else .ok none

/-- `char::is_whitespace` (the Unicode property `White_Space`); `src/opl/mod.rs:35`, within `trim`. -/
def isWhite (c : Char) : Bool :=
  let n := c.toNat
  (9 ≤ n && n ≤ 13) || n == 0x20 || n == 0x85 || n == 0xA0 || n == 0x1680 || (0x2000 ≤ n && n ≤ 0x200A) ||
    n == 0x2028 || n == 0x2029 || n == 0x202F || n == 0x205F || n == 0x3000

/-- `str::trim`; `src/opl/mod.rs:35`. -/
def trim (s : Str) : Str := ((s.dropWhile isWhite).reverse.dropWhile isWhite).reverse

/-- `BufRead::read_line` on bytes: up to and including a newline, or up to the end; an I/O error loses what
was read of the line; `src/opl/mod.rs:30`. -/
def takeLine : Source → Option (List UInt8) × Source
  | [] => (some [], [])
  | none :: r => (none, r)
  | some b :: r =>
    if b = 10 then (some [10], r)
    else ((takeLine r).1.map (b :: ·), (takeLine r).2)

/-- `src/opl/mod.rs:28-37`, `OPLReader::next`: the result and the rest of the input. A line that is not UTF-8 is
an error of `read_line`. -/
def next (src : Source) : Res (Option Obj) × Source :=
  match (takeLine src).1 with
  | none => (.ok none, (takeLine src).2)
  | some bs =>
    match Utf8.decode bs with
    | none => (.ok none, (takeLine src).2)
    | some line => (decodeLine (trim line), (takeLine src).2)

end Osmio.Opl
