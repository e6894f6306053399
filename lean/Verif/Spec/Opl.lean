import Verif.Model.Opl
import Verif.Spec.Coord
/-!
# Specification of the OPL format

From the description of the format (one object per line, fields separated by a space, each introduced by
a letter): a node is `n<id> v<version> d<V or D> c<changeset> t<timestamp> i<uid> u<user> T<tags> x<lon>
y<lat>`; a way ends in `N<nodes>`, a relation in `M<members>`. In strings every character that is not
plain is written as `%<hex>%`.
-/

namespace Osmio.Spec.Opl
open Osmio.Opl (Obj Common)

/-- The value of a hexadecimal digit of either case. -/
def hexDigit (c : Char) : Option Nat :=
  if '0' ≤ c ∧ c ≤ '9' then some (c.toNat - '0'.toNat)
  else if 'a' ≤ c ∧ c ≤ 'f' then some (10 + (c.toNat - 'a'.toNat))
  else if 'A' ≤ c ∧ c ≤ 'F' then some (10 + (c.toNat - 'A'.toNat))
  else none

/-- `h` is `n` in hexadecimal. -/
inductive HexOf : List Char → Nat → Prop
  | one (c : Char) (d : Nat) : hexDigit c = some d → HexOf [c] d
  | more (h : List Char) (n : Nat) (c : Char) (d : Nat) : HexOf h n → hexDigit c = some d → HexOf (h ++ [c]) (16 * n + d)

/-- The white space of Unicode: the code points with the property `White_Space`. -/
def White (c : Char) : Prop :=
  c.toNat ∈ [0x09, 0x0A, 0x0B, 0x0C, 0x0D, 0x20, 0x85, 0xA0, 0x1680, 0x2000, 0x2001, 0x2002, 0x2003, 0x2004, 0x2005,
    0x2006, 0x2007, 0x2008, 0x2009, 0x200A, 0x2028, 0x2029, 0x202F, 0x205F, 0x3000]

instance (c : Char) : Decidable (White c) := by unfold White; infer_instance

/-- A character that may stand for itself. -/
def Plain (c : Char) : Prop := c ∉ [' ', '\n', ',', '=', '@', '%'] ∧ ¬ White c

/-- `t` is an encoding of the string `s`. -/
inductive StringText : List Char → List Char → Prop
  | nil : StringText [] []
  | plain (c : Char) (s t : List Char) : Plain c → StringText s t → StringText (c :: s) (c :: t)
  | escaped (c : Char) (h : List Char) (s t : List Char) : HexOf h c.toNat → StringText s t →
      StringText (c :: s) ('%' :: (h ++ '%' :: t))

/-- What the decoder makes of a text that need not be in the format: any character but `%` stands for itself, the number
of an escape may have a plus sign, and an escape that is not closed is dropped with all that follows. -/
inductive LenientText : List Char → List Char → Prop
  | nil : LenientText [] []
  | plain (c : Char) (s t : List Char) : c ≠ '%' → LenientText s t → LenientText (c :: s) (c :: t)
  | escaped (c : Char) (sign h : List Char) (s t : List Char) : sign ∈ [[], ['+']] → HexOf h c.toNat → LenientText s t →
      LenientText (c :: s) ('%' :: (sign ++ h ++ '%' :: t))
  | cut (t : List Char) : '%' ∉ t → LenientText [] ('%' :: t)

/-- Something between percent signs that is not an escape. -/
def NoEscape (h : List Char) : Prop := '%' ∉ h ∧ ∀ sign ∈ [[], ['+']], ∀ d, h = sign ++ d → ∀ c : Char, ¬ HexOf d c.toNat

/-- `t` is the string `s` written without any escape. -/
def Literal (s t : List Char) : Prop := t = s ∧ ∀ c ∈ s, Plain c

/-- The items of a list with commas between them. -/
inductive CommaList {α : Type} (item : α → List Char → Prop) : List α → List Char → Prop
  | one (a : α) (t : List Char) : item a t → CommaList item [a] t
  | more (a : α) (t : List Char) (as : List α) (ts : List Char) : item a t → CommaList item as ts →
      CommaList item (a :: as) (t ++ ',' :: ts)

/-- One tag. -/
def TagText (kv : List Char × List Char) (t : List Char) : Prop :=
  ∃ k v, StringText kv.1 k ∧ StringText kv.2 v ∧ t = k ++ '=' :: v

/-- The tags of an object. -/
def TagsText (tags : List (List Char × List Char)) (t : List Char) : Prop :=
  (tags = [] ∧ t = []) ∨ CommaList TagText tags t

/-- The nodes of a way. -/
def NodesText (nodes : List Int64) (t : List Char) : Prop :=
  (nodes = [] ∧ t = []) ∨ CommaList (fun n t => t = 'n' :: i64Str n) nodes t

/-- One member: the letter of its kind, its id and its role, written by the rule `name`. -/
def MemberText (name : List Char → List Char → Prop) (m : Char × Int64 × List Char) (t : List Char) : Prop :=
  m.1 ∈ ['n', 'w', 'r'] ∧ ∃ r, name m.2.2 r ∧ t = m.1 :: (i64Str m.2.1 ++ '@' :: r)

/-- The members of a relation. -/
def MembersText (name : List Char → List Char → Prop) (ms : List (Char × Int64 × List Char)) (t : List Char) : Prop :=
  (ms = [] ∧ t = []) ∨ CommaList (MemberText name) ms t

/-- A coordinate, or nothing: any decimal number that stands for exactly this many units. -/
def CoordText (c : Option Int32) (t : List Char) : Prop :=
  match c with
  | none => t = []
  | some i => IsDecimal t ((i.toInt : ℚ) / 10 ^ 7)

/-- A text that is not a coordinate: it is neither a number nor one of the words that are read as one, or it is a
number out of range. -/
def NoCoord (t : List Char) : Prop :=
  t ≠ [] ∧ ((¬ ((∃ v, IsDecimal t v) ∨ IsFloatWord t)) ∨ ∃ v, IsDecimal t v ∧ 2147483649 / 10 ^ 7 ≤ |v|)

/-- The eight fields that every line begins with. -/
def CommonText (name : List Char → List Char → Prop) (kind : Char) (c : Common) (t : List Char) : Prop :=
  ∃ user tags : List Char, name c.user user ∧ TagsText c.tags tags ∧
    (c.tags.map Prod.fst).Nodup ∧ (∀ x ∈ c.timestamp, Plain x) ∧
    t = kind :: i64Str c.id ++ str% " v" ++ u32Str c.version ++ str% " d" ++ (if c.deleted then ['D'] else ['V']) ++
      str% " c" ++ u32Str c.changesetId ++ str% " t" ++ c.timestamp ++ str% " i" ++ u32Str c.uid ++
      str% " u" ++ user ++ str% " T" ++ tags

/-- `t` is a line (without its newline) that describes the object, with user name and roles written by the
rule `name`. The format is `LineText StringText`. -/
inductive LineText (name : List Char → List Char → Prop) : Obj → List Char → Prop
  | node (c : Common) (lon : Option Lon) (lat : Option Lat) (t x y : List Char) : CommonText name 'n' c t →
      CoordText (lon.map Lon.inner) x → CoordText (lat.map Lat.inner) y →
      LineText name (.node c lon lat) (t ++ str% " x" ++ x ++ str% " y" ++ y)
  | way (c : Common) (nodes : List Int64) (t ns : List Char) : CommonText name 'w' c t → NodesText nodes ns →
      LineText name (.way c nodes) (t ++ str% " N" ++ ns)
  | relation (c : Common) (ms : List (Char × Int64 × List Char)) (t m : List Char) : CommonText name 'r' c t → MembersText name ms m →
      LineText name (.relation c ms) (t ++ str% " M" ++ m)

/-- A way has nodes and a relation has members. -/
def HasContents : Obj → Prop
  | .node _ _ _ => True
  | .way _ nodes => nodes ≠ []
  | .relation _ ms => ms ≠ []

/-- A caller who asks for objects until there are none gets these. -/
inductive Yields : Source → List Obj → Prop
  | done (src rest : Source) : Osmio.Opl.next src = (.ok none, rest) → Yields src []
  | more (src rest : Source) (o : Obj) (os : List Obj) : Osmio.Opl.next src = (.ok (some o), rest) →
      Yields rest os → Yields src (o :: os)

/-- The bytes of a file with these lines. -/
def fileOf (lines : List (List Char)) : Source :=
  lines.flatMap fun l => (Utf8.encode l ++ [10]).map some

end Osmio.Spec.Opl
