import Verif.Lib.QuickXml
/-!
# Specification: the parts of any bytes, as the changeset readers see them

No condition on the bytes: what a tag, a comment, a reference, … is, what the attributes of a tag are, and where there is an
error. Described by relations on the bytes only: the definitions say how the bytes can be divided, not how to find out.
-/

namespace Osmio.Spec.Quick
open QuickXml

/-- Bytes. -/
abbrev B := List UInt8

/-- Bytes of an ASCII text. -/
abbrev b (s : Str) : B := Utf8.encode s

/-- White space: space, tab, line feed, carriage return. -/
def Space (x : B) : Prop := ∀ c ∈ x, c = 32 ∨ c = 9 ∨ c = 10 ∨ c = 13

/-- No white space in it. -/
def Solid (x : B) : Prop := ∀ c ∈ x, ¬ (c = 32 ∨ c = 9 ∨ c = 10 ∨ c = 13)

/-- Double or single quote. -/
def Quote (q : UInt8) : Prop := q = 34 ∨ q = 39

/-- `rest` is what follows the first `pat`. -/
def After (pat bs rest : B) : Prop :=
  ∃ x, bs = x ++ pat ++ rest ∧ ∀ y z, bs = y ++ pat ++ z → x.length ≤ y.length

/-- There is no `pat`. -/
def Without (pat bs : B) : Prop := ¬ ∃ x y, bs = x ++ pat ++ y

/-- The inside of a tag: every `>` in it is quoted. -/
inductive Inside : B → Prop where
  | nil : Inside []
  | byte {c x} : c ≠ 62 → ¬ Quote c → Inside x → Inside (c :: x)
  | quoted {q v x} : Quote q → q ∉ v → Inside x → Inside (q :: (v ++ q :: x))

/-- A tag: its inside and what follows its `>`. -/
def Tag (bs inside rest : B) : Prop := bs = inside ++ 62 :: rest ∧ Inside inside

/-- Every `<` of it has its `>`. -/
inductive Paired : B → Prop where
  | nil : Paired []
  | byte {c x} : c ≠ 60 → c ≠ 62 → Paired x → Paired (c :: x)
  | pair {y x} : Paired y → Paired x → Paired (60 :: (y ++ 62 :: x))

/-- The inside of a document type, and what follows its `>`. -/
def Doctype (bs rest : B) : Prop := ∃ x, bs = x ++ 62 :: rest ∧ Paired x

/-- Bytes that begin with an attribute, none of `seen` by name; what follows it. -/
def Begins (seen : List B) (bs : B) (a : Attr) (rest : B) : Prop :=
  ∃ w1 w2 w3 q, bs = w1 ++ (a.key ++ (w2 ++ 61 :: (w3 ++ q :: (a.value ++ q :: rest)))) ∧
    Space w1 ∧ Space w2 ∧ Space w3 ∧ Quote q ∧ q ∉ a.value ∧
    a.key ≠ [] ∧ Solid a.key ∧ 61 ∉ a.key ∧ a.key ∉ seen

/-- The attributes in the bytes after the name of an element. Where there is something else, there is an error, and nothing after
it counts. -/
inductive Attributes : List B → B → Attrs → Prop where
  | done {seen bs} : Space bs → Attributes seen bs []
  | attr {seen bs a rest as} : Begins seen bs a rest → Attributes (seen ++ [a.key]) rest as →
      Attributes seen bs (some a :: as)
  | error {seen bs} : ¬ Space bs → (¬ ∃ a rest, Begins seen bs a rest) → Attributes seen bs [none]

/-- The inside of a tag is a name and attributes. -/
def Element (inside name : B) (as : Attrs) : Prop :=
  ∃ more, inside = name ++ more ∧ Solid name ∧ (∀ c ∈ more.head?, Space [c]) ∧ Attributes [] more as

/-- The inside of an end tag is a name, and white space after it. -/
def EndName (inside name : B) : Prop :=
  ∃ w, inside = name ++ w ∧ Space w ∧ ∀ c ∈ name.getLast?, ¬ Space [c]

/-- The bytes after a `<`, with elements of the names `o` open: what there is (`none` for an error), the elements open after it, and the bytes
after it. -/
inductive Markup : List B → B → Option Event → List B → B → Prop where
  | comment {o bs rest} : After (b (str% "-->")) bs rest → Markup o (b (str% "!--") ++ bs) (some .other) o rest
  | cutComment {o bs} : Without (b (str% "-->")) bs → Markup o (b (str% "!--") ++ bs) none o []
  | cdata {o bs rest} : After (b (str% "]]>")) bs rest → Markup o (b (str% "![CDATA[") ++ bs) (some .other) o rest
  | cutCdata {o bs} : Without (b (str% "]]>")) bs → Markup o (b (str% "![CDATA[") ++ bs) none o []
  | doctype {o d bs rest} : d = str% "!DOCTYPE" ∨ d = str% "!doctype" → Doctype bs rest → Markup o (b d ++ bs) (some .other) o rest
  | cutDoctype {o d bs} : d = str% "!DOCTYPE" ∨ d = str% "!doctype" → (¬ ∃ rest, Doctype bs rest) → Markup o (b d ++ bs) none o []
  | noBang {o bs} : (∀ d ∈ [str% "--", str% "[CDATA[", str% "DOCTYPE", str% "doctype"], ¬ b d <+: bs) →
      Markup o (33 :: bs) none o bs
  | pi {o bs rest} : After (b (str% "?>")) bs rest → Markup o (63 :: bs) (some .other) o rest
  | cutPi {o bs} : Without (b (str% "?>")) bs → Markup o (63 :: bs) none o []
  | stop {n o bs x rest} : Tag bs x rest → EndName x n → Markup (n :: o) (47 :: bs) (some (.end_ n)) o rest
  | otherStop {n o bs x rest} : Tag bs x rest → ¬ EndName x n → Markup (n :: o) (47 :: bs) none o rest
  | strayStop {bs x rest} : Tag bs x rest → Markup [] (47 :: bs) none [] rest
  | cutStop {o bs} : (¬ ∃ x rest, Tag bs x rest) → Markup o (47 :: bs) none o []
  | start {o c bs x n as rest} : c ≠ 33 → c ≠ 63 → c ≠ 47 → Tag (c :: bs) x rest → x.getLast? ≠ some 47 → Element x n as →
      Markup o (c :: bs) (some (.start n as)) (n :: o) rest
  | empty {o c bs x n as rest} : c ≠ 33 → c ≠ 63 → c ≠ 47 → Tag (c :: bs) (x ++ [47]) rest → Element x n as →
      Markup o (c :: bs) (some (.empty n as)) o rest
  | cutStart {o c bs} : c ≠ 33 → c ≠ 63 → c ≠ 47 → (¬ ∃ x rest, Tag (c :: bs) x rest) → Markup o (c :: bs) none o []
  | nothing {o} : Markup o [] none o []

/-- Neither `<` nor `&`. -/
def Plain (x : B) : Prop := ∀ c ∈ x, c ≠ 60 ∧ c ≠ 38

/-- The parts of a file, with elements of the names `o` open. -/
inductive Parts : List B → B → Events → Prop where
  | nil {o} : Parts o [] []
  | text {o x rest evs} : x ≠ [] → Plain x → (∀ c ∈ rest.head?, ¬ Plain [c]) → Parts o rest evs →
      Parts o (x ++ rest) (some .other :: evs)
  | reference {o x rest evs} : Plain x → 59 ∉ x → Parts o rest evs → Parts o (38 :: (x ++ 59 :: rest)) (some .other :: evs)
  | noReference {o x rest evs} : Plain x → 59 ∉ x → (∀ c ∈ rest.head?, ¬ Plain [c]) → Parts o rest evs →
      Parts o (38 :: (x ++ rest)) (none :: evs)
  | markup {o bs e o' rest evs} : Markup o bs e o' rest → Parts o' rest evs → Parts o (60 :: bs) (e :: evs)

/-- The parts of a file; it may begin with a byte order mark. -/
def File (bytes : B) (evs : Events) : Prop :=
  (∃ bs, bytes = 0xEF :: 0xBB :: 0xBF :: bs ∧ Parts [] bs evs) ∨
    (¬ [0xEF, 0xBB, 0xBF] <+: bytes) ∧ Parts [] bytes evs

end Osmio.Spec.Quick
