import Verif.Proofs.Serde
/-!
# C74: coordinates, timestamps and object types as JSON

The types with `Serialize` and `Deserialize`, with `serde_json`: exactly which JSON texts are accepted for a value, and that the text written
for a value is read back as the same value. `Text`, `Literal`, `Integer` and `Object` are in `Verif.Spec.JsonText`.
-/

namespace Osmio
open Json Spec.JsonText

/-- C74. A JSON text is read as a latitude exactly if it is, apart from white space around it, a whole number: the number of the units of
10⁻⁷ degrees. In particular fractions, exponents, negative zero and what does not fit are errors. -/
theorem C74_lat (s : Str) (l : Lat) : Lat.fromJson s = some l ↔ Text (Integer · l.inner.toInt) s := by
  unfold Lat.fromJson
  rw [← innerFromJson_iff]
  cases innerFromJson s with
  | none => simp
  | some i => cases l; simp

/-- C74. The same for a longitude. -/
theorem C74_lon (s : Str) (l : Lon) : Lon.fromJson s = some l ↔ Text (Integer · l.inner.toInt) s := by
  unfold Lon.fromJson
  rw [← innerFromJson_iff]
  cases innerFromJson s with
  | none => simp
  | some i => cases l; simp

/-- C74. A JSON text is read as a timestamp with a text exactly if it is an object with the one member `ISOString`, a string. -/
theorem C74_timestamp_text (s v : Str) : TimestampFormat.fromJson s = some (.iso v) ↔ Text (Object (str% "ISOString") (Literal · v)) s :=
  timestampFromJson_iff s (.iso v)

/-- C74. A JSON text is read as a timestamp with seconds exactly if it is an object with the one member `EpochNumber`, a whole number. -/
theorem C74_timestamp_seconds (s : Str) (n : Int64) :
    TimestampFormat.fromJson s = some (.epoch n) ↔ Text (Object (str% "EpochNumber") (Integer · n.toInt)) s :=
  timestampFromJson_iff s (.epoch n)

/-- C74. A JSON text is read as an object type exactly if it is the name as a string, or an object with the name and `null`. -/
theorem C74_type (s : Str) :
    (OSMObjectType.fromJson s = some .node ↔ Text (fun o => Literal o (str% "Node") ∨ Object (str% "Node") (· = str% "null") o) s) ∧
    (OSMObjectType.fromJson s = some .way ↔ Text (fun o => Literal o (str% "Way") ∨ Object (str% "Way") (· = str% "null") o) s) ∧
    (OSMObjectType.fromJson s = some .relation ↔
      Text (fun o => Literal o (str% "Relation") ∨ Object (str% "Relation") (· = str% "null") o) s) :=
  ⟨typeFromJson_iff s .node, typeFromJson_iff s .way, typeFromJson_iff s .relation⟩

/-- C74. What is written is one value without white space. -/
theorem C74_written :
    (∀ l : Lat, Integer l.toJson l.inner.toInt) ∧ (∀ l : Lon, Integer l.toJson l.inner.toInt) ∧
    (∀ v, ∃ k x, Literal k (str% "ISOString") ∧ Literal x v ∧ (TimestampFormat.iso v).toJson = '{' :: (k ++ ':' :: (x ++ ['}']))) ∧
    (∀ n : Int64, ∃ k x, Literal k (str% "EpochNumber") ∧ Integer x n.toInt ∧
      (TimestampFormat.epoch n).toJson = '{' :: (k ++ ':' :: (x ++ ['}']))) ∧
    OSMObjectType.toJson .node = str% "\"Node\"" ∧ OSMObjectType.toJson .way = str% "\"Way\"" ∧
    OSMObjectType.toJson .relation = str% "\"Relation\"" :=
  ⟨fun l => intStr_integer _, fun l => intStr_integer _, fun v => ⟨_, _, quote_literal _, quote_literal _, rfl⟩,
    fun n => ⟨_, _, quote_literal _, intStr_integer _, rfl⟩, by decide, by decide, by decide⟩

/-- A value is a text. -/
theorem text_of {p : Str → Prop} {s : Str} (h : p s) : Text p s := ⟨[], s, [], space_nil, h, space_nil, by simp⟩

/-- C74. Every value is read back from its JSON. -/
theorem C74_roundtrip :
    (∀ l : Lat, Lat.fromJson l.toJson = some l) ∧ (∀ l : Lon, Lon.fromJson l.toJson = some l) ∧
    (∀ t : TimestampFormat, TimestampFormat.fromJson t.toJson = some t) ∧ (∀ t : OSMObjectType, OSMObjectType.fromJson t.toJson = some t) := by
  refine ⟨fun l => (C74_lat _ _).2 (text_of (C74_written.1 l)), fun l => (C74_lon _ _).2 (text_of (C74_written.2.1 l)), fun t => ?_, fun t => ?_⟩
  · cases t with
    | iso v =>
      obtain ⟨k, x, hk, hx, h⟩ := C74_written.2.2.1 v
      refine (C74_timestamp_text _ _).2 (text_of ⟨k, x, [], [], [], [], hk, hx, space_nil, space_nil, space_nil, space_nil, ?_⟩)
      simpa using h
    | epoch n =>
      obtain ⟨k, x, hk, hx, h⟩ := C74_written.2.2.2.1 n
      refine (C74_timestamp_seconds _ _).2 (text_of ⟨k, x, [], [], [], [], hk, hx, space_nil, space_nil, space_nil, space_nil, ?_⟩)
      simpa using h
  · cases t <;> decide +kernel

/-- C74. Different values have different JSON, for each type. -/
theorem C74_injective :
    (∀ a b : Lat, a.toJson = b.toJson → a = b) ∧ (∀ a b : Lon, a.toJson = b.toJson → a = b) ∧
    (∀ a b : TimestampFormat, a.toJson = b.toJson → a = b) ∧ (∀ a b : OSMObjectType, a.toJson = b.toJson → a = b) := by
  obtain ⟨h1, h2, h3, h4⟩ := C74_roundtrip
  refine ⟨fun a b h => ?_, fun a b h => ?_, fun a b h => ?_, fun a b h => ?_⟩
  · exact Option.some.inj ((h1 a).symm.trans (h ▸ h1 b))
  · exact Option.some.inj ((h2 a).symm.trans (h ▸ h2 b))
  · exact Option.some.inj ((h3 a).symm.trans (h ▸ h3 b))
  · exact Option.some.inj ((h4 a).symm.trans (h ▸ h4 b))

example : Lat.fromJson (str% " -12345678\n") = some ⟨-12345678⟩ := by decide +kernel
example : Lat.fromJson (str% "1.5") = none := by decide +kernel
example : Lat.fromJson (str% "1e7") = none := by decide +kernel
example : Lat.fromJson (str% "-0") = none := by decide +kernel
example : Lat.fromJson (str% "007") = none := by decide +kernel
example : Lon.fromJson (str% "2147483647") = some ⟨2147483647⟩ := by decide +kernel
example : Lon.fromJson (str% "2147483648") = none := by decide +kernel
example : Lon.toJson ⟨-1800000000⟩ = str% "-1800000000" := by decide +kernel
example : TimestampFormat.toJson (.iso (str% "a\"\n")) = str% "{\"ISOString\":\"a\\\"\\n\"}" := by decide +kernel
example : TimestampFormat.fromJson (str% "{ \"ISO\\u0053tring\" : \"\\ud83d\\ude00/\\/\" }") = some (.iso [Char.ofNat 0x1F600, '/', '/']) := by
  decide +kernel
example : TimestampFormat.fromJson (str% "{\"ISOString\":\"\\ud83d\"}") = none := by decide +kernel
example : TimestampFormat.fromJson (str% "{\"EpochNumber\":-5}") = some (.epoch (-5)) := by decide +kernel
example : TimestampFormat.fromJson (str% "{\"EpochNumber\":-5,}") = none := by decide +kernel
example : OSMObjectType.fromJson (str% "{\"Way\": null}") = some .way := by decide +kernel
example : OSMObjectType.fromJson (str% "\"way\"") = none := by decide +kernel

end Osmio
