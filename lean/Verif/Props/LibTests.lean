import Verif.Lib.Zlib
import Verif.Lib.Bzip2
import Verif.Lib.Float64Debug
import Verif.Lib.Float32
import Verif.Lib.Chrono
import Verif.Lib.Json
import Verif.Lib.SerdeJson
import Verif.Lib.Xml
import Verif.Lib.Utf8
import Verif.Model.LatLon
import Verif.Lib.StrLit
/-!
# The library models against other implementations

Written by `tools/vectors.py lean`. Each line is an input, and what another implementation makes of it (Python's zlib, bzip2, expat, json, UTF-8
and dates; exact fractions for the digits of floats), evaluated by the kernel on the model. Like `Props/RepoTests.lean` these are tests, not properties.
`tools/vectors.py check` compares many more with the compiled definitions.
-/

namespace Osmio.LibTests

/-- A name as it is written. -/
def written (n : Xml.Name) : Str := (match n.pre with | some p => p ++ [':'] | none => []) ++ n.loc

/-- The start and end tags, each as a line. -/
def tagLine : Xml.XmlEvent → Option Str
  | .start n as => some ('S' :: written n ++ as.flatMap fun a => ';' :: written a.name ++ '=' :: a.value)
  | .stop n => some ('E' :: written n)
  | .other => none

/-- expat replaces white space in attribute values, and takes one root element. -/
def expat : Xml.Config := ⟨fun c => if c = '\n' ∨ c = '\t' ∨ c = '\r' then ' ' else c, false⟩

/-- All of them, if the text is well-formed. -/
def tagLines (bs : List UInt8) : Option Str :=
  if none ∈ Xml.eventsOfBytes expat bs then none else some (['\n'].intercalate ((Xml.eventsOfBytes expat bs).filterMap fun e => e.bind tagLine))

/-- The data of one complete bzip2 stream. -/
def unbzip2 (bs : List UInt8) : Option (List UInt8) := if (Bzip2.one bs).2.isSome then some (Bzip2.one bs).1 else none

/-- The number in a coordinate, or on which side it is too far out. -/
def innerText (s : Str) : Option Str :=
  match innerFromStr s with
  | .ok i => some (intStr i.toInt)
  | .error (.tooLarge _) => some (str% "big")
  | .error (.tooSmall _) => some (str% "small")
  | .error _ => none

/-- A float of 32 bits, from its bytes. -/
def f32 (bs : List UInt8) : F32 := ⟨UInt32.ofNat (bs.foldl (fun n b => n * 256 + b.toNat) 0)⟩

/-! ## zlib -/

example : Zlib.inflate ([120, 1, 74, 78, 6, 0, 0, 0, 255, 255, 75, 74, 76, 6, 0, 5, 203, 1, 237]) = some ([99, 99, 98, 97, 99]) := by decide +kernel
example : Zlib.inflate ([120, 1, 1, 20, 0, 235, 255, 104, 101, 108, 108, 111, 32, 119, 111, 114, 108, 100, 44, 32, 104, 101, 108, 108, 111, 32, 119, 78, 226, 7, 84]) = some ([104, 101, 108, 108, 111, 32, 119, 111, 114, 108, 100, 44, 32, 104, 101, 108, 108, 111, 32, 119]) := by decide +kernel
example : Zlib.inflate ([72, 13, 219, 116, 245, 157, 189, 59, 0, 10, 98, 2, 252]) = some ([178, 213, 238, 63, 71]) := by decide +kernel
example : Zlib.inflate ([24, 25, 75, 4, 0, 0, 98, 0, 98]) = some ([97]) := by decide +kernel
example : Zlib.inflate ([24, 25, 203, 72, 205, 201, 201, 7, 0, 6, 44, 2, 21]) = some ([104, 101, 108, 108, 111]) := by decide +kernel
example : Zlib.inflate ([120, 1, 171, 168, 32, 31, 0, 0, 90, 57, 28, 33]) = some ([120, 120, 120, 120, 120, 120, 120, 120, 120, 120, 120, 120, 120, 120, 120, 120, 120, 120, 120, 120, 120, 120, 120, 120, 120, 120, 120, 120, 120, 120, 120, 120, 120, 120, 120, 120, 120, 120, 120, 120, 120, 120, 120, 120, 120, 120, 120, 120, 120, 120, 120, 120, 120, 120, 120, 120, 120, 120, 120, 120]) := by decide +kernel
example : Zlib.inflate ([120, 1, 74, 78, 6, 0, 0, 0, 255, 255, 75, 74, 76, 6, 0, 37, 203, 1, 237]) = none := by decide +kernel
example : Zlib.inflate ([120, 1, 74, 78, 6, 0, 0, 0, 255, 255, 75, 74, 76, 14, 0, 5, 203, 1, 237]) = none := by decide +kernel
example : Zlib.inflate ([120, 1, 74, 78, 6, 0, 0, 0, 255]) = none := by decide +kernel

/-! ## bzip2 -/

example : unbzip2 ([66, 90, 104, 49, 49, 65, 89, 38, 83, 89, 197, 53, 250, 63, 0, 0, 0, 6, 65, 0, 128, 64, 128, 1, 0, 1, 0, 32, 0, 33, 131, 65, 154, 9, 168, 113, 119, 36, 83, 133, 9, 12, 83, 95, 163, 240]) = some ([71, 87, 230, 134, 80]) := by decide +kernel
example : unbzip2 ([66, 90, 104, 57, 49, 65, 89, 38, 83, 89, 175, 133, 47, 70, 0, 0, 0, 129, 0, 2, 64, 32, 0, 33, 0, 130, 177, 119, 36, 83, 133, 9, 10, 248, 82, 244, 96]) = some ([104, 101]) := by decide +kernel
example : unbzip2 ([66, 90, 104, 57, 49, 65, 89, 38, 83, 89, 11, 137, 93, 30, 0, 0, 2, 32, 128, 0, 16, 0, 64, 32, 0, 33, 0, 130, 11, 23, 114, 69, 56, 80, 144, 11, 137, 93, 30]) = some ([120, 120, 120, 120, 120, 120, 120, 120, 120, 120, 120, 120, 120, 120, 120, 120, 120, 120, 120, 120, 120, 120, 120, 120, 120, 120, 120, 120, 120, 120]) := by decide +kernel
example : unbzip2 ([66, 90, 104, 49, 49, 65, 89, 38, 83, 89, 197, 52, 250, 63, 0, 0, 0, 6, 65, 0, 128, 64, 128, 1, 0, 1, 0, 32, 0, 33, 131, 65, 154, 9, 168, 113, 119, 36, 83, 133, 9, 12, 83, 95, 163, 240]) = none := by decide +kernel

/-! ## display -/

example : (fun s => (parseF64 s).map dispF64) (str% "68118.906158437317116762") = some (str% "68118.90615843731") := by decide +kernel
example : (fun s => (parseF64 s).map dispF64) (str% "41409155891933125") = some (str% "41409155891933130") := by decide +kernel
example : (fun s => (parseF64 s).map dispF64) (str% "45") = some (str% "45") := by decide +kernel
example : (fun s => (parseF64 s).map dispF64) (str% ".5") = some (str% "0.5") := by decide +kernel
example : (fun s => (parseF64 s).map dispF64) (str% "4399138759054909.00393") = some (str% "4399138759054909") := by decide +kernel
example : (fun s => (parseF64 s).map dispF64) (str% "21578.23649429746") = some (str% "21578.23649429746") := by decide +kernel
example : (fun s => (parseF64 s).map dispF64) (str% "1266337294980.3") = some (str% "1266337294980.3") := by decide +kernel
example : (fun s => (parseF64 s).map dispF64) (str% "801104529608478259") = some (str% "801104529608478200") := by decide +kernel
example : (fun s => (parseF64 s).map dispF64) (str% "3E51-") = none := by decide +kernel
example : (fun s => (parseF64 s).map dispF64) (str% "1_0") = none := by decide +kernel
example : (fun s => (parseF64 s).map dispF64) (str% "+EE") = none := by decide +kernel
example : (fun s => (parseF64 s).map dispF64) (str% ".e") = none := by decide +kernel

/-! ## debug -/

example : (fun s => (parseF64 s).map debugF64) (str% "68118.906158437317116762") = some (str% "68118.90615843731") := by decide +kernel
example : (fun s => (parseF64 s).map debugF64) (str% "41409155891933125") = some (str% "4.140915589193313e16") := by decide +kernel
example : (fun s => (parseF64 s).map debugF64) (str% "45") = some (str% "45.0") := by decide +kernel
example : (fun s => (parseF64 s).map debugF64) (str% ".5") = some (str% "0.5") := by decide +kernel
example : (fun s => (parseF64 s).map debugF64) (str% "4399138759054909.00393") = some (str% "4399138759054909.0") := by decide +kernel
example : (fun s => (parseF64 s).map debugF64) (str% "21578.23649429746") = some (str% "21578.23649429746") := by decide +kernel

/-! ## inner -/

example : innerText (str% "68118.906158437317116762") = some (str% "big") := by decide +kernel
example : innerText (str% "41409155891933125") = some (str% "big") := by decide +kernel
example : innerText (str% "45") = some (str% "450000000") := by decide +kernel
example : innerText (str% ".5") = some (str% "5000000") := by decide +kernel
example : innerText (str% "4399138759054909.00393") = some (str% "big") := by decide +kernel

/-! ## degrees -/

example : (fun s => (parseI64 s).map fun i => (Lat.mk (Int32.ofInt i.toInt)).display) (str% "408553665") = some (str% "40.8553665") := by decide +kernel
example : (fun s => (parseI64 s).map fun i => (Lat.mk (Int32.ofInt i.toInt)).display) (str% "726622663") = some (str% "72.6622663") := by decide +kernel
example : (fun s => (parseI64 s).map fun i => (Lat.mk (Int32.ofInt i.toInt)).display) (str% "-1051113937") = some (str% "-105.1113937") := by decide +kernel

/-! ## f32 -/

example : (fun b => some (dispF64 (f32 b).toF64)) ([15, 250, 31, 190]) = some (str% "0.00000000000000000000000000002466412993403794") := by decide +kernel
example : (fun b => some (dispF64 (f32 b).toF64)) ([110, 82, 36, 111]) = some (str% "16258974393667047000000000000") := by decide +kernel
example : (fun b => some (dispF64 (f32 b).toF64)) ([242, 127, 45, 226]) = some (str% "-5054345370953650000000000000000") := by decide +kernel

/-! ## iso -/

example : (fun s => (parseI64 s).map fun i => Chrono.toRfc3339 i.toInt) (str% "1315748818") = some (str% "2011-09-11T13:46:58Z") := by decide +kernel
example : (fun s => (parseI64 s).map fun i => Chrono.toRfc3339 i.toInt) (str% "1162628950") = some (str% "2006-11-04T08:29:10Z") := by decide +kernel
example : (fun s => (parseI64 s).map fun i => Chrono.toRfc3339 i.toInt) (str% "226622032272") = some (str% "9151-05-15T04:31:12Z") := by decide +kernel
example : (fun s => (parseI64 s).map fun i => Chrono.toRfc3339 i.toInt) (str% "1100887900") = some (str% "2004-11-19T18:11:40Z") := by decide +kernel

/-! ## epoch -/

example : (fun s => (Chrono.parseRfc3339 s).map intStr) (str% "2011-09-11T13:46:58Z") = some (str% "1315748818") := by decide +kernel
example : (fun s => (Chrono.parseRfc3339 s).map intStr) (str% "2011-09-12T06:34:58+16:48") = some (str% "1315748818") := by decide +kernel
example : (fun s => (Chrono.parseRfc3339 s).map intStr) (str% "2006-11-04T08:29:10Z") = some (str% "1162628950") := by decide +kernel
example : (fun s => (Chrono.parseRfc3339 s).map intStr) (str% "2006-11-03 22:44:10-09:45") = some (str% "1162628950") := by decide +kernel
example : (fun s => (Chrono.parseRfc3339 s).map intStr) (str% "9151-05-15T04:31:12Z") = some (str% "226622032272") := by decide +kernel

/-! ## json -/

example : (fun s => some (Json.quote s)) (str% "\"€n<") = some (str% "\"\\\"€n<\"") := by decide +kernel
example : (fun s => some (Json.quote s)) ([Char.ofNat 233, Char.ofNat 26, Char.ofNat 110, Char.ofNat 34, Char.ofNat 128512, Char.ofNat 19, Char.ofNat 92]) = some (str% "\"é\\u001an\\\"😀\\u0013\\\\\"") := by decide +kernel
example : (fun s => some (Json.quote s)) ([Char.ofNat 23, Char.ofNat 14, Char.ofNat 116, Char.ofNat 65]) = some (str% "\"\\u0017\\u000etA\"") := by decide +kernel
example : (fun s => some (Json.quote s)) ([Char.ofNat 13, Char.ofNat 97, Char.ofNat 0, Char.ofNat 8, Char.ofNat 26, Char.ofNat 14, Char.ofNat 29, Char.ofNat 12, Char.ofNat 34, Char.ofNat 11, Char.ofNat 47]) = some (str% "\"\\ra\\u0000\\b\\u001a\\u000e\\u001d\\f\\\"\\u000b/\"") := by decide +kernel

/-! ## unjson -/

example : (fun s => (Json.parseString s).map (·.1)) (str% "\"\\\"€n<\"") = some (str% "\"€n<") := by decide +kernel
example : (fun s => (Json.parseString s).map (·.1)) (str% "\"\\u00e9\\u001an\\\"\\ud83d\\ude00\\u0013\\\\\"") = some ([Char.ofNat 233, Char.ofNat 26, Char.ofNat 110, Char.ofNat 34, Char.ofNat 128512, Char.ofNat 19, Char.ofNat 92]) := by decide +kernel
example : (fun s => (Json.parseString s).map (·.1)) (str% "\"\\\\\"") = some (str% "\\") := by decide +kernel
example : (fun s => (Json.parseString s).map (·.1)) (str% "\"\\u0017\\u000ftA\"") = some ([Char.ofNat 23, Char.ofNat 15, Char.ofNat 116, Char.ofNat 65]) := by decide +kernel
example : (fun s => (Json.parseString s).map (·.1)) (str% "\"\\\\\\\"\\u0n04😀 €\"") = none := by decide +kernel
example : (fun s => (Json.parseString s).map (·.1)) (str% "\"\\t/\\u0014\\u0003\\u000f\\u0014d") = none := by decide +kernel

/-! ## utf8 -/

example : (fun b => (Utf8.decode b).map fun s => [','].intercalate (s.map fun c => natStr c.toNat)) ([39, 88]) = some (str% "39,88") := by decide +kernel
example : (fun b => (Utf8.decode b).map fun s => [','].intercalate (s.map fun c => natStr c.toNat)) ([194, 128]) = some (str% "128") := by decide +kernel
example : (fun b => (Utf8.decode b).map fun s => [','].intercalate (s.map fun c => natStr c.toNat)) ([37, 194, 183]) = some (str% "37,183") := by decide +kernel
example : (fun b => (Utf8.decode b).map fun s => [','].intercalate (s.map fun c => natStr c.toNat)) ([11, 86, 65]) = some (str% "11,86,65") := by decide +kernel
example : (fun b => (Utf8.decode b).map fun s => [','].intercalate (s.map fun c => natStr c.toNat)) ([194, 144]) = some (str% "144") := by decide +kernel
example : (fun b => (Utf8.decode b).map fun s => [','].intercalate (s.map fun c => natStr c.toNat)) ([65, 43, 94]) = some (str% "65,43,94") := by decide +kernel
example : (fun b => (Utf8.decode b).map fun s => [','].intercalate (s.map fun c => natStr c.toNat)) ([71, 244, 192, 160]) = none := by decide +kernel
example : (fun b => (Utf8.decode b).map fun s => [','].intercalate (s.map fun c => natStr c.toNat)) ([160, 82, 78, 228]) = none := by decide +kernel
example : (fun b => (Utf8.decode b).map fun s => [','].intercalate (s.map fun c => natStr c.toNat)) ([143, 191, 78, 198, 244]) = none := by decide +kernel

/-! ## i64 -/

example : (fun s => (parseI64 s).map fun i => intStr i.toInt) (str% "1136572103") = some (str% "1136572103") := by decide +kernel
example : (fun s => (parseI64 s).map fun i => intStr i.toInt) (str% "66") = some (str% "66") := by decide +kernel
example : (fun s => (parseI64 s).map fun i => intStr i.toInt) (str% "9223372036854775807") = some (str% "9223372036854775807") := by decide +kernel
example : (fun s => (parseI64 s).map fun i => intStr i.toInt) (str% "463") = some (str% "463") := by decide +kernel
example : (fun s => (parseI64 s).map fun i => intStr i.toInt) (str% " 99") = none := by decide +kernel
example : (fun s => (parseI64 s).map fun i => intStr i.toInt) (str% "9223372036854775808") = none := by decide +kernel

/-! ## u32 -/

example : (fun s => (parseU32 s).map fun i => natStr i.toNat) (str% "1136572103") = some (str% "1136572103") := by decide +kernel
example : (fun s => (parseU32 s).map fun i => natStr i.toNat) (str% "66") = some (str% "66") := by decide +kernel
example : (fun s => (parseU32 s).map fun i => natStr i.toNat) (str% "463") = some (str% "463") := by decide +kernel
example : (fun s => (parseU32 s).map fun i => natStr i.toNat) (str% "49") = some (str% "49") := by decide +kernel
example : (fun s => (parseU32 s).map fun i => natStr i.toNat) (str% " 99") = none := by decide +kernel
example : (fun s => (parseU32 s).map fun i => natStr i.toNat) (str% "9223372036854775808") = none := by decide +kernel

/-! ## xml -/

example : tagLines ([60, 63, 120, 109, 108, 32, 118, 101, 114, 115, 105, 111, 110, 61, 34, 49, 46, 48, 34, 32, 115, 116, 97, 110, 100, 97, 108, 111, 110, 101, 61, 34, 110, 111, 34, 32, 63, 62, 60, 98, 32, 32, 105, 100, 32, 61, 34, 34, 32, 120, 109, 108, 58, 108, 97, 110, 103, 61, 32, 39, 38, 108, 116, 59, 39, 32, 62, 60, 95, 120, 32, 120, 109, 108, 110, 115, 58, 112, 61, 34, 117, 114, 110, 58, 112, 34, 62, 60, 47, 95, 120, 32, 62, 60, 47, 98, 32, 62]) = some (str% "Sb;id=;xml:lang=<\nS_x\nE_x\nEb") := by decide +kernel
example : tagLines ([32, 60, 110, 111, 100, 101, 10, 118, 61, 39, 120, 39, 10, 120, 109, 108, 110, 115, 58, 112, 32, 61, 39, 117, 114, 110, 58, 112, 39, 32, 62, 60, 33, 91, 67, 68, 65, 84, 65, 91, 93, 93, 93, 93, 62, 60, 47, 110, 111, 100, 101, 32, 62]) = some (str% "Snode;v=x\nEnode") := by decide +kernel
example : tagLines ([60, 63, 120, 109, 108, 32, 118, 101, 114, 115, 105, 111, 110, 61, 34, 49, 46, 48, 34, 32, 115, 116, 97, 110, 100, 97, 108, 111, 110, 101, 61, 34, 110, 111, 34, 32, 63, 62, 60, 97, 32, 120, 109, 108, 110, 115, 58, 112, 61, 34, 117, 114, 110, 58, 112, 34, 32, 62, 60, 195, 169, 32, 32, 105, 100, 32, 61, 39, 38, 97, 109, 112, 59, 39, 62, 60, 47, 195, 169, 62, 60, 47, 97, 32, 62]) = some (str% "Sa\nSé;id=&\nEé\nEa") := by decide +kernel
example : tagLines ([60, 95, 120, 32, 107, 61, 39, 121, 38, 35, 54, 53, 59, 121, 39, 32, 120, 109, 108, 110, 115, 58, 112, 61, 34, 117, 114, 110, 58, 112, 34, 62, 60, 47, 95, 120, 32, 62]) = some (str% "S_x;k=yAy\nE_x") := by decide +kernel
example : tagLines ([10, 60, 33, 45, 45, 32, 99, 32, 45, 45, 62, 60, 111, 100, 101, 32, 32, 120, 109, 108, 110, 115, 61, 34, 117, 34, 47, 62, 32, 60, 33, 45, 45, 32, 99, 32, 45, 45, 62]) = some (str% "Sode\nEode") := by decide +kernel
example : tagLines ([60, 63, 112, 105, 32, 120, 63, 62, 60, 98, 32, 112, 58, 107, 61, 32, 34, 34, 32, 120, 109, 108, 110, 115, 61, 39, 117, 114, 110, 58, 112, 39, 32, 120, 109, 108, 110, 115, 58, 112, 61, 34, 117, 114, 110, 58, 112, 34, 62, 116, 101, 120, 116, 60, 47, 98, 62]) = some (str% "Sb;p:k=\nEb") := by decide +kernel
example : tagLines ([60, 63, 120, 109, 108, 32, 32, 118, 101, 114, 115, 105, 111, 110, 32, 61, 32, 34, 49, 46, 48, 34, 63, 62, 60, 110, 111, 100, 101, 10, 120, 109, 108, 110, 115, 58, 112, 32, 61, 34, 117, 114, 110, 58, 112, 34, 32, 62, 116, 101, 120, 116, 60, 47, 110, 111, 100, 101, 62]) = some (str% "Snode\nEnode") := by decide +kernel
example : tagLines ([60, 63, 112, 105, 32, 120, 63, 62, 32, 60, 195, 169, 32, 32, 118, 61, 39, 120, 38, 35, 54, 53, 59, 39, 32, 47, 62]) = some (str% "Sé;v=xA\nEé") := by decide +kernel
example : tagLines ([60, 63, 120, 109, 108, 32, 32, 118, 101, 114, 115, 105, 111, 110, 32, 61, 32, 34, 49, 46, 48, 45, 63, 62, 32, 60, 33, 45, 45, 32, 99, 32, 45, 45, 62, 60, 112, 58, 97, 32, 47, 62, 60, 63, 112, 105, 32, 120, 63, 62, 32]) = none := by decide +kernel
example : tagLines ([60, 63, 120, 109, 108, 32, 118, 101, 114, 115, 105, 111, 110, 61, 39, 49, 46, 48, 39, 32, 101, 110, 99, 111, 100, 105, 110, 103, 61, 39, 85, 84, 70, 45, 56, 39, 63, 62, 60, 97, 105, 100, 61, 34, 32, 34, 32, 120, 109, 108, 110, 115, 58, 112, 61, 34, 117, 114, 110, 58, 112, 34, 32, 62, 60, 33, 45, 45, 32, 99, 32, 45, 45, 62, 60, 47, 97, 32, 62]) = none := by decide +kernel
example : tagLines ([32, 60, 195, 169, 32, 120, 109, 108, 33, 58, 108, 97, 110, 103, 61, 32, 39, 38, 35, 54, 53, 59, 38, 35, 54, 53, 59, 39, 32, 32, 107, 61, 32, 39, 121, 38, 35, 120, 52, 50, 59, 39, 32, 62, 116, 101, 120, 116, 10, 60, 47, 195, 169, 32, 62, 60, 63, 112, 105, 32, 120, 63, 62, 32]) = none := by decide +kernel
example : tagLines ([60, 63, 120, 109, 108, 32, 39, 32, 118, 101, 114, 115, 105, 111, 110, 32, 61, 32, 34, 49, 46, 48, 34, 63, 62, 60, 63, 112, 105, 32, 120, 63, 62, 60, 112, 58, 113, 10, 107, 32, 61, 34, 38, 97, 109, 112, 59, 34, 32, 32, 120, 109, 108, 58, 108, 97, 110, 103, 61, 39, 121, 32, 39, 62, 60, 47, 112, 58, 113, 62]) = none := by decide +kernel

end Osmio.LibTests
