import Verif.Lib.Float32
/-!
# Model: coordinates (`src/lib.rs` lines 64–242)

`Lat` and `Lon` are produced by the same macro `lat_lon_impl!`; the shared part is modelled once on
the inner `i32` and wrapped for the two types.
-/

namespace Osmio

/-- `src/lib.rs:66` -/
def COORD_PRECISION_NANOS : Int := 100

/-- `src/lib.rs:71`: `(1_000_000_000 / COORD_PRECISION_NANOS) as f64` -/
def COORD_SCALE_FACTOR : F64 := F64.ofInt (1000000000 / COORD_PRECISION_NANOS)

/-- `src/lib.rs:82-84` -/
def latLonInnerToDegrees (inner : Int32) : F64 := (F64.ofInt inner.toInt).div COORD_SCALE_FACTOR

/-- `src/lib.rs:100-101` (`lat_lon_impl!(Lat)`, line 194) -/
structure Lat where
  inner : Int32
  deriving DecidableEq

/-- `src/lib.rs:100-101` (`lat_lon_impl!(Lon)`, line 197) -/
structure Lon where
  inner : Int32
  deriving DecidableEq

/-- `src/lib.rs:201-216` -/
inductive ParseLatLonError where
  | parseFloat (e : ParseFloatError)
  | tooLarge (x : F64)
  | tooSmall (x : F64)
  deriving DecidableEq

/-- `src/lib.rs:218-226`, `source` -/
def ParseLatLonError.source : ParseLatLonError → Option ParseFloatError
  | .parseFloat e => some e
  | _ => none

/-- `src/lib.rs:228-236`, `Display` -/
def ParseLatLonError.display : ParseLatLonError → Str
  | .parseFloat e => e.display
  | .tooLarge x => dispF64 x ++ " is too large to represent as a Lat/Lon".toList
  | .tooSmall x => dispF64 x ++ " is too small to represent as a Lat/Lon".toList

/-- `src/lib.rs:175-181`, `TryFrom<f64>` (macro body, on the inner value). -/
def innerTryFromF64 (val : F64) : Except ParseLatLonError Int32 :=
  let x := (val.mul COORD_SCALE_FACTOR).round
  if x.gt (F64.ofInt 2147483647) then .error (.tooLarge x)
  else if x.lt (F64.ofInt (-2147483648)) then .error (.tooSmall x)
  else .ok x.toI32

/-- `src/lib.rs:186-188`, `TryFrom<f32>`: through `f64`. -/
def innerTryFromF32 (val : F32) : Except ParseLatLonError Int32 := innerTryFromF64 val.toF64

/-- `src/lib.rs:158-164`, `FromStr` (macro body, on the inner value). -/
def innerFromStr (s : Str) : Except ParseLatLonError Int32 :=
  match parseF64 s with
  | none => .error (.parseFloat (parseFloatError s))
  | some v =>
    let x := (v.mul COORD_SCALE_FACTOR).round
    if x.gt (F64.ofInt 2147483647) then .error (.tooLarge x)
    else if x.lt (F64.ofInt (-2147483648)) then .error (.tooSmall x)
    else .ok x.toI32

namespace Lat
/-- `src/lib.rs:111-113` -/
def fromInner (i : Int32) : Lat := ⟨i⟩
/-- `src/lib.rs:115-117` (the structure field plays the same role in the other definitions) -/
def innerOf (l : Lat) : Int32 := l.inner
/-- `src/lib.rs:124-126` -/
def degrees (l : Lat) : F64 := latLonInnerToDegrees l.inner
/-- `src/lib.rs:130-133` -/
def display (l : Lat) : Str := dispF64 l.degrees
/-- `src/lib.rs:173-182` -/
def tryFromF64 (v : F64) : Except ParseLatLonError Lat := (innerTryFromF64 v).map Lat.mk
/-- `src/lib.rs:184-189` -/
def tryFromF32 (v : F32) : Except ParseLatLonError Lat := (innerTryFromF32 v).map Lat.mk
/-- `src/lib.rs:167-171`, `From<Lat> for f64` -/
def toF64 (l : Lat) : F64 := l.degrees
/-- `src/lib.rs:155-165` -/
def fromStr (s : Str) : Except ParseLatLonError Lat := (innerFromStr s).map Lat.mk
/-- `src/lib.rs:100` derived `Ord` -/
def lt (a b : Lat) : Bool := decide (a.inner.toInt < b.inner.toInt)
end Lat

namespace Lon
/-- `src/lib.rs:111-113` -/
def fromInner (i : Int32) : Lon := ⟨i⟩
/-- `src/lib.rs:115-117` (the structure field plays the same role in the other definitions) -/
def innerOf (l : Lon) : Int32 := l.inner
/-- `src/lib.rs:124-126` -/
def degrees (l : Lon) : F64 := latLonInnerToDegrees l.inner
/-- `src/lib.rs:130-133` -/
def display (l : Lon) : Str := dispF64 l.degrees
/-- `src/lib.rs:173-182` -/
def tryFromF64 (v : F64) : Except ParseLatLonError Lon := (innerTryFromF64 v).map Lon.mk
/-- `src/lib.rs:184-189` -/
def tryFromF32 (v : F32) : Except ParseLatLonError Lon := (innerTryFromF32 v).map Lon.mk
/-- `src/lib.rs:167-171`, `From<Lon> for f64` -/
def toF64 (l : Lon) : F64 := l.degrees
/-- `src/lib.rs:155-165` -/
def fromStr (s : Str) : Except ParseLatLonError Lon := (innerFromStr s).map Lon.mk
/-- `src/lib.rs:100` derived `Ord` -/
def lt (a b : Lon) : Bool := decide (a.inner.toInt < b.inner.toInt)
end Lon

end Osmio
