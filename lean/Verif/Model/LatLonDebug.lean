import Verif.Lib.Float64Debug
import Verif.Model.LatLon
/-! # Model: `Debug` of coordinates (`src/lib.rs` lines 136–141) -/

namespace Osmio

/-- `src/lib.rs:136-141` (macro body), `{:?}` without width or precision -/
def Lat.debug (l : Lat) : Str := debugF64 l.degrees
/-- `src/lib.rs:136-141` (macro body), `{:?}` without width or precision -/
def Lon.debug (l : Lon) : Str := debugF64 l.degrees

end Osmio
