import Verif.Model.AnySource
import Verif.Spec.PbfMethods
/-!
# Specification: PBF readers over any implementation of `Read`

As `Reads`, `Resumes`, `KindReads` and `KindResumes`, for a reader made from an implementation of `Read`. `rounds` bounds the loops of the model.
-/

namespace Osmio.Spec.Pbf

variable (rd : AnyReader) (zlib : Proto.Bytes → Option Proto.Bytes) (b : Build) (rounds : Nat) (s : rd.S)

/-- A loop over `objects()` shows these objects up to the end or a panic. -/
def ReadsOver (r : Which) (ds : List ObjData) (e : Option Panic) : Prop :=
  match r with
  | .owned => ∃ os t, Drain (StringPbf.ReaderOver.next rd zlib b rounds) (.new s) os e t ∧ os.map objData = ds
  | .shared => ∃ os t, Drain (ArcPbf.ReaderOver.next rd zlib b rounds) (.new s) os e t ∧ os.map objData = ds

/-- The same for the reader of positions. -/
def PositionsOver (xs : List (ObjId × (Lat × Lon))) (e : Option Panic) : Prop := ∃ t, Drain (NodePos.ReaderOver.next rd zlib b rounds) (.new s) xs e t

/-- Calling a new reader until it reports the end, going on after each panic. -/
def ResumesOver (r : Which) (gs : List (Option ObjData)) : Prop :=
  match r with
  | .owned => ∃ os, Resumed (StringPbf.ReaderOver.next rd zlib b rounds) (.new s) os ∧ os.map (Option.map objData) = gs
  | .shared => ∃ os, Resumed (ArcPbf.ReaderOver.next rd zlib b rounds) (.new s) os ∧ os.map (Option.map objData) = gs

/-- The same for the reader of positions. -/
def ResumesPositionsOver (gs : List (Option (ObjId × (Lat × Lon)))) : Prop := Resumed (NodePos.ReaderOver.next rd zlib b rounds) (.new s) gs

/-- The reader after the call of `nodes()`, `ways()` or `relations()`. -/
def methodOver {S : Type} (k : OSMObjectType) (r : StringPbf.ReaderOver S) : StringPbf.ReaderOver S :=
  match k with
  | .node => r.nodes
  | .way => r.ways
  | .relation => r.relations

/-- A loop over `nodes()`, `ways()` or `relations()` of the owned-string reader. -/
def KindReadsOver (k : OSMObjectType) (ds : List ObjData) (e : Option Panic) : Prop :=
  ∃ os t, Drain (StringPbf.ReaderOver.next rd zlib b rounds) (methodOver k (.new s)) os e t ∧ os.filterMap (picked k) = ds

/-- Calling that iterator until it returns `None`, going on after each panic. -/
def KindResumesOver (k : OSMObjectType) (gs : List (Option ObjData)) : Prop :=
  ∃ os, Resumed (StringPbf.ReaderOver.next rd zlib b rounds) (methodOver k (.new s)) os ∧ os.filterMap (pickedOrPanic k) = gs

end Osmio.Spec.Pbf
