import Verif.Proofs.AnySource
import Verif.Props.PbfFiles
/-!
# C81: what is read does not depend on how the source hands out its bytes

For every implementation of `Read` and every relation that describes it (`Spec.Delivers`): any number of calls of `next` gives the
same objects, panics and ends as on a source that has just those bytes and errors, and afterwards the source has the same left to give.
`rounds` bounds the loops of the model; any number above the number of bytes will do.
-/

namespace Osmio
open Spec Spec.Pbf

/-- The owned reader, whichever kinds of objects it is asked for. -/
theorem C81_owned {rd : AnyReader} {R : rd.S → Source → Prop} (h : Delivers rd R) {s : rd.S} {src : Source} (hr : R s src)
    (zlib : Proto.Bytes → Option Proto.Bytes) (b : Build) (f : StringPbf.ObjectFilter) {rounds : Nat} (hl : src.length < rounds) (k : Nat) :
    (calls (StringPbf.ReaderOver.next rd zlib b rounds) k { StringPbf.ReaderOver.new s with filter := f }).1 =
      (calls (StringPbf.PBFReader.next zlib b) k { StringPbf.PBFReader.new src with filter := f }).1 ∧
    R (calls (StringPbf.ReaderOver.next rd zlib b rounds) k { StringPbf.ReaderOver.new s with filter := f }).2.src
      (calls (StringPbf.PBFReader.next zlib b) k { StringPbf.PBFReader.new src with filter := f }).2.intoInner := by
  have := str_calls_agree h zlib b (rounds := rounds) k (r := { StringPbf.ReaderOver.new s with filter := f })
    (q := { StringPbf.PBFReader.new src with filter := f }) ⟨hr, rfl, rfl, rfl⟩ hl
  exact ⟨this.1, this.2.1⟩

/-- The shared reader. -/
theorem C81_shared {rd : AnyReader} {R : rd.S → Source → Prop} (h : Delivers rd R) {s : rd.S} {src : Source} (hr : R s src)
    (zlib : Proto.Bytes → Option Proto.Bytes) (b : Build) {rounds : Nat} (hl : src.length < rounds) (k : Nat) :
    (calls (ArcPbf.ReaderOver.next rd zlib b rounds) k (.new s)).1 = (calls (ArcPbf.PBFReader.next zlib b) k (.new src)).1 ∧
    R (calls (ArcPbf.ReaderOver.next rd zlib b rounds) k (.new s)).2.src (calls (ArcPbf.PBFReader.next zlib b) k (.new src)).2.intoInner := by
  have := arc_calls_agree h zlib b (rounds := rounds) k (r := .new s) (q := .new src) ⟨hr, rfl, rfl⟩ hl
  exact ⟨this.1, this.2.1⟩

/-- The reader of positions. -/
theorem C81_positions {rd : AnyReader} {R : rd.S → Source → Prop} (h : Delivers rd R) {s : rd.S} {src : Source} (hr : R s src)
    (zlib : Proto.Bytes → Option Proto.Bytes) (b : Build) {rounds : Nat} (hl : src.length < rounds) (k : Nat) :
    (calls (NodePos.ReaderOver.next rd zlib b rounds) k (.new s)).1 = (calls (NodePos.Reader.next zlib b) k (.new src)).1 ∧
    R (calls (NodePos.ReaderOver.next rd zlib b rounds) k (.new s)).2.src (calls (NodePos.Reader.next zlib b) k (.new src)).2.src := by
  have := pos_calls_agree h zlib b (rounds := rounds) k (r := .new s) (q := .new src) ⟨hr, rfl⟩ hl
  exact ⟨this.1, this.2.1⟩

/-- Two sources with the same bytes, however they give them: the same objects from all three readers. -/
theorem C81_same {rd1 rd2 : AnyReader} {R1 : rd1.S → Source → Prop} {R2 : rd2.S → Source → Prop} (h1 : Delivers rd1 R1) (h2 : Delivers rd2 R2)
    {s1 : rd1.S} {s2 : rd2.S} {src : Source} (hr1 : R1 s1 src) (hr2 : R2 s2 src) (zlib : Proto.Bytes → Option Proto.Bytes) (b : Build)
    {n1 n2 : Nat} (l1 : src.length < n1) (l2 : src.length < n2) (k : Nat) :
    (calls (StringPbf.ReaderOver.next rd1 zlib b n1) k (.new s1)).1 = (calls (StringPbf.ReaderOver.next rd2 zlib b n2) k (.new s2)).1 ∧
    (calls (ArcPbf.ReaderOver.next rd1 zlib b n1) k (.new s1)).1 = (calls (ArcPbf.ReaderOver.next rd2 zlib b n2) k (.new s2)).1 ∧
    (calls (NodePos.ReaderOver.next rd1 zlib b n1) k (.new s1)).1 = (calls (NodePos.ReaderOver.next rd2 zlib b n2) k (.new s2)).1 :=
  ⟨(C81_owned h1 hr1 zlib b (true, true, true) l1 k).1.trans (C81_owned h2 hr2 zlib b (true, true, true) l2 k).1.symm,
   (C81_shared h1 hr1 zlib b l1 k).1.trans (C81_shared h2 hr2 zlib b l2 k).1.symm,
   (C81_positions h1 hr1 zlib b l1 k).1.trans (C81_positions h2 hr2 zlib b l2 k).1.symm⟩

/-- A `BufReader` in front of the source, of any size, changes nothing. -/
theorem C81_buffered {rd : AnyReader} {R : rd.S → Source → Prop} (h : Delivers rd R) {s : rd.S} {src : Source} (hr : R s src) (capacity : Nat)
    (zlib : Proto.Bytes → Option Proto.Bytes) (b : Build) {n1 n2 : Nat} (l1 : src.length < n1) (l2 : src.length < n2) (k : Nat) :
    (calls (StringPbf.ReaderOver.next (rd.buffered capacity) zlib b n1) k (.new ⟨s, []⟩)).1 =
      (calls (StringPbf.ReaderOver.next rd zlib b n2) k (.new s)).1 ∧
    (calls (ArcPbf.ReaderOver.next (rd.buffered capacity) zlib b n1) k (.new ⟨s, []⟩)).1 =
      (calls (ArcPbf.ReaderOver.next rd zlib b n2) k (.new s)).1 ∧
    (calls (NodePos.ReaderOver.next (rd.buffered capacity) zlib b n1) k (.new ⟨s, []⟩)).1 =
      (calls (NodePos.ReaderOver.next rd zlib b n2) k (.new s)).1 :=
  C81_same (AnyReader.buffered_delivers h capacity) h (⟨src, rfl, hr⟩ : BufferedDelivers R ⟨s, []⟩ src) hr zlib b l1 l2 k

/-- Bytes in portions, with interruptions and errors between them. -/
theorem C81_portions (ps : List Portion) (zlib : Proto.Bytes → Option Proto.Bytes) (b : Build) {rounds : Nat}
    (hl : (contents ps).length < rounds) (k : Nat) :
    (calls (StringPbf.ReaderOver.next portions zlib b rounds) k (.new ps)).1 = (calls (StringPbf.PBFReader.next zlib b) k (.new (contents ps))).1 ∧
    (calls (ArcPbf.ReaderOver.next portions zlib b rounds) k (.new ps)).1 = (calls (ArcPbf.PBFReader.next zlib b) k (.new (contents ps))).1 ∧
    (calls (NodePos.ReaderOver.next portions zlib b rounds) k (.new ps)).1 = (calls (NodePos.Reader.next zlib b) k (.new (contents ps))).1 :=
  ⟨(C81_owned portions_delivers rfl zlib b (true, true, true) hl k).1, (C81_shared portions_delivers rfl zlib b hl k).1,
   (C81_positions portions_delivers rfl zlib b hl k).1⟩

/-! The hypotheses are met: the example file byte by byte, each byte after an interruption, through a `BufReader` of seven bytes; the objects come. -/

namespace AnySourceEx

def drip (bs : List UInt8) : List Portion := bs.flatMap fun b => [.interruption, .bytes b []]

theorem contents_drip (bs : List UInt8) : contents (drip bs) = source bs := by
  induction bs with
  | nil => rfl
  | cons b bs ih =>
    show some b :: contents (drip bs) = some b :: source bs
    rw [ih]

/-- The same source, failing after the bytes. -/
theorem contents_fails (bs : List UInt8) (later : List Portion) : contents (drip bs ++ .error :: later) = source bs ++ none :: contents later := by
  induction bs with
  | nil => rfl
  | cons b bs ih =>
    show some b :: contents (drip bs ++ .error :: later) = some b :: (source bs ++ none :: contents later)
    rw [ih]

example (zlib : Proto.Bytes → Option Proto.Bytes) (b : Build) (k : Nat) :
    (calls (StringPbf.ReaderOver.next (portions.buffered 7) zlib b 10000) k (.new ⟨drip (fileBytes PbfEx.file), []⟩)).1 =
      (calls (StringPbf.PBFReader.next zlib b) k (.new (source (fileBytes PbfEx.file)))).1 := by
  have hl : (contents (drip (fileBytes PbfEx.file))).length < 10000 := by
    rw [contents_drip]
    show _ < _
    simp only [source, List.length_map]
    decide +kernel
  rw [(C81_buffered portions_delivers rfl 7 zlib b hl hl k).1, (C81_portions _ zlib b hl k).1, contents_drip]

/-- Different portions, the same objects; an error in the middle is an error in the middle. -/
example : contents [.bytes 1 [2], .interruption, .bytes 3 [], .error, .bytes 4 []] = contents [.bytes 1 [2, 3], .error, .interruption, .bytes 4 []] ∧
    contents [.bytes 1 [], .error] ≠ contents [.bytes 1 []] := by decide

/-- A source that gives one byte at a time needs the loop: a single read is not enough. -/
example : (portions.read (drip [1, 2, 3]) 3).1 = .interrupted ∧ (portions.readExact 3 (drip [1, 2, 3])).1 = some [1, 2, 3] := by
  refine ⟨rfl, ?_⟩
  rw [(AnyReader.readExact_delivers portions_delivers 3 (drip [1, 2, 3]) _ rfl).1]
  decide

end AnySourceEx
end Osmio
