import Verif.Lib.Take
import Verif.Props.Chain
/-!
# C81 for `Read::take`

A source cut off after a number of bytes. With the length of a file as the limit it is that file, whatever follows: so a file that is part of a longer stream, as in an archive, can be read from
there.
-/

namespace Osmio
open Spec Spec.Pbf OSMObjBase

/-- The first bytes of a source, and the errors between them. -/
def firstBytes : Nat → Source → Source
  | 0, _ => []
  | _ + 1, [] => []
  | n + 1, some b :: r => some b :: firstBytes n r
  | n + 1, none :: r => none :: firstBytes (n + 1) r

/-- What a limited source has to give. -/
def TakeDelivers {S : Type} (R : S → Source → Prop) (t : Taken S) (src : Source) : Prop := ∃ all, R t.inner all ∧ src = firstBytes t.limit all

theorem firstBytes_append (bs : List UInt8) (k : Nat) (rest : Source) : firstBytes (bs.length + k) (bs.map some ++ rest) = bs.map some ++ firstBytes k rest := by
  induction bs with
  | nil => simp
  | cons b bs ih =>
    rw [List.length_cons, show bs.length + 1 + k = (bs.length + k) + 1 by omega]
    simp [firstBytes, ih]

/-- With its length as the limit, a file is all that is given, whatever follows. -/
theorem firstBytes_file (bs : List UInt8) (rest : Source) : firstBytes bs.length (bs.map some ++ rest) = bs.map some := by
  have := firstBytes_append bs 0 rest
  simpa [firstBytes] using this

/-- **C81**, limited sources: the first bytes, as many as the limit says, then the end. -/
theorem C81_take_delivers {rd : AnyReader} {R : rd.S → Source → Prop} (h : Delivers rd R) : Delivers rd.take (TakeDelivers R) := by
  rintro ⟨s, limit⟩ src ⟨all, hr, rfl⟩ n hn
  show GaveNext _ (takeRead rd _ n) _
  simp only at hr ⊢
  cases limit with
  | zero => exact ⟨by simp [firstBytes], all, hr, by simp [firstBytes]⟩
  | succ k =>
    have hg := h s all hr (min n (k + 1)) (by omega)
    have hs := rd.short s (min n (k + 1))
    simp only [takeRead, Nat.succ_ne_zero, if_false]
    rcases e : rd.read s (min n (k + 1)) with ⟨bs | _ | _, s'⟩
    · rw [e] at hg hs
      have hlen := hs _ rfl
      cases bs with
      | nil =>
        obtain ⟨rfl, h0⟩ := hg
        exact ⟨rfl, [], h0, rfl⟩
      | cons b bs =>
        obtain ⟨rest, rfl, hrest⟩ := hg
        refine ⟨firstBytes (k + 1 - (b :: bs).length) rest, ?_, rest, hrest, rfl⟩
        rw [← firstBytes_append, Nat.add_sub_cancel' (by omega)]
    · rw [e] at hg
      exact ⟨all, hg, rfl⟩
    · rw [e] at hg
      obtain ⟨rest, rfl, hrest⟩ := hg
      exact ⟨firstBytes (k + 1) rest, rfl, rest, hrest, rfl⟩

variable {rd : AnyReader} {R : rd.S → Source → Prop}

theorem taking_delivers {s : rd.S} {a : List UInt8} {rest : Source} (hr : R s (a.map some ++ rest)) : TakeDelivers R (taking s a.length) (a.map some) :=
  ⟨_, hr, (firstBytes_file a rest).symm⟩

/-- **C81**, a PBF file inside a longer stream, limited to its length: each reader gives what it gives of the file alone, whatever follows. -/
theorem C81_take_pbf (h : Delivers rd R) {s : rd.S} {a : List UInt8} {rest : Source} (hr : R s (a.map some ++ rest)) {rounds : Nat} (hl : a.length < rounds)
    (r : Which) (zlib : Proto.Bytes → Option Proto.Bytes) (b : Build) (ds : List ObjData) (e : Option Panic) :
    ReadsOver rd.take zlib b rounds (taking s a.length) r ds e ↔ Reads r zlib b (a.map some) ds e :=
  readsOver (C81_take_delivers h) (taking_delivers hr) (by simpa using hl)

/-- **C81**, the same for the reader of positions. -/
theorem C81_take_positions (h : Delivers rd R) {s : rd.S} {a : List UInt8} {rest : Source} (hr : R s (a.map some ++ rest)) {rounds : Nat} (hl : a.length < rounds)
    (zlib : Proto.Bytes → Option Proto.Bytes) (b : Build) (xs : List (ObjId × (Lat × Lon))) (e : Option Panic) :
    PositionsOver rd.take zlib b rounds (taking s a.length) xs e ↔ ReadsPositions zlib b (a.map some) xs e :=
  positionsOver (C81_take_delivers h) (taking_delivers hr) (by simpa using hl)

/-- **C81**, the same for the XML reader and the change reader. -/
theorem C81_take_xml (h : Delivers rd R) {s : rd.S} {a : List UInt8} {rest : Source} (hr : R s (a.map some ++ rest)) (norm : Xml.Config) {rounds : Nat}
    (hl : 2 * a.length + 1 < rounds) (k : Nat) :
    (calls (XMLReader.Over.next rd.take norm rounds) k (XMLReader.Over.new (taking s a.length))).1 = (calls XMLReader.next k (XMLReader.new norm a)).1 ∧
    (calls (OSCReader.Over.next rd.take norm rounds) k (OSCReader.Over.new (taking s a.length))).1 = (calls OSCReader.next k (OSCReader.new norm a)).1 := by
  have hx := C81_xml (C81_take_delivers h) (taking_delivers hr) norm (rounds := rounds) (by simpa using hl) k
  have ho := C81_osc (C81_take_delivers h) (taking_delivers hr) norm (rounds := rounds) (by simpa using hl) k
  have e := over_new norm a
  rw [e] at hx
  refine ⟨hx, ho.trans ?_⟩
  rw [show OSCReader.over norm (a.map some) = OSCReader.new norm a from e]

/-- A limited source that has bytes to give, and behind them what follows: nothing of it is lost. -/
def TakeKeeps {S : Type} (R : S → Source → Prop) (rest : Source) (t : Taken S) (src : Source) : Prop :=
  ∃ left : List UInt8, src = left.map some ∧ t.limit = left.length ∧ R t.inner (left.map some ++ rest)

/-- **C81**, limited sources take nothing of what follows. -/
theorem C81_take_keeps (h : Delivers rd R) (rest : Source) : Delivers rd.take (TakeKeeps R rest) := by
  rintro ⟨s, limit⟩ src ⟨left, rfl, hl, hr⟩ n hn
  show GaveNext _ (takeRead rd _ n) _
  simp only at hr hl ⊢
  subst hl
  cases left with
  | nil => exact ⟨rfl, [], rfl, rfl, hr⟩
  | cons x left =>
    have hg := h s _ hr (min n (x :: left).length) (by simp only [List.length_cons]; omega)
    have hs := rd.short s (min n (x :: left).length)
    have h0 : ¬ (x :: left).length = 0 := by simp
    simp only [takeRead, h0, if_false]
    rcases e : rd.read s (min n (x :: left).length) with ⟨bs | _ | _, s'⟩
    · rw [e] at hg hs
      have hlen := hs _ rfl
      cases bs with
      | nil => cases hg.1
      | cons b bs =>
        obtain ⟨rest', h1, h2⟩ := hg
        have hle : (b :: bs).length ≤ (x :: left).length := by omega
        have e1 : (b :: bs).map some = ((x :: left).take (b :: bs).length).map some := by
          have := congrArg (List.take (b :: bs).length) h1
          rw [List.take_append_of_le_length (by simpa using hle), List.take_append_of_le_length (by simp), List.take_of_length_le (l := (b :: bs).map some) (by simp),
            ← List.map_take] at this
          exact this.symm
        have e2 : rest' = ((x :: left).drop (b :: bs).length).map some ++ rest := by
          have := congrArg (List.drop (b :: bs).length) h1
          rw [List.drop_append_of_le_length (by simpa using hle), List.drop_append_of_le_length (by simp), List.drop_of_length_le (l := (b :: bs).map some) (by simp),
            ← List.map_drop] at this
          exact this.symm
        refine ⟨((x :: left).drop (b :: bs).length).map some, ?_, _, rfl, by simp, e2 ▸ h2⟩
        rw [e1, ← List.map_append, List.take_append_drop]
    · rw [e] at hg
      exact ⟨_, rfl, rfl, hg⟩
    · rw [e] at hg
      obtain ⟨rest', h1, -⟩ := hg
      cases h1

/-- **C81**, a PBF file inside a longer stream, limited to its length. At any time the stream has, before what follows the file, as much of the file left as a reader of the file alone has. -/
theorem C81_take_left (h : Delivers rd R) {s : rd.S} {a : List UInt8} {rest : Source} (hr : R s (a.map some ++ rest)) {rounds : Nat} (hl : a.length < rounds)
    (zlib : Proto.Bytes → Option Proto.Bytes) (b : Build) (k : Nat) :
    R (calls (StringPbf.ReaderOver.next rd.take zlib b rounds) k (.new (taking s a.length))).2.src.inner
      ((calls (StringPbf.PBFReader.next zlib b) k (.new (a.map some))).2.intoInner ++ rest) ∧
    R (calls (ArcPbf.ReaderOver.next rd.take zlib b rounds) k (.new (taking s a.length))).2.src.inner
      ((calls (ArcPbf.PBFReader.next zlib b) k (.new (a.map some))).2.intoInner ++ rest) ∧
    R (calls (NodePos.ReaderOver.next rd.take zlib b rounds) k (.new (taking s a.length))).2.src.inner
      ((calls (NodePos.Reader.next zlib b) k (.new (a.map some))).2.src ++ rest) := by
  have hk : TakeKeeps R rest (taking s a.length) (a.map some) := ⟨a, rfl, rfl, hr⟩
  have hl' : (a.map some).length < rounds := by simpa using hl
  obtain ⟨l1, e1, -, r1⟩ := (C81_owned (C81_take_keeps h rest) hk zlib b (true, true, true) hl' k).2
  obtain ⟨l2, e2, -, r2⟩ := (C81_shared (C81_take_keeps h rest) hk zlib b hl' k).2
  obtain ⟨l3, e3, -, r3⟩ := (C81_positions (C81_take_keeps h rest) hk zlib b hl' k).2
  rw [← e1] at r1
  rw [← e2] at r2
  rw [← e3] at r3
  exact ⟨r1, r2, r3⟩

section changesets
open QuickXml Spec.Cs Changesets

/-- **C81**, the same for the changeset reader and the reader of tags. -/
theorem C81_take_changesets (h : Delivers rd R) {s : rd.S} {a : List UInt8} {rest : Source} (hr : R s (a.map some ++ rest)) (later : Events) :
    (∀ rs, (∃ r', Answers (ReaderOver.nextChangeset rd.take) (ReaderOver.new later (taking s a.length)) rs r') ↔ ∃ evs', Answers nextChangeset (eventsOf a) rs evs') ∧
    ∀ rs, (∃ r', Answers (nextTagFrom rd.take) (newTagReaderOver later (taking s a.length)) rs r') ↔ ∃ u', Answers nextTag (newTagReader (eventsOf a)) rs u' := by
  have h1 := C81_changesets (C81_take_delivers h) (taking_delivers hr) later
  have h2 := C81_changeset_tags (C81_take_delivers h) (taking_delivers hr) later
  rw [eventsOfSource_whole] at h1 h2
  exact ⟨h1, h2⟩

end changesets

/-- The example PBF file at the beginning of a stream that fails then and goes on with a byte: its objects and the end. -/
example (r : Which) (b : Build) : ReadsOver portions.take some b 20000
    (taking (rd := portions) (AnySourceEx.drip (fileBytes PbfEx.file) ++ [.error, .bytes 7 []]) (fileBytes PbfEx.file).length) r PbfEx.fileData.flatten none := by
  have hl : (fileBytes PbfEx.file).length < 20000 := by decide +kernel
  have h : Reads r some b (source (fileBytes PbfEx.file)) PbfEx.fileData.flatten none := by
    obtain ⟨h1, h2, h3⟩ := PbfEx.accepted r b
    exact (C41_blocks PbfEx.file_is).2 ⟨_, .cons h1 (.cons h2 (.cons h3 .nil)), rfl⟩
  refine (C81_take_pbf (a := fileBytes PbfEx.file) (rest := [none, some 7]) portions_delivers (AnySourceEx.contents_fails _ [.bytes 7 []]).symm hl r some b _ _).2 h

/-- The same stream: after every number of calls the error and the byte are still there. -/
example (b : Build) (k : Nat) := C81_take_left (rd := portions) (a := fileBytes PbfEx.file) (rest := [none, some 7]) portions_delivers
  (AnySourceEx.contents_fails _ [.bytes 7 []]).symm (rounds := 20000) (by decide +kernel) some b k

end Osmio
