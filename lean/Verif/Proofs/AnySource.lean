import Verif.Model.AnySource
import Verif.Spec.AnyIo
import Verif.Proofs.PbfStream
/-! # Readers over any source: the loops of the library, and simulation -/

namespace Osmio
open Spec

theorem readExact_append (bs : List UInt8) : ∀ (n : Nat) (rest : Source), bs.length ≤ n →
    readExact n (bs.map some ++ rest) = ((readExact (n - bs.length) rest).1.map (bs ++ ·), (readExact (n - bs.length) rest).2) := by
  induction bs with
  | nil => intro n rest _; simp
  | cons b bs ih =>
    intro n rest h
    cases n with
    | zero => simp at h
    | succ n =>
      simp only [List.length_cons] at h
      have e := ih n rest (by omega)
      simp only [List.map_cons, List.cons_append, readExact, e, List.length_cons, Nat.add_sub_add_right]
      cases (readExact (n - bs.length) rest).1 <;> simp

/-- The library's loop makes of a source what `readExact` says. -/
theorem AnyReader.readExact_delivers {rd : AnyReader} {R : rd.S → Source → Prop} (h : Delivers rd R) (n : Nat) (s : rd.S) :
    ∀ (src : Source), R s src →
      (rd.readExact n s).1 = (Osmio.readExact n src).1 ∧ R (rd.readExact n s).2 (Osmio.readExact n src).2 := by
  fun_induction AnyReader.readExact rd n s with
  | case1 s => intro src hr; exact ⟨rfl, hr⟩
  | case2 need s h0 s' e =>
    intro src hr
    have := h s src hr need (by omega)
    rw [e] at this
    obtain ⟨rest, rfl, h3⟩ := this
    cases need with
    | zero => exact absurd rfl h0
    | succ n => exact ⟨rfl, h3⟩
  | case3 need s h0 s' e ih =>
    intro src hr
    have := h s src hr need (by omega)
    rw [e] at this
    exact ih src this
  | case4 need s h0 s' e =>
    intro src hr
    have := h s src hr need (by omega)
    rw [e] at this
    obtain ⟨rfl, h3⟩ := this
    cases need with
    | zero => exact absurd rfl h0
    | succ n => exact ⟨rfl, h3⟩
  | case5 need s h0 bs s' e hb r ih =>
    intro src hr
    have := h s src hr need (by omega)
    have hs := rd.short s need bs (by rw [e])
    rw [e] at this
    cases bs with
    | nil => exact absurd rfl hb
    | cons c cs =>
      obtain ⟨rest, rfl, h4⟩ := this
      obtain ⟨i1, i2⟩ := ih rest h4
      rw [readExact_append _ need rest hs]
      exact ⟨by simp only [r, i1], i2⟩

/-- What a `BufReader` has yet to give: the rest of its buffer and what the reader below has yet to give. -/
def BufferedDelivers {S : Type} (R : S → Source → Prop) (b : Buffered S) (src : Source) : Prop :=
  ∃ rest, src = b.pending.map some ++ rest ∧ R b.inner rest

theorem gave_taken {S : Type} {R : S → Source → Prop} {s : S} {bs : List UInt8} {n : Nat} {rest : Source} (hb : bs ≠ []) (hn : 0 < n)
    (hr : R s rest) : GaveNext (BufferedDelivers R) (.ok (bs.take n), ⟨s, bs.drop n⟩) (bs.map some ++ rest) := by
  cases bs with
  | nil => exact absurd rfl hb
  | cons c cs =>
    cases n with
    | zero => omega
    | succ n =>
      refine ⟨(cs.drop n).map some ++ rest, ?_, rest, rfl, hr⟩
      rw [← List.append_assoc, ← List.map_append, List.cons_append, List.take_append_drop]

theorem AnyReader.buffered_delivers {rd : AnyReader} {R : rd.S → Source → Prop} (h : Delivers rd R) (capacity : Nat) :
    Delivers (rd.buffered capacity) (BufferedDelivers R) := by
  rintro ⟨s, pending⟩ src hr n hn
  obtain ⟨rest, rfl, hr⟩ := hr
  show GaveNext (BufferedDelivers R) (bufRead rd capacity ⟨s, pending⟩ n) _
  unfold bufRead
  by_cases hp : pending = []
  · subst hp
    simp only [if_true, List.map_nil, List.nil_append] at hr ⊢
    by_cases hc : capacity ≤ n
    · rw [if_pos hc]
      have := h s rest hr n hn
      rcases hd : rd.read s n with ⟨(_ | ⟨c, cs⟩) | _ | _, s'⟩
      · rw [hd] at this; exact ⟨this.1, [], rfl, this.2⟩
      · rw [hd] at this; obtain ⟨r, e, h2⟩ := this; exact ⟨r, e, r, rfl, h2⟩
      · rw [hd] at this; exact ⟨rest, rfl, this⟩
      · rw [hd] at this; obtain ⟨r, e, h2⟩ := this; exact ⟨r, e, r, rfl, h2⟩
    · rw [if_neg hc]
      have := h s rest hr capacity (by omega)
      rcases hd : rd.read s capacity with ⟨(_ | ⟨c, cs⟩) | _ | _, s'⟩
      · rw [hd] at this
        simp only [List.take_nil, List.drop_nil]
        exact ⟨this.1, [], rfl, this.2⟩
      · rw [hd] at this
        obtain ⟨r, e, h2⟩ := this
        subst e
        exact gave_taken (by simp) hn h2
      · rw [hd] at this; exact ⟨rest, rfl, this⟩
      · rw [hd] at this; obtain ⟨r, e, h2⟩ := this; exact ⟨r, e, r, rfl, h2⟩
  · rw [if_neg hp]
    exact gave_taken hp hn hr

theorem portions_delivers : Delivers portions (fun s src => src = contents s) := by
  intro s src hr n hn
  subst hr
  show GaveNext (fun s src => src = contents s) (readPortion s n) (contents s)
  match s with
  | [] => exact ⟨rfl, rfl⟩
  | .interruption :: r => exact rfl
  | .error :: r => exact ⟨_, rfl, rfl⟩
  | .bytes b bs :: r =>
    cases n with
    | zero => omega
    | succ n =>
      simp only [readPortion]
      split
      · exact ⟨_, rfl, rfl⟩
      · rename_i c cs e
        refine ⟨_, ?_, rfl⟩
        show contents (.bytes b bs :: r) = (b :: bs.take n).map some ++ ((c :: cs).map some ++ contents r)
        rw [← List.append_assoc, ← List.map_append, ← e]
        simp [contents, List.take_append_drop]

/-! ## Simulation -/

/-- A `read_exact` that gives what the model's gives. -/
def SameReads {S : Type} (rx : Nat → S → Option (List UInt8) × S) (R : S → Source → Prop) : Prop :=
  ∀ n s src, R s src → (rx n s).1 = (readExact n src).1 ∧ R (rx n s).2 (readExact n src).2

/-- The same answer, and states in the relation. -/
def AgreeOn {S T α : Type} (R : S → T → Prop) (x : α × S) (y : α × T) : Prop := x.1 = y.1 ∧ R x.2 y.2

section
variable {S : Type} {rx : Nat → S → Option (List UInt8) × S} {R : S → Source → Prop}

theorem agree_cases {S T α : Type} {R : S → T → Prop} {x : α × S} {y : α × T} (h : AgreeOn R x y) :
    ∃ a s t, x = (a, s) ∧ y = (a, t) ∧ R s t := by
  obtain ⟨a, s⟩ := x
  obtain ⟨a', t⟩ := y
  obtain ⟨h1, h2⟩ := h
  cases h1
  exact ⟨_, _, _, rfl, rfl, h2⟩

theorem str_readBlob_agree (h : SameReads rx R) {s : S} {src : Source} (hr : R s src) :
    AgreeOn R (StringPbf.readBlobOver rx s) (StringPbf.readBlob src) := by
  unfold StringPbf.readBlobOver StringPbf.readBlob
  obtain ⟨size, s, src, e1, e2, hr⟩ := agree_cases (h 4 _ _ hr)
  rw [e1, e2]
  clear e1 e2
  rcases size with _ | size
  · exact ⟨rfl, hr⟩
  simp only
  obtain ⟨hb, s, src, e1, e2, hr⟩ := agree_cases (h (fromBe size) _ _ hr)
  rw [e1, e2]
  clear e1 e2
  rcases hb with _ | hb
  · exact ⟨rfl, hr⟩
  simp only
  rcases Proto.BlobHeader.parseFromBytes hb with _ | hd
  · exact ⟨rfl, hr⟩
  simp only
  by_cases hneg : (hd.datasize.getD 0).toInt < 0
  · rw [if_pos hneg, if_pos hneg]
    exact ⟨rfl, hr⟩
  rw [if_neg hneg, if_neg hneg]
  obtain ⟨bb, s, src, e1, e2, hr⟩ := agree_cases (h (hd.datasize.getD 0).toInt.toNat _ _ hr)
  rw [e1, e2]
  clear e1 e2
  rcases bb with _ | bb
  · exact ⟨rfl, hr⟩
  simp only
  rcases hd.type_ with _ | t
  · exact ⟨rfl, hr⟩
  simp only
  by_cases ht : t ≠ str% "OSMData"
  · rw [if_pos ht, if_pos ht]
    exact ⟨rfl, hr⟩
  rw [if_neg ht, if_neg ht]
  rcases Proto.Blob.parseFromBytes bb with _ | bl <;> exact ⟨rfl, hr⟩

theorem arc_readBlob_agree (h : SameReads rx R) {s : S} {src : Source} (hr : R s src) :
    AgreeOn R (ArcPbf.readBlobOver rx s) (ArcPbf.readBlob src) := by
  unfold ArcPbf.readBlobOver ArcPbf.readBlob
  obtain ⟨size, s, src, e1, e2, hr⟩ := agree_cases (h 4 _ _ hr)
  rw [e1, e2]
  clear e1 e2
  rcases size with _ | size
  · exact ⟨rfl, hr⟩
  simp only
  obtain ⟨hb, s, src, e1, e2, hr⟩ := agree_cases (h (fromBe size) _ _ hr)
  rw [e1, e2]
  clear e1 e2
  rcases hb with _ | hb
  · exact ⟨rfl, hr⟩
  simp only
  rcases Proto.BlobHeader.parseFromBytes hb with _ | hd
  · exact ⟨rfl, hr⟩
  simp only
  rcases hd.datasize with _ | ds
  · exact ⟨rfl, hr⟩
  simp only
  by_cases hneg : (ds).toInt < 0
  · rw [if_pos hneg, if_pos hneg]
    exact ⟨rfl, hr⟩
  rw [if_neg hneg, if_neg hneg]
  obtain ⟨bb, s, src, e1, e2, hr⟩ := agree_cases (h (ds).toInt.toNat _ _ hr)
  rw [e1, e2]
  clear e1 e2
  rcases bb with _ | bb
  · exact ⟨rfl, hr⟩
  simp only
  rcases hd.type_ with _ | t
  · exact ⟨rfl, hr⟩
  simp only
  by_cases ht : t ≠ str% "OSMData"
  · rw [if_pos ht, if_pos ht]
    exact ⟨rfl, hr⟩
  rw [if_neg ht, if_neg ht]
  rcases Proto.Blob.parseFromBytes bb with _ | bl <;> exact ⟨rfl, hr⟩

theorem str_getNext_agree (h : SameReads rx R) (n : Nat) : ∀ {s : S} {src : Source}, R s src →
    AgreeOn R (StringPbf.getNextOver rx n s) (StringPbf.getNextOsmdataBlobAux n src) := by
  induction n with
  | zero => intro s src hr; exact ⟨rfl, hr⟩
  | succ n ih =>
    intro s src hr
    have hb := str_readBlob_agree h hr
    simp only [StringPbf.getNextOver, StringPbf.getNextOsmdataBlobAux]
    obtain ⟨x, s1, src1, e1, e2, hr1⟩ := agree_cases hb
    rw [e1, e2]
    rcases x with p | (_ | (_ | b))
    · exact ⟨rfl, hr1⟩
    · exact ⟨rfl, hr1⟩
    · exact ih hr1
    · exact ⟨rfl, hr1⟩

theorem arc_getNext_agree (h : SameReads rx R) (n : Nat) : ∀ {s : S} {src : Source}, R s src →
    AgreeOn R (ArcPbf.getNextOver rx n s) (ArcPbf.getNextOsmdataBlobAux n src) := by
  induction n with
  | zero => intro s src hr; exact ⟨rfl, hr⟩
  | succ n ih =>
    intro s src hr
    have hb := arc_readBlob_agree h hr
    simp only [ArcPbf.getNextOver, ArcPbf.getNextOsmdataBlobAux]
    obtain ⟨x, s1, src1, e1, e2, hr1⟩ := agree_cases hb
    rw [e1, e2]
    rcases x with p | (_ | (_ | b))
    · exact ⟨rfl, hr1⟩
    · exact ⟨rfl, hr1⟩
    · exact ih hr1
    · exact ⟨rfl, hr1⟩

theorem str_getNext_enough (h : SameReads rx R) {rounds : Nat} {s : S} {src : Source} (hr : R s src) (hn : src.length < rounds) :
    AgreeOn R (StringPbf.getNextOver rx rounds s) (StringPbf.getNextOsmdataBlob src) := by
  have := str_getNext_agree h rounds hr
  rwa [getNextAux_mono hn (Nat.lt_succ_self _)] at this

theorem arc_getNext_enough (h : SameReads rx R) {rounds : Nat} {s : S} {src : Source} (hr : R s src) (hn : src.length < rounds) :
    AgreeOn R (ArcPbf.getNextOver rx rounds s) (ArcPbf.getNextOsmdataBlob src) := by
  have := arc_getNext_agree h rounds hr
  rw [getNextAux_eq, getNextAux_mono hn (Nat.lt_succ_self _), ← getNextAux_eq] at this
  exact this

/-- Corresponding states of the owned reader. -/
def OverStr (R : S → Source → Prop) (r : StringPbf.ReaderOver S) (q : StringPbf.PBFReader) : Prop :=
  R r.src q.src ∧ r.buffer = q.buffer ∧ r.sortedAssumption = q.sortedAssumption ∧ r.filter = q.filter
/-- Corresponding states of the shared reader. -/
def OverArc (R : S → Source → Prop) (r : ArcPbf.ReaderOver S) (q : ArcPbf.PBFReader) : Prop :=
  R r.src q.src ∧ r.buffer = q.buffer ∧ r.sortedAssumption = q.sortedAssumption
/-- Corresponding states of the reader of positions. -/
def OverPos (R : S → Source → Prop) (r : NodePos.ReaderOver S) (q : NodePos.Reader) : Prop :=
  R r.src q.src ∧ r.buffer = q.buffer

theorem str_nextAux_agree (h : SameReads rx R) (zlib : Proto.Bytes → Option Proto.Bytes) (b : Build) {rounds : Nat} (n : Nat) :
    ∀ {r : StringPbf.ReaderOver S} {q : StringPbf.PBFReader}, OverStr R r q → q.src.length < rounds →
      AgreeOn (OverStr R) (StringPbf.ReaderOver.nextAux rx zlib b rounds n r) (StringPbf.PBFReader.nextAux zlib b n q) := by
  induction n with
  | zero =>
    rintro ⟨s, buf, sa, f⟩ ⟨src, buf', sa', f'⟩ ⟨h1, h2, h3, h4⟩ _
    cases h2; cases h3; cases h4
    cases buf <;> exact ⟨rfl, h1, rfl, rfl, rfl⟩
  | succ n ih =>
    rintro ⟨s, buf, sa, f⟩ ⟨src, buf', sa', f'⟩ ⟨h1, h2, h3, h4⟩ hl
    cases h2; cases h3; cases h4
    cases buf with
    | cons o os => exact ⟨rfl, h1, rfl, rfl, rfl⟩
    | nil =>
      have hg := str_getNext_enough h h1 hl
      unfold StringPbf.ReaderOver.nextAux StringPbf.PBFReader.nextAux
      simp only at h1 hg ⊢
      obtain ⟨x, s1, src1, e1, hq, hr1⟩ := agree_cases hg
      rw [e1, hq]
      rcases x with p | (_ | bl)
      · exact ⟨rfl, hr1, rfl, rfl, rfl⟩
      · exact ⟨rfl, hr1, rfl, rfl, rfl⟩
      · simp only
        rcases StringPbf.decodeBlob zlib b f bl with ⟨os, _ | p⟩
        · exact ih ⟨hr1, rfl, rfl, rfl⟩ (Nat.lt_trans (getNext_length hq) hl)
        · exact ⟨rfl, hr1, rfl, rfl, rfl⟩

theorem arc_nextAux_agree (h : SameReads rx R) (zlib : Proto.Bytes → Option Proto.Bytes) (b : Build) {rounds : Nat} (n : Nat) :
    ∀ {r : ArcPbf.ReaderOver S} {q : ArcPbf.PBFReader}, OverArc R r q → q.src.length < rounds →
      AgreeOn (OverArc R) (ArcPbf.ReaderOver.nextAux rx zlib b rounds n r) (ArcPbf.PBFReader.nextAux zlib b n q) := by
  induction n with
  | zero =>
    rintro ⟨s, buf, sa⟩ ⟨src, buf', sa'⟩ ⟨h1, h2, h3⟩ _
    cases h2; cases h3
    unfold ArcPbf.ReaderOver.nextAux ArcPbf.PBFReader.nextAux
    simp only
    cases buf.getLast? <;> exact ⟨rfl, h1, rfl, rfl⟩
  | succ n ih =>
    rintro ⟨s, buf, sa⟩ ⟨src, buf', sa'⟩ ⟨h1, h2, h3⟩ hl
    cases h2; cases h3
    have hg := arc_getNext_enough h h1 hl
    unfold ArcPbf.ReaderOver.nextAux ArcPbf.PBFReader.nextAux
    simp only at h1 hg ⊢
    cases buf.getLast? with
    | some o => exact ⟨rfl, h1, rfl, rfl⟩
    | none =>
      simp only
      obtain ⟨x, s1, src1, e1, hq, hr1⟩ := agree_cases hg
      rw [e1, hq]
      rcases x with p | (_ | bl)
      · exact ⟨rfl, hr1, rfl, rfl⟩
      · exact ⟨rfl, hr1, rfl, rfl⟩
      · simp only
        rcases ArcPbf.decodeBlob zlib b bl with p | os
        · exact ⟨rfl, hr1, rfl, rfl⟩
        · rw [getNext_eq] at hq
          exact ih ⟨hr1, rfl, rfl⟩ (Nat.lt_trans (getNext_length hq) hl)

theorem pos_nextAux_agree (h : SameReads rx R) (zlib : Proto.Bytes → Option Proto.Bytes) (b : Build) {rounds : Nat} (n : Nat) :
    ∀ {r : NodePos.ReaderOver S} {q : NodePos.Reader}, OverPos R r q → q.src.length < rounds →
      AgreeOn (OverPos R) (NodePos.ReaderOver.nextAux rx zlib b rounds n r) (NodePos.Reader.nextAux zlib b n q) := by
  induction n with
  | zero =>
    rintro ⟨s, buf⟩ ⟨src, buf'⟩ ⟨h1, h2⟩ _
    cases h2
    cases buf <;> exact ⟨rfl, h1, rfl⟩
  | succ n ih =>
    rintro ⟨s, buf⟩ ⟨src, buf'⟩ ⟨h1, h2⟩ hl
    cases h2
    cases buf with
    | cons o os => exact ⟨rfl, h1, rfl⟩
    | nil =>
      have hg := str_getNext_enough h h1 hl
      unfold NodePos.ReaderOver.nextAux NodePos.Reader.nextAux
      simp only at h1 hg ⊢
      obtain ⟨x, s1, src1, e1, hq, hr1⟩ := agree_cases hg
      rw [e1, hq]
      rcases x with p | (_ | bl)
      · exact ⟨rfl, hr1, rfl⟩
      · exact ⟨rfl, hr1, rfl⟩
      · simp only
        rcases NodePos.decodeBlob zlib b bl with ⟨os, _ | p⟩
        · exact ih ⟨hr1, rfl⟩ (Nat.lt_trans (getNext_length hq) hl)
        · exact ⟨rfl, hr1, rfl⟩
end

/-! ## The source gets no longer -/

theorem getNext_le {s s' : Source} {x : Res (Option Proto.Blob)} (h : StringPbf.getNextOsmdataBlob s = (x, s')) : s'.length ≤ s.length := by
  induction hn : s.length using Nat.strongRecOn generalizing s with
  | _ n ih =>
    rw [getNext_unfold] at h
    rcases h1 : StringPbf.readBlob s with ⟨(p | (_ | (_ | b))), s1⟩
    · rw [h1] at h; cases h; rw [← hn]; exact (readBlob_length h1).1
    · rw [h1] at h; cases h; rw [← hn]; exact (readBlob_length h1).1
    · rw [h1] at h
      have := (readBlob_length h1).2 (by simp)
      have := ih s1.length (by omega) h rfl
      omega
    · rw [h1] at h; cases h; rw [← hn]; exact (readBlob_length h1).1

theorem gnextAux_le {α : Type} (decode : Proto.Blob → List α × Option Panic) (n : Nat) : ∀ (s : List α × Source),
    (gnextAux decode n s).2.2.length ≤ s.2.length := by
  induction n with
  | zero => rintro ⟨buf, src⟩; cases buf <;> (rw [gnextAux.eq_def])
  | succ n ih =>
    rintro ⟨buf, src⟩
    cases buf with
    | cons o os => rw [gnextAux_cons]
    | nil =>
      rw [gnextAux_nil]
      rcases h : StringPbf.getNextOsmdataBlob src with ⟨(p | (_ | b)), s1⟩
      · exact getNext_le h
      · exact getNext_le h
      · simp only
        rcases decode b with ⟨os, (_ | p)⟩
        · exact Nat.le_trans (ih (os, s1)) (getNext_le h)
        · exact getNext_le h

/-! ## One call -/

theorem str_next_le (zlib : Proto.Bytes → Option Proto.Bytes) (b : Build) (q : StringPbf.PBFReader) :
    (StringPbf.PBFReader.next zlib b q).2.src.length ≤ q.src.length := by
  have := str_next zlib b q.sortedAssumption q.filter (q.buffer, q.src)
  rw [show q = strState q.sortedAssumption q.filter (q.buffer, q.src) from rfl, this]
  exact gnextAux_le _ _ _

theorem arc_next_le (zlib : Proto.Bytes → Option Proto.Bytes) (b : Build) (q : ArcPbf.PBFReader) :
    (ArcPbf.PBFReader.next zlib b q).2.src.length ≤ q.src.length := by
  have := arc_next zlib b q.sortedAssumption (q.buffer.reverse, q.src)
  rw [show q = arcState q.sortedAssumption (q.buffer.reverse, q.src) by simp [arcState], this]
  exact gnextAux_le _ _ _

theorem pos_next_le (zlib : Proto.Bytes → Option Proto.Bytes) (b : Build) (q : NodePos.Reader) :
    (NodePos.Reader.next zlib b q).2.src.length ≤ q.src.length := by
  have := pos_next zlib b (q.buffer, q.src)
  rw [show q = posState (q.buffer, q.src) from rfl, this]
  exact gnextAux_le _ _ _

theorem str_nextAux_enough (zlib : Proto.Bytes → Option Proto.Bytes) (b : Build) {n : Nat} {q : StringPbf.PBFReader} (h : q.src.length < n) :
    StringPbf.PBFReader.nextAux zlib b n q = StringPbf.PBFReader.next zlib b q := by
  have := str_nextAux zlib b q.sortedAssumption q.filter n (q.buffer, q.src)
  rw [gnextAux_mono (m := q.src.length + 1) h (Nat.lt_succ_self _)] at this
  exact this.trans (str_next zlib b q.sortedAssumption q.filter (q.buffer, q.src)).symm

theorem arc_nextAux_enough (zlib : Proto.Bytes → Option Proto.Bytes) (b : Build) {n : Nat} {q : ArcPbf.PBFReader} (h : q.src.length < n) :
    ArcPbf.PBFReader.nextAux zlib b n q = ArcPbf.PBFReader.next zlib b q := by
  have := arc_nextAux zlib b q.sortedAssumption n (q.buffer.reverse, q.src)
  rw [gnextAux_mono (m := q.src.length + 1) h (Nat.lt_succ_self _)] at this
  have e : q = arcState q.sortedAssumption (q.buffer.reverse, q.src) := by simp [arcState]
  rw [← e] at this
  rw [this]
  conv_rhs => rw [e]
  exact (arc_next zlib b q.sortedAssumption (q.buffer.reverse, q.src)).symm

theorem pos_nextAux_enough (zlib : Proto.Bytes → Option Proto.Bytes) (b : Build) {n : Nat} {q : NodePos.Reader} (h : q.src.length < n) :
    NodePos.Reader.nextAux zlib b n q = NodePos.Reader.next zlib b q := by
  have := pos_nextAux zlib b n (q.buffer, q.src)
  rw [gnextAux_mono (m := q.src.length + 1) h (Nat.lt_succ_self _)] at this
  exact this.trans (pos_next zlib b (q.buffer, q.src)).symm

/-! ## Any number of calls -/

theorem calls_agree {S T α : Type} {R : S → T → Prop} {n1 : S → Res (Option α) × S} {n2 : T → Res (Option α) × T} {size : T → Nat} {bound : Nat}
    (h : ∀ s t, R s t → size t < bound → AgreeOn R (n1 s) (n2 t)) (hs : ∀ t, size (n2 t).2 ≤ size t) (k : Nat) :
    ∀ (s : S) (t : T), R s t → size t < bound → AgreeOn R (Spec.calls n1 k s) (Spec.calls n2 k t) := by
  induction k with
  | zero => intro s t hr _; exact ⟨rfl, hr⟩
  | succ k ih =>
    intro s t hr hb
    obtain ⟨h1, h2⟩ := h s t hr hb
    obtain ⟨i1, i2⟩ := ih _ _ h2 (Nat.lt_of_le_of_lt (hs t) hb)
    exact ⟨by simp only [Spec.calls, h1, i1], i2⟩

theorem str_calls_agree {rd : AnyReader} {R : rd.S → Source → Prop} (h : Delivers rd R) (zlib : Proto.Bytes → Option Proto.Bytes) (b : Build)
    {rounds : Nat} (k : Nat) {r : StringPbf.ReaderOver rd.S} {q : StringPbf.PBFReader} (hr : OverStr R r q) (hl : q.src.length < rounds) :
    AgreeOn (OverStr R) (Spec.calls (StringPbf.ReaderOver.next rd zlib b rounds) k r) (Spec.calls (StringPbf.PBFReader.next zlib b) k q) := by
  refine calls_agree (size := fun q => q.src.length) (bound := rounds) ?_ (str_next_le zlib b) k r q hr hl
  intro s t hr hl
  rw [← str_nextAux_enough zlib b hl]
  exact str_nextAux_agree (fun n s src hr => AnyReader.readExact_delivers h n s src hr) zlib b rounds hr hl

theorem arc_calls_agree {rd : AnyReader} {R : rd.S → Source → Prop} (h : Delivers rd R) (zlib : Proto.Bytes → Option Proto.Bytes) (b : Build)
    {rounds : Nat} (k : Nat) {r : ArcPbf.ReaderOver rd.S} {q : ArcPbf.PBFReader} (hr : OverArc R r q) (hl : q.src.length < rounds) :
    AgreeOn (OverArc R) (Spec.calls (ArcPbf.ReaderOver.next rd zlib b rounds) k r) (Spec.calls (ArcPbf.PBFReader.next zlib b) k q) := by
  refine calls_agree (size := fun q => q.src.length) (bound := rounds) ?_ (arc_next_le zlib b) k r q hr hl
  intro s t hr hl
  rw [← arc_nextAux_enough zlib b hl]
  exact arc_nextAux_agree (fun n s src hr => AnyReader.readExact_delivers h n s src hr) zlib b rounds hr hl

theorem pos_calls_agree {rd : AnyReader} {R : rd.S → Source → Prop} (h : Delivers rd R) (zlib : Proto.Bytes → Option Proto.Bytes) (b : Build)
    {rounds : Nat} (k : Nat) {r : NodePos.ReaderOver rd.S} {q : NodePos.Reader} (hr : OverPos R r q) (hl : q.src.length < rounds) :
    AgreeOn (OverPos R) (Spec.calls (NodePos.ReaderOver.next rd zlib b rounds) k r) (Spec.calls (NodePos.Reader.next zlib b) k q) := by
  refine calls_agree (size := fun q => q.src.length) (bound := rounds) ?_ (pos_next_le zlib b) k r q hr hl
  intro s t hr hl
  rw [← pos_nextAux_enough zlib b hl]
  exact pos_nextAux_agree (fun n s src hr => AnyReader.readExact_delivers h n s src hr) zlib b rounds hr hl

end Osmio
