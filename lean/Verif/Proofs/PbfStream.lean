import Verif.Proofs.PbfFacts
/-! # Proofs: the readers as consumers of a stream of blobs -/

namespace Osmio
open Spec.Pbf Spec

/-! ## Reading blobs -/

theorem readExact_length {n : Nat} {src src' : Source} {o : Option (List UInt8)} (h : readExact n src = (o, src')) :
    src'.length ≤ src.length ∧ (n ≠ 0 → src ≠ [] → src'.length < src.length) := by
  induction n generalizing src src' o with
  | zero => cases h; simp
  | succ n ih =>
    cases src with
    | nil => cases h; simp
    | cons x s =>
      cases x with
      | none => cases h; simp
      | some b =>
        cases h
        have := (ih (src := s) rfl).1
        simp only [List.length_cons]
        omega

theorem readExact_some_length {n : Nat} {src src' : Source} {l : List UInt8} (h : readExact n src = (some l, src')) :
    l.length = n ∧ src = source l ++ src' := by
  induction n generalizing src src' l with
  | zero => cases h; exact ⟨rfl, rfl⟩
  | succ n ih =>
    cases src with
    | nil => cases h
    | cons x s =>
      cases x with
      | none => cases h
      | some b =>
        simp only [readExact, Prod.mk.injEq, Option.map_eq_some_iff] at h
        obtain ⟨⟨l', h1, rfl⟩, rfl⟩ := h
        obtain ⟨h2, h3⟩ := ih (src := s) (Prod.ext h1 rfl)
        exact ⟨by simp [h2], by simpa [source] using h3⟩

theorem readExact_source (l : List UInt8) (rest : Source) : readExact l.length (source l ++ rest) = (some l, rest) := by
  induction l with
  | nil => rfl
  | cons b l ih =>
    show readExact (l.length + 1) (some b :: (source l ++ rest)) = _
    simp [readExact, ih]

theorem readExact_short {n : Nat} {l : List UInt8} (h : l.length < n) : readExact n (source l) = (none, []) := by
  induction l generalizing n with
  | nil =>
    cases n with
    | zero => simp at h
    | succ n => rfl
  | cons b l ih =>
    cases n with
    | zero => simp at h
    | succ n =>
      show readExact (n + 1) (some b :: source l) = _
      simp [readExact, ih (n := n) (by simpa using h)]

theorem isInitialized_of_parse {bs : Proto.Bytes} {h : Proto.BlobHeader} (hp : Proto.BlobHeader.parseFromBytes bs = some h) :
    ∃ t n, h.type_ = some t ∧ h.datasize = some n := by
  unfold Proto.BlobHeader.parseFromBytes at hp
  obtain ⟨m', _, h2⟩ := Option.bind_eq_some_iff.1 hp
  split at h2
  · rename_i h3
    cases h2
    simp only [Proto.BlobHeader.isInitialized, Bool.and_eq_true, Option.isSome_iff_exists] at h3
    obtain ⟨⟨t, ht⟩, n, hn⟩ := h3
    exact ⟨t, n, ht, hn⟩
  · cases h2

/-- Both readers take a file apart in the same way. -/
theorem readBlob_eq (src : Source) : ArcPbf.readBlob src = StringPbf.readBlob src := by
  unfold ArcPbf.readBlob StringPbf.readBlob
  rcases h1 : readExact 4 src with ⟨_ | size, s1⟩
  · rfl
  · simp only
    rcases h2 : readExact (fromBe size) s1 with ⟨_ | hb, s2⟩
    · rfl
    · simp only
      cases h3 : Proto.BlobHeader.parseFromBytes hb with
      | none => rfl
      | some h =>
        obtain ⟨t, n, ht, hn⟩ := isInitialized_of_parse h3
        simp only [ht, hn, Option.getD_some]
        split
        · rfl
        · rcases readExact n.toInt.toNat s2 with ⟨_ | bb, s3⟩
          · rfl
          · simp only
            split
            · rfl
            · cases Proto.Blob.parseFromBytes bb <;> rfl

theorem getNextAux_eq (n : Nat) (src : Source) : ArcPbf.getNextOsmdataBlobAux n src = StringPbf.getNextOsmdataBlobAux n src := by
  induction n generalizing src with
  | zero => rfl
  | succ n ih =>
    simp only [ArcPbf.getNextOsmdataBlobAux, StringPbf.getNextOsmdataBlobAux, readBlob_eq]
    rcases StringPbf.readBlob src with ⟨(_ | (_ | (_ | _))), s⟩ <;> simp [ih]

theorem getNext_eq (src : Source) : ArcPbf.getNextOsmdataBlob src = StringPbf.getNextOsmdataBlob src := getNextAux_eq _ _

theorem readBlob_length {src src' : Source} {x : Res (Option (Option Proto.Blob))} (h : StringPbf.readBlob src = (x, src')) :
    src'.length ≤ src.length ∧ (x ≠ .ok none → src'.length < src.length) := by
  unfold StringPbf.readBlob at h
  rcases h1 : readExact 4 src with ⟨_ | size, s1⟩
  · rw [h1] at h
    cases h
    exact ⟨(readExact_length h1).1, fun h => absurd rfl h⟩
  · rw [h1] at h
    have l1 : s1.length < src.length := (readExact_length h1).2 (by decide) (by rintro rfl; cases h1)
    have key : src'.length ≤ s1.length := by
      simp only at h
      rcases h2 : readExact (fromBe size) s1 with ⟨_ | hb, s2⟩
      · rw [h2] at h; cases h; exact (readExact_length h2).1
      · rw [h2] at h
        have l2 := (readExact_length h2).1
        simp only at h
        cases h3 : Proto.BlobHeader.parseFromBytes hb with
        | none => rw [h3] at h; cases h; exact l2
        | some hd =>
          rw [h3] at h
          simp only at h
          split at h
          · cases h; exact l2
          · rcases h4 : readExact (hd.datasize.getD 0).toInt.toNat s2 with ⟨_ | bb, s3⟩
            · rw [h4] at h; cases h; exact Nat.le_trans (readExact_length h4).1 l2
            · rw [h4] at h
              have l3 := Nat.le_trans (readExact_length h4).1 l2
              simp only at h
              split at h
              · cases h; exact l3
              · split at h
                · cases h; exact l3
                · split at h <;> (cases h; exact l3)
    exact ⟨by omega, fun _ => by omega⟩

/-- The blobs of data in a source, and how it ends. -/
inductive Stream : Source → List Proto.Blob → Option Panic → Source → Prop
  | done {s s' : Source} : StringPbf.readBlob s = (.ok none, s') → Stream s [] none s'
  | panic {s s' : Source} {p : Panic} : StringPbf.readBlob s = (.error p, s') → Stream s [] (some p) s'
  | skip {s s1 s2 : Source} {bs : List Proto.Blob} {e : Option Panic} :
      StringPbf.readBlob s = (.ok (some none), s1) → Stream s1 bs e s2 → Stream s bs e s2
  | blob {s s1 s2 : Source} {b : Proto.Blob} {bs : List Proto.Blob} {e : Option Panic} :
      StringPbf.readBlob s = (.ok (some (some b)), s1) → Stream s1 bs e s2 → Stream s (b :: bs) e s2

theorem stream_total (s : Source) : ∃ bs e s', Stream s bs e s' := by
  induction hn : s.length using Nat.strongRecOn generalizing s with
  | _ n ih =>
    rcases h : StringPbf.readBlob s with ⟨(p | (_ | (_ | b))), s1⟩
    · exact ⟨_, _, _, .panic h⟩
    · exact ⟨_, _, _, .done h⟩
    · obtain ⟨bs, e, s', h2⟩ := ih s1.length (by rw [← hn]; exact (readBlob_length h).2 (by simp)) s1 rfl
      exact ⟨_, _, _, .skip h h2⟩
    · obtain ⟨bs, e, s', h2⟩ := ih s1.length (by rw [← hn]; exact (readBlob_length h).2 (by simp)) s1 rfl
      exact ⟨_, _, _, .blob h h2⟩

theorem Stream.unique {s s1 s2 : Source} {bs1 bs2 : List Proto.Blob} {e1 e2 : Option Panic} (h1 : Stream s bs1 e1 s1)
    (h2 : Stream s bs2 e2 s2) : bs1 = bs2 ∧ e1 = e2 ∧ s1 = s2 := by
  induction h1 generalizing bs2 with
  | done h =>
    cases h2 with
    | done h' => rw [h] at h'; cases h'; exact ⟨rfl, rfl, rfl⟩
    | panic h' => rw [h] at h'; cases h'
    | skip h' => rw [h] at h'; cases h'
    | blob h' => rw [h] at h'; cases h'
  | panic h =>
    cases h2 with
    | done h' => rw [h] at h'; cases h'
    | panic h' => rw [h] at h'; cases h'; exact ⟨rfl, rfl, rfl⟩
    | skip h' => rw [h] at h'; cases h'
    | blob h' => rw [h] at h'; cases h'
  | skip h _ ih =>
    cases h2 with
    | done h' => rw [h] at h'; cases h'
    | panic h' => rw [h] at h'; cases h'
    | skip h' h2 => rw [h] at h'; cases h'; exact ih h2
    | blob h' => rw [h] at h'; cases h'
  | blob h _ ih =>
    cases h2 with
    | done h' => rw [h] at h'; cases h'
    | panic h' => rw [h] at h'; cases h'
    | skip h' => rw [h] at h'; cases h'
    | blob h' h2 =>
      rw [h] at h'; cases h'
      obtain ⟨rfl, rfl, rfl⟩ := ih h2
      exact ⟨rfl, rfl, rfl⟩

/-! ## Enough fuel -/

theorem getNextAux_mono {n m : Nat} {s : Source} (hn : s.length < n) (hm : s.length < m) :
    StringPbf.getNextOsmdataBlobAux n s = StringPbf.getNextOsmdataBlobAux m s := by
  induction n generalizing s m with
  | zero => omega
  | succ n ih =>
    cases m with
    | zero => omega
    | succ m =>
      simp only [StringPbf.getNextOsmdataBlobAux]
      rcases h : StringPbf.readBlob s with ⟨(p | (_ | (_ | b))), s1⟩
      · rfl
      · rfl
      · have := (readBlob_length h).2 (by simp)
        exact ih (by omega) (by omega)
      · rfl

theorem getNext_unfold (s : Source) :
    StringPbf.getNextOsmdataBlob s =
      match StringPbf.readBlob s with
      | (.ok (some none), s1) => StringPbf.getNextOsmdataBlob s1
      | (.ok (some (some blob)), s1) => (.ok (some blob), s1)
      | (.ok none, s1) => (.ok none, s1)
      | (.error p, s1) => (.error p, s1) := by
  unfold StringPbf.getNextOsmdataBlob
  rw [StringPbf.getNextOsmdataBlobAux]
  rcases h : StringPbf.readBlob s with ⟨(p | (_ | (_ | b))), s1⟩
  · rfl
  · rfl
  · have := (readBlob_length h).2 (by simp)
    exact getNextAux_mono (by omega) (by omega)
  · rfl

theorem getNext_length {s s' : Source} {b : Proto.Blob} (h : StringPbf.getNextOsmdataBlob s = (.ok (some b), s')) :
    s'.length < s.length := by
  induction hn : s.length using Nat.strongRecOn generalizing s with
  | _ n ih =>
    rw [getNext_unfold] at h
    rcases h1 : StringPbf.readBlob s with ⟨(p | (_ | (_ | b))), s1⟩
    · rw [h1] at h; cases h
    · rw [h1] at h; cases h
    · rw [h1] at h
      have := (readBlob_length h1).2 (by simp)
      have := ih s1.length (by omega) h rfl
      omega
    · rw [h1] at h
      cases h
      have := (readBlob_length h1).2 (by simp)
      omega

/-! ## A reader with a buffer -/

/-- What the three readers have in common. -/
def gnextAux {α : Type} (decode : Proto.Blob → List α × Option Panic) : Nat → List α × Source → Res (Option α) × (List α × Source)
  | n, (buf, src) =>
    match buf with
    | o :: os => (.ok (some o), (os, src))
    | [] =>
      match n with
      | 0 => (.ok none, ([], src))
      | n + 1 =>
        match StringPbf.getNextOsmdataBlob src with
        | (.error p, src) => (.error p, ([], src))
        | (.ok none, src) => (.ok none, ([], src))
        | (.ok (some blob), src) =>
          match decode blob with
          | (os, some p) => (.error p, (os, src))
          | (os, none) => gnextAux decode n (os, src)

def gnext {α : Type} (decode : Proto.Blob → List α × Option Panic) (s : List α × Source) : Res (Option α) × (List α × Source) :=
  gnextAux decode (s.2.length + 1) s

theorem gnextAux_cons {α : Type} (decode : Proto.Blob → List α × Option Panic) (n : Nat) (o : α) (os : List α) (src : Source) :
    gnextAux decode n (o :: os, src) = (.ok (some o), (os, src)) := by
  rw [gnextAux.eq_def]

theorem gnextAux_nil {α : Type} (decode : Proto.Blob → List α × Option Panic) (n : Nat) (src : Source) :
    gnextAux decode (n + 1) ([], src) =
        match StringPbf.getNextOsmdataBlob src with
        | (.error p, src) => (.error p, ([], src))
        | (.ok none, src) => (.ok none, ([], src))
        | (.ok (some blob), src) =>
          match decode blob with
          | (os, some p) => (.error p, (os, src))
          | (os, none) => gnextAux decode n (os, src) := by
  rw [gnextAux.eq_def]

theorem gnextAux_mono {α : Type} {decode : Proto.Blob → List α × Option Panic} {n m : Nat} {s : List α × Source}
    (hn : s.2.length < n) (hm : s.2.length < m) : gnextAux decode n s = gnextAux decode m s := by
  obtain ⟨buf, src⟩ := s
  induction n generalizing buf src m with
  | zero => simp at hn
  | succ n ih =>
    cases m with
    | zero => simp at hm
    | succ m =>
      cases buf with
      | cons o os => rw [gnextAux_cons, gnextAux_cons]
      | nil =>
        rw [gnextAux_nil, gnextAux_nil]
        rcases h : StringPbf.getNextOsmdataBlob src with ⟨(p | (_ | b)), s1⟩
        · rfl
        · rfl
        · simp only
          have := getNext_length h
          rcases decode b with ⟨os, (_ | p)⟩
          · simp only at hn hm
            exact ih os s1 (by simp only; omega) (by simp only; omega)
          · rfl

theorem gnext_cons {α : Type} (decode : Proto.Blob → List α × Option Panic) (o : α) (os : List α) (src : Source) :
    gnext decode (o :: os, src) = (.ok (some o), (os, src)) := gnextAux_cons _ _ _ _ _

theorem gnext_nil {α : Type} (decode : Proto.Blob → List α × Option Panic) (src : Source) :
    gnext decode ([], src) =
        match StringPbf.getNextOsmdataBlob src with
        | (.error p, src) => (.error p, ([], src))
        | (.ok none, src) => (.ok none, ([], src))
        | (.ok (some blob), src) =>
          match decode blob with
          | (os, some p) => (.error p, (os, src))
          | (os, none) => gnext decode (os, src) := by
  unfold gnext
  rw [gnextAux_nil]
  rcases h : StringPbf.getNextOsmdataBlob src with ⟨(p | (_ | b)), s1⟩
  · rfl
  · rfl
  · simp only
    have := getNext_length h
    rcases decode b with ⟨os, (_ | p)⟩
    · exact gnextAux_mono (by simp only; omega) (by simp only; omega)
    · rfl

/-- The objects of a stream of blobs: up to the first that cannot be decoded. -/
def runBlobs {α : Type} (decode : Proto.Blob → List α × Option Panic) (e : Option Panic) : List Proto.Blob → List α × Option Panic
  | [] => ([], e)
  | b :: bs =>
    match decode b with
    | (os, none) => (os ++ (runBlobs decode e bs).1, (runBlobs decode e bs).2)
    | (_, some p) => ([], some p)

theorem drain_buffer {α : Type} {decode : Proto.Blob → List α × Option Panic} {buf : List α} {src : Source} {os : List α}
    {e : Option Panic} {s' : List α × Source} (h : Drain (gnext decode) ([], src) os e s') :
    Drain (gnext decode) (buf, src) (buf ++ os) e s' := by
  induction buf with
  | nil => exact h
  | cons o buf ih => exact .more (gnext_cons _ _ _ _) ih

theorem drain_congr {α σ : Type} {next : σ → Res (Option α) × σ} {s1 s2 : σ} (h : next s1 = next s2) {os : List α}
    {e : Option Panic} {s' : σ} (hd : Drain next s2 os e s') : Drain next s1 os e s' := by
  cases hd with
  | done h' => exact .done (h.trans h')
  | panic h' => exact .panic (h.trans h')
  | more h' hd => exact .more (h.trans h') hd

theorem gnext_skip {α : Type} {decode : Proto.Blob → List α × Option Panic} {src s1 : Source}
    (h : StringPbf.readBlob src = (.ok (some none), s1)) : gnext decode ([], src) = gnext decode ([], s1) := by
  rw [gnext_nil, gnext_nil, getNext_unfold, h]

theorem gnext_blob {α : Type} {decode : Proto.Blob → List α × Option Panic} {src s1 : Source} {b : Proto.Blob} {os : List α}
    (h : StringPbf.readBlob src = (.ok (some (some b)), s1)) (hd : decode b = (os, none)) :
    gnext decode ([], src) = gnext decode (os, s1) := by
  rw [gnext_nil, getNext_unfold, h]
  simp only [hd]

/-- Reading to the end. When the source ends the reader is left with nothing, and when it fails in decoding a blob, with what was decoded. -/
theorem stream_drain {α : Type} (decode : Proto.Blob → List α × Option Panic) {src s' : Source} {bs : List Proto.Blob}
    {e : Option Panic} (h : Stream src bs e s') :
    ∃ t, Drain (gnext decode) ([], src) (runBlobs decode e bs).1 (runBlobs decode e bs).2 t ∧
      ((runBlobs decode e bs).2 = none → t = ([], s')) := by
  induction h with
  | done h =>
    refine ⟨_, .done (s' := ([], _)) ?_, fun _ => rfl⟩
    rw [gnext_nil, getNext_unfold, h]
  | @panic s s' p h =>
    refine ⟨([], s'), .panic ?_, fun h => by cases h⟩
    rw [gnext_nil, getNext_unfold, h]
  | skip h _ ih =>
    obtain ⟨t, h1, h2⟩ := ih
    exact ⟨t, drain_congr (gnext_skip h) h1, h2⟩
  | @blob s s1 s2 b bs e h _ ih =>
    obtain ⟨t, h1, h2⟩ := ih
    rcases hd : decode b with ⟨os, (_ | p)⟩
    · simp only [runBlobs, hd]
      exact ⟨t, drain_congr (gnext_blob h hd) (drain_buffer h1), h2⟩
    · simp only [runBlobs, hd]
      refine ⟨_, .panic (s' := (os, s1)) ?_, nofun⟩
      rw [gnext_nil, getNext_unfold, h]
      simp only [hd]

/-! ## The three readers -/

/-- Two readers whose states correspond. -/
theorem drain_map {α σ τ : Type} {n1 : σ → Res (Option α) × σ} {n2 : τ → Res (Option α) × τ} {φ : σ → τ}
    (h : ∀ s, n2 (φ s) = ((n1 s).1, φ (n1 s).2)) {s s' : σ} {os : List α} {e : Option Panic} (hd : Drain n1 s os e s') :
    Drain n2 (φ s) os e (φ s') := by
  induction hd with
  | done h1 => exact .done (by rw [h, h1])
  | panic h1 => exact .panic (by rw [h, h1])
  | more h1 _ ih => exact .more (by rw [h, h1]) ih

def strState (sa : Bool) (f : StringPbf.ObjectFilter) (s : List StringOSMObj × Source) : StringPbf.PBFReader := ⟨s.2, s.1, sa, f⟩
def arcState (sa : Bool) (s : List ArcOSMObj × Source) : ArcPbf.PBFReader := ⟨s.2, s.1.reverse, sa⟩
def posState (s : List NodePos.NodeIdPos × Source) : NodePos.Reader := ⟨s.2, s.1⟩

def arcDecode (zlib : Proto.Bytes → Option Proto.Bytes) (b : Build) (blob : Proto.Blob) : List ArcOSMObj × Option Panic :=
  match ArcPbf.decodeBlob zlib b blob with
  | .ok os => (os, none)
  | .error p => ([], some p)

theorem str_nextAux (zlib : Proto.Bytes → Option Proto.Bytes) (b : Build) (sa : Bool) (f : StringPbf.ObjectFilter) : ∀ (n : Nat) (s : List StringOSMObj × Source),
    StringPbf.PBFReader.nextAux zlib b n (strState sa f s) =
      ((gnextAux (StringPbf.decodeBlob zlib b f) n s).1, strState sa f (gnextAux (StringPbf.decodeBlob zlib b f) n s).2) := by
  intro n
  induction n with
  | zero =>
    rintro ⟨buf, src⟩
    rw [StringPbf.PBFReader.nextAux.eq_def, gnextAux.eq_def]
    cases buf <;> rfl
  | succ n ih =>
    rintro ⟨buf, src⟩
    cases buf with
    | cons o os => rw [StringPbf.PBFReader.nextAux.eq_def, gnextAux_cons]; rfl
    | nil =>
      rw [StringPbf.PBFReader.nextAux.eq_def, gnextAux_nil]
      simp only [strState]
      rcases h : StringPbf.getNextOsmdataBlob src with ⟨(p | (_ | b)), s1⟩
      · rfl
      · rfl
      · simp only
        rcases hd : StringPbf.decodeBlob zlib _ f b with ⟨os, (_ | p)⟩
        · exact ih (os, s1)
        · rfl

theorem str_next (zlib : Proto.Bytes → Option Proto.Bytes) (b : Build) (sa : Bool) (f : StringPbf.ObjectFilter)
    (s : List StringOSMObj × Source) :
    StringPbf.PBFReader.next zlib b (strState sa f s) =
      ((gnext (StringPbf.decodeBlob zlib b f) s).1, strState sa f (gnext (StringPbf.decodeBlob zlib b f) s).2) :=
  str_nextAux zlib b sa f _ s

theorem arc_nextAux (zlib : Proto.Bytes → Option Proto.Bytes) (b : Build) (sa : Bool) : ∀ (n : Nat) (s : List ArcOSMObj × Source),
    ArcPbf.PBFReader.nextAux zlib b n (arcState sa s) =
      ((gnextAux (arcDecode zlib b) n s).1, arcState sa (gnextAux (arcDecode zlib b) n s).2) := by
  intro n
  induction n with
  | zero =>
    rintro ⟨buf, src⟩
    rw [ArcPbf.PBFReader.nextAux.eq_def, gnextAux.eq_def]
    cases buf <;> simp [arcState]
  | succ n ih =>
    rintro ⟨buf, src⟩
    cases buf with
    | cons o os => rw [ArcPbf.PBFReader.nextAux.eq_def, gnextAux_cons]; simp [arcState]
    | nil =>
      rw [ArcPbf.PBFReader.nextAux.eq_def, gnextAux_nil]
      simp only [arcState, List.reverse_nil, List.getLast?_nil, getNext_eq]
      rcases h : StringPbf.getNextOsmdataBlob src with ⟨(p | (_ | b)), s1⟩
      · rfl
      · rfl
      · simp only [arcDecode]
        rcases hd : ArcPbf.decodeBlob zlib _ b with p | os
        · rfl
        · exact ih (os, s1)

theorem arc_next (zlib : Proto.Bytes → Option Proto.Bytes) (b : Build) (sa : Bool) (s : List ArcOSMObj × Source) :
    ArcPbf.PBFReader.next zlib b (arcState sa s) =
      ((gnext (arcDecode zlib b) s).1, arcState sa (gnext (arcDecode zlib b) s).2) :=
  arc_nextAux zlib b sa _ s

theorem pos_nextAux (zlib : Proto.Bytes → Option Proto.Bytes) (b : Build) : ∀ (n : Nat) (s : List NodePos.NodeIdPos × Source),
    NodePos.Reader.nextAux zlib b n (posState s) =
      ((gnextAux (NodePos.decodeBlob zlib b) n s).1, posState (gnextAux (NodePos.decodeBlob zlib b) n s).2) := by
  intro n
  induction n with
  | zero =>
    rintro ⟨buf, src⟩
    rw [NodePos.Reader.nextAux.eq_def, gnextAux.eq_def]
    cases buf <;> rfl
  | succ n ih =>
    rintro ⟨buf, src⟩
    cases buf with
    | cons o os => rw [NodePos.Reader.nextAux.eq_def, gnextAux_cons]; rfl
    | nil =>
      rw [NodePos.Reader.nextAux.eq_def, gnextAux_nil]
      simp only [posState]
      rcases h : StringPbf.getNextOsmdataBlob src with ⟨(p | (_ | b)), s1⟩
      · rfl
      · rfl
      · simp only
        rcases hd : NodePos.decodeBlob zlib _ b with ⟨os, (_ | p)⟩
        · exact ih (os, s1)
        · rfl

theorem pos_next (zlib : Proto.Bytes → Option Proto.Bytes) (b : Build) (s : List NodePos.NodeIdPos × Source) :
    NodePos.Reader.next zlib b (posState s) =
      ((gnext (NodePos.decodeBlob zlib b) s).1, posState (gnext (NodePos.decodeBlob zlib b) s).2) :=
  pos_nextAux zlib b  _ s

/-- The objects of a blob, for either reader, as they are seen. -/
def blobData (r : Which) (zlib : Proto.Bytes → Option Proto.Bytes) (b : Build) (blob : Proto.Blob) :
    List Spec.ObjData × Option Panic :=
  match r with
  | .owned => ((StringPbf.decodeBlob zlib b (true, true, true) blob).1.map objData, (StringPbf.decodeBlob zlib b (true, true, true) blob).2)
  | .shared => ((arcDecode zlib b blob).1.map objData, (arcDecode zlib b blob).2)

theorem runBlobs_map {α β : Type} (decode : Proto.Blob → List α × Option Panic) (f : α → β) (e : Option Panic) (bs : List Proto.Blob) :
    runBlobs (fun b => ((decode b).1.map f, (decode b).2)) e bs =
      ((runBlobs decode e bs).1.map f, (runBlobs decode e bs).2) := by
  induction bs with
  | nil => rfl
  | cons b bs ih =>
    simp only [runBlobs]
    rcases decode b with ⟨os, (_ | p)⟩
    · simp [ih]
    · rfl

theorem reads_stream {r : Which} {zlib : Proto.Bytes → Option Proto.Bytes} {b : Build} {src s' : Source} {bs : List Proto.Blob}
    {e : Option Panic} (h : Stream src bs e s') :
    Reads r zlib b src (runBlobs (blobData r zlib b) e bs).1 (runBlobs (blobData r zlib b) e bs).2 := by
  cases r with
  | owned =>
    obtain ⟨t, h1, _⟩ := stream_drain (StringPbf.decodeBlob zlib b (true, true, true)) h
    have e1 : runBlobs (blobData .owned zlib b) e bs = _ := runBlobs_map (StringPbf.decodeBlob zlib b (true, true, true)) objData e bs
    rw [e1]
    exact ⟨_, _, drain_map (φ := strState false (true, true, true)) (str_next zlib b _ _) h1, rfl⟩
  | shared =>
    obtain ⟨t, h1, _⟩ := stream_drain (arcDecode zlib b) h
    have e1 : runBlobs (blobData .shared zlib b) e bs = _ := runBlobs_map (arcDecode zlib b) objData e bs
    rw [e1]
    exact ⟨_, _, drain_map (φ := arcState false) (arc_next zlib b _) h1, rfl⟩

theorem readsPositions_stream {zlib : Proto.Bytes → Option Proto.Bytes} {b : Build} {src s' : Source} {bs : List Proto.Blob}
    {e : Option Panic} (h : Stream src bs e s') :
    ReadsPositions zlib b src (runBlobs (NodePos.decodeBlob zlib b) e bs).1 (runBlobs (NodePos.decodeBlob zlib b) e bs).2 := by
  obtain ⟨t, h1, _⟩ := stream_drain (NodePos.decodeBlob zlib b) h
  exact ⟨_, drain_map (φ := posState) (pos_next zlib b) h1⟩

theorem Reads.unique {r : Which} {zlib : Proto.Bytes → Option Proto.Bytes} {b : Build} {src : Source} {ds ds' : List ObjData}
    {e e' : Option Panic} (h : Reads r zlib b src ds e) (h' : Reads r zlib b src ds' e') : ds = ds' ∧ e = e' := by
  cases r with
  | owned =>
    obtain ⟨os, s, h1, rfl⟩ := h
    obtain ⟨os', s', h1', rfl⟩ := h'
    obtain ⟨rfl, rfl, _⟩ := h1.unique h1'
    exact ⟨rfl, rfl⟩
  | shared =>
    obtain ⟨os, s, h1, rfl⟩ := h
    obtain ⟨os', s', h1', rfl⟩ := h'
    obtain ⟨rfl, rfl, _⟩ := h1.unique h1'
    exact ⟨rfl, rfl⟩

theorem reads_iff {r : Which} {zlib : Proto.Bytes → Option Proto.Bytes} {b : Build} {src : Source} {ds : List ObjData}
    {e : Option Panic} : Reads r zlib b src ds e ↔
      ∃ bs e' s', Stream src bs e' s' ∧ runBlobs (blobData r zlib b) e' bs = (ds, e) := by
  constructor
  · intro h
    obtain ⟨bs, e', s', hs⟩ := stream_total src
    obtain ⟨rfl, rfl⟩ := Reads.unique h (reads_stream (r := r) (zlib := zlib) (b := b) hs)
    exact ⟨bs, e', s', hs, rfl⟩
  · rintro ⟨bs, e', s', hs, h⟩
    have := reads_stream (r := r) (zlib := zlib) (b := b) hs
    rw [h] at this
    exact this

end Osmio
