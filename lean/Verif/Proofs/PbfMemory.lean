import Verif.Spec.PbfMemory
import Verif.Proofs.PbfFrames
/-! # Proofs: the memory asked for in reading PBF -/

namespace Osmio.Spec.Pbf

theorem asked_eq (src : Source) : ArcPbf.asked src = StringPbf.asked src := by
  unfold ArcPbf.asked StringPbf.asked
  rcases h1 : readExact 4 src with ⟨_ | size, s1⟩
  · rfl
  · simp only
    rcases h2 : readExact (fromBe size) s1 with ⟨_ | hb, s2⟩
    · rfl
    · simp only
      cases h3 : Proto.BlobHeader.parseFromBytes hb with
      | none => rfl
      | some h =>
        obtain ⟨t, n, ht, hn⟩ := isInitialized_of_parse h3
        simp only [hn, Option.getD_some]

theorem askedForBlob_eq (n : Nat) (src : Source) : ArcPbf.askedForBlob n src = StringPbf.askedForBlob n src := by
  induction n generalizing src with
  | zero => rfl
  | succ n ih =>
    simp only [ArcPbf.askedForBlob, StringPbf.askedForBlob, readBlob_eq, asked_eq]
    rcases StringPbf.readBlob src with ⟨(_ | (_ | (_ | _))), s⟩ <;> simp [ih]

/-! ## The readers as one -/

/-- What the three readers ask for: `rd` in reading, `dec` in decoding. -/
def glogAux {α : Type} (rd : Source → List Nat) (dec : Proto.Blob → List Nat) (decode : Proto.Blob → List α × Option Panic) :
    Nat → List α × Source → List Nat
  | n, (buf, src) =>
    match buf with
    | _ :: _ => []
    | [] =>
      match n with
      | 0 => []
      | n + 1 =>
        rd src ++
          match StringPbf.getNextOsmdataBlob src with
          | (.ok (some blob), src) =>
            dec blob ++
              match decode blob with
              | (_, some _) => []
              | (os, none) => glogAux rd dec decode n (os, src)
          | _ => []

def glog {α : Type} (rd : Source → List Nat) (dec : Proto.Blob → List Nat) (decode : Proto.Blob → List α × Option Panic)
    (s : List α × Source) : List Nat := glogAux rd dec decode (s.2.length + 1) s

def readLog (src : Source) : List Nat := StringPbf.askedForBlob (src.length + 1) src

theorem glogAux_cons {α : Type} (rd : Source → List Nat) (dec : Proto.Blob → List Nat) (decode : Proto.Blob → List α × Option Panic)
    (n : Nat) (o : α) (os : List α) (src : Source) : glogAux rd dec decode n (o :: os, src) = [] := by
  rw [glogAux.eq_def]

theorem glogAux_nil {α : Type} (rd : Source → List Nat) (dec : Proto.Blob → List Nat) (decode : Proto.Blob → List α × Option Panic)
    (n : Nat) (src : Source) :
    glogAux rd dec decode (n + 1) ([], src) =
        rd src ++
          match StringPbf.getNextOsmdataBlob src with
          | (.ok (some blob), src) =>
            dec blob ++
              match decode blob with
              | (_, some _) => []
              | (os, none) => glogAux rd dec decode n (os, src)
          | _ => [] := by
  rw [glogAux.eq_def]

theorem str_askedAux (zlib : Proto.Bytes → Option Proto.Bytes) (b : Build) (sa : Bool) (f : StringPbf.ObjectFilter) :
    ∀ (n : Nat) (s : List StringOSMObj × Source),
      StringPbf.PBFReader.askedAux zlib b n (strState sa f s) = glogAux readLog (fun _ => []) (StringPbf.decodeBlob zlib b f) n s := by
  intro n
  induction n with
  | zero =>
    rintro ⟨buf, src⟩
    rw [StringPbf.PBFReader.askedAux.eq_def, glogAux.eq_def]
    cases buf <;> rfl
  | succ n ih =>
    rintro ⟨buf, src⟩
    cases buf with
    | cons o os => rw [StringPbf.PBFReader.askedAux.eq_def, glogAux_cons]; rfl
    | nil =>
      rw [StringPbf.PBFReader.askedAux.eq_def, glogAux_nil]
      simp only [strState]
      rcases h : StringPbf.getNextOsmdataBlob src with ⟨(p | (_ | b)), s1⟩
      · rfl
      · rfl
      · simp only [List.nil_append]
        rcases hd : StringPbf.decodeBlob zlib _ f b with ⟨os, (_ | p)⟩
        · exact congrArg _ (ih (os, s1))
        · rfl

theorem pos_askedAux (zlib : Proto.Bytes → Option Proto.Bytes) (b : Build) :
    ∀ (n : Nat) (s : List NodePos.NodeIdPos × Source),
      NodePos.Reader.askedAux zlib b n (posState s) = glogAux readLog (fun _ => []) (NodePos.decodeBlob zlib b) n s := by
  intro n
  induction n with
  | zero =>
    rintro ⟨buf, src⟩
    rw [NodePos.Reader.askedAux.eq_def, glogAux.eq_def]
    cases buf <;> rfl
  | succ n ih =>
    rintro ⟨buf, src⟩
    cases buf with
    | cons o os => rw [NodePos.Reader.askedAux.eq_def, glogAux_cons]; rfl
    | nil =>
      rw [NodePos.Reader.askedAux.eq_def, glogAux_nil]
      simp only [posState]
      rcases h : StringPbf.getNextOsmdataBlob src with ⟨(p | (_ | b)), s1⟩
      · rfl
      · rfl
      · simp only [List.nil_append]
        rcases hd : NodePos.decodeBlob zlib _ b with ⟨os, (_ | p)⟩
        · exact congrArg _ (ih (os, s1))
        · rfl

theorem arc_askedAux (zlib : Proto.Bytes → Option Proto.Bytes) (b : Build) (sa : Bool) :
    ∀ (n : Nat) (s : List ArcOSMObj × Source),
      ArcPbf.PBFReader.askedAux zlib b n (arcState sa s) = glogAux readLog (fun _ => []) (arcDecode zlib b) n s := by
  intro n
  induction n with
  | zero =>
    rintro ⟨buf, src⟩
    rw [ArcPbf.PBFReader.askedAux.eq_def, glogAux.eq_def]
    cases buf <;> simp [arcState]
  | succ n ih =>
    rintro ⟨buf, src⟩
    cases buf with
    | cons o os => rw [ArcPbf.PBFReader.askedAux.eq_def, glogAux_cons]; simp [arcState]
    | nil =>
      rw [ArcPbf.PBFReader.askedAux.eq_def, glogAux_nil]
      simp only [arcState, List.reverse_nil, List.getLast?_nil, getNext_eq, askedForBlob_eq]
      rcases h : StringPbf.getNextOsmdataBlob src with ⟨(p | (_ | b)), s1⟩
      · rfl
      · rfl
      · simp only [List.nil_append, arcDecode]
        rcases hd : ArcPbf.decodeBlob zlib _ b with p | os
        · rfl
        · exact congrArg _ (ih (os, s1))

theorem arc_reservedAux (zlib : Proto.Bytes → Option Proto.Bytes) (b : Build) (sa : Bool) :
    ∀ (n : Nat) (s : List ArcOSMObj × Source),
      ArcPbf.PBFReader.reservedAux zlib b n (arcState sa s) = glogAux (fun _ => []) ArcPbf.reservedFor (arcDecode zlib b) n s := by
  intro n
  induction n with
  | zero =>
    rintro ⟨buf, src⟩
    rw [ArcPbf.PBFReader.reservedAux.eq_def, glogAux.eq_def]
    cases buf <;> simp [arcState]
  | succ n ih =>
    rintro ⟨buf, src⟩
    cases buf with
    | cons o os => rw [ArcPbf.PBFReader.reservedAux.eq_def, glogAux_cons]; simp [arcState]
    | nil =>
      rw [ArcPbf.PBFReader.reservedAux.eq_def, glogAux_nil]
      simp only [arcState, List.reverse_nil, List.getLast?_nil, getNext_eq, List.nil_append]
      rcases h : StringPbf.getNextOsmdataBlob src with ⟨(p | (_ | b)), s1⟩
      · rfl
      · rfl
      · simp only [arcDecode]
        rcases hd : ArcPbf.decodeBlob zlib _ b with p | os
        · rfl
        · exact congrArg _ (ih (os, s1))

/-- Readers whose states correspond ask for the same. -/
theorem askedIn_map {α σ τ : Type} {n1 : σ → Res (Option α) × σ} {n2 : τ → Res (Option α) × τ} {a1 : σ → List Nat} {a2 : τ → List Nat}
    {φ : σ → τ} (h : ∀ s, n2 (φ s) = ((n1 s).1, φ (n1 s).2)) (ha : ∀ s, a2 (φ s) = a1 s) (k : Nat) (s : σ) :
    askedIn n2 a2 k (φ s) = askedIn n1 a1 k s := by
  induction k generalizing s with
  | zero => rfl
  | succ k ih => simp only [askedIn, ha, h, ih]

/-! ## A relation between what there is, what is asked for and what is left -/

structure Logs (Q : Source → List Nat → Source → Prop) : Prop where
  nil : ∀ s, Q s [] s
  trans : ∀ {s a s1 c s2}, Q s a s1 → Q s1 c s2 → Q s (a ++ c) s2

theorem logs_gnextAux {α : Type} {Q : Source → List Nat → Source → Prop} (hQ : Logs Q) {rd : Source → List Nat}
    {dec : Proto.Blob → List Nat} (decode : Proto.Blob → List α × Option Panic)
    (hs : ∀ src, (∀ blob s1, StringPbf.getNextOsmdataBlob src = (.ok (some blob), s1) → Q src (rd src ++ dec blob) s1) ∧
      (∀ s1, (∃ p, StringPbf.getNextOsmdataBlob src = (.error p, s1)) ∨ StringPbf.getNextOsmdataBlob src = (.ok none, s1) → Q src (rd src) s1))
    (n : Nat) (s : List α × Source) : Q s.2 (glogAux rd dec decode n s) (gnextAux decode n s).2.2 := by
  induction n generalizing s with
  | zero =>
    obtain ⟨buf, src⟩ := s
    rw [glogAux.eq_def, gnextAux.eq_def]
    cases buf <;> exact hQ.nil _
  | succ n ih =>
    obtain ⟨buf, src⟩ := s
    cases buf with
    | cons o os => rw [glogAux_cons, gnextAux_cons]; exact hQ.nil _
    | nil =>
      rw [glogAux_nil, gnextAux_nil]
      rcases h : StringPbf.getNextOsmdataBlob src with ⟨(p | (_ | b)), s1⟩
      · simp only [List.append_nil]; exact (hs src).2 _ (.inl ⟨p, h⟩)
      · simp only [List.append_nil]; exact (hs src).2 _ (.inr h)
      · simp only
        have h1 := (hs src).1 _ _ h
        rcases hd : decode b with ⟨os, (_ | p)⟩
        · simp only [← List.append_assoc]
          exact hQ.trans h1 (ih (os, s1))
        · simpa only [List.append_nil] using h1

theorem logs_calls {σ α : Type} {Q : Source → List Nat → Source → Prop} (hQ : Logs Q) {next : σ → Res (Option α) × σ} {asked : σ → List Nat}
    {src : σ → Source} (h : ∀ r, Q (src r) (asked r) (src (next r).2)) (k : Nat) (r : σ) :
    Q (src r) (askedIn next asked k r) (src (calls next k r).2) := by
  induction k generalizing r with
  | zero => exact hQ.nil _
  | succ k ih => exact hQ.trans (h r) (ih _)

/-- For what is asked for in reading a round is enough. -/
theorem logs_getNext {Q : Source → List Nat → Source → Prop} (hQ : Logs Q)
    (h : ∀ src, Q src (StringPbf.asked src) (StringPbf.readBlob src).2) (src : Source) :
    Q src (readLog src) (StringPbf.getNextOsmdataBlob src).2 := by
  unfold readLog StringPbf.getNextOsmdataBlob
  generalize src.length + 1 = n
  induction n generalizing src with
  | zero => exact hQ.nil _
  | succ n ih =>
    have h0 := h src
    simp only [StringPbf.askedForBlob, StringPbf.getNextOsmdataBlobAux]
    rcases h1 : StringPbf.readBlob src with ⟨(p | (_ | (_ | b))), s1⟩ <;> rw [h1] at h0
    · simpa using h0
    · simpa using h0
    · exact hQ.trans h0 (ih s1)
    · simpa using h0

theorem logs_reading {Q : Source → List Nat → Source → Prop} (hQ : Logs Q)
    (h : ∀ src, Q src (StringPbf.asked src) (StringPbf.readBlob src).2) (zlib : Proto.Bytes → Option Proto.Bytes) (b : Build) (k : Nat) :
    (∀ r, Q r.src (askedIn (StringPbf.PBFReader.next zlib b) (StringPbf.PBFReader.asked zlib b) k r)
        (calls (StringPbf.PBFReader.next zlib b) k r).2.src) ∧
    (∀ r, Q r.src (askedIn (ArcPbf.PBFReader.next zlib b) (ArcPbf.PBFReader.asked zlib b) k r)
        (calls (ArcPbf.PBFReader.next zlib b) k r).2.src) ∧
    (∀ r, Q r.src (askedIn (NodePos.Reader.next zlib b) (NodePos.Reader.asked zlib b) k r)
        (calls (NodePos.Reader.next zlib b) k r).2.src) := by
  have hs : ∀ src, (∀ blob s1, StringPbf.getNextOsmdataBlob src = (.ok (some blob), s1) → Q src (readLog src ++ (fun _ => []) blob) s1) ∧
      (∀ s1, (∃ p, StringPbf.getNextOsmdataBlob src = (.error p, s1)) ∨ StringPbf.getNextOsmdataBlob src = (.ok none, s1) →
        Q src (readLog src) s1) := by
    intro src
    have h0 := logs_getNext hQ h src
    refine ⟨fun blob s1 h1 => ?_, fun s1 h1 => ?_⟩
    · rw [h1] at h0; simpa using h0
    · rcases h1 with ⟨p, h1⟩ | h1 <;> (rw [h1] at h0; exact h0)
  refine ⟨logs_calls hQ (src := StringPbf.PBFReader.src) (fun r => ?_) k, logs_calls hQ (src := ArcPbf.PBFReader.src) (fun r => ?_) k,
    logs_calls hQ (src := NodePos.Reader.src) (fun r => ?_) k⟩
  · have h1 := logs_gnextAux hQ (StringPbf.decodeBlob zlib b r.filter) hs (r.src.length + 1) (r.buffer, r.src)
    rw [← str_askedAux zlib b r.sortedAssumption] at h1
    have h2 := str_nextAux zlib b r.sortedAssumption r.filter (r.src.length + 1) (r.buffer, r.src)
    have h3 := congrArg (fun x => x.2.src) h2
    simp only [strState] at h3 h1
    rw [← h3] at h1
    exact h1
  · have h1 := logs_gnextAux hQ (arcDecode zlib b) hs (r.src.length + 1) (r.buffer.reverse, r.src)
    rw [← arc_askedAux zlib b r.sortedAssumption] at h1
    have h2 := arc_nextAux zlib b r.sortedAssumption (r.src.length + 1) (r.buffer.reverse, r.src)
    have h3 := congrArg (fun x => x.2.src) h2
    simp only [arcState, List.reverse_reverse] at h3 h1
    rw [← h3] at h1
    exact h1
  · have h1 := logs_gnextAux hQ (NodePos.decodeBlob zlib b) hs (r.src.length + 1) (r.buffer, r.src)
    rw [← pos_askedAux zlib b] at h1
    have h2 := pos_nextAux zlib b (r.src.length + 1) (r.buffer, r.src)
    have h3 := congrArg (fun x => x.2.src) h2
    simp only [posState] at h3 h1
    rw [← h3] at h1
    exact h1

/-! ## Any bytes -/

def Bounded (n : Nat) (asks : List Nat) (m : Nat) : Prop :=
  m ≤ n ∧ (n = 0 → asks = []) ∧
    (asks.sum + m ≤ n ∨ ∃ l y, asks = l ++ [y] ∧ l.sum ≤ n ∧ y < 4294967296 ∧ m = 0)

def BoundedOn (s : Source) (asks : List Nat) (s' : Source) : Prop :=
  ∀ bs, s = source bs → ∃ rest, s' = source rest ∧ Bounded bs.length asks rest.length

theorem boundedOn_logs : Logs BoundedOn where
  nil s := by
    rintro bs rfl
    exact ⟨bs, rfl, Nat.le_refl _, fun _ => rfl, .inl (by simp)⟩
  trans := by
    rintro s a s1 c s2 h1 h2 bs rfl
    obtain ⟨r1, rfl, l1, z1, b1⟩ := h1 bs rfl
    obtain ⟨r2, rfl, l2, z2, b2⟩ := h2 r1 rfl
    refine ⟨r2, rfl, by omega, fun hz => by rw [z1 hz, z2 (by omega)]; rfl, ?_⟩
    rcases b1 with b1 | ⟨l, y, rfl, b1, hy, hr⟩
    · rcases b2 with b2 | ⟨l, y, rfl, b2, hy, hr⟩
      · left
        rw [List.sum_append]
        omega
      · right
        refine ⟨a ++ l, y, by rw [List.append_assoc], ?_, hy, hr⟩
        rw [List.sum_append]
        omega
    · right
      rw [z2 hr, List.append_nil]
      exact ⟨l, y, rfl, b1, hy, by omega⟩

theorem fromBe_lt {l : List UInt8} (h : l.length = 4) : fromBe l < 4294967296 := by
  match l, h with
  | [a, b, c, d], _ =>
    simp only [fromBe, List.foldl]
    have := a.toNat_lt
    have := b.toNat_lt
    have := c.toNat_lt
    have := d.toNat_lt
    omega

theorem readExact_bytes (n : Nat) (l : List UInt8) :
    (l.length < n ∧ readExact n (source l) = (none, [])) ∨
      ∃ x l', l = x ++ l' ∧ x.length = n ∧ readExact n (source l) = (some x, source l') := by
  by_cases h : l.length < n
  · exact .inl ⟨h, readExact_short h⟩
  · refine .inr ⟨l.take n, l.drop n, (List.take_append_drop n l).symm, by simp; omega, ?_⟩
    conv_lhs => rw [← List.take_append_drop n l, source_append]
    have := readExact_source (l.take n) (source (l.drop n))
    rwa [List.length_take, Nat.min_eq_left (by omega)] at this

theorem boundedOn_round (src : Source) : BoundedOn src (StringPbf.asked src) (StringPbf.readBlob src).2 := by
  rintro bs rfl
  unfold StringPbf.asked StringPbf.readBlob
  rcases readExact_bytes 4 bs with ⟨_, h1⟩ | ⟨size, l1, rfl, hl, h1⟩
  · rw [h1]
    exact ⟨[], rfl, by simp, fun _ => rfl, .inl (by simp)⟩
  · rw [h1]
    simp only
    have h0 : ¬(size ++ l1).length = 0 := by rw [List.length_append]; omega
    rcases readExact_bytes (fromBe size) l1 with ⟨_, h2⟩ | ⟨hb, l2, rfl, hl2, h2⟩
    · rw [h2]
      exact ⟨[], rfl, by simp, fun h => absurd h h0, .inr ⟨[], _, rfl, by simp, fromBe_lt hl, rfl⟩⟩
    · rw [h2]
      simp only
      cases h3 : Proto.BlobHeader.parseFromBytes hb with
      | none => exact ⟨l2, rfl, by simp; omega, fun h => absurd h h0, .inl (by simp; omega)⟩
      | some hd =>
        simp only
        split
        · exact ⟨l2, rfl, by simp; omega, fun h => absurd h h0, .inl (by simp; omega)⟩
        · have hn : (hd.datasize.getD 0).toInt.toNat < 4294967296 := by
            have := (hd.datasize.getD 0).toInt_lt
            omega
          rcases readExact_bytes (hd.datasize.getD 0).toInt.toNat l2 with ⟨_, h4⟩ | ⟨bb, l3, rfl, hl3, h4⟩
          · rw [h4]
            exact ⟨[], rfl, by simp, fun h => absurd h h0, .inr ⟨[fromBe size], _, rfl, by simp; omega, hn, rfl⟩⟩
          · rw [h4]
            have key : Bounded (size ++ (hb ++ (bb ++ l3))).length [fromBe size, (hd.datasize.getD 0).toInt.toNat] l3.length :=
              ⟨by simp only [List.length_append]; omega, fun h => absurd h h0,
                .inl (by simp only [List.length_append, List.sum_cons, List.sum_nil]; omega)⟩
            simp only
            split
            · exact ⟨l3, rfl, key⟩
            · split
              · exact ⟨l3, rfl, key⟩
              · split <;> exact ⟨l3, rfl, key⟩

theorem Bounded.filled {n m : Nat} {asks : List Nat} (h : Bounded n asks m) : FilledButLast n asks := by
  obtain ⟨_, _, h | ⟨l, y, rfl, h, hy, _⟩⟩ := h
  · exact ⟨asks, [], by simp, by omega, .inl rfl⟩
  · exact ⟨l, [y], rfl, h, .inr ⟨y, rfl, hy⟩⟩

/-! ## Files of frames -/

theorem asked_frame {f : Frame} {h : Proto.BlobHeader} (hf : Framed f h) (rest : Source) :
    StringPbf.asked (source f.bytes ++ rest) = [f.header.length, f.data.length] := by
  obtain ⟨h1, h2, n, h3, hn⟩ := hf
  have e : source f.bytes ++ rest = source (be32 f.header.length) ++ (source f.header ++ (source f.data ++ rest)) := by
    simp [Frame.bytes, source_append]
  have r1 : readExact 4 (source f.bytes ++ rest) = (some (be32 f.header.length), source f.header ++ (source f.data ++ rest)) := by
    rw [e]; exact readExact_source (be32 f.header.length) _
  unfold StringPbf.asked
  rw [r1]
  simp only [fromBe_be32 h1, readExact_source, h2, h3, Option.getD_some]
  rw [if_neg (by omega), hn]
  rfl

theorem readBlob_frame_rest {f : Frame} {h : Proto.BlobHeader} (hf : Framed f h) (rest : Source) :
    (StringPbf.readBlob (source f.bytes ++ rest)).2 = rest := by
  rw [readBlob_frame hf]
  split
  · split <;> rfl
  · rfl

def FramesOn (s : Source) (asks : List Nat) (s' : Source) : Prop :=
  ∀ fs tail, (∀ f ∈ fs, ∃ h, Framed f h) → tail.length < 4 → s = source (fileBytes fs ++ tail) →
    ∃ m tail', tail'.length < 4 ∧ asks = buffersOf (fs.take m) ∧ s' = source (fileBytes (fs.drop m) ++ tail')

theorem framesOn_logs : Logs FramesOn where
  nil s := by
    rintro fs tail _ h rfl
    exact ⟨0, tail, h, rfl, rfl⟩
  trans := by
    rintro s a s1 c s2 h1 h2 fs tail hf ht rfl
    obtain ⟨m1, t1, k1, rfl, rfl⟩ := h1 fs tail hf ht rfl
    obtain ⟨m2, t2, k2, rfl, rfl⟩ := h2 (fs.drop m1) t1 (fun f h => hf f (List.mem_of_mem_drop h)) k1 rfl
    refine ⟨m1 + m2, t2, k2, ?_, ?_⟩
    · rw [List.take_add]; simp [buffersOf]
    · rw [List.drop_drop]

theorem framesOn_round (src : Source) : FramesOn src (StringPbf.asked src) (StringPbf.readBlob src).2 := by
  rintro fs tail hf ht rfl
  cases fs with
  | nil =>
    refine ⟨0, [], by simp, ?_, ?_⟩
    · show StringPbf.asked (source tail) = _
      unfold StringPbf.asked
      rw [readExact_short ht]
      rfl
    · show (StringPbf.readBlob (source tail)).2 = _
      rw [readBlob_short ht]
      rfl
  | cons f fs =>
    obtain ⟨h, h1⟩ := hf f (by simp)
    have e : source (fileBytes (f :: fs) ++ tail) = source f.bytes ++ source (fileBytes fs ++ tail) := by
      simp [fileBytes, source_append]
    refine ⟨1, tail, ht, ?_, ?_⟩
    · rw [e, asked_frame h1]
      rfl
    · rw [e, readBlob_frame_rest h1]
      rfl

theorem buffersOf_sum (fs : List Frame) : (buffersOf fs).sum + 4 * fs.length = (fileBytes fs).length := by
  induction fs with
  | nil => rfl
  | cons f fs ih =>
    have e1 : buffersOf (f :: fs) = [f.header.length, f.data.length] ++ buffersOf fs := rfl
    have e2 : fileBytes (f :: fs) = f.bytes ++ fileBytes fs := rfl
    have e3 : f.bytes.length = 4 + (f.header.length + f.data.length) := by
      rw [Frame.bytes, List.length_append, List.length_append, be32_length]
    rw [e1, e2, List.sum_append, List.length_append, List.length_cons, e3, ← ih]
    simp only [List.sum_cons, List.sum_nil]
    omega

/-! ## What is reserved -/

def SizesOn (zlib : Proto.Bytes → Option Proto.Bytes) (s : Source) (asks : List Nat) (s' : Source) : Prop :=
  ∀ fs szs tail, List.Forall₂ (FrameSize zlib) fs szs → tail.length < 4 → s = source (fileBytes fs ++ tail) →
    ∃ m tail', tail'.length < 4 ∧ asks = (szs.take m).flatten ∧ s' = source (fileBytes (fs.drop m) ++ tail')

theorem sizesOn_logs (zlib : Proto.Bytes → Option Proto.Bytes) : Logs (SizesOn zlib) where
  nil s := by
    rintro fs szs tail _ h rfl
    exact ⟨0, tail, h, rfl, rfl⟩
  trans := by
    rintro s a s1 c s2 h1 h2 fs szs tail hf ht rfl
    obtain ⟨m1, t1, k1, rfl, rfl⟩ := h1 fs szs tail hf ht rfl
    obtain ⟨m2, t2, k2, rfl, rfl⟩ := h2 (fs.drop m1) (szs.drop m1) t1 (List.forall₂_drop m1 hf) k1 rfl
    refine ⟨m1 + m2, t2, k2, ?_, ?_⟩
    · rw [List.take_add]; simp
    · rw [List.drop_drop]

theorem reservedFor_zlib {zlib : Proto.Bytes → Option Proto.Bytes} {blob : Proto.Blob} {data : Proto.Bytes}
    (h : ZlibStored zlib blob data) : ArcPbf.reservedFor blob = [data.length] := by
  obtain ⟨z, n, h1, h2, h3, h4, h5⟩ := h
  unfold ArcPbf.reservedFor
  simp only [h1, h2, h4]
  rw [if_neg (by omega), h5]
  rfl

theorem sizesOn_getNext {zlib : Proto.Bytes → Option Proto.Bytes} {fs : List Frame} {szs : List (List Nat)} {tail : Proto.Bytes}
    (hf : List.Forall₂ (FrameSize zlib) fs szs) (ht : tail.length < 4) :
    (∀ blob s1, StringPbf.getNextOsmdataBlob (source (fileBytes fs ++ tail)) = (.ok (some blob), s1) →
      ∃ m tail', tail'.length < 4 ∧ ArcPbf.reservedFor blob = (szs.take m).flatten ∧ s1 = source (fileBytes (fs.drop m) ++ tail')) ∧
    (∀ s1, (∃ p, StringPbf.getNextOsmdataBlob (source (fileBytes fs ++ tail)) = (.error p, s1)) ∨
        StringPbf.getNextOsmdataBlob (source (fileBytes fs ++ tail)) = (.ok none, s1) →
      ∃ m tail', tail'.length < 4 ∧ [] = (szs.take m).flatten ∧ s1 = source (fileBytes (fs.drop m) ++ tail')) := by
  induction hf with
  | nil =>
    have e : StringPbf.getNextOsmdataBlob (source (fileBytes [] ++ tail)) = (.ok none, []) := by
      show StringPbf.getNextOsmdataBlob (source tail) = _
      rw [getNext_unfold, readBlob_short ht]
    rw [e]
    refine ⟨(by intro _ _ h; cases h), ?_⟩
    rintro s1 (⟨p, h⟩ | h) <;> cases h
    exact ⟨0, [], by simp, rfl, rfl⟩
  | @cons f sz fs szs h1 _ ih =>
    have e : source (fileBytes (f :: fs) ++ tail) = source f.bytes ++ source (fileBytes fs ++ tail) := by
      simp [fileBytes, source_append]
    rw [e, getNext_unfold]
    cases h1 with
    | other hd h1 h2 =>
      rw [readBlob_frame h1, if_neg h2]
      refine ⟨fun blob s1 h => ?_, fun s1 h => ?_⟩
      · obtain ⟨m, t, k1, k2, k3⟩ := ih.1 blob s1 h
        exact ⟨m + 1, t, k1, k2, k3⟩
      · obtain ⟨m, t, k1, k2, k3⟩ := ih.2 s1 h
        exact ⟨m + 1, t, k1, k2, k3⟩
    | data hd blob data h1 h2 h3 h4 =>
      rw [readBlob_frame h1, if_pos h2, h3]
      refine ⟨fun blob' s1 h => ?_, fun s1 h => ?_⟩
      · cases h
        exact ⟨1, tail, ht, by simp [reservedFor_zlib h4], rfl⟩
      · rcases h with ⟨p, h⟩ | h <;> cases h

theorem sizesOn_calls (zlib : Proto.Bytes → Option Proto.Bytes) (b : Build) (k : Nat) (r : ArcPbf.PBFReader) :
    SizesOn zlib r.src (askedIn (ArcPbf.PBFReader.next zlib b) (ArcPbf.PBFReader.reserved zlib b) k r)
      (calls (ArcPbf.PBFReader.next zlib b) k r).2.src := by
  refine logs_calls (sizesOn_logs zlib) (src := ArcPbf.PBFReader.src) (fun r => ?_) k r
  have h1 := logs_gnextAux (rd := fun _ => []) (dec := ArcPbf.reservedFor) (sizesOn_logs zlib) (arcDecode zlib b) (fun src => ⟨?_, ?_⟩)
    (r.src.length + 1) (r.buffer.reverse, r.src)
  · rw [← arc_reservedAux zlib b r.sortedAssumption] at h1
    have h2 := arc_nextAux zlib b r.sortedAssumption (r.src.length + 1) (r.buffer.reverse, r.src)
    have h3 := congrArg (fun x => x.2.src) h2
    simp only [arcState, List.reverse_reverse] at h3 h1
    rw [← h3] at h1
    exact h1
  · rintro blob s1 h fs szs tail hf ht rfl
    exact (sizesOn_getNext hf ht).1 blob s1 h
  · rintro s1 h fs szs tail hf ht rfl
    exact (sizesOn_getNext hf ht).2 s1 h

end Osmio.Spec.Pbf
