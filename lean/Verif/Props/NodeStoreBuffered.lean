import Verif.Model.NodeStoreBuffered
import Verif.Props.Uncompiled
/-!
# C59 with the buffer of the writer

Whatever the capacity of the `BufWriter`, the file is, once the writer has been dropped, the one of `Model/NodeStore.lean`.
-/

namespace Osmio
namespace NodeStore

theorem writeAt_append (f : List UInt8) (p : Nat) (a c : List UInt8) : writeAt (writeAt f p a) (p + a.length) c = writeAt f p (a ++ c) := by
  obtain ⟨g, hg⟩ : ∃ g, g = f.take p ++ List.replicate (p - f.length) 0 := ⟨_, rfl⟩
  have hl : (g ++ a).length = p + a.length := by rw [hg]; simp; omega
  have e : ∀ x, writeAt f p x = g ++ x ++ f.drop (p + x.length) := fun x => by rw [hg]; rfl
  rw [e, e]
  unfold writeAt
  have h2 : p + a.length - (g ++ a ++ f.drop (p + a.length)).length = 0 := by rw [List.length_append, hl]; omega
  rw [h2, List.take_append_of_le_length (by omega), List.take_of_length_le (by omega), ← List.drop_drop, List.drop_append_of_le_length (by omega),
    List.drop_of_length_le (l := g ++ a) (by omega), List.nil_append, List.drop_drop]
  simp [Nat.add_assoc]

theorem writeAt_end (f c : List UInt8) : writeAt f f.length c = f ++ c := by
  simp [writeAt]

/-- The file as it will be. -/
def BufFile.content (b : BufFile) : List UInt8 := b.flush.file

/-- Where the next byte goes. -/
def BufFile.next (b : BufFile) : Nat := b.pos + b.buf.length

theorem flush_flush (b : BufFile) : b.flush.flush = b.flush ∧ b.flush.buf = [] ∧ b.flush.pos = b.next := by
  unfold BufFile.flush BufFile.next
  split
  · rename_i h; simp [h]
  · simp

theorem put_content (capacity : Nat) (b : BufFile) {bytes : List UInt8} (h0 : bytes ≠ []) :
    (b.put capacity bytes).content = writeAt b.content b.next bytes ∧ (b.put capacity bytes).next = b.next + bytes.length := by
  have hb : 0 < bytes.length := List.length_pos_iff.2 h0
  have app : ∀ b : BufFile, ({ b with buf := b.buf ++ bytes } : BufFile).content = writeAt b.content b.next bytes ∧
      ({ b with buf := b.buf ++ bytes } : BufFile).next = b.next + bytes.length := by
    intro b
    refine ⟨?_, by simp [BufFile.next]; omega⟩
    have hne : b.buf ++ bytes ≠ [] := by simp [h0]
    unfold BufFile.content BufFile.flush BufFile.next
    simp only [hne, if_false]
    split
    · rename_i h; simp [h]
    · exact (writeAt_append _ _ _ _).symm
  have thr : ∀ b : BufFile, b.buf = [] → ({ b with file := writeAt b.file b.pos bytes, pos := b.pos + bytes.length } : BufFile).content = writeAt b.content b.next bytes ∧
      ({ b with file := writeAt b.file b.pos bytes, pos := b.pos + bytes.length } : BufFile).next = b.next + bytes.length := by
    intro b h
    simp [BufFile.content, BufFile.flush, BufFile.next, h]
  have hfl : b.flush.content = b.content ∧ b.flush.next = b.next := by
    obtain ⟨h1, h2, h3⟩ := flush_flush b
    refine ⟨by unfold BufFile.content; rw [h1], ?_⟩
    conv => lhs; unfold BufFile.next
    rw [h2, h3]; simp
  unfold BufFile.put
  split
  · exact app b
  · rename_i hlt
    by_cases hgt : bytes.length > capacity - b.buf.length
    · simp only [hgt, if_true]
      rw [← hfl.1, ← hfl.2]
      split
      · exact thr _ (flush_flush b).2.1
      · exact app _
    · simp only [hgt, if_false]
      split
      · exact thr b (List.length_eq_zero_iff.1 (by omega))
      · exact app b

theorem be32_ne (x : Int32) : be32 x ≠ [] := by simp [be32]

theorem fill_content (capacity : Nat) (n : Nat) (b : BufFile) (h : b.next = b.content.length) :
    (fillBuffered capacity n b).content = fill n b.content := by
  induction n generalizing b with
  | zero => rfl
  | succ n ih =>
    obtain ⟨h1, h2⟩ := put_content capacity b (be32_ne SENTINEL)
    obtain ⟨h3, h4⟩ := put_content capacity (b.put capacity (be32 SENTINEL)) (be32_ne SENTINEL)
    rw [h, writeAt_end] at h1
    rw [h2, h1, h, ← List.length_append, writeAt_end] at h3
    show (fillBuffered capacity n _).content = fill n _
    rw [ih _ (by rw [h4, h2, h3, h]; simp [Nat.add_assoc]), h3]

theorem set_buffered (capacity : Nat) (w : BufferedWriter) (id : Nat) (lat : Lat) (lon : Lon) :
    (w.set capacity id lat lon).map (fun w => (⟨w.maxNodeId, w.fp.content⟩ : Writer)) = (⟨w.maxNodeId, w.fp.content⟩ : Writer).set id lat lon := by
  unfold BufferedWriter.set Writer.set
  split
  · rfl
  · have hs : ∀ b : BufFile, (b.seekStart (id * 8)).content = b.content ∧ (b.seekStart (id * 8)).next = id * 8 := by
      intro b
      obtain ⟨-, h2, -⟩ := flush_flush b
      unfold BufFile.seekStart BufFile.content BufFile.next
      simp only [h2, List.length_nil, Nat.add_zero, and_true]
      rw [BufFile.flush, if_pos rfl]
    have he : ∀ b : BufFile, b.seekEnd.content = b.content ∧ b.seekEnd.next = b.content.length := by
      intro b
      obtain ⟨-, h2, -⟩ := flush_flush b
      unfold BufFile.seekEnd BufFile.content BufFile.next
      simp only [h2, List.length_nil, Nat.add_zero, and_true]
      rw [BufFile.flush, if_pos rfl]
    have key : ∀ b : BufFile, (((b.seekStart (id * 8)).put capacity (be32 lat.inner)).put capacity (be32 lon.inner)).content =
        writeAt b.content (id * 8) (be32 lat.inner ++ be32 lon.inner) := by
      intro b
      obtain ⟨h1, h2⟩ := put_content capacity (b.seekStart (id * 8)) (be32_ne lat.inner)
      obtain ⟨h3, -⟩ := put_content capacity ((b.seekStart (id * 8)).put capacity (be32 lat.inner)) (be32_ne lon.inner)
      rw [h3, h1, h2, (hs b).1, (hs b).2, writeAt_append]
    by_cases hm : w.maxNodeId < id
    · simp only [hm, if_true, Except.map]
      rw [key, fill_content capacity _ _ (by rw [(he w.fp).2, (he w.fp).1]), (he w.fp).1]
    · simp only [hm, if_false, Except.map]
      rw [key]

theorem setAll_buffered (capacity : Nat) (ops : List (Nat × Lat × Lon)) (w : BufferedWriter) :
    (setAllBuffered capacity w ops).map (fun w => (⟨w.maxNodeId, w.fp.content⟩ : Writer)) = setAll ⟨w.maxNodeId, w.fp.content⟩ ops := by
  induction ops generalizing w with
  | nil => rfl
  | cons op ops ih =>
    have h := set_buffered capacity w op.1 op.2.1 op.2.2
    rw [setAll, ← h]
    show (setAllBuffered capacity w ((op.1, op.2.1, op.2.2) :: ops)).map _ = _
    rw [setAllBuffered]
    rcases w.set capacity op.1 op.2.1 op.2.2 with e | w'
    · rfl
    · exact ih w'

theorem setAllBuffered_append (capacity : Nat) (ops : List (Nat × Lat × Lon)) (op : Nat × Lat × Lon) (w : BufferedWriter) :
    setAllBuffered capacity w (ops ++ [op]) = (setAllBuffered capacity w ops).bind fun w => w.set capacity op.1 op.2.1 op.2.2 := by
  induction ops generalizing w with
  | nil =>
    show (w.set capacity op.1 op.2.1 op.2.2).bind _ = w.set capacity op.1 op.2.1 op.2.2
    rcases w.set capacity op.1 op.2.1 op.2.2 with _ | _ <;> rfl
  | cons o os ih =>
    show (w.set capacity o.1 o.2.1 o.2.2).bind _ = ((w.set capacity o.1 o.2.1 o.2.2).bind _).bind _
    rcases w.set capacity o.1 o.2.1 o.2.2 with _ | w'
    · rfl
    · exact ih w'

theorem fill_append (n : Nat) (f : List UInt8) : ∃ g, fill n f = f ++ g := by
  induction n generalizing f with
  | zero => exact ⟨[], by simp [fill]⟩
  | succ n ih =>
    obtain ⟨g, hg⟩ := ih (f ++ be32 SENTINEL ++ be32 SENTINEL)
    exact ⟨be32 SENTINEL ++ (be32 SENTINEL ++ g), by rw [fill, hg]; simp⟩

theorem readI32_append {f : List UInt8} {pos : Nat} {x : Int32} (h : readI32 f pos = .ok x) (g : List UInt8) : readI32 (f ++ g) pos = .ok x := by
  unfold readI32 at h ⊢
  by_cases hl : f.length < pos + 4
  · rw [if_pos hl] at h; cases h
  · rw [if_neg hl] at h
    rw [if_neg (by rw [List.length_append]; omega), List.drop_append_of_le_length (by omega),
      List.take_append_of_le_length (by rw [List.length_drop]; omega)]
    exact h

theorem get_append {b : Build} {f : List UInt8} {id : UInt64} {r : Option (Lat × Lon)} (h : get b f id = .ok r) (g : List UInt8) :
    get b (f ++ g) id = .ok r := by
  unfold get at h ⊢
  rcases hp : position b id with _ | pos
  · rw [hp] at h; cases h
  · rw [hp] at h
    change readEntry f pos = .ok r at h
    show readEntry (f ++ g) pos = .ok r
    unfold readEntry at h ⊢
    rcases h1 : readI32 f pos with _ | a
    · rw [h1] at h; cases h
    · rcases h2 : readI32 f (pos + 4) with _ | c
      · rw [h1, h2] at h; cases h
      · rw [readI32_append h1, readI32_append h2]
        rw [h1, h2] at h
        exact h

theorem put_short {capacity : Nat} (b : BufFile) {bytes : List UInt8} (h : b.buf.length + bytes.length ≤ capacity) (h2 : bytes.length < capacity) :
    b.put capacity bytes = { b with buf := b.buf ++ bytes } := by
  unfold BufFile.put
  split
  · rfl
  · have h3 : ¬ bytes.length > capacity - b.buf.length := by omega
    have h4 : ¬ bytes.length ≥ capacity := by omega
    simp only [h3, h4, if_false]

theorem set_file {capacity : Nat} (hc : 8 ≤ capacity) {w w' : BufferedWriter} {id : Nat} {lat : Lat} {lon : Lon}
    (h : w.set capacity id lat lon = .ok w') : w'.fp.file = fill (id - w.maxNodeId) w.dropped := by
  have hl : ∀ x, (be32 x).length = 4 := fun _ => rfl
  have key : ∀ b : BufFile, (((b.seekStart (id * 8)).put capacity (be32 lat.inner)).put capacity (be32 lon.inner)).file = b.content := by
    intro b
    have h2 : (b.seekStart (id * 8)).buf = [] := (flush_flush b).2.1
    rw [put_short (b.seekStart (id * 8)) (by rw [h2, hl]; simp; omega) (by rw [hl]; omega), put_short _ (by rw [h2]; simp [hl]; omega) (by rw [hl]; omega)]
    rfl
  unfold BufferedWriter.set at h
  split at h
  · cases h
  · injection h with h
    rw [← h]
    simp only
    rw [key]
    split
    · obtain ⟨-, h2, -⟩ := flush_flush w.fp
      have e : w.fp.seekEnd.content = w.dropped ∧ w.fp.seekEnd.next = w.dropped.length := by
        unfold BufFile.seekEnd BufFile.content BufFile.next BufferedWriter.dropped
        simp only [h2, List.length_nil, Nat.add_zero, and_true]
        rw [BufFile.flush, if_pos rfl]
      rw [fill_content capacity _ _ (by rw [e.1, e.2]), e.1]
    · rename_i hm
      rw [Nat.sub_eq_zero_of_le (by omega)]
      rfl

theorem killed_inv {capacity : Nat} (hc : 8 ≤ capacity) {ops : List (Nat × Lat × Lon)} {last : Nat × Lat × Lon}
    (hid : ∀ op ∈ ops ++ [last], op.1 < 2 ^ 60 - 1) :
    ∃ w w0 es, setAllBuffered capacity .create (ops ++ [last]) = .ok w ∧ Inv ops w0 es ∧
      w.fp.file = (es ++ List.replicate (last.1 - w0.maxNodeId) (SENTINEL, SENTINEL)).flatMap entry := by
  obtain ⟨w0, es, h0, inv⟩ := inv_create.setAll (ops := ops) fun op ho => hid op (List.mem_append_left _ ho)
  rw [List.nil_append] at inv
  have hb := setAll_buffered capacity ops .create
  have e : (⟨BufferedWriter.create.maxNodeId, BufferedWriter.create.fp.content⟩ : Writer) = .create := rfl
  rw [e, h0] at hb
  have ha := setAllBuffered_append capacity ops last .create
  rcases hw : setAllBuffered capacity .create ops with _ | w
  · rw [hw] at hb; cases hb
  · rw [hw] at hb ha
    change _ = w.set capacity last.1 last.2.1 last.2.2 at ha
    have hb : (⟨w.maxNodeId, w.dropped⟩ : Writer) = w0 := by injection hb
    have hl := hid last (by simp)
    rcases hw' : w.set capacity last.1 last.2.1 last.2.2 with e | w'
    · unfold BufferedWriter.set at hw'
      rw [if_neg (by omega)] at hw'
      cases hw'
    · refine ⟨w', w0, es, by rw [ha, hw'], inv, ?_⟩
      rw [set_file hc hw', ← fill_entries, ← inv.file, ← hb]

end NodeStore

/-- **C59**, the buffer of the writer. Whatever its capacity: the same calls of `set` work or panic as without a buffer, and the file is the same once the writer has been dropped. -/
theorem C59_buffered (capacity : Nat) (ops : List (Nat × Lat × Lon)) :
    (NodeStore.setAllBuffered capacity .create ops).map (·.dropped) = (NodeStore.setAll .create ops).map (·.file) := by
  have h := NodeStore.setAll_buffered capacity ops .create
  have e : (⟨NodeStore.BufferedWriter.create.maxNodeId, NodeStore.BufferedWriter.create.fp.content⟩ : NodeStore.Writer) = .create := rfl
  rw [e] at h
  rw [← h]
  rcases NodeStore.setAllBuffered capacity .create ops with _ | w <;> rfl

/-- **C59**, `C59_partial` with the buffer. -/
theorem C59_buffered_partial (capacity : Nat) (b : Build) {ops : List (Nat × Lat × Lon)} (hid : ∀ op ∈ ops, op.1 < 2 ^ 60 - 1)
    (hs : ∀ op ∈ ops, op.2.1.inner ≠ 2147483647 ∧ op.2.2.inner ≠ 2147483647) :
    ∃ w, NodeStore.setAllBuffered capacity .create ops = .ok w ∧
      ∀ id, (∃ op ∈ ops, id.toNat ≤ op.1) → NodeStore.get b w.dropped id = .ok (Spec.lastSet ops id.toNat) := by
  obtain ⟨w, hw, h⟩ := C59_partial b hid hs
  have e := C59_buffered capacity ops
  rw [hw] at e
  rcases hb : NodeStore.setAllBuffered capacity .create ops with _ | w'
  · rw [hb] at e; cases e
  · rw [hb] at e
    have e : w'.dropped = w.file := by simpa [Except.map] using e
    exact ⟨w', rfl, fun id hi => by rw [e]; exact h id hi⟩

/-- A buffer of six bytes: entries are split over it. -/
example : ∃ w, NodeStore.setAllBuffered 6 .create [(3, ⟨1⟩, ⟨2⟩), (0, ⟨5⟩, ⟨-6⟩), (3, ⟨7⟩, ⟨8⟩)] = .ok w ∧
    NodeStore.get .debug w.dropped 3 = .ok (some (⟨7⟩, ⟨8⟩)) ∧ NodeStore.get .debug w.dropped 1 = .ok none := by
  obtain ⟨w, hw, h⟩ := C59_buffered_partial 6 .debug (ops := [(3, ⟨1⟩, ⟨2⟩), (0, ⟨5⟩, ⟨-6⟩), (3, ⟨7⟩, ⟨8⟩)]) (by decide) (by decide)
  exact ⟨w, hw, h 3 ⟨(3, ⟨1⟩, ⟨2⟩), by simp, by decide⟩, h 1 ⟨(3, ⟨1⟩, ⟨2⟩), by simp, by decide⟩⟩

/-- **C59**, when the process is killed before the writer is dropped. With a buffer of 8 bytes or more (that of `BufWriter::new` has 8192), the file has all but the last call of `set`, for
ids up to the largest one set before it. -/
theorem C59_killed_partial {capacity : Nat} (hc : 8 ≤ capacity) (b : Build) {ops : List (Nat × Lat × Lon)} (last : Nat × Lat × Lon)
    (hid : ∀ op ∈ ops ++ [last], op.1 < 2 ^ 60 - 1) (hs : ∀ op ∈ ops, op.2.1.inner ≠ 2147483647 ∧ op.2.2.inner ≠ 2147483647) :
    ∃ w, NodeStore.setAllBuffered capacity .create (ops ++ [last]) = .ok w ∧
      ∀ id, (∃ op ∈ ops, id.toNat ≤ op.1) → NodeStore.get b w.fp.file id = .ok (Spec.lastSet ops id.toNat) := by
  obtain ⟨w, hw, h⟩ := C59_buffered_partial capacity b (ops := ops) (fun op ho => hid op (List.mem_append_left _ ho)) hs
  have ha := NodeStore.setAllBuffered_append capacity ops last .create
  rw [hw] at ha
  change _ = w.set capacity last.1 last.2.1 last.2.2 at ha
  have hl := hid last (by simp)
  rcases hw' : w.set capacity last.1 last.2.1 last.2.2 with e | w'
  · unfold NodeStore.BufferedWriter.set at hw'
    rw [if_neg (by omega)] at hw'
    cases hw'
  · obtain ⟨g, hg⟩ := NodeStore.fill_append (last.1 - w.maxNodeId) w.dropped
    rw [← NodeStore.set_file hc hw'] at hg
    exact ⟨w', by rw [ha, hw'], fun id hi => by rw [hg]; exact NodeStore.get_append (h id hi) g⟩

/-- The buffer of `BufWriter::new`: the second position of node 3 is not yet in the file, the first one is. -/
example : ∃ w, NodeStore.setAllBuffered 8192 .create [(3, ⟨1⟩, ⟨2⟩), (0, ⟨5⟩, ⟨-6⟩), (3, ⟨7⟩, ⟨8⟩)] = .ok w ∧
    NodeStore.get .debug w.fp.file 3 = .ok (some (⟨1⟩, ⟨2⟩)) ∧ NodeStore.get .debug w.fp.file 0 = .ok (some (⟨5⟩, ⟨-6⟩)) := by
  obtain ⟨w, hw, h⟩ := C59_killed_partial (capacity := 8192) (by decide) .debug (ops := [(3, ⟨1⟩, ⟨2⟩), (0, ⟨5⟩, ⟨-6⟩)]) (3, ⟨7⟩, ⟨8⟩) (by decide) (by decide)
  exact ⟨w, hw, h 3 ⟨(3, ⟨1⟩, ⟨2⟩), by simp, by decide⟩, h 0 ⟨(3, ⟨1⟩, ⟨2⟩), by simp, by decide⟩⟩

/-- **C59**, the same for ids above: between the largest id set before the last call and the id of that call, the file has empty entries. -/
theorem C59_killed_above {capacity : Nat} (hc : 8 ≤ capacity) (b : Build) {ops : List (Nat × Lat × Lon)} (last : Nat × Lat × Lon) (h0 : ops ≠ [])
    (hid : ∀ op ∈ ops ++ [last], op.1 < 2 ^ 60 - 1) :
    ∃ w, NodeStore.setAllBuffered capacity .create (ops ++ [last]) = .ok w ∧
      ∀ id, (∀ op ∈ ops, op.1 < id.toNat) → id.toNat ≤ last.1 → NodeStore.get b w.fp.file id = .ok none := by
  obtain ⟨w, w0, es, hw, inv, hf⟩ := NodeStore.killed_inv hc hid
  refine ⟨w, hw, fun id hi hle => ?_⟩
  have hl := hid last (by simp)
  rcases inv.len with ⟨h, _⟩ | ⟨hlen, op, hop, hm⟩
  · exact absurd h h0
  · have hgt := hi op hop
    rw [NodeStore.get_small b _ (by omega), hf]
    obtain ⟨k, hk⟩ : ∃ k, id.toNat = es.length + k := ⟨id.toNat - es.length, by omega⟩
    obtain ⟨m, hm'⟩ : ∃ m, last.1 - w0.maxNodeId = k + (m + 1) := ⟨last.1 - w0.maxNodeId - k - 1, by omega⟩
    have := NodeStore.get_entry (es ++ List.replicate k (NodeStore.SENTINEL, NodeStore.SENTINEL)) (List.replicate m (NodeStore.SENTINEL, NodeStore.SENTINEL))
      (NodeStore.SENTINEL, NodeStore.SENTINEL) (id := id.toNat) (by simp [hk])
    rw [hm', List.replicate_add, List.replicate_succ, ← List.append_assoc, this]
    simp

/-- **C59**, the same after the only call: its entry is not in the file, and asking for it panics. -/
theorem C59_killed_first {capacity : Nat} (hc : 8 ≤ capacity) (b : Build) {id : UInt64} (hid : id.toNat < 2 ^ 60 - 1) (lat : Lat) (lon : Lon) :
    ∃ w, NodeStore.setAllBuffered capacity .create [(id.toNat, lat, lon)] = .ok w ∧ NodeStore.get b w.fp.file id = .error .unwrap := by
  obtain ⟨w, w0, es, hw, inv, hf⟩ := NodeStore.killed_inv hc (ops := []) (last := (id.toNat, lat, lon)) (by simpa using hid)
  refine ⟨w, hw, ?_⟩
  rw [NodeStore.get_small b _ (by omega), hf]
  apply NodeStore.get_past
  rcases inv.len with ⟨_, h, h'⟩ | ⟨_, op, hop, _⟩
  · simp [h, h']
  · simp at hop

example : ∃ w, NodeStore.setAllBuffered 8192 .create [(3, ⟨1⟩, ⟨2⟩), (6, ⟨5⟩, ⟨-6⟩)] = .ok w ∧
    NodeStore.get .debug w.fp.file 6 = .ok none ∧ NodeStore.get .debug w.fp.file 5 = .ok none := by
  obtain ⟨w, hw, h⟩ := C59_killed_above (capacity := 8192) (by decide) .debug (ops := [(3, ⟨1⟩, ⟨2⟩)]) (6, ⟨5⟩, ⟨-6⟩) (by simp) (by decide)
  exact ⟨w, hw, h 6 (by decide) (by decide), h 5 (by decide) (by decide)⟩

example : ∃ w, NodeStore.setAllBuffered 8192 .create [((3 : UInt64).toNat, ⟨1⟩, ⟨2⟩)] = .ok w ∧ NodeStore.get .debug w.fp.file 3 = .error .unwrap :=
  C59_killed_first (by decide) .debug (id := 3) (by decide) _ _

end Osmio
