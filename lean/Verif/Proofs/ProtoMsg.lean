import Verif.Proofs.ProtoSize
/-! # Each message is what its encoding parses to (generated by `tools/genproto.py`) -/

namespace Osmio.Proto

theorem BlobHeader.parse_write (m : BlobHeader) (h : m.write.length ≤ 2147483647) : parse BlobHeader.merge {} m.write = some m := by
  obtain ⟨type_, indexdata, datasize⟩ := m
  simp only [BlobHeader.write, List.length_append] at h ⊢
  refine Steps.parse ?_
  refine Steps.trans (m' := ({ type_ := type_ } : BlobHeader)) ?_ ?_
  · have hi : (writeOpt type_ (fun v => writeLen 1 (Utf8.encode v))).length ≤ 2147483647 := by omega
    clear h
    refine Steps.opt (fun e => by subst e; rfl) (fun v e => ?_)
    subst e
    have hb : (Utf8.encode v).length ≤ 2147483647 := by
      have := writeLen_length 1 (Utf8.encode v)
      simp only [writeOpt] at hi
      omega
    exact Steps.len (k := 1) (by simp [BlobHeader.merge, Field.string, Field.bytes, Utf8.decode_encode]) (by decide) hb
  refine Steps.trans (m' := ({ type_ := type_, indexdata := indexdata } : BlobHeader)) ?_ ?_
  · have hi : (writeOpt indexdata (fun v => writeLen 2 v)).length ≤ 2147483647 := by omega
    clear h
    refine Steps.opt (fun e => by subst e; rfl) (fun v e => ?_)
    subst e
    have hb : (v).length ≤ 2147483647 := by
      have := writeLen_length 2 (v)
      simp only [writeOpt] at hi
      omega
    exact Steps.len (k := 2) (by simp [BlobHeader.merge, Field.bytes]) (by decide) hb
  · have hi : (writeOpt datasize (fun v => writeNum 3 (encInt32 v))).length ≤ 2147483647 := by omega
    clear h
    refine Steps.opt (fun e => by subst e; rfl) (fun v e => ?_)
    subst e
    exact Steps.num (k := 3) (by simp [BlobHeader.merge, Field.num, Field.varint, asInt32_enc]) (by decide) (encInt32_lt v)

theorem BlobHeader.parse_writeToBytes {m : BlobHeader} {bs : Bytes} (h : m.writeToBytes = some bs) : BlobHeader.parseFromBytes bs = some m := by
  unfold BlobHeader.writeToBytes at h
  split at h
  · rename_i h'
    cases h
    unfold BlobHeader.parseFromBytes
    rw [BlobHeader.parse_write m (by omega)]
    simp [h'.1]
  · cases h

theorem Blob.parse_write (m : Blob) (h : m.write.length ≤ 2147483647) : parse Blob.merge {} m.write = some m := by
  obtain ⟨raw, rawSize, zlibData, lzmaData, obsoleteBzip2Data⟩ := m
  simp only [Blob.write, List.length_append] at h ⊢
  refine Steps.parse ?_
  refine Steps.trans (m' := ({ raw := raw } : Blob)) ?_ ?_
  · have hi : (writeOpt raw (fun v => writeLen 1 v)).length ≤ 2147483647 := by omega
    clear h
    refine Steps.opt (fun e => by subst e; rfl) (fun v e => ?_)
    subst e
    have hb : (v).length ≤ 2147483647 := by
      have := writeLen_length 1 (v)
      simp only [writeOpt] at hi
      omega
    exact Steps.len (k := 1) (by simp [Blob.merge, Field.bytes]) (by decide) hb
  refine Steps.trans (m' := ({ raw := raw, rawSize := rawSize } : Blob)) ?_ ?_
  · have hi : (writeOpt rawSize (fun v => writeNum 2 (encInt32 v))).length ≤ 2147483647 := by omega
    clear h
    refine Steps.opt (fun e => by subst e; rfl) (fun v e => ?_)
    subst e
    exact Steps.num (k := 2) (by simp [Blob.merge, Field.num, Field.varint, asInt32_enc]) (by decide) (encInt32_lt v)
  refine Steps.trans (m' := ({ raw := raw, rawSize := rawSize, zlibData := zlibData } : Blob)) ?_ ?_
  · have hi : (writeOpt zlibData (fun v => writeLen 3 v)).length ≤ 2147483647 := by omega
    clear h
    refine Steps.opt (fun e => by subst e; rfl) (fun v e => ?_)
    subst e
    have hb : (v).length ≤ 2147483647 := by
      have := writeLen_length 3 (v)
      simp only [writeOpt] at hi
      omega
    exact Steps.len (k := 3) (by simp [Blob.merge, Field.bytes]) (by decide) hb
  refine Steps.trans (m' := ({ raw := raw, rawSize := rawSize, zlibData := zlibData, lzmaData := lzmaData } : Blob)) ?_ ?_
  · have hi : (writeOpt lzmaData (fun v => writeLen 4 v)).length ≤ 2147483647 := by omega
    clear h
    refine Steps.opt (fun e => by subst e; rfl) (fun v e => ?_)
    subst e
    have hb : (v).length ≤ 2147483647 := by
      have := writeLen_length 4 (v)
      simp only [writeOpt] at hi
      omega
    exact Steps.len (k := 4) (by simp [Blob.merge, Field.bytes]) (by decide) hb
  · have hi : (writeOpt obsoleteBzip2Data (fun v => writeLen 5 v)).length ≤ 2147483647 := by omega
    clear h
    refine Steps.opt (fun e => by subst e; rfl) (fun v e => ?_)
    subst e
    have hb : (v).length ≤ 2147483647 := by
      have := writeLen_length 5 (v)
      simp only [writeOpt] at hi
      omega
    exact Steps.len (k := 5) (by simp [Blob.merge, Field.bytes]) (by decide) hb

theorem Blob.parse_writeToBytes {m : Blob} {bs : Bytes} (h : m.writeToBytes = some bs) : Blob.parseFromBytes bs = some m := by
  unfold Blob.writeToBytes at h
  split at h
  · rename_i h'
    cases h
    unfold Blob.parseFromBytes
    rw [Blob.parse_write m (by omega)]
    simp [h'.1]
  · cases h

theorem HeaderBBox.parse_write (m : HeaderBBox) (h : m.write.length ≤ 2147483647) : parse HeaderBBox.merge {} m.write = some m := by
  obtain ⟨left, right, top, bottom⟩ := m
  simp only [HeaderBBox.write, List.length_append] at h ⊢
  refine Steps.parse ?_
  refine Steps.trans (m' := ({ left := left } : HeaderBBox)) ?_ ?_
  · have hi : (writeOpt left (fun v => writeNum 1 (encSint64 v))).length ≤ 2147483647 := by omega
    clear h
    refine Steps.opt (fun e => by subst e; rfl) (fun v e => ?_)
    subst e
    exact Steps.num (k := 1) (by simp [HeaderBBox.merge, Field.num, Field.varint, zigZag64_enc]) (by decide) (encSint64_lt v)
  refine Steps.trans (m' := ({ left := left, right := right } : HeaderBBox)) ?_ ?_
  · have hi : (writeOpt right (fun v => writeNum 2 (encSint64 v))).length ≤ 2147483647 := by omega
    clear h
    refine Steps.opt (fun e => by subst e; rfl) (fun v e => ?_)
    subst e
    exact Steps.num (k := 2) (by simp [HeaderBBox.merge, Field.num, Field.varint, zigZag64_enc]) (by decide) (encSint64_lt v)
  refine Steps.trans (m' := ({ left := left, right := right, top := top } : HeaderBBox)) ?_ ?_
  · have hi : (writeOpt top (fun v => writeNum 3 (encSint64 v))).length ≤ 2147483647 := by omega
    clear h
    refine Steps.opt (fun e => by subst e; rfl) (fun v e => ?_)
    subst e
    exact Steps.num (k := 3) (by simp [HeaderBBox.merge, Field.num, Field.varint, zigZag64_enc]) (by decide) (encSint64_lt v)
  · have hi : (writeOpt bottom (fun v => writeNum 4 (encSint64 v))).length ≤ 2147483647 := by omega
    clear h
    refine Steps.opt (fun e => by subst e; rfl) (fun v e => ?_)
    subst e
    exact Steps.num (k := 4) (by simp [HeaderBBox.merge, Field.num, Field.varint, zigZag64_enc]) (by decide) (encSint64_lt v)

theorem HeaderBBox.parse_writeToBytes {m : HeaderBBox} {bs : Bytes} (h : m.writeToBytes = some bs) : HeaderBBox.parseFromBytes bs = some m := by
  unfold HeaderBBox.writeToBytes at h
  split at h
  · rename_i h'
    cases h
    unfold HeaderBBox.parseFromBytes
    rw [HeaderBBox.parse_write m (by omega)]
    simp [h'.1]
  · cases h

theorem HeaderBlock.parse_write (m : HeaderBlock) (h : m.write.length ≤ 2147483647) : parse HeaderBlock.merge {} m.write = some m := by
  obtain ⟨bbox, requiredFeatures, optionalFeatures, writingprogram, source, osmosisReplicationTimestamp, osmosisReplicationSequenceNumber, osmosisReplicationBaseUrl⟩ := m
  simp only [HeaderBlock.write, List.length_append] at h ⊢
  refine Steps.parse ?_
  refine Steps.trans (m' := ({ bbox := bbox } : HeaderBlock)) ?_ ?_
  · have hi : (writeOpt bbox (fun v => writeMessage 1 v.computeSize v.write)).length ≤ 2147483647 := by omega
    clear h
    refine Steps.opt (fun e => by subst e; rfl) (fun v e => ?_)
    subst e
    have hb : (v.write).length ≤ 2147483647 := by
      have := writeMessage_length 1 v.computeSize v.write
      simp only [writeOpt] at hi
      omega
    rw [writeMessage_eq (HeaderBBox.size_eq v (Or.inr (by omega)))]
    exact Steps.len (k := 1) (by simp [HeaderBlock.merge, Field.message, Field.bytes, HeaderBBox.parse_write v hb]) (by decide) hb
  refine Steps.trans (m' := ({ bbox := bbox, requiredFeatures := requiredFeatures } : HeaderBlock)) ?_ ?_
  · have hi : (requiredFeatures.flatMap (fun v => writeLen 4 (Utf8.encode v))).length ≤ 2147483647 := by omega
    clear h
    refine Steps.rep (put := fun l => ({ bbox := bbox, requiredFeatures := l } : HeaderBlock)) (fun l' v hv => ?_)
    have hb : (Utf8.encode v).length ≤ 2147483647 := by
      have h1 := writeLen_length 4 (Utf8.encode v)
      have h2 := flatMap_length_le (w := fun v => writeLen 4 (Utf8.encode v)) hv
      omega
    exact Steps.len (k := 4) (by simp [HeaderBlock.merge, Field.string, Field.bytes, Utf8.decode_encode]) (by decide) hb
  refine Steps.trans (m' := ({ bbox := bbox, requiredFeatures := requiredFeatures, optionalFeatures := optionalFeatures } : HeaderBlock)) ?_ ?_
  · have hi : (optionalFeatures.flatMap (fun v => writeLen 5 (Utf8.encode v))).length ≤ 2147483647 := by omega
    clear h
    refine Steps.rep (put := fun l => ({ bbox := bbox, requiredFeatures := requiredFeatures, optionalFeatures := l } : HeaderBlock)) (fun l' v hv => ?_)
    have hb : (Utf8.encode v).length ≤ 2147483647 := by
      have h1 := writeLen_length 5 (Utf8.encode v)
      have h2 := flatMap_length_le (w := fun v => writeLen 5 (Utf8.encode v)) hv
      omega
    exact Steps.len (k := 5) (by simp [HeaderBlock.merge, Field.string, Field.bytes, Utf8.decode_encode]) (by decide) hb
  refine Steps.trans (m' := ({ bbox := bbox, requiredFeatures := requiredFeatures, optionalFeatures := optionalFeatures, writingprogram := writingprogram } : HeaderBlock)) ?_ ?_
  · have hi : (writeOpt writingprogram (fun v => writeLen 16 (Utf8.encode v))).length ≤ 2147483647 := by omega
    clear h
    refine Steps.opt (fun e => by subst e; rfl) (fun v e => ?_)
    subst e
    have hb : (Utf8.encode v).length ≤ 2147483647 := by
      have := writeLen_length 16 (Utf8.encode v)
      simp only [writeOpt] at hi
      omega
    exact Steps.len (k := 16) (by simp [HeaderBlock.merge, Field.string, Field.bytes, Utf8.decode_encode]) (by decide) hb
  refine Steps.trans (m' := ({ bbox := bbox, requiredFeatures := requiredFeatures, optionalFeatures := optionalFeatures, writingprogram := writingprogram, source := source } : HeaderBlock)) ?_ ?_
  · have hi : (writeOpt source (fun v => writeLen 17 (Utf8.encode v))).length ≤ 2147483647 := by omega
    clear h
    refine Steps.opt (fun e => by subst e; rfl) (fun v e => ?_)
    subst e
    have hb : (Utf8.encode v).length ≤ 2147483647 := by
      have := writeLen_length 17 (Utf8.encode v)
      simp only [writeOpt] at hi
      omega
    exact Steps.len (k := 17) (by simp [HeaderBlock.merge, Field.string, Field.bytes, Utf8.decode_encode]) (by decide) hb
  refine Steps.trans (m' := ({ bbox := bbox, requiredFeatures := requiredFeatures, optionalFeatures := optionalFeatures, writingprogram := writingprogram, source := source, osmosisReplicationTimestamp := osmosisReplicationTimestamp } : HeaderBlock)) ?_ ?_
  · have hi : (writeOpt osmosisReplicationTimestamp (fun v => writeNum 32 (encInt64 v))).length ≤ 2147483647 := by omega
    clear h
    refine Steps.opt (fun e => by subst e; rfl) (fun v e => ?_)
    subst e
    exact Steps.num (k := 32) (by simp [HeaderBlock.merge, Field.num, Field.varint, asInt64_enc]) (by decide) (encInt64_lt v)
  refine Steps.trans (m' := ({ bbox := bbox, requiredFeatures := requiredFeatures, optionalFeatures := optionalFeatures, writingprogram := writingprogram, source := source, osmosisReplicationTimestamp := osmosisReplicationTimestamp, osmosisReplicationSequenceNumber := osmosisReplicationSequenceNumber } : HeaderBlock)) ?_ ?_
  · have hi : (writeOpt osmosisReplicationSequenceNumber (fun v => writeNum 33 (encInt64 v))).length ≤ 2147483647 := by omega
    clear h
    refine Steps.opt (fun e => by subst e; rfl) (fun v e => ?_)
    subst e
    exact Steps.num (k := 33) (by simp [HeaderBlock.merge, Field.num, Field.varint, asInt64_enc]) (by decide) (encInt64_lt v)
  · have hi : (writeOpt osmosisReplicationBaseUrl (fun v => writeLen 34 (Utf8.encode v))).length ≤ 2147483647 := by omega
    clear h
    refine Steps.opt (fun e => by subst e; rfl) (fun v e => ?_)
    subst e
    have hb : (Utf8.encode v).length ≤ 2147483647 := by
      have := writeLen_length 34 (Utf8.encode v)
      simp only [writeOpt] at hi
      omega
    exact Steps.len (k := 34) (by simp [HeaderBlock.merge, Field.string, Field.bytes, Utf8.decode_encode]) (by decide) hb

theorem HeaderBlock.parse_writeToBytes {m : HeaderBlock} {bs : Bytes} (h : m.writeToBytes = some bs) : HeaderBlock.parseFromBytes bs = some m := by
  unfold HeaderBlock.writeToBytes at h
  split at h
  · rename_i h'
    cases h
    unfold HeaderBlock.parseFromBytes
    rw [HeaderBlock.parse_write m (by omega)]
    simp [h'.1]
  · cases h

theorem StringTable.parse_write (m : StringTable) (h : m.write.length ≤ 2147483647) : parse StringTable.merge {} m.write = some m := by
  obtain ⟨s⟩ := m
  simp only [StringTable.write, List.length_append] at h ⊢
  refine Steps.parse ?_
  · have hi : (s.flatMap (fun v => writeLen 1 v)).length ≤ 2147483647 := by omega
    clear h
    refine Steps.rep (put := fun l => ({ s := l } : StringTable)) (fun l' v hv => ?_)
    have hb : (v).length ≤ 2147483647 := by
      have h1 := writeLen_length 1 (v)
      have h2 := flatMap_length_le (w := fun v => writeLen 1 (v)) hv
      omega
    exact Steps.len (k := 1) (by simp [StringTable.merge, Field.bytes]) (by decide) hb

theorem StringTable.parse_writeToBytes {m : StringTable} {bs : Bytes} (h : m.writeToBytes = some bs) : StringTable.parseFromBytes bs = some m := by
  unfold StringTable.writeToBytes at h
  split at h
  · rename_i h'
    cases h
    unfold StringTable.parseFromBytes
    rw [StringTable.parse_write m (by omega)]
    simp [h'.1]
  · cases h

theorem Info.parse_write (m : Info) (h : m.write.length ≤ 2147483647) : parse Info.merge {} m.write = some m := by
  obtain ⟨version, timestamp, changeset, uid, userSid, visible⟩ := m
  simp only [Info.write, List.length_append] at h ⊢
  refine Steps.parse ?_
  refine Steps.trans (m' := ({ version := version } : Info)) ?_ ?_
  · have hi : (writeOpt version (fun v => writeNum 1 (encInt32 v))).length ≤ 2147483647 := by omega
    clear h
    refine Steps.opt (fun e => by subst e; rfl) (fun v e => ?_)
    subst e
    exact Steps.num (k := 1) (by simp [Info.merge, Field.num, Field.varint, asInt32_enc]) (by decide) (encInt32_lt v)
  refine Steps.trans (m' := ({ version := version, timestamp := timestamp } : Info)) ?_ ?_
  · have hi : (writeOpt timestamp (fun v => writeNum 2 (encInt64 v))).length ≤ 2147483647 := by omega
    clear h
    refine Steps.opt (fun e => by subst e; rfl) (fun v e => ?_)
    subst e
    exact Steps.num (k := 2) (by simp [Info.merge, Field.num, Field.varint, asInt64_enc]) (by decide) (encInt64_lt v)
  refine Steps.trans (m' := ({ version := version, timestamp := timestamp, changeset := changeset } : Info)) ?_ ?_
  · have hi : (writeOpt changeset (fun v => writeNum 3 (encInt64 v))).length ≤ 2147483647 := by omega
    clear h
    refine Steps.opt (fun e => by subst e; rfl) (fun v e => ?_)
    subst e
    exact Steps.num (k := 3) (by simp [Info.merge, Field.num, Field.varint, asInt64_enc]) (by decide) (encInt64_lt v)
  refine Steps.trans (m' := ({ version := version, timestamp := timestamp, changeset := changeset, uid := uid } : Info)) ?_ ?_
  · have hi : (writeOpt uid (fun v => writeNum 4 (encInt32 v))).length ≤ 2147483647 := by omega
    clear h
    refine Steps.opt (fun e => by subst e; rfl) (fun v e => ?_)
    subst e
    exact Steps.num (k := 4) (by simp [Info.merge, Field.num, Field.varint, asInt32_enc]) (by decide) (encInt32_lt v)
  refine Steps.trans (m' := ({ version := version, timestamp := timestamp, changeset := changeset, uid := uid, userSid := userSid } : Info)) ?_ ?_
  · have hi : (writeOpt userSid (fun v => writeNum 5 (encUInt32 v))).length ≤ 2147483647 := by omega
    clear h
    refine Steps.opt (fun e => by subst e; rfl) (fun v e => ?_)
    subst e
    exact Steps.num (k := 5) (by simp [Info.merge, Field.num, Field.varint, asUInt32_enc]) (by decide) (encUInt32_lt v)
  · have hi : (writeOpt visible (fun v => writeNum 6 (encBool v))).length ≤ 2147483647 := by omega
    clear h
    refine Steps.opt (fun e => by subst e; rfl) (fun v e => ?_)
    subst e
    exact Steps.num (k := 6) (by simp [Info.merge, Field.num, Field.varint, asBool_enc]) (by decide) (encBool_lt v)

theorem Info.parse_writeToBytes {m : Info} {bs : Bytes} (h : m.writeToBytes = some bs) : Info.parseFromBytes bs = some m := by
  unfold Info.writeToBytes at h
  split at h
  · rename_i h'
    cases h
    unfold Info.parseFromBytes
    rw [Info.parse_write m (by omega)]
    simp [h'.1]
  · cases h

theorem Node.parse_write (m : Node) (h : m.write.length ≤ 2147483647) : parse Node.merge {} m.write = some m := by
  obtain ⟨id, keys, vals, info, lat, lon⟩ := m
  simp only [Node.write, List.length_append] at h ⊢
  refine Steps.parse ?_
  refine Steps.trans (m' := ({ id := id } : Node)) ?_ ?_
  · have hi : (writeOpt id (fun v => writeNum 1 (encSint64 v))).length ≤ 2147483647 := by omega
    clear h
    refine Steps.opt (fun e => by subst e; rfl) (fun v e => ?_)
    subst e
    exact Steps.num (k := 1) (by simp [Node.merge, Field.num, Field.varint, zigZag64_enc]) (by decide) (encSint64_lt v)
  refine Steps.trans (m' := ({ id := id, keys := keys } : Node)) ?_ ?_
  · have hi : (writePacked 2 encUInt32 keys).length ≤ 2147483647 := by omega
    clear h
    exact Steps.packed asUInt32_enc encUInt32_lt (fun e => by subst e; rfl) (fun bs hb => by simp [Node.merge, Field.packed, Field.bytes, hb]) (by decide) hi
  refine Steps.trans (m' := ({ id := id, keys := keys, vals := vals } : Node)) ?_ ?_
  · have hi : (writePacked 3 encUInt32 vals).length ≤ 2147483647 := by omega
    clear h
    exact Steps.packed asUInt32_enc encUInt32_lt (fun e => by subst e; rfl) (fun bs hb => by simp [Node.merge, Field.packed, Field.bytes, hb]) (by decide) hi
  refine Steps.trans (m' := ({ id := id, keys := keys, vals := vals, info := info } : Node)) ?_ ?_
  · have hi : (writeOpt info (fun v => writeMessage 4 v.computeSize v.write)).length ≤ 2147483647 := by omega
    clear h
    refine Steps.opt (fun e => by subst e; rfl) (fun v e => ?_)
    subst e
    have hb : (v.write).length ≤ 2147483647 := by
      have := writeMessage_length 4 v.computeSize v.write
      simp only [writeOpt] at hi
      omega
    rw [writeMessage_eq (Info.size_eq v (Or.inr (by omega)))]
    exact Steps.len (k := 4) (by simp [Node.merge, Field.message, Field.bytes, Info.parse_write v hb]) (by decide) hb
  refine Steps.trans (m' := ({ id := id, keys := keys, vals := vals, info := info, lat := lat } : Node)) ?_ ?_
  · have hi : (writeOpt lat (fun v => writeNum 8 (encSint64 v))).length ≤ 2147483647 := by omega
    clear h
    refine Steps.opt (fun e => by subst e; rfl) (fun v e => ?_)
    subst e
    exact Steps.num (k := 8) (by simp [Node.merge, Field.num, Field.varint, zigZag64_enc]) (by decide) (encSint64_lt v)
  · have hi : (writeOpt lon (fun v => writeNum 9 (encSint64 v))).length ≤ 2147483647 := by omega
    clear h
    refine Steps.opt (fun e => by subst e; rfl) (fun v e => ?_)
    subst e
    exact Steps.num (k := 9) (by simp [Node.merge, Field.num, Field.varint, zigZag64_enc]) (by decide) (encSint64_lt v)

theorem Node.parse_writeToBytes {m : Node} {bs : Bytes} (h : m.writeToBytes = some bs) : Node.parseFromBytes bs = some m := by
  unfold Node.writeToBytes at h
  split at h
  · rename_i h'
    cases h
    unfold Node.parseFromBytes
    rw [Node.parse_write m (by omega)]
    simp [h'.1]
  · cases h

theorem DenseInfo.parse_write (m : DenseInfo) (h : m.write.length ≤ 2147483647) : parse DenseInfo.merge {} m.write = some m := by
  obtain ⟨version, timestamp, changeset, uid, userSid, visible⟩ := m
  simp only [DenseInfo.write, List.length_append] at h ⊢
  refine Steps.parse ?_
  refine Steps.trans (m' := ({ version := version } : DenseInfo)) ?_ ?_
  · have hi : (writePacked 1 encInt32 version).length ≤ 2147483647 := by omega
    clear h
    exact Steps.packed asInt32_enc encInt32_lt (fun e => by subst e; rfl) (fun bs hb => by simp [DenseInfo.merge, Field.packed, Field.bytes, hb]) (by decide) hi
  refine Steps.trans (m' := ({ version := version, timestamp := timestamp } : DenseInfo)) ?_ ?_
  · have hi : (writePacked 2 encSint64 timestamp).length ≤ 2147483647 := by omega
    clear h
    exact Steps.packed zigZag64_enc encSint64_lt (fun e => by subst e; rfl) (fun bs hb => by simp [DenseInfo.merge, Field.packed, Field.bytes, hb]) (by decide) hi
  refine Steps.trans (m' := ({ version := version, timestamp := timestamp, changeset := changeset } : DenseInfo)) ?_ ?_
  · have hi : (writePacked 3 encSint64 changeset).length ≤ 2147483647 := by omega
    clear h
    exact Steps.packed zigZag64_enc encSint64_lt (fun e => by subst e; rfl) (fun bs hb => by simp [DenseInfo.merge, Field.packed, Field.bytes, hb]) (by decide) hi
  refine Steps.trans (m' := ({ version := version, timestamp := timestamp, changeset := changeset, uid := uid } : DenseInfo)) ?_ ?_
  · have hi : (writePacked 4 encSint32 uid).length ≤ 2147483647 := by omega
    clear h
    exact Steps.packed zigZag32_enc encSint32_lt (fun e => by subst e; rfl) (fun bs hb => by simp [DenseInfo.merge, Field.packed, Field.bytes, hb]) (by decide) hi
  refine Steps.trans (m' := ({ version := version, timestamp := timestamp, changeset := changeset, uid := uid, userSid := userSid } : DenseInfo)) ?_ ?_
  · have hi : (writePacked 5 encSint32 userSid).length ≤ 2147483647 := by omega
    clear h
    exact Steps.packed zigZag32_enc encSint32_lt (fun e => by subst e; rfl) (fun bs hb => by simp [DenseInfo.merge, Field.packed, Field.bytes, hb]) (by decide) hi
  · have hi : (writePacked 6 encBool visible).length ≤ 2147483647 := by omega
    clear h
    exact Steps.packed asBool_enc encBool_lt (fun e => by subst e; rfl) (fun bs hb => by simp [DenseInfo.merge, Field.packed, Field.bytes, hb]) (by decide) hi

theorem DenseInfo.parse_writeToBytes {m : DenseInfo} {bs : Bytes} (h : m.writeToBytes = some bs) : DenseInfo.parseFromBytes bs = some m := by
  unfold DenseInfo.writeToBytes at h
  split at h
  · rename_i h'
    cases h
    unfold DenseInfo.parseFromBytes
    rw [DenseInfo.parse_write m (by omega)]
    simp [h'.1]
  · cases h

theorem DenseNodes.parse_write (m : DenseNodes) (h : m.write.length ≤ 2147483647) : parse DenseNodes.merge {} m.write = some m := by
  obtain ⟨id, denseinfo, lat, lon, keysVals⟩ := m
  simp only [DenseNodes.write, List.length_append] at h ⊢
  refine Steps.parse ?_
  refine Steps.trans (m' := ({ id := id } : DenseNodes)) ?_ ?_
  · have hi : (writePacked 1 encSint64 id).length ≤ 2147483647 := by omega
    clear h
    exact Steps.packed zigZag64_enc encSint64_lt (fun e => by subst e; rfl) (fun bs hb => by simp [DenseNodes.merge, Field.packed, Field.bytes, hb]) (by decide) hi
  refine Steps.trans (m' := ({ id := id, denseinfo := denseinfo } : DenseNodes)) ?_ ?_
  · have hi : (writeOpt denseinfo (fun v => writeMessage 5 v.computeSize v.write)).length ≤ 2147483647 := by omega
    clear h
    refine Steps.opt (fun e => by subst e; rfl) (fun v e => ?_)
    subst e
    have hb : (v.write).length ≤ 2147483647 := by
      have := writeMessage_length 5 v.computeSize v.write
      simp only [writeOpt] at hi
      omega
    rw [writeMessage_eq (DenseInfo.size_eq v (Or.inr (by omega)))]
    exact Steps.len (k := 5) (by simp [DenseNodes.merge, Field.message, Field.bytes, DenseInfo.parse_write v hb]) (by decide) hb
  refine Steps.trans (m' := ({ id := id, denseinfo := denseinfo, lat := lat } : DenseNodes)) ?_ ?_
  · have hi : (writePacked 8 encSint64 lat).length ≤ 2147483647 := by omega
    clear h
    exact Steps.packed zigZag64_enc encSint64_lt (fun e => by subst e; rfl) (fun bs hb => by simp [DenseNodes.merge, Field.packed, Field.bytes, hb]) (by decide) hi
  refine Steps.trans (m' := ({ id := id, denseinfo := denseinfo, lat := lat, lon := lon } : DenseNodes)) ?_ ?_
  · have hi : (writePacked 9 encSint64 lon).length ≤ 2147483647 := by omega
    clear h
    exact Steps.packed zigZag64_enc encSint64_lt (fun e => by subst e; rfl) (fun bs hb => by simp [DenseNodes.merge, Field.packed, Field.bytes, hb]) (by decide) hi
  · have hi : (writePacked 10 encInt32 keysVals).length ≤ 2147483647 := by omega
    clear h
    exact Steps.packed asInt32_enc encInt32_lt (fun e => by subst e; rfl) (fun bs hb => by simp [DenseNodes.merge, Field.packed, Field.bytes, hb]) (by decide) hi

theorem DenseNodes.parse_writeToBytes {m : DenseNodes} {bs : Bytes} (h : m.writeToBytes = some bs) : DenseNodes.parseFromBytes bs = some m := by
  unfold DenseNodes.writeToBytes at h
  split at h
  · rename_i h'
    cases h
    unfold DenseNodes.parseFromBytes
    rw [DenseNodes.parse_write m (by omega)]
    simp [h'.1]
  · cases h

theorem Way.parse_write (m : Way) (h : m.write.length ≤ 2147483647) : parse Way.merge {} m.write = some m := by
  obtain ⟨id, keys, vals, info, refs⟩ := m
  simp only [Way.write, List.length_append] at h ⊢
  refine Steps.parse ?_
  refine Steps.trans (m' := ({ id := id } : Way)) ?_ ?_
  · have hi : (writeOpt id (fun v => writeNum 1 (encInt64 v))).length ≤ 2147483647 := by omega
    clear h
    refine Steps.opt (fun e => by subst e; rfl) (fun v e => ?_)
    subst e
    exact Steps.num (k := 1) (by simp [Way.merge, Field.num, Field.varint, asInt64_enc]) (by decide) (encInt64_lt v)
  refine Steps.trans (m' := ({ id := id, keys := keys } : Way)) ?_ ?_
  · have hi : (writePacked 2 encUInt32 keys).length ≤ 2147483647 := by omega
    clear h
    exact Steps.packed asUInt32_enc encUInt32_lt (fun e => by subst e; rfl) (fun bs hb => by simp [Way.merge, Field.packed, Field.bytes, hb]) (by decide) hi
  refine Steps.trans (m' := ({ id := id, keys := keys, vals := vals } : Way)) ?_ ?_
  · have hi : (writePacked 3 encUInt32 vals).length ≤ 2147483647 := by omega
    clear h
    exact Steps.packed asUInt32_enc encUInt32_lt (fun e => by subst e; rfl) (fun bs hb => by simp [Way.merge, Field.packed, Field.bytes, hb]) (by decide) hi
  refine Steps.trans (m' := ({ id := id, keys := keys, vals := vals, info := info } : Way)) ?_ ?_
  · have hi : (writeOpt info (fun v => writeMessage 4 v.computeSize v.write)).length ≤ 2147483647 := by omega
    clear h
    refine Steps.opt (fun e => by subst e; rfl) (fun v e => ?_)
    subst e
    have hb : (v.write).length ≤ 2147483647 := by
      have := writeMessage_length 4 v.computeSize v.write
      simp only [writeOpt] at hi
      omega
    rw [writeMessage_eq (Info.size_eq v (Or.inr (by omega)))]
    exact Steps.len (k := 4) (by simp [Way.merge, Field.message, Field.bytes, Info.parse_write v hb]) (by decide) hb
  · have hi : (writePacked 8 encSint64 refs).length ≤ 2147483647 := by omega
    clear h
    exact Steps.packed zigZag64_enc encSint64_lt (fun e => by subst e; rfl) (fun bs hb => by simp [Way.merge, Field.packed, Field.bytes, hb]) (by decide) hi

theorem Way.parse_writeToBytes {m : Way} {bs : Bytes} (h : m.writeToBytes = some bs) : Way.parseFromBytes bs = some m := by
  unfold Way.writeToBytes at h
  split at h
  · rename_i h'
    cases h
    unfold Way.parseFromBytes
    rw [Way.parse_write m (by omega)]
    simp [h'.1]
  · cases h

theorem Relation.parse_write (m : Relation) (h : m.write.length ≤ 2147483647) : parse Relation.merge {} m.write = some m := by
  obtain ⟨id, keys, vals, info, rolesSid, memids, types⟩ := m
  simp only [Relation.write, List.length_append] at h ⊢
  refine Steps.parse ?_
  refine Steps.trans (m' := ({ id := id } : Relation)) ?_ ?_
  · have hi : (writeOpt id (fun v => writeNum 1 (encInt64 v))).length ≤ 2147483647 := by omega
    clear h
    refine Steps.opt (fun e => by subst e; rfl) (fun v e => ?_)
    subst e
    exact Steps.num (k := 1) (by simp [Relation.merge, Field.num, Field.varint, asInt64_enc]) (by decide) (encInt64_lt v)
  refine Steps.trans (m' := ({ id := id, keys := keys } : Relation)) ?_ ?_
  · have hi : (writePacked 2 encUInt32 keys).length ≤ 2147483647 := by omega
    clear h
    exact Steps.packed asUInt32_enc encUInt32_lt (fun e => by subst e; rfl) (fun bs hb => by simp [Relation.merge, Field.packed, Field.bytes, hb]) (by decide) hi
  refine Steps.trans (m' := ({ id := id, keys := keys, vals := vals } : Relation)) ?_ ?_
  · have hi : (writePacked 3 encUInt32 vals).length ≤ 2147483647 := by omega
    clear h
    exact Steps.packed asUInt32_enc encUInt32_lt (fun e => by subst e; rfl) (fun bs hb => by simp [Relation.merge, Field.packed, Field.bytes, hb]) (by decide) hi
  refine Steps.trans (m' := ({ id := id, keys := keys, vals := vals, info := info } : Relation)) ?_ ?_
  · have hi : (writeOpt info (fun v => writeMessage 4 v.computeSize v.write)).length ≤ 2147483647 := by omega
    clear h
    refine Steps.opt (fun e => by subst e; rfl) (fun v e => ?_)
    subst e
    have hb : (v.write).length ≤ 2147483647 := by
      have := writeMessage_length 4 v.computeSize v.write
      simp only [writeOpt] at hi
      omega
    rw [writeMessage_eq (Info.size_eq v (Or.inr (by omega)))]
    exact Steps.len (k := 4) (by simp [Relation.merge, Field.message, Field.bytes, Info.parse_write v hb]) (by decide) hb
  refine Steps.trans (m' := ({ id := id, keys := keys, vals := vals, info := info, rolesSid := rolesSid } : Relation)) ?_ ?_
  · have hi : (writePacked 8 encInt32 rolesSid).length ≤ 2147483647 := by omega
    clear h
    exact Steps.packed asInt32_enc encInt32_lt (fun e => by subst e; rfl) (fun bs hb => by simp [Relation.merge, Field.packed, Field.bytes, hb]) (by decide) hi
  refine Steps.trans (m' := ({ id := id, keys := keys, vals := vals, info := info, rolesSid := rolesSid, memids := memids } : Relation)) ?_ ?_
  · have hi : (writePacked 9 encSint64 memids).length ≤ 2147483647 := by omega
    clear h
    exact Steps.packed zigZag64_enc encSint64_lt (fun e => by subst e; rfl) (fun bs hb => by simp [Relation.merge, Field.packed, Field.bytes, hb]) (by decide) hi
  · have hi : (writePacked 10 encInt32 types).length ≤ 2147483647 := by omega
    clear h
    exact Steps.packed asInt32_enc encInt32_lt (fun e => by subst e; rfl) (fun bs hb => by simp [Relation.merge, Field.packed, Field.bytes, hb]) (by decide) hi

theorem Relation.parse_writeToBytes {m : Relation} {bs : Bytes} (h : m.writeToBytes = some bs) : Relation.parseFromBytes bs = some m := by
  unfold Relation.writeToBytes at h
  split at h
  · rename_i h'
    cases h
    unfold Relation.parseFromBytes
    rw [Relation.parse_write m (by omega)]
    simp [h'.1]
  · cases h

theorem ChangeSet.parse_write (m : ChangeSet) (h : m.write.length ≤ 2147483647) : parse ChangeSet.merge {} m.write = some m := by
  obtain ⟨id⟩ := m
  simp only [ChangeSet.write, List.length_append] at h ⊢
  refine Steps.parse ?_
  · have hi : (writeOpt id (fun v => writeNum 1 (encInt64 v))).length ≤ 2147483647 := by omega
    clear h
    refine Steps.opt (fun e => by subst e; rfl) (fun v e => ?_)
    subst e
    exact Steps.num (k := 1) (by simp [ChangeSet.merge, Field.num, Field.varint, asInt64_enc]) (by decide) (encInt64_lt v)

theorem ChangeSet.parse_writeToBytes {m : ChangeSet} {bs : Bytes} (h : m.writeToBytes = some bs) : ChangeSet.parseFromBytes bs = some m := by
  unfold ChangeSet.writeToBytes at h
  split at h
  · rename_i h'
    cases h
    unfold ChangeSet.parseFromBytes
    rw [ChangeSet.parse_write m (by omega)]
    simp [h'.1]
  · cases h

theorem PrimitiveGroup.parse_write (m : PrimitiveGroup) (h : m.write.length ≤ 2147483647) : parse PrimitiveGroup.merge {} m.write = some m := by
  obtain ⟨nodes, dense, ways, relations, changesets⟩ := m
  simp only [PrimitiveGroup.write, List.length_append] at h ⊢
  refine Steps.parse ?_
  refine Steps.trans (m' := ({ nodes := nodes } : PrimitiveGroup)) ?_ ?_
  · have hi : (nodes.flatMap (fun v => writeMessage 1 v.computeSize v.write)).length ≤ 2147483647 := by omega
    clear h
    refine Steps.rep (put := fun l => ({ nodes := l } : PrimitiveGroup)) (fun l' v hv => ?_)
    have hb : (v.write).length ≤ 2147483647 := by
      have h1 := writeMessage_length 1 v.computeSize v.write
      have h2 := flatMap_length_le (w := fun v => writeMessage 1 v.computeSize v.write) hv
      omega
    rw [writeMessage_eq (Node.size_eq v (Or.inr (by omega)))]
    exact Steps.len (k := 1) (by simp [PrimitiveGroup.merge, Field.message, Field.bytes, Node.parse_write v hb]) (by decide) hb
  refine Steps.trans (m' := ({ nodes := nodes, dense := dense } : PrimitiveGroup)) ?_ ?_
  · have hi : (writeOpt dense (fun v => writeMessage 2 v.computeSize v.write)).length ≤ 2147483647 := by omega
    clear h
    refine Steps.opt (fun e => by subst e; rfl) (fun v e => ?_)
    subst e
    have hb : (v.write).length ≤ 2147483647 := by
      have := writeMessage_length 2 v.computeSize v.write
      simp only [writeOpt] at hi
      omega
    rw [writeMessage_eq (DenseNodes.size_eq v (Or.inr (by omega)))]
    exact Steps.len (k := 2) (by simp [PrimitiveGroup.merge, Field.message, Field.bytes, DenseNodes.parse_write v hb]) (by decide) hb
  refine Steps.trans (m' := ({ nodes := nodes, dense := dense, ways := ways } : PrimitiveGroup)) ?_ ?_
  · have hi : (ways.flatMap (fun v => writeMessage 3 v.computeSize v.write)).length ≤ 2147483647 := by omega
    clear h
    refine Steps.rep (put := fun l => ({ nodes := nodes, dense := dense, ways := l } : PrimitiveGroup)) (fun l' v hv => ?_)
    have hb : (v.write).length ≤ 2147483647 := by
      have h1 := writeMessage_length 3 v.computeSize v.write
      have h2 := flatMap_length_le (w := fun v => writeMessage 3 v.computeSize v.write) hv
      omega
    rw [writeMessage_eq (Way.size_eq v (Or.inr (by omega)))]
    exact Steps.len (k := 3) (by simp [PrimitiveGroup.merge, Field.message, Field.bytes, Way.parse_write v hb]) (by decide) hb
  refine Steps.trans (m' := ({ nodes := nodes, dense := dense, ways := ways, relations := relations } : PrimitiveGroup)) ?_ ?_
  · have hi : (relations.flatMap (fun v => writeMessage 4 v.computeSize v.write)).length ≤ 2147483647 := by omega
    clear h
    refine Steps.rep (put := fun l => ({ nodes := nodes, dense := dense, ways := ways, relations := l } : PrimitiveGroup)) (fun l' v hv => ?_)
    have hb : (v.write).length ≤ 2147483647 := by
      have h1 := writeMessage_length 4 v.computeSize v.write
      have h2 := flatMap_length_le (w := fun v => writeMessage 4 v.computeSize v.write) hv
      omega
    rw [writeMessage_eq (Relation.size_eq v (Or.inr (by omega)))]
    exact Steps.len (k := 4) (by simp [PrimitiveGroup.merge, Field.message, Field.bytes, Relation.parse_write v hb]) (by decide) hb
  · have hi : (changesets.flatMap (fun v => writeMessage 5 v.computeSize v.write)).length ≤ 2147483647 := by omega
    clear h
    refine Steps.rep (put := fun l => ({ nodes := nodes, dense := dense, ways := ways, relations := relations, changesets := l } : PrimitiveGroup)) (fun l' v hv => ?_)
    have hb : (v.write).length ≤ 2147483647 := by
      have h1 := writeMessage_length 5 v.computeSize v.write
      have h2 := flatMap_length_le (w := fun v => writeMessage 5 v.computeSize v.write) hv
      omega
    rw [writeMessage_eq (ChangeSet.size_eq v (Or.inr (by omega)))]
    exact Steps.len (k := 5) (by simp [PrimitiveGroup.merge, Field.message, Field.bytes, ChangeSet.parse_write v hb]) (by decide) hb

theorem PrimitiveGroup.parse_writeToBytes {m : PrimitiveGroup} {bs : Bytes} (h : m.writeToBytes = some bs) : PrimitiveGroup.parseFromBytes bs = some m := by
  unfold PrimitiveGroup.writeToBytes at h
  split at h
  · rename_i h'
    cases h
    unfold PrimitiveGroup.parseFromBytes
    rw [PrimitiveGroup.parse_write m (by omega)]
    simp [h'.1]
  · cases h

theorem PrimitiveBlock.parse_write (m : PrimitiveBlock) (h : m.write.length ≤ 2147483647) : parse PrimitiveBlock.merge {} m.write = some m := by
  obtain ⟨stringtable, primitivegroup, granularity, latOffset, lonOffset, dateGranularity⟩ := m
  simp only [PrimitiveBlock.write, List.length_append] at h ⊢
  refine Steps.parse ?_
  refine Steps.trans (m' := ({ stringtable := stringtable } : PrimitiveBlock)) ?_ ?_
  · have hi : (writeOpt stringtable (fun v => writeMessage 1 v.computeSize v.write)).length ≤ 2147483647 := by omega
    clear h
    refine Steps.opt (fun e => by subst e; rfl) (fun v e => ?_)
    subst e
    have hb : (v.write).length ≤ 2147483647 := by
      have := writeMessage_length 1 v.computeSize v.write
      simp only [writeOpt] at hi
      omega
    rw [writeMessage_eq (StringTable.size_eq v (Or.inr (by omega)))]
    exact Steps.len (k := 1) (by simp [PrimitiveBlock.merge, Field.message, Field.bytes, StringTable.parse_write v hb]) (by decide) hb
  refine Steps.trans (m' := ({ stringtable := stringtable, primitivegroup := primitivegroup } : PrimitiveBlock)) ?_ ?_
  · have hi : (primitivegroup.flatMap (fun v => writeMessage 2 v.computeSize v.write)).length ≤ 2147483647 := by omega
    clear h
    refine Steps.rep (put := fun l => ({ stringtable := stringtable, primitivegroup := l } : PrimitiveBlock)) (fun l' v hv => ?_)
    have hb : (v.write).length ≤ 2147483647 := by
      have h1 := writeMessage_length 2 v.computeSize v.write
      have h2 := flatMap_length_le (w := fun v => writeMessage 2 v.computeSize v.write) hv
      omega
    rw [writeMessage_eq (PrimitiveGroup.size_eq v (Or.inr (by omega)))]
    exact Steps.len (k := 2) (by simp [PrimitiveBlock.merge, Field.message, Field.bytes, PrimitiveGroup.parse_write v hb]) (by decide) hb
  refine Steps.trans (m' := ({ stringtable := stringtable, primitivegroup := primitivegroup, granularity := granularity } : PrimitiveBlock)) ?_ ?_
  · have hi : (writeOpt granularity (fun v => writeNum 17 (encInt32 v))).length ≤ 2147483647 := by omega
    clear h
    refine Steps.opt (fun e => by subst e; rfl) (fun v e => ?_)
    subst e
    exact Steps.num (k := 17) (by simp [PrimitiveBlock.merge, Field.num, Field.varint, asInt32_enc]) (by decide) (encInt32_lt v)
  refine Steps.trans (m' := ({ stringtable := stringtable, primitivegroup := primitivegroup, granularity := granularity, latOffset := latOffset } : PrimitiveBlock)) ?_ ?_
  · have hi : (writeOpt latOffset (fun v => writeNum 19 (encInt64 v))).length ≤ 2147483647 := by omega
    clear h
    refine Steps.opt (fun e => by subst e; rfl) (fun v e => ?_)
    subst e
    exact Steps.num (k := 19) (by simp [PrimitiveBlock.merge, Field.num, Field.varint, asInt64_enc]) (by decide) (encInt64_lt v)
  refine Steps.trans (m' := ({ stringtable := stringtable, primitivegroup := primitivegroup, granularity := granularity, latOffset := latOffset, lonOffset := lonOffset } : PrimitiveBlock)) ?_ ?_
  · have hi : (writeOpt lonOffset (fun v => writeNum 20 (encInt64 v))).length ≤ 2147483647 := by omega
    clear h
    refine Steps.opt (fun e => by subst e; rfl) (fun v e => ?_)
    subst e
    exact Steps.num (k := 20) (by simp [PrimitiveBlock.merge, Field.num, Field.varint, asInt64_enc]) (by decide) (encInt64_lt v)
  · have hi : (writeOpt dateGranularity (fun v => writeNum 18 (encInt32 v))).length ≤ 2147483647 := by omega
    clear h
    refine Steps.opt (fun e => by subst e; rfl) (fun v e => ?_)
    subst e
    exact Steps.num (k := 18) (by simp [PrimitiveBlock.merge, Field.num, Field.varint, asInt32_enc]) (by decide) (encInt32_lt v)

theorem PrimitiveBlock.parse_writeToBytes {m : PrimitiveBlock} {bs : Bytes} (h : m.writeToBytes = some bs) : PrimitiveBlock.parseFromBytes bs = some m := by
  unfold PrimitiveBlock.writeToBytes at h
  split at h
  · rename_i h'
    cases h
    unfold PrimitiveBlock.parseFromBytes
    rw [PrimitiveBlock.parse_write m (by omega)]
    simp [h'.1]
  · cases h

end Osmio.Proto
