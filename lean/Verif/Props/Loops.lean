import Verif.Spec.Loops
import Verif.Model.Loops
import Verif.Model.Opl
import Verif.Proofs.AnySource
import Verif.Props.Programs
/-!
# Reading ends on every input (C95)

Of the changeset readers C55 says it (and for which input one of them never returns).
-/

namespace Osmio
open Spec Spec.Pbf

/-! ## Every call returns -/

theorem str_blob_iterates (src : Source) : Iterates StringPbf.blobRound src (StringPbf.getNextOsmdataBlob src) := by
  induction hn : src.length using Nat.strong_induction_on generalizing src with
  | _ n ih =>
    rw [getNext_unfold]
    rcases h : StringPbf.readBlob src with ⟨(p | (_ | (_ | b))), s1⟩
    · exact .stop (by simp only [StringPbf.blobRound, h])
    · exact .stop (by simp only [StringPbf.blobRound, h])
    · refine .again (s' := s1) (by simp only [StringPbf.blobRound, h]) (ih _ ?_ s1 rfl)
      have := (readBlob_length h).2 (by simp)
      omega
    · exact .stop (by simp only [StringPbf.blobRound, h])

/-- **C95.** Looking for the next data block ends, however many blocks of other kinds there are, and with what the model says. -/
theorem C95_blob (src : Source) :
    Iterates StringPbf.blobRound src (StringPbf.getNextOsmdataBlob src) ∧ Iterates ArcPbf.blobRound src (ArcPbf.getNextOsmdataBlob src) := by
  refine ⟨str_blob_iterates src, ?_⟩
  have : ArcPbf.blobRound = StringPbf.blobRound := by
    funext s
    unfold ArcPbf.blobRound StringPbf.blobRound
    rw [readBlob_eq]
  rw [this, getNext_eq]
  exact str_blob_iterates src

/-- **C95.** Every call of `next` on a PBF reader returns or panics, whatever the source holds and whatever state the reader is in, and it does
what the model says. -/
theorem C95_next (zlib : Proto.Bytes → Option Proto.Bytes) (b : Build) :
    (∀ r, Iterates (StringPbf.PBFReader.nextRound zlib b) r (StringPbf.PBFReader.next zlib b r)) ∧
    (∀ r, Iterates (ArcPbf.PBFReader.nextRound zlib b) r (ArcPbf.PBFReader.next zlib b r)) ∧
    (∀ r, Iterates (NodePos.Reader.nextRound zlib b) r (NodePos.Reader.next zlib b r)) := by
  refine ⟨fun r => ?_, fun r => ?_, fun r => ?_⟩
  · suffices h : ∀ n (r : StringPbf.PBFReader), r.src.length < n → Iterates (StringPbf.PBFReader.nextRound zlib b) r
        (StringPbf.PBFReader.nextAux zlib b n r) from h _ r (Nat.lt_succ_self _)
    intro n
    induction n with
    | zero => intro r h; cases h
    | succ n ih =>
      intro r hr
      rw [StringPbf.PBFReader.nextAux.eq_def]
      obtain ⟨src, buf, sa, f⟩ := r
      cases buf with
      | cons o os => exact .stop rfl
      | nil =>
        rcases h : StringPbf.getNextOsmdataBlob src with ⟨(p | (_ | blob)), s1⟩
        · exact .stop (by simp only [StringPbf.PBFReader.nextRound, h])
        · exact .stop (by simp only [StringPbf.PBFReader.nextRound, h])
        · rcases hd : StringPbf.decodeBlob zlib b f blob with ⟨os, (_ | p)⟩
          · simp only [h, hd]
            refine .again (s' := ⟨s1, os, sa, f⟩) (by simp only [StringPbf.PBFReader.nextRound, h, hd]) (ih _ ?_)
            have := getNext_length h
            simp only at hr ⊢
            omega
          · exact .stop (by simp only [StringPbf.PBFReader.nextRound, h, hd])
  · suffices h : ∀ n (r : ArcPbf.PBFReader), r.src.length < n → Iterates (ArcPbf.PBFReader.nextRound zlib b) r
        (ArcPbf.PBFReader.nextAux zlib b n r) from h _ r (Nat.lt_succ_self _)
    intro n
    induction n with
    | zero => intro r h; cases h
    | succ n ih =>
      intro r hr
      rw [ArcPbf.PBFReader.nextAux.eq_def]
      rcases hb : r.buffer.getLast? with _ | o
      · rcases h : ArcPbf.getNextOsmdataBlob r.src with ⟨(p | (_ | blob)), s1⟩
        · exact .stop (by simp only [ArcPbf.PBFReader.nextRound, hb, h])
        · exact .stop (by simp only [ArcPbf.PBFReader.nextRound, hb, h])
        · rcases hd : ArcPbf.decodeBlob zlib b blob with p | os
          · exact .stop (by simp only [ArcPbf.PBFReader.nextRound, hb, h, hd])
          · simp only [h, hd, hb]
            refine .again (s' := { r with src := s1, buffer := os.reverse }) (by simp only [ArcPbf.PBFReader.nextRound, hb, h, hd]) (ih _ ?_)
            rw [getNext_eq] at h
            have := getNext_length h
            simp only at hr ⊢
            omega
      · exact .stop (by simp only [ArcPbf.PBFReader.nextRound, hb])
  · suffices h : ∀ n (r : NodePos.Reader), r.src.length < n → Iterates (NodePos.Reader.nextRound zlib b) r
        (NodePos.Reader.nextAux zlib b n r) from h _ r (Nat.lt_succ_self _)
    intro n
    induction n with
    | zero => intro r h; cases h
    | succ n ih =>
      intro r hr
      rw [NodePos.Reader.nextAux.eq_def]
      obtain ⟨src, buf⟩ := r
      cases buf with
      | cons o os => exact .stop rfl
      | nil =>
        rcases h : StringPbf.getNextOsmdataBlob src with ⟨(p | (_ | blob)), s1⟩
        · exact .stop (by simp only [NodePos.Reader.nextRound, h])
        · exact .stop (by simp only [NodePos.Reader.nextRound, h])
        · rcases hd : NodePos.decodeBlob zlib b blob with ⟨os, (_ | p)⟩
          · simp only [h, hd]
            refine .again (s' := ⟨s1, os⟩) (by simp only [NodePos.Reader.nextRound, h, hd]) (ih _ ?_)
            have := getNext_length h
            simp only at hr ⊢
            omega
          · exact .stop (by simp only [NodePos.Reader.nextRound, h, hd])

theorem chain_iterates (b : Build) (first : UInt64) (n : Nat) : ∀ (last : UInt64) (bytes : List UInt8) (results : List UInt64),
    bytes.length < n → Iterates (NodeChain.decodeRound b first) (last, bytes, results)
      ((NodeChain.decodeFrom b first n last bytes).map (results ++ ·)) := by
  induction n with
  | zero => intro _ _ _ h; cases h
  | succ n ih =>
    intro last bytes results h
    cases bytes with
    | nil => exact .stop (by simp [NodeChain.decodeRound, NodeChain.decodeFrom, Except.map])
    | cons num r =>
      have hr : r.length < n := by simpa using h
      have key : ∀ (x last' : UInt64) (r' : List UInt8), r'.length < n →
          NodeChain.decodeRound b first (last, num :: r, results) = .inl (last', r', results ++ [x]) →
          NodeChain.decodeFrom b first (n + 1) last (num :: r) =
            (do let ns ← NodeChain.decodeFrom b first n last' r'; .ok (x :: ns)) →
          Iterates (NodeChain.decodeRound b first) (last, num :: r, results)
            ((NodeChain.decodeFrom b first (n + 1) last (num :: r)).map (results ++ ·)) := by
        intro x last' r' h1 h2 h3
        refine .again h2 ?_
        have := ih last' r' (results ++ [x]) h1
        rw [h3]
        cases hd : NodeChain.decodeFrom b first n last' r' with
        | error p => rw [hd] at this; exact this
        | ok ns =>
          rw [hd] at this
          simpa [Except.map, bind, Except.bind] using this
      by_cases h1 : num = 0x81
      · exact key first last r hr (by simp [NodeChain.decodeRound, h1]) (by simp [NodeChain.decodeFrom, h1])
      by_cases h2 : num = 0xFF
      · rcases hu : NodeChain.readU64 r with p | ⟨next, r'⟩
        · refine .stop ?_
          simp [NodeChain.decodeRound, NodeChain.decodeFrom, h2, hu, Except.map, bind, Except.bind]
        · refine key next next r' ?_ (by simp [NodeChain.decodeRound, h2, hu]) (by simp [NodeChain.decodeFrom, h2, hu, bind, Except.bind])
          unfold NodeChain.readU64 at hu
          split at hu
          · cases hu
          · cases hu; simp; omega
      by_cases h3 : num = 0
      · exact key last last r hr (by simp [NodeChain.decodeRound, h3]) (by simp [NodeChain.decodeFrom, h3])
      rcases hi : b.i64 (NodeChain.asI64 last + NodeChain.asI8 num) with p | newNum
      · refine .stop ?_
        simp [NodeChain.decodeRound, NodeChain.decodeFrom, h1, h2, h3, hi, Except.map, bind, Except.bind]
      · exact key newNum.toUInt64 newNum.toUInt64 r hr (by simp [NodeChain.decodeRound, h1, h2, h3, hi])
          (by simp [NodeChain.decodeFrom, h1, h2, h3, hi, bind, Except.bind])

/-- **C95.** Decoding a node chain ends on all bytes, with what the model says. -/
theorem C95_chain (b : Build) (bytes : List UInt8) (first : UInt64) (rest : List UInt8) (h : NodeChain.readU64 bytes = .ok (first, rest)) :
    Iterates (NodeChain.decodeRound b first) (first, rest, [first]) (NodeChain.decode b bytes) := by
  have hb : bytes ≠ [] := by
    rintro rfl
    cases h
  have := chain_iterates b first (rest.length + 1) first rest [first] (Nat.lt_succ_self _)
  have e : NodeChain.decode b bytes = (NodeChain.decodeFrom b first (rest.length + 1) first rest).map ([first] ++ ·) := by
    unfold NodeChain.decode
    rw [if_neg hb, h]
    simp only [bind, Except.bind]
    cases NodeChain.decodeFrom b first (rest.length + 1) first rest <;> rfl
  rw [e]
  exact this

example : NodeChain.readU64 [0, 0, 0, 0, 0, 0, 0, 10, 255, 0, 0, 0, 0, 0, 0, 1, 0, 2, 0x81] = .ok (10, [255, 0, 0, 0, 0, 0, 0, 1, 0, 2, 0x81]) ∧
    Iterates (NodeChain.decodeRound .debug 10) (10, [255, 0, 0, 0, 0, 0, 0, 1, 0, 2, 0x81], [10]) (.ok [10, 256, 258, 10]) := by
  have h : NodeChain.readU64 [0, 0, 0, 0, 0, 0, 0, 10, 255, 0, 0, 0, 0, 0, 0, 1, 0, 2, 0x81] =
      .ok (10, [255, 0, 0, 0, 0, 0, 0, 1, 0, 2, 0x81]) := by decide +kernel
  refine ⟨h, ?_⟩
  have := C95_chain .debug _ _ _ h
  rw [show NodeChain.decode .debug [0, 0, 0, 0, 0, 0, 0, 10, 255, 0, 0, 0, 0, 0, 0, 1, 0, 2, 0x81] = .ok [10, 256, 258, 10] by decide +kernel] at this
  exact this

/-- A loop that does not leave has no result. -/
example (r : Nat) : ¬ Iterates (fun s : Nat => (.inl (s + 1) : Nat ⊕ Nat)) 0 r := by
  intro h
  have : ∀ s r, Iterates (fun s : Nat => (.inl (s + 1) : Nat ⊕ Nat)) s r → False := by
    intro s r h
    induction h with
    | stop h => cases h
    | again _ _ ih => exact ih
  exact this _ _ h

/-! ## A loop over the objects ends -/

theorem gdrain_total {α : Type} (decode : Proto.Blob → List α × Option Panic) (s : List α × Source) :
    ∃ os e t, Drain (gnext decode) s os e t := by
  obtain ⟨bs, e, s', h⟩ := stream_total s.2
  obtain ⟨t, h1, -⟩ := stream_drain decode h
  exact ⟨_, _, t, drain_buffer (buf := s.1) h1⟩

/-- **C95.** A loop over all objects of a PBF file ends, whatever the source holds, wherever it fails, and from every state of the reader: it sees
finitely many objects, and then the end or a panic. -/
theorem C95_pbf (zlib : Proto.Bytes → Option Proto.Bytes) (b : Build) :
    (∀ r, ∃ os e r', Drain (StringPbf.PBFReader.next zlib b) r os e r') ∧
    (∀ r, ∃ os e r', Drain (ArcPbf.PBFReader.next zlib b) r os e r') ∧
    (∀ r, ∃ xs e r', Drain (NodePos.Reader.next zlib b) r xs e r') := by
  refine ⟨fun r => ?_, fun r => ?_, fun r => ?_⟩
  · obtain ⟨os, e, t, h⟩ := gdrain_total (StringPbf.decodeBlob zlib b r.filter) (r.buffer, r.src)
    exact ⟨os, e, _, drain_map (str_next zlib b r.sortedAssumption r.filter) h⟩
  · obtain ⟨os, e, t, h⟩ := gdrain_total (arcDecode zlib b) (r.buffer.reverse, r.src)
    have := drain_map (arc_next zlib b r.sortedAssumption) h
    rw [show arcState r.sortedAssumption (r.buffer.reverse, r.src) = r by simp [arcState]] at this
    exact ⟨os, e, _, this⟩
  · obtain ⟨os, e, t, h⟩ := gdrain_total (NodePos.decodeBlob zlib b) (r.buffer, r.src)
    exact ⟨os, e, _, drain_map (pos_next zlib b) h⟩

/-- **C95.** So does a loop over the objects of an XML file or a change file. -/
theorem C95_xml (norm : Xml.Config) (src : Source) :
    (∃ os e t, Drain XMLReader.next (XMLReader.over norm src) os e t) ∧ (∃ os e t, Drain OSCReader.next (OSCReader.over norm src) os e t) := by
  refine ⟨drain_total _, ?_⟩
  rw [osc_next_eq]
  exact drain_total _

theorem takeLine_le (src : Source) : (Opl.takeLine src).2.length ≤ src.length := by
  induction src with
  | nil => simp [Opl.takeLine]
  | cons x r ih =>
    cases x with
    | none => simp [Opl.takeLine]
    | some c =>
      simp only [Opl.takeLine]
      split
      · simp
      · simp only [List.length_cons]; omega

theorem takeLine_lt {src : Source} (h : src ≠ []) : (Opl.takeLine src).2.length < src.length := by
  cases src with
  | nil => exact absurd rfl h
  | cons x r =>
    cases x with
    | none => simp [Opl.takeLine]
    | some c =>
      simp only [Opl.takeLine]
      split
      · simp
      · have := takeLine_le r
        simp only [List.length_cons]; omega

/-- **C95.** And over the objects of an OPL file. -/
theorem C95_opl (src : Source) : ∃ os e t, Drain Opl.next src os e t := by
  induction hn : src.length using Nat.strong_induction_on generalizing src with
  | _ n ih =>
    have h2 : (Opl.next src).2 = (Opl.takeLine src).2 := by
      unfold Opl.next
      split
      · rfl
      · split <;> rfl
    rcases hx : Opl.next src with ⟨(p | (_ | o)), t⟩
    · exact ⟨[], some p, t, .panic hx⟩
    · exact ⟨[], none, t, .done hx⟩
    · have hs : src ≠ [] := by
        rintro rfl
        have : Opl.next [] = (.ok none, []) := by decide +kernel
        rw [this] at hx
        cases hx
      have := takeLine_lt hs
      rw [← h2, hx] at this
      simp only at this
      obtain ⟨os, e, t', h⟩ := ih _ (by omega) t rfl
      exact ⟨o :: os, e, t', .more hx h⟩

end Osmio
