import Verif.Spec.PbfStreams
import Verif.Props.AnySource
import Verif.Props.PbfMethods
/-!
# PBF readers over any implementation of `Read`, any bytes (C81, C99, C103, C104, C105)

The source may give its bytes in any portions, with interruptions (`Spec.Delivers`). What comes out is said by the bytes alone.
-/

namespace Osmio
open Spec.Pbf
open Spec (ObjData Resumed Drain calls Delivers)

/-! ## Loops and numbers of calls -/

section
variable {σ τ α : Type} {next : σ → Res (Option α) × σ} {next' : τ → Res (Option α) × τ}

theorem calls_next (h : ∀ k, (calls next k s).1 = (calls next' k t).1) :
    (next s).1 = (next' t).1 ∧ ∀ k, (calls next k (next s).2).1 = (calls next' k (next' t).2).1 := by
  have h1 := h 1
  simp only [calls, List.cons.injEq, and_true] at h1
  refine ⟨h1, fun k => ?_⟩
  have := h (k + 1)
  simp only [calls, List.cons.injEq] at this
  exact this.2

theorem drain_same {s : σ} {t : τ} {os : List α} {e : Option Panic} {s' : σ} (hd : Drain next s os e s')
    (h : ∀ k, (calls next k s).1 = (calls next' k t).1) : ∃ t', Drain next' t os e t' := by
  induction hd generalizing t with
  | done h1 =>
    obtain ⟨h2, _⟩ := calls_next h
    exact ⟨_, .done (s' := (next' t).2) (Prod.ext (by rw [← h2, h1]) rfl)⟩
  | panic h1 =>
    obtain ⟨h2, _⟩ := calls_next h
    exact ⟨_, .panic (s' := (next' t).2) (Prod.ext (by rw [← h2, h1]) rfl)⟩
  | more h1 _ ih =>
    obtain ⟨h2, h3⟩ := calls_next h
    obtain ⟨t', h4⟩ := ih (t := (next' t).2) (by rw [h1] at h3; exact h3)
    exact ⟨t', .more (Prod.ext (by rw [← h2, h1]) rfl) h4⟩

theorem resumed_agree {s : σ} {t : τ} {gs : List (Option α)} (hd : Resumed next s gs) (h : ∀ k, (calls next k s).1 = (calls next' k t).1) :
    Resumed next' t gs := by
  induction hd generalizing t with
  | done h1 =>
    obtain ⟨h2, _⟩ := calls_next h
    exact .done (s' := (next' t).2) (Prod.ext (by rw [← h2, h1]) rfl)
  | panic h1 _ ih =>
    obtain ⟨h2, h3⟩ := calls_next h
    exact .panic (s1 := (next' t).2) (Prod.ext (by rw [← h2, h1]) rfl) (ih (by rw [h1] at h3; exact h3))
  | more h1 _ ih =>
    obtain ⟨h2, h3⟩ := calls_next h
    exact .more (s1 := (next' t).2) (Prod.ext (by rw [← h2, h1]) rfl) (ih (by rw [h1] at h3; exact h3))

theorem drains_same {s : σ} {t : τ} {os : List α} {e : Option Panic} (h : ∀ k, (calls next k s).1 = (calls next' k t).1) :
    (∃ s', Drain next s os e s') ↔ ∃ t', Drain next' t os e t' :=
  ⟨fun ⟨_, hd⟩ => drain_same hd h, fun ⟨_, hd⟩ => drain_same hd fun k => (h k).symm⟩

theorem resumes_same {s : σ} {t : τ} {gs : List (Option α)} (h : ∀ k, (calls next k s).1 = (calls next' k t).1) :
    Resumed next s gs ↔ Resumed next' t gs := ⟨fun hd => resumed_agree hd h, fun hd => resumed_agree hd fun k => (h k).symm⟩
end

/-! ## The readers -/

variable {rd : AnyReader} {R : rd.S → Source → Prop} {s : rd.S} {src : Source} {rounds : Nat} {zlib : Proto.Bytes → Option Proto.Bytes} {b : Build} {r : Which}
  {k : OSMObjectType}

theorem methodOver_new (k : OSMObjectType) (s : S) : methodOver k (.new s) = { StringPbf.ReaderOver.new s with filter := filterOf k } := by
  cases k <;> rfl

theorem readsOver (h : Delivers rd R) (hr : R s src) (hl : src.length < rounds) {ds : List ObjData} {e : Option Panic} :
    ReadsOver rd zlib b rounds s r ds e ↔ Reads r zlib b src ds e := by
  cases r with
  | owned =>
    have key : ∀ os, _ ↔ _ := fun os => drains_same (os := os) (e := e) fun k => (C81_owned h hr zlib b (true, true, true) hl k).1
    simp only [ReadsOver, Reads, exists_and_right]
    exact exists_congr fun os => and_congr_left fun _ => key os
  | shared =>
    have key : ∀ os, _ ↔ _ := fun os => drains_same (os := os) (e := e) fun k => (C81_shared h hr zlib b hl k).1
    simp only [ReadsOver, Reads, exists_and_right]
    exact exists_congr fun os => and_congr_left fun _ => key os

theorem positionsOver (h : Delivers rd R) (hr : R s src) (hl : src.length < rounds) {xs : List (ObjId × (Lat × Lon))} {e : Option Panic} :
    PositionsOver rd zlib b rounds s xs e ↔ ReadsPositions zlib b src xs e := drains_same fun k => (C81_positions h hr zlib b hl k).1

theorem kindReadsOver (h : Delivers rd R) (hr : R s src) (hl : src.length < rounds) {ds : List ObjData} {e : Option Panic} :
    KindReadsOver rd zlib b rounds s k ds e ↔ KindReads k zlib b src ds e := by
  have key : ∀ os, _ ↔ _ := fun os => drains_same (os := os) (e := e) fun j => (C81_owned h hr zlib b (filterOf k) hl j).1
  simp only [KindReadsOver, KindReads, exists_and_right, methodOver_new, method_new]
  exact exists_congr fun os => and_congr_left fun _ => key os

theorem resumesOver (h : Delivers rd R) (hr : R s src) (hl : src.length < rounds) {gs : List (Option ObjData)} :
    ResumesOver rd zlib b rounds s r gs ↔ Resumes r zlib b src gs := by
  cases r with
  | owned => exact exists_congr fun os => and_congr_left fun _ => resumes_same fun k => (C81_owned h hr zlib b (true, true, true) hl k).1
  | shared => exact exists_congr fun os => and_congr_left fun _ => resumes_same fun k => (C81_shared h hr zlib b hl k).1

theorem source_lt {bs : Proto.Bytes} (hl : bs.length < rounds) : (source bs).length < rounds := by simpa [source] using hl

variable {bs : Proto.Bytes}

/-- **C99** for any implementation of `Read` that has these bytes to give, in whatever portions and with whatever interruptions: a loop gets to the end, and has then
seen these objects, exactly if the bytes are a file with these objects. -/
theorem C99_streams (h : Delivers rd R) (hr : R s (source bs)) (hl : bs.length < rounds) :
    (∀ ds, ReadsOver rd zlib b rounds s r ds none ↔ FileShown r zlib b bs ds) ∧
    ∀ xs, PositionsOver rd zlib b rounds s xs none ↔ FilePositions zlib b bs xs :=
  ⟨fun _ => (readsOver h hr (source_lt hl)).trans C99_file, fun _ => (positionsOver h hr (source_lt hl)).trans C99_positions.1⟩

/-- **C103** for any implementation of `Read`: the objects of the frames up to the first that cannot be read, and nothing of that one. -/
theorem C103_streams {dss : List (List ObjData)} {rest : Proto.Bytes} (hb : Beginning (FrameShown r zlib b) bs dss rest) (h : Delivers rd R)
    (hr : R s (source bs)) (hl : bs.length < rounds) :
    (∀ ds, ReadsOver rd zlib b rounds s r ds none ↔ ds = dss.flatten ∧ rest.length < 4) ∧
    ∀ ds, (∃ p, ReadsOver rd zlib b rounds s r ds (some p)) ↔ ds = dss.flatten ∧ 4 ≤ rest.length := by
  simp only [readsOver h hr (source_lt hl)]
  exact C103_objects hb

/-- **C103** for any implementation of `Read` that fails after these bytes, whatever it gives later. -/
theorem C103_failing_streams {dss : List (List ObjData)} {rest : Proto.Bytes} (hb : Beginning (FrameShown r zlib b) bs dss rest) (h : Delivers rd R)
    {later : Source} (hr : R s (source bs ++ none :: later)) (hl : bs.length + 1 + later.length < rounds) :
    (∀ ds, ReadsOver rd zlib b rounds s r ds none ↔ ds = dss.flatten ∧ rest.length < 4) ∧
    ∀ ds, (∃ p, ReadsOver rd zlib b rounds s r ds (some p)) ↔ ds = dss.flatten ∧ 4 ≤ rest.length := by
  have hl' : (source bs ++ none :: later).length < rounds := by simp [source]; omega
  simp only [readsOver h hr hl']
  exact C103_failing hb later

/-- **C104** for any implementation of `Read`: what callers get that go on after panics. -/
theorem C104_streams (h : Delivers rd R) (hr : R s (source bs)) (hl : bs.length < rounds) :
    (∀ gs, ResumesOver rd zlib b rounds s r gs ↔ Gives (BlobGives r zlib b) bs gs) ∧
    ∀ gs, ResumesPositionsOver rd zlib b rounds s gs ↔ Gives (BlobGivesPositions zlib b) bs gs :=
  ⟨fun _ => (resumesOver h hr (source_lt hl)).trans (C104_objects _ _),
    fun _ => (resumes_same fun k => (C81_positions h hr zlib b (source_lt hl) k).1).trans (C104_positions _ _)⟩

/-- **C105** for any implementation of `Read`. -/
theorem C105_streams (h : Delivers rd R) (hr : R s (source bs)) (hl : bs.length < rounds) :
    (∀ ds, KindReadsOver rd zlib b rounds s k ds none ↔ KindFile k zlib b bs ds) ∧
    ∀ gs, KindResumesOver rd zlib b rounds s k gs ↔ Gives (KindGives k zlib b) bs gs := by
  refine ⟨fun _ => (kindReadsOver h hr (source_lt hl)).trans C105_file, fun gs => ?_⟩
  rw [← C105_resumes]
  unfold KindResumesOver KindResumes
  rw [methodOver_new, method_new]
  exact exists_congr fun os => and_congr_left fun _ => resumes_same fun j => (C81_owned h hr zlib b (filterOf k) (source_lt hl) j).1

/-! The example files byte by byte, each byte after an interruption. -/

example (r : Which) (b : Build) : ReadsOver Spec.portions some b 10000 (AnySourceEx.drip (fileBytes PbfEx.file)) r PbfEx.fileData.flatten none :=
  ((C99_streams (bs := fileBytes PbfEx.file) portions_delivers (AnySourceEx.contents_drip _).symm (by decide +kernel)).1 _).2
    ⟨_, [], _, by simp, by simp, PbfEx.file_shown r b, rfl⟩

/-- The file with a spoilt way: a loop over `relations()` sees the relation; one over `objects()` that goes on after panics sees the first way too. -/
example (b : Build) : KindReadsOver Spec.portions some b 10000 (AnySourceEx.drip (fileBytes PbfEx.spoiltFile)) .relation PbfEx.relationsData none ∧
    ResumesOver Spec.portions some b 10000 (AnySourceEx.drip (fileBytes PbfEx.spoiltFile)) .owned
      (PbfEx.nodesData.map some ++ none :: (PbfEx.waysData.take 1).map some ++ PbfEx.relationsData.map some) := by
  have hl : (fileBytes PbfEx.spoiltFile).length < 10000 := by decide +kernel
  refine ⟨((C105_streams portions_delivers (AnySourceEx.contents_drip _).symm hl).1 _).2 ⟨_, [], _, by simp, by simp, PbfEx.spoilt_shown .relation (by decide), by simp⟩,
    ((C104_streams portions_delivers (AnySourceEx.contents_drip _).symm hl).1 _).2 ((C104_objects _ _).1 ?_)⟩
  obtain ⟨h1, h2, h3⟩ := PbfEx.spoilt_gives .owned b
  have := C104_frames (r := .owned) (tail := []) (.cons (PbfEx.frame_gives (block := PbfEx.nodes) (by decide +kernel) h1.symm)
    (.cons (PbfEx.frame_gives (block := PbfEx.spoilt) (by decide +kernel) h2.symm)
      (.cons (PbfEx.frame_gives (block := PbfEx.relations) (by decide +kernel) h3.symm) .nil))) (by decide)
  simpa [PbfEx.spoiltFile] using this

/-- The example file, then a frame whose header is not one, then the file again: six objects and a panic. -/
example (r : Which) (b : Build) : ∃ p, ReadsOver Spec.portions some b 10000
    (AnySourceEx.drip (fileBytes PbfEx.file ++ ([0, 0, 0, 1, 255] ++ fileBytes PbfEx.file))) r PbfEx.fileData.flatten (some p) :=
  ((C103_streams (PbfEx.garbage r b _) portions_delivers (AnySourceEx.contents_drip _).symm (by decide +kernel)).2 _).2 ⟨rfl, by simp⟩

/-- The source fails two bytes into the next length: the six objects, and then the end. -/
example (r : Which) (b : Build) (later : List Spec.Portion) : ReadsOver Spec.portions some b (10000 + (Spec.contents later).length)
    (AnySourceEx.drip (fileBytes PbfEx.file ++ [0, 0]) ++ .error :: later) r PbfEx.fileData.flatten none := by
  have hb : Beginning (FrameShown r some b) (fileBytes PbfEx.file ++ [0, 0]) PbfEx.fileData [0, 0] := by
    refine ⟨⟨PbfEx.file, rfl, PbfEx.file_shown r b⟩, fun f ds more h e => ?_⟩
    obtain ⟨fb, _, h1, _⟩ := frameShown_iff.1 h
    obtain ⟨y, h2, _⟩ := frameBlobs_read h1 more
    rw [← e] at h2
    cases h2
  have hl : (fileBytes PbfEx.file ++ [0, 0]).length < 9999 := by decide +kernel
  exact ((C103_failing_streams hb portions_delivers (AnySourceEx.contents_fails _ _).symm (by omega)).1 _).2 ⟨rfl, by simp⟩

end Osmio
