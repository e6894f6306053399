import Verif.Lib.Chain
import Verif.Props.PbfStreams
import Verif.Props.Join
import Verif.Props.AnyLoop
/-!
# C96 for `Read::chain`

Two sources chained give the bytes of the first and then those of the second. So files can be joined without being copied.
-/

namespace Osmio
open Spec Spec.Pbf OSMObjBase

/-- What two chained sources have to give. -/
def ChainDelivers {S T : Type} (R1 : S → Source → Prop) (R2 : T → Source → Prop) (c : Chained S T) (src : Source) : Prop :=
  (c.doneFirst = true ∧ R2 c.second src) ∨ (c.doneFirst = false ∧ ∃ a b, R1 c.first a ∧ R2 c.second b ∧ src = a ++ b)

theorem gave_mono {S T : Type} {R : S → Source → Prop} {Q : T → Source → Prop} (g : S → T) (h : ∀ s src, R s src → Q (g s) src) {x : ReadOut × S} {src : Source}
    (hg : GaveNext R x src) : GaveNext Q (x.1, g x.2) src := by
  obtain ⟨bs | _ | _, s⟩ := x
  · cases bs with
    | nil => exact ⟨hg.1, h _ _ hg.2⟩
    | cons b bs => obtain ⟨rest, h1, h2⟩ := hg; exact ⟨rest, h1, h _ _ h2⟩
  · exact h _ _ hg
  · obtain ⟨rest, h1, h2⟩ := hg; exact ⟨rest, h1, h _ _ h2⟩

/-- **C96**, chained sources: the bytes and errors of the first, then those of the second. -/
theorem C96_chain_delivers {rd1 rd2 : AnyReader} {R1 : rd1.S → Source → Prop} {R2 : rd2.S → Source → Prop} (h1 : Delivers rd1 R1) (h2 : Delivers rd2 R2) :
    Delivers (rd1.chain rd2) (ChainDelivers R1 R2) := by
  rintro ⟨d, s1, s2⟩ src hr n hn
  show GaveNext _ (chainRead rd1 rd2 _ n) src
  rcases hr with ⟨hd, hr⟩ | ⟨hd, a, b, ha, hb, rfl⟩
  · simp only at hd hr
    subst hd
    simp only [chainRead, if_true]
    exact gave_mono (fun t => (⟨true, s1, t⟩ : Chained rd1.S rd2.S)) (fun t src h => .inl ⟨rfl, h⟩) (h2 s2 src hr n hn)
  · simp only at hd ha hb
    subst hd
    have hg := h1 s1 a ha n hn
    simp only [chainRead]
    rcases e : rd1.read s1 n with ⟨bs | _ | _, s⟩
    · rw [e] at hg
      cases bs with
      | nil =>
        obtain ⟨rfl, -⟩ := hg
        simp only [Nat.ne_of_gt hn, if_false, List.nil_append, Bool.false_eq_true]
        exact gave_mono (fun t => (⟨true, s, t⟩ : Chained rd1.S rd2.S)) (fun t src h => .inl ⟨rfl, h⟩) (h2 s2 b hb n hn)
      | cons x xs =>
        obtain ⟨rest, rfl, hrest⟩ := hg
        exact ⟨rest ++ b, by simp, .inr ⟨rfl, rest, b, hrest, hb, rfl⟩⟩
    · rw [e] at hg
      exact .inr ⟨rfl, a, b, hg, hb, rfl⟩
    · rw [e] at hg
      obtain ⟨rest, rfl, hrest⟩ := hg
      exact ⟨rest ++ b, by simp, .inr ⟨rfl, rest, b, hrest, hb, rfl⟩⟩

variable {rd1 rd2 : AnyReader} {R1 : rd1.S → Source → Prop} {R2 : rd2.S → Source → Prop}

theorem chained_delivers {s1 : rd1.S} {s2 : rd2.S} {a b : Source} (h1 : R1 s1 a) (h2 : R2 s2 b) : ChainDelivers R1 R2 (chained s1 s2) (a ++ b) :=
  .inr ⟨rfl, a, b, h1, h2, rfl⟩

/-- **C96**, chained sources asked for no bytes: if the first source gives none then and loses none, neither do the two. So a read into an empty buffer is not the end of the first. -/
theorem C96_chain_nothing {s1 : rd1.S} {s2 : rd2.S} {a b : Source} (h : (rd1.read s1 0).1 = .ok []) (h1 : R1 (rd1.read s1 0).2 a) (h2 : R2 s2 b) :
    ((rd1.chain rd2).read (chained s1 s2) 0).1 = .ok [] ∧ ChainDelivers R1 R2 ((rd1.chain rd2).read (chained s1 s2) 0).2 (a ++ b) := by
  show (chainRead rd1 rd2 ⟨false, s1, s2⟩ 0).1 = .ok [] ∧ ChainDelivers R1 R2 (chainRead rd1 rd2 ⟨false, s1, s2⟩ 0).2 (a ++ b)
  rcases e : rd1.read s1 0 with ⟨r, s⟩
  rw [e] at h h1
  simp only at h
  subst h
  simp only [chainRead, e]
  exact ⟨rfl, .inr ⟨rfl, a, b, h1, h2, rfl⟩⟩

/-- **C96**, a PBF file chained with any other source: each of the readers gives what it gives of the file alone if it panics in it; and else its objects, followed by what it
gives of the other source alone, including how that ends. -/
theorem C96_chain_pbf (h1 : Delivers rd1 R1) (h2 : Delivers rd2 R2) {fs : List Frame} (hf : ∀ f ∈ fs, ∃ h, Framed f h) {s1 : rd1.S} {s2 : rd2.S} {src : Source}
    (hr1 : R1 s1 (source (fileBytes fs))) (hr2 : R2 s2 src) {rounds : Nat} (hl : (fileBytes fs).length + src.length < rounds)
    (r : Which) (zlib : Proto.Bytes → Option Proto.Bytes) (b : Build) (ds : List ObjData) (e : Option Panic) :
    ReadsOver (rd1.chain rd2) zlib b rounds (chained s1 s2) r ds e ↔
      (∃ p, e = some p ∧ ReadsOver rd1 zlib b rounds s1 r ds (some p)) ∨
      ∃ ds1 ds2, ReadsOver rd1 zlib b rounds s1 r ds1 none ∧ ReadsOver rd2 zlib b rounds s2 r ds2 e ∧ ds = ds1 ++ ds2 := by
  have hl1 : (source (fileBytes fs)).length < rounds := by simp [source]; omega
  have hl2 : (source (fileBytes fs) ++ src).length < rounds := by simp [source]; omega
  simp only [readsOver h1 hr1 hl1, readsOver h2 hr2 (show src.length < rounds by omega)]
  exact (readsOver (C96_chain_delivers h1 h2) (chained_delivers hr1 hr2) hl2).trans (C96_pbf hf src ds e)

/-- **C96**, the same for the reader of positions. -/
theorem C96_chain_positions (h1 : Delivers rd1 R1) (h2 : Delivers rd2 R2) {fs : List Frame} (hf : ∀ f ∈ fs, ∃ h, Framed f h) {s1 : rd1.S} {s2 : rd2.S} {src : Source}
    (hr1 : R1 s1 (source (fileBytes fs))) (hr2 : R2 s2 src) {rounds : Nat} (hl : (fileBytes fs).length + src.length < rounds)
    (zlib : Proto.Bytes → Option Proto.Bytes) (b : Build) (xs : List (ObjId × (Lat × Lon))) (e : Option Panic) :
    PositionsOver (rd1.chain rd2) zlib b rounds (chained s1 s2) xs e ↔
      (∃ p, e = some p ∧ PositionsOver rd1 zlib b rounds s1 xs (some p)) ∨
      ∃ xs1 xs2, PositionsOver rd1 zlib b rounds s1 xs1 none ∧ PositionsOver rd2 zlib b rounds s2 xs2 e ∧ xs = xs1 ++ xs2 := by
  have hl1 : (source (fileBytes fs)).length < rounds := by simp [source]; omega
  have hl2 : (source (fileBytes fs) ++ src).length < rounds := by simp [source]; omega
  simp only [positionsOver h1 hr1 hl1, positionsOver h2 hr2 (show src.length < rounds by omega)]
  exact (positionsOver (C96_chain_delivers h1 h2) (chained_delivers hr1 hr2) hl2).trans (C96_positions hf src xs e)

/-! ## Changesets -/

section dumps
open QuickXml Spec.Cs Changesets Spec.Lex

theorem results_all {σ α : Type} {f : Nat → σ → Option (Except Err (Option α) × σ)} {s s' : σ} {rs : List (Except Err α)} (h : Results f s rs s') :
    Answers f s (rs.map answer ++ [.ok none]) s' := by
  induction h with
  | done h => exact .cons h .nil
  | ok h _ ih => exact .cons h ih
  | err h _ ih => exact .cons h ih

/-- **C96**, changeset dumps from two chained sources: one answer for each changeset element of the first, then one for each of the second, then the end. -/
theorem C96_chain_dumps (h1 : Delivers rd1 R1) (h2 : Delivers rd2 R2) {t t' : Str} {ts ts' : List Tok} {f f' : Spec.Forest} (ht : Document t ts f) (ht' : Document t' ts' f')
    {ds ds' : List (Bool × Option Data)} (hd : DumpText ts ds) (hd' : DumpText ts' ds') :
    ∃ rs, List.Forall₂ (fun r d => Fits r d.2) rs (ds ++ ds') ∧
      ∀ {s1 : rd1.S} {s2 : rd2.S}, R1 s1 ((Utf8.encode t).map some) → R2 s2 ((Utf8.encode t').map some) → ∀ later,
        ∃ r', Answers (ReaderOver.nextChangeset (rd1.chain rd2)) (ReaderOver.new later (chained s1 s2)) (rs.map answer ++ [.ok none]) r' := by
  obtain ⟨rs, h3, h4⟩ := C96_dumps (l := [(t, ds), (t', ds')]) (by
    simp only [List.mem_cons, List.not_mem_nil, or_false, forall_eq_or_imp, forall_eq]
    exact ⟨⟨ts, f, ht, hd⟩, ts', f', ht', hd'⟩)
  simp only [List.map_cons, List.map_nil, List.flatten_cons, List.flatten_nil, List.append_nil] at h3 h4
  refine ⟨rs, h4, fun {s1 s2} hr1 hr2 later => (C81_changesets (C96_chain_delivers h1 h2) (chained_delivers hr1 hr2) later _).2 ⟨[], ?_⟩⟩
  rw [← List.map_append, ← Utf8.encode_append, eventsOfSource_whole]
  exact results_all h3

/-- **C96**, the tags of changesets in dumps from two chained sources: those of the first, those of the second, then the end. -/
theorem C96_chain_tag_dumps (h1 : Delivers rd1 R1) (h2 : Delivers rd2 R2) {t t' : Str} {ts ts' : List Tok} {f f' : Spec.Forest} (ht : Document t ts f) (ht' : Document t' ts' f')
    {ds ds' : List (UInt64 × List (Str × Str))} (hd : TagDumpText ts ds) (hd' : TagDumpText ts' ds')
    {s1 : rd1.S} {s2 : rd2.S} (hr1 : R1 s1 ((Utf8.encode t).map some)) (hr2 : R2 s2 ((Utf8.encode t').map some)) (later : Events) :
    ∃ r', Answers (nextTagFrom (rd1.chain rd2)) (newTagReaderOver later (chained s1 s2)) ((ds ++ ds').map (fun d => .ok (some d)) ++ [.ok none]) r' := by
  obtain ⟨s', h3⟩ := C96_tag_dumps (l := [(t, ds), (t', ds')]) (by
    simp only [List.mem_cons, List.not_mem_nil, or_false, forall_eq_or_imp, forall_eq]
    exact ⟨⟨ts, f, ht, hd⟩, ts', f', ht', hd'⟩)
  simp only [List.map_cons, List.map_nil, List.flatten_cons, List.flatten_nil, List.append_nil] at h3
  refine (C81_changeset_tags (C96_chain_delivers h1 h2) (chained_delivers hr1 hr2) later _).2 ⟨s', ?_⟩
  rw [← List.map_append, ← Utf8.encode_append, eventsOfSource_whole]
  have h4 := results_all h3
  rw [List.map_map] at h4
  exact h4

/-- The dump of `CsText` byte by byte, chained with itself. -/
example : ∃ r', Answers (nextTagFrom (portions.chain portions))
    (newTagReaderOver [] (chained (rd1 := portions) (rd2 := portions) (AnySourceEx.drip (Utf8.encode CsText.text)) (AnySourceEx.drip (Utf8.encode CsText.text))))
    [.ok (some (7, [(str% "c", str% "'é")])), .ok (some (7, [(str% "c", str% "'é")])), .ok none] r' := by
  obtain ⟨f, h⟩ := CsText.document
  exact C96_chain_tag_dumps portions_delivers portions_delivers h h CsText.tagDumpText CsText.tagDumpText (AnySourceEx.contents_drip _).symm (AnySourceEx.contents_drip _).symm []

/-- The same for changesets. -/
example : ∃ rs, List.Forall₂ (fun r d => Fits r d.2) rs [(true, some CsText.data7), (false, none), (true, some CsText.data7), (false, none)] ∧
    ∃ r', Answers (ReaderOver.nextChangeset (portions.chain portions))
      (ReaderOver.new [] (chained (rd1 := portions) (rd2 := portions) (AnySourceEx.drip (Utf8.encode CsText.text)) (AnySourceEx.drip (Utf8.encode CsText.text))))
      (rs.map answer ++ [.ok none]) r' := by
  obtain ⟨f, h⟩ := CsText.document
  obtain ⟨rs, h1, h2⟩ := C96_chain_dumps (rd1 := portions) (rd2 := portions) portions_delivers portions_delivers h h CsText.dumpText CsText.dumpText
  exact ⟨rs, h1, h2 (AnySourceEx.contents_drip _).symm (AnySourceEx.contents_drip _).symm []⟩

end dumps

/-! ## XML -/

section xml
open Xml

/-- **C96**, XML from two chained sources: if the second begins with an XML declaration, the reader gives the objects of the first and panics. -/
theorem C96_chain_xml_fails (h1 : Delivers rd1 R1) (h2 : Delivers rd2 R2) {norm : Xml.Config} {a : List UInt8} {os : List StringOSMObj}
    (h : Drain XMLReader.next (XMLReader.new norm a) os none []) {w : Char} (hw : isWs w = true) {rest : List UInt8} {s1 : rd1.S} {s2 : rd2.S}
    (hr1 : R1 s1 (a.map some)) (hr2 : R2 s2 ((Utf8.encode (str% "<?xml" ++ [w]) ++ rest).map some)) {rounds : Nat} (hl : 2 * (a.length + rest.length) + 100 < rounds) :
    ∃ s', Drain (XMLReader.Over.next (rd1.chain rd2) norm rounds) (XMLReader.Over.new (chained s1 s2)) os (some .unwrap) s' := by
  have h3 := C96_xml_fails h hw rest
  rw [List.append_assoc, ← over_new] at h3
  have h4 := chained_delivers (rd1 := rd1) (rd2 := rd2) hr1 hr2
  rw [← List.map_append] at h4
  refine (drains_same fun k => C81_xml (C96_chain_delivers h1 h2) h4 norm ?_ k).2 ⟨_, h3⟩
  have : (Utf8.encode (str% "<?xml" ++ [w])).length ≤ 9 := by
    simp only [isWs, Bool.or_eq_true, beq_iff_eq] at hw
    rcases hw with ((rfl | rfl) | rfl) | rfl <;> decide
  simp only [List.length_map, List.length_append]
  omega

/-- **C96**, the same for the change reader. -/
theorem C96_chain_osc_fails (h1 : Delivers rd1 R1) (h2 : Delivers rd2 R2) {norm : Xml.Config} {a : List UInt8} {os : List StringOSMObj}
    (h : Drain OSCReader.next (OSCReader.new norm a) os none []) {w : Char} (hw : isWs w = true) {rest : List UInt8} {s1 : rd1.S} {s2 : rd2.S}
    (hr1 : R1 s1 (a.map some)) (hr2 : R2 s2 ((Utf8.encode (str% "<?xml" ++ [w]) ++ rest).map some)) {rounds : Nat} (hl : 2 * (a.length + rest.length) + 100 < rounds) :
    ∃ s', Drain (OSCReader.Over.next (rd1.chain rd2) norm rounds) (OSCReader.Over.new (chained s1 s2)) os (some .unwrap) s' := by
  rw [osc_next_eq] at h
  rw [osc_next_over]
  exact C96_chain_xml_fails h1 h2 h hw hr1 hr2 hl

/-- The document of `sample_document` byte by byte, chained with itself: one node, then a panic. -/
example : ∃ (o : StringOSMObj) (s' : _), Drain (XMLReader.Over.next (portions.chain portions) .keep 100000)
    (XMLReader.Over.new (chained (rd1 := portions) (rd2 := portions) (AnySourceEx.drip (Utf8.encode sampleText)) (AnySourceEx.drip (Utf8.encode sampleText))))
    [o] (some .unwrap) s' := by
  obtain ⟨os, h1, h2⟩ := C30_text_partial (norm := .keep) (fun _ _ _ _ => rfl) sample_document sample_flat sample_readable
  have hl : os.length = 1 := by simpa [show sampleTree.objects.length = 1 by decide +kernel] using congrArg List.length h2
  obtain ⟨o, rfl⟩ := List.length_eq_one_iff.1 hl
  have e : Utf8.encode sampleText = Utf8.encode (str% "<?xml" ++ [' ']) ++ Utf8.encode (sampleText.drop 6) := by rw [← Utf8.encode_append]; rfl
  refine ⟨o, C96_chain_xml_fails portions_delivers portions_delivers h1 (w := ' ') (by decide) (rest := Utf8.encode (sampleText.drop 6)) (AnySourceEx.contents_drip _).symm ?_ (by decide +kernel)⟩
  rw [← e]
  exact (AnySourceEx.contents_drip _).symm

end xml

/-- A source with two bytes left, asked for none, and another behind it. -/
example : ChainDelivers (S := List Portion) (T := List Portion) (fun s src => src = contents s) (fun s src => src = contents s)
    ((portions.chain portions).read (chained (rd1 := portions) (rd2 := portions) [.bytes 1 [2]] [.bytes 3 []]) 0).2 ([some 1, some 2] ++ [some 3]) :=
  (C96_chain_nothing (rd1 := portions) (rd2 := portions) (R1 := fun s src => src = contents s) (R2 := fun s src => src = contents s) rfl rfl rfl).2

/-- The example PBF file, byte by byte, and then the same again: twelve objects and the end. -/
example (r : Which) (b : Build) : ReadsOver (portions.chain portions) some b 20000
    (chained (AnySourceEx.drip (fileBytes PbfEx.file)) (AnySourceEx.drip (fileBytes PbfEx.file))) r (PbfEx.fileData.flatten ++ PbfEx.fileData.flatten) none := by
  have hr : source (fileBytes PbfEx.file) = contents (AnySourceEx.drip (fileBytes PbfEx.file)) := (AnySourceEx.contents_drip _).symm
  have hl : (source (fileBytes PbfEx.file)).length < 10000 := by decide +kernel
  have hl' : (fileBytes PbfEx.file).length < 10000 := by simpa [source] using hl
  have hf : ∀ f ∈ PbfEx.file, ∃ h, Framed f h :=
    forall2_left (P := fun f => ∃ h, Framed f h) (fun _ _ => frameReads_framed) (PbfEx.file_reads .owned .debug)
  have h : Reads r some b (source (fileBytes PbfEx.file)) PbfEx.fileData.flatten none := by
    obtain ⟨h1, h2, h3⟩ := PbfEx.accepted r b
    exact (C41_blocks PbfEx.file_is).2 ⟨_, .cons h1 (.cons h2 (.cons h3 .nil)), rfl⟩
  have ho := (readsOver portions_delivers hr (rounds := 20000) (by omega)).2 h
  exact (C96_chain_pbf portions_delivers portions_delivers hf hr hr (by omega) r some b _ none).2 (.inr ⟨_, _, ho, ho, rfl⟩)

end Osmio
