import Verif.Proofs.ChangesetStream
import Verif.Props.ChangesetCut
import Verif.Props.AnySource
import Verif.Proofs.XmlOver
/-!
# C81, C89 and C75: the changeset readers over a stream

The readers pull the events of quick-xml through a `BufReader` from any implementation of `Read`. The answers depend only on the bytes (C81). They come as
soon as the text that settles them has come, and the source is read less than a buffer further (C89). What is in the buffer is lost when the stream is taken back (C75).
`later` is what quick-xml gives after an error of the source, anything.
-/

namespace Osmio
open QuickXml Spec Spec.Cs Changesets Spec.Lex

namespace Changesets

theorem pos_size : 0 < bufferSize := by decide

theorem next_plain (c : Unit) (E : Events) : Steps nextChangeset plain c E ∨ Stuck nextChangeset plain c E := next_dichotomy E

/-! ## Errors of the XML come from the events -/

theorem value_xml (a : Attr) : value a ≠ .error .xml := by
  unfold value; split <;> simp

theorem parsed_xml {α : Type} (p : Str → Option α) (a : Attr) : parsed p a ≠ .error .xml := by
  unfold parsed
  split
  · split <;> simp
  · simp

theorem map_xml {α β : Type} {x : Except Err α} (h : x ≠ .error .xml) (f : α → β) : x.map f ≠ .error .xml := by
  cases x with
  | ok a => intro h'; cases h'
  | error e => intro h'; exact h (by cases h'; rfl)

theorem setAttr_xml (b : Builder) (a : Attr) : setAttr b a ≠ .error .xml := by
  have ho : openValue a ≠ .error .xml := by
    unfold openValue
    split
    · simp
    · split <;> simp
  unfold setAttr
  simp only
  repeat' split
  all_goals first
    | exact map_xml (parsed_xml _ _) _
    | exact map_xml (value_xml _) _
    | exact map_xml ho _
    | simp

theorem setAttrs_xml (attrs : Attrs) : ∀ b, setAttrs b attrs ≠ .error .xml := by
  induction attrs with
  | nil => intro b h; cases h
  | cons x attrs ih =>
    intro b
    cases x with
    | none => intro h; cases h
    | some a =>
      rw [setAttrs]
      cases hs : setAttr b a with
      | ok b' => exact ih b'
      | error e => intro h; exact setAttr_xml b a (hs.trans h)

theorem tagAttrs_xml (attrs : Attrs) : ∀ kv, tagAttrs kv attrs ≠ .error .xml := by
  induction attrs with
  | nil => intro b h; cases h
  | cons x attrs ih =>
    intro kv
    cases x with
    | none => intro h; cases h
    | some a =>
      rw [tagAttrs]
      have ha : tagAttr kv a ≠ .error .xml := by
        unfold tagAttr
        simp only
        repeat' split
        all_goals first
          | exact map_xml (value_xml _) _
          | simp
      cases hs : tagAttr kv a with
      | ok kv' => exact ih kv'
      | error e => intro h; cases h; exact ha hs

theorem tagOf_xml (attrs : Attrs) : tagOf attrs ≠ .error .xml := by
  unfold tagOf
  split
  · simp
  · simp
  · simp
  · rename_i e he
    intro h
    cases h
    exact tagAttrs_xml attrs _ he

theorem built_xml (b : Builder) (m : TagMap) : built b m ≠ .error .xml := by
  unfold built Builder.build
  split
  · intro h; cases h
  · intro h; cases h

theorem readTags_xml (n : Nat) : ∀ (tags : TagMap) (E E' : Events), readTags n tags E = some (.error .xml, E') → none ∈ E := by
  induction n with
  | zero => intro _ _ _ h; cases h
  | succ n ih =>
    intro tags E E' h
    cases E with
    | nil => rw [readTags_nil] at h; cases h
    | cons y t =>
      cases y with
      | none => exact List.mem_cons_self
      | some e =>
        rcases event_cases e with hc | ⟨attrs, ho⟩ | ⟨hc, hs⟩
        · rw [readTags_closes hc] at h; cases h
        · rw [readTags_tag ho] at h
          cases ht : tagOf attrs with
          | ok kv => rw [ht] at h; exact List.mem_cons_of_mem _ (ih _ _ _ h)
          | error er =>
            rw [ht] at h
            simp only [Option.some.injEq, Prod.mk.injEq, Except.error.injEq] at h
            exact absurd (h.1 ▸ ht) (tagOf_xml attrs)
        · rw [readTags_skip hc hs] at h; exact List.mem_cons_of_mem _ (ih _ _ _ h)

theorem next_xml (n : Nat) : ∀ (E E' : Events), nextChangeset n E = some (.error .xml, E') → none ∈ E := by
  induction n with
  | zero => intro _ _ h; cases h
  | succ n ih =>
    intro E E' h
    cases E with
    | nil => cases h
    | cons y t =>
      cases y with
      | none => exact List.mem_cons_self
      | some e =>
        refine List.mem_cons_of_mem _ ?_
        rcases next_cases e with ⟨nm, attrs, rfl, hn⟩ | ⟨nm, attrs, rfl, hn⟩ | hs
        · rw [next_start hn] at h
          cases hb : setAttrs {} attrs with
          | error er =>
            rw [hb] at h
            simp only [Option.some.injEq, Prod.mk.injEq, Except.error.injEq] at h
            exact absurd (h.1 ▸ hb) (setAttrs_xml attrs _)
          | ok b =>
            simp only [hb] at h
            cases ht : readTags n [] t with
            | none => rw [ht] at h; cases h
            | some y =>
              obtain ⟨x, E1⟩ := y
              rw [ht] at h
              cases x with
              | error er =>
                simp only [Option.some.injEq, Prod.mk.injEq, Except.error.injEq] at h
                rw [h.1] at ht
                exact readTags_xml _ _ _ _ ht
              | ok m =>
                simp only [Option.some.injEq, Prod.mk.injEq] at h
                exact absurd h.1 (built_xml _ _)
        · rw [next_empty hn] at h
          cases hb : setAttrs {} attrs with
          | error er =>
            rw [hb] at h
            simp only [Option.some.injEq, Prod.mk.injEq, Except.error.injEq] at h
            exact absurd (h.1 ▸ hb) (setAttrs_xml attrs _)
          | ok b =>
            rw [hb] at h
            simp only [Option.some.injEq, Prod.mk.injEq] at h
            exact absurd h.1 (built_xml _ _)
        · rw [next_skip hs] at h
          exact ih _ _ h

theorem results_xml {E E' : Events} {rs : List (Except Err Changeset)} (h : Results nextChangeset E rs E') : none ∉ E → .error .xml ∉ rs := by
  induction h with
  | done _ => exact fun _ => List.not_mem_nil
  | ok h _ ih =>
    intro hn
    obtain ⟨n, h⟩ := h
    obtain ⟨D, _, E1, rfl, rfl, -⟩ := next_framed n () _ _ _ h (by simp)
    have := ih fun hm => hn (List.mem_append_right _ hm)
    simpa using this
  | @err s s1 s' e rs h _ ih =>
    intro hn
    obtain ⟨n, h⟩ := h
    have he : e ≠ .xml := by
      rintro rfl
      exact hn (next_xml n _ _ h)
    obtain ⟨D, _, E1, rfl, rfl, -⟩ := next_framed n () _ _ _ h (by simp)
    have := ih fun hm => hn (List.mem_append_right _ hm)
    simp only [List.mem_cons, Except.error.injEq, not_or]
    exact ⟨fun h => he h.symm, this⟩

/-- The events of a text without errors in the XML settle the results, and no more. -/
theorem settles_results {σ γ α : Type} {f : Nat → σ → Option (Except Err (Option α) × σ)} {st : γ → Events → σ}
    (h : ∀ c E, Steps f st c E ∨ Stuck f st c E) (hf : ∀ n s x, f n s = some x → f (n + 1) s = some x) (c : γ) {a : List UInt8}
    (hn : none ∉ eventsOf a) {rs : List (Except Err α)} {s' : σ} (hr : Results f (st c (eventsOf a)) rs s') (hx : .error .xml ∉ rs) (k : Nat) :
    SettlesFor f (st c) k a ↔ k ≤ rs.length := by
  obtain ⟨c', E', h1, c'', ⟨n, h2⟩, -⟩ := all_settled h hf c hn hr
  constructor
  · rintro ⟨rs', hl, hx', ha⟩
    by_contra hlt
    obtain ⟨s2, h3⟩ := ha [none] []
    rw [eventsOfSource_fails] at h3
    have h4 : Answers f (st c (settled a ++ none :: [])) (rs.map answer ++ [.error .xml]) (st c'' []) := Answers.append (h1 _) (.cons ⟨n, h2 _⟩ .nil)
    obtain ⟨s3, h5⟩ := answers_take h3 (n := rs.length + 1) (by omega)
    obtain ⟨e, -⟩ := answers_unique hf h4 h5 (by simp; omega)
    have : Except.error Err.xml ∈ rs'.take (rs.length + 1) := by rw [← e]; simp
    exact hx' (List.mem_of_mem_take this)
  · intro hk
    refine ⟨(rs.map answer).take k, by simpa using hk, fun hm => ?_, fun after later => ?_⟩
    · obtain ⟨r, h3, h4⟩ := List.mem_map.1 (List.mem_of_mem_take hm)
      cases r with
      | ok x => cases h4
      | error e => cases h4; exact hx h3
    · obtain ⟨X, hX⟩ := eventsOfSource_begins later a after
      rw [← hX]
      exact answers_take (h1 X) (by simpa using hk)

end Changesets

/-! ## C81 -/

/-- **C81** for `ChangesetReader`: the answers are those of the bytes and errors of the source, however it hands them out. -/
theorem C81_changesets {rd : AnyReader} {R : rd.S → Source → Prop} (h : Delivers rd R) {s : rd.S} {src : Source} (hr : R s src) (later : Events)
    (rs : List (Except Err (Option Changeset))) :
    (∃ r', Answers (ReaderOver.nextChangeset rd) (ReaderOver.new later s) rs r') ↔ ∃ evs', Answers nextChangeset (eventsOfSource later src) rs evs' := by
  have hd := delivers_at h pos_size
  have hs : ToPull R bufferSize later s src (ReaderOver.new later s).reader (allEvents later (marked rd bufferSize s) src) := .inr ⟨rfl, rfl⟩
  refine Iff.trans ⟨?_, ?_⟩ (lead_answers next_mono next_skips (c := ()) (allEvents_lead (marked_bom hd hr)))
  · rintro ⟨r', ha⟩
    obtain ⟨u', -, h2⟩ := agree_from (Changesets.next_agree hd hr) ha hs
    exact ⟨u', h2⟩
  · rintro ⟨u', ha⟩
    obtain ⟨r', -, h2⟩ := agree_to (Changesets.next_agree hd hr) ha (s := ReaderOver.new later s) hs
    exact ⟨r', h2⟩

/-- **C81** for `ChangesetTagReader`. -/
theorem C81_changeset_tags {rd : AnyReader} {R : rd.S → Source → Prop} (h : Delivers rd R) {s : rd.S} {src : Source} (hr : R s src) (later : Events)
    (rs : List (Except Err (Option (UInt64 × List (Str × Str))))) :
    (∃ r', Answers (nextTagFrom rd) (newTagReaderOver later s) rs r') ↔ ∃ u', Answers nextTag (newTagReader (eventsOfSource later src)) rs u' := by
  have hd := delivers_at h pos_size
  have hs : TagSim (ToPull R bufferSize later s src) (newTagReaderOver later s)
      (withEvents (none, []) (allEvents later (marked rd bufferSize s) src)) := ⟨.inr ⟨rfl, rfl⟩, rfl, rfl⟩
  refine Iff.trans ⟨?_, ?_⟩ (lead_answers tag_mono tag_skips (c := (none, [])) (allEvents_lead (marked_bom hd hr)))
  · rintro ⟨r', ha⟩
    obtain ⟨u', -, h2⟩ := agree_from (tag_agree hd hr) ha hs
    exact ⟨u', h2⟩
  · rintro ⟨u', ha⟩
    obtain ⟨r', -, h2⟩ := agree_to (tag_agree hd hr) ha hs
    exact ⟨r', h2⟩

/-- Two sources with the same bytes, however they give them: the same answers from both readers. -/
theorem C81_changesets_same {rd1 rd2 : AnyReader} {R1 : rd1.S → Source → Prop} {R2 : rd2.S → Source → Prop} (h1 : Delivers rd1 R1) (h2 : Delivers rd2 R2)
    {s1 : rd1.S} {s2 : rd2.S} {src : Source} (hr1 : R1 s1 src) (hr2 : R2 s2 src) (later : Events) :
    (∀ rs, (∃ r', Answers (ReaderOver.nextChangeset rd1) (ReaderOver.new later s1) rs r') ↔
      ∃ r', Answers (ReaderOver.nextChangeset rd2) (ReaderOver.new later s2) rs r') ∧
    ∀ rs, (∃ r', Answers (nextTagFrom rd1) (newTagReaderOver later s1) rs r') ↔ ∃ r', Answers (nextTagFrom rd2) (newTagReaderOver later s2) rs r' :=
  ⟨fun rs => (C81_changesets h1 hr1 later rs).trans (C81_changesets h2 hr2 later rs).symm,
   fun rs => (C81_changeset_tags h1 hr1 later rs).trans (C81_changeset_tags h2 hr2 later rs).symm⟩

/-- A call has one answer. -/
theorem C81_changesets_unique {rd : AnyReader} {R : rd.S → Source → Prop} (h : Delivers rd R) {s : rd.S} {src : Source} (hr : R s src) (later : Events)
    {rs rs' : List (Except Err (Option Changeset))} {r r' : ReaderOver rd.S} (ha : Answers (ReaderOver.nextChangeset rd) (ReaderOver.new later s) rs r)
    (ha' : Answers (ReaderOver.nextChangeset rd) (ReaderOver.new later s) rs' r') (hl : rs.length = rs'.length) : rs = rs' := by
  obtain ⟨_, h1⟩ := (C81_changesets h hr later rs).1 ⟨_, ha⟩
  obtain ⟨_, h2⟩ := (C81_changesets h hr later rs').1 ⟨_, ha'⟩
  exact (answers_unique next_mono h1 h2 hl).1

/-! ## C89 -/

/-- **C89** for `ChangesetReader`: the calls whose answers a text settles return, with these answers, whatever follows; and then the source has been read to the end of the
text that settles them, and less than a buffer further. `after` is what comes after that text, whatever it is; `ahead` is the part of it that has been read already. -/
theorem C89_changesets {rd : AnyReader} {R : rd.S → Source → Prop} (h : Delivers rd R) {k : Nat} {a : List UInt8} (hj : Just (Settles k) a)
    {after : Source} {s : rd.S} (hr : R s (a.map some ++ after)) (later : Events) :
    (∃ rs r', rs.length = k ∧ Answers (ReaderOver.nextChangeset rd) (ReaderOver.new later s) rs r') ∧
    ∀ rs r', rs.length = k → Answers (ReaderOver.nextChangeset rd) (ReaderOver.new later s) rs r' →
      ∃ (ahead : List UInt8) (rest : Source), ahead.length < 8192 ∧ after = ahead.map some ++ rest ∧ R r'.intoInner rest := by
  have hd := delivers_at h pos_size
  constructor
  · obtain ⟨rs, hl, -, ha⟩ := hj.1
    obtain ⟨r', ha'⟩ := (C81_changesets h hr later rs).2 (ha after later)
    exact ⟨rs, r', hl, ha'⟩
  · intro rs r' hl ha
    by_cases h0 : 0 < k
    · have hs : ToPull R bufferSize later s (a.map some ++ after) (ReaderOver.new later s).reader
        (allEvents later (marked rd bufferSize s) (a.map some ++ after)) := .inr ⟨rfl, rfl⟩
      obtain ⟨u', h1, h2⟩ := agree_from (Changesets.next_agree hd hr) ha hs
      exact pulled_position (st := plain) (c := ()) (c' := ()) next_plain next_mono next_skips next_framed (fun _ _ _ _ e => e) hd hr h0 hj hl h2 h1
    · have hk : k = 0 := by omega
      subst hk
      have hrs := List.length_eq_zero_iff.1 hl
      subst hrs
      cases ha
      have ha0 : a = [] := by
        by_contra hne
        exact hj.2 [] List.nil_prefix (fun e => hne e.symm) ⟨[], rfl, by simp, fun _ _ => ⟨_, .nil⟩⟩
      subst ha0
      exact ⟨[], after, by simp, rfl, hr⟩

/-- **C89** for `ChangesetTagReader`. -/
theorem C89_changeset_tags {rd : AnyReader} {R : rd.S → Source → Prop} (h : Delivers rd R) {k : Nat} {a : List UInt8} (hj : Just (SettlesTags k) a)
    {after : Source} {s : rd.S} (hr : R s (a.map some ++ after)) (later : Events) :
    (∃ rs r', rs.length = k ∧ Answers (nextTagFrom rd) (newTagReaderOver later s) rs r') ∧
    ∀ rs r', rs.length = k → Answers (nextTagFrom rd) (newTagReaderOver later s) rs r' →
      ∃ (ahead : List UInt8) (rest : Source), ahead.length < 8192 ∧ after = ahead.map some ++ rest ∧ R r'.reader.src.inner rest := by
  have hd := delivers_at h pos_size
  constructor
  · obtain ⟨rs, hl, -, ha⟩ := hj.1
    obtain ⟨r', ha'⟩ := (C81_changeset_tags h hr later rs).2 (ha after later)
    exact ⟨rs, r', hl, ha'⟩
  · intro rs r' hl ha
    by_cases h0 : 0 < k
    · have hs : TagSim (ToPull R bufferSize later s (a.map some ++ after)) (newTagReaderOver later s)
          (withEvents (none, []) (allEvents later (marked rd bufferSize s) (a.map some ++ after))) := ⟨.inr ⟨rfl, rfl⟩, rfl, rfl⟩
      obtain ⟨⟨evs', id', tags'⟩, ⟨h1, -, -⟩, h2⟩ := agree_from (tag_agree hd hr) ha hs
      exact pulled_position (st := withEvents) (c := (none, [])) (c' := (id', tags')) tag_both tag_mono tag_skips tag_framed
        (fun _ _ _ _ e => congrArg TagReader.evs e) hd hr h0 hj hl h2 h1
    · have hk : k = 0 := by omega
      subst hk
      have hrs := List.length_eq_zero_iff.1 hl
      subst hrs
      cases ha
      have ha0 : a = [] := by
        by_contra hne
        exact hj.2 [] List.nil_prefix (fun e => hne e.symm) ⟨[], rfl, by simp, fun _ _ => ⟨_, .nil⟩⟩
      subst ha0
      exact ⟨[], after, by simp, rfl, hr⟩

/-- Making a reader reads nothing. -/
theorem C89_changesets_untouched {S : Type} (later : Events) (s : S) :
    (ReaderOver.new later s).intoInner = s ∧ (newTagReaderOver later s).reader.src.inner = s := ⟨rfl, rfl⟩

/-- A text that settles answers begins with one that just settles them, and only one. -/
theorem C89_changesets_just {P : List UInt8 → Prop} {a : List UInt8} (h : P a) :
    (∃ a', a' <+: a ∧ Just P a') ∧ ∀ a' a'', Just P a' → Just P a'' → a' <+: a → a'' <+: a → a' = a'' := by
  constructor
  · induction hn : a.length using Nat.strongRecOn generalizing a with
    | ind n ih =>
      by_cases hx : ∃ a', a' <+: a ∧ a' ≠ a ∧ P a'
      · obtain ⟨a', h1, h2, h3⟩ := hx
        have hlt : a'.length < n := by
          rw [← hn]
          refine Nat.lt_of_le_of_ne h1.length_le fun e => h2 (h1.eq_of_length e)
        obtain ⟨a'', j1, j2⟩ := ih _ hlt h3 rfl
        exact ⟨a'', j1.trans h1, j2⟩
      · exact ⟨a, List.prefix_rfl, h, fun a' h1 h2 h3 => hx ⟨a', h1, h2, h3⟩⟩
  · intro a' a'' h1 h2 p1 p2
    by_contra hne
    rcases List.prefix_or_prefix_of_prefix p1 p2 with hp | hp
    · exact h2.2 a' hp hne h1.1
    · exact h1.2 a'' hp (fun h => hne h.symm) h2.1

/-- Which texts settle answers: a text that begins a document, and whose parts are a dump of `ds`, settles as many as `ds` has, and no more. -/
theorem C89_changesets_settled {t : Str} {ts : List Tok} (h : Begins t ts) {ds : List (Bool × Option Data)} (hd : DumpText ts ds)
    (bom : List UInt8) (hb : bom = [] ∨ bom = [0xEF, 0xBB, 0xBF]) (k : Nat) : Settles k (bom ++ Utf8.encode t) ↔ k ≤ ds.length := by
  obtain ⟨h1, h2⟩ := reports_begins h hb
  obtain ⟨rs, h3, h4⟩ := dump_results (dump_of_text hd h2 h1)
  rw [← h4.length_eq]
  exact settles_results next_both next_mono () (reports_sound h1) h3 (results_xml h3 (reports_sound h1)) k

/-- The same for the tag reader. -/
theorem C89_changeset_tags_settled {t : Str} {ts : List Tok} (h : Begins t ts) {ds : List (UInt64 × List (Str × Str))} (hd : TagDumpText ts ds)
    (bom : List UInt8) (hb : bom = [] ∨ bom = [0xEF, 0xBB, 0xBF]) (k : Nat) : SettlesTags k (bom ++ Utf8.encode t) ↔ k ≤ ds.length := by
  obtain ⟨h1, h2⟩ := reports_begins h hb
  obtain ⟨s', -, h3⟩ := tagDump_results (tagDump_of_text hd h2 h1) none []
  have := settles_results tag_both tag_mono (none, []) (reports_sound h1) h3 (by simp) k
  rw [List.length_map] at this
  exact this

/-! ## C75 -/

/-- `get_ref` shows the stream that `into_inner` gives back. -/
theorem C75_changesets_ref {S : Type} (r : ReaderOver S) : r.getRef = r.intoInner := rfl

/-- A source that has everything in one portion. -/
def OneGo (b : UInt8) (bs : List UInt8) (st : List Portion) (src : Source) : Prop :=
  (st = [.bytes b bs] ∧ src = (b :: bs).map some) ∨ (st = [] ∧ src = [])

theorem oneGo_delivers {b : UInt8} {bs : List UInt8} (hb : bs.length < 8192) : DeliversAt bufferSize portions (OneGo b bs) := by
  rintro st src (⟨rfl, rfl⟩ | ⟨rfl, rfl⟩)
  · have hread : portions.read [Portion.bytes b bs] bufferSize = (.ok (b :: bs), []) := by
      show readPortion [Portion.bytes b bs] bufferSize = _
      simp only [readPortion]
      rw [List.drop_eq_nil_of_le (by simp only [List.length_cons, bufferSize]; omega)]
    rw [hread]
    exact ⟨[], by simp, .inr ⟨rfl, rfl⟩⟩
  · exact ⟨rfl, .inr ⟨rfl, rfl⟩⟩

/-- The stream cannot be taken back as it can from the PBF readers (C75): from a source of up to 8 KiB that gives what it is asked for, such as a file or a slice,
everything is gone after the first answer, whatever comes after the text that was needed. -/
theorem C75_changesets_back_fails {k : Nat} {a : List UInt8} (hk : 0 < k) (hj : Just (Settles k) a) (after : List UInt8)
    (hs : a.length + after.length ≤ 8192) {b : UInt8} {bs : List UInt8} (he : a ++ after = b :: bs) (later : Events)
    {rs : List (Except Err (Option Changeset))} (hl : rs.length = k) {r' : ReaderOver (List Portion)}
    (ha : Answers (ReaderOver.nextChangeset portions) (ReaderOver.new later [.bytes b bs]) rs r') : r'.intoInner = [] := by
  have hlen := congrArg List.length he
  simp only [List.length_append, List.length_cons] at hlen
  have hsrc : a.map some ++ after.map some = (b :: bs).map some := by rw [← he, List.map_append]
  have hd := oneGo_delivers (b := b) (bs := bs) (by omega)
  have hr : OneGo b bs [.bytes b bs] (a.map some ++ after.map some) := .inl ⟨rfl, hsrc⟩
  have hs : ToPull (rd := portions) (OneGo b bs) bufferSize later [.bytes b bs] (a.map some ++ after.map some) (ReaderOver.new later [.bytes b bs]).reader
    (allEvents later (marked portions bufferSize [.bytes b bs]) (a.map some ++ after.map some)) := .inr ⟨rfl, rfl⟩
  obtain ⟨u', h1, h2⟩ := agree_from (Changesets.next_agree hd hr) ha hs
  obtain ⟨ahead, rest, h3, h4, h5⟩ := pulled_position (st := plain) (c := ()) (c' := ()) next_plain next_mono next_skips next_framed
    (fun _ _ _ _ e => e) hd hr hk hj hl h2 h1
  rcases h5 with ⟨-, h6⟩ | ⟨h6, -⟩
  · exfalso
    have h7 := congrArg List.length h4
    rw [h6] at h7
    simp only [List.length_append, List.length_map, List.length_cons] at h7
    have ha0 : a = [] := List.length_eq_zero_iff.1 (by omega)
    subst ha0
    obtain ⟨rs', hl', hx, hy⟩ := hj.1
    obtain ⟨s2, hy⟩ := hy [none] []
    cases hy with
    | nil => simp at hl'; omega
    | cons h8 _ =>
      obtain ⟨e, -⟩ := returns_unique next_mono h8 ⟨1, rfl⟩
      exact hx (by rw [e]; exact List.mem_cons_self)
  · exact h6

/-! ## Examples -/

namespace CsText

theorem first_answer {σ α : Type} {f : Nat → σ → Option (Except Err (Option α) × σ)} {s s' : σ} {rs : List (Except Err (Option α))}
    (h : Answers f s rs s') (hl : rs.length = 1) : ∃ r s1, rs = [r] ∧ Returns f s r s1 := by
  cases h with
  | nil => simp at hl
  | cons h1 h2 =>
    cases h2 with
    | nil => exact ⟨_, _, rfl, h1⟩
    | cons _ _ => simp at hl

/-- The text of `cut` settles one answer, and nothing shorter does. -/
theorem cutJust : Just (Settles 1) (Utf8.encode cut) := by
  refine ⟨(C89_changesets_settled begins cutDump [] (.inl rfl) 1).2 (by simp), fun a' hp hne h => ?_⟩
  obtain ⟨x, hx⟩ : a' <+: (Utf8.encode cut).dropLast := by
    refine prefix_snoc (b := 62) ?_ ?_
    · rw [show (Utf8.encode cut).dropLast ++ [62] = Utf8.encode cut by decide +kernel]; exact hp
    · rw [show (Utf8.encode cut).dropLast ++ [62] = Utf8.encode cut by decide +kernel]; exact hne
  obtain ⟨rs, hl, hr, ha⟩ := h
  obtain ⟨s', ha⟩ := ha (x.map some ++ [none]) []
  rw [← List.append_assoc, ← List.map_append, hx, eventsOfSource_fails] at ha
  obtain ⟨r, s1, hrs, h1⟩ := first_answer ha hl
  · have h2 : ((nextChangeset 100 (settled (Utf8.encode cut).dropLast ++ [none])).map (·.1)) = some (.error .xml) := by decide +kernel
    cases h3 : nextChangeset 100 (settled (Utf8.encode cut).dropLast ++ [none]) with
    | none => rw [h3] at h2; cases h2
    | some y =>
      obtain ⟨y, E⟩ := y
      rw [h3] at h2
      cases h2
      obtain ⟨e, -⟩ := returns_unique next_mono h1 ⟨100, h3⟩
      exact hr (by rw [hrs, e]; exact List.mem_cons_self)

/-- The bytes one by one, each after an interruption: after the first changeset at most a buffer of what follows has been read. -/
example (after : List UInt8) (later : Events) : ∃ rs r', rs.length = 1 ∧
    Answers (ReaderOver.nextChangeset portions) (ReaderOver.new later (AnySourceEx.drip (Utf8.encode cut ++ after))) rs r' ∧
      ∃ (ahead : List UInt8) (rest : Source), ahead.length < 8192 ∧ after.map some = ahead.map some ++ rest ∧ rest = contents r'.intoInner := by
  have hr : (Utf8.encode cut).map some ++ after.map some = contents (AnySourceEx.drip (Utf8.encode cut ++ after)) := by
    rw [AnySourceEx.contents_drip, ← List.map_append]
    rfl
  obtain ⟨⟨rs, r', h1, h2⟩, h3⟩ := C89_changesets (rd := portions) (R := fun s src => src = contents s) portions_delivers cutJust hr later
  exact ⟨rs, r', h1, h2, h3 rs r' h1 h2⟩

/-- In one portion with what follows, all that follows is gone. -/
example (after : List UInt8) (h : after.length ≤ 7000) (later : Events) {rs : List (Except Err (Option Changeset))} (hl : rs.length = 1)
    {r' : ReaderOver (List Portion)}
    (ha : Answers (ReaderOver.nextChangeset portions) (ReaderOver.new later [.bytes 60 ((Utf8.encode cut).tail ++ after)]) rs r') :
    r'.intoInner = [] := by
  have ht : (Utf8.encode cut).length ≤ 1000 := by decide +kernel
  refine C75_changesets_back_fails (by omega) cutJust after (by omega) ?_ later hl ha
  rw [show Utf8.encode cut = 60 :: (Utf8.encode cut).tail by decide +kernel]
  rfl

end CsText
end Osmio
