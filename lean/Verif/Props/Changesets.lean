import Verif.Proofs.ChangesetTags
/-!
# Properties of the changeset readers

Statements use `Verif/Spec/Changesets.lean`: `Dump evs ds` says which changeset elements a sequence of events
holds, `Returns` that a call returns (after finitely many iterations), `Results` what the calls return up to
the first `Ok(None)`.
-/

namespace Osmio
open QuickXml Spec.Cs Changesets

/-! ## A dump to try the theorems on -/

namespace CsEx

/-- An attribute. -/
def at_ (k v : Str) : Option Attr := some ⟨Utf8.encode k, Utf8.encode v⟩
/-- A name. -/
def nm (s : Str) : List UInt8 := Utf8.encode s

/-- `id="1" created_at="2020-01-01T00:00:00Z" open="true" num_changes="2" comments_count="0" user="A &amp; B"` -/
def attrs1 : Attrs := [at_ (str% "id") (str% "1"), at_ (str% "created_at") (str% "2020-01-01T00:00:00Z"),
  at_ (str% "open") (str% "true"), at_ (str% "num_changes") (str% "2"), at_ (str% "comments_count") (str% "0"),
  at_ (str% "user") (str% "A &amp; B")]
/-- `id="7" created_at="x" closed_at="y" open="false" num_changes="3" comments_count="1" uid="-5" min_lat="2"` -/
def attrs7 : Attrs := [at_ (str% "id") (str% "7"), at_ (str% "created_at") (str% "x"),
  at_ (str% "closed_at") (str% "y"), at_ (str% "open") (str% "false"), at_ (str% "num_changes") (str% "3"),
  at_ (str% "comments_count") (str% "1"), at_ (str% "uid") (str% "-5"), at_ (str% "min_lat") (str% "2")]
/-- `k="comment" v="it&#39;s"` -/
def tagA : Attrs := [at_ (str% "k") (str% "comment"), at_ (str% "v") (str% "it&#39;s")]
/-- No id, and an unknown value for open. -/
def attrsBad : Attrs := [at_ (str% "open") (str% "yes")]

def data1 : Data :=
  { id := 1, created := str% "2020-01-01T00:00:00Z", closed := none, isOpen := true, uid := none,
    user := some (str% "A & B"), numChanges := 2, commentsCount := 0, tags := [] }
def data7 : Data :=
  { id := 7, created := str% "x", closed := some (str% "y"), isOpen := false, uid := some (-5),
    user := none, numChanges := 3, commentsCount := 1, tags := [(str% "comment", str% "it's")] }

/-- The inside of the second changeset: text and a tag. -/
def body7 : Events := [some .other, some (.empty (nm (str% "tag")) tagA)]
/-- `<osm>`, a changeset without children, one with a tag, `</osm>`. -/
def dump : Events :=
  [some (.start (nm (str% "osm")) []), some (.empty (nm (str% "changeset")) attrs1), some .other,
   some (.start (nm (str% "changeset")) attrs7)] ++
    (body7 ++ [some (.end_ (nm (str% "changeset"))), some (.end_ (nm (str% "osm")))])
/-- The same with a malformed changeset between the two. -/
def dumpBad : Events :=
  [some (.empty (nm (str% "changeset")) attrs1), some (.start (nm (str% "changeset")) attrsBad)] ++
    (body7 ++ [some (.end_ (nm (str% "changeset"))), some (.start (nm (str% "changeset")) attrs7)] ++
    (body7 ++ [some (.end_ (nm (str% "changeset")))]))

theorem neutral_start {n : List UInt8} {a : Attrs} (h1 : ¬ Named n (str% "changeset")) (h2 : ¬ Named n (str% "tag")) :
    Neutral (.start n a) := by
  refine ⟨?_, ?_, ?_⟩
  · rintro x ⟨m, h | h, hm⟩ <;> cases h; exact h1 hm
  · rintro ⟨m, h, hm⟩; cases h
  · rintro x ⟨m, h | h, hm⟩ <;> cases h; exact h2 hm

theorem neutral_end {n : List UInt8} (h1 : ¬ Named n (str% "changeset")) : Neutral (.end_ n) := by
  refine ⟨?_, ?_, ?_⟩
  · rintro x ⟨m, h | h, hm⟩ <;> cases h
  · rintro ⟨m, h, hm⟩; cases h; exact h1 hm
  · rintro x ⟨m, h | h, hm⟩ <;> cases h

theorem neutral_other : Neutral .other := by
  refine ⟨?_, ?_, ?_⟩
  · rintro x ⟨m, h | h, hm⟩ <;> cases h
  · rintro ⟨m, h, hm⟩; cases h
  · rintro x ⟨m, h | h, hm⟩ <;> cases h

theorem has {attrs : Attrs} {k raw s : Str} (h1 : at_ k raw ∈ attrs) (h2 : Named (Utf8.encode k) k)
    (h3 : Attr.normalizedValue ⟨Utf8.encode k, Utf8.encode raw⟩ = some s) : HasAttr attrs k s :=
  ⟨⟨Utf8.encode k, Utf8.encode raw⟩, h1, h2, bytes_of h3⟩

theorem lacks {attrs : Attrs} {k : Str} (h : ∀ o ∈ attrs, ∀ a ∈ o.toList, ¬ Named a.key k) : Lacks attrs k :=
  fun a ha => h (some a) ha a (by simp)

theorem sound1 : Sound attrs1 := ⟨by decide +kernel, by decide +kernel⟩
theorem sound7 : Sound attrs7 := ⟨by decide +kernel, by decide +kernel⟩
theorem soundA : Sound tagA := ⟨by decide +kernel, by decide +kernel⟩

theorem describes1 : Describes attrs1 data1 where
  id := ⟨str% "1", has (raw := str% "1") (by decide +kernel) (by decide +kernel) (by decide +kernel), by decide +kernel⟩
  created := has (raw := str% "2020-01-01T00:00:00Z") (by decide +kernel) (by decide +kernel) (by decide +kernel)
  closed := lacks (by decide +kernel)
  isOpen := ⟨_, (show at_ (str% "open") (str% "true") ∈ attrs1 by decide +kernel), by decide +kernel, rfl⟩
  uid := lacks (by decide +kernel)
  user := ⟨_, has (raw := str% "A &amp; B") (by decide +kernel) (by decide +kernel) (by decide +kernel), rfl⟩
  numChanges := ⟨str% "2", has (raw := str% "2") (by decide +kernel) (by decide +kernel) (by decide +kernel),
    by decide +kernel⟩
  commentsCount := ⟨str% "0", has (raw := str% "0") (by decide +kernel) (by decide +kernel) (by decide +kernel),
    by decide +kernel⟩

theorem describes7 : Describes attrs7 data7 where
  id := ⟨str% "7", has (raw := str% "7") (by decide +kernel) (by decide +kernel) (by decide +kernel), by decide +kernel⟩
  created := has (raw := str% "x") (by decide +kernel) (by decide +kernel) (by decide +kernel)
  closed := ⟨str% "y", has (raw := str% "y") (by decide +kernel) (by decide +kernel) (by decide +kernel), rfl⟩
  isOpen := ⟨_, (show at_ (str% "open") (str% "false") ∈ attrs7 by decide +kernel), by decide +kernel, rfl⟩
  uid := ⟨str% "-5", has (raw := str% "-5") (by decide +kernel) (by decide +kernel) (by decide +kernel),
    by decide +kernel⟩
  user := lacks (by decide +kernel)
  numChanges := ⟨str% "3", has (raw := str% "3") (by decide +kernel) (by decide +kernel) (by decide +kernel),
    by decide +kernel⟩
  commentsCount := ⟨str% "1", has (raw := str% "1") (by decide +kernel) (by decide +kernel) (by decide +kernel),
    by decide +kernel⟩

theorem opensA : Opens (.empty (nm (str% "tag")) tagA) (str% "tag") tagA := ⟨_, .inr rfl, by decide +kernel⟩

theorem bodyOk : Body body7 data7.tags :=
  .other neutral_other (.tag opensA
    ⟨soundA, has (raw := str% "comment") (by decide +kernel) (by decide +kernel) (by decide +kernel),
      has (raw := str% "it&#39;s") (by decide +kernel) (by decide +kernel) (by decide +kernel)⟩ .nil)

theorem inside7 : Inside body7 := by
  intro x hx
  simp only [body7, List.mem_cons, List.not_mem_nil, or_false] at hx
  rcases hx with rfl | rfl
  · exact ⟨_, rfl, neutral_other.1, neutral_other.2.1⟩
  · refine ⟨_, rfl, ?_, ?_⟩
    · rintro a ⟨m, h | h, hm⟩
      · cases h
      · cases h; exact absurd hm (by decide +kernel)
    · rintro ⟨m, h, _⟩; cases h

theorem dumpOk : Dump dump [(false, some data1), (true, some data7)] :=
  .other (neutral_start (by decide +kernel) (by decide +kernel))
    (.short (by decide +kernel) sound1 describes1 rfl (.other neutral_other
      (.full (by decide +kernel) sound7 describes7 bodyOk (by decide +kernel)
        (.other (neutral_end (by decide +kernel)) .nil))))

theorem badAttrs : BadAttrs attrsBad := .inr (.inr ⟨str% "id", by decide, lacks (by decide +kernel)⟩)

theorem dumpBadOk : Dump dumpBad [(false, some data1), (true, none), (true, some data7)] :=
  .short (by decide +kernel) sound1 describes1 rfl
    (.badFull (body := body7) (by decide +kernel) (.inl badAttrs) inside7 (by decide +kernel)
      (.full (body := body7) (by decide +kernel) sound7 describes7 bodyOk (by decide +kernel) .nil))

end CsEx

/-! ## C52 -/

/-- Elements and attributes go by the local part of their names. -/
theorem C52_names (n : List UInt8) (s : Str) : Named n s ↔ Spec.Value.Local n (Utf8.encode s) := localName_iff

example : Named (Utf8.encode (str% "osm:tag")) (str% "tag") := (C52_names _ _).2 (.inr ⟨[111, 115, 109], by decide, rfl⟩)

/-- The value of an attribute, as the readers see it, is the one XML defines: references replaced, line breaks and tabs
turned into spaces; there is none if the bytes are not UTF-8 or a reference is malformed. -/
theorem C52_values (a : Attr) (s : Str) : a.normalizedValue = some s ↔ Spec.Value.Bytes a.value s := normalizedValue_iff

/-- A line break and a character reference. -/
example : Spec.Value.Bytes (Utf8.encode (str% "a\n&#xE9;")) (str% "a é") := (C52_values ⟨[], _⟩ _).1 (by decide +kernel)

/-- The encoding is the usual one, and only valid sequences are accepted. -/
theorem C52_utf8 (b : List UInt8) (s : Str) : Utf8.decode b = some s ↔ b = (String.ofList s).toByteArray.data.toList := by
  rw [Utf8.decode_iff, Utf8.encode_core]

/-- On every dump, `next_changeset` returns one result per changeset element, in order, and then `Ok(None)`,
for ever: a changeset that shows exactly the attributes and the tags of a well formed element, an error for a
malformed one. An error does not disturb the elements after it. -/
theorem C52_changesets {evs : Events} {ds : List (Bool × Option Data)} (h : Dump evs ds) :
    ∃ rs, Results nextChangeset evs rs [] ∧ List.Forall₂ (fun r d => Fits r d.2) rs ds ∧
      Returns nextChangeset [] (.ok none) [] := by
  obtain ⟨rs, h1, h2⟩ := dump_results h
  exact ⟨rs, h1, h2, 1, rfl⟩

/-- These are the only results. -/
theorem C52_unique {evs s1 s2 : Events} {r1 r2 : List (Except Err Changeset)} (h1 : Results nextChangeset evs r1 s1)
    (h2 : Results nextChangeset evs r2 s2) : r1 = r2 ∧ s1 = s2 :=
  results_unique next_mono h1 h2

/-- Without malformed elements there are no errors. -/
theorem C52_all_ok {evs : Events} {ds : List (Bool × Data)} (h : Dump evs (ds.map fun p => (p.1, some p.2))) :
    ∃ cs, Results nextChangeset evs (cs.map .ok) [] ∧ List.Forall₂ (fun c d => Shows c d.2) cs ds := by
  obtain ⟨rs, h1, h2⟩ := dump_results h
  suffices ∃ cs : List Changeset, rs = cs.map .ok ∧ List.Forall₂ (fun c d => Shows c d.2) cs ds by
    obtain ⟨cs, rfl, h3⟩ := this
    exact ⟨cs, h1, h3⟩
  clear h h1
  induction ds generalizing rs with
  | nil => cases h2; exact ⟨[], rfl, .nil⟩
  | cons d ds ih =>
    cases h2 with
    | cons hf ht =>
      obtain ⟨cs, rfl, h3⟩ := ih _ ht
      rename_i r
      cases r with
      | error e => exact hf.elim
      | ok c => exact ⟨c :: cs, rfl, .cons hf h3⟩

example : ∃ rs, Results nextChangeset CsEx.dump rs [] ∧
    List.Forall₂ (fun r d => Fits r d.2) rs [(false, some CsEx.data1), (true, some CsEx.data7)] ∧
      Returns nextChangeset [] (.ok none) [] := C52_changesets CsEx.dumpOk
example : ∃ rs, Results nextChangeset CsEx.dumpBad rs [] ∧
    List.Forall₂ (fun r d => Fits r d.2) rs [(false, some CsEx.data1), (true, none), (true, some CsEx.data7)] ∧
      Returns nextChangeset [] (.ok none) [] := C52_changesets CsEx.dumpBadOk
example : ∃ cs, Results nextChangeset CsEx.dump (cs.map .ok) [] ∧
    List.Forall₂ (fun c d => Shows c d.2) cs [(false, CsEx.data1), (true, CsEx.data7)] :=
  C52_all_ok (ds := [(false, CsEx.data1), (true, CsEx.data7)]) CsEx.dumpOk

/-- `Iterator::next` ends exactly when the call returns `Ok(None)`, and gives the call's result otherwise. -/
theorem C52_iterator {α : Type} (r : Except Err (Option α)) :
    (transpose r = none ↔ r = .ok none) ∧ (∀ x, transpose r = some (.ok x) ↔ r = .ok (some x)) ∧
      ∀ e, transpose r = some (.error e) ↔ r = .error e := by
  rcases r with e | _ | x <;> simp [transpose]

/-- The accessors agree with each other. -/
theorem C52_accessors (c : Changeset) (k : Str) :
    (c.hasTag k = true ↔ ∃ v, c.tag k = some v) ∧ (c.tagged = true ↔ ∃ k, c.hasTag k = true) ∧
      c.untagged = !c.tagged ∧ (c.untagged = true ↔ c.numTags = 0) ∧ c.intoTags = c.tags := by
  have key : (c.tagged = true ↔ ∃ k, c.hasTag k = true) := by
    unfold Changeset.tagged Changeset.untagged Changeset.numTags Changeset.hasTag Changeset.tag TagMap.get
    cases h : c.tags with
    | nil => simp
    | cons p t => simp
  refine ⟨?_, key, ?_, ?_, rfl⟩
  · unfold Changeset.hasTag; exact Option.isSome_iff_exists
  · unfold Changeset.tagged; simp
  · unfold Changeset.untagged; simp

/-! ## C53 -/

/-- On every dump, a new tag reader returns id and tags of each changeset that has an end tag, in order, the tags in
document order (also repeated keys), and then `Ok(None)`. Elements without children are passed over. -/
theorem C53_tags {evs : Events} {ds : List (UInt64 × List (Str × Str))} (h : TagDump evs ds) :
    ∃ s', s'.evs = [] ∧ Results nextTag (newTagReader evs) (ds.map .ok) s' := tagDump_results h none []

/-- These are the only results. -/
theorem C53_unique {s s1 s2 : TagReader} {r1 r2 : List (Except Err (UInt64 × List (Str × Str)))}
    (h1 : Results nextTag s r1 s1) (h2 : Results nextTag s r2 s2) : r1 = r2 ∧ s1 = s2 :=
  results_unique tag_mono h1 h2

/-- After the end of the file every call returns `Ok(None)`. -/
theorem C53_end (s : TagReader) (h : s.evs = []) : ∃ s', s'.evs = [] ∧ Returns nextTag s (.ok none) s' := by
  obtain ⟨evs, id, tags⟩ := s
  cases h
  exact ⟨_, rfl, 1, rfl⟩

example : ∃ s', s'.evs = [] ∧
    Results nextTag (newTagReader CsEx.dump) [.ok (7, [(str% "comment", str% "it's")])] s' :=
  C53_tags (dump_tagDump CsEx.dumpOk (by simp))

/-! ## C54 -/

/-- The changesets with an end tag, among the results for all of them. -/
def withEnd {α : Type} (cs : List α) (ds : List (Bool × Option Data)) : List α :=
  ((cs.zip ds).filter fun p => p.2.1).map (·.1)

/-- On every dump of well formed changesets (their ids are below 2^32), the two readers report for each changeset with
an end tag the same id and the same tag map, in the same order. A changeset without end tag has no tags. -/
theorem C54_agree {evs : Events} {ds : List (Bool × Option Data)} (h : Dump evs ds) (hg : ∀ p ∈ ds, p.2 ≠ none)
    {rs : List (Except Err Changeset)} {ts : List (Except Err (UInt64 × List (Str × Str)))} {e1 : Events} {e2 : TagReader}
    (hr : Results nextChangeset evs rs e1) (ht : Results nextTag (newTagReader evs) ts e2) :
    List.Forall₂ (fun r t => ∃ c tags, r = .ok c ∧ t = .ok (c.id.toUInt64, tags) ∧
      ∀ k, c.tag k = lastValue tags k) (withEnd rs ds) ts ∧
    ∀ p ∈ rs.zip ds, p.2.1 = false → ∃ c, p.1 = .ok c ∧ c.untagged = true := by
  obtain ⟨rs', h1, h2⟩ := dump_results h
  obtain ⟨rfl, _⟩ := C52_unique hr h1
  obtain ⟨s', _, h3⟩ := C53_tags (dump_tagDump h hg)
  obtain ⟨rfl, _⟩ := C53_unique ht h3
  have hempty : ∀ p ∈ ds, p.1 = false → ∀ d, p.2 = some d → d.tags = [] := by
    clear h1 h2 h3 hr ht hg
    induction h with
    | nil => intro p hp; cases hp
    | other _ _ ih => exact ih
    | short _ _ _ h _ ih =>
      intro p hp
      rcases List.mem_cons.mp hp with rfl | hp
      · intro _ d hd; cases hd; exact h
      · exact ih p hp
    | full _ _ _ _ _ _ ih =>
      intro p hp
      rcases List.mem_cons.mp hp with rfl | hp
      · intro hf; cases hf
      · exact ih p hp
    | badShort _ _ _ ih =>
      intro p hp
      rcases List.mem_cons.mp hp with rfl | hp
      · intro _ d hd; cases hd
      · exact ih p hp
    | badFull _ _ _ _ _ ih =>
      intro p hp
      rcases List.mem_cons.mp hp with rfl | hp
      · intro hf; cases hf
      · exact ih p hp
  clear h1 h3 hr ht h
  induction h2 with
  | nil => exact ⟨.nil, fun p hp => by cases hp⟩
  | @cons r p rs ds hf _ ih =>
    obtain ⟨ih1, ih2⟩ := ih (fun q hq => hg q (List.mem_cons_of_mem _ hq))
      (fun q hq => hempty q (List.mem_cons_of_mem _ hq))
    obtain ⟨fl, od⟩ := p
    cases od with
    | none => exact absurd rfl (hg _ List.mem_cons_self)
    | some d =>
      cases r with
      | error e => exact hf.elim
      | ok c =>
        have hs : Shows c d := hf
        refine ⟨?_, ?_⟩
        · cases fl with
          | false =>
            have e1 : withEnd (Except.ok c :: rs) ((false, some d) :: ds) = withEnd rs ds := by simp [withEnd]
            rw [e1]; exact ih1
          | true =>
            have e1 : withEnd (Except.ok c :: rs) ((true, some d) :: ds) = .ok c :: withEnd rs ds := by simp [withEnd]
            rw [e1]
            exact .cons ⟨c, d.tags, rfl, by rw [hs.id], hs.tag⟩ ih1
        · intro q hq hfl
          rcases List.mem_cons.mp hq with rfl | hq
          · refine ⟨c, rfl, ?_⟩
            have ht := hempty _ List.mem_cons_self hfl d rfl
            have := hs.tag
            rw [ht] at this
            unfold Changeset.untagged Changeset.numTags
            cases hc : c.tags with
            | nil => rfl
            | cons p t =>
              have := this p.1
              simp [Changeset.tag, TagMap.get, hc, lastValue] at this
          · exact ih2 q hq hfl

example {rs ts e1 e2} (hr : Results nextChangeset CsEx.dump rs e1) (ht : Results nextTag (newTagReader CsEx.dump) ts e2) :
    List.Forall₂ (fun r t => ∃ c tags, r = .ok c ∧ t = .ok (c.id.toUInt64, tags) ∧ ∀ k, c.tag k = lastValue tags k)
      (withEnd rs [(false, some CsEx.data1), (true, some CsEx.data7)]) ts :=
  (C54_agree CsEx.dumpOk (by simp) hr ht).1

/-! ## C55 -/

/-- Every call of the tag reader returns, in every state and on every sequence of events, and a call that gives
a result or an error has used up at least one event. -/
theorem C55_tags (s : TagReader) : ∃ r s', Returns nextTag s r s' ∧ s'.evs <:+ s.evs ∧
    (r ≠ .ok none → s'.evs.length < s.evs.length) := by
  obtain ⟨evs, id, tags⟩ := s
  obtain ⟨r, s', h1, h2, h3⟩ := tag_returns evs id tags (evs.length + 1) (by omega)
  exact ⟨r, s', ⟨_, h1⟩, h2, h3⟩

/-- The claim for the changeset reader holds when the source does not end inside a changeset element: a call returns
if and only if this is so. Missing: the other sources, for which it is false (`C55_fails`). -/
theorem C55_partial (evs : Events) : (∃ r s', Returns nextChangeset evs r s') ↔ ¬ CutInside evs := by
  constructor
  · rintro ⟨r, s', n, h⟩ hc
    rw [next_never hc] at h
    cases h
  · intro hc
    rcases next_returns evs (evs.length + 2) (by omega) with ⟨⟨r, s'⟩, h⟩ | h
    · exact ⟨r, s', _, h⟩
    · exact absurd h hc

/-- A dump cut inside a changeset element. -/
theorem cutInside {n : List UInt8} {attrs : Attrs} {d : Data} {body : Events} {tags : List (Str × Str)}
    (hn : Named n (str% "changeset")) (hs : Sound attrs) (hd : Describes attrs d) (hb : Body body tags) :
    CutInside (some (.start n attrs) :: body) := by
  refine ⟨[], n, attrs, body, rfl, fun _ h => absurd h List.not_mem_nil, hn, hs.readable, hd.readable hs, ?_⟩
  clear hd hs
  induction hb with
  | nil => exact fun _ h => absurd h List.not_mem_nil
  | @tag e attrs k v _ _ ho ht _ ih =>
    intro x hx
    rcases List.mem_cons.mp hx with h | h
    · refine ⟨e, h, ?_, ?_⟩
      · rintro ⟨m, rfl, _⟩; exact not_opens_end _ _ _ ho
      · intro a ho' hb
        have := opens_unique ho ho'
        subst this
        rcases tagOf_cases attrs with ⟨⟨er, he⟩, _⟩ | ⟨_, _, _, hnb, _⟩
        · rw [tagOf_isTag ht] at he; cases he
        · exact hnb hb
    · exact ih x h
  | @other e _ _ hn _ ih =>
    intro x hx
    rcases List.mem_cons.mp hx with h | h
    · exact ⟨e, h, hn.2.1, fun a ho => absurd ho (hn.2.2 a)⟩
    · exact ih x h

/-- A dump cut inside a changeset element, at whatever place among its children, makes the reader loop for ever. After
the changesets before the cut there is a call that has not returned, however many iterations it is given; no sequence
of calls reaches the end of the file. -/
theorem C55_fails {evs : Events} {ds : List (Bool × Option Data)} (hd : Dump evs ds) {n : List UInt8} {attrs : Attrs}
    {d : Data} {body : Events} {tags : List (Str × Str)} (hn : Named n (str% "changeset")) (hs : Sound attrs)
    (ha : Describes attrs d) (hb : Body body tags) :
    (∀ fuel, nextChangeset fuel (some (.start n attrs) :: body) = none) ∧
      ∀ rs s', ¬ Results nextChangeset (evs ++ some (.start n attrs) :: body) rs s' := by
  have hc := cutInside hn hs ha hb
  obtain ⟨rs, h, _⟩ := dump_results hd
  exact ⟨next_never hc, results_cut h hc⟩

/-- The example dump, cut before the last end tag of a changeset. -/
example : ∀ rs s', ¬ Results nextChangeset
    (CsEx.dump ++ some (.start (CsEx.nm (str% "changeset")) CsEx.attrs7) :: CsEx.body7) rs s' :=
  (C55_fails CsEx.dumpOk (by decide +kernel) CsEx.sound7 CsEx.describes7 CsEx.bodyOk).2
example : ∃ r s', Returns nextChangeset CsEx.dump r s' := by
  obtain ⟨rs, h, _⟩ := C52_changesets CsEx.dumpOk
  cases h with
  | done h => exact ⟨_, _, h⟩
  | ok h _ => exact ⟨_, _, h⟩
  | err h _ => exact ⟨_, _, h⟩

/-! ## C56 -/

/-- Whatever the events, a changeset that `next_changeset` returns shows the attributes of the first changeset element
of the source, and the tags that stand between its start and end (none if it has no children). -/
theorem C56_changesets {evs r : Events} {c : Changeset} (h : Returns nextChangeset evs (.ok (some c)) r) :
    ∃ pre n attrs d, (∀ x ∈ pre, ∃ e, x = some e ∧ ∀ attrs, ¬ Opens e (str% "changeset") attrs) ∧
      Named n (str% "changeset") ∧ Describes attrs d ∧ Shows c d ∧
      ((evs = pre ++ some (.empty n attrs) :: r ∧ d.tags = []) ∨
        ∃ body n', evs = pre ++ some (.start n attrs) :: (body ++ some (.end_ n') :: r) ∧
          Named n' (str% "changeset") ∧ Between body d.tags) := by
  obtain ⟨n, h⟩ := h
  exact next_ok n evs r c h

/-- Tag reader: in every state and for all events, the tags of a pair that a call returns are those of the last changeset
element whose start the call has read, and its id is that element's, if it has one. Missing: elements without an id, and calls
that begin inside an element (after an error), for which the claim is false (`C56_fails`, `C56_fails_after_error`). -/
theorem C56_partial {s s' : TagReader} {id : UInt64} {tags : List (Str × Str)}
    (h : Returns nextTag s (.ok (some (id, tags))) s') {pre mid : Events} {n n' : List UInt8} {attrs : Attrs}
    (he : s.evs = pre ++ some (.start n attrs) :: (mid ++ some (.end_ n') :: s'.evs)) (hn : Named n (str% "changeset"))
    (hmid : ∀ m a, Named m (str% "changeset") → some (.start m a) ∉ mid) :
    Between mid tags ∧ (¬ Lacks attrs (str% "id") → ∃ v, HasAttr attrs (str% "id") v ∧ parseU64 v = some id) := by
  obtain ⟨k, h⟩ := h
  obtain ⟨cons, nm, h1, _, _, _, h2⟩ := tag_ok k _ _ _ _ h
  have : pre ++ some (.start n attrs) :: mid = cons := by
    have h3 : (pre ++ some (.start n attrs) :: mid) ++ [some (.end_ n')] ++ s'.evs =
        cons ++ [some (.end_ nm)] ++ s'.evs := by
      rw [h1] at he
      simpa using he.symm
    have h4 := List.append_cancel_right h3
    exact (List.append_inj' h4 rfl).1
  exact h2 pre n attrs mid this.symm hn hmid

example {s' : TagReader} {id : UInt64} {tags : List (Str × Str)}
    (h : Returns nextTag (newTagReader CsEx.dump) (.ok (some (id, tags))) s')
    (hs : s'.evs = [some (.end_ (CsEx.nm (str% "osm")))]) :
    Between CsEx.body7 tags ∧
      (¬ Lacks CsEx.attrs7 (str% "id") → ∃ v, HasAttr CsEx.attrs7 (str% "id") v ∧ parseU64 v = some id) := by
  refine C56_partial (n := CsEx.nm (str% "changeset")) (n' := CsEx.nm (str% "changeset")) 
    (pre := CsEx.dump.take 3) h ?_
    (by decide +kernel) ?_
  · rw [hs]; rfl
  · intro m a _ hm
    simp only [CsEx.body7, List.mem_cons, List.not_mem_nil, or_false, Option.some.injEq, reduceCtorEq] at hm

/-- An element without id after any other element is reported with the id of that other element. For all dumps and all
tags. -/
theorem C56_fails {evs : Events} {ds : List (UInt64 × List (Str × Str))} {id : UInt64} {ts : List (Str × Str)}
    (h : TagDump evs (ds ++ [(id, ts)])) {n n' : List UInt8} {attrs : Attrs} {body : Events} {tags : List (Str × Str)}
    (hn : Named n (str% "changeset")) (ha : none ∉ attrs) (hl : Lacks attrs (str% "id")) (hb : Body body tags)
    (hn' : Named n' (str% "changeset")) :
    ∃ s', Results nextTag (newTagReader (evs ++ some (.start n attrs) :: (body ++ [some (.end_ n')])))
      ((ds ++ [(id, ts)]).map .ok ++ [.ok (id, tags)]) s' := by
  have idA : ∀ o, idAttrs o attrs = (o, .ok ()) := by
    intro o
    rcases idAttrs_cases attrs o with ⟨id', e, _, hb | ⟨a, ha', hn, _⟩⟩ | ⟨id', he, _, _, hf⟩
    · exact absurd hb ha
    · exact absurd hn (hl a ha')
    · rw [he]
      rcases hf with ⟨_, rfl⟩ | ⟨a, ha', hn, _⟩
      · rfl
      · exact absurd hn (hl a ha')
  have last : ∀ tags0, ∃ s', Results nextTag ⟨some (.start n attrs) :: (body ++ [some (.end_ n')]), some id, tags0⟩
      [.ok (id, tags)] s' := by
    intro tags0
    refine ⟨⟨[], some id, []⟩, .ok (s1 := ⟨[], some id, []⟩) ⟨body.length + 1 + 1, ?_⟩ (.done ⟨1, rfl⟩)⟩
    rw [tag_start hn, idA]
    simp only
    rw [tag_body hb, tag_closes_some ⟨n', rfl, hn'⟩, List.nil_append]
  have gen : ∀ {evs L}, TagDump evs L → ∀ cid tags0, (L.getLast?.map (·.1)).or cid = some id →
      ∃ s', Results nextTag ⟨evs ++ some (.start n attrs) :: (body ++ [some (.end_ n')]), cid, tags0⟩
        (L.map .ok ++ [.ok (id, tags)]) s' := by
    intro evs L hL
    induction hL with
    | nil =>
      intro cid tags0 hc
      simp at hc
      subst hc
      exact last tags0
    | other hne _ ih =>
      intro cid tags0 hc
      obtain ⟨s', h⟩ := ih cid tags0 hc
      exact ⟨s', tag_results_skip (fun k => tag_neutral hne k _ _ _) h⟩
    | short hne _ ih =>
      intro cid tags0 hc
      obtain ⟨s', h⟩ := ih cid tags0 hc
      exact ⟨s', tag_results_skip (fun k => tag_short hne _ k _ _ _) h⟩
    | @full m attrs' id0 s body' ts' m' evs' ds' h1 h2 h3 h4 h5 h6 _ ih =>
      intro cid tags0 hc
      obtain ⟨s', h⟩ := ih (some id0) [] (by
        cases ds' with
        | nil => simpa using hc
        | cons x t =>
          rw [List.getLast?_cons_cons] at hc
          cases hx : (x :: t).getLast? with
          | none => simp at hx
          | some y => rw [hx] at hc; simpa using hc)
      refine ⟨s', .ok (s1 := ⟨evs' ++ some (.start n attrs) :: (body ++ [some (.end_ n')]), some id0, []⟩)
        ⟨body'.length + 1 + 1, ?_⟩ h⟩
      rw [List.cons_append, List.append_assoc, List.cons_append, tag_start h1, idAttrs_sound h2 h3 h4]
      simp only
      rw [tag_body h5, tag_closes_some ⟨m', rfl, h6⟩, List.nil_append]
  exact gen h none [] (by simp)

/-- The second changeset of this file has no id and is reported as number 7. -/
example : ∃ s', Results nextTag (newTagReader (CsEx.dump ++ some (.start (CsEx.nm (str% "changeset")) CsEx.attrsBad) ::
      (CsEx.body7 ++ [some (.end_ (CsEx.nm (str% "changeset")))])))
    [.ok (7, [(str% "comment", str% "it's")]), .ok (7, [(str% "comment", str% "it's")])] s' :=
  C56_fails (ds := []) (dump_tagDump CsEx.dumpOk (by simp)) (by decide +kernel) (by decide +kernel)
    (CsEx.lacks (by decide +kernel)) CsEx.bodyOk (by decide +kernel)

/-- After the error for an id that is no number, the next call reports the tags of that element under the id of the element
before it. -/
theorem C56_fails_after_error {id : UInt64} {n n' : List UInt8} {a : Attr} {body r : Events} {tags : List (Str × Str)}
    (hn : Named n (str% "changeset")) (ha : Named a.key (str% "id")) (hv : Useless parseU64 a)
    (hb : Body body tags) (hn' : Named n' (str% "changeset")) :
    ∃ e s1, Returns nextTag ⟨some (.start n [some a]) :: (body ++ some (.end_ n') :: r), some id, []⟩ (.error e) s1 ∧
      Returns nextTag s1 (.ok (some (id, tags))) ⟨r, some id, []⟩ := by
  rcases parsed_eq parseU64 a with ⟨x, _, h⟩ | ⟨⟨e, he⟩, _⟩
  · rw [useless_eq] at hv; unfold numVal at h; rw [hv] at h; cases h
  · refine ⟨e, ⟨body ++ some (.end_ n') :: r, some id, []⟩, ⟨1, ?_⟩, ⟨body.length + 1, ?_⟩⟩
    · have h1 : idAttrs (some id) [some a] = (some id, .error e) := by
        rw [idAttrs, if_pos (show localName a.key = _ from ha), he]
      rw [tag_start hn, h1]
    · rw [tag_body hb, tag_closes_some ⟨n', rfl, hn'⟩, List.nil_append]

example : ∃ e s1, Returns nextTag ⟨some (.start (CsEx.nm (str% "changeset")) [CsEx.at_ (str% "id") (str% "x")]) ::
      (CsEx.body7 ++ [some (.end_ (CsEx.nm (str% "changeset")))]), some 7, []⟩ (.error e) s1 ∧
    Returns nextTag s1 (.ok (some (7, [(str% "comment", str% "it's")]))) ⟨[], some 7, []⟩ :=
  C56_fails_after_error (by decide +kernel) (by decide +kernel) (useless_of (by decide +kernel)) CsEx.bodyOk (by decide +kernel)

/-- Tag reader: a first element without an id is an error. Later ones are not (`C56_fails`). -/
theorem C56_first {n n' : List UInt8} {attrs : Attrs} {body : Events} {tags : List (Str × Str)}
    (hn : Named n (str% "changeset")) (ha : none ∉ attrs) (hl : Lacks attrs (str% "id")) (hb : Body body tags)
    (hn' : Named n' (str% "changeset")) (r : Events) :
    ∃ e s', Returns nextTag (newTagReader (some (.start n attrs) :: (body ++ some (.end_ n') :: r))) (.error e) s' := by
  have idA : idAttrs none attrs = (none, .ok ()) := by
    rcases idAttrs_cases attrs none with ⟨id', e, _, hb | ⟨a, ha', hn, _⟩⟩ | ⟨id', he, _, _, hf⟩
    · exact absurd hb ha
    · exact absurd hn (hl a ha')
    · rw [he]
      rcases hf with ⟨_, rfl⟩ | ⟨a, ha', hn, _⟩
      · rfl
      · exact absurd hn (hl a ha')
  refine ⟨.noId, ⟨r, none, tags⟩, body.length + 1 + 1, ?_⟩
  unfold newTagReader
  rw [tag_start hn, idA]
  simp only
  rw [tag_body hb, tag_closes_none ⟨n', rfl, hn'⟩, List.nil_append]

example (r : Events) : ∃ e s', Returns nextTag (newTagReader (some (.start (CsEx.nm (str% "changeset")) CsEx.attrsBad) ::
    (CsEx.body7 ++ some (.end_ (CsEx.nm (str% "changeset"))) :: r))) (.error e) s' :=
  C56_first (by decide +kernel) (by decide +kernel) (CsEx.lacks (by decide +kernel)) CsEx.bodyOk
    (by decide +kernel) r

/-! ## C57 -/

/-- An element with an unreadable attribute list, an unusable value, or without one of the required attributes gives an
error, whether it has children or not, and however its children look; the call does not go past the end of the element. -/
theorem C57_malformed {n : List UInt8} {attrs : Attrs} (hn : Named n (str% "changeset")) (hb : BadAttrs attrs) (r : Events) :
    (∃ e, Returns nextChangeset (some (.empty n attrs) :: r) (.error e) r) ∧
    ∀ (body : Events) (n' : List UInt8), Inside body → Named n' (str% "changeset") →
      ∃ e r', Returns nextChangeset (some (.start n attrs) :: (body ++ some (.end_ n') :: r)) (.error e) r' ∧
        r <:+ r' := by
  constructor
  · rcases hb.refused with ⟨e, he⟩ | ⟨b, hb', hbt⟩
    · exact ⟨e, 1, by rw [next_empty hn, he]⟩
    · obtain ⟨e, he⟩ := hbt []
      exact ⟨e, 1, by rw [next_empty hn, hb', ← he]⟩
  · intro body n' hin hn'
    rcases hb.refused with ⟨e, he⟩ | ⟨b, hb', hbt⟩
    · exact ⟨e, _, ⟨1, by rw [next_start hn, he]⟩, ⟨body ++ [some (.end_ n')], by simp⟩⟩
    · rcases readTags_inside hin 1 [] (some (.end_ n') :: r) with ⟨e, bad, hsuf, hr⟩ | ⟨hnb, m', hr⟩
      · refine ⟨e, _, ⟨body.length + 1 + 1, ?_⟩, ⟨bad ++ [some (.end_ n')], by simp; rfl⟩⟩
        rw [next_start hn, hb']
        simp only
        rw [hr]
      · obtain ⟨e, he⟩ := hbt m'
        refine ⟨e, r, ⟨body.length + 1 + 1, ?_⟩, List.suffix_rfl⟩
        rw [next_start hn, hb']
        simp only
        rw [hr, readTags_closes ⟨n', rfl, hn'⟩, ← he]

/-- Also after any events that are no changeset. -/
theorem C57_later {pre r r' : Events} {x : Except Err (Option Changeset)}
    (hpre : ∀ x ∈ pre, ∃ e, x = some e ∧ ∀ attrs, ¬ Opens e (str% "changeset") attrs)
    (h : Returns nextChangeset r x r') : Returns nextChangeset (pre ++ r) x r' := by
  induction pre with
  | nil => exact h
  | cons y pre ih =>
    obtain ⟨e, rfl, he⟩ := hpre y List.mem_cons_self
    exact Returns.skip he (ih fun z hz => hpre z (List.mem_cons_of_mem _ hz))

/-- Every attribute list describes a changeset or is malformed. -/
theorem C57_complete (attrs : Attrs) : (∃ d, Describes attrs d) ∨ BadAttrs attrs := describes_or_bad attrs

/-- A malformed tag is an error too. -/
theorem C57_tag {n : List UInt8} {attrs : Attrs} {body : Events} {n' : List UInt8} (hn : Named n (str% "changeset"))
    (hin : Inside body) (hb : BadBody body) (hn' : Named n' (str% "changeset")) (r : Events) :
    ∃ e r', Returns nextChangeset (some (.start n attrs) :: (body ++ some (.end_ n') :: r)) (.error e) r' := by
  rcases setAttrs_cases attrs {} with ⟨⟨e, he⟩, _⟩ | ⟨b, hb', _⟩
  · exact ⟨e, _, 1, by rw [next_start hn, he]⟩
  · rcases readTags_inside hin 1 [] (some (.end_ n') :: r) with ⟨e, bad, hsuf, hr⟩ | ⟨hnb, _⟩
    · refine ⟨e, bad ++ some (.end_ n') :: r, body.length + 1 + 1, ?_⟩
      rw [next_start hn, hb']
      simp only
      rw [hr]
    · exact absurd hb hnb

/-- `open="yes"`, without an id. -/
example (r : Events) : ∃ e, Returns nextChangeset (some (.empty (CsEx.nm (str% "changeset")) CsEx.attrsBad) :: r) (.error e) r :=
  (C57_malformed (by decide +kernel) CsEx.badAttrs r).1
example : ∃ e r', Returns nextChangeset (some (.start (CsEx.nm (str% "changeset")) CsEx.attrs7) ::
    ([some (.empty (CsEx.nm (str% "tag")) [CsEx.at_ (str% "k") (str% "x")])] ++
      [some (.end_ (CsEx.nm (str% "changeset")))])) (.error e) r' := by
  refine C57_tag (by decide +kernel) ?_ ?_ (by decide +kernel) []
  · intro x hx
    simp only [List.mem_singleton] at hx
    subst hx
    refine ⟨_, rfl, ?_, ?_⟩
    · rintro a ⟨m, h | h, hm⟩
      · cases h
      · cases h; exact absurd hm (by decide +kernel)
    · rintro ⟨m, h, _⟩; cases h
  · exact ⟨_, _, List.mem_cons_self, ⟨_, .inr rfl, by decide +kernel⟩, .inr (.inr (.inr (CsEx.lacks (by decide +kernel))))⟩

end Osmio
