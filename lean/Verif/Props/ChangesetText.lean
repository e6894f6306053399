import Verif.Proofs.ChangesetText
import Verif.Props.Changesets
import Verif.Props.XmlText
/-!
# Properties of the changeset readers, on texts

The properties of `Verif/Props/Changesets.lean` from the bytes of a file: the text is given by the grammar of
`Verif/Spec/XmlLex.lean`, and `DumpText` (`Verif/Spec/ChangesetText.lean`) says which changesets its parts are a dump of.
`eventsOf` is the tokenizer of quick-xml.
-/

namespace Osmio
open QuickXml Spec.Cs Changesets Spec.Lex

/-! ## A dump to try the theorems on -/

namespace CsText

def attrs7 : List SrcAttr :=
  [⟨str% "id", str% "7", str% "7"⟩, ⟨str% "created_at", str% "x", str% "x"⟩, ⟨str% "open", str% "false", str% "false"⟩,
    ⟨str% "num_changes", str% "3", str% "3"⟩, ⟨str% "comments_count", str% "1", str% "1"⟩, ⟨str% "user", str% "A &amp; >\"", str% "A & >\""⟩]
def tagA : List SrcAttr := [⟨str% "k", str% "c", str% "c"⟩, ⟨str% "v", str% "&#39;é", str% "'é"⟩]
def attrs8 : List SrcAttr := [⟨str% "id", str% "8", str% "8"⟩]

def data7 : Data :=
  { id := 7, created := str% "x", closed := none, isOpen := false, uid := none, user := some (str% "A & >\""),
    numChanges := 3, commentsCount := 1, tags := [(str% "c", str% "'é")] }

def text7 : Str := str% " id=\"7\" created_at='x' open='false' num_changes='3' comments_count='1'\n user = 'A &amp; >\"'"
def textA : Str := str% " k='c' v='&#39;é'"

/-- A changeset with a tag and a discussion, and a malformed one. -/
def text : Str :=
  str% "<?xml version=\"1.0\"?><osm><changeset" ++ (text7 ++ (str% " ><tag" ++ (textA ++
    str% "/><discussion><!-- > --><comment>hi &lt;</comment></discussion></changeset ><changeset id='8'/></osm>")))

def body : List Tok :=
  [.empty (str% "tag") tagA, .start (str% "discussion") [], .space, .start (str% "comment") [], .text, .stop (str% "comment"),
    .stop (str% "discussion")]
def kids : List Tok :=
  .start (str% "changeset") attrs7 :: (body ++ [.stop (str% "changeset"), .empty (str% "changeset") attrs8])
def toks : List Tok := .space :: .start (str% "osm") [] :: (kids ++ [.stop (str% "osm")])

theorem attr {key src value t : Str} {as : List SrcAttr} (h3 : IsName key) (h4 : key ≠ str% "xmlns") (h6 : Quoted '\'' src value)
    (h : Spec.Lex.Attrs t as) : Spec.Lex.Attrs (' ' :: (key ++ '=' :: '\'' :: (src ++ '\'' :: t))) (⟨key, src, value⟩ :: as) :=
  .cons (w := [' ']) (w1 := []) (w2 := []) (by decide) (by decide) h3 h4 (by decide) (by decide) (.inr rfl) h6 h

theorem attrs7Ok : Spec.Lex.Attrs text7 attrs7 :=
  .cons (w := [' ']) (key := str% "id") (w1 := []) (w2 := []) (q := '"') (by decide) (by decide) (isName_of (by decide +kernel)) (by decide)
    (by decide) (by decide) (.inl rfl) (plain_value (s := str% "7") (by decide +kernel))
  (attr (key := str% "created_at") (isName_of (by decide +kernel)) (by decide) (plain_value (s := str% "x") (by decide +kernel))
  (attr (key := str% "open") (isName_of (by decide +kernel)) (by decide) (plain_value (s := str% "false") (by decide +kernel))
  (attr (key := str% "num_changes") (isName_of (by decide +kernel)) (by decide) (plain_value (s := str% "3") (by decide +kernel))
  (attr (key := str% "comments_count") (isName_of (by decide +kernel)) (by decide) (plain_value (s := str% "1") (by decide +kernel))
  (.cons (w := str% "\n ") (key := str% "user") (w1 := [' ']) (w2 := [' ']) (q := '\'') (by decide) (by decide) (isName_of (by decide +kernel))
    (by decide) (by decide) (by decide) (.inr rfl)
    (.plain (by decide) (by decide) (by decide) (by decide) (by decide) (by decide) (by decide)
    (.plain (by decide) (by decide) (by decide) (by decide) (by decide) (by decide) (by decide)
    (.ref (r := str% "&amp;") (.entity (name := str% "amp") (by decide)) (plain_value (s := str% " >\"") (by decide +kernel))))) .nil)))))

theorem attrsAOk : Spec.Lex.Attrs textA tagA :=
  attr (key := str% "k") (isName_of (by decide +kernel)) (by decide) (plain_value (s := str% "c") (by decide +kernel))
  (attr (key := str% "v") (isName_of (by decide +kernel)) (by decide)
    (.ref (r := str% "&#39;") (.dec (s := str% "39") (c := '\'') (.more (s := ['3']) (n := 3) (d := 9) (.digit (by unfold Spec.Value.Digit; decide)) (by unfold Spec.Value.Digit; decide)) (by decide))
      (plain_value (s := str% "é") (by decide +kernel))) .nil)

theorem toksOk : Toks true (text.drop 21) toks.tail :=
  .start (n := str% "osm") (a := []) (w := []) (isName_of (by decide +kernel)) .nil (by decide) (by decide)
  (.start (n := str% "changeset") (a := text7) (w := [' ']) (isName_of (by decide +kernel)) attrs7Ok (by decide) (by decide)
  (.empty (n := str% "tag") (a := textA) (w := []) (isName_of (by decide +kernel)) attrsAOk (by decide) (by decide)
  (.start (n := str% "discussion") (a := []) (w := []) (isName_of (by decide +kernel)) .nil (by decide) (by decide)
  (.comment (s := str% " > ") (by decide +kernel) (by decide) (by decide)
  (.start (n := str% "comment") (a := []) (w := []) (isName_of (by decide +kernel)) .nil (by decide) (by decide)
  (.text (s := str% "hi &lt;") (by decide)
    (plain_text (s := str% "hi ") (by decide +kernel) (.ref (r := str% "&lt;") (.entity (name := str% "lt") (c := '<') (by decide)) .nil)) (by decide)
  (.stop (n := str% "comment") (w := []) (isName_of (by decide +kernel)) (by decide)
  (.stop (n := str% "discussion") (w := []) (isName_of (by decide +kernel)) (by decide)
  (.stop (n := str% "changeset") (w := [' ']) (isName_of (by decide +kernel)) (by decide)
  (.empty (n := str% "changeset") (a := str% " id='8'") (w := []) (isName_of (by decide +kernel))
    (attr (key := str% "id") (isName_of (by decide +kernel)) (by decide) (plain_value (s := str% "8") (by decide +kernel)) .nil) (by decide) (by decide)
  (.stop (n := str% "osm") (w := []) (isName_of (by decide +kernel)) (by decide) .nil)))))))))))

theorem kidsOk : ∃ k, Spec.Lex.Tree kids k :=
  ⟨_, .elem (ks := body) (.empty (.elem (ks := [_, _, _, _]) (.space (.elem (ks := [_]) (.text .nil) .nil)) .nil)) (.empty .nil)⟩

theorem document : ∃ f, Document text toks f := by
  obtain ⟨k, hk⟩ := kidsOk
  exact ⟨_, .declared (decl := str% "<?xml version=\"1.0\"?>") (t := text.drop 21) (by decide)
    (.mk (before := []) (root := toks.tail) (after := []) (n := str% "osm") (as := []) (ks := kids) toksOk (by simp) (by simp)
      (.inr rfl) hk (.elem hk .nil))⟩

theorem aside_start {n : Str} {as : List SrcAttr} (h1 : n ≠ str% "changeset") (h2 : n ≠ str% "tag") : Aside (.start n as) := by
  refine ⟨?_, ?_, ?_⟩
  · rintro b (h | h) <;> cases h; exact h1 rfl
  · intro h; cases h
  · rintro b (h | h) <;> cases h; exact h2 rfl

theorem aside_stop {n : Str} (h1 : n ≠ str% "changeset") : Aside (.stop n) := by
  refine ⟨?_, ?_, ?_⟩
  · rintro b (h | h) <;> cases h
  · intro h; cases h; exact h1 rfl
  · rintro b (h | h) <;> cases h

theorem aside_text : Aside .text ∧ Aside .space := by
  refine ⟨⟨?_, ?_, ?_⟩, ⟨?_, ?_, ?_⟩⟩ <;> first | (rintro b (h | h) <;> cases h) | (intro h; cases h)

theorem tells7 : Tells attrs7 data7 where
  id := ⟨str% "7", ⟨⟨_, str% "7", _⟩, by simp [attrs7], rfl, rfl⟩, by decide +kernel⟩
  created := ⟨⟨_, str% "x", str% "x"⟩, by simp [attrs7], rfl, rfl⟩
  closed := by simp [Maybe, data7, Absent, attrs7]
  isOpen := ⟨⟨str% "open", _, str% "false"⟩, by simp [attrs7], rfl, rfl⟩
  uid := by simp [Maybe, data7, Absent, attrs7]
  user := ⟨_, ⟨⟨_, str% "A &amp; >\"", _⟩, by simp [attrs7], rfl, rfl⟩, rfl⟩
  numChanges := ⟨str% "3", ⟨⟨_, str% "3", _⟩, by simp [attrs7], rfl, rfl⟩, by decide +kernel⟩
  commentsCount := ⟨str% "1", ⟨⟨_, str% "1", _⟩, by simp [attrs7], rfl, rfl⟩, by decide +kernel⟩

theorem tagged7 : Tagged body data7.tags :=
  .tag (.inr rfl) ⟨⟨_, str% "c", _⟩, by simp [tagA], rfl, rfl⟩ ⟨⟨_, str% "&#39;é", _⟩, by simp [tagA], rfl, rfl⟩
    (.other (aside_start (by decide) (by decide)) (.other aside_text.2 (.other (aside_start (by decide) (by decide))
      (.other aside_text.1 (.other (aside_stop (by decide)) (.other (aside_stop (by decide)) .nil))))))

theorem wrong8 : Wrong attrs8 := .inl ⟨str% "open", by simp [required], by simp [Absent, attrs8]⟩

theorem dumpText : DumpText toks [(true, some data7), (false, none)] :=
  .other aside_text.2 (.other (aside_start (by decide) (by decide)) (.full (body := body) tells7 tagged7
    (.badShort wrong8 (.other (aside_stop (by decide)) .nil))))

theorem tagDumpText : TagDumpText toks [(7, [(str% "c", str% "'é")])] :=
  .other aside_text.2 (.other (aside_start (by decide) (by decide)) (.full (body := body) (s := str% "7")
    ⟨⟨_, str% "7", _⟩, by simp [attrs7], rfl, rfl⟩ (by decide +kernel) tagged7 (.short (.other (aside_stop (by decide)) .nil))))

end CsText

/-! ## C52 -/

/-- **C52** from the bytes of a file, with or without byte order mark. Whatever the layout of the document, `next_changeset`
returns one result per changeset element, in order, and then `Ok(None)`, for ever: a changeset that shows exactly the
attributes and the tags of a well formed element, an error for a malformed one. -/
theorem C52_text {t : Str} {ts : List Tok} {f : Spec.Forest} (h : Document t ts f) {ds : List (Bool × Option Data)}
    (hd : DumpText ts ds) (bom : List UInt8) (hb : bom = [] ∨ bom = [0xEF, 0xBB, 0xBF]) :
    ∃ rs, Results nextChangeset (eventsOf (bom ++ Utf8.encode t)) rs [] ∧ List.Forall₂ (fun r d => Fits r d.2) rs ds ∧
      Returns nextChangeset [] (.ok none) [] := by
  have e : eventsOf (bom ++ Utf8.encode t) = eventsOf (Utf8.encode t) := by
    rcases hb with rfl | rfl
    · rfl
    · exact eventsOf_bom h
  obtain ⟨h1, h2⟩ := reports_document h
  rw [e]
  exact C52_changesets (dump_of_text hd h2 h1)

example : ∃ rs, Results nextChangeset (eventsOf (Utf8.encode CsText.text)) rs [] ∧
    List.Forall₂ (fun r d => Fits r d.2) rs [(true, some CsText.data7), (false, none)] := by
  obtain ⟨f, h⟩ := CsText.document
  obtain ⟨rs, h1, h2, _⟩ := C52_text h CsText.dumpText [] (.inl rfl)
  exact ⟨rs, h1, h2⟩

/-- The tokenizer on a text that is no document: the end tag does not match, the attribute is repeated. -/
example : eventsOf (Utf8.encode (str% "<a x='1' x='2'> & <b></a ></b>")) =
    [some (.start [97] [some ⟨[120], [49]⟩, none]), some .other, none, some (.start [98] []), none, none] := by decide +kernel

/-! ## C53, C54 -/

/-- **C53** from the bytes of a file. -/
theorem C53_text {t : Str} {ts : List Tok} {f : Spec.Forest} (h : Document t ts f) {ds : List (UInt64 × List (Str × Str))}
    (hd : TagDumpText ts ds) :
    ∃ s', s'.evs = [] ∧ Results nextTag (newTagReader (eventsOf (Utf8.encode t))) (ds.map .ok) s' := by
  obtain ⟨h1, h2⟩ := reports_document h
  exact C53_tags (tagDump_of_text hd h2 h1)

example : ∃ s', s'.evs = [] ∧
    Results nextTag (newTagReader (eventsOf (Utf8.encode CsText.text))) [.ok (7, [(str% "c", str% "'é")])] s' := by
  obtain ⟨f, h⟩ := CsText.document
  exact C53_text h CsText.tagDumpText

/-- **C54** from the bytes of a file: on a dump without malformed elements the two readers agree. -/
theorem C54_text {t : Str} {ts : List Tok} {f : Spec.Forest} (h : Document t ts f) {ds : List (Bool × Option Data)}
    (hd : DumpText ts ds) (hg : ∀ p ∈ ds, p.2 ≠ none)
    {rs : List (Except Err Changeset)} {tags : List (Except Err (UInt64 × List (Str × Str)))} {e1 : Events} {e2 : TagReader}
    (hr : Results nextChangeset (eventsOf (Utf8.encode t)) rs e1)
    (ht : Results nextTag (newTagReader (eventsOf (Utf8.encode t))) tags e2) :
    List.Forall₂ (fun r t => ∃ c tags, r = .ok c ∧ t = .ok (c.id.toUInt64, tags) ∧
      ∀ k, c.tag k = Spec.Cs.lastValue tags k) (withEnd rs ds) tags ∧
    ∀ p ∈ rs.zip ds, p.2.1 = false → ∃ c, p.1 = .ok c ∧ c.untagged = true := by
  obtain ⟨h1, h2⟩ := reports_document h
  exact C54_agree (dump_of_text hd h2 h1) hg hr ht

/-! ## C55 -/

/-- **C55, counterexample** from the bytes of a file. A file that ends after the start of a changeset element, at the end of any of its
tags, is no error and no end: after the changesets before it, the call for this one never returns. -/
theorem C55_text_fails {t : Str} {pre body : List Tok} {as : List SrcAttr} {d : Data} {tags : List (Str × Str)}
    {ds : List (Bool × Option Data)} (h : Toks true t (pre ++ .start (str% "changeset") as :: body))
    (hm : Matched [] (pre ++ .start (str% "changeset") as :: body)) (hf : ∀ c ∈ t.head?, c.toNat < 128)
    (hd : DumpText pre ds) (ha : Tells as d) (hb : Tagged body tags) :
    ∀ rs s', ¬ Results nextChangeset (eventsOf (Utf8.encode t)) rs s' := by
  have h1 : eventsOf (Utf8.encode t) = events (Utf8.encode t) [] := by
    refine eventsOf_ascii ?_
    cases t with
    | nil => exact .inl rfl
    | cons c r => exact .inr ⟨c, r, rfl, hf c rfl⟩
  rw [h1]
  have hg := toks_good h
  have hr := reports_toks (st := []) h hm
  rw [List.map_nil] at hr
  obtain ⟨e1, e2, he, hr1, hr2⟩ := reports_append hr
  rw [he]
  have hg' := hg (.start (str% "changeset") as) (by simp)
  cases hr2 with
  | start hr2 =>
    exact (C55_fails (dump_of_text hd (fun x hx => hg x (by simp [hx])) hr1) ((named_iff cs_colon).2 rfl) (sound_of hg'.2.2 hg'.2.1)
      (tells_describes hg'.2.2 ha) (tagged_body hb (fun x hx => hg x (by simp [hx])) hr2)).2

/-- The example, cut after the tag of the first changeset. -/
example : ∀ rs s', ¬ Results nextChangeset
    (eventsOf (Utf8.encode (str% "<osm><changeset" ++ (CsText.text7 ++ (str% "><tag" ++ (CsText.textA ++ str% "/>")))))) rs s' :=
  C55_text_fails (pre := [.start (str% "osm") []]) (body := [.empty (str% "tag") CsText.tagA]) (d := CsText.data7)
    (tags := [(str% "c", str% "'é")])
    (.start (n := str% "osm") (a := []) (w := []) (isName_of (by decide +kernel)) .nil (by decide) (by decide)
      (.start (n := str% "changeset") (a := CsText.text7) (w := []) (isName_of (by decide +kernel)) CsText.attrs7Ok (by decide) (by decide)
        (.empty (n := str% "tag") (a := CsText.textA) (w := []) (isName_of (by decide +kernel)) CsText.attrsAOk (by decide) (by decide) .nil)))
    (.start (.start (.empty .nil))) (by decide) (.other (CsText.aside_start (by decide) (by decide)) .nil) CsText.tells7
    (.tag (.inr rfl) ⟨⟨_, str% "c", _⟩, by simp [CsText.tagA], rfl, rfl⟩ ⟨⟨_, str% "&#39;é", _⟩, by simp [CsText.tagA], rfl, rfl⟩ .nil)

end Osmio
