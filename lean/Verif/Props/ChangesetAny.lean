import Verif.Proofs.QuickTokens
import Verif.Proofs.ChangesetAny
import Verif.Props.ChangesetHeard
/-!
# Changesets of any bytes (C101)

What the changeset readers return for a file of which nothing is known, from its bytes to the results.
`Verif/Spec/QuickTokens.lean` divides any bytes into parts; `Verif/Spec/ChangesetAny.lean` and `Verif/Spec/ChangesetHeard.lean`
say which results any parts have.
-/

namespace Osmio
open QuickXml Spec Spec.Cs Changesets

/-! ## One way to read -/

theorem opens_same {e : Event} {s : Str} {a a' : Attrs} (h : Opens e s a) (h' : Opens e s a') : a = a' := by
  obtain ⟨m, h | h, _⟩ := h <;> obtain ⟨m', h' | h', _⟩ := h' <;> rw [h] at h' <;> cases h' <;> rfl

theorem opens_not_closes {e : Event} {s s' : Str} {a : Attrs} (h : Opens e s a) : ¬ Closes e s' := by
  rintro ⟨n, rfl, -⟩
  obtain ⟨m, h | h, _⟩ := h <;> cases h

theorem inner_unique {evs : Events} {o o' : Option (List (Str × Str))} {r r' : Events} (h : Inner evs o r) (h' : Inner evs o' r') :
    o = o' ∧ r = r' := by
  induction h generalizing o' r' with
  | close hc =>
    cases h' with
    | close => exact ⟨rfl, rfl⟩
    | badTag h1 => exact absurd hc (opens_not_closes h1)
    | tag h1 => exact absurd hc (opens_not_closes h1)
    | other h1 => exact absurd hc h1
  | broken => cases h'; exact ⟨rfl, rfl⟩
  | badTag ho hb =>
    cases h' with
    | close hc => exact absurd hc (opens_not_closes ho)
    | badTag => exact ⟨rfl, rfl⟩
    | tag h1 h2 => exact absurd (opens_same ho h1 ▸ hb) h2
    | other _ h2 => exact absurd ho (h2 _)
  | tag ho hb hk hv _ ih =>
    cases h' with
    | close hc => exact absurd hc (opens_not_closes ho)
    | badTag h1 h2 => exact absurd (opens_same h1 ho ▸ h2) hb
    | tag h1 _ h3 h4 h5 =>
      cases opens_same ho h1
      cases lastHas_unique hk h3
      cases lastHas_unique hv h4
      obtain ⟨rfl, rfl⟩ := ih h5
      exact ⟨rfl, rfl⟩
    | other _ h2 => exact absurd ho (h2 _)
  | other h1 h2 _ ih =>
    cases h' with
    | close hc => exact absurd hc h1
    | badTag g => exact absurd g (h2 _)
    | tag g => exact absurd g (h2 _)
    | other _ _ g => exact ih g

theorem amounts_unique {attrs : Attrs} (hr : Readable attrs) {tags : List (Str × Str)} {o o' : Option Data} (h : Amounts attrs tags o)
    (h' : Amounts attrs tags o') : o = o' := by
  obtain ⟨b, hb⟩ := setAttrs_readable hr
  obtain ⟨r, h1, h2⟩ := amounts_built hb h
  obtain ⟨r', h1', h2'⟩ := amounts_built hb h'
  have e : r = r' := by
    rw [h1] at h1'
    cases r <;> cases r' <;> simp_all [answerOf]
  subst e
  cases o with
  | none =>
    cases o' with
    | none => rfl
    | some d => cases r <;> first | exact h2.elim | exact h2'.elim
  | some d =>
    cases o' with
    | none => cases r <;> first | exact h2.elim | exact h2'.elim
    | some d' => rw [gives_unique h.1 h'.1 (h.2.trans h'.2.symm)]

theorem shown_unique {evs : Events} {ds ds' : List (Option Data)} (h : Shown evs ds) (h' : Shown evs ds') : ds = ds' := by
  induction h generalizing ds' with
  | nil => cases h'; rfl
  | broken _ ih => cases h' with | broken g => rw [ih g]
  | other ho _ ih =>
    cases h' with
    | other _ g => exact ih g
    | unreadable g => exact absurd g (ho _)
    | short g => exact absurd ⟨_, .inr rfl, g⟩ (ho _)
    | full g => exact absurd ⟨_, .inl rfl, g⟩ (ho _)
    | stopped g => exact absurd ⟨_, .inl rfl, g⟩ (ho _)
  | unreadable ho hr _ ih =>
    cases h' with
    | other g => exact absurd ho (g _)
    | unreadable _ _ g => rw [ih g]
    | short g1 g2 => exact absurd (opens_same ho ⟨_, .inr rfl, g1⟩ ▸ g2) hr
    | full g1 g2 => exact absurd (opens_same ho ⟨_, .inl rfl, g1⟩ ▸ g2) hr
    | stopped g1 g2 => exact absurd (opens_same ho ⟨_, .inl rfl, g1⟩ ▸ g2) hr
  | short hn hr ha _ ih =>
    cases h' with
    | other g => exact absurd ⟨_, .inr rfl, hn⟩ (g _)
    | unreadable g1 g2 => exact absurd (opens_same g1 ⟨_, .inr rfl, hn⟩ ▸ hr) g2
    | short _ _ g1 g => rw [ih g, amounts_unique hr ha g1]
  | full hn hr hi ha _ ih =>
    cases h' with
    | other g => exact absurd ⟨_, .inl rfl, hn⟩ (g _)
    | unreadable g1 g2 => exact absurd (opens_same g1 ⟨_, .inl rfl, hn⟩ ▸ hr) g2
    | full _ _ g1 g2 g =>
      obtain ⟨e1, rfl⟩ := inner_unique hi g1
      cases e1
      rw [ih g, amounts_unique hr ha g2]
    | stopped _ _ g1 _ => cases (inner_unique hi g1).1
  | stopped hn hr hi _ ih =>
    cases h' with
    | other g => exact absurd ⟨_, .inl rfl, hn⟩ (g _)
    | unreadable g1 g2 => exact absurd (opens_same g1 ⟨_, .inl rfl, hn⟩ ▸ hr) g2
    | full _ _ g1 _ _ => cases (inner_unique hi g1).1
    | stopped _ _ g1 g =>
      obtain ⟨-, rfl⟩ := inner_unique hi g1
      rw [ih g]

/-! ## C101 -/

/-- **C101.** Any bytes have parts in exactly one way, and these are what the readers go by. -/
theorem C101_parts (bytes : List UInt8) : (∀ evs, eventsOf bytes = evs ↔ Quick.File bytes evs) ∧ ∃! evs, Quick.File bytes evs :=
  ⟨fun _ => file_iff.symm, eventsOf bytes, file_iff.2 rfl, fun _ h => (file_iff.1 h).symm⟩

/-- The attributes of an element, for any bytes after its name. -/
theorem C101_attributes (bs : List UInt8) (as : Attrs) : attributes bs = as ↔ Quick.Attributes [] bs as := attributes_iff

/-- **C101** for the changeset reader, on any bytes: let `evs` be the parts. If these have results `ds`, then the calls up to
`Ok(None)` return exactly these: the changeset for each changeset, an error for each error. If they have none, the calls do not all return. -/
theorem C101_changesets {bytes : List UInt8} {evs : Events} (h : Quick.File bytes evs) :
    (∀ ds, Shown evs ds → ∃ rs, Results nextChangeset (eventsOf bytes) rs [] ∧ List.Forall₂ Fits rs ds) ∧
    ((∃ rs s', Results nextChangeset (eventsOf bytes) rs s') ↔ ∃ ds, Shown evs ds) ∧
    ∀ ds ds', Shown evs ds → Shown evs ds' → ds = ds' := by
  rw [file_iff.1 h]
  refine ⟨fun ds hd => shown_results hd, ⟨?_, ?_⟩, fun _ _ => shown_unique⟩
  · rintro ⟨rs, s', hr⟩
    rcases shown_or_never _ evs (Nat.le_refl _) with hd | hn
    · exact hd
    · exact absurd hr (hn _ _)
  · rintro ⟨ds, hd⟩
    obtain ⟨rs, h1, -⟩ := shown_results hd
    exact ⟨rs, _, h1⟩

/-- **C101** for the reader of tags, on any bytes: calls up to `Ok(None)` always return, and they return exactly what the parts tell,
pairs and errors, in order. -/
theorem C101_tags {bytes : List UInt8} {evs : Events} (h : Quick.File bytes evs) :
    ∃ rs s', Results nextTag (newTagReader (eventsOf bytes)) rs s' ∧ ToldAll [] evs (rs.map Except.toOption) := by
  rw [file_iff.1 h]
  obtain ⟨rs, s', hr⟩ := (C56_tags_exact evs).1
  exact ⟨rs, s', hr, heard_results hr [] (after_new evs)⟩

/-! ## An example -/

namespace CsAny
open CsEx

/-- A file with most of what can go wrong. -/
def text : Str := str% "<changeset id=\"1\" created_at='>' open=\"true\" num_changes = \"2\" comments_count=\"0\" x:id=\"7\"><changeset id=3><tag k=\"a\" v=\"b\"/></changeset>&x<changeset id='q' id=\"1\"/></osm><tag k=/><!-->"

def attrs : Attrs := [at_ (str% "id") (str% "1"), at_ (str% "created_at") (str% ">"), at_ (str% "open") (str% "true"),
  at_ (str% "num_changes") (str% "2"), at_ (str% "comments_count") (str% "0"), at_ (str% "x:id") (str% "7")]

def tag : Attrs := [at_ (str% "k") (str% "a"), at_ (str% "v") (str% "b")]

def parts : Events := [some (.start (nm (str% "changeset")) attrs), some (.start (nm (str% "changeset")) [none]), some (.empty (nm (str% "tag")) tag),
  some (.end_ (nm (str% "changeset"))), none, some (.empty (nm (str% "changeset")) [at_ (str% "id") (str% "q"), none]), none,
  some (.empty (nm (str% "tag")) [none]), none]

theorem file : Quick.File (Utf8.encode text) parts := file_iff.2 (by decide +kernel)

def data : Data :=
  { id := 7, created := str% ">", closed := none, isOpen := true, uid := none, user := none, numChanges := 2, commentsCount := 0,
    tags := [(str% "a", str% "b")] }

theorem last {as pre post : Attrs} {k raw name s : Str} (h : as = pre ++ at_ k raw :: post) (hn : Named (Utf8.encode k) name)
    (hl : ∀ o ∈ post, ∀ a ∈ o.toList, ¬ Named a.key name) (hv : Attr.normalizedValue ⟨Utf8.encode k, Utf8.encode raw⟩ = some s) : LastHas as name s :=
  ⟨⟨Utf8.encode k, Utf8.encode raw⟩, ⟨pre, post, h, hn, lacks hl⟩, bytes_of hv⟩

theorem readable : Readable attrs := by
  rcases setAttrs_cases attrs {} with ⟨⟨e, he⟩, -⟩ | ⟨b, -, h1, h2, -⟩
  · have : (setAttrs {} attrs).toOption.isSome = true := by decide +kernel
    rw [he] at this; cases this
  · exact ⟨h1, h2⟩

theorem gives : Gives attrs data where
  id := ⟨str% "7", last (pre := attrs.take 5) (k := str% "x:id") (raw := str% "7") (post := []) (by decide +kernel) (by decide +kernel) (by decide +kernel) (by decide +kernel),
    by decide +kernel⟩
  created := last (pre := attrs.take 1) (k := str% "created_at") (raw := str% ">") (post := attrs.drop 2) (by decide +kernel) (by decide +kernel) (by decide +kernel) (by decide +kernel)
  closed := lacks (by decide +kernel)
  isOpen := ⟨_, ⟨attrs.take 2, attrs.drop 3, rfl, by decide +kernel, lacks (by decide +kernel)⟩, rfl⟩
  uid := lacks (by decide +kernel)
  user := lacks (by decide +kernel)
  numChanges := ⟨str% "2", last (pre := attrs.take 3) (k := str% "num_changes") (raw := str% "2") (post := attrs.drop 4) (by decide +kernel) (by decide +kernel) (by decide +kernel)
    (by decide +kernel), by decide +kernel⟩
  commentsCount := ⟨str% "0", last (pre := attrs.take 4) (k := str% "comments_count") (raw := str% "0") (post := attrs.drop 5) (by decide +kernel) (by decide +kernel)
    (by decide +kernel) (by decide +kernel), by decide +kernel⟩

theorem goodTag : ¬ BadTag tag := by
  rcases tagOf_cases tag with ⟨⟨e, he⟩, -⟩ | ⟨_, _, _, h, -⟩
  · have : (tagOf tag).toOption.isSome = true := by decide +kernel
    rw [he] at this; cases this
  · exact h

theorem not_opens {e : Event} {s : Str} (h : match e with
    | .start n _ => ¬ Named n s
    | .empty n _ => ¬ Named n s
    | _ => True) : ∀ a, ¬ Opens e s a := by
  rintro a ⟨m, rfl | rfl, hm⟩ <;> exact h hm

/-- One changeset: the last id counts, whatever its prefix; the start inside it is passed over. Then four errors. -/
theorem shown : Shown parts [some data, none, none, none, none] := by
  refine .full (tags := [(str% "a", str% "b")]) (rest := parts.drop 4) (by decide +kernel) readable ?_ ⟨gives, rfl⟩ (.broken ?_)
  · refine .other ?_ (not_opens (by decide +kernel)) ?_
    · rintro ⟨n, h, -⟩; cases h
    · exact .tag (o := some []) ⟨_, .inr rfl, by decide +kernel⟩ goodTag
        (last (pre := []) (k := str% "k") (raw := str% "a") (post := tag.drop 1) (by decide +kernel) (by decide +kernel) (by decide +kernel) (by decide +kernel))
        (last (pre := tag.take 1) (k := str% "v") (raw := str% "b") (post := []) (by decide +kernel) (by decide +kernel) (by decide +kernel) (by decide +kernel))
        (.close ⟨_, rfl, by decide +kernel⟩)
  · refine .unreadable ⟨_, .inr rfl, by decide +kernel⟩ (fun h => h.1 (by simp)) (.broken (.other (not_opens (by decide +kernel)) (.broken .nil)))

example : ∃ rs, Results nextChangeset (eventsOf (Utf8.encode text)) rs [] ∧ List.Forall₂ Fits rs [some data, none, none, none, none] :=
  (C101_changesets file).1 _ shown

/-- The reader of tags takes the id, too, and has five errors: the start of the second changeset, the reference, the end of an element that is not open, the
malformed tag and the comment. -/
example : ∃ rs s', Results nextTag (newTagReader (eventsOf (Utf8.encode text))) rs s' ∧ ToldAll [] parts (rs.map Except.toOption) :=
  C101_tags file

/-- An attribute without a value, and one that is there already, end the list. -/
example : Quick.Attributes [] (Utf8.encode (str% " a='1' b=")) [at_ (str% "a") (str% "1"), none] ∧
    Quick.Attributes [] (Utf8.encode (str% " a='1'a=\"2\"")) [at_ (str% "a") (str% "1"), none] :=
  ⟨(C101_attributes _ _).1 (by decide +kernel), (C101_attributes _ _).1 (by decide +kernel)⟩

end CsAny

end Osmio
