import Verif.Spec.XmlDoctype
import Verif.Props.ChangesetText
/-!
# Changeset dumps with a document type

C52 and C53 for files that begin with a document type declaration, with or without an internal subset: it is skipped as a whole.
-/

namespace Osmio
open QuickXml Spec.Cs Spec.Lex Changesets Utf8

theorem doctypeEnd_cons (d : Nat) (b : UInt8) (r : List UInt8) : doctypeEnd d (b :: r) =
    if b = 62 then (match d with | 0 => some r | d + 1 => doctypeEnd d r)
    else if b = 60 then doctypeEnd (d + 1) r else doctypeEnd d r := by
  rw [doctypeEnd.eq_def]
  rfl

theorem doctypeEnd_skip {l : List UInt8} (h : ∀ b ∈ l, b ≠ 60 ∧ b ≠ 62) (d : Nat) (r : List UInt8) :
    doctypeEnd d (l ++ r) = doctypeEnd d r := by
  induction l with
  | nil => rfl
  | cons b l ih =>
    obtain ⟨h1, h2⟩ := h b List.mem_cons_self
    rw [List.cons_append, doctypeEnd_cons, if_neg h2, if_neg h1, ih fun x hx => h x (List.mem_cons_of_mem _ hx)]

theorem no_angle {s : Str} (h1 : '<' ∉ s) (h2 : '>' ∉ s) : ∀ b ∈ encode s, b ≠ 60 ∧ b ≠ 62 := by
  intro b hb
  constructor
  · rintro rfl
    exact not_mem_encode h1 (by decide) hb
  · rintro rfl
    exact not_mem_encode h2 (by decide) hb

theorem doctypeEnd_nested {s : Str} (h : Nested s) : ∀ d r, doctypeEnd d (encode s ++ r) = doctypeEnd d r := by
  induction h with
  | nil => intro d r; rfl
  | @plain c s h1 h2 _ ih =>
    intro d r
    rw [encode_cons, List.append_assoc]
    have := no_angle (s := [c]) (by simpa using h1.symm) (by simpa using h2.symm)
    rw [encode_cons, encode_nil, List.append_nil] at this
    rw [doctypeEnd_skip this, ih]
  | @nest a s _ _ iha ihs =>
    intro d r
    rw [encode_cons, show encodeChar '<' = [60] by decide +kernel, encode_append, encode_cons,
      show encodeChar '>' = [62] by decide +kernel]
    simp only [List.cons_append, List.nil_append, List.append_assoc]
    rw [doctypeEnd_cons, if_neg (by decide), if_pos rfl, iha, doctypeEnd_cons, if_pos rfl]
    exact ihs d r

theorem events_doctype {w1 n d : Str} (hw : Ws w1) (hn : IsName n) (hd : Nested d) (t : Str) (st : List (List UInt8)) :
    events (encode (str% "<!DOCTYPE" ++ (w1 ++ (n ++ (d ++ '>' :: t))))) st = some .other :: events (encode t) st := by
  have e : encode (str% "<!DOCTYPE" ++ (w1 ++ (n ++ (d ++ '>' :: t)))) =
      60 :: 33 :: 68 :: 79 :: 67 :: 84 :: 89 :: 80 :: 69 :: encode (w1 ++ (n ++ (d ++ '>' :: t))) := by
    rw [encode_append]; rfl
  rw [e, events_cons, readOne, if_pos rfl, readMarkup, if_pos rfl, readBang, if_neg, if_neg, if_pos]
  · have hnw : ∀ b ∈ encode (w1 ++ n), b ≠ 60 ∧ b ≠ 62 := by
      refine no_angle ?_ ?_ <;> intro hm <;> rcases List.mem_append.1 hm with hm | hm
      · rcases hw _ hm with h | h | h | h <;> exact absurd h (by decide)
      · exact absurd (isName_chars hn _ hm) (by decide +kernel)
      · rcases hw _ hm with h | h | h | h <;> exact absurd h (by decide)
      · exact absurd (isName_chars hn _ hm) (by decide +kernel)
    have e2 : doctypeEnd 0 (encode (w1 ++ (n ++ (d ++ '>' :: t)))) = some (encode t) := by
      rw [← List.append_assoc w1, encode_append, doctypeEnd_skip hnw, encode_append, doctypeEnd_nested hd, encode_cons,
        show encodeChar '>' = [62] by decide +kernel, List.cons_append, doctypeEnd_cons, if_pos rfl]
      rfl
    simp only [List.drop_succ_cons, List.drop_zero, e2]
  · left
    rw [List.isPrefixOf_iff_prefix]; exact ⟨_, rfl⟩
  · intro hp
    rw [List.isPrefixOf_iff_prefix] at hp
    exact absurd (List.cons_prefix_cons.1 hp).1 (by decide)
  · intro hp
    rw [List.isPrefixOf_iff_prefix] at hp
    exact absurd (List.cons_prefix_cons.1 hp).1 (by decide)

theorem reports_typed {t : Str} {ts : List Tok} (h : Typed t ts) :
    Reports ts (eventsOf (encode t)) ∧ ∀ x ∈ ts, GoodTok x := by
  have key : ∀ {w w1 n d t : Str} {ts : List Tok} {f : Spec.Forest}, Ws w → Ws w1 → IsName n → Nested d → Spec.Lex.Body t ts f →
      Reports (.space :: .space :: ts) (events (encode (w ++ (str% "<!DOCTYPE" ++ (w1 ++ (n ++ (d ++ '>' :: t)))))) []) ∧
      ∀ x ∈ .space :: .space :: ts, GoodTok x := by
    intro w w1 n d t ts f hw hw1 hn hd hb
    constructor
    · obtain ⟨⟨k, hk⟩, _⟩ := events_text (ws_text hw) (t := str% "<!DOCTYPE" ++ (w1 ++ (n ++ (d ++ '>' :: t)))) (.inr ⟨_, rfl⟩) []
      rw [hk, events_doctype hw1 hn hd]
      exact .space (reports_one (.inr rfl) (reports_toks (st := []) (body_toks hb) (matched_body hb)))
    · intro x hx
      rcases List.mem_cons.1 hx with rfl | hx
      · trivial
      · rcases List.mem_cons.1 hx with rfl | hx
        · trivial
        · exact toks_good (body_toks hb) x hx
  cases h with
  | @plain w w1 n d t ts f hw _ hw1 hn hd hb =>
    rw [eventsOf_ascii]
    · exact key hw hw1 hn hd hb
    · right
      cases w with
      | nil => exact ⟨'<', _, rfl, by decide⟩
      | cons c w =>
        refine ⟨c, _, rfl, ?_⟩
        rcases hw c List.mem_cons_self with rfl | rfl | rfl | rfl <;> decide
  | @declared decl w w1 n d t ts f hdecl hw _ hw1 hn hd hb =>
    obtain ⟨s, rfl, hs⟩ := declaration_pi hdecl
    obtain ⟨g1, g2⟩ := key hw hw1 hn hd hb
    constructor
    · have h1 : ∃ c r, (str% "<?" ++ (s ++ str% "?>")) ++ (w ++ (str% "<!DOCTYPE" ++ (w1 ++ (n ++ (d ++ '>' :: t))))) = c :: r ∧
          c.toNat < 128 := ⟨'<', _, rfl, by decide⟩
      rw [eventsOf_ascii (.inr h1), List.append_assoc, List.append_assoc, events_pi hs]
      exact reports_one (.inr rfl) g1
    · intro x hx
      rcases List.mem_cons.1 hx with rfl | hx
      · trivial
      · exact g2 x hx

/-- **C52** for files with a document type. -/
theorem C52_doctype {t : Str} {ts : List Tok} (h : Typed t ts) {ds : List (Bool × Option Data)} (hd : DumpText ts ds) :
    ∃ rs, Results nextChangeset (eventsOf (encode t)) rs [] ∧ List.Forall₂ (fun r d => Fits r d.2) rs ds ∧
      Returns nextChangeset [] (.ok none) [] := by
  obtain ⟨h1, h2⟩ := reports_typed h
  exact C52_changesets (dump_of_text hd h2 h1)

/-- **C53** for files with a document type. -/
theorem C53_doctype {t : Str} {ts : List Tok} (h : Typed t ts) {ds : List (UInt64 × List (Str × Str))} (hd : TagDumpText ts ds) :
    ∃ s', s'.evs = [] ∧ Results nextTag (newTagReader (eventsOf (encode t))) (ds.map .ok) s' := by
  obtain ⟨h1, h2⟩ := reports_typed h
  exact C53_tags (tagDump_of_text hd h2 h1)

/-- The example with a document type that has an internal subset. -/
theorem CsText.typed : Typed (str% "<?xml version=\"1.0\"?>" ++ (str% "\n" ++ (str% "<!DOCTYPE" ++ (str% " " ++ (str% "osm" ++
    (str% " [<!ELEMENT osm ANY> ü]" ++ '>' :: CsText.text.drop 21)))))) (.space :: .space :: .space :: CsText.toks.tail) := by
  obtain ⟨k, hk⟩ := CsText.kidsOk
  refine .declared (by decide) (by decide) (by decide) (by decide) (isName_of (by decide +kernel)) ?_
    (.mk (before := []) (root := CsText.toks.tail) (after := []) (n := str% "osm") (as := []) (ks := CsText.kids) CsText.toksOk (by simp)
      (by simp) (.inr rfl) hk (.elem hk .nil))
  have p : ∀ {a b : Str}, (∀ c ∈ a, c ≠ '<' ∧ c ≠ '>') → Nested b → Nested (a ++ b) := by
    intro a b ha hb
    induction a with
    | nil => exact hb
    | cons c a ih =>
      obtain ⟨h1, h2⟩ := ha c List.mem_cons_self
      exact .plain h1 h2 (ih fun x hx => ha x (List.mem_cons_of_mem _ hx))
  have q : ∀ {a : Str}, (∀ c ∈ a, c ≠ '<' ∧ c ≠ '>') → Nested a := fun ha => by simpa using p ha .nil
  exact p (a := str% " [") (by decide) (.nest (a := str% "!ELEMENT osm ANY") (s := str% " ü]") (q (by decide)) (q (by decide)))

example : ∃ ds, DumpText (.space :: .space :: .space :: CsText.toks.tail) ds ∧ ds.length = 2 :=
  ⟨_, .other CsText.aside_text.2 (.other CsText.aside_text.2 CsText.dumpText), rfl⟩

end Osmio
