import Verif.Proofs.ChangesetCut
import Verif.Props.ChangesetText
import Verif.Props.TagsToSqlite
/-!
# Changeset files that break off

`eventsFailing a later` is what the tokenizer of quick-xml gives over a source that fails after the bytes `a`; `later` is what it gives
after the failure, anything. `eventsOf a` is what it gives over a file with the bytes `a`.
-/

namespace Osmio
open QuickXml Spec.Cs Changesets Spec.Lex TagsToSqlite

namespace Changesets

/-- The changeset reader has no state beside its events. -/
abbrev bare (_ : Unit) (E : Events) : Events := E

section generic

variable {σ γ α : Type} {f : Nat → σ → Option (Except Err (Option α) × σ)} {st : γ → Events → σ}

theorem failing (h : ∀ c E, Steps f st c E ∨ Stuck f st c E) (c : γ) (a : List UInt8) :
    ∃ rs c' E', (∀ r ∈ rs, r ≠ .ok none) ∧ (∀ X, Answers f (st c (settled a ++ X)) rs (st c' (E' ++ X))) ∧ Stuck f st c' E' ∧
      (∃ c'', ∀ later, Answers f (st c (eventsFailing a later)) (rs ++ [.error .xml]) (st c'' later)) ∧
      ∀ b, ∃ s', Answers f (st c (eventsOf (a ++ b))) rs s' := by
  obtain ⟨rs, c', E', h1, h2, h3⟩ := settle h _ c (settled a) (Nat.le_refl _)
  refine ⟨rs, c', E', h1, h2, h3, ?_, fun b => ?_⟩
  · obtain ⟨c'', ⟨n, hn⟩, -⟩ := h3
    exact ⟨c'', fun later => Answers.append (h2 _) (.cons ⟨n, hn later⟩ .nil)⟩
  · obtain ⟨X, hX⟩ := settled_grows a b
    rw [← hX]
    exact ⟨_, h2 X⟩

theorem quiet (h : ∀ c E, Steps f st c E ∨ Stuck f st c E) {more : List (Except Err (Option α))} : ∀ {c : γ} {E : Events},
    Stuck f st c E → ∀ {X : Events}, X = [] ∨ X = [some .other] → ∀ {s}, Answers f (st c (E ++ X)) more s → ∀ r ∈ more, r = .ok none := by
  induction more with
  | nil => intro c E _ X _ s _ r hr; cases hr
  | cons r more ih =>
    intro c E hs X hX s ha r' hr'
    obtain ⟨c', -, hq⟩ := hs
    cases ha with
    | cons h1 h2 =>
      obtain ⟨e1, e2⟩ := hq X hX _ _ h1
      rcases List.mem_cons.1 hr' with rfl | hr'
      · exact e1
      · rw [e2] at h2
        rcases h c' [] with ⟨_, _, _, hl, _⟩ | hs'
        · simp at hl
        · exact ih hs' (X := []) (.inl rfl) h2 r' hr'

/-- After the last answer that does not depend on what follows, a file gives only errors and the end. -/
theorem at_tail (h : ∀ c E, Steps f st c E ∨ Stuck f st c E) (hf : ∀ n s x, f n s = some x → f (n + 1) s = some x)
    {more : List (Except Err (Option α))} {c : γ} {E rest : Events} (hs : Stuck f st c E) (ht : Tail rest) {s : σ}
    (ha : Answers f (st c (E ++ rest)) more s) : ∀ r ∈ more, r = .ok none ∨ r = .error .xml := by
  have err : ∀ X, X = [] ∨ X = [some .other] → Answers f (st c (E ++ none :: X)) more s → ∀ r ∈ more, r = .ok none ∨ r = .error .xml := by
    intro X hX ha r hr
    obtain ⟨c', ⟨n, hn⟩, -⟩ := hs
    cases ha with
    | nil => cases hr
    | cons h1 h2 =>
      obtain ⟨e1, e2⟩ := returns_unique hf h1 ⟨n, hn X⟩
      rcases List.mem_cons.1 hr with rfl | hr
      · exact .inr e1
      · rw [e2] at h2
        rcases h c' [] with ⟨_, _, _, hl, _⟩ | hs'
        · simp at hl
        · exact .inl (quiet h hs' hX h2 r hr)
  cases ht with
  | nil => exact fun r hr => .inl (quiet h hs (.inl rfl) ha r hr)
  | text => exact fun r hr => .inl (quiet h hs (.inr rfl) ha r hr)
  | error => exact err [] (.inl rfl) ha
  | both => exact err _ (.inr rfl) ha

/-- A file without errors: all its results are settled. -/
theorem all_settled (h : ∀ c E, Steps f st c E ∨ Stuck f st c E) (hf : ∀ n s x, f n s = some x → f (n + 1) s = some x)
    (c : γ) {a : List UInt8} (hn : none ∉ eventsOf a) {rs : List (Except Err α)} {s' : σ} (hr : Results f (st c (eventsOf a)) rs s') :
    ∃ c' E', (∀ X, Answers f (st c (settled a ++ X)) (rs.map answer) (st c' (E' ++ X))) ∧ Stuck f st c' E' := by
  obtain ⟨as, c', E', h1, h2, h3, -, -⟩ := failing h c a
  refine ⟨c', E', ?_, h3⟩
  obtain ⟨rest, he, ht⟩ := settled_tail a
  rw [he] at hr hn
  obtain ⟨r1, r2, e1, e2, h4⟩ := results_answers hf (h2 rest) h1 hr
  have hX : rest = [] ∨ rest = [some .other] := by
    cases ht with
    | nil => exact .inl rfl
    | text => exact .inr rfl
    | error => simp at hn
    | both => simp at hn
  obtain ⟨c'', -, hq⟩ := h3
  have : r2 = [] := by
    cases h4 with
    | done _ => rfl
    | ok h' _ => cases (hq rest hX _ _ h').1
    | err h' _ => cases (hq rest hX _ _ h').1
  rw [e1, this, List.append_nil, ← e2]
  exact h2

theorem delivered (h : ∀ c E, Steps f st c E ∨ Stuck f st c E) (hf : ∀ n s x, f n s = some x → f (n + 1) s = some x)
    (c : γ) {a : List UInt8} (hn : none ∉ eventsOf a) {rs : List (Except Err α)} {s' : σ} (hr : Results f (st c (eventsOf a)) rs s') :
    (∃ c', ∀ later, Answers f (st c (eventsFailing a later)) (rs.map answer ++ [.error .xml]) (st c' later)) ∧
    (∀ x, ∃ more c', ∀ later, Answers f (st c (eventsFailing (a ++ x) later)) (rs.map answer ++ more ++ [.error .xml]) (st c' later)) ∧
    ∀ x, ∃ s', Answers f (st c (eventsOf (a ++ x))) (rs.map answer) s' := by
  obtain ⟨c', E', h1, h2⟩ := all_settled h hf c hn hr
  refine ⟨?_, fun x => ?_, fun x => ?_⟩
  · obtain ⟨c'', ⟨n, hn⟩, -⟩ := h2
    exact ⟨c'', fun later => Answers.append (h1 _) (.cons ⟨n, hn later⟩ .nil)⟩
  · obtain ⟨y, hy⟩ := settled_mono a x
    obtain ⟨as, c2, E2, -, h4, ⟨c3, ⟨n, hn⟩, -⟩⟩ := settle h _ c' (E' ++ y) (Nat.le_refl _)
    refine ⟨as, c3, fun later => ?_⟩
    unfold eventsFailing
    rw [← hy, List.append_assoc, List.append_assoc]
    refine Answers.append (h1 _) ?_
    rw [← List.append_assoc]
    exact Answers.append (h4 _) (.cons ⟨n, hn later⟩ .nil)
  · obtain ⟨X, hX⟩ := settled_grows a x
    rw [← hX]
    exact ⟨_, h1 X⟩

end generic

theorem next_both (c : Unit) (E : Events) : Steps nextChangeset bare c E ∨ Stuck nextChangeset bare c E := next_dichotomy E

theorem tag_both (c : Option UInt64 × List (Str × Str)) (E : Events) : Steps nextTag withEvents c E ∨ Stuck nextTag withEvents c E :=
  tag_dichotomy E c

/-- The events of the beginning of a document. -/
theorem reports_begins {t : Str} {ts : List Tok} (h : Begins t ts) {bom : List UInt8} (hb : bom = [] ∨ bom = [0xEF, 0xBB, 0xBF]) :
    Reports ts (eventsOf (bom ++ Utf8.encode t)) ∧ ∀ x ∈ ts, GoodTok x := by
  have ha : t = [] ∨ ∃ c r, t = c :: r ∧ c.toNat < 128 := by
    cases h with
    | plain _ _ hf =>
      cases t with
      | nil => exact .inl rfl
      | cons c r => exact .inr ⟨c, r, rfl, hf c rfl⟩
    | declared hd _ _ =>
      obtain ⟨s, rfl, hs⟩ := declaration_pi hd
      exact .inr ⟨'<', _, rfl, by decide⟩
  have e : eventsOf (bom ++ Utf8.encode t) = events (Utf8.encode t) [] := by
    rcases hb with rfl | rfl
    · exact eventsOf_ascii ha
    · rfl
  rw [e]
  cases h with
  | plain h1 h2 _ => exact ⟨reports_toks (st := []) h1 h2, toks_good h1⟩
  | declared hd h1 h2 =>
    obtain ⟨s, rfl, hs⟩ := declaration_pi hd
    constructor
    · rw [List.append_assoc, List.append_assoc, events_pi hs]
      exact reports_one (.inr rfl) (reports_toks (st := []) h1 h2)
    · intro x hx
      rcases List.mem_cons.1 hx with rfl | hx
      · trivial
      · exact toks_good h1 x hx

theorem reports_sound {ts : List Tok} {evs : Events} (h : Reports ts evs) : none ∉ evs := by
  induction h with
  | nil => exact List.not_mem_nil
  | start _ ih | empty _ ih | stop _ ih => simpa using ih
  | text _ ih | space _ ih =>
    intro h
    rcases List.mem_append.1 h with h | h
    · simp [others] at h
    · exact ih h

end Changesets

/-! ## C85 -/

/-- **C85.** Whatever the bytes `a` after which the source fails: `next_changeset` gives some answers, none of them the end, and then the
error of the source. The answers before it are those that any file beginning with these bytes gives: nothing that was read
is guessed. -/
theorem C85_failing (a : List UInt8) :
    ∃ rs, (∀ r ∈ rs, r ≠ .ok none) ∧
      (∀ later, Answers nextChangeset (eventsFailing a later) (rs ++ [.error .xml]) later) ∧
      ∀ b, ∃ s', Answers nextChangeset (eventsOf (a ++ b)) rs s' := by
  obtain ⟨rs, _, _, h1, -, -, ⟨_, h2⟩, h3⟩ := failing next_both () a
  exact ⟨rs, h1, h2, h3⟩

/-- **C85** for the tag reader. -/
theorem C85_failing_tags (a : List UInt8) :
    ∃ rs, (∀ r ∈ rs, r ≠ .ok none) ∧
      (∀ later, ∃ s', s'.evs = later ∧ Answers nextTag (newTagReader (eventsFailing a later)) (rs ++ [.error .xml]) s') ∧
      ∀ b, ∃ s', Answers nextTag (newTagReader (eventsOf (a ++ b))) rs s' := by
  obtain ⟨rs, _, _, h1, -, -, ⟨c, h2⟩, h3⟩ := failing tag_both (none, []) a
  exact ⟨rs, h1, fun later => ⟨withEvents c later, rfl, h2 later⟩, h3⟩

/-- **C85** on dumps. Let the file begin with a text whose parts are a dump of `ds`, and let the source fail at any
byte `x` after that. The results for `ds` are delivered, in order, and there is an error at the end; if the source fails right after
the text, these results and the error are all there is. -/
theorem C85_delivered {t : Str} {ts : List Tok} (h : Begins t ts) {ds : List (Bool × Option Data)} (hd : DumpText ts ds)
    (bom : List UInt8) (hb : bom = [] ∨ bom = [0xEF, 0xBB, 0xBF]) :
    ∃ rs, List.Forall₂ (fun r d => Fits r d.2) rs ds ∧
      (∀ later, Answers nextChangeset (eventsFailing (bom ++ Utf8.encode t) later) (rs.map answer ++ [.error .xml]) later) ∧
      ∀ x, ∃ more, ∀ later,
        Answers nextChangeset (eventsFailing (bom ++ Utf8.encode t ++ x) later) (rs.map answer ++ more ++ [.error .xml]) later := by
  obtain ⟨h1, h2⟩ := reports_begins h hb
  obtain ⟨rs, h3, h4⟩ := dump_results (dump_of_text hd h2 h1)
  obtain ⟨⟨_, h5⟩, h6, -⟩ := delivered next_both next_mono () (reports_sound h1) h3
  refine ⟨rs, h4, h5, fun x => ?_⟩
  obtain ⟨more, _, h7⟩ := h6 x
  exact ⟨more, h7⟩

/-- **C85** on dumps, for the tag reader. -/
theorem C85_delivered_tags {t : Str} {ts : List Tok} (h : Begins t ts) {ds : List (UInt64 × List (Str × Str))} (hd : TagDumpText ts ds)
    (bom : List UInt8) (hb : bom = [] ∨ bom = [0xEF, 0xBB, 0xBF]) :
    (∀ later, ∃ s', s'.evs = later ∧ Answers nextTag (newTagReader (eventsFailing (bom ++ Utf8.encode t) later))
      (ds.map (fun d => .ok (some d)) ++ [.error .xml]) s') ∧
    ∀ x, ∃ more, ∀ later, ∃ s', s'.evs = later ∧ Answers nextTag (newTagReader (eventsFailing (bom ++ Utf8.encode t ++ x) later))
      (ds.map (fun d => .ok (some d)) ++ more ++ [.error .xml]) s' := by
  obtain ⟨h1, h2⟩ := reports_begins h hb
  obtain ⟨s', -, h3⟩ := tagDump_results (tagDump_of_text hd h2 h1) none []
  obtain ⟨⟨c, h5⟩, h6, -⟩ := delivered tag_both tag_mono (none, []) (reports_sound h1) h3
  have e : (ds.map (Except.ok (ε := Err))).map answer = ds.map (fun d => .ok (some d)) := by
    rw [List.map_map]; rfl
  rw [e] at h5 h6
  refine ⟨fun later => ⟨_, rfl, h5 later⟩, fun x => ?_⟩
  obtain ⟨more, c', h7⟩ := h6 x
  exact ⟨more, fun later => ⟨_, rfl, h7 later⟩⟩

/-- **C85** inside a changeset. If the source fails after the start tag of a changeset, at the end of any of its parts, that changeset is not
delivered: the results of those before it, and the error. -/
theorem C85_inside {t : Str} {pre body : List Tok} {as : List SrcAttr} {d : Data} {tags : List (Str × Str)}
    {ds : List (Bool × Option Data)} (h : Begins t (pre ++ .start (str% "changeset") as :: body)) (hd : DumpText pre ds)
    (ha : Tells as d) (hbt : Tagged body tags) (bom : List UInt8) (hb : bom = [] ∨ bom = [0xEF, 0xBB, 0xBF]) :
    ∃ rs, List.Forall₂ (fun r d => Fits r d.2) rs ds ∧
      ∀ later, Answers nextChangeset (eventsFailing (bom ++ Utf8.encode t) later) (rs.map answer ++ [.error .xml]) later := by
  obtain ⟨hr, hg⟩ := reports_begins h hb
  have hsound := reports_sound hr
  obtain ⟨e1, e2, he, hr1, hr2⟩ := reports_append hr
  have hg' := hg (.start (str% "changeset") as) (by simp)
  cases hr2 with
  | @start _ _ _ e2 hr2 =>
    have hdump := dump_of_text hd (fun x hx => hg x (by simp [hx])) hr1
    obtain ⟨rs, h3, h4⟩ := dump_results hdump
    refine ⟨rs, h4, ?_⟩
    have hc := cutInside ((named_iff cs_colon).2 rfl) (sound_of hg'.2.2 hg'.2.1) (tells_describes hg'.2.2 ha)
      (tagged_body hbt (fun x hx => hg x (by simp [hx])) hr2)
    generalize hX : some (Event.start (Utf8.encode (str% "changeset")) (as.map attrOf)) :: e2 = X at he hc
    -- the answers about the changesets before
    obtain ⟨as1, c1, E1, k1, k2, k3⟩ := settle next_both _ () e1 (Nat.le_refl _)
    obtain ⟨r1, r2, q1, q2, q3⟩ := results_answers next_mono (k2 []) k1 (by simpa using h3)
    have q4 : r2 = [] ∧ Returns nextChangeset E1 (.ok none) [] := by
      obtain ⟨c', -, hq⟩ := k3
      cases q3 with
      | done h' => exact ⟨rfl, by obtain ⟨-, e⟩ := hq [] (.inl rfl) _ _ h'; rw [List.append_nil] at h'; exact e ▸ h'⟩
      | ok h' _ => cases (hq [] (.inl rfl) _ _ h').1
      | err h' _ => cases (hq [] (.inl rfl) _ _ h').1
    obtain ⟨rfl, ⟨n, hn⟩⟩ := q4
    rw [List.append_nil] at q1
    subst q1
    have never : ∀ r s, ¬ Returns nextChangeset (E1 ++ X) r s := by
      rintro r s ⟨m, hm⟩
      rw [next_never (CutInside.skip hc (ends_all hn))] at hm
      cases hm
    -- the answers of the failing source
    obtain ⟨as2, c2, E2, j1, j2, j3, ⟨c3, j4⟩, -⟩ := failing next_both () (bom ++ Utf8.encode t)
    obtain ⟨rest, hrest, ht⟩ := settled_tail (bom ++ Utf8.encode t)
    have hT : rest = [] ∨ rest = [some .other] := by
      rw [hrest] at hsound
      cases ht with
      | nil => exact .inl rfl
      | text => exact .inr rfl
      | error => simp at hsound
      | both => simp at hsound
    have a1 : Answers nextChangeset (e1 ++ X) as1 (E1 ++ X) := k2 X
    have a2 : Answers nextChangeset (e1 ++ X) as2 (E2 ++ rest) := by rw [← he, hrest]; exact j2 rest
    have : as2 = as1 := by
      rcases Nat.le_total as1.length as2.length with hl | hl
      · obtain ⟨e, -⟩ := answers_unique next_mono a1 (answers_take a2 hl).choose_spec (by simp [hl])
        have a3 := answers_split next_mono a1 (r2 := as2.drop as1.length) (by
          have : as1 ++ as2.drop as1.length = as2 := (congrArg (· ++ _) e).trans (List.take_append_drop _ _)
          rw [this]; exact a2)
        cases hdrop : as2.drop as1.length with
        | nil =>
          have := List.drop_eq_nil_iff.1 hdrop
          rw [e, List.take_of_length_le this]
        | cons r l =>
          rw [hdrop] at a3
          cases a3 with
          | cons h' _ => exact absurd h' (never _ _)
      · obtain ⟨e, -⟩ := answers_unique next_mono a2 (answers_take a1 hl).choose_spec (by simp [hl])
        have a3 := answers_split next_mono a2 (r2 := as1.drop as2.length) (by
          have : as2 ++ as1.drop as2.length = as1 := (congrArg (· ++ _) e).trans (List.take_append_drop _ _)
          rw [this]; exact a1)
        cases hdrop : as1.drop as2.length with
        | nil =>
          have := List.drop_eq_nil_iff.1 hdrop
          rw [e, List.take_of_length_le this]
        | cons r l =>
          rw [hdrop] at a3
          obtain ⟨c', -, hq⟩ := j3
          cases a3 with
          | cons h' _ =>
            have hr : r ∈ as1 := List.mem_of_mem_drop (i := as2.length) (by rw [hdrop]; exact List.mem_cons_self)
            exact absurd (hq rest hT _ _ h').1 (k1 r hr)
    rw [← q2, ← this]
    exact j4

/-- What a file that is cut gives, as opposed to a source that fails: the same answers, and after them no changeset. -/
theorem C85_cut_partial (a : List UInt8) :
    ∃ rs, (∀ later, Answers nextChangeset (eventsFailing a later) (rs ++ [.error .xml]) later) ∧
      (∃ s', Answers nextChangeset (eventsOf a) rs s') ∧
      ∀ more s', Answers nextChangeset (eventsOf a) (rs ++ more) s' → ∀ r ∈ more, r = .ok none ∨ r = .error .xml := by
  obtain ⟨rs, c', E', -, h2, h3, ⟨_, h4⟩, h5⟩ := failing next_both () a
  refine ⟨rs, h4, by simpa using h5 [], fun more s' hm => ?_⟩
  obtain ⟨rest, he, ht⟩ := settled_tail a
  rw [he] at hm
  exact at_tail next_both next_mono h3 ht (answers_split next_mono (h2 rest) hm)

/-- **C85, counterexample** for a file that is cut: at the end of any part outside a changeset, elements still open, the reader says the end.
(Inside a changeset it does not come back: `C55_text_fails`.) -/
theorem C85_cut_fails {t : Str} {ts : List Tok} (h : Begins t ts) {ds : List (Bool × Option Data)} (hd : DumpText ts ds)
    (bom : List UInt8) (hb : bom = [] ∨ bom = [0xEF, 0xBB, 0xBF]) :
    ∃ rs, List.Forall₂ (fun r d => Fits r d.2) rs ds ∧ Results nextChangeset (eventsOf (bom ++ Utf8.encode t)) rs [] := by
  obtain ⟨h1, h2⟩ := reports_begins h hb
  obtain ⟨rs, h3, h4⟩ := dump_results (dump_of_text hd h2 h1)
  exact ⟨rs, h4, h3⟩

/-- A failing source has an error among its results. -/
theorem failing_provides (a : List UInt8) (later : Events) (ds : List (UInt64 × List (Str × Str))) :
    ¬ Provides (eventsFailing a later) ds := by
  rintro ⟨s', hr⟩
  obtain ⟨rs, h1, h2, -⟩ := C85_failing_tags a
  obtain ⟨s'', -, ha⟩ := h2 later
  obtain ⟨r1, r2, e1, e2, -⟩ := results_answers tag_mono ha (by
    intro r hr
    rcases List.mem_append.1 hr with hr | hr
    · exact h1 r hr
    · rw [List.mem_singleton.1 hr]; simp) hr
  have hm : Except.error Err.xml ∈ r1.map (answer (α := UInt64 × List (Str × Str))) := by rw [← e2]; simp
  obtain ⟨r, hr1, hr2⟩ := List.mem_map.1 hm
  have hm' : r ∈ ds.map Except.ok := by rw [e1]; exact List.mem_append_left _ hr1
  obtain ⟨d, -, rfl⟩ := List.mem_map.1 hm'
  cases hr2

/-- **C85** for the program that stores the tags in a database: if the source fails, no row is ever stored, whatever came before, and the
program ends with an error. -/
theorem C85_program (a : List UInt8) (later : Events) (fails : Nat → Bool) :
    (∀ n, NoRows (after fails (start (eventsFailing a later) none) n).file) ∧
      ∃ n, ∀ m, n ≤ m → (after fails (start (eventsFailing a later) none) m).phase = .failed := by
  refine ⟨fun n => ?_, ?_⟩
  · rcases C69_atomic (eventsFailing a later) fails n with h | ⟨ds, h, -⟩
    · exact h
    · exact absurd h (failing_provides _ _ _)
  · obtain ⟨n, hn⟩ := C69_ends (eventsFailing a later) none fails
    refine ⟨n, fun m hm => (hn m hm).resolve_left fun hp => ?_⟩
    obtain ⟨ds, h, -⟩ := (C69_result _ fails m).1 hp
    exact failing_provides _ _ _ h

/-- **C85, counterexample** for the program and a file that is cut: the rows of what is there are stored, and the program reports success. -/
theorem C85_program_cut_fails {t : Str} {ts : List Tok} (h : Begins t ts) {ds : List (UInt64 × List (Str × Str))} (hd : TagDumpText ts ds)
    (hnd : (ds.map (·.1)).Nodup) (fails : Nat → Bool) (hf : ∀ t, fails t = false) :
    ∃ n, (after fails (start (eventsOf (Utf8.encode t)) none) n).phase = .done ∧
      Table ds (after fails (start (eventsOf (Utf8.encode t)) none) n).file := by
  obtain ⟨h1, h2⟩ := reports_begins h (.inl rfl)
  obtain ⟨s', -, h3⟩ := tagDump_results (tagDump_of_text hd h2 h1) none []
  obtain ⟨n, hn⟩ := (C69_success_iff (eventsOf (Utf8.encode t)) fails hf).2 ⟨ds, ⟨s', h3⟩, hnd⟩
  refine ⟨n, hn, ?_⟩
  obtain ⟨ds', ⟨s'', hr'⟩, ht⟩ := (C69_result _ fails n).1 hn
  have e := (C53_unique h3 hr').1
  have : ds = ds' := List.map_injective_iff.2 (fun a b (h : Except.ok (ε := Err) a = .ok b) => by injection h) e
  rw [this]; exact ht

/-! ## Examples -/

namespace CsText

/-- A changeset with a tag, in an element that is still open. -/
def cut : Str :=
  str% "<?xml version=\"1.0\"?>" ++ (str% "<osm><changeset" ++ (text7 ++ (str% "><tag" ++ (textA ++ str% "/></changeset>"))))
def cutTag : List Tok := [.empty (str% "tag") tagA]
def cutToks : List Tok :=
  .space :: .start (str% "osm") [] :: .start (str% "changeset") attrs7 :: (cutTag ++ .stop (str% "changeset") :: [])

theorem begins : Begins cut cutToks :=
  .declared (by decide)
    (.start (n := str% "osm") (a := []) (w := []) (isName_of (by decide +kernel)) .nil (by decide) (by decide)
      (.start (n := str% "changeset") (a := text7) (w := []) (isName_of (by decide +kernel)) attrs7Ok (by decide) (by decide)
        (.empty (n := str% "tag") (a := textA) (w := []) (isName_of (by decide +kernel)) attrsAOk (by decide) (by decide)
          (.stop (n := str% "changeset") (w := []) (isName_of (by decide +kernel)) (by decide) .nil))))
    (.start (.start (.empty (.stop .nil))))

theorem cutTagged : Tagged cutTag data7.tags :=
  .tag (.inr rfl) ⟨⟨_, str% "c", _⟩, by simp [tagA], rfl, rfl⟩ ⟨⟨_, str% "&#39;é", _⟩, by simp [tagA], rfl, rfl⟩ .nil

theorem cutDump : DumpText cutToks [(true, some data7)] :=
  .other aside_text.2 (.other (aside_start (by decide) (by decide)) (.full (body := cutTag) tells7 cutTagged .nil))

theorem cutTagDump : TagDumpText cutToks [(7, [(str% "c", str% "'é")])] :=
  .other aside_text.2 (.other (aside_start (by decide) (by decide)) (.full (body := cutTag) (s := str% "7")
    ⟨⟨_, str% "7", _⟩, by simp [attrs7], rfl, rfl⟩ (by decide +kernel) cutTagged .nil))

/-- The source fails somewhere in the second changeset: the first one is delivered, there is an error at the end. -/
example (x : List UInt8) : ∃ c, Shows c data7 ∧ ∃ more, ∀ later,
    Answers nextChangeset (eventsFailing (Utf8.encode cut ++ x) later) (.ok (some c) :: more ++ [.error .xml]) later := by
  obtain ⟨rs, h1, -, h3⟩ := C85_delivered begins cutDump [] (.inl rfl)
  obtain ⟨more, h3⟩ := h3 x
  cases h1 with
  | @cons r _ _ _ h h' =>
    cases h'
    cases r with
    | error e => cases h
    | ok c => exact ⟨c, h, more, h3⟩

/-- The file is cut right after it: the end, as if the dump had this one changeset. -/
example : ∃ c, Shows c data7 ∧ Results nextChangeset (eventsOf (Utf8.encode cut)) [.ok c] [] := by
  obtain ⟨rs, h1, h2⟩ := C85_cut_fails begins cutDump [] (.inl rfl)
  cases h1 with
  | @cons r _ _ _ h h' =>
    cases h'
    cases r with
    | error e => cases h
    | ok c => exact ⟨c, h, h2⟩

example : ∃ n, Table [(7, [(str% "c", str% "'é")])] (after (fun _ => false) (start (eventsOf (Utf8.encode cut)) none) n).file :=
  let ⟨n, h⟩ := C85_program_cut_fails begins cutTagDump (by simp) (fun _ => false) (fun _ => rfl)
  ⟨n, h.2⟩

/-- The source fails inside the first changeset, after its tag. -/
example (later : Events) : Answers nextChangeset (eventsFailing
    (Utf8.encode (str% "<osm><changeset" ++ (text7 ++ (str% "><tag" ++ (textA ++ str% "/>"))))) later) [.error .xml] later := by
  obtain ⟨rs, h1, h2⟩ := C85_inside (pre := [.start (str% "osm") []]) (body := cutTag) (as := attrs7)
    (t := str% "<osm><changeset" ++ (text7 ++ (str% "><tag" ++ (textA ++ str% "/>"))))
    (.plain
      (.start (n := str% "osm") (a := []) (w := []) (isName_of (by decide +kernel)) .nil (by decide) (by decide)
        (.start (n := str% "changeset") (a := text7) (w := []) (isName_of (by decide +kernel)) attrs7Ok (by decide) (by decide)
          (.empty (n := str% "tag") (a := textA) (w := []) (isName_of (by decide +kernel)) attrsAOk (by decide) (by decide) .nil)))
      (.start (.start (.empty .nil))) (by decide))
    (.other (aside_start (by decide) (by decide)) .nil) tells7 cutTagged [] (.inl rfl)
  cases h1
  exact h2 later

end CsText

/-- A concrete failing source: the text after an element is not known to be complete, an attribute value neither. -/
example : eventsFailing (Utf8.encode (str% "<a>x</a>y<b c='")) [] =
    [some (.start [97] []), some .other, some (.end_ [97]), some .other, none] := by decide +kernel

end Osmio
