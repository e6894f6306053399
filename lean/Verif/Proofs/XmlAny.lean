import Verif.Spec.XmlAny
import Verif.Proofs.XmlGrammarInv
import Verif.Proofs.XmlTorn
/-! # Proofs about beginnings of documents -/

namespace Osmio.Spec.Gram
open Xml Osmio.Spec.Lex

variable {norm : Xml.Config}

theorem tags_append (a b : List XmlEvent) : onlyTags (a ++ b) = onlyTags a ++ onlyTags b := List.filter_append ..

/-- The open elements, as the parser keeps them. -/
def kept (up : List (Str × List (Str × Str))) : List (Str × List Str) := up.map fun x => (x.1, declared x.2)

theorem scoped_kept (up : List (Str × List (Str × Str))) : Scoped (kept up) (up.flatMap Prod.snd) := by
  induction up with
  | nil => exact scoped_nil
  | cons x up ih => rw [List.flatMap_cons]; exact scoped_cons ih x.1 x.2

theorem kept_nil {up : List (Str × List (Str × Str))} : kept up = [] ↔ up = [] := by simp [kept]

theorem full_iff {up : List (Str × List (Str × Str))} {r : Bool} {ev : List XmlEvent} :
    ¬ Full norm (between (kept up) r ev) ↔ (up = [] → r = false ∨ norm.manyRoots = true) := by
  unfold Full
  show ¬ (kept up = [] ∧ r = true ∧ norm.manyRoots = false) ↔ _
  rw [kept_nil]
  cases r <;> cases norm.manyRoots <;> simp

theorem run_begins {up : List (Str × List (Str × Str))} {r : Bool} {ts : List Tok} {evs : List XmlEvent}
    (h : Begins norm.manyRoots up r ts evs) (ev : List XmlEvent) :
    ∃ z, tokRun norm (between (kept up) r ev) ts = some z ∧ onlyTags z.events = onlyTags ev ++ evs := by
  induction h generalizing ev with
  | nil => exact ⟨_, rfl, (List.append_nil _).symm⟩
  | @space up r ts evs _ ih =>
    obtain ⟨z, h1, h2⟩ := ih (ev ++ [.other])
    exact ⟨z, h1, by rw [h2, tags_append]; simp [onlyTags]⟩
  | @text up r ts evs hu _ ih =>
    obtain ⟨z, h1, h2⟩ := ih (ev ++ [.other])
    refine ⟨z, ?_, by rw [h2, tags_append]; simp [onlyTags]⟩
    rw [tokRun, show tokStep norm (between (kept up) r ev) .text = some (between (kept up) r (ev ++ [.other])) from
      if_neg fun h => hu (kept_nil.1 h)]
    exact h1
  | @start up r name as n l ts evs ht hf _ ih =>
    obtain ⟨z, h1, h2⟩ := ih (ev ++ [.start n l])
    refine ⟨z, ?_, by rw [h2, tags_append]; simp [onlyTags]⟩
    rw [tokRun, (tokStep_start (scoped_kept up) ht (full_iff.2 hf)).1]
    exact h1
  | @empty up r name as n l ts evs ht hf _ ih =>
    obtain ⟨z, h1, h2⟩ := ih (ev ++ [.start n l, .stop n])
    refine ⟨z, ?_, by rw [h2, tags_append]; simp [onlyTags]⟩
    rw [tokRun, (tokStep_start (scoped_kept up) ht (full_iff.2 hf)).2]
    exact h1
  | @stop name as up r n ts evs hn _ ih =>
    obtain ⟨z, h1, h2⟩ := ih (ev ++ [.stop n])
    refine ⟨z, ?_, by rw [h2, tags_append]; simp [onlyTags]⟩
    rw [tokRun, show between (kept ((name, as) :: up)) r ev = between ((name, declared as) :: kept up) r ev from rfl, tokStep_stop hn]
    exact h1

theorem begins_run {ts : List Tok} : ∀ {up : List (Str × List (Str × Str))} {r : Bool} {ev : List XmlEvent} {z : PState},
    tokRun norm (between (kept up) r ev) ts = some z → ∃ evs, Begins norm.manyRoots up r ts evs ∧ onlyTags z.events = onlyTags ev ++ evs := by
  induction ts with
  | nil => intro up r ev z h; cases h; exact ⟨[], .nil, (List.append_nil _).symm⟩
  | cons x ts ih =>
    intro up r ev z h
    simp only [tokRun, Option.bind_eq_some_iff] at h
    obtain ⟨y, hy, h⟩ := h
    rcases tokStep_inv (scoped_kept up) hy with ⟨rfl, g1, rfl⟩ | ⟨rfl, rfl⟩ | ⟨name, as, n, l, rfl, g1, g2, rfl⟩ | ⟨name, as, n, l, rfl, g1, g2, rfl⟩ |
      ⟨name, ds, o, q, rfl, g1, g2, rfl⟩
    · obtain ⟨evs, h1, h2⟩ := ih h
      exact ⟨evs, .text (fun h => g1 (kept_nil.2 h)) h1, by rw [h2, tags_append]; simp [onlyTags]⟩
    · obtain ⟨evs, h1, h2⟩ := ih h
      exact ⟨evs, .space h1, by rw [h2, tags_append]; simp [onlyTags]⟩
    · obtain ⟨evs, h1, h2⟩ := ih (up := (name, as) :: up) h
      exact ⟨_, .start g1 (full_iff.1 g2) h1, by rw [h2, tags_append]; simp [onlyTags]⟩
    · obtain ⟨evs, h1, h2⟩ := ih h
      exact ⟨_, .empty g1 (full_iff.1 g2) h1, by rw [h2, tags_append]; simp [onlyTags]⟩
    · cases up with
      | nil => cases g1
      | cons u up =>
        obtain ⟨u1, u2⟩ := u
        cases g1
        obtain ⟨evs, h1, h2⟩ := ih h
        exact ⟨_, .stop g2 h1, by rw [h2, tags_append]; simp [onlyTags]⟩

/-- The texts after which the parser is between two parts or in text are those that begin a document. -/
theorem begun_iff {t : Str} {evs : List XmlEvent} :
    Begun norm.char norm.manyRoots t evs ↔ Ended (Xml.run norm initial t) ∧ onlyTags (Xml.run norm initial t).events = evs := by
  have hpend : ∀ (ev : List XmlEvent) p, onlyTags (ev ++ pend p) = onlyTags ev := by
    intro ev p; rw [tags_append]; cases p <;> simp [onlyTags, pend]
  constructor
  · rintro ⟨ts, h1, h2⟩
    obtain ⟨z, h3, h4⟩ := run_begins h2 []
    obtain ⟨p, o, r, ev, e1, e2⟩ := run_parts h1 false (by simp) [] false [] (by simp [pend]) h3
    rw [show initial = ⟨.text false, [], false, []⟩ from rfl, e1]
    refine ⟨⟨p, rfl⟩, ?_⟩
    rw [e2] at h4
    rw [← hpend ev p]
    exact h4
  · rintro ⟨h1, h2⟩
    obtain ⟨ts, h3, h4⟩ := parts_of_run (norm := norm) _ (Nat.le_refl _) (t := t) (p := false) (o := []) (r := false) (ev := [])
      (fun _ h => absurd h (by simp)) h1 (.inl rfl)
    obtain ⟨evs', h5, h6⟩ := begins_run (up := []) h4
    refine ⟨ts, h3, ?_⟩
    have : evs' = evs := by
      rw [← h2]
      obtain ⟨p, hp⟩ := h1
      have e : (settle (Xml.run norm ⟨.text false, [], false, []⟩ t)).events = (Xml.run norm initial t).events ++ pend p := by
        show (settle (Xml.run norm initial t)).events = _
        unfold settle
        rw [hp]
        rfl
      rw [e, hpend] at h6
      exact (by simpa [onlyTags, pend] using h6 : onlyTags (Xml.run norm initial t).events = evs').symm
    rwa [this] at h5

/-! ## The last place between two parts -/

/-- A step that does not end a part reports no tag. -/
theorem step_quiet (s : PState) (c : Char) : Ended (Xml.step norm s c) ∨ onlyTags (Xml.step norm s c).events = onlyTags s.events := by
  have g : ∀ (s : PState) m, onlyTags (s.goto m).events = onlyTags s.events := fun _ _ => rfl
  have e : ∀ s : PState, onlyTags s.err.events = onlyTags s.events := fun _ => rfl
  have f : ∀ (s : PState) b, onlyTags (flush s b).events = onlyTags s.events := by
    intro s b; cases b
    · rfl
    · show onlyTags (s.events ++ [.other]) = _
      rw [tags_append]; simp [onlyTags]
  have t : ∀ n as b, Ended (finishTag norm s n as b) ∨ onlyTags (finishTag norm s n as b).events = onlyTags s.events := by
    intro n as b
    unfold finishTag
    simp only
    split
    · split
      · exact .inr rfl
      · exact .inl ⟨_, rfl⟩
    · exact .inr rfl
  have q : ∀ n, Ended (finishEnd s n) ∨ onlyTags (finishEnd s n).events = onlyTags s.events := by
    intro n
    unfold finishEnd
    split
    · exact .inr rfl
    · split
      · split
        · exact .inl ⟨_, rfl⟩
        · exact .inr rfl
      · exact .inr rfl
  have fg : ∀ b m, onlyTags ((flush s b).goto m).events = onlyTags s.events := fun b m => (g _ m).trans (f s b)
  unfold Xml.step
  split
  · unfold stepText; repeat' split
    all_goals first | exact .inr (g _ _) | exact .inr (fg _ _)
  · unfold stepTextEnt; repeat' split
    all_goals exact .inr (g _ _)
  · unfold stepLt; repeat' split
    all_goals exact .inr (g _ _)
  · unfold stepBang; simp only; repeat' split
    all_goals exact .inr (g _ _)
  · unfold stepComment; repeat' split
    all_goals first | exact .inr (g _ _) | exact .inr (fg _ _)
  · unfold stepCdata; repeat' split
    all_goals first | exact .inr (g _ _) | exact .inr (fg _ _)
  · unfold stepPi; repeat' split
    all_goals first | exact .inr (g _ _) | exact .inr (fg _ _)
  · unfold stepTagName; repeat' split
    all_goals first | exact .inr (g _ _) | exact t _ _ _
  · unfold stepInTag; repeat' split
    all_goals first | exact .inr (g _ _) | exact t _ _ _
  · unfold stepAttrName; repeat' split
    all_goals exact .inr (g _ _)
  · unfold stepAttrEq; repeat' split
    all_goals exact .inr (g _ _)
  · unfold stepAttrPre; repeat' split
    all_goals exact .inr (g _ _)
  · unfold stepAttrVal; repeat' split
    all_goals exact .inr (g _ _)
  · unfold stepAttrEnt; repeat' split
    all_goals exact .inr (g _ _)
  · unfold stepAttrDone; repeat' split
    all_goals first | exact .inr (g _ _) | exact t _ _ _
  · repeat' split
    all_goals first | exact t _ _ _ | exact .inr rfl
  · unfold stepEndName; repeat' split
    all_goals first | exact .inr (g _ _) | exact q _
  · repeat' split
    all_goals first | exact q _ | exact .inr rfl
  · exact .inr rfl

/-- Of every text there is a longest beginning after which the parser is between two parts, and it has reported all its tags by then. -/
theorem last_ended (u : Str) : ∃ t, t <+: u ∧ Ended (Xml.run norm initial t) ∧ onlyTags (Xml.run norm initial t).events = onlyTags (Xml.run norm initial u).events ∧
    ∀ t', t' <+: u → Ended (Xml.run norm initial t') → t' <+: t := by
  induction u using List.reverseRecOn with
  | nil => exact ⟨[], List.prefix_refl _, ⟨_, rfl⟩, rfl, fun _ h _ => h⟩
  | append_singleton u c ih =>
    by_cases he : Ended (Xml.run norm initial (u ++ [c]))
    · exact ⟨_, List.prefix_refl _, he, rfl, fun _ h _ => h⟩
    · obtain ⟨t, h1, h2, h3, h4⟩ := ih
      have e : Xml.run norm initial (u ++ [c]) = Xml.step norm (Xml.run norm initial u) c := by simp [Xml.run]
      refine ⟨t, h1.trans (List.prefix_append _ _), h2, ?_, fun t' g1 g2 => ?_⟩
      · rw [e] at he ⊢
        rw [h3, (step_quiet _ c).resolve_left he]
      · rcases List.prefix_concat_iff.1 g1 with rfl | g1
        · exact absurd g2 he
        · exact h4 t' g1 g2

/-- Any bytes have a longest beginning, and the parser reports its tags. -/
theorem longest_exists (norm : Xml.Config) (bs : List UInt8) :
    ∃ t, Longest norm.char norm.manyRoots bs t (onlyTags (Xml.run norm initial (Utf8.decodePrefix bs).1).events) := by
  obtain ⟨t, h1, h2, h3, h4⟩ := last_ended (norm := norm) (Utf8.decodePrefix bs).1
  refine ⟨t, (Utf8.encode_prefix_iff _ _).2 h1, begun_iff.2 ⟨h2, h3⟩, fun t' evs' g1 g2 => ?_⟩
  exact h4 t' ((Utf8.encode_prefix_iff _ _).1 g1) (begun_iff.1 g2).1

theorem longest_unique {report : Char → Char} {many : Bool} {bs : List UInt8} {t t' : Str} {evs evs' : List XmlEvent}
    (h : Longest report many bs t evs) (h' : Longest report many bs t' evs') : t = t' ∧ evs = evs' := by
  have e : t = t' := (h'.longest t evs h.begins h.begun).eq_of_length_le (h.longest t' evs' h'.begins h'.begun).length_le
  subst e
  refine ⟨rfl, ?_⟩
  rw [← (begun_iff (norm := ⟨report, many⟩).1 h.begun).2, ← (begun_iff (norm := ⟨report, many⟩).1 h'.begun).2]

theorem longest_tags {bs : List UInt8} {t : Str} {evs : List XmlEvent} (h : Longest norm.char norm.manyRoots bs t evs) :
    evs = onlyTags (Xml.run norm initial (Utf8.decodePrefix bs).1).events := by
  obtain ⟨t', h'⟩ := longest_exists norm bs
  exact (longest_unique h h').2

end Osmio.Spec.Gram
