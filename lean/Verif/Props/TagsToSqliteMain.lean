import Verif.Model.TagsToSqliteMain
import Verif.Props.TagsToSqlite
/-!
# Property C69, from the arguments and files of the program

`m n` is `Main.after fails (Main.start later dec files dbs args) n`: where the program called with these arguments is after `n` operations, of which any may
fail. `dbs` are the databases on the disk before.
-/

namespace Osmio
open Changesets TagsToSqlite Spec.Cs
open QuickXml (Events Event eventsOf eventsOfSource)

section
variable (later : Events) (dec : Bz2) (files : Files) (dbs : Databases) (args : List FileName) (fails : Nat → Bool)

theorem Main.after_running (db : FileName) (s : Run) (n : Nat) : Main.after fails (.running db s) n = .running db (after fails s n) := by
  induction n with
  | zero => rfl
  | succ n ih => rw [Main.after, ih]; rfl

theorem Main.after_other {m : Main} (h : ∀ db s, m ≠ .running db s) (n : Nat) : Main.after fails m n = m := by
  induction n with
  | zero => rfl
  | succ n ih =>
    rw [Main.after, ih]
    cases m with
    | running db s => exact absurd rfl (h db s)
    | panicked => rfl
    | unopened => rfl

/-- The program has got past its arguments and the opening of the changeset file. -/
def Started (cs db : FileName) (f : Source) : Prop := args[1]? = some cs ∧ args[2]? = some db ∧ files cs = some f

theorem main_cases (n : Nat) :
    (∃ cs db f, Started files args cs db f ∧ Main.after fails (Main.start later dec files dbs args) n =
      .running db (after fails (TagsToSqlite.start (eventsOfSource later (dec f)) (dbs db)) n)) ∨
    ((¬ ∃ cs db f, Started files args cs db f) ∧ (Main.after fails (Main.start later dec files dbs args) n = .panicked ∨
      Main.after fails (Main.start later dec files dbs args) n = .unopened)) := by
  cases h1 : args[1]? with
  | none =>
    have e : Main.start later dec files dbs args = .panicked := by rw [Main.start, h1]
    exact .inr ⟨(by rintro ⟨cs, db, f, h, -⟩; rw [h1] at h; cases h), .inl (by rw [e, Main.after_other fails (by intro _ _ h; cases h)])⟩
  | some cs =>
    cases h2 : args[2]? with
    | none =>
      have e : Main.start later dec files dbs args = .panicked := by rw [Main.start, h1, h2]
      exact .inr ⟨(by rintro ⟨cs, db, f, -, h, -⟩; rw [h2] at h; cases h), .inl (by rw [e, Main.after_other fails (by intro _ _ h; cases h)])⟩
    | some db =>
      cases h3 : files cs with
      | none =>
        have e : Main.start later dec files dbs args = .unopened := by
          simp only [Main.start, h1, h2, tagsFromFilename, h3]
        refine .inr ⟨?_, .inr (by rw [e, Main.after_other fails (by intro _ _ h; cases h)])⟩
        rintro ⟨cs', db, f, h, -, h'⟩
        rw [h1] at h
        cases h
        rw [h3] at h'
        cases h'
      | some f =>
        have e : Main.start later dec files dbs args = .running db (TagsToSqlite.start (eventsOfSource later (dec f)) (dbs db)) := by
          simp only [Main.start, h1, h2, tagsFromFilename, h3, TagsToSqlite.start]
        exact .inl ⟨cs, db, f, ⟨h1, h2, h3⟩, by rw [e, Main.after_running]⟩

/-- **C69.** The program touches no file but the one named by its second argument. -/
theorem C69_only (n : Nat) (name : FileName) (h : args[2]? ≠ some name) :
    (Main.after fails (Main.start later dec files dbs args) n).databases dbs name = dbs name := by
  rcases main_cases later dec files dbs args fails n with ⟨cs, db, f, hs, e⟩ | ⟨-, e | e⟩
  · rw [e]
    refine if_neg ?_
    rintro rfl
    exact h hs.2.1
  · rw [e]; rfl
  · rw [e]; rfl

/-- **C69.** With an argument missing, or a changeset file that cannot be opened, the program fails and touches nothing. -/
theorem C69_unopened (h : ¬ ∃ cs db f, Started files args cs db f) (n : Nat) :
    (Main.after fails (Main.start later dec files dbs args) n).failed = true ∧
      (Main.after fails (Main.start later dec files dbs args) n).databases dbs = dbs := by
  rcases main_cases later dec files dbs args fails n with ⟨cs, db, f, hs, e⟩ | ⟨-, e | e⟩
  · exact absurd ⟨cs, db, f, hs⟩ h
  · rw [e]; exact ⟨rfl, rfl⟩
  · rw [e]; exact ⟨rfl, rfl⟩

/-- **C69.** Whatever is called and whatever goes wrong: a database that was there before is never changed, and one that was not has no rows, or exactly the rows of
the changesets of the source, which then has no errors. -/
theorem C69_disk (n : Nat) (name : FileName) :
    match dbs name with
    | some old => (Main.after fails (Main.start later dec files dbs args) n).databases dbs name = some old
    | none => NoRows ((Main.after fails (Main.start later dec files dbs args) n).databases dbs name) ∨
        ∃ cs f ds, Started files args cs name f ∧ Provides (eventsOfSource later (dec f)) ds ∧
          Table ds ((Main.after fails (Main.start later dec files dbs args) n).databases dbs name) := by
  rcases main_cases later dec files dbs args fails n with ⟨cs, db, f, hs, e⟩ | ⟨-, e⟩
  · rw [e]
    by_cases hn : name = db
    · subst hn
      have hd : (Main.running name (after fails (TagsToSqlite.start (eventsOfSource later (dec f)) (dbs name)) n)).databases dbs name =
          (after fails (TagsToSqlite.start (eventsOfSource later (dec f)) (dbs name)) n).file := if_pos rfl
      rw [hd]
      cases ho : dbs name with
      | some old => exact (C69_existing _ old fails n).1
      | none =>
        rcases C69_atomic (eventsOfSource later (dec f)) fails n with h | ⟨ds, h, ht⟩
        · exact .inl h
        · exact .inr ⟨cs, f, ds, hs, h, ht⟩
    · have hd : (Main.running db (after fails (TagsToSqlite.start (eventsOfSource later (dec f)) (dbs db)) n)).databases dbs name = dbs name :=
        if_neg hn
      rw [hd]
      cases ho : dbs name with
      | some old => rfl
      | none => exact .inl fun rows h => by cases h
  · have hd : (Main.after fails (Main.start later dec files dbs args) n).databases dbs name = dbs name := by
      rcases e with e | e <;> (rw [e]; rfl)
    rw [hd]
    cases ho : dbs name with
    | some old => rfl
    | none => exact .inl fun rows h => by cases h

/-- **C69.** If no operation of the database fails, the program succeeds exactly if it has its arguments, the changeset file can be opened, nothing is at the name of the database,
and the source has no errors and no repeated id. -/
theorem C69_program_iff (hf : ∀ t, fails t = false) :
    (∃ n, (Main.after fails (Main.start later dec files dbs args) n).succeeded = true) ↔
      ∃ cs db f ds, Started files args cs db f ∧ dbs db = none ∧ Provides (eventsOfSource later (dec f)) ds ∧ (ds.map (·.1)).Nodup := by
  constructor
  · rintro ⟨n, hn⟩
    rcases main_cases later dec files dbs args fails n with ⟨cs, db, f, hs, e⟩ | ⟨-, e | e⟩
    · rw [e] at hn
      have hp : (after fails (TagsToSqlite.start (eventsOfSource later (dec f)) (dbs db)) n).phase = .done := of_decide_eq_true hn
      cases ho : dbs db with
      | some old =>
        rw [ho] at hp
        rcases Nat.eq_zero_or_pos n with h0 | h0
        · subst h0; cases hp
        · rw [(C69_existing _ old fails n).2 h0] at hp; cases hp
      | none =>
        rw [ho] at hp
        obtain ⟨ds, h1, h2⟩ := (C69_success_iff _ fails hf).1 ⟨n, hp⟩
        exact ⟨cs, db, f, ds, hs, ho, h1, h2⟩
    · rw [e] at hn; cases hn
    · rw [e] at hn; cases hn
  · rintro ⟨cs, db, f, ds, hs, ho, h1, h2⟩
    obtain ⟨n, hn⟩ := (C69_success_iff (eventsOfSource later (dec f)) fails hf).2 ⟨ds, h1, h2⟩
    refine ⟨n, ?_⟩
    rcases main_cases later dec files dbs args fails n with ⟨cs', db', f', hs', e⟩ | ⟨h, -⟩
    · obtain ⟨rfl⟩ : cs = cs' := Option.some.inj (hs.1.symm.trans hs'.1)
      obtain ⟨rfl⟩ : db = db' := Option.some.inj (hs.2.1.symm.trans hs'.2.1)
      obtain ⟨rfl⟩ : f = f' := Option.some.inj (hs.2.2.symm.trans hs'.2.2)
      rw [e, ho]
      exact decide_eq_true hn
    · exact absurd ⟨cs, db, f, hs⟩ h

/-- **C69.** Every run of the program ends, in success or failure. -/
theorem C69_program_ends : ∃ n, ∀ k, n ≤ k → (Main.after fails (Main.start later dec files dbs args) k).succeeded = true ∨
    (Main.after fails (Main.start later dec files dbs args) k).failed = true := by
  rcases main_cases later dec files dbs args fails 0 with ⟨cs, db, f, hs, -⟩ | ⟨h, -⟩
  · obtain ⟨n, hn⟩ := C69_ends (eventsOfSource later (dec f)) (dbs db) fails
    refine ⟨n, fun k hk => ?_⟩
    rcases main_cases later dec files dbs args fails k with ⟨cs', db', f', hs', e⟩ | ⟨h, -⟩
    · obtain ⟨rfl⟩ : cs = cs' := Option.some.inj (hs.1.symm.trans hs'.1)
      obtain ⟨rfl⟩ : db = db' := Option.some.inj (hs.2.1.symm.trans hs'.2.1)
      obtain ⟨rfl⟩ : f = f' := Option.some.inj (hs.2.2.symm.trans hs'.2.2)
      rw [e]
      exact (hn k hk).imp decide_eq_true decide_eq_true
    · exact absurd ⟨cs, db, f, hs⟩ h
  · exact ⟨0, fun k _ => .inr (C69_unopened later dec files dbs args fails h k).1⟩

end

/-- A run with a changeset file that is there and a database that is not: the row of its changeset is stored. -/
example (later : Events) : ∃ n, (Main.after (fun _ => false) (Main.start later (fun s => s)
    (fun name => if name = [99] then some ((Utf8.encode CsText.text).map some) else none) (fun _ => none) [[112], [99], [100]]) n).succeeded = true := by
  rw [C69_program_iff _ _ _ _ _ _ fun _ => rfl]
  obtain ⟨f, h⟩ := CsText.document
  obtain ⟨s', -, hr⟩ := C53_text h CsText.tagDumpText
  refine ⟨[99], [100], (Utf8.encode CsText.text).map some, [(7, [(str% "c", str% "'é")])], ⟨rfl, rfl, rfl⟩, rfl, ⟨s', ?_⟩, by simp⟩
  have : eventsOfSource later ((Utf8.encode CsText.text).map some) = eventsOf (Utf8.encode CsText.text) := by
    have hb : ∀ bs : List UInt8, Source.before (bs.map some) = (bs, true) := fun bs => by
      induction bs with
      | nil => rfl
      | cons b bs ih => rw [List.map_cons, Source.before, ih]
    rw [QuickXml.eventsOfSource, hb]
    exact if_pos rfl
  rw [this]
  exact hr

/-- Without a second argument it panics. -/
example (later : Events) (files : Files) (dbs : Databases) (n : Nat) :
    (Main.after (fun _ => false) (Main.start later (fun s => s) files dbs [[112], [99]]) n).databases dbs = dbs :=
  (C69_unopened _ _ _ _ _ _ (by rintro ⟨cs, db, f, -, h, -⟩; cases h) n).2

end Osmio
