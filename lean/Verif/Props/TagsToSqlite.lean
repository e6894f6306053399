import Verif.Proofs.TagsToSqlite
import Verif.Props.ChangesetText
/-!
# Properties C69, C70: the program `osmio-changeset-tags-to-sqlite`

A run is `after fails (start evs file)`: the state after so many operations, for a source with these events, a file at the
path of the database, and any operations failing. Killing the program after some operation leaves the file of that state.
-/

namespace Osmio
open Changesets TagsToSqlite Spec.Cs
open QuickXml (Events Event eventsOf)

/-- A row of the database for each of these changesets, in order. -/
def Spec.Cs.Table (ds : List (UInt64 × List (Str × Str))) (file : File) : Prop :=
  ∃ rows, file = some (some rows) ∧ List.Forall₂ Stores rows ds ∧ (rows.map (·.1)).Nodup

theorem table_rows (ds : List (UInt64 × List (Str × Str))) (hnd : (ds.map (·.1)).Nodup) :
    Table ds (some (some (ds.map fun d => rowOf d.1 d.2))) := by
  refine ⟨_, rfl, ?_, ?_⟩
  · rw [List.forall₂_map_left_iff, List.forall₂_same]
    exact fun d _ => rowOf_stores d
  · rw [List.map_map]
    have : ((·.1) ∘ fun d : UInt64 × List (Str × Str) => rowOf d.1 d.2) = UInt64.toInt64 ∘ (·.1) := rfl
    rw [this, ← List.map_map]
    exact hnd.map fun a b h => toInt64_inj h

/-- **C69.** All or nothing. At every moment of every run, whatever the source, whichever operations fail, a new database file
holds no rows, or it holds a row for each changeset of the source, and the source has no errors. -/
theorem C69_atomic (evs : Events) (fails : Nat → Bool) (n : Nat) :
    NoRows (after fails (start evs none) n).file ∨
      ∃ ds, Provides evs ds ∧ Table ds (after fails (start evs none) n).file := by
  have h := inv_after evs none fails n
  generalize after fails (start evs none) n = s at h ⊢
  unfold RunInv at h
  cases hp : s.phase with
  | check => simp only [hp] at h; subst h; exact .inl noRows_none
  | create => simp only [hp] at h; obtain ⟨-, h⟩ := h; rw [h]; exact .inl noRows_empty
  | begin => simp only [hp] at h; obtain ⟨-, h⟩ := h; rw [h]; exact .inl noRows_nil
  | insert => simp only [hp] at h; rw [h.2.1]; exact .inl noRows_nil
  | commit => simp only [hp] at h; rw [h.2.1]; exact .inl noRows_nil
  | report =>
    simp only [hp] at h
    obtain ⟨-, -, ds, h1, h2, h3, -⟩ := h
    rw [h2]; exact .inr ⟨ds, h1, table_rows ds h3⟩
  | done =>
    simp only [hp] at h
    obtain ⟨-, ds, pop, h1, h2, h3, -⟩ := h
    rw [h2]; exact .inr ⟨ds, h1, table_rows ds h3⟩
  | failed => simp only [hp, if_true] at h; exact .inl h.2

/-- **C69.** The program reports success only if all of them are stored, and an error only if none is. -/
theorem C69_result (evs : Events) (fails : Nat → Bool) (n : Nat) :
    ((after fails (start evs none) n).phase = .done →
      ∃ ds, Provides evs ds ∧ Table ds (after fails (start evs none) n).file) ∧
    ((after fails (start evs none) n).phase = .failed → NoRows (after fails (start evs none) n).file) := by
  have h := inv_after evs none fails n
  generalize after fails (start evs none) n = s at h ⊢
  unfold RunInv at h
  constructor
  · intro hp
    simp only [hp] at h
    obtain ⟨-, ds, pop, h1, h2, h3, -⟩ := h
    rw [h2]; exact ⟨ds, h1, table_rows ds h3⟩
  · intro hp
    simp only [hp, if_true] at h
    exact h.2

/-- **C69.** A file that was there before is not touched, and the program fails. -/
theorem C69_existing (evs : Events) (old : Option (List Row)) (fails : Nat → Bool) (n : Nat) :
    (after fails (start evs (some old)) n).file = some old ∧
    (0 < n → (after fails (start evs (some old)) n).phase = .failed) := by
  cases n with
  | zero => exact ⟨rfl, by simp⟩
  | succ n =>
    suffices after fails (start evs (some old)) (n + 1) = { start evs (some old) with phase := .failed } by
      rw [this]; exact ⟨rfl, fun _ => rfl⟩
    induction n with
    | zero => rfl
    | succ n ih =>
      show step _ (after fails (start evs (some old)) (n + 1)) = _
      rw [ih]; rfl

/-- **C69.** Every run comes to an end. -/
theorem C69_ends (evs : Events) (file : File) (fails : Nat → Bool) :
    ∃ n, ∀ m, n ≤ m → (after fails (start evs file) m).phase = .done ∨ (after fails (start evs file) m).phase = .failed := by
  refine ⟨left (start evs file), fun m hm => left_zero ?_⟩
  have := left_after fails (start evs file) m
  omega

/-- The only way to fail without a failing operation. -/
theorem fail_reason (evs : Events) {fails : Nat → Bool} (hf : ∀ t, fails t = false)
    {ds : List (UInt64 × List (Str × Str))} (hp : Provides evs ds) (hnd : (ds.map (·.1)).Nodup) (n : Nat) :
    (after fails (start evs none) n).phase ≠ .failed := by
  obtain ⟨sEnd, hp⟩ := hp
  induction n with
  | zero => simp [after, start]
  | succ n ih =>
    have hinv := inv_after evs none fails n
    show (step (fails n) (after fails (start evs none) n)).phase ≠ .failed
    rw [hf n]
    generalize after fails (start evs none) n = s at *
    unfold step
    cases hph : s.phase with
    | check =>
      simp only [RunInv, hph] at hinv
      subst hinv
      simp [start]
    | create => simp
    | begin => simp
    | insert =>
      simp only [RunInv, hph] at hinv
      obtain ⟨-, -, -, ds', hr, hpe, -⟩ := hinv
      simp only
      unfold insertStep
      cases hnext : nextTag (s.reader.evs.length + 1) s.reader with
      | none => simp [hph]
      | some x =>
        obtain ⟨e | _ | ⟨cid, tags⟩, r⟩ := x
        · exfalso
          obtain ⟨rs, s'', hrest⟩ := results_exist r
          have := (results_unique tag_mono (hr.results (.err ⟨_, hnext⟩ hrest)) hp).1
          have hm : Except.error e ∈ ds.map (Except.ok (ε := Err)) := by rw [← this]; simp
          simp at hm
        · simp
        · simp only
          have hnot : (false || hasId s.pending (rowOf cid tags).1) = false := by
            rw [Bool.false_or, hpe, Bool.eq_false_iff, Ne, hasId_rows ds' (cid, tags)]
            obtain ⟨rs, s'', hrest⟩ := results_exist r
            have := (results_unique tag_mono ((hr.snoc ⟨_, hnext⟩).results hrest) hp).1
            have hpre : (ds' ++ [(cid, tags)]) <+: ds := by
              have e : (ds.map (Except.ok (ε := Err))).take (ds' ++ [(cid, tags)]).length = (ds' ++ [(cid, tags)]).map .ok := by
                rw [← this, List.take_left' (by simp)]
              rw [← List.map_take] at e
              have := List.map_injective_iff.2 (fun a b (h : Except.ok (ε := Err) a = .ok b) => by injection h) e
              rw [← this]
              exact List.take_prefix _ _
            have hnd' := hnd.sublist ((hpre.map (·.1)).sublist)
            rw [List.map_append, List.nodup_append] at hnd'
            intro hm
            exact hnd'.2.2 _ hm cid (by simp) rfl
          rw [if_neg (by rw [hnot]; simp)]
          simp [hph]
    | commit => simp
    | report => simp
    | done => simp [hph]
    | failed => exact absurd hph ih

/-- **C69**, exactly: if no operation fails by itself and there is no file, the program succeeds if and only if the source has no
errors and no two of its changesets have the same id. -/
theorem C69_success_iff (evs : Events) (fails : Nat → Bool) (hf : ∀ t, fails t = false) :
    (∃ n, (after fails (start evs none) n).phase = .done) ↔ ∃ ds, Provides evs ds ∧ (ds.map (·.1)).Nodup := by
  constructor
  · rintro ⟨n, hp⟩
    have h := inv_after evs none fails n
    unfold RunInv at h
    simp only [hp] at h
    obtain ⟨-, ds, pop, h1, -, h3, -⟩ := h
    exact ⟨ds, h1, h3⟩
  · rintro ⟨ds, hp, hnd⟩
    obtain ⟨n, hn⟩ := C69_ends evs none fails
    rcases hn n le_rfl with h | h
    · exact ⟨n, h⟩
    · exact absurd h (fail_reason evs hf hp hnd n)

/-- **C69** from the text of a dump: the table has a row for each changeset element with an end tag, in order, with its id
and its tags as they stand in the document. -/
theorem C69_text {t : Str} {ts : List Spec.Lex.Tok} {f : Spec.Forest} (h : Spec.Lex.Document t ts f)
    {ds : List (UInt64 × List (Str × Str))} (hd : TagDumpText ts ds) (hnd : (ds.map (·.1)).Nodup)
    (fails : Nat → Bool) (hf : ∀ t, fails t = false) :
    ∃ n, ∀ m, n ≤ m → (after fails (start (eventsOf (Utf8.encode t)) none) m).phase = .done ∧
      Table ds (after fails (start (eventsOf (Utf8.encode t)) none) m).file := by
  obtain ⟨s', -, hr⟩ := C53_text h hd
  obtain ⟨n, hn⟩ := C69_ends (eventsOf (Utf8.encode t)) none fails
  refine ⟨n, fun m hm => ?_⟩
  have hdone : (after fails (start (eventsOf (Utf8.encode t)) none) m).phase = .done :=
    (hn m hm).resolve_right (fail_reason _ hf ⟨s', hr⟩ hnd m)
  refine ⟨hdone, ?_⟩
  obtain ⟨ds', ⟨s'', hr'⟩, ht⟩ := (C69_result _ fails m).1 hdone
  have e := (C53_unique hr hr').1
  have : ds = ds' := List.map_injective_iff.2 (fun a b (h : Except.ok (ε := Err) a = .ok b) => by injection h) e
  rw [this]; exact ht

/-- **C70.** The report of a successful run: the number of changesets, the number of different keys, and the most
popular keys with their counts and percentages. -/
theorem C70_report (evs : Events) (fails : Nat → Bool) (n : Nat)
    (hp : (after fails (start evs none) n).phase = .done) :
    ∃ ds top, Provides evs ds ∧ Report ds top ∧
      (after fails (start evs none) n).output =
        (str% "Inserted " ++ natStr ds.length ++ str% " changesets, and got " ++
          natStr ((ds.flatMap (·.2)).map (·.1)).dedup.length ++ str% " unique tags") ::
        top.map fun p => padLeft 8 (natStr p.1) ++ str% " " ++ padLeft 3 (natStr (p.1 * 100 / ds.length)) ++
          str% "% tagged " ++ p.2 := by
  have h := inv_after evs none fails n
  unfold RunInv at h
  simp only [hp] at h
  obtain ⟨-, ds, pop, h1, h2, h3, h4, h5⟩ := h
  refine ⟨ds, topKeys ds.length pop, h1, topKeys_report h4, ?_⟩
  rw [h5, reportLines, h4.length]
  congr 1
  unfold topKeys line
  simp

/-- **C70.** Nothing is reported otherwise. -/
theorem C70_silent (evs : Events) (file : File) (fails : Nat → Bool) (n : Nat)
    (hp : (after fails (start evs file) n).phase ≠ .done) : (after fails (start evs file) n).output = [] := by
  have h := inv_after evs file fails n
  generalize after fails (start evs file) n = s at h hp ⊢
  unfold RunInv at h
  cases hph : s.phase with
  | check => simp only [hph] at h; subst h; rfl
  | create => simp only [hph] at h; obtain ⟨-, h⟩ := h; rw [h]; rfl
  | begin => simp only [hph] at h; obtain ⟨-, h⟩ := h; rw [h]; rfl
  | insert => simp only [hph] at h; exact h.2.2.1
  | commit => simp only [hph] at h; exact h.2.2.1
  | report => simp only [hph] at h; exact h.2.1
  | done => exact absurd hph hp
  | failed => simp only [hph] at h; exact h.1

/-- Numbers of up to eight digits are aligned. -/
theorem C70_aligned (w : Nat) (s : Str) : padLeft w s = List.replicate (w - s.length) ' ' ++ s ∧
    (s.length ≤ w → (padLeft w s).length = w) := by
  refine ⟨rfl, fun h => ?_⟩
  simp only [padLeft, List.length_append, List.length_replicate]
  omega

/-- The example text of C53: one changeset is stored. -/
example : ∃ n, ∀ m, n ≤ m → (after (fun _ => false) (start (eventsOf (Utf8.encode CsText.text)) none) m).phase = .done ∧
    Table [(7, [(str% "c", str% "'é")])] (after (fun _ => false) (start (eventsOf (Utf8.encode CsText.text)) none) m).file := by
  obtain ⟨f, h⟩ := CsText.document
  exact C69_text h CsText.tagDumpText (by simp) _ (fun _ => rfl)

/-- A concrete run: two changesets, three tags, and the report. -/
example :
    let tag k v : Event := .empty [116, 97, 103] [some ⟨[107], Utf8.encode k⟩, some ⟨[118], Utf8.encode v⟩]
    let cs i : Event := .start (Utf8.encode (str% "changeset")) [some ⟨[105, 100], Utf8.encode i⟩]
    let stop : Event := .end_ (Utf8.encode (str% "changeset"))
    let s := after (fun _ => false) (start ([cs (str% "5"), tag (str% "a") (str% "x"), stop, cs (str% "6"), tag (str% "b") (str% "y"),
      tag (str% "a") (str% "\""), stop].map some) none) 10
    s.phase = .done ∧
    s.file = some (some [(5, Utf8.encode (str% "[[\"a\",\"x\"]]")), (6, Utf8.encode (str% "[[\"b\",\"y\"],[\"a\",\"\\\"\"]]"))]) ∧
    s.output = [str% "Inserted 2 changesets, and got 2 unique tags", str% "       2 100% tagged a", str% "       1  50% tagged b"] := by
  decide +kernel

end Osmio
