import Verif.Spec.ChangesetCut
import Verif.Proofs.ChangesetText
import Verif.Proofs.QuickXmlSource
/-! Lemmas about the changeset readers over a source that breaks off. -/

namespace Osmio.Changesets
open QuickXml Spec.Cs

section generic

variable {σ γ α : Type} {f : Nat → σ → Option (Except Err (Option α) × σ)} {st : γ → Events → σ}

/-- A call returns without having seen the end. -/
def Steps (f : Nat → σ → Option (Except Err (Option α) × σ)) (st : γ → Events → σ) (c : γ) (E : Events) : Prop :=
  ∃ r c' E', E'.length < E.length ∧ r ≠ .ok none ∧ ∃ n, ∀ X, f n (st c (E ++ X)) = some (r, st c' (E' ++ X))

/-- A call sees the end. -/
def Stuck (f : Nat → σ → Option (Except Err (Option α) × σ)) (st : γ → Events → σ) (c : γ) (E : Events) : Prop :=
  ∃ c', (∃ n, ∀ X, f n (st c (E ++ none :: X)) = some (.error .xml, st c' X)) ∧
    ∀ X, X = [] ∨ X = [some .other] → ∀ r s, Returns f (st c (E ++ X)) r s → r = .ok none ∧ s = st c' []

theorem settle (h : ∀ c E, Steps f st c E ∨ Stuck f st c E) : ∀ k c (E : Events), E.length ≤ k →
    ∃ rs c' E', (∀ r ∈ rs, r ≠ .ok none) ∧ (∀ X, Answers f (st c (E ++ X)) rs (st c' (E' ++ X))) ∧ Stuck f st c' E' := by
  intro k
  induction k with
  | zero =>
    intro c E hk
    rcases h c E with ⟨r, c', E', hl, -⟩ | hs
    · omega
    · exact ⟨[], c, E, by simp, fun X => .nil, hs⟩
  | succ k ih =>
    intro c E hk
    rcases h c E with ⟨r, c1, E1, hl, hr, n, hn⟩ | hs
    · obtain ⟨rs, c', E', h1, h2, h3⟩ := ih c1 E1 (by omega)
      refine ⟨r :: rs, c', E', ?_, fun X => .cons ⟨n, hn X⟩ (h2 X), h3⟩
      intro r' hr'
      rcases List.mem_cons.1 hr' with rfl | hr'
      · exact hr
      · exact h1 _ hr'
    · exact ⟨[], c, E, by simp, fun X => .nil, hs⟩

theorem Answers.append {s s1 s2 : σ} {r1 r2 : List (Except Err (Option α))} (h1 : Answers f s r1 s1) (h2 : Answers f s1 r2 s2) :
    Answers f s (r1 ++ r2) s2 := by
  induction h1 with
  | nil => exact h2
  | cons h _ ih => exact .cons h (ih h2)

theorem answers_split (hf : ∀ n s x, f n s = some x → f (n + 1) s = some x) {s s1 : σ} {r1 : List (Except Err (Option α))}
    (h1 : Answers f s r1 s1) : ∀ {s2 : σ} {r2 : List (Except Err (Option α))}, Answers f s (r1 ++ r2) s2 → Answers f s1 r2 s2 := by
  induction h1 with
  | nil => exact fun h => h
  | cons h _ ih =>
    intro s2 r2 h2
    cases h2 with
    | cons h' h2' =>
      obtain ⟨-, e⟩ := returns_unique hf h h'
      subst e
      exact ih h2'

theorem answers_unique (hf : ∀ n s x, f n s = some x → f (n + 1) s = some x) {s s1 : σ} {r1 : List (Except Err (Option α))}
    (h1 : Answers f s r1 s1) : ∀ {s2 : σ} {r2 : List (Except Err (Option α))}, Answers f s r2 s2 → r1.length = r2.length →
      r1 = r2 ∧ s1 = s2 := by
  induction h1 with
  | nil =>
    intro s2 r2 h2 hl
    cases h2 with
    | nil => exact ⟨rfl, rfl⟩
    | cons _ _ => simp at hl
  | cons h _ ih =>
    intro s2 r2 h2 hl
    cases h2 with
    | nil => simp at hl
    | cons h' h2' =>
      obtain ⟨e1, e2⟩ := returns_unique hf h h'
      subst e1 e2
      obtain ⟨e1, e2⟩ := ih h2' (by simpa using hl)
      exact ⟨by rw [e1], e2⟩

theorem answers_take {s s1 : σ} {r1 : List (Except Err (Option α))} (h1 : Answers f s r1 s1) : ∀ {n : Nat}, n ≤ r1.length →
    ∃ s2, Answers f s (r1.take n) s2 := by
  induction h1 with
  | nil => intro n _; exact ⟨_, by simpa using Answers.nil⟩
  | cons h _ ih =>
    intro n hn
    cases n with
    | zero => exact ⟨_, .nil⟩
    | succ n =>
      obtain ⟨s2, h2⟩ := ih (n := n) (by simpa using hn)
      exact ⟨s2, .cons h h2⟩

/-- The results until `Ok(None)`, split after some answers none of which is `Ok(None)`. -/
theorem results_answers (hf : ∀ n s x, f n s = some x → f (n + 1) s = some x) {s s1 : σ} {as : List (Except Err (Option α))}
    (h1 : Answers f s as s1) : (∀ r ∈ as, r ≠ .ok none) → ∀ {s2 : σ} {rs : List (Except Err α)}, Results f s rs s2 →
      ∃ r1 r2, rs = r1 ++ r2 ∧ as = r1.map answer ∧ Results f s1 r2 s2 := by
  induction h1 with
  | nil => exact fun _ _ rs h => ⟨[], rs, rfl, rfl, h⟩
  | cons h _ ih =>
    intro hne s2 rs h2
    cases h2 with
    | done h' =>
      obtain ⟨e, -⟩ := returns_unique hf h h'
      exact absurd e (hne _ List.mem_cons_self)
    | ok h' t =>
      obtain ⟨e1, e2⟩ := returns_unique hf h h'
      subst e1 e2
      obtain ⟨r1, r2, e1, e2, h3⟩ := ih (fun r hr => hne r (List.mem_cons_of_mem _ hr)) t
      exact ⟨_ :: r1, r2, by rw [e1]; rfl, by rw [e2]; rfl, h3⟩
    | err h' t =>
      obtain ⟨e1, e2⟩ := returns_unique hf h h'
      subst e1 e2
      obtain ⟨r1, r2, e1, e2, h3⟩ := ih (fun r hr => hne r (List.mem_cons_of_mem _ hr)) t
      exact ⟨_ :: r1, r2, by rw [e1]; rfl, by rw [e2]; rfl, h3⟩

end generic

/-! ## The changeset reader -/

theorem readTags_other (n : Nat) : ∀ (m : TagMap), readTags n m [some .other] = none := by
  intro m
  cases n with
  | zero => rfl
  | succ n =>
    rw [readTags_skip (by rintro ⟨_, h, _⟩; cases h) (by rintro a ⟨_, h | h, _⟩ <;> cases h)]
    exact readTags_nil _ _

theorem readTags_dichotomy (E : Events) : ∀ m : TagMap,
    (∃ n r E', E'.length < E.length ∧ ∀ X, readTags n m (E ++ X) = some (r, E' ++ X)) ∨
    ((∃ n, ∀ X, readTags n m (E ++ none :: X) = some (.error .xml, X)) ∧
      ∀ X, X = [] ∨ X = [some .other] → ∀ n, readTags n m (E ++ X) = none) := by
  induction E with
  | nil =>
    intro m
    refine .inr ⟨⟨1, fun X => rfl⟩, ?_⟩
    rintro X (rfl | rfl) n
    · exact readTags_nil _ _
    · exact readTags_other _ _
  | cons y t ih =>
    intro m
    cases y with
    | none => exact .inl ⟨1, .error .xml, t, by simp, fun X => rfl⟩
    | some e =>
      have step : ∀ m', (∀ n r, readTags (n + 1) m (some e :: r) = readTags n m' r) →
          (∃ n r E', E'.length < (some e :: t).length ∧ ∀ X, readTags n m (some e :: t ++ X) = some (r, E' ++ X)) ∨
          ((∃ n, ∀ X, readTags n m (some e :: t ++ none :: X) = some (.error .xml, X)) ∧
            ∀ X, X = [] ∨ X = [some .other] → ∀ n, readTags n m (some e :: t ++ X) = none) := by
        intro m' hm
        rcases ih m' with ⟨n, r, E', hl, h⟩ | ⟨⟨n, h⟩, h'⟩
        · exact .inl ⟨n + 1, r, E', by rw [List.length_cons]; omega, fun X => by rw [List.cons_append, hm]; exact h X⟩
        · refine .inr ⟨⟨n + 1, fun X => by rw [List.cons_append, hm]; exact h X⟩, fun X hX k => ?_⟩
          cases k with
          | zero => rfl
          | succ k => rw [List.cons_append, hm]; exact h' X hX k
      rcases event_cases e with hc | ⟨attrs, ho⟩ | ⟨hc, hs⟩
      · exact .inl ⟨1, _, t, by simp, fun X => readTags_closes hc _ _ _⟩
      · cases ht : tagOf attrs with
        | ok kv => exact step _ fun n r => by rw [readTags_tag ho, ht]
        | error er => exact .inl ⟨1, .error er, t, by simp, fun X => by rw [List.cons_append, readTags_tag ho, ht]⟩
      · exact step _ fun n r => readTags_skip hc hs _ _ _

theorem built_ne (b : Builder) (m : TagMap) : built b m ≠ .ok none := by
  unfold built
  cases Builder.build { b with tags := some m } with
  | error e => intro h; cases h
  | ok c => intro h; cases h

theorem next_dichotomy (E : Events) : Steps nextChangeset (fun (_ : Unit) E => E) () E ∨ Stuck nextChangeset (fun (_ : Unit) E => E) () E := by
  induction E with
  | nil =>
    refine .inr ⟨(), ⟨1, fun X => rfl⟩, ?_⟩
    rintro X (rfl | rfl) r s ⟨n, hn⟩
    · cases n with
      | zero => cases hn
      | succ n => cases hn; exact ⟨rfl, rfl⟩
    · cases n with
      | zero => cases hn
      | succ n =>
        rw [List.nil_append, next_skip (by rintro a ⟨_, h | h, _⟩ <;> cases h)] at hn
        cases n with
        | zero => cases hn
        | succ n => cases hn; exact ⟨rfl, rfl⟩
  | cons y t ih =>
    cases y with
    | none => exact .inl ⟨.error .xml, (), t, by simp, by simp, 1, fun X => rfl⟩
    | some e =>
      rcases next_cases e with ⟨nm, attrs, rfl, hn⟩ | ⟨nm, attrs, rfl, hn⟩ | hs
      · cases hb : setAttrs {} attrs with
        | error er => exact .inl ⟨.error er, (), t, by simp, by simp, 1, fun X => by simp only [List.cons_append]; rw [next_start hn, hb]⟩
        | ok b =>
          rcases readTags_dichotomy t [] with ⟨n, r, E', hl, h⟩ | ⟨⟨n, h⟩, h'⟩
          · cases r with
            | error er =>
              refine .inl ⟨.error er, (), E', by rw [List.length_cons]; omega, by simp, n + 1, fun X => ?_⟩
              simp only [List.cons_append]
              rw [next_start hn, hb]
              simp only [h X]
            | ok m =>
              refine .inl ⟨built b m, (), E', by rw [List.length_cons]; omega, built_ne b m, n + 1, fun X => ?_⟩
              simp only [List.cons_append]
              rw [next_start hn, hb]
              simp only [h X]
          · refine .inr ⟨(), ⟨n + 1, fun X => ?_⟩, ?_⟩
            · simp only [List.cons_append]
              rw [next_start hn, hb]
              simp only [h X]
            · rintro X hX r s ⟨k, hk⟩
              cases k with
              | zero => cases hk
              | succ k =>
                simp only [List.cons_append] at hk
                rw [next_start hn, hb] at hk
                simp only [h' X hX k] at hk
                cases hk
      · refine .inl ?_
        cases hr : setAttrs {} attrs with
        | error er =>
          exact ⟨.error er, (), t, by simp, by simp, 1, fun X => by simp only [List.cons_append]; rw [next_empty hn, hr]⟩
        | ok b =>
          exact ⟨built b [], (), t, by simp, built_ne b [], 1, fun X => by simp only [List.cons_append]; rw [next_empty hn, hr]⟩
      · rcases ih with ⟨r, c', E', hl, hr, n, h⟩ | ⟨c', ⟨n, h⟩, h'⟩
        · exact .inl ⟨r, c', E', by rw [List.length_cons]; omega, hr, n + 1, fun X => by
            simp only [List.cons_append]; rw [next_skip hs]; exact h X⟩
        · refine .inr ⟨c', ⟨n + 1, fun X => by simp only [List.cons_append]; rw [next_skip hs]; exact h X⟩, ?_⟩
          rintro X hX r s ⟨k, hk⟩
          cases k with
          | zero => cases hk
          | succ k =>
            simp only [List.cons_append] at hk
            rw [next_skip hs] at hk
            exact h' X hX r s ⟨k, hk⟩

/-! ## The tag reader -/

/-- A tag reader with these events. -/
def withEvents (c : Option UInt64 × List (Str × Str)) (E : Events) : TagReader := ⟨E, c.1, c.2⟩

theorem tag_dichotomy (E : Events) : ∀ c, Steps nextTag withEvents c E ∨ Stuck nextTag withEvents c E := by
  induction E with
  | nil =>
    rintro ⟨id, tags⟩
    refine .inr ⟨(id, tags), ⟨1, fun X => rfl⟩, ?_⟩
    rintro X (rfl | rfl) r s ⟨n, hn⟩
    · cases n with
      | zero => cases hn
      | succ n => cases hn; exact ⟨rfl, rfl⟩
    · cases n with
      | zero => cases hn
      | succ n =>
        have : nextTag (n + 1) (withEvents (id, tags) [some .other]) = nextTag n ⟨[], id, tags⟩ :=
          tag_skip (by rintro ⟨_, h, _⟩; cases h) (by intro _ _ h; cases h) (by rintro a ⟨_, h | h, _⟩ <;> cases h) n [] id tags
        rw [List.nil_append, this] at hn
        cases n with
        | zero => cases hn
        | succ n => cases hn; exact ⟨rfl, rfl⟩
  | cons y t ih =>
    rintro ⟨id, tags⟩
    cases y with
    | none => exact .inl ⟨.error .xml, (id, tags), t, by simp, by simp, 1, fun X => rfl⟩
    | some e =>
      have step : ∀ id' tags', (∀ n r, nextTag (n + 1) ⟨some e :: r, id, tags⟩ = nextTag n ⟨r, id', tags'⟩) →
          Steps nextTag withEvents (id, tags) (some e :: t) ∨ Stuck nextTag withEvents (id, tags) (some e :: t) := by
        intro id' tags' hm
        rcases ih (id', tags') with ⟨r, c', E', hl, hr, n, h⟩ | ⟨c', ⟨n, h⟩, h'⟩
        · exact .inl ⟨r, c', E', by rw [List.length_cons]; omega, hr, n + 1, fun X => (hm _ _).trans (h X)⟩
        · refine .inr ⟨c', ⟨n + 1, fun X => (hm _ _).trans (h X)⟩, ?_⟩
          rintro X hX r s ⟨k, hk⟩
          cases k with
          | zero => cases hk
          | succ k => exact h' X hX r s ⟨k, (hm _ _).symm.trans hk⟩
      rcases tag_cases e with hc | ⟨nm, attrs, rfl, hn⟩ | ⟨attrs, ho⟩ | ⟨h1, h2, h3⟩
      · cases id with
        | none => exact .inl ⟨.error .noId, (none, tags), t, by simp, by simp, 1, fun X => tag_closes_none hc _ _ _⟩
        | some id => exact .inl ⟨.ok (some (id, tags)), (some id, []), t, by simp, by simp, 1, fun X => tag_closes_some hc _ _ _ _⟩
      · rcases hi : idAttrs id attrs with ⟨id', er | u⟩
        · exact .inl ⟨.error er, (id', tags), t, by simp, by simp, 1, fun X => by
            refine (tag_start hn attrs 0 (t ++ X) id tags).trans ?_
            rw [hi]; rfl⟩
        · exact step id' [] fun n r => by rw [tag_start hn, hi]
      · cases ht : tagOf attrs with
        | ok kv => exact step id _ fun n r => by rw [tag_tag ho, ht]
        | error er => exact .inl ⟨.error er, (id, tags), t, by simp, by simp, 1, fun X => by
            refine (tag_tag ho 0 (t ++ X) id tags).trans ?_
            rw [ht]; rfl⟩
      · exact step id tags fun n r => tag_skip h1 h2 h3 n r id tags

end Osmio.Changesets
