import Verif.Proofs.Changesets
/-! Lemmas about the loops of the changeset readers. -/

namespace Osmio.Changesets
open QuickXml Spec.Cs

theorem cs_ne_tag : Utf8.encode (str% "changeset") ≠ Utf8.encode (str% "tag") := by decide +kernel

/-! ## One step -/

theorem readTags_closes {e : Event} (h : Closes e (str% "changeset")) (n : Nat) (tags : TagMap) (r : Events) :
    readTags (n + 1) tags (some e :: r) = some (.ok tags, r) := by
  obtain ⟨nm, rfl, hn⟩ := h
  rw [readTags.eq_def]
  simp only [readEvent]
  exact if_pos hn

theorem readTags_tag {e : Event} {attrs : Attrs} (h : Opens e (str% "tag") attrs) (n : Nat) (tags : TagMap) (r : Events) :
    readTags (n + 1) tags (some e :: r) =
      match tagOf attrs with
      | .ok (k, v) => readTags n (tags.insert k v) r
      | .error e => some (.error e, r) := by
  obtain ⟨nm, rfl | rfl, hn⟩ := h
  · rw [readTags.eq_def]
    simp only [readEvent]
    exact if_pos hn
  · rw [readTags.eq_def]
    simp only [readEvent]
    exact if_pos hn

theorem readTags_skip {e : Event} (h1 : ¬ Closes e (str% "changeset")) (h2 : ∀ attrs, ¬ Opens e (str% "tag") attrs)
    (n : Nat) (tags : TagMap) (r : Events) : readTags (n + 1) tags (some e :: r) = readTags n tags r := by
  rw [readTags.eq_def]
  cases e with
  | start nm attrs =>
    simp only [readEvent]
    exact if_neg fun h => h2 attrs ⟨nm, .inl rfl, h⟩
  | empty nm attrs =>
    simp only [readEvent]
    exact if_neg fun h => h2 attrs ⟨nm, .inr rfl, h⟩
  | end_ nm =>
    simp only [readEvent]
    exact if_neg fun h => h1 ⟨nm, rfl, h⟩
  | other => rfl

theorem readTags_nil (n : Nat) (tags : TagMap) : readTags n tags [] = none := by
  induction n with
  | zero => rfl
  | succ n ih => exact ih

theorem event_cases (e : Event) : Closes e (str% "changeset") ∨ (∃ attrs, Opens e (str% "tag") attrs) ∨
    (¬ Closes e (str% "changeset") ∧ ∀ attrs, ¬ Opens e (str% "tag") attrs) := by
  by_cases h1 : Closes e (str% "changeset")
  · exact .inl h1
  by_cases h2 : ∃ attrs, Opens e (str% "tag") attrs
  · exact .inr (.inl h2)
  · exact .inr (.inr ⟨h1, fun a h => h2 ⟨a, h⟩⟩)

theorem next_skip {e : Event} (h : ∀ attrs, ¬ Opens e (str% "changeset") attrs) (n : Nat) (r : Events) :
    nextChangeset (n + 1) (some e :: r) = nextChangeset n r := by
  rw [nextChangeset.eq_def]
  cases e with
  | start nm attrs =>
    simp only [readEvent]
    exact if_neg fun h' => h attrs ⟨nm, .inl rfl, h'⟩
  | empty nm attrs =>
    simp only [readEvent]
    exact if_neg fun h' => h attrs ⟨nm, .inr rfl, h'⟩
  | end_ nm => rfl
  | other => rfl

theorem next_start {nm : List UInt8} (h : Named nm (str% "changeset")) (attrs : Attrs) (n : Nat) (r : Events) :
    nextChangeset (n + 1) (some (.start nm attrs) :: r) =
      match setAttrs {} attrs with
      | .error e => some (.error e, r)
      | .ok b =>
        match readTags n [] r with
        | some (.ok tags, r') => some (built b tags, r')
        | some (.error e, r') => some (.error e, r')
        | none => none := by
  rw [nextChangeset.eq_def]
  simp only [readEvent]
  exact if_pos h

theorem next_empty {nm : List UInt8} (h : Named nm (str% "changeset")) (attrs : Attrs) (n : Nat) (r : Events) :
    nextChangeset (n + 1) (some (.empty nm attrs) :: r) =
      match setAttrs {} attrs with
      | .error e => some (.error e, r)
      | .ok b => some (built b [], r) := by
  rw [nextChangeset.eq_def]
  simp only [readEvent]
  exact if_pos h

/-! ## Tags of an element -/

theorem readTags_body {body : Events} {tags : List (Str × Str)} (h : Body body tags) : ∀ (n : Nat) (m : TagMap) (r : Events),
    readTags (body.length + n) m (body ++ r) = readTags n (tags.foldl (fun m p => m.insert p.1 p.2) m) r := by
  induction h with
  | nil => intro n m r; simp
  | tag ho ht _ ih =>
    intro n m r
    rw [List.length_cons, Nat.add_right_comm, List.cons_append, readTags_tag ho, tagOf_isTag ht]
    exact ih n _ r
  | other hn _ ih =>
    intro n m r
    rw [List.length_cons, Nat.add_right_comm, List.cons_append, readTags_skip hn.2.1 hn.2.2]
    exact ih n _ r

/-- Inside an element the loop goes on, or stops at a bad tag. -/
theorem readTags_inside {body : Events} (h : Inside body) : ∀ (n : Nat) (m : TagMap) (r : Events),
    (∃ e bad, bad <:+ body ∧ readTags (body.length + n) m (body ++ r) = some (.error e, bad ++ r)) ∨
    (¬ BadBody body ∧ ∃ m', readTags (body.length + n) m (body ++ r) = readTags n m' r) := by
  induction body with
  | nil => intro n m r; exact .inr ⟨fun ⟨_, _, h, _⟩ => absurd h List.not_mem_nil, m, by simp⟩
  | cons x body ih =>
    intro n m r
    obtain ⟨e, rfl, h1, h2⟩ := h x List.mem_cons_self
    have ih := ih fun y hy => h y (List.mem_cons_of_mem _ hy)
    rw [List.length_cons, Nat.add_right_comm, List.cons_append]
    rcases event_cases e with hc | ⟨attrs, ho⟩ | ⟨hc, hs⟩
    · exact absurd hc h2
    · rw [readTags_tag ho]
      rcases tagOf_cases attrs with ⟨⟨er, ht⟩, _⟩ | ⟨k, v, ht, hnb, _⟩
      · rw [ht]
        exact .inl ⟨er, body, List.suffix_cons _ _, rfl⟩
      · rw [ht]
        rcases ih n (m.insert k v) r with ⟨er, bad, hb, hr⟩ | ⟨hb, m', hr⟩
        · exact .inl ⟨er, bad, hb.trans (List.suffix_cons _ _), hr⟩
        · refine .inr ⟨?_, m', hr⟩
          rintro ⟨e', attrs', hm, ho', hbt⟩
          rcases List.mem_cons.mp hm with h | h
          · cases h
            obtain ⟨n1, h1, _⟩ := ho
            obtain ⟨n2, h2, _⟩ := ho'
            rcases h1 with rfl | rfl
            · rcases h2 with h2 | h2 <;> cases h2
              exact hnb hbt
            · rcases h2 with h2 | h2 <;> cases h2
              exact hnb hbt
          · exact hb ⟨e', attrs', h, ho', hbt⟩
    · rw [readTags_skip hc hs]
      rcases ih n m r with ⟨er, bad, hb, hr⟩ | ⟨hb, m', hr⟩
      · exact .inl ⟨er, bad, hb.trans (List.suffix_cons _ _), hr⟩
      · refine .inr ⟨?_, m', hr⟩
        rintro ⟨e', attrs', hm, ho', hbt⟩
        rcases List.mem_cons.mp hm with h | h
        · cases h; exact hs _ ho'
        · exact hb ⟨e', attrs', h, ho', hbt⟩

/-! ## The tag map -/

theorem insert_get (m : TagMap) (k v k' : Str) : (m.insert k v).get k' = if k = k' then some v else m.get k' := by
  unfold TagMap.insert TagMap.get
  rw [List.find?_append]
  by_cases h : k = k'
  · subst h
    rw [if_pos rfl]
    have : (List.filter (fun p => p.1 != k) m).find? (fun p => p.1 == k) = none := by
      rw [List.find?_eq_none]
      intro p hp
      have := (List.mem_filter.mp hp).2
      simpa using this
    rw [this]
    simp
  · rw [if_neg h]
    have h2 : ([(k, v)] : List (Str × Str)).find? (fun p => p.1 == k') = none := by simp [h]
    rw [h2, Option.or_none]
    congr 1
    induction m with
    | nil => rfl
    | cons p m ih =>
      by_cases hp : p.1 = k
      · rw [List.filter_cons_of_neg (by simp [hp]), ih, List.find?_cons_of_neg (by simp [hp, h])]
      · rw [List.filter_cons_of_pos (by simp [hp])]
        by_cases hp' : p.1 = k'
        · rw [List.find?_cons_of_pos (by simp [hp']), List.find?_cons_of_pos (by simp [hp'])]
        · rw [List.find?_cons_of_neg (by simp [hp']), List.find?_cons_of_neg (by simp [hp']), ih]

theorem insert_nodup {m : TagMap} (h : (m.map (·.1)).Nodup) (k v : Str) : ((m.insert k v).map (·.1)).Nodup := by
  unfold TagMap.insert
  rw [List.map_append, List.nodup_append]
  refine ⟨h.sublist (List.filter_sublist.map _), by simp, ?_⟩
  intro a ha b hb
  simp only [List.map_cons, List.map_nil, List.mem_singleton] at hb
  subst hb
  obtain ⟨p, hp, rfl⟩ := List.mem_map.mp ha
  have := (List.mem_filter.mp hp).2
  simpa using this

theorem insertAll_get (tags : List (Str × Str)) : ∀ (m : TagMap) (k : Str),
    (tags.foldl (fun m p => m.insert p.1 p.2) m).get k = (lastValue tags k).or (m.get k) := by
  induction tags with
  | nil => intro m k; rfl
  | cons p tags ih =>
    intro m k
    rw [List.foldl_cons, ih, insert_get]
    unfold lastValue
    rw [List.reverse_cons, List.find?_append]
    cases tags.reverse.find? (fun q => q.1 == k) with
    | some q => simp
    | none =>
      by_cases h : p.1 = k
      · simp [h]
      · simp [h]

theorem insertAll_nodup (tags : List (Str × Str)) : ∀ (m : TagMap), (m.map (·.1)).Nodup →
    ((tags.foldl (fun m p => m.insert p.1 p.2) m).map (·.1)).Nodup := by
  induction tags with
  | nil => intro m h; exact h
  | cons p tags ih => intro m h; exact ih _ (insert_nodup h _ _)

theorem shows_ofData {d : Data} {tags : List (Str × Str)} (h : d.tags = tags) :
    Shows (ofData d (tags.foldl (fun m p => m.insert p.1 p.2) [])) d := by
  refine ⟨rfl, rfl, rfl, rfl, rfl, rfl, rfl, rfl, fun k => ?_, insertAll_nodup _ _ (by simp)⟩
  rw [h]
  unfold Changeset.tag ofData
  rw [insertAll_get]
  cases lastValue tags k <;> rfl

/-! ## More iterations change nothing -/

theorem readTags_mono (n : Nat) : ∀ (m : TagMap) (evs : Events) x, readTags n m evs = some x →
    readTags (n + 1) m evs = some x := by
  induction n with
  | zero => intro m evs x h; cases h
  | succ n ih =>
    intro m evs x h
    cases evs with
    | nil => rw [readTags_nil] at h; cases h
    | cons y r =>
      cases y with
      | none => exact h
      | some e =>
        rcases event_cases e with hc | ⟨attrs, ho⟩ | ⟨hc, hs⟩
        · rw [readTags_closes hc] at h ⊢; exact h
        · rw [readTags_tag ho] at h ⊢
          cases ht : tagOf attrs with
          | ok kv => rw [ht] at h; exact ih _ _ _ h
          | error er => rw [ht] at h; exact h
        · rw [readTags_skip hc hs] at h ⊢; exact ih _ _ _ h

theorem next_cases (e : Event) : (∃ nm attrs, e = .start nm attrs ∧ Named nm (str% "changeset")) ∨
    (∃ nm attrs, e = .empty nm attrs ∧ Named nm (str% "changeset")) ∨
    ∀ attrs, ¬ Opens e (str% "changeset") attrs := by
  by_cases h : ∃ attrs, Opens e (str% "changeset") attrs
  · obtain ⟨attrs, nm, h | h, hn⟩ := h
    · exact .inl ⟨nm, attrs, h, hn⟩
    · exact .inr (.inl ⟨nm, attrs, h, hn⟩)
  · exact .inr (.inr fun a h' => h ⟨a, h'⟩)

theorem next_mono (n : Nat) : ∀ (evs : Events) x, nextChangeset n evs = some x →
    nextChangeset (n + 1) evs = some x := by
  induction n with
  | zero => intro evs x h; cases h
  | succ n ih =>
    intro evs x h
    cases evs with
    | nil => exact h
    | cons y r =>
      cases y with
      | none => exact h
      | some e =>
        rcases next_cases e with ⟨nm, attrs, rfl, hn⟩ | ⟨nm, attrs, rfl, hn⟩ | hs
        · rw [next_start hn] at h ⊢
          cases hb : setAttrs {} attrs with
          | error er => rw [hb] at h; exact h
          | ok b =>
            rw [hb] at h
            simp only at h ⊢
            cases ht : readTags n [] r with
            | none => rw [ht] at h; cases h
            | some y => rw [readTags_mono _ _ _ _ ht]; rw [ht] at h; exact h
        · rw [next_empty hn] at h ⊢; exact h
        · rw [next_skip hs] at h ⊢; exact ih _ _ h

theorem mono_le {σ ρ : Type} {f : Nat → σ → Option (ρ × σ)}
    (hf : ∀ n s x, f n s = some x → f (n + 1) s = some x) {n m : Nat} (h : n ≤ m) {s : σ} {x : ρ × σ}
    (hx : f n s = some x) : f m s = some x := by
  induction h with
  | refl => exact hx
  | step _ ih => exact hf _ _ _ ih

/-- A call has one outcome. -/
theorem returns_unique {σ ρ : Type} {f : Nat → σ → Option (ρ × σ)}
    (hf : ∀ n s x, f n s = some x → f (n + 1) s = some x) {s s1 s2 : σ} {r1 r2 : ρ}
    (h1 : Returns f s r1 s1) (h2 : Returns f s r2 s2) : r1 = r2 ∧ s1 = s2 := by
  obtain ⟨n, h1⟩ := h1
  obtain ⟨m, h2⟩ := h2
  have a := mono_le hf (Nat.le_max_left n m) h1
  have b := mono_le hf (Nat.le_max_right n m) h2
  rw [a] at b
  have := Option.some.inj b
  exact ⟨congrArg Prod.fst this, congrArg Prod.snd this⟩

theorem results_unique {σ α : Type} {f : Nat → σ → Option (Except Err (Option α) × σ)}
    (hf : ∀ n s x, f n s = some x → f (n + 1) s = some x) {s s1 : σ} {r1 : List (Except Err α)}
    (h1 : Results f s r1 s1) : ∀ {s2 : σ} {r2 : List (Except Err α)}, Results f s r2 s2 → r1 = r2 ∧ s1 = s2 := by
  induction h1 with
  | done h =>
    intro s2 r2 h2
    cases h2 with
    | done h' => exact ⟨rfl, (returns_unique hf h h').2⟩
    | ok h' _ => cases (returns_unique hf h h').1
    | err h' _ => cases (returns_unique hf h h').1
  | ok h _ ih =>
    intro s2 r2 h2
    cases h2 with
    | done h' => cases (returns_unique hf h h').1
    | ok h' t =>
      obtain ⟨e1, e2⟩ := returns_unique hf h h'
      cases e1; subst e2
      obtain ⟨e1, e2⟩ := ih t
      exact ⟨by rw [e1], e2⟩
    | err h' _ => cases (returns_unique hf h h').1
  | err h _ ih =>
    intro s2 r2 h2
    cases h2 with
    | done h' => cases (returns_unique hf h h').1
    | ok h' _ => cases (returns_unique hf h h').1
    | err h' t =>
      obtain ⟨e1, e2⟩ := returns_unique hf h h'
      cases e1; subst e2
      obtain ⟨e1, e2⟩ := ih t
      exact ⟨by rw [e1], e2⟩

/-! ## The changeset reader on dumps -/

/-- Results do not change when events are skipped first. -/
theorem Returns.skip {e : Event} (h : ∀ attrs, ¬ Opens e (str% "changeset") attrs) {r r' : Events}
    {x : Except Err (Option Changeset)} (hr : Returns nextChangeset r x r') :
    Returns nextChangeset (some e :: r) x r' := by
  obtain ⟨n, hn⟩ := hr
  exact ⟨n + 1, by rw [next_skip h, hn]⟩

theorem Results.skip {e : Event} (h : ∀ attrs, ¬ Opens e (str% "changeset") attrs) {r r' : Events}
    {rs : List (Except Err Changeset)} (hr : Results nextChangeset r rs r') :
    Results nextChangeset (some e :: r) rs r' := by
  cases hr with
  | done h' => exact .done (Returns.skip h h')
  | ok h' t => exact .ok (Returns.skip h h') t
  | err h' t => exact .err (Returns.skip h h') t

theorem Results.skipInside {body : Events} (h : Inside body) {r r' : Events}
    {rs : List (Except Err Changeset)} (hr : Results nextChangeset r rs r') :
    Results nextChangeset (body ++ r) rs r' := by
  induction body with
  | nil => exact hr
  | cons x body ih =>
    obtain ⟨e, rfl, h1, _⟩ := h x List.mem_cons_self
    exact Results.skip h1 (ih fun y hy => h y (List.mem_cons_of_mem _ hy))

theorem Inside.suffix {a b : Events} (h : Inside b) (hs : a <:+ b) : Inside a :=
  fun x hx => h x (hs.subset hx)

theorem not_opens_end (n : List UInt8) (s : Str) : ∀ attrs, ¬ Opens (.end_ n) s attrs := by
  rintro attrs ⟨m, h | h, _⟩ <;> cases h

theorem dump_results {evs : Events} {ds : List (Bool × Option Data)} (h : Dump evs ds) :
    ∃ rs, Results nextChangeset evs rs [] ∧ List.Forall₂ (fun r d => Fits r d.2) rs ds := by
  induction h with
  | nil => exact ⟨[], .done ⟨1, rfl⟩, .nil⟩
  | other hn _ ih =>
    obtain ⟨rs, h1, h2⟩ := ih
    exact ⟨rs, Results.skip hn.1 h1, h2⟩
  | @short n attrs d evs ds hn hs hd ht _ ih =>
    obtain ⟨rs, h1, h2⟩ := ih
    obtain ⟨b, hb, hbt⟩ := hd.built hs
    refine ⟨.ok (ofData d []) :: rs, .ok ⟨1, ?_⟩ h1, .cons ?_ h2⟩
    · rw [next_empty hn, hb, ← hbt]
    · exact shows_ofData ht
  | @full n attrs d body n' evs ds hn hs hd hbody hn' _ ih =>
    obtain ⟨rs, h1, h2⟩ := ih
    obtain ⟨b, hb, hbt⟩ := hd.built hs
    refine ⟨.ok (ofData d (d.tags.foldl (fun m p => m.insert p.1 p.2) [])) :: rs,
      .ok ⟨body.length + 1 + 1, ?_⟩ h1, .cons ?_ h2⟩
    · rw [next_start hn, hb, readTags_body hbody, readTags_closes ⟨n', rfl, hn'⟩, ← hbt]
    · exact shows_ofData rfl
  | badShort hn hbad _ ih =>
    obtain ⟨rs, h1, h2⟩ := ih
    rcases hbad.refused with ⟨e, he⟩ | ⟨b, hb, hbt⟩
    · refine ⟨.error e :: rs, .err ⟨1, ?_⟩ h1, .cons trivial h2⟩
      rw [next_empty hn, he]
    · obtain ⟨e, he⟩ := hbt []
      refine ⟨.error e :: rs, .err ⟨1, ?_⟩ h1, .cons trivial h2⟩
      rw [next_empty hn, hb, ← he]
  | @badFull n attrs body n' evs ds hn hbad hin hn' _ ih =>
    obtain ⟨rs, h1, h2⟩ := ih
    have after : ∀ b, Inside b → Results nextChangeset (b ++ some (.end_ n') :: evs) rs [] := fun b hb =>
      Results.skipInside hb (Results.skip (not_opens_end _ _) h1)
    cases hset : setAttrs {} attrs with
    | error e =>
      refine ⟨.error e :: rs, .err ⟨1, ?_⟩ (after body hin), .cons trivial h2⟩
      rw [next_start hn, hset]
    | ok b =>
      rcases readTags_inside hin 1 [] (some (.end_ n') :: evs) with ⟨e, bad, hsuf, hr⟩ | ⟨hnb, m', hr⟩
      · refine ⟨.error e :: rs, .err ⟨body.length + 1 + 1, ?_⟩ (after bad (Inside.suffix hin hsuf)), .cons trivial h2⟩
        rw [next_start hn, hset]
        simp only
        rw [hr]
      · have hbad : BadAttrs attrs := hbad.resolve_right hnb
        rcases hbad.refused with ⟨e, he⟩ | ⟨b', hb', hbt⟩
        · rw [hset] at he; cases he
        · rw [hset] at hb'; cases hb'
          obtain ⟨e, he⟩ := hbt m'
          refine ⟨.error e :: rs, .err ⟨body.length + 1 + 1, ?_⟩ h1, .cons trivial h2⟩
          rw [next_start hn, hset]
          simp only
          rw [hr, readTags_closes ⟨n', rfl, hn'⟩, ← he]

/-! ## Termination of the changeset reader -/

/-- The tags can go on for ever only if neither the end nor an error is among the events. -/
def Endless (evs : Events) : Prop :=
  ∀ x ∈ evs, ∃ e, x = some e ∧ ¬ Closes e (str% "changeset") ∧
    ∀ attrs, Opens e (str% "tag") attrs → ¬ BadTag attrs

theorem opens_unique {e : Event} {s s' : Str} {a a' : Attrs} (h : Opens e s a) (h' : Opens e s' a') : a = a' := by
  obtain ⟨n1, h1, _⟩ := h
  obtain ⟨n2, h2, _⟩ := h'
  rcases h1 with rfl | rfl
  · rcases h2 with h2 | h2 <;> cases h2
    rfl
  · rcases h2 with h2 | h2 <;> cases h2
    rfl

theorem readTags_endless (n : Nat) : ∀ (evs : Events) (m : TagMap), Endless evs → readTags n m evs = none := by
  induction n with
  | zero => intros; rfl
  | succ n ih =>
    intro evs m h
    cases evs with
    | nil => exact readTags_nil _ _
    | cons x r =>
      obtain ⟨e, rfl, h1, h2⟩ := h x List.mem_cons_self
      have hr : Endless r := fun y hy => h y (List.mem_cons_of_mem _ hy)
      rcases event_cases e with hc | ⟨attrs, ho⟩ | ⟨hc, hs⟩
      · exact absurd hc h1
      · rw [readTags_tag ho]
        rcases tagOf_cases attrs with ⟨_, hb⟩ | ⟨k, v, ht, _⟩
        · exact absurd hb (h2 _ ho)
        · rw [ht]; exact ih _ _ hr
      · rw [readTags_skip hc hs]; exact ih _ _ hr

theorem readTags_returns (evs : Events) : ∀ (m : TagMap) (n : Nat), evs.length < n →
    (∃ x, readTags n m evs = some x) ∨ Endless evs := by
  induction evs with
  | nil => intro m n _; exact .inr fun x hx => absurd hx List.not_mem_nil
  | cons x r ih =>
    intro m n hn
    obtain ⟨n, rfl⟩ : ∃ k, n = k + 1 := ⟨n - 1, by omega⟩
    rw [List.length_cons] at hn
    cases x with
    | none => exact .inl ⟨_, rfl⟩
    | some e =>
      have cons : (¬ Closes e (str% "changeset")) → (∀ attrs, Opens e (str% "tag") attrs → ¬ BadTag attrs) →
          Endless r → Endless (some e :: r) := by
        intro a b c y hy
        rcases List.mem_cons.mp hy with h | h
        · exact ⟨e, h, a, b⟩
        · exact c y h
      by_cases hc : Closes e (str% "changeset")
      · exact .inl ⟨_, readTags_closes hc _ _ _⟩
      rcases event_cases e with hc' | ⟨attrs, ho⟩ | ⟨_, hs⟩
      · exact absurd hc' hc
      · rw [readTags_tag ho]
        rcases tagOf_cases attrs with ⟨⟨er, ht⟩, _⟩ | ⟨k, v, ht, hnb, _⟩
        · rw [ht]; exact .inl ⟨_, rfl⟩
        · rw [ht]
          rcases ih (m.insert k v) n (by omega) with h | h
          · exact .inl h
          · exact .inr (cons hc (fun a ho' => opens_unique ho ho' ▸ hnb) h)
      · rw [readTags_skip hc hs]
        rcases ih m n (by omega) with h | h
        · exact .inl h
        · exact .inr (cons hc (fun a ho' => absurd ho' (hs a)) h)

theorem next_never {evs : Events} (h : CutInside evs) : ∀ n, nextChangeset n evs = none := by
  obtain ⟨pre, nm, attrs, body, rfl, hpre, hn, hnone, hread, hbody⟩ := h
  induction pre with
  | nil =>
    intro n
    cases n with
    | zero => rfl
    | succ n =>
      rw [List.nil_append, next_start hn]
      rcases setAttrs_cases attrs {} with ⟨_, h | ⟨a, ha, hu⟩⟩ | ⟨b, hb, _⟩
      · exact absurd h hnone
      · exact absurd hu (hread a ha)
      · rw [hb]
        simp only
        rw [readTags_endless n body [] hbody]
  | cons x pre ih =>
    intro n
    cases n with
    | zero => rfl
    | succ n =>
      obtain ⟨e, rfl, he⟩ := hpre x List.mem_cons_self
      rw [List.cons_append, next_skip he]
      exact ih (fun y hy => hpre y (List.mem_cons_of_mem _ hy)) n

theorem next_returns (evs : Events) : ∀ n, evs.length + 1 < n → (∃ x, nextChangeset n evs = some x) ∨ CutInside evs := by
  induction evs with
  | nil => intro n hn; obtain ⟨n, rfl⟩ : ∃ k, n = k + 1 := ⟨n - 1, by omega⟩; exact .inl ⟨_, rfl⟩
  | cons x r ih =>
    intro n hn
    obtain ⟨n, rfl⟩ : ∃ k, n = k + 1 := ⟨n - 1, by omega⟩
    rw [List.length_cons] at hn
    cases x with
    | none => exact .inl ⟨_, rfl⟩
    | some e =>
      rcases next_cases e with ⟨nm, attrs, rfl, hnm⟩ | ⟨nm, attrs, rfl, hnm⟩ | hs
      · rw [next_start hnm]
        rcases setAttrs_cases attrs {} with ⟨⟨er, h⟩, _⟩ | ⟨b, hb, h1, h2, _⟩
        · rw [h]; exact .inl ⟨_, rfl⟩
        · rw [hb]
          simp only
          rcases readTags_returns r [] n (by omega) with ⟨y, hy⟩ | he
          · rw [hy]
            obtain ⟨y1, y2⟩ := y
            cases y1 <;> exact .inl ⟨_, rfl⟩
          · exact .inr ⟨[], nm, attrs, r, rfl, fun _ h => absurd h List.not_mem_nil, hnm, h1, h2, he⟩
      · rw [next_empty hnm]
        rcases setAttrs_cases attrs {} with ⟨⟨er, h⟩, _⟩ | ⟨b, hb, _⟩
        · rw [h]; exact .inl ⟨_, rfl⟩
        · rw [hb]; exact .inl ⟨_, rfl⟩
      · rw [next_skip hs]
        rcases ih n (by omega) with h | ⟨pre, nm, attrs, body, rfl, h1, h2⟩
        · exact .inl h
        · refine .inr ⟨some e :: pre, nm, attrs, body, rfl, ?_, h2⟩
          intro y hy
          rcases List.mem_cons.mp hy with h | h
          · exact ⟨e, h, hs⟩
          · exact h1 y h

theorem readTags_append (n : Nat) : ∀ (m : TagMap) (evs X r : Events) x, readTags n m evs = some (x, r) →
    readTags n m (evs ++ X) = some (x, r ++ X) := by
  induction n with
  | zero => intro m evs X r x h; cases h
  | succ n ih =>
    intro m evs X r x h
    cases evs with
    | nil => rw [readTags_nil] at h; cases h
    | cons y t =>
      cases y with
      | none => cases h; rfl
      | some e =>
        rw [List.cons_append]
        rcases event_cases e with hc | ⟨attrs, ho⟩ | ⟨hc, hs⟩
        · rw [readTags_closes hc] at h ⊢; cases h; rfl
        · rw [readTags_tag ho] at h ⊢
          cases ht : tagOf attrs with
          | ok kv => rw [ht] at h; exact ih _ _ _ _ _ h
          | error er => rw [ht] at h; cases h; rfl
        · rw [readTags_skip hc hs] at h ⊢; exact ih _ _ _ _ _ h

/-- A call on a longer source returns the same, or found no changeset. -/
theorem next_append (n : Nat) : ∀ (evs r : Events) x, nextChangeset n evs = some (x, r) →
    (∀ X, nextChangeset n (evs ++ X) = some (x, r ++ X)) ∨
    (x = .ok none ∧ r = [] ∧ ∀ y ∈ evs, ∃ e, y = some e ∧ ∀ attrs, ¬ Opens e (str% "changeset") attrs) := by
  induction n with
  | zero => intro evs r x h; cases h
  | succ n ih =>
    intro evs r x h
    cases evs with
    | nil => cases h; exact .inr ⟨rfl, rfl, fun _ h => absurd h List.not_mem_nil⟩
    | cons y t =>
      cases y with
      | none => cases h; exact .inl fun X => rfl
      | some e =>
        rcases next_cases e with ⟨nm, attrs, rfl, hn⟩ | ⟨nm, attrs, rfl, hn⟩ | hs
        · left
          intro X
          rw [List.cons_append]
          rw [next_start hn] at h ⊢
          cases hb : setAttrs {} attrs with
          | error er => rw [hb] at h; cases h; rfl
          | ok b =>
            rw [hb] at h
            simp only at h ⊢
            cases ht : readTags n [] t with
            | none => rw [ht] at h; cases h
            | some z =>
              obtain ⟨z1, z2⟩ := z
              rw [readTags_append _ _ _ X _ _ ht]
              rw [ht] at h
              cases z1 <;> (cases h; rfl)
        · left
          intro X
          rw [List.cons_append]
          rw [next_empty hn] at h ⊢
          cases hb : setAttrs {} attrs with
          | error er => rw [hb] at h; cases h; rfl
          | ok b => rw [hb] at h; cases h; rfl
        · rw [next_skip hs] at h
          rcases ih _ _ _ h with h' | ⟨h1, h2, h3⟩
          · left
            intro X
            rw [List.cons_append, next_skip hs]
            exact h' X
          · refine .inr ⟨h1, h2, fun y hy => ?_⟩
            rcases List.mem_cons.mp hy with h | h
            · exact ⟨e, h, hs⟩
            · exact h3 y h

theorem CutInside.skip {pre X : Events} (hX : CutInside X)
    (h : ∀ y ∈ pre, ∃ e, y = some e ∧ ∀ attrs, ¬ Opens e (str% "changeset") attrs) : CutInside (pre ++ X) := by
  obtain ⟨pre', nm, attrs, body, rfl, h1, h2⟩ := hX
  refine ⟨pre ++ pre', nm, attrs, body, by rw [List.append_assoc], ?_, h2⟩
  intro x hx
  rcases List.mem_append.mp hx with hx | hx
  · exact h x hx
  · exact h1 x hx

/-- If the reader says the end, there is no changeset. -/
theorem ends_all {n : Nat} {s s' : Events} (hn : nextChangeset n s = some (.ok none, s')) :
    ∀ y ∈ s, ∃ e, y = some e ∧ ∀ attrs, ¬ Opens e (str% "changeset") attrs := by
  induction n generalizing s with
  | zero => cases hn
  | succ n ih =>
    cases s with
    | nil => exact fun _ h => absurd h List.not_mem_nil
    | cons y t =>
      cases y with
      | none => cases hn
      | some e =>
        rcases next_cases e with ⟨nm, attrs, rfl, hm⟩ | ⟨nm, attrs, rfl, hm⟩ | hs
        · rw [next_start hm] at hn
          cases hb : setAttrs {} attrs with
          | error er => rw [hb] at hn; cases hn
          | ok b =>
            rw [hb] at hn
            simp only at hn
            cases ht : readTags n [] t with
            | none => rw [ht] at hn; cases hn
            | some z =>
              obtain ⟨z1, z2⟩ := z
              rw [ht] at hn
              cases z1 with
              | error er => cases hn
              | ok m =>
                simp only [Option.some.injEq, Prod.mk.injEq] at hn
                rcases built_cases hb with ⟨d, _, hbd⟩ | ⟨_, hbd⟩
                · rw [hbd] at hn; cases hn.1
                · obtain ⟨er, he⟩ := hbd m
                  rw [he] at hn; cases hn.1
        · rw [next_empty hm] at hn
          cases hb : setAttrs {} attrs with
          | error er => rw [hb] at hn; cases hn
          | ok b =>
            rw [hb] at hn
            simp only [Option.some.injEq, Prod.mk.injEq] at hn
            rcases built_cases hb with ⟨d, _, hbd⟩ | ⟨_, hbd⟩
            · rw [hbd] at hn; cases hn.1
            · obtain ⟨er, he⟩ := hbd []
              rw [he] at hn; cases hn.1
        · rw [next_skip hs] at hn
          intro y hy
          rcases List.mem_cons.mp hy with h | h
          · exact ⟨e, h, hs⟩
          · exact ih hn y h

/-- Whatever could be read before the cut, the calls never come to an end. -/
theorem results_cut {evs e : Events} {rs : List (Except Err Changeset)} (h : Results nextChangeset evs rs e) {X : Events}
    (hX : CutInside X) : ∀ rs' e', ¬ Results nextChangeset (evs ++ X) rs' e' := by
  induction h with
  | @done s s' h =>
    intro rs' e' h'
    obtain ⟨n, hn⟩ := h
    have hall := ends_all hn
    have hc := CutInside.skip hX hall
    have no : ∀ r s', ¬ Returns nextChangeset (s ++ X) r s' := by
      rintro r s' ⟨n, h⟩
      rw [next_never hc] at h
      cases h
    cases h' with
    | done h => exact no _ _ h
    | ok h _ => exact no _ _ h
    | err h _ => exact no _ _ h
  | ok h _ ih =>
    intro rs' e' h'
    obtain ⟨n, hn⟩ := h
    rcases next_append _ _ _ _ hn with h1 | ⟨h1, _⟩
    · have hr : Returns nextChangeset _ _ _ := ⟨n, h1 X⟩
      cases h' with
      | done h => cases (returns_unique next_mono hr h).1
      | ok h t => obtain ⟨_, rfl⟩ := returns_unique next_mono hr h; exact ih _ _ t
      | err h _ => cases (returns_unique next_mono hr h).1
    · cases h1
  | err h _ ih =>
    intro rs' e' h'
    obtain ⟨n, hn⟩ := h
    rcases next_append _ _ _ _ hn with h1 | ⟨h1, _⟩
    · have hr : Returns nextChangeset _ _ _ := ⟨n, h1 X⟩
      cases h' with
      | done h => cases (returns_unique next_mono hr h).1
      | ok h _ => cases (returns_unique next_mono hr h).1
      | err h t => obtain ⟨_, rfl⟩ := returns_unique next_mono hr h; exact ih _ _ t
    · cases h1

/-! ## Where a returned changeset comes from -/

theorem readTags_ok (n : Nat) : ∀ (m m' : TagMap) (evs r : Events), readTags n m evs = some (.ok m', r) →
    ∃ body tags nm, evs = body ++ some (.end_ nm) :: r ∧ Named nm (str% "changeset") ∧ Between body tags ∧
      m' = tags.foldl (fun m p => m.insert p.1 p.2) m := by
  induction n with
  | zero => intro m m' evs r h; cases h
  | succ n ih =>
    intro m m' evs r h
    cases evs with
    | nil => rw [readTags_nil] at h; cases h
    | cons x t =>
      cases x with
      | none => simp [readTags, readEvent] at h
      | some e =>
        by_cases hc : Closes e (str% "changeset")
        · rw [readTags_closes hc] at h
          cases h
          obtain ⟨nm, rfl, hn⟩ := hc
          exact ⟨[], [], nm, rfl, hn, .nil, rfl⟩
        rcases event_cases e with hc' | ⟨attrs, ho⟩ | ⟨_, hs⟩
        · exact absurd hc' hc
        · rw [readTags_tag ho] at h
          rcases tagOf_cases attrs with ⟨⟨er, ht⟩, _⟩ | ⟨k, v, ht, hnb, hk, hv⟩
          · rw [ht] at h; cases h
          · rw [ht] at h
            obtain ⟨body, tags, nm, rfl, hn, hb, hm⟩ := ih _ _ _ _ h
            exact ⟨some e :: body, (k, v) :: tags, nm, rfl, hn, .tag ho hk hv hb, hm⟩
        · rw [readTags_skip hc hs] at h
          obtain ⟨body, tags, nm, rfl, hn, hb, hm⟩ := ih _ _ _ _ h
          exact ⟨some e :: body, tags, nm, rfl, hn, .other hc hs hb, hm⟩

theorem next_ok (n : Nat) : ∀ (evs r : Events) (c : Changeset), nextChangeset n evs = some (.ok (some c), r) →
    ∃ pre nm attrs d, (∀ x ∈ pre, ∃ e, x = some e ∧ ∀ attrs, ¬ Opens e (str% "changeset") attrs) ∧
      Named nm (str% "changeset") ∧ Describes attrs d ∧ Shows c d ∧
      ((evs = pre ++ some (.empty nm attrs) :: r ∧ d.tags = []) ∨
        ∃ body nm', evs = pre ++ some (.start nm attrs) :: (body ++ some (.end_ nm') :: r) ∧
          Named nm' (str% "changeset") ∧ Between body d.tags) := by
  induction n with
  | zero => intro evs r c h; cases h
  | succ n ih =>
    intro evs r c h
    cases evs with
    | nil => simp [nextChangeset, readEvent] at h
    | cons x t =>
      cases x with
      | none => simp [nextChangeset, readEvent] at h
      | some e =>
        rcases next_cases e with ⟨nm, attrs, rfl, hnm⟩ | ⟨nm, attrs, rfl, hnm⟩ | hs
        · rw [next_start hnm] at h
          cases hb : setAttrs {} attrs with
          | error er => rw [hb] at h; cases h
          | ok b =>
            rw [hb] at h
            simp only at h
            cases ht : readTags n [] t with
            | none => rw [ht] at h; cases h
            | some y =>
              obtain ⟨y1, y2⟩ := y
              rw [ht] at h
              cases y1 with
              | error er => cases h
              | ok m =>
                obtain ⟨body, tags, nm', rfl, hn', hbt, rfl⟩ := readTags_ok _ _ _ _ _ ht
                simp only [Option.some.injEq, Prod.mk.injEq] at h
                obtain ⟨h, rfl⟩ := h
                rcases built_cases hb with ⟨d, hd, hbd⟩ | ⟨_, hbd⟩
                · rw [hbd] at h
                  cases h
                  refine ⟨[], nm, attrs, { d with tags := tags }, fun _ h => absurd h List.not_mem_nil, hnm,
                    ⟨hd.1, hd.2, hd.3, hd.4, hd.5, hd.6, hd.7, hd.8⟩, ?_, .inr ⟨body, nm', rfl, hn', hbt⟩⟩
                  exact shows_ofData (d := { d with tags := tags }) rfl
                · obtain ⟨er, he⟩ := hbd (tags.foldl (fun m p => m.insert p.1 p.2) [])
                  rw [he] at h; cases h
        · rw [next_empty hnm] at h
          cases hb : setAttrs {} attrs with
          | error er => rw [hb] at h; cases h
          | ok b =>
            rw [hb] at h
            simp only [Option.some.injEq, Prod.mk.injEq] at h
            obtain ⟨h, rfl⟩ := h
            rcases built_cases hb with ⟨d, hd, hbd⟩ | ⟨_, hbd⟩
            · rw [hbd] at h
              cases h
              refine ⟨[], nm, attrs, { d with tags := [] }, fun _ h => absurd h List.not_mem_nil, hnm,
                ⟨hd.1, hd.2, hd.3, hd.4, hd.5, hd.6, hd.7, hd.8⟩, ?_, .inl ⟨rfl, rfl⟩⟩
              exact shows_ofData (d := { d with tags := [] }) rfl
            · obtain ⟨er, he⟩ := hbd []
              rw [he] at h; cases h
        · rw [next_skip hs] at h
          obtain ⟨pre, nm, attrs, d, h1, h2, h3, h4, h5⟩ := ih _ _ _ h
          refine ⟨some e :: pre, nm, attrs, d, ?_, h2, h3, h4, ?_⟩
          · intro y hy
            rcases List.mem_cons.mp hy with h | h
            · exact ⟨e, h, hs⟩
            · exact h1 y h
          · rcases h5 with ⟨rfl, h5⟩ | ⟨body, nm', rfl, h5⟩
            · exact .inl ⟨rfl, h5⟩
            · exact .inr ⟨body, nm', rfl, h5⟩

end Osmio.Changesets
