import Verif.Proofs.ChangesetReaders
/-! Lemmas about the reader of changeset tags. -/

namespace Osmio.Changesets
open QuickXml Spec.Cs

/-! ## One step -/

theorem tag_closes_some {e : Event} (h : Closes e (str% "changeset")) (n : Nat) (r : Events) (id : UInt64)
    (tags : List (Str × Str)) :
    nextTag (n + 1) ⟨some e :: r, some id, tags⟩ = some (.ok (some (id, tags)), ⟨r, some id, []⟩) := by
  obtain ⟨nm, rfl, hn⟩ := h
  rw [nextTag.eq_def]
  simp only [readEvent]
  exact if_pos hn

theorem tag_closes_none {e : Event} (h : Closes e (str% "changeset")) (n : Nat) (r : Events) (tags : List (Str × Str)) :
    nextTag (n + 1) ⟨some e :: r, none, tags⟩ = some (.error .noId, ⟨r, none, tags⟩) := by
  obtain ⟨nm, rfl, hn⟩ := h
  rw [nextTag.eq_def]
  simp only [readEvent]
  exact if_pos hn

theorem tag_start {nm : List UInt8} (h : Named nm (str% "changeset")) (attrs : Attrs) (n : Nat) (r : Events)
    (id : Option UInt64) (tags : List (Str × Str)) :
    nextTag (n + 1) ⟨some (.start nm attrs) :: r, id, tags⟩ =
      match idAttrs id attrs with
      | (id', .ok ()) => nextTag n ⟨r, id', []⟩
      | (id', .error e) => some (.error e, ⟨r, id', tags⟩) := by
  rw [nextTag.eq_def]
  simp only [readEvent]
  exact if_pos h

theorem tag_not_cs {n : List UInt8} (h : Named n (str% "tag")) : ¬ Named n (str% "changeset") :=
  fun h' => cs_ne_tag (h'.symm.trans h)

theorem tag_tag {e : Event} {attrs : Attrs} (h : Opens e (str% "tag") attrs) (n : Nat) (r : Events)
    (id : Option UInt64) (tags : List (Str × Str)) :
    nextTag (n + 1) ⟨some e :: r, id, tags⟩ =
      match tagOf attrs with
      | .ok kv => nextTag n ⟨r, id, tags ++ [kv]⟩
      | .error e => some (.error e, ⟨r, id, tags⟩) := by
  obtain ⟨nm, rfl | rfl, hn⟩ := h
  · rw [nextTag.eq_def]
    simp only [readEvent]
    exact (if_neg (tag_not_cs hn)).trans (if_pos hn)
  · rw [nextTag.eq_def]
    simp only [readEvent]
    exact if_pos hn

theorem tag_skip {e : Event} (h1 : ¬ Closes e (str% "changeset"))
    (h2 : ∀ nm attrs, e = .start nm attrs → ¬ Named nm (str% "changeset"))
    (h3 : ∀ attrs, ¬ Opens e (str% "tag") attrs) (n : Nat) (r : Events)
    (id : Option UInt64) (tags : List (Str × Str)) :
    nextTag (n + 1) ⟨some e :: r, id, tags⟩ = nextTag n ⟨r, id, tags⟩ := by
  rw [nextTag.eq_def]
  cases e with
  | start nm attrs =>
    simp only [readEvent]
    exact (if_neg (h2 nm attrs rfl)).trans (if_neg fun h => h3 attrs ⟨nm, .inl rfl, h⟩)
  | empty nm attrs =>
    simp only [readEvent]
    exact if_neg fun h => h3 attrs ⟨nm, .inr rfl, h⟩
  | end_ nm =>
    simp only [readEvent]
    exact if_neg fun h => h1 ⟨nm, rfl, h⟩
  | other => rfl

theorem tag_neutral {e : Event} (h : Neutral e) (n : Nat) (r : Events) (id : Option UInt64) (tags : List (Str × Str)) :
    nextTag (n + 1) ⟨some e :: r, id, tags⟩ = nextTag n ⟨r, id, tags⟩ :=
  tag_skip h.2.1 (fun nm attrs he hn => h.1 attrs ⟨nm, .inl he, hn⟩) h.2.2 n r id tags

theorem tag_short {nm : List UInt8} (h : Named nm (str% "changeset")) (attrs : Attrs) (n : Nat) (r : Events)
    (id : Option UInt64) (tags : List (Str × Str)) :
    nextTag (n + 1) ⟨some (.empty nm attrs) :: r, id, tags⟩ = nextTag n ⟨r, id, tags⟩ := by
  refine tag_skip ?_ ?_ ?_ n r id tags
  · rintro ⟨_, h, _⟩; cases h
  · intro _ _ h; cases h
  · rintro a ⟨n', h' | h', hn'⟩
    · cases h'
    · cases h'; exact tag_not_cs hn' h

/-- Every event is one of these. -/
theorem tag_cases (e : Event) : Closes e (str% "changeset") ∨
    (∃ nm attrs, e = .start nm attrs ∧ Named nm (str% "changeset")) ∨ (∃ attrs, Opens e (str% "tag") attrs) ∨
    (¬ Closes e (str% "changeset") ∧ (∀ nm attrs, e = .start nm attrs → ¬ Named nm (str% "changeset")) ∧
      ∀ attrs, ¬ Opens e (str% "tag") attrs) := by
  by_cases h1 : Closes e (str% "changeset")
  · exact .inl h1
  by_cases h2 : ∃ nm attrs, e = .start nm attrs ∧ Named nm (str% "changeset")
  · exact .inr (.inl h2)
  by_cases h3 : ∃ attrs, Opens e (str% "tag") attrs
  · exact .inr (.inr (.inl h3))
  · exact .inr (.inr (.inr ⟨h1, fun nm a he hn => h2 ⟨nm, a, he, hn⟩, fun a h => h3 ⟨a, h⟩⟩))

/-! ## The id -/

theorem idAttrs_cases (attrs : Attrs) : ∀ id,
    (∃ id' e, idAttrs id attrs = (id', .error e) ∧ (none ∈ attrs ∨ ∃ a, some a ∈ attrs ∧ Named a.key (str% "id") ∧
      numVal parseU64 a = none)) ∨
    ∃ id', idAttrs id attrs = (id', .ok ()) ∧ none ∉ attrs ∧
      (∀ a, some a ∈ attrs → Named a.key (str% "id") → numVal parseU64 a ≠ none) ∧
      Field attrs (str% "id") (numVal parseU64) id id' := by
  induction attrs with
  | nil => intro id; exact .inr ⟨id, rfl, List.not_mem_nil, fun _ h => absurd h List.not_mem_nil, .nil⟩
  | cons o r ih =>
    intro id
    cases o with
    | none => exact .inl ⟨id, _, rfl, .inl List.mem_cons_self⟩
    | some a =>
      rw [idAttrs]
      have key : ∀ id1, id1 = (if Named a.key (str% "id") then numVal parseU64 a else id) →
          (Named a.key (str% "id") → numVal parseU64 a ≠ none) →
          (∃ id' e, idAttrs id1 r = (id', .error e) ∧ (none ∈ some a :: r ∨ ∃ a', some a' ∈ some a :: r ∧
            Named a'.key (str% "id") ∧ numVal parseU64 a' = none)) ∨
          ∃ id', idAttrs id1 r = (id', .ok ()) ∧ none ∉ some a :: r ∧
            (∀ a', some a' ∈ some a :: r → Named a'.key (str% "id") → numVal parseU64 a' ≠ none) ∧
            Field (some a :: r) (str% "id") (numVal parseU64) id id' := by
        intro id1 h1 h2
        rcases ih id1 with ⟨id', e, h, hb⟩ | ⟨id', h, hn, hr, hf⟩
        · refine .inl ⟨id', e, h, ?_⟩
          rcases hb with hb | ⟨x, hx, hb⟩
          · exact .inl (List.mem_cons_of_mem _ hb)
          · exact .inr ⟨x, List.mem_cons_of_mem _ hx, hb⟩
        · refine .inr ⟨id', h, ?_, ?_, .cons h1 hf⟩
          · intro hm
            rcases List.mem_cons.mp hm with h | h
            · cases h
            · exact hn h
          · intro x hx
            rcases List.mem_cons.mp hx with h | h
            · cases h; exact h2
            · exact hr x h
      by_cases hn : Named a.key (str% "id")
      · rw [if_pos (show localName a.key = _ from hn)]
        rcases parsed_eq parseU64 a with ⟨x, h, hv⟩ | ⟨⟨e, h⟩, hv⟩
        · rw [h]
          exact key (some x) (by rw [if_pos hn, hv]) fun _ => by rw [hv]; simp
        · rw [h]
          exact .inl ⟨id, e, rfl, .inr ⟨a, List.mem_cons_self, hn, hv⟩⟩
      · rw [if_neg (show ¬ localName a.key = _ from hn)]
        exact key id (by rw [if_neg hn]) fun h => absurd h hn

theorem idAttrs_sound {attrs : Attrs} {s : Str} {id : UInt64} (hs : Sound attrs) (h : HasAttr attrs (str% "id") s)
    (hp : parseU64 s = some id) (old : Option UInt64) : idAttrs old attrs = (some id, .ok ()) := by
  obtain ⟨a0, ha0, hn0, hv0⟩ := h
  have val : ∀ a, some a ∈ attrs → Named a.key (str% "id") → numVal parseU64 a = some id := by
    intro a ha hn
    rw [hs.unique ha ha0 hn hn0]
    unfold numVal
    rw [normalizedValue_iff.2 hv0]
    exact hp
  rcases idAttrs_cases attrs old with ⟨id', e, _, hb | ⟨a, ha, hn, hv⟩⟩ | ⟨id', he, _, _, hf⟩
  · exact absurd hb hs.readable
  · rw [val a ha hn] at hv; cases hv
  · rw [he]
    rcases hf with ⟨hl, _⟩ | ⟨a, ha, hn, hv⟩
    · exact absurd hn0 (hl a0 ha0)
    · rw [← hv, val a ha hn]

theorem parse_wider {s : Str} {x : UInt32} (h : parseU32 s = some x) : parseU64 s = some x.toUInt64 := by
  unfold parseU32 parseUnsigned at h
  unfold parseU64 parseUnsigned
  cases hd : parseDigits (stripPlus s) with
  | none => rw [hd] at h; cases h
  | some n =>
    rw [hd] at h
    simp only at h ⊢
    by_cases hn : n ≤ 2 ^ 32 - 1
    · rw [if_pos hn] at h
      rw [if_pos (by omega)]
      simp only [Option.map_some, Option.some.injEq] at h ⊢
      subst h
      apply UInt64.toNat_inj.mp
      simp
      omega
    · rw [if_neg hn] at h; cases h

/-! ## More iterations change nothing; every call returns -/

theorem tag_mono (n : Nat) : ∀ (s : TagReader) x, nextTag n s = some x → nextTag (n + 1) s = some x := by
  induction n with
  | zero => intro s x h; cases h
  | succ n ih =>
    rintro ⟨evs, id, tags⟩ x h
    cases evs with
    | nil => exact h
    | cons y r =>
      cases y with
      | none => exact h
      | some e =>
        rcases tag_cases e with hc | ⟨nm, attrs, rfl, hn⟩ | ⟨attrs, ho⟩ | ⟨h1, h2, h3⟩
        · cases id with
          | none => rw [tag_closes_none hc] at h ⊢; exact h
          | some id => rw [tag_closes_some hc] at h ⊢; exact h
        · rw [tag_start hn] at h ⊢
          rcases idAttrs_cases attrs id with ⟨id', er, he, _⟩ | ⟨id', he, _⟩
          · rw [he] at h ⊢; exact h
          · rw [he] at h ⊢; exact ih _ _ h
        · rw [tag_tag ho] at h ⊢
          cases ht : tagOf attrs with
          | ok kv => rw [ht] at h; exact ih _ _ h
          | error er => rw [ht] at h; exact h
        · rw [tag_skip h1 h2 h3] at h ⊢; exact ih _ _ h

theorem tag_returns (evs : Events) : ∀ (id : Option UInt64) (tags : List (Str × Str)) (n : Nat), evs.length < n →
    ∃ r s', nextTag n ⟨evs, id, tags⟩ = some (r, s') ∧ s'.evs <:+ evs ∧
      (r ≠ .ok none → s'.evs.length < evs.length) := by
  induction evs with
  | nil =>
    intro id tags n hn
    obtain ⟨n, rfl⟩ : ∃ k, n = k + 1 := ⟨n - 1, by omega⟩
    exact ⟨_, _, rfl, List.suffix_rfl, fun h => absurd rfl h⟩
  | cons x r ih =>
    intro id tags n hn
    obtain ⟨n, rfl⟩ : ∃ k, n = k + 1 := ⟨n - 1, by omega⟩
    rw [List.length_cons] at hn
    have more : ∀ id' tags', ∃ r' s', nextTag n ⟨r, id', tags'⟩ = some (r', s') ∧ s'.evs <:+ x :: r ∧
        (r' ≠ .ok none → s'.evs.length < (x :: r).length) := by
      intro id' tags'
      obtain ⟨a, b, h1, h2, h3⟩ := ih id' tags' n (by omega)
      exact ⟨a, b, h1, h2.trans (List.suffix_cons _ _), fun h => by
        have := h3 h; rw [List.length_cons]; omega⟩
    have now : ∀ res id' tags', ∃ r' s', (some (res, (⟨r, id', tags'⟩ : TagReader)) :
          Option (Except Err (Option (UInt64 × List (Str × Str))) × TagReader)) = some (r', s') ∧ s'.evs <:+ x :: r ∧
        (r' ≠ .ok none → s'.evs.length < (x :: r).length) := fun res id' tags' =>
      ⟨res, _, rfl, List.suffix_cons _ _, fun _ => by simp⟩
    cases x with
    | none => exact now _ _ _
    | some e =>
      rcases tag_cases e with hc | ⟨nm, attrs, rfl, hnm⟩ | ⟨attrs, ho⟩ | ⟨h1, h2, h3⟩
      · cases id with
        | none => rw [tag_closes_none hc]; exact now _ _ _
        | some id => rw [tag_closes_some hc]; exact now _ _ _
      · rw [tag_start hnm]
        rcases idAttrs_cases attrs id with ⟨id', er, he, _⟩ | ⟨id', he, _⟩
        · rw [he]; exact now _ _ _
        · rw [he]; exact more _ _
      · rw [tag_tag ho]
        cases ht : tagOf attrs with
        | ok kv => exact more _ _
        | error er => exact now _ _ _
      · rw [tag_skip h1 h2 h3]; exact more _ _

/-! ## The tag reader on dumps -/

theorem tag_body {body : Events} {ts : List (Str × Str)} (h : Body body ts) : ∀ (n : Nat) (r : Events) (id : Option UInt64)
    (tags : List (Str × Str)),
    nextTag (body.length + n) ⟨body ++ r, id, tags⟩ = nextTag n ⟨r, id, tags ++ ts⟩ := by
  induction h with
  | nil => intro n r id tags; simp
  | tag ho ht _ ih =>
    intro n r id tags
    rw [List.length_cons, Nat.add_right_comm, List.cons_append, tag_tag ho, tagOf_isTag ht]
    simp only
    rw [ih, List.append_assoc]
    rfl
  | other hn _ ih =>
    intro n r id tags
    rw [List.length_cons, Nat.add_right_comm, List.cons_append, tag_neutral hn]
    exact ih n r id tags

theorem tag_results_skip {e : Event} {r : Events} {id : Option UInt64} {tags : List (Str × Str)}
    (h : ∀ n, nextTag (n + 1) ⟨some e :: r, id, tags⟩ = nextTag n ⟨r, id, tags⟩) {rs s'}
    (hr : Results nextTag ⟨r, id, tags⟩ rs s') : Results nextTag ⟨some e :: r, id, tags⟩ rs s' := by
  cases hr with
  | done h' => obtain ⟨n, hn⟩ := h'; exact .done ⟨n + 1, by rw [h, hn]⟩
  | ok h' t => obtain ⟨n, hn⟩ := h'; exact .ok ⟨n + 1, by rw [h, hn]⟩ t
  | err h' t => obtain ⟨n, hn⟩ := h'; exact .err ⟨n + 1, by rw [h, hn]⟩ t

theorem tagDump_results {evs : Events} {ds : List (UInt64 × List (Str × Str))} (h : TagDump evs ds) :
    ∀ (id : Option UInt64) (tags : List (Str × Str)), ∃ s', s'.evs = [] ∧
      Results nextTag ⟨evs, id, tags⟩ (ds.map .ok) s' := by
  induction h with
  | nil => intro id tags; exact ⟨⟨[], id, tags⟩, rfl, .done ⟨1, rfl⟩⟩
  | other hn _ ih =>
    intro id tags
    obtain ⟨s', h1, h2⟩ := ih id tags
    exact ⟨s', h1, tag_results_skip (fun n => tag_neutral hn n _ _ _) h2⟩
  | short hn _ ih =>
    intro id tags
    obtain ⟨s', h1, h2⟩ := ih id tags
    exact ⟨s', h1, tag_results_skip (fun n => tag_short hn _ n _ _ _) h2⟩
  | @full n attrs id0 s body ts n' evs ds hn hs ha hp hb hn' _ ih =>
    intro id tags
    obtain ⟨s', h1, h2⟩ := ih (some id0) []
    refine ⟨s', h1, .ok ⟨body.length + 1 + 1, ?_⟩ h2⟩
    rw [tag_start hn, idAttrs_sound hs ha hp]
    simp only
    rw [tag_body hb, tag_closes_some ⟨n', rfl, hn'⟩, List.nil_append]

/-- What a reader of tags sees of a dump. -/
def taggedOf (ds : List (Bool × Option Data)) : List (UInt64 × List (Str × Str)) :=
  ds.filterMap fun p => if p.1 then p.2.map fun d => (d.id.toUInt64, d.tags) else none

theorem dump_tagDump {evs : Events} {ds : List (Bool × Option Data)} (h : Dump evs ds) (hg : ∀ p ∈ ds, p.2 ≠ none) :
    TagDump evs (taggedOf ds) := by
  induction h with
  | nil => exact .nil
  | other hn _ ih => exact .other hn (ih hg)
  | short hn hs hd ht _ ih => exact .short hn (ih fun p hp => hg p (List.mem_cons_of_mem _ hp))
  | full hn hs hd hb hn' _ ih =>
    obtain ⟨s, h1, h2⟩ := hd.id
    exact .full hn hs h1 (parse_wider h2) hb hn' (ih fun p hp => hg p (List.mem_cons_of_mem _ hp))
  | badShort _ _ _ _ => exact absurd rfl (hg _ List.mem_cons_self)
  | badFull _ _ _ _ _ _ => exact absurd rfl (hg _ List.mem_cons_self)

/-! ## Where a returned pair comes from -/

/-- There is no start of a changeset. -/
def NoStart (evs : Events) : Prop := ∀ n attrs, Named n (str% "changeset") → some (.start n attrs) ∉ evs

theorem tag_ok (n : Nat) : ∀ (s s' : TagReader) (id : UInt64) (tags : List (Str × Str)),
    nextTag n s = some (.ok (some (id, tags)), s') →
    ∃ cons nm, s.evs = cons ++ some (.end_ nm) :: s'.evs ∧ Named nm (str% "changeset") ∧ s'.tags = [] ∧
      (NoStart cons → s.currId = some id ∧ ∃ ts, Between cons ts ∧ tags = s.tags ++ ts) ∧
      ∀ pre n attrs mid, cons = pre ++ some (.start n attrs) :: mid → Named n (str% "changeset") → NoStart mid →
        Between mid tags ∧ (¬ Lacks attrs (str% "id") → ∃ s, HasAttr attrs (str% "id") s ∧ parseU64 s = some id) := by
  induction n with
  | zero => intro s s' id tags h; cases h
  | succ n ih =>
    rintro ⟨evs, cid, ctags⟩ s' id tags h
    cases evs with
    | nil => simp [nextTag, readEvent] at h
    | cons x r =>
      cases x with
      | none => simp [nextTag, readEvent] at h
      | some e =>
        rcases tag_cases e with hc | ⟨nm, attrs, rfl, hnm⟩ | ⟨attrs, ho⟩ | ⟨h1, h2, h3⟩
        · cases cid with
          | none => rw [tag_closes_none hc] at h; cases h
          | some cid =>
            rw [tag_closes_some hc] at h
            cases h
            obtain ⟨nm, rfl, hn⟩ := hc
            refine ⟨[], nm, rfl, hn, rfl, fun _ => ⟨rfl, [], .nil, by simp⟩, ?_⟩
            intro pre n attrs mid he
            cases pre <;> cases he
        · rw [tag_start hnm] at h
          rcases idAttrs_cases attrs cid with ⟨id', er, he, _⟩ | ⟨id', he, hno, hr, hf⟩
          · rw [he] at h; cases h
          · rw [he] at h
            obtain ⟨cons, nm', hev, hnm', ht', hA, hB⟩ := ih _ _ _ _ h
            refine ⟨some (.start nm attrs) :: cons, nm', by rw [List.cons_append, ← hev], hnm', ht', ?_, ?_⟩
            · intro hns
              exact absurd List.mem_cons_self (hns nm attrs hnm)
            · intro pre n1 attrs1 mid he1 hn1 hmid
              cases pre with
              | nil =>
                cases he1
                obtain ⟨h1, ts, h2, h3⟩ := hA hmid
                simp only [List.nil_append] at h3
                subst h3
                refine ⟨h2, fun hl => ?_⟩
                simp only at h1
                subst h1
                rcases hf with ⟨hl', _⟩ | ⟨a, ha, hn, hv⟩
                · exact absurd hl' hl
                · obtain ⟨s, hs1, hs2⟩ := numVal_some hv
                  exact ⟨s, ⟨a, ha, hn, bytes_of hs1⟩, hs2⟩
              | cons y pre =>
                obtain ⟨-, he1⟩ := List.cons.inj he1
                exact hB pre n1 attrs1 mid he1 hn1 hmid
        · rw [tag_tag ho] at h
          rcases tagOf_cases attrs with ⟨⟨er, ht⟩, _⟩ | ⟨k, v, ht, hnb, hk, hv⟩
          · rw [ht] at h; cases h
          · rw [ht] at h
            obtain ⟨cons, nm', hev, hnm', ht', hA, hB⟩ := ih _ _ _ _ h
            refine ⟨some e :: cons, nm', by rw [List.cons_append, ← hev], hnm', ht', ?_, ?_⟩
            · intro hns
              obtain ⟨h1, ts, h2, h3⟩ := hA fun n a hn hm => hns n a hn (List.mem_cons_of_mem _ hm)
              refine ⟨h1, (k, v) :: ts, .tag ho hk hv h2, ?_⟩
              rw [h3, List.append_assoc]
              rfl
            · intro pre n1 attrs1 mid he1 hn1 hmid
              cases pre with
              | nil =>
                cases he1
                obtain ⟨n2, h | h, hn2⟩ := ho
                · cases h; exact absurd hn1 (tag_not_cs hn2)
                · cases h
              | cons y pre =>
                obtain ⟨-, he1⟩ := List.cons.inj he1
                exact hB pre n1 attrs1 mid he1 hn1 hmid
        · rw [tag_skip h1 h2 h3] at h
          obtain ⟨cons, nm', hev, hnm', ht', hA, hB⟩ := ih _ _ _ _ h
          refine ⟨some e :: cons, nm', by rw [List.cons_append, ← hev], hnm', ht', ?_, ?_⟩
          · intro hns
            obtain ⟨g1, ts, g2, g3⟩ := hA fun n a hn hm => hns n a hn (List.mem_cons_of_mem _ hm)
            exact ⟨g1, ts, .other h1 h3 g2, g3⟩
          · intro pre n1 attrs1 mid he1 hn1 hmid
            cases pre with
            | nil =>
              cases he1
              exact absurd hn1 (h2 _ _ rfl)
            | cons y pre =>
              obtain ⟨-, he1⟩ := List.cons.inj he1
              exact hB pre n1 attrs1 mid he1 hn1 hmid

end Osmio.Changesets
