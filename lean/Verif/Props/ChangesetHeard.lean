import Verif.Spec.ChangesetHeard
import Verif.Props.Changesets
import Verif.Proofs.ChangesetAny
/-!
# The reader of changeset tags, exactly

C56 for every document: which pairs the calls return up to the end, whether or not the elements have ids.
-/

namespace Osmio
open QuickXml Spec.Cs Changesets

theorem announced_of (attrs : Attrs) : ∃ o, Announced attrs o ∧ (∀ id, (idAttrs id attrs).1 = o.or id) ∧
    ((∃ id e, (idAttrs id attrs).2 = .error e) → ¬ Clean attrs) ∧ (∀ id, (idAttrs id attrs).2 = .ok () → Clean attrs) := by
  induction attrs with
  | nil =>
    refine ⟨none, .nil, fun _ => rfl, ?_, fun _ _ => ⟨List.not_mem_nil, fun _ h => absurd h List.not_mem_nil⟩⟩
    rintro ⟨_, _, h⟩; cases h
  | cons x r ih =>
    cases x with
    | none =>
      refine ⟨none, .unreadable, fun _ => rfl, fun _ h => h.1 List.mem_cons_self, fun id h => by cases h⟩
    | some a =>
      obtain ⟨o, h1, h2, h3, h4⟩ := ih
      by_cases hn : Named a.key (str% "id")
      · rcases parsed_eq parseU64 a with ⟨x, hp, hv⟩ | ⟨⟨e, hp⟩, hv⟩
        · obtain ⟨s, hs, hx⟩ := numVal_some hv
          have he : ∀ id, idAttrs id (some a :: r) = idAttrs (some x) r := by
            intro id
            rw [idAttrs, if_pos (show localName a.key = _ from hn), hp]
          have hu : ¬ Useless parseU64 a := by
            rw [useless_eq, hs, Option.bind_some, hx]; nofun
          refine ⟨o.or (some x), .id hn (bytes_of hs) hx h1, fun id => ?_, ?_, fun id h => ?_⟩
          · rw [he, h2]; cases o <;> rfl
          · rintro ⟨id, e, h⟩ ⟨c1, c2⟩
            rw [he] at h
            exact h3 ⟨_, _, h⟩ ⟨fun h => c1 (List.mem_cons_of_mem _ h), fun b hb => c2 b (List.mem_cons_of_mem _ hb)⟩
          · rw [he] at h
            obtain ⟨c1, c2⟩ := h4 _ h
            refine ⟨by simpa using c1, fun b hb hb' => ?_⟩
            rcases List.mem_cons.1 hb with hb | hb
            · cases hb; exact hu
            · exact c2 b hb hb'
        · have he : ∀ id, idAttrs id (some a :: r) = (id, .error e) := by
            intro id
            rw [idAttrs, if_pos (show localName a.key = _ from hn), hp]
          have hu : Useless parseU64 a := by rw [useless_eq]; exact hv
          refine ⟨none, .useless hn hu, fun id => by rw [he]; rfl, fun _ h => h.2 a List.mem_cons_self hn hu, fun id h => ?_⟩
          rw [he] at h; cases h
      · have he : ∀ id, idAttrs id (some a :: r) = idAttrs id r := by
          intro id
          rw [idAttrs, if_neg (show ¬ localName a.key = _ from hn)]
        refine ⟨o, .other hn h1, fun id => by rw [he, h2], ?_, fun id h => ?_⟩
        · rintro ⟨id, e, h⟩ ⟨c1, c2⟩
          rw [he] at h
          exact h3 ⟨_, _, h⟩ ⟨fun h => c1 (List.mem_cons_of_mem _ h), fun b hb => c2 b (List.mem_cons_of_mem _ hb)⟩
        · rw [he] at h
          obtain ⟨c1, c2⟩ := h4 _ h
          refine ⟨by simpa using c1, fun b hb hb' => ?_⟩
          rcases List.mem_cons.1 hb with hb | hb
          · cases hb; exact absurd hb' hn
          · exact c2 b hb hb'

theorem silent_snoc {evs : Events} {x : Option Event} (h : Silent evs)
    (hx : ∀ n attrs, x = some (.start n attrs) → Named n (str% "changeset") → Announced attrs none) : Silent (evs ++ [x]) := by
  intro n attrs hn hm
  rcases List.mem_append.1 hm with hm | hm
  · exact h n attrs hn hm
  · exact hx n attrs (List.mem_singleton.1 hm).symm hn

theorem heard_snoc {seen : Events} {o : Option UInt64} {x : Option Event} (h : Heard seen o)
    (hx : ∀ n attrs, x = some (.start n attrs) → Named n (str% "changeset") → Announced attrs none) : Heard (seen ++ [x]) o := by
  cases o with
  | none => exact silent_snoc h hx
  | some id =>
    obtain ⟨pre, n, attrs, post, rfl, h2, h3, h4⟩ := h
    exact ⟨pre, n, attrs, post ++ [x], by simp, h2, h3, silent_snoc h4 hx⟩

theorem heard_start {seen : Events} {o o' : Option UInt64} {n : List UInt8} {attrs : Attrs} (h : Heard seen o)
    (hn : Named n (str% "changeset")) (ha : Announced attrs o') : Heard (seen ++ [some (.start n attrs)]) (o'.or o) := by
  cases o' with
  | none =>
    refine heard_snoc h fun m a he _ => ?_
    cases he
    exact ha
  | some id => exact ⟨seen, n, attrs, [], rfl, hn, ha, fun _ _ _ h => absurd h List.not_mem_nil⟩

theorem gathered_tag {evs : Events} {tags : List (Str × Str)} {e : Event} {attrs : Attrs} {k v : Str} (h : Gathered evs tags)
    (ho : Opens e (str% "tag") attrs) (hb : ¬ BadTag attrs) (hk : LastHas attrs (str% "k") k) (hv : LastHas attrs (str% "v") v) :
    Gathered (evs ++ [some e]) (tags ++ [(k, v)]) := by
  induction h with
  | nil => exact .tag ho hb hk hv .nil
  | tag a b c d _ ih => exact .tag a b c d ih
  | skip a b _ ih => exact .skip a b ih

theorem gathered_skip {evs : Events} {tags : List (Str × Str)} {x : Option Event} (h : Gathered evs tags)
    (h1 : ∀ e attrs, x = some e → Opens e (str% "tag") attrs → BadTag attrs)
    (h2 : ∀ n attrs, x = some (.start n attrs) → Named n (str% "changeset") → ¬ Clean attrs) :
    Gathered (evs ++ [x]) tags := by
  induction h with
  | nil => exact .skip h1 h2 .nil
  | tag a b c d _ ih => exact .tag a b c d ih
  | skip a b _ ih => exact .skip a b ih

theorem snoc_split {α : Type} {new a b : List α} {x y : α} (h : new ++ [x] = a ++ y :: b) :
    (a = new ∧ y = x ∧ b = []) ∨ ∃ b', b = b' ++ [x] ∧ new = a ++ y :: b' := by
  rcases List.eq_nil_or_concat b with rfl | ⟨b', z, rfl⟩
  · obtain ⟨h1, h2⟩ := List.append_inj' h rfl
    cases h2
    exact .inl ⟨h1.symm, rfl, rfl⟩
  · right
    rw [List.concat_eq_append] at h ⊢
    have h' : new ++ [x] = (a ++ y :: b') ++ [z] := by simpa using h
    obtain ⟨h1, h2⟩ := List.append_inj' h' rfl
    cases h2
    exact ⟨b', rfl, h1⟩

theorem since_tag {seen : Events} {tags : List (Str × Str)} {e : Event} {attrs : Attrs} {k v : Str} (h : Since seen tags)
    (ho : Opens e (str% "tag") attrs) (hb : ¬ BadTag attrs) (hk : LastHas attrs (str% "k") k) (hv : LastHas attrs (str% "v") v) :
    Since (seen ++ [some e]) (tags ++ [(k, v)]) := by
  obtain ⟨old, new, rfl, h2, h3, h4⟩ := h
  refine ⟨old, new ++ [some e], by simp, h2, gathered_tag h3 ho hb hk hv, fun a n b he hn => ?_⟩
  rcases snoc_split he with ⟨rfl, hx, _⟩ | ⟨b', _, he⟩
  · cases hx
    obtain ⟨m, h | h, _⟩ := ho <;> cases h
  · exact h4 a n b' he hn

theorem since_skip {seen : Events} {tags : List (Str × Str)} {x : Option Event} (h : Since seen tags)
    (h1 : ∀ e attrs, x = some e → Opens e (str% "tag") attrs → BadTag attrs)
    (h2 : ∀ n attrs, x = some (.start n attrs) → Named n (str% "changeset") → ¬ Clean attrs)
    (h3 : ∀ n, x = some (.end_ n) → Named n (str% "changeset") → Silent seen) :
    Since (seen ++ [x]) tags := by
  obtain ⟨old, new, rfl, g2, g3, g4⟩ := h
  refine ⟨old, new ++ [x], by simp, g2, gathered_skip g3 h1 h2, fun a n b he hn => ?_⟩
  rcases snoc_split he with ⟨rfl, hx, _⟩ | ⟨b', _, he⟩
  · exact h3 n hx.symm hn
  · exact g4 a n b' he hn

/-- What the state of a reader is after these events. -/
structure After (seen : Events) (s : TagReader) : Prop where
  id : Heard seen s.currId
  tags : Since seen s.tags

theorem after_new (evs : Events) : After [] (newTagReader evs) :=
  ⟨fun _ _ _ h => absurd h List.not_mem_nil, [], [], rfl, .nil, .nil, fun a n b h => by cases a <;> cases h⟩

theorem not_silent {seen : Events} {id : UInt64} (h : Heard seen (some id)) : ¬ Silent seen := by
  obtain ⟨pre, n, attrs, post, rfl, h2, h3, -⟩ := h
  intro hs
  have hu : ∀ {attrs o o'}, Announced attrs o → Announced attrs o' → o = o' := by
    intro attrs o o' h h'
    induction h generalizing o' with
    | nil => cases h'; rfl
    | unreadable => cases h'; rfl
    | useless a b =>
      cases h' with
      | useless => rfl
      | id _ c d _ => rw [b _ c] at d; cases d
      | other c _ => exact absurd a c
    | id a b c _ ih =>
      cases h' with
      | useless _ d => rw [d _ b] at c; cases c
      | id _ b' c' d =>
        rw [← normalizedValue_iff] at b b'
        rw [b] at b'; cases b'
        rw [c] at c'; cases c'
        rw [ih d]
      | other d _ => exact absurd a d
    | other a _ ih =>
      cases h' with
      | useless b _ => exact absurd b a
      | id b _ _ _ => exact absurd b a
      | other _ d => exact ih d
  have := hu h3 (hs n attrs h2 (by simp))
  cases this

/-- The result of a call, if it is one, and those of later calls. -/
def pairThen {α : Type} : Except Err (Option α) → List (Option α) → List (Option α)
  | .ok (some p), ps => some p :: ps
  | .ok none, ps => ps
  | .error _, ps => none :: ps

/-- One call, from any state: what it has read, and its result. -/
theorem heard_call (k : Nat) : ∀ (s : TagReader) (seen : Events) r s', After seen s → nextTag k s = some (r, s') →
    ∃ cons, s.evs = cons ++ s'.evs ∧ After (seen ++ cons) s' ∧
      ∀ ps, ToldAll (seen ++ cons) s'.evs ps →
        ToldAll seen s.evs (pairThen r ps) := by
  induction k with
  | zero => intro s seen r s' _ h; cases h
  | succ k ih =>
    rintro ⟨evs, cid, ctags⟩ seen r s' ha h
    cases evs with
    | nil =>
      cases h
      exact ⟨[], rfl, by simpa using ha, fun ps h => by simpa [pairThen] using h⟩
    | cons x rest =>
      -- events that are read and passed over, and those at which the call ends with an error
      have pass : ∀ {cid' ctags'}, nextTag k ⟨rest, cid', ctags'⟩ = some (r, s') → After (seen ++ [x]) ⟨rest, cid', ctags'⟩ →
          (∀ n, x = some (.end_ n) → ¬ Named n (str% "changeset")) → ¬ Fault seen x →
          ∃ cons, x :: rest = cons ++ s'.evs ∧ After (seen ++ cons) s' ∧ ∀ ps, ToldAll (seen ++ cons) s'.evs ps →
            ToldAll seen (x :: rest) (pairThen r ps) := by
        intro cid' ctags' hk hA hx hf
        obtain ⟨cons, h1, h2, h3⟩ := ih _ _ _ _ hA hk
        refine ⟨x :: cons, by rw [List.cons_append, ← h1], by simpa using h2, fun ps hp => .other hf hx (h3 ps (by simpa using hp))⟩
      have stop : ∀ {cid' ctags' e}, some (r, s') = some (.error e, ⟨rest, cid', ctags'⟩) → After (seen ++ [x]) ⟨rest, cid', ctags'⟩ →
          Fault seen x →
          ∃ cons, x :: rest = cons ++ s'.evs ∧ After (seen ++ cons) s' ∧ ∀ ps, ToldAll (seen ++ cons) s'.evs ps →
            ToldAll seen (x :: rest) (pairThen r ps) := by
        intro cid' ctags' e hk hA hx
        cases hk
        exact ⟨[x], rfl, hA, fun ps hp => .fault hx hp⟩
      cases x with
      | none =>
        refine stop (by rw [← h]; rfl) ⟨heard_snoc ha.id ?_, since_skip ha.tags ?_ ?_ ?_⟩ trivial <;> (intros; simp_all)
      | some e =>
        rcases tag_cases e with hc | ⟨nm, attrs, rfl, hnm⟩ | ⟨attrs, ho⟩ | ⟨h1, h2, h3⟩
        · obtain ⟨n, rfl, hn⟩ := hc
          have hh : ∀ o, Heard seen o → Heard (seen ++ [some (.end_ n)]) o := fun o ho => heard_snoc ho (by intros; simp_all)
          cases cid with
          | none =>
            rw [tag_closes_none ⟨n, rfl, hn⟩] at h
            cases h
            refine ⟨[_], rfl, ⟨hh _ ha.id, since_skip ha.tags ?_ ?_ fun _ _ _ => ha.id⟩, fun ps hp => .fault (.inr (.inr ⟨⟨n, rfl, hn⟩, ha.id⟩)) hp⟩
            · rintro _ _ he ⟨m, h | h, _⟩ <;> cases he <;> cases h
            · intro _ _ he; cases he
          | some id =>
            rw [tag_closes_some ⟨n, rfl, hn⟩] at h
            cases h
            exact ⟨[_], rfl, ⟨hh _ ha.id, _, [], (List.append_nil _).symm, .stop hn (not_silent ha.id), .nil,
              fun a n b h => by cases a <;> cases h⟩, fun ps hp => .pair hn ha.id ha.tags hp⟩
        · obtain ⟨o, g1, g2, g3, g4⟩ := announced_of attrs
          rw [tag_start hnm] at h
          have hid := heard_start ha.id hnm g1
          have e1 := g2 cid
          cases hi : idAttrs cid attrs with
          | mk id' res =>
            rw [hi] at h e1
            simp only at e1
            cases res with
            | ok u =>
              have hcl := g4 cid (by rw [hi])
              refine pass h ⟨by rw [e1]; exact hid, _, [], (List.append_nil _).symm, .start hnm hcl, .nil,
                fun a n b h => by cases a <;> cases h⟩ ?_ ?_
              · intro _ he; cases he
              · rintro (⟨_, _, he, _, hc⟩ | ⟨_, ⟨m, he | he, hm⟩, _⟩ | ⟨⟨_, he, _⟩, _⟩)
                · cases he; exact hc hcl
                · cases he; exact tag_not_cs hm hnm
                · cases he
                · cases he
            | error er =>
              have hcl := g3 ⟨cid, er, by rw [hi]⟩
              refine stop h.symm ⟨by rw [e1]; exact hid, since_skip ha.tags ?_ ?_ ?_⟩ (.inl ⟨_, _, rfl, hnm, hcl⟩)
              · rintro _ _ he ⟨m, h | h, hm⟩
                · cases he; cases h; exact absurd hnm (tag_not_cs hm)
                · cases he; cases h
              · intro _ _ he _; cases he; exact hcl
              · intro _ he; cases he
        · have hns : ∀ n a, some e = some (.start n a) → ¬ Named n (str% "changeset") := by
            intro n a he hn
            cases he
            obtain ⟨m, h | h, hm⟩ := ho
            · cases h; exact tag_not_cs hm hn
            · cases h
          have hne : ∀ n, some e ≠ some (.end_ n) := by
            intro n he
            cases he
            obtain ⟨m, h | h, hm⟩ := ho <;> cases h
          rw [tag_tag ho] at h
          rcases tagOf_cases attrs with ⟨⟨er, ht⟩, hb⟩ | ⟨k, v, ht, hnb, -, -⟩
          · rw [ht] at h
            refine stop h.symm ⟨heard_snoc ha.id fun n a he hn => absurd hn (hns n a he), since_skip ha.tags ?_
              (fun n a he hn => absurd hn (hns n a he)) fun n he => absurd he (hne n)⟩ (.inr (.inl ⟨attrs, ho, hb⟩))
            intro e' a he hoa
            cases he
            have : a = attrs := by
              obtain ⟨m, h | h, _⟩ := ho <;> obtain ⟨m', h' | h', _⟩ := hoa <;> rw [h] at h' <;> cases h' <;> rfl
            rw [this]; exact hb
          · obtain ⟨hk, hv⟩ := tagOf_last ht
            rw [ht] at h
            refine pass h ⟨heard_snoc ha.id fun n a he hn => absurd hn (hns n a he), since_tag ha.tags ho hnb hk hv⟩
              (fun n he => absurd he (hne n)) ?_
            rintro (⟨_, _, he, hn, _⟩ | ⟨a, hoa, hb⟩ | ⟨⟨_, he, _⟩, _⟩)
            · exact hns _ _ (congrArg some he) hn
            · have : a = attrs := by
                obtain ⟨m, h | h, _⟩ := ho <;> obtain ⟨m', h' | h', _⟩ := hoa <;> rw [h] at h' <;> cases h' <;> rfl
              exact hnb (this ▸ hb)
            · exact hne _ (congrArg some he)
        · rw [tag_skip h1 h2 h3] at h
          refine pass h ⟨heard_snoc ha.id ?_, since_skip ha.tags ?_ ?_ ?_⟩ ?_ ?_
          · intro n a he hn; cases he; exact absurd hn (h2 _ _ rfl)
          · intro e' a he hoa; cases he; exact absurd hoa (h3 a)
          · intro n a he hn; cases he; exact absurd hn (h2 _ _ rfl)
          · intro n he hn; cases he; exact absurd ⟨n, rfl, hn⟩ h1
          · intro n he hn; cases he; exact h1 ⟨n, rfl, hn⟩
          · rintro (⟨_, _, he, hn, _⟩ | ⟨a, hoa, _⟩ | ⟨hc, _⟩)
            · exact h2 _ _ he hn
            · exact h3 a hoa
            · exact h1 hc

theorem returns_none {k : Nat} {s s' : TagReader} (h : nextTag k s = some (.ok none, s')) : s'.evs = [] := by
  induction k generalizing s with
  | zero => cases h
  | succ k ih =>
    obtain ⟨evs, cid, ctags⟩ := s
    cases evs with
    | nil => cases h; rfl
    | cons x rest =>
      cases x with
      | none => cases h
      | some e =>
        rcases tag_cases e with hc | ⟨nm, attrs, rfl, hnm⟩ | ⟨attrs, ho⟩ | ⟨h1, h2, h3⟩
        · cases cid with
          | none => rw [tag_closes_none hc] at h; cases h
          | some id => rw [tag_closes_some hc] at h; cases h
        · rw [tag_start hnm] at h
          cases hi : idAttrs cid attrs with
          | mk id' res =>
            rw [hi] at h
            cases res with
            | ok u => exact ih h
            | error er => cases h
        · rw [tag_tag ho] at h
          cases ht : tagOf attrs with
          | ok kv => rw [ht] at h; exact ih h
          | error er => rw [ht] at h; cases h
        · rw [tag_skip h1 h2 h3] at h
          exact ih h

theorem heard_results {s s' : TagReader} {rs : List (Except Err (UInt64 × List (Str × Str)))} (h : Results nextTag s rs s') :
    ∀ seen, After seen s → ToldAll seen s.evs (rs.map Except.toOption) := by
  induction h with
  | done h =>
    intro seen ha
    obtain ⟨k, h⟩ := h
    obtain ⟨cons, h1, h2, h3⟩ := heard_call k _ _ _ _ ha h
    have h4 := returns_none h
    rw [h4] at h3
    exact h3 [] .nil
  | ok h _ ih =>
    intro seen ha
    obtain ⟨k, h⟩ := h
    obtain ⟨cons, h1, h2, h3⟩ := heard_call k _ _ _ _ ha h
    exact h3 _ (ih _ h2)
  | err h _ ih =>
    intro seen ha
    obtain ⟨k, h⟩ := h
    obtain ⟨cons, h1, h2, h3⟩ := heard_call k _ _ _ _ ha h
    exact h3 _ (ih _ h2)

theorem told_of_all {seen evs : Events} {ps : List (Option (UInt64 × List (Str × Str)))} (h : ToldAll seen evs ps) :
    Told seen evs (ps.filterMap id) := by
  induction h with
  | nil => exact .nil
  | pair h1 h2 h3 _ ih => exact .pair h1 h2 h3 ih
  | @fault seen x evs ps hf _ ih =>
    by_cases hx : ∃ n, x = some (.end_ n) ∧ Named n (str% "changeset")
    · obtain ⟨n, rfl, hn⟩ := hx
      rcases hf with ⟨_, _, he, _⟩ | ⟨_, ⟨m, he | he, _⟩, _⟩ | ⟨_, hs⟩
      · cases he
      · cases he
      · cases he
      · exact .unheard hn hs ih
    · exact .other (fun n he hn => hx ⟨n, he, hn⟩) ih
  | other _ h2 _ ih => exact .other h2 ih

theorem oks_eq {α : Type} (rs : List (Except Err α)) : (rs.map Except.toOption).filterMap id = oks rs := by
  unfold oks
  rw [List.filterMap_map]
  congr 1
  funext r
  cases r <;> rfl

/-- **C56.** The reader of tags, for every sequence of events: calls until `Ok(None)` return, errors aside, one pair for each end of a
changeset before which an id was heard, in order. Its id is the one heard last, that of the latest changeset element that gives one,
whether or not that element is the one that ends here. Its tags are those since the latest start of a changeset with readable
attributes or the previous pair. -/
theorem C56_tags_exact (evs : Events) :
    (∃ rs s', Results nextTag (newTagReader evs) rs s') ∧
    ∀ rs s', Results nextTag (newTagReader evs) rs s' → Told [] evs (oks rs) := by
  refine ⟨?_, fun rs s' h => oks_eq rs ▸ told_of_all (heard_results h [] (after_new evs))⟩
  suffices ∀ n (s : TagReader), s.evs.length ≤ n → ∃ rs s', Results nextTag s rs s' from this _ _ (Nat.le_refl _)
  intro n
  induction n with
  | zero =>
    intro s hs
    obtain ⟨r, s', h1, h2, h3⟩ := C55_tags s
    by_cases hr : r = .ok none
    · subst hr; exact ⟨[], s', .done h1⟩
    · have := h3 hr; omega
  | succ n ih =>
    intro s hs
    obtain ⟨r, s', h1, h2, h3⟩ := C55_tags s
    by_cases hr : r = .ok none
    · subst hr; exact ⟨[], s', .done h1⟩
    · obtain ⟨rs, s2, h⟩ := ih s' (by have := h3 hr; omega)
      rcases r with e | (_ | p)
      · exact ⟨_, s2, .err h1 h⟩
      · exact absurd rfl hr
      · exact ⟨_, s2, .ok h1 h⟩

/-- An element with an id, one without and an end tag too many: the same id three times, the tags each once. -/
example (b : Events) (hb : b = [some (.start (CsEx.nm (str% "changeset")) [CsEx.at_ (str% "id") (str% "7")])] ++ CsEx.body7 ++
      [some (.end_ (CsEx.nm (str% "changeset"))), some (.start (CsEx.nm (str% "changeset")) [])] ++ CsEx.body7 ++
      [some (.end_ (CsEx.nm (str% "changeset"))), some (.end_ (CsEx.nm (str% "changeset")))]) :
    ∃ rs s', Results nextTag (newTagReader b) rs s' ∧
      rs = [.ok (7, [(str% "comment", str% "it's")]), .ok (7, [(str% "comment", str% "it's")]), .ok (7, [])] := by
  subst hb
  exact ⟨_, ⟨[], some 7, []⟩,
    .ok (s1 := ⟨[some (.start (CsEx.nm (str% "changeset")) [])] ++ CsEx.body7 ++
      [some (.end_ (CsEx.nm (str% "changeset"))), some (.end_ (CsEx.nm (str% "changeset")))], some 7, []⟩) ⟨20, rfl⟩
    (.ok (s1 := ⟨[some (.end_ (CsEx.nm (str% "changeset")))], some 7, []⟩) ⟨20, rfl⟩
    (.ok (s1 := ⟨[], some 7, []⟩) ⟨20, rfl⟩ (.done ⟨20, rfl⟩))), rfl⟩

end Osmio
