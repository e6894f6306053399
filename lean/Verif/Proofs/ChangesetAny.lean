import Verif.Spec.ChangesetAny
import Verif.Proofs.ChangesetReaders
/-! The results of the changeset reader for any sequence of events. -/

namespace Osmio.Changesets
open QuickXml Spec.Cs

/-! ## The last attribute -/

theorem lacks_nil (name : Str) : Lacks [] name := fun _ h => absurd h List.not_mem_nil

theorem lacks_cons {a : Attr} {attrs : Attrs} {name : Str} (h1 : ¬ Named a.key name) (h2 : Lacks attrs name) : Lacks (some a :: attrs) name := by
  intro x hx
  rcases List.mem_cons.1 hx with h | h
  · cases h; exact h1
  · exact h2 x h

theorem last_mem {attrs : Attrs} {name : Str} {a : Attr} (h : Last attrs name a) : some a ∈ attrs ∧ Named a.key name := by
  obtain ⟨pre, post, rfl, h1, -⟩ := h
  exact ⟨by simp, h1⟩

theorem last_not_lacks {attrs : Attrs} {name : Str} {a : Attr} (h : Last attrs name a) : ¬ Lacks attrs name :=
  fun hl => hl a (last_mem h).1 (last_mem h).2

theorem last_unique {attrs : Attrs} {name : Str} {a a' : Attr} (h : Last attrs name a) (h' : Last attrs name a') : a = a' := by
  obtain ⟨pre, post, rfl, h1, h2⟩ := h
  obtain ⟨pre', post', he, h1', h2'⟩ := h'
  rcases List.append_eq_append_iff.1 he with ⟨c, hc1, hc2⟩ | ⟨c, hc1, hc2⟩
  · cases c with
    | nil => simp only [List.nil_append, List.cons.injEq, Option.some.injEq] at hc2; exact hc2.1
    | cons x c =>
      simp only [List.cons_append, List.cons.injEq] at hc2
      exact absurd h1' (h2 a' (by rw [hc2.2]; simp))
  · cases c with
    | nil => simp only [List.nil_append, List.cons.injEq, Option.some.injEq] at hc2; exact hc2.1.symm
    | cons x c =>
      simp only [List.cons_append, List.cons.injEq] at hc2
      exact absurd h1 (h2' a (by rw [hc2.2]; simp))

/-- What a list of attributes gives for one field. -/
def LField {α : Type} (attrs : Attrs) (name : Str) (val : Attr → Option α) (old new : Option α) : Prop :=
  (Lacks attrs name ∧ new = old) ∨ ∃ a, Last attrs name a ∧ val a = new

theorem LField.nil {α : Type} {name : Str} {val : Attr → Option α} {old : Option α} : LField [] name val old old :=
  .inl ⟨lacks_nil _, rfl⟩

theorem LField.cons {α : Type} {attrs : Attrs} {name : Str} {val : Attr → Option α} {old mid new : Option α} {a : Attr}
    (h1 : mid = if Named a.key name then val a else old) (h2 : LField attrs name val mid new) :
    LField (some a :: attrs) name val old new := by
  rcases h2 with ⟨hl, rfl⟩ | ⟨x, ⟨pre, post, rfl, hn, hp⟩, hv⟩
  · by_cases hn : Named a.key name
    · rw [if_pos hn] at h1
      exact .inr ⟨a, ⟨[], attrs, rfl, hn, hl⟩, h1.symm⟩
    · rw [if_neg hn] at h1
      exact .inl ⟨lacks_cons hn hl, h1⟩
  · exact .inr ⟨x, ⟨some a :: pre, post, rfl, hn, hp⟩, hv⟩

theorem LField.none_lacks {α : Type} {attrs : Attrs} {name : Str} {val : Attr → Option α}
    (hf : LField attrs name val none none) (hr : ∀ a, Option.some a ∈ attrs → Named a.key name → val a ≠ none) :
    Lacks attrs name := by
  rcases hf with ⟨hl, _⟩ | ⟨a, ha, hva⟩
  · exact hl
  · exact absurd hva (hr a (last_mem ha).1 (last_mem ha).2)

theorem LField.get {α : Type} {attrs : Attrs} {name : Str} {val : Attr → Option α} {x : α}
    (hf : LField attrs name val none (Option.some x)) : ∃ a, Last attrs name a ∧ val a = Option.some x := by
  rcases hf with ⟨_, h⟩ | h
  · cases h
  · exact h

structure LFields (attrs : Attrs) (b b' : Builder) : Prop where
  id : LField attrs (str% "id") (numVal parseU32) b.id b'.id
  created : LField attrs (str% "created_at") isoVal b.created b'.created
  closed : LField attrs (str% "closed_at") isoVal b.closed b'.closed
  isOpen : LField attrs (str% "open") openVal b.isOpen b'.isOpen
  user : LField attrs (str% "user") Attr.normalizedValue b.user b'.user
  uid : LField attrs (str% "uid") (numVal parseI64) b.uid b'.uid
  numChanges : LField attrs (str% "num_changes") (numVal parseU64) b.numChanges b'.numChanges
  commentsCount : LField attrs (str% "comments_count") (numVal parseU64) b.commentsCount b'.commentsCount

theorem setAttrs_last (attrs : Attrs) : ∀ b b' : Builder, setAttrs b attrs = .ok b' → LFields attrs b b' := by
  induction attrs with
  | nil => intro b b' h; cases h; exact ⟨.nil, .nil, .nil, .nil, .nil, .nil, .nil, .nil⟩
  | cons o r ih =>
    intro b b' h
    cases o with
    | none => cases h
    | some a =>
      unfold setAttrs at h
      rcases setAttr_cases b a with ⟨⟨e, h'⟩, hu⟩ | ⟨b1, h', hu, g0, g1, g2, g3, g4, g5, g6, g7, g8⟩
      · rw [h'] at h; cases h
      · rw [h'] at h
        have hf := ih b1 b' h
        exact ⟨.cons g1 hf.id, .cons g2 hf.created, .cons g3 hf.closed,
            .cons g4 hf.isOpen, .cons g5 hf.user, .cons g6 hf.uid, .cons g7 hf.numChanges, .cons g8 hf.commentsCount⟩

theorem tagAttrs_last (attrs : Attrs) : ∀ kv kv', tagAttrs kv attrs = .ok kv' →
    LField attrs (str% "k") Attr.normalizedValue kv.1 kv'.1 ∧ LField attrs (str% "v") Attr.normalizedValue kv.2 kv'.2 := by
  induction attrs with
  | nil => intro kv kv' h; cases h; exact ⟨.nil, .nil⟩
  | cons o r ih =>
    intro kv kv' h
    cases o with
    | none => cases h
    | some a =>
      unfold tagAttrs at h
      rcases tagAttr_cases kv a with ⟨⟨e, h'⟩, -⟩ | ⟨kv1, h', -, g1, g2⟩
      · rw [h'] at h; cases h
      · rw [h'] at h
        obtain ⟨f1, f2⟩ := ih kv1 kv' h
        exact ⟨.cons g1 f1, .cons g2 f2⟩

theorem tagOf_last {attrs : Attrs} {k v : Str} (h : tagOf attrs = .ok (k, v)) : LastHas attrs (str% "k") k ∧ LastHas attrs (str% "v") v := by
  unfold tagOf at h
  split at h
  · rename_i k' v' ht
    cases h
    obtain ⟨f1, f2⟩ := tagAttrs_last attrs _ _ ht
    obtain ⟨a, h1, h2⟩ := f1.get
    obtain ⟨a', h1', h2'⟩ := f2.get
    exact ⟨⟨a, h1, bytes_of h2⟩, a', h1', bytes_of h2'⟩
  all_goals cases h

theorem lastHas_unique {attrs : Attrs} {name s s' : Str} (h : LastHas attrs name s) (h' : LastHas attrs name s') : s = s' := by
  obtain ⟨a, h1, h2⟩ := h
  obtain ⟨a', h1', h2'⟩ := h'
  cases last_unique h1 h1'
  rw [← normalizedValue_iff] at h2 h2'
  rw [h2] at h2'
  exact Option.some.inj h2'

theorem lastNum_unique {α : Type} {f : Str → Option α} {attrs : Attrs} {name : Str} {x x' : α} (h : ∃ s, LastHas attrs name s ∧ f s = some x)
    (h' : ∃ s, LastHas attrs name s ∧ f s = some x') : x = x' := by
  obtain ⟨s, h1, h2⟩ := h
  obtain ⟨s', h1', h2'⟩ := h'
  cases lastHas_unique h1 h1'
  rw [h2] at h2'
  exact Option.some.inj h2'

theorem lastOpt_unique {α : Type} {f : Str → Option α} {attrs : Attrs} {name : Str} {o o' : Option α} (h : LastOpt attrs name f o)
    (h' : LastOpt attrs name f o') : o = o' := by
  cases o with
  | none =>
    cases o' with
    | none => rfl
    | some x => obtain ⟨s, ⟨a, h1, -⟩, -⟩ := h'; exact absurd h (last_not_lacks h1)
  | some x =>
    cases o' with
    | none => obtain ⟨s, ⟨a, h1, -⟩, -⟩ := h; exact absurd h' (last_not_lacks h1)
    | some y => rw [lastNum_unique h h']

theorem gives_unique {attrs : Attrs} {d d' : Data} (h : Gives attrs d) (h' : Gives attrs d') (ht : d.tags = d'.tags) : d = d' := by
  have e1 := lastNum_unique h.id h'.id
  have e2 := lastHas_unique h.created h'.created
  have e3 := lastOpt_unique h.closed h'.closed
  have e4 : d.isOpen = d'.isOpen := by
    obtain ⟨a, h1, h2⟩ := h.isOpen
    obtain ⟨a', h1', h2'⟩ := h'.isOpen
    cases last_unique h1 h1'
    rw [h2] at h2'
    revert h2'
    cases d.isOpen <;> cases d'.isOpen <;> decide +kernel
  have e5 := lastOpt_unique h.uid h'.uid
  have e6 := lastOpt_unique h.user h'.user
  have e7 := lastNum_unique h.numChanges h'.numChanges
  have e8 := lastNum_unique h.commentsCount h'.commentsCount
  obtain ⟨a1, a2, a3, a4, a5, a6, a7, a8, a9⟩ := d
  obtain ⟨c1, c2, c3, c4, c5, c6, c7, c8, c9⟩ := d'
  simp only at *
  subst e1 e2 e3 e4 e5 e6 e7 e8 ht
  rfl

theorem gives_tags {attrs : Attrs} {d : Data} (h : Gives attrs d) (tags : List (Str × Str)) : Gives attrs { d with tags := tags } :=
  ⟨h.id, h.created, h.closed, h.isOpen, h.uid, h.user, h.numChanges, h.commentsCount⟩

theorem built_last {attrs : Attrs} {b : Builder} (h : setAttrs {} attrs = .ok b) :
    (∃ d, Gives attrs d ∧ ∀ tags, built b tags = .ok (some (ofData d tags))) ∨
    (∃ name ∈ required, Lacks attrs name) ∧ ∀ tags, ∃ e, built b tags = .error e := by
  have hf := setAttrs_last attrs _ _ h
  rcases built_cases h with ⟨d, hd, hb⟩ | h2
  · refine .inl ⟨d, ?_, hb⟩
    have rd : ∀ (a : Attr), some a ∈ attrs → ¬ Unreadable a := by
      rcases setAttrs_cases attrs {} with ⟨⟨e, he⟩, _⟩ | ⟨b', hb', hn, hr, -⟩
      · rw [h] at he; cases he
      · exact hr
    have hb := hb []
    unfold built Builder.build ofData at hb
    have e : b.id = some d.id ∧ b.created = some (.iso d.created) ∧ b.isOpen = some d.isOpen ∧ b.numChanges = some d.numChanges ∧
        b.commentsCount = some d.commentsCount ∧ b.closed = d.closed.map .iso ∧ b.uid = d.uid ∧ b.user = d.user := by
      revert hb
      cases b.id <;> cases b.created <;> cases b.isOpen <;> cases b.numChanges <;> cases b.commentsCount <;>
        simp [Except.map]
      intros; simp_all
    obtain ⟨e1, e2, e3, e4, e5, e6, e7, e8⟩ := e
    have f1 := hf.id; rw [e1] at f1
    have f2 := hf.created; rw [e2] at f2
    have f3 := hf.isOpen; rw [e3] at f3
    have f4 := hf.numChanges; rw [e4] at f4
    have f5 := hf.commentsCount; rw [e5] at f5
    have f6 := hf.closed; rw [e6] at f6
    have f7 := hf.uid; rw [e7] at f7
    have f8 := hf.user; rw [e8] at f8
    have num : ∀ {α : Type} {name : Str} {f : Str → Option α} {x : α},
        LField attrs name (numVal f) none (some x) → ∃ s, LastHas attrs name s ∧ f s = some x := by
      intro α name f x hf
      obtain ⟨a, ha, hv⟩ := hf.get
      obtain ⟨s, h1, h2⟩ := numVal_some hv
      exact ⟨s, ⟨a, ha, bytes_of h1⟩, h2⟩
    have iso : ∀ {name : Str} {s : Str}, LField attrs name isoVal none (some (.iso s)) → LastHas attrs name s := by
      intro name x hf
      obtain ⟨a, ha, hv⟩ := hf.get
      unfold isoVal at hv
      obtain ⟨s, h1, h2⟩ := Option.map_eq_some_iff.mp hv
      cases h2
      exact ⟨a, ha, bytes_of h1⟩
    refine ⟨num f1, iso f2, ?_, ?_, ?_, ?_, num f4, num f5⟩
    · cases hc : d.closed with
      | none => have := hd.closed; rw [hc] at this; exact this
      | some s => rw [hc] at f6; exact ⟨s, iso f6, rfl⟩
    · obtain ⟨a, ha, hv⟩ := f3.get
      refine ⟨a, ha, ?_⟩
      unfold openVal at hv
      split at hv
      · rw [← Option.some.inj hv]; assumption
      · split at hv
        · rw [← Option.some.inj hv]; assumption
        · cases hv
    · cases hc : d.uid with
      | none => have := hd.uid; rw [hc] at this; exact this
      | some s => rw [hc] at f7; exact num f7
    · cases hc : d.user with
      | none => have := hd.user; rw [hc] at this; exact this
      | some s =>
        rw [hc] at f8
        obtain ⟨a, ha, hv⟩ := f8.get
        exact ⟨s, ⟨a, ha, bytes_of hv⟩, rfl⟩
  · exact .inr h2

theorem setAttrs_readable {attrs : Attrs} (h : Readable attrs) : ∃ b, setAttrs {} attrs = .ok b := by
  rcases setAttrs_cases attrs {} with ⟨_, h1 | ⟨a, h1, h2⟩⟩ | ⟨b, hb, -⟩
  · exact absurd h1 h.1
  · exact absurd h2 (h.2 a h1)
  · exact ⟨b, hb⟩

theorem setAttrs_unreadable {attrs : Attrs} (h : ¬ Readable attrs) : ∃ e, setAttrs {} attrs = .error e := by
  rcases setAttrs_cases attrs {} with ⟨he, _⟩ | ⟨b, hb, h1, h2, -⟩
  · exact he
  · exact absurd ⟨h1, h2⟩ h

/-- The answer of a call with this result. -/
def answerOf : Except Err Changeset → Except Err (Option Changeset)
  | .ok c => .ok (some c)
  | .error e => .error e

/-- The result for an element with readable attributes. -/
theorem amounts_built {attrs : Attrs} {b : Builder} (h : setAttrs {} attrs = .ok b) {tags : List (Str × Str)} {o : Option Data}
    (ha : Amounts attrs tags o) : ∃ r, built b (tags.foldl (fun m p => m.insert p.1 p.2) []) = answerOf r ∧ Fits r o := by
  cases o with
  | none =>
    rcases built_last h with ⟨d, hd, -⟩ | ⟨-, hb⟩
    · exfalso
      obtain ⟨name, hn, hl⟩ := ha
      simp only [required, List.mem_cons, List.not_mem_nil, or_false] at hn
      rcases hn with rfl | rfl | rfl | rfl | rfl
      · obtain ⟨s, ⟨a, h1, -⟩, -⟩ := hd.id; exact last_not_lacks h1 hl
      · obtain ⟨a, h1, -⟩ := hd.created; exact last_not_lacks h1 hl
      · obtain ⟨a, h1, -⟩ := hd.isOpen; exact last_not_lacks h1 hl
      · obtain ⟨s, ⟨a, h1, -⟩, -⟩ := hd.numChanges; exact last_not_lacks h1 hl
      · obtain ⟨s, ⟨a, h1, -⟩, -⟩ := hd.commentsCount; exact last_not_lacks h1 hl
    · obtain ⟨e, he⟩ := hb (tags.foldl (fun m p => m.insert p.1 p.2) [])
      exact ⟨.error e, he, trivial⟩
  | some d =>
    obtain ⟨hg, ht⟩ := ha
    rcases built_last h with ⟨d', hd, hb⟩ | ⟨⟨name, hn, hl⟩, -⟩
    · have e : d = { d' with tags := tags } := gives_unique hg (gives_tags hd tags) ht
      refine ⟨.ok (ofData d' _), hb _, ?_⟩
      have : ofData d' (tags.foldl (fun m p => m.insert p.1 p.2) []) = ofData d (tags.foldl (fun m p => m.insert p.1 p.2) []) := by
        rw [e]; rfl
      rw [this]
      exact shows_ofData ht
    · exfalso
      simp only [required, List.mem_cons, List.not_mem_nil, or_false] at hn
      rcases hn with rfl | rfl | rfl | rfl | rfl
      · obtain ⟨s, ⟨a, h1, -⟩, -⟩ := hg.id; exact last_not_lacks h1 hl
      · obtain ⟨a, h1, -⟩ := hg.created; exact last_not_lacks h1 hl
      · obtain ⟨a, h1, -⟩ := hg.isOpen; exact last_not_lacks h1 hl
      · obtain ⟨s, ⟨a, h1, -⟩, -⟩ := hg.numChanges; exact last_not_lacks h1 hl
      · obtain ⟨s, ⟨a, h1, -⟩, -⟩ := hg.commentsCount; exact last_not_lacks h1 hl

theorem amounts_exists {attrs : Attrs} (h : Readable attrs) (tags : List (Str × Str)) : ∃ o, Amounts attrs tags o := by
  obtain ⟨b, hb⟩ := setAttrs_readable h
  rcases built_last hb with ⟨d, hd, -⟩ | ⟨h1, -⟩
  · exact ⟨some { d with tags := tags }, gives_tags hd tags, rfl⟩
  · exact ⟨none, h1⟩

/-! ## Tags -/

theorem inner_readTags {evs : Events} {o : Option (List (Str × Str))} {rest : Events} (h : Inner evs o rest) :
    ∃ n, match o with
      | some tags => ∀ m, readTags n m evs = some (.ok (tags.foldl (fun m p => m.insert p.1 p.2) m), rest)
      | none => ∃ e, ∀ m, readTags n m evs = some (.error e, rest) := by
  induction h with
  | close hc => exact ⟨1, fun m => readTags_closes hc 0 m _⟩
  | broken => exact ⟨1, .xml, fun m => rfl⟩
  | @badTag e attrs rest ho hb =>
    rcases tagOf_cases attrs with ⟨⟨er, ht⟩, -⟩ | ⟨k, v, ht, hnb, -, -⟩
    · exact ⟨1, er, fun m => by rw [readTags_tag ho, ht]⟩
    · exact absurd hb hnb
  | @tag e attrs k v evs o rest ho hb hk hv _ ih =>
    have ht : tagOf attrs = .ok (k, v) := by
      rcases tagOf_cases attrs with ⟨-, hb'⟩ | ⟨k', v', ht, -⟩
      · exact absurd hb' hb
      · obtain ⟨h1, h2⟩ := tagOf_last ht
        rw [ht, lastHas_unique h1 hk, lastHas_unique h2 hv]
    obtain ⟨n, hn⟩ := ih
    refine ⟨n + 1, ?_⟩
    cases o with
    | none =>
      obtain ⟨er, he⟩ := hn
      exact ⟨er, fun m => by rw [readTags_tag ho, ht]; exact he _⟩
    | some tags =>
      intro m
      rw [readTags_tag ho, ht]
      exact hn _
  | @other e evs o rest h1 h2 _ ih =>
    obtain ⟨n, hn⟩ := ih
    refine ⟨n + 1, ?_⟩
    cases o with
    | none =>
      obtain ⟨er, he⟩ := hn
      exact ⟨er, fun m => by rw [readTags_skip h1 h2]; exact he _⟩
    | some tags =>
      intro m
      rw [readTags_skip h1 h2]
      exact hn _

theorem inner_or_never (evs : Events) : (∃ o rest, Inner evs o rest ∧ rest.length < evs.length) ∨ ∀ n m, readTags n m evs = none := by
  induction evs with
  | nil => exact .inr fun n m => readTags_nil n m
  | cons x evs ih =>
    cases x with
    | none => exact .inl ⟨_, _, .broken, by simp⟩
    | some e =>
      rcases event_cases e with hc | ⟨attrs, ho⟩ | ⟨h1, h2⟩
      · exact .inl ⟨_, _, .close hc, by simp⟩
      · rcases tagOf_cases attrs with ⟨-, hb⟩ | ⟨k, v, ht, hnb, -, -⟩
        · exact .inl ⟨_, _, .badTag ho hb, by simp⟩
        · obtain ⟨hk, hv⟩ := tagOf_last ht
          rcases ih with ⟨o, rest, hi, hl⟩ | hn
          · exact .inl ⟨_, _, .tag ho hnb hk hv hi, by simp only [List.length_cons]; omega⟩
          · refine .inr fun n m => ?_
            cases n with
            | zero => rfl
            | succ n => rw [readTags_tag ho, ht]; exact hn _ _
      · rcases ih with ⟨o, rest, hi, hl⟩ | hn
        · exact .inl ⟨_, _, .other h1 h2 hi, by simp only [List.length_cons]; omega⟩
        · refine .inr fun n m => ?_
          cases n with
          | zero => rfl
          | succ n => rw [readTags_skip h1 h2]; exact hn _ _

/-! ## Changesets -/

theorem results_answer {evs rest s' : Events} {r : Except Err Changeset} {rs : List (Except Err Changeset)}
    (h : Returns nextChangeset evs (answerOf r) rest) (hr : Results nextChangeset rest rs s') : Results nextChangeset evs (r :: rs) s' := by
  cases r with
  | ok c => exact .ok h hr
  | error e => exact .err h hr

theorem shown_results {evs : Events} {ds : List (Option Data)} (h : Shown evs ds) :
    ∃ rs, Results nextChangeset evs rs [] ∧ List.Forall₂ Fits rs ds := by
  induction h with
  | nil => exact ⟨[], .done ⟨1, rfl⟩, .nil⟩
  | broken _ ih =>
    obtain ⟨rs, h1, h2⟩ := ih
    exact ⟨_, .err ⟨1, rfl⟩ h1, .cons trivial h2⟩
  | other ho _ ih =>
    obtain ⟨rs, h1, h2⟩ := ih
    exact ⟨rs, Results.skip ho h1, h2⟩
  | @unreadable e attrs evs ds ho hr _ ih =>
    obtain ⟨rs, h1, h2⟩ := ih
    obtain ⟨er, he⟩ := setAttrs_unreadable hr
    obtain ⟨n, rfl | rfl, hn⟩ := ho
    · exact ⟨_, .err (e := er) ⟨1, by rw [next_start hn, he]⟩ h1, .cons trivial h2⟩
    · exact ⟨_, .err (e := er) ⟨1, by rw [next_empty hn, he]⟩ h1, .cons trivial h2⟩
  | @short n attrs o evs ds hn hr ha _ ih =>
    obtain ⟨rs, h1, h2⟩ := ih
    obtain ⟨b, hb⟩ := setAttrs_readable hr
    obtain ⟨r, hr, hf⟩ := amounts_built hb ha
    exact ⟨_, results_answer ⟨1, by rw [next_empty hn, hb, ← hr]; rfl⟩ h1, .cons hf h2⟩
  | @full n attrs o tags evs rest ds hn hr hi ha _ ih =>
    obtain ⟨rs, h1, h2⟩ := ih
    obtain ⟨b, hb⟩ := setAttrs_readable hr
    obtain ⟨r, hr, hf⟩ := amounts_built hb ha
    obtain ⟨k, hk⟩ := inner_readTags hi
    simp only at hk
    exact ⟨_, results_answer ⟨k + 1, by rw [next_start hn, hb, ← hr]; simp only; rw [hk]⟩ h1, .cons hf h2⟩
  | @stopped n attrs evs rest ds hn hr hi _ ih =>
    obtain ⟨rs, h1, h2⟩ := ih
    obtain ⟨b, hb⟩ := setAttrs_readable hr
    obtain ⟨k, e, hk⟩ := inner_readTags hi
    exact ⟨_, .err (e := e) ⟨k + 1, by rw [next_start hn, hb]; simp only; rw [hk]⟩ h1, .cons trivial h2⟩

theorem results_tail {evs rest s' : Events} {r : Except Err (Option Changeset)} {rs : List (Except Err Changeset)}
    (h : Returns nextChangeset evs r rest) (hr : r ≠ .ok none) (hs : Results nextChangeset evs rs s') : ∃ rs', Results nextChangeset rest rs' s' := by
  cases hs with
  | done h' => exact absurd (returns_unique next_mono h h').1 hr
  | ok h' hs' => cases (returns_unique next_mono h h').2; exact ⟨_, hs'⟩
  | err h' hs' => cases (returns_unique next_mono h h').2; exact ⟨_, hs'⟩

theorem answerOf_ne (r : Except Err Changeset) : answerOf r ≠ .ok none := by
  cases r <;> nofun

theorem shown_or_never (n : Nat) : ∀ evs : Events, evs.length ≤ n → (∃ ds, Shown evs ds) ∨ ∀ rs s', ¬ Results nextChangeset evs rs s' := by
  induction n with
  | zero =>
    intro evs h
    rw [List.length_eq_zero_iff.1 (Nat.le_zero.1 h)]
    exact .inl ⟨_, .nil⟩
  | succ n ih =>
    intro evs h
    cases evs with
    | nil => exact .inl ⟨_, .nil⟩
    | cons x evs =>
      simp only [List.length_cons] at h
      have next : ∀ {r rest}, rest.length ≤ n → Returns nextChangeset (x :: evs) r rest → r ≠ .ok none →
          (∀ ds, Shown rest ds → ∃ ds', Shown (x :: evs) ds') → (∃ ds, Shown (x :: evs) ds) ∨ ∀ rs s', ¬ Results nextChangeset (x :: evs) rs s' := by
        intro r rest hl hr hne hs
        rcases ih rest hl with ⟨ds, hd⟩ | hn
        · exact .inl (hs ds hd)
        · refine .inr fun rs s' hres => ?_
          obtain ⟨rs', hres'⟩ := results_tail hr hne hres
          exact hn _ _ hres'
      cases x with
      | none => exact next (by omega) ⟨1, rfl⟩ (by nofun) fun ds hd => ⟨_, .broken hd⟩
      | some e =>
        rcases next_cases e with ⟨nm, attrs, rfl, hn⟩ | ⟨nm, attrs, rfl, hn⟩ | ho
        · by_cases hr : Readable attrs
          · obtain ⟨b, hb⟩ := setAttrs_readable hr
            rcases inner_or_never evs with ⟨o, rest, hi, hl⟩ | hnv
            · obtain ⟨k, hk⟩ := inner_readTags hi
              cases o with
              | none =>
                obtain ⟨er, hk⟩ := hk
                exact next (r := .error er) (rest := rest) (by omega) ⟨k + 1, by rw [next_start hn, hb]; simp only; rw [hk]⟩ (by nofun)
                  fun ds hd => ⟨_, .stopped hn hr hi hd⟩
              | some tags =>
                obtain ⟨o, ho⟩ := amounts_exists hr tags
                obtain ⟨r, hr', -⟩ := amounts_built hb ho
                exact next (r := answerOf r) (rest := rest) (by omega) ⟨k + 1, by rw [next_start hn, hb, ← hr']; simp only; rw [hk]⟩
                  (answerOf_ne r) fun ds hd => ⟨_, .full hn hr hi ho hd⟩
            · refine .inr fun rs s' hres => ?_
              have hno : ∀ k, nextChangeset k (some (.start nm attrs) :: evs) = none := by
                intro k
                cases k with
                | zero => rfl
                | succ k => rw [next_start hn, hb]; simp only; rw [hnv]
              cases hres with
              | done h' => obtain ⟨k, h'⟩ := h'; rw [hno] at h'; cases h'
              | ok h' _ => obtain ⟨k, h'⟩ := h'; rw [hno] at h'; cases h'
              | err h' _ => obtain ⟨k, h'⟩ := h'; rw [hno] at h'; cases h'
          · obtain ⟨er, he⟩ := setAttrs_unreadable hr
            exact next (r := .error er) (rest := evs) (by omega) ⟨1, by rw [next_start hn, he]⟩ (by nofun)
              fun ds hd => ⟨_, .unreadable ⟨nm, .inl rfl, hn⟩ hr hd⟩
        · by_cases hr : Readable attrs
          · obtain ⟨b, hb⟩ := setAttrs_readable hr
            obtain ⟨o, ho⟩ := amounts_exists hr []
            obtain ⟨r, hr', -⟩ := amounts_built hb ho
            exact next (r := answerOf r) (rest := evs) (by omega) ⟨1, by rw [next_empty hn, hb, ← hr']; rfl⟩ (answerOf_ne r)
              fun ds hd => ⟨_, .short hn hr ho hd⟩
          · obtain ⟨er, he⟩ := setAttrs_unreadable hr
            exact next (r := .error er) (rest := evs) (by omega) ⟨1, by rw [next_empty hn, he]⟩ (by nofun)
              fun ds hd => ⟨_, .unreadable ⟨nm, .inr rfl, hn⟩ hr hd⟩
        · rcases ih evs (by omega) with ⟨ds, hd⟩ | hn
          · exact .inl ⟨_, .other ho hd⟩
          · refine .inr fun rs s' hres => ?_
            have back : ∀ {r t}, Returns nextChangeset (some e :: evs) r t → Returns nextChangeset evs r t := by
              rintro r t ⟨k, hk⟩
              cases k with
              | zero => cases hk
              | succ k => rw [next_skip ho] at hk; exact ⟨k, hk⟩
            cases hres with
            | done h' => exact hn _ _ (.done (back h'))
            | ok h' h2 => exact hn _ _ (.ok (back h') h2)
            | err h' h2 => exact hn _ _ (.err (back h') h2)

end Osmio.Changesets
