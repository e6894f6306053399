import Verif.Spec.Changesets
import Verif.Proofs.XmlValue
import Mathlib.Data.List.Nodup
/-! Lemmas about the changeset readers. -/

namespace Osmio.Changesets
open QuickXml Spec.Cs

/-! ## Values of attributes -/

theorem bytes_eq (a : Attr) (s : Str) : Spec.Value.Bytes a.value s = (a.normalizedValue = some s) :=
  propext normalizedValue_iff.symm

theorem useless_eq {α : Type} (f : Str → Option α) (a : Attr) : Useless f a = (a.normalizedValue.bind f = none) := by
  unfold Useless
  simp only [bytes_eq, eq_iff_iff]
  cases a.normalizedValue <;> simp

theorem textless_eq (a : Attr) : Textless a = (a.normalizedValue = none) := by
  unfold Textless
  simp only [bytes_eq, eq_iff_iff]
  cases a.normalizedValue <;> simp

theorem hasAttr_eq (attrs : Attrs) (name s : Str) : HasAttr attrs name s =
    ∃ a, some a ∈ attrs ∧ Named a.key name ∧ a.normalizedValue = some s := by
  simp only [HasAttr, bytes_eq]

theorem bytes_of {a : Attr} {s : Str} (h : a.normalizedValue = some s) : Spec.Value.Bytes a.value s := normalizedValue_iff.1 h

theorem useless_of {α : Type} {f : Str → Option α} {a : Attr} (h : a.normalizedValue.bind f = none) : Useless f a :=
  (useless_eq f a).mpr h

theorem textless_of {a : Attr} (h : a.normalizedValue = none) : Textless a := (textless_eq a).mpr h

/-! ## Attributes of a changeset -/

/-- What an attribute means for a field. -/
def numVal {α : Type} (p : Str → Option α) (a : Attr) : Option α := a.normalizedValue.bind p
def isoVal (a : Attr) : Option TimestampFormat := a.normalizedValue.map .iso
def openVal (a : Attr) : Option Bool :=
  if a.value = Utf8.encode (str% "true") then some true
  else if a.value = Utf8.encode (str% "false") then some false else none

theorem parsed_eq {α : Type} (p : Str → Option α) (a : Attr) :
    (∃ x, parsed p a = .ok x ∧ numVal p a = some x) ∨ (∃ e, parsed p a = .error e) ∧ numVal p a = none := by
  unfold parsed numVal
  cases a.normalizedValue with
  | none => exact .inr ⟨⟨_, rfl⟩, rfl⟩
  | some s =>
    simp only [Option.bind_some]
    cases p s with
    | none => exact .inr ⟨⟨_, rfl⟩, rfl⟩
    | some x => exact .inl ⟨x, rfl, rfl⟩

theorem value_eq (a : Attr) :
    (∃ x, value a = .ok x ∧ a.normalizedValue = some x) ∨ (∃ e, value a = .error e) ∧ a.normalizedValue = none := by
  unfold value
  cases a.normalizedValue with
  | none => exact .inr ⟨⟨_, rfl⟩, rfl⟩
  | some s => exact .inl ⟨s, rfl, rfl⟩

theorem openValue_eq (a : Attr) :
    (∃ x, openValue a = .ok x ∧ openVal a = some x) ∨ (∃ e, openValue a = .error e) ∧ openVal a = none := by
  unfold openValue openVal
  split
  · exact .inl ⟨_, rfl, rfl⟩
  · split
    · exact .inl ⟨_, rfl, rfl⟩
    · exact .inr ⟨⟨_, rfl⟩, rfl⟩

theorem openVal_none (a : Attr) : openVal a = none ↔
    a.value ≠ Utf8.encode (str% "true") ∧ a.value ≠ Utf8.encode (str% "false") := by
  unfold openVal
  split
  · simp_all
  · split <;> simp_all

/-- The names are different. -/
theorem names_ne : (List.map Utf8.encode [str% "id", str% "created_at", str% "closed_at", str% "open", str% "user",
    str% "uid", str% "num_changes", str% "comments_count"]).Nodup := by decide +kernel

/-- One attribute, by its name. -/
theorem setAttr_cases (b : Builder) (a : Attr) :
    ((∃ e, setAttr b a = .error e) ∧ Unreadable a) ∨
    ((∃ b', setAttr b a = .ok b' ∧ ¬ Unreadable a ∧
      b'.tags = b.tags ∧
      b'.id = (if Named a.key (str% "id") then numVal parseU32 a else b.id) ∧
      b'.created = (if Named a.key (str% "created_at") then isoVal a else b.created) ∧
      b'.closed = (if Named a.key (str% "closed_at") then isoVal a else b.closed) ∧
      b'.isOpen = (if Named a.key (str% "open") then openVal a else b.isOpen) ∧
      b'.user = (if Named a.key (str% "user") then a.normalizedValue else b.user) ∧
      b'.uid = (if Named a.key (str% "uid") then numVal parseI64 a else b.uid) ∧
      b'.numChanges = (if Named a.key (str% "num_changes") then numVal parseU64 a else b.numChanges) ∧
      b'.commentsCount = (if Named a.key (str% "comments_count") then numVal parseU64 a else b.commentsCount))) := by
  have hne := names_ne
  simp only [List.map_cons, List.map_nil, List.nodup_cons, List.mem_cons, List.not_mem_nil, or_false, not_or,
    not_false_eq_true, List.nodup_nil, and_true] at hne
  obtain ⟨⟨h01, h02, h03, h04, h05, h06, h07⟩, ⟨h12, h13, h14, h15, h16, h17⟩, ⟨h23, h24, h25, h26, h27⟩,
    ⟨h34, h35, h36, h37⟩, ⟨h45, h46, h47⟩, ⟨h56, h57⟩, h67⟩ := hne
  unfold setAttr Unreadable Named
  simp only [useless_eq, textless_eq]
  by_cases h0 : localName a.key = Utf8.encode (str% "id")
  · rw [if_pos h0]
    simp only [h0]
    rcases parsed_eq parseU32 a with ⟨x, h, hv⟩ | ⟨⟨e, h⟩, hv⟩
    · rw [h]; refine .inr ⟨_, rfl, ?_⟩; unfold numVal at hv
      simp only [numVal, hv, h01, h02, h03, h04, h05, h06, h07, false_and, or_false, reduceCtorEq, and_false,
        not_false_eq_true, if_false, if_true, and_self]
    · rw [h]; exact .inl ⟨⟨e, rfl⟩, .inl ⟨trivial, hv⟩⟩
  rw [if_neg h0]
  by_cases h1 : localName a.key = Utf8.encode (str% "created_at")
  · rw [if_pos h1]
    simp only [h1]
    rcases value_eq a with ⟨x, h, hv⟩ | ⟨⟨e, h⟩, hv⟩
    · rw [h]; refine .inr ⟨_, rfl, ?_⟩; simp [*, isoVal, Ne.symm h01]
    · rw [h]; exact .inl ⟨⟨e, rfl⟩, by simp [*]⟩
  rw [if_neg h1]
  by_cases h2 : localName a.key = Utf8.encode (str% "closed_at")
  · rw [if_pos h2]
    simp only [h2]
    rcases value_eq a with ⟨x, h, hv⟩ | ⟨⟨e, h⟩, hv⟩
    · rw [h]; refine .inr ⟨_, rfl, ?_⟩; simp [*, isoVal, Ne.symm h02, Ne.symm h12]
    · rw [h]; exact .inl ⟨⟨e, rfl⟩, by simp [*]⟩
  rw [if_neg h2]
  by_cases h3 : localName a.key = Utf8.encode (str% "open")
  · rw [if_pos h3]
    simp only [h3]
    rcases openValue_eq a with ⟨x, h, hv⟩ | ⟨⟨e, h⟩, hv⟩
    · have hv' : ¬ (a.value ≠ Utf8.encode (str% "true") ∧ a.value ≠ Utf8.encode (str% "false")) := by
        rw [← openVal_none, hv]; simp
      rw [h]; refine .inr ⟨_, rfl, ?_⟩
      simp only [Ne.symm h03, Ne.symm h13, Ne.symm h23, h34, h35, h36, h37, hv, hv', false_and, and_false, or_false,
        not_false_eq_true, if_false, if_true, and_self]
    · rw [h]; rw [openVal_none] at hv; exact .inl ⟨⟨e, rfl⟩, by simp [*]⟩
  rw [if_neg h3]
  by_cases h4 : localName a.key = Utf8.encode (str% "user")
  · rw [if_pos h4]
    simp only [h4]
    rcases value_eq a with ⟨x, h, hv⟩ | ⟨⟨e, h⟩, hv⟩
    · rw [h]; refine .inr ⟨_, rfl, ?_⟩; simp [*, Ne.symm h04, Ne.symm h14, Ne.symm h24, Ne.symm h34]
    · rw [h]; exact .inl ⟨⟨e, rfl⟩, by simp [*]⟩
  rw [if_neg h4]
  by_cases h5 : localName a.key = Utf8.encode (str% "uid")
  · rw [if_pos h5]
    simp only [h5]
    rcases parsed_eq parseI64 a with ⟨x, h, hv⟩ | ⟨⟨e, h⟩, hv⟩
    · rw [h]; refine .inr ⟨_, rfl, ?_⟩
      unfold numVal at hv
      simp only [numVal, hv, Ne.symm h05, Ne.symm h15, Ne.symm h25, Ne.symm h35, Ne.symm h45, h56, h57, false_and,
        or_false, reduceCtorEq, and_false, not_false_eq_true, if_false, if_true, and_self]
    · rw [h]; unfold numVal at hv; exact .inl ⟨⟨e, rfl⟩, .inr (.inl ⟨trivial, hv⟩)⟩
  rw [if_neg h5]
  by_cases h6 : localName a.key = Utf8.encode (str% "num_changes")
  · rw [if_pos h6]
    simp only [h6]
    rcases parsed_eq parseU64 a with ⟨x, h, hv⟩ | ⟨⟨e, h⟩, hv⟩
    · rw [h]; refine .inr ⟨_, rfl, ?_⟩
      unfold numVal at hv
      simp only [numVal, hv, Ne.symm h06, Ne.symm h16, Ne.symm h26, Ne.symm h36, Ne.symm h46, Ne.symm h56, h67,
        false_and,
        or_false, reduceCtorEq, and_false, not_false_eq_true, if_false, if_true, and_self]
    · rw [h]; unfold numVal at hv; exact .inl ⟨⟨e, rfl⟩, .inr (.inr (.inl ⟨trivial, hv⟩))⟩
  rw [if_neg h6]
  by_cases h7 : localName a.key = Utf8.encode (str% "comments_count")
  · rw [if_pos h7]
    simp only [h7]
    rcases parsed_eq parseU64 a with ⟨x, h, hv⟩ | ⟨⟨e, h⟩, hv⟩
    · rw [h]; refine .inr ⟨_, rfl, ?_⟩
      unfold numVal at hv
      simp only [numVal, hv, Ne.symm h07, Ne.symm h17, Ne.symm h27, Ne.symm h37, Ne.symm h47, Ne.symm h57, Ne.symm h67,
        false_and,
        or_false, reduceCtorEq, and_false, not_false_eq_true, if_false, if_true, and_self]
    · rw [h]; unfold numVal at hv; exact .inl ⟨⟨e, rfl⟩, .inr (.inr (.inr (.inl ⟨trivial, hv⟩)))⟩
  rw [if_neg h7]
  exact .inr ⟨b, rfl, by simp [*]⟩

/-- What a list of attributes gives for one field. -/
def Field {α : Type} (attrs : Attrs) (name : Str) (val : Attr → Option α) (old new : Option α) : Prop :=
  (Lacks attrs name ∧ new = old) ∨ ∃ a, some a ∈ attrs ∧ Named a.key name ∧ val a = new

theorem Field.nil {α : Type} {name : Str} {val : Attr → Option α} {old : Option α} : Field [] name val old old :=
  .inl ⟨fun _ h => absurd h List.not_mem_nil, rfl⟩

theorem Field.cons {α : Type} {attrs : Attrs} {name : Str} {val : Attr → Option α} {old mid new : Option α} {a : Attr}
    (h1 : mid = if Named a.key name then val a else old) (h2 : Field attrs name val mid new) :
    Field (some a :: attrs) name val old new := by
  rcases h2 with ⟨hl, rfl⟩ | ⟨x, hx, hn, hv⟩
  · by_cases hn : Named a.key name
    · rw [if_pos hn] at h1
      exact .inr ⟨a, List.mem_cons_self, hn, h1.symm⟩
    · rw [if_neg hn] at h1
      refine .inl ⟨fun x hx => ?_, h1⟩
      rcases List.mem_cons.mp hx with h | h
      · cases h; exact hn
      · exact hl x h
  · exact .inr ⟨x, List.mem_cons_of_mem _ hx, hn, hv⟩

structure Fields (attrs : Attrs) (b b' : Builder) : Prop where
  tags : b'.tags = b.tags
  id : Field attrs (str% "id") (numVal parseU32) b.id b'.id
  created : Field attrs (str% "created_at") isoVal b.created b'.created
  closed : Field attrs (str% "closed_at") isoVal b.closed b'.closed
  isOpen : Field attrs (str% "open") openVal b.isOpen b'.isOpen
  user : Field attrs (str% "user") Attr.normalizedValue b.user b'.user
  uid : Field attrs (str% "uid") (numVal parseI64) b.uid b'.uid
  numChanges : Field attrs (str% "num_changes") (numVal parseU64) b.numChanges b'.numChanges
  commentsCount : Field attrs (str% "comments_count") (numVal parseU64) b.commentsCount b'.commentsCount

/-- All attributes. -/
theorem setAttrs_cases (attrs : Attrs) : ∀ b : Builder,
    ((∃ e, setAttrs b attrs = .error e) ∧ (none ∈ attrs ∨ ∃ a, some a ∈ attrs ∧ Unreadable a)) ∨
    (∃ b', setAttrs b attrs = .ok b' ∧ none ∉ attrs ∧ (∀ a, some a ∈ attrs → ¬ Unreadable a) ∧
      Fields attrs b b') := by
  induction attrs with
  | nil =>
    intro b
    exact .inr ⟨b, rfl, List.not_mem_nil, fun _ h => absurd h List.not_mem_nil,
      ⟨rfl, .nil, .nil, .nil, .nil, .nil, .nil, .nil, .nil⟩⟩
  | cons o r ih =>
    intro b
    cases o with
    | none => exact .inl ⟨⟨_, rfl⟩, .inl List.mem_cons_self⟩
    | some a =>
      unfold setAttrs
      rcases setAttr_cases b a with ⟨⟨e, h⟩, hu⟩ | ⟨b1, h, hu, g0, g1, g2, g3, g4, g5, g6, g7, g8⟩
      · rw [h]; exact .inl ⟨⟨e, rfl⟩, .inr ⟨a, List.mem_cons_self, hu⟩⟩
      · rw [h]
        rcases ih b1 with ⟨⟨e, h2⟩, h3⟩ | ⟨b2, h2, hn, hr, hf⟩
        · refine .inl ⟨⟨e, h2⟩, ?_⟩
          rcases h3 with h3 | ⟨x, hx, hxu⟩
          · exact .inl (List.mem_cons_of_mem _ h3)
          · exact .inr ⟨x, List.mem_cons_of_mem _ hx, hxu⟩
        · refine .inr ⟨b2, h2, ?_, ?_, ⟨hf.tags.trans g0, .cons g1 hf.id, .cons g2 hf.created, .cons g3 hf.closed,
            .cons g4 hf.isOpen, .cons g5 hf.user, .cons g6 hf.uid, .cons g7 hf.numChanges, .cons g8 hf.commentsCount⟩⟩
          · intro hm
            rcases List.mem_cons.mp hm with h | h
            · cases h
            · exact hn h
          · intro x hx
            rcases List.mem_cons.mp hx with h | h
            · cases h; exact hu
            · exact hr x h

/-! ## Attributes of a tag -/

theorem k_ne_v : Utf8.encode (str% "k") ≠ Utf8.encode (str% "v") := by decide +kernel

theorem tagAttr_cases (kv : Option Str × Option Str) (a : Attr) :
    ((∃ e, tagAttr kv a = .error e) ∧ (Named a.key (str% "k") ∨ Named a.key (str% "v")) ∧ a.normalizedValue = none) ∨
    ∃ kv', tagAttr kv a = .ok kv' ∧ ¬ ((Named a.key (str% "k") ∨ Named a.key (str% "v")) ∧ a.normalizedValue = none) ∧
      kv'.1 = (if Named a.key (str% "k") then a.normalizedValue else kv.1) ∧
      kv'.2 = (if Named a.key (str% "v") then a.normalizedValue else kv.2) := by
  have hne := k_ne_v
  unfold tagAttr Named
  simp only
  by_cases h0 : localName a.key = Utf8.encode (str% "k")
  · rw [if_pos h0]
    simp only [h0]
    rcases value_eq a with ⟨x, h, hv⟩ | ⟨⟨e, h⟩, hv⟩
    · rw [h]; refine .inr ⟨_, rfl, ?_⟩; simp [*]
    · rw [h]; exact .inl ⟨⟨e, rfl⟩, .inl trivial, hv⟩
  rw [if_neg h0]
  by_cases h1 : localName a.key = Utf8.encode (str% "v")
  · rw [if_pos h1]
    simp only [h1]
    rcases value_eq a with ⟨x, h, hv⟩ | ⟨⟨e, h⟩, hv⟩
    · rw [h]; refine .inr ⟨_, rfl, ?_⟩; simp [*, hne.symm]
    · rw [h]; exact .inl ⟨⟨e, rfl⟩, .inr trivial, hv⟩
  rw [if_neg h1]
  exact .inr ⟨kv, rfl, by simp [*]⟩

theorem tagAttrs_cases (attrs : Attrs) : ∀ kv,
    ((∃ e, tagAttrs kv attrs = .error e) ∧ (none ∈ attrs ∨ ∃ a, some a ∈ attrs ∧
      (Named a.key (str% "k") ∨ Named a.key (str% "v")) ∧ a.normalizedValue = none)) ∨
    ∃ kv', tagAttrs kv attrs = .ok kv' ∧ none ∉ attrs ∧
      (∀ a, some a ∈ attrs → ¬ ((Named a.key (str% "k") ∨ Named a.key (str% "v")) ∧ a.normalizedValue = none)) ∧
      Field attrs (str% "k") Attr.normalizedValue kv.1 kv'.1 ∧
      Field attrs (str% "v") Attr.normalizedValue kv.2 kv'.2 := by
  induction attrs with
  | nil =>
    intro b
    exact .inr ⟨b, rfl, List.not_mem_nil, fun _ h => absurd h List.not_mem_nil, .nil, .nil⟩
  | cons o r ih =>
    intro b
    cases o with
    | none => exact .inl ⟨⟨_, rfl⟩, .inl List.mem_cons_self⟩
    | some a =>
      unfold tagAttrs
      rcases tagAttr_cases b a with ⟨⟨e, h⟩, hu⟩ | ⟨b1, h, hu, g1, g2⟩
      · rw [h]; exact .inl ⟨⟨e, rfl⟩, .inr ⟨a, List.mem_cons_self, hu⟩⟩
      · rw [h]
        rcases ih b1 with ⟨⟨e, h2⟩, h3⟩ | ⟨b2, h2, hn, hr, f1, f2⟩
        · refine .inl ⟨⟨e, h2⟩, ?_⟩
          rcases h3 with h3 | ⟨x, hx, hxu⟩
          · exact .inl (List.mem_cons_of_mem _ h3)
          · exact .inr ⟨x, List.mem_cons_of_mem _ hx, hxu⟩
        · refine .inr ⟨b2, h2, ?_, ?_, .cons g1 f1, .cons g2 f2⟩
          · intro hm
            rcases List.mem_cons.mp hm with h | h
            · cases h
            · exact hn h
          · intro x hx
            rcases List.mem_cons.mp hx with h | h
            · cases h; exact hu
            · exact hr x h

theorem tagOf_cases (attrs : Attrs) :
    ((∃ e, tagOf attrs = .error e) ∧ BadTag attrs) ∨
    ∃ k v, tagOf attrs = .ok (k, v) ∧ ¬ BadTag attrs ∧ HasAttr attrs (str% "k") k ∧ HasAttr attrs (str% "v") v := by
  unfold tagOf
  rcases tagAttrs_cases attrs (none, none) with ⟨⟨e, h⟩, hb⟩ | ⟨⟨k, v⟩, h, hn, hr, fk, fv⟩
  · rw [h]
    refine .inl ⟨⟨e, rfl⟩, ?_⟩
    rcases hb with hb | hb
    · exact .inl hb
    · exact .inr (.inl (by simpa only [textless_eq] using hb))
  · rw [h]
    rcases fk with ⟨hl, hk⟩ | ⟨a, ha, hna, hva⟩
    · simp only at hk; subst hk
      exact .inl ⟨⟨_, rfl⟩, .inr (.inr (.inl hl))⟩
    rcases fv with ⟨hl, hv⟩ | ⟨a', ha', hna', hva'⟩
    · simp only at hv; subst hv
      refine .inl ⟨?_, .inr (.inr (.inr hl))⟩
      cases k <;> exact ⟨_, rfl⟩
    simp only at hva hva'
    have h1 : k ≠ none := fun hk => hr a ha ⟨.inl hna, hva.trans hk⟩
    have h2 : v ≠ none := fun hk => hr a' ha' ⟨.inr hna', hva'.trans hk⟩
    obtain ⟨k, rfl⟩ := Option.ne_none_iff_exists'.mp h1
    obtain ⟨v, rfl⟩ := Option.ne_none_iff_exists'.mp h2
    refine .inr ⟨k, v, rfl, ?_, ⟨a, ha, hna, bytes_of hva⟩, ⟨a', ha', hna', bytes_of hva'⟩⟩
    rintro (h | ⟨x, hx, hh⟩ | h | h)
    · exact hn h
    · exact hr x hx (by simpa only [textless_eq] using hh)
    · exact h a ha hna
    · exact h a' ha' hna'

/-- No local name twice: an attribute is determined by its name. -/
theorem _root_.Osmio.Spec.Cs.Sound.unique {attrs : Attrs} (h : Sound attrs) {name : Str} {a b : Attr} (ha : some a ∈ attrs)
    (hb : some b ∈ attrs) (hna : Named a.key name) (hnb : Named b.key name) : a = b := by
  have := List.inj_on_of_nodup_map h.distinct ha hb (by
    simp only [Option.map_some]
    exact congrArg some (hna.trans hnb.symm))
  exact Option.some.inj this

theorem _root_.Osmio.Spec.Cs.Sound.hasAttr {attrs : Attrs} (h : Sound attrs) {name s : Str} {a : Attr} (hs : HasAttr attrs name s)
    (ha : some a ∈ attrs) (hn : Named a.key name) : a.normalizedValue = some s := by
  obtain ⟨x, hx, hxn, hv⟩ := hs
  rw [h.unique ha hx hn hxn, normalizedValue_iff.2 hv]

theorem tagOf_isTag {attrs : Attrs} {k v : Str} (h : IsTag attrs k v) : tagOf attrs = .ok (k, v) := by
  rcases tagOf_cases attrs with ⟨_, hb⟩ | ⟨k', v', ht, _, ⟨a, ha, hn, hv⟩, ⟨a', ha', hn', hv'⟩⟩
  · exfalso
    obtain ⟨ak, hak, hnk, hvk⟩ := h.key
    obtain ⟨av, hav, hnv, hvv⟩ := h.value
    rcases hb with hb | ⟨x, hx, hnx, hvx⟩ | hb | hb
    · exact h.sound.readable hb
    · rcases hnx with hnx | hnx
      · rw [textless_eq, h.sound.hasAttr h.key hx hnx] at hvx; cases hvx
      · rw [textless_eq, h.sound.hasAttr h.value hx hnx] at hvx; cases hvx
    · exact hb _ hak hnk
    · exact hb _ hav hnv
  · rw [ht]
    have h1 := h.sound.hasAttr h.key ha hn
    have h2 := h.sound.hasAttr h.value ha' hn'
    rw [normalizedValue_iff.2 hv] at h1; rw [normalizedValue_iff.2 hv'] at h2
    cases h1; cases h2; rfl

/-! ## One element -/

/-- The changeset of an element with these attributes and this tag map. -/
def ofData (d : Data) (tags : TagMap) : Changeset :=
  { id := d.id, created := .iso d.created, closed := d.closed.map .iso, isOpen := d.isOpen, uid := d.uid,
    user := d.user, tags := tags, numChanges := d.numChanges, commentsCount := d.commentsCount }

theorem Field.some {α : Type} {attrs : Attrs} {name : Str} {val : Attr → Option α} {new : Option α}
    (hf : Field attrs name val none new) {x : α} (h : ∃ a, Option.some a ∈ attrs ∧ Named a.key name)
    (hv : ∀ a, Option.some a ∈ attrs → Named a.key name → val a = Option.some x) : new = Option.some x := by
  rcases hf with ⟨hl, _⟩ | ⟨a, ha, hn, hva⟩
  · obtain ⟨a, ha, hn⟩ := h
    exact absurd hn (hl a ha)
  · rw [← hva, hv a ha hn]

theorem Field.lacks {α : Type} {attrs : Attrs} {name : Str} {val : Attr → Option α} {new : Option α}
    (hf : Field attrs name val none new) (h : Lacks attrs name) : new = none := by
  rcases hf with ⟨_, hl⟩ | ⟨a, ha, hn, hva⟩
  · exact hl
  · exact absurd hn (h a ha)

theorem _root_.Osmio.Spec.Cs.Describes.readable {attrs : Attrs} {d : Data} (hs : Sound attrs) (h : Describes attrs d) :
    ∀ a, some a ∈ attrs → ¬ Unreadable a := by
  have opt : ∀ {α : Type} {name : Str} {f : Str → Option α} {o : Option α}, Opt attrs name f o → ∀ a, some a ∈ attrs →
      Named a.key name → a.normalizedValue.bind f = none → False := by
    intro α name f o ho a ha hn hv
    cases o with
    | none => exact ho a ha hn
    | some x =>
      obtain ⟨s, h1, h2⟩ := ho
      rw [hs.hasAttr h1 ha hn] at hv
      simp [h2] at hv
  intro a ha hu
  unfold Unreadable at hu
  simp only [useless_eq, textless_eq] at hu
  rcases hu with ⟨hn, hv⟩ | ⟨hn, hv⟩ | ⟨hn, hv⟩ | ⟨hn, hv⟩ | ⟨hn, hv⟩ | ⟨hn, hv⟩ | ⟨hn, hv⟩ | ⟨hn, hv⟩
  · exact opt (o := some d.id) h.id a ha hn hv
  · exact opt h.uid a ha hn hv
  · exact opt (o := some d.numChanges) h.numChanges a ha hn hv
  · exact opt (o := some d.commentsCount) h.commentsCount a ha hn hv
  · rw [hs.hasAttr h.created ha hn] at hv; cases hv
  · exact opt h.closed a ha hn (by rw [hv]; rfl)
  · exact opt h.user a ha hn (by rw [hv]; rfl)
  · obtain ⟨x, hx, hnx, hvx⟩ := h.isOpen
    rw [hs.unique ha hx hn hnx] at hv
    cases hd : d.isOpen <;> rw [hd] at hvx <;> simp at hvx <;> simp [hvx] at hv

/-- A described element is built. -/
theorem _root_.Osmio.Spec.Cs.Describes.built {attrs : Attrs} {d : Data} (hs : Sound attrs) (h : Describes attrs d) :
    ∃ b, setAttrs {} attrs = .ok b ∧ ∀ tags, built b tags = .ok (some (ofData d tags)) := by
  rcases setAttrs_cases attrs {} with ⟨_, hb⟩ | ⟨b, hb, _, _, hf⟩
  · exfalso
    rcases hb with hb | ⟨a, ha, hu⟩
    · exact hs.readable hb
    · exact h.readable hs a ha hu
  refine ⟨b, hb, fun tags => ?_⟩
  have num : ∀ {α : Type} {name : Str} {f : Str → Option α} {x : α} {new : Option α},
      Field attrs name (numVal f) none new → (∃ s, HasAttr attrs name s ∧ f s = some x) → new = some x := by
    intro α name f x new hf ⟨s, hs1, hp⟩
    obtain ⟨a, ha, hn, hv⟩ := hs1
    refine hf.some ⟨a, ha, hn⟩ fun a' ha' hn' => ?_
    unfold numVal
    rw [hs.unique ha' ha hn' hn, normalizedValue_iff.2 hv]
    exact hp
  have opt : ∀ {α : Type} {name : Str} {f : Str → Option α} {o : Option α} {new : Option α},
      Field attrs name (numVal f) none new → Opt attrs name f o → new = o := by
    intro α name f o new hf ho
    cases o with
    | none => exact hf.lacks ho
    | some x => exact num hf ho
  have iso : ∀ {name : Str} {new : Option TimestampFormat} {o : Option Str}, Field attrs name isoVal none new →
      Opt attrs name some o → new = o.map .iso := by
    intro name new o hf ho
    cases o with
    | none => exact hf.lacks ho
    | some x =>
      obtain ⟨s, ⟨a, ha, hn, hv⟩, hx⟩ := ho
      cases hx
      refine hf.some ⟨a, ha, hn⟩ fun a' ha' hn' => ?_
      unfold isoVal
      rw [hs.unique ha' ha hn' hn, normalizedValue_iff.2 hv]
      rfl
  have e1 : b.id = some d.id := num hf.id h.id
  have e2 : b.created = some (.iso d.created) := iso (o := some d.created) hf.created ⟨_, h.created, rfl⟩
  have e3 : b.closed = d.closed.map .iso := iso hf.closed h.closed
  have e4 : b.isOpen = some d.isOpen := by
    obtain ⟨a, ha, hn, hv⟩ := h.isOpen
    refine hf.isOpen.some ⟨a, ha, hn⟩ fun a' ha' hn' => ?_
    unfold openVal
    rw [hs.unique ha' ha hn' hn, hv]
    cases d.isOpen <;> decide +kernel
  have e5 : b.uid = d.uid := opt hf.uid h.uid
  have e6 : b.user = d.user := by
    have hu := hf.user
    cases hd : d.user with
    | none =>
      have := h.user
      rw [hd] at this
      exact hu.lacks this
    | some u =>
      have := h.user
      rw [hd] at this
      obtain ⟨s, ⟨a, ha, hn, hv⟩, hx⟩ := this
      cases hx
      refine hu.some ⟨a, ha, hn⟩ fun a' ha' hn' => ?_
      rw [hs.unique ha' ha hn' hn, normalizedValue_iff.2 hv]
  have e7 : b.numChanges = some d.numChanges := num hf.numChanges h.numChanges
  have e8 : b.commentsCount = some d.commentsCount := num hf.commentsCount h.commentsCount
  unfold Changesets.built Builder.build ofData
  simp only [e1, e2, e3, e4, e5, e6, e7, e8]
  rfl

theorem Field.none_lacks {α : Type} {attrs : Attrs} {name : Str} {val : Attr → Option α}
    (hf : Field attrs name val none none) (hr : ∀ a, Option.some a ∈ attrs → Named a.key name → val a ≠ none) :
    Lacks attrs name := by
  rcases hf with ⟨hl, _⟩ | ⟨a, ha, hn, hva⟩
  · exact hl
  · exact absurd hva (hr a ha hn)

theorem Field.get {α : Type} {attrs : Attrs} {name : Str} {val : Attr → Option α} {x : α}
    (hf : Field attrs name val none (Option.some x)) : ∃ a, Option.some a ∈ attrs ∧ Named a.key name ∧
      val a = Option.some x := by
  rcases hf with ⟨_, h⟩ | h
  · cases h
  · exact h

theorem numVal_some {α : Type} {p : Str → Option α} {a : Attr} {x : α} (h : numVal p a = some x) :
    ∃ s, a.normalizedValue = some s ∧ p s = some x := Option.bind_eq_some_iff.mp h

/-- Conversely, or something required is missing. -/
theorem built_cases {attrs : Attrs} {b : Builder} (h : setAttrs {} attrs = .ok b) :
    (∃ d, Describes attrs d ∧ ∀ tags, built b tags = .ok (some (ofData d tags))) ∨
    (∃ name ∈ required, Lacks attrs name) ∧ ∀ tags, ∃ e, built b tags = .error e := by
  rcases setAttrs_cases attrs {} with ⟨⟨e, he⟩, _⟩ | ⟨b', hb, hn, hr, hf⟩
  · rw [h] at he; cases he
  rw [h] at hb; cases hb
  have rd : ∀ (a : Attr), some a ∈ attrs → ¬ Unreadable a := hr
  by_cases c1 : b.id = none
  · refine .inr ⟨⟨_, .head _, ?_⟩, fun tags => ⟨.build, ?_⟩⟩
    · have := hf.id; rw [c1] at this
      exact this.none_lacks fun a ha hn hv => rd a ha (.inl ⟨hn, useless_of hv⟩)
    · unfold built Builder.build; simp only [c1]; rfl
  by_cases c2 : b.created = none
  · refine .inr ⟨⟨str% "created_at", by decide, ?_⟩, fun tags => ⟨.build, ?_⟩⟩
    · have := hf.created; rw [c2] at this
      exact this.none_lacks fun a ha hn hv => rd a ha (by
        unfold isoVal at hv; simp at hv
        exact .inr (.inr (.inr (.inr (.inl ⟨hn, textless_of hv⟩)))))
    · unfold built Builder.build
      obtain ⟨x, hx⟩ := Option.ne_none_iff_exists'.mp c1
      simp only [c2, hx]; rfl
  by_cases c3 : b.isOpen = none
  · refine .inr ⟨⟨str% "open", by decide, ?_⟩, fun tags => ⟨.build, ?_⟩⟩
    · have := hf.isOpen; rw [c3] at this
      exact this.none_lacks fun a ha hn hv => rd a ha (by
        rw [openVal_none] at hv
        exact .inr (.inr (.inr (.inr (.inr (.inr (.inr ⟨hn, hv⟩)))))))
    · unfold built Builder.build
      obtain ⟨x, hx⟩ := Option.ne_none_iff_exists'.mp c1
      obtain ⟨y, hy⟩ := Option.ne_none_iff_exists'.mp c2
      simp only [c3, hx, hy]; rfl
  by_cases c4 : b.numChanges = none
  · refine .inr ⟨⟨str% "num_changes", by decide, ?_⟩, fun tags => ⟨.build, ?_⟩⟩
    · have := hf.numChanges; rw [c4] at this
      exact this.none_lacks fun a ha hn hv => rd a ha (.inr (.inr (.inl ⟨hn, useless_of hv⟩)))
    · unfold built Builder.build
      obtain ⟨x, hx⟩ := Option.ne_none_iff_exists'.mp c1
      obtain ⟨y, hy⟩ := Option.ne_none_iff_exists'.mp c2
      obtain ⟨z, hz⟩ := Option.ne_none_iff_exists'.mp c3
      simp only [c4, hx, hy, hz]; rfl
  by_cases c5 : b.commentsCount = none
  · refine .inr ⟨⟨str% "comments_count", by decide, ?_⟩, fun tags => ⟨.build, ?_⟩⟩
    · have := hf.commentsCount; rw [c5] at this
      exact this.none_lacks fun a ha hn hv => rd a ha (.inr (.inr (.inr (.inl ⟨hn, useless_of hv⟩))))
    · unfold built Builder.build
      obtain ⟨x, hx⟩ := Option.ne_none_iff_exists'.mp c1
      obtain ⟨y, hy⟩ := Option.ne_none_iff_exists'.mp c2
      obtain ⟨z, hz⟩ := Option.ne_none_iff_exists'.mp c3
      obtain ⟨w, hw⟩ := Option.ne_none_iff_exists'.mp c4
      simp only [c5, hx, hy, hz, hw]; rfl
  obtain ⟨id, e1⟩ := Option.ne_none_iff_exists'.mp c1
  obtain ⟨cr, e2⟩ := Option.ne_none_iff_exists'.mp c2
  obtain ⟨op, e3⟩ := Option.ne_none_iff_exists'.mp c3
  obtain ⟨nc, e4⟩ := Option.ne_none_iff_exists'.mp c4
  obtain ⟨cc, e5⟩ := Option.ne_none_iff_exists'.mp c5
  have f1 := hf.id; rw [e1] at f1
  have f2 := hf.created; rw [e2] at f2
  have f3 := hf.isOpen; rw [e3] at f3
  have f4 := hf.numChanges; rw [e4] at f4
  have f5 := hf.commentsCount; rw [e5] at f5
  have num : ∀ {α : Type} {name : Str} {f : Str → Option α} {x : α},
      Field attrs name (numVal f) none (some x) → ∃ s, HasAttr attrs name s ∧ f s = some x := by
    intro α name f x hf
    obtain ⟨a, ha, hn, hv⟩ := hf.get
    obtain ⟨s, h1, h2⟩ := numVal_some hv
    exact ⟨s, ⟨a, ha, hn, bytes_of h1⟩, h2⟩
  have iso : ∀ {name : Str} {x : TimestampFormat}, Field attrs name isoVal none (some x) →
      ∃ s, HasAttr attrs name s ∧ x = .iso s := by
    intro name x hf
    obtain ⟨a, ha, hn, hv⟩ := hf.get
    unfold isoVal at hv
    obtain ⟨s, h1, h2⟩ := Option.map_eq_some_iff.mp hv
    exact ⟨s, ⟨a, ha, hn, bytes_of h1⟩, h2.symm⟩
  obtain ⟨crs, hcr, rfl⟩ := iso f2
  have hop : HasRaw attrs (str% "open") (if op then str% "true" else str% "false") := by
    obtain ⟨a, ha, hn, hv⟩ := f3.get
    refine ⟨a, ha, hn, ?_⟩
    unfold openVal at hv
    split at hv
    · cases hv; assumption
    · split at hv
      · cases hv; assumption
      · cases hv
  have hcl : ∃ cl : Option Str, Opt attrs (str% "closed_at") some cl ∧ b.closed = cl.map .iso := by
    have := hf.closed
    cases hc : b.closed with
    | none =>
      rw [hc] at this
      refine ⟨none, this.none_lacks fun a ha hn hv => rd a ha ?_, rfl⟩
      unfold isoVal at hv; simp at hv
      exact .inr (.inr (.inr (.inr (.inr (.inl ⟨hn, textless_of hv⟩)))))
    | some x =>
      rw [hc] at this
      obtain ⟨s, h1, rfl⟩ := iso this
      exact ⟨some s, ⟨s, h1, rfl⟩, rfl⟩
  have huid : Opt attrs (str% "uid") parseI64 b.uid := by
    have := hf.uid
    cases hc : b.uid with
    | none =>
      rw [hc] at this
      exact this.none_lacks fun a ha hn hv => rd a ha (.inr (.inl ⟨hn, useless_of hv⟩))
    | some x =>
      rw [hc] at this
      exact num this
  have huser : Opt attrs (str% "user") some b.user := by
    have := hf.user
    cases hc : b.user with
    | none =>
      rw [hc] at this
      exact this.none_lacks fun a ha hn hv => rd a ha (.inr (.inr (.inr (.inr (.inr (.inr (.inl ⟨hn, textless_of hv⟩)))))))
    | some x =>
      rw [hc] at this
      obtain ⟨a, ha, hn, hv⟩ := this.get
      exact ⟨x, ⟨a, ha, hn, bytes_of hv⟩, rfl⟩
  obtain ⟨cl, hcl1, hcl2⟩ := hcl
  refine .inl ⟨{ id := id, created := crs, closed := cl, isOpen := op, uid := b.uid, user := b.user, numChanges := nc,
                    commentsCount := cc, tags := [] }, ⟨num f1, hcr, hcl1, hop, huid, huser, num f4, num f5⟩, fun tags => ?_⟩
  unfold built Builder.build ofData
  simp only [e1, e2, e3, e4, e5, hcl2]
  rfl

/-- A malformed element is refused before or after its tags. -/
theorem _root_.Osmio.Spec.Cs.BadAttrs.refused {attrs : Attrs} (h : BadAttrs attrs) :
    (∃ e, setAttrs {} attrs = .error e) ∨ ∃ b, setAttrs {} attrs = .ok b ∧ ∀ tags, ∃ e, built b tags = .error e := by
  rcases setAttrs_cases attrs {} with ⟨he, _⟩ | ⟨b, hb, hn, hr, hf⟩
  · exact .inl he
  refine .inr ⟨b, hb, ?_⟩
  rcases built_cases hb with ⟨d, hd, _⟩ | ⟨_, h2⟩
  · exfalso
    rcases h with h | ⟨a, ha, hu⟩ | ⟨name, hname, hl⟩
    · exact hn h
    · exact hr a ha hu
    · simp only [required, List.mem_cons, List.not_mem_nil, or_false] at hname
      rcases hname with rfl | rfl | rfl | rfl | rfl
      · obtain ⟨s, ⟨a, ha, hn, _⟩, _⟩ := hd.id; exact hl a ha hn
      · obtain ⟨a, ha, hn, _⟩ := hd.created; exact hl a ha hn
      · obtain ⟨a, ha, hn, _⟩ := hd.isOpen; exact hl a ha hn
      · obtain ⟨s, ⟨a, ha, hn, _⟩, _⟩ := hd.numChanges; exact hl a ha hn
      · obtain ⟨s, ⟨a, ha, hn, _⟩, _⟩ := hd.commentsCount; exact hl a ha hn
  · exact h2

/-- Every attribute list is a changeset's or malformed. -/
theorem describes_or_bad (attrs : Attrs) : (∃ d, Describes attrs d) ∨ BadAttrs attrs := by
  rcases setAttrs_cases attrs {} with ⟨_, h⟩ | ⟨b, hb, _⟩
  · rcases h with h | h
    · exact .inr (.inl h)
    · exact .inr (.inr (.inl h))
  · rcases built_cases hb with ⟨d, hd, _⟩ | ⟨h, _⟩
    · exact .inl ⟨d, hd⟩
    · exact .inr (.inr (.inr h))

end Osmio.Changesets
