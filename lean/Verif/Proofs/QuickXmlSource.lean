import Verif.Lib.QuickXmlSource
import Verif.Proofs.QuickXmlBytes

namespace Osmio.QuickXml

/-! ## What is settled stays -/

theorem prefix_grows {p r : List UInt8} (h : p.isPrefixOf r = true) (x : List UInt8) : p.isPrefixOf (r ++ x) = true := by
  rw [List.isPrefixOf_iff_prefix] at h ⊢
  exact h.trans (List.prefix_append _ _)

theorem prefix_shrinks {p r : List UInt8} (h1 : p.isPrefixOf r = false) (h2 : r.isPrefixOf p = false) (x : List UInt8) :
    p.isPrefixOf (r ++ x) = false := by
  rw [Bool.eq_false_iff, ne_eq, List.isPrefixOf_iff_prefix] at h1 h2 ⊢
  intro h
  rcases List.prefix_or_prefix_of_prefix h (List.prefix_append r x) with h | h
  · exact h1 h
  · exact h2 h

theorem after_grows {pat bs r : List UInt8} (h : after pat bs = some r) (x : List UInt8) : after pat (bs ++ x) = some (r ++ x) := by
  induction bs with
  | nil => cases h
  | cons b bs ih =>
    unfold after at h
    rw [List.cons_append]
    unfold after
    split at h
    · rename_i hp
      cases h
      have := prefix_grows hp x
      rw [List.cons_append] at this
      rw [if_pos this]
      rw [List.isPrefixOf_iff_prefix] at hp
      rw [← List.cons_append, List.drop_append_of_le_length hp.length_le]
    · rename_i hp
      split
      · rename_i hq
        rw [List.isPrefixOf_iff_prefix] at hp hq
        exfalso
        rw [← List.cons_append] at hq
        rcases List.prefix_or_prefix_of_prefix hq (List.prefix_append (b :: bs) x) with h1 | h1
        · exact hp h1
        · have hl := h1.length_le
          have hnone : ∀ l : List UInt8, l.length < pat.length → after pat l = none := by
            intro l
            induction l with
            | nil => intro _; rfl
            | cons c l ihl =>
              intro hlen
              unfold after
              rw [if_neg, ihl (by simp at hlen; omega)]
              rw [List.isPrefixOf_iff_prefix]
              intro hh
              have := hh.length_le
              omega
          rw [hnone bs (by simp at hl; omega)] at h
          cases h
      · exact ih h

theorem tagEnd_grows {q : Option UInt8} {bs c r : List UInt8} (h : tagEnd q bs = some (c, r)) (x : List UInt8) :
    tagEnd q (bs ++ x) = some (c, r ++ x) := by
  induction bs generalizing q c with
  | nil => cases q <;> cases h
  | cons b bs ih =>
    rw [List.cons_append]
    cases q with
    | some q =>
      simp only [tagEnd, Option.map_eq_some_iff, Prod.mk.injEq, Prod.exists] at h ⊢
      obtain ⟨c', r', h1, h2, rfl⟩ := h
      exact ⟨c', r' ++ x, ih h1, h2, rfl⟩
    | none =>
      unfold tagEnd at h ⊢
      by_cases hb : b = 62
      · rw [if_pos hb] at h ⊢; cases h; rfl
      · rw [if_neg hb] at h ⊢
        simp only [Option.map_eq_some_iff, Prod.mk.injEq, Prod.exists] at h ⊢
        obtain ⟨c', r', h1, h2, rfl⟩ := h
        exact ⟨c', r' ++ x, ih h1, h2, rfl⟩

theorem doctypeEnd_grows {d : Nat} {bs r : List UInt8} (h : doctypeEnd d bs = some r) (x : List UInt8) :
    doctypeEnd d (bs ++ x) = some (r ++ x) := by
  induction bs generalizing d with
  | nil => cases h
  | cons b bs ih =>
    rw [List.cons_append]
    unfold doctypeEnd at h ⊢
    split_ifs at h ⊢ with h1 h2
    · cases d with
      | zero => cases h; rfl
      | succ d => exact ih h
    · exact ih h
    · exact ih h

/-- More bytes. -/
def Src.more (s : Src) (x : List UInt8) : Src := { s with bytes := s.bytes ++ x }

theorem isNone_false {α : Type} {o : Option α} (h : o.isNone = false) : ∃ a, o = some a := by
  cases o with
  | none => cases h
  | some a => exact ⟨a, rfl⟩

theorem readBang_grows (s t : Src) (ht : t.opened = s.opened) {r : List UInt8} (h : bangOpen r = false) (x : List UInt8) :
    readBang t (r ++ x) = ((readBang s r).1, (readBang s r).2.more x) := by
  unfold bangOpen at h
  unfold readBang
  split_ifs at h with h1 h2 h3
  · obtain ⟨r', hr⟩ := isNone_false h
    rw [if_pos h1, if_pos (prefix_grows h1 x)]
    rw [List.isPrefixOf_iff_prefix] at h1
    have hl : 2 ≤ r.length := h1.length_le
    rw [List.drop_append_of_le_length hl, after_grows hr, hr]
    simp [Src.more, ht]
  · obtain ⟨r', hr⟩ := isNone_false h
    have n1 : (Utf8.encode (str% "--")).isPrefixOf (r ++ x) = false := by
      refine prefix_shrinks (Bool.eq_false_iff.2 h1) ?_ x
      rw [List.isPrefixOf_iff_prefix] at h2
      obtain ⟨y, rfl⟩ := h2
      rfl
    rw [if_neg h1, if_pos h2, if_neg (Bool.eq_false_iff.1 n1), if_pos (prefix_grows h2 x)]
    rw [List.isPrefixOf_iff_prefix] at h2
    have hl : 7 ≤ r.length := h2.length_le
    rw [List.drop_append_of_le_length hl, after_grows hr, hr]
    simp [Src.more, ht]
  · obtain ⟨r', hr⟩ := isNone_false h
    have n1 : (Utf8.encode (str% "--")).isPrefixOf (r ++ x) = false := by
      rcases h3 with h3 | h3 <;>
      · rw [List.isPrefixOf_iff_prefix] at h3
        obtain ⟨y, rfl⟩ := h3
        rfl
    have n2 : (Utf8.encode (str% "[CDATA[")).isPrefixOf (r ++ x) = false := by
      rcases h3 with h3 | h3 <;>
      · rw [List.isPrefixOf_iff_prefix] at h3
        obtain ⟨y, rfl⟩ := h3
        rfl
    rw [if_neg h1, if_neg h2, if_pos h3, if_neg (Bool.eq_false_iff.1 n1), if_neg (Bool.eq_false_iff.1 n2),
      if_pos (h3.imp (prefix_grows · x) (prefix_grows · x))]
    have hl : 7 ≤ r.length := by
      rcases h3 with h3 | h3 <;>
      · rw [List.isPrefixOf_iff_prefix] at h3
        exact h3.length_le
    rw [List.drop_append_of_le_length hl, doctypeEnd_grows hr, hr]
    simp [Src.more, ht]
  · simp only [Bool.or_eq_false_iff] at h
    rw [not_or] at h3
    have n1 := prefix_shrinks (Bool.eq_false_iff.2 h1) h.1.1.1 x
    have n2 := prefix_shrinks (Bool.eq_false_iff.2 h2) h.1.1.2 x
    have n3 := prefix_shrinks (Bool.eq_false_iff.2 h3.1) h.1.2 x
    have n4 := prefix_shrinks (Bool.eq_false_iff.2 h3.2) h.2 x
    rw [if_neg h1, if_neg h2, if_neg (not_or.2 h3), if_neg (Bool.eq_false_iff.1 n1), if_neg (Bool.eq_false_iff.1 n2),
      if_neg (not_or.2 ⟨Bool.eq_false_iff.1 n3, Bool.eq_false_iff.1 n4⟩)]
    simp [Src.more, ht]

theorem readMarkup_grows (s t : Src) (ht : t.opened = s.opened) {r : List UInt8} (h : markupOpen r = false) (x : List UInt8) :
    readMarkup t (r ++ x) = ((readMarkup s r).1, (readMarkup s r).2.more x) := by
  cases r with
  | nil => cases h
  | cons b r =>
    rw [List.cons_append]
    simp only [markupOpen, readMarkup] at h ⊢
    split_ifs at h ⊢ with h1 h2 h3
    · exact readBang_grows s t ht h x
    · obtain ⟨r', hr⟩ := isNone_false h
      simp only [readPi, hr, after_grows hr, Src.more, ht]
    · obtain ⟨⟨c, r'⟩, hr⟩ := isNone_false h
      simp only [readEnd, hr, tagEnd_grows hr, ht]
      cases s.opened <;> rfl
    · obtain ⟨⟨c, r'⟩, hr⟩ := isNone_false h
      have := tagEnd_grows hr x
      rw [List.cons_append] at this
      simp only [readStart, hr, this, ht]
      split <;> rfl

theorem readRef_grows (s t : Src) (ht : t.opened = s.opened) {r : List UInt8} (h : refOpen r = false) (x : List UInt8) :
    readRef t (r ++ x) = ((readRef s r).1, (readRef s r).2.more x) := by
  induction r with
  | nil => cases h
  | cons b r ih =>
    rw [List.cons_append]
    unfold refOpen at h
    unfold readRef
    split_ifs at h ⊢ with h1 h2
    · simp [Src.more, ht]
    · simp [Src.more, ht]
    · exact ih h

theorem readOne_grows (s t : Src) (ht : t.opened = s.opened) {b : UInt8} {r : List UInt8} (h : isOpen b r = false) (x : List UInt8) :
    readOne t b (r ++ x) = ((readOne s b r).1, (readOne s b r).2.more x) := by
  unfold isOpen at h
  unfold readOne
  split_ifs at h ⊢ with h1 h2
  · exact readMarkup_grows s t ht h x
  · exact readRef_grows s t ht h x
  · have : (r ++ x).dropWhile isTextB = r.dropWhile isTextB ++ x := by
      clear ht h1 h2
      induction r with
      | nil => cases h
      | cons c r ih =>
        rw [List.cons_append, List.dropWhile_cons, List.dropWhile_cons]
        by_cases hc : isTextB c = true
        · rw [if_pos hc, if_pos hc]
          exact ih (by simpa [hc] using h)
        · rw [if_neg hc, if_neg hc]; rfl
    simp [Src.more, ht, this]

/-! ## What is not settled -/

theorem text_dropWhile {r : List UInt8} (h : r.all isTextB = true) : r.dropWhile isTextB = [] := by
  exact dropWhile_all (by simpa using h)

/-- At the end of a file: nothing, text, an error, or an error and text. -/
inductive Tail : Events → Prop where
  | nil : Tail []
  | text : Tail [some .other]
  | error : Tail [none]
  | both : Tail [none, some .other]

theorem events_textual {r : List UInt8} (h : r.all isTextB = true) (st : List (List UInt8)) :
    events r st = [] ∨ events r st = [some .other] := by
  cases r with
  | nil => exact .inl rfl
  | cons b r =>
    right
    simp only [List.all_cons, Bool.and_eq_true] at h
    have hb : b ≠ 60 ∧ b ≠ 38 := by simpa [isTextB] using h.1
    rw [events_cons]
    simp only [readOne, hb.1, hb.2, if_false, text_dropWhile h.2]
    rfl

theorem part_textual {p r : List UInt8} (h : r.isPrefixOf p = true) (hp : p.all isTextB = true) : r.all isTextB = true := by
  rw [List.isPrefixOf_iff_prefix] at h
  rw [List.all_eq_true] at hp ⊢
  exact fun c hc => hp c (h.subset hc)

theorem refOpen_read (s : Src) {r : List UInt8} (h : refOpen r = true) : readRef s r = (none, { s with bytes := [] }) := by
  induction r with
  | nil => rfl
  | cons b r ih =>
    unfold refOpen at h
    unfold readRef
    split_ifs at h ⊢
    exact ih h

/-- The events of an unfinished one. -/
theorem open_tail {b : UInt8} {r : List UInt8} (h : isOpen b r = true) (st : List (List UInt8)) : Tail (events (b :: r) st) := by
  rw [events_cons]
  unfold isOpen at h
  unfold readOne
  split_ifs at h ⊢ with h1 h2
  · cases r with
    | nil => exact .error
    | cons c r =>
      simp only [markupOpen, readMarkup] at h ⊢
      split_ifs at h ⊢ with g1 g2 g3
      · unfold bangOpen at h
        unfold readBang
        split_ifs at h ⊢ with k1 k2 k3
        · rw [Option.isNone_iff_eq_none] at h; rw [h]; exact .error
        · rw [Option.isNone_iff_eq_none] at h; rw [h]; exact .error
        · rw [Option.isNone_iff_eq_none] at h; rw [h]; exact .error
        · have ht : r.all isTextB = true := by
            simp only [Bool.or_eq_true] at h
            rcases h with ((h | h) | h) | h <;> exact part_textual h (by decide)
          simp only
          rcases events_textual ht st with he | he <;> rw [he]
          · exact .error
          · exact .both
      · rw [Option.isNone_iff_eq_none] at h; simp only [readPi, h]; exact .error
      · rw [Option.isNone_iff_eq_none] at h; simp only [readEnd, h]; exact .error
      · rw [Option.isNone_iff_eq_none] at h; simp only [readStart, h]; exact .error
  · rw [refOpen_read _ h]; exact .error
  · rw [text_dropWhile h]; exact .text

/-! ## The events of a beginning -/

theorem settledAux_events (n : Nat) : ∀ (a : List UInt8) (st : List (List UInt8)), a.length ≤ n →
    (∃ rest, events a st = settledAux n ⟨a, st⟩ ++ rest ∧ Tail rest) ∧ ∀ x, settledAux n ⟨a, st⟩ <+: events (a ++ x) st := by
  induction n with
  | zero =>
    intro a st hn
    obtain rfl : a = [] := List.length_eq_zero_iff.1 (by omega)
    exact ⟨⟨[], rfl, .nil⟩, fun x => List.nil_prefix⟩
  | succ n ih =>
    intro a st hn
    cases a with
    | nil => exact ⟨⟨[], rfl, .nil⟩, fun x => List.nil_prefix⟩
    | cons b r =>
      unfold settledAux
      simp only
      split
      · rename_i h
        exact ⟨⟨_, rfl, open_tail h st⟩, fun x => List.nil_prefix⟩
      · rename_i h
        rw [Bool.not_eq_true] at h
        have hl := readOne_length ⟨b :: r, st⟩ b r
        simp only [List.length_cons] at hn
        obtain ⟨⟨rest, h1, h2⟩, h3⟩ := ih (readOne ⟨b :: r, st⟩ b r).2.bytes (readOne ⟨b :: r, st⟩ b r).2.opened (by omega)
        refine ⟨⟨rest, ?_, h2⟩, fun x => ?_⟩
        · rw [events_cons, h1]; rfl
        · rw [List.cons_append, events_cons, readOne_grows ⟨b :: r, st⟩ ⟨b :: (r ++ x), st⟩ rfl h x]
          obtain ⟨y, hy⟩ := h3 x
          exact ⟨y, congrArg ((readOne ⟨b :: r, st⟩ b r).1 :: ·) hy⟩

theorem eventsOf_eq (a : List UInt8) : eventsOf a = if [0xEF, 0xBB, 0xBF].isPrefixOf a then events (a.drop 3) [] else events a [] := by
  unfold eventsOf
  split <;> rfl

/-- The events of a file: those that do not depend on what follows, and the tail. -/
theorem settled_tail (a : List UInt8) : ∃ rest, eventsOf a = settled a ++ rest ∧ Tail rest := by
  rw [eventsOf_eq]
  unfold settled
  split
  · exact (settledAux_events _ _ _ (Nat.le_refl _)).1
  · split
    · rename_i h
      have ht : a.all isTextB = true := part_textual h (by decide)
      refine ⟨events a [], rfl, ?_⟩
      rcases events_textual ht [] with he | he <;> rw [he]
      · exact .nil
      · exact .text
    · exact (settledAux_events _ _ _ (Nat.le_refl _)).1

theorem settled_grows (a x : List UInt8) : settled a <+: eventsOf (a ++ x) := by
  rw [eventsOf_eq]
  unfold settled
  split
  · rename_i h
    rw [if_pos (prefix_grows h x)]
    rw [List.isPrefixOf_iff_prefix] at h
    have hl : 3 ≤ a.length := h.length_le
    rw [List.drop_append_of_le_length hl]
    exact (settledAux_events _ _ _ (Nat.le_refl _)).2 x
  · split
    · exact List.nil_prefix
    · rename_i h1 h2
      rw [if_neg (Bool.eq_false_iff.1 (prefix_shrinks (Bool.eq_false_iff.2 h1) (Bool.eq_false_iff.2 h2) x))]
      exact (settledAux_events _ _ _ (Nat.le_refl _)).2 x

/-! ## What is settled stays settled -/

theorem longer_prefix {p r : List UInt8} (h : r.isPrefixOf p = false) (x : List UInt8) : (r ++ x).isPrefixOf p = false := by
  rw [Bool.eq_false_iff, ne_eq, List.isPrefixOf_iff_prefix] at h ⊢
  exact fun h' => h ((List.prefix_append r x).trans h')

theorem bangOpen_grows {r : List UInt8} (h : bangOpen r = false) (x : List UInt8) : bangOpen (r ++ x) = false := by
  unfold bangOpen at h ⊢
  split_ifs at h with h1 h2 h3
  · obtain ⟨a, ha⟩ := isNone_false h
    have hl : 2 ≤ r.length := (List.isPrefixOf_iff_prefix.1 h1).length_le
    rw [if_pos (prefix_grows h1 x), List.drop_append_of_le_length hl, after_grows ha]
    rfl
  · obtain ⟨a, ha⟩ := isNone_false h
    have hl : 7 ≤ r.length := (List.isPrefixOf_iff_prefix.1 h2).length_le
    have h0 : ¬ (Utf8.encode (str% "--")).isPrefixOf (r ++ x) = true := by
      intro h'
      rw [List.isPrefixOf_iff_prefix] at h' h2
      rcases List.prefix_or_prefix_of_prefix h' (h2.trans (List.prefix_append r x)) with h | h <;> revert h <;> decide
    rw [if_neg h0, if_pos (prefix_grows h2 x), List.drop_append_of_le_length hl, after_grows ha]
    rfl
  · obtain ⟨a, ha⟩ := isNone_false h
    have hl : 7 ≤ r.length := by
      rcases h3 with h3 | h3 <;> exact (List.isPrefixOf_iff_prefix.1 h3).length_le
    have key : ∀ p : List UInt8, (∀ q, q = Utf8.encode (str% "DOCTYPE") ∨ q = Utf8.encode (str% "doctype") → ¬ p <+: q ∧ ¬ q <+: p) →
        ¬ p.isPrefixOf (r ++ x) = true := by
      intro p hp h'
      rw [List.isPrefixOf_iff_prefix] at h'
      rcases h3 with h3 | h3 <;> rw [List.isPrefixOf_iff_prefix] at h3
      · rcases List.prefix_or_prefix_of_prefix h' (h3.trans (List.prefix_append r x)) with h | h
        · exact (hp _ (.inl rfl)).1 h
        · exact (hp _ (.inl rfl)).2 h
      · rcases List.prefix_or_prefix_of_prefix h' (h3.trans (List.prefix_append r x)) with h | h
        · exact (hp _ (.inr rfl)).1 h
        · exact (hp _ (.inr rfl)).2 h
    rw [if_neg (key _ (by rintro q (rfl | rfl) <;> decide)), if_neg (key _ (by rintro q (rfl | rfl) <;> decide)),
      if_pos (h3.imp (prefix_grows · x) (prefix_grows · x)), List.drop_append_of_le_length hl, doctypeEnd_grows ha]
    rfl
  · simp only [Bool.or_eq_false_iff] at h
    obtain ⟨⟨⟨h4, h5⟩, h6⟩, h7⟩ := h
    rw [not_or] at h3
    rw [if_neg (Bool.eq_false_iff.1 (prefix_shrinks (Bool.eq_false_iff.2 h1) h4 x)),
      if_neg (Bool.eq_false_iff.1 (prefix_shrinks (Bool.eq_false_iff.2 h2) h5 x)),
      if_neg (not_or.2 ⟨Bool.eq_false_iff.1 (prefix_shrinks (Bool.eq_false_iff.2 h3.1) h6 x),
        Bool.eq_false_iff.1 (prefix_shrinks (Bool.eq_false_iff.2 h3.2) h7 x)⟩)]
    simp only [longer_prefix h4, longer_prefix h5, longer_prefix h6, longer_prefix h7, Bool.or_false]

theorem tagEnd_settled {q : Option UInt8} {bs : List UInt8} (h : (tagEnd q bs).isNone = false) (x : List UInt8) :
    (tagEnd q (bs ++ x)).isNone = false := by
  obtain ⟨⟨c, r⟩, ha⟩ := isNone_false h
  rw [tagEnd_grows ha]
  rfl

theorem markupOpen_grows {r : List UInt8} (h : markupOpen r = false) (x : List UInt8) : markupOpen (r ++ x) = false := by
  cases r with
  | nil => cases h
  | cons b r =>
    rw [List.cons_append]
    unfold markupOpen at h ⊢
    simp only at h ⊢
    split_ifs at h ⊢ with h1 h2 h3
    · exact bangOpen_grows h x
    · obtain ⟨a, ha⟩ := isNone_false h
      rw [after_grows ha]
      rfl
    · exact tagEnd_settled h x
    · exact tagEnd_settled h x

theorem refOpen_grows {r : List UInt8} (h : refOpen r = false) (x : List UInt8) : refOpen (r ++ x) = false := by
  induction r with
  | nil => cases h
  | cons b r ih =>
    rw [List.cons_append]
    unfold refOpen at h ⊢
    split_ifs at h ⊢
    · rfl
    · rfl
    · exact ih h

theorem isOpen_grows {b : UInt8} {r : List UInt8} (h : isOpen b r = false) (x : List UInt8) : isOpen b (r ++ x) = false := by
  unfold isOpen at h ⊢
  split_ifs at h ⊢
  · exact markupOpen_grows h x
  · exact refOpen_grows h x
  · rw [List.all_append, h, Bool.false_and]

theorem settledAux_grows (n : Nat) : ∀ (m : Nat) (a : List UInt8) (st : List (List UInt8)) (x : List UInt8), n ≤ m →
    settledAux n ⟨a, st⟩ <+: settledAux m ⟨a ++ x, st⟩ := by
  induction n with
  | zero => intro m a st x _; exact List.nil_prefix
  | succ n ih =>
    intro m a st x hm
    obtain ⟨m, rfl⟩ : ∃ k, m = k + 1 := ⟨m - 1, by omega⟩
    cases a with
    | nil => exact List.nil_prefix
    | cons b r =>
      unfold settledAux
      simp only [List.cons_append]
      split
      · exact List.nil_prefix
      · rename_i h
        rw [Bool.not_eq_true] at h
        rw [isOpen_grows h x, if_neg (by simp), readOne_grows ⟨b :: r, st⟩ ⟨b :: (r ++ x), st⟩ rfl h x]
        obtain ⟨y, hy⟩ := ih m (readOne ⟨b :: r, st⟩ b r).2.bytes (readOne ⟨b :: r, st⟩ b r).2.opened x (by omega)
        exact ⟨y, congrArg ((readOne ⟨b :: r, st⟩ b r).1 :: ·) hy⟩

/-- More bytes, more events. -/
theorem settled_mono (a x : List UInt8) : settled a <+: settled (a ++ x) := by
  conv_lhs => unfold settled
  split
  · rename_i h
    unfold settled
    rw [if_pos (prefix_grows h x)]
    rw [List.isPrefixOf_iff_prefix] at h
    have hl : 3 ≤ a.length := h.length_le
    rw [List.drop_append_of_le_length hl]
    exact settledAux_grows _ _ _ _ _ (by simp)
  · split
    · exact List.nil_prefix
    · rename_i h1 h2
      unfold settled
      rw [if_neg (Bool.eq_false_iff.1 (prefix_shrinks (Bool.eq_false_iff.2 h1) (Bool.eq_false_iff.2 h2) x)),
        if_neg (Bool.eq_false_iff.1 (longer_prefix (Bool.eq_false_iff.2 h2) x))]
      exact settledAux_grows _ _ _ _ _ (by simp)

end Osmio.QuickXml
