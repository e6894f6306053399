import Verif.Spec.ChangesetStream
import Verif.Proofs.ChangesetsOver
/-! The changeset readers over any source: the same answers as over its bytes; how far the source is read. -/

namespace Osmio.QuickXml
open Spec

/-! ## The byte order mark -/

/-- The byte order mark. -/
def bom : List UInt8 := [0xEF, 0xBB, 0xBF]

/-- The same events, or a text before them. -/
def Lead (X E : Events) : Prop := X = E ∨ X = some .other :: E

theorem isTextB_iff {b : UInt8} : isTextB b = true ↔ b ≠ 60 ∧ b ≠ 38 := by simp [isTextB]

theorem events_mark (t : List UInt8) : Lead (events (bom ++ t) []) (events t []) := by
  have h1 : events (bom ++ t) [] = some .other :: events (t.dropWhile isTextB) [] := by
    show events (0xEF :: 0xBB :: 0xBF :: t) [] = _
    rw [events_cons]
    rfl
  rw [h1]
  cases t with
  | nil => exact .inr rfl
  | cons b r =>
    by_cases hb : isTextB b = true
    · left
      have hb' := isTextB_iff.1 hb
      rw [events_cons, List.dropWhile_cons, if_pos hb]
      simp [readOne, hb'.1, hb'.2]
    · right
      rw [List.dropWhile_cons, if_neg hb]

theorem settledIn_mark (t : List UInt8) : Lead (settledIn (bom ++ t) []) (settledIn t []) := by
  have ho : isOpen 0xEF (0xBB :: 0xBF :: t) = t.all isTextB := rfl
  have h1 : settledIn (bom ++ t) [] = if t.all isTextB then [] else some .other :: settledIn (t.dropWhile isTextB) [] := by
    show settledIn (0xEF :: 0xBB :: 0xBF :: t) [] = _
    rw [settledIn_cons, ho]
    rfl
  rw [h1]
  cases t with
  | nil => exact .inl rfl
  | cons b r =>
    by_cases hb : isTextB b = true
    · left
      have hb' := isTextB_iff.1 hb
      have ho' : isOpen b r = r.all isTextB := by simp [isOpen, hb'.1, hb'.2]
      rw [settledIn_cons, ho', List.dropWhile_cons, if_pos hb, List.all_cons, hb, Bool.true_and]
      simp [readOne, hb'.1, hb'.2]
    · right
      rw [List.dropWhile_cons, if_neg hb, List.all_cons, Bool.eq_false_iff.2 hb, Bool.false_and]
      rfl

theorem settledIn_part {a : List UInt8} (h : a <+: bom) : settledIn a [] = [] := by
  have ht : a.all isTextB = true := part_textual (List.isPrefixOf_iff_prefix.2 h) (by decide)
  cases a with
  | nil => rfl
  | cons b r =>
    rw [List.all_cons, Bool.and_eq_true] at ht
    have hb := isTextB_iff.1 ht.1
    rw [settledIn_cons, if_pos]
    simp [isOpen, hb.1, hb.2]
    simpa using ht.2

theorem settled_eq (a : List UInt8) : settled a = if bom.isPrefixOf a then settledIn (a.drop 3) [] else settledIn a [] := by
  show (if bom.isPrefixOf a = true then settledIn (a.drop 3) [] else if a.isPrefixOf bom = true then [] else settledIn a []) = _
  split
  · rfl
  · split
    · rename_i h'; exact (settledIn_part (List.isPrefixOf_iff_prefix.1 h')).symm
    · rfl

/-- The byte order mark may have been dropped where it is. -/
def MarkOk (mark : Bool) (a : List UInt8) : Prop := mark = true → bom <+: a ∨ a <+: bom

theorem settledFrom_lead {mark : Bool} {a : List UInt8} (h : MarkOk mark a) : Lead (settledFrom mark a) (settled a) := by
  unfold settledFrom
  rw [settled_eq]
  cases mark with
  | true =>
    rcases h rfl with h | h
    · rw [if_pos (List.isPrefixOf_iff_prefix.2 h)]; exact .inl rfl
    · have hl : a.length ≤ 3 := h.length_le
      simp only [if_true]
      rw [List.drop_eq_nil_of_le hl]
      split
      · exact .inl rfl
      · rw [settledIn_part h]; exact .inl rfl
  | false =>
    simp only [Bool.false_eq_true, if_false]
    split
    · rename_i hb
      obtain ⟨t, rfl⟩ := List.isPrefixOf_iff_prefix.1 hb
      exact settledIn_mark t
    · exact .inl rfl

theorem eventsOfSource_eq (later : Events) (all : Source) :
    eventsOfSource later all = toCome later [] (if bom.isPrefixOf (Source.before all).1 then all.drop 3 else all) := by
  unfold eventsOfSource
  by_cases hb : bom.isPrefixOf (Source.before all).1 = true
  · obtain ⟨r, hr⟩ : ∃ r, all = bom.map some ++ r := by
      obtain ⟨t, ht⟩ := List.isPrefixOf_iff_prefix.1 hb
      match all with
      | some a :: some b :: some c :: r =>
        simp only [Source.before, bom, List.cons_append, List.nil_append, List.cons.injEq] at ht
        obtain ⟨rfl, rfl, rfl, -⟩ := ht
        exact ⟨r, rfl⟩
      | [] => cases ht
      | none :: _ => cases ht
      | [some _] => cases ht
      | some _ :: none :: _ => cases ht
      | [some _, some _] => cases ht
      | some _ :: some _ :: none :: _ => cases ht
    subst hr
    rw [if_pos hb]
    have e : (bom.map some ++ r).drop 3 = r := rfl
    rw [e, before_bytes]
    unfold toCome eventsFailing
    rw [eventsOf_eq, settled_eq]
    have h2 : bom.isPrefixOf (bom ++ (Source.before r).1) = true := List.isPrefixOf_iff_prefix.2 (List.prefix_append _ _)
    simp only [h2, if_true]
    have h3 : List.isPrefixOf [0xEF, 0xBB, 0xBF] (bom ++ (Source.before r).1) = true := h2
    rw [if_pos h3]
    rfl
  · rw [if_neg hb]
    unfold toCome eventsFailing
    have hb' : ¬ List.isPrefixOf [0xEF, 0xBB, 0xBF] (Source.before all).1 = true := hb
    rw [eventsOf_eq, settled_eq, if_neg hb, if_neg hb']

theorem allEvents_lead {later : Events} {mark : Bool} {all : Source} (h : mark = true → ∃ r, all = bom.map some ++ r) :
    Lead (allEvents later mark all) (eventsOfSource later all) := by
  rw [eventsOfSource_eq]
  unfold allEvents
  cases mark with
  | true =>
    obtain ⟨r, rfl⟩ := h rfl
    rw [before_bytes, if_pos rfl, if_pos (List.isPrefixOf_iff_prefix.2 (List.prefix_append _ _))]
    exact .inl rfl
  | false =>
    simp only [Bool.false_eq_true, if_false]
    split
    · rename_i hb
      unfold toCome
      have h1 : (Source.before (all.drop 3)).2 = (Source.before all).2 ∧ (Source.before all).1 = bom ++ (Source.before (all.drop 3)).1 := by
        obtain ⟨t, ht⟩ := List.isPrefixOf_iff_prefix.1 hb
        match all with
        | some a :: some b :: some c :: r =>
          simp only [Source.before, bom, List.cons_append, List.nil_append, List.cons.injEq] at ht
          obtain ⟨rfl, rfl, rfl, -⟩ := ht
          exact ⟨rfl, rfl⟩
        | [] => cases ht
        | none :: _ => cases ht
        | [some _] => cases ht
        | some _ :: none :: _ => cases ht
        | [some _, some _] => cases ht
        | some _ :: some _ :: none :: _ => cases ht
      rw [h1.1, h1.2]
      split
      · exact events_mark _
      · rcases settledIn_mark (Source.before (all.drop 3)).1 with h | h
        · left; rw [h]
        · right; rw [h]; rfl
    · exact .inl rfl

theorem marked_bom {rd : AnyReader} {R : rd.S → Source → Prop} {cap : Nat} (hd : DeliversAt cap rd R) {s : rd.S} {all : Source} (hr : R s all)
    (h : marked rd cap s = true) : ∃ r, all = bom.map some ++ r := by
  have hfill := fillBuf_delivers hd _ ⟨s, []⟩ all (Nat.lt_succ_self _) rfl hr
  unfold marked at h
  rcases hf : rd.fillBuf cap ⟨s, []⟩ with ⟨_ | bs, b⟩
  · rw [hf] at h; cases h
  · rw [hf] at h hfill
    obtain ⟨t, ht⟩ := List.isPrefixOf_iff_prefix.1 h
    cases bs with
    | nil => cases ht
    | cons x xs =>
      obtain ⟨-, -, r, rfl, -⟩ := hfill
      rw [← ht]
      exact ⟨t.map some ++ r, by simp [bom]⟩

/-! ## Growing -/

theorem settledIn_grows (n : Nat) : ∀ (a : List UInt8) (st : List (List UInt8)) (x : List UInt8), a.length ≤ n → settledIn a st <+: settledIn (a ++ x) st := by
  induction n with
  | zero =>
    intro a st x h
    obtain rfl : a = [] := List.length_eq_zero_iff.1 (by omega)
    exact List.nil_prefix
  | succ n ih =>
    intro a st x h
    cases a with
    | nil => exact List.nil_prefix
    | cons b r =>
      cases hc : isOpen b r with
      | true => rw [settledIn_cons, if_pos hc]; exact List.nil_prefix
      | false =>
        rw [settledIn_closed hc, settledIn_cons, hc]
        have := readOne_length ⟨b :: r, st⟩ b r
        simp only [List.length_cons] at h
        exact (List.prefix_cons_inj _).2 (ih _ _ x (by omega))

theorem settledFrom_mono {mark : Bool} {a b : List UInt8} (h : a <+: b) : settledFrom mark a <+: settledFrom mark b := by
  obtain ⟨x, rfl⟩ := h
  unfold settledFrom
  cases mark with
  | false => exact settledIn_grows _ a [] x (Nat.le_refl _)
  | true =>
    simp only [if_true]
    rw [List.drop_append]
    exact settledIn_grows _ _ [] _ (Nat.le_refl _)

theorem settledIn_events (n : Nat) : ∀ (a : List UInt8) (st : List (List UInt8)), a.length ≤ n → settledIn a st <+: events a st := by
  induction n with
  | zero =>
    intro a st h
    obtain rfl : a = [] := List.length_eq_zero_iff.1 (by omega)
    exact List.nil_prefix
  | succ n ih =>
    intro a st h
    cases a with
    | nil => exact List.nil_prefix
    | cons b r =>
      rw [settledIn_cons, events_cons]
      split
      · exact List.nil_prefix
      · have := readOne_length ⟨b :: r, st⟩ b r
        simp only [List.length_cons] at h
        exact (List.prefix_cons_inj _).2 (ih _ _ (by omega))

theorem toCome_begins (later : Events) (st : List (List UInt8)) (src : Source) : settledIn (Source.before src).1 st <+: toCome later st src := by
  unfold toCome
  split
  · exact settledIn_events _ _ _ (Nat.le_refl _)
  · exact List.prefix_append _ _

theorem before_drop {all : Source} {mark : Bool} (h : mark = true → ∃ r, all = bom.map some ++ r) :
    (Source.before (if mark then all.drop 3 else all)).1 = if mark then (Source.before all).1.drop 3 else (Source.before all).1 := by
  cases mark with
  | false => rfl
  | true => obtain ⟨r, rfl⟩ := h rfl; rw [before_bytes]; rfl

theorem allEvents_begins (later : Events) {mark : Bool} {all : Source} (h : mark = true → ∃ r, all = bom.map some ++ r) :
    settledFrom mark (Source.before all).1 <+: allEvents later mark all := by
  unfold settledFrom allEvents
  rw [← before_drop h]
  exact toCome_begins _ _ _

end Osmio.QuickXml

namespace Osmio.Changesets
open QuickXml Spec Spec.Cs

/-! ## Answers -/

/-- Two readers answer the same, their states being related. -/
def Agree {σ τ α : Type} (f : Nat → σ → Option (Except Err (Option α) × σ)) (g : Nat → τ → Option (Except Err (Option α) × τ)) (T : σ → τ → Prop) : Prop :=
  (∀ s u r u', T s u → Returns g u r u' → ∃ s', T s' u' ∧ Returns f s r s') ∧
  ∀ s u r s', T s u → Returns f s r s' → ∃ u', T s' u' ∧ Returns g u r u'

section
variable {σ τ γ α : Type} {f : Nat → σ → Option (Except Err (Option α) × σ)} {g : Nat → τ → Option (Except Err (Option α) × τ)}
  {T : σ → τ → Prop} {st : γ → Events → τ}

theorem agree_to (h : Agree f g T) {u u' : τ} {rs : List (Except Err (Option α))} (ha : Answers g u rs u') :
    ∀ {s : σ}, T s u → ∃ s', T s' u' ∧ Answers f s rs s' := by
  induction ha with
  | nil => exact fun ht => ⟨_, ht, .nil⟩
  | cons h1 _ ih =>
    intro s ht
    obtain ⟨s1, t1, r1⟩ := h.1 _ _ _ _ ht h1
    obtain ⟨s', t', r'⟩ := ih t1
    exact ⟨s', t', .cons r1 r'⟩

theorem agree_from (h : Agree f g T) {s s' : σ} {rs : List (Except Err (Option α))} (ha : Answers f s rs s') :
    ∀ {u : τ}, T s u → ∃ u', T s' u' ∧ Answers g u rs u' := by
  induction ha with
  | nil => exact fun ht => ⟨_, ht, .nil⟩
  | cons h1 _ ih =>
    intro u ht
    obtain ⟨u1, t1, r1⟩ := h.2 _ _ _ _ ht h1
    obtain ⟨u', t', r'⟩ := ih t1
    exact ⟨u', t', .cons r1 r'⟩

/-- A text before the other events makes no difference. -/
def SkipsText (g : Nat → τ → Option (Except Err (Option α) × τ)) (st : γ → Events → τ) : Prop :=
  ∀ n c E, g (n + 1) (st c (some .other :: E)) = g n (st c E)

theorem lead_returns (hf : ∀ n s x, g n s = some x → g (n + 1) s = some x) (hk : SkipsText g st) {X E : Events} (hl : Lead X E) {c : γ}
    {r : Except Err (Option α)} {s' : τ} : Returns g (st c X) r s' ↔ Returns g (st c E) r s' := by
  rcases hl with rfl | rfl
  · exact Iff.rfl
  · constructor
    · rintro ⟨n, h⟩
      exact ⟨n, by rw [← hk]; exact hf _ _ _ h⟩
    · rintro ⟨n, h⟩
      exact ⟨n + 1, by rw [hk]; exact h⟩

theorem lead_answers (hf : ∀ n s x, g n s = some x → g (n + 1) s = some x) (hk : SkipsText g st) {X E : Events} (hl : Lead X E) {c : γ}
    {rs : List (Except Err (Option α))} : (∃ s', Answers g (st c X) rs s') ↔ ∃ s', Answers g (st c E) rs s' := by
  constructor
  · rintro ⟨s', h⟩
    cases h with
    | nil => exact ⟨_, .nil⟩
    | cons h1 h2 => exact ⟨_, .cons ((lead_returns hf hk hl).1 h1) h2⟩
  · rintro ⟨s', h⟩
    cases h with
    | nil => exact ⟨_, .nil⟩
    | cons h1 h2 => exact ⟨_, .cons ((lead_returns hf hk hl).2 h1) h2⟩

/-- A call that does not see the end depends only on the events it takes. -/
def Framed (g : Nat → τ → Option (Except Err (Option α) × τ)) (st : γ → Events → τ) : Prop :=
  ∀ n c E r s', g n (st c E) = some (r, s') → r ≠ .ok none → ∃ D c' E', s' = st c' E' ∧ E = D ++ E' ∧ ∀ X, g n (st c (D ++ X)) = some (r, st c' X)

theorem framed_answers (hg : Framed g st) {s s' : τ} {rs : List (Except Err (Option α))} (ha : Answers g s rs s') : (∀ r ∈ rs, r ≠ .ok none) →
    ∀ {c E}, s = st c E → ∃ D c' E', s' = st c' E' ∧ E = D ++ E' ∧ ∀ X, Answers g (st c (D ++ X)) rs (st c' X) := by
  induction ha with
  | nil => rintro - c E rfl; exact ⟨[], c, E, rfl, rfl, fun X => .nil⟩
  | cons h1 _ ih =>
    rintro hr c E rfl
    obtain ⟨n, h1⟩ := h1
    obtain ⟨D1, c1, E1, rfl, rfl, h2⟩ := hg n c E _ _ h1 (hr _ List.mem_cons_self)
    obtain ⟨D2, c2, E2, rfl, rfl, h3⟩ := ih (fun r h => hr r (List.mem_cons_of_mem _ h)) rfl
    refine ⟨D1 ++ D2, c2, E2, rfl, by rw [List.append_assoc], fun X => .cons ⟨n, ?_⟩ (h3 X)⟩
    rw [List.append_assoc]
    exact h2 _

/-- The first `k` answers are the same whatever follows these events. -/
def Fixed (g : Nat → τ → Option (Except Err (Option α) × τ)) (st : γ → Events → τ) (c : γ) (E : Events) (rs : List (Except Err (Option α))) : Prop :=
  (∀ r ∈ rs, r ≠ .ok none) ∧ .error .xml ∉ rs ∧ ∃ c' E', ∀ X, Answers g (st c (E ++ X)) rs (st c' (E' ++ X))

theorem fixed_or (h : ∀ c E, Steps g st c E ∨ Stuck g st c E) (k : Nat) : ∀ c E,
    (∃ rs c' E', rs.length = k ∧ (∀ r ∈ rs, r ≠ .ok none) ∧ ∀ X, Answers g (st c (E ++ X)) rs (st c' (E' ++ X))) ∨
    (∃ rs c' E', rs.length < k ∧ (∀ X, Answers g (st c (E ++ X)) rs (st c' (E' ++ X))) ∧ Stuck g st c' E') := by
  induction k with
  | zero => exact fun c E => .inl ⟨[], c, E, rfl, by simp, fun X => .nil⟩
  | succ k ih =>
    intro c E
    rcases h c E with ⟨r, c1, E1, -, hr, n, hn⟩ | hs
    · rcases ih c1 E1 with ⟨rs, c', E', h1, h2, h3⟩ | ⟨rs, c', E', h1, h2, h3⟩
      · refine .inl ⟨r :: rs, c', E', by simp [h1], ?_, fun X => .cons ⟨n, hn X⟩ (h3 X)⟩
        intro r' hr'
        rcases List.mem_cons.1 hr' with rfl | hr'
        · exact hr
        · exact h2 _ hr'
      · exact .inr ⟨r :: rs, c', E', by simp only [List.length_cons]; omega, fun X => .cons ⟨n, hn X⟩ (h2 X), h3⟩
    · exact .inr ⟨[], c, E, by simp, fun X => .nil, hs⟩

theorem eventsOfSource_fails (later : Events) (a : List UInt8) : eventsOfSource later (a.map some ++ [none]) = settled a ++ none :: later := by
  unfold eventsOfSource
  rw [before_bytes]
  simp [Source.before, eventsFailing]

theorem eventsOfSource_begins (later : Events) (a : List UInt8) (after : Source) : settled a <+: eventsOfSource later (a.map some ++ after) := by
  unfold eventsOfSource
  rw [before_bytes]
  simp only
  split
  · exact settled_grows _ _
  · exact (settled_mono _ _).trans (List.prefix_append _ _)

/-- What it means that the beginning of a file settles answers, in terms of its events. -/
theorem settles_fixed (h : ∀ c E, Steps g st c E ∨ Stuck g st c E) (hf : ∀ n s x, g n s = some x → g (n + 1) s = some x) {c : γ} {k : Nat}
    {a : List UInt8} : SettlesFor g (st c) k a ↔ ∃ rs, rs.length = k ∧ Fixed g st c (settled a) rs := by
  constructor
  · rintro ⟨rs, hl, hx, ha⟩
    obtain ⟨s', ha'⟩ := ha [none] []
    rw [eventsOfSource_fails] at ha'
    rcases fixed_or h k c (settled a) with ⟨rs', c', E', h1, h2, h3⟩ | ⟨rs', c', E', h1, h2, h3⟩
    · obtain ⟨rfl, -⟩ := answers_unique hf (h3 _) ha' (by omega)
      exact ⟨rs', h1, h2, hx, c', E', h3⟩
    · exfalso
      obtain ⟨c'', ⟨n, hn⟩, -⟩ := h3
      have h4 : Answers g (st c (settled a ++ none :: [])) (rs' ++ [.error .xml]) (st c'' []) := Answers.append (h2 _) (.cons ⟨n, hn _⟩ .nil)
      obtain ⟨s2, h5⟩ := answers_take ha' (n := rs'.length + 1) (by omega)
      obtain ⟨e, -⟩ := answers_unique hf h4 h5 (by simp; omega)
      have : Except.error Err.xml ∈ rs.take (rs'.length + 1) := by rw [← e]; simp
      exact hx (List.mem_of_mem_take this)
  · rintro ⟨rs, hl, h1, h2, c', E', h3⟩
    refine ⟨rs, hl, h2, fun after later => ?_⟩
    obtain ⟨X, hX⟩ := eventsOfSource_begins later a after
    rw [← hX]
    exact ⟨_, h3 X⟩

theorem fixed_lead (hf : ∀ n s x, g n s = some x → g (n + 1) s = some x) (hk : SkipsText g st) {X E : Events} (hl : Lead X E) {c : γ}
    {rs : List (Except Err (Option α))} : Fixed g st c X rs ↔ Fixed g st c E rs := by
  have tail : ∀ Y, Lead (X ++ Y) (E ++ Y) := fun Y => by
    rcases hl with rfl | rfl
    · exact .inl rfl
    · exact .inr rfl
  constructor
  · rintro ⟨h1, h2, c', E', h3⟩
    refine ⟨h1, h2, ?_⟩
    cases rs with
    | nil => exact ⟨c, E, fun Y => .nil⟩
    | cons r rs =>
      refine ⟨c', E', fun Y => ?_⟩
      cases h3 Y with
      | cons g1 g2 => exact .cons ((lead_returns hf hk (tail Y)).1 g1) g2
  · rintro ⟨h1, h2, c', E', h3⟩
    refine ⟨h1, h2, ?_⟩
    cases rs with
    | nil => exact ⟨c, X, fun Y => .nil⟩
    | cons r rs =>
      refine ⟨c', E', fun Y => ?_⟩
      cases h3 Y with
      | cons g1 g2 => exact .cons ((lead_returns hf hk (tail Y)).2 g1) g2

theorem fixed_grows {c : γ} {E : Events} {rs : List (Except Err (Option α))} (h : Fixed g st c E rs) (Y : Events) : Fixed g st c (E ++ Y) rs := by
  obtain ⟨h1, h2, c', E', h3⟩ := h
  exact ⟨h1, h2, c', E' ++ Y, fun X => by rw [List.append_assoc, List.append_assoc]; exact h3 _⟩

theorem fixed_nil (h : ∀ c E, Steps g st c E ∨ Stuck g st c E) (hf : ∀ n s x, g n s = some x → g (n + 1) s = some x) {c : γ}
    {rs : List (Except Err (Option α))} (hx : Fixed g st c [] rs) : rs = [] := by
  obtain ⟨-, h2, c', E', h3⟩ := hx
  cases rs with
  | nil => rfl
  | cons r rs =>
    exfalso
    rcases h c [] with ⟨_, _, _, hl, _⟩ | ⟨c'', ⟨n, hn⟩, -⟩
    · simp at hl
    · cases h3 [none] with
      | cons h4 _ =>
        obtain ⟨e, -⟩ := returns_unique hf h4 ⟨n, hn []⟩
        exact h2 (by rw [e]; exact List.mem_cons_self)

theorem map_some_inj {a b : List UInt8} {x y : Source} (h : a.map some ++ x = b.map some ++ y) (hl : a.length ≤ b.length) : a <+: b := by
  have h1 := congrArg (List.take a.length) h
  rw [List.take_append_of_le_length (by simp), List.take_append_of_le_length (by simpa using hl), ← List.map_take, ← List.map_take] at h1
  have h2 := List.map_injective_iff.2 (Option.some_injective _) h1
  rw [List.take_length] at h2
  rw [h2]
  exact List.take_prefix _ _

/-- Where the source of a reader is after its first answers. -/
theorem pulled_position (h : ∀ c E, Steps g st c E ∨ Stuck g st c E) (hf : ∀ n s x, g n s = some x → g (n + 1) s = some x) (hk : SkipsText g st)
    (hg : Framed g st) (hst : ∀ c E c' E', st c E = st c' E' → E = E') {rd : AnyReader} {R : rd.S → Source → Prop} {cap : Nat} (hd : DeliversAt cap rd R)
    {later : Events} {s : rd.S} {a : List UInt8} {after : Source} (hr : R s (a.map some ++ after)) {c c' : γ} {k : Nat}
    (h0 : 0 < k) (hj : Just (SettlesFor g (st c) k) a) {p : Pull rd.S} {evs : Events} {rs : List (Except Err (Option α))} (hl : rs.length = k)
    (ha : Answers g (st c (allEvents later (marked rd cap s) (a.map some ++ after))) rs (st c' evs))
    (hp : ToPull R cap later s (a.map some ++ after) p evs) :
    ∃ (ahead : List UInt8) (rest : Source), ahead.length < cap ∧ after = ahead.map some ++ rest ∧ R p.src.inner rest := by
  have hm : marked rd cap s = true → ∃ r, a.map some ++ after = bom.map some ++ r := marked_bom hd hr
  generalize hmark : marked rd cap s = mark at ha hm
  have hok : ∀ {u : List UInt8} {r : Source}, a.map some ++ after = u.map some ++ r → MarkOk mark u := by
    intro u r hu hmk
    obtain ⟨r', hr'⟩ := hm hmk
    rcases Nat.le_total bom.length u.length with hle | hle
    · exact .inl (map_some_inj (hr'.symm.trans hu) hle)
    · exact .inr (map_some_inj (hu.symm.trans hr') hle)
  obtain ⟨rs', hl', hfix⟩ := (settles_fixed h hf).1 hj.1
  have hfixa := (fixed_lead hf hk (settledFrom_lead (hok rfl))).2 hfix
  have hbefore : settledFrom mark a <+: settledFrom mark (Source.before (a.map some ++ after)).1 := by
    rw [before_bytes]
    exact settledFrom_mono (List.prefix_append _ _)
  obtain ⟨X, hX⟩ := hbefore.trans (allEvents_begins later hm)
  obtain ⟨hne, hxml, c1, E1, h3⟩ := hfixa
  have h3X := h3 X
  rw [hX] at h3X
  obtain ⟨rfl, he⟩ := answers_unique hf ha h3X (by omega)
  obtain rfl := hst _ _ _ _ he
  obtain ⟨D, c2, E2, e1, e2, e3⟩ := framed_answers hg ha hne rfl
  obtain rfl := hst _ _ _ _ e1
  have ha0 : a ≠ [] := by
    rintro rfl
    have := fixed_nil h hf (show Fixed g st c [] rs from hfix)
    subst this
    simp at hl
    omega
  have hD : Fixed g st c D rs := ⟨hne, hxml, c2, [], fun X => e3 X⟩
  have hDa : settledFrom mark a = D ++ E1 := by
    rw [← List.append_assoc, ← hX] at e2
    exact List.append_cancel_right e2
  have hDlen : D.length ≤ (settledFrom mark a).length := by rw [hDa]; simp
  have hDnil : D ≠ [] := by
    rintro rfl
    have := fixed_nil h hf hD
    subst this
    simp at hl
    omega
  rcases hp with ⟨done, hdone, hflow⟩ | ⟨rfl, he'⟩
  · rw [hmark] at hdone hflow
    obtain rfl : done = D := by rw [e2] at hdone; exact (List.append_cancel_right hdone).symm
    have hno : ¬ (settledFrom mark (Source.before (a.map some ++ after)).1).length < done.length := by
      have := hbefore.length_le
      omega
    rcases hflow with ⟨-, -, h1⟩ | ⟨-, -, rest, h1, -, ⟨used, low, k1, k2, k3, k4, k5⟩ | h2⟩
    · exact absurd h1 hno
    · have hused : SettlesFor g (st c) k used := by
        refine (settles_fixed h hf).2 ⟨rs, hl, (fixed_lead hf hk (settledFrom_lead (hok k1))).1 ?_⟩
        have := k2 []
        rw [List.append_nil] at this
        rw [this]
        exact fixed_grows hD _
      have hau : a <+: used := by
        rcases Nat.le_total a.length used.length with hle | hle
        · exact map_some_inj k1 hle
        · have hua : used <+: a := map_some_inj k1.symm hle
          by_contra hn
          refine hj.2 used hua ?_ hused
          rintro rfl
          exact hn List.prefix_rfl
      obtain ⟨ahead, rfl⟩ := hau
      refine ⟨ahead, rest, ?_, ?_, h1⟩
      · have hapos : 0 < a.length := List.length_pos_iff.2 ha0
        rw [List.length_append] at k4
        rcases k5 with rfl | k5
        · simp only [List.length_nil] at k4
          omega
        · rw [if_pos rfl] at k5
          have : low.length < a.length := by
            by_contra hge
            have hal : a <+: low := List.prefix_of_prefix_length_le (List.prefix_append _ _) k3 (by omega)
            have := (settledFrom_mono (mark := mark) hal).length_le
            omega
          omega
      · rw [List.map_append, List.append_assoc] at k1
        exact List.append_cancel_left k1
    · exact absurd h2 hno
  · rw [hmark] at he'
    exfalso
    rw [e2] at he'
    have := congrArg List.length he'
    simp only [List.length_append] at this
    exact hDnil (List.length_eq_zero_iff.1 (by omega))

end

/-! ## The two readers -/

theorem readTags_framed (n : Nat) : ∀ (tags : TagMap) (E : Events) (r : Except Err TagMap) (E' : Events), readTags n tags E = some (r, E') →
    ∃ D, E = D ++ E' ∧ ∀ X, readTags n tags (D ++ X) = some (r, X) := by
  induction n with
  | zero => intro _ _ _ _ h; cases h
  | succ n ih =>
    intro tags E r E' h
    cases E with
    | nil => rw [readTags_nil] at h; cases h
    | cons y t =>
      cases y with
      | none => cases h; exact ⟨[none], rfl, fun X => rfl⟩
      | some e =>
        have step : ∀ tags', (∀ X, readTags (n + 1) tags (some e :: X) = readTags n tags' X) →
            ∃ D, some e :: t = D ++ E' ∧ ∀ X, readTags (n + 1) tags (D ++ X) = some (r, X) := by
          intro tags' hx
          rw [hx] at h
          obtain ⟨D, rfl, h2⟩ := ih _ _ _ _ h
          exact ⟨some e :: D, rfl, fun X => by rw [List.cons_append, hx, h2]⟩
        rcases event_cases e with hc | ⟨attrs, ho⟩ | ⟨hc, hs⟩
        · rw [readTags_closes hc] at h
          cases h
          exact ⟨[some e], rfl, fun X => readTags_closes hc _ _ _⟩
        · cases ht : tagOf attrs with
          | ok kv => exact step (tags.insert kv.1 kv.2) fun X => by rw [readTags_tag ho, ht]
          | error er =>
            rw [readTags_tag ho, ht] at h
            cases h
            exact ⟨[some e], rfl, fun X => by rw [List.cons_append, readTags_tag ho, ht]; rfl⟩
        · exact step tags fun X => readTags_skip hc hs _ _ _

/-- The changeset reader has no state beside its events. -/
abbrev plain (_ : Unit) (E : Events) : Events := E

theorem next_framed : Framed nextChangeset plain := by
  intro n
  induction n with
  | zero => intro _ _ _ _ h; cases h
  | succ n ih =>
    intro c E r E' h hr
    cases E with
    | nil => cases h; exact absurd rfl hr
    | cons y t =>
      cases y with
      | none => cases h; exact ⟨[none], (), _, rfl, rfl, fun X => rfl⟩
      | some e =>
        rcases next_cases e with ⟨nm, attrs, rfl, hn⟩ | ⟨nm, attrs, rfl, hn⟩ | hs
        · have h' := h
          unfold plain at h'
          rw [next_start hn] at h'
          cases hb : setAttrs {} attrs with
          | error er =>
            rw [hb] at h'
            cases h'
            exact ⟨[_], (), _, rfl, rfl, fun X => by unfold plain; rw [List.cons_append, next_start hn, hb]; rfl⟩
          | ok b =>
            simp only [hb] at h'
            cases ht : readTags n [] t with
            | none => rw [ht] at h'; cases h'
            | some y =>
              obtain ⟨x, E1⟩ := y
              obtain ⟨D, rfl, h2⟩ := readTags_framed n _ _ _ _ ht
              rw [ht] at h'
              cases x with
              | error er =>
                cases h'
                exact ⟨_ :: D, (), _, rfl, rfl, fun X => by unfold plain; rw [List.cons_append, next_start hn, hb]; simp only [h2]⟩
              | ok m =>
                cases h'
                exact ⟨_ :: D, (), _, rfl, rfl, fun X => by unfold plain; rw [List.cons_append, next_start hn, hb]; simp only [h2]⟩
        · have h' := h
          unfold plain at h'
          rw [next_empty hn] at h'
          cases hb : setAttrs {} attrs with
          | error er =>
            rw [hb] at h'
            cases h'
            exact ⟨[_], (), _, rfl, rfl, fun X => by unfold plain; rw [List.cons_append, next_empty hn, hb]; rfl⟩
          | ok b =>
            rw [hb] at h'
            cases h'
            exact ⟨[_], (), _, rfl, rfl, fun X => by unfold plain; rw [List.cons_append, next_empty hn, hb]; rfl⟩
        · have h' := h
          unfold plain at h'
          rw [next_skip hs] at h'
          obtain ⟨D, _, E1, rfl, rfl, h2⟩ := ih () t r E' h' hr
          exact ⟨some e :: D, (), _, rfl, rfl, fun X => by unfold plain; rw [List.cons_append, next_skip hs]; exact h2 X⟩

theorem tag_framed : Framed nextTag withEvents := by
  intro n
  induction n with
  | zero => intro _ _ _ _ h; cases h
  | succ n ih =>
    rintro ⟨id, tags⟩ E r s' h hr
    cases E with
    | nil => cases h; exact absurd rfl hr
    | cons y t =>
      cases y with
      | none => cases h; exact ⟨[none], (id, tags), _, rfl, rfl, fun X => rfl⟩
      | some e =>
        have step : ∀ id' tags', (∀ X, nextTag (n + 1) ⟨some e :: X, id, tags⟩ = nextTag n ⟨X, id', tags'⟩) →
            ∃ D c' E', s' = withEvents c' E' ∧ some e :: t = D ++ E' ∧ ∀ X, nextTag (n + 1) (withEvents (id, tags) (D ++ X)) = some (r, withEvents c' X) := by
          intro id' tags' hx
          have h' := (hx t).symm.trans h
          obtain ⟨D, c', E', rfl, rfl, h2⟩ := ih (id', tags') t r s' h' hr
          exact ⟨some e :: D, c', E', rfl, rfl, fun X => (hx _).trans (h2 X)⟩
        have stop : ∀ x id' tags', (∀ X, nextTag (n + 1) ⟨some e :: X, id, tags⟩ = some (x, ⟨X, id', tags'⟩)) →
            ∃ D c' E', s' = withEvents c' E' ∧ some e :: t = D ++ E' ∧ ∀ X, nextTag (n + 1) (withEvents (id, tags) (D ++ X)) = some (r, withEvents c' X) := by
          intro x id' tags' hx
          have h' := (hx t).symm.trans h
          cases h'
          exact ⟨[some e], (id', tags'), t, rfl, rfl, fun X => hx X⟩
        rcases tag_cases e with hc | ⟨nm, attrs, rfl, hn⟩ | ⟨attrs, ho⟩ | ⟨h1, h2, h3⟩
        · cases id with
          | none => exact stop _ _ _ fun X => tag_closes_none hc _ _ _
          | some id => exact stop _ _ _ fun X => tag_closes_some hc _ _ _ _
        · rcases hi : idAttrs id attrs with ⟨id', er | u⟩
          · exact stop (.error er) id' tags fun X => by rw [tag_start hn, hi]
          · exact step id' [] fun X => by rw [tag_start hn, hi]
        · cases ht : tagOf attrs with
          | ok kv => exact step id (tags ++ [kv]) fun X => by rw [tag_tag ho, ht]
          | error er => exact stop (.error er) id tags fun X => by rw [tag_tag ho, ht]
        · exact step id tags fun X => tag_skip h1 h2 h3 n X id tags

theorem next_skips : SkipsText nextChangeset plain := fun n _ E => next_skip (by rintro a ⟨_, h | h, _⟩ <;> cases h) n E

theorem tag_skips : SkipsText nextTag withEvents := fun n c E =>
  tag_skip (by rintro ⟨_, h, _⟩; cases h) (by intro _ _ h; cases h) (by rintro a ⟨_, h | h, _⟩ <;> cases h) n E c.1 c.2

section readers
variable {rd : AnyReader} {R : rd.S → Source → Prop} {all : Source} {later : Events} {s : rd.S}

theorem pull_simulates (hd : DeliversAt bufferSize rd R) (hr : R s all) :
    Simulates (Pull.readEventInto rd bufferSize) (ToPull R bufferSize later s all) := fun p evs h =>
  readEventInto_pulls hd hr p evs h

theorem next_agree (hd : DeliversAt bufferSize rd R) (hr : R s all) :
    Agree (ReaderOver.nextChangeset rd) nextChangeset fun r evs => ToPull R bufferSize later s all r.reader evs := by
  constructor
  · rintro r evs x evs' ht ⟨n, hn⟩
    obtain ⟨p', h1, N, h2⟩ := next_to (pull_simulates hd hr) n _ _ _ _ ht hn
    exact ⟨⟨p'⟩, h1, N, by unfold ReaderOver.nextChangeset; rw [h2 N (Nat.le_refl _)]; rfl⟩
  · rintro r evs x r' ht ⟨n, hn⟩
    unfold ReaderOver.nextChangeset at hn
    cases hx : nextChangesetOver (Pull.readEventInto rd bufferSize) n r.reader with
    | none => rw [hx] at hn; cases hn
    | some y =>
      obtain ⟨y, p⟩ := y
      rw [hx] at hn
      cases hn
      obtain ⟨evs', h1, h2⟩ := next_from (pull_simulates hd hr) n _ _ _ _ ht hx
      exact ⟨evs', h1, n, h2⟩

theorem tag_agree (hd : DeliversAt bufferSize rd R) (hr : R s all) :
    Agree (nextTagFrom rd) nextTag (TagSim (ToPull R bufferSize later s all)) := by
  constructor
  · rintro r u x u' ht ⟨n, hn⟩
    obtain ⟨p', h1, N, h2⟩ := tag_to (pull_simulates hd hr) n _ _ _ _ ht hn
    exact ⟨p', h1, N, h2 N (Nat.le_refl _)⟩
  · rintro r u x r' ht ⟨n, hn⟩
    obtain ⟨u', h1, h2⟩ := tag_from (pull_simulates hd hr) n _ _ _ _ ht hn
    exact ⟨u', h1, n, h2⟩

end readers
end Osmio.Changesets
