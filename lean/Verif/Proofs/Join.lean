import Verif.Spec.Join
import Verif.Proofs.ChangesetText
import Verif.Proofs.ChangesetStream
/-!
# Proofs: texts joined end to end, the changeset readers
-/

namespace Osmio.QuickXml
open Spec.Cs

/-! ## Open elements -/

/-- How a call changes the list of open elements. -/
def Opened (st : List (List UInt8)) : Event → List (List UInt8) → Prop
  | .start n _, st' => st' = n :: st
  | .end_ n, st' => st = n :: st'
  | _, st' => st' = st

theorem readBang_opened {s : Src} {r : List UInt8} {ev : Event} (h : (readBang s r).1 = some ev) : Opened s.opened ev (readBang s r).2.opened := by
  unfold readBang at h ⊢
  split_ifs at h ⊢
  all_goals
    split at h <;> simp_all [Opened]
    cases h; rfl

theorem readRef_opened {s : Src} {r : List UInt8} {ev : Event} (h : (readRef s r).1 = some ev) : Opened s.opened ev (readRef s r).2.opened := by
  induction r with
  | nil => cases h
  | cons b r ih =>
    unfold readRef at h ⊢
    split_ifs at h ⊢
    · cases h; rfl
    · exact ih h

theorem readOne_opened {s : Src} {b : UInt8} {r : List UInt8} {ev : Event} (h : (readOne s b r).1 = some ev) :
    Opened s.opened ev (readOne s b r).2.opened := by
  unfold readOne at h ⊢
  split_ifs at h ⊢
  · cases r with
    | nil => cases h
    | cons c r =>
      simp only [readMarkup] at h ⊢
      split_ifs at h ⊢
      · exact readBang_opened h
      · unfold readPi at h ⊢
        cases ha : after (Utf8.encode (str% "?>")) r with
        | none => rw [ha] at h; cases h
        | some r' => rw [ha] at h; cases h; rfl
      · unfold readEnd at h ⊢
        cases ha : tagEnd none r with
        | none => rw [ha] at h; cases h
        | some p =>
          rw [ha] at h
          cases ho : s.opened with
          | nil => rw [ho] at h; cases h
          | cons n up =>
            rw [ho] at h
            simp only at h
            split_ifs at h
            cases h; rfl
      · unfold readStart at h ⊢
        cases ha : tagEnd none (c :: r) with
        | none => rw [ha] at h; cases h
        | some p =>
          rw [ha] at h
          simp only at h ⊢
          split_ifs at h ⊢
          · cases h; rfl
          · cases h; rfl
  · exact readRef_opened h
  · cases h; rfl

/-! ## Text at the beginning and at the end -/

theorem events_lead (r : List UInt8) (st : List (List UInt8)) : ∃ k, events r st = others k ++ events (r.dropWhile isTextB) st := by
  cases r with
  | nil => exact ⟨0, rfl⟩
  | cons b r =>
    by_cases hb : isTextB b = true
    · have hb' : b ≠ 60 ∧ b ≠ 38 := by simpa [isTextB] using hb
      refine ⟨1, ?_⟩
      rw [events_cons, List.dropWhile_cons, if_pos hb]
      simp only [readOne, hb'.1, hb'.2, if_false]
      rfl
    · exact ⟨0, by rw [List.dropWhile_cons, if_neg hb]; rfl⟩

theorem eventsOf_lead (a : List UInt8) : ∃ k, eventsOf a = others k ++ events (a.dropWhile isTextB) [] := by
  rw [eventsOf_eq]
  split
  · rename_i h
    rw [List.isPrefixOf_iff_prefix] at h
    obtain ⟨r, rfl⟩ := h
    exact events_lead r []
  · exact events_lead a []

theorem markupOpen_error (s : Src) {r : List UInt8} (h : markupOpen r = true) : (readMarkup s r).1 = none := by
  cases r with
  | nil => rfl
  | cons c r =>
    simp only [markupOpen, readMarkup] at h ⊢
    split_ifs at h ⊢
    · unfold bangOpen at h
      unfold readBang
      split_ifs at h ⊢
      · rw [Option.isNone_iff_eq_none] at h; rw [h]
      · rw [Option.isNone_iff_eq_none] at h; rw [h]
      · rw [Option.isNone_iff_eq_none] at h; rw [h]
      · rfl
    · rw [Option.isNone_iff_eq_none] at h; simp only [readPi, h]
    · rw [Option.isNone_iff_eq_none] at h; simp only [readEnd, h]
    · rw [Option.isNone_iff_eq_none] at h; simp only [readStart, h]

/-- The events of a whole text and of what follows it. -/
theorem events_join (n : Nat) : ∀ (a : List UInt8) (st : List (List UInt8)), a.length ≤ n → none ∉ events a st →
    st.length + (events a st).countP isStart = (events a st).countP isStop → ∀ rest,
    ∃ k, events (a ++ rest) st = events a st ++ (others k ++ events (rest.dropWhile isTextB) []) := by
  induction n with
  | zero =>
    intro a st hn _ hc rest
    obtain rfl : a = [] := List.length_eq_zero_iff.1 (by omega)
    have : st = [] := by simpa [events_nil] using hc
    subst this
    exact events_lead rest []
  | succ n ih =>
    intro a st hn h0 hc rest
    cases a with
    | nil =>
      have : st = [] := by simpa [events_nil] using hc
      subst this
      exact events_lead rest []
    | cons b r =>
      cases ho : isOpen b r with
      | false =>
        have hl := readOne_length ⟨b :: r, st⟩ b r
        simp only [List.length_cons] at hn
        rw [events_cons] at h0 hc ⊢
        simp only [List.mem_cons, not_or] at h0
        obtain ⟨ev, hev⟩ := Option.ne_none_iff_exists'.1 (Ne.symm h0.1)
        have hop := readOne_opened hev
        obtain ⟨k, hk⟩ := ih (readOne ⟨b :: r, st⟩ b r).2.bytes (readOne ⟨b :: r, st⟩ b r).2.opened (by omega) h0.2 (by
          rw [hev, List.countP_cons, List.countP_cons] at hc
          generalize (readOne ⟨b :: r, st⟩ b r).2.opened = st' at hop hc ⊢
          generalize events _ _ = E at hc ⊢
          cases ev with
          | start m as => obtain rfl := hop; simp [isStart, isStop] at hc ⊢; omega
          | end_ m => simp only [Opened] at hop; subst hop; simp [isStart, isStop] at hc ⊢; omega
          | empty m as => obtain rfl := hop; simpa [isStart, isStop] using hc
          | other => obtain rfl := hop; simpa [isStart, isStop] using hc) rest
        refine ⟨k, ?_⟩
        rw [List.cons_append, events_cons, readOne_grows ⟨b :: r, st⟩ ⟨b :: (r ++ rest), st⟩ rfl ho rest, List.cons_append]
        exact congrArg _ hk
      | true =>
        unfold isOpen at ho
        split_ifs at ho with h1 h2
        · exfalso
          apply h0
          rw [events_cons, readOne, if_pos h1, markupOpen_error _ ho]
          exact List.mem_cons_self
        · exfalso
          apply h0
          rw [events_cons, readOne, if_neg h1, if_pos h2, refOpen_read _ ho]
          exact List.mem_cons_self
        · have he : events (b :: r) st = [some .other] := by
            rw [events_cons]
            simp only [readOne, h1, h2, if_false, text_dropWhile ho]
            rfl
          rw [he] at hc ⊢
          have : st = [] := by simpa [isStart, isStop] using hc
          subst this
          refine ⟨0, ?_⟩
          rw [List.cons_append, events_cons]
          simp only [readOne, h1, h2, if_false]
          rw [dropWhile_append_all (by simpa using ho)]
          rfl

theorem countP_others (p : Option Event → Bool) (hp : p (some .other) = false) (k : Nat) (E : Events) : (others k ++ E).countP p = E.countP p := by
  rw [List.countP_append]
  simp [others, List.countP_replicate, hp]

theorem eventsOf_join {a : List UInt8} (ha : Whole a) (rest : List UInt8) :
    ∃ j k l E, eventsOf a = others j ++ E ∧ eventsOf (a ++ rest) = others k ++ (E ++ (others l ++ events (rest.dropWhile isTextB) [])) := by
  obtain ⟨j, hj⟩ := eventsOf_lead a
  obtain ⟨k, hk⟩ := eventsOf_lead (a ++ rest)
  obtain ⟨h0, hc⟩ := ha
  rw [hj] at h0 hc
  rw [countP_others _ rfl, countP_others _ rfl] at hc
  refine ⟨j, k, ?_⟩
  rw [hj, hk]
  by_cases hx : a.dropWhile isTextB = []
  · have hall : ∀ b ∈ a, isTextB b = true := by
      clear hj hk h0 hc
      induction a with
      | nil => simp
      | cons b a ih =>
        rw [List.dropWhile_cons] at hx
        split_ifs at hx with hb
        simpa [hb] using ih hx
    refine ⟨0, [], by rw [hx]; rfl, ?_⟩
    rw [dropWhile_append_all hall]
    rfl
  · have e : (a ++ rest).dropWhile isTextB = a.dropWhile isTextB ++ rest := by
      clear hj hk h0 hc
      induction a with
      | nil => exact absurd rfl hx
      | cons b a ih =>
        rw [List.cons_append, List.dropWhile_cons, List.dropWhile_cons]
        rw [List.dropWhile_cons] at hx
        split_ifs at hx ⊢
        · exact ih hx
        · rfl
    obtain ⟨l, hl⟩ := events_join _ _ [] (Nat.le_refl (a.dropWhile isTextB).length) (fun h => h0 (List.mem_append_right _ h)) (by simpa using hc) rest
    exact ⟨l, _, rfl, by rw [e, hl]⟩

/-! ## Documents are whole -/

theorem reports_sound {ts : List Spec.Lex.Tok} {evs : Events} (h : Reports ts evs) : none ∉ evs := by
  induction h with
  | nil => simp
  | start _ ih => simpa using ih
  | empty _ ih => simpa using ih
  | stop _ ih => simpa using ih
  | text _ ih => simpa [others] using ih
  | space _ ih => simpa [others] using ih

theorem tree_balanced {ts : List Spec.Lex.Tok} {f : Spec.Forest} (h : Spec.Lex.Tree ts f) : ∀ {evs : Events}, Reports ts evs →
    evs.countP isStart = evs.countP isStop := by
  induction h with
  | nil => rintro _ ⟨⟩; rfl
  | text _ ih => rintro _ ⟨⟩; rename_i h; rw [countP_others _ rfl, countP_others _ rfl]; exact ih h
  | space _ ih => rintro _ ⟨⟩; rename_i h; rw [countP_others _ rfl, countP_others _ rfl]; exact ih h
  | empty _ ih => rintro _ ⟨⟩; rename_i h; simpa [isStart, isStop] using ih h
  | elem _ _ ihk ih =>
    intro evs h
    cases h with
    | start h =>
      obtain ⟨e1, e2, rfl, h1, h2⟩ := reports_append h
      cases h2 with
      | stop h2 =>
        have := ihk h1
        have := ih h2
        simp only [List.countP_cons, List.countP_append, isStart, isStop, if_true, if_false, Bool.false_eq_true]
        omega

theorem document_whole {t : Str} {ts : List Spec.Lex.Tok} {f : Spec.Forest} (h : Spec.Lex.Document t ts f) : Whole (Utf8.encode t) := by
  have hr := (reports_document h).1
  have ht : ∃ f, Spec.Lex.Tree ts f := by
    cases h with
    | plain h => exact ⟨_, Spec.Lex.tree_body h⟩
    | declared _ h => exact ⟨_, .space (Spec.Lex.tree_body h)⟩
  obtain ⟨f', ht⟩ := ht
  exact ⟨reports_sound hr, tree_balanced ht hr⟩

end Osmio.QuickXml

namespace Osmio.Changesets
open QuickXml Spec.Cs

/-! ## Calls on texts that are joined -/

section calls
variable {τ γ α : Type} {g : Nat → τ → Option (Except Err (Option α) × τ)} {st : γ → Events → τ}

/-- A call that comes to the end goes on in what follows. -/
def Passes (g : Nat → τ → Option (Except Err (Option α) × τ)) (st : γ → Events → τ) : Prop :=
  ∀ n c E s', g n (st c E) = some (.ok none, s') → ∃ c', s' = st c' [] ∧ ∀ m X y, g m (st c' X) = some y → ∃ m', g m' (st c (E ++ X)) = some y

theorem results_pass {s s1 : τ} (h : ∀ m y, g m s1 = some y → ∃ m', g m' s = some y) {rs : List (Except Err α)} {s' : τ}
    (hr : Results g s1 rs s') : Results g s rs s' := by
  cases hr with
  | done h' => obtain ⟨n, hn⟩ := h'; exact .done (h _ _ hn)
  | ok h' t => obtain ⟨n, hn⟩ := h'; exact .ok (h _ _ hn) t
  | err h' t => obtain ⟨n, hn⟩ := h'; exact .err (h _ _ hn) t

theorem results_others (hk : SkipsText g st) (c : γ) (k : Nat) (E : Events) {rs : List (Except Err α)} {s' : τ}
    (hr : Results g (st c E) rs s') : Results g (st c (others k ++ E)) rs s' := by
  induction k with
  | zero => exact hr
  | succ k ih => exact results_pass (fun m y hy => ⟨m + 1, by rw [← hy]; exact hk m c _⟩) ih

theorem others_results (hf : ∀ n s x, g n s = some x → g (n + 1) s = some x) (hk : SkipsText g st) (c : γ) (k : Nat) (E : Events)
    {rs : List (Except Err α)} {s' : τ} (hr : Results g (st c (others k ++ E)) rs s') : Results g (st c E) rs s' := by
  induction k with
  | zero => exact hr
  | succ k ih => exact ih (results_pass (fun m y hy => ⟨m, by rw [← hk]; exact hf _ _ _ hy⟩) hr)

theorem results_join (hp : Passes g st) (hg : Framed g st) {s s' : τ} {rs : List (Except Err α)} (h : Results g s rs s') : ∀ {c E}, s = st c E →
    ∃ c', s' = st c' [] ∧ ∀ X rs' s'', Results g (st c' X) rs' s'' → Results g (st c (E ++ X)) (rs ++ rs') s'' := by
  induction h with
  | done h =>
    rintro c E rfl
    obtain ⟨n, hn⟩ := h
    obtain ⟨c', h1, h2⟩ := hp n c E _ hn
    exact ⟨c', h1, fun X rs' s'' hr => results_pass (fun m y hy => h2 m X y hy) hr⟩
  | ok h _ ih =>
    rintro c E rfl
    obtain ⟨n, hn⟩ := h
    obtain ⟨D, c1, E1, rfl, rfl, h2⟩ := hg n c E _ _ hn (by simp)
    obtain ⟨c', h3, h4⟩ := ih rfl
    refine ⟨c', h3, fun X rs' s'' hr => .ok ⟨n, ?_⟩ (h4 X rs' s'' hr)⟩
    rw [List.append_assoc]
    exact h2 _
  | err h _ ih =>
    rintro c E rfl
    obtain ⟨n, hn⟩ := h
    obtain ⟨D, c1, E1, rfl, rfl, h2⟩ := hg n c E _ _ hn (by simp)
    obtain ⟨c', h3, h4⟩ := ih rfl
    refine ⟨c', h3, fun X rs' s'' hr => .err ⟨n, ?_⟩ (h4 X rs' s'' hr)⟩
    rw [List.append_assoc]
    exact h2 _

theorem results_whole (hf : ∀ n s x, g n s = some x → g (n + 1) s = some x) (hk : SkipsText g st) (hp : Passes g st) (hg : Framed g st) {a : List UInt8}
    (ha : Whole a) (rest : List UInt8) {c : γ} {rs : List (Except Err α)} {s' : τ} (h : Results g (st c (eventsOf a)) rs s') :
    ∃ c', s' = st c' [] ∧ ∀ rs' s'', Results g (st c' (eventsOf rest)) rs' s'' → Results g (st c (eventsOf (a ++ rest))) (rs ++ rs') s'' := by
  obtain ⟨j, k, l, E, h1, h2⟩ := eventsOf_join ha rest
  obtain ⟨i, h3⟩ := eventsOf_lead rest
  rw [h1] at h
  obtain ⟨c', h4, h5⟩ := results_join hp hg (others_results hf hk c j E h) rfl
  refine ⟨c', h4, fun rs' s'' hr => ?_⟩
  rw [h3] at hr
  rw [h2]
  exact results_others hk c k _ (h5 _ _ _ (results_others hk c' l _ (others_results hf hk c' i _ hr)))

end calls

theorem built_some (b : Builder) (m : TagMap) : built b m ≠ .ok none := by
  unfold built
  cases ({ b with tags := some m }).build <;> simp [Except.map]

theorem next_passes : Passes nextChangeset plain := by
  intro n
  induction n with
  | zero => intro _ _ _ h; cases h
  | succ n ih =>
    intro c E s' h
    cases E with
    | nil => cases h; exact ⟨(), rfl, fun m X y hy => ⟨m, hy⟩⟩
    | cons y t =>
      cases y with
      | none => cases h
      | some e =>
        unfold plain at h
        rcases next_cases e with ⟨nm, attrs, rfl, hn⟩ | ⟨nm, attrs, rfl, hn⟩ | hs
        · exfalso
          rw [next_start hn] at h
          cases hb : setAttrs {} attrs with
          | error er => rw [hb] at h; cases h
          | ok b =>
            simp only [hb] at h
            rcases ht : readTags n [] t with _ | ⟨_ | m, E1⟩ <;> rw [ht] at h
            · cases h
            · cases h
            · simp only [Option.some.injEq, Prod.mk.injEq] at h
              exact built_some _ _ h.1
        · exfalso
          rw [next_empty hn] at h
          cases hb : setAttrs {} attrs with
          | error er => rw [hb] at h; cases h
          | ok b =>
            simp only [hb, Option.some.injEq, Prod.mk.injEq] at h
            exact built_some _ _ h.1
        · rw [next_skip hs] at h
          obtain ⟨c', h1, h2⟩ := ih () t s' h
          refine ⟨c', h1, fun m X y hy => ?_⟩
          obtain ⟨m', hm⟩ := h2 m X y hy
          exact ⟨m' + 1, by unfold plain; rw [List.cons_append, next_skip hs]; exact hm⟩

theorem tag_passes : Passes nextTag withEvents := by
  intro n
  induction n with
  | zero => intro _ _ _ h; cases h
  | succ n ih =>
    rintro ⟨id, tags⟩ E s' h
    cases E with
    | nil => cases h; exact ⟨(id, tags), rfl, fun m X y hy => ⟨m, hy⟩⟩
    | cons y t =>
      cases y with
      | none => cases h
      | some e =>
        have step : ∀ id' tags', (∀ k X, nextTag (k + 1) ⟨some e :: X, id, tags⟩ = nextTag k ⟨X, id', tags'⟩) →
            ∃ c', s' = withEvents c' [] ∧ ∀ m X y, nextTag m (withEvents c' X) = some y →
              ∃ m', nextTag m' (withEvents (id, tags) (some e :: t ++ X)) = some y := by
          intro id' tags' hx
          obtain ⟨c', h1, h2⟩ := ih (id', tags') t s' (by rw [← h]; exact (hx n t).symm)
          refine ⟨c', h1, fun m X y hy => ?_⟩
          obtain ⟨m', hm⟩ := h2 m X y hy
          exact ⟨m' + 1, by rw [← hm]; exact hx m' (t ++ X)⟩
        have stop : ∀ {r s}, nextTag (n + 1) ⟨some e :: t, id, tags⟩ = some (r, s) → r = .ok none := by
          intro r s hr
          have := hr.symm.trans h
          simp only [Option.some.injEq, Prod.mk.injEq] at this
          exact this.1
        rcases tag_cases e with hc | ⟨nm, attrs, rfl, hn⟩ | ⟨attrs, ho⟩ | ⟨h1, h2, h3⟩
        · exfalso
          cases id with
          | none => cases stop (tag_closes_none hc _ _ _)
          | some id => cases stop (tag_closes_some hc _ _ _ _)
        · rcases hi : idAttrs id attrs with ⟨id', er | u⟩
          · have hh : nextTag (n + 1) ⟨some (.start nm attrs) :: t, id, tags⟩ = _ := tag_start hn attrs n t id tags
            rw [hi] at hh
            cases stop hh
          · exact step id' [] fun k X => by rw [tag_start hn, hi]
        · cases ht : tagOf attrs with
          | ok kv => exact step id (tags ++ [kv]) fun k X => by rw [tag_tag ho, ht]
          | error er =>
            have hh : nextTag (n + 1) ⟨some e :: t, id, tags⟩ = _ := tag_tag ho n t id tags
            rw [ht] at hh
            cases stop hh
        · exact step id tags fun k X => tag_skip h1 h2 h3 k X id tags

end Osmio.Changesets
