import Verif.Model.XmlOver
import Verif.Proofs.XmlCut
import Verif.Proofs.AnySource
/-! # Lemmas: the XML readers over any implementation of `Read` -/

namespace Osmio.Utf8

theorem decodeFirst_take {b : UInt8} {r : List UInt8} {c : Char} {k : Nat} (h : decodeFirst b r = some (c, k)) :
    decodeFirst b (r.take (k - 1)) = some (c, k) ∧ 1 ≤ k := by
  revert h
  unfold decodeFirst
  dsimp only
  split_ifs
  · intro h; cases h; exact ⟨rfl, by omega⟩
  · intro h; cases h
  · rcases r with _ | ⟨b1, r⟩
    · intro h; cases h
    · dsimp only
      intro h
      have hk : k = 2 := by
        split at h
        · obtain ⟨_, _, h2⟩ := Option.map_eq_some_iff.1 h; cases h2; rfl
        · cases h
      subst hk
      exact ⟨h, by omega⟩
  · rcases r with _ | ⟨b1, _ | ⟨b2, r⟩⟩
    · intro h; cases h
    · intro h; cases h
    · dsimp only
      intro h
      have hk : k = 3 := by
        split at h
        · obtain ⟨_, _, h2⟩ := Option.map_eq_some_iff.1 h; cases h2; rfl
        · cases h
      subst hk
      exact ⟨h, by omega⟩
  · rcases r with _ | ⟨b1, _ | ⟨b2, _ | ⟨b3, r⟩⟩⟩
    · intro h; cases h
    · intro h; cases h
    · intro h; cases h
    · dsimp only
      intro h
      have hk : k = 4 := by
        split at h
        · obtain ⟨_, _, h2⟩ := Option.map_eq_some_iff.1 h; cases h2; rfl
        · cases h
      subst hk
      exact ⟨h, by omega⟩
  · intro h; cases h

/-- Four bytes decide. -/
theorem decodeFirst_four {b b1 b2 b3 : UInt8} (t : List UInt8) : decodeFirst b (b1 :: b2 :: b3 :: t) = decodeFirst b [b1, b2, b3] := rfl

theorem decodePrefixAux_enough (n : Nat) : ∀ (bs : List UInt8), bs.length ≤ n → decodePrefixAux n bs = decodePrefix bs := by
  induction n using Nat.strongRecOn with
  | ind n ih =>
    intro bs hn
    rcases bs with _ | ⟨b, r⟩
    · unfold decodePrefix; cases n <;> rfl
    · obtain ⟨n, rfl⟩ : ∃ m, n = m + 1 := ⟨n - 1, by simp only [List.length_cons] at hn; omega⟩
      simp only [List.length_cons] at hn
      have hd := fun k => List.length_drop (i := k) (l := r)
      unfold decodePrefix
      simp only [List.length_cons, decodePrefixAux]
      cases decodeFirst b r with
      | none => rfl
      | some p =>
        obtain ⟨c, k⟩ := p
        have := hd (k - 1)
        dsimp only
        rw [ih n (by omega) _ (by omega)]
        by_cases h : r.length = n
        · rw [h, ih n (by omega) _ (by omega)]
        · rw [ih r.length (by omega) _ (by omega)]

theorem decodePrefix_cons {b : UInt8} {r : List UInt8} {c : Char} {k : Nat} (h : decodeFirst b r = some (c, k)) :
    decodePrefix (b :: r) = (c :: (decodePrefix (r.drop (k - 1))).1, (decodePrefix (r.drop (k - 1))).2) := by
  have hd := List.length_drop (i := k - 1) (l := r)
  conv => lhs; unfold decodePrefix
  simp only [List.length_cons, decodePrefixAux, h]
  rw [decodePrefixAux_enough _ _ (by omega)]

theorem decodePrefix_cons_none {b : UInt8} {r : List UInt8} (h : decodeFirst b r = none) : decodePrefix (b :: r) = ([], false) := by
  unfold decodePrefix
  simp only [List.length_cons, decodePrefixAux, h]

/-- Exactly one character. -/
def IsChar (bs : List UInt8) (c : Char) : Prop := ∃ b r, bs = b :: r ∧ decodeFirst b r = some (c, bs.length)

theorem decodePrefix_char {bs : List UInt8} {c : Char} (h : IsChar bs c) (t : List UInt8) :
    decodePrefix (bs ++ t) = (c :: (decodePrefix t).1, (decodePrefix t).2) := by
  obtain ⟨b, r, rfl, h⟩ := h
  have := (decodeFirst_append h t).1
  rw [List.cons_append, decodePrefix_cons this]
  simp

/-- Not yet a character. -/
def NoChar (bs : List UInt8) : Prop := ∀ b r, bs = b :: r → decodeFirst b r = none

theorem decodePrefix_noChar {bs : List UInt8} (h : NoChar bs) : (decodePrefix bs).1 = [] := by
  rcases bs with _ | ⟨b, r⟩
  · rfl
  · rw [decodePrefix_cons_none (h b r rfl)]

/-- One more byte. -/
theorem noChar_snoc {bs : List UInt8} (h : NoChar bs) (b : UInt8) :
    (∃ c, IsChar (bs ++ [b]) c ∧ decode (bs ++ [b]) = some [c]) ∨ (NoChar (bs ++ [b]) ∧ ∀ c s, decode (bs ++ [b]) ≠ some (c :: s)) := by
  obtain ⟨b0, r0, e⟩ : ∃ b0 r0, bs ++ [b] = b0 :: r0 := by cases bs <;> exact ⟨_, _, rfl⟩
  rw [e]
  cases hd : decodeFirst b0 r0 with
  | none =>
    refine .inr ⟨fun b r hb => ?_, fun c s hs => ?_⟩
    · cases hb; exact hd
    · simp only [decode, List.length_cons, decodeAux, hd] at hs
      cases hs
  | some p =>
    obtain ⟨c, k⟩ := p
    obtain ⟨h1, h2⟩ := decodeFirst_take hd
    have h3 := (decodeFirst_append hd []).2
    have hk : k = r0.length + 1 := by
      by_contra hne
      rcases bs with _ | ⟨b1, r1⟩
      · cases e
        simp only [List.length_nil] at h3 hne
        omega
      · rw [List.cons_append, List.cons.injEq] at e
        obtain ⟨rfl, rfl⟩ := e
        have hlen : k - 1 ≤ r1.length := by
          simp only [List.length_append, List.length_cons, List.length_nil] at h3 hne
          omega
        rw [List.take_append_of_le_length hlen] at h1
        have := (decodeFirst_append h1 (r1.drop (k - 1))).1
        rw [List.take_append_drop, h _ _ rfl] at this
        cases this
    subst hk
    refine .inl ⟨c, ⟨b0, r0, rfl, hd⟩, ?_⟩
    simp only [decode, List.length_cons, decodeAux, hd, Nat.add_sub_cancel, List.drop_length]
    cases r0.length <;> rfl

/-- A beginning of a text that is shorter than the text of some characters. -/
theorem decodePrefix_short {u v w : List UInt8} {cs : Str} (h : decodePrefix u = (cs, true)) (hv : NoChar v) (hw : w <+: u ++ v) :
    (decodePrefix w).1 <+: cs := by
  have : (decodePrefix (u ++ v)).1 = cs := by
    clear hw
    induction hn : u.length using Nat.strongRecOn generalizing u cs with
    | ind n ih =>
      rcases u with _ | ⟨b, r⟩
      · rw [List.nil_append, decodePrefix_noChar hv]
        exact (congrArg Prod.fst h)
      · cases hd : decodeFirst b r with
        | none => rw [decodePrefix_cons_none hd] at h; cases h
        | some p =>
          obtain ⟨c, k⟩ := p
          rw [decodePrefix_cons hd] at h
          obtain ⟨h1, h2⟩ := decodeFirst_append hd v
          rw [List.cons_append, decodePrefix_cons h1, List.drop_append_of_le_length h2]
          rw [Prod.mk.injEq] at h
          obtain ⟨h3, h4⟩ := h
          have := ih (r.drop (k - 1)).length (by simp only [List.length_cons, List.length_drop] at hn ⊢; omega)
            (u := r.drop (k - 1)) (cs := (decodePrefix (r.drop (k - 1))).1) (by rw [← h4]) rfl
          rw [this]
          exact h3
  obtain ⟨t, ht⟩ := hw
  rw [← this, ← ht]
  exact decodePrefix_append w t

end Osmio.Utf8

namespace Osmio
open Spec Xml OSMObjBase Utf8

/-! ## Bytes and characters -/

theorem readByte_delivers {rd : AnyReader} {R : rd.S → Source → Prop} (h : Delivers rd R) (s : rd.S) (src : Source) (hr : R s src) :
    match rd.readByte s with
    | (.byte b, s') => ∃ rest, src = some b :: rest ∧ R s' rest
    | (.eof, s') => src = [] ∧ R s' []
    | (.failed, s') => ∃ rest, src = none :: rest ∧ R s' rest := by
  induction hp : rd.patience s using Nat.strongRecOn generalizing s with
  | ind n ih =>
    have hg := h s src hr 1 (by omega)
    rw [AnyReader.readByte.eq_def]
    rcases hd : rd.read s 1 with ⟨(_ | ⟨b, bs⟩) | _ | _, s'⟩
    · rw [hd] at hg; exact hg
    · rw [hd] at hg
      obtain ⟨rest, e, h2⟩ := hg
      have hl := rd.short s 1 (b :: bs) (by rw [hd])
      have : bs = [] := by
        cases bs with
        | nil => rfl
        | cons _ _ => simp at hl
      subst this
      exact ⟨rest, e, h2⟩
    · rw [hd] at hg
      have hc := rd.calm s 1 (by rw [hd])
      rw [hd] at hc
      dsimp only at hc
      exact ih _ (by omega) s' hg rfl
    · rw [hd] at hg; exact hg

/-- The bytes that come next are not a character. -/
def Stuck (buf : List UInt8) (src : Source) : Prop :=
  (buf ++ (Source.before src).1 = [] ∧ (Source.before src).2 = false) ∨
    ∃ b r, buf ++ (Source.before src).1 = b :: r ∧ decodeFirst b r = none

theorem stuck_noChar {buf : List UInt8} (hb : NoChar buf) (h0 : buf ≠ []) {src : Source} (hs : (Source.before src).1 = []) : Stuck buf src := by
  rcases buf with _ | ⟨b, r⟩
  · exact absurd rfl h0
  · exact .inr ⟨b, r, by rw [hs, List.append_nil], hb b r rfl⟩

theorem readChar_delivers {rd : AnyReader} {R : rd.S → Source → Prop} (h : Delivers rd R) (left : Nat) :
    ∀ (buf : List UInt8) (s : rd.S) (src : Source), R s src → NoChar buf → buf.length + left = 4 →
    match readChar rd left buf s with
    | (.char c, s') => ∃ v b rest, src = (v ++ [b]).map some ++ rest ∧ R s' rest ∧ NoChar (buf ++ v) ∧ IsChar (buf ++ v ++ [b]) c
    | (.eof, s') => buf = [] ∧ src = [] ∧ R s' []
    | (.error, _) => Stuck buf src := by
  induction left with
  | zero =>
    intro buf s src hr hb hl
    rw [readChar]
    rcases buf with _ | ⟨b0, _ | ⟨b1, _ | ⟨b2, _ | ⟨b3, r⟩⟩⟩⟩
    · simp at hl
    · simp at hl
    · simp at hl
    · simp at hl
    · have hr' : r = [] := by
        cases r with
        | nil => rfl
        | cons _ _ => simp only [List.length_cons] at hl; omega
      subst hr'
      exact .inr ⟨b0, b1 :: b2 :: b3 :: (Source.before src).1, rfl, by rw [decodeFirst_four]; exact hb _ _ rfl⟩
  | succ left ih =>
    intro buf s src hr hb hl
    have hg := readByte_delivers h s src hr
    rw [readChar]
    rcases hd : rd.readByte s with ⟨b | _ | _, s'⟩
    · rw [hd] at hg
      obtain ⟨rest, rfl, h2⟩ := hg
      rcases noChar_snoc hb b with ⟨c, h3, h4⟩ | ⟨h3, h4⟩
      · simp only [h4]
        exact ⟨[], b, rest, rfl, h2, by simpa using hb, by simpa using h3⟩
      · have hi := ih (buf ++ [b]) s' rest h2 h3 (by simp only [List.length_append, List.length_cons, List.length_nil]; omega)
        have key : match readChar rd left (buf ++ [b]) s' with
            | (.char c, s') => ∃ v b' rest', some b :: rest = (v ++ [b']).map some ++ rest' ∧ R s' rest' ∧ NoChar (buf ++ v) ∧
                IsChar (buf ++ v ++ [b']) c
            | (.eof, s') => buf = [] ∧ some b :: rest = [] ∧ R s' []
            | (.error, _) => Stuck buf (some b :: rest) := by
          rcases hx : readChar rd left (buf ++ [b]) s' with ⟨c | _ | _, s''⟩
          · rw [hx] at hi
            obtain ⟨v, b', rest', rfl, i1, i2, i3⟩ := hi
            exact ⟨b :: v, b', rest', by simp, i1, by simpa using i2, by simpa using i3⟩
          · rw [hx] at hi
            simp at hi
          · rw [hx] at hi
            have : (Source.before (some b :: rest)).1 = b :: (Source.before rest).1 := rfl
            unfold Stuck at hi ⊢
            rw [this, show (Source.before (some b :: rest)).2 = (Source.before rest).2 from rfl]
            simpa using hi
        rcases hx : decode (buf ++ [b]) with _ | _ | ⟨c, t⟩
        · simp only [hx]; exact key
        · simp only [hx]; exact key
        · exact absurd hx (h4 c t)
    · rw [hd] at hg
      obtain ⟨rfl, h2⟩ := hg
      by_cases h0 : buf = []
      · simp only [h0, if_true]
        exact ⟨trivial, trivial, h2⟩
      · simp only [if_neg h0]
        exact stuck_noChar hb h0 rfl
    · rw [hd] at hg
      obtain ⟨rest, rfl, h2⟩ := hg
      by_cases h0 : buf = []
      · subst h0; exact .inl ⟨rfl, rfl⟩
      · exact stuck_noChar hb h0 rfl

/-! ## Events -/

/-- The events that are still to come. -/
def toCome (norm : Config) (p : PState) (reported : Nat) (src : Source) : List (Option XmlEvent) :=
  let q := decodePrefix (Source.before src).1
  let f := Xml.run norm p q.1
  (f.events.drop reported).map some ++ [if complete f && (q.2 && (Source.before src).2) then some .other else none]

theorem toCome_over (norm : Config) (src : Source) : toCome norm initial 0 src = XMLReader.over norm src := rfl

theorem toCome_char (norm : Config) (p : PState) (n : Nat) {bs : List UInt8} {c : Char} (h : IsChar bs c) (rest : Source) :
    toCome norm p n (bs.map some ++ rest) = toCome norm (Xml.step norm p c) n rest := by
  unfold toCome
  simp only [before_append, decodePrefix_char h]
  rfl

theorem toCome_stuck (norm : Config) (p : PState) (n : Nat) {src : Source} (h : Stuck [] src) :
    toCome norm p n src = (p.events.drop n).map some ++ [none] := by
  unfold toCome
  rcases h with ⟨h1, h2⟩ | ⟨b, r, h1, h2⟩
  · rw [List.nil_append] at h1
    simp only [h1, h2, Bool.and_false]
    rfl
  · rw [List.nil_append] at h1
    simp only [h1, decodePrefix_cons_none h2, Bool.false_and, Bool.and_false]
    rfl

theorem toCome_nil (norm : Config) (p : PState) (n : Nat) :
    toCome norm p n [] = (p.events.drop n).map some ++ [if complete p then some .other else none] := by
  unfold toCome
  show _ = _ ++ [_]
  simp [Source.before, decodePrefix, decodePrefixAux, Xml.run]

theorem toCome_fail (norm : Config) (p : PState) (h : p.mode = .fail) (n : Nat) (src : Source) :
    toCome norm p n src = (p.events.drop n).map some ++ [none] := by
  unfold toCome
  have hc : complete p = false := by unfold complete; rw [h]
  have hf : ∀ t, Xml.run norm p t = p := by
    intro t
    obtain ⟨m, o, r, e⟩ := p
    cases h
    rw [run_fail]
  simp only [hf, hc, Bool.false_and]
  rfl

theorem toCome_ready (norm : Config) (p : PState) {n : Nat} {ev : XmlEvent} (h : p.events[n]? = some ev) (src : Source) :
    toCome norm p n src = some ev :: toCome norm p (n + 1) src := by
  unfold toCome
  obtain ⟨l, hl⟩ := run_events norm (decodePrefix (Source.before src).1).1 p
  obtain ⟨hn, he⟩ := List.getElem?_eq_some_iff.1 h
  dsimp only
  rw [← hl, List.drop_append_of_le_length (by omega), List.drop_append_of_le_length (by omega), List.drop_eq_getElem_cons hn, he]
  rfl

/-- The parser has read `used`, `rest` is still to come; without the last character there would be fewer than `n` events. -/
structure Going {S : Type} (R : S → Source → Prop) (norm : Config) (all : Source) (e : Events S) (rest : Source) (n : Nat) : Prop where
  src : R e.src rest
  live : e.finished = false
  few : e.reported ≤ e.parser.events.length
  read : ∃ used cs, all = used.map some ++ rest ∧ decodePrefix used = (cs, true) ∧ e.parser = Xml.run norm initial cs ∧
    ∀ w, w <+: used → w ≠ used → (eventsIn norm w).length < n

theorem prefix_snoc {α : Type} {w u : List α} {b : α} (h : w <+: u ++ [b]) (hne : w ≠ u ++ [b]) : w <+: u := by
  obtain ⟨t, ht⟩ := h
  rcases List.eq_nil_or_concat t with rfl | ⟨t', x, rfl⟩
  · rw [List.append_nil] at ht; exact absurd ht hne
  · rw [List.concat_eq_append, ← List.append_assoc] at ht
    exact ⟨t', (List.append_inj' ht rfl).1⟩

theorem going_char {S : Type} {R : S → Source → Prop} {norm : Config} {all : Source} {e : Events S} {v : List UInt8} {b : UInt8} {rest : Source}
    {s' : S} {c : Char} (hg : Going R norm all e ((v ++ [b]).map some ++ rest) (e.reported + 1)) (hev : e.parser.events.length ≤ e.reported) (hs : R s' rest)
    (hv : NoChar v) (hc : IsChar (v ++ [b]) c) :
    Going R norm all { e with src := s', parser := Xml.step norm e.parser c } rest (e.reported + 1) := by
  obtain ⟨used, cs, h1, h2, h3, h4⟩ := hg.read
  have hstep : Xml.step norm e.parser c = Xml.run norm initial (cs ++ [c]) := by rw [run_append, ← h3]; rfl
  refine ⟨hs, hg.live, ?_, used ++ (v ++ [b]), cs ++ [c], ?_, ?_, hstep, ?_⟩
  · dsimp only
    rw [hstep, run_append, ← h3]
    exact Nat.le_trans hg.few (run_events _ _ _).length_le
  · rw [h1, List.map_append (l₁ := used), List.append_assoc]
  · have : ∀ (u : List UInt8) (cs : Str), decodePrefix u = (cs, true) → decodePrefix (u ++ (v ++ [b])) = (cs ++ [c], true) := by
      intro u
      induction hn : u.length using Nat.strongRecOn generalizing u with
      | ind n ih =>
        intro cs h
        rcases u with _ | ⟨b0, r⟩
        · have := decodePrefix_char hc []
          rw [List.append_nil] at this
          rw [List.nil_append, this]
          cases h
          rfl
        · cases hd : decodeFirst b0 r with
          | none => rw [decodePrefix_cons_none hd] at h; cases h
          | some p =>
            obtain ⟨c0, k⟩ := p
            rw [decodePrefix_cons hd] at h
            obtain ⟨a1, a2⟩ := decodeFirst_append hd (v ++ [b])
            rw [List.cons_append, decodePrefix_cons a1, List.drop_append_of_le_length a2]
            rw [Prod.mk.injEq] at h
            obtain ⟨a3, a4⟩ := h
            rw [ih (r.drop (k - 1)).length (by simp only [List.length_cons, List.length_drop] at hn ⊢; omega) (r.drop (k - 1)) rfl
              (decodePrefix (r.drop (k - 1))).1 (by rw [← a4]), ← a3]
            rfl
    exact this used cs h2
  · intro w hw hne
    rw [← List.append_assoc] at hw hne
    have hp := decodePrefix_short h2 hv (prefix_snoc hw hne)
    obtain ⟨t, ht⟩ := hp
    refine Nat.lt_succ_of_le (Nat.le_trans ?_ hev)
    rw [h3, ← ht, run_append]
    exact (run_events _ _ _).length_le

theorem events_next {rd : AnyReader} {R : rd.S → Source → Prop} (h : Delivers rd R) (norm : Config) (all : Source) (n : Nat) :
    ∀ (e : Events rd.S) (rest : Source), Going R norm all e rest (e.reported + 1) → rest.length < n →
    ∃ x tail, (Events.next rd norm n e).1 = some x ∧ toCome norm e.parser e.reported rest = x :: tail ∧
      ((∃ rest', Going R norm all (Events.next rd norm n e).2 rest' (e.reported + 1) ∧ (Events.next rd norm n e).2.reported = e.reported + 1 ∧
          rest'.length ≤ rest.length ∧
          tail = toCome norm (Events.next rd norm n e).2.parser (Events.next rd norm n e).2.reported rest') ∨
        ((Events.next rd norm n e).2.finished = true ∧ (Events.next rd norm n e).2.parser.events[(Events.next rd norm n e).2.reported]? = none ∧
          tail = [])) := by
  induction n with
  | zero => intro e rest _ hl; omega
  | succ n ih =>
    rintro ⟨es, ep, er, ef⟩ rest hg hl
    obtain rfl : ef = false := hg.live
    dsimp only at hg ⊢
    rcases hx : ep.events[er]? with _ | ev
    · have hlen := List.getElem?_eq_none_iff.1 hx
      have hdrop : ep.events.drop er = [] := List.drop_eq_nil_of_le hlen
      by_cases hm : ep.mode = .fail
      · have e1 : Events.next rd norm (n + 1) ⟨es, ep, er, false⟩ = (some none, ⟨es, ep, er, true⟩) := by
          rw [Events.next.eq_def]; simp [hx, hm]
        rw [e1]
        refine ⟨none, [], rfl, ?_, .inr ⟨rfl, hx, rfl⟩⟩
        rw [toCome_fail norm _ hm, hdrop]; rfl
      · have hr := readChar_delivers h 4 [] es rest hg.src (by intro b r hb; cases hb) rfl
        rcases hd : readChar rd 4 [] es with ⟨c | _ | _, s'⟩
        · have e1 : Events.next rd norm (n + 1) ⟨es, ep, er, false⟩ = Events.next rd norm n ⟨s', Xml.step norm ep c, er, false⟩ := by
            rw [Events.next.eq_def]; simp [hx, hm, hd]
          rw [e1]
          rw [hd] at hr
          obtain ⟨v, b, rest', rfl, h2, h3, h4⟩ := hr
          rw [List.nil_append] at h3 h4
          have hg' := going_char hg hlen h2 h3 h4
          simp only [List.length_append, List.length_map, List.length_cons, List.length_nil] at hl
          obtain ⟨x, tail, i1, i2, i3⟩ := ih _ rest' hg' (by omega)
          refine ⟨x, tail, i1, ?_, ?_⟩
          · rw [toCome_char norm _ _ h4]; exact i2
          · rcases i3 with ⟨rest'', j1, j2, j3, j4⟩ | i3
            · exact .inl ⟨rest'', j1, j2, by simp only [List.length_append]; omega, j4⟩
            · exact .inr i3
        · have e1 : Events.next rd norm (n + 1) ⟨es, ep, er, false⟩ =
              (some (if complete ep then some .other else none), ⟨s', ep, er, true⟩) := by
            rw [Events.next.eq_def]; simp [hx, hm, hd]
          rw [e1]
          rw [hd] at hr
          obtain ⟨_, rfl, h2⟩ := hr
          refine ⟨_, [], rfl, ?_, .inr ⟨rfl, hx, rfl⟩⟩
          rw [toCome_nil, hdrop]; rfl
        · have e1 : Events.next rd norm (n + 1) ⟨es, ep, er, false⟩ = (some none, ⟨s', ep, er, true⟩) := by
            rw [Events.next.eq_def]; simp [hx, hm, hd]
          rw [e1]
          rw [hd] at hr
          refine ⟨none, [], rfl, ?_, .inr ⟨rfl, hx, rfl⟩⟩
          rw [toCome_stuck norm _ _ hr, hdrop]; rfl
    · obtain ⟨hlen, _⟩ := List.getElem?_eq_some_iff.1 hx
      have e1 : Events.next rd norm (n + 1) ⟨es, ep, er, false⟩ = (some (some ev), ⟨es, ep, er + 1, false⟩) := by
        rw [Events.next.eq_def]; simp [hx]
      rw [e1]
      refine ⟨some ev, _, rfl, toCome_ready norm _ hx rest, .inl ⟨rest, ?_, rfl, Nat.le_refl _, rfl⟩⟩
      exact ⟨hg.src, hg.live, hlen, hg.read⟩

theorem events_next_finished {rd : AnyReader} (norm : Config) (n : Nat) (e : Events rd.S) (hf : e.finished = true)
    (hx : e.parser.events[e.reported]? = none) : Events.next rd norm n e = (none, e) := by
  unfold Events.next
  simp only [hx, hf, if_true]

/-! ## The readers -/

/-- The parser and the events still to come. -/
def Pulls {S : Type} (R : S → Source → Prop) (norm : Config) (all : Source) (rounds : Nat) (r : Events S) (evs : List (Option XmlEvent)) : Prop :=
  (∃ rest, Going R norm all r rest r.reported ∧ rest.length < rounds ∧ evs = toCome norm r.parser r.reported rest) ∨
    (r.finished = true ∧ r.parser.events[r.reported]? = none ∧ evs = [])

theorem going_mono {S : Type} {R : S → Source → Prop} {norm : Config} {all : Source} {e : Events S} {rest : Source} {n m : Nat}
    (h : Going R norm all e rest n) (hn : n ≤ m) : Going R norm all e rest m := by
  obtain ⟨used, cs, h1, h2, h3, h4⟩ := h.read
  exact ⟨h.src, h.live, h.few, used, cs, h1, h2, h3, fun w a b => Nat.lt_of_lt_of_le (h4 w a b) hn⟩

theorem pulls_next {rd : AnyReader} {R : rd.S → Source → Prop} (h : Delivers rd R) {norm : Config} {all : Source} {rounds : Nat} {r : Events rd.S}
    {evs : List (Option XmlEvent)} (hp : Pulls R norm all rounds r evs) :
    (Events.next rd norm rounds r).1 = evs.head? ∧ Pulls R norm all rounds (Events.next rd norm rounds r).2 evs.tail := by
  rcases hp with ⟨rest, hg, hl, rfl⟩ | ⟨hf, hx, rfl⟩
  · obtain ⟨x, tail, h1, h2, h3⟩ := events_next h norm all rounds r rest (going_mono hg (by omega)) hl
    rw [h2]
    refine ⟨h1, ?_⟩
    rcases h3 with ⟨rest', j1, j2, j3, j4⟩ | j
    · exact .inl ⟨rest', by rw [j2]; exact j1, by omega, j4⟩
    · exact .inr j
  · rw [events_next_finished norm rounds r hf hx]
    exact ⟨rfl, .inr ⟨hf, hx, rfl⟩⟩

theorem pulls_new {S : Type} {R : S → Source → Prop} (norm : Config) {s : S} {all : Source} (hr : R s all) {rounds : Nat} (hl : all.length < rounds) :
    Pulls R norm all rounds (.new s) (XMLReader.over norm all) := by
  refine .inl ⟨all, ⟨hr, rfl, Nat.le_refl _, [], [], rfl, rfl, rfl, ?_⟩, hl, (toCome_over norm all).symm⟩
  intro w hw hne
  exact absurd (List.prefix_nil.1 hw) hne

theorem collect_agree {rd : AnyReader} {R : Buffered rd.S → Source → Prop} (h : Delivers (rd.buffered bufSize) R) {norm : Config} {all : Source}
    {rounds : Nat} (n : Nat) : ∀ (b : Bool) (acc : List XmlEvent) (r : EventsOver rd.S) (evs : List (Option XmlEvent)),
    Pulls R norm all rounds r.parser evs → evs.length < n →
    AgreeOn (fun r evs => Pulls R norm all rounds r.parser evs) (XMLReader.Over.collect rd norm rounds b acc n r) (XMLReader.collect b acc evs) := by
  induction n with
  | zero => intro _ _ _ _ _ hl; omega
  | succ n ih =>
    intro b acc r evs hp hl
    obtain ⟨h1, h2⟩ := pulls_next h hp
    unfold XMLReader.Over.collect
    rcases hd : Events.next (rd.buffered bufSize) norm rounds r.parser with ⟨x, p⟩
    rw [hd] at h1 h2
    rcases evs with _ | ⟨_ | el, evs⟩
    · cases h1; exact ⟨rfl, h2⟩
    · cases h1; exact ⟨rfl, h2⟩
    · cases h1
      simp only [List.tail_cons, List.length_cons] at h2 hl
      dsimp only [XMLReader.collect]
      split_ifs with hb
      all_goals first
        | exact ⟨rfl, h2⟩
        | exact ih _ _ ⟨p⟩ evs h2 (by omega)

theorem next_agree {rd : AnyReader} {R : Buffered rd.S → Source → Prop} (h : Delivers (rd.buffered bufSize) R) {norm : Config} {all : Source}
    {rounds : Nat} (r : EventsOver rd.S) (evs : List (Option XmlEvent)) (hp : Pulls R norm all rounds r.parser evs) (hl : evs.length < rounds) :
    AgreeOn (fun r evs => Pulls R norm all rounds r.parser evs) (XMLReader.Over.next rd norm rounds r) (XMLReader.next evs) := by
  obtain ⟨a, s, t, e1, e2, hr⟩ := agree_cases (collect_agree h rounds false [] r evs hp hl)
  unfold XMLReader.Over.next XMLReader.next
  rw [e1, e2]
  rcases a with p | els
  · exact ⟨rfl, hr⟩
  · exact ⟨rfl, hr⟩

theorem collect_le (b : Bool) (acc : List XmlEvent) (evs : List (Option XmlEvent)) : (XMLReader.collect b acc evs).2.length ≤ evs.length := by
  induction evs generalizing b acc with
  | nil => exact Nat.le_refl _
  | cons x evs ih =>
    rcases x with _ | el
    · simp [XMLReader.collect]
    · unfold XMLReader.collect
      dsimp only
      split_ifs
      all_goals first
        | (simp only [List.length_cons]; omega)
        | exact Nat.le_trans (ih _ _) (by simp)

theorem xml_next_le (evs : List (Option XmlEvent)) : (XMLReader.next evs).2.length ≤ evs.length := by
  have := collect_le false [] evs
  unfold XMLReader.next
  split
  · rename_i h; rw [h] at this; exact this
  · rename_i h; rw [h] at this; exact this

theorem xml_calls_agree {rd : AnyReader} {R : Buffered rd.S → Source → Prop} (h : Delivers (rd.buffered bufSize) R) {norm : Config} {all : Source}
    {rounds : Nat} {s : rd.S} (hr : R ⟨s, []⟩ all) (hl : all.length < rounds) (he : (XMLReader.over norm all).length < rounds) (k : Nat) :
    AgreeOn (fun r evs => Pulls R norm all rounds r.parser evs) (calls (XMLReader.Over.next rd norm rounds) k (XMLReader.Over.new s))
      (calls XMLReader.next k (XMLReader.over norm all)) :=
  calls_agree (size := List.length) (bound := rounds) (next_agree h) xml_next_le k _ _ (pulls_new norm hr hl) he

theorem osc_collect_over (rd : AnyReader) (norm : Config) (rounds n : Nat) : ∀ (b : Bool) (acc : List XmlEvent) (r : EventsOver rd.S),
    OSCReader.Over.collect rd norm rounds b acc n r = XMLReader.Over.collect rd norm rounds b acc n r := by
  have h1 : oscPushNow = pushNow := by funext e; cases e <;> rfl
  have h2 : oscBreakNow = breakNow := by funext e; cases e <;> rfl
  induction n with
  | zero => intros; rfl
  | succ n ih =>
    intro b acc r
    unfold OSCReader.Over.collect XMLReader.Over.collect
    rw [h1, h2]
    simp only [ih]

theorem osc_next_over (rd : AnyReader) (norm : Config) (rounds : Nat) : OSCReader.Over.next rd norm rounds = XMLReader.Over.next rd norm rounds := by
  funext r
  unfold OSCReader.Over.next XMLReader.Over.next
  rw [osc_collect_over]

end Osmio
