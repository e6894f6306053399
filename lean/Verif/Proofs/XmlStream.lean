import Verif.Spec.XmlStream
import Verif.Proofs.XmlOver
/-! # Lemmas: how far an XML reader has read -/

namespace Osmio
open Spec Xml OSMObjBase Utf8

/-! ## The number of events -/

theorem step_count (norm : Xml.Config) (s : PState) (c : Char) : (Xml.step norm s c).events.length ≤ s.events.length + 2 := by
  have hr : ∀ (s : PState), s.events.length ≤ s.events.length + 2 := fun _ => by omega
  have hf : ∀ (s : PState) (p : Bool) (m : Mode), ((flush s p).goto m).events.length ≤ s.events.length + 2 := by
    intro s p m
    unfold flush
    split
    · simp [PState.goto]
    · exact hr s
  have ht : ∀ (s : PState) (n : Str) (as : List (Str × Str)) (e : Bool), (finishTag norm s n as e).events.length ≤ s.events.length + 2 := by
    intro s n as e
    simp only [finishTag]
    split
    · split
      · exact hr s
      · cases e <;> simp
    · exact hr s
  have hz : ∀ (s : PState) (n : Str), (finishEnd s n).events.length ≤ s.events.length + 2 := by
    intro s n
    unfold finishEnd
    split
    · exact hr s
    · split
      · split
        · simp
        · exact hr s
      · exact hr s
  unfold Xml.step
  split
  · unfold stepText
    split_ifs <;> first | exact hf _ _ _ | exact hr s
  · unfold stepTextEnt
    split_ifs <;> exact hr s
  · unfold stepLt
    split_ifs <;> exact hr s
  · simp only [stepBang]
    split_ifs <;> exact hr s
  · unfold stepComment
    split_ifs <;> first | exact hf _ _ _ | exact hr s
  · unfold stepCdata
    split_ifs <;> first | exact hf _ _ _ | exact hr s
  · unfold stepPi
    split_ifs <;> first | exact hf _ _ _ | exact hr s
  · unfold stepTagName
    split_ifs <;> first | exact ht _ _ _ _ | exact hr s
  · unfold stepInTag
    split_ifs <;> first | exact ht _ _ _ _ | exact hr s
  · unfold stepAttrName
    split_ifs <;> exact hr s
  · unfold stepAttrEq
    split_ifs <;> exact hr s
  · unfold stepAttrPre
    split_ifs <;> exact hr s
  · unfold stepAttrVal
    split_ifs <;> exact hr s
  · unfold stepAttrEnt
    split_ifs
    · split <;> exact hr s
    · exact hr s
    · exact hr s
  · unfold stepAttrDone
    split_ifs <;> first | exact ht _ _ _ _ | exact hr s
  · split_ifs
    · exact ht _ _ _ _
    · exact hr s
  · unfold stepEndName
    split_ifs <;> first | exact hz _ _ | exact hr s
  · split_ifs <;> first | exact hz _ _ | exact hr s
  · exact hr s

theorem run_count (norm : Xml.Config) (t : Str) (s : PState) : (Xml.run norm s t).events.length ≤ s.events.length + 2 * t.length := by
  induction t generalizing s with
  | nil => exact Nat.le_refl _
  | cons c t ih =>
    have := step_count norm s c
    have := ih (Xml.step norm s c)
    rw [Xml.run_cons]
    simp only [List.length_cons]
    omega

theorem decodePrefixAux_length (n : Nat) : ∀ bs : List UInt8, (decodePrefixAux n bs).1.length ≤ bs.length := by
  induction n with
  | zero => intro bs; cases bs <;> simp [decodePrefixAux]
  | succ n ih =>
    intro bs
    rcases bs with _ | ⟨b, r⟩
    · simp [decodePrefixAux]
    · simp only [decodePrefixAux]
      cases decodeFirst b r with
      | none => simp
      | some p =>
        have := ih (r.drop (p.2 - 1))
        simp only [List.length_cons, List.length_drop] at this ⊢
        omega

theorem before_length (src : Source) : (Source.before src).1.length ≤ src.length := by
  induction src with
  | nil => exact Nat.le_refl _
  | cons x r ih =>
    rcases x with _ | b
    · simp [Source.before]
    · simpa [Source.before] using ih

theorem over_length (norm : Xml.Config) (src : Source) : (XMLReader.over norm src).length ≤ 2 * src.length + 1 := by
  have h1 := run_count norm (decodePrefix (Source.before src).1).1 initial
  have h2 : (decodePrefix (Source.before src).1).1.length ≤ (Source.before src).1.length := decodePrefixAux_length _ _
  have h3 := before_length src
  rw [← toCome_over]
  unfold toCome
  simp only [List.drop_zero, List.length_append, List.length_map, List.length_cons, List.length_nil]
  have : initial.events.length = 0 := rfl
  omega

/-! ## Calls that end within given events -/

theorem calls_within (evs : List XmlEvent) (k : Nat) (hk : k ≤ ends evs) :
    ∃ used rest res, evs = used ++ rest ∧ ends used = k ∧ (∀ r ∈ res, ∃ o, r = .ok o) ∧
      ∀ t, calls XMLReader.next k (evs.map some ++ t) = (res, rest.map some ++ t) := by
  induction k generalizing evs with
  | zero => exact ⟨[], evs, [], rfl, rfl, by simp, fun t => rfl⟩
  | succ k ih =>
    rcases next_fails evs with ⟨h0, _⟩ | ⟨o, rest, h1, ⟨u, rfl⟩, h3⟩
    · omega
    · obtain ⟨u2, rest2, res, rfl, e2, e3, e4⟩ := ih rest (by omega)
      refine ⟨u ++ u2, rest2, .ok o :: res, by rw [List.append_assoc], ?_, ?_, fun t => ?_⟩
      · rw [ends_append] at h1 ⊢
        omega
      · intro r hr
        rcases List.mem_cons.1 hr with rfl | hr
        · exact ⟨o, rfl⟩
        · exact e3 r hr
      · simp only [calls, h3 t, e4 t]

theorem over_split (norm : Xml.Config) (a : List UInt8) (after : Source) :
    ∃ t, t ≠ [] ∧ XMLReader.over norm (a.map some ++ after) = (eventsIn norm a).map some ++ t := by
  unfold XMLReader.over eventsOfSource
  rw [before_append]
  obtain ⟨s, hs⟩ := decodePrefix_append a (Source.before after).1
  unfold events
  dsimp only
  rw [← hs, List.foldl_append]
  obtain ⟨l, hl⟩ := run_events norm s (Xml.run norm initial (decodePrefix a).1)
  refine ⟨l.map some ++ [if complete (Xml.run norm (Xml.run norm initial (decodePrefix a).1) s) &&
    ((decodePrefix (a ++ (Source.before after).1)).2 && (Source.before after).2) then some .other else none], by simp, ?_⟩
  · rw [show List.foldl (Xml.step norm) (List.foldl (Xml.step norm) initial (decodePrefix a).1) s =
      Xml.run norm (Xml.run norm initial (decodePrefix a).1) s from rfl, ← hl, List.map_append, List.append_assoc]
    rfl

theorem settles_iff (norm : Xml.Config) (k : Nat) (a : List UInt8) : Settles norm k a ↔ k ≤ ends (eventsIn norm a) := by
  constructor
  · rintro ⟨res, hok, h⟩
    by_contra hlt
    have h1 := h [none]
    rw [over_failing] at h1
    have h2 := (calls_fails (eventsIn norm a) []).2 (k - (ends (eventsIn norm a) + 1))
    rw [show ends (eventsIn norm a) + 1 + (k - (ends (eventsIn norm a) + 1)) = k by omega, h1] at h2
    obtain ⟨o, ho⟩ := hok (.error .unwrap) (by rw [h2]; simp)
    cases ho
  · intro hk
    obtain ⟨used, rest, res, _, _, h3, h4⟩ := calls_within _ k hk
    refine ⟨res, h3, fun after => ?_⟩
    obtain ⟨t, _, ht⟩ := over_split norm a after
    rw [ht, h4]

theorem toCome_drop (norm : Config) (cs : Str) (n : Nat) (hn : n ≤ (Xml.run norm initial cs).events.length) {used : List UInt8} (hu : decodePrefix used = (cs, true))
    (rest : Source) : toCome norm (Xml.run norm initial cs) n rest = (XMLReader.over norm (used.map some ++ rest)).drop n := by
  have hd : ∀ (u : List UInt8) (cs : Str) (p : PState) (m : Nat), decodePrefix u = (cs, true) →
      toCome norm p m (u.map some ++ rest) = toCome norm (Xml.run norm p cs) m rest := by
    intro u
    induction hl : u.length using Nat.strongRecOn generalizing u with
    | ind l ih =>
      intro cs p m h
      rcases u with _ | ⟨b, r⟩
      · cases h; rfl
      · cases hd : decodeFirst b r with
        | none => rw [decodePrefix_cons_none hd] at h; cases h
        | some q =>
          obtain ⟨c, k⟩ := q
          obtain ⟨g1, g2⟩ := decodeFirst_take hd
          have g3 := (decodeFirst_append hd []).2
          have hc : IsChar (b :: r.take (k - 1)) c := by
            refine ⟨b, _, rfl, ?_⟩
            rw [g1]
            simp only [List.length_cons, List.length_take]
            congr 2
            omega
          rw [decodePrefix_cons hd, Prod.mk.injEq] at h
          obtain ⟨h1, h2⟩ := h
          have e : (b :: r).map some ++ rest = (b :: r.take (k - 1)).map some ++ ((r.drop (k - 1)).map some ++ rest) := by
            rw [← List.append_assoc, ← List.map_append, List.cons_append, List.take_append_drop]
          rw [e, toCome_char norm p m hc, ih (r.drop (k - 1)).length (by simp only [List.length_cons, List.length_drop] at hl ⊢; omega)
            (r.drop (k - 1)) rfl _ _ m (by rw [← h2]), ← h1, Xml.run_cons]
  rw [← toCome_over, hd used cs initial 0 hu]
  unfold toCome
  obtain ⟨l, hl⟩ := run_events norm (decodePrefix (Source.before rest).1).1 (Xml.run norm initial cs)
  dsimp only
  rw [List.drop_zero, List.drop_append_of_le_length, List.map_drop]
  rw [List.length_map, ← hl, List.length_append]
  omega

/-- Where the parser is after `k` results that `a` just settles: at the end of `a`. -/
theorem pulls_settled {S : Type} {R : S → Source → Prop} {norm : Config} {a : List UInt8} {after : Source} {rounds k : Nat} {e : Events S}
    (hj : JustSettles norm k a)
    (hp : Pulls R norm (a.map some ++ after) rounds e (calls XMLReader.next k (XMLReader.over norm (a.map some ++ after))).2) : R e.src after := by
  have hk := (settles_iff norm k a).1 hj.1
  obtain ⟨used, rest, res, h1, h2, h3, h4⟩ := calls_within _ k hk
  obtain ⟨t, ht0, ht⟩ := over_split norm a after
  rw [ht, h4] at hp
  dsimp only at hp
  rcases hp with ⟨left, hg, _, he⟩ | ⟨_, _, h⟩
  · obtain ⟨bs, cs, g1, g2, g3, g4⟩ := hg.read
    have hdrop := toCome_drop norm cs e.reported (by rw [← g3]; exact hg.few) g2 left
    rw [g3, hdrop, ← g1, ht, h1] at he
    have hlen := congrArg List.length he
    have hfew := hg.few
    have hpos : 0 < t.length := List.length_pos_iff.2 ht0
    simp only [List.length_append, List.length_map, List.length_drop] at hlen
    have hrep : e.reported = used.length := by omega
    have hev : (eventsIn norm bs) = (Xml.run norm initial cs).events := by unfold eventsIn; rw [g2]
    have hab : a <+: bs ∨ bs <+: a := by
      have e1 : (a.map some ++ after : Source) = bs.map some ++ left := g1
      rcases List.append_eq_append_iff.1 e1 with ⟨x, hx, _⟩ | ⟨x, hx, _⟩
      · left
        refine List.prefix_iff_eq_take.2 ?_
        have := congrArg (List.take a.length) hx
        rw [List.take_append_of_le_length (by simp), ← List.map_take] at this
        have h5 : (bs.take a.length).map some = a.map some := by rw [this, List.take_of_length_le (by simp)]
        exact ((List.map_injective_iff.2 (Option.some_injective _)) h5).symm
      · right
        refine List.prefix_iff_eq_take.2 ?_
        have := congrArg (List.take bs.length) hx
        rw [List.take_append_of_le_length (by simp), ← List.map_take] at this
        have h5 : (a.take bs.length).map some = bs.map some := by rw [this, List.take_of_length_le (by simp)]
        exact ((List.map_injective_iff.2 (Option.some_injective _)) h5).symm
    have heq : bs = a := by
      by_contra hne
      rcases hab with hab | hab
      · have := g4 a hab (fun h => hne h.symm)
        rw [h1, List.length_append, hrep] at this
        omega
      · refine hj.2 bs hab hne ((settles_iff norm k bs).2 ?_)
        obtain ⟨x, rfl⟩ := hab
        obtain ⟨y, hy⟩ := decodePrefix_append bs x
        have hpre : eventsIn norm bs <+: eventsIn norm (bs ++ x) := by
          unfold eventsIn
          rw [← hy, run_append]
          exact run_events _ _ _
        rw [h1] at hpre
        have hu : used <+: eventsIn norm bs := by
          refine List.prefix_of_prefix_length_le (List.prefix_append used rest) hpre ?_
          rw [hev, ← g3, ← hrep]
          exact hg.few
        obtain ⟨z, hz⟩ := hu
        rw [← hz, ends_append]
        omega
    subst heq
    rw [List.append_cancel_left g1]
    exact hg.src
  · simp at h
    exact absurd h.2 ht0

end Osmio
