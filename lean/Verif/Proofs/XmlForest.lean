import Verif.Lib.Xml
import Verif.Spec.XmlDoc
/-! # Lemmas: the events of a complete document are those of a tree -/

namespace Osmio.Xml
open Spec

/-- One content after the other. -/
def append : Forest → Forest → Forest
  | .nil, g => g
  | .text r, g => .text (append r g)
  | .elem n as k r, g => .elem n as k (append r g)

theorem append_events (f g : Forest) : (append f g).events = f.events ++ g.events := by
  induction f with
  | nil => rfl
  | text r ih => simp [append, Forest.events, ih]
  | elem n as k r _ ih => simp [append, Forest.events, ih]

/-- Events read while the given elements are open. -/
inductive Shape : List Str → List XmlEvent → Prop
  | root (f : Forest) : Shape [] f.events
  | inner {n : Str} {q : Name} {ns : List Str} {evs : List XmlEvent} (as : List Attr) (f : Forest) :
      Shape ns evs → splitName n = some q → Shape (n :: ns) (evs ++ .start q as :: f.events)

theorem Shape.add {ns : List Str} {evs : List XmlEvent} (h : Shape ns evs) (g : Forest) : Shape ns (evs ++ g.events) := by
  cases h with
  | root f => rw [← append_events]; exact .root _
  | inner as f h hq =>
    rw [List.append_assoc, List.cons_append, ← append_events]
    exact .inner as _ h hq

theorem Shape.close {n : Str} {ns : List Str} {evs : List XmlEvent} (h : Shape (n :: ns) evs) :
    ∃ q, splitName n = some q ∧ Shape ns (evs ++ [.stop q]) := by
  cases h with
  | @inner _ q _ _ as f h hq =>
    refine ⟨q, hq, ?_⟩
    have := h.add (.elem q as f .nil)
    simpa [Forest.events] using this

/-- The invariant of the parser. -/
def Good (s : PState) : Prop := Shape (s.opened.map Prod.fst) s.events

theorem good_flush {s : PState} (h : Good s) (p : Bool) : Good (flush s p) := by
  unfold flush
  split
  · exact h.add (.text .nil)
  · exact h

theorem good_finishTag {norm : Xml.Config} {s : PState} (h : Good s) (name : Str) (attrs : List (Str × Str)) (e : Bool) :
    Good (finishTag norm s name attrs e) := by
  simp only [finishTag]
  split
  · rename_i n as hn has
    split
    · exact h
    · have hq : splitName name = some n := by
        unfold mkName at hn
        split at hn
        · rename_i m hm
          split at hn
          · cases hn; exact hm
          · cases hn
        · cases hn
      cases e with
      | true =>
        have := h.add (.elem n as .nil .nil)
        exact this
      | false => exact Shape.inner as .nil h hq
  · exact h

theorem good_finishEnd {s : PState} (h : Good s) (name : Str) : Good (finishEnd s name) := by
  unfold finishEnd
  split
  · exact h
  · rename_i n ds r ho
    split
    · rename_i hn
      subst hn
      unfold Good at h
      rw [ho] at h
      obtain ⟨q, hq, hc⟩ := h.close
      split
      · rename_i q' hq'
        rw [hq] at hq'
        cases hq'
        exact hc
      · rename_i hq'
        rw [hq] at hq'; cases hq'
    · exact h

theorem good_step (norm : Xml.Config) {s : PState} (h : Good s) (c : Char) : Good (step norm s c) := by
  have hg : ∀ {s : PState} (m : Mode), Good s → Good (s.goto m) := fun _ h => h
  have he : ∀ {s : PState}, Good s → Good s.err := fun h => h
  unfold step
  split
  · unfold stepText
    split_ifs <;> first | exact hg _ (good_flush h _) | exact h
  · unfold stepTextEnt
    split_ifs <;> exact h
  · unfold stepLt
    split_ifs <;> exact h
  · simp only [stepBang]
    split_ifs <;> exact h
  · unfold stepComment
    split_ifs <;> first | exact hg _ (good_flush h _) | exact h
  · unfold stepCdata
    split_ifs <;> first | exact hg _ (good_flush h _) | exact h
  · unfold stepPi
    split_ifs <;> first | exact hg _ (good_flush h _) | exact h
  · unfold stepTagName
    split_ifs <;> first | exact good_finishTag h _ _ _ | exact h
  · unfold stepInTag
    split_ifs <;> first | exact good_finishTag h _ _ _ | exact h
  · unfold stepAttrName
    split_ifs <;> exact h
  · unfold stepAttrEq
    split_ifs <;> exact h
  · unfold stepAttrPre
    split_ifs <;> exact h
  · unfold stepAttrVal
    split_ifs <;> exact h
  · unfold stepAttrEnt
    split_ifs
    · split <;> exact h
    · exact h
    · exact h
  · unfold stepAttrDone
    split_ifs <;> first | exact good_finishTag h _ _ _ | exact h
  · split_ifs <;> first | exact good_finishTag h _ _ _ | exact h
  · unfold stepEndName
    split_ifs <;> first | exact good_finishEnd h _ | exact h
  · split_ifs <;> first | exact good_finishEnd h _ | exact h
  · exact h

theorem good_foldl (norm : Xml.Config) (t : Str) {s : PState} (h : Good s) : Good (t.foldl (step norm) s) := by
  induction t generalizing s with
  | nil => exact h
  | cons c t ih => exact ih (good_step norm h c)

/-- The events of a stream of bytes are those of a tree, or end with an error. -/
theorem events_forest (norm : Xml.Config) (bs : List UInt8) :
    (∃ f : Forest, eventsOfBytes norm bs = f.events.map some ++ [some .other]) ∨
    ∃ evs : List XmlEvent, eventsOfBytes norm bs = evs.map some ++ [none] := by
  unfold eventsOfBytes events
  dsimp only
  generalize hs : (Utf8.decodePrefix bs).1.foldl (step norm) initial = s
  have hg : Good s := by
    rw [← hs]
    exact good_foldl norm _ (show Shape [] [] from Shape.root .nil)
  split
  · rename_i hc
    left
    have ho : s.opened = [] := by
      rw [Bool.and_eq_true] at hc
      have := hc.1
      unfold complete at this
      split at this
      · exact List.isEmpty_iff.1 (Bool.and_eq_true _ _ ▸ this).1
      · cases this
    unfold Good at hg
    rw [ho] at hg
    generalize s.events = evs at hg
    cases hg with
    | root f => exact ⟨f, rfl⟩
  · exact .inr ⟨_, rfl⟩

end Osmio.Xml
