import Verif.Model.ErrorText
import Verif.Props.Timestamp
import Verif.Props.TimestampExact
import Verif.Props.Objects
/-! # C10 and C18: what is refused, and how it is reported -/

namespace Osmio
open Spec

/-- C18: a character or text that is no spelling of an object type is refused with an error that quotes it, and nothing else is refused. -/
theorem C18_refused (s e : Str) (c : Char) :
    (OSMObjectType.tryFrom c = .error e ↔
      c ∉ ['n', 'w', 'r'] ∧ e = "Cannot convert ".toList ++ c :: " to OSMObjectType".toList) ∧
    (OSMObjectType.parse s = .error e ↔
      s ∉ ["n".toList, "node".toList, "w".toList, "way".toList, "r".toList, "relation".toList, "rel".toList] ∧
      e = "Cannot convert ".toList ++ s ++ " to OSMObjectType".toList) := by
  unfold OSMObjectType.tryFrom OSMObjectType.parse
  generalize "Cannot convert ".toList = p
  generalize " to OSMObjectType".toList = q
  generalize "n".toList = a1
  generalize "node".toList = a2
  generalize "w".toList = a3
  generalize "way".toList = a4
  generalize "r".toList = a5
  generalize "relation".toList = a6
  generalize "rel".toList = a7
  constructor
  · by_cases x1 : c = 'n' <;> by_cases x2 : c = 'w' <;> by_cases x3 : c = 'r' <;> simp_all [eq_comm]
  · simp only [List.mem_cons, List.not_mem_nil, or_false]
    by_cases x1 : s = a1 ∨ s = a2
    · rw [if_pos x1]; simp; tauto
    · rw [if_neg x1]
      by_cases x2 : s = a3 ∨ s = a4
      · rw [if_pos x2]; simp; tauto
      · rw [if_neg x2]
        by_cases x3 : s = a5 ∨ s = a6 ∨ s = a7
        · rw [if_pos x3]; simp; tauto
        · rw [if_neg x3]
          simp only [Except.error.injEq]
          constructor
          · intro h; exact ⟨by tauto, h.symm⟩
          · intro h; exact h.2.symm

/-- C18: the conversions with their errors accept what the readers' ones accept, with the same result. -/
theorem C18_accepted (s : Str) (c : Char) (t : OSMObjectType) :
    (OSMObjectType.tryFrom c = .ok t ↔ OSMObjectType.tryFromChar c = some t) ∧
    (OSMObjectType.parse s = .ok t ↔ OSMObjectType.fromStr s = some t) := by
  constructor
  · unfold OSMObjectType.tryFrom OSMObjectType.tryFromChar
    split_ifs <;> simp
  · unfold OSMObjectType.parse OSMObjectType.fromStr
    split_ifs <;> simp

/-- C10: `from_str` with its error: a text is refused, always with the same words, exactly if it is no RFC 3339 date-time. -/
theorem C10_refused (s e : Str) :
    TimestampFormat.parse s = .error e ↔ (¬ ∃ z, IsRfc3339 s z) ∧ e = "invalid date".toList := by
  rw [← C10_fromStr_rejects s]
  unfold TimestampFormat.parse TimestampFormat.fromStr
  cases Chrono.parseRfc3339 s with
  | none => simp [eq_comm]
  | some t => simp

/-- C10: and accepted otherwise, as the epoch number of the instant. -/
theorem C10_accepted (s : Str) (ts : TimestampFormat) :
    TimestampFormat.parse s = .ok ts ↔ ∃ t : Int64, IsRfc3339 s t.toInt ∧ ts = .epoch t := by
  rw [← C10_fromStr_iff s ts]
  unfold TimestampFormat.parse TimestampFormat.fromStr
  cases Chrono.parseRfc3339 s with
  | none => simp
  | some t => simp

example : OSMObjectType.parse (str% "Node") = .error (str% "Cannot convert Node to OSMObjectType") := by decide +kernel
example : OSMObjectType.tryFrom 'x' = .error (str% "Cannot convert x to OSMObjectType") := by decide +kernel
example : TimestampFormat.parse (str% "yesterday") = .error (str% "invalid date") := by decide +kernel

end Osmio
