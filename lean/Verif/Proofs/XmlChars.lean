import Verif.Lib.Xml
import Verif.Spec.XmlChars
/-! # Lemmas: characters of XML -/

namespace Osmio.Xml
open Spec

theorem char_eq (c d : Char) : c = d ↔ c.toNat = d.toNat := ⟨fun h => by rw [h], fun h => Char.toNat_inj.1 h⟩
theorem char_le (c d : Char) : c ≤ d ↔ c.toNat ≤ d.toNat := by
  rw [Char.le_def, UInt32.le_iff_toNat_le]; rfl

theorem isXmlChar_iff (c : Char) : isXmlChar c = true ↔ XmlChar c := by
  simp only [isXmlChar, XmlChar, char_eq, char_le, Bool.or_eq_true, beq_iff_eq, Bool.and_eq_true, decide_eq_true_eq]
  simp only [show '\u0009'.toNat = 9 by decide, show '\u000a'.toNat = 10 by decide, show '\u000d'.toNat = 13 by decide,
    show ' '.toNat = 0x20 by decide, show '\ud7ff'.toNat = 0xd7ff by decide, show '\ue000'.toNat = 0xe000 by decide,
    show '\ufffd'.toNat = 0xfffd by decide]
  omega

theorem isNameStart_iff (c : Char) : isNameStart c = true ↔ NameStart c := by
  simp only [isNameStart, NameStart, inRanges, char_eq, char_le, Bool.or_eq_true, beq_iff_eq, Bool.and_eq_true, decide_eq_true_eq,
    Bool.false_eq_true, or_false]
  simp only [show ':'.toNat = 58 by decide, show '_'.toNat = 95 by decide, show 'A'.toNat = 65 by decide, show 'Z'.toNat = 90 by decide,
    show 'a'.toNat = 97 by decide, show 'z'.toNat = 122 by decide, show '\u00c0'.toNat = 0xc0 by decide,
    show '\u00d6'.toNat = 0xd6 by decide, show '\u00d8'.toNat = 0xd8 by decide, show '\u00f6'.toNat = 0xf6 by decide,
    show '\u00f8'.toNat = 0xf8 by decide, show '\u02ff'.toNat = 0x2ff by decide, show '\u0370'.toNat = 0x370 by decide,
    show '\u037d'.toNat = 0x37d by decide, show '\u037f'.toNat = 0x37f by decide, show '\u1fff'.toNat = 0x1fff by decide,
    show '\u200c'.toNat = 0x200c by decide, show '\u200d'.toNat = 0x200d by decide, show '\u2070'.toNat = 0x2070 by decide,
    show '\u218f'.toNat = 0x218f by decide, show '\u2c00'.toNat = 0x2c00 by decide, show '\u2fef'.toNat = 0x2fef by decide,
    show '\u3001'.toNat = 0x3001 by decide, show '\ud7ff'.toNat = 0xd7ff by decide, show '\uf900'.toNat = 0xf900 by decide,
    show '\ufdcf'.toNat = 0xfdcf by decide, show '\ufdf0'.toNat = 0xfdf0 by decide, show '\ufffd'.toNat = 0xfffd by decide]
  omega

theorem isNameChar_iff (c : Char) : isNameChar c = true ↔ NameChar c := by
  unfold isNameChar NameChar
  rw [← isNameStart_iff]
  simp only [inRanges, char_eq, char_le, Bool.or_eq_true, beq_iff_eq, Bool.and_eq_true, decide_eq_true_eq, Bool.false_eq_true, or_false]
  simp only [show '-'.toNat = 45 by decide, show '.'.toNat = 46 by decide, show '0'.toNat = 48 by decide, show '9'.toNat = 57 by decide,
    show '\u00b7'.toNat = 0xb7 by decide, show '\u0300'.toNat = 0x300 by decide, show '\u036f'.toNat = 0x36f by decide,
    show '\u203f'.toNat = 0x203f by decide, show '\u2040'.toNat = 0x2040 by decide]
  constructor
  · rintro (((h | h) | h) | h)
    · exact .inl h
    all_goals (right; omega)
  · rintro (h | h)
    · exact .inl (.inl (.inl h))
    · rcases h with h | h | h | h | h | h
      · exact .inl (.inl (.inr h))
      · exact .inl (.inr h)
      all_goals (right; omega)

end Osmio.Xml
