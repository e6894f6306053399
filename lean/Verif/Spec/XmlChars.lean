import Verif.Lib.Basic
/-! # Specification: characters of XML 1.0 (fifth edition) -/

namespace Osmio.Spec

/-- Production [2], `Char`. -/
def XmlChar (c : Char) : Prop :=
  c = '\u0009' ∨ c = '\u000a' ∨ c = '\u000d' ∨ (' ' ≤ c ∧ c ≤ '\ud7ff') ∨ ('\ue000' ≤ c ∧ c ≤ '\ufffd') ∨
    0x10000 ≤ c.toNat

/-- Production [4], `NameStartChar`. -/
def NameStart (c : Char) : Prop :=
  c = ':' ∨ ('A' ≤ c ∧ c ≤ 'Z') ∨ c = '_' ∨ ('a' ≤ c ∧ c ≤ 'z') ∨ ('\u00c0' ≤ c ∧ c ≤ '\u00d6') ∨ ('\u00d8' ≤ c ∧ c ≤ '\u00f6') ∨
  ('\u00f8' ≤ c ∧ c ≤ '\u02ff') ∨ ('\u0370' ≤ c ∧ c ≤ '\u037d') ∨ ('\u037f' ≤ c ∧ c ≤ '\u1fff') ∨ ('\u200c' ≤ c ∧ c ≤ '\u200d') ∨
  ('\u2070' ≤ c ∧ c ≤ '\u218f') ∨ ('\u2c00' ≤ c ∧ c ≤ '\u2fef') ∨ ('\u3001' ≤ c ∧ c ≤ '\ud7ff') ∨ ('\uf900' ≤ c ∧ c ≤ '\ufdcf') ∨
  ('\ufdf0' ≤ c ∧ c ≤ '\ufffd') ∨ (0x10000 ≤ c.toNat ∧ c.toNat ≤ 0xeffff)

/-- Production [4a], `NameChar`. -/
def NameChar (c : Char) : Prop :=
  NameStart c ∨ c = '-' ∨ c = '.' ∨ ('0' ≤ c ∧ c ≤ '9') ∨ c = '\u00b7' ∨ ('\u0300' ≤ c ∧ c ≤ '\u036f') ∨
  ('\u203f' ≤ c ∧ c ≤ '\u2040')

end Osmio.Spec
