import Verif.Lib.RustNum
/-! Lemmas about integer printing and parsing. -/

namespace Osmio

theorem digitChar_toNat {n : Nat} (h : n < 10) : (digitChar n).toNat = 48 + n := by
  unfold digitChar
  have : (48 + n).isValidChar := by left; omega
  simp [Char.ofNat, this]
  simp [Char.toNat, Char.ofNatAux]
  omega

theorem digitVal_digitChar {n : Nat} (h : n < 10) : digitVal? (digitChar n) = some n := by
  unfold digitVal?
  rw [digitChar_toNat h]
  have : 48 ≤ 48 + n ∧ 48 + n ≤ 57 := by omega
  rw [if_pos this]; congr 1; omega

theorem isDigit_digitChar {n : Nat} (h : n < 10) : isDigit (digitChar n) = true := by
  unfold isDigit; rw [digitChar_toNat h]; simp; omega

theorem digitsVal_append (acc : Nat) (a b : Str) :
    digitsVal acc (a ++ b) = (digitsVal acc a).bind (fun x => digitsVal x b) := by
  induction a generalizing acc with
  | nil => simp [digitsVal]
  | cons c cs ih =>
    simp only [List.cons_append, digitsVal]
    cases digitVal? c with
    | none => simp
    | some d => simp [ih]

theorem natStr_ne_nil (n : Nat) : natStr n ≠ [] := by
  unfold natStr; split <;> simp

theorem natStr_isDigit (n : Nat) : ∀ c ∈ natStr n, isDigit c = true := by
  induction n using Nat.strongRecOn with
  | _ n ih =>
    unfold natStr
    split
    · rename_i h; intro c hc; simp at hc; subst hc; exact isDigit_digitChar h
    · intro c hc
      rw [List.mem_append] at hc
      rcases hc with hc | hc
      · exact ih (n / 10) (by omega) c hc
      · simp at hc; subst hc; exact isDigit_digitChar (by omega)

theorem digitsVal_natStr (n : Nat) : digitsVal 0 (natStr n) = some n := by
  induction n using Nat.strongRecOn with
  | _ n ih =>
    unfold natStr
    split
    · rename_i h; simp [digitsVal, digitVal_digitChar h]
    · rw [digitsVal_append, ih (n / 10) (by omega)]
      simp [digitsVal, digitVal_digitChar (Nat.mod_lt n (by omega : 10 > 0))]
      omega

theorem parseDigits_natStr (n : Nat) : parseDigits (natStr n) = some n := by
  have h := digitsVal_natStr n
  cases hs : natStr n with
  | nil => exact absurd hs (natStr_ne_nil n)
  | cons c cs => rw [hs] at h; simpa [parseDigits] using h

theorem natStr_head_isDigit {n : Nat} {c : Char} {cs : Str} (h : natStr n = c :: cs) :
    isDigit c = true := natStr_isDigit n c (by simp [h])

theorem parseUnsigned_natStr {max n : Nat} (h : n ≤ max) :
    parseUnsigned max (natStr n) = some n := by
  have hb : stripPlus (natStr n) = natStr n := by
    unfold stripPlus
    split
    · rename_i r hr; exact absurd (natStr_head_isDigit hr) (by decide)
    · rfl
  simp only [parseUnsigned, hb, parseDigits_natStr, if_pos h]

theorem parseSigned_intStr {max : Nat} {i : Int} (hlo : -((max : Int) + 1) ≤ i) (hhi : i ≤ max) :
    parseSigned max (intStr i) = some i := by
  unfold intStr
  split
  · rename_i hneg
    simp only [parseSigned, parseDigits_natStr]
    rw [if_pos (by omega)]; congr 1; omega
  · rename_i hneg
    unfold parseSigned
    split
    · rename_i r hr; exact absurd (natStr_head_isDigit hr) (by decide)
    · rename_i r hr; exact absurd (natStr_head_isDigit hr) (by decide)
    · rw [parseDigits_natStr]; simp only; rw [if_pos (by omega)]; congr 1; omega

theorem parseI64_i64Str (i : Int64) : parseI64 (i64Str i) = some i := by
  unfold parseI64 i64Str
  have h1 := i.toInt_lt; have h2 := i.le_toInt
  rw [parseSigned_intStr (by omega) (by omega)]
  simp

theorem parseU32_u32Str (n : UInt32) : parseU32 (u32Str n) = some n := by
  unfold parseU32 u32Str
  rw [parseUnsigned_natStr (by have := n.toNat_lt; omega)]
  simp

/-- Characters of printed integers: digits or a minus sign. -/
theorem intStr_chars (i : Int) : ∀ c ∈ intStr i, isDigit c = true ∨ c = '-' := by
  intro c hc; unfold intStr at hc
  split at hc
  · rcases List.mem_cons.mp hc with h | h
    · right; exact h
    · left; exact natStr_isDigit _ c h
  · left; exact natStr_isDigit _ c hc

end Osmio
