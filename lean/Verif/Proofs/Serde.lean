import Verif.Model.Serde
import Verif.Spec.JsonText
import Verif.Proofs.Integer
import Verif.Proofs.Decimal
import Verif.Proofs.Chrono
/-! # Lemmas: reading JSON -/

namespace Osmio.Json
open Spec.JsonText Spec.Value

theorem isWs_iff {c : Char} : isWs c = true ↔ c = ' ' ∨ c = '\t' ∨ c = '\n' ∨ c = '\r' := by
  unfold isWs; rw [decide_eq_true_iff]; tauto

theorem space_nil : Space [] := fun _ h => by cases h

theorem skipWs_spec (s : Str) : ∃ a, Space a ∧ s = a ++ skipWs s := by
  induction s with
  | nil => exact ⟨[], space_nil, rfl⟩
  | cons c s ih =>
    obtain ⟨a, h1, h2⟩ := ih
    unfold skipWs
    split
    · rename_i h
      refine ⟨c :: a, ?_, by rw [List.cons_append, ← h2]⟩
      intro x hx
      rcases List.mem_cons.1 hx with rfl | hx
      · exact isWs_iff.1 h
      · exact h1 x hx
    · exact ⟨[], space_nil, rfl⟩

theorem skipWs_append {a : Str} (h : Space a) (r : Str) : skipWs (a ++ r) = skipWs r := by
  induction a with
  | nil => rfl
  | cons c a ih =>
    have hc : isWs c = true := isWs_iff.2 (h c (by simp))
    simp only [List.cons_append, skipWs, hc, if_true]
    exact ih fun x hx => h x (by simp [hx])

theorem skipWs_space {a : Str} (h : Space a) : skipWs a = [] := by
  have := skipWs_append h []
  rwa [List.append_nil] at this

theorem skipWs_cons {c : Char} (h : isWs c = false) (r : Str) : skipWs (c :: r) = c :: r := by
  simp [skipWs, h]

/-- White space is skipped up to a character that is not white space. -/
theorem skipWs_iff {c : Char} (h : isWs c = false) {s r : Str} : skipWs s = c :: r ↔ ∃ a, Space a ∧ s = a ++ c :: r := by
  constructor
  · intro h1
    obtain ⟨a, h2, h3⟩ := skipWs_spec s
    exact ⟨a, h2, by rw [← h1]; exact h3⟩
  · rintro ⟨a, h1, rfl⟩
    rw [skipWs_append h1, skipWs_cons h]

theorem atEnd_iff {r : Str} : atEnd r = true ↔ Space r := by
  unfold atEnd
  rw [List.isEmpty_iff]
  constructor
  · intro h
    obtain ⟨a, h1, h2⟩ := skipWs_spec r
    rw [h, List.append_nil] at h2
    exact h2 ▸ h1
  · exact skipWs_space

theorem closeObject_iff {r : Str} : closeObject r = true ↔ ∃ a b, Space a ∧ Space b ∧ r = a ++ '}' :: b := by
  unfold closeObject
  constructor
  · intro h
    split at h
    · rename_i b hb
      obtain ⟨a, h1, h2⟩ := (skipWs_iff (by decide)).1 hb
      exact ⟨a, b, h1, atEnd_iff.1 h, h2⟩
    · cases h
  · rintro ⟨a, b, h1, h2, h3⟩
    rw [(skipWs_iff (by decide)).2 ⟨a, h1, h3⟩]
    exact atEnd_iff.2 h2

theorem colon_iff {s r : Str} : colon s = some r ↔ ∃ a, Space a ∧ s = a ++ ':' :: r := by
  unfold colon
  constructor
  · intro h
    split at h
    · rename_i b hb
      cases h
      exact (skipWs_iff (by decide)).1 hb
    · cases h
  · intro h
    have h1 := (skipWs_iff (c := ':') (by decide)).2 h
    simp only [h1]

theorem parseNull_iff {s r : Str} : parseNull s = some r ↔ ∃ a, Space a ∧ s = a ++ (str% "null" ++ r) := by
  unfold parseNull
  constructor
  · intro h
    split at h
    · rename_i b hb
      cases h
      exact (skipWs_iff (by decide)).1 hb
    · cases h
  · intro h
    rw [(skipWs_iff (r := str% "ull" ++ r) (by decide)).2 h]
    rfl

/-! ## Strings -/

theorem hexVal_quick (c : Char) : hexVal c = QuickXml.digit 16 c := by
  unfold hexVal QuickXml.digit
  simp

theorem hex4_iff {s r : Str} {n : Nat} : hex4 s = some (n, r) ↔ ∃ h, h.length = 4 ∧ Number 16 h n ∧ s = h ++ r := by
  constructor
  · intro h
    unfold hex4 at h
    split at h
    · rename_i a b c d t
      split at h
      · rename_i ha hb hc hd
        rw [hexVal_quick] at ha hb hc hd
        cases h
        refine ⟨[a, b, c, d], rfl, ?_, rfl⟩
        rw [← QuickXml.number_iff (.inr rfl)]
        refine ⟨by simp, ?_⟩
        simp only [QuickXml.number, ha, hb, hc, hd, Option.some.injEq]
        omega
      · cases h
    · cases h
  · rintro ⟨h, h1, h2, rfl⟩
    have h2 := (QuickXml.number_iff (.inr rfl)).2 h2
    obtain ⟨a, b, c, d, rfl⟩ : ∃ a b c d, h = [a, b, c, d] := by
      match h, h1 with
      | [a, b, c, d], _ => exact ⟨a, b, c, d, rfl⟩
    obtain ⟨_, h2⟩ := h2
    simp only [List.cons_append, List.nil_append, hex4, hexVal_quick]
    simp only [QuickXml.number] at h2
    cases ha : QuickXml.digit 16 a with
    | none => rw [ha] at h2; cases h2
    | some a' =>
    cases hb : QuickXml.digit 16 b with
    | none => rw [ha, hb] at h2; cases h2
    | some b' =>
    cases hc : QuickXml.digit 16 c with
    | none => rw [ha, hb, hc] at h2; cases h2
    | some c' =>
    cases hd : QuickXml.digit 16 d with
    | none => rw [ha, hb, hc, hd] at h2; cases h2
    | some d' =>
      rw [ha, hb, hc, hd] at h2
      simp only [Option.some.injEq] at h2
      simp only [Option.some.injEq, Prod.mk.injEq, and_true]
      omega

theorem number4_lt {h : Str} {n : Nat} (hl : h.length = 4) (hn : Number 16 h n) : n < 65536 := by
  have h2 := ((QuickXml.number_iff (.inr rfl)).2 hn).2
  have hd : ∀ {c d}, QuickXml.digit 16 c = some d → d < 16 := fun h => ((QuickXml.digit_iff (.inr rfl)).1 h).1
  match h, hl with
  | [a, b, c, d], _ =>
    simp only [QuickXml.number] at h2
    cases ha : QuickXml.digit 16 a with
    | none => rw [ha] at h2; cases h2
    | some a' =>
    cases hb : QuickXml.digit 16 b with
    | none => rw [ha, hb] at h2; cases h2
    | some b' =>
    cases hc : QuickXml.digit 16 c with
    | none => rw [ha, hb, hc] at h2; cases h2
    | some c' =>
    cases hd' : QuickXml.digit 16 d with
    | none => rw [ha, hb, hc, hd'] at h2; cases h2
    | some d' =>
      rw [ha, hb, hc, hd'] at h2
      simp only [Option.some.injEq] at h2
      have := hd ha; have := hd hb; have := hd hc; have := hd hd'
      omega

theorem toNat_ofNat {n : Nat} (h : n.isValidChar) : (Char.ofNat n).toNat = n := by
  simp [Char.ofNat, h, Char.toNat, Char.ofNatAux]

theorem char_valid (c : Char) : c.toNat < 0xD800 ∨ 0xDFFF < c.toNat ∧ c.toNat < 0x110000 := c.valid

/-- One escape, after the backslash: the character and what is left. -/
inductive Escape : Str → Char → Str → Prop where
  | short {e c r} : (e, c.toNat) ∈ escapes → Escape (e :: r) c r
  | unit {h c r} : h.length = 4 → Number 16 h c.toNat → Escape ('u' :: (h ++ r)) c r
  | pair {h l a b c r} : h.length = 4 → l.length = 4 → Number 16 h (0xD800 + a) → Number 16 l (0xDC00 + b) →
      a < 0x400 → b < 0x400 → c.toNat = 0x10000 + a * 0x400 + b →
      Escape ('u' :: (h ++ '\\' :: 'u' :: (l ++ r))) c r

theorem unicodeEscape_escape {s r : Str} {c : Char} (h : unicodeEscape s = some (c, r)) : Escape ('u' :: s) c r := by
  unfold unicodeEscape at h
  split at h
  · cases h
  rename_i n t h4
  obtain ⟨u, hu, hn, rfl⟩ := hex4_iff.1 h4
  have hlt := number4_lt hu hn
  split at h
  · cases h
  rename_i hs
  split at h
  · rename_i h1
    cases h
    refine .unit hu ?_
    rw [toNat_ofNat]
    · exact hn
    · unfold Nat.isValidChar; omega
  rename_i h1
  split at h
  · rename_i t
    split at h
    · cases h
    rename_i m t' h4'
    obtain ⟨l, hl, hm, rfl⟩ := hex4_iff.1 h4'
    split at h
    · cases h
    rename_i h2
    obtain ⟨hc, rfl⟩ := Prod.mk.inj (Option.some.inj h)
    subst hc
    refine .pair (a := n - 0xD800) (b := m - 0xDC00) hu hl ?_ ?_ (by omega) (by omega) ?_
    · rw [show 0xD800 + (n - 0xD800) = n by omega]; exact hn
    · rw [show 0xDC00 + (m - 0xDC00) = m by omega]; exact hm
    · rw [toNat_ofNat]
      · omega
      · unfold Nat.isValidChar; omega
  · cases h

theorem escape_iff {s r : Str} {c : Char} : escape s = some (c, r) ↔ Escape s c r := by
  constructor
  · intro h
    unfold escape at h
    split at h
    case h_9 => exact unicodeEscape_escape h
    case h_10 => cases h
    all_goals (cases h; exact .short (by decide))
  · intro h
    cases h with
    | short h =>
      have hc : c = Char.ofNat c.toNat := (Char.ofNat_toNat c).symm
      generalize c.toNat = n at h hc
      subst hc
      simp only [escapes, List.mem_cons, Prod.mk.injEq, List.not_mem_nil, or_false] at h
      rcases h with ⟨rfl, rfl⟩ | ⟨rfl, rfl⟩ | ⟨rfl, rfl⟩ | ⟨rfl, rfl⟩ | ⟨rfl, rfl⟩ | ⟨rfl, rfl⟩ | ⟨rfl, rfl⟩ | ⟨rfl, rfl⟩ <;> rfl
    | unit hl hn =>
      show unicodeEscape _ = _
      unfold unicodeEscape
      rw [hex4_iff.2 ⟨_, hl, hn, rfl⟩]
      have h1 := char_valid c
      have h2 := number4_lt hl hn
      have h3 : ¬ (0xDC00 ≤ c.toNat ∧ c.toNat ≤ 0xDFFF) := by omega
      have h4 : c.toNat < 0xD800 ∨ 0xDBFF < c.toNat := by omega
      simp only [if_neg h3, if_pos h4, Char.ofNat_toNat]
    | @pair h l a b _ _ hh hl ha hb h1 h2 h3 =>
      show unicodeEscape _ = _
      unfold unicodeEscape
      rw [hex4_iff.2 ⟨_, hh, ha, rfl⟩]
      have g1 : ¬ (0xDC00 ≤ 0xD800 + a ∧ 0xD800 + a ≤ 0xDFFF) := by omega
      have g2 : ¬ (0xD800 + a < 0xD800 ∨ 0xDBFF < 0xD800 + a) := by omega
      have g3 : ¬ (0xDC00 + b < 0xDC00 ∨ 0xDFFF < 0xDC00 + b) := by omega
      simp only [if_neg g1, if_neg g2, hex4_iff.2 ⟨_, hl, hb, rfl⟩, if_neg g3]
      have g4 : (0xD800 + a - 0xD800) * 0x400 + (0xDC00 + b - 0xDC00) + 0x10000 = c.toNat := by omega
      rw [g4, Char.ofNat_toNat]

theorem Escape.chars {s r : Str} {c : Char} (h : Escape s c r) :
    ∃ e, s = e ++ r ∧ e ≠ [] ∧ (∀ q v, Chars q v → Chars ('\\' :: (e ++ q)) (c :: v)) ∧ ∀ q, Escape (e ++ q) c q := by
  cases h with
  | short h => exact ⟨[_], rfl, by simp, fun q v hq => .short h hq, fun q => .short h⟩
  | unit hl hn => exact ⟨'u' :: _, rfl, by simp, fun q v hq => .unit hl hn hq, fun q => .unit hl hn⟩
  | @pair h l a b _ _ hh hl ha hb h1 h2 h3 =>
    refine ⟨'u' :: (h ++ '\\' :: 'u' :: l), by simp, by simp, fun q v hq => ?_, fun q => ?_⟩
    · have := Chars.pair hh hl ha hb h1 h2 h3 hq
      simpa using this
    · have := Escape.pair (r := q) hh hl ha hb h1 h2 h3
      simpa using this

theorem consChar_eq {c : Char} {o : Option (Str × Str)} {v r : Str} :
    consChar c o = some (v, r) ↔ ∃ w, o = some (w, r) ∧ v = c :: w := by
  cases o with
  | none => simp [consChar]
  | some p =>
    obtain ⟨w, q⟩ := p
    simp only [consChar, Option.some.injEq, Prod.mk.injEq]
    constructor
    · rintro ⟨rfl, rfl⟩; exact ⟨w, ⟨rfl, rfl⟩, rfl⟩
    · rintro ⟨_, ⟨rfl, rfl⟩, rfl⟩; exact ⟨rfl, rfl⟩

theorem strBody_chars (n : Nat) : ∀ {s v r : Str}, strBody n s = some (v, r) → ∃ b, Chars b v ∧ s = b ++ '"' :: r := by
  induction n with
  | zero => intro s v r h; cases h
  | succ n ih =>
    intro s v r h
    cases s with
    | nil => cases h
    | cons c s =>
      unfold strBody at h
      split at h
      · rename_i hc
        subst hc; cases h
        exact ⟨[], .nil, rfl⟩
      rename_i hq
      split at h
      · rename_i hc
        subst hc
        split at h
        · rename_i x t he
          obtain ⟨w, h1, rfl⟩ := consChar_eq.1 h
          obtain ⟨b, h2, h3⟩ := ih h1
          obtain ⟨e, rfl, _, h4, _⟩ := (escape_iff.1 he).chars
          exact ⟨'\\' :: (e ++ b), h4 _ _ h2, by rw [h3]; simp⟩
        · cases h
      rename_i hb
      split at h
      · cases h
      rename_i h32
      obtain ⟨w, h1, rfl⟩ := consChar_eq.1 h
      obtain ⟨b, h2, rfl⟩ := ih h1
      exact ⟨c :: b, .plain (by omega) hq hb h2, rfl⟩

theorem strBody_escape {n : Nat} {e : Str} {c : Char} {q w r : Str} (he : Escape (e ++ q) c q) (h : strBody n q = some (w, r)) :
    strBody (n + 1) ('\\' :: (e ++ q)) = some (c :: w, r) := by
  unfold strBody
  rw [if_neg (by decide), if_pos rfl, escape_iff.2 he]
  simp only [h, consChar]

theorem strBody_of_chars {b v : Str} (h : Chars b v) : ∀ (r : Str) (n : Nat), b.length < n → strBody n (b ++ '"' :: r) = some (v, r) := by
  have key : ∀ {e : Str} {c : Char} {q w : Str} (r : Str) (n : Nat), e ≠ [] → ('\\' :: (e ++ q)).length < n →
      (∀ q, Escape (e ++ q) c q) → (∀ n, q.length < n → strBody n (q ++ '"' :: r) = some (w, r)) →
      strBody n ('\\' :: (e ++ q) ++ '"' :: r) = some (c :: w, r) := by
    intro e c q w r n _ hn he ih
    obtain ⟨m, rfl⟩ : ∃ m, n = m + 1 := ⟨n - 1, by omega⟩
    simp only [List.length_cons, List.length_append] at hn
    have := strBody_escape (he _) (ih m (by omega))
    rw [← List.append_assoc] at this
    exact this
  induction h with
  | nil =>
    intro r n hn
    obtain ⟨m, rfl⟩ : ∃ m, n = m + 1 := ⟨n - 1, by omega⟩
    rfl
  | @plain c b v h1 h2 h3 _ ih =>
    intro r n hn
    obtain ⟨m, rfl⟩ : ∃ m, n = m + 1 := ⟨n - 1, by omega⟩
    simp only [List.cons_append, strBody, if_neg h2, if_neg h3, if_neg (show ¬ c.toNat < 32 by omega)]
    rw [ih r m (by simp at hn; omega)]
    rfl
  | @short e c b v h1 _ ih =>
    intro r n hn
    exact key (e := [e]) r n (by simp) hn (fun q => .short h1) (ih r)
  | @unit h c b v hl h1 _ ih =>
    intro r n hn
    exact key (e := 'u' :: h) r n (by simp) hn (fun q => .unit hl h1) (ih r)
  | @pair h l x y c b v hh hl ha hb h1 h2 h3 _ ih =>
    intro r n hn
    have := key (e := 'u' :: (h ++ '\\' :: 'u' :: l)) (q := b) (c := c) r n (by simp) (by simpa using hn)
      (fun q => by simpa using Escape.pair (r := q) hh hl ha hb h1 h2 h3) (ih r)
    simpa using this

theorem parseString_iff {s v r : Str} : parseString s = some (v, r) ↔ ∃ a l, Space a ∧ Literal l v ∧ s = a ++ (l ++ r) := by
  unfold parseString
  constructor
  · intro h
    split at h
    · rename_i t ht
      obtain ⟨a, ha, rfl⟩ := (skipWs_iff (by decide)).1 ht
      obtain ⟨b, hb, rfl⟩ := strBody_chars _ h
      exact ⟨a, _, ha, ⟨b, hb, rfl⟩, by simp⟩
    · cases h
  · rintro ⟨a, l, ha, ⟨b, hb, rfl⟩, rfl⟩
    rw [(skipWs_iff (c := '"') (r := b ++ '"' :: r) (by decide)).2 ⟨a, ha, by simp⟩]
    exact strBody_of_chars hb r _ (by simp; omega)

theorem variantKey_iff {s k r : Str} : variantKey s = some (k, r) ↔
    ∃ a l b, Space a ∧ Literal l k ∧ Space b ∧ s = a ++ (l ++ (b ++ ':' :: r)) := by
  unfold variantKey
  constructor
  · intro h
    split at h
    · cases h
    rename_i k' t ht
    split at h
    · cases h
    rename_i q hq
    cases h
    obtain ⟨a, l, ha, hl, rfl⟩ := parseString_iff.1 ht
    obtain ⟨b, hb, rfl⟩ := colon_iff.1 hq
    exact ⟨a, l, b, ha, hl, hb, rfl⟩
  · rintro ⟨a, l, b, ha, hl, hb, rfl⟩
    rw [parseString_iff.2 ⟨a, l, ha, hl, rfl⟩]
    simp only
    rw [colon_iff.2 ⟨b, hb, rfl⟩]

/-! ## Numbers -/

/-- No more of a number follows. -/
def Stop (r : Str) : Prop := ∀ c q, r = c :: q → isDigit c = false ∧ c ≠ '.' ∧ c ≠ 'e' ∧ c ≠ 'E'

theorem number_isDigit {s : Str} {n : Nat} (h : Number 10 s n) : ∀ c ∈ s, isDigit c = true := by
  have hd : ∀ {c d}, Digit 10 c d → isDigit c = true := by
    intro c d h
    have h := (QuickXml.digit_iff (.inl rfl)).2 h
    rw [← digitVal_quick] at h
    unfold digitVal? at h
    unfold isDigit
    split at h
    · exact decide_eq_true (by assumption)
    · cases h
  induction h with
  | digit h => intro c hc; rw [List.mem_singleton.1 hc]; exact hd h
  | more _ h ih =>
    intro c hc
    rcases List.mem_append.1 hc with hc | hc
    · exact ih c hc
    · rw [List.mem_singleton.1 hc]; exact hd h

theorem parseUint_dest {s r : Str} {n : Nat} (h : parseUint s = some (n, r)) :
    ∃ i, Number 10 i n ∧ (i = ['0'] ∨ i.head? ≠ some '0') ∧ s = i ++ r := by
  unfold parseUint at h
  have hs := (spanDigits_spec s).1
  split at h
  rename_i ds q hq
  rw [hq] at hs
  split at h
  · cases h
  rename_i m hm
  split at h
  · cases h
  rename_i h0
  split at h
  · cases h
  cases h
  refine ⟨ds, (parseDigits_number _ _).1 hm, ?_, hs⟩
  by_cases hz : ds = ['0']
  · exact .inl hz
  · exact .inr fun h1 => h0 ⟨h1, hz⟩

theorem parseUint_of {i r : Str} {n : Nat} (hi : Number 10 i n) (h0 : i = ['0'] ∨ i.head? ≠ some '0') (hr : Stop r) :
    parseUint (i ++ r) = some (n, r) := by
  unfold parseUint
  rw [spanDigits_append (number_isDigit hi) fun c cs h => (hr c cs h).1]
  simp only [(parseDigits_number _ _).2 hi]
  rw [if_neg (fun h => h0.elim h.2 (fun h2 => h2 h.1)), if_neg]
  cases r with
  | nil => simp
  | cons c q =>
    obtain ⟨_, h1, h2, h3⟩ := hr c q rfl
    simp [h1, h2, h3]

theorem number_zero {i : Str} (hi : Number 10 i 0) (h0 : i.head? ≠ some '0') : False := by
  have key : ∀ {s n}, Number 10 s n → n = 0 → s.head? = some '0' := by
    intro s n h
    induction h with
    | @digit c d h =>
      rintro rfl
      obtain ⟨_, h⟩ := h
      simp at h
      rw [← h]; rfl
    | @more s n c d hs h ih =>
      intro hz
      have := ih (by omega)
      cases s with
      | nil => cases this
      | cons x s => simpa using this
  exact h0 (key hi rfl)

theorem parseInteger_dest {s r : Str} {z : Int} (h : parseInteger s = some (z, r)) :
    ∃ a i, Space a ∧ Integer i z ∧ s = a ++ (i ++ r) := by
  obtain ⟨a, ha, hs⟩ := skipWs_spec s
  have hz : ∀ {i : Str} {n : Nat}, Number 10 i n → (i = ['0'] ∨ i.head? ≠ some '0') → Integer i n := by
    intro i n h1 h2
    rcases h2 with rfl | h2
    · have : n = 0 := by
        have := (parseDigits_number _ _).2 h1
        have h3 : parseDigits ['0'] = some 0 := rfl
        rw [h3] at this
        exact (Option.some.inj this).symm
      subst this
      exact .zero
    · exact .pos h1 h2
  unfold parseInteger at h
  split at h
  · rename_i t ht
    rw [ht] at hs
    split at h
    · rename_i n q hq
      obtain ⟨i, h1, h2, rfl⟩ := parseUint_dest hq
      split at h
      · cases h
      rename_i hn
      cases h
      refine ⟨a, '-' :: i, ha, .neg h1 (h2.elim (fun h3 => ?_) id), hs⟩
      subst h3
      have := (parseDigits_number _ _).2 h1
      have h3 : parseDigits ['0'] = some 0 := rfl
      rw [h3] at this
      exact absurd (Option.some.inj this).symm hn
    · cases h
  · split at h
    · rename_i n q hq
      cases h
      obtain ⟨i, h1, h2, h3⟩ := parseUint_dest hq
      exact ⟨a, i, ha, hz h1 h2, by rw [← h3]; exact hs⟩
    · cases h

theorem digit_not_ws {c : Char} (h : isDigit c = true) : isWs c = false ∧ c ≠ '-' := by
  unfold isDigit at h
  rw [decide_eq_true_iff] at h
  constructor
  · rw [Bool.eq_false_iff]
    intro hw
    rcases isWs_iff.1 hw with rfl | rfl | rfl | rfl <;> exact absurd h (by decide)
  · rintro rfl; exact absurd h (by decide)

theorem parseInteger_plain {s : Str} {n : Nat} {r : Str} {a : Str} (ha : Space a) (h1 : ∃ c q, s = c :: q ∧ isDigit c = true)
    (h : parseUint s = some (n, r)) : parseInteger (a ++ s) = some ((n : Int), r) := by
  obtain ⟨c, q, rfl, hc⟩ := h1
  have hw := digit_not_ws hc
  unfold parseInteger
  rw [skipWs_append ha, skipWs_cons hw.1]
  split
  · rename_i h2; cases h2; exact absurd rfl hw.2
  · simp only [h]

theorem parseInteger_of {a i r : Str} {z : Int} (ha : Space a) (hi : Integer i z) (hr : Stop r) :
    parseInteger (a ++ (i ++ r)) = some (z, r) := by
  have hn : ∀ {i : Str} {n : Nat}, Number 10 i n → ∃ c q, i ++ r = c :: q ∧ isDigit c = true := by
    intro i n h
    obtain ⟨c, q, rfl, _⟩ := number_first h
    exact ⟨c, q ++ r, rfl, number_isDigit h c (by simp)⟩
  cases hi with
  | zero =>
    have h0 : Number 10 ['0'] 0 := .digit ⟨by decide, .inl rfl⟩
    exact parseInteger_plain (n := 0) ha (hn h0) (parseUint_of h0 (.inl rfl) hr)
  | pos h1 h2 => exact parseInteger_plain ha (hn h1) (parseUint_of h1 (.inr h2) hr)
  | @neg s n h1 h2 =>
    unfold parseInteger
    rw [skipWs_append ha, List.cons_append, skipWs_cons (by decide)]
    simp only [parseUint_of h1 (.inr h2) hr]
    rw [if_neg]
    rintro rfl
    exact number_zero h1 h2

theorem stop_space {a : Str} (h : Space a) : Stop a := by
  rintro c q rfl
  rcases h c (by simp) with rfl | rfl | rfl | rfl <;> decide

theorem stop_close {a b : Str} (h : Space a) : Stop (a ++ '}' :: b) := by
  cases a with
  | nil => rintro c q h; cases h; decide
  | cons x a =>
    rintro c q h1
    have hc : x = c := (List.cons.inj h1).1
    rcases h c (by simp [hc]) with rfl | rfl | rfl | rfl <;> decide

/-! ## What is written -/

theorem intStr_integer (z : Int) : Integer (intStr z) z := by
  unfold intStr
  split
  · have := Integer.neg (natStr_number z.natAbs) (natStr_head _ (by omega))
    rwa [show -((z.natAbs : Nat) : Int) = z by omega] at this
  · by_cases h0 : z = 0
    · subst h0
      have : natStr (Int.natAbs 0) = ['0'] := by decide +kernel
      rw [this]; exact .zero
    · have := Integer.pos (natStr_number z.natAbs) (natStr_head _ (by omega))
      rwa [show ((z.natAbs : Nat) : Int) = z by omega] at this

theorem hexDigit_digit {n : Nat} (h : n < 16) : Digit 16 (hexDigit n) n := by
  refine ⟨h, .inl ?_⟩
  interval_cases n <;> decide

theorem escapeChar_chars (c : Char) {r v : Str} (h : Chars r v) : Chars (escapeChar c ++ r) (c :: v) := by
  unfold escapeChar
  split
  · rename_i hc; subst hc; exact .short (by decide) h
  split
  · rename_i hc; subst hc; exact .short (by decide) h
  rename_i h1 h2
  split
  · rename_i hc; exact .short (by rw [hc]; decide) h
  split
  · rename_i hc; exact .short (by rw [hc]; decide) h
  split
  · rename_i hc; exact .short (by rw [hc]; decide) h
  split
  · rename_i hc; exact .short (by rw [hc]; decide) h
  split
  · rename_i hc; exact .short (by rw [hc]; decide) h
  split
  · rename_i hc
    refine Chars.unit (h := ['0', '0', hexDigit (c.toNat / 16), hexDigit (c.toNat % 16)]) rfl ?_ h
    have h0 : Digit 16 '0' 0 := ⟨by decide, .inl rfl⟩
    have := Number.more (Number.more (Number.more (Number.digit h0) h0) (hexDigit_digit (n := c.toNat / 16) (by omega)))
      (hexDigit_digit (n := c.toNat % 16) (by omega))
    rwa [show 16 * (16 * (16 * 0 + 0) + c.toNat / 16) + c.toNat % 16 = c.toNat by omega] at this
  · exact .plain (by omega) h1 h2 h

theorem quote_literal (s : Str) : Literal (quote s) s := by
  refine ⟨s.flatMap escapeChar, ?_, rfl⟩
  induction s with
  | nil => exact .nil
  | cons c s ih => exact escapeChar_chars c ih

end Osmio.Json

namespace Osmio
open Json Spec.JsonText

theorem innerFromJson_iff (s : Str) (i : Int32) : innerFromJson s = some i ↔ Text (Integer · i.toInt) s := by
  unfold innerFromJson
  constructor
  · intro h
    split at h
    · cases h
    rename_i z r hz
    split at h
    · rename_i hr
      split at h
      · rename_i he
        cases h
        obtain ⟨a, t, ha, ht, rfl⟩ := parseInteger_dest hz
        refine ⟨a, t, r, ha, ?_, atEnd_iff.1 he, rfl⟩
        rwa [Int32.toInt_ofInt_of_le (by omega) (by omega)]
      · cases h
    · cases h
  · rintro ⟨a, t, b, ha, ht, hb, rfl⟩
    rw [parseInteger_of ha ht (stop_space hb)]
    have h1 := Int32.le_toInt i
    have h2 := Int32.toInt_lt i
    simp only
    rw [if_pos ⟨by omega, by omega⟩, if_pos (atEnd_iff.2 hb), Int32.ofInt_toInt]

/-- The value of a timestamp, as JSON. -/
def Spec.JsonText.Stamp : TimestampFormat → Str → Prop
  | .iso v => Object (str% "ISOString") (Literal · v)
  | .epoch n => Object (str% "EpochNumber") (Integer · n.toInt)

theorem timestampFromJson_iff (s : Str) (t : TimestampFormat) : TimestampFormat.fromJson s = some t ↔ Text (Stamp t) s := by
  unfold TimestampFormat.fromJson
  constructor
  · intro h
    split at h
    · rename_i q hq
      obtain ⟨p, hp, rfl⟩ := (skipWs_iff (by decide)).1 hq
      split at h
      · cases h
      rename_i k r hk
      obtain ⟨a, l, b, ha, hl, hb, rfl⟩ := variantKey_iff.1 hk
      split at h
      · rename_i hname
        subst hname
        split at h
        · cases h
        rename_i v u hv
        obtain ⟨c, w, hc, hw, rfl⟩ := parseString_iff.1 hv
        split at h
        · rename_i hclose
          cases h
          obtain ⟨d, e, hd, he, rfl⟩ := closeObject_iff.1 hclose
          exact ⟨p, _, e, hp, ⟨l, w, a, b, c, d, hl, hw, ha, hb, hc, hd, rfl⟩, he, by simp⟩
        · cases h
      split at h
      · rename_i hname
        subst hname
        split at h
        · cases h
        rename_i z u hv
        obtain ⟨c, w, hc, hw, rfl⟩ := parseInteger_dest hv
        split at h
        · rename_i hrange
          split at h
          · rename_i hclose
            cases h
            obtain ⟨d, e, hd, he, rfl⟩ := closeObject_iff.1 hclose
            refine ⟨p, _, e, hp, ⟨l, w, a, b, c, d, hl, ?_, ha, hb, hc, hd, rfl⟩, he, by simp⟩
            show Integer w (Int64.ofInt z).toInt
            rwa [Int64.toInt_ofInt_of_le (by omega) (by omega)]
          · cases h
        · cases h
      · cases h
    · cases h
  · rintro ⟨p, o, e, hp, ho, he, rfl⟩
    cases t with
    | iso v =>
      obtain ⟨l, w, a, b, c, d, hl, hw, ha, hb, hc, hd, rfl⟩ := ho
      rw [List.cons_append, skipWs_append hp, skipWs_cons (by decide)]
      simp only [List.append_assoc, List.cons_append, List.nil_append]
      rw [variantKey_iff.2 ⟨a, l, b, ha, hl, hb, rfl⟩]
      simp only [if_true]
      rw [parseString_iff.2 ⟨c, w, hc, hw, rfl⟩]
      simp only
      rw [if_pos (closeObject_iff.2 ⟨d, e, hd, he, rfl⟩)]
    | epoch n =>
      obtain ⟨l, w, a, b, c, d, hl, hw, ha, hb, hc, hd, rfl⟩ := ho
      rw [List.cons_append, skipWs_append hp, skipWs_cons (by decide)]
      simp only [List.append_assoc, List.cons_append, List.nil_append]
      rw [variantKey_iff.2 ⟨a, l, b, ha, hl, hb, rfl⟩]
      simp only
      rw [if_neg (by decide), if_pos True.intro, parseInteger_of hc hw (stop_close hd)]
      have h1 := Int64.le_toInt n
      have h2 := Int64.toInt_lt n
      simp only
      rw [if_pos ⟨by omega, by omega⟩, if_pos (closeObject_iff.2 ⟨d, e, hd, he, rfl⟩), Int64.ofInt_toInt]

theorem ofVariant_iff {k : Str} {t : OSMObjectType} : OSMObjectType.ofVariant k = some t ↔ k = t.variant := by
  unfold OSMObjectType.ofVariant
  constructor
  · intro h
    split at h
    · cases h; assumption
    split at h
    · cases h; assumption
    split at h
    · cases h; assumption
    · cases h
  · rintro rfl
    cases t <;> rfl

theorem typeFromJson_iff (s : Str) (t : OSMObjectType) : OSMObjectType.fromJson s = some t ↔
    Text (fun o => Literal o t.variant ∨ Object t.variant (· = str% "null") o) s := by
  unfold OSMObjectType.fromJson
  constructor
  · intro h
    split at h
    · split at h
      · cases h
      rename_i k r hk
      obtain ⟨a, l, ha, hl, rfl⟩ := parseString_iff.1 hk
      split at h
      · cases h
      rename_i t' ht
      split at h
      · rename_i hend
        cases h
        rw [ofVariant_iff.1 ht] at hl
        exact ⟨a, l, r, ha, .inl hl, atEnd_iff.1 hend, rfl⟩
      · cases h
    · rename_i q hq
      obtain ⟨p, hp, rfl⟩ := (skipWs_iff (by decide)).1 hq
      split at h
      · cases h
      rename_i k r hk
      obtain ⟨a, l, b, ha, hl, hb, rfl⟩ := variantKey_iff.1 hk
      split at h
      · cases h
      rename_i t' ht
      split at h
      · cases h
      rename_i u hu
      obtain ⟨c, hc, rfl⟩ := parseNull_iff.1 hu
      split at h
      · rename_i hclose
        cases h
        obtain ⟨d, e, hd, he, rfl⟩ := closeObject_iff.1 hclose
        rw [ofVariant_iff.1 ht] at hl
        exact ⟨p, _, e, hp, .inr ⟨l, _, a, b, c, d, hl, rfl, ha, hb, hc, hd, rfl⟩, he, by simp⟩
      · cases h
    · cases h
  · rintro ⟨p, o, e, hp, ho | ho, he, rfl⟩
    · have h2 := (parseString_iff (r := e)).2 ⟨p, o, hp, ho, rfl⟩
      obtain ⟨b, hb, rfl⟩ := ho
      rw [List.cons_append] at h2 ⊢
      rw [skipWs_append hp, skipWs_cons (by decide)]
      simp only
      rw [h2]
      simp only
      rw [ofVariant_iff.2 rfl]
      simp only
      rw [if_pos (atEnd_iff.2 he)]
    · obtain ⟨l, w, a, b, c, d, hl, rfl, ha, hb, hc, hd, rfl⟩ := ho
      rw [List.cons_append, skipWs_append hp, skipWs_cons (by decide)]
      simp only [List.append_assoc, List.cons_append, List.nil_append]
      rw [variantKey_iff.2 ⟨a, l, b, ha, hl, hb, rfl⟩]
      simp only
      rw [ofVariant_iff.2 rfl]
      simp only
      have h2 := (parseNull_iff (r := d ++ '}' :: e)).2 ⟨c, hc, rfl⟩
      simp only [List.cons_append, List.nil_append] at h2
      rw [h2]
      simp only
      rw [if_pos (closeObject_iff.2 ⟨d, e, hd, he, rfl⟩)]

end Osmio
