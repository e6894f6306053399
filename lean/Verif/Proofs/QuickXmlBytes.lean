import Verif.Lib.QuickXmlBytes
import Verif.Spec.ChangesetText
import Verif.Proofs.Utf8
import Verif.Proofs.XmlLex
/-! # Lemmas: the tokenizer of quick-xml on texts given by the grammar -/

namespace Osmio.QuickXml
open Utf8 Spec.Lex Spec.Cs

/-! ## Fuel -/

theorem after_length {pat bs r : List UInt8} (h : after pat bs = some r) : r.length ≤ bs.length := by
  induction bs with
  | nil => cases h
  | cons b bs ih =>
    unfold after at h
    split at h
    · cases h; simp
    · exact (ih h).trans (by simp)

theorem tagEnd_length {q : Option UInt8} {bs c r : List UInt8} (h : tagEnd q bs = some (c, r)) : r.length ≤ bs.length := by
  induction bs generalizing q c r with
  | nil => cases q <;> cases h
  | cons b bs ih =>
    have key : ∀ q', (tagEnd q' bs).map (fun p => (b :: p.1, p.2)) = some (c, r) → r.length ≤ (b :: bs).length := by
      intro q' h
      cases h1 : tagEnd q' bs with
      | none => rw [h1] at h; cases h
      | some p =>
        rw [h1] at h
        simp only [Option.map_some, Option.some.injEq, Prod.mk.injEq] at h
        have := @ih q' p.1 p.2 h1
        rw [← h.2]; simp only [List.length_cons]; omega
    cases q with
    | some q => rw [tagEnd] at h; exact key _ h
    | none =>
      rw [tagEnd] at h
      split at h
      · cases h; simp
      · exact key _ h

theorem doctypeEnd_length {d : Nat} {bs r : List UInt8} (h : doctypeEnd d bs = some r) : r.length ≤ bs.length := by
  induction bs generalizing d with
  | nil => cases d <;> cases h
  | cons b bs ih =>
    unfold doctypeEnd at h
    split at h
    · cases d with
      | zero => cases h; simp
      | succ d => exact (ih h).trans (by simp)
    · split at h <;> exact (ih h).trans (by simp)

theorem readBang_length (s : Src) (r : List UInt8) : (readBang s r).2.bytes.length ≤ r.length := by
  unfold readBang
  split
  · split
    · rename_i h; exact (after_length h).trans (by simp)
    · simp
  · split
    · split
      · rename_i h; exact (after_length h).trans (by simp)
      · simp
    · split
      · split
        · rename_i h; exact (doctypeEnd_length h).trans (by simp)
        · simp
      · simp

theorem readPi_length (s : Src) (r : List UInt8) : (readPi s r).2.bytes.length ≤ r.length := by
  unfold readPi
  split
  · rename_i h; exact after_length h
  · simp

theorem readEnd_length (s : Src) (r : List UInt8) : (readEnd s r).2.bytes.length ≤ r.length := by
  unfold readEnd
  split
  · rename_i h
    have := tagEnd_length h
    split <;> exact this
  · simp

theorem readStart_length (s : Src) (r : List UInt8) : (readStart s r).2.bytes.length ≤ r.length := by
  unfold readStart
  split
  · rename_i h
    have := tagEnd_length h
    simp only
    split <;> exact this
  · simp

theorem readMarkup_length (s : Src) (r : List UInt8) : (readMarkup s r).2.bytes.length ≤ r.length := by
  unfold readMarkup
  split
  · simp
  · rename_i b r
    split
    · exact (readBang_length s r).trans (by simp)
    · split
      · exact (readPi_length s r).trans (by simp)
      · split
        · exact (readEnd_length s r).trans (by simp)
        · exact readStart_length s (b :: r)

theorem readRef_length (s : Src) (r : List UInt8) : (readRef s r).2.bytes.length ≤ r.length := by
  induction r with
  | nil => simp [readRef]
  | cons b r ih =>
    unfold readRef
    split
    · simp
    · split
      · simp
      · exact ih.trans (by simp)

theorem dropWhile_length {α : Type} (p : α → Bool) (l : List α) : (l.dropWhile p).length ≤ l.length := by
  induction l with
  | nil => simp
  | cons a l ih =>
    rw [List.dropWhile_cons]
    split
    · simp only [List.length_cons]; omega
    · exact Nat.le_refl _

theorem readOne_length (s : Src) (b : UInt8) (r : List UInt8) : (readOne s b r).2.bytes.length ≤ r.length := by
  unfold readOne
  split
  · exact readMarkup_length s r
  · split
    · exact readRef_length s r
    · exact dropWhile_length _ _

theorem eventsAux_fuel (n m : Nat) (s : Src) (hn : s.bytes.length ≤ n) (hm : s.bytes.length ≤ m) :
    eventsAux n s = eventsAux m s := by
  induction n generalizing m s with
  | zero =>
    have : s.bytes = [] := List.length_eq_zero_iff.1 (by omega)
    cases m with
    | zero => rfl
    | succ m => simp [eventsAux, this]
  | succ n ih =>
    cases m with
    | zero =>
      have : s.bytes = [] := List.length_eq_zero_iff.1 (by omega)
      simp [eventsAux, this]
    | succ m =>
      unfold eventsAux
      split
      · rfl
      · rename_i b r h
        rw [h] at hn hm
        simp only [List.length_cons] at hn hm
        have := readOne_length s b r
        rw [ih m _ (by omega) (by omega)]

/-- The events of a source. -/
def events (bs : List UInt8) (st : List (List UInt8)) : Events := eventsAux bs.length ⟨bs, st⟩

theorem events_nil (st : List (List UInt8)) : events [] st = [] := rfl

theorem events_cons (b : UInt8) (r : List UInt8) (st : List (List UInt8)) :
    events (b :: r) st = (readOne ⟨b :: r, st⟩ b r).1 ::
      events (readOne ⟨b :: r, st⟩ b r).2.bytes (readOne ⟨b :: r, st⟩ b r).2.opened := by
  have h1 := readOne_length ⟨b :: r, st⟩ b r
  show eventsAux (r.length + 1) _ = _
  unfold eventsAux
  simp only
  rw [eventsAux_fuel r.length _ _ h1 (Nat.le_refl _)]
  rfl

/-! ## Bytes of characters -/

theorem encodeChar_cases (c : Char) : (c.toNat < 128 ∧ encodeChar c = [byte c.toNat]) ∨
    (128 ≤ c.toNat ∧ encodeChar c ≠ [] ∧ ∀ b ∈ encodeChar c, 128 ≤ b.toNat) := by
  have hc := char_lt c
  by_cases h : c.toNat < 128
  · exact .inl ⟨h, by simp [encodeChar, h]⟩
  · refine .inr ⟨by omega, ?_⟩
    unfold encodeChar
    simp only
    rw [if_neg h]
    split
    · refine ⟨by simp, ?_⟩
      intro b hb
      simp only [List.mem_cons, List.not_mem_nil, or_false] at hb
      rcases hb with rfl | rfl <;> rw [byte_toNat (by omega)] <;> omega
    · split
      · refine ⟨by simp, ?_⟩
        intro b hb
        simp only [List.mem_cons, List.not_mem_nil, or_false] at hb
        rcases hb with rfl | rfl | rfl <;> rw [byte_toNat (by omega)] <;> omega
      · refine ⟨by simp, ?_⟩
        intro b hb
        simp only [List.mem_cons, List.not_mem_nil, or_false] at hb
        rcases hb with rfl | rfl | rfl | rfl <;> rw [byte_toNat (by omega)] <;> omega

theorem encodeChar_ascii {c : Char} (h : c.toNat < 128) : encodeChar c = [byte c.toNat] := by simp [encodeChar, h]

/-- An ASCII byte of a string is a character of it. -/
theorem mem_encode {b : UInt8} {s : Str} (h : b ∈ encode s) (hb : b.toNat < 128) : Char.ofNat b.toNat ∈ s := by
  obtain ⟨c, hc, hbc⟩ := List.mem_flatMap.1 h
  rcases encodeChar_cases c with ⟨h1, h2⟩ | ⟨_, _, h2⟩
  · rw [h2, List.mem_singleton] at hbc
    rw [hbc, byte_toNat (by omega), Char.ofNat_toNat]
    exact hc
  · have := h2 b hbc; omega

theorem not_mem_encode {c : Char} {s : Str} (h : c ∉ s) (hc : c.toNat < 128) : byte c.toNat ∉ encode s := by
  intro h1
  have := mem_encode h1 (by rw [byte_toNat (by omega)]; exact hc)
  rw [byte_toNat (by omega), Char.ofNat_toNat] at this
  exact h this

theorem isWsB_iff (b : UInt8) : isWsB b = true ↔ b = 32 ∨ b = 9 ∨ b = 10 ∨ b = 13 := by simp [isWsB, or_assoc]

theorem ws_bytes {w : Str} (h : Ws w) : ∀ b ∈ encode w, isWsB b = true := by
  intro b hb
  obtain ⟨c, hc, hbc⟩ := List.mem_flatMap.1 hb
  have h1 : encodeChar c = [byte c.toNat] := encodeChar_ascii (by rcases h c hc with rfl | rfl | rfl | rfl <;> decide)
  rw [h1, List.mem_singleton] at hbc
  rw [hbc]
  rcases h c hc with rfl | rfl | rfl | rfl <;> decide +kernel

theorem isWsB_lt {b : UInt8} (h : isWsB b = true) : b.toNat < 128 := by
  rcases (isWsB_iff b).1 h with rfl | rfl | rfl | rfl <;> decide

theorem takeWhile_stop {α : Type} {p : α → Bool} {l : List α} (h : ∀ a ∈ l, p a = true) {x : α} (hx : p x = false) (r : List α) :
    (l ++ x :: r).takeWhile p = l := by
  induction l with
  | nil => simp [hx]
  | cons a l ih =>
    rw [List.cons_append, List.takeWhile_cons, if_pos (h a List.mem_cons_self), ih fun y hy => h y (List.mem_cons_of_mem _ hy)]

theorem dropWhile_stop {α : Type} {p : α → Bool} {l : List α} (h : ∀ a ∈ l, p a = true) {x : α} (hx : p x = false) (r : List α) :
    (l ++ x :: r).dropWhile p = x :: r := by
  induction l with
  | nil => simp [hx]
  | cons a l ih =>
    rw [List.cons_append, List.dropWhile_cons, if_pos (h a List.mem_cons_self), ih fun y hy => h y (List.mem_cons_of_mem _ hy)]

theorem dropWhile_all {α : Type} {p : α → Bool} {l : List α} (h : ∀ a ∈ l, p a = true) : l.dropWhile p = [] := by
  induction l with
  | nil => rfl
  | cons a l ih =>
    rw [List.dropWhile_cons, if_pos (h a List.mem_cons_self)]
    exact ih fun y hy => h y (List.mem_cons_of_mem _ hy)

theorem takeWhile_all {α : Type} {p : α → Bool} {l : List α} (h : ∀ a ∈ l, p a = true) : l.takeWhile p = l := by
  induction l with
  | nil => rfl
  | cons a l ih =>
    rw [List.takeWhile_cons, if_pos (h a List.mem_cons_self), ih fun y hy => h y (List.mem_cons_of_mem _ hy)]

/-! ## Names -/

/-- A character of a name is none of the special ones. -/
theorem nameChar_ne {c : Char} (h : Xml.isNameChar c = true) {x : Char}
    (hx : x ∈ [' ', '\t', '\n', '\r', '=', '/', '>', '<', '"', '\'', '!', '?', '&', ';']) : c ≠ x := by
  rintro rfl
  simp only [List.mem_cons, List.not_mem_nil, or_false] at hx
  rcases hx with rfl | rfl | rfl | rfl | rfl | rfl | rfl | rfl | rfl | rfl | rfl | rfl | rfl | rfl <;>
    exact absurd h (by decide +kernel)

theorem name_byte {n : Str} (hn : ∀ c ∈ n, Xml.isNameChar c = true) {b : UInt8} (h : b ∈ encode n) :
    isWsB b = false ∧ b ≠ 61 ∧ b ≠ 47 ∧ b ≠ 62 ∧ b ≠ 60 ∧ b ≠ 34 ∧ b ≠ 39 ∧ b ≠ 33 ∧ b ≠ 63 ∧ b ≠ 38 ∧ b ≠ 59 := by
  have key : ∀ x : Char, x.toNat < 128 → x ∈ [' ', '\t', '\n', '\r', '=', '/', '>', '<', '"', '\'', '!', '?', '&', ';'] →
      b ≠ byte x.toNat := by
    intro x hx hm he
    rw [he] at h
    refine not_mem_encode (fun hc => ?_) hx h
    exact nameChar_ne (hn x hc) hm rfl
  refine ⟨?_, key '=' (by decide) (by decide), key '/' (by decide) (by decide), key '>' (by decide) (by decide),
    key '<' (by decide) (by decide), key '"' (by decide) (by decide), key '\'' (by decide) (by decide),
    key '!' (by decide) (by decide), key '?' (by decide) (by decide), key '&' (by decide) (by decide),
    key ';' (by decide) (by decide)⟩
  have h1 := key ' ' (by decide) (by decide)
  have h2 := key '\t' (by decide) (by decide)
  have h3 := key '\n' (by decide) (by decide)
  have h4 := key '\r' (by decide) (by decide)
  cases h : isWsB b with
  | false => rfl
  | true =>
    rcases (isWsB_iff b).1 h with rfl | rfl | rfl | rfl
    · exact absurd rfl h1
    · exact absurd rfl h2
    · exact absurd rfl h3
    · exact absurd rfl h4

theorem encode_ne_nil {s : Str} (h : s ≠ []) : encode s ≠ [] := by
  cases s with
  | nil => exact absurd rfl h
  | cons c s =>
    rw [encode_cons]
    rcases encodeChar_cases c with ⟨_, h2⟩ | ⟨_, h2, _⟩
    · rw [h2]; simp
    · simp [h2]

/-! ## Tags -/

/-- The end of the tag is not inside these bytes. -/
def Quiet (c : List UInt8) : Prop := ∀ r, tagEnd none (c ++ r) = (tagEnd none r).map fun p => (c ++ p.1, p.2)

theorem quiet_nil : Quiet [] := fun r => by cases h : tagEnd none r <;> simp [h]

theorem quiet_append {a b : List UInt8} (ha : Quiet a) (hb : Quiet b) : Quiet (a ++ b) := by
  intro r
  rw [List.append_assoc, ha, hb]
  cases tagEnd none r <;> simp

theorem quiet_plain {a : List UInt8} (h : ∀ b ∈ a, b ≠ 62 ∧ b ≠ 34 ∧ b ≠ 39) : Quiet a := by
  induction a with
  | nil => exact quiet_nil
  | cons b a ih =>
    intro r
    obtain ⟨h1, h2, h3⟩ := h b List.mem_cons_self
    rw [List.cons_append, tagEnd, if_neg h1, if_neg (by simp [h2, h3]), ih (fun y hy => h y (List.mem_cons_of_mem _ hy))]
    cases tagEnd none r <;> simp

theorem tagEnd_quoted {q : UInt8} {v : List UInt8} (h : q ∉ v) (r : List UInt8) :
    tagEnd (some q) (v ++ q :: r) = (tagEnd none r).map fun p => (v ++ q :: p.1, p.2) := by
  induction v with
  | nil => rw [List.nil_append, tagEnd, if_pos rfl]; cases tagEnd none r <;> simp
  | cons b v ih =>
    have h1 : b ≠ q := fun he => h (by simp [he])
    rw [List.cons_append, tagEnd, if_neg h1, ih (fun hm => h (List.mem_cons_of_mem _ hm))]
    cases tagEnd none r <;> simp

theorem quiet_quoted {q : UInt8} (hq : q = 34 ∨ q = 39) {v : List UInt8} (h : q ∉ v) : Quiet (q :: (v ++ [q])) := by
  intro r
  have h1 : q ≠ 62 := by rcases hq with rfl | rfl <;> decide
  rw [List.cons_append, tagEnd, if_neg h1, if_pos hq, List.append_assoc, List.singleton_append, tagEnd_quoted h]
  cases tagEnd none r <;> simp

theorem quiet_end {c : List UInt8} (h : Quiet c) (r : List UInt8) : tagEnd none (c ++ 62 :: r) = some (c, r) := by
  rw [h, tagEnd, if_pos rfl]; simp

theorem ws_quiet {w : Str} (h : Ws w) : Quiet (encode w) := by
  refine quiet_plain fun b hb => ?_
  have := ws_bytes h b hb
  rcases (isWsB_iff b).1 this with rfl | rfl | rfl | rfl <;> decide

theorem name_quiet {n : Str} (hn : ∀ c ∈ n, Xml.isNameChar c = true) : Quiet (encode n) := by
  refine quiet_plain fun b hb => ?_
  obtain ⟨_, _, _, h1, _, h2, h3, _⟩ := name_byte hn hb
  exact ⟨h1, h2, h3⟩

/-! ## Attributes -/

theorem reference_chars {r : Str} {c : Char} (h : Reference r c) {x : Char} (hx : x ∈ r) :
    x = '&' ∨ x = ';' ∨ x = '#' ∨ Xml.isNameChar x = true := by
  obtain ⟨e, rfl, h1, _⟩ := reference_cases h
  rcases List.mem_cons.1 hx with rfl | hx
  · exact .inl rfl
  · rcases List.mem_append.1 hx with hx | hx
    · have := h1 x hx
      rw [Bool.or_eq_true] at this
      rcases this with h | h
      · exact .inr (.inr (.inr h))
      · exact .inr (.inr (.inl (by simpa using h)))
    · exact .inr (.inl (by simpa using hx))

theorem value_quote {q : Char} (hq : q = '"' ∨ q = '\'') {src v : Str} (h : Quoted q src v) : q ∉ src := by
  induction h with
  | nil => simp
  | plain _ _ _ hne _ _ _ _ ih =>
    intro hm
    rcases List.mem_cons.1 hm with rfl | hm
    · exact hne rfl
    · exact ih hm
  | ref hr _ ih =>
    intro hm
    rcases List.mem_append.1 hm with hm | hm
    · rcases reference_chars hr hm with h | h | h | h
      · rcases hq with rfl | rfl <;> cases h
      · rcases hq with rfl | rfl <;> cases h
      · rcases hq with rfl | rfl <;> cases h
      · exact nameChar_ne h (x := q) (by rcases hq with rfl | rfl <;> decide) rfl
    · exact ih hm

/-- What `Attributes` yields for an attribute. -/
def attrOf (a : SrcAttr) : Option Attr := some ⟨encode a.key, encode a.src⟩

theorem quote_byte {q : Char} (hq : q = '"' ∨ q = '\'') :
    encodeChar q = [byte q.toNat] ∧ (byte q.toNat = 34 ∨ byte q.toNat = 39) ∧ q.toNat < 128 := by
  rcases hq with rfl | rfl
  · exact ⟨by decide +kernel, .inl (by decide +kernel), by decide⟩
  · exact ⟨by decide +kernel, .inr (by decide +kernel), by decide⟩

theorem attrs_quiet {a : Str} {as : List SrcAttr} (h : Spec.Lex.Attrs a as) : Quiet (encode a) := by
  induction h with
  | nil => exact quiet_nil
  | @cons w key w1 w2 q src value t as _ hw hk _ hw1 hw2 hq hv _ ih =>
    obtain ⟨h1, h2, h3⟩ := quote_byte hq
    have e : encode (w ++ (key ++ (w1 ++ '=' :: (w2 ++ q :: (src ++ q :: t))))) =
        encode w ++ (encode key ++ (encode w1 ++ ([61] ++ (encode w2 ++ ((byte q.toNat :: (encode src ++ [byte q.toNat])) ++ encode t))))) := by
      simp only [encode_append, encode_cons, h1, show encodeChar '=' = [61] by decide +kernel]
      simp
    rw [e]
    refine quiet_append (ws_quiet hw) (quiet_append (name_quiet (isName_chars hk)) (quiet_append (ws_quiet hw1)
      (quiet_append (quiet_plain (by decide)) (quiet_append (ws_quiet hw2) (quiet_append (quiet_quoted h2 ?_) ih)))))
    exact not_mem_encode (value_quote hq hv) h3

theorem trimB_ws {w : List UInt8} (hw : ∀ b ∈ w, isWsB b = true) {x : UInt8} (hx : isWsB x = false) (r : List UInt8) :
    trimB (w ++ x :: r) = x :: r := dropWhile_stop hw hx r

theorem nextAttr_cons {seen : List (List UInt8)} {w key w1 w2 src : Str} {q : Char} (hw : Ws w) (hk : IsName key) (hw1 : Ws w1)
    (hw2 : Ws w2) (hq : q = '"' ∨ q = '\'') (hs : q ∉ src) (hd : encode key ∉ seen) (r : List UInt8) :
    nextAttr seen (encode w ++ (encode key ++ (encode w1 ++ (61 :: (encode w2 ++ byte q.toNat :: (encode src ++ byte q.toNat :: r)))))) =
      some (some (⟨encode key, encode src⟩, r)) := by
  obtain ⟨h1, h2, h3⟩ := quote_byte hq
  have hkb := fun b hb => name_byte (isName_chars hk) (b := b) hb
  have hkne : encode key ≠ [] := encode_ne_nil (isName_colon hk).2
  obtain ⟨c, cs, hc⟩ := List.exists_cons_of_ne_nil hkne
  have hcw : isWsB c = false := (hkb c (by rw [hc]; simp)).1
  have hke : ∀ b ∈ encode key, (!keyEnd b) = true := by
    intro b hb
    obtain ⟨h1, h2, _⟩ := hkb b hb
    simp [keyEnd, h1, h2]
  have t1 : trimB (encode w ++ (encode key ++ (encode w1 ++ (61 :: (encode w2 ++ byte q.toNat :: (encode src ++ byte q.toNat :: r)))))) =
      encode key ++ (encode w1 ++ (61 :: (encode w2 ++ byte q.toNat :: (encode src ++ byte q.toNat :: r)))) := by
    rw [hc, List.cons_append]
    exact trimB_ws (ws_bytes hw) hcw _
  obtain ⟨x, xs, hx, hxe⟩ : ∃ x xs, encode w1 ++ (61 :: (encode w2 ++ byte q.toNat :: (encode src ++ byte q.toNat :: r))) = x :: xs ∧
      (!keyEnd x) = false := by
    cases hw1' : encode w1 with
    | nil => exact ⟨61, _, rfl, by decide⟩
    | cons y ys =>
      refine ⟨y, _, rfl, ?_⟩
      simp [keyEnd, ws_bytes hw1 y (by rw [hw1']; simp)]
  have t2 : (encode key ++ (encode w1 ++ (61 :: (encode w2 ++ byte q.toNat :: (encode src ++ byte q.toNat :: r))))).takeWhile
      (fun b => !keyEnd b) = encode key := by rw [hx]; exact takeWhile_stop hke hxe _
  have t3 : (encode key ++ (encode w1 ++ (61 :: (encode w2 ++ byte q.toNat :: (encode src ++ byte q.toNat :: r))))).dropWhile
      (fun b => !keyEnd b) = encode w1 ++ (61 :: (encode w2 ++ byte q.toNat :: (encode src ++ byte q.toNat :: r))) := by
    rw [hx]; exact dropWhile_stop hke hxe _
  have t4 : trimB (encode w1 ++ (61 :: (encode w2 ++ byte q.toNat :: (encode src ++ byte q.toNat :: r)))) =
      61 :: (encode w2 ++ byte q.toNat :: (encode src ++ byte q.toNat :: r)) := trimB_ws (ws_bytes hw1) (by decide) _
  have hqw : isWsB (byte q.toNat) = false := by rcases h2 with h | h <;> rw [h] <;> decide
  have t5 : trimB (encode w2 ++ byte q.toNat :: (encode src ++ byte q.toNat :: r)) = byte q.toNat :: (encode src ++ byte q.toNat :: r) :=
    trimB_ws (ws_bytes hw2) hqw _
  have hsrc : ∀ b ∈ encode src, (b != byte q.toNat) = true := by
    intro b hb
    have : b ≠ byte q.toNat := fun he => not_mem_encode hs h3 (he ▸ hb)
    simpa using this
  have t6 : (encode src ++ byte q.toNat :: r).dropWhile (· != byte q.toNat) = byte q.toNat :: r :=
    dropWhile_stop hsrc (by simp) _
  have t7 : (encode src ++ byte q.toNat :: r).takeWhile (· != byte q.toNat) = encode src :=
    takeWhile_stop hsrc (by simp) _
  unfold nextAttr
  rw [t1]
  rw [hc] at t2 t3
  rw [hc, List.cons_append]
  rw [List.cons_append] at t2 t3
  simp only [t2, t3, t4, t5]
  rw [if_neg (by rw [← hc]; simp [hkne, hd]), if_pos h2, t6, t7]

theorem attrsAux_attrs {a : Str} {as : List SrcAttr} (h : Spec.Lex.Attrs a as) {w : Str} (hw : Ws w) (n : Nat) (seen : List (List UInt8))
    (hn : as.length ≤ n) (hd : (as.map SrcAttr.key).Nodup) (hs : ∀ x ∈ as, encode x.key ∉ seen) :
    attrsAux n seen (encode a ++ encode w) = as.map attrOf := by
  induction h generalizing n seen with
  | nil =>
    cases n with
    | zero => rfl
    | succ n =>
      have : trimB (encode w) = [] := dropWhile_all (ws_bytes hw)
      simp [attrsAux, nextAttr, encode_nil, this]
  | @cons w0 key w1 w2 q src value t as hne hw0 hk _ hw1 hw2 hq hv _ ih =>
    obtain ⟨h1, h2, h3⟩ := quote_byte hq
    cases n with
    | zero => simp at hn
    | succ n =>
      have e : encode (w0 ++ (key ++ (w1 ++ '=' :: (w2 ++ q :: (src ++ q :: t))))) ++ encode w =
          encode w0 ++ (encode key ++ (encode w1 ++ (61 :: (encode w2 ++ byte q.toNat :: (encode src ++ byte q.toNat :: (encode t ++ encode w)))))) := by
        simp only [encode_append, encode_cons, h1, show encodeChar '=' = [61] by decide +kernel]
        simp
      rw [e, attrsAux, nextAttr_cons hw0 hk hw1 hw2 hq (value_quote hq hv) (hs ⟨key, src, value⟩ List.mem_cons_self)]
      simp only [List.map_cons, List.nodup_cons] at hd
      simp only [List.length_cons] at hn
      simp only
      rw [ih n (seen ++ [encode key]) (by omega) hd.2, List.map_cons]
      · rfl
      · intro x hx hm
        rcases List.mem_append.1 hm with hm | hm
        · exact hs x (List.mem_cons_of_mem _ hx) hm
        · have := encode_injective (List.mem_singleton.1 hm)
          exact hd.1 (this ▸ List.mem_map_of_mem hx)

theorem attrs_length {a : Str} {as : List SrcAttr} (h : Spec.Lex.Attrs a as) : as.length ≤ (encode a).length := by
  refine le_trans ?_ (encode_length a)
  induction h with
  | nil => simp
  | cons => simp only [List.length_cons, List.length_append]; omega

theorem attributes_eq {a w : Str} {as : List SrcAttr} (h : Spec.Lex.Attrs a as) (hw : Ws w) (hd : (as.map SrcAttr.key).Nodup) :
    attributes (encode a ++ encode w) = as.map attrOf :=
  attrsAux_attrs h hw _ [] (by have := attrs_length h; simp; omega) hd (by simp)

/-- After the name comes white space, if anything. -/
theorem attrs_head {a w : Str} {as : List SrcAttr} (h : Spec.Lex.Attrs a as) (hw : Ws w) :
    encode a ++ encode w = [] ∨ ∃ x r, encode a ++ encode w = x :: r ∧ isWsB x = true := by
  have key : ∀ {w : Str} (r : List UInt8), w ≠ [] → Ws w → ∃ x r', encode w ++ r = x :: r' ∧ isWsB x = true := by
    intro w r hne hw
    obtain ⟨x, xs, hx⟩ := List.exists_cons_of_ne_nil (encode_ne_nil hne)
    exact ⟨x, xs ++ r, by rw [hx]; rfl, ws_bytes hw x (by rw [hx]; simp)⟩
  cases h with
  | nil =>
    by_cases hne : w = []
    · left; simp [hne, encode_nil]
    · right
      obtain ⟨x, r, h1, h2⟩ := key [] hne hw
      exact ⟨x, r, by rw [encode_nil, List.nil_append]; simpa using h1, h2⟩
  | cons hne hw0 =>
    right
    rw [encode_append, List.append_assoc]
    exact key _ hne hw0

theorem tagName_eq {n a w : Str} {as : List SrcAttr} (hn : IsName n) (h : Spec.Lex.Attrs a as) (hw : Ws w) :
    tagName (encode n ++ (encode a ++ encode w)) = encode n := by
  have hp : ∀ b ∈ encode n, (!isWsB b) = true := by
    intro b hb
    simp [(name_byte (isName_chars hn) hb).1]
  unfold tagName
  rcases attrs_head h hw with h | ⟨x, r, h, hx⟩
  · rw [h, List.append_nil]; exact takeWhile_all hp
  · rw [h]; exact takeWhile_stop hp (by simp [hx]) _

theorem content_quiet {n a w : Str} {as : List SrcAttr} (hn : IsName n) (h : Spec.Lex.Attrs a as) (hw : Ws w) :
    Quiet (encode n ++ (encode a ++ encode w)) :=
  quiet_append (name_quiet (isName_chars hn)) (quiet_append (attrs_quiet h) (ws_quiet hw))

theorem attrs_last {a : Str} {as : List SrcAttr} (h : Spec.Lex.Attrs a as) : a = [] ∨ ∃ p q, a = p ++ [q] ∧ (q = '"' ∨ q = '\'') := by
  induction h with
  | nil => exact .inl rfl
  | @cons w key w1 w2 q src value t as _ _ _ _ _ _ hq _ _ ih =>
    right
    rcases ih with rfl | ⟨p, q', rfl, hq'⟩
    · exact ⟨w ++ (key ++ (w1 ++ '=' :: (w2 ++ q :: src))), q, by simp, hq⟩
    · exact ⟨w ++ (key ++ (w1 ++ '=' :: (w2 ++ q :: (src ++ q :: p)))), q', by simp, hq'⟩

/-- The last character of a start tag is no slash. -/
theorem content_last {n a w : Str} {as : List SrcAttr} (hn : IsName n) (h : Spec.Lex.Attrs a as) (hw : Ws w) :
    (encode n ++ (encode a ++ encode w)).getLast? ≠ some 47 := by
  intro hl
  by_cases hwe : encode w = []
  · rcases attrs_last h with rfl | ⟨p, q, rfl, hq⟩
    · rw [hwe, encode_nil, List.append_nil, List.append_nil] at hl
      exact (name_byte (isName_chars hn) (List.mem_of_getLast? hl)).2.2.1 rfl
    · obtain ⟨h1, h2, _⟩ := quote_byte hq
      rw [hwe, List.append_nil, encode_append, encode_cons, encode_nil, h1, List.append_nil, ← List.append_assoc,
        List.getLast?_append, List.getLast?_singleton] at hl
      simp only [Option.some_or, Option.some.injEq] at hl
      rw [hl] at h2
      rcases h2 with h | h <;> exact absurd h (by decide)
  · rw [← List.append_assoc, List.getLast?_append] at hl
    obtain ⟨x, hx⟩ := Option.isSome_iff_exists.1 (List.getLast?_isSome.2 hwe)
    rw [hx] at hl
    simp only [Option.some_or, Option.some.injEq] at hl
    have := ws_bytes hw x (List.mem_of_getLast? hx)
    rw [hl] at this
    exact absurd this (by decide)

theorem name_first {n : Str} (hn : IsName n) : ∃ b r, encode n = b :: r ∧ b ≠ 33 ∧ b ≠ 63 ∧ b ≠ 47 := by
  obtain ⟨b, r, h⟩ := List.exists_cons_of_ne_nil (encode_ne_nil (isName_colon hn).2)
  obtain ⟨_, _, h1, _, _, _, _, h2, h3, _⟩ := name_byte (isName_chars hn) (b := b) (by rw [h]; simp)
  exact ⟨b, r, h, h2, h3, h1⟩

theorem events_start {n a w : Str} {as : List SrcAttr} (hn : IsName n) (h : Spec.Lex.Attrs a as) (hd : (as.map SrcAttr.key).Nodup) (hw : Ws w)
    (t : Str) (st : List (List UInt8)) :
    events (encode ('<' :: (n ++ (a ++ (w ++ '>' :: t))))) st =
      some (.start (encode n) (as.map attrOf)) :: events (encode t) (encode n :: st) := by
  obtain ⟨b, r, hb, h1, h2, h3⟩ := name_first hn
  have e : encode ('<' :: (n ++ (a ++ (w ++ '>' :: t)))) = 60 :: ((encode n ++ (encode a ++ encode w)) ++ 62 :: encode t) := by
    simp only [encode_append, encode_cons, show encodeChar '<' = [60] by decide +kernel, show encodeChar '>' = [62] by decide +kernel]
    simp
  rw [e, events_cons, readOne, if_pos rfl]
  have hm : ∀ s : Src, readMarkup s ((encode n ++ (encode a ++ encode w)) ++ 62 :: encode t) =
      (some (.start (encode n) (as.map attrOf)), ⟨encode t, encode n :: s.opened⟩) := by
    intro s
    have h4 : readMarkup s ((encode n ++ (encode a ++ encode w)) ++ 62 :: encode t) =
        readStart s ((encode n ++ (encode a ++ encode w)) ++ 62 :: encode t) := by
      rw [hb]
      simp only [List.cons_append, readMarkup]
      rw [if_neg h1, if_neg h2, if_neg h3]
    rw [h4, readStart, quiet_end (content_quiet hn h hw)]
    simp only
    rw [if_neg (content_last hn h hw), tagName_eq hn h hw, List.drop_left, attributes_eq h hw hd]
  rw [hm]

theorem events_empty {n a w : Str} {as : List SrcAttr} (hn : IsName n) (h : Spec.Lex.Attrs a as) (hd : (as.map SrcAttr.key).Nodup) (hw : Ws w)
    (t : Str) (st : List (List UInt8)) :
    events (encode ('<' :: (n ++ (a ++ (w ++ '/' :: '>' :: t))))) st =
      some (.empty (encode n) (as.map attrOf)) :: events (encode t) st := by
  obtain ⟨b, r, hb, h1, h2, h3⟩ := name_first hn
  have e : encode ('<' :: (n ++ (a ++ (w ++ '/' :: '>' :: t)))) =
      60 :: (((encode n ++ (encode a ++ encode w)) ++ [47]) ++ 62 :: encode t) := by
    simp only [encode_append, encode_cons, show encodeChar '<' = [60] by decide +kernel, show encodeChar '>' = [62] by decide +kernel,
      show encodeChar '/' = [47] by decide +kernel]
    simp
  rw [e, events_cons, readOne, if_pos rfl]
  have hm : ∀ s : Src, readMarkup s (((encode n ++ (encode a ++ encode w)) ++ [47]) ++ 62 :: encode t) =
      (some (.empty (encode n) (as.map attrOf)), ⟨encode t, s.opened⟩) := by
    intro s
    have h4 : readMarkup s (((encode n ++ (encode a ++ encode w)) ++ [47]) ++ 62 :: encode t) =
        readStart s (((encode n ++ (encode a ++ encode w)) ++ [47]) ++ 62 :: encode t) := by
      rw [hb]
      simp only [List.cons_append, readMarkup]
      rw [if_neg h1, if_neg h2, if_neg h3]
    rw [h4, readStart, quiet_end (quiet_append (content_quiet hn h hw) (quiet_plain (by decide)))]
    simp only
    rw [if_pos (by simp), List.dropLast_concat, tagName_eq hn h hw, List.drop_left, attributes_eq h hw hd]
  rw [hm]

theorem trimEndB_name {n w : Str} (hn : IsName n) (hw : Ws w) : trimEndB (encode n ++ encode w) = encode n := by
  obtain ⟨x, hx⟩ := Option.isSome_iff_exists.1 (List.getLast?_isSome.2 (encode_ne_nil (isName_colon hn).2))
  obtain ⟨p, hp⟩ := List.getLast?_eq_some_iff.1 hx
  have hxw : isWsB x = false := (name_byte (isName_chars hn) (List.mem_of_getLast? hx)).1
  unfold trimEndB
  rw [hp, List.reverse_append, List.reverse_append, List.reverse_singleton, List.singleton_append,
    dropWhile_stop (fun b hb => ws_bytes hw b (List.mem_reverse.1 hb)) hxw]
  simp

theorem events_stop {n w : Str} (hn : IsName n) (hw : Ws w) (t : Str) (st : List (List UInt8)) :
    events (encode ('<' :: '/' :: (n ++ (w ++ '>' :: t)))) (encode n :: st) =
      some (.end_ (encode n)) :: events (encode t) st := by
  have e : encode ('<' :: '/' :: (n ++ (w ++ '>' :: t))) = 60 :: 47 :: ((encode n ++ encode w) ++ 62 :: encode t) := by
    simp only [encode_append, encode_cons, show encodeChar '<' = [60] by decide +kernel, show encodeChar '>' = [62] by decide +kernel,
      show encodeChar '/' = [47] by decide +kernel]
    simp
  rw [e, events_cons, readOne, if_pos rfl, readMarkup, if_neg (by decide), if_neg (by decide), if_pos rfl, readEnd,
    quiet_end (quiet_append (name_quiet (isName_chars hn)) (ws_quiet hw))]
  simp only [trimEndB_name hn hw, if_pos]

/-! ## Text -/

theorem ascii_lt {c : Char} (h : c.toNat < 128) (s : Str) : encode (c :: s) = byte c.toNat :: encode s := by
  rw [encode_cons, encodeChar_ascii h]; rfl

theorem textB_char {c : Char} (h1 : c ≠ '<') (h2 : c ≠ '&') : ∀ b ∈ encodeChar c, isTextB b = true := by
  intro b hb
  have key : ∀ x : Char, x.toNat < 128 → c ≠ x → b ≠ byte x.toNat := by
    intro x hx hne he
    have : byte x.toNat ∈ encode [c] := by rw [encode_cons, encode_nil, List.append_nil, ← he]; exact hb
    exact not_mem_encode (by simpa using hne.symm) hx this
  have h3 := key '<' (by decide) h1
  have h4 := key '&' (by decide) h2
  unfold isTextB
  rw [Bool.and_eq_true, bne_iff_ne, bne_iff_ne]
  exact ⟨h3, h4⟩

theorem readRef_skip {e : List UInt8} (h : ∀ b ∈ e, b ≠ 59 ∧ b ≠ 38 ∧ b ≠ 60) (s : Src) (r : List UInt8) :
    readRef s (e ++ 59 :: r) = (some .other, { s with bytes := r }) := by
  induction e with
  | nil => rw [List.nil_append, readRef, if_pos rfl]
  | cons b e ih =>
    obtain ⟨h1, h2, h3⟩ := h b List.mem_cons_self
    rw [List.cons_append, readRef, if_neg h1, if_neg (by simp [h2, h3]), ih fun y hy => h y (List.mem_cons_of_mem _ hy)]

theorem readRef_ref {r : Str} {c : Char} (h : Reference r c) :
    ∃ e, encode r = 38 :: e ∧ ∀ (s : Src) (t : List UInt8), readRef s (e ++ t) = (some .other, { s with bytes := t }) := by
  obtain ⟨e, rfl, h1, _⟩ := reference_cases h
  refine ⟨encode e ++ [59], ?_, ?_⟩
  · simp only [encode_append, encode_cons, encode_nil, show encodeChar '&' = [38] by decide +kernel,
      show encodeChar ';' = [59] by decide +kernel]
    simp
  · intro s t
    rw [List.append_assoc, List.singleton_append]
    refine readRef_skip (fun b hb => ?_) s t
    have key : ∀ x : Char, x.toNat < 128 → x ∈ ['&', ';', '<'] → b ≠ byte x.toNat := by
      intro x hx hm he
      rw [he] at hb
      refine not_mem_encode (fun hc => ?_) hx hb
      have := h1 x hc
      simp only [List.mem_cons, List.not_mem_nil, or_false] at hm
      rcases hm with rfl | rfl | rfl <;> exact absurd this (by decide +kernel)
    exact ⟨key ';' (by decide) (by decide), key '&' (by decide) (by decide), key '<' (by decide) (by decide)⟩

/-- Nothing, or markup. -/
def AtMarkup (t : Str) : Prop := t = [] ∨ ∃ r, t = '<' :: r

theorem atMarkup_drop {t : Str} (h : AtMarkup t) : (encode t).dropWhile isTextB = encode t := by
  rcases h with rfl | ⟨r, rfl⟩
  · rfl
  · rw [encode_cons, show encodeChar '<' = [60] by decide +kernel]; rfl

theorem dropWhile_append_all {α : Type} {p : α → Bool} {l : List α} (h : ∀ a ∈ l, p a = true) (r : List α) :
    (l ++ r).dropWhile p = r.dropWhile p := by
  induction l with
  | nil => rfl
  | cons a l ih =>
    rw [List.cons_append, List.dropWhile_cons, if_pos (h a List.mem_cons_self), ih fun y hy => h y (List.mem_cons_of_mem _ hy)]

/-- Events the readers skip. -/
def others (k : Nat) : Events := List.replicate k (some .other)

theorem events_text {s : Str} (h : Text s) {t : Str} (ht : AtMarkup t) (st : List (List UInt8)) :
    (∃ k, events (encode (s ++ t)) st = others k ++ events (encode t) st) ∧
    ∃ k, events ((encode (s ++ t)).dropWhile isTextB) st = others k ++ events (encode t) st := by
  induction h with
  | nil => rw [List.nil_append, atMarkup_drop ht]; exact ⟨⟨0, rfl⟩, ⟨0, rfl⟩⟩
  | @plain c s hx h1 h2 _ ih =>
    have hb := textB_char h1 h2
    obtain ⟨k, hk⟩ := ih.2
    refine ⟨⟨k + 1, ?_⟩, ⟨k, ?_⟩⟩
    · obtain ⟨b, r, hbr⟩ : ∃ b r, encodeChar c = b :: r := by
        rcases encodeChar_cases c with ⟨_, h⟩ | ⟨_, h, _⟩
        · exact ⟨_, _, h⟩
        · exact List.exists_cons_of_ne_nil h
      have h60 : isTextB b = true := hb b (by rw [hbr]; simp)
      unfold isTextB at h60
      rw [Bool.and_eq_true, bne_iff_ne, bne_iff_ne] at h60
      rw [List.cons_append, encode_cons, hbr, List.cons_append, events_cons, readOne, if_neg h60.1, if_neg h60.2]
      simp only
      rw [dropWhile_append_all (fun a ha => hb a (by rw [hbr]; simp [ha])), hk]
      rfl
    · rw [List.cons_append, encode_cons, dropWhile_append_all hb, hk]
  | @ref r c s hr _ ih =>
    obtain ⟨e, he, hread⟩ := readRef_ref hr
    obtain ⟨k, hk⟩ := ih.1
    have h1 : events (encode (r ++ s ++ t)) st = others (k + 1) ++ events (encode t) st := by
      rw [List.append_assoc, encode_append, he, List.cons_append, events_cons, readOne, if_neg (by decide), if_pos rfl, hread]
      simp only
      rw [hk]
      rfl
    refine ⟨⟨k + 1, h1⟩, ⟨k + 1, ?_⟩⟩
    have h2 : (encode (r ++ s ++ t)).dropWhile isTextB = encode (r ++ s ++ t) := by
      rw [List.append_assoc, encode_append, he, List.cons_append]; rfl
    rw [h2, h1]

theorem ws_text {s : Str} (h : Ws s) : Text s := by
  induction s with
  | nil => exact .nil
  | cons c s ih =>
    obtain ⟨h1, h2, h3⟩ := ws_not_special (ws_isWs h c List.mem_cons_self)
    exact .plain ((Xml.isXmlChar_iff _).1 h3) h1 h2 (ih fun x hx => h x (List.mem_cons_of_mem _ hx))

/-! ## Comments, CDATA sections, processing instructions -/

theorem prefix_chars {p s : Str} (hp : ∀ c ∈ p, c.toNat < 128) (h : encode p <+: encode s) : p <+: s := by
  induction p generalizing s with
  | nil => exact List.nil_prefix
  | cons c p ih =>
    have hc := hp c List.mem_cons_self
    rw [ascii_lt hc] at h
    cases s with
    | nil => rw [encode_nil, List.prefix_nil] at h; cases h
    | cons d s =>
      rcases encodeChar_cases d with ⟨hd, _⟩ | ⟨_, hne, hd⟩
      · rw [ascii_lt hd, List.cons_prefix_cons] at h
        have : c = d := by
          have h2 := congrArg UInt8.toNat h.1
          rw [byte_toNat (by omega), byte_toNat (by omega)] at h2
          rw [← Char.ofNat_toNat c, ← Char.ofNat_toNat d, h2]
        rw [this, List.cons_prefix_cons]
        exact ⟨rfl, ih (fun x hx => hp x (List.mem_cons_of_mem _ hx)) h.2⟩
      · obtain ⟨b, bs, hb⟩ := List.exists_cons_of_ne_nil hne
        rw [encode_cons, hb, List.cons_append, List.cons_prefix_cons] at h
        have := hd b (by rw [hb]; simp)
        rw [← h.1, byte_toNat (by omega)] at this
        omega

/-- The first occurrence of a pattern is found. -/
theorem after_eq {p s t : Str} (hp : ∀ c ∈ p, c.toNat < 128) (hne : p ≠ [])
    (h : ∀ a b, s = a ++ b → b ≠ [] → ¬ p <+: b ++ (p ++ t)) :
    after (encode p) (encode (s ++ (p ++ t))) = some (encode t) := by
  induction s with
  | nil =>
    rw [List.nil_append, encode_append]
    obtain ⟨b, r, hb⟩ := List.exists_cons_of_ne_nil (encode_ne_nil hne)
    rw [hb, List.cons_append, after, if_pos (by rw [← List.cons_append, List.isPrefixOf_iff_prefix]; exact List.prefix_append _ _),
      ← List.cons_append, List.drop_left]
  | cons c s ih =>
    have ih' := ih fun a b hab hb => h (c :: a) b (by rw [hab]; rfl) hb
    have hnp := h [] (c :: s) rfl (by simp)
    rcases encodeChar_cases c with ⟨hc, _⟩ | ⟨_, hcn, hc⟩
    · rw [List.cons_append, ascii_lt hc, after, if_neg, ih']
      intro hpre
      rw [List.isPrefixOf_iff_prefix, ← ascii_lt hc, ← List.cons_append] at hpre
      exact hnp (prefix_chars hp hpre)
    · obtain ⟨d, ds, rfl⟩ := List.exists_cons_of_ne_nil hne
      have hd := hp d List.mem_cons_self
      rw [List.cons_append, encode_cons c]
      clear hcn
      generalize encodeChar c = l at hc ⊢
      induction l with
      | nil => exact ih'
      | cons b bs ihb =>
        rw [List.cons_append, after, if_neg, ihb fun y hy => hc y (List.mem_cons_of_mem _ hy)]
        intro hpre
        rw [List.isPrefixOf_iff_prefix, ascii_lt hd, List.cons_prefix_cons] at hpre
        have := hc b List.mem_cons_self
        rw [← hpre.1, byte_toNat (by omega)] at this
        omega

theorem comment_end {s : Str} (h : ¬ (str% "--") <:+: s) (hl : s.getLast? ≠ some '-') (t : Str) :
    ∀ a b, s = a ++ b → b ≠ [] → ¬ (str% "-->") <+: b ++ (str% "-->" ++ t) := by
  intro a b hab hb hp
  rcases b with _ | ⟨x, _ | ⟨y, b⟩⟩
  · exact hb rfl
  · simp only [List.cons_append, List.nil_append, List.cons_prefix_cons] at hp
    exact hl (by rw [hab, ← hp.1]; simp)
  · simp only [List.cons_append, List.nil_append, List.cons_prefix_cons] at hp
    exact h ⟨a, b, by rw [hab, ← hp.1, ← hp.2.1]; simp⟩

theorem cdata_end {s : Str} (h : ¬ (str% "]]>") <:+: s) (t : Str) :
    ∀ a b, s = a ++ b → b ≠ [] → ¬ (str% "]]>") <+: b ++ (str% "]]>" ++ t) := by
  intro a b hab hb hp
  rcases b with _ | ⟨x, _ | ⟨y, _ | ⟨z, b⟩⟩⟩
  · exact hb rfl
  · simp only [List.cons_append, List.nil_append, List.cons_prefix_cons] at hp
    exact absurd hp.2.2.1 (by decide)
  · simp only [List.cons_append, List.nil_append, List.cons_prefix_cons] at hp
    exact absurd hp.2.2.1 (by decide)
  · simp only [List.cons_append, List.nil_append, List.cons_prefix_cons] at hp
    exact h ⟨a, b, by rw [hab, ← hp.1, ← hp.2.1, ← hp.2.2.1]; simp⟩

theorem pi_end {s : Str} (h : ¬ (str% "?>") <:+: s) (t : Str) :
    ∀ a b, s = a ++ b → b ≠ [] → ¬ (str% "?>") <+: b ++ (str% "?>" ++ t) := by
  intro a b hab hb hp
  rcases b with _ | ⟨x, _ | ⟨y, b⟩⟩
  · exact hb rfl
  · simp only [List.cons_append, List.nil_append, List.cons_prefix_cons] at hp
    exact absurd hp.2.1 (by decide)
  · simp only [List.cons_append, List.nil_append, List.cons_prefix_cons] at hp
    exact h ⟨a, b, by rw [hab, ← hp.1, ← hp.2.1]; simp⟩

theorem events_comment {s : Str} (h : ¬ (str% "--") <:+: s) (hl : s.getLast? ≠ some '-') (t : Str) (st : List (List UInt8)) :
    events (encode (str% "<!--" ++ (s ++ (str% "-->" ++ t)))) st = some .other :: events (encode t) st := by
  have e : encode (str% "<!--" ++ (s ++ (str% "-->" ++ t))) = 60 :: 33 :: 45 :: 45 :: encode (s ++ (str% "-->" ++ t)) := by
    rw [encode_append]; rfl
  rw [e, events_cons, readOne, if_pos rfl, readMarkup, if_pos rfl, readBang,
    if_pos (by rw [List.isPrefixOf_iff_prefix]; exact ⟨_, rfl⟩)]
  have := after_eq (p := str% "-->") (by decide) (by decide) (comment_end h hl t)
  simp only [List.drop_succ_cons, List.drop_zero, this]

theorem events_cdata {s : Str} (h : ¬ (str% "]]>") <:+: s) (t : Str) (st : List (List UInt8)) :
    events (encode (str% "<![CDATA[" ++ (s ++ (str% "]]>" ++ t)))) st = some .other :: events (encode t) st := by
  have e : encode (str% "<![CDATA[" ++ (s ++ (str% "]]>" ++ t))) =
      60 :: 33 :: 91 :: 67 :: 68 :: 65 :: 84 :: 65 :: 91 :: encode (s ++ (str% "]]>" ++ t)) := by
    rw [encode_append]; rfl
  rw [e, events_cons, readOne, if_pos rfl, readMarkup, if_pos rfl, readBang, if_neg, if_pos]
  · have := after_eq (p := str% "]]>") (by decide) (by decide) (cdata_end h t)
    simp only [List.drop_succ_cons, List.drop_zero, this]
  · rw [List.isPrefixOf_iff_prefix]; exact ⟨_, rfl⟩
  · intro hp
    rw [List.isPrefixOf_iff_prefix] at hp
    have := (List.cons_prefix_cons.1 hp).1
    exact absurd this (by decide)

theorem events_pi {s : Str} (h : ¬ (str% "?>") <:+: s) (t : Str) (st : List (List UInt8)) :
    events (encode (str% "<?" ++ (s ++ (str% "?>" ++ t)))) st = some .other :: events (encode t) st := by
  have e : encode (str% "<?" ++ (s ++ (str% "?>" ++ t))) = 60 :: 63 :: encode (s ++ (str% "?>" ++ t)) := by
    rw [encode_append]; rfl
  rw [e, events_cons, readOne, if_pos rfl, readMarkup, if_neg (by decide), if_pos rfl, readPi]
  have := after_eq (p := str% "?>") (by decide) (by decide) (pi_end h t)
  simp only [this]

/-! ## Parts of a text -/

/-- The events for the parts of a text. -/
inductive Reports : List Tok → Events → Prop where
  | nil : Reports [] []
  | start {n as ts evs} : Reports ts evs → Reports (.start n as :: ts) (some (.start (encode n) (as.map attrOf)) :: evs)
  | empty {n as ts evs} : Reports ts evs → Reports (.empty n as :: ts) (some (.empty (encode n) (as.map attrOf)) :: evs)
  | stop {n ts evs} : Reports ts evs → Reports (.stop n :: ts) (some (.end_ (encode n)) :: evs)
  | text {k ts evs} : Reports ts evs → Reports (.text :: ts) (others k ++ evs)
  | space {k ts evs} : Reports ts evs → Reports (.space :: ts) (others k ++ evs)

theorem toks_markup {b : Bool} {t : Str} {ts : List Tok} (h : Toks b t ts) (hb : b = false) : AtMarkup t := by
  cases h with
  | nil => exact .inl rfl
  | space => cases hb
  | text => cases hb
  | comment => exact .inr ⟨_, rfl⟩
  | cdata => exact .inr ⟨_, rfl⟩
  | pi => exact .inr ⟨_, rfl⟩
  | start => exact .inr ⟨_, rfl⟩
  | empty => exact .inr ⟨_, rfl⟩
  | stop => exact .inr ⟨_, rfl⟩

theorem reports_one {x : Tok} (hx : x = .text ∨ x = .space) {ts : List Tok} {evs : Events} (h : Reports ts evs) :
    Reports (x :: ts) (some .other :: evs) := by
  rcases hx with rfl | rfl
  · exact Reports.text (k := 1) h
  · exact Reports.space (k := 1) h

theorem reports_toks {b : Bool} {t : Str} {ts : List Tok} (h : Toks b t ts) {st : List Str} (hm : Matched st ts) :
    Reports ts (events (encode t) (st.map encode)) := by
  induction h generalizing st with
  | nil => exact .nil
  | space _ hw ht ih =>
    cases hm with
    | space hm =>
      obtain ⟨⟨k, hk⟩, _⟩ := events_text (ws_text hw) (toks_markup ht rfl) (st.map encode)
      rw [hk]
      exact .space (ih hm)
  | text _ hw _ ht ih =>
    cases hm with
    | text hm =>
      obtain ⟨⟨k, hk⟩, _⟩ := events_text hw (toks_markup ht rfl) (st.map encode)
      rw [hk]
      exact .text (ih hm)
  | comment _ h1 h2 _ ih =>
    cases hm with
    | space hm => rw [events_comment h1 h2]; exact reports_one (.inr rfl) (ih hm)
  | cdata _ h1 _ ih =>
    cases hm with
    | text hm => rw [events_cdata h1]; exact reports_one (.inl rfl) (ih hm)
  | @pi b n s t ts hn _ _ _ h1 _ ih =>
    cases hm with
    | space hm =>
      have := events_pi (s := n ++ s) (pi_infix (isName_chars hn) h1) t (st.map encode)
      rw [List.append_assoc] at this
      rw [this]
      exact reports_one (.inr rfl) (ih hm)
  | start hn ha hd hw _ ih =>
    cases hm with
    | start hm => rw [events_start hn ha hd hw]; exact .start (ih hm)
  | empty hn ha hd hw _ ih =>
    cases hm with
    | empty hm => rw [events_empty hn ha hd hw]; exact .empty (ih hm)
  | stop hn hw _ ih =>
    cases hm with
    | stop hm => rw [List.map_cons, events_stop hn hw]; exact .stop (ih hm)

end Osmio.QuickXml
