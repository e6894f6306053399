import Verif.Model.Opl
import Verif.Proofs.RustNum
/-! # Lemmas: OPL strings -/

namespace Osmio.Opl

/-- A character with a meaning of its own in a line. -/
def Special (c : Char) : Prop := c = ' ' ∨ c = '\n' ∨ c = ',' ∨ c = '=' ∨ c = '@'

instance (c : Char) : Decidable (Special c) := inferInstanceAs (Decidable (_ ∨ _))

/-- What a character becomes. -/
def enc1 (c : Char) : Str := if Special c then escape c else [c]

theorem hexStr_small {n : Nat} (h : n < 16) : hexStr n = [hexDigit n] := by rw [hexStr, if_pos h]
theorem hexStr_two {n : Nat} (h : 16 ≤ n) (h' : n < 256) : hexStr n = [hexDigit (n / 16), hexDigit (n % 16)] := by
  rw [hexStr, if_neg (by omega), hexStr_small (by omega)]; rfl

theorem escape_space : escape ' ' = ['%', '2', '0', '%'] := by
  rw [escape, hexStr_two (by decide) (by decide)]; decide
theorem escape_newline : escape '\n' = ['%', 'A', '%'] := by
  rw [escape, hexStr_small (by decide)]; decide
theorem escape_comma : escape ',' = ['%', '2', 'C', '%'] := by
  rw [escape, hexStr_two (by decide) (by decide)]; decide
theorem escape_equals : escape '=' = ['%', '3', 'D', '%'] := by
  rw [escape, hexStr_two (by decide) (by decide)]; decide
theorem escape_at : escape '@' = ['%', '4', '0', '%'] := by
  rw [escape, hexStr_two (by decide) (by decide)]; decide

theorem replaceChar_append (a b : Str) (c : Char) (w : Str) : replaceChar (a ++ b) c w = replaceChar a c w ++ replaceChar b c w := by
  simp [replaceChar]

theorem encodeString_append (a b : Str) : encodeString (a ++ b) = encodeString a ++ encodeString b := by
  simp only [encodeString, List.foldl, replaceChar_append]

theorem encodeString_nil : encodeString [] = [] := rfl

theorem encodeString_single (c : Char) : encodeString [c] = enc1 c := by
  simp only [encodeString, List.foldl, escape_space, escape_newline, escape_comma, escape_equals, escape_at]
  by_cases h : Special c
  · rw [enc1, if_pos h]
    rcases h with h | h | h | h | h <;> subst h
    · rw [escape_space]; decide
    · rw [escape_newline]; decide
    · rw [escape_comma]; decide
    · rw [escape_equals]; decide
    · rw [escape_at]; decide
  · rw [enc1, if_neg h]
    simp only [Special, not_or] at h
    obtain ⟨h1, h2, h3, h4, h5⟩ := h
    simp [replaceChar, h1, h2, h3, h4, h5]

theorem encodeString_cons (c : Char) (s : Str) : encodeString (c :: s) = enc1 c ++ encodeString s := by
  rw [← encodeString_single, ← encodeString_append]; rfl

theorem decodeFrom_enc1 {c : Char} (h : c ≠ '%') (r : Str) : decodeFrom none (enc1 c ++ r) = (decodeFrom none r).map (c :: ·) := by
  by_cases hs : Special c
  · rw [enc1, if_pos hs]
    rcases hs with h | h | h | h | h <;> subst h
    · rw [escape_space]
      show (match escapedChar ['2', '0'] with
        | some x => (decodeFrom none r).map (x :: ·)
        | none => none) = _
      rw [show escapedChar ['2', '0'] = some ' ' by decide]
    · rw [escape_newline]
      show (match escapedChar ['A'] with
        | some x => (decodeFrom none r).map (x :: ·)
        | none => none) = _
      rw [show escapedChar ['A'] = some '\n' by decide]
    · rw [escape_comma]
      show (match escapedChar ['2', 'C'] with
        | some x => (decodeFrom none r).map (x :: ·)
        | none => none) = _
      rw [show escapedChar ['2', 'C'] = some ',' by decide]
    · rw [escape_equals]
      show (match escapedChar ['3', 'D'] with
        | some x => (decodeFrom none r).map (x :: ·)
        | none => none) = _
      rw [show escapedChar ['3', 'D'] = some '=' by decide]
    · rw [escape_at]
      show (match escapedChar ['4', '0'] with
        | some x => (decodeFrom none r).map (x :: ·)
        | none => none) = _
      rw [show escapedChar ['4', '0'] = some '@' by decide]
  · rw [enc1, if_neg hs]
    show (if c = '%' then _ else _) = _
    rw [if_neg h]
    rfl

theorem decodeFrom_encode {s : Str} (h : '%' ∉ s) (r : Str) :
    decodeFrom none (encodeString s ++ r) = (decodeFrom none r).map (s ++ ·) := by
  induction s with
  | nil => rw [encodeString_nil]; simp
  | cons c s ih =>
    rw [encodeString_cons, List.append_assoc, decodeFrom_enc1 (fun e => h (by simp [e])), ih fun hm => h (List.mem_cons_of_mem _ hm),
      Option.map_map]
    rfl

theorem decode_encode {s : Str} (h : '%' ∉ s) : decodeString (encodeString s) = some s := by
  have := decodeFrom_encode h []
  rw [List.append_nil] at this
  rw [decodeString, this]
  simp [decodeFrom]

theorem decodeFrom_some {b : Str} (h : '%' ∉ b) (buffer : Str) : decodeFrom (some buffer) b = some [] := by
  induction b generalizing buffer with
  | nil => rfl
  | cons c b ih =>
    show (if c = '%' then _ else _) = _
    rw [if_neg fun e => h (by simp [e])]
    exact ih (fun hm => h (List.mem_cons_of_mem _ hm)) _

theorem encodeString_plain {b : Str} (h : ∀ c ∈ b, ¬ Special c) : encodeString b = b := by
  induction b with
  | nil => rfl
  | cons c b ih =>
    rw [encodeString_cons, enc1, if_neg (h c (by simp)), ih fun c hc => h c (List.mem_cons_of_mem _ hc)]
    rfl

theorem mem_enc1 {c x : Char} (h : x ∈ enc1 c) : ¬ Special x := by
  by_cases hs : Special c
  · rw [enc1, if_pos hs] at h
    rcases hs with h' | h' | h' | h' | h' <;> subst h'
    · rw [escape_space] at h; revert x; decide
    · rw [escape_newline] at h; revert x; decide
    · rw [escape_comma] at h; revert x; decide
    · rw [escape_equals] at h; revert x; decide
    · rw [escape_at] at h; revert x; decide
  · rw [enc1, if_neg hs] at h
    rw [List.mem_singleton.mp h]
    exact hs

theorem encodeString_chars {s : Str} {x : Char} (h : x ∈ encodeString s) : ¬ Special x := by
  induction s with
  | nil => exact absurd h (by simp [encodeString_nil])
  | cons c s ih =>
    rw [encodeString_cons, List.mem_append] at h
    rcases h with h | h
    · exact mem_enc1 h
    · exact ih h

/-! ## Splitting and joining -/

theorem split_ne_nil (c : Char) (s : Str) : split c s ≠ [] := by
  induction s with
  | nil => simp [split]
  | cons x s _ =>
    rw [split]
    split
    · simp
    · split <;> simp

theorem split_append (c : Char) {a : Str} (h : c ∉ a) (b : Str) : split c (a ++ c :: b) = a :: split c b := by
  induction a with
  | nil => simp [split]
  | cons x a ih =>
    rw [List.cons_append, split, if_neg (fun e => h (by simp [e])), ih fun hm => h (List.mem_cons_of_mem _ hm)]

theorem split_none (c : Char) {a : Str} (h : c ∉ a) : split c a = [a] := by
  induction a with
  | nil => rfl
  | cons x a ih => rw [split, if_neg (fun e => h (by simp [e])), ih fun hm => h (List.mem_cons_of_mem _ hm)]

theorem split_join {l : List Str} (hl : l ≠ []) (h : ∀ s ∈ l, ',' ∉ s) : split ',' (join l) = l := by
  induction l with
  | nil => exact absurd rfl hl
  | cons s l ih =>
    cases l with
    | nil => exact split_none ',' (h s (by simp))
    | cons t l =>
      show split ',' (s ++ ',' :: join (t :: l)) = _
      rw [split_append ',' (h s (by simp)), ih (by simp) fun x hx => h x (List.mem_cons_of_mem _ hx)]

theorem splitOnce_append (c : Char) {a : Str} (h : c ∉ a) (b : Str) : splitOnce c (a ++ c :: b) = (a, some b) := by
  induction a with
  | nil => simp [splitOnce]
  | cons x a ih => rw [List.cons_append, splitOnce, if_neg (fun e => h (by simp [e])), ih fun hm => h (List.mem_cons_of_mem _ hm)]

theorem insert_new {m : List (Str × Str)} {k v : Str} (h : k ∉ m.map Prod.fst) : insert m k v = m ++ [(k, v)] := by
  rw [insert, List.filter_eq_self.mpr]
  intro p hp
  simp only [bne_iff_ne, ne_eq]
  exact fun e => h (List.mem_map.mpr ⟨p, hp, e⟩)

theorem decodePairs_encode (m l : List (Str × Str)) (hd : ((m ++ l).map Prod.fst).Nodup)
    (hp : ∀ kv ∈ l, '%' ∉ kv.1 ∧ '%' ∉ kv.2) :
    decodePairs m (l.map fun kv => encodeString kv.1 ++ '=' :: encodeString kv.2) = .ok (some (m ++ l)) := by
  induction l generalizing m with
  | nil => simp [decodePairs]
  | cons kv l ih =>
    obtain ⟨k, v⟩ := kv
    have hkv := hp (k, v) (by simp)
    have hk : splitOnce '=' (encodeString k ++ '=' :: encodeString v) = (encodeString k, some (encodeString v)) :=
      splitOnce_append '=' (fun hm => encodeString_chars hm (by simp [Special])) _
    have hn : k ∉ m.map Prod.fst := by
      intro hm
      rw [List.map_append, List.nodup_append] at hd
      exact hd.2.2 k hm k (by simp) rfl
    simp only [List.map_cons, decodePairs, hk, decode_encode hkv.1, decode_encode hkv.2, insert_new hn]
    rw [ih (m ++ [(k, v)]) (by simpa using hd) fun x hx => hp x (List.mem_cons_of_mem _ hx)]
    simp

theorem join_ne_nil {l : List Str} (hl : l ≠ []) (h : ∀ s ∈ l, s ≠ []) : join l ≠ [] := by
  match l with
  | [s] => exact h s (by simp)
  | s :: t :: l => simp [join]

theorem i64Str_chars (i : Int64) : ∀ c ∈ i64Str i, c ≠ ',' ∧ c ≠ '@' := by
  intro c hc
  rcases intStr_chars _ c hc with h | h
  · rw [isDigit, decide_eq_true_eq] at h
    constructor <;> (intro e; subst e; revert h; decide)
  · subst h; decide

theorem decodeIds_encode (l : List Int64) : decodeIds (l.map fun n => 'n' :: i64Str n) = some l := by
  induction l with
  | nil => rfl
  | cons i l ih =>
    show (match parseI64 (i64Str i) with
      | some i => (decodeIds (l.map fun n => 'n' :: i64Str n)).map (i :: ·)
      | none => none) = _
    rw [parseI64_i64Str, ih]
    rfl

theorem splitKeyValue_cons {c : Char} (h : c.toNat < 128) (r : Str) : splitKeyValue (c :: r) = some ([c], r) := by
  cases r <;> simp only [splitKeyValue, if_pos h]

theorem decodeMember_encode {t : Char} (ht : t.toNat < 128) (id : Int64) (role : Str) :
    decodeMember (t :: (i64Str id ++ '@' :: role)) = .ok (some (t, id, role)) := by
  have h : splitOnce '@' (i64Str id ++ '@' :: role) = (i64Str id, some role) :=
    splitOnce_append '@' (fun hm => (i64Str_chars id _ hm).2 rfl) _
  simp only [decodeMember, splitKeyValue_cons ht, h, parseI64_i64Str]

theorem decodeMemberList_encode {l : List (Char × Int64 × Str)} (h : ∀ m ∈ l, m.1.toNat < 128) :
    decodeMemberList (l.map fun m => m.1 :: (i64Str m.2.1 ++ '@' :: m.2.2)) = .ok (some l) := by
  induction l with
  | nil => rfl
  | cons m l ih =>
    simp only [List.map_cons, decodeMemberList, decodeMember_encode (h m (by simp)), ih fun x hx => h x (List.mem_cons_of_mem _ hx)]
    rfl

end Osmio.Opl
