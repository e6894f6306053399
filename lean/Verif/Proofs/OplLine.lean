import Verif.Proofs.Opl
import Verif.Proofs.Utf8
import Verif.Props.CoordText
import Verif.Spec.Opl
/-! # Lemmas: OPL lines -/

namespace Osmio.Opl
open Osmio.Spec.Opl

/-! ## Escapes -/

theorem hexVal_of_spec {c : Char} {d : Nat} (h : Spec.Opl.hexDigit c = some d) : hexVal? c = some d := by
  have le : ∀ a b : Char, a ≤ b ↔ a.toNat ≤ b.toNat := fun a b => by
    rw [Char.le_def, UInt32.le_iff_toNat_le]; rfl
  unfold Spec.Opl.hexDigit at h
  simp only [le, show '0'.toNat = 48 from rfl, show '9'.toNat = 57 from rfl, show 'a'.toNat = 97 from rfl,
    show 'f'.toNat = 102 from rfl, show 'A'.toNat = 65 from rfl, show 'F'.toNat = 70 from rfl] at h
  unfold hexVal?
  by_cases h1 : 48 ≤ c.toNat ∧ c.toNat ≤ 57
  · rw [if_pos h1] at h ⊢; exact h
  · rw [if_neg h1] at h ⊢
    by_cases h2 : 97 ≤ c.toNat ∧ c.toNat ≤ 102
    · rw [if_pos h2] at h
      rw [if_neg (by omega), if_pos h2, ← h]; congr 1; omega
    · rw [if_neg h2] at h
      by_cases h3 : 65 ≤ c.toNat ∧ c.toNat ≤ 70
      · rw [if_pos h3] at h ⊢; rw [← h]; congr 1; omega
      · rw [if_neg h3] at h; cases h

theorem hexDigitsVal_append (acc : Nat) (a b : Str) :
    hexDigitsVal acc (a ++ b) = (hexDigitsVal acc a).bind fun n => hexDigitsVal n b := by
  induction a generalizing acc with
  | nil => rfl
  | cons c a ih =>
    simp only [List.cons_append, hexDigitsVal]
    cases hexVal? c with
    | none => rfl
    | some d => exact ih _

theorem hexVal_chars {c : Char} {d : Nat} (h : hexVal? c = some d) :
    c ≠ '%' ∧ c ≠ '+' ∧ isWhite c = false ∧ c ∉ [' ', '\n', ',', '=', '@', '%'] := by
  unfold hexVal? at h
  have hr : (48 ≤ c.toNat ∧ c.toNat ≤ 57) ∨ (65 ≤ c.toNat ∧ c.toNat ≤ 70) ∨ (97 ≤ c.toNat ∧ c.toNat ≤ 102) := by
    by_contra hc; push Not at hc
    rw [if_neg (by omega), if_neg (by omega), if_neg (by omega)] at h; cases h
  have ne : ∀ x : Char, (x.toNat < 48 ∨ (57 < x.toNat ∧ x.toNat < 65)) → c ≠ x := by
    rintro x hx rfl; omega
  refine ⟨ne _ (by decide), ne _ (by decide), ?_, ?_⟩
  · unfold isWhite; simp; omega
  · simp only [List.mem_cons, List.not_mem_nil, or_false, not_or]
    exact ⟨ne _ (by decide), ne _ (by decide), ne _ (by decide), ne _ (by decide), ne _ (by decide), ne _ (by decide)⟩

theorem hexOf_facts {h : Str} {n : Nat} (hx : HexOf h n) :
    h ≠ [] ∧ hexDigitsVal 0 h = some n ∧ ∀ c ∈ h, ∃ d, hexVal? c = some d := by
  induction hx with
  | one c d hc =>
    have := hexVal_of_spec hc
    refine ⟨by simp, by simp [hexDigitsVal, this], ?_⟩
    intro x hx; rw [List.mem_singleton.mp hx]; exact ⟨d, this⟩
  | more h n c d _ hc ih =>
    have := hexVal_of_spec hc
    refine ⟨by simp, ?_, ?_⟩
    · rw [hexDigitsVal_append, ih.2.1]; simp [hexDigitsVal, this]
    · intro x hx
      rcases List.mem_append.mp hx with hx | hx
      · exact ih.2.2 x hx
      · rw [List.mem_singleton.mp hx]; exact ⟨d, this⟩

theorem escapedChar_hexOf {h : Str} {c : Char} (hx : HexOf h c.toNat) : escapedChar h = some c := by
  obtain ⟨hne, hv, hc⟩ := hexOf_facts hx
  cases h with
  | nil => exact absurd rfl hne
  | cons x r =>
    obtain ⟨d, hd⟩ := hc x (by simp)
    have hp : x ≠ '+' := (hexVal_chars hd).2.1
    have hs : stripPlus (x :: r) = x :: r := by
      unfold stripPlus; split
      · rename_i heq; exact absurd (List.cons.inj heq).1 hp
      · rfl
    have hlt : c.toNat < 4294967296 := lt_trans (Utf8.char_lt c) (by norm_num)
    have hp : parseHex (x :: r) = some c.toNat := by
      unfold parseHex; rw [hs]; simp only; rw [hv]; simp only; rw [if_pos hlt]
    unfold escapedChar
    rw [hp]; simp only
    rw [if_pos (show c.toNat.isValidChar from c.valid)]
    congr 1; exact Char.ofNat_toNat c

theorem decodeFrom_buffer {h : Str} (hh : '%' ∉ h) (buffer r : Str) :
    decodeFrom (some buffer) (h ++ '%' :: r) =
      match escapedChar (buffer ++ h) with
      | some x => (decodeFrom none r).map (x :: ·)
      | none => none := by
  induction h generalizing buffer with
  | nil => rw [List.nil_append, List.append_nil]; rw [decodeFrom]; exact if_pos rfl
  | cons c h ih =>
    rw [List.cons_append, decodeFrom, if_neg (fun e => hh (by simp [e])), ih (fun hm => hh (List.mem_cons_of_mem _ hm))]
    simp

/-- Every encoding of a string is decoded. -/
theorem decodeString_text {s t : Str} (h : StringText s t) : decodeString t = some s := by
  unfold decodeString
  induction h with
  | nil => rfl
  | plain c s t hp _ ih =>
    have : c ≠ '%' := fun e => hp.1 (by simp [e])
    rw [decodeFrom, if_neg this, ih]; rfl
  | escaped c h s t hx _ ih =>
    obtain ⟨-, -, hc⟩ := hexOf_facts hx
    have hh : '%' ∉ h := by
      intro hm; obtain ⟨d, hd⟩ := hc _ hm; exact (hexVal_chars hd).1 rfl
    rw [decodeFrom, if_pos rfl, decodeFrom_buffer hh, List.nil_append, escapedChar_hexOf hx]
    simp only; rw [ih]; rfl

theorem isWhite_iff (c : Char) : isWhite c = true ↔ White c := by
  unfold isWhite White
  simp only [Bool.or_eq_true, Bool.and_eq_true, decide_eq_true_eq, beq_iff_eq, List.mem_cons, List.not_mem_nil, or_false]
  omega

theorem isWhite_false_iff (c : Char) : isWhite c = false ↔ ¬ White c := by
  rw [← isWhite_iff]; simp

/-- The characters of an encoding. -/
theorem text_chars {s t : Str} (h : StringText s t) :
    ∀ c ∈ t, isWhite c = false ∧ c ∉ [' ', '\n', ',', '=', '@'] := by
  induction h with
  | nil => simp
  | plain c s t hp _ ih =>
    intro x hx
    rcases List.mem_cons.mp hx with rfl | hx
    · exact ⟨(isWhite_false_iff _).2 hp.2, fun hm => hp.1 (by simp only [List.mem_cons, List.not_mem_nil, or_false] at hm ⊢; tauto)⟩
    · exact ih x hx
  | escaped c h s t hx' _ ih =>
    obtain ⟨-, -, hc⟩ := hexOf_facts hx'
    intro x hx
    rcases List.mem_cons.mp hx with rfl | hx
    · decide
    · rcases List.mem_append.mp hx with hx | hx
      · obtain ⟨d, hd⟩ := hc x hx
        have := hexVal_chars hd
        exact ⟨this.2.2.1, fun hm => this.2.2.2 (by simp only [List.mem_cons, List.not_mem_nil, or_false] at hm ⊢; tauto)⟩
      · rcases List.mem_cons.mp hx with rfl | hx
        · decide
        · exact ih x hx

/-- A name written as itself is one of its encodings. -/
theorem literal_text {s t : Str} (h : Literal s t) : StringText s t := by
  obtain ⟨rfl, h⟩ := h
  induction t with
  | nil => exact .nil
  | cons c t ih => exact .plain c t t (h c (by simp)) (ih fun x hx => h x (List.mem_cons_of_mem _ hx))

/-! ## Lists -/

theorem commaList_split {α : Type} {item : α → Str → Prop} {as : List α} {t : Str}
    (h : CommaList item as t) (hc : ∀ a t, item a t → ',' ∉ t) :
    List.Forall₂ item as (split ',' t) := by
  induction h with
  | one a t ha => rw [split_none ',' (hc a t ha)]; exact .cons ha .nil
  | more a t as ts ha _ ih => rw [split_append ',' (hc a t ha)]; exact .cons ha ih

theorem commaList_chars {α : Type} {item : α → Str → Prop} {as : List α} {t : Str}
    (h : CommaList item as t) (hw : ∀ a ∈ as, ∀ t, item a t → ∀ x ∈ t, isWhite x = false) : ∀ x ∈ t, isWhite x = false := by
  induction h with
  | one a t ha => exact hw a (by simp) t ha
  | more a t as ts ha _ ih =>
    intro x hx
    rcases List.mem_append.mp hx with hx | hx
    · exact hw a (by simp) t ha x hx
    · rcases List.mem_cons.mp hx with rfl | hx
      · decide
      · exact ih (fun a ha => hw a (List.mem_cons_of_mem _ ha)) x hx

theorem decodePairs_text (m : List (Str × Str)) {l : List (Str × Str)} {ts : List Str}
    (h : List.Forall₂ TagText l ts) (hd : ((m ++ l).map Prod.fst).Nodup) :
    decodePairs m ts = .ok (some (m ++ l)) := by
  induction h generalizing m with
  | nil => simp [decodePairs]
  | @cons kv t l ts ht _ ih =>
    obtain ⟨k, v⟩ := kv
    obtain ⟨kt, vt, hk, hv, rfl⟩ := ht
    have hsp : splitOnce '=' (kt ++ '=' :: vt) = (kt, some vt) :=
      splitOnce_append '=' (fun hm => (text_chars hk _ hm).2 (by simp)) _
    have hn : k ∉ m.map Prod.fst := by
      intro hm
      rw [List.map_append, List.nodup_append] at hd
      exact hd.2.2 k hm k (by simp) rfl
    simp only [decodePairs, hsp, decodeString_text hk, decodeString_text hv, insert_new hn]
    rw [ih (m ++ [(k, v)]) (by simpa using hd)]
    simp

theorem tagText_comma (kv : Str × Str) (t : Str) (h : TagText kv t) : ',' ∉ t := by
  obtain ⟨k, v, hk, hv, rfl⟩ := h
  intro hm
  rcases List.mem_append.mp hm with hm | hm
  · exact (text_chars hk _ hm).2 (by simp)
  · rcases List.mem_cons.mp hm with hm | hm
    · exact absurd hm (by decide)
    · exact (text_chars hv _ hm).2 (by simp)

theorem decodeTags_text {tags : List (Str × Str)} {t : Str} (h : TagsText tags t)
    (hd : (tags.map Prod.fst).Nodup) : decodeTags t = .ok (some tags) := by
  rcases h with ⟨rfl, rfl⟩ | h
  · rfl
  · have hf := commaList_split h tagText_comma
    have hne : t ≠ [] := by
      intro e
      cases h with
      | one a t ha => obtain ⟨k, v, -, -, e'⟩ := ha; rw [e'] at e; simp at e
      | more a t as ts ha _ => simp at e
    unfold decodeTags
    rw [if_neg hne]
    have := decodePairs_text [] hf (by simpa using hd)
    simpa using this

theorem tagsText_chars {tags : List (Str × Str)} {t : Str} (h : TagsText tags t) : ∀ x ∈ t, isWhite x = false := by
  rcases h with ⟨rfl, rfl⟩ | h
  · simp
  · apply commaList_chars h
    rintro kv - t ⟨k, v, hk, hv, rfl⟩ x hx
    rcases List.mem_append.mp hx with hx | hx
    · exact (text_chars hk x hx).1
    · rcases List.mem_cons.mp hx with rfl | hx
      · decide
      · exact (text_chars hv x hx).1

theorem digit_not_white {c : Char} (h : isDigit c = true) : isWhite c = false := by
  rw [isDigit, decide_eq_true_eq] at h
  unfold isWhite; simp; omega

theorem i64Str_not_white (i : Int64) : ∀ c ∈ i64Str i, isWhite c = false := by
  intro c hc
  rcases intStr_chars _ c hc with h | h
  · exact digit_not_white h
  · subst h; decide

theorem u32Str_not_white (n : UInt32) : ∀ c ∈ u32Str n, isWhite c = false :=
  fun c hc => digit_not_white (natStr_isDigit _ c hc)

theorem decodeIds_text {l : List Int64} {ts : List Str}
    (h : List.Forall₂ (fun n t => t = 'n' :: i64Str n) l ts) : decodeIds ts = some l := by
  induction h with
  | nil => rfl
  | @cons i t l ts ht _ ih =>
    subst ht
    show (match parseI64 (i64Str i) with
      | some i => (decodeIds ts).map (i :: ·)
      | none => none) = _
    rw [parseI64_i64Str, ih]; rfl

theorem decodeWayNodes_text {nodes : List Int64} {t : Str} (h : NodesText nodes t) (hne : nodes ≠ []) :
    decodeWayNodes t = some nodes := by
  rcases h with ⟨rfl, -⟩ | h
  · exact absurd rfl hne
  · refine decodeIds_text (commaList_split h ?_)
    rintro n t rfl hm
    rcases List.mem_cons.mp hm with hm | hm
    · exact absurd hm (by decide)
    · exact (i64Str_chars n _ hm).1 rfl

theorem nodesText_chars {nodes : List Int64} {t : Str} (h : NodesText nodes t) : ∀ x ∈ t, isWhite x = false := by
  rcases h with ⟨rfl, rfl⟩ | h
  · simp
  · apply commaList_chars h
    rintro n - t rfl x hx
    rcases List.mem_cons.mp hx with rfl | hx
    · decide
    · exact i64Str_not_white n x hx

/-- The member with its role as it is written. -/
theorem decodeMemberList_text {l : List (Char × Int64 × Str)} {ts : List Str}
    (h : List.Forall₂ (MemberText Literal) l ts) :
    decodeMemberList ts = .ok (some l) := by
  induction h with
  | nil => rfl
  | @cons m t l ts ht _ ih =>
    obtain ⟨hk, r, hr, rfl⟩ := ht
    have hlt : m.1.toNat < 128 := by
      simp only [List.mem_cons, List.not_mem_nil, or_false] at hk
      rcases hk with e | e | e <;> (rw [e]; decide)
    rw [hr.1]
    simp only [decodeMemberList, decodeMember_encode hlt, ih]
    rfl

theorem memberText_comma (m : Char × Int64 × Str) (t : Str) (h : MemberText Literal m t) : ',' ∉ t := by
  obtain ⟨hk, r, hr, rfl⟩ := h
  intro hm
  rcases List.mem_cons.mp hm with hm | hm
  · rw [← hm] at hk; exact absurd hk (by decide)
  · rcases List.mem_append.mp hm with hm | hm
    · exact (i64Str_chars _ _ hm).1 rfl
    · rcases List.mem_cons.mp hm with hm | hm
      · exact absurd hm (by decide)
      · exact (text_chars (literal_text hr) _ hm).2 (by simp)

theorem membersText_chars {ms : List (Char × Int64 × Str)} {t : Str} (h : MembersText Literal ms t) : ∀ x ∈ t, isWhite x = false := by
  rcases h with ⟨rfl, rfl⟩ | h
  · simp
  · apply commaList_chars h
    rintro m - t ⟨hk, r, hr, rfl⟩ x hx
    rcases List.mem_cons.mp hx with rfl | hx
    · simp only [List.mem_cons, List.not_mem_nil, or_false] at hk
      rcases hk with e | e | e <;> (rw [e]; decide)
    · rcases List.mem_append.mp hx with hx | hx
      · exact i64Str_not_white _ x hx
      · rcases List.mem_cons.mp hx with rfl | hx
        · decide
        · exact (text_chars (literal_text hr) x hx).1

theorem decodeMembers_text {ms : List (Char × Int64 × Str)} {t : Str} (h : MembersText Literal ms t) (hne : ms ≠ []) : decodeMembers t = .ok (some ms) := by
  rcases h with ⟨rfl, -⟩ | h
  · exact absurd rfl hne
  · exact decodeMemberList_text (commaList_split h memberText_comma)

/-! ## Coordinates -/

theorem coordText_parse {c : Option Int32} {t : Str} (h : CoordText c t) : parseCoord t = some c := by
  cases c with
  | none =>
    simp only [CoordText] at h
    subst h; rfl
  | some i =>
    have hi : innerFromStr t = .ok i := C67_exact t i h
    unfold parseCoord
    rw [if_neg, hi]
    rintro rfl
    have : innerFromStr [] = .error (.parseFloat .empty) := by decide +kernel
    rw [this] at hi; cases hi

theorem expText_not_white {ex : Str} {e : ℤ} (h : Spec.ExpText ex e) : ∀ x ∈ ex, isWhite x = false := by
  cases h with
  | none => simp
  | some mark sign ds hm hs _ h2 =>
    intro x hx
    rcases List.mem_cons.mp hx with rfl | hx
    · rcases hm with rfl | rfl <;> decide
    · rcases List.mem_append.mp hx with hx | hx
      · rcases hs with rfl | rfl | rfl
        · cases hx
        · rw [List.mem_singleton.mp hx]; decide
        · rw [List.mem_singleton.mp hx]; decide
      · exact digit_not_white (h2 x hx)

theorem coordText_chars {c : Option Int32} {t : Str} (h : CoordText c t) : ∀ x ∈ t, isWhite x = false := by
  cases c with
  | none => simp only [CoordText] at h; subst h; simp
  | some i =>
    obtain ⟨sign, ip, point, fp, ex, e, rfl, hs, hpt, -, hd, hfd, hex, -⟩ := Spec.IsDecimal.exists_parts h
    intro x hx
    simp only [List.mem_append] at hx
    rcases hx with (((hx | hx) | hx) | hx) | hx
    · rcases hs with rfl | rfl | rfl
      · cases hx
      · rw [List.mem_singleton.mp hx]; decide
      · rw [List.mem_singleton.mp hx]; decide
    · exact digit_not_white (hd x hx)
    · rcases hpt with rfl | ⟨rfl, -⟩
      · rw [List.mem_singleton.mp hx]; decide
      · cases hx
    · exact digit_not_white (hfd x hx)
    · exact expText_not_white hex x hx

/-! ## Lines -/

/-- Fields with a space between them. -/
def joinSp : List (Char × Str) → Str
  | [] => []
  | [f] => f.1 :: f.2
  | f :: fs => f.1 :: (f.2 ++ ' ' :: joinSp fs)

/-- A field: a letter and a text without white space. -/
def FieldOk (f : Char × Str) : Prop := f.1.toNat < 128 ∧ ∀ x ∈ f.1 :: f.2, isWhite x = false

theorem not_space_of_white {c : Char} (h : isWhite c = false) : c ≠ ' ' := by rintro rfl; exact absurd h (by decide)

theorem splitItems_joinSp {fs : List (Char × Str)} (hne : fs ≠ []) (h : ∀ f ∈ fs, FieldOk f) :
    splitItems (split ' ' (joinSp fs)) = some (fs.map fun f => ([f.1], f.2)) := by
  have hsp : ∀ f ∈ fs, ' ' ∉ f.1 :: f.2 := fun f hf hm => not_space_of_white ((h f hf).2 _ hm) rfl
  induction fs with
  | nil => exact absurd rfl hne
  | cons f fs ih =>
    cases fs with
    | nil =>
      simp only [joinSp]
      rw [split_none ' ' (hsp f (by simp))]
      simp [splitItems, splitKeyValue_cons (h f (by simp)).1]
    | cons g fs =>
      have e : joinSp (f :: g :: fs) = (f.1 :: f.2) ++ ' ' :: joinSp (g :: fs) := rfl
      rw [e, split_append ' ' (hsp f (by simp))]
      simp only [splitItems, splitKeyValue_cons (h f (by simp)).1]
      rw [ih (by simp) (fun x hx => h x (List.mem_cons_of_mem _ hx)) (fun x hx => hsp x (List.mem_cons_of_mem _ hx))]
      rfl

/-- A line begins and ends with something else than white space. -/
theorem joinSp_ends {fs : List (Char × Str)} (hne : fs ≠ []) (h : ∀ f ∈ fs, FieldOk f) :
    (∃ c r, joinSp fs = c :: r ∧ isWhite c = false) ∧ (∃ r c, joinSp fs = r ++ [c] ∧ isWhite c = false) := by
  induction fs with
  | nil => exact absurd rfl hne
  | cons f fs ih =>
    have hf := h f (by simp)
    cases fs with
    | nil =>
      refine ⟨⟨f.1, f.2, rfl, hf.2 _ (by simp)⟩, ?_⟩
      have hn : f.1 :: f.2 ≠ [] := by simp
      exact ⟨(f.1 :: f.2).dropLast, (f.1 :: f.2).getLast hn, (List.dropLast_append_getLast hn).symm,
        hf.2 _ (List.getLast_mem hn)⟩
    | cons g fs =>
      obtain ⟨-, r, c, hr, hc⟩ := ih (by simp) fun x hx => h x (List.mem_cons_of_mem _ hx)
      refine ⟨⟨f.1, _, rfl, hf.2 _ (by simp)⟩, ⟨f.1 :: (f.2 ++ ' ' :: r), c, ?_, hc⟩⟩
      show f.1 :: (f.2 ++ ' ' :: joinSp (g :: fs)) = _
      rw [hr]; simp

theorem dropWhile_white {a : Str} (ha : ∀ x ∈ a, isWhite x = true) (r : Str) :
    (a ++ r).dropWhile isWhite = r.dropWhile isWhite := by
  induction a with
  | nil => rfl
  | cons x a ih =>
    rw [List.cons_append, List.dropWhile_cons, if_pos (ha x (by simp))]
    exact ih fun y hy => ha y (List.mem_cons_of_mem _ hy)

/-- White space around a line does not matter. -/
theorem trim_padded {l a b : Str} {fs : List (Char × Str)} (hl : l = joinSp fs) (hne : fs ≠ []) (h : ∀ f ∈ fs, FieldOk f)
    (ha : ∀ x ∈ a, isWhite x = true) (hb : ∀ x ∈ b, isWhite x = true) : trim (a ++ l ++ b) = l := by
  obtain ⟨⟨c, r, h1, h2⟩, r', c', h3, h4⟩ := joinSp_ends hne h
  rw [hl]
  have e1 : (a ++ joinSp fs ++ b).dropWhile isWhite = joinSp fs ++ b := by
    rw [List.append_assoc, dropWhile_white ha, h1, List.cons_append, List.dropWhile_cons]; simp [h2]
  unfold trim
  rw [e1, List.reverse_append, dropWhile_white (by simpa using hb), h3]
  simp only [List.reverse_append, List.reverse_cons, List.reverse_nil, List.nil_append, List.cons_append,
    List.dropWhile_cons, h4]
  simp

theorem joinSp_no_newline {fs : List (Char × Str)} (h : ∀ f ∈ fs, FieldOk f) : '\n' ∉ joinSp fs := by
  have ne : ∀ {c : Char}, isWhite c = false → c ≠ '\n' := by rintro c h rfl; exact absurd h (by decide)
  induction fs with
  | nil => simp [joinSp]
  | cons f fs ih =>
    have hf := h f (by simp)
    have hf' : '\n' ∉ f.1 :: f.2 := fun hm => ne (hf.2 _ hm) rfl
    cases fs with
    | nil => exact hf'
    | cons g fs =>
      show '\n' ∉ (f.1 :: f.2) ++ ' ' :: joinSp (g :: fs)
      intro hm
      rcases List.mem_append.mp hm with hm | hm
      · exact hf' hm
      · rcases List.mem_cons.mp hm with hm | hm
        · exact absurd hm (by decide)
        · exact ih (fun x hx => h x (List.mem_cons_of_mem _ hx)) hm

/-- The eight fields that every line begins with. -/
def commonFields (kind : Char) (c : Common) (user tags : Str) : List (Char × Str) :=
  [(kind, i64Str c.id), ('v', u32Str c.version), ('d', if c.deleted then ['D'] else ['V']), ('c', u32Str c.changesetId),
    ('t', c.timestamp), ('i', u32Str c.uid), ('u', user), ('T', tags)]

theorem commonFields_ok {kind : Char} (hk : kind ∈ ['n', 'w', 'r']) {c : Common} {user tags : Str}
    (hu : ∀ x ∈ user, isWhite x = false) (ht : ∀ x ∈ tags, isWhite x = false)
    (hts : ∀ x ∈ c.timestamp, isWhite x = false) : ∀ f ∈ commonFields kind c user tags, FieldOk f := by
  have mk : ∀ (x : Char) (r : Str), x.toNat < 128 → isWhite x = false → (∀ y ∈ r, isWhite y = false) → FieldOk (x, r) := by
    intro x r h1 h2 h3
    refine ⟨h1, ?_⟩
    intro y hy
    rcases List.mem_cons.mp hy with rfl | hy
    · exact h2
    · exact h3 y hy
  intro f hf
  simp only [commonFields, List.mem_cons, List.not_mem_nil, or_false] at hf
  rcases hf with rfl | rfl | rfl | rfl | rfl | rfl | rfl | rfl
  · simp only [List.mem_cons, List.not_mem_nil, or_false] at hk
    rcases hk with rfl | rfl | rfl <;> exact mk _ _ (by decide) (by decide) (i64Str_not_white _)
  · exact mk _ _ (by decide) (by decide) (u32Str_not_white _)
  · refine mk _ _ (by decide) (by decide) ?_
    cases c.deleted <;> simp <;> decide
  · exact mk _ _ (by decide) (by decide) (u32Str_not_white _)
  · exact mk _ _ (by decide) (by decide) hts
  · exact mk _ _ (by decide) (by decide) (u32Str_not_white _)
  · exact mk _ _ (by decide) (by decide) hu
  · exact mk _ _ (by decide) (by decide) ht

theorem fieldOk_of {x : Char} {r : Str} (h1 : x.toNat < 128) (h2 : isWhite x = false) (h3 : ∀ y ∈ r, isWhite y = false) :
    FieldOk (x, r) := by
  refine ⟨h1, ?_⟩
  intro y hy
  rcases List.mem_cons.mp hy with rfl | hy
  · exact h2
  · exact h3 y hy

/-- Parsing the common fields; the user name is taken as it is written. -/
theorem parseCommon_fields (kind : Char) (c : Common) (user tags : Str) (rest : List (Str × Str)) (l : List (Str × Str)) :
    parseCommon ((commonFields kind c user tags).map (fun f => ([f.1], f.2)) ++ rest) l = .ok (some { c with user := user, tags := l }) := by
  simp only [commonFields, List.map_cons, List.map_nil, List.cons_append, List.nil_append, parseCommon, field,
    List.getElem?_cons_zero, List.getElem?_cons_succ, parseI64_i64Str, parseU32_u32Str]
  cases c.deleted <;> rfl

theorem field7 (kind : Char) (c : Common) (user tags : Str) (rest : List (Str × Str)) :
    field ((commonFields kind c user tags).map (fun f => ([f.1], f.2)) ++ rest) 7 = .ok tags := rfl

/-- A node line, the user name taken as written. -/
theorem decodeLine_node {c : Common} {lon : Option Lon} {lat : Option Lat} {user tags x y : Str}
    (hu : ∀ z ∈ user, isWhite z = false) (ht : TagsText c.tags tags) (hd : (c.tags.map Prod.fst).Nodup)
    (hts : ∀ z ∈ c.timestamp, isWhite z = false)
    (hx : CoordText (lon.map Lon.inner) x) (hy : CoordText (lat.map Lat.inner) y) :
    (∀ f ∈ commonFields 'n' c user tags ++ [('x', x), ('y', y)], FieldOk f) ∧
    decodeLine (joinSp (commonFields 'n' c user tags ++ [('x', x), ('y', y)])) = .ok (some (.node { c with user := user } lon lat)) := by
  have hok : ∀ f ∈ commonFields 'n' c user tags ++ [('x', x), ('y', y)], FieldOk f := by
    intro f hf
    rcases List.mem_append.mp hf with hf | hf
    · exact commonFields_ok (by simp) hu (tagsText_chars ht) hts f hf
    · simp only [List.mem_cons, List.not_mem_nil, or_false] at hf
      rcases hf with rfl | rfl
      · exact fieldOk_of (by decide) (by decide) (coordText_chars hx)
      · exact fieldOk_of (by decide) (by decide) (coordText_chars hy)
  refine ⟨hok, ?_⟩
  unfold decodeLine
  rw [splitItems_joinSp (by simp [commonFields]) hok, List.map_append]
  have hk : ∃ p rest, (commonFields 'n' c user tags).map (fun f => ([f.1], f.2)) ++ [('x', x), ('y', y)].map (fun f => ([f.1], f.2))
      = (['n'], p) :: rest := ⟨_, _, rfl⟩
  obtain ⟨p, rest, hk⟩ := hk
  have hdec : decodeNode ((commonFields 'n' c user tags).map (fun f => ([f.1], f.2)) ++ [('x', x), ('y', y)].map (fun f => ([f.1], f.2)))
      = .ok (some (.node { c with user := user } lon lat)) := by
    unfold decodeNode
    rw [field7]; simp only
    rw [decodeTags_text ht hd]; simp only
    rw [show field ((commonFields 'n' c user tags).map (fun f => ([f.1], f.2)) ++ [('x', x), ('y', y)].map (fun f => ([f.1], f.2))) 8 = .ok x from rfl]
    simp only
    rw [coordText_parse hx]; simp only
    rw [show field ((commonFields 'n' c user tags).map (fun f => ([f.1], f.2)) ++ [('x', x), ('y', y)].map (fun f => ([f.1], f.2))) 9 = .ok y from rfl]
    simp only
    rw [coordText_parse hy, parseCommon_fields]
    cases lon <;> cases lat <;> rfl
  rw [hk] at hdec ⊢
  simp only
  exact (if_pos trivial).trans hdec

/-- A way line. -/
theorem decodeLine_way {c : Common} {nodes : List Int64} {user tags t : Str}
    (hu : ∀ z ∈ user, isWhite z = false) (ht : TagsText c.tags tags) (hd : (c.tags.map Prod.fst).Nodup)
    (hts : ∀ z ∈ c.timestamp, isWhite z = false) (hn : NodesText nodes t) :
    (∀ f ∈ commonFields 'w' c user tags ++ [('N', t)], FieldOk f) ∧
    decodeLine (joinSp (commonFields 'w' c user tags ++ [('N', t)])) =
      .ok (if nodes = [] then none else some (.way { c with user := user } nodes)) := by
  have hok : ∀ f ∈ commonFields 'w' c user tags ++ [('N', t)], FieldOk f := by
    intro f hf
    rcases List.mem_append.mp hf with hf | hf
    · exact commonFields_ok (by simp) hu (tagsText_chars ht) hts f hf
    · rw [List.mem_singleton.mp hf]
      exact fieldOk_of (by decide) (by decide) (nodesText_chars hn)
  refine ⟨hok, ?_⟩
  unfold decodeLine
  rw [splitItems_joinSp (by simp [commonFields]) hok, List.map_append]
  have hk : ∃ p rest, (commonFields 'w' c user tags).map (fun f => ([f.1], f.2)) ++ [('N', t)].map (fun f => ([f.1], f.2))
      = (['w'], p) :: rest := ⟨_, _, rfl⟩
  obtain ⟨p, rest, hk⟩ := hk
  have hdec : decodeWay ((commonFields 'w' c user tags).map (fun f => ([f.1], f.2)) ++ [('N', t)].map (fun f => ([f.1], f.2)))
      = .ok (if nodes = [] then none else some (.way { c with user := user } nodes)) := by
    unfold decodeWay
    rw [field7]; simp only
    rw [decodeTags_text ht hd]; simp only
    rw [show field ((commonFields 'w' c user tags).map (fun f => ([f.1], f.2)) ++ [('N', t)].map (fun f => ([f.1], f.2))) 8 = .ok t from rfl]
    simp only
    by_cases hne : nodes = []
    · rcases hn with ⟨-, rfl⟩ | hn
      · rw [if_pos hne]; rfl
      · subst hne; cases hn
    · rw [decodeWayNodes_text hn hne, if_neg hne]
      simp only
      rw [parseCommon_fields]; rfl
  rw [hk] at hdec ⊢
  simp only
  exact (if_neg (by decide)).trans ((if_pos trivial).trans hdec)

/-- A relation line with plain roles. -/
theorem decodeLine_relation {c : Common} {ms : List (Char × Int64 × Str)} {user tags t : Str}
    (hu : ∀ z ∈ user, isWhite z = false) (ht : TagsText c.tags tags) (hd : (c.tags.map Prod.fst).Nodup)
    (hts : ∀ z ∈ c.timestamp, isWhite z = false) (hn : MembersText Literal ms t) :
    (∀ f ∈ commonFields 'r' c user tags ++ [('M', t)], FieldOk f) ∧
    decodeLine (joinSp (commonFields 'r' c user tags ++ [('M', t)])) =
      .ok (if ms = [] then none else some (.relation { c with user := user } ms)) := by
  have hok : ∀ f ∈ commonFields 'r' c user tags ++ [('M', t)], FieldOk f := by
    intro f hf
    rcases List.mem_append.mp hf with hf | hf
    · exact commonFields_ok (by simp) hu (tagsText_chars ht) hts f hf
    · rw [List.mem_singleton.mp hf]
      exact fieldOk_of (by decide) (by decide) (membersText_chars hn)
  refine ⟨hok, ?_⟩
  unfold decodeLine
  rw [splitItems_joinSp (by simp [commonFields]) hok, List.map_append]
  have hk : ∃ p rest, (commonFields 'r' c user tags).map (fun f => ([f.1], f.2)) ++ [('M', t)].map (fun f => ([f.1], f.2))
      = (['r'], p) :: rest := ⟨_, _, rfl⟩
  obtain ⟨p, rest, hk⟩ := hk
  have hdec : decodeRelation ((commonFields 'r' c user tags).map (fun f => ([f.1], f.2)) ++ [('M', t)].map (fun f => ([f.1], f.2)))
      = .ok (if ms = [] then none else some (.relation { c with user := user } ms)) := by
    unfold decodeRelation
    rw [field7]; simp only
    rw [decodeTags_text ht hd]; simp only
    rw [show field ((commonFields 'r' c user tags).map (fun f => ([f.1], f.2)) ++ [('M', t)].map (fun f => ([f.1], f.2))) 8 = .ok t from rfl]
    simp only
    by_cases hne : ms = []
    · rcases hn with ⟨-, rfl⟩ | hn
      · rw [if_pos hne]; rfl
      · subst hne; cases hn
    · rw [decodeMembers_text hn hne, if_neg hne]
      simp only
      rw [parseCommon_fields]; rfl
  rw [hk] at hdec ⊢
  simp only
  exact (if_neg (by decide)).trans ((if_neg (by decide)).trans ((if_pos trivial).trans hdec))

/-! ## Bytes -/

theorem encodeChar_newline {c : Char} (h : (10 : UInt8) ∈ Utf8.encodeChar c) : c = '\n' := by
  unfold Utf8.encodeChar at h
  have hlt := Utf8.char_lt c
  have key : ∀ n : Nat, n < 256 → (10 : UInt8) = Utf8.byte n → n = 10 := by
    intro n hn e
    have := congrArg UInt8.toNat e
    rw [Utf8.byte_toNat hn] at this
    exact this.symm
  simp only at h
  split at h
  · rename_i hc
    have := key _ (by omega) (List.mem_singleton.mp h)
    rw [← Char.ofNat_toNat c, this]
  · split at h
    · simp only [List.mem_cons, List.not_mem_nil, or_false] at h
      rcases h with h | h <;> have := key _ (by omega) h <;> omega
    · split at h
      · simp only [List.mem_cons, List.not_mem_nil, or_false] at h
        rcases h with h | h | h <;> have := key _ (by omega) h <;> omega
      · simp only [List.mem_cons, List.not_mem_nil, or_false] at h
        rcases h with h | h | h | h <;> have := key _ (by omega) h <;> omega

theorem encode_newline {s : Str} (h : '\n' ∉ s) : (10 : UInt8) ∉ Utf8.encode s := by
  intro hm
  obtain ⟨c, hc, hb⟩ := List.mem_flatMap.mp hm
  rw [encodeChar_newline hb] at hc
  exact h hc

theorem takeLine_bytes {bs : List UInt8} (h : (10 : UInt8) ∉ bs) (rest : Source) :
    takeLine ((bs ++ [10]).map some ++ rest) = (some (bs ++ [10]), rest) := by
  induction bs with
  | nil => simp [takeLine]
  | cons b bs ih =>
    have hb : b ≠ 10 := fun e => h (by simp [e])
    simp only [List.cons_append, List.map_cons, takeLine, if_neg hb]
    rw [ih fun hm => h (List.mem_cons_of_mem _ hm)]; rfl

theorem takeLine_end {bs : List UInt8} (h : (10 : UInt8) ∉ bs) : takeLine (bs.map some) = (some bs, []) := by
  induction bs with
  | nil => rfl
  | cons b bs ih =>
    rw [List.map_cons, takeLine, if_neg (by rintro rfl; simp at h), ih (fun hm => h (List.mem_cons_of_mem _ hm))]
    rfl

/-- An error of the source within a line. -/
theorem takeLine_fault {bs : List UInt8} (h : (10 : UInt8) ∉ bs) (rest : Source) :
    takeLine (bs.map some ++ none :: rest) = (none, rest) := by
  induction bs with
  | nil => rfl
  | cons b bs ih =>
    rw [List.map_cons, List.cons_append, takeLine, if_neg (by rintro rfl; simp at h),
      ih (fun hm => h (List.mem_cons_of_mem _ hm))]
    rfl

/-- One line of a file, with white space around it. -/
theorem next_padded {l a b : Str} {fs : List (Char × Str)} (hl : l = joinSp fs) (hne : fs ≠ []) (h : ∀ f ∈ fs, FieldOk f)
    (ha : ∀ x ∈ a, isWhite x = true ∧ x ≠ '\n') (hb : ∀ x ∈ b, isWhite x = true ∧ x ≠ '\n') (rest : Source) :
    next ((Utf8.encode (a ++ l ++ b) ++ [10]).map some ++ rest) = (decodeLine l, rest) ∧
    next ((Utf8.encode (a ++ l ++ b)).map some) = (decodeLine l, []) := by
  have hn : '\n' ∉ a ++ l ++ b := by
    rw [hl]
    simp only [List.mem_append, not_or]
    exact ⟨⟨fun hm => (ha _ hm).2 rfl, joinSp_no_newline h⟩, fun hm => (hb _ hm).2 rfl⟩
  constructor
  · have ht := takeLine_bytes (encode_newline hn) rest
    have he : Utf8.encode (a ++ l ++ b) ++ [10] = Utf8.encode (a ++ l ++ (b ++ ['\n'])) := by
      rw [← List.append_assoc, Utf8.encode_append (a ++ l ++ b)]; rfl
    unfold next
    rw [ht]
    simp only
    rw [he, Utf8.decode_encode]
    simp only
    rw [trim_padded hl hne h (fun x hx => (ha x hx).1)]
    intro x hx
    rcases List.mem_append.mp hx with hx | hx
    · exact (hb x hx).1
    · rw [List.mem_singleton.mp hx]; decide
  · have ht := takeLine_end (encode_newline hn)
    unfold next
    rw [ht]
    simp only
    rw [Utf8.decode_encode]
    simp only
    rw [trim_padded hl hne h (fun x hx => (ha x hx).1) (fun x hx => (hb x hx).1)]

/-- One line of a file. -/
theorem next_line {l : Str} {fs : List (Char × Str)} (hl : l = joinSp fs) (hne : fs ≠ []) (h : ∀ f ∈ fs, FieldOk f)
    (rest : Source) : next ((Utf8.encode l ++ [10]).map some ++ rest) = (decodeLine l, rest) := by
  have := (next_padded (a := []) (b := []) hl hne h (by simp) (by simp) rest).1
  simpa using this

/-- A node line with something that is not a coordinate. -/
theorem decodeLine_bad_coord {c : Common} {user tags x y : Str}
    (hu : ∀ z ∈ user, isWhite z = false) (ht : TagsText c.tags tags) (hd : (c.tags.map Prod.fst).Nodup)
    (hts : ∀ z ∈ c.timestamp, isWhite z = false) (hx : ∀ z ∈ x, isWhite z = false) (hy : ∀ z ∈ y, isWhite z = false)
    (hbad : parseCoord x = none ∨ parseCoord y = none) :
    decodeLine (joinSp (commonFields 'n' c user tags ++ [('x', x), ('y', y)])) = .ok none := by
  have hok : ∀ f ∈ commonFields 'n' c user tags ++ [('x', x), ('y', y)], FieldOk f := by
    intro f hf
    rcases List.mem_append.mp hf with hf | hf
    · exact commonFields_ok (by simp) hu (tagsText_chars ht) hts f hf
    · simp only [List.mem_cons, List.not_mem_nil, or_false] at hf
      rcases hf with rfl | rfl
      · exact fieldOk_of (by decide) (by decide) hx
      · exact fieldOk_of (by decide) (by decide) hy
  unfold decodeLine
  rw [splitItems_joinSp (by simp [commonFields]) hok, List.map_append]
  have hk : ∃ p rest, (commonFields 'n' c user tags).map (fun f => ([f.1], f.2)) ++ [('x', x), ('y', y)].map (fun f => ([f.1], f.2))
      = (['n'], p) :: rest := ⟨_, _, rfl⟩
  obtain ⟨p, rest, hk⟩ := hk
  have hdec : decodeNode ((commonFields 'n' c user tags).map (fun f => ([f.1], f.2)) ++ [('x', x), ('y', y)].map (fun f => ([f.1], f.2)))
      = .ok none := by
    unfold decodeNode
    rw [field7]; simp only
    rw [decodeTags_text ht hd]; simp only
    rw [show field ((commonFields 'n' c user tags).map (fun f => ([f.1], f.2)) ++ [('x', x), ('y', y)].map (fun f => ([f.1], f.2))) 8 = .ok x from rfl]
    simp only
    rw [show field ((commonFields 'n' c user tags).map (fun f => ([f.1], f.2)) ++ [('x', x), ('y', y)].map (fun f => ([f.1], f.2))) 9 = .ok y from rfl]
    simp only
    cases h : parseCoord x with
    | none => rfl
    | some lon =>
      rcases hbad with hbad | hbad
      · rw [h] at hbad; cases hbad
      · simp only [hbad]
  rw [hk] at hdec ⊢
  simp only
  exact (if_pos trivial).trans hdec

theorem noCoord_parse {t : Str} (h : NoCoord t) : parseCoord t = none := by
  unfold parseCoord
  rw [if_neg h.1]
  cases hr : innerFromStr t with
  | error e => rfl
  | ok c =>
    exfalso
    rcases h.2 with h | ⟨v, hv, hlt⟩
    · obtain ⟨k, hk⟩ := (C67_syntax t).2 h
      rw [hk] at hr; cases hr
    · have hacc := (C67_accuracy t v hv).1 c hr
      have b1 := c.toInt_lt; have b2 := c.le_toInt
      have b1' : (c.toInt : ℚ) ≤ 2147483647 := by exact_mod_cast (by omega : c.toInt ≤ 2147483647)
      have b2' : (-2147483648 : ℚ) ≤ (c.toInt : ℚ) := by exact_mod_cast (by omega : -2147483648 ≤ c.toInt)
      have he : textEps = 1 / 2 ^ 20 := rfl
      rw [he, abs_le] at hacc
      rcases le_abs.1 hlt with h | h
      · have := hacc.1; norm_num at this h; linarith
      · have := hacc.2; norm_num at this h; linarith

end Osmio.Opl
