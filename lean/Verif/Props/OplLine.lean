import Verif.Proofs.OplLine
/-!
# Property C68: lines of the OPL format

`src/opl/mod.rs` is not compiled into the crate; it is modelled as it is written (see `Model/Opl.lean`).
-/

namespace Osmio
open Osmio.Opl Osmio.Spec.Opl

/-- **C58**, decoding: every encoding of a string that the format allows, whichever characters are escaped and in
whichever case, is decoded to that string. -/
theorem C58_decode (s t : Str) (h : StringText s t) : decodeString t = some s := decodeString_text h

example : decodeString (str% "%61%b") = some (str% "ab") :=
  C58_decode _ _ (.escaped 'a' ['6', '1'] _ _ (.more ['6'] 6 '1' 1 (.one '6' 6 (by decide)) (by decide))
    (.plain 'b' _ _ ⟨by decide, by decide⟩ .nil))

/-- The fields of a line of the format. -/
theorem lineText_fields {name : Str → Str → Prop} (hname : ∀ s t, name s t → StringText s t) {kind : Char} {c : Common}
    {t : Str} (h : CommonText name kind c t) :
    ∃ user tags, name c.user user ∧ (∀ z ∈ user, isWhite z = false) ∧ TagsText c.tags tags ∧ (c.tags.map Prod.fst).Nodup ∧
      (∀ z ∈ c.timestamp, isWhite z = false) ∧
      ∀ f fs, t ++ ' ' :: joinSp (f :: fs) = joinSp (commonFields kind c user tags ++ f :: fs) := by
  obtain ⟨user, tags, hu, ht, hd, hts, rfl⟩ := h
  refine ⟨user, tags, hu, fun z hz => (text_chars (hname _ _ hu) z hz).1, ht, hd, fun z hz => (isWhite_false_iff _).2 (hts z hz).2, ?_⟩
  intro f fs
  simp only [commonFields, joinSp, List.cons_append, List.nil_append, List.append_assoc]

/-- **C68 (partial).** Every line that describes an object in the format is decoded to exactly that object, if
the user name and the roles are written without escapes and a way has nodes and a relation has members. The
tags may be escaped in any way, upper or lower case; coordinates may be any decimal number. The full property
has none of these conditions, see the counterexamples. -/
theorem C68_line_partial (o : Obj) (t : Str) (h : LineText Literal o t) (hc : HasContents o) :
    decodeLine t = .ok (some o) := by
  have hn : ∀ s t, Literal s t → StringText s t := fun _ _ => literal_text
  cases h with
  | node c lon lat t x y ht hx hy =>
    obtain ⟨user, tags, hu, hw, htt, hd, hts, he⟩ := lineText_fields hn ht
    have := (decodeLine_node hw htt hd hts hx hy).2
    rw [← he] at this
    simp only [joinSp] at this
    rw [hu.1] at this
    simpa using this
  | way c nodes t ns ht hns =>
    obtain ⟨user, tags, hu, hw, htt, hd, hts, he⟩ := lineText_fields hn ht
    have := (decodeLine_way hw htt hd hts hns).2
    rw [← he, if_neg (show ¬ nodes = [] from hc)] at this
    simp only [joinSp] at this
    rw [hu.1] at this
    simpa using this
  | relation c ms t m ht hm =>
    obtain ⟨user, tags, hu, hw, htt, hd, hts, he⟩ := lineText_fields hn ht
    have := (decodeLine_relation hw htt hd hts hm).2
    rw [← he, if_neg (show ¬ ms = [] from hc)] at this
    simp only [joinSp] at this
    rw [hu.1] at this
    simpa using this

/-- The fields of a line that describes an object. -/
theorem lineText_joinSp {o : Obj} {t : Str} (h : LineText Literal o t) :
    ∃ fs, t = joinSp fs ∧ fs ≠ [] ∧ ∀ f ∈ fs, FieldOk f := by
  have hn : ∀ s t, Literal s t → StringText s t := fun _ _ => literal_text
  cases h with
  | node c lon lat t x y ht hx hy =>
    obtain ⟨user, tags, hu, hw, htt, hd, hts, he⟩ := lineText_fields hn ht
    have hok := (decodeLine_node hw htt hd hts hx hy).1
    exact ⟨commonFields 'n' c user tags ++ [('x', x), ('y', y)], by rw [← he]; simp [joinSp], by simp, hok⟩
  | way c nodes t ns ht hns =>
    obtain ⟨user, tags, hu, hw, htt, hd, hts, he⟩ := lineText_fields hn ht
    have hok := (decodeLine_way hw htt hd hts hns).1
    exact ⟨commonFields 'w' c user tags ++ [('N', ns)], by rw [← he]; simp [joinSp], by simp, hok⟩
  | relation c ms t m ht hm =>
    obtain ⟨user, tags, hu, hw, htt, hd, hts, he⟩ := lineText_fields hn ht
    have hok := (decodeLine_relation hw htt hd hts hm).1
    exact ⟨commonFields 'r' c user tags ++ [('M', m)], by rw [← he]; simp [joinSp], by simp, hok⟩

/-- The bytes of such a line in a file are consumed and give that object. -/
theorem next_lineText {o : Obj} {t : Str} (h : LineText Literal o t) (hc : HasContents o) (rest : Source) :
    next ((Utf8.encode t ++ [10]).map some ++ rest) = (.ok (some o), rest) := by
  obtain ⟨fs, e, hne, hok⟩ := lineText_joinSp h
  rw [next_line e hne hok, C68_line_partial o t h hc]

/-- **C68 (partial).** White space before or after a line, such as the carriage return of a file with CRLF line ends, is
ignored, and the last line needs no newline. -/
theorem C68_white_space_partial (o : Obj) (t a b : Str) (h : LineText Literal o t) (hc : HasContents o)
    (ha : ∀ x ∈ a, White x ∧ x ≠ '\n') (hb : ∀ x ∈ b, White x ∧ x ≠ '\n') (rest : Source) :
    next ((Utf8.encode (a ++ t ++ b) ++ [10]).map some ++ rest) = (.ok (some o), rest) ∧
    next ((Utf8.encode (a ++ t ++ b)).map some) = (.ok (some o), []) := by
  obtain ⟨fs, e, hne, hok⟩ := lineText_joinSp h
  have := next_padded (a := a) (b := b) e hne hok (fun x hx => ⟨(isWhite_iff x).2 (ha x hx).1, (ha x hx).2⟩)
    (fun x hx => ⟨(isWhite_iff x).2 (hb x hx).1, (hb x hx).2⟩) rest
  rwa [C68_line_partial o t h hc] at this

example : ∀ x ∈ [Char.ofNat 13], White x ∧ x ≠ '\n' := by decide

/-- **C68 (partial)** for a file: a reader yields the objects of all lines, once and in order, and then the end. -/
theorem C68_file_partial (os : List Obj) (lines : List Str)
    (h : List.Forall₂ (fun o t => LineText Literal o t ∧ HasContents o) os lines) : Yields (fileOf lines) os := by
  induction h with
  | nil => exact .done [] [] rfl
  | @cons o t os ts ho _ ih =>
    refine .more _ (fileOf ts) o os ?_ ih
    exact next_lineText ho.1 ho.2 (fileOf ts)

/-- **C68, counterexample.** A user name with a character that has to be escaped never comes back: every line of the
format for such a node is decoded to some other object. -/
theorem C68_user_fails (c : Common) (lon : Option Lon) (lat : Option Lat) (t : Str)
    (h : LineText StringText (.node c lon lat) t) (hu : ∃ x ∈ c.user, x ∈ [' ', '\n', ',', '=', '@']) :
    ∃ o, decodeLine t = .ok (some o) ∧ o ≠ .node c lon lat := by
  obtain ⟨x, hx, hsp⟩ := hu
  cases h with
  | node _ _ _ t x' y ht hx' hy =>
    obtain ⟨user, tags, hus, hw, htt, hd, hts, he⟩ := lineText_fields (fun _ _ h => h) ht
    have hdec := (decodeLine_node hw htt hd hts hx' hy).2
    rw [← he] at hdec
    simp only [joinSp] at hdec
    refine ⟨_, by simpa using hdec, ?_⟩
    intro e
    have e1 : user = c.user := by
      have := congrArg (fun o => match o with | Obj.node c _ _ => c.user | _ => []) e
      exact this
    rw [← e1] at hx
    exact (text_chars hus x hx).2 hsp

/-- **C68, counterexample.** A way without nodes, such as a deleted one, is an error. -/
theorem C68_empty_way_fails (c : Common) (t : Str) (h : LineText Literal (.way c []) t) : decodeLine t = .ok none := by
  cases h with
  | way _ _ t ns ht hns =>
    obtain ⟨user, tags, hu, hw, htt, hd, hts, he⟩ := lineText_fields (fun _ _ => literal_text) ht
    have := (decodeLine_way hw htt hd hts hns).2
    rw [← he, if_pos rfl] at this
    simp only [joinSp] at this
    simpa using this

/-- **C68, counterexample.** An error in a line looks like the end of the file: whatever follows a way without nodes is
not read by a caller who stops at the first `None`. -/
theorem C68_stream_fails (c : Common) (t : Str) (h : LineText Literal (.way c []) t) (lines : List Str) :
    Yields (fileOf (t :: lines)) [] := by
  have hdec := C68_empty_way_fails c t h
  cases h with
  | way _ _ t ns ht hns =>
    obtain ⟨user, tags, hu, hw, htt, hd, hts, he⟩ := lineText_fields (fun _ _ => literal_text) ht
    have hok := (decodeLine_way hw htt hd hts hns).1
    refine .done _ (fileOf lines) ?_
    have := next_line (l := t ++ str% " N" ++ ns) (fs := commonFields 'w' c user tags ++ [('N', ns)])
      (by rw [← he]; simp [joinSp]) (by simp) hok (fileOf lines)
    rw [hdec] at this
    exact this

/-- **C68.** A node with something that is not a coordinate is refused, not read as a node somewhere else or without
coordinates. -/
theorem C68_bad_coordinate (c : Common) (t x y : Str) (h : CommonText StringText 'n' c t)
    (hx : ∀ z ∈ x, ¬ White z) (hy : ∀ z ∈ y, ¬ White z) (hbad : NoCoord x ∨ NoCoord y) :
    decodeLine (t ++ str% " x" ++ x ++ str% " y" ++ y) = .ok none := by
  obtain ⟨user, tags, hu, hw, htt, hd, hts, he⟩ := lineText_fields (fun _ _ h => h) h
  have := decodeLine_bad_coord hw htt hd hts (fun z hz => (isWhite_false_iff z).2 (hx z hz))
    (fun z hz => (isWhite_false_iff z).2 (hy z hz)) (hbad.imp noCoord_parse noCoord_parse)
  rw [← he] at this
  simp only [joinSp] at this
  simpa using this

example : NoCoord (str% "300") := by
  refine ⟨by decide, Or.inr ⟨300, ⟨[], str% "300", [], [], [], 0, rfl, by simp, by simp, by simp, by decide, by simp, .none, ?_⟩, ?_⟩⟩
  · have : Spec.number (str% "300" ++ []) = 300 := by decide
    rw [this]; norm_num
  · norm_num [abs_of_pos]

/-! ## Texts that are not in the format -/

theorem spec_of_hexVal {c : Char} {d : Nat} (h : hexVal? c = some d) : Spec.Opl.hexDigit c = some d := by
  have le : ∀ a b : Char, a ≤ b ↔ a.toNat ≤ b.toNat := fun a b => by
    rw [Char.le_def, UInt32.le_iff_toNat_le]; rfl
  unfold hexVal? at h
  unfold Spec.Opl.hexDigit
  simp only [le, show '0'.toNat = 48 from rfl, show '9'.toNat = 57 from rfl, show 'a'.toNat = 97 from rfl,
    show 'f'.toNat = 102 from rfl, show 'A'.toNat = 65 from rfl, show 'F'.toNat = 70 from rfl]
  split at h
  · rw [if_pos (by assumption)]; exact h
  · rw [if_neg (by assumption)]
    split at h
    · rename_i hc
      rw [if_neg (by omega), if_pos hc]
      simp only [Option.some.injEq] at h ⊢; omega
    · split at h
      · rename_i hc
        rw [if_pos hc]
        simp only [Option.some.injEq] at h ⊢; omega
      · cases h

theorem hexOf_of_digits {h : Str} (hne : h ≠ []) {n : Nat} (hv : hexDigitsVal 0 h = some n) : HexOf h n := by
  induction h using List.reverseRecOn generalizing n with
  | nil => exact absurd rfl hne
  | append_singleton h c ih =>
    rw [hexDigitsVal_append] at hv
    cases h with
    | nil =>
      simp only [hexDigitsVal, Option.bind_some] at hv
      cases hc : hexVal? c with
      | none => rw [hc] at hv; cases hv
      | some d =>
        rw [hc] at hv
        simp only [Nat.mul_zero, Nat.zero_add, Option.some.injEq] at hv
        subst hv
        exact .one c d (spec_of_hexVal hc)
    | cons x r =>
      cases hr : hexDigitsVal 0 (x :: r) with
      | none => rw [hr] at hv; cases hv
      | some m =>
        rw [hr] at hv
        simp only [hexDigitsVal, Option.bind_some] at hv
        cases hc : hexVal? c with
        | none => rw [hc] at hv; cases hv
        | some d =>
          rw [hc] at hv
          simp only [Option.some.injEq] at hv
          subst hv
          exact .more _ _ _ _ (ih (by simp) hr) (spec_of_hexVal hc)

theorem escapedChar_iff (buf : Str) (c : Char) :
    escapedChar buf = some c ↔ ∃ sign ∈ ([[], ['+']] : List Str), ∃ h, buf = sign ++ h ∧ HexOf h c.toNat := by
  have hlt : c.toNat < 4294967296 := lt_trans (Utf8.char_lt c) (by norm_num)
  constructor
  · intro h
    have hsp : ∃ sign ∈ ([[], ['+']] : List Str), buf = sign ++ stripPlus buf := by
      unfold stripPlus
      split
      · exact ⟨['+'], by simp, rfl⟩
      · exact ⟨[], by simp, rfl⟩
    obtain ⟨sign, hs, he⟩ := hsp
    refine ⟨sign, hs, stripPlus buf, he, ?_⟩
    unfold escapedChar at h
    cases hp : parseHex buf with
    | none => rw [hp] at h; cases h
    | some n =>
      rw [hp] at h
      simp only at h
      split at h
      · rename_i hval
        have hn : c.toNat = n := by
          rw [← Option.some.inj h]; rw [Char.ofNat, dif_pos hval]; rfl
        unfold parseHex at hp
        generalize stripPlus buf = t at hp ⊢
        cases t with
        | nil => cases hp
        | cons x r =>
          simp only at hp
          cases hd : hexDigitsVal 0 (x :: r) with
          | none => rw [hd] at hp; cases hp
          | some m =>
            rw [hd] at hp
            simp only at hp
            split at hp
            · rw [hn, ← Option.some.inj hp]
              exact hexOf_of_digits (by simp) hd
            · cases hp
      · cases h
  · rintro ⟨sign, hs, h, rfl, hx⟩
    simp only [List.mem_cons, List.not_mem_nil, or_false] at hs
    rcases hs with rfl | rfl
    · exact escapedChar_hexOf hx
    · have := escapedChar_hexOf hx
      obtain ⟨hne, hv, hc⟩ := hexOf_facts hx
      unfold escapedChar at this ⊢
      have e : parseHex (['+'] ++ h) = parseHex h := by
        unfold parseHex
        have e1 : stripPlus (['+'] ++ h) = h := rfl
        have e2 : stripPlus h = h := by
          cases h with
          | nil => rfl
          | cons x r =>
            obtain ⟨d, hd⟩ := hc x (by simp)
            unfold stripPlus; split
            · rename_i heq; exact absurd (List.cons.inj heq).1 (hexVal_chars hd).2.1
            · rfl
        rw [e1, e2]
      rw [e]; exact this

theorem escapedChar_none {h : Str} (hb : NoEscape h) : escapedChar h = none := by
  cases he : escapedChar h with
  | none => rfl
  | some c =>
    obtain ⟨sign, hs, d, e, hx⟩ := (escapedChar_iff h c).1 he
    exact absurd hx (hb.2 sign hs d e c)

theorem decodeFrom_open_cut {t : Str} (h : '%' ∉ t) (buf : Str) : decodeFrom (some buf) t = some [] := by
  induction t generalizing buf with
  | nil => rfl
  | cons c t ih => rw [decodeFrom, if_neg (fun e => h (by simp [e])), ih fun hm => h (List.mem_cons_of_mem _ hm)]

/-- **C58**, decoding, exactly: what the decoder makes of any text. -/
theorem C58_decode_exact (s t : Str) : decodeString t = some s ↔ LenientText s t := by
  unfold decodeString
  constructor
  · intro h
    induction hn : t.length using Nat.strong_induction_on generalizing s t with
    | _ n ih =>
      cases t with
      | nil => rw [decodeFrom] at h; rw [← Option.some.inj h]; exact .nil
      | cons c t =>
        by_cases hc : c = '%'
        · subst hc
          rw [decodeFrom, if_pos rfl] at h
          by_cases hm : '%' ∈ t
          · obtain ⟨a, b, rfl, ha⟩ := List.eq_append_cons_of_mem hm
            rw [decodeFrom_buffer ha, List.nil_append] at h
            cases he : escapedChar a with
            | none => rw [he] at h; cases h
            | some x =>
              rw [he] at h
              simp only at h
              cases hb : decodeFrom none b with
              | none => rw [hb] at h; cases h
              | some s' =>
                rw [hb] at h
                obtain ⟨sign, hs, d, rfl, hx⟩ := (escapedChar_iff a x).1 he
                rw [← Option.some.inj h]
                exact .escaped x sign d s' b hs hx (ih b.length (by subst hn; simp; omega) s' b hb rfl)
          · rw [decodeFrom_open_cut hm] at h
            rw [← Option.some.inj h]
            exact .cut t hm
        · rw [decodeFrom, if_neg hc] at h
          cases hb : decodeFrom none t with
          | none => rw [hb] at h; cases h
          | some s' =>
            rw [hb] at h
            rw [← Option.some.inj h]
            exact .plain c s' t hc (ih t.length (by subst hn; simp) s' t hb rfl)
  · intro h
    induction h with
    | nil => rfl
    | plain c s t hc _ ih => rw [decodeFrom, if_neg hc, ih]; rfl
    | escaped c sign h s t hs hx _ ih =>
      have hh : '%' ∉ sign ++ h := by
        intro hm
        rcases List.mem_append.mp hm with hm | hm
        · simp only [List.mem_cons, List.not_mem_nil, or_false] at hs
          rcases hs with rfl | rfl <;> revert hm <;> decide
        · obtain ⟨-, -, hc⟩ := hexOf_facts hx
          obtain ⟨d, hd⟩ := hc _ hm; exact (hexVal_chars hd).1 rfl
      rw [decodeFrom, if_pos rfl, decodeFrom_buffer hh, List.nil_append, (escapedChar_iff _ c).2 ⟨sign, hs, h, rfl, hx⟩]
      simp only; rw [ih]; rfl
    | cut t hm => rw [decodeFrom, if_pos rfl, decodeFrom_open_cut hm]

/-- A text with something between percent signs that is not an escape is refused. -/
theorem decodeString_bad {s t h r : Str} (ht : StringText s t) (hb : NoEscape h) :
    decodeString (t ++ '%' :: (h ++ '%' :: r)) = none := by
  unfold decodeString
  induction ht with
  | nil => rw [List.nil_append, decodeFrom, if_pos rfl, decodeFrom_buffer hb.1, List.nil_append, escapedChar_none hb]
  | plain c s t hp _ ih =>
    have : c ≠ '%' := fun e => hp.1 (by simp [e])
    rw [List.cons_append, decodeFrom, if_neg this, ih]; rfl
  | escaped c d s t hx _ ih =>
    obtain ⟨-, -, hc⟩ := hexOf_facts hx
    have hh : '%' ∉ d := by
      intro hm; obtain ⟨x, hd⟩ := hc _ hm; exact (hexVal_chars hd).1 rfl
    rw [List.cons_append, List.append_assoc, List.cons_append, decodeFrom, if_pos rfl, decodeFrom_buffer hh, List.nil_append, escapedChar_hexOf hx]
    simp only; rw [ih]; rfl

theorem decodePairs_bad (m : List (Str × Str)) {l : List (Str × Str)} {ts : List Str} (h : List.Forall₂ TagText l ts)
    {bad : Str} (hb : ∀ m r, decodePairs m (bad :: r) = .ok none) (r : List Str) : decodePairs m (ts ++ bad :: r) = .ok none := by
  induction h generalizing m with
  | nil => exact hb m r
  | @cons kv t l ts ht _ ih =>
    obtain ⟨k, v⟩ := kv
    obtain ⟨kt, vt, hk, hv, rfl⟩ := ht
    have hsp : splitOnce '=' (kt ++ '=' :: vt) = (kt, some vt) :=
      splitOnce_append '=' (fun hm => (text_chars hk _ hm).2 (by simp)) _
    rw [List.cons_append]
    simp only [decodePairs, hsp, decodeString_text hk, decodeString_text hv]
    exact ih _

theorem commaList_split_more {α : Type} {item : α → Str → Prop} {as : List α} {t : Str}
    (h : CommaList item as t) (hc : ∀ a t, item a t → ',' ∉ t) (r : Str) :
    ∃ ts, List.Forall₂ item as ts ∧ split ',' (t ++ ',' :: r) = ts ++ split ',' r := by
  induction h with
  | one a t ha => exact ⟨[t], .cons ha .nil, by rw [split_append ',' (hc a t ha)]; rfl⟩
  | more a t as ts ha _ ih =>
    obtain ⟨us, h1, h2⟩ := ih
    exact ⟨t :: us, .cons ha h1, by rw [List.append_assoc, List.cons_append, split_append ',' (hc a t ha), h2]; rfl⟩

theorem decodeTags_bad {tags : List (Str × Str)} {t : Str} (ht : TagsText tags t) (hne : tags ≠ []) {bad : Str} (hcomma : ',' ∉ bad)
    (hb : ∀ m r, decodePairs m (bad :: r) = .ok none) : decodeTags (t ++ ',' :: bad) = .ok none := by
  rcases ht with ⟨rfl, -⟩ | ht
  · exact absurd rfl hne
  · obtain ⟨ts, h1, h2⟩ := commaList_split_more ht tagText_comma bad
    unfold decodeTags
    rw [if_neg (by simp), h2, split_none ',' hcomma]
    exact decodePairs_bad [] h1 hb []

theorem joinSp_flat (f : Char × Str) (fs : List (Char × Str)) :
    joinSp (f :: fs) = f.1 :: f.2 ++ fs.flatMap (fun f => ' ' :: f.1 :: f.2) := by
  induction fs generalizing f with
  | nil => simp [joinSp]
  | cons g fs ih =>
    have e : joinSp (f :: g :: fs) = f.1 :: (f.2 ++ ' ' :: joinSp (g :: fs)) := rfl
    rw [e, ih g]; simp

/-- **C68.** A tag with something between percent signs that is not the number of a character is refused: the line is an
error, not an object without the tag, with another one, or a panic. Whatever fields follow. -/
theorem C68_bad_tag (kind : Char) (hk : kind ∈ ['n', 'w', 'r']) (c : Common) (t : Str) (h : CommonText StringText kind c t)
    (hne : c.tags ≠ []) (k v kt vt bad rest : Str) (hkt : StringText k kt) (hvt : StringText v vt) (hb : NoEscape bad)
    (hw : ∀ x ∈ bad ++ rest, ¬ White x ∧ x ≠ ',' ∧ x ≠ '=') (tag : Str)
    (htag : tag = kt ++ '=' :: (vt ++ '%' :: (bad ++ '%' :: rest)) ∨ tag = kt ++ '%' :: (bad ++ '%' :: (rest ++ '=' :: vt)))
    (fs : List (Char × Str)) (hfs : ∀ f ∈ fs, f.1.toNat < 128 ∧ ∀ x ∈ f.1 :: f.2, ¬ White x) :
    decodeLine (t ++ ',' :: tag ++ fs.flatMap fun f => ' ' :: f.1 :: f.2) = .ok none := by
  obtain ⟨user, tags, hu, ht, hd, hts, rfl⟩ := h
  have hpart : ∀ m r, decodePairs m (tag :: r) = .ok none := by
    intro m r
    rcases htag with rfl | rfl
    · have hsp : splitOnce '=' (kt ++ '=' :: (vt ++ '%' :: (bad ++ '%' :: rest))) =
          (kt, some (vt ++ '%' :: (bad ++ '%' :: rest))) :=
        splitOnce_append '=' (fun hm => (text_chars hkt _ hm).2 (by simp)) _
      simp only [decodePairs, hsp, decodeString_text hkt, decodeString_bad hvt hb]
    · have hsp : splitOnce '=' ((kt ++ '%' :: (bad ++ '%' :: rest)) ++ '=' :: vt) = (kt ++ '%' :: (bad ++ '%' :: rest), some vt) := by
        refine splitOnce_append '=' (fun hm => ?_) _
        simp only [List.mem_append, List.mem_cons] at hm
        rcases hm with hm | hm | hm | hm | hm
        · exact (text_chars hkt _ hm).2 (by simp)
        · exact absurd hm (by decide)
        · exact (hw _ (List.mem_append_left _ hm)).2.2 rfl
        · exact absurd hm (by decide)
        · exact (hw _ (List.mem_append_right _ hm)).2.2 rfl
      have e : kt ++ '%' :: (bad ++ '%' :: (rest ++ '=' :: vt)) = (kt ++ '%' :: (bad ++ '%' :: rest)) ++ '=' :: vt := by simp
      rw [e]
      simp only [decodePairs, hsp, decodeString_bad hkt hb]
  have hchars : ∀ x ∈ tag, isWhite x = false ∧ x ≠ ',' := by
    have hK := text_chars hkt
    have hV := text_chars hvt
    have hB : ∀ x ∈ bad, isWhite x = false ∧ x ≠ ',' := fun x hx =>
      ⟨(isWhite_false_iff x).2 (hw x (List.mem_append_left _ hx)).1, (hw x (List.mem_append_left _ hx)).2.1⟩
    have hR : ∀ x ∈ rest, isWhite x = false ∧ x ≠ ',' := fun x hx =>
      ⟨(isWhite_false_iff x).2 (hw x (List.mem_append_right _ hx)).1, (hw x (List.mem_append_right _ hx)).2.1⟩
    have hK' : ∀ x ∈ kt, isWhite x = false ∧ x ≠ ',' := fun x hx => ⟨(hK x hx).1, fun e => (hK x hx).2 (by simp [e])⟩
    have hV' : ∀ x ∈ vt, isWhite x = false ∧ x ≠ ',' := fun x hx => ⟨(hV x hx).1, fun e => (hV x hx).2 (by simp [e])⟩
    intro x hx
    rcases htag with rfl | rfl
    · simp only [List.mem_append, List.mem_cons] at hx
      rcases hx with hx | rfl | hx | rfl | hx | rfl | hx
      · exact hK' x hx
      · decide
      · exact hV' x hx
      · decide
      · exact hB x hx
      · decide
      · exact hR x hx
    · simp only [List.mem_append, List.mem_cons] at hx
      rcases hx with hx | rfl | hx | rfl | hx | rfl | hx
      · exact hK' x hx
      · decide
      · exact hB x hx
      · decide
      · exact hR x hx
      · decide
      · exact hV' x hx
  have hdec := decodeTags_bad ht hne (fun hm => (hchars _ hm).2 rfl) hpart
  have hok : ∀ f ∈ commonFields kind c user (tags ++ ',' :: tag) ++ fs, FieldOk f := by
    intro f hf
    rcases List.mem_append.mp hf with hf | hf
    · refine commonFields_ok hk (fun z hz => (text_chars hu z hz).1) ?_ (fun z hz => (isWhite_false_iff z).2 (hts z hz).2) f hf
      intro x hx
      rcases List.mem_append.mp hx with hx | hx
      · exact tagsText_chars ht x hx
      · rcases List.mem_cons.mp hx with rfl | hx
        · decide
        · exact (hchars x hx).1
    · exact ⟨(hfs f hf).1, fun x hx => (isWhite_false_iff x).2 ((hfs f hf).2 x hx)⟩
  have hline : joinSp (commonFields kind c user (tags ++ ',' :: tag) ++ fs) =
      kind :: i64Str c.id ++ str% " v" ++ u32Str c.version ++ str% " d" ++ (if c.deleted then ['D'] else ['V']) ++
      str% " c" ++ u32Str c.changesetId ++ str% " t" ++ c.timestamp ++ str% " i" ++ u32Str c.uid ++
      str% " u" ++ user ++ str% " T" ++ tags ++ ',' :: tag ++ fs.flatMap fun f => ' ' :: f.1 :: f.2 := by
    rw [commonFields, List.cons_append, joinSp_flat]
    simp
  rw [← hline]
  unfold decodeLine
  rw [splitItems_joinSp (by simp [commonFields]) hok, List.map_append]
  have h7 := field7 kind c user (tags ++ ',' :: tag) (fs.map fun f => ([f.1], f.2))
  simp only [List.mem_cons, List.not_mem_nil, or_false] at hk
  have hfst : ∃ p r, (commonFields kind c user (tags ++ ',' :: tag)).map (fun f => ([f.1], f.2)) ++ fs.map (fun f => ([f.1], f.2))
      = ([kind], p) :: r := ⟨_, _, rfl⟩
  obtain ⟨p, r, hfst⟩ := hfst
  rw [hfst] at h7 ⊢
  rcases hk with rfl | rfl | rfl
  · refine (if_pos rfl).trans ?_
    unfold decodeNode; rw [h7]; simp only; rw [hdec]
  · refine (if_neg (by decide)).trans ((if_pos rfl).trans ?_)
    unfold decodeWay; rw [h7]; simp only; rw [hdec]
  · refine (if_neg (by decide)).trans ((if_neg (by decide)).trans ((if_pos rfl).trans ?_))
    unfold decodeRelation; rw [h7]; simp only; rw [hdec]

/-- `%zz%` is not an escape, and neither is the number of no character. -/
example : NoEscape (str% "zz") ∧ NoEscape (str% "d800") := by
  have key : ∀ h : Str, '%' ∉ h → escapedChar h = none → NoEscape h := by
    intro h h1 h2
    refine ⟨h1, fun sign hs d e c hx => ?_⟩
    have := (escapedChar_iff h c).2 ⟨sign, hs, d, e, hx⟩
    rw [h2] at this; cases this
  exact ⟨key _ (by decide) (by decide +kernel), key _ (by decide) (by decide +kernel)⟩

example : decodeLine (str% "w17 v2 dV c5 t i3 ubob Ta=b,c=%zz% Nn1") = .ok none := by decide +kernel

/-- **C68.** An error of the source in the middle of a line, and a line that is not UTF-8, look like the end of the file;
the reader does not panic, and goes on after the line if it is asked again. -/
theorem C68_source_errors (bs : List UInt8) (hn : (10 : UInt8) ∉ bs) (rest : Source) :
    next (bs.map some ++ none :: rest) = (.ok none, rest) ∧
    (Utf8.decode (bs ++ [10]) = none → next ((bs ++ [10]).map some ++ rest) = (.ok none, rest)) ∧
    (Utf8.decode bs = none → next (bs.map some) = (.ok none, [])) := by
  refine ⟨?_, fun hu => ?_, fun hu => ?_⟩
  · unfold next; rw [takeLine_fault hn]
  · unfold next; rw [takeLine_bytes hn]; simp only; rw [hu]
  · unfold next; rw [takeLine_end hn]; simp only; rw [hu]

example : Utf8.decode ([0xff] ++ [10]) = none := by decide +kernel

/-- **C68, counterexample.** A line with too few fields makes the reader panic. -/
theorem C68_short_line_fails : decodeLine (str% "n1 v1") = .error .index ∧ decodeLine (str% "w5") = .error .index := by
  decide +kernel

/-- The decoder does not panic on lines of the format (partial: with the conditions of `C68_line_partial`); a concrete
line, with a tag value that is escaped in lower case. -/
example : decodeLine (str% "n17 v2 dV c5 t2020-01-01T00:00:00Z i3 ubob Tname=a%20%b%2c%c x-1.5 y2.50") =
    .ok (some (.node ⟨17, 2, false, 5, str% "2020-01-01T00:00:00Z", 3, str% "bob", [(str% "name", str% "a b,c")]⟩
      (some ⟨-15000000⟩) (some ⟨25000000⟩))) := by
  refine C68_line_partial _ _ (.node _ _ _
    (str% "n17 v2 dV c5 t2020-01-01T00:00:00Z i3 ubob Tname=a%20%b%2c%c") (str% "-1.5") (str% "2.50") ?_ ?_ ?_) trivial
  · have plain : ∀ s : Str, (∀ c ∈ s, (decide (c ∉ [' ', '\n', ',', '=', '@', '%']) && !decide (White c)) = true) → ∀ c ∈ s, Plain c := by
      intro s h c hc
      have := h c hc
      simp only [Bool.and_eq_true, decide_eq_true_eq, Bool.not_eq_true', decide_eq_false_iff_not] at this
      exact this
    have hex : ∀ (c d : Char) (n m : Nat), Spec.Opl.hexDigit c = some n → Spec.Opl.hexDigit d = some m → HexOf [c, d] (16 * n + m) :=
      fun c d n m h1 h2 => .more [c] n d m (.one c n h1) h2
    refine ⟨str% "bob", str% "name=a%20%b%2c%c", ⟨rfl, plain _ (by decide)⟩, Or.inr (.one _ _ ?_), by simp, plain _ (by decide), by decide +kernel⟩
    refine ⟨str% "name", str% "a%20%b%2c%c", literal_text ⟨rfl, plain _ (by decide)⟩, ?_, rfl⟩
    refine .plain 'a' _ _ (plain ['a'] (by decide) _ (by simp)) ?_
    refine .escaped ' ' ['2', '0'] _ _ (hex _ _ 2 0 (by decide) (by decide)) ?_
    refine .plain 'b' _ _ (plain ['b'] (by decide) _ (by simp)) ?_
    refine .escaped ',' ['2', 'c'] _ _ (hex _ _ 2 12 (by decide) (by decide)) ?_
    exact .plain 'c' _ _ (plain ['c'] (by decide) _ (by simp)) .nil
  · refine ⟨['-'], ['1'], ['.'], ['5'], [], 0, rfl, by simp, by simp, by simp, by decide, by decide, .none, ?_⟩
    have h1 : Int32.toInt (-15000000) = -15000000 := by decide
    have h2 : Spec.number (['1'] ++ ['5']) = 15 := by decide
    simp only [h1, h2]; norm_num
  · refine ⟨[], ['2'], ['.'], ['5', '0'], [], 0, rfl, by simp, by simp, by simp, by decide, by decide, .none, ?_⟩
    have h1 : Int32.toInt 25000000 = 25000000 := by decide
    have h2 : Spec.number (['2'] ++ ['5', '0']) = 250 := by decide
    simp only [h1, h2]; norm_num

end Osmio
