import Verif.Proofs.Opl
/-! # Lemmas: a percent sign is never decoded to itself

The number of characters from U+0010 on never grows when an encoded string is decoded, and it shrinks with a percent sign in the string.
-/

namespace Osmio.Opl

/-- The number of characters from U+0010 on. -/
def weight (s : Str) : Nat := s.countP fun c => 16 ≤ c.toNat

theorem weight_nil : weight [] = 0 := rfl
theorem weight_cons (c : Char) (s : Str) : weight (c :: s) = weight s + if 16 ≤ c.toNat then 1 else 0 := by
  simp [weight, List.countP_cons]
theorem weight_append (a b : Str) : weight (a ++ b) = weight a + weight b := by simp [weight]

theorem hexVal_big {c : Char} {d : Nat} (h : hexVal? c = some d) : 16 ≤ c.toNat ∧ d < 16 := by
  unfold hexVal? at h
  split at h
  · simp at h; omega
  · split at h
    · simp at h; omega
    · split at h
      · simp at h; omega
      · cases h

theorem hexDigitsVal_weight {s : Str} {acc n : Nat} (h : hexDigitsVal acc s = some n) : weight s = s.length := by
  induction s generalizing acc with
  | nil => rfl
  | cons c s ih =>
    rw [hexDigitsVal] at h
    cases hc : hexVal? c with
    | none => rw [hc] at h; cases h
    | some d =>
      simp only [hc] at h
      rw [weight_cons, ih h, if_pos (hexVal_big hc).1, List.length_cons]

theorem escapedChar_weight {buf : Str} {c : Char} (h : escapedChar buf = some c) :
    (if 16 ≤ c.toNat then 1 else 0) + 1 ≤ weight buf := by
  unfold escapedChar at h
  cases hp : parseHex buf with
  | none => rw [hp] at h; cases h
  | some n =>
    simp only [hp] at h
    have hn : c.toNat = n := by
      split at h
      · rename_i hv
        cases h
        rw [Char.ofNat, dif_pos hv]
        simp [Char.ofNatAux, Char.toNat]
      · cases h
    unfold parseHex at hp
    have hw : weight (stripPlus buf) ≤ weight buf := by
      unfold stripPlus
      split
      · rw [weight_cons]; omega
      · exact Nat.le_refl _
    cases hs : stripPlus buf with
    | nil => rw [hs] at hp; cases hp
    | cons d ds =>
      rw [hs] at hw
      simp only [hs] at hp
      cases hv : hexDigitsVal 0 (d :: ds) with
      | none => rw [hv] at hp; cases hp
      | some m =>
        simp only [hv] at hp
        have hm : m = n := by
          split at hp
          · exact Option.some.inj hp
          · cases hp
        have hl := hexDigitsVal_weight hv
        rw [List.length_cons] at hl
        cases ds with
        | nil =>
          have : m < 16 := by
            rw [hexDigitsVal] at hv
            cases hd : hexVal? d with
            | none => rw [hd] at hv; cases hv
            | some x =>
              simp only [hd, hexDigitsVal, Option.some.injEq] at hv
              have := (hexVal_big hd).2
              omega
          rw [if_neg (by omega)]
          omega
        | cons _ _ =>
          rw [List.length_cons] at hl
          split <;> omega

theorem decodeFrom_close (buf r : Str) : decodeFrom (some buf) ('%' :: r) =
    (escapedChar buf).bind fun x => (decodeFrom none r).map (x :: ·) := by
  rw [decodeFrom, if_pos rfl]
  cases escapedChar buf <;> rfl

theorem decodeFrom_open (r : Str) : decodeFrom none ('%' :: r) = decodeFrom (some []) r := by
  rw [decodeFrom, if_pos rfl]

theorem decodeFrom_plain {c : Char} (h : c ≠ '%') (r : Str) : decodeFrom none (c :: r) = (decodeFrom none r).map (c :: ·) := by
  rw [decodeFrom, if_neg h]

/-- The digits of a special character. -/
theorem escape_digits {c : Char} (h : Special c) : ∃ ds : Str, escape c = '%' :: (ds ++ ['%']) ∧ '%' ∉ ds ∧
    weight ds ≤ 1 + if 16 ≤ c.toNat then 1 else 0 := by
  rcases h with h | h | h | h | h <;> subst h
  · exact ⟨['2', '0'], escape_space, by decide, by decide⟩
  · exact ⟨['A'], escape_newline, by decide, by decide⟩
  · exact ⟨['2', 'C'], escape_comma, by decide, by decide⟩
  · exact ⟨['3', 'D'], escape_equals, by decide, by decide⟩
  · exact ⟨['4', '0'], escape_at, by decide, by decide⟩

theorem decodeFrom_plains {ds : Str} (h : '%' ∉ ds) (r : Str) : decodeFrom none (ds ++ r) = (decodeFrom none r).map (ds ++ ·) := by
  induction ds with
  | nil => simp
  | cons c ds ih =>
    rw [List.cons_append, decodeFrom_plain (fun e => h (by simp [e])), ih fun hm => h (List.mem_cons_of_mem _ hm), Option.map_map]
    rfl

theorem decode_weight (s : Str) :
    (∀ t, decodeFrom none (encodeString s) = some t → weight t ≤ weight s ∧ ('%' ∈ s → weight t < weight s)) ∧
    ∀ buf t, decodeFrom (some buf) (encodeString s) = some t → weight t ≤ weight s + weight buf := by
  induction s with
  | nil =>
    rw [encodeString_nil]
    refine ⟨fun t h => ?_, fun buf t h => ?_⟩
    · rw [decodeFrom] at h
      cases h
      simp
    · rw [decodeFrom] at h
      cases h
      rw [weight_nil]; omega
  | cons c s ih =>
    obtain ⟨ihn, ihs⟩ := ih
    rw [encodeString_cons]
    by_cases hp : c = '%'
    · subst hp
      have he : enc1 '%' = ['%'] := by decide
      rw [he, List.singleton_append]
      refine ⟨fun t h => ?_, fun buf t h => ?_⟩
      · rw [decodeFrom_open] at h
        have := ihs _ _ h
        rw [weight_nil] at this
        rw [weight_cons, if_pos (by decide)]
        exact ⟨by omega, fun _ => by omega⟩
      · rw [decodeFrom_close] at h
        obtain ⟨x, hx, h⟩ := Option.bind_eq_some_iff.1 h
        obtain ⟨t', ht, rfl⟩ := Option.map_eq_some_iff.1 h
        have h1 := escapedChar_weight hx
        have h2 := (ihn _ ht).1
        rw [weight_cons, weight_cons]
        omega
    · refine ⟨fun t h => ?_, fun buf t h => ?_⟩
      · rw [decodeFrom_enc1 hp] at h
        obtain ⟨t', ht, rfl⟩ := Option.map_eq_some_iff.1 h
        obtain ⟨h1, h2⟩ := ihn _ ht
        rw [weight_cons, weight_cons]
        refine ⟨by omega, fun hm => ?_⟩
        have := h2 ((List.mem_cons.1 hm).resolve_left (Ne.symm hp))
        omega
      · by_cases hs : Special c
        · obtain ⟨ds, he, hd, hw⟩ := escape_digits hs
          rw [enc1, if_pos hs, he, List.cons_append, decodeFrom_close] at h
          obtain ⟨x, hx, h⟩ := Option.bind_eq_some_iff.1 h
          obtain ⟨t', ht, rfl⟩ := Option.map_eq_some_iff.1 h
          rw [List.append_assoc, decodeFrom_plains hd, List.singleton_append, decodeFrom_open] at ht
          obtain ⟨t'', ht', rfl⟩ := Option.map_eq_some_iff.1 ht
          have h1 := escapedChar_weight hx
          have h2 := ihs _ _ ht'
          rw [weight_nil] at h2
          rw [weight_cons, weight_append, weight_cons]
          omega
        · rw [enc1, if_neg hs, List.singleton_append, decodeFrom, if_neg hp] at h
          have := ihs _ _ h
          rw [weight_append, weight_cons, weight_nil] at this
          rw [weight_cons]
          omega

theorem decode_encode_iff (s : Str) : decodeString (encodeString s) = some s ↔ '%' ∉ s := by
  refine ⟨fun h hm => ?_, decode_encode⟩
  exact absurd ((((decode_weight s).1 s h).2) hm) (Nat.lt_irrefl _)

/-! ## Tags -/

/-- The number of characters from U+0010 on in all keys and values. -/
def tagWeight (m : List (Str × Str)) : Nat := (m.map fun p => weight p.1 + weight p.2).sum

theorem tagWeight_cons (p : Str × Str) (m : List (Str × Str)) : tagWeight (p :: m) = weight p.1 + weight p.2 + tagWeight m := by
  simp [tagWeight]

theorem tagWeight_append (a b : List (Str × Str)) : tagWeight (a ++ b) = tagWeight a + tagWeight b := by simp [tagWeight]

theorem tagWeight_filter (p : Str × Str → Bool) (m : List (Str × Str)) : tagWeight (m.filter p) ≤ tagWeight m := by
  induction m with
  | nil => exact Nat.le_refl _
  | cons x m ih =>
    rw [List.filter_cons, tagWeight_cons]
    split
    · rw [tagWeight_cons]; omega
    · omega

theorem tagWeight_insert (m : List (Str × Str)) (k v : Str) : tagWeight (insert m k v) ≤ tagWeight m + (weight k + weight v) := by
  rw [insert, tagWeight_append, tagWeight_cons]
  have := tagWeight_filter (fun p => p.1 != k) m
  show _ + (weight k + weight v + 0) ≤ _
  omega

theorem encodeTags_comma (tags : List (Str × Str)) :
    ∀ s ∈ tags.map (fun kv => encodeString kv.1 ++ '=' :: encodeString kv.2), ',' ∉ s := by
  intro s hs hm
  obtain ⟨kv, _, rfl⟩ := List.mem_map.mp hs
  rw [List.mem_append, List.mem_cons] at hm
  rcases hm with hm | hm | hm
  · exact encodeString_chars hm (by simp [Special])
  · exact absurd hm (by decide)
  · exact encodeString_chars hm (by simp [Special])

theorem splitOnce_pair {a : Str} (h : '=' ∉ a) (b : Str) : splitOnce '=' (a ++ '=' :: b) = (a, some b) := by
  induction a with
  | nil => rfl
  | cons c a ih =>
    rw [List.cons_append, splitOnce, if_neg (fun e => h (by simp [e])), ih fun hm => h (List.mem_cons_of_mem _ hm)]

theorem decodePairs_weight {m tags r : List (Str × Str)}
    (h : decodePairs m (tags.map fun kv => encodeString kv.1 ++ '=' :: encodeString kv.2) = .ok (some r)) :
    tagWeight r ≤ tagWeight m + tagWeight tags ∧
      ((∃ kv ∈ tags, '%' ∈ kv.1 ∨ '%' ∈ kv.2) → tagWeight r < tagWeight m + tagWeight tags) := by
  induction tags generalizing m with
  | nil =>
    rw [List.map_nil, decodePairs] at h
    cases h
    exact ⟨Nat.le_refl _, fun ⟨_, hm, _⟩ => by cases hm⟩
  | cons kv tags ih =>
    rw [List.map_cons, decodePairs, splitOnce_pair fun hm => encodeString_chars hm (by simp [Special])] at h
    cases hk : decodeString (encodeString kv.1) with
    | none => simp only [hk] at h; cases h
    | some k =>
      cases hv : decodeString (encodeString kv.2) with
      | none => simp only [hk, hv] at h; cases h
      | some v =>
        simp only [hk, hv] at h
        obtain ⟨i1, i2⟩ := ih h
        have hi := tagWeight_insert m k v
        obtain ⟨k1, k2⟩ := (decode_weight kv.1).1 k hk
        obtain ⟨v1, v2⟩ := (decode_weight kv.2).1 v hv
        rw [tagWeight_cons]
        refine ⟨by omega, ?_⟩
        rintro ⟨x, hx, hp⟩
        rcases List.mem_cons.1 hx with rfl | hx
        · rcases hp with hp | hp
          · have := k2 hp; omega
          · have := v2 hp; omega
        · have := i2 ⟨x, hx, hp⟩; omega

/-! ## Members -/

theorem split_length (c : Char) (s : Str) : (split c s).length = s.count c + 1 := by
  induction s with
  | nil => rfl
  | cons x s ih =>
    rw [split]
    split
    · rename_i h
      rw [List.length_cons, ih, h, List.count_cons_self]
    · rename_i h
      rw [List.count_cons_of_ne h, ← ih]
      split
      · rename_i he; exact absurd he (split_ne_nil c s)
      · rename_i p ps he; rw [he]; rfl

theorem join_count (l : List Str) (h : l ≠ []) : (join l).count ',' + 1 = (l.map (·.count ',')).sum + l.length := by
  induction l with
  | nil => exact absurd rfl h
  | cons s l ih =>
    cases l with
    | nil => simp [join]
    | cons t l =>
      have := ih (by simp)
      rw [join, List.count_append, List.count_cons_self, List.map_cons, List.sum_cons, List.length_cons]
      · omega
      · simp

theorem decodeMemberList_length {l : List Str} {ms : List (Char × Int64 × Str)} (h : decodeMemberList l = .ok (some ms)) :
    ms.length = l.length := by
  induction l generalizing ms with
  | nil => rw [decodeMemberList] at h; cases h; rfl
  | cons x l ih =>
    rw [decodeMemberList] at h
    rcases hx : decodeMember x with e | _ | m
    · simp only [hx] at h; cases h
    · simp only [hx] at h; cases h
    · simp only [hx] at h
      rcases hl : decodeMemberList l with e | _ | ms'
      · rw [hl] at h; cases h
      · rw [hl] at h; cases h
      · rw [hl] at h
        cases h
        rw [List.length_cons, List.length_cons, ih hl]

theorem decodeMembers_comma {members : List (Char × Int64 × Str)} (hn : members ≠ [])
    (h : decodeMembers (encodeMembers members) = .ok (some members)) : ∀ m ∈ members, ',' ∉ m.2.2 := by
  have hl := decodeMemberList_length h
  have hne : members.map (fun m => m.1 :: (i64Str m.2.1 ++ '@' :: m.2.2)) ≠ [] := by simpa using hn
  rw [split_length, encodeMembers, join_count _ hne, List.length_map] at hl
  intro m hm hc
  have hz := Nat.add_right_cancel ((Nat.zero_add _).trans hl)
  have h0 := List.sum_eq_zero_iff_forall_eq_nat.1 hz.symm _ (List.mem_map_of_mem (List.mem_map_of_mem hm))
  exact List.count_eq_zero.1 h0 (by simp [hc])

end Osmio.Opl
