import Verif.Lib.Json
import Verif.Spec.Json
import Verif.Proofs.Chrono
import Verif.Proofs.Tags
/-! JSON output decodes to what was put in. -/

namespace Osmio
open Spec

theorem hexVal_hexDigit (n : Nat) (h : n < 16) : Spec.Json.hexVal (Json.hexDigit n) = some n := by
  have : ∀ n : Fin 16, Spec.Json.hexVal (Json.hexDigit n) = some n.val := by decide
  exact this ⟨n, h⟩

theorem strBody_escape (c : Char) (r : Str) :
    Spec.Json.strBody (Json.escapeChar c ++ r) = Spec.Json.consRes c (Spec.Json.strBody r) := by
  unfold Json.escapeChar
  by_cases h1 : c = '"'
  · subst h1; rfl
  by_cases h2 : c = '\\'
  · subst h2; rfl
  simp only [h1, h2, if_false]
  have hofNat : ∀ n, c.toNat = n → c = Char.ofNat n := by
    rintro n rfl; exact (Char.ofNat_toNat c).symm
  by_cases h3 : c.toNat = 8
  · simp only [h3, if_true]; rw [hofNat _ h3]; rfl
  by_cases h4 : c.toNat = 9
  · simp only [h4]; rw [hofNat _ h4]; rfl
  by_cases h5 : c.toNat = 10
  · simp only [h5]; rw [hofNat _ h5]; rfl
  by_cases h6 : c.toNat = 12
  · simp only [h6]; rw [hofNat _ h6]; rfl
  by_cases h7 : c.toNat = 13
  · simp only [h7]; rw [hofNat _ h7]; rfl
  simp only [h3, h4, h5, h6, h7, if_false]
  by_cases h8 : c.toNat < 32
  · simp only [h8, if_true, List.cons_append, List.nil_append, Spec.Json.strBody]
    have : Spec.Json.hex4 '0' '0' (Json.hexDigit (c.toNat / 16)) (Json.hexDigit (c.toNat % 16)) = some c := by
      unfold Spec.Json.hex4
      rw [hexVal_hexDigit _ (by omega), hexVal_hexDigit _ (by omega)]
      have z : Spec.Json.hexVal '0' = some 0 := by decide
      rw [z]
      simp only
      have e : ((0 * 16 + 0) * 16 + c.toNat / 16) * 16 + c.toNat % 16 = c.toNat := by omega
      have hv : c.toNat.isValidChar := c.valid
      rw [e, Char.ofNat_toNat, if_pos hv]
    rw [this]
  · simp only [h8, if_false, List.cons_append, List.nil_append]
    rw [Spec.Json.strBody.eq_12 c r h1 (fun _ e => absurd e h2) (fun _ e => absurd e h2)
      (fun _ e => absurd e h2) (fun _ e => absurd e h2) (fun _ e => absurd e h2) (fun _ e => absurd e h2)
      (fun _ e => absurd e h2) (fun _ e => absurd e h2) (fun _ _ _ _ _ e => absurd e h2) h2, if_neg h8]

theorem strBody_quote (s r : Str) :
    Spec.Json.strBody (s.flatMap Json.escapeChar ++ '"' :: r) = some (s, r) := by
  induction s with
  | nil => simp [Spec.Json.strBody]
  | cons c cs ih =>
    rw [List.flatMap_cons, List.append_assoc, strBody_escape, ih]; rfl

theorem members_decode (m : List (Str × Str)) (hm : m ≠ []) (r : Str) (n : Nat) (hn : m.length ≤ n) :
    Spec.Json.membersBody n (Json.members m ++ '}' :: r) = some (m, r) := by
  induction m generalizing n with
  | nil => exact absurd rfl hm
  | cons p m ih =>
    obtain ⟨k, v⟩ := p
    cases n with
    | zero => simp at hn
    | succ n =>
      cases m with
      | nil =>
        simp only [Json.members, Json.quote, List.cons_append, List.append_assoc, Spec.Json.membersBody,
          List.nil_append]
        rw [strBody_quote]
        simp only
        rw [strBody_quote]
        rfl
      | cons q m =>
        have ih' := ih (by simp) n (by simpa using hn)
        simp only [Json.members, Json.quote, List.cons_append, List.append_assoc, Spec.Json.membersBody,
          List.nil_append]
        rw [strBody_quote]
        simp only
        rw [strBody_quote]
        simp only
        rw [ih']

theorem members_length (m : List (Str × Str)) : m.length ≤ (Json.members m).length := by
  induction m with
  | nil => simp [Json.members]
  | cons p m ih =>
    cases m with
    | nil => simp [Json.members, Json.quote]
    | cons q m =>
      simp only [Json.members, List.length_append, List.length_cons] at *
      omega

theorem object_decode (m : List (Str × Str)) : Spec.Json.decodeObject (Json.object m) = some m := by
  cases m with
  | nil => rfl
  | cons p m =>
    have hne : ∃ cs, Json.members (p :: m) = '"' :: cs := by
      cases m <;> exact ⟨_, rfl⟩
    have hd := members_decode (p :: m) (by simp) [] (Json.members (p :: m) ++ ['}']).length (by
      have := members_length (p :: m)
      rw [List.length_append]; omega)
    obtain ⟨cs, e⟩ := hne
    unfold Json.object
    rw [Spec.Json.decodeObject.eq_2 _ (by rw [e]; simp)]
    rw [hd]

/-! ### The sorted map -/

/-- Keys strictly ascending. -/
def KeysAscending (m : List (Str × Str)) : Prop := m.Pairwise (fun a b => compareStr a.1 b.1 = .lt)

theorem lookup_insert (m : List (Str × Str)) (k v x : Str) :
    lookup x (Json.insert k v m) = if x = k then some v else lookup x m := by
  induction m with
  | nil =>
    simp only [Json.insert, lookup]
    by_cases h : k = x
    · simp [h]
    · have : x ≠ k := fun e => h e.symm
      simp [h, this]
  | cons p r ih =>
    obtain ⟨k', v'⟩ := p
    simp only [Json.insert]
    split
    · simp only [lookup]
      by_cases h : k = x
      · simp [h]
      · have : x ≠ k := fun e => h e.symm
        simp [h, this]
    · rename_i h
      rw [compareStr_eq_iff] at h
      subst h
      simp only [lookup]
      by_cases h : k = x
      · simp [h]
      · have : x ≠ k := fun e => h e.symm
        simp [h, this]
    · rename_i h
      have hne : k ≠ k' := by
        rintro rfl
        rw [(compareStr_eq_iff k k).2 rfl] at h; cases h
      simp only [lookup, ih]
      by_cases h2 : k' = x
      · have : x ≠ k := fun e => hne (e.symm.trans h2.symm)
        simp [h2, this]
      · simp [h2]

theorem mem_insert {m : List (Str × Str)} {k v : Str} {p : Str × Str} (h : p ∈ Json.insert k v m) :
    p = (k, v) ∨ p ∈ m := by
  induction m with
  | nil => simpa [Json.insert] using h
  | cons q r ih =>
    obtain ⟨k', v'⟩ := q
    simp only [Json.insert] at h
    split at h
    · simpa using h
    · simp only [List.mem_cons] at h ⊢
      rcases h with h | h
      · exact Or.inl h
      · exact Or.inr (Or.inr h)
    · simp only [List.mem_cons] at h ⊢
      rcases h with h | h
      · exact Or.inr (Or.inl h)
      · rcases ih h with h | h
        · exact Or.inl h
        · exact Or.inr (Or.inr h)

theorem insert_ascending {m : List (Str × Str)} (k v : Str) (h : KeysAscending m) :
    KeysAscending (Json.insert k v m) := by
  induction m with
  | nil => simp [Json.insert, KeysAscending]
  | cons q r ih =>
    obtain ⟨k', v'⟩ := q
    unfold KeysAscending at *
    rw [List.pairwise_cons] at h
    simp only [Json.insert]
    split
    · rename_i hlt
      rw [List.pairwise_cons]
      refine ⟨?_, List.pairwise_cons.2 h⟩
      intro p hp
      rcases List.mem_cons.1 hp with rfl | hp
      · exact hlt
      · exact compareStr_trans hlt (h.1 p hp)
    · rename_i heq
      rw [compareStr_eq_iff] at heq
      subst heq
      exact List.pairwise_cons.2 h
    · rename_i hgt
      have hlt : compareStr k' k = .lt := by rw [compareStr_swap, hgt]; rfl
      rw [List.pairwise_cons]
      refine ⟨?_, ih h.2⟩
      intro p hp
      rcases mem_insert hp with rfl | hp
      · exact hlt
      · exact h.1 p hp

/-- The last value stored for a key. -/
def lookupLast (k : Str) (tags : List (Str × Str)) : Option Str := lookup k tags.reverse

theorem lookup_append (x : Str) (a b : List (Str × Str)) :
    lookup x (a ++ b) = (lookup x a).or (lookup x b) := by
  induction a with
  | nil => simp [lookup]
  | cons p r ih =>
    obtain ⟨k, v⟩ := p
    simp only [List.cons_append, lookup]
    split <;> simp [ih]

theorem foldl_insert (tags m : List (Str × Str)) (hm : KeysAscending m) :
    KeysAscending (tags.foldl (fun t kv => Json.insert kv.1 kv.2 t) m) ∧
    ∀ x, lookup x (tags.foldl (fun t kv => Json.insert kv.1 kv.2 t) m) =
      (lookupLast x tags).or (lookup x m) := by
  induction tags generalizing m with
  | nil => exact ⟨hm, fun x => by simp [lookupLast, lookup]⟩
  | cons p r ih =>
    obtain ⟨k, v⟩ := p
    obtain ⟨h1, h2⟩ := ih (Json.insert k v m) (insert_ascending k v hm)
    refine ⟨h1, fun x => ?_⟩
    rw [List.foldl_cons, h2 x, lookup_insert]
    unfold lookupLast
    rw [List.reverse_cons, lookup_append]
    simp only [lookup]
    by_cases h : k = x
    · subst h; cases lookup k r.reverse <;> simp
    · have : x ≠ k := fun e => h e.symm
      simp [h, this]

theorem lookup_of_mem {tags : List (Str × Str)} (hn : (tags.map Prod.fst).Nodup) {k v : Str}
    (h : (k, v) ∈ tags) : lookup k tags = some v := by
  induction tags with
  | nil => simp at h
  | cons p r ih =>
    obtain ⟨k', v'⟩ := p
    simp only [List.map_cons, List.nodup_cons] at hn
    rcases List.mem_cons.1 h with h | h
    · cases h; simp [lookup]
    · have : k' ≠ k := by
        rintro rfl
        exact hn.1 (List.mem_map.2 ⟨_, h, rfl⟩)
      simp only [lookup, this, if_false]
      exact ih hn.2 h

theorem lookup_some_mem {tags : List (Str × Str)} {k v : Str} (h : lookup k tags = some v) :
    (k, v) ∈ tags := by
  induction tags with
  | nil => simp [lookup] at h
  | cons p r ih =>
    obtain ⟨k', v'⟩ := p
    simp only [lookup] at h
    split at h
    · rename_i e; cases h; subst e; simp
    · exact List.mem_cons_of_mem _ (ih h)

theorem lookupLast_nodup {tags : List (Str × Str)} (hn : (tags.map Prod.fst).Nodup) (k : Str) :
    lookupLast k tags = lookup k tags := by
  unfold lookupLast
  have hn' : (tags.reverse.map Prod.fst).Nodup := by rw [List.map_reverse]; exact List.nodup_reverse.2 hn
  cases h : lookup k tags with
  | some v =>
    have := lookup_some_mem h
    exact lookup_of_mem hn' (by simpa using this)
  | none =>
    cases h' : lookup k tags.reverse with
    | none => rfl
    | some v =>
      have := lookup_some_mem h'
      have := lookup_of_mem hn (by simpa using this : (k, v) ∈ tags)
      rw [h] at this; cases this

end Osmio
