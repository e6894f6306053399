import Verif.Proofs.Proto
import Verif.Spec.Wire
/-! # The library's wire format is the specified one; fields between others -/

namespace Osmio.Proto

open Spec.Wire

theorem writeVarintAux_eq (k : Nat) : ∀ n, n < 2 ^ (7 * k + 7) → writeVarintAux k n = varint n := by
  induction k with
  | zero =>
    intro n h
    rw [varint, if_pos (by omega)]
    rfl
  | succ k ih =>
    intro n h
    rw [varint]
    unfold writeVarintAux
    split
    · rfl
    · rw [ih]
      have : 2 ^ (7 * (k + 1) + 7) = 128 * 2 ^ (7 * k + 7) := by
        rw [show 7 * (k + 1) + 7 = 7 + (7 * k + 7) by omega, Nat.pow_add]
      omega

theorem writeVarint_eq {n : Nat} (h : n < 2 ^ 64) : writeVarint n = varint n :=
  writeVarintAux_eq 9 n (by omega)

theorem writeNum_eq {k n : Nat} (hk : k < 2 ^ 28) (hn : n < 2 ^ 64) : writeNum k n = number k n := by
  unfold writeNum number
  rw [writeVarint_eq (by omega), writeVarint_eq hn, Nat.mul_comm]
  rfl

theorem writeLen_eq {k : Nat} {bs : Bytes} (hk : k < 2 ^ 28) (hl : bs.length ≤ 2147483647) :
    writeLen k bs = delimited k bs := by
  unfold writeLen delimited
  rw [Nat.mod_eq_of_lt (by omega), writeVarint_eq (by omega), writeVarint_eq (by omega), Nat.mul_comm]

theorem writeOpt_eq {α : Type} {o : Option α} {w w' : α → Bytes} (h : ∀ v, o = some v → w v = w' v) :
    writeOpt o w = opt o w' := by
  cases o with
  | none => rfl
  | some a => exact h a rfl

theorem writeRep_eq {α : Type} {l : List α} {w w' : α → Bytes} (h : ∀ v, v ∈ l → w v = w' v) :
    l.flatMap w = rep l w' := by
  unfold rep
  rw [List.flatMap_def, List.map_congr_left h]

theorem delimited_le (k : Nat) (bs : Bytes) : bs.length ≤ (delimited k bs).length := by
  unfold delimited
  simp only [List.length_append]
  omega

theorem optional_le {α : Type} {o : Option α} {v : α} (h : o = some v) (w : α → Bytes) :
    (w v).length ≤ (opt o w).length := by
  subst h; exact Nat.le_refl _

theorem repeated_le {α : Type} {l : List α} {v : α} (h : v ∈ l) (w : α → Bytes) :
    (w v).length ≤ (rep l w).length := by
  have := flatMap_length_le (w := w) h
  rw [List.flatMap_def] at this
  exact this

theorem writePacked_eq {α : Type} {k : Nat} {enc num : α → Nat} {l : List α} (hk : k < 2 ^ 28) (h1 : ∀ a, enc a < 2 ^ 64)
    (h2 : ∀ a, enc a = num a) (hl : (packed k num l).length ≤ 2147483647) : writePacked k enc l = packed k num l := by
  cases l with
  | nil => rfl
  | cons a l =>
    have e : ((a :: l).flatMap fun a => writeVarint (enc a)) = ((a :: l).map fun x => varint (num x)).flatten := by
      rw [List.flatMap_def]
      congr 2
      funext x
      rw [writeVarint_eq (h1 x), h2]
    unfold writePacked packed at *
    rw [if_neg (by simp), e]
    refine writeLen_eq hk ?_
    have := delimited_le k ((a :: l).map fun x => varint (num x)).flatten
    simp only at hl
    omega

theorem encInt32_eq (x : Int32) : encInt32 x = int32 x := by
  have h1 : -2147483648 ≤ x.toInt := x.le_toInt
  have h2 : x.toInt < 2147483648 := x.toInt_lt
  unfold encInt32 unsigned64 int32
  split <;> omega

theorem encInt64_eq (x : Int64) : encInt64 x = int64 x := by
  have h1 : -9223372036854775808 ≤ x.toInt := x.le_toInt
  have h2 : x.toInt < 9223372036854775808 := x.toInt_lt
  unfold encInt64 unsigned64 int64
  split <;> omega

theorem encUInt32_eq (x : UInt32) : encUInt32 x = uint32 x := rfl
theorem encBool_eq (x : Bool) : encBool x = bool x := by cases x <;> rfl
theorem encEnum_eq (x : Int32) : encInt32 x = enum x := encInt32_eq x

theorem encSint32_eq (x : Int32) : encSint32 x = sint32 x := by
  unfold encSint32 zigZag sint32
  split <;> omega

theorem encSint64_eq (x : Int64) : encSint64 x = sint64 x := by
  unfold encSint64 zigZag sint64
  split <;> omega

theorem isSome_of_ne {α : Type} {o : Option α} (h : o ≠ none) : o.isSome = true := by
  cases o with
  | none => exact absurd rfl h
  | some _ => rfl

theorem all_of_some {α : Type} {o : Option α} {p : α → Bool} (h : ∀ v, o = some v → p v = true) : o.all p = true := by
  cases o with
  | none => rfl
  | some v => exact h v rfl

variable {M : Type} {merge : M → Field → Option M}

theorem mergeAll_append (fs gs : List Field) : ∀ m : M,
    mergeAll merge m (fs ++ gs) = (mergeAll merge m fs).bind fun m => mergeAll merge m gs := by
  induction fs with
  | nil => intro m; rfl
  | cons f fs ih =>
    intro m
    simp only [List.cons_append, mergeAll]
    cases merge m f with
    | none => rfl
    | some m' => exact ih m'

theorem readFields_single {u : Bytes} {f : Field} (h : readField u = some (f, [])) : readFields u = some [f] := by
  rw [readFields_cons h]; rfl

theorem parse_unknown {f : Field} (hm : ∀ m, merge m f = some m) {new : M} {pre u post : Bytes} {fs : List Field}
    (hp : readFields pre = some fs) (hu : readField u = some (f, [])) :
    parse merge new (pre ++ u ++ post) = parse merge new (pre ++ post) := by
  unfold parse
  rw [List.append_assoc, readFields_append _ pre _ fs (Nat.le_refl _) hp, readFields_append _ pre _ fs (Nat.le_refl _) hp,
    readFields_append _ u _ [f] (Nat.le_refl _) (readFields_single hu)]
  cases readFields post with
  | none => rfl
  | some gs =>
    simp only [Option.map_some, Option.bind_some, mergeAll_append]
    congr 1
    funext m
    simp only [mergeAll, hm, Option.bind_some]

theorem parse_swap {f g : Field} (hm : ∀ m, (merge m f).bind (fun m => merge m g) = (merge m g).bind (fun m => merge m f))
    {new : M} {pre x y post : Bytes} {fs : List Field} (hp : readFields pre = some fs) (hx : readField x = some (f, []))
    (hy : readField y = some (g, [])) : parse merge new (pre ++ x ++ y ++ post) = parse merge new (pre ++ y ++ x ++ post) := by
  unfold parse
  simp only [List.append_assoc]
  rw [readFields_append _ pre _ fs (Nat.le_refl _) hp, readFields_append _ pre _ fs (Nat.le_refl _) hp,
    readFields_append _ x _ [f] (Nat.le_refl _) (readFields_single hx),
    readFields_append _ y _ [g] (Nat.le_refl _) (readFields_single hy),
    readFields_append _ y _ [g] (Nat.le_refl _) (readFields_single hy),
    readFields_append _ x _ [f] (Nat.le_refl _) (readFields_single hx)]
  cases readFields post with
  | none => rfl
  | some gs =>
    simp only [Option.map_some, Option.bind_some, mergeAll_append]
    congr 1
    funext m
    have e := hm m
    simp only [mergeAll]
    cases h1 : merge m f with
    | none =>
      cases h2 : merge m g with
      | none => rfl
      | some b => simp only [h1, h2, Option.bind_some, Option.bind_none] at e ⊢; rw [← e]; rfl
    | some a =>
      cases h2 : merge m g with
      | none => simp only [h1, h2, Option.bind_some, Option.bind_none] at e ⊢; rw [e]; rfl
      | some b => simp only [h1, h2, Option.bind_some] at e ⊢; rw [e]

theorem parse_same {a b : Bytes} {go : M → M} (ha : ∀ m, Steps merge m a (go m)) (hb : ∀ m, Steps merge m b (go m)) {new : M}
    {pre post : Bytes} {fs : List Field} (hp : readFields pre = some fs) :
    parse merge new (pre ++ a ++ post) = parse merge new (pre ++ b ++ post) := by
  have key : ∀ c : Bytes, (∀ m, Steps merge m c (go m)) →
      parse merge new (pre ++ c ++ post) = (mergeAll merge new fs).bind fun m => parseFrom merge (go m) post := by
    intro c hc
    unfold parse
    rw [List.append_assoc, readFields_append _ pre _ fs (Nat.le_refl _) hp]
    have h2 : ((readFields (c ++ post)).map (fs ++ ·)).bind (mergeAll merge new) =
        (mergeAll merge new fs).bind fun m => parseFrom merge m (c ++ post) := by
      unfold parseFrom
      cases readFields (c ++ post) with
      | none => cases mergeAll merge new fs <;> rfl
      | some gs => simp only [Option.map_some, Option.bind_some, mergeAll_append]
    rw [h2]
    congr 1
    funext m
    exact hc m post
  rw [key a ha, key b hb]

theorem Steps.rep' {α : Type} {put : List α → M} {w : α → Bytes} {l : List α} {m : M} (h0 : put [] = m)
    (h : ∀ l' a, Steps merge (put l') (w a) (put (l' ++ [a]))) : Steps merge m (Spec.Wire.rep l w) (put l) := by
  subst h0
  have := Steps.rep (l := l) (fun l' a _ => h l' a)
  rw [List.flatMap_def] at this
  exact this

theorem merge_comm_of {α : Type} {x : Option α} {y : Option M} {up : α → M → M} {m : M} {after : M → Option M}
    (h : ∀ v, after (up v m) = y.map (up v)) :
    (x.map fun v => up v m).bind after = y.bind fun m => x.map fun v => up v m := by
  cases x with
  | none => cases y <;> rfl
  | some v =>
    simp only [Option.map_some, Option.bind_some, h]
    cases y <;> rfl

end Osmio.Proto
