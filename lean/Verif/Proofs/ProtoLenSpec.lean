import Verif.Proofs.ProtoLen
import Verif.Proofs.ProtoWire
/-! # The size functions of the library give the number of bytes of the specified encoding -/

namespace Osmio.Proto

open Spec.Wire

theorem varint_length {n : Nat} (h : n < 2 ^ 64) : (varint n).length = varintSize n := by
  rw [← writeVarint_eq h, writeVarint_length]

theorem ne_of_isSome {α : Type} {o : Option α} (h : o.isSome = true) : o ≠ none := by
  intro e
  subst e
  cases h

theorem some_of_all {α : Type} {o : Option α} {p : α → Bool} (h : o.all p = true) {v : α} (hv : o = some v) : p v = true := by
  subst hv
  exact h

theorem numSize_eq' {k n n' : Nat} (hk : k < 2 ^ 28) (hn : n < 2 ^ 64) (e : n = n') : numSize k n = (number k n').length := by
  subst e
  rw [← writeNum_eq hk hn, numSize_eq]

theorem delimited_length {k : Nat} {bs : Bytes} (hk : k < 2 ^ 28) (h : bs.length < 2 ^ 32) :
    (delimited k bs).length = tagSize k + varintSize bs.length + bs.length := by
  unfold delimited
  rw [List.length_append, List.length_append, varint_length (by omega), varint_length (by omega), tagSize, ← varintSize_add_two,
    Nat.mul_comm]

theorem bytesSize_eq' {k : Nat} {bs : Bytes} (h : bytesSize k bs < 2 ^ 32 ∨ (delimited k bs).length < 2 ^ 32)
    (hk : k < 2 ^ 28 := by decide) : bytesSize k bs = (delimited k bs).length := by
  have h1 := delimited_le k bs
  have h2 : bs.length ≤ bytesSize k bs := Nat.le_add_left _ _
  rw [delimited_length hk (by omega)]
  rfl

theorem stringSize_eq' {k : Nat} {s : Str} (h : stringSize k s < 2 ^ 32 ∨ (delimited k (Utf8.encode s)).length < 2 ^ 32)
    (hk : k < 2 ^ 28 := by decide) : stringSize k s = (delimited k (Utf8.encode s)).length := bytesSize_eq' h hk

theorem messageSize_eq' {k t size : Nat} {body : Bytes} (ht : tagSize k = t)
    (ih : size < 2 ^ 32 ∨ body.length < 2 ^ 32 → size = body.length)
    (h : messageSize t size < 2 ^ 32 ∨ (delimited k body).length < 2 ^ 32) (hk : k < 2 ^ 28 := by decide) :
    messageSize t size = (delimited k body).length := by
  have h1 := delimited_le k body
  have h2 : size ≤ messageSize t size := Nat.le_add_left _ _
  have e := ih (by omega)
  rw [delimited_length hk (by omega), messageSize, ht, e]

theorem optSize_eq' {α : Type} {o : Option α} {s : α → Nat} {w : α → Bytes}
    (hv : ∀ v, o = some v → s v < 2 ^ 32 ∨ (w v).length < 2 ^ 32 → s v = (w v).length)
    (h : optSize o s < 2 ^ 32 ∨ (opt o w).length < 2 ^ 32) : optSize o s = (opt o w).length := by
  cases o with
  | none => rfl
  | some v => exact hv v rfl h

theorem repSize_eq' {α : Type} {l : List α} {s : α → Nat} {w : α → Bytes}
    (hv : ∀ v, v ∈ l → s v < 2 ^ 32 ∨ (w v).length < 2 ^ 32 → s v = (w v).length)
    (h : repSize l s < 2 ^ 32 ∨ (rep l w).length < 2 ^ 32) : repSize l s = (rep l w).length := by
  unfold rep at *
  rw [← List.flatMap_def] at *
  exact repSize_eq hv h

theorem packedSize_eq' {α : Type} {k : Nat} {enc num : α → Nat} {l : List α} (hk : k < 2 ^ 28) (h1 : ∀ a, enc a < 2 ^ 64)
    (h2 : ∀ a, enc a = num a) (h : packedSize k enc l < 2 ^ 32 ∨ (packed k num l).length < 2 ^ 32) :
    packedSize k enc l = (packed k num l).length := by
  have e : (l.map fun a => varintSize (enc a)).sum = ((l.map fun x => varint (num x)).flatten).length := by
    clear h
    induction l with
    | nil => rfl
    | cons v l ih =>
      simp only [List.map_cons, List.sum_cons, List.flatten_cons, List.length_append, ih, varint_length (h1 v), ← h2]
  cases l with
  | nil => rfl
  | cons a l =>
    simp only [packedSize, packed, List.isEmpty_cons, Bool.false_eq_true, if_false, e] at h ⊢
    exact bytesSize_eq' h hk

theorem written_iff {init : Bool} {has : Prop} {size : Nat} {w e bs : Bytes} (hw : e.length ≤ 2147483647 → w = e)
    (hs : size < 2 ^ 32 ∨ w.length < 2 ^ 32 → size = w.length) (he : size < 2 ^ 32 ∨ e.length < 2 ^ 32 → size = e.length)
    (hi : (init = true → has) ∧ (has → init = true)) :
    (if init = true ∧ size ≤ 2147483647 ∧ w.length = size then some w else none) = some bs ↔
      has ∧ e.length ≤ 2147483647 ∧ bs = e := by
  constructor
  · intro h
    split at h
    · rename_i h'
      have hl := he (by omega)
      cases h
      exact ⟨hi.1 h'.1, by omega, hw (by omega)⟩
    · cases h
  · rintro ⟨h1, h2, rfl⟩
    have e := hw h2
    subst e
    have := hs (by omega)
    rw [if_pos ⟨hi.2 h1, by omega, by omega⟩]

end Osmio.Proto
