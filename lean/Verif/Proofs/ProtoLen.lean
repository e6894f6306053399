import Verif.Proofs.Proto
import Verif.Model.Proto
/-! # The size functions of the library give the number of bytes written -/

namespace Osmio.Proto

theorem writeVarintAux_length (k n : Nat) :
    (writeVarintAux (k + 1) n).length = if n < 128 then 1 else (writeVarintAux k (n / 128)).length + 1 := by
  rw [writeVarintAux]
  split <;> rfl

theorem ite_div (n c a b : Nat) (hc : 0 < c) : (if n / c < 128 then a else b) = if n < c * 128 then a else b := by
  have : n / c < 128 ↔ n < c * 128 := by rw [Nat.div_lt_iff_lt_mul hc, Nat.mul_comm]
  simp only [this]

theorem ite_add_one (p : Prop) [Decidable p] (a b : Nat) : (if p then a else b) + 1 = if p then a + 1 else b + 1 := by
  split <;> rfl

theorem writeVarint_length (n : Nat) : (writeVarint n).length = varintSize n := by
  unfold writeVarint varintSize
  rw [writeVarintAux_length, writeVarintAux_length, writeVarintAux_length, writeVarintAux_length, writeVarintAux_length,
    writeVarintAux_length, writeVarintAux_length, writeVarintAux_length, writeVarintAux_length]
  simp only [Nat.div_div_eq_div_mul]
  rw [ite_div n 128 _ _ (by decide), ite_div n _ _ _ (by decide), ite_div n _ _ _ (by decide), ite_div n _ _ _ (by decide), ite_div n _ _ _ (by decide),
    ite_div n _ _ _ (by decide), ite_div n _ _ _ (by decide), ite_div n _ _ _ (by decide)]
  simp only [ite_add_one, Nat.reduceMul, Nat.reduceAdd]
  rfl

theorem tagSize_eq (k : Nat) : tagSize k = (writeVarint (8 * k)).length := (writeVarint_length _).symm

theorem lt_iff_add_two (k c : Nat) : 8 * k + 2 < 8 * c ↔ 8 * k < 8 * c := by omega

theorem varintSize_add_two (k : Nat) : varintSize (8 * k + 2) = varintSize (8 * k) := by
  have h := lt_iff_add_two k
  unfold varintSize
  have h1 := h 0x10
  have h2 := h 0x800
  have h3 := h 0x40000
  have h4 := h 0x2000000
  have h5 := h 0x100000000
  have h6 := h 0x8000000000
  have h7 := h 0x400000000000
  have h8 := h 0x20000000000000
  have h9 := h 0x1000000000000000
  simp only [Nat.reduceMul] at h1 h2 h3 h4 h5 h6 h7 h8 h9
  simp only [h1, h2, h3, h4, h5, h6, h7, h8, h9]

theorem tagSize_eq' (k : Nat) : tagSize k = (writeVarint (8 * k + 2)).length := by
  rw [writeVarint_length, varintSize_add_two]
  rfl

theorem numSize_eq {k n : Nat} : numSize k n = (writeNum k n).length := by
  unfold numSize writeNum
  rw [tagSize_eq, ← writeVarint_length, List.length_append]

theorem lenSize_eq {k : Nat} {bs : Bytes} (h : bs.length < 2 ^ 32) : bytesSize k bs = (writeLen k bs).length := by
  unfold bytesSize writeLen
  rw [Nat.mod_eq_of_lt h, List.length_append, List.length_append, tagSize_eq', writeVarint_length bs.length]

theorem bytesSize_eq {k : Nat} {bs : Bytes} (h : bytesSize k bs < 2 ^ 32 ∨ (writeLen k bs).length < 2 ^ 32) :
    bytesSize k bs = (writeLen k bs).length := by
  refine lenSize_eq ?_
  have h1 := writeLen_length k bs
  have h2 : bs.length ≤ bytesSize k bs := Nat.le_add_left _ _
  omega

theorem stringSize_eq {k : Nat} {s : Str} (h : stringSize k s < 2 ^ 32 ∨ (writeLen k (Utf8.encode s)).length < 2 ^ 32) :
    stringSize k s = (writeLen k (Utf8.encode s)).length := bytesSize_eq h

theorem writeMessage_length (k size : Nat) (body : Bytes) : body.length ≤ (writeMessage k size body).length := by
  unfold writeMessage
  simp only [List.length_append]
  omega

theorem writeMessage_eq {k size : Nat} {body : Bytes} (h : size = body.length) : writeMessage k size body = writeLen k body := by
  subst h; rfl

theorem messageSize_eq {k t size : Nat} {body : Bytes} (ht : (writeVarint (8 * k + 2)).length = t)
    (ih : size < 2 ^ 32 ∨ body.length < 2 ^ 32 → size = body.length)
    (h : messageSize t size < 2 ^ 32 ∨ (writeMessage k size body).length < 2 ^ 32) :
    messageSize t size = (writeMessage k size body).length := by
  have h1 := writeMessage_length k size body
  have h2 : size ≤ messageSize t size := Nat.le_add_left _ _
  have e := ih (by omega)
  have hs : size < 2 ^ 32 := by omega
  unfold messageSize writeMessage
  rw [Nat.mod_eq_of_lt hs, List.length_append, List.length_append, ht, writeVarint_length, ← e]

theorem optSize_eq {α : Type} {o : Option α} {s : α → Nat} {w : α → Bytes}
    (hv : ∀ v, o = some v → s v < 2 ^ 32 ∨ (w v).length < 2 ^ 32 → s v = (w v).length)
    (h : optSize o s < 2 ^ 32 ∨ (writeOpt o w).length < 2 ^ 32) : optSize o s = (writeOpt o w).length := by
  cases o with
  | none => rfl
  | some v => exact hv v rfl h

theorem repSize_eq {α : Type} {l : List α} {s : α → Nat} {w : α → Bytes}
    (hv : ∀ v, v ∈ l → s v < 2 ^ 32 ∨ (w v).length < 2 ^ 32 → s v = (w v).length)
    (h : repSize l s < 2 ^ 32 ∨ (l.flatMap w).length < 2 ^ 32) : repSize l s = (l.flatMap w).length := by
  induction l with
  | nil => rfl
  | cons v l ih =>
    simp only [repSize, List.map_cons, List.sum_cons, List.flatMap_cons, List.length_append] at h ih ⊢
    rw [hv v List.mem_cons_self (by omega), ih (fun v hm => hv v (List.mem_cons_of_mem _ hm)) (by omega)]

theorem packedSize_eq {α : Type} {k : Nat} {enc : α → Nat} {l : List α}
    (h : packedSize k enc l < 2 ^ 32 ∨ (writePacked k enc l).length < 2 ^ 32) :
    packedSize k enc l = (writePacked k enc l).length := by
  unfold packedSize writePacked at *
  split at h
  · rename_i hl
    simp [hl]
  · rename_i hl
    have e : (l.map fun a => varintSize (enc a)).sum = (l.flatMap fun a => writeVarint (enc a)).length := by
      clear h hl
      induction l with
      | nil => rfl
      | cons v l ih => simp only [List.map_cons, List.sum_cons, List.flatMap_cons, List.length_append, ih, writeVarint_length]
    simp only [if_neg hl, e] at h ⊢
    exact bytesSize_eq h

theorem sum_eq {a b a' b' : Nat} (h : a + b < 2 ^ 32 ∨ a' + b' < 2 ^ 32) (ha : a < 2 ^ 32 ∨ a' < 2 ^ 32 → a = a')
    (hb : b < 2 ^ 32 ∨ b' < 2 ^ 32 → b = b') : a + b = a' + b' := by
  rw [ha (by omega), hb (by omega)]

end Osmio.Proto
