import Verif.Model.NodeStore
import Verif.Spec.Uncompiled
/-! # Lemmas: the node store -/

namespace Osmio.NodeStore
open Spec

/-- An entry of the file. -/
def entry (e : Int32 × Int32) : List UInt8 := be32 e.1 ++ be32 e.2

theorem be32_length (x : Int32) : (be32 x).length = 4 := rfl
theorem entry_length (e : Int32 × Int32) : (entry e).length = 8 := rfl

theorem flatMap_entry_length (es : List (Int32 × Int32)) : (es.flatMap entry).length = 8 * es.length := by
  induction es with
  | nil => rfl
  | cons e es ih => rw [List.flatMap_cons, List.length_append, ih, entry_length, List.length_cons]; omega

theorem fromBe_be32 (x : Int32) : (UInt32.ofNat (fromBe (be32 x))).toInt32 = x := by
  have h : fromBe (be32 x) = x.toUInt32.toNat := by
    have := x.toUInt32.toNat_lt
    simp only [be32, fromBe, List.foldl, UInt8.toNat_ofNat']
    omega
  rw [h, UInt32.ofNat_toNat]
  exact Int32.toInt32_toUInt32 x

theorem readI32_at (a b : List UInt8) (x : Int32) {pos : Nat} (h : pos = a.length) : readI32 (a ++ (be32 x ++ b)) pos = .ok x := by
  subst h
  rw [readI32, if_neg (by simp only [List.length_append, be32_length]; omega), List.drop_left,
    List.take_left' (be32_length x), fromBe_be32]

theorem get_entry (a b : List (Int32 × Int32)) (e : Int32 × Int32) {id : Nat} (h : id = a.length) :
    readEntry ((a ++ e :: b).flatMap entry) (id * 8) =
      if e.1 = SENTINEL ∨ e.2 = SENTINEL then .ok none else .ok (some (⟨e.1⟩, ⟨e.2⟩)) := by
  have e0 : (a ++ e :: b).flatMap entry = a.flatMap entry ++ (be32 e.1 ++ (be32 e.2 ++ b.flatMap entry)) := by
    simp [entry, List.flatMap_append, List.flatMap_cons, List.append_assoc]
  have e1 : (a ++ e :: b).flatMap entry = (a.flatMap entry ++ be32 e.1) ++ (be32 e.2 ++ b.flatMap entry) := by
    rw [e0, List.append_assoc]
  have r1 : readI32 ((a ++ e :: b).flatMap entry) (id * 8) = .ok e.1 := by
    rw [e0]; exact readI32_at _ _ _ (by rw [flatMap_entry_length, h]; omega)
  have r2 : readI32 ((a ++ e :: b).flatMap entry) (id * 8 + 4) = .ok e.2 := by
    rw [e1]; exact readI32_at _ _ _ (by rw [List.length_append, flatMap_entry_length, be32_length, h]; omega)
  rw [readEntry, r1, r2]
  rfl

theorem get_past (es : List (Int32 × Int32)) {id : Nat} (h : es.length ≤ id) : readEntry (es.flatMap entry) (id * 8) = .error .unwrap := by
  have : readI32 (es.flatMap entry) (id * 8) = .error .unwrap := by
    rw [readI32, if_pos (by rw [flatMap_entry_length]; omega)]
  rw [readEntry, this]
  rfl

theorem get_small (b : Build) (file : List UInt8) {id : UInt64} (h : id.toNat < 2 ^ 61) :
    get b file id = readEntry file (id.toNat * 8) := by
  rw [get, position.eq_def, if_pos (by omega)]
  rfl

theorem get_large (file : List UInt8) {id : UInt64} (h : 2 ^ 61 ≤ id.toNat) :
    get .debug file id = .error .overflow ∧ get .release file id = readEntry file (id.toNat % 2 ^ 61 * 8) := by
  refine ⟨by rw [get, position.eq_def, if_neg (by omega)]; rfl, ?_⟩
  rw [get, position.eq_def, if_neg (by omega)]
  show readEntry file _ = _
  congr 1
  omega

theorem fill_entries (n : Nat) (es : List (Int32 × Int32)) :
    fill n (es.flatMap entry) = (es ++ List.replicate n (SENTINEL, SENTINEL)).flatMap entry := by
  induction n generalizing es with
  | zero => simp [fill]
  | succ n ih =>
    have : es.flatMap entry ++ be32 SENTINEL ++ be32 SENTINEL = (es ++ [(SENTINEL, SENTINEL)]).flatMap entry := by
      rw [List.flatMap_append, List.flatMap_singleton, entry, List.append_assoc]
    rw [fill, this, ih, List.replicate_succ, List.append_assoc]
    rfl

theorem writeAt_entry (es : List (Int32 × Int32)) (e : Int32 × Int32) {id : Nat} (h : id ≤ es.length) :
    writeAt (es.flatMap entry) (id * 8) (entry e) = (es.take id ++ e :: es.drop (id + 1)).flatMap entry := by
  have split : es.flatMap entry = (es.take id).flatMap entry ++ (es.drop id).flatMap entry := by
    rw [← List.flatMap_append, List.take_append_drop]
  have hl : ((es.take id).flatMap entry).length = id * 8 := by
    rw [flatMap_entry_length, List.length_take, Nat.min_eq_left h]; omega
  have t : (es.flatMap entry).take (id * 8) = (es.take id).flatMap entry := by
    rw [split, List.take_left' hl]
  have d : (es.flatMap entry).drop (id * 8 + 8) = (es.drop (id + 1)).flatMap entry := by
    rw [split, ← List.drop_drop, List.drop_left' hl]
    rcases Nat.lt_or_ge id es.length with hlt | hge
    · rw [List.drop_eq_getElem_cons hlt, List.flatMap_cons, List.drop_left' (entry_length _)]
    · rw [List.drop_eq_nil_of_le hge, List.drop_eq_nil_of_le (show es.length ≤ id + 1 by omega)]
      rfl
  have z : id * 8 - (es.flatMap entry).length = 0 := by rw [flatMap_entry_length]; omega
  rw [writeAt, t, entry_length, d, z]
  simp [List.flatMap_append, List.flatMap_cons, List.append_assoc]

/-- What the writer has done after some calls. -/
structure Inv (ops : List (Nat × Lat × Lon)) (w : Writer) (es : List (Int32 × Int32)) : Prop where
  file : w.file = es.flatMap entry
  len : (ops = [] ∧ es = [] ∧ w.maxNodeId = 0) ∨ (es.length = w.maxNodeId + 1 ∧ ∃ op ∈ ops, op.1 = w.maxNodeId)
  bound : ∀ op ∈ ops, op.1 ≤ w.maxNodeId
  at_ : ∀ i, i < es.length →
    es[i]? = some (((lastSet ops i).map fun p => (p.1.inner, p.2.inner)).getD (SENTINEL, SENTINEL))

theorem lastSet_append (ops : List (Nat × Lat × Lon)) (op : Nat × Lat × Lon) (id : Nat) :
    lastSet (ops ++ [op]) id = if op.1 = id then some op.2 else lastSet ops id := by
  induction ops with
  | nil =>
    rw [List.nil_append, lastSet]
    by_cases h : op.1 = id <;> simp [lastSet, h]
  | cons o ops ih =>
    rw [List.cons_append, lastSet, ih, lastSet]
    by_cases h : op.1 = id <;> simp [h]

theorem Inv.get {ops : List (Nat × Lat × Lon)} {w : Writer} {es : List (Int32 × Int32)} (h : Inv ops w es)
    (hs : ∀ op ∈ ops, op.2.1.inner ≠ SENTINEL ∧ op.2.2.inner ≠ SENTINEL) {id : Nat} (hi : id < es.length) :
    readEntry w.file (id * 8) = .ok (lastSet ops id) := by
  have ha := h.at_ id hi
  obtain ⟨e, he⟩ : ∃ e, es[id]? = some e := ⟨_, List.getElem?_eq_getElem hi⟩
  have hsplit : es = es.take id ++ e :: es.drop (id + 1) := by
    rw [List.getElem?_eq_getElem hi, Option.some.injEq] at he
    rw [← he, ← List.drop_eq_getElem_cons hi, List.take_append_drop]
  have hl : id = (es.take id).length := by rw [List.length_take]; omega
  have := get_entry (es.take id) (es.drop (id + 1)) e hl
  rw [← hsplit] at this
  rw [h.file, this]
  rw [he, Option.some.injEq] at ha
  subst ha
  cases hlast : lastSet ops id with
  | none => simp
  | some p =>
    have hp : p.1.inner ≠ SENTINEL ∧ p.2.inner ≠ SENTINEL := by
      clear * - hlast hs
      induction ops with
      | nil => simp [lastSet] at hlast
      | cons o ops ih =>
        rw [lastSet] at hlast
        cases hr : lastSet ops id with
        | some q =>
          rw [hr] at hlast
          simp only [Option.some_or, Option.some.injEq] at hlast
          subst hlast
          exact ih (fun op hop => hs op (List.mem_cons_of_mem _ hop)) hr
        | none =>
          rw [hr, Option.none_or] at hlast
          split at hlast
          · rw [Option.some.injEq] at hlast; subst hlast
            exact hs o (by simp)
          · exact absurd hlast (by simp)
    simp [hp.1, hp.2]

theorem Inv.set {ops : List (Nat × Lat × Lon)} {w : Writer} {es : List (Int32 × Int32)} (h : Inv ops w es) {id : Nat} {lat : Lat} {lon : Lon}
    (hid : id < 2 ^ 60 - 1) : ∃ w' es', w.set id lat lon = .ok w' ∧ Inv (ops ++ [(id, lat, lon)]) w' es' := by
  let n := id - w.maxNodeId
  let ps := es ++ List.replicate n (SENTINEL, SENTINEL)
  have hset : w.set id lat lon =
      .ok ⟨max w.maxNodeId id, writeAt (ps.flatMap entry) (id * 8) (entry (lat.inner, lon.inner))⟩ := by
    rw [Writer.set, if_neg (by omega)]
    by_cases hlt : w.maxNodeId < id
    · simp only [if_pos hlt]
      rw [h.file, fill_entries, Nat.max_eq_right (by omega)]
      rfl
    · simp only [if_neg hlt]
      have hn : n = 0 := by show id - w.maxNodeId = 0; omega
      have hps : ps = es := by show es ++ List.replicate n _ = es; rw [hn]; simp
      rw [hps, ← h.file, Nat.max_eq_left (by omega)]
      rfl
  have hpl : ps.length = es.length + n := by show (es ++ List.replicate n _).length = _; simp
  have hle : id ≤ ps.length := by
    rcases h.len with ⟨_, he, hm⟩ | ⟨he, _⟩
    · rw [hpl, he]; show id ≤ 0 + (id - w.maxNodeId); omega
    · rw [hpl, he]; show id ≤ w.maxNodeId + 1 + (id - w.maxNodeId); omega
  have hmaxlen : (ps.take id ++ (lat.inner, lon.inner) :: ps.drop (id + 1)).length = max w.maxNodeId id + 1 := by
    rw [List.length_append, List.length_take, List.length_cons, List.length_drop, hpl]
    rcases h.len with ⟨_, he, hm⟩ | ⟨he, _⟩
    · rw [he, hm]; show min id (0 + (id - w.maxNodeId)) + (0 + (id - w.maxNodeId) - (id + 1) + 1) = _; omega
    · rw [he]; show min id (w.maxNodeId + 1 + (id - w.maxNodeId)) + (w.maxNodeId + 1 + (id - w.maxNodeId) - (id + 1) + 1) = _; omega
  refine ⟨_, ps.take id ++ (lat.inner, lon.inner) :: ps.drop (id + 1), hset, ⟨writeAt_entry ps _ hle, ?_, ?_, ?_⟩⟩
  · refine Or.inr ⟨hmaxlen, ?_⟩
    show ∃ op ∈ ops ++ [(id, lat, lon)], op.1 = max w.maxNodeId id
    rcases Nat.lt_or_ge w.maxNodeId id with hlt | hge
    · exact ⟨(id, lat, lon), by simp, by show id = _; omega⟩
    · rcases h.len with ⟨_, _, hm⟩ | ⟨_, op, hop, hopm⟩
      · exact ⟨(id, lat, lon), by simp, by show id = _; omega⟩
      · exact ⟨op, by simp [hop], by omega⟩
  · intro op hop
    show op.1 ≤ max w.maxNodeId id
    rw [List.mem_append] at hop
    rcases hop with hop | hop
    · have := h.bound op hop; omega
    · rw [List.mem_singleton.mp hop]; show id ≤ _; omega
  · intro i hi
    rw [lastSet_append]
    by_cases hii : id = i
    · subst hii
      have hl : id = (ps.take id).length := by rw [List.length_take]; omega
      rw [if_pos rfl, List.getElem?_append_right (by omega), ← hl, Nat.sub_self]
      rfl
    · rw [if_neg hii]
      have hps : (ps.take id ++ (lat.inner, lon.inner) :: ps.drop (id + 1))[i]? = ps[i]? := by
        rcases Nat.lt_or_ge i id with hlt | hge
        · rw [List.getElem?_append_left (by rw [List.length_take]; omega), List.getElem?_take_of_lt hlt]
        · obtain ⟨j, rfl⟩ : ∃ j, i = id + 1 + j := ⟨i - (id + 1), by omega⟩
          rw [List.getElem?_append_right (by rw [List.length_take]; omega), List.length_take, Nat.min_eq_left hle,
            show id + 1 + j - id = j + 1 by omega, List.getElem?_cons_succ, List.getElem?_drop]
      rw [hps]
      rcases Nat.lt_or_ge i es.length with hlt | hge
      · rw [← h.at_ i hlt]
        exact List.getElem?_append_left hlt
      · have hnone : lastSet ops i = none := by
          have hop : ∀ op ∈ ops, op.1 ≠ i := by
            intro op hop
            have := h.bound op hop
            rcases h.len with ⟨ho, _, _⟩ | ⟨he, _⟩
            · rw [ho] at hop; simp at hop
            · omega
          clear * - hop
          induction ops with
          | nil => rfl
          | cons o ops ih =>
            rw [lastSet, ih fun op h => hop op (List.mem_cons_of_mem _ h), if_neg (hop o (by simp))]
            rfl
        rw [hnone]
        have hi' : i < ps.length := by
          rw [hmaxlen] at hi
          rcases Nat.lt_or_ge i ps.length with h | h
          · exact h
          · rw [List.length_append, List.length_take, List.length_cons, List.length_drop] at hmaxlen
            omega
        show (es ++ List.replicate n (SENTINEL, SENTINEL))[i]? = _
        rw [List.getElem?_append_right hge, List.getElem?_replicate, if_pos (by omega)]
        rfl

/-- Call `set` for each operation. -/
def setAll (w : Writer) : List (Nat × Lat × Lon) → Res Writer
  | [] => .ok w
  | op :: ops => do
    let w ← w.set op.1 op.2.1 op.2.2
    setAll w ops

theorem Inv.setAll {done : List (Nat × Lat × Lon)} {w : Writer} {es : List (Int32 × Int32)} (h : Inv done w es)
    {ops : List (Nat × Lat × Lon)} (hid : ∀ op ∈ ops, op.1 < 2 ^ 60 - 1) :
    ∃ w' es', NodeStore.setAll w ops = .ok w' ∧ Inv (done ++ ops) w' es' := by
  induction ops generalizing done w es with
  | nil => exact ⟨w, es, rfl, by simpa using h⟩
  | cons op ops ih =>
    obtain ⟨w1, es1, h1, i1⟩ := h.set (id := op.1) (lat := op.2.1) (lon := op.2.2) (hid op (by simp))
    obtain ⟨w2, es2, h2, i2⟩ := ih i1 fun o ho => hid o (List.mem_cons_of_mem _ ho)
    refine ⟨w2, es2, ?_, by simpa using i2⟩
    rw [NodeStore.setAll, h1]
    exact h2

theorem inv_create : Inv [] Writer.create [] := ⟨rfl, Or.inl ⟨rfl, rfl, rfl⟩, by simp, by simp⟩

/-- What is at the place of an entry. -/
theorem Inv.exact {ops : List (Nat × Lat × Lon)} {w : Writer} {es : List (Int32 × Int32)} (inv : Inv ops w es) (id : Nat) :
    readEntry w.file (id * 8) =
      if ∃ op ∈ ops, id ≤ op.1 then
        .ok ((lastSet ops id).filter fun p => p.1.inner ≠ 2147483647 ∧ p.2.inner ≠ 2147483647)
      else .error .unwrap := by
  split
  · rename_i h
    obtain ⟨op, hop, hle⟩ := h
    have hi : id < es.length := by
      rcases inv.len with ⟨h, _, _⟩ | ⟨he, _⟩
      · rw [h] at hop; simp at hop
      · have := inv.bound op hop
        omega
    have ha := inv.at_ id hi
    rw [List.getElem?_eq_getElem hi, Option.some.injEq] at ha
    have hsplit : es = es.take id ++ es[id] :: es.drop (id + 1) := by
      rw [← List.drop_eq_getElem_cons hi, List.take_append_drop]
    have := get_entry (es.take id) (es.drop (id + 1)) es[id] (id := id) (by rw [List.length_take]; omega)
    rw [← hsplit] at this
    rw [inv.file, this, ha]
    cases hl : lastSet ops id with
    | none => rfl
    | some p =>
      simp only [Option.map_some, Option.getD_some, Option.filter_some]
      by_cases h1 : p.1.inner = 2147483647 ∨ p.2.inner = 2147483647
      · rw [if_pos (show p.1.inner = SENTINEL ∨ p.2.inner = SENTINEL from h1), if_neg]
        simp only [decide_eq_true_eq]
        rintro ⟨a, c⟩
        exact h1.elim a c
      · rw [if_neg (show ¬ (p.1.inner = SENTINEL ∨ p.2.inner = SENTINEL) from h1), if_pos]
        simp only [not_or] at h1
        simpa using h1
  · rename_i h
    simp only [not_exists, not_and, Nat.not_le] at h
    rw [inv.file]
    refine get_past es ?_
    rcases inv.len with ⟨_, he, _⟩ | ⟨he, op, hop, hm⟩
    · rw [he]; simp
    · have := h op hop; omega

end Osmio.NodeStore
