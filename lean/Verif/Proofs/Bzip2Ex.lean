import Verif.Proofs.Bzip2

/-! # Showing that some bytes are a bzip2 stream: what the encoder chose is given -/

namespace Osmio.Bzip2

open Spec.Zlib (Bits Lengths msb Word firstCode codeWord)
open Spec.Bzip2

instance (x y : List UInt8) : Decidable (Before x y) := decidable_of_iff _ (before_iff x y)

instance (n : Nat) (ls : Lengths) : Decidable (IsCode n ls) := inferInstanceAs (Decidable (_ ∧ _))

theorem runs_plain : ∀ (e : List UInt8), e.IsChain (· ≠ ·) → Runs e e := by
  intro e
  induction e with
  | nil => intro _; exact .stop
  | cons b e ih =>
    intro h
    have h2 : e.IsChain (· ≠ ·) := by
      cases e with
      | nil => exact .nil
      | cons d e => exact (List.isChain_cons_cons.mp h).2
    refine .short (e := e) (x := e) b 1 (by omega) (by omega) ?_ (ih h2)
    intro c hc
    cases e with
    | nil => cases hc
    | cons d e =>
      cases hc
      exact fun h3 => (List.isChain_cons_cons.mp h).1 h3.symm

theorem moved_of {α : Type} : ∀ (is : List Nat) (front l : List α), unmove front is = some l → Moved front l is := by
  intro is
  induction is with
  | nil => intro front l h; cases h; exact .stop
  | cons i is ih =>
    intro front l h
    simp only [unmove, Option.bind_eq_bind, Option.bind_eq_some_iff] at h
    obtain ⟨a, h1, l', h2, h3⟩ := h
    cases h3
    exact .next h1 (ih _ _ h2)

theorem coded_of : ∀ (n : Nat) (ss : List Nat), ss.length ≤ n → Coded (uncode 1 0 ss) ss := by
  intro n
  induction n with
  | zero =>
    intro ss h
    have : ss = [] := List.length_eq_zero_iff.mp (by omega)
    subst this
    exact .stop
  | succ n ih =>
    intro ss h
    cases ss with
    | nil => exact .stop
    | cons s ss =>
      rw [List.length_cons] at h
      by_cases hs : 2 ≤ s
      · obtain ⟨i, rfl⟩ : ∃ i, s = i + 2 := ⟨s - 2, by omega⟩
        exact .one (i + 1) (by omega) (ih ss (by omega))
      · have e : s :: ss = (s :: ss).takeWhile (fun d => decide (d < 2)) ++ (s :: ss).dropWhile (fun d => decide (d < 2)) :=
          (List.takeWhile_append_dropWhile).symm
        have hd : ∀ d ∈ (s :: ss).takeWhile (fun d => decide (d < 2)), d < 2 := by
          intro d hd
          simpa using List.all_eq_true.mp (List.all_takeWhile (p := fun d => decide (d < 2)) (l := s :: ss)) d hd
        have hr : ∀ c, ((s :: ss).dropWhile (fun d => decide (d < 2))).head? = some c → 2 ≤ c := by
          intro c hc
          have := List.head?_dropWhile_not (fun d => decide (d < 2)) (s :: ss)
          rw [hc] at this
          simpa using this
        have hlen : ((s :: ss).dropWhile (fun d => decide (d < 2))).length ≤ n := by
          rw [List.dropWhile_cons, if_pos (by simp; omega)]
          exact Nat.le_trans (List.dropWhile_sublist _).length_le (by omega)
        have hne : (s :: ss).takeWhile (fun d => decide (d < 2)) ≠ [] := by
          rw [List.takeWhile_cons, if_pos (by simp; omega)]; simp
        generalize (s :: ss).takeWhile (fun d => decide (d < 2)) = ds at e hd hne
        generalize (s :: ss).dropWhile (fun d => decide (d < 2)) = r at e hr hlen
        rw [e, uncode_digits ds 1 0 r hd, uncode_run _ _ hr]
        have := Coded.zeros ds hne hd hr (ih r hlen)
        simpa using this

/-- Lengths by the shortest steps. -/
def stepsOf : Nat → Lengths → Bits
  | _, [] => []
  | cur, l :: ls => (if cur ≤ l then (List.replicate (l - cur) [true, false]).flatten else (List.replicate (cur - l) [true, true]).flatten) ++ false :: stepsOf l ls

theorem steps_up (l : Nat) (ls : Lengths) (w : Bits) (h : l ≤ 20) : ∀ (m cur : Nat), cur + m = l → Steps l (l :: ls) w →
    Steps cur (l :: ls) ((List.replicate m [true, false]).flatten ++ w) := by
  intro m
  induction m with
  | zero => intro cur hc hs; have : cur = l := by omega
            subst this; simpa using hs
  | succ m ih =>
    intro cur hc hs
    rw [List.replicate_succ, List.flatten_cons, List.append_assoc]
    exact .up (by omega) (ih (cur + 1) (by omega) hs)

theorem steps_down (l : Nat) (ls : Lengths) (w : Bits) (h : 1 ≤ l) : ∀ (m cur : Nat), cur = l + m → Steps l (l :: ls) w →
    Steps cur (l :: ls) ((List.replicate m [true, true]).flatten ++ w) := by
  intro m
  induction m with
  | zero => intro cur hc hs; have : cur = l := by omega
            subst this; simpa using hs
  | succ m ih =>
    intro cur hc hs
    rw [List.replicate_succ, List.flatten_cons, List.append_assoc]
    exact .down (by omega) (ih (cur - 1) (by omega) hs)

theorem steps_stepsOf : ∀ (ls : Lengths), (∀ l ∈ ls, 1 ≤ l ∧ l ≤ 20) → ∀ cur, Steps cur ls (stepsOf cur ls) := by
  intro ls
  induction ls with
  | nil => intro _ cur; exact .stop
  | cons l ls ih =>
    intro h cur
    have hl := h l (by simp)
    have hs : Steps l (l :: ls) (false :: stepsOf l ls) := .here (ih (fun l hl => h l (by simp [hl])) l)
    rw [stepsOf]
    split
    · exact steps_up l ls _ hl.2 _ cur (by omega) hs
    · exact steps_down l ls _ hl.1 _ cur (by omega) hs

/-- A code, from its first length. -/
def tableOf (ls : Lengths) : Bits := msb 5 (ls.headD 1) ++ stepsOf (ls.headD 1) ls

theorem table_tableOf {n : Nat} {ls : Lengths} (h : IsCode n ls) : Table ls (tableOf ls) := by
  have : 1 ≤ ls.headD 1 ∧ ls.headD 1 ≤ 20 := by
    cases ls with
    | nil => simp
    | cons l ls => exact h.2.1 l (by simp)
  exact ⟨_, _, this.1, this.2, steps_stepsOf ls h.2.1 _, rfl⟩

/-- The words of some symbols. -/
def dataOf (tables : List Lengths) (sels : List Nat) : Nat → List Nat → Option Bits
  | _, [] => some []
  | i, s :: ss =>
    match sels[i / 50]? with
    | none => none
    | some t =>
      match tables[t]? with
      | none => none
      | some ls =>
        match ls[s]? with
        | none => none
        | some l =>
          match dataOf tables sels (i + 1) ss with
          | none => none
          | some r => some (msb l (codeWord ls s) ++ r)

theorem data_dataOf {tables : List Lengths} {sels : List Nat} {n : Nat} (hc : ∀ t ∈ tables, IsCode n t) : ∀ (ss : List Nat) (i : Nat) (d : Bits),
    dataOf tables sels i ss = some d → Data tables sels i ss d := by
  intro ss
  induction ss with
  | nil => intro i d h; cases h; exact .stop
  | cons s ss ih =>
    intro i d h
    rw [dataOf] at h
    split at h
    · cases h
    · rename_i t h1
      split at h
      · cases h
      · rename_i ls h2
        split at h
        · cases h
        · rename_i l h3
          split at h
          · cases h
          · rename_i r h4
            cases h
            have := (hc ls (List.mem_of_getElem? h2)).2.1 l (List.mem_of_getElem? h3)
            exact .next h1 h2 ⟨l, h3, by omega, rfl⟩ (ih _ _ h4)

/-- A block, from what the encoder chose. -/
theorem block_chosen {level : Nat} {e x l : List UInt8} {ptr : Nat} {ss sels js : List Nat} {tables : List Lengths} {d : Bits}
    (hr : Runs e x) (he : e ≠ []) (hl : e.length ≤ 100000 * level)
    (ht : l.map some = (sort ((List.range e.length).map (rotation e))).map List.getLast? ∧ (sort ((List.range e.length).map (rotation e)))[ptr]? = some e)
    (hm : unmove (alphabet l) (uncode 1 0 ss) = some l)
    (hc : 2 ≤ tables.length ∧ tables.length ≤ 6 ∧ ∀ t ∈ tables, IsCode ((alphabet l).length + 2) t)
    (hs : ss.length + 1 ≤ 50 * sels.length ∧ sels.length ≤ 18002 ∧ unmove (List.range tables.length) js = some sels)
    (hd : dataOf tables sels 0 (ss ++ [(alphabet l).length + 1]) = some d) :
    Block level (msb 48 0x314159265359 ++ (msb 32 (crc x).toNat ++ (false :: (msb 24 ptr ++ (mapBits l ++ (msb 3 tables.length ++
        (msb 15 sels.length ++ (js.flatMap unary ++ ((tables.map tableOf).flatten ++ d))))))))) x := by
  refine .mk hr he hl ⟨_, sort_perm _, sort_sorted _, ht.1, ht.2⟩ (moved_of _ _ _ hm) (coded_of _ ss (Nat.le_refl _)) hc.1 hc.2.1 hc.2.2 hs.1 hs.2.1
    (moved_of _ _ _ hs.2.2) ?_ (data_dataOf hc.2.2 _ _ _ hd)
  rw [List.forall₂_map_right_iff]
  exact List.forall₂_same.mpr fun t h => table_tableOf (hc.2.2 t h)

/-! Two streams that `bzip2` wrote. -/

namespace Ex

/-- `<osm version="0.6">` -/
def data1 : List UInt8 := [60, 111, 115, 109, 32, 118, 101, 114, 115, 105, 111, 110, 61, 34, 48, 46, 54, 34, 62]

/-- … compressed by `bzip2` -/
def stream1 : List UInt8 := [66, 90, 104, 57, 49, 65, 89, 38, 83, 89, 139, 18, 24, 239, 0, 0, 3, 25, 128, 80, 1, 65, 7, 2, 35, 153, 0, 32, 0, 34, 134, 155, 80, 200,
  242, 20, 192, 1, 52, 141, 128, 227, 146, 201, 88, 159, 149, 165, 66, 238, 72, 167, 10, 18, 17, 98, 67, 29, 224]

/-- `<way id="7"/></osm>` -/
def data2 : List UInt8 := [60, 119, 97, 121, 32, 105, 100, 61, 34, 55, 34, 47, 62, 60, 47, 111, 115, 109, 62]

/-- … compressed by `bzip2` -/
def stream2 : List UInt8 := [66, 90, 104, 57, 49, 65, 89, 38, 83, 89, 58, 112, 117, 21, 0, 0, 3, 153, 128, 80, 0, 128, 135, 36, 34, 136, 160, 32, 0, 34, 153, 49, 12,
  143, 212, 41, 128, 0, 26, 26, 19, 120, 239, 40, 245, 14, 73, 98, 238, 72, 167, 10, 18, 7, 78, 14, 162, 160]

theorem isStream1 : Stream stream1 data1 := by
  have hb := block_chosen (level := 9) (e := data1) (x := data1)
    (l := [109, 61, 54, 48, 34, 46, 62, 110, 34, 118, 115, 115, 111, 105, 60, 101, 114, 111, 32]) (ptr := 6)
    (ss := [11, 8, 7, 7, 6, 7, 9, 12, 4, 16, 16, 0, 15, 15, 14, 15, 16, 5, 16]) (sels := [0]) (js := [0])
    (tables := [[5, 5, 5, 5, 4, 5, 4, 3, 5, 5, 5, 4, 4, 5, 5, 3, 3, 4], [5, 5, 4, 4, 4, 4, 4, 4, 4, 4, 4, 4, 4, 4, 4, 5, 4, 5]])
    (runs_plain _ (by decide +kernel)) (by decide) (by decide) (by decide +kernel) (by decide +kernel) (by decide +kernel) (by decide +kernel) rfl
  have := Stream.mk (level := 9) (by omega) (by omega) (.more hb .stop) (body := stream1.drop 4) (pad := (bits (stream1.drop 4)).drop 435)
    (by decide +kernel) (by decide +kernel)
  exact this

theorem isStream2 : Stream stream2 data2 := by
  have hb := block_chosen (level := 9) (e := data2) (x := data2)
    (l := [121, 55, 61, 34, 60, 34, 62, 62, 100, 47, 109, 119, 105, 32, 115, 47, 111, 60, 97]) (ptr := 7)
    (ss := [15, 5, 7, 5, 7, 2, 8, 0, 10, 9, 12, 15, 13, 12, 15, 6, 15, 11, 15]) (sels := [0]) (js := [0])
    (tables := [[5, 5, 4, 4, 5, 4, 4, 4, 5, 5, 5, 4, 4, 5, 5, 2, 4], [5, 5, 4, 4, 4, 4, 4, 4, 4, 4, 4, 4, 4, 4, 4, 4, 4]])
    (runs_plain _ (by decide +kernel)) (by decide) (by decide) (by decide +kernel) (by decide +kernel) (by decide +kernel) (by decide +kernel) rfl
  have := Stream.mk (level := 9) (by omega) (by omega) (.more hb .stop) (body := stream2.drop 4) (pad := (bits (stream2.drop 4)).drop 427)
    (by decide +kernel) (by decide +kernel)
  exact this

/-- `<osm><changeset id='7'><tag k='a' v='b'/></changeset>` -/
def data3 : List UInt8 := [60, 111, 115, 109, 62, 60, 99, 104, 97, 110, 103, 101, 115, 101, 116, 32, 105, 100, 61, 39, 55, 39, 62, 60, 116, 97, 103,
  32, 107, 61, 39, 97, 39, 32, 118, 61, 39, 98, 39, 47, 62, 60, 47, 99, 104, 97, 110, 103, 101, 115, 101, 116, 62]

/-- … compressed by `bzip2` -/
def stream3 : List UInt8 := [66, 90, 104, 57, 49, 65, 89, 38, 83, 89, 102, 241, 26, 207, 0, 0, 7, 25, 128, 64, 128, 128, 135, 62, 235, 141, 0, 32, 0,
  72, 74, 167, 168, 244, 141, 162, 122, 141, 51, 40, 81, 163, 32, 104, 211, 35, 72, 126, 26, 205, 84, 21, 146, 193, 222, 37, 242, 253, 9, 241, 187,
  83, 62, 146, 98, 13, 26, 21, 74, 193, 40, 0, 252, 93, 201, 20, 225, 66, 65, 155, 196, 107, 60]

/-- `</osm>` -/
def data4 : List UInt8 := [60, 47, 111, 115, 109, 62]

/-- … compressed by `bzip2` -/
def stream4 : List UInt8 := [66, 90, 104, 57, 49, 65, 89, 38, 83, 89, 15, 106, 123, 53, 0, 0, 0, 153, 128, 0, 0, 128, 5, 0, 2, 136, 0, 32, 0, 33, 128,
  12, 1, 57, 174, 226, 238, 72, 167, 10, 18, 1, 237, 79, 102, 160]

theorem isStream3 : Stream stream3 data3 := by
  have hb := block_chosen (level := 9) (e := data3) (x := data3)
        (l := [116, 103, 39, 97, 98, 61, 55, 61, 61, 39, 60, 39, 62, 62, 62, 62, 100, 107, 118, 47, 109, 116, 39, 39, 116, 104, 104, 39, 60, 47, 105,
      103, 103, 115, 115, 97, 110, 110, 99, 99, 32, 32, 115, 97, 97, 60, 101, 101, 111, 101, 101, 60, 32]) (ptr := 14)
        (ss := [21, 14, 4, 10, 11, 10, 9, 2, 0, 5, 10, 2, 11, 0, 0, 13, 17, 22, 14, 19, 14, 8, 0, 2, 18, 0, 3, 10, 6, 19, 16, 0, 22, 0, 17, 21, 0, 20,
      0, 20, 0, 5, 5, 0, 9, 21, 0, 22, 2, 0, 3, 6])
    (sels := [0, 1]) (js := [0, 1])
        (tables := [[2, 6, 4, 6, 6, 4, 5, 6, 6, 5, 4, 5, 5, 6, 4, 6, 6, 5, 6, 5, 5, 4, 4, 6], [5, 5, 5, 4, 5, 5, 4, 4, 5, 5, 5, 5, 5, 4, 5, 5, 4, 5,
      4, 4, 5, 5, 4, 5]])
    (runs_plain _ (by decide +kernel)) (by decide) (by decide) (by decide +kernel) (by decide +kernel) (by decide +kernel) (by decide +kernel) rfl
  have := Stream.mk (level := 9) (by omega) (by omega) (.more hb .stop) (body := stream3.drop 4) (pad := (bits (stream3.drop 4)).drop 630)
    (by decide +kernel) (by decide +kernel)
  exact this

theorem isStream4 : Stream stream4 data4 := by
  have hb := block_chosen (level := 9) (e := data4) (x := data4)
    (l := [60, 62, 109, 115, 47, 111]) (ptr := 1)
    (ss := [2, 3, 4, 6, 5, 6])
    (sels := [0]) (js := [0])
    (tables := [[3, 3, 3, 3, 3, 3, 3, 3], [3, 3, 3, 3, 3, 3, 3, 3]])
    (runs_plain _ (by decide +kernel)) (by decide) (by decide) (by decide +kernel) (by decide +kernel) (by decide +kernel) (by decide +kernel) rfl
  have := Stream.mk (level := 9) (by omega) (by omega) (.more hb .stop) (body := stream4.drop 4) (pad := (bits (stream4.drop 4)).drop 331)
    (by decide +kernel) (by decide +kernel)
  exact this

end Ex

/-! ## Every string can be compressed -/

theorem alphabet_single (b : UInt8) : alphabet [b] = [b] := by
  have h : ∀ n : Fin 256, alphabet [UInt8.ofNat n.val] = [UInt8.ofNat n.val] := by decide +kernel
  have := h ⟨b.toNat, b.toNat_lt⟩
  simpa using this

/-- A block of one byte. -/
theorem block_single (b : UInt8) : ∃ w, Block 9 w [b] := by
  have h := alphabet_single b
  exact ⟨_, block_chosen (level := 9) (e := [b]) (x := [b]) (l := [b]) (ptr := 0) (ss := [0]) (sels := [0]) (js := [0])
    (tables := [[2, 2, 2], [2, 2, 2]]) (d := [false, false, true, false]) (runs_plain _ (by simp)) (by simp) (by simp) ⟨by simp [rotation, sort, insert], by simp [rotation, sort, insert]⟩
    (by rw [h]; rfl) (by rw [h, List.length_singleton]; decide +kernel) (by decide +kernel) (by rw [h, List.length_singleton]; decide +kernel)⟩

theorem blocks_every : ∀ (x : List UInt8) (c : UInt32), ∃ w, Blocks 9 c w x
  | [], _ => ⟨_, .stop⟩
  | b :: x, c =>
    let ⟨_, h⟩ := block_single b
    let ⟨_, h'⟩ := blocks_every x (combine c (crc [b]))
    ⟨_, .more h h'⟩

theorem byte_of : ∀ a b c d e f g h : Bool, msb 8 (UInt8.ofNat (128 * a.toNat + 64 * b.toNat + 32 * c.toNat + 16 * d.toNat + 8 * e.toNat + 4 * f.toNat + 2 * g.toNat + h.toNat)).toNat =
    [a, b, c, d, e, f, g, h] := by decide +kernel

/-- Bits as bytes, with zeros at the end. -/
theorem padded : ∀ (n : Nat) (w : Bits), w.length ≤ n → ∃ body pad, bits body = w ++ pad ∧ pad.length < 8 := by
  intro n
  induction n using Nat.strong_induction_on with
  | _ n ih =>
    intro w hw
    match w, hw with
    | a :: b :: c :: d :: e :: f :: g :: h :: w, hw =>
      have hw : w.length + 8 ≤ n := by simpa using hw
      obtain ⟨body, pad, h1, h2⟩ := ih (n - 8) (by omega) w (by omega)
      refine ⟨UInt8.ofNat (128 * a.toNat + 64 * b.toNat + 32 * c.toNat + 16 * d.toNat + 8 * e.toNat + 4 * f.toNat + 2 * g.toNat + h.toNat) ::
        body, pad, ?_, h2⟩
      · have h1 : body.flatMap (fun b => msb 8 b.toNat) = w ++ pad := h1
        simp only [bits, List.flatMap_cons, h1, byte_of]; rfl
    | [], _ => exact ⟨[], [], rfl, by simp⟩
    | [a], _ => exact ⟨[_], [false, false, false, false, false, false, false], (List.append_nil _).trans (byte_of a _ _ _ _ _ _ _), by simp⟩
    | [a, b], _ => exact ⟨[_], [false, false, false, false, false, false], (List.append_nil _).trans (byte_of a b _ _ _ _ _ _), by simp⟩
    | [a, b, c], _ => exact ⟨[_], [false, false, false, false, false], (List.append_nil _).trans (byte_of a b c _ _ _ _ _), by simp⟩
    | [a, b, c, d], _ => exact ⟨[_], [false, false, false, false], (List.append_nil _).trans (byte_of a b c d _ _ _ _), by simp⟩
    | [a, b, c, d, e], _ => exact ⟨[_], [false, false, false], (List.append_nil _).trans (byte_of a b c d e _ _ _), by simp⟩
    | [a, b, c, d, e, f], _ => exact ⟨[_], [false, false], (List.append_nil _).trans (byte_of a b c d e f _ _), by simp⟩
    | [a, b, c, d, e, f, g], _ => exact ⟨[_], [false], (List.append_nil _).trans (byte_of a b c d e f g _), by simp⟩

theorem stream_every (x : List UInt8) : ∃ p, Stream p x :=
  let ⟨_, h⟩ := blocks_every x 0
  let ⟨_, _, h1, h2⟩ := padded _ _ (Nat.le_refl _)
  ⟨_, .mk (level := 9) (by omega) (by omega) h h1 h2⟩

/-- Every string, cut anywhere. -/
theorem file_every (x y : List UInt8) : ∃ p q, Stream p x ∧ Stream q y ∧ File (p ++ q) (x ++ y) := by
  obtain ⟨p, hp⟩ := stream_every x
  obtain ⟨q, hq⟩ := stream_every y
  exact ⟨p, q, hp, hq, [(p, x), (q, y)], by simp, by
    intro s hs
    simp only [List.mem_cons, List.not_mem_nil, or_false] at hs
    rcases hs with rfl | rfl <;> assumption, by simp, by simp⟩

end Osmio.Bzip2
