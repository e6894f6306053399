import Verif.Spec.WireValues
import Verif.Proofs.ProtoFields
import Verif.Proofs.ProtoWire
import Verif.Proofs.Utf8Strict
/-! # Merging fields into a message, field by field -/

namespace Osmio.Proto
open Spec.Wire

/-! ## Numbers -/

theorem asInt32_iff {n : Nat} (h : n < 2 ^ 64) (x : Int32) : asInt32 n = some x ↔ IsInt32 n x := by
  unfold IsInt32
  split
  · rename_i hn
    constructor
    · intro e
      unfold asInt32 at e
      rw [if_pos hn] at e
      cases e
      unfold int32
      rw [Int32.toInt_ofInt]
      have e2 : Int.bmod (n : Int) Int32.size = if n < 2 ^ 31 then (n : Int) else (n : Int) - 2 ^ 64 := by
        rw [show Int32.size = 4294967296 from rfl, Int.bmod_def]
        split <;> split <;> omega
      rw [e2]
      clear e2
      rcases hn with hn | hn
      · rw [if_pos hn, if_pos (by omega)]; omega
      · rw [if_neg (by omega), if_neg (by omega)]; omega
    · intro e
      rw [← e, ← encInt32_eq, asInt32_enc]
  · rename_i hn
    unfold asInt32
    rw [if_neg hn]

theorem asInt64_iff {n : Nat} (h : n < 2 ^ 64) (x : Int64) : asInt64 n = some x ↔ IsInt64 n x := by
  unfold IsInt64
  constructor
  · intro e
    cases e
    unfold int64
    rw [Int64.toInt_ofInt]
    have e2 : Int.bmod (n : Int) Int64.size = if n < 2 ^ 63 then (n : Int) else (n : Int) - 2 ^ 64 := by
      rw [show Int64.size = 18446744073709551616 from rfl, Int.bmod_def]
      split <;> split <;> omega
    rw [e2]
    clear e2
    by_cases hn : n < 2 ^ 63
    · rw [if_pos hn, if_pos (by omega)]; omega
    · rw [if_neg hn, if_neg (by omega)]; omega
  · intro e
    rw [← e, ← encInt64_eq, asInt64_enc]

theorem asUInt32_iff (n : Nat) (x : UInt32) : asUInt32 n = some x ↔ IsUInt32 n x := by
  unfold IsUInt32
  split
  · rename_i hn
    constructor
    · intro e
      unfold asUInt32 at e
      rw [narrow_of_lt hn] at e
      cases e
      show (UInt32.ofNat n).toNat = n
      rw [UInt32.toNat_ofNat', Nat.mod_eq_of_lt hn]
    · intro e
      rw [← e, ← encUInt32_eq, asUInt32_enc]
  · rfl

theorem sint_eq (n : Nat) : (if 0 ≤ unZigZag n then 2 * (unZigZag n).natAbs else 2 * (unZigZag n).natAbs - 1) = n := by
  unfold unZigZag
  split <;> split <;> omega

theorem zigZag32_iff (n : Nat) (x : Int32) : zigZag32 n = some x ↔ IsSint32 n x := by
  unfold IsSint32
  split
  · rename_i hn
    constructor
    · intro e
      unfold zigZag32 at e
      rw [narrow_of_lt hn] at e
      cases e
      unfold sint32
      rw [Int32.toInt_ofInt]
      have e2 : Int.bmod (unZigZag n) Int32.size = unZigZag n := by
        show Int.bmod _ (2 ^ 32) = _
        unfold unZigZag
        rw [Int.bmod_def]
        split <;> split <;> omega
      rw [e2, sint_eq]
    · intro e
      rw [← e, ← encSint32_eq, zigZag32_enc]
  · rfl

theorem zigZag64_iff {n : Nat} (h : n < 2 ^ 64) (x : Int64) : zigZag64 n = some x ↔ IsSint64 n x := by
  unfold IsSint64
  constructor
  · intro e
    cases e
    unfold sint64
    rw [Int64.toInt_ofInt]
    have e2 : Int.bmod (unZigZag n) Int64.size = unZigZag n := by
      show Int.bmod _ (2 ^ 64) = _
      unfold unZigZag
      rw [Int.bmod_def]
      split <;> split <;> omega
    rw [e2, sint_eq]
  · intro e
    rw [← e, ← encSint64_eq, zigZag64_enc]

theorem asBool_iff (n : Nat) (x : Bool) : asBool n = some x ↔ IsBool n x := by
  unfold IsBool asBool
  split
  · rw [Option.some_inj]
    cases x <;> simp
  · rfl

/-! ## Field by field -/

/-- A number of a field is one of 64 bits. -/
def Fits (f : Field) : Prop := ∀ n, f.val = .varint n → n < 2 ^ 64

theorem fits_of_fields {bs : Bytes} {fs : List Field} (h : Fields bs fs) : ∀ f ∈ fs, Fits f := by
  induction h with
  | nil => intro f hf; cases hf
  | @cons b field type x r fs h1 _ ih =>
    intro f hf
    rcases List.mem_cons.1 hf with rfl | hf
    · intro n hn
      cases h1 with
      | plain _ h2 =>
        cases h2 with
        | varint h3 => cases hn; exact h3.2.2
        | fixed64 _ => cases hn
        | len _ => cases hn
        | fixed32 _ => cases hn
      | group _ _ => cases hn
    · exact ih f hf

theorem numbers_lt {bs : Bytes} {ns : List Nat} (h : Numbers bs ns) : ∀ n ∈ ns, n < 2 ^ 64 := by
  induction h with
  | nil => intro n hn; cases hn
  | cons h1 _ ih =>
    intro n hn
    rcases List.mem_cons.1 hn with rfl | hn
    · exact h1.2.2
    · exact ih n hn

theorem forall₂_congr {α β : Type} {R S : α → β → Prop} {l : List α} : ∀ {m : List β}, (∀ a ∈ l, ∀ b, R a b ↔ S a b) →
    (List.Forall₂ R l m ↔ List.Forall₂ S l m) := by
  induction l with
  | nil => intro m _; constructor <;> intro h <;> cases h <;> exact .nil
  | cons a l ih =>
    intro m h
    have ha := h a (List.mem_cons_self ..)
    have hl := fun {m} => @ih m fun x hx => h x (List.mem_cons_of_mem _ hx)
    constructor
    · intro h; cases h with | cons h1 h2 => exact .cons ((ha _).1 h1) (hl.1 h2)
    · intro h; cases h with | cons h1 h2 => exact .cons ((ha _).2 h1) (hl.2 h2)

/-- One field may replace the value. -/
def StepOne {α : Type} (tag : Nat) (rd : Field → Option α) (o : Option α) (f : Field) (o' : Option α) : Prop :=
  if f.tag = tag then ∃ v, rd f = some v ∧ o' = some v else o' = o

/-- One field may add values. -/
def StepMany {α : Type} (tag : Nat) (rd : Field → Option (List α)) (l : List α) (f : Field) (l' : List α) : Prop :=
  if f.tag = tag then ∃ v, rd f = some v ∧ l' = l ++ v else l' = l

/-- One field may add values in two ways. -/
def StepPack {α : Type} (tag tag' : Nat) (rd rd' : Field → Option (List α)) (l : List α) (f : Field) (l' : List α) : Prop :=
  if f.tag = tag then ∃ v, rd f = some v ∧ l' = l ++ v else if f.tag = tag' then ∃ v, rd' f = some v ∧ l' = l ++ v else l' = l

theorem StepOne.hit {α : Type} {tag : Nat} {rd : Field → Option α} {o o' : Option α} {f : Field} (h : f.tag = tag) :
    StepOne tag rd o f o' ↔ ∃ v, rd f = some v ∧ o' = some v := by unfold StepOne; rw [if_pos h]

theorem StepOne.miss {α : Type} {tag : Nat} {rd : Field → Option α} {o o' : Option α} {f : Field} (h : f.tag ≠ tag) :
    StepOne tag rd o f o' ↔ o' = o := by unfold StepOne; rw [if_neg h]

theorem StepMany.hit {α : Type} {tag : Nat} {rd : Field → Option (List α)} {l l' : List α} {f : Field} (h : f.tag = tag) :
    StepMany tag rd l f l' ↔ ∃ v, rd f = some v ∧ l' = l ++ v := by unfold StepMany; rw [if_pos h]

theorem StepMany.miss {α : Type} {tag : Nat} {rd : Field → Option (List α)} {l l' : List α} {f : Field} (h : f.tag ≠ tag) :
    StepMany tag rd l f l' ↔ l' = l := by unfold StepMany; rw [if_neg h]

theorem StepPack.hit {α : Type} {tag tag' : Nat} {rd rd' : Field → Option (List α)} {l l' : List α} {f : Field} (h : f.tag = tag) :
    StepPack tag tag' rd rd' l f l' ↔ ∃ v, rd f = some v ∧ l' = l ++ v := by unfold StepPack; rw [if_pos h]

theorem StepPack.hit2 {α : Type} {tag tag' : Nat} {rd rd' : Field → Option (List α)} {l l' : List α} {f : Field} (h : f.tag ≠ tag)
    (h' : f.tag = tag') : StepPack tag tag' rd rd' l f l' ↔ ∃ v, rd' f = some v ∧ l' = l ++ v := by
  unfold StepPack; rw [if_neg h, if_pos h']

theorem StepPack.miss {α : Type} {tag tag' : Nat} {rd rd' : Field → Option (List α)} {l l' : List α} {f : Field} (h : f.tag ≠ tag)
    (h' : f.tag ≠ tag') : StepPack tag tag' rd rd' l f l' ↔ l' = l := by unfold StepPack; rw [if_neg h, if_neg h']

/-- All fields, one after the other. -/
def Run {σ : Type} (step : σ → Field → σ → Prop) : σ → List Field → σ → Prop
  | s, [], s' => s' = s
  | s, f :: fs, s' => ∃ x, step s f x ∧ Run step x fs s'

theorem run_one {α : Type} {tag : Nat} {rd : Field → Option α} (fs : List Field) : ∀ {o o' : Option α},
    Run (StepOne tag rd) o fs o' ↔
      ∃ l, List.Forall₂ (fun f a => rd f = some a) (fs.filter fun f => f.tag = tag) l ∧ o' = l.getLast?.or o := by
  induction fs with
  | nil =>
    intro o o'
    constructor
    · intro h; exact ⟨[], .nil, by simpa [Run] using h⟩
    · rintro ⟨l, h, e⟩; cases h; simpa [Run] using e
  | cons f fs ih =>
    intro o o'
    by_cases ht : f.tag = tag
    · rw [List.filter_cons_of_pos (by simpa using ht)]
      constructor
      · rintro ⟨x, h1, h2⟩
        unfold StepOne at h1
        rw [if_pos ht] at h1
        obtain ⟨v, hv, rfl⟩ := h1
        obtain ⟨l, h3, h4⟩ := ih.1 h2
        refine ⟨v :: l, .cons hv h3, ?_⟩
        rw [h4, List.getLast?_cons]
        cases l.getLast? <;> rfl
      · rintro ⟨l, h, e⟩
        cases h with
        | @cons _ v _ l h1 h2 =>
          refine ⟨some v, by unfold StepOne; rw [if_pos ht]; exact ⟨v, h1, rfl⟩, ih.2 ⟨l, h2, ?_⟩⟩
          rw [e, List.getLast?_cons]
          cases l.getLast? <;> rfl
    · rw [List.filter_cons_of_neg (by simpa using ht)]
      constructor
      · rintro ⟨x, h1, h2⟩
        unfold StepOne at h1
        rw [if_neg ht] at h1
        subst h1
        exact ih.1 h2
      · intro h
        exact ⟨o, by unfold StepOne; rw [if_neg ht], ih.2 h⟩

theorem run_pack {α : Type} {tag tag' : Nat} {rd rd' : Field → Option (List α)} (fs : List Field) : ∀ {l l' : List α},
    Run (StepPack tag tag' rd rd') l fs l' ↔
      ∃ parts, List.Forall₂ (fun f a => if f.tag = tag then rd f = some a else rd' f = some a)
        (fs.filter fun f => f.tag = tag ∨ f.tag = tag') parts ∧ l' = l ++ parts.flatten := by
  induction fs with
  | nil =>
    intro l l'
    constructor
    · intro h; exact ⟨[], .nil, by simpa [Run] using h⟩
    · rintro ⟨p, h, e⟩; cases h; simpa [Run] using e
  | cons f fs ih =>
    intro l l'
    by_cases ht : f.tag = tag ∨ f.tag = tag'
    · rw [List.filter_cons_of_pos (by simpa using ht)]
      have hs : ∀ x, StepPack tag tag' rd rd' l f x ↔
          ∃ v, (if f.tag = tag then rd f = some v else rd' f = some v) ∧ x = l ++ v := by
        intro x
        unfold StepPack
        by_cases h1 : f.tag = tag
        · simp only [if_pos h1]
        · simp only [if_neg h1, if_pos (ht.resolve_left h1)]
      constructor
      · rintro ⟨x, h1, h2⟩
        obtain ⟨v, hv, rfl⟩ := (hs x).1 h1
        obtain ⟨p, h3, h4⟩ := ih.1 h2
        exact ⟨v :: p, .cons hv h3, by rw [h4, List.flatten_cons, List.append_assoc]⟩
      · rintro ⟨p, h, e⟩
        cases h with
        | @cons _ v _ p h1 h2 =>
          exact ⟨l ++ v, (hs _).2 ⟨v, h1, rfl⟩, ih.2 ⟨p, h2, by rw [e, List.flatten_cons, List.append_assoc]⟩⟩
    · rw [List.filter_cons_of_neg (by simpa using ht)]
      have hs : ∀ x, StepPack tag tag' rd rd' l f x ↔ x = l := by
        intro x
        unfold StepPack
        rw [if_neg (fun h => ht (.inl h)), if_neg (fun h => ht (.inr h))]
      constructor
      · rintro ⟨x, h1, h2⟩
        rw [hs] at h1
        subst h1
        exact ih.1 h2
      · intro h
        exact ⟨l, (hs _).2 rfl, ih.2 h⟩

theorem run_many {α : Type} {tag : Nat} {rd : Field → Option α} (fs : List Field) : ∀ {l l' : List α},
    Run (StepMany tag (fun f => (rd f).map fun v => [v])) l fs l' ↔
      ∃ p, List.Forall₂ (fun f a => rd f = some a) (fs.filter fun f => f.tag = tag) p ∧ l' = l ++ p := by
  induction fs with
  | nil =>
    intro l l'
    constructor
    · intro h; exact ⟨[], .nil, by simpa [Run] using h⟩
    · rintro ⟨p, h, e⟩; cases h; simpa [Run] using e
  | cons f fs ih =>
    intro l l'
    by_cases ht : f.tag = tag
    · rw [List.filter_cons_of_pos (by simpa using ht)]
      constructor
      · rintro ⟨x, h1, h2⟩
        unfold StepMany at h1
        rw [if_pos ht] at h1
        obtain ⟨v, hv, rfl⟩ := h1
        obtain ⟨a, ha, rfl⟩ := Option.map_eq_some_iff.1 hv
        obtain ⟨p, h3, h4⟩ := ih.1 h2
        exact ⟨a :: p, .cons ha h3, by rw [h4, List.append_assoc]; rfl⟩
      · rintro ⟨p, h, e⟩
        cases h with
        | @cons _ a _ p h1 h2 =>
          refine ⟨l ++ [a], ?_, ih.2 ⟨p, h2, by rw [e, List.append_assoc]; rfl⟩⟩
          unfold StepMany
          rw [if_pos ht]
          exact ⟨[a], Option.map_eq_some_iff.2 ⟨a, h1, rfl⟩, rfl⟩
    · rw [List.filter_cons_of_neg (by simpa using ht)]
      constructor
      · rintro ⟨x, h1, h2⟩
        unfold StepMany at h1
        rw [if_neg ht] at h1
        subst h1
        exact ih.1 h2
      · intro h
        exact ⟨l, by unfold StepMany; rw [if_neg ht], ih.2 h⟩

/-! ## What is read -/

theorem forall₂_values {α : Type} {R : Val → α → Prop} {fs : List Field} {number type : Nat} {l : List α} :
    List.Forall₂ R (values number type fs) l ↔
      List.Forall₂ (fun f a => R f.val a) (fs.filter fun f => f.tag = 8 * number + type) l := by
  unfold values
  exact List.forall₂_map_left_iff

theorem num_iff {α : Type} {dec : Nat → Option α} {R : Nat → α → Prop} (h : ∀ {n}, n < 2 ^ 64 → ∀ a, dec n = some a ↔ R n a) {f : Field}
    (hf : Fits f) (a : α) : f.num dec = some a ↔ AsNumber R f.val a := by
  unfold Field.num Field.varint AsNumber
  cases e : f.val with
  | varint n =>
    show dec n = some a ↔ _
    rw [h (hf n e)]
    exact ⟨fun h => ⟨n, rfl, h⟩, fun ⟨m, e, h⟩ => by cases e; exact h⟩
  | _ => exact ⟨fun h => (by cases h), fun ⟨m, e, h⟩ => (by cases e)⟩

theorem bytes_iff (f : Field) (a : Bytes) : f.bytes = some a ↔ AsBytes f.val a := by
  unfold Field.bytes AsBytes
  cases e : f.val with
  | len bs => exact ⟨fun h => (by cases h; rfl), fun h => (by cases h; rfl)⟩
  | _ => exact ⟨fun h => (by cases h), fun h => (by cases h)⟩

theorem string_iff (f : Field) (a : Str) : f.string = some a ↔ AsText f.val a := by
  unfold Field.string AsText
  rw [Option.bind_eq_some_iff]
  constructor
  · rintro ⟨bs, h1, h2⟩
    rw [(bytes_iff f bs).1 h1, Utf8.decode_iff.1 h2]
  · intro h
    exact ⟨_, (bytes_iff f _).2 h, Utf8.decode_iff.2 rfl⟩

theorem message_iff {M : Type} {merge : M → Field → Option M} {new : M} {R : Bytes → M → Prop}
    (h : ∀ bs m, parse merge new bs = some m ↔ R bs m) (f : Field) (a : M) : f.message merge new = some a ↔ AsMessage R f.val a := by
  unfold Field.message AsMessage
  rw [Option.bind_eq_some_iff]
  constructor
  · rintro ⟨bs, h1, h2⟩
    exact ⟨bs, (bytes_iff f bs).1 h1, (h bs a).1 h2⟩
  · rintro ⟨bs, h1, h2⟩
    exact ⟨bs, (bytes_iff f bs).2 h1, (h bs a).2 h2⟩

theorem packed_iff {α : Type} {dec : Nat → Option α} {R : Nat → α → Prop} (h : ∀ {n}, n < 2 ^ 64 → ∀ a, dec n = some a ↔ R n a) (f : Field)
    (l : List α) : f.packed dec = some l ↔ ∃ bs ns, f.val = .len bs ∧ Numbers bs ns ∧ List.Forall₂ R ns l := by
  unfold Field.packed
  rw [Option.bind_eq_some_iff]
  constructor
  · rintro ⟨bs, h1, h2⟩
    obtain ⟨ns, h3, h4⟩ := (readPackedAux_iff dec _ le_rfl).1 h2
    exact ⟨bs, ns, (bytes_iff f bs).1 h1, h3, (forall₂_congr fun n hn a => h (numbers_lt h3 n hn) a).1 h4⟩
  · rintro ⟨bs, ns, h1, h3, h4⟩
    exact ⟨bs, (bytes_iff f bs).2 h1, (readPackedAux_iff dec _ le_rfl).2
      ⟨ns, h3, (forall₂_congr fun n hn a => h (numbers_lt h3 n hn) a).2 h4⟩⟩

variable {fs : List Field}

theorem run_oneNumber {α : Type} {tag number : Nat} {dec : Nat → Option α} {R : Nat → α → Prop} (hf : ∀ f ∈ fs, Fits f)
    (h : ∀ {n}, n < 2 ^ 64 → ∀ a, dec n = some a ↔ R n a) (ht : tag = 8 * number + 0) {o : Option α} :
    Run (StepOne tag (fun f => f.num dec)) none fs o ↔ SingleNumber number R fs o := by
  subst ht
  rw [run_one]
  unfold SingleNumber
  refine exists_congr fun l => and_congr ?_ (by rw [Option.or_none])
  rw [forall₂_values]
  exact forall₂_congr fun f hx a => num_iff h (hf f (List.mem_of_mem_filter hx)) a

theorem run_one' {α : Type} {tag number : Nat} {rd : Field → Option α} {R : Val → α → Prop} (h : ∀ f a, rd f = some a ↔ R f.val a)
    (ht : tag = 8 * number + 2) {o : Option α} : Run (StepOne tag rd) none fs o ↔ Single number R fs o := by
  subst ht
  rw [run_one]
  unfold Single
  refine exists_congr fun l => and_congr ?_ (by rw [Option.or_none])
  rw [forall₂_values]
  exact forall₂_congr fun f _ a => h f a

theorem run_many' {α : Type} {tag number : Nat} {rd : Field → Option α} {R : Val → α → Prop} (h : ∀ f a, rd f = some a ↔ R f.val a)
    (ht : tag = 8 * number + 2) {l : List α} :
    Run (StepMany tag (fun f => (rd f).map fun v => [v])) [] fs l ↔ Many number R fs l := by
  subst ht
  rw [run_many]
  unfold Many
  rw [forall₂_values]
  constructor
  · rintro ⟨p, h1, e⟩
    rw [e]
    exact (forall₂_congr fun f _ a => h f a).1 h1
  · intro h1
    exact ⟨l, (forall₂_congr fun f _ a => h f a).2 h1, rfl⟩

theorem run_manyNumbers {α : Type} {tag tag' number : Nat} {dec : Nat → Option α} {R : Nat → α → Prop} (hf : ∀ f ∈ fs, Fits f)
    (h : ∀ {n}, n < 2 ^ 64 → ∀ a, dec n = some a ↔ R n a) (ht : tag = 8 * number + 2) (ht' : tag' = 8 * number + 0) {l : List α} :
    Run (StepPack tag tag' (fun f => f.packed dec) (fun f => (f.num dec).map fun v => [v])) [] fs l ↔ ManyNumbers number R fs l := by
  subst ht ht'
  rw [run_pack]
  unfold ManyNumbers
  have e : (fs.filter fun f => f.tag = 8 * number + 2 ∨ f.tag = 8 * number + 0) =
      fs.filter fun f => f.tag = 8 * number + 0 ∨ f.tag = 8 * number + 2 :=
    congrArg (fs.filter ·) (funext fun f => decide_eq_decide.2 or_comm)
  rw [e]
  refine exists_congr fun p => and_congr (forall₂_congr fun f hx a => ?_) (by rw [List.nil_append])
  have hx' := List.mem_filter.1 hx
  unfold Occurrence
  by_cases h2 : f.tag = 8 * number + 2
  · rw [if_pos h2, packed_iff h]
    constructor
    · intro h; exact .inr ⟨h2, h⟩
    · rintro (⟨h, _⟩ | ⟨_, h⟩)
      · omega
      · exact h
  · have h0 : f.tag = 8 * number + 0 := by simpa [h2] using hx'.2
    rw [if_neg h2, Option.map_eq_some_iff]
    constructor
    · rintro ⟨b, h1, e⟩; exact .inl ⟨h0, b, (num_iff h (hf f hx'.1) b).1 h1, e.symm⟩
    · rintro (⟨_, b, h1, e⟩ | ⟨h, _⟩)
      · exact ⟨b, (num_iff h (hf f hx'.1) b).2 h1, e.symm⟩
      · exact absurd h h2

/-- From field by field to a message. -/
theorem parse_iff {M : Type} {merge : M → Field → Option M} {new : M} {C : List Field → M → Prop} {D : Bytes → M → Prop}
    (h : ∀ fs, (∀ f ∈ fs, Fits f) → ∀ m, mergeAll merge new fs = some m ↔ C fs m)
    (hD : ∀ bs m, D bs m ↔ ∃ fs, Fields bs fs ∧ C fs m) (bs : Bytes) (m : M) : parse merge new bs = some m ↔ D bs m := by
  unfold parse
  rw [hD, Option.bind_eq_some_iff]
  constructor
  · rintro ⟨fs, h1, h2⟩
    rw [readFields_iff] at h1
    exact ⟨fs, h1, (h fs (fits_of_fields h1) m).1 h2⟩
  · rintro ⟨fs, h1, h2⟩
    exact ⟨fs, readFields_iff.2 h1, (h fs (fits_of_fields h1) m).2 h2⟩

/-- With the check for required fields. -/
theorem read_iff {M : Type} {merge : M → Field → Option M} {new m : M} {D : Bytes → M → Prop} {init : M → Bool} {has : Prop}
    (h : ∀ bs m, parse merge new bs = some m ↔ D bs m) (hi : init m = true ↔ has) (bs : Bytes) :
    ((parse merge new bs).bind fun m => if init m then some m else none) = some m ↔ D bs m ∧ has := by
  rw [Option.bind_eq_some_iff, ← h, ← hi]
  constructor
  · rintro ⟨m', h1, h2⟩
    split at h2
    · rename_i h3; cases h2; exact ⟨h1, h3⟩
    · cases h2
  · rintro ⟨h1, h2⟩
    exact ⟨m, h1, by rw [if_pos h2]⟩

end Osmio.Proto
