import Verif.Model.XmlWrite
import Verif.Spec.XmlText
import Verif.Proofs.Utf8
import Verif.Proofs.Family
/-! What the writers send to the sink. -/

namespace Osmio
open Spec

/-- No fault is scheduled. -/
def Sink.Reliable (s : Sink) : Prop := ∀ f ∈ s.faults, f = none

/-- All requests between the two sinks were accepted. -/
def Sink.Clean (s s' : Sink) : Prop := ∃ pre, s.faults = pre ++ s'.faults ∧ ∀ f ∈ pre, f = none

/-- The last request between the two sinks failed, and only that one. -/
def Sink.Hit (s s' : Sink) : Prop := ∃ pre n, s.faults = pre ++ some n :: s'.faults ∧ ∀ f ∈ pre, f = none

theorem Sink.Clean.refl (s : Sink) : s.Clean s := ⟨[], rfl, by simp⟩
theorem Sink.Clean.trans {s t u : Sink} (h : s.Clean t) (g : t.Clean u) : s.Clean u := by
  obtain ⟨p, h1, h2⟩ := h
  obtain ⟨q, g1, g2⟩ := g
  refine ⟨p ++ q, by rw [h1, g1, List.append_assoc], ?_⟩
  intro f hf
  rcases List.mem_append.1 hf with h | h
  · exact h2 f h
  · exact g2 f h
theorem Sink.Clean.hit {s t u : Sink} (h : s.Clean t) (g : t.Hit u) : s.Hit u := by
  obtain ⟨p, h1, h2⟩ := h
  obtain ⟨q, n, g1, g2⟩ := g
  refine ⟨p ++ q, n, by rw [h1, g1, List.append_assoc], ?_⟩
  intro f hf
  rcases List.mem_append.1 hf with h | h
  · exact h2 f h
  · exact g2 f h

/-- `m` writes the text `t`: it succeeds after writing all of `t`, or reports an I/O error after writing a
prefix of its bytes; without faults it succeeds. -/
structure Emits (m : M Sink Unit) (t : Str) : Prop where
  res : ∀ s, ((m s).1 = .ok () ∧ (m s).2.out = s.out ++ Utf8.encode t) ∨
    ((m s).1 = .err .xmlWriteIOError ∧ ∃ p, p <+: Utf8.encode t ∧ (m s).2.out = s.out ++ p)
  reliable : ∀ s : Sink, s.Reliable → (m s).1 = .ok () ∧ (m s).2.Reliable
  clean : ∀ s : Sink, (m s).1 = .ok () → s.Clean (m s).2
  hit : ∀ (s : Sink) e, (m s).1 = .err e → s.Hit (m s).2

theorem emits_write (t : Str) : Emits (write t) t := by
  constructor
  · intro s
    unfold write
    split
    · exact Or.inl ⟨rfl, rfl⟩
    · exact Or.inl ⟨rfl, rfl⟩
    · exact Or.inr ⟨rfl, _, List.take_prefix _ _, rfl⟩
  · intro s h
    unfold write
    split
    · exact ⟨rfl, by intro f hf; cases hf⟩
    · rename_i fs e
      exact ⟨rfl, fun f hf => h f (by rw [e]; exact List.mem_cons_of_mem _ hf)⟩
    · rename_i n fs e
      have := h (some n) (by rw [e]; exact List.mem_cons_self ..)
      cases this
  · intro s
    unfold write
    split
    · rename_i e
      intro _; exact ⟨[], by simp [e], by simp⟩
    · rename_i e
      intro _; exact ⟨[none], by simp [e], by simp⟩
    · intro h; cases h
  · intro s er
    unfold write
    split
    · intro h; cases h
    · intro h; cases h
    · rename_i n fs e
      intro _; exact ⟨[], n, by simp [e], by simp⟩

theorem emits_pure : Emits (pure ()) [] := by
  constructor
  · intro s; left; exact ⟨rfl, by show s.out = s.out ++ []; simp⟩
  · intro s h; exact ⟨rfl, h⟩
  · intro s _; exact Sink.Clean.refl s
  · intro s e h; cases h

theorem bind_apply {S α β : Type} (m : M S α) (f : α → M S β) (s : S) : (m >>= f) s = M.andThen f (m s) := rfl
theorem seq_apply {S β : Type} (m : M S Unit) (f : M S β) (s : S) :
    (do m; f) s = M.andThen (fun _ => f) (m s) := rfl

theorem Emits.seq {m n : M Sink Unit} {t u : Str} (hm : Emits m t) (hn : Emits n u) :
    Emits (do m; n) (t ++ u) := by
  constructor
  · intro s
    rw [seq_apply]
    rcases hm.res s with ⟨h1, h2⟩ | ⟨h1, p, hp, h2⟩
    · rcases hms : m s with ⟨r, s'⟩
      rw [hms] at h1 h2
      cases h1
      simp only [M.andThen]
      rcases hn.res s' with ⟨h3, h4⟩ | ⟨h3, p, hp, h4⟩
      · left
        refine ⟨h3, ?_⟩
        rw [h4]; simp only at h2; rw [h2, Utf8.encode_append, List.append_assoc]
      · right
        refine ⟨h3, Utf8.encode t ++ p, ?_, ?_⟩
        · rw [Utf8.encode_append]; exact (List.prefix_append_right_inj _).2 hp
        · rw [h4]; simp only at h2; rw [h2, List.append_assoc]
    · right
      rcases hms : m s with ⟨r, s'⟩
      rw [hms] at h1 h2
      cases h1
      simp only [M.andThen]
      refine ⟨trivial, p, ?_, h2⟩
      rw [Utf8.encode_append]
      exact hp.trans (List.prefix_append _ _)
  · intro s h
    rw [seq_apply]
    obtain ⟨h1, h2⟩ := hm.reliable s h
    rcases hms : m s with ⟨r, s'⟩
    rw [hms] at h1 h2
    cases h1
    exact hn.reliable s' h2
  · intro s h
    rw [seq_apply] at h ⊢
    have hc := hm.clean s
    rcases hms : m s with ⟨r, s'⟩
    rw [hms] at h hc
    cases r with
    | ok a => exact (hc rfl).trans (hn.clean s' h)
    | err e => cases h
    | panic p => cases h
  · intro s e h
    rw [seq_apply] at h ⊢
    have hc := hm.clean s
    have hh := hm.hit s
    rcases hms : m s with ⟨r, s'⟩
    rw [hms] at h hc hh
    cases r with
    | ok a => exact (hc rfl).hit (hn.hit s' e h)
    | err e' => exact hh e' rfl
    | panic p => cases h

theorem Emits.cast {m : M Sink Unit} {t u : Str} (h : Emits m t) (e : t = u) : Emits m u := e ▸ h

theorem emits_each {α : Type} (f : α → M Sink Unit) (g : α → Str) (h : ∀ a, Emits (f a) (g a)) (l : List α) :
    Emits (M.each f l) (l.flatMap g) := by
  induction l with
  | nil => exact emits_pure
  | cons a l ih =>
    rw [List.flatMap_cons]
    exact (h a).seq ih

theorem emits_whenSome {α : Type} (o : Option α) (f : α → M Sink Unit) (g : α → Str)
    (h : ∀ a, Emits (f a) (g a)) : Emits (M.whenSome o f) ((o.map g).getD []) := by
  cases o with
  | none => exact emits_pure
  | some a => exact h a

theorem xmlEscapeChar_eq (c : Char) : xmlEscapeChar c = escaped1 c := by
  unfold xmlEscapeChar escaped1 entity
  split <;> simp_all

theorem emits_escaped (s : Str) : Emits (writeXmlEscaped s) (escaped s) := by
  unfold writeXmlEscaped escaped
  refine emits_each _ _ (fun c => ?_) s
  rw [← xmlEscapeChar_eq]; exact emits_write _

theorem emits_nd (n : ObjId) : Emits (writeNd n) (ndText n) := by
  refine (emits_write _).cast ?_
  simp [ndText, rawAttr]

theorem emits_member (m : OSMObjectType × ObjId × Str) : Emits (writeMember m) (memberText m) := by
  unfold writeMember
  have hr : Emits (writeRole m.2.2) (escaped m.2.2) := by
    unfold writeRole
    cases h : m.2.2 with
    | nil => exact emits_pure
    | cons c cs => exact emits_escaped _
  refine ((emits_write _).seq (hr.seq (emits_write _))).cast ?_
  simp [memberText, rawAttr]

theorem emits_tag (t : Str × Str) : Emits (writeTag t) (tagText t) := by
  unfold writeTag
  refine ((emits_write _).seq ((emits_escaped _).seq ((emits_write _).seq
    ((emits_escaped _).seq (emits_write _))))).cast ?_
  simp [tagText, rawAttr]

theorem Emits.ite {c : Prop} [Decidable c] {m n : M Sink Unit} {t u : Str} (hm : c → Emits m t)
    (hn : ¬ c → Emits n u) : Emits (if c then m else n) (if c then t else u) := by
  split
  · exact hm ‹_›
  · exact hn ‹_›

theorem openTag_eq (k : OSMObjectType) : openTag k = str% "\n\t<" ++ k.nameLong := by cases k <;> rfl
theorem closeTag_eq (k : OSMObjectType) : closeTag k = str% "\n\t</" ++ k.nameLong ++ str% ">" := by
  cases k <;> rfl

section
variable {α N W R : Type} [OSMObjT α N W R] [NodeT N] [WayT W] [RelationT R]
open OSMObjBase

theorem emits_position (o : α) : Emits (writePosition o)
    (rawAttr? (str% "lat") ((objData o).pos.map fun p => p.1.display) ++
     rawAttr? (str% "lon") ((objData o).pos.map fun p => p.2.display)) := by
  unfold writePosition objData
  simp only
  cases OSMObjT.asNode o with
  | none => exact emits_pure
  | some n =>
    simp only [M.whenSome, Option.bind_some]
    cases NodeT.latLon n with
    | none => exact emits_pure
    | some ll =>
      refine ((emits_write _).seq (emits_write _)).cast ?_
      simp [rawAttr?, rawAttr]

/-- The part of the body after the version. -/
theorem emits_body [LawfulObj α] (o : α) (v : UInt32) (hv : version o = some v) :
    Emits (writeObjBody o) (objText (objData o) v) := by
  unfold writeObjBody
  simp only [hv, M.unwrap]
  have hbind : ∀ f : UInt32 → M Sink Unit, (pure v >>= f : M Sink Unit) = f v := fun f => rfl
  rw [hbind]
  refine ((emits_write _).seq ((emits_write _).seq ((emits_write _).seq ((emits_write _).seq
    (Emits.seq (emits_whenSome _ _ (fun u => rawAttr (str% "user") (escaped u)) fun u => ?_)
    (Emits.seq (emits_whenSome _ _ (fun u => rawAttr (str% "uid") (u32Str u)) fun u => ?_)
    (Emits.seq (emits_whenSome _ _ (fun u => rawAttr (str% "changeset") (u32Str u)) fun u => ?_)
    (Emits.seq (emits_whenSome _ _ (fun u => rawAttr (str% "timestamp") (TimestampFormat.display u)) fun u => ?_)
    (Emits.seq (emits_position o) (Emits.ite (fun _ => emits_write _) fun _ =>
      (emits_write _).seq (Emits.seq
        (emits_whenSome _ _ (fun w => (WayT.nodes w).flatMap ndText) fun w => emits_each _ _ emits_nd _)
        (Emits.seq
        (emits_whenSome _ _ (fun r => (RelationT.members r).flatMap memberText) fun r =>
          emits_each _ _ emits_member _)
        (Emits.seq (emits_each _ _ emits_tag _) (emits_write _)))))))))))))).cast ?_
  · refine ((emits_write _).seq ((emits_escaped u).seq (emits_write _))).cast ?_
    simp [rawAttr]
  · exact (emits_write _).cast (by simp [rawAttr])
  · exact (emits_write _).cast (by simp [rawAttr])
  · exact (emits_write _).cast (by simp [rawAttr])
  · unfold objText attrsText
    have hu : (isNode o && untagged o) = true ↔
        ((objData o).view.kind = .node ∧ (objData o).view.tags = []) := by
      rw [Bool.and_eq_true, LawfulObj.untagged_iff]
      unfold isNode objData view
      simp
    have rq : ∀ {β : Type} (k : Str) (x : Option β) (g : β → Str),
        (x.map (fun u => rawAttr k (g u))).getD [] = rawAttr? k (x.map g) := by
      intro β k x g; cases x <;> rfl
    have nd : ((OSMObjT.asWay o).map (fun w => (WayT.nodes w).flatMap ndText)).getD [] =
        (objData o).nodes.flatMap ndText := by
      unfold objData; cases OSMObjT.asWay o <;> rfl
    have mb : ((OSMObjT.asRelation o).map (fun r => (RelationT.members r).flatMap memberText)).getD [] =
        (objData o).members.flatMap memberText := by
      unfold objData; cases OSMObjT.asRelation o <;> rfl
    rw [rq, rq, rq, rq, nd, mb, openTag_eq, closeTag_eq]
    by_cases hc : (isNode o && untagged o) = true
    · rw [if_pos hc, if_pos (hu.1 hc)]
      simp [rawAttr, objData, view]
      by_cases hd : deleted o = true <;> simp only [hd]
    · rw [if_neg hc, if_neg (fun h => hc (hu.2 h))]
      simp [rawAttr, objData, view]
      by_cases hd : deleted o = true <;> simp only [hd]
end

end Osmio
