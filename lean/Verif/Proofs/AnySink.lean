import Verif.Model.AnySink
import Verif.Spec.AnySink
import Verif.Proofs.Utf8
/-! # Writers over any sink: the loops of the library, and simulation -/

namespace Osmio
open Spec OSMObjBase

/-! ## `write_all` and `write!` -/

theorem writeAll_taken (wr : AnyWriter) (buf : List UInt8) (s : wr.S) :
    ∃ n, (wr.taken (wr.writeAll buf s).2 = wr.taken s ++ buf.take n) ∧ ((wr.writeAll buf s).1 = true → buf.take n = buf) := by
  fun_induction AnyWriter.writeAll wr buf s with
  | case1 s => exact ⟨0, by simp, by simp⟩
  | case2 buf s h0 s' e =>
    have := wr.untouched s buf (by rw [e])
    rw [e] at this
    exact ⟨0, by simp [this], by simp⟩
  | case3 buf s h0 s' e ih =>
    have := (wr.calm s buf (by rw [e])).2
    rw [e] at this
    obtain ⟨n, h1, h2⟩ := ih
    exact ⟨n, by rw [h1, this], h2⟩
  | case4 buf s h0 s' e =>
    have := (wr.short s buf 0 (by rw [e])).2
    rw [e] at this
    exact ⟨0, by simpa using this, by simp⟩
  | case5 buf s h0 m s' e hm ih =>
    have := wr.short s buf m (by rw [e])
    rw [e] at this
    obtain ⟨n, h1, h2⟩ := ih
    refine ⟨m + n, ?_, ?_⟩
    · rw [h1, this.2, List.append_assoc, List.take_add]
    · intro h
      rw [List.take_add, h2 h, List.take_append_drop]

/-- Cut somewhere, and the whole if it succeeds. -/
theorem writePieces_taken (wr : AnyWriter) (ps : List Str) : ∀ (s : wr.S),
    ∃ n, (wr.taken (writePieces wr ps s).2 = wr.taken s ++ (Utf8.encode ps.flatten).take n) ∧
      ((writePieces wr ps s).1 = true → (Utf8.encode ps.flatten).take n = Utf8.encode ps.flatten) := by
  induction ps with
  | nil => intro s; exact ⟨0, by simp [writePieces], by simp [Utf8.encode]⟩
  | cons p ps ih =>
    intro s
    obtain ⟨n, h1, h2⟩ := writeAll_taken wr (Utf8.encode p) s
    rw [List.flatten_cons, Utf8.encode_append]
    simp only [writePieces]
    rcases hw : wr.writeAll (Utf8.encode p) s with ⟨_ | _, s'⟩
    · rw [hw] at h1
      refine ⟨min n (Utf8.encode p).length, ?_, by simp⟩
      simp only at h1 ⊢
      rw [h1, List.take_append_of_le_length (Nat.min_le_right _ _), ← List.take_eq_take_min]
    · rw [hw] at h1 h2
      simp only at h1 ⊢
      rw [h2 rfl] at h1
      obtain ⟨m, i1, i2⟩ := ih s'
      refine ⟨(Utf8.encode p).length + m, ?_, ?_⟩
      · rw [i1, h1, List.take_length_add_append, List.append_assoc]
      · intro h
        rw [List.take_length_add_append, i2 h]

theorem writeAll_reliable {wr : AnyWriter} (h : ∀ s buf, buf ≠ [] → (wr.write s buf).1 ≠ .failed ∧ (wr.write s buf).1 ≠ .ok 0)
    (buf : List UInt8) (s : wr.S) : (wr.writeAll buf s).1 = true := by
  fun_induction AnyWriter.writeAll wr buf s with
  | case1 s => rfl
  | case2 buf s h0 s' e => exact absurd (by rw [e]) (h s buf h0).1
  | case3 buf s h0 s' e ih => exact ih
  | case4 buf s h0 s' e => exact absurd (by rw [e]) (h s buf h0).2
  | case5 buf s h0 m s' e hm ih => exact ih

theorem writePieces_reliable {wr : AnyWriter} (h : ∀ s buf, buf ≠ [] → (wr.write s buf).1 ≠ .failed ∧ (wr.write s buf).1 ≠ .ok 0)
    (ps : List Str) : ∀ (s : wr.S), (writePieces wr ps s).1 = true := by
  induction ps with
  | nil => intro s; rfl
  | cons p ps ih =>
    intro s
    simp only [writePieces]
    have := writeAll_reliable h (Utf8.encode p) s
    rcases hw : wr.writeAll (Utf8.encode p) s with ⟨_ | _, s'⟩
    · rw [hw] at this; cases this
    · exact ih s'

/-! ## Simulation -/

/-- A set of schedules that has the empty one and is closed under putting one after another. -/
structure Schedules where
  mem : List (Option Nat) → Prop
  nil : mem []
  append : ∀ {a b}, mem a → mem b → mem (a ++ b)

/-- The code on the left does what the code on the right does with some schedule of the set, whatever is scheduled after it. -/
def Follows (P : Schedules) {A B α : Type} (φ : A → List (Option Nat) → B) (m : M A α) (m' : M B α) : Prop :=
  ∀ a, ∃ fs, P.mem fs ∧ ∀ fs', P.mem fs' → m' (φ a (fs ++ fs')) = ((m a).1, φ (m a).2 fs')

section
variable {P : Schedules} {A B : Type} {φ : A → List (Option Nat) → B}

theorem Follows.pure {α : Type} (x : α) : Follows P φ (Pure.pure x : M A α) (Pure.pure x : M B α) :=
  fun _ => ⟨[], P.nil, fun _ _ => rfl⟩

theorem Follows.err {α : Type} (e : OSMWriteError) : Follows P φ (M.throw e : M A α) (M.throw e : M B α) :=
  fun _ => ⟨[], P.nil, fun _ _ => rfl⟩

theorem Follows.panic {α : Type} (p : Panic) : Follows P φ (M.panic p : M A α) (M.panic p : M B α) :=
  fun _ => ⟨[], P.nil, fun _ _ => rfl⟩

theorem Follows.bind {α β : Type} {m : M A α} {m' : M B α} {k : α → M A β} {k' : α → M B β} (h : Follows P φ m m')
    (hk : ∀ x, Follows P φ (k x) (k' x)) : Follows P φ (m >>= k) (m' >>= k') := by
  intro a
  obtain ⟨f1, p1, e1⟩ := h a
  show ∃ fs, P.mem fs ∧ ∀ fs', P.mem fs' → M.andThen k' (m' (φ a (fs ++ fs'))) = ((M.andThen k (m a)).1, φ (M.andThen k (m a)).2 fs')
  rcases hm : m a with ⟨x | e | p, a'⟩
  · obtain ⟨f2, p2, e2⟩ := hk x a'
    refine ⟨f1 ++ f2, P.append p1 p2, fun fs' p' => ?_⟩
    rw [List.append_assoc, e1 _ (P.append p2 p'), hm]
    exact e2 fs' p'
  · refine ⟨f1, p1, fun fs' p' => ?_⟩
    rw [e1 _ p', hm]
    rfl
  · refine ⟨f1, p1, fun fs' p' => ?_⟩
    rw [e1 _ p', hm]
    rfl

theorem Follows.seq {m n : M A Unit} {m' n' : M B Unit} (h : Follows P φ m m') (h2 : Follows P φ n n') :
    Follows P φ (do m; n) (do m'; n') := Follows.bind h fun _ => h2

theorem Follows.unwrap {α : Type} (o : Option α) : Follows P φ (M.unwrap o : M A α) (M.unwrap o : M B α) := by
  cases o
  · exact Follows.panic _
  · exact Follows.pure _

theorem Follows.whenSome {α : Type} (o : Option α) {f : α → M A Unit} {f' : α → M B Unit} (h : ∀ x, Follows P φ (f x) (f' x)) :
    Follows P φ (M.whenSome o f) (M.whenSome o f') := by
  cases o
  · exact Follows.pure _
  · exact h _

theorem Follows.each {α : Type} {f : α → M A Unit} {f' : α → M B Unit} (h : ∀ x, Follows P φ (f x) (f' x)) (l : List α) :
    Follows P φ (M.each f l) (M.each f' l) := by
  induction l with
  | nil => exact Follows.pure _
  | cons x l ih => exact Follows.bind (h x) fun _ => ih

theorem Follows.ite {α : Type} {c : Prop} [Decidable c] {m n : M A α} {m' n' : M B α} (h : Follows P φ m m') (h2 : Follows P φ n n') :
    Follows P φ (if c then m else n) (if c then m' else n') := by
  split
  · exact h
  · exact h2
end

/-! ## The texts -/

section
variable {P : Schedules} {S : Type} {taken : S → List UInt8} {put : Str → M S Unit}

/-- The sink a state stands for. -/
def sinkOf (taken : S → List UInt8) (s : S) (fs : List (Option Nat)) : Sink := ⟨taken s, fs⟩

variable (h : ∀ t, Follows P (sinkOf taken) (put t) (write t))
include h

theorem escaped_follows (t : Str) : Follows P (sinkOf taken) (writeXmlEscapedOver put t) (writeXmlEscaped t) := Follows.each (fun _ => h _) t

theorem nd_follows (n : ObjId) : Follows P (sinkOf taken) (writeNdOver put n) (writeNd n) := h _

theorem role_follows (t : Str) : Follows P (sinkOf taken) (writeRoleOver put t) (writeRole t) :=
  Follows.ite (Follows.pure _) (escaped_follows h _)

theorem member_follows (m : OSMObjectType × ObjId × Str) : Follows P (sinkOf taken) (writeMemberOver put m) (writeMember m) :=
  (h _).seq ((role_follows h _).seq (h _))

theorem tag_follows (kv : Str × Str) : Follows P (sinkOf taken) (writeTagOver put kv) (writeTag kv) :=
  (h _).seq ((escaped_follows h _).seq ((h _).seq ((escaped_follows h _).seq (h _))))

section
variable {α N W R : Type} [OSMObjT α N W R] [NodeT N] [WayT W] [RelationT R]

omit [WayT W] [RelationT R] in
theorem position_follows (o : α) : Follows P (sinkOf taken) (writePositionOver put o) (writePosition o) :=
  Follows.whenSome _ fun _ => Follows.whenSome _ fun _ => (h _).seq (h _)

theorem body_follows (o : α) : Follows P (sinkOf taken) (writeObjBodyOver put o) (writeObjBody o) :=
  (h _).seq <| (h _).seq <| (h _).seq <| Follows.bind (Follows.unwrap _) fun _ => (h _).seq <|
    (Follows.whenSome _ fun _ => (h _).seq <| (escaped_follows h _).seq (h _)).seq <|
    (Follows.whenSome _ fun _ => h _).seq <| (Follows.whenSome _ fun _ => h _).seq <| (Follows.whenSome _ fun _ => h _).seq <|
    (position_follows h o).seq <| Follows.ite (h _) <| (h _).seq <|
    (Follows.whenSome _ fun _ => Follows.each (nd_follows h) _).seq <|
    (Follows.whenSome _ fun _ => Follows.each (member_follows h) _).seq <|
    (Follows.each (tag_follows h) _).seq (h _)
end

/-! ## The XML writer -/

omit h in
/-- The XML writer a state stands for. -/
def xmlOf (taken : S → List UInt8) (w : XMLWriterOver S) (fs : List (Option Nat)) : XMLWriter := ⟨⟨taken w.writer, fs⟩, w.headers, w.state⟩

omit h in
theorem xml_onSink_follows {α : Type} {m : M S α} {m' : M Sink α} (hm : Follows P (sinkOf taken) m m') :
    Follows P (xmlOf taken) (XMLWriterOver.onSink m) (XMLWriter.onSink m') := by
  intro w
  obtain ⟨fs, p, e⟩ := hm w.writer
  refine ⟨fs, p, fun fs' p' => ?_⟩
  have := e fs' p'
  simp only [XMLWriter.onSink, XMLWriterOver.onSink, xmlOf, sinkOf] at this ⊢
  rw [this]

omit h in
theorem xml_setState_follows (st : WState) : Follows P (xmlOf taken) (XMLWriterOver.setState st) (XMLWriter.setState st) :=
  fun _ => ⟨[], P.nil, fun _ _ => rfl⟩

theorem xml_header_follows (l : List (Str × Str)) : Follows P (sinkOf taken) (XMLWriterOver.writeHeader put l) (XMLWriter.writeHeader l) :=
  (h _).seq <| (h _).seq <| (Follows.each (fun _ => (h _).seq ((escaped_follows h _).seq (h _))) _).seq (h _)

theorem xml_ensure_follows (σ : HashOrder) : Follows P (xmlOf taken) (XMLWriterOver.ensureHeader put σ) (XMLWriter.ensureHeader σ) := by
  intro w
  by_cases hs : w.state = .initial
  · obtain ⟨fs, p, e⟩ := (xml_onSink_follows (xml_header_follows h (σ.order w.headers))).seq (xml_setState_follows .writingObjects) w
    refine ⟨fs, p, fun fs' p' => ?_⟩
    have := e fs' p'
    unfold XMLWriter.ensureHeader XMLWriterOver.ensureHeader
    rw [if_pos hs, if_pos (show (xmlOf taken w (fs ++ fs')).state = .initial from hs)]
    exact this
  · refine ⟨[], P.nil, fun fs' _ => ?_⟩
    unfold XMLWriter.ensureHeader XMLWriterOver.ensureHeader
    rw [if_neg hs, if_neg (show (xmlOf taken w ([] ++ fs')).state ≠ .initial from hs)]
    rfl

omit h in
theorem xml_setHeader_follows (k v : Str) : Follows P (xmlOf taken) (XMLWriterOver.setHeader k v) (XMLWriter.setHeader k v) := by
  rintro ⟨s, hd, _ | _ | _⟩ <;> exact ⟨[], P.nil, fun _ _ => rfl⟩

theorem xml_close_follows (σ : HashOrder) : Follows P (xmlOf taken) (XMLWriterOver.close put σ) (XMLWriter.close σ) :=
  (xml_ensure_follows h σ).seq <| (xml_onSink_follows (h _)).seq (xml_setState_follows _)

theorem xml_check_follows (σ : HashOrder) : Follows P (xmlOf taken) (XMLWriterOver.checkOpen put σ) (XMLWriter.checkOpen σ) := by
  rintro ⟨s, hd, _ | _ | _⟩
  · exact xml_ensure_follows h σ _
  · exact ⟨[], P.nil, fun _ _ => rfl⟩
  · exact ⟨[], P.nil, fun _ _ => rfl⟩

theorem xml_writeObj_follows {α N W R : Type} [OSMObjT α N W R] [NodeT N] [WayT W] [RelationT R] (σ : HashOrder) (o : α) :
    Follows P (xmlOf taken) (XMLWriterOver.writeObj put σ o) (XMLWriter.writeObj σ o) :=
  (xml_check_follows h σ).seq (xml_onSink_follows (body_follows h o))

theorem xml_drop_follows (σ : HashOrder) : Follows P (xmlOf taken) (XMLWriterOver.drop put σ) (XMLWriter.drop σ) := by
  intro w
  obtain ⟨fs, p, e⟩ := xml_close_follows h σ w
  refine ⟨fs, p, fun fs' p' => ?_⟩
  unfold XMLWriter.drop XMLWriterOver.drop
  rw [e fs' p']
  rcases XMLWriterOver.close put σ w with ⟨_ | _ | _, w'⟩ <;> rfl

/-! ## The OSC writer -/

omit h in
/-- The OSC writer a state stands for. -/
def oscOf (taken : S → List UInt8) (w : OSCWriterOver S) (fs : List (Option Nat)) : OSCWriter := ⟨⟨taken w.writer, fs⟩, w.state⟩

omit h in
theorem osc_onSink_follows {α : Type} {m : M S α} {m' : M Sink α} (hm : Follows P (sinkOf taken) m m') :
    Follows P (oscOf taken) (OSCWriterOver.onSink m) (OSCWriter.onSink m') := by
  intro w
  obtain ⟨fs, p, e⟩ := hm w.writer
  refine ⟨fs, p, fun fs' p' => ?_⟩
  have := e fs' p'
  simp only [OSCWriter.onSink, OSCWriterOver.onSink, oscOf, sinkOf] at this ⊢
  rw [this]

omit h in
theorem osc_setState_follows (st : WState) : Follows P (oscOf taken) (OSCWriterOver.setState st) (OSCWriter.setState st) :=
  fun _ => ⟨[], P.nil, fun _ _ => rfl⟩

theorem osc_header_follows : Follows P (sinkOf taken) (OSCWriterOver.writeHeader put) OSCWriter.writeHeader :=
  (h _).seq <| (h _).seq <| (h _).seq (h _)

theorem osc_ensure_follows : Follows P (oscOf taken) (OSCWriterOver.ensureHeader put) OSCWriter.ensureHeader := by
  rintro ⟨s, _ | _ | _⟩
  · exact (osc_onSink_follows (osc_header_follows h)).seq (osc_setState_follows .writingObjects) ⟨s, .initial⟩
  · exact ⟨[], P.nil, fun _ _ => rfl⟩
  · exact ⟨[], P.nil, fun _ _ => rfl⟩

theorem osc_rest_follows : Follows P (oscOf taken) (OSCWriterOver.closeRest put) OSCWriter.closeRest := by
  have key := (osc_onSink_follows (h (str% "\n</modify>"))).seq
    ((osc_onSink_follows (h (str% "\n</osmChange>"))).seq (osc_setState_follows .closed))
  rintro ⟨s, _ | _ | _⟩
  · exact key ⟨s, .initial⟩
  · exact key ⟨s, .writingObjects⟩
  · exact ⟨[], P.nil, fun _ _ => rfl⟩

theorem osc_close_follows : Follows P (oscOf taken) (OSCWriterOver.close put) OSCWriter.close :=
  (osc_ensure_follows h).seq (osc_rest_follows h)

theorem osc_check_follows : Follows P (oscOf taken) (OSCWriterOver.checkOpen put) OSCWriter.checkOpen := by
  rintro ⟨s, _ | _ | _⟩
  · exact osc_ensure_follows h _
  · exact ⟨[], P.nil, fun _ _ => rfl⟩
  · exact ⟨[], P.nil, fun _ _ => rfl⟩

theorem osc_writeObj_follows {α N W R : Type} [OSMObjT α N W R] [NodeT N] [WayT W] [RelationT R] (o : α) :
    Follows P (oscOf taken) (OSCWriterOver.writeObj put o) (OSCWriter.writeObj o) :=
  (osc_check_follows h).seq (osc_onSink_follows (body_follows h o))

theorem osc_drop_follows : Follows P (oscOf taken) (OSCWriterOver.drop put) OSCWriter.drop := by
  intro w
  obtain ⟨fs, p, e⟩ := osc_close_follows h w
  refine ⟨fs, p, fun fs' p' => ?_⟩
  unfold OSCWriter.drop OSCWriterOver.drop
  rw [e fs' p']
  rcases OSCWriterOver.close put w with ⟨_ | _ | _, w'⟩ <;> rfl
end

/-! ## Histories -/

theorem run_follows {P : Schedules} {A B α : Type} {φ : A → List (Option Nat) → B} {call : Call α → M A Unit} {call' : Call α → M B Unit}
    (h : ∀ c, Follows P φ (call c) (call' c)) (cs : List (Call α)) :
    ∀ a, ∃ fs, P.mem fs ∧ ∀ fs', P.mem fs' → run call' (φ a (fs ++ fs')) cs = ((run call a cs).1, φ (run call a cs).2 fs') := by
  induction cs with
  | nil => intro a; exact ⟨[], P.nil, fun _ _ => rfl⟩
  | cons c cs ih =>
    intro a
    obtain ⟨f1, p1, e1⟩ := h c a
    obtain ⟨f2, p2, e2⟩ := ih (call c a).2
    refine ⟨f1 ++ f2, P.append p1 p2, fun fs' p' => ?_⟩
    simp only [run]
    rw [List.append_assoc, e1 _ (P.append p2 p')]
    simp only
    rw [e2 fs' p']

/-! ## The two sets of schedules -/

/-- All of them. -/
def Schedules.all : Schedules := ⟨fun _ => True, trivial, fun _ _ => trivial⟩
/-- The one without faults. -/
def Schedules.none : Schedules := ⟨(· = []), rfl, fun h1 h2 => by rw [h1, h2]; rfl⟩

theorem write_follows_all (wr : AnyWriter) (pc : Pieces wr.S) (t : Str) :
    Follows Schedules.all (sinkOf wr.taken) (writeOver wr pc t) (write t) := by
  intro s
  obtain ⟨n, h1, h2⟩ := writePieces_taken wr (pc.cut s t) s
  rw [pc.whole] at h1 h2
  unfold writeOver
  rcases hw : writePieces wr (pc.cut s t) s with ⟨_ | _, s'⟩
  · rw [hw] at h1
    refine ⟨[some n], trivial, fun fs' _ => ?_⟩
    simp only at h1
    simp only [write, sinkOf, List.cons_append, List.nil_append, h1]
  · rw [hw] at h1 h2
    refine ⟨[Option.none], trivial, fun fs' _ => ?_⟩
    simp only at h1
    rw [h2 rfl] at h1
    simp only [write, sinkOf, List.cons_append, List.nil_append, h1]

theorem write_follows_none {wr : AnyWriter} (h : ∀ s buf, buf ≠ [] → (wr.write s buf).1 ≠ .failed ∧ (wr.write s buf).1 ≠ .ok 0)
    (pc : Pieces wr.S) (t : Str) : Follows Schedules.none (sinkOf wr.taken) (writeOver wr pc t) (write t) := by
  intro s
  obtain ⟨n, h1, h2⟩ := writePieces_taken wr (pc.cut s t) s
  rw [pc.whole] at h1 h2
  have hr := writePieces_reliable h (pc.cut s t) s
  refine ⟨[], rfl, fun fs' e => ?_⟩
  cases e
  unfold writeOver
  rcases hw : writePieces wr (pc.cut s t) s with ⟨_ | _, s'⟩
  · rw [hw] at hr; cases hr
  · rw [hw] at h1 h2
    simp only at h1
    rw [h2 rfl] at h1
    simp only [write, sinkOf, List.nil_append, h1]

end Osmio
