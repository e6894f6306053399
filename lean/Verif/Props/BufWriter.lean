import Verif.Lib.BufWriter
import Verif.Props.AnySink
/-!
# C82 for `BufWriter`

A writer of this crate on a `BufWriter`. The writers never flush their sink: what they have written is in it once the `BufWriter` has been dropped as well.
-/

namespace Osmio
open Spec OSMObjBase

variable {wr : AnyWriter} {size : Nat} {f : Family}

theorem flushBuf_steady (h : Steady wr) (buf : List UInt8) (s : wr.S) : (wr.flushBuf buf s).1 = true := by
  fun_induction AnyWriter.flushBuf wr buf s with
  | case1 s => rfl
  | case2 buf s h0 s' e => exact absurd (by rw [e]) (h s buf h0).1
  | case3 buf s h0 s' e ih => exact ih
  | case4 buf s h0 s' e => exact absurd (by rw [e]) (h s buf h0).2
  | case5 buf s h0 n s' e hn ih => exact ih

/-- **C82**, a `BufWriter` on a sink that never fails never fails. -/
theorem C82_buffered_steady (h : Steady wr) (size : Nat) : Steady (wr.buffered size) := by
  intro t bytes hb
  show (bufWrite wr size t bytes).1 ≠ .failed ∧ (bufWrite wr size t bytes).1 ≠ .ok 0
  rcases bufWrite_cases wr size t bytes with ⟨t', e, -⟩ | ⟨-, e⟩ | ⟨e, -, -⟩
  · rw [e]
    exact ⟨by simp, by simpa using hb⟩
  · rw [flushBuf_steady h] at e; cases e
  · rw [e]
    exact h _ _ hb

/-- **C82**, dropping a `BufWriter`: the sink behind it has then a beginning of what was written, after what it had before the drop; everything, if it never fails. -/
theorem C82_buffered_drop (t : (wr.buffered size).S) :
    wr.taken (dropBuffered wr t) <+: (wr.buffered size).taken t ∧ (Steady wr → wr.taken (dropBuffered wr t) = (wr.buffered size).taken t) := by
  have hf := wr.flushBuf_taken (show BufferedSink wr.S from t).buf (show BufferedSink wr.S from t).inner
  refine ⟨⟨_, hf.1⟩, fun h => ?_⟩
  have e := hf.2 (flushBuf_steady h _ _)
  rw [e, List.append_nil] at hf
  exact hf.1

/-- **C82**, an XML writer on a `BufWriter` of any size on a sink that never fails: when both have been dropped, the sink has the document, byte for byte. -/
theorem C82_buffered_xml (h : Steady wr) (pc : Pieces (wr.buffered size).S) (σ : HashOrder) (s : wr.S) (cs : List (Call f.Obj))
    (hv : AllVersioned cs) (hc : ∀ c ∈ cs, c.isClose = false) :
    wr.taken (dropBuffered wr (XMLWriterOver.drop (writeOver (wr.buffered size) pc) σ
        (run (xmlCallOver (wr.buffered size) pc σ) (XMLWriterOver.new (buffering s)) cs).2).2.writer) =
      wr.taken s ++ Utf8.encode (xmlDocument (σ.order (headersOf cs)) (cs.filterMap Call.obj?)) := by
  rw [(C82_buffered_drop _).2 h, C82_document_xml (C82_buffered_steady h size) pc σ _ cs hv hc]
  show wr.taken s ++ [] ++ _ = _
  rw [List.append_nil]

/-- **C82**, the same for an OSC writer. -/
theorem C82_buffered_osc (h : Steady wr) (pc : Pieces (wr.buffered size).S) (s : wr.S) (cs : List (Call f.Obj)) (hv : AllVersioned cs) :
    wr.taken (dropBuffered wr (OSCWriterOver.drop (writeOver (wr.buffered size) pc)
        (run (oscCallOver (wr.buffered size) pc) (OSCWriterOver.new (buffering s)) cs).2).2.writer) =
      wr.taken s ++ Utf8.encode (oscDocument (written cs)) := by
  rw [(C82_buffered_drop _).2 h, C82_document_osc (C82_buffered_steady h size) pc _ cs hv]
  show wr.taken s ++ [] ++ _ = _
  rw [List.append_nil]

theorem writeAll_once {bytes : List UInt8} {s s' : wr.S} {worked : Bool} (h0 : bytes ≠ [])
    (hw : wr.write s bytes = (if worked then .ok bytes.length else .failed, s')) : wr.writeAll bytes s = (worked, s') := by
  have hl : bytes.length ≠ 0 := fun h => h0 (List.length_eq_zero_iff.1 h)
  rw [AnyWriter.writeAll]
  simp only [h0, dite_false]
  cases worked
  · split <;> (rename_i e; rw [hw] at e; cases e)
    rfl
  · split <;> (rename_i e; rw [hw] at e; cases e)
    simp only [hl, dite_false, List.drop_length]
    rw [AnyWriter.writeAll]
    simp

/-- **C82**, the `write_all` that `BufWriter` has itself. For fewer bytes than the buffer has it is the loop of the standard library; for any number it works if the sink never fails, and as many bytes
are then taken. -/
theorem C82_buffered_write_all (t : BufferedSink wr.S) (bytes : List UInt8) :
    (bytes.length ≤ size → bytes ≠ [] → (wr.buffered size).writeAll bytes t = bufWriteAll wr size t bytes) ∧
    (Steady wr → (bufWriteAll wr size t bytes).1 = true ∧ ((wr.buffered size).writeAll bytes t).1 = true ∧
      (wr.buffered size).taken (bufWriteAll wr size t bytes).2 = (wr.buffered size).taken t ++ bytes ∧
      (wr.buffered size).taken ((wr.buffered size).writeAll bytes t).2 = (wr.buffered size).taken t ++ bytes) := by
  have hf := wr.flushBuf_taken t.buf t.inner
  constructor
  · intro hb h0
    have hn : ¬ bytes.length ≥ size + 1 := by omega
    have hw : (wr.buffered size).write t bytes = (if (bufWriteAll wr size t bytes).1 then .ok bytes.length else .failed, (bufWriteAll wr size t bytes).2) := by
      show bufWrite wr size t bytes = _
      unfold bufWrite bufWriteAll
      split
      · rfl
      · split <;> (rename_i h; split <;> simp_all)
    exact writeAll_once (wr := wr.buffered size) h0 hw
  · intro h
    have hw1 := writeAll_reliable (C82_buffered_steady h size) bytes t
    obtain ⟨n, h1, h2⟩ := writeAll_taken (wr.buffered size) bytes t
    rw [h2 hw1] at h1
    have key : (bufWriteAll wr size t bytes).1 = true ∧ wr.taken (bufWriteAll wr size t bytes).2.inner ++ (bufWriteAll wr size t bytes).2.buf = wr.taken t.inner ++ t.buf ++ bytes := by
      have hfl := flushBuf_steady h t.buf t.inner
      have hw2 := fun s => writeAll_reliable h bytes s
      have hw3 : ∀ s, wr.taken (wr.writeAll bytes s).2 = wr.taken s ++ bytes := fun s => by
        obtain ⟨n, h1, h2⟩ := writeAll_taken wr bytes s
        rwa [h2 (hw2 s)] at h1
      have hnil := hf.2 hfl
      unfold bufWriteAll
      split
      · simp
      · rename_i hsp
        by_cases hgt : bytes.length > size + 1 - t.buf.length
        · simp only [hgt, if_true]
          rcases e : wr.flushBuf t.buf t.inner with ⟨w, left, s⟩
          rw [e] at hfl hf hnil
          simp only at hfl hnil
          subst hfl hnil
          simp only [List.append_nil] at hf
          by_cases hge : bytes.length ≥ size + 1
          · simp [hge, hw2, hw3, hf.1]
          · simp [hge, ← hf.1]
        · simp only [hgt, if_false]
          by_cases hge : bytes.length ≥ size + 1
          · have hb : t.buf = [] := List.length_eq_zero_iff.1 (by omega)
            simp [hge, hw2, hw3, hb]
          · simp [hge]
    exact ⟨key.1, hw1, key.2, h1⟩

/-! ## What `close` says of a `BufWriter` -/

theorem bufWriteAll_room {s : wr.S} {b bytes : List UInt8} (h : b.length + bytes.length ≤ size) :
    (wr.buffered size).writeAll bytes (holding s b) = (true, holding s (b ++ bytes)) := by
  have hw : (wr.buffered size).write (holding s b) bytes = (.ok bytes.length, holding s (b ++ bytes)) := by
    show bufWrite wr size ⟨s, b⟩ bytes = _
    unfold bufWrite
    rw [if_pos (by simp only; omega)]
    rfl
  by_cases h0 : bytes = []
  · subst h0
    rw [AnyWriter.writeAll]
    simp
  · exact writeAll_once (worked := true) h0 hw

theorem bufPieces_room (ps : List Str) {s : wr.S} {b : List UInt8} (h : b.length + (Utf8.encode ps.flatten).length ≤ size) :
    writePieces (wr.buffered size) ps (holding s b) = (true, holding s (b ++ Utf8.encode ps.flatten)) := by
  induction ps generalizing b with
  | nil => simp [writePieces, Utf8.encode]
  | cons p ps ih =>
    rw [List.flatten_cons, Utf8.encode_append, List.length_append] at h
    rw [writePieces, bufWriteAll_room (by omega)]
    simp only
    rw [ih (by simp only [List.length_append]; omega)]
    simp [Utf8.encode_append]

/-- **C82**, a text that fits into the buffer: `write!` works and nothing reaches the sink behind it, whatever that sink is. -/
theorem C82_buffered_text (pc : Pieces (wr.buffered size).S) (text : Str) {s : wr.S} {b : List UInt8} (h : b.length + (Utf8.encode text).length ≤ size) :
    writeOver (wr.buffered size) pc text (holding s b) = (.ok (), holding s (b ++ Utf8.encode text)) := by
  unfold writeOver
  rw [bufPieces_room _ (by rw [pc.whole]; exact h), pc.whole]

theorem then_ok {S α β : Type} {m : M S α} {g : α → M S β} {s s' : S} {x : α} (h : m s = (.ok x, s')) : (m >>= g) s = g x s' := by
  show M.andThen g (m s) = _
  rw [h]
  rfl

theorem onSink_ok {S α : Type} {m : M S α} {w : XMLWriterOver S} {x : α} {s' : S} (h : m w.writer = (.ok x, s')) :
    XMLWriterOver.onSink m w = (.ok x, { w with writer := s' }) := by
  unfold XMLWriterOver.onSink
  rw [h]

/-- **C82**, `close` of a new XML writer on a `BufWriter` works, on any sink: the document is in the buffer, and the sink has not been asked. So `close` does not tell whether the document could be
written, and the drop does not either. -/
theorem C82_buffered_close (hs : 8191 ≤ size) (pc : Pieces (wr.buffered size).S) (σ : HashOrder) (s : wr.S) :
    XMLWriterOver.close (writeOver (wr.buffered size) pc) σ (XMLWriterOver.new (buffering s)) =
      (.ok (), ⟨holding s (Utf8.encode (xmlDocument [] ([] : List StringOSMObj))), [], .closed⟩) := by
  have ho : σ.order [] = [] := List.perm_nil.1 (σ.perm [])
  have hw : ∀ (text : Str) (b : List UInt8), b.length + (Utf8.encode text).length ≤ 8191 →
      writeOver (wr.buffered size) pc text (holding s b) = (.ok (), holding s (b ++ Utf8.encode text)) :=
    fun text b h => C82_buffered_text pc text (by omega)
  have hh : XMLWriterOver.writeHeader (writeOver (wr.buffered size) pc) [] (holding s []) = (.ok (), holding s (Utf8.encode (xmlHead []))) := by
    unfold XMLWriterOver.writeHeader
    refine (then_ok (hw _ _ (by decide +kernel))).trans ?_
    refine (then_ok (hw _ _ (by decide +kernel))).trans ?_
    refine (then_ok (x := ()) (s' := holding s _) rfl).trans ?_
    refine (hw _ _ (by decide +kernel)).trans ?_
    congr 2
  have he : XMLWriterOver.ensureHeader (writeOver (wr.buffered size) pc) σ (XMLWriterOver.new (buffering s)) =
      (.ok (), ⟨holding s (Utf8.encode (xmlHead [])), [], .writingObjects⟩) := by
    unfold XMLWriterOver.ensureHeader
    rw [if_pos (show (XMLWriterOver.new (buffering s)).state = WState.initial from rfl)]
    refine (then_ok (x := ()) (s' := ⟨holding s (Utf8.encode (xmlHead [])), [], .initial⟩) ?_).trans rfl
    exact onSink_ok (w := XMLWriterOver.new (buffering s)) (by
      show XMLWriterOver.writeHeader (writeOver (wr.buffered size) pc) (σ.order []) (holding s []) = _
      rw [ho, hh])
  refine (then_ok he).trans ?_
  refine (then_ok (x := ()) (s' := ⟨holding s (Utf8.encode (xmlDocument [] ([] : List StringOSMObj))), [], .writingObjects⟩) ?_).trans rfl
  exact onSink_ok (w := ⟨holding s (Utf8.encode (xmlHead [])), [], .writingObjects⟩) (by
    refine (hw _ _ (by decide +kernel)).trans ?_
    rw [← Utf8.encode_append]
    rfl)

/-! ## A document that fits into the buffer -/

/-- States that go on to other states, and a limit: a state within the limit comes only from states within the limit. -/
structure Growth (A : Type) where
  grows : A → A → Prop
  within : A → Prop
  refl : ∀ a, grows a a
  trans : ∀ {a b c}, grows a b → grows b c → grows a c
  down : ∀ {a b}, grows a b → within b → within a

/-- The code on the right does what the code on the left does, as long as that stays within the limit. -/
def Within {A α : Type} (G : Growth A) (m m' : M A α) : Prop := ∀ a, G.grows a (m a).2 ∧ (G.within (m a).2 → m' a = m a)

section within
variable {A : Type} {G : Growth A}

theorem Within.same {α : Type} {m : M A α} (h : ∀ a, (m a).2 = a) : Within G m m := fun a => ⟨by rw [h]; exact G.refl a, fun _ => rfl⟩

theorem Within.bind {α β : Type} {m m' : M A α} {k k' : α → M A β} (h : Within G m m') (hk : ∀ x, Within G (k x) (k' x)) :
    Within G (m >>= k) (m' >>= k') := by
  intro a
  obtain ⟨h1, h2⟩ := h a
  show G.grows a (M.andThen k (m a)).2 ∧ (G.within (M.andThen k (m a)).2 → M.andThen k' (m' a) = M.andThen k (m a))
  rcases hm : m a with ⟨x | e | p, a'⟩
  · rw [hm] at h1 h2
    obtain ⟨h3, h4⟩ := hk x a'
    refine ⟨G.trans h1 h3, fun hl => ?_⟩
    have hl : G.within (k x a').2 := hl
    rw [h2 (G.down h3 hl)]
    exact h4 hl
  · rw [hm] at h1 h2
    refine ⟨h1, fun hl => ?_⟩
    rw [h2 hl]
    rfl
  · rw [hm] at h1 h2
    refine ⟨h1, fun hl => ?_⟩
    rw [h2 hl]
    rfl

theorem Within.seq {m n m' n' : M A Unit} (h : Within G m m') (h2 : Within G n n') : Within G (do m; n) (do m'; n') :=
  Within.bind h fun _ => h2

theorem Within.whenSome {α : Type} (o : Option α) {g g' : α → M A Unit} (h : ∀ x, Within G (g x) (g' x)) :
    Within G (M.whenSome o g) (M.whenSome o g') := by
  cases o
  · exact Within.same fun _ => rfl
  · exact h _

theorem Within.each {α : Type} {g g' : α → M A Unit} (h : ∀ x, Within G (g x) (g' x)) (l : List α) : Within G (M.each g l) (M.each g' l) := by
  induction l with
  | nil => exact Within.same fun _ => rfl
  | cons x l ih => exact Within.bind (h x) fun _ => ih

theorem Within.ite {α : Type} {c : Prop} [Decidable c] {m n m' n' : M A α} (h : Within G m m') (h2 : Within G n n') :
    Within G (if c then m else n) (if c then m' else n') := by
  split
  · exact h
  · exact h2

theorem Within.unwrap {α : Type} (o : Option α) : Within G (M.unwrap o : M A α) (M.unwrap o) := by
  cases o <;> exact Within.same fun _ => rfl

variable {put put' : Str → M A Unit} (h : ∀ t, Within G (put t) (put' t))
include h

theorem escaped_within (t : Str) : Within G (writeXmlEscapedOver put t) (writeXmlEscapedOver put' t) := Within.each (fun _ => h _) t

theorem member_within (m : OSMObjectType × ObjId × Str) : Within G (writeMemberOver put m) (writeMemberOver put' m) :=
  (h _).seq ((Within.ite (Within.same fun _ => rfl) (escaped_within h _)).seq (h _))

theorem tag_within (kv : Str × Str) : Within G (writeTagOver put kv) (writeTagOver put' kv) :=
  (h _).seq ((escaped_within h _).seq ((h _).seq ((escaped_within h _).seq (h _))))

theorem body_within {α N W R : Type} [OSMObjT α N W R] [NodeT N] [WayT W] [RelationT R] (o : α) : Within G (writeObjBodyOver put o) (writeObjBodyOver put' o) :=
  (h _).seq <| (h _).seq <| (h _).seq <| Within.bind (Within.unwrap _) fun _ => (h _).seq <|
    (Within.whenSome _ fun _ => (h _).seq <| (escaped_within h _).seq (h _)).seq <|
    (Within.whenSome _ fun _ => h _).seq <| (Within.whenSome _ fun _ => h _).seq <| (Within.whenSome _ fun _ => h _).seq <|
    (Within.whenSome _ fun _ => Within.whenSome _ fun _ => (h _).seq (h _)).seq <| Within.ite (h _) <| (h _).seq <|
    (Within.whenSome _ fun _ => Within.each (fun _ => h _) _).seq <|
    (Within.whenSome _ fun _ => Within.each (member_within h) _).seq <|
    (Within.each (tag_within h) _).seq (h _)

omit h in
/-- The same for writers. -/
def Growth.xml (G : Growth A) : Growth (XMLWriterOver A) :=
  ⟨fun w w' => G.grows w.writer w'.writer, fun w => G.within w.writer, fun _ => G.refl _, G.trans, G.down⟩

omit h in
/-- The same for writers of changes. -/
def Growth.osc (G : Growth A) : Growth (OSCWriterOver A) :=
  ⟨fun w w' => G.grows w.writer w'.writer, fun w => G.within w.writer, fun _ => G.refl _, G.trans, G.down⟩

omit h in
theorem xml_onSink_within {m m' : M A Unit} (hm : Within G m m') :
    Within G.xml (XMLWriterOver.onSink m) (XMLWriterOver.onSink m') := by
  intro w
  obtain ⟨h1, h2⟩ := hm w.writer
  refine ⟨h1, fun hl => ?_⟩
  simp only [XMLWriterOver.onSink]
  rw [h2 hl]

omit h in
theorem xml_setState_within (st : WState) : Within G.xml (XMLWriterOver.setState st) (XMLWriterOver.setState st) :=
  fun _ => ⟨G.refl _, fun _ => rfl⟩

theorem xml_ensure_within (σ : HashOrder) :
    Within G.xml (XMLWriterOver.ensureHeader put σ) (XMLWriterOver.ensureHeader put' σ) := by
  intro w
  unfold XMLWriterOver.ensureHeader
  split
  · exact (xml_onSink_within ((h _).seq <| (h _).seq <| (Within.each (fun _ => (h _).seq ((escaped_within h _).seq (h _))) _).seq (h _))).seq
      (xml_setState_within _) w
  · exact ⟨G.refl _, fun _ => rfl⟩

theorem xml_close_within (σ : HashOrder) : Within G.xml (XMLWriterOver.close put σ) (XMLWriterOver.close put' σ) :=
  (xml_ensure_within h σ).seq <| (xml_onSink_within (h _)).seq (xml_setState_within _)

theorem xml_writeObj_within {α N W R : Type} [OSMObjT α N W R] [NodeT N] [WayT W] [RelationT R] (σ : HashOrder) (o : α) :
    Within G.xml (XMLWriterOver.writeObj put σ o) (XMLWriterOver.writeObj put' σ o) := by
  refine Within.seq ?_ (xml_onSink_within (body_within h o))
  rintro ⟨s, hd, _ | _ | _⟩
  · exact xml_ensure_within h σ _
  · exact ⟨G.refl _, fun _ => rfl⟩
  · exact ⟨G.refl _, fun _ => rfl⟩

omit h in
theorem osc_onSink_within {m m' : M A Unit} (hm : Within G m m') : Within G.osc (OSCWriterOver.onSink m) (OSCWriterOver.onSink m') := by
  intro w
  obtain ⟨h1, h2⟩ := hm w.writer
  refine ⟨h1, fun hl => ?_⟩
  simp only [OSCWriterOver.onSink]
  rw [h2 hl]

omit h in
theorem osc_setState_within (st : WState) : Within G.osc (OSCWriterOver.setState st) (OSCWriterOver.setState st) :=
  fun _ => ⟨G.refl _, fun _ => rfl⟩

theorem osc_ensure_within : Within G.osc (OSCWriterOver.ensureHeader put) (OSCWriterOver.ensureHeader put') := by
  intro w
  unfold OSCWriterOver.ensureHeader
  split
  · exact (osc_onSink_within ((h _).seq <| (h _).seq <| (h _).seq (h _))).seq (osc_setState_within _) w
  · exact ⟨G.refl _, fun _ => rfl⟩

theorem osc_close_within : Within G.osc (OSCWriterOver.close put) (OSCWriterOver.close put') := by
  refine (osc_ensure_within h).seq ?_
  intro w
  unfold OSCWriterOver.closeRest
  split
  · exact (osc_onSink_within (h _)).seq ((osc_onSink_within (h _)).seq (osc_setState_within _)) w
  · exact ⟨G.refl _, fun _ => rfl⟩

theorem osc_writeObj_within {α N W R : Type} [OSMObjT α N W R] [NodeT N] [WayT W] [RelationT R] (o : α) :
    Within G.osc (OSCWriterOver.writeObj put o) (OSCWriterOver.writeObj put' o) := by
  refine Within.seq ?_ (osc_onSink_within (body_within h o))
  rintro ⟨s, _ | _ | _⟩
  · exact osc_ensure_within h _
  · exact ⟨G.refl _, fun _ => rfl⟩
  · exact ⟨G.refl _, fun _ => rfl⟩

omit h in
theorem run_within {α : Type} {call call' : Call α → M A Unit} (h : ∀ c, Within G (call c) (call' c)) (cs : List (Call α)) :
    ∀ a, G.grows a (run call a cs).2 ∧ (G.within (run call a cs).2 → run call' a cs = run call a cs) := by
  induction cs with
  | nil => exact fun a => ⟨G.refl _, fun _ => rfl⟩
  | cons c cs ih =>
    intro a
    obtain ⟨h1, h2⟩ := h c a
    obtain ⟨h3, h4⟩ := ih (call c a).2
    refine ⟨G.trans h1 h3, fun hl => ?_⟩
    have hl : G.within (run call (call c a).2 cs).2 := hl
    simp only [run]
    rw [h2 (G.down h3 hl), h4 hl]

end within

/-- A buffer that grows, with the same sink behind it, and does not get full. -/
def filling (wr : AnyWriter) (size : Nat) : Growth (wr.buffered size).S where
  grows t t' := behind t' = behind t ∧ (heldBack t).length ≤ (heldBack t').length
  within t := (heldBack t).length ≤ size
  refl _ := ⟨rfl, Nat.le_refl _⟩
  trans h1 h2 := ⟨h2.1.trans h1.1, Nat.le_trans h1.2 h2.2⟩
  down h h' := Nat.le_trans h.2 h'

/-- A text into a buffer without end. -/
def putEndless (wr : AnyWriter) (size : Nat) (text : Str) : M (wr.buffered size).S Unit := fun t => (.ok (), holding (behind t) (heldBack t ++ Utf8.encode text))

theorem put_within (pc : Pieces (wr.buffered size).S) (text : Str) : Within (filling wr size) (putEndless wr size text) (writeOver (wr.buffered size) pc text) := by
  intro t
  refine ⟨⟨rfl, ?_⟩, fun hl => ?_⟩
  · show (heldBack t).length ≤ (heldBack t ++ Utf8.encode text).length
    simp
  · have hl : (heldBack t ++ Utf8.encode text).length ≤ size := hl
    rw [List.length_append] at hl
    exact C82_buffered_text (s := behind t) pc text hl

theorem put_follows (text : Str) : Follows Schedules.none (sinkOf heldBack) (putEndless wr size text) (write text) := by
  intro t
  refine ⟨[], rfl, fun fs' e => ?_⟩
  cases e
  rfl

/-- The calls of an XML writer on a buffer without end. -/
def xmlEndless (wr : AnyWriter) (size : Nat) (σ : HashOrder) : Call f.Obj → M (XMLWriterOver (wr.buffered size).S) Unit
  | .setHeader k v => XMLWriterOver.setHeader k v
  | .writeObj o => XMLWriterOver.writeObj (putEndless wr size) σ o
  | .close => XMLWriterOver.close (putEndless wr size) σ

/-- The calls of an OSC writer on a buffer without end. -/
def oscEndless (wr : AnyWriter) (size : Nat) : Call f.Obj → M (OSCWriterOver (wr.buffered size).S) Unit
  | .setHeader k v => OSCWriterOver.setHeader k v
  | .writeObj o => OSCWriterOver.writeObj (putEndless wr size) o
  | .close => OSCWriterOver.close (putEndless wr size)

theorem held_eq {t : (wr.buffered size).S} {s : wr.S} (h : behind t = s) : t = holding s (heldBack t) := by
  subst h
  rfl

/-- **C82**, a document that fits into the buffer of a `BufWriter`. Every call of an XML writer on it, `close` too, answers as on a sink that takes everything, and the sink behind the buffer has not
been asked: whether it would have failed is not known. -/
theorem C82_buffered_unasked (pc : Pieces (wr.buffered size).S) (σ : HashOrder) (s : wr.S) (cs : List (Call f.Obj))
    (hl : (run (xmlCall σ) (XMLWriter.new ⟨[], []⟩) cs).2.writer.out.length ≤ size) :
    (run (xmlCallOver (wr.buffered size) pc σ) (XMLWriterOver.new (buffering s)) cs).1 = (run (xmlCall σ) (XMLWriter.new ⟨[], []⟩) cs).1 ∧
    (run (xmlCallOver (wr.buffered size) pc σ) (XMLWriterOver.new (buffering s)) cs).2.writer = holding s (run (xmlCall σ) (XMLWriter.new ⟨[], []⟩) cs).2.writer.out := by
  have hw : ∀ c : Call f.Obj, Within (filling wr size).xml (xmlEndless wr size σ c) (xmlCallOver (wr.buffered size) pc σ c) := by
    rintro (⟨k, v⟩ | o | _)
    · rintro ⟨s, hd, _ | _ | _⟩ <;> exact ⟨(filling wr size).refl _, fun _ => rfl⟩
    · exact xml_writeObj_within (put_within pc) σ o
    · exact xml_close_within (put_within pc) σ
  have hf : ∀ c : Call f.Obj, Follows Schedules.none (xmlOf heldBack) (xmlEndless wr size σ c) (xmlCall σ c) := by
    rintro (⟨k, v⟩ | o | _)
    · exact xml_setHeader_follows _ _
    · exact xml_writeObj_follows put_follows σ _
    · exact xml_close_follows put_follows σ
  obtain ⟨fs, rfl, e⟩ := run_follows hf cs (XMLWriterOver.new (buffering s))
  have e : run (xmlCall σ) (XMLWriter.new ⟨[], []⟩) cs = _ := e [] rfl
  rw [e] at hl ⊢
  obtain ⟨⟨h1, -⟩, h2⟩ := run_within hw cs (XMLWriterOver.new (buffering s))
  rw [h2 hl]
  refine ⟨rfl, ?_⟩
  have h1 : behind (run (xmlEndless wr size σ) (XMLWriterOver.new (buffering s)) cs).2.writer = s := h1
  exact held_eq h1

/-- **C82**, the same for an OSC writer. -/
theorem C82_buffered_unasked_osc (pc : Pieces (wr.buffered size).S) (s : wr.S) (cs : List (Call f.Obj))
    (hl : (run oscCall (OSCWriter.new ⟨[], []⟩) cs).2.writer.out.length ≤ size) :
    (run (oscCallOver (wr.buffered size) pc) (OSCWriterOver.new (buffering s)) cs).1 = (run oscCall (OSCWriter.new ⟨[], []⟩) cs).1 ∧
    (run (oscCallOver (wr.buffered size) pc) (OSCWriterOver.new (buffering s)) cs).2.writer = holding s (run oscCall (OSCWriter.new ⟨[], []⟩) cs).2.writer.out := by
  have hw : ∀ c : Call f.Obj, Within (filling wr size).osc (oscEndless wr size c) (oscCallOver (wr.buffered size) pc c) := by
    rintro (⟨k, v⟩ | o | _)
    · exact fun w => ⟨(filling wr size).refl _, fun _ => rfl⟩
    · exact osc_writeObj_within (put_within pc) o
    · exact osc_close_within (put_within pc)
  have hf : ∀ c : Call f.Obj, Follows Schedules.none (oscOf heldBack) (oscEndless wr size c) (oscCall c) := by
    rintro (⟨k, v⟩ | o | _)
    · exact Follows.panic _
    · exact osc_writeObj_follows put_follows _
    · exact osc_close_follows put_follows
  obtain ⟨fs, rfl, e⟩ := run_follows hf cs (OSCWriterOver.new (buffering s))
  have e : run oscCall (OSCWriter.new ⟨[], []⟩) cs = _ := e [] rfl
  rw [e] at hl ⊢
  obtain ⟨⟨h1, -⟩, h2⟩ := run_within hw cs (OSCWriterOver.new (buffering s))
  rw [h2 hl]
  refine ⟨rfl, ?_⟩
  have h1 : behind (run (oscEndless wr size) (OSCWriterOver.new (buffering s)) cs).2.writer = s := h1
  exact held_eq h1

/-! ## Examples -/

/-- A sink that takes one byte at a time, behind a buffer of four bytes. -/
example : (narrow 1).taken (dropBuffered (narrow 1) (XMLWriterOver.drop (writeOver ((narrow 1).buffered 3) Pieces.single) sampleOrder
      (run (xmlCallOver ((narrow 1).buffered 3) Pieces.single sampleOrder) (XMLWriterOver.new (buffering [])) sampleHistory).2).2.writer) =
    Utf8.encode (xmlDocument (headersOf sampleHistory) (sampleHistory.filterMap Call.obj?)) :=
  C82_buffered_xml (narrow_steady (by decide)) Pieces.single sampleOrder [] sampleHistory C23_nonvacuous.1 C23_nonvacuous.2.1

/-- A sink that fails: `close` says that all is well, and after the drop the sink has nothing. -/
example : (XMLWriterOver.close (writeOver (planned.buffered 8191) Pieces.single) sampleOrder (XMLWriterOver.new (buffering (⟨[], [.failed]⟩ : Planned)))).1 = .ok () ∧
    planned.taken (dropBuffered planned
      (XMLWriterOver.close (writeOver (planned.buffered 8191) Pieces.single) sampleOrder (XMLWriterOver.new (buffering (⟨[], [.failed]⟩ : Planned)))).2.writer) = [] := by
  rw [C82_buffered_close (wr := planned) (by decide) Pieces.single sampleOrder (⟨[], [.failed]⟩ : Planned)]
  refine ⟨rfl, ?_⟩
  show planned.taken (planned.flushBuf _ _).2.2 = []
  rw [AnyWriter.flushBuf]
  rfl

/-- Three bytes for a buffer of four that has two: the buffer is written, one byte at a time, and holds the three then. -/
example : (bufWriteAll (narrow 1) 3 ⟨[], [1, 2]⟩ [3, 4, 5]).1 = true ∧
    ((narrow 1).buffered 3).taken (bufWriteAll (narrow 1) 3 ⟨[], [1, 2]⟩ [3, 4, 5]).2 = [1, 2] ++ [3, 4, 5] := by
  obtain ⟨h1, -, h2, -⟩ := (C82_buffered_write_all (wr := narrow 1) (size := 3) ⟨[], [1, 2]⟩ [3, 4, 5]).2 (narrow_steady (by decide))
  exact ⟨h1, h2⟩

/-- The calls of `sampleHistory` on a sink that fails: no answer tells. -/
example : (run (xmlCallOver (planned.buffered 8191) Pieces.single sampleOrder) (XMLWriterOver.new (buffering (⟨[], [.failed]⟩ : Planned))) sampleHistory).1 =
    (run (xmlCall sampleOrder) (XMLWriter.new ⟨[], []⟩) sampleHistory).1 :=
  (C82_buffered_unasked (wr := planned) Pieces.single sampleOrder (⟨[], [.failed]⟩ : Planned) sampleHistory (by decide +kernel)).1

end Osmio
