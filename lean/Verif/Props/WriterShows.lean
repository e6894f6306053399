import Verif.Proofs.WriteData
import Verif.Proofs.TextInj
/-!
# C109: what is written depends only on what the objects show, and shows it

`objData o` is everything the getters of an object return. `readBack d` is the same with the timestamp as text, the form in which it is
written: an instant and its text cannot be told apart in a file.
-/

namespace Osmio
open Spec OSMObjBase

variable {f g : Family}

/-! ## Only what the objects show -/

/-- The same call, with objects that show the same. They may be of different families. -/
inductive SameCall : Call f.Obj → Call g.Obj → Prop
  | setHeader (k v : Str) : SameCall (.setHeader k v) (.setHeader k v)
  | writeObj (o : f.Obj) (o' : g.Obj) (h : objData o = objData o') : SameCall (.writeObj o) (.writeObj o')
  | close : SameCall .close .close

theorem xml_sameCall (σ : HashOrder) {c : Call f.Obj} {c' : Call g.Obj} (h : SameCall c c') : xmlCall σ c = xmlCall σ c' := by
  cases h with
  | setHeader k v => rfl
  | writeObj o o' h => simp only [xmlCall, XMLWriter.writeObj, writeObjBody_data, h]
  | close => rfl

theorem osc_sameCall {c : Call f.Obj} {c' : Call g.Obj} (h : SameCall c c') : oscCall c = oscCall c' := by
  cases h with
  | setHeader k v => rfl
  | writeObj o o' h => simp only [oscCall, OSCWriter.writeObj, writeObjBody_data, h]
  | close => rfl

theorem run_same {S α β : Type} {call : Call α → M S Unit} {call' : Call β → M S Unit} : ∀ {cs : List (Call α)} {cs' : List (Call β)},
    List.Forall₂ (fun c c' => call c = call' c') cs cs' → ∀ w : S,
    (run call w cs).1.map Prod.snd = (run call' w cs').1.map Prod.snd ∧ (run call w cs).2 = (run call' w cs').2 := by
  intro cs cs' h
  induction h with
  | nil => exact fun _ => ⟨rfl, rfl⟩
  | cons h _ ih =>
    intro w
    obtain ⟨h1, h2⟩ := ih (call' _ w).2
    simp only [run, h, List.map_cons]
    exact ⟨by rw [h1], h2⟩

/-- **C109.** The same calls, with objects of any families that show the same through their getters: every call returns the same result, and
the writer and its sink are left in the same state, whatever their state was and whatever faults the sink produces. -/
theorem C109_only_what_is_shown (cs : List (Call f.Obj)) (cs' : List (Call g.Obj)) (h : List.Forall₂ SameCall cs cs') :
    (∀ (σ : HashOrder) (w : XMLWriter), (run (xmlCall σ) w cs).1.map Prod.snd = (run (xmlCall σ) w cs').1.map Prod.snd ∧
      (run (xmlCall σ) w cs).2 = (run (xmlCall σ) w cs').2) ∧
    (∀ w : OSCWriter, (run oscCall w cs).1.map Prod.snd = (run oscCall w cs').1.map Prod.snd ∧
      (run oscCall w cs).2 = (run oscCall w cs').2) :=
  ⟨fun σ w => run_same (h.imp fun _ _ h => xml_sameCall σ h) w, fun w => run_same (h.imp fun _ _ h => osc_sameCall h) w⟩

/-! ## All that the objects show -/

/-- Every object written has a version, and no double quote in a timestamp that is text. -/
def Showable (os : List f.Obj) : Prop :=
  ∀ o ∈ os, version o ≠ none ∧ ∀ s, timestamp o = some (.iso s) → '"' ∉ s

theorem textOf_readBack {o : f.Obj} {o' : g.Obj} (h : Xml.readBack (objData o) = Xml.readBack (objData o')) : textOf o = textOf o' := by
  have hv : version o = version o' := congrArg (fun d : ObjData => d.view.version) h
  have key : ∀ (d : ObjData) (v : UInt32), objText d v = objText (Xml.readBack d) v := by
    intro d v
    unfold objText attrsText Xml.readBack
    have : d.view.timestamp.map TimestampFormat.display =
        (d.view.timestamp.map fun t => TimestampFormat.iso t.toIsoString).map TimestampFormat.display := by
      cases d.view.timestamp <;> rfl
    simp only [this]
  unfold textOf
  rw [hv]
  cases version o' with
  | none => rfl
  | some v => simp only; rw [key, h, ← key]

theorem texts_readBack : ∀ {os : List f.Obj} {os' : List g.Obj},
    (os.map fun o => Xml.readBack (objData o)) = (os'.map fun o => Xml.readBack (objData o)) → os.flatMap textOf = os'.flatMap textOf
  | [], [], _ => rfl
  | [], _ :: _, h => by simp at h
  | _ :: _, [], h => by simp at h
  | o :: os, o' :: os', h => by
    simp only [List.map_cons, List.cons.injEq] at h
    rw [List.flatMap_cons, List.flatMap_cons, textOf_readBack h.1, texts_readBack h.2]

theorem texts_iff {os : List f.Obj} {os' : List g.Obj} (h : Showable os) (h' : Showable os') {r r' : Str}
    (hr : ¬ str% "\n\t<" <+: r) (hr' : ¬ str% "\n\t<" <+: r') :
    os.flatMap textOf ++ r = os'.flatMap textOf ++ r' ↔
      (os.map fun o => Xml.readBack (objData o)) = (os'.map fun o => Xml.readBack (objData o)) ∧ r = r' :=
  ⟨TextInj.objs_cut hr hr' (fun o ho => (h o ho).1) (fun o ho => (h' o ho).1) (fun o ho => (h o ho).2) (fun o ho => (h' o ho).2),
    fun e => by rw [texts_readBack e.1, e.2]⟩

theorem tail_not_object (n : Nat) : ¬ str% "\n\t<" <+: (List.replicate (n + 1) xmlTail).flatten := by
  rw [List.replicate_succ, List.flatten_cons]; simp [xmlTail]

theorem tails_inj {n m : Nat} (e : (List.replicate (n + 1) xmlTail).flatten = (List.replicate (m + 1) xmlTail).flatten) : n = m := by
  have e := congrArg List.length e
  have len : ∀ n, ((List.replicate n xmlTail).flatten).length = n * 7 := by
    intro n
    induction n with
    | zero => rfl
    | succ n ih => rw [List.replicate_succ, List.flatten_cons, List.length_append, ih, show xmlTail.length = 7 from rfl]; omega
  rw [len, len] at e; omega

/-- **C109, without double quotes in timestamps.** Two histories of an XML writer with the same headers, the writer being dropped at the end, leave
the same bytes in a sink without faults if and only if they write objects that show the same, in the same order, whatever characters their texts
contain, and call `close` equally often. Missing: the writer does not escape timestamps, see `C109_fails`. -/
theorem C109_xml_shows_all_partial (σ : HashOrder) (k : Sink) (hk : k.Reliable) (cs : List (Call f.Obj)) (cs' : List (Call g.Obj))
    (hh : headersOf cs = headersOf cs') (h : Showable (written cs)) (h' : Showable (written cs')) :
    (XMLWriter.drop σ (run (xmlCall σ) (XMLWriter.new k) cs).2).2.writer.out =
      (XMLWriter.drop σ (run (xmlCall σ) (XMLWriter.new k) cs').2).2.writer.out ↔
    ((written cs).map fun o => Xml.readBack (objData o)) = ((written cs').map fun o => Xml.readBack (objData o)) ∧
      cs.countP Call.isClose = cs'.countP Call.isClose := by
  rw [(C23_any_history σ k hk cs).2, (C23_any_history σ k hk cs').2, List.append_cancel_left_eq,
    sentOf_flatMap fun o ho => (h o ho).1, sentOf_flatMap fun o ho => (h' o ho).1, hh]
  constructor
  · intro e
    have e := Utf8.encode_injective e
    rw [List.append_assoc, List.append_assoc] at e
    obtain ⟨h1, h2⟩ := (texts_iff h h' (tail_not_object _) (tail_not_object _)).1 (List.append_cancel_left e)
    exact ⟨h1, tails_inj h2⟩
  · rintro ⟨h1, h2⟩
    rw [texts_readBack h1, h2]

/-- **C109, without double quotes in timestamps**, for OSC writers. Only the objects written before the first `close` count. -/
theorem C109_osc_shows_all_partial (k : Sink) (hk : k.Reliable) (cs : List (Call f.Obj)) (cs' : List (Call g.Obj))
    (h : Showable (written cs)) (h' : Showable (written cs')) :
    (OSCWriter.drop (run oscCall (OSCWriter.new k) cs).2).2.writer.out = (OSCWriter.drop (run oscCall (OSCWriter.new k) cs').2).2.writer.out ↔
    ((written cs).map fun o => Xml.readBack (objData o)) = ((written cs').map fun o => Xml.readBack (objData o)) := by
  rw [(C24_any_history k hk cs).2, (C24_any_history k hk cs').2, List.append_cancel_left_eq,
    sentOf_flatMap fun o ho => (h o ho).1, sentOf_flatMap fun o ho => (h' o ho).1]
  have ht : ¬ str% "\n\t<" <+: oscTail := by simp [oscTail]
  constructor
  · intro e
    have e := Utf8.encode_injective e
    rw [List.append_assoc, List.append_assoc] at e
    exact ((texts_iff h h' ht ht).1 (List.append_cancel_left e)).1
  · intro h1
    rw [texts_readBack h1]

theorem header_cut {a b : Str × Str} (ha : '=' ∉ a.1) (hb : '=' ∉ b.1) {r r' : Str}
    (e : rawAttr a.1 (escaped a.2) ++ r = rawAttr b.1 (escaped b.2) ++ r') : a = b ∧ r = r' := by
  simp only [rawAttr, List.cons_append, List.append_assoc, List.cons.injEq, true_and] at e
  obtain ⟨h1, h2⟩ := Dbg.upto (P := fun c => c == '=') (fun c hc => by simp; rintro rfl; exact ha hc)
    (fun c hc => by simp; rintro rfl; exact hb hc) (.inr ⟨_, _, rfl, rfl⟩) (.inr ⟨_, _, rfl, rfl⟩) e
  simp only [List.cons.injEq, true_and, List.nil_append] at h2
  obtain ⟨h3, h4⟩ := TextInj.quote_cut (TextInj.escaped_quote _) (TextInj.escaped_quote _) h2
  exact ⟨Prod.ext h1 (TextInj.escaped_inj h3), h4⟩

theorem head_cut {hs hs' : List (Str × Str)} (h : ∀ x ∈ hs, '=' ∉ x.1) (h' : ∀ x ∈ hs', '=' ∉ x.1) {r r' : Str}
    (e : xmlHead hs ++ r = xmlHead hs' ++ r') : hs = hs' ∧ r = r' := by
  unfold xmlHead at e
  simp only [List.append_assoc, List.append_cancel_left_eq] at e
  have stop : ∀ r : Str, ¬ [' '] <+: str% ">" ++ r := by intro r; simp
  have pre : ∀ x : Str × Str, [' '] <+: rawAttr x.1 (escaped x.2) := fun x => ⟨_, rfl⟩
  obtain ⟨h1, h2⟩ := TextInj.flat_cut (q := id) (q' := id) pre pre (stop r) (stop r')
    (fun x hx y hy s s' e => header_cut (h x hx) (h' y hy) e) e
  exact ⟨by simpa using h1, List.append_cancel_left h2⟩

/-- **C109, headers too**, if there is no equals sign in their keys, which the writer does not check: the bytes are the same if and only if the
headers, the objects and the numbers of calls of `close` are. -/
theorem C109_headers_partial (σ : HashOrder) (k : Sink) (hk : k.Reliable) (cs : List (Call f.Obj)) (cs' : List (Call g.Obj))
    (hh : ∀ x ∈ headersOf cs, '=' ∉ x.1) (hh' : ∀ x ∈ headersOf cs', '=' ∉ x.1) (h : Showable (written cs)) (h' : Showable (written cs')) :
    (XMLWriter.drop σ (run (xmlCall σ) (XMLWriter.new k) cs).2).2.writer.out =
      (XMLWriter.drop σ (run (xmlCall σ) (XMLWriter.new k) cs').2).2.writer.out ↔
    σ.order (headersOf cs) = σ.order (headersOf cs') ∧
    ((written cs).map fun o => Xml.readBack (objData o)) = ((written cs').map fun o => Xml.readBack (objData o)) ∧
      cs.countP Call.isClose = cs'.countP Call.isClose := by
  rw [(C23_any_history σ k hk cs).2, (C23_any_history σ k hk cs').2, List.append_cancel_left_eq,
    sentOf_flatMap fun o ho => (h o ho).1, sentOf_flatMap fun o ho => (h' o ho).1]
  constructor
  · intro e
    have e := Utf8.encode_injective e
    rw [List.append_assoc, List.append_assoc] at e
    obtain ⟨h1, e⟩ := head_cut (fun x hx => hh x ((σ.perm _).subset hx)) (fun x hx => hh' x ((σ.perm _).subset hx)) e
    obtain ⟨h2, h3⟩ := (texts_iff h h' (tail_not_object _) (tail_not_object _)).1 e
    exact ⟨h1, h2, tails_inj h3⟩
  · rintro ⟨h0, h1, h2⟩
    rw [h0, texts_readBack h1, h2]

/-- A node whose timestamp is a text with double quotes in it, and no position. -/
def quotedNode : StringNode := ⟨7, some 1, false, none, some (.iso (str% "x\" lat=\"1\" lon=\"2")), none, none, [], none⟩
/-- A node with a position. -/
def placedNode : StringNode := ⟨7, some 1, false, none, some (.iso (str% "x")), none, none, [], some (⟨10000000⟩, ⟨20000000⟩)⟩

/-- **C109 fails** for timestamps with double quotes: two nodes, one without and one with a position, are written alike by both writers. -/
theorem C109_fails : ∃ o o' : Family.string.Obj, version o ≠ none ∧ version o' ≠ none ∧ (objData o).pos = none ∧ (objData o').pos ≠ none ∧
    (∀ (σ : HashOrder) (k : Sink), k.Reliable → (XMLWriter.drop σ (run (xmlCall σ) (XMLWriter.new k) [.writeObj o]).2).2.writer.out =
      (XMLWriter.drop σ (run (xmlCall σ) (XMLWriter.new k) [.writeObj o']).2).2.writer.out) ∧
    (∀ k : Sink, k.Reliable → (OSCWriter.drop (run oscCall (OSCWriter.new k) [.writeObj o]).2).2.writer.out =
      (OSCWriter.drop (run oscCall (OSCWriter.new k) [.writeObj o']).2).2.writer.out) := by
  have e : sentOf (α := Family.string.Obj) (.node quotedNode : StringOSMObj) = sentOf (α := Family.string.Obj) (.node placedNode : StringOSMObj) := by
    decide +kernel
  have e2 : ([(.node quotedNode : StringOSMObj)] : List Family.string.Obj).flatMap sentOf =
      ([(.node placedNode : StringOSMObj)] : List Family.string.Obj).flatMap sentOf := by
    exact congrArg (· ++ []) e
  refine ⟨(.node quotedNode : StringOSMObj), (.node placedNode : StringOSMObj), by decide +kernel, by decide +kernel, by decide +kernel,
    by decide +kernel, fun σ k hk => ?_, fun k hk => ?_⟩
  · rw [(C23_any_history σ k hk _).2, (C23_any_history σ k hk _).2]
    exact congrArg (fun t => k.out ++ Utf8.encode (xmlHead (σ.order []) ++ t ++ (List.replicate 1 xmlTail).flatten)) e2
  · rw [(C24_any_history k hk _).2, (C24_any_history k hk _).2]
    exact congrArg (fun t => k.out ++ Utf8.encode (oscHead ++ t ++ oscTail)) e2

/-- **C109 fails** for headers with an equals sign in their keys: one header is written as two are. -/
theorem C109_headers_fails : ∃ cs cs' : List (Call Family.string.Obj), (headersOf cs).length = 1 ∧ (headersOf cs').length = 2 ∧
    written cs = [] ∧ written cs' = [] ∧ ∀ k : Sink, k.Reliable →
    (XMLWriter.drop sampleOrder (run (xmlCall sampleOrder) (XMLWriter.new k) cs).2).2.writer.out =
      (XMLWriter.drop sampleOrder (run (xmlCall sampleOrder) (XMLWriter.new k) cs').2).2.writer.out := by
  refine ⟨[.setHeader (str% "a=\"1\" b") (str% "2")], [.setHeader (str% "a") (str% "1"), .setHeader (str% "b") (str% "2")], rfl, rfl, rfl, rfl,
    fun k hk => ?_⟩
  rw [(C23_any_history sampleOrder k hk _).2, (C23_any_history sampleOrder k hk _).2]
  rfl

/-! ### Concrete cases -/

/-- A way of one family and one of another that show the same. -/
def shownWay : StringWay := ⟨7, some 1, true, some 5, some (.epoch 12), some 8, some (str% "<\"&"), [(str% "a", str% "\t'")], [1, 2, 1]⟩
def shownWay' : RcWay := ⟨7, some 1, true, some 5, some (.epoch 12), some 8, some (str% "<\"&"), [(str% "a", str% "\t'")], [1, 2, 1]⟩
/-- The same with its timestamp as text. -/
def shownWayIso : StringWay := { shownWay with timestamp_ := some (.iso (str% "1970-01-01T00:00:12Z")) }

theorem shown_same : objData (α := Family.string.Obj) (.way shownWay : StringOSMObj) = objData (α := Family.rc.Obj) (.way shownWay' : RcOSMObj) := rfl

/-- Calls that do the same. -/
def shownCalls : List (Call Family.string.Obj) := [.setHeader (str% "a") (str% "1"), .writeObj (.way shownWay : StringOSMObj), .close]
def shownCalls' : List (Call Family.rc.Obj) := [.setHeader (str% "a") (str% "1"), .writeObj (.way shownWay' : RcOSMObj), .close]

theorem shownCalls_same : List.Forall₂ SameCall shownCalls shownCalls' :=
  .cons (.setHeader _ _) (.cons (.writeObj _ _ shown_same) (.cons .close .nil))

example := (C109_only_what_is_shown shownCalls shownCalls' shownCalls_same).1 sampleOrder (XMLWriter.new ⟨[1], [none, some 3]⟩)

theorem showable_epoch : Showable (f := .string) (written shownCalls) := by
  intro o ho
  rw [List.mem_singleton.1 (show o ∈ [(.way shownWay : StringOSMObj)] from ho)]
  exact ⟨by decide +kernel, fun s hs => by cases hs⟩
theorem showable_rc : Showable (f := .rc) (written shownCalls') := by
  intro o ho
  rw [List.mem_singleton.1 (show o ∈ [(.way shownWay' : RcOSMObj)] from ho)]
  exact ⟨by decide +kernel, fun s hs => by cases hs⟩
theorem showable_iso : Showable (f := .string) (written [.writeObj (.way shownWayIso : StringOSMObj)]) := by
  intro o ho
  rw [List.mem_singleton.1 (show o ∈ [(.way shownWayIso : StringOSMObj)] from ho)]
  refine ⟨by decide +kernel, fun s hs => ?_⟩
  have : s = str% "1970-01-01T00:00:12Z" := by injection hs with h; injection h with h; exact h.symm
  rw [this]; decide

example : (XMLWriter.drop sampleOrder (run (xmlCall sampleOrder) (XMLWriter.new ⟨[10], [none, none]⟩) shownCalls).2).2.writer.out =
    (XMLWriter.drop sampleOrder (run (xmlCall sampleOrder) (XMLWriter.new ⟨[10], [none, none]⟩) shownCalls').2).2.writer.out :=
  (C109_xml_shows_all_partial sampleOrder _ acceptingSink shownCalls shownCalls' rfl showable_epoch showable_rc).2 ⟨rfl, rfl⟩
/-- Two histories with different headers. -/
example : (XMLWriter.drop sampleOrder (run (xmlCall sampleOrder) (XMLWriter.new ⟨[10], [none, none]⟩) shownCalls).2).2.writer.out ≠
    (XMLWriter.drop sampleOrder (run (xmlCall sampleOrder) (XMLWriter.new ⟨[10], [none, none]⟩) (shownCalls'.drop 1)).2).2.writer.out := fun h => by
  have := (C109_headers_partial (f := .string) (g := .rc) sampleOrder _ acceptingSink shownCalls (shownCalls'.drop 1) (by decide) (by decide)
    showable_epoch showable_rc).1 h
  exact absurd (congrArg List.length this.1) (by decide)
/-- An instant and its text are written alike. -/
theorem shown_iso : Xml.readBack (objData (α := Family.string.Obj) (.way shownWay : StringOSMObj)) =
    Xml.readBack (objData (α := Family.string.Obj) (.way shownWayIso : StringOSMObj)) := by
  have h : (TimestampFormat.epoch 12).toIsoString = str% "1970-01-01T00:00:12Z" := by decide +kernel
  have e : Xml.readBack (objData (α := Family.string.Obj) (.way shownWay : StringOSMObj)) =
      (fun s => (⟨⟨7, some 1, true, some 5, some (.iso s), some 8, some (str% "<\"&"), [(str% "a", str% "\t'")], .way⟩, none, [1, 2, 1], []⟩ : ObjData))
        ((TimestampFormat.epoch 12).toIsoString) := rfl
  rw [e, h]; rfl

def isoCalls : List (Call Family.string.Obj) := [.writeObj (.way shownWayIso : StringOSMObj)]

example : (OSCWriter.drop (run oscCall (OSCWriter.new ⟨[10], [none, none]⟩) shownCalls).2).2.writer.out =
    (OSCWriter.drop (run oscCall (OSCWriter.new ⟨[10], [none, none]⟩) isoCalls).2).2.writer.out :=
  (C109_osc_shows_all_partial _ acceptingSink shownCalls isoCalls showable_epoch showable_iso).2 (congrArg (fun d => [d]) shown_iso)
/-- Other objects are written otherwise. -/
example : (OSCWriter.drop (run oscCall (OSCWriter.new ⟨[10], [none, none]⟩) shownCalls).2).2.writer.out ≠
    (OSCWriter.drop (run oscCall (OSCWriter.new ⟨[10], [none, none]⟩) (shownCalls'.drop 2)).2).2.writer.out := fun h => by
  have := (C109_osc_shows_all_partial (f := .string) (g := .rc) _ acceptingSink shownCalls (shownCalls'.drop 2) showable_epoch
    (fun o ho => by cases ho)).1 h
  exact absurd (congrArg List.length this) (by decide)

end Osmio
