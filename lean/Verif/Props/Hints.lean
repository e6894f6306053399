import Verif.Model.Reader
import Verif.Model.StringPbf
import Verif.Model.ArcPbf
import Verif.Model.XmlRead
/-!
# C78: the sortedness hint changes nothing
-/

namespace Osmio
open Spec

variable {σ A O : Type}

/-- A reader that keeps the hint and does not look at it. -/
structure KeepsHint (t : SortedT σ) (act : A → σ → O × σ) : Prop where
  act_set : ∀ a s b, act a (t.set s b) = ((act a s).1, t.set (act a s).2 b)
  set_set : ∀ s b c, t.set (t.set s b) c = t.set s c
  set_get : ∀ s, t.set s (t.get s) = s

theorem hint_step {t : SortedT σ} {act : A → σ → O × σ} (h : KeepsHint t act) (c : HintCall A) (s : σ) (b : Bool) :
    (hintCall t act c (t.set s b)).2 =
      t.set (match c.op? with | some a => (act a s).2 | none => s) (c.says.getD b) := by
  cases c <;> simp [hintCall, HintCall.op?, HintCall.says, h.act_set, h.set_set, SortedT.assumeSorted, SortedT.assumeUnsorted]

theorem hint_answers {t : SortedT σ} {act : A → σ → O × σ} (h : KeepsHint t act) (cs : List (HintCall A)) :
    ∀ (s : σ) (b : Bool), (hintRun t act cs (t.set s b)).1.filterMap HintOut.answer? = (actRun act (cs.filterMap HintCall.op?) s).1 := by
  induction cs with
  | nil => intro s b; rfl
  | cons c cs ih =>
    intro s b
    simp only [hintRun]
    rw [hint_step h]
    cases c <;> simp [hintCall, HintCall.op?, HintCall.says, HintOut.answer?, actRun, ih, h.act_set, List.filterMap_cons]

theorem hint_state {t : SortedT σ} {act : A → σ → O × σ} (h : KeepsHint t act) (cs : List (HintCall A)) :
    ∀ (s : σ) (b : Bool), (hintRun t act cs (t.set s b)).2 =
      t.set (actRun act (cs.filterMap HintCall.op?) s).2 (((cs.filterMap HintCall.says).getLast?).getD b) := by
  induction cs with
  | nil => intro s b; rfl
  | cons c cs ih =>
    intro s b
    simp only [hintRun]
    rw [hint_step h, ih]
    cases c <;> simp only [HintCall.op?, HintCall.says, actRun, List.getLast?_cons, List.filterMap_cons, Option.getD_some, Option.getD_none]

theorem hintRun_append (t : SortedT σ) (act : A → σ → O × σ) (cs ds : List (HintCall A)) :
    ∀ s, (hintRun t act (cs ++ ds) s).1 = (hintRun t act cs s).1 ++ (hintRun t act ds (hintRun t act cs s).2).1 := by
  induction cs with
  | nil => intro s; rfl
  | cons c cs ih => intro s; simp [hintRun, ih]

theorem hintRun_length (t : SortedT σ) (act : A → σ → O × σ) (cs : List (HintCall A)) :
    ∀ s, (hintRun t act cs s).1.length = cs.length := by
  induction cs with
  | nil => intro s; rfl
  | cons c cs ih => intro s; simp [hintRun, ih]

theorem hint_get {t : SortedT σ} {act : A → σ → O × σ} (h : KeepsHint t act) (hg : ∀ s b, t.get (t.set s b) = b)
    {s : σ} (h0 : t.get s = false) (pre post : List (HintCall A)) :
    (hintRun t act (pre ++ .getSortedAssumption :: post) s).1[pre.length]? = some (.flag (saidLast pre)) := by
  have hs : s = t.set s false := by rw [← h0, h.set_get]
  rw [hintRun_append, List.getElem?_append_right (by rw [hintRun_length]), hintRun_length, Nat.sub_self, hs, hint_state h]
  simp [hintRun, hintCall, hg, saidLast]

theorem keeps_default (act : A → σ → O × σ) : KeepsHint SortedT.default act :=
  ⟨fun _ _ _ => rfl, fun _ _ _ => rfl, fun _ => rfl⟩

/-! ## The four readers -/

/-- The hint of the PBF readers. -/
def ownedHint : SortedT StringPbf.PBFReader := ⟨StringPbf.PBFReader.setSortedAssumption, StringPbf.PBFReader.getSortedAssumption⟩
def sharedHint : SortedT ArcPbf.PBFReader := ⟨ArcPbf.PBFReader.setSortedAssumption, ArcPbf.PBFReader.getSortedAssumption⟩

/-- The other calls on a PBF reader: `next`, `inner`, and (for the reader of owned objects) what `nodes`, `ways` and `relations` do
before they iterate. -/
inductive PbfAct where
  | next
  | inner
  | restrict (k : OSMObjectType)

/-- What they return: an object, the end or a panic; the bytes not yet taken; nothing. -/
inductive PbfAnswer (Obj : Type) where
  | object (r : Res (Option Obj))
  | source (s : Source)
  | nothing

def ownedAct (zlib : Proto.Bytes → Option Proto.Bytes) (b : Build) : PbfAct → StringPbf.PBFReader →
    PbfAnswer StringOSMObj × StringPbf.PBFReader
  | .next, r => (.object (r.next zlib b).1, (r.next zlib b).2)
  | .inner, r => (.source r.intoInner, r)
  | .restrict .node, r => (.nothing, r.nodes)
  | .restrict .way, r => (.nothing, r.ways)
  | .restrict .relation, r => (.nothing, r.relations)

def sharedAct (zlib : Proto.Bytes → Option Proto.Bytes) (b : Build) : PbfAct → ArcPbf.PBFReader →
    PbfAnswer ArcOSMObj × ArcPbf.PBFReader
  | .next, r => (.object (r.next zlib b).1, (r.next zlib b).2)
  | .inner, r => (.source r.intoInner, r)
  | .restrict _, r => (.nothing, r)

theorem owned_nextAux_set (zlib : Proto.Bytes → Option Proto.Bytes) (b : Build) (n : Nat) : ∀ (r : StringPbf.PBFReader) (x : Bool),
    StringPbf.PBFReader.nextAux zlib b n (r.setSortedAssumption x) =
      ((StringPbf.PBFReader.nextAux zlib b n r).1, (StringPbf.PBFReader.nextAux zlib b n r).2.setSortedAssumption x) := by
  induction n with
  | zero =>
    rintro ⟨src, buf, f, fl⟩ x
    cases buf <;> simp [StringPbf.PBFReader.nextAux, StringPbf.PBFReader.setSortedAssumption]
  | succ n ih =>
    rintro ⟨src, buf, f, fl⟩ x
    cases buf with
    | cons o os => simp [StringPbf.PBFReader.nextAux, StringPbf.PBFReader.setSortedAssumption]
    | nil =>
      unfold StringPbf.PBFReader.nextAux
      simp only [StringPbf.PBFReader.setSortedAssumption]
      rcases hb : StringPbf.getNextOsmdataBlob src with ⟨_ | _ | blob, src'⟩
      · rfl
      · rfl
      · rcases hd : StringPbf.decodeBlob zlib b fl blob with ⟨os, _ | p⟩
        · simp only [hd]
          exact ih ⟨src', os, f, fl⟩ x
        · simp only [hd]

theorem shared_nextAux_set (zlib : Proto.Bytes → Option Proto.Bytes) (b : Build) (n : Nat) : ∀ (r : ArcPbf.PBFReader) (x : Bool),
    ArcPbf.PBFReader.nextAux zlib b n (r.setSortedAssumption x) =
      ((ArcPbf.PBFReader.nextAux zlib b n r).1, (ArcPbf.PBFReader.nextAux zlib b n r).2.setSortedAssumption x) := by
  induction n with
  | zero =>
    rintro ⟨src, buf, f⟩ x
    unfold ArcPbf.PBFReader.nextAux
    simp only [ArcPbf.PBFReader.setSortedAssumption]
    cases buf.getLast? <;> rfl
  | succ n ih =>
    rintro ⟨src, buf, f⟩ x
    unfold ArcPbf.PBFReader.nextAux
    simp only [ArcPbf.PBFReader.setSortedAssumption]
    cases buf.getLast? with
    | some o => rfl
    | none =>
      rcases hb : ArcPbf.getNextOsmdataBlob src with ⟨_ | _ | blob, src'⟩
      · rfl
      · rfl
      · rcases hd : ArcPbf.decodeBlob zlib b blob with _ | os
        · simp only [hd]
        · simp only [hd]
          exact ih ⟨src', os.reverse, f⟩ x

theorem owned_keeps (zlib : Proto.Bytes → Option Proto.Bytes) (b : Build) : KeepsHint ownedHint (ownedAct zlib b) := by
  refine ⟨?_, fun _ _ _ => rfl, fun _ => rfl⟩
  rintro (_ | _ | _ | _ | _) s x
  · have := owned_nextAux_set zlib b (s.src.length + 1) s x
    show (PbfAnswer.object (StringPbf.PBFReader.nextAux zlib b (s.src.length + 1) (s.setSortedAssumption x)).1,
      (StringPbf.PBFReader.nextAux zlib b (s.src.length + 1) (s.setSortedAssumption x)).2) = _
    rw [this]
    rfl
  all_goals rfl

theorem shared_keeps (zlib : Proto.Bytes → Option Proto.Bytes) (b : Build) : KeepsHint sharedHint (sharedAct zlib b) := by
  refine ⟨?_, fun _ _ _ => rfl, fun _ => rfl⟩
  rintro (_ | _ | _) s x
  · have := shared_nextAux_set zlib b (s.src.length + 1) s x
    show (PbfAnswer.object (ArcPbf.PBFReader.nextAux zlib b (s.src.length + 1) (s.setSortedAssumption x)).1,
      (ArcPbf.PBFReader.nextAux zlib b (s.src.length + 1) (s.setSortedAssumption x)).2) = _
    rw [this]
    rfl
  all_goals rfl

/-- **C78**, the PBF reader of owned objects: whatever calls about sortedness come between the others, these return what they return
without them, and asking for the hint gives what was said last (at first, not sorted). -/
theorem C78_owned (zlib : Proto.Bytes → Option Proto.Bytes) (b : Build) (src : Source) (cs : List (HintCall PbfAct)) :
    (hintRun ownedHint (ownedAct zlib b) cs (StringPbf.PBFReader.new src)).1.filterMap HintOut.answer? =
      (actRun (ownedAct zlib b) (cs.filterMap HintCall.op?) (StringPbf.PBFReader.new src)).1 ∧
    ∀ pre post, cs = pre ++ .getSortedAssumption :: post →
      (hintRun ownedHint (ownedAct zlib b) cs (StringPbf.PBFReader.new src)).1[pre.length]? = some (.flag (saidLast pre)) :=
  ⟨hint_answers (owned_keeps zlib b) cs (StringPbf.PBFReader.new src) false,
    fun pre post h => by rw [h]; exact hint_get (owned_keeps zlib b) (fun _ _ => rfl) rfl pre post⟩

/-- **C78**, the PBF reader of shared objects. -/
theorem C78_shared (zlib : Proto.Bytes → Option Proto.Bytes) (b : Build) (src : Source) (cs : List (HintCall PbfAct)) :
    (hintRun sharedHint (sharedAct zlib b) cs (ArcPbf.PBFReader.new src)).1.filterMap HintOut.answer? =
      (actRun (sharedAct zlib b) (cs.filterMap HintCall.op?) (ArcPbf.PBFReader.new src)).1 ∧
    ∀ pre post, cs = pre ++ .getSortedAssumption :: post →
      (hintRun sharedHint (sharedAct zlib b) cs (ArcPbf.PBFReader.new src)).1[pre.length]? = some (.flag (saidLast pre)) :=
  ⟨hint_answers (shared_keeps zlib b) cs (ArcPbf.PBFReader.new src) false,
    fun pre post h => by rw [h]; exact hint_get (shared_keeps zlib b) (fun _ _ => rfl) rfl pre post⟩

/-- **C78**, the XML and OSC readers, which do not override the trait's methods: the objects read are the same, and asking for the hint gives
`false` whatever was said. -/
theorem C78_xml (norm : Xml.Config) (doc : List UInt8) (cs : List (HintCall Unit)) :
    (∀ next ∈ [XMLReader.next, OSCReader.next],
      (hintRun SortedT.default (fun _ => next) cs (XMLReader.new norm doc)).1.filterMap HintOut.answer? =
        (actRun (fun _ => next) (cs.filterMap HintCall.op?) (XMLReader.new norm doc)).1 ∧
      ∀ pre post, cs = pre ++ .getSortedAssumption :: post →
        (hintRun SortedT.default (fun _ => next) cs (XMLReader.new norm doc)).1[pre.length]? = some (.flag false)) := by
  intro next _
  refine ⟨hint_answers (keeps_default _) cs _ false, fun pre post h => ?_⟩
  rw [h, hintRun_append, List.getElem?_append_right (by rw [hintRun_length]), hintRun_length, Nat.sub_self]
  rfl

/-- The hint is kept by the PBF readers and not by the others. -/
theorem C78_witness (zlib : Proto.Bytes → Option Proto.Bytes) (b : Build) (src : Source) (norm : Xml.Config) (doc : List UInt8) :
    ((hintRun ownedHint (ownedAct zlib b) [.assumeSorted, .op .next, .getSortedAssumption] (StringPbf.PBFReader.new src)).1[2]? =
      some (.flag true)) ∧
    ((hintRun SortedT.default (fun (_ : Unit) => XMLReader.next) [.assumeSorted, .op (), .getSortedAssumption] (XMLReader.new norm doc)).1[2]? =
      some (.flag false)) :=
  ⟨(C78_owned zlib b src _).2 [.assumeSorted, .op .next] [] rfl, rfl⟩

example : saidLast (A := Unit) [.assumeSorted, .op (), .setSortedAssumption false] = false ∧
    saidLast (A := Unit) [.assumeUnsorted, .op (), .assumeSorted, .op (), .getSortedAssumption] = true := ⟨rfl, rfl⟩

end Osmio
