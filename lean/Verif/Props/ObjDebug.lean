import Verif.Proofs.ObjDebug
import Verif.Props.Programs
/-!
# The debug text of an object shows all of it (C108), and what `osmio-osc-debug` prints (C87)
-/

namespace Osmio
open Spec Spec.Programs Programs

/-- **C108.** Two objects with the same debug text, of `{:?}` or of `{:#?}`, are the same in every field. `plain` stands for the tables of Unicode by
which the standard library shows a character as it is. -/
theorem C108_objects (plain : Char → Bool) (alt : Bool) :
    (∀ x y : StringOSMObj, x.debug plain alt = y.debug plain alt ↔ x = y) ∧ (∀ x y : RcOSMObj, x.debug plain alt = y.debug plain alt ↔ x = y) ∧
    ∀ x y : ArcOSMObj, x.debug plain alt = y.debug plain alt ↔ x = y :=
  ⟨fun _ _ => ⟨(Dbg.exact_StringOSMObj plain alt).inj, congrArg _⟩, fun _ _ => ⟨(Dbg.exact_RcOSMObj plain alt).inj, congrArg _⟩,
    fun _ _ => ⟨(Dbg.exact_ArcOSMObj plain alt).inj, congrArg _⟩⟩

/-- **C108**, for nodes, ways and relations by themselves. -/
theorem C108_structs (plain : Char → Bool) (alt : Bool) :
    (∀ x y : StringNode, x.debug plain alt = y.debug plain alt ↔ x = y) ∧ (∀ x y : StringWay, x.debug plain alt = y.debug plain alt ↔ x = y) ∧
    (∀ x y : StringRelation, x.debug plain alt = y.debug plain alt ↔ x = y) ∧ (∀ x y : RcNode, x.debug plain alt = y.debug plain alt ↔ x = y) ∧
    (∀ x y : RcWay, x.debug plain alt = y.debug plain alt ↔ x = y) ∧ (∀ x y : RcRelation, x.debug plain alt = y.debug plain alt ↔ x = y) ∧
    (∀ x y : ArcNode, x.debug plain alt = y.debug plain alt ↔ x = y) ∧ (∀ x y : ArcWay, x.debug plain alt = y.debug plain alt ↔ x = y) ∧
    ∀ x y : ArcRelation, x.debug plain alt = y.debug plain alt ↔ x = y :=
  ⟨fun _ _ => ⟨(Dbg.exact_StringNode plain alt).inj, congrArg _⟩, fun _ _ => ⟨(Dbg.exact_StringWay plain alt).inj, congrArg _⟩,
    fun _ _ => ⟨(Dbg.exact_StringRelation plain alt).inj, congrArg _⟩, fun _ _ => ⟨(Dbg.exact_RcNode plain alt).inj, congrArg _⟩,
    fun _ _ => ⟨(Dbg.exact_RcWay plain alt).inj, congrArg _⟩, fun _ _ => ⟨(Dbg.exact_RcRelation plain alt).inj, congrArg _⟩,
    fun _ _ => ⟨(Dbg.exact_ArcNode plain alt).inj, congrArg _⟩, fun _ _ => ⟨(Dbg.exact_ArcWay plain alt).inj, congrArg _⟩,
    fun _ _ => ⟨(Dbg.exact_ArcRelation plain alt).inj, congrArg _⟩⟩

/-- **C108**, several objects one after the other, each on lines of its own: the text says how many there are and what each is. -/
theorem C108_several (plain : Char → Bool) (alt : Bool) (xs ys : List StringOSMObj) :
    (xs.flatMap fun x => x.debug plain alt ++ ['\n']) = (ys.flatMap fun x => x.debug plain alt ++ ['\n']) ↔ xs = ys := by
  refine ⟨fun e => ?_, fun h => by rw [h]⟩
  induction xs generalizing ys with
  | nil =>
    cases ys with
    | nil => rfl
    | cons y ys => simp at e
  | cons x xs ih =>
    cases ys with
    | nil => simp at e
    | cons y ys =>
      simp only [List.flatMap_cons, List.append_assoc] at e
      obtain ⟨rfl, h⟩ := Dbg.exact_StringOSMObj plain alt x y _ _ (.cons (by decide)) (.cons (by decide)) e
      rw [ih ys (by simpa using h)]

/-- **C108**, timestamps: the text also shows which of the two kinds it is. Two that are equal to `==` can have different texts. -/
theorem C108_timestamps (plain : Char → Bool) (alt : Bool) : ∀ x y : TimestampFormat, x.debug plain alt = y.debug plain alt ↔ x = y :=
  fun _ _ => ⟨(Dbg.exact_timestamp plain alt).inj, congrArg _⟩

/-- **C87**, `osmio-osc-debug`: if it prints the same text for two files, it has seen the same objects in them. -/
theorem C87_debug_text (plain : Char → Bool) (place : Str) (os os' : List StringOSMObj) :
    os.flatMap (dbgLine plain place) = os'.flatMap (dbgLine plain place) ↔ os = os' := by
  refine ⟨fun e => ?_, fun h => by rw [h]⟩
  induction os generalizing os' with
  | nil =>
    cases os' with
    | nil => rfl
    | cons y ys => simp [dbgLine] at e
  | cons x xs ih =>
    cases os' with
    | nil => simp [dbgLine] at e
    | cons y ys =>
      simp only [List.flatMap_cons, dbgLine, List.append_assoc, List.append_cancel_left_eq] at e
      obtain ⟨rfl, h⟩ := Dbg.exact_StringOSMObj plain true x y _ _ (.cons (by decide)) (.cons (by decide)) e
      rw [ih ys (by simpa [dbgLine] using h)]

/-! Texts. -/

example : (StringOSMObj.node ⟨-5, some 3, false, none, some (.epoch 7), some 9, some (str% "a\"b"), [(str% "k", str% "v\n"), (str% "", str% "é")],
    some (⟨10000000⟩, ⟨0⟩)⟩).debug (fun c => c.toNat < 127) false =
    str% "Node(StringNode { _id: -5, _version: Some(3), _deleted: false, _changeset_id: None, _timestamp: Some(EpochNumber(7)), _uid: Some(9), _user: Some(\"a\\\"b\"), _tags: [(\"k\", \"v\\n\"), (\"\", \"\\u{e9}\")], _lat_lon: Some((1.0, 0.0)) })" := by
  decide +kernel

example : (RcOSMObj.relation ⟨1, none, true, some 2, some (.iso (str% "x")), none, none, [], [(.way, -7, str% "outer")]⟩).debug (fun _ => true) true =
    str% "Relation(\n    RcRelation {\n        _id: 1,\n        _version: None,\n        _deleted: true,\n        _changeset_id: Some(\n            2,\n        ),\n        _timestamp: Some(\n            ISOString(\n                \"x\",\n            ),\n        ),\n        _uid: None,\n        _user: None,\n        _tags: [],\n        _members: [\n            (\n                w,\n                -7,\n                \"outer\",\n            ),\n        ],\n    },\n)" := by
  decide +kernel

example : dbgLine (fun _ => true) (str% "src/bin/osmio-osc-debug.rs:15:9") (.way ⟨4, some 1, false, none, none, none, none, [(str% "a", str% "b")], [1, -2]⟩) =
    str% "[src/bin/osmio-osc-debug.rs:15:9] o = Way(\n    StringWay {\n        _id: 4,\n        _version: Some(\n            1,\n        ),\n        _deleted: false,\n        _changeset_id: None,\n        _timestamp: None,\n        _uid: None,\n        _user: None,\n        _tags: [\n            (\n                \"a\",\n                \"b\",\n            ),\n        ],\n        _nodes: [\n            1,\n            -2,\n        ],\n    },\n)\n" := by
  decide +kernel

example : (ArcNode.mk 0 none false none none none none none none).debug (fun _ => true) false =
    str% "ArcNode { _id: 0, _version: None, _deleted: false, _changeset_id: None, _timestamp: None, _uid: None, _user: None, _tags: None, _lat_lon: None }" ∧
    (ArcNode.mk 0 none false none none none none (some []) none).debug (fun _ => true) false =
    str% "ArcNode { _id: 0, _version: None, _deleted: false, _changeset_id: None, _timestamp: None, _uid: None, _user: None, _tags: Some([]), _lat_lon: None }" := by
  decide +kernel

end Osmio
