import Verif.Spec.Drain
import Verif.Spec.XmlText
import Verif.Spec.PbfFile
import Verif.Model.ReaderPanics
import Verif.Model.Family
/-!
# Specification: loops over nodes(), ways() and relations()
-/

namespace Osmio.Spec

/-- A loop over an iterator: it takes what comes until `None`, or a panic. Here are the items, the panic and the state that is left. -/
inductive Loop {σ X : Type} (nxt : σ → Res (Option X) → σ → Prop) : σ → List X → Option Panic → σ → Prop
  | done {s s' : σ} : nxt s (.ok none) s' → Loop nxt s [] none s'
  | panic {s s' : σ} {p : Panic} : nxt s (.error p) s' → Loop nxt s [] (some p) s'
  | more {s s1 s2 : σ} {x : X} {xs : List X} {e : Option Panic} : nxt s (.ok (some x)) s1 → Loop nxt s1 xs e s2 → Loop nxt s (x :: xs) e s2

/-- A loop that is left after some items. -/
inductive Takes {σ X : Type} (nxt : σ → Res (Option X) → σ → Prop) : σ → List X → σ → Prop
  | leave {s : σ} : Takes nxt s [] s
  | more {s s1 s2 : σ} {x : X} {xs : List X} : nxt s (.ok (some x)) s1 → Takes nxt s1 xs s2 → Takes nxt s (x :: xs) s2

/-- The objects of a kind. -/
def ofKind (k : OSMObjectType) (ds : List ObjData) : List ObjData := ds.filter fun d => d.view.kind == k

end Osmio.Spec

namespace Osmio

/-- What is shown of a node. -/
def dataOfNode {N : Type} [NodeT N] (n : N) : Spec.ObjData := ⟨view n, NodeT.latLon n, [], []⟩
/-- What is shown of a way. -/
def dataOfWay {W : Type} [WayT W] (w : W) : Spec.ObjData := ⟨view w, none, WayT.nodes w, []⟩
/-- What is shown of a relation. -/
def dataOfRelation {R : Type} [RelationT R] (r : R) : Spec.ObjData := ⟨view r, none, [], RelationT.members r⟩

/-- Loops over objects(), nodes(), ways() and relations(): they show these objects, all or those of the kind, and all end with this panic, or without. Nothing else
can come out. -/
structure Spec.Shows {fam : Family} {σ : Type} (next : σ → Res (Option fam.Obj) × σ) (s : σ) (ds : List Spec.ObjData) (e : Option Panic) : Prop where
  objects : ∀ xs e', (∃ os t, Spec.Drain next s os e' t ∧ os.map objData = xs) ↔ xs = ds ∧ e' = e
  nodes : ∀ xs e', (∃ ns t, Spec.Loop (NodesNext next) s ns e' t ∧ ns.map dataOfNode = xs) ↔ xs = Spec.ofKind .node ds ∧ e' = e
  ways : ∀ xs e', (∃ ws t, Spec.Loop (WaysNext next) s ws e' t ∧ ws.map dataOfWay = xs) ↔ xs = Spec.ofKind .way ds ∧ e' = e
  relations : ∀ xs e', (∃ rs t, Spec.Loop (RelationsNext next) s rs e' t ∧ rs.map dataOfRelation = xs) ↔ xs = Spec.ofKind .relation ds ∧ e' = e

/-- The loops over a new PBF reader. -/
def Spec.Pbf.LoopsShow (r : Spec.Pbf.Which) (zlib : Proto.Bytes → Option Proto.Bytes) (b : Build) (src : Source) (ds : List Spec.ObjData) (e : Option Panic) : Prop :=
  match r with
  | .owned => Spec.Shows (fam := .string) (StringPbf.PBFReader.next zlib b) (StringPbf.PBFReader.new src) ds e
  | .shared => Spec.Shows (fam := .arc) (ArcPbf.PBFReader.next zlib b) (ArcPbf.PBFReader.new src) ds e

end Osmio
