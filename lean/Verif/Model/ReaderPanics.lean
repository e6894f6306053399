import Verif.Model.Traits
import Verif.Lib.Machine
/-!
# Model: nodes(), ways() and relations() of a reader whose `next` may panic

`Model/Reader.lean` has the same iterators for readers that never panic.
-/

namespace Osmio

/-- One call of `next` on `self.objects().filter_map(f)` (`src/lib.rs:621-642`, with `objects` from lines 614-619 and 680-689): from a state, what comes out
and the state left. A panic of the reader's `next` goes through `filter_map` to the caller. The call need not return on an endless reader, so it is a relation. -/
inductive PickNext {σ Obj X : Type} (next : σ → Res (Option Obj) × σ) (f : Obj → Option X) : σ → Res (Option X) → σ → Prop
  | done {s s' : σ} : next s = (.ok none, s') → PickNext next f s (.ok none) s'
  | panic {s s' : σ} {p : Panic} : next s = (.error p, s') → PickNext next f s (.error p) s'
  | hit {s s' : σ} {o : Obj} {x : X} : next s = (.ok (some o), s') → f o = some x → PickNext next f s (.ok (some x)) s'
  | skip {s s1 s2 : σ} {o : Obj} {y : Res (Option X)} : next s = (.ok (some o), s1) → f o = none → PickNext next f s1 y s2 → PickNext next f s y s2

variable {σ Obj N W R : Type} [OSMObjT Obj N W R] (next : σ → Res (Option Obj) × σ)

/-- `src/lib.rs:621-626`: one call of `next` on `nodes()`. -/
def NodesNext : σ → Res (Option N) → σ → Prop := PickNext next OSMObjT.intoNode
/-- `src/lib.rs:628-633`: one call of `next` on `ways()`. -/
def WaysNext : σ → Res (Option W) → σ → Prop := PickNext next OSMObjT.intoWay
/-- `src/lib.rs:635-642`: one call of `next` on `relations()`. -/
def RelationsNext : σ → Res (Option R) → σ → Prop := PickNext next OSMObjT.intoRelation

end Osmio
