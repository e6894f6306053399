import Verif.Model.Traits
import Verif.Spec.Hints
/-!
# Model: the reader trait (`src/lib.rs:582-689`)

A reader is a state with a function `next`. The iterators nodes(), ways() and relations() are
`Iterator::filter_map` over it; one call of such an iterator's `next` may take any number of calls of the
reader's, and need not return on an endless reader, so it is a relation.
-/

namespace Osmio

/-- `src/lib.rs:582-642`, the required method `next` (line 611) and the state it changes. -/
structure ReaderT (σ Obj : Type) where
  next : σ → Option Obj × σ

/-- One call of `next` on `self.objects().filter_map(f)` (`src/lib.rs:621-642`, with `objects` from
lines 614-619 and 680-690): from a state, the item returned and the state left. -/
inductive FilterNext {σ Obj X : Type} (r : ReaderT σ Obj) (f : Obj → Option X) :
    σ → Option X → σ → Prop
  | done {s s' : σ} : r.next s = (none, s') → FilterNext r f s none s'
  | hit {s s' : σ} {o : Obj} {x : X} : r.next s = (some o, s') → f o = some x → FilterNext r f s (some x) s'
  | skip {s s1 s2 : σ} {o : Obj} {y : Option X} : r.next s = (some o, s1) → f o = none →
      FilterNext r f s1 y s2 → FilterNext r f s y s2

/-- What a `for` loop over such an iterator sees: the items up to the first `None`; `src/lib.rs:621-642`. -/
inductive FilterDrains {σ Obj X : Type} (r : ReaderT σ Obj) (f : Obj → Option X) :
    σ → List X → σ → Prop
  | done {s s' : σ} : FilterNext r f s none s' → FilterDrains r f s [] s'
  | more {s s1 s2 : σ} {x : X} {xs : List X} : FilterNext r f s (some x) s1 → FilterDrains r f s1 xs s2 →
      FilterDrains r f s (x :: xs) s2

/-- `src/lib.rs:614-619` and 680-690: what a `for` loop over `objects()` sees. -/
inductive ObjectsDrain {σ Obj : Type} (r : ReaderT σ Obj) : σ → List Obj → σ → Prop
  | done {s s' : σ} : r.next s = (none, s') → ObjectsDrain r s [] s'
  | more {s s1 s2 : σ} {o : Obj} {os : List Obj} : r.next s = (some o, s1) → ObjectsDrain r s1 os s2 →
      ObjectsDrain r s (o :: os) s2

/-- `src/lib.rs:621-626`: `nodes()`. -/
def NodesDrain {σ Obj N W R : Type} [OSMObjT Obj N W R] (r : ReaderT σ Obj) : σ → List N → σ → Prop :=
  FilterDrains r OSMObjT.intoNode

/-- `src/lib.rs:628-633`: `ways()`. -/
def WaysDrain {σ Obj N W R : Type} [OSMObjT Obj N W R] (r : ReaderT σ Obj) : σ → List W → σ → Prop :=
  FilterDrains r OSMObjT.intoWay

/-- `src/lib.rs:635-642`: `relations()`. -/
def RelationsDrain {σ Obj N W R : Type} [OSMObjT Obj N W R] (r : ReaderT σ Obj) : σ → List R → σ → Prop :=
  FilterDrains r OSMObjT.intoRelation

/-- `src/lib.rs:591-595`: the two methods of the trait that a reader may override. -/
structure SortedT (σ : Type) where
  set : σ → Bool → σ
  get : σ → Bool

/-- The bodies the trait gives them (`src/lib.rs:591-595`). -/
def SortedT.default {σ : Type} : SortedT σ := ⟨fun s _ => s, fun _ => false⟩

/-- `src/lib.rs:597-599` -/
def SortedT.assumeSorted {σ : Type} (t : SortedT σ) (s : σ) : σ := t.set s true
/-- `src/lib.rs:600-602` -/
def SortedT.assumeUnsorted {σ : Type} (t : SortedT σ) (s : σ) : σ := t.set s false

/-- One call on a reader with its own calls `act`; `src/lib.rs:592-602`. -/
def hintCall {σ A O : Type} (t : SortedT σ) (act : A → σ → O × σ) (c : Spec.HintCall A) (s : σ) : Spec.HintOut O × σ :=
  match c with
  | .op a => (.answer (act a s).1, (act a s).2)
  | .setSortedAssumption b => (.unit, t.set s b)
  | .assumeSorted => (.unit, t.assumeSorted s)
  | .assumeUnsorted => (.unit, t.assumeUnsorted s)
  | .getSortedAssumption => (.flag (t.get s), s)

/-- Any calls, one after the other; `src/lib.rs:592-602`. -/
def hintRun {σ A O : Type} (t : SortedT σ) (act : A → σ → O × σ) : List (Spec.HintCall A) → σ → List (Spec.HintOut O) × σ
  | [], s => ([], s)
  | c :: cs, s =>
    ((hintCall t act c s).1 :: (hintRun t act cs (hintCall t act c s).2).1, (hintRun t act cs (hintCall t act c s).2).2)

/-- The reader's own calls, one after the other; `src/lib.rs:582-642`. -/
def actRun {σ A O : Type} (act : A → σ → O × σ) : List A → σ → List O × σ
  | [], s => ([], s)
  | a :: as, s => ((act a s).1 :: (actRun act as (act a s).2).1, (actRun act as (act a s).2).2)

end Osmio
