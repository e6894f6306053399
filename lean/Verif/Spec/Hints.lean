import Verif.Lib.StrLit
/-!
# Specification: the sortedness hint (C78)

A program uses a reader by calls of any kind (`A`, with answers of type `O`) and by the calls that set the hint or ask for it.
-/

namespace Osmio.Spec

/-- A call on a reader: one of its own, or one about the hint. -/
inductive HintCall (A : Type) where
  | op (a : A)
  | setSortedAssumption (b : Bool)
  | assumeSorted
  | assumeUnsorted
  | getSortedAssumption

/-- What a call returns. -/
inductive HintOut (O : Type) where
  | answer (o : O)
  | flag (b : Bool)
  | unit

namespace HintCall

/-- The reader's own call, if it is one. -/
def op? {A : Type} : HintCall A → Option A
  | op a => some a
  | _ => none

/-- What the call says about sortedness. -/
def says {A : Type} : HintCall A → Option Bool
  | setSortedAssumption b => some b
  | assumeSorted => some true
  | assumeUnsorted => some false
  | _ => none

end HintCall

/-- The answer to the reader's own call, if it was one. -/
def HintOut.answer? {O : Type} : HintOut O → Option O
  | .answer o => some o
  | _ => none

/-- What the calls said last; at first a file is not assumed to be sorted. -/
def saidLast {A : Type} (cs : List (HintCall A)) : Bool := ((cs.filterMap HintCall.says).getLast?).getD false

end Osmio.Spec
