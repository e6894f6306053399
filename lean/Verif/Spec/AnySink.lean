import Verif.Model.AnySink
import Verif.Spec.Writer
/-!
# Specification: sinks that take their bytes in any portions
-/

namespace Osmio.Spec

/-- A sink that never fails: given bytes, it takes at least one of them or is interrupted. -/
def Steady (wr : AnyWriter) : Prop := ∀ s buf, buf ≠ [] → (wr.write s buf).1 ≠ .failed ∧ (wr.write s buf).1 ≠ .ok 0

/-- The calls of an XML writer on such a sink. -/
def xmlCallOver {α N W R : Type} [OSMObjT α N W R] [NodeT N] [WayT W] [RelationT R] (wr : AnyWriter) (pc : Pieces wr.S) (σ : HashOrder) :
    Call α → M (XMLWriterOver wr.S) Unit
  | .setHeader k v => XMLWriterOver.setHeader k v
  | .writeObj o => XMLWriterOver.writeObj (writeOver wr pc) σ o
  | .close => XMLWriterOver.close (writeOver wr pc) σ

/-- The calls of an OSC writer on such a sink. -/
def oscCallOver {α N W R : Type} [OSMObjT α N W R] [NodeT N] [WayT W] [RelationT R] (wr : AnyWriter) (pc : Pieces wr.S) :
    Call α → M (OSCWriterOver wr.S) Unit
  | .setHeader k v => OSCWriterOver.setHeader k v
  | .writeObj o => OSCWriterOver.writeObj (writeOver wr pc) o
  | .close => OSCWriterOver.close (writeOver wr pc)

/-- What a sink with a plan does on a call: take at most so many bytes, be interrupted, or fail. -/
inductive Plan where
  | atMost (n : Nat)
  | interrupted
  | failed

/-- The state of a sink with a plan: the bytes taken and the plan for the calls to come. -/
structure Planned where
  got : List UInt8
  plan : List Plan

/-- One call. A sink whose plan has run out takes everything. -/
def writePlanned (s : Planned) (buf : List UInt8) : WriteOut × Planned :=
  match s.plan with
  | [] => (.ok buf.length, ⟨s.got ++ buf, []⟩)
  | .atMost n :: r => (.ok (min n buf.length), ⟨s.got ++ buf.take n, r⟩)
  | .interrupted :: r => (.interrupted, ⟨s.got, r⟩)
  | .failed :: r => (.failed, ⟨s.got, r⟩)

/-- A sink with a plan. -/
def planned : AnyWriter where
  S := Planned
  write := writePlanned
  taken s := s.got
  patience s := s.plan.length
  short s buf n h := by
    obtain ⟨got, _ | ⟨_ | _ | _, r⟩⟩ := s <;> simp only [writePlanned, WriteOut.ok.injEq, reduceCtorEq] at h
    · subst h; simp [writePlanned]
    · subst h
      refine ⟨Nat.min_le_right _ _, ?_⟩
      simp only [writePlanned]; rw [← List.take_eq_take_min]
  calm s buf h := by
    obtain ⟨got, _ | ⟨_ | _ | _, r⟩⟩ := s <;> simp [writePlanned] at h ⊢
  untouched s buf h := by
    obtain ⟨got, _ | ⟨_ | _ | _, r⟩⟩ := s <;> simp [writePlanned] at h ⊢

/-- A sink that takes at most so many bytes a call, whatever it is given. -/
def narrow (width : Nat) : AnyWriter where
  S := List UInt8
  write s buf := (.ok (min width buf.length), s ++ buf.take width)
  taken s := s
  patience _ := 0
  short s buf n h := by
    simp only [WriteOut.ok.injEq] at h
    subst h
    refine ⟨Nat.min_le_right _ _, ?_⟩
    simp only []; rw [← List.take_eq_take_min]
  calm s buf h := by cases h
  untouched s buf h := by cases h

/-- A text in one piece. -/
def Pieces.one {S : Type} : Pieces S := ⟨fun _ t => [t], fun _ t => by simp⟩
/-- A text character by character. -/
def Pieces.single {S : Type} : Pieces S := ⟨fun _ t => t.map fun c => [c], fun _ t => by
  induction t with
  | nil => rfl
  | cons c t ih => simpa using ih⟩

end Osmio.Spec
