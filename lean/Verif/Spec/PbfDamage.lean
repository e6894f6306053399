import Verif.Spec.PbfShownFile
/-!
# Specification: the beginning of a file, up to the first damage

For any bytes: the frames they begin with, as long as each can be read. Nothing here refers to the readers.
-/

namespace Osmio.Spec.Pbf

/-- These bytes begin with frames that show `dss`, one list for each frame; after them comes `rest`, which does not begin with a frame that
shows anything. -/
def Beginning {α : Type} (Shows : Frame → List α → Prop) (bs : Proto.Bytes) (dss : List (List α)) (rest : Proto.Bytes) : Prop :=
  (∃ fs, bs = fileBytes fs ++ rest ∧ List.Forall₂ Shows fs dss) ∧ ∀ f ds more, Shows f ds → rest ≠ f.bytes ++ more

end Osmio.Spec.Pbf
