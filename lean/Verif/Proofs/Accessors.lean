import Verif.Spec.Accessors
/-! # Accessors that do the right thing one by one do so in any order -/

namespace Osmio.Spec.Access

variable {M : Type} {fs : List (Member M)}

/-- What one call does to each field. -/
structure Laws (fs : List (Member M)) {D : Type} (rest : M → D) : Prop where
  step : ∀ (m : M) (c : Call fs) (i : Fin fs.length), (fs.get i).held (c.run m) = c.effect (fun i => (fs.get i).held m) i
  keep : ∀ (m : M) (c : Call fs), rest (c.run m) = rest m

theorem Laws.history {D : Type} {rest : M → D} (h : Laws fs rest) (calls : List (Call fs)) : ∀ (m : M) (i : Fin fs.length),
    (fs.get i).held (calls.foldl (fun m c => c.run m) m) = calls.foldl (fun s c => c.effect s) (fun i => (fs.get i).held m) i := by
  induction calls with
  | nil => intro m i; rfl
  | cons c cs ih =>
    intro m i
    rw [List.foldl_cons, List.foldl_cons, ih]
    rw [show (fun i => (fs.get i).held (c.run m)) = c.effect fun i => (fs.get i).held m from funext fun j => h.step m c j]

theorem Laws.rest {D : Type} {rest : M → D} (h : Laws fs rest) (calls : List (Call fs)) : ∀ m : M,
    rest (calls.foldl (fun m c => c.run m) m) = rest m := by
  induction calls with
  | nil => intro m; rfl
  | cons c cs ih => intro m; rw [List.foldl_cons, ih, h.keep]

end Osmio.Spec.Access
