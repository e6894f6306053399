import Verif.Props.XmlStream
import Verif.Props.XmlAny
import Verif.Props.ChangesetStream
import Verif.Props.ChangesetAny
import Verif.Props.Open
/-!
# XML, change and changeset readers over any implementation of `Read`, any bytes (C101, C102)

The source may give its bytes in any portions, with interruptions (`Spec.Delivers`). What comes out is said by the bytes alone.
-/

namespace Osmio

section
open Spec Xml OSMObjBase Spec.Gram

variable {rd : AnyReader} {R : rd.S → Source → Prop} {s : rd.S} {norm : Xml.Config} {rounds : Nat} {bs : List UInt8} {t : Str} {evs : List XmlEvent}

theorem calls_end {j : Nat} : calls XMLReader.next j [] = (List.replicate j (.ok none), []) := by
  induction j with
  | zero => rfl
  | succ j ih => rw [calls, show XMLReader.next [] = (.ok none, []) from rfl, ih]; rfl

theorem calls_then {n : Nat} {s q : List (Option XmlEvent)} {rs : List (Option StringOSMObj)} {x : Res (Option StringOSMObj)}
    (h : calls XMLReader.next n s = (rs.map .ok, q)) (h' : XMLReader.next q = (x, [])) (j : Nat) :
    (calls XMLReader.next (n + (1 + j)) s).1 = rs.map .ok ++ x :: List.replicate j (.ok none) := by
  rw [calls_add, h]
  show rs.map .ok ++ (calls XMLReader.next (1 + j) q).1 = _
  rw [calls_add]
  simp only [calls, h', calls_end]
  rfl

/-- **C102** for any implementation of `Read` that has these bytes to give: one answer for every end of an object in the longest beginning, then `None` if the bytes are
a document and a panic if not, and from then on `None`. -/
theorem C102_streams (hb : Longest norm.char norm.manyRoots bs t evs) (h : Delivers rd R) (hr : R s (bs.map some)) (hl : 2 * bs.length + 1 < rounds) :
    ∃ (rs : List (Option StringOSMObj)) (x : Res (Option StringOSMObj)),
      List.Forall₂ Answers (rs.map (Option.map objData)) (Spec.pieces evs) ∧
      (IsDocument norm.char norm.manyRoots bs → x = .ok none) ∧ (¬ IsDocument norm.char norm.manyRoots bs → x = .error .unwrap) ∧
      ∀ j, (calls (XMLReader.Over.next rd norm rounds) ((Spec.pieces evs).length + (1 + j)) (XMLReader.Over.new s)).1 =
          rs.map .ok ++ x :: List.replicate j (.ok none) ∧
        (calls (OSCReader.Over.next rd norm rounds) ((Spec.pieces evs).length + (1 + j)) (OSCReader.Over.new s)).1 =
          rs.map .ok ++ x :: List.replicate j (.ok none) := by
  obtain ⟨rs, q, h1, h2, h3, h4, -⟩ := C102_xml hb
  have hl' : 2 * (bs.map some).length + 1 < rounds := by simpa using hl
  have key : ∀ x, XMLReader.next q = (x, []) → ∀ j,
      (calls (XMLReader.Over.next rd norm rounds) ((Spec.pieces evs).length + (1 + j)) (XMLReader.Over.new s)).1 =
          rs.map .ok ++ x :: List.replicate j (.ok none) ∧
        (calls (OSCReader.Over.next rd norm rounds) ((Spec.pieces evs).length + (1 + j)) (OSCReader.Over.new s)).1 =
          rs.map .ok ++ x :: List.replicate j (.ok none) := by
    intro x hx j
    have e := calls_then h1 hx j
    rw [← over_new] at e
    refine ⟨(C81_xml h hr norm hl' _).trans e, (C81_osc h hr norm hl' _).trans ?_⟩
    rw [osc_next_eq]
    exact e
  by_cases hd : IsDocument norm.char norm.manyRoots bs
  · exact ⟨rs, .ok none, h2, fun _ => rfl, fun h => absurd hd h, key _ (h3 hd)⟩
  · exact ⟨rs, .error .unwrap, h2, fun h => absurd h hd, fun _ => rfl, key _ (h4 hd)⟩

/-- **C102** for any implementation of `Read` that fails after these bytes, whatever it gives later: the call that gets there panics, document or not. -/
theorem C102_failing_streams (hb : Longest norm.char norm.manyRoots bs t evs) (h : Delivers rd R) {later : Source} (hr : R s (bs.map some ++ none :: later))
    (hl : 2 * (bs.length + 1 + later.length) + 1 < rounds) :
    ∃ (rs : List (Option StringOSMObj)), List.Forall₂ Answers (rs.map (Option.map objData)) (Spec.pieces evs) ∧
      ∀ j, (calls (XMLReader.Over.next rd norm rounds) ((Spec.pieces evs).length + (1 + j)) (XMLReader.Over.new s)).1 =
          rs.map .ok ++ .error .unwrap :: List.replicate j (.ok none) ∧
        (calls (OSCReader.Over.next rd norm rounds) ((Spec.pieces evs).length + (1 + j)) (OSCReader.Over.new s)).1 =
          rs.map .ok ++ .error .unwrap :: List.replicate j (.ok none) := by
  obtain ⟨rs, q, h1, h2, h3, -⟩ := C102_failing hb later
  have hl' : 2 * (bs.map some ++ none :: later).length + 1 < rounds := by simp; omega
  refine ⟨rs, h2, fun j => ?_⟩
  have e := calls_then h1 h3 j
  refine ⟨(C81_xml h hr norm hl' _).trans e, (C81_osc h hr norm hl' _).trans ?_⟩
  rw [osc_next_eq]
  exact e

end

section
open QuickXml Spec Spec.Cs Changesets

variable {rd : AnyReader} {R : rd.S → Source → Prop} {s : rd.S}

theorem results_are {σ α : Type} {f : Nat → σ → Option (Except Changesets.Err (Option α) × σ)} {s s' : σ} {rs : List (Except Changesets.Err α)} :
    Results f s rs s' ↔ Cs.Answers f s (rs.map answer ++ [.ok none]) s' := by
  constructor
  · intro h
    induction h with
    | done h => exact .cons h .nil
    | ok h _ ih => exact .cons h ih
    | err h _ ih => exact .cons h ih
  · intro h
    induction rs generalizing s with
    | nil =>
      cases h with
      | cons h h' => cases h'; exact .done h
    | cons r rs ih =>
      cases h with
      | cons h h' =>
        cases r with
        | ok a => exact .ok h (ih h')
        | error e => exact .err h (ih h')

/-- **C101** for any implementation of `Read` that has these bytes to give. -/
theorem C101_streams {bytes : List UInt8} {evs : Events} (hq : Quick.File bytes evs) (h : Delivers rd R) (hr : R s (bytes.map some)) (later : Events) :
    (∀ ds, Shown evs ds → ∃ rs r', Results (ReaderOver.nextChangeset rd) (.new later s) rs r' ∧ List.Forall₂ Fits rs ds) ∧
    ((∃ rs r', Results (ReaderOver.nextChangeset rd) (.new later s) rs r') ↔ ∃ ds, Shown evs ds) ∧
    ∃ rs r', Results (nextTagFrom rd) (newTagReaderOver later s) rs r' ∧ ToldAll [] evs (rs.map Except.toOption) := by
  obtain ⟨h1, h2, -⟩ := C101_changesets hq
  obtain ⟨rs, s', h3, h4⟩ := C101_tags hq
  have key : ∀ rs, (∃ r', Results (ReaderOver.nextChangeset rd) (.new later s) rs r') ↔ ∃ s', Results nextChangeset (eventsOf bytes) rs s' := by
    intro rs
    rw [← eventsOfSource_whole later]
    simp only [results_are]
    exact C81_changesets h hr later _
  have hk : ∃ r', Results (nextTagFrom rd) (newTagReaderOver later s) rs r' := by
    rw [← eventsOfSource_whole later] at h3
    simp only [results_are] at h3 ⊢
    exact (C81_changeset_tags h hr later _).2 ⟨_, h3⟩
  refine ⟨fun ds hd => ?_, ?_, rs, hk.imp fun r' hk => ⟨hk, h4⟩⟩
  · obtain ⟨rs, g1, g2⟩ := h1 ds hd
    obtain ⟨r', g3⟩ := (key rs).2 ⟨_, g1⟩
    exact ⟨rs, r', g3, g2⟩
  · rw [← h2]
    exact exists_congr key

end

/-! The examples byte by byte, each byte after an interruption. -/

theorem drip_gives (bs : List UInt8) : bs.map some = Spec.contents (AnySourceEx.drip bs) := (AnySourceEx.contents_drip bs).symm

theorem drip_fails (bs : List UInt8) (later : List Spec.Portion) :
    bs.map some ++ none :: Spec.contents later = Spec.contents (AnySourceEx.drip bs ++ .error :: later) := (AnySourceEx.contents_fails bs later).symm

/-- A file that is cut short and goes on with an invalid byte. -/
example : ∃ o, (Spec.calls (XMLReader.Over.next Spec.portions .keep 10000) 3 (XMLReader.Over.new (AnySourceEx.drip brokenBytes))).1 =
    [.ok o, .error .unwrap, .ok none] := by
  obtain ⟨t, hb⟩ := broken_longest
  obtain ⟨rs, x, h1, -, h2, h3⟩ := C102_streams hb portions_delivers (drip_gives _) (rounds := 10000) (by decide +kernel)
  rw [broken_pieces] at h1 h3
  obtain ⟨o, rfl⟩ : ∃ o, rs = [o] := List.length_eq_one_iff.1 (by simpa using h1.length_eq)
  have := (h3 1).1
  rw [h2 broken_no_document] at this
  exact ⟨o, this⟩

/-- The same, and the source fails after that. -/
example (later : List Spec.Portion) : ∃ o, (Spec.calls (XMLReader.Over.next Spec.portions .keep (10000 + 2 * (Spec.contents later).length)) 3
    (XMLReader.Over.new (AnySourceEx.drip brokenBytes ++ .error :: later))).1 = [.ok o, .error .unwrap, .ok none] := by
  obtain ⟨t, hb⟩ := broken_longest
  have hl : 2 * brokenBytes.length + 3 < 10000 := by decide +kernel
  obtain ⟨rs, h1, h3⟩ := C102_failing_streams hb portions_delivers (drip_fails _ later)
    (rounds := 10000 + 2 * (Spec.contents later).length) (by omega)
  rw [broken_pieces] at h1 h3
  obtain ⟨o, rfl⟩ : ∃ o, rs = [o] := List.length_eq_one_iff.1 (by simpa using h1.length_eq)
  exact ⟨o, (h3 1).1⟩

/-- A changeset file with most of what can go wrong. -/
example : ∃ rs r', Spec.Cs.Results (Changesets.ReaderOver.nextChangeset Spec.portions) (.new [] (AnySourceEx.drip (Utf8.encode CsAny.text))) rs r' ∧
    List.Forall₂ Spec.Cs.Fits rs [some CsAny.data, none, none, none, none] :=
  (C101_streams CsAny.file portions_delivers (drip_gives _) []).1 _ CsAny.shown

end Osmio
