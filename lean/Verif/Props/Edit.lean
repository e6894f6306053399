import Verif.Spec.Edit
import Verif.Props.Rewrite
/-!
# Editing the objects of a file (C94)

`scripts` has for each object that is read the list of the scripts with which it is edited and written. Any program that decides about an object
from what it has read so far is such a list on a given file.
-/

namespace Osmio
open Spec Spec.Pbf Xml OSMObjBase

variable {f : Family}

theorem make_data (o : f.Obj) (e : Edit) : objData (Edit.make o e) = Edit.effect (objData o) e := by
  cases e with
  | call op =>
    have hv : view (apply o op) = step op (view o) := C13_setters (.obj f) o op
    obtain ⟨h1, h2, h3⟩ := C13_sum f o op
    unfold Edit.make Edit.effect objData
    rw [hv, LawfulSum.asNode, LawfulSum.asNode, LawfulSum.asWay, LawfulSum.asWay, LawfulSum.asRelation, LawfulSum.asRelation, h1, h2, h3]
    simp only [Option.map_map, Option.bind_map, Function.comp_def, LawfulNode.latLon_apply, LawfulWay.nodes_apply, LawfulRelation.members_apply]
  | position p => cases f <;> cases o <;> rfl
  | nodes ns => cases f <;> cases o <;> rfl
  | members ms =>
    cases f <;> cases o <;> first
      | rfl
      | exact congrArg (ObjData.mk _ _ _) (LawfulRelation.members_set _ ms)

theorem makes_data (script : List Edit) (o : f.Obj) : objData (script.foldl Edit.make o) = script.foldl Edit.effect (objData o) := by
  induction script generalizing o with
  | nil => rfl
  | cons e es ih => rw [List.foldl_cons, List.foldl_cons, ih, make_data]

theorem sound_effect {d : ObjData} (h : Sound d) {e : Edit} (he : e.Keeps) : Sound (Edit.effect d e) := by
  cases e with
  | call op =>
    cases op with
    | setVersion v => exact ⟨he, h.pos, h.time⟩
    | setTimestamp t => exact ⟨h.version, h.pos, he⟩
    | _ => exact ⟨h.version, h.pos, h.time⟩
  | position p =>
    simp only [Edit.effect]
    split
    · exact ⟨h.version, fun _ => he, h.time⟩
    · exact h
  | nodes ns => simp only [Edit.effect]; split <;> exact ⟨h.version, h.pos, h.time⟩
  | members ms => simp only [Edit.effect]; split <;> exact ⟨h.version, h.pos, h.time⟩

theorem sound_effects {script : List Edit} (hs : ∀ e ∈ script, e.Keeps) {d : ObjData} (h : Sound d) : Sound (script.foldl Edit.effect d) := by
  induction script generalizing d with
  | nil => exact h
  | cons e es ih =>
    exact ih (fun e he => hs e (List.mem_cons_of_mem _ he)) (sound_effect h (hs e List.mem_cons_self))

theorem edited_data (os : List f.Obj) (scripts : List (List (List Edit))) :
    (edited Edit.make os scripts).map objData = edited Edit.effect (os.map objData) scripts := by
  induction os generalizing scripts with
  | nil => rfl
  | cons o os ih =>
    cases scripts with
    | nil => rfl
    | cons s ss =>
      simp only [edited, List.map_cons, List.zip_cons_cons, List.flatMap_cons, List.map_append, List.map_map]
      refine congrArg₂ _ (List.map_congr_left fun es _ => makes_data es o) ?_
      exact ih ss

theorem edited_sound {ds : List ObjData} (h : ∀ d ∈ ds, Sound d) {scripts : List (List (List Edit))}
    (hs : ∀ ss ∈ scripts, ∀ s ∈ ss, ∀ e ∈ s, e.Keeps) : ∀ d ∈ edited Edit.effect ds scripts, Sound d := by
  intro d hd
  obtain ⟨⟨d0, ss⟩, hx, hd⟩ := List.mem_flatMap.1 hd
  obtain ⟨h1, h2⟩ := List.of_mem_zip hx
  obtain ⟨s, hs', rfl⟩ := List.mem_map.1 hd
  exact sound_effects (hs ss h2 s hs') (h d0 h1)

/-- **C94.** A script of changes has on every object of every family exactly the specified effect, on everything the object shows. -/
theorem C94_script (f : Family) (o : f.Obj) (script : List Edit) :
    objData (script.foldl Edit.make o) = script.foldl Edit.effect (objData o) := makes_data script o

/-- **C94**, where the objects come from. All that a PBF reader gives is fit to be edited and written. -/
theorem C94_pbf {r : Which} {zlib : Proto.Bytes → Option Proto.Bytes} {b : Build} {src : Source} {ds : List ObjData}
    {e : Option Panic} (h : Reads r zlib b src ds e) : ∀ d ∈ ds, Sound d := by
  intro d hd
  have hc := C77_complete h d hd
  exact ⟨hc.version, hc.pos, complete_time hc⟩

section
variable (norm : Xml.Config) (hn : IsNorm norm) (σ : HashOrder) (k : Sink) (hk : k.Reliable) (hk0 : k.out = [])
  {os : List f.Obj} (hos : ∀ o ∈ os, Sound (objData o)) {scripts : List (List (List Edit))}
  (hs : ∀ ss ∈ scripts, ∀ s ∈ ss, ∀ e ∈ s, e.Keeps)
include hn hk hk0 hos hs

/-- **C94**, to an XML file. Objects with versions, positions and timestamps without quotes, edited by scripts that keep these and written one after
another: every call of the writer, and its drop, returns `Ok`. The new file has exactly the results, in order, each with exactly the changes that were
made (timestamps as text), if and only if every character of every text of the results is one that XML has and the parser leaves alone. -/
theorem C94_xml :
    ((∀ x ∈ (run (xmlCall σ) (XMLWriter.new k) (copyCalls (edited Edit.make os scripts))).1, x.2 = .ok ()) ∧
      (xmlCopy σ k (edited Edit.make os scripts)).1 = .ok ()) ∧
    ((∃ (rs : List StringOSMObj) (q : List (Option XmlEvent)),
      Drain XMLReader.next (XMLReader.new norm (xmlCopy σ k (edited Edit.make os scripts)).2.writer.out) rs none q ∧
      rs.map objData = (edited Edit.effect (os.map objData) scripts).map readBack) ↔
      ∀ d ∈ edited Edit.effect (os.map objData) scripts, ∀ t ∈ textsOf d, ∀ c ∈ t, XmlChar c ∧ norm c = c) := by
  have hd : ∀ o ∈ edited Edit.make os scripts, Sound (objData o) := by
    intro o ho
    refine edited_sound (ds := os.map objData) ?_ hs _ (edited_data os scripts ▸ List.mem_map.2 ⟨o, ho, rfl⟩)
    intro d hd
    obtain ⟨o, ho, rfl⟩ := List.mem_map.1 hd
    exact hos o ho
  have hv : ∀ o ∈ edited Edit.make os scripts, version o ≠ none := fun o ho => (hd o ho).version
  have hF := xml_form hn (headersOk_perm (σ.perm []).symm noHeaders)
  refine ⟨⟨xml_copy_ok σ hv _ hk (fun h => by cases h), (C23_output_partial σ k hk _ (copy_versioned hv)).1⟩, ?_⟩
  rw [xmlCopy_out σ k hk hk0 hv, ← edited_data, List.map_map]
  refine (docForm_exact hF _ hv fun o ho => (hd o ho).time).trans ?_
  constructor
  · intro h d hm
    obtain ⟨o, ho, rfl⟩ := List.mem_map.1 hm
    exact (h o ho).2
  · exact fun h o ho => ⟨(hd o ho).pos, h _ (List.mem_map.2 ⟨o, ho, rfl⟩)⟩

omit σ in
/-- **C94**, to a change file. -/
theorem C94_osc :
    ((∀ x ∈ (run oscCall (OSCWriter.new k) (copyCalls (edited Edit.make os scripts))).1, x.2 = .ok ()) ∧
      (oscCopy k (edited Edit.make os scripts)).1 = .ok ()) ∧
    ((∃ (rs : List StringOSMObj) (q : List (Option XmlEvent)),
      Drain OSCReader.next (OSCReader.new norm (oscCopy k (edited Edit.make os scripts)).2.writer.out) rs none q ∧
      rs.map objData = (edited Edit.effect (os.map objData) scripts).map readBack) ↔
      ∀ d ∈ edited Edit.effect (os.map objData) scripts, ∀ t ∈ textsOf d, ∀ c ∈ t, XmlChar c ∧ norm c = c) := by
  have hd : ∀ o ∈ edited Edit.make os scripts, Sound (objData o) := by
    intro o ho
    refine edited_sound (ds := os.map objData) ?_ hs _ (edited_data os scripts ▸ List.mem_map.2 ⟨o, ho, rfl⟩)
    intro d hd
    obtain ⟨o, ho, rfl⟩ := List.mem_map.1 hd
    exact hos o ho
  have hv : ∀ o ∈ edited Edit.make os scripts, version o ≠ none := fun o ho => (hd o ho).version
  refine ⟨⟨osc_copy_ok hv _ hk (fun h => by cases h), (C24_one_document_partial k hk _ (copy_versioned hv)).1⟩, ?_⟩
  rw [osc_next_eq, oscCopy_out k hk hk0 hv, ← edited_data, List.map_map]
  refine (docForm_exact (osc_form hn) _ hv fun o ho => (hd o ho).time).trans ?_
  constructor
  · intro h d hm
    obtain ⟨o, ho, rfl⟩ := List.mem_map.1 hm
    exact (h o ho).2
  · exact fun h o ho => ⟨(hd o ho).pos, h _ (List.mem_map.2 ⟨o, ho, rfl⟩)⟩

end

/-! ### A concrete case -/

namespace EditEx

/-- Six objects are read. The first gets a tag, a new position and a user; the second is left out; the third is written as it is and again with another
id; the fourth, a way, loses a tag and gets other nodes (and no position, as it is no node); the fifth gets a version and a time; the last gets members. -/
def scripts : List (List (List Edit)) :=
  [[[.call (.setTag (str% "name") (str% "<A & \"B\">")), .position (some (⟨10000000⟩, ⟨-5⟩)), .call (.setUser (str% "me"))]],
    [],
    [[], [.call (.setId (-4))]],
    [[.call (.unsetTag (str% "highway")), .nodes [3, -4], .position (some (⟨1⟩, ⟨2⟩))]],
    [[.call (.setVersion (some 9)), .call (.setTimestamp (some (.epoch 86400)))]],
    [[.members [(.way, 7, str% "outer")], .nodes [1]]]]

theorem scripts_keep : ∀ ss ∈ scripts, ∀ s ∈ ss, ∀ e ∈ s, e.Keeps := by
  simp only [scripts, List.forall_mem_cons, List.not_mem_nil, false_imp_iff, implies_true, Edit.Keeps, and_true, ne_eq, reduceCtorEq,
    not_false_eq_true, true_and]
  decide +kernel

end EditEx

/-- The objects of the example file, edited and written: there are as many as were kept, and each has its changes. -/
theorem C94_nonvacuous (b : Build) (norm : Xml.Config) (hn : IsNorm norm) (σ : HashOrder) :
    ∃ (os : List StringOSMObj) (t : StringPbf.PBFReader),
      Drain (StringPbf.PBFReader.next some b) (StringPbf.PBFReader.new (source (fileBytes PbfEx.file))) os none t ∧ os.length = 6 ∧
      ∃ (rs : List StringOSMObj) (q : List (Option XmlEvent)),
        Drain XMLReader.next (XMLReader.new norm
          (xmlCopy (f := .string) σ ⟨[], []⟩ (edited (Edit.make (α := Family.string.Obj)) os EditEx.scripts)).2.writer.out) rs none q ∧
        rs.map objData = (edited Edit.effect (os.map objData) EditEx.scripts).map readBack ∧
        rs.length = 6 ∧ (rs.map objData)[0]?.map (fun d => (d.view.tags, d.pos)) =
          some ([(str% "highway", str% "primary"), (str% "name", str% "<A & \"B\">")], some (⟨10000000⟩, ⟨-5⟩)) := by
  obtain ⟨os, t, h1, h2⟩ := PbfEx.file_drain b
  refine ⟨os, t, h1, (List.length_map _).symm.trans (congrArg List.length h2), ?_⟩
  have hos : ∀ o ∈ os, Sound (objData o) := fun o ho =>
    C94_pbf (r := .owned) ⟨os, t, h1, rfl⟩ _ (List.mem_map.2 ⟨o, ho, rfl⟩)
  have hx : ∀ d ∈ edited Edit.effect PbfEx.fileData.flatten EditEx.scripts, ∀ t ∈ textsOf d, ∀ c ∈ t, valueChar c = true := by
    decide +kernel
  obtain ⟨rs, q, h3, h4⟩ := (C94_xml (f := .string) norm hn σ ⟨[], []⟩ (fun _ h => by cases h) rfl hos EditEx.scripts_keep).2.2 (by
    intro d hd t ht c hc
    have h := hx d (congrArg (fun ds => edited Edit.effect ds EditEx.scripts) h2 ▸ hd) t ht c hc
    simp only [valueChar, Bool.and_eq_true, bne_iff_ne, ne_eq] at h
    exact ⟨(isXmlChar_iff c).1 h.1.1.1, hn c h.1.1.2 h.1.2 h.2⟩)
  have h5 := h4.trans (congrArg (fun ds => (edited Edit.effect ds EditEx.scripts).map readBack) h2)
  refine ⟨rs, q, h3, h4, ?_, ?_⟩
  · rw [← List.length_map (f := objData), h5]; decide +kernel
  · rw [h5]; decide +kernel

end Osmio
