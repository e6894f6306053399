import Verif.Spec.Kinds
import Verif.Model.ReaderPanics
import Verif.Model.Family
import Verif.Props.AnyStreams
import Verif.Props.PbfStreams
/-!
# C107: nodes(), ways() and relations() of every reader, any bytes
-/

namespace Osmio
open Spec

/-! ## Every reader -/

section
variable {σ Obj X : Type} {next : σ → Res (Option Obj) × σ} {f : Obj → Option X}

theorem loop_skip {s s1 s2 : σ} {o : Obj} {xs : List X} {e : Option Panic} (h : next s = (.ok (some o), s1)) (hf : f o = none)
    (hl : Loop (PickNext next f) s1 xs e s2) : Loop (PickNext next f) s xs e s2 := by
  cases hl with
  | done h' => exact .done (.skip h hf h')
  | panic h' => exact .panic (.skip h hf h')
  | more h' t => exact .more (.skip h hf h') t

theorem pick_skipped {s s2 : σ} {y : Res (Option X)} (h : PickNext next f s y s2) :
    ∃ os s1, Takes (fun s x s' => next s = (x, s')) s os s1 ∧ os.filterMap f = [] ∧
      match (generalizing := false) y with
      | .ok none => next s1 = (.ok none, s2)
      | .error p => next s1 = (.error p, s2)
      | .ok (some x) => ∃ o, next s1 = (.ok (some o), s2) ∧ f o = some x := by
  induction h with
  | done h => exact ⟨[], _, .leave, rfl, h⟩
  | panic h => exact ⟨[], _, .leave, rfl, h⟩
  | hit h hf => exact ⟨[], _, .leave, rfl, _, h, hf⟩
  | skip h hf _ ih =>
    obtain ⟨os, s1, h1, h2, h3⟩ := ih
    exact ⟨_ :: os, s1, .more h h1, by rw [List.filterMap_cons_none hf, h2], h3⟩

theorem takes_drain {s s1 s2 : σ} {os os' : List Obj} {e : Option Panic} (h : Takes (fun s x s' => next s = (x, s')) s os s1) (h' : Drain next s1 os' e s2) :
    Drain next s (os ++ os') e s2 := by
  induction h with
  | leave => exact h'
  | more h _ ih => exact .more h (ih h')

theorem takes_trans {nxt : σ → Res (Option X) → σ → Prop} {s s1 s2 : σ} {os os' : List X} (h : Takes nxt s os s1) (h' : Takes nxt s1 os' s2) :
    Takes nxt s (os ++ os') s2 := by
  induction h with
  | leave => exact h'
  | more h _ ih => exact .more h (ih h')

theorem loop_iff {s s' : σ} {xs : List X} {e : Option Panic} :
    Loop (PickNext next f) s xs e s' ↔ ∃ os, Drain next s os e s' ∧ os.filterMap f = xs := by
  constructor
  · intro h
    induction h with
    | done h =>
      obtain ⟨os, s1, h1, h2, h3⟩ := pick_skipped h
      exact ⟨os ++ [], takes_drain h1 (.done h3), by simpa using h2⟩
    | panic h =>
      obtain ⟨os, s1, h1, h2, h3⟩ := pick_skipped h
      exact ⟨os ++ [], takes_drain h1 (.panic h3), by simpa using h2⟩
    | more h _ ih =>
      obtain ⟨os, s1, h1, h2, o, h3, h4⟩ := pick_skipped h
      obtain ⟨os', h5, rfl⟩ := ih
      exact ⟨os ++ o :: os', takes_drain h1 (.more h3 h5), by rw [List.filterMap_append, h2, List.filterMap_cons_some h4]; rfl⟩
  · rintro ⟨os, h, rfl⟩
    induction h with
    | done h => exact .done (.done h)
    | panic h => exact .panic (.panic h)
    | @more s s1 s2 o os e h _ ih =>
      cases hf : f o with
      | none =>
        rw [List.filterMap_cons_none hf]
        exact loop_skip h hf ih
      | some x =>
        rw [List.filterMap_cons_some hf]
        exact .more (.hit h hf) ih

theorem drain_after {s s1 s2 : σ} {os all : List Obj} {e : Option Panic} (h : Takes (fun s x s' => next s = (x, s')) s os s1) (h' : Drain next s all e s2) :
    ∃ rest, all = os ++ rest ∧ Drain next s1 rest e s2 := by
  induction h generalizing all with
  | leave => exact ⟨all, rfl, h'⟩
  | more h _ ih =>
    cases h' with
    | done h2 => rw [h] at h2; cases h2
    | panic h2 => rw [h] at h2; cases h2
    | more h2 h3 =>
      rw [h] at h2
      cases h2
      obtain ⟨rest, rfl, h4⟩ := ih h3
      exact ⟨rest, rfl, h4⟩

theorem takes_picked {s s1 : σ} {xs : List X} (h : Takes (PickNext next f) s xs s1) :
    ∃ os, Takes (fun s x s' => next s = (x, s')) s os s1 ∧ os.filterMap f = xs ∧ ∀ o, os.getLast? = some o → (f o).isSome := by
  induction h with
  | leave => exact ⟨[], .leave, rfl, by simp⟩
  | @more s s1 s2 x xs h _ ih =>
    obtain ⟨os, s0, h1, h2, o, h3, h4⟩ := pick_skipped h
    obtain ⟨os', h5, rfl, h6⟩ := ih
    refine ⟨os ++ o :: os', takes_trans h1 (.more h3 h5), by rw [List.filterMap_append, h2, List.filterMap_cons_some h4]; rfl, fun o' ho => ?_⟩
    rw [List.getLast?_append] at ho
    cases os' with
    | nil =>
      simp at ho
      subst ho
      rw [h4]; rfl
    | cons a as =>
      rw [List.getLast?_cons_cons] at ho
      obtain ⟨b, hb⟩ : ∃ b, (a :: as).getLast? = some b := ⟨_, List.getLast?_eq_getLast_of_ne_nil (by simp)⟩
      rw [hb] at ho
      cases ho
      exact h6 _ hb

theorem leave_picked {s s1 s2 : σ} {xs : List X} {all : List Obj} {e : Option Panic} (h : Takes (PickNext next f) s xs s1) (ha : Drain next s all e s2) :
    ∃ os rest, all = os ++ rest ∧ os.filterMap f = xs ∧ (∀ o, os.getLast? = some o → (f o).isSome) ∧ Drain next s1 rest e s2 := by
  obtain ⟨os, h1, h2, h3⟩ := takes_picked h
  obtain ⟨rest, h4, h5⟩ := drain_after h1 ha
  exact ⟨os, rest, h4, h2, h3, h5⟩

end

variable (fam : Family) {σ : Type} (next : σ → Res (Option fam.Obj) × σ)

/-- **C107.** A loop over nodes(), ways() or relations() of any reader sees the objects of the kind that a loop over objects() sees, unchanged and in order.
It ends in the same way, by the same panic if there is one, and leaves the reader in the same state. -/
theorem C107_loops (s s' : σ) (e : Option Panic) :
    (∀ xs, Loop (NodesNext next) s xs e s' ↔ ∃ os, Drain next s os e s' ∧ os.filterMap OSMObjT.intoNode = xs) ∧
    (∀ xs, Loop (WaysNext next) s xs e s' ↔ ∃ os, Drain next s os e s' ∧ os.filterMap OSMObjT.intoWay = xs) ∧
    (∀ xs, Loop (RelationsNext next) s xs e s' ↔ ∃ os, Drain next s os e s' ∧ os.filterMap OSMObjT.intoRelation = xs) :=
  ⟨fun _ => loop_iff, fun _ => loop_iff, fun _ => loop_iff⟩

/-- **C107.** A loop over one of them that is left early takes the objects only up to the last one it sees. A loop over objects() that comes after it sees all that
follow, of every kind. -/
theorem C107_left {s s' : σ} {all : List fam.Obj} {e : Option Panic} (ha : Drain next s all e s') :
    (∀ xs s1, Takes (NodesNext next) s xs s1 → ∃ os rest, all = os ++ rest ∧ os.filterMap OSMObjT.intoNode = xs ∧
      (∀ o, os.getLast? = some o → isNode o = true) ∧ Drain next s1 rest e s') ∧
    (∀ xs s1, Takes (WaysNext next) s xs s1 → ∃ os rest, all = os ++ rest ∧ os.filterMap OSMObjT.intoWay = xs ∧
      (∀ o, os.getLast? = some o → isWay o = true) ∧ Drain next s1 rest e s') ∧
    (∀ xs s1, Takes (RelationsNext next) s xs s1 → ∃ os rest, all = os ++ rest ∧ os.filterMap OSMObjT.intoRelation = xs ∧
      (∀ o, os.getLast? = some o → isRelation o = true) ∧ Drain next s1 rest e s') := by
  refine ⟨fun xs s1 h => ?_, fun xs s1 h => ?_, fun xs s1 h => ?_⟩ <;>
  · obtain ⟨os, rest, h1, h2, h3, h4⟩ := leave_picked h ha
    refine ⟨os, rest, h1, h2, fun o ho => ?_, h4⟩
    have := h3 o ho
    cases fam <;> cases o <;> first | rfl | cases this

/-! ## What is shown -/

section
variable {fam : Family} {σ : Type} {next : σ → Res (Option fam.Obj) × σ}

theorem ofKind_map {X : Type} (k : OSMObjectType) (g : fam.Obj → Option X) (d : X → ObjData)
    (h : ∀ o, (g o).map d = if (objData o).view.kind = k then some (objData o) else none) (os : List fam.Obj) :
    (os.filterMap g).map d = ofKind k (os.map objData) := by
  induction os with
  | nil => rfl
  | cons o os ih =>
    have ho := h o
    by_cases hk : (objData o).view.kind = k
    · rw [if_pos hk] at ho
      obtain ⟨x, hx, hx'⟩ := Option.map_eq_some_iff.1 ho
      rw [List.filterMap_cons_some hx, List.map_cons, List.map_cons, ih, hx']
      simp [ofKind, hk]
    · rw [if_neg hk] at ho
      rw [List.filterMap_cons_none (Option.map_eq_none_iff.1 ho), List.map_cons, ih]
      simp [ofKind, hk]

theorem nodes_data (os : List fam.Obj) : (os.filterMap OSMObjT.intoNode).map dataOfNode = ofKind .node (os.map objData) :=
  ofKind_map _ _ _ (fun o => by cases fam <;> cases o <;> rfl) os

theorem ways_data (os : List fam.Obj) : (os.filterMap OSMObjT.intoWay).map dataOfWay = ofKind .way (os.map objData) :=
  ofKind_map _ _ _ (fun o => by cases fam <;> cases o <;> rfl) os

theorem relations_data (os : List fam.Obj) : (os.filterMap OSMObjT.intoRelation).map dataOfRelation = ofKind .relation (os.map objData) :=
  ofKind_map _ _ _ (fun o => by cases fam <;> cases o <;> rfl) os

theorem loop_shows {X : Type} {s t : σ} {os : List fam.Obj} {e : Option Panic} (h : Drain next s os e t) {g : fam.Obj → Option X} {d : X → ObjData} {k : OSMObjectType}
    (hd : (os.filterMap g).map d = ofKind k (os.map objData)) (xs : List ObjData) (e' : Option Panic) :
    (∃ ns t, Loop (PickNext next g) s ns e' t ∧ ns.map d = xs) ↔ xs = ofKind k (os.map objData) ∧ e' = e := by
  constructor
  · rintro ⟨ns, t', h1, rfl⟩
    obtain ⟨os', h2, rfl⟩ := loop_iff.1 h1
    obtain ⟨rfl, rfl, rfl⟩ := h.unique h2
    exact ⟨hd, rfl⟩
  · rintro ⟨rfl, rfl⟩
    exact ⟨_, t, loop_iff.2 ⟨os, h, rfl⟩, hd⟩

theorem shows_of {s t : σ} {os : List fam.Obj} {e : Option Panic} (h : Drain next s os e t) : Shows next s (os.map objData) e where
  objects xs e' := by
    constructor
    · rintro ⟨os', t', h1, rfl⟩
      obtain ⟨rfl, rfl, rfl⟩ := h.unique h1
      exact ⟨rfl, rfl⟩
    · rintro ⟨rfl, rfl⟩
      exact ⟨os, t, h, rfl⟩
  nodes := loop_shows h (nodes_data os)
  ways := loop_shows h (ways_data os)
  relations := loop_shows h (relations_data os)

/-- **C107.** Whatever a loop over objects() of a reader shows, the loops over nodes(), ways() and relations() show it kind by kind, and nothing else, and end in the
same way. -/
theorem C107_shows (s : σ) (ds : List ObjData) (e : Option Panic) :
    Shows next s ds e ↔ ∃ os t, Drain next s os e t ∧ os.map objData = ds :=
  ⟨fun h => (h.objects ds e).2 ⟨rfl, rfl⟩, by rintro ⟨os, t, h, rfl⟩; exact shows_of h⟩
end

/-! ## PBF files -/

section
open Spec.Pbf
variable {zlib : Proto.Bytes → Option Proto.Bytes} {b : Build} {bs : Proto.Bytes}

theorem loopsShow_iff {r : Which} {src : Source} {ds : List ObjData} {e : Option Panic} : LoopsShow r zlib b src ds e ↔ Reads r zlib b src ds e := by
  cases r
  · exact C107_shows (fam := .string) _ _ _
  · exact C107_shows (fam := .arc) _ _ _

/-- **C107**, PBF. The loops of the trait `OSMReader`, with both readers: they get to the end of any bytes, and show these objects, exactly if the bytes are a file
with these objects (C99). Of other bytes they show the objects of the frames up to the first that cannot be read, and panic there (C103). -/
theorem C107_pbf (r : Which) :
    (∀ ds, LoopsShow r zlib b (source bs) ds none ↔ FileShown r zlib b bs ds) ∧
    ∀ dss rest, Beginning (FrameShown r zlib b) bs dss rest →
      (rest.length < 4 → LoopsShow r zlib b (source bs) dss.flatten none) ∧ (4 ≤ rest.length → ∃ p, LoopsShow r zlib b (source bs) dss.flatten (some p)) := by
  simp only [loopsShow_iff]
  exact ⟨fun _ => C99_file, fun _ _ h => ⟨fun hl => ((C103_objects h).1 _).2 ⟨rfl, hl⟩, fun hl => ((C103_objects h).2 _).2 ⟨rfl, hl⟩⟩⟩
end

/-! ## XML and change files -/

section
open Xml Spec.Gram
variable {norm : Xml.Config} {bs : List UInt8} {t : Str} {evs : List XmlEvent}

theorem takeWhile_data (rs : List (Option StringOSMObj)) :
    (rs.takeWhile Option.isSome).reduceOption.map objData = ((rs.map (Option.map objData)).takeWhile Option.isSome).reduceOption := by
  induction rs with
  | nil => rfl
  | cons r rs ih => cases r with
    | none => rfl
    | some o => simpa [List.reduceOption] using ih

/-- **C107**, XML and change files, any bytes. Every end of an object in the longest beginning has its answer (C102). The loops show the answers up to the first that
is `None`, an object that cannot be read, and end there. If there is none, they end at the end of a document, and panic where other bytes cease to be the beginning of one. -/
theorem C107_xml (h : Longest norm.char norm.manyRoots bs t evs) :
    ∃ rs : List (Option ObjData), List.Forall₂ Answers rs (Spec.pieces evs) ∧ ∀ e,
      ((none ∈ rs ∨ IsDocument norm.char norm.manyRoots bs) ∧ e = none ∨ ¬ (none ∈ rs ∨ IsDocument norm.char norm.manyRoots bs) ∧ e = some .unwrap) →
        Shows (fam := .string) XMLReader.next (XMLReader.new norm bs) (rs.takeWhile Option.isSome).reduceOption e ∧
        Shows (fam := .string) OSCReader.next (OSCReader.new norm bs) (rs.takeWhile Option.isSome).reduceOption e := by
  obtain ⟨rs, q, h1, h2, h3, h4, h5⟩ := C102_xml h
  have hl : (Spec.pieces evs).length = rs.length := by simpa using h2.length_eq.symm
  rw [hl] at h1
  refine ⟨_, h2, fun e he => ?_⟩
  rw [← takeWhile_data]
  have hn : none ∈ rs.map (Option.map objData) ↔ rs.all Option.isSome = false := by
    simp [List.all_eq_false]
  have hd : ∃ q', Drain XMLReader.next (XMLReader.new norm bs) (rs.takeWhile Option.isSome).reduceOption e q' := by
    by_cases ha : rs.all Option.isSome = true
    · have hw : rs.takeWhile Option.isSome = rs := List.takeWhile_eq_self_iff.2 (by simpa using ha)
      have hm : ¬ none ∈ rs.map (Option.map objData) := by rw [hn, ha]; simp
      rw [hw]
      rcases he with ⟨h6 | h6, rfl⟩ | ⟨h6, rfl⟩
      · exact absurd h6 hm
      · have := (drain_of_calls rs _ (by rw [h1]) (by rw [h1]; exact .done (h3 h6))).1 ha
        exact ⟨_, by simpa using this⟩
      · have := (drain_of_calls rs _ (by rw [h1]) (by rw [h1]; exact .panic (h4 fun hd => h6 (.inr hd)))).1 ha
        exact ⟨_, by simpa using this⟩
    · have ha' : rs.all Option.isSome = false := by simpa using ha
      rcases he with ⟨_, rfl⟩ | ⟨h6, rfl⟩
      · by_cases hdoc : IsDocument norm.char norm.manyRoots bs
        · exact (drain_of_calls rs _ (by rw [h1]) (by rw [h1]; exact .done (h3 hdoc))).2 ha'
        · exact (drain_of_calls rs _ (by rw [h1]) (by rw [h1]; exact .panic (h4 hdoc))).2 ha'
      · exact absurd (.inl (hn.2 ha')) h6
  obtain ⟨q', hd⟩ := hd
  refine ⟨shows_of (fam := .string) hd, ?_⟩
  have := shows_of (fam := .string) (next := OSCReader.next) (s := OSCReader.new norm bs) (by rw [osc_next_eq]; exact hd)
  exact this
end

/-! ## Any implementation of `Read` -/

theorem shows_same {fam : Family} {σ τ : Type} {next : σ → Res (Option fam.Obj) × σ} {next' : τ → Res (Option fam.Obj) × τ} {s : σ} {t : τ}
    (h : ∀ k, (calls next k s).1 = (calls next' k t).1) {ds : List ObjData} {e : Option Panic} : Shows next s ds e ↔ Shows next' t ds e := by
  rw [C107_shows, C107_shows]
  simp only [exists_and_right]
  exact exists_congr fun os => and_congr_left fun _ => drains_same h

/-- **C107** for any implementation of `Read`, with any bytes and errors to give: the loops over all four readers show what they show of these bytes and errors. -/
theorem C107_streams {rd : AnyReader} {R : rd.S → Source → Prop} (h : Delivers rd R) {s : rd.S} {src : Source} (hr : R s src) {rounds : Nat}
    (hl : 2 * src.length + 1 < rounds) (zlib : Proto.Bytes → Option Proto.Bytes) (b : Build) (norm : Xml.Config) (ds : List ObjData) (e : Option Panic) :
    (Shows (fam := .string) (StringPbf.ReaderOver.next rd zlib b rounds) (.new s) ds e ↔ Pbf.LoopsShow .owned zlib b src ds e) ∧
    (Shows (fam := .arc) (ArcPbf.ReaderOver.next rd zlib b rounds) (.new s) ds e ↔ Pbf.LoopsShow .shared zlib b src ds e) ∧
    (Shows (fam := .string) (XMLReader.Over.next rd norm rounds) (XMLReader.Over.new s) ds e ↔
      Shows (fam := .string) XMLReader.next (XMLReader.over norm src) ds e) ∧
    (Shows (fam := .string) (OSCReader.Over.next rd norm rounds) (OSCReader.Over.new s) ds e ↔
      Shows (fam := .string) OSCReader.next (OSCReader.over norm src) ds e) :=
  ⟨shows_same (fam := .string) fun k => (C81_owned h hr zlib b (true, true, true) (by omega) k).1,
    shows_same (fam := .arc) fun k => (C81_shared h hr zlib b (by omega) k).1,
    shows_same (fam := .string) fun k => C81_xml h hr norm hl k,
    shows_same (fam := .string) fun k => C81_osc h hr norm hl k⟩

/-! ## Examples -/

/-- The example file, then garbage: the loop over ways() shows the ways and panics. -/
example (r : Pbf.Which) (b : Build) : ∃ p, Pbf.LoopsShow r some b (Pbf.source (Pbf.fileBytes PbfEx.file ++ ([0, 0, 0, 1, 255] ++ [7])))
    PbfEx.fileData.flatten (some p) ∧ ofKind .way PbfEx.fileData.flatten = PbfEx.waysData :=
  (((C107_pbf r).2 _ _ (PbfEx.garbage r b [7])).2 (by simp)).imp fun _ h => ⟨h, by decide +kernel⟩

/-- The nodes of the file are taken until the first. The loop over objects() that follows shows all other objects. -/
example (b : Build) : ∃ n s1 os rest t, Takes (NodesNext (StringPbf.PBFReader.next some b)) (.new (Pbf.source (Pbf.fileBytes PbfEx.file))) [n] s1 ∧
    os.filterMap OSMObjT.intoNode = [n] ∧ (os ++ rest).map objData = PbfEx.fileData.flatten ∧ Drain (StringPbf.PBFReader.next some b) s1 rest none t := by
  have h : Pbf.LoopsShow .owned some b (Pbf.source (Pbf.fileBytes PbfEx.file)) PbfEx.fileData.flatten none :=
    ((C107_pbf .owned).1 _).2 ⟨_, [], _, by simp, by simp, PbfEx.file_shown .owned b, rfl⟩
  obtain ⟨all, t, h1, h2⟩ := (h.objects _ _).2 ⟨rfl, rfl⟩
  obtain ⟨ns, t', h3, h4⟩ := (h.nodes _ _).2 ⟨rfl, rfl⟩
  have h5 : (ofKind .node PbfEx.fileData.flatten).length = 3 := by decide +kernel
  cases h3 with
  | done _ => rw [← h4] at h5; cases h5
  | more hn _ =>
    have ht := Takes.more hn .leave
    obtain ⟨os, rest, rfl, h6, _, h7⟩ := (C107_left .string _ h1).1 _ _ ht
    exact ⟨_, _, os, rest, _, ht, h6, h2, h7⟩

/-- The XML file that is cut short and goes on with an invalid byte: a node, no way, and the panic at the end of both loops. -/
example : ∃ d : ObjData, d.view.kind = .node ∧ Shows (fam := .string) XMLReader.next (XMLReader.new .keep brokenBytes) [d] (some .unwrap) ∧
    ofKind .node [d] = [d] ∧ ofKind .way [d] = [] := by
  obtain ⟨t, h⟩ := broken_longest
  obtain ⟨rs, h1, h2⟩ := C107_xml h
  obtain ⟨d, hd, hk⟩ : ∃ d, Spec.pieceObject brokenTags = some d ∧ d.view.kind = .node := by
    have : (Spec.pieceObject brokenTags).any (fun d => d.view.kind == .node) = true := by decide +kernel
    simpa [Option.any_eq_true] using this
  obtain rfl : rs = [some d] := by
    have := C102_clear h1 broken_clear
    rw [broken_pieces] at this
    simpa [hd] using this
  refine ⟨d, hk, (h2 (some .unwrap) (.inr ⟨?_, rfl⟩)).1, by simp [ofKind, hk], by simp [ofKind, hk]⟩
  rintro (hm | hm)
  · simp at hm
  · exact broken_no_document hm

end Osmio
