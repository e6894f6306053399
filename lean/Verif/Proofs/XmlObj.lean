import Verif.Proofs.XmlParse
import Verif.Props.Coord
import Verif.Props.Timestamp
import Verif.Model.XmlRead
/-! # Lemmas: the events of written objects -/

namespace Osmio.Xml
open Spec

theorem isoText_plain {s : Str} {dt : DateTime} (h : IsIsoText s dt) : ∀ c ∈ s, plainChar c = true := by
  obtain ⟨Y, M, D, h, m, sec, hY, hM, hD, hh, hm, hs, rfl, _⟩ := h
  intro c hc
  have aux : ∀ {w : Nat} {l : Str}, IsNumeral w l → c ∈ l → plainChar c = true := fun hl hc => isDigit_plain (hl.2 c hc)
  simp only [List.mem_append, List.mem_cons, List.not_mem_nil, or_false] at hc
  rcases hc with hc | rfl | hc | rfl | hc | rfl | hc | rfl | hc | rfl | hc | rfl
  · exact aux hY hc
  · decide
  · exact aux hM hc
  · decide
  · exact aux hD hc
  · decide
  · exact aux hh hc
  · decide
  · exact aux hm hc
  · decide
  · exact aux hs hc
  · decide

theorem coordText_plain {s : Str} {i : Int} (h : IsCoordText s i) : ∀ c ∈ s, plainChar c = true := by
  obtain ⟨ip, fp, rfl, _, h1, h2, _⟩ := h.exists_parts
  intro c hc
  simp only [List.mem_append] at hc
  rcases hc with (hc | hc) | hc
  · split at hc
    · rw [List.mem_singleton] at hc; subst hc; decide
    · cases hc
  · exact isDigit_plain (h1 c hc)
  · split at hc
    · cases hc
    · rw [List.mem_cons] at hc
      rcases hc with rfl | hc
      · decide
      · exact isDigit_plain (h2 c hc)

theorem time_plain {t : TimestampFormat} (h : TimeOk t) : ∀ c ∈ t.display, plainChar c = true := by
  cases t with
  | iso s => exact h
  | epoch e =>
    obtain ⟨dt, hdt, _⟩ := C07_iso_names_instant (Int64.ofInt e.toInt32.toInt)
      (by
        rw [Int64.toInt_ofInt, Int.bmod_def]
        have := e.toInt32.toInt_lt; have := e.toInt32.le_toInt; norm_num at *; omega)
      (by
        rw [Int64.toInt_ofInt, Int.bmod_def]
        have := e.toInt32.toInt_lt; have := e.toInt32.le_toInt; norm_num at *; omega)
    have : (Int64.ofInt e.toInt32.toInt).toInt32 = e.toInt32 := by
      rw [← Int32.toInt_inj, Int64.toInt_toInt32, Int64.toInt_ofInt]
      simp only [Int.bmod_def]
      have := e.toInt32.toInt_lt; have := e.toInt32.le_toInt; norm_num at *; omega
    have h2 : TimestampFormat.display (.epoch e) = TimestampFormat.toIsoString (.epoch (Int64.ofInt e.toInt32.toInt)) := by
      simp only [TimestampFormat.display, TimestampFormat.toIsoString, this]
    rw [h2]
    exact isoText_plain hdt

/-- Ways and relations have no position, nodes and relations no nodes, nodes and ways no members. -/
def DataShape (d : ObjData) : Prop := (d.view.kind ≠ .node → d.pos = none) ∧ (d.view.kind ≠ .way → d.nodes = []) ∧
  (d.view.kind ≠ .relation → d.members = [])

theorem mapTexts_shape {d : ObjData} (h : DataShape d) (g : Char → Char) : DataShape (mapTexts g d) :=
  ⟨h.1, h.2.1, fun hk => by simp [mapTexts, h.2.2 hk]⟩

/-- An object of one of the three kinds, with texts that XML has. -/
structure DataOk (d : ObjData) : Prop extends XmlTexts d where
  shape : DataShape d

/-- An optional attribute: key, text, value. -/
def attr? (k : Str) (o : Option (Str × Str)) : List (Str × Str × Str) := (o.map fun tv => (k, tv.1, tv.2)).toList

/-- The attributes of an object after the first. -/
def moreAttrs (d : ObjData) (v : UInt32) : List (Str × Str × Str) :=
  [(str% "visible", (if d.view.deleted then str% "false" else str% "true"),
      (if d.view.deleted then str% "false" else str% "true")),
   (str% "version", u32Str v, u32Str v)] ++
  attr? (str% "user") (d.view.user.map fun u => (escaped u, u)) ++
  attr? (str% "uid") (d.view.uid.map fun u => (u32Str u, u32Str u)) ++
  attr? (str% "changeset") (d.view.changesetId.map fun u => (u32Str u, u32Str u)) ++
  attr? (str% "timestamp") (d.view.timestamp.map fun t => (t.display, t.display)) ++
  attr? (str% "lat") (d.pos.map fun p => (p.1.display, p.1.display)) ++
  attr? (str% "lon") (d.pos.map fun p => (p.2.display, p.2.display))

/-- The attributes of an object as reported. -/
def objAttrs (d : ObjData) (v : UInt32) : List (Str × Str) :=
  (str% "id", i64Str d.view.id) :: (moreAttrs d v).map fun x => (x.1, x.2.2)

theorem attrsText_eq (d : ObjData) (v : UInt32) :
    attrsText d v = rawAttr (str% "id") (i64Str d.view.id) ++ (moreAttrs d v).flatMap fun x => rawAttr x.1 x.2.1 := by
  have aux : ∀ (k : Str) (o : Option Str) (g : Option (Str × Str)), g.map Prod.fst = o →
      rawAttr? k o = (attr? k g).flatMap fun x => rawAttr x.1 x.2.1 := by
    intro k o g h; subst h; cases g <;> simp [rawAttr?, attr?]
  unfold attrsText moreAttrs
  rw [aux (str% "user") _ (d.view.user.map fun u => (escaped u, u)) (by cases d.view.user <;> rfl),
    aux (str% "uid") _ (d.view.uid.map fun u => (u32Str u, u32Str u)) (by cases d.view.uid <;> rfl),
    aux (str% "changeset") _ (d.view.changesetId.map fun u => (u32Str u, u32Str u)) (by cases d.view.changesetId <;> rfl),
    aux (str% "timestamp") _ (d.view.timestamp.map fun t => (t.display, t.display)) (by cases d.view.timestamp <;> rfl),
    aux (str% "lat") _ (d.pos.map fun p => (p.1.display, p.1.display)) (by cases d.pos <;> rfl),
    aux (str% "lon") _ (d.pos.map fun p => (p.2.display, p.2.display)) (by cases d.pos <;> rfl)]
  simp [List.append_assoc]

theorem isKey_of {k : Str} {c : Char} {r : Str} (h : k = c :: r)
    (h2 : (isNameStart c && r.all isNameChar && !k.contains ':' && k != str% "xmlns") = true) : IsKey k := by
  simp only [Bool.and_eq_true, List.all_eq_true, Bool.not_eq_true', List.contains_eq_mem, decide_eq_false_iff_not, bne_iff_ne,
    ne_eq] at h2
  exact ⟨c, r, h, (isNameStart_iff c).1 h2.1.1.1, fun x hx => (isNameChar_iff x).1 (h2.1.1.2 x hx), h2.1.2, h2.2⟩

theorem attr?_mem {k : Str} {o : Option (Str × Str)} {x : Str × Str × Str} (h : x ∈ attr? k o) :
    ∃ tv, o = some tv ∧ x = (k, tv.1, tv.2) := by
  cases o with
  | none => simp [attr?] at h
  | some tv => exact ⟨tv, rfl, by simpa [attr?] using h⟩

theorem time_raw {d : ObjData} (hd : XmlTexts d) {t : TimestampFormat} (ht : d.view.timestamp = some t) :
    ∀ c ∈ t.display, rawChar c = true := by
  cases t with
  | iso s => exact hd.time s ht
  | epoch e => exact fun c hc => plain_raw (time_plain (t := .epoch e) trivial c hc)

theorem num_plain (v : UInt32) : ∀ c ∈ u32Str v, plainChar c = true := fun c hc => isDigit_plain (natStr_isDigit _ c hc)

theorem moreAttrs_ok {norm : Xml.Config} (hn : IsNorm norm) {d : ObjData} (hd : DataOk d) (v : UInt32) :
    ∀ x ∈ moreAttrs d v, IsKey x.1 ∧ ReadsAs norm x.2.1 (x.2.2.map norm) := by
  have plain : ∀ {t : Str}, (∀ c ∈ t, plainChar c = true) → ReadsAs norm t (t.map norm) := fun h => .raw fun c hc => plain_raw (h c hc)
  intro x hx
  unfold moreAttrs at hx
  simp only [List.mem_append, or_assoc, List.mem_cons, List.not_mem_nil, or_false] at hx
  rcases hx with rfl | rfl | hx | hx | hx | hx | hx | hx
  · refine ⟨isKey_of rfl (by (try dsimp only); decide +kernel), plain ?_⟩
    dsimp only
    split <;> decide
  · exact ⟨isKey_of rfl (by (try dsimp only); decide +kernel), plain (num_plain v)⟩
  all_goals
    obtain ⟨tv, htv, rfl⟩ := attr?_mem hx
    rw [Option.map_eq_some_iff] at htv
    obtain ⟨u, hu, rfl⟩ := htv
    refine ⟨isKey_of rfl (by (try dsimp only); decide +kernel), ?_⟩
  · exact .escapedMap hn (hd.user u hu)
  · exact plain (num_plain u)
  · exact plain (num_plain u)
  · exact .raw (time_raw hd.toXmlTexts hu)
  · exact plain (coordText_plain (C02_lat_display_exact u.1))
  · exact plain (coordText_plain (C02_lon_display_exact u.2))

theorem moreAttrs_keys (d : ObjData) (v : UInt32) : ∀ x ∈ moreAttrs d v, IsKey x.1 := by
  intro x hx
  unfold moreAttrs at hx
  simp only [List.mem_append, or_assoc, List.mem_cons, List.not_mem_nil, or_false] at hx
  rcases hx with rfl | rfl | hx | hx | hx | hx | hx | hx
  · exact isKey_of rfl (by (try dsimp only); decide +kernel)
  · exact isKey_of rfl (by (try dsimp only); decide +kernel)
  all_goals
    obtain ⟨tv, htv, rfl⟩ := attr?_mem hx
    exact isKey_of rfl (by (try dsimp only); decide +kernel)

theorem objAttrs_keys (d : ObjData) (v : UInt32) : ∀ x ∈ objAttrs d v, IsKey x.1 := by
  intro x hx
  unfold objAttrs at hx
  rw [List.mem_cons] at hx
  rcases hx with rfl | hx
  · exact isKey_of rfl (by (try dsimp only); decide +kernel)
  · obtain ⟨y, hy, rfl⟩ := List.mem_map.1 hx
    exact moreAttrs_keys d v y hy

theorem mapTexts_kind (g : Char → Char) (d : ObjData) : (mapTexts g d).view.kind = d.view.kind := rfl

/-- The attributes of an object with changed texts. -/
theorem objAttrs_mapTexts {norm : Xml.Config} (hn : IsNorm norm) (d : ObjData) (v : UInt32) :
    objAttrs (mapTexts norm d) v = (str% "id", i64Str d.view.id) :: (moreAttrs d v).map fun x => (x.1, x.2.2.map norm) := by
  have num : ∀ u : UInt32, (u32Str u).map norm = u32Str u := fun u => plain_map hn (num_plain u)
  have lat : ∀ p : Lat, p.display.map norm = p.display := fun p => plain_map hn (coordText_plain (C02_lat_display_exact p))
  have lon : ∀ p : Lon, p.display.map norm = p.display := fun p => plain_map hn (coordText_plain (C02_lon_display_exact p))
  have vis : (if d.view.deleted then str% "false" else str% "true").map norm = if d.view.deleted then str% "false" else str% "true" :=
    plain_map hn (by split <;> decide)
  have time : ∀ t : TimestampFormat, t.display.map norm = (mapTime norm t).display := by
    intro t
    cases t with
    | iso s => rfl
    | epoch e => exact plain_map hn (time_plain (t := .epoch e) trivial)
  unfold objAttrs moreAttrs mapTexts
  congr 1
  simp only [List.map_append, List.map_cons, List.map_nil, num, vis]
  have aux : ∀ (k : Str) (o o' : Option (Str × Str)), o'.map Prod.snd = o.map (fun x => x.2.map norm) →
      (attr? k o').map (fun x => (x.1, x.2.2)) = (attr? k o).map fun x => (x.1, x.2.2.map norm) := by
    intro k o o' h
    cases o <;> cases o' <;> simp_all [attr?]
  rw [aux (str% "user") (d.view.user.map fun u => (escaped u, u)) _ (by cases d.view.user <;> rfl),
    aux (str% "uid") (d.view.uid.map fun u => (u32Str u, u32Str u)) _ (by cases d.view.uid <;> simp [num]),
    aux (str% "changeset") (d.view.changesetId.map fun u => (u32Str u, u32Str u)) _ (by cases d.view.changesetId <;> simp [num]),
    aux (str% "timestamp") (d.view.timestamp.map fun t => (t.display, t.display)) _ (by cases d.view.timestamp <;> simp [time]),
    aux (str% "lat") (d.pos.map fun p => (p.1.display, p.1.display)) _ (by cases d.pos <;> simp [lat]),
    aux (str% "lon") (d.pos.map fun p => (p.2.display, p.2.display)) _ (by cases d.pos <;> simp [lon])]

theorem objAttrs_nodup (d : ObjData) (v : UInt32) : ((objAttrs d v).map Prod.fst).Nodup := by
  have aux : ∀ (k : Str) (o : Option (Str × Str)), ((attr? k o).map Prod.fst).Sublist [k] := by
    intro k o; cases o <;> simp [attr?]
  have h : ((objAttrs d v).map Prod.fst).Sublist [str% "id", str% "visible", str% "version", str% "user", str% "uid",
      str% "changeset", str% "timestamp", str% "lat", str% "lon"] := by
    unfold objAttrs moreAttrs
    simp only [List.map_cons, List.map_append, List.map_map, List.map_nil]
    refine List.Sublist.cons_cons _ ?_
    show List.Sublist ([str% "visible", str% "version"] ++ _ ++ _ ++ _ ++ _ ++ _ ++ _)
      ([str% "visible", str% "version"] ++ [str% "user"] ++ [str% "uid"] ++ [str% "changeset"] ++ [str% "timestamp"] ++
        [str% "lat"] ++ [str% "lon"])
    refine ((((((List.Sublist.refl _).append ?_).append ?_).append ?_).append ?_).append ?_).append ?_ <;> exact aux _ _
  exact h.nodup (by decide +kernel)

theorem kind_key (k : OSMObjectType) : IsKey k.nameLong := by
  cases k
  · exact isKey_of (k := str% "node") rfl (by decide +kernel)
  · exact isKey_of (k := str% "way") rfl (by decide +kernel)
  · exact isKey_of (k := str% "relation") rfl (by decide +kernel)

/-! ## Children -/

/-- The events of a child. -/
def childEvents (n : Str) (as : List (Str × Str)) : List XmlEvent :=
  [.other, .start ⟨none, n⟩ (as.map attrOf), .stop ⟨none, n⟩]

/-- Events of the children of an element. -/
def kidsEvents (d : ObjData) : List XmlEvent :=
  d.nodes.flatMap (fun n => childEvents (str% "nd") [(str% "ref", i64Str n)]) ++
  d.members.flatMap (fun m => childEvents (str% "member")
    [(str% "type", m.1.nameLong), (str% "ref", i64Str m.2.1), (str% "role", m.2.2)]) ++
  d.view.tags.flatMap (fun t => childEvents (str% "tag") [(str% "k", t.1), (str% "v", t.2)])

theorem run_nd {norm : Xml.Config} (hn : IsNorm norm) (p : Bool) (o : Str × List Str) (op : List (Str × List Str))
    (evs : List XmlEvent) (n : ObjId) :
    run norm ⟨.text p, o :: op, true, evs⟩ (ndText n) =
      ⟨.text false, o :: op, true, evs ++ childEvents (str% "nd") [(str% "ref", i64Str n)]⟩ := by
  unfold ndText
  rw [run_append, run_append]
  have h : run norm ⟨.text p, o :: op, true, evs⟩ (str% "\n\t\t<nd") = ⟨.tagName (str% "nd"), o :: op, true, evs ++ [.other]⟩ := rfl
  rw [h, run_attr_first _ _ _ _ (isKey_of rfl (by (try dsimp only); decide +kernel)) (i64Str_reads hn n),
    run_close_empty' _ _ _ (isKey_of rfl (by (try dsimp only); decide +kernel)) _ (by simp) (by simp)]
  · simp [childEvents]
  · intro x hx
    rw [List.mem_singleton] at hx
    subst hx
    exact isKey_of rfl (by (try dsimp only); decide +kernel)

theorem run_tag {norm : Xml.Config} (hn : IsNorm norm) (p : Bool) (o : Str × List Str) (op : List (Str × List Str))
    (evs : List XmlEvent) (t : Str × Str) (hk : ∀ c ∈ t.1, isXmlChar c = true) (hv : ∀ c ∈ t.2, isXmlChar c = true) :
    run norm ⟨.text p, o :: op, true, evs⟩ (tagText t) =
      ⟨.text false, o :: op, true, evs ++ childEvents (str% "tag") [(str% "k", t.1.map norm), (str% "v", t.2.map norm)]⟩ := by
  unfold tagText
  rw [run_append, run_append, run_append]
  have h : run norm ⟨.text p, o :: op, true, evs⟩ (str% "\n\t\t<tag") = ⟨.tagName (str% "tag"), o :: op, true, evs ++ [.other]⟩ := rfl
  rw [h, run_attr_first _ _ _ _ (isKey_of rfl (by (try dsimp only); decide +kernel)) (ReadsAs.escapedMap hn hk),
    run_attr_done _ _ _ _ _ (isKey_of rfl (by (try dsimp only); decide +kernel)) (ReadsAs.escapedMap hn hv),
    run_close_empty' _ _ _ (isKey_of rfl (by (try dsimp only); decide +kernel)) _ (by simp) (by simp)]
  · simp [childEvents]
  · intro x hx
    simp only [List.cons_append, List.nil_append, List.mem_cons, List.not_mem_nil, or_false] at hx
    rcases hx with rfl | rfl <;> exact isKey_of rfl (by (try dsimp only); decide +kernel)

theorem kind_plain (k : OSMObjectType) : ∀ c ∈ k.nameLong, plainChar c = true := by
  cases k
  · show ∀ c ∈ str% "node", _; decide
  · show ∀ c ∈ str% "way", _; decide
  · show ∀ c ∈ str% "relation", _; decide

theorem run_member {norm : Xml.Config} (hn : IsNorm norm) (p : Bool) (o : Str × List Str) (op : List (Str × List Str))
    (evs : List XmlEvent) (m : OSMObjectType × ObjId × Str) (hr : ∀ c ∈ m.2.2, isXmlChar c = true) :
    run norm ⟨.text p, o :: op, true, evs⟩ (memberText m) =
      ⟨.text false, o :: op, true, evs ++ childEvents (str% "member")
        [(str% "type", m.1.nameLong), (str% "ref", i64Str m.2.1), (str% "role", m.2.2.map norm)]⟩ := by
  unfold memberText
  rw [run_append, run_append, run_append, run_append]
  have h : run norm ⟨.text p, o :: op, true, evs⟩ (str% "\n\t\t<member") =
    ⟨.tagName (str% "member"), o :: op, true, evs ++ [.other]⟩ := rfl
  rw [h, run_attr_first _ _ _ _ (isKey_of rfl (by (try dsimp only); decide +kernel)) (ReadsAs.plain hn (kind_plain m.1)),
    run_attr_done _ _ _ _ _ (isKey_of rfl (by (try dsimp only); decide +kernel)) (i64Str_reads hn _),
    run_attr_done _ _ _ _ _ (isKey_of rfl (by (try dsimp only); decide +kernel)) (ReadsAs.escapedMap hn hr),
    run_close_empty _ _ _ (isKey_of rfl (by (try dsimp only); decide +kernel)) _ (by simp) (by simp)]
  · simp [childEvents]
  · intro x hx
    simp only [List.cons_append, List.nil_append, List.mem_cons, List.not_mem_nil, or_false] at hx
    rcases hx with rfl | rfl | rfl <;> exact isKey_of rfl (by (try dsimp only); decide +kernel)

/-- A run over a list of pieces. -/
theorem run_flatMap {α : Type} {norm : Xml.Config} (l : List α) (text : α → Str) (ev : α → List XmlEvent)
    (op : List (Str × List Str))
    (h : ∀ x ∈ l, ∀ p evs, run norm ⟨.text p, op, true, evs⟩ (text x) = ⟨.text false, op, true, evs ++ ev x⟩)
    (evs : List XmlEvent) :
    run norm ⟨.text false, op, true, evs⟩ (l.flatMap text) = ⟨.text false, op, true, evs ++ l.flatMap ev⟩ := by
  induction l generalizing evs with
  | nil => simp [run]
  | cons x l ih =>
    rw [List.flatMap_cons, run_append, h x (by simp), ih fun y hy => h y (by simp [hy])]
    simp

/-- The events of an object. -/
def objEvents (d : ObjData) (v : UInt32) : List XmlEvent :=
  if d.view.kind = .node ∧ d.view.tags = [] then
    [.start ⟨none, d.view.kind.nameLong⟩ ((objAttrs d v).map attrOf), .stop ⟨none, d.view.kind.nameLong⟩]
  else
    [.start ⟨none, d.view.kind.nameLong⟩ ((objAttrs d v).map attrOf)] ++ kidsEvents d ++
      [.other, .stop ⟨none, d.view.kind.nameLong⟩]

theorem run_startTag {norm : Xml.Config} (hn : IsNorm norm) {d : ObjData} (hd : DataOk d) (v : UInt32) (p : Bool)
    (o : Str × List Str) (op : List (Str × List Str)) (evs : List XmlEvent) :
    run norm ⟨.text p, o :: op, true, evs⟩ (str% "\n\t<" ++ d.view.kind.nameLong ++ attrsText d v) =
      ⟨.attrDone d.view.kind.nameLong (objAttrs (mapTexts norm d) v), o :: op, true, evs ++ [.other]⟩ := by
  have e : (moreAttrs d v).flatMap (fun x => rawAttr x.1 x.2.1) =
      ((moreAttrs d v).map fun x => (x.1, x.2.1, x.2.2.map norm)).flatMap fun x => rawAttr x.1 x.2.1 := by
    rw [List.flatMap_map]
  rw [run_append, attrsText_eq, run_append, e, objAttrs_mapTexts hn]
  have h : run norm ⟨.text p, o :: op, true, evs⟩ (str% "\n\t<" ++ d.view.kind.nameLong) =
      ⟨.tagName d.view.kind.nameLong, o :: op, true, evs ++ [.other]⟩ := by
    cases d.view.kind <;> rfl
  rw [h, run_attr_first _ _ _ _ (isKey_of rfl (by (try dsimp only); decide +kernel)) (i64Str_reads hn _),
    run_attrs _ _ _ _ _ _ (fun x hx => by
      obtain ⟨y, hy, rfl⟩ := List.mem_map.1 hx
      exact moreAttrs_ok hn hd v y hy)]
  rw [List.map_map]
  rfl

theorem run_obj {norm : Xml.Config} (hn : IsNorm norm) {d : ObjData} (hd : DataOk d) (v : UInt32) (p : Bool)
    (o : Str × List Str) (op : List (Str × List Str)) (evs : List XmlEvent) :
    run norm ⟨.text p, o :: op, true, evs⟩ (objText d v) =
      ⟨.text false, o :: op, true, evs ++ (.other :: objEvents (mapTexts norm d) v)⟩ := by
  have hk := objAttrs_keys (mapTexts norm d) v
  have hne : (mapTexts norm d).view.tags = [] ↔ d.view.tags = [] := by simp [mapTexts]
  unfold objText
  rw [run_append, run_startTag hn hd]
  unfold objEvents
  simp only [hne, mapTexts_kind]
  split
  · rw [run_close_empty' _ _ _ (kind_key _) hk (objAttrs_nodup _ v) (by simp)]
    simp
  · rw [run_append, run_append, run_append, run_append, run_append, run_append,
      run_close_open _ _ _ (kind_key _) hk (objAttrs_nodup _ v) (by simp),
      run_flatMap d.nodes ndText _ _ (fun x _ p evs => run_nd hn p _ _ evs x),
      run_flatMap d.members memberText _ _ (fun x hx p evs => run_member hn p _ _ evs x (hd.roles x hx)),
      run_flatMap d.view.tags tagText _ _ (fun x hx p evs => run_tag hn p _ _ evs x (hd.tags x hx).1 (hd.tags x hx).2)]
    have h : ∀ (k : OSMObjectType) (evs : List XmlEvent),
        run norm (run norm (run norm ⟨.text false, (k.nameLong, []) :: o :: op, true, evs⟩ (str% "\n\t</")) k.nameLong)
          (str% ">") = ⟨.text false, o :: op, true, evs ++ [.other] ++ [.stop ⟨none, k.nameLong⟩]⟩ := by
      intro k evs; cases k <;> rfl
    rw [h]
    simp [kidsEvents, mapTexts, List.flatMap_map]

end Osmio.Xml
