import Verif.Props.XmlRead
/-! # Lemmas: characters that XML does not have -/

namespace Osmio.Xml
open Spec

theorem nameStart_xml {c : Char} (h : isNameStart c = true) : isXmlChar c = true := by
  simp only [isNameStart, inRanges, isXmlChar, Bool.or_eq_true, beq_iff_eq, Bool.and_eq_true, decide_eq_true_eq, Bool.false_eq_true,
    or_false, char_eq, show ':'.toNat = 58 by decide, show '_'.toNat = 95 by decide] at h ⊢
  omega

theorem nameChar_xml {c : Char} (h : isNameChar c = true) : isXmlChar c = true := by
  simp only [isNameChar, Bool.or_eq_true] at h
  rcases h with ((h | h) | h) | h
  · exact nameStart_xml h
  all_goals
    simp only [inRanges, isXmlChar, Bool.or_eq_true, beq_iff_eq, Bool.and_eq_true, decide_eq_true_eq, Bool.false_eq_true,
      or_false, char_eq, show '-'.toNat = 45 by decide, show '.'.toNat = 46 by decide] at h ⊢
    omega

theorem ws_xml {c : Char} (h : isWs c = true) : isXmlChar c = true := by
  simp only [isWs, Bool.or_eq_true, beq_iff_eq] at h
  rcases h with ((rfl | rfl) | rfl) | rfl <;> decide

/-- The quotes of attributes are characters of XML. -/
def quoteOk : Mode → Bool
  | .attrVal _ _ _ q _ => isXmlChar q
  | .attrEnt _ _ _ q _ _ => isXmlChar q
  | _ => true

theorem step_quoteOk (norm : Xml.Config) (s : PState) (c : Char) (h : quoteOk s.mode = true) :
    quoteOk (step norm s c).mode = true := by
  have ht : ∀ (s : PState) (n : Str) (as : List (Str × Str)) (e : Bool), quoteOk (finishTag norm s n as e).mode = true := by
    intro s n as e
    simp only [finishTag]
    split
    · split <;> rfl
    · rfl
  have hz : ∀ (s : PState) (n : Str), quoteOk (finishEnd s n).mode = true := by
    intro s n
    unfold finishEnd
    split
    · rfl
    · split
      · split <;> rfl
      · rfl
  unfold Xml.step
  split
  · unfold stepText
    split_ifs <;> rfl
  · unfold stepTextEnt
    split_ifs <;> rfl
  · unfold stepLt
    split_ifs <;> rfl
  · simp only [stepBang]
    split_ifs <;> rfl
  · unfold stepComment
    split_ifs <;> rfl
  · unfold stepCdata
    split_ifs <;> rfl
  · unfold stepPi
    split_ifs <;> rfl
  · unfold stepTagName
    split_ifs <;> first | exact ht _ _ _ _ | rfl
  · unfold stepInTag
    split_ifs <;> first | exact ht _ _ _ _ | rfl
  · unfold stepAttrName
    split_ifs <;> rfl
  · unfold stepAttrEq
    split_ifs <;> rfl
  · unfold stepAttrPre
    split_ifs with h1 h2
    · rfl
    · rcases h2 with rfl | rfl <;> rfl
    · rfl
  · rename_i hm
    rw [hm] at h
    unfold stepAttrVal
    split_ifs <;> first | rfl | exact h
  · rename_i hm
    rw [hm] at h
    unfold stepAttrEnt
    split_ifs
    · split <;> first | rfl | exact h
    · exact h
    · rfl
  · unfold stepAttrDone
    split_ifs <;> first | exact ht _ _ _ _ | rfl
  · split_ifs <;> first | exact ht _ _ _ _ | rfl
  · unfold stepEndName
    split_ifs <;> first | exact hz _ _ | rfl
  · split_ifs <;> first | exact hz _ _ | exact h | rfl
  · exact h

/-- A character that XML does not have is an error wherever it stands. -/
theorem step_illegal (norm : Xml.Config) (s : PState) (hq : quoteOk s.mode = true) {c : Char} (h : isXmlChar c = false) :
    step norm s c = s.err := by
  have hne : ∀ d : Char, isXmlChar d = true → c ≠ d := fun d hd he => by rw [he, hd] at h; cases h
  have h1 : isNameStart c = false := by
    by_contra hc; rw [Bool.not_eq_false] at hc; rw [nameStart_xml hc] at h; cases h
  have h2 : isNameChar c = false := by
    by_contra hc; rw [Bool.not_eq_false] at hc; rw [nameChar_xml hc] at h; cases h
  have h3 : isWs c = false := by
    by_contra hc; rw [Bool.not_eq_false] at hc; rw [ws_xml hc] at h; cases h
  have e1 := hne '<' (by decide)
  have e2 := hne '>' (by decide)
  have e3 := hne '&' (by decide)
  have e4 := hne '/' (by decide)
  have e5 := hne '!' (by decide)
  have e6 := hne '?' (by decide)
  have e7 := hne '-' (by decide)
  have e8 := hne '[' (by decide)
  have e9 := hne ']' (by decide)
  have e10 := hne '=' (by decide)
  have e11 := hne '"' (by decide)
  have e12 := hne '\'' (by decide)
  have e13 := hne ';' (by decide)
  have e14 := hne '#' (by decide)
  obtain ⟨m, op, r, evs⟩ := s
  unfold step
  cases m with
  | bang t =>
    simp only [stepBang]
    have hin : ∀ l : Str, (∀ d ∈ l, isXmlChar d = true) → ¬ (t ++ [c]) <+: l := fun l hl hp =>
      hne c (hl c (hp.subset (by simp))) rfl
    have p1 : (t ++ [c]).isPrefixOf (str% "--") = false := by
      rw [← Bool.not_eq_true, List.isPrefixOf_iff_prefix]; exact hin _ (by decide)
    have p2 : (t ++ [c]).isPrefixOf (str% "[CDATA[") = false := by
      rw [← Bool.not_eq_true, List.isPrefixOf_iff_prefix]; exact hin _ (by decide)
    have n1 : t ++ [c] ≠ str% "--" := fun he => hin (str% "--") (by decide) (by rw [he])
    have n2 : t ++ [c] ≠ str% "[CDATA[" := fun he => hin (str% "[CDATA[") (by decide) (by rw [he])
    rw [if_neg n1, if_neg n2, p1, p2]
    rfl
  | attrVal n as k q v =>
    simp [stepAttrVal, h, e1, e3, hne q hq]
  | fail => rfl
  | _ =>
    simp [stepText, stepTextEnt, stepLt, stepComment, stepCdata, stepPi, stepTagName, stepInTag, stepAttrName, stepAttrEq, stepAttrPre,
      stepAttrEnt, stepAttrDone, stepEndName, h, h1, h2, h3, e1, e2, e3, e4, e5, e6, e7, e9, e10, e11, e12, e13, e14]

/-- A stand-in for characters that XML does not have. -/
def scrub (c : Char) : Char := if isXmlChar c then c else 'x'

theorem scrub_legal {t : Str} (h : ∀ c ∈ t, isXmlChar c = true) : t.map scrub = t := by
  refine (List.map_congr_left fun c hc => ?_).trans (List.map_id t)
  simp [scrub, h c hc]

theorem scrub_xml (c : Char) : isXmlChar (scrub c) = true := by
  unfold scrub
  split
  · assumption
  · decide

/-- A text with a character that XML does not have is an error, and up to there it gives the events of the text without it. -/
theorem run_scrub (norm : Xml.Config) (t : Str) (s : PState) (hq : quoteOk s.mode = true) (h : ∃ c ∈ t, isXmlChar c = false) :
    (run norm s t).mode = .fail ∧ (run norm s t).events <+: (run norm s (t.map scrub)).events := by
  induction t generalizing s with
  | nil => obtain ⟨c, hc, _⟩ := h; cases hc
  | cons c t ih =>
    cases hc : isXmlChar c with
    | false =>
      rw [run_cons, step_illegal norm s hq hc]
      have := run_fail norm t s.opened s.rooted s.events
      have e : run norm s.err t = ⟨.fail, s.opened, s.rooted, s.events⟩ := this
      rw [e]
      exact ⟨rfl, run_events norm ((c :: t).map scrub) s⟩
    | true =>
      have hs : scrub c = c := by simp [scrub, hc]
      rw [List.map_cons, run_cons, run_cons, hs]
      refine ih _ (step_quoteOk norm s c hq) ?_
      obtain ⟨d, hd, hd2⟩ := h
      rw [List.mem_cons] at hd
      rcases hd with rfl | hd
      · rw [hc] at hd2; cases hd2
      · exact ⟨d, hd, hd2⟩

/-- A text that is parsed without an error has no such characters. -/
theorem legal_of_run {norm : Xml.Config} {t : Str} {s : PState} (hq : quoteOk s.mode = true) (h : (run norm s t).mode ≠ .fail) :
    ∀ c ∈ t, isXmlChar c = true := by
  intro c hc
  by_contra hx
  rw [Bool.not_eq_true] at hx
  exact h (run_scrub norm t s hq ⟨c, hc, hx⟩).1

theorem escaped_scrub (t : Str) : (escaped t).map scrub = escaped (t.map scrub) := by
  unfold escaped
  rw [List.map_flatMap, List.flatMap_map]
  congr 1
  funext c
  cases hc : isXmlChar c with
  | true =>
    have hs : scrub c = c := by simp [scrub, hc]
    rw [hs]
    unfold escaped1 entity
    split <;> rename_i h
    · split at h <;> first | (cases h; rfl) | cases h
    · simp [hs]
  | false =>
    have hs : scrub c = 'x' := by simp [scrub, hc]
    have hne : ∀ d : Char, isXmlChar d = true → c ≠ d := fun d hd he => by rw [he, hd] at hc; cases hc
    rw [hs]
    have : entity c = none := by
      unfold entity
      split <;> first | rfl | (exact absurd rfl (hne _ (by decide)))
    simp [escaped1, this, hs]
    rfl

theorem rawAttr_scrub {k : Str} (hk : ∀ c ∈ k, isXmlChar c = true) (v : Str) :
    (rawAttr k v).map scrub = rawAttr k (v.map scrub) := by
  have e1 : scrub ' ' = ' ' := rfl
  have e2 : scrub '=' = '=' := rfl
  have e3 : scrub '"' = '"' := rfl
  simp [rawAttr, scrub_legal hk, e1, e2, e3]

theorem rawAttr?_scrub {k : Str} (hk : ∀ c ∈ k, isXmlChar c = true) (o : Option Str) :
    (rawAttr? k o).map scrub = rawAttr? k (o.map (·.map scrub)) := by
  cases o with
  | none => rfl
  | some v => exact rawAttr_scrub hk v

theorem plain_xml {c : Char} (h : plainChar c = true) : isXmlChar c = true := by
  simp only [plainChar, Bool.and_eq_true] at h
  exact h.1.1.1.2

theorem plain_scrub {t : Str} (h : ∀ c ∈ t, plainChar c = true) : t.map scrub = t := scrub_legal fun c hc => plain_xml (h c hc)

theorem i64Str_plain (i : Int64) : ∀ c ∈ i64Str i, plainChar c = true := by
  intro c hc
  unfold i64Str intStr at hc
  split at hc
  · rw [List.mem_cons] at hc
    rcases hc with rfl | hc
    · decide
    · exact isDigit_plain (natStr_isDigit _ c hc)
  · exact isDigit_plain (natStr_isDigit _ c hc)

theorem time_scrub (t : TimestampFormat) : t.display.map scrub = (mapTime scrub t).display := by
  cases t with
  | iso s => rfl
  | epoch e => exact plain_scrub (time_plain (t := .epoch e) trivial)

theorem attrsText_scrub (d : ObjData) (v : UInt32) : (attrsText d v).map scrub = attrsText (mapTexts scrub d) v := by
  have hu : ∀ o : Option Str, (o.map escaped).map (·.map scrub) = (o.map (·.map scrub)).map escaped := by
    intro o; cases o with
    | none => rfl
    | some x => exact congrArg some (escaped_scrub x)
  have hn : ∀ o : Option UInt32, (o.map u32Str).map (·.map scrub) = o.map u32Str := by
    intro o; cases o with
    | none => rfl
    | some x => exact congrArg some (plain_scrub (num_plain x))
  have ht : ∀ o : Option TimestampFormat, (o.map TimestampFormat.display).map (·.map scrub) =
      (o.map (mapTime scrub)).map TimestampFormat.display := by
    intro o; cases o with
    | none => rfl
    | some x => exact congrArg some (time_scrub x)
  have h1 : ∀ o : Option (Lat × Lon), (o.map fun p => p.1.display).map (·.map scrub) = o.map fun p => p.1.display := by
    intro o; cases o with
    | none => rfl
    | some x => exact congrArg some (plain_scrub (coordText_plain (C02_lat_display_exact x.1)))
  have h2 : ∀ o : Option (Lat × Lon), (o.map fun p => p.2.display).map (·.map scrub) = o.map fun p => p.2.display := by
    intro o; cases o with
    | none => rfl
    | some x => exact congrArg some (plain_scrub (coordText_plain (C02_lon_display_exact x.2)))
  have hv : (if d.view.deleted = true then str% "false" else str% "true").map scrub =
      (if d.view.deleted = true then str% "false" else str% "true") := by split <;> decide
  unfold attrsText
  simp only [List.map_append]
  rw [rawAttr_scrub (by decide), rawAttr_scrub (by decide), rawAttr_scrub (by decide), rawAttr?_scrub (by decide),
    rawAttr?_scrub (by decide), rawAttr?_scrub (by decide), rawAttr?_scrub (by decide), rawAttr?_scrub (by decide),
    rawAttr?_scrub (by decide), hu, hn, hn, ht, h1, h2, plain_scrub (i64Str_plain _), plain_scrub (num_plain _), hv]
  rfl

theorem objText_scrub (d : ObjData) (v : UInt32) : (objText d v).map scrub = objText (mapTexts scrub d) v := by
  have hk : d.view.kind.nameLong.map scrub = d.view.kind.nameLong := plain_scrub (kind_plain _)
  have hnd : ∀ n : ObjId, (ndText n).map scrub = ndText n := by
    intro n
    unfold ndText
    rw [List.map_append, List.map_append, rawAttr_scrub (by decide), plain_scrub (i64Str_plain _)]
    rfl
  have hm : ∀ m : OSMObjectType × ObjId × Str, (memberText m).map scrub = memberText (m.1, m.2.1, m.2.2.map scrub) := by
    intro m
    unfold memberText
    simp only [List.map_append]
    rw [rawAttr_scrub (by decide), rawAttr_scrub (by decide), rawAttr_scrub (by decide), plain_scrub (i64Str_plain _),
      plain_scrub (kind_plain _), escaped_scrub]
    rfl
  have ht : ∀ t : Str × Str, (tagText t).map scrub = tagText (t.1.map scrub, t.2.map scrub) := by
    intro t
    unfold tagText
    simp only [List.map_append]
    rw [rawAttr_scrub (by decide), rawAttr_scrub (by decide), escaped_scrub, escaped_scrub]
    rfl
  have e1 : (d.nodes.flatMap ndText).map scrub = d.nodes.flatMap ndText := by
    rw [List.map_flatMap]; simp [hnd]
  have e2 : (d.members.flatMap memberText).map scrub = (mapTexts scrub d).members.flatMap memberText := by
    rw [List.map_flatMap]; simp [hm, mapTexts, List.flatMap_map]
  have e3 : (d.view.tags.flatMap tagText).map scrub = (mapTexts scrub d).view.tags.flatMap tagText := by
    rw [List.map_flatMap]; simp [ht, mapTexts, List.flatMap_map]
  unfold objText
  have hc : (d.view.kind = .node ∧ d.view.tags = []) ↔
      ((mapTexts scrub d).view.kind = .node ∧ (mapTexts scrub d).view.tags = []) := by simp [mapTexts]
  by_cases h : d.view.kind = .node ∧ d.view.tags = []
  · rw [if_pos h, if_pos (hc.1 h)]
    simp only [List.map_append]
    rw [attrsText_scrub, hk]
    rfl
  · rw [if_neg h, if_neg (fun x => h (hc.2 x))]
    simp only [List.map_append]
    rw [attrsText_scrub, hk, e1, e2, e3]
    rfl

/-! ## Reading the events before an error -/

theorem collect_swap (b : Bool) (acc evs : List XmlEvent) (r : List XmlEvent) (q : List (Option XmlEvent))
    (h : XMLReader.collect b acc (evs.map some ++ [none]) = (.ok r, q)) :
    ∃ rest : List XmlEvent, q = rest.map some ++ [none] ∧
      ∀ t, XMLReader.collect b acc (evs.map some ++ t) = (.ok r, rest.map some ++ t) := by
  induction evs generalizing b acc with
  | nil => cases h
  | cons e evs ih =>
    simp only [List.map_cons, List.cons_append, XMLReader.collect] at h ⊢
    split at h
    · rename_i hb
      cases h
      exact ⟨evs, rfl, fun t => by simp [hb]⟩
    · rename_i hb
      obtain ⟨rest, h1, h2⟩ := ih _ _ h
      exact ⟨rest, h1, fun t => by simp only [hb]; exact h2 t⟩

theorem next_swap (evs : List XmlEvent) (r : Option StringOSMObj) (q : List (Option XmlEvent))
    (h : XMLReader.next (evs.map some ++ [none]) = (.ok r, q)) :
    ∃ rest : List XmlEvent, q = rest.map some ++ [none] ∧ ∀ t, XMLReader.next (evs.map some ++ t) = (.ok r, rest.map some ++ t) := by
  unfold XMLReader.next at h
  generalize hc : XMLReader.collect false [] (evs.map some ++ [none]) = c at h
  obtain ⟨c1, c2⟩ := c
  cases c1 with
  | error p => cases h
  | ok els =>
    obtain ⟨rest, h1, h2⟩ := collect_swap _ _ _ _ _ hc
    cases h
    exact ⟨rest, h1, fun t => by unfold XMLReader.next; rw [h2 t]⟩

/-- A reader that reported the end before an error would have reported it whatever comes in its place. -/
theorem drain_swap (evs : List XmlEvent) {os : List StringOSMObj} {q : List (Option XmlEvent)}
    (h : Drain XMLReader.next (evs.map some ++ [none]) os none q) :
    ∃ rest : List XmlEvent, ∀ t, Drain XMLReader.next (evs.map some ++ t) os none (rest.map some ++ t) := by
  generalize hs : evs.map some ++ [none] = s at h
  generalize he : (none : Option Panic) = e at h
  induction h generalizing evs with
  | done hx =>
    subst hs
    obtain ⟨rest, _, h2⟩ := next_swap evs _ _ hx
    exact ⟨rest, fun t => .done (h2 t)⟩
  | panic hx => cases he
  | more hx hd ih =>
    subst hs
    obtain ⟨rest, h1, h2⟩ := next_swap evs _ _ hx
    obtain ⟨rest2, h3⟩ := ih rest h1.symm he
    exact ⟨rest2, fun t => .more (h2 t) (h3 t)⟩

end Osmio.Xml
