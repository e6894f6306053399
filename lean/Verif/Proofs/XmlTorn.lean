import Verif.Proofs.XmlCut
import Verif.Proofs.Utf8Strict
/-! # Lemmas: a written document of which only the first bytes are there -/

namespace Osmio.Utf8

theorem encode_decodePrefixAux (n : Nat) (a : List UInt8) : encode (decodePrefixAux n a).1 <+: a := by
  induction n generalizing a with
  | zero => cases a <;> exact List.nil_prefix
  | succ n ih =>
    cases a with
    | nil => exact List.nil_prefix
    | cons b r =>
      simp only [decodePrefixAux]
      cases hd : decodeFirst b r with
      | none => exact List.nil_prefix
      | some p =>
        obtain ⟨c, k⟩ := p
        dsimp only
        rw [encode_cons, decodeFirst_eq hd]
        exact (List.prefix_append_right_inj _).2 (ih _)

theorem encode_decodePrefix (a : List UInt8) : encode (decodePrefix a).1 <+: a := encode_decodePrefixAux _ a

/-- A text is all there exactly if its characters are. -/
theorem encode_prefix_iff (x : Str) (a : List UInt8) : encode x <+: a ↔ x <+: (decodePrefix a).1 := by
  constructor
  · rintro ⟨r, rfl⟩
    have := decodePrefix_append (encode x) r
    rwa [decodePrefix_encode] at this
  · rintro ⟨r, hr⟩
    refine List.IsPrefix.trans ?_ (encode_decodePrefix a)
    rw [← hr, encode_append]
    exact List.prefix_append _ _

end Osmio.Utf8

namespace Osmio
open Spec Xml OSMObjBase

/-! ## The last character of a tag -/

theorem finishTag_stop (norm : Xml.Config) (s : PState) (n : Str) (as : List (Str × Str)) (e : Bool) {o r es q}
    (h : finishTag norm s n as e = ⟨.text false, o, r, es ++ [.stop q]⟩) : s.events <+: es := by
  simp only [finishTag] at h
  split at h
  · rename_i m bs _ _
    split at h
    · cases congrArg PState.mode h
    · have h2 := congrArg PState.events h
      dsimp only at h2
      cases e
      · cases (List.append_inj' h2 rfl).2
      · have : s.events ++ [.start m bs] ++ [.stop m] = es ++ [.stop q] := by simpa using h2
        rw [← (List.append_inj' this rfl).1]
        exact List.prefix_append _ _
  · cases congrArg PState.mode h

theorem finishEnd_stop (s : PState) (n : Str) {o r es q}
    (h : finishEnd s n = ⟨.text false, o, r, es ++ [.stop q]⟩) : s.events <+: es := by
  unfold finishEnd at h
  split at h
  · cases congrArg PState.mode h
  · split at h
    · split at h
      · have h2 := congrArg PState.events h
        rw [(List.append_inj' h2 rfl).1]
      · cases congrArg PState.mode h
    · cases congrArg PState.mode h

/-- If a character ends a tag, what it reports was not reported before. -/
theorem step_stop (norm : Xml.Config) (s : PState) (c : Char) {o r es q}
    (h : Xml.step norm s c = ⟨.text false, o, r, es ++ [.stop q]⟩) : s.events <+: es := by
  have hm : ∀ {s' : PState}, s' = ⟨.text false, o, r, es ++ [.stop q]⟩ → s'.mode ≠ .text false → s.events <+: es := by
    intro s' h1 h2
    rw [h1] at h2
    exact absurd rfl h2
  have hf : (flush s true).goto (.text false) = ⟨.text false, o, r, es ++ [.stop q]⟩ → s.events <+: es := by
    intro h1
    have h2 : s.events ++ [.other] = es ++ [.stop q] := congrArg PState.events h1
    cases (List.append_inj' h2 rfl).2
  have ne : ∀ {m : Mode}, m ≠ .text false → (s.goto m).mode ≠ .text false := fun h => h
  unfold Xml.step at h
  split at h
  · unfold stepText at h
    split_ifs at h <;> exact hm h (by simp [PState.goto, PState.err])
  · unfold stepTextEnt at h
    split_ifs at h <;> exact hm h (by simp [PState.goto, PState.err])
  · unfold stepLt at h
    split_ifs at h <;> exact hm h (by simp [PState.goto, PState.err])
  · simp only [stepBang] at h
    split_ifs at h <;> exact hm h (by simp [PState.goto, PState.err])
  · unfold stepComment at h
    split_ifs at h <;> first | exact hf h | exact hm h (by simp [PState.goto, PState.err])
  · unfold stepCdata at h
    split_ifs at h <;> first | exact hf h | exact hm h (by simp [PState.goto, PState.err])
  · unfold stepPi at h
    split_ifs at h <;> first | exact hf h | exact hm h (by simp [PState.goto, PState.err])
  · unfold stepTagName at h
    split_ifs at h <;> first | exact finishTag_stop _ _ _ _ _ h | exact hm h (by simp [PState.goto, PState.err])
  · unfold stepInTag at h
    split_ifs at h <;> first | exact finishTag_stop _ _ _ _ _ h | exact hm h (by simp [PState.goto, PState.err])
  · unfold stepAttrName at h
    split_ifs at h <;> exact hm h (by simp [PState.goto, PState.err])
  · unfold stepAttrEq at h
    split_ifs at h <;> exact hm h (by simp [PState.goto, PState.err])
  · unfold stepAttrPre at h
    split_ifs at h <;> exact hm h (by simp [PState.goto, PState.err])
  · unfold stepAttrVal at h
    split_ifs at h <;> exact hm h (by simp [PState.goto, PState.err])
  · unfold stepAttrEnt at h
    split_ifs at h
    · split at h <;> exact hm h (by simp [PState.goto, PState.err])
    · exact hm h (by simp [PState.goto])
    · exact hm h (by simp [PState.err])
  · unfold stepAttrDone at h
    split_ifs at h <;> first | exact finishTag_stop _ _ _ _ _ h | exact hm h (by simp [PState.goto, PState.err])
  · split_ifs at h <;> first | exact finishTag_stop _ _ _ _ _ h | exact hm h (by simp [PState.err])
  · unfold stepEndName at h
    split_ifs at h <;> first | exact finishEnd_stop _ _ h | exact hm h (by simp [PState.goto, PState.err])
  · rename_i hx
    split_ifs at h
    · exact hm h (by simp [hx])
    · exact finishEnd_stop _ _ h
    · exact hm h (by simp [PState.err])
  · rename_i hx
    exact hm h (by simp [hx])

/-- Part of a text that ends with the end of a tag. -/
theorem run_part (norm : Xml.Config) (s : PState) {t x : Str} {o r es q}
    (h : Xml.run norm s t = ⟨.text false, o, r, es ++ [.stop q]⟩) (hx : x <+: t) (hne : x ≠ t) : (Xml.run norm s x).events <+: es := by
  obtain ⟨y, rfl⟩ := hx
  obtain ⟨z, c, rfl⟩ : ∃ z c, y = z ++ [c] := by
    rcases List.eq_nil_or_concat y with rfl | ⟨z, c, rfl⟩
    · simp at hne
    · exact ⟨z, c, by simp⟩
  rw [← List.append_assoc, run_append, run_append] at h
  exact (run_events norm z (Xml.run norm s x)).trans (step_stop norm _ c h)

/-! ## A document is not complete before its last character -/

theorem finishTag_rooted (norm : Xml.Config) (s : PState) (n : Str) (as : List (Str × Str)) (e : Bool) :
    (finishTag norm s n as e).rooted = s.rooted ∨ ∃ m bs, .start m bs ∈ (finishTag norm s n as e).events := by
  simp only [finishTag]
  split
  · rename_i m bs _ _
    split
    · exact .inl rfl
    · exact .inr ⟨m, bs, by cases e <;> simp⟩
  · exact .inl rfl

theorem finishEnd_rooted (s : PState) (n : Str) : (finishEnd s n).rooted = s.rooted := by
  unfold finishEnd
  split
  · rfl
  · split
    · split <;> rfl
    · rfl

theorem flush_rooted (s : PState) (p : Bool) : (flush s p).rooted = s.rooted := by cases p <;> rfl

theorem step_rooted (norm : Xml.Config) (s : PState) (c : Char) :
    (Xml.step norm s c).rooted = s.rooted ∨ ∃ m bs, .start m bs ∈ (Xml.step norm s c).events := by
  unfold Xml.step
  split
  · unfold stepText
    split_ifs <;> first | exact .inl (flush_rooted s _) | exact .inl rfl
  · unfold stepTextEnt
    split_ifs <;> exact .inl rfl
  · unfold stepLt
    split_ifs <;> exact .inl rfl
  · simp only [stepBang]
    split_ifs <;> exact .inl rfl
  · unfold stepComment
    split_ifs <;> first | exact .inl (flush_rooted s _) | exact .inl rfl
  · unfold stepCdata
    split_ifs <;> first | exact .inl (flush_rooted s _) | exact .inl rfl
  · unfold stepPi
    split_ifs <;> first | exact .inl (flush_rooted s _) | exact .inl rfl
  · unfold stepTagName
    split_ifs <;> first | exact finishTag_rooted norm s _ _ _ | exact .inl rfl
  · unfold stepInTag
    split_ifs <;> first | exact finishTag_rooted norm s _ _ _ | exact .inl rfl
  · unfold stepAttrName
    split_ifs <;> exact .inl rfl
  · unfold stepAttrEq
    split_ifs <;> exact .inl rfl
  · unfold stepAttrPre
    split_ifs <;> exact .inl rfl
  · unfold stepAttrVal
    split_ifs <;> exact .inl rfl
  · unfold stepAttrEnt
    split_ifs
    · split <;> exact .inl rfl
    · exact .inl rfl
    · exact .inl rfl
  · unfold stepAttrDone
    split_ifs <;> first | exact finishTag_rooted norm s _ _ _ | exact .inl rfl
  · split_ifs <;> first | exact finishTag_rooted norm s _ _ _ | exact .inl rfl
  · unfold stepEndName
    split_ifs <;> first | exact .inl (finishEnd_rooted s _) | exact .inl rfl
  · split_ifs <;> first | exact .inl (finishEnd_rooted s _) | exact .inl rfl
  · exact .inl rfl

theorem run_rooted (norm : Xml.Config) (t : Str) (s : PState) (h : s.rooted = true → ∃ m bs, .start m bs ∈ s.events) :
    (Xml.run norm s t).rooted = true → ∃ m bs, .start m bs ∈ (Xml.run norm s t).events := by
  induction t generalizing s with
  | nil => exact h
  | cons c t ih =>
    refine ih (Xml.step norm s c) fun hr => ?_
    rcases step_rooted norm s c with h1 | h1
    · obtain ⟨m, bs, hm⟩ := h (h1 ▸ hr)
      exact ⟨m, bs, (step_events norm s c).subset hm⟩
    · exact h1

/-- What the two kinds of written documents have in common. -/
structure Torn (norm : Xml.Config) (head tail : Str) (o : Str × List Str) (op : List (Str × List Str)) (H T : List XmlEvent) (root : Name) :
    Prop where
  headRun : Xml.run norm initial head = ⟨.text false, o :: op, true, H⟩
  headQuiet : ∀ e ∈ H, isQuiet e = true
  tailRun : ∀ evs, Xml.run norm ⟨.text false, o :: op, true, evs⟩ tail = ⟨.text false, [], true, evs ++ T ++ [.stop root]⟩
  tailEnds : ends T = 0
  first : ∃ as post, H = .other :: .other :: .start root as :: post
  rootHead : .stop root ∉ H
  rootTail : .stop root ∉ T
  rootName : root.loc = str% "osm" ∨ root.loc = str% "osmChange"

/-- The events of some objects. -/
def objsEvents (l : List (ObjData × UInt32)) : List XmlEvent := l.flatMap fun x => .other :: objEvents x.1 x.2

theorem root_objEvents {root : Name} (h : root.loc = str% "osm" ∨ root.loc = str% "osmChange") (d : ObjData) (v : UInt32) :
    .stop root ∉ objEvents d v := by
  have hk : ∀ k : OSMObjectType, root ≠ ⟨none, k.nameLong⟩ := by
    intro k e
    rw [e] at h
    rcases h with h | h <;> cases k <;> exact absurd h (by decide)
  have h1 : root ≠ ⟨none, str% "nd"⟩ := by rintro rfl; revert h; decide
  have h2 : root ≠ ⟨none, str% "member"⟩ := by rintro rfl; revert h; decide
  have h3 : root ≠ ⟨none, str% "tag"⟩ := by rintro rfl; revert h; decide
  unfold objEvents kidsEvents childEvents
  split
  · simp [hk]
  · simp [hk, h1, h2, h3]

theorem root_objsEvents {root : Name} (h : root.loc = str% "osm" ∨ root.loc = str% "osmChange") (l : List (ObjData × UInt32)) :
    .stop root ∉ objsEvents l := by
  simp only [objsEvents, List.mem_flatMap, List.mem_cons, reduceCtorEq, false_or, not_exists, not_and]
  exact fun x _ => root_objEvents h x.1 x.2

section
variable {norm : Xml.Config} {head tail : Str} {o : Str × List Str} {op : List (Str × List Str)} {H T : List XmlEvent} {root : Name}

theorem torn_incomplete (hn : IsNorm norm) (hT : Torn norm head tail o op H T root) {l : List (ObjData × UInt32)}
    (hl : ∀ x ∈ l, DataOk x.1) {t : Str} (ht : t <+: head ++ (l.flatMap fun x => objText x.1 x.2) ++ tail)
    (hne : t ≠ head ++ (l.flatMap fun x => objText x.1 x.2) ++ tail) : complete (Xml.run norm initial t) = false := by
  have hrun : Xml.run norm initial (head ++ (l.flatMap fun x => objText x.1 x.2) ++ tail) =
      ⟨.text false, [], true, (H ++ objsEvents (normed norm l) ++ T) ++ [.stop root]⟩ := by
    rw [run_append, run_append, hT.headRun, run_objs hn l hl, hT.tailRun]
    rfl
  have hpart := run_part norm initial hrun ht hne
  by_contra hc
  rw [Bool.not_eq_false] at hc
  have hg : Good (Xml.run norm initial t) := good_foldl norm t (show Shape [] [] from Shape.root .nil)
  have hroot := run_rooted norm t initial (by simp [initial])
  generalize Xml.run norm initial t = s at *
  unfold complete at hc
  split at hc
  · rw [Bool.and_eq_true, List.isEmpty_iff] at hc
    obtain ⟨m, bs, hm⟩ := hroot hc.2
    unfold Good at hg
    rw [hc.1] at hg
    obtain ⟨as, post, hH⟩ := hT.first
    obtain ⟨rest, hrest⟩ : ∃ rest, s.events = .other :: .other :: .start root as :: rest := by
      obtain ⟨more, hmore⟩ := hpart
      rw [hH] at hmore
      generalize s.events = ev at *
      rcases ev with _ | ⟨a, _ | ⟨b, _ | ⟨c, ev⟩⟩⟩
      · cases hm
      · simp only [List.cons_append, List.nil_append, List.cons.injEq] at hmore
        rw [hmore.1] at hm
        simp at hm
      · simp only [List.cons_append, List.nil_append, List.cons.injEq] at hmore
        rw [hmore.1, hmore.2.1] at hm
        simp at hm
      · simp only [List.cons_append, List.cons.injEq] at hmore
        exact ⟨ev, by rw [hmore.1, hmore.2.1, hmore.2.2.1]⟩
    have hst : .stop root ∈ rest := by
      generalize s.events = ev at *
      cases hg with
      | root g => exact forest_closes g [.other, .other] root as rest hrest
    have hin := hpart.subset (show .stop root ∈ s.events by rw [hrest]; simp [hst])
    rw [List.mem_append, List.mem_append] at hin
    rcases hin with (h | h) | h
    · exact hT.rootHead h
    · exact root_objsEvents hT.rootName _ h
    · exact hT.rootTail h
  · cases hc

end

/-! ## How much is there -/

/-- Part of a sequence of pieces. -/
theorem pieces (tail : Str) (l : List Str) (x : Str) (hx : x <+: l.flatten ++ tail) (hne : x ≠ l.flatten ++ tail) :
    ∃ j ≤ l.length, (∀ i ≤ l.length, i ≤ j ↔ (l.take i).flatten <+: x) ∧ ∃ y, x = (l.take j).flatten ++ y ∧
      ((∃ p, l[j]? = some p ∧ y <+: p ∧ y ≠ p) ∨ (j = l.length ∧ y <+: tail ∧ y ≠ tail)) := by
  induction l generalizing x with
  | nil => exact ⟨0, Nat.le_refl _, fun i hi => by simpa using hi, x, rfl, .inr ⟨rfl, by simpa using hx, by simpa using hne⟩⟩
  | cons s l ih =>
    rw [List.flatten_cons, List.append_assoc] at hx hne
    by_cases hs : s <+: x
    · obtain ⟨x', rfl⟩ := hs
      obtain ⟨j, hj, h1, y, h2, h3⟩ := ih x' ((List.prefix_append_right_inj s).1 hx) (fun h => hne (by rw [h]))
      refine ⟨j + 1, by simpa using hj, fun i hi => ?_, y, ?_, ?_⟩
      · cases i with
        | zero => simp
        | succ i =>
          rw [List.take_succ_cons, List.flatten_cons, List.prefix_append_right_inj]
          rw [← h1 i (by simpa using hi)]
          omega
      · rw [List.take_succ_cons, List.flatten_cons, List.append_assoc, ← h2]
      · simpa using h3
    · have hxs : x <+: s := by
        rcases List.prefix_or_prefix_of_prefix hx (List.prefix_append s _) with h | h
        · exact h
        · exact absurd h hs
      refine ⟨0, Nat.zero_le _, fun i hi => ?_, x, rfl, .inl ⟨s, rfl, hxs, fun h => hs (by rw [h])⟩⟩
      cases i with
      | zero => simp
      | succ i =>
        rw [List.take_succ_cons, List.flatten_cons]
        refine ⟨fun h => by omega, fun h => absurd ((List.prefix_append s _).trans h) hs⟩

theorem objEvents_last (d : ObjData) (v : UInt32) : ∃ es q, objEvents d v = es ++ [.stop q] ∧ ends es = 0 := by
  have hq : ∀ e ∈ (objKids d).events, isQuiet e = true := quiet_of_objects (objKids_quiet d)
  have hz : ends (objKids d).events = 0 := ends_zero.2 fun e he => by
    have := hq e he
    simp only [isQuiet, Bool.not_eq_true', Bool.or_eq_false_iff] at this
    exact this.2
  rw [objEvents_eq]
  refine ⟨.start ⟨none, d.view.kind.nameLong⟩ ((objAttrs d v).map attrOf) :: (objKids d).events, ⟨none, d.view.kind.nameLong⟩, ?_, ?_⟩
  · simp [elemEvents]
  · exact (ends_append [_] _).trans (by rw [hz]; rfl)

/-- Reading past events that do not matter. -/
theorem drain_quiet (H : List XmlEvent) (hH : ∀ e ∈ H, isQuiet e = true) {X q : List (Option XmlEvent)} {rs : List StringOSMObj}
    {e : Option Panic} (h : Drain XMLReader.next X rs e q) : Drain XMLReader.next (H.map some ++ X) rs e q := by
  cases h with
  | done h => exact .done (by rw [next_quiet H hH]; exact h)
  | panic h => exact .panic (by rw [next_quiet H hH]; exact h)
  | more h h2 => exact .more (by rw [next_quiet H hH]; exact h) h2

theorem drain_no_end {r : List XmlEvent} (h : ends r = 0) : Drain XMLReader.next (r.map some ++ [none]) [] (some .unwrap) [] := by
  rcases next_fails r with ⟨_, h2⟩ | ⟨_, _, h2, _⟩
  · exact .panic (h2 [])
  · omega

theorem ends_prefix {a b : List XmlEvent} (h : a <+: b) (hb : ends b = 0) : ends a = 0 := by
  obtain ⟨c, rfl⟩ := h
  rw [ends_append] at hb
  omega

section
variable {norm : Xml.Config} {head tail : Str} {o : Str × List Str} {op : List (Str × List Str)} {H T : List XmlEvent} {root : Name}
variable {f : Family}

/-- The events that are there. -/
theorem torn_events (hn : IsNorm norm) (hT : Torn norm head tail o op H T root) {l : List (ObjData × UInt32)}
    (hl : ∀ x ∈ l, DataOk x.1) {t : Str} (ht : t <+: head ++ (l.flatMap fun x => objText x.1 x.2) ++ tail)
    (hne : t ≠ head ++ (l.flatMap fun x => objText x.1 x.2) ++ tail) :
    ∃ j ≤ l.length, (∀ i, 0 < i → i ≤ l.length → (i ≤ j ↔ head ++ ((l.take i).flatMap fun x => objText x.1 x.2) <+: t)) ∧
      ((j = 0 ∧ ends (Xml.run norm initial t).events = 0) ∨
       ∃ r, (Xml.run norm initial t).events = H ++ objsEvents (normed norm (l.take j)) ++ r ∧ ends r = 0) := by
  have hH : ends H = 0 := ends_zero.2 fun e he => by
    have := hT.headQuiet e he
    simp only [isQuiet, Bool.not_eq_true', Bool.or_eq_false_iff] at this
    exact this.2
  by_cases hh : head <+: t
  · obtain ⟨x, rfl⟩ := hh
    rw [List.append_assoc] at ht hne
    have hx := (List.prefix_append_right_inj head).1 ht
    have hxne : x ≠ (l.flatMap fun x => objText x.1 x.2) ++ tail := fun h => hne (by rw [h])
    rw [List.flatMap_def] at hx hxne
    obtain ⟨j, hj, h1, y, h2, h3⟩ := pieces tail _ x hx hxne
    rw [List.length_map] at hj h1
    have htk : ∀ i, ((l.map fun x => objText x.1 x.2).take i).flatten = (l.take i).flatMap fun x => objText x.1 x.2 := by
      intro i; rw [← List.map_take, List.flatMap_def]
    refine ⟨j, hj, fun i _ hi => ?_, .inr ?_⟩
    · rw [h1 i hi, htk, List.prefix_append_right_inj]
    · have hrun : Xml.run norm initial (head ++ x) =
          Xml.run norm ⟨.text false, o :: op, true, H ++ objsEvents (normed norm (l.take j))⟩ y := by
        rw [h2, htk, run_append, run_append, hT.headRun, run_objs hn _ fun x hx => hl x (List.mem_of_mem_take hx)]
        rfl
      rw [hrun]
      rcases h3 with ⟨p, hp, hy, hyne⟩ | ⟨_, hy, hyne⟩
      · rw [List.getElem?_map, Option.map_eq_some_iff] at hp
        obtain ⟨z, hz, rfl⟩ := hp
        have hzl : z ∈ l := List.mem_of_getElem? hz
        obtain ⟨es, q, he, hes⟩ := objEvents_last (mapTexts norm z.1) z.2
        have hfull := run_obj hn (hl z hzl) z.2 false o op (H ++ objsEvents (normed norm (l.take j)))
        rw [he] at hfull
        have hpart := run_part norm _ (es := H ++ objsEvents (normed norm (l.take j)) ++ .other :: es) (q := q) (o := o :: op) (r := true)
          (by rw [hfull]; simp) hy hyne
        obtain ⟨r, hr⟩ := run_events norm y ⟨.text false, o :: op, true, H ++ objsEvents (normed norm (l.take j))⟩
        rw [← hr] at hpart ⊢
        refine ⟨r, rfl, ends_prefix ((List.prefix_append_right_inj _).1 hpart) ?_⟩
        exact (ends_append [.other] es).trans (by rw [hes]; rfl)
      · have hpart := run_part norm _ (hT.tailRun (H ++ objsEvents (normed norm (l.take j)))) hy hyne
        obtain ⟨r, hr⟩ := run_events norm y ⟨.text false, o :: op, true, H ++ objsEvents (normed norm (l.take j))⟩
        rw [← hr] at hpart ⊢
        exact ⟨r, rfl, ends_prefix ((List.prefix_append_right_inj _).1 hpart) hT.tailEnds⟩
  · refine ⟨0, Nat.zero_le _, fun i hi _ => ⟨fun h => by omega, fun h => absurd ((List.prefix_append _ _).trans h) hh⟩, .inl ⟨rfl, ?_⟩⟩
    have hth : t <+: head := by
      rcases List.prefix_or_prefix_of_prefix ht ((List.prefix_append head _).trans (List.prefix_append _ tail)) with h | h
      · exact h
      · exact absurd h hh
    obtain ⟨z, rfl⟩ := hth
    have := run_events norm z (Xml.run norm initial t)
    rw [← run_append, hT.headRun] at this
    exact ends_prefix this hH

/-- What is read of it. -/
theorem torn_drain (hn : IsNorm norm) (hT : Torn norm head tail o op H T root) (os : List f.Obj) (hp : ∀ o ∈ os, Parsable o)
    {a : List UInt8} (ha : a <+: Utf8.encode (head ++ os.flatMap textOf ++ tail))
    (hne : a ≠ Utf8.encode (head ++ os.flatMap textOf ++ tail)) :
    ∃ j ≤ os.length, (∀ i, 0 < i → i ≤ os.length → (i ≤ j ↔ Utf8.encode (head ++ (os.take i).flatMap textOf) <+: a)) ∧
      ∃ rs : List StringOSMObj, Drain XMLReader.next (XMLReader.new norm a) rs (some .unwrap) [] ∧
        rs.map objData = (os.take j).map fun o => readBack (mapTexts norm (objData o)) := by
  have hv : ∀ o ∈ os, version o ≠ none := fun o ho => (hp o ho).1
  have ht : (Utf8.decodePrefix a).1 <+: head ++ os.flatMap textOf ++ tail := by
    obtain ⟨b, hb⟩ := ha
    have := Utf8.decodePrefix_append a b
    rwa [hb, Utf8.decodePrefix_encode] at this
  have htne : (Utf8.decodePrefix a).1 ≠ head ++ os.flatMap textOf ++ tail := by
    intro h
    have := Utf8.encode_decodePrefix a
    rw [h] at this
    exact hne (ha.eq_of_length (Nat.le_antisymm ha.length_le this.length_le))
  rw [flatMap_text os hv] at ht htne
  have hok := withVersions_ok hp
  obtain ⟨j, hj, h1, h2⟩ := torn_events hn hT hok ht htne
  have hinc := torn_incomplete hn hT hok ht htne
  have hlen : (withVersions os).length = os.length := by simp [withVersions]
  have htk : ∀ i, (withVersions os).take i = withVersions (os.take i) := fun i => by simp [withVersions, List.map_take]
  have hnew : XMLReader.new norm a = (Xml.run norm initial (Utf8.decodePrefix a).1).events.map some ++ [none] := by
    unfold XMLReader.new eventsOfBytes events
    unfold Xml.run at hinc
    simp only [hinc, Bool.false_and]
    rfl
  rw [hlen] at hj h1
  refine ⟨j, hj, fun i hi hil => ?_, ?_⟩
  · rw [h1 i hi hil, Utf8.encode_prefix_iff, htk, flatMap_text _ fun o ho => hv o (List.mem_of_mem_take ho)]
  · rw [hnew]
    rcases h2 with ⟨rfl, h0⟩ | ⟨r, hr, h0⟩
    · exact ⟨[], drain_no_end h0, rfl⟩
    · rw [hr, List.map_append, List.map_append, List.append_assoc, List.append_assoc]
      have hreads : (objsForest (normed norm ((withVersions os).take j)) .nil).objects.map readElem =
          ((os.take j).map fun o => readBack (mapTexts norm (objData o))).map some := by
        rw [objsForest_objects, htk]
        simp only [Forest.objects, List.append_nil, List.map_map]
        exact readElem_written norm fun o ho => hp o (List.mem_of_mem_take ho)
      obtain ⟨rs, hd, hrs⟩ := drain_written _ (objsForest_flat _ .nil trivial) (objsForest_distinct _ .nil trivial) hreads
        (r.map some ++ [none]) (some .unwrap) (drain_no_end h0)
      rw [objsForest_events] at hd
      refine ⟨rs, drain_quiet H hT.headQuiet ?_, hrs⟩
      simpa [Forest.events, objsEvents] using hd

end

end Osmio
