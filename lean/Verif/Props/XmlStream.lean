import Verif.Proofs.XmlStream
import Verif.Props.XmlCut
import Verif.Props.AnySource
/-!
# C81 and C89: the XML and change readers over a stream

The readers pull bytes through a `BufReader` from any implementation of `Read`. The results depend only on the bytes (C81). They come as soon as
the text that settles them has come, and the source is read at most a buffer further (C89); what is in the buffer is lost when the stream is taken back.
-/

namespace Osmio
open Spec Xml OSMObjBase Lex

/-- The `BufReader` of the readers: its buffer is never full. -/
def Near {S : Type} (R : S → Source → Prop) (b : Buffered S) (src : Source) : Prop := BufferedDelivers R b src ∧ b.pending.length < bufSize

theorem near_delivers {rd : AnyReader} {R : rd.S → Source → Prop} (h : Delivers rd R) : Delivers (rd.buffered bufSize) (Near R) := by
  rintro b src ⟨hb, hp⟩ n hn
  have h1 := AnyReader.buffered_delivers h bufSize b src hb n hn
  have h2 : ((rd.buffered bufSize).read b n).2.pending.length < bufSize := by
    show (bufRead rd bufSize b n).2.pending.length < bufSize
    unfold bufRead
    split
    · split
      · simp [bufSize]
      · split
        · rename_i bs s e
          have := rd.short b.inner bufSize bs (by rw [e])
          simp only [List.length_drop, bufSize] at this ⊢
          omega
        · simp [bufSize]
        · simp [bufSize]
    · simp only [List.length_drop]
      omega
  rcases hd : (rd.buffered bufSize).read b n with ⟨(_ | ⟨c, cs⟩) | _ | _, s'⟩
  all_goals
    rw [hd] at h1 h2
  · exact ⟨h1.1, h1.2, h2⟩
  · obtain ⟨rest, e, h3⟩ := h1; exact ⟨rest, e, h3, h2⟩
  · exact ⟨h1, h2⟩
  · obtain ⟨rest, e, h3⟩ := h1; exact ⟨rest, e, h3, h2⟩

theorem near_new {S : Type} {R : S → Source → Prop} {s : S} {src : Source} (h : R s src) : Near R ⟨s, []⟩ src :=
  ⟨⟨src, rfl, h⟩, by simp [bufSize]⟩

theorem rounds_enough {norm : Xml.Config} {src : Source} {rounds : Nat} (h : 2 * src.length + 1 < rounds) :
    src.length < rounds ∧ (XMLReader.over norm src).length < rounds := by
  have := over_length norm src
  omega

/-- **C81** for the XML reader: the results are those of the bytes and errors of the source, however it hands them out. -/
theorem C81_xml {rd : AnyReader} {R : rd.S → Source → Prop} (h : Delivers rd R) {s : rd.S} {src : Source} (hr : R s src) (norm : Xml.Config)
    {rounds : Nat} (hl : 2 * src.length + 1 < rounds) (k : Nat) :
    (calls (XMLReader.Over.next rd norm rounds) k (XMLReader.Over.new s)).1 = (calls XMLReader.next k (XMLReader.over norm src)).1 :=
  (xml_calls_agree (near_delivers h) (near_new hr) (rounds_enough (norm := norm) hl).1 (rounds_enough hl).2 k).1

/-- The change reader. -/
theorem C81_osc {rd : AnyReader} {R : rd.S → Source → Prop} (h : Delivers rd R) {s : rd.S} {src : Source} (hr : R s src) (norm : Xml.Config)
    {rounds : Nat} (hl : 2 * src.length + 1 < rounds) (k : Nat) :
    (calls (OSCReader.Over.next rd norm rounds) k (OSCReader.Over.new s)).1 = (calls OSCReader.next k (OSCReader.over norm src)).1 := by
  rw [osc_next_over, osc_next_eq]
  exact C81_xml h hr norm hl k

/-- Two sources with the same bytes, however they give them: the same results from both readers. -/
theorem C81_xml_same {rd1 rd2 : AnyReader} {R1 : rd1.S → Source → Prop} {R2 : rd2.S → Source → Prop} (h1 : Delivers rd1 R1) (h2 : Delivers rd2 R2)
    {s1 : rd1.S} {s2 : rd2.S} {src : Source} (hr1 : R1 s1 src) (hr2 : R2 s2 src) (norm : Xml.Config) {n1 n2 : Nat}
    (l1 : 2 * src.length + 1 < n1) (l2 : 2 * src.length + 1 < n2) (k : Nat) :
    (calls (XMLReader.Over.next rd1 norm n1) k (XMLReader.Over.new s1)).1 = (calls (XMLReader.Over.next rd2 norm n2) k (XMLReader.Over.new s2)).1 ∧
    (calls (OSCReader.Over.next rd1 norm n1) k (OSCReader.Over.new s1)).1 = (calls (OSCReader.Over.next rd2 norm n2) k (OSCReader.Over.new s2)).1 :=
  ⟨(C81_xml h1 hr1 norm l1 k).trans (C81_xml h2 hr2 norm l2 k).symm, (C81_osc h1 hr1 norm l1 k).trans (C81_osc h2 hr2 norm l2 k).symm⟩

/-- Bytes in portions, with interruptions and errors between them. -/
theorem C81_xml_portions (ps : List Portion) (norm : Xml.Config) {rounds : Nat} (hl : 2 * (contents ps).length + 1 < rounds) (k : Nat) :
    (calls (XMLReader.Over.next portions norm rounds) k (XMLReader.Over.new ps)).1 = (calls XMLReader.next k (XMLReader.over norm (contents ps))).1 ∧
    (calls (OSCReader.Over.next portions norm rounds) k (OSCReader.Over.new ps)).1 = (calls OSCReader.next k (OSCReader.over norm (contents ps))).1 :=
  ⟨C81_xml portions_delivers rfl norm hl k, C81_osc portions_delivers rfl norm hl k⟩

/-- **C89**: after `k` calls the source has been read to the end of the text that settles their results, and at most a buffer further. `after` is what comes after that
text, whatever it is; `ahead` is the part of it that has been read already. -/
theorem C89_streams {rd : AnyReader} {R : rd.S → Source → Prop} (h : Delivers rd R) {norm : Xml.Config} {k : Nat} {a : List UInt8}
    (hj : JustSettles norm k a) {after : Source} {s : rd.S} (hr : R s (a.map some ++ after)) {rounds : Nat}
    (hl : 2 * (a.length + after.length) + 1 < rounds) :
    ∃ (ahead : List UInt8) (rest : Source), ahead.length < 8192 ∧ after = ahead.map some ++ rest ∧
      R (XMLReader.Over.intoInner (calls (XMLReader.Over.next rd norm rounds) k (XMLReader.Over.new s)).2) rest := by
  have hl' : 2 * (a.map some ++ after).length + 1 < rounds := by simpa using hl
  have hp := (xml_calls_agree (near_delivers h) (near_new hr) (rounds_enough (norm := norm) hl').1 (rounds_enough (norm := norm) hl').2 k).2
  obtain ⟨⟨rest, e1, e2⟩, e3⟩ := pulls_settled hj hp
  exact ⟨_, rest, e3, e1, e2⟩

/-- The change reader. -/
theorem C89_streams_osc {rd : AnyReader} {R : rd.S → Source → Prop} (h : Delivers rd R) {norm : Xml.Config} {k : Nat} {a : List UInt8}
    (hj : JustSettles norm k a) {after : Source} {s : rd.S} (hr : R s (a.map some ++ after)) {rounds : Nat}
    (hl : 2 * (a.length + after.length) + 1 < rounds) :
    ∃ (ahead : List UInt8) (rest : Source), ahead.length < 8192 ∧ after = ahead.map some ++ rest ∧
      R (OSCReader.Over.intoInner (calls (OSCReader.Over.next rd norm rounds) k (OSCReader.Over.new s)).2) rest := by
  rw [osc_next_over]
  exact C89_streams h hj hr hl

/-- Before the first call nothing has been read. -/
theorem C89_untouched {S : Type} (s : S) : XMLReader.Over.intoInner (XMLReader.Over.new s) = s ∧ OSCReader.Over.intoInner (OSCReader.Over.new s) = s :=
  ⟨rfl, rfl⟩

/-- A text that settles results begins with one that just settles them. -/
theorem C89_just {norm : Xml.Config} {k : Nat} {a : List UInt8} (h : Settles norm k a) : ∃ a', a' <+: a ∧ JustSettles norm k a' := by
  induction hn : a.length using Nat.strongRecOn generalizing a with
  | ind n ih =>
    by_cases hx : ∃ a', a' <+: a ∧ a' ≠ a ∧ Settles norm k a'
    · obtain ⟨a', h1, h2, h3⟩ := hx
      have hlt : a'.length < n := by
        rw [← hn]
        refine Nat.lt_of_le_of_ne h1.length_le fun e => h2 (h1.eq_of_length e)
      obtain ⟨a'', j1, j2⟩ := ih _ hlt h3 rfl
      exact ⟨a'', j1.trans h1, j2⟩
    · exact ⟨a, List.prefix_rfl, h, fun a' h1 h2 h3 => hx ⟨a', h1, h2, h3⟩⟩

/-- Only one does. -/
theorem C89_unique {norm : Xml.Config} {k : Nat} {a b : List UInt8} (ha : JustSettles norm k a) (hb : JustSettles norm k b)
    (hp : a <+: b ∨ b <+: a) : a = b := by
  by_contra hne
  rcases hp with hp | hp
  · exact hb.2 a hp hne ha.1
  · exact ha.2 b hp (fun h => hne h.symm) hb.1

/-- Which texts settle results: if `a` is a document but for end tags of elements that hold objects, it settles as many results as it has objects,
and no more. -/
theorem C89_objects {norm : Xml.Config} (hn : IsNorm norm) {a : Str} {open_ : List Str} (ho : ∀ x ∈ open_, x ∈ holders)
    {ts : List Tok} {doc : Forest} (h : Document (a ++ open_.flatMap endTag) ts doc) (hf : doc.Flat) (k : Nat) :
    Settles norm k (Utf8.encode a) ↔ k ≤ doc.objects.length := by
  rw [settles_iff, ends_document hn ho h hf]

/-- Why the text has to be complete: without its last byte the next result would depend on what follows. -/
theorem C89_needed {norm : Xml.Config} {k : Nat} {a a' : List UInt8} (hj : JustSettles norm k a) (hp : a' <+: a) (hne : a' ≠ a) :
    ∃ r ∈ (calls XMLReader.next k (XMLReader.over norm (a'.map some ++ [none]))).1, r = .error .unwrap := by
  have hlt : ¬ k ≤ ends (eventsIn norm a') := fun hk => hj.2 a' hp hne ((settles_iff norm k a').2 hk)
  have h2 := (calls_fails (eventsIn norm a') []).2 (k - (ends (eventsIn norm a') + 1))
  rw [show ends (eventsIn norm a') + 1 + (k - (ends (eventsIn norm a') + 1)) = k by omega] at h2
  rw [over_failing, h2]
  exact ⟨_, by simp, rfl⟩

/-- `inner` shows nothing: it always panics. -/
theorem C75_xml_inner_fails {S : Type} (r : EventsOver S) :
    XMLReader.Over.inner r = .error .unimplemented ∧ OSCReader.Over.inner r = .error .unimplemented := ⟨rfl, rfl⟩

/-! ## Taking the stream back -/

/-- A source that has everything in one portion, below the `BufReader`: not touched, or all of it in the buffer. -/
def OnePortion (b : UInt8) (bs : List UInt8) (st : Buffered (List Portion)) (src : Source) : Prop :=
  (st = ⟨[.bytes b bs], []⟩ ∧ src = (b :: bs).map some) ∨ (st.inner = [] ∧ src = st.pending.map some ∧ st.pending.length ≤ bs.length)

theorem one_delivers {b : UInt8} {bs : List UInt8} (hb : bs.length < bufSize) : Delivers (portions.buffered bufSize) (OnePortion b bs) := by
  rintro st src hr n hn
  show GaveNext (OnePortion b bs) (bufRead portions bufSize st n) src
  unfold bufRead
  rcases hr with ⟨rfl, rfl⟩ | ⟨h1, rfl, h3⟩
  · have hread : ∀ m, bufSize ≤ m → portions.read [Portion.bytes b bs] m = (.ok (b :: bs), []) := by
      intro m hm
      show readPortion [Portion.bytes b bs] m = _
      simp only [readPortion]
      rw [List.drop_eq_nil_of_le (by simp only [List.length_cons]; omega)]
    simp only [if_true]
    split
    · rename_i hc
      rw [hread n hc]
      exact ⟨[], by simp, .inr ⟨rfl, rfl, by simp⟩⟩
    · rw [hread bufSize (Nat.le_refl _)]
      obtain ⟨m, rfl⟩ : ∃ m, n = m + 1 := ⟨n - 1, by omega⟩
      refine ⟨(bs.drop m).map some, ?_, .inr ⟨rfl, rfl, ?_⟩⟩
      · rw [← List.map_append, List.cons_append, List.take_append_drop]
      · simp only [List.drop_succ_cons, List.length_drop]; omega
  · obtain ⟨inner, pending⟩ := st
    dsimp only at h1 h3
    subst h1
    have hread : ∀ m, portions.read [] m = (.ok [], []) := fun _ => rfl
    dsimp only
    split
    · rename_i hp
      subst hp
      split
      · rw [hread]; exact ⟨rfl, .inr ⟨rfl, rfl, by simp⟩⟩
      · rw [hread]
        simp only [List.take_nil, List.drop_nil]
        exact ⟨rfl, .inr ⟨rfl, rfl, by simp⟩⟩
    · rename_i hp
      obtain ⟨c, cs, rfl⟩ := List.exists_cons_of_ne_nil hp
      obtain ⟨m, rfl⟩ : ∃ m, n = m + 1 := ⟨n - 1, by omega⟩
      refine ⟨(cs.drop m).map some, ?_, .inr ⟨rfl, rfl, ?_⟩⟩
      · rw [← List.map_append, List.cons_append, List.take_append_drop]
      · simp only [List.drop_succ_cons, List.length_drop, List.length_cons] at h3 ⊢; omega

/-- The stream cannot be taken back as it can from the PBF readers (C75): from a source of up to 8 KiB that gives what it is asked for, such as a file or a slice, everything
is gone after the first result, whatever comes after the text that was needed. -/
theorem C75_xml_back_fails {norm : Xml.Config} {k : Nat} {a : List UInt8} (hk : 0 < k) (hj : JustSettles norm k a) (after : List UInt8)
    (hs : a.length + after.length ≤ 8192) {b : UInt8} {bs : List UInt8} (he : a ++ after = b :: bs) {rounds : Nat}
    (hl : 2 * (a.length + after.length) + 1 < rounds) :
    XMLReader.Over.intoInner (calls (XMLReader.Over.next portions norm rounds) k (XMLReader.Over.new [.bytes b bs])).2 = [] := by
  have hlen := congrArg List.length he
  simp only [List.length_append, List.length_cons] at hlen
  have hsrc : a.map some ++ after.map some = (b :: bs).map some := by rw [← he, List.map_append]
  have hd := one_delivers (b := b) (bs := bs) (by unfold bufSize; omega)
  have hl' : 2 * (a.map some ++ after.map some).length + 1 < rounds := by simpa using hl
  have hp := (xml_calls_agree hd (s := [.bytes b bs]) (all := a.map some ++ after.map some) (.inl ⟨rfl, hsrc⟩)
    (rounds_enough (norm := norm) hl').1 (rounds_enough (norm := norm) hl').2 k).2
  rcases pulls_settled hj hp with ⟨h1, h2⟩ | ⟨h1, _, _⟩
  · exfalso
    have ha : a = [] := by
      have := congrArg List.length (hsrc.trans h2.symm)
      simp only [List.length_append, List.length_map] at this
      exact List.eq_nil_of_length_eq_zero (by omega)
    subst ha
    have := (settles_iff norm k []).1 hj.1
    have h0 : ends (eventsIn norm []) = 0 := rfl
    omega
  · exact h1


/-! The hypotheses are met: an open document with one node. Its text up to the end of the node's tag just settles the first result, a node; in one portion with what follows, all that follows
is gone. -/

namespace XmlStreamEx

def text : List UInt8 := Utf8.encode (str% "<osm><node id=\"1\" lat=\"0\" lon=\"0\"/>")

theorem just : JustSettles Config.keep 1 text := by
  refine ⟨(settles_iff _ _ _).2 (by decide +kernel), fun a' hp hne h => ?_⟩
  have h1 := (settles_iff _ _ _).1 h
  obtain ⟨x, hx⟩ : a' <+: text.dropLast := by
    refine prefix_snoc (b := 62) ?_ ?_
    · rw [show text.dropLast ++ [62] = text by decide +kernel]; exact hp
    · rw [show text.dropLast ++ [62] = text by decide +kernel]; exact hne
  have h2 : ends (eventsIn Config.keep text.dropLast) = 0 := by decide +kernel
  obtain ⟨y, hy⟩ := Utf8.decodePrefix_append a' x
  obtain ⟨z, hz⟩ := run_events Config.keep y (Xml.run Config.keep initial (Utf8.decodePrefix a').1)
  rw [hx] at hy
  rw [← run_append, hy] at hz
  have : eventsIn Config.keep a' ++ z = eventsIn Config.keep text.dropLast := hz
  rw [← this, ends_append] at h2
  omega

example : ((calls XMLReader.next 1 (XMLReader.over Config.keep (text.map some ++ [none]))).1.map fun r =>
    match r with | .ok (some o) => some (OSMObjBase.id o) | _ => none) = [some 1] := by decide +kernel

example (after : List UInt8) (h : after.length ≤ 8000) :
    XMLReader.Over.intoInner (calls (XMLReader.Over.next portions Config.keep 100000) 1 (XMLReader.Over.new [.bytes 60 (text.tail ++ after)])).2 = [] := by
  have ht : text.length ≤ 60 := by decide +kernel
  refine C75_xml_back_fails (by omega) just after (by omega) ?_ (by omega)
  rw [show text = 60 :: text.tail by decide +kernel]
  rfl

/-- The same bytes one by one, each after an interruption. -/
example (after : List UInt8) (h : after.length ≤ 8000) :
    ∃ (ahead : List UInt8) (rest : Source), ahead.length < 8192 ∧ after.map some = ahead.map some ++ rest ∧
      rest = contents (XMLReader.Over.intoInner (calls (XMLReader.Over.next portions Config.keep 100000) 1
        (XMLReader.Over.new (AnySourceEx.drip (text ++ after)))).2) := by
  have ht : text.length ≤ 60 := by decide +kernel
  refine C89_streams (rd := portions) (R := fun s src => src = contents s) portions_delivers just (s := AnySourceEx.drip (text ++ after)) ?_
    (by rw [List.length_map]; omega)
  rw [AnySourceEx.contents_drip, ← List.map_append]
  rfl

end XmlStreamEx
end Osmio
