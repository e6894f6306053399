import Verif.Spec.PbfResume
import Verif.Proofs.PbfShownFile
import Verif.Proofs.PbfMemory
/-! # Proofs: going on after a panic -/

namespace Osmio
open Spec.Pbf
open Spec (ObjData Resumed)

variable {α : Type} {decode : Proto.Blob → List α × Option Panic}

/-! ## The machine -/

theorem resumed_unique {σ Obj : Type} {next : σ → Res (Option Obj) × σ} {s : σ} {gs gs' : List (Option Obj)} (h : Resumed next s gs)
    (h' : Resumed next s gs') : gs = gs' := by
  induction h generalizing gs' with
  | done h =>
    cases h' with
    | done => rfl
    | panic h' => rw [h] at h'; cases h'
    | more h' => rw [h] at h'; cases h'
  | panic h _ ih =>
    cases h' with
    | done h' => rw [h] at h'; cases h'
    | panic h' h'' => rw [h] at h'; cases h'; rw [ih h'']
    | more h' => rw [h] at h'; cases h'
  | more h _ ih =>
    cases h' with
    | done h' => rw [h] at h'; cases h'
    | panic h' => rw [h] at h'; cases h'
    | more h' h'' => rw [h] at h'; cases h'; rw [ih h'']

theorem resumed_map {σ τ : Type} {n1 : σ → Res (Option α) × σ} {n2 : τ → Res (Option α) × τ} {φ : σ → τ}
    (h : ∀ s, n2 (φ s) = ((n1 s).1, φ (n1 s).2)) {s : σ} {gs : List (Option α)} (hd : Resumed n1 s gs) : Resumed n2 (φ s) gs := by
  induction hd with
  | @done s s' h1 => exact .done (s' := φ s') (by rw [h, h1])
  | @panic s s1 p _ h1 _ ih => exact .panic (s1 := φ s1) (p := p) (by rw [h, h1]) ih
  | @more s s1 o _ h1 _ ih => exact .more (s1 := φ s1) (o := o) (by rw [h, h1]) ih

theorem resumed_same {σ Obj : Type} {next : σ → Res (Option Obj) × σ} {s t : σ} (e : next s = next t) {gs : List (Option Obj)}
    (h : Resumed next t gs) : Resumed next s gs := by
  cases h with
  | done h => exact .done (e.trans h)
  | panic h h' => exact .panic (e.trans h) h'
  | more h h' => exact .more (e.trans h) h'

theorem resumed_buffer {src : Source} {gs : List (Option α)} (os : List α) (h : Resumed (gnext decode) ([], src) gs) :
    Resumed (gnext decode) (os, src) (os.map some ++ gs) := by
  induction os with
  | nil => exact h
  | cons o os ih => exact .more (gnext_cons decode o os src) ih

/-- What a decoded blob gives. -/
def outcome (x : List α × Option Panic) : List (Option α) :=
  match x with
  | (os, none) => os.map some
  | (os, some _) => none :: os.map some

theorem resumed_done {src s' : Source} (h : StringPbf.readBlob src = (.ok none, s')) : Resumed (gnext decode) ([], src) [] :=
  .done (s' := ([], s')) (by rw [gnext_nil, getNext_unfold, h])

theorem resumed_panic {src s' : Source} {p : Panic} {gs : List (Option α)} (h : StringPbf.readBlob src = (.error p, s'))
    (h' : Resumed (gnext decode) ([], s') gs) : Resumed (gnext decode) ([], src) (none :: gs) :=
  .panic (p := p) (by rw [gnext_nil, getNext_unfold, h]) h'

theorem resumed_skip {src s' : Source} {gs : List (Option α)} (h : StringPbf.readBlob src = (.ok (some none), s'))
    (h' : Resumed (gnext decode) ([], s') gs) : Resumed (gnext decode) ([], src) gs :=
  resumed_same (t := ([], s')) (by rw [gnext_nil, getNext_unfold, h, gnext_nil decode s']) h'

theorem resumed_blob {src s' : Source} {blob : Proto.Blob} {gs : List (Option α)} (h : StringPbf.readBlob src = (.ok (some (some blob)), s'))
    (h' : Resumed (gnext decode) ([], s') gs) : Resumed (gnext decode) ([], src) (outcome (decode blob) ++ gs) := by
  rcases hd : decode blob with ⟨os, _ | p⟩
  · refine resumed_same (t := (os, s')) ?_ (resumed_buffer os h')
    rw [gnext_nil, getNext_unfold, h]
    simp only [hd]
  · refine .panic (s1 := (os, s')) (p := p) ?_ (resumed_buffer os h')
    rw [gnext_nil, getNext_unfold, h]
    simp only [hd]

/-! ## The pieces -/

theorem goodHeader_unique {h : Proto.Bytes} {n m : Nat} (h1 : GoodHeader h n) (h2 : GoodHeader h m) : n = m := by
  obtain ⟨hd, t, x, a1, a2, a3, a4⟩ := h1
  obtain ⟨hd', t', x', c1, c2, c3, c4⟩ := h2
  have p1 := (C98_blobHeader _ _).2 ⟨a1, by rw [hasBlobHeader, a2, a3]; simp⟩
  have p2 := (C98_blobHeader _ _).2 ⟨c1, by rw [hasBlobHeader, c2, c3]; simp⟩
  rw [p1] at p2
  cases p2
  rw [a3] at c3
  cases c3
  omega

theorem readBlob_cutHeader {n : Nat} {h : Proto.Bytes} (hn : n < 4294967296) (hl : h.length < n) :
    StringPbf.readBlob (source (be32 n ++ h)) = (.error .unwrap, []) := by
  have e1 := readExact_source (be32 n) (source h)
  rw [be32_length, ← source_append] at e1
  rw [StringPbf.readBlob, e1]
  simp only [fromBe_be32 hn, readExact_short hl]

theorem readBlob_header {h more : Proto.Bytes} (hn : h.length < 4294967296) :
    StringPbf.readBlob (source (be32 h.length ++ (h ++ more))) =
      match Proto.BlobHeader.parseFromBytes h with
      | none => (.error .unwrap, source more)
      | some header =>
        if (header.datasize.getD 0).toInt < 0 then (.error .capacity, source more)
        else
          match readExact (header.datasize.getD 0).toInt.toNat (source more) with
          | (none, src) => (.error .unwrap, src)
          | (some blobBytes, src) =>
            match header.type_ with
            | none => (.error .unwrap, src)
            | some t =>
              if t ≠ str% "OSMData" then (.ok (some none), src)
              else
                match Proto.Blob.parseFromBytes blobBytes with
                | none => (.error .unwrap, src)
                | some blob => (.ok (some (some blob)), src) := by
  have e1 := readExact_source (be32 h.length) (source (h ++ more))
  rw [be32_length, ← source_append] at e1
  have e2 := readExact_source h (source more)
  rw [← source_append] at e2
  rw [StringPbf.readBlob, e1]
  simp only [fromBe_be32 hn, e2]
  rfl

theorem readBlob_badHeader {h more : Proto.Bytes} (hn : h.length < 4294967296) (hb : ∀ n, ¬ GoodHeader h n) :
    ∃ p, StringPbf.readBlob (source (be32 h.length ++ (h ++ more))) = (.error p, source more) := by
  rw [readBlob_header hn]
  cases hp : Proto.BlobHeader.parseFromBytes h with
  | none => exact ⟨_, rfl⟩
  | some hd =>
    obtain ⟨t, n, h1, h2⟩ := isInitialized_of_parse hp
    simp only [h2, Option.getD_some]
    by_cases h0 : n.toInt < 0
    · exact ⟨_, by rw [if_pos h0]⟩
    · exact absurd ⟨hd, t, n, ((C98_blobHeader _ _).1 hp).1, h1, h2, by omega⟩ (hb n.toInt.toNat)

theorem readBlob_cutData {h data : Proto.Bytes} {n : Nat} (hn : h.length < 4294967296) (hg : GoodHeader h n) (hl : data.length < n) :
    StringPbf.readBlob (source (be32 h.length ++ (h ++ data))) = (.error .unwrap, []) := by
  obtain ⟨hd, t, x, a1, a2, a3, a4⟩ := hg
  have p1 := (C98_blobHeader _ _).2 ⟨a1, by rw [hasBlobHeader, a2, a3]; simp⟩
  rw [readBlob_header hn, p1]
  simp only [a3, Option.getD_some]
  rw [if_neg (by omega), readExact_short (by omega)]

/-! ## Any bytes, if blobs give what `decode` makes of them -/

variable {gives : Proto.Blob → List (Option α) → Prop}

theorem gives_resumed (hg : ∀ blob gs, gives blob gs → gs = outcome (decode blob)) {bs : Proto.Bytes} {gs : List (Option α)} (h : Gives gives bs gs) :
    Resumed (gnext decode) ([], source bs) gs := by
  have hend : Resumed (gnext decode) ([], []) [] := resumed_done (s' := []) (readBlob_short (l := []) (by simp))
  induction h with
  | rest tail h => exact resumed_done (readBlob_short h)
  | cutHeader n h h1 h2 => exact resumed_panic (readBlob_cutHeader h1 h2) hend
  | badHeader h more gs h1 h2 _ ih =>
    obtain ⟨p, e⟩ := readBlob_badHeader (more := more) h1 h2
    exact resumed_panic e ih
  | cutData h data n h1 h2 h3 => exact resumed_panic (readBlob_cutData h1 h2 h3) hend
  | frame f more gs gs' hf _ ih =>
    cases hf with
    | other t h1 h2 =>
      obtain ⟨hd, h3, h4⟩ := headerSays_iff.1 h1
      exact resumed_skip (s' := source more) (by rw [source_append, readBlob_frame h3, if_neg (by rw [h4]; simpa using h2)]) ih
    | noBlob h1 h2 =>
      obtain ⟨hd, h3, h4⟩ := headerSays_iff.1 h1
      refine resumed_panic (s' := source more) (p := .unwrap) ?_ ih
      rw [source_append, readBlob_frame h3, if_pos h4]
      cases hp : Proto.Blob.parseFromBytes f.data with
      | none => rfl
      | some blob => exact absurd ((C98_blob _ _).1 hp).1 (h2 blob)
    | blob blob _ h1 h2 h5 =>
      obtain ⟨hd, h3, h4⟩ := headerSays_iff.1 h1
      rw [hg _ _ h5]
      refine resumed_blob (s' := source more) ?_ ih
      rw [source_append, readBlob_frame h3, if_pos h4, (C98_blob _ _).2 ⟨h2, trivial⟩]

theorem be32_fromBe {x : Proto.Bytes} (h : x.length = 4) : be32 (fromBe x) = x := by
  match x, h with
  | [a, b, c, d], _ =>
    have ha := a.toNat_lt
    have hb := b.toNat_lt
    have hc := c.toNat_lt
    have hd := d.toNat_lt
    have e : fromBe [a, b, c, d] = 16777216 * a.toNat + 65536 * b.toNat + 256 * c.toNat + d.toNat := by
      simp only [fromBe, List.foldl]; omega
    rw [e, be32]
    have q : ∀ (n : Nat) (y : UInt8), n % 256 = y.toNat → UInt8.ofNat n = y := by
      intro n y hy
      apply UInt8.toNat_inj.1
      rw [UInt8.toNat_ofNat']
      omega
    rw [q _ a (by omega), q _ b (by omega), q _ c (by omega), q _ d (by omega)]

theorem frameGives_total (hg : ∀ blob, ∃ gs, gives blob gs) {f : Frame} {t : Str} (h : HeaderSays f t) : ∃ gs, FrameGives gives f gs := by
  by_cases ht : t = str% "OSMData"
  · subst ht
    by_cases hb : ∃ blob, DecodesBlob f.data blob
    · obtain ⟨blob, hb⟩ := hb
      obtain ⟨gs, h1⟩ := hg blob
      exact ⟨gs, .blob blob gs h hb h1⟩
    · exact ⟨_, .noBlob h fun blob hb' => hb ⟨blob, hb'⟩⟩
  · exact ⟨_, .other t h ht⟩

theorem gives_total (hg : ∀ blob, ∃ gs, gives blob gs) (bs : Proto.Bytes) : ∃ gs, Gives gives bs gs := by
  induction hn : bs.length using Nat.strongRecOn generalizing bs with
  | _ n ih =>
    by_cases h4 : bs.length < 4
    · exact ⟨_, .rest bs h4⟩
    · obtain ⟨x, l, rfl, hx⟩ : ∃ x l, bs = x ++ l ∧ x.length = 4 := ⟨bs.take 4, bs.drop 4, (List.take_append_drop 4 bs).symm, by simp; omega⟩
      have hlt := fromBe_lt hx
      by_cases hl : l.length < fromBe x
      · refine ⟨[none], ?_⟩
        rw [← be32_fromBe hx]
        exact .cutHeader _ l hlt hl
      · obtain ⟨h, more, rfl, hh⟩ : ∃ h more, l = h ++ more ∧ h.length = fromBe x :=
          ⟨l.take (fromBe x), l.drop (fromBe x), (List.take_append_drop _ l).symm, by simp; omega⟩
        rw [List.length_append, hx, List.length_append] at hn
        rw [← be32_fromBe hx, ← hh]
        rw [← hh] at hlt
        by_cases hb : ∃ n, GoodHeader h n
        · obtain ⟨m, hm⟩ := hb
          by_cases hd : more.length < m
          · exact ⟨_, .cutData h more m hlt hm hd⟩
          · obtain ⟨data, more', rfl, hlen⟩ : ∃ d more', more = d ++ more' ∧ d.length = m :=
              ⟨more.take m, more.drop m, (List.take_append_drop _ more).symm, by simp; omega⟩
            obtain ⟨hd', t, k, a1, a2, a3, a4⟩ := hm
            obtain ⟨gs, h1⟩ := frameGives_total hg (f := ⟨h, data⟩) (t := t) ⟨hlt, hd', k, a1, a2, a3, by rw [hlen]; exact a4⟩
            rw [List.length_append] at hn
            obtain ⟨gs', h2⟩ := ih more'.length (by omega) more' rfl
            refine ⟨gs ++ gs', ?_⟩
            have := Gives.frame _ _ _ _ h1 h2
            simpa [Frame.bytes, List.append_assoc] using this
        · obtain ⟨gs, h1⟩ := ih more.length (by omega) more rfl
          exact ⟨_, .badHeader h more gs hlt (fun n hn => hb ⟨n, hn⟩) h1⟩

/-- For a machine that makes of blobs what `gives` says. -/
theorem resumed_iff (hg : ∀ blob gs, gives blob gs ↔ gs = outcome (decode blob)) (bs : Proto.Bytes) (gs : List (Option α)) :
    Resumed (gnext decode) ([], source bs) gs ↔ Gives gives bs gs := by
  have h1 : ∀ gs, Gives gives bs gs → Resumed (gnext decode) ([], source bs) gs := fun gs h => gives_resumed (fun blob gs => (hg blob gs).1) h
  refine ⟨fun h => ?_, h1 gs⟩
  obtain ⟨gs', h2⟩ := gives_total (gives := gives) (fun blob => ⟨_, (hg blob _).2 rfl⟩) bs
  rw [resumed_unique h (h1 _ h2)]
  exact h2

end Osmio
