import Verif.Lib.QuickXmlPull
import Verif.Proofs.QuickXmlSource
import Verif.Proofs.AnySource
/-! The events that are pulled out of a source piece by piece are those of its bytes; and how far the source has been read. -/

namespace Osmio
open Spec

theorem fillBuf_empty {rd : AnyReader} {cap : Nat} {b : Buffered rd.S} (hp : b.pending = []) : rd.fillBuf cap b =
    match rd.read b.inner cap with
    | (.ok bs, s) => (some bs, ⟨s, bs⟩)
    | (.interrupted, s) => rd.fillBuf cap ⟨s, []⟩
    | (.failed, s) => (none, ⟨s, []⟩) := by
  conv_lhs => unfold AnyReader.fillBuf
  rw [if_pos hp]
  split <;> rename_i e <;> simp only [e]

/-- What filling the buffer gives. -/
def Filled {S : Type} (R : S → Source → Prop) (cap : Nat) (rest : Source) : Option (List UInt8) × Buffered S → Prop
  | (none, b') => b'.pending = [] ∧ ∃ r, rest = none :: r ∧ R b'.inner r
  | (some [], b') => b'.pending = [] ∧ rest = [] ∧ R b'.inner []
  | (some (x :: xs), b') => (x :: xs).length ≤ cap ∧ b'.pending = x :: xs ∧ ∃ r, rest = (x :: xs).map some ++ r ∧ R b'.inner r

/-- The relation describes what the reader gives when this many bytes are asked for. -/
def DeliversAt (cap : Nat) (rd : AnyReader) (R : rd.S → Source → Prop) : Prop := ∀ s src, R s src → GaveNext R (rd.read s cap) src

theorem delivers_at {rd : AnyReader} {R : rd.S → Source → Prop} (h : Delivers rd R) {cap : Nat} (hc : 0 < cap) : DeliversAt cap rd R :=
  fun s src hr => h s src hr cap hc

theorem fillBuf_delivers {rd : AnyReader} {R : rd.S → Source → Prop} {cap : Nat} (h : DeliversAt cap rd R) (k : Nat) :
    ∀ (b : Buffered rd.S) (rest : Source), rd.patience b.inner < k → b.pending = [] → R b.inner rest →
      Filled R cap rest (rd.fillBuf cap b) := by
  induction k with
  | zero => intro b rest hk; omega
  | succ k ih =>
    intro b rest hk hp hr
    rw [fillBuf_empty hp]
    have hg := h b.inner rest hr
    have hs := rd.short b.inner cap
    have hcalm := rd.calm b.inner cap
    rcases e : rd.read b.inner cap with ⟨bs | _ | _, s⟩
    · rw [e] at hg hs
      have := hs bs rfl
      cases bs with
      | nil => exact ⟨rfl, hg.1, hg.2⟩
      | cons x xs => exact ⟨this, rfl, hg⟩
    · rw [e] at hcalm hg
      have := hcalm rfl
      exact ih ⟨s, []⟩ rest (by simp only at this ⊢; omega) rfl hg
    · rw [e] at hg
      exact ⟨rfl, hg⟩

theorem fillBuf_held {rd : AnyReader} {cap : Nat} {b : Buffered rd.S} (h : b.pending ≠ []) : rd.fillBuf cap b = (some b.pending, b) := by
  unfold AnyReader.fillBuf
  rw [if_neg h]

namespace QuickXml

theorem before_bytes (a : List UInt8) (r : Source) :
    Source.before (a.map some ++ r) = (a ++ (Source.before r).1, (Source.before r).2) := by
  induction a with
  | nil => rfl
  | cons b a ih => simp only [List.map_cons, List.cons_append, Source.before, ih]

theorem settledAux_enough (n : Nat) : ∀ (m : Nat) (s : Src), s.bytes.length ≤ n → s.bytes.length ≤ m → settledAux n s = settledAux m s := by
  induction n with
  | zero =>
    rintro m ⟨bs, st⟩ h1 h2
    obtain rfl : bs = [] := List.length_eq_zero_iff.1 (by simpa using h1)
    cases m <;> rfl
  | succ n ih =>
    rintro m ⟨bs, st⟩ h1 h2
    cases bs with
    | nil => cases m <;> rfl
    | cons b r =>
      simp only [List.length_cons] at h1 h2
      obtain ⟨m, rfl⟩ : ∃ k, m = k + 1 := ⟨m - 1, by omega⟩
      unfold settledAux
      simp only
      split
      · rfl
      · have := readOne_length ⟨b :: r, st⟩ b r
        rw [ih m _ (by omega) (by omega)]

/-- The events that bytes settle, elements being open. -/
def settledIn (bs : List UInt8) (st : List (List UInt8)) : Events := settledAux bs.length ⟨bs, st⟩

theorem settledIn_nil (st : List (List UInt8)) : settledIn [] st = [] := rfl

theorem settledIn_cons (b : UInt8) (r : List UInt8) (st : List (List UInt8)) :
    settledIn (b :: r) st = if isOpen b r then [] else (readOne ⟨b :: r, st⟩ b r).1 ::
      settledIn (readOne ⟨b :: r, st⟩ b r).2.bytes (readOne ⟨b :: r, st⟩ b r).2.opened := by
  show settledAux (r.length + 1) _ = _
  unfold settledAux
  simp only
  split
  · rfl
  · have := readOne_length ⟨b :: r, st⟩ b r
    rw [settledAux_enough r.length _ _ (by omega) (Nat.le_refl _)]
    rfl

theorem settledIn_closed {b : UInt8} {r : List UInt8} (h : isOpen b r = false) (st : List (List UInt8)) (x : List UInt8) :
    settledIn (b :: r ++ x) st = (readOne ⟨b :: r, st⟩ b r).1 ::
      settledIn ((readOne ⟨b :: r, st⟩ b r).2.bytes ++ x) (readOne ⟨b :: r, st⟩ b r).2.opened := by
  rw [List.cons_append, settledIn_cons, isOpen_grows h, if_neg (by simp), readOne_grows ⟨b :: r, st⟩ ⟨b :: (r ++ x), st⟩ rfl h x]
  rfl

/-- What is still to come. -/
def toCome (later : Events) (st : List (List UInt8)) (src : Source) : Events :=
  if (Source.before src).2 then events (Source.before src).1 st else settledIn (Source.before src).1 st ++ none :: later

theorem toCome_fails {later : Events} {st : List (List UInt8)} {taken : List UInt8} (ht : settledIn taken st = []) (r : Source) :
    toCome later st (taken.map some ++ none :: r) = none :: later := by
  unfold toCome
  rw [before_bytes]
  simp only [Source.before, List.append_nil, ht]
  rfl

theorem toCome_end (later : Events) (st : List (List UInt8)) (bs : List UInt8) : toCome later st (bs.map some) = events bs st := by
  unfold toCome
  rw [← List.append_nil (bs.map some), before_bytes]
  simp [Source.before]

theorem toCome_closed {b : UInt8} {r : List UInt8} (h : isOpen b r = false) (later : Events) (st : List (List UInt8)) (rest : Source) :
    toCome later st ((b :: r).map some ++ rest) = (readOne ⟨b :: r, st⟩ b r).1 ::
      toCome later (readOne ⟨b :: r, st⟩ b r).2.opened ((readOne ⟨b :: r, st⟩ b r).2.bytes.map some ++ rest) := by
  unfold toCome
  rw [before_bytes, before_bytes]
  simp only
  split
  · rw [List.cons_append, events_cons, readOne_grows ⟨b :: r, st⟩ ⟨b :: (r ++ (Source.before rest).1), st⟩ rfl h]
    rfl
  · rw [settledIn_closed h]
    rfl

theorem readEvent_cons (e : Option Event) (r : Events) : readEvent (e :: r) = (ofEvent e, r) := by
  cases e <;> rfl

/-! ## How far it has been read -/

/-- The events settled by the beginning of a file, the byte order mark being dropped or not. -/
def settledFrom (mark : Bool) (a : List UInt8) : Events := settledIn (if mark then a.drop 3 else a) []

/-- `done` are the events handed out; `rest` is what the source has not given yet. Either what it has given, without its last portion, does not settle the events handed out; or
more has been handed out than all bytes settle. -/
def Tracks {S : Type} (cap : Nat) (all : Source) (mark : Bool) (done : Events) (taken : List UInt8) (p : Pull S) (rest : Source) : Prop :=
  (∃ used low : List UInt8, all = used.map some ++ rest ∧
    (∀ x, settledFrom mark (used ++ x) = done ++ settledIn (taken ++ p.src.pending ++ x) p.opened) ∧
    low <+: used ∧ used.length ≤ low.length + cap ∧
    (low = [] ∨ (settledFrom mark low).length < done.length + if taken = [] then 0 else 1)) ∨
  (settledFrom mark (Source.before all).1).length < done.length

/-- After `done`, the events `evs` are to come. -/
def Flow {S : Type} (R : S → Source → Prop) (cap : Nat) (all : Source) (mark : Bool) (done : Events) (p : Pull S) (evs : Events) : Prop :=
  (p.broken = true ∧ evs = p.later ∧ (settledFrom mark (Source.before all).1).length < done.length) ∨
  (p.broken = false ∧ p.begun = true ∧ ∃ rest, R p.src.inner rest ∧ evs = toCome p.later p.opened (p.src.pending.map some ++ rest) ∧
    Tracks cap all mark done [] p rest)

/-- A call has not taken a whole event. -/
def Unfinished (taken : List UInt8) : Prop := taken = [] ∨ ∃ c cs, taken = c :: cs ∧ isOpen c cs = true

theorem unfinished_settled {taken : List UInt8} (h : Unfinished taken) (st : List (List UInt8)) : settledIn taken st = [] := by
  rcases h with rfl | ⟨c, cs, rfl, h⟩
  · rfl
  · rw [settledIn_cons, if_pos h]

theorem tracks_off {S : Type} {cap : Nat} {all : Source} {mark : Bool} {done : Events} {taken : List UInt8} {p : Pull S} {rest : Source}
    (ht : Unfinished taken) (hp : p.src.pending = []) (hr : (Source.before rest).1 = []) (h : Tracks cap all mark done taken p rest) (e : Option Event) :
    (settledFrom mark (Source.before all).1).length < (done ++ [e]).length := by
  rcases h with ⟨used, low, h1, h2, -⟩ | h
  · have h3 := h2 []
    rw [h1, before_bytes]
    simp only [hr]
    rw [h3, hp, List.append_nil, List.append_nil, unfinished_settled ht]
    simp
  · rw [List.length_append]; omega

/-- A whole event is there. -/
theorem tracks_event {S : Type} {cap : Nat} {all : Source} {mark : Bool} {done : Events} {taken : List UInt8} {p : Pull S} {rest : Source}
    {c : UInt8} {cs : List UInt8} (hc : isOpen c cs = false) (hx : taken ++ p.src.pending = c :: cs)
    (h : Tracks cap all mark done taken p rest) (b : Buffered S)
    (hb : b.pending = (readOne ⟨c :: cs, p.opened⟩ c cs).2.bytes) :
    Tracks cap all mark (done ++ [(readOne ⟨c :: cs, p.opened⟩ c cs).1]) []
      { p with src := b, opened := (readOne ⟨c :: cs, p.opened⟩ c cs).2.opened } rest := by
  rcases h with ⟨used, low, h1, h2, h3, h4, h5⟩ | h
  · refine .inl ⟨used, low, h1, fun x => ?_, h3, h4, h5.imp id fun h5 => ?_⟩
    · rw [h2 x, hx, settledIn_closed hc, List.nil_append, List.append_assoc, hb]
      rfl
    · rw [List.length_append]
      rw [if_pos rfl]
      simp only [List.length_singleton]
      split at h5 <;> omega
  · exact .inr (by rw [List.length_append]; omega)

/-- The buffer was filled. -/
theorem tracks_filled {S : Type} {cap : Nat} {all : Source} {mark : Bool} {done : Events} {taken : List UInt8} {p : Pull S} {bs : List UInt8} {rest : Source}
    (ht : Unfinished taken) (hp : p.src.pending = []) (hl : bs.length ≤ cap) (h : Tracks cap all mark done taken p (bs.map some ++ rest)) :
    (∃ used low : List UInt8, all = used.map some ++ rest ∧
      (∀ x, settledFrom mark (used ++ x) = done ++ settledIn (taken ++ bs ++ x) p.opened) ∧
      low <+: used ∧ used.length ≤ low.length + cap ∧ (settledFrom mark low).length < (done.length + 1)) ∨
    (settledFrom mark (Source.before all).1).length < done.length := by
  rcases h with ⟨used, low, h1, h2, -⟩ | h
  · refine .inl ⟨used ++ bs, used, ?_, fun x => ?_, List.prefix_append _ _, ?_, ?_⟩
    · rw [h1, List.map_append, List.append_assoc]
    · rw [List.append_assoc, h2, hp]; simp
    · rw [List.length_append]; omega
    · have h3 := h2 []
      rw [hp, List.append_nil, List.append_nil, List.append_nil, unfinished_settled ht, List.append_nil] at h3
      rw [h3]; omega
  · exact .inr h

/-- A call that returns after a number of rounds, and not before. -/
def ReturnsAfter {σ ρ : Type} (f : Nat → Option (ρ × σ)) (r : ρ) (s : σ) : Prop := ∃ N, ∀ n, f n = if N ≤ n then some (r, s) else none

theorem returnsAfter_one {σ ρ : Type} {f : Nat → Option (ρ × σ)} {r : ρ} {s : σ} (h0 : f 0 = none) (h : ∀ n, f (n + 1) = some (r, s)) :
    ReturnsAfter f r s := by
  refine ⟨1, fun n => ?_⟩
  cases n with
  | zero => rw [h0]; rfl
  | succ n => rw [h, if_pos (by omega)]

theorem returnsAfter_succ {σ ρ : Type} {f g : Nat → Option (ρ × σ)} {r : ρ} {s : σ} (h0 : f 0 = none) (h : ∀ n, f (n + 1) = g n)
    (hg : ReturnsAfter g r s) : ReturnsAfter f r s := by
  obtain ⟨N, hN⟩ := hg
  refine ⟨N + 1, fun n => ?_⟩
  cases n with
  | zero => rw [h0, if_neg (by omega)]
  | succ n => rw [h, hN]; simp

section loop
variable {rd : AnyReader} {R : rd.S → Source → Prop} {cap : Nat} {all : Source} {mark : Bool}

theorem loop_flow (hd : DeliversAt cap rd R) (m : Nat) : ∀ (done : Events) (taken : List UInt8) (p : Pull rd.S) (rest : Source),
    rest.length + (if p.src.pending = [] then 0 else 1) < m → Unfinished taken → (taken ≠ [] → p.src.pending = []) → p.broken = false →
    p.begun = true → R p.src.inner rest → Tracks cap all mark done taken p rest →
    ∃ p', ReturnsAfter (fun n => Pull.loop rd cap n taken p)
        (readEvent (toCome p.later p.opened ((taken ++ p.src.pending).map some ++ rest))).1 p' ∧
      Flow R cap all mark (done ++ (toCome p.later p.opened ((taken ++ p.src.pending).map some ++ rest)).take 1) p'
        (readEvent (toCome p.later p.opened ((taken ++ p.src.pending).map some ++ rest))).2 := by
  induction m with
  | zero => intro done taken p rest hm; omega
  | succ m ih =>
    intro done taken p rest hm ht htp hb hg hr htr
    by_cases hp : p.src.pending = []
    · have hfill := fillBuf_delivers hd _ p.src rest (Nat.lt_succ_self _) hp hr
      rw [if_pos hp] at hm
      rcases hf : rd.fillBuf cap p.src with ⟨_ | bs, b⟩
      · rw [hf] at hfill
        obtain ⟨hbp, r, rfl, hr'⟩ := hfill
        have hcome : toCome p.later p.opened ((taken ++ p.src.pending).map some ++ none :: r) = none :: p.later := by
          rw [hp, List.append_nil]; exact toCome_fails (unfinished_settled ht _) r
        rw [hcome, readEvent_cons]
        refine ⟨{ p with src := b, broken := true }, returnsAfter_one rfl fun n => ?_, .inl ⟨rfl, rfl, ?_⟩⟩
        · simp only [Pull.loop, hf]; rfl
        · exact tracks_off ht hp rfl htr none
      · cases bs with
        | nil =>
          rw [hf] at hfill
          obtain ⟨hbp, rfl, hr'⟩ := hfill
          rcases ht with rfl | ⟨c, cs, rfl, hc⟩
          · have hcome : toCome p.later p.opened (([] ++ p.src.pending).map some ++ []) = [] := by rw [hp]; rfl
            rw [hcome]
            refine ⟨{ p with src := b }, returnsAfter_one rfl fun n => ?_, .inr ⟨hb, hg, [], hr', ?_, ?_⟩⟩
            · simp only [Pull.loop, hf]; rfl
            · simp only [hbp]; rfl
            · simp only [List.take_nil, List.append_nil]
              rcases htr with ⟨used, low, h1, h2, h3⟩ | h
              · exact .inl ⟨used, low, h1, fun x => by rw [h2 x, hp]; simp only [hbp], h3⟩
              · exact .inr h
          · have hcome : toCome p.later p.opened ((c :: cs ++ p.src.pending).map some ++ []) = (readOne ⟨c :: cs, p.opened⟩ c cs).1 ::
                events (readOne ⟨c :: cs, p.opened⟩ c cs).2.bytes (readOne ⟨c :: cs, p.opened⟩ c cs).2.opened := by
              rw [hp, List.append_nil, List.append_nil, toCome_end, events_cons]
            rw [hcome, readEvent_cons]
            refine ⟨{ p with src := ⟨b.inner, (readOne ⟨c :: cs, p.opened⟩ c cs).2.bytes⟩, opened := (readOne ⟨c :: cs, p.opened⟩ c cs).2.opened },
              returnsAfter_one rfl fun n => ?_, .inr ⟨hb, hg, [], hr', ?_, ?_⟩⟩
            · simp only [Pull.loop, hf]
            · simp only [List.append_nil]; rw [toCome_end]
            · exact .inr (tracks_off (.inr ⟨c, cs, rfl, hc⟩) hp rfl htr _)
        | cons x xs =>
          rw [hf] at hfill
          obtain ⟨hl, hbp, r, rfl, hr'⟩ := hfill
          have htr' := tracks_filled ht hp hl htr
          obtain ⟨c, cs, hx⟩ : ∃ c cs, taken ++ x :: xs = c :: cs := by
            cases taken with
            | nil => exact ⟨_, _, rfl⟩
            | cons c cs => exact ⟨_, _, rfl⟩
          have hsrc : (taken ++ p.src.pending).map some ++ ((x :: xs).map some ++ r) = (taken ++ x :: xs).map some ++ r := by
            rw [hp]; simp
          rw [hsrc]
          cases hc : isOpen c cs with
          | true =>
            have htr2 : Tracks cap all mark done (c :: cs) { p with src := ⟨b.inner, []⟩ } r := by
              rcases htr' with ⟨used, low, h1, h2, h3, h4, h5⟩ | h
              · refine .inl ⟨used, low, h1, fun y => ?_, h3, h4, .inr (by simpa using h5)⟩
                rw [h2 y, hx]; simp
              · exact .inr h
            have := ih done (c :: cs) { p with src := ⟨b.inner, []⟩ } r (by simp at hm ⊢; omega) (.inr ⟨c, cs, rfl, hc⟩) (fun _ => rfl) hb hg hr' htr2
            obtain ⟨p', h1, h2⟩ := this
            simp only [List.append_nil] at h1 h2
            rw [hx]
            refine ⟨p', returnsAfter_succ rfl (fun n => ?_) h1, h2⟩
            simp only [Pull.loop, hf, hx, hc, if_true]
          | false =>
            rw [hx, toCome_closed hc, readEvent_cons]
            refine ⟨{ p with src := ⟨b.inner, (readOne ⟨c :: cs, p.opened⟩ c cs).2.bytes⟩, opened := (readOne ⟨c :: cs, p.opened⟩ c cs).2.opened },
              returnsAfter_one rfl fun n => ?_, .inr ⟨hb, hg, r, hr', rfl, ?_⟩⟩
            · simp only [Pull.loop, hf, hx, hc]; rfl
            · rcases htr' with ⟨used, low, h1, h2, h3, h4, h5⟩ | h
              · refine .inl ⟨used, low, h1, fun y => ?_, h3, h4, .inr (by simpa using h5)⟩
                rw [h2 y, hx, settledIn_closed hc]; simp
              · exact .inr (by rw [List.length_append]; omega)
    · have ht0 : taken = [] := by
        by_contra h
        exact hp (htp h)
      subst ht0
      have hf := fillBuf_held (rd := rd) (cap := cap) hp
      rw [if_neg hp] at hm
      obtain ⟨c, cs, hx⟩ := List.exists_cons_of_ne_nil hp
      rw [hx] at hf
      cases hc : isOpen c cs with
      | true =>
        have htr2 : Tracks cap all mark done (c :: cs) { p with src := ⟨p.src.inner, []⟩ } rest := by
          rcases htr with ⟨used, low, h1, h2, h3, h4, h5⟩ | h
          · refine .inl ⟨used, low, h1, fun y => ?_, h3, h4, h5.imp id fun h5 => ?_⟩
            · rw [h2 y, hx]; simp
            · simp at h5 ⊢; omega
          · exact .inr h
        obtain ⟨p', h1, h2⟩ := ih done (c :: cs) { p with src := ⟨p.src.inner, []⟩ } rest (by simp at hm ⊢; omega) (.inr ⟨c, cs, rfl, hc⟩)
          (fun _ => rfl) hb hg hr htr2
        simp only [List.append_nil] at h1 h2
        rw [List.nil_append, hx]
        refine ⟨p', returnsAfter_succ rfl (fun n => ?_) h1, h2⟩
        simp only [Pull.loop, hf, List.nil_append, hc, if_true]
      | false =>
        rw [List.nil_append, hx, toCome_closed hc, readEvent_cons]
        refine ⟨{ p with src := ⟨p.src.inner, (readOne ⟨c :: cs, p.opened⟩ c cs).2.bytes⟩, opened := (readOne ⟨c :: cs, p.opened⟩ c cs).2.opened },
          returnsAfter_one rfl fun n => ?_, .inr ⟨hb, hg, rest, hr, rfl, ?_⟩⟩
        · simp only [Pull.loop, hf, List.nil_append, hc]; rfl
        · exact tracks_event hc (by rw [List.nil_append, hx]) htr ⟨p.src.inner, _⟩ rfl

/-- The first filling of the buffer begins with a byte order mark. -/
def marked (rd : AnyReader) (cap : Nat) (s : rd.S) : Bool :=
  match (rd.fillBuf cap ⟨s, []⟩).1 with
  | some bs => [0xEF, 0xBB, 0xBF].isPrefixOf bs
  | none => false

/-- All events of a source, the byte order mark being dropped or not. -/
def allEvents (later : Events) (mark : Bool) (all : Source) : Events := toCome later [] (if mark then all.drop 3 else all)

/-- The events `evs` are to come from `p`, a reader made of `s`. -/
def ToPull (R : rd.S → Source → Prop) (cap : Nat) (later : Events) (s : rd.S) (all : Source) (p : Pull rd.S) (evs : Events) : Prop :=
  (∃ done, allEvents later (marked rd cap s) all = done ++ evs ∧ Flow R cap all (marked rd cap s) done p evs) ∨
  (p = Pull.new later s ∧ evs = allEvents later (marked rd cap s) all)

theorem take_readEvent (evs : Events) : evs = evs.take 1 ++ (readEvent evs).2 := by
  cases evs with
  | nil => rfl
  | cons e r => rw [readEvent_cons]; rfl

theorem returnsAfter_zero {σ ρ : Type} {f : Nat → Option (ρ × σ)} {r : ρ} {s : σ} (h : ∀ n, f n = some (r, s)) : ReturnsAfter f r s :=
  ⟨0, fun n => by rw [h, if_pos (by omega)]⟩

theorem readEventInto_pulls (hd : DeliversAt cap rd R) {later : Events} {s : rd.S} (hr : R s all) (p : Pull rd.S) (evs : Events)
    (h : ToPull R cap later s all p evs) : ∃ p', ReturnsAfter (fun n => Pull.readEventInto rd cap n p) (readEvent evs).1 p' ∧
      ToPull R cap later s all p' (readEvent evs).2 := by
  rcases h with ⟨done, he, h⟩ | ⟨rfl, rfl⟩
  · have he' : allEvents later (marked rd cap s) all = (done ++ evs.take 1) ++ (readEvent evs).2 := by
      rw [List.append_assoc, ← take_readEvent, he]
    rcases h with ⟨h1, rfl, h3⟩ | ⟨h1, h2, rest, h3, rfl, h5⟩
    · refine ⟨{ p with later := (readEvent p.later).2 }, returnsAfter_zero fun n => ?_, .inl ⟨_, he', .inl ⟨h1, rfl, ?_⟩⟩⟩
      · simp only [Pull.readEventInto, h1, if_true]
      · rw [List.length_append]; omega
    · obtain ⟨p', h6, h7⟩ := loop_flow hd _ done [] p rest (Nat.lt_succ_self _) (.inl rfl) (fun h => absurd rfl h) h1 h2 h3 h5
      refine ⟨p', ?_, .inl ⟨_, he', h7⟩⟩
      have : (fun n => Pull.readEventInto rd cap n p) = fun n => Pull.loop rd cap n [] p := by
        funext n
        simp only [Pull.readEventInto, h1, h2]; rfl
      rw [this]
      exact h6
  · have hfill := fillBuf_delivers hd _ ⟨s, []⟩ all (Nat.lt_succ_self _) rfl hr
    have hm : marked rd cap s = match (rd.fillBuf cap ⟨s, []⟩).1 with
      | some bs => [0xEF, 0xBB, 0xBF].isPrefixOf bs
      | none => false := rfl
    have hi : ∀ n, Pull.readEventInto rd cap n (Pull.new later s) = match rd.fillBuf cap ⟨s, []⟩ with
      | (none, b) => some (.error, { (Pull.new later s) with src := b, broken := true })
      | (some bs, b) =>
        Pull.loop rd cap n [] { (Pull.new later s) with
          src := ⟨b.inner, if [0xEF, 0xBB, 0xBF].isPrefixOf bs then bs.drop 3 else bs⟩, begun := true } := fun n => rfl
    rcases hf : rd.fillBuf cap ⟨s, []⟩ with ⟨_ | bs, b⟩
    · rw [hf] at hfill hm hi
      obtain ⟨hbp, r, rfl, hr'⟩ := hfill
      have e : allEvents later (marked rd cap s) (none :: r) = none :: later := by rw [hm]; rfl
      rw [e]
      refine ⟨_, returnsAfter_zero hi, .inl ⟨[none], e, .inl ⟨rfl, rfl, ?_⟩⟩⟩
      rw [hm]
      show (0 : Nat) < 1
      omega
    · rw [hf] at hfill hm hi
      have : ∃ rest, all = bs.map some ++ rest ∧ R b.inner rest ∧ bs.length ≤ cap := by
        cases bs with
        | nil => obtain ⟨_, rfl, h⟩ := hfill; exact ⟨[], rfl, h, by simp⟩
        | cons x xs => obtain ⟨h1, _, r, h2, h3⟩ := hfill; exact ⟨r, h2, h3, h1⟩
      obtain ⟨rest, rfl, hr', hl⟩ := this
      have hdrop : ∀ x : List UInt8, (if marked rd cap s then (bs ++ x).drop 3 else bs ++ x) =
          (if [0xEF, 0xBB, 0xBF].isPrefixOf bs then bs.drop 3 else bs) ++ x := by
        intro x
        rw [hm]
        simp only
        split
        · rename_i h
          obtain ⟨y, rfl⟩ := List.isPrefixOf_iff_prefix.1 h
          rfl
        · rfl
      have hdrop' : (if marked rd cap s then (bs.map some ++ rest).drop 3 else bs.map some ++ rest) =
          (if [0xEF, 0xBB, 0xBF].isPrefixOf bs then bs.drop 3 else bs).map some ++ rest := by
        rw [hm]
        simp only
        split
        · rename_i h
          obtain ⟨y, rfl⟩ := List.isPrefixOf_iff_prefix.1 h
          rfl
        · rfl
      have htr : Tracks cap (bs.map some ++ rest) (marked rd cap s) [] [] { (Pull.new later s) with
          src := ⟨b.inner, if [0xEF, 0xBB, 0xBF].isPrefixOf bs then bs.drop 3 else bs⟩, begun := true } rest := by
        refine .inl ⟨bs, [], rfl, fun x => ?_, List.nil_prefix, by simpa using hl, .inl rfl⟩
        unfold settledFrom
        rw [hdrop]
        rfl
      obtain ⟨p', h6, h7⟩ := loop_flow hd _ [] [] { (Pull.new later s) with
          src := ⟨b.inner, if [0xEF, 0xBB, 0xBF].isPrefixOf bs then bs.drop 3 else bs⟩, begun := true } rest
          (Nat.lt_succ_self _) (.inl rfl) (fun h => absurd rfl h) rfl rfl hr' htr
      have e : allEvents later (marked rd cap s) (bs.map some ++ rest) = toCome later []
          (([] ++ if [0xEF, 0xBB, 0xBF].isPrefixOf bs then bs.drop 3 else bs).map some ++ rest) := by
        unfold allEvents
        rw [hdrop']
        rfl
      refine ⟨p', ?_, .inl ⟨(allEvents later (marked rd cap s) (bs.map some ++ rest)).take 1, take_readEvent _, ?_⟩⟩
      · rw [e]
        exact (funext hi : (fun n => Pull.readEventInto rd cap n (Pull.new later s)) = _) ▸ h6
      · rw [e]
        exact h7

end loop

end QuickXml
end Osmio
