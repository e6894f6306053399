import Verif.Spec.Programs
import Verif.Props.Open
import Verif.Props.ReaderExact
/-!
# The programs `osmio-osc-debug` and `osmio-pbf-read-speed` (C87)

A program's loop is given `rounds` rounds; `none` says that it was not over by then.
-/

namespace Osmio
open Spec Spec.Programs Osmio.Programs Xml OSMObjBase

variable {f : Family}

theorem debug_drain {r t : List (Option XmlEvent)} {os : List StringOSMObj} {e : Option Panic} (h : Drain OSCReader.next r os e t) :
    ∀ (n : Nat) (printed : List StringOSMObj),
      debugLoop n r printed = if os.length < n then some (printed ++ os, ended e) else none := by
  induction h with
  | done h =>
    intro n printed
    cases n with
    | zero => rfl
    | succ n => rw [debugLoop, h, if_pos (by simp)]; simp [ended]
  | panic h =>
    intro n printed
    cases n with
    | zero => rfl
    | succ n => rw [debugLoop, h, if_pos (by simp)]; simp [ended]
  | @more s s1 s2 o os e h _ ih =>
    intro n printed
    cases n with
    | zero => rfl
    | succ n =>
      rw [debugLoop, h]
      simp only [ih, List.append_assoc, List.singleton_append, List.length_cons, Nat.add_lt_add_iff_right]

theorem collect_shorter : ∀ (evs : List (Option XmlEvent)) (p : Bool) (els : List XmlEvent),
    (∃ els', XMLReader.collect p els evs = (.ok (els ++ els'), []) ∧ (evs = [] → els' = [])) ∨ (XMLReader.collect p els evs).2.length < evs.length := by
  intro evs
  induction evs with
  | nil => intro p els; exact .inl ⟨[], by simp [XMLReader.collect], fun _ => rfl⟩
  | cons x r ih =>
    intro p els
    refine .inr ?_
    cases x with
    | none => simp [XMLReader.collect]
    | some el =>
      rw [XMLReader.collect]
      split
      · simp
      · rcases ih (p || pushNow el) (if (p || pushNow el) = true then els ++ [el] else els) with ⟨els', h, -⟩ | h
        · rw [h]; simp
        · exact Nat.lt_succ_of_lt h

/-- Reading a stream of events always comes to an end. -/
theorem drain_total (evs : List (Option XmlEvent)) : ∃ os e t, Drain XMLReader.next evs os e t := by
  induction hn : evs.length using Nat.strong_induction_on generalizing evs with
  | _ n ih =>
    rcases hx : XMLReader.next evs with ⟨r, t⟩
    match r with
    | .error p => exact ⟨[], some p, t, .panic hx⟩
    | .ok none => exact ⟨[], none, t, .done hx⟩
    | .ok (some o) =>
      have ht : t.length < n := by
        cases evs with
        | nil => cases hx
        | cons x l =>
          have h := collect_shorter (x :: l) false []
          have h2 : t = (XMLReader.collect false [] (x :: l)).2 := by
            have h3 : (XMLReader.next (x :: l)).2 = t := by rw [hx]
            rw [← h3]
            unfold XMLReader.next
            split <;> rename_i h' <;> rw [h']
          rcases h with ⟨els, h, -⟩ | h
          · rw [h2, h, ← hn]; simp
          · rw [h2, ← hn]; exact h
      obtain ⟨os, e, t', h⟩ := ih _ ht t rfl
      exact ⟨o :: os, e, t', .more hx h⟩

/-- **C87**, `osmio-osc-debug`: whatever the file holds, the program ends; it prints what a loop over the reader sees, and ends as that loop does. -/
theorem C87_debug (norm : Xml.Config) (files : Files) (args : List FileName) {name : FileName} (ha : args[1]? = some name) {src : Source}
    (hf : files name = some src) :
    ∃ os e t, Drain OSCReader.next (OSCReader.over norm src) os e t ∧
      ∀ rounds, oscDebug norm files args rounds = if os.length < rounds then some (os, ended e) else none := by
  obtain ⟨os, e, t, h⟩ := drain_total (OSCReader.over norm src)
  have h' : Drain OSCReader.next (OSCReader.over norm src) os e t := by rw [osc_next_eq]; exact h
  refine ⟨os, e, t, h', fun rounds => ?_⟩
  rw [oscDebug, ha]
  simp only [hf]
  rw [debug_drain h' rounds []]
  rfl

/-- **C87.** Without an argument, or if the file cannot be opened, both programs panic and print nothing. -/
theorem C87_no_input (norm : Xml.Config) (zlib : Proto.Bytes → Option Proto.Bytes) (b : Build) (clock : Nat → Nat) (files : Files)
    (args : List FileName) (h : ∀ name, args[1]? = some name → files name = none) (rounds : Nat) :
    oscDebug norm files args rounds = some ([], .panic .unwrap) ∧
      pbfReadSpeed zlib b clock files args rounds = some ([], none, .panic .unwrap) := by
  unfold oscDebug pbfReadSpeed
  cases ha : args[1]? with
  | none => exact ⟨rfl, rfl⟩
  | some name => simp only [h name ha, and_self]

/-- **C87**, `osmio-osc-debug` on what the change file writer left: every object is printed, in order, and the program ends well. -/
theorem C87_debug_written (norm : Xml.Config) (hn : IsNorm norm) (k : Sink) (hk : k.Reliable) (hk0 : k.out = [])
    (cs : List (Call f.Obj)) (hv : AllVersioned cs) (hw : ∀ o ∈ written cs, Writable o) {files : Files} {args : List FileName}
    {name : FileName} (ha : args[1]? = some name)
    (hf : files name = some ((OSCWriter.drop (run oscCall (OSCWriter.new k) cs).2).2.writer.out.map some)) :
    ∃ os : List StringOSMObj, os.map objData = (written cs).map (fun o => readBack (objData o)) ∧
      ∀ rounds, (written cs).length < rounds → oscDebug norm files args rounds = some (os, .well) := by
  obtain ⟨os, h1, -, h2⟩ := C28_osc_roundtrip_partial norm hn k hk hk0 cs hv hw
  rw [← (C83_whole norm _).2] at h1
  obtain ⟨os', e, t, h3, h4⟩ := C87_debug norm files args ha hf
  obtain ⟨rfl, rfl, -⟩ := h1.unique h3
  refine ⟨os, h2, fun rounds hr => ?_⟩
  have hl := congrArg List.length h2
  rw [List.length_map, List.length_map] at hl
  rw [h4, if_pos (hl ▸ hr)]
  rfl

/-- **C87**, `osmio-osc-debug` on a change file that was cut, or that cannot be read to its end: the complete objects are printed, then the
program panics. -/
theorem C87_debug_torn (norm : Xml.Config) (hn : IsNorm norm) (k : Sink) (hk : k.Reliable) (hk0 : k.out = [])
    (cs : List (Call f.Obj)) (hv : AllVersioned cs) (hw : ∀ o ∈ written cs, Writable o) {a : List UInt8}
    (hp : a <+: (OSCWriter.drop (run oscCall (OSCWriter.new k) cs).2).2.writer.out)
    (hne : a ≠ (OSCWriter.drop (run oscCall (OSCWriter.new k) cs).2).2.writer.out)
    {tail : Source} (ht : tail = [] ∨ ∃ after, tail = none :: after) {files : Files} {args : List FileName}
    {name : FileName} (ha : args[1]? = some name) (hf : files name = some (a.map some ++ tail)) :
    ∃ j ≤ (written cs).length,
      (∀ cs1, cs1 <+: cs → (∀ c ∈ cs1, c.isClose = false) → written cs1 ≠ [] →
        ((written cs1).length ≤ j ↔ (run oscCall (OSCWriter.new k) cs1).2.writer.out <+: a)) ∧
      ∃ os : List StringOSMObj, os.map objData = ((written cs).take j).map (fun o => readBack (objData o)) ∧
        ∀ rounds, j < rounds → oscDebug norm files args rounds = some (os, .panic .unwrap) := by
  obtain ⟨j, hj, h1, os, h2, h3⟩ := C84_osc norm hn k hk hk0 cs hv hw a hp hne
  rw [osc_next_eq] at h2
  have ho : XMLReader.over norm (a.map some ++ tail) = XMLReader.new norm a := over_torn (drain_panics h2) ht
  rw [show OSCReader.new norm a = XMLReader.new norm a from rfl, ← ho, ← osc_next_eq] at h2
  obtain ⟨os', e, t, h4, h5⟩ := C87_debug norm files args ha hf
  obtain ⟨rfl, rfl, -⟩ := h2.unique h4
  refine ⟨j, hj, h1, os, h3, fun rounds hr => ?_⟩
  have hl := congrArg List.length h3
  rw [List.length_map, List.length_map, List.length_take, Nat.min_eq_left hj] at hl
  rw [h5, if_pos (hl ▸ hr)]
  rfl

/-- **C87**, `osmio-osc-debug` on any document of the grammar. It ends well, but the objects after the first element that stands for no object (a
node without a position) are not printed. -/
theorem C87_debug_document_partial {norm : Xml.Config} (hn : IsNorm norm) {t : Str} {ts : List Lex.Tok} {doc : Forest}
    (h : Lex.Document t ts doc) (hfl : doc.Flat) {files : Files} {args : List FileName} {name : FileName} (ha : args[1]? = some name)
    (hf : files name = some ((Utf8.encode t).map some)) :
    ∃ os : List StringOSMObj, os.map (fun o => some (objData o)) = (doc.objects.map readElem).takeWhile Option.isSome ∧
      ∀ rounds, doc.objects.length < rounds → oscDebug norm files args rounds = some (os, .well) := by
  obtain ⟨os, q, h1, h2⟩ := C33_loop_partial hn h hfl
  rw [← (C83_whole norm _).1] at h1
  obtain ⟨os', e, t', h3, h4⟩ := C87_debug norm files args ha hf
  rw [osc_next_eq] at h3
  obtain ⟨rfl, rfl, -⟩ := h1.unique h3
  refine ⟨os, h2, fun rounds hr => ?_⟩
  have hl := congrArg List.length h2
  rw [List.length_map] at hl
  have hle := (List.takeWhile_prefix (p := Option.isSome) (l := doc.objects.map readElem)).length_le
  rw [List.length_map] at hle
  rw [h4, if_pos (by omega)]
  rfl

/-- **C87 fails** for a change file with a deleted node, which the writers themselves write: neither that node nor the object after it is printed, and
the program ends well. -/
theorem C87_debug_fails : ∃ q, Drain OSCReader.next (OSCReader.over .keep (deletedDoc.map some)) [] none q ∧
    oscDebug .keep (oneFile (deletedDoc.map some)) [[], [97]] 100 = some ([], .well) ∧
    ∃ o, (OSCReader.next q).1 = .ok (some o) ∧ StringOSMObj.id o = StringOSMObj.id sampleObj := by
  obtain ⟨q, o, h1, h2, h3⟩ := C33_early_end_fails
  have h4 : Drain OSCReader.next (OSCReader.over .keep (deletedDoc.map some)) [] none q := by
    rw [(C83_whole .keep deletedDoc).2, osc_next_eq]; exact h1
  obtain ⟨os, e, t, h5, h6⟩ := C87_debug .keep (oneFile (deletedDoc.map some)) [[], [97]] (name := [97]) rfl rfl
  obtain ⟨rfl, rfl, -⟩ := h4.unique h5
  exact ⟨q, h4, h6 100, o, by rw [osc_next_eq, h2], h3⟩

/-! ## `osmio-pbf-read-speed` -/

/-- What the loop gives to the rest of the program. -/
def loopEnd {α : Type} : Option Panic → α → Except Panic α
  | none, a => .ok a
  | some p, _ => .error p

theorem checkpoints_step (m : Nat) (h : m % 1000000 = 0) : checkpoints (m + 1) = checkpoints m + 1 ∧ checkpoints m * 1000000 = m := by
  unfold checkpoints; omega

theorem checkpoints_stay (m : Nat) (h : ¬ m % 1000000 = 0) : checkpoints (m + 1) = checkpoints m := by unfold checkpoints; omega

theorem checkpoints_mono (m k : Nat) : checkpoints m ≤ checkpoints (m + k) := by unfold checkpoints; omega

theorem checkpoints_zero : checkpoints 0 = 0 := by unfold checkpoints; omega

theorem checkpoints_lt {i n : Nat} (h : i < checkpoints n) : i * 1000000 < n := by unfold checkpoints at h; omega

attribute [local irreducible] checkpoints

theorem speed_drain {zlib : Proto.Bytes → Option Proto.Bytes} {b : Build} (clock : Nat → Nat) {r t : StringPbf.PBFReader}
    {os : List StringOSMObj} {e : Option Panic} (h : Drain (StringPbf.PBFReader.next zlib b) r os e t) :
    ∀ (n m last : Nat) (printed : List Progress), m + os.length < 18446744073709551616 →
      speedLoop zlib b clock n r (UInt64.ofNat m) last (checkpoints m + 1) printed =
        if os.length < n then
          some (printed ++ lines clock last (List.range' (checkpoints m) (checkpoints (m + os.length) - checkpoints m)),
            loopEnd e (UInt64.ofNat (m + os.length), checkpoints (m + os.length) + 1))
        else none := by
  induction h with
  | done h =>
    intro n m last printed hm
    cases n with
    | zero => rfl
    | succ n => rw [speedLoop, h, if_pos (by simp)]; simp [lines, loopEnd]
  | panic h =>
    intro n m last printed hm
    cases n with
    | zero => rfl
    | succ n => rw [speedLoop, h, if_pos (by simp)]; simp [lines, loopEnd]
  | @more s s1 s2 o os e h _ ih =>
    intro n m last printed hm
    cases n with
    | zero => rfl
    | succ n =>
      rw [List.length_cons] at hm
      have hm1 : m + 1 + os.length < 18446744073709551616 := by omega
      have hadd : UInt64.ofNat m + 1 = UInt64.ofNat (m + 1) := by simp
      have hmod : (UInt64.ofNat m % 1000000 = 0) ↔ m % 1000000 = 0 := by
        rw [← UInt64.toNat_inj, UInt64.toNat_mod, UInt64.toNat_ofNat_of_lt' (by simp [UInt64.size]; omega)]
        rfl
      have hlen : m + 1 + os.length = m + (os.length + 1) := by omega
      rw [speedLoop, h]
      simp only [hmod, hadd, List.length_cons, Nat.add_lt_add_iff_right]
      by_cases h0 : m % 1000000 = 0
      · obtain ⟨hc, hj⟩ := checkpoints_step m h0
        have hr : checkpoints (m + (os.length + 1)) - checkpoints m = (checkpoints (m + (os.length + 1)) - (checkpoints m + 1)) + 1 := by
          have := checkpoints_mono (m + 1) os.length
          rw [hc, hlen] at this
          omega
        have i := ih n (m + 1)
        rw [hc, hlen] at i
        rw [if_pos h0, hr, List.range'_succ, lines, hj]
        by_cases h1 : last + 1001 * 1000000 ≤ clock (checkpoints m + 1)
        · rw [if_pos (by unfold asMillis; omega), if_pos h1, i _ _ (by omega)]
          simp [asMillis]
        · rw [if_neg (by unfold asMillis; omega), if_neg h1, i _ _ (by omega)]
      · have hc := checkpoints_stay m h0
        have i := ih n (m + 1)
        rw [hc, hlen] at i
        rw [if_neg h0, i _ _ (by omega)]

theorem speed_new {zlib : Proto.Bytes → Option Proto.Bytes} {b : Build} (clock : Nat → Nat) {r t : StringPbf.PBFReader}
    {os : List StringOSMObj} {e : Option Panic} (h : Drain (StringPbf.PBFReader.next zlib b) r os e t)
    (hl : os.length < 18446744073709551616) (n : Nat) :
    speedLoop zlib b clock n r 0 (clock 0) 1 [] =
      if os.length < n then
        some (lines clock (clock 0) (List.range (checkpoints os.length)), loopEnd e (UInt64.ofNat os.length, checkpoints os.length + 1))
      else none := by
  have := speed_drain clock h n 0 (clock 0) [] (by omega)
  rw [checkpoints_zero, Nat.zero_add, Nat.zero_add, Nat.sub_zero, ← List.range_eq_range', List.nil_append] at this
  exact this

/-- **C87**, `osmio-pbf-read-speed`: whatever the file holds, the program ends. If a loop over the reader sees the objects `ds`, exactly these lines
are printed on the way; at the end of the file the last line shows how many objects there are; if the reader panics there is no last line. -/
theorem C87_speed (zlib : Proto.Bytes → Option Proto.Bytes) (b : Build) (clock : Nat → Nat) (files : Files) (args : List FileName)
    {name : FileName} (ha : args[1]? = some name) {src : Source} (hf : files name = some src) :
    ∃ ds e, Pbf.Reads .owned zlib b src ds e ∧ (ds.length < 18446744073709551616 →
      ∀ rounds, pbfReadSpeed zlib b clock files args rounds =
        if ds.length < rounds then
          some (lines clock (clock 0) (List.range (checkpoints ds.length)),
            match e with
            | none => some ⟨UInt64.ofNat ds.length, (clock (checkpoints ds.length + 1) - clock 0) / 1000000⟩
            | some _ => none, ended e)
        else none) := by
  obtain ⟨ds, e, h⟩ := reads_total .owned zlib b src
  refine ⟨ds, e, h, fun hl rounds => ?_⟩
  obtain ⟨os, t, h1, rfl⟩ := h
  rw [List.length_map] at hl ⊢
  rw [pbfReadSpeed, ha]
  simp only [hf]
  have := speed_new clock h1 hl rounds
  clear hl
  generalize checkpoints os.length = c at this ⊢
  generalize UInt64.ofNat os.length = u at this ⊢
  rw [this]
  by_cases hr : os.length < rounds
  · rw [if_pos hr, if_pos hr]
    cases e <;> simp only [ended, loopEnd, asMillis]
  · rw [if_neg hr, if_neg hr]

/-- The lines printed on the way say the truth: the counts are multiples of a million that have been reached, they grow, and with a clock that
does not go back the times lie more than a second apart. -/
theorem C87_speed_lines (clock : Nat → Nat) (hc : ∀ i j, i ≤ j → clock i ≤ clock j) (n : Nat) (hn : n < 18446744073709551616) :
    (∀ l ∈ lines clock (clock 0) (List.range (checkpoints n)),
      1000 < l.millis ∧ l.objects.toNat < n ∧ l.objects.toNat % 1000000 = 0) ∧
    (lines clock (clock 0) (List.range (checkpoints n))).Pairwise fun l l' =>
      l.objects.toNat < l'.objects.toNat ∧ l.millis + 1000 < l'.millis := by
  have key : ∀ (k i last : Nat), i + k ≤ checkpoints n → clock 0 ≤ last →
      (∀ l ∈ lines clock last (List.range' i k), (last - clock 0) / 1000000 + 1000 < l.millis ∧ i * 1000000 ≤ l.objects.toNat ∧
        l.objects.toNat < n ∧ l.objects.toNat % 1000000 = 0) ∧
      (lines clock last (List.range' i k)).Pairwise fun l l' => l.objects.toNat < l'.objects.toNat ∧ l.millis + 1000 < l'.millis := by
    intro k
    induction k with
    | zero => intro i last _ _; exact ⟨fun l hl => by simp [lines] at hl, by simp [lines]⟩
    | succ k ih =>
      intro i last hi hl
      rw [List.range'_succ, lines]
      have hlt : i * 1000000 < n := checkpoints_lt (by omega)
      have ht : (UInt64.ofNat (i * 1000000)).toNat = i * 1000000 := UInt64.toNat_ofNat_of_lt' (by simp [UInt64.size]; omega)
      split
      · rename_i h
        obtain ⟨h1, h2⟩ := ih (i + 1) (clock (i + 1)) (by omega) (hc _ _ (by omega))
        refine ⟨fun l hm => ?_, List.pairwise_cons.2 ⟨fun l hm => ?_, h2⟩⟩
        · rcases List.mem_cons.1 hm with rfl | hm
          · simp only [ht]; omega
          · have := h1 l hm; omega
        · have := h1 l hm
          simp only [ht]; omega
      · obtain ⟨h1, h2⟩ := ih (i + 1) last (by omega) hl
        refine ⟨fun l hm => ?_, h2⟩
        obtain ⟨h3, h4, h5, h6⟩ := h1 l hm
        exact ⟨h3, Nat.le_trans (Nat.mul_le_mul_right _ (Nat.le_succ i)) h4, h5, h6⟩
  rw [List.range_eq_range']
  obtain ⟨h1, h2⟩ := key (checkpoints n) 0 (clock 0) (by omega) (Nat.le_refl _)
  refine ⟨fun l hm => ?_, h2⟩
  obtain ⟨a, -, c, d⟩ := h1 l hm
  rw [Nat.sub_self, Nat.zero_div, Nat.zero_add] at a
  exact ⟨a, c, d⟩

/-! The hypotheses are met. -/

example (doc : List UInt8)
    (hdoc : doc = (OSCWriter.drop (run (oscCall (α := Family.string.Obj)) (OSCWriter.new ⟨[], []⟩) sampleHistory).2).2.writer.out) :
    ∃ os : List StringOSMObj, os.map objData = (written sampleHistory).map (fun o => readBack (objData o)) ∧
      oscDebug .keep (oneFile (doc.map some)) [[], [97]] 3 = some (os, .well) := by
  obtain ⟨os, h1, h2⟩ := C87_debug_written (f := .string) .keep (fun _ _ _ _ => rfl) ⟨[], []⟩ (fun _ h => by cases h) rfl sampleHistory C84_nonvacuous.1
    C84_nonvacuous.2.2.2.1 (files := oneFile (doc.map some)) (args := [[], [97]]) (name := [97]) rfl (by rw [← hdoc]; rfl)
  exact ⟨os, h1, h2 3 (by decide)⟩

/-- The file of C41, with a clock that is read twice: at the first object and at the end. -/
example (b : Build) : pbfReadSpeed some b (fun i => 700000000 * i) (oneFile (Pbf.source (Pbf.fileBytes PbfEx.file))) [[], [97]] 100 =
    some ([], some ⟨6, 1400⟩, .well) := by
  obtain ⟨ds, e, h, h1⟩ := C87_speed some b (fun i => 700000000 * i) (oneFile (Pbf.source (Pbf.fileBytes PbfEx.file))) [[], [97]] (name := [97]) rfl
    (src := Pbf.source (Pbf.fileBytes PbfEx.file)) rfl
  obtain ⟨os, t, h2, rfl⟩ := h
  obtain ⟨os', t', h3, h4⟩ := PbfEx.file_drain b
  obtain ⟨rfl, rfl, -⟩ := h3.unique h2
  rw [h4] at h1
  have hl : PbfEx.fileData.flatten.length = 6 := by decide +kernel
  rw [hl] at h1
  have hc : checkpoints 6 = 1 := by unfold checkpoints; omega
  rw [h1 (by omega) 100, if_pos (by omega), hc]
  rfl

/-- Two million and one objects, one second and a half for each million. -/
example : lines (fun i => 1500000000 * i) 0 (List.range 3) = [⟨0, 1500⟩, ⟨1000000, 3000⟩, ⟨2000000, 4500⟩] := by
  simp [lines, List.range_succ]

end Osmio
