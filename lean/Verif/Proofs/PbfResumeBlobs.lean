import Verif.Proofs.PbfResume
/-! # Proofs: what a blob gives -/

namespace Osmio
open Spec.Pbf
open Spec (ObjData)

/-! ## Loops that stop -/

theorem runAll_first {α β : Type} {f : α → Res β} {l : List α} {os : List β} {p : Panic} (h : runAll f l = (os, some p)) :
    os.length < l.length ∧ ∀ m, runAll f (l.take m) = if m ≤ os.length then (os.take m, none) else (os, some p) := by
  induction l generalizing os with
  | nil => cases h
  | cons a l ih =>
    rw [runAll] at h
    cases hf : f a with
    | error q =>
      rw [hf] at h
      cases h
      refine ⟨by simp, fun m => ?_⟩
      cases m with
      | zero => rfl
      | succ m => simp [runAll, hf]
    | ok b =>
      rw [hf] at h
      simp only [Prod.mk.injEq] at h
      obtain ⟨rfl, h2⟩ := h
      obtain ⟨h3, h4⟩ := ih (os := (runAll f l).1) (Prod.ext rfl h2)
      refine ⟨by simpa using h3, fun m => ?_⟩
      cases m with
      | zero => rfl
      | succ m =>
        rw [List.take_succ_cons, runAll, hf]
        simp only
        rw [h4 m]
        by_cases hm : m ≤ (runAll f l).1.length
        · rw [if_pos hm, if_pos (by simpa using hm)]; rfl
        · rw [if_neg hm, if_neg (by simpa using hm)]

theorem denseLoop_first {step : Nat → StringPbf.DenseState → Res (StringNode × StringPbf.DenseState)} {n i : Nat} {s : StringPbf.DenseState}
    {os : List StringOSMObj} {p : Panic} (h : StringPbf.denseLoop step n i s = (os, some p)) :
    os.length < n ∧ ∀ m, StringPbf.denseLoop step m i s = if m ≤ os.length then (os.take m, none) else (os, some p) := by
  induction n generalizing i s os with
  | zero => cases h
  | succ n ih =>
    rw [StringPbf.denseLoop] at h
    rcases hf : step i s with q | ⟨b, s1⟩
    · rw [hf] at h
      cases h
      refine ⟨by simp, fun m => ?_⟩
      cases m with
      | zero => rfl
      | succ m => simp [StringPbf.denseLoop, hf]
    · rw [hf] at h
      simp only [Prod.mk.injEq] at h
      obtain ⟨rfl, h2⟩ := h
      obtain ⟨h3, h4⟩ := ih (os := (StringPbf.denseLoop step n (i + 1) s1).1) (Prod.ext rfl h2)
      refine ⟨by simpa using h3, fun m => ?_⟩
      cases m with
      | zero => rfl
      | succ m =>
        rw [StringPbf.denseLoop, hf]
        simp only
        rw [h4 m]
        by_cases hm : m ≤ (StringPbf.denseLoop step n (i + 1) s1).1.length
        · rw [if_pos hm, if_pos (by simpa using hm)]; rfl
        · rw [if_neg hm, if_neg (by simpa using hm)]

theorem denseLoop_congr {step step' : Nat → StringPbf.DenseState → Res (StringNode × StringPbf.DenseState)} {k : Nat}
    (h : ∀ i < k, step i = step' i) : ∀ (n i : Nat) (s : StringPbf.DenseState), i + n ≤ k → StringPbf.denseLoop step n i s = StringPbf.denseLoop step' n i s := by
  intro n
  induction n with
  | zero => intros; rfl
  | succ n ih =>
    intro i s hk
    rw [StringPbf.denseLoop, StringPbf.denseLoop, h i (by omega)]
    cases step' i s with
    | error p => rfl
    | ok x => simp only; rw [ih _ _ (by omega)]

theorem posLoop_first {step : Nat → NodePos.State → Res (NodePos.NodeIdPos × NodePos.State)} {n i : Nat} {s : NodePos.State}
    {os : List NodePos.NodeIdPos} {p : Panic} (h : NodePos.loop step n i s = (os, some p)) :
    os.length < n ∧ ∀ m, NodePos.loop step m i s = if m ≤ os.length then (os.take m, none) else (os, some p) := by
  induction n generalizing i s os with
  | zero => cases h
  | succ n ih =>
    rw [NodePos.loop] at h
    rcases hf : step i s with q | ⟨b, s1⟩
    · rw [hf] at h
      cases h
      refine ⟨by simp, fun m => ?_⟩
      cases m with
      | zero => rfl
      | succ m => simp [NodePos.loop, hf]
    · rw [hf] at h
      simp only [Prod.mk.injEq] at h
      obtain ⟨rfl, h2⟩ := h
      obtain ⟨h3, h4⟩ := ih (os := (NodePos.loop step n (i + 1) s1).1) (Prod.ext rfl h2)
      refine ⟨by simpa using h3, fun m => ?_⟩
      cases m with
      | zero => rfl
      | succ m =>
        rw [NodePos.loop, hf]
        simp only
        rw [h4 m]
        by_cases hm : m ≤ (NodePos.loop step n (i + 1) s1).1.length
        · rw [if_pos hm, if_pos (by simpa using hm)]; rfl
        · rw [if_neg hm, if_neg (by simpa using hm)]

theorem posLoop_congr {step step' : Nat → NodePos.State → Res (NodePos.NodeIdPos × NodePos.State)} {k : Nat}
    (h : ∀ i < k, step i = step' i) : ∀ (n i : Nat) (s : NodePos.State), i + n ≤ k → NodePos.loop step n i s = NodePos.loop step' n i s := by
  intro n
  induction n with
  | zero => intros; rfl
  | succ n ih =>
    intro i s hk
    rw [NodePos.loop, NodePos.loop, h i (by omega)]
    cases step' i s with
    | error p => rfl
    | ok x => simp only; rw [ih _ _ (by omega)]

theorem index_take {α : Type} {l : List α} {k i : Nat} (h : i < k) : index (l.take k) i = index l i := by
  unfold index
  rw [List.getElem?_take_of_lt h]

theorem dense_cut {b : Build} {dense : Proto.DenseNodes} {gr : Int32} {la lo : Int64} {dg : Int32} {table : List Str} {os : List StringOSMObj} {p : Panic}
    (h : StringPbf.decodeDenseNodes b dense gr la lo dg table = (os, some p)) (k : Nat) :
    StringPbf.decodeDenseNodes b { dense with id := dense.id.take k } gr la lo dg table =
      if k ≤ os.length then (os.take k, none) else (os, some p) := by
  unfold StringPbf.decodeDenseNodes at h ⊢
  obtain ⟨h1, h2⟩ := denseLoop_first h
  rw [denseLoop_congr (k := k) (step' := StringPbf.denseNode b dense gr la lo dg table), h2, List.length_take]
  · by_cases hk : k ≤ os.length
    · rw [if_pos hk, if_pos (by omega), Nat.min_eq_left (by omega)]
    · rw [if_neg hk, if_neg (by omega)]
  · intro i hi
    funext s
    simp only [StringPbf.denseNode, StringPbf.delta64, index_take hi]
  · simp

theorem pos_cut {b : Build} {dense : Proto.DenseNodes} {gr : Int32} {la lo : Int64} {os : List NodePos.NodeIdPos} {p : Panic}
    (h : NodePos.loop (NodePos.step b dense gr la lo) dense.id.length 0 {} = (os, some p)) (k : Nat) :
    NodePos.loop (NodePos.step b { dense with id := dense.id.take k } gr la lo) (dense.id.take k).length 0 {} =
      if k ≤ os.length then (os.take k, none) else (os, some p) := by
  obtain ⟨h1, h2⟩ := posLoop_first h
  rw [posLoop_congr (k := k) (step' := NodePos.step b dense gr la lo), h2, List.length_take]
  · by_cases hk : k ≤ os.length
    · rw [if_pos hk, if_pos (by omega), Nat.min_eq_left (by omega)]
    · rw [if_neg hk, if_neg (by omega)]
  · intro i hi
    funext s
    simp only [NodePos.step, index_take hi]
  · simp

/-! ## Groups and blocks -/

/-- The first objects of a group that cannot be read: of no part of it, or as far as they go. -/
theorem group_cut {b : Build} {g : Proto.PrimitiveGroup} {gr : Int32} {la lo : Int64} {dg : Int32} {raw : Proto.StringTable} {os : List StringOSMObj} {p : Panic}
    (h : StringPbf.decodeGroup b g gr la lo dg raw (true, true, true) = (os, some p)) :
    (os = [] ∧ ∀ k, ∃ q, StringPbf.decodeGroup b (cutGroup k g) gr la lo dg raw (true, true, true) = ([], some q)) ∨
      ∀ k, StringPbf.decodeGroup b (cutGroup k g) gr la lo dg raw (true, true, true) = if k ≤ os.length then (os.take k, none) else (os, some p) := by
  unfold StringPbf.decodeGroup at h ⊢
  simp only [and_true] at h ⊢
  by_cases h1 : g.nodes ≠ []
  · rw [if_pos h1] at h
    left
    have : ∃ q, StringPbf.withTable raw (fun _ => (([], some .unimplemented) : List StringOSMObj × Option Panic)) = ([], some q) := by
      unfold StringPbf.withTable
      split <;> exact ⟨_, rfl⟩
    obtain ⟨q, hq⟩ := this
    rw [hq] at h
    cases h
    exact ⟨rfl, fun k => ⟨p, by rw [if_pos (by simpa [cutGroup] using h1), hq]⟩⟩
  · rw [if_neg h1] at h
    have h1' : ∀ k, ¬ (cutGroup k g).nodes ≠ [] := fun k => h1
    cases hd : g.dense with
    | some dense =>
      rw [hd] at h
      simp only [Option.isSome_some, if_true, Option.getD_some] at h
      have hc : ∀ k, (cutGroup k g).dense = some { dense with id := dense.id.take k } := fun k => by simp [cutGroup, hd]
      unfold StringPbf.withTable at h ⊢
      cases ht : StringPbf.stringTable raw.s with
      | error q =>
        rw [ht] at h
        cases h
        exact .inl ⟨rfl, fun k => ⟨p, by rw [if_neg (h1' k), hc]; simp⟩⟩
      | ok t =>
        rw [ht] at h
        simp only at h
        refine .inr fun k => ?_
        rw [if_neg (h1' k), hc]
        simp only [Option.isSome_some, if_true, Option.getD_some]
        exact dense_cut h k
    | none =>
      rw [hd] at h
      have hc : ∀ k, (cutGroup k g).dense = none := fun k => by simp [cutGroup, hd]
      simp only [Option.isSome_none, Bool.false_eq_true, if_false] at h
      right
      intro k
      rw [if_neg (h1' k), hc]
      simp only [Option.isSome_none, Bool.false_eq_true, if_false]
      cases k with
      | zero => simp [cutGroup]
      | succ k =>
        by_cases h2 : g.ways ≠ []
        · rw [if_pos h2] at h
          have h2' : (cutGroup (k + 1) g).ways ≠ [] := by
            obtain ⟨w, ws, hw⟩ := List.exists_cons_of_ne_nil h2
            simp [cutGroup, hw]
          rw [if_pos h2']
          unfold StringPbf.withTable at h ⊢
          cases ht : StringPbf.stringTable raw.s with
          | error q => rw [ht] at h; cases h; simp
          | ok t =>
            rw [ht] at h
            exact (runAll_first h).2 (k + 1)
        · rw [if_neg h2] at h
          have h2' : ¬ (cutGroup (k + 1) g).ways ≠ [] := by
            simp only [ne_eq, not_not] at h2
            simp [cutGroup, h2]
          rw [if_neg h2']
          by_cases h3 : g.relations ≠ []
          · rw [if_pos h3] at h
            have h3' : (cutGroup (k + 1) g).relations ≠ [] := by
              obtain ⟨w, ws, hw⟩ := List.exists_cons_of_ne_nil h3
              simp [cutGroup, hw]
            rw [if_pos h3']
            unfold StringPbf.withTable at h ⊢
            cases ht : StringPbf.stringTable raw.s with
            | error q => rw [ht] at h; cases h; simp
            | ok t =>
              rw [ht] at h
              exact (runAll_first h).2 (k + 1)
          · rw [if_neg h3] at h
            cases h

theorem block_cut {b : Build} {block : Proto.PrimitiveBlock} {os : List StringOSMObj} {p : Panic}
    (h : StringPbf.decodeBlock b block (true, true, true) = (os, some p)) :
    (os = [] ∧ ∀ k, ∃ q, StringPbf.decodeBlock b (cutBlock k block) (true, true, true) = ([], some q)) ∨
      ∀ k, StringPbf.decodeBlock b (cutBlock k block) (true, true, true) = if k ≤ os.length then (os.take k, none) else (os, some p) := by
  unfold StringPbf.decodeBlock at h ⊢
  cases ht : block.stringtable with
  | none =>
    rw [ht] at h
    cases h
    exact .inl ⟨rfl, fun k => ⟨.unwrap, by simp [cutBlock, ht]⟩⟩
  | some raw =>
    rw [ht] at h
    simp only at h
    have hc : ∀ k, (cutBlock k block).stringtable = some raw := fun k => ht
    match hg : block.primitivegroup with
    | [] =>
      rw [hg] at h
      cases h
      exact .inl ⟨rfl, fun k => ⟨.assertion, by simp [cutBlock, ht, hg]⟩⟩
    | [g] =>
      rw [hg] at h
      have e : ∀ k, (cutBlock k block).primitivegroup = [cutGroup k g] := fun k => by simp [cutBlock, hg]
      rcases group_cut h with ⟨h1, h2⟩ | h1
      · exact .inl ⟨h1, fun k => by rw [hc, e]; exact h2 k⟩
      · exact .inr fun k => by rw [hc, e]; exact h1 k
    | g :: g' :: gs =>
      rw [hg] at h
      cases h
      exact .inl ⟨rfl, fun k => ⟨.assertion, by simp [cutBlock, ht, hg]⟩⟩

theorem owned_objects {b : Build} {block : Proto.PrimitiveBlock} {ds : List ObjData} :
    Which.owned.objects b block = some ds ↔ ∃ os, StringPbf.decodeBlock b block (true, true, true) = (os, none) ∧ os.map objData = ds := by
  unfold Which.objects
  simp only
  rcases StringPbf.decodeBlock b block (true, true, true) with ⟨os, _ | p⟩ <;> simp

theorem before_iff {block : Proto.PrimitiveBlock} {os : List StringOSMObj} {p : Panic} {ds : List ObjData}
    (h : StringPbf.decodeBlock b block (true, true, true) = (os, some p)) : Before b block ds ↔ ds = os.map objData := by
  have hn : ∀ {bl : Proto.PrimitiveBlock} {os : List StringOSMObj} {q : Panic}, StringPbf.decodeBlock b bl (true, true, true) = (os, some q) →
      ¬ ReadableIn b .owned bl := by
    intro bl os q hb hr
    obtain ⟨ds, hds⟩ := readable_in.2 hr
    obtain ⟨os', h', _⟩ := owned_objects.1 hds
    rw [hb] at h'
    cases h'
  have hs : ∀ {bl : Proto.PrimitiveBlock} {os : List StringOSMObj}, StringPbf.decodeBlock b bl (true, true, true) = (os, none) →
      ReadableIn b .owned bl ∧ BlockShown bl (os.map objData) := fun hb => objects_iff.1 (owned_objects.2 ⟨_, hb, rfl⟩)
  rcases block_cut h with ⟨rfl, h2⟩ | h2
  · have hall : ∀ k, ¬ ReadableIn b .owned (cutBlock k block) := fun k => by
      obtain ⟨q, hq⟩ := h2 k
      exact hn hq
    constructor
    · intro hb
      cases hb with
      | nothing => rfl
      | first k _ h3 => exact absurd h3 (hall k)
    · rintro rfl
      exact .nothing hall
  · have hle : ∀ k, k ≤ os.length → ReadableIn b .owned (cutBlock k block) ∧ BlockShown (cutBlock k block) ((os.take k).map objData) :=
      fun k hk => hs (by rw [h2, if_pos hk])
    have hgt : ∀ k, os.length < k → ¬ ReadableIn b .owned (cutBlock k block) := fun k hk => hn (by rw [h2, if_neg (by omega)])
    constructor
    · intro hb
      cases hb with
      | nothing h3 => exact absurd (hle 0 (by omega)).1 (h3 0)
      | first k _ h3 h4 h5 =>
        have h6 : k = os.length := by
          by_cases hk : k ≤ os.length
          · by_cases hk' : k + 1 ≤ os.length
            · exact absurd (hle _ hk').1 h4
            · omega
          · exact absurd h3 (hgt k (by omega))
        subst h6
        have := (hle os.length le_rfl).2
        rw [List.take_length] at this
        exact blockShown_unique h5 this
    · rintro rfl
      have := hle os.length le_rfl
      rw [List.take_length] at this
      exact .first os.length _ this.1 (hgt _ (by omega)) this.2

/-! ## Blobs -/

variable {r : Which} {zlib : Proto.Bytes → Option Proto.Bytes}

theorem unpacked_unique {blob : Proto.Blob} {d d' : Proto.Bytes} (h : Unpacked zlib blob d) (h' : Unpacked zlib blob d') : d = d' := by
  obtain ⟨_, z, h1, h2⟩ := h
  obtain ⟨_, z', h1', h2'⟩ := h'
  rw [h1] at h1'
  cases h1'
  rw [h2] at h2'
  cases h2'
  rfl

theorem dataIn_unique {blob : Proto.Blob} {d d' : Proto.Bytes} (h : DataIn r zlib blob d) (h' : DataIn r zlib blob d') : d = d' := by
  cases r with
  | owned => exact unpacked_unique h h'
  | shared =>
    rcases h with h | h <;> rcases h' with h' | h'
    · rw [h] at h'; cases h'; rfl
    · rw [h'.1.1] at h; cases h
    · rw [h.1.1] at h'; cases h'
    · exact unpacked_unique h.1 h'.1

theorem block_unique {d : Proto.Bytes} {x y : Proto.PrimitiveBlock} (h : DecodesPrimitiveBlock d x) (hx : hasPrimitiveBlock x)
    (h' : DecodesPrimitiveBlock d y) (hy : hasPrimitiveBlock y) : x = y := by
  have a := block_parses.2 ⟨h, hx⟩
  rw [block_parses.2 ⟨h', hy⟩] at a
  cases a
  rfl

/-- A blob at which the reader panics. -/
theorem blob_error {blob : Proto.Blob} {ds : List ObjData} {p : Panic} (h : blobData r zlib b blob = (ds, some p)) :
    (r = .owned → ¬ PassedOver zlib blob) ∧
    ((ds = [] ∧ ∀ data block, DataIn r zlib blob data → DecodesPrimitiveBlock data block → ¬ hasPrimitiveBlock block) ∨
      ∃ data block, DataIn r zlib blob data ∧ DecodesPrimitiveBlock data block ∧ hasPrimitiveBlock block ∧ ¬ ReadableIn b r block ∧
        (r = .owned → ∀ ds', Before b block ds' ↔ ds' = ds) ∧ (r = .shared → ds = [])) := by
  have hno : ∀ {ds'}, ¬ blobData r zlib b blob = (ds', none) := fun h' => by rw [h] at h'; cases h'
  refine ⟨fun hr hp => hno (blobData_shown.2 (.inl ⟨hr, hp, rfl⟩)), ?_⟩
  have hunread : ∀ {data block}, DataIn r zlib blob data → DecodesPrimitiveBlock data block → hasPrimitiveBlock block → ¬ ReadableIn b r block := by
    intro data block h1 h2 h3 h4
    obtain ⟨ds', h5⟩ := readable_in.2 h4
    exact hno (blobData_shown.2 (.inr ⟨data, block, h1, h2, h3, objects_iff.1 h5⟩))
  cases r with
  | owned =>
    simp only [blobData, StringPbf.decodeBlob, Prod.mk.injEq] at h
    cases h1 : StringPbf.blobRawData zlib blob with
    | error q =>
      rw [h1] at h
      exact .inl ⟨h.1.symm, fun data block h2 => by rw [str_data_iff.2 (.inl h2)] at h1; cases h1⟩
    | ok data =>
      rw [h1] at h
      simp only at h
      by_cases hd : data = []
      · rw [if_pos hd] at h; cases h.2
      · rw [if_neg hd] at h
        have hdata : Unpacked zlib blob data := by
          rcases str_data_iff.1 h1 with h2 | ⟨h2, _⟩
          · exact h2
          · exact absurd h2 hd
        cases h3 : Proto.PrimitiveBlock.parseFromBytes data with
        | none =>
          rw [h3] at h
          refine .inl ⟨h.1.symm, fun data' block h4 h5 h6 => ?_⟩
          rw [unpacked_unique h4 hdata] at h5
          rw [block_parses.2 ⟨h5, h6⟩] at h3
          cases h3
        | some block =>
          rw [h3] at h
          obtain ⟨h4, h5⟩ := block_parses.1 h3
          refine .inr ⟨data, block, hdata, h4, h5, hunread hdata h4 h5, fun _ ds' => ?_, fun e => by cases e⟩
          rcases hb : StringPbf.decodeBlock b block (true, true, true) with ⟨os, e⟩
          simp only [hb] at h
          obtain ⟨rfl, rfl⟩ := h
          exact before_iff hb
  | shared =>
    have hds : ds = [] := by
      simp only [blobData, arcDecode, Prod.mk.injEq] at h
      cases h1 : ArcPbf.decodeBlob zlib b blob with
      | ok os => rw [h1] at h; cases h.2
      | error q => rw [h1] at h; exact h.1.symm
    by_cases hb : ∃ data block, DataIn .shared zlib blob data ∧ DecodesPrimitiveBlock data block ∧ hasPrimitiveBlock block
    · obtain ⟨data, block, h1, h2, h3⟩ := hb
      exact .inr ⟨data, block, h1, h2, h3, hunread h1 h2 h3, (by intro e; cases e), fun _ => hds⟩
    · exact .inl ⟨hds, fun data block h1 h2 h3 => hb ⟨data, block, h1, h2, h3⟩⟩

theorem blobGives_iff {blob : Proto.Blob} {gs : List (Option ObjData)} : BlobGives r zlib b blob gs ↔ gs = outcome (blobData r zlib b blob) := by
  rcases hb : blobData r zlib b blob with ⟨ds, _ | p⟩
  · constructor
    · intro h
      cases h with
      | nothing h1 h2 =>
        rw [blobData_shown.2 (.inl ⟨h1, h2, rfl⟩)] at hb
        cases hb; rfl
      | block data block ds' h1 h2 h3 h4 h5 =>
        rw [blobData_shown.2 (.inr ⟨data, block, h1, h2, h3, h4, h5⟩)] at hb
        cases hb; rfl
      | lost h1 h2 =>
        rcases blobData_shown.1 hb with ⟨h3, h4, _⟩ | ⟨data, block, h3, h4, h5, _⟩
        · exact absurd h4 (h1 h3)
        · exact absurd h5 (h2 data block h3 h4)
      | unreadable data block ds' h1 h2 h3 h4 =>
        rcases blobData_shown.1 hb with ⟨rfl, h6, _⟩ | ⟨data', block', h5, h6, h7, h8, _⟩
        · exfalso
          rcases h6 with h6 | h6 | h6
          · rw [h1.1] at h6; cases h6
          · obtain ⟨_, z, hz, _⟩ := h1
            rw [hz] at h6; cases h6.2
          · exact parse_some_ne (block_parses.2 ⟨h2, h3⟩) (unpacked_unique h1 h6)
        · rw [dataIn_unique h5 h1] at h6
          rw [block_unique h6 h7 h2 h3] at h8
          exact absurd h8 h4
    · rintro rfl
      rcases blobData_shown.1 hb with ⟨h1, h2, rfl⟩ | ⟨data, block, h1, h2, h3, h4, h5⟩
      · exact .nothing h1 h2
      · exact .block data block ds h1 h2 h3 h4 h5
  · obtain ⟨e1, e2⟩ := blob_error hb
    constructor
    · intro h
      cases h with
      | nothing h1 h2 => exact absurd h2 (e1 h1)
      | block data block ds' h1 h2 h3 h4 h5 =>
        rw [blobData_shown.2 (.inr ⟨data, block, h1, h2, h3, h4, h5⟩)] at hb
        cases hb
      | lost h1 h2 =>
        rcases e2 with ⟨rfl, _⟩ | ⟨data, block, h3, h4, h5, _⟩
        · rfl
        · exact absurd h5 (h2 data block h3 h4)
      | unreadable data block ds' h1 h2 h3 h4 h5 h6 =>
        rcases e2 with ⟨rfl, h7⟩ | ⟨data', block', c1, c2, c3, c4, c5, c6⟩
        · exact absurd h3 (h7 data block h1 h2)
        · rw [dataIn_unique c1 h1] at c2
          rw [block_unique c2 c3 h2 h3] at c5
          cases r with
          | owned => rw [(c5 rfl ds').1 (h5 rfl)]; rfl
          | shared => rw [c6 rfl, h6 rfl]; rfl
    · rintro rfl
      rcases e2 with ⟨rfl, h7⟩ | ⟨data', block', c1, c2, c3, c4, c5, c6⟩
      · exact .lost e1 h7
      · exact .unreadable data' block' ds c1 c2 c3 c4 (fun hr => (c5 hr ds).2 rfl) c6

/-! ## Positions -/

theorem pos_group_cut {b : Build} {g : Proto.PrimitiveGroup} {gr : Int32} {la lo : Int64} {xs : List NodePos.NodeIdPos} {p : Panic}
    (h : NodePos.decodeGroup b gr la lo g = (xs, some p)) :
    (xs = [] ∧ ∀ k, ∃ q, NodePos.decodeGroup b gr la lo (cutGroup k g) = ([], some q)) ∨
      ∀ k, NodePos.decodeGroup b gr la lo (cutGroup k g) = if k ≤ xs.length then (xs.take k, none) else (xs, some p) := by
  unfold NodePos.decodeGroup at h ⊢
  by_cases h1 : g.nodes ≠ []
  · rw [if_pos h1] at h
    cases h
    exact .inl ⟨rfl, fun k => ⟨_, if_pos h1⟩⟩
  · rw [if_neg h1] at h
    have h1' : ∀ k, ¬ (cutGroup k g).nodes ≠ [] := fun k => h1
    by_cases h2 : g.ways ≠ [] ∨ g.relations ≠ []
    · rw [if_pos h2] at h; cases h
    · rw [if_neg h2] at h
      have h2' : ∀ k, ¬ ((cutGroup k g).ways ≠ [] ∨ (cutGroup k g).relations ≠ []) := fun k => by
        simp only [ne_eq, not_or, not_not] at h2
        simp [cutGroup, h2]
      cases hd : g.dense with
      | none =>
        rw [hd] at h
        cases h
        exact .inl ⟨rfl, fun k => ⟨.unreachable, by rw [if_neg (h1' k), if_neg (h2' k)]; simp [cutGroup, hd]⟩⟩
      | some dense =>
        rw [hd] at h
        refine .inr fun k => ?_
        rw [if_neg (h1' k), if_neg (h2' k)]
        have hc : (cutGroup k g).dense = some { dense with id := dense.id.take k } := by simp [cutGroup, hd]
        rw [hc]
        exact pos_cut h k

theorem positionsBefore_iff {block : Proto.PrimitiveBlock} {g : Proto.PrimitiveGroup} {xs xs' : List NodePos.NodeIdPos} {p : Panic}
    (h : NodePos.decodeGroup b block.granularityOr block.latOffsetOr block.lonOffsetOr g = (xs, some p)) :
    PositionsBefore b block g xs' ↔ xs' = xs := by
  have hn : ∀ {g : Proto.PrimitiveGroup} {xs : List NodePos.NodeIdPos} {q : Panic},
      NodePos.decodeGroup b block.granularityOr block.latOffsetOr block.lonOffsetOr g = (xs, some q) → ¬ PosReadableIn b block g := by
    intro g xs q hb hr
    obtain ⟨xs', h'⟩ := pos_group_in.2 hr
    rw [hb] at h'
    cases h'
  have hs : ∀ {g : Proto.PrimitiveGroup} {xs : List NodePos.NodeIdPos},
      NodePos.decodeGroup b block.granularityOr block.latOffsetOr block.lonOffsetOr g = (xs, none) →
      PosReadableIn b block g ∧ GroupPositions block g xs := fun hb => ⟨pos_group_in.1 ⟨_, hb⟩, posGroup_shown hb⟩
  rcases pos_group_cut h with ⟨rfl, h2⟩ | h2
  · have hall : ∀ k, ¬ PosReadableIn b block (cutGroup k g) := fun k => by
      obtain ⟨q, hq⟩ := h2 k
      exact hn hq
    constructor
    · intro hb
      cases hb with
      | nothing => rfl
      | first k _ h3 => exact absurd h3 (hall k)
    · rintro rfl
      exact .nothing hall
  · have hle : ∀ k, k ≤ xs.length → PosReadableIn b block (cutGroup k g) ∧ GroupPositions block (cutGroup k g) (xs.take k) :=
      fun k hk => hs (by rw [h2, if_pos hk])
    have hgt : ∀ k, xs.length < k → ¬ PosReadableIn b block (cutGroup k g) := fun k hk => hn (by rw [h2, if_neg (by omega)])
    constructor
    · intro hb
      cases hb with
      | nothing h3 => exact absurd (hle 0 (by omega)).1 (h3 0)
      | first k _ h3 h4 h5 =>
        have h6 : k = xs.length := by
          by_cases hk : k ≤ xs.length
          · by_cases hk' : k + 1 ≤ xs.length
            · exact absurd (hle _ hk').1 h4
            · omega
          · exact absurd h3 (hgt k (by omega))
        subst h6
        have := (hle xs.length le_rfl).2
        rw [List.take_length] at this
        exact groupPositions_unique h5 this
    · rintro rfl
      have := hle xs'.length le_rfl
      rw [List.take_length] at this
      exact .first xs'.length _ this.1 (hgt _ (by omega)) this.2

/-- The groups before the first that cannot be read. -/
theorem pos_groups_error {decode : Proto.PrimitiveGroup → List NodePos.NodeIdPos × Option Panic} {gs : List Proto.PrimitiveGroup}
    {xs : List NodePos.NodeIdPos} {p : Panic} (h : NodePos.decodeGroups decode gs = (xs, some p)) :
    ∃ before g after xss ys q, gs = before ++ g :: after ∧ List.Forall₂ (fun g xs => decode g = (xs, none)) before xss ∧
      decode g = (ys, some q) ∧ xs = xss.flatten ++ ys := by
  induction gs generalizing xs with
  | nil => cases h
  | cons g gs ih =>
    rw [NodePos.decodeGroups] at h
    rcases hd : decode g with ⟨ys, _ | q⟩
    · rw [hd] at h
      simp only [Prod.mk.injEq] at h
      obtain ⟨rfl, h2⟩ := h
      obtain ⟨before, g', after, xss, zs, q, rfl, h4, h5, h6⟩ := ih (xs := (NodePos.decodeGroups decode gs).1) (Prod.ext rfl h2)
      exact ⟨g :: before, g', after, ys :: xss, zs, q, rfl, .cons hd h4, h5, by rw [h6]; simp⟩
    · rw [hd] at h
      cases h
      exact ⟨[], g, gs, [], xs, p, rfl, .nil, hd, rfl⟩

theorem split_unique {P : Proto.PrimitiveGroup → Prop} {a a' : List Proto.PrimitiveGroup} {g g' : Proto.PrimitiveGroup} {c c' : List Proto.PrimitiveGroup}
    (e : a ++ g :: c = a' ++ g' :: c') (h : ∀ x ∈ a, P x) (h' : ∀ x ∈ a', P x) (hg : ¬ P g) (hg' : ¬ P g') : a = a' ∧ g = g' := by
  induction a generalizing a' with
  | nil =>
    cases a' with
    | nil => cases e; exact ⟨rfl, rfl⟩
    | cons x a' => cases e; exact absurd (h' _ (.head _)) hg
  | cons x a ih =>
    cases a' with
    | nil => cases e; exact absurd (h _ (.head _)) hg'
    | cons x' a' =>
      rw [List.cons_append, List.cons_append, List.cons.injEq] at e
      obtain ⟨rfl, e⟩ := e
      obtain ⟨rfl, rfl⟩ := ih e (fun x hx => h x (.tail _ hx)) (fun x hx => h' x (.tail _ hx))
      exact ⟨rfl, rfl⟩

theorem blobGivesPositions_iff {blob : Proto.Blob} {gs : List (Option (ObjId × (Lat × Lon)))} :
    BlobGivesPositions zlib b blob gs ↔ gs = outcome (NodePos.decodeBlob zlib b blob) := by
  rcases hb : NodePos.decodeBlob zlib b blob with ⟨xs, _ | p⟩
  · obtain ⟨data, block, a1, a2, a3, a4, xss, a5, rfl⟩ := pos_blob_shown.1 hb
    constructor
    · intro h
      cases h with
      | block data' block' xss' h1 h2 h3 h4 h5 =>
        have := pos_blob_shown.2 ⟨data', block', h1, h2, h3, h4, xss', h5, rfl⟩
        rw [hb] at this
        rw [Prod.mk.injEq] at this
        simp only [outcome, this.1]
      | lost h2 => exact absurd a3 (h2 data block a1 a2)
      | unreadable data' block' before g after xss' xs h1 h2 h3 h4 h5 h6 h7 =>
        rw [unpacked_unique h1 a1] at h2
        obtain rfl := block_unique h2 h3 a2 a3
        exact absurd (a4 g (by rw [h4]; simp)) h7
    · rintro rfl
      exact .block data block xss a1 a2 a3 a4 a5
  · have hno : ∀ {xs'}, ¬ NodePos.decodeBlob zlib b blob = (xs', none) := fun h' => by rw [hb] at h'; cases h'
    have key : (xs = [] ∧ ∀ data block, Unpacked zlib blob data → DecodesPrimitiveBlock data block → ¬ hasPrimitiveBlock block) ∨
        ∃ data block before g after xss ys, Unpacked zlib blob data ∧ DecodesPrimitiveBlock data block ∧ hasPrimitiveBlock block ∧
          block.primitivegroup = before ++ g :: after ∧ (∀ g ∈ before, PosReadableIn b block g) ∧ List.Forall₂ (GroupPositions block) before xss ∧
          ¬ PosReadableIn b block g ∧ (∀ xs', PositionsBefore b block g xs' ↔ xs' = ys) ∧ xs = xss.flatten ++ ys := by
      unfold NodePos.decodeBlob at hb
      cases h1 : StringPbf.blobRawData zlib blob with
      | error q =>
        rw [h1] at hb
        cases hb
        exact .inl ⟨rfl, fun data block h2 => by rw [str_data_iff.2 (.inl h2)] at h1; cases h1⟩
      | ok data =>
        rw [h1] at hb
        simp only at hb
        cases h3 : Proto.PrimitiveBlock.parseFromBytes data with
        | none =>
          rw [h3] at hb
          cases hb
          refine .inl ⟨rfl, fun data' block h4 h5 h6 => ?_⟩
          have := str_data_iff.2 (.inl h4)
          rw [h1] at this
          cases this
          rw [block_parses.2 ⟨h5, h6⟩] at h3
          cases h3
        | some block =>
          rw [h3] at hb
          obtain ⟨h4, h5⟩ := block_parses.1 h3
          have hdata : Unpacked zlib blob data := by
            rcases str_data_iff.1 h1 with h2 | ⟨h2, _⟩
            · exact h2
            · exact absurd h2 (parse_some_ne h3)
          obtain ⟨before, g, after, xss, ys, q, c1, c2, c3, c4⟩ := pos_groups_error hb
          refine .inr ⟨data, block, before, g, after, xss, ys, hdata, h4, h5, c1, ?_, c2.imp fun _ _ h => posGroup_shown h, ?_,
            fun xs' => positionsBefore_iff c3, c4⟩
          · exact forall2_left (P := PosReadableIn b block) (fun _ xs h => pos_group_in.1 ⟨xs, h⟩) c2
          · intro hr
            obtain ⟨zs, hz⟩ := pos_group_in.2 hr
            rw [c3] at hz
            cases hz
    constructor
    · intro h
      cases h with
      | block data block xss h1 h2 h3 h4 h5 => exact absurd (pos_blob_shown.2 ⟨data, block, h1, h2, h3, h4, xss, h5, rfl⟩) hno
      | lost h2 =>
        rcases key with ⟨rfl, _⟩ | ⟨data, block, _, _, _, _, _, h3, h4, h5, _⟩
        · rfl
        · exact absurd h5 (h2 data block h3 h4)
      | unreadable data block before g after xss xs' h1 h2 h3 h4 h5 h6 h7 h8 =>
        rcases key with ⟨_, h9⟩ | ⟨data', block', before', g', after', xss', ys, c1, c2, c3, c4, c5, c6, c7, c8, rfl⟩
        · exact absurd h3 (h9 data block h1 h2)
        · rw [unpacked_unique c1 h1] at c2
          obtain rfl := block_unique c2 c3 h2 h3
          obtain ⟨rfl, rfl⟩ := split_unique (P := PosReadableIn b block') (h4.symm.trans c4) h5 c5 h7 c7
          rw [(c8 _).1 h8, forall2_right_unique (R := GroupPositions block') (fun _ _ _ h h' => groupPositions_unique h h') h6 c6]
          rfl
    · rintro rfl
      rcases key with ⟨rfl, h9⟩ | ⟨data', block', before', g', after', xss', ys, c1, c2, c3, c4, c5, c6, c7, c8, rfl⟩
      · exact .lost h9
      · exact .unreadable data' block' before' g' after' xss' ys c1 c2 c3 c4 c5 c6 c7 ((c8 _).2 rfl)

end Osmio
