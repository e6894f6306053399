import Verif.Model.ChangesetsOver
import Verif.Proofs.QuickXmlPull
import Verif.Proofs.ChangesetCut
/-! The changeset readers over a source of events that gives the events of a list answer as over the list. -/

namespace Osmio.Changesets
open QuickXml Spec.Cs

/-- `read` gives the events that `S` says. -/
def Simulates {σ : Type} (read : Nat → σ → Option (Read × σ)) (S : σ → Events → Prop) : Prop :=
  ∀ s evs, S s evs → ∃ s', ReturnsAfter (fun n => read n s) (readEvent evs).1 s' ∧ S s' (readEvent evs).2

/-- From some number on the call returns. -/
def Eventually {σ ρ : Type} (f : Nat → σ → Option (ρ × σ)) (s : σ) (x : ρ × σ) : Prop := ∃ N, ∀ n, N ≤ n → f n s = some x

section
variable {σ : Type} {read : Nat → σ → Option (Read × σ)} {S : σ → Events → Prop}

theorem readTags_to (h : Simulates read S) (n : Nat) : ∀ (tags : TagMap) (s : σ) (evs : Events) (r : Except Err TagMap) (evs' : Events), S s evs →
    readTags n tags evs = some (r, evs') → ∃ s', S s' evs' ∧ ∃ N, ∀ m, N ≤ m → readTagsOver read m tags s = some (r, s') := by
  induction n with
  | zero => intro _ _ _ _ _ _ h; cases h
  | succ n ih =>
    intro tags s evs r evs' hs hr
    obtain ⟨s1, ⟨N, h1⟩, h2⟩ := h s evs hs
    have start : ∀ m, N ≤ m → read (m + 1) s = some ((readEvent evs).1, s1) := fun m hm => (h1 (m + 1)).trans (if_pos (by omega))
    rw [readTags] at hr
    rcases he : readEvent evs with ⟨e, rest⟩
    rw [he] at hr h2 start
    have stop : ∀ x, (∀ m, N ≤ m → readTagsOver read (m + 1) tags s = some (x, s1)) → x = r → rest = evs' →
        ∃ s', S s' evs' ∧ ∃ N, ∀ m, N ≤ m → readTagsOver read m tags s = some (r, s') := by
      rintro x hx rfl rfl
      refine ⟨s1, h2, N + 1, fun m hm => ?_⟩
      obtain ⟨m, rfl⟩ : ∃ k, m = k + 1 := ⟨m - 1, by omega⟩
      exact hx m (by omega)
    have go : ∀ tags', (∀ m, N ≤ m → readTagsOver read (m + 1) tags s = readTagsOver read m tags' s1) → readTags n tags' rest = some (r, evs') →
        ∃ s', S s' evs' ∧ ∃ N, ∀ m, N ≤ m → readTagsOver read m tags s = some (r, s') := by
      intro tags' hx hr'
      obtain ⟨s', hs', M, hM⟩ := ih tags' s1 rest r evs' h2 hr'
      refine ⟨s', hs', max N M + 1, fun m hm => ?_⟩
      obtain ⟨m, rfl⟩ : ∃ k, m = k + 1 := ⟨m - 1, by omega⟩
      rw [hx m (by omega), hM m (by omega)]
    have tag : ∀ attrs, (∀ m, N ≤ m → readTagsOver read (m + 1) tags s =
          match tagOf attrs with
          | .ok (k, v) => readTagsOver read m (tags.insert k v) s1
          | .error e => some (.error e, s1)) →
        (match tagOf attrs with
          | .ok (k, v) => readTags n (tags.insert k v) rest
          | .error e => some (.error e, rest)) = some (r, evs') →
        ∃ s', S s' evs' ∧ ∃ N, ∀ m, N ≤ m → readTagsOver read m tags s = some (r, s') := by
      intro attrs hx hr'
      cases ht : tagOf attrs with
      | error e =>
        simp only [ht] at hx hr'
        cases hr'
        exact stop _ hx rfl rfl
      | ok kv =>
        simp only [ht] at hx hr'
        exact go _ hx hr'
    cases e with
    | error => cases hr; exact stop _ (fun m hm => by rw [readTagsOver, start m hm]) rfl rfl
    | eof => exact go tags (fun m hm => by rw [readTagsOver, start m hm]) hr
    | event e =>
      cases e with
      | other => exact go tags (fun m hm => by rw [readTagsOver, start m hm]) hr
      | end_ name =>
        simp only at hr
        split at hr
        · rename_i hn
          cases hr
          exact stop _ (fun m hm => by rw [readTagsOver, start m hm]; exact if_pos hn) rfl rfl
        · rename_i hn
          exact go tags (fun m hm => by rw [readTagsOver, start m hm]; exact if_neg hn) hr
      | start name attrs =>
        simp only at hr
        split at hr
        · rename_i hn
          exact tag attrs (fun m hm => by rw [readTagsOver, start m hm]; exact if_pos hn) hr
        · rename_i hn
          exact go tags (fun m hm => by rw [readTagsOver, start m hm]; exact if_neg hn) hr
      | empty name attrs =>
        simp only at hr
        split at hr
        · rename_i hn
          exact tag attrs (fun m hm => by rw [readTagsOver, start m hm]; exact if_pos hn) hr
        · rename_i hn
          exact go tags (fun m hm => by rw [readTagsOver, start m hm]; exact if_neg hn) hr

theorem readTags_from (h : Simulates read S) (n : Nat) : ∀ (tags : TagMap) (s : σ) (evs : Events) (r : Except Err TagMap) (s' : σ), S s evs →
    readTagsOver read n tags s = some (r, s') → ∃ evs', S s' evs' ∧ readTags n tags evs = some (r, evs') := by
  induction n with
  | zero => intro _ _ _ _ _ _ h; cases h
  | succ n ih =>
    intro tags s evs r s' hs hr
    obtain ⟨s1, ⟨N, h1⟩, h2⟩ := h s evs hs
    rw [readTagsOver] at hr
    have h1' : read (n + 1) s = if N ≤ n + 1 then some ((readEvent evs).1, s1) else none := h1 (n + 1)
    rw [h1'] at hr
    split at hr
    · cases hr
    all_goals (rename_i he; split at he <;> [skip; cases he])
    all_goals
      rcases hre : readEvent evs with ⟨e, rest⟩
      rw [hre] at h2 he
      simp only [Option.some.injEq, Prod.mk.injEq] at he
      obtain ⟨rfl, rfl⟩ := he
      rw [readTags, hre]
      try simp only at hr ⊢
    · cases hr; exact ⟨_, h2, rfl⟩
    · split at hr <;> rename_i hn
      · rw [if_pos hn]; cases hr; exact ⟨_, h2, rfl⟩
      · rw [if_neg hn]; exact ih _ _ _ _ _ h2 hr
    · split at hr <;> rename_i hn
      · rw [if_pos hn]
        split at hr <;> rename_i ht
        · rw [ht]; exact ih _ _ _ _ _ h2 hr
        · rw [ht]; cases hr; exact ⟨_, h2, rfl⟩
      · rw [if_neg hn]; exact ih _ _ _ _ _ h2 hr
    · split at hr <;> rename_i hn
      · rw [if_pos hn]
        split at hr <;> rename_i ht
        · rw [ht]; exact ih _ _ _ _ _ h2 hr
        · rw [ht]; cases hr; exact ⟨_, h2, rfl⟩
      · rw [if_neg hn]; exact ih _ _ _ _ _ h2 hr
    · exact ih _ _ _ _ _ h2 hr
    · exact ih _ _ _ _ _ h2 hr

theorem next_to (h : Simulates read S) (n : Nat) : ∀ (s : σ) (evs : Events) (r : Except Err (Option Changeset)) (evs' : Events), S s evs →
    nextChangeset n evs = some (r, evs') → ∃ s', S s' evs' ∧ ∃ N, ∀ m, N ≤ m → nextChangesetOver read m s = some (r, s') := by
  induction n with
  | zero => intro _ _ _ _ _ h; cases h
  | succ n ih =>
    intro s evs r evs' hs hr
    obtain ⟨s1, ⟨N, h1⟩, h2⟩ := h s evs hs
    have start : ∀ m, N ≤ m → read (m + 1) s = some ((readEvent evs).1, s1) := fun m hm => (h1 (m + 1)).trans (if_pos (by omega))
    rw [nextChangeset] at hr
    rcases he : readEvent evs with ⟨e, rest⟩
    rw [he] at hr h2 start
    have stop : ∀ x, (∀ m, N ≤ m → nextChangesetOver read (m + 1) s = some (x, s1)) → x = r → rest = evs' →
        ∃ s', S s' evs' ∧ ∃ N, ∀ m, N ≤ m → nextChangesetOver read m s = some (r, s') := by
      rintro x hx rfl rfl
      refine ⟨s1, h2, N + 1, fun m hm => ?_⟩
      obtain ⟨m, rfl⟩ : ∃ k, m = k + 1 := ⟨m - 1, by omega⟩
      exact hx m (by omega)
    have go : (∀ m, N ≤ m → nextChangesetOver read (m + 1) s = nextChangesetOver read m s1) → nextChangeset n rest = some (r, evs') →
        ∃ s', S s' evs' ∧ ∃ N, ∀ m, N ≤ m → nextChangesetOver read m s = some (r, s') := by
      intro hx hr'
      obtain ⟨s', hs', M, hM⟩ := ih s1 rest r evs' h2 hr'
      refine ⟨s', hs', max N M + 1, fun m hm => ?_⟩
      obtain ⟨m, rfl⟩ : ∃ k, m = k + 1 := ⟨m - 1, by omega⟩
      rw [hx m (by omega), hM m (by omega)]
    cases e with
    | error => cases hr; exact stop _ (fun m hm => by rw [nextChangesetOver, start m hm]) rfl rfl
    | eof => cases hr; exact stop _ (fun m hm => by rw [nextChangesetOver, start m hm]) rfl rfl
    | event e =>
      cases e with
      | other => exact go (fun m hm => by rw [nextChangesetOver, start m hm]) hr
      | end_ name => exact go (fun m hm => by rw [nextChangesetOver, start m hm]) hr
      | empty name attrs =>
        simp only at hr
        split at hr <;> rename_i hn
        · split at hr <;> rename_i hb
          · cases hr
            exact stop _ (fun m hm => by rw [nextChangesetOver, start m hm]; simp only [if_pos hn, hb]) rfl rfl
          · cases hr
            exact stop _ (fun m hm => by rw [nextChangesetOver, start m hm]; simp only [if_pos hn, hb]) rfl rfl
        · exact go (fun m hm => by rw [nextChangesetOver, start m hm]; exact if_neg hn) hr
      | start name attrs =>
        simp only at hr
        split at hr <;> rename_i hn
        · split at hr <;> rename_i hb
          · cases hr
            exact stop _ (fun m hm => by rw [nextChangesetOver, start m hm]; simp only [if_pos hn, hb]) rfl rfl
          · have tags : ∀ x, readTags n [] rest = some (x, evs') → (∀ m s', readTagsOver read m [] s1 = some (x, s') →
                N ≤ m → nextChangesetOver read (m + 1) s = some (r, s')) →
                ∃ s', S s' evs' ∧ ∃ N, ∀ m, N ≤ m → nextChangesetOver read m s = some (r, s') := by
              intro x hx hy
              obtain ⟨s', hs', M, hM⟩ := readTags_to h n [] s1 rest x evs' h2 hx
              refine ⟨s', hs', max N M + 1, fun m hm => ?_⟩
              obtain ⟨m, rfl⟩ : ∃ k, m = k + 1 := ⟨m - 1, by omega⟩
              exact hy m s' (hM m (by omega)) (by omega)
            split at hr <;> rename_i ht
            · cases hr
              exact tags _ ht fun m s' e hm => by rw [nextChangesetOver, start m hm]; simp only [if_pos hn, hb, e]
            · cases hr
              exact tags _ ht fun m s' e hm => by rw [nextChangesetOver, start m hm]; simp only [if_pos hn, hb, e]
            · cases hr
        · exact go (fun m hm => by rw [nextChangesetOver, start m hm]; exact if_neg hn) hr

theorem next_from (h : Simulates read S) (n : Nat) : ∀ (s : σ) (evs : Events) (r : Except Err (Option Changeset)) (s' : σ), S s evs →
    nextChangesetOver read n s = some (r, s') → ∃ evs', S s' evs' ∧ nextChangeset n evs = some (r, evs') := by
  induction n with
  | zero => intro _ _ _ _ _ h; cases h
  | succ n ih =>
    intro s evs r s' hs hr
    obtain ⟨s1, ⟨N, h1⟩, h2⟩ := h s evs hs
    rw [nextChangesetOver] at hr
    have h1' : read (n + 1) s = if N ≤ n + 1 then some ((readEvent evs).1, s1) else none := h1 (n + 1)
    rw [h1'] at hr
    split at hr
    · cases hr
    all_goals (rename_i he; split at he <;> [skip; cases he])
    all_goals
      rcases hre : readEvent evs with ⟨e, rest⟩
      rw [hre] at h2 he
      simp only [Option.some.injEq, Prod.mk.injEq] at he
      obtain ⟨rfl, rfl⟩ := he
      rw [nextChangeset, hre]
      try simp only at hr ⊢
    · cases hr; exact ⟨_, h2, rfl⟩
    · cases hr; exact ⟨_, h2, rfl⟩
    · split at hr <;> rename_i hn
      · rw [if_pos hn]
        split at hr <;> rename_i hb
        · rw [hb]; cases hr; exact ⟨_, h2, rfl⟩
        · rw [hb]
          simp only
          split at hr <;> rename_i ht
          · obtain ⟨evs', g1, g2⟩ := readTags_from h n _ _ _ _ _ h2 ht
            rw [g2]; cases hr; exact ⟨_, g1, rfl⟩
          · obtain ⟨evs', g1, g2⟩ := readTags_from h n _ _ _ _ _ h2 ht
            rw [g2]; cases hr; exact ⟨_, g1, rfl⟩
          · cases hr
      · rw [if_neg hn]; exact ih _ _ _ _ h2 hr
    · split at hr <;> rename_i hn
      · rw [if_pos hn]
        split at hr <;> rename_i hb
        · rw [hb]; cases hr; exact ⟨_, h2, rfl⟩
        · rw [hb]; cases hr; exact ⟨_, h2, rfl⟩
      · rw [if_neg hn]; exact ih _ _ _ _ h2 hr
    · exact ih _ _ _ _ h2 hr
    · exact ih _ _ _ _ h2 hr

/-- A tag reader over `σ` and one over a list of events. -/
def TagSim (S : σ → Events → Prop) (t : TagReaderOver σ) (u : TagReader) : Prop := S t.reader u.evs ∧ t.currId = u.currId ∧ t.tags = u.tags

theorem tag_to (h : Simulates read S) (n : Nat) : ∀ (s : TagReaderOver σ) (u : TagReader) r (u' : TagReader), TagSim S s u →
    nextTag n u = some (r, u') → ∃ s', TagSim S s' u' ∧ ∃ N, ∀ m, N ≤ m → nextTagOver read m s = some (r, s') := by
  induction n with
  | zero => intro _ _ _ _ _ h; cases h
  | succ n ih =>
    rintro ⟨s, id, tags⟩ ⟨evs, id', tags'⟩ r u' ⟨hs, rfl, rfl⟩ hr
    obtain ⟨s1, ⟨N, h1⟩, h2⟩ := h s evs hs
    have start : ∀ m, N ≤ m → read (m + 1) s = some ((readEvent evs).1, s1) := fun m hm => (h1 (m + 1)).trans (if_pos (by omega))
    rw [nextTag] at hr
    simp only at hr
    rcases he : readEvent evs with ⟨e, rest⟩
    rw [he] at hr h2 start
    have stop : ∀ x i t, (∀ m, N ≤ m → nextTagOver read (m + 1) ⟨s, id, tags⟩ = some (x, ⟨s1, i, t⟩)) → x = r → ⟨rest, i, t⟩ = u' →
        ∃ s', TagSim S s' u' ∧ ∃ N, ∀ m, N ≤ m → nextTagOver read m ⟨s, id, tags⟩ = some (r, s') := by
      rintro x i t hx rfl rfl
      refine ⟨⟨s1, i, t⟩, ⟨h2, rfl, rfl⟩, N + 1, fun m hm => ?_⟩
      obtain ⟨m, rfl⟩ : ∃ k, m = k + 1 := ⟨m - 1, by omega⟩
      exact hx m (by omega)
    have go : ∀ i t, (∀ m, N ≤ m → nextTagOver read (m + 1) ⟨s, id, tags⟩ = nextTagOver read m ⟨s1, i, t⟩) → nextTag n ⟨rest, i, t⟩ = some (r, u') →
        ∃ s', TagSim S s' u' ∧ ∃ N, ∀ m, N ≤ m → nextTagOver read m ⟨s, id, tags⟩ = some (r, s') := by
      intro i t hx hr'
      obtain ⟨s', hs', M, hM⟩ := ih ⟨s1, i, t⟩ ⟨rest, i, t⟩ r u' ⟨h2, rfl, rfl⟩ hr'
      refine ⟨s', hs', max N M + 1, fun m hm => ?_⟩
      obtain ⟨m, rfl⟩ : ∃ k, m = k + 1 := ⟨m - 1, by omega⟩
      rw [hx m (by omega), hM m (by omega)]
    cases e with
    | error => cases hr; exact stop _ _ _ (fun m hm => by rw [nextTagOver, start m hm]) rfl rfl
    | eof => cases hr; exact stop _ _ _ (fun m hm => by rw [nextTagOver, start m hm]) rfl rfl
    | event e =>
      cases e with
      | other => exact go _ _ (fun m hm => by rw [nextTagOver, start m hm]) hr
      | end_ name =>
        simp only at hr
        split at hr <;> rename_i hn
        · cases id with
          | none => cases hr; exact stop _ _ _ (fun m hm => by rw [nextTagOver, start m hm]; simp only [if_pos hn]) rfl rfl
          | some i => cases hr; exact stop _ _ _ (fun m hm => by rw [nextTagOver, start m hm]; simp only [if_pos hn]) rfl rfl
        · exact go _ _ (fun m hm => by rw [nextTagOver, start m hm]; exact if_neg hn) hr
      | start name attrs =>
        simp only at hr
        split at hr <;> rename_i hn
        · split at hr <;> rename_i hi
          · exact go _ _ (fun m hm => by rw [nextTagOver, start m hm]; simp only [if_pos hn, hi]) hr
          · cases hr; exact stop _ _ _ (fun m hm => by rw [nextTagOver, start m hm]; simp only [if_pos hn, hi]) rfl rfl
        · split at hr <;> rename_i hn'
          · split at hr <;> rename_i ht
            · exact go _ _ (fun m hm => by rw [nextTagOver, start m hm]; simp only [if_neg hn, if_pos hn', ht]) hr
            · cases hr; exact stop _ _ _ (fun m hm => by rw [nextTagOver, start m hm]; simp only [if_neg hn, if_pos hn', ht]) rfl rfl
          · exact go _ _ (fun m hm => by rw [nextTagOver, start m hm]; simp only [if_neg hn, if_neg hn']) hr
      | empty name attrs =>
        simp only at hr
        split at hr <;> rename_i hn'
        · split at hr <;> rename_i ht
          · exact go _ _ (fun m hm => by rw [nextTagOver, start m hm]; simp only [if_pos hn', ht]) hr
          · cases hr; exact stop _ _ _ (fun m hm => by rw [nextTagOver, start m hm]; simp only [if_pos hn', ht]) rfl rfl
        · exact go _ _ (fun m hm => by rw [nextTagOver, start m hm]; simp only [if_neg hn']) hr

theorem tag_from (h : Simulates read S) (n : Nat) : ∀ (s : TagReaderOver σ) (u : TagReader) r (s' : TagReaderOver σ), TagSim S s u →
    nextTagOver read n s = some (r, s') → ∃ u', TagSim S s' u' ∧ nextTag n u = some (r, u') := by
  induction n with
  | zero => intro _ _ _ _ _ h; cases h
  | succ n ih =>
    rintro ⟨s, id, tags⟩ ⟨evs, id', tags'⟩ r s' ⟨hs, rfl, rfl⟩ hr
    obtain ⟨s1, ⟨N, h1⟩, h2⟩ := h s evs hs
    rw [nextTagOver] at hr
    have h1' : read (n + 1) s = if N ≤ n + 1 then some ((readEvent evs).1, s1) else none := h1 (n + 1)
    simp only at hr
    rw [h1'] at hr
    split at hr
    · cases hr
    all_goals (rename_i he; split at he <;> [skip; cases he])
    all_goals
      rcases hre : readEvent evs with ⟨e, rest⟩
      rw [hre] at h2 he
      simp only [Option.some.injEq, Prod.mk.injEq] at he
      obtain ⟨rfl, rfl⟩ := he
      rw [nextTag]
      simp only [hre]
      try simp only at hr ⊢
    · cases hr; exact ⟨_, ⟨h2, rfl, rfl⟩, rfl⟩
    · cases hr; exact ⟨_, ⟨h2, rfl, rfl⟩, rfl⟩
    · split at hr <;> rename_i hn
      · rw [if_pos hn]
        cases id with
        | none => cases hr; exact ⟨_, ⟨h2, rfl, rfl⟩, rfl⟩
        | some i => cases hr; exact ⟨_, ⟨h2, rfl, rfl⟩, rfl⟩
      · rw [if_neg hn]; exact ih _ _ _ _ ⟨h2, rfl, rfl⟩ hr
    · split at hr <;> rename_i hn
      · rw [if_pos hn]
        split at hr <;> rename_i hi
        · rw [hi]; exact ih _ _ _ _ ⟨h2, rfl, rfl⟩ hr
        · rw [hi]; cases hr; exact ⟨_, ⟨h2, rfl, rfl⟩, rfl⟩
      · rw [if_neg hn]
        split at hr <;> rename_i hn'
        · rw [if_pos hn']
          split at hr <;> rename_i ht
          · rw [ht]; exact ih _ _ _ _ ⟨h2, rfl, rfl⟩ hr
          · rw [ht]; cases hr; exact ⟨_, ⟨h2, rfl, rfl⟩, rfl⟩
        · rw [if_neg hn']; exact ih _ _ _ _ ⟨h2, rfl, rfl⟩ hr
    · split at hr <;> rename_i hn'
      · rw [if_pos hn']
        split at hr <;> rename_i ht
        · rw [ht]; exact ih _ _ _ _ ⟨h2, rfl, rfl⟩ hr
        · rw [ht]; cases hr; exact ⟨_, ⟨h2, rfl, rfl⟩, rfl⟩
      · rw [if_neg hn']; exact ih _ _ _ _ ⟨h2, rfl, rfl⟩ hr
    · exact ih _ _ _ _ ⟨h2, rfl, rfl⟩ hr

end
end Osmio.Changesets
