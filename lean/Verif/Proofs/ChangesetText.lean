import Verif.Proofs.QuickXmlBytes
import Verif.Proofs.ChangesetTags
/-! # Lemmas: dumps of changesets as texts -/

namespace Osmio.QuickXml
open Utf8 Spec.Lex Spec.Cs

/-! ## Values -/

theorem digit_eq : digit = Xml.digit := rfl

theorem number_eq (base acc : Nat) (s : Str) : number base acc s = Xml.number base acc s := by
  induction s generalizing acc with
  | nil => rfl
  | cons c s ih => simp only [number, Xml.number, digit_eq, ih]; rfl

theorem charRef_eq {base : Nat} (hb : base = 10 ∨ base = 16) {s : Str} {c : Char} (h : Spec.Value.Number base s c.toNat)
    (hc : Spec.XmlChar c) :
    charRef base s = some c := by
  obtain ⟨h1, _, _, x, y, d, rfl, _⟩ := number_of hb h
  replace hc := (Xml.isXmlChar_iff c).2 hc
  have hv : c.toNat.isValidChar := c.valid
  have hz : c.toNat ≠ 0 := by
    intro h0
    unfold Xml.isXmlChar at hc
    simp [h0] at hc
  simp [charRef, number_eq, h1, hv, hz]

theorem resolve_ref {e : Str} {c : Char} (h : Reference ('&' :: (e ++ [';'])) c) : resolve e = some c := by
  generalize hr : '&' :: (e ++ [';']) = r at h
  cases h with
  | @entity name c h =>
    have : e = name := by simpa using hr
    subst this
    simp only [Spec.predefined, List.mem_cons, Prod.mk.injEq, List.not_mem_nil, or_false] at h
    rcases h with ⟨rfl, rfl⟩ | ⟨rfl, rfl⟩ | ⟨rfl, rfl⟩ | ⟨rfl, rfl⟩ | ⟨rfl, rfl⟩ <;> rfl
  | @dec s c h hc =>
    have : e = '#' :: s := by
      rw [List.cons.injEq, ← List.cons_append] at hr
      exact List.append_cancel_right hr.2
    subst this
    obtain ⟨_, _, _, x, y, d, rfl, h5⟩ := number_of (.inl rfl) h
    have hx : x ≠ 'x' := by
      rintro rfl
      have : Xml.digit 10 'x' = none := by decide
      rw [this] at h5; cases h5
    unfold resolve
    split
    · rename_i heq; simp only [List.cons.injEq, true_and] at heq; exact absurd heq.1 hx
    · rename_i heq; cases heq; exact charRef_eq (.inl rfl) h hc
    · rename_i hne; exact absurd rfl (hne (x :: y))
  | @hex s c h hc =>
    have : e = '#' :: 'x' :: s := by
      rw [List.cons.injEq, ← List.cons_append, ← List.cons_append] at hr
      exact List.append_cancel_right hr.2
    subst this
    exact charRef_eq (.inr rfl) h hc

theorem normalize_ref {e0 e r : Str} {c : Char} (he : ';' ∉ e) (h : resolve (e0 ++ e) = some c) :
    normalize (some e0) (e ++ ';' :: r) = (normalize none r).map (c :: ·) := by
  induction e generalizing e0 with
  | nil => rw [List.append_nil] at h; simp [normalize, h]
  | cons x e ih =>
    have hx : x ≠ ';' := fun hx => he (by simp [hx])
    rw [List.cons_append, normalize, if_neg hx, ih (fun hm => he (List.mem_cons_of_mem _ hm)) (by simpa using h)]

theorem normalize_value {q : Char} {src v : Str} (h : Quoted q src v) : normalize none src = some v := by
  induction h with
  | nil => rfl
  | @plain c s v _ _ h2 _ h4 h5 h6 _ ih =>
    rw [normalize, if_neg h2, if_neg (by simp [h4, h5, h6]), ih]
    · rfl
    · rintro r rfl; exact absurd rfl h6
  | @ref r c s v hr _ ih =>
    obtain ⟨e, rfl, h1, _⟩ := reference_cases hr
    have he : ';' ∉ e := by
      intro hm
      have := h1 _ hm
      exact absurd this (by decide +kernel)
    rw [List.cons_append, normalize, if_pos rfl, List.append_assoc, List.singleton_append, normalize_ref he (resolve_ref hr), ih]
    · rfl
    · intro r hr; cases hr

/-- An attribute of the grammar. -/
structure GoodAttr (a : SrcAttr) : Prop where
  key : ':' ∉ a.key
  value : ∃ q, Quoted q a.src a.value

/-- A part of a text given by the grammar. -/
def GoodTok : Tok → Prop
  | .start n as => ':' ∉ n ∧ (as.map SrcAttr.key).Nodup ∧ ∀ a ∈ as, GoodAttr a
  | .empty n as => ':' ∉ n ∧ (as.map SrcAttr.key).Nodup ∧ ∀ a ∈ as, GoodAttr a
  | .stop n => ':' ∉ n
  | _ => True

theorem attrs_good {t : Str} {as : List SrcAttr} (h : Spec.Lex.Attrs t as) : ∀ a ∈ as, GoodAttr a := by
  induction h with
  | nil => simp
  | cons _ _ hk _ _ _ _ hv _ ih =>
    intro a ha
    rcases List.mem_cons.1 ha with rfl | ha
    · exact ⟨(isName_colon hk).1, _, hv⟩
    · exact ih a ha

theorem toks_good {b : Bool} {t : Str} {ts : List Tok} (h : Toks b t ts) : ∀ x ∈ ts, GoodTok x := by
  have cons : ∀ {x : Tok} {ts : List Tok}, GoodTok x → (∀ x ∈ ts, GoodTok x) → ∀ y ∈ x :: ts, GoodTok y := by
    intro x ts h1 h2 y hy
    rcases List.mem_cons.1 hy with rfl | hy
    · exact h1
    · exact h2 y hy
  induction h with
  | nil => simp
  | space _ _ _ ih => exact cons trivial ih
  | text _ _ _ _ ih => exact cons trivial ih
  | comment _ _ _ _ ih => exact cons trivial ih
  | cdata _ _ _ ih => exact cons trivial ih
  | pi _ _ _ _ _ _ ih => exact cons trivial ih
  | start hn ha hd _ _ ih => exact cons ⟨(isName_colon hn).1, hd, attrs_good ha⟩ ih
  | empty hn ha hd _ _ ih => exact cons ⟨(isName_colon hn).1, hd, attrs_good ha⟩ ih
  | stop hn _ _ ih => exact cons (isName_colon hn).1 ih

theorem localName_encode {n : Str} (h : ':' ∉ n) : localName (encode n) = encode n := by
  unfold localName
  have : (58 : UInt8) ∉ encode n := not_mem_encode (c := ':') h (by decide)
  rw [if_neg this]

theorem named_iff {n s : Str} (h : ':' ∉ n) : Named (encode n) s ↔ n = s := by
  unfold Named
  rw [localName_encode h]
  exact ⟨encode_injective, fun h => h ▸ rfl⟩

theorem normalizedValue_eq {a : SrcAttr} (h : GoodAttr a) : Attr.normalizedValue ⟨encode a.key, encode a.src⟩ = some a.value := by
  obtain ⟨q, hq⟩ := h.value
  unfold Attr.normalizedValue
  simp only [decode_encode]
  exact normalize_value hq

section attrs
variable {as : List SrcAttr} (hg : ∀ a ∈ as, GoodAttr a)
include hg

omit hg in
theorem mem_attrOf {a : Attr} (h : some a ∈ as.map attrOf) : ∃ x ∈ as, a = ⟨encode x.key, encode x.src⟩ := by
  obtain ⟨x, hx, he⟩ := List.mem_map.1 h
  exact ⟨x, hx, (Option.some.inj he).symm⟩

theorem says_has {name s : Str} (h : Says as name s) : HasAttr (as.map attrOf) name s := by
  obtain ⟨a, ha, h1, h2⟩ := h
  exact ⟨_, List.mem_map_of_mem ha, (named_iff (hg a ha).key).2 h1,
    normalizedValue_iff.1 (by rw [normalizedValue_eq (hg a ha), h2])⟩

theorem absent_lacks {name : Str} (h : Absent as name) : Lacks (as.map attrOf) name := by
  intro a ha hn
  obtain ⟨x, hx, rfl⟩ := mem_attrOf ha
  exact h x hx ((named_iff (hg x hx).key).1 hn)

theorem maybe_opt {α : Type} {name : Str} {f : Str → Option α} {o : Option α} (h : Maybe as name f o) :
    Opt (as.map attrOf) name f o := by
  cases o with
  | none => exact absent_lacks hg h
  | some x =>
    obtain ⟨s, h1, h2⟩ := h
    exact ⟨s, says_has hg h1, h2⟩

theorem tells_describes {d : Data} (h : Tells as d) : Describes (as.map attrOf) d where
  id := by obtain ⟨s, h1, h2⟩ := h.id; exact ⟨s, says_has hg h1, h2⟩
  created := says_has hg h.created
  closed := maybe_opt hg h.closed
  isOpen := by
    obtain ⟨a, ha, h1, h2⟩ := h.isOpen
    exact ⟨_, List.mem_map_of_mem ha, (named_iff (hg a ha).key).2 h1, by rw [← h2]⟩
  uid := maybe_opt hg h.uid
  user := maybe_opt hg h.user
  numChanges := by obtain ⟨s, h1, h2⟩ := h.numChanges; exact ⟨s, says_has hg h1, h2⟩
  commentsCount := by obtain ⟨s, h1, h2⟩ := h.commentsCount; exact ⟨s, says_has hg h1, h2⟩

theorem sound_of (hd : (as.map SrcAttr.key).Nodup) : Sound (as.map attrOf) where
  readable := by
    intro h
    obtain ⟨x, _, he⟩ := List.mem_map.1 h
    cases he
  distinct := by
    have e : (as.map attrOf).map (fun o => o.map fun a => localName a.key) = (as.map SrcAttr.key).map fun k => some (encode k) := by
      rw [List.map_map, List.map_map]
      refine List.map_congr_left fun a ha => ?_
      simp [attrOf, localName_encode (hg a ha).key]
    rw [e]
    exact hd.map fun a b h => encode_injective (Option.some.inj h)

theorem wrong_bad (h : Wrong as) : BadAttrs (as.map attrOf) := by
  have key : ∀ {α : Type} {name : Str} {f : Str → Option α}, (∃ s, Says as name s ∧ f s = none) →
      ∃ a, some a ∈ as.map attrOf ∧ Named a.key name ∧ Useless f a := by
    rintro α name f ⟨s, ⟨a, ha, h1, h2⟩, h3⟩
    exact ⟨_, List.mem_map_of_mem ha, (named_iff (hg a ha).key).2 h1, 
      Changesets.useless_of (by rw [normalizedValue_eq (hg a ha), h2]; exact h3)⟩
  rcases h with ⟨name, h1, h2⟩ | h | h | h | h | ⟨a, ha, h1, h2, h3⟩
  · exact .inr (.inr ⟨name, h1, absent_lacks hg h2⟩)
  · obtain ⟨a, h1, h2⟩ := key h
    exact .inr (.inl ⟨a, h1, .inl h2⟩)
  · obtain ⟨a, h1, h2⟩ := key h
    exact .inr (.inl ⟨a, h1, .inr (.inl h2)⟩)
  · obtain ⟨a, h1, h2⟩ := key h
    exact .inr (.inl ⟨a, h1, .inr (.inr (.inl h2))⟩)
  · obtain ⟨a, h1, h2⟩ := key h
    exact .inr (.inl ⟨a, h1, .inr (.inr (.inr (.inl h2)))⟩)
  · refine .inr (.inl ⟨_, List.mem_map_of_mem ha, .inr (.inr (.inr (.inr (.inr (.inr (.inr ⟨(named_iff (hg a ha).key).2 h1, ?_, ?_⟩))))))⟩)
    · exact fun h => h2 (encode_injective h)
    · exact fun h => h3 (encode_injective h)

end attrs

/-! ## Events of parts -/

theorem neutral_other : Neutral .other := by
  refine ⟨?_, ?_, ?_⟩
  · rintro x ⟨m, h | h, hm⟩ <;> cases h
  · rintro ⟨m, h, hm⟩; cases h
  · rintro x ⟨m, h | h, hm⟩ <;> cases h

theorem reports_append {a b : List Tok} {evs : Events} (h : Reports (a ++ b) evs) :
    ∃ e1 e2, evs = e1 ++ e2 ∧ Reports a e1 ∧ Reports b e2 := by
  induction a generalizing evs with
  | nil => exact ⟨[], evs, rfl, .nil, h⟩
  | cons x a ih =>
    cases h with
    | start h => obtain ⟨e1, e2, rfl, h1, h2⟩ := ih h; exact ⟨_, e2, rfl, .start h1, h2⟩
    | empty h => obtain ⟨e1, e2, rfl, h1, h2⟩ := ih h; exact ⟨_, e2, rfl, .empty h1, h2⟩
    | stop h => obtain ⟨e1, e2, rfl, h1, h2⟩ := ih h; exact ⟨_, e2, rfl, .stop h1, h2⟩
    | @text k _ _ h => obtain ⟨e1, e2, rfl, h1, h2⟩ := ih h; exact ⟨others k ++ e1, e2, by simp, .text h1, h2⟩
    | @space k _ _ h => obtain ⟨e1, e2, rfl, h1, h2⟩ := ih h; exact ⟨others k ++ e1, e2, by simp, .space h1, h2⟩

/-- The events of one part. -/
inductive Reports1 : Tok → Events → Prop where
  | start {n as} : Reports1 (.start n as) [some (.start (encode n) (as.map attrOf))]
  | empty {n as} : Reports1 (.empty n as) [some (.empty (encode n) (as.map attrOf))]
  | stop {n} : Reports1 (.stop n) [some (.end_ (encode n))]
  | text {k} : Reports1 .text (others k)
  | space {k} : Reports1 .space (others k)

theorem reports_cons {x : Tok} {ts : List Tok} {evs : Events} (h : Reports (x :: ts) evs) :
    ∃ e1 e2, evs = e1 ++ e2 ∧ Reports1 x e1 ∧ Reports ts e2 := by
  cases h with
  | start h => exact ⟨_, _, rfl, .start, h⟩
  | empty h => exact ⟨_, _, rfl, .empty, h⟩
  | stop h => exact ⟨_, _, rfl, .stop, h⟩
  | text h => exact ⟨_, _, rfl, .text, h⟩
  | space h => exact ⟨_, _, rfl, .space, h⟩

theorem aside_neutral {x : Tok} (hx : Aside x) (hg : GoodTok x) {e : Events} (h : Reports1 x e) :
    ∀ y ∈ e, ∃ ev, y = some ev ∧ Neutral ev := by
  have noStart : ∀ {n : Str} {as : List SrcAttr} (a : Attrs), ':' ∉ n → n ≠ str% "changeset" → n ≠ str% "tag" → ∀ ev,
      ev = .start (encode n) a ∨ ev = .empty (encode n) a → Neutral ev := by
    intro n as a hn h1 h2 ev hev
    refine ⟨?_, ?_, ?_⟩
    · rintro b ⟨m, h | h, hm⟩ <;> rcases hev with rfl | rfl <;> cases h <;> exact h1 ((named_iff hn).1 hm)
    · rintro ⟨m, h, hm⟩; rcases hev with rfl | rfl <;> cases h
    · rintro b ⟨m, h | h, hm⟩ <;> rcases hev with rfl | rfl <;> cases h <;> exact h2 ((named_iff hn).1 hm)
  cases h with
  | @start n as =>
    intro y hy
    refine ⟨_, List.mem_singleton.1 hy, noStart (as := as) _ hg.1 ?_ ?_ _ (.inl rfl)⟩
    · rintro rfl; exact hx.1 as (.inl rfl)
    · rintro rfl; exact hx.2.2 as (.inl rfl)
  | @empty n as =>
    intro y hy
    refine ⟨_, List.mem_singleton.1 hy, noStart (as := as) _ hg.1 ?_ ?_ _ (.inr rfl)⟩
    · rintro rfl; exact hx.1 as (.inr rfl)
    · rintro rfl; exact hx.2.2 as (.inr rfl)
  | @stop n =>
    intro y hy
    refine ⟨_, List.mem_singleton.1 hy, ?_, ?_, ?_⟩
    · rintro b ⟨m, h | h, hm⟩ <;> cases h
    · rintro ⟨m, h, hm⟩
      cases h
      exact hx.2.1 (by rw [(named_iff hg).1 hm])
    · rintro b ⟨m, h | h, hm⟩ <;> cases h
  | text => intro y hy; exact ⟨_, List.eq_of_mem_replicate hy, neutral_other⟩
  | space => intro y hy; exact ⟨_, List.eq_of_mem_replicate hy, neutral_other⟩

theorem body_neutral {e evs : Events} {tags : List (Str × Str)} (h : ∀ y ∈ e, ∃ ev, y = some ev ∧ Neutral ev) (hb : Body evs tags) :
    Body (e ++ evs) tags := by
  induction e with
  | nil => exact hb
  | cons y e ih =>
    obtain ⟨ev, rfl, hev⟩ := h y List.mem_cons_self
    exact .other hev (ih fun z hz => h z (List.mem_cons_of_mem _ hz))

theorem dump_neutral {e evs : Events} {ds : List (Bool × Option Data)} (h : ∀ y ∈ e, ∃ ev, y = some ev ∧ Neutral ev) (hb : Dump evs ds) :
    Dump (e ++ evs) ds := by
  induction e with
  | nil => exact hb
  | cons y e ih =>
    obtain ⟨ev, rfl, hev⟩ := h y List.mem_cons_self
    exact .other hev (ih fun z hz => h z (List.mem_cons_of_mem _ hz))

theorem tagDump_neutral {e evs : Events} {ds : List (UInt64 × List (Str × Str))} (h : ∀ y ∈ e, ∃ ev, y = some ev ∧ Neutral ev)
    (hb : TagDump evs ds) : TagDump (e ++ evs) ds := by
  induction e with
  | nil => exact hb
  | cons y e ih =>
    obtain ⟨ev, rfl, hev⟩ := h y List.mem_cons_self
    exact .other hev (ih fun z hz => h z (List.mem_cons_of_mem _ hz))

theorem element_opens {x : Tok} {name : Str} {as : List SrcAttr} (h : Element x name as) (hg : GoodTok x) {e : Events}
    (hr : Reports1 x e) : ∃ ev, e = [some ev] ∧ Opens ev name (as.map attrOf) ∧ (as.map SrcAttr.key).Nodup ∧ ∀ a ∈ as, GoodAttr a := by
  rcases h with rfl | rfl
  · cases hr; exact ⟨_, rfl, ⟨_, .inl rfl, (named_iff hg.1).2 rfl⟩, hg.2⟩
  · cases hr; exact ⟨_, rfl, ⟨_, .inr rfl, (named_iff hg.1).2 rfl⟩, hg.2⟩

theorem tagged_body {ts : List Tok} {tags : List (Str × Str)} (h : Tagged ts tags) (hg : ∀ x ∈ ts, GoodTok x) {evs : Events}
    (hr : Reports ts evs) : Body evs tags := by
  induction h generalizing evs with
  | nil => cases hr; exact .nil
  | tag hx hk hv _ ih =>
    obtain ⟨e1, e2, rfl, h1, h2⟩ := reports_cons hr
    obtain ⟨ev, rfl, ho, hd, hga⟩ := element_opens hx (hg _ List.mem_cons_self) h1
    exact .tag ho ⟨sound_of hga hd, says_has hga hk, says_has hga hv⟩ (ih (fun y hy => hg y (List.mem_cons_of_mem _ hy)) h2)
  | other hx _ ih =>
    obtain ⟨e1, e2, rfl, h1, h2⟩ := reports_cons hr
    exact body_neutral (aside_neutral hx (hg _ List.mem_cons_self) h1) (ih (fun y hy => hg y (List.mem_cons_of_mem _ hy)) h2)

theorem within_inside {ts : List Tok} (h : Within ts) (hg : ∀ x ∈ ts, GoodTok x) {evs : Events} (hr : Reports ts evs) : Inside evs := by
  induction ts generalizing evs with
  | nil => cases hr; intro x hx; cases hx
  | cons x ts ih =>
    obtain ⟨e1, e2, rfl, h1, h2⟩ := reports_cons hr
    have hx := h x List.mem_cons_self
    have hgx := hg x List.mem_cons_self
    intro y hy
    rcases List.mem_append.1 hy with hy | hy
    · cases h1 with
      | @start n as =>
        refine ⟨_, List.mem_singleton.1 hy, ?_, ?_⟩
        · rintro b ⟨m, h | h, hm⟩ <;> cases h
          exact hx.1 as (.inl (by rw [(named_iff hgx.1).1 hm]))
        · rintro ⟨m, h, hm⟩; cases h
      | @empty n as =>
        refine ⟨_, List.mem_singleton.1 hy, ?_, ?_⟩
        · rintro b ⟨m, h | h, hm⟩ <;> cases h
          exact hx.1 as (.inr (by rw [(named_iff hgx.1).1 hm]))
        · rintro ⟨m, h, hm⟩; cases h
      | @stop n =>
        refine ⟨_, List.mem_singleton.1 hy, ?_, ?_⟩
        · rintro b ⟨m, h | h, hm⟩ <;> cases h
        · rintro ⟨m, h, hm⟩; cases h
          exact hx.2 (by rw [(named_iff hgx).1 hm])
      | text => exact ⟨_, List.eq_of_mem_replicate hy, neutral_other.1, neutral_other.2.1⟩
      | space => exact ⟨_, List.eq_of_mem_replicate hy, neutral_other.1, neutral_other.2.1⟩
    · exact ih (fun y hy => h y (List.mem_cons_of_mem _ hy)) (fun y hy => hg y (List.mem_cons_of_mem _ hy)) h2 y hy

theorem noTag_badBody {ts : List Tok} (h : NoTag ts) (hg : ∀ x ∈ ts, GoodTok x) {evs : Events} (hr : Reports ts evs) : BadBody evs := by
  obtain ⟨x, hx, as, he, ha⟩ := h
  obtain ⟨a, b, rfl⟩ := List.append_of_mem hx
  obtain ⟨e1, e2, rfl, _, h2⟩ := reports_append hr
  obtain ⟨e3, e4, rfl, h3, _⟩ := reports_cons h2
  obtain ⟨ev, rfl, ho, _, hga⟩ := element_opens he (hg x hx) h3
  refine ⟨ev, as.map attrOf, by simp, ho, ?_⟩
  rcases ha with ha | ha
  · exact .inr (.inr (.inl (absent_lacks hga ha)))
  · exact .inr (.inr (.inr (absent_lacks hga ha)))

theorem good_full {x : Tok} {body ts : List Tok} {y : Tok} (hg : ∀ z ∈ x :: (body ++ y :: ts), GoodTok z) :
    GoodTok x ∧ (∀ z ∈ body, GoodTok z) ∧ GoodTok y ∧ ∀ z ∈ ts, GoodTok z :=
  ⟨hg _ List.mem_cons_self, fun z hz => hg z (by simp [hz]), hg y (by simp), fun z hz => hg z (by simp [hz])⟩

theorem reports_full {n n' : Str} {as : List SrcAttr} {body ts : List Tok} {evs : Events}
    (hr : Reports (.start n as :: (body ++ .stop n' :: ts)) evs) :
    ∃ e1 e2, evs = some (.start (encode n) (as.map attrOf)) :: (e1 ++ some (.end_ (encode n')) :: e2) ∧ Reports body e1 ∧ Reports ts e2 := by
  cases hr with
  | start hr =>
    obtain ⟨e1, e2, rfl, h1, h2⟩ := reports_append hr
    cases h2 with
    | stop h2 => exact ⟨e1, _, rfl, h1, h2⟩

theorem cs_colon : ':' ∉ str% "changeset" := by decide

theorem dump_of_text {ts : List Tok} {ds : List (Bool × Option Data)} (h : DumpText ts ds) (hg : ∀ x ∈ ts, GoodTok x) {evs : Events}
    (hr : Reports ts evs) : Dump evs ds := by
  induction h generalizing evs with
  | nil => cases hr; exact .nil
  | other hx _ ih =>
    obtain ⟨e1, e2, rfl, h1, h2⟩ := reports_cons hr
    exact dump_neutral (aside_neutral hx (hg _ List.mem_cons_self) h1) (ih (fun y hy => hg y (List.mem_cons_of_mem _ hy)) h2)
  | short hd ht _ ih =>
    have hgx := hg _ List.mem_cons_self
    cases hr with
    | empty hr =>
      exact .short ((named_iff cs_colon).2 rfl) (sound_of hgx.2.2 hgx.2.1) (tells_describes hgx.2.2 hd) ht
        (ih (fun y hy => hg y (List.mem_cons_of_mem _ hy)) hr)
  | full hd ht _ ih =>
    obtain ⟨e1, e2, rfl, h1, h2⟩ := reports_full hr
    obtain ⟨g1, g2, _, g4⟩ := good_full hg
    exact .full ((named_iff cs_colon).2 rfl) (sound_of g1.2.2 g1.2.1) (tells_describes g1.2.2 hd) (tagged_body ht g2 h1)
      ((named_iff cs_colon).2 rfl) (ih g4 h2)
  | badShort hw _ ih =>
    have hgx := hg _ List.mem_cons_self
    cases hr with
    | empty hr =>
      exact .badShort ((named_iff cs_colon).2 rfl) (wrong_bad hgx.2.2 hw) (ih (fun y hy => hg y (List.mem_cons_of_mem _ hy)) hr)
  | badFull hw hin _ ih =>
    obtain ⟨e1, e2, rfl, h1, h2⟩ := reports_full hr
    obtain ⟨g1, g2, _, g4⟩ := good_full hg
    exact .badFull ((named_iff cs_colon).2 rfl) (hw.imp (wrong_bad g1.2.2) fun h => noTag_badBody h g2 h1) (within_inside hin g2 h1)
      ((named_iff cs_colon).2 rfl) (ih g4 h2)

theorem tagDump_of_text {ts : List Tok} {ds : List (UInt64 × List (Str × Str))} (h : TagDumpText ts ds) (hg : ∀ x ∈ ts, GoodTok x)
    {evs : Events} (hr : Reports ts evs) : TagDump evs ds := by
  induction h generalizing evs with
  | nil => cases hr; exact .nil
  | other hx _ ih =>
    obtain ⟨e1, e2, rfl, h1, h2⟩ := reports_cons hr
    exact tagDump_neutral (aside_neutral hx (hg _ List.mem_cons_self) h1) (ih (fun y hy => hg y (List.mem_cons_of_mem _ hy)) h2)
  | short _ ih =>
    cases hr with
    | empty hr => exact .short ((named_iff cs_colon).2 rfl) (ih (fun y hy => hg y (List.mem_cons_of_mem _ hy)) hr)
  | full hid hp ht _ ih =>
    obtain ⟨e1, e2, rfl, h1, h2⟩ := reports_full hr
    obtain ⟨g1, g2, _, g4⟩ := good_full hg
    exact .full ((named_iff cs_colon).2 rfl) (sound_of g1.2.2 g1.2.1) (says_has g1.2.2 hid) hp (tagged_body ht g2 h1)
      ((named_iff cs_colon).2 rfl) (ih g4 h2)

/-! ## Documents -/

theorem matched_tree {ts : List Tok} {f : Spec.Forest} (h : Tree ts f) {st : List Str} {rest : List Tok} (hr : Matched st rest) :
    Matched st (ts ++ rest) := by
  induction h generalizing st rest with
  | nil => exact hr
  | text _ ih => exact .text (ih hr)
  | space _ ih => exact .space (ih hr)
  | empty _ ih => exact .empty (ih hr)
  | elem _ _ ihk ih =>
    rw [List.cons_append, List.append_assoc, List.cons_append]
    exact .start (ihk (.stop (ih hr)))

theorem matched_body {t : Str} {ts : List Tok} {f : Spec.Forest} (h : Spec.Lex.Body t ts f) : Matched [] ts := by
  have := matched_tree (tree_body h) (Matched.nil (st := []))
  rwa [List.append_nil] at this

theorem body_toks {t : Str} {ts : List Tok} {f : Spec.Forest} (h : Spec.Lex.Body t ts f) : Toks true t ts := by
  cases h with
  | mk h => exact h

/-- The text of a document does not begin with a byte order mark. -/
theorem no_bom {t : Str} {ts : List Tok} {f : Spec.Forest} (h : Spec.Lex.Body t ts f) :
    ∃ c r, t = c :: r ∧ c.toNat < 128 := by
  cases h with
  | @mk before root after n as ks k _ h hb _ hr _ =>
    have hroot : root ≠ [] := by rcases hr with rfl | rfl <;> simp
    generalize hts : before ++ (root ++ after) = ts at h
    cases h with
    | nil => simp only [List.append_eq_nil_iff] at hts; exact absurd hts.2.1 hroot
    | @space s t ts hne hw =>
      obtain ⟨c, r, rfl⟩ := List.exists_cons_of_ne_nil hne
      refine ⟨c, _, rfl, ?_⟩
      rcases hw c List.mem_cons_self with rfl | rfl | rfl | rfl <;> decide
    | text =>
      exfalso
      cases before with
      | nil => rcases hr with rfl | rfl <;> cases hts
      | cons x before =>
        rw [List.cons_append, List.cons.injEq] at hts
        have := hb x List.mem_cons_self
        rw [hts.1] at this
        cases this
    | comment => exact ⟨'<', _, rfl, by decide⟩
    | cdata => exact ⟨'<', _, rfl, by decide⟩
    | pi => exact ⟨'<', _, rfl, by decide⟩
    | start => exact ⟨'<', _, rfl, by decide⟩
    | empty => exact ⟨'<', _, rfl, by decide⟩
    | stop => exact ⟨'<', _, rfl, by decide⟩

theorem eventsOf_ascii {t : Str} (h : t = [] ∨ ∃ c r, t = c :: r ∧ c.toNat < 128) : eventsOf (encode t) = events (encode t) [] := by
  unfold eventsOf events
  have : [0xEF, 0xBB, 0xBF].isPrefixOf (encode t) = false := by
    rcases h with rfl | ⟨c, r, rfl, hc⟩
    · rfl
    · rw [ascii_lt hc, List.isPrefixOf]
      have : (0xEF : UInt8) ≠ byte c.toNat := by
        intro he
        have := congrArg UInt8.toNat he
        rw [byte_toNat (by omega)] at this
        have h2 : (0xEF : UInt8).toNat = 239 := rfl
        omega
      simp [this]
  simp only [this, Bool.false_eq_true, if_false]

theorem declaration_pi {decl : Str} (h : decl ∈ declarations) :
    ∃ s, decl = str% "<?" ++ (s ++ str% "?>") ∧ ¬ (str% "?>") <:+: s := by
  simp only [declarations, List.mem_cons, List.not_mem_nil, or_false] at h
  rcases h with rfl | rfl | rfl | rfl
  · exact ⟨str% "xml version=\"1.0\"", rfl, by decide +kernel⟩
  · exact ⟨str% "xml version=\"1.0\" encoding=\"UTF-8\"", rfl, by decide +kernel⟩
  · exact ⟨str% "xml version=\"1.0\" encoding=\"utf-8\"", rfl, by decide +kernel⟩
  · exact ⟨str% "xml version='1.0' encoding='UTF-8'", rfl, by decide +kernel⟩

theorem reports_document {t : Str} {ts : List Tok} {f : Spec.Forest} (h : Document t ts f) :
    Reports ts (eventsOf (encode t)) ∧ ∀ x ∈ ts, GoodTok x := by
  cases h with
  | plain h =>
    rw [eventsOf_ascii (.inr (no_bom h))]
    exact ⟨reports_toks (st := []) (body_toks h) (matched_body h), toks_good (body_toks h)⟩
  | @declared decl t ts f hd h =>
    obtain ⟨s, rfl, hs⟩ := declaration_pi hd
    constructor
    · have h1 : ∃ c r, (str% "<?" ++ (s ++ str% "?>")) ++ t = c :: r ∧ c.toNat < 128 := ⟨'<', _, rfl, by decide⟩
      rw [eventsOf_ascii (.inr h1), List.append_assoc, List.append_assoc, events_pi hs]
      exact reports_one (.inr rfl) (reports_toks (st := []) (body_toks h) (matched_body h))
    · intro x hx
      rcases List.mem_cons.1 hx with rfl | hx
      · trivial
      · exact toks_good (body_toks h) x hx

/-- A byte order mark before the text changes nothing. -/
theorem eventsOf_bom {t : Str} {ts : List Tok} {f : Spec.Forest} (h : Document t ts f) :
    eventsOf ([0xEF, 0xBB, 0xBF] ++ encode t) = eventsOf (encode t) := by
  have ha : ∃ c r, t = c :: r ∧ c.toNat < 128 := by
    cases h with
    | plain h => exact no_bom h
    | declared hd h =>
      obtain ⟨s, rfl, hs⟩ := declaration_pi hd
      exact ⟨'<', _, rfl, by decide⟩
  rw [eventsOf_ascii (.inr ha)]
  rfl

end Osmio.QuickXml
