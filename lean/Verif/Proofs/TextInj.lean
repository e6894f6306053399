import Verif.Proofs.ObjDebug
import Verif.Proofs.XmlIllegal
import Verif.Props.XmlExact
/-! The text of an element says what it was written from. -/

namespace Osmio.TextInj
open Spec Xml

variable {α β : Type}

theorem quote_cut {a a' r r' : Str} (ha : '"' ∉ a) (ha' : '"' ∉ a') (e : a ++ '"' :: r = a' ++ '"' :: r') : a = a' ∧ r = r' := by
  obtain ⟨h1, h2⟩ := Dbg.upto (P := fun c => c == '"') (fun c hc => by simp; rintro rfl; exact ha hc)
    (fun c hc => by simp; rintro rfl; exact ha' hc) (.inr ⟨_, _, rfl, rfl⟩) (.inr ⟨_, _, rfl, rfl⟩) e
  exact ⟨h1, (List.cons.inj h2).2⟩

theorem attr_cut {k v v' r r' : Str} (hv : '"' ∉ v) (hv' : '"' ∉ v') (e : rawAttr k v ++ r = rawAttr k v' ++ r') : v = v' ∧ r = r' := by
  simp only [rawAttr, List.cons_append, List.append_assoc, List.cons.injEq, true_and, List.append_cancel_left_eq, List.nil_append] at e
  exact quote_cut hv hv' e

/-- How an attribute begins. -/
def mark (k : Str) : Str := ' ' :: (k ++ ['='])

theorem mark_attr (k v r : Str) : mark k <+: rawAttr k v ++ r :=
  ⟨'"' :: (v ++ '"' :: r), by simp [mark, rawAttr]⟩

theorem opt_cut {k : Str} {x x' : Option Str} {r r' : Str} (hx : ∀ v, x = some v → '"' ∉ v) (hx' : ∀ v, x' = some v → '"' ∉ v)
    (hr : ¬ mark k <+: r) (hr' : ¬ mark k <+: r') (e : rawAttr? k x ++ r = rawAttr? k x' ++ r') : x = x' ∧ r = r' := by
  cases x with
  | none =>
    cases x' with
    | none => exact ⟨rfl, e⟩
    | some v' => exact absurd (by rw [show r = _ from e]; exact mark_attr k v' r') hr
  | some v =>
    cases x' with
    | none => exact absurd (by rw [show r' = _ from e.symm]; exact mark_attr k v r) hr'
    | some v' =>
      obtain ⟨h1, h2⟩ := attr_cut (hx v rfl) (hx' v' rfl) e
      exact ⟨by rw [h1], h2⟩

theorem mark_skip {k j : Str} {x : Option Str} {r : Str} (h : ∀ s, ¬ mark k <+: ' ' :: (j ++ '=' :: s)) (hr : ¬ mark k <+: r) :
    ¬ mark k <+: rawAttr? j x ++ r := by
  cases x with
  | none => exact hr
  | some v =>
    simp only [rawAttr?, rawAttr, List.cons_append, List.append_assoc]
    exact h _

/-- Parts one after another, up to something that does not begin like a part. -/
theorem flat_cut {γ : Type} {p : α → Str} {p' : β → Str} {q : α → γ} {q' : β → γ} {pre : Str} (hpre : ∀ x, pre <+: p x) (hpre' : ∀ x, pre <+: p' x)
    {r r' : Str} (hr : ¬ pre <+: r) (hr' : ¬ pre <+: r') : ∀ {xs : List α} {ys : List β},
    (∀ x ∈ xs, ∀ y ∈ ys, ∀ s s', p x ++ s = p' y ++ s' → q x = q' y ∧ s = s') →
    xs.flatMap p ++ r = ys.flatMap p' ++ r' → xs.map q = ys.map q' ∧ r = r' := by
  intro xs
  induction xs with
  | nil =>
    intro ys _ e
    cases ys with
    | nil => exact ⟨rfl, e⟩
    | cons y ys =>
      refine absurd ?_ hr
      rw [show r = _ from e, List.flatMap_cons, List.append_assoc]
      exact (hpre' y).trans (List.prefix_append _ _)
  | cons x xs ih =>
    intro ys hp e
    cases ys with
    | nil =>
      refine absurd ?_ hr'
      rw [show r' = _ from e.symm, List.flatMap_cons, List.append_assoc]
      exact (hpre x).trans (List.prefix_append _ _)
    | cons y ys =>
      simp only [List.flatMap_cons, List.append_assoc] at e
      obtain ⟨h1, h2⟩ := hp x (by simp) y (by simp) _ _ e
      obtain ⟨h3, h4⟩ := ih (fun x hx y hy => hp x (by simp [hx]) y (by simp [hy])) h2
      exact ⟨by rw [List.map_cons, List.map_cons, h1, h3], h4⟩

/-! ## Values -/

theorem not_quote {s : Str} (h : ∀ c ∈ s, plainChar c = true) : '"' ∉ s := fun hc => by
  have := h _ hc; revert this; decide

theorem escaped1_form (c : Char) : (escaped1 c = [c] ∧ c ≠ '&' ∧ c ≠ '"') ∨ (c = '&' ∧ escaped1 c = str% "&amp;") ∨
    (c = '"' ∧ escaped1 c = str% "&quot;") ∨ (c = '\'' ∧ escaped1 c = str% "&apos;") ∨ (c = '<' ∧ escaped1 c = str% "&lt;") ∨
    (c = '>' ∧ escaped1 c = str% "&gt;") := by
  by_cases h1 : c = '&'
  · subst h1; exact .inr (.inl ⟨rfl, rfl⟩)
  by_cases h2 : c = '"'
  · subst h2; exact .inr (.inr (.inl ⟨rfl, rfl⟩))
  by_cases h3 : c = '\''
  · subst h3; exact .inr (.inr (.inr (.inl ⟨rfl, rfl⟩)))
  by_cases h4 : c = '<'
  · subst h4; exact .inr (.inr (.inr (.inr (.inl ⟨rfl, rfl⟩))))
  by_cases h5 : c = '>'
  · subst h5; exact .inr (.inr (.inr (.inr (.inr ⟨rfl, rfl⟩))))
  refine .inl ⟨?_, h1, h2⟩
  unfold escaped1 entity
  split <;> simp_all

theorem escaped_quote (s : Str) : '"' ∉ escaped s := by
  unfold escaped
  rw [List.mem_flatMap]
  rintro ⟨c, _, h⟩
  rcases escaped1_form c with ⟨e, _, h2⟩ | ⟨_, e⟩ | ⟨_, e⟩ | ⟨_, e⟩ | ⟨_, e⟩ | ⟨_, e⟩ <;> rw [e] at h
  · exact h2 (List.mem_singleton.1 h).symm
  all_goals exact absurd h (by decide)

theorem escaped1_cut {c c' : Char} {r r' : Str} (e : escaped1 c ++ r = escaped1 c' ++ r') : c = c' ∧ r = r' := by
  rcases escaped1_form c with ⟨h, h1, h2⟩ | ⟨rfl, h⟩ | ⟨rfl, h⟩ | ⟨rfl, h⟩ | ⟨rfl, h⟩ | ⟨rfl, h⟩ <;>
  rcases escaped1_form c' with ⟨h', h1', h2'⟩ | ⟨rfl, h'⟩ | ⟨rfl, h'⟩ | ⟨rfl, h'⟩ | ⟨rfl, h'⟩ | ⟨rfl, h'⟩ <;>
  first | (rw [h, h'] at e; simp_all; done) | (rw [h, h'] at e; exact absurd (List.cons.inj e).1.symm h1') | (rw [h] at e; exact ⟨rfl, List.append_cancel_left e⟩)

theorem escaped1_ne (c : Char) : escaped1 c ≠ [] := by
  unfold escaped1; split <;> simp

theorem escaped_inj {s s' : Str} (e : escaped s = escaped s') : s = s' := by
  induction s generalizing s' with
  | nil =>
    cases s' with
    | nil => rfl
    | cons c s' =>
      simp only [escaped, List.flatMap_nil, List.flatMap_cons] at e
      exact absurd (List.append_eq_nil_iff.1 e.symm).1 (escaped1_ne c)
  | cons c s ih =>
    cases s' with
    | nil =>
      simp only [escaped, List.flatMap_nil, List.flatMap_cons] at e
      exact absurd (List.append_eq_nil_iff.1 e).1 (escaped1_ne c)
    | cons c' s' =>
      obtain ⟨rfl, h⟩ := escaped1_cut (by simpa only [escaped, List.flatMap_cons] using e)
      rw [ih h]

theorem i64Str_inj {i j : Int64} (h : i64Str i = i64Str j) : i = j := Int64.toInt_inj.1 (Dbg.intStr_inj h)
theorem u32Str_inj {i j : UInt32} (h : u32Str i = u32Str j) : i = j := UInt32.toNat_inj.1 (Dbg.natStr_inj h)
theorem lat_inj {a b : Lat} (h : a.display = b.display) : a = b := by
  have := C02_lat_text_roundtrip a
  rw [h, C02_lat_text_roundtrip b] at this
  exact (Except.ok.inj this).symm
theorem lon_inj {a b : Lon} (h : a.display = b.display) : a = b := by
  have := C02_lon_text_roundtrip a
  rw [h, C02_lon_text_roundtrip b] at this
  exact (Except.ok.inj this).symm

theorem i64_quote (i : Int64) : '"' ∉ i64Str i := not_quote (i64Str_plain i)
theorem u32_quote (i : UInt32) : '"' ∉ u32Str i := not_quote (num_plain i)
theorem lat_quote (p : Lat) : '"' ∉ p.display := not_quote (coordText_plain (C02_lat_display_exact p))
theorem lon_quote (p : Lon) : '"' ∉ p.display := not_quote (coordText_plain (C02_lon_display_exact p))
theorem kind_quote (k : OSMObjectType) : '"' ∉ k.nameLong := not_quote (kind_plain k)
theorem kind_inj {k k' : OSMObjectType} (h : k.nameLong = k'.nameLong) : k = k' := by
  cases k <;> cases k' <;> first | rfl | exact absurd h (by decide)

theorem kind_cut {k k' : OSMObjectType} {j v v' r r' : Str} (e : k.nameLong ++ (rawAttr j v ++ r) = k'.nameLong ++ (rawAttr j v' ++ r')) : k = k' := by
  have h : ∀ (k : OSMObjectType) (t : Str), (k.nameLong ++ t).head? = k.nameLong.head? := by intro k t; cases k <;> rfl
  have h1 : k.nameLong.head? = k'.nameLong.head? := by rw [← h k, e, h k']
  clear e h
  revert h1
  cases k <;> cases k' <;> decide

/-! ## Elements in an object -/

theorem nd_cut {a b : ObjId} {r r' : Str} (e : ndText a ++ r = ndText b ++ r') : a = b ∧ r = r' := by
  simp only [ndText, List.append_assoc, List.append_cancel_left_eq] at e
  obtain ⟨h1, h2⟩ := attr_cut (i64_quote a) (i64_quote b) e
  exact ⟨i64Str_inj h1, List.append_cancel_left h2⟩

theorem member_cut {a b : OSMObjectType × ObjId × Str} {r r' : Str} (e : memberText a ++ r = memberText b ++ r') : a = b ∧ r = r' := by
  simp only [memberText, List.append_assoc, List.append_cancel_left_eq] at e
  obtain ⟨h1, e⟩ := attr_cut (kind_quote _) (kind_quote _) e
  obtain ⟨h2, e⟩ := attr_cut (i64_quote _) (i64_quote _) e
  obtain ⟨h3, e⟩ := attr_cut (escaped_quote _) (escaped_quote _) e
  exact ⟨Prod.ext (kind_inj h1) (Prod.ext (i64Str_inj h2) (escaped_inj h3)), List.append_cancel_left e⟩

theorem tag_cut {a b : Str × Str} {r r' : Str} (e : tagText a ++ r = tagText b ++ r') : a = b ∧ r = r' := by
  simp only [tagText, List.append_assoc, List.append_cancel_left_eq] at e
  obtain ⟨h2, e⟩ := attr_cut (escaped_quote _) (escaped_quote _) e
  obtain ⟨h3, e⟩ := attr_cut (escaped_quote _) (escaped_quote _) e
  exact ⟨Prod.ext (escaped_inj h2) (escaped_inj h3), List.append_cancel_left e⟩

/-- Everything in an object. -/
theorem kids_cut {ns ns' : List ObjId} {ms ms' : List (OSMObjectType × ObjId × Str)} {ts ts' : List (Str × Str)} {r r' : Str}
    (e : ns.flatMap ndText ++ (ms.flatMap memberText ++ (ts.flatMap tagText ++ (str% "\n\t</" ++ r))) =
      ns'.flatMap ndText ++ (ms'.flatMap memberText ++ (ts'.flatMap tagText ++ (str% "\n\t</" ++ r')))) :
    ns = ns' ∧ ms = ms' ∧ ts = ts' ∧ r = r' := by
  have pn : ∀ x, str% "\n\t\t<n" <+: ndText x := fun x => ⟨_, by rw [ndText, List.append_assoc]; rfl⟩
  have pm : ∀ x, str% "\n\t\t<m" <+: memberText x := fun x => ⟨_, by simp only [memberText, List.append_assoc]; rfl⟩
  have pt : ∀ x, str% "\n\t\t<t" <+: tagText x := fun x => ⟨_, by simp only [tagText, List.append_assoc]; rfl⟩
  have nt : ∀ (p : Str) (c : Char), c ≠ 't' → (∀ r : Str, ¬ (str% "\n\t\t<" ++ [c]) <+: str% "\n\t</" ++ r) →
      ∀ (l : List (Str × Str)) r, ¬ (str% "\n\t\t<" ++ [c]) <+: l.flatMap tagText ++ (str% "\n\t</" ++ r) := by
    intro p c hc h0 l r
    cases l with
    | nil => exact h0 r
    | cons x l =>
      simp only [List.flatMap_cons, tagText, List.append_assoc]
      simp [hc]
  have h0 : ∀ (c : Char) (r : Str), ¬ (str% "\n\t\t<" ++ [c]) <+: str% "\n\t</" ++ r := by
    intro c r; simp
  have nm : ∀ (l : List (OSMObjectType × ObjId × Str)) (t : List (Str × Str)) r,
      ¬ str% "\n\t\t<n" <+: l.flatMap memberText ++ (t.flatMap tagText ++ (str% "\n\t</" ++ r)) := by
    intro l t r
    cases l with
    | nil => exact nt [] 'n' (by decide) (h0 'n') t r
    | cons x l =>
      simp only [List.flatMap_cons, memberText, List.append_assoc]
      simp
  have idm : ∀ {γ : Type} {a b : List γ}, a.map id = b.map id → a = b := fun h => by simpa using h
  obtain ⟨h1, e⟩ := flat_cut (q := id) (q' := id) pn pn (nm _ _ _) (nm _ _ _) (fun x _ y _ s s' => nd_cut) e
  obtain ⟨h2, e⟩ := flat_cut (q := id) (q' := id) pm pm (nt [] 'm' (by decide) (h0 'm') _ _) (nt [] 'm' (by decide) (h0 'm') _ _)
    (fun x _ y _ s s' => member_cut) e
  obtain ⟨h3, e⟩ := flat_cut (q := id) (q' := id) pt pt (h0 't' _) (h0 't' _) (fun x _ y _ s s' => tag_cut) e
  exact ⟨idm h1, idm h2, idm h3, List.append_cancel_left e⟩

/-! ## Objects -/

/-- The timestamp has no quote in its text. -/
def NoQuote (d : ObjData) : Prop := ∀ s, d.view.timestamp = some (.iso s) → '"' ∉ s

theorem time_quote {d : ObjData} (h : NoQuote d) : ∀ v, d.view.timestamp.map TimestampFormat.display = some v → '"' ∉ v := by
  intro v hv
  cases ht : d.view.timestamp with
  | none => simp [ht] at hv
  | some t =>
    simp only [ht, Option.map_some, Option.some.injEq] at hv
    subst hv
    cases t with
    | iso s => exact h s ht
    | epoch e => exact not_quote (time_plain (t := .epoch e) trivial)

theorem map_quote {γ : Type} {x : Option γ} {g : γ → Str} (h : ∀ y, '"' ∉ g y) : ∀ v, x.map g = some v → '"' ∉ v := by
  intro v hv
  cases x with
  | none => simp at hv
  | some y => simp only [Option.map_some, Option.some.injEq] at hv; subst hv; exact h y

theorem map_inj {γ : Type} {g : γ → Str} (h : ∀ {a b}, g a = g b → a = b) {x y : Option γ} (e : x.map g = y.map g) : x = y :=
  Option.map_injective (fun _ _ => h) e

/-- What follows the attributes. -/
theorem tail_mark {k : Str} (hk : ∃ c s, k = c :: s ∧ c ≠ '/') (b : Prop) [Decidable b] (s r : Str) :
    ¬ mark k <+: (if b then str% " />" else str% ">" ++ s) ++ r := by
  obtain ⟨c, s', rfl, hc⟩ := hk
  split <;> simp [mark, hc]

/-- No attribute begins here. -/
def Stops (r : Str) : Prop := ∀ k, (∃ c s, k = c :: s ∧ c ≠ '/') → ¬ mark k <+: r

theorem mark_ne {c c' : Char} {k j s : Str} (h : c ≠ c') : ¬ mark (c :: k) <+: ' ' :: (c' :: j ++ '=' :: s) := by simp [mark, h]
theorem mark_ne2 {a c c' : Char} {k j s : Str} (h : c ≠ c') : ¬ mark (a :: c :: k) <+: ' ' :: (a :: c' :: j ++ '=' :: s) := by simp [mark, h]

theorem options_cut {u u' i i' c c' t t' a a' o o' : Option Str} {r r' : Str}
    (e : rawAttr? (str% "user") u ++ (rawAttr? (str% "uid") i ++ (rawAttr? (str% "changeset") c ++ (rawAttr? (str% "timestamp") t ++
        (rawAttr? (str% "lat") a ++ (rawAttr? (str% "lon") o ++ r))))) =
      rawAttr? (str% "user") u' ++ (rawAttr? (str% "uid") i' ++ (rawAttr? (str% "changeset") c' ++ (rawAttr? (str% "timestamp") t' ++
        (rawAttr? (str% "lat") a' ++ (rawAttr? (str% "lon") o' ++ r'))))))
    (hu : ∀ v, u = some v → '"' ∉ v) (hu' : ∀ v, u' = some v → '"' ∉ v) (hi : ∀ v, i = some v → '"' ∉ v) (hi' : ∀ v, i' = some v → '"' ∉ v)
    (hc : ∀ v, c = some v → '"' ∉ v) (hc' : ∀ v, c' = some v → '"' ∉ v) (ht : ∀ v, t = some v → '"' ∉ v) (ht' : ∀ v, t' = some v → '"' ∉ v)
    (ha : ∀ v, a = some v → '"' ∉ v) (ha' : ∀ v, a' = some v → '"' ∉ v) (ho : ∀ v, o = some v → '"' ∉ v) (ho' : ∀ v, o' = some v → '"' ∉ v)
    (hr : Stops r) (hr' : Stops r') :
    u = u' ∧ i = i' ∧ c = c' ∧ t = t' ∧ a = a' ∧ o = o' ∧ r = r' := by
  have no1 : ∀ {x y : Char} {k j : Str} {z : Option Str} {r : Str}, x ≠ y → ¬ mark (x :: k) <+: r → ¬ mark (x :: k) <+: rawAttr? (y :: j) z ++ r :=
    fun h h' => mark_skip (fun _ => mark_ne h) h'
  have no2 : ∀ {b x y : Char} {k j : Str} {z : Option Str} {r : Str}, x ≠ y → ¬ mark (b :: x :: k) <+: r →
      ¬ mark (b :: x :: k) <+: rawAttr? (b :: y :: j) z ++ r :=
    fun h h' => mark_skip (fun _ => mark_ne2 h) h'
  have s0 : ∀ {x : Char} {k r : Str}, x ≠ '/' → Stops r → ¬ mark (x :: k) <+: r := fun hx h => h _ ⟨_, _, rfl, hx⟩
  obtain ⟨h4, e⟩ := opt_cut hu hu'
    (no2 (by decide) (no1 (by decide) (no1 (by decide) (no1 (by decide) (no1 (by decide) (s0 (by decide) hr))))))
    (no2 (by decide) (no1 (by decide) (no1 (by decide) (no1 (by decide) (no1 (by decide) (s0 (by decide) hr')))))) e
  obtain ⟨h5, e⟩ := opt_cut hi hi'
    (no1 (by decide) (no1 (by decide) (no1 (by decide) (no1 (by decide) (s0 (by decide) hr)))))
    (no1 (by decide) (no1 (by decide) (no1 (by decide) (no1 (by decide) (s0 (by decide) hr'))))) e
  obtain ⟨h6, e⟩ := opt_cut hc hc'
    (no1 (by decide) (no1 (by decide) (no1 (by decide) (s0 (by decide) hr))))
    (no1 (by decide) (no1 (by decide) (no1 (by decide) (s0 (by decide) hr')))) e
  obtain ⟨h7, e⟩ := opt_cut ht ht' (no1 (by decide) (no1 (by decide) (s0 (by decide) hr))) (no1 (by decide) (no1 (by decide) (s0 (by decide) hr'))) e
  obtain ⟨h8, e⟩ := opt_cut ha ha' (no2 (by decide) (s0 (by decide) hr)) (no2 (by decide) (s0 (by decide) hr')) e
  obtain ⟨h9, e⟩ := opt_cut ho ho' (s0 (by decide) hr) (s0 (by decide) hr') e
  exact ⟨h4, h5, h6, h7, h8, h9, e⟩

theorem obj_cut {d d' : ObjData} {v v' : UInt32} {r r' : Str} (hd : DataShape d) (hd' : DataShape d') (ht : NoQuote d) (ht' : NoQuote d')
    (hv : d.view.version = some v) (hv' : d'.view.version = some v') (e : objText d v ++ r = objText d' v' ++ r') :
    readBack d = readBack d' ∧ r = r' := by
  unfold objText attrsText at e
  simp only [List.append_assoc, List.append_cancel_left_eq] at e
  have hk : d.view.kind = d'.view.kind := kind_cut e
  rw [hk] at e
  replace e := List.append_cancel_left e
  obtain ⟨h1, e⟩ := attr_cut (i64_quote _) (i64_quote _) e
  have hdel : ∀ b : Bool, '"' ∉ (if b then str% "false" else str% "true") := fun b => by cases b <;> decide
  obtain ⟨h2, e⟩ := attr_cut (hdel _) (hdel _) e
  obtain ⟨h3, e⟩ := attr_cut (u32_quote _) (u32_quote _) e
  obtain ⟨h4, h5, h6, h7, h8, h9, e⟩ := options_cut e (map_quote escaped_quote) (map_quote escaped_quote) (map_quote u32_quote) (map_quote u32_quote)
    (map_quote u32_quote) (map_quote u32_quote) (time_quote ht) (time_quote ht') (map_quote fun p => lat_quote p.1) (map_quote fun p => lat_quote p.1)
    (map_quote fun p => lon_quote p.2) (map_quote fun p => lon_quote p.2) (fun k hk => tail_mark hk _ _ _) (fun k hk => tail_mark hk _ _ _)
  have hrest : d.nodes = d'.nodes ∧ d.members = d'.members ∧ d.view.tags = d'.view.tags ∧ r = r' := by
    by_cases c : d'.view.kind = .node ∧ d.view.tags = [] <;> by_cases c' : d'.view.kind = .node ∧ d'.view.tags = []
    · rw [if_pos c, if_pos c'] at e
      have hn : d.view.kind = .node := hk.trans c.1
      refine ⟨?_, ?_, c.2.trans c'.2.symm, List.append_cancel_left e⟩
      · rw [hd.2.1 (by rw [hn]; decide), hd'.2.1 (by rw [c.1]; decide)]
      · rw [hd.2.2 (by rw [hn]; decide), hd'.2.2 (by rw [c.1]; decide)]
    · rw [if_pos c, if_neg c'] at e; simp at e
    · rw [if_neg c, if_pos c'] at e; simp at e
    · rw [if_neg c, if_neg c'] at e
      simp only [List.append_assoc, List.append_cancel_left_eq] at e
      obtain ⟨g1, g2, g3, e⟩ := kids_cut e
      exact ⟨g1, g2, g3, List.append_cancel_left (List.append_cancel_left e)⟩
  obtain ⟨g1, g2, g3, g4⟩ := hrest
  have hpos : d.pos = d'.pos := by
    cases hp : d.pos <;> cases hp' : d'.pos <;> rw [hp, hp'] at h8 h9 <;> simp at h8 h9
    · exact congrArg some (Prod.ext (lat_inj h8) (lon_inj h9))
  have hdd : d.view.deleted = d'.view.deleted := by
    cases hb : d.view.deleted <;> cases hb' : d'.view.deleted <;> rw [hb, hb'] at h2 <;> simp at h2
  refine ⟨?_, g4⟩
  have hvv : d.view.version = d'.view.version := by rw [hv, hv', u32Str_inj h3]
  have htt : (d.view.timestamp.map fun t => TimestampFormat.iso t.toIsoString) = d'.view.timestamp.map fun t => .iso t.toIsoString := by
    have : ∀ x : Option TimestampFormat, (x.map fun t => TimestampFormat.iso t.toIsoString) = (x.map TimestampFormat.display).map .iso := by
      intro x; cases x <;> rfl
    rw [this, this, h7]
  have hid := i64Str_inj h1
  have hu := map_inj escaped_inj h4
  have hui := map_inj u32Str_inj h5
  have hcs := map_inj u32Str_inj h6
  unfold readBack
  rcases d with ⟨⟨id, ver, del, cs, ts, uid, us, tg, kd⟩, pos, ns, ms⟩
  rcases d' with ⟨⟨id', ver', del', cs', ts', uid', us', tg', kd'⟩, pos', ns', ms'⟩
  simp only at hid hu hui hcs hvv htt hdd hpos g1 g2 g3 hk ⊢
  subst hid hu hui hcs hvv hdd hpos g1 g2 g3 hk
  rw [htt]

/-- Objects one after another, up to an end tag. -/
theorem objs_cut {f g : Family} {os : List f.Obj} {os' : List g.Obj} {r r' : Str} (hr : ¬ str% "\n\t<" <+: r) (hr' : ¬ str% "\n\t<" <+: r')
    (hv : ∀ o ∈ os, OSMObjBase.version o ≠ none) (hv' : ∀ o ∈ os', OSMObjBase.version o ≠ none)
    (ht : ∀ o ∈ os, NoQuote (objData o)) (ht' : ∀ o ∈ os', NoQuote (objData o)) (e : os.flatMap textOf ++ r = os'.flatMap textOf ++ r') :
    (os.map fun o => readBack (objData o)) = (os'.map fun o => readBack (objData o)) ∧ r = r' := by
  have key : ∀ {h : Family} {os : List h.Obj}, (∀ o ∈ os, OSMObjBase.version o ≠ none) →
      os.flatMap textOf = os.flatMap fun o => objText (objData o) ((OSMObjBase.version o).getD 0) := by
    intro h os hv
    induction os with
    | nil => rfl
    | cons o os ih =>
      rw [List.flatMap_cons, List.flatMap_cons, ih fun x hx => hv x (by simp [hx])]
      congr 1
      have := hv o (by simp)
      unfold textOf
      cases hx : OSMObjBase.version o with
      | none => exact absurd hx this
      | some v => rfl
  rw [key hv, key hv'] at e
  have pre : ∀ {h : Family} (o : h.Obj), str% "\n\t<" <+: objText (objData o) ((OSMObjBase.version o).getD 0) := fun o =>
    ⟨_, by unfold objText; simp only [List.append_assoc]; rfl⟩
  have gets : ∀ {h : Family} {o : h.Obj}, OSMObjBase.version o ≠ none → (objData o).view.version = some ((OSMObjBase.version o).getD 0) := by
    intro h o ho
    show OSMObjBase.version o = _
    cases hx : OSMObjBase.version o with
    | none => exact absurd hx ho
    | some v => rfl
  exact flat_cut pre pre hr hr'
    (fun x hx y hy s s' h => obj_cut (objData_shape x) (objData_shape y) (ht x hx) (ht' y hy) (gets (hv x hx)) (gets (hv' y hy)) h) e

end Osmio.TextInj
