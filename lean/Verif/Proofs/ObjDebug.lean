import Verif.Model.ObjDebug
import Verif.Proofs.Json
import Verif.Proofs.Decimal
import Verif.Props.CoordDebug
/-! Debug texts can be read: where a part ends, and what it stands for. -/

namespace Osmio.Dbg

variable {α β : Type}

/-- The characters that can follow a part. -/
def stop (c : Char) : Bool := c == ',' || c == ')' || c == ']' || c == ' ' || c == '\n' || c == '}'

def Ends (r : Str) : Prop := r = [] ∨ ∃ c s, r = c :: s ∧ stop c = true

theorem Ends.nil : Ends [] := .inl rfl
theorem Ends.cons {c : Char} {s : Str} (h : stop c = true) : Ends (c :: s) := .inr ⟨c, s, rfl, h⟩

/-- The text ends where it ends, whatever follows. -/
def Cut (p : α → Str) : Prop := ∀ x y r r', Ends r → Ends r' → p x ++ r = p y ++ r' → p x = p y ∧ r = r'

/-- And says what it stands for. -/
def Exact (p : α → Str) : Prop := ∀ x y r r', Ends r → Ends r' → p x ++ r = p y ++ r' → x = y ∧ r = r'

theorem Exact.inj {p : α → Str} (h : Exact p) {x y : α} (e : p x = p y) : x = y :=
  (h x y [] [] .nil .nil (by rw [e])).1

theorem Exact.cut {p : α → Str} (h : Exact p) (f : β → α) : Cut fun x => p (f x) := by
  intro x y r r' hr hr' e
  obtain ⟨h1, h2⟩ := h _ _ r r' hr hr' e
  exact ⟨by simp only [h1], h2⟩

theorem upto {P : Char → Bool} {a a' r r' : Str} (ha : ∀ c ∈ a, P c = false) (ha' : ∀ c ∈ a', P c = false)
    (hr : r = [] ∨ ∃ c s, r = c :: s ∧ P c = true) (hr' : r' = [] ∨ ∃ c s, r' = c :: s ∧ P c = true) (e : a ++ r = a' ++ r') : a = a' ∧ r = r' := by
  induction a generalizing a' with
  | nil =>
    cases a' with
    | nil => exact ⟨rfl, e⟩
    | cons c a' =>
      rcases hr with rfl | ⟨d, s, rfl, hd⟩
      · simp at e
      · simp only [List.nil_append, List.cons_append, List.cons.injEq] at e
        have := ha' c (by simp)
        rw [← e.1, hd] at this; simp at this
  | cons c a ih =>
    cases a' with
    | nil =>
      rcases hr' with rfl | ⟨d, s, rfl, hd⟩
      · simp at e
      · simp only [List.nil_append, List.cons_append, List.cons.injEq] at e
        have := ha c (by simp)
        rw [e.1, hd] at this; simp at this
    | cons c' a' =>
      simp only [List.cons_append, List.cons.injEq] at e
      obtain ⟨h1, h2⟩ := ih (fun c h => ha c (by simp [h])) (fun c h => ha' c (by simp [h])) e.2
      exact ⟨by rw [e.1, h1], h2⟩

theorem exact_plain {p : α → Str} (h : ∀ x, ∀ c ∈ p x, stop c = false) (hi : ∀ x y, p x = p y → x = y) : Exact p := by
  intro x y r r' hr hr' e
  obtain ⟨h1, h2⟩ := upto (h x) (h y) hr hr' e
  exact ⟨hi _ _ h1, h2⟩

/-! ## Lines -/

theorem padLines_line (b : Bool) (s t : Str) : padLines b (s ++ '\n' :: t) = padLines b (s ++ ['\n']) ++ padLines true t := by
  induction s generalizing b with
  | nil => simp [padLines]
  | cons c s ih => simp only [List.cons_append, padLines, ih]; simp

theorem indented_eq (xs : List Str) : indented xs = padLines true (xs.flatMap (· ++ str% ",\n")) := by
  induction xs with
  | nil => rfl
  | cons x xs ih =>
    have e : ∀ t : Str, x ++ str% ",\n" ++ t = (x ++ [',']) ++ '\n' :: t := fun t => by simp
    have e' : x ++ str% ",\n" = (x ++ [',']) ++ ['\n'] := by simp
    unfold indented at ih ⊢
    rw [List.flatMap_cons, List.flatMap_cons, ih, e, padLines_line, e']

/-- A line begins at the end. -/
def atLine : Bool → Str → Bool
  | b, [] => b
  | _, c :: s => atLine (c == '\n') s

theorem atLine_append (b : Bool) (s t : Str) : atLine b (s ++ '\n' :: t) = atLine true t := by
  induction s generalizing b with
  | nil => simp [atLine]
  | cons c s ih => simpa [atLine] using ih _

theorem atLine_flatMap (xs : List Str) : atLine true (xs.flatMap (· ++ str% ",\n")) = true := by
  induction xs with
  | nil => rfl
  | cons x xs ih =>
    have e : ∀ t : Str, x ++ str% ",\n" ++ t = (x ++ [',']) ++ '\n' :: t := fun t => by simp
    rw [List.flatMap_cons, e, atLine_append, ih]

theorem pad_cut {z : Char} (hz : z ≠ ' ') {r r' : Str} : ∀ {c c' : Str} {b : Bool}, atLine b c = true → atLine b c' = true →
    padLines b c ++ z :: r = padLines b c' ++ z :: r' → c = c' ∧ r = r' := by
  intro c
  induction c with
  | nil =>
    intro c' b hc hc' e
    cases c' with
    | nil => simpa [padLines] using e
    | cons d c' =>
      simp only [atLine] at hc
      subst hc
      simp [padLines] at e
      exact absurd e.1 hz
  | cons d c ih =>
    intro c' b hc hc' e
    cases c' with
    | nil =>
      simp only [atLine] at hc'
      subst hc'
      simp [padLines] at e
      exact absurd e.1.symm hz
    | cons d' c' =>
      simp only [padLines, List.append_assoc, List.append_cancel_left_eq, List.cons_append, List.cons.injEq] at e
      obtain ⟨rfl, e⟩ := e
      simp only [atLine] at hc hc'
      obtain ⟨rfl, h⟩ := ih hc hc' e
      exact ⟨rfl, h⟩

/-- Indented parts up to the bracket. -/
theorem indented_cut {z : Char} (hz : z ≠ ' ') {r r' : Str} {xs ys : List Str} (e : indented xs ++ z :: r = indented ys ++ z :: r') :
    xs.flatMap (· ++ str% ",\n") = ys.flatMap (· ++ str% ",\n") ∧ r = r' := by
  rw [indented_eq, indented_eq] at e
  exact pad_cut hz (atLine_flatMap _) (atLine_flatMap _) e

/-! ## Parts of fixed number -/

theorem lines_parts {ps : List (α → Str)} (h : ∀ p ∈ ps, Cut p) {x y : α}
    (e : (ps.map (· x)).flatMap (· ++ str% ",\n") = (ps.map (· y)).flatMap (· ++ str% ",\n")) : ∀ p ∈ ps, p x = p y := by
  induction ps with
  | nil => simp
  | cons p ps ih =>
    simp only [List.map_cons, List.flatMap_cons, List.append_assoc] at e
    obtain ⟨h1, h2⟩ := h p (by simp) x y _ _ (.cons (by decide)) (.cons (by decide)) e
    simp only [List.cons.injEq, true_and] at h2
    intro q hq
    rcases List.mem_cons.1 hq with rfl | hq
    · exact h1
    · exact ih (fun q hq => h q (by simp [hq])) (by simpa using h2) q hq

theorem commas_parts {z : Char} (hz : stop z = true) {r r' : Str} {x y : α} : ∀ {ps : List (α → Str)}, (∀ p ∈ ps, Cut p) → ps ≠ [] →
    commas (ps.map (· x)) ++ z :: r = commas (ps.map (· y)) ++ z :: r' → (∀ p ∈ ps, p x = p y) ∧ r = r' := by
  intro ps
  induction ps with
  | nil => intro _ h; exact absurd rfl h
  | cons p ps ih =>
    intro h _ e
    cases ps with
    | nil =>
      obtain ⟨h1, h2⟩ := h p (by simp) x y _ _ (.cons hz) (.cons hz) e
      refine ⟨fun q hq => ?_, by simpa using h2⟩
      rw [List.mem_singleton.1 hq]; exact h1
    | cons q ps =>
      simp only [List.map_cons, commas, List.append_assoc] at e
      obtain ⟨h1, h2⟩ := h p (by simp) x y _ _ (.cons (by decide)) (.cons (by decide)) e
      simp only [List.cons.injEq, true_and] at h2
      obtain ⟨h3, h4⟩ := ih (fun q hq => h q (List.mem_cons_of_mem _ hq)) (by simp) (by simpa [List.map_cons] using h2)
      refine ⟨fun q' hq => ?_, h4⟩
      rcases List.mem_cons.1 hq with rfl | hq
      · exact h1
      · exact h3 q' hq

theorem tuple_parts (alt : Bool) (name : Str) {ps : List (α → Str)} (h : ∀ p ∈ ps, Cut p) (hne : ps ≠ []) {x y : α} {r r' : Str}
    (e : debugTuple alt name (ps.map (· x)) ++ r = debugTuple alt name (ps.map (· y)) ++ r') : (∀ p ∈ ps, p x = p y) ∧ r = r' := by
  have hx : ∀ x : α, ps.map (· x) ≠ [] := fun x => by simpa using hne
  unfold debugTuple at e
  rw [if_neg (hx x), if_neg (hx y)] at e
  cases alt with
  | true =>
    simp only [if_true, List.append_assoc, List.append_cancel_left_eq] at e
    obtain ⟨h1, h2⟩ := indented_cut (z := ')') (by decide) e
    exact ⟨lines_parts h h1, h2⟩
  | false =>
    simp only [Bool.false_eq_true, if_false, List.append_assoc, List.append_cancel_left_eq] at e
    exact commas_parts (z := ')') (by decide) h hne e

theorem struct_parts (alt : Bool) (name : Str) {fs : List (Str × (α → Str))} (h : ∀ f ∈ fs, Cut f.2) (hne : fs ≠ []) {x y : α} {r r' : Str}
    (e : debugStruct alt name (fs.map fun f => (f.1, f.2 x)) ++ r = debugStruct alt name (fs.map fun f => (f.1, f.2 y)) ++ r') :
    (∀ f ∈ fs, f.2 x = f.2 y) ∧ r = r' := by
  let ps : List (α → Str) := fs.map fun f => fun x => f.1 ++ str% ": " ++ f.2 x
  have hps : ∀ p ∈ ps, Cut p := by
    intro p hp
    obtain ⟨f, hf, rfl⟩ := List.mem_map.1 hp
    intro x y r r' hr hr' e
    simp only [List.append_assoc, List.append_cancel_left_eq] at e
    obtain ⟨h1, h2⟩ := h f hf x y r r' hr hr' e
    exact ⟨by simp only [h1], h2⟩
  have hpn : ps ≠ [] := by simpa [ps] using hne
  have hback : (∀ p ∈ ps, p x = p y) → ∀ f ∈ fs, f.2 x = f.2 y := by
    intro hp f hf
    have := hp _ (List.mem_map.2 ⟨f, hf, rfl⟩)
    simpa using this
  have hx : ∀ x : α, (fs.map fun f => (f.1, f.2 x)) ≠ [] := fun x => by simpa using hne
  have hm : ∀ x : α, (fs.map fun f => (f.1, f.2 x)).map (fun f => f.1 ++ str% ": " ++ f.2) = ps.map (· x) := fun x => by
    simp only [ps, List.map_map]; rfl
  unfold debugStruct at e
  rw [if_neg (hx x), if_neg (hx y), hm, hm] at e
  cases alt with
  | true =>
    simp only [if_true, List.append_assoc, List.append_cancel_left_eq] at e
    obtain ⟨h1, h2⟩ := indented_cut (z := '}') (by decide) e
    exact ⟨hback (lines_parts hps h1), h2⟩
  | false =>
    simp only [Bool.false_eq_true, if_false, List.append_assoc, List.append_cancel_left_eq] at e
    obtain ⟨h1, h2⟩ := commas_parts (z := ' ') (by decide) hps hpn e
    exact ⟨hback h1, by simpa using h2⟩

/-! ## Lists -/

theorem lines_list {p : α → Str} (h : Exact p) : ∀ {xs ys : List α},
    (xs.map p).flatMap (· ++ str% ",\n") = (ys.map p).flatMap (· ++ str% ",\n") → xs = ys := by
  intro xs
  induction xs with
  | nil =>
    intro ys e
    cases ys with
    | nil => rfl
    | cons y ys => simp at e
  | cons x xs ih =>
    intro ys e
    cases ys with
    | nil => simp at e
    | cons y ys =>
      simp only [List.map_cons, List.flatMap_cons, List.append_assoc] at e
      obtain ⟨h1, h2⟩ := h x y _ _ (.cons (by decide)) (.cons (by decide)) e
      simp only [List.cons.injEq, true_and] at h2
      rw [h1, ih (by simpa using h2)]

/-- What a part can begin with. -/
def Begins (p : α → Str) : Prop := ∀ x, ∃ c s, p x = c :: s ∧ c ≠ ']' ∧ c ≠ '}'

theorem commas_list {p : α → Str} (h : Exact p) (hb : Begins p) {z : Char} (hz : z = ']' ∨ z = '}') {r r' : Str} : ∀ {xs ys : List α},
    commas (xs.map p) ++ z :: r = commas (ys.map p) ++ z :: r' → xs = ys ∧ r = r' := by
  have hzs : stop z = true := by rcases hz with rfl | rfl <;> decide
  have hzc : z ≠ ',' := by rcases hz with rfl | rfl <;> decide
  have key : ∀ (y : α) (ys : List α) (r r' : Str), z :: r ≠ commas ((y :: ys).map p) ++ r' := by
    intro y ys r r' e
    obtain ⟨c, s, hc, hne⟩ := hb y
    have : z ≠ c := by rintro rfl; rcases hz with h | h; exact hne.1 h; exact hne.2 h
    cases ys <;> simp [commas, hc] at e <;> exact this e.1
  intro xs
  induction xs with
  | nil =>
    intro ys e
    cases ys with
    | nil => simpa [commas] using e
    | cons y ys => exact absurd e (key _ _ _ _)
  | cons x xs ih =>
    intro ys e
    cases ys with
    | nil => exact absurd e.symm (key _ _ _ _)
    | cons y ys =>
      cases xs with
      | nil =>
        cases ys with
        | nil =>
          obtain ⟨h1, h2⟩ := h x y _ _ (.cons hzs) (.cons hzs) e
          simp only [List.cons.injEq, true_and] at h2
          exact ⟨by rw [h1], h2⟩
        | cons y' ys =>
          simp only [List.map_cons, List.map_nil, commas, List.append_assoc] at e
          have := (h x y _ _ (.cons hzs) (.cons (by decide)) e).2
          simp at this
          exact absurd this.1 hzc
      | cons x' xs =>
        cases ys with
        | nil =>
          simp only [List.map_cons, List.map_nil, commas, List.append_assoc] at e
          have := (h x y _ _ (.cons (by decide)) (.cons hzs) e).2
          simp at this
          exact absurd this.1.symm hzc
        | cons y' ys =>
          simp only [List.map_cons, commas, List.append_assoc] at e
          obtain ⟨h1, h2⟩ := h x y _ _ (.cons (by decide)) (.cons (by decide)) e
          simp only [List.cons.injEq, true_and] at h2
          obtain ⟨h3, h4⟩ := ih (ys := y' :: ys) (by simpa [List.map_cons] using h2)
          exact ⟨by rw [h1, h3], h4⟩

theorem exact_list (alt : Bool) {p : α → Str} (h : Exact p) (hb : Begins p) : Exact fun xs : List α => debugList alt (xs.map p) := by
  intro xs ys r r' _ _ e
  simp only at e
  have hnil : ∀ xs : List α, debugList alt (xs.map p) = if alt then if xs = [] then str% "[]" else str% "[\n" ++ indented (xs.map p) ++ str% "]"
      else str% "[" ++ commas (xs.map p) ++ str% "]" := by
    intro xs
    cases xs <;> cases alt <;> simp [debugList, commas]
  rw [hnil, hnil] at e
  cases alt with
  | false =>
    simp only [Bool.false_eq_true, if_false, List.append_assoc, List.append_cancel_left_eq] at e
    exact commas_list h hb (.inl rfl) e
  | true =>
    simp only [if_true] at e
    by_cases hx : xs = [] <;> by_cases hy : ys = []
    · subst hx; subst hy; simpa using e
    · rw [if_pos hx, if_neg hy] at e; simp at e
    · rw [if_neg hx, if_pos hy] at e; simp at e
    · rw [if_neg hx, if_neg hy] at e
      simp only [List.append_assoc, List.append_cancel_left_eq] at e
      obtain ⟨h1, h2⟩ := indented_cut (z := ']') (by decide) e
      exact ⟨lines_list h h1, h2⟩

theorem debugTuple_head (alt : Bool) (c : Char) (name : Str) (parts : List Str) : ∃ s, debugTuple alt (c :: name) parts = c :: s := by
  unfold debugTuple; split_ifs <;> exact ⟨_, rfl⟩

theorem debugTuple_nil_head (alt : Bool) (x : Str) (parts : List Str) : ∃ s, debugTuple alt [] (x :: parts) = '(' :: s := by
  unfold debugTuple; rw [if_neg (by simp)]; split_ifs <;> exact ⟨_, rfl⟩

theorem exact_option (alt : Bool) {p : α → Str} (h : Exact p) : Exact (debugOption alt p) := by
  intro x y r r' hr hr' e
  cases x with
  | none =>
    cases y with
    | none => exact ⟨rfl, by simpa [debugOption] using e⟩
    | some y =>
      obtain ⟨s, hs⟩ := debugTuple_head alt 'S' (str% "ome") [p y]
      simp only [debugOption, hs] at e; simp at e
  | some x =>
    cases y with
    | none =>
      obtain ⟨s, hs⟩ := debugTuple_head alt 'S' (str% "ome") [p x]
      simp only [debugOption, hs] at e; simp at e
    | some y =>
      obtain ⟨h1, h2⟩ := tuple_parts alt (str% "Some") (ps := [p]) (by simpa using h.cut id) (by simp) (x := x) (y := y) (by simpa [debugOption] using e)
      exact ⟨by rw [h.inj (h1 p (by simp))], h2⟩

/-! ## Numbers and strings -/

theorem natStr_stop {n : Nat} {c : Char} (hc : c ∈ natStr n) : stop c = false := by
  have := natStr_isDigit n c hc
  by_contra hs
  simp only [stop, Bool.not_eq_false, Bool.or_eq_true, beq_iff_eq] at hs
  rcases hs with ((((rfl | rfl) | rfl) | rfl) | rfl) | rfl <;> exact absurd this (by decide)

theorem intStr_stop {i : Int} {c : Char} (hc : c ∈ intStr i) : stop c = false := by
  unfold intStr at hc
  split at hc
  · rcases List.mem_cons.1 hc with rfl | hc
    · decide
    · exact natStr_stop hc
  · exact natStr_stop hc

theorem natStr_inj {n m : Nat} (h : natStr n = natStr m) : n = m := by
  have := digitsVal_natStr n
  rw [h, digitsVal_natStr] at this
  exact (Option.some.inj this).symm

theorem intStr_inj {i j : Int} (h : intStr i = intStr j) : i = j := by
  have hd : ∀ n s, natStr n ≠ '-' :: s := by
    intro n s hs
    have := natStr_isDigit n '-' (by rw [hs]; simp)
    exact absurd this (by decide)
  unfold intStr at h
  split at h <;> split at h
  · have := natStr_inj (List.cons.inj h).2; omega
  · exact absurd h.symm (hd _ _)
  · exact absurd h (hd _ _)
  · have := natStr_inj h; omega

theorem exact_i64 : Exact debugI64 :=
  exact_plain (fun _ _ hc => intStr_stop hc) fun _ _ h => Int64.toInt_inj.1 (intStr_inj h)

theorem exact_u32 : Exact debugU32 :=
  exact_plain (fun _ _ hc => natStr_stop hc) fun _ _ h => UInt32.toNat_inj.1 (natStr_inj h)

theorem exact_bool : Exact debugBool :=
  exact_plain (fun x c hc => by cases x <;> simp [debugBool] at hc <;> rcases hc with rfl | rfl | rfl | rfl | rfl <;> decide)
    fun x y h => by cases x <;> cases y <;> simp [debugBool] at h ⊢

theorem exact_type : Exact OSMObjectType.debug :=
  exact_plain (fun x c hc => by cases x <;> simp [OSMObjectType.debug, OSMObjectType.nameShort] at hc <;> subst hc <;> decide)
    fun x y h => by cases x <;> cases y <;> simp [OSMObjectType.debug, OSMObjectType.nameShort] at h ⊢

theorem value_lowerHex (n : Nat) : ((lowerHex n).foldl (fun a c => 16 * a + (Spec.Json.hexVal c).getD 0) 0) = n := by
  induction n using Nat.strongRecOn with
  | _ n ih =>
    rw [lowerHex]
    split
    · rename_i h; simp [hexVal_hexDigit n h]
    · rw [List.foldl_append, ih _ (by omega)]
      simp [hexVal_hexDigit (n % 16) (by omega)]; omega

theorem lowerHex_close (n : Nat) : ∀ c ∈ lowerHex n, (c == '}') = false := by
  induction n using Nat.strongRecOn with
  | _ n ih =>
    have hd : ∀ k < 16, (Json.hexDigit k == '}') = false := by decide
    rw [lowerHex]
    split
    · rename_i h; intro c hc; rw [List.mem_singleton.1 hc]; exact hd n h
    · intro c hc
      rcases List.mem_append.1 hc with hc | hc
      · exact ih _ (by omega) c hc
      · rw [List.mem_singleton.1 hc]; exact hd _ (by omega)

/-- The characters with a short escape. -/
def escapes : List (Char × Char) := [('\x00', '0'), ('\t', 't'), ('\r', 'r'), ('\n', 'n'), ('"', '"'), ('\\', '\\')]

theorem escape_form (plain : Char → Bool) (c : Char) : (escapeDebug plain c = [c] ∧ c ≠ '\\') ∨
    (∃ d ∈ escapes, c = d.1 ∧ escapeDebug plain c = ['\\', d.2]) ∨ escapeDebug plain c = '\\' :: 'u' :: '{' :: (lowerHex c.toNat ++ ['}']) := by
  unfold escapeDebug
  split_ifs with h1 h2 h3 h4 h5 h6 h7
  · exact .inr (.inl ⟨('\x00', '0'), by decide, h1, rfl⟩)
  · exact .inr (.inl ⟨('\t', 't'), by decide, h2, rfl⟩)
  · exact .inr (.inl ⟨('\r', 'r'), by decide, h3, rfl⟩)
  · exact .inr (.inl ⟨('\n', 'n'), by decide, h4, rfl⟩)
  · exact .inr (.inl ⟨('"', '"'), by decide, h5, rfl⟩)
  · exact .inr (.inl ⟨('\\', '\\'), by decide, h6, rfl⟩)
  · exact .inl ⟨rfl, h6⟩
  · exact .inr (.inr rfl)

theorem escape_cut (plain : Char → Bool) {c c' : Char} {t t' : Str} (e : escapeDebug plain c ++ t = escapeDebug plain c' ++ t') : c = c' ∧ t = t' := by
  have hu : ∀ n n' : Nat, ∀ u u' : Str, lowerHex n ++ '}' :: u = lowerHex n' ++ '}' :: u' → n = n' ∧ u = u' := by
    intro n n' u u' e
    obtain ⟨h1, h2⟩ := upto (P := (· == '}')) (lowerHex_close n) (lowerHex_close n') (.inr ⟨_, _, rfl, by decide⟩) (.inr ⟨_, _, rfl, by decide⟩) e
    have := value_lowerHex n
    rw [h1, value_lowerHex] at this
    exact ⟨this.symm, by simpa using h2⟩
  rcases escape_form plain c with ⟨h1, h2⟩ | ⟨d, hd, h1, h2⟩ | h1 <;> rcases escape_form plain c' with ⟨h1', h2'⟩ | ⟨d', hd', h1', h2'⟩ | h1'
  · rw [h1, h1'] at e; simpa using e
  · rw [h1, h2'] at e; simp at e; exact absurd e.1 h2
  · rw [h1, h1'] at e; simp at e; exact absurd e.1 h2
  · rw [h2, h1'] at e; simp at e; exact absurd e.1.symm h2'
  · rw [h2, h2'] at e
    simp only [List.cons_append, List.nil_append, List.cons.injEq, true_and] at e
    have : ∀ d ∈ escapes, ∀ d' ∈ escapes, d.2 = d'.2 → d.1 = d'.1 := by decide
    exact ⟨by rw [h1, h1', this d hd d' hd' e.1], e.2⟩
  · rw [h2, h1'] at e
    simp only [List.cons_append, List.nil_append, List.cons.injEq, true_and] at e
    have : ∀ d ∈ escapes, d.2 ≠ 'u' := by decide
    exact absurd e.1 (this d hd)
  · rw [h1, h1'] at e; simp at e; exact absurd e.1.symm h2'
  · rw [h1, h2'] at e
    simp only [List.cons_append, List.nil_append, List.cons.injEq, true_and] at e
    have : ∀ d ∈ escapes, d.2 ≠ 'u' := by decide
    exact absurd e.1.symm (this d' hd')
  · rw [h1, h1'] at e
    simp only [List.cons_append, List.append_assoc, List.nil_append, List.cons.injEq, true_and] at e
    have := hu _ _ _ _ e
    exact ⟨Char.toNat_inj.1 this.1, this.2⟩

theorem escape_head (plain : Char → Bool) (c : Char) : ∃ d s, escapeDebug plain c = d :: s ∧ d ≠ '"' := by
  unfold escapeDebug
  split_ifs with h1 h2 h3 h4 h5 h6 h7
  all_goals first
    | exact ⟨_, _, rfl, by decide⟩
    | exact ⟨_, _, rfl, h5⟩

theorem body_cut (plain : Char → Bool) {r r' : Str} : ∀ {s s' : Str},
    s.flatMap (escapeDebug plain) ++ '"' :: r = s'.flatMap (escapeDebug plain) ++ '"' :: r' → s = s' ∧ r = r' := by
  intro s
  induction s with
  | nil =>
    intro s' e
    cases s' with
    | nil => simpa using e
    | cons c s' =>
      obtain ⟨d, u, hd, hne⟩ := escape_head plain c
      rw [List.flatMap_cons, hd] at e
      simp at e
      exact absurd e.1.symm hne
  | cons c s ih =>
    intro s' e
    cases s' with
    | nil =>
      obtain ⟨d, u, hd, hne⟩ := escape_head plain c
      rw [List.flatMap_cons, hd] at e
      simp at e
      exact absurd e.1 hne
    | cons c' s' =>
      simp only [List.flatMap_cons, List.append_assoc] at e
      obtain ⟨rfl, e'⟩ := escape_cut plain e
      obtain ⟨rfl, h⟩ := ih e'
      exact ⟨rfl, h⟩

theorem exact_str (plain : Char → Bool) : Exact (debugStr plain) := by
  intro s s' r r' _ _ e
  unfold debugStr at e
  simp only [List.cons_append, List.append_assoc, List.cons.injEq, true_and, List.nil_append] at e
  exact body_cut plain e

/-! ## Parts of objects -/

theorem tuple_one (alt : Bool) (name : Str) {p : α → Str} (h : Exact p) {x y : α} {r r' : Str}
    (e : debugTuple alt name [p x] ++ r = debugTuple alt name [p y] ++ r') : x = y ∧ r = r' := by
  obtain ⟨h1, h2⟩ := tuple_parts alt name (ps := [p]) (by simpa using h.cut id) (by simp) (x := x) (y := y) e
  exact ⟨h.inj (h1 p (by simp)), h2⟩

theorem tuple_names {alt : Bool} {c c' : Char} {name name' : Str} {ps ps' : List Str} {r r' : Str} (h : c ≠ c')
    (e : debugTuple alt (c :: name) ps ++ r = debugTuple alt (c' :: name') ps' ++ r') : False := by
  obtain ⟨s, hs⟩ := debugTuple_head alt c name ps
  obtain ⟨s', hs'⟩ := debugTuple_head alt c' name' ps'
  rw [hs, hs'] at e
  simp at e
  exact h e.1

theorem exact_timestamp (plain : Char → Bool) (alt : Bool) : Exact (TimestampFormat.debug plain alt) := by
  intro x y r r' _ _ e
  rcases x with x | x <;> rcases y with y | y
  · obtain ⟨h1, h2⟩ := tuple_one alt (str% "ISOString") (exact_str plain) e
    exact ⟨by rw [h1], h2⟩
  · exact (tuple_names (by decide) e).elim
  · exact (tuple_names (by decide) e).elim
  · obtain ⟨h1, h2⟩ := tuple_one alt (str% "EpochNumber") exact_i64 e
    exact ⟨by rw [h1], h2⟩

theorem begins_i64 : Begins debugI64 := by
  intro x
  cases hs : debugI64 x with
  | nil =>
    exfalso
    unfold debugI64 intStr at hs
    split at hs
    · simp at hs
    · exact natStr_ne_nil _ hs
  | cons c s =>
    have := intStr_stop (i := x.toInt) (c := c) (by rw [show intStr x.toInt = _ from hs]; simp)
    exact ⟨c, s, rfl, by rintro rfl; simp [stop] at this, by rintro rfl; simp [stop] at this⟩

theorem exact_tag (plain : Char → Bool) (alt : Bool) :
    Exact fun t : Str × Str => debugTuple alt [] [debugStr plain t.1, debugStr plain t.2] := by
  intro x y r r' _ _ e
  have hs := exact_str plain
  obtain ⟨h, hr⟩ := tuple_parts alt [] (ps := [fun t : Str × Str => debugStr plain t.1, fun t => debugStr plain t.2])
    (by simp only [List.forall_mem_cons]; exact ⟨hs.cut Prod.fst, hs.cut Prod.snd, by simp⟩) (by simp) (x := x) (y := y) e
  simp only [List.forall_mem_cons] at h
  exact ⟨Prod.ext (hs.inj h.1) (hs.inj h.2.1), hr⟩

theorem exact_tags (plain : Char → Bool) (alt : Bool) : Exact (debugTags plain alt) :=
  exact_list alt (exact_tag plain alt) fun _ => by
    obtain ⟨s, hs⟩ := debugTuple_nil_head alt _ _
    exact ⟨_, _, hs, by decide, by decide⟩

theorem exact_member (plain : Char → Bool) (alt : Bool) : Exact (debugMember plain alt) := by
  intro x y r r' _ _ e
  have hs := exact_str plain
  obtain ⟨h, hr⟩ := tuple_parts alt [] (ps := [fun t : OSMObjectType × ObjId × Str => t.1.debug, fun t => debugI64 t.2.1, fun t => debugStr plain t.2.2])
    (by
      simp only [List.forall_mem_cons]
      exact ⟨exact_type.cut Prod.fst, exact_i64.cut fun t : OSMObjectType × ObjId × Str => t.2.1,
        hs.cut fun t : OSMObjectType × ObjId × Str => t.2.2, by simp⟩) (by simp) (x := x) (y := y) e
  simp only [List.forall_mem_cons] at h
  exact ⟨Prod.ext (exact_type.inj h.1) (Prod.ext (exact_i64.inj h.2.1) (hs.inj h.2.2.1)), hr⟩

theorem begins_member (plain : Char → Bool) (alt : Bool) : Begins (debugMember plain alt) := fun _ => by
  obtain ⟨s, hs⟩ := debugTuple_nil_head alt _ _
  exact ⟨_, _, hs, by decide, by decide⟩

theorem decimal_stop {s : Str} {v : ℚ} (h : Spec.IsDecimal s v) {c : Char} (hc : c ∈ s) : stop c = false := by
  have hd : ∀ {c : Char}, isDigit c = true → stop c = false := by
    intro c h
    by_contra hs
    simp only [stop, Bool.not_eq_false, Bool.or_eq_true, beq_iff_eq] at hs
    rcases hs with ((((rfl | rfl) | rfl) | rfl) | rfl) | rfl <;> exact absurd h (by decide)
  obtain ⟨sign, ip, point, fp, ex, e, rfl, h1, h2, -, h3, h4, h5, -⟩ := h.exists_parts
  have hsign : ∀ {sign : List Char}, sign = [] ∨ sign = ['+'] ∨ sign = ['-'] → c ∈ sign → stop c = false := by
    rintro _ (rfl | rfl | rfl) hc <;> simp at hc <;> subst hc <;> decide
  simp only [List.mem_append] at hc
  rcases hc with (((hc | hc) | hc) | hc) | hc
  · exact hsign h1 hc
  · exact hd (h3 c hc)
  · rcases h2 with rfl | ⟨rfl, -⟩ <;> simp at hc
    subst hc; decide
  · exact hd (h4 c hc)
  · cases h5 with
    | none => simp at hc
    | some mark sign ds hm hs _ hds =>
      simp only [List.mem_cons, List.mem_append] at hc
      rcases hc with rfl | hc | hc
      · rcases hm with rfl | rfl <;> decide
      · exact hsign hs hc
      · exact hd (hds c hc)

theorem exact_latLon (alt : Bool) : Exact (debugLatLon alt) := by
  intro x y r r' _ _ e
  have ha : Exact Lat.debug := exact_plain (fun l c hc => decimal_stop (C72_exact l ⟨0⟩).1 hc) fun _ _ h => C72_injective.1 _ _ h
  have ho : Exact Lon.debug := exact_plain (fun l c hc => decimal_stop (C72_exact ⟨0⟩ l).2 hc) fun _ _ h => C72_injective.2 _ _ h
  obtain ⟨h, hr⟩ := tuple_parts alt [] (ps := [fun t : Lat × Lon => t.1.debug, fun t => t.2.debug])
    (by simp only [List.forall_mem_cons]; exact ⟨ha.cut Prod.fst, ho.cut Prod.snd, by simp⟩) (by simp) (x := x) (y := y) e
  simp only [List.forall_mem_cons] at h
  exact ⟨Prod.ext (ha.inj h.1) (ho.inj h.2.1), hr⟩

/-! ## Maps -/

theorem exact_entry (plain : Char → Bool) : Exact fun t : Str × Str => debugStr plain t.1 ++ str% ": " ++ debugStr plain t.2 := by
  intro x y r r' hr hr' e
  simp only [List.append_assoc] at e
  unfold debugStr at e
  simp only [List.cons_append, List.append_assoc, List.cons.injEq, true_and, List.nil_append] at e
  obtain ⟨h1, e⟩ := body_cut plain e
  simp only [List.cons.injEq, true_and] at e
  obtain ⟨h2, h3⟩ := body_cut plain e
  exact ⟨Prod.ext h1 h2, h3⟩

theorem exact_map (plain : Char → Bool) (alt : Bool) :
    Exact fun ts : List (Str × Str) => debugMap alt (ts.map fun t => (debugStr plain t.1, debugStr plain t.2)) := by
  have hb : Begins fun t : Str × Str => debugStr plain t.1 ++ str% ": " ++ debugStr plain t.2 := fun t => ⟨_, _, rfl, by decide, by decide⟩
  have h := exact_entry plain
  intro xs ys r r' _ _ e
  have hnil : ∀ xs : List (Str × Str), debugMap alt (xs.map fun t => (debugStr plain t.1, debugStr plain t.2)) =
      if alt then if xs = [] then str% "{}" else str% "{\n" ++ indented (xs.map fun t => debugStr plain t.1 ++ str% ": " ++ debugStr plain t.2) ++ str% "}"
      else str% "{" ++ commas (xs.map fun t => debugStr plain t.1 ++ str% ": " ++ debugStr plain t.2) ++ str% "}" := by
    intro xs
    cases xs <;> cases alt <;> simp [debugMap, commas, Function.comp_def]
  simp only [hnil] at e
  cases alt with
  | false =>
    simp only [Bool.false_eq_true, if_false, List.append_assoc, List.append_cancel_left_eq] at e
    exact commas_list h hb (.inr rfl) (by simpa using e)
  | true =>
    simp only [if_true] at e
    by_cases hx : xs = [] <;> by_cases hy : ys = []
    · subst hx; subst hy; simpa using e
    · rw [if_pos hx, if_neg hy] at e; simp at e
    · rw [if_neg hx, if_pos hy] at e; simp at e
    · rw [if_neg hx, if_neg hy] at e
      simp only [List.append_assoc (str% "{\n"), List.append_assoc (indented _), List.append_cancel_left_eq] at e
      obtain ⟨h1, h2⟩ := indented_cut (z := '}') (by decide) e
      exact ⟨lines_list h h1, h2⟩

/-! ## Objects -/

theorem exact_StringNode (plain : Char → Bool) (alt : Bool) : Exact (StringNode.debug plain alt) := by
  intro x y r r' _ _ e
  let fs : List (Str × (StringNode → Str)) := [(str% "_id", fun x => debugI64 x.id_), (str% "_version", fun x => debugOption alt debugU32 x.version_),
    (str% "_deleted", fun x => debugBool x.deleted_), (str% "_changeset_id", fun x => debugOption alt debugU32 x.changesetId_),
    (str% "_timestamp", fun x => debugOption alt (TimestampFormat.debug plain alt) x.timestamp_),
    (str% "_uid", fun x => debugOption alt debugU32 x.uid_), (str% "_user", fun x => debugOption alt (debugStr plain) x.user_),
    (str% "_tags", fun x => debugTags plain alt x.tags_), (str% "_lat_lon", fun x => debugOption alt (debugLatLon alt) x.latLon_)]
  have hu := exact_option alt exact_u32
  have ht := exact_option alt (exact_timestamp plain alt)
  have hs := exact_option alt (exact_str plain)
  have hg := exact_tags plain alt
  have hl := exact_option alt (exact_latLon alt)
  have hc : ∀ f ∈ fs, Cut f.2 := by
    simp only [fs, List.forall_mem_cons]
    exact ⟨exact_i64.cut StringNode.id_, hu.cut StringNode.version_, exact_bool.cut StringNode.deleted_, hu.cut StringNode.changesetId_, ht.cut StringNode.timestamp_,
      hu.cut StringNode.uid_, hs.cut StringNode.user_, hg.cut StringNode.tags_, hl.cut StringNode.latLon_, by simp⟩
  obtain ⟨h, hr⟩ := struct_parts alt (str% "StringNode") hc (by simp [fs]) (x := x) (y := y) e
  refine ⟨?_, hr⟩
  simp only [fs, List.forall_mem_cons] at h
  obtain ⟨h1, h2, h3, h4, h5, h6, h7, h8, h9, -⟩ := h
  have k1 := exact_i64.inj h1
  have k2 := hu.inj h2
  have k3 := exact_bool.inj h3
  have k4 := hu.inj h4
  have k5 := ht.inj h5
  have k6 := hu.inj h6
  have k7 := hs.inj h7
  have k8 := hg.inj h8
  have k9 := hl.inj h9
  cases x; cases y
  clear h1 h2 h3 h4 h5 h6 h7 h8 h9 e
  simp only at k1 k2 k3 k4 k5 k6 k7 k8 k9
  subst k1 k2 k3 k4 k5 k6 k7 k8 k9
  rfl

theorem exact_StringWay (plain : Char → Bool) (alt : Bool) : Exact (StringWay.debug plain alt) := by
  intro x y r r' _ _ e
  let fs : List (Str × (StringWay → Str)) := [(str% "_id", fun x => debugI64 x.id_), (str% "_version", fun x => debugOption alt debugU32 x.version_),
    (str% "_deleted", fun x => debugBool x.deleted_), (str% "_changeset_id", fun x => debugOption alt debugU32 x.changesetId_),
    (str% "_timestamp", fun x => debugOption alt (TimestampFormat.debug plain alt) x.timestamp_),
    (str% "_uid", fun x => debugOption alt debugU32 x.uid_), (str% "_user", fun x => debugOption alt (debugStr plain) x.user_),
    (str% "_tags", fun x => debugTags plain alt x.tags_), (str% "_nodes", fun x => debugList alt (x.nodes_.map debugI64))]
  have hu := exact_option alt exact_u32
  have ht := exact_option alt (exact_timestamp plain alt)
  have hs := exact_option alt (exact_str plain)
  have hg := exact_tags plain alt
  have hl := exact_list alt exact_i64 begins_i64
  have hc : ∀ f ∈ fs, Cut f.2 := by
    simp only [fs, List.forall_mem_cons]
    exact ⟨exact_i64.cut StringWay.id_, hu.cut StringWay.version_, exact_bool.cut StringWay.deleted_, hu.cut StringWay.changesetId_, ht.cut StringWay.timestamp_,
      hu.cut StringWay.uid_, hs.cut StringWay.user_, hg.cut StringWay.tags_, hl.cut StringWay.nodes_, by simp⟩
  obtain ⟨h, hr⟩ := struct_parts alt (str% "StringWay") hc (by simp [fs]) (x := x) (y := y) e
  refine ⟨?_, hr⟩
  simp only [fs, List.forall_mem_cons] at h
  obtain ⟨h1, h2, h3, h4, h5, h6, h7, h8, h9, -⟩ := h
  have k1 := exact_i64.inj h1
  have k2 := hu.inj h2
  have k3 := exact_bool.inj h3
  have k4 := hu.inj h4
  have k5 := ht.inj h5
  have k6 := hu.inj h6
  have k7 := hs.inj h7
  have k8 := hg.inj h8
  have k9 := hl.inj h9
  cases x; cases y
  clear h1 h2 h3 h4 h5 h6 h7 h8 h9 e
  simp only at k1 k2 k3 k4 k5 k6 k7 k8 k9
  subst k1 k2 k3 k4 k5 k6 k7 k8 k9
  rfl

theorem exact_StringRelation (plain : Char → Bool) (alt : Bool) : Exact (StringRelation.debug plain alt) := by
  intro x y r r' _ _ e
  let fs : List (Str × (StringRelation → Str)) := [(str% "_id", fun x => debugI64 x.id_), (str% "_version", fun x => debugOption alt debugU32 x.version_),
    (str% "_deleted", fun x => debugBool x.deleted_), (str% "_changeset_id", fun x => debugOption alt debugU32 x.changesetId_),
    (str% "_timestamp", fun x => debugOption alt (TimestampFormat.debug plain alt) x.timestamp_),
    (str% "_uid", fun x => debugOption alt debugU32 x.uid_), (str% "_user", fun x => debugOption alt (debugStr plain) x.user_),
    (str% "_tags", fun x => debugTags plain alt x.tags_), (str% "_members", fun x => debugList alt (x.members_.map (debugMember plain alt)))]
  have hu := exact_option alt exact_u32
  have ht := exact_option alt (exact_timestamp plain alt)
  have hs := exact_option alt (exact_str plain)
  have hg := exact_tags plain alt
  have hl := exact_list alt (exact_member plain alt) (begins_member plain alt)
  have hc : ∀ f ∈ fs, Cut f.2 := by
    simp only [fs, List.forall_mem_cons]
    exact ⟨exact_i64.cut StringRelation.id_, hu.cut StringRelation.version_, exact_bool.cut StringRelation.deleted_, hu.cut StringRelation.changesetId_, ht.cut StringRelation.timestamp_,
      hu.cut StringRelation.uid_, hs.cut StringRelation.user_, hg.cut StringRelation.tags_, hl.cut StringRelation.members_, by simp⟩
  obtain ⟨h, hr⟩ := struct_parts alt (str% "StringRelation") hc (by simp [fs]) (x := x) (y := y) e
  refine ⟨?_, hr⟩
  simp only [fs, List.forall_mem_cons] at h
  obtain ⟨h1, h2, h3, h4, h5, h6, h7, h8, h9, -⟩ := h
  have k1 := exact_i64.inj h1
  have k2 := hu.inj h2
  have k3 := exact_bool.inj h3
  have k4 := hu.inj h4
  have k5 := ht.inj h5
  have k6 := hu.inj h6
  have k7 := hs.inj h7
  have k8 := hg.inj h8
  have k9 := hl.inj h9
  cases x; cases y
  clear h1 h2 h3 h4 h5 h6 h7 h8 h9 e
  simp only at k1 k2 k3 k4 k5 k6 k7 k8 k9
  subst k1 k2 k3 k4 k5 k6 k7 k8 k9
  rfl

theorem exact_StringOSMObj (plain : Char → Bool) (alt : Bool) : Exact (StringOSMObj.debug plain alt) := by
  intro x y r r' _ _ e
  rcases x with x | x | x <;> rcases y with y | y | y
  case node.node =>
    obtain ⟨h1, h2⟩ := tuple_one alt (str% "Node") (exact_StringNode plain alt) e
    exact ⟨by rw [h1], h2⟩
  case way.way =>
    obtain ⟨h1, h2⟩ := tuple_one alt (str% "Way") (exact_StringWay plain alt) e
    exact ⟨by rw [h1], h2⟩
  case relation.relation =>
    obtain ⟨h1, h2⟩ := tuple_one alt (str% "Relation") (exact_StringRelation plain alt) e
    exact ⟨by rw [h1], h2⟩
  all_goals
    exfalso
    exact tuple_names (by decide) e

theorem exact_RcNode (plain : Char → Bool) (alt : Bool) : Exact (RcNode.debug plain alt) := by
  intro x y r r' _ _ e
  let fs : List (Str × (RcNode → Str)) := [(str% "_id", fun x => debugI64 x.id_), (str% "_version", fun x => debugOption alt debugU32 x.version_),
    (str% "_deleted", fun x => debugBool x.deleted_), (str% "_changeset_id", fun x => debugOption alt debugU32 x.changesetId_),
    (str% "_timestamp", fun x => debugOption alt (TimestampFormat.debug plain alt) x.timestamp_),
    (str% "_uid", fun x => debugOption alt debugU32 x.uid_), (str% "_user", fun x => debugOption alt (debugStr plain) x.user_),
    (str% "_tags", fun x => debugOption alt (debugTags plain alt) x.tags_), (str% "_lat_lon", fun x => debugOption alt (debugLatLon alt) x.latLon_)]
  have hu := exact_option alt exact_u32
  have ht := exact_option alt (exact_timestamp plain alt)
  have hs := exact_option alt (exact_str plain)
  have hg := exact_option alt (exact_tags plain alt)
  have hl := exact_option alt (exact_latLon alt)
  have hc : ∀ f ∈ fs, Cut f.2 := by
    simp only [fs, List.forall_mem_cons]
    exact ⟨exact_i64.cut RcNode.id_, hu.cut RcNode.version_, exact_bool.cut RcNode.deleted_, hu.cut RcNode.changesetId_, ht.cut RcNode.timestamp_,
      hu.cut RcNode.uid_, hs.cut RcNode.user_, hg.cut RcNode.tags_, hl.cut RcNode.latLon_, by simp⟩
  obtain ⟨h, hr⟩ := struct_parts alt (str% "RcNode") hc (by simp [fs]) (x := x) (y := y) e
  refine ⟨?_, hr⟩
  simp only [fs, List.forall_mem_cons] at h
  obtain ⟨h1, h2, h3, h4, h5, h6, h7, h8, h9, -⟩ := h
  have k1 := exact_i64.inj h1
  have k2 := hu.inj h2
  have k3 := exact_bool.inj h3
  have k4 := hu.inj h4
  have k5 := ht.inj h5
  have k6 := hu.inj h6
  have k7 := hs.inj h7
  have k8 := hg.inj h8
  have k9 := hl.inj h9
  cases x; cases y
  clear h1 h2 h3 h4 h5 h6 h7 h8 h9 e
  simp only at k1 k2 k3 k4 k5 k6 k7 k8 k9
  subst k1 k2 k3 k4 k5 k6 k7 k8 k9
  rfl

theorem exact_RcWay (plain : Char → Bool) (alt : Bool) : Exact (RcWay.debug plain alt) := by
  intro x y r r' _ _ e
  let fs : List (Str × (RcWay → Str)) := [(str% "_id", fun x => debugI64 x.id_), (str% "_version", fun x => debugOption alt debugU32 x.version_),
    (str% "_deleted", fun x => debugBool x.deleted_), (str% "_changeset_id", fun x => debugOption alt debugU32 x.changesetId_),
    (str% "_timestamp", fun x => debugOption alt (TimestampFormat.debug plain alt) x.timestamp_),
    (str% "_uid", fun x => debugOption alt debugU32 x.uid_), (str% "_user", fun x => debugOption alt (debugStr plain) x.user_),
    (str% "_tags", fun x => debugTags plain alt x.tags_), (str% "_nodes", fun x => debugList alt (x.nodes_.map debugI64))]
  have hu := exact_option alt exact_u32
  have ht := exact_option alt (exact_timestamp plain alt)
  have hs := exact_option alt (exact_str plain)
  have hg := exact_tags plain alt
  have hl := exact_list alt exact_i64 begins_i64
  have hc : ∀ f ∈ fs, Cut f.2 := by
    simp only [fs, List.forall_mem_cons]
    exact ⟨exact_i64.cut RcWay.id_, hu.cut RcWay.version_, exact_bool.cut RcWay.deleted_, hu.cut RcWay.changesetId_, ht.cut RcWay.timestamp_,
      hu.cut RcWay.uid_, hs.cut RcWay.user_, hg.cut RcWay.tags_, hl.cut RcWay.nodes_, by simp⟩
  obtain ⟨h, hr⟩ := struct_parts alt (str% "RcWay") hc (by simp [fs]) (x := x) (y := y) e
  refine ⟨?_, hr⟩
  simp only [fs, List.forall_mem_cons] at h
  obtain ⟨h1, h2, h3, h4, h5, h6, h7, h8, h9, -⟩ := h
  have k1 := exact_i64.inj h1
  have k2 := hu.inj h2
  have k3 := exact_bool.inj h3
  have k4 := hu.inj h4
  have k5 := ht.inj h5
  have k6 := hu.inj h6
  have k7 := hs.inj h7
  have k8 := hg.inj h8
  have k9 := hl.inj h9
  cases x; cases y
  clear h1 h2 h3 h4 h5 h6 h7 h8 h9 e
  simp only at k1 k2 k3 k4 k5 k6 k7 k8 k9
  subst k1 k2 k3 k4 k5 k6 k7 k8 k9
  rfl

theorem exact_RcRelation (plain : Char → Bool) (alt : Bool) : Exact (RcRelation.debug plain alt) := by
  intro x y r r' _ _ e
  let fs : List (Str × (RcRelation → Str)) := [(str% "_id", fun x => debugI64 x.id_), (str% "_version", fun x => debugOption alt debugU32 x.version_),
    (str% "_deleted", fun x => debugBool x.deleted_), (str% "_changeset_id", fun x => debugOption alt debugU32 x.changesetId_),
    (str% "_timestamp", fun x => debugOption alt (TimestampFormat.debug plain alt) x.timestamp_),
    (str% "_uid", fun x => debugOption alt debugU32 x.uid_), (str% "_user", fun x => debugOption alt (debugStr plain) x.user_),
    (str% "_tags", fun x => debugTags plain alt x.tags_), (str% "_members", fun x => debugList alt (x.members_.map (debugMember plain alt)))]
  have hu := exact_option alt exact_u32
  have ht := exact_option alt (exact_timestamp plain alt)
  have hs := exact_option alt (exact_str plain)
  have hg := exact_tags plain alt
  have hl := exact_list alt (exact_member plain alt) (begins_member plain alt)
  have hc : ∀ f ∈ fs, Cut f.2 := by
    simp only [fs, List.forall_mem_cons]
    exact ⟨exact_i64.cut RcRelation.id_, hu.cut RcRelation.version_, exact_bool.cut RcRelation.deleted_, hu.cut RcRelation.changesetId_, ht.cut RcRelation.timestamp_,
      hu.cut RcRelation.uid_, hs.cut RcRelation.user_, hg.cut RcRelation.tags_, hl.cut RcRelation.members_, by simp⟩
  obtain ⟨h, hr⟩ := struct_parts alt (str% "RcRelation") hc (by simp [fs]) (x := x) (y := y) e
  refine ⟨?_, hr⟩
  simp only [fs, List.forall_mem_cons] at h
  obtain ⟨h1, h2, h3, h4, h5, h6, h7, h8, h9, -⟩ := h
  have k1 := exact_i64.inj h1
  have k2 := hu.inj h2
  have k3 := exact_bool.inj h3
  have k4 := hu.inj h4
  have k5 := ht.inj h5
  have k6 := hu.inj h6
  have k7 := hs.inj h7
  have k8 := hg.inj h8
  have k9 := hl.inj h9
  cases x; cases y
  clear h1 h2 h3 h4 h5 h6 h7 h8 h9 e
  simp only at k1 k2 k3 k4 k5 k6 k7 k8 k9
  subst k1 k2 k3 k4 k5 k6 k7 k8 k9
  rfl

theorem exact_RcOSMObj (plain : Char → Bool) (alt : Bool) : Exact (RcOSMObj.debug plain alt) := by
  intro x y r r' _ _ e
  rcases x with x | x | x <;> rcases y with y | y | y
  case node.node =>
    obtain ⟨h1, h2⟩ := tuple_one alt (str% "Node") (exact_RcNode plain alt) e
    exact ⟨by rw [h1], h2⟩
  case way.way =>
    obtain ⟨h1, h2⟩ := tuple_one alt (str% "Way") (exact_RcWay plain alt) e
    exact ⟨by rw [h1], h2⟩
  case relation.relation =>
    obtain ⟨h1, h2⟩ := tuple_one alt (str% "Relation") (exact_RcRelation plain alt) e
    exact ⟨by rw [h1], h2⟩
  all_goals
    exfalso
    exact tuple_names (by decide) e

theorem exact_ArcNode (plain : Char → Bool) (alt : Bool) : Exact (ArcNode.debug plain alt) := by
  intro x y r r' _ _ e
  let fs : List (Str × (ArcNode → Str)) := [(str% "_id", fun x => debugI64 x.id_), (str% "_version", fun x => debugOption alt debugU32 x.version_),
    (str% "_deleted", fun x => debugBool x.deleted_), (str% "_changeset_id", fun x => debugOption alt debugU32 x.changesetId_),
    (str% "_timestamp", fun x => debugOption alt (TimestampFormat.debug plain alt) x.timestamp_),
    (str% "_uid", fun x => debugOption alt debugU32 x.uid_), (str% "_user", fun x => debugOption alt (debugStr plain) x.user_),
    (str% "_tags", fun x => debugOption alt (debugTags plain alt) x.tags_), (str% "_lat_lon", fun x => debugOption alt (debugLatLon alt) x.latLon_)]
  have hu := exact_option alt exact_u32
  have ht := exact_option alt (exact_timestamp plain alt)
  have hs := exact_option alt (exact_str plain)
  have hg := exact_option alt (exact_tags plain alt)
  have hl := exact_option alt (exact_latLon alt)
  have hc : ∀ f ∈ fs, Cut f.2 := by
    simp only [fs, List.forall_mem_cons]
    exact ⟨exact_i64.cut ArcNode.id_, hu.cut ArcNode.version_, exact_bool.cut ArcNode.deleted_, hu.cut ArcNode.changesetId_, ht.cut ArcNode.timestamp_,
      hu.cut ArcNode.uid_, hs.cut ArcNode.user_, hg.cut ArcNode.tags_, hl.cut ArcNode.latLon_, by simp⟩
  obtain ⟨h, hr⟩ := struct_parts alt (str% "ArcNode") hc (by simp [fs]) (x := x) (y := y) e
  refine ⟨?_, hr⟩
  simp only [fs, List.forall_mem_cons] at h
  obtain ⟨h1, h2, h3, h4, h5, h6, h7, h8, h9, -⟩ := h
  have k1 := exact_i64.inj h1
  have k2 := hu.inj h2
  have k3 := exact_bool.inj h3
  have k4 := hu.inj h4
  have k5 := ht.inj h5
  have k6 := hu.inj h6
  have k7 := hs.inj h7
  have k8 := hg.inj h8
  have k9 := hl.inj h9
  cases x; cases y
  clear h1 h2 h3 h4 h5 h6 h7 h8 h9 e
  simp only at k1 k2 k3 k4 k5 k6 k7 k8 k9
  subst k1 k2 k3 k4 k5 k6 k7 k8 k9
  rfl

theorem exact_ArcWay (plain : Char → Bool) (alt : Bool) : Exact (ArcWay.debug plain alt) := by
  intro x y r r' _ _ e
  let fs : List (Str × (ArcWay → Str)) := [(str% "_id", fun x => debugI64 x.id_), (str% "_version", fun x => debugOption alt debugU32 x.version_),
    (str% "_deleted", fun x => debugBool x.deleted_), (str% "_changeset_id", fun x => debugOption alt debugU32 x.changesetId_),
    (str% "_timestamp", fun x => debugOption alt (TimestampFormat.debug plain alt) x.timestamp_),
    (str% "_uid", fun x => debugOption alt debugU32 x.uid_), (str% "_user", fun x => debugOption alt (debugStr plain) x.user_),
    (str% "_tags", fun x => debugTags plain alt x.tags_), (str% "_nodes", fun x => debugList alt (x.nodes_.map debugI64))]
  have hu := exact_option alt exact_u32
  have ht := exact_option alt (exact_timestamp plain alt)
  have hs := exact_option alt (exact_str plain)
  have hg := exact_tags plain alt
  have hl := exact_list alt exact_i64 begins_i64
  have hc : ∀ f ∈ fs, Cut f.2 := by
    simp only [fs, List.forall_mem_cons]
    exact ⟨exact_i64.cut ArcWay.id_, hu.cut ArcWay.version_, exact_bool.cut ArcWay.deleted_, hu.cut ArcWay.changesetId_, ht.cut ArcWay.timestamp_,
      hu.cut ArcWay.uid_, hs.cut ArcWay.user_, hg.cut ArcWay.tags_, hl.cut ArcWay.nodes_, by simp⟩
  obtain ⟨h, hr⟩ := struct_parts alt (str% "ArcWay") hc (by simp [fs]) (x := x) (y := y) e
  refine ⟨?_, hr⟩
  simp only [fs, List.forall_mem_cons] at h
  obtain ⟨h1, h2, h3, h4, h5, h6, h7, h8, h9, -⟩ := h
  have k1 := exact_i64.inj h1
  have k2 := hu.inj h2
  have k3 := exact_bool.inj h3
  have k4 := hu.inj h4
  have k5 := ht.inj h5
  have k6 := hu.inj h6
  have k7 := hs.inj h7
  have k8 := hg.inj h8
  have k9 := hl.inj h9
  cases x; cases y
  clear h1 h2 h3 h4 h5 h6 h7 h8 h9 e
  simp only at k1 k2 k3 k4 k5 k6 k7 k8 k9
  subst k1 k2 k3 k4 k5 k6 k7 k8 k9
  rfl

theorem exact_ArcRelation (plain : Char → Bool) (alt : Bool) : Exact (ArcRelation.debug plain alt) := by
  intro x y r r' _ _ e
  let fs : List (Str × (ArcRelation → Str)) := [(str% "_id", fun x => debugI64 x.id_), (str% "_version", fun x => debugOption alt debugU32 x.version_),
    (str% "_deleted", fun x => debugBool x.deleted_), (str% "_changeset_id", fun x => debugOption alt debugU32 x.changesetId_),
    (str% "_timestamp", fun x => debugOption alt (TimestampFormat.debug plain alt) x.timestamp_),
    (str% "_uid", fun x => debugOption alt debugU32 x.uid_), (str% "_user", fun x => debugOption alt (debugStr plain) x.user_),
    (str% "_tags", fun x => debugTags plain alt x.tags_), (str% "_members", fun x => debugList alt (x.members_.map (debugMember plain alt)))]
  have hu := exact_option alt exact_u32
  have ht := exact_option alt (exact_timestamp plain alt)
  have hs := exact_option alt (exact_str plain)
  have hg := exact_tags plain alt
  have hl := exact_list alt (exact_member plain alt) (begins_member plain alt)
  have hc : ∀ f ∈ fs, Cut f.2 := by
    simp only [fs, List.forall_mem_cons]
    exact ⟨exact_i64.cut ArcRelation.id_, hu.cut ArcRelation.version_, exact_bool.cut ArcRelation.deleted_, hu.cut ArcRelation.changesetId_, ht.cut ArcRelation.timestamp_,
      hu.cut ArcRelation.uid_, hs.cut ArcRelation.user_, hg.cut ArcRelation.tags_, hl.cut ArcRelation.members_, by simp⟩
  obtain ⟨h, hr⟩ := struct_parts alt (str% "ArcRelation") hc (by simp [fs]) (x := x) (y := y) e
  refine ⟨?_, hr⟩
  simp only [fs, List.forall_mem_cons] at h
  obtain ⟨h1, h2, h3, h4, h5, h6, h7, h8, h9, -⟩ := h
  have k1 := exact_i64.inj h1
  have k2 := hu.inj h2
  have k3 := exact_bool.inj h3
  have k4 := hu.inj h4
  have k5 := ht.inj h5
  have k6 := hu.inj h6
  have k7 := hs.inj h7
  have k8 := hg.inj h8
  have k9 := hl.inj h9
  cases x; cases y
  clear h1 h2 h3 h4 h5 h6 h7 h8 h9 e
  simp only at k1 k2 k3 k4 k5 k6 k7 k8 k9
  subst k1 k2 k3 k4 k5 k6 k7 k8 k9
  rfl

theorem exact_ArcOSMObj (plain : Char → Bool) (alt : Bool) : Exact (ArcOSMObj.debug plain alt) := by
  intro x y r r' _ _ e
  rcases x with x | x | x <;> rcases y with y | y | y
  case node.node =>
    obtain ⟨h1, h2⟩ := tuple_one alt (str% "Node") (exact_ArcNode plain alt) e
    exact ⟨by rw [h1], h2⟩
  case way.way =>
    obtain ⟨h1, h2⟩ := tuple_one alt (str% "Way") (exact_ArcWay plain alt) e
    exact ⟨by rw [h1], h2⟩
  case relation.relation =>
    obtain ⟨h1, h2⟩ := tuple_one alt (str% "Relation") (exact_ArcRelation plain alt) e
    exact ⟨by rw [h1], h2⟩
  all_goals
    exfalso
    exact tuple_names (by decide) e

end Osmio.Dbg
