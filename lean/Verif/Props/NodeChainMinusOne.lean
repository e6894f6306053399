import Verif.Props.NodeChainPanics
/-!
# C60: a step of minus one near the end of a chain

The code of such a step is that of the escape, so the decoder takes the next eight bytes for an id.
-/

namespace Osmio
open Spec

namespace NodeChain

/-- If the decoder panics at `tail` whatever it has read before, it panics for everything it can read in front of it. -/
theorem decodeFrom_tail (b : Build) (first : UInt64) {tail : List UInt8}
    (ht : ∀ k d, tail.length < k → decodeFrom b first k d tail = .error .unwrap) {fuel : Nat} {d : UInt64} {bytes : List UInt8} {ns : List UInt64}
    (h : decodeFrom b first fuel d bytes = .ok ns) (hf : bytes.length < fuel) (k : Nat) (hk : (bytes ++ tail).length < k) :
    decodeFrom b first k d (bytes ++ tail) = .error .unwrap := by
  induction fuel generalizing d bytes ns k with
  | zero => omega
  | succ fuel ih =>
    cases bytes with
    | nil => exact ht k d hk
    | cons num r =>
      cases k with
      | zero => omega
      | succ k =>
        simp only [List.cons_append, List.length_cons] at hk hf
        rw [List.cons_append, decodeFrom]
        rw [decodeFrom] at h
        by_cases h1 : num = 0x81
        · rw [if_pos h1] at h ⊢
          rcases hx : decodeFrom b first fuel d r with p | xs
          · rw [hx] at h; cases h
          · rw [ih hx (by omega) k (by omega)]; rfl
        rw [if_neg h1] at h ⊢
        by_cases h2 : num = 0xFF
        · rw [if_pos h2] at h ⊢
          by_cases hl : r.length < 8
          · rw [readU64, if_pos hl] at h; cases h
          · have e : readU64 (r ++ tail) = .ok (UInt64.ofNat (fromBe (r.take 8)), r.drop 8 ++ tail) := by
              rw [readU64, if_neg (by rw [List.length_append]; omega), List.take_append_of_le_length (by omega), List.drop_append_of_le_length (by omega)]
            rw [readU64, if_neg hl] at h
            rw [e]
            rcases hx : decodeFrom b first fuel (UInt64.ofNat (fromBe (r.take 8))) (r.drop 8) with p | xs
            · exfalso
              have : (do
                let ns ← decodeFrom b first fuel (UInt64.ofNat (fromBe (r.take 8))) (r.drop 8)
                Except.ok (UInt64.ofNat (fromBe (r.take 8)) :: ns)) = .ok ns := h
              rw [hx] at this; cases this
            · show (do
                let ns ← decodeFrom b first k (UInt64.ofNat (fromBe (r.take 8))) (r.drop 8 ++ tail)
                Except.ok (UInt64.ofNat (fromBe (r.take 8)) :: ns)) = _
              rw [ih hx (by rw [List.length_drop]; omega) k (by rw [List.length_append] at hk; rw [List.length_append, List.length_drop]; omega)]; rfl
        rw [if_neg h2] at h ⊢
        by_cases h3 : num = 0
        · rw [if_pos h3] at h ⊢
          rcases hx : decodeFrom b first fuel d r with p | xs
          · rw [hx] at h; cases h
          · rw [ih hx (by omega) k (by omega)]; rfl
        rw [if_neg h3] at h ⊢
        rcases hi : b.i64 (asI64 d + asI8 num) with p | x
        · rw [hi] at h; cases h
        · rw [hi] at h
          rcases hx : decodeFrom b first fuel x.toUInt64 r with p | xs
          · exfalso
            have : (do
              let ns ← decodeFrom b first fuel x.toUInt64 r
              Except.ok (x.toUInt64 :: ns)) = .ok ns := h
            rw [hx] at this; cases this
          · show (do
              let ns ← decodeFrom b first k x.toUInt64 (r ++ tail)
              Except.ok (x.toUInt64 :: ns)) = _
            rw [ih hx (by omega) k (by omega)]; rfl

theorem encodeFrom_append (b : Build) (first : UInt64) {l x : UInt64} {pre : List UInt64} {ns tl : List UInt64} {b1 b2 : List UInt8} (hl : l :: ns = pre ++ [x])
    (h1 : encodeFrom b first l ns = .ok b1) (h2 : encodeFrom b first x tl = .ok b2) : encodeFrom b first l (ns ++ tl) = .ok (b1 ++ b2) := by
  induction ns generalizing l pre b1 with
  | nil =>
    cases pre with
    | nil => cases hl; cases h1; exact h2
    | cons z pre => injection hl with _ hl; simp at hl
  | cons n ns ih =>
    cases pre with
    | nil => injection hl with _ hl; cases hl
    | cons z pre =>
      injection hl with _ hl
      rw [List.cons_append, encodeFrom]
      rw [encodeFrom] at h1
      rcases hs : encodeStep b first l n with p | s
      · rw [hs] at h1; cases h1
      rw [hs] at h1
      rcases hr : encodeFrom b first n ns with p | r
      · rw [hr] at h1; cases h1
      rw [hr] at h1
      cases h1
      rw [ih hl hr, List.append_assoc]
      rfl

theorem encodeFrom_close (b : Build) {first l : UInt64} {ns : List UInt64} (hsmall : ∀ n ∈ l :: ns, n.toNat < 2 ^ 63)
    (hc : ∀ before x y, Follows (l :: ns) before x y → y = first ∨ ¬ Far x y) : ∃ bytes, encodeFrom b first l ns = .ok bytes ∧ bytes.length = ns.length := by
  induction ns generalizing l with
  | nil => exact ⟨[], rfl, rfl⟩
  | cons n ns ih =>
    obtain ⟨r, hr, hlen⟩ := ih (l := n) (fun m hm => hsmall m (List.mem_cons_of_mem _ hm))
      (fun before x y ⟨after, e⟩ => hc (l :: before) x y ⟨after, by rw [e]; rfl⟩)
    obtain ⟨s, hs⟩ : ∃ s, encodeStep b first l n = .ok [s] := by
      rw [encodeStep_eq b first l n (hsmall l (by simp)) (hsmall n (by simp))]
      by_cases h1 : n = first
      · exact ⟨_, if_pos h1⟩
      rw [if_neg h1]
      by_cases h2 : n = l
      · exact ⟨_, if_pos h2⟩
      rw [if_neg h2]
      rcases hc [] l n ⟨ns, rfl⟩ with h | h
      · exact absurd h h1
      · unfold Far at h
        exact ⟨_, if_pos (by omega)⟩
    exact ⟨s :: r, by rw [encodeFrom, hs, hr]; rfl, by simp [hlen]⟩

end NodeChain

/-- The full **C60** is false: of a chain that comes back (`C60_partial`), go on from its last node `x` to `y = x - 1`, then to fewer than eight nodes, each close to the one before it or the first node. The decoder panics. -/
theorem C60_fails_minus_one_late (b : Build) {first x y : UInt64} {ns pre rest : List UInt64} (hx : first :: ns = pre ++ [x])
    (hsmall : ∀ n ∈ first :: ns ++ y :: rest, n.toNat < 2 ^ 63)
    (hstep : ∀ before x y, Follows (first :: ns) before x y → y = first ∨
      ((y.toNat : Int) ≠ x.toNat - 1 ∧ (x = first → (∀ z ∈ before, z = first) ∨ Far x y)))
    (hy : (y.toNat : Int) = x.toNat - 1) (hyf : y ≠ first) (hrest : rest.length < 8)
    (hclose : ∀ before x z, Follows (y :: rest) before x z → z = first ∨ ¬ Far x z) :
    (NodeChain.encode b (first :: ns ++ y :: rest)).bind (NodeChain.decode b) = .error .unwrap := by
  have hfi : first.toNat < 2 ^ 63 := hsmall first (by simp)
  have hxs : x.toNat < 2 ^ 63 := hsmall x (List.mem_append_left _ (by rw [hx]; simp))
  have hys : y.toNat < 2 ^ 63 := hsmall y (by simp)
  obtain ⟨b1, e1, d1⟩ := NodeChain.decode_encodeFrom b [] first first (ns := ns) (by
    intro n hn
    simp only [List.mem_cons] at hn
    rcases hn with rfl | rfl | rfl | hn
    · exact hfi
    · exact hfi
    · exact hfi
    · exact hsmall n (by simp [hn])) (Or.inl rfl) hstep
  obtain ⟨b2, e2, l2⟩ := NodeChain.encodeFrom_close b (first := first) (l := y) (ns := rest) (fun n hn => hsmall n (List.mem_append_right _ hn)) hclose
  have hne : y ≠ x := fun e => by rw [e] at hy; omega
  have es : NodeChain.encodeStep b first x y = .ok [0xFF] := by
    have hd : (y.toNat : Int) - x.toNat = -1 := by omega
    rw [NodeChain.encodeStep_eq b first x y hxs hys, if_neg hyf, if_neg hne, hd]
    rfl
  have e3 : NodeChain.encodeFrom b first x (y :: rest) = .ok (0xFF :: b2) := by
    rw [NodeChain.encodeFrom, es, e2]; rfl
  have e4 := NodeChain.encodeFrom_append b first hx e1 e3
  rw [List.cons_append, NodeChain.encode, e4]
  show NodeChain.decode b (NodeChain.be64 first ++ (b1 ++ 0xFF :: b2)) = _
  rw [NodeChain.decode, if_neg (by simp [NodeChain.be64]), NodeChain.readU64_be64]
  show (do
    let ns ← NodeChain.decodeFrom b first ((b1 ++ 0xFF :: b2).length + 1) first (b1 ++ 0xFF :: b2)
    Except.ok (first :: ns)) = _
  rw [NodeChain.decodeFrom_tail b first ?_ (d1 (b1.length + 1) (by omega)) (by omega) _ (by omega)]
  · rfl
  · intro k d hk
    cases k with
    | zero => omega
    | succ k =>
      rw [NodeChain.decodeFrom, if_neg (by decide), if_pos rfl, NodeChain.readU64, if_pos (by omega)]
      rfl

/-- A line 10, 300, 299, 305. -/
example : (NodeChain.encode .debug [10, 300, 299, 305]).bind (NodeChain.decode .debug) = .error .unwrap := by
  refine C60_fails_minus_one_late .debug (first := 10) (x := 300) (y := 299) (ns := [300]) (pre := [10]) (rest := [305]) rfl (by decide) ?_ (by decide) (by decide) (by decide) ?_
  · rintro before x y ⟨after, e⟩
    match before, e with
    | [], e => obtain ⟨rfl, rfl⟩ : 10 = x ∧ 300 = y := by simpa using ⟨(List.cons.inj e).1, (List.cons.inj (List.cons.inj e).2).1⟩
               exact Or.inr ⟨by decide, fun _ => Or.inl (by simp)⟩
    | _ :: p, e => simp at e; cases p <;> simp at e
  · rintro before x y ⟨after, e⟩
    match before, e with
    | [], e => obtain ⟨rfl, rfl⟩ : 299 = x ∧ 305 = y := by simpa using ⟨(List.cons.inj e).1, (List.cons.inj (List.cons.inj e).2).1⟩
               unfold Far; decide
    | _ :: p, e => simp at e; cases p <;> simp at e

end Osmio
