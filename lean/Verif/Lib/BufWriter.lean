import Verif.Lib.AnyIo
/-!
# Library model: `std::io::BufWriter`

`write`, `write_all`, `flush_buf` and what dropping it does. Not modelled: a buffer of size 0. The writers are modelled over the loop of the standard library over `write`; the `write_all` of
`BufWriter` differs from it only for pieces of at least the size of the buffer: it hands all of such a piece on, where the loop may leave its end in the buffer (`C82_buffered_write_all`).
-/

namespace Osmio

/-- `BufWriter::flush_buf`: write what is in the buffer until nothing is left; go on when interrupted; fail at an error, or when nothing is taken. Whether it worked, and what is left in the
buffer. -/
def AnyWriter.flushBuf (wr : AnyWriter) (buf : List UInt8) (s : wr.S) : Bool × List UInt8 × wr.S :=
  if _h0 : buf = [] then (true, [], s)
  else
    match _h : wr.write s buf with
    | (.failed, s') => (false, buf, s')
    | (.interrupted, s') => wr.flushBuf buf s'
    | (.ok n, s') => if _hn : n = 0 then (false, buf, s') else wr.flushBuf (buf.drop n) s'
termination_by (buf.length, wr.patience s)
decreasing_by
  · exact Prod.Lex.right _ (by have := (wr.calm s buf (by rw [_h])).1; rwa [_h] at this)
  · exact Prod.Lex.left _ _ (by
      have := List.length_pos_iff.2 _h0
      rw [List.length_drop]; omega)

/-- Nothing is lost or given twice, and nothing is left if it works. -/
theorem AnyWriter.flushBuf_taken (wr : AnyWriter) (buf : List UInt8) (s : wr.S) :
    wr.taken (wr.flushBuf buf s).2.2 ++ (wr.flushBuf buf s).2.1 = wr.taken s ++ buf ∧ ((wr.flushBuf buf s).1 = true → (wr.flushBuf buf s).2.1 = []) := by
  fun_induction AnyWriter.flushBuf wr buf s with
  | case1 s => simp
  | case2 buf s h0 s' e =>
    have := wr.untouched s buf (by rw [e])
    rw [e] at this
    simp [this]
  | case3 buf s h0 s' e ih =>
    have := (wr.calm s buf (by rw [e])).2
    rw [e] at this
    simp only at this
    rwa [this] at ih
  | case4 buf s h0 s' e =>
    have := (wr.short s buf 0 (by rw [e])).2
    rw [e] at this
    simp only at this
    simp [this]
  | case5 buf s h0 n s' e hn ih =>
    have := (wr.short s buf n (by rw [e])).2
    rw [e] at this
    simp only at this
    rw [this, List.append_assoc, List.take_append_drop] at ih
    exact ih

/-- The state of `std::io::BufWriter`. -/
structure BufferedSink (S : Type) where
  inner : S
  buf : List UInt8

/-- `Write::write` of `std::io::BufWriter` with a buffer of `size + 1` bytes: what fits is put into the buffer; otherwise the buffer is written first; what would fill an empty buffer is handed on. -/
def bufWrite (wr : AnyWriter) (size : Nat) (t : BufferedSink wr.S) (bytes : List UInt8) : WriteOut × BufferedSink wr.S :=
  if bytes.length < size + 1 - t.buf.length then (.ok bytes.length, { t with buf := t.buf ++ bytes })
  else
    let (worked, left, s) := if bytes.length > size + 1 - t.buf.length then wr.flushBuf t.buf t.inner else (true, t.buf, t.inner)
    if !worked then (.failed, ⟨s, left⟩)
    else if bytes.length ≥ size + 1 then ((wr.write s bytes).1, ⟨(wr.write s bytes).2, left⟩)
    else (.ok bytes.length, ⟨s, left ++ bytes⟩)

/-- The three things a call can do. -/
theorem bufWrite_cases (wr : AnyWriter) (size : Nat) (t : BufferedSink wr.S) (bytes : List UInt8) :
    (∃ t' : BufferedSink wr.S, bufWrite wr size t bytes = (.ok bytes.length, { t' with buf := t'.buf ++ bytes }) ∧ wr.taken t'.inner ++ t'.buf = wr.taken t.inner ++ t.buf) ∨
    (bufWrite wr size t bytes = (.failed, ⟨(wr.flushBuf t.buf t.inner).2.2, (wr.flushBuf t.buf t.inner).2.1⟩) ∧ (wr.flushBuf t.buf t.inner).1 = false) ∨
    (bufWrite wr size t bytes = ((wr.write (wr.flushBuf t.buf t.inner).2.2 bytes).1, ⟨(wr.write (wr.flushBuf t.buf t.inner).2.2 bytes).2, []⟩) ∧
      (wr.flushBuf t.buf t.inner).1 = true ∧ bytes ≠ []) := by
  have hf := wr.flushBuf_taken t.buf t.inner
  unfold bufWrite
  split
  · exact .inl ⟨t, rfl, rfl⟩
  · rename_i h1
    by_cases h2 : bytes.length > size + 1 - t.buf.length
    · simp only [h2, if_true]
      rcases e : wr.flushBuf t.buf t.inner with ⟨_ | _, left, s⟩
      · exact .inr (.inl ⟨rfl, rfl⟩)
      · rw [e] at hf
        have hl : left = [] := hf.2 rfl
        subst hl
        by_cases h3 : bytes.length ≥ size + 1
        · right; right
          refine ⟨by simp [h3], rfl, ?_⟩
          rintro rfl
          simp at h3
        · left
          exact ⟨⟨s, []⟩, by simp [h3], hf.1⟩
    · simp only [h2, if_false]
      by_cases h3 : bytes.length ≥ size + 1
      · have hb : t.buf = [] := List.length_eq_zero_iff.1 (by omega)
        have e : wr.flushBuf t.buf t.inner = (true, [], t.inner) := by rw [hb]; unfold AnyWriter.flushBuf; simp
        right; right
        rw [e]
        refine ⟨by simp [h3, hb], rfl, ?_⟩
        rintro rfl
        simp at h3
      · left
        exact ⟨t, by simp [h3], rfl⟩

/-- `BufWriter::with_capacity`: it is an implementation of `Write`. It has taken what the sink behind it has taken and what is in the buffer. -/
def AnyWriter.buffered (wr : AnyWriter) (size : Nat) : AnyWriter where
  S := BufferedSink wr.S
  write := bufWrite wr size
  taken t := wr.taken t.inner ++ t.buf
  patience t := if t.buf = [] then wr.patience t.inner else wr.patience (wr.flushBuf t.buf t.inner).2.2 + 1
  short t bytes n h := by
    have hf := wr.flushBuf_taken t.buf t.inner
    rcases bufWrite_cases wr size t bytes with ⟨t', e, h1⟩ | ⟨e, -⟩ | ⟨e, h1, -⟩
    · rw [e] at h ⊢
      simp only [WriteOut.ok.injEq] at h
      subst h
      simp [← h1]
    · rw [e] at h; cases h
    · rw [e] at h ⊢
      have := wr.short _ _ _ h
      rw [hf.2 h1, List.append_nil] at hf
      exact ⟨this.1, by simp [this.2, hf.1]⟩
  calm t bytes h := by
    have hf := wr.flushBuf_taken t.buf t.inner
    rcases bufWrite_cases wr size t bytes with ⟨t', e, h1⟩ | ⟨e, -⟩ | ⟨e, h1, -⟩
    · rw [e] at h; cases h
    · rw [e] at h; cases h
    · rw [e] at h ⊢
      have := wr.calm _ _ h
      rw [hf.2 h1, List.append_nil] at hf
      refine ⟨?_, by simp [this.2, hf.1]⟩
      simp only [if_true]
      split
      · rename_i hb
        rw [hb] at this
        have e0 : wr.flushBuf [] t.inner = (true, [], t.inner) := by unfold AnyWriter.flushBuf; simp
        rw [e0] at this
        rw [hb, e0]
        exact this.1
      · omega
  untouched t bytes h := by
    have hf := wr.flushBuf_taken t.buf t.inner
    rcases bufWrite_cases wr size t bytes with ⟨t', e, h1⟩ | ⟨e, -⟩ | ⟨e, h1, -⟩
    · rw [e] at h; cases h
    · rw [e]; exact hf.1
    · rw [e] at h ⊢
      have := wr.untouched _ _ h
      rw [hf.2 h1, List.append_nil] at hf
      simp [this, hf.1]

/-- A `BufWriter` with something in its buffer. -/
def holding {wr : AnyWriter} {size : Nat} (inner : wr.S) (buf : List UInt8) : (wr.buffered size).S := (⟨inner, buf⟩ : BufferedSink wr.S)

/-- `BufWriter::get_ref`: the sink behind it. -/
def behind {wr : AnyWriter} {size : Nat} (t : (wr.buffered size).S) : wr.S := (show BufferedSink wr.S from t).inner

/-- `BufWriter::buffer`: what is in the buffer. -/
def heldBack {wr : AnyWriter} {size : Nat} (t : (wr.buffered size).S) : List UInt8 := (show BufferedSink wr.S from t).buf

/-- `BufWriter::with_capacity(size + 1, inner)`. -/
def buffering {wr : AnyWriter} {size : Nat} (inner : wr.S) : (wr.buffered size).S := holding inner []

/-- Dropping a `BufWriter`: the buffer is written, and an error in that is not reported. What is left is the sink behind it. -/
def dropBuffered (wr : AnyWriter) {size : Nat} (t : (wr.buffered size).S) : wr.S :=
  (wr.flushBuf (show BufferedSink wr.S from t).buf (show BufferedSink wr.S from t).inner).2.2

/-- `Write::write_all` of `std::io::BufWriter`. -/
def bufWriteAll (wr : AnyWriter) (size : Nat) (t : BufferedSink wr.S) (bytes : List UInt8) : Bool × BufferedSink wr.S :=
  if bytes.length < size + 1 - t.buf.length then (true, { t with buf := t.buf ++ bytes })
  else
    let (worked, left, s) := if bytes.length > size + 1 - t.buf.length then wr.flushBuf t.buf t.inner else (true, t.buf, t.inner)
    if !worked then (false, ⟨s, left⟩)
    else if bytes.length ≥ size + 1 then ((wr.writeAll bytes s).1, ⟨(wr.writeAll bytes s).2, left⟩)
    else (true, ⟨s, left ++ bytes⟩)

end Osmio
