import Verif.Lib.Machine
/-!
# Library model: `std::io::Read` and `std::io::Write` call by call

The other modules see a source as the bytes it will give and a sink as something that takes whole texts. Here are the calls below
that: an implementation of `Read` gives some of the bytes it is asked for, an implementation of `Write` takes some of those
it is given, and both may be interrupted. The loops of the standard library make of them what the other modules see.
-/

namespace Osmio

/-- What a call of `Read::read` returns: bytes (none of them: the end), `ErrorKind::Interrupted`, or another error. -/
inductive ReadOut where
  | ok (bs : List UInt8)
  | interrupted
  | failed
  deriving DecidableEq

/-- An implementation of `Read` with its state. It gives no more than it is asked for, and is not interrupted for ever. -/
structure AnyReader where
  S : Type
  read : S → Nat → ReadOut × S
  patience : S → Nat
  short : ∀ s n bs, (read s n).1 = .ok bs → bs.length ≤ n
  calm : ∀ s n, (read s n).1 = .interrupted → patience (read s n).2 < patience s

namespace AnyReader

/-- `std::io::Read::read_exact`, as `default_read_exact` does it: read into what is left of the buffer until it is full; go on
when interrupted; fail at the end or at an error. -/
def readExact (rd : AnyReader) (need : Nat) (s : rd.S) : Option (List UInt8) × rd.S :=
  if _h0 : need = 0 then (some [], s)
  else
    match _h : rd.read s need with
    | (.failed, s') => (none, s')
    | (.interrupted, s') => rd.readExact need s'
    | (.ok bs, s') =>
      if _hb : bs = [] then (none, s')
      else
        let r := rd.readExact (need - bs.length) s'
        (r.1.map (bs ++ ·), r.2)
termination_by (need, rd.patience s)
decreasing_by
  · exact Prod.Lex.right _ (by have := rd.calm s need (by rw [_h]); rwa [_h] at this)
  · exact Prod.Lex.left _ _ (by have := List.length_pos_iff.2 _hb; omega)

end AnyReader

/-- The state of a `std::io::BufReader`: the reader below it and the bytes of its buffer that have not been taken. -/
structure Buffered (S : Type) where
  inner : S
  pending : List UInt8

/-- `<BufReader<R> as Read>::read` with a buffer of the given size: past an empty buffer if as much is asked for as it could hold, otherwise from the
buffer, which is filled by one read when it is empty. -/
def bufRead (rd : AnyReader) (capacity : Nat) (b : Buffered rd.S) (n : Nat) : ReadOut × Buffered rd.S :=
  if b.pending = [] then
    if capacity ≤ n then
      let r := rd.read b.inner n
      (r.1, ⟨r.2, []⟩)
    else
      match rd.read b.inner capacity with
      | (.ok bs, s) => (.ok (bs.take n), ⟨s, bs.drop n⟩)
      | (.interrupted, s) => (.interrupted, ⟨s, []⟩)
      | (.failed, s) => (.failed, ⟨s, []⟩)
  else (.ok (b.pending.take n), ⟨b.inner, b.pending.drop n⟩)

/-- `BufReader<R>` is an implementation of `Read`. -/
def AnyReader.buffered (rd : AnyReader) (capacity : Nat) : AnyReader where
  S := Buffered rd.S
  read := bufRead rd capacity
  patience b := rd.patience b.inner
  short b n bs h := by
    unfold bufRead at h
    split at h
    · split at h
      · exact rd.short b.inner n bs h
      · split at h <;> simp only [ReadOut.ok.injEq, reduceCtorEq] at h
        subst h; rw [List.length_take]; omega
    · simp only [ReadOut.ok.injEq] at h
      subst h; rw [List.length_take]; omega
  calm b n h := by
    unfold bufRead at h ⊢
    split
    · rename_i hp
      rw [if_pos hp] at h
      split
      · rename_i hc
        rw [if_pos hc] at h
        exact rd.calm b.inner n h
      · rename_i hc
        rw [if_neg hc] at h
        split at h
        · simp at h
        · rename_i s e
          have := rd.calm b.inner capacity (by rw [e])
          rw [e] at this
          exact this
        · simp at h
    · rename_i hp
      rw [if_neg hp] at h
      simp at h

/-- What a call of `Write::write` returns: how many bytes were taken, `ErrorKind::Interrupted`, or another error. -/
inductive WriteOut where
  | ok (n : Nat)
  | interrupted
  | failed
  deriving DecidableEq

/-- An implementation of `Write` with its state and the bytes it has taken. It takes no more than it is given, none if it
fails or is interrupted, and is not interrupted for ever. -/
structure AnyWriter where
  S : Type
  write : S → List UInt8 → WriteOut × S
  taken : S → List UInt8
  patience : S → Nat
  short : ∀ s buf n, (write s buf).1 = .ok n → n ≤ buf.length ∧ taken (write s buf).2 = taken s ++ buf.take n
  calm : ∀ s buf, (write s buf).1 = .interrupted → patience (write s buf).2 < patience s ∧ taken (write s buf).2 = taken s
  untouched : ∀ s buf, (write s buf).1 = .failed → taken (write s buf).2 = taken s

namespace AnyWriter

/-- `std::io::Write::write_all`: write what is left until nothing is; go on when interrupted; fail at an error, or when
nothing is taken (`ErrorKind::WriteZero`). -/
def writeAll (wr : AnyWriter) (buf : List UInt8) (s : wr.S) : Bool × wr.S :=
  if _h0 : buf = [] then (true, s)
  else
    match _h : wr.write s buf with
    | (.failed, s') => (false, s')
    | (.interrupted, s') => wr.writeAll buf s'
    | (.ok n, s') => if _hn : n = 0 then (false, s') else wr.writeAll (buf.drop n) s'
termination_by (buf.length, wr.patience s)
decreasing_by
  · exact Prod.Lex.right _ (by have := (wr.calm s buf (by rw [_h])).1; rwa [_h] at this)
  · exact Prod.Lex.left _ _ (by
      have := List.length_pos_iff.2 _h0
      rw [List.length_drop]; omega)

end AnyWriter
end Osmio
