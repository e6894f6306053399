import Verif.Lib.Basic
/-!
# Specification of JSON text (RFC 8259)

A decoder for objects whose members are strings, in compact form (no white space between tokens). Escapes
denoting surrogate code points are not decoded (the decoder fails on them).
-/

namespace Osmio.Spec.Json

def hexVal (c : Char) : Option Nat :=
  if '0' ≤ c ∧ c ≤ '9' then some (c.toNat - 48)
  else if 'a' ≤ c ∧ c ≤ 'f' then some (c.toNat - 87)
  else if 'A' ≤ c ∧ c ≤ 'F' then some (c.toNat - 55)
  else none

/-- The character of a four digit escape. -/
def hex4 (a b c d : Char) : Option Char :=
  match hexVal a, hexVal b, hexVal c, hexVal d with
  | some a, some b, some c, some d =>
    let n := ((a * 16 + b) * 16 + c) * 16 + d
    if n.isValidChar then some (Char.ofNat n) else none
  | _, _, _, _ => none

/-- Put a decoded character in front of a decoded rest. -/
def consRes (c : Char) : Option (Str × Str) → Option (Str × Str)
  | some (s, r) => some (c :: s, r)
  | none => none

/-- Decode after the opening quote: contents and the text after the closing quote. -/
def strBody : Str → Option (Str × Str)
  | '"' :: r => some ([], r)
  | '\\' :: '"' :: r => consRes '"' (strBody r)
  | '\\' :: '\\' :: r => consRes '\\' (strBody r)
  | '\\' :: '/' :: r => consRes '/' (strBody r)
  | '\\' :: 'b' :: r => consRes (Char.ofNat 8) (strBody r)
  | '\\' :: 'f' :: r => consRes (Char.ofNat 12) (strBody r)
  | '\\' :: 'n' :: r => consRes (Char.ofNat 10) (strBody r)
  | '\\' :: 'r' :: r => consRes (Char.ofNat 13) (strBody r)
  | '\\' :: 't' :: r => consRes (Char.ofNat 9) (strBody r)
  | '\\' :: 'u' :: a :: b :: c :: d :: r =>
    match hex4 a b c d with
    | some x => consRes x (strBody r)
    | none => none
  | '\\' :: _ => none
  | c :: r => if c.toNat < 32 then none else consRes c (strBody r)
  | [] => none

/-- Members and the closing brace; the first argument bounds the number of members. -/
def membersBody : Nat → Str → Option (List (Str × Str) × Str)
  | 0, _ => none
  | n + 1, '"' :: r =>
    match strBody r with
    | some (k, ':' :: '"' :: r) =>
      match strBody r with
      | some (v, '}' :: r) => some ([(k, v)], r)
      | some (v, ',' :: r) =>
        match membersBody n r with
        | some (ms, r) => some ((k, v) :: ms, r)
        | none => none
      | _ => none
    | _ => none
  | _, _ => none

/-- Decode an object text; nothing may follow. -/
def decodeObject : Str → Option (List (Str × Str))
  | ['{', '}'] => some []
  | '{' :: r =>
    match membersBody r.length r with
    | some (ms, []) => some ms
    | _ => none
  | _ => none

end Osmio.Spec.Json
