import Verif.Lib.Basic
/-! `str% "abc"` is notation for the list of characters `['a', 'b', 'c']`. -/

namespace Osmio

open Lean in
/-- A string literal as a list of characters. -/
macro "str% " s:str : term => do
  let cs : Array (TSyntax `term) := (s.getString.toList.map (fun c => (Syntax.mkCharLit c : TSyntax `term))).toArray
  `(([$cs,*] : Str))

example : (str% "a<b") = ['a', '<', 'b'] := rfl

end Osmio
