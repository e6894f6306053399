"""Writes lean/Verif/Props/WitnessProto.lean: one concrete message and its bytes for each theorem on messages (C50, C73)."""
import os
def vi(n):
    r = []
    while n >= 128:
        r.append(n % 128 + 128); n //= 128
    return r + [n]
def num(k, v): return (vi(k * 8) + vi(v), f'⟨{k*8}, .varint {v}⟩', k)
def ln(k, b): return (vi(k * 8 + 2) + vi(len(b)) + b, f'⟨{k*8+2}, .len {b}⟩', k)
def cat(*fs): return [x for f in fs for x in f[0]]
info = cat(num(1, 3), num(2, 1000), num(3, 77), num(4, 9), num(5, 3), num(6, 1))
# name, lean name, message, four fields of its encoding (the last two are swapped)
M = [
 ('BlobHeader', 'blobHeader', '{ type_ := some (str% "OSMData"), indexdata := some [1, 2], datasize := some 300 }',
  [ln(1, list(b'OSMData')), ln(2, [1, 2]), num(3, 300)]),
 ('Blob', 'blob', '{ rawSize := some 5, zlibData := some [120, 156, 1] }', [num(2, 5), ln(3, [120, 156, 1]), ln(1, [7])]),
 ('HeaderBBox', 'headerBBox', '{ left := some (-5), right := some 7, top := some 9000000000, bottom := some 0 }',
  [num(1, 9), num(2, 14), num(3, 18000000000), num(4, 0)]),
 ('HeaderBlock', 'headerBlock', '{ requiredFeatures := [str% "OsmSchema-V0.6", str% "DenseNodes"], writingprogram := some (str% "x"), osmosisReplicationTimestamp := some 1600000000 }',
  [ln(4, list(b'DenseNodes')), ln(16, list(b'x')), num(32, 1600000000)]),
 ('StringTable', 'stringTable', '{ s := [[], [97], [98, 99]] }', [ln(1, []), ln(1, [97])]),
 ('Info', 'info', '{ version := some 3, timestamp := some 1000, changeset := some 77, uid := some 9, userSid := some 3, visible := some true }',
  [num(1, 3), num(2, 1000), num(3, 77), num(6, 1)]),
 ('Node', 'node', '{ id := some (-5), keys := [1, 300], vals := [2, 4], info := some { version := some 3 }, lat := some 10, lon := some (-10) }',
  [num(1, 9), ln(2, [1]), ln(3, [2]), num(8, 20), num(9, 19)]),
 ('DenseInfo', 'denseInfo', '{ version := [1, 2], timestamp := [1000, -3], changeset := [7, 0], uid := [9, -9], userSid := [3, 0], visible := [true, false] }',
  [ln(1, [1, 2]), ln(4, [18, 17]), ln(6, [1, 0])]),
 ('DenseNodes', 'denseNodes', '{ id := [-5, 1], denseinfo := some { version := [1, 1] }, lat := [10, 3], lon := [-10, 300], keysVals := [1, 2, 0, 0] }',
  [ln(1, [9, 2]), ln(8, [20, 6]), ln(9, [19, 6]), ln(10, [1, 2, 0, 0])]),
 ('Way', 'way', '{ id := some 7, keys := [1], vals := [2], info := some { version := some 3, visible := some true }, refs := [5, -2, 300] }',
  [num(1, 7), ln(2, [1]), ln(4, info), ln(8, [10, 3])]),
 ('Relation', 'relation', '{ id := some 8, keys := [1], vals := [2], info := some { version := some 3 }, rolesSid := [0, 4], memids := [5, -2], types := [0, 2] }',
  [num(1, 8), ln(8, [0, 4]), ln(9, [10, 3]), ln(10, [0, 2])]),
 ('ChangeSet', 'changeSet', '{ id := some (-1) }', [num(1, 5), num(1, 6)]),
 ('PrimitiveGroup', 'primitiveGroup', '{ ways := [{ id := some 7, refs := [5, -2] }, { id := some 8 }], relations := [{ id := some 9, types := [1], memids := [7], rolesSid := [0] }] }',
  [ln(3, cat(num(1, 7), ln(8, [10, 3]))), ln(2, ln(1, [2])[0]), ln(4, num(1, 9)[0])]),
 ('PrimitiveBlock', 'primitiveBlock', '{ stringtable := some { s := [[], [97]] }, primitivegroup := [{ ways := [{ id := some 7 }] }], granularity := some 1000, latOffset := some (-5) }',
  [ln(1, ln(1, [97])[0]), num(17, 1000), ln(2, ln(3, num(1, 7)[0])[0])]),
]
U = {'node': [('keys', 2, 'uint32', '[1, 300]'), ('vals', 3, 'uint32', '[1, 300]')],
 'denseInfo': [('version', 1, 'int32', '[3, -1]'), ('timestamp', 2, 'sint64', '[1000, -3]'), ('changeset', 3, 'sint64', '[7, -7]'),
   ('uid', 4, 'sint32', '[9, -9]'), ('userSid', 5, 'sint32', '[3, -3]'), ('visible', 6, 'bool', '[true, false]')],
 'denseNodes': [('id', 1, 'sint64', '[5, -300]'), ('lat', 8, 'sint64', '[5, -300]'), ('lon', 9, 'sint64', '[5, -300]'), ('keysVals', 10, 'int32', '[3, 4]')],
 'way': [('keys', 2, 'uint32', '[1, 300]'), ('vals', 3, 'uint32', '[1, 300]'), ('refs', 8, 'sint64', '[5, -300]')],
 'relation': [('keys', 2, 'uint32', '[1, 300]'), ('vals', 3, 'uint32', '[1, 300]'), ('rolesSid', 8, 'int32', '[3, 4]'), ('memids', 9, 'sint64', '[5, -300]'), ('types', 10, 'enum', '[0, 2]')]}
o = ['import Verif.Props.Proto', 'import Verif.Props.ProtoSize', 'import Verif.Proofs.ProtoLenSpec',
 '/-! Concrete messages and bytes that meet the hypotheses of the theorems on messages, C50 and C73 (written by `tools/genwitness.py`). -/', '',
 'namespace Osmio.ProtoEx', 'open Proto', '',
 '/-- Two packed numbers are few bytes. -/',
 'theorem packed_two {α : Type} {field : Nat} {num : α → Nat} {a b : α} (hf : field * 8 + 2 < 2 ^ 64) (ha : num a < 2 ^ 64) (hb : num b < 2 ^ 64) :',
 '    (Spec.Wire.packed field num [a, b]).length ≤ 2147483647 := by',
 '  have size : ∀ n, varintSize n ≤ 10 := fun n => by unfold varintSize; repeat (first | split | omega)',
 '  have va := varint_length ha', '  have vb := varint_length hb', '  have vf := varint_length hf',
 '  have sa := size (num a)', '  have sb := size (num b)', '  have sf := size (field * 8 + 2)',
 '  have hl : ((([a, b] : List α).map fun x => Spec.Wire.varint (num x)).flatten).length ≤ 20 := by', '    simp; omega',
 '  have vl := varint_length (n := ((([a, b] : List α).map fun x => Spec.Wire.varint (num x)).flatten).length) (by omega)',
 '  have sl := size ((([a, b] : List α).map fun x => Spec.Wire.varint (num x)).flatten).length',
 '  rw [Spec.Wire.packed, Spec.Wire.delimited, List.length_append, List.length_append]', '  omega', '']
for T, t, m, fs in M:
    o += [f'/-- A `{T}`. -/', f'def {t}Ex : {T} := {m}', '',
      f'/-- `C50_{t}_roundtrip` and `C73_{t}_size`: it is written, so it has its required fields, and its encoding is short. -/',
      f'example : {T}.parseFromBytes (Spec.Pbf.encode{T} {t}Ex) = some {t}Ex ∧ {t}Ex.computeSize = (Spec.Pbf.encode{T} {t}Ex).length := by',
      f'  obtain ⟨h, hl, -⟩ := (C73_{t}_written {t}Ex {t}Ex.write).1 (by decide +kernel)',
      f'  exact ⟨C50_{t}_roundtrip {t}Ex h hl, C73_{t}_size {t}Ex (by omega)⟩', '']
    pre = fs[:-2]; post = fs[-1]; x, y = fs[-2], fs[-1]
    if x[2] == y[2]:
        y = num(99, 5); pre = [fs[0]]; post = fs[1]
    pb = cat(*pre); pf = '[' + ', '.join(f[1] for f in pre) + ']'
    un = num(99, 5)
    o += [f'/-- `C50_{t}_unknown`: a field 99 in it. -/',
      f'example : {T}.parseFromBytes ({pb} ++ {un[0]} ++ {cat(x, post) if x is not post else post[0]}) = {T}.parseFromBytes ({pb} ++ {cat(x, post) if x is not post else post[0]}) :=',
      f'  C50_{t}_unknown _ _ _ {pf} {un[1]} (by decide +kernel) (by decide +kernel) (by decide)', '']
    o += [f'/-- `C50_{t}_order`: two of its fields in the other order. -/',
      f'example : {T}.parseFromBytes ({pb} ++ {x[0]} ++ {y[0]} ++ []) = {T}.parseFromBytes ({pb} ++ {y[0]} ++ {x[0]} ++ []) :=',
      f'  C50_{t}_order _ _ _ _ {pf} {x[1]} {y[1]} (by decide +kernel) (by decide +kernel) (by decide +kernel) (by decide)', '']
    for n, k, ty, l in U.get(t, []):
        o += [f'/-- `C50_{t}_{n}_unpacked`: two numbers in two fields, after other fields. -/',
          f'example : {T}.parseFromBytes ({pb} ++ Spec.Wire.rep {l} (fun v => Spec.Wire.number {k} (Spec.Wire.{ty} v)) ++ {post[0]}) =',
          f'    {T}.parseFromBytes ({pb} ++ Spec.Wire.packed {k} Spec.Wire.{ty} {l} ++ {post[0]}) :=',
          f'  C50_{t}_{n}_unpacked _ _ _ {pf} (by decide +kernel) (packed_two (by decide) (by decide) (by decide))', '']
o += ['/-- `C50_required_checked`: the block above is read back, so it has a string table. -/',
 'example : primitiveBlockEx.stringtable ≠ none :=',
 '  C50_required_checked primitiveBlockEx primitiveBlockEx.write (by decide +kernel)', '', 'end Osmio.ProtoEx', '']
open(os.path.join(os.path.dirname(__file__), '../lean/Verif/Props/WitnessProto.lean'), 'w').write('\n'.join(o))
