#!/usr/bin/env python3
"""Writes lean/Verif/Spec/PbfDecode.lean from the .proto files, and Proofs/ProtoDecodeMsg.lean and Props/ProtoDecode.lean with the proofs that
the generated Rust code (lean/Verif/Model/Proto.lean) decodes so."""
import re, os
root = os.path.dirname(os.path.dirname(os.path.abspath(__file__))) + '/lean/Verif/'
SRC = '/repo/src/stringpbf/'

def camel(n):
    n = n.lower() if n.isupper() or n.startswith('OBSOLETE') else n
    if n == 'type': return 'type_'
    p = n.split('_')
    return p[0] + ''.join(x.capitalize() for x in p[1:])

def proto(fn):
    t = open(SRC + fn).read()
    t = re.sub(r'/\*.*?\*/', '', t, flags=re.S)
    t = re.sub(r'//[^\n]*', '', t)
    res = {}
    for m in re.finditer(r'message (\w+) \{(.*?)\n\}', t, re.S):
        body = re.sub(r'enum \w+ \{.*?\}', '', m[2], flags=re.S)
        res[m[1]] = [(f[1], f[2], f[3], int(f[4])) for f in
                     re.finditer(r'(required|optional|repeated)\s+(\w+)\s+(\w+)\s*=\s*(\d+)\s*(\[[^\]]*\])?\s*;', body)]
    return res
P = {**proto('fileformat.proto'), **proto('osmformat.proto')}
order = []
def go(n):
    if n in order: return
    for _, ty, _, _ in P[n]:
        if ty in P: go(ty)
    order.append(n)
for n in P: go(n)

IS = {'int32': 'IsInt32', 'int64': 'IsInt64', 'uint32': 'IsUInt32', 'bool': 'IsBool', 'sint32': 'IsSint32', 'sint64': 'IsSint64', 'MemberType': 'IsInt32'}
DEC = {'int32': 'asInt32', 'int64': 'asInt64', 'uint32': 'asUInt32', 'bool': 'asBool', 'sint32': 'zigZag32', 'sint64': 'zigZag64', 'MemberType': 'asInt32'}
IFF = {'int32': 'asInt32_iff', 'int64': 'asInt64_iff', 'uint32': '(fun _ => asUInt32_iff _)', 'bool': '(fun _ => asBool_iff _)', 'sint32': '(fun _ => zigZag32_iff _)', 'sint64': 'zigZag64_iff', 'MemberType': 'asInt32_iff'}
model = open(root + 'Model/Proto.lean').read()

spec = '''import Verif.Spec.WireValues
import Verif.Model.Proto
/-!
# Specification: what a message of the OSM PBF format says

Written from `src/stringpbf/fileformat.proto` and `src/stringpbf/osmformat.proto` by `tools/gendecode.py`, one line for each line of a
message there: field number and type. The message types are those of `Verif.Model.Proto`, which come from the Rust code.
-/

namespace Osmio.Spec.Pbf

open Wire Proto

'''
prf = '''import Verif.Proofs.ProtoDecode
import Verif.Spec.PbfDecode
/-! # What each message is decoded to, field by field (generated by `tools/gendecode.py`) -/

namespace Osmio.Proto

open Spec.Wire Spec.Pbf

'''
props = '''import Verif.Proofs.ProtoDecodeMsg
import Verif.Proofs.ProtoSizeSpec
import Verif.Lib.StrLit
/-!
# C98: what any bytes decode to (generated by `tools/gendecode.py`)

`Spec.Pbf.DecodesX bs m`: by the wire format and the `.proto` files the bytes `bs` say `m`; `Spec.Pbf.hasX m`: the required fields are
there. `X.parseFromBytes` is the generated Rust code. Bytes for which there is no such `m` are refused.
-/

namespace Osmio

open Proto

'''
def conj(l, ind='  '): return (' ∧\n' + ind).join(l)
def tup(l): return l[0] if len(l) == 1 else '⟨' + ', '.join(l) + '⟩'
for n in order:
    fs = P[n]
    sf = re.findall(r'^  (\w+) : ', re.search(r'structure %s where\n(.*?)  deriving' % n, model, re.S)[1], re.M)
    assert sorted(sf) == sorted(camel(f[2]) for f in fs), n
    lines, steps, runs = [], [], []
    for lab, ty, f, num in fs:
        F = camel(f)
        if ty in IS:
            if lab == 'repeated':
                lines.append(f'ManyNumbers {num} {IS[ty]} fs m.{F}')
                steps.append((F, 'StepPack', f'{8*num+2} {8*num} (fun f => f.packed {DEC[ty]}) (fun f => (f.num {DEC[ty]}).map fun v => [v])', [(8*num+2, 'list'), (8*num, 'item2')]))
                runs.append(f'run_manyNumbers (number := {num}) hf {IFF[ty]} rfl rfl')
            else:
                lines.append(f'SingleNumber {num} {IS[ty]} fs m.{F}')
                steps.append((F, 'StepOne', f'{8*num} (fun f => f.num {DEC[ty]})', [(8*num, 'one')]))
                runs.append(f'run_oneNumber (number := {num}) hf {IFF[ty]} rfl')
        else:
            R = {'string': 'AsText', 'bytes': 'AsBytes'}.get(ty) or f'(AsMessage Decodes{ty})'
            rd = {'string': 'f.string', 'bytes': 'f.bytes'}.get(ty) or f'f.message {ty}.merge {{}}'
            ii = {'string': 'string_iff', 'bytes': 'bytes_iff'}.get(ty) or f'(message_iff {ty}.parse_decodes)'
            if lab == 'repeated':
                lines.append(f'Many {num} {R} fs m.{F}')
                steps.append((F, 'StepMany', f'{8*num+2} (fun f => ({rd}).map fun v => [v])', [(8*num+2, 'item')]))
                runs.append(f"run_many' (number := {num}) {ii} rfl")
            else:
                lines.append(f'Single {num} {R} fs m.{F}')
                steps.append((F, 'StepOne', f'{8*num+2} (fun f => {rd})', [(8*num+2, 'one')]))
                runs.append(f"run_one' (number := {num}) {ii} rfl")
    spec += f"/-- `message {n}`: what its fields say. -/\ndef says{n} (fs : List Field) (m : {n}) : Prop :=\n  {conj(lines)}\n\n"
    spec += f"/-- `message {n}`: what the bytes say. -/\ndef Decodes{n} (bs : List UInt8) (m : {n}) : Prop := ∃ fs, Fields bs fs ∧ says{n} fs m\n\n"
    # proofs
    k = len(fs)
    st = lambda a, f, b: conj([f'{S} {A} {a}.{F} {f} {b}.{F}' for F, S, A, _ in steps], '      ')
    miss = ['(%s.miss %s).%%s' % (S, ' '.join(['(by omega)'] * len(T))) for _, S, _, T in steps]
    pos = {F: i for i, (F, *_) in enumerate(steps)}
    eqs = lambda get: tup([get(pos[F]) for F in sf])
    prf += f'theorem {n}.merge_steps (m : {n}) (f : Field) (m\' : {n}) : {n}.merge m f = some m\' ↔\n      {st("m", "f", "m" + chr(39))} := by\n'
    arms = re.findall(r'  if f\.tag = (\d+) then (.*) else\n', re.search(r'def %s\.merge .*?\n(.*?)  some m\n' % n, model, re.S)[1])
    where = {t: (i, kind, j) for i, (_, _, _, T) in enumerate(steps) for j, (t, kind) in enumerate(T)}
    assert sorted(where) == sorted(int(t) for t, _ in arms), n
    S_ = [f's{i}' for i in range(k)]
    for a, (t, e) in enumerate(arms):
        i, kind, _ = where[int(t)]
        Sn = steps[i][1]
        hit = {'one': f'(StepOne.hit h{a})', 'list': f'(StepPack.hit h{a})', 'item': f'(StepMany.hit h{a})', 'item2': f'(StepPack.hit2 (by omega) h{a})'}[kind]
        val = '⟨v, hv, rfl⟩' if kind in ('one', 'list') else '⟨[v], Option.map_eq_some_iff.2 ⟨v, hv, rfl⟩, rfl⟩'
        prf += f'  by_cases h{a} : f.tag = {t}\n  · have e : {n}.merge m f = {e} := by\n      unfold {n}.merge\n      rw [' + 'if_neg (by omega), ' * a + f'if_pos h{a}]\n'
        prf += f'    rw [e, Option.map_eq_some_iff]\n    constructor\n    · rintro ⟨v, hv, rfl⟩\n      exact ' + tup([f'{hit}.2 {val}' if q == i else miss[q] % '2 rfl' for q in range(k)]) + '\n'
        prf += f'    · rintro {tup(S_) if k > 1 else "s0"}\n'
        if kind in ('one', 'list'): prf += f'      obtain ⟨v, hv, e{i}⟩ := {hit}.1 s{i}\n'
        else: prf += f'      obtain ⟨_, hw, e{i}⟩ := {hit}.1 s{i}\n      obtain ⟨v, hv, rfl⟩ := Option.map_eq_some_iff.1 hw\n'
        prf += f'      refine ⟨v, hv, ?_⟩\n      cases m\'\n      simp only [{n}.mk.injEq]\n      exact ' + eqs(lambda q: f'e{i}.symm' if q == i else f'({miss[q] % ("1 s%d" % q)}).symm') + '\n'
    A = len(arms)
    prf += f'  have e : {n}.merge m f = some m := by\n    unfold {n}.merge\n    rw [' + ', '.join(f'if_neg h{a}' for a in range(A)) + ']\n  rw [e, Option.some_inj]\n  constructor\n'
    prf += '  · rintro rfl\n    exact ' + tup([miss[q] % '2 rfl' for q in range(k)]) + '\n'
    prf += f'  · rintro {tup(S_) if k > 1 else "s0"}\n    cases m\'\n    cases m\n    simp only [{n}.mk.injEq]\n    exact ' + eqs(lambda q: f'({miss[q] % ("1 s%d" % q)}).symm') + '\n\n'
    prf += f'theorem {n}.merge_runs (fs : List Field) : ∀ m m\' : {n}, mergeAll {n}.merge m fs = some m\' ↔\n      ' + conj([f'Run ({S} {A_}) m.{F} fs m\'.{F}' for F, S, A_, _ in steps], '      ') + ' := by\n'
    R_ = [f'r{i}' for i in range(k)]
    prf += f'''  induction fs with
  | nil =>
    intro m m'
    simp only [mergeAll, Run, Option.some_inj]
    constructor
    · rintro rfl
      exact {tup(['rfl'] * k)}
    · rintro {tup(S_) if k > 1 else "s0"}
      cases m'
      cases m
      simp only [{n}.mk.injEq]
      exact {eqs(lambda q: f's{q}.symm')}
  | cons f fs ih =>
    intro m m'
    rw [mergeAll, Option.bind_eq_some_iff]
    constructor
    · rintro ⟨m1, h1, h2⟩
      {'obtain ' + tup(S_) + ' := ' if k > 1 else 'have s0 := '}({n}.merge_steps m f m1).1 h1
      {'obtain ' + tup(R_) + ' := ' if k > 1 else 'have r0 := '}(ih m1 m').1 h2
      exact {tup([f'⟨_, s{i}, r{i}⟩' for i in range(k)])}
    · rintro {tup([f'⟨x{i}, s{i}, r{i}⟩' for i in range(k)])}
      exact ⟨{{ {', '.join(f'{F} := x{i}' for i, (F, *_) in enumerate(steps))} }}, ({n}.merge_steps _ _ _).2 {tup(S_)}, (ih _ _).2 {tup(R_)}⟩

'''
    cg = runs[-1] if k == 1 else ''.join(f'and_congr ({r}) (' for r in runs[:-2]) + f'and_congr ({runs[-2]}) ({runs[-1]})' + ')' * (k - 2)
    prf += f'''theorem {n}.parse_decodes (bs : Bytes) (m : {n}) : parse {n}.merge {{}} bs = some m ↔ Decodes{n} bs m :=
  parse_iff (C := says{n}) (fun fs hf m => ({n}.merge_runs fs {{}} m).trans ({cg})) (fun _ _ => Iff.rfl) bs m

'''
    low = n[0].lower() + n[1:]
    props += f'''/-- **C98.** Bytes are read as a `{n}` exactly if they say one that has its required fields, and then as that one. -/
theorem C98_{low} (bs : Bytes) (m : {n}) : {n}.parseFromBytes bs = some m ↔ Spec.Pbf.Decodes{n} bs m ∧ Spec.Pbf.has{n} m :=
  read_iff {n}.parse_decodes ⟨m.has_of, m.isInitialized_of⟩ bs

'''
open(root + 'Spec/PbfDecode.lean', 'w').write(spec + 'end Osmio.Spec.Pbf\n')
open(root + 'Proofs/ProtoDecodeMsg.lean', 'w').write(prf + 'end Osmio.Proto\n')
ex = os.path.dirname(os.path.abspath(__file__)) + '/decode_examples.txt'
open(root + 'Props/ProtoDecode.lean', 'w').write(props + (open(ex).read() if os.path.exists(ex) else '') + 'end Osmio\n')
