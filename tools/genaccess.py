#!/usr/bin/env python3
"""Writes lean/Verif/Model/Accessors.lean from the generated Rust code, and lean/Verif/Spec/AccessorList.lean from the .proto files."""
import re, os
root = os.path.dirname(os.path.dirname(os.path.abspath(__file__)))
SRC = '/repo/src/stringpbf/'

def camel(n):
    n = n.lower() if n.isupper() or n.startswith('OBSOLETE') else n
    if n == 'type_': return n
    p = n.split('_')
    return p[0] + ''.join(x.capitalize() for x in p[1:])

def cap(n):
    n = camel(n).rstrip('_')
    return n[0].upper() + n[1:]

RTY = {'i32': 'Int32', 'i64': 'Int64', 'u32': 'UInt32', 'bool': 'Bool', 'String': 'Str', 'Vec<u8>': 'Bytes'}
SHORT = ['::std::option::', '::std::vec::', '::std::string::', '::std::default::', '::protobuf::']

def squash(body):
    s = ' '.join(l.strip() for l in body if not l.strip().startswith('//'))
    for x in SHORT: s = s.replace(x, '')
    return s

def lit(s):
    s = re.sub(r'(i32|i64|u32)$', '', s)
    return {'String::new()': '[]', 'Vec::new()': '[]', '""': '[]', '&[]': '[]'}.get(s, s)

def functions(L, a, b):
    """name, first line, last line, text between the braces, type of the result"""
    i = a
    while i < b:
        m = re.match(r'    (?:pub )?fn (\w+)\((.*?)\)(?: -> (.*))? \{$', L[i])
        if m:
            j = i
            while L[j] != '    }': j += 1
            yield m[1], i + 1, j + 1, squash(L[i + 1:j]), m[2], m[3]
            i = j
        i += 1

out = ['''import Verif.Model.Proto
import Verif.Lib.StrLit
/-!
# Model: the accessors of the generated messages (`src/stringpbf/fileformat.rs`, `src/stringpbf/osmformat.rs`)

`src/arcpbf` has identical copies of both files. `&mut self` becomes a message that is returned; a `mut_` function, which lends the field, takes what the
borrower does with it. Unknown fields are left out, as in `Verif.Model.Proto`. Generated by `tools/genaccess.py`.
-/

namespace Osmio.Proto
''']
have = {}
for fn in ('fileformat.rs', 'osmformat.rs'):
    L = open(SRC + fn).read().splitlines()
    names = [(i, re.match(r'pub struct (\w+) \{', l)[1]) for i, l in enumerate(L) if l.startswith('pub struct ')]
    for k, (start, M) in enumerate(names):
        end = names[k + 1][0] if k + 1 < len(names) else len(L)
        a = next(i for i in range(start, end) if L[i] == f'impl {M} {{')
        b = next(i for i in range(a, end) if L[i] == '}')
        c = next(i for i in range(b, end) if L[i].startswith('impl ::protobuf::Message for'))
        d = next(i for i in range(c, end) if L[i] == '}')
        have[M] = []
        def emit(l0, l1, text): out.append(f'/-- `src/stringpbf/{fn}:{l0}-{l1}` -/\n{text}')
        fields = {}
        for l in L[start:a]:
            m = re.match(r'    pub (\w+): (.*),$', l)
            if m and m[1] != 'special_fields': fields[m[1]] = squash([m[2]])
        for nm, l0, l1, body, args, res in functions(L, a, b):
            if nm == 'new':
                assert body == 'Default::default()', body
                emit(l0, l1, f'def {M}.new : {M} := {{}}')
                continue
            if nm == 'generated_message_descriptor_data': continue
            m = (re.fullmatch(r'match self\.(\w+)\.as_ref\(\) \{ Some\(v\) => v, None => (.*), \}', body)
                 or re.fullmatch(r'self\.(\w+)\.unwrap_or\((.*)\)', body))
            if m:
                T = re.search(r'Option<(.*)>', fields[m[1]])[1]
                have[M].append((nm.rstrip('_'), T))
                emit(l0, l1, f'def {M}.get{cap(nm)} (m : {M}) : {RTY[T]} := m.{camel(m[1])}.getD {"(" + lit(m[2]) + ")" if lit(m[2]).startswith("-") else lit(m[2])}')
                continue
            m = re.fullmatch(r'self\.(\w+) = Option::None;', body)
            if m and nm.startswith('clear_'):
                emit(l0, l1, f'def {M}.clear{cap(nm[6:])} (m : {M}) : {M} := {{ m with {camel(m[1])} := none }}'); continue
            m = re.fullmatch(r'self\.(\w+)\.is_some\(\)', body)
            if m and nm.startswith('has_'):
                emit(l0, l1, f'def {M}.has{cap(nm[4:])} (m : {M}) : Bool := m.{camel(m[1])}.isSome'); continue
            m = re.fullmatch(r'self\.(\w+) = Option::Some\(v\);', body)
            if m and nm.startswith('set_'):
                T = RTY[squash([args.split('v: ')[1]])]
                emit(l0, l1, f'def {M}.set{cap(nm[4:])} (m : {M}) (v : {T}) : {M} := {{ m with {camel(m[1])} := some v }}'); continue
            m = re.fullmatch(r'if self\.(\w+)\.is_none\(\) \{ self\.(\w+) = Option::Some\((.*)\); \} self\.(\w+)\.as_mut\(\)\.unwrap\(\)', body)
            if m and nm.startswith('mut_'):
                T = RTY[squash([res.replace('&mut ', '')])]
                emit(l0, l1, f'def {M}.mut{cap(nm[4:])} (m : {M}) (f : {T} → {T}) : {M} :=\n'
                     f'  let m := if m.{camel(m[1])} = none then {{ m with {camel(m[2])} := some {lit(m[3])} }} else m\n'
                     f'  {{ m with {camel(m[4])} := m.{camel(m[4])}.map f }}'); continue
            m = re.fullmatch(r'self\.(\w+)\.take\(\)\.unwrap_or_else\(\|\| (.*)\)', body)
            if m and nm.startswith('take_'):
                T = RTY[squash([res])]
                emit(l0, l1, f'def {M}.take{cap(nm[5:])} (m : {M}) : {T} × {M} := (m.{camel(m[1])}.getD {lit(m[2])}, {{ m with {camel(m[1])} := none }})'); continue
            raise Exception((M, nm, body))
        for nm, l0, l1, body, args, res in functions(L, c, d):
            if nm == 'clear':
                st = [s.strip() for s in body.split(';') if s.strip() and 'special_fields' not in s]
                up = []
                for s in st:
                    m = re.fullmatch(r'self\.(\w+)\.clear\(\)', s)
                    n = re.fullmatch(r'self\.(\w+) = Option::None', s)
                    f = (m or n)[1]
                    assert (fields[f].startswith('Vec') or fields[f].startswith('MessageField')) if m else fields[f].startswith('Option')
                    up.append(f"{camel(f)} := {'[]' if fields[f].startswith('Vec') else 'none'}")
                emit(l0, l1, f'def {M}.clear (m : {M}) : {M} := {{ m with {", ".join(up)} }}')
            elif nm == 'default_instance':
                up = [re.fullmatch(r'(\w+): (.*)', s.strip()).groups() for s in re.search(r'\{(.*)\}', body)[1].split(',') if s.strip()]
                up = [f"{camel(f)} := {'[]' if 'Vec' in v else 'none'}" for f, v in up if f != 'special_fields']
                emit(l0, l1, f'def {M}.defaultInstance : {M} := {{ {", ".join(up)} }}')
            elif nm == 'new':
                assert body == M + '::new()'
        out.append('')
L = open(SRC + 'osmformat.rs').read().splitlines()
def at(p, frm=0): return next(i for i in range(frm, len(L)) if p in L[i])
e = at('pub enum MemberType')
v, f, s, vs, df = at('fn value', e), at('fn from_i32', e), at('fn from_str', e), at('const VALUES', e), at('fn default() -> Self', e)
F = 'src/stringpbf/osmformat.rs'
out.append(f'''/-- `{F}:{e + 1}-{at('    }', e) + 1}` -/
inductive MemberType where
  | node
  | way
  | relation
  deriving DecidableEq

/-- `{F}:{v + 1}-{v + 3}` -/
def MemberType.value : MemberType → Int32
  | .node => 0
  | .way => 1
  | .relation => 2
/-- `{F}:{f + 1}-{f + 8}` -/
def MemberType.fromI32 (value : Int32) : Option MemberType :=
  if value = 0 then some .node else if value = 1 then some .way else if value = 2 then some .relation else none
/-- `{F}:{s + 1}-{s + 8}` -/
def MemberType.fromStr (s : Str) : Option MemberType :=
  if s = str% "NODE" then some .node else if s = str% "WAY" then some .way else if s = str% "RELATION" then some .relation else none
/-- `{F}:{vs + 1}-{vs + 5}` -/
def MemberType.values : List MemberType := [.node, .way, .relation]
/-- `{F}:{df + 1}-{df + 3}` -/
def MemberType.default : MemberType := .node

end Osmio.Proto''')
open(root + '/lean/Verif/Model/Accessors.lean', 'w').write('\n'.join(out) + '\n')

# --- from the .proto files
sp = ['''import Verif.Spec.Accessors
import Verif.Model.Accessors
import Verif.Spec.PbfSchema
/-!
# Specification: the singular fields of the OSM PBF messages and their accessors

Written from `src/stringpbf/fileformat.proto` and `src/stringpbf/osmformat.proto` by `tools/genaccess.py`: one line for each field there that is not repeated
and has no message type, with its type, default value, number and encoding, next to the names of its accessors. `rest` are the other fields, which have no accessors.
-/

namespace Osmio.Spec.Access

open Proto Wire
''']
PTY = {'int32': 'Int32', 'sint64': 'Int64', 'int64': 'Int64', 'uint32': 'UInt32', 'bool': 'Bool', 'string': 'Str', 'bytes': 'Bytes'}
order = []
for fn in ('fileformat.proto', 'osmformat.proto'):
    txt = re.sub(r'/\*.*?\*/', '', open(SRC + fn).read(), flags=re.S)
    txt = re.sub(r'//.*', '', txt)
    for m in re.finditer(r'message (\w+) \{', txt):
        depth, j = 1, m.end()
        while depth:
            depth += {'{': 1, '}': -1}.get(txt[j], 0)
            j += 1
        body = re.sub(r'enum \w+ \{.*?\}', '', txt[m.end():j - 1], flags=re.S)
        M = m[1]
        order.append(M)
        rows, rest = [], []
        for mode, ty, name, num, opts in re.findall(r'(required|optional|repeated)\s+(\w+)\s+(\w+)\s*=\s*(\d+)\s*(\[[^\]]*\])?\s*;', body):
            lean = {'type': 'type_'}.get(name, camel(name))
            if mode == 'repeated' or ty not in PTY:
                rest.append(lean)
                continue
            dv = re.search(r'default\s*=\s*(\S+?)\s*[\],]', opts or '')
            dv = dv[1] if dv else {'bool': 'false', 'string': '[]', 'bytes': '[]'}.get(ty, '0')
            C = cap(name)
            lend = f'some ⟨{M}.mut{C}, {M}.take{C}⟩' if ty in ('string', 'bytes') else 'none'
            wire = {'string': f'fun v => delimited {num} (Utf8.encode v)', 'bytes': f'fun v => delimited {num} v'}.get(ty, f'fun v => number {num} ({ty} v)')
            rows.append(f'⟨{PTY[ty]}, {dv}, {wire},\n    {M}.get{C}, {M}.has{C}, {M}.set{C}, {M}.clear{C}, {lend}⟩')
        name = M[0].lower() + M[1:]
        sp.append(f'/-- `message {M}` -/\ndef {name} : List (Member {M}) :=\n  [' + ',\n   '.join(rows) + ']')
        sp.append(f'/-- The fields of `message {M}` that are repeated or messages. -/\n'
                  f'def {name}Rest (m : {M}) := ' + ('(' + ', '.join('m.' + r for r in rest) + ')' if rest else '(fun _ => ()) m') + '\n')
        assert [cap(n) for n, _ in have[M]] == [re.search(r'\.get(\w+)', r)[1] for r in rows], (M, have[M], rows)
txt = re.sub(r'//.*', '', open(SRC + 'osmformat.proto').read())
vals = re.findall(r'(\w+)\s*=\s*(\d+)\s*;', re.search(r'enum MemberType \{(.*?)\}', txt, re.S)[1])
sp.append('/-- `enum MemberType` -/\ndef memberTypes : List (Str × Int32) := [' + ', '.join(f'(str% "{a}", {b})' for a, b in vals) + ']\n')
sp.append('end Osmio.Spec.Access')
open(root + '/lean/Verif/Spec/AccessorList.lean', 'w').write('\n'.join(sp) + '\n')
print(order)
