#!/usr/bin/env python3
"""Compare the library models in lean/Verif/Lib with other implementations of the same things.

zlib, bzip2, expat, json, UTF-8, datetime and the float parser are those of Python. The shortest digits of a double are computed here
from exact fractions (ties go up, as in Rust; Python's own repr takes the even digit).

  vectors.py check [seed] [n]   random inputs, run through the compiled models; prints every difference
  vectors.py lean               writes lean/Verif/Props/LibTests.lean: a few of them, for the kernel

`check` leaves out what DESIGN.md says is not modelled, and what expat is laxer or stricter about than xml-rs: versions other than 1.0 and 1.1,
elements with the prefix `xml`, `]]>` in text, colons in processing instructions, encodings, and what may follow a colon.
"""
import bz2, json, os, random, re, struct, subprocess, sys, tempfile, zlib
import xml.parsers.expat as X
from collections import Counter
from datetime import datetime, timedelta, timezone
from decimal import Decimal
from fractions import Fraction

root = os.path.dirname(os.path.dirname(os.path.abspath(__file__)))

def text(R, n):
    m = R.randrange(4)
    if m == 0: return bytes(R.randrange(256) for _ in range(n))
    if m == 1: return bytes(R.choice(b'abc') for _ in range(n))
    if m == 2: return (b'hello world, ' * (n // 13 + 1))[:n]
    return b'x' * n

def flip(R, b, ends=False):
    c = bytearray(b)
    c[R.randrange(-10, min(24, len(c) - 10)) if ends else R.randrange(len(c))] ^= 1 << R.randrange(8)
    return bytes(c)

def inflate(b):
    d = zlib.decompressobj()
    try: x = d.decompress(b)
    except zlib.error: return None
    return x if d.eof else None

def deflate(R, t):
    co = zlib.compressobj(R.choice([0, 1, 6, 9]), zlib.DEFLATED, R.choice([9, 12, 15]), R.choice([1, 8, 9]), R.choice([0, 1, 2, 3, 4]))
    h = len(t) // 2
    b = co.compress(t[:h])
    if R.random() < .3: b += co.flush(zlib.Z_SYNC_FLUSH)
    return b + co.compress(t[h:]) + co.flush()

def unbz(b):
    d = bz2.BZ2Decompressor()
    try: x = d.decompress(b)
    except Exception: return None
    return x if d.eof else None

def toFloat(q):
    try: return float(q)
    except OverflowError: return float('inf')

def shortest(a):
    """Digits and exponent: as few digits as possible, then as close as possible, then the greater."""
    f = Fraction(a)
    e = 0
    while f >= Fraction(10) ** (e + 1): e += 1
    while f < Fraction(10) ** e: e -= 1
    for k in range(1, 18):
        t = e - k + 1
        lo = int(f / Fraction(10) ** t)
        c = [d for d in (lo, lo + 1) if toFloat(Fraction(d) * Fraction(10) ** t) == a]
        if c:
            d = min(c, key=lambda d: (abs(Fraction(d) * Fraction(10) ** t - f), -d))
            return f"{d}e{t}"

def show(x, debug=False):
    if x != x: return 'NaN'
    if x in (float('inf'), -float('inf')): return 'inf' if x > 0 else '-inf'
    a = abs(x)
    sign = '-' if str(x)[0] == '-' else ''
    if debug and a != 0 and (a >= 1e16 or a < 1e-4):
        t = Decimal(shortest(a)).normalize().as_tuple()
        d = ''.join(map(str, t.digits))
        return sign + d[0] + ('.' + d[1:] if len(d) > 1 else '') + 'e' + str(t.exponent + len(d) - 1)
    s = format(Decimal(shortest(a)), 'f') if a else '0'
    if '.' in s: s = s.rstrip('0').rstrip('.')
    if debug and '.' not in s: s += '.0'
    return sign + s

FLOAT = re.compile(r'[+-]?(inf|infinity|nan|((\d+\.\d*|\.\d+|\d+)(e[+-]?\d+)?))\Z', re.I | re.A)
ODD = ['', '-', '+', '.', 'e', 'inf', '-inf', '+inf', 'nan', '-nan', 'NaN', 'INF', 'Infinity', 'infinity', '-infinity', '1e', '1e+', '1.e1', '.5', '5.', '+.5',
       '-.5e-3', '0x10', '1_0', ' 1', '1 ', '1e400', '-1e400', '1e-400', '-0', '0', '-0.0', '4.9e-324', '2.4e-324', '2.5e-324', '1.7976931348623157e308',
       '1.7976931348623159e308', '9007199254740993', '٣']

def floatText(R):
    m = R.randrange(8)
    digits = lambda lo: ''.join(R.choice('0123456789') for _ in range(R.randrange(lo, 25)))
    if m == 0: return repr(R.uniform(-180, 180))
    if m == 1: return f"{R.uniform(-90, 90):.7f}"
    if m == 2: return repr(struct.unpack('<d', struct.pack('<Q', R.getrandbits(64)))[0])
    if m == 3: return digits(1) + '.' + digits(0)
    if m == 4: return ''.join(R.choice('0123456789.eE+-') for _ in range(R.randrange(1, 7)))
    if m == 5: return R.choice(ODD)
    if m == 6: return repr(R.uniform(-1, 1) * 10.0 ** R.randrange(-30, 30))
    return str(R.randrange(-10 ** 18, 10 ** 18))

def xmlEvents(b):
    p = X.ParserCreate(namespace_separator='|')
    p.namespace_prefixes = True
    p.ordered_attributes = True
    ev = []
    def nm(n):
        q = n.split('|')
        return q[0] if len(q) == 1 else q[1] if len(q) == 2 else q[2] + ':' + q[1]
    p.StartElementHandler = lambda n, a: ev.append('S' + nm(n) + ''.join(';' + nm(a[i]) + '=' + a[i + 1] for i in range(0, len(a), 2)))
    p.EndElementHandler = lambda n: ev.append('E' + nm(n))
    try: p.Parse(b, True)
    except (X.ExpatError, LookupError): return None
    return '\n'.join(ev)

def xmlText(R):
    def val():
        return ''.join(R.choice(['x', 'y', '&amp;', '&lt;', '&#65;', '&#x42;', 'é', '>', ' ']) for _ in range(R.randrange(0, 4)))
    def attrs():
        s = ''
        for _ in range(R.choice([0, 0, 1, 1, 2])):
            k = R.choice(['k', 'v', 'p:k', 'xml:lang', 'xmlns:p', 'xmlns', 'id'])
            q = R.choice('"\'')
            s += R.choice([' ', '  ', '\n']) + k + R.choice(['', '', ' ']) + '=' + R.choice(['', '', ' ']) + q
            s += (R.choice(['u', 'urn:p']) if k.startswith('xmlns') else val()) + q
        return s
    def elem(d):
        n = R.choice(['a', 'b', 'node', 'p:a', 'é', 'a-b', '_x', 'p:q'])
        a = attrs()
        if R.random() < .4 and 'xmlns:p' not in a: a += ' xmlns:p="urn:p"'
        if R.random() < .3: return f'<{n}{a}{R.choice(["", " "])}/>'
        inner = ''.join(item(d + 1) for _ in range(R.randrange(0, 3 if d < 3 else 1)))
        return f'<{n}{a}{R.choice(["", "", " "])}>{inner}</{n}{R.choice(["", "", " "])}>'
    def item(d):
        r = R.random()
        if r < .4 and d < 4: return elem(d)
        if r < .6: return val()
        if r < .7: return '<!--' + R.choice(['', ' c ', '-', 'a-b', '--']) + '-->'
        if r < .8: return '<![CDATA[' + R.choice(['', '<&>', ']]', ']']) + ']]>'
        if r < .87: return '<?' + R.choice(['pi', 'pi x', 'p?', 'xml', 'xmlx y']) + '?>'
        return R.choice(['\n', ' ', 'text'])
    def misc():
        return ''.join(R.choice(['\n', ' ', '<!-- c -->', '<?pi x?>']) for _ in range(R.choice([0, 0, 1, 2])))
    s = ''
    if R.random() < .5:
        s += R.choice(['<?xml version="1.0"?>', "<?xml version='1.0' encoding='UTF-8'?>", '<?xml version="1.0" encoding="utf-8" standalone="yes"?>',
                       '<?xml version="1.0" standalone="no" ?>', '<?xml  version = "1.0"?>'])
    s += misc() + elem(0) + misc()
    if R.random() < .5:
        l = list(s)
        for _ in range(R.choice([1, 1, 2])):
            j = R.randrange(len(l)); m = R.randrange(3); c = R.choice('<>/&;\'"= ?!-[]:x\n0é')
            if m == 0: del l[j]
            elif m == 1: l.insert(j, c)
            else: l[j] = c
            if not l: l = ['x']
        s = ''.join(l)
    return s

def xmlSkip(t):
    m = re.match(r'<\?xml\s[^>]*?version\s*=\s*["\']([^"\']*)["\']', t)
    return (m and m.group(1) not in ('1.0', '1.1') or re.search(r'<\?[^ ?]*:', t) or re.search(r'</?xml:', t)
            or ']]>' in re.sub(r'<!\[CDATA\[.*?\]\]>', '', t, flags=re.S)
            or re.search(r'encoding\s*=\s*["\'](?!(utf-8|UTF-8)["\'])', t) or re.search(r':[0-]', t))

def vectors(seed, n):
    R = random.Random(seed)
    out = []
    def emit(kind, i, o):
        b = lambda x: x if isinstance(x, bytes) else x.encode()
        out.append((kind, b(i), None if o is None else b(o)))
    for _ in range(n):
        b = deflate(R, text(R, R.choice([0, 1, 2, 5, 20, 60, 300])))
        if R.random() < .2: b += b'xyz'
        for c in (b, flip(R, b), flip(R, b), b[:R.randrange(len(b))]): emit('zlib', c, inflate(c))
    for i in range(n // 5):
        b = bz2.compress(text(R, R.choice([0, 1, 2, 5, 20, 40, 60, 30, 300 if i % 5 == 0 else 30])), R.choice([1, 5, 9]))
        # not in the symbols, where a changed bit can make a run of billions, which the model counts out before it refuses the block
        for c in (b, flip(R, b, True), flip(R, b, True)):
            # the fifteenth byte of a stream begins with the obsolete flag for randomised blocks
            if not (c[4:10] == b'1AY&SY' and c[14] & 128): emit('bzip2', c, unbz(c))
    for _ in range(5 * n):
        s = floatText(R)
        if not FLOAT.match(s):
            emit('display', s, None)
            continue
        x = float(s)
        emit('display', s, show(x))
        emit('debug', s, show(x, True))
        y = x * 1e7
        if y == y and abs(y) < 1e300:
            r = int(Fraction(abs(y)) + Fraction(1, 2))
            r = -r if y < 0 else r
            emit('inner', s, str(r) if -2 ** 31 <= r < 2 ** 31 else 'big' if r > 0 else 'small')
    for _ in range(n):
        r = R.randrange(-2 ** 31, 2 ** 31)
        emit('degrees', str(r), show(r / 1e7))
        b = struct.pack('>I', R.getrandbits(32))
        emit('f32', b, show(struct.unpack('>f', b)[0]))
    for _ in range(3 * n):
        t = R.choice([R.randrange(-2 ** 31, 2 ** 31), R.randrange(-62135596800, 253402300800)])
        d = datetime(1970, 1, 1, tzinfo=timezone.utc) + timedelta(seconds=t)
        s = f"{d.year:04d}-{d.month:02d}-{d.day:02d}T{d.hour:02d}:{d.minute:02d}:{d.second:02d}Z"
        emit('iso', str(t), s)
        emit('epoch', s, str(t))
        off = R.randrange(-1439, 1440)
        try: l = d.astimezone(timezone(timedelta(minutes=off)))
        except OverflowError: continue
        emit('epoch', f"{l.year:04d}-{l.month:02d}-{l.day:02d}{R.choice('Tt ')}{l.hour:02d}:{l.minute:02d}:{l.second:02d}"
             f"{R.choice(['', '.5', '.123456789'])}{'+' if off >= 0 else '-'}{abs(off) // 60:02d}:{abs(off) % 60:02d}", str(t))
    for _ in range(n):
        s = ''.join(R.choice([chr(R.randrange(0, 0x80)), chr(R.randrange(0, 0x20)), R.choice('"\\/é€😀 \x7f')]) for _ in range(R.randrange(0, 12)))
        emit('json', s, json.dumps(s, ensure_ascii=False))
        q = R.choice([json.dumps(s), json.dumps(s, ensure_ascii=False)])
        if R.random() < .4:
            q = list(q); q[R.randrange(len(q))] = R.choice('"\\u0dDfn'); q = ''.join(q)
        if q.startswith('"'):
            try:
                v = json.JSONDecoder(strict=True).raw_decode(q)[0]
                v.encode()
            except ValueError: v = None
            emit('unjson', q, v)
    for _ in range(5 * n):
        b = bytes(R.choice([R.randrange(256), R.choice([0x80, 0xbf, 0xc0, 0xc2, 0xe0, 0xa0, 0x9f, 0xed, 0xef, 0xf0, 0x90, 0x8f, 0xf4, 0xf5, 0x41])])
                  for _ in range(R.randrange(0, 6)))
        try: o = ','.join(str(ord(c)) for c in b.decode())
        except UnicodeDecodeError: o = None
        emit('utf8', b, o)
    for _ in range(3 * n):
        s = R.choice([str(R.choice([R.randrange(-2 ** 65, 2 ** 65), R.randrange(-2 ** 33, 2 ** 33), 2 ** 63, 2 ** 63 - 1, -2 ** 63, -2 ** 63 - 1, 2 ** 32, 2 ** 32 - 1, 0])),
                      ''.join(R.choice('0123456789+-_ ') for _ in range(R.randrange(0, 4)))])
        if R.random() < .2: s = R.choice('+0-') + s
        v = int(s) if re.match(r'[+-]?[0-9]+\Z', s, re.A) else None
        emit('i64', s, str(v) if v is not None and -2 ** 63 <= v < 2 ** 63 else None)
        emit('u32', s, str(v) if v is not None and not s.startswith('-') and v < 2 ** 32 else None)
    for _ in range(20 * n):
        t = xmlText(R)
        if not xmlSkip(t): emit('xml', t, xmlEvents(t.encode()))
    return out

DEFS = '''/-- A name as it is written. -/
def written (n : Xml.Name) : Str := (match n.pre with | some p => p ++ [':'] | none => []) ++ n.loc

/-- The start and end tags, each as a line. -/
def tagLine : Xml.XmlEvent → Option Str
  | .start n as => some ('S' :: written n ++ as.flatMap fun a => ';' :: written a.name ++ '=' :: a.value)
  | .stop n => some ('E' :: written n)
  | .other => none

/-- expat replaces white space in attribute values, and takes one root element. -/
def expat : Xml.Config := ⟨fun c => if c = '\\n' ∨ c = '\\t' ∨ c = '\\r' then ' ' else c, false⟩

/-- All of them, if the text is well-formed. -/
def tagLines (bs : List UInt8) : Option Str :=
  if none ∈ Xml.eventsOfBytes expat bs then none else some (['\\n'].intercalate ((Xml.eventsOfBytes expat bs).filterMap fun e => e.bind tagLine))

/-- The data of one complete bzip2 stream. -/
def unbzip2 (bs : List UInt8) : Option (List UInt8) := if (Bzip2.one bs).2.isSome then some (Bzip2.one bs).1 else none

/-- The number in a coordinate, or on which side it is too far out. -/
def innerText (s : Str) : Option Str :=
  match innerFromStr s with
  | .ok i => some (intStr i.toInt)
  | .error (.tooLarge _) => some (str% "big")
  | .error (.tooSmall _) => some (str% "small")
  | .error _ => none

/-- A float of 32 bits, from its bytes. -/
def f32 (bs : List UInt8) : F32 := ⟨UInt32.ofNat (bs.foldl (fun n b => n * 256 + b.toNat) 0)⟩
'''
IMPORTS = ['Zlib', 'Bzip2', 'Float64Debug', 'Float32', 'Chrono', 'Json', 'SerdeJson', 'Xml', 'Utf8']
HEAD = ''.join(f'import Verif.Lib.{m}\n' for m in IMPORTS) + 'import Verif.Model.LatLon\n'
# kind: (Lean function, the input is text, the output is text)
FUNS = {
    'zlib': ('Zlib.inflate', 0, 0), 'bzip2': ('unbzip2', 0, 0),
    'display': ('(fun s => (parseF64 s).map dispF64)', 1, 1), 'debug': ('(fun s => (parseF64 s).map debugF64)', 1, 1),
    'inner': ('innerText', 1, 1), 'degrees': ('(fun s => (parseI64 s).map fun i => (Lat.mk (Int32.ofInt i.toInt)).display)', 1, 1),
    'f32': ('(fun b => some (dispF64 (f32 b).toF64))', 0, 1), 'iso': ('(fun s => (parseI64 s).map fun i => Chrono.toRfc3339 i.toInt)', 1, 1),
    'epoch': ('(fun s => (Chrono.parseRfc3339 s).map intStr)', 1, 1), 'json': ('(fun s => some (Json.quote s))', 1, 1),
    'unjson': ('(fun s => (Json.parseString s).map (·.1))', 1, 1),
    'utf8': ("(fun b => (Utf8.decode b).map fun s => [','].intercalate (s.map fun c => natStr c.toNat))", 0, 1),
    'i64': ('(fun s => (parseI64 s).map fun i => intStr i.toInt)', 1, 1), 'u32': ('(fun s => (parseU32 s).map fun i => natStr i.toNat)', 1, 1),
    'xml': ('tagLines', 0, 1),
}

RUN = '''def hexv (c : Char) : Nat := if c.isDigit then c.toNat - 48 else c.toNat - 87
def unhex : List Char → List UInt8
  | a :: b :: r => UInt8.ofNat (hexv a * 16 + hexv b) :: unhex r
  | _ => []
def hex (b : List UInt8) : String := "=" ++ String.ofList (b.flatMap fun x => [Nat.digitChar (x.toNat / 16), Nat.digitChar (x.toNat % 16)])
def data (o : Option (List UInt8)) : String := match o with | some x => hex x | none => "none"
def txt (o : Option Str) : String := data (o.map Utf8.encode)
def run (k : String) (b : List UInt8) : String :=
  let s : Str := (Utf8.decode b).getD []
  match k with
%s  | _ => "?"
def main (args : List String) : IO Unit := do
  let mut bad := 0
  for l in (← IO.FS.lines args.head!) do
    match l.splitOn " " with
    | [k, i, o] =>
      let r := run k (unhex (i.toList.drop 1))
      if r ≠ o then
        bad := bad + 1
        IO.println s!"{k} {i} want {o} got {r}"
    | _ => pure ()
  IO.println s!"{bad} differences"
'''

def check(seed, n):
    vs = vectors(seed, n)
    print(dict(Counter(k for k, _, _ in vs)))
    arms = ''.join(f'  | "{k}" => {"txt" if o else "data"} ({f} {"s" if i else "b"})\n' for k, (f, i, o) in FUNS.items())
    with tempfile.TemporaryDirectory() as d:
        open(d + '/Run.lean', 'w').write(HEAD + 'namespace Osmio\n' + DEFS + 'end Osmio\nopen Osmio\n' + RUN.replace('%s', arms))
        open(d + '/v.txt', 'w').write('\n'.join(f"{k} ={i.hex()} {'none' if o is None else '=' + o.hex()}" for k, i, o in vs) + '\n')
        subprocess.run(['lake', 'env', 'lean', '--run', d + '/Run.lean', d + '/v.txt'], cwd=root + '/lean')

def lean():
    def bs(b): return '[' + ', '.join(map(str, b)) + ']'
    def st(b):
        s = b.decode()
        if all(32 <= ord(c) < 127 or c == '\n' or ord(c) > 160 for c in s):
            return 'str% "' + s.replace('\\', '\\\\').replace('"', '\\"').replace('\n', '\\n') + '"'
        return '[' + ', '.join(f'Char.ofNat {ord(c)}' for c in s) + ']'
    want = {'zlib': 6, 'bzip2': 3, 'display': 8, 'debug': 6, 'inner': 5, 'degrees': 3, 'f32': 3, 'iso': 4, 'epoch': 5, 'json': 4, 'unjson': 4, 'utf8': 6, 'i64': 4, 'u32': 4, 'xml': 8}
    vs = vectors(2024, 60)
    o = [HEAD + '''import Verif.Lib.StrLit
/-!
# The library models against other implementations

Written by `tools/vectors.py lean`. Each line is an input, and what another implementation makes of it (Python's zlib, bzip2, expat, json, UTF-8
and dates; exact fractions for the digits of floats), evaluated by the kernel on the model. Like `Props/RepoTests.lean` these are tests, not properties.
`tools/vectors.py check` compares many more with the compiled definitions.
-/

namespace Osmio.LibTests

''' + DEFS]
    for k, n in want.items():
        f, i, out = FUNS[k]
        good = [v for v in vs if v[0] == k and v[2] is not None and 1 < len(v[1]) <= (60 if k in ('zlib', 'bzip2') else 120)]
        bad = [v for v in vs if v[0] == k and v[2] is None and len(v[1]) <= 80]
        pick = good[:n] + bad[:max(1, n // 2)] if bad else good[:n]
        o.append(f'/-! ## {k} -/\n')
        for _, a, b in pick:
            arg = st(a) if i else bs(a)
            res = 'none' if b is None else 'some (' + (st(b) if out else bs(b)) + ')'
            o.append(f'example : {f} ({arg}) = {res} := by decide +kernel')
        o.append('')
    o.append('end Osmio.LibTests')
    open(root + '/lean/Verif/Props/LibTests.lean', 'w').write('\n'.join(o) + '\n')

if __name__ == '__main__':
    if sys.argv[1:2] == ['lean']: lean()
    elif sys.argv[1:2] == ['check']: check(int((sys.argv[2:3] or ['1'])[0]), int((sys.argv[3:4] or ['500'])[0]))
    else: sys.exit(__doc__)
