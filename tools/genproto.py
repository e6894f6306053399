#!/usr/bin/env python3
"""Writes lean/Verif/Model/Proto.lean and lean/Verif/Proofs/ProtoMsg.lean from the generated Rust code in the repository."""
import re,sys
SRC='/repo/src/stringpbf/'
def camel(n):
    n=n.lower() if n.isupper() or n.startswith('OBSOLETE') else n
    if n=='type_': return n
    p=n.split('_'); return p[0]+''.join(x.capitalize() for x in p[1:])
TY={'i32':'Int32','i64':'Int64','u32':'UInt32','bool':'Bool','String':'Str','Vec<u8>':'Bytes','EnumOrUnknown<relation::MemberType>':'Int32'}
DEC={'int32':'asInt32','int64':'asInt64','uint32':'asUInt32','bool':'asBool','sint32':'zigZag32','sint64':'zigZag64','enum_or_unknown':'asInt32'}
ENC={'int32':'encInt32','int64':'encInt64','uint32':'encUInt32','bool':'encBool','sint32':'encSint32','sint64':'encSint64','enum_or_unknown':'encInt32'}
def msgs(fn):
    L=[l.replace('::std::option::','').replace('::std::vec::','').replace('::std::string::','').replace('::protobuf::','') for l in open(SRC+fn).read().splitlines()]
    res=[]; i=0
    while i<len(L):
        m=re.match(r'pub struct (\w+) \{',L[i])
        if m:
            name=m[1]; s0=i+1; fields=[]; i+=1
            while L[i]!='}':
                f=re.match(r'    pub (\w+): (.*),$',L[i])
                if f and f[1]!='special_fields': fields.append((f[1],f[2]))
                i+=1
            s1=i+1
            d=dict(name=name,file=fn,struct=(s0,s1),fields=fields)
            while not L[i].startswith('impl Message for '+name): i+=1
            for key,pat in (('init','    fn is_initialized'),('merge','    fn merge_from'),('size','    fn compute_size'),('write','    fn write_to_with')):
                while not L[i].startswith(pat): i+=1
                a=i
                while L[i]!='    }': i+=1
                d[key]=(a+1,i+1,L[a:i+1])
            res.append(d)
        i+=1
    return res
M=msgs('fileformat.rs')+msgs('osmformat.rs')
byname={m['name']:m for m in M}
order=[]
def go(n):
    if n in order: return
    for _,t in byname[n]['fields']:
        x=re.search(r'(?:MessageField|Vec)<(\w+)>',t)
        if x and x[1] in byname: go(x[1])
    order.append(n)
for m in M: go(m['name'])
out='''import Verif.Lib.Protobuf
/-!
# Model: the generated message code (`src/stringpbf/fileformat.rs`, `src/stringpbf/osmformat.rs`)

`src/arcpbf` has identical copies of both files. Each message has `merge` (one round of the loop of `merge_from`), `isInitialized`,
`computeSize` (what it returns is also what `cached_size` holds, as a `u32`), `write` (`write_to_with_cached_sizes`),
`parseFromBytes` and `writeToBytes`. Unknown fields, which the code keeps and writes again but osmio never looks at, are dropped. `MessageField` is `Option`. Enum values are kept as numbers (`EnumOrUnknown`). Generated by `tools/genproto.py`.
-/

namespace Osmio.Proto

/-- What is written for an `int32` (sign extended to 64 bits); in every `write_to_with_cached_sizes` of `src/stringpbf/osmformat.rs` and `src/stringpbf/fileformat.rs`, for example `src/stringpbf/fileformat.rs:221-233`. -/
def encInt32 (x : Int32) : Nat := unsigned64 x.toInt
/-- What is written for an `int64`; in every `write_to_with_cached_sizes` of `src/stringpbf/osmformat.rs` and `src/stringpbf/fileformat.rs`, for example `src/stringpbf/fileformat.rs:221-233`. -/
def encInt64 (x : Int64) : Nat := unsigned64 x.toInt
/-- What is written for a `uint32`; in every `write_to_with_cached_sizes` of `src/stringpbf/osmformat.rs` and `src/stringpbf/fileformat.rs`, for example `src/stringpbf/fileformat.rs:221-233`. -/
def encUInt32 (x : UInt32) : Nat := x.toNat
/-- What is written for a `bool`; in every `write_to_with_cached_sizes` of `src/stringpbf/osmformat.rs` and `src/stringpbf/fileformat.rs`, for example `src/stringpbf/fileformat.rs:221-233`. -/
def encBool (x : Bool) : Nat := x.toNat
/-- What is written for a `sint32`; in every `write_to_with_cached_sizes` of `src/stringpbf/osmformat.rs` and `src/stringpbf/fileformat.rs`, for example `src/stringpbf/fileformat.rs:221-233`. -/
def encSint32 (x : Int32) : Nat := zigZag x.toInt
/-- What is written for a `sint64`; in every `write_to_with_cached_sizes` of `src/stringpbf/osmformat.rs` and `src/stringpbf/fileformat.rs`, for example `src/stringpbf/fileformat.rs:221-233`. -/
def encSint64 (x : Int64) : Nat := zigZag x.toInt

'''
szp='''import Verif.Proofs.ProtoLen
/-! # The computed size of a message is the number of bytes written (generated by `tools/genproto.py`) -/

namespace Osmio.Proto

'''
prf='''import Verif.Proofs.ProtoSize
/-! # Each message is what its encoding parses to (generated by `tools/genproto.py`) -/

namespace Osmio.Proto

'''
for n in order:
    m=byname[n]; fl=f"src/stringpbf/{m['file']}"
    out+=f"/-- `{fl}:{m['struct'][0]}-{m['struct'][1]}` -/\nstructure {n} where\n"
    for f,t in m['fields']:
        o=re.match(r'Option<(.*)>$',t); v=re.match(r'Vec<(.*)>$',t); mf=re.match(r'MessageField<(.*)>$',t)
        if o: lt=f"Option {TY[o[1]]}"; dv='none'
        elif mf: lt=f"Option {mf[1]}"; dv='none'
        else: lt=f"List {TY.get(v[1],v[1])}"; dv='[]'
        out+=f"  {camel(f)} : {lt} := {dv}\n"
    out+="  deriving DecidableEq\n\n"
    # init
    a,b,body=m['init']
    conds=[]
    txt='\n'.join(body)
    for x in re.finditer(r'if self\.(\w+)\.is_none\(\)|for v in &self\.(\w+)',txt):
        if x[1]: conds.append(f"m.{camel(x[1])}.isSome")
        else:
            f=x[2]; t=dict(m['fields'])[f]; mt=re.search(r'<(\w+)>',t)[1]
            conds.append(f"m.{camel(f)}.all {mt}.isInitialized")
    out+=f"/-- `{fl}:{a}-{b}` -/\ndef {n}.isInitialized ({'m' if conds else '_'} : {n}) : Bool := {' && '.join(conds) if conds else 'true'}\n"
    # merge
    a,b,body=m['merge']; txt='\n'.join(body)
    arms=[]
    for x in re.finditer(r'(\d+) => \{\s*(.*?)\s*\},',txt,re.S):
        tag=int(x[1]); c=x[2]
        if (y:=re.match(r'self\.(\w+) = Option::Some\(is\.read_(\w+)\(\)\?\);',c)):
            f,k=y[1],y[2]
            rd={'string':'f.string','bytes':'f.bytes'}.get(k) or f"f.num {DEC[k]}"
            arms.append((tag,f"({rd}).map fun v => {{ m with {camel(f)} := some v }}"))
        elif (y:=re.match(r'self\.(\w+)\.push\(is\.read_message\(\)\?\);',c)):
            f=y[1]; mt=re.search(r'<(\w+)>',dict(m['fields'])[f])[1]
            arms.append((tag,f"(f.message {mt}.merge {{}}).map fun v => {{ m with {camel(f)} := m.{camel(f)} ++ [v] }}"))
        elif (y:=re.match(r'self\.(\w+)\.push\(is\.read_(\w+)\(\)\?\);',c)):
            f,k=y[1],y[2]
            rd={'string':'f.string','bytes':'f.bytes'}.get(k) or f"f.num {DEC[k]}"
            arms.append((tag,f"({rd}).map fun v => {{ m with {camel(f)} := m.{camel(f)} ++ [v] }}"))
        elif (y:=re.match(r'is\.read_repeated_packed_(\w+)_into\(&mut self\.(\w+)\)\?;?|rt::read_repeated_packed_(\w+)_into\(is, &mut self\.(\w+)\)\?',c)):
            k,f=(y[1] or y[3]),(y[2] or y[4])
            arms.append((tag,f"(f.packed {DEC[k]}).map fun v => {{ m with {camel(f)} := m.{camel(f)} ++ v }}"))
        elif (y:=re.match(r'rt::read_singular_message_into_field\(is, &mut self\.(\w+)\)\?;',c)):
            f=y[1]; mt=re.search(r'<(\w+)>',dict(m['fields'])[f])[1]
            arms.append((tag,f"(f.message {mt}.merge {{}}).map fun v => {{ m with {camel(f)} := some v }}"))
        else: sys.exit('?? '+c)
    out+=f"/-- `{fl}:{a}-{b}` -/\ndef {n}.merge (m : {n}) (f : Field) : Option {n} :=\n"
    ma,mb=a,b
    m['arms']=arms
    for t,e in arms: out+=f"  if f.tag = {t} then {e} else\n"
    out+="  some m\n"
    # compute_size
    a,b,body=m['size']; txt='\n'.join(body)
    sz=[]; sizes=[]
    for x in re.finditer(r'if let Some\(v\) = self\.(\w+)(?:\.as_ref\(\))? \{\s*(.*?)\s*\}\n|for value in &self\.(\w+) \{\s*(.*?)\s*\};|my_size \+= rt::vec_packed_(\w+)_size\((\d+), &self\.(\w+)\);',txt,re.S):
        def onesz(c,f):
            c=c.replace('value','v').replace('&v','v')
            if (y:=re.match(r'my_size \+= rt::(\w+)_size\((\d+), v(?:\.value\(\))?\);$',c)):
                return f"{y[1]}Size {y[2]} v" if y[1] in ('string','bytes') else f"numSize {y[2]} ({ENC[y[1]]} v)"
            if (y:=re.match(r'my_size \+= (\d+) \+ (\d+);$',c)): return f"{y[1]} + {y[2]}"
            if (y:=re.match(r'let len = v\.compute_size\(\);\s*my_size \+= (\d+) \+ rt::compute_raw_varint64_size\(len\) \+ len;$',c)):
                return f"messageSize {y[1]} v.computeSize"
            sys.exit('s?? '+c)
        if x[1]: sz.append(f"optSize m.{camel(x[1])} (fun {'_' if 'size(' not in x[2] else 'v'} => {onesz(x[2],x[1])})"); sizes.append(x[1])
        elif x[3]: sz.append(f"repSize m.{camel(x[3])} (fun v => {onesz(x[4],x[3])})"); sizes.append(x[3])
        else: sz.append(f"packedSize {x[6]} {ENC[x[5]]} m.{camel(x[7])}"); sizes.append(x[7])
    assert len(sz)==txt.count('my_size +=')-1,(n,sz)
    out+=f"/-- `{fl}:{a}-{b}` -/\ndef {n}.computeSize (m : {n}) : Nat :=\n  "+" +\n  (".join(sz)+")"*(len(sz)-1)+"\n"
    # write
    a,b,body=m['write']; txt='\n'.join(body)
    parts=[]
    for x in re.finditer(r'if let Some\(v\) = self\.(\w+)(?:\.as_ref\(\))? \{\s*(.*?)\?;\s*\}|for v in &self\.(\w+) \{\s*(.*?)\?;\s*\};|os\.write_repeated_packed_(\w+)\((\d+), &self\.(\w+)\)\?;',txt,re.S):
        def one(c,f):
            if (y:=re.match(r'os\.write_(string|bytes)\((\d+), &?v\)',c)):
                return ('string' if y[1]=='string' else 'bytes',int(y[2]))
            if (y:=re.match(r'os\.write_(\w+)\((\d+), v\)',c)): return (y[1],int(y[2]))
            if (y:=re.match(r'rt::write_message_field_with_cached_size\((\d+), v, os\)',c)): return ('message',int(y[1]))
            sys.exit('w?? '+c)
        if x[1]: parts.append(('opt',x[1])+one(x[2],x[1]))
        elif x[3]: parts.append(('rep',x[3])+one(x[4],x[3]))
        else: parts.append(('packed',x[7],x[5],int(x[6])))
    def wr(k,num,f):
        if k=='string': return f"writeLen {num} (Utf8.encode v)"
        if k=='bytes': return f"writeLen {num} v"
        if k=='message':
            mt=re.search(r'<(\w+)>',dict(m['fields'])[f])[1]
            return f"writeMessage {num} v.computeSize v.write"
        return f"writeNum {num} ({ENC[k]} v)"
    ws=[]
    for kind,f,k,num in parts:
        if kind=='opt': ws.append(f"writeOpt m.{camel(f)} (fun v => {wr(k,num,f)})")
        elif kind=='rep': ws.append(f"m.{camel(f)}.flatMap (fun v => {wr(k,num,f)})")
        else: ws.append(f"writePacked {num} {ENC[k]} m.{camel(f)}")
    # nested appends to the right: w1 ++ (w2 ++ ..)
    out+=f"/-- `{fl}:{a}-{b}` -/\ndef {n}.write (m : {n}) : Bytes :=\n  "+" ++\n  (".join(ws)+")"*(len(ws)-1)+"\n"
    out+=f"/-- `Message::parse_from_bytes`: with the check for required fields; `{fl}:{ma}-{mb}`. -/\ndef {n}.parseFromBytes (bs : Bytes) : Option {n} :=\n  (parse {n}.merge {{}} bs).bind fun m => if m.isInitialized then some m else none\n"
    out+=f"/-- `Message::write_to_bytes`: the message must have its required fields and at most 2 GiB. The bytes go to a vector of the computed size,\nit is a panic (here `none` too) if there are more or less of them; `{fl}:{a}-{b}`. -/\ndef {n}.writeToBytes (m : {n}) : Option Bytes :=\n  if m.isInitialized = true ∧ m.computeSize ≤ 2147483647 ∧ m.write.length = m.computeSize then some m.write else none\n\n"
    # proof: size
    szp+=f"theorem {n}.size_eq (m : {n}) (h : m.computeSize < 2 ^ 32 ∨ m.write.length < 2 ^ 32) : m.computeSize = m.write.length := by\n"
    szp+=f"  simp only [{n}.computeSize, {n}.write, List.length_append] at h ⊢\n"
    for i,(kind,f,k,num) in enumerate(parts):
        assert sizes[i]==f
        if k=='message':
            mt=re.search(r'<(\w+)>',dict(m['fields'])[f])[1]
            q=f"fun v _ => messageSize_eq (by decide +kernel) ({mt}.size_eq v)"
        elif k=='string': q="fun v _ => stringSize_eq"
        elif k=='bytes': q="fun v _ => bytesSize_eq"
        elif k=='bool' and kind=='opt': q="fun v _ _ => by cases v <;> rfl"
        elif kind!='packed': q="fun v _ _ => numSize_eq"
        if kind=='opt': t=f"optSize_eq ({q})"
        elif kind=='rep': t=f"repSize_eq ({q})"
        else: t="packedSize_eq"
        if i<len(parts)-1: szp+=f"  refine sum_eq h ({t}) (fun h => ?_)\n"
        else: szp+=f"  exact {t} h\n"
    szp+="\n"
    # proof
    names=[camel(f) for f,_ in m['fields']]
    prf+=f"theorem {n}.parse_write (m : {n}) (h : m.write.length ≤ 2147483647) : parse {n}.merge {{}} m.write = some m := by\n"
    prf+=f"  obtain ⟨{', '.join(names)}⟩ := m\n  simp only [{n}.write, List.length_append] at h ⊢\n  refine Steps.parse ?_\n"
    done=[]
    for i,(kind,f,k,num) in enumerate(parts):
        F=camel(f)
        def state(extra,full=None):
            return "{ "+", ".join([f"{x} := {x}" for x in done]+[extra])+" }"
        last=i==len(parts)-1
        part=ws[i].replace('m.'+F,F)
        nxt=state(f"{F} := {F}")
        if not last: prf+=f"  refine Steps.trans (m' := ({nxt} : {n})) ?_ ?_\n"
        prf+=f"  · have hi : ({part}).length ≤ 2147483647 := by omega\n    clear h\n"
        arg={'string':'Utf8.encode v','bytes':'v','message':'v.write'}.get(k)
        wl=f"writeLen_length {num} ({arg})" if k!='message' else f"writeMessage_length {num} v.computeSize v.write"
        wf=f"writeLen {num} ({arg})" if k!='message' else f"writeMessage {num} v.computeSize v.write"
        conv=f"    rw [writeMessage_eq ({re.search(r'<(.*)>',dict(m['fields'])[f])[1]}.size_eq v (Or.inr (by omega)))]\n" if k=='message' else ''
        if k=='message':
            mt=re.search(r'<(\w+)>',dict(m['fields'])[f])[1]
            simp=f"[{n}.merge, Field.message, Field.bytes, {mt}.parse_write v hb]"
        elif k=='string': simp=f"[{n}.merge, Field.string, Field.bytes, Utf8.decode_encode]"
        elif k=='bytes': simp=f"[{n}.merge, Field.bytes]"
        else: simp=f"[{n}.merge, Field.num, Field.varint, {DEC[k]}_enc]"
        if kind=='opt':
            prf+="    refine Steps.opt (fun e => by subst e; rfl) (fun v e => ?_)\n    subst e\n"
            if arg:
                prf+=f"    have hb : ({arg}).length ≤ 2147483647 := by\n      have := {wl}\n      simp only [writeOpt] at hi\n      omega\n"+conv
                prf+=f"    exact Steps.len (k := {num}) (by simp {simp}) (by decide) hb\n"
            else:
                prf+=f"    exact Steps.num (k := {num}) (by simp {simp}) (by decide) ({ENC[k]}_lt v)\n"
        elif kind=='rep':
            prf+=f"    refine Steps.rep (put := fun l => ({state(F+' := l')} : {n})) (fun l' v hv => ?_)\n"
            prf+=f"    have hb : ({arg}).length ≤ 2147483647 := by\n      have h1 := {wl}\n      have h2 := flatMap_length_le (w := fun v => {wf}) hv\n      omega\n"+conv
            prf+=f"    exact Steps.len (k := {num}) (by simp {simp}) (by decide) hb\n"
        else:
            prf+=f"    exact Steps.packed {DEC[k]}_enc {ENC[k]}_lt (fun e => by subst e; rfl) (fun bs hb => by simp [{n}.merge, Field.packed, Field.bytes, hb]) (by decide) hi\n"
        done.append(F)
    prf+=f"""
theorem {n}.parse_writeToBytes {{m : {n}}} {{bs : Bytes}} (h : m.writeToBytes = some bs) : {n}.parseFromBytes bs = some m := by
  unfold {n}.writeToBytes at h
  split at h
  · rename_i h'
    cases h
    unfold {n}.parseFromBytes
    rw [{n}.parse_write m (by omega)]
    simp [h'.1]
  · cases h

"""
open('/verif/lean/Verif/Proofs/ProtoSize.lean','w').write(szp+"end Osmio.Proto\n")
open('/verif/lean/Verif/Proofs/ProtoMsg.lean','w').write(prf+"end Osmio.Proto\n")
open('/verif/lean/Verif/Model/Proto.lean','w').write(out+"end Osmio.Proto\n")

# ---- specification, from the .proto files
def proto(fn):
    t=open(SRC+fn).read()
    t=re.sub(r'/\*.*?\*/','',t,flags=re.S); t=re.sub(r'//[^\n]*','',t)
    res={}
    for m in re.finditer(r'message (\w+) \{(.*?)\n\}',t,re.S):
        body=re.sub(r'enum \w+ \{.*?\}','',m[2],flags=re.S)
        fs=[]
        for f in re.finditer(r'(required|optional|repeated)\s+(\w+)\s+(\w+)\s*=\s*(\d+)\s*(\[[^\]]*\])?\s*;',body):
            fs.append((f[1],f[2],f[3],int(f[4]),bool(f[5] and 'packed' in f[5] and 'true' in f[5])))
        res[m[1]]=fs
    return res
P={**proto('fileformat.proto'),**proto('osmformat.proto')}
assert set(P)==set(order),(set(P)^set(order))
NUM={'int32':'int32','int64':'int64','uint32':'uint32','bool':'bool','sint32':'sint32','sint64':'sint64','MemberType':'enum'}
def lname(f):
    return 'type_' if f=='type' else camel(f)
spec='''import Verif.Spec.Wire
import Verif.Model.Proto
/-!
# Specification: the encoding of the OSM PBF messages

Written from `src/stringpbf/fileformat.proto` and `src/stringpbf/osmformat.proto` by `tools/genproto.py`, one line for each line of a
message there: field number and type. The message types are those of `Verif.Model.Proto`, which come from the Rust code.
-/

namespace Osmio.Spec.Pbf

open Wire Proto

'''
props='''import Verif.Lib.StrLit
import Verif.Proofs.ProtoExtra
import Verif.Proofs.ProtoMsg
/-!
# C50: messages decode what was encoded (generated by `tools/genproto.py`)

`Spec.Pbf.encodeX` is the encoding of message `X` according to the `.proto` files; `X.parseFromBytes` is the generated Rust code.
-/

namespace Osmio

open Proto

'''
szx='''import Verif.Proofs.ProtoExtra
import Verif.Proofs.ProtoLenSpec
/-! # The computed size of a message is that of the specified encoding (generated by `tools/genproto.py`) -/

namespace Osmio.Proto

open Spec.Wire Spec.Pbf

'''
szq='''import Verif.Proofs.ProtoSizeSpec
/-!
# C73: the computed size of a message is the number of bytes written (generated by `tools/genproto.py`)

The generated code writes a message in two passes: the first computes the sizes of all nested messages, the second writes the bytes, with
the computed sizes as length prefixes. `Spec.Pbf.encodeX` is the encoding of message `X` according to the `.proto` files.
-/

namespace Osmio

open Proto

'''
extra='''import Verif.Proofs.Proto
import Verif.Spec.PbfSchema
/-! # The written form of a message is the specified one; more about merging (generated by `tools/genproto.py`) -/

namespace Osmio.Proto

open Spec.Wire Spec.Pbf

'''
for n in order:
    fs=P[n]; ws=[]; nums=[]
    for lab,ty,f,num,packed in fs:
        F=lname(f); nums.append(num)
        if ty in NUM:
            w=f"number {num} ({NUM[ty]} v)"; e=NUM[ty]
        elif ty=='string': w=f"delimited {num} (Utf8.encode v)"
        elif ty=='bytes': w=f"delimited {num} v"
        else: w=f"delimited {num} (encode{ty} v)"
        if lab!='repeated': ws.append(f"opt m.{F} (fun v => {w})")
        elif packed: ws.append(f"packed {num} {e} m.{F}")
        elif ty=='MemberType': ws.append(f"packed {num} {e} m.{F}")
        else: ws.append(f"rep m.{F} (fun v => {w})")
    spec+=f"/-- `message {n}` -/\ndef encode{n} (m : {n}) : List UInt8 :=\n  "+" ++\n  (".join(ws)+")"*(len(ws)-1)+"\n\n"
    spec+=f"/-- The required fields of `message {n}` are there. -/\ndef has{n} (m : {n}) : Prop :=\n  "
    req=[]
    for lab,ty,f,num,packed in fs:
        F=lname(f)
        if lab=='required': req.append(f"m.{F} ≠ none")
        if ty in P:
            req.append(f"(∀ v, {'v ∈ m.'+F if lab=='repeated' else 'm.'+F+' = some v'} → has{ty} v)")
    spec+=(" ∧ ".join(req) if req else "True")+"\n\n"
    if not req: spec=spec.replace(f"def has{n} (m : {n})",f"def has{n} (_ : {n})")
    # written = specified
    subs=[ty for lab,ty,f,num,packed in fs if ty in P]
    low=n[0].lower()+n[1:]
    extra+=f"theorem {n}.write_eq (m : {n}) (h : (encode{n} m).length ≤ 2147483647) : m.write = encode{n} m := by\n"
    extra+=f"  simp only [encode{n}, List.length_append] at h\n  simp only [{n}.write, encode{n}]\n"
    # one congr per part
    parts_=[]
    for lab,ty,f,num,packed in fs:
        F=lname(f)
        if ty in NUM:
            L={'int32':'encInt32_eq','int64':'encInt64_eq','uint32':'encUInt32_eq','bool':'encBool_eq','sint32':'encSint32_eq','sint64':'encSint64_eq','enum':'encEnum_eq'}[NUM[ty]]
            LT={'int32':'encInt32_lt','int64':'encInt64_lt','uint32':'encUInt32_lt','bool':'encBool_lt','sint32':'encSint32_lt','sint64':'encSint64_lt','enum':'encInt32_lt'}[NUM[ty]]
            if lab!='repeated': parts_.append(f"writeOpt_eq (fun v _ => by rw [writeNum_eq (by decide) ({LT} v), {L}])")
            else: parts_.append(f"writePacked_eq (by decide) {LT} {L} (by omega)")
        elif ty in ('string','bytes'):
            if lab!='repeated': parts_.append(f"writeOpt_eq (fun v e => writeLen_eq (by decide) (by have := optional_le e (fun v => delimited {num} {'(Utf8.encode v)' if ty=='string' else 'v'}); have := delimited_le {num} {'(Utf8.encode v)' if ty=='string' else 'v'}; omega))")
            else: parts_.append(f"writeRep_eq (fun v e => writeLen_eq (by decide) (by have := repeated_le e (fun v => delimited {num} {'(Utf8.encode v)' if ty=='string' else 'v'}); have := delimited_le {num} {'(Utf8.encode v)' if ty=='string' else 'v'}; omega))")
        else:
            q=f"(by have := {'optional_le' if lab!='repeated' else 'repeated_le'} e (fun v => delimited {num} (encode{ty} v)); have := delimited_le {num} (encode{ty} v); omega)"
            parts_.append(f"{'writeOpt_eq' if lab!='repeated' else 'writeRep_eq'} (fun v e => have hl : (encode{ty} v).length ≤ 2147483647 := {q}; by rw [writeMessage_eq ({ty}.size_eq v (Or.inr (by rw [{ty}.write_eq v hl]; omega))), {ty}.write_eq v hl, writeLen_eq (by decide) hl])")
    for i,p in enumerate(parts_):
        if i<len(parts_)-1: extra+=f"  refine congrArg₂ (· ++ ·) ({p}) ?_\n"
        else: extra+=f"  exact {p}\n"
    extra+="\n"
    # initialised
    extra+=f"theorem {n}.isInitialized_of (m : {n}) (h : has{n} m) : m.isInitialized = true := by\n"
    if not req: extra+="  rfl\n\n"
    else:
        pats=[]; 
        for k_,(lab,ty,f,num,packed) in enumerate(fs):
            if lab=='required': pats.append(f"r{num}")
            if ty in P: pats.append(f"s{num}")
        extra+=(f"  obtain ⟨{', '.join(pats)}⟩ := h\n" if len(pats)>1 else f"  have {pats[0]} := h\n")+f"  simp only [{n}.isInitialized, Bool.and_eq_true]\n"
        # order of conds in the code
        a,b,body=byname[n]['init']; txt='\n'.join(body); proofs=[]
        for x in re.finditer(r'if self\.(\w+)\.is_none\(\)|for v in &self\.(\w+)',txt):
            f=(x[1] or x[2]).rstrip('_')
            lab,ty,_,num,_=[y for y in fs if y[2]==f][0]
            if x[1]: proofs.append(f"isSome_of_ne r{num}")
            elif lab=='repeated': proofs.append(f"List.all_eq_true.2 fun v hv => {ty}.isInitialized_of v (s{num} v hv)")
            else: proofs.append(f"all_of_some fun v hv => {ty}.isInitialized_of v (s{num} v hv)")
        if not proofs: extra=extra[:extra.rindex("  have s")]+"  rfl\n\n"; proofs=None
    if req and proofs:
        t=proofs[0]
        for p in proofs[1:]: t=f"⟨{t}, {p}⟩"
        extra+=f"  exact {t}\n\n"
    # the converse, and the size
    szx+=f"theorem {n}.has_of (m : {n}) (h : m.isInitialized = true) : has{n} m := by\n"
    if not req: szx+="  trivial\n\n"
    else:
        a,b,body=byname[n]['init']; txt='\n'.join(body); chk=[]
        for x in re.finditer(r'if self\.(\w+)\.is_none\(\)|for v in &self\.(\w+)',txt): chk.append((x[1] or x[2]).rstrip('_')+('!' if x[1] else ''))
        pat=[f"h{i}" for i in range(len(chk))]
        if chk:
            szx+=f"  simp only [{n}.isInitialized, Bool.and_eq_true] at h\n"
            t=pat[0]
            for q in pat[1:]: t=f"⟨{t}, {q}⟩"
            szx+=f"  obtain {t} := h\n" if len(chk)>1 else f"  have h0 := h\n"
        items=[]
        for lab,ty,f,num,packed in fs:
            if lab=='required': items.append(f"ne_of_isSome h{chk.index(f+'!')}" if f+'!' in chk else 'missing')
            if ty in P:
                if f in chk:
                    items.append(f"fun v hv => {ty}.has_of v (List.all_eq_true.1 h{chk.index(f)} v hv)" if lab=='repeated' else f"fun v hv => {ty}.has_of v (some_of_all h{chk.index(f)} hv)")
                else: items.append(f"fun v _ => {ty}.has_of v rfl")
        szx+=(f"  exact ⟨{', '.join(items)}⟩\n\n" if len(items)>1 else f"  exact {items[0]}\n\n")
    szx+=f"theorem {n}.encode_size (m : {n}) (h : m.computeSize < 2 ^ 32 ∨ (encode{n} m).length < 2 ^ 32) : m.computeSize = (encode{n} m).length := by\n"
    szx+=f"  simp only [{n}.computeSize, encode{n}, List.length_append] at h ⊢\n"
    for i,(lab,ty,f,num,packed) in enumerate(fs):
        if ty in P: q=f"fun v _ => messageSize_eq' (by decide +kernel) ({ty}.encode_size v)"
        elif ty=='string': q="fun v _ => stringSize_eq'"
        elif ty=='bytes': q="fun v _ => bytesSize_eq'"
        elif ty in NUM:
            k={'MemberType':'enum_or_unknown'}.get(ty,ty)
            LEM={'int32':'encInt32_eq','int64':'encInt64_eq','uint32':'encUInt32_eq','bool':'encBool_eq','sint32':'encSint32_eq','sint64':'encSint64_eq','enum':'encEnum_eq'}[NUM[ty]]
            q=f"fun v _ _ => numSize_eq' (by decide) ({ENC[k]}_lt v) ({LEM} v)" if ty!='bool' else f"fun v _ _ => (show 1 + 1 = numSize {num} (encBool v) by cases v <;> rfl).trans (numSize_eq' (by decide) (encBool_lt v) (encBool_eq v))"
        if lab!='repeated': t=f"optSize_eq' ({q})"
        elif ty in NUM: t=f"packedSize_eq' (by decide) {ENC[k]}_lt {LEM}"
        else: t=f"repSize_eq' ({q})"
        if i<len(fs)-1: szx+=f"  refine sum_eq h ({t}) (fun h => ?_)\n"
        else: szx+=f"  exact {t} h\n"
    szx+="\n"
    szq+=f'''/-- **C73.** The size computed for a message before it is written is the number of bytes of its encoding. -/
theorem C73_{low}_size (m : {n}) (h : (Spec.Pbf.encode{n} m).length < 2 ^ 32) : m.computeSize = (Spec.Pbf.encode{n} m).length :=
  m.encode_size (Or.inr h)

/-- **C73.** Written are exactly the messages that have their required fields and no more than 2 GiB, as specified. -/
theorem C73_{low}_written (m : {n}) (bs : List UInt8) :
    m.writeToBytes = some bs ↔ Spec.Pbf.has{n} m ∧ (Spec.Pbf.encode{n} m).length ≤ 2147483647 ∧ bs = Spec.Pbf.encode{n} m :=
  written_iff m.write_eq m.size_eq m.encode_size ⟨m.has_of, m.isInitialized_of⟩

'''
    # unknown fields
    extra+=f"theorem {n}.merge_unknown (m : {n}) (f : Field) (h : f.tag / 8 ∉ {nums}) : {n}.merge m f = some m := by\n"
    extra+=f"  simp only [List.mem_cons, List.not_mem_nil, or_false, not_or] at h\n  unfold {n}.merge\n"
    extra+=f"  rw ["+", ".join(["if_neg (by omega)"]*len(byname[n]['arms']))+"]\n\n"
    for lab,ty,f,num,packed in fs:
        F=lname(f); t=dict(byname[n]['fields'])[{'type':'type_'}.get(f,f)]
        o=re.match(r'Option<(.*)>$',t); v=re.match(r'Vec<(.*)>$',t); mf=re.match(r'MessageField<(.*)>$',t)
        if v:
            lt=f"List {TY.get(v[1],v[1])}"; U=lambda x: f"{{ {x} with {F} := {x}.{F} ++ v }}"
        else:
            lt=f"Option {TY[o[1]] if o else mf[1]}"; U=lambda x: f"{{ {x} with {F} := v }}"
        extra+=f"theorem {n}.merge_{F} (m : {n}) (g : Field) (h : g.tag / 8 ≠ {num}) (v : {lt}) :\n    {n}.merge {U('m')} g = ({n}.merge m g).map fun m' => {U(chr(109)+chr(39))} := by\n"
        for i,(tag,e) in enumerate(byname[n]['arms']):
            extra+=f"  by_cases h{i} : g.tag = {tag}\n"
            if tag//8==num: extra+="  · omega\n"; continue
            e=e.replace('fun v =>','fun w =>').replace('some v','some w').replace('[v]','[w]').replace('++ v','++ w').replace('f.','g.')
            extra+=f"  · have e : ∀ m, {n}.merge m g = {e} := fun m => by\n      unfold {n}.merge\n      rw ["+"if_neg (by omega), "*i+f"if_pos h{i}]\n    rw [e, e, Option.map_map]\n    rfl\n"
        extra+=f"  have e : ∀ m, {n}.merge m g = some m := fun m => by\n    unfold {n}.merge\n    rw ["+", ".join(f"if_neg h{i}" for i in range(len(byname[n]['arms'])))+f"]\n  rw [e, e]\n  rfl\n\n"
    extra+=f"theorem {n}.merge_comm (m : {n}) (f g : Field) (h : f.tag / 8 ≠ g.tag / 8) :\n    ({n}.merge m f).bind (fun m => {n}.merge m g) = ({n}.merge m g).bind (fun m => {n}.merge m f) := by\n"
    for i,(tag,e) in enumerate(byname[n]['arms']):
        F=re.search(r'm with (\w+) :=',e)[1]
        extra+=f"  by_cases h{i} : f.tag = {tag}\n  · have e : ∀ m, {n}.merge m f = {e} := fun m => by\n      unfold {n}.merge\n      rw ["+"if_neg (by omega), "*i+f"if_pos h{i}]\n    simp only [e]\n    exact merge_comm_of (m := m) (up := fun v (m : {n}) => {e.split('fun v => ')[1]}) (fun v => {n}.merge_{F} m g (by omega) _)\n"
    extra+=f"  have e : ∀ m, {n}.merge m f = some m := fun m => by\n    unfold {n}.merge\n    rw ["+", ".join(f"if_neg h{i}" for i in range(len(byname[n]['arms'])))+f"]\n  simp only [e, Option.bind_some]\n  cases {n}.merge m g <;> rfl\n\n"
    # props
    props+=f'''/-- **C50.** The specified encoding of a message with its required fields parses to that message (a message has at most 2 GiB). -/
theorem C50_{low}_roundtrip (m : {n}) (h : Spec.Pbf.has{n} m) (hl : (Spec.Pbf.encode{n} m).length ≤ 2147483647) :
    {n}.parseFromBytes (Spec.Pbf.encode{n} m) = some m :=
  {n}.parse_writeToBytes (by
    unfold {n}.writeToBytes
    have e := m.write_eq hl
    have hs := m.size_eq (Or.inr (by rw [e]; omega))
    rw [if_pos ⟨m.isInitialized_of h, by rw [hs, e]; exact hl, hs.symm⟩, e])

/-- **C50.** Fields that are not in the message's definition are skipped, between any two fields. -/
theorem C50_{low}_unknown (pre post u : Bytes) (fs : List Field) (f : Field) (hp : readFields pre = some fs)
    (hu : readField u = some (f, [])) (hf : f.tag / 8 ∉ {nums}) :
    {n}.parseFromBytes (pre ++ u ++ post) = {n}.parseFromBytes (pre ++ post) := by
  unfold {n}.parseFromBytes
  rw [parse_unknown (fun m => {n}.merge_unknown m f hf) hp hu]

/-- **C50.** The order of two fields with different numbers does not matter. -/
theorem C50_{low}_order (pre post x y : Bytes) (fs : List Field) (f g : Field) (hp : readFields pre = some fs)
    (hx : readField x = some (f, [])) (hy : readField y = some (g, [])) (hn : f.tag / 8 ≠ g.tag / 8) :
    {n}.parseFromBytes (pre ++ x ++ y ++ post) = {n}.parseFromBytes (pre ++ y ++ x ++ post) := by
  unfold {n}.parseFromBytes
  rw [parse_swap (fun m => {n}.merge_comm m f g hn) hp hx hy]

'''
    for lab,ty,f,num,packed in fs:
        if lab=='repeated' and ty in NUM:
            F=lname(f); k={'MemberType':'enum_or_unknown'}.get(ty,ty)
            LEM={'int32':'encInt32_eq','int64':'encInt64_eq','uint32':'encUInt32_eq','bool':'encBool_eq','sint32':'encSint32_eq','sint64':'encSint64_eq','enum':'encEnum_eq'}[NUM[ty]]
            extra+=f'''theorem {n}.unpacked_{F} (m : {n}) (l : List {re.search('<(.*)>',dict(byname[n]['fields'])[f])[1] and TY[re.search('<(.*)>',dict(byname[n]['fields'])[f])[1]]}) :
    Steps {n}.merge m (rep l (fun v => number {num} ({NUM[ty]} v))) {{ m with {F} := m.{F} ++ l }} := by
  refine Steps.rep' (m := m) (put := fun l => {{ m with {F} := m.{F} ++ l }}) (by simp) (fun l' v => ?_)
  rw [← {LEM}, ← writeNum_eq (by decide) ({ENC[k]}_lt v)]
  exact Steps.num (by simp [{n}.merge, Field.num, Field.varint, {DEC[k]}_enc]) (by decide) ({ENC[k]}_lt v)

theorem {n}.packed_{F} (m : {n}) (l : List {TY[re.search('<(.*)>',dict(byname[n]['fields'])[f])[1]]}) (h : (packed {num} {NUM[ty]} l).length ≤ 2147483647) :
    Steps {n}.merge m (packed {num} {NUM[ty]} l) {{ m with {F} := m.{F} ++ l }} := by
  rw [← writePacked_eq (by decide) {ENC[k]}_lt {LEM} h]
  refine Steps.packed {DEC[k]}_enc {ENC[k]}_lt (fun e => by subst e; simp) (fun bs hb => by simp [{n}.merge, Field.packed, Field.bytes, hb]) (by decide) ?_
  rw [writePacked_eq (by decide) {ENC[k]}_lt {LEM} h]
  exact h

'''
            props+=f'''/-- **C50.** The numbers of `{f}` can be packed or not; both are the same to a reader, wherever they are. -/
theorem C50_{low}_{F}_unpacked (pre post : Bytes) (l : List {TY[re.search('<(.*)>',dict(byname[n]['fields'])[f])[1]]}) (fs : List Field)
    (hp : readFields pre = some fs) (hl : (Spec.Wire.packed {num} Spec.Wire.{NUM[ty]} l).length ≤ 2147483647) :
    {n}.parseFromBytes (pre ++ Spec.Wire.rep l (fun v => Spec.Wire.number {num} (Spec.Wire.{NUM[ty]} v)) ++ post) =
      {n}.parseFromBytes (pre ++ Spec.Wire.packed {num} Spec.Wire.{NUM[ty]} l ++ post) := by
  unfold {n}.parseFromBytes
  rw [parse_same (fun m => {n}.unpacked_{F} m l) (fun m => {n}.packed_{F} m l hl) hp]

'''
open('/verif/lean/Verif/Spec/PbfSchema.lean','w').write(spec+"end Osmio.Spec.Pbf\n")
open('/verif/lean/Verif/Proofs/ProtoExtra.lean','w').write(extra.replace("import Verif.Proofs.Proto\n","import Verif.Proofs.ProtoWire\nimport Verif.Proofs.ProtoSize\n")+"end Osmio.Proto\n")
ex=open('/verif/tools/proto_examples.txt').read()
open('/verif/lean/Verif/Props/Proto.lean','w').write(props+ex+"end Osmio\n")
open('/verif/lean/Verif/Proofs/ProtoSizeSpec.lean','w').write(szx+"end Osmio.Proto\n")
ex=open('/verif/tools/protosize_examples.txt').read()
open('/verif/lean/Verif/Props/ProtoSize.lean','w').write(szq+ex+"end Osmio\n")
