#!/usr/bin/env python3
"""Generate the Lean models of the three families of object types, with line citations taken from the
Rust sources. The bodies below were written by reading the Rust functions; this script only fills in the
family name and looks up the line numbers."""
import re, sys
REPO = "/repo/src/obj_types/"

def lines_of(path):
    return open(path).read().split("\n")

def find_block(L, start):
    depth = 0; seen = False
    for i in range(start, len(L)):
        depth += L[i].count("{") - L[i].count("}")
        if "{" in L[i]: seen = True
        if seen and depth == 0:
            return i
    raise SystemExit("unterminated")

def cites(fname):
    L = lines_of(REPO + fname)
    out = {}
    for i, l in enumerate(L):
        m = re.match(r"impl (?:(\S+) for )?(\S+) \{", l)
        m2 = re.match(r"impl (From<\w+>) for (\S+) \{", l)
        ms = re.match(r"pub (?:struct|enum) (\w+)", l)
        if ms:
            j = find_block(L, i)
            k = i
            while k > 0 and L[k-1].startswith("#["): k -= 1
            out[ms.group(1)] = (k+1, j+1)
        if m:
            j = find_block(L, i)
            out[(m.group(1), m.group(2))] = (i+1, j+1)
            k = i + 1
            while k < j:
                f = re.match(r"    fn (\w+)", L[k])
                if f:
                    e = find_block(L, k)
                    out[(m.group(1), m.group(2), f.group(1))] = (k+1, e+1)
                    k = e
                k += 1
    return out

BASE = [("id", "id", None), ("version", "version", None), ("deleted", "deleted", None),
        ("changeset_id", "changesetId", None), ("timestamp", "timestamp", None), ("uid", "uid", None),
        ("user", "user", None)]
TY = {"id": "ObjId", "version": "Option UInt32", "deleted": "Bool", "changesetId": "Option UInt32",
      "timestamp": "Option TimestampFormat", "uid": "Option UInt32", "user": "Option Str"}
SET = {"id": "setId", "version": "setVersion", "deleted": "setDeleted", "changesetId": "setChangesetId",
       "timestamp": "setTimestamp", "uid": "setUid", "user": "setUser"}

def gen(fam, fname):
    C = cites(fname)
    path = "src/obj_types/" + fname
    def c(*key):
        a, b = C[key] if len(key) > 1 else C[key[0]]
        return f"/-- `{path}:{a}-{b}` -/"
    opt = fam != "String"
    o = []
    o.append("import Verif.Model.TagList")
    kind = {"String": "inline or heap strings (`SmolStr`), small vectors", "Arc": "`Arc<str>` strings",
            "Rc": "`Rc<str>` strings"}[fam]
    o.append(f"""/-!
# Model: `{path}`

{kind}: all are `Str` here, and `Vec`/`SmallVec` are lists. Generated by `tools/gentypes.py`.
-/

namespace Osmio
""")
    payload = {"Node": [("latLon", "Option (Lat × Lon)")], "Way": [("nodes", "List ObjId")],
               "Relation": [("members", "List (OSMObjectType × ObjId × Str)")]}
    for K in ("Node", "Way", "Relation"):
        T = fam + K
        o.append(c(T))
        o.append(f"structure {T} where")
        for _, n, _ in BASE:
            o.append(f"  {n}_ : {TY[n]}")
        o.append("  tags_ : " + ("Option (List (Str × Str))" if opt and K == "Node" else "List (Str × Str)"))
        for n, t in payload[K]:
            o.append(f"  {n}_ : {t}")
        o.append("  deriving DecidableEq\n")
    O = fam + "OSMObj"
    o.append(c(O))
    o.append(f"inductive {O} where")
    for K in ("Node", "Way", "Relation"):
        o.append(f"  | {K.lower()} (x : {fam}{K})")
    o.append("  deriving DecidableEq\n")
    for K in ("Node", "Way", "Relation"):
        T = fam + K
        I = ("OSMObjBase", T)
        o.append(f"namespace {T}")
        for r, n, _ in BASE:
            o.append(c(*I, r)); o.append(f"def {n} (x : {T}) : {TY[n]} := x.{n}_")
        for r, n, _ in BASE:
            o.append(c(*I, "set_" + r))
            o.append(f"def {SET[n]} (x : {T}) (v : {TY[n]}) : {T} := {{ x with {n}_ := v }}")
        if opt and K == "Node":
            o.append(c(*I, "tags"))
            o.append(f"def tags (x : {T}) : List (Str × Str) :=\n  match x.tags_ with\n  | none => []\n  | some t => t")
            o.append(c(*I, "tag"))
            o.append(f"def tag (x : {T}) (key : Str) : Option Str :=\n  match x.tags_ with\n  | none => none\n  | some t => TagList.get t key")
            o.append(c(*I, "set_tag"))
            o.append(f"def setTag (x : {T}) (key value : Str) : {T} :=\n  match x.tags_ with\n  | none => {{ x with tags_ := some [(key, value)] }}\n  | some t =>\n    match TagList.idx t key with\n    | none => {{ x with tags_ := some (t ++ [(key, value)]) }}\n    | some i => {{ x with tags_ := some (t.set i (key, value)) }}")
            o.append(c(*I, "unset_tag"))
            o.append(f"def unsetTag (x : {T}) (key : Str) : {T} :=\n  match x.tags_ with\n  | none => x\n  | some t =>\n    match TagList.idx t key with\n    | none => x\n    | some i => {{ x with tags_ := some (t.eraseIdx i) }}")
        else:
            o.append(c(*I, "tags"))
            o.append(f"def tags (x : {T}) : List (Str × Str) := x.tags_")
            o.append(c(*I, "tag"))
            o.append(f"def tag (x : {T}) (key : Str) : Option Str := TagList.get x.tags_ key")
            o.append(c(*I, "set_tag"))
            o.append(f"def setTag (x : {T}) (key value : Str) : {T} :=\n  match TagList.idx x.tags_ key with\n  | none => {{ x with tags_ := x.tags_ ++ [(key, value)] }}\n  | some i => {{ x with tags_ := x.tags_.set i (key, value) }}")
            o.append(c(*I, "unset_tag"))
            o.append(f"def unsetTag (x : {T}) (key : Str) : {T} :=\n  match TagList.idx x.tags_ key with\n  | none => x\n  | some i => {{ x with tags_ := x.tags_.eraseIdx i }}")
        o.append(c(*I, "object_type"))
        o.append(f"def objectType (_ : {T}) : OSMObjectType := .{K.lower()}")
        o.append("")
        o.append(c(*I))
        o.append(f"instance : OSMObjBase {T} where")
        for _, n, _ in BASE:
            o.append(f"  {n} := {n}\n  {SET[n]} := {SET[n]}")
        o.append("  tags := tags\n  tag := tag\n  setTag := setTag\n  unsetTag := unsetTag\n  objectType := objectType\n")
        J = (K, T)
        if K == "Node":
            o.append(c(*J, "lat_lon")); o.append(f"def latLon (x : {T}) : Option (Lat × Lon) := x.latLon_")
            o.append(c(*J, "set_lat_lon_direct")); o.append(f"def setLatLonDirect (x : {T}) (loc : Option (Lat × Lon)) : {T} := {{ x with latLon_ := loc }}")
            o.append(c(*J)); o.append(f"instance : NodeT {T} where\n  latLon := latLon\n  setLatLonDirect := setLatLonDirect")
        elif K == "Way":
            o.append(c(*J, "nodes")); o.append(f"def nodes (x : {T}) : List ObjId := x.nodes_")
            o.append(c(*J, "num_nodes")); o.append(f"def numNodes (x : {T}) : Nat := x.nodes_.length")
            o.append(c(*J, "node")); o.append(f"def node (x : {T}) (idx : Nat) : Option ObjId := x.nodes_[idx]?")
            o.append(c(*J, "set_nodes")); o.append(f"def setNodes (x : {T}) (ns : List ObjId) : {T} := {{ x with nodes_ := ns }}")
            o.append(c(*J)); o.append(f"instance : WayT {T} where\n  nodes := nodes\n  numNodes := numNodes\n  node := node\n  setNodes := setNodes")
        else:
            o.append(c(*J, "members")); o.append(f"def members (x : {T}) : List (OSMObjectType × ObjId × Str) := x.members_.map (fun (t, i, r) => (t, i, r))")
            o.append(c(*J, "set_members")); o.append(f"def setMembers (x : {T}) (ms : List (OSMObjectType × ObjId × Str)) : {T} :=\n  {{ x with members_ := ms.map (fun (t, i, r) => (t, i, r)) }}")
            o.append(c(*J)); o.append(f"instance : RelationT {T} where\n  members := members\n  setMembers := setMembers")
        o.append(f"end {T}\n")
    o.append(f"namespace {O}")
    I = ("OSMObjBase", O)
    for r, n, _ in BASE:
        o.append(c(*I, r))
        o.append(f"def {n} : {O} → {TY[n]}\n  | .node x => x.{n}\n  | .way x => x.{n}\n  | .relation x => x.{n}")
    for r, n, _ in BASE:
        o.append(c(*I, "set_" + r))
        o.append(f"def {SET[n]} (o : {O}) (v : {TY[n]}) : {O} :=\n  match o with\n  | .node x => .node (x.{SET[n]} v)\n  | .way x => .way (x.{SET[n]} v)\n  | .relation x => .relation (x.{SET[n]} v)")
    o.append(c(*I, "tags")); o.append(f"def tags : {O} → List (Str × Str)\n  | .node x => x.tags\n  | .way x => x.tags\n  | .relation x => x.tags")
    o.append(c(*I, "tag")); o.append(f"def tag (o : {O}) (key : Str) : Option Str :=\n  match o with\n  | .node x => x.tag key\n  | .way x => x.tag key\n  | .relation x => x.tag key")
    if opt:
        o.append(c(*I, "num_tags")); o.append(f"def numTags : {O} → Nat\n  | .node x => (match x.tags_ with | none => 0 | some t => t.length)\n  | .way x => x.tags_.length\n  | .relation x => x.tags_.length")
        o.append(c(*I, "untagged")); o.append(f"def untagged : {O} → Bool\n  | .node x => (match x.tags_ with | none => true | some t => t.isEmpty)\n  | .way x => x.tags_.isEmpty\n  | .relation x => x.tags_.isEmpty")
    o.append(c(*I, "set_tag")); o.append(f"def setTag (o : {O}) (key value : Str) : {O} :=\n  match o with\n  | .node x => .node (x.setTag key value)\n  | .way x => .way (x.setTag key value)\n  | .relation x => .relation (x.setTag key value)")
    o.append(c(*I, "unset_tag")); o.append(f"def unsetTag (o : {O}) (key : Str) : {O} :=\n  match o with\n  | .node x => .node (x.unsetTag key)\n  | .way x => .way (x.unsetTag key)\n  | .relation x => .relation (x.unsetTag key)")
    o.append(c(*I, "object_type")); o.append(f"def objectType : {O} → OSMObjectType\n  | .node _ => .node\n  | .way _ => .way\n  | .relation _ => .relation")
    o.append("")
    o.append(c(*I)); o.append(f"instance : OSMObjBase {O} where")
    for _, n, _ in BASE:
        o.append(f"  {n} := {n}\n  {SET[n]} := {SET[n]}")
    o.append("  tags := tags\n  tag := tag" + ("\n  numTags := numTags\n  untagged := untagged" if opt else "") + "\n  setTag := setTag\n  unsetTag := unsetTag\n  objectType := objectType\n")
    J = ("OSMObj", O)
    for K in ("Node", "Way", "Relation"):
        o.append(c(*J, "into_" + K.lower())); o.append(f"def into{K} : {O} → Option {fam}{K}\n  | .{K.lower()} x => some x\n  | _ => none")
    for K in ("Node", "Way", "Relation"):
        o.append(c(*J, "as_" + K.lower())); o.append(f"def as{K} : {O} → Option {fam}{K}\n  | .{K.lower()} x => some x\n  | _ => none")
    for K in ("Node", "Way", "Relation"):
        o.append(c(*J, "as_" + K.lower() + "_mut")); o.append(f"def as{K}Mut : {O} → Option ({fam}{K} × ({fam}{K} → {O}))\n  | .{K.lower()} x => some (x, .{K.lower()})\n  | _ => none")
    o.append("")
    o.append(c(*J)); o.append(f"instance : OSMObjT {O} {fam}Node {fam}Way {fam}Relation where")
    for K in ("Node", "Way", "Relation"):
        o.append(f"  into{K} := into{K}\n  as{K} := as{K}\n  as{K}Mut := as{K}Mut")
    o.append(f"end {O}\n")
    o.append("end Osmio")
    open(f"/verif/lean/Verif/Model/{fam}Types.lean", "w").write("\n".join(o) + "\n")

gen("String", "string_types.rs"); gen("Arc", "arc_types.rs"); gen("Rc", "rc_types.rs")
