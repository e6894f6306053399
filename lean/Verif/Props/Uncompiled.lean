import Verif.Proofs.OplExact
import Verif.Proofs.NodeStore
import Verif.Proofs.NodeChain
/-!
# Properties of modules that are not compiled: OPL text, node store, node chains

`src/opl/mod.rs`, `src/nodestore.rs` and `src/nodechain.rs` are in the repository but not in the crate.
-/

namespace Osmio
open Spec

/-! ## C58: OPL text round trips -/

/-- **C58** for strings without a percent sign: they come back. (With one they do not, see `C58_fails`.) -/
theorem C58_partial {s : Str} (h : '%' ∉ s) : Opl.decodeString (Opl.encodeString s) = some s := Opl.decode_encode h

example : Opl.decodeString (Opl.encodeString (str% "a b,ü=@\n")) = some (str% "a b,ü=@\n") := C58_partial (by decide)

/-- The full **C58** is false: what follows a percent sign is lost, without an error. -/
theorem C58_fails {a b : Str} (ha : '%' ∉ a) (hb : ∀ c ∈ b, c ∉ [' ', '\n', ',', '=', '@', '%']) :
    Opl.decodeString (Opl.encodeString (a ++ '%' :: b)) = some a := by
  have hb' : Opl.encodeString b = b := Opl.encodeString_plain fun c hc hs => by
    have := hb c hc
    rcases hs with h | h | h | h | h <;> exact this (by simp [h])
  have he : Opl.encodeString (a ++ '%' :: b) = Opl.encodeString a ++ '%' :: b := by
    rw [Opl.encodeString_append, Opl.encodeString_cons, hb']
    rfl
  rw [he, Opl.decodeString, Opl.decodeFrom_encode ha]
  show (Opl.decodeFrom (some []) b).map (a ++ ·) = _
  rw [Opl.decodeFrom_some fun hm => hb _ hm (by simp)]
  simp

example : Opl.decodeString (Opl.encodeString (str% "100%")) ≠ some (str% "100%") := by decide

/-- **C58, exactly**: the strings that come back are those without a percent sign. -/
theorem C58_iff (s : Str) : Opl.decodeString (Opl.encodeString s) = some s ↔ '%' ∉ s := Opl.decode_encode_iff s

/-- **C58**, the purpose of the escapes: for every string, the text has none of the characters that separate fields, tags, keys and members. -/
theorem C58_separators (s : Str) : ∀ c ∈ Opl.encodeString s, c ∉ [' ', '\n', ',', '=', '@'] := by
  intro c hc hm
  refine Opl.encodeString_chars hc ?_
  simpa [Opl.Special] using hm

/-- **C58** for the tags of an object (a map: no key twice). -/
theorem C58_tags_partial {tags : List (Str × Str)} (hd : (tags.map Prod.fst).Nodup) (hp : ∀ kv ∈ tags, '%' ∉ kv.1 ∧ '%' ∉ kv.2) :
    Opl.decodeTags (Opl.encodeTags tags) = .ok (some tags) := by
  by_cases hn : tags = []
  · subst hn; rfl
  · have hl : tags.map (fun kv => Opl.encodeString kv.1 ++ '=' :: Opl.encodeString kv.2) ≠ [] := by simpa using hn
    have hc := Opl.encodeTags_comma tags
    rw [Opl.decodeTags, if_neg, Opl.encodeTags, Opl.split_join hl hc]
    · exact Opl.decodePairs_encode [] tags (by simpa using hd) hp
    · refine Opl.join_ne_nil hl ?_
      intro s hs
      obtain ⟨kv, _, rfl⟩ := List.mem_map.mp hs
      simp

example : Opl.decodeTags (Opl.encodeTags [(str% "name", str% "a=b, c"), (str% "", str% "x")]) =
    .ok (some [(str% "name", str% "a=b, c"), (str% "", str% "x")]) := C58_tags_partial (by decide) (by decide)

/-- **C58, exactly**, for the tags of an object. -/
theorem C58_tags_iff {tags : List (Str × Str)} (hd : (tags.map Prod.fst).Nodup) :
    Opl.decodeTags (Opl.encodeTags tags) = .ok (some tags) ↔ ∀ kv ∈ tags, '%' ∉ kv.1 ∧ '%' ∉ kv.2 := by
  refine ⟨fun h => ?_, C58_tags_partial hd⟩
  by_contra hc
  have hc' : ∃ kv ∈ tags, '%' ∈ kv.1 ∨ '%' ∈ kv.2 := by
    simp only [not_forall] at hc
    obtain ⟨kv, hm, hp⟩ := hc
    refine ⟨kv, hm, ?_⟩
    by_contra hn
    exact hp ⟨fun h1 => hn (Or.inl h1), fun h2 => hn (Or.inr h2)⟩
  have hn : tags ≠ [] := fun e => by subst e; obtain ⟨_, hm, _⟩ := hc'; cases hm
  have hl : tags.map (fun kv => Opl.encodeString kv.1 ++ '=' :: Opl.encodeString kv.2) ≠ [] := by simpa using hn
  rw [Opl.decodeTags, if_neg, Opl.encodeTags, Opl.split_join hl (Opl.encodeTags_comma tags)] at h
  · have := (Opl.decodePairs_weight h).2 hc'
    rw [show Opl.tagWeight [] = 0 from rfl] at this
    omega
  · refine Opl.join_ne_nil hl ?_
    intro s hs
    obtain ⟨kv, _, rfl⟩ := List.mem_map.mp hs
    simp

/-- **C58** for the nodes of a way with at least one node. -/
theorem C58_way_nodes_partial {nodes : List Int64} (h : nodes ≠ []) : Opl.decodeWayNodes (Opl.encodeWayNodes nodes) = some nodes := by
  rw [Opl.decodeWayNodes, Opl.encodeWayNodes, Opl.split_join (by simpa using h)]
  · exact Opl.decodeIds_encode nodes
  · intro s hs hm
    obtain ⟨n, _, rfl⟩ := List.mem_map.mp hs
    rcases List.mem_cons.mp hm with hm | hm
    · exact absurd hm (by decide)
    · exact (Opl.i64Str_chars n _ hm).1 rfl

example : Opl.decodeWayNodes (Opl.encodeWayNodes [1, -5, 1]) = some [1, -5, 1] := C58_way_nodes_partial (by decide)

/-- A way without nodes is an error. -/
theorem C58_way_nodes_fails : Opl.decodeWayNodes (Opl.encodeWayNodes []) = none := by decide

/-- **C58** for the members of a relation, if there is one and roles have no comma (roles are not escaped). -/
theorem C58_members_partial {members : List (Char × Int64 × Str)} (h : members ≠ [])
    (hm : ∀ m ∈ members, m.1 ∈ ['n', 'w', 'r'] ∧ ',' ∉ m.2.2) : Opl.decodeMembers (Opl.encodeMembers members) = .ok (some members) := by
  have ht : ∀ m ∈ members, m.1.toNat < 128 ∧ m.1 ≠ ',' := by
    intro m hmem
    have := (hm m hmem).1
    simp only [List.mem_cons, List.not_mem_nil, or_false] at this
    rcases this with e | e | e <;> (rw [e]; decide)
  rw [Opl.decodeMembers, Opl.encodeMembers, Opl.split_join (by simpa using h)]
  · exact Opl.decodeMemberList_encode fun m hmem => (ht m hmem).1
  · intro s hs hc
    obtain ⟨m, hmem, rfl⟩ := List.mem_map.mp hs
    simp only [List.mem_cons, List.mem_append] at hc
    rcases hc with hc | hc | hc | hc
    · exact (ht m hmem).2 hc.symm
    · exact (Opl.i64Str_chars _ _ hc).1 rfl
    · exact absurd hc (by decide)
    · exact (hm m hmem).2 hc

example : Opl.decodeMembers (Opl.encodeMembers [('n', 1, str% "stop"), ('w', -2, str% "")]) =
    .ok (some [('n', 1, str% "stop"), ('w', -2, str% "")]) := C58_members_partial (by decide) (by decide)

/-- **C58, exactly**, for the members of a relation: there is one, and roles have no comma. -/
theorem C58_members_iff {members : List (Char × Int64 × Str)} (ht : ∀ m ∈ members, m.1 ∈ ['n', 'w', 'r']) :
    Opl.decodeMembers (Opl.encodeMembers members) = .ok (some members) ↔ members ≠ [] ∧ ∀ m ∈ members, ',' ∉ m.2.2 := by
  constructor
  · intro h
    have hn : members ≠ [] := fun e => by subst e; revert h; decide
    exact ⟨hn, Opl.decodeMembers_comma hn h⟩
  · rintro ⟨hn, hc⟩
    exact C58_members_partial hn fun m hm => ⟨ht m hm, hc m hm⟩

/-- A comma in a role makes the reader panic. -/
theorem C58_members_fails (t : Char) (ht : t ∈ ['n', 'w', 'r']) (id : Int64) :
    Opl.decodeMembers (Opl.encodeMembers [(t, id, str% "a,b")]) = .error .index := by
  have hlt : t.toNat < 128 ∧ t ≠ ',' := by
    simp only [List.mem_cons, List.not_mem_nil, or_false] at ht
    rcases ht with e | e | e <;> (rw [e]; decide)
  have hs : Opl.split ',' (Opl.encodeMembers [(t, id, str% "a,b")]) = [t :: (i64Str id ++ '@' :: ['a']), ['b']] := by
    have : Opl.encodeMembers [(t, id, str% "a,b")] = (t :: (i64Str id ++ '@' :: ['a'])) ++ ',' :: ['b'] := by
      simp [Opl.encodeMembers, Opl.join]
    rw [this, Opl.split_append]
    · rfl
    · intro hm
      simp only [List.mem_cons, List.mem_append, List.not_mem_nil, or_false] at hm
      rcases hm with hm | hm | hm | hm
      · exact hlt.2 hm.symm
      · exact (Opl.i64Str_chars _ _ hm).1 rfl
      · exact absurd hm (by decide)
      · exact absurd hm (by decide)
  rw [Opl.decodeMembers, hs, Opl.decodeMemberList, Opl.decodeMember_encode hlt.1]
  rfl

/-! ## C59: the node store is a map -/

/-- **C59** for positions without the coordinate 2147483647 and ids up to the largest one that was set: after any sequence of `set` calls,
`get` gives the position last set, or nothing. -/
theorem C59_partial (b : Build) {ops : List (Nat × Lat × Lon)} (hid : ∀ op ∈ ops, op.1 < 2 ^ 60 - 1)
    (hs : ∀ op ∈ ops, op.2.1.inner ≠ 2147483647 ∧ op.2.2.inner ≠ 2147483647) :
    ∃ w, NodeStore.setAll NodeStore.Writer.create ops = .ok w ∧
      ∀ id, (∃ op ∈ ops, id.toNat ≤ op.1) → NodeStore.get b w.file id = .ok (lastSet ops id.toNat) := by
  obtain ⟨w, es, hw, inv⟩ := NodeStore.inv_create.setAll hid
  rw [List.nil_append] at inv
  refine ⟨w, hw, fun id ⟨op, hop, hle⟩ => ?_⟩
  rw [NodeStore.get_small b _ (by have := hid op hop; omega)]
  refine inv.get hs ?_
  rcases inv.len with ⟨h, _, _⟩ | ⟨h, _⟩
  · rw [h] at hop; simp at hop
  · have := inv.bound op hop; omega

example : ∃ w, NodeStore.setAll NodeStore.Writer.create [(3, ⟨1⟩, ⟨2⟩), (0, ⟨5⟩, ⟨-6⟩), (3, ⟨7⟩, ⟨8⟩)] = .ok w ∧
    NodeStore.get .debug w.file 3 = .ok (some (⟨7⟩, ⟨8⟩)) ∧ NodeStore.get .debug w.file 1 = .ok none := by
  obtain ⟨w, hw, h⟩ := C59_partial .debug (ops := [(3, ⟨1⟩, ⟨2⟩), (0, ⟨5⟩, ⟨-6⟩), (3, ⟨7⟩, ⟨8⟩)]) (by decide) (by decide)
  exact ⟨w, hw, h 3 ⟨(3, ⟨1⟩, ⟨2⟩), by simp, by decide⟩, h 1 ⟨(3, ⟨1⟩, ⟨2⟩), by simp, by decide⟩⟩

/-- **C59, exactly.** After any sequence of `set` calls with ids that a file can hold: `get` panics for ids above every id that was set. For the
others it gives the position last set, unless its latitude or longitude is 2147483647, and otherwise nothing. For ids from `2^61 = 2305843009213693952` on, a build
that checks for overflow panics, and one that does not gives what it gives for the id without its upper three bits. -/
theorem C59_exact (b : Build) {ops : List (Nat × Lat × Lon)} (hid : ∀ op ∈ ops, op.1 < 2 ^ 60 - 1) :
    ∃ w, NodeStore.setAll NodeStore.Writer.create ops = .ok w ∧ ∀ id : UInt64,
      (id.toNat < 2 ^ 61 → NodeStore.get b w.file id =
        if ∃ op ∈ ops, id.toNat ≤ op.1 then
          .ok ((lastSet ops id.toNat).filter fun p => p.1.inner ≠ 2147483647 ∧ p.2.inner ≠ 2147483647)
        else .error .unwrap) ∧
      (2 ^ 61 ≤ id.toNat → NodeStore.get .debug w.file id = .error .overflow ∧
        NodeStore.get .release w.file id = NodeStore.get .release w.file (id % 2305843009213693952)) := by
  obtain ⟨w, es, hw, inv⟩ := NodeStore.inv_create.setAll hid
  rw [List.nil_append] at inv
  refine ⟨w, hw, fun id => ⟨fun h => ?_, fun h => ⟨(NodeStore.get_large _ h).1, ?_⟩⟩⟩
  · rw [NodeStore.get_small b _ h]
    exact inv.exact id.toNat
  · have hm : (id % 2305843009213693952 : UInt64).toNat = id.toNat % 2 ^ 61 := UInt64.toNat_mod id _
    rw [(NodeStore.get_large _ h).2, NodeStore.get_small .release _ (by rw [hm]; omega), hm]

/-- The bound on the ids in `C59_exact` is exact: a sequence of `set` calls goes through if and only if every entry ends before the largest
size of a file, `2^63 - 1` bytes; one call for a larger id panics. -/
theorem C59_sets_iff (ops : List (Nat × Lat × Lon)) :
    (∃ w, NodeStore.setAll NodeStore.Writer.create ops = .ok w) ↔ ∀ op ∈ ops, op.1 < 2 ^ 60 - 1 := by
  refine ⟨?_, fun h => (C59_exact .debug h).imp fun _ h => h.1⟩
  suffices key : ∀ w, (∃ w', NodeStore.setAll w ops = .ok w') → ∀ op ∈ ops, op.1 < 2 ^ 60 - 1 from key _
  induction ops with
  | nil => intro _ _ _ h; simp at h
  | cons o os ih =>
    rintro w ⟨w', h⟩ op hop
    rw [NodeStore.setAll, NodeStore.Writer.set] at h
    by_cases hb : 8 * (o.1 + 1) ≥ 2 ^ 63
    · rw [if_pos hb] at h; cases h
    · rw [if_neg hb] at h
      rcases List.mem_cons.1 hop with rfl | hop
      · omega
      · exact ih _ ⟨w', h⟩ op hop

example : ¬ ∃ w, NodeStore.setAll NodeStore.Writer.create [(3, ⟨1⟩, ⟨2⟩), (2 ^ 60 - 1, ⟨1⟩, ⟨2⟩)] = .ok w := by
  rw [C59_sets_iff]; decide

/-- The full **C59** is false: asking for an id above every id that was set panics. -/
theorem C59_fails_above (b : Build) {ops : List (Nat × Lat × Lon)} (hid : ∀ op ∈ ops, op.1 < 2 ^ 60 - 1) {id : UInt64} (hs : id.toNat < 2 ^ 61)
    (h : ∀ op ∈ ops, op.1 < id.toNat) :
    ∃ w, NodeStore.setAll NodeStore.Writer.create ops = .ok w ∧ NodeStore.get b w.file id = .error .unwrap := by
  obtain ⟨w, hw, he⟩ := C59_exact b hid
  refine ⟨w, hw, ?_⟩
  rw [(he id).1 hs, if_neg]
  rintro ⟨op, hop, hle⟩
  have := h op hop
  omega

/-- The full **C59** is false: a position with the largest latitude or longitude is not there afterwards. -/
theorem C59_fails_sentinel (b : Build) {id : UInt64} (hid : id.toNat < 2 ^ 60 - 1) (lat : Lat) (lon : Lon)
    (h : lat.inner = 2147483647 ∨ lon.inner = 2147483647) :
    ∃ w, NodeStore.setAll NodeStore.Writer.create [(id.toNat, lat, lon)] = .ok w ∧ NodeStore.get b w.file id = .ok none ∧
      lastSet [(id.toNat, lat, lon)] id.toNat = some (lat, lon) := by
  obtain ⟨w, hw, he⟩ := C59_exact b (ops := [(id.toNat, lat, lon)]) (by simpa using hid)
  have hl : lastSet [(id.toNat, lat, lon)] id.toNat = some (lat, lon) := by simp [lastSet]
  refine ⟨w, hw, ?_, hl⟩
  rw [(he id).1 (by omega), if_pos ⟨_, List.mem_singleton.2 rfl, Nat.le_refl _⟩, hl, Option.filter_some, if_neg]
  simp only [decide_eq_true_eq]
  rintro ⟨a, c⟩
  exact h.elim a c

/-- The full **C59** is false: a build that does not check for overflow gives the position of a node for an id that was never set, and that no node
store can hold. -/
theorem C59_fails_wraps {id : UInt64} (hid : id.toNat < 2 ^ 60 - 1) {lat : Lat} {lon : Lon} (h : lat.inner ≠ 2147483647 ∧ lon.inner ≠ 2147483647) :
    ∃ w, NodeStore.setAll NodeStore.Writer.create [(id.toNat, lat, lon)] = .ok w ∧
      NodeStore.get .release w.file (id + 2305843009213693952) = .ok (some (lat, lon)) ∧ lastSet [(id.toNat, lat, lon)] (id + 2305843009213693952).toNat = none := by
  obtain ⟨w, hw, he⟩ := C59_exact .release (ops := [(id.toNat, lat, lon)]) (by simpa using hid)
  have ha : (id + 2305843009213693952 : UInt64).toNat = id.toNat + 2 ^ 61 := by
    have : (id + 2305843009213693952 : UInt64).toNat = (id.toNat + 2 ^ 61) % 2 ^ 64 := UInt64.toNat_add id _
    omega
  have hm : (id + 2305843009213693952 : UInt64) % 2305843009213693952 = id := by
    apply UInt64.toNat_inj.1
    have : ((id + 2305843009213693952 : UInt64) % 2305843009213693952).toNat = (id + 2305843009213693952 : UInt64).toNat % 2 ^ 61 := UInt64.toNat_mod _ _
    omega
  have hl : lastSet [(id.toNat, lat, lon)] id.toNat = some (lat, lon) := by simp [lastSet]
  refine ⟨w, hw, ?_, ?_⟩
  · rw [((he _).2 (by omega)).2, hm, (he id).1 (by omega), if_pos ⟨_, List.mem_singleton.2 rfl, Nat.le_refl _⟩, hl, Option.filter_some, if_pos]
    simpa using h
  · rw [lastSet, ha]
    simp [lastSet]

example : ∃ w, NodeStore.setAll NodeStore.Writer.create [(3, ⟨7⟩, ⟨8⟩)] = .ok w ∧
    NodeStore.get .release w.file 2305843009213693955 = .ok (some (⟨7⟩, ⟨8⟩)) := by
  obtain ⟨w, hw, h, _⟩ := C59_fails_wraps (id := 3) (by decide) (lat := ⟨7⟩) (lon := ⟨8⟩) (by decide)
  exact ⟨w, hw, h⟩

/-! ## C60: node chains round trip -/

/-- **C60** for ids below `2^63` and chains of this kind: no node is one less than the node before it, and after a return to the first node
comes the first node again, or one far away. -/
theorem C60_partial (b : Build) {first : UInt64} {ns : List UInt64} (hsmall : ∀ n ∈ first :: ns, n.toNat < 2 ^ 63)
    (hstep : ∀ before x y, Follows (first :: ns) before x y → y = first ∨
      ((y.toNat : Int) ≠ x.toNat - 1 ∧ (x = first → (∀ z ∈ before, z = first) ∨ Far x y))) :
    (NodeChain.encode b (first :: ns)).bind (NodeChain.decode b) = .ok (first :: ns) :=
  NodeChain.decode_encode b hsmall hstep

/-- **C60**, exactly, for ids below `2^63` and chains in which no node is one less than the node before it (but the first node may be): the
chain comes back if and only if after a return to the first node comes the first node again, or one far away. -/
theorem C60_iff_partial (b : Build) {first : UInt64} {ns : List UInt64} (hsmall : ∀ n ∈ first :: ns, n.toNat < 2 ^ 63)
    (hone : ∀ before x y, Follows (first :: ns) before x y → y = first ∨ (y.toNat : Int) ≠ x.toNat - 1) :
    (NodeChain.encode b (first :: ns)).bind (NodeChain.decode b) = .ok (first :: ns) ↔
      ∀ before x y, Follows (first :: ns) before x y → y = first ∨ (x = first → (∀ z ∈ before, z = first) ∨ Far x y) := by
  refine ⟨NodeChain.decode_encode_only b hsmall hone, fun h => NodeChain.decode_encode b hsmall fun before x y hf => ?_⟩
  rcases hone before x y hf with h1 | h1
  · exact Or.inl h1
  · rcases h before x y hf with h2 | h2
    · exact Or.inl h2
    · exact Or.inr ⟨h1, h2⟩

example : (NodeChain.encode .debug [10, 300, 10, 15]).bind (NodeChain.decode .debug) ≠ .ok [10, 300, 10, 15] := by
  intro h
  rw [C60_iff_partial .debug (by decide)] at h
  · have := h [10, 300] 10 15 ⟨[], rfl⟩
    rcases this with h | h
    · exact absurd h (by decide)
    · rcases h rfl with h | h
      · exact absurd (h 300 (by decide)) (by decide)
      · revert h; unfold Far; decide
  · rintro before x y ⟨after, e⟩
    match before, e with
    | [], e => obtain ⟨rfl, rfl⟩ : 10 = x ∧ 300 = y := by simpa using ⟨(List.cons.inj e).1, (List.cons.inj (List.cons.inj e).2).1⟩
               decide
    | [_], e => obtain ⟨rfl, rfl⟩ : 300 = x ∧ 10 = y := by simp at e; exact ⟨e.2.1, e.2.2.1⟩
                decide
    | [_, _], e => obtain ⟨rfl, rfl⟩ : 10 = x ∧ 15 = y := by simp at e; exact ⟨e.2.2.1, e.2.2.2.1⟩
                   decide
    | _ :: _ :: _ :: p, e => simp at e; cases p <;> simp at e

/-- A chain with a step of minus one that comes back all the same: the eight bytes after the escape happen to be the node, and the bytes of a
later far step happen to be the steps. This is why a chain with such a step is out of `C60_iff_partial`. -/
example : let ns : List UInt64 := [204585947484247552, 204585947484247551, 204585947484247553, 204585947484247511, 204585947484247468, 204585947484247425, 204585947484247382, 204585947484247339, 204585947484247296, 204585947484247421]
    (NodeChain.encode .debug ns).bind (NodeChain.decode .debug) = .ok ns := by decide +kernel

/-- The empty chain. -/
theorem C60_empty_partial (b : Build) : (NodeChain.encode b []).bind (NodeChain.decode b) = .ok [] := rfl

/-- **C60** for a way: an open or closed line that comes back to its first node at the end only and in which no node is one less than
the node before it. -/
theorem C60_way_partial (b : Build) {first : UInt64} {ns : List UInt64} (closed : Bool) (hsmall : ∀ n ∈ first :: ns, n.toNat < 2 ^ 63)
    (hf : first ∉ ns) (hstep : ∀ before x y, Follows (first :: ns) before x y → (y.toNat : Int) ≠ x.toNat - 1) :
    (NodeChain.encode b (first :: (ns ++ if closed then [first] else []))).bind (NodeChain.decode b) =
      .ok (first :: (ns ++ if closed then [first] else [])) := by
  refine NodeChain.decode_encode b ?_ ?_
  · intro n hn
    simp only [List.mem_cons, List.mem_append] at hn
    rcases hn with hn | hn | hn
    · exact hsmall n (by simp [hn])
    · exact hsmall n (by simp [hn])
    · split at hn
      · exact hsmall n (by simp at hn; simp [hn])
      · simp at hn
  · rintro before x y ⟨after, e⟩
    by_cases hy : y = first
    · exact Or.inl hy
    · have key : ∃ after', first :: ns = before ++ x :: y :: after' := by
        cases closed with
        | false => exact ⟨after, by simpa using e⟩
        | true =>
          simp only [if_true] at e
          rcases List.eq_nil_or_concat after with ha | ⟨a', l, ha⟩
          · subst ha
            have e' : (first :: ns) ++ [first] = (before ++ [x]) ++ [y] := by simpa using e
            exact absurd (List.append_inj' e' rfl).2 (by simpa using Ne.symm hy)
          · subst ha
            have e' : (first :: ns) ++ [first] = (before ++ x :: y :: a') ++ [l] := by simpa using e
            exact ⟨a', (List.append_inj' e' rfl).1⟩
      refine Or.inr ⟨hstep before x y key, fun hx => Or.inl ?_⟩
      obtain ⟨after', e'⟩ := key
      cases before with
      | nil => simp
      | cons z before =>
        rw [List.cons_append, List.cons.injEq] at e'
        exact absurd (show first ∈ ns by rw [e'.2, ← hx]; simp) hf

example : (NodeChain.encode .debug [10, 300, 11, 15, 10]).bind (NodeChain.decode .debug) = .ok [10, 300, 11, 15, 10] := by
  refine C60_way_partial .debug (first := 10) (ns := [300, 11, 15]) true (by decide) (by decide) ?_
  rintro before x y ⟨after, e⟩
  match before, e with
  | [], e => obtain ⟨rfl, rfl⟩ : 10 = x ∧ 300 = y := by simpa using ⟨(List.cons.inj e).1, (List.cons.inj (List.cons.inj e).2).1⟩
             decide
  | [_], e => obtain ⟨rfl, rfl⟩ : 300 = x ∧ 11 = y := by simp at e; exact ⟨e.2.1, e.2.2.1⟩
              decide
  | [_, _], e => obtain ⟨rfl, rfl⟩ : 11 = x ∧ 15 = y := by simp at e; exact ⟨e.2.2.1, e.2.2.2.1⟩
                 decide
  | _ :: _ :: _ :: p, e => simp at e; cases p <;> simp at e

/-- The full **C60** is false: a step of minus one has the code of the escape, and the decoder panics. -/
theorem C60_fails_minus_one (b : Build) {n : UInt64} (h : 0 < n.toNat) (h' : n.toNat < 2 ^ 63) :
    (NodeChain.encode b [n, n - 1]).bind (NodeChain.decode b) = .error .unwrap := by
  have hs : (n - 1).toNat = n.toNat - 1 := by
    rw [UInt64.toNat_sub_of_le]
    · rfl
    · show (1 : UInt64).toNat ≤ n.toNat; exact h
  have hne : n - 1 ≠ n := fun e => by have := congrArg UInt64.toNat e; omega
  have henc : NodeChain.encodeStep b n n (n - 1) = .ok [0xFF] := by
    have hx : ((n - 1).toNat : Int) - n.toNat = -1 := by omega
    rw [NodeChain.encodeStep_eq b n n (n - 1) h' (by omega), if_neg hne, if_neg hne, hx]
    rfl
  rw [NodeChain.encode, NodeChain.encodeFrom, henc]
  show NodeChain.decode b (NodeChain.be64 n ++ [0xFF]) = _
  rw [NodeChain.decode, if_neg (by simp [NodeChain.be64]), NodeChain.readU64_be64]
  rfl

/-- The full **C60** is false: after a return to the first node the decoder goes on from the node before it, and gives another list. -/
theorem C60_fails_return (b : Build) {f m : UInt64} (h : f.toNat + 200 < m.toNat) (h' : m.toNat < 2 ^ 63 - 1) :
    (NodeChain.encode b [f, m, f, f + 1]).bind (NodeChain.decode b) = .ok [f, m, f, m + 1] := by
  have hf1 : (f + 1).toNat = f.toNat + 1 := by
    rw [UInt64.toNat_add]; show (f.toNat + 1) % 2 ^ 64 = _; omega
  have hm1 : (m + 1).toNat = m.toNat + 1 := by
    rw [UInt64.toNat_add]; show (m.toNat + 1) % 2 ^ 64 = _; omega
  have hmf : m ≠ f := fun e => by subst e; omega
  have hff : f + 1 ≠ f := fun e => by have := congrArg UInt64.toNat e; omega
  have e1 : NodeChain.encodeStep b f f m = .ok (0xFF :: NodeChain.be64 m) := by
    rw [NodeChain.encodeStep_eq b f f m (by omega) (by omega), if_neg hmf, if_neg hmf, if_neg (by omega)]
  have e2 : NodeChain.encodeStep b f m f = .ok [0x81] := by
    rw [NodeChain.encodeStep_eq b f m f (by omega) (by omega), if_pos rfl]
  have e3 : NodeChain.encodeStep b f f (f + 1) = .ok [1] := by
    have hx : ((f + 1).toNat : Int) - f.toNat = 1 := by omega
    rw [NodeChain.encodeStep_eq b f f (f + 1) (by omega) (by omega), if_neg hff, if_neg hff, hx]
    rfl
  have hsum : NodeChain.asI64 m + NodeChain.asI8 1 = ((m + 1).toNat : Int) := by
    rw [NodeChain.asI64_small (by omega), show NodeChain.asI8 1 = 1 by decide]; omega
  simp only [NodeChain.encode, NodeChain.encodeFrom, e1, e2, e3]
  show NodeChain.decode b (NodeChain.be64 f ++ (0xFF :: (NodeChain.be64 m ++ [0x81, 1]))) = _
  rw [NodeChain.decode, if_neg (by simp [NodeChain.be64]), NodeChain.readU64_be64]
  show (do
    let ns ← NodeChain.decodeFrom b f 12 f (0xFF :: (NodeChain.be64 m ++ [0x81, 1]))
    Except.ok (f :: ns)) = _
  have d : NodeChain.decodeFrom b f 12 f (0xFF :: (NodeChain.be64 m ++ [0x81, 1])) = .ok [m, f, m + 1] := by
    show (do
      let (next, r) ← NodeChain.readU64 (NodeChain.be64 m ++ [0x81, 1])
      let ns ← NodeChain.decodeFrom b f 11 next r
      Except.ok (next :: ns)) = _
    rw [NodeChain.readU64_be64]
    show (do
      let x ← (do
        let x ← (do
          let newNum ← b.i64 (NodeChain.asI64 m + NodeChain.asI8 1)
          let ns ← NodeChain.decodeFrom b f 9 newNum.toUInt64 []
          Except.ok (newNum.toUInt64 :: ns))
        Except.ok (f :: x))
      Except.ok (m :: x)) = _
    rw [hsum, NodeChain.i64_ok b (by omega)]
    show Except.ok [m, f, (Int64.ofInt ((m + 1).toNat : Int)).toUInt64] = _
    rw [NodeChain.toUInt64_ofInt (by omega)]
  rw [d]
  rfl

example : (200 : UInt64).toNat + 200 < (1000 : UInt64).toNat ∧ (1000 : UInt64).toNat < 2 ^ 63 - 1 := by decide

end Osmio
