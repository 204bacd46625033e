import Verif.Conform.Hierarchy
import Verif.Conform.Render
import Verif.Index.MaybeModel
import Verif.Serde.Model

/-!
# The tests of `src/index.rs`, `src/unmanaged.rs` and `src/weights.rs`, and the serialization tests

Without `prop_serialization` of `src/portgraph.rs` (a random test; the round trip is the property C20). The
capacity of a vector is not part of the map in the model; `test_capacity` is left out.
-/

namespace Verif.Conform

open Verif (Direction)
open Verif.PG Verif.Index Verif.Hier Verif.Secondary Verif.Weights Verif.Serde

/-! ## `src/index.rs`, lines 577–end -/

/-- `test_opposite`. -/
def idxOpposite : Option Unit := do
  let i ← offsetNew 16 .incoming 5
  let o ← offsetNew 16 .outgoing 5
  same (offsetOpposite i) o
  same (offsetOpposite o) i

example : idxOpposite = some () := by decide +kernel

/-- `test_create_bitfield`. -/
def idxBitfield (value : Nat) (flag : Bool) : Option Unit := do
  let b ← bfNew 16 value flag
  same (← bfIndex b) value
  same (← bitFlag b) flag
  let b := flipBitFlag b
  same (← bitFlag b) !flag
  let b ← setBitFlag b
  same (← bitFlag b) true
  let b ← unsetBitFlag b
  same (← bitFlag b) false
  let b ← setIndex b (2 * value)
  same (← bfIndex b) (2 * value)

example : idxBitfield 0 false = some () := by decide +kernel
example : idxBitfield 1 false = some () := by decide +kernel
example : idxBitfield 16 true = some () := by decide +kernel

/-- `test_from_usize_overflow_error`. -/
def idxOverflow : Option Unit := do
  match ← bfTryFrom 16 ((2 ^ 16 - 1) >>> 1) with
  | .ok _ => none
  | .error _ => some ()

example : idxOverflow = some () := by decide +kernel

/-- `test_bitfield_none`. -/
def idxNone : Option Unit := do
  let b := newNone 16
  same (bfIndex b) none
  same (bitFlag b) none
  let b ← setIndex b 1
  same (← bfIndex b) 1
  same (← bitFlag b) false

example : idxNone = some () := by decide +kernel

/-- `test_port_offset_direction_and_index`, without the texts. -/
def idxOffset : Option Unit := do
  let i ← offsetNew 16 .incoming 42
  same (← offsetDirection i) .incoming
  same (← offsetIndex i) 42
  let o ← offsetNew 16 .outgoing 99
  same (← offsetDirection o) .outgoing
  same (← offsetIndex o) 99

example : idxOffset = some () := by decide +kernel

/-! ## `src/unmanaged.rs`, lines 542–end -/

/-- `test_get_mut`; `get_mut` makes room and `try_get_mut` does not. -/
def denseGetMut : Option Unit := do
  let m : Dense Int := Dense.withDefault 4
  let m := m.reserveKey 0
  same (m.data[0]?) (some 4)
  let m := m.set 0 1
  same ((m.reserveKey 0).data[0]?) (some 1)
  same (m.trySet 10 7).1 false
  let m := m.reserveKey 10
  same (m.data[10]?) (some 4)
  let (b, m) := m.trySet 10 2
  same b true
  same (m.get 10) 2

example : denseGetMut = some () := by decide +kernel

/-- `test_get_disjoint_mut`. -/
def denseDisjoint : Option Unit := do
  let m : Dense Int := Dense.withDefault 0
  let (v, m) := m.getDisjoint [0, 1, 2]
  same v (some [0, 0, 0])
  let m := ((m.set 0 1).set 1 2).set 2 3
  same (m.getDisjoint [0, 1, 2]).1 (some [1, 2, 3])
  same (m.getDisjoint [0, 1, 0]).1 none

example : denseDisjoint = some () := by decide +kernel

/-- The map of `test_swap` and `secondary_serialize`. -/
def denseMap : Dense Nat := (((Dense.withDefault 0).set 0 0x10).set 1 0x11).set 3 0x13

/-- `test_swap`. -/
def denseSwap : Option Unit := do
  let m := denseMap.swap 0 1
  same (m.get 0) 0x11
  same (m.get 1) 0x10
  let m := m.swap 10 3
  same (m.get 3) 0
  same (m.get 10) 0x13

example : denseSwap = some () := by decide +kernel

/-- `eq_ignores_defaults`. -/
def denseEq : Option Unit := do
  let a : Dense Nat := Dense.withDefault 0
  let b : Dense Nat := Dense.withDefault 0
  let a := a.set 4 0
  assert (a.eq b)
  let b := b.set 42 0
  assert (a.eq b)
  let b := b.set 40 24
  assert (!a.eq b)

example : denseEq = some () := by decide +kernel

/-! ## `src/weights.rs` -/

/-- `test_weights`. -/
def weightsTest : Option Unit := do
  let w : Weights Nat Int := Weights.new 0 0
  same (w.node 0) 0
  same (w.port 0) 0
  let w := (w.setNode 0 42).setPort 0 (-1)
  same (w.node 0) 42
  same (w.port 0) (-1)

example : weightsTest = some () := by decide +kernel

/-! ## Serialization -/

/-- The value read back, if there is one. -/
def read {α : Type} : Outcome α → Option α
  | .ok a => some a
  | _ => none

/-- `empty_portgraph_serialize`. -/
def serEmpty : Option Unit := do same (← read (readPG (writePG true PG.empty))) PG.empty

example : serEmpty = some () := by decide +kernel

/-- `secondary_serialize`. -/
def serDense : Option Unit := do
  for m in [Dense.withDefault 0, denseMap] do
    assert ((← read (readDense (readUnsigned 32) (writeDense true .num m))).eq m)

example : serDense = some () := by decide +kernel

/-- `hierarchy_serialize`. -/
def serHierarchy : Option Unit := do
  let h := Hierarchy.new
  same (← read (readHierarchy (writeHierarchy true h))).data.data h.data.data
  let h ← ok (h.pushFrontChild 0 4)
  let h ← ok (h.pushChild 2 4)
  let h ← ok (h.insertAfter 1 0)
  same (← read (readHierarchy (writeHierarchy true h))).data.data h.data.data

example : serHierarchy = some () := by decide +kernel

/-! ## The snapshot of `src/index.rs`, `test_serde_node_index` -/

open Verif.Render (Text idText)

/-- A new line with an indentation. -/
def newline (k : Nat) : Text := '\n' :: List.replicate (2 * k) ' '

mutual

/-- `serde_json::to_string_pretty` at an indentation. -/
def pretty (k : Nat) : Data → Text
  | .null => "null".toList
  | .num n => idText n
  | .str s => '"' :: s.toList ++ "\"".toList
  | .arr [] => "[]".toList
  | .arr (x :: xs) => '[' :: newline (k + 1) ++ pretty (k + 1) x ++ prettyItems (k + 1) xs ++ newline k ++ "]".toList
  | .obj [] => "{}".toList
  | .obj (x :: xs) => '{' :: newline (k + 1) ++ prettyField (k + 1) x ++ prettyFields (k + 1) xs ++ newline k ++ "}".toList

/-- The items after the first. -/
def prettyItems (k : Nat) : List Data → Text
  | [] => []
  | x :: xs => ',' :: newline k ++ pretty k x ++ prettyItems k xs

/-- A field. -/
def prettyField (k : Nat) : String × Data → Text
  | (s, d) => '"' :: s.toList ++ "\": ".toList ++ pretty k d

/-- The fields after the first. -/
def prettyFields (k : Nat) : List (String × Data) → Text
  | [] => []
  | x :: xs => ',' :: newline k ++ prettyField k x ++ prettyFields k xs

end

/-- What the crate `bitvec` writes for an empty vector. -/
def noBits : Data := .obj [("order", .str "bitvec::order::Lsb0"), ("head", .obj [("width", .num 64), ("index", .num 0)]),
  ("bits", .num 0), ("data", .arr [])]

/-- `test_serde_node_index` with `line_graph` of `src/boundary.rs`. The vectors of flags, functions in the model,
are empty as no call has written them. -/
def serSnapshot : Option Text := do
  let m ← makeM (List.replicate 5 (4, 4)) [(0, 0, 1, 0), (1, 0, 2, 0), (2, 0, 3, 0), (3, 0, 4, 0)]
  return pretty 0 (writeMG true (fun _ => noBits) ⟨m.graph, [], [], m.copyCount, m.subCount⟩)

example : serSnapshot.bind (snapshot ·
  ["{\n  \"graph\": {\n    \"node_meta\": [\n      {\n        \"n\": {\n",
   "          \"first_port\": 0,\n          \"incoming\": 5,\n",
   "          \"outgoing\": 4,\n          \"capacity\": 8\n        }\n      },\n",
   "      {\n        \"n\": {\n          \"first_port\": 8,\n",
   "          \"incoming\": 5,\n          \"outgoing\": 4,\n",
   "          \"capacity\": 8\n        }\n      },\n      {\n        \"n\": {\n",
   "          \"first_port\": 16,\n          \"incoming\": 5,\n",
   "          \"outgoing\": 4,\n          \"capacity\": 8\n        }\n      },\n",
   "      {\n        \"n\": {\n          \"first_port\": 24,\n",
   "          \"incoming\": 5,\n          \"outgoing\": 4,\n",
   "          \"capacity\": 8\n        }\n      },\n      {\n        \"n\": {\n",
   "          \"first_port\": 32,\n          \"incoming\": 5,\n",
   "          \"outgoing\": 4,\n          \"capacity\": 8\n        }\n      }\n",
   "    ],\n    \"port_link\": [\n      null,\n      null,\n      null,\n",
   "      null,\n      8,\n      null,\n      null,\n      null,\n      4,\n",
   "      null,\n      null,\n      null,\n      16,\n      null,\n      null,\n",
   "      null,\n      12,\n      null,\n      null,\n      null,\n      24,\n",
   "      null,\n      null,\n      null,\n      20,\n      null,\n      null,\n",
   "      null,\n      32,\n      null,\n      null,\n      null,\n      28,\n",
   "      null,\n      null,\n      null,\n      null,\n      null,\n      null,\n",
   "      null\n    ],\n    \"port_meta\": [\n      1,\n      1,\n      1,\n",
   "      1,\n      2147483649,\n      2147483649,\n      2147483649,\n",
   "      2147483649,\n      2,\n      2,\n      2,\n      2,\n      2147483650,\n",
   "      2147483650,\n      2147483650,\n      2147483650,\n      3,\n      3,\n",
   "      3,\n      3,\n      2147483651,\n      2147483651,\n      2147483651,\n",
   "      2147483651,\n      4,\n      4,\n      4,\n      4,\n      2147483652,\n",
   "      2147483652,\n      2147483652,\n      2147483652,\n      5,\n      5,\n",
   "      5,\n      5,\n      2147483653,\n      2147483653,\n      2147483653,\n",
   "      2147483653\n    ],\n    \"node_free\": null,\n    \"port_free\": [],\n",
   "    \"node_count\": 5,\n    \"port_count\": 40,\n    \"link_count\": 4,\n",
   "    \"_marker\": null\n  },\n  \"multiport\": {\n",
   "    \"order\": \"bitvec::order::Lsb0\",\n    \"head\": {\n      \"width\": 64,\n",
   "      \"index\": 0\n    },\n    \"bits\": 0,\n    \"data\": []\n  },\n",
   "  \"copy_node\": {\n    \"order\": \"bitvec::order::Lsb0\",\n    \"head\": {\n",
   "      \"width\": 64,\n      \"index\": 0\n    },\n    \"bits\": 0,\n",
   "    \"data\": []\n  },\n  \"copy_node_count\": 0,\n  \"subport_count\": 0\n}"]) = some () := by decide +kernel

end Verif.Conform
