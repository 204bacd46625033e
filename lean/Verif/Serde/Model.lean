import Verif.Index.Model
import Verif.PortGraph.Model
import Verif.Hierarchy.Model
import Verif.Weights.Model
import Verif.Multi.Model

/-!
# Serialisation

Model of the `Serialize` and `Deserialize` implementations behind the feature `serde`. Most of them
are derived; the writers and readers below do what the derive macros of `serde` generate, for a
format like the ones used with the library (JSON, MessagePack): an absent value, the unit value and
`PhantomData` are the same `null`, a present value and a newtype are written without a wrapper. The
bytes of a format are not modelled. Structs are written with their field names (`serde_json`,
`rmp_serde::to_vec_named`) or as sequences (`rmp_serde::to_vec`).

Simplified: a reader that fails on several fields reports the first in the order of declaration
(the derived code follows the order of the data), and sequences that are too long are errors.
-/

namespace Verif.Serde

open Verif (Direction)
open Verif.Index Verif.PG Verif.Hier Verif.Secondary Verif.Weights

/-- What a format can hold. Not in the code: the data model of the crate `serde`. -/
inductive Data where
  | null
  | num (n : Nat)
  | str (s : String)
  | arr (l : List Data)
  | obj (l : List (String × Data))


/-- Result of reading: a value, an error, or a panic.
Not in the code: the results of the crate `serde`. -/
inductive Outcome (α : Type) where
  | ok (a : α)
  | error
  | panic
deriving DecidableEq

/-- `?` on a result; a panic is passed on as well. Not in the code: an operator of the language. -/
def Outcome.bind {α β : Type} : Outcome α → (α → Outcome β) → Outcome β
  | .ok a, f => f a
  | .error, _ => .error
  | .panic, _ => .panic

instance : Monad Outcome where
  pure := .ok
  bind := Outcome.bind

/-! ## The derived code for structs, vectors and options -/

/-- A derived `Serialize` of a struct. Not in the code: generated by the crate `serde`. -/
def writeStruct (named : Bool) (fs : List (String × Data)) : Data :=
  if named then .obj fs else .arr (fs.map Prod.snd)

/-- The visitor of a derived `Deserialize` of a struct: the data found for every field. Unknown
fields are ignored, a field that occurs twice is an error; a sequence gives the fields in order.
Not in the code: generated by the crate `serde`. -/
def readStruct (names : List String) : Data → Outcome (String → Option Data)
  | .obj l =>
    if ((l.map Prod.fst).filter names.contains).Nodup then .ok fun n => l.lookup n else .error
  | .arr l => if l.length = names.length then .ok fun n => (names.zip l).lookup n else .error
  | _ => .error

/-- A field that must be present. Not in the code: generated by the crate `serde`. -/
def required {α : Type} (r : Data → Outcome α) : Option Data → Outcome α
  | none => .error
  | some d => r d

/-- `Vec<T>`. Not in the code: implemented in the crate `serde`. -/
def writeVec {α : Type} (w : α → Data) (l : List α) : Data := .arr (l.map w)

/-- The elements of a sequence. Not in the code: implemented in the crate `serde`. -/
def readList {α : Type} (r : Data → Outcome α) : List Data → Outcome (List α)
  | [] => .ok []
  | d :: l => do
    let x ← r d
    let xs ← readList r l
    return x :: xs

/-- `Vec<T>`. Not in the code: implemented in the crate `serde`. -/
def readVec {α : Type} (r : Data → Outcome α) : Data → Outcome (List α)
  | .arr l => readList r l
  | _ => .error

/-- `Option<T>`. Not in the code: implemented in the crate `serde`. -/
def writeOption {α : Type} (w : α → Data) : Option α → Data
  | none => .null
  | some x => w x

/-- `Option<T>`. Not in the code: implemented in the crate `serde`. -/
def readOption {α : Type} (r : Data → Outcome α) : Data → Outcome (Option α)
  | .null => .ok none
  | d => (r d).bind fun x => .ok (some x)

/-- An unsigned integer of `w` bits. Not in the code: implemented in the crate `serde`. -/
def readUnsigned (w : Nat) : Data → Outcome Nat
  | .num n => if n < 2 ^ w then .ok n else .error
  | _ => .error

/-- `NonZeroU16`, `NonZeroU32`. Not in the code: implemented in the crate `serde`. -/
def readNonZero (w : Nat) : Data → Outcome Nat
  | .num n => if 0 < n ∧ n < 2 ^ w then .ok n else .error
  | _ => .error

/-- `PhantomData<T>`, a unit struct. Not in the code: implemented in the crate `serde`. -/
def readUnit : Data → Outcome Unit
  | .null => .ok ()
  | _ => .error

/-! ## Indices -/

/-- `Serialize for NodeIndex` and `PortIndex`, `src/index.rs` lines 88–97: `self.index()`. In the
models of the graphs an index is the number `index()` itself. -/
def writeIndex (i : Nat) : Data := .num i

/-- `Deserialize for NodeIndex` and `PortIndex`, `src/index.rs` lines 99–108: a `usize` goes through `new`, which
panics when it does not fit into 32 bits. -/
def readRaw (d : Data) : Outcome (BitField 32) :=
  (readUnsigned 64 d).bind fun n =>
    match indexNew 32 n with
    | none => .panic
    | some b => .ok b

/-- The number `index()` of a read index. `src/index.rs` lines 99–108. -/
def readIndex (d : Data) : Outcome Nat := (readRaw d).bind fun b => .ok (indexOf b)

/-- `Serialize for MaybeNodeIndex` and `MaybePortIndex`, `src/index.rs` lines 253–262. -/
def writeMaybe (i : Option Nat) : Data := writeOption writeIndex i

/-- `Deserialize for MaybeNodeIndex` and `MaybePortIndex`, `src/index.rs` lines 264–279 (release build: the
`debug_assert!` in `new` is not modelled). -/
def readMaybe (d : Data) : Outcome (Option Nat) :=
  (readOption readRaw d).bind fun o => .ok ((maybeToOption (maybeNew o)).map indexOf)

/-- A field of type `MaybeNodeIndex`: `serde` reads an absent field of this kind as `None`, because
the implementation asks for an `Option`. `src/index.rs` lines 264–279. -/
def maybeField : Option Data → Outcome (Option Nat)
  | none => .ok none
  | some d => readMaybe d

/-- Derived `Serialize for Direction`, `src/lib.rs` lines 98–105. -/
def writeDirection : Direction → Data
  | .incoming => .str "Incoming"
  | .outgoing => .str "Outgoing"

/-- Derived `Deserialize for Direction`. `src/lib.rs` lines 97–105. -/
def readDirection : Data → Outcome Direction
  | .str "Incoming" => .ok .incoming
  | .str "Outgoing" => .ok .outgoing
  | _ => .error

/-- `Serialize for PortOffset`, `src/index.rs` lines 371–400; `index()` and `direction()` panic on
the unset value. -/
def writeOffset {w : Nat} (named : Bool) (b : BitField w) : Option Data := do
  let i ← offsetIndex b
  let d ← offsetDirection b
  return writeStruct named [("index", .num i), ("direction", writeDirection d)]

/-- `Deserialize for PortOffset`, `src/index.rs` lines 387–391 and 402–412. -/
def readOffset (w : Nat) (d : Data) : Outcome (BitField w) :=
  (readStruct ["index", "direction"] d).bind fun s =>
  (required (readUnsigned 64) (s "index")).bind fun i =>
  (required readDirection (s "direction")).bind fun dir =>
  match offsetNew w dir i with
  | none => .panic
  | some b => .ok b

/-! ## Port graphs -/

/-- Derived `Serialize for NodeMeta`, `src/portgraph.rs` lines 805–819; the field `incoming` holds
the number of incoming ports plus one. -/
def writeMeta (named : Bool) (m : NodeMeta) : Data :=
  writeStruct named [("first_port", writeIndex m.first), ("incoming", .num (m.incoming + 1)),
    ("outgoing", .num m.outgoing), ("capacity", .num m.capacity)]

/-- Derived `Deserialize for NodeMeta`. `src/portgraph.rs` lines 805–819. -/
def readMeta (d : Data) : Outcome NodeMeta :=
  (readStruct ["first_port", "incoming", "outgoing", "capacity"] d).bind fun s =>
  (required readIndex (s "first_port")).bind fun f =>
  (required (readNonZero 16) (s "incoming")).bind fun i =>
  (required (readUnsigned 16) (s "outgoing")).bind fun o =>
  (required (readUnsigned 16) (s "capacity")).bind fun c =>
  .ok ⟨f, i - 1, o, c⟩

/-- Derived `Serialize for NodeEntry`, `src/portgraph.rs` lines 930–944, with `FreeNodeEntry`, lines 978–985: an
externally tagged enum with the tags `f` and `n`. -/
def writeNodeEntry (named : Bool) : NodeEntry → Data
  | .free p n => .obj [("f", writeStruct named [("prev", writeMaybe p), ("next", writeMaybe n)])]
  | .node m => .obj [("n", writeMeta named m)]

/-- Derived `Deserialize for NodeEntry`. `src/portgraph.rs` lines 929–944. -/
def readNodeEntry : Data → Outcome NodeEntry
  | .obj [("f", d)] =>
    (readStruct ["prev", "next"] d).bind fun s =>
    (maybeField (s "prev")).bind fun p =>
    (maybeField (s "next")).bind fun n =>
    .ok (.free p n)
  | .obj [("n", d)] => (readMeta d).bind fun m => .ok (.node m)
  | _ => .error

/-- Derived `Serialize for PortEntry`, `src/portgraph.rs` lines 1117–1126 (untagged), and `PortMeta`, lines
1085–1087: the unit value, or the packed number. -/
def writePortEntry : PortEntry → Data
  | .free => .null
  | .port n d => .num (portMetaNew n d).toNat

/-- Derived `Deserialize for PortEntry`: the variants are tried in order. The entries of the model
hold the unpacked node; on the one number without a node (`1 << 31`) the code panics when the node
is asked for, the model when reading. `src/portgraph.rs` lines 1117–1126. -/
def readPortEntry (d : Data) : Outcome PortEntry :=
  match d with
  | .null => .ok .free
  | d =>
    (readNonZero 32 d).bind fun n =>
    match portMetaNode (BitVec.ofNat 32 n) with
    | none => .panic
    | some node => .ok (.port node (portMetaDirection (BitVec.ofNat 32 n)))

/-- Derived `Serialize for PortGraph`, `src/portgraph.rs` lines 44–70. -/
def writePG (named : Bool) (g : PG) : Data :=
  writeStruct named [("node_meta", writeVec (writeNodeEntry named) g.nodeMeta),
    ("port_link", writeVec writeMaybe g.portLink), ("port_meta", writeVec writePortEntry g.portMeta),
    ("node_free", writeMaybe g.nodeFree), ("port_free", writeVec writeMaybe g.portFree),
    ("node_count", .num g.nodeCount), ("port_count", .num g.portCount),
    ("link_count", .num g.linkCount), ("_marker", .null)]

/-- Derived `Deserialize for PortGraph`, `src/portgraph.rs` lines 44–70. -/
def readPG (d : Data) : Outcome PG :=
  (readStruct ["node_meta", "port_link", "port_meta", "node_free", "port_free", "node_count",
    "port_count", "link_count", "_marker"] d).bind fun s =>
  (required (readVec readNodeEntry) (s "node_meta")).bind fun nm =>
  (required (readVec readMaybe) (s "port_link")).bind fun pl =>
  (required (readVec readPortEntry) (s "port_meta")).bind fun pm =>
  (maybeField (s "node_free")).bind fun nf =>
  (required (readVec readMaybe) (s "port_free")).bind fun pf =>
  (required (readUnsigned 64) (s "node_count")).bind fun nc =>
  (required (readUnsigned 64) (s "port_count")).bind fun pc =>
  (required (readUnsigned 64) (s "link_count")).bind fun lc =>
  (required readUnit (s "_marker")).bind fun _ =>
  .ok ⟨nm, pl, pm, nf, pf, nc, pc, lc⟩

/-! ## Secondary maps, weights, hierarchies -/

/-- Derived `Serialize for UnmanagedDenseMap`, `src/unmanaged.rs` lines 63–69, with the writer of
the values. -/
def writeDense {V : Type} (named : Bool) (w : V → Data) (m : Dense V) : Data :=
  writeStruct named [("data", writeVec w m.data), ("phantom", .null), ("default", w m.default)]

/-- Derived `Deserialize for UnmanagedDenseMap`, with the reader of the values. For value types
that read an absent field as a default (`Option`), the field `default` may be absent; this is not
modelled. `src/unmanaged.rs` lines 63–69. -/
def readDense {V : Type} (r : Data → Outcome V) (d : Data) : Outcome (Dense V) :=
  (readStruct ["data", "phantom", "default"] d).bind fun s =>
  (required (readVec r) (s "data")).bind fun l =>
  (required readUnit (s "phantom")).bind fun _ =>
  (required r (s "default")).bind fun v =>
  .ok ⟨l, v⟩

/-- Derived `Serialize for Weights`, `src/weights.rs` lines 51–58. -/
def writeWeights {N P : Type} (named : Bool) (wn : N → Data) (wp : P → Data) (w : Weights N P) : Data :=
  writeStruct named [("nodes", writeDense named wn w.nodes), ("ports", writeDense named wp w.ports)]

/-- Derived `Deserialize for Weights`. `src/weights.rs` lines 51–58. -/
def readWeights {N P : Type} (rn : Data → Outcome N) (rp : Data → Outcome P) (d : Data) :
    Outcome (Weights N P) :=
  (readStruct ["nodes", "ports"] d).bind fun s =>
  (required (readDense rn) (s "nodes")).bind fun n =>
  (required (readDense rp) (s "ports")).bind fun p =>
  .ok ⟨n, p⟩

/-- An array `[MaybeNodeIndex; 2]`. As in `src/hierarchy.rs` lines 551–564. -/
def readPair : Data → Outcome (Option Nat × Option Nat)
  | .arr [a, b] => (readMaybe a).bind fun x => (readMaybe b).bind fun y => .ok (x, y)
  | _ => .error

/-- Derived `Serialize for NodeData`, `src/hierarchy.rs` lines 551–564. -/
def writeNodeData (named : Bool) (x : NodeData) : Data :=
  writeStruct named [("children", .arr [writeMaybe x.first, writeMaybe x.last]),
    ("children_count", .num x.count), ("parent", writeMaybe x.parent),
    ("siblings", .arr [writeMaybe x.prev, writeMaybe x.next])]

/-- Derived `Deserialize for NodeData`. `src/hierarchy.rs` lines 551–564. -/
def readNodeData (d : Data) : Outcome NodeData :=
  (readStruct ["children", "children_count", "parent", "siblings"] d).bind fun s =>
  (required readPair (s "children")).bind fun c =>
  (required (readUnsigned 32) (s "children_count")).bind fun k =>
  (maybeField (s "parent")).bind fun p =>
  (required readPair (s "siblings")).bind fun b =>
  .ok { first := c.1, last := c.2, count := k, parent := p, prev := b.1, next := b.2 }

/-- Derived `Serialize for Hierarchy`, `src/hierarchy.rs` lines 70–74. -/
def writeHierarchy (named : Bool) (h : Hierarchy) : Data :=
  writeStruct named [("data", writeDense named (writeNodeData named) h.data)]

/-- Derived `Deserialize for Hierarchy`. `src/hierarchy.rs` lines 70–74. -/
def readHierarchy (d : Data) : Outcome Hierarchy :=
  (readStruct ["data"] d).bind fun s =>
  (required (readDense readNodeData) (s "data")).bind fun m =>
  .ok ⟨m⟩

/-! ## Multiport graphs -/

/-- Derived `Serialize for SubportIndex`, `src/multiportgraph.rs` lines 63–69. -/
def writeSubport (named : Bool) (s : Multi.Subport) : Data :=
  writeStruct named [("port", writeIndex s.1), ("subport_offset", .num s.2)]

/-- Derived `Deserialize for SubportIndex`. `src/multiportgraph.rs` lines 63–69. -/
def readSubport (d : Data) : Outcome Multi.Subport :=
  (readStruct ["port", "subport_offset"] d).bind fun s =>
  (required readIndex (s "port")).bind fun p =>
  (required (readUnsigned 16) (s "subport_offset")).bind fun o =>
  .ok (p, o)

/-- The fields of `MultiPortGraph`, `src/multiportgraph.rs` lines 33–45, with the bit vectors as they are stored (the model
`Multi.MG` has them as functions). -/
structure RawMG where
  graph : PG
  multiport : List Bool
  copyNode : List Bool
  copyCount : Nat
  subCount : Nat
deriving DecidableEq

/-- The multiport graph with these fields.
Not in the code: relates two models of `src/multiportgraph.rs` lines 33–45. -/
def RawMG.toMG (m : RawMG) : Multi.MG :=
  ⟨m.graph, Bits.get m.multiport, Bits.get m.copyNode, m.copyCount, m.subCount⟩

/-- Derived `Serialize for MultiPortGraph`, `src/multiportgraph.rs` lines 31–45. `wb` is the implementation of the crate
`bitvec`. -/
def writeMG (named : Bool) (wb : List Bool → Data) (m : RawMG) : Data :=
  writeStruct named [("graph", writePG named m.graph), ("multiport", wb m.multiport),
    ("copy_node", wb m.copyNode), ("copy_node_count", .num m.copyCount),
    ("subport_count", .num m.subCount)]

/-- Derived `Deserialize for MultiPortGraph`. `src/multiportgraph.rs` lines 31–45. -/
def readMG (rb : Data → Outcome (List Bool)) (d : Data) : Outcome RawMG :=
  (readStruct ["graph", "multiport", "copy_node", "copy_node_count", "subport_count"] d).bind fun s =>
  (required readPG (s "graph")).bind fun g =>
  (required rb (s "multiport")).bind fun a =>
  (required rb (s "copy_node")).bind fun b =>
  (required (readUnsigned 64) (s "copy_node_count")).bind fun c =>
  (required (readUnsigned 64) (s "subport_count")).bind fun k =>
  .ok ⟨g, a, b, c, k⟩

end Verif.Serde
