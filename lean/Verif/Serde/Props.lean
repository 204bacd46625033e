import Verif.Serde.Lemmas
import Verif.Serde.BoundsMulti
import Verif.PortGraph.Example
import Verif.Hierarchy.Props

/-!
# Serialisation (C55, C56)

C55: what is written is read back. C56: what is read makes sense.
-/

namespace Verif.Serde

open Verif (Direction)
open Verif.Index Verif.PG Verif.Hier Verif.Secondary Verif.Weights

/-! ## C55 what is written is read back -/

/-- **C55** Indices below `2^31`, optional indices and directions survive. -/
theorem C55_indices :
    (∀ i, i < 2 ^ 31 → Survives writeIndex readIndex i) ∧
    (∀ o, Below (2 ^ 31) o → Survives writeMaybe readMaybe o) ∧
    (∀ d, Survives writeDirection readDirection d) :=
  ⟨fun _ h => readIndex_write h, fun _ h => readMaybe_write h, fun d => by cases d <;> rfl⟩

/-- **C55** Every port offset survives, except for the unset value, which cannot be written. -/
theorem C55_port_offset (w : Nat) (hw : 2 ≤ w) (hw64 : w ≤ 64) (named : Bool) (b : BitField w) :
    (b = newNone w → writeOffset named b = none) ∧
    (b ≠ newNone w → ∃ d, writeOffset named b = some d ∧ readOffset w d = .ok b) := by
  constructor
  · rintro rfl
    simp [writeOffset, offsetIndex, bfIndex, isNone]
  · intro hb
    have hn : isNone b = false := by simpa [isNone] using hb
    have ⟨h1, h2⟩ := half_lt w hw
    have hlt := b.isLt
    have hmod := Nat.mod_lt b.toNat (show 0 < 2 ^ (w - 1) by omega)
    have hpow : 2 ^ w ≤ 2 ^ 64 := Nat.pow_le_pow_right (by decide) hw64
    have hi : offsetIndex b = some (b.toNat % 2 ^ (w - 1)) := by
      simp [offsetIndex, bfIndex, hn, indexUnchecked_eq w (by omega : 0 < w)]
    have hmsb : b.msb = decide (2 ^ (w - 1) ≤ b.toNat) := BitVec.msb_eq_decide b
    have hd : offsetDirection b = some (if b.msb then .outgoing else .incoming) := by
      simp only [offsetDirection, bitFlag, hn, Bool.false_eq_true, if_false, and_msb w (by omega), Option.map_some]
    have hne : b.toNat ≠ 2 ^ w - 1 := (isNone_false_iff b).1 hn
    refine ⟨_, by rw [writeOffset, hi, hd]; rfl, ?_⟩
    have hs := readStruct_write named [("index", .num (b.toNat % 2 ^ (w - 1))),
      ("direction", writeDirection (if b.msb then .outgoing else .incoming))] (by simp)
    simp only [List.map_cons, List.map_nil] at hs
    have hdir : readDirection (writeDirection (if b.msb then .outgoing else .incoming)) =
        .ok (if b.msb then .outgoing else .incoming) := by
      cases b.msb <;> rfl
    have hnew : offsetNew w (if b.msb then .outgoing else .incoming) (b.toNat % 2 ^ (w - 1)) = some b := by
      have hlt' : b.toNat % 2 ^ (w - 1) < 2 ^ w := by omega
      cases hm : b.msb with
      | false =>
        have hsmall : b.toNat < 2 ^ (w - 1) := by
          rw [hm] at hmsb; simpa using hmsb.symm
        rw [Nat.mod_eq_of_lt hsmall]
        simp [offsetNew, bfNew, hlt]
      | true =>
        have hbig : 2 ^ (w - 1) ≤ b.toNat := by
          rw [hm] at hmsb; simpa using hmsb.symm
        have hval : b.toNat % 2 ^ (w - 1) = b.toNat - 2 ^ (w - 1) := by
          rw [Nat.mod_eq_sub_mod hbig, Nat.mod_eq_of_lt (by omega)]
        have hn2 : isNone (BitVec.ofNat w (b.toNat % 2 ^ (w - 1))) = false := by
          rw [isNone_false_iff, BitVec.toNat_ofNat, Nat.mod_eq_of_lt hlt']; omega
        have ht := setFlag_toNat w (by omega) (b.toNat % 2 ^ (w - 1)) (by omega)
        have hor : BitVec.ofNat w (b.toNat % 2 ^ (w - 1)) ||| msbMask w = b := by
          apply BitVec.eq_of_toNat_eq; rw [ht, hval]; omega
        simp only [offsetNew, bfNew, hlt', if_true, setBitFlag, hn2, Bool.false_eq_true, if_false, hor]
        rfl
    rw [readOffset, hs]
    simp only [bind_ok]
    have l1 : List.lookup "index" [("index", Data.num (b.toNat % 2 ^ (w - 1))),
      ("direction", writeDirection (if b.msb then .outgoing else .incoming))] =
      some (Data.num (b.toNat % 2 ^ (w - 1))) := by simp [List.lookup]
    have l2 : List.lookup "direction" [("index", Data.num (b.toNat % 2 ^ (w - 1))),
      ("direction", writeDirection (if b.msb then .outgoing else .incoming))] =
      some (writeDirection (if b.msb then .outgoing else .incoming)) := by simp [List.lookup]
    rw [l1, l2, required_some, required_some, readUnsigned_num (by omega), bind_ok, hdir, bind_ok, hnew]

/-- **C55** Every graph made by calls survives, with named fields and in the compact form, as long
as it has at most `2^31 - 1` node slots and `2^31` port slots, the free slots and the free lists
included. -/
theorem C55_portgraph {maxOff : Nat} (hmax : maxOff ≤ 32767) {g : PG} (h : PG.Reach maxOff g)
    (hn : g.nodeMeta.length ≤ 2 ^ 31 - 1) (hp : g.portMeta.length ≤ 2 ^ 31) (named : Bool) :
    Survives (writePG named) readPG g :=
  readPG_write named (fits_of (h.inv hmax) (reach_lb hmax h) (by omega) hp)

/-- **C55** So two graphs with the same written form are equal. -/
theorem C55_portgraph_injective {maxOff : Nat} (hmax : maxOff ≤ 32767) {g g' : PG} (h : PG.Reach maxOff g)
    (h' : PG.Reach maxOff g') (hn : g.nodeMeta.length ≤ 2 ^ 31 - 1) (hp : g.portMeta.length ≤ 2 ^ 31)
    (hn' : g'.nodeMeta.length ≤ 2 ^ 31 - 1) (hp' : g'.portMeta.length ≤ 2 ^ 31) {named : Bool}
    (e : writePG named g = writePG named g') : g = g' := by
  have h1 : readPG (writePG named g) = .ok g := C55_portgraph hmax h hn hp named
  have h2 : readPG (writePG named g') = .ok g' := C55_portgraph hmax h' hn' hp' named
  rw [e, h2] at h1
  cases h1
  rfl

theorem mem_of_lookup {l : List (String × Data)} {n : String} {d : Data} (h : l.lookup n = some d) : (n, d) ∈ l := by
  induction l with
  | nil => cases h
  | cons x l ih =>
    obtain ⟨a, b⟩ := x
    simp only [List.lookup] at h
    split at h
    · rename_i hb; cases h; simp [beq_iff_eq.1 hb]
    · exact List.mem_cons_of_mem _ (ih h)

theorem lookup_of_mem {l : List (String × Data)} (hn : (l.map Prod.fst).Nodup) {n : String} {d : Data} (h : (n, d) ∈ l) :
    l.lookup n = some d := by
  induction l with
  | nil => cases h
  | cons x l ih =>
    obtain ⟨a, b⟩ := x
    simp only [List.map_cons, List.nodup_cons] at hn
    simp only [List.lookup]
    rcases List.mem_cons.1 h with h | hmem
    · cases h; simp
    · have : n ≠ a := by
        rintro rfl
        exact hn.1 (List.mem_map.2 ⟨(n, d), hmem, rfl⟩)
      rw [show (n == a) = false by simpa using this]
      exact ih hn.2 hmem

/-- **C55** The order of the fields in the data does not matter, and fields that are not known are
ignored. -/
theorem C55_field_order {maxOff : Nat} (hmax : maxOff ≤ 32767) {g : PG} (h : PG.Reach maxOff g)
    (hn : g.nodeMeta.length ≤ 2 ^ 31 - 1) (hp : g.portMeta.length ≤ 2 ^ 31)
    {l l' extra : List (String × Data)} (hl : writePG true g = .obj l) (hp' : l'.Perm (l ++ extra))
    (hx : ((l ++ extra).map Prod.fst).Nodup) : readPG (.obj l') = .ok g := by
  have hr : readPG (.obj l) = .ok g := hl ▸ C55_portgraph hmax h hn hp true
  have hnd : (l'.map Prod.fst).Nodup := (hp'.map Prod.fst).nodup_iff.2 hx
  have hl0 : (l.map Prod.fst).Nodup := by
    rw [List.map_append] at hx
    exact (List.nodup_append.1 hx).1
  have hlook : ∀ n d, l.lookup n = some d → l'.lookup n = some d := by
    intro n d hd
    refine lookup_of_mem hnd (hp'.mem_iff.2 ?_)
    exact List.mem_append_left _ (mem_of_lookup hd)
  have e1 : readStruct ["node_meta", "port_link", "port_meta", "node_free", "port_free", "node_count",
      "port_count", "link_count", "_marker"] (.obj l') = .ok fun n => l'.lookup n := by
    simp only [readStruct]
    rw [if_pos (hnd.filter _)]
  have e2 : readStruct ["node_meta", "port_link", "port_meta", "node_free", "port_free", "node_count",
      "port_count", "link_count", "_marker"] (.obj l) = .ok fun n => l.lookup n := by
    simp only [readStruct]
    rw [if_pos (hl0.filter _)]
  have hfield : ∀ n ∈ ["node_meta", "port_link", "port_meta", "node_free", "port_free", "node_count",
      "port_count", "link_count", "_marker"], l'.lookup n = l.lookup n := by
    intro n hn
    cases hd : l.lookup n with
    | some d => exact hlook n d hd
    | none =>
      exfalso
      simp only [writePG, writeStruct, if_true, Data.obj.injEq] at hl
      subst hl
      simp only [List.mem_cons, List.not_mem_nil, or_false] at hn
      rcases hn with rfl | rfl | rfl | rfl | rfl | rfl | rfl | rfl | rfl <;> simp [List.lookup] at hd
  rw [readPG, e2] at hr
  rw [readPG, e1]
  simp only [bind_ok] at hr ⊢
  simp only [hfield _ (show "node_meta" ∈ _ by simp), hfield _ (show "port_link" ∈ _ by simp),
    hfield _ (show "port_meta" ∈ _ by simp), hfield _ (show "node_free" ∈ _ by simp),
    hfield _ (show "port_free" ∈ _ by simp), hfield _ (show "node_count" ∈ _ by simp),
    hfield _ (show "port_count" ∈ _ by simp), hfield _ (show "link_count" ∈ _ by simp),
    hfield _ (show "_marker" ∈ _ by simp)]
  exact hr

/-- **C55** A map survives when its values do: the stored ones and the default. -/
theorem C55_dense_map {V : Type} (named : Bool) {w : V → Data} {r : Data → Outcome V} {m : Dense V}
    (hd : ∀ v ∈ m.data, Survives w r v) (h0 : Survives w r m.default) :
    Survives (writeDense named w) (readDense r) m := readDense_write named hd h0

/-- **C55** Weights survive when all values do. -/
theorem C55_weights {N P : Type} (named : Bool) {wn : N → Data} {rn : Data → Outcome N} {wp : P → Data}
    {rp : Data → Outcome P} {x : Weights N P}
    (hn : ∀ v ∈ x.nodes.data, Survives wn rn v) (hn0 : Survives wn rn x.nodes.default)
    (hp : ∀ v ∈ x.ports.data, Survives wp rp v) (hp0 : Survives wp rp x.ports.default) :
    Survives (writeWeights named wn wp) (readWeights rn rp) x := by
  have hs := readStruct_write named [("nodes", writeDense named wn x.nodes), ("ports", writeDense named wp x.ports)]
    (by simp)
  simp only [List.map_cons, List.map_nil] at hs
  rw [Survives, readWeights, writeWeights, hs]
  simp [List.lookup, readDense_write named hn hn0, readDense_write named hp hp0]

/-- **C55** Every hierarchy made by calls survives, as long as it has at most `2^31` slots. -/
theorem C55_hierarchy {h : Hierarchy} (hr : Hier.Reach h) (hlen : h.data.data.length ≤ 2 ^ 31) (named : Bool) :
    Survives (writeHierarchy named) readHierarchy h := by
  obtain ⟨v, -⟩ := hr.inv
  have hd : DataFits h.data.default := by
    rw [v.dflt]
    constructor <;> first | (intro i hi; cases hi) | decide
  have key : ∀ n, DataFits (h.get n) := by
    intro n
    have hkids : ∀ x ∈ h.kids n, x < 2 ^ 31 := fun x hx => by have := v.lt_of_mem hx; omega
    have hsib : ∀ p l1 l2, h.kids p = l1 ++ n :: l2 → ∀ x ∈ l1 ++ n :: l2, x < 2 ^ 31 := by
      intro p l1 l2 e x hx
      rw [← e] at hx
      have := v.lt_of_mem hx
      omega
    refine ⟨?_, ?_, ?_, ?_, ?_, ?_⟩
    · intro i hi
      rw [v.repr.first] at hi
      exact hkids i (List.mem_of_mem_head? hi)
    · intro i hi
      rw [v.repr.last] at hi
      exact hkids i (List.mem_of_getLast? hi)
    · have h1 := v.repr.count n
      have h2 := v.length_le n
      omega
    · intro p hi
      have hm : n ∈ h.kids p := v.repr.parent_iff.1 hi
      have := v.lt_of_mem' hm
      omega
    · intro i hi
      by_cases ha : ∃ p, n ∈ h.kids p
      · obtain ⟨p, hp⟩ := ha
        obtain ⟨l1, l2, e⟩ := List.append_of_mem hp
        have h1 := (v.repr.sib p l1 n l2 e).2.1
        rw [h1] at hi
        exact hsib p l1 l2 e i (List.mem_append_left _ (List.mem_of_getLast? hi))
      · have h1 := (v.repr.root n fun p hp => ha ⟨p, hp⟩).2.1
        rw [h1] at hi; cases hi
    · intro i hi
      by_cases ha : ∃ p, n ∈ h.kids p
      · obtain ⟨p, hp⟩ := ha
        obtain ⟨l1, l2, e⟩ := List.append_of_mem hp
        have h1 := (v.repr.sib p l1 n l2 e).2.2
        rw [h1] at hi
        exact hsib p l1 l2 e i (List.mem_append_right _ (List.mem_cons_of_mem _ (List.mem_of_mem_head? hi)))
      · have h1 := (v.repr.root n fun p hp => ha ⟨p, hp⟩).2.2
        rw [h1] at hi; cases hi
  refine readHierarchy_write named ?_ hd
  intro x hx
  obtain ⟨n, hn, rfl⟩ := List.mem_iff_getElem.1 hx
  have := key n
  rwa [show h.get n = h.data.data[n] by simp [Hierarchy.get, Dense.get, List.getElem?_eq_getElem hn]] at this

/-- **C55** A subport index survives. -/
theorem C55_subport (named : Bool) {s : Multi.Subport} (hp : s.1 < 2 ^ 31) (ho : s.2 < 2 ^ 16) :
    Survives (writeSubport named) readSubport s := by
  have hs := readStruct_write named [("port", writeIndex s.1), ("subport_offset", .num s.2)] (by simp)
  simp only [List.map_cons, List.map_nil] at hs
  rw [Survives, readSubport, writeSubport, hs]
  simp [List.lookup, readIndex_write hp, readUnsigned_num ho]

/-- **C55** Every multiport graph made by calls survives, if the implementation of the bit vectors
(crate `bitvec`) reads back what it writes. -/
theorem C55_multiportgraph {maxOff : Nat} (h2m : 2 ≤ maxOff) (hmax : maxOff ≤ 32767) {x : RawMG}
    (h : Multi.MReach maxOff x.toMG) (hn : x.graph.nodeMeta.length ≤ 2 ^ 31 - 1)
    (hp : x.graph.portMeta.length ≤ 2 ^ 31) {wb : List Bool → Data} {rb : Data → Outcome (List Bool)}
    (hb : ∀ l, Survives wb rb l) (named : Bool) : Survives (writeMG named wb) (readMG rb) x := by
  have hM := h.ok h2m hmax
  have hf : Fits x.graph := fits_of hM.inv (mreach_lb h2m hmax h) (by omega) hp
  have hc : x.copyCount ≤ x.graph.nodeCount := (Multi.nodeCount_ok hM).1
  have hk : x.subCount + x.copyCount ≤ x.graph.portCount := (Multi.portCount_ok hM).1
  have h1 := hf.nodeCount
  have h2 := hf.portCount
  have hs := readStruct_write named [("graph", writePG named x.graph), ("multiport", wb x.multiport),
    ("copy_node", wb x.copyNode), ("copy_node_count", .num x.copyCount), ("subport_count", .num x.subCount)] (by simp)
  simp only [List.map_cons, List.map_nil] at hs
  have hb1 : rb (wb x.multiport) = .ok x.multiport := hb _
  have hb2 : rb (wb x.copyNode) = .ok x.copyNode := hb _
  rw [Survives, readMG, writeMG, hs]
  simp [List.lookup, readPG_write named hf, hb1, hb2, readUnsigned_num (show x.copyCount < 2 ^ 64 by omega),
    readUnsigned_num (show x.subCount < 2 ^ 64 by omega)]

/-! ## C56 what is read makes sense -/

/-- **C56** What is read as a graph fits into the fields of the code, and survives being written and
read again in any form. Missing for the full claim: that it is a consistent graph, and that numbers
out of range are refused (see the witnesses). -/
theorem C56_portgraph_partial {d : Data} {g : PG} (h : readPG d = .ok g) :
    Fits g ∧ ∀ named, Survives (writePG named) readPG g :=
  ⟨readPG_fits h, fun named => readPG_write named (readPG_fits h)⟩

/-- **C56** A number read as an index is refused exactly when it does not fit into 64 bits, and taken
as it is below `2^31`. Missing: from `2^31` on it should be refused; instead the highest bit is
dropped, and from `2^32` on the reader panics. -/
theorem C56_index_partial (n : Nat) :
    (n < 2 ^ 31 → readIndex (.num n) = .ok n) ∧
    (2 ^ 31 ≤ n → n < 2 ^ 32 → readIndex (.num n) = .ok (n - 2 ^ 31)) ∧
    (2 ^ 32 ≤ n → n < 2 ^ 64 → readIndex (.num n) = .panic) ∧
    (2 ^ 64 ≤ n → readIndex (.num n) = .error) := by
  refine ⟨fun h => readIndex_write h, fun h1 h2 => ?_, fun h1 h2 => ?_, fun h => ?_⟩
  · rw [readIndex, readRaw_num h2, bind_ok, indexOf, indexUnchecked_eq 32 (by decide), BitVec.toNat_ofNat]
    have : n % 2 ^ 32 % 2 ^ (32 - 1) = n - 2 ^ 31 := by omega
    rw [this]
  · have h3 : ¬ n < 2 ^ 32 := by omega
    simp only [readIndex, readRaw, readUnsigned_num h2, bind_ok]
    simp only [indexNew, bfNew, h3, if_false, bind_panic]
  · have h3 : ¬ n < 2 ^ 64 := by omega
    simp only [readIndex, readRaw, readUnsigned, h3, if_false, bind_error]

/-- C56 fails: an index out of range is read as another index, or as no index, or the reader
panics. -/
theorem C56_witness_index_out_of_range :
    readIndex (.num (2 ^ 31 + 5)) = .ok 5 ∧ readMaybe (.num (2 ^ 32 - 1)) = .ok none ∧
    readIndex (.num (2 ^ 32)) = .panic := by
  refine ⟨by decide +kernel, by decide +kernel, by decide +kernel⟩

/-- C56 fails for offsets: the largest outgoing offset is read as the unset value, which cannot be
used or written. -/
theorem C56_witness_offset_out_of_range :
    (readOffset 16 (.obj [("index", .num 32767), ("direction", .str "Outgoing")]) = .ok (newNone 16) ∧
      offsetIndex (newNone 16) = none) ∧
    readOffset 16 (.obj [("index", .num 32768), ("direction", .str "Incoming")]) =
      readOffset 16 (.obj [("index", .num 0), ("direction", .str "Outgoing")]) := by
  refine ⟨⟨by decide +kernel, by decide +kernel⟩, by decide +kernel⟩

/-- Data of a graph without ports whose only node claims one port and whose counts are wrong. -/
def badData : Data := writePG true ⟨[.node ⟨0, 1, 0, 1⟩], [], [], none, [], 3, 1, 2⟩

/-- C56 fails: data of an inconsistent graph is read without an error; a call on the graph then
panics. -/
theorem C56_witness_inconsistent :
    ∃ g, readPG badData = .ok g ∧ g.nodeCount = 3 ∧ (List.range 4).filter g.containsNode = [0] ∧
      g.removeNode 0 = none :=
  ⟨⟨[.node ⟨0, 1, 0, 1⟩], [], [], none, [], 3, 1, 2⟩, by decide +kernel, by decide +kernel, by decide +kernel,
    by decide +kernel⟩

/-- C56 fails: without the field `node_free` the graph is read as one without free nodes. -/
theorem C56_witness_missing_field :
    readPG (.obj [("node_meta", .arr []), ("port_link", .arr []), ("port_meta", .arr []), ("port_free", .arr []),
      ("node_count", .num 0), ("port_count", .num 0), ("link_count", .num 0), ("_marker", .null)]) =
      .ok PG.empty := by
  decide +kernel

/-! ## Examples -/

/-- The hypotheses hold for a graph with free slots. -/
example : PG.Reach 32767 exG ∧ exG.nodeMeta.length ≤ 2 ^ 31 - 1 ∧ exG.portMeta.length ≤ 2 ^ 31 ∧
    exG.nodeMeta.length = 4 ∧ exG.nodeFree.isSome :=
  ⟨exG_reach, by decide, by decide, by decide, by decide⟩

example : Hier.Reach exH ∧ exH.data.data.length ≤ 2 ^ 31 ∧ exH.kids 0 = [1, 2, 3] :=
  ⟨exH_reach, by decide, by decide⟩

/-- A codec for bit vectors, for the example. -/
def exWriteBits (l : List Bool) : Data := writeVec (fun b => .num b.toNat) l

def exReadBits : Data → Outcome (List Bool) := readVec fun d => (readUnsigned 1 d).bind fun n => .ok (n == 1)

/-- The fields of the multiport graph `exM`. -/
def exRaw : RawMG :=
  ⟨Multi.exM.graph, (List.range 20).map Multi.exM.multi, (List.range 20).map Multi.exM.copy, Multi.exM.copyCount,
    Multi.exM.subCount⟩

/-- The hypotheses of `C55_multiportgraph` hold for a codec; the fields are those of a multiport graph
made by calls up to the flags beyond the vectors. -/
theorem exBits (l : List Bool) : Survives exWriteBits exReadBits l := readVec_write fun b _ => by cases b <;> rfl

example : exRaw.copyCount = 3 ∧ (readMG exReadBits (writeMG true exWriteBits exRaw)) = .ok exRaw := by decide +kernel

theorem get_range (f : Nat → Bool) (k : Nat) (hf : ∀ i, f i = true → i < k) : Bits.get ((List.range k).map f) = f := by
  funext i
  unfold Bits.get
  by_cases hi : i < k
  · simp only [List.getElem?_map, List.getElem?_range hi, Option.map_some]
    cases f i <;> simp
  · rw [List.getElem?_eq_none (by simpa using hi)]
    cases h : f i with
    | false => simp
    | true => exact absurd (hf i h) hi

/-- The fields `exRaw` are those of a multiport graph made by calls. -/
theorem exRaw_reach : Multi.MReach 32767 exRaw.toMG ∧ exRaw.graph.nodeMeta.length = 6 := by
  have hr : Multi.MReach 32767 Multi.exM := Multi.built_reach _
  have hM := hr.ok (by decide) (by decide)
  have h1 : Bits.get ((List.range 20).map Multi.exM.multi) = Multi.exM.multi := by
    refine get_range _ _ fun i hi => ?_
    obtain ⟨e, he⟩ := hM.multi_live hi
    have hl : i < Multi.exM.graph.portMeta.length := PG.port?_lt (by rw [he.port hM.inv]; rfl)
    have : Multi.exM.graph.portMeta.length ≤ 20 := by decide +kernel
    omega
  have h2 : Bits.get ((List.range 20).map Multi.exM.copy) = Multi.exM.copy := by
    refine get_range _ _ fun i hi => ?_
    have hc := hM.copyLive i hi
    have hl : i < Multi.exM.graph.nodeMeta.length := by
      rcases Nat.lt_or_ge i Multi.exM.graph.nodeMeta.length with h | h
      · exact h
      · simp [PG.containsNode, PG.node?, List.getElem?_eq_none h] at hc
    have : Multi.exM.graph.nodeMeta.length ≤ 20 := by decide +kernel
    omega
  have h : exRaw.toMG = Multi.exM := by
    show Multi.MG.mk _ (Bits.get ((List.range 20).map Multi.exM.multi)) (Bits.get ((List.range 20).map Multi.exM.copy)) _ _ = _
    rw [h1, h2]
    rfl
  rw [h]
  exact ⟨hr, by decide +kernel⟩

/-- The graph of the snapshot test `test_serde_node_index`, `src/index.rs` lines 676–682, made by
`line_graph`, `src/boundary.rs` lines 522–530. -/
def lineG : PG :=
  (PG.run 32766 PG.empty [.addNode 4 4, .addNode 4 4, .addNode 4 4, .addNode 4 4, .addNode 4 4, .linkPorts 4 8,
    .linkPorts 12 16, .linkPorts 20 24, .linkPorts 28 32]).getD PG.empty

/-- The model writes what the snapshot
`src/snapshots/portgraph__index__test_serde__serde_node_index.snap` shows. -/
example : writePG true lineG =
    .obj [
      ("node_meta", .arr ([0, 8, 16, 24, 32].map fun f =>
        .obj [("n", .obj [("first_port", .num f), ("incoming", .num 5), ("outgoing", .num 4), ("capacity", .num 8)])])),
      ("port_link", .arr [.null, .null, .null, .null, .num 8, .null, .null, .null, .num 4, .null, .null, .null,
        .num 16, .null, .null, .null, .num 12, .null, .null, .null, .num 24, .null, .null, .null, .num 20, .null,
        .null, .null, .num 32, .null, .null, .null, .num 28, .null, .null, .null, .null, .null, .null, .null]),
      ("port_meta", .arr ([1, 1, 1, 1, 2147483649, 2147483649, 2147483649, 2147483649, 2, 2, 2, 2, 2147483650,
        2147483650, 2147483650, 2147483650, 3, 3, 3, 3, 2147483651, 2147483651, 2147483651, 2147483651, 4, 4, 4, 4,
        2147483652, 2147483652, 2147483652, 2147483652, 5, 5, 5, 5, 2147483653, 2147483653, 2147483653,
        2147483653].map .num)),
      ("node_free", .null), ("port_free", .arr []), ("node_count", .num 5), ("port_count", .num 40),
      ("link_count", .num 4), ("_marker", .null)] := by
  rfl

/-- Weights of an option type with a default. -/
example : Survives (writeDense true (writeOption Data.num)) (readDense (readOption (readUnsigned 8)))
    ⟨[some 3, none, some 255], none⟩ :=
  C55_dense_map true (by intro v hv; simp at hv; rcases hv with rfl | rfl | rfl <;> rfl) rfl

/-- The offset 3 of an outgoing port. -/
example : offsetNew 16 .outgoing 3 = some 0x8003#16 ∧ (0x8003#16 : BitField 16) ≠ newNone 16 := by decide

example := (C55_port_offset 16 (by decide) (by decide) true 0x8003#16).2 (by decide)

example := C55_portgraph (by decide) exG_reach (by decide) (by decide) true

example := C55_portgraph_injective (by decide) exG_reach exG_reach (by decide) (by decide) (by decide) (by decide) (named := false) rfl

example : ∃ l, writePG true exG = .obj l ∧ readPG (.obj (("comment", .null) :: l.reverse)) = .ok exG := by
  refine ⟨_, rfl, C55_field_order (by decide) exG_reach (by decide) (by decide) rfl (extra := [("comment", .null)]) ?_ (by decide)⟩
  exact (List.Perm.cons _ (List.reverse_perm _)).trans (List.perm_append_singleton _ _).symm

example := C55_weights true (wn := Data.num) (rn := readUnsigned 8) (wp := writeOption Data.num) (rp := readOption (readUnsigned 8))
  (x := ⟨⟨[3, 255], 0⟩, ⟨[some 7, none], none⟩⟩) (by intro v hv; simp at hv; rcases hv with rfl | rfl <;> rfl) rfl
  (by intro v hv; simp at hv; rcases hv with rfl | rfl <;> rfl) rfl

example := C55_hierarchy exH_reach (by decide) true

example := C55_subport true (s := (7, 300)) (by decide) (by decide)

example := C55_multiportgraph (by decide) (by decide) exRaw_reach.1 (by decide +kernel) (by decide +kernel) exBits true

example := C56_portgraph_partial (d := writePG true exG) (g := exG) (C55_portgraph (by decide) exG_reach (by decide) (by decide) true)

#print axioms C55_indices
#print axioms C55_port_offset
#print axioms C55_portgraph
#print axioms C55_portgraph_injective
#print axioms C55_field_order
#print axioms C55_dense_map
#print axioms C55_weights
#print axioms C55_hierarchy
#print axioms C55_subport
#print axioms C55_multiportgraph
#print axioms C56_portgraph_partial
#print axioms C56_index_partial
#print axioms C56_witness_index_out_of_range
#print axioms C56_witness_offset_out_of_range
#print axioms C56_witness_inconsistent
#print axioms C56_witness_missing_field

/-- The names of the fields of a stored port graph, `src/portgraph.rs` lines 46–70. -/
def graphFields : List String :=
  ["node_meta", "port_link", "port_meta", "node_free", "port_free", "node_count", "port_count", "link_count", "_marker"]

/-- C56. Data in which a field of the graph occurs twice is refused. -/
theorem C56_repeated_field (l : List (String × Data)) (n : String) (hn : n ∈ graphFields)
    (h2 : 2 ≤ (l.map Prod.fst).count n) : readPG (.obj l) = .error := by
  have : ¬ ((l.map Prod.fst).filter graphFields.contains).Nodup := by
    intro h
    have hc := List.nodup_iff_count.mp h n
    rw [List.count_filter (by simpa using hn)] at hc
    omega
  have e : readStruct graphFields (.obj l) = .error := if_neg this
  unfold readPG
  rw [show ["node_meta", "port_link", "port_meta", "node_free", "port_free", "node_count",
    "port_count", "link_count", "_marker"] = graphFields from rfl, e]
  rfl

example := C56_repeated_field [("node_count", .num 1), ("port_count", .num 2), ("node_count", .num 1)] "node_count" (by decide) (by decide)

/-- C56. Fields with other names do not matter. -/
theorem C56_unknown_field (l r : List (String × Data)) (n : String) (d : Data) (hn : n ∉ graphFields) :
    readPG (.obj (l ++ (n, d) :: r)) = readPG (.obj (l ++ r)) := by
  have key : ∀ m, m ∈ graphFields → (l ++ (n, d) :: r).lookup m = (l ++ r).lookup m := by
    intro m hm
    have hne : (m == n) = false := by
      rw [beq_eq_false_iff_ne]
      rintro rfl
      exact hn hm
    rw [List.lookup_append, List.lookup_append, List.lookup_cons, hne]
  have hk : graphFields.contains n = false := by simpa using hn
  have e : (((l ++ (n, d) :: r).map Prod.fst).filter graphFields.contains) =
      (((l ++ r).map Prod.fst).filter graphFields.contains) := by
    rw [List.map_append, List.map_append, List.filter_append, List.filter_append, List.map_cons, List.filter_cons]
    simp only [hk, Bool.false_eq_true, if_false]
  have e1 : ∀ l, readStruct graphFields (.obj l) =
      if ((l.map Prod.fst).filter graphFields.contains).Nodup then .ok fun n => l.lookup n else .error := fun _ => rfl
  unfold readPG
  rw [show ["node_meta", "port_link", "port_meta", "node_free", "port_free", "node_count",
    "port_count", "link_count", "_marker"] = graphFields from rfl, e1, e1, e]
  split
  · simp only [Outcome.bind]
    rw [key _ (by decide), key _ (by decide), key _ (by decide), key _ (by decide), key _ (by decide), key _ (by decide),
      key _ (by decide), key _ (by decide), key _ (by decide)]
  · rfl

example : "comment" ∉ graphFields ∧ "node_count" ∈ graphFields := by decide

end Verif.Serde
#print axioms Verif.Serde.C56_repeated_field
#print axioms Verif.Serde.C56_unknown_field
