import Verif.Serde.Spec
import Verif.Index.Props

/-! Lemmas: the readers undo the writers on values that fit, and what is read fits. -/

namespace Verif.Serde

open Verif (Direction)
open Verif.Index Verif.PG Verif.Hier Verif.Secondary Verif.Weights

@[simp] theorem bind_ok {α β : Type} (a : α) (f : α → Outcome β) : (Outcome.ok a).bind f = f a := rfl
@[simp] theorem bind_error {α β : Type} (f : α → Outcome β) : Outcome.bind .error f = .error := rfl
@[simp] theorem bind_panic {α β : Type} (f : α → Outcome β) : Outcome.bind .panic f = .panic := rfl

theorem bind_eq_ok {α β : Type} {x : Outcome α} {f : α → Outcome β} {b : β} :
    x.bind f = .ok b ↔ ∃ a, x = .ok a ∧ f a = .ok b := by
  cases x <;> simp [Outcome.bind]

theorem zip_fst_snd (fs : List (String × Data)) : (fs.map Prod.fst).zip (fs.map Prod.snd) = fs := by
  induction fs with
  | nil => rfl
  | cons x fs ih => simp [ih]

/-- The fields of a written struct are found. -/
theorem readStruct_write (named : Bool) (fs : List (String × Data)) (hn : (fs.map Prod.fst).Nodup) :
    readStruct (fs.map Prod.fst) (writeStruct named fs) = .ok fun n => fs.lookup n := by
  cases named with
  | true =>
    simp only [writeStruct, if_true, readStruct]
    rw [if_pos (hn.filter _)]
  | false =>
    simp only [writeStruct, Bool.false_eq_true, if_false, readStruct, List.length_map, if_true, zip_fst_snd]

@[simp] theorem required_some {α : Type} (r : Data → Outcome α) (d : Data) : required r (some d) = r d := rfl
@[simp] theorem maybeField_some (d : Data) : maybeField (some d) = readMaybe d := rfl
theorem required_eq_ok {α : Type} {r : Data → Outcome α} {o : Option Data} {a : α} :
    required r o = .ok a ↔ ∃ d, o = some d ∧ r d = .ok a := by
  cases o <;> simp [required]

theorem readList_write {α : Type} {w : α → Data} {r : Data → Outcome α} {l : List α}
    (h : ∀ x ∈ l, Survives w r x) : readList r (l.map w) = .ok l := by
  induction l with
  | nil => rfl
  | cons x l ih =>
    have h1 : r (w x) = .ok x := h x (by simp)
    have h2 := ih fun y hy => h y (by simp [hy])
    show (r (w x)).bind (fun a => (readList r (l.map w)).bind fun b => .ok (a :: b)) = _
    rw [h1, h2]; rfl

theorem readVec_write {α : Type} {w : α → Data} {r : Data → Outcome α} {l : List α}
    (h : ∀ x ∈ l, Survives w r x) : readVec r (writeVec w l) = .ok l := readList_write h

theorem readList_mem {α : Type} {r : Data → Outcome α} {l : List Data} {xs : List α}
    (h : readList r l = .ok xs) : ∀ x ∈ xs, ∃ d, r d = .ok x := by
  induction l generalizing xs with
  | nil => cases h; intro x hx; cases hx
  | cons d l ih =>
    change (r d).bind (fun a => (readList r l).bind fun b => .ok (a :: b)) = _ at h
    obtain ⟨a, h1, h⟩ := bind_eq_ok.1 h
    obtain ⟨b, h2, h⟩ := bind_eq_ok.1 h
    cases h
    intro x hx
    rcases List.mem_cons.1 hx with rfl | hx
    · exact ⟨d, h1⟩
    · exact ih h2 x hx

theorem readVec_mem {α : Type} {r : Data → Outcome α} {d : Data} {xs : List α}
    (h : readVec r d = .ok xs) : ∀ x ∈ xs, ∃ d, r d = .ok x := by
  cases d <;> simp only [readVec] at h <;> try cases h
  exact readList_mem h

@[simp] theorem readUnsigned_num {w n : Nat} (h : n < 2 ^ w) : readUnsigned w (.num n) = .ok n := by
  simp [readUnsigned, h]

theorem readUnsigned_lt {w : Nat} {d : Data} {n : Nat} (h : readUnsigned w d = .ok n) : n < 2 ^ w := by
  cases d <;> simp only [readUnsigned] at h <;> try cases h
  split at h
  · cases h; assumption
  · cases h

theorem readNonZero_num {w n : Nat} (h0 : 0 < n) (h : n < 2 ^ w) : readNonZero w (.num n) = .ok n := by
  simp [readNonZero, h, h0]

theorem readNonZero_lt {w : Nat} {d : Data} {n : Nat} (h : readNonZero w d = .ok n) : 0 < n ∧ n < 2 ^ w := by
  cases d <;> simp only [readNonZero] at h <;> try cases h
  split at h
  · cases h; assumption
  · cases h

/-! ## Indices -/

theorem readRaw_num {i : Nat} (h : i < 2 ^ 32) : readRaw (.num i) = .ok (BitVec.ofNat 32 i) := by
  have h' : i < 2 ^ 64 := by omega
  simp only [readRaw, readUnsigned_num h', bind_ok]
  simp only [indexNew, bfNew, h, if_true, Bool.false_eq_true, if_false]

theorem indexOf_ofNat {i : Nat} (h : i < 2 ^ 31) : indexOf (BitVec.ofNat 32 i) = i := by
  rw [indexOf, indexUnchecked_eq 32 (by decide), BitVec.toNat_ofNat]
  omega

theorem indexOf_lt (b : BitField 32) : indexOf b < 2 ^ 31 := by
  rw [indexOf, indexUnchecked_eq 32 (by decide)]
  exact Nat.mod_lt _ (by decide)

theorem readIndex_write {i : Nat} (h : i < 2 ^ 31) : readIndex (writeIndex i) = .ok i := by
  rw [readIndex, writeIndex, readRaw_num (by omega), bind_ok, indexOf_ofNat h]

theorem readIndex_lt {d : Data} {i : Nat} (h : readIndex d = .ok i) : i < 2 ^ 31 := by
  obtain ⟨b, -, h⟩ := bind_eq_ok.1 h
  cases h
  exact indexOf_lt b

theorem readMaybe_write {o : Option Nat} (h : Below (2 ^ 31) o) : readMaybe (writeMaybe o) = .ok o := by
  cases o with
  | none => decide
  | some i =>
    have hi := h i rfl
    show ((readOption readRaw (.num i)).bind _) = _
    simp only [readOption, readRaw_num (show i < 2 ^ 32 by omega), bind_ok]
    have hn : isNone (BitVec.ofNat 32 i) = false := by
      rw [isNone_false_iff, BitVec.toNat_ofNat]
      omega
    have hm : maybeToOption (maybeNew (some (BitVec.ofNat 32 i))) = some (BitVec.ofNat 32 i) := by
      show (if isNone (BitVec.ofNat 32 i) = true then none else some (BitVec.ofNat 32 i)) = _
      simp [hn]
    rw [hm]
    simp [indexOf_ofNat hi]

theorem readMaybe_below {d : Data} {o : Option Nat} (h : readMaybe d = .ok o) : Below (2 ^ 31) o := by
  obtain ⟨b, -, h⟩ := bind_eq_ok.1 h
  cases h
  intro i hi
  cases hb : maybeToOption (maybeNew b) with
  | none => rw [hb] at hi; cases hi
  | some x => rw [hb] at hi; cases hi; exact indexOf_lt x

theorem maybeField_below {d : Option Data} {o : Option Nat} (h : maybeField d = .ok o) : Below (2 ^ 31) o := by
  cases d with
  | none => cases h; intro i hi; cases hi
  | some d => exact readMaybe_below h

/-! ## Port graphs -/

theorem readMeta_write (named : Bool) {m : NodeMeta} (h : EntryFits (.node m)) :
    readMeta (writeMeta named m) = .ok m := by
  obtain ⟨h1, h2, h3, h4⟩ := h
  have hs := readStruct_write named [("first_port", writeIndex m.first), ("incoming", .num (m.incoming + 1)),
    ("outgoing", .num m.outgoing), ("capacity", .num m.capacity)] (by simp)
  simp only [List.map_cons, List.map_nil] at hs
  rw [readMeta, writeMeta, hs]
  simp [List.lookup, readIndex_write h1, readNonZero_num (w := 16) (n := m.incoming + 1) (by omega) (by omega),
    readUnsigned_num (w := 16) (n := m.outgoing) (by omega), readUnsigned_num (w := 16) (n := m.capacity) (by omega)]

theorem readMeta_fits {d : Data} {m : NodeMeta} (h : readMeta d = .ok m) : EntryFits (.node m) := by
  obtain ⟨s, -, h⟩ := bind_eq_ok.1 h
  obtain ⟨f, h1, h⟩ := bind_eq_ok.1 h
  obtain ⟨i, h2, h⟩ := bind_eq_ok.1 h
  obtain ⟨o, h3, h⟩ := bind_eq_ok.1 h
  obtain ⟨c, h4, h⟩ := bind_eq_ok.1 h
  cases h
  obtain ⟨_, -, h1⟩ := required_eq_ok.1 h1
  obtain ⟨_, -, h2⟩ := required_eq_ok.1 h2
  obtain ⟨_, -, h3⟩ := required_eq_ok.1 h3
  obtain ⟨_, -, h4⟩ := required_eq_ok.1 h4
  have a1 := readIndex_lt h1
  have a2 := readNonZero_lt h2
  have a3 := readUnsigned_lt h3
  have a4 := readUnsigned_lt h4
  refine ⟨a1, ?_, ?_, ?_⟩ <;> simp only <;> omega

theorem readNodeEntry_write (named : Bool) {e : NodeEntry} (h : EntryFits e) :
    Survives (writeNodeEntry named) readNodeEntry e := by
  cases e with
  | free p n =>
    have hs := readStruct_write named [("prev", writeMaybe p), ("next", writeMaybe n)] (by simp)
    simp only [List.map_cons, List.map_nil] at hs
    simp only [Survives, writeNodeEntry, readNodeEntry]
    rw [hs]
    simp [List.lookup, readMaybe_write h.1, readMaybe_write h.2]
  | node m => simp only [Survives, writeNodeEntry, readNodeEntry, readMeta_write named h, bind_ok]

theorem readNodeEntry_fits {d : Data} {e : NodeEntry} (h : readNodeEntry d = .ok e) : EntryFits e := by
  unfold readNodeEntry at h
  split at h
  · obtain ⟨s, -, h⟩ := bind_eq_ok.1 h
    obtain ⟨p, h1, h⟩ := bind_eq_ok.1 h
    obtain ⟨n, h2, h⟩ := bind_eq_ok.1 h
    cases h
    exact ⟨maybeField_below h1, maybeField_below h2⟩
  · obtain ⟨m, h1, h⟩ := bind_eq_ok.1 h
    cases h
    exact readMeta_fits h1
  · cases h

theorem portMetaNew_pos {n : Nat} (d : Direction) (h : n < 2 ^ 31 - 1) : 0 < (portMetaNew n d).toNat := by
  rcases Nat.eq_zero_or_pos (portMetaNew n d).toNat with h0 | h0
  · have e : portMetaNew n d = 0#32 := BitVec.eq_of_toNat_eq (by simpa using h0)
    have := (C07_port_meta_roundtrip n d (by omega)).1
    rw [e] at this
    exact absurd this (by simp [portMetaNode])
  · exact h0

theorem readPortEntry_write {e : PortEntry} (h : PortFits e) : Survives writePortEntry readPortEntry e := by
  cases e with
  | free => rfl
  | port n d =>
    have h' : n < 2 ^ 31 - 1 := h
    have hr := C07_port_meta_roundtrip n d (by omega)
    simp only [Survives, writePortEntry, readPortEntry,
      readNonZero_num (w := 32) (portMetaNew_pos d h') (portMetaNew n d).isLt, bind_ok]
    rw [BitVec.ofNat_toNat, BitVec.setWidth_eq, hr.1, hr.2]

theorem portMetaNode_lt {m : BitVec 32} {n : Nat} (h : portMetaNode m = some n) : n < 2 ^ 31 - 1 := by
  have hm : (m &&& ~~~(1#32 <<< (31 : Nat))).toNat = m.toNat % 2 ^ 31 := by
    have h := indexUnchecked_eq 32 (by decide) m
    have e : msbMask 32 = 1#32 <<< (31 : Nat) := by decide
    rw [indexUnchecked, e] at h
    exact h
  simp only [portMetaNode] at h
  rw [hm] at h
  split at h
  · cases h
  · cases h
    have := Nat.mod_lt m.toNat (show 0 < 2 ^ 31 by decide)
    omega

theorem readPortEntry_fits {d : Data} {e : PortEntry} (h : readPortEntry d = .ok e) : PortFits e := by
  unfold readPortEntry at h
  split at h
  · cases h; trivial
  · obtain ⟨n, -, h⟩ := bind_eq_ok.1 h
    split at h
    · cases h
    · cases h
      rename_i hn
      exact portMetaNode_lt hn

theorem readPG_write (named : Bool) {g : PG} (h : Fits g) : readPG (writePG named g) = .ok g := by
  have hs := readStruct_write named [("node_meta", writeVec (writeNodeEntry named) g.nodeMeta),
    ("port_link", writeVec writeMaybe g.portLink), ("port_meta", writeVec writePortEntry g.portMeta),
    ("node_free", writeMaybe g.nodeFree), ("port_free", writeVec writeMaybe g.portFree),
    ("node_count", .num g.nodeCount), ("port_count", .num g.portCount),
    ("link_count", .num g.linkCount), ("_marker", .null)] (by simp)
  simp only [List.map_cons, List.map_nil] at hs
  rw [readPG, writePG, hs]
  simp [List.lookup,
    readVec_write fun e he => readNodeEntry_write named (h.nodeMeta e he),
    readVec_write (w := writeMaybe) (r := readMaybe) fun o ho => readMaybe_write (h.portLink o ho),
    readVec_write fun e he => readPortEntry_write (h.portMeta e he),
    readMaybe_write h.nodeFree,
    readVec_write (w := writeMaybe) (r := readMaybe) fun o ho => readMaybe_write (h.portFree o ho),
    readUnsigned_num h.nodeCount, readUnsigned_num h.portCount, readUnsigned_num h.linkCount, readUnit]

theorem readPG_fits {d : Data} {g : PG} (h : readPG d = .ok g) : Fits g := by
  obtain ⟨s, -, h⟩ := bind_eq_ok.1 h
  obtain ⟨nm, h1, h⟩ := bind_eq_ok.1 h
  obtain ⟨pl, h2, h⟩ := bind_eq_ok.1 h
  obtain ⟨pm, h3, h⟩ := bind_eq_ok.1 h
  obtain ⟨nf, h4, h⟩ := bind_eq_ok.1 h
  obtain ⟨pf, h5, h⟩ := bind_eq_ok.1 h
  obtain ⟨nc, h6, h⟩ := bind_eq_ok.1 h
  obtain ⟨pc, h7, h⟩ := bind_eq_ok.1 h
  obtain ⟨lc, h8, h⟩ := bind_eq_ok.1 h
  obtain ⟨_, -, h⟩ := bind_eq_ok.1 h
  cases h
  obtain ⟨_, -, h1⟩ := required_eq_ok.1 h1
  obtain ⟨_, -, h2⟩ := required_eq_ok.1 h2
  obtain ⟨_, -, h3⟩ := required_eq_ok.1 h3
  obtain ⟨_, -, h5⟩ := required_eq_ok.1 h5
  obtain ⟨_, -, h6⟩ := required_eq_ok.1 h6
  obtain ⟨_, -, h7⟩ := required_eq_ok.1 h7
  obtain ⟨_, -, h8⟩ := required_eq_ok.1 h8
  constructor
  · intro e he; obtain ⟨_, hd⟩ := readVec_mem h1 e he; exact readNodeEntry_fits hd
  · intro e he; obtain ⟨_, hd⟩ := readVec_mem h2 e he; exact readMaybe_below hd
  · intro e he; obtain ⟨_, hd⟩ := readVec_mem h3 e he; exact readPortEntry_fits hd
  · exact maybeField_below h4
  · intro e he; obtain ⟨_, hd⟩ := readVec_mem h5 e he; exact readMaybe_below hd
  · exact readUnsigned_lt h6
  · exact readUnsigned_lt h7
  · exact readUnsigned_lt h8

/-! ## Maps -/

theorem readDense_write {V : Type} (named : Bool) {w : V → Data} {r : Data → Outcome V} {m : Dense V}
    (hd : ∀ v ∈ m.data, Survives w r v) (h0 : Survives w r m.default) :
    readDense r (writeDense named w m) = .ok m := by
  have hs := readStruct_write named [("data", writeVec w m.data), ("phantom", .null), ("default", w m.default)]
    (by simp)
  simp only [List.map_cons, List.map_nil] at hs
  rw [readDense, writeDense, hs]
  have h0' : r (w m.default) = .ok m.default := h0
  simp [List.lookup, readVec_write hd, readUnit, h0']

theorem readPair_write {a b : Option Nat} (ha : Below (2 ^ 31) a) (hb : Below (2 ^ 31) b) :
    readPair (.arr [writeMaybe a, writeMaybe b]) = .ok (a, b) := by
  simp [readPair, readMaybe_write ha, readMaybe_write hb]

theorem readNodeData_write (named : Bool) {x : NodeData} (h : DataFits x) :
    Survives (writeNodeData named) readNodeData x := by
  have hs := readStruct_write named [("children", .arr [writeMaybe x.first, writeMaybe x.last]),
    ("children_count", .num x.count), ("parent", writeMaybe x.parent),
    ("siblings", .arr [writeMaybe x.prev, writeMaybe x.next])] (by simp)
  simp only [List.map_cons, List.map_nil] at hs
  rw [Survives, readNodeData, writeNodeData, hs]
  simp [List.lookup, readPair_write h.first h.last, readUnsigned_num h.count, readMaybe_write h.parent,
    readPair_write h.prev h.next]

theorem readHierarchy_write (named : Bool) {h : Hierarchy} (hd : ∀ x ∈ h.data.data, DataFits x)
    (h0 : DataFits h.data.default) : readHierarchy (writeHierarchy named h) = .ok h := by
  have hs := readStruct_write named [("data", writeDense named (writeNodeData named) h.data)] (by simp)
  simp only [List.map_cons, List.map_nil] at hs
  rw [readHierarchy, writeHierarchy, hs]
  simp [List.lookup, readDense_write named (fun x hx => readNodeData_write named (hd x hx))
    (readNodeData_write named h0)]

end Verif.Serde
