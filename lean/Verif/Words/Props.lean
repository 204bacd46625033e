import Verif.Words.Encode
import Verif.PortGraph.Example
import Verif.PortGraph.OpsAdd

/-!
# C73, C74: the machine words of a `PortGraph`
-/

namespace Verif.Words

open Verif (Direction)
open Verif.Index Verif.PG

theorem Held.facts {maxOff : Nat} (hmax : maxOff ≤ 32767) {g : PG} (h : Held maxOff g) :
    (encG g).Canon ∧ (encG g).dec = g ∧ PG.Inv g ∧ Fits g := by
  induction h with
  | init => exact ⟨.empty, rfl, Inv.empty, by simp [Fits, PG.empty]⟩
  | @step g g' op _ ha hok hs hf' ih =>
    obtain ⟨c1, c2, c3, c4⟩ := ih
    obtain ⟨a, hr⟩ : ∃ a, Undo.ask maxOff g op = some (a, g') := by
      rw [← ask_step] at hs
      obtain ⟨⟨a, x⟩, h1, rfl⟩ := Option.map_eq_some_iff.1 hs
      exact ⟨a, h1⟩
    obtain ⟨-, d2, d3⟩ := call_enc (w := encG g) (by rw [c2]; exact c3) c1 ha (by rw [c2]; exact c4) (by rw [c2]; exact hr) hf'
    obtain ⟨g'', e1, e2⟩ := step_ok hmax c3 hok
    rw [hs] at e1
    cases e1
    exact ⟨d2, d3, e2, hf'⟩

/-! ## C73 -/

/-- One call on the words gives the word of the answer and the words of the next graph. -/
theorem C73_call {maxOff : Nat} (hmax : maxOff ≤ 32767) {g : PG} (hg : Held maxOff g) {op : PG.Op} (ha : ArgsFit op)
    (hok : PG.Op.ok maxOff g op) (hf : ∀ g', g.step maxOff op = some g' → Fits g') :
    ∃ a g', Undo.ask maxOff g op = some (a, g') ∧
      (encG g).ask maxOff (encOp op) = some (encAnswer a, encG g') ∧ Held maxOff g' := by
  obtain ⟨c1, c2, c3, c4⟩ := hg.facts hmax
  obtain ⟨g', e1, -⟩ := step_ok hmax c3 hok
  obtain ⟨a, hr⟩ : ∃ a, Undo.ask maxOff g op = some (a, g') := by
    have e2 := e1
    rw [← ask_step] at e2
    obtain ⟨⟨a, x⟩, h1, rfl⟩ := Option.map_eq_some_iff.1 e2
    exact ⟨a, h1⟩
  obtain ⟨d1, -, -⟩ := call_enc (w := encG g) (by rw [c2]; exact c3) c1 ha (by rw [c2]; exact c4) (by rw [c2]; exact hr) (hf g' e1)
  exact ⟨a, g', hr, d1, .step hg ha hok e1 (hf g' e1)⟩

/-- A history on the words, from the empty graph: no call panics, each answer is the word of the
answer in numbers, and the memory at the end is that of the graph of numbers. -/
theorem C73_history {maxOff : Nat} (hmax : maxOff ≤ 32767) {ops : List PG.Op} (h : FitRun maxOff PG.empty ops) :
    ∃ as g, Undo.askAll maxOff PG.empty ops = some (as, g) ∧
      WG.askAll maxOff WG.empty (ops.map encOp) = some (as.map encAnswer, encG g) ∧ Held maxOff g := by
  have key : ∀ (ops : List PG.Op) (g : PG), Held maxOff g → FitRun maxOff g ops →
      ∃ as g', Undo.askAll maxOff g ops = some (as, g') ∧
        WG.askAll maxOff (encG g) (ops.map encOp) = some (as.map encAnswer, encG g') ∧ Held maxOff g' := by
    intro ops
    induction ops with
    | nil => exact fun g hg _ => ⟨[], g, rfl, rfl, hg⟩
    | cons op ops ih =>
      intro g hg hr
      obtain ⟨h1, h2, h3⟩ := hr
      obtain ⟨a, g1, e1, e2, e3⟩ := C73_call hmax hg h1 h2 (fun g' hs => (h3 g' hs).1)
      have hs : g.step maxOff op = some g1 := by rw [← ask_step, e1]; rfl
      obtain ⟨as, g2, f1, f2, f3⟩ := ih g1 e3 (h3 g1 hs).2
      refine ⟨a :: as, g2, by simp [Undo.askAll, e1, f1], ?_, f3⟩
      simp [WG.askAll, e2, f2]
  exact key ops PG.empty .init h

/-- Different graphs have different words. -/
theorem C73_injective {maxOff : Nat} (hmax : maxOff ≤ 32767) {g h : PG} (hg : Held maxOff g) (hh : Held maxOff h)
    (he : encG g = encG h) : g = h := by
  rw [← (hg.facts hmax).2.1, ← (hh.facts hmax).2.1, he]

/-- The queries on the words give the words of their answers. -/
theorem C73_queries {maxOff : Nat} (hmax : maxOff ≤ 32767) {g : PG} (hg : Held maxOff g) {x : Nat} (hx : x < 2 ^ 31)
    (d : Direction) (k : Nat) :
    (encG g).containsNode (encIx x) = g.containsNode x ∧ (encG g).containsPort (encIx x) = g.containsPort x ∧
      (encG g).numPorts (encIx x) d = g.numPorts x d ∧ (encG g).nodePortCapacity (encIx x) = g.nodePortCapacity x ∧
      (encG g).portDirection (encIx x) = g.portDirection x ∧
      (encG g).portNode (encIx x) = some ((g.portNode x).map encIx) ∧
      (encG g).portIndex (encIx x) d k = some ((g.portIndex x d k).map encIx) ∧
      (encG g).portLink? (encIx x) = (g.portLink? x).map (Option.map encIx) := by
  obtain ⟨c1, c2, c3, c4⟩ := hg.facts hmax
  have hn := node_dec (encG g) (encIx x)
  have hp := port_dec (encG g) (encIx x)
  rw [c2, index_encIx hx] at hn hp
  have hlk := dec_portLink (encG g) x
  rw [c2] at hlk
  refine ⟨?_, ?_, ?_, ?_, ?_, ?_, ?_, ?_⟩
  · simp [WG.containsNode, PG.containsNode, hn]
  · simp [WG.containsPort, PG.containsPort, hp]
  · simp only [WG.numPorts, PG.numPorts, hn]
    cases (encG g).node? (encIx x) <;> rfl
  · simp only [WG.nodePortCapacity, PG.nodePortCapacity, hn]
    cases (encG g).node? (encIx x) <;> rfl
  · simp [WG.portDirection, PG.portDirection, hp, Function.comp_def]
  · simp only [WG.portNode, PG.portNode, hp]
    cases hw : (encG g).port? (encIx x) with
    | none => rfl
    | some m =>
      have hm : CP (.port m) := by
        unfold WG.port? at hw
        split at hw
        · rename_i hg'
          cases hw
          exact all_get c1.3 hg'
        · cases hw
      obtain ⟨n, d', hn', rfl⟩ := hm
      have hr := C07_port_meta_roundtrip n d' (by unfold maxSlots at hn'; omega)
      simp only [hr.1, Option.map_some, Option.getD_some]
      rw [(new_eq (i := n) (by unfold maxSlots at hn'; omega)).1]
      rfl
  · simp only [WG.portIndex, PG.portIndex, hn]
    cases hw : (encG g).node? (encIx x) with
    | none => rfl
    | some m =>
      simp only [Option.map_some]
      cases hq : (m.view.ports d)[k]? with
      | none => rfl
      | some p =>
        have hb := node_bounds (w := encG g) (by rw [c2]; exact c3) hw
        have h1 := ports_lt m.view d (List.mem_of_getElem? hq)
        have h2 : (encG g).portMeta.length ≤ maxSlots := by rw [← len_portMeta, c2]; exact c4.2
        simp only
        rw [(new_eq (i := p) (by unfold maxSlots at h2; omega)).1]
        rfl
  · simp only [WG.portLink?, PG.portLink?, hp]
    cases (encG g).port? (encIx x) with
    | none => rfl
    | some m =>
      simp only [Option.map_some]
      rw [hlk, index_encIx hx]
      cases hl : (encG g).portLink[x]? with
      | none => rfl
      | some l =>
        simp only [Option.map_some]
        rw [← maybe_map, encMaybe_map]
        exact fun y hy => CM.some (all_get c1.2 hl) hy

/-- `port_offset` on the words: the `PortOffset` of the direction and number, or the panic of
`PortOffset::new` where they do not fit. -/
theorem C73_port_offset {maxOff : Nat} (hmax : maxOff ≤ 32767) {g : PG} (hg : Held maxOff g) {p : Nat} (hp : p < 2 ^ 31)
    (w : Nat) :
    ∃ r, g.portOffset p = some r ∧ (encG g).portOffset w (encIx p) =
      match r with
      | none => some none
      | some (d, k) => (offsetNew w d k).map some := by
  obtain ⟨c1, c2, c3, c4⟩ := hg.facts hmax
  have hpd := port_dec (encG g) (encIx p)
  rw [c2, index_encIx hp] at hpd
  unfold WG.portOffset PG.portOffset
  rw [hpd]
  cases hw : (encG g).port? (encIx p) with
  | none => exact ⟨none, rfl, rfl⟩
  | some m =>
    have hm : CP (.port m) := by
      unfold WG.port? at hw
      split at hw
      · rename_i hg'
        cases hw
        exact all_get c1.3 hg'
      · cases hw
    obtain ⟨n, d', hn', rfl⟩ := hm
    have hr := C07_port_meta_roundtrip n d' (by unfold maxSlots at hn'; omega)
    have hn31 : n < 2 ^ 31 := by unfold maxSlots at hn'; omega
    obtain ⟨e1, e2⟩ := new_eq hn31
    simp only [Option.map_some, hr.1, hr.2, Option.getD_some, e1]
    rw [hw] at hpd
    simp only [Option.map_some, hr.1, hr.2, Option.getD_some] at hpd
    obtain ⟨own, fs, hP, hfull⟩ := c3.slots
    obtain ⟨nm, h1, h2, h3⟩ := (hP.ports p n d').1 hpd
    have hnd := node_dec (encG g) (BitVec.ofNat 32 n)
    rw [c2, e2, h1] at hnd
    obtain ⟨wm, hwm, rfl⟩ := Option.map_eq_some_iff.1 hnd.symm
    rw [hwm]
    simp only [index_encIx hp]
    rw [h1]
    simp only
    cases d' with
    | incoming =>
      have : wm.view.first ≤ p := by simpa [NodeMeta.start] using h2
      simp [this]
    | outgoing =>
      have h4 : wm.view.first + wm.view.incoming ≤ p := by simpa [NodeMeta.start] using h2
      have h5 : wm.view.first ≤ p := by omega
      simp [h4, h5]

/-- The values given to `NonZeroU16::new_unchecked` and `NonZeroU32::new_unchecked` are not zero, as
the comments marked `SAFETY` claim. -/
theorem C73_nonzero {maxOff : Nat} (hmax : maxOff ≤ 32767) {g : PG} (hg : Held maxOff g) :
    (∀ m, WEntry.node m ∈ (encG g).nodeMeta → m.incoming ≠ 0#16) ∧ ∀ x, WPort.port x ∈ (encG g).portMeta → x ≠ 0#32 := by
  obtain ⟨c1, c2, c3, c4⟩ := hg.facts hmax
  constructor
  · intro m hm h0
    obtain ⟨i, hi⟩ := List.mem_iff_getElem?.1 hm
    obtain ⟨own, fs, hP, hfull⟩ := c3.slots
    have : g.node? i = some m.view := by
      rw [← c2]
      unfold PG.node?
      rw [dec_nodeMeta, hi]
      rfl
    have hb := (hP.bound i m.view this).2.2.2.1
    have : m.view.incoming = 65535 := by
      show (m.incoming - 1#16).toNat = _
      rw [h0]; decide
    omega
  · intro x hx h0
    obtain ⟨n, d, hn, rfl⟩ := c1.3 _ hx
    have := (C07_port_meta_roundtrip n d (by unfold maxSlots at hn; omega)).1
    rw [h0] at this
    have h1 : portMetaNode 0#32 = none := by decide
    rw [h1] at this
    cases this

/-! ## C74 -/

/-- Within the limits the index that `add_node` returns is at most `max_index` and was not in use.
What is missing: beyond the limits the documented panic does not come, see the witnesses. -/
theorem C74_fresh_partial {maxOff : Nat} (hmax : maxOff ≤ 32767) {g : PG} (hg : Held maxOff g) {i o : Nat}
    (hi : i ≤ maxOff) (ho : o ≤ maxOff) (hf : ∀ g', g.step maxOff (.addNode i o) = some g' → Fits g') :
    ∃ n w', (encG g).addNode maxOff i o = some (n, w') ∧ n.toNat ≤ 2 ^ 31 - 2 ∧
      (encG g).containsNode n = false ∧ w'.containsNode n = true ∧
      ∀ x : Ix, x.toNat < 2 ^ 31 → x ≠ n → w'.containsNode x = (encG g).containsNode x := by
  obtain ⟨c1, c2, c3, c4⟩ := hg.facts hmax
  obtain ⟨n, f, g', h1, h2, h3, h4, -⟩ := addNode_ok c3 hi ho (by omega) (by omega)
  obtain ⟨a, g1, e1, e2, e3⟩ := C73_call hmax hg (op := .addNode i o) trivial ⟨hi, ho⟩ hf
  simp only [Undo.ask, h1, Option.map_some, Option.some.injEq, Prod.mk.injEq] at e1
  obtain ⟨rfl, rfl⟩ := e1
  have hn1 : n < g'.nodeMeta.length := by
    have : g'.node? n = some ⟨f, i, o, i + o⟩ := by rw [h4]; simp [upd]
    unfold PG.node? at this
    by_cases hlt : n < g'.nodeMeta.length
    · exact hlt
    · rw [List.getElem?_eq_none (by omega)] at this; cases this
  have hn2 : n < maxSlots := by have := (e3.facts hmax).2.2.2.1; omega
  have hn3 : n < 2 ^ 31 := by unfold maxSlots at hn2; omega
  simp only [WG.ask, encOp, Option.map_eq_some_iff] at e2
  obtain ⟨⟨wn, w'⟩, e4, e5⟩ := e2
  simp only [Prod.mk.injEq, encAnswer, WAnswer.node.injEq] at e5
  obtain ⟨rfl, rfl⟩ := e5
  refine ⟨encIx n, _, e4, ?_, ?_, ?_, ?_⟩
  · simp only [encIx, BitVec.toNat_ofNat]
    unfold maxSlots at hn2
    omega
  · rw [(C73_queries hmax hg hn3 .incoming 0).1]
    simp [PG.containsNode, h3]
  · rw [(C73_queries hmax e3 hn3 .incoming 0).1]
    simp [PG.containsNode, h4, upd]
  · intro x hx hne
    have ex : x = encIx x.toNat := by simp [encIx]
    have hne' : x.toNat ≠ n := fun h => hne (by rw [ex, h])
    rw [ex, (C73_queries hmax hg hx .incoming 0).1, (C73_queries hmax e3 hx .incoming 0).1]
    simp [PG.containsNode, h4, upd, hne']

/-- `k` nodes without ports. -/
def bare (k : Nat) : WG := { WG.empty with nodeMeta := List.replicate k (.node .default), nodeCount := k }

theorem bare_alloc {k : Nat} (h : k < 2 ^ 32) :
    (bare k).allocNode = some (BitVec.ofNat 32 k, { bare k with nodeMeta := (bare k).nodeMeta ++ [WEntry.free noIx noIx] }) := by
  have h1 : maybeToOption (bare k).nodeFree = none := by
    show maybeToOption noIx = none
    decide
  have h2 : indexNew 32 k = some (BitVec.ofNat 32 k) := by simp [indexNew, bfNew, h]
  have h3 : (bare k).nodeMeta.length = k := List.length_replicate
  unfold WG.allocNode
  rw [h1, h3, h2]

theorem bare_add {maxOff k : Nat} (h : k < 2 ^ 31) :
    (bare k).addNode maxOff 0 0 = some (encIx k, bare (k + 1)) := by
  unfold WG.addNode
  rw [if_pos ⟨Nat.zero_le _, Nat.zero_le _⟩, bare_alloc (by omega)]
  have h3 : (bare k).nodeMeta.length = k := List.length_replicate
  simp only [WG.allocPorts, if_true, (new_eq h).2]
  rw [if_pos (by simp [h3])]
  have : (List.replicate k (WEntry.node .default) ++ [WEntry.free noIx noIx]).set k (.node .default) =
      List.replicate (k + 1) (.node .default) := by
    rw [List.set_append_right _ _ (by simp)]
    simp [List.replicate_succ']
  simp only [bare, this]
  rfl

theorem askAll_append (maxOff : Nat) (w : WG) (xs ys : List WOp) {as w1} (h : WG.askAll maxOff w xs = some (as, w1)) :
    WG.askAll maxOff w (xs ++ ys) = (WG.askAll maxOff w1 ys).map fun z => (as ++ z.1, z.2) := by
  induction xs generalizing w as with
  | nil =>
    cases h
    simp
  | cons op xs ih =>
    simp only [WG.askAll, List.cons_append] at h ⊢
    cases h1 : w.ask maxOff op with
    | none => rw [h1] at h; cases h
    | some x =>
      obtain ⟨a, w2⟩ := x
      rw [h1] at h
      simp only at h ⊢
      obtain ⟨⟨as', w3⟩, h2, h3⟩ := Option.map_eq_some_iff.1 h
      simp only [Prod.mk.injEq] at h3
      obtain ⟨rfl, rfl⟩ := h3
      rw [ih w2 h2]
      simp [Option.map_map, Function.comp_def]

theorem bare_run (maxOff : Nat) {k : Nat} (h : k ≤ 2 ^ 31) :
    ∃ as, WG.askAll maxOff WG.empty (List.replicate k (.addNode 0 0)) = some (as, bare k) := by
  induction k with
  | zero => exact ⟨[], rfl⟩
  | succ k ih =>
    obtain ⟨as, h1⟩ := ih (by omega)
    refine ⟨as ++ [.node (encIx k)], ?_⟩
    rw [List.replicate_succ', askAll_append _ _ _ _ h1]
    simp [WG.askAll, WG.ask, bare_add (maxOff := maxOff) (show k < 2 ^ 31 by omega)]

/-- After `2^31` calls of `add_node(0, 0)` the next one does not panic: it returns a node that is
already there, counts one node more, and its own slot stays empty. -/
theorem C74_witness_reused (maxOff : Nat) :
    ∃ as w n w', WG.askAll maxOff WG.empty (List.replicate (2 ^ 31) (.addNode 0 0)) = some (as, w) ∧
      w.addNode maxOff 0 0 = some (n, w') ∧ w.containsNode n = true ∧
      w'.nodeCount = 2 ^ 31 + 1 ∧ w'.nodeMeta.countP WEntry.isNode = 2 ^ 31 := by
  obtain ⟨N, hN⟩ : ∃ N, N = 2 ^ 31 := ⟨_, rfl⟩
  rw [← hN]
  obtain ⟨as, h1⟩ := bare_run maxOff (k := N) (by omega)
  have h0 : indexOf (BitVec.ofNat 32 N) = 0 := by
    rw [hN, indexOf_eq, BitVec.toNat_ofNat]
  have h3 : (bare N).nodeMeta.length = N := List.length_replicate
  have h4 : (List.replicate N (WEntry.node .default) ++ [WEntry.free noIx noIx]).set 0 (.node .default) =
      List.replicate N (WEntry.node .default) ++ [WEntry.free noIx noIx] := by
    apply set_same
    rw [List.getElem?_append_left (by rw [List.length_replicate]; omega), List.getElem?_replicate, if_pos (by omega)]
  refine ⟨as, bare N, BitVec.ofNat 32 N, { bare N with
    nodeMeta := List.replicate N (WEntry.node .default) ++ [WEntry.free noIx noIx], nodeCount := N + 1 }, h1, ?_, ?_, rfl, ?_⟩
  · unfold WG.addNode
    rw [if_pos ⟨Nat.zero_le _, Nat.zero_le _⟩, bare_alloc (by omega)]
    simp only [WG.allocPorts, if_true, h0]
    rw [if_pos (by rw [List.length_append, h3]; omega)]
    simp only [bare, h4]
    rfl
  · unfold WG.containsNode WG.node?
    rw [h0]
    simp only [bare, List.getElem?_replicate, if_pos (show 0 < N by omega)]
    rfl
  · simp only [List.countP_append]
    rw [List.countP_replicate]
    simp [WEntry.isNode]

/-- One index below that, at `2^31 - 1`, the node itself is fine but its ports are not: the incoming
port of a new node with one port reads as an outgoing one, and asking for its node panics. -/
theorem C74_witness_port (maxOff : Nat) (h1 : 1 ≤ maxOff) :
    ∃ as w n w', WG.askAll maxOff WG.empty (List.replicate (2 ^ 31 - 1) (.addNode 0 0)) = some (as, w) ∧
      w.addNode maxOff 1 0 = some (n, w') ∧ w'.numPorts n .incoming = 1 ∧
      w'.portIndex n .incoming 0 = some (some 0#32) ∧ w'.portDirection 0#32 = some .outgoing ∧
      w'.portNode 0#32 = none := by
  obtain ⟨N, hN⟩ : ∃ N, N = 2 ^ 31 - 1 := ⟨_, rfl⟩
  rw [← hN]
  obtain ⟨as, hr⟩ := bare_run maxOff (k := N) (by omega)
  have h0 : indexOf (BitVec.ofNat 32 N) = N := (new_eq (by omega)).2
  have h3 : (bare N).nodeMeta.length = N := List.length_replicate
  have hpm : portOf (BitVec.ofNat 32 N) .incoming = .port 0x80000000#32 := by
    unfold portOf
    rw [h0, hN]
    decide
  have hm : WMeta.new? 0#32 (u16 1) (u16 0) (u16 1) = some ⟨0#32, 2#16, 0#16, 1#16⟩ := by decide
  have hget : ((List.replicate N (WEntry.node .default) ++ [WEntry.free noIx noIx]).set N (.node ⟨0#32, 2#16, 0#16, 1#16⟩))[N]? =
      some (.node ⟨0#32, 2#16, 0#16, 1#16⟩) := by
    rw [List.getElem?_set]
    simp
  refine ⟨as, bare N, BitVec.ofNat 32 N, { bare N with
    nodeMeta := (List.replicate N (WEntry.node .default) ++ [WEntry.free noIx noIx]).set N (.node ⟨0#32, 2#16, 0#16, 1#16⟩)
    portMeta := [.port 0x80000000#32], portLink := [noIx], nodeCount := N + 1, portCount := 1 }, hr, ?_, ?_, ?_, ?_, ?_⟩
  · unfold WG.addNode
    rw [if_pos ⟨h1, Nat.zero_le _⟩, bare_alloc (by omega)]
    have ha : ∀ nm, WG.allocPorts { bare N with nodeMeta := nm } (BitVec.ofNat 32 N) 1 0 0 =
        some (⟨0#32, 2#16, 0#16, 1#16⟩, { bare N with nodeMeta := nm, portMeta := [.port 0x80000000#32], portLink := [noIx] }) := by
      intro nm
      have hi0 : indexNew 32 ([] : List WPort).length = some 0#32 := by decide
      unfold WG.allocPorts
      simp only [bare, WG.empty]
      rw [if_neg (by decide)]
      simp only [List.getElem?_nil, Option.bind_none]
      rw [hi0]
      simp only
      rw [hm, hpm]
      rfl
    simp only [ha, h0]
    rw [if_pos (by rw [List.length_append, h3]; simp)]
    simp only [bare]
    rfl
  · unfold WG.numPorts WG.node?
    rw [h0]
    simp only [hget]
    rfl
  · unfold WG.portIndex WG.node?
    rw [h0]
    simp only [hget]
    decide
  · rfl
  · rfl

/-- `PortIndex::new` does not look at the top bit either. Such an index names the port without it,
but the word itself is stored: after `link_ports` the partner's link is not equal to the port. -/
theorem C74_witness_word :
    ∃ as w, WG.askAll 32767 WG.empty [.addNode 0 1, .addNode 1 0, .linkPorts 0x80000000#32 1#32] = some (as, w) ∧
      w.portLink? 1#32 = some (some 0x80000000#32) ∧ w.portLink? 0#32 = some (some 1#32) ∧
      indexNew 32 (2 ^ 31) = some 0x80000000#32 := by
  refine ⟨[.node 0#32, .node 1#32, .link (.ok (0x80000000#32, 1#32))], _, rfl, ?_, ?_, ?_⟩ <;> decide

/-! ## Concrete histories -/

instance (op : PG.Op) : Decidable (ArgsFit op) := by
  cases op <;> unfold ArgsFit <;> infer_instance

instance (g : PG) : Decidable (Fits g) := by unfold Fits; infer_instance

/-- A history that is checked step by step. -/
def fitCheck (maxOff : Nat) (g : PG) : List PG.Op → Bool
  | [] => true
  | op :: ops => decide (ArgsFit op) && okCheck maxOff g op &&
    match g.step maxOff op with
    | none => false
    | some g' => decide (Fits g') && fitCheck maxOff g' ops

theorem fitCheck_run {maxOff : Nat} {g : PG} {ops : List PG.Op} (h : fitCheck maxOff g ops = true) : FitRun maxOff g ops := by
  induction ops generalizing g with
  | nil => trivial
  | cons op ops ih =>
    simp only [fitCheck, Bool.and_eq_true, decide_eq_true_eq] at h
    obtain ⟨⟨h1, h2⟩, h3⟩ := h
    refine ⟨h1, okCheck_ok h2, fun g' hg' => ?_⟩
    rw [hg'] at h3
    simp only [Bool.and_eq_true, decide_eq_true_eq] at h3
    exact ⟨h3.1, ih h3.2⟩

theorem ex_fits : FitRun 32767 PG.empty exOps2 := fitCheck_run (by decide +kernel)

theorem ex_held : Held 32767 exG := by
  obtain ⟨as, g, h1, -, h3⟩ := C73_history (by decide) (fitCheck_run (ops := exOps) (maxOff := 32767) (by decide +kernel))
  have : (Undo.askAll 32767 PG.empty exOps).map Prod.snd = some exG := by decide +kernel
  rw [h1] at this
  cases this
  exact h3

example := C73_history (by decide) ex_fits
example := C73_call (by decide) ex_held (op := .addNode 2 1) trivial ⟨by decide, by decide⟩
  (fun g' h => by
    have e : (exG.step 32767 (.addNode 2 1)).all (fun g' => decide (Fits g')) = true := by decide +kernel
    rw [h] at e
    simpa using e)
example := C73_injective (by decide) ex_held ex_held rfl
example := C73_queries (by decide) ex_held (x := 6) (by decide) .outgoing 1
example := C73_port_offset (by decide) ex_held (p := 6) (by decide) 16
example := C73_nonzero (by decide) ex_held
example := C74_fresh_partial (by decide) ex_held (i := 2) (o := 1) (by decide) (by decide)
  (fun g' h => by
    have e : (exG.step 32767 (.addNode 2 1)).all (fun g' => decide (Fits g')) = true := by decide +kernel
    rw [h] at e
    simpa using e)
example := C74_witness_port 127 (by decide)

/-- The memory of the example, computed by the calls on words. -/
example : (WG.askAll 32767 WG.empty (exOps2.map encOp)).map Prod.snd = some (encG exG2) := by decide +kernel

#print axioms C73_call
#print axioms C73_history
#print axioms C73_injective
#print axioms C73_queries
#print axioms C73_port_offset
#print axioms C73_nonzero
#print axioms C74_fresh_partial
#print axioms C74_witness_reused
#print axioms C74_witness_port
#print axioms C74_witness_word

end Verif.Words
