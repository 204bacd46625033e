import Verif.Words.Lemmas

/-!
# Allocation of nodes and ports, in words and in numbers
-/

namespace Verif.Words

open Verif (Direction)
open Verif.Index Verif.PG

theorem dec_nodeMeta (w : WG) (i : Nat) : w.dec.nodeMeta[i]? = (w.nodeMeta[i]?).map WEntry.dec := by simp [WG.dec]
theorem dec_portMeta (w : WG) (i : Nat) : w.dec.portMeta[i]? = (w.portMeta[i]?).map WPort.dec := by simp [WG.dec]
theorem dec_portLink (w : WG) (i : Nat) : w.dec.portLink[i]? = (w.portLink[i]?).map bfIndex := by simp [WG.dec]
theorem dec_portFree (w : WG) (i : Nat) : w.dec.portFree[i]? = (w.portFree[i]?).map bfIndex := by simp [WG.dec]

theorem free_dec : WPort.free.dec = .free := rfl

theorem allocNode_dec (w : WG) (h : bfIndex w.nodeFree = none → w.nodeMeta.length < 2 ^ 31) :
    w.dec.allocNode = (w.allocNode).map fun x => (indexOf x.1, x.2.dec) := by
  unfold WG.allocNode PG.allocNode
  rcases maybe_cases w.nodeFree with ⟨h1, h2⟩ | ⟨h1, h2⟩
  · have h3 : w.dec.nodeFree = none := h2
    obtain ⟨h4, h5⟩ := new_eq (h h2)
    rw [h1, h3, h4]
    simp [WG.dec, WEntry.dec, h5, bf_none, h2]
  · have h3 : w.dec.nodeFree = some (indexOf w.nodeFree) := h2
    rw [h1, h3]
    simp only [dec_nodeMeta]
    cases w.nodeMeta[indexOf w.nodeFree]? with
    | none => rfl
    | some e =>
      cases e with
      | node m => rfl
      | free p nx =>
        simp only [Option.map_some, WEntry.dec]
        rcases maybe_cases nx with ⟨h4, h5⟩ | ⟨h4, h5⟩
        · rw [h4, h5]
          simp [WG.dec, h5]
        · rw [h4, h5]
          simp only [dec_nodeMeta]
          cases w.nodeMeta[indexOf nx]? with
          | none => rfl
          | some e =>
            cases e with
            | node m => rfl
            | free p' nn => simp [WG.dec, WEntry.dec, h5, List.map_set, bf_none]

theorem allocPorts_dec (w : WG) {node : Ix} (hn : indexOf node < maxSlots) (i o x : Nat)
    (h : w.portMeta.length < 2 ^ 31) (hl : w.portLink.length = w.portMeta.length) :
    w.dec.allocPorts (indexOf node) i o x = (w.allocPorts node i o x).map fun y => (y.1.view, y.2.dec) := by
  unfold WG.allocPorts PG.allocPorts
  by_cases h0 : i + o + x = 0
  · simp [h0, view_default]
  · simp only [h0, if_false]
    have hhead : (w.dec.portFree[i + o + x - 1]?).join = ((w.portFree[i + o + x - 1]?).bind maybeToOption).map indexOf := by
      rw [dec_portFree]
      cases w.portFree[i + o + x - 1]? with
      | none => rfl
      | some b => simp [maybe_map]
    rw [hhead]
    cases hp : (w.portFree[i + o + x - 1]?).bind maybeToOption with
    | some port =>
      simp only [Option.map_some, dec_portLink]
      cases w.portLink[indexOf port]? with
      | none => rfl
      | some fr =>
        simp only [Option.map_some]
        have hm := new?_dec port (u16 i) (u16 o) (u16 (i + o + x))
        rw [u16_toNat, u16_toNat, u16_toNat] at hm
        rw [← hm]
        cases WMeta.new? port (u16 i) (u16 o) (u16 (i + o + x)) with
        | none => rfl
        | some m =>
          simp only [Option.map_some]
          have e1 : w.dec.portMeta.length = w.portMeta.length := by simp [WG.dec]
          have e2 : w.dec.portLink.length = w.portLink.length := by simp [WG.dec]
          rw [e1, e2]
          split
          · simp [WG.dec, fill_map, List.map_set, portOf_dec hn, bf_none, free_dec]
          · rfl
    | none =>
      have e1 : w.dec.portMeta.length = w.portMeta.length := by simp [WG.dec]
      have e2 : w.dec.portLink.length = w.portLink.length := by simp [WG.dec]
      obtain ⟨h4, h5⟩ := new_eq h
      simp only [Option.map_none, h4, e1, e2]
      have hm := new?_dec (BitVec.ofNat 32 w.portMeta.length) (u16 i) (u16 o) (u16 (i + o + x))
      rw [u16_toNat, u16_toNat, u16_toNat, h5] at hm
      rw [← hm]
      cases WMeta.new? (BitVec.ofNat 32 w.portMeta.length) (u16 i) (u16 o) (u16 (i + o + x)) with
      | none => rfl
      | some m => simp [WG.dec, portOf_dec hn, bf_none, free_dec]

theorem freeNode_dec (w : WG) {node : Ix} (hl : w.nodeMeta.length ≤ maxSlots) :
    w.dec.freeNode (indexOf node) = (w.freeNode node).map WG.dec := by
  unfold WG.freeNode PG.freeNode
  have e1 : w.dec.nodeMeta.length = w.nodeMeta.length := by simp [WG.dec]
  rw [e1]
  split
  · rename_i hlt
    have hb := bf_of_lt (Nat.lt_of_lt_of_le hlt hl)
    rcases maybe_cases w.nodeFree with ⟨h1, h2⟩ | ⟨h1, h2⟩
    · have h3 : w.dec.nodeFree = none := h2
      rw [h1, h3]
      simp [WG.dec, WEntry.dec, List.map_set, bf_none, h2, hb]
    · have h3 : w.dec.nodeFree = some (indexOf w.nodeFree) := h2
      rw [h1, h3]
      simp only [dec_nodeMeta]
      cases w.nodeMeta[indexOf w.nodeFree]? with
      | none => rfl
      | some e =>
        cases e with
        | node m => rfl
        | free p nx => simp [WG.dec, WEntry.dec, List.map_set, bf_none, h2, hb]
  · rfl

theorem set_same {α : Type} (l : List α) (i : Nat) (x : α) (h : l[i]? = some x) : l.set i x = l := by
  apply List.ext_getElem?
  intro j
  rw [List.getElem?_set]
  split
  · rename_i hj
    subst hj
    split
    · rw [h]
    · rename_i h2
      rw [List.getElem?_eq_none (by omega)] at h
      cases h
  · rfl

theorem freePortStep_dec (w : WG) (i : Nat) : w.dec.freePortStep i = (w.freePortStep i).map WG.dec := by
  unfold WG.freePortStep PG.freePortStep
  have e1 : w.dec.portMeta.length = w.portMeta.length := by simp [WG.dec]
  have e2 : w.dec.portLink.length = w.portLink.length := by simp [WG.dec]
  have e3 : w.dec.linkCount = w.linkCount := rfl
  rw [e1, e2, e3]
  split
  · simp only [dec_portLink]
    cases hl : w.portLink[i]? with
    | none => rfl
    | some l =>
      simp only [Option.map_some]
      rcases maybe_cases l with ⟨h1, h2⟩ | ⟨h1, h2⟩
      · rw [h1, h2]
        simp only [Option.map_some]
        have : (w.portLink.map bfIndex).set i none = w.portLink.map bfIndex := set_same _ _ _ (by simp [hl, h2])
        simp [WG.dec, List.map_set, bf_none, WPort.dec, this]
      · rw [h1, h2]
        simp only
        split
        · simp [WG.dec, List.map_set, bf_none, WPort.dec]
        · rfl
  · rfl

theorem freePortsLoop_dec (w : WG) (i k : Nat) : w.dec.freePortsLoop i k = (w.freePortsLoop i k).map WG.dec := by
  induction k generalizing w i with
  | zero => rfl
  | succ k ih =>
    unfold WG.freePortsLoop PG.freePortsLoop
    rw [freePortStep_dec]
    cases w.freePortStep i with
    | none => rfl
    | some w' => exact ih w' (i + 1)

theorem freePorts_dec (w : WG) {first : Ix} (k : Nat) (hl : w.portLink.length ≤ maxSlots) :
    w.dec.freePorts (indexOf first) k = (w.freePorts first k).map WG.dec := by
  unfold WG.freePorts PG.freePorts
  have e0 : ({ w.dec with portFree := w.dec.portFree ++ List.replicate (k - w.dec.portFree.length) none } : PG) =
      ({ w with portFree := w.portFree ++ List.replicate (k - w.portFree.length) noIx } : WG).dec := by
    simp [WG.dec, bf_none]
  simp only [e0]
  split
  · rfl
  · rw [freePortsLoop_dec]
    have hlen : ∀ (w w' : WG) (i k : Nat), w.freePortsLoop i k = some w' → w'.portLink.length = w.portLink.length := by
      intro w w' i k
      induction k generalizing w i with
      | zero => intro h; cases h; rfl
      | succ k ih =>
        intro h
        unfold WG.freePortsLoop at h
        cases hs : w.freePortStep i with
        | none => rw [hs] at h; cases h
        | some w1 =>
          rw [hs] at h
          rw [ih _ _ h]
          unfold WG.freePortStep at hs
          grind
    cases hw : WG.freePortsLoop _ (indexOf first) k with
    | none => rfl
    | some w' =>
      have hl' := hlen _ _ _ _ hw
      simp only [Option.map_some, dec_portFree]
      cases w'.portFree[k - 1]? with
      | none => rfl
      | some head =>
        have e2 : w'.dec.portLink.length = w'.portLink.length := by simp [WG.dec]
        simp only [Option.map_some, e2]
        split
        · rename_i hlt
          have hb := bf_of_lt (b := first) (by simp only at hl'; omega)
          simp [WG.dec, List.map_set, hb]
        · rfl

end Verif.Words
