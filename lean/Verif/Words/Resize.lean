import Verif.Words.Links
import Verif.PortGraph.NodeSlots

/-!
# `add_node`, `remove_node` and `set_num_ports`, in words and in numbers
-/

namespace Verif.Words

open Verif (Direction)
open Verif.Index Verif.PG

theorem ports_lt (m : NodeMeta) (d : Direction) {p : Nat} (hp : p ∈ m.ports d) :
    p < m.first + m.incoming + m.outgoing := by
  cases d <;> simp [NodeMeta.ports, NodeMeta.start, NodeMeta.numPorts] at hp <;> omega

theorem droppedPorts_lt {m : NodeMeta} {i o p : Nat} (hp : p ∈ PG.PG.droppedPorts m i o) :
    p < m.first + m.incoming + m.outgoing := by
  unfold PG.PG.droppedPorts at hp
  rcases List.mem_append.1 hp with h | h
  · exact ports_lt m .incoming (List.mem_of_mem_drop h)
  · exact ports_lt m .outgoing (List.mem_of_mem_drop h)

theorem zip_lt (m nm : NodeMeta) (d : Direction) {x : Nat × Nat} (hx : x ∈ (m.ports d).zip (nm.ports d)) :
    x.1 < m.first + m.incoming + m.outgoing ∧ x.2 < nm.first + nm.incoming + nm.outgoing := by
  have := List.of_mem_zip hx
  exact ⟨ports_lt m d this.1, ports_lt nm d this.2⟩

theorem resizeInplace_dec (w : WG) {node : Ix} {i o : Nat} (hn : indexOf node < maxSlots)
    (hm : ∀ m, w.node? node = some m → i + o ≤ m.view.capacity ∧ m.view.incoming + m.view.outgoing ≤ m.view.capacity ∧
      m.view.first + m.view.capacity ≤ maxSlots) :
    w.dec.resizeInplace (indexOf node) i o = (w.resizeInplace node i o).map fun x => (x.1.dec, decTr x.2) := by
  unfold WG.resizeInplace PG.resizeInplace
  rw [node_dec]
  cases hm0 : w.node? node with
  | none => rfl
  | some m =>
    obtain ⟨b1, b2, b3⟩ := hm m hm0
    simp only [Option.map_some]
    have hnew := new?_dec m.first (u16 i) (u16 o) (u16 m.view.capacity)
    simp only [u16_toNat] at hnew
    have e0 : m.view.first = indexOf m.first := rfl
    rw [e0, ← hnew]
    cases hnm : WMeta.new? m.first (u16 i) (u16 o) (u16 m.view.capacity) with
    | none => rfl
    | some nm =>
      obtain ⟨-, -, hv, -⟩ := new?_some hnm
      simp only [u16_toNat] at hv
      have hv1 : nm.view.first = m.view.first := by rw [hv]; rfl
      have hv2 : nm.view.incoming ≤ i := by rw [hv]; exact Nat.mod_le _ _
      have hv3 : nm.view.outgoing ≤ o := by rw [hv]; exact Nat.mod_le _ _
      simp only [Option.map_some]
      rw [dropPorts_dec w (fun p hp => by have := droppedPorts_lt hp; unfold maxSlots at b3; omega)]
      cases w.dropPorts (PG.PG.droppedPorts m.view i o) with
      | none => rfl
      | some x =>
        obtain ⟨w1, tr1⟩ := x
        simp only [Option.map_some]
        rw [movePorts_dec w1 (fun x hx => by
          have hx' : x ∈ (m.view.ports .outgoing).zip (nm.view.ports .outgoing) := by
            split at hx
            · exact hx
            · exact List.mem_reverse.1 hx
          have := zip_lt _ _ _ hx'
          omega)]
        cases w1.movePorts _ with
        | none => rfl
        | some y =>
          obtain ⟨w2, tr2⟩ := y
          simp only [Option.map_some, len_nodeMeta, len_portLink, len_portMeta]
          have e3 : w2.dec.portCount = w2.portCount := rfl
          rw [e3]
          split
          · simp [WG.dec, fill_map, portOf_dec hn, bf_none, free_dec, List.map_set, WEntry.dec, decTr]
          · rfl

theorem allocPorts_bound {w w' : WG} {node : Ix} {i o x : Nat} {m : WMeta} (h : w.allocPorts node i o x = some (m, w')) :
    m.view.first + m.view.incoming + m.view.outgoing ≤ w'.portMeta.length ∧ w'.nodeMeta = w.nodeMeta ∧
      w.portMeta.length ≤ w'.portMeta.length ∧
      (w.portLink.length = w.portMeta.length → w'.portLink.length = w'.portMeta.length) := by
  unfold WG.allocPorts at h
  simp only at h
  by_cases h0 : i + o + x = 0
  · rw [if_pos h0] at h
    cases h
    simp [view_default]
  · rw [if_neg h0] at h
    have hi : i % 65536 ≤ i := Nat.mod_le _ _
    have ho : o % 65536 ≤ o := Nat.mod_le _ _
    split at h
    · split at h
      · cases h
      · split at h
        · cases h
        · rename_i m' hm'
          obtain ⟨-, -, hv, -⟩ := new?_some hm'
          simp only [u16_toNat] at hv
          split at h
          · rename_i hb
            cases h
            simp only [fill, List.length_mapIdx, hv]
            refine ⟨by omega, by trivial, by omega, by omega⟩
          · cases h
    · split at h
      · cases h
      · split at h
        · cases h
        · rename_i b hb _ m' hm'
          obtain ⟨-, -, hv, -⟩ := new?_some hm'
          simp only [u16_toNat] at hv
          have hbb : b = BitVec.ofNat 32 w.portMeta.length := by
            simp only [indexNew, bfNew] at hb
            split at hb
            · simpa using hb.symm
            · cases hb
          have : indexOf b ≤ w.portMeta.length := by
            rw [hbb, indexOf_eq, BitVec.toNat_ofNat]
            exact Nat.le_trans (Nat.mod_le _ _) (Nat.mod_le _ _)
          cases h
          simp only [List.length_append, List.length_replicate, hv]
          refine ⟨by omega, by trivial, by omega, by omega⟩

theorem pg_relocPorts_len {ps : List (Nat × Nat)} {g g' : PG} {tr} (h : g.relocPorts ps = some (g', tr)) :
    g'.portMeta.length = g.portMeta.length := by
  induction ps generalizing g g' tr with
  | nil => unfold PG.relocPorts at h; cases h; rfl
  | cons x ps ih =>
    obtain ⟨old, new⟩ := x
    unfold PG.relocPorts at h
    cases h3 : g.relocPort old new with
    | none => rw [h3] at h; cases h
    | some w1 =>
      rw [h3] at h
      simp only at h
      cases h4 : w1.relocPorts ps with
      | none => rw [h4] at h; cases h
      | some y =>
        obtain ⟨w2, tr2⟩ := y
        rw [h4] at h
        cases h
        rw [ih h4]
        unfold PG.relocPort vset at h3
        grind

theorem pg_freePortsLoop_len {k : Nat} {g g' : PG} {i : Nat} (h : g.freePortsLoop i k = some g') :
    g'.portMeta.length = g.portMeta.length := by
  induction k generalizing g i with
  | zero => unfold PG.freePortsLoop at h; cases h; rfl
  | succ k ih =>
    unfold PG.freePortsLoop at h
    cases h3 : g.freePortStep i with
    | none => rw [h3] at h; cases h
    | some w1 =>
      rw [h3] at h
      rw [ih h]
      unfold PG.freePortStep at h3
      grind

theorem pg_freePorts_len {k : Nat} {g g' : PG} {i : Nat} (h : g.freePorts i k = some g') :
    g'.portMeta.length = g.portMeta.length := by
  unfold PG.freePorts at h
  simp only at h
  split at h
  · cases h; rfl
  · split at h
    · cases h
    · rename_i g1 h1
      have := pg_freePortsLoop_len h1
      simp only at this
      grind

theorem setNumPorts_dec (w : WG) {node : Ix} {i o : Nat} (hl : w.portLink.length = w.portMeta.length)
    (hn : w.nodeMeta.length ≤ maxSlots) (hp : w.portMeta.length ≤ maxSlots)
    (hm : ∀ m, w.node? node = some m → m.view.incoming + m.view.outgoing ≤ m.view.capacity ∧
      m.view.first + m.view.capacity ≤ w.portMeta.length)
    {r} (hr : w.dec.setNumPorts (indexOf node) i o = some r) (hf : r.1.portMeta.length ≤ maxSlots) :
    w.dec.setNumPorts (indexOf node) i o = (w.setNumPorts node i o).map fun x => (x.1.dec, decTr x.2) := by
  have hr0 := hr
  unfold WG.setNumPorts
  unfold PG.setNumPorts at hr ⊢
  by_cases hg : i ≤ 65534 ∧ o ≤ 65535
  · rw [if_pos hg] at hr ⊢
    rw [if_pos hg]
    simp only at hr ⊢
    rw [node_dec] at hr ⊢
    cases hm0 : w.node? node with
    | none => rfl
    | some m =>
      obtain ⟨b2, b3⟩ := hm m hm0
      have hlt : indexOf node < maxSlots := by
        unfold WG.node? at hm0
        by_cases hlt : indexOf node < w.nodeMeta.length
        · omega
        · rw [List.getElem?_eq_none (by omega)] at hm0
          cases hm0
      rw [hm0] at hr
      simp only [Option.map_some] at hr ⊢
      by_cases hs : m.view.incoming = i ∧ m.view.outgoing = o
      · simp [hs, decTr]
      · rw [if_neg hs] at hr ⊢
        rw [if_neg hs]
        by_cases hc : 1 ≤ i + o ∧ i + o < m.view.capacity
        · rw [if_pos hc] at hr ⊢
          rw [if_pos hc]
          refine resizeInplace_dec w hlt fun m' hm' => ?_
          rw [hm0] at hm'
          cases hm'
          omega
        · rw [if_neg hc] at hr ⊢
          rw [if_neg hc]
          have hdrop : ∀ p ∈ PG.PG.droppedPorts m.view i o, p < 2 ^ 31 := fun p hp' => by
            have := droppedPorts_lt hp'; unfold maxSlots at hp; omega
          rw [dropPorts_dec w hdrop] at hr ⊢
          cases h1 : w.dropPorts (PG.PG.droppedPorts m.view i o) with
          | none => rfl
          | some x =>
            obtain ⟨w1, tr1⟩ := x
            have hlen1 := dropPorts_len h1
            rw [h1] at hr
            simp only [Option.map_some] at hr ⊢
            have ha := allocPorts_dec w1 hlt i o (PG.PG.nextPow2 (i + o) - (i + o))
              (by rw [hlen1.2.1]; unfold maxSlots at hp; omega) (by rw [hlen1.2.1, hlen1.2.2, hl])
            rw [ha] at hr ⊢
            cases h2 : w1.allocPorts node i o (PG.PG.nextPow2 (i + o) - (i + o)) with
            | none => rfl
            | some y =>
              obtain ⟨nm, w2⟩ := y
              obtain ⟨c1, c2, c3, c4⟩ := allocPorts_bound h2
              rw [h2] at hr
              simp only [Option.map_some] at hr ⊢
              have hw2 : w2.portMeta.length ≤ maxSlots := by
                rw [← len_portMeta]
                cases h3 : w2.dec.relocPorts ((m.view.ports .incoming).zip (nm.view.ports .incoming)
                    ++ (m.view.ports .outgoing).zip (nm.view.ports .outgoing)) with
                | none => rw [h3] at hr; cases hr
                | some z =>
                  obtain ⟨g3, tr2⟩ := z
                  rw [h3] at hr
                  simp only at hr
                  have l1 := pg_relocPorts_len h3
                  split at hr
                  · split at hr
                    · cases hr
                    · rename_i g4 h4
                      have l2 := pg_freePorts_len h4
                      split at hr
                      · cases hr
                        simp only at hf l2
                        omega
                      · cases hr
                  · cases hr
              rw [relocPorts_dec w2 (fun x hx => by
                have : x.1 < m.view.first + m.view.incoming + m.view.outgoing ∧
                    x.2 < nm.view.first + nm.view.incoming + nm.view.outgoing := by
                  rcases List.mem_append.1 hx with h | h
                  · exact zip_lt _ _ _ h
                  · exact zip_lt _ _ _ h
                omega)]
              cases h3 : w2.relocPorts ((m.view.ports .incoming).zip (nm.view.ports .incoming)
                  ++ (m.view.ports .outgoing).zip (nm.view.ports .outgoing)) with
              | none => rfl
              | some z =>
                obtain ⟨w3, tr2⟩ := z
                have hlen3 := relocPorts_len h3
                simp only [Option.map_some, len_nodeMeta]
                by_cases hlt3 : indexOf node < w3.nodeMeta.length
                · rw [if_pos hlt3, if_pos hlt3]
                  have e4 : ({ w3.dec with nodeMeta := w3.dec.nodeMeta.set (indexOf node) (.node nm.view) } : PG) =
                      ({ w3 with nodeMeta := w3.nodeMeta.set (indexOf node) (.node nm) } : WG).dec := by
                    simp [WG.dec, List.map_set, WEntry.dec]
                  rw [e4]
                  have hfp := freePorts_dec ({ w3 with nodeMeta := w3.nodeMeta.set (indexOf node) (.node nm) } : WG)
                    (first := m.first) m.view.capacity (by
                      have := c4 (by rw [hlen1.2.1, hlen1.2.2, hl])
                      have := hlen3.2.2
                      simp only
                      omega)
                  have e5 : m.view.first = indexOf m.first := rfl
                  rw [e5, hfp]
                  cases WG.freePorts ({ w3 with nodeMeta := w3.nodeMeta.set (indexOf node) (.node nm) } : WG)
                    m.first m.view.capacity with
                  | none => rfl
                  | some w4 =>
                    simp only [Option.map_some]
                    have e6 : w4.dec.portCount = w4.portCount := rfl
                    rw [e6]
                    split
                    · simp [WG.dec, decTr]
                    · rfl
                · rw [if_neg hlt3, if_neg hlt3]
                  rfl
  · rw [if_neg hg, if_neg hg]
    rfl

theorem allocNode_bound {w w' : WG} {n : Ix} (h : w.allocNode = some (n, w')) (hl : w.nodeMeta.length < 2 ^ 31) :
    indexOf n < w'.nodeMeta.length ∧ w'.portMeta = w.portMeta ∧ w'.portLink = w.portLink := by
  unfold WG.allocNode at h
  split at h
  · rename_i node hnode
    split at h
    · rename_i hg
      have hlt : indexOf node < w.nodeMeta.length := by
        by_cases hlt : indexOf node < w.nodeMeta.length
        · exact hlt
        · rw [List.getElem?_eq_none (by omega)] at hg; cases hg
      split at h
      · cases h
        exact ⟨hlt, rfl, rfl⟩
      · split at h
        · cases h
          exact ⟨by simpa using hlt, rfl, rfl⟩
        · cases h
    · cases h
  · obtain ⟨h1, h2⟩ := new_eq hl
    rw [h1] at h
    cases h
    exact ⟨by simp [h2], rfl, rfl⟩

theorem addNode_dec (maxOff : Nat) (w : WG) {i o : Nat} (hl : w.portLink.length = w.portMeta.length)
    (hn : w.nodeMeta.length ≤ maxSlots) (hp : w.portMeta.length ≤ maxSlots)
    {r} (hr : w.dec.addNode maxOff i o = some r) (hf : r.2.nodeMeta.length ≤ maxSlots) :
    w.dec.addNode maxOff i o = (w.addNode maxOff i o).map fun x => (indexOf x.1, x.2.dec) := by
  have hn' : w.nodeMeta.length < 2 ^ 31 := by unfold maxSlots at hn; omega
  unfold WG.addNode
  unfold PG.addNode at hr ⊢
  by_cases hg : i ≤ maxOff ∧ o ≤ maxOff
  · rw [if_pos hg] at hr ⊢
    rw [if_pos hg]
    rw [allocNode_dec w (fun _ => hn')] at hr ⊢
    cases h1 : w.allocNode with
    | none => rfl
    | some x =>
      obtain ⟨node, w1⟩ := x
      obtain ⟨a1, a2, a3⟩ := allocNode_bound h1 hn'
      rw [h1] at hr
      simp only [Option.map_some] at hr ⊢
      have hlt : indexOf node < maxSlots := by
        cases h2 : w1.dec.allocPorts (indexOf node) i o 0 with
        | none => rw [h2] at hr; cases hr
        | some y =>
          rw [h2] at hr
          simp only at hr
          have := allocPorts_slots h2
          split at hr
          · cases hr
            simp only [List.length_set] at hf
            rw [this, len_nodeMeta] at hf
            omega
          · cases hr
      rw [allocPorts_dec w1 hlt i o 0 (by rw [a2]; unfold maxSlots at hp; omega) (by rw [a2, a3, hl])]
      cases h2 : w1.allocPorts node i o 0 with
      | none => rfl
      | some y =>
        obtain ⟨m, w2⟩ := y
        simp only [Option.map_some, len_nodeMeta]
        split
        · simp [WG.dec, List.map_set, WEntry.dec]
        · rfl
  · rw [if_neg hg, if_neg hg]
    rfl

theorem freeNode_len {w w' : WG} {n : Ix} (h : w.freeNode n = some w') : w'.portMeta = w.portMeta ∧ w'.portLink = w.portLink := by
  unfold WG.freeNode at h
  grind

theorem removeNode_dec (w : WG) {node : Ix} (hl : w.portLink.length = w.portMeta.length)
    (hn : w.nodeMeta.length ≤ maxSlots) (hp : w.portMeta.length ≤ maxSlots) :
    w.dec.removeNode (indexOf node) = (w.removeNode node).map WG.dec := by
  unfold WG.removeNode PG.removeNode
  rw [node_dec]
  cases hm0 : w.node? node with
  | none => rfl
  | some m =>
    simp only [Option.map_some]
    rw [freeNode_dec w hn]
    cases h1 : w.freeNode node with
    | none => rfl
    | some w1 =>
      obtain ⟨f1, f2⟩ := freeNode_len h1
      simp only [Option.map_some]
      have e1 : w1.dec.nodeCount = w1.nodeCount := rfl
      have e2 : w1.dec.portCount = w1.portCount := rfl
      rw [e1, e2]
      simp only [len_portLink, len_portMeta]
      split
      · rfl
      · split
        · split
          · exact freePorts_dec ({ w1 with nodeCount := w1.nodeCount - 1, portCount := w1.portCount - m.view.portCount } : WG)
              (first := m.first) m.view.capacity (by simp only [f2]; omega)
          · rfl
        · rfl

end Verif.Words
