import Verif.PortGraph.NodeSlots
import Verif.PortGraph.PropsCompact
import Verif.PortGraph.PropsSet

/-!
# C75: how many port slots a node owns (`node_port_capacity`)
-/

namespace Verif.PG

open Verif (Direction)

/-! ## Specification -/

/-- `c` is the least power of two that is at least `t`. -/
def LeastPow2 (t c : Nat) : Prop := (∃ k, c = 2 ^ k) ∧ t ≤ c ∧ ∀ k, t ≤ 2 ^ k → c ≤ 2 ^ k

/-- How a call changes the capacities. -/
def CapEffect (maxOff : Nat) (g g' : PG) : PG.Op → Prop
  | .addNode i o => ∃ n, g.addNode maxOff i o = some (n, g') ∧ g'.nodePortCapacity n = i + o ∧
      ∀ x, x ≠ n → g'.nodePortCapacity x = g.nodePortCapacity x
  | .removeNode n => g'.nodePortCapacity n = 0 ∧ ∀ x, x ≠ n → g'.nodePortCapacity x = g.nodePortCapacity x
  | .linkPorts _ _ => ∀ x, g'.nodePortCapacity x = g.nodePortCapacity x
  | .unlinkPort _ => ∀ x, g'.nodePortCapacity x = g.nodePortCapacity x
  | .setNumPorts n i o => (∀ x, x ≠ n → g'.nodePortCapacity x = g.nodePortCapacity x) ∧
      (g.containsNode n = false → g'.nodePortCapacity n = 0) ∧
      (g.numPorts n .incoming = i → g.numPorts n .outgoing = o → g'.nodePortCapacity n = g.nodePortCapacity n) ∧
      (0 < i + o → i + o < g.nodePortCapacity n → g'.nodePortCapacity n = g.nodePortCapacity n) ∧
      (g.containsNode n = true → ¬ (g.numPorts n .incoming = i ∧ g.numPorts n .outgoing = o) →
        (i + o = 0 ∨ g.nodePortCapacity n ≤ i + o) → LeastPow2 (i + o) (g'.nodePortCapacity n))
  | .compactNodes => ∃ tr, g.compactNodes = some (g', tr) ∧ ∀ x ∈ tr, g'.nodePortCapacity x.2 = g.nodePortCapacity x.1
  | .compactPorts => ∀ n, g'.nodePortCapacity n = g.numPorts n .incoming + g.numPorts n .outgoing
  | .swapNodes a b => ∀ n, g'.nodePortCapacity (exchange a b n) = g.nodePortCapacity n
  | .clear => ∀ n, g'.nodePortCapacity n = 0

/-! ## Proofs -/

theorem leastPow2_next (t : Nat) : LeastPow2 t (PG.nextPow2 t) := by
  obtain ⟨h1, h2, k, hk⟩ := nextPow2_spec t
  refine ⟨⟨k, hk⟩, h1, fun j hj => ?_⟩
  rcases h2 with h2 | h2
  · rw [hk]
    apply Nat.pow_le_pow_right (by decide)
    apply Classical.byContradiction
    intro hc
    have h3 : j + 1 ≤ k := by omega
    have h4 : 2 ^ (j + 1) ≤ 2 ^ k := Nat.pow_le_pow_right (by decide) h3
    rw [Nat.pow_succ] at h4
    omega
  · rw [h2]; exact Nat.one_le_two_pow

theorem cap_congr {g g' : PG} (h : g'.nodeMeta = g.nodeMeta) (x : Nat) : g'.nodePortCapacity x = g.nodePortCapacity x := by
  simp [PG.nodePortCapacity, PG.node?, h]

theorem allocPorts_cap {g : PG} {n i o e : Nat} {r} (h : g.allocPorts n i o e = some r) (hle : i + o + e ≤ 65535) :
    r.1.capacity = i + o + e := by
  unfold PG.allocPorts at h
  simp only at h
  have hm : (i + o + e) % 65536 = i + o + e := Nat.mod_eq_of_lt (by omega)
  rw [hm] at h
  have hnew : ∀ {f a b c m}, NodeMeta.new? f a b c = some m → m.capacity = c := by
    intro f a b c m hx
    unfold NodeMeta.new? at hx
    split at hx
    · cases hx; rfl
    · cases hx
  repeat' split at h
  all_goals first | cases h | skip
  · simp only; omega
  · rename_i hx _; exact hnew hx
  · rename_i hx; exact hnew hx

/-- The node entries after `set_num_ports` that changes something. -/
theorem setNumPorts_meta {g : PG} (hI : Inv g) {n i o : Nat} {m : NodeMeta} {g' : PG} {tr} (hn : g.node? n = some m)
    (hne : ¬ (m.incoming = i ∧ m.outgoing = o)) (h : g.setNumPorts n i o = some (g', tr)) :
    ∃ nm : NodeMeta, g'.nodeMeta = g.nodeMeta.set n (.node nm) ∧
      (1 ≤ i + o → i + o < m.capacity → nm.capacity = m.capacity ∧ nm.first = m.first ∧ nm.incoming = i) ∧
      ((i + o = 0 ∨ m.capacity ≤ i + o) → nm.capacity = PG.nextPow2 (i + o) ∧ i + o ≤ 32768) := by
  obtain ⟨own, fs, hP, hfull⟩ := hI.slots
  obtain ⟨b1, b2, b3, b4, b5⟩ := hP.bound n m hn
  unfold PG.setNumPorts at h
  simp only at h
  split at h
  rotate_left
  · cases h
  rename_i hio
  rw [hn] at h
  simp only at h
  rw [if_neg hne] at h
  split at h
  · rename_i hc
    unfold PG.resizeInplace at h
    rw [hn] at h
    simp only at h
    split at h
    · cases h
    · rename_i nm hnm
      split at h
      · cases h
      · rename_i e1
        split at h
        · cases h
        · rename_i e2
          split at h
          · cases h
            have e3 := dropPorts_slots e1
            have e4 := movePorts_slots e2
            simp only at e3 e4
            refine ⟨nm, by simp [e3, e4], ?_, by omega⟩
            intro _ _
            unfold NodeMeta.new? at hnm
            split at hnm
            · cases hnm
              exact ⟨Nat.mod_eq_of_lt (by omega), rfl, Nat.mod_eq_of_lt (by omega)⟩
            · cases hnm
          · cases h
  · rename_i hc
    have h32 : i + o ≤ 32768 := by
      apply Classical.byContradiction
      intro hb
      split at h
      · cases h
      · rw [allocPorts_big hio.1 hio.2 (by omega)] at h
        cases h
    split at h
    · cases h
    · rename_i e1
      split at h
      · cases h
      · rename_i nm ga e2
        split at h
        · cases h
        · rename_i e3
          split at h
          · split at h
            · cases h
            · rename_i e4
              split at h
              · cases h
                have f1 := dropPorts_slots e1
                have f2 := allocPorts_slots e2
                have f3 := relocPorts_slots e3
                have f4 := freePorts_slots e4
                simp only at f1 f2 f3 f4
                refine ⟨nm, by simp [f4, f3, f2, f1], by omega, fun _ => ?_⟩
                have h1 := (nextPow2_spec (i + o)).1
                have h2 := nextPow2_le h32
                have := allocPorts_cap e2 (by omega)
                simp only at this
                omega
              · cases h
          · cases h

theorem cap_set {g g' : PG} {n : Nat} {nm : NodeMeta} (hn : g.containsNode n = true)
    (h : g'.nodeMeta = g.nodeMeta.set n (.node nm)) :
    g'.nodePortCapacity n = nm.capacity ∧ ∀ x, x ≠ n → g'.nodePortCapacity x = g.nodePortCapacity x := by
  have hlt : n < g.nodeMeta.length := by
    obtain ⟨m, hm⟩ := Option.isSome_iff_exists.1 (containsNode_iff.1 hn)
    have := PG.node?_eq.1 hm
    exact (List.getElem?_eq_some_iff.1 this).1
  constructor
  · simp [PG.nodePortCapacity, PG.node?, h, hlt]
  · intro x hx
    simp [PG.nodePortCapacity, PG.node?, h, List.getElem?_set_ne (Ne.symm hx)]

theorem cap_none {g : PG} {n : Nat} (h : g.node? n = none) : g.nodePortCapacity n = 0 := by
  simp [PG.nodePortCapacity, h]

theorem num_zero {g : PG} {n : Nat} (h : g.node? n = none) (d : Direction) : g.numPorts n d = 0 := by
  simp [PG.numPorts, h]

/-- **C75** What every call does to the number of port slots that the nodes own: a new node owns as many
as it has ports, `set_num_ports` keeps the slots of the node if fewer but some are needed and otherwise
takes the next power of two, `compact_ports` leaves no spare slot, and all else keeps them. -/
theorem C75_capacity {maxOff : Nat} (hmax : maxOff ≤ 32767) {g g' : PG} (hg : PG.Reach maxOff g) {op : PG.Op}
    (hok : PG.Op.ok maxOff g op) (h : g.step maxOff op = some g') : CapEffect maxOff g g' op := by
  have hI := hg.inv hmax
  cases op with
  | addNode i o =>
    obtain ⟨n, f, g1, h1, -, h2, h3, -⟩ := addNode_ok hI hok.1 hok.2 (by have := hok.1; omega) (by have := hok.1; have := hok.2; omega)
    simp only [PG.step, h1, Option.map_some, Option.some.injEq] at h
    subst h
    refine ⟨n, h1, by simp [PG.nodePortCapacity, h3, upd], fun x hx => by simp [PG.nodePortCapacity, h3, upd, hx]⟩
  | removeNode n =>
    simp only [PG.step] at h
    cases hn : g.node? n with
    | none =>
      rw [removeNode_none hn] at h
      cases h
      exact ⟨cap_none hn, fun _ _ => rfl⟩
    | some m =>
      obtain ⟨g1, h1, -, h2, -⟩ := removeNode_ok hI hn
      rw [h1] at h
      cases h
      exact ⟨by simp [PG.nodePortCapacity, h2, upd], fun x hx => by simp [PG.nodePortCapacity, h2, upd, hx]⟩
  | linkPorts a b =>
    obtain ⟨r, hr, rfl⟩ := Option.map_eq_some_iff.1 h
    exact fun x => cap_congr (linkPorts_slots hr) x
  | unlinkPort p =>
    obtain ⟨r, hr, rfl⟩ := Option.map_eq_some_iff.1 h
    exact fun x => cap_congr (unlinkPort_slots hr) x
  | setNumPorts n i o =>
    obtain ⟨⟨g1, tr⟩, hr, rfl⟩ := Option.map_eq_some_iff.1 h
    simp only
    cases hn : g.node? n with
    | none =>
      have hg1 : g1 = g := by
        unfold PG.setNumPorts at hr
        rw [hn] at hr
        simp only at hr
        split at hr
        · cases hr; rfl
        · cases hr
      subst hg1
      have hc : g1.containsNode n = false := by simp [PG.containsNode, hn]
      refine ⟨fun _ _ => rfl, fun _ => cap_none hn, fun _ _ => rfl, fun _ _ => rfl, fun hc' => ?_⟩
      rw [hc] at hc'; cases hc'
    | some m =>
      have hc : g.containsNode n = true := by simp [PG.containsNode, hn]
      have hcap := capacity_eq hn
      have hni : g.numPorts n .incoming = m.incoming := numPorts_eq hn
      have hno : g.numPorts n .outgoing = m.outgoing := numPorts_eq hn
      by_cases hs : m.incoming = i ∧ m.outgoing = o
      · have hg1 : g1 = g := by
          unfold PG.setNumPorts at hr
          rw [hn] at hr
          simp only [if_pos hs] at hr
          split at hr
          · cases hr; rfl
          · cases hr
        subst hg1
        refine ⟨fun _ _ => rfl, fun hc' => ?_, fun _ _ => rfl, fun _ _ => rfl, fun _ hc' => ?_⟩
        · rw [hc] at hc'; cases hc'
        · rw [hni, hno] at hc'; exact absurd hs hc'
      · obtain ⟨nm, h1, h2, h3⟩ := setNumPorts_meta hI hn hs hr
        obtain ⟨h4, h5⟩ := cap_set hc h1
        refine ⟨h5, fun hc' => ?_, fun h6 h7 => ?_, fun h6 h7 => ?_, fun _ _ h6 => ?_⟩
        · rw [hc] at hc'; cases hc'
        · rw [hni] at h6; rw [hno] at h7; exact absurd ⟨h6, h7⟩ hs
        · rw [hcap] at h7
          rw [h4, hcap]; exact (h2 h6 h7).1
        · rw [hcap] at h6
          rw [h4, (h3 h6).1]
          exact leastPow2_next _
  | compactNodes =>
    obtain ⟨⟨g1, tr⟩, hr, rfl⟩ := Option.map_eq_some_iff.1 h
    obtain ⟨g2, h1, -, h2, -⟩ := compactNodes_ok hI
    rw [h1] at hr
    cases hr
    refine ⟨_, h1, ?_⟩
    intro x hx
    obtain ⟨n, hn, rfl⟩ := List.mem_map.1 hx
    simp only
    have hl : g.live n = true := (List.mem_filter.1 hn).2
    obtain ⟨m, hm⟩ := Option.isSome_iff_exists.1 (live_iff.1 hl)
    have h4 := (h2 (g.nodeRank n) m).2 ⟨n, rfl, hm⟩
    rw [capacity_eq hm, capacity_eq h4]
  | compactPorts =>
    obtain ⟨⟨g1, tr⟩, hr, rfl⟩ := Option.map_eq_some_iff.1 h
    obtain ⟨g2, h1, -, h2, -⟩ := compactPorts_all hI
    rw [h1] at hr
    cases hr
    intro n
    have h3 := h2 n
    cases hn : g.node? n with
    | none =>
      rw [hn] at h3
      rw [cap_none h3, num_zero hn, num_zero hn]
    | some m =>
      rw [hn] at h3
      rw [capacity_eq h3, numPorts_eq hn, numPorts_eq hn]
      simp only [packed, NodeMeta.numPorts]
      split
      · rename_i h0
        have := hok n
        rw [numPorts_eq hn, numPorts_eq hn, capacity_eq hn] at this
        rw [this h0]; omega
      · rfl
  | swapNodes a b =>
    obtain ⟨g1, h1, -, h2, -⟩ := swapNodes_all_ok hI hok
    simp only [PG.step] at h
    rw [h1] at h
    cases h
    intro n
    have hex : exchange a b = swapIdx a b := rfl
    rw [hex]
    simp only [PG.nodePortCapacity]
    rw [h2, swapIdx_swapIdx]
  | clear =>
    simp only [PG.step, Option.some.injEq] at h
    subst h
    intro n
    simp [PG.nodePortCapacity, PG.node?, PG.clear]

/-- **C75** After every history the slots suffice for the ports of the node, and there are at most
32768 of them, unless the node was added with more ports. -/
theorem C75_bounds {maxOff : Nat} (hmax : maxOff ≤ 32767) {g : PG} (hg : PG.Reach maxOff g) (n : Nat) :
    g.numPorts n .incoming + g.numPorts n .outgoing ≤ g.nodePortCapacity n ∧
      g.nodePortCapacity n ≤ max 32768 (2 * maxOff) ∧ (g.containsNode n = false → g.nodePortCapacity n = 0) := by
  have hI := hg.inv hmax
  refine ⟨?_, ?_, ?_⟩
  · cases hn : g.node? n with
    | none => rw [num_zero hn, num_zero hn]; omega
    | some m =>
      obtain ⟨own, fs, hP, hfull⟩ := hI.slots
      have := (hP.bound n m hn).1
      rw [numPorts_eq hn, numPorts_eq hn, capacity_eq hn]
      exact this
  · clear hI
    induction hg generalizing n with
    | init => simp [PG.nodePortCapacity, PG.node?, PG.empty]
    | @step g g' op hg hok h ih =>
      have hI := hg.inv hmax
      have hE := C75_capacity hmax hg hok h
      cases op with
      | addNode i o =>
        obtain ⟨x, -, h2, h3⟩ := hE
        by_cases hx : n = x
        · subst hx; rw [h2]; have := hok.1; have := hok.2; omega
        · rw [h3 n hx]; exact ih n
      | removeNode x =>
        by_cases hx : n = x
        · subst hx; rw [hE.1]; omega
        · rw [hE.2 n hx]; exact ih n
      | linkPorts a b => rw [hE n]; exact ih n
      | unlinkPort p => rw [hE n]; exact ih n
      | setNumPorts x i o =>
        obtain ⟨h1, h2, h3, h4, h5⟩ := hE
        by_cases hx : n = x
        · subst hx
          cases hc : g.containsNode n with
          | false => rw [h2 hc]; omega
          | true =>
            by_cases hs : g.numPorts n .incoming = i ∧ g.numPorts n .outgoing = o
            · rw [h3 hs.1 hs.2]; exact ih n
            · by_cases hp : 0 < i + o ∧ i + o < g.nodePortCapacity n
              · rw [h4 hp.1 hp.2]; exact ih n
              · obtain ⟨-, -, h6⟩ := h5 hc hs (by omega)
                have h32 : i + o ≤ 32768 := by
                  rcases hok.2.2 with h7 | h7 | h7 | h7
                  · exact h7
                  · omega
                  · rw [hc] at h7; cases h7
                  · exact absurd h7 hs
                have := h6 15 (by omega)
                omega
        · rw [h1 n hx]; exact ih n
      | compactNodes =>
        obtain ⟨tr, h1, h2⟩ := hE
        obtain ⟨g2, h3, -, h4, -⟩ := compactNodes_ok hI
        rw [h3] at h1
        cases h1
        cases hn : g'.node? n with
        | none => rw [cap_none hn]; omega
        | some m =>
          obtain ⟨a, -, ha⟩ := (h4 n m).1 hn
          have := ih a
          rw [capacity_eq ha] at this
          rw [capacity_eq hn]; exact this
      | compactPorts =>
        rw [hE n]
        have := ih n
        cases hn : g.node? n with
        | none => rw [num_zero hn, num_zero hn]; omega
        | some m =>
          obtain ⟨own, fs, hP, hfull⟩ := hI.slots
          have := (hP.bound n m hn).1
          rw [capacity_eq hn] at *
          rw [numPorts_eq hn, numPorts_eq hn]
          simp only [NodeMeta.numPorts]
          omega
      | swapNodes a b =>
        have h1 := hE (exchange a b n)
        have : exchange a b (exchange a b n) = n := swapIdx_swapIdx a b n
        rw [this] at h1
        rw [h1]; exact ih _
      | clear => rw [hE n]; omega
  · intro hc
    apply cap_none
    cases hn : g.node? n with
    | none => rfl
    | some m => simp [PG.containsNode, hn] at hc

/-- **C75** Within its slots a node is resized in place: the incoming ports that stay keep their
indices, and the outgoing ports follow them. Missing for the documented claim: the same when all slots are
needed, and when no port is left. -/
theorem C75_in_place_partial {maxOff : Nat} (hmax : maxOff ≤ 32767) {g g' : PG} (hg : PG.Reach maxOff g) {n i o : Nat} {tr}
    (h0 : 0 < i + o) (hc : i + o < g.nodePortCapacity n) (h : g.setNumPorts n i o = some (g', tr)) :
    (∀ k p, k < i → g.portIndex n .incoming k = some p → g'.portIndex n .incoming k = some p) ∧
      ∀ k p, k < o → g.portIndex n .outgoing k = some p →
        g'.portIndex n .outgoing k = some (p + i - g.numPorts n .incoming) := by
  have hI := hg.inv hmax
  cases hn : g.node? n with
  | none => rw [cap_none hn] at hc; omega
  | some m =>
    have hni : g.numPorts n .incoming = m.incoming := numPorts_eq hn
    rw [hni]
    rw [capacity_eq hn] at hc
    obtain ⟨own, fs, hP, hfull⟩ := hI.slots
    obtain ⟨b1, b2, b3, b4, b5⟩ := hP.bound n m hn
    by_cases hs : m.incoming = i ∧ m.outgoing = o
    · have hg1 : g' = g := by
        unfold PG.setNumPorts at h
        rw [hn] at h
        simp only [if_pos hs] at h
        split at h
        · cases h; rfl
        · cases h
      subst hg1
      refine ⟨fun k p _ hp => hp, fun k p _ hp => ?_⟩
      rw [hp, ← hs.1]
      congr 1; omega
    · obtain ⟨nm, h1, h2, -⟩ := setNumPorts_meta hI hn hs h
      obtain ⟨h3, h4, h5⟩ := h2 h0 hc
      have hlt := (List.getElem?_eq_some_iff.1 (PG.node?_eq.1 hn)).1
      have hn' : g'.node? n = some nm := by simp [PG.node?, h1, hlt]
      have hout : nm.outgoing = o := by
        have hcon : g.containsNode n = true := by simp [PG.containsNode, hn]
        rcases setNumPorts_effect hI hcon h with ⟨q1, q2, -⟩ | ⟨m', nm', tr1, tr2, q1, -, -, q2, -⟩
        · rw [numPorts_eq hn] at q1 q2; exact absurd ⟨q1, q2⟩ hs
        · have := q2.node
          have h6 : g'.node? n = some nm' := by rw [this]; simp [upd]
          rw [hn'] at h6
          cases h6
          exact q2.hout
      simp only [PG.portIndex, hn, hn', NodeMeta.ports, List.getElem?_range']
      constructor
      · intro k p hk hp
        simp only [NodeMeta.start, NodeMeta.numPorts] at hp ⊢
        grind
      · intro k p hk hp
        simp only [NodeMeta.start, NodeMeta.numPorts] at hp ⊢
        grind

example := C75_capacity (by decide) exG_reach (op := .setNumPorts 0 1 3) (g' := ((exG.setNumPorts 0 1 3).getD (exG, [])).1)
  ⟨by decide, by decide, .inl (by decide)⟩ (by decide)
example := C75_bounds (by decide) exG_reach 0
/-- Node 0 owns 4 slots; with 4 ports in another arrangement it is given 4 others, with 5 ports 8. -/
example : exG.nodePortCapacity 0 = 4 ∧ ((exG.setNumPorts 0 1 3).map fun x => x.1.nodePortCapacity 0) = some 4 ∧
    ((exG.setNumPorts 0 2 3).map fun x => x.1.nodePortCapacity 0) = some 8 ∧
    ((exG.setNumPorts 0 1 2).map fun x => x.1.nodePortCapacity 0) = some 4 := by decide
example := C75_in_place_partial (by decide) exG_reach (n := 0) (i := 1) (o := 2) (g' := ((exG.setNumPorts 0 1 2).getD (exG, [])).1)
  (tr := ((exG.setNumPorts 0 1 2).getD (exG, [])).2) (by decide) (by decide) (by decide)

/-- Failure: with as many ports as slots the node is moved to other slots, though that number does not
exceed the capacity; with no ports it is moved as well. -/
theorem C75_witness_exact : exG.nodePortCapacity 0 = 4 ∧ exG.portIndex 0 .incoming 0 = some 0 ∧
    ((exG.setNumPorts 0 1 3).map fun x => x.1.portIndex 0 .incoming 0) = some (some 10) ∧
    ((exG.setNumPorts 0 0 0).map fun x => x.1.nodePortCapacity 0) = some 1 := by decide

#print axioms C75_capacity
#print axioms C75_bounds
#print axioms C75_in_place_partial

end Verif.PG
