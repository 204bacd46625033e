import Verif.Multi.Props

/-!
# C39: the flat graph behind a multigraph

`as_portgraph` shows the flat graph with the helper nodes, and `pg_main_node` says which node of the
multigraph a node of it belongs to.
-/

namespace Verif.Multi

open Verif (Direction)
open Verif.PG Verif.View

variable {maxOff : Nat} {m : MG}

theorem mainNode_of_copy (h : MOk m) {c : Nat} {d : Direction} {cp : Nat} (hC : CopyOf m c d cp) :
    ∃ p x k, Lk m.graph cp p ∧ At m.graph p (x, d, k) ∧ m.copy x = false ∧ m.mainNode? c = some x := by
  obtain ⟨p, f, h1, h2, -⟩ := h.multi_at hC.flag (fun hd => hd) hC.port
  obtain ⟨-, x, k, h4, h5⟩ := h.main_vis hC h2
  refine ⟨p, x, k, h2, h4, h5, ?_⟩
  unfold MG.mainNode?
  rw [if_neg (by simp [hC.copy]), MInv.mainPort_eq hC, show m.graph.portLink? cp = some (some p) from h2]
  exact At.portNode h.inv h4

theorem mainNode_of_main {n : Nat} (hn : m.copy n = false) : m.mainNode? n = some n := by
  simp [MG.mainNode?, hn]

/-- The main node of a node of the flat graph is a node of the multigraph. A node of the multigraph
is its own main node. A helper has one link to a port of its main node, and its other ports are the
subports of this port. -/
theorem C39_main_node (h2m : 2 ≤ maxOff) (hmax : maxOff ≤ 32767) (h : MReach maxOff m) {n : Nat}
    (hn : m.graph.containsNode n = true) :
    ∃ x, m.mainNode? n = some x ∧ m.obs.node x ∧ (m.obs.node n → x = n) ∧
      (¬ m.obs.node n → ∃ p q, m.graph.portNode p = some x ∧ m.graph.portNode q = some n ∧
        m.graph.portLink? q = some (some p) ∧
        ∀ r, m.graph.portNode r = some n → r ≠ q → ∃ k, m.fromIndex r = some (some (p, k)) ∧ m.obs.sub (p, k)) := by
  have hM := h.ok h2m hmax
  cases hc : m.copy n with
  | false =>
    have hv : m.obs.node n := obs_node.2 ⟨hn, hc⟩
    exact ⟨n, mainNode_of_main hc, hv, fun _ => rfl, fun hx => absurd hv hx⟩
  | true =>
    obtain ⟨d, cp, hC⟩ := hM.shape n hc
    obtain ⟨p, x, k, h1, h2, h3, h4⟩ := mainNode_of_copy hM hC
    refine ⟨x, h4, obs_node.2 ⟨At.contains h2, h3⟩, fun hv => ?_, fun _ => ?_⟩
    · rw [(obs_node.1 hv).2] at hc; cases hc
    · refine ⟨p, cp, At.portNode hM.inv h2, At.portNode hM.inv hC.port, h1, fun r hr hrc => ?_⟩
      obtain ⟨e, he⟩ : ∃ e, At m.graph r e := by
        simp only [PG.portNode, Option.map_eq_some_iff] at hr
        obtain ⟨⟨n', d'⟩, g1, rfl⟩ := hr
        obtain ⟨m', _, _, g2⟩ := port_at hM.inv g1
        exact ⟨_, g2⟩
      obtain ⟨n', d', k'⟩ := e
      have hn' : n' = n := by
        have := At.portNode hM.inv he
        rw [hr] at this; simpa using this.symm
      subst hn'
      rcases hC.classify he with ⟨rfl, g2⟩ | ⟨-, -, g3⟩
      · have hs : Sub m r (p, k') := hM.sub_iff.2 ⟨g2, .inr ⟨n', d', cp, he, hC, h1⟩⟩
        exact ⟨k', hM.fromIndex_eq hs, (obs_sub hM).2 ⟨r, hs⟩⟩
      · exact absurd g3 hrc

/-- A node which is not in the flat graph is returned unchanged. -/
theorem C39_main_node_unknown (h2m : 2 ≤ maxOff) (hmax : maxOff ≤ 32767) (h : MReach maxOff m) {n : Nat}
    (hn : m.graph.containsNode n = false) : m.mainNode? n = some n := by
  have hM := h.ok h2m hmax
  refine mainNode_of_main ?_
  cases hc : m.copy n with
  | false => rfl
  | true => rw [hM.copyLive n hc] at hn; cases hn

theorem sub_main (h : MOk m) {q : Nat} {e : Subport} (hs : Sub m q e) :
    ∃ a x, m.graph.portNode q = some a ∧ m.mainNode? a = some x ∧ m.graph.portNode e.1 = some x := by
  obtain ⟨n, d, k, h1, h2, h3 | h3⟩ := hs
  · obtain ⟨h3, rfl⟩ := h3
    exact ⟨n, n, At.portNode h.inv h1, mainNode_of_main h3, At.portNode h.inv h1⟩
  · obtain ⟨h3, cp, p, h4, h5, rfl⟩ := h3
    obtain ⟨cp', hC⟩ := h.sub_copy h3 h1 h2
    obtain ⟨p', x, k', g1, g2, g3, g4⟩ := mainNode_of_copy h hC
    have : cp = cp' := At.unique h4 hC.port
    subst this
    obtain rfl := h5.fun g1
    exact ⟨n, x, At.portNode h.inv h1, g4, At.portNode h.inv g2⟩

/-- The multigraph is the flat graph with each helper joined to its main node: its links are the
links between flat ports which are not marked, one for one, and their ends belong to the main nodes
of the flat ends. -/
theorem C39_contract (h2m : 2 ≤ maxOff) (hmax : maxOff ≤ 32767) (h : MReach maxOff m) :
    (∀ q r, m.graph.portLink? q = some (some r) → m.multi q = false → ∃ a b x y e f,
      m.graph.portNode q = some a ∧ m.graph.portNode r = some b ∧ m.mainNode? a = some x ∧ m.mainNode? b = some y ∧
      m.fromIndex q = some (some e) ∧ m.fromIndex r = some (some f) ∧ m.obs.link e f ∧
      m.graph.portNode e.1 = some x ∧ m.graph.portNode f.1 = some y) ∧
    (∀ q r, m.graph.portLink? q = some (some r) → m.multi q = true → ∃ a b x,
      m.graph.portNode q = some a ∧ m.graph.portNode r = some b ∧ m.mainNode? a = some x ∧ m.mainNode? b = some x) ∧
    (∀ e f, m.obs.link e f → ∃ q r, m.graph.portLink? q = some (some r) ∧ m.multi q = false ∧
      m.fromIndex q = some (some e) ∧ m.fromIndex r = some (some f) ∧
      ∀ q', m.fromIndex q' = some (some e) → m.multi q' = false → q' = q) := by
  have hM := h.ok h2m hmax
  refine ⟨fun q r hl hq => ?_, fun q r hl hq => ?_, fun e f hl => ?_⟩
  · obtain ⟨f, hf⟩ := hM.lk_sub hl hq (by simp)
    obtain ⟨e, he⟩ := hM.lk_sub (Lk.sym hM.inv hl) (by rw [← hM.lk_multi hl, hq]) (by simp)
    obtain ⟨a, x, h1, h2, h3⟩ := sub_main hM he
    obtain ⟨b, y, h4, h5, h6⟩ := sub_main hM hf
    exact ⟨a, b, x, y, e, f, h1, h4, h2, h5, hM.fromIndex_eq he, hM.fromIndex_eq hf, (obs_link hM).2 ⟨q, r, he, hf, hl⟩, h3, h6⟩
  · obtain ⟨e, f, he, hf, -⟩ := Lk.at hM.inv hl
    have hcc := hM.lk_copy hl hq he hf
    have key : ∀ {q r : Nat} {e f : Endpoint}, Lk m.graph q r → m.multi q = true → At m.graph q e → At m.graph r f →
        m.copy e.1 = true → m.copy f.1 = false → m.mainNode? e.1 = some f.1 ∧ m.mainNode? f.1 = some f.1 := by
      intro q r e f hl hq he hf hc hc'
      obtain ⟨d, cp, hC⟩ := hM.shape e.1 hc
      obtain ⟨p, x, k, g1, g2, g3, g4⟩ := mainNode_of_copy hM hC
      obtain ⟨n, d', k'⟩ := e
      have : q = cp := by
        rcases hC.classify he with ⟨-, g⟩ | ⟨-, -, g⟩
        · rw [hq] at g; cases g
        · exact g
      subst this
      obtain rfl := Lk.fun hl g1
      have := hf.inj hM.inv g2
      subst this
      exact ⟨g4, mainNode_of_main hc'⟩
    cases hc : m.copy e.1 with
    | true =>
      rw [hc] at hcc
      have := key hl hq he hf hc (by simpa using hcc)
      exact ⟨e.1, f.1, f.1, At.portNode hM.inv he, At.portNode hM.inv hf, this.1, this.2⟩
    | false =>
      rw [hc] at hcc
      have := key (Lk.sym hM.inv hl) (by rw [← hM.lk_multi hl, hq]) hf he (by simpa using hcc) hc
      exact ⟨e.1, f.1, e.1, At.portNode hM.inv he, At.portNode hM.inv hf, this.2, this.1⟩
  · obtain ⟨q, r, h1, h2, h3⟩ := (obs_link hM).1 hl
    refine ⟨q, r, h3, hM.sub_flag h1, hM.fromIndex_eq h1, hM.fromIndex_eq h2, fun q' hq' hm => ?_⟩
    have hlive : ∃ x, At m.graph q' x := by
      cases hp : m.graph.portNode q' with
      | none => simp [MG.fromIndex, hp] at hq'
      | some n =>
        simp only [PG.portNode, Option.map_eq_some_iff] at hp
        obtain ⟨⟨n', d'⟩, g1, rfl⟩ := hp
        obtain ⟨m', _, _, g2⟩ := port_at hM.inv g1
        exact ⟨_, g2⟩
    obtain ⟨x, hx⟩ := hlive
    obtain ⟨e', he'⟩ := hM.sub_exists hx hm (by simp)
    have := hM.fromIndex_eq he'
    rw [hq'] at this
    simp only [Option.some.injEq] at this
    subst this
    exact hM.sub_inj he' h1

/-! The hypotheses hold for `exM`, which has helpers. -/

example : ((List.range 7).map exM.mainNode?) = [some 0, some 1, some 2, some 0, some 2, some 1, some 6] := by decide +kernel

example := C39_main_node (by decide) (by decide) (built_reach _ : MReach 32767 exM) (n := 3) (by decide +kernel)

#print axioms C39_main_node
#print axioms C39_main_node_unknown
#print axioms C39_contract

example := C39_main_node_unknown (by decide) (by decide) (built_reach _ : MReach 32767 exM) (n := 6) (by decide +kernel)

end Verif.Multi
