import Verif.PortGraph.Example
import Verif.PortGraph.NodeSlots

/-!
# Properties of the operations: C08, C09, C10, C11, C18, C46
-/

namespace Verif.PG

open Verif (Direction)

/-! ## C08 `add_node` -/

theorem C08_add_node {maxOff : Nat} (hmax : maxOff ≤ 32767) {g : PG} (hg : PG.Reach maxOff g) {i o : Nat}
    (hi : i ≤ maxOff) (ho : o ≤ maxOff) :
    ∃ n g', g.addNode maxOff i o = some (n, g') ∧ g.containsNode n = false ∧
      g'.abs = g.abs.add n i o ∧ (∀ p, g.containsPort p = true → SamePort g g' p) ∧
      (∀ d k p, g'.portIndex n d k = some p → g.containsPort p = false) ∧
      g'.nodeCount = g.nodeCount + 1 ∧ g'.portCount = g.portCount + (i + o) ∧ g'.linkCount = g.linkCount := by
  obtain ⟨n, g', h1, -, h2⟩ := addNode_refines (hg.inv hmax) hi ho (by omega) (by omega)
  exact ⟨n, g', h1, h2⟩

example := C08_add_node (by decide) exG_reach (i := 3) (o := 2) (by decide) (by decide)

/-- The new node's endpoints are unlinked. -/
theorem C08_add_node_unlinked {maxOff : Nat} (hmax : maxOff ≤ 32767) {g : PG} (hg : PG.Reach maxOff g) {i o n : Nat}
    {g' : PG} (hi : i ≤ maxOff) (ho : o ≤ maxOff) (h : g.addNode maxOff i o = some (n, g')) {d k p}
    (hp : g'.portIndex n d k = some p) : g'.portLink? p = some none := by
  obtain ⟨n', f, g'', h1, h2, h3, h4, h5, h6, -⟩ := addNode_ok (hg.inv hmax) hi ho (by omega) (by omega)
  rw [h] at h1; cases h1
  obtain hat := at_index.1 hp
  rw [portLink?_eq h2 (by rw [hat.port h2]; rfl), h6]
  obtain ⟨m, hm, hk, rfl⟩ := hat
  rw [h4] at hm; simp [upd] at hm; subst hm
  simp only
  rw [if_pos]
  rw [inRange_iff]
  cases d <;> simp only [NodeMeta.start, NodeMeta.numPorts] at * <;> omega

example : ((exG.addNode 32767 0 1).getD (0, exG)).2.portLink? 7 = some none :=
  C08_add_node_unlinked (by decide) exG_reach (i := 0) (o := 1) (n := 2) (by decide) (by decide) rfl (d := .outgoing) (k := 0) (by decide)

/-- Counts above the maximum panic. -/
theorem C08_add_node_rejects {maxOff : Nat} (g : PG) {i o : Nat} (h : maxOff < i ∨ maxOff < o) :
    g.addNode maxOff i o = none := by
  unfold PG.addNode
  rw [if_neg (by omega)]

example : ∃ g', exG.addNode 32767 0 1 = some (2, g') ∧ g'.portIndex 2 .outgoing 0 = some 7 ∧ exG.containsPort 7 = false :=
  ⟨((exG.addNode 32767 0 1).getD (0, exG)).2, by decide⟩

/-! ## C09 `remove_node` -/

theorem C09_remove_node {maxOff : Nat} (hmax : maxOff ≤ 32767) {g : PG} (hg : PG.Reach maxOff g) {n : Nat}
    (hn : g.containsNode n = true) :
    ∃ g', g.removeNode n = some g' ∧ g'.abs = g.abs.remove n ∧
      (∀ p n' d k, n' ≠ n → (g'.portIndex n' d k = some p ↔ g.portIndex n' d k = some p)) ∧
      (∀ p, g.portNode p = some n → g'.containsPort p = false) ∧
      (∀ p q, g.containsPort p = true → g.portNode p ≠ some n → g.portLink? p = some q →
        g'.portLink? p = some (if q.bind g.portNode = some n then none else q)) ∧
      g'.nodeCount + 1 = g.nodeCount ∧
      g'.portCount + (g.numPorts n .incoming + g.numPorts n .outgoing) = g.portCount := by
  obtain ⟨m, hm⟩ := Option.isSome_iff_exists.1 (containsNode_iff.1 hn)
  obtain ⟨g', h1, -, h2, h3, h4, h5, h6, h7⟩ := removeNode_refines (hg.inv hmax) hm
  refine ⟨g', h1, h2, h3, h4, h5, h6, ?_⟩
  rw [numPorts_eq hm, numPorts_eq hm]; exact h7

example := C09_remove_node (by decide) exG_reach (n := 0) (by decide)

/-- On an unknown node nothing happens. -/
theorem C09_remove_node_unknown {g : PG} {n : Nat} (hn : g.containsNode n = false) : g.removeNode n = some g := by
  apply removeNode_none
  simpa [PG.containsNode] using hn

example : exG.containsNode 0 = true ∧ exG.portLink? 4 = some (some 2) ∧
    ((exG.removeNode 0).bind fun g => g.portLink? 4) = some none := by decide

/-! ## C10 `link_ports` -/

/-- The specified outcome, except that an unknown second port is reported under the name of
the first. -/
def linkOutcome (g : PG) (a b : Nat) : Except LinkError (Nat × Nat) :=
  match g.portDirection a, g.portDirection b with
  | none, _ => .error (.unknownPort a)
  | _, none => .error (.unknownPort a)
  | some da, some db =>
    if da = db then .error (.incompatibleDirections a b da)
    else if (g.portLink? a).join.isSome then .error (.alreadyLinked a)
    else if (g.portLink? b).join.isSome then .error (.alreadyLinked b)
    else .ok (a, b)

/-- `link_ports` never panics and its result is `linkOutcome`; if it is an error the graph is
unchanged. Missing for the full claim: an unknown second port is not named in the error. -/
theorem C10_link_ports_outcome_partial {maxOff : Nat} (hmax : maxOff ≤ 32767) {g : PG} (hg : PG.Reach maxOff g) (a b : Nat) :
    ∃ g', g.linkPorts a b = some (linkOutcome g a b, g') ∧ ((linkOutcome g a b).isOk = false → g' = g) := by
  have h := hg.inv hmax
  have hlen := h.len
  unfold linkOutcome
  cases ha : g.port? a with
  | none =>
    refine ⟨g, ?_, fun _ => rfl⟩
    simp [PG.linkPorts, PG.portDirection, ha]
  | some x =>
    obtain ⟨na, da⟩ := x
    cases hb : g.port? b with
    | none =>
      refine ⟨g, ?_, fun _ => rfl⟩
      simp [PG.linkPorts, PG.portDirection, ha, hb]
    | some y =>
      obtain ⟨nb, db⟩ := y
      have hla := PG.port?_lt (g := g) (p := a) (by simp [ha])
      have hlb := PG.port?_lt (g := g) (p := b) (by simp [hb])
      rw [portLink?_eq h (by simp [ha]), portLink?_eq h (by simp [hb])]
      simp only [PG.portDirection, ha, hb, Option.map_some, PG.linkPorts, PG.getElem?_portLink (hlen ▸ hla),
        PG.getElem?_portLink (hlen ▸ hlb)]
      by_cases hd : da = db
      · rw [if_pos hd]; exact ⟨g, by simp [hd], fun _ => rfl⟩
      · rw [if_neg hd, if_neg hd]
        cases la : g.lk a with
        | some q => exact ⟨g, by simp, fun _ => rfl⟩
        | none =>
          cases lb : g.lk b with
          | some q => exact ⟨g, by simp, fun _ => rfl⟩
          | none => exact ⟨_, by simp; rfl, by simp [Except.isOk, Except.toBool]⟩

example : (linkOutcome exG 9 5).toOption = some (9, 5) ∧ (linkOutcome exG 9 4).toOption = none ∧ (linkOutcome exG 9 7).toOption = none := by
  decide

/-- Success happens exactly for two existing unlinked ports of opposite directions, and then
exactly these two are linked. -/
theorem C10_link_ports {maxOff : Nat} (hmax : maxOff ≤ 32767) {g : PG} (hg : PG.Reach maxOff g) {a b : Nat} {g' : PG}
    (h : g.linkPorts a b = some (.ok (a, b), g')) :
    ∃ ea eb, g.endpoint a = some ea ∧ g.endpoint b = some eb ∧ ea.2.1 = eb.2.1.reverse ∧
      g.portLink? a = some none ∧ g.portLink? b = some none ∧
      g'.abs = g.abs.join ea eb ∧ (∀ n d k, g'.portIndex n d k = g.portIndex n d k) ∧
      (∀ p, g'.portLink? p = if p = b then some (some a) else if p = a then some (some b) else g.portLink? p) ∧
      g'.nodeCount = g.nodeCount ∧ g'.portCount = g.portCount ∧ g'.linkCount = g.linkCount + 1 := by
  have hI := hg.inv hmax
  obtain ⟨g1, ho, -⟩ := C10_link_ports_outcome_partial hmax hg a b
  rw [h] at ho
  simp only [Option.some.injEq, Prod.mk.injEq] at ho
  have ho := ho.1
  unfold linkOutcome at ho
  cases ha : g.port? a with
  | none => simp [PG.portDirection, ha] at ho
  | some x =>
    obtain ⟨na, da⟩ := x
    cases hb : g.port? b with
    | none => simp [PG.portDirection, ha, hb] at ho
    | some y =>
      obtain ⟨nb, db⟩ := y
      rw [portLink?_eq hI (by simp [ha]), portLink?_eq hI (by simp [hb])] at ho ⊢
      simp only [PG.portDirection, ha, hb, Option.map_some] at ho
      split at ho
      · simp at ho
      · rename_i hd
        split at ho
        · simp at ho
        · rename_i la
          split at ho
          · simp at ho
          · rename_i lb
            have la : g.lk a = none := by simpa using la
            have lb : g.lk b = none := by simpa using lb
            obtain ⟨ma, -, -, haa⟩ := port_at hI ha
            obtain ⟨mb, -, -, hbb⟩ := port_at hI hb
            obtain ⟨g2, h1, -, h3⟩ := linkPorts_refines hI haa hbb hd la lb
            rw [h] at h1
            simp only [Option.some.injEq, Prod.mk.injEq, true_and] at h1
            subst h1
            refine ⟨_, _, haa.endpoint hI, hbb.endpoint hI, ?_, by rw [la], by rw [lb], h3⟩
            simp only
            cases da <;> cases db <;> simp_all [Direction.reverse]

example := C10_link_ports (by decide) exG_reach (a := 9) (b := 5) (g' := ((exG.linkPorts 9 5).getD (.ok (0, 0), exG)).2) rfl

theorem C10_link_ports_succeeds {maxOff : Nat} (hmax : maxOff ≤ 32767) {g : PG} (hg : PG.Reach maxOff g) {a b : Nat}
    {d : Direction} (ha : g.portDirection a = some d) (hb : g.portDirection b = some d.reverse)
    (la : g.portLink? a = some none) (lb : g.portLink? b = some none) :
    ∃ g', g.linkPorts a b = some (.ok (a, b), g') := by
  obtain ⟨g', h, -⟩ := C10_link_ports_outcome_partial hmax hg a b
  refine ⟨g', ?_⟩
  rw [h]
  have : d ≠ d.reverse := Ne.symm (Direction.reverse_ne d)
  simp [linkOutcome, ha, hb, la, lb, this]

example := C10_link_ports_succeeds (by decide) exG_reach (a := 9) (b := 5) (d := .outgoing) (by decide) (by decide) (by decide) (by decide)

/-- Failure: the error for an unknown second port names the first port. -/
theorem C10_witness_wrong_port :
    exG.containsPort 5 = true ∧ exG.containsPort 40 = false ∧
      exG.linkPorts 5 40 = some (.error (.unknownPort 5), exG) := ⟨by decide, by decide, rfl⟩

example : exG.portDirection 9 = some .outgoing ∧ exG.portDirection 5 = some .incoming ∧
    exG.portLink? 9 = some none ∧ exG.portLink? 5 = some none := by decide

/-! ## C11 `unlink_port` -/

theorem C11_unlink_port {maxOff : Nat} (hmax : maxOff ≤ 32767) {g : PG} (hg : PG.Reach maxOff g) {p : Nat} {e : Endpoint}
    {l : Option Nat} (hp : g.endpoint p = some e) (hl : g.portLink? p = some l) :
    ∃ g', g.unlinkPort p = some (l, g') ∧ g'.abs = g.abs.unlink e ∧
      (∀ n d k, g'.portIndex n d k = g.portIndex n d k) ∧
      (∀ p', g'.portLink? p' = if p' = p ∨ g.portLink? p' = some (some p) then
        (g.portLink? p').map (fun _ => none) else g.portLink? p') ∧
      g'.nodeCount = g.nodeCount ∧ g'.portCount = g.portCount ∧
      g'.linkCount + (if l.isSome then 1 else 0) = g.linkCount := by
  have hI := hg.inv hmax
  have hat := (endpoint_at hI).1 hp
  rw [portLink?_eq hI (by rw [hat.port hI]; rfl)] at hl
  simp only [Option.some.injEq] at hl
  obtain ⟨g', h1, -, h2⟩ := unlinkPort_refines hI hat
  rw [hl] at h1 h2
  exact ⟨g', h1, h2⟩

example := C11_unlink_port (by decide) exG_reach (p := 3) (e := (0, .outgoing, 1)) (l := some 1) (by decide) (by decide)

theorem C11_unlink_port_unknown {g : PG} {p : Nat} (hp : g.containsPort p = false) :
    g.unlinkPort p = some (none, g) := by
  apply unlinkPort_none
  simpa [PG.containsPort] using hp

example := C11_unlink_port_unknown (g := exG) (p := 7) (by decide)

/-- Unlinking one end right after linking restores the graph. -/
theorem C11_unlink_after_link {maxOff : Nat} (hmax : maxOff ≤ 32767) {g : PG} (hg : PG.Reach maxOff g) {a b : Nat} {g' : PG}
    (h : g.linkPorts a b = some (.ok (a, b), g')) :
    g'.unlinkPort a = some (some b, g) ∧ g'.unlinkPort b = some (some a, g) := by
  have hI := hg.inv hmax
  have hlen := hI.len
  obtain ⟨ea, eb, h1, h2, h3, h4, h5, -⟩ := C10_link_ports hmax hg h
  have haa := (endpoint_at hI).1 h1
  have hbb := (endpoint_at hI).1 h2
  have ha := haa.port hI
  have hb := hbb.port hI
  have hla := PG.port?_lt (g := g) (p := a) (by simp [ha])
  have hlb := PG.port?_lt (g := g) (p := b) (by simp [hb])
  have hab : a ≠ b := by
    rintro rfl
    have := haa.inj hI hbb
    rw [this] at h3
    exact Direction.reverse_ne _ h3.symm
  rw [portLink?_eq hI (by simp [ha])] at h4
  rw [portLink?_eq hI (by simp [hb])] at h5
  simp only [Option.some.injEq] at h4 h5
  have ga : g.portLink[a]? = some none := by rw [PG.getElem?_portLink (by omega), h4]
  have gb : g.portLink[b]? = some none := by rw [PG.getElem?_portLink (by omega), h5]
  simp only [PG.linkPorts, ha, hb, ga, gb] at h
  split at h
  · simp at h
  · simp only [Option.some.injEq, Prod.mk.injEq, true_and] at h
    subst h
    have hset : ∀ (l : List (Option Nat)) (i : Nat), l[i]? = some none → l.set i none = l := by
      intro l i hl
      apply List.ext_getElem?
      intro j
      rw [List.getElem?_set]
      split
      · subst_vars
        split
        · exact hl.symm
        · rename_i hc
          rw [List.getElem?_eq_none (by omega)] at hl; simp at hl
      · rfl
    have hp : ∀ q, ({ g with portLink := (g.portLink.set a (some b)).set b (some a), linkCount := g.linkCount + 1 } : PG).port? q
        = g.port? q := fun _ => rfl
    have e1 : ((g.portLink.set a (some b)).set b (some a))[a]? = some (some b) := by
      rw [List.getElem?_set_ne hab.symm, List.getElem?_set_self (by omega)]
    have e2 : ((g.portLink.set a (some b)).set b (some a))[b]? = some (some a) := by
      rw [List.getElem?_set_self (by simp; omega)]
    have c1 : (((g.portLink.set a (some b)).set b (some a)).set a none).set b none = g.portLink := by
      rw [List.set_comm _ _ hab, List.set_set, List.set_comm _ _ hab.symm, List.set_set, hset _ _ ga, hset _ _ gb]
    have c2 : (((g.portLink.set a (some b)).set b (some a)).set b none).set a none = g.portLink := by
      rw [List.set_set, List.set_comm _ _ hab.symm, List.set_set, hset _ _ ga, hset _ _ gb]
    constructor
    · simp only [PG.unlinkPort, hp, ha, e1]
      rw [if_pos ⟨by simp; omega, by omega⟩]
      simp only [c1]; rfl
    · simp only [PG.unlinkPort, hp, hb, e2]
      rw [if_pos ⟨by simp; omega, by omega⟩]
      simp only [c2]; rfl

example : ∃ g', exG.linkPorts 9 5 = some (.ok (9, 5), g') ∧ g'.unlinkPort 5 = some (some 9, exG) :=
  ⟨((exG.linkPorts 9 5).getD (.ok (0, 0), exG)).2, rfl, by decide⟩

/-! ## C18 `clear` -/

theorem C18_clear {maxOff : Nat} (g : PG) (ops : List PG.Op) :
    PG.run maxOff g.clear ops = PG.run maxOff PG.empty ops ∧ g.clear.abs = AGraph.empty ∧
      g.clear.nodeCount = 0 ∧ g.clear.portCount = 0 ∧ g.clear.linkCount = 0 ∧
      (∀ n, g.clear.containsNode n = false) ∧ (∀ p, g.clear.containsPort p = false) := by
  rw [clear_eq]
  refine ⟨rfl, ?_, rfl, rfl, rfl, fun _ => rfl, fun _ => rfl⟩
  apply AGraph.ext'
  · intro n; rfl
  · intro e f; simp [PG.abs, PG.portIndex, PG.node?, PG.empty, AGraph.empty]

example : exG.nodeCount = 3 ∧ exG.clear = PG.empty := by decide

/-! ## C46 Freed node slots are reused -/

/-- Run a history and keep the largest number of nodes alive at once since the last
`compact_nodes` or `clear`. -/
def peakRun (maxOff : Nat) (g : PG) (pk : Nat) : List PG.Op → Option (PG × Nat)
  | [] => some (g, pk)
  | op :: ops =>
    match g.step maxOff op with
    | none => none
    | some g' =>
      peakRun maxOff g' (match op with
        | .compactNodes => g'.nodeCount
        | .clear => g'.nodeCount
        | _ => max pk g'.nodeCount) ops

theorem peakRun_slots {maxOff : Nat} (hmax : maxOff ≤ 32767) (ops : List PG.Op) {g : PG} {pk : Nat} (hg : Inv g)
    (hpk : g.nodeMeta.length ≤ pk) (hok : OkRun maxOff g ops) {r} (h : peakRun maxOff g pk ops = some r) :
    r.1.nodeMeta.length ≤ r.2 := by
  induction ops generalizing g pk with
  | nil => simp [peakRun] at h; rw [← h]; exact hpk
  | cons op ops ih =>
    obtain ⟨h1, h2⟩ := hok
    obtain ⟨g', hs, hg'⟩ := step_ok hmax hg h1
    simp only [peakRun, hs] at h
    refine ih hg' ?_ (h2 g' hs) h
    cases op with
    | addNode i o =>
      simp only [PG.step, Option.map_eq_some_iff] at hs
      obtain ⟨r, hr, rfl⟩ := hs
      have := addNode_slots hr
      obtain ⟨n, f, g'', e1, -, -, -, -, -, -, e2, -⟩ := addNode_ok hg h1.1 h1.2 (by have := h1.1; omega)
        (by have := h1; simp only [PG.Op.ok] at this; omega)
      rw [hr] at e1; cases e1
      simp only at *
      split at this
      · rename_i hf
        have := hg.full hf
        omega
      · omega
    | removeNode n => have := removeNode_slots hs; simp only; omega
    | linkPorts a b =>
      simp only [PG.step, Option.map_eq_some_iff] at hs
      obtain ⟨r, hr, rfl⟩ := hs
      rw [linkPorts_slots hr]; simp only; omega
    | unlinkPort p =>
      simp only [PG.step, Option.map_eq_some_iff] at hs
      obtain ⟨r, hr, rfl⟩ := hs
      rw [unlinkPort_slots hr]; simp only; omega
    | setNumPorts n i o =>
      simp only [PG.step, Option.map_eq_some_iff] at hs
      obtain ⟨r, hr, rfl⟩ := hs
      rw [setNumPorts_slots hr]; simp only; omega
    | compactNodes =>
      simp only [PG.step, Option.map_eq_some_iff] at hs
      obtain ⟨r, hr, rfl⟩ := hs
      have := hg'.full (compactNodes_free hr)
      simp only; omega
    | compactPorts =>
      simp only [PG.step, Option.map_eq_some_iff] at hs
      obtain ⟨r, hr, rfl⟩ := hs
      rw [compactPorts_slots hr]; simp only; omega
    | swapNodes a b => have := swapNodes_slots hs; simp only; omega
    | clear =>
      simp only [PG.step, Option.some.injEq] at hs
      rw [← hs]; simp [PG.clear]

/-- Every node index in use is smaller than the largest number of nodes alive at once since
the last compaction. Swaps of live nodes are allowed. -/
theorem C46_slots_reused {maxOff : Nat} (hmax : maxOff ≤ 32767) {ops : List PG.Op} (hok : OkRun maxOff PG.empty ops)
    {g : PG} {pk : Nat} (h : peakRun maxOff PG.empty 0 ops = some (g, pk)) {n : Nat} (hn : g.containsNode n = true) :
    n < pk := by
  have h1 := peakRun_slots hmax ops Inv.empty (by simp [PG.empty]) hok h
  have h2 : n < g.nodeMeta.length := by
    unfold PG.containsNode PG.node? at hn
    cases e : g.nodeMeta[n]? with
    | none => simp [e] at hn
    | some x => exact (List.getElem?_eq_some_iff.1 e).1
  exact Nat.lt_of_lt_of_le h2 h1

example := C46_slots_reused (by decide) (checkedRun_ok exG_run) (g := exG) (pk := 4) (by decide) (n := 3) (by decide)

/-- In any reachable graph a node beyond the indices handed out before is only made when all
earlier indices are live. -/
theorem C46_new_slot_when_full {maxOff : Nat} (hmax : maxOff ≤ 32767) {g : PG} (hg : PG.Reach maxOff g) {i o n : Nat}
    {g' : PG} (hi : i ≤ maxOff) (ho : o ≤ maxOff) (h : g.addNode maxOff i o = some (n, g')) :
    n < g.nodeMeta.length ∨ (n = g.nodeMeta.length ∧ ∀ k, k < n → g.containsNode k = true) := by
  have hI := hg.inv hmax
  obtain ⟨n', f, g'', e1, -, -, -, -, -, -, -, -, -, -, -, e2, e3⟩ := addNode_ok hI hi ho (by omega) (by omega)
  rw [h] at e1; cases e1
  by_cases hf : g.nodeFree = none
  · right
    refine ⟨e2 hf, ?_⟩
    intro k hk
    obtain ⟨fn, hN⟩ := hI.nodes
    have hc := hN.chain
    rw [hf] at hc
    have := hc.nil
    subst this
    rw [e2 hf] at hk
    unfold PG.containsNode PG.node?
    cases e : g.nodeMeta[k]? with
    | none => rw [List.getElem?_eq_none_iff] at e; omega
    | some x =>
      cases x with
      | node m => rfl
      | free a b => exact absurd ((hN.exact k).2 ⟨a, b, e⟩) (by simp)
  · exact .inl (e3 hf)

example : peakRun 32767 PG.empty 0 exOps = some (exG, 4) ∧ exG.containsNode 3 = true := by decide

end Verif.PG

#print axioms Verif.PG.C08_add_node
#print axioms Verif.PG.C08_add_node_unlinked
#print axioms Verif.PG.C08_add_node_rejects
#print axioms Verif.PG.C09_remove_node
#print axioms Verif.PG.C09_remove_node_unknown
#print axioms Verif.PG.C10_link_ports_outcome_partial
#print axioms Verif.PG.C10_link_ports
#print axioms Verif.PG.C10_link_ports_succeeds
#print axioms Verif.PG.C10_witness_wrong_port
#print axioms Verif.PG.C11_unlink_port
#print axioms Verif.PG.C11_unlink_port_unknown
#print axioms Verif.PG.C11_unlink_after_link
#print axioms Verif.PG.C18_clear
#print axioms Verif.PG.C46_slots_reused
#print axioms Verif.PG.C46_new_slot_when_full
