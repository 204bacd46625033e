import Verif.PortGraph.IterLemmas
import Verif.PortGraph.OpsSwap

/-! The invariant holds in every reachable graph. -/

namespace Verif.PG

open Verif (Direction)

theorem numPorts_eq {g : PG} {n m d} (h : g.node? n = some m) : g.numPorts n d = m.numPorts d := by
  simp [PG.numPorts, h]

theorem capacity_eq {g : PG} {n m} (h : g.node? n = some m) : g.nodePortCapacity n = m.capacity := by
  simp [PG.nodePortCapacity, h]

theorem containsNode_eq {g : PG} {n m} (h : g.node? n = some m) : g.containsNode n = true := by
  simp [PG.containsNode, h]

theorem linkPorts_total {g : PG} (h : Inv g) (a b : Nat) :
    ∃ r g', g.linkPorts a b = some (r, g') ∧ Inv g' ∧ (r.isOk = false → g' = g) ∧
      g'.nodeMeta = g.nodeMeta ∧ g'.nodeCount = g.nodeCount := by
  have hlen := h.len
  cases ha : g.port? a with
  | none => exact ⟨.error (.unknownPort a), g, by simp only [PG.linkPorts, ha], h, fun _ => rfl, rfl, rfl⟩
  | some x =>
    obtain ⟨na, da⟩ := x
    cases hb : g.port? b with
    | none => exact ⟨.error (.unknownPort a), g, by simp only [PG.linkPorts, ha, hb], h, fun _ => rfl, rfl, rfl⟩
    | some y =>
      obtain ⟨nb, db⟩ := y
      by_cases hd : da = db
      · exact ⟨.error (.incompatibleDirections a b db), g, by simp only [PG.linkPorts, ha, hb, hd, if_true], h, fun _ => rfl, rfl, rfl⟩
      · have hla := PG.port?_lt (g := g) (p := a) (by simp [ha])
        have hlb := PG.port?_lt (g := g) (p := b) (by simp [hb])
        cases la : g.lk a with
        | some q =>
          refine ⟨.error (.alreadyLinked a), g, ?_, h, fun _ => rfl, rfl, rfl⟩
          · simp only [PG.linkPorts, ha, hb, hd, if_false]
            rw [PG.getElem?_portLink (by omega), la]
        | none =>
          cases lb : g.lk b with
          | some q =>
            refine ⟨.error (.alreadyLinked b), g, ?_, h, fun _ => rfl, rfl, rfl⟩
            · simp only [PG.linkPorts, ha, hb, hd, if_false]
              rw [PG.getElem?_portLink (by omega), la]
              simp only
              rw [PG.getElem?_portLink (by omega), lb]
          | none =>
            obtain ⟨g', h1, h2, -⟩ := linkPorts_ok h ha hb hd la lb
            refine ⟨_, g', h1, h2, by simp [Except.isOk, Except.toBool], ?_⟩
            simp only [PG.linkPorts, ha, hb, hd, if_false] at h1
            rw [PG.getElem?_portLink (by omega), la] at h1
            simp only at h1
            rw [PG.getElem?_portLink (by omega), lb] at h1
            simp only [Option.some.injEq, Prod.mk.injEq, true_and] at h1
            rw [← h1]
            exact ⟨rfl, rfl⟩

theorem unlinkPort_none {g : PG} {p} (h : g.port? p = none) : g.unlinkPort p = some (none, g) := by
  simp [PG.unlinkPort, h]

theorem step_ok {maxOff : Nat} (hmax : maxOff ≤ 32767) {g : PG} (h : Inv g) {op : PG.Op} (hok : PG.Op.ok maxOff g op) :
    ∃ g', g.step maxOff op = some g' ∧ Inv g' := by
  cases op with
  | addNode i o =>
    obtain ⟨hi, ho⟩ := hok
    obtain ⟨n, f, g', h1, h2, -⟩ := addNode_ok h hi ho (by omega) (by omega)
    exact ⟨g', by simp [PG.step, h1], h2⟩
  | removeNode n =>
    cases hn : g.node? n with
    | none => exact ⟨g, by simp [PG.step, removeNode_none hn], h⟩
    | some m =>
      obtain ⟨g', h1, h2, -⟩ := removeNode_ok h hn
      exact ⟨g', by simp [PG.step, h1], h2⟩
  | linkPorts a b =>
    obtain ⟨r, g', h1, h2, -⟩ := linkPorts_total h a b
    exact ⟨g', by simp [PG.step, h1], h2⟩
  | unlinkPort p =>
    cases hp : g.port? p with
    | none => exact ⟨g, by simp [PG.step, unlinkPort_none hp], h⟩
    | some x =>
      obtain ⟨g', h1, h2, -⟩ := unlinkPort_ok h (p := p) (by rw [hp]; rfl)
      exact ⟨g', by simp [PG.step, h1], h2⟩
  | setNumPorts n i o =>
    obtain ⟨hi, ho, hc⟩ := hok
    cases hn : g.node? n with
    | none => exact ⟨g, by simp [PG.step, setNumPorts_none hn hi ho], h⟩
    | some m =>
      rw [containsNode_eq hn, numPorts_eq hn, numPorts_eq hn, capacity_eq hn] at hc
      simp only [NodeMeta.numPorts] at hc
      by_cases hne : m.incoming = i ∧ m.outgoing = o
      · obtain ⟨rfl, rfl⟩ := hne
        exact ⟨g, by simp [PG.step, setNumPorts_same hn hi ho], h⟩
      · have : i + o ≤ 32768 ∨ i + o < m.capacity := by
          rcases hc with hc | hc | hc | hc
          · exact Or.inl hc
          · exact Or.inr hc
          · simp at hc
          · exact absurd hc hne
        obtain ⟨g', tr1, tr2, nm, h1, h2, -⟩ := setNumPorts_ok h hn hne this hi
        exact ⟨g', by simp [PG.step, h1], h2⟩
  | compactNodes =>
    obtain ⟨g', h1, h2, -⟩ := compactNodes_ok h
    exact ⟨g', by simp [PG.step, h1], h2⟩
  | compactPorts =>
    obtain ⟨g', h1, h2, -⟩ := compactPorts_ok h (by
      intro n m hn h0
      have := hok n
      rw [numPorts_eq hn, numPorts_eq hn, capacity_eq hn] at this
      exact this h0)
    exact ⟨g', by simp [PG.step, h1], h2⟩
  | swapNodes a b =>
    obtain ⟨g', h1, h2, -⟩ := swapNodes_all_ok h hok
    exact ⟨g', by simp [PG.step, h1], h2⟩
  | clear => exact ⟨_, rfl, Inv.clear g⟩

theorem PG.Reach.inv {maxOff : Nat} (hmax : maxOff ≤ 32767) {g : PG} (h : PG.Reach maxOff g) : Inv g := by
  induction h with
  | init => exact Inv.empty
  | step _ hok hs ih =>
    obtain ⟨g', h1, h2⟩ := step_ok hmax ih hok
    rw [hs] at h1; cases h1; exact h2

/-- Every call of the list meets `Op.ok` when its turn comes. -/
def OkRun (maxOff : Nat) : PG → List PG.Op → Prop
  | _, [] => True
  | g, op :: ops => PG.Op.ok maxOff g op ∧ ∀ g', g.step maxOff op = some g' → OkRun maxOff g' ops

/-- A decidable sufficient condition for `Op.ok`. -/
def okCheck (maxOff : Nat) (g : PG) : PG.Op → Bool
  | .addNode i o => decide (i ≤ maxOff ∧ o ≤ maxOff)
  | .setNumPorts _ i o => decide (i + o ≤ 32768)
  | .compactPorts => (List.range g.nodeMeta.length).all fun n =>
      decide (g.numPorts n .incoming + g.numPorts n .outgoing = 0 → g.nodePortCapacity n = 0)
  | .swapNodes a b => g.swappable a b
  | _ => true

theorem okCheck_ok {maxOff : Nat} {g : PG} {op : PG.Op} (hok : okCheck maxOff g op = true) :
    PG.Op.ok maxOff g op := by
  cases op with
  | addNode i o => simpa [okCheck, PG.Op.ok] using hok
  | setNumPorts n i o =>
    simp only [okCheck, decide_eq_true_eq] at hok
    by_cases h : i ≤ 65534
    · exact ⟨h, by omega, Or.inl hok⟩
    · omega
  | compactPorts =>
    simp only [okCheck, List.all_eq_true, List.mem_range, decide_eq_true_eq] at hok
    intro n hn
    by_cases hlt : n < g.nodeMeta.length
    · exact hok n hlt hn
    · have : g.node? n = none := by
        simp only [PG.node?]; rw [List.getElem?_eq_none (by omega)]
      simp [PG.nodePortCapacity, this]
  | swapNodes a b => exact hok
  | _ => trivial

/-- A checked run, used to build concrete reachable graphs. -/
def checkedRun (maxOff : Nat) (g : PG) : List PG.Op → Option PG
  | [] => some g
  | op :: ops =>
    if okCheck maxOff g op then
      match g.step maxOff op with
      | none => none
      | some g => checkedRun maxOff g ops
    else none

theorem checkedRun_reach {maxOff : Nat} {ops g g'} (hg : PG.Reach maxOff g) (h : checkedRun maxOff g ops = some g') :
    PG.Reach maxOff g' := by
  induction ops generalizing g with
  | nil => simp [checkedRun] at h; subst h; exact hg
  | cons op ops ih =>
    simp only [checkedRun] at h
    split at h
    · rename_i hok
      cases hs : g.step maxOff op with
      | none => rw [hs] at h; simp at h
      | some g1 =>
        rw [hs] at h
        exact ih (PG.Reach.step hg (okCheck_ok hok) hs) h
    · simp at h

end Verif.PG
