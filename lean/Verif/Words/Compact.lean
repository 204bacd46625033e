import Verif.Words.Links

/-!
# `compact_nodes`, `swap_nodes` and `compact_ports`, in words and in numbers
-/

namespace Verif.Words

open Verif (Direction)
open Verif.Index Verif.PG

theorem claimPorts_dec (w : WG) {n : Ix} (hn : indexOf n < maxSlots) (m : WMeta) :
    w.dec.claimPorts (indexOf n) m.view = (w.claimPorts n m).map WG.dec := by
  unfold WG.claimPorts PG.claimPorts
  rw [len_portMeta]
  split
  · simp [WG.dec, fill_map, portOf_dec hn]
  · rfl

/-- Pairs of reported indices. -/
def decMoves (tr : List (Ix × Ix)) : List (Nat × Nat) := tr.map fun x => (indexOf x.1, indexOf x.2)

theorem compactNodesLoop_dec (es : List WEntry) (w : WG) {old new : Nat} (h : old + es.length ≤ maxSlots) (hle : new ≤ old) :
    w.dec.compactNodesLoop old new (es.map WEntry.dec) =
      (w.compactNodesLoop old new es).map fun x => (x.1.map WEntry.dec, x.2.1.dec, decMoves x.2.2) := by
  induction es generalizing w old new with
  | nil => rfl
  | cons e es ih =>
    simp only [List.length_cons] at h
    obtain ⟨h1, h2⟩ := new_eq (i := old) (by unfold maxSlots at h; omega)
    obtain ⟨h3, h4⟩ := new_eq (i := new) (by unfold maxSlots at h; omega)
    unfold WG.compactNodesLoop
    rw [h1, h3]
    cases e with
    | free p n =>
      simp only [List.map_cons, WEntry.dec, PG.compactNodesLoop]
      exact ih w (by omega) (by omega)
    | node m =>
      simp only [List.map_cons, WEntry.dec, PG.compactNodesLoop]
      have hc := claimPorts_dec w (n := BitVec.ofNat 32 new) (by rw [h4]; unfold maxSlots at *; omega) m
      rw [h4] at hc
      rw [hc]
      cases w.claimPorts (BitVec.ofNat 32 new) m with
      | none => rfl
      | some w1 =>
        simp only [Option.map_some]
        rw [ih w1 (by omega) (by omega)]
        cases w1.compactNodesLoop (old + 1) (new + 1) es with
        | none => rfl
        | some x => simp [decMoves, h2, h4, WEntry.dec]

theorem compactNodes_dec (w : WG) (h : w.nodeMeta.length ≤ maxSlots) :
    w.dec.compactNodes = (w.compactNodes).map fun x => (x.1.dec, decMoves x.2) := by
  unfold WG.compactNodes PG.compactNodes
  have hc := compactNodesLoop_dec w.nodeMeta w (old := 0) (new := 0) (by omega) (Nat.le_refl _)
  have e : w.dec.nodeMeta = w.nodeMeta.map WEntry.dec := rfl
  rw [e, hc]
  cases w.compactNodesLoop 0 0 w.nodeMeta with
  | none => rfl
  | some x => simp [WG.dec, bf_none]

theorem swapClaim_dec (w : WG) {n : Ix} (hn : indexOf n < maxSlots) (e : WEntry) :
    w.dec.swapClaim (indexOf n) e.dec = (w.swapClaim n e).map WG.dec := by
  cases e with
  | free p q => rfl
  | node m => exact claimPorts_dec w hn m

theorem setFreeNext_dec (l : List WEntry) (i : Nat) (v : MaybeIx) :
    PG.PG.setFreeNext (l.map WEntry.dec) i (bfIndex v) = (WG.setFreeNext l i v).map (List.map WEntry.dec) := by
  unfold WG.setFreeNext PG.PG.setFreeNext
  simp only [List.getElem?_map]
  cases l[i]? with
  | none => rfl
  | some e => cases e <;> simp [WEntry.dec, List.map_set]

theorem setFreePrev_dec (l : List WEntry) (i : Nat) (v : MaybeIx) :
    PG.PG.setFreePrev (l.map WEntry.dec) i (bfIndex v) = (WG.setFreePrev l i v).map (List.map WEntry.dec) := by
  unfold WG.setFreePrev PG.PG.setFreePrev
  simp only [List.getElem?_map]
  cases l[i]? with
  | none => rfl
  | some e => cases e <;> simp [WEntry.dec, List.map_set]

theorem swapFreeList_dec (l : List WEntry) {n : Ix} (hn : indexOf n < maxSlots) (p q : MaybeIx) :
    PG.PG.swapFreeList (l.map WEntry.dec) (indexOf n) (bfIndex p) (bfIndex q) =
      (WG.swapFreeList l n p q).map (List.map WEntry.dec) := by
  unfold WG.swapFreeList PG.PG.swapFreeList
  rw [← bf_of_lt hn]
  rcases maybe_cases p with ⟨h1, h2⟩ | ⟨h1, h2⟩
  · rw [h1, h2]
    simp only
    rcases maybe_cases q with ⟨h3, h4⟩ | ⟨h3, h4⟩
    · rw [h3, h4]; rfl
    · rw [h3, h4]; exact setFreePrev_dec _ _ _
  · rw [h1, h2]
    simp only
    rw [setFreeNext_dec]
    cases WG.setFreeNext l (indexOf p) n with
    | none => rfl
    | some l1 =>
      simp only [Option.map_some]
      rcases maybe_cases q with ⟨h3, h4⟩ | ⟨h3, h4⟩
      · rw [h3, h4]; rfl
      · rw [h3, h4]; exact setFreePrev_dec _ _ _

theorem swapNodes_dec (w : WG) {a b : Ix} (hl : w.nodeMeta.length ≤ maxSlots) :
    w.dec.swapNodes (indexOf a) (indexOf b) = (w.swapNodes a b).map WG.dec := by
  unfold WG.swapNodes PG.swapNodes
  simp only [dec_nodeMeta]
  cases ha : w.nodeMeta[indexOf a]? with
  | none => rfl
  | some ea =>
    cases hb : w.nodeMeta[indexOf b]? with
    | none => rfl
    | some eb =>
      have hla : indexOf a < maxSlots := by
        have := (List.getElem?_eq_some_iff.1 ha).1
        omega
      have hlb : indexOf b < maxSlots := by
        have := (List.getElem?_eq_some_iff.1 hb).1
        omega
      simp only [Option.map_some]
      have e0 : ({ w.dec with nodeMeta := (w.dec.nodeMeta.set (indexOf a) eb.dec).set (indexOf b) ea.dec } : PG) =
          ({ w with nodeMeta := (w.nodeMeta.set (indexOf a) eb).set (indexOf b) ea } : WG).dec := by
        simp [WG.dec, List.map_set]
      rw [e0, swapClaim_dec _ hla]
      cases WG.swapClaim ({ w with nodeMeta := (w.nodeMeta.set (indexOf a) eb).set (indexOf b) ea } : WG) a eb with
      | none => rfl
      | some w1 =>
        simp only [Option.map_some]
        rw [swapClaim_dec _ hlb]
        cases w1.swapClaim b ea with
        | none => rfl
        | some w2 =>
          simp only [Option.map_some]
          have e1 : w2.dec.nodeMeta = w2.nodeMeta.map WEntry.dec := rfl
          cases ea with
          | free p n =>
            cases eb with
            | free p' n' => rfl
            | node m' =>
              simp only [WEntry.dec]
              rw [e1, swapFreeList_dec _ hlb]
              cases WG.swapFreeList w2.nodeMeta b p n <;> rfl
          | node m =>
            cases eb with
            | free p' n' =>
              simp only [WEntry.dec]
              rw [e1, swapFreeList_dec _ hla]
              cases WG.swapFreeList w2.nodeMeta a p' n' <;> rfl
            | node m' => rfl

theorem compactLinksLoop_dec (pm : List WPort) (pl : List MaybeIx) {old new k : Nat} (h : old + k ≤ maxSlots) (hle : new ≤ old) :
    PG.PG.compactLinksLoop (pm.map WPort.dec) (pl.map bfIndex) old new k =
      (WG.compactLinksLoop pm pl old new k).map fun x => (x.1.map bfIndex, x.2) := by
  induction k generalizing pl old new with
  | zero => rfl
  | succ k ih =>
    unfold WG.compactLinksLoop PG.PG.compactLinksLoop
    simp only [List.getElem?_map]
    cases pm[old]? with
    | none => rfl
    | some e =>
      cases e with
      | free => exact ih pl (by omega) (by omega)
      | port x =>
        simp only [Option.map_some, WPort.dec]
        by_cases hno : new = old
        · rw [if_pos hno, if_pos hno]
          exact ih pl (by omega) (by omega)
        · rw [if_neg hno, if_neg hno]
          cases pl[old]? with
          | none => rfl
          | some l =>
            simp only [Option.map_some]
            rcases maybe_cases l with ⟨h1, h2⟩ | ⟨h1, h2⟩
            · rw [h1, h2]
              simp only [List.getElem?_map]
              cases pl[new]? with
              | none => rfl
              | some x =>
                cases pl[old]? with
                | none => rfl
                | some y =>
                  simp only [Option.map_some]
                  rw [← ih _ (by omega) (by omega)]
                  simp [List.map_set]
            · obtain ⟨h3, h4⟩ := new_eq (i := new) (by unfold maxSlots at h; omega)
              rw [h1, h2, h3]
              simp only [vset, List.length_map, Option.bind_some]
              by_cases hq : indexOf l < pl.length
              · have hs : (pl.map bfIndex).set (indexOf l) (some new) =
                    (pl.set (indexOf l) (BitVec.ofNat 32 new)).map bfIndex := by
                  rw [List.map_set, bf_new (by omega)]
                rw [if_pos hq, if_pos hq, hs]
                simp only [List.getElem?_map]
                cases (pl.set (indexOf l) (BitVec.ofNat 32 new))[new]? with
                | none => rfl
                | some x =>
                  cases (pl.set (indexOf l) (BitVec.ofNat 32 new))[old]? with
                  | none => rfl
                  | some y =>
                    simp only [Option.map_some]
                    rw [← ih _ (by omega) (by omega)]
                    simp [List.map_set]
              · rw [if_neg hq, if_neg hq]
                rfl

/-- The words that `compact_ports` compares: the first ports of the nodes have the top bit clear. -/
def FirstOk (nm : List WEntry) : Prop := ∀ m, WEntry.node m ∈ nm → m.first.toNat < 2 ^ 31

theorem FirstOk.set {nm : List WEntry} (h : FirstOk nm) (n : Nat) {m : WMeta} (hm : m.first.toNat < 2 ^ 31) :
    FirstOk (nm.set n (.node m)) := by
  intro m' hm'
  rcases List.mem_or_eq_of_mem_set hm' with h' | h'
  · exact h m' h'
  · cases h'; exact hm

/-- The words of the port slots hold a node. -/
def PortsOk (es : List WPort) : Prop := ∀ x, WPort.port x ∈ es → (portMetaNode x).isSome

theorem portMetaNode_lt {x : BitVec 32} {n : Nat} (h : portMetaNode x = some n) : n < 2 ^ 31 := by
  unfold portMetaNode at h
  have h1 : (x &&& ~~~ (1#32 <<< (31 : Nat))).toNat = indexOf x := rfl
  rw [h1, indexOf_eq] at h
  simp only at h
  split at h
  · cases h
  · simp only [Option.some.injEq] at h
    omega

theorem compactPortsLoop_dec (es : List WPort) (nm : List WEntry) {old new : Nat} (h : old + es.length ≤ maxSlots) (hle : new ≤ old)
    (hp : PortsOk es) (hf : FirstOk nm) :
    PG.PG.compactPortsLoop (nm.map WEntry.dec) old new (es.map WPort.dec) =
      (WG.compactPortsLoop nm old new es).map fun x => (x.1.map WPort.dec, x.2.1.map WEntry.dec, decMoves x.2.2) := by
  induction es generalizing nm old new with
  | nil => rfl
  | cons e es ih =>
    simp only [List.length_cons] at h
    obtain ⟨h1, h2⟩ := new_eq (i := old) (by unfold maxSlots at h; omega)
    obtain ⟨h3, h4⟩ := new_eq (i := new) (by unfold maxSlots at h; omega)
    unfold WG.compactPortsLoop
    rw [h1, h3]
    have hp' : PortsOk es := fun x hx => hp x (List.mem_cons_of_mem _ hx)
    cases e with
    | free =>
      simp only [List.map_cons, WPort.dec, PG.PG.compactPortsLoop]
      exact ih nm (by omega) (by omega) hp' hf
    | port x =>
      obtain ⟨n, hn⟩ := Option.isSome_iff_exists.1 (hp x (by simp))
      obtain ⟨h5, h6⟩ := new_eq (portMetaNode_lt hn)
      simp only [List.map_cons, WPort.dec, PG.PG.compactPortsLoop, hn, Option.getD_some, Option.bind_some, h5, h6,
        List.getElem?_map]
      cases hnm : nm[n]? with
      | none => rfl
      | some en =>
        cases en with
        | free p q => rfl
        | node m =>
          simp only [Option.map_some, WEntry.dec]
          have hfm : m.first.toNat < 2 ^ 31 := hf m (List.mem_of_getElem? hnm)
          have hcmp : m.view.first = old ↔ m.first = BitVec.ofNat 32 old := by
            have e1 : m.view.first = m.first.toNat := by
              show indexOf m.first = _
              rw [indexOf_eq]; omega
            rw [e1]
            constructor
            · intro he
              apply BitVec.eq_of_toNat_eq
              rw [BitVec.toNat_ofNat]
              omega
            · intro he
              rw [he, BitVec.toNat_ofNat]
              unfold maxSlots at h
              omega
          by_cases hc : m.view.first = old
          · rw [if_pos hc, if_pos (hcmp.1 hc)]
            have hnew := new?_dec (BitVec.ofNat 32 new) (m.incoming - 1#16) m.outgoing (u16 m.view.portCount)
            rw [u16_toNat, h4] at hnew
            have e2 : (m.incoming - 1#16).toNat = m.view.incoming := rfl
            have e3 : m.outgoing.toNat = m.view.outgoing := rfl
            rw [e2, e3] at hnew
            rw [← hnew]
            cases hw : WMeta.new? (BitVec.ofNat 32 new) (m.incoming - 1#16) m.outgoing (u16 m.view.portCount) with
            | none => rfl
            | some m' =>
              simp only [Option.map_some]
              have e4 : (nm.map WEntry.dec).set n (.node m'.view) = (nm.set n (.node m')).map WEntry.dec := by
                simp [List.map_set, WEntry.dec]
              have hm' : m'.first.toNat < 2 ^ 31 := by
                rw [(new?_some hw).1, BitVec.toNat_ofNat]
                unfold maxSlots at h
                omega
              rw [e4, ih _ (by omega) (by omega) hp' (hf.set n hm')]
              cases WG.compactPortsLoop (nm.set n (.node m')) (old + 1) (new + 1) es with
              | none => rfl
              | some y => simp [decMoves, h2, h4, WPort.dec, hn]
          · rw [if_neg hc, if_neg (fun he => hc (hcmp.2 he))]
            simp only
            rw [ih _ (by omega) (by omega) hp' hf]
            cases WG.compactPortsLoop nm (old + 1) (new + 1) es with
            | none => rfl
            | some y => simp [decMoves, h2, h4, WPort.dec, hn]

theorem compactPorts_dec (w : WG) (hl : w.portLink.length = w.portMeta.length) (hp : w.portMeta.length ≤ maxSlots)
    (h1 : FirstOk w.nodeMeta) (h2 : PortsOk w.portMeta) :
    w.dec.compactPorts = (w.compactPorts).map fun x => (x.1.dec, decMoves x.2) := by
  unfold WG.compactPorts PG.compactPorts
  have e1 : w.dec.portMeta = w.portMeta.map WPort.dec := rfl
  have e2 : w.dec.portLink = w.portLink.map bfIndex := rfl
  have e3 : w.dec.nodeMeta = w.nodeMeta.map WEntry.dec := rfl
  rw [e1, e2, e3, compactLinksLoop_dec _ _ (by rw [List.length_map]; omega) (Nat.le_refl _), List.length_map]
  cases WG.compactLinksLoop w.portMeta w.portLink 0 0 w.portLink.length with
  | none => rfl
  | some x =>
    simp only [Option.map_some]
    rw [compactPortsLoop_dec _ _ (by omega) (Nat.le_refl _) h2 h1]
    cases WG.compactPortsLoop w.nodeMeta 0 0 w.portMeta with
    | none => rfl
    | some y => simp [WG.dec, List.map_take]

end Verif.Words
