import Verif.Words.Alloc

/-!
# Links and moved ports, in words and in numbers
-/

namespace Verif.Words

open Verif (Direction)
open Verif.Index Verif.PG

theorem len_nodeMeta (w : WG) : w.dec.nodeMeta.length = w.nodeMeta.length := by simp [WG.dec]
theorem len_portMeta (w : WG) : w.dec.portMeta.length = w.portMeta.length := by simp [WG.dec]
theorem len_portLink (w : WG) : w.dec.portLink.length = w.portLink.length := by simp [WG.dec]

theorem port_lt {w : WG} {p : Ix} {m : BitVec 32} (h : w.port? p = some m) : indexOf p < w.portMeta.length := by
  unfold WG.port? at h
  by_cases hlt : indexOf p < w.portMeta.length
  · exact hlt
  · rw [List.getElem?_eq_none (by omega)] at h
    cases h

theorem linkPorts_dec (w : WG) (a b : Ix) (hl : w.portMeta.length ≤ maxSlots) :
    w.dec.linkPorts (indexOf a) (indexOf b) = (w.linkPorts a b).map fun x => (decLink x.1, x.2.dec) := by
  unfold WG.linkPorts PG.linkPorts
  rw [port_dec, port_dec]
  cases ha : w.port? a with
  | none => rfl
  | some ma =>
    cases hb : w.port? b with
    | none => rfl
    | some mb =>
      simp only [Option.map_some]
      by_cases hd : portMetaDirection ma = portMetaDirection mb
      · simp [hd, decLink, WLinkError.dec]
      · simp only [hd, if_false, dec_portLink]
        have h1 := bf_of_lt (Nat.lt_of_lt_of_le (port_lt ha) hl)
        have h2 := bf_of_lt (Nat.lt_of_lt_of_le (port_lt hb) hl)
        cases w.portLink[indexOf a]? with
        | none => rfl
        | some la =>
          simp only [Option.map_some]
          rcases maybe_cases la with ⟨h3, h4⟩ | ⟨h3, h4⟩
          · rw [h3, h4]
            simp only [Option.isSome_none, Bool.false_eq_true, if_false]
            cases w.portLink[indexOf b]? with
            | none => rfl
            | some lb =>
              simp only [Option.map_some]
              rcases maybe_cases lb with ⟨h5, h6⟩ | ⟨h5, h6⟩
              · rw [h5, h6]
                simp [decLink, WG.dec, List.map_set, h1, h2]
              · rw [h5, h6]
                simp [decLink, WLinkError.dec]
          · rw [h3, h4]
            simp [decLink, WLinkError.dec]

theorem unlinkPort_dec (w : WG) (p : Ix) :
    w.dec.unlinkPort (indexOf p) = (w.unlinkPort p).map fun x => (x.1.map indexOf, x.2.dec) := by
  unfold WG.unlinkPort PG.unlinkPort
  rw [port_dec]
  cases hp : w.port? p with
  | none => rfl
  | some m =>
    simp only [Option.map_some, dec_portLink, len_portLink]
    have e3 : w.dec.linkCount = w.linkCount := rfl
    cases hl : w.portLink[indexOf p]? with
    | none => rfl
    | some l =>
      simp only [Option.map_some]
      rcases maybe_cases l with ⟨h3, h4⟩ | ⟨h3, h4⟩
      · rw [h3, h4]
        simp only [Option.map_some, Option.map_none]
        have : (w.portLink.map bfIndex).set (indexOf p) none = w.portLink.map bfIndex := set_same _ _ _ (by simp [hl, h4])
        simp [WG.dec, List.map_set, bf_none, this]
      · rw [h3, h4]
        simp only [e3]
        split
        · simp [WG.dec, List.map_set, bf_none]
        · rfl

/-- The lengths of the vectors of `w'` are those of `w`. -/
def SameLen (w w' : WG) : Prop :=
  w'.nodeMeta.length = w.nodeMeta.length ∧ w'.portMeta.length = w.portMeta.length ∧ w'.portLink.length = w.portLink.length

theorem SameLen.refl (w : WG) : SameLen w w := ⟨rfl, rfl, rfl⟩
theorem SameLen.trans {a b c : WG} (h : SameLen a b) (h' : SameLen b c) : SameLen a c :=
  ⟨h'.1.trans h.1, h'.2.1.trans h.2.1, h'.2.2.trans h.2.2⟩

theorem unlinkPort_len {w w' : WG} {p : Ix} {r} (h : w.unlinkPort p = some (r, w')) : SameLen w w' := by
  unfold WG.unlinkPort at h
  unfold SameLen
  grind

def decTr (tr : List (Ix × WPortOp)) : List (Nat × PortOp) := tr.map fun x => (indexOf x.1, x.2.dec)

theorem dropPorts_len {ps : List Nat} {w w' : WG} {tr} (h : w.dropPorts ps = some (w', tr)) : SameLen w w' := by
  induction ps generalizing w w' tr with
  | nil => unfold WG.dropPorts at h; cases h; exact .refl _
  | cons p ps ih =>
    unfold WG.dropPorts at h
    cases h1 : indexNew 32 p with
    | none => rw [h1] at h; cases h
    | some b =>
      rw [h1] at h
      simp only at h
      cases h2 : w.unlinkPort b with
      | none => rw [h2] at h; cases h
      | some x =>
        obtain ⟨r, w1⟩ := x
        rw [h2] at h
        simp only at h
        cases h3 : w1.dropPorts ps with
        | none => rw [h3] at h; cases h
        | some y =>
          obtain ⟨w2, tr2⟩ := y
          rw [h3] at h
          cases h
          exact (unlinkPort_len h2).trans (ih h3)

theorem dropPorts_dec {ps : List Nat} (w : WG) (hps : ∀ p ∈ ps, p < 2 ^ 31) :
    w.dec.dropPorts ps = (w.dropPorts ps).map fun x => (x.1.dec, decTr x.2) := by
  induction ps generalizing w with
  | nil => rfl
  | cons p ps ih =>
    unfold WG.dropPorts PG.dropPorts
    obtain ⟨h1, h2⟩ := new_eq (hps p (by simp))
    rw [h1]
    simp only
    have hu := unlinkPort_dec w (BitVec.ofNat 32 p)
    rw [h2] at hu
    rw [hu]
    cases h3 : w.unlinkPort (BitVec.ofNat 32 p) with
    | none => rfl
    | some x =>
      obtain ⟨r, w1⟩ := x
      simp only [Option.map_some]
      rw [ih w1 (fun q hq => hps q (by simp [hq]))]
      cases w1.dropPorts ps with
      | none => rfl
      | some y => simp [decTr, h2, WPortOp.dec]

theorem movePort_dec (w : WG) (old : Nat) {new : Nat} (hn : new < maxSlots) :
    w.dec.movePort old new = (w.movePort old new (BitVec.ofNat 32 new)).map WG.dec := by
  unfold WG.movePort PG.movePort
  simp only [dec_portLink, dec_portMeta, len_portLink, len_portMeta]
  cases w.portLink[old]? with
  | none => rfl
  | some l =>
    cases w.portMeta[old]? with
    | none => rfl
    | some pm =>
      simp only [Option.map_some]
      split
      · rcases maybe_cases l with ⟨h3, h4⟩ | ⟨h3, h4⟩
        · rw [h3, h4]
          simp [WG.dec, List.map_set, h4]
        · rw [h3, h4]
          simp only [List.length_set, len_portLink]
          split
          · simp [WG.dec, List.map_set, h4, bf_new hn]
          · rfl
      · rfl

theorem movePort_len {w w' : WG} {old new : Nat} {b : Ix} (h : w.movePort old new b = some w') : SameLen w w' := by
  unfold WG.movePort at h
  unfold SameLen
  grind

theorem movePorts_len {ps : List (Nat × Nat)} {w w' : WG} {tr} (h : w.movePorts ps = some (w', tr)) : SameLen w w' := by
  induction ps generalizing w w' tr with
  | nil => unfold WG.movePorts at h; cases h; exact .refl _
  | cons x ps ih =>
    obtain ⟨old, new⟩ := x
    unfold WG.movePorts at h
    cases h1 : indexNew 32 old with
    | none => rw [h1] at h; cases h
    | some b =>
      cases h2 : indexNew 32 new with
      | none => rw [h1, h2] at h; cases h
      | some c =>
        rw [h1, h2] at h
        simp only at h
        cases h3 : w.movePort old new c with
        | none => rw [h3] at h; cases h
        | some w1 =>
          rw [h3] at h
          simp only at h
          cases h4 : w1.movePorts ps with
          | none => rw [h4] at h; cases h
          | some y =>
            obtain ⟨w2, tr2⟩ := y
            rw [h4] at h
            cases h
            exact (movePort_len h3).trans (ih h4)

theorem movePorts_dec {ps : List (Nat × Nat)} (w : WG) (hps : ∀ x ∈ ps, x.1 < maxSlots ∧ x.2 < maxSlots) :
    w.dec.movePorts ps = (w.movePorts ps).map fun x => (x.1.dec, decTr x.2) := by
  induction ps generalizing w with
  | nil => rfl
  | cons x ps ih =>
    obtain ⟨old, new⟩ := x
    unfold WG.movePorts PG.movePorts
    obtain ⟨ho, hn⟩ := hps (old, new) (by simp)
    simp only at ho hn
    obtain ⟨h1, h2⟩ := new_eq (i := old) (by unfold maxSlots at ho; omega)
    obtain ⟨h3, h4⟩ := new_eq (i := new) (by unfold maxSlots at hn; omega)
    rw [h1, h3]
    simp only
    rw [movePort_dec w old hn]
    cases w.movePort old new (BitVec.ofNat 32 new) with
    | none => rfl
    | some w1 =>
      simp only [Option.map_some]
      rw [ih w1 (fun q hq => hps q (by simp [hq]))]
      cases w1.movePorts ps with
      | none => rfl
      | some y => simp [decTr, h2, h4, WPortOp.dec]

theorem relocPort_dec (w : WG) (old : Nat) {new : Nat} (hn : new < maxSlots) :
    w.dec.relocPort old new = (w.relocPort old new (BitVec.ofNat 32 new)).map WG.dec := by
  unfold WG.relocPort PG.relocPort
  simp only [dec_portLink, dec_portMeta, len_portMeta]
  cases w.portLink[old]? with
  | none => rfl
  | some l =>
    simp only [Option.map_some]
    rcases maybe_cases l with ⟨h3, h4⟩ | ⟨h3, h4⟩
    · rw [h3, h4]
      simp only [dec_portLink]
      cases w.portLink[old]? with
      | none => rfl
      | some l' =>
        cases w.portMeta[old]? with
        | none => rfl
        | some pm =>
          simp only [Option.map_some, len_portLink]
          split
          · simp [WG.dec, List.map_set, bf_none]
          · rfl
    · rw [h3, h4]
      simp only [vset, len_portLink]
      by_cases hq : indexOf l < w.portLink.length
      · have hs : w.dec.portLink.set (indexOf l) (some new) =
            (w.portLink.set (indexOf l) (BitVec.ofNat 32 new)).map bfIndex := by
          simp [WG.dec, List.map_set, bf_new hn]
        simp only [hq, if_true, hs, List.getElem?_map]
        cases (w.portLink.set (indexOf l) (BitVec.ofNat 32 new))[old]? with
        | none => rfl
        | some l' =>
          cases w.portMeta[old]? with
          | none => rfl
          | some pm =>
            simp only [Option.map_some, List.length_map]
            split
            · simp [WG.dec, List.map_set, bf_none]
            · rfl
      · simp only [hq, if_false]
        rfl

theorem relocPort_len {w w' : WG} {old new : Nat} {b : Ix} (h : w.relocPort old new b = some w') : SameLen w w' := by
  unfold WG.relocPort vset at h
  unfold SameLen
  grind

theorem relocPorts_len {ps : List (Nat × Nat)} {w w' : WG} {tr} (h : w.relocPorts ps = some (w', tr)) : SameLen w w' := by
  induction ps generalizing w w' tr with
  | nil => unfold WG.relocPorts at h; cases h; exact .refl _
  | cons x ps ih =>
    obtain ⟨old, new⟩ := x
    unfold WG.relocPorts at h
    cases h1 : indexNew 32 old with
    | none => rw [h1] at h; cases h
    | some b =>
      cases h2 : indexNew 32 new with
      | none => rw [h1, h2] at h; cases h
      | some c =>
        rw [h1, h2] at h
        simp only at h
        cases h3 : w.relocPort old new c with
        | none => rw [h3] at h; cases h
        | some w1 =>
          rw [h3] at h
          simp only at h
          cases h4 : w1.relocPorts ps with
          | none => rw [h4] at h; cases h
          | some y =>
            obtain ⟨w2, tr2⟩ := y
            rw [h4] at h
            cases h
            exact (relocPort_len h3).trans (ih h4)

theorem relocPorts_dec {ps : List (Nat × Nat)} (w : WG) (hps : ∀ x ∈ ps, x.1 < maxSlots ∧ x.2 < maxSlots) :
    w.dec.relocPorts ps = (w.relocPorts ps).map fun x => (x.1.dec, decTr x.2) := by
  induction ps generalizing w with
  | nil => rfl
  | cons x ps ih =>
    obtain ⟨old, new⟩ := x
    unfold WG.relocPorts PG.relocPorts
    obtain ⟨ho, hn⟩ := hps (old, new) (by simp)
    simp only at ho hn
    obtain ⟨h1, h2⟩ := new_eq (i := old) (by unfold maxSlots at ho; omega)
    obtain ⟨h3, h4⟩ := new_eq (i := new) (by unfold maxSlots at hn; omega)
    rw [h1, h3]
    simp only
    rw [relocPort_dec w old hn]
    cases w.relocPort old new (BitVec.ofNat 32 new) with
    | none => rfl
    | some w1 =>
      simp only [Option.map_some]
      rw [ih w1 (fun q hq => hps q (by simp [hq]))]
      cases w1.relocPorts ps with
      | none => rfl
      | some y => simp [decTr, h2, h4, WPortOp.dec]

end Verif.Words
