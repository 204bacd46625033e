import Verif.Words.Decode
import Verif.Index.Props

/-!
# Words that hold numbers
-/

namespace Verif.Words

open Verif (Direction)
open Verif.Index Verif.PG

theorem indexOf_eq (b : Ix) : indexOf b = b.toNat % 2 ^ 31 := by
  have := indexUnchecked_eq 32 (by decide) b
  simpa [indexOf] using this

theorem new_eq {i : Nat} (h : i < 2 ^ 31) : indexNew 32 i = some (BitVec.ofNat 32 i) ∧ indexOf (BitVec.ofNat 32 i) = i := by
  have h1 : i < 2 ^ 32 := by omega
  refine ⟨by simp [indexNew, bfNew, h1], ?_⟩
  rw [indexOf_eq, BitVec.toNat_ofNat]
  omega

theorem bf_of_lt {b : Ix} (h : indexOf b < maxSlots) : bfIndex b = some (indexOf b) := by
  unfold bfIndex
  rw [if_neg]
  · rfl
  · intro hn
    have hb : b = newNone 32 := by simpa [isNone] using hn
    subst hb
    revert h
    rw [indexOf_eq]
    simp [newNone, maxSlots]

theorem bf_new {i : Nat} (h : i < maxSlots) : bfIndex (BitVec.ofNat 32 i) = some i := by
  have h1 := (new_eq (show i < 2 ^ 31 by unfold maxSlots at h; omega)).2
  rw [bf_of_lt (by rw [h1]; exact h), h1]

theorem bf_none : bfIndex noIx = none := by simp [bfIndex, isNone]

theorem maybe_cases (b : MaybeIx) :
    (maybeToOption b = none ∧ bfIndex b = none) ∨ (maybeToOption b = some b ∧ bfIndex b = some (indexOf b)) := by
  unfold maybeToOption bfIndex
  by_cases h : isNone b = true
  · simp [h]
  · simp [h, indexOf]

theorem maybe_map (b : MaybeIx) : (maybeToOption b).map indexOf = bfIndex b := by
  rcases maybe_cases b with ⟨h1, h2⟩ | ⟨h1, h2⟩ <;> simp [h1, h2]

theorem u16_toNat (n : Nat) : (u16 n).toNat = n % 65536 := by simp [u16]

theorem new?_dec (f : Ix) (i o c : BitVec 16) :
    (WMeta.new? f i o c).map WMeta.view = NodeMeta.new? (indexOf f) i.toNat o.toNat c.toNat := by
  unfold WMeta.new? NodeMeta.new?
  split
  · rename_i h
    simp [WMeta.view]
    omega
  · rfl

theorem new?_some {f : Ix} {i o c : BitVec 16} {m : WMeta} (h : WMeta.new? f i o c = some m) :
    m.first = f ∧ m.incoming ≠ 0#16 ∧ m.view = ⟨indexOf f, i.toNat, o.toNat, c.toNat⟩ ∧
      NodeMeta.new? (indexOf f) i.toNat o.toNat c.toNat = some m.view := by
  have hd := new?_dec f i o c
  rw [h] at hd
  unfold WMeta.new? at h
  split at h
  · rename_i hc
    cases h
    refine ⟨rfl, ?_, ?_, hd.symm⟩
    · intro h0
      have := congrArg BitVec.toNat h0
      simp at this
      omega
    · simp [WMeta.view]
      omega
  · cases h

theorem fill_map {α β : Type} (f : α → β) (l : List α) (a k : Nat) (x : α) : (fill l a k x).map f = fill (l.map f) a k (f x) := by
  unfold fill
  apply List.ext_getElem (by simp)
  intro i h1 h2
  simp only [List.getElem_map, List.getElem_mapIdx]
  split <;> rfl

theorem portOf_dec {n : Ix} (h : indexOf n < maxSlots) (d : Direction) : (portOf n d).dec = .port (indexOf n) d := by
  have := C07_port_meta_roundtrip (indexOf n) d (by unfold maxSlots at h; omega)
  simp [portOf, WPort.dec, this.1, this.2]

theorem view_default : WMeta.default.view = ⟨0, 0, 0, 0⟩ := by decide

theorem node_dec (w : WG) (n : Ix) : w.dec.node? (indexOf n) = (w.node? n).map WMeta.view := by
  unfold PG.node? WG.node? WG.dec
  simp only [List.getElem?_map]
  cases w.nodeMeta[indexOf n]? with
  | none => rfl
  | some e => cases e <;> rfl

theorem port_dec (w : WG) (p : Ix) :
    w.dec.port? (indexOf p) = (w.port? p).map fun m => ((portMetaNode m).getD 0, portMetaDirection m) := by
  unfold PG.port? WG.port? WG.dec
  simp only [List.getElem?_map]
  cases w.portMeta[indexOf p]? with
  | none => rfl
  | some e => cases e <;> rfl

end Verif.Words
