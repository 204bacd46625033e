import Verif.Words.Resize
import Verif.Words.Compact

/-!
# Which words are stored

Every index word in the memory has the top bit clear, every optional index is such a word or all
ones, every port slot holds the word of a node and a direction.
-/

namespace Verif.Words

open Verif (Direction)
open Verif.Index Verif.PG

def CI (b : Ix) : Prop := b.toNat < 2 ^ 31
def CM (b : MaybeIx) : Prop := b = noIx ∨ CI b

def CE : WEntry → Prop
  | .free p n => CM p ∧ CM n
  | .node m => CI m.first

def CP : WPort → Prop
  | .free => True
  | .port x => ∃ n d, n < maxSlots ∧ x = portMetaNew n d

structure WG.Canon (w : WG) : Prop where
  nodeMeta : ∀ e ∈ w.nodeMeta, CE e
  portLink : ∀ l ∈ w.portLink, CM l
  portMeta : ∀ e ∈ w.portMeta, CP e
  nodeFree : CM w.nodeFree
  portFree : ∀ l ∈ w.portFree, CM l

def COp : WPortOp → Prop
  | .moved n => CI n
  | .removed l => ∀ x, l = some x → CI x

def CErr : WLinkError → Prop
  | .alreadyLinked p => CI p
  | .unknownPort p => CI p
  | .unknownOffset n _ _ => CI n
  | .incompatibleDirections a b _ => CI a ∧ CI b

def CTr (tr : List (Ix × WPortOp)) : Prop := ∀ x ∈ tr, CI x.1 ∧ COp x.2
def CMv (tr : List (Ix × Ix)) : Prop := ∀ x ∈ tr, CI x.1 ∧ CI x.2

def CLink : Except WLinkError (Ix × Ix) → Prop
  | .ok x => CI x.1 ∧ CI x.2
  | .error e => CErr e

def WAnswer.Canon : WAnswer → Prop
  | .unit => True
  | .node n => CI n
  | .link r => CLink r
  | .unlink r => ∀ x, r = some x → CI x
  | .ports tr => CTr tr
  | .moves tr => CMv tr

theorem CM.none : CM noIx := Or.inl rfl
theorem CM.of {b : Ix} (h : CI b) : CM b := Or.inr h

theorem CM.some {b : MaybeIx} {x : Ix} (h : CM b) (hx : maybeToOption b = some x) : CI x := by
  unfold maybeToOption at hx
  split at hx
  · cases hx
  · rename_i hn
    cases hx
    rcases h with h | h
    · exact absurd (by rw [h]; decide) hn
    · exact h

theorem CI.new {n : Nat} (h : n < 2 ^ 31) : CI (BitVec.ofNat 32 n) := by
  unfold CI
  rw [BitVec.toNat_ofNat]
  omega

theorem CI.indexNew {n : Nat} {b : Ix} (hb : indexNew 32 n = some b) (h : n < 2 ^ 31) : CI b := by
  rw [(new_eq h).1] at hb
  cases hb
  exact .new h

theorem CP.of {n : Ix} (h : indexOf n < maxSlots) (d : Direction) : CP (portOf n d) := ⟨_, _, h, rfl⟩

section Lists
variable {α : Type} {P : α → Prop} {l : List α}

theorem all_set (h : ∀ x ∈ l, P x) (i : Nat) {y : α} (hy : P y) : ∀ x ∈ l.set i y, P x := by
  intro x hx
  rcases List.mem_or_eq_of_mem_set hx with h' | h'
  · exact h x h'
  · rw [h']; exact hy

theorem all_append {l' : List α} (h : ∀ x ∈ l, P x) (h' : ∀ x ∈ l', P x) : ∀ x ∈ l ++ l', P x := by
  intro x hx
  rcases List.mem_append.1 hx with a | a
  · exact h x a
  · exact h' x a

theorem all_replicate (k : Nat) {y : α} (hy : P y) : ∀ x ∈ List.replicate k y, P x := by
  intro x hx
  rw [(List.mem_replicate.1 hx).2]
  exact hy

theorem all_fill (h : ∀ x ∈ l, P x) (a k : Nat) {y : α} (hy : P y) : ∀ x ∈ fill l a k y, P x := by
  intro x hx
  unfold fill at hx
  obtain ⟨i, hi, rfl⟩ := List.mem_mapIdx.1 hx
  split
  · exact hy
  · exact h _ (List.getElem_mem _)

theorem all_get (h : ∀ x ∈ l, P x) {i : Nat} {y : α} (hy : l[i]? = some y) : P y := h y (List.mem_of_getElem? hy)

end Lists

theorem WG.Canon.empty : WG.empty.Canon := ⟨by simp [WG.empty], by simp [WG.empty], by simp [WG.empty], .none, by simp [WG.empty]⟩

theorem WG.Canon.clear (w : WG) : w.clear.Canon :=
  ⟨by simp [WG.clear], by simp [WG.clear], by simp [WG.clear], .none, by simp [WG.clear]⟩

theorem allocNode_canon {w w' : WG} {n : Ix} (h : w.Canon) (hl : w.nodeMeta.length < 2 ^ 31)
    (hs : w.allocNode = some (n, w')) : w'.Canon ∧ CI n := by
  unfold WG.allocNode at hs
  split at hs
  · rename_i node hnode
    have hc := h.nodeFree.some hnode
    split at hs
    · rename_i p next hg
      obtain ⟨-, hnx⟩ := all_get h.nodeMeta hg
      split at hs
      · cases hs
        exact ⟨⟨h.1, h.2, h.3, hnx, h.5⟩, hc⟩
      · split at hs
        · rename_i hg2
          obtain ⟨-, hnn⟩ := all_get h.nodeMeta hg2
          cases hs
          exact ⟨⟨all_set h.1 _ ⟨.none, hnn⟩, h.2, h.3, hnx, h.5⟩, hc⟩
        · cases hs
    · cases hs
  · split at hs
    · cases hs
    · rename_i hb
      cases hs
      exact ⟨⟨all_append h.1 (by simpa using ⟨CM.none, CM.none⟩), h.2, h.3, h.4, h.5⟩, .indexNew hb hl⟩

theorem allocPorts_canon {w w' : WG} {n : Ix} {i o x : Nat} {m : WMeta} (h : w.Canon) (hn : indexOf n < maxSlots)
    (hl : w.portMeta.length < 2 ^ 31) (hs : w.allocPorts n i o x = some (m, w')) : w'.Canon ∧ CI m.first := by
  unfold WG.allocPorts at hs
  simp only at hs
  split at hs
  · cases hs
    exact ⟨h, by unfold CI WMeta.default; decide⟩
  · split at hs
    · rename_i port hport
      have hc : CI port := by
        cases hf : w.portFree[i + o + x - 1]? with
        | none => rw [hf] at hport; cases hport
        | some f =>
          rw [hf] at hport
          exact CM.some (all_get h.portFree hf) hport
      split at hs
      · cases hs
      · rename_i fn hfn
        split at hs
        · cases hs
        · rename_i m' hm'
          split at hs
          · cases hs
            exact ⟨⟨h.1, all_fill h.2 _ _ .none,
              all_fill (all_fill (all_fill h.3 _ _ (.of hn _)) _ _ (.of hn _)) _ _ (show CP .free from trivial), h.4,
              all_set h.5 _ (all_get h.2 hfn)⟩, by rw [(new?_some hm').1]; exact hc⟩
          · cases hs
    · split at hs
      · cases hs
      · rename_i hb
        split at hs
        · cases hs
        · rename_i m' hm'
          cases hs
          exact ⟨⟨h.1, all_append h.2 (all_replicate _ .none),
            all_append (all_append (all_append h.3 (all_replicate _ (.of hn _))) (all_replicate _ (.of hn _)))
              (all_replicate _ (show CP .free from trivial)), h.4, h.5⟩, by rw [(new?_some hm').1]; exact .indexNew hb hl⟩

theorem freeNode_canon {w w' : WG} {n : Ix} (h : w.Canon) (hn : CI n) (hs : w.freeNode n = some w') : w'.Canon := by
  unfold WG.freeNode at hs
  split at hs
  · split at hs
    · cases hs
      exact ⟨all_set h.1 _ ⟨.none, h.4⟩, h.2, h.3, .of hn, h.5⟩
    · split at hs
      · rename_i hg
        obtain ⟨-, hnn⟩ := all_get h.nodeMeta hg
        cases hs
        exact ⟨all_set (all_set h.1 _ (show CE (.free _ _) from ⟨.of hn, hnn⟩)) _ ⟨.none, h.4⟩, h.2, h.3, .of hn, h.5⟩
      · cases hs
  · cases hs

theorem freePortStep_canon {w w' : WG} {i : Nat} (h : w.Canon) (hs : w.freePortStep i = some w') : w'.Canon := by
  unfold WG.freePortStep at hs
  split at hs
  · split at hs
    · cases hs
    · split at hs
      · cases hs
        exact ⟨h.1, all_set h.2 _ .none, all_set h.3 _ (show CP .free from trivial), h.4, h.5⟩
      · split at hs
        · cases hs
          exact ⟨h.1, all_set (all_set h.2 _ .none) _ .none, all_set h.3 _ (show CP .free from trivial), h.4, h.5⟩
        · cases hs
  · cases hs

theorem freePortsLoop_canon {k : Nat} {w w' : WG} {i : Nat} (h : w.Canon) (hs : w.freePortsLoop i k = some w') : w'.Canon := by
  induction k generalizing w i with
  | zero => cases hs; exact h
  | succ k ih =>
    unfold WG.freePortsLoop at hs
    cases h1 : w.freePortStep i with
    | none => rw [h1] at hs; cases hs
    | some w1 =>
      rw [h1] at hs
      exact ih (freePortStep_canon h h1) hs

theorem freePortsLoop_len {k : Nat} {w w' : WG} {i : Nat} (hs : w.freePortsLoop i k = some w') :
    w'.portMeta.length = w.portMeta.length := by
  induction k generalizing w i with
  | zero => cases hs; rfl
  | succ k ih =>
    unfold WG.freePortsLoop at hs
    cases h1 : w.freePortStep i with
    | none => rw [h1] at hs; cases hs
    | some w1 =>
      rw [h1] at hs
      rw [ih hs]
      unfold WG.freePortStep at h1
      grind

theorem freePorts_len {k : Nat} {w w' : WG} {f : Ix} (hs : w.freePorts f k = some w') :
    w'.portMeta.length = w.portMeta.length := by
  unfold WG.freePorts at hs
  simp only at hs
  split at hs
  · cases hs; rfl
  · split at hs
    · cases hs
    · rename_i w1 h1
      have := freePortsLoop_len h1
      simp only at this
      grind

theorem freePorts_canon {k : Nat} {w w' : WG} {f : Ix} (h : w.Canon) (hf : CI f) (hs : w.freePorts f k = some w') : w'.Canon := by
  unfold WG.freePorts at hs
  have h0 : ({ w with portFree := w.portFree ++ List.replicate (k - w.portFree.length) noIx } : WG).Canon :=
    ⟨h.1, h.2, h.3, h.4, all_append h.5 (all_replicate _ .none)⟩
  simp only at hs
  split at hs
  · cases hs; exact h0
  · split at hs
    · cases hs
    · rename_i w1 h1
      have hc := freePortsLoop_canon h0 h1
      split at hs
      · cases hs
      · rename_i hd hhd
        split at hs
        · cases hs
          exact ⟨hc.1, all_set hc.2 _ (all_get hc.5 hhd), hc.3, hc.4, all_set hc.5 _ (.of hf)⟩
        · cases hs

theorem addNode_canon {maxOff : Nat} {w w' : WG} {i o : Nat} {n : Ix} (h : w.Canon) (hn : w.nodeMeta.length ≤ maxSlots)
    (hp : w.portMeta.length ≤ maxSlots) (hs : w.addNode maxOff i o = some (n, w')) (hf : w'.nodeMeta.length ≤ maxSlots) :
    w'.Canon ∧ CI n := by
  have hn' : w.nodeMeta.length < 2 ^ 31 := by unfold maxSlots at hn; omega
  unfold WG.addNode at hs
  split at hs
  · split at hs
    · cases hs
    · rename_i node w1 h1
      obtain ⟨c1, c2⟩ := allocNode_canon h hn' h1
      obtain ⟨a1, a2, -⟩ := allocNode_bound h1 hn'
      split at hs
      · cases hs
      · rename_i m w2 h2
        obtain ⟨-, b2, -⟩ := allocPorts_bound h2
        split at hs
        · cases hs
          simp only [List.length_set, b2] at hf
          obtain ⟨c3, c4⟩ := allocPorts_canon c1 (by omega) (by rw [a2]; unfold maxSlots at hp; omega) h2
          exact ⟨⟨all_set c3.1 _ c4, c3.2, c3.3, c3.4, c3.5⟩, c2⟩
        · cases hs
  · cases hs

theorem node_canon {w : WG} {n : Ix} {m : WMeta} (h : w.Canon) (hm : w.node? n = some m) :
    CI m.first ∧ indexOf n < w.nodeMeta.length := by
  unfold WG.node? at hm
  split at hm
  · rename_i hg
    cases hm
    exact ⟨all_get h.1 hg, (List.getElem?_eq_some_iff.1 hg).1⟩
  · cases hm

theorem removeNode_canon {w w' : WG} {n : Ix} (h : w.Canon) (hn : CI n) (hs : w.removeNode n = some w') : w'.Canon := by
  unfold WG.removeNode at hs
  split at hs
  · cases hs; exact h
  · rename_i m hm
    have hf := (node_canon h hm).1
    split at hs
    · cases hs
    · rename_i w1 h1
      have c1 := freeNode_canon h hn h1
      split at hs
      · cases hs
      · simp only at hs
        split at hs
        · split at hs
          · exact freePorts_canon (by exact ⟨c1.1, c1.2, c1.3, c1.4, c1.5⟩) hf hs
          · cases hs
        · cases hs
          exact ⟨c1.1, c1.2, c1.3, c1.4, c1.5⟩

theorem linkPorts_canon {w w' : WG} {a b : Ix} {r} (h : w.Canon) (ha : CI a) (hb : CI b)
    (hs : w.linkPorts a b = some (r, w')) : w'.Canon ∧ CLink r := by
  unfold WG.linkPorts at hs
  split at hs
  · cases hs; exact ⟨h, ha⟩
  · split at hs
    · cases hs; exact ⟨h, ha⟩
    · split at hs
      · cases hs; exact ⟨h, ha, hb⟩
      · split at hs
        · cases hs
        · split at hs
          · cases hs; exact ⟨h, ha⟩
          · split at hs
            · cases hs
            · split at hs
              · cases hs; exact ⟨h, hb⟩
              · cases hs; exact ⟨⟨h.1, all_set (all_set h.2 _ (.of hb)) _ (.of ha), h.3, h.4, h.5⟩, ha, hb⟩

theorem unlinkPort_canon {w w' : WG} {p : Ix} {r} (h : w.Canon) (hs : w.unlinkPort p = some (r, w')) :
    w'.Canon ∧ ∀ x, r = some x → CI x := by
  unfold WG.unlinkPort at hs
  split at hs
  · cases hs; exact ⟨h, by simp⟩
  · split at hs
    · cases hs
    · rename_i l hl
      split at hs
      · cases hs
        exact ⟨⟨h.1, all_set h.2 _ .none, h.3, h.4, h.5⟩, by simp⟩
      · rename_i q hq
        split at hs
        · cases hs
          refine ⟨⟨h.1, all_set (all_set h.2 _ .none) _ .none, h.3, h.4, h.5⟩, ?_⟩
          intro x hx
          cases hx
          exact CM.some (all_get h.2 hl) hq
        · cases hs

theorem CTr.cons {x : Ix} {y : WPortOp} {tr} (h1 : CI x) (h2 : COp y) (h : CTr tr) : CTr ((x, y) :: tr) := by
  intro z hz
  rcases List.mem_cons.1 hz with rfl | hz
  · exact ⟨h1, h2⟩
  · exact h z hz

theorem CTr.nil : CTr [] := by simp [CTr]

theorem CTr.append {a b} (h : CTr a) (h' : CTr b) : CTr (a ++ b) := all_append h h'

theorem dropPorts_canon {ps : List Nat} {w w' : WG} {tr} (h : w.Canon) (hps : ∀ p ∈ ps, p < 2 ^ 31)
    (hs : w.dropPorts ps = some (w', tr)) : w'.Canon ∧ CTr tr := by
  induction ps generalizing w w' tr with
  | nil => cases hs; exact ⟨h, .nil⟩
  | cons p ps ih =>
    unfold WG.dropPorts at hs
    have hp := hps p (by simp)
    rw [(new_eq hp).1] at hs
    simp only at hs
    split at hs
    · cases hs
    · rename_i r w1 h1
      obtain ⟨c1, c2⟩ := unlinkPort_canon h h1
      split at hs
      · cases hs
      · rename_i w2 tr2 h2
        obtain ⟨c3, c4⟩ := ih c1 (fun q hq => hps q (by simp [hq])) h2
        cases hs
        exact ⟨c3, .cons (.new hp) c2 c4⟩

theorem movePort_canon {w w' : WG} {old new : Nat} {b : Ix} (h : w.Canon) (hb : CI b)
    (hs : w.movePort old new b = some w') : w'.Canon := by
  unfold WG.movePort at hs
  split at hs
  · rename_i l pm hl hpm
    split at hs
    · have h1 : ({ w with portLink := w.portLink.set new l, portMeta := w.portMeta.set new pm } : WG).Canon :=
        ⟨h.1, all_set h.2 _ (all_get h.2 hl), all_set h.3 _ (all_get h.3 hpm), h.4, h.5⟩
      simp only at hs
      split at hs
      · cases hs; exact h1
      · split at hs
        · cases hs
          exact ⟨h1.1, all_set h1.2 _ (.of hb), h1.3, h1.4, h1.5⟩
        · cases hs
    · cases hs
  · cases hs

theorem movePorts_canon {ps : List (Nat × Nat)} {w w' : WG} {tr} (h : w.Canon)
    (hps : ∀ x ∈ ps, x.1 < maxSlots ∧ x.2 < maxSlots) (hs : w.movePorts ps = some (w', tr)) : w'.Canon ∧ CTr tr := by
  induction ps generalizing w w' tr with
  | nil => cases hs; exact ⟨h, .nil⟩
  | cons x ps ih =>
    obtain ⟨old, new⟩ := x
    unfold WG.movePorts at hs
    obtain ⟨ho, hn⟩ := hps (old, new) (by simp)
    simp only at ho hn
    have ho' : old < 2 ^ 31 := by unfold maxSlots at ho; omega
    have hn' : new < 2 ^ 31 := by unfold maxSlots at hn; omega
    rw [(new_eq ho').1, (new_eq hn').1] at hs
    simp only at hs
    split at hs
    · cases hs
    · rename_i w1 h1
      have c1 := movePort_canon h (.new hn') h1
      split at hs
      · cases hs
      · rename_i w2 tr2 h2
        obtain ⟨c3, c4⟩ := ih c1 (fun q hq => hps q (by simp [hq])) h2
        cases hs
        exact ⟨c3, .cons (.new ho') (show CI _ from .new hn') c4⟩

theorem relocPort_canon {w w' : WG} {old new : Nat} {b : Ix} (h : w.Canon) (hb : CI b)
    (hs : w.relocPort old new b = some w') : w'.Canon := by
  unfold WG.relocPort at hs
  split at hs
  · cases hs
  · rename_i l hl
    split at hs
    · cases hs
    · rename_i pl hpl
      have hc : ∀ x ∈ pl, CM x := by
        split at hpl
        · cases hpl; exact h.2
        · unfold vset at hpl
          split at hpl
          · cases hpl; exact all_set h.2 _ (.of hb)
          · cases hpl
      split at hs
      · rename_i l' pm hl' hpm
        split at hs
        · cases hs
          exact ⟨h.1, all_set (all_set hc _ .none) _ (all_get hc hl'), all_set h.3 _ (all_get h.3 hpm), h.4, h.5⟩
        · cases hs
      · cases hs

theorem relocPorts_canon {ps : List (Nat × Nat)} {w w' : WG} {tr} (h : w.Canon)
    (hps : ∀ x ∈ ps, x.1 < maxSlots ∧ x.2 < maxSlots) (hs : w.relocPorts ps = some (w', tr)) : w'.Canon ∧ CTr tr := by
  induction ps generalizing w w' tr with
  | nil => cases hs; exact ⟨h, .nil⟩
  | cons x ps ih =>
    obtain ⟨old, new⟩ := x
    unfold WG.relocPorts at hs
    obtain ⟨ho, hn⟩ := hps (old, new) (by simp)
    simp only at ho hn
    have ho' : old < 2 ^ 31 := by unfold maxSlots at ho; omega
    have hn' : new < 2 ^ 31 := by unfold maxSlots at hn; omega
    rw [(new_eq ho').1, (new_eq hn').1] at hs
    simp only at hs
    split at hs
    · cases hs
    · rename_i w1 h1
      have c1 := relocPort_canon h (.new hn') h1
      split at hs
      · cases hs
      · rename_i w2 tr2 h2
        obtain ⟨c3, c4⟩ := ih c1 (fun q hq => hps q (by simp [hq])) h2
        cases hs
        exact ⟨c3, .cons (.new ho') (show CI _ from .new hn') c4⟩

theorem resizeInplace_canon {w w' : WG} {node : Ix} {i o : Nat} {tr} (h : w.Canon) (hn : indexOf node < maxSlots)
    (hm : ∀ m, w.node? node = some m → i + o ≤ m.view.capacity ∧ m.view.incoming + m.view.outgoing ≤ m.view.capacity ∧
      m.view.first + m.view.capacity ≤ maxSlots)
    (hs : w.resizeInplace node i o = some (w', tr)) : w'.Canon ∧ CTr tr := by
  unfold WG.resizeInplace at hs
  split at hs
  · cases hs
  · rename_i m hm0
    obtain ⟨b1, b2, b3⟩ := hm m hm0
    have hf := (node_canon h hm0).1
    split at hs
    · cases hs
    · rename_i nm hnm
      obtain ⟨hv0, -, hv, -⟩ := new?_some hnm
      simp only [u16_toNat] at hv
      have hv1 : nm.view.first = m.view.first := by rw [hv]; rfl
      have hv2 : nm.view.incoming ≤ i := by rw [hv]; exact Nat.mod_le _ _
      have hv3 : nm.view.outgoing ≤ o := by rw [hv]; exact Nat.mod_le _ _
      split at hs
      · cases hs
      · rename_i w1 tr1 h1
        obtain ⟨c1, t1⟩ := dropPorts_canon h
          (fun p hp => by have := droppedPorts_lt hp; unfold maxSlots at b3; omega) h1
        simp only at hs
        split at hs
        · cases hs
        · rename_i w2 tr2 h2
          obtain ⟨c2, t2⟩ := movePorts_canon c1 (fun x hx => by
            have hx' : x ∈ (m.view.ports .outgoing).zip (nm.view.ports .outgoing) := by
              split at hx
              · exact hx
              · exact List.mem_reverse.1 hx
            have := zip_lt _ _ _ hx'
            omega) h2
          split at hs
          · cases hs
            refine ⟨⟨all_set c2.1 _ (show CI _ by rw [hv0]; exact hf), all_fill (all_fill (all_fill c2.2 _ _ .none) _ _ .none) _ _ .none,
              all_fill (all_fill (all_fill c2.3 _ _ (.of hn _)) _ _ (.of hn _)) _ _ (show CP .free from trivial),
              c2.4, c2.5⟩, t1.append t2⟩
          · cases hs

theorem setNumPorts_canon {w w' : WG} {node : Ix} {i o : Nat} {tr} (h : w.Canon)
    (hn : w.nodeMeta.length ≤ maxSlots) (hp : w.portMeta.length ≤ maxSlots)
    (hm : ∀ m, w.node? node = some m → m.view.incoming + m.view.outgoing ≤ m.view.capacity ∧
      m.view.first + m.view.capacity ≤ w.portMeta.length)
    (hs : w.setNumPorts node i o = some (w', tr)) (hf : w'.portMeta.length ≤ maxSlots) : w'.Canon ∧ CTr tr := by
  unfold WG.setNumPorts at hs
  split at hs
  · simp only at hs
    split at hs
    · cases hs; exact ⟨h, .nil⟩
    · rename_i m hm0
      obtain ⟨b2, b3⟩ := hm m hm0
      obtain ⟨hfi, hlt⟩ := node_canon h hm0
      split at hs
      · cases hs; exact ⟨h, .nil⟩
      · split at hs
        · refine resizeInplace_canon h (by omega) (fun m' hm' => ?_) hs
          rw [hm0] at hm'
          cases hm'
          omega
        · split at hs
          · cases hs
          · rename_i w1 tr1 h1
            have hlen1 := dropPorts_len h1
            obtain ⟨c1, t1⟩ := dropPorts_canon h
              (fun p hp' => by have := droppedPorts_lt hp'; unfold maxSlots at hp; omega) h1
            split at hs
            · cases hs
            · rename_i nm w2 h2
              obtain ⟨d1, -⟩ := allocPorts_bound h2
              obtain ⟨c2, t2⟩ := allocPorts_canon c1 (by omega) (by rw [hlen1.2.1]; unfold maxSlots at hp; omega) h2
              split at hs
              · cases hs
              · rename_i w3 tr3 h3
                have hlen3 := relocPorts_len h3
                split at hs
                · split at hs
                  · cases hs
                  · rename_i w4 h4
                    have hlen4 := freePorts_len h4
                    split at hs
                    · cases hs
                      simp only at hf hlen4
                      have hlen5 := hlen3.2.1
                      obtain ⟨c3, t3⟩ := relocPorts_canon c2 (fun x hx => by
                        have : x.1 < m.view.first + m.view.incoming + m.view.outgoing ∧
                            x.2 < nm.view.first + nm.view.incoming + nm.view.outgoing := by
                          rcases List.mem_append.1 hx with h | h
                          · exact zip_lt _ _ _ h
                          · exact zip_lt _ _ _ h
                        omega) h3
                      have c4 := freePorts_canon (by exact ⟨all_set c3.1 _ t2, c3.2, c3.3, c3.4, c3.5⟩) hfi h4
                      exact ⟨⟨c4.1, c4.2, c4.3, c4.4, c4.5⟩, t1.append t3⟩
                    · cases hs
                · cases hs
  · cases hs

theorem claimPorts_canon {w w' : WG} {n : Ix} {m : WMeta} (h : w.Canon) (hn : indexOf n < maxSlots)
    (hs : w.claimPorts n m = some w') : w'.Canon := by
  unfold WG.claimPorts at hs
  split at hs
  · cases hs
    exact ⟨h.1, h.2, all_fill (all_fill h.3 _ _ (.of hn _)) _ _ (.of hn _), h.4, h.5⟩
  · cases hs

theorem CMv.cons {x y : Ix} {tr} (h1 : CI x) (h2 : CI y) (h : CMv tr) : CMv ((x, y) :: tr) := by
  intro z hz
  rcases List.mem_cons.1 hz with rfl | hz
  · exact ⟨h1, h2⟩
  · exact h z hz

theorem CMv.nil : CMv [] := by simp [CMv]

theorem compactNodesLoop_canon {es : List WEntry} {w w' : WG} {old new : Nat} {kept tr} (h : w.Canon)
    (hes : ∀ e ∈ es, CE e) (hlen : old + es.length ≤ maxSlots) (hle : new ≤ old)
    (hs : w.compactNodesLoop old new es = some (kept, w', tr)) : w'.Canon ∧ (∀ e ∈ kept, CE e) ∧ CMv tr := by
  induction es generalizing w w' old new kept tr with
  | nil => cases hs; exact ⟨h, by simp, .nil⟩
  | cons e es ih =>
    simp only [List.length_cons] at hlen
    have ho : old < 2 ^ 31 := by unfold maxSlots at hlen; omega
    have hn : new < 2 ^ 31 := by omega
    obtain ⟨h1, h2⟩ := new_eq ho
    obtain ⟨h3, h4⟩ := new_eq hn
    unfold WG.compactNodesLoop at hs
    rw [h1, h3] at hs
    have hes' : ∀ e ∈ es, CE e := fun x hx => hes x (by simp [hx])
    simp only at hs
    split at hs
    · exact ih h hes' (by omega) (by omega) hs
    · rename_i m
      have he := hes (.node m) (by simp)
      split at hs
      · cases hs
      · rename_i w1 hc
        have c1 := claimPorts_canon h (by rw [h4]; omega) hc
        split at hs
        · cases hs
        · rename_i hl
          obtain ⟨c2, c3, c4⟩ := ih c1 hes' (by omega) (by omega) hl
          cases hs
          refine ⟨c2, ?_, .cons (.new ho) (.new hn) c4⟩
          intro x hx
          rcases List.mem_cons.1 hx with rfl | hx
          · exact he
          · exact c3 x hx

theorem compactNodes_canon {w w' : WG} {tr} (h : w.Canon) (hn : w.nodeMeta.length ≤ maxSlots)
    (hs : w.compactNodes = some (w', tr)) : w'.Canon ∧ CMv tr := by
  unfold WG.compactNodes at hs
  split at hs
  · cases hs
  · rename_i kept w1 tr1 hl
    obtain ⟨c2, c3, c4⟩ := compactNodesLoop_canon h h.1 (by omega) (Nat.le_refl _) hl
    cases hs
    exact ⟨⟨c3, c2.2, c2.3, .none, c2.5⟩, c4⟩

theorem swapClaim_canon {w w' : WG} {n : Ix} {e : WEntry} (h : w.Canon) (hn : indexOf n < maxSlots)
    (hs : w.swapClaim n e = some w') : w'.Canon := by
  cases e with
  | free p q => cases hs; exact h
  | node m => exact claimPorts_canon h hn hs

theorem setFreeNext_canon {l l' : List WEntry} {i : Nat} {v : MaybeIx} (h : ∀ e ∈ l, CE e) (hv : CM v)
    (hs : WG.setFreeNext l i v = some l') : ∀ e ∈ l', CE e := by
  unfold WG.setFreeNext at hs
  split at hs
  · rename_i hg
    cases hs
    exact all_set h _ ⟨(all_get h hg).1, hv⟩
  · cases hs

theorem setFreePrev_canon {l l' : List WEntry} {i : Nat} {v : MaybeIx} (h : ∀ e ∈ l, CE e) (hv : CM v)
    (hs : WG.setFreePrev l i v = some l') : ∀ e ∈ l', CE e := by
  unfold WG.setFreePrev at hs
  split at hs
  · rename_i hg
    cases hs
    exact all_set h _ ⟨hv, (all_get h hg).2⟩
  · cases hs

theorem swapFreeList_canon {l l' : List WEntry} {n : Ix} {p q : MaybeIx} (h : ∀ e ∈ l, CE e) (hn : CI n)
    (hs : WG.swapFreeList l n p q = some l') : ∀ e ∈ l', CE e := by
  unfold WG.swapFreeList at hs
  split at hs
  · cases hs
  · rename_i l1 h1
    have c1 : ∀ e ∈ l1, CE e := by
      split at h1
      · cases h1; exact h
      · exact setFreeNext_canon h (.of hn) h1
    split at hs
    · cases hs; exact c1
    · exact setFreePrev_canon c1 (.of hn) hs

theorem swapNodes_canon {w w' : WG} {a b : Ix} (h : w.Canon) (ha : CI a) (hb : CI b) (hl : w.nodeMeta.length ≤ maxSlots)
    (hs : w.swapNodes a b = some w') : w'.Canon := by
  unfold WG.swapNodes at hs
  split at hs
  · rename_i ea eb hea heb
    have hla := (List.getElem?_eq_some_iff.1 hea).1
    have hlb := (List.getElem?_eq_some_iff.1 heb).1
    simp only at hs
    split at hs
    · cases hs
    · rename_i w1 h1
      have c1 := swapClaim_canon (w := { w with nodeMeta := (w.nodeMeta.set (indexOf a) eb).set (indexOf b) ea })
        ⟨all_set (all_set h.1 _ (all_get h.1 heb)) _ (all_get h.1 hea), h.2, h.3, h.4, h.5⟩ (by omega) h1
      split at hs
      · cases hs
      · rename_i w2 h2
        have c2 := swapClaim_canon c1 (by omega) h2
        split at hs
        · obtain ⟨l, hl, rfl⟩ := Option.map_eq_some_iff.1 hs
          exact ⟨swapFreeList_canon c2.1 hb hl, c2.2, c2.3, c2.4, c2.5⟩
        · obtain ⟨l, hl, rfl⟩ := Option.map_eq_some_iff.1 hs
          exact ⟨swapFreeList_canon c2.1 ha hl, c2.2, c2.3, c2.4, c2.5⟩
        · cases hs; exact c2
  · cases hs

theorem compactLinksLoop_canon {k : Nat} {pm : List WPort} {pl pl' : List MaybeIx} {old new n : Nat} (h : ∀ x ∈ pl, CM x)
    (hlen : old + k ≤ maxSlots) (hle : new ≤ old) (hs : WG.compactLinksLoop pm pl old new k = some (pl', n)) :
    ∀ x ∈ pl', CM x := by
  induction k generalizing pl old new with
  | zero => cases hs; exact h
  | succ k ih =>
    unfold WG.compactLinksLoop at hs
    have hn : new < 2 ^ 31 := by unfold maxSlots at hlen; omega
    split at hs
    · cases hs
    · exact ih h (by omega) (by omega) hs
    · split at hs
      · exact ih h (by omega) (by omega) hs
      · split at hs
        · cases hs
        · split at hs
          · cases hs
          · rename_i pl1 hpl
            have hc : ∀ x ∈ pl1, CM x := by
              split at hpl
              · cases hpl; exact h
              · rw [(new_eq hn).1, Option.bind_some] at hpl
                unfold vset at hpl
                split at hpl
                · cases hpl; exact all_set h _ (.of (.new hn))
                · cases hpl
            split at hs
            · rename_i hx hy
              exact ih (all_set (all_set hc _ (all_get hc hy)) _ (all_get hc hx)) (by omega) (by omega) hs
            · cases hs

theorem compactPortsLoop_canon {es : List WPort} {nm nm' : List WEntry} {old new : Nat} {kept tr} (hn : ∀ e ∈ nm, CE e)
    (hes : ∀ e ∈ es, CP e) (hlen : old + es.length ≤ maxSlots) (hle : new ≤ old)
    (hs : WG.compactPortsLoop nm old new es = some (kept, nm', tr)) :
    (∀ e ∈ nm', CE e) ∧ (∀ e ∈ kept, CP e) ∧ CMv tr := by
  induction es generalizing nm nm' old new kept tr with
  | nil => cases hs; exact ⟨hn, by simp, .nil⟩
  | cons e es ih =>
    simp only [List.length_cons] at hlen
    have ho : old < 2 ^ 31 := by unfold maxSlots at hlen; omega
    have hn' : new < 2 ^ 31 := by omega
    obtain ⟨h1, h2⟩ := new_eq ho
    obtain ⟨h3, h4⟩ := new_eq hn'
    unfold WG.compactPortsLoop at hs
    rw [h1, h3] at hs
    have hes' : ∀ e ∈ es, CP e := fun x hx => hes x (by simp [hx])
    simp only at hs
    split at hs
    · exact ih hn hes' (by omega) (by omega) hs
    · rename_i x
      split at hs
      · cases hs
      · split at hs
        · rename_i m hm
          split at hs
          · cases hs
          · rename_i nm1 hnm1
            have hc : ∀ e ∈ nm1, CE e := by
              split at hnm1
              · split at hnm1
                · cases hnm1
                · rename_i m' hm'
                  cases hnm1
                  exact all_set hn _ (show CI _ by rw [(new?_some hm').1]; exact .new hn')
              · cases hnm1; exact hn
            split at hs
            · cases hs
            · rename_i hl
              obtain ⟨c2, c3, c4⟩ := ih hc hes' (by omega) (by omega) hl
              cases hs
              refine ⟨c2, ?_, .cons (.new ho) (.new hn') c4⟩
              intro y hy
              rcases List.mem_cons.1 hy with rfl | hy
              · exact hes _ (by simp)
              · exact c3 y hy
        · cases hs

theorem compactPorts_canon {w w' : WG} {tr} (h : w.Canon) (hl : w.portLink.length = w.portMeta.length)
    (hp : w.portMeta.length ≤ maxSlots) (hs : w.compactPorts = some (w', tr)) : w'.Canon ∧ CMv tr := by
  unfold WG.compactPorts at hs
  split at hs
  · cases hs
  · rename_i pl n h1
    have c1 := compactLinksLoop_canon h.2 (by omega) (Nat.le_refl _) h1
    split at hs
    · cases hs
    · rename_i kept nm tr2 h2
      obtain ⟨c2, c3, c4⟩ := compactPortsLoop_canon h.1 h.3 (by omega) (Nat.le_refl _) h2
      cases hs
      exact ⟨⟨c2, fun x hx => c1 x (List.mem_of_mem_take hx), c3, h.4, by simp⟩, c4⟩

end Verif.Words
