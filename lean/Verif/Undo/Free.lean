import Verif.Undo.Spec
import Verif.Count

/-!
# The length of the vector of free lists does not matter

Lemmas: every call treats states that differ only in trailing empty free lists alike.
-/

namespace Verif.Undo

open Verif.PG

/-- The state with another vector of free lists. -/
def setFree (g : PG) (pf : List (Option Nat)) : PG := { g with portFree := pf }

@[simp] theorem setFree_self (g : PG) : setFree g g.portFree = g := rfl
@[simp] theorem setFree_setFree (g : PG) (a b) : setFree (setFree g a) b = setFree g b := rfl

variable (g : PG) (pf : List (Option Nat))

theorem allocNode_free : (setFree g pf).allocNode = g.allocNode.map fun x => (x.1, setFree x.2 pf) := by
  unfold PG.allocNode setFree
  simp only
  repeat' split
  all_goals first | rfl | simp_all

theorem freeNode_free (n : Nat) : (setFree g pf).freeNode n = (g.freeNode n).map fun x => setFree x pf := by
  unfold PG.freeNode setFree
  simp only
  repeat' split
  all_goals first | rfl | simp_all

theorem freePortStep_free (i : Nat) : (setFree g pf).freePortStep i = (g.freePortStep i).map fun x => setFree x pf := by
  unfold PG.freePortStep setFree
  simp only
  repeat' split
  all_goals first | rfl | simp_all

theorem freePortsLoop_free (i k : Nat) : (setFree g pf).freePortsLoop i k = (g.freePortsLoop i k).map fun x => setFree x pf := by
  induction k generalizing g i with
  | zero => rfl
  | succ k ih =>
    unfold PG.freePortsLoop
    rw [freePortStep_free]
    cases g.freePortStep i with
    | none => rfl
    | some g1 => exact ih g1 (i + 1)

theorem linkPorts_free (a b : Nat) : (setFree g pf).linkPorts a b = (g.linkPorts a b).map fun x => (x.1, setFree x.2 pf) := by
  unfold PG.linkPorts
  rw [show (setFree g pf).port? = g.port? from rfl, show (setFree g pf).portLink = g.portLink from rfl]
  repeat' split
  all_goals first | rfl | simp_all

theorem unlinkPort_free (p : Nat) : (setFree g pf).unlinkPort p = (g.unlinkPort p).map fun x => (x.1, setFree x.2 pf) := by
  unfold PG.unlinkPort
  rw [show (setFree g pf).port? = g.port? from rfl, show (setFree g pf).portLink = g.portLink from rfl,
    show (setFree g pf).linkCount = g.linkCount from rfl]
  repeat' split
  all_goals first | rfl | simp_all

theorem dropPorts_free (ps : List Nat) : (setFree g pf).dropPorts ps = (g.dropPorts ps).map fun x => (setFree x.1 pf, x.2) := by
  induction ps generalizing g with
  | nil => rfl
  | cons p ps ih =>
    unfold PG.dropPorts
    rw [unlinkPort_free]
    cases g.unlinkPort p with
    | none => rfl
    | some x =>
      simp only [Option.map_some]
      rw [ih]
      cases x.2.dropPorts ps <;> rfl

theorem movePort_free (a b : Nat) : (setFree g pf).movePort a b = (g.movePort a b).map fun x => setFree x pf := by
  unfold PG.movePort setFree
  simp only
  repeat' split
  all_goals first | rfl | simp_all

theorem movePorts_free (ps : List (Nat × Nat)) : (setFree g pf).movePorts ps = (g.movePorts ps).map fun x => (setFree x.1 pf, x.2) := by
  induction ps generalizing g with
  | nil => rfl
  | cons p ps ih =>
    unfold PG.movePorts
    rw [movePort_free]
    cases g.movePort p.1 p.2 with
    | none => rfl
    | some x =>
      simp only [Option.map_some]
      rw [ih]
      cases x.movePorts ps <;> rfl

theorem relocPort_free (a b : Nat) : (setFree g pf).relocPort a b = (g.relocPort a b).map fun x => setFree x pf := by
  unfold PG.relocPort setFree
  simp only
  cases g.portLink[a]? with
  | none => rfl
  | some l =>
    simp only
    have key : ∀ v : Option (List (Option Nat)),
        (match v with
          | none => none
          | some pl =>
            match pl[a]?, g.portMeta[a]? with
            | some l', some pm =>
              if b < pl.length ∧ b < g.portMeta.length then
                some ({ g with portLink := (pl.set a none).set b l', portMeta := g.portMeta.set b pm, portFree := pf } : PG)
              else none
            | _, _ => none) =
        (match v with
          | none => none
          | some pl =>
            match pl[a]?, g.portMeta[a]? with
            | some l', some pm =>
              if b < pl.length ∧ b < g.portMeta.length then
                some ({ g with portLink := (pl.set a none).set b l', portMeta := g.portMeta.set b pm } : PG)
              else none
            | _, _ => none).map fun x : PG => ({ x with portFree := pf } : PG) := by
      intro v
      cases v with
      | none => rfl
      | some pl =>
        simp only
        cases pl[a]? <;> cases g.portMeta[a]? <;> simp only <;> try rfl
        split <;> rfl
    cases l with
    | none => exact key (some g.portLink)
    | some q => exact key (vset g.portLink q (some b))

theorem relocPorts_free (ps : List (Nat × Nat)) :
    (setFree g pf).relocPorts ps = (g.relocPorts ps).map fun x => (setFree x.1 pf, x.2) := by
  induction ps generalizing g with
  | nil => rfl
  | cons p ps ih =>
    unfold PG.relocPorts
    rw [relocPort_free]
    cases g.relocPort p.1 p.2 with
    | none => rfl
    | some x =>
      simp only [Option.map_some]
      rw [ih]
      cases x.relocPorts ps <;> rfl

theorem resizeInplace_free (n i o : Nat) :
    (setFree g pf).resizeInplace n i o = (g.resizeInplace n i o).map fun x => (setFree x.1 pf, x.2) := by
  unfold PG.resizeInplace
  rw [show (setFree g pf).node? = g.node? from rfl]
  cases g.node? n with
  | none => rfl
  | some m =>
    simp only
    cases NodeMeta.new? m.first (i % 65536) (o % 65536) (m.capacity % 65536) with
    | none => rfl
    | some nm =>
      simp only [dropPorts_free]
      cases g.dropPorts (PG.droppedPorts m i o) with
      | none => rfl
      | some x =>
        simp only [Option.map_some, movePorts_free]
        generalize (if i < m.incoming then _ else _ : List (Nat × Nat)) = ps
        cases x.1.movePorts ps with
        | none => rfl
        | some y =>
          simp only [Option.map_some]
          simp only [show (setFree y.1 pf).portLink = y.1.portLink from rfl, show (setFree y.1 pf).portMeta = y.1.portMeta from rfl,
            show (setFree y.1 pf).nodeMeta = y.1.nodeMeta from rfl, show (setFree y.1 pf).portCount = y.1.portCount from rfl]
          split <;> rfl

theorem claimPorts_free (n : Nat) (m : NodeMeta) : (setFree g pf).claimPorts n m = (g.claimPorts n m).map fun x => setFree x pf := by
  unfold PG.claimPorts setFree
  simp only
  split <;> rfl

theorem compactNodesLoop_free (old new : Nat) (es : List NodeEntry) :
    (setFree g pf).compactNodesLoop old new es = (g.compactNodesLoop old new es).map fun x => (x.1, setFree x.2.1 pf, x.2.2) := by
  induction es generalizing g old new with
  | nil => rfl
  | cons e es ih =>
    cases e with
    | free => exact ih g (old + 1) new
    | node m =>
      unfold PG.compactNodesLoop
      rw [claimPorts_free]
      cases g.claimPorts new m with
      | none => rfl
      | some x =>
        simp only [Option.map_some]
        rw [ih]
        cases x.compactNodesLoop (old + 1) (new + 1) es <;> rfl

theorem compactNodes_free : (setFree g pf).compactNodes = (g.compactNodes).map fun x => (setFree x.1 pf, x.2) := by
  unfold PG.compactNodes
  rw [compactNodesLoop_free, show (setFree g pf).nodeMeta = g.nodeMeta from rfl]
  cases g.compactNodesLoop 0 0 g.nodeMeta <;> rfl

theorem swapClaim_free (n : Nat) (e : NodeEntry) : (setFree g pf).swapClaim n e = (g.swapClaim n e).map fun x => setFree x pf := by
  cases e with
  | free => rfl
  | node m => exact claimPorts_free g pf n m

theorem swapNodes_free (a b : Nat) : (setFree g pf).swapNodes a b = (g.swapNodes a b).map fun x => setFree x pf := by
  unfold PG.swapNodes
  rw [show (setFree g pf).nodeMeta = g.nodeMeta from rfl]
  cases g.nodeMeta[a]? with
  | none => rfl
  | some ea =>
    cases g.nodeMeta[b]? with
    | none => rfl
    | some eb =>
      simp only
      rw [show ({ setFree g pf with nodeMeta := (g.nodeMeta.set a eb).set b ea } : PG) =
        setFree { g with nodeMeta := (g.nodeMeta.set a eb).set b ea } pf from rfl, swapClaim_free]
      cases ({ g with nodeMeta := (g.nodeMeta.set a eb).set b ea } : PG).swapClaim a eb with
      | none => rfl
      | some g1 =>
        simp only [Option.map_some, swapClaim_free]
        cases g1.swapClaim b ea with
        | none => rfl
        | some g2 =>
          simp only [Option.map_some, show (setFree g2 pf).nodeMeta = g2.nodeMeta from rfl]
          cases ea with
          | free p n =>
            cases eb with
            | free => rfl
            | node =>
              simp only
              cases PG.swapFreeList g2.nodeMeta b p n <;> rfl
          | node m =>
            cases eb with
            | free p n =>
              simp only
              cases PG.swapFreeList g2.nodeMeta a p n <;> rfl
            | node => rfl

theorem compactPorts_free : (setFree g pf).compactPorts = g.compactPorts := by
  unfold PG.compactPorts
  rw [show (setFree g pf).nodeMeta = g.nodeMeta from rfl, show (setFree g pf).portMeta = g.portMeta from rfl,
    show (setFree g pf).portLink = g.portLink from rfl]
  cases PG.compactLinksLoop g.portMeta g.portLink 0 0 g.portLink.length with
  | none => rfl
  | some x =>
    simp only
    cases PG.compactPortsLoop g.nodeMeta 0 0 g.portMeta <;> rfl

/-! ## The two functions that use the free lists -/

/-- The same heads. -/
def SameHeads (a b : List (Option Nat)) : Prop := ∀ s : Nat, (a[s]?).join = (b[s]?).join

theorem SameHeads.set {a b : List (Option Nat)} (h : SameHeads a b) {s : Nat} (ha : s < a.length) (hb : s < b.length) (x : Option Nat) :
    SameHeads (a.set s x) (b.set s x) := by
  intro t
  by_cases e : s = t
  · subst e
    rw [List.getElem?_set_self ha, List.getElem?_set_self hb]
  · rw [List.getElem?_set_ne e, List.getElem?_set_ne e]
    exact h t

theorem join_pad (a : List (Option Nat)) (k s : Nat) : ((a ++ List.replicate k none)[s]?).join = (a[s]?).join := by
  rcases Nat.lt_or_ge s a.length with h | h
  · rw [List.getElem?_append_left h]
  · rw [List.getElem?_append_right h, List.getElem?_eq_none h, List.getElem?_replicate]
    split <;> rfl

theorem SameHeads.pad {a b : List (Option Nat)} (h : SameHeads a b) (j k : Nat) :
    SameHeads (a ++ List.replicate j none) (b ++ List.replicate k none) := by
  intro s
  rw [join_pad, join_pad]
  exact h s

theorem lt_of_join {a : List (Option Nat)} {s x : Nat} (h : (a[s]?).join = some x) : s < a.length := by
  rcases Nat.lt_or_ge s a.length with h1 | h1
  · exact h1
  · rw [List.getElem?_eq_none h1] at h; cases h

/-- Both calls panic, or both return with the same answer and related states. -/
def Both {α : Type} (R : PG → PG → Prop) (x y : Option (α × PG)) : Prop :=
  (x = none ∧ y = none) ∨ ∃ a g h, x = some (a, g) ∧ y = some (a, h) ∧ R g h

theorem allocPorts_free {h : PG} (n i o e : Nat) (hs : SameHeads pf h.portFree) :
    Both SameButFree ((setFree h pf).allocPorts n i o e) (h.allocPorts n i o e) := by
  unfold PG.allocPorts
  simp only [show (setFree h pf).portFree = pf from rfl, show (setFree h pf).portLink = h.portLink from rfl,
    show (setFree h pf).portMeta = h.portMeta from rfl, hs (i + o + e - 1)]
  split
  · exact .inr ⟨_, _, _, rfl, rfl, rfl, hs⟩
  · split
    · rename_i port hp
      have l1 := lt_of_join hp
      rw [← hs] at hp
      have l2 := lt_of_join hp
      split
      · exact .inl ⟨rfl, rfl⟩
      · split
        · exact .inl ⟨rfl, rfl⟩
        · split
          · exact .inr ⟨_, _, _, rfl, rfl, rfl, hs.set l2 l1 _⟩
          · exact .inl ⟨rfl, rfl⟩
    · split
      · exact .inl ⟨rfl, rfl⟩
      · exact .inr ⟨_, _, _, rfl, rfl, rfl, hs⟩

theorem freePorts_free {h : PG} (f s : Nat) (hs : SameHeads pf h.portFree) :
    Both SameButFree (((setFree h pf).freePorts f s).map fun x => ((), x)) ((h.freePorts f s).map fun x => ((), x)) := by
  unfold PG.freePorts
  simp only [show (setFree h pf).portFree = pf from rfl]
  rw [show ({ setFree h pf with portFree := pf ++ List.replicate (s - pf.length) none } : PG) =
      setFree h (pf ++ List.replicate (s - pf.length) none) from rfl,
    show ({ h with portFree := h.portFree ++ List.replicate (s - h.portFree.length) none } : PG) =
      setFree h (h.portFree ++ List.replicate (s - h.portFree.length) none) from rfl]
  have hs2 := hs.pad (s - pf.length) (s - h.portFree.length)
  have l1 : s ≤ (pf ++ List.replicate (s - pf.length) none).length := by simp; omega
  have l2 : s ≤ (h.portFree ++ List.replicate (s - h.portFree.length) none).length := by simp; omega
  revert hs2 l1 l2
  generalize pf ++ List.replicate (s - pf.length) none = A
  generalize h.portFree ++ List.replicate (s - h.portFree.length) none = B
  intro hs2 l1 l2
  split
  · exact .inr ⟨_, _, _, rfl, rfl, rfl, hs2⟩
  · rename_i h0
    rw [freePortsLoop_free, freePortsLoop_free]
    cases h.freePortsLoop f s with
    | none => exact .inl ⟨rfl, rfl⟩
    | some g1 =>
      simp only [Option.map_some, show (setFree g1 A).portFree = A from rfl, show (setFree g1 B).portFree = B from rfl,
        show (setFree g1 A).portLink = g1.portLink from rfl, show (setFree g1 B).portLink = g1.portLink from rfl]
      have e := hs2 (s - 1)
      rw [List.getElem?_eq_getElem (by omega), List.getElem?_eq_getElem (by omega)] at e ⊢
      simp only [Option.join_some] at e
      simp only [e]
      split
      · exact .inr ⟨_, _, _, rfl, rfl, rfl, hs2.set (by omega) (by omega) _⟩
      · exact .inl ⟨rfl, rfl⟩

theorem sameBut_iff {g h : PG} : SameButFree g h ↔ ∃ pf, g = setFree h pf ∧ SameHeads pf h.portFree := by
  constructor
  · rintro ⟨h1, h2⟩
    exact ⟨g.portFree, h1, h2⟩
  · rintro ⟨pf, rfl, h2⟩
    exact ⟨rfl, h2⟩

theorem both_keep {α : Type} {h : PG} {pf : List (Option Nat)} (hs : SameHeads pf h.portFree) (f : PG → Option (α × PG))
    (hf : ∀ g pf, f (setFree g pf) = (f g).map fun x => (x.1, setFree x.2 pf)) : Both SameButFree (f (setFree h pf)) (f h) := by
  have hk := hf h h.portFree
  rw [setFree_self] at hk
  rw [hf]
  cases e : f h with
  | none => exact .inl ⟨rfl, rfl⟩
  | some x =>
    rw [e] at hk
    simp only [Option.map_some, Option.some.injEq] at hk
    refine .inr ⟨x.1, _, x.2, rfl, rfl, sameBut_iff.2 ⟨pf, rfl, ?_⟩⟩
    have : x.2.portFree = h.portFree := congrArg (fun y => y.2.portFree) hk
    rw [this]
    exact hs

theorem Both.map {α β : Type} {R : PG → PG → Prop} {x y : Option (α × PG)} (h : Both R x y) (f : α → β) :
    Both R (x.map fun z => (f z.1, z.2)) (y.map fun z => (f z.1, z.2)) := by
  rcases h with ⟨rfl, rfl⟩ | ⟨a, g, k, rfl, rfl, hR⟩
  · exact .inl ⟨rfl, rfl⟩
  · exact .inr ⟨_, _, _, rfl, rfl, hR⟩

end Verif.Undo
