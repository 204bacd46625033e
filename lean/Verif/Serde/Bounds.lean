import Verif.Serde.Spec
import Verif.PortGraph.History
import Verif.Hierarchy.History

/-!
Lemmas: in a reachable graph all the stored links, also those in unused slots, point into the vector
of ports; so the numbers stored in a graph fit as long as the vectors are not too long.
-/

namespace Verif.Serde

open Verif (Direction)
open Verif.PG

/-- All links and list heads point into the vector of links. -/
structure LB (g : PG) : Prop where
  link : ∀ q, some q ∈ g.portLink → q < g.portLink.length
  head : ∀ q, some q ∈ g.portFree → q < g.portLink.length

theorem mem_fill {α : Type} {l : List α} {a k : Nat} {x y : α} (h : y ∈ fill l a k x) : y ∈ l ∨ y = x := by
  obtain ⟨i, hi, e⟩ := List.mem_iff_getElem.1 h
  have h1 : (fill l a k x)[i]? = some y := by rw [List.getElem?_eq_getElem hi, e]
  rw [getElem?_fill] at h1
  split at h1
  · right; cases hl : l[i]? <;> simp [hl] at h1; exact h1.symm
  · left; exact List.mem_of_getElem? h1

theorem mem_set {α : Type} {l : List α} {i : Nat} {x y : α} (h : y ∈ l.set i x) : y ∈ l ∨ y = x :=
  List.mem_or_eq_of_mem_set h

/-- `LB` for changed vectors. -/
theorem LB.mk' {g g' : PG} (h : LB g) (hlen : g.portLink.length ≤ g'.portLink.length)
    (hl : ∀ q, some q ∈ g'.portLink → some q ∈ g.portLink ∨ some q ∈ g.portFree ∨ q < g'.portLink.length)
    (hf : ∀ q, some q ∈ g'.portFree → some q ∈ g.portLink ∨ some q ∈ g.portFree ∨ q < g'.portLink.length) : LB g' := by
  constructor
  · intro q hq
    rcases hl q hq with h1 | h1 | h1
    · have := h.link q h1; omega
    · have := h.head q h1; omega
    · exact h1
  · intro q hq
    rcases hf q hq with h1 | h1 | h1
    · have := h.link q h1; omega
    · have := h.head q h1; omega
    · exact h1

/-- Only other fields changed. -/
theorem LB.same {g g' : PG} (h : LB g) (hl : g'.portLink = g.portLink) (hf : g'.portFree = g.portFree) : LB g' := by
  constructor
  · rw [hl]; exact h.link
  · rw [hl, hf]; exact h.head

theorem allocNode_lb {g : PG} {r} (h : LB g) (e : g.allocNode = some r) : LB r.2 := by
  unfold PG.allocNode at e
  repeat' split at e
  all_goals first
    | (cases e; done)
    | (cases e; exact h.same rfl rfl)

theorem freeNode_lb {g g' : PG} {n} (h : LB g) (e : g.freeNode n = some g') : LB g' := by
  unfold PG.freeNode at e
  repeat' split at e
  all_goals first
    | (cases e; done)
    | (cases e; exact h.same rfl rfl)

theorem allocPorts_lb {g : PG} {n i o x r} (h : LB g) (e : g.allocPorts n i o x = some r) : LB r.2 := by
  unfold PG.allocPorts at e
  simp only at e
  split at e
  · cases e; exact h
  · split at e
    · rename_i port hport
      split at e
      · cases e
      · rename_i fn hfn
        split at e
        · cases e
        · split at e
          · cases e
            refine h.mk' (by simp) ?_ ?_
            · intro q hq
              rcases mem_fill hq with h1 | h1
              · exact Or.inl h1
              · cases h1
            · intro q hq
              rcases mem_set hq with h1 | h1
              · exact Or.inr (Or.inl h1)
              · left; rw [h1]; exact List.mem_of_getElem? hfn
          · cases e
    · split at e
      · cases e
      · cases e
        refine h.mk' (by simp) ?_ fun q hq => Or.inr (Or.inl hq)
        intro q hq
        rcases List.mem_append.1 hq with h1 | h1
        · exact Or.inl h1
        · rw [List.mem_replicate] at h1; exact absurd h1.2 (by simp)

theorem freePortStep_lb {g g' : PG} {i} (h : LB g) (e : g.freePortStep i = some g') : LB g' := by
  unfold PG.freePortStep at e
  split at e
  · split at e
    · cases e
    · cases e; exact h.same rfl rfl
    · split at e
      · cases e
        refine h.mk' (by simp) ?_ fun q hq => Or.inr (Or.inl hq)
        intro q hq
        rcases mem_set hq with h1 | h1
        · rcases mem_set h1 with h1 | h1
          · exact Or.inl h1
          · cases h1
        · cases h1
      · cases e
  · cases e

theorem freePortsLoop_lb {g g' : PG} {i k} (h : LB g) (e : g.freePortsLoop i k = some g') : LB g' := by
  induction k generalizing g i with
  | zero => cases e; exact h
  | succ k ih =>
    simp only [PG.freePortsLoop] at e
    split at e
    · cases e
    · rename_i g1 h1
      exact ih (freePortStep_lb h h1) e

theorem freePorts_lb {g g' : PG} {f s} (h : LB g) (e : g.freePorts f s = some g') : LB g' := by
  have h0 : LB { g with portFree := g.portFree ++ List.replicate (s - g.portFree.length) none } := by
    refine h.mk' (Nat.le_refl _) (fun q hq => Or.inl hq) ?_
    intro q hq
    rcases List.mem_append.1 hq with h1 | h1
    · exact Or.inr (Or.inl h1)
    · rw [List.mem_replicate] at h1; exact absurd h1.2 (by simp)
  unfold PG.freePorts at e
  simp only at e
  split at e
  · cases e; exact h0
  · split at e
    · cases e
    · rename_i g1 h1
      have hg1 := freePortsLoop_lb h0 h1
      split at e
      · cases e
      · rename_i hd hhd
        split at e
        · rename_i hf
          cases e
          refine hg1.mk' (by simp) ?_ ?_
          · intro q hq
            rcases mem_set hq with h1 | h1
            · exact Or.inl h1
            · right; left; rw [h1]; exact List.mem_of_getElem? hhd
          · intro q hq
            rcases mem_set hq with h1 | h1
            · exact Or.inr (Or.inl h1)
            · right; right; cases h1; simpa using hf
        · cases e

theorem addNode_lb {mo : Nat} {g : PG} {i o r} (h : LB g) (e : g.addNode mo i o = some r) : LB r.2 := by
  unfold PG.addNode at e
  split at e
  · split at e
    · cases e
    · rename_i n g1 h1
      split at e
      · cases e
      · rename_i m g2 h2
        split at e
        · cases e
          exact (allocPorts_lb (allocNode_lb h h1) h2).same rfl rfl
        · cases e
  · cases e

theorem removeNode_lb {g g' : PG} {n} (h : LB g) (e : g.removeNode n = some g') : LB g' := by
  unfold PG.removeNode at e
  split at e
  · cases e; exact h
  · split at e
    · cases e
    · rename_i g1 h1
      have hg1 := freeNode_lb h h1
      split at e
      · cases e
      · simp only at e
        split at e
        · split at e
          · refine freePorts_lb ?_ e
            exact hg1.same rfl rfl
          · cases e
        · cases e; exact hg1.same rfl rfl

theorem linkPorts_lb {g : PG} {a b r} (h : LB g) (e : g.linkPorts a b = some r) : LB r.2 := by
  unfold PG.linkPorts at e
  split at e
  · cases e; exact h
  · split at e
    · cases e; exact h
    · split at e
      · cases e; exact h
      · split at e
        · cases e
        · cases e; exact h
        · rename_i ha
          split at e
          · cases e
          · cases e; exact h
          · rename_i hb
            cases e
            have la : a < g.portLink.length := (List.getElem?_eq_some_iff.1 ha).1
            have lb : b < g.portLink.length := (List.getElem?_eq_some_iff.1 hb).1
            refine h.mk' (by simp) ?_ fun q hq => Or.inr (Or.inl hq)
            intro q hq
            rcases mem_set hq with h1 | h1
            · rcases mem_set h1 with h1 | h1
              · exact Or.inl h1
              · cases h1; right; right; simpa using lb
            · cases h1; right; right; simpa using la

theorem unlinkPort_lb {g : PG} {p r} (h : LB g) (e : g.unlinkPort p = some r) : LB r.2 := by
  unfold PG.unlinkPort at e
  split at e
  · cases e; exact h
  · split at e
    · cases e
    · cases e; exact h
    · split at e
      · cases e
        refine h.mk' (by simp) ?_ fun q hq => Or.inr (Or.inl hq)
        intro q hq
        rcases mem_set hq with h1 | h1
        · rcases mem_set h1 with h1 | h1
          · exact Or.inl h1
          · cases h1
        · cases h1
      · cases e

theorem dropPorts_lb {g : PG} {l r} (h : LB g) (e : g.dropPorts l = some r) : LB r.1 := by
  induction l generalizing g r with
  | nil => cases e; exact h
  | cons p l ih =>
    simp only [PG.dropPorts] at e
    split at e
    · cases e
    · rename_i old g1 h1
      split at e
      · cases e
      · rename_i g2 tr h2
        cases e
        exact ih (r := (g2, tr)) (unlinkPort_lb h h1) h2

theorem movePort_lb {g g' : PG} {a b} (h : LB g) (e : g.movePort a b = some g') : LB g' := by
  unfold PG.movePort at e
  split at e
  · rename_i l pm hl hpm
    split at e
    · rename_i hb
      have h1 : LB { g with portLink := g.portLink.set b l, portMeta := g.portMeta.set b pm } := by
        refine h.mk' (by simp) ?_ fun q hq => Or.inr (Or.inl hq)
        intro q hq
        rcases mem_set hq with h1 | h1
        · exact Or.inl h1
        · left; rw [h1]; exact List.mem_of_getElem? hl
      simp only at e
      split at e
      · cases e; exact h1
      · split at e
        · cases e
          refine h1.mk' (by simp) ?_ fun q hq => Or.inr (Or.inl hq)
          intro q hq
          rcases mem_set hq with h2 | h2
          · exact Or.inl h2
          · cases h2; right; right; simpa using hb.1
        · cases e
    · cases e
  · cases e

theorem movePorts_lb {g : PG} {l r} (h : LB g) (e : g.movePorts l = some r) : LB r.1 := by
  induction l generalizing g r with
  | nil => cases e; exact h
  | cons p l ih =>
    obtain ⟨a, b⟩ := p
    simp only [PG.movePorts] at e
    split at e
    · cases e
    · rename_i g1 h1
      split at e
      · cases e
      · rename_i g2 tr h2
        cases e
        exact ih (r := (g2, tr)) (movePort_lb h h1) h2

theorem fillNone_lb {g g' : PG} {a k} (h : LB g) (hl : g'.portLink = fill g.portLink a k none)
    (hf : g'.portFree = g.portFree) : LB g' := by
  refine h.mk' (by simp [hl]) ?_ fun q hq => Or.inr (Or.inl (by rwa [hf] at hq))
  intro q hq
  rw [hl] at hq
  rcases mem_fill hq with h1 | h1
  · exact Or.inl h1
  · cases h1

theorem fill3_lb {g g' : PG} {a k a' k' a'' k''} (h : LB g)
    (hl : g'.portLink = fill (fill (fill g.portLink a k none) a' k' none) a'' k'' none)
    (hf : g'.portFree = g.portFree) : LB g' := by
  have h1 : LB { g with portLink := fill g.portLink a k none } := fillNone_lb h rfl rfl
  have h2 : LB { g with portLink := fill (fill g.portLink a k none) a' k' none } := fillNone_lb h1 rfl rfl
  exact fillNone_lb h2 hl hf

theorem resizeInplace_lb {g : PG} {n i o r} (h : LB g) (e : g.resizeInplace n i o = some r) : LB r.1 := by
  unfold PG.resizeInplace at e
  split at e
  · cases e
  · split at e
    · cases e
    · split at e
      · cases e
      · rename_i g1 tr1 h1
        simp only at e
        split at e
        · cases e
        · rename_i g2 tr2 h2
          have hg2 := movePorts_lb (dropPorts_lb h h1) h2
          split at e
          · cases e
            exact fill3_lb hg2 rfl rfl
          · cases e

theorem relocPort_lb {g g' : PG} {a b} (h : LB g) (e : g.relocPort a b = some g') : LB g' := by
  unfold PG.relocPort at e
  split at e
  · cases e
  · rename_i l hl
    split at e
    · cases e
    · rename_i pl hpl
      split at e
      · rename_i l' pm hl' hpm
        split at e
        · rename_i hb
          cases e
          have hlen : pl.length = g.portLink.length ∧ ∀ q, some q ∈ pl → some q ∈ g.portLink ∨ q = b := by
            split at hpl
            · cases hpl; exact ⟨rfl, fun q hq => Or.inl hq⟩
            · unfold vset at hpl
              split at hpl
              · cases hpl
                refine ⟨by simp, fun q hq => ?_⟩
                rcases mem_set hq with h1 | h1
                · exact Or.inl h1
                · cases h1; exact Or.inr rfl
              · cases hpl
          have key : ∀ q, some q ∈ pl → some q ∈ g.portLink ∨ some q ∈ g.portFree ∨
              q < ((pl.set a none).set b l').length := by
            intro q hq
            rcases hlen.2 q hq with h1 | h1
            · exact Or.inl h1
            · right; right; rw [h1]; simpa using hb.1
          refine h.mk' (by simp [hlen.1]) ?_ fun q hq => Or.inr (Or.inl hq)
          intro q hq
          rcases mem_set hq with h1 | h1
          · rcases mem_set h1 with h1 | h1
            · exact key q h1
            · cases h1
          · exact key q (by rw [h1]; exact List.mem_of_getElem? hl')
        · cases e
      · cases e

theorem relocPorts_lb {g : PG} {l r} (h : LB g) (e : g.relocPorts l = some r) : LB r.1 := by
  induction l generalizing g r with
  | nil => cases e; exact h
  | cons p l ih =>
    obtain ⟨a, b⟩ := p
    simp only [PG.relocPorts] at e
    split at e
    · cases e
    · rename_i g1 h1
      split at e
      · cases e
      · rename_i g2 tr h2
        cases e
        exact ih (r := (g2, tr)) (relocPort_lb h h1) h2

theorem setNumPorts_lb {g : PG} {n i o r} (h : LB g) (e : g.setNumPorts n i o = some r) : LB r.1 := by
  unfold PG.setNumPorts at e
  split at e
  · simp only at e
    split at e
    · cases e; exact h
    · split at e
      · cases e; exact h
      · split at e
        · exact resizeInplace_lb h e
        · split at e
          · cases e
          · rename_i g1 tr1 h1
            split at e
            · cases e
            · rename_i nm g2 h2
              split at e
              · cases e
              · rename_i g3 tr2 h3
                have hg3 := relocPorts_lb (allocPorts_lb (dropPorts_lb h h1) h2) h3
                split at e
                · split at e
                  · cases e
                  · rename_i g4 h4
                    have hg4 : LB g4 := by
                      refine freePorts_lb ?_ h4
                      exact hg3.same rfl rfl
                    split at e
                    · cases e; exact hg4.same rfl rfl
                    · cases e
                · cases e
  · cases e

theorem claimPorts_lb {g g' : PG} {n m} (h : LB g) (e : g.claimPorts n m = some g') : LB g' := by
  unfold PG.claimPorts at e
  split at e
  · cases e; exact h.same rfl rfl
  · cases e

theorem compactNodesLoop_lb {g : PG} {old new es r} (h : LB g) (e : g.compactNodesLoop old new es = some r) : LB r.2.1 := by
  induction es generalizing g old new r with
  | nil => cases e; exact h
  | cons x es ih =>
    cases x with
    | free p n => exact ih h e
    | node m =>
      simp only [PG.compactNodesLoop] at e
      split at e
      · cases e
      · rename_i g1 h1
        split at e
        · cases e
        · rename_i k g2 tr h2
          cases e
          exact ih (r := (k, g2, tr)) (claimPorts_lb h h1) h2

theorem compactNodes_lb {g : PG} {r} (h : LB g) (e : g.compactNodes = some r) : LB r.1 := by
  unfold PG.compactNodes at e
  split at e
  · cases e
  · rename_i k g1 tr h1
    cases e
    exact (compactNodesLoop_lb h h1).same rfl rfl

theorem swapClaim_lb {g g' : PG} {n x} (h : LB g) (e : g.swapClaim n x = some g') : LB g' := by
  cases x with
  | free p n => cases e; exact h
  | node m => exact claimPorts_lb h e

theorem swapNodes_lb {g g' : PG} {a b} (h : LB g) (e : g.swapNodes a b = some g') : LB g' := by
  unfold PG.swapNodes at e
  split at e
  · simp only at e
    split at e
    · cases e
    · rename_i g1 h1
      split at e
      · cases e
      · rename_i g2 h2
        have hg1 : LB g1 := by
          refine swapClaim_lb ?_ h1
          exact h.same rfl rfl
        have hg2 : LB g2 := swapClaim_lb hg1 h2
        split at e
        · obtain ⟨l, -, rfl⟩ := Option.map_eq_some_iff.1 e; exact hg2.same rfl rfl
        · obtain ⟨l, -, rfl⟩ := Option.map_eq_some_iff.1 e; exact hg2.same rfl rfl
        · cases e; exact hg2
  · cases e

theorem compactPortsLoop_live {nm old new es r} (e : PG.compactPortsLoop nm old new es = some r) :
    ∀ x ∈ r.1, x ≠ .free := by
  induction es generalizing nm old new r with
  | nil => cases e; intro x hx; cases hx
  | cons y es ih =>
    cases y with
    | free => exact ih e
    | port n d =>
      simp only [PG.compactPortsLoop] at e
      split at e
      · split at e
        · cases e
        · split at e
          · cases e
          · rename_i k nm' tr h2
            cases e
            intro x hx
            rcases List.mem_cons.1 hx with rfl | hx
            · simp
            · exact ih h2 x hx
      · cases e

theorem compactPorts_lb {g : PG} {r} (hi : PG.Inv r.1) (e : g.compactPorts = some r) : LB r.1 := by
  have hlive : (∀ x ∈ r.1.portMeta, x ≠ .free) ∧ r.1.portFree = [] := by
    unfold PG.compactPorts at e
    split at e
    · cases e
    · split at e
      · cases e
      · rename_i k nm tr h2
        cases e
        exact ⟨compactPortsLoop_live h2, rfl⟩
  constructor
  · intro q hq
    obtain ⟨p, hp, e2⟩ := List.mem_iff_getElem.1 hq
    have hlk : r.1.lk p = some q := by
      simp [PG.lk, List.getElem?_eq_getElem hp, e2]
    obtain ⟨own, fs, hs, hfull⟩ := hi.slots
    have hp' : p < r.1.portMeta.length := by rw [← hi.len]; exact hp
    have hne := hlive.1 _ (List.getElem_mem hp')
    obtain ⟨⟨n, d⟩, hpt⟩ : ∃ x, r.1.port? p = some x := by
      cases hm : r.1.portMeta[p] with
      | free => exact absurd hm hne
      | port n d => exact ⟨(n, d), by simp [PG.port?, List.getElem?_eq_getElem hp', hm]⟩
    obtain ⟨-, n', hq'⟩ := hs.links p n d q hpt hlk
    rw [hi.len]
    exact hs.pt_lt hq'
  · rw [hlive.2]; intro q hq; cases hq

theorem reach_lb {maxOff : Nat} (hmax : maxOff ≤ 32767) {g : PG} (h : PG.Reach maxOff g) : LB g := by
  induction h with
  | init => exact ⟨fun q hq => (nomatch hq), fun q hq => (nomatch hq)⟩
  | @step g g' op hr hok e ih =>
    have hinv := (PG.Reach.step hr hok e).inv hmax
    cases op with
    | addNode i o => obtain ⟨r, h1, rfl⟩ := Option.map_eq_some_iff.1 e; exact addNode_lb ih h1
    | removeNode n => exact removeNode_lb ih e
    | linkPorts a b => obtain ⟨r, h1, rfl⟩ := Option.map_eq_some_iff.1 e; exact linkPorts_lb ih h1
    | unlinkPort p => obtain ⟨r, h1, rfl⟩ := Option.map_eq_some_iff.1 e; exact unlinkPort_lb ih h1
    | setNumPorts n i o => obtain ⟨r, h1, rfl⟩ := Option.map_eq_some_iff.1 e; exact setNumPorts_lb ih h1
    | compactNodes => obtain ⟨r, h1, rfl⟩ := Option.map_eq_some_iff.1 e; exact compactNodes_lb ih h1
    | compactPorts => obtain ⟨r, h1, rfl⟩ := Option.map_eq_some_iff.1 e; exact compactPorts_lb hinv h1
    | swapNodes a b => exact swapNodes_lb ih e
    | clear => cases e; exact ⟨fun q hq => (nomatch hq), fun q hq => (nomatch hq)⟩

/-! ## Free nodes -/

theorem dchain_mem {nm : Nat → Option NodeEntry} {l : List Nat} {prev head : Option Nat}
    (h : DChain nm prev head l) : ∀ n ∈ l, ∀ a b, nm n = some (.free a b) →
      (a = prev ∨ ∃ x ∈ l, a = some x) ∧ (b = none ∨ ∃ x ∈ l, b = some x) := by
  induction l generalizing prev head with
  | nil => intro n hn; cases hn
  | cons x xs ih =>
    cases head with
    | none => exact h.elim
    | some f =>
      obtain ⟨rfl, nx, h1, h2⟩ := h
      intro n hn a b hab
      rcases List.mem_cons.1 hn with rfl | hn
      · rw [h1] at hab
        cases hab
        refine ⟨Or.inl rfl, ?_⟩
        cases nx with
        | none => exact Or.inl rfl
        | some y =>
          right
          cases xs with
          | nil => exact h2.elim
          | cons z zs => exact ⟨y, by simp [h2.1], rfl⟩
      · obtain ⟨h3, h4⟩ := ih h2 n hn a b hab
        refine ⟨?_, ?_⟩
        · rcases h3 with h3 | ⟨y, hy, h3⟩
          · exact Or.inr ⟨f, by simp, h3⟩
          · exact Or.inr ⟨y, by simp [hy], h3⟩
        · rcases h4 with h4 | ⟨y, hy, h4⟩
          · exact Or.inl h4
          · exact Or.inr ⟨y, by simp [hy], h4⟩

theorem dchain_head {nm : Nat → Option NodeEntry} {l : List Nat} {prev : Option Nat} {f : Nat}
    (h : DChain nm prev (some f) l) : f ∈ l := by
  cases l with
  | nil => exact h.elim
  | cons x xs => simp [h.1]

/-- The numbers of a graph fit as long as its vectors are short enough. -/
theorem fits_of {g : PG} (hi : PG.Inv g) (hb : LB g)
    (hn : g.nodeMeta.length < 2 ^ 31) (hp : g.portMeta.length ≤ 2 ^ 31) : Fits g := by
  obtain ⟨fn, hN⟩ := hi.nodes
  obtain ⟨own, fs, hP, hfull⟩ := hi.slots
  have hlen := hi.len
  have hfn : ∀ n ∈ fn, n < g.nodeMeta.length := by
    intro n hn
    obtain ⟨a, b, hab⟩ := (hN.exact n).1 hn
    exact (List.getElem?_eq_some_iff.1 hab).1
  constructor
  · intro e he
    obtain ⟨n, hnl, rfl⟩ := List.mem_iff_getElem.1 he
    have hget : g.nodeMeta[n]? = some g.nodeMeta[n] := List.getElem?_eq_getElem hnl
    cases hm : g.nodeMeta[n] with
    | free a b =>
      rw [hm] at hget
      obtain ⟨h1, h2⟩ := dchain_mem hN.chain n ((hN.exact n).2 ⟨a, b, hget⟩) a b hget
      constructor
      · intro i hi'
        rcases h1 with h1 | ⟨x, hx, h1⟩
        · rw [h1] at hi'; cases hi'
        · rw [h1] at hi'; cases hi'; have := hfn _ hx; omega
      · intro i hi'
        rcases h2 with h2 | ⟨x, hx, h2⟩
        · rw [h2] at hi'; cases hi'
        · rw [h2] at hi'; cases hi'; have := hfn _ hx; omega
    | node m =>
      rw [hm] at hget
      have hnd : g.node? n = some m := by simp [PG.node?, hget]
      obtain ⟨b1, b2, b3, b4, b5⟩ := hP.bound n m hnd
      refine ⟨?_, b4, by omega, b5⟩
      rcases Nat.eq_zero_or_pos m.capacity with h0 | h0
      · rw [b3 h0]; decide
      · omega
  · intro o ho i hi'
    subst hi'
    have := hb.link i ho
    omega
  · intro e he
    obtain ⟨p, hpl, rfl⟩ := List.mem_iff_getElem.1 he
    cases hm : g.portMeta[p] with
    | free => trivial
    | port n d =>
      have hpt : g.port? p = some (n, d) := by simp [PG.port?, List.getElem?_eq_getElem hpl, hm]
      obtain ⟨m, hnd, -⟩ := (hP.ports p n d).1 hpt
      have : n < g.nodeMeta.length := by
        unfold PG.node? at hnd
        split at hnd
        · rename_i hg; exact (List.getElem?_eq_some_iff.1 hg).1
        · cases hnd
      show n < 2 ^ 31 - 1
      omega
  · intro i hi'
    have h1 := hN.chain
    rw [hi'] at h1
    have := hfn _ (dchain_head h1)
    omega
  · intro o ho i hi'
    subst hi'
    have := hb.head i ho
    omega
  · rw [hN.count]
    exact Nat.lt_of_le_of_lt (cnt_le _ _) (by omega)
  · rw [hi.portCount]
    exact Nat.lt_of_le_of_lt (cnt_le _ _) (by omega)
  · rw [hi.outCount]
    exact Nat.lt_of_le_of_lt (cnt_le _ _) (by omega)

end Verif.Serde
