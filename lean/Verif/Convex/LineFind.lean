import Verif.Convex.LineModel
import Verif.Convex.Spec

/-!
# Line partitions
-/

namespace Verif.Convex

open Verif (Direction)
open Verif.Algo

namespace Line

/-- What the construction establishes: the lines are edge-disjoint paths covering the links `R`
of the nodes `V`, and positions increase along links. -/
structure Part (c : Line) (R : Nat → Nat → Prop) (V : Nat → Prop) : Prop where
  chain : ∀ (l : Nat) (line : List Nat), c.lines[l]? = some line → line.IsChain R
  mem : ∀ (l : Nat) (line : List Nat) n, c.lines[l]? = some line → (n ∈ line ↔ l ∈ c.getLines n)
  valid : ∀ n l, l ∈ c.getLines n → l < c.lines.length
  fwd : ∀ a b, R a b → c.getPos a < c.getPos b
  arc : ∀ a b, R a b → ∃ (l : Nat) (u v : List Nat), c.lines[l]? = some (u ++ a :: b :: v)
  some_line : ∀ n, V n → c.getLines n ≠ []
  nodup : ∀ n, (c.getLines n).Nodup
  live : ∀ a b, R a b → V a ∧ V b
  nodes : ∀ n, n ∈ c.graph.nodes ↔ V n
  neighbours : ∀ a, V a → ∀ b, b ∈ neighbours c.graph a .outgoing ↔ R a b

variable {c : Line} {R : Nat → Nat → Prop} {V : Nat → Prop}

theorem Part.le (h : Part c R V) {a b} (hp : Relation.ReflTransGen R a b) : c.getPos a ≤ c.getPos b := by
  induction hp with
  | refl => exact Nat.le_refl _
  | tail _ h' ih => have := h.fwd _ _ h'; omega

theorem chain_pairwise {R' : Nat → Nat → Prop} (htr : ∀ a b d, R' a b → R' b d → R' a d) {l : List Nat}
    (h : l.IsChain R') : l.Pairwise R' := by
  induction l with
  | nil => exact .nil
  | cons a l ih =>
    cases l with
    | nil => simp
    | cons b l =>
      rw [List.isChain_cons_cons] at h
      have ih := ih h.2
      refine List.pairwise_cons.2 ⟨?_, ih⟩
      intro x hx
      rcases List.mem_cons.1 hx with hx | hx
      · exact hx ▸ h.1
      · exact htr _ _ _ h.1 ((List.pairwise_cons.1 ih).1 x hx)

theorem Part.inc (h : Part c R V) {l : Nat} {line : List Nat} (hl : c.lines[l]? = some line) :
    line.Pairwise fun a b => c.getPos a < c.getPos b :=
  chain_pairwise (R' := fun a b => c.getPos a < c.getPos b) (fun _ _ _ => Nat.lt_trans) ((h.chain l line hl).imp fun {a b} hab => h.fwd a b hab)

theorem Part.path (h : Part c R V) {l : Nat} {line : List Nat} (hl : c.lines[l]? = some line) :
    line.Pairwise (Relation.TransGen R) :=
  chain_pairwise (fun _ _ _ => Relation.TransGen.trans) ((h.chain l line hl).imp fun {_ _} hab => .single hab)

theorem inc_lt {line : List Nat} {p : Nat → Nat} (h : line.Pairwise fun a b => p a < p b) {i j : Nat} {a b : Nat}
    (ha : line[i]? = some a) (hb : line[j]? = some b) : (p a < p b ↔ i < j) ∧ (p a = p b ↔ i = j) := by
  obtain ⟨hi, rfl⟩ := List.getElem?_eq_some_iff.1 ha
  obtain ⟨hj, rfl⟩ := List.getElem?_eq_some_iff.1 hb
  have h' := List.pairwise_iff_getElem.1 h
  rcases Nat.lt_trichotomy i j with hij | hij | hij
  · have := h' i j hi hj hij; omega
  · subst hij; omega
  · have := h' j i hj hi hij; omega

theorem findLoop_ok {guess : Nat → Nat → Nat} (hg : ∀ low high, low < high → low ≤ guess low high ∧ guess low high ≤ high)
    {line : List Nat} (hinc : line.Pairwise fun a b => c.getPos a < c.getPos b) {i n : Nat} (hi : line[i]? = some n)
    {f low high : Nat} (hl : low < i) (hh : i < high) (hlen : high < line.length) (hf : high - low < f) :
    findLoop c guess line (c.getPos n) f low high = some (some i) := by
  induction f generalizing low high with
  | zero => omega
  | succ f ih =>
    obtain ⟨h1, h2⟩ := hg low high (by omega)
    simp only [findLoop]
    generalize e : (if guess low high = low then guess low high + 1
      else if guess low high = high then guess low high - 1 else guess low high) = g
    have hgl : low < g ∧ g < high := by
      subst e
      split
      · omega
      · split <;> omega
    have hgg : line[g]? = some line[g] := List.getElem?_eq_getElem (by omega)
    rw [hgg]
    simp only
    have := inc_lt hinc hgg hi
    split
    · rename_i he; rw [this.2.1 he]
    · rename_i hne
      split
      · rename_i hlt
        exact ih (this.1.1 hlt) hh hlen (by omega)
      · rename_i hnlt
        have := inc_lt hinc hi hgg
        exact ih hl (this.1.1 (by omega)) (by omega) (by omega)

theorem findIndex_ok {guess : Guess} (hg : guess.OK) {l : Nat} {line : List Nat} (hl : c.lines[l]? = some line)
    (hinc : line.Pairwise fun a b => c.getPos a < c.getPos b) {i n : Nat} (hi : line[i]? = some n) :
    c.findIndex guess l (c.getPos n) = some (some i) := by
  have hil : i < line.length := (List.getElem?_eq_some_iff.1 hi).1
  have h0 : line[0]? = some line[0] := List.getElem?_eq_getElem (by omega)
  have hn : line[line.length - 1]? = some line[line.length - 1] := List.getElem?_eq_getElem (by omega)
  simp only [findIndex, hl, List.head?_eq_getElem?, List.getLast?_eq_getElem?, h0, hn]
  have e0 := inc_lt hinc h0 hi
  have e0' := inc_lt hinc hi h0
  have en := inc_lt hinc hn hi
  have en' := inc_lt hinc hi hn
  split
  · rename_i he; rw [← e0.2.1 he]
  · rename_i hne0
    split
    · rename_i he; rw [← en.2.1 he]
    · rename_i hnen
      rw [if_neg]
      · have hi0 : i ≠ 0 := fun h => hne0 (e0.2.2 h.symm)
        have hin : i ≠ line.length - 1 := fun h => hnen (en.2.2 h.symm)
        exact findLoop_ok (hg l _) hinc hi (by omega) (by omega) (by omega) (by omega)
      · simp only [Bool.or_eq_true, decide_eq_true_eq, not_or]
        rw [e0'.1, en.1]
        omega

end Line

end Verif.Convex
