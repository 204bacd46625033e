import Verif.Algo.View
import Mathlib.Data.Fintype.Card
import Mathlib.Data.Fintype.Sets
import Mathlib.Data.Fintype.EquivFin
import Mathlib.Logic.Relation

/-!
# Orders of nodes

The notions in which the properties of the traversals are stated.
-/

namespace Verif.Algo

open Verif (Direction)
open Verif.PG

/-- `m` stands before `n` in `l`. -/
def Before (l : List Nat) (m n : Nat) : Prop := ∃ a b, l = a ++ n :: b ∧ m ∈ a

/-- No directed cycle. -/
def Acyclic (R : Nat → Nat → Prop) : Prop := ∀ n, ¬ Relation.TransGen R n n

/-- Node `m` has a link from one of its `d` ports to a port of `n`, in a view. -/
def VArc (G : View) (d : Direction) (m n : Nat) : Prop :=
  ∃ p ∈ G.ports m d, ∃ q ∈ G.links p, q ∈ G.ports n d.reverse

theorem varc_iff {g : PG} (hI : Inv g) {d m n} : VArc (ofPG g) d m n ↔ Arc g d m n := by
  unfold Arc
  constructor
  · rintro ⟨p, hp, q, hq, hqn⟩
    have hp' := (ports_port hI).1 hp
    rw [ofPG_links hI (by simp [hp'])] at hq
    obtain ⟨j, hj⟩ := mem_ports.1 hp
    obtain ⟨k, hk⟩ := mem_ports.1 hqn
    exact ⟨j, k, (abs_link hI).2 ⟨p, q, hj, hq, hk⟩⟩
  · rintro ⟨j, k, h⟩
    obtain ⟨p, q, hj, hq, hk⟩ := (abs_link hI).1 h
    refine ⟨p, mem_ports.2 ⟨j, hj⟩, q, ?_, mem_ports.2 ⟨k, hk⟩⟩
    rw [ofPG_links hI (by simp [hj.port hI])]
    exact hq

theorem varc_nodes {G : View} (hG : G.WF) {d m n} (h : VArc G d m n) : m ∈ G.nodes ∧ n ∈ G.nodes := by
  obtain ⟨p, hp, q, hq, hn⟩ := h
  exact ⟨(hG.ports_node _ _ _ hp).2.1, (hG.ports_node _ _ _ hn).2.1⟩

/-- In a finite set without cycles, a node which has a predecessor in `P` whenever it is in `P`
cannot exist. -/
theorem no_descent {R : Nat → Nat → Prop} (hac : Acyclic R) (nodes : List Nat) (P : Nat → Prop)
    (hP : ∀ n, P n → n ∈ nodes ∧ ∃ m, R m n ∧ P m) : ∀ n, ¬ P n := by
  let α := {x : Nat // x ∈ nodes}
  have : Finite α := inferInstanceAs (Finite {x // x ∈ nodes})
  let r : α → α → Prop := fun x y => Relation.TransGen R x.1 y.1
  haveI : IsTrans α r := ⟨fun a b c h1 h2 => h1.trans h2⟩
  haveI : Std.Irrefl r := ⟨fun a h => hac a.1 h⟩
  have wf := Finite.wellFounded_of_trans_of_irrefl r
  have key : ∀ x : α, ¬ P x.1 := by
    intro x
    induction x using wf.induction with
    | _ x ih =>
      intro hx
      obtain ⟨_, m, hm, hPm⟩ := hP _ hx
      exact ih ⟨m, (hP m hPm).1⟩ (Relation.TransGen.single hm) hPm
  intro n hn
  exact key ⟨n, (hP n hn).1⟩ hn

theorem before_index {l : List Nat} {m n : Nat} (h : Before l m n) : m ∈ l ∧ n ∈ l := by
  obtain ⟨a, b, rfl, h⟩ := h
  simp [h]

end Verif.Algo
