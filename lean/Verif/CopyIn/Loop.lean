import Verif.CopyIn.Spec
import Mathlib.Data.List.Nodup
import Mathlib.Data.List.Perm.Subperm
import Mathlib.Data.List.Forall2

/-!
# Copying, for any underlying graph that keeps the laws of a port graph
-/

namespace Verif.CopyIn

open Verif (Direction)
open Verif.PG Verif.Multi

variable {S E : Type}

/-- What is used of the underlying graph. `cap s r`: there is room for `r` more links. `single`:
a port has one link. -/
structure Law (H : Host S E) (Good : S → Prop) (obs : S → GObs E) (cap : S → Nat → Prop) (single : Prop)
    (maxOff : Nat) : Prop where
  pos_fun : ∀ s, Good s → ∀ p e f, (obs s).pos p e → (obs s).pos p f → e = f
  pos_one : ∀ s, Good s → ∀ p q e, (obs s).pos p e → (obs s).pos q e → p = q
  pos_node : ∀ s, Good s → ∀ p e, (obs s).pos p e → (obs s).node e.1
  link_sym : ∀ s, Good s → ∀ e f, (obs s).link e f → (obs s).link f e
  link_one : ∀ s, Good s → ∀ e f f', (obs s).link e f → (obs s).link e f' → f = f'
  link_port : ∀ s, Good s → ∀ e f, (obs s).link e f → ∃ x, (obs s).pos (H.toPort e) x
  link_dir : ∀ s, Good s → ∀ e f x y, (obs s).link e f → (obs s).pos (H.toPort e) x → (obs s).pos (H.toPort f) y → x.2.1 ≠ y.2.1
  num : ∀ s, Good s → ∀ n, (obs s).node n → ∀ d j, (∃ p, (obs s).pos p (n, d, j)) ↔ j < H.numPorts s n d
  offset : ∀ s, Good s → ∀ p n d k, (obs s).pos p (n, d, k) → H.portOffset s p = some (some (d, k)) ∧ H.portNode s p = some n
  index : ∀ s, Good s → ∀ p n d k, (obs s).pos p (n, d, k) → H.portIndex s n d k = some p
  all : ∀ s, Good s → ∀ n, (obs s).node n → ∃ L, H.allLinks s n = some L ∧ L.Nodup ∧ ∀ e f, (e, f) ∈ L ↔
    (obs s).link e f ∧ (obs s).On H.toPort e n ∧ ¬ ∃ k, (obs s).pos (H.toPort f) (n, .outgoing, k)
  add : ∀ s, Good s → ∀ r, cap s r → ∀ i o, i ≤ maxOff → o ≤ maxOff → ∃ n s', H.addNode s i o = some (n, s') ∧ Good s' ∧ cap s' r ∧
    ¬ (obs s).node n ∧ (∀ x, (obs s').node x ↔ x = n ∨ (obs s).node x) ∧
    (∀ p e, e.1 ≠ n → ((obs s').pos p e ↔ (obs s).pos p e)) ∧
    (∀ j, (∃ p, (obs s').pos p (n, .incoming, j)) ↔ j < i) ∧ (∀ j, (∃ p, (obs s').pos p (n, .outgoing, j)) ↔ j < o) ∧
    ∀ e f, (obs s').link e f ↔ (obs s).link e f
  link_ok : ∀ s, Good s → ∀ r, cap s (r + 1) → ∀ a b x y, (obs s).pos a x → (obs s).pos b y → x.2.1 ≠ y.2.1 →
    (single → (∀ e z, H.toPort e = a → ¬ (obs s).link e z) ∧ ∀ e z, H.toPort e = b → ¬ (obs s).link e z) →
    ∃ e f s', H.linkPorts s a b = some (.ok (e, f), s') ∧ Good s' ∧ cap s' r ∧ H.toPort e = a ∧ H.toPort f = b ∧
      (∀ x, (obs s').node x ↔ (obs s).node x) ∧ (∀ p e, (obs s').pos p e ↔ (obs s).pos p e) ∧
      (∀ z, ¬ (obs s).link e z) ∧ (∀ z, ¬ (obs s).link f z) ∧
      ∀ z w, (obs s').link z w ↔ (obs s).link z w ∨ (z = e ∧ w = f) ∨ (z = f ∧ w = e)
  link_err : single → ∀ s, Good s → ∀ a b x y, (obs s).pos a x → (obs s).pos b y → x.2.1 ≠ y.2.1 →
    (∀ e z, H.toPort e = a → ¬ (obs s).link e z) → (∃ e z, H.toPort e = b ∧ (obs s).link e z) →
    H.linkPorts s a b = some (.error (.alreadyLinked b), s)
  single_inj : single → ∀ e f, H.toPort e = H.toPort f → e = f
  remove : ∀ s, Good s → ∀ n, (obs s).node n → ∃ s', H.removeNode s n = some s' ∧ Good s' ∧
    (∀ x, (obs s').node x ↔ (obs s).node x ∧ x ≠ n) ∧ (∀ p e, (obs s').pos p e ↔ (obs s).pos p e ∧ e.1 ≠ n) ∧
    ∀ e f, (obs s').link e f ↔ (obs s).link e f ∧ (∀ x, (obs s).pos (H.toPort e) x → x.1 ≠ n) ∧
      ∀ x, (obs s).pos (H.toPort f) x → x.1 ≠ n

variable {H : Host S E} {Good : S → Prop} {obs : S → GObs E} {cap : S → Nat → Prop} {single : Prop} {maxOff : Nat}

/-- The new nodes are there, without links. -/
structure Added (o o1 : GObs E) (nodes : List Nat) (M : List (Nat × Nat)) : Prop where
  keys : M.map (·.1) = nodes
  nodup : (M.map (·.2)).Nodup
  fresh : ∀ x ∈ M.map (·.2), ¬ o.node x
  node : ∀ x, o1.node x ↔ o.node x ∨ x ∈ M.map (·.2)
  pos_old : ∀ p e, e.1 ∉ M.map (·.2) → (o1.pos p e ↔ o.pos p e)
  pos_new : ∀ n n', (n, n') ∈ M → ∀ d k, (∃ p, o1.pos p (n', d, k)) ↔ ∃ p, o.pos p (n, d, k)
  link : ∀ e f, o1.link e f ↔ o.link e f

theorem lt_iff_eq {a b : Nat} (h : ∀ j, j < a ↔ j < b) : a = b := by
  have h1 := h a
  have h2 := h b
  omega

theorem addCopies_ok (L : Law H Good obs cap single maxOff) {r : Nat} : ∀ (nodes : List Nat) (s : S), Good s → cap s r →
    nodes.Nodup → (∀ n ∈ nodes, (obs s).node n) → (∀ n ∈ nodes, ∀ d, H.numPorts s n d ≤ maxOff) →
    ∃ M s1, addCopies H nodes s = some (M, s1) ∧ Good s1 ∧ cap s1 r ∧ Added (obs s) (obs s1) nodes M
  | [], s, hg, hc, _, _, _ => ⟨[], s, rfl, hg, hc, rfl, by simp, by simp, by simp, fun _ _ _ => Iff.rfl, by simp, fun _ _ => Iff.rfl⟩
  | n :: ns, s, hg, hc, hnd, hin, hle => by
    rw [List.nodup_cons] at hnd
    obtain ⟨n', s', h1, h2, h3, h4, h5, h6, h7, h8, h9⟩ := L.add s hg r hc _ _ (hle n (by simp) .incoming) (hle n (by simp) .outgoing)
    have hne : ∀ x, (obs s).node x → x ≠ n' := by rintro x hx rfl; exact h4 hx
    have hnum : ∀ x, (obs s).node x → ∀ d, H.numPorts s' x d = H.numPorts s x d := by
      intro x hx d
      apply lt_iff_eq
      intro j
      rw [← L.num s' h2 x ((h5 x).2 (.inr hx)), ← L.num s hg x hx]
      exact exists_congr fun p => h6 p _ (hne x hx)
    obtain ⟨M, s1, a1, a2, a3, A⟩ := addCopies_ok L ns s' h2 h3 hnd.2 (fun x hx => (h5 x).2 (.inr (hin x (List.mem_cons_of_mem _ hx))))
      (fun x hx d => by rw [hnum x (hin x (List.mem_cons_of_mem _ hx))]; exact hle x (List.mem_cons_of_mem _ hx) d)
    have hn'M : n' ∉ M.map (·.2) := fun hm => A.fresh _ hm ((h5 n').2 (.inl rfl))
    refine ⟨(n, n') :: M, s1, by simp [addCopies, h1, a1], a2, a3, ?_, ?_, ?_, ?_, ?_, ?_, ?_⟩
    · simp [A.keys]
    · simp only [List.map_cons, List.nodup_cons]; exact ⟨hn'M, A.nodup⟩
    · simp only [List.map_cons, List.mem_cons]
      rintro x (rfl | hx) hxo
      · exact h4 hxo
      · exact A.fresh x hx ((h5 x).2 (.inr hxo))
    · intro x
      rw [A.node, h5]
      simp only [List.map_cons, List.mem_cons]
      tauto
    · intro p e he
      simp only [List.map_cons, List.mem_cons, not_or] at he
      rw [A.pos_old p e he.2, h6 p e he.1]
    · intro x x' hx d k
      rw [List.mem_cons] at hx
      rcases hx with hx | hx
      · cases hx
        rw [exists_congr fun p => A.pos_old p (n', d, k) hn'M, L.num s hg n (hin n (by simp))]
        cases d
        · exact h7 k
        · exact h8 k
      · rw [A.pos_new x x' hx d k]
        refine exists_congr fun p => h6 p _ (hne x (hin x ?_))
        rw [List.mem_cons, ← A.keys]
        exact .inr (List.mem_map.2 ⟨_, hx, rfl⟩)
    · intro e f
      rw [A.link, h9]

/-! ## The links to copy -/

section
variable {tp : E → Nat} {o : GObs E} {M : List (Nat × Nat)}

/-- The link is copied when its first end is reached: not if the other end is at a copied node
whose copy has a smaller index. -/
def Keep (tp : E → Nat) (o : GObs E) (M : List (Nat × Nat)) (n' : Nat) (f : E) : Prop :=
  ∀ m m', (m, m') ∈ M → o.On tp f m → ¬ m' < n'

/-- The orientations that are copied. -/
def Kept (tp : E → Nat) (o : GObs E) (M : List (Nat × Nat)) (e f : E) : Prop :=
  o.link e f ∧ ∃ n n', (n, n') ∈ M ∧ o.On tp e n ∧ Keep tp o M n' f ∧ ¬ ∃ k, o.pos (tp f) (n, .outgoing, k)

end

theorem lookup_iff {M : List (Nat × Nat)} (h : (M.map (·.1)).Nodup) {n n' : Nat} : M.lookup n = some n' ↔ (n, n') ∈ M := by
  induction M with
  | nil => simp
  | cons x M ih =>
    obtain ⟨a, b⟩ := x
    simp only [List.map_cons, List.nodup_cons] at h
    rw [List.lookup_cons]
    by_cases hn : n = a
    · subst hn
      simp only [beq_self_eq_true, Option.some.injEq, List.mem_cons, Prod.mk.injEq, true_and]
      constructor
      · intro h; exact .inl h.symm
      · rintro (h1 | h1)
        · exact h1.symm
        · exact absurd (List.mem_map.2 ⟨_, h1, rfl⟩) h.1
    · have : (n == a) = false := by simpa using hn
      simp [this, ih h.2, hn]

theorem key_fun {M : List (Nat × Nat)} (h : (M.map (·.1)).Nodup) {n a b : Nat} (ha : (n, a) ∈ M) (hb : (n, b) ∈ M) : a = b := by
  rw [← lookup_iff h] at ha hb
  rw [ha] at hb; cases hb; rfl

theorem val_fun {M : List (Nat × Nat)} (h : (M.map (·.2)).Nodup) {n a b : Nat} (ha : (a, n) ∈ M) (hb : (b, n) ∈ M) : a = b := by
  have := List.inj_on_of_nodup_map h ha hb rfl
  cases this; rfl

/-- The state during the loop: `T` are the links copied so far and `N` the new links. -/
structure Mid (L : Law H Good obs cap single maxOff) (o o1 : GObs E) (M : List (Nat × Nat)) (R : Nat) (s : S)
    (T N : List (E × E)) : Prop where
  good : Good s
  cap : ∀ r, T.length + r ≤ R → cap s r
  node : ∀ x, (obs s).node x ↔ o1.node x
  pos : ∀ p e, (obs s).pos p e ↔ o1.pos p e
  nodup : T.Nodup
  kept : ∀ e f, (e, f) ∈ T → Kept H.toPort o M e f
  corr : List.Forall₂ (fun t u => Place o o1 M (H.toPort t.1) (H.toPort u.1) ∧ Place o o1 M (H.toPort t.2) (H.toPort u.2)) T N
  ends : (N.map (·.1) ++ N.map (·.2)).Nodup
  new : ∀ e f, (e, f) ∈ N → (∀ z, ¬ o.link e z) ∧ ∀ z, ¬ o.link f z
  link : ∀ z w, (obs s).link z w ↔ o.link z w ∨ (z, w) ∈ N ∨ (w, z) ∈ N

end Verif.CopyIn
