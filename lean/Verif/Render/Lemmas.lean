import Verif.Render.Spec
import Verif.View.Lemmas
import Verif.Lca.Query
import Mathlib.Data.List.Induction

/-!
# The exploration of the forest
-/

namespace Verif.Render

open Verif (Direction)
open Verif.View Verif.Hier

variable {E : Type}

/-! ## Statements -/

theorem split_snoc {α : Type} {pre before after : List α} {s x : α} (h : pre ++ [s] = before ++ x :: after) :
    (before = pre ∧ x = s ∧ after = []) ∨ ∃ after', after = after' ++ [s] ∧ pre = before ++ x :: after' := by
  rcases List.eq_nil_or_concat after with rfl | ⟨l, y, rfl⟩
  · left
    have h1 := List.append_inj_left' h rfl
    have h2 := List.append_inj_right' h rfl
    simp only [List.cons.injEq, and_true] at h2
    exact ⟨h1.symm, h2.symm, rfl⟩
  · right
    rw [List.concat_eq_append] at h
    have h' : pre ++ [s] = (before ++ x :: l) ++ [y] := by simpa using h
    have h1 := List.append_inj_left' h' rfl
    have h2 := List.append_inj_right' h' rfl
    simp only [List.cons.injEq, and_true] at h2
    exact ⟨l, by rw [List.concat_eq_append, h2], h1⟩

theorem drawn_append (a b : List (Stmt E)) : drawn (a ++ b) = drawn a ++ drawn b := List.filterMap_append
theorem arrows_append (a b : List (Stmt E)) : arrows (a ++ b) = arrows a ++ arrows b := List.filterMap_append

theorem drawn_links (as : List (Arrow E)) : drawn (as.map Stmt.link) = [] := by
  induction as with
  | nil => rfl
  | cons a as ih => simpa [drawn] using ih

theorem arrows_links (as : List (Arrow E)) : arrows (as.map Stmt.link) = as := by
  induction as with
  | nil => rfl
  | cons a as ih => simpa [arrows] using ih

theorem blocks_append (a b : List (Stmt E)) (o : Option (List Nat)) : blocks (a ++ b) o = blocks b (blocks a o) := by
  induction a generalizing o with
  | nil => rfl
  | cons s a ih => cases s <;> simp [blocks, ih]

theorem blocks_links (as : List (Arrow E)) (o : Option (List Nat)) : blocks (as.map Stmt.link) o = o := by
  induction as with
  | nil => rfl
  | cons a as ih => simpa [blocks] using ih

/-! ## The map of links -/

theorem push_perm (es : Pending E) (k : Option Nat) (a : Arrow E) :
    ((es.push k a).flatMap (·.2)).Perm (es.flatMap (·.2) ++ [a]) := by
  induction es with
  | nil => simp [Pending.push]
  | cons x es ih =>
    obtain ⟨k', as⟩ := x
    unfold Pending.push
    split
    · simp only [List.flatMap_cons, List.append_assoc]
      exact List.Perm.append_left _ List.perm_append_comm
    · simp only [List.flatMap_cons, List.append_assoc]
      exact List.Perm.append_left _ ih

theorem mem_push {es : Pending E} {k : Option Nat} {a : Arrow E} {k' : Option Nat} {as : List (Arrow E)} {b : Arrow E}
    (h : (k', as) ∈ es.push k a) (hb : b ∈ as) : (k' = k ∧ b = a) ∨ ∃ as', (k', as') ∈ es ∧ b ∈ as' := by
  induction es with
  | nil =>
    simp only [Pending.push, List.mem_singleton, Prod.mk.injEq] at h
    obtain ⟨rfl, rfl⟩ := h
    exact .inl ⟨rfl, by simpa using hb⟩
  | cons x es ih =>
    obtain ⟨k0, as0⟩ := x
    unfold Pending.push at h
    split at h
    · rename_i hk
      rcases List.mem_cons.1 h with h | h
      · cases h
        rcases List.mem_append.1 hb with hb | hb
        · exact .inr ⟨as0, by simp, hb⟩
        · exact .inl ⟨hk, by simpa using hb⟩
      · exact .inr ⟨as, List.mem_cons_of_mem _ h, hb⟩
    · rcases List.mem_cons.1 h with h | h
      · cases h
        exact .inr ⟨as, by simp, hb⟩
      · rcases ih h with h | ⟨as', h, h'⟩
        · exact .inl h
        · exact .inr ⟨as', List.mem_cons_of_mem _ h, h'⟩

theorem remove_perm (es : Pending E) (k : Option Nat) :
    ((es.remove k).1 ++ (es.remove k).2.flatMap (·.2)).Perm (es.flatMap (·.2)) := by
  induction es with
  | nil => simp [Pending.remove]
  | cons x es ih =>
    obtain ⟨k', as⟩ := x
    unfold Pending.remove
    split
    · simp
    · simp only [List.flatMap_cons]
      refine List.Perm.trans ?_ (List.Perm.append_left as ih)
      rw [← List.append_assoc, ← List.append_assoc]
      exact List.Perm.append_right _ List.perm_append_comm

theorem mem_remove_fst {es : Pending E} {k : Option Nat} {b : Arrow E} (hb : b ∈ (es.remove k).1) :
    ∃ as, (k, as) ∈ es ∧ b ∈ as := by
  induction es with
  | nil => simp [Pending.remove] at hb
  | cons x es ih =>
    obtain ⟨k', as⟩ := x
    unfold Pending.remove at hb
    split at hb
    · rename_i h
      subst h
      exact ⟨as, by simp, hb⟩
    · obtain ⟨as', h1, h2⟩ := ih hb
      exact ⟨as', List.mem_cons_of_mem _ h1, h2⟩

theorem mem_remove_snd {es : Pending E} {k : Option Nat} {x} (h : x ∈ (es.remove k).2) : x ∈ es := by
  induction es with
  | nil => simp [Pending.remove] at h
  | cons y es ih =>
    obtain ⟨k', as⟩ := y
    unfold Pending.remove at h
    split at h
    · exact List.mem_cons_of_mem _ h
    · rcases List.mem_cons.1 h with h | h
      · rw [h]; simp
      · exact List.mem_cons_of_mem _ (ih h)

/-! ## The context -/

/-- The assumptions: a forest `K` on the view, with the answers of the tree. -/
structure Ctx (G : GView E) (T : Tree) (K : Kids) (par : Nat → Option Nat) (H : Nat) : Prop where
  ok : G.Ok
  tree : Lca.Tree K par H
  kids : T.kids = K
  leaf : ∀ n, T.isLeaf n = true ↔ K n = []
  root : ∀ n, T.isRoot n = true ↔ (par n).filter G.containsNode = none
  closed : ∀ n, G.containsNode n = true → ∀ c ∈ K n, G.containsNode c = true
  lca : ∀ a b, (T.lca a b).isSome = true

/-- The arrows of the links that start at a node. -/
def outArrows (G : GView E) (n : Nat) : List (Arrow E) :=
  (G.links n .outgoing).filterMap fun l => (G.portNode (G.toPort l.2)).map fun b => ⟨n, l.1, b, l.2⟩

variable {G : GView E} {T : Tree} {K : Kids} {par : Nat → Option Nat} {H : Nat}

theorem mem_outArrows (ok : G.Ok) {n : Nat} {a : Arrow E} : a ∈ outArrows G n ↔ IsArrow G a ∧ a.srcNode = n := by
  unfold outArrows
  rw [List.mem_filterMap]
  constructor
  · rintro ⟨⟨e, f⟩, h1, h2⟩
    obtain ⟨b, h3, rfl⟩ := Option.map_eq_some_iff.1 h2
    obtain ⟨h4, h5, h6⟩ := ok.mem_links.1 h1
    exact ⟨⟨h4, h6, h5, h3⟩, rfl⟩
  · rintro ⟨⟨h1, h2, h3, h4⟩, rfl⟩
    refine ⟨(a.src, a.tgt), ok.mem_links.2 ⟨h1, h3, h2⟩, ?_⟩
    have h4 : G.portNode (G.toPort a.tgt) = some a.tgtNode := h4
    simp [h4]

theorem outArrows_nodup (ok : G.Ok) (n : Nat) : (outArrows G n).Nodup := by
  apply List.Nodup.filterMap _ (ok.links_nodup' n _)
  rintro ⟨e, f⟩ ⟨e', f'⟩ x h1 h2
  simp only [Option.mem_def, Option.map_eq_some_iff] at h1 h2
  obtain ⟨b, -, rfl⟩ := h1
  obtain ⟨b', -, h⟩ := h2
  cases h
  rfl

theorem pushLinks_ok (ok : G.Ok) (hl : ∀ a b, (T.lca a b).isSome = true) {n : Nat} :
    ∀ (ls : List (E × E)) (es : Pending E), (∀ l ∈ ls, G.Shows l.1 l.2 ∧ G.portNode (G.toPort l.1) = some n) →
    ∃ es', pushLinks G T ls es = some es' ∧
      (es'.flatMap (·.2)).Perm (es.flatMap (·.2) ++ ls.filterMap fun l => (G.portNode (G.toPort l.2)).map fun b => ⟨n, l.1, b, l.2⟩) ∧
      ∀ k as a, (k, as) ∈ es' → a ∈ as → (∃ as', (k, as') ∈ es ∧ a ∈ as') ∨
        (T.lca a.srcNode a.tgtNode = some k ∧ a ∈ ls.filterMap fun l => (G.portNode (G.toPort l.2)).map fun b => ⟨n, l.1, b, l.2⟩) := by
  intro ls
  induction ls with
  | nil => intro es _; exact ⟨es, rfl, by simp, fun k as a h h' => .inl ⟨as, h, h'⟩⟩
  | cons l ls ih =>
    intro es h
    obtain ⟨e, f⟩ := l
    obtain ⟨h1, h2⟩ := h (e, f) (by simp)
    obtain ⟨_, _, b, -, -, -, h3, -⟩ := ok.shows_dir _ _ h1
    have h3 : G.portNode (G.toPort f) = some b := h3
    obtain ⟨k, hk⟩ := Option.isSome_iff_exists.1 (hl n b)
    obtain ⟨es', h4, h5, h6⟩ := ih (es.push k ⟨n, e, b, f⟩) fun l hl => h l (List.mem_cons_of_mem _ hl)
    simp only at h2
    refine ⟨es', ?_, ?_, ?_⟩
    · simp only [pushLinks, h2, h3, hk]
      exact h4
    · refine h5.trans ?_
      simp only [List.filterMap_cons, h3, Option.map_some]
      refine ((push_perm es k _).append_right _).trans ?_
      simp
    · intro k' as a ha ha'
      simp only [List.filterMap_cons, h3, Option.map_some]
      rcases h6 k' as a ha ha' with ⟨as', h7, h8⟩ | ⟨h7, h8⟩
      · rcases mem_push h7 h8 with ⟨rfl, rfl⟩ | h9
        · exact .inr ⟨hk, by simp⟩
        · exact .inl h9
      · exact .inr ⟨h7, List.mem_cons_of_mem _ h8⟩

theorem arrow_nodes (ok : G.Ok) {a : Arrow E} (h : IsArrow G a) :
    G.containsNode a.srcNode = true ∧ G.containsNode a.tgtNode = true := by
  obtain ⟨n, -, m, h1, -, h2, h3, -, h4⟩ := ok.shows_dir _ _ h.1
  have e1 : some n = some a.srcNode := h1.symm.trans h.2.2.1
  have e2 : some m = some a.tgtNode := h3.symm.trans h.2.2.2
  cases e1
  cases e2
  exact ⟨h2, h4⟩

/-! ## The invariant -/

/-- The subgraphs to be closed, innermost first. -/
def exits (st : List Step) : List Nat := st.filterMap fun
  | .exit c => some c
  | _ => none

/-- How an entry of the stack relates to one further down. -/
def Above (K : Kids) : Step → Step → Prop
  | .explore a, .explore b => ¬ Anc K a b ∧ ¬ Anc K b a
  | .exit c, .explore z => ¬ Anc K c z
  | .explore a, .exit c => Anc K c a
  | .exit c, .exit c' => Anc K c' c

/-- Below a node to be explored, the innermost subgraph is the one of its parent. -/
def Under (G : GView E) (par : Nat → Option Nat) : List Step → Prop
  | [] => True
  | .explore z :: st => (exits st).head? = (par z).filter G.containsNode ∧ Under G par st
  | .exit _ :: st => Under G par st

/-- The state after the statements `pre` were written. -/
structure Inv (G : GView E) (T : Tree) (K : Kids) (par : Nat → Option Nat) (pre : List (Stmt E)) (st : List Step)
    (es : Pending E) : Prop where
  blk : blocks pre (some []) = some (exits st)
  nodup : (drawn pre).Nodup
  mem : ∀ n ∈ drawn pre, G.containsNode n = true
  todo : ∀ n, .explore n ∈ st → G.containsNode n = true
  fresh : ∀ z, .explore z ∈ st → ∀ d ∈ drawn pre, ¬ Anc K z d
  opened : ∀ c, .exit c ∈ st → c ∈ drawn pre
  above : st.Pairwise (Above K)
  parent : Under G par st
  covers : ∀ n, G.containsNode n = true → n ∈ drawn pre ∨ ∃ z, .explore z ∈ st ∧ Anc K z n
  arrows : (arrows pre ++ es.flatMap (·.2)).Perm ((drawn pre).flatMap (outArrows G))
  keys : ∀ k as a, (k, as) ∈ es → a ∈ as → T.lca a.srcNode a.tgtNode = some k ∧ IsArrow G a ∧ a.srcNode ∈ drawn pre
  nested : Nested G par pre
  placed : (∀ a b k, G.containsNode a = true → G.containsNode b = true → T.lca a b = some (some k) → Anc K k a ∧ Anc K k b) →
    Placed K pre

theorem nested_other {pre : List (Stmt E)} {s : Stmt E} (h : Nested G par pre) (h1 : ∀ n, s ≠ .leaf n) (h2 : ∀ n, s ≠ .start n) :
    Nested G par (pre ++ [s]) := by
  rintro before after n (h3 | h3)
  · rcases split_snoc h3 with ⟨-, h4, -⟩ | ⟨after', -, h4⟩
    · exact (h1 n h4.symm).elim
    · exact h before after' n (.inl h4)
  · rcases split_snoc h3 with ⟨-, h4, -⟩ | ⟨after', -, h4⟩
    · exact (h2 n h4.symm).elim
    · exact h before after' n (.inr h4)

theorem nested_node {pre : List (Stmt E)} {s : Stmt E} {m : Nat} (h : Nested G par pre) (hs : s = .leaf m ∨ s = .start m)
    {b : List Nat} (hb : blocks pre (some []) = some b) (hb' : b.head? = (par m).filter G.containsNode) :
    Nested G par (pre ++ [s]) := by
  rintro before after n (h3 | h3)
  · rcases split_snoc h3 with ⟨rfl, h4, -⟩ | ⟨after', -, h4⟩
    · rcases hs with rfl | rfl <;> cases h4
      exact ⟨b, hb, hb'⟩
    · exact h before after' n (.inl h4)
  · rcases split_snoc h3 with ⟨rfl, h4, -⟩ | ⟨after', -, h4⟩
    · rcases hs with rfl | rfl <;> cases h4
      exact ⟨b, hb, hb'⟩
    · exact h before after' n (.inr h4)

theorem placed_other {pre : List (Stmt E)} {s : Stmt E} (h : Placed K pre) (h1 : ∀ a, s ≠ .link a) : Placed K (pre ++ [s]) := by
  rintro before after a h3
  rcases split_snoc h3 with ⟨-, h4, -⟩ | ⟨after', -, h4⟩
  · exact (h1 a h4.symm).elim
  · exact h before after' a h4

theorem placed_links {pre : List (Stmt E)} (h : Placed K pre) {b : List Nat} (hb : blocks pre (some []) = some b)
    (as : List (Arrow E)) (has : ∀ a ∈ as, a.srcNode ∈ drawn pre ∧ a.tgtNode ∈ drawn pre ∧ ∀ c ∈ b, Anc K c a.srcNode ∧ Anc K c a.tgtNode) :
    Placed K (pre ++ as.map .link) := by
  induction as using List.reverseRecOn with
  | nil => simpa using h
  | append_singleton as a ih =>
    rw [List.map_append, ← List.append_assoc]
    rintro before after x h3
    rcases split_snoc h3 with ⟨rfl, h4, -⟩ | ⟨after', -, h4⟩
    · cases h4
      obtain ⟨h5, h6, h7⟩ := has a (by simp)
      rw [drawn_append, drawn_links, List.append_nil, blocks_append, blocks_links]
      exact ⟨h5, h6, b, hb, h7⟩
    · exact ih (fun a ha => has a (by simp [ha])) before after' x h4

theorem nested_links {pre : List (Stmt E)} (h : Nested G par pre) (as : List (Arrow E)) : Nested G par (pre ++ as.map .link) := by
  induction as using List.reverseRecOn with
  | nil => simpa using h
  | append_singleton as a ih =>
    rw [List.map_append, ← List.append_assoc]
    exact nested_other ih (fun n h => by cases h) (fun n h => by cases h)

theorem exits_explore (l : List Nat) (st : List Step) : exits (l.map .explore ++ st) = exits st := by
  induction l with
  | nil => rfl
  | cons a l ih => exact ih

theorem under_kids {n : Nat} {st : List Step} {l : List Nat} (hl : ∀ c ∈ l, (par c).filter G.containsNode = some n)
    (h : Under G par st) : Under G par (l.map .explore ++ .exit n :: st) := by
  induction l with
  | nil => exact h
  | cons c l ih =>
    refine ⟨?_, ih fun c hc => hl c (List.mem_cons_of_mem _ hc)⟩
    show (exits (l.map .explore ++ .exit n :: st)).head? = _
    rw [exits_explore, hl c (by simp)]
    rfl

theorem Ctx.below (C : Ctx G T K par H) {a b : Nat} (h : Anc K a b) (ha : G.containsNode a = true) : G.containsNode b = true := by
  induction h with
  | refl => exact ha
  | step _ hm ih => exact C.closed _ ih _ hm

/-- What exploring a node adds besides the stack. -/
theorem step_node (C : Ctx G T K par H) {pre : List (Stmt E)} {n : Nat} {st : List Step} {es : Pending E}
    (I : Inv G T K par pre (.explore n :: st) es) {s : Stmt E} (hs : s = .leaf n ∨ s = .start n) :
    ∃ es', pushLinks G T (G.links n .outgoing) es = some es' ∧
      ∀ st', (blocks (pre ++ [s]) (some []) = some (exits st')) → (∀ m, .explore m ∈ st' → G.containsNode m = true) →
        (∀ z, .explore z ∈ st' → ∀ d ∈ drawn pre ++ [n], ¬ Anc K z d) → (∀ c, .exit c ∈ st' → c ∈ drawn pre ++ [n]) →
        st'.Pairwise (Above K) → Under G par st' →
        (∀ m, Anc K n m → m = n ∨ ∃ z, .explore z ∈ st' ∧ Anc K z m) → (∀ z, .explore z ∈ st → .explore z ∈ st') →
        Inv G T K par (pre ++ [s]) st' es' := by
  have hd : drawn (pre ++ [s]) = drawn pre ++ [n] := by
    rw [drawn_append]; rcases hs with rfl | rfl <;> rfl
  have ha : Verif.Render.arrows (pre ++ [s]) = Verif.Render.arrows pre := by
    rw [arrows_append]; rcases hs with rfl | rfl <;> exact List.append_nil _
  have hn := I.todo n (by simp)
  obtain ⟨es', h1, h2, h3⟩ := pushLinks_ok C.ok C.lca (n := n) (G.links n .outgoing) es fun l hl => by
    obtain ⟨h4, h5, -⟩ := C.ok.mem_links.1 hl
    exact ⟨h4, h5⟩
  refine ⟨es', h1, fun st' a1 a2 a3 a4 a5 a6 a7 a8 => ?_⟩
  have hnd : n ∉ drawn pre := fun h => I.fresh n (by simp) n h (.refl _)
  constructor
  · exact a1
  · rw [hd, List.nodup_append]
    refine ⟨I.nodup, by simp, ?_⟩
    rintro a h4 b h5 rfl
    simp only [List.mem_singleton] at h5
    exact hnd (h5 ▸ h4)
  · intro m hm
    rw [hd] at hm
    rcases List.mem_append.1 hm with hm | hm
    · exact I.mem m hm
    · rw [List.mem_singleton.1 hm]; exact hn
  · exact a2
  · rw [hd]; exact a3
  · rw [hd]; exact a4
  · exact a5
  · exact a6
  · intro m hm
    rw [hd]
    rcases I.covers m hm with h | ⟨z, hz, h⟩
    · exact .inl (by simp [h])
    · rcases List.mem_cons.1 hz with hz | hz
      · cases hz
        rcases a7 m h with rfl | h
        · exact .inl (by simp)
        · exact .inr h
      · exact .inr ⟨z, a8 z hz, h⟩
  · rw [ha, hd, List.flatMap_append, List.flatMap_singleton]
    refine (List.Perm.append_left _ h2).trans ?_
    rw [← List.append_assoc]
    exact I.arrows.append_right _
  · intro k as a h4 h5
    rw [hd]
    rcases h3 k as a h4 h5 with ⟨as', h6, h7⟩ | ⟨h6, h7⟩
    · obtain ⟨b1, b2, b3⟩ := I.keys k as' a h6 h7
      exact ⟨b1, b2, by simp [b3]⟩
    · obtain ⟨b1, b2⟩ := (mem_outArrows C.ok).1 h7
      exact ⟨h6, b1, by simp [b2]⟩
  · exact nested_node I.nested hs I.blk I.parent.1
  · intro h
    refine placed_other (I.placed h) fun a h' => ?_
    rcases hs with rfl | rfl <;> cases h'

theorem step_leaf (C : Ctx G T K par H) {pre : List (Stmt E)} {n : Nat} {st : List Step} {es : Pending E}
    (I : Inv G T K par pre (.explore n :: st) es) (hn : K n = []) :
    ∃ es', pushLinks G T (G.links n .outgoing) es = some es' ∧ Inv G T K par (pre ++ [.leaf n]) st es' := by
  obtain ⟨es', h1, h2⟩ := step_node C I (.inl rfl)
  have hp := List.pairwise_cons.1 I.above
  refine ⟨es', h1, h2 st ?_ ?_ ?_ ?_ hp.2 I.parent.2 ?_ fun z h => h⟩
  · rw [blocks_append, I.blk]; rfl
  · exact fun m hm => I.todo m (List.mem_cons_of_mem _ hm)
  · intro z hz d hd
    rcases List.mem_append.1 hd with hd | hd
    · exact I.fresh z (List.mem_cons_of_mem _ hz) d hd
    · rw [List.mem_singleton.1 hd]
      exact (hp.1 _ hz).2
  · exact fun c hc => by simp [I.opened c (List.mem_cons_of_mem _ hc)]
  · intro m hm
    rcases Lca.anc_child hm with h | ⟨c, hc, -⟩
    · exact .inl h
    · rw [hn] at hc; cases hc

theorem step_start (C : Ctx G T K par H) {pre : List (Stmt E)} {n : Nat} {st : List Step} {es : Pending E}
    (I : Inv G T K par pre (.explore n :: st) es) :
    ∃ es', pushLinks G T (G.links n .outgoing) es = some es' ∧
      Inv G T K par (pre ++ [.start n]) ((K n).map .explore ++ .exit n :: st) es' := by
  obtain ⟨es', h1, h2⟩ := step_node C I (.inr rfl)
  have hp := List.pairwise_cons.1 I.above
  have hn := I.todo n (by simp)
  have hex : ∀ z, Step.explore z ∈ (K n).map Step.explore ++ Step.exit n :: st ↔ z ∈ K n ∨ .explore z ∈ st := by
    intro z; simp
  have hxx : ∀ z, Step.exit z ∈ (K n).map Step.explore ++ Step.exit n :: st ↔ z = n ∨ .exit z ∈ st := by
    intro z; simp
  refine ⟨es', h1, h2 _ ?_ ?_ ?_ ?_ ?_ ?_ ?_ fun z h => (hex z).2 (.inr h)⟩
  · rw [blocks_append, I.blk, exits_explore]; rfl
  · intro m hm
    rcases (hex m).1 hm with h | h
    · exact C.closed n hn m h
    · exact I.todo m (List.mem_cons_of_mem _ h)
  · intro z hz d hd
    rcases (hex z).1 hz with h | h
    · have hzn : Anc K n z := .step (.refl _) h
      rcases List.mem_append.1 hd with hd | hd
      · exact fun h' => I.fresh n (by simp) d hd (hzn.trans h')
      · rw [List.mem_singleton.1 hd]
        exact C.tree.forest.acyclic n z h
    · rcases List.mem_append.1 hd with hd | hd
      · exact I.fresh z (List.mem_cons_of_mem _ h) d hd
      · rw [List.mem_singleton.1 hd]
        exact (hp.1 _ h).2
  · intro c hc
    rcases (hxx c).1 hc with rfl | h
    · simp
    · simp [I.opened c (List.mem_cons_of_mem _ h)]
  · rw [List.pairwise_append]
    refine ⟨?_, ?_, ?_⟩
    · rw [List.pairwise_map]
      refine (C.tree.forest.once n).imp_of_mem ?_
      intro a b ha hb hab
      exact ⟨C.tree.sib_apart ha hb hab (.refl _) (.refl _), C.tree.sib_apart hb ha (Ne.symm hab) (.refl _) (.refl _)⟩
    · rw [List.pairwise_cons]
      refine ⟨?_, hp.2⟩
      rintro (z | c) hz
      · exact (hp.1 _ hz).1
      · exact hp.1 _ hz
    · intro a ha b hb
      obtain ⟨c, hc, rfl⟩ := List.mem_map.1 ha
      have hnc : Anc K n c := .step (.refl _) hc
      rcases List.mem_cons.1 hb with rfl | hb
      · exact hnc
      · cases b with
        | explore z =>
          have hz := hp.1 _ hb
          refine ⟨fun h => hz.1 (hnc.trans h), fun h => ?_⟩
          rcases C.tree.anc_total h hnc with h' | h'
          · exact hz.2 h'
          · exact hz.1 h'
        | exit c' => exact (hp.1 _ hb).trans hnc
  · refine under_kids ?_ I.parent.2
    intro c hc
    rw [(C.tree.par_iff c n).2 hc]
    simp [Option.filter, hn]
  · intro m hm
    rcases Lca.anc_child hm with h | ⟨c, hc, h⟩
    · exact .inl h
    · exact .inr ⟨c, (hex c).2 (.inl hc), h⟩

theorem step_exit (C : Ctx G T K par H) {pre : List (Stmt E)} {c : Nat} {st : List Step} {es : Pending E}
    (I : Inv G T K par pre (.exit c :: st) es) :
    Inv G T K par (pre ++ ((es.remove (some c)).1.map .link ++ [.stop])) st (es.remove (some c)).2 := by
  have hp := List.pairwise_cons.1 I.above
  have hd : drawn (pre ++ ((es.remove (some c)).1.map .link ++ [.stop])) = drawn pre := by
    rw [drawn_append, drawn_append, drawn_links]; exact List.append_nil _
  have ha : Verif.Render.arrows (pre ++ ((es.remove (some c)).1.map .link ++ [.stop]))
      = Verif.Render.arrows pre ++ (es.remove (some c)).1 := by
    rw [arrows_append, arrows_append, arrows_links]
    congr 1
    exact List.append_nil _
  constructor
  · rw [blocks_append, blocks_append, blocks_links, I.blk]; rfl
  · rw [hd]; exact I.nodup
  · rw [hd]; exact I.mem
  · exact fun m hm => I.todo m (List.mem_cons_of_mem _ hm)
  · rw [hd]; exact fun z hz => I.fresh z (List.mem_cons_of_mem _ hz)
  · rw [hd]; exact fun z hz => I.opened z (List.mem_cons_of_mem _ hz)
  · exact hp.2
  · exact I.parent
  · rw [hd]
    intro n hn
    rcases I.covers n hn with h | ⟨z, hz, h⟩
    · exact .inl h
    · rcases List.mem_cons.1 hz with hz | hz
      · cases hz
      · exact .inr ⟨z, hz, h⟩
  · rw [ha, hd, List.append_assoc]
    exact (List.Perm.append_left _ (remove_perm es (some c))).trans I.arrows
  · rw [hd]
    exact fun k as a h => I.keys k as a (mem_remove_snd h)
  · rw [← List.append_assoc]
    exact nested_other (nested_links I.nested _) (fun n h => by cases h) (fun n h => by cases h)
  · intro h
    rw [← List.append_assoc]
    refine placed_other (placed_links (I.placed h) I.blk _ ?_) fun a h => by cases h
    intro a h1
    obtain ⟨as, h2, h3⟩ := mem_remove_fst h1
    obtain ⟨h4, h5, h6⟩ := I.keys _ as a h2 h3
    have hb : G.containsNode a.tgtNode = true := (arrow_nodes C.ok h5).2
    obtain ⟨h7, h8⟩ := h _ _ c (I.mem _ h6) hb h4
    refine ⟨h6, ?_, ?_⟩
    · rcases I.covers _ hb with h9 | ⟨z, hz, h9⟩
      · exact h9
      · rcases List.mem_cons.1 hz with hz' | hz'
        · cases hz'
        · exfalso
          rcases C.tree.anc_total h8 h9 with h10 | h10
          · exact hp.1 _ hz' h10
          · exact I.fresh z hz c (I.opened c (by simp)) h10
    · intro x hx
      rcases List.mem_cons.1 hx with rfl | hx
      · exact ⟨h7, h8⟩
      · obtain ⟨y, hy, hy'⟩ := List.mem_filterMap.1 hx
        cases y with
        | explore z => cases hy'
        | exit c' =>
          cases hy'
          have : Anc K x c := hp.1 _ hy
          exact ⟨this.trans h7, this.trans h8⟩

/-- The number of steps to go. -/
def toGo (G : GView E) (pre : List (Stmt E)) (st : List Step) : Nat := 2 * (G.nodes.length - (drawn pre).length) + (exits st).length

theorem drawn_lt (C : Ctx G T K par H) {pre : List (Stmt E)} {n : Nat} {st : List Step} {es : Pending E}
    (I : Inv G T K par pre (.explore n :: st) es) : (drawn pre).length < G.nodes.length := by
  have hnd : (n :: drawn pre).Nodup := List.nodup_cons.2 ⟨fun h => I.fresh n (by simp) n h (.refl _), I.nodup⟩
  have := (List.subperm_of_subset hnd (fun x hx => by
    rcases List.mem_cons.1 hx with rfl | hx
    · exact (C.ok.mem_nodes x).2 (I.todo x (by simp))
    · exact (C.ok.mem_nodes x).2 (I.mem x hx) : (n :: drawn pre) ⊆ G.nodes)).length_le
  simpa [Nat.lt_iff_add_one_le] using this

theorem loop_ok (C : Ctx G T K par H) (f : Nat) : ∀ (pre : List (Stmt E)) (st : List Step) (es : Pending E),
    Inv G T K par pre st es → toGo G pre st ≤ f →
    ∃ out es', exploreLoop G T f st es = some (out, es') ∧ Inv G T K par (pre ++ out) [] es' := by
  induction f with
  | zero =>
    intro pre st es I h
    cases st with
    | nil => exact ⟨[], es, rfl, by simpa using I⟩
    | cons x st =>
      exfalso
      cases x with
      | explore n =>
        have := drawn_lt C I
        unfold toGo at h; omega
      | exit c =>
        have : (exits (.exit c :: st)).length = (exits st).length + 1 := rfl
        unfold toGo at h; omega
  | succ f ih =>
    intro pre st es I h
    cases st with
    | nil => exact ⟨[], es, rfl, by simpa using I⟩
    | cons x st =>
      cases x with
      | explore n =>
        have hlt := drawn_lt C I
        have hx : (exits (.explore n :: st)).length = (exits st).length := rfl
        by_cases hl : K n = []
        · obtain ⟨es1, h1, I1⟩ := step_leaf C I hl
          obtain ⟨out, es', h2, I2⟩ := ih _ _ _ I1 (by
            unfold toGo at h ⊢
            have : (drawn (pre ++ [Stmt.leaf n])).length = (drawn pre).length + 1 := by rw [drawn_append]; simp [drawn]
            omega)
          refine ⟨.leaf n :: out, es', ?_, by simpa using I2⟩
          simp [exploreLoop, h1, (C.leaf n).2 hl, h2]
        · obtain ⟨es1, h1, I1⟩ := step_start C I
          obtain ⟨out, es', h2, I2⟩ := ih _ _ _ I1 (by
            unfold toGo at h ⊢
            have : (drawn (pre ++ [Stmt.start n])).length = (drawn pre).length + 1 := by rw [drawn_append]; simp [drawn]
            have h3 : (exits ((K n).map .explore ++ .exit n :: st)).length = (exits st).length + 1 := by rw [exits_explore]; rfl
            omega)
          refine ⟨.start n :: out, es', ?_, by simpa using I2⟩
          have hl' : T.isLeaf n = false := by
            cases hb : T.isLeaf n with
            | false => rfl
            | true => exact (hl ((C.leaf n).1 hb)).elim
          simp [exploreLoop, h1, hl', C.kids, h2]
      | exit c =>
        have I1 := step_exit C I
        obtain ⟨out, es', h2, I2⟩ := ih _ _ _ I1 (by
          unfold toGo at h ⊢
          have h3 : (exits (.exit c :: st)).length = (exits st).length + 1 := rfl
          have h4 : drawn (pre ++ ((es.remove (some c)).1.map .link ++ [.stop])) = drawn pre := by
            rw [drawn_append, drawn_append, drawn_links]; exact List.append_nil _
          rw [h4]
          omega)
        refine ⟨(es.remove (some c)).1.map .link ++ .stop :: out, es', ?_, by simpa using I2⟩
        simp [exploreLoop, h2]

theorem up_anc (C : Ctx G T K par H) (n : Nat) (hn : G.containsNode n = true) :
    ∃ z, G.containsNode z = true ∧ T.isRoot z = true ∧ Anc K z n := by
  have key : ∀ f u, Lca.up par f u = none → G.containsNode u = true →
      ∃ z, G.containsNode z = true ∧ T.isRoot z = true ∧ Anc K z u := by
    intro f
    induction f with
    | zero => intro u h; cases h
    | succ f ih =>
      intro u h hu
      cases hr : T.isRoot u with
      | true => exact ⟨u, hu, hr, .refl _⟩
      | false =>
        have h1 : (par u).filter G.containsNode ≠ none := fun h => by rw [(C.root u).2 h] at hr; cases hr
        cases hp : par u with
        | none => rw [hp] at h1; exact (h1 rfl).elim
        | some p =>
          have hpc : G.containsNode p = true := by
            by_contra hc
            rw [hp] at h1
            simp [Option.filter, hc] at h1
          simp only [Lca.up, hp, Option.bind_some] at h
          obtain ⟨z, h2, h3, h4⟩ := ih p h hpc
          exact ⟨z, h2, h3, .step h4 ((C.tree.par_iff _ _).1 hp)⟩
  exact key H n (C.tree.depth n) hn

theorem root_top (C : Ctx G T K par H) {z n : Nat} (hz : G.containsNode z = true) (hn : T.isRoot n = true) (h : Anc K z n) : z = n := by
  cases h with
  | refl => rfl
  | step h hm =>
    have h1 := (C.root _).1 hn
    rw [(C.tree.par_iff _ _).2 hm] at h1
    have h2 := C.below h hz
    simp [Option.filter, h2] at h1

theorem init_ok (C : Ctx G T K par H) : Inv G T K par [] ((G.nodes.filter T.isRoot).reverse.map .explore) [] := by
  have hex : ∀ z, Step.explore z ∈ (G.nodes.filter T.isRoot).reverse.map Step.explore ↔ G.containsNode z = true ∧ T.isRoot z = true := by
    intro z; simp [C.ok.mem_nodes]
  have hno : exits ((G.nodes.filter T.isRoot).reverse.map Step.explore) = [] := by
    have := exits_explore (G.nodes.filter T.isRoot).reverse []
    rw [List.append_nil] at this; exact this
  constructor
  · rw [hno]; rfl
  · exact List.nodup_nil
  · intro n hn; cases hn
  · exact fun n hn => ((hex n).1 hn).1
  · intro z _ d hd; cases hd
  · intro c hc; simp at hc
  · rw [List.pairwise_map]
    refine (List.nodup_reverse.2 (C.ok.nodes_nodup.filter _)).imp_of_mem ?_
    intro a b ha hb hab
    rw [List.mem_reverse, List.mem_filter, C.ok.mem_nodes] at ha hb
    exact ⟨fun h => hab (root_top C ha.1 hb.2 h), fun h => hab (root_top C hb.1 ha.2 h).symm⟩
  · have : ∀ l : List Nat, (∀ z ∈ l, T.isRoot z = true) → Under G par (l.map .explore) := by
      intro l
      induction l with
      | nil => exact fun _ => trivial
      | cons a l ih =>
        intro h
        refine ⟨?_, ih fun z hz => h z (List.mem_cons_of_mem _ hz)⟩
        have h1 := exits_explore l []
        rw [List.append_nil] at h1
        rw [h1, (C.root a).1 (h a (by simp))]
        rfl
    exact this _ fun z hz => by simpa using (List.mem_filter.1 (List.mem_reverse.1 hz)).2
  · intro n hn
    obtain ⟨z, h1, h2, h3⟩ := up_anc C n hn
    exact .inr ⟨z, (hex z).2 ⟨h1, h2⟩, h3⟩
  · exact List.Perm.refl _
  · intro k as a h; cases h
  · rintro before after n (h | h) <;> simp at h
  · intro _ before after a h; simp at h

theorem explore_ok (C : Ctx G T K par H) {order : Pending E → Pending E} (ho : ∀ es, (order es).Perm es) {fuel : Nat}
    (hf : 2 * G.nodes.length ≤ fuel) : ∃ out, explore G T order fuel = some out ∧ Drawing G par out ∧
    ((∀ a b k, G.containsNode a = true → G.containsNode b = true → T.lca a b = some (some k) → Anc K k a ∧ Anc K k b) →
      Placed K out) := by
  have hno : exits ((G.nodes.filter T.isRoot).reverse.map Step.explore) = [] := by
    have := exits_explore (G.nodes.filter T.isRoot).reverse []
    rw [List.append_nil] at this; exact this
  obtain ⟨out, es, h1, I⟩ := loop_ok C fuel [] _ [] (init_ok C) (by unfold toGo; rw [hno]; simp [drawn]; omega)
  rw [List.nil_append] at I
  have hflat : ∀ es : Pending E, (es.flatMap fun x => x.2.map Stmt.link) = (es.flatMap (·.2)).map Stmt.link := by
    intro es
    induction es with
    | nil => rfl
    | cons x es ih => simp [List.flatMap_cons, ih]
  have hp : ((order es).flatMap (·.2)).Perm (es.flatMap (·.2)) := (ho es).flatMap_right _
  refine ⟨_, by simp only [explore, h1, hflat]; rfl, ?_, ?_⟩
  · have hd : drawn (out ++ ((order es).flatMap (·.2)).map Stmt.link) = drawn out := by
      rw [drawn_append, drawn_links, List.append_nil]
    have hmem : ∀ n, n ∈ drawn out ↔ G.containsNode n = true := fun n => by
      refine ⟨I.mem n, fun h => ?_⟩
      rcases I.covers n h with h | ⟨z, hz, -⟩
      · exact h
      · cases hz
    have ha : (arrows (out ++ ((order es).flatMap (·.2)).map Stmt.link)).Perm ((drawn out).flatMap (outArrows G)) := by
      rw [arrows_append, arrows_links]
      exact (List.Perm.append_left _ hp).trans I.arrows
    constructor
    · rw [hd]; exact I.nodup
    · rw [hd]; exact hmem
    · rw [ha.nodup_iff, List.nodup_flatMap]
      refine ⟨fun n _ => outArrows_nodup C.ok n, I.nodup.imp ?_⟩
      intro a b hab x hx hx'
      exact hab (((mem_outArrows C.ok).1 hx).2.symm.trans ((mem_outArrows C.ok).1 hx').2)
    · intro a
      rw [ha.mem_iff, List.mem_flatMap]
      constructor
      · rintro ⟨n, -, h⟩
        exact ((mem_outArrows C.ok).1 h).1
      · intro h
        exact ⟨a.srcNode, (hmem _).2 ((arrow_nodes C.ok h).1), (mem_outArrows C.ok).2 ⟨h, rfl⟩⟩
    · rw [blocks_append, blocks_links, I.blk]; rfl
    · exact nested_links I.nested _
  · intro h
    refine placed_links (I.placed h) I.blk _ ?_
    intro a ha
    obtain ⟨⟨k, as⟩, h2, h3⟩ := List.mem_flatMap.1 (hp.mem_iff.1 ha)
    obtain ⟨-, h5, h6⟩ := I.keys k as a h2 h3
    refine ⟨h6, ?_, fun c hc => by cases hc⟩
    rcases I.covers _ ((arrow_nodes C.ok h5).2) with h | ⟨z, hz, -⟩
    · exact h
    · cases hz

end Verif.Render
