import Verif.Dyn.Props

/-!
# C34: the answers of the dynamic convexity checker
-/

namespace Verif.Dyn

open Verif (Direction)
open Verif.PG
open Verif.Algo
open Verif.Convex

theorem anyM_ok {f : Nat → Option Bool} {P : Nat → Prop} {l : List Nat}
    (h : ∀ x ∈ l, ∃ r, f x = some r ∧ (r = true ↔ P x)) :
    ∃ r, Checker.anyM f l = some r ∧ (r = true ↔ ∃ x ∈ l, P x) := by
  induction l with
  | nil => exact ⟨false, rfl, by simp⟩
  | cons x l ih =>
    obtain ⟨r, h1, h2⟩ := h x (by simp)
    obtain ⟨r', h3, h4⟩ := ih fun y hy => h y (by simp [hy])
    simp only [Checker.anyM, h1]
    cases r with
    | true => exact ⟨true, rfl, by simp [h2.1 rfl]⟩
    | false =>
      refine ⟨r', h3, h4.trans ?_⟩
      have : ¬ P x := fun hp => by simpa using h2.2 hp
      simp [this]

theorem foldl_max_ge {l : List Nat} {m : Nat} : m ≤ l.foldl max m ∧ ∀ x ∈ l, x ≤ l.foldl max m := by
  induction l generalizing m with
  | nil => simp
  | cons y l ih =>
    obtain ⟨h1, h2⟩ := ih (m := max m y)
    simp only [List.foldl_cons, List.mem_cons, forall_eq_or_imp]
    exact ⟨by omega, by omega, h2⟩

theorem foldl_max_mem {l : List Nat} {m : Nat} : l.foldl max m = m ∨ l.foldl max m ∈ l := by
  induction l generalizing m with
  | nil => simp
  | cons y l ih =>
    simp only [List.foldl_cons, List.mem_cons]
    rcases ih (m := max m y) with h | h
    · rw [h]
      rcases Nat.le_total m y with h' | h'
      · exact .inr (.inl (by omega))
      · exact .inl (by omega)
    · exact .inr (.inr h)

theorem foldl_min_le {l : List Nat} {m : Nat} : l.foldl min m ≤ m ∧ ∀ x ∈ l, l.foldl min m ≤ x := by
  induction l generalizing m with
  | nil => simp
  | cons y l ih =>
    obtain ⟨h1, h2⟩ := ih (m := min m y)
    simp only [List.foldl_cons, List.mem_cons, forall_eq_or_imp]
    exact ⟨by omega, by omega, h2⟩

/-- `is_convex(S, [], [])`: it holds exactly if each arc leaving `S` goes to a node after all of
`S` in the order. -/
theorem C34_is_convex_exact {maxOff : Nat} (hmax : maxOff ≤ 32767) {c : Checker} (h : Ok maxOff c) {S : List Nat}
    (hS : ∀ n ∈ S, c.graph.containsNode n = true) :
    ∃ r, c.isConvex S [] [] = some r ∧ (r = true ↔
      ∀ m ∈ S, ∀ x, x ∉ S → Arc c.graph .outgoing m x → ∀ t ∈ S, Before c.topo.order t x) := by
  have hI := h.graph.inv hmax
  have hmem : ∀ x, x ∈ S.dedup ↔ x ∈ S := fun x => List.mem_dedup
  have htr : ∀ x ∈ S, ∃ i, c.topo.pos x = some i := fun x hx => h.topo.tracked.1 (hS x hx)
  unfold Checker.isConvex
  simp only
  rw [if_neg (by
    simp only [List.any_eq_true, not_exists, not_and, Bool.not_eq_true, Option.isNone_eq_false_iff]
    intro x hx
    obtain ⟨i, hi⟩ := htr x ((hmem x).1 hx)
    simp [hi])]
  split
  · rename_i hlen
    refine ⟨true, rfl, fun _ m hm x hx hmx t ht => ?_, fun _ => rfl⟩
    have htm : t = m := by
      have h1 := (hmem m).2 hm
      have h2 := (hmem t).2 ht
      match hd : S.dedup with
      | [] => simp [hd] at h1
      | [y] => simp [hd] at h1 h2; rw [h1, h2]
      | y :: z :: l => simp [hd] at hlen; omega
    subst htm
    exact h.topo.forward _ _ hmx
  · rename_i hlen
    simp only [List.isEmpty_nil, Bool.and_self, if_true]
    generalize hps : S.dedup.filterMap c.topo.pos = ps
    have hpm : ∀ i, i ∈ ps ↔ ∃ x ∈ S, c.topo.pos x = some i := by
      intro i; rw [← hps, List.mem_filterMap]; simp only [hmem]
    generalize hlo : ps.foldl min (ps.headD 0) = lo
    generalize hhi : ps.foldl max 0 = hi
    have hlo' : ∀ i ∈ ps, lo ≤ i := by rw [← hlo]; exact foldl_min_le.2
    have hhi' : ∀ i ∈ ps, i ≤ hi := by rw [← hhi]; exact foldl_max_ge.2
    have path : ∀ s ∈ S, ∀ e, ∃ r, c.topo.hasPathOutside (ofPG c.graph) s e lo hi S.dedup = some r ∧
        (r = true ↔ ∃ x, Relation.ReflTransGen (fun a b => Arc c.graph .outgoing a b ∧ a ∈ S ∧ a ≠ e ∧
          ∃ i, c.topo.pos b = some i ∧ lo ≤ i ∧ i ≤ hi) s x ∧ x ∉ S) := by
      intro s hs e
      obtain ⟨r, h1, h2⟩ := bfs_start (ofPG_wf hI) (fun x => match c.topo.pos x with
        | none => false
        | some p => decide (lo ≤ p) && decide (p ≤ hi)) (fun n => !S.dedup.contains n && n != s) (fun n => n == e) s
      refine ⟨r, h1, h2.trans ?_⟩
      have hstop : ∀ n, (!S.dedup.contains n && n != s) = true ↔ n ∉ S := by
        intro n
        simp only [Bool.and_eq_true, Bool.not_eq_true', List.contains_eq_mem, decide_eq_false_iff_not, hmem, bne_iff_ne]
        constructor
        · exact fun h => h.1
        · exact fun h => ⟨h, fun hc => h (hc ▸ hs)⟩
      have hstop' : ∀ n, (!S.dedup.contains n && n != s) = false ↔ n ∈ S := by
        intro n
        rw [← Bool.not_eq_true, hstop, not_not]
      have hrel : Step (fun n => (neighbours (ofPG c.graph) n .outgoing).filter fun x => match c.topo.pos x with
          | none => false
          | some p => decide (lo ≤ p) && decide (p ≤ hi)) (fun n => !S.dedup.contains n && n != s) (fun n => n == e) =
          fun a b => Arc c.graph .outgoing a b ∧ a ∈ S ∧ a ≠ e ∧ ∃ i, c.topo.pos b = some i ∧ lo ≤ i ∧ i ≤ hi := by
        funext x y
        refine propext ?_
        unfold Step
        rw [List.mem_filter, mem_neighbours (ofPG_wf hI), varc_iff hI, hstop']
        simp only [beq_eq_false_iff_ne]
        have : (match c.topo.pos y with
            | none => false
            | some p => decide (lo ≤ p) && decide (p ≤ hi)) = true ↔ ∃ i, c.topo.pos y = some i ∧ lo ≤ i ∧ i ≤ hi := by
          cases c.topo.pos y <;> simp
        rw [this]
        constructor
        · rintro ⟨⟨h1, h2⟩, h3, h4⟩; exact ⟨h1, h3, h4, h2⟩
        · rintro ⟨h1, h3, h4, h2⟩; exact ⟨⟨h1, h2⟩, h3, h4⟩
      rw [hrel]
      exact exists_congr fun x => and_congr_right fun _ => hstop x
    -- both loops
    obtain ⟨r, h1, h2⟩ := anyM_ok (l := S.dedup) (P := fun s => ∃ e ∈ S.dedup, ∃ i j, c.topo.pos s = some i ∧
        c.topo.pos e = some j ∧ i < j ∧ ∃ x, Relation.ReflTransGen (fun a b => Arc c.graph .outgoing a b ∧ a ∈ S ∧ a ≠ e ∧
          ∃ i, c.topo.pos b = some i ∧ lo ≤ i ∧ i ≤ hi) s x ∧ x ∉ S)
      (f := fun s => Checker.anyM (fun e =>
        if s = e then some false
        else match c.topo.pos s, c.topo.pos e with
          | some ps, some pe => if ps < pe then c.topo.hasPathOutside (ofPG c.graph) s e lo hi S.dedup else some false
          | _, _ => none) S.dedup) (by
      intro s hs
      refine anyM_ok ?_
      intro e he
      obtain ⟨i, hi'⟩ := htr s ((hmem s).1 hs)
      obtain ⟨j, hj'⟩ := htr e ((hmem e).1 he)
      by_cases hse : s = e
      · subst hse
        rw [if_pos rfl]
        refine ⟨false, rfl, by simp, ?_⟩
        rintro ⟨i', j', h1, h2, h3, -⟩
        rw [h1] at h2; simp at h2; omega
      · rw [if_neg hse]
        simp only [hi', hj']
        by_cases hij : i < j
        · rw [if_pos hij]
          obtain ⟨r, h1, h2⟩ := path s ((hmem s).1 hs) e
          refine ⟨r, h1, h2.trans ?_⟩
          constructor
          · exact fun hx => ⟨i, j, rfl, rfl, hij, hx⟩
          · rintro ⟨i', j', -, -, -, hx⟩; exact hx
        · rw [if_neg hij]
          refine ⟨false, rfl, by simp, ?_⟩
          rintro ⟨i', j', h1, h2, h3, -⟩
          simp only [Option.some.injEq] at h1 h2
          omega)
    refine ⟨!r, congrArg (Option.map (!·)) h1, ?_⟩
    have hr : (!r) = true ↔ ¬ r = true := by cases r <;> simp
    rw [hr, h2]
    constructor
    · intro hn m hm x hx hmx t ht
      obtain ⟨i, hi'⟩ := htr m hm
      obtain ⟨j, hj'⟩ := htr t ht
      obtain ⟨k, hk'⟩ := h.topo.tracked.1 (h.topo.live hmx).2
      refine before_iff.2 ⟨j, k, ?_, (h.topo.pos _ _).1 hj', (h.topo.pos _ _).1 hk'⟩
      by_contra hle
      have hmk := h.topo.lt hmx hi' hk'
      have hlo1 := hlo' i ((hpm i).2 ⟨m, hm, hi'⟩)
      have hhi1 := hhi' j ((hpm j).2 ⟨t, ht, hj'⟩)
      refine hn ⟨m, (hmem m).2 hm, t, (hmem t).2 ht, i, j, hi', hj', by omega, x, .single ⟨hmx, hm, ?_, k, hk', by omega, by omega⟩, hx⟩
      rintro rfl
      rw [hi'] at hj'; simp at hj'; omega
    · rintro hall ⟨s, hs, e, he, i, j, hi', hj', hij, x, hpath, hx⟩
      rcases Relation.ReflTransGen.cases_tail hpath with rfl | ⟨m, -, hmx, hm, -, k, hk', hk1, hk2⟩
      · exact hx ((hmem _).1 hs)
      · -- the node at `hi` is before `x`
        have hne : hi ∈ ps := by
          rw [← hhi]
          rcases foldl_max_mem (l := ps) (m := 0) with h' | h'
          · have : i ∈ ps := (hpm i).2 ⟨s, (hmem s).1 hs, hi'⟩
            have h3 := foldl_max_ge (l := ps) (m := 0)
            have h4 := h3.2 j ((hpm j).2 ⟨e, (hmem e).1 he, hj'⟩)
            omega
          · exact h'
        obtain ⟨t, ht, hpt⟩ := (hpm hi).1 hne
        obtain ⟨a, b, hab, ha, hb⟩ := before_iff.1 (hall m hm x hx hmx t ht)
        rw [← h.topo.pos] at ha hb
        rw [hpt] at ha; rw [hk'] at hb
        simp at ha hb; omega

/-- A set accepted is convex. What is missing: some convex sets are not accepted, see the witness. -/
theorem C34_is_convex_partial {maxOff : Nat} (hmax : maxOff ≤ 32767) {c : Checker} (h : Ok maxOff c) {S : List Nat}
    (hS : ∀ n ∈ S, c.graph.containsNode n = true) (hr : c.isConvex S [] [] = some true) :
    Convex (Arc c.graph .outgoing) S := by
  obtain ⟨r, h1, h2⟩ := C34_is_convex_exact hmax h hS
  rw [hr] at h1
  cases h1
  have hall := h2.1 rfl
  intro s hs t ht x hsx hxt
  induction hsx with
  | refl => exact hs
  | tail hsy hyx ih =>
    rename_i y x
    by_contra hx
    have hy := ih (.head hyx hxt)
    have hb := hall y hy x hx hyx t ht
    obtain ⟨i, j, hij, hi, hj⟩ := before_iff.1 hb
    rw [← h.topo.pos] at hi hj
    have := h.topo.le hxt hj hi
    omega

/-- A set whose nodes are consecutive in the order is accepted. -/
theorem C34_is_convex_interval {maxOff : Nat} (hmax : maxOff ≤ 32767) {c : Checker} (h : Ok maxOff c) {S : List Nat}
    (hS : ∀ n ∈ S, c.graph.containsNode n = true)
    (hiv : ∀ s ∈ S, ∀ t ∈ S, ∀ x, Before c.topo.order s x → Before c.topo.order x t → x ∈ S) :
    c.isConvex S [] [] = some true := by
  obtain ⟨r, h1, h2⟩ := C34_is_convex_exact hmax h hS
  rw [h1, h2.2 ?_]
  intro m hm x hx hmx t ht
  have hfx := h.topo.forward _ _ hmx
  rcases before_total (l := c.topo.order) ((h.topo.mem t).2 (hS t ht)) (before_index hfx).2 (fun e => hx (e ▸ ht)) with hb | hb
  · exact hb
  · exact absurd (hiv m hm t ht x hfx hb) hx

/-- A set with a node which is not in the graph is not accepted. -/
theorem C34_is_convex_unknown {maxOff : Nat} {c : Checker} (h : Ok maxOff c) {S inputs outputs : List Nat} {n : Nat}
    (hn : n ∈ S) (hg : c.graph.containsNode n = false) : c.isConvex S inputs outputs = some false := by
  unfold Checker.isConvex
  simp only
  rw [if_pos]
  simp only [List.any_eq_true, List.mem_dedup]
  refine ⟨n, hn, ?_⟩
  cases hp : c.topo.pos n with
  | none => rfl
  | some i => have := h.topo.tracked.2 ⟨i, hp⟩; simp [hg] at this

/-! ## Examples and failures -/

def ask (ls : List (Nat × Nat)) (S inputs outputs : List Nat) : Option Bool :=
  (three.bind (linkAll ls)).bind fun c => c.isConvex S inputs outputs

-- the hypotheses hold for the checker of a diamond
example : ∃ c, Checker.new dagG = some c ∧ Ok 32767 c := by
  obtain ⟨c, h1, -, h2⟩ := C34_new (by decide) dagG_reach dagG_acyclic
  exact ⟨c, h1, h2⟩
example : ((Checker.new dagG).bind fun c => c.isConvex [0, 1, 2, 3] [] []) = some true := by decide +kernel
example : ((Checker.new dagG).bind fun c => c.isConvex [0, 5, 1, 2, 3] [] []) = some true := by decide +kernel
example : ((Checker.new dagG).bind fun c => c.isConvex [0, 3] [] []) = some false := by decide +kernel
-- a chain
example : ask [(1, 2), (3, 4)] [0, 1] [] [] = some true := by decide +kernel
example : ask [(1, 2), (3, 4)] [0, 2] [] [] = some false := by decide +kernel

/-- Failure: with the only link 0 → 1 the nodes 0 and 2 form a convex set, which is refused. -/
theorem C34_witness_refused : ask [(1, 2)] [0, 2] [] [] = some false ∧ ask [(1, 2)] [1, 2] [] [] = some true := by
  decide +kernel

/-- Failure: with boundary ports the search goes the wrong way. On the chain 0 → 1 → 2 the
subgraph of the nodes 0 and 2 is accepted when the output of 2 is given. -/
theorem C34_witness_accepted : ask [(1, 2), (3, 4)] [0, 2] [] [5] = some true := by decide +kernel

/-- A node with two outputs and one with two inputs. -/
def pair : Option Checker := do
  let c ← Checker.new PG.empty
  let (_, c) ← c.addNode 32767 0 2
  let (_, c) ← c.addNode 32767 2 0
  return c

/-- Failure: a second link between the same nodes keeps the graph acyclic, but it panics. -/
theorem C34_witness_parallel : (pair.bind (linkAll [(0, 2)])).isSome = true ∧
    ((pair.bind (linkAll [(0, 2)])).bind fun c => c.linkPorts 1 3).isNone = true := by decide +kernel

/-- Failure: so does the link 0 → 2 on the chain 0 → 1 → 2; here in three nodes with two outputs at
node 0 and two inputs at node 2. -/
def chain : Option Checker := do
  let c ← Checker.new PG.empty
  let (_, c) ← c.addNode 32767 0 2
  let (_, c) ← c.addNode 32767 1 1
  let (_, c) ← c.addNode 32767 2 0
  linkAll [(0, 2), (3, 4)] c

theorem C34_witness_transitive : chain.isSome = true ∧ (chain.bind fun c => c.linkPorts 1 5).isNone = true := by decide +kernel

/-- Failure: a link given with the input port first always panics; the link has then already been
made. -/
theorem C34_link_ports_reversed {maxOff : Nat} (hmax : maxOff ≤ 32767) {c : Checker} (h : Ok maxOff c) {p q : Nat}
    (hp : c.graph.portDirection p = some .incoming) (hq : c.graph.portDirection q = some .outgoing)
    (lp : c.graph.portLink? p = some none) (lq : c.graph.portLink? q = some none) :
    c.linkPorts p q = none := by
  have hI := h.graph.inv hmax
  obtain ⟨g', hl⟩ := C10_link_ports_succeeds hmax h.graph hp hq lp lq
  obtain ⟨ea, eb, e1, e2, e3, -, -, e6, e7, e8, -⟩ := C10_link_ports hmax h.graph hl
  have hg' : PG.Reach maxOff g' := h.graph.step (op := .linkPorts p q) trivial (by simp [PG.step, hl])
  have hI' := hg'.inv hmax
  have ha := endpoint_node e1
  have hb := endpoint_node e2
  have node : ∀ {p n}, c.graph.portNode p = some n → c.graph.containsNode n = true := by
    intro p n hn
    simp only [PG.portNode, Option.map_eq_some_iff] at hn
    obtain ⟨⟨n', d⟩, h1, rfl⟩ := hn
    obtain ⟨m', hm', _⟩ := port_at hI h1
    simp [PG.containsNode, hm']
  obtain ⟨pa, hpa⟩ := h.topo.tracked.1 (node ha)
  obtain ⟨pb, hpb⟩ := h.topo.tracked.1 (node hb)
  have harc : Arc g' .outgoing eb.1 ea.1 := by
    have p1 := ((endpoint_at hI).1 e1).port hI
    have p2 := ((endpoint_at hI).1 e2).port hI
    simp only [PG.portDirection, p1, p2, Option.map_some, Option.some.injEq] at hp hq
    obtain ⟨na, da, ja⟩ := ea
    obtain ⟨nb, db, jb⟩ := eb
    simp only at hp hq; subst hp hq
    refine ⟨jb, ja, ?_⟩
    rw [e6]
    simp [AGraph.join, Direction.reverse]
  obtain ⟨r, h1, h2⟩ := bfs_start (ofPG_wf hI') (fun x => TSort.leMax (c.topo.pos x) (c.topo.pos ea.1)) (fun n => n == ea.1)
    (fun _ => false) eb.1
  have hr : r = true := by
    rw [h2]
    by_cases hab : eb.1 = ea.1
    · exact ⟨eb.1, .refl, by simp [hab]⟩
    · refine ⟨ea.1, .single ⟨?_, by simp [hab], rfl⟩, by simp⟩
      rw [List.mem_filter, mem_neighbours (ofPG_wf hI'), varc_iff hI']
      exact ⟨harc, by rw [hpa]; simp [TSort.leMax]⟩
  subst hr
  have hw : c.topo.wouldCreateCycle (ofPG g') ea.1 eb.1 = some true := h1
  unfold Checker.linkPorts
  simp only [ha, hb, hl, TSort.connectNodes, hpa, hpb, hw]
  cases c.topo.wouldCreateCycle (ofPG c.graph) eb.1 ea.1 with
  | none => rfl
  | some r => cases r <;> rfl

example : (three.bind fun c => c.linkPorts 2 1).isNone = true ∧ (three.bind fun c => c.linkPorts 1 2).isSome = true := by
  decide +kernel

/-- Failure: `clear` empties the graph but not the order. -/
theorem C34_witness_clear : (three.map fun c => (c.clear.topo.order, c.clear.graph.nodeCount)) = some ([0, 1, 2], 0) := by
  decide +kernel

example := C34_is_convex_exact (by decide) dagC_ok.2 (S := [0, 3]) (by simp only [dagC_live]; decide +kernel)

example : Convex (Arc dagC.graph .outgoing) [0, 1, 2, 3] :=
  C34_is_convex_partial (by decide) dagC_ok.2 (by simp only [dagC_live]; decide +kernel) (by decide +kernel)

example : dagC.isConvex [2, 1, 5] [] [] = some true :=
  C34_is_convex_interval (by decide) dagC_ok.2 (by simp only [dagC_live]; decide +kernel) (by
    rw [dagC_pos.1]
    have key : ∀ s x, Before [0, 5, 1, 2, 3, 4] s x → ∃ k < 6, [0, 5, 1, 2, 3, 4].getD k 0 = x ∧ s ∈ [0, 5, 1, 2, 3, 4].take k := by
      rintro s x ⟨a, b, h, hs⟩
      refine ⟨a.length, ?_, by rw [h]; simp, by rw [h]; simpa using hs⟩
      have := congrArg List.length h
      simp at this; omega
    intro s hs t ht x h1 h2
    obtain ⟨k, hk, rfl, hsk⟩ := key s x h1
    obtain ⟨k', hk', rfl, hxk⟩ := key _ t h2
    have : ((List.range 6).all fun k => (List.range 6).all fun k' => [2, 1, 5].all fun s =>
        !([2, 1, 5].contains ([0, 5, 1, 2, 3, 4].getD k' 0)) || !(([0, 5, 1, 2, 3, 4].take k).contains s) ||
        !(([0, 5, 1, 2, 3, 4].take k').contains ([0, 5, 1, 2, 3, 4].getD k 0)) ||
        [2, 1, 5].contains ([0, 5, 1, 2, 3, 4].getD k 0)) = true := by decide
    simp only [List.all_eq_true, List.mem_range] at this
    have := this k hk k' hk' s hs
    rw [List.contains_iff_mem.2 ht, List.contains_iff_mem.2 hsk, List.contains_iff_mem.2 hxk] at this
    exact List.contains_iff_mem.1 (by simpa only [Bool.not_true, Bool.false_or] using this))

#print axioms C33_with_graph
#print axioms C33_connect_cycle
#print axioms C33_connect_unknown
#print axioms C33_connect_nodup
#print axioms C33_connect_valid
#print axioms C33_connect_partial
#print axioms C33_add_node
#print axioms C33_remove_node
#print axioms C33_disconnect
#print axioms C33_history_partial
#print axioms C33_get_order_partial
#print axioms C33_witness_node_lost
#print axioms C33_witness_backward
#print axioms C34_new
#print axioms C34_add_node
#print axioms C34_remove_node
#print axioms C34_remove_unknown
#print axioms C34_unlink_port
#print axioms C34_link_ports
#print axioms C34_link_ports_accepts_partial
#print axioms C34_link_error
#print axioms C34_history_partial
#print axioms C34_is_convex_exact
#print axioms C34_is_convex_partial
#print axioms C34_is_convex_interval
#print axioms C34_is_convex_unknown
#print axioms C34_witness_refused
#print axioms C34_witness_accepted
#print axioms C34_witness_parallel
#print axioms C34_witness_transitive
#print axioms C34_link_ports_reversed
#print axioms C34_witness_clear

end Verif.Dyn
