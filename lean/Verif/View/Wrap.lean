import Verif.View.Lemmas

/-!
# The wrappers keep a view well-formed
-/

namespace Verif.View

open Verif (Direction)
open Verif.PG Verif.Hier

variable {E : Type}

theorem map_some_filter {α β : Type} {P : β → Bool} {Q : α → Bool} {F : α → Option β} :
    ∀ {l1 : List β} {l2 : List α}, l1.map some = l2.map F → (∀ y ∈ l2, ∀ x, F y = some x → P x = Q y) →
      (l1.filter P).map some = (l2.filter Q).map F
  | [], [], _, _ => rfl
  | [], _ :: _, h, _ => by simp at h
  | _ :: _, [], h, _ => by simp at h
  | x :: l1, y :: l2, h, hq => by
    simp only [List.map_cons, List.cons.injEq] at h
    have ih := map_some_filter h.2 fun y hy => hq y (by simp [hy])
    have h1 := hq y (by simp) x h.1.symm
    cases hQ : Q y with
    | false => rw [List.filter_cons_of_neg (by rw [h1, hQ]; simp), List.filter_cons_of_neg (by rw [hQ]; simp), ih]
    | true => rw [List.filter_cons_of_pos (by rw [h1, hQ]), List.filter_cons_of_pos hQ, List.map_cons, List.map_cons, ih, h.1]

theorem filterMap_some {α β : Type} {F : α → Option β} : ∀ {l : List α}, (∀ y ∈ l, ∃ x, F y = some x) →
    (l.filterMap F).map some = l.map F
  | [], _ => rfl
  | y :: l, h => by
    obtain ⟨x, hx⟩ := h y (by simp)
    rw [List.filterMap_cons, hx, List.map_cons, List.map_cons, hx, filterMap_some fun y hy => h y (by simp [hy])]

section
variable {G : GView E}

theorem portFilter_iff {nf : Nat → Bool} {p : Nat} :
    G.portFilter nf p = true ↔ ∃ n, G.portNode p = some n ∧ nf n = true := by
  unfold GView.portFilter
  split
  · next n h => simp [h]
  · next h => simp [h]

theorem insidePort_iff {inside : Nat → Bool} {p : Nat} :
    G.insidePort inside p = true ↔ ∃ n, G.portNode p = some n ∧ inside n = true := by
  unfold GView.insidePort
  split
  · next n h => simp [h]
  · next h => simp [h]

theorem linkFilter_swap {nf lf : Nat → Bool} {e f : E} : G.linkFilter nf lf (e, f) = G.linkFilter nf lf (f, e) := by
  simp only [GView.linkFilter]
  cases G.portFilter nf (G.toPort e) <;> cases G.portFilter nf (G.toPort f) <;> cases lf (G.toPort e) <;>
    cases lf (G.toPort f) <;> rfl

theorem insideLink_swap {inside : Nat → Bool} {e f : E} : G.insideLink inside (e, f) = G.insideLink inside (f, e) := by
  simp only [GView.insideLink, Bool.and_comm]

theorem filtered_shows {nf lf : Nat → Bool} {e f : E} :
    (G.filtered nf lf).Shows e f ↔ G.Shows e f ∧ G.linkFilter nf lf (e, f) = true := by
  unfold GView.Shows; exact List.mem_filter

theorem restrict_shows {inside : Nat → Bool} {nodes : List Nat} {c : Nat} {b : Bool} {e f : E} :
    (G.restrict inside nodes c b).Shows e f ↔ G.Shows e f ∧ G.insideLink inside (e, f) = true := by
  unfold GView.Shows; exact List.mem_filter

theorem filter_flatMap' {α β : Type} (l : List α) (g : α → List β) (f : β → Bool) :
    (l.flatMap g).filter f = l.flatMap fun a => (g a).filter f := by
  induction l with
  | nil => rfl
  | cons a l ih => simp [List.flatMap_cons, ih]

theorem filtered_ok (ok : G.Ok) (nf lf : Nat → Bool) : (G.filtered nf lf).Ok where
  nodes_nodup := ok.nodes_nodup.filter _
  mem_nodes n := by
    show n ∈ G.nodes.filter nf ↔ (G.containsNode n && nf n) = true
    rw [List.mem_filter, ok.mem_nodes, Bool.and_eq_true]
  node_count := rfl
  iter_nodup := ok.iter_nodup.filter _
  mem_iter p := by
    show p ∈ G.portsIter.filter (G.portFilter nf) ↔
      (if G.containsPort p then
        match G.portNode p with
        | some n => G.containsNode n && nf n
        | none => false
      else false) = true
    rw [List.mem_filter, ok.mem_iter, portFilter_iff]
    cases hc : G.containsPort p with
    | false => simp
    | true =>
      obtain ⟨n, h1, h2⟩ := (ok.port_iff p).1 hc
      simp [h1, h2]
  port_iff p := by
    show (if G.containsPort p then
        match G.portNode p with
        | some n => G.containsNode n && nf n
        | none => false
      else false) = true ↔ ∃ n, G.portNode p = some n ∧ (G.containsNode n && nf n) = true
    cases hc : G.containsPort p with
    | false =>
      simp only [Bool.false_eq_true, if_false, false_iff, not_exists, not_and, Bool.and_eq_true]
      intro n h1 h2
      have := (ok.port_iff p).2 ⟨n, h1, h2⟩
      rw [hc] at this; cases this
    | true =>
      obtain ⟨n, h1, h2⟩ := (ok.port_iff p).1 hc
      simp [h1, h2]
  port_count := rfl
  ports_nodup := ok.ports_nodup
  mem_ports := ok.mem_ports
  port_dir := ok.port_dir
  all_ports := ok.all_ports
  num_ports := ok.num_ports
  from_port p e f h := ok.from_port p e f (List.mem_filter.1 h).1
  links_nodup p := (ok.links_nodup p).filter _
  shows_sym e f h := by
    rw [filtered_shows] at h ⊢
    exact ⟨ok.shows_sym _ _ h.1, by rw [linkFilter_swap]; exact h.2⟩
  shows_dir e f h := by
    rw [filtered_shows] at h
    obtain ⟨n, d, m, h1, h2, h3, h4, h5, h6⟩ := ok.shows_dir _ _ h.1
    simp only [GView.linkFilter, Bool.and_eq_true, portFilter_iff] at h
    obtain ⟨-, ⟨⟨⟨n', h7, h8⟩, ⟨m', h9, h10⟩⟩, -⟩, -⟩ := h
    have e1 : n' = n := by have := h7.symm.trans h1; simpa using this
    have e2 : m' = m := by have := h9.symm.trans h4; simpa using this
    subst e1 e2
    exact ⟨n', d, m', h1, h2, by simp [GView.filtered, h3, h8], h4, h5, by simp [GView.filtered, h6, h10]⟩
  shows_one e f f' h h' := ok.shows_one _ _ _ (filtered_shows.1 h).1 (filtered_shows.1 h').1
  links_eq n d := by
    show (G.links n d).filter _ = (G.ports n d).flatMap fun p => (G.portLinks p).filter _
    rw [ok.links_eq, filter_flatMap']
  all_links n := by
    show (G.allLinks n).filter _ = ((G.allPorts n).flatMap fun p => (G.portLinks p).filter _).filter _
    rw [ok.all_links, ← filter_flatMap', List.filter_filter, List.filter_filter]
    congr 1
    funext l
    exact Bool.and_comm _ _
  neighbours_eq n d _ := by
    refine filterMap_some fun l hl => ?_
    have h := (List.mem_filter.1 hl).2
    simp only [GView.linkFilter, Bool.and_eq_true, portFilter_iff] at h
    obtain ⟨⟨⟨-, m, h1, -⟩, -⟩, -⟩ := h
    exact ⟨m, h1⟩
  all_neighbours n _ := by
    refine filterMap_some fun l hl => ?_
    have h := (List.mem_filter.1 hl).2
    simp only [GView.linkFilter, Bool.and_eq_true, portFilter_iff] at h
    obtain ⟨⟨⟨-, m, h1, -⟩, -⟩, -⟩ := h
    exact ⟨m, h1⟩
  connections a b := by
    show (G.getConnections a b).filter _ = ((G.links a .outgoing).filter _).filter _
    rw [ok.connections, List.filter_filter, List.filter_filter]
    congr 1
    funext l
    exact Bool.and_comm _ _

theorem restrict_ok (ok : G.Ok) {inside : Nat → Bool} {nodes : List Nat} {c : Nat} (b : Bool)
    (hin : ∀ n, inside n = true → G.containsNode n = true) (hnd : nodes.Nodup) (hm : ∀ n, n ∈ nodes ↔ inside n = true)
    (hc : c = nodes.length) : (G.restrict inside nodes c b).Ok where
  nodes_nodup := hnd
  mem_nodes := hm
  node_count := hc
  iter_nodup := by
    show (nodes.flatMap G.allPorts).Nodup
    rw [List.nodup_flatMap]
    refine ⟨fun n _ => ?_, hnd.imp ?_⟩
    · rw [ok.all_ports, List.nodup_append]
      refine ⟨ok.ports_nodup _ _, ok.ports_nodup _ _, ?_⟩
      rintro p h1 q h2 rfl
      have h3 := ((ok.mem_ports _ _ _).1 h1).2
      have h4 := ((ok.mem_ports _ _ _).1 h2).2
      rw [h3] at h4; cases h4
    · intro n m hnm
      simp only [Function.onFun, List.disjoint_left, ok.all_ports, List.mem_append, ok.mem_ports]
      intro p h1 h2
      have h3 : G.portNode p = some n := by rcases h1 with h | h <;> exact h.1
      have h4 : G.portNode p = some m := by rcases h2 with h | h <;> exact h.1
      rw [h3] at h4; exact hnm (by simpa using h4)
  mem_iter p := by
    show p ∈ nodes.flatMap G.allPorts ↔ G.insidePort inside p = true
    rw [insidePort_iff, List.mem_flatMap]
    constructor
    · rintro ⟨n, h1, h2⟩
      rw [ok.all_ports, List.mem_append, ok.mem_ports, ok.mem_ports] at h2
      exact ⟨n, by rcases h2 with h | h <;> exact h.1, (hm n).1 h1⟩
    · rintro ⟨n, h1, h2⟩
      refine ⟨n, (hm n).2 h2, ?_⟩
      rw [ok.all_ports, List.mem_append, ok.mem_ports, ok.mem_ports]
      obtain ⟨d, hd⟩ := ok.port_dir p n h1
      cases d
      · exact .inl ⟨h1, hd⟩
      · exact .inr ⟨h1, hd⟩
  port_iff p := insidePort_iff
  port_count := rfl
  ports_nodup := ok.ports_nodup
  mem_ports := ok.mem_ports
  port_dir := ok.port_dir
  all_ports := ok.all_ports
  num_ports := ok.num_ports
  from_port p e f h := ok.from_port p e f (List.mem_filter.1 h).1
  links_nodup p := (ok.links_nodup p).filter _
  shows_sym e f h := by
    rw [restrict_shows] at h ⊢
    exact ⟨ok.shows_sym _ _ h.1, by rw [insideLink_swap]; exact h.2⟩
  shows_dir e f h := by
    rw [restrict_shows] at h
    obtain ⟨n, d, m, h1, h2, h3, h4, h5, h6⟩ := ok.shows_dir _ _ h.1
    simp only [GView.insideLink, Bool.and_eq_true, insidePort_iff] at h
    obtain ⟨-, ⟨n', h7, h8⟩, ⟨m', h9, h10⟩⟩ := h
    have e1 : n' = n := by have := h7.symm.trans h1; simpa using this
    have e2 : m' = m := by have := h9.symm.trans h4; simpa using this
    subst e1 e2
    exact ⟨n', d, m', h1, h2, h8, h4, h5, h10⟩
  shows_one e f f' h h' := ok.shows_one _ _ _ (restrict_shows.1 h).1 (restrict_shows.1 h').1
  links_eq n d := by
    show (G.links n d).filter _ = (G.ports n d).flatMap fun p => (G.portLinks p).filter _
    rw [ok.links_eq, filter_flatMap']
  all_links n := by
    show (G.allLinks n).filter _ = ((G.allPorts n).flatMap fun p => (G.portLinks p).filter _).filter _
    rw [ok.all_links, ← filter_flatMap', List.filter_filter, List.filter_filter]
    congr 1
    funext l
    exact Bool.and_comm _ _
  neighbours_eq n d hn := by
    refine map_some_filter (ok.neighbours_eq n d (hin n hn)) ?_
    rintro ⟨e, f⟩ hl x hx
    have h1 : G.portNode (G.toPort e) = some n := (ok.mem_links.1 hl).2.1
    have hn' : inside n = true := hn
    change G.portNode (G.toPort f) = some x at hx
    simp [GView.insideLink, GView.insidePort, h1, hn', hx]
  all_neighbours n hn := by
    refine map_some_filter (ok.all_neighbours n (hin n hn)) ?_
    rintro ⟨e, f⟩ hl x hx
    rw [ok.all_links] at hl
    obtain ⟨p, hp, hl⟩ := List.mem_flatMap.1 (List.mem_filter.1 hl).1
    have h0 := ok.from_port _ _ _ hl
    rw [ok.all_ports, List.mem_append, ok.mem_ports, ok.mem_ports] at hp
    have h1 : G.portNode (G.toPort e) = some n := by rw [h0]; rcases hp with h | h <;> exact h.1
    have hn' : inside n = true := hn
    change G.portNode (G.toPort f) = some x at hx
    simp [GView.insideLink, GView.insidePort, h1, hn', hx]
  connections a b := by
    show (if inside a && inside b then G.getConnections a b else []) = ((G.links a .outgoing).filter _).filter _
    rw [ok.connections, List.filter_filter]
    split
    · next h =>
      simp only [Bool.and_eq_true] at h
      apply List.filter_congr
      rintro ⟨e, f⟩ hl
      have h1 : G.portNode (G.toPort e) = some a := (ok.mem_links.1 hl).2.1
      show decide (G.portNode (G.toPort f) = some b) =
        (decide (G.portNode (G.toPort f) = some b) && G.insideLink inside (e, f))
      by_cases hf : G.portNode (G.toPort f) = some b
      · simp [GView.insideLink, GView.insidePort, h1, hf, h]
      · simp [hf]
    · next h =>
      symm
      rw [List.filter_eq_nil_iff]
      rintro ⟨e, f⟩ hl
      have h1 : G.portNode (G.toPort e) = some a := (ok.mem_links.1 hl).2.1
      show ¬ (decide (G.portNode (G.toPort f) = some b) && G.insideLink inside (e, f)) = true
      simp only [Bool.and_eq_true, decide_eq_true_eq, GView.insideLink, insidePort_iff]
      rintro ⟨hf, ⟨n, h2, h3⟩, ⟨m, h4, h5⟩⟩
      rw [h1] at h2; rw [hf] at h4
      cases h2; cases h4
      exact h (by simp [h3, h5])

/-- `subports` and `all_subports` are not part of `Ok`. -/
theorem subgraph_ok (ok : G.Ok) {nodes : List Nat} (hnd : nodes.Nodup) (hin : ∀ n ∈ nodes, G.containsNode n = true) :
    (G.subgraph nodes).Ok := by
  have := restrict_ok (inside := (nodes.contains ·)) ok nodes.isEmpty (fun n h => hin n (by simpa using h)) hnd
    (fun n => by simp) rfl
  exact { this with }

/-! ## `link_count` -/

theorem restrict_count (ok : G.Ok) {inside : Nat → Bool} {nodes : List Nat} {c : Nat} (b : Bool)
    (hin : ∀ n, inside n = true → G.containsNode n = true) (hnd : nodes.Nodup) (hm : ∀ n, n ∈ nodes ↔ inside n = true)
    (hc : c = nodes.length) : (G.restrict inside nodes c b).CountOk :=
  (restrict_ok ok b hin hnd hm hc).countOk_iff.2 rfl

/-- The links of a view from a node to itself. -/
def GView.selfLinks (G : GView E) : List (E × E) :=
  G.outLinks.filter fun l => decide (G.portNode (G.toPort l.1) = G.portNode (G.toPort l.2))

theorem flatMap_length_add {α β : Type} {f a b : α → List β} : ∀ {l : List α},
    (∀ x ∈ l, (f x).length = (a x).length + (b x).length) →
    (l.flatMap f).length = (l.flatMap a).length + (l.flatMap b).length
  | [], _ => rfl
  | x :: l, h => by
    have ih := flatMap_length_add (l := l) fun x hx => h x (by simp [hx])
    simp only [List.flatMap_cons, List.length_append, ih, h x (by simp)]
    omega

theorem filter_not_length {α : Type} (P : α → Bool) : ∀ l : List α,
    (l.filter fun x => !P x).length + (l.filter P).length = l.length
  | [] => rfl
  | x :: l => by
    have := filter_not_length P l
    cases h : P x <;> simp [List.filter_cons, h] <;> omega

/-- Listing all links of every node counts the links between different nodes twice and the others
once. -/
theorem all_length (ok : G.Ok) :
    (G.nodes.flatMap G.allLinks).length + G.selfLinks.length = 2 * G.outLinks.length := by
  let self : E × E → Bool := fun l => decide (G.portNode (G.toPort l.1) = G.portNode (G.toPort l.2))
  have h1 : (G.nodes.flatMap G.allLinks).length =
      (G.nodes.flatMap fun n => (G.links n .incoming).filter fun l => !self l).length + G.outLinks.length := by
    apply flatMap_length_add
    intro n _
    rw [ok.all_links, ok.all_ports, List.flatMap_append, List.filter_append, ← ok.links_eq, ← ok.links_eq,
      List.length_append]
    congr 1
    · congr 1
      apply List.filter_congr
      rintro ⟨e, f⟩ hl
      obtain ⟨h2, h3, h4⟩ := ok.mem_links.1 hl
      obtain ⟨n', d, m, h5, h6, -, h7, h8, -⟩ := ok.shows_dir _ _ h2
      rw [h4] at h6; simp only [Option.some.injEq] at h6; subst h6
      unfold GView.On at h3 h7
      simp only [self]
      rw [h3, h7, h8]
      simp [Direction.reverse, eq_comm]
    · congr 1
      rw [List.filter_eq_self]
      rintro ⟨e, f⟩ hl
      obtain ⟨h2, h3, h4⟩ := ok.mem_links.1 hl
      obtain ⟨n', d, m, h5, h6, -, h7, h8, -⟩ := ok.shows_dir _ _ h2
      rw [h4] at h6; simp only [Option.some.injEq] at h6; subst h6
      simp [h8, Direction.reverse]
  have h2 := filter_not_length self (G.nodes.flatMap fun n => G.links n .incoming)
  rw [filter_flatMap', ok.in_length] at h2
  have h3 : ((G.nodes.flatMap fun n => G.links n .incoming).filter self).length = G.selfLinks.length := by
    rw [← List.length_map (f := Prod.swap)]
    apply List.Perm.length_eq
    have hin := ok.dir_list .incoming
    have hout := ok.dir_list .outgoing
    rw [List.perm_ext_iff_of_nodup]
    · rintro ⟨e, f⟩
      simp only [GView.selfLinks, GView.outLinks, List.mem_map, List.mem_filter, decide_eq_true_eq, self]
      constructor
      · rintro ⟨⟨a, b⟩, ⟨h4, h5⟩, h6⟩
        simp only [Prod.swap_prod_mk, Prod.mk.injEq] at h6
        obtain ⟨rfl, rfl⟩ := h6
        obtain ⟨h7, h8⟩ := (hin.2 _ _).1 h4
        obtain ⟨n, d, m, -, h9, -, -, h10, -⟩ := ok.shows_dir _ _ h7
        rw [h8] at h9; simp only [Option.some.injEq] at h9; subst h9
        exact ⟨(hout.2 _ _).2 ⟨ok.shows_sym _ _ h7, h10⟩, h5.symm⟩
      · rintro ⟨h4, h5⟩
        obtain ⟨h7, h8⟩ := (hout.2 _ _).1 h4
        obtain ⟨n, d, m, -, h9, -, -, h10, -⟩ := ok.shows_dir _ _ h7
        rw [h8] at h9; simp only [Option.some.injEq] at h9; subst h9
        exact ⟨(f, e), ⟨(hin.2 _ _).2 ⟨ok.shows_sym _ _ h7, h10⟩, h5.symm⟩, rfl⟩
    · exact (hin.1.filter _).map (fun a b h => by cases a; cases b; simp_all [Prod.swap])
    · exact hout.1.filter _
  omega

end

end Verif.View
