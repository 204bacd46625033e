import Verif.Weights.Model
import Verif.Secondary.Props
import Verif.PortGraph.PropsSet
import Verif.PortGraph.PropsCompact

/-!
# Weights follow their nodes and ports: C42
-/

namespace Verif.Weights

open Verif (Direction)
open Verif.Secondary Verif.PG

/-! ### Reported calls in increasing order -/

/-- One reported move, as far as other keys are concerned. -/
def Moves {V : Type} (f : Dense V → Nat → Nat → Dense V) (I : Dense V → Prop) : Prop :=
  ∀ w a b, I w → I (f w a b) ∧ (f w a b).get b = w.get a ∧ ∀ x, x ≠ a → x ≠ b → (f w a b).get x = w.get x

theorem moves_rekey {V : Type} (vd : V) : Moves (fun (w : Dense V) a b => w.rekey vd a (some b)) (fun w => w.default = vd) := by
  intro w a b hw
  have h := Dense.call_spec vd w (.rekey a (some b)) (.inl hw.symm)
  have hget : (w.rekey vd a (some b)).get = _ := h.2
  refine ⟨?_, ?_, ?_⟩
  · have := Dense.default_call vd w (.rekey a (some b))
    simp only [Dense.call] at this
    exact this.trans hw
  · rw [hget]; simp [specCall]
  · intro x h1 h2
    rw [hget]; simp [specCall, h1, h2]

theorem moves_swap {V : Type} : Moves (fun (w : Dense V) a b => w.swap a b) (fun _ => True) := by
  intro w a b _
  refine ⟨trivial, ?_, ?_⟩
  · rw [Dense.get_swap]; split
    · rename_i h; rw [h]
    · simp
  · intro x h1 h2
    rw [Dense.get_swap, if_neg h1, if_neg h2]

theorem moves_increasing {V : Type} {f : Dense V → Nat → Nat → Dense V} {I : Dense V → Prop} (hf : Moves f I)
    (tr : List (Nat × Nat)) : ∀ (w : Dense V) (k : Nat), I w → (tr.map (·.1)).Pairwise (· < ·) →
      tr.map (·.2) = List.range' k tr.length → (∀ x ∈ tr, k ≤ x.1) →
      (∀ x ∈ tr, (tr.foldl (fun w x => f w x.1 x.2) w).get x.2 = w.get x.1) ∧
      (∀ y, y < k → (tr.foldl (fun w x => f w x.1 x.2) w).get y = w.get y) := by
  induction tr with
  | nil => intro w k _ _ _ _; simp
  | cons x tr ih =>
    intro w k hI h1 h2 h3
    obtain ⟨a, b⟩ := x
    simp only [List.map_cons, List.length_cons, List.range'_succ, List.cons.injEq] at h2
    obtain ⟨hb, h2⟩ := h2
    subst hb
    simp only [List.map_cons, List.pairwise_cons] at h1
    have hab : b ≤ a := h3 (a, b) (by simp)
    obtain ⟨hI', hm1, hm2⟩ := hf w a b hI
    have hlt : ∀ x ∈ tr, a < x.1 := fun x hx => h1.1 x.1 (List.mem_map_of_mem hx)
    obtain ⟨r1, r2⟩ := ih (f w a b) (b + 1) hI' h1.2 h2 (fun x hx => by have := hlt x hx; omega)
    simp only [List.foldl_cons]
    constructor
    · intro x hx
      rcases List.mem_cons.1 hx with rfl | hx
      · rw [r2 b (by omega)]; exact hm1
      · rw [r1 x hx]
        have := hlt x hx
        exact hm2 _ (by omega) (by omega)
    · intro y hy
      rw [r2 y (by omega)]
      exact hm2 y (by omega) (by omega)

/-! ### Reported port operations -/

/-- One reported operation: `f` for a move, `r` for a removal. -/
def stepCb {V : Type} (f : Dense V → Nat → Nat → Dense V) (r : Dense V → Nat → Dense V) (w : Dense V) :
    Nat × PortOp → Dense V
  | (p, .removed _) => r w p
  | (p, .moved q) => f w p q

theorem track_get {V : Type} {f : Dense V → Nat → Nat → Dense V} {r : Dense V → Nat → Dense V} {I : Dense V → Prop}
    (hf : Moves f I) (hr : ∀ w a, I w → I (r w a) ∧ ∀ x, x ≠ a → (r w a).get x = w.get x) (tr : List (Nat × PortOp)) :
    ∀ (w : Dense V) (L : Nat → Prop), I w → (tr.map (·.1)).Nodup → (∀ q ∈ tr.map (·.1), L q) →
      (∀ p p' t, L p → L p' → PG.track tr p = some t → PG.track tr p' = some t → p = p') →
      ∀ p t, L p → PG.track tr p = some t →
        (tr.foldl (stepCb f r) w).get t = w.get p := by
  induction tr with
  | nil => intro w L _ _ _ _ p t _ ht; simp only [PG.track, Option.some.injEq] at ht; subst ht; rfl
  | cons x tr ih =>
    intro w L hI hnd hL hinj p t hp ht
    obtain ⟨q, op⟩ := x
    simp only [List.map_cons, List.nodup_cons] at hnd
    simp only [List.foldl_cons]
    cases op with
    | removed l =>
      simp only [stepCb]
      simp only [PG.track] at ht hinj
      by_cases hpq : p = q
      · rw [if_pos hpq] at ht; cases ht
      · rw [if_neg hpq] at ht
        obtain ⟨hI', hr'⟩ := hr w q hI
        rw [ih (r w q) (fun x => L x ∧ x ≠ q) hI' hnd.2 ?_ ?_ p t ⟨hp, hpq⟩ ht, hr' p hpq]
        · intro s hs
          exact ⟨hL s (by simp only [List.map_cons, List.mem_cons]; exact .inr hs), fun e => hnd.1 (e ▸ hs)⟩
        · rintro p1 p2 t' ⟨a1, a2⟩ ⟨b1, b2⟩ h1 h2
          exact hinj p1 p2 t' a1 b1 (by rw [if_neg a2]; exact h1) (by rw [if_neg b2]; exact h2)
    | moved s =>
      simp only [stepCb]
      simp only [PG.track] at ht hinj
      have hLq : L q := hL q (by simp)
      obtain ⟨hI', hm1, hm2⟩ := hf w q s hI
      have hnext : ∀ p t, ((L p ∧ p ≠ q) ∨ p = s) → PG.track tr p = some t →
          (tr.foldl (stepCb f r) (f w q s)).get t =
            (f w q s).get p := by
        refine ih (f w q s) (fun x => (L x ∧ x ≠ q) ∨ x = s) hI' hnd.2 ?_ ?_
        · intro s' hs
          exact .inl ⟨hL s' (by simp only [List.map_cons, List.mem_cons]; exact .inr hs), fun e => hnd.1 (e ▸ hs)⟩
        · intro p1 p2 t' h1 h2 k1 k2
          rcases h1 with ⟨a1, a2⟩ | rfl <;> rcases h2 with ⟨b1, b2⟩ | h2
          · exact hinj p1 p2 t' a1 b1 (by rw [if_neg a2]; exact k1) (by rw [if_neg b2]; exact k2)
          · subst h2
            exact absurd (hinj p1 q t' a1 hLq (by rw [if_neg a2]; exact k1) (by rw [if_pos rfl]; exact k2)) a2
          · exact absurd (hinj p2 q t' b1 hLq (by rw [if_neg b2]; exact k2) (by rw [if_pos rfl]; exact k1)) b2
          · exact h2.symm
      by_cases hpq : p = q
      · rw [if_pos hpq] at ht
        rw [hnext s t (.inr rfl) ht, hm1, hpq]
      · rw [if_neg hpq] at ht
        rw [hnext p t (.inl ⟨hp, hpq⟩) ht]
        have hps : p ≠ s := by
          rintro rfl
          exact hpq (hinj p q t hp hLq (by rw [if_neg hpq]; exact ht) (by rw [if_pos rfl]; exact ht))
        exact hm2 p hpq hps

/-! ## C42 -/

/-- Fresh weights read the default, and a written key reads the written value; the weights of the
other kind and of the other keys do not change. -/
theorem C42_weights {N P : Type} (dn : N) (dp : P) (w : Weights N P) (k : Nat) (vn : N) (vp : P) :
    (∀ x, (Weights.new dn dp).node x = dn ∧ (Weights.new dn dp).port x = dp) ∧
    (∀ x, (w.setNode k vn).node x = (if x = k then vn else w.node x) ∧ (w.setNode k vn).port x = w.port x) ∧
    (∀ x, (w.setPort k vp).port x = (if x = k then vp else w.port x) ∧ (w.setPort k vp).node x = w.node x) := by
  refine ⟨fun x => ⟨?_, ?_⟩, fun x => ⟨Dense.get_set _ _ _ _, rfl⟩, fun x => ⟨Dense.get_set _ _ _ _, rfl⟩⟩
  · simp [Weights.node, Weights.new, Dense.withDefault, Dense.get]
  · simp [Weights.port, Weights.new, Dense.withDefault, Dense.get]

/-- After `compact_nodes` with `rekey` (or `swap`) as callback, every live node has its weight
under its new index. -/
theorem C42_compact_nodes {maxOff : Nat} (hmax : maxOff ≤ 32767) {g : PG} (hg : PG.Reach maxOff g) {V : Type} (w : Dense V) :
    ∃ g' tr, g.compactNodes = some (g', tr) ∧ ∀ n, g.containsNode n = true → ∃ n', (n, n') ∈ tr ∧
      (∀ d k, g'.portIndex n' d k = g.portIndex n d k) ∧ (rekeyAll w.default w tr).get n' = w.get n ∧
      (swapAll w tr).get n' = w.get n := by
  obtain ⟨g', tr, h1, h2, h3, h4, h5, -⟩ := C15_compact_nodes hmax hg
  refine ⟨g', tr, h1, ?_⟩
  have hlen : g.nodeCount = tr.length := by
    have := congrArg List.length h4; simpa using this.symm
  have h4' : tr.map (·.2) = List.range' 0 tr.length := by rw [h4, List.range_eq_range', hlen]
  have m1 := (moves_increasing (moves_rekey w.default) tr w 0 rfl h2 h4' (by simp)).1
  have m2 := (moves_increasing moves_swap tr w 0 trivial h2 h4' (by simp)).1
  intro n hn
  obtain ⟨x, hx, hx'⟩ := List.mem_map.1 ((h3 n).2 hn)
  obtain ⟨a, b⟩ := x
  simp only at hx'; subst hx'
  refine ⟨b, hx, ?_, m1 _ hx, m2 _ hx⟩
  obtain ⟨-, h6⟩ := h5 (fun n => (tr.lookup n).getD 0) (by
    intro x hx
    have hnd : ∀ (l : List (Nat × Nat)), (l.map (·.1)).Pairwise (· < ·) → ∀ x ∈ l, l.lookup x.1 = some x.2 := by
      intro l
      induction l with
      | nil => simp
      | cons y l ih =>
        intro hp x hx
        simp only [List.map_cons, List.pairwise_cons] at hp
        rw [List.lookup_cons]
        rcases List.mem_cons.1 hx with rfl | hx
        · simp
        · have := hp.1 x.1 (List.mem_map_of_mem hx)
          have hne : (x.1 == y.1) = false := by simp; omega
          rw [hne]
          exact ih hp.2 x hx
    rw [hnd tr h2 x hx]; rfl)
  have hl : tr.lookup a = some b := by
    have hnd : ∀ (l : List (Nat × Nat)), (l.map (·.1)).Pairwise (· < ·) → ∀ x ∈ l, l.lookup x.1 = some x.2 := by
      intro l
      induction l with
      | nil => simp
      | cons y l ih =>
        intro hp x hx
        simp only [List.map_cons, List.pairwise_cons] at hp
        rw [List.lookup_cons]
        rcases List.mem_cons.1 hx with rfl | hx
        · simp
        · have := hp.1 x.1 (List.mem_map_of_mem hx)
          have hne : (x.1 == y.1) = false := by simp; omega
          rw [hne]
          exact ih hp.2 x hx
    exact hnd tr h2 _ hx
  intro d k
  have := h6 a d k hn
  simp only [hl, Option.getD_some] at this
  exact this

/-- After `compact_ports` with `rekey` (or `swap`) as callback, every port has its weight under
its new index. -/
theorem C42_compact_ports {maxOff : Nat} (hmax : maxOff ≤ 32767) {g : PG} (hg : PG.Reach maxOff g) {V : Type} (w : Dense V) :
    ∃ g' tr, g.compactPorts = some (g', tr) ∧ ∀ n d k p, g.portIndex n d k = some p → ∃ q, g'.portIndex n d k = some q ∧
      (p, q) ∈ tr ∧ (rekeyAll w.default w tr).get q = w.get p ∧ (swapAll w tr).get q = w.get p := by
  obtain ⟨g', tr, h1, -, h2, h3, h4, -, -, h5, -⟩ := C16_compact_ports_partial hmax hg
  have hI := hg.inv hmax
  refine ⟨g', tr, h1, ?_⟩
  have hlen : g.portCount = tr.length := by
    have := congrArg List.length h4; simpa using this.symm
  have h4' : tr.map (·.2) = List.range' 0 tr.length := by rw [h4, List.range_eq_range', hlen]
  have m1 := (moves_increasing (moves_rekey w.default) tr w 0 rfl h2 h4' (by simp)).1
  have m2 := (moves_increasing moves_swap tr w 0 trivial h2 h4' (by simp)).1
  intro n d k p hp
  have hat := at_index.1 hp
  obtain ⟨x, hx, hx'⟩ := List.mem_map.1 ((h3 p).2 (containsPort_iff.2 (by rw [hat.port hI]; rfl)))
  obtain ⟨a, b⟩ := x
  simp only at hx'; subst hx'
  exact ⟨b, h5 _ _ _ hx (hat.endpoint hI), hx, m1 _ hx, m2 _ hx⟩

/-- After `set_num_ports` with `rekey` (or with the `swap` callback of the documentation), every
surviving port of the graph has its weight under its new index. -/
theorem C42_set_num_ports {maxOff : Nat} (hmax : maxOff ≤ 32767) {g : PG} (hg : PG.Reach maxOff g) {n i o : Nat}
    {g' : PG} {tr : List (Nat × PortOp)} (hn : g.containsNode n = true) (h : g.setNumPorts n i o = some (g', tr))
    {V : Type} (w : Dense V) {n' d k p q} (hp : g.portIndex n' d k = some p) (hq : g'.portIndex n' d k = some q) :
    (rekeyPorts w.default w tr).get q = w.get p ∧ (swapPorts w tr).get q = w.get p := by
  have hI := hg.inv hmax
  have htr : ∀ p e, g.endpoint p = some e → PG.track tr p = g'.portIndex e.1 e.2.1 e.2.2 :=
    fun p e he => (C13_track hmax hg hn h he).1
  obtain ⟨hnd, hsrc⟩ := C13_reported_once hmax hg hn h
  have hI' : Inv g' := by
    rcases setNumPorts_effect hI hn h with ⟨-, -, rfl, -⟩ | ⟨m, nm, tr1, tr2, hm, hI', -⟩
    · exact hI
    · exact hI'
  have hL : ∀ q ∈ tr.map (·.1), ∃ e, g.endpoint q = some e := by
    intro q hq
    have := hsrc q hq
    obtain ⟨⟨n1, d1⟩, hx, -⟩ := Option.map_eq_some_iff.1 this
    obtain ⟨m, -, -, h1⟩ := port_at hI hx
    exact ⟨_, h1.endpoint hI⟩
  have hinj : ∀ p p' t, (∃ e, g.endpoint p = some e) → (∃ e, g.endpoint p' = some e) →
      PG.track tr p = some t → PG.track tr p' = some t → p = p' := by
    rintro p p' t ⟨⟨n1, d1, k1⟩, he⟩ ⟨⟨n2, d2, k2⟩, he'⟩ h1 h2
    rw [htr _ _ he] at h1
    rw [htr _ _ he'] at h2
    have := (at_index.1 h1).inj hI' (at_index.1 h2)
    rw [← this] at he'
    exact ((endpoint_at hI).1 he).unique ((endpoint_at hI).1 he')
  have hat := (at_index.1 hp).endpoint hI
  have ht : PG.track tr p = some q := by rw [htr _ _ hat]; exact hq
  constructor
  · have key := track_get (moves_rekey w.default) (r := fun w' a => w'.rekey w.default a none) (by
      intro w' a hw
      have h := (Dense.call_spec w.default w' (.rekey a none) (.inl hw.symm)).2
      have hget : (w'.rekey w.default a none).get = _ := h
      refine ⟨?_, ?_⟩
      · have := Dense.default_call w.default w' (.rekey a none)
        simp only [Dense.call] at this
        rw [this, hw]
      · intro x hx
        rw [hget]; simp [specCall, hx]) tr w _ rfl hnd hL hinj p q ⟨_, hat⟩ ht
    rw [← key]
    unfold rekeyPorts
    congr 2
    funext w' x
    obtain ⟨a, op⟩ := x
    cases op <;> rfl
  · rw [← track_get moves_swap (r := fun w' _ => w') (fun w' a _ => ⟨trivial, fun _ _ => rfl⟩) tr w _ trivial hnd hL
      hinj p q ⟨_, hat⟩ ht]
    unfold swapPorts
    congr 2
    funext w' x
    obtain ⟨a, op⟩ := x
    cases op <;> rfl

/-- After `swap_nodes` and a swap of the two node weights, every live node has its weight under its new
index, and its ports keep their indices and with them their weights. -/
theorem C42_swap_nodes {maxOff : Nat} (hmax : maxOff ≤ 32767) {g : PG} (hg : PG.Reach maxOff g) {a b : Nat}
    (hab : g.swappable a b = true) {V : Type} (w : Dense V) :
    ∃ g', g.swapNodes a b = some g' ∧ ∀ n, g.containsNode n = true →
      g'.containsNode (exchange a b n) = true ∧ (w.swap a b).get (exchange a b n) = w.get n ∧
      ∀ d k, g'.portIndex (exchange a b n) d k = g.portIndex n d k := by
  obtain ⟨g', h1, -, h2, h3, -⟩ := C17_swap_nodes_partial hmax hg hab
  refine ⟨g', h1, fun n hn => ⟨?_, ?_, fun d k => h3 n d k⟩⟩
  · obtain ⟨m, hm⟩ := Option.isSome_iff_exists.1 (containsNode_iff.1 hn)
    have := (h2.counts (exchange a b n) (m.incoming, m.outgoing)).2 ⟨n, rfl, by rw [abs_counts, hm]; rfl⟩
    rw [abs_counts] at this
    rw [containsNode_iff]
    cases e : g'.node? (exchange a b n) with
    | none => rw [e] at this; simp at this
    | some _ => rfl
  · rw [Dense.get_swap]
    unfold exchange
    grind

/-- The default of the map matters: with another default than `V::default()` (here 7 and 0; the maps of
`Weights` are public fields, so this can be built) node 1 has weight 7 before `compact_nodes` and 0 after. -/
theorem C42_witness_default :
    ((PG.run 32767 PG.empty [.addNode 0 0, .addNode 0 0, .removeNode 0]).bind fun g => g.compactNodes.map fun x =>
      (x.2, ((Dense.withDefault 7).set 0 5).get 1, (rekeyAll 0 ((Dense.withDefault 7).set 0 5) x.2).get 0)) =
    some ([(1, 0)], 7, 0) := by decide

/-- Weights on the example graph, before and after a compaction and a resize. -/
example : exG.containsNode 3 = true ∧ exG.containsNode 2 = false ∧
    (exG.compactNodes.map fun x => (rekeyAll 0 (((Dense.withDefault 0).set 3 7).set 2 9) x.2).get 2) = some 7 := by decide

example : exG.containsNode 0 = true ∧ exG.portIndex 0 .outgoing 1 = some 3 ∧
    (exG.setNumPorts 0 1 3).map (fun x => (x.1.portIndex 0 .outgoing 1, (rekeyPorts 0 ((Dense.withDefault 0).set 3 7) x.2).data)) =
      some (some 12, [0, 0, 0, 0, 0, 0, 0, 0, 0, 0, 0, 0, 7]) := by decide

example := C42_compact_nodes (by decide) exG_reach (((Dense.withDefault 0).set 3 7).set 2 9)

example := C42_compact_ports (by decide) exG_reach ((Dense.withDefault 0).set 8 7)

example := C42_set_num_ports (by decide) exG_reach (n := 0) (i := 1) (o := 3) (g' := ((exG.setNumPorts 0 1 3).getD (exG, [])).1)
  (tr := ((exG.setNumPorts 0 1 3).getD (exG, [])).2) (by decide) rfl ((Dense.withDefault 0).set 3 7) (n' := 0) (d := .outgoing) (k := 1)
  (p := 3) (q := 12) (by decide) (by decide)

example := C42_swap_nodes (by decide) exG_reach (a := 0) (b := 3) (by decide) ((Dense.withDefault 0).set 0 7)

end Verif.Weights

#print axioms Verif.Weights.C42_weights
#print axioms Verif.Weights.C42_compact_nodes
#print axioms Verif.Weights.C42_compact_ports
#print axioms Verif.Weights.C42_set_num_ports
#print axioms Verif.Weights.C42_swap_nodes
#print axioms Verif.Weights.C42_witness_default
