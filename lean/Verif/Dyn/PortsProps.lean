import Verif.Dyn.ConvexProps
import Verif.Agree.Lemmas

/-!
# C33, C34: convexity with boundary ports, and the errors of the dynamic order
-/

namespace Verif.Dyn

open Verif (Direction)
open Verif.PG
open Verif.Algo
open Verif.Convex

/-! ## The search of `can_reach_inputs` -/

/-- The position of a node is in the range. -/
def inRange (D : TSort) (lo hi x : Nat) : Bool := match D.pos x with
  | none => false
  | some p => decide (lo ≤ p) && decide (p ≤ hi)

theorem inRange_iff {D : TSort} {lo hi x : Nat} : inRange D lo hi x = true ↔ ∃ i, D.pos x = some i ∧ lo ≤ i ∧ i ≤ hi := by
  unfold inRange
  cases D.pos x <;> simp

/-- One step back in the range. -/
def Back (D : TSort) (G : View) (lo hi a b : Nat) : Prop :=
  b ∈ neighbours G a .incoming ∧ inRange D lo hi a = true ∧ inRange D lo hi b = true

section
variable {D : TSort} {G : View} {start lo hi : Nat} {S ins : List Nat}

theorem reachLoop_nil {f : Nat} {vis : List Nat}
    (hvis : ∀ v ∈ vis, inRange D lo hi v = true → (∀ b, Back D G lo hi v b → b ∈ vis ∨ ∃ e, (b, e) ∈ ([] : List (Nat × Bool))) ∧
      (v ∈ ins → v ∈ S ∧ Relation.ReflTransGen (fun a b => Back D G lo hi a b ∧ b ∈ S) start v)) :
    ∃ r, D.reachLoop G start lo hi S ins f [] vis = some r ∧
      (r = true → ∃ i ∈ ins, ∃ y, Relation.ReflTransGen (Back D G lo hi) start y ∧ y ∉ S ∧
        Relation.ReflTransGen (Back D G lo hi) y i) ∧
      (r = false → ∀ v, (v ∈ vis ∨ ∃ e, (v, e) ∈ ([] : List (Nat × Bool))) → ∀ x, Relation.ReflTransGen (Back D G lo hi) v x →
        inRange D lo hi x = true → x ∈ ins →
        x ∈ S ∧ Relation.ReflTransGen (fun a b => Back D G lo hi a b ∧ b ∈ S) start x) := by
  refine ⟨false, by cases f <;> rfl, by simp, fun _ v hv x hx hr hi' => ?_⟩
  have hv : v ∈ vis := by simpa using hv
  have key : ∀ x, Relation.ReflTransGen (Back D G lo hi) v x → x ∈ vis := by
    intro x hx
    induction hx with
    | refl => exact hv
    | tail _ hyz ih => simpa using (hvis _ ih hyz.2.1).1 _ hyz
  exact (hvis x (key x hx) hr).2 hi'

theorem rest_outside {next : Nat → List Nat} {U vis : List Nat} {n : Nat} (hn : n ∉ U) :
    rest next U (n :: vis) = rest next U vis := by
  unfold rest
  congr 2
  apply List.filter_congr
  intro x hx
  have : x ≠ n := fun e => hn (e ▸ hx)
  simp [this]

theorem reachLoop_ok {U : List Nat} (hU : U.Nodup) (hnext : ∀ n, n ∉ U → neighbours G n .incoming = []) (hst : start ∈ S)
    {f : Nat} {queue : List (Nat × Bool)} {vis : List Nat}
    (hq : ∀ q ∈ queue, Relation.ReflTransGen (Back D G lo hi) start q.1 ∧
      (q.2 = true → ∃ y, Relation.ReflTransGen (Back D G lo hi) start y ∧ y ∉ S ∧ Relation.ReflTransGen (Back D G lo hi) y q.1) ∧
      (q.2 = false → q.1 ∈ S → Relation.ReflTransGen (fun a b => Back D G lo hi a b ∧ b ∈ S) start q.1))
    (hvis : ∀ v ∈ vis, inRange D lo hi v = true → (∀ b, Back D G lo hi v b → b ∈ vis ∨ ∃ e, (b, e) ∈ queue) ∧
      (v ∈ ins → v ∈ S ∧ Relation.ReflTransGen (fun a b => Back D G lo hi a b ∧ b ∈ S) start v))
    (hf : queue.length + rest (fun n => neighbours G n .incoming) U vis ≤ f) :
    ∃ r, D.reachLoop G start lo hi S ins f queue vis = some r ∧
      (r = true → ∃ i ∈ ins, ∃ y, Relation.ReflTransGen (Back D G lo hi) start y ∧ y ∉ S ∧
        Relation.ReflTransGen (Back D G lo hi) y i) ∧
      (r = false → ∀ v, (v ∈ vis ∨ ∃ e, (v, e) ∈ queue) → ∀ x, Relation.ReflTransGen (Back D G lo hi) v x →
        inRange D lo hi x = true → x ∈ ins →
        x ∈ S ∧ Relation.ReflTransGen (fun a b => Back D G lo hi a b ∧ b ∈ S) start x) := by
  induction f generalizing queue vis with
  | zero =>
    have : queue = [] := List.length_eq_zero_iff.1 (by omega)
    subst this
    exact reachLoop_nil hvis
  | succ f ih =>
    cases queue with
    | nil => exact reachLoop_nil hvis
    | cons q queue =>
      obtain ⟨n, e⟩ := q
      rw [List.length_cons] at hf
      obtain ⟨q1, q2, q3⟩ := hq (n, e) (by simp)
      have hq' : ∀ q ∈ queue, _ := fun q hq' => hq q (by simp [hq'])
      rw [show D.reachLoop G start lo hi S ins (f + 1) ((n, e) :: queue) vis =
        (if vis.contains n then D.reachLoop G start lo hi S ins f queue vis
        else if !inRange D lo hi n then D.reachLoop G start lo hi S ins f queue (n :: vis)
        else if (e || (!S.contains n && n != start)) && ins.contains n then some true
        else D.reachLoop G start lo hi S ins f
          (queue ++ ((neighbours G n .incoming).filter (inRange D lo hi)).map fun x => (x, e || (!S.contains n && n != start)))
          (n :: vis)) from rfl]
      by_cases hv : n ∈ vis
      · rw [if_pos (by simpa using hv)]
        obtain ⟨r, h1, h2, h3⟩ := ih (queue := queue) (vis := vis) hq' (by
          intro v hv' hr
          refine ⟨fun b hb => ?_, (hvis v hv' hr).2⟩
          rcases (hvis v hv' hr).1 b hb with h | ⟨e', h⟩
          · exact .inl h
          · rcases List.mem_cons.1 h with h | h
            · cases h; exact .inl hv
            · exact .inr ⟨e', h⟩) (by omega)
        refine ⟨r, h1, h2, fun hr v hv' => h3 hr v ?_⟩
        rcases hv' with h | ⟨e', h⟩
        · exact .inl h
        · rcases List.mem_cons.1 h with h | h
          · cases h; exact .inl hv
          · exact .inr ⟨e', h⟩
      · rw [if_neg (by simpa using hv)]
        have move : ∀ {queue' : List (Nat × Bool)}, (∀ q ∈ queue, q ∈ queue') → ∀ v,
            (v ∈ vis ∨ ∃ e', (v, e') ∈ (n, e) :: queue) → v ∈ n :: vis ∨ ∃ e', (v, e') ∈ queue' := by
          intro queue' hsub v hv'
          rcases hv' with h | ⟨e', h⟩
          · exact .inl (by simp [h])
          · rcases List.mem_cons.1 h with h | h
            · cases h; exact .inl (by simp)
            · exact .inr ⟨e', hsub _ h⟩
        have hrest : (neighbours G n .incoming).length + rest (fun n => neighbours G n .incoming) U (n :: vis) ≤
            rest (fun n => neighbours G n .incoming) U vis := by
          by_cases hnU : n ∈ U
          · have := rest_cons (next := fun n => neighbours G n .incoming) hU hnU hv
            omega
          · rw [hnext n hnU, rest_outside hnU]; simp
        by_cases hr : inRange D lo hi n = true
        · rw [if_neg (by simp [hr])]
          have hout : (e || (!S.contains n && n != start)) = true ↔ e = true ∨ n ∉ S := by
            simp only [Bool.or_eq_true, Bool.and_eq_true, Bool.not_eq_true', List.contains_eq_mem, decide_eq_false_iff_not,
              bne_iff_ne]
            constructor
            · rintro (h | h)
              · exact .inl h
              · exact .inr h.1
            · rintro (h | h)
              · exact .inl h
              · exact .inr ⟨h, fun hc => h (hc ▸ hst)⟩
          have hE : (e || (!S.contains n && n != start)) = true → ∃ y, Relation.ReflTransGen (Back D G lo hi) start y ∧ y ∉ S ∧
              Relation.ReflTransGen (Back D G lo hi) y n := by
            intro h
            rcases hout.1 h with h | h
            · exact q2 h
            · exact ⟨n, q1, h, .refl⟩
          have hI : (e || (!S.contains n && n != start)) = false → n ∈ S ∧
              Relation.ReflTransGen (fun a b => Back D G lo hi a b ∧ b ∈ S) start n := by
            intro h
            rw [← Bool.not_eq_true, hout, not_or, not_not] at h
            exact ⟨h.2, q3 (by simpa using h.1) h.2⟩
          generalize (e || (!S.contains n && n != start)) = e' at hE hI
          by_cases hin : (e' && ins.contains n) = true
          · rw [if_pos hin]
            simp only [Bool.and_eq_true, List.contains_eq_mem, decide_eq_true_eq] at hin
            obtain ⟨y, h1, h2, h3⟩ := hE hin.1
            exact ⟨true, rfl, fun _ => ⟨n, hin.2, y, h1, h2, h3⟩, by simp⟩
          · rw [if_neg hin]
            obtain ⟨r, h1, h2, h3⟩ := ih
              (queue := queue ++ ((neighbours G n .incoming).filter (inRange D lo hi)).map fun x => (x, e')) (vis := n :: vis) (by
              intro q hq''
              rcases List.mem_append.1 hq'' with h | h
              · exact hq' q h
              · simp only [List.mem_map, List.mem_filter] at h
                obtain ⟨x, ⟨hx, hxr⟩, rfl⟩ := h
                have hb : Back D G lo hi n x := ⟨hx, hr, hxr⟩
                refine ⟨q1.tail hb, ?_, ?_⟩
                · intro h
                  obtain ⟨y, h1, h2, h3⟩ := hE h
                  exact ⟨y, h1, h2, h3.tail hb⟩
                · intro h hxS
                  exact (hI h).2.tail ⟨hb, hxS⟩) (by
              intro v hv' hvr
              rcases List.mem_cons.1 hv' with rfl | hv'
              · refine ⟨fun b hb => .inr ⟨e', ?_⟩, fun hin' => ?_⟩
                · simp only [List.mem_append, List.mem_map, List.mem_filter]
                  exact .inr ⟨b, ⟨hb.1, hb.2.2⟩, rfl⟩
                · apply hI
                  simp only [List.contains_eq_mem, hin', decide_true, Bool.and_true, Bool.not_eq_true] at hin
                  exact hin
              · exact ⟨fun b hb => move (fun q hq => by simp [hq]) b ((hvis v hv' hvr).1 b hb), (hvis v hv' hvr).2⟩) (by
              simp only [List.length_append, List.length_map]
              have := List.length_filter_le (inRange D lo hi) (neighbours G n .incoming)
              omega)
            exact ⟨r, h1, h2, fun hr' v hv' => h3 hr' v (move (fun q hq => by simp [hq]) v hv')⟩
        · rw [if_pos (by simp [hr])]
          obtain ⟨r, h1, h2, h3⟩ := ih (queue := queue) (vis := n :: vis) hq' (by
            intro v hv' hvr
            rcases List.mem_cons.1 hv' with rfl | hv'
            · exact absurd hvr hr
            · exact ⟨fun b hb => move (fun q hq => hq) b ((hvis v hv' hvr).1 b hb), (hvis v hv' hvr).2⟩) (by omega)
          exact ⟨r, h1, h2, fun hr' v hv' => h3 hr' v (move (fun q hq => hq) v hv')⟩

end

/-- What `can_reach_inputs` answers. -/
theorem canReachInputs_ok {D : TSort} {G : View} (hG : G.WF) {start lo hi : Nat} {S inputs : List Nat} (hst : start ∈ S) :
    ∃ r, D.canReachInputs G start lo hi S inputs = some r ∧
      (r = true → ∃ p ∈ inputs, ∃ i, G.portNode p = some i ∧ ∃ y, Relation.ReflTransGen (Back D G lo hi) start y ∧ y ∉ S ∧
        Relation.ReflTransGen (Back D G lo hi) y i) ∧
      (r = false → ∀ p ∈ inputs, ∀ i, G.portNode p = some i → Relation.ReflTransGen (Back D G lo hi) start i →
        inRange D lo hi i = true → i ∈ S ∧ Relation.ReflTransGen (fun a b => Back D G lo hi a b ∧ b ∈ S) start i) := by
  obtain ⟨r, h1, h2, h3⟩ := reachLoop_ok (D := D) (G := G) (start := start) (lo := lo) (hi := hi) (S := S)
    (ins := inputs.filterMap G.portNode) (U := G.nodes) hG.nodes_nodup (by
      intro n hn
      rw [List.eq_nil_iff_forall_not_mem]
      intro x hx
      exact hn (varc_nodes hG ((mem_neighbours hG).1 hx)).1) hst
    (f := (G.nodes.map fun n => (neighbours G n .incoming).length).sum + 1) (queue := [(start, false)]) (vis := [])
    (by simp [Relation.ReflTransGen.refl]) (by simp) (by
      have : rest (fun n => neighbours G n .incoming) G.nodes [] =
          (G.nodes.map fun n => (neighbours G n .incoming).length).sum := by unfold rest; simp
      rw [this]; simp only [List.length_singleton]; omega)
  refine ⟨r, h1, ?_, ?_⟩
  · intro hr
    obtain ⟨i, hi', y, h4, h5, h6⟩ := h2 hr
    obtain ⟨p, hp, hpi⟩ := List.mem_filterMap.1 hi'
    exact ⟨p, hp, i, hpi, y, h4, h5, h6⟩
  · intro hr p hp i hpi hsi hir
    exact h3 hr start (.inr ⟨false, by simp⟩) i hsi hir (List.mem_filterMap.2 ⟨p, hp, hpi⟩)

theorem back_arc {g : PG} (hI : PG.Inv g) {D : TSort} {lo hi a b : Nat} :
    Back D (ofPG g) lo hi a b ↔ Arc g .outgoing b a ∧ inRange D lo hi a = true ∧ inRange D lo hi b = true := by
  unfold Back
  rw [mem_neighbours (ofPG_wf hI), varc_iff hI, show Direction.incoming = Direction.outgoing.reverse from rfl, Agree.arc_reverse hI]

theorem back_star {g : PG} (hI : PG.Inv g) {D : TSort} {lo hi a b : Nat}
    (h : Relation.ReflTransGen (Back D (ofPG g) lo hi) a b) : Relation.ReflTransGen (Arc g .outgoing) b a := by
  induction h with
  | refl => exact .refl
  | tail _ hyz ih => exact .head ((back_arc hI).1 hyz).1 ih

/-- `is_convex` with boundary ports. A refused set has a path from the node of an input to the node
of an output which passes through a node outside. In an accepted set, whenever there is a path from
the node of an input to the node of an output, there is one inside. What is missing: another path
between them may leave the set, see the witness. -/
theorem C34_is_convex_ports_partial {maxOff : Nat} (hmax : maxOff ≤ 32767) {c : Checker} (h : Ok maxOff c)
    {S inputs outputs : List Nat} (hS : ∀ n ∈ S, c.graph.containsNode n = true) {m₁ m₂ : Nat} (hm₁ : m₁ ∈ S) (hm₂ : m₂ ∈ S)
    (hne : m₁ ≠ m₂) (hio : inputs ≠ [] ∨ outputs ≠ []) :
    ∃ r, c.isConvex S inputs outputs = some r ∧
      (r = false → ∃ p ∈ inputs, ∃ q ∈ outputs, ∃ a b x, c.graph.portNode p = some a ∧ c.graph.portNode q = some b ∧ b ∈ S ∧
        x ∉ S ∧ Relation.ReflTransGen (Arc c.graph .outgoing) a x ∧ Relation.ReflTransGen (Arc c.graph .outgoing) x b) ∧
      (r = true → ∀ p ∈ inputs, ∀ q ∈ outputs, ∀ a b, c.graph.portNode p = some a → c.graph.portNode q = some b →
        a ∈ S → b ∈ S → Relation.ReflTransGen (Arc c.graph .outgoing) a b →
        Relation.ReflTransGen (fun x y => Arc c.graph .outgoing x y ∧ x ∈ S ∧ y ∈ S) a b) := by
  have hI := h.graph.inv hmax
  have hmem : ∀ x, x ∈ S.dedup ↔ x ∈ S := fun x => List.mem_dedup
  have htr : ∀ x ∈ S, ∃ i, c.topo.pos x = some i := fun x hx => h.topo.tracked.1 (hS x hx)
  unfold Checker.isConvex
  simp only
  rw [if_neg (by
    simp only [List.any_eq_true, not_exists, not_and, Bool.not_eq_true, Option.isNone_eq_false_iff]
    intro x hx
    obtain ⟨i, hi⟩ := htr x ((hmem x).1 hx)
    simp [hi])]
  rw [if_neg (by
    have h1 := (hmem m₁).2 hm₁
    have h2 := (hmem m₂).2 hm₂
    match hd : S.dedup with
    | [] => simp [hd] at h1
    | [y] => simp [hd] at h1 h2; exact absurd (h1.trans h2.symm) hne
    | y :: z :: l => simp)]
  rw [if_neg (by
    simp only [Bool.and_eq_true, List.isEmpty_iff, not_and]
    rcases hio with hio | hio
    · exact fun hc => absurd hc hio
    · exact fun _ => hio)]
  generalize hps : S.dedup.filterMap c.topo.pos = ps
  have hpm : ∀ i, i ∈ ps ↔ ∃ x ∈ S, c.topo.pos x = some i := by
    intro i; rw [← hps, List.mem_filterMap]; simp only [hmem]
  generalize hlo : ps.foldl min (ps.headD 0) = lo
  generalize hhi : ps.foldl max 0 = hi
  have hlo' : ∀ i ∈ ps, lo ≤ i := by rw [← hlo]; exact foldl_min_le.2
  have hhi' : ∀ i ∈ ps, i ≤ hi := by rw [← hhi]; exact foldl_max_ge.2
  -- the answer for each output
  have one : ∀ b ∈ S, ∃ r, c.topo.canReachInputs (ofPG c.graph) b lo hi S.dedup inputs = some r ∧
      (r = true → ∃ p ∈ inputs, ∃ a x, c.graph.portNode p = some a ∧ x ∉ S ∧
        Relation.ReflTransGen (Arc c.graph .outgoing) a x ∧ Relation.ReflTransGen (Arc c.graph .outgoing) x b) ∧
      (r = false → ∀ p ∈ inputs, ∀ a, c.graph.portNode p = some a → a ∈ S → Relation.ReflTransGen (Arc c.graph .outgoing) a b →
        Relation.ReflTransGen (fun x y => Arc c.graph .outgoing x y ∧ x ∈ S ∧ y ∈ S) a b) := by
    intro b hb
    obtain ⟨r, h1, h2, h3⟩ := canReachInputs_ok (D := c.topo) (ofPG_wf hI) (lo := lo) (hi := hi) (inputs := inputs) ((hmem b).2 hb)
    refine ⟨r, h1, ?_, ?_⟩
    · intro hr
      obtain ⟨p, hp, i, hpi, y, h4, h5, h6⟩ := h2 hr
      exact ⟨p, hp, i, y, hpi, fun hc => h5 ((hmem y).2 hc), back_star hI h6, back_star hI h4⟩
    · intro hr p hp a hpa ha hab
      obtain ⟨pa, hpa'⟩ := htr a ha
      obtain ⟨pb, hpb'⟩ := htr b hb
      have hla := hlo' pa ((hpm pa).2 ⟨a, ha, hpa'⟩)
      have hhb := hhi' pb ((hpm pb).2 ⟨b, hb, hpb'⟩)
      have rng : ∀ x, Relation.ReflTransGen (Arc c.graph .outgoing) a x → Relation.ReflTransGen (Arc c.graph .outgoing) x b →
          inRange c.topo lo hi x = true := by
        intro x hax hxb
        obtain ⟨px, hpx⟩ := h.topo.tracked.1 (h.topo.star_live hax (hS a ha))
        have e1 := h.topo.le hax hpa' hpx
        have e2 := h.topo.le hxb hpx hpb'
        exact inRange_iff.2 ⟨px, hpx, by omega, by omega⟩
      have hback : ∀ x, Relation.ReflTransGen (Arc c.graph .outgoing) a x → Relation.ReflTransGen (Arc c.graph .outgoing) x b →
          Relation.ReflTransGen (Back c.topo (ofPG c.graph) lo hi) b x := by
        intro x hax hxb
        induction hxb using Relation.ReflTransGen.head_induction_on with
        | refl => exact .refl
        | head hxy hyb ih =>
          exact (ih (hax.tail hxy)).tail ((back_arc hI).2 ⟨hxy, rng _ (hax.tail hxy) hyb, rng _ hax (.head hxy hyb)⟩)
      obtain ⟨-, hin⟩ := h3 hr p hp a hpa (hback a .refl hab) (rng a .refl hab)
      have key : ∀ x, Relation.ReflTransGen (fun a b => Back c.topo (ofPG c.graph) lo hi a b ∧ b ∈ S.dedup) b x →
          x ∈ S ∧ Relation.ReflTransGen (fun x y => Arc c.graph .outgoing x y ∧ x ∈ S ∧ y ∈ S) x b := by
        intro x hx
        induction hx with
        | refl => exact ⟨hb, .refl⟩
        | tail _ hyz ih =>
          have hz := (hmem _).1 hyz.2
          exact ⟨hz, .head ⟨((back_arc hI).1 hyz.1).1, hz, ih.1⟩ ih.2⟩
      exact (key a hin).2
  -- the loop over the outputs
  have loop : ∀ os : List Nat, ∃ r, Checker.anyM (fun p => match c.graph.portNode p with
        | none => some false
        | some n => if S.dedup.contains n then c.topo.canReachInputs (ofPG c.graph) n lo hi S.dedup inputs else some false) os = some r ∧
      (r = true → ∃ p ∈ inputs, ∃ q ∈ os, ∃ a b x, c.graph.portNode p = some a ∧ c.graph.portNode q = some b ∧ b ∈ S ∧
        x ∉ S ∧ Relation.ReflTransGen (Arc c.graph .outgoing) a x ∧ Relation.ReflTransGen (Arc c.graph .outgoing) x b) ∧
      (r = false → ∀ p ∈ inputs, ∀ q ∈ os, ∀ a b, c.graph.portNode p = some a → c.graph.portNode q = some b →
        a ∈ S → b ∈ S → Relation.ReflTransGen (Arc c.graph .outgoing) a b →
        Relation.ReflTransGen (fun x y => Arc c.graph .outgoing x y ∧ x ∈ S ∧ y ∈ S) a b) := by
    intro os
    induction os with
    | nil => exact ⟨false, rfl, by simp, by simp⟩
    | cons q os ih =>
      obtain ⟨r, i1, i2, i3⟩ := ih
      simp only [Checker.anyM]
      have skip : (∀ b, c.graph.portNode q = some b → b ∉ S) → ∃ r', some r = some r' ∧
          (r' = true → ∃ p ∈ inputs, ∃ q' ∈ q :: os, ∃ a b x, c.graph.portNode p = some a ∧ c.graph.portNode q' = some b ∧ b ∈ S ∧
            x ∉ S ∧ Relation.ReflTransGen (Arc c.graph .outgoing) a x ∧ Relation.ReflTransGen (Arc c.graph .outgoing) x b) ∧
          (r' = false → ∀ p ∈ inputs, ∀ q' ∈ q :: os, ∀ a b, c.graph.portNode p = some a → c.graph.portNode q' = some b →
            a ∈ S → b ∈ S → Relation.ReflTransGen (Arc c.graph .outgoing) a b →
            Relation.ReflTransGen (fun x y => Arc c.graph .outgoing x y ∧ x ∈ S ∧ y ∈ S) a b) := by
        intro hno
        refine ⟨r, rfl, ?_, ?_⟩
        · intro hr
          obtain ⟨p, hp, q', hq', hx⟩ := i2 hr
          exact ⟨p, hp, q', by simp [hq'], hx⟩
        · intro hr p hp q' hq' a b hpa hqb ha hb hab
          rcases List.mem_cons.1 hq' with rfl | hq'
          · exact absurd hb (hno b hqb)
          · exact i3 hr p hp q' hq' a b hpa hqb ha hb hab
      cases hqn : c.graph.portNode q with
      | none => simp only; rw [i1]; exact skip (by simp [hqn])
      | some b =>
        simp only
        by_cases hb : b ∈ S
        · rw [if_pos (by simpa using hb)]
          obtain ⟨r₁, o1, o2, o3⟩ := one b hb
          rw [o1]
          cases r₁ with
          | true =>
            refine ⟨true, rfl, fun _ => ?_, by simp⟩
            obtain ⟨p, hp, a, x, hpa, hx, h4, h5⟩ := o2 rfl
            exact ⟨p, hp, q, by simp, a, b, x, hpa, hqn, hb, hx, h4, h5⟩
          | false =>
            refine ⟨r, i1, ?_, ?_⟩
            · intro hr
              obtain ⟨p, hp, q', hq', hx⟩ := i2 hr
              exact ⟨p, hp, q', by simp [hq'], hx⟩
            · intro hr p hp q' hq' a b' hpa hqb ha hb' hab
              rcases List.mem_cons.1 hq' with rfl | hq'
              · rw [hqn] at hqb; cases hqb
                exact o3 rfl p hp a hpa ha hab
              · exact i3 hr p hp q' hq' a b' hpa hqb ha hb' hab
        · rw [if_neg (by simpa using hb)]
          simp only
          rw [i1]
          exact skip (by rw [hqn]; rintro b' ⟨⟩; exact hb)
  obtain ⟨r, h1, h2, h3⟩ := loop outputs
  refine ⟨!r, congrArg (Option.map (!·)) h1, ?_, ?_⟩
  · intro hr; exact h2 (by simpa using hr)
  · intro hr; exact h3 (by simpa using hr)

/-- So a convex set is accepted with any boundary ports on it. -/
theorem C34_is_convex_ports_convex {maxOff : Nat} (hmax : maxOff ≤ 32767) {c : Checker} (h : Ok maxOff c)
    {S inputs outputs : List Nat} (hS : ∀ n ∈ S, c.graph.containsNode n = true) {m₁ m₂ : Nat} (hm₁ : m₁ ∈ S) (hm₂ : m₂ ∈ S)
    (hne : m₁ ≠ m₂) (hio : inputs ≠ [] ∨ outputs ≠ []) (hin : ∀ p ∈ inputs, ∀ a, c.graph.portNode p = some a → a ∈ S)
    (hc : Convex (Arc c.graph .outgoing) S) : c.isConvex S inputs outputs = some true := by
  obtain ⟨r, h1, h2, -⟩ := C34_is_convex_ports_partial hmax h hS hm₁ hm₂ hne hio
  cases r with
  | true => exact h1
  | false =>
    obtain ⟨p, hp, q, hq, a, b, x, h3, h4, h5, h6, h7, h8⟩ := h2 rfl
    exact absurd (hc a (hin p hp a h3) b h5 x h7 h8) h6

/-! ## Nodes which are not in the order -/

/-- `disconnect_nodes` with a node which is not in the order: the error names the first such node. -/
theorem C33_disconnect_unknown {D : TSort} {V : Nat → Prop} {R : Nat → Nat → Prop} (h : Valid D V R) (a b : Nat) :
    (¬ V a → D.disconnectNodes a b = .error (.invalidNode a)) ∧
    (V a → ¬ V b → D.disconnectNodes a b = .error (.invalidNode b)) := by
  have hno : ∀ n, ¬ V n → D.pos n = none := by
    intro n hn
    cases hp : D.pos n with
    | none => rfl
    | some i => exact absurd (h.tracked.2 ⟨i, hp⟩) hn
  constructor
  · intro ha
    simp [TSort.disconnectNodes, hno a ha]
  · intro ha hb
    obtain ⟨i, hi⟩ := h.tracked.1 ha
    simp [TSort.disconnectNodes, hno b hb, hi]

/-- `remove_node` of a node which is not in the order. -/
theorem C33_remove_unknown {D : TSort} {V : Nat → Prop} {R : Nat → Nat → Prop} (h : Valid D V R) {n : Nat} (hn : ¬ V n) :
    D.removeNode n = some (.error (.invalidNode n)) := removeNode_unknown h hn

/-- `unlink_port` of any checker, also of a graph with cycles: if the node of the port, or a node it
still has a link to, is not in the order, then it panics, and it does so after the unlinking. -/
theorem C34_unlink_untracked {maxOff : Nat} (hmax : maxOff ≤ 32767) {c : Checker} {g : PG} {p a b : Nat} {r : Option Nat}
    (hg : PG.Reach maxOff g) (hu : c.graph.unlinkPort p = some (r, g)) (hr : r.isSome = true) (ha : g.portNode p = some a)
    (hab : Arc g .outgoing a b) (hno : c.topo.pos a = none ∨ c.topo.pos b = none) : c.unlinkPort p = none := by
  have hI := hg.inv hmax
  have hb : b ∈ neighbours (ofPG g) a .outgoing := (mem_neighbours (ofPG_wf hI)).2 ((varc_iff hI).2 hab)
  have key : ∀ l : List Nat, b ∈ l → Checker.disconnectAll a l c.topo = none := by
    intro l
    induction l with
    | nil => simp
    | cons x l ih =>
      intro hx
      simp only [Checker.disconnectAll]
      unfold TSort.disconnectNodes
      by_cases h1 : (c.topo.pos a).isNone
      · rw [if_pos h1]
      · rw [if_neg h1]
        by_cases h2 : (c.topo.pos x).isNone
        · rw [if_pos h2]
        · rw [if_neg h2]
          simp only
          refine ih ?_
          rcases List.mem_cons.1 hx with rfl | hx
          · rcases hno with h | h <;> simp [h] at h1 h2
          · exact hx
  unfold Checker.unlinkPort
  rw [hu]
  simp only [hr, if_true, ha, key _ hb]

/-! ## Examples and failures -/

/-- Node 0 has one input and two outputs, node 1 one of each, node 2 two inputs and an output. -/
def shortGraph : Option PG := do
  let (_, g) ← PG.empty.addNode 32767 1 2
  let (_, g) ← g.addNode 32767 1 1
  let (_, g) ← g.addNode 32767 2 1
  return g

/-- The links 0 → 1 → 2 and 0 → 2. -/
def shortcut : Option Checker := do
  let g ← shortGraph
  let c ← Checker.new g
  linkAll [(2, 6), (1, 3), (4, 5)] c

/-- Failure: with the links 0 → 1 → 2 and 0 → 2, the nodes 0 and 2 with the input of node 0 and the
output of node 2 are accepted, although there is the path through node 1. Without ports they are
refused. -/
theorem C34_witness_shortcut : (shortcut.bind fun c => c.isConvex [0, 2] [0] [7]) = some true ∧
    (shortcut.bind fun c => c.isConvex [0, 2] [] []) = some false := by decide +kernel

/-- Without the link 0 → 2 they are refused with the ports, too. -/
example : ((shortGraph.bind Checker.new).bind (linkAll [(1, 3), (4, 5)])).bind (fun c => c.isConvex [0, 2] [0] [7]) = some false := by
  decide +kernel

/-- Two nodes in a cycle, with two links from node 0 to node 1. -/
def cycOps : List PG.Op := [.addNode 1 2, .addNode 2 1, .linkPorts 1 3, .linkPorts 2 4, .linkPorts 5 0]

def cycG : PG := (PG.run 32767 PG.empty cycOps).getD PG.empty

/-- One link less. -/
def cycG' : PG := (PG.run 32767 PG.empty (cycOps ++ [.unlinkPort 1])).getD PG.empty

theorem cycG'_reach : PG.Reach 32767 cycG' := checkedRun_reach (ops := cycOps ++ [.unlinkPort 1]) .init (by decide +kernel)

def cycC : Checker := (Checker.new cycG).get (by decide +kernel)

/-- Failure: `new` takes a graph with a cycle; then `unlink_port` panics. -/
theorem C34_witness_unlink_panics : (Checker.new cycG).isSome = true ∧ (cycG.unlinkPort 1).isSome = true ∧
    ((Checker.new cycG).bind fun c => c.unlinkPort 1).isNone = true := by decide +kernel

example : ∃ r, dagC.isConvex [0, 3] [] [11] = some r := by
  obtain ⟨r, h1, -⟩ := C34_is_convex_ports_partial (by decide) dagC_ok.2 (S := [0, 3]) (inputs := []) (outputs := [11])
    (m₁ := 0) (m₂ := 3) (by simp only [dagC_live]; decide +kernel) (by decide) (by decide) (by decide) (.inr (by decide))
  exact ⟨r, h1⟩

example := (C33_disconnect_unknown dagC_ok.2.topo 1 7).2 (by rw [dagC_live]; decide +kernel) (by rw [dagC_live]; decide +kernel)
example := C33_remove_unknown dagC_ok.2.topo (n := 7) (by rw [dagC_live]; decide +kernel)

example : dagC.isConvex [0, 1, 2, 3] [0, 3] [11] = some true := by
  have hS : ∀ n ∈ [0, 1, 2, 3], dagC.graph.containsNode n = true := by simp only [dagC_live]; decide +kernel
  refine C34_is_convex_ports_convex (by decide) dagC_ok.2 hS (m₁ := 0) (m₂ := 3) (by decide) (by decide) (by decide)
    (.inr (by decide)) ?_ (C34_is_convex_partial (by decide) dagC_ok.2 hS (by decide +kernel))
  rw [dagC_ok.1]
  have : ∀ p ∈ [0, 3], (dagG.portNode p).all (fun a => [0, 1, 2, 3].contains a) = true := by decide +kernel
  intro p hp a ha
  have := this p hp
  rw [ha] at this
  simpa using this

example : cycC.unlinkPort 1 = none :=
  C34_unlink_untracked (g := cycG') (a := 0) (b := 1) (r := some 3) (by decide) cycG'_reach (by rfl) rfl (by decide +kernel)
    ((varc_iff (cycG'_reach.inv (by decide))).1 ((mem_neighbours (ofPG_wf (cycG'_reach.inv (by decide)))).1 (by decide +kernel)))
    (.inl (by decide +kernel))

#print axioms C34_is_convex_ports_partial
#print axioms C34_is_convex_ports_convex
#print axioms C33_disconnect_unknown
#print axioms C33_remove_unknown
#print axioms C34_unlink_untracked
#print axioms C34_witness_shortcut
#print axioms C34_witness_unlink_panics

end Verif.Dyn
