import Verif.View.Wrap

/-!
# The nodes inside a boundary
-/

namespace Verif.View

open Verif (Direction)

variable {E : Type}

/-! ## Sets as increasing lists -/

theorem mem_insertSet {x y : Nat} : ∀ {l : List Nat}, y ∈ insertSet x l ↔ y = x ∨ y ∈ l
  | [] => by simp [insertSet]
  | z :: l => by
    have ih := mem_insertSet (x := x) (y := y) (l := l)
    unfold insertSet
    split
    · simp
    · split
      · next h1 h2 => subst h2; simp
      · simp only [List.mem_cons, ih]
        constructor
        · rintro (h | h | h) <;> simp [h]
        · rintro (h | h | h) <;> simp [h]

theorem insertSet_sorted {x : Nat} : ∀ {l : List Nat}, l.Pairwise (· < ·) → (insertSet x l).Pairwise (· < ·)
  | [], _ => by simp [insertSet]
  | z :: l, h => by
    have ih := insertSet_sorted (x := x) (l := l) (List.pairwise_cons.1 h).2
    have hz := (List.pairwise_cons.1 h).1
    unfold insertSet
    split
    · next h1 =>
      refine List.pairwise_cons.2 ⟨fun y hy => ?_, h⟩
      rcases List.mem_cons.1 hy with rfl | hy
      · exact h1
      · exact Nat.lt_trans h1 (hz y hy)
    · split
      · exact h
      · refine List.pairwise_cons.2 ⟨fun y hy => ?_, ih⟩
        rcases mem_insertSet.1 hy with rfl | hy
        · omega
        · exact hz y hy

theorem insertSet_length {x : Nat} : ∀ {l : List Nat}, (insertSet x l).length ≤ l.length + 1
  | [] => by simp [insertSet]
  | z :: l => by
    have ih := insertSet_length (x := x) (l := l)
    unfold insertSet
    split
    · simp
    · split
      · simp
      · simp only [List.length_cons]; omega

theorem mem_toSet {l : List Nat} {y : Nat} : y ∈ toSet l ↔ y ∈ l := by
  suffices h : ∀ (l s : List Nat), y ∈ l.foldl (fun s x => insertSet x s) s ↔ y ∈ l ∨ y ∈ s by
    have := h l []; simpa [toSet] using this
  intro l
  induction l with
  | nil => simp
  | cons x l ih =>
    intro s
    rw [List.foldl_cons, ih, mem_insertSet, List.mem_cons]
    constructor
    · rintro (h | h | h) <;> simp [h]
    · rintro ((h | h) | h) <;> simp [h]

theorem toSet_sorted (l : List Nat) : (toSet l).Pairwise (· < ·) := by
  suffices h : ∀ (l s : List Nat), s.Pairwise (· < ·) → (l.foldl (fun s x => insertSet x s) s).Pairwise (· < ·) from
    h l [] .nil
  intro l
  induction l with
  | nil => exact fun s h => h
  | cons x l ih => exact fun s h => ih _ (insertSet_sorted h)

theorem sorted_nodup {l : List Nat} (h : l.Pairwise (· < ·)) : l.Nodup := h.imp fun h => Nat.ne_of_lt h

theorem toSet_nodup (l : List Nat) : (toSet l).Nodup := sorted_nodup (toSet_sorted l)

/-! ## Exploring -/

section
variable {G : GView E}

theorem shows_portLink (_ : G.Ok) (hs : G.Single) {e f : E} (h : G.Shows e f) : G.portLink (G.toPort e) = some f := by
  have h1 := hs (G.toPort e)
  unfold GView.Shows at h
  unfold GView.portLink
  cases hl : G.portLinks (G.toPort e) with
  | nil => rw [hl] at h; simp at h
  | cons x l =>
    rw [hl] at h h1
    cases l with
    | nil => simp at h; subst h; rfl
    | cons y l => simp at h1

theorem portLink_shows (ok : G.Ok) {p : Nat} {f : E} (h : G.portLink p = some f) : ∃ e, G.toPort e = p ∧ G.Shows e f := by
  unfold GView.portLink at h
  cases hl : G.portLinks p with
  | nil => rw [hl] at h; simp at h
  | cons x l =>
    rw [hl] at h
    simp at h
    have hm : (x.1, f) ∈ G.portLinks p := by rw [hl, ← h]; simp
    have hp := ok.from_port _ _ _ hm
    exact ⟨x.1, hp, by unfold GView.Shows; rw [hp]; exact hm⟩

/-- The number of ports not visited. -/
def unvisited (G : GView E) (V : List Nat) : Nat := (G.portsIter.filter fun p => !V.contains p).length

theorem unvisited_cons (G : GView E) (V : List Nat) (p : Nat) : unvisited G (p :: V) ≤ unvisited G V := by
  unfold unvisited
  induction G.portsIter with
  | nil => simp
  | cons q l ih =>
    rw [List.filter_cons, List.filter_cons]
    split <;> split <;> simp_all <;> omega

theorem unvisited_lt {G : GView E} {V : List Nat} {p : Nat} (hp : p ∈ G.portsIter) (hv : p ∉ V) :
    unvisited G (p :: V) + 1 ≤ unvisited G V := by
  unfold unvisited
  have key : ∀ l : List Nat, (l.filter fun q => !(p :: V).contains q).length ≤ (l.filter fun q => !V.contains q).length := by
    intro l
    induction l with
    | nil => simp
    | cons q l ih => rw [List.filter_cons, List.filter_cons]; split <;> split <;> simp_all <;> omega
  obtain ⟨l1, l2, h⟩ := List.append_of_mem hp
  rw [h]
  simp only [List.filter_append, List.length_append]
  have h1 := key l1
  have h2 := key l2
  have h3 : ((p :: l2).filter fun q => !(p :: V).contains q) = l2.filter fun q => !(p :: V).contains q := by
    rw [List.filter_cons_of_neg]; simp
  have h4 : ((p :: l2).filter fun q => !V.contains q) = p :: l2.filter fun q => !V.contains q := by
    rw [List.filter_cons_of_pos]; simpa using hv
  rw [h3, h4, List.length_cons]
  omega

/-- The invariant of the search: `Y` are the nodes seen so far. The ports with `P` have at most one link. -/
structure Search (G : GView E) (P : Nat → Prop) (B : List Nat) (R : Nat → Prop) (Y V Q : List Nat) : Prop where
  seen : ∀ n, n ∈ Y ∨ n ∈ Q → R n
  bound : ∀ p ∈ B, p ∈ V
  partner : ∀ e f, G.Shows e f → G.toPort f ∈ B → G.toPort e ∈ V
  ends : ∀ e f m, P (G.toPort e) → G.Shows e f → G.toPort e ∈ V → G.toPort e ∉ B → G.toPort f ∉ B → G.On f m → m ∈ Y ∨ m ∈ Q

theorem scan_ok (ok : G.Ok) {P : Nat → Prop} {B : List Nat} {R : Nat → Prop}
    (hR : ∀ e f n m, R n → G.Shows e f → G.On e n → G.On f m → G.toPort e ∉ B → G.toPort f ∉ B → R m)
    (hc : ∀ n, R n → G.containsNode n = true) {Y : List Nat} {n : Nat} (hn : n ∈ Y) :
    ∀ (ps V Q : List Nat), (∀ p ∈ ps, G.portNode p = some n) → Search G P B R Y V Q →
      (∀ e f, P (G.toPort e) → G.Shows e f → G.portLink (G.toPort e) = some f) →
      ∃ V' Q', G.scanPorts ps (V, Q) = some (V', Q') ∧ Search G P B R Y V' Q' ∧ (∀ p ∈ V, p ∈ V') ∧
        (∀ p ∈ ps, p ∈ V') ∧ (∀ m ∈ Q, m ∈ Q') ∧ 2 * unvisited G V' + Q'.length ≤ 2 * unvisited G V + Q.length := by
  intro ps
  induction ps with
  | nil => intro V Q _ hS _; exact ⟨V, Q, rfl, hS, fun p h => h, by simp, fun m h => h, by omega⟩
  | cons p ps ih =>
    intro V Q hps hS hsing
    have hpn := hps p (by simp)
    have hps' : ∀ p ∈ ps, G.portNode p = some n := fun p h => hps p (by simp [h])
    have hpi : p ∈ G.portsIter := (ok.mem_iter p).2 ((ok.port_iff p).2 ⟨n, hpn, hc n (hS.seen n (.inl hn))⟩)
    unfold GView.scanPorts
    by_cases hv : p ∈ V
    · rw [if_pos (by simpa using hv)]
      obtain ⟨V', Q', h1, h2, h3, h4, h5, h6⟩ := ih V Q hps' hS hsing
      refine ⟨V', Q', h1, h2, h3, fun q hq => ?_, h5, h6⟩
      rcases List.mem_cons.1 hq with rfl | hq
      · exact h3 _ hv
      · exact h4 q hq
    · rw [if_neg (by simpa using hv)]
      have hpB : p ∉ B := fun h => hv (hS.bound p h)
      cases hl : G.portLink p with
      | none =>
        have hS' : Search G P B R Y (p :: V) Q := by
          refine ⟨hS.seen, fun q h => List.mem_cons_of_mem _ (hS.bound q h),
            fun e f h1 h2 => List.mem_cons_of_mem _ (hS.partner e f h1 h2), ?_⟩
          intro e f m h0 h1 h2 h3 h4 h5
          rcases List.mem_cons.1 h2 with h2 | h2
          · rw [← h2, hsing e f h0 h1] at hl; cases hl
          · exact hS.ends e f m h0 h1 h2 h3 h4 h5
        obtain ⟨V', Q', h1, h2, h3, h4, h5, h6⟩ := ih (p :: V) Q hps' hS' hsing
        have := unvisited_cons G V p
        refine ⟨V', Q', h1, h2, fun q hq => h3 q (by simp [hq]), fun q hq => ?_, h5, by omega⟩
        rcases List.mem_cons.1 hq with rfl | hq
        · exact h3 _ (by simp)
        · exact h4 q hq
      | some f =>
        obtain ⟨e, he, hsh⟩ := portLink_shows ok hl
        obtain ⟨n', d, m, h1, h2, h3, h4, h5, h6⟩ := ok.shows_dir _ _ hsh
        have hfm : G.portNode (G.toPort f) = some m := h4
        simp only [hfm]
        have hn' : n' = n := by
          unfold GView.On at h1; rw [he, hpn] at h1; simpa using h1.symm
        subst hn'
        have hfB : G.toPort f ∉ B := by
          intro h
          have := hS.partner e f hsh h
          rw [he] at this; exact hv this
        have hRm : R m := hR e f n' m (hS.seen n' (.inl hn)) hsh h1 h4 (by rw [he]; exact hpB) hfB
        have hS' : Search G P B R Y (G.toPort f :: p :: V) (insertSet m Q) := by
          refine ⟨?_, fun q h => List.mem_cons_of_mem _ (List.mem_cons_of_mem _ (hS.bound q h)),
            fun a b h1 h2 => List.mem_cons_of_mem _ (List.mem_cons_of_mem _ (hS.partner a b h1 h2)), ?_⟩
          · rintro x (hx | hx)
            · exact hS.seen x (.inl hx)
            · rcases mem_insertSet.1 hx with rfl | hx
              · exact hRm
              · exact hS.seen x (.inr hx)
          · intro a b x g0 g1 g2 g3 g4 g5
            rcases List.mem_cons.1 g2 with g2 | g2
            · have g6 := hsing a b g0 g1
              have g7 := hsing f e (g2 ▸ g0) (ok.shows_sym _ _ hsh)
              rw [g2, g7] at g6; cases g6
              unfold GView.On at g5 h1; rw [h1] at g5; cases g5
              exact .inl hn
            · rcases List.mem_cons.1 g2 with g2 | g2
              · have g6 := hsing a b g0 g1
                rw [g2, hl] at g6; cases g6
                unfold GView.On at g5; rw [hfm] at g5; cases g5
                exact .inr (mem_insertSet.2 (.inl rfl))
              · rcases hS.ends a b x g0 g1 g2 g3 g4 g5 with h | h
                · exact .inl h
                · exact .inr (mem_insertSet.2 (.inr h))
        obtain ⟨V', Q', g1, g2, g3, g4, g5, g6⟩ := ih _ _ hps' hS' hsing
        have u1 := unvisited_cons G (p :: V) (G.toPort f)
        have u2 := unvisited_lt hpi hv
        have u3 := insertSet_length (x := m) (l := Q)
        refine ⟨V', Q', g1, g2, fun q hq => g3 q (by simp [hq]), fun q hq => ?_,
          fun x hx => g5 x (mem_insertSet.2 (.inr hx)), by omega⟩
        rcases List.mem_cons.1 hq with rfl | hq
        · exact g3 _ (by simp)
        · exact g4 q hq

theorem explore_ok (ok : G.Ok) {P : Nat → Prop}
    (hsing : ∀ e f, P (G.toPort e) → G.Shows e f → G.portLink (G.toPort e) = some f) {B : List Nat} {R : Nat → Prop}
    (hR : ∀ e f n m, R n → G.Shows e f → G.On e n → G.On f m → G.toPort e ∉ B → G.toPort f ∉ B → R m)
    (hc : ∀ n, R n → G.containsNode n = true) :
    ∀ (fuel : Nat) (Y V Q : List Nat), Search G P B R Y V Q → (∀ n ∈ Y, ∀ p, G.portNode p = some n → p ∈ V) →
      2 * unvisited G V + Q.length ≤ fuel →
      ∃ l, G.explore fuel (V, Q) = some l ∧ (∀ n ∈ Q, n ∈ l) ∧ (∀ n ∈ l, R n) ∧
        ∀ n m e f, n ∈ Y ∨ n ∈ l → P (G.toPort e) → G.Shows e f → G.On e n → G.On f m → G.toPort e ∉ B → G.toPort f ∉ B →
          m ∈ Y ∨ m ∈ l := by
  intro fuel
  induction fuel with
  | zero =>
    intro Y V Q hS hY hf
    have : Q = [] := List.length_eq_zero_iff.1 (by omega)
    subst this
    refine ⟨[], by unfold GView.explore; rfl, by simp, by simp, ?_⟩
    intro n m e f h1 h0 h2 h3 h4 h5 h6
    rcases h1 with h1 | h1
    · rcases hS.ends e f m h0 h2 (hY n h1 _ h3) h5 h6 h4 with h | h
      · exact .inl h
      · simp at h
    · simp at h1
  | succ fuel ih =>
    intro Y V Q hS hY hf
    cases Q with
    | nil =>
      refine ⟨[], by unfold GView.explore; rfl, by simp, by simp, ?_⟩
      intro n m e f h1 h0 h2 h3 h4 h5 h6
      rcases h1 with h1 | h1
      · rcases hS.ends e f m h0 h2 (hY n h1 _ h3) h5 h6 h4 with h | h
        · exact .inl h
        · simp at h
      · simp at h1
    | cons n Q =>
      have hS1 : Search G P B R (n :: Y) V Q := by
        refine ⟨?_, hS.bound, hS.partner, ?_⟩
        · intro x hx
          refine hS.seen x ?_
          rcases hx with hx | hx
          · rcases List.mem_cons.1 hx with rfl | hx
            · simp
            · exact .inl hx
          · simp [hx]
        · intro e f m h0 h1 h2 h3 h4 h5
          rcases hS.ends e f m h0 h1 h2 h3 h4 h5 with h | h
          · simp [h]
          · rcases List.mem_cons.1 h with rfl | h
            · simp
            · simp [h]
      have hports : ∀ p, p ∈ G.allPorts n ↔ G.portNode p = some n := by
        intro p
        rw [ok.all_ports, List.mem_append, ok.mem_ports, ok.mem_ports]
        constructor
        · rintro (h | h) <;> exact h.1
        · intro h
          obtain ⟨d, hd⟩ := ok.port_dir p n h
          cases d
          · exact .inl ⟨h, hd⟩
          · exact .inr ⟨h, hd⟩
      obtain ⟨V', Q', h1, h2, h3, h4, h5, h6⟩ := scan_ok ok hR hc (Y := n :: Y) (n := n) (by simp) (G.allPorts n) V Q
        (fun p hp => (hports p).1 hp) hS1 hsing
      obtain ⟨l, g1, g2, g3, g4⟩ := ih (n :: Y) V' Q' h2 (by
        intro x hx p hp
        rcases List.mem_cons.1 hx with rfl | hx
        · exact h4 p ((hports p).2 hp)
        · exact h3 p (hY x hx p hp)) (by simp only [List.length_cons] at hf; omega)
      refine ⟨n :: l, by unfold GView.explore; rw [h1]; simp [g1], ?_, ?_, ?_⟩
      · intro x hx
        rcases List.mem_cons.1 hx with rfl | hx
        · simp
        · exact List.mem_cons_of_mem _ (g2 x (h5 x hx))
      · intro x hx
        rcases List.mem_cons.1 hx with rfl | hx
        · exact hS.seen _ (.inr (by simp))
        · exact g3 x hx
      · intro x y e f k1 k0 k2 k3 k4 k5 k6
        have k1' : x ∈ n :: Y ∨ x ∈ l := by
          rcases k1 with k | k
          · simp [k]
          · rcases List.mem_cons.1 k with rfl | k
            · simp
            · simp [k]
        rcases g4 x y e f k1' k0 k2 k3 k4 k5 k6 with h | h
        · rcases List.mem_cons.1 h with rfl | h
          · simp
          · simp [h]
        · simp [h]

/-- The start of the search. -/
theorem start_ok (ok : G.Ok) {P : Nat → Prop} {B : Boundary}
    (hs : ∀ e f, G.toPort e ∈ B.ports → G.Shows e f → G.portLink (G.toPort e) = some f ∧
      ∀ e' f', G.toPort e' = G.toPort f → G.Shows e' f' → G.toPort f' = G.toPort e) (hB : ∀ p ∈ B.ports, G.containsPort p = true)
    {R : Nat → Prop} (hR : ∀ p ∈ B.ports, ∀ n, G.portNode p = some n → R n)
    (hE : B.ports = [] → ∀ n ∈ G.nodes, R n) :
    ∃ V Q, G.exploreStart B = some (V, Q) ∧ Search G P B.ports R [] V Q ∧
      (B.ports = [] → ∀ n ∈ G.nodes, n ∈ Q) ∧ ∀ p ∈ B.ports, ∀ n, G.portNode p = some n → n ∈ Q := by
  have hm : ∀ l : List Nat, (∀ p ∈ l, G.containsPort p = true) → ∃ ns, l.mapM G.portNode = some ns ∧
      ∀ n, n ∈ ns ↔ ∃ p ∈ l, G.portNode p = some n := by
    intro l
    induction l with
    | nil => exact fun _ => ⟨[], rfl, by simp⟩
    | cons p l ih =>
      intro h
      obtain ⟨ns, h1, h2⟩ := ih fun p hp => h p (by simp [hp])
      obtain ⟨n, h3, -⟩ := (ok.port_iff p).1 (h p (by simp))
      refine ⟨n :: ns, by simp [List.mapM_cons, h1, h3], fun m => ?_⟩
      simp [h2, h3, eq_comm]
  obtain ⟨ns, h1, h2⟩ := hm _ hB
  unfold GView.exploreStart
  rw [h1]
  refine ⟨_, _, rfl, ⟨?_, ?_, ?_, ?_⟩, ?_, ?_⟩
  · intro n hn
    rcases hn with hn | hn
    · simp at hn
    · rw [mem_toSet] at hn
      split at hn
      · next h => exact hE h n hn
      · obtain ⟨p, hp, hpn⟩ := (h2 n).1 hn
        exact hR p hp n hpn
  · intro p hp
    exact List.mem_flatMap.2 ⟨p, hp, by simp⟩
  · intro e f h3 h4
    refine List.mem_flatMap.2 ⟨_, h4, ?_⟩
    rw [(hs _ _ h4 (ok.shows_sym _ _ h3)).1]
    simp
  · intro e f m _ h3 h4 h5 h6 h7
    obtain ⟨p, hp, hpe⟩ := List.mem_flatMap.1 h4
    simp only [List.mem_cons, Option.mem_toList, Option.map_eq_some_iff] at hpe
    rcases hpe with rfl | ⟨b, h8, h9⟩
    · exact absurd hp h5
    · exfalso
      obtain ⟨a, ha, hab⟩ := portLink_shows ok h8
      have h10 := (hs a b (by rw [ha]; exact hp) hab).2 e f h9.symm h3
      rw [h10, ha] at h6
      exact h6 hp
  · intro h n hn
    rw [mem_toSet, if_pos h]
    exact hn
  · intro p hp n hn
    rw [mem_toSet, if_neg (by intro h; rw [h] at hp; simp at hp)]
    exact (h2 n).2 ⟨p, hp, hn⟩

theorem unvisited_le (G : GView E) (V : List Nat) : unvisited G V ≤ G.portsIter.length := List.length_filter_le _ _

theorem single_start (ok : G.Ok) (hs : G.Single) {B : Boundary} : ∀ e f, G.toPort e ∈ B.ports → G.Shows e f →
    G.portLink (G.toPort e) = some f ∧ ∀ e' f', G.toPort e' = G.toPort f → G.Shows e' f' → G.toPort f' = G.toPort e := by
  intro e f _ h
  refine ⟨shows_portLink ok hs h, fun e' f' h1 h2 => ?_⟩
  have h3 := shows_portLink ok hs h2
  rw [h1, shows_portLink ok hs (ok.shows_sym _ _ h)] at h3
  cases h3; rfl

/-- The search finds the nodes inside a boundary. -/
theorem internal_ok (ok : G.Ok) (hs : G.Single) {B : Boundary} (hB : ∀ p ∈ B.ports, G.containsPort p = true)
    (hne : B.ports ≠ []) : ∃ l, G.internalNodes B = some l ∧ ∀ n, n ∈ l ↔ G.Inner B.ports n := by
  have hR : ∀ e f n m, G.Inner B.ports n → G.Shows e f → G.On e n → G.On f m → G.toPort e ∉ B.ports →
      G.toPort f ∉ B.ports → G.Inner B.ports m := fun e f n m h1 h2 h3 h4 h5 h6 => .step h1 h2 h3 h4 h5 h6
  have hc : ∀ n, G.Inner B.ports n → G.containsNode n = true := by
    intro n h
    cases h with
    | start h1 h2 =>
      obtain ⟨n', h3, h4⟩ := (ok.port_iff _).1 (hB _ h1)
      rw [h2] at h3; cases h3; exact h4
    | step _ h1 _ h2 =>
      obtain ⟨_, _, m, -, -, -, h3, -, h4⟩ := ok.shows_dir _ _ h1
      unfold GView.On at h2 h3; rw [h2] at h3; cases h3; exact h4
  obtain ⟨V, Q, h1, h2, -, h3⟩ := start_ok ok (P := fun _ => True) (single_start ok hs) hB (R := G.Inner B.ports) (fun p hp n hn => .start hp hn)
    (fun h => absurd h hne)
  unfold GView.internalNodes
  rw [h1]
  have := unvisited_le G V
  obtain ⟨l, g1, g2, g3, g4⟩ := explore_ok ok (fun e f _ h => shows_portLink ok hs h) hR hc (2 * G.portsIter.length + Q.length) [] V Q h2 (by simp)
    (by omega)
  refine ⟨l, g1, fun n => ⟨g3 n, fun h => ?_⟩⟩
  induction h with
  | start h4 h5 => exact g2 _ (h3 _ h4 _ h5)
  | step _ h5 h6 h7 h8 h9 ih => simpa using g4 _ _ _ _ (.inr ih) trivial h5 h6 h7 h8 h9

/-- Without boundary ports the search finds all nodes. -/
theorem internal_empty (ok : G.Ok) (hs : G.Single) {B : Boundary} (he : B.ports = []) :
    ∃ l, G.internalNodes B = some l ∧ ∀ n, n ∈ l ↔ G.containsNode n = true := by
  have hR : ∀ e f n m, G.containsNode n = true → G.Shows e f → G.On e n → G.On f m → G.toPort e ∉ B.ports →
      G.toPort f ∉ B.ports → G.containsNode m = true := by
    intro e f n m _ h1 _ h2 _ _
    obtain ⟨_, _, m', -, -, -, h3, -, h4⟩ := ok.shows_dir _ _ h1
    unfold GView.On at h2 h3; rw [h2] at h3; cases h3; exact h4
  obtain ⟨V, Q, h1, h2, h3, -⟩ := start_ok ok (P := fun _ => True) (single_start ok hs) (B := B) (by rw [he]; simp) (R := fun n => G.containsNode n = true)
    (by rw [he]; simp) (fun _ n hn => (ok.mem_nodes n).1 hn)
  unfold GView.internalNodes
  rw [h1]
  have := unvisited_le G V
  obtain ⟨l, g1, g2, g3, -⟩ := explore_ok ok (fun e f _ h => shows_portLink ok hs h) hR (fun n h => h) (2 * G.portsIter.length + Q.length) [] V Q h2 (by simp)
    (by omega)
  exact ⟨l, g1, fun n => ⟨g3 n, fun h => g2 n (h3 he n ((ok.mem_nodes n).2 h))⟩⟩

/-- The nodes from which links lead to the nodes of the ports. -/
inductive GView.Up (G : GView E) (B : List Nat) : Nat → Prop
  | start {p n} : p ∈ B → G.portNode p = some n → G.Up B n
  | step {e f n m} : G.Up B n → G.Shows e f → G.On e n → G.On f m → G.portDirection (G.toPort e) = some .incoming → G.Up B m

/-- With several links at the outgoing ports, and a boundary whose ports are not linked, the search finds nodes inside the
boundary, and all from which links lead to it. -/
theorem internal_up (ok : G.Ok) (hs : ∀ e f, G.portDirection (G.toPort e) = some .incoming → G.Shows e f →
    (G.portLinks (G.toPort e)).length ≤ 1) {B : Boundary} (hB : ∀ p ∈ B.ports, G.containsPort p = true)
    (hfree : ∀ p ∈ B.ports, G.portLinks p = []) (hne : B.ports ≠ []) :
    ∃ l, G.internalNodes B = some l ∧ (∀ n ∈ l, G.Inner B.ports n) ∧ ∀ n, G.Up B.ports n → n ∈ l := by
  have hR : ∀ e f n m, G.Inner B.ports n → G.Shows e f → G.On e n → G.On f m → G.toPort e ∉ B.ports →
      G.toPort f ∉ B.ports → G.Inner B.ports m := fun e f n m h1 h2 h3 h4 h5 h6 => .step h1 h2 h3 h4 h5 h6
  have hc : ∀ n, G.Inner B.ports n → G.containsNode n = true := by
    intro n h
    cases h with
    | start h1 h2 =>
      obtain ⟨n', h3, h4⟩ := (ok.port_iff _).1 (hB _ h1)
      rw [h2] at h3; cases h3; exact h4
    | step _ h1 _ h2 =>
      obtain ⟨_, _, m, -, -, -, h3, -, h4⟩ := ok.shows_dir _ _ h1
      unfold GView.On at h2 h3; rw [h2] at h3; cases h3; exact h4
  have hno : ∀ e f, G.toPort e ∈ B.ports → ¬ G.Shows e f := by
    intro e f h h'
    unfold GView.Shows at h'
    rw [hfree _ h] at h'
    cases h'
  obtain ⟨V, Q, h1, h2, -, h3⟩ := start_ok ok (P := fun p => G.portDirection p = some .incoming)
    (fun e f h h' => absurd h' (hno e f h)) hB (R := G.Inner B.ports) (fun p hp n hn => .start hp hn)
    (fun h => absurd h hne)
  unfold GView.internalNodes
  rw [h1]
  have := unvisited_le G V
  obtain ⟨l, g1, g2, g3, g4⟩ := explore_ok ok (P := fun p => G.portDirection p = some .incoming) (by
      intro e f h h'
      have h4 := hs e f h h'
      unfold GView.Shows at h'
      unfold GView.portLink
      cases hl : G.portLinks (G.toPort e) with
      | nil => rw [hl] at h'; simp at h'
      | cons x l =>
        rw [hl] at h' h4
        cases l with
        | nil => simp at h'; subst h'; rfl
        | cons y l => simp at h4) hR hc (2 * G.portsIter.length + Q.length) [] V Q h2 (by simp)
    (by omega)
  refine ⟨l, g1, g3, fun n h => ?_⟩
  induction h with
  | start h4 h5 => exact g2 _ (h3 _ h4 _ h5)
  | step _ h5 h6 h7 h8 ih =>
    refine (g4 _ _ _ _ (.inr ih) h8 h5 h6 h7 (fun h => hno _ _ h h5) fun h => hno _ _ h (ok.shows_sym _ _ h5)).resolve_left ?_
    simp

end

end Verif.View
