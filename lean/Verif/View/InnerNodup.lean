import Verif.View.Inner

/-!
# The nodes inside a boundary are found once
-/

namespace Verif.View

open Verif (Direction)

variable {E : Type} {G : GView E}

/-- With each visited port the port linked to it is visited. -/
def Closed (G : GView E) (V : List Nat) : Prop := ∀ e f, G.Shows e f → G.toPort e ∈ V → G.toPort f ∈ V

theorem scan_nodup (ok : G.Ok) (hs : G.Single) (hloop : ∀ e f n, G.Shows e f → G.On e n → ¬ G.On f n) {Y : List Nat} {n : Nat} :
    ∀ (ps V Q V' Q' : List Nat), (∀ p ∈ ps, G.portNode p = some n) → (∀ y ∈ Y, ∀ p, G.portNode p = some y → p ∈ V) →
      Closed G V → Q.Pairwise (· < ·) → (∀ x ∈ Q, x ∉ n :: Y) → G.scanPorts ps (V, Q) = some (V', Q') →
      (∀ p ∈ V, p ∈ V') ∧ (∀ p ∈ ps, p ∈ V') ∧ Closed G V' ∧ Q'.Pairwise (· < ·) ∧ ∀ x ∈ Q', x ∉ n :: Y := by
  intro ps
  induction ps with
  | nil =>
    intro V Q V' Q' _ _ hc hQ hx h
    simp only [GView.scanPorts, Option.some.injEq, Prod.mk.injEq] at h
    obtain ⟨rfl, rfl⟩ := h
    exact ⟨fun p hp => hp, by simp, hc, hQ, hx⟩
  | cons p ps ih =>
    intro V Q V' Q' hps hY hc hQ hx h
    have hpn := hps p (by simp)
    have hps' : ∀ p ∈ ps, G.portNode p = some n := fun p h => hps p (by simp [h])
    unfold GView.scanPorts at h
    by_cases hv : p ∈ V
    · rw [if_pos (by simpa using hv)] at h
      obtain ⟨h1, h2, h3⟩ := ih V Q V' Q' hps' hY hc hQ hx h
      refine ⟨h1, fun q hq => ?_, h3⟩
      rcases List.mem_cons.1 hq with rfl | hq
      · exact h1 _ hv
      · exact h2 q hq
    · rw [if_neg (by simpa using hv)] at h
      cases hl : G.portLink p with
      | none =>
        rw [hl] at h
        obtain ⟨h1, h2, h3⟩ := ih (p :: V) Q V' Q' hps' (fun y hy q hq => List.mem_cons_of_mem _ (hY y hy q hq)) (by
          intro e f g1 g2
          rcases List.mem_cons.1 g2 with g2 | g2
          · rw [← g2, shows_portLink ok hs g1] at hl; cases hl
          · exact List.mem_cons_of_mem _ (hc e f g1 g2)) hQ hx h
        refine ⟨fun q hq => h1 q (by simp [hq]), fun q hq => ?_, h3⟩
        rcases List.mem_cons.1 hq with rfl | hq
        · exact h1 _ (by simp)
        · exact h2 q hq
      | some f =>
        rw [hl] at h
        obtain ⟨e, rfl, hsh⟩ := portLink_shows ok hl
        obtain ⟨n', d, m, a1, a2, a3, a4, a5, a6⟩ := ok.shows_dir _ _ hsh
        have hfm : G.portNode (G.toPort f) = some m := a4
        simp only [hfm] at h
        have hmn : m ∉ n :: Y := by
          intro hm
          rcases List.mem_cons.1 hm with rfl | hm
          · exact hloop e f m hsh hpn a4
          · exact hv (hc f e (ok.shows_sym _ _ hsh) (hY m hm _ hfm))
        obtain ⟨h1, h2, h3⟩ := ih (G.toPort f :: G.toPort e :: V) (insertSet m Q) V' Q' hps'
          (fun y hy q hq => List.mem_cons_of_mem _ (List.mem_cons_of_mem _ (hY y hy q hq))) (by
            intro a b g1 g2
            have g3 := shows_portLink ok hs g1
            rcases List.mem_cons.1 g2 with g2 | g2
            · rw [g2, shows_portLink ok hs (ok.shows_sym _ _ hsh)] at g3
              cases g3; simp
            · rcases List.mem_cons.1 g2 with g2 | g2
              · rw [g2, hl] at g3
                cases g3; simp
              · exact List.mem_cons_of_mem _ (List.mem_cons_of_mem _ (hc a b g1 g2))) (insertSet_sorted hQ) (by
            intro x hx'
            rcases mem_insertSet.1 hx' with rfl | hx'
            · exact hmn
            · exact hx x hx') h
        refine ⟨fun q hq => h1 q (by simp [hq]), fun q hq => ?_, h3⟩
        rcases List.mem_cons.1 hq with rfl | hq
        · exact h1 _ (by simp)
        · exact h2 q hq

theorem explore_nodup (ok : G.Ok) (hs : G.Single) (hloop : ∀ e f n, G.Shows e f → G.On e n → ¬ G.On f n) :
    ∀ (fuel : Nat) (Y V Q l : List Nat), (∀ y ∈ Y, ∀ p, G.portNode p = some y → p ∈ V) → Closed G V → Q.Pairwise (· < ·) →
      (∀ x ∈ Q, x ∉ Y) → G.explore fuel (V, Q) = some l → l.Nodup ∧ ∀ x ∈ l, x ∉ Y := by
  intro fuel
  induction fuel with
  | zero =>
    intro Y V Q l _ _ _ _ h
    cases Q with
    | nil => unfold GView.explore at h; cases h; simp
    | cons n Q => unfold GView.explore at h; cases h
  | succ fuel ih =>
    intro Y V Q l hY hc hQ hx h
    cases Q with
    | nil => unfold GView.explore at h; cases h; simp
    | cons n Q =>
      unfold GView.explore at h
      cases hsc : G.scanPorts (G.allPorts n) (V, Q) with
      | none => rw [hsc] at h; cases h
      | some s =>
        obtain ⟨V', Q'⟩ := s
        rw [hsc] at h
        simp only [Option.map_eq_some_iff] at h
        obtain ⟨l', hl', rfl⟩ := h
        have hports : ∀ p, p ∈ G.allPorts n ↔ G.portNode p = some n := by
          intro p
          rw [ok.all_ports, List.mem_append, ok.mem_ports, ok.mem_ports]
          constructor
          · rintro (h | h) <;> exact h.1
          · intro h
            obtain ⟨d, hd⟩ := ok.port_dir p n h
            cases d
            · exact .inl ⟨h, hd⟩
            · exact .inr ⟨h, hd⟩
        have hlt := (List.pairwise_cons.1 hQ).1
        obtain ⟨h1, h2, h3, h4, h5⟩ := scan_nodup ok hs hloop (Y := Y) (G.allPorts n) V Q V' Q' (fun p hp => (hports p).1 hp) hY hc
          (List.pairwise_cons.1 hQ).2 (by
            intro x hxQ hxn
            rcases List.mem_cons.1 hxn with rfl | hxn
            · exact Nat.lt_irrefl _ (hlt _ hxQ)
            · exact hx x (by simp [hxQ]) hxn) hsc
        obtain ⟨g1, g2⟩ := ih (n :: Y) V' Q' l' (by
          intro y hy p hp
          rcases List.mem_cons.1 hy with rfl | hy
          · exact h2 p ((hports p).2 hp)
          · exact h1 p (hY y hy p hp)) h3 h4 h5 hl'
        refine ⟨List.nodup_cons.2 ⟨fun hn => g2 n hn (by simp), g1⟩, fun x hxl => ?_⟩
        rcases List.mem_cons.1 hxl with rfl | hxl
        · exact hx _ (by simp)
        · exact fun hxY => g2 x hxl (by simp [hxY])

/-- Without links from a node to itself, `internal_nodes` yields no node twice. -/
theorem internal_nodup (ok : G.Ok) (hs : G.Single) (hloop : ∀ e f n, G.Shows e f → G.On e n → ¬ G.On f n) {B : Boundary} {l : List Nat}
    (h : G.internalNodes B = some l) : l.Nodup := by
  unfold GView.internalNodes at h
  cases hst : G.exploreStart B with
  | none => rw [hst] at h; cases h
  | some s =>
    obtain ⟨V, Q⟩ := s
    rw [hst] at h
    unfold GView.exploreStart at hst
    split at hst
    · cases hst
    · simp only [Option.some.injEq, Prod.mk.injEq] at hst
      obtain ⟨rfl, rfl⟩ := hst
      refine (explore_nodup ok hs hloop _ [] _ _ l (by simp) ?_ (toSet_sorted _) (by simp) h).1
      intro e f h1 h2
      obtain ⟨p, hp, hpe⟩ := List.mem_flatMap.1 h2
      refine List.mem_flatMap.2 ⟨p, hp, ?_⟩
      simp only [List.mem_cons, Option.mem_toList, Option.map_eq_some_iff] at hpe ⊢
      rcases hpe with rfl | ⟨b, h3, h4⟩
      · exact .inr ⟨f, shows_portLink ok hs h1, rfl⟩
      · obtain ⟨a, ha, hab⟩ := portLink_shows ok h3
        have h5 := shows_portLink ok hs (ok.shows_sym _ _ hab)
        rw [h4, shows_portLink ok hs h1] at h5
        cases h5
        exact .inl ha

/-- The nodes found by `internal_nodes`. -/
theorem internal_mem (ok : G.Ok) (hs : G.Single) {B : Boundary} (hB : ∀ p ∈ B.ports, G.containsPort p = true) :
    ∃ l, G.internalNodes B = some l ∧ (∀ n, n ∈ l ↔ if B.ports = [] then G.containsNode n = true else G.Inner B.ports n) ∧
      ∀ n ∈ l, G.containsNode n = true := by
  by_cases he : B.ports = []
  · obtain ⟨l, h1, h2⟩ := internal_empty ok hs he
    exact ⟨l, h1, by simpa [he] using h2, fun n h => (h2 n).1 h⟩
  · obtain ⟨l, h1, h2⟩ := internal_ok ok hs hB he
    refine ⟨l, h1, by simpa [he] using h2, fun n h => ?_⟩
    cases (h2 n).1 h with
    | start h1 h2 =>
      obtain ⟨n', h3, h4⟩ := (ok.port_iff _).1 (hB _ h1)
      rw [h2] at h3; cases h3; exact h4
    | step _ h1 _ h2 =>
      obtain ⟨_, _, m, -, -, -, h3, -, h4⟩ := ok.shows_dir _ _ h1
      unfold GView.On at h2 h3; rw [h2] at h3; cases h3; exact h4

end Verif.View
