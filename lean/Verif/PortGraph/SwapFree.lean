import Verif.PortGraph.PropsCompact

/-!
# `swap_nodes` on two free slots
-/

namespace Verif.PG

/-- A list of free slots that can be followed by the `next` fields; nothing is said of `prev`. -/
def SChain (nm : Nat → Option NodeEntry) : Option Nat → List Nat → Prop
  | none, [] => True
  | some f, x :: xs => f = x ∧ ∃ p nx, nm f = some (.free p nx) ∧ SChain nm nx xs
  | _, _ => False

theorem DChain.single {nm : Nat → Option NodeEntry} {pr h l} (hc : DChain nm pr h l) : SChain nm h l := by
  induction l generalizing h pr with
  | nil => cases h <;> simp_all [DChain, SChain]
  | cons x xs ih =>
    cases h with
    | none => simp [DChain] at hc
    | some f =>
      obtain ⟨rfl, nx, hf, hc⟩ := hc
      exact ⟨rfl, pr, nx, hf, ih hc⟩

theorem SChain.congr {nm nm' : Nat → Option NodeEntry} {h l} (hc : SChain nm h l)
    (he : ∀ x, x ∈ l → ∀ p nx, nm x = some (.free p nx) → ∃ q, nm' x = some (.free q nx)) : SChain nm' h l := by
  induction l generalizing h with
  | nil => cases h <;> simp_all [SChain]
  | cons x xs ih =>
    cases h with
    | none => simp [SChain] at hc
    | some f =>
      obtain ⟨rfl, p, nx, hf, hc⟩ := hc
      obtain ⟨q, hq⟩ := he f (by simp) p nx hf
      exact ⟨rfl, q, nx, hq, ih hc fun y hy => he y (by simp [hy])⟩

/-- The rest of the list behind some slot. -/
theorem SChain.tail {nm : Nat → Option NodeEntry} {h l1 v l3} (hc : SChain nm h (l1 ++ v :: l3)) :
    ∃ p nx, nm v = some (.free p nx) ∧ SChain nm nx l3 := by
  induction l1 generalizing h with
  | nil =>
    cases h with
    | none => simp [SChain] at hc
    | some f => obtain ⟨rfl, p, nx, hf, hc⟩ := hc; exact ⟨p, nx, hf, hc⟩
  | cons x xs ih =>
    cases h with
    | none => simp [SChain] at hc
    | some f => obtain ⟨rfl, p, nx, hf, hc⟩ := hc; exact ih hc

/-- After an exchange of the entries of two slots of the list, the list skips the second one. -/
theorem SChain.splice {nm nm' : Nat → Option NodeEntry} {h l1 u l2 v l3} (hc : SChain nm h (l1 ++ u :: (l2 ++ v :: l3)))
    (hn : (l1 ++ u :: (l2 ++ v :: l3)).Nodup) (hu : nm' u = nm v)
    (ho : ∀ x, x ≠ u → x ≠ v → nm' x = nm x) : SChain nm' h (l1 ++ u :: l3) := by
  induction l1 generalizing h with
  | nil =>
    cases h with
    | none => simp [SChain] at hc
    | some f =>
      obtain ⟨rfl, p, nx, hf, hc⟩ := hc
      obtain ⟨q, ny, hv, h3⟩ := hc.tail
      refine ⟨rfl, q, ny, by rw [hu]; exact hv, h3.congr fun x hx p nx e => ⟨p, ?_⟩⟩
      rw [ho x (by rintro rfl; simp [hx] at hn) (by rintro rfl; simp [List.nodup_append, hx] at hn)]
      exact e
  | cons x xs ih =>
    cases h with
    | none => simp [SChain] at hc
    | some f =>
      obtain ⟨rfl, p, nx, hf, hc⟩ := hc
      simp only [List.cons_append, List.nodup_cons] at hn
      refine ⟨rfl, p, nx, ?_, ih hc hn.2⟩
      rw [ho f (by rintro rfl; simp at hn) (by rintro rfl; simp at hn)]
      exact hf

/-- `add_node(0, 0)` takes the slots of the list in order. -/
theorem SChain.run {maxOff : Nat} (l : List Nat) {g : PG} (hc : SChain (fun i => g.nodeMeta[i]?) g.nodeFree l) (hn : l.Nodup) :
    ∃ g', PG.run maxOff g (List.replicate l.length (.addNode 0 0)) = some g' ∧ g'.nodeFree = none ∧
      g'.nodeMeta.length = g.nodeMeta.length ∧ ∀ c, c ∉ l → g.containsNode c = false → g'.containsNode c = false := by
  induction l generalizing g with
  | nil =>
    refine ⟨g, rfl, ?_, rfl, fun c _ h => h⟩
    cases h : g.nodeFree with
    | none => rfl
    | some f => rw [h] at hc; simp [SChain] at hc
  | cons x xs ih =>
    cases h : g.nodeFree with
    | none => rw [h] at hc; simp [SChain] at hc
    | some f =>
      rw [h] at hc
      obtain ⟨rfl, p, nx, hf, hc⟩ := hc
      replace hf : g.nodeMeta[f]? = some (.free p nx) := hf
      have hlt := (List.getElem?_eq_some_iff.1 hf).1
      rw [List.nodup_cons] at hn
      have key : ∃ g1, g.addNode maxOff 0 0 = some (f, g1) ∧ SChain (fun i => g1.nodeMeta[i]?) g1.nodeFree xs ∧
          g1.nodeMeta.length = g.nodeMeta.length ∧ ∀ c, c ≠ f → g.containsNode c = false → g1.containsNode c = false := by
        cases xs with
        | nil =>
          cases nx with
          | some y => simp [SChain] at hc
          | none =>
            refine ⟨{ g with nodeFree := none, nodeMeta := g.nodeMeta.set f (.node ⟨0, 0, 0, 0⟩), nodeCount := g.nodeCount + 1 }, ?_, ?_, ?_, ?_⟩
            · simp only [PG.addNode, PG.allocNode, h, hf, PG.allocPorts, hlt, Nat.zero_le, and_self, if_true, Nat.add_zero]
            · trivial
            · simp
            · intro c hcf he
              simp only [PG.containsNode, PG.node?] at he ⊢
              rw [List.getElem?_set_ne (Ne.symm hcf)]
              exact he
        | cons y ys =>
          cases nx with
          | none => simp [SChain] at hc
          | some z =>
            obtain ⟨rfl, q, nn, hz, hc⟩ := hc
            replace hz : g.nodeMeta[z]? = some (.free q nn) := hz
            have hfz : f ≠ z := by rintro rfl; simp at hn
            have hzl := (List.getElem?_eq_some_iff.1 hz).1
            refine ⟨{ g with nodeFree := some z, nodeMeta := (g.nodeMeta.set z (.free none nn)).set f (.node ⟨0, 0, 0, 0⟩), nodeCount := g.nodeCount + 1 }, ?_, ?_, ?_, ?_⟩
            · simp only [PG.addNode, PG.allocNode, h, hf, hz, PG.allocPorts, hlt, Nat.zero_le, and_self, if_true, Nat.add_zero,
                List.length_set]
            · refine ⟨rfl, none, nn, ?_, hc.congr fun x hx p nx e => ⟨p, ?_⟩⟩
              · simp only
                rw [List.getElem?_set_ne hfz, List.getElem?_set_self hzl]
              · simp only at e ⊢
                rw [List.getElem?_set_ne (by rintro rfl; simp [hx] at hn), List.getElem?_set_ne (by rintro rfl; simp [hx] at hn)]
                exact e
            · simp
            · intro c hcf he
              simp only [PG.containsNode, PG.node?] at he ⊢
              rw [List.getElem?_set_ne (Ne.symm hcf)]
              by_cases hcz : z = c
              · subst hcz; rw [List.getElem?_set_self hzl]; rfl
              · rw [List.getElem?_set_ne hcz]; exact he
      obtain ⟨g1, h1, h2, h3, h4⟩ := key
      obtain ⟨g', e1, e2, e3, e4⟩ := ih h2 hn.2
      refine ⟨g', ?_, e2, by rw [e3, h3], fun c hcl he => e4 c (fun hh => hcl (by simp [hh])) (h4 c (fun hh => hcl (by simp [hh])) he)⟩
      simp only [List.length_cons, List.replicate_succ, PG.run, PG.step, h1, Option.map_some]
      exact e1

/-- If two different free slots are exchanged, the call returns, but one of the two slots is lost: after some calls
of `add_node` a new slot is made although the slot is still free. Compare `C46_new_slot_when_full`. -/
theorem C17_swap_two_free {maxOff : Nat} (hmax : maxOff ≤ 32767) {g : PG} (hg : PG.Reach maxOff g) {a b : Nat} (hab : a ≠ b)
    (ha : a < g.nodeMeta.length) (hb : b < g.nodeMeta.length) (ha' : g.containsNode a = false) (hb' : g.containsNode b = false) :
    ∃ g', g.swapNodes a b = some g' ∧ ∃ k g1 g2 c, PG.run maxOff g' (List.replicate k (.addNode 0 0)) = some g1 ∧
      g1.addNode maxOff 0 0 = some (g.nodeMeta.length, g2) ∧ (c = a ∨ c = b) ∧
      g1.containsNode c = false ∧ g2.containsNode c = false := by
  obtain ⟨fn, hN⟩ := (hg.inv hmax).nodes
  have free : ∀ x, x < g.nodeMeta.length → g.containsNode x = false → ∃ p n, g.nodeMeta[x]? = some (.free p n) := by
    intro x hx h
    simp only [PG.containsNode, PG.node?] at h
    rw [List.getElem?_eq_getElem hx] at h ⊢
    cases e : g.nodeMeta[x] with
    | node m => rw [e] at h; cases h
    | free p n => exact ⟨p, n, rfl⟩
  obtain ⟨pa, na, ea⟩ := free a ha ha'
  obtain ⟨pb, nb, eb⟩ := free b hb hb'
  have hsw : g.swapNodes a b = some { g with nodeMeta := (g.nodeMeta.set a (.free pb nb)).set b (.free pa na) } := by
    simp only [PG.swapNodes, ea, eb, PG.swapClaim]
  refine ⟨_, hsw, ?_⟩
  obtain ⟨g', hg'⟩ : ∃ g' : PG, { g with nodeMeta := (g.nodeMeta.set a (.free pb nb)).set b (.free pa na) } = g' := ⟨_, rfl⟩
  rw [hg']
  have hfree : g'.nodeFree = g.nodeFree := by rw [← hg']
  have hlen : g'.nodeMeta.length = g.nodeMeta.length := by rw [← hg']; simp
  have hma : g'.nodeMeta[a]? = g.nodeMeta[b]? := by
    rw [← hg', eb]; simp only
    rw [List.getElem?_set_ne hab.symm, List.getElem?_set_self ha]
  have hmb : g'.nodeMeta[b]? = g.nodeMeta[a]? := by
    rw [← hg', ea]; simp only
    rw [List.getElem?_set_self (by simpa using hb)]
  have hmo : ∀ x, x ≠ a → x ≠ b → g'.nodeMeta[x]? = g.nodeMeta[x]? := by
    intro x h1 h2
    rw [← hg']; simp only
    rw [List.getElem?_set_ne h2.symm, List.getElem?_set_ne h1.symm]
  have hca : g'.containsNode a = false := by simp only [PG.containsNode, PG.node?, hma]; exact hb'
  have hcb : g'.containsNode b = false := by simp only [PG.containsNode, PG.node?, hmb]; exact ha'
  -- the general case
  have main : ∀ u v l1 l2 l3, fn = l1 ++ u :: (l2 ++ v :: l3) → g'.nodeMeta[u]? = g.nodeMeta[v]? →
      (∀ x, x ≠ u → x ≠ v → g'.nodeMeta[x]? = g.nodeMeta[x]?) → g'.containsNode v = false →
      ∃ k g1 g2, PG.run maxOff g' (List.replicate k (.addNode 0 0)) = some g1 ∧
      g1.addNode maxOff 0 0 = some (g.nodeMeta.length, g2) ∧ g1.containsNode v = false ∧ g2.containsNode v = false := by
    intro u v l1 l2 l3 hl hu ho hv
    have hnd := hN.nodup
    have hvl : v < g.nodeMeta.length := by
      obtain ⟨p, n, e⟩ := (hN.exact v).1 (by rw [hl]; simp)
      exact (List.getElem?_eq_some_iff.1 e).1
    have hch := hN.chain.single
    rw [hl] at hnd hch
    have hc : SChain (fun i => g'.nodeMeta[i]?) g'.nodeFree (l1 ++ u :: l3) := by
      rw [hfree]; exact hch.splice hnd hu ho
    have hnd' : (l1 ++ u :: l3).Nodup := by
      refine List.Nodup.sublist ?_ hnd
      exact (List.Sublist.refl l1).append (List.Sublist.cons₂ u ((List.sublist_cons_self v l3).trans (List.sublist_append_right l2 _)))
    obtain ⟨g1, e1, e2, e3, e4⟩ := SChain.run (maxOff := maxOff) _ hc hnd'
    have hv1 : g1.containsNode v = false := by
      refine e4 v ?_ hv
      intro hh
      simp only [List.nodup_append, List.nodup_cons, List.mem_append, List.mem_cons] at hnd hh
      grind
    refine ⟨_, g1, { g1 with nodeMeta := (g1.nodeMeta ++ [NodeEntry.free none none]).set g.nodeMeta.length (NodeEntry.node ⟨0, 0, 0, 0⟩), nodeCount := g1.nodeCount + 1 }, e1, ?_, hv1, ?_⟩
    · simp only [PG.addNode, PG.allocNode, e2, PG.allocPorts, Nat.zero_le, and_self, if_true, Nat.add_zero, List.length_append,
        List.length_singleton, Nat.lt_add_one, e3, hlen]
    · simp only [PG.containsNode, PG.node?] at hv1 ⊢
      rw [List.getElem?_set_ne (by omega), List.getElem?_append_left (by omega)]
      exact hv1
  obtain ⟨s, t, hst⟩ := List.append_of_mem ((hN.exact a).2 ⟨pa, na, ea⟩)
  have hbm := (hN.exact b).2 ⟨pb, nb, eb⟩
  rw [hst, List.mem_append, List.mem_cons] at hbm
  rcases hbm with hs | rfl | ht
  · obtain ⟨s1, s2, rfl⟩ := List.append_of_mem hs
    obtain ⟨k, g1, g2, e1, e2, e3, e4⟩ := main b a s1 s2 t (by rw [hst]; simp) hmb (fun x h1 h2 => hmo x h2 h1) hca
    exact ⟨k, g1, g2, a, e1, e2, .inl rfl, e3, e4⟩
  · exact absurd rfl hab
  · obtain ⟨t1, t2, rfl⟩ := List.append_of_mem ht
    obtain ⟨k, g1, g2, e1, e2, e3, e4⟩ := main a b s t1 t2 hst hma hmo hcb
    exact ⟨k, g1, g2, b, e1, e2, .inr rfl, e3, e4⟩

/-- Two free slots of a reachable graph. -/
example : (checkedRun 32767 PG.empty [.addNode 1 0, .addNode 0 1, .addNode 1 1, .removeNode 0, .removeNode 1]).map
    (fun g => (g.nodeMeta.length, g.containsNode 0, g.containsNode 1)) = some (3, false, false) := by decide +kernel

/-- With one and the same free slot nothing happens. -/
theorem C17_swap_same_free {g : PG} {a : Nat} (ha : a < g.nodeMeta.length) (hc : g.containsNode a = false) :
    g.swapNodes a a = some g := by
  simp only [PG.containsNode, PG.node?] at hc
  unfold PG.swapNodes
  rw [List.getElem?_eq_getElem ha] at hc ⊢
  cases e : g.nodeMeta[a] with
  | node m => rw [e] at hc; cases hc
  | free p n =>
    have : (g.nodeMeta.set a (.free p n)).set a (.free p n) = g.nodeMeta := by
      rw [List.set_set, ← e, List.set_getElem_self]
    simp only [PG.swapClaim, this]

example : (exG.removeNode 0).bind (fun g => (g.swapNodes 0 0).map fun g' => (g.nodeMeta.length, g.containsNode 0, g' == g)) =
    some (4, false, true) := by decide +kernel

end Verif.PG

#print axioms Verif.PG.C17_swap_two_free
#print axioms Verif.PG.C17_swap_same_free
