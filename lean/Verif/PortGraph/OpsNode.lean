import Verif.PortGraph.OpsLink

/-! Effects of allocating and freeing node slots. -/

namespace Verif.PG

open Verif (Direction)

/-- `true` on live node entries. -/
abbrev isNode (e : Option NodeEntry) : Bool :=
  match e with
  | some (.node _) => true
  | _ => false

theorem PG.node?_isSome {g : PG} {n} : (g.node? n).isSome = isNode g.nodeMeta[n]? := by
  unfold PG.node? isNode
  split <;> simp_all

theorem NInv.count' {nm head c fn} (h : NInv nm head c fn) :
    c = cnt nm.length fun n => isNode nm[n]? := h.count

theorem DChain.mem_free {nm : Nat → Option NodeEntry} {pr h l} (hc : DChain nm pr h l) :
    ∀ x ∈ l, ∃ a b, nm x = some (.free a b) := by
  induction l generalizing h pr with
  | nil => simp
  | cons x xs ih =>
    cases h with
    | none => simp [DChain] at hc
    | some f =>
      obtain ⟨rfl, nx, hf, hc⟩ := hc
      intro y hy
      rcases List.mem_cons.1 hy with rfl | hy
      · exact ⟨_, _, hf⟩
      · exact ih hc y hy

theorem NInv.head_lt {nm : List NodeEntry} {f c fn} (h : NInv nm (some f) c fn) : f < nm.length := by
  obtain ⟨xs, nx, -, hf, -⟩ := h.chain.head
  rcases Nat.lt_or_ge f nm.length with h1 | h1
  · exact h1
  · rw [List.getElem?_eq_none h1] at hf; simp at hf

theorem allocNode_ok {g : PG} {fn} (h : NInv g.nodeMeta g.nodeFree g.nodeCount fn) :
    ∃ n g', g.allocNode = some (n, g') ∧ g.node? n = none ∧ n < g'.nodeMeta.length ∧
      g'.node? = g.node? ∧ g'.portMeta = g.portMeta ∧ g'.portLink = g.portLink ∧
      g'.portFree = g.portFree ∧ g'.nodeCount = g.nodeCount ∧ g'.portCount = g.portCount ∧
      g'.linkCount = g.linkCount ∧ g.nodeMeta.length ≤ g'.nodeMeta.length ∧
      (g.nodeFree = none → n = g.nodeMeta.length ∧ g'.nodeMeta.length = n + 1) ∧
      (g.nodeFree ≠ none → some n = g.nodeFree ∧ g'.nodeMeta.length = g.nodeMeta.length) ∧
      ∀ m, NInv (g'.nodeMeta.set n (.node m)) g'.nodeFree (g.nodeCount + 1) fn.tail := by
  have hcount := h.count'
  cases hf : g.nodeFree with
  | none =>
    rw [hf] at h
    have hfn : fn = [] := h.chain.nil
    subst hfn
    have hnode : PG.node? { g with nodeMeta := g.nodeMeta ++ [.free none none] } = g.node? := by
      funext j
      simp only [PG.node?]
      rcases Nat.lt_trichotomy j g.nodeMeta.length with h1 | h1 | h1
      · rw [List.getElem?_append_left h1]
      · subst h1; simp
      · rw [List.getElem?_eq_none (by simp; omega), List.getElem?_eq_none (by omega)]
    refine ⟨g.nodeMeta.length, { g with nodeMeta := g.nodeMeta ++ [.free none none] }, ?_, ?_, by simp, hnode,
      rfl, rfl, rfl, rfl, rfl, rfl, by simp, by simp, by simp, ?_⟩
    · simp [PG.allocNode, hf]
    · simp [PG.node?]
    · intro m
      have hset : (g.nodeMeta ++ [NodeEntry.free none none]).set g.nodeMeta.length (.node m) =
          g.nodeMeta ++ [.node m] := by simp
      simp only [hset, List.tail_nil]
      refine ⟨by simp [hf, DChain], ?_, by simp, ?_⟩
      · intro n
        simp only [List.not_mem_nil, false_iff]
        rintro ⟨a, b, hab⟩
        rcases Nat.lt_trichotomy n g.nodeMeta.length with h1 | h1 | h1
        · rw [List.getElem?_append_left h1] at hab
          exact absurd ((h.exact n).2 ⟨a, b, hab⟩) (by simp)
        · subst h1; simp at hab
        · rw [List.getElem?_eq_none (by simp; omega)] at hab; simp at hab
      · show g.nodeCount + 1 = cnt (g.nodeMeta ++ [NodeEntry.node m]).length
          fun n => isNode (g.nodeMeta ++ [NodeEntry.node m])[n]?
        rw [List.length_append, List.length_singleton, cnt_succ, hcount]
        simp [isNode]
        apply cnt_congr
        intro i hi
        simp [List.getElem?_append_left hi]
  | some node =>
    rw [hf] at h
    have hlt := h.head_lt
    obtain ⟨xs, nx, hxs, hnode, hch⟩ := h.chain.head
    subst hxs
    have hnodup := List.nodup_cons.1 h.nodup
    have hnn : g.node? node = none := by simp [PG.node?, hnode]
    cases nx with
    | none =>
      have := hch.nil
      subst this
      refine ⟨node, { g with nodeFree := none }, ?_, hnn, by simpa using hlt, rfl,
        rfl, rfl, rfl, rfl, rfl, rfl, by simp, by simp, by simp, ?_⟩
      · simp [PG.allocNode, hf, hnode]
      · intro m
        refine ⟨by simp [DChain], ?_, by simp, ?_⟩
        · intro n
          simp only [List.tail_cons, List.not_mem_nil, false_iff]
          rintro ⟨a, b, hab⟩
          rw [List.getElem?_set] at hab
          split at hab
          · simp at hab
          · rename_i hne
            have := (h.exact n).2 ⟨a, b, hab⟩
            simp at this; exact hne this.symm
        · show g.nodeCount + 1 = cnt (g.nodeMeta.set node (.node m)).length
            fun n => isNode (g.nodeMeta.set node (.node m))[n]?
          rw [List.length_set, hcount]
          symm
          apply cnt_insert hlt
          · simp [isNode, hnode]
          · simp [isNode, hlt]
          · intro j _ hj
            rw [List.getElem?_set_ne (fun e => hj e.symm)]
    | some nx =>
      obtain ⟨ys, nn, hys, hnx, hch'⟩ := hch.head
      subst hys
      have hne : nx ≠ node := by rintro rfl; exact hnodup.1 (by simp)
      have hnodup2 := List.nodup_cons.1 hnodup.2
      have hnxlt : nx < g.nodeMeta.length := by
        rcases Nat.lt_or_ge nx g.nodeMeta.length with h1 | h1
        · exact h1
        · rw [List.getElem?_eq_none h1] at hnx; simp at hnx
      refine ⟨node, { g with nodeFree := some nx, nodeMeta := g.nodeMeta.set nx (.free none nn) }, ?_, hnn,
        by simpa using hlt, ?_,
        rfl, rfl, rfl, rfl, rfl, rfl, by simp, by simp, by simp, ?_⟩
      · simp [PG.allocNode, hf, hnode, hnx]
      · funext j
        simp only [PG.node?]
        rw [List.getElem?_set]
        by_cases e : nx = j
        · subst e; rw [hnx]; simp [hnxlt]
        · rw [if_neg e]
      · intro m
        have hget : ∀ j : Nat, ((g.nodeMeta.set nx (.free none nn)).set node (.node m))[j]? =
            if j = node then some (.node m) else if j = nx then some (.free none nn) else g.nodeMeta[j]? := by
          intro j
          rw [List.getElem?_set, List.getElem?_set]
          by_cases e1 : j = node
          · subst e1; simp [hlt]
          · by_cases e2 : j = nx
            · subst e2; simp [hnxlt, e1, Ne.symm e1]
            · simp [e1, e2, Ne.symm e1, Ne.symm e2]
        refine ⟨?_, ?_, by simpa using hnodup.2, ?_⟩
        · simp only [List.tail_cons]
          refine ⟨rfl, nn, by simp [hget, hne], ?_⟩
          apply hch'.congr
          intro x hx
          rw [hget, if_neg, if_neg]
          · rintro rfl; exact hnodup2.1 hx
          · rintro rfl; exact hnodup.1 (by simp [hx])
        · intro n
          rw [List.tail_cons]
          simp only
          rw [hget]
          have hex := h.exact n
          by_cases e1 : n = node
          · subst e1
            simp only [if_true]
            constructor
            · intro hm; exact absurd hm hnodup.1
            · rintro ⟨a, b, hab⟩; simp at hab
          · by_cases e2 : n = nx
            · subst e2; simp [e1]
            · simp only [e1, e2, if_false]
              rw [← hex]; simp [e1, e2]
        · show g.nodeCount + 1 = cnt ((g.nodeMeta.set nx (.free none nn)).set node (.node m)).length
            fun n => isNode ((g.nodeMeta.set nx (.free none nn)).set node (.node m))[n]?
          rw [List.length_set, List.length_set, hcount]
          symm
          apply cnt_insert hlt
          · simp [isNode, hnode]
          · simp [isNode, hget]
          · intro j _ hj
            rw [hget, if_neg hj]
            split
            · subst j; simp [isNode, hnx]
            · rfl

theorem freeNode_ok {g : PG} {fn} (h : NInv g.nodeMeta g.nodeFree g.nodeCount fn) {n m}
    (hn : g.node? n = some m) :
    ∃ g', g.freeNode n = some g' ∧ g'.node? = upd g.node? n none ∧
      g'.portMeta = g.portMeta ∧ g'.portLink = g.portLink ∧
      g'.portFree = g.portFree ∧ g'.nodeCount = g.nodeCount ∧ g'.portCount = g.portCount ∧
      g'.linkCount = g.linkCount ∧ 0 < g.nodeCount ∧ g'.nodeFree = some n ∧
      g'.nodeMeta.length = g.nodeMeta.length ∧
      NInv g'.nodeMeta g'.nodeFree (g.nodeCount - 1) (n :: fn) := by
  have hlt := PG.node?_lt (g := g) (n := n) (by simp [hn])
  have hnm := PG.node?_eq.1 hn
  have hcount := h.count'
  have hpos : 0 < g.nodeCount := by
    rw [hcount]; exact cnt_pos hlt (by simp [isNode, hnm])
  have hnotin : n ∉ fn := by
    intro hc
    obtain ⟨a, b, hab⟩ := (h.exact n).1 hc
    rw [hnm] at hab; simp at hab
  cases hf : g.nodeFree with
  | none =>
    rw [hf] at h
    have hfn : fn = [] := h.chain.nil
    subst hfn
    refine ⟨{ g with nodeMeta := g.nodeMeta.set n (.free none none), nodeFree := some n }, ?_, ?_,
      rfl, rfl, rfl, rfl, rfl, rfl, hpos, rfl, by simp, ?_⟩
    · simp [PG.freeNode, hlt, hf]
    · funext j
      simp only [PG.node?, upd]
      rw [List.getElem?_set]
      by_cases e : n = j
      · subst e; simp [hlt]
      · rw [if_neg e, if_neg (fun h => e h.symm)]
    · refine ⟨⟨rfl, none, by simp [hlt], by simp [DChain]⟩, ?_, by simp, ?_⟩
      · intro j
        simp only [List.mem_singleton]
        rw [List.getElem?_set]
        by_cases e : n = j
        · subst e; simp [hlt]
        · rw [if_neg e]
          constructor
          · intro h; exact absurd h.symm e
          · intro hab; exact absurd ((h.exact j).2 hab) (by simp)
      · show g.nodeCount - 1 = cnt (g.nodeMeta.set n (.free none none)).length
          fun i => isNode (g.nodeMeta.set n (.free none none))[i]?
        rw [List.length_set]
        have := cnt_insert (n := g.nodeMeta.length)
          (P := fun i => isNode (g.nodeMeta.set n (.free none none))[i]?)
          (Q := fun i => isNode g.nodeMeta[i]?) hlt (by simp [isNode, hlt]) (by simp [isNode, hnm])
          (fun j _ hj => by rw [List.getElem?_set_ne (fun e => hj e.symm)])
        omega
  | some hd =>
    rw [hf] at h
    have hdlt := h.head_lt
    obtain ⟨xs, nx, hxs, hhd, hch⟩ := h.chain.head
    subst hxs
    have hnodup := List.nodup_cons.1 h.nodup
    have hne : hd ≠ n := by rintro rfl; exact hnotin (by simp)
    have hget : ∀ j : Nat, ((g.nodeMeta.set hd (.free (some n) nx)).set n (.free none (some hd)))[j]? =
        if j = n then some (.free none (some hd)) else
          if j = hd then some (.free (some n) nx) else g.nodeMeta[j]? := by
      intro j
      rw [List.getElem?_set, List.getElem?_set]
      by_cases e1 : j = n
      · subst e1; simp [hlt]
      · by_cases e2 : j = hd
        · subst e2; simp [hdlt, e1, Ne.symm e1]
        · simp [e1, e2, Ne.symm e1, Ne.symm e2]
    refine ⟨{ g with
      nodeMeta := (g.nodeMeta.set hd (.free (some n) nx)).set n (.free none (some hd))
      nodeFree := some n }, ?_, ?_, rfl, rfl, rfl, rfl, rfl, rfl, hpos, rfl, by simp, ?_⟩
    · simp [PG.freeNode, hlt, hf, hhd]
    · funext j
      simp only [PG.node?, upd]
      rw [hget]
      by_cases e1 : j = n
      · simp [e1]
      · by_cases e2 : j = hd
        · subst e2; simp [e1, hhd]
        · simp [e1, e2]
    · refine ⟨⟨rfl, some hd, by simp [hget], rfl, nx, by simp [hget, hne], ?_⟩, ?_, ?_, ?_⟩
      · apply hch.congr
        intro x hx
        simp only
        rw [hget, if_neg, if_neg]
        · rintro rfl; exact hnodup.1 hx
        · rintro rfl; exact hnotin (by simp [hx])
      · intro j
        simp only
        rw [hget]
        have hex := h.exact j
        by_cases e1 : j = n
        · simp [e1]
        · by_cases e2 : j = hd
          · simp [e2, hne]
          · simp only [e1, e2, if_false]; rw [← hex]; simp [e1, e2]
      · exact List.nodup_cons.2 ⟨hnotin, h.nodup⟩
      · show g.nodeCount - 1 = cnt ((g.nodeMeta.set hd (.free (some n) nx)).set n (.free none (some hd))).length
          fun i => isNode ((g.nodeMeta.set hd (.free (some n) nx)).set n (.free none (some hd)))[i]?
        rw [List.length_set, List.length_set]
        have := cnt_insert (n := g.nodeMeta.length)
          (P := fun i => isNode ((g.nodeMeta.set hd (.free (some n) nx)).set n (.free none (some hd)))[i]?)
          (Q := fun i => isNode g.nodeMeta[i]?) hlt (by simp [isNode, hget]) (by simp [isNode, hnm])
          (fun j _ hj => by
            rw [hget, if_neg hj]
            split
            · subst j; simp [isNode, hhd]
            · rfl)
        omega

end Verif.PG
