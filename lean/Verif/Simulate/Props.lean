import Verif.Simulate.Spec
import Verif.Multi.ViewOk
import Verif.View.Props
import Verif.ViewLaws.Props

/-!
# C64: a `MultiPortGraph` without multiple links is a `PortGraph`
-/

namespace Verif.Multi

open Verif (Direction)
open Verif.PG Verif.View

theorem rekeyFlags_false (tr : List (Nat × PortOp)) : MG.rekeyFlags (fun _ => false) tr = some (fun _ => false, []) := by
  induction tr with
  | nil => rfl
  | cons x tr ih =>
    obtain ⟨p, op⟩ := x
    cases op with
    | removed old => simpa [MG.rekeyFlags] using ih
    | moved q =>
      have : swapFlag (fun _ => false) p q = fun _ => false := by funext k; simp [swapFlag]
      simpa [MG.rekeyFlags, this] using ih

theorem unlinkMultis_false {m : MG} (h : m.multi = fun _ => false) (ps : List Nat) : m.unlinkMultis ps = some m := by
  induction ps with
  | nil => rfl
  | cons p ps ih => simpa [MG.unlinkMultis, h] using ih

theorem foldl_swap_false (l : List (Nat × Nat)) :
    l.foldl (fun f y => swapFlag f y.1 y.2) (fun _ => false) = fun _ => false := by
  induction l with
  | nil => rfl
  | cons y l ih =>
    have : swapFlag (fun _ => false) y.1 y.2 = fun _ => false := by funext k; simp [swapFlag]
    simpa [this] using ih

theorem getFree_fresh {g : PG} {p : Nat} (maxOff : Nat) (h : g.portLink? p = some none) :
    (MG.ofGraph g).getFree maxOff p = some (.ok ((p, 0), p), MG.ofGraph g) := by
  have hd : ∃ d, g.portDirection p = some d := by
    unfold PG.portLink? at h
    cases hp : g.port? p with
    | none => rw [hp] at h; simp at h
    | some x => exact ⟨x.2, by simp [PG.portDirection, hp]⟩
  obtain ⟨d, hd⟩ := hd
  simp [MG.getFree, MG.ofGraph, hd, h]

/-- **C64** As long as `link_ports` is only called for ports without link, a multiport graph made of a
port graph does exactly what the port graph does: it panics when the port graph does, returns the
same value and reports the same moves, and stays the port graph without helper nodes. -/
theorem C64_call (maxOff : Nat) (g : PG) (op : PG.Op) (hf : Fresh g op) :
    (MG.ofGraph g).step maxOff (shared op) = (flatCall maxOff g op).map fun x => (x.1, MG.ofGraph x.2) := by
  cases op with
  | addNode i o =>
    simp only [shared, MG.step, flatCall, MG.addNode, Option.map_map]; rfl
  | removeNode n =>
    simp only [shared, MG.step, flatCall, Option.map_map]
    unfold MG.removeNode
    rw [unlinkMultis_false (m := MG.ofGraph g) rfl]
    simp only [MG.ofGraph, Bool.false_eq_true, if_false, Option.map_map]
    rfl
  | linkPorts a b =>
    obtain ⟨ha, hb⟩ := hf
    simp only [shared, MG.step, flatCall, Option.map_map]
    unfold MG.linkPorts
    simp only [getFree_fresh maxOff ha, getFree_fresh maxOff hb]
    show (match g.linkPorts a b with | none => _ | some (.error er, g) => _ | some (.ok _, g) => _ : Option _).map _ = _
    cases hl : g.linkPorts a b with
    | none => rfl
    | some x =>
      obtain ⟨r, g'⟩ := x
      cases r with
      | error er => rfl
      | ok y =>
        have : y = (a, b) := by
          unfold PG.linkPorts at hl
          split at hl
          · simp at hl
          · split at hl
            · simp at hl
            · split at hl
              · simp at hl
              · split at hl
                · simp at hl
                · simp at hl
                · split at hl
                  · simp at hl
                  · simp at hl
                  · simp only [Option.some.injEq, Prod.mk.injEq, Except.ok.injEq] at hl
                    exact hl.1.symm
        subst this
        rfl
  | unlinkPort p =>
    simp only [shared, MG.step, flatCall, Option.map_map]
    unfold MG.unlinkPort
    simp only [MG.ofGraph, Bool.false_eq_true, if_false, Option.map_map]
    rfl
  | setNumPorts n i o =>
    simp only [shared, MG.step, flatCall, Option.map_map]
    unfold MG.setNumPorts
    simp only [MG.ofGraph]
    cases hs : g.setNumPorts n i o with
    | none => rfl
    | some x => simp [rekeyFlags_false, MG.removeCopies]
  | compactNodes =>
    simp only [shared, MG.step, flatCall, MG.compactNodes, Option.map_map, MG.ofGraph]
    congr 1
    funext x
    simp [foldl_swap_false]
  | compactPorts =>
    simp only [shared, MG.step, flatCall, MG.compactPorts, Option.map_map, MG.ofGraph]
    congr 1
    funext x
    simp [foldl_swap_false]
  | swapNodes a b =>
    simp only [shared, MG.step, flatCall, MG.swapNodes, Option.map_map, MG.ofGraph]
    congr 1
    funext x
    have : swapFlag (fun _ => false) a b = fun _ => false := by funext k; simp [swapFlag]
    simp [this]
  | clear => rfl

/-- **C64** The same for every sequence of calls. -/
theorem C64_run (maxOff : Nat) (g : PG) (ops : List PG.Op) (hf : FreshRun maxOff g ops) :
    multiRun maxOff (MG.ofGraph g) (ops.map shared) = (flatRun maxOff g ops).map fun x => (x.1, MG.ofGraph x.2) := by
  induction ops generalizing g with
  | nil => rfl
  | cons op ops ih =>
    simp only [List.map_cons, multiRun, flatRun, C64_call maxOff g op hf.1]
    cases hc : flatCall maxOff g op with
    | none => rfl
    | some x =>
      simp only [Option.map_some, Option.bind_some, ih x.2 (hf.2 x hc), Option.map_map]
      rfl

/-- **C64** The calls on subports do what `link_ports` and `unlink_port` do: in a graph without
multiple links the offset of a subport is not looked at. -/
theorem C64_subport_calls {maxOff : Nat} (hmax : maxOff ≤ 32767) {g : PG} (hg : PG.Reach maxOff g) (p q k l : Nat) :
    (MG.ofGraph g).linkSubports (p, k) (q, l) = (g.linkPorts p q).map (fun x => (x.1.map fun _ => (), MG.ofGraph x.2)) ∧
    (MG.ofGraph g).unlinkSubport (p, k) = (g.unlinkPort p).map (fun x => (x.1.map fun r => (r, 0), MG.ofGraph x.2)) := by
  constructor
  · simp [MG.linkSubports, MG.index, MG.ofGraph]
  · simp only [MG.unlinkSubport, MG.index, MG.ofGraph, Bool.false_eq_true, if_false]
    cases hu : g.unlinkPort p with
    | none => rfl
    | some x =>
      obtain ⟨r, g'⟩ := x
      cases r with
      | none => rfl
      | some r =>
        have : ∃ c, g'.portNode r = some c := by
          have hI := hg.inv hmax
          cases hp : g.port? p with
          | none => rw [unlinkPort_none hp] at hu; cases hu
          | some x =>
            obtain ⟨g1, h1, -, -, h2, -⟩ := unlinkPort_ok hI (p := p) (by rw [hp]; rfl)
            rw [h1] at hu
            simp only [Option.some.injEq, Prod.mk.injEq] at hu
            obtain ⟨h3, rfl⟩ := hu
            have hs : (ofPG g 0 0).Shows p r := shows_pg.2 (by rw [portLink?_eq hI (by rw [hp]; rfl), h3])
            obtain ⟨-, -, c, -, -, -, hc, -⟩ := (ofPG_ok hI 0 0).shows_dir p r hs
            refine ⟨c, ?_⟩
            have : g1.portNode r = g.portNode r := by simp only [PG.portNode, PG.port?, h2]
            rw [this]; exact hc
        obtain ⟨c, hc⟩ := this
        simp [MG.fromIndex, hc]

theorem filter_sub0 {P : Subport × Subport → Bool} {Q : Nat × Nat → Bool} (h : ∀ l, P (sub0 l) = Q l) (L : List (Nat × Nat)) :
    (L.map sub0).filter P = (L.filter Q).map sub0 := by
  rw [List.filter_map]
  congr 2
  funext l
  exact h l

/-- **C64** All queries of the multiport graph agree with those of the port graph; the endpoint of a
link is the port with offset 0. -/
theorem C64_view {maxOff : Nat} (hmax : maxOff ≤ 32767) {g : PG} (hg : PG.Reach maxOff g) {cn cp : Nat} {A : GView Subport}
    {B : GView Nat} (hA : A = ofMG (MG.ofGraph g) cn cp) (hB : B = ofPG g cn cp) :
    (A.containsNode = B.containsNode ∧ A.containsPort = B.containsPort ∧ A.isEmpty = B.isEmpty ∧ A.nodeCount = B.nodeCount ∧
      A.portCount = B.portCount ∧ A.linkCount = B.linkCount ∧ A.nodes = B.nodes ∧ A.portsIter = B.portsIter ∧
      A.nodeCapacity = B.nodeCapacity ∧ A.portCapacity = B.portCapacity) ∧
    (A.portDirection = B.portDirection ∧ A.portNode = B.portNode ∧ A.portOffset = B.portOffset ∧
      A.portIndex = B.portIndex ∧ A.ports = B.ports ∧ A.allPorts = B.allPorts ∧ A.numPorts = B.numPorts) ∧
    (∀ p, A.portLinks p = (B.portLinks p).map sub0) ∧ (∀ n d, A.links n d = (B.links n d).map sub0) ∧
    (∀ n, A.allLinks n = (B.allLinks n).map sub0) ∧ (∀ a b, A.getConnections a b = (B.getConnections a b).map sub0) ∧
    (∀ n d, A.neighbours n d = B.neighbours n d) ∧ (∀ n, A.allNeighbours n = B.allNeighbours n) ∧
    (∀ n d, A.subports n d = (B.subports n d).map fun p => (p, 0)) ∧
    (∀ n, A.allSubports n = (B.allSubports n).map fun p => (p, 0)) ∧
    ∀ p, A.subportLink (p, 0) = (B.subportLink p).map fun q => (q, 0) := by
  have hI := hg.inv hmax
  have okA : A.Ok := hA ▸ ofMG_ok (ofGraph_ok hI) cn cp
  have okB : B.Ok := hB ▸ ofPG_ok hI cn cp
  have hcn : (MG.ofGraph g).containsNode = g.containsNode := by
    funext n; simp [MG.containsNode, MG.ofGraph]
  have hcp' : (MG.ofGraph g).containsPort = g.containsPort := by
    funext p
    simp only [MG.containsPort, MG.ofGraph, PG.containsPort]
    cases hp : g.port? p <;> simp [PG.portNode, hp]
  have hfrom : ∀ p l, g.portLink? p = some (some l) → (MG.ofGraph g).fromIndex l = some (some (l, 0)) := by
    intro p l hl
    have hs : (ofPG g 0 0).Shows p l := shows_pg.2 hl
    obtain ⟨-, -, c, -, -, -, hc, -⟩ := (ofPG_ok hI 0 0).shows_dir p l hs
    have hc' : g.portNode l = some c := hc
    simp [MG.fromIndex, MG.ofGraph, hc']
  have hlive : ∀ p, g.containsPort p = false → g.portLink? p = none := by
    intro p hp
    simp only [PG.containsPort, Option.isSome_eq_false_iff, Option.isNone_iff_eq_none] at hp
    simp [PG.portLink?, hp]
  have hpl : ∀ p, A.portLinks p = (B.portLinks p).map sub0 := by
    intro p
    subst hA; subst hB
    show (if (MG.ofGraph g).containsPort p = true then ((MG.ofGraph g).portLinks? p).getD [] else []) = (linkedPairs g [p]).map sub0
    rw [hcp']
    cases hc : g.containsPort p with
    | false => simp [linkedPairs, hlive p hc]
    | true =>
      have hps : (g.port? p).isSome := hc
      have hl := portLink?_eq hI hps
      simp only [MG.portLinks?, MG.linkFrom, linkedPairs, List.filterMap_cons, List.filterMap_nil]
      have e1 : (MG.ofGraph g).multi p = false := rfl
      have e2 : (MG.ofGraph g).graph.portLink? p = g.portLink? p := rfl
      rw [e1, e2]
      cases hk : g.lk p with
      | none => rw [hk] at hl; simp [hl]
      | some l => rw [hk] at hl; simp [hl, hfrom p l hl, sub0]
  have hplf : A.portLinks = fun p => (B.portLinks p).map sub0 := funext hpl
  have hnode : A.portNode = B.portNode := by subst hA; subst hB; rfl
  have hdir : A.portDirection = B.portDirection := by subst hA; subst hB; rfl
  have hports : A.ports = B.ports := by subst hA; subst hB; rfl
  have hallp : A.allPorts = B.allPorts := by subst hA; subst hB; rfl
  have htA : A.toPort = Prod.fst := by subst hA; rfl
  have htB : B.toPort = id := by subst hB; rfl
  have hcnAB : A.containsNode = B.containsNode := by subst hA; subst hB; exact hcn
  have hlinks : ∀ n d, A.links n d = (B.links n d).map sub0 := by
    intro n d
    rw [okA.links_eq, okB.links_eq, List.map_flatMap, hports, hplf]
  have hsnd : ∀ l : Nat × Nat, A.toPort (sub0 l).2 = B.toPort l.2 := by intro l; rw [htA, htB]; rfl
  have hal : ∀ n, A.allLinks n = (B.allLinks n).map sub0 := by
    intro n
    rw [okA.all_links, okB.all_links, hallp, hplf, ← List.map_flatMap]
    apply filter_sub0
    intro l
    rw [hsnd, hnode, hdir]
  have hcon : ∀ a b, A.getConnections a b = (B.getConnections a b).map sub0 := by
    intro a b
    rw [okA.connections, okB.connections, hlinks]
    apply filter_sub0
    intro l
    rw [hsnd, hnode]
  have hnone : ∀ n d, g.containsNode n = false → g.ports n d = [] := by
    intro n d hn
    rw [List.eq_nil_iff_forall_not_mem]
    intro p hp
    have h1 := ((ofPG_ok hI cn cp).mem_ports n d p).1 hp
    have h2 : g.containsPort p = true := by
      have h3 : g.portNode p = some n := h1.1
      cases hc : g.port? p with
      | none => simp [PG.portNode, hc] at h3
      | some x => simp [PG.containsPort, hc]
    obtain ⟨m, h3, h4⟩ := ((ofPG_ok hI cn cp).port_iff p).1 h2
    cases h1.1.symm.trans h3
    exact Bool.false_ne_true (hn.symm.trans h4)
  have hnone' : ∀ n, g.containsNode n = false → g.allPorts n = [] := by
    intro n hn
    have := (ofPG_ok hI cn cp).all_ports n
    exact this.trans (by show g.ports n .incoming ++ g.ports n .outgoing = []; rw [hnone n _ hn, hnone n _ hn]; rfl)
  have hmask : ∀ {α : Type} (n : Nat) (x : List α), g.containsNode n = false →
      (if (MG.ofGraph g).containsNode n = true then x else []) = [] := by
    intro α n x hn
    rw [hcn, hn]; rfl
  have hnb : ∀ n d, A.neighbours n d = B.neighbours n d := by
    intro n d
    cases hc : g.containsNode n with
    | false =>
      subst hA; subst hB
      show (if (MG.ofGraph g).containsNode n = true then _ else _) = (linkedPairs g (g.ports n d)).filterMap _
      rw [hmask n _ hc, hnone n d hc]; rfl
    | true =>
      have hcB : B.containsNode n = true := by subst hB; exact hc
      have h1 := okA.neighbours_eq n d (hcnAB ▸ hcB)
      have h2 := okB.neighbours_eq n d hcB
      rw [hlinks, List.map_map] at h1
      refine List.map_injective_iff.2 (Option.some_injective _) (h1.trans (Eq.trans ?_ h2.symm))
      congr 1
      funext l
      simp only [Function.comp_apply, hsnd, hnode]
  have hanb : ∀ n, A.allNeighbours n = B.allNeighbours n := by
    intro n
    cases hc : g.containsNode n with
    | false =>
      subst hA; subst hB
      show (if (MG.ofGraph g).containsNode n = true then _ else _) = ((linkedPairs g (g.allPorts n)).filter _).filterMap _
      rw [hmask n _ hc, hnone' n hc]; rfl
    | true =>
      have hcB : B.containsNode n = true := by subst hB; exact hc
      have h1 := okA.all_neighbours n (hcnAB ▸ hcB)
      have h2 := okB.all_neighbours n hcB
      rw [hal, List.map_map] at h1
      refine List.map_injective_iff.2 (Option.some_injective _) (h1.trans (Eq.trans ?_ h2.symm))
      congr 1
      funext l
      simp only [Function.comp_apply, hsnd, hnode]
  have hsub : ∀ ps, (MG.ofGraph g).subportsOf? ps = some (ps.map fun p => (p, 0)) := by
    intro ps
    have : ∀ p, (MG.ofGraph g).subportsAt? p = some [(p, 0)] := fun p => rfl
    unfold MG.subportsOf?
    have h2 : ps.mapM (MG.ofGraph g).subportsAt? = some (ps.map fun p => [(p, 0)]) := by
      induction ps with
      | nil => rfl
      | cons p ps ih => simp [List.mapM_cons, this, ih]
    rw [h2]
    simp only [Option.map_some, Option.some.injEq]
    clear h2
    induction ps with
    | nil => rfl
    | cons p ps ih => simp_all
  have hcnt : (MG.ofGraph g).nodeCount = g.nodeCount ∧ (MG.ofGraph g).portCount = g.portCount ∧
      (MG.ofGraph g).linkCount = g.linkCount := by
    simp [MG.nodeCount, MG.portCount, MG.linkCount, MG.ofGraph]
  have hns : (MG.ofGraph g).nodes = (List.range g.nodeMeta.length).filter g.containsNode := by
    simp [MG.nodes, MG.ofGraph]
  have hpi : (MG.ofGraph g).portsIter = (List.range g.portMeta.length).filter g.containsPort := by
    unfold MG.portsIter
    simp only [MG.ofGraph, Bool.not_false]
    rw [List.filter_filter]
    congr 1
    funext p
    simp only [PG.containsPort, PG.portNode]
    cases g.port? p <;> rfl
  refine ⟨⟨hcnAB, ?_, ?_, ?_, ?_, ?_, ?_, ?_, ?_, ?_⟩, ⟨hdir, hnode, ?_, ?_, hports, hallp, ?_⟩, hpl, hlinks, hal, hcon, hnb, hanb, ?_, ?_, ?_⟩
  all_goals subst hA; subst hB
  · exact hcp'
  · show decide ((MG.ofGraph g).nodeCount = 0) = decide (g.nodeCount = 0)
    rw [hcnt.1]
  · exact hcnt.1
  · exact hcnt.2.1
  · exact hcnt.2.2
  · exact hns
  · exact hpi
  · rfl
  · rfl
  · rfl
  · rfl
  · rfl
  · intro n d
    show (if (MG.ofGraph g).containsNode n = true then ((MG.ofGraph g).subportsOf? (g.ports n d)).getD [] else []) =
      (g.ports n d).map _
    cases hc : g.containsNode n with
    | false => rw [hmask n _ hc, hnone n d hc]; rfl
    | true => rw [hcn, hc, hsub]; rfl
  · intro n
    show (if (MG.ofGraph g).containsNode n = true then ((MG.ofGraph g).subportsOf? (g.allPorts n)).getD [] else []) =
      (g.allPorts n).map _
    cases hc : g.containsNode n with
    | false => rw [hmask n _ hc, hnone' n hc]; rfl
    | true => rw [hcn, hc, hsub]; rfl
  · intro p
    show (if (MG.ofGraph g).containsPort p = true ∧ _ then ((MG.ofGraph g).subportLink? (p, 0)).join else none) =
      ((g.portLink? p).join).map _
    rw [hcp']
    cases hc : g.containsPort p with
    | false => simp [hlive p hc]
    | true =>
      have hps : (g.port? p).isSome := hc
      have hl := portLink?_eq hI hps
      have hi : (MG.ofGraph g).index (p, 0) = some (some p) := rfl
      have e2 : (MG.ofGraph g).graph.portLink? p = g.portLink? p := rfl
      simp only [MG.subportLink?, hi, e2]
      cases hk : g.lk p with
      | none => rw [hk] at hl; simp [hl]
      | some l => rw [hk] at hl; simp [hl, hfrom p l hl]

/-! ## Examples -/

/-- A history with all calls: nodes, links, a self link, port changes, removal and compaction. -/
def exOps : List PG.Op := [.addNode 1 2, .addNode 2 1, .addNode 1 1, .linkPorts 1 3, .linkPorts 4 2, .linkPorts 5 0,
  .linkPorts 7 6, .setNumPorts 0 2 3, .unlinkPort 5, .removeNode 1, .swapNodes 0 2, .compactNodes, .compactPorts]

/-- All calls of the example are fresh. -/
def freshRun (maxOff : Nat) (g : PG) : List PG.Op → Bool
  | [] => true
  | op :: ops => decide (Fresh g op) && (match flatCall maxOff g op with
    | none => true
    | some x => freshRun maxOff x.2 ops)

theorem freshRun_iff (maxOff : Nat) (g : PG) (ops : List PG.Op) (h : freshRun maxOff g ops = true) : FreshRun maxOff g ops := by
  induction ops generalizing g with
  | nil => trivial
  | cons op ops ih =>
    simp only [freshRun, Bool.and_eq_true, decide_eq_true_eq] at h
    refine ⟨h.1, fun x hx => ih _ ?_⟩
    simpa [hx] using h.2

example : FreshRun 32767 PG.empty exOps := freshRun_iff _ _ _ (by decide +kernel)
example : ((flatRun 32767 PG.empty exOps).map fun x => (x.2.nodeCount, x.2.linkCount)) = some (2, 1) := by decide +kernel

/-- The hypothesis is needed: with a second link at a port the port graph refuses the call and the
multiport graph makes a helper node. -/
example : (match flatRun 32767 PG.empty [.addNode 0 1, .addNode 2 0, .linkPorts 0 1, .linkPorts 0 2] with
      | some (_, g) => g.nodeCount == 2 && g.linkCount == 1
      | none => false) = true ∧
    (match multiRun 32767 MG.empty [.addNode 0 1, .addNode 2 0, .linkPorts 0 1, .linkPorts 0 2] with
      | some (_, m) => m.nodeCount == 2 && m.linkCount == 2 && m.copyCount == 1
      | none => false) = true := by decide +kernel

example : PG.Reach 32767 Algo.dagG := Algo.dagG_reach
example : (ofMG (MG.ofGraph Algo.dagG) 6 11).links 3 .incoming = [((6, 0), (3, 0)), ((7, 0), (5, 0))] := by decide +kernel

example := C64_run 32767 PG.empty exOps (freshRun_iff _ _ _ (by decide +kernel))

example := C64_call 32767 Algo.dagG (.linkPorts 11 8) (by decide +kernel)

example := C64_subport_calls (by decide) Algo.dagG_reach 8 2 0 0

#print axioms C64_call
#print axioms C64_run
#print axioms C64_subport_calls
#print axioms C64_view

end Verif.Multi
