import Verif.Multi.BitsModel
import Verif.Secondary.Props
import Verif.Multi.FullProps

/-!
# C81: the bit vectors of a multigraph

The flags that `Verif/Multi/Model.lean` keeps as functions are what the bit vectors of the code say, after all
calls.
-/

namespace Verif.Multi

open Verif (Direction)
open Verif.PG Verif.Secondary

namespace BMG

theorem get_set' (l : List Bool) (k : Nat) (v : Bool) : Bits.get (Bits.set l k v) = setFlag (Bits.get l) k v := by
  funext x
  rw [Bits.get_set]
  rfl

theorem get_swap' (l : List Bool) (a b : Nat) : Bits.get (Bits.swap l a b) = swapFlag (Bits.get l) a b := by
  funext x
  simp only [Bits.swap, swapFlag]
  split
  · rw [Bits.get_set, Bits.get_set]
    grind
  · rename_i h
    simp at h
    grind

theorem get_nil : Bits.get [] = fun _ => false := by funext x; simp [Bits.get_eq]

theorem get_swaps (l : List (Nat × Nat)) (f : List Bool) :
    Bits.get (l.foldl (fun f y => Bits.swap f y.1 y.2) f) = l.foldl (fun f y => swapFlag f y.1 y.2) (Bits.get f) := by
  induction l generalizing f with
  | nil => rfl
  | cons y l ih => simp only [List.foldl_cons, ih, get_swap']

/-- The result and what the flags say. -/
abbrev fl {α : Type} (x : α × BMG) : α × MG := (x.1, x.2.flags)

theorem flags_ofGraph (g : PG) : (ofGraph g).flags = MG.ofGraph g := by
  simp [ofGraph, flags, MG.ofGraph, get_nil]

theorem flags_clear (m : BMG) : m.clear.flags = m.flags.clear := by
  simp [clear, flags, MG.clear, get_nil]

theorem flags_addNode (M : Nat) (m : BMG) (i o : Nat) : (m.addNode M i o).map fl = m.flags.addNode M i o := by
  simp only [addNode, MG.addNode, Option.map_map]
  rfl

theorem flags_removeCopyNode (m : BMG) (p cp : Nat) :
    (m.removeCopyNode p cp).map fl = m.flags.removeCopyNode p cp := by
  simp only [removeCopyNode, MG.removeCopyNode, flags]
  cases m.graph.port? cp with
  | none => rfl
  | some x =>
    obtain ⟨c, d⟩ := x
    simp only
    by_cases hc : Bits.get m.copy c = true
    · simp only [hc, if_true]
      cases (m.graph.ports c d).mapM m.graph.portLink? with
      | none => rfl
      | some ls =>
        simp only
        have key : ∀ z : Option (Option Subport),
            (match z with
              | none => none
              | some link =>
                match m.graph.removeNode c with
                | none => none
                | some g =>
                  if 1 ≤ m.copyCount ∧ (m.graph.ports c d.reverse).length ≤ m.subCount ∧
                      (m.graph.ports c d.reverse).all fun q => !Bits.get (Bits.set (Bits.set m.multi cp false) p false) q
                  then some (link, (⟨g, Bits.set (Bits.set m.multi cp false) p false, Bits.set m.copy c false,
                    m.copyCount - 1, m.subCount - (m.graph.ports c d.reverse).length⟩ : BMG))
                  else none).map fl =
            (match z with
              | none => none
              | some link =>
                match m.graph.removeNode c with
                | none => none
                | some g =>
                  if 1 ≤ m.copyCount ∧ (m.graph.ports c d.reverse).length ≤ m.subCount ∧
                      (m.graph.ports c d.reverse).all fun q => !setFlag (setFlag (Bits.get m.multi) cp false) p false q
                  then some (link, (⟨g, setFlag (setFlag (Bits.get m.multi) cp false) p false,
                    setFlag (Bits.get m.copy) c false,
                    m.copyCount - 1, m.subCount - (m.graph.ports c d.reverse).length⟩ : MG))
                  else none) := by
          intro z
          cases z with
          | none => rfl
          | some link =>
            simp only
            cases m.graph.removeNode c with
            | none => rfl
            | some g =>
              simp only [get_set']
              split
              · simp [fl, flags, get_set']
              · rfl
        exact key _
    · simp only [hc, Bool.false_eq_true, if_false]
      rfl

theorem flags_unlinkPort (m : BMG) (p : Nat) : (m.unlinkPort p).map fl = m.flags.unlinkPort p := by
  simp only [unlinkPort, MG.unlinkPort]
  by_cases h : Bits.get m.multi p = true
  · have h' : m.flags.multi p = true := h
    simp only [h, h', if_true]
    show Option.map fl _ = (match m.graph.portLink? p with | some (some l) => m.flags.removeCopyNode p l | _ => none)
    rcases m.graph.portLink? p with _ | _ | l
    · rfl
    · rfl
    · exact flags_removeCopyNode m p l
  · have h' : ¬ m.flags.multi p = true := h
    rw [if_neg h, if_neg h', Option.map_map]
    show _ = (m.graph.unlinkPort p).map _
    rfl

theorem flags_unlinkMultis (ps : List Nat) (m : BMG) : (m.unlinkMultis ps).map flags = m.flags.unlinkMultis ps := by
  induction ps generalizing m with
  | nil => rfl
  | cons p ps ih =>
    simp only [unlinkMultis, MG.unlinkMultis]
    by_cases h : Bits.get m.multi p = true
    · have h' : m.flags.multi p = true := h
      simp only [h, h', if_true, ← flags_unlinkPort]
      cases m.unlinkPort p with
      | none => rfl
      | some x => exact ih x.2
    · have h' : ¬ m.flags.multi p = true := h
      simp only [h, h', if_false]
      exact ih m

theorem flags_removeNode (m : BMG) (n : Nat) : (m.removeNode n).map flags = m.flags.removeNode n := by
  simp only [removeNode, MG.removeNode]
  by_cases h : Bits.get m.copy n = true
  · have h' : m.flags.copy n = true := h
    simp [h, h']
  · have h' : ¬ m.flags.copy n = true := h
    rw [if_neg h, if_neg h', show m.flags.graph = m.graph from rfl, ← flags_unlinkMultis]
    cases m.unlinkMultis (m.graph.allPorts n) with
    | none => rfl
    | some m' =>
      simp only [Option.map_some, Option.map_map]
      rfl

theorem flags_rekeyFlags (tr : List (Nat × PortOp)) (f : List Bool) :
    (rekeyFlags f tr).map (fun x => (Bits.get x.1, x.2)) = MG.rekeyFlags (Bits.get f) tr := by
  induction tr generalizing f with
  | nil => rfl
  | cons t tr ih =>
    obtain ⟨p, o⟩ := t
    cases o with
    | moved q => simp only [rekeyFlags, MG.rekeyFlags, ih, get_swap']
    | removed old =>
      simp only [rekeyFlags, MG.rekeyFlags]
      split
      · cases old with
        | none => rfl
        | some l =>
          simp only [← ih, Option.map_map]
          rfl
      · exact ih f

theorem flags_removeCopies (ps : List (Nat × Nat)) (m : BMG) :
    (m.removeCopies ps).map flags = m.flags.removeCopies ps := by
  induction ps generalizing m with
  | nil => rfl
  | cons x ps ih =>
    obtain ⟨p, l⟩ := x
    simp only [removeCopies, MG.removeCopies, ← flags_removeCopyNode]
    cases m.removeCopyNode p l with
    | none => rfl
    | some x => exact ih x.2

theorem flags_setNumPorts (m : BMG) (n i o : Nat) :
    (m.setNumPorts n i o).map (fun x => (x.1.flags, x.2)) = m.flags.setNumPorts n i o := by
  simp only [setNumPorts, MG.setNumPorts]
  rw [show m.flags.graph = m.graph from rfl]
  cases m.graph.setNumPorts n i o with
  | none => rfl
  | some x =>
    obtain ⟨g, tr⟩ := x
    simp only
    rw [show m.flags.multi = Bits.get m.multi from rfl, ← flags_rekeyFlags]
    cases rekeyFlags m.multi tr with
    | none => rfl
    | some x =>
      obtain ⟨f, dr⟩ := x
      simp only [Option.map_some, Option.map_map]
      have := flags_removeCopies dr { m with graph := g, multi := f }
      rw [show ({ m.flags with graph := g, multi := Bits.get f } : MG) =
        ({ m with graph := g, multi := f } : BMG).flags from rfl, ← this, Option.map_map]
      rfl

theorem flags_compactNodes (m : BMG) :
    m.compactNodes.map (fun x => (x.1.flags, x.2)) = m.flags.compactNodes := by
  simp only [compactNodes, MG.compactNodes, Option.map_map]
  rw [show m.flags.graph = m.graph from rfl]
  congr 1
  funext x
  simp [flags, get_swaps]

theorem flags_compactPorts (m : BMG) :
    m.compactPorts.map (fun x => (x.1.flags, x.2)) = m.flags.compactPorts := by
  simp only [compactPorts, MG.compactPorts, Option.map_map]
  rw [show m.flags.graph = m.graph from rfl]
  congr 1
  funext x
  simp [flags, get_swaps]

theorem flags_swapNodes (m : BMG) (a b : Nat) : (m.swapNodes a b).map flags = m.flags.swapNodes a b := by
  simp only [swapNodes, MG.swapNodes, Option.map_map]
  rw [show m.flags.graph = m.graph from rfl]
  congr 1
  funext x
  simp [flags, get_swap']

theorem flags_addPort (m : BMG) (n : Nat) (d : Direction) : (m.addPort n d).map fl = m.flags.addPort n d := by
  simp only [addPort, MG.addPort, ← flags_setNumPorts]
  rw [show m.flags.graph = m.graph from rfl]
  cases d
  all_goals
    simp only
    cases m.setNumPorts n _ _ with
    | none => rfl
    | some x =>
      simp only [Option.map_some, Option.map_map]
      rfl

theorem flags_makeCopy (M : Nat) (m : BMG) (p l : Nat) (d : Direction) :
    (m.makeCopy M p l d).map fl = m.flags.makeCopy M p l d := by
  simp only [makeCopy, MG.makeCopy]
  rw [show m.flags.graph = m.graph from rfl]
  cases m.graph.addNode M (if d = .incoming then 2 else 1) (if d = .incoming then 1 else 2) with
  | none => rfl
  | some x =>
    obtain ⟨c, g⟩ := x
    simp only
    rcases (g.ports c d.reverse).head? with _ | cp
    · rfl
    rcases g.portIndex c d 0 with _ | s0
    · rfl
    rcases g.portIndex c d 1 with _ | s1
    · rfl
    simp only
    rcases g.unlinkPort p with _ | ⟨_, g⟩
    · rfl
    simp only
    rcases MG.linkDirected g p cp d with _ | ⟨_ | _, g⟩
    · rfl
    · simp [fl, flags, get_set']
    simp only
    rcases MG.linkDirected g s0 l d with _ | ⟨_ | _, g⟩
    · rfl
    · simp [fl, flags, get_set']
    · simp [fl, flags, get_set']

theorem flags_getFree (M : Nat) (m : BMG) (p : Nat) : (m.getFree M p).map fl = m.flags.getFree M p := by
  simp only [getFree, MG.getFree]
  rw [show m.flags.graph = m.graph from rfl, show m.flags.multi = Bits.get m.multi from rfl]
  rcases m.graph.portDirection p with _ | d
  · rfl
  simp only
  rcases m.graph.portLink? p with _ | _ | l <;> cases Bits.get m.multi p
  · rfl
  · rfl
  · rfl
  · rfl
  · exact flags_makeCopy M m p l d
  · simp only
    rcases m.graph.portNode l with _ | c
    · rfl
    simp only
    obtain ⟨z, hz⟩ : ∃ z, ((m.graph.ports c d).zipIdx.find? fun x => m.graph.portLink? x.1 == some none) = z := ⟨_, rfl⟩
    simp only [hz]
    rcases z with _ | ⟨s, k⟩
    · simp only [← flags_addPort]
      rcases m.addPort c d with _ | ⟨s, m'⟩
      · rfl
      · simp only [Option.map_some, Option.map_map]
        rfl
    · simp only [Option.map_map]
      rfl

theorem flags_linkPorts (M : Nat) (m : BMG) (a b : Nat) : (m.linkPorts M a b).map fl = m.flags.linkPorts M a b := by
  simp only [linkPorts, MG.linkPorts, ← flags_getFree]
  rcases m.getFree M a with _ | ⟨_ | ⟨e, i⟩, m⟩
  · rfl
  · rfl
  simp only [Option.map_some, fl, ← flags_getFree]
  rcases m.getFree M b with _ | ⟨_ | ⟨f, j⟩, m⟩
  · rfl
  · rfl
  simp only [Option.map_some, fl]
  rw [show m.flags.graph = m.graph from rfl]
  rcases m.graph.linkPorts i j with _ | ⟨_ | _, g⟩ <;> rfl

theorem flags_linkSubports (m : BMG) (e f : Subport) : (m.linkSubports e f).map fl = m.flags.linkSubports e f := by
  simp only [linkSubports, MG.linkSubports]
  rw [show m.flags.graph = m.graph from rfl]
  rcases m.flags.index e with _ | _ | i
  · rfl
  · rfl
  rcases m.flags.index f with _ | _ | j
  · rfl
  · rfl
  simp only [Option.map_map]
  rfl

theorem flags_unlinkSubport (m : BMG) (e : Subport) : (m.unlinkSubport e).map fl = m.flags.unlinkSubport e := by
  simp only [unlinkSubport, MG.unlinkSubport]
  rw [show m.flags.graph = m.graph from rfl]
  rcases m.flags.index e with _ | _ | i
  · rfl
  · rfl
  simp only
  rcases m.graph.unlinkPort i with _ | ⟨_ | l, g⟩
  · rfl
  · rfl
  · simp only [Option.map_map]
    rfl

theorem flags_step (M : Nat) (m : BMG) (op : MOp) : (m.step M op).map fl = m.flags.step M op := by
  cases op with
  | addNode i o => simp only [step, MG.step, ← flags_addNode, Option.map_map]; rfl
  | removeNode n => simp only [step, MG.step, ← flags_removeNode, Option.map_map]; rfl
  | linkPorts a b => simp only [step, MG.step, ← flags_linkPorts, Option.map_map]; rfl
  | unlinkPort p => simp only [step, MG.step, ← flags_unlinkPort, Option.map_map]; rfl
  | setNumPorts n i o => simp only [step, MG.step, ← flags_setNumPorts, Option.map_map]; rfl
  | compactNodes => simp only [step, MG.step, ← flags_compactNodes, Option.map_map]; rfl
  | compactPorts => simp only [step, MG.step, ← flags_compactPorts, Option.map_map]; rfl
  | swapNodes a b => simp only [step, MG.step, ← flags_swapNodes, Option.map_map]; rfl
  | clear => simp only [step, MG.step, ← flags_clear, Option.map_some]
  | linkSubports e f => simp only [step, MG.step, ← flags_linkSubports, Option.map_map]; rfl
  | unlinkSubport e => simp only [step, MG.step, ← flags_unlinkSubport, Option.map_map]; rfl

/-- All the calls, with their results; `none` if one of them panics. -/
def run (M : Nat) (m : BMG) : List MOp → Option (List MRes × BMG)
  | [] => some ([], m)
  | op :: ops => (m.step M op).bind fun x => (run M x.2 ops).map fun y => (x.1 :: y.1, y.2)

end BMG

/-- The same for the multigraphs of `Verif/Multi/Model.lean`. -/
def MG.run (M : Nat) (m : MG) : List MOp → Option (List MRes × MG)
  | [] => some ([], m)
  | op :: ops => (m.step M op).bind fun x => (MG.run M x.2 ops).map fun y => (x.1 :: y.1, y.2)

namespace BMG

theorem flags_run (M : Nat) (ops : List MOp) (m : BMG) : (m.run M ops).map fl = m.flags.run M ops := by
  induction ops generalizing m with
  | nil => rfl
  | cons op ops ih =>
    simp only [run, MG.run, ← flags_step]
    cases m.step M op with
    | none => rfl
    | some x =>
      simp only [Option.map_some, Option.bind_some, fl, ← ih, Option.map_map]
      rfl

/-- `PartialEq` of `MultiPortGraph`, `src/multiportgraph.rs` line 32, derived: all five fields, in order. -/
def beq (a b : BMG) : Bool :=
  decide (a.graph = b.graph) && (a.multi == b.multi) && (a.copy == b.copy) && (a.copyCount == b.copyCount) &&
    (a.subCount == b.subCount)

end BMG

/-- Multigraphs obtained from a reachable `PortGraph` by calls, with their bit vectors; as `MReach`. -/
inductive BReach (maxOff : Nat) : BMG → Prop where
  | init {g} : PG.Reach maxOff g → BReach maxOff (BMG.ofGraph g)
  | step {b b' op r} : BReach maxOff b → MOp.ok maxOff b.flags op → b.step maxOff op = some (r, b') → BReach maxOff b'

theorem BReach.flags {maxOff : Nat} {b : BMG} (h : BReach maxOff b) : MReach maxOff b.flags := by
  induction h with
  | init hg => rw [BMG.flags_ofGraph]; exact .init hg
  | step _ hok hs ih => exact .step ih hok (by rw [← BMG.flags_step, hs]; rfl)

theorem counted_bits (l : List Bool) : Counted (fun i => Bits.get l i = true) (l.count true) := by
  induction l with
  | nil => exact Counted.zero (by simp [Bits.get_eq])
  | cons b l ih =>
    have h1 : Counted (fun i => ∃ x, Bits.get l x = true ∧ i = x + 1) (l.count true) :=
      ih.image (π := fun x => x + 1) (by omega)
    cases b with
    | false =>
      rw [List.count_cons_of_ne (by simp)]
      refine h1.congr fun x => ?_
      cases x with
      | zero => simp [Bits.get_eq]
      | succ x => simp [Bits.get_eq]
    | true =>
      rw [List.count_cons_self]
      refine (h1.union (Counted.single 0) (by rintro x ⟨y, -, rfl⟩; omega)).congr fun x => ?_
      cases x with
      | zero => simp [Bits.get_eq]
      | succ x => simp [Bits.get_eq]

/-- Two ports are marked for every copy node. -/
theorem counted_multi {m : MG} (h : MOk m) : Counted (fun p => m.multi p = true) (2 * m.copyCount) := by
  have hc : ∀ c, ∃ cp, m.copy c = true → ∃ d, CopyOf m c d cp := by
    intro c
    by_cases hc : m.copy c = true
    · obtain ⟨d, cp, h1⟩ := h.shape c hc
      exact ⟨cp, fun _ => ⟨d, h1⟩⟩
    · exact ⟨0, fun h => absurd h hc⟩
  choose π hπ using hc
  have hq : ∀ p, ∃ q, m.multi p = true → Lk m.graph p q := by
    intro p
    by_cases hp : m.multi p = true
    · obtain ⟨q, e, f, -, -, h3, -⟩ := h.partner p hp id
      exact ⟨q, fun _ => h3⟩
    · exact ⟨0, fun h => absurd h hp⟩
  choose σ hσ using hq
  have c1 := h.copies.image (π := π) (by
    intro x y hx hy e
    obtain ⟨d, hd⟩ := hπ x hx
    obtain ⟨d', hd'⟩ := hπ y hy
    have := hd.port.inj h.inv (e ▸ hd'.port)
    exact (Prod.mk.inj this).1)
  have m1 : ∀ y, (∃ x, m.copy x = true ∧ y = π x) → m.multi y = true := by
    rintro y ⟨x, hx, rfl⟩
    obtain ⟨d, hd⟩ := hπ x hx
    exact hd.flag
  have c2 := c1.image (π := σ) (by
    intro x y hx hy e
    have h1 := (hσ x (m1 x hx)).sym h.inv
    have h2 := (hσ y (m1 y hy)).sym h.inv
    rw [e] at h1
    exact h1.fun h2)
  rw [Nat.two_mul]
  refine (c1.union c2 ?_).congr ?_
  · rintro y ⟨x, hx, rfl⟩ ⟨z, ⟨w, hw, rfl⟩, e⟩
    obtain ⟨d, hd⟩ := hπ x hx
    obtain ⟨d', hd'⟩ := hπ w hw
    have hl := hσ _ hd'.flag
    rw [← e] at hl
    have := h.lk_copy hl hd'.flag hd'.port hd.port
    rw [hd.copy, hd'.copy] at this
    cases this
  · intro p
    constructor
    · intro hp
      obtain ⟨q, e, f, h1, h2, h3, h4, h5⟩ := h.partner p hp id
      by_cases hce : m.copy e.1 = true
      · obtain ⟨d, hd⟩ := hπ e.1 hce
        rcases hd.classify (q := p) (d' := e.2.1) (k := e.2.2) h1 with ⟨-, h6⟩ | ⟨-, -, h6⟩
        · rw [hp] at h6; cases h6
        · exact .inl ⟨_, hce, h6⟩
      · have hcf : m.copy f.1 = true := by rw [h5]; simpa using hce
        obtain ⟨d, hd⟩ := hπ f.1 hcf
        rcases hd.classify (q := q) (d' := f.2.1) (k := f.2.2) h2 with ⟨-, h6⟩ | ⟨-, -, h6⟩
        · rw [h4] at h6; cases h6
        · refine .inr ⟨q, ⟨_, hcf, h6⟩, ?_⟩
          exact (h3.sym h.inv).fun (hσ q h4)
    · rintro (h1 | ⟨q, h1, rfl⟩)
      · exact m1 p h1
      · rw [← h.lk_multi (hσ q (m1 q h1))]; exact m1 q h1

/-! ## C81 -/

/-- With bit vectors that grow when a flag is set, every list of calls has the results (and panics) of the model with
functions as flags, and the bits then are those flags. -/
theorem C81_refines (maxOff : Nat) (g : PG) (ops : List MOp) :
    ((BMG.ofGraph g).run maxOff ops).map (fun x => (x.1, x.2.flags)) = (MG.ofGraph g).run maxOff ops := by
  rw [← BMG.flags_ofGraph]
  exact BMG.flags_run maxOff ops _

/-- The set bits: one bit of `copy_node` for each copy node and two of `multiport`; no bit stays set at a slot without
node or port. -/
theorem C81_set_bits {maxOff : Nat} {b : BMG} (h2m : 2 ≤ maxOff) (hmax : maxOff ≤ 32767) (h : BReach maxOff b) :
    b.copy.count true = b.copyCount ∧ b.multi.count true = 2 * b.copyCount ∧
    (∀ n : Nat, b.copy[n]? = some true → b.graph.containsNode n = true) ∧
    (∀ p : Nat, b.multi[p]? = some true → b.graph.containsPort p = true) := by
  have hM := h.flags.ok h2m hmax
  refine ⟨(counted_bits _).unique hM.copies, (counted_bits _).unique (counted_multi hM), ?_, ?_⟩
  · intro n hn
    exact hM.copyLive n (by show Bits.get b.copy n = true; rw [Bits.get_eq, hn]; rfl)
  · intro p hp
    obtain ⟨e, he⟩ := hM.multi_live (p := p) (by show Bits.get b.multi p = true; rw [Bits.get_eq, hp]; rfl)
    exact (live_at hM.inv).2 ⟨e, he⟩

/-- Two multigraphs are equal to the code if and only if they have the same port graph, counts and flags, and also bit
vectors of the same lengths. -/
theorem C81_equality (a b : BMG) :
    a.beq b = true ↔ a.graph = b.graph ∧ a.copyCount = b.copyCount ∧ a.subCount = b.subCount ∧
      (∀ n, Bits.get a.copy n = Bits.get b.copy n) ∧ (∀ p, Bits.get a.multi p = Bits.get b.multi p) ∧
      a.copy.length = b.copy.length ∧ a.multi.length = b.multi.length := by
  have key : ∀ l l' : List Bool, l = l' ↔ (∀ n, Bits.get l n = Bits.get l' n) ∧ l.length = l'.length := by
    intro l l'
    constructor
    · rintro rfl; exact ⟨fun _ => rfl, rfl⟩
    · rintro ⟨h1, h2⟩
      refine List.ext_getElem h2 fun i hi hi' => ?_
      have := h1 i
      rw [Bits.get_eq, Bits.get_eq, List.getElem?_eq_getElem hi, List.getElem?_eq_getElem hi'] at this
      exact this
  simp only [BMG.beq, Bool.and_eq_true, decide_eq_true_iff, beq_iff_eq, key]
  grind

/-- Multigraphs with the same flags give the same results for all later calls, whatever the lengths of their bit
vectors. -/
theorem C81_same_future {a b : BMG} (h : a.flags = b.flags) (maxOff : Nat) (ops : List MOp) :
    (a.run maxOff ops).map (·.1) = (b.run maxOff ops).map (·.1) := by
  have ha := BMG.flags_run maxOff ops a
  have hb := BMG.flags_run maxOff ops b
  rw [h, ← hb] at ha
  have := congrArg (Option.map Prod.fst) ha
  rw [Option.map_map, Option.map_map] at this
  exact this

/-- A checked run. -/
def checkedBRun (maxOff : Nat) (b : BMG) : List MOp → Option BMG
  | [] => some b
  | op :: ops =>
    if check maxOff b.flags op then
      match b.step maxOff op with
      | none => none
      | some (_, b) => checkedBRun maxOff b ops
    else none

theorem checkedBRun_reach {maxOff : Nat} {ops b b'} (hb : BReach maxOff b) (h : checkedBRun maxOff b ops = some b') :
    BReach maxOff b' := by
  induction ops generalizing b with
  | nil => simp [checkedBRun] at h; subst h; exact hb
  | cons op ops ih =>
    simp only [checkedBRun] at h
    split at h
    · rename_i hok
      cases hs : b.step maxOff op with
      | none => rw [hs] at h; simp at h
      | some x =>
        rw [hs] at h
        exact ih (.step hb (check_ok hok) hs) h
    · cases h

/-- The result of a checked run, or the empty graph. -/
def builtB (ops : List MOp) : BMG := (checkedBRun 32767 (BMG.ofGraph PG.empty) ops).getD (BMG.ofGraph PG.empty)

theorem builtB_reach (ops : List MOp) : BReach 32767 (builtB ops) := by
  unfold builtB
  cases h : checkedBRun 32767 (BMG.ofGraph PG.empty) ops with
  | none => exact .init .init
  | some m => exact checkedBRun_reach (.init .init) h

/-- Two nodes with one link. -/
def bitsA : BMG := builtB [.addNode 0 1, .addNode 1 0, .linkPorts 0 1, .compactNodes, .compactPorts]

/-- The same, but there was a second link, and both were removed in between. -/
def bitsB : BMG := builtB [.addNode 0 1, .addNode 1 0, .linkPorts 0 1, .linkPorts 0 1, .unlinkPort 0, .unlinkPort 1,
  .linkPorts 0 1, .compactNodes, .compactPorts]

/-- The claim that equality does not depend on the history after compaction is false: two multigraphs with the same
port graph and the same flags, both compacted, are not equal, as one has bit vectors that are longer. -/
theorem C81_witness_history : BReach 32767 bitsA ∧ BReach 32767 bitsB ∧ bitsA.flags = bitsB.flags ∧
    bitsA.graph.linkCount = 1 ∧ bitsA.beq bitsB = false := by
  refine ⟨builtB_reach _, builtB_reach _, ?_, by decide +kernel, by decide +kernel⟩
  have h1 : bitsA.graph = bitsB.graph := by decide +kernel
  have h2 : bitsA.copyCount = bitsB.copyCount := by decide +kernel
  have h3 : bitsA.subCount = bitsB.subCount := by decide +kernel
  have h4 : bitsA.multi = [] := by decide +kernel
  have h5 : bitsB.multi = List.replicate 8 false := by decide +kernel
  have h6 : bitsA.copy = [] := by decide +kernel
  have h7 : bitsB.copy = List.replicate 4 false := by decide +kernel
  have h8 : ∀ k, Bits.get (List.replicate k false) = fun _ => false := by
    intro k
    funext x
    rw [Bits.get_eq, List.getElem?_replicate]
    split <;> rfl
  simp only [BMG.flags, h1, h2, h3, h4, h5, h6, h7, h8, BMG.get_nil]

/-! ## Examples -/

/-- The calls of `exM`: three nodes, and ports 0, 1 and 3 have several links. -/
def bitsM : BMG := builtB [.addNode 0 1, .addNode 1 1, .addNode 2 0, .linkPorts 0 1, .linkPorts 0 3, .linkPorts 2 3,
  .linkPorts 0 1]

example : BReach 32767 bitsM ∧ bitsM.copyCount = 3 ∧ bitsM.copy = [false, false, false, true, true, true] ∧
    bitsM.multi.count true = 6 ∧ bitsM.multi ≠ [] :=
  ⟨builtB_reach _, by decide +kernel, by decide +kernel, by decide +kernel, by decide +kernel⟩

example := C81_set_bits (by decide) (by decide) (builtB_reach _ : BReach 32767 bitsM)

example : bitsM.beq bitsM = true ∧ bitsM.beq bitsA = false := ⟨by decide +kernel, by decide +kernel⟩

/-- Calls with results for `C81_refines`; the last panics. -/
example : ((BMG.ofGraph PG.empty).run 32767 [.addNode 0 1, .addNode 1 0, .linkPorts 0 1, .linkPorts 0 1]).isSome = true ∧
    ((BMG.ofGraph PG.empty).run 32767 [.addNode 0 1, .removeNode 0, .swapNodes 0 1]).isNone = true :=
  ⟨by decide +kernel, by decide +kernel⟩

example := C81_same_future (C81_witness_history.2.2.1) 32767 [.linkPorts 0 1, .unlinkPort 0]

#print axioms C81_refines
#print axioms C81_set_bits
#print axioms C81_equality
#print axioms C81_same_future
#print axioms C81_witness_history

end Verif.Multi
