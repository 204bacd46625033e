import Verif.Algo.View

/-!
# Topological sort

Model of `src/algorithms/toposort.rs`. The map of visited ports is a function (the secondary maps
are proved to behave like total functions in `Verif.Secondary`, C21); `dflt` is the default value
of the map. The filter closures are pure functions of their arguments; a missing filter is the
constant `true`, as `map_or(true, …)` treats it. A panic is `none`.
-/

namespace Verif.Algo

open Verif (Direction)

/-- The node filter and the port filter, `src/algorithms/toposort.rs` lines 124–129. -/
structure Filter where
  node : Nat → Bool
  port : Nat → Nat → Bool

/-- No filters. The filters of `toposort`, `src/algorithms/toposort.rs` lines 34–44. -/
def Filter.all : Filter := ⟨fun _ => true, fun _ _ => true⟩

/-- `SecondaryMap::set` on a map of booleans. `src/secondary.rs` lines 138–148. -/
def setBit (v : Nat → Bool) (p : Nat) (b : Bool) : Nat → Bool := fun q => if q = p then b else v q

/-- `TopoSort`, `src/algorithms/toposort.rs` lines 114–130. -/
structure Topo where
  visited : Nat → Bool
  cand : List Nat
  seen : Nat

namespace Topo

/-- `set(port, b)` for each port of a list.
The loops of `src/algorithms/toposort.rs` lines 160–169. -/
def setAll (v : Nat → Bool) (ps : List Nat) (b : Bool) : Nat → Bool := ps.foldl (fun v p => setBit v p b) v

/-- `TopoSort::new`, `src/algorithms/toposort.rs` lines 143–181. -/
def new (G : View) (F : Filter) (d : Direction) (dflt : Bool) (sources : List Nat) : Topo :=
  let cand := sources.filter F.node
  let v := if dflt then setAll (fun _ => dflt) G.portsIter false else fun _ => dflt
  let v := cand.foldl (fun v n => setAll v (G.ports n d.reverse) true) v
  ⟨v, cand, 0⟩

/-- `ports_remaining`, `src/algorithms/toposort.rs` lines 185–189. -/
def portsRemaining (G : View) (s : Topo) : List Nat := G.portsIter.filter fun p => !s.visited p

/-- The first loop of `add_sources`, `src/algorithms/toposort.rs` lines 200–204: the accumulated `new_candidate` and the map. -/
def addLoop (v : Nat → Bool) (new : Bool) : List Nat → Bool × (Nat → Bool)
  | [] => (new, v)
  | p :: ps => addLoop (setBit v p true) (new || !v p) ps

/-- One iteration of `add_sources`, `src/algorithms/toposort.rs` lines 195–217. -/
def addSource (G : View) (F : Filter) (d : Direction) (s : Topo) (n : Nat) : Topo :=
  if !F.node n then s
  else
    let r := addLoop s.visited false (G.ports n d.reverse)
    let v := r.2
    let new := if (G.ports n d.reverse).length = 0 then
        !s.cand.contains n && (G.ports n d).any (fun p => !v p)
      else r.1
    { s with visited := v, cand := if new then s.cand ++ [n] else s.cand }

/-- `add_sources`, `src/algorithms/toposort.rs` lines 194–218. -/
def addSources (G : View) (F : Filter) (d : Direction) (s : Topo) (ns : List Nat) : Topo :=
  ns.foldl (addSource G F d) s

/-- The closure loop of `becomes_ready`, `src/algorithms/toposort.rs` lines 228–243; `all` stops at the first `false`. -/
def readyLoop (G : View) (F : Filter) (node fromPort : Nat) : List Nat → (Nat → Bool) → Bool × (Nat → Bool)
  | [], v => (true, v)
  | p :: ps, v =>
    if p = fromPort then
      if v p then (false, v) else readyLoop G F node fromPort ps v
    else if v p then readyLoop G F node fromPort ps v
    else if (G.links p).head?.isNone || !F.port node p then
      readyLoop G F node fromPort ps (setBit v p true)
    else (false, v)

/-- `becomes_ready`, `src/algorithms/toposort.rs` lines 222–244. -/
def becomesReady (G : View) (F : Filter) (d : Direction) (v : Nat → Bool) (node fromPort : Nat) :
    Bool × (Nat → Bool) :=
  if !F.node node then (false, v)
  else readyLoop G F node fromPort (G.ports node d.reverse) v

/-- The inner loop of `next`, `src/algorithms/toposort.rs` lines 288–295. -/
def linkLoop (G : View) (F : Filter) (d : Direction) (s : Topo) : List Nat → Option Topo
  | [] => some s
  | q :: qs =>
    match G.portNode q with
    | none => none
    | some target =>
      let r := becomesReady G F d s.visited target q
      linkLoop G F d { s with
        visited := setBit r.2 q true
        cand := if r.1 then s.cand ++ [target] else s.cand } qs

/-- The outer loop of `next`, `src/algorithms/toposort.rs` lines 276–296. -/
def portLoop (G : View) (F : Filter) (d : Direction) (node : Nat) (s : Topo) : List Nat → Option Topo
  | [] => some s
  | p :: ps =>
    let s := { s with visited := setBit s.visited p true }
    if !F.port node p then portLoop G F d node s ps
    else
      match linkLoop G F d s (G.links p) with
      | none => none
      | some s => portLoop G F d node s ps

/-- `TopoSort::next`, `src/algorithms/toposort.rs` lines 272–300. -/
def next (G : View) (F : Filter) (d : Direction) (s : Topo) : Option (Option Nat × Topo) :=
  match s.cand with
  | [] => some (none, s)
  | n :: cand =>
    match portLoop G F d n { s with cand := cand } (G.ports n d) with
    | none => none
    | some s => some (some n, { s with seen := s.seen + 1 })

/-- `size_hint`, `src/algorithms/toposort.rs` lines 303–308; the subtraction panics below zero. -/
def sizeHint (G : View) (s : Topo) : Option (Nat × Nat) :=
  if s.seen ≤ G.nodes.length then some (s.cand.length, G.nodes.length - s.seen) else none

/-- Drain the iterator with at most `fuel` calls to `next`; `none` on a panic or when `fuel` does
not suffice. Not in the code: a `for` loop over the iterator of `src/algorithms/toposort.rs`. -/
def collect (G : View) (F : Filter) (d : Direction) : Nat → Topo → Option (List Nat × Topo)
  | 0, _ => none
  | fuel + 1, s =>
    match next G F d s with
    | none => none
    | some (none, s) => some ([], s)
    | some (some n, s) =>
      match collect G F d fuel s with
      | none => none
      | some (l, s) => some (n :: l, s)

end Topo

/-- `toposort_filtered` (`src/algorithms/toposort.rs` lines 89–107) and, with `Filter.all`, `toposort` (lines 34–44), drained. -/
def toposort (G : View) (F : Filter) (d : Direction) (dflt : Bool) (sources : List Nat) :
    Option (List Nat × Topo) :=
  Topo.collect G F d (sources.length + G.nodes.length + 1) (Topo.new G F d dflt sources)

end Verif.Algo
