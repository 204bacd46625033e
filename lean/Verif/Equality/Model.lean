import Verif.Hierarchy.Model
import Verif.PortGraph.Spec
import Verif.View.Model

/-!
# `==` on hierarchies, graphs and regions

`PortGraph` derives `PartialEq` (`src/portgraph.rs` line 45): all fields of the representation are
compared, which is equality of the states of `PortGraph/Model.lean`. `Hierarchy` derives it too, but
its only field is an `UnmanagedDenseMap` with an equality of its own.
-/

namespace Verif.Equality

open Verif.Hier Verif.PG Verif.View

/-- `==` of `Hierarchy`, `src/hierarchy.rs` line 70 (derived), by `src/unmanaged.rs` lines 71–81. -/
def eqHierarchy (a b : Hierarchy) : Bool := a.data.eq b.data

/-- `==` of `PortGraph`, `src/portgraph.rs` line 45 (derived). -/
def eqGraph (a b : PG) : Bool := decide (a = b)

/-- `Region`, `src/view/region.rs` lines 18–28. -/
structure Region where
  graph : PG
  root : Nat
  hierarchy : Hierarchy
  cache : Cache

/-- `Region::new`, `src/view/region.rs` lines 36–45. -/
def Region.new (graph : PG) (hierarchy : Hierarchy) (root : Nat) : Region := ⟨graph, root, hierarchy, .new root⟩

/-- `is_descendant`, `src/view/region.rs` lines 49–95: the answer and the region with the new cache. -/
def Region.isDescendant (r : Region) (n : Nat) : Option (Bool × Region) :=
  (Verif.View.isDescendant r.hierarchy r.root r.cache n).map fun x => (x.1, { r with cache := x.2 })

/-- `==` of `Region`, `src/view/region.rs` lines 120–126. -/
def eqRegion (a b : Region) : Bool :=
  a.root == b.root && eqGraph a.graph b.graph && eqHierarchy a.hierarchy b.hierarchy

end Verif.Equality
