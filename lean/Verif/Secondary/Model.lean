import Verif.Basic

/-!
# Secondary maps

Model of `src/secondary.rs` and `src/unmanaged.rs`. Keys are numbers (`K: Into<usize>`), except
for `HashSet`, which works for any key type with decidable equality. `Vec::capacity` only enters
as a number that is at least the length.
-/

namespace Verif.Secondary

/-! ## `UnmanagedDenseMap` -/

/-- `UnmanagedDenseMap`, `src/unmanaged.rs` lines 63–69. -/
structure Dense (V : Type) where
  data : List V
  default : V
deriving DecidableEq, Repr

namespace Dense

variable {V : Type}

/-- `with_default`, `src/unmanaged.rs` lines 103–109; `new` (lines 92–97) passes `V::default()`. -/
def withDefault (d : V) : Dense V := ⟨[], d⟩

/-- `get`, `src/unmanaged.rs` lines 185–187. -/
def get (m : Dense V) (k : Nat) : V := (m.data[k]?).getD m.default

/-- `resize_for_get_mut`, `src/unmanaged.rs` lines 258–260; `Vec::resize` cuts or fills up. -/
def resize (m : Dense V) (len : Nat) : Dense V :=
  { m with data := m.data.take len ++ List.replicate (len - m.data.length) m.default }

/-- The resize at the beginning of `get_mut`, `src/unmanaged.rs` lines 198–200. -/
def reserveKey (m : Dense V) (k : Nat) : Dense V := if m.data.length ≤ k then m.resize (k + 1) else m

/-- `set`, `src/unmanaged.rs` lines 362–364, through `index_mut`, lines 306–308, and `get_mut`, lines 195–203. -/
def set (m : Dense V) (k : Nat) (v : V) : Dense V :=
  let m := m.reserveKey k
  { m with data := m.data.set k v }

/-- A write through `try_get_mut`, `src/unmanaged.rs` lines 209–211. The flag tells whether there was a value. -/
def trySet (m : Dense V) (k : Nat) (v : V) : Bool × Dense V :=
  if k < m.data.length then (true, { m with data := m.data.set k v }) else (false, m)

/-- `take`, `src/unmanaged.rs` lines 371–377. -/
def take (m : Dense V) (k : Nat) : V × Dense V :=
  match m.data[k]? with
  | some v => (v, { m with data := m.data.set k m.default })
  | none => (m.default, m)

/-- `rekey`, `src/unmanaged.rs` lines 162–179. `vd` is `V::default()`. -/
def rekey (vd : V) (m : Dense V) (old : Nat) (new : Option Nat) : Dense V :=
  match m.data[old]? with
  | some v =>
    let m := { m with data := m.data.set old vd }
    match new with
    | none => m
    | some n =>
      let m := m.reserveKey n
      { m with data := m.data.set n v }
  | none =>
    match new with
    | none => m
    | some n => if n < m.data.length then { m with data := m.data.set n vd } else m

/-- `swap`, `src/unmanaged.rs` lines 266–276. -/
def swap (m : Dense V) (a b : Nat) : Dense V :=
  let m := m.reserveKey (max a b)
  { m with data := (m.data.set a (m.get b)).set b (m.get a) }

/-- `ensure_capacity`, `src/unmanaged.rs` lines 133–138; `cap` is the capacity of the vector. -/
def ensureCapacity (m : Dense V) (cap capacity : Nat) : Dense V :=
  if cap < capacity then m.resize capacity else m

/-- `shrink_to`, `src/unmanaged.rs` lines 144–147. -/
def shrinkTo (m : Dense V) (n : Nat) : Dense V := { m with data := m.data.take n }

/-- `get_disjoint_mut`, `src/unmanaged.rs` lines 216–254: the values behind the references, in the resized map. -/
def getDisjoint (m : Dense V) (keys : List Nat) : Option (List V) × Dense V :=
  let m := match keys.max? with
    | none => m
    | some k => m.reserveKey k
  (go m keys, m)
where
  /-- The loop over the keys. -/
  go (m : Dense V) : List Nat → Option (List V)
  | [] => some []
  | k :: ks =>
    if ks.any (· == k) then none
    else
      match m.data[k]? with
      | none => none
      | some v => (go m ks).map (v :: ·)

/-- `PartialEq`, `src/unmanaged.rs` lines 71–81. -/
def eq [BEq V] (a b : Dense V) : Bool :=
  if a.default != b.default then false
  else
    let n := min a.data.length b.data.length
    a.data.take n == b.data.take n && (a.data.drop n).all (· == a.default) &&
      (b.data.drop n).all (· == b.default)

/-- The items of `iter`, `src/unmanaged.rs` lines 389–398 and 408–419. -/
def iter (m : Dense V) : List (Nat × V) := (List.range m.data.length).zip m.data

end Dense

/-! ## `BitVec` -/

namespace Bits

/-- `get`, `src/secondary.rs` lines 127–135. -/
def get (m : List Bool) (k : Nat) : Bool := if m[k]? = some true then true else false

/-- `set`, `src/secondary.rs` lines 138–148. -/
def set (m : List Bool) (k : Nat) (v : Bool) : List Bool :=
  if m.length ≤ k then
    if v then (m ++ List.replicate (k + 1 - m.length) false).set k true else m
  else m.set k v

/-- `take`, `src/secondary.rs` lines 151–158. -/
def take (m : List Bool) (k : Nat) : Bool × List Bool :=
  match m[k]? with
  | some v => (v, m.set k false)
  | none => (false, m)

/-- `rekey`, `src/secondary.rs` lines 161–166. -/
def rekey (m : List Bool) (old : Nat) (new : Option Nat) : List Bool :=
  let (v, m) := take m old
  match new with
  | none => m
  | some n => set m n v

/-- `swap`, `src/secondary.rs` lines 169–178. -/
def swap (m : List Bool) (a b : Nat) : List Bool :=
  let va := get m a
  let vb := get m b
  if va != vb then set (set m a vb) b va else m

/-- The items of `iter` (`iter_ones`), `src/secondary.rs` lines 181–189. -/
def iter (m : List Bool) : List (Nat × Bool) :=
  (List.range m.length).filterMap fun k => if m[k]? = some true then some (k, true) else none

end Bits

/-! ## `HashSet` -/

namespace HSet

variable {K : Type} [DecidableEq K]

/-- `get`, `src/secondary.rs` lines 280–286. The set is a list in arbitrary order. -/
def get (m : List K) (k : K) : Bool := m.contains k

/-- `HashSet::insert` (standard library). -/
def insert (m : List K) (k : K) : List K := if m.contains k then m else k :: m

/-- `HashSet::remove` (standard library). -/
def remove (m : List K) (k : K) : List K := m.filter (· ≠ k)

/-- `set`, `src/secondary.rs` lines 289–294. -/
def set (m : List K) (k : K) (v : Bool) : List K := if v then insert m k else remove m k

/-- `take`, `src/secondary.rs` lines 297–299. -/
def take (m : List K) (k : K) : Bool × List K := (m.contains k, remove m k)

/-- The provided `rekey`, `src/secondary.rs` lines 64–69. -/
def rekey (m : List K) (old : K) (new : Option K) : List K :=
  let (v, m) := take m old
  match new with
  | none => m
  | some n => set m n v

/-- The provided `swap`, `src/secondary.rs` lines 73–82. -/
def swap (m : List K) (a b : K) : List K :=
  let va := get m a
  let vb := get m b
  set (set m a vb) b va

/-- The items of `iter`, `src/secondary.rs` lines 302–309. -/
def iter (m : List K) : List (K × Bool) := m.map fun k => (k, true)

end HSet

end Verif.Secondary
