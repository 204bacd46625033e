import Verif.Secondary.Model
import Verif.Secondary.Spec

/-!
# Secondary maps: C21, C22
-/

namespace Verif.Secondary

/-- If single calls agree with the specification, sequences do. -/
theorem outputs_refine {S K V : Type} [DecidableEq K] (call : S → Call K V → Option V × S) (view : S → K → V) (d : V)
    (I : S → Prop) (h : ∀ s c, I s → I (call s c).2 ∧
      (call s c).1 = (specCall d (view s) c).1 ∧ view (call s c).2 = (specCall d (view s) c).2)
    (cs : List (Call K V)) {s : S} (hs : I s) :
    outputs call s cs = outputs (specCall d) (view s) cs ∧ view (final call s cs) = final (specCall d) (view s) cs ∧
      I (final call s cs) := by
  induction cs generalizing s with
  | nil => exact ⟨rfl, rfl, hs⟩
  | cons c cs ih =>
    obtain ⟨h1, h2, h3⟩ := h s c hs
    obtain ⟨h4, h5, h6⟩ := ih h1
    refine ⟨?_, ?_, h6⟩
    · rw [outputs, outputs, h2, h4, h3]
    · rw [final, final, h5, h3]

/-! ## Dense maps -/

namespace Dense

variable {V : Type}

/-- A trait call on an `UnmanagedDenseMap` (`remove` is the provided method, `src/secondary.rs`
lines 52–54). -/
def call (vd : V) (m : Dense V) : Call Nat V → Option V × Dense V
  | .get k => (some (m.get k), m)
  | .set k v => (none, m.set k v)
  | .take k => (some (m.take k).1, (m.take k).2)
  | .remove k => (none, (m.take k).2)
  | .rekey old new => (none, m.rekey vd old new)
  | .swap a b => (none, m.swap a b)

theorem get_resize (m : Dense V) {n : Nat} (hn : m.data.length ≤ n) (k : Nat) : (m.resize n).get k = m.get k := by
  unfold get resize
  rw [List.take_of_length_le hn]
  simp only [List.getElem?_append, List.getElem?_replicate]
  grind

theorem get_reserve (m : Dense V) (n k : Nat) : (m.reserveKey n).get k = m.get k := by
  unfold reserveKey; split
  · exact get_resize m (by omega) k
  · rfl

theorem length_reserve (m : Dense V) (n : Nat) : n < (m.reserveKey n).data.length := by
  unfold reserveKey
  split
  · simp only [resize, List.length_append, List.length_take, List.length_replicate]; omega
  · omega

theorem default_reserve (m : Dense V) (n : Nat) : (m.reserveKey n).default = m.default := by
  unfold reserveKey resize; split <;> rfl

theorem get_write {m : Dense V} {k : Nat} (hk : k < m.data.length) (v : V) (x : Nat) :
    ({ m with data := m.data.set k v } : Dense V).get x = if x = k then v else m.get x := by
  unfold get
  simp only [List.getElem?_set]
  grind

theorem get_set (m : Dense V) (k : Nat) (v : V) (x : Nat) : (m.set k v).get x = if x = k then v else m.get x := by
  unfold set
  simp only
  rw [get_write (length_reserve m k), get_reserve]

theorem get_take (m : Dense V) (k x : Nat) : (m.take k).1 = m.get k ∧
    (m.take k).2.get x = if x = k then m.default else m.get x := by
  unfold take
  cases h : m.data[k]? with
  | none =>
    simp only [get, h]
    refine ⟨rfl, ?_⟩
    split
    · subst x; rw [h]; rfl
    · rfl
  | some v =>
    have hk := (List.getElem?_eq_some_iff.1 h).1
    refine ⟨by simp [get, h], ?_⟩
    simp only
    rw [get_write hk]

theorem get_swap (m : Dense V) (a b x : Nat) :
    (m.swap a b).get x = if x = a then m.get b else if x = b then m.get a else m.get x := by
  unfold swap
  simp only
  have hl := length_reserve m (max a b)
  rw [show ({ m.reserveKey (max a b) with data :=
      ((m.reserveKey (max a b)).data.set a ((m.reserveKey (max a b)).get b)).set b ((m.reserveKey (max a b)).get a) } : Dense V) =
    { ({ m.reserveKey (max a b) with data := (m.reserveKey (max a b)).data.set a ((m.reserveKey (max a b)).get b) } : Dense V) with
      data := ((m.reserveKey (max a b)).data.set a ((m.reserveKey (max a b)).get b)).set b ((m.reserveKey (max a b)).get a) } from rfl]
  have := @get_write V { m.reserveKey (max a b) with data := (m.reserveKey (max a b)).data.set a ((m.reserveKey (max a b)).get b) } b
    (by simp; omega) ((m.reserveKey (max a b)).get a) x
  simp only at this
  rw [this, get_write (by omega)]
  simp only [get_reserve]
  grind

/-- What `rekey` does: `V::default()` is left behind, and it is also what an unstored key
delivers to a stored one. -/
theorem get_rekey (vd : V) (m : Dense V) (old : Nat) (new : Option Nat) (x : Nat) :
    (m.rekey vd old new).get x =
      if new = some x then
        (if old < m.data.length then m.get old else if x < m.data.length then vd else m.default)
      else if x = old ∧ old < m.data.length then vd else m.get x := by
  unfold rekey
  cases h : m.data[old]? with
  | none =>
    have hk : ¬ old < m.data.length := by simpa using h
    cases new with
    | none => simp [hk]
    | some n =>
      simp only
      split
      · rename_i hn
        rw [get_write hn]
        by_cases hx : x = n
        · subst hx; simp [hk, hn]
        · have : ¬ n = x := fun e => hx e.symm
          simp [hx, this, hk]
      · rename_i hn
        by_cases hx : n = x
        · subst hx
          simp only [get, List.getElem?_eq_none (Nat.le_of_not_lt hn)]
          simp [hk, hn]
        · simp [hx, hk]
  | some v =>
    have hk := (List.getElem?_eq_some_iff.1 h).1
    have hv : m.get old = v := by simp [get, h]
    cases new with
    | none =>
      simp only
      rw [get_write hk]
      simp [hk]
    | some n =>
      simp only
      rw [get_write (length_reserve _ n), get_reserve, get_write hk]
      by_cases hx : x = n
      · subst hx; simp [hk, hv]
      · have : ¬ n = x := fun e => hx e.symm
        simp [hx, this, hk]

theorem default_call (vd : V) (m : Dense V) (c : Call Nat V) : (m.call vd c).2.default = m.default := by
  cases c with
  | get => rfl
  | set => simp [call, set, default_reserve]
  | take => simp only [call, take]; split <;> rfl
  | remove => simp only [call, take]; split <;> rfl
  | rekey old new =>
    simp only [call, rekey]
    cases m.data[old]? <;> cases new <;> simp [default_reserve] <;> split <;> rfl
  | swap => simp [call, swap, default_reserve]

/-- One call, if `V::default()` is the default of the map or the call is not `rekey`. -/
theorem call_spec (vd : V) (m : Dense V) (c : Call Nat V)
    (hc : vd = m.default ∨ ∀ old new, c ≠ .rekey old new) :
    (m.call vd c).1 = (specCall m.default m.get c).1 ∧ (m.call vd c).2.get = (specCall m.default m.get c).2 := by
  cases c with
  | get => exact ⟨rfl, rfl⟩
  | set k v => exact ⟨rfl, funext fun x => get_set m k v x⟩
  | take k => exact ⟨congrArg some (get_take m k 0).1, funext fun x => (get_take m k x).2⟩
  | remove k => exact ⟨rfl, funext fun x => (get_take m k x).2⟩
  | swap a b => exact ⟨rfl, funext fun x => get_swap m a b x⟩
  | rekey old new =>
    have hd : vd = m.default := hc.resolve_right fun h => h old new rfl
    subst hd
    refine ⟨by cases new <;> rfl, funext fun x => ?_⟩
    simp only [call]
    rw [get_rekey]
    have hout : ∀ y, ¬ y < m.data.length → m.get y = m.default := fun y hy => by
      unfold get; rw [List.getElem?_eq_none (by omega)]; rfl
    cases new with
    | none =>
      simp only [specCall, reduceCtorEq, if_false]
      by_cases hx : x = old <;> by_cases hl : old < m.data.length <;> simp [hx, hl]
      exact hout _ hl
    | some n =>
      simp only [specCall, Option.some.injEq]
      by_cases hn : n = x <;> by_cases hx : x = old <;> by_cases hl : old < m.data.length <;>
        simp [hn, hx, hl, Ne.symm, eq_comm] <;> grind

end Dense

/-- Any sequence of calls on an `UnmanagedDenseMap` whose default is `V::default()`, as made by
`new`, returns what a total map with that default returns. -/
theorem C21_dense_map {V : Type} (vd : V) (cs : List (Call Nat V)) :
    outputs (Dense.call vd) (Dense.withDefault vd) cs = outputs (specCall vd) (fun _ => vd) cs ∧
      (final (Dense.call vd) (Dense.withDefault vd) cs).get = final (specCall vd) (fun _ => vd) cs := by
  obtain ⟨h1, h2, -⟩ := outputs_refine (Dense.call vd) Dense.get vd (fun m => m.default = vd)
    (fun m c h => ⟨by rw [Dense.default_call, h], by
      subst h; exact Dense.call_spec _ m c (.inl rfl)⟩) cs (s := Dense.withDefault vd) rfl
  exact ⟨h1, h2⟩

/-! ## Bit vectors -/

namespace Bits

/-- A trait call on a `BitVec`. -/
def call (m : List Bool) : Call Nat Bool → Option Bool × List Bool
  | .get k => (some (get m k), m)
  | .set k v => (none, set m k v)
  | .take k => (some (take m k).1, (take m k).2)
  | .remove k => (none, (take m k).2)
  | .rekey old new => (none, rekey m old new)
  | .swap a b => (none, swap m a b)

theorem get_eq (m : List Bool) (k : Nat) : get m k = (m[k]?).getD false := by
  unfold get
  cases m[k]? with
  | none => rfl
  | some b => cases b <;> rfl

theorem get_set (m : List Bool) (k : Nat) (v : Bool) (x : Nat) : get (set m k v) x = if x = k then v else get m x := by
  simp only [get_eq, set]
  grind

theorem get_take (m : List Bool) (k x : Nat) : (take m k).1 = get m k ∧
    get (take m k).2 x = if x = k then false else get m x := by
  simp only [get_eq, take]
  cases h : m[k]? with
  | none => grind
  | some v => grind

theorem call_spec (m : List Bool) (c : Call Nat Bool) :
    (call m c).1 = (specCall false (get m) c).1 ∧ get (call m c).2 = (specCall false (get m) c).2 := by
  cases c with
  | get => exact ⟨rfl, rfl⟩
  | set k v => exact ⟨rfl, funext fun x => get_set m k v x⟩
  | take k => exact ⟨congrArg some (get_take m k 0).1, funext fun x => (get_take m k x).2⟩
  | remove k => exact ⟨rfl, funext fun x => (get_take m k x).2⟩
  | rekey old new =>
    cases new with
    | none => exact ⟨rfl, funext fun x => (get_take m old x).2⟩
    | some n =>
      refine ⟨rfl, funext fun x => ?_⟩
      simp only [call, rekey, specCall]
      rw [get_set, (get_take m old x).2, (get_take m old x).1]
  | swap a b =>
    refine ⟨rfl, funext fun x => ?_⟩
    simp only [call, swap, specCall]
    split
    · rw [get_set, get_set]
      grind
    · rename_i h
      simp at h
      grind

end Bits

theorem C21_bit_vec (cs : List (Call Nat Bool)) :
    outputs Bits.call [] cs = outputs (specCall false) (fun _ => false) cs ∧
      Bits.get (final Bits.call [] cs) = final (specCall false) (fun _ => false) cs := by
  obtain ⟨h1, h2, -⟩ := outputs_refine Bits.call Bits.get false (fun _ => True)
    (fun m c _ => ⟨trivial, Bits.call_spec m c⟩) cs (s := []) trivial
  have : Bits.get [] = fun _ => false := by funext x; simp [Bits.get_eq]
  rw [this] at h1 h2
  exact ⟨h1, h2⟩

/-- `iter` yields the set keys, each once and in order. -/
theorem C21_bit_vec_iter (m : List Bool) :
    (∀ k v, (k, v) ∈ Bits.iter m ↔ v = true ∧ Bits.get m k = true) ∧ (Bits.iter m).Pairwise (fun x y => x.1 < y.1) := by
  unfold Bits.iter
  constructor
  · intro k v
    simp only [List.mem_filterMap, List.mem_range]
    unfold Bits.get
    constructor
    · rintro ⟨a, ha, h⟩
      split at h
      · cases h; simpa
      · cases h
    · rintro ⟨rfl, h⟩
      split at h
      · rename_i h1
        exact ⟨k, (List.getElem?_eq_some_iff.1 h1).1, by simp [h1]⟩
      · cases h
  · rw [List.pairwise_filterMap]
    refine List.pairwise_lt_range.imp ?_
    intro a b hab x hx y hy
    split at hx <;> simp at hx
    split at hy <;> simp at hy
    subst hx; subst hy; exact hab

/-! ## Hash sets -/

namespace HSet

variable {K : Type} [DecidableEq K]

/-- A trait call on a `HashSet`. -/
def call (m : List K) : Call K Bool → Option Bool × List K
  | .get k => (some (get m k), m)
  | .set k v => (none, set m k v)
  | .take k => (some (take m k).1, (take m k).2)
  | .remove k => (none, (take m k).2)
  | .rekey old new => (none, rekey m old new)
  | .swap a b => (none, swap m a b)

theorem get_set (m : List K) (k : K) (v : Bool) (x : K) : get (set m k v) x = if x = k then v else get m x := by
  rw [Bool.eq_iff_iff]
  simp only [get, set, insert, remove]
  cases v
  · simp only [Bool.false_eq_true, if_false, List.contains_iff_mem, List.mem_filter, decide_eq_true_eq]
    by_cases h : x = k <;> simp [h]
  · simp only [if_true]
    by_cases h : x = k
    · subst h
      split <;> rename_i h' <;> simp at h' <;> simp [h']
    · split <;> simp [h]

theorem get_take (m : List K) (k x : K) : (take m k).1 = get m k ∧
    get (take m k).2 x = if x = k then false else get m x := by
  refine ⟨rfl, ?_⟩
  rw [Bool.eq_iff_iff]
  simp only [get, take, remove, List.contains_iff_mem, List.mem_filter, decide_eq_true_eq]
  by_cases h : x = k <;> simp [h]

theorem call_spec (m : List K) (c : Call K Bool) :
    (call m c).1 = (specCall false (get m) c).1 ∧ get (call m c).2 = (specCall false (get m) c).2 := by
  cases c with
  | get => exact ⟨rfl, rfl⟩
  | set k v => exact ⟨rfl, funext fun x => get_set m k v x⟩
  | take k => exact ⟨congrArg some (get_take m k k).1, funext fun x => (get_take m k x).2⟩
  | remove k => exact ⟨rfl, funext fun x => (get_take m k x).2⟩
  | rekey old new =>
    cases new with
    | none => exact ⟨rfl, funext fun x => (get_take m old x).2⟩
    | some n =>
      refine ⟨rfl, funext fun x => ?_⟩
      simp only [call, rekey, specCall]
      rw [get_set, (get_take m old x).2, (get_take m old x).1]
  | swap a b =>
    refine ⟨rfl, funext fun x => ?_⟩
    simp only [call, swap, specCall]
    rw [get_set, get_set]
    grind

theorem nodup_call {m : List K} (h : m.Nodup) (c : Call K Bool) : (call m c).2.Nodup := by
  have hr : ∀ {m : List K}, m.Nodup → ∀ k, (remove m k).Nodup := fun h k => h.filter _
  have hset : ∀ {m : List K}, m.Nodup → ∀ k v, (set m k v).Nodup := by
    intro m h k v
    unfold set
    split
    · unfold insert
      split
      · exact h
      · rename_i h'
        exact List.nodup_cons.2 ⟨by simpa using h', h⟩
    · exact hr h k
  cases c with
  | get => exact h
  | set k v => exact hset h k v
  | take k => exact hr h k
  | remove k => exact hr h k
  | rekey old new =>
    cases new with
    | none => exact hr h old
    | some n => exact hset (hr h old) _ _
  | swap a b => exact hset (hset h _ _) _ _

end HSet

theorem C21_hash_set {K : Type} [DecidableEq K] (cs : List (Call K Bool)) :
    outputs HSet.call [] cs = outputs (specCall false) (fun _ => false) cs ∧
      HSet.get (final HSet.call [] cs) = final (specCall false) (fun _ => false) cs ∧
      (∀ k v, (k, v) ∈ HSet.iter (final HSet.call [] cs) ↔ v = true ∧ HSet.get (final HSet.call [] cs) k = true) ∧
      (HSet.iter (final HSet.call [] cs)).Nodup := by
  obtain ⟨h1, h2, h3⟩ := outputs_refine HSet.call HSet.get false (fun m : List K => m.Nodup)
    (fun m c h => ⟨HSet.nodup_call h c, HSet.call_spec m c⟩) cs (s := []) List.nodup_nil
  have : HSet.get ([] : List K) = fun _ => false := by funext x; simp [HSet.get]
  rw [this] at h1 h2
  refine ⟨h1, h2, ?_, ?_⟩
  · intro k v
    simp only [HSet.iter, HSet.get, List.mem_map, Prod.mk.injEq, List.contains_iff_mem]
    constructor
    · rintro ⟨a, ha, rfl, rfl⟩; exact ⟨rfl, ha⟩
    · rintro ⟨rfl, h⟩; exact ⟨k, h, rfl, rfl⟩
  · unfold HSet.iter
    rw [List.nodup_iff_pairwise_ne, List.pairwise_map]
    refine (List.nodup_iff_pairwise_ne.1 h3).imp ?_
    intro a b hab hc; cases hc; exact hab rfl

/-! ## The other methods of the dense map -/

/-- `get_disjoint_mut` gives the values of the keys, or nothing if two keys coincide; no key
changes its value. -/
theorem C21_get_disjoint {V : Type} (m : Dense V) (keys : List Nat) :
    (m.getDisjoint keys).1 = (if keys.Nodup then some (keys.map m.get) else none) ∧
      (m.getDisjoint keys).2.get = m.get := by
  have hgo : ∀ (m' : Dense V) (ks : List Nat), (∀ k ∈ ks, k < m'.data.length) →
      Dense.getDisjoint.go m' ks = if ks.Nodup then some (ks.map m'.get) else none := by
    intro m' ks
    induction ks with
    | nil => intro _; rfl
    | cons k ks ih =>
      intro h
      rw [Dense.getDisjoint.go, ih fun k hk => h k (by simp [hk])]
      have hk := h k (by simp)
      have hget : m'.data[k]? = some (m'.get k) := by
        unfold Dense.get; rw [List.getElem?_eq_getElem hk]; rfl
      by_cases hm : k ∈ ks
      · have : ks.any (· == k) = true := by simpa using hm
        rw [if_pos this, if_neg]
        rw [List.nodup_cons]; exact fun hc => hc.1 hm
      · have : ¬ ks.any (· == k) = true := by simpa using hm
        rw [if_neg this, hget]
        simp only [List.nodup_cons, hm, not_false_eq_true, true_and]
        split <;> simp
  have hres : ∀ k, (m.reserveKey k).get = m.get := fun k => funext fun x => Dense.get_reserve m k x
  unfold Dense.getDisjoint
  simp only
  cases hk : keys.max? with
  | none =>
    rw [List.max?_eq_none_iff] at hk; subst hk
    exact ⟨rfl, rfl⟩
  | some mx =>
    refine ⟨?_, hres mx⟩
    have hmax := (List.max?_eq_some_iff.1 hk).2
    simp only
    rw [hgo _ _ (fun k hk => Nat.lt_of_le_of_lt (hmax k hk) (Dense.length_reserve m mx)), hres]

/-- Two maps are equal for `==` exactly if they have the same default and the same value at every
key, however much they store. -/
theorem C21_dense_eq {V : Type} [BEq V] [LawfulBEq V] (a b : Dense V) :
    a.eq b = true ↔ a.default = b.default ∧ ∀ k, a.get k = b.get k := by
  unfold Dense.eq
  split
  · rename_i h
    simp only [bne_iff_ne, ne_eq] at h
    simp [h]
  · rename_i h
    have h : a.default = b.default := by simpa using h
    rw [show (a.default = b.default ∧ ∀ k, a.get k = b.get k) ↔ ∀ k, a.get k = b.get k from
      ⟨fun x => x.2, fun x => ⟨h, x⟩⟩]
    simp only [Bool.and_eq_true, beq_iff_eq, List.all_eq_true]
    generalize hn : min a.data.length b.data.length = n
    constructor
    · rintro ⟨⟨h1, h2⟩, h3⟩ k
      unfold Dense.get
      by_cases hk : k < n
      · have := congrArg (fun l => l[k]?) h1
        simp only [List.getElem?_take, hk, if_true] at this
        rw [this, h]
      · have e1 : (a.data[k]?).getD a.default = b.default := by
          cases e : a.data[k]? with
          | none => exact h
          | some v =>
            have hx : v ∈ a.data.drop n := by
              rw [List.mem_iff_getElem?]
              exact ⟨k - n, by rw [List.getElem?_drop, ← e]; congr 1; omega⟩
            exact (h2 v hx).trans h
        have e2 : (b.data[k]?).getD b.default = b.default := by
          cases e : b.data[k]? with
          | none => rfl
          | some v =>
            have hx : v ∈ b.data.drop n := by
              rw [List.mem_iff_getElem?]
              exact ⟨k - n, by rw [List.getElem?_drop, ← e]; congr 1; omega⟩
            exact h3 v hx
        rw [e1, e2]
    · intro hg
      have hout : ∀ (m : Dense V) k, m.data.length ≤ k → m.get k = m.default := fun m k hk => by
        unfold Dense.get; rw [List.getElem?_eq_none hk]; rfl
      have hin : ∀ (m : Dense V) k v, m.data[k]? = some v → m.get k = v := fun m k v hk => by
        unfold Dense.get; rw [hk]; rfl
      refine ⟨⟨?_, ?_⟩, ?_⟩
      · apply List.ext_getElem?
        intro k
        simp only [List.getElem?_take]
        split
        · have h1 : k < a.data.length := by omega
          have h2 : k < b.data.length := by omega
          have := hg k
          rw [hin a k _ (List.getElem?_eq_getElem h1), hin b k _ (List.getElem?_eq_getElem h2)] at this
          rw [List.getElem?_eq_getElem h1, List.getElem?_eq_getElem h2, this]
        · rfl
      · intro v hv
        obtain ⟨k, hk⟩ := List.mem_iff_getElem?.1 hv
        rw [List.getElem?_drop] at hk
        have hl := (List.getElem?_eq_some_iff.1 hk).1
        rw [← hin a _ v hk, hg, hout b _ (by omega), h]
      · intro v hv
        obtain ⟨k, hk⟩ := List.mem_iff_getElem?.1 hv
        rw [List.getElem?_drop] at hk
        have hl := (List.getElem?_eq_some_iff.1 hk).1
        rw [← hin b _ v hk, ← hg, hout a _ (by omega), h]

/-- The entries of `iter` are stored keys in order with their values, and every key that does not
read as the default is among them. Missing for the documented claim: entries with the default value
are also yielded. -/
theorem C21_dense_iter_partial {V : Type} (m : Dense V) :
    (m.iter).Pairwise (fun x y => x.1 < y.1) ∧ (∀ k v, (k, v) ∈ m.iter → v = m.get k) ∧
      (∀ k, m.get k ≠ m.default → (k, m.get k) ∈ m.iter) := by
  have hmem : ∀ k v, (k, v) ∈ m.iter ↔ m.data[k]? = some v := by
    intro k v
    unfold Dense.iter
    rw [List.mem_iff_getElem?]
    constructor
    · rintro ⟨i, hi⟩
      rw [List.getElem?_zip_eq_some] at hi
      simp only at hi
      rw [List.getElem?_range (by have := (List.getElem?_eq_some_iff.1 hi.2).1; exact this)] at hi
      obtain ⟨h1, h2⟩ := hi
      cases h1; exact h2
    · intro h
      have := (List.getElem?_eq_some_iff.1 h).1
      exact ⟨k, by rw [List.getElem?_zip_eq_some]; exact ⟨List.getElem?_range this, h⟩⟩
  refine ⟨?_, ?_, ?_⟩
  · unfold Dense.iter
    rw [List.pairwise_iff_getElem]
    intro i j hi hj hij
    simp only [List.getElem_zip, List.getElem_range]
    exact hij
  · intro k v h
    rw [hmem] at h
    unfold Dense.get; rw [h]; rfl
  · intro k hk
    rw [hmem]
    unfold Dense.get at hk ⊢
    cases e : m.data[k]? with
    | none => rw [e] at hk; exact absurd rfl hk
    | some v => rfl

/-- Failure: `iter` yields entries whose value is the default. -/
theorem C21_witness_iter_defaults :
    ((Dense.withDefault 0).set 1 5).iter = [(0, 0), (1, 5)] := by decide

/-! ## C22 -/

/-- The mutating methods of a dense map. -/
inductive DOp (V : Type) where
  | call (c : Call Nat V)
  | trySet (k : Nat) (v : V)
  | ensureCapacity (cap capacity : Nat)
  | shrinkTo (n : Nat)
deriving Repr

/-- The effect of a method on the model. -/
def DOp.run {V : Type} (vd : V) (m : Dense V) : DOp V → Dense V
  | .call c => (m.call vd c).2
  | .trySet k v => (m.trySet k v).2
  | .ensureCapacity cap capacity => m.ensureCapacity cap capacity
  | .shrinkTo n => m.shrinkTo n

/-- Keys that were written since they were last vacated or cut off. -/
def DOp.written {V : Type} (w : Nat → Prop) : DOp V → Nat → Prop
  | .call (.get _) => w
  | .call (.set k _) => fun x => x = k ∨ w x
  | .call (.take k) => fun x => x ≠ k ∧ w x
  | .call (.remove k) => fun x => x ≠ k ∧ w x
  | .call (.rekey old none) => fun x => x ≠ old ∧ w x
  | .call (.rekey old (some new)) => fun x => if x = new then w old else x ≠ old ∧ w x
  | .call (.swap a b) => fun x => if x = a then w b else if x = b then w a else w x
  | .trySet k _ => fun x => x = k ∨ w x
  | .ensureCapacity _ _ => w
  | .shrinkTo n => fun x => x < n ∧ w x

/-- Keys written by a history. -/
def writtenBy {V : Type} : List (DOp V) → (Nat → Prop) → Nat → Prop
  | [], w => w
  | op :: ops, w => writtenBy ops (op.written w)

/-- `cap` in `ensure_capacity` is the vector's capacity, hence at least its length. -/
def CapOk {V : Type} (vd : V) : Dense V → List (DOp V) → Prop
  | _, [] => True
  | m, op :: ops => (∀ cap n, op = .ensureCapacity cap n → m.data.length ≤ cap) ∧ CapOk vd (op.run vd m) ops

/-- In a map created with default `d`, every key that is not written reads `d`. Missing for the
full claim: `rekey`, unless `d` is `V::default()`. -/
theorem C22_default_partial {V : Type} (vd d : V) (ops : List (DOp V)) (hcap : CapOk vd (Dense.withDefault d) ops)
    (hr : vd = d ∨ ∀ old new, DOp.call (.rekey old new) ∉ ops) (k : Nat) (hk : ¬ writtenBy ops (fun _ => False) k) :
    (ops.foldl (DOp.run vd) (Dense.withDefault d)).get k = d := by
  suffices h : ∀ (ops : List (DOp V)) (m : Dense V) (w : Nat → Prop), m.default = d → CapOk vd m ops →
      (vd = d ∨ ∀ old new, DOp.call (.rekey old new) ∉ ops) → (∀ x, ¬ w x → m.get x = d) →
      ∀ k, ¬ writtenBy ops w k → (ops.foldl (DOp.run vd) m).get k = d from
    h ops _ _ rfl hcap hr (fun x _ => by simp [Dense.withDefault, Dense.get]) k hk
  intro ops
  induction ops with
  | nil => intro m w _ _ _ hw k hk; exact hw k hk
  | cons op ops ih =>
    intro m w hd hcap hr hw k hk
    have hdef : (op.run vd m).default = d := by
      rw [← hd]
      cases op with
      | call c => exact Dense.default_call vd m c
      | trySet k v => simp only [DOp.run, Dense.trySet]; split <;> rfl
      | ensureCapacity cap n => simp only [DOp.run, Dense.ensureCapacity, Dense.resize]; split <;> rfl
      | shrinkTo n => rfl
    refine ih (op.run vd m) (op.written w) hdef hcap.2 ?_ ?_ k hk
    · rcases hr with h | h
      · exact .inl h
      · exact .inr fun old new hm => h old new (by simp [hm])
    · intro x hx
      cases op with
      | call c =>
        have hc := (Dense.call_spec vd m c (by
          rcases hr with h | h
          · exact .inl (h.trans hd.symm)
          · exact .inr fun old new hc => h old new (by simp [hc]))).2
        simp only [DOp.run]
        rw [hc]
        cases c with
        | get k => exact hw x hx
        | set k v =>
          simp only [DOp.written, not_or] at hx
          simp only [specCall]; rw [if_neg hx.1]; exact hw x hx.2
        | take k =>
          simp only [DOp.written] at hx
          simp only [specCall]; split
          · exact hd
          · rename_i h; exact hw x fun hc => hx ⟨h, hc⟩
        | remove k =>
          simp only [DOp.written] at hx
          simp only [specCall]; split
          · exact hd
          · rename_i h; exact hw x fun hc => hx ⟨h, hc⟩
        | rekey old new =>
          cases new with
          | none =>
            simp only [DOp.written] at hx
            simp only [specCall]; split
            · exact hd
            · rename_i h; exact hw x fun hc => hx ⟨h, hc⟩
          | some n =>
            simp only [DOp.written] at hx
            simp only [specCall]
            split
            · rename_i h; rw [if_pos h] at hx; exact hw _ hx
            · rename_i h; rw [if_neg h] at hx
              split
              · exact hd
              · rename_i h'; exact hw x fun hc => hx ⟨h', hc⟩
        | swap a b =>
          simp only [DOp.written] at hx
          simp only [specCall]
          split
          · rename_i h; rw [if_pos h] at hx; exact hw _ hx
          · rename_i h; rw [if_neg h] at hx
            split
            · rename_i h'; rw [if_pos h'] at hx; exact hw _ hx
            · rename_i h'; rw [if_neg h'] at hx; exact hw _ hx
      | trySet k v =>
        simp only [DOp.written, not_or] at hx
        simp only [DOp.run, Dense.trySet]
        split
        · rename_i h
          rw [Dense.get_write h, if_neg hx.1]; exact hw x hx.2
        · exact hw x hx.2
      | ensureCapacity cap n =>
        simp only [DOp.run, Dense.ensureCapacity]
        split
        · have := hcap.1 cap n rfl
          rw [Dense.get_resize m (by omega)]; exact hw x hx
        · exact hw x hx
      | shrinkTo n =>
        simp only [DOp.written] at hx
        simp only [DOp.run, Dense.shrinkTo, Dense.get, List.getElem?_take]
        split
        · rename_i h; exact hw x fun hc => hx ⟨h, hc⟩
        · exact hd

/-- Exactly what `rekey` does: the vacated key reads `V::default()` if it was stored, and a
stored target reads `V::default()` if the source was not stored. -/
theorem C22_rekey_partial {V : Type} (vd : V) (m : Dense V) (old new : Nat) (hne : old ≠ new) :
    (m.rekey vd old (some new)).get new =
        (if old < m.data.length then m.get old else if new < m.data.length then vd else m.default) ∧
      (m.rekey vd old (some new)).get old = (if old < m.data.length then vd else m.default) ∧
      (m.rekey vd old none).get old = (if old < m.data.length then vd else m.default) ∧
      ∀ x, x ≠ old → x ≠ new → (m.rekey vd old (some new)).get x = m.get x := by
  have hout : ¬ old < m.data.length → m.get old = m.default := fun hy => by
    unfold Dense.get; rw [List.getElem?_eq_none (by omega)]; rfl
  refine ⟨?_, ?_, ?_, ?_⟩
  · rw [Dense.get_rekey, if_pos rfl]
  · rw [Dense.get_rekey, if_neg (by simpa using Ne.symm hne)]
    by_cases h : old < m.data.length
    · simp [h]
    · simp [h, hout h]
  · rw [Dense.get_rekey, if_neg (by simp)]
    by_cases h : old < m.data.length
    · simp [h]
    · simp [h, hout h]
  · intro x h1 h2
    rw [Dense.get_rekey, if_neg (by simpa using Ne.symm h2), if_neg (by simp [h1])]

example := C22_rekey_partial 0 (((Dense.withDefault 4).set 3 7).set 1 5) 3 1 (by decide)

/-- Failure: with default 4 the key vacated by `rekey` reads 0, and moving an unset key resets
the target to 0. -/
theorem C22_witness_rekey :
    (((Dense.withDefault 4).set 0 7).rekey 0 0 (some 1)).get 0 = 0 ∧
      (((Dense.withDefault 4).set 0 7).rekey 0 5 (some 0)).get 0 = 0 := by decide

/-- A history that uses every method. -/
example : let ops : List (DOp Nat) := [.call (.set 3 7), .trySet 1 5, .trySet 9 5, .call (.swap 3 8), .ensureCapacity 9 12,
      .call (.take 1), .shrinkTo 9, .call (.remove 2)]
    CapOk 0 (Dense.withDefault 4) ops ∧ (ops.foldl (DOp.run 0) (Dense.withDefault 4)).get 8 = 7 ∧
      (ops.foldl (DOp.run 0) (Dense.withDefault 4)).get 3 = 4 := by
  refine ⟨?_, by decide, by decide⟩
  simp [CapOk, DOp.run, Dense.call, Dense.set, Dense.reserveKey, Dense.resize, Dense.withDefault, Dense.trySet, Dense.swap]

example : ([0, 3, 1] : List Nat).Nodup ∧ ((Dense.withDefault 4).getDisjoint [0, 3, 1]).1 = some [4, 4, 4] ∧
    ((Dense.withDefault 4).getDisjoint [0, 3, 0]).1 = none := by decide

example : (Dense.withDefault 4).eq ((Dense.withDefault 4).set 2 4) = true ∧
    (Dense.withDefault 4).eq ((Dense.withDefault 4).set 2 5) = false := by decide

end Verif.Secondary

#print axioms Verif.Secondary.C21_dense_map
#print axioms Verif.Secondary.C21_bit_vec
#print axioms Verif.Secondary.C21_bit_vec_iter
#print axioms Verif.Secondary.C21_hash_set
#print axioms Verif.Secondary.C21_get_disjoint
#print axioms Verif.Secondary.C21_dense_eq
#print axioms Verif.Secondary.C21_dense_iter_partial
#print axioms Verif.Secondary.C21_witness_iter_defaults
#print axioms Verif.Secondary.C22_default_partial
#print axioms Verif.Secondary.C22_rekey_partial
#print axioms Verif.Secondary.C22_witness_rekey
