import Verif.Words.HierSpec
import Verif.Words.Lemmas

/-!
# Lemmas for C76
-/

namespace Verif.Words

open Verif.Index
open Verif.Hier (Hierarchy NodeData AttachError)
open Verif.Secondary

/-! ## Words of nodes -/

/-- The optional node is in range. -/
def SO (o : Option Nat) : Prop := ∀ x, o = some x → x < 2 ^ 31

theorem SO.none : SO none := by intro x h; cases h
theorem SO.some {x : Nat} (h : x < 2 ^ 31) : SO (some x) := by intro y e; cases e; exact h

theorem enc_ne {n : Nat} (h : n < 2 ^ 31) : encIx n ≠ BitVec.allOnes 32 := by
  intro e
  have := congrArg BitVec.toNat e
  simp [encIx] at this
  omega

theorem enc_inj {a b : Nat} (ha : a < 2 ^ 31) (hb : b < 2 ^ 31) : encIx a = encIx b ↔ a = b := by
  constructor
  · intro e
    have := congrArg BitVec.toNat e
    simp [encIx] at this
    omega
  · rintro rfl; rfl

theorem isNone_enc {n : Nat} (h : n < 2 ^ 31) : isNone (encIx n) = false := by
  have := enc_ne h
  unfold isNone newNone
  simpa using this

theorem usize_enc {n : Nat} (h : n < 2 ^ 31) : usizeFrom (encIx n) = some n := by
  unfold usizeFrom bfIndex
  rw [isNone_enc h]
  exact congrArg some (new_eq h).2

theorem toOption_enc {o : Option Nat} (h : SO o) : maybeToOption (encMaybe o) = o.map encIx := by
  cases o with
  | none => simp [maybeToOption, encMaybe, isNone, newNone]
  | some n => simp [maybeToOption, encMaybe, isNone_enc (h n rfl)]

theorem isNone_encM {o : Option Nat} (h : SO o) : isNone (encMaybe o) = o.isNone := by
  cases o with
  | none => simp [encMaybe, isNone, newNone]
  | some n => simp [encMaybe, isNone_enc (h n rfl)]

theorem encMaybe_inj {a b : Option Nat} (ha : SO a) (hb : SO b) (h : encMaybe a = encMaybe b) : a = b := by
  cases a with
  | none =>
    cases b with
    | none => rfl
    | some y => exact absurd h.symm (enc_ne (hb y rfl))
  | some x =>
    cases b with
    | none => exact absurd h (enc_ne (ha x rfl))
    | some y => rw [(enc_inj (ha x rfl) (hb y rfl)).1 h]

/-! ## Data -/

structure SD (d : NodeData) : Prop where
  first : SO d.first
  last : SO d.last
  count : d.count < 2 ^ 32
  parent : SO d.parent
  prev : SO d.prev
  next : SO d.next

theorem SD.default : SD {} := ⟨.none, .none, by decide, .none, .none, .none⟩

theorem encData_inj {a b : NodeData} (ha : SD a) (hb : SD b) (h : encData a = encData b) : a = b := by
  simp only [encData, WData.mk.injEq] at h
  obtain ⟨h1, h2, h3, h4, h5, h6⟩ := h
  have e1 := encMaybe_inj ha.1 hb.1 h1
  have e2 := encMaybe_inj ha.2 hb.2 h2
  have e3 : a.count = b.count := by
    have := congrArg BitVec.toNat h3
    simp at this
    have := ha.3; have := hb.3
    omega
  have e4 := encMaybe_inj ha.4 hb.4 h4
  have e5 := encMaybe_inj ha.5 hb.5 h5
  have e6 := encMaybe_inj ha.6 hb.6 h6
  cases a; cases b
  simp_all

theorem encData_default : encData {} = {} := rfl

/-- The nodes and counts of the hierarchy are in range. -/
structure SH (h : Hierarchy) : Prop where
  data : ∀ d ∈ h.data.data, SD d
  default : h.data.default = {}

theorem SH.new : SH .new := ⟨fun _ hd => (List.not_mem_nil hd).elim, rfl⟩

variable {h : Hierarchy}

theorem SH.get (s : SH h) (n : Nat) : SD (h.get n) := by
  unfold Hierarchy.get Dense.get
  cases e : h.data.data[n]? with
  | none => simp only [Option.getD_none, s.default]; exact .default
  | some d => exact s.data d (List.mem_of_getElem? e)

theorem SH.put (s : SH h) (n : Nat) {d : NodeData} (hd : SD d) : SH ⟨h.data.set n d⟩ := by
  constructor
  · intro x hx
    have hx' := List.mem_or_eq_of_mem_set hx
    rcases hx' with hx' | rfl
    · unfold Dense.reserveKey at hx'
      split at hx'
      · simp only [Dense.resize, List.mem_append] at hx'
        rcases hx' with hx' | hx'
        · exact s.data x (List.mem_of_mem_take hx')
        · rw [List.eq_of_mem_replicate hx', s.default]
          exact .default
      · exact s.data x hx'
    · exact hd
  · unfold Dense.set Dense.reserveKey
    simp only
    split
    · exact s.default
    · exact s.default

theorem encH_get (h : Hierarchy) (n : Nat) : (encH h).data.get n = encData (h.get n) := by
  simp only [encH, Dense.get, Hierarchy.get, List.getElem?_map]
  cases h.data.data[n]? <;> rfl

theorem encH_set (h : Hierarchy) (n : Nat) (d : NodeData) :
    (⟨(encH h).data.set n (encData d)⟩ : WH) = encH ⟨h.data.set n d⟩ := by
  simp only [encH, Dense.set, Dense.reserveKey, List.length_map]
  split <;> simp [Dense.resize, List.map_set, List.map_take]

theorem get_enc (h : Hierarchy) {n : Nat} (hn : n < 2 ^ 31) : (encH h).get (encIx n) = some (encData (h.get n)) := by
  simp [WH.get, usize_enc hn, encH_get]

theorem put_enc (s : SH h) {n : Nat} (hn : n < 2 ^ 31) {d : NodeData} (hd : SD d) :
    (encH h).put (encIx n) (encData d) = some (encH ⟨h.data.set n d⟩) ∧ SH ⟨h.data.set n d⟩ := by
  refine ⟨?_, s.put n hd⟩
  simp [WH.put, usize_enc hn, encH_set]

theorem modify_enc (s : SH h) {n : Nat} (hn : n < 2 ^ 31) (f : WData → WData) (f' : NodeData → NodeData)
    (hf : ∀ d, SD d → encData (f' d) = f (encData d)) (hs : ∀ d, SD d → SD (f' d)) :
    (encH h).modify (encIx n) f = some (encH (h.modify n f')) ∧ SH (h.modify n f') := by
  have hg := s.get n
  refine ⟨?_, s.put n (hs _ hg)⟩
  simp only [WH.modify, usize_enc hn, Option.map_some, encH_get, ← hf _ hg, encH_set]
  rfl

theorem len_enc (h : Hierarchy) : (encH h).data.data.length = h.data.data.length := by simp [encH]

theorem fuel_enc (h : Hierarchy) : (encH h).fuel = h.fuel := by simp [WH.fuel, Hierarchy.fuel, len_enc]

theorem atMaybe_enc (s : SH h) {o : Option Nat} (ho : SO o) (f : WData → WData) (f' : NodeData → NodeData)
    (hf : ∀ d, SD d → encData (f' d) = f (encData d)) (hs : ∀ d, SD d → SD (f' d)) :
    (encH h).atMaybe (encMaybe o) f = some (encH (o.elim h fun x => h.modify x f')) ∧
      SH (o.elim h fun x => h.modify x f') := by
  unfold WH.atMaybe
  rw [toOption_enc ho]
  cases o with
  | none => exact ⟨rfl, s⟩
  | some x => exact modify_enc s (ho x rfl) f f' hf hs

/-! ## Calls -/

theorem climb_enc (s : SH h) {n : Nat} (hn : n < 2 ^ 31) (f : Nat) : ∀ {p : Nat}, p < 2 ^ 31 →
    (encH h).climb (encIx n) f (encIx p) = h.climb n f p := by
  induction f with
  | zero => intros; rfl
  | succ f ih =>
    intro p hp
    simp only [WH.climb, Hierarchy.climb, enc_inj hp hn, get_enc h hp]
    have := (s.get p).parent
    simp only [encData, toOption_enc this]
    split
    · rfl
    · cases e : (h.get p).parent with
      | none => rfl
      | some q => exact ih (this q e)

theorem cycle_enc (s : SH h) {n p : Nat} (hn : n < 2 ^ 31) (hp : p < 2 ^ 31) :
    (encH h).cycleCheck (encIx n) (encIx p) = h.cycleCheck n p := by
  have := s.get n
  simp only [WH.cycleCheck, Hierarchy.cycleCheck, get_enc h hn, Option.bind_eq_bind, Option.bind_some, encData,
    isNone_encM this.first, isNone_encM this.last, fuel_enc, climb_enc s hn _ hp, Option.isNone_iff_eq_none]

theorem inc_enc (s : SH h) {n : Nat} (hn : n < 2 ^ 31) :
    (encH h).incCount (encIx n) = (h.incCount n).map encH ∧ ∀ h', h.incCount n = some h' → SH h' := by
  have hc := (s.get n).count
  simp only [WH.incCount, Hierarchy.incCount, get_enc h hn, Option.bind_eq_bind, Option.bind_some, encData]
  have e : BitVec.ofNat 32 (h.get n).count = BitVec.allOnes 32 ↔ ¬ (h.get n).count + 1 < 2 ^ 32 := by
    constructor
    · intro e
      have := congrArg BitVec.toNat e
      simp at this
      omega
    · intro e
      apply BitVec.eq_of_toNat_eq
      simp
      omega
  by_cases h1 : (h.get n).count + 1 < 2 ^ 32
  · rw [if_pos h1, if_neg (by rw [e]; exact fun hh => hh h1)]
    have hg := s.get n
    have hsd : SD { h.get n with count := (h.get n).count + 1 } :=
      ⟨hg.first, hg.last, h1, hg.parent, hg.prev, hg.next⟩
    refine ⟨?_, fun h' e => by cases e; exact s.put n hsd⟩
    simp only [WH.modify, usize_enc hn, Option.map_some, encH_get, Hierarchy.modify]
    rw [← encH_set]
    congr 2
    simp only [encData, BitVec.ofNat_add]
  · rw [if_neg h1, if_pos (e.2 h1)]
    exact ⟨rfl, by intro h' e; cases e⟩

/-- Result and state of a call that can fail. -/
def encExc : Except AttachError Hierarchy → Except WAttachError WH
  | .ok h => .ok (encH h)
  | .error e => .error (encAttach e)

theorem pushChild_enc (s : SH h) {n p : Nat} (hn : n < 2 ^ 31) (hp : p < 2 ^ 31) :
    (encH h).pushChild (encIx n) (encIx p) = (h.pushChild n p).map encExc ∧
      ∀ h', h.pushChild n p = some (.ok h') → SH h' := by
  unfold WH.pushChild Hierarchy.pushChild
  rw [cycle_enc s hn hp]
  cases h.cycleCheck n p with
  | none => exact ⟨rfl, by intro h' e; cases e⟩
  | some ok =>
    cases ok with
    | false => exact ⟨rfl, by intro h' e; cases e⟩
    | true =>
      simp only [Option.bind_eq_bind, Option.bind_some, Bool.not_true, Bool.false_eq_true, if_false, get_enc h hn, encData,
        toOption_enc (s.get n).parent, Option.isSome_map]
      split
      · exact ⟨rfl, by intro h' e; cases e⟩
      · obtain ⟨e1, s1⟩ := modify_enc s hn (fun d => { d with parent := encIx p }) (fun d => { d with parent := some p })
          (fun d _ => rfl) (fun d hd => ⟨hd.1, hd.2, hd.3, .some hp, hd.5, hd.6⟩)
        rw [e1]
        simp only [Option.bind_some]
        obtain ⟨e2, s2⟩ := inc_enc s1 hp
        rw [e2]
        cases hi : (h.modify n fun d => { d with parent := some p }).incCount p with
        | none => exact ⟨rfl, by intro h' e; cases e⟩
        | some h2 =>
          have s2 := s2 h2 hi
          have hl := (s2.get p).last
          simp only [Option.map_some, Option.bind_some, get_enc h2 hp, encData, toOption_enc hl]
          cases el : (h2.get p).last with
          | some q =>
            have hq := hl q el
            simp only [Option.map_some]
            obtain ⟨e3, s3⟩ := modify_enc s2 hp (fun d => { d with last := encIx n }) (fun d => { d with last := some n })
              (fun d _ => rfl) (fun d hd => ⟨hd.1, .some hn, hd.3, hd.4, hd.5, hd.6⟩)
            obtain ⟨e4, s4⟩ := modify_enc s3 hn (fun d => { d with prev := encIx q }) (fun d => { d with prev := some q })
              (fun d _ => rfl) (fun d hd => ⟨hd.1, hd.2, hd.3, hd.4, .some hq, hd.6⟩)
            obtain ⟨e5, s5⟩ := modify_enc s4 hq (fun d => { d with next := encIx n }) (fun d => { d with next := some n })
              (fun d _ => rfl) (fun d hd => ⟨hd.1, hd.2, hd.3, hd.4, hd.5, .some hn⟩)
            rw [e3]; simp only [Option.bind_some]; rw [e4]; simp only [Option.bind_some]; rw [e5]
            exact ⟨rfl, by intro h' e; cases e; exact s5⟩
          | none =>
            simp only [Option.map_none]
            obtain ⟨e3, s3⟩ := modify_enc s2 hp (fun d => { d with first := encIx n, last := encIx n })
              (fun d => { d with first := some n, last := some n })
              (fun d _ => rfl) (fun d hd => ⟨.some hn, .some hn, hd.3, hd.4, hd.5, hd.6⟩)
            rw [e3]
            exact ⟨rfl, by intro h' e; cases e; exact s3⟩

theorem pushFrontChild_enc (s : SH h) {n p : Nat} (hn : n < 2 ^ 31) (hp : p < 2 ^ 31) :
    (encH h).pushFrontChild (encIx n) (encIx p) = (h.pushFrontChild n p).map encExc ∧
      ∀ h', h.pushFrontChild n p = some (.ok h') → SH h' := by
  unfold WH.pushFrontChild Hierarchy.pushFrontChild
  rw [cycle_enc s hn hp]
  cases h.cycleCheck n p with
  | none => exact ⟨rfl, by intro h' e; cases e⟩
  | some ok =>
    cases ok with
    | false => exact ⟨rfl, by intro h' e; cases e⟩
    | true =>
      simp only [Option.bind_eq_bind, Option.bind_some, Bool.not_true, Bool.false_eq_true, if_false, get_enc h hn, encData,
        toOption_enc (s.get n).parent, Option.isSome_map]
      split
      · exact ⟨rfl, by intro h' e; cases e⟩
      · obtain ⟨e1, s1⟩ := modify_enc s hn (fun d => { d with parent := encIx p }) (fun d => { d with parent := some p })
          (fun d _ => rfl) (fun d hd => ⟨hd.1, hd.2, hd.3, .some hp, hd.5, hd.6⟩)
        rw [e1]
        simp only [Option.bind_some]
        obtain ⟨e2, s2⟩ := inc_enc s1 hp
        rw [e2]
        cases hi : (h.modify n fun d => { d with parent := some p }).incCount p with
        | none => exact ⟨rfl, by intro h' e; cases e⟩
        | some h2 =>
          have s2 := s2 h2 hi
          have hl := (s2.get p).first
          simp only [Option.map_some, Option.bind_some, get_enc h2 hp, encData, toOption_enc hl]
          cases el : (h2.get p).first with
          | some q =>
            have hq := hl q el
            simp only [Option.map_some]
            obtain ⟨e3, s3⟩ := modify_enc s2 hp (fun d => { d with first := encIx n }) (fun d => { d with first := some n })
              (fun d _ => rfl) (fun d hd => ⟨.some hn, hd.2, hd.3, hd.4, hd.5, hd.6⟩)
            obtain ⟨e4, s4⟩ := modify_enc s3 hn (fun d => { d with next := encIx q }) (fun d => { d with next := some q })
              (fun d _ => rfl) (fun d hd => ⟨hd.1, hd.2, hd.3, hd.4, hd.5, .some hq⟩)
            obtain ⟨e5, s5⟩ := modify_enc s4 hq (fun d => { d with prev := encIx n }) (fun d => { d with prev := some n })
              (fun d _ => rfl) (fun d hd => ⟨hd.1, hd.2, hd.3, hd.4, .some hn, hd.6⟩)
            rw [e3]; simp only [Option.bind_some]; rw [e4]; simp only [Option.bind_some]; rw [e5]
            exact ⟨rfl, by intro h' e; cases e; exact s5⟩
          | none =>
            simp only [Option.map_none]
            obtain ⟨e3, s3⟩ := modify_enc s2 hp (fun d => { d with first := encIx n, last := encIx n })
              (fun d => { d with first := some n, last := some n })
              (fun d _ => rfl) (fun d hd => ⟨.some hn, .some hn, hd.3, hd.4, hd.5, hd.6⟩)
            rw [e3]
            exact ⟨rfl, by intro h' e; cases e; exact s3⟩

theorem insertBefore_enc (s : SH h) {n b : Nat} (hn : n < 2 ^ 31) (hb : b < 2 ^ 31) :
    (encH h).insertBefore (encIx n) (encIx b) = (h.insertBefore n b).map encExc ∧
      ∀ h', h.insertBefore n b = some (.ok h') → SH h' := by
  unfold WH.insertBefore Hierarchy.insertBefore
  simp only [Option.bind_eq_bind, Option.bind_some, get_enc h hn, get_enc h hb, encData, toOption_enc (s.get n).parent,
    toOption_enc (s.get b).parent, Option.isSome_map]
  split
  · exact ⟨rfl, by intro h' e; cases e⟩
  · cases ep : (h.get b).parent with
    | none => exact ⟨rfl, by intro h' e; cases e⟩
    | some p =>
      have hp := (s.get b).parent p ep
      simp only [Option.map_some]
      rw [cycle_enc s hn hp]
      cases h.cycleCheck n p with
      | none => exact ⟨rfl, by intro h' e; cases e⟩
      | some ok =>
        cases ok with
        | false => exact ⟨rfl, by intro h' e; cases e⟩
        | true =>
          simp only [Option.bind_some, Bool.not_true, Bool.false_eq_true, if_false]
          obtain ⟨e2, s2⟩ := inc_enc s hp
          rw [e2]
          cases hi : h.incCount p with
          | none => exact ⟨rfl, by intro h' e; cases e⟩
          | some h2 =>
            have s2 := s2 h2 hi
            have hl := (s2.get b).prev
            simp only [Option.map_some, Option.bind_some, get_enc h2 hb, encData, toOption_enc hl]
            obtain ⟨e3, s3⟩ := modify_enc s2 hb (fun d => { d with prev := encIx n }) (fun d => { d with prev := some n })
              (fun d _ => rfl) (fun d hd => ⟨hd.1, hd.2, hd.3, hd.4, .some hn, hd.6⟩)
            obtain ⟨e4, s4⟩ := modify_enc s3 hn
              (fun d => { d with parent := encIx p, prev := encMaybe (h2.get b).prev, next := encIx b })
              (fun d => { d with parent := some p, prev := (h2.get b).prev, next := some b })
              (fun d _ => rfl) (fun d hd => ⟨hd.1, hd.2, hd.3, .some hp, hl, .some hb⟩)
            rw [e3]; simp only [Option.bind_some]; rw [e4]; simp only [Option.bind_some]
            generalize (h2.modify b fun d => { d with prev := some n }).modify n _ = h4 at s4 ⊢
            cases el : (h2.get b).prev with
            | some q =>
              have hq := hl q el
              simp only [Option.map_some]
              obtain ⟨e5, s5⟩ := modify_enc s4 hq (fun d => { d with next := encIx n }) (fun d => { d with next := some n })
                (fun d _ => rfl) (fun d hd => ⟨hd.1, hd.2, hd.3, hd.4, hd.5, .some hn⟩)
              rw [e5]
              exact ⟨rfl, by intro h' e; cases e; exact s5⟩
            | none =>
              simp only [Option.map_none]
              obtain ⟨e5, s5⟩ := modify_enc s4 hp (fun d => { d with first := encIx n }) (fun d => { d with first := some n })
                (fun d _ => rfl) (fun d hd => ⟨.some hn, hd.2, hd.3, hd.4, hd.5, hd.6⟩)
              rw [e5]
              exact ⟨rfl, by intro h' e; cases e; exact s5⟩

theorem insertAfter_enc (s : SH h) {n b : Nat} (hn : n < 2 ^ 31) (hb : b < 2 ^ 31) :
    (encH h).insertAfter (encIx n) (encIx b) = (h.insertAfter n b).map encExc ∧
      ∀ h', h.insertAfter n b = some (.ok h') → SH h' := by
  unfold WH.insertAfter Hierarchy.insertAfter
  simp only [Option.bind_eq_bind, Option.bind_some, get_enc h hn, get_enc h hb, encData, toOption_enc (s.get n).parent,
    toOption_enc (s.get b).parent, Option.isSome_map]
  split
  · exact ⟨rfl, by intro h' e; cases e⟩
  · cases ep : (h.get b).parent with
    | none => exact ⟨rfl, by intro h' e; cases e⟩
    | some p =>
      have hp := (s.get b).parent p ep
      simp only [Option.map_some]
      rw [cycle_enc s hn hp]
      cases h.cycleCheck n p with
      | none => exact ⟨rfl, by intro h' e; cases e⟩
      | some ok =>
        cases ok with
        | false => exact ⟨rfl, by intro h' e; cases e⟩
        | true =>
          simp only [Option.bind_some, Bool.not_true, Bool.false_eq_true, if_false]
          obtain ⟨e2, s2⟩ := inc_enc s hp
          rw [e2]
          cases hi : h.incCount p with
          | none => exact ⟨rfl, by intro h' e; cases e⟩
          | some h2 =>
            have s2 := s2 h2 hi
            have hl := (s2.get b).next
            simp only [Option.map_some, Option.bind_some, get_enc h2 hb, encData, toOption_enc hl]
            obtain ⟨e3, s3⟩ := modify_enc s2 hb (fun d => { d with next := encIx n }) (fun d => { d with next := some n })
              (fun d _ => rfl) (fun d hd => ⟨hd.1, hd.2, hd.3, hd.4, hd.5, .some hn⟩)
            obtain ⟨e4, s4⟩ := modify_enc s3 hn
              (fun d => { d with parent := encIx p, prev := encIx b, next := encMaybe (h2.get b).next })
              (fun d => { d with parent := some p, prev := some b, next := (h2.get b).next })
              (fun d _ => rfl) (fun d hd => ⟨hd.1, hd.2, hd.3, .some hp, .some hb, hl⟩)
            rw [e3]; simp only [Option.bind_some]; rw [e4]; simp only [Option.bind_some]
            generalize (h2.modify b fun d => { d with next := some n }).modify n _ = h4 at s4 ⊢
            cases el : (h2.get b).next with
            | some q =>
              have hq := hl q el
              simp only [Option.map_some]
              obtain ⟨e5, s5⟩ := modify_enc s4 hq (fun d => { d with prev := encIx n }) (fun d => { d with prev := some n })
                (fun d _ => rfl) (fun d hd => ⟨hd.1, hd.2, hd.3, hd.4, .some hn, hd.6⟩)
              rw [e5]
              exact ⟨rfl, by intro h' e; cases e; exact s5⟩
            | none =>
              simp only [Option.map_none]
              obtain ⟨e5, s5⟩ := modify_enc s4 hp (fun d => { d with last := encIx n }) (fun d => { d with last := some n })
                (fun d _ => rfl) (fun d hd => ⟨hd.1, .some hn, hd.3, hd.4, hd.5, hd.6⟩)
              rw [e5]
              exact ⟨rfl, by intro h' e; cases e; exact s5⟩

theorem cleared_enc (s : SH h) {n : Nat} (hn : n < 2 ^ 31) :
    (encH h).modify (encIx n) (fun d => { d with parent := noIx, prev := noIx, next := noIx }) =
      some (encH (h.modify n fun d => { d with parent := none, prev := none, next := none })) ∧
      SH (h.modify n fun d => { d with parent := none, prev := none, next := none }) :=
  modify_enc s hn _ _ (fun _ _ => rfl) (fun _ hd => ⟨hd.1, hd.2, hd.3, .none, .none, .none⟩)

theorem detach_enc (s : SH h) {n : Nat} (hn : n < 2 ^ 31) :
    (encH h).detach (encIx n) = (h.detach n).map (fun x => (x.1.map encIx, encH x.2)) ∧
      ∀ r h', h.detach n = some (r, h') → SH h' := by
  unfold WH.detach Hierarchy.detach
  simp only [Option.bind_eq_bind, usize_enc hn, Option.bind_some, len_enc]
  split
  · exact ⟨rfl, by intro r h' e; cases e; exact s⟩
  · obtain ⟨e1, s1⟩ := cleared_enc s hn
    have sg := s.get n
    simp only [get_enc h hn, Option.bind_some, e1, encData, toOption_enc sg.parent, toOption_enc sg.prev, toOption_enc sg.next]
    generalize h.get n = dd at sg ⊢
    obtain ⟨fi, la, co, pa, pv, nx⟩ := dd
    obtain ⟨-, -, -, hpa, hv, hx⟩ := sg
    simp only at hpa hv hx ⊢
    cases pa with
    | none => exact ⟨rfl, by intro r h' e; cases e; exact s1⟩
    | some p =>
      have hp := hpa p rfl
      generalize (h.modify n fun d => { d with parent := none, prev := none, next := none }) = h1 at s1 ⊢
      have hc := (s1.get p).count
      have hz : BitVec.ofNat 32 (h1.get p).count = 0#32 ↔ (h1.get p).count = 0 := by
        constructor
        · intro e
          have := congrArg BitVec.toNat e
          simp at this
          omega
        · intro e; rw [e]
      simp only [Option.map_some, get_enc h1 hp, Option.bind_some, encData, hz]
      split
      · exact ⟨rfl, by intro r h' e; cases e⟩
      · rename_i hc0
        have hg := s1.get p
        have e2 : (encH h1).modify (encIx p) (fun d => { d with count := d.count - 1#32 }) =
            some (encH (h1.modify p fun d => { d with count := d.count - 1 })) := by
          simp only [WH.modify, usize_enc hp, Option.map_some, encH_get, Hierarchy.modify]
          rw [← encH_set]
          have ec : BitVec.ofNat 32 (h1.get p).count - 1#32 = BitVec.ofNat 32 ((h1.get p).count - 1) := by
            apply BitVec.eq_of_toNat_eq
            simp [BitVec.toNat_sub]
            omega
          simp only [encData, ec]
        have s2 : SH (h1.modify p fun d => { d with count := d.count - 1 }) :=
          s1.put p ⟨hg.1, hg.2, by simp only; omega, hg.4, hg.5, hg.6⟩
        rw [e2]
        simp only [Option.bind_some]
        generalize (h1.modify p fun d => { d with count := d.count - 1 }) = h2 at s2 ⊢
        obtain ⟨e3, s3⟩ := atMaybe_enc s2 hv (fun x => { x with next := encMaybe nx })
          (fun x => { x with next := nx }) (fun _ _ => rfl) (fun _ hd => ⟨hd.1, hd.2, hd.3, hd.4, hd.5, hx⟩)
        rw [e3]
        simp only [Option.bind_some]
        obtain ⟨e4, s4⟩ := atMaybe_enc s3 hx (fun x => { x with prev := encMaybe pv })
          (fun x => { x with prev := pv }) (fun _ _ => rfl) (fun _ hd => ⟨hd.1, hd.2, hd.3, hd.4, hv, hd.6⟩)
        rw [e4]
        simp only [Option.bind_some]
        revert s4 hv hx
        clear e4 s3
        cases pv with
        | none =>
          cases nx with
          | none =>
            intro hv hx s4
            obtain ⟨e5, s5⟩ := modify_enc s4 hp (fun x => { x with first := encMaybe none, last := encMaybe none })
              (fun x => { x with first := none, last := none }) (fun _ _ => rfl)
              (fun _ hd => ⟨.none, .none, hd.3, hd.4, hd.5, hd.6⟩)
            simp only [Option.map_none]
            rw [e5]
            exact ⟨rfl, by intro r h' e; cases e; exact s5⟩
          | some y =>
            intro hv hx s4
            obtain ⟨e5, s5⟩ := modify_enc s4 hp (fun x => { x with first := encMaybe (some y) })
              (fun x => { x with first := some y }) (fun _ _ => rfl) (fun _ hd => ⟨hx, hd.2, hd.3, hd.4, hd.5, hd.6⟩)
            simp only [Option.map_none, Option.map_some]
            rw [e5]
            exact ⟨rfl, by intro r h' e; cases e; exact s5⟩
        | some z =>
          cases nx with
          | none =>
            intro hv hx s4
            obtain ⟨e5, s5⟩ := modify_enc s4 hp (fun x => { x with last := encMaybe (some z) })
              (fun x => { x with last := some z }) (fun _ _ => rfl) (fun _ hd => ⟨hd.1, hv, hd.3, hd.4, hd.5, hd.6⟩)
            simp only [Option.map_none, Option.map_some]
            rw [e5]
            exact ⟨rfl, by intro r h' e; cases e; exact s5⟩
          | some y =>
            intro hv hx s4
            exact ⟨rfl, by intro r h' e; cases e; exact s4⟩

theorem detachLoop_enc (f : Nat) : ∀ {h : Hierarchy} (_ : SH h) {c : Option Nat} (_ : SO c),
    WH.detachLoop f (encH h) (encMaybe c) = (Hierarchy.detachLoop f h c).map encH ∧
      ∀ h', Hierarchy.detachLoop f h c = some h' → SH h' := by
  induction f with
  | zero =>
    intro h s c hc
    unfold WH.detachLoop
    rw [toOption_enc hc]
    cases c with
    | none => exact ⟨rfl, by intro h' e; cases e; exact s⟩
    | some x => exact ⟨rfl, by intro h' e; cases e⟩
  | succ f ih =>
    intro h s c hc
    unfold WH.detachLoop
    rw [toOption_enc hc]
    cases c with
    | none => exact ⟨rfl, by intro h' e; cases e; exact s⟩
    | some x =>
      have hx := hc x rfl
      obtain ⟨e1, s1⟩ := cleared_enc s hx
      simp only [Option.map_some, get_enc h hx, e1]
      exact ih s1 (s.get x).next

theorem detachChildren_enc (s : SH h) {n : Nat} (hn : n < 2 ^ 31) :
    (encH h).detachChildren (encIx n) = (h.detachChildren n).map encH ∧
      ∀ h', h.detachChildren n = some h' → SH h' := by
  unfold WH.detachChildren Hierarchy.detachChildren
  simp only [Option.bind_eq_bind, usize_enc hn, Option.bind_some, len_enc]
  split
  · exact ⟨rfl, by intro h' e; cases e; exact s⟩
  · obtain ⟨e1, s1⟩ := modify_enc s hn (fun d => { d with count := 0#32, first := noIx, last := noIx })
      (fun d => { d with count := 0, first := none, last := none }) (fun _ _ => rfl)
      (fun _ hd => ⟨.none, .none, by simp, hd.4, hd.5, hd.6⟩)
    simp only [get_enc h hn, Option.bind_some, e1, fuel_enc]
    exact detachLoop_enc _ s1 (s.get n).first

theorem remove_enc (s : SH h) {n : Nat} (hn : n < 2 ^ 31) :
    (encH h).remove (encIx n) = (h.remove n).map encH ∧ ∀ h', h.remove n = some h' → SH h' := by
  unfold WH.remove Hierarchy.remove
  obtain ⟨e1, s1⟩ := detachChildren_enc s hn
  rw [e1]
  cases hd : h.detachChildren n with
  | none => exact ⟨rfl, by intro h' e; cases e⟩
  | some h1 =>
    obtain ⟨e2, s2⟩ := detach_enc (s1 h1 hd) hn
    simp only [Option.map_some, Option.bind_eq_bind, Option.bind_some, e2]
    cases hd2 : h1.detach n with
    | none => exact ⟨rfl, by intro h' e; cases e⟩
    | some x => exact ⟨rfl, by intro h' e; cases e; exact s2 x.1 x.2 hd2⟩

theorem rekeyInParent_enc (s : SH h) {d : NodeData} (hd : SD d) {n : Nat} (hn : n < 2 ^ 31) :
    (encH h).rekeyInParent (encData d) (encIx n) = some (encH (h.rekeyInParent d n)) ∧ SH (h.rekeyInParent d n) := by
  unfold WH.rekeyInParent Hierarchy.rekeyInParent
  simp only [encData, toOption_enc hd.parent, isNone_encM hd.prev, isNone_encM hd.next, Option.isNone_iff_eq_none]
  cases ep : d.parent with
  | none => exact ⟨rfl, s⟩
  | some p =>
    have hp := hd.parent p ep
    simp only [Option.map_some]
    obtain ⟨e1, s1⟩ := modify_enc s hp (fun d => { d with first := encIx n }) (fun d => { d with first := some n })
      (fun _ _ => rfl) (fun _ hd => ⟨.some hn, hd.2, hd.3, hd.4, hd.5, hd.6⟩)
    have key : ∀ {h1 : Hierarchy}, SH h1 →
        (if d.next = none then (encH h1).modify (encIx p) (fun d => { d with last := encIx n }) else some (encH h1)) =
          some (encH (if d.next = none then h1.modify p fun d => { d with last := some n } else h1)) ∧
        SH (if d.next = none then h1.modify p fun d => { d with last := some n } else h1) := by
      intro h1 s1
      split
      · exact modify_enc s1 hp _ _ (fun _ _ => rfl) (fun _ hd => ⟨hd.1, .some hn, hd.3, hd.4, hd.5, hd.6⟩)
      · exact ⟨rfl, s1⟩
    by_cases hv : d.prev = none
    · rw [if_pos hv, if_pos hv, e1]
      exact key s1
    · rw [if_neg hv, if_neg hv]
      exact key s

theorem rekeyInSiblings_enc (s : SH h) {d : NodeData} (hd : SD d) {n : Nat} (hn : n < 2 ^ 31) :
    (encH h).rekeyInSiblings (encData d) (encIx n) = some (encH (h.rekeyInSiblings d n)) ∧ SH (h.rekeyInSiblings d n) := by
  unfold WH.rekeyInSiblings Hierarchy.rekeyInSiblings
  have hv := hd.prev
  have hx := hd.next
  obtain ⟨e1, s1⟩ := atMaybe_enc s hd.prev (fun d => { d with next := encIx n }) (fun d => { d with next := some n })
    (fun _ _ => rfl) (fun _ hd => ⟨hd.1, hd.2, hd.3, hd.4, hd.5, .some hn⟩)
  obtain ⟨e2, s2⟩ := atMaybe_enc s1 hd.next (fun d => { d with prev := encIx n }) (fun d => { d with prev := some n })
    (fun _ _ => rfl) (fun _ hd => ⟨hd.1, hd.2, hd.3, hd.4, .some hn, hd.6⟩)
  simp only [encData, Option.bind_eq_bind]
  rw [e1]
  simp only [Option.bind_some]
  rw [e2]
  exact ⟨by cases d.prev <;> cases d.next <;> rfl, by revert s2; cases d.prev <;> cases d.next <;> exact id⟩

theorem rekeyLoop_enc {n : Nat} (hn : n < 2 ^ 31) (f : Nat) : ∀ {h : Hierarchy} (_ : SH h) {c : Option Nat} (_ : SO c),
    WH.rekeyLoop (encIx n) f (encH h) (encMaybe c) = (Hierarchy.rekeyLoop n f h c).map encH ∧
      ∀ h', Hierarchy.rekeyLoop n f h c = some h' → SH h' := by
  induction f with
  | zero =>
    intro h s c hc
    unfold WH.rekeyLoop
    rw [toOption_enc hc]
    cases c with
    | none => exact ⟨rfl, by intro h' e; cases e; exact s⟩
    | some x => exact ⟨rfl, by intro h' e; cases e⟩
  | succ f ih =>
    intro h s c hc
    unfold WH.rekeyLoop
    rw [toOption_enc hc]
    cases c with
    | none => exact ⟨rfl, by intro h' e; cases e; exact s⟩
    | some x =>
      have hx := hc x rfl
      obtain ⟨e1, s1⟩ := modify_enc s hx (fun d => { d with parent := encIx n }) (fun d => { d with parent := some n })
        (fun _ _ => rfl) (fun _ hd => ⟨hd.1, hd.2, hd.3, .some hn, hd.5, hd.6⟩)
      simp only [Option.map_some, e1, get_enc _ hx]
      exact ih s1 (s1.get x).next

theorem rekeyInChildren_enc (s : SH h) {d : NodeData} (hd : SD d) {n : Nat} (hn : n < 2 ^ 31) :
    (encH h).rekeyInChildren (encData d) (encIx n) = (h.rekeyInChildren d n).map encH ∧
      ∀ h', h.rekeyInChildren d n = some h' → SH h' := by
  unfold WH.rekeyInChildren Hierarchy.rekeyInChildren
  rw [fuel_enc]
  exact rekeyLoop_enc hn _ s hd.first

theorem rekeyInValue_enc {v : Option Nat} (hv : SO v) {a b : Nat} (ha : a < 2 ^ 31) (hb : b < 2 ^ 31) :
    WH.rekeyInValue (encMaybe v) (encIx a) (encIx b) = encMaybe (Hierarchy.rekeyInValue v a b) ∧
      SO (Hierarchy.rekeyInValue v a b) := by
  unfold WH.rekeyInValue Hierarchy.rekeyInValue
  cases v with
  | none => exact ⟨by simp [encMaybe, isNone, newNone], by simpa using hv⟩
  | some x =>
    have hx := hv x rfl
    simp only [encMaybe, isNone_enc hx, Bool.false_eq_true, if_false, enc_inj hx ha, Option.some.injEq]
    split
    · exact ⟨rfl, .some hb⟩
    · exact ⟨rfl, .some hx⟩

theorem rekeyInData_enc {d : NodeData} (hd : SD d) {a b : Nat} (ha : a < 2 ^ 31) (hb : b < 2 ^ 31) :
    WH.rekeyInData (encData d) (encIx a) (encIx b) = encData (Hierarchy.rekeyInData d a b) ∧
      SD (Hierarchy.rekeyInData d a b) := by
  obtain ⟨a1, b1⟩ := rekeyInValue_enc hd.first ha hb
  obtain ⟨a2, b2⟩ := rekeyInValue_enc hd.last ha hb
  obtain ⟨a3, b3⟩ := rekeyInValue_enc hd.parent ha hb
  obtain ⟨a4, b4⟩ := rekeyInValue_enc hd.prev ha hb
  obtain ⟨a5, b5⟩ := rekeyInValue_enc hd.next ha hb
  refine ⟨?_, b1, b2, hd.count, b3, b4, b5⟩
  simp only [WH.rekeyInData, encData, a1, a2, a3, a4, a5, Hierarchy.rekeyInData]

theorem swapNodes_enc (s : SH h) {a b : Nat} (ha : a < 2 ^ 31) (hb : b < 2 ^ 31) :
    (encH h).swapNodes (encIx a) (encIx b) = (h.swapNodes a b).map encH ∧ ∀ h', h.swapNodes a b = some h' → SH h' := by
  unfold WH.swapNodes Hierarchy.swapNodes
  simp only [enc_inj ha hb]
  split
  · exact ⟨rfl, by intro h' e; cases e; exact s⟩
  · have sa := s.get a
    have sb := s.get b
    simp only [get_enc h ha, get_enc h hb, Option.bind_eq_bind, Option.bind_some]
    generalize h.get a = da at sa ⊢
    generalize h.get b = db at sb ⊢
    obtain ⟨e1, s1⟩ := rekeyInChildren_enc s sa hb
    rw [e1]
    cases hc1 : h.rekeyInChildren da b with
    | none => exact ⟨rfl, by intro h' e; cases e⟩
    | some h1 =>
      have s1 := s1 h1 hc1
      obtain ⟨e2, s2⟩ := rekeyInChildren_enc s1 sb ha
      simp only [Option.map_some, Option.bind_some, e2]
      cases hc2 : h1.rekeyInChildren db a with
      | none => exact ⟨rfl, by intro h' e; cases e⟩
      | some h2 =>
        have s2 := s2 h2 hc2
        obtain ⟨e3, s3⟩ := rekeyInParent_enc s2 sa hb
        obtain ⟨e4, s4⟩ := rekeyInParent_enc s3 sb ha
        obtain ⟨e5, s5⟩ := rekeyInSiblings_enc s4 sa hb
        obtain ⟨e6, s6⟩ := rekeyInSiblings_enc s5 sb ha
        obtain ⟨f1, f2⟩ := rekeyInData_enc sb ha hb
        obtain ⟨g1, g2⟩ := rekeyInData_enc sa hb ha
        obtain ⟨e7, s7⟩ := put_enc s6 ha f2
        obtain ⟨e8, s8⟩ := put_enc s7 hb g2
        simp only [Option.map_some, Option.bind_some, e3, e4, e5, e6, f1, g1, e7, e8]
        exact ⟨rfl, by intro h' e; cases e; exact s8⟩

theorem rekey_enc (s : SH h) {a b : Nat} (ha : a < 2 ^ 31) (hb : b < 2 ^ 31) :
    (encH h).rekey (encIx a) (encIx b) = (h.rekey a b).map encH ∧ ∀ h', h.rekey a b = some h' → SH h' := by
  unfold WH.rekey Hierarchy.rekey
  have hd : encData (h.get b) ≠ {} ↔ h.get b ≠ {} := by
    constructor
    · intro e1 e2; rw [e2] at e1; exact e1 rfl
    · intro e1 e2; exact e1 (encData_inj (s.get b) .default e2)
  simp only [get_enc h hb, Option.bind_eq_bind, Option.bind_some, hd, enc_inj ha hb]
  split
  · exact ⟨rfl, by intro h' e; cases e⟩
  · split
    · exact ⟨rfl, by intro h' e; cases e; exact s⟩
    · have sa := s.get a
      obtain ⟨e1, s1⟩ := modify_enc s ha (fun _ => {}) (fun _ => {}) (fun _ _ => rfl) (fun _ _ => .default)
      simp only [get_enc h ha, Option.bind_some, e1]
      generalize h.get a = da at sa ⊢
      generalize (h.modify a fun _ => {}) = h1 at s1 ⊢
      obtain ⟨e2, s2⟩ := rekeyInChildren_enc s1 sa hb
      rw [e2]
      cases hc2 : h1.rekeyInChildren da b with
      | none => exact ⟨rfl, by intro h' e; cases e⟩
      | some h2 =>
        have s2 := s2 h2 hc2
        obtain ⟨e3, s3⟩ := rekeyInParent_enc s2 sa hb
        obtain ⟨e4, s4⟩ := rekeyInSiblings_enc s3 sa hb
        obtain ⟨e5, s5⟩ := put_enc s4 hb sa
        simp only [Option.map_some, Option.bind_some, e3, e4, e5]
        exact ⟨rfl, by intro h' e; cases e; exact s5⟩

theorem removeAt_enc (s : SH h) {n : Nat} (hn : n < 2 ^ 31) :
    (encH h).removeAt n = (h.remove n).map encH ∧ ∀ h', h.remove n = some h' → SH h' := by
  unfold WH.removeAt
  rw [(new_eq hn).1]
  exact remove_enc s hn

theorem removeAll_enc (l : List Nat) : ∀ {h : Hierarchy} (_ : SH h) (_ : ∀ n ∈ l, n < 2 ^ 31),
    l.foldlM WH.removeAt (encH h) = (l.foldlM (fun h n => Hierarchy.remove h n) h).map encH ∧
      ∀ h', l.foldlM (fun h n => Hierarchy.remove h n) h = some h' → SH h' := by
  induction l with
  | nil => intro h s _; exact ⟨rfl, by intro h' e; cases e; exact s⟩
  | cons n l ih =>
    intro h s hl
    obtain ⟨e1, s1⟩ := removeAt_enc s (hl n (by simp))
    simp only [List.foldlM_cons, Option.bind_eq_bind, e1]
    cases hr : h.remove n with
    | none => exact ⟨rfl, by intro h' e; cases e⟩
    | some h1 =>
      simp only [Option.map_some, Option.bind_some]
      exact ih (s1 h1 hr) (fun m hm => hl m (by simp [hm]))

theorem shrinkTo_enc (s : SH h) {cap c : Nat} (hc : cap ≤ 2 ^ 31) :
    (encH h).shrinkTo cap c = (h.shrinkTo cap c).map encH ∧ ∀ h', h.shrinkTo cap c = some h' → SH h' := by
  unfold WH.shrinkTo Hierarchy.shrinkTo
  obtain ⟨e1, s1⟩ := removeAll_enc ((List.range cap).filter (c ≤ ·)).reverse s (by
    intro n hn
    simp only [List.mem_reverse, List.mem_filter, List.mem_range] at hn
    omega)
  simp only [Option.bind_eq_bind, e1]
  cases hf : ((List.range cap).filter (c ≤ ·)).reverse.foldlM (fun h n => Hierarchy.remove h n) h with
  | none => exact ⟨rfl, by intro h' e; cases e⟩
  | some h1 =>
    have s1 := s1 h1 hf
    refine ⟨?_, ?_⟩
    · simp [encH, Dense.shrinkTo, List.map_take, pure]
    · intro h' e
      cases e
      exact ⟨fun d hd => s1.data d (List.mem_of_mem_take hd), s1.default⟩

theorem ensureCapacity_enc (s : SH h) (cap c : Nat) :
    (encH h).ensureCapacity cap c = encH (h.ensureCapacity cap c) ∧ SH (h.ensureCapacity cap c) := by
  unfold WH.ensureCapacity Hierarchy.ensureCapacity Dense.ensureCapacity
  split
  · refine ⟨by simp [encH, Dense.resize, List.map_take], ?_, s.default⟩
    intro d hd
    simp only [Dense.resize, List.mem_append] at hd
    rcases hd with hd | hd
    · exact s.data d (List.mem_of_mem_take hd)
    · rw [List.eq_of_mem_replicate hd, s.default]
      exact .default
  · exact ⟨rfl, s⟩

theorem fin_enc (h : Hierarchy) (x : Option (Except AttachError Hierarchy)) :
    (x.map encExc).map (WH.step.fin (encH h)) = (x.map (Hierarchy.step.fin h)).map fun y => (encHRes y.1, encH y.2) := by
  cases x with
  | none => rfl
  | some e => cases e <;> rfl

theorem fin_small (s : SH h) {x : Option (Except AttachError Hierarchy)} (hx : ∀ h', x = some (.ok h') → SH h') {r h'}
    (e : x.map (Hierarchy.step.fin h) = some (r, h')) : SH h' := by
  cases x with
  | none => cases e
  | some y =>
    cases y with
    | ok h1 => cases e; exact hx _ rfl
    | error e' => cases e; exact s

theorem plain_small {x : Option Hierarchy} (hx : ∀ h', x = some h' → SH h') {r : Hier.Res} {h'}
    (e : x.map (fun y => ((.ok none : Hier.Res), y)) = some (r, h')) : SH h' := by
  cases x with
  | none => cases e
  | some y => cases e; exact hx _ rfl

theorem plain_enc (x : Option Hierarchy) : (x.map encH).map (fun y => ((.ok none : WRes), y)) =
    (x.map (fun y => ((.ok none : Hier.Res), y))).map fun y => (encHRes y.1, encH y.2) := by
  cases x <;> rfl

theorem step_enc (s : SH h) {op : Hier.Op} (ha : HArgs h op) :
    (encH h).step (encHOp op) = (h.step op).map (fun x => (encHRes x.1, encH x.2)) ∧
      ∀ r h', h.step op = some (r, h') → SH h' := by
  cases op with
  | pushChild n p =>
    obtain ⟨e, s1⟩ := pushChild_enc s ha.1 ha.2
    simp only [encHOp, WH.step, Hierarchy.step, e]
    exact ⟨fin_enc h _, fun r h' => fin_small s s1⟩
  | pushFrontChild n p =>
    obtain ⟨e, s1⟩ := pushFrontChild_enc s ha.1 ha.2
    simp only [encHOp, WH.step, Hierarchy.step, e]
    exact ⟨fin_enc h _, fun r h' => fin_small s s1⟩
  | insertBefore n b =>
    obtain ⟨e, s1⟩ := insertBefore_enc s ha.1 ha.2
    simp only [encHOp, WH.step, Hierarchy.step, e]
    exact ⟨fin_enc h _, fun r h' => fin_small s s1⟩
  | insertAfter n b =>
    obtain ⟨e, s1⟩ := insertAfter_enc s ha.1 ha.2
    simp only [encHOp, WH.step, Hierarchy.step, e]
    exact ⟨fin_enc h _, fun r h' => fin_small s s1⟩
  | detach n =>
    obtain ⟨e, s1⟩ := detach_enc s ha
    simp only [encHOp, WH.step, Hierarchy.step, e]
    cases hd : h.detach n with
    | none => exact ⟨rfl, by intro r h' e; cases e⟩
    | some x => exact ⟨rfl, by intro r h' e; cases e; exact s1 _ _ hd⟩
  | detachChildren n =>
    obtain ⟨e, s1⟩ := detachChildren_enc s ha
    simp only [encHOp, WH.step, Hierarchy.step, e]
    exact ⟨plain_enc _, fun r h' => plain_small s1⟩
  | remove n =>
    obtain ⟨e, s1⟩ := remove_enc s ha
    simp only [encHOp, WH.step, Hierarchy.step, e]
    exact ⟨plain_enc _, fun r h' => plain_small s1⟩
  | swapNodes a b =>
    obtain ⟨e, s1⟩ := swapNodes_enc s ha.1 ha.2
    simp only [encHOp, WH.step, Hierarchy.step, e]
    exact ⟨plain_enc _, fun r h' => plain_small s1⟩
  | rekey a b =>
    obtain ⟨e, s1⟩ := rekey_enc s ha.1 ha.2
    simp only [encHOp, WH.step, Hierarchy.step, e]
    exact ⟨plain_enc _, fun r h' => plain_small s1⟩
  | ensureCapacity x c =>
    obtain ⟨e, s1⟩ := ensureCapacity_enc s (h.data.data.length + x) c
    simp only [encHOp, WH.step, Hierarchy.step, len_enc, e]
    exact ⟨rfl, by intro r h' e; cases e; exact s1⟩
  | shrinkTo x c =>
    obtain ⟨e, s1⟩ := shrinkTo_enc s (c := c) ha
    simp only [encHOp, WH.step, Hierarchy.step, len_enc, e]
    exact ⟨plain_enc _, fun r h' => plain_small s1⟩

end Verif.Words
