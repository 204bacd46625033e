import Verif.Index.MaybeSpec
import Verif.Index.Props
import Mathlib.Tactic.ByContra

/-!
# Property C57: optional indices, flags and orders
-/

namespace Verif.Index

/-! ## Lemmas -/

/-- The bits of an index and a flag. -/
private def enc (w i : Nat) (f : Bool) : BitField w :=
  if f then BitVec.ofNat w i ||| msbMask w else BitVec.ofNat w i

variable {w : Nat}

private theorem enc_toNat (hw : 2 ≤ w) {i : Nat} (hi : i ≤ 2 ^ (w - 1) - 2) (f : Bool) :
    (enc w i f).toNat = i + if f then 2 ^ (w - 1) else 0 := by
  have ⟨h1, h2⟩ := half_lt w hw
  cases f
  · simp only [enc, Bool.false_eq_true, if_false, BitVec.toNat_ofNat, Nat.add_zero]
    exact Nat.mod_eq_of_lt (by omega)
  · simp only [enc, if_true]
    exact setFlag_toNat w (by omega) i (by omega)

private theorem enc_some (hw : 2 ≤ w) {i : Nat} (hi : i ≤ 2 ^ (w - 1) - 2) (f : Bool) :
    isNone (enc w i f) = false := by
  have ⟨h1, h2⟩ := half_lt w hw
  rw [isNone_false_iff, enc_toNat hw hi]
  cases f <;> simp <;> omega

private theorem enc_index (hw : 2 ≤ w) {i : Nat} (hi : i ≤ 2 ^ (w - 1) - 2) (f : Bool) :
    indexUnchecked (enc w i f) = i := by
  have ⟨h1, h2⟩ := half_lt w hw
  have h3 : i < 2 ^ (w - 1) := by omega
  rw [indexUnchecked_eq w (by omega), enc_toNat hw hi]
  cases f <;> simp [Nat.mod_eq_of_lt h3]

private theorem enc_holds (hw : 2 ≤ w) {i : Nat} (hi : i ≤ 2 ^ (w - 1) - 2) (f : Bool) :
    Holds (enc w i f) (some (i, f)) := by
  have ⟨h1, h2⟩ := half_lt w hw
  refine ⟨?_, ?_⟩
  · simp [bfIndex, enc_some hw hi, enc_index hw hi]
  · simp only [bitFlag, enc_some hw hi, Bool.false_eq_true, if_false, and_msb w (by omega : 0 < w), msb_eq,
      enc_toNat hw hi, Option.map_some]
    cases f
    · simp; omega
    · simp

private theorem enc_new (hw : 2 ≤ w) {i : Nat} (hi : i ≤ 2 ^ (w - 1) - 2) (f : Bool) :
    bfNew w i f = some (enc w i f) := by
  have ⟨h1, h2⟩ := half_lt w hw
  have hn : isNone (BitVec.ofNat w i) = false := by
    have := enc_some hw hi false
    simpa [enc] using this
  have hlt : i < 2 ^ w := by omega
  cases f <;> simp [bfNew, enc, hlt, setBitFlag, hn]

private theorem low_bit (hw : 2 ≤ w) {i : Nat} (hi : i ≤ 2 ^ (w - 1) - 2) :
    (BitVec.ofNat w i).getLsbD (w - 1) = false := by
  have ⟨h1, h2⟩ := half_lt w hw
  rw [← BitVec.msb_eq_getLsbD_last, msb_eq, BitVec.toNat_ofNat, Nat.mod_eq_of_lt (by omega)]
  simp; omega

private theorem bits (hw : 2 ≤ w) {i : Nat} (hi : i ≤ 2 ^ (w - 1) - 2) (f : Bool) :
    (enc w i f ||| msbMask w = enc w i true) ∧ (enc w i f &&& ~~~ msbMask w = enc w i false) ∧
    (enc w i f ^^^ msbMask w = enc w i !f) ∧
    (∀ j, BitVec.ofNat w j ||| (enc w i f &&& msbMask w) = enc w j f) := by
  have hb := low_bit hw hi
  have hm := msbMask_eq w (by omega)
  refine ⟨?_, ?_, ?_, ?_⟩
  · apply BitVec.eq_of_getLsbD_eq
    intro k hk
    cases f <;> simp [enc]
  · apply BitVec.eq_of_getLsbD_eq
    intro k hk
    by_cases hkw : w - 1 = k
    · subst hkw
      cases f <;> simp [enc, hm, hb, BitVec.getLsbD_twoPow]
    · have hkw' : ¬ k = w - 1 := fun h => hkw h.symm
      cases f <;> simp [enc, hm, hkw', hkw, hk, BitVec.getLsbD_twoPow]
  · apply BitVec.eq_of_getLsbD_eq
    intro k hk
    by_cases hkw : w - 1 = k
    · subst hkw
      cases f <;> simp [enc, hm, hb, BitVec.getLsbD_twoPow]
    · cases f <;> simp [enc, hm, hkw, BitVec.getLsbD_twoPow]
  · intro j
    apply BitVec.eq_of_getLsbD_eq
    intro k hk
    by_cases hkw : w - 1 = k
    · subst hkw
      cases f <;> simp [enc, hm, hb, BitVec.getLsbD_twoPow]
    · cases f <;> simp [enc, hm, hkw, BitVec.getLsbD_twoPow]

private theorem none_isNone : isNone (newNone w) = true := by simp [isNone]

/-- The bits of an optional index. -/
private def encOpt (w : Nat) : Option Nat → BitField w
  | none => newNone w
  | some i => enc w i false

private theorem call_refines (hw : 2 ≤ w) {o : Option Nat} (ho : ∀ i, o = some i → i ≤ 2 ^ (w - 1) - 2)
    {c : MCall} (hc : c.InRange w) :
    (maybeCall (encOpt w o) c).1 = (optCall o c).1 ∧ (maybeCall (encOpt w o) c).2 = encOpt w (optCall o c).2 ∧
      ∀ i, (optCall o c).2 = some i → i ≤ 2 ^ (w - 1) - 2 := by
  have key : ∀ j, j ≤ 2 ^ (w - 1) - 2 → indexNew w j = some (enc w j false) := fun j hj => enc_new hw hj false
  cases o with
  | none =>
    cases c with
    | replace j =>
      simp only [maybeCall, key j hc, encOpt, optCall, maybeReplace, maybeToOption, none_isNone, if_true,
        Option.map_none, true_and]
      intro i hi
      cases hi
      exact hc
    | write j =>
      simp [maybeCall, key j hc, encOpt, optCall, maybeAsMut, maybeIsNone, none_isNone]
    | _ =>
      simp [maybeCall, encOpt, optCall, maybeIsNone, maybeIsSome, maybeToOption, maybeExpect, maybeTake,
        maybeNew, maybeIntoIter, none_isNone]
  | some i =>
    have hi := ho i rfl
    have h1 := enc_some hw hi false
    have h2 := enc_index hw hi false
    cases c with
    | replace j =>
      simp only [maybeCall, key j hc, encOpt, optCall, maybeReplace, maybeToOption, h1, Bool.false_eq_true, if_false,
        Option.map_some, true_and, indexOf, h2]
      intro i hi
      cases hi
      exact hc
    | write j =>
      simp only [maybeCall, key j hc, encOpt, optCall, maybeAsMut, maybeIsNone, h1, Bool.false_eq_true, if_false,
        reduceCtorEq, true_and]
      intro i hi
      cases hi
      exact hc
    | take =>
      simp [maybeCall, encOpt, optCall, maybeToOption, maybeTake, maybeNew, h1, indexOf, h2]
    | _ =>
      simp [maybeCall, encOpt, optCall, maybeIsNone, maybeIsSome, maybeToOption, maybeExpect,
        maybeIntoIter, h1, indexOf, h2, hi]

private theorem run_refines (hw : 2 ≤ w) (cs : List MCall) : ∀ {o : Option Nat}
    (_ : ∀ i, o = some i → i ≤ 2 ^ (w - 1) - 2) (_ : ∀ c ∈ cs, c.InRange w),
    maybeRun (encOpt w o) cs = optRun o cs := by
  induction cs with
  | nil => intros; rfl
  | cons c cs ih =>
    intro o ho hcs
    obtain ⟨e1, e2, e3⟩ := call_refines hw ho (hcs c List.mem_cons_self)
    simp only [maybeRun, optRun, e1, e2]
    rw [ih e3 fun d hd => hcs d (List.mem_cons_of_mem _ hd)]

/-! ## Properties -/

/-- C57. An optional index packed into one field answers every sequence of calls as an `Option`
would: starting from an index, from `None` or from the default, for all indices that `try_from`
accepts. -/
theorem C57_maybe_history (w : Nat) (hw : 2 ≤ w) (cs : List MCall) (hcs : ∀ c ∈ cs, c.InRange w) :
    (∀ i b, bfTryFrom w i = some (.ok b) → maybeRun (maybeNew (some b)) cs = optRun (some i) cs) ∧
    maybeRun (maybeNew (none : Option (BitField w))) cs = optRun none cs ∧
    maybeRun (maybeDefault w) cs = optRun none cs := by
  refine ⟨fun i b hb => ?_, run_refines hw cs (o := none) (fun _ h => nomatch h) hcs,
    run_refines hw cs (o := none) (fun _ h => nomatch h) hcs⟩
  have hi : i ≤ 2 ^ (w - 1) - 2 := by
    by_contra hcon
    rw [(C01_try_from w hw i).2 (by omega)] at hb
    simp at hb
  obtain ⟨b', hb', hn, -⟩ := (C01_try_from w hw i).1 hi
  rw [hb'] at hb
  have hbb : b' = b := by simpa using hb
  subst hbb
  have : indexNew w i = some (enc w i false) := enc_new hw hi false
  rw [this] at hn
  obtain rfl := Option.some.inj hn
  exact run_refines hw cs (o := some i) (fun j hj => by cases hj; exact hi) hcs

/-- The calls of C57 on 32 bits: nothing stored, write fails, then replace, take and unwrap. -/
example : maybeRun (maybeDefault 32) [.write 3, .replace 7, .isSome, .write 9, .unwrap, .intoIter, .take, .unwrap, .toOption]
    = [.bool false, .opt none, .bool true, .bool true, .index 9, .list [9], .opt (some 9), .panic, .opt none] ∧
    ∀ c ∈ [MCall.write 3, .replace 7, .isSome, .write 9, .unwrap, .intoIter, .take, .unwrap, .toOption], c.InRange 32 := by
  refine ⟨by decide +kernel, ?_⟩
  simp [MCall.InRange]

/-- C57. Two packed optional indices are equal exactly if the options are. -/
theorem C57_maybe_eq (w : Nat) (hw : 2 ≤ w) (o p : Option Nat)
    (ho : ∀ i, o = some i → i ≤ 2 ^ (w - 1) - 2) (hp : ∀ i, p = some i → i ≤ 2 ^ (w - 1) - 2)
    (a b : BitField w) (ha : o.mapM (indexNew w) = some (maybeToOption a)) (hb : p.mapM (indexNew w) = some (maybeToOption b)) :
    a = b ↔ o = p := by
  have key : ∀ (o : Option Nat) (a : BitField w), (∀ i, o = some i → i ≤ 2 ^ (w - 1) - 2) →
      o.mapM (indexNew w) = some (maybeToOption a) → a = encOpt w o := by
    intro o a ho ha
    cases o with
    | none =>
      have h : (none : Option (BitField w)) = maybeToOption a := Option.some.inj ha
      unfold maybeToOption at h
      split at h
      · next hn =>
        show a = newNone w
        simpa [isNone] using hn
      · simp at h
    | some i =>
      have e : indexNew w i = some (enc w i false) := enc_new hw (ho i rfl) false
      have h : (indexNew w i).map some = some (maybeToOption a) := by
        simpa [Option.mapM_some] using ha
      rw [e] at h
      have h := Option.some.inj h
      unfold maybeToOption at h
      split at h
      · simp at h
      · exact (Option.some.inj h).symm
  rw [key o a ho ha, key p b hp hb]
  constructor
  · intro h
    cases o with
    | none =>
      cases p with
      | none => rfl
      | some j =>
        have := enc_some hw (hp j rfl) false
        have h : newNone w = enc w j false := h
        rw [← h, none_isNone] at this
        simp at this
    | some i =>
      cases p with
      | none =>
        have := enc_some hw (ho i rfl) false
        have h : enc w i false = newNone w := h
        rw [h, none_isNone] at this
        simp at this
      | some j =>
        have h : enc w i false = enc w j false := h
        have h1 := enc_index hw (ho i rfl) false
        rw [h, enc_index hw (hp j rfl) false] at h1
        rw [h1]
  · rintro rfl
    rfl

example : (some 5).mapM (indexNew 32) = some (maybeToOption (5#32)) := by decide +kernel

/-- C57. Indices are compared as the numbers they stand for, up to the maximum. -/
theorem C57_index_order (w : Nat) (hw : 2 ≤ w) (i j : Nat) (hi : i ≤ 2 ^ (w - 1) - 2) (hj : j ≤ 2 ^ (w - 1) - 2)
    (a b : BitField w) (ha : indexNew w i = some a) (hb : indexNew w j = some b) :
    bfCmp a b = compare i j := by
  have e1 : indexNew w i = some (enc w i false) := enc_new hw hi false
  have e2 : indexNew w j = some (enc w j false) := enc_new hw hj false
  rw [e1] at ha
  rw [e2] at hb
  obtain rfl := Option.some.inj ha
  obtain rfl := Option.some.inj hb
  simp [bfCmp, enc_toNat hw hi, enc_toNat hw hj]

example : bfCmp (5#32) (7#32) = compare 5 7 := C57_index_order 32 (by decide) 5 7 (by decide) (by decide) _ _ (by decide +kernel) (by decide +kernel)

/-- C57. Port offsets are compared by direction, incoming first, and then by number. -/
theorem C57_offset_order (w : Nat) (hw : 2 ≤ w) (d e : Direction) (i j : Nat) (hi : i ≤ 2 ^ (w - 1) - 2)
    (hj : j ≤ 2 ^ (w - 1) - 2) (a b : BitField w) (ha : offsetNew w d i = some a) (hb : offsetNew w e j = some b) :
    bfCmp a b = offsetOrder d e i j := by
  have ⟨h1, h2⟩ := half_lt w hw
  have e1 : offsetNew w d i = some (enc w i (d == .outgoing)) := enc_new hw hi _
  have e2 : offsetNew w e j = some (enc w j (e == .outgoing)) := enc_new hw hj _
  rw [e1] at ha
  rw [e2] at hb
  obtain rfl := Option.some.inj ha
  obtain rfl := Option.some.inj hb
  unfold bfCmp
  rw [enc_toNat hw hi, enc_toNat hw hj]
  cases d <;> cases e
  · simp [offsetOrder]
  · simp only [offsetOrder, beq_self_eq_true, if_true]
    rw [Nat.compare_eq_lt]
    simp
    omega
  · simp only [offsetOrder, beq_self_eq_true, if_true]
    rw [Nat.compare_eq_gt]
    simp
    omega
  · simp only [offsetOrder, beq_self_eq_true, if_true]
    rcases Nat.lt_trichotomy i j with h | h | h
    · rw [Nat.compare_eq_lt.mpr h, Nat.compare_eq_lt.mpr (by omega)]
    · subst h
      simp
    · rw [Nat.compare_eq_gt.mpr h, Nat.compare_eq_gt.mpr (by omega)]

example : bfCmp (BitVec.ofNat 16 5) (BitVec.ofNat 16 (2 ^ 15 + 2)) = .lt ∧ offsetNew 16 .incoming 5 = some (BitVec.ofNat 16 5) ∧
    offsetNew 16 .outgoing 2 = some (BitVec.ofNat 16 (2 ^ 15 + 2)) ∧ offsetOrder .incoming .outgoing 5 2 = .lt := by
  decide +kernel

private theorem field_step (hw : 2 ≤ w) {b : BitField w} {o : Option (Nat × Bool)}
    (hb : b = o.elim (newNone w) fun x => enc w x.1 x.2) (ho : ∀ x, o = some x → x.1 ≤ 2 ^ (w - 1) - 2)
    {c : FCall} (hc : c.InRange w) (hflip : c = .flip → o ≠ none) :
    fieldCall b c = (pairCall o c).map (fun o => o.elim (newNone w) fun x => enc w x.1 x.2) ∧
    ∀ o', pairCall o c = some o' → ∀ x, o' = some x → x.1 ≤ 2 ^ (w - 1) - 2 := by
  have ⟨h1, h2⟩ := half_lt w hw
  subst hb
  cases o with
  | none =>
    cases c with
    | setIndex i =>
      have hi : i ≤ 2 ^ (w - 1) - 2 := hc
      have hlt : i < 2 ^ w := by omega
      refine ⟨?_, ?_⟩
      · show setIndex (newNone w) i = _
        unfold setIndex
        rw [if_pos hlt, if_pos none_isNone]
        show _ = some (enc w i false)
        simp [enc]
      · intro o' h x hx
        obtain rfl := Option.some.inj h
        obtain rfl := Option.some.inj hx
        exact hi
    | setFlag => exact ⟨by simp [fieldCall, setBitFlag, pairCall, none_isNone], fun o' h => by simp [pairCall] at h⟩
    | unsetFlag => exact ⟨by simp [fieldCall, unsetBitFlag, pairCall, none_isNone], fun o' h => by simp [pairCall] at h⟩
    | flip => exact absurd rfl (hflip rfl)
  | some y =>
    obtain ⟨i, f⟩ := y
    have hi : i ≤ 2 ^ (w - 1) - 2 := ho (i, f) rfl
    have hs := enc_some hw hi f
    obtain ⟨b1, b2, b3, b4⟩ := bits hw hi f
    cases c with
    | setIndex j =>
      have hj : j ≤ 2 ^ (w - 1) - 2 := hc
      have hlt : j < 2 ^ w := by omega
      refine ⟨?_, ?_⟩
      · show setIndex (enc w i f) j = some (enc w j f)
        unfold setIndex
        rw [if_pos hlt, hs]
        simp only [Bool.false_eq_true, if_false]
        rw [b4]
      · intro o' h x hx
        obtain rfl := Option.some.inj h
        obtain rfl := Option.some.inj hx
        exact hj
    | setFlag =>
      refine ⟨?_, fun o' h x hx => ?_⟩
      · show setBitFlag (enc w i f) = some (enc w i true)
        simp [setBitFlag, hs, b1]
      · obtain rfl := Option.some.inj h
        obtain rfl := Option.some.inj hx
        exact hi
    | unsetFlag =>
      refine ⟨?_, fun o' h x hx => ?_⟩
      · show unsetBitFlag (enc w i f) = some (enc w i false)
        simp [unsetBitFlag, hs, b2]
      · obtain rfl := Option.some.inj h
        obtain rfl := Option.some.inj hx
        exact hi
    | flip =>
      refine ⟨?_, fun o' h x hx => ?_⟩
      · show some (flipBitFlag (enc w i f)) = some (enc w i !f)
        simp [flipBitFlag, b3]
      · obtain rfl := Option.some.inj h
        obtain rfl := Option.some.inj hx
        exact hi

private theorem field_run (hw : 2 ≤ w) (cs : List FCall) : ∀ {b : BitField w} {o : Option (Nat × Bool)}
    (_ : b = o.elim (newNone w) fun x => enc w x.1 x.2) (_ : ∀ x, o = some x → x.1 ≤ 2 ^ (w - 1) - 2)
    (_ : ∀ c ∈ cs, c.InRange w) (_ : o = none → cs.head? ≠ some .flip),
    match pairRun o cs with
    | none => fieldRun b cs = none
    | some o' => ∃ b', fieldRun b cs = some b' ∧ Holds b' o' := by
  induction cs with
  | nil =>
    intro b o hb ho _ _
    refine ⟨b, rfl, ?_⟩
    subst hb
    cases o with
    | none => exact ⟨by simp [bfIndex, none_isNone], by simp [bitFlag, none_isNone]⟩
    | some x => exact enc_holds hw (ho x rfl) x.2
  | cons c cs ih =>
    intro b o hb ho hcs hf
    obtain ⟨s1, s2⟩ := field_step hw hb ho (hcs c List.mem_cons_self) (fun h1 h2 => hf h2 (by rw [h1]; rfl))
    simp only [pairRun, fieldRun, s1]
    cases hp : pairCall o c with
    | none => simp
    | some o' =>
      simp only [Option.map_some, Option.bind_some]
      refine ih rfl (s2 o' hp) (fun d hd => hcs d (List.mem_cons_of_mem _ hd)) ?_
      intro h
      subst h
      exfalso
      cases c <;> cases o <;> simp [pairCall] at hp

/-- C57. The setters of a bit field act on an index and a flag independently, and panic exactly
when a flag is set or cleared without an index; for all sequences of setters with indices in
range that do not begin by flipping the flag of an unset field. -/
theorem C57_field_partial (w : Nat) (hw : 2 ≤ w) (cs : List FCall) (hcs : ∀ c ∈ cs, c.InRange w) :
    (∀ i f b, i ≤ 2 ^ (w - 1) - 2 → bfNew w i f = some b →
      match pairRun (some (i, f)) cs with
      | none => fieldRun b cs = none
      | some o => ∃ b', fieldRun b cs = some b' ∧ Holds b' o) ∧
    (cs.head? ≠ some .flip →
      match pairRun none cs with
      | none => fieldRun (newNone w) cs = none
      | some o => ∃ b', fieldRun (newNone w) cs = some b' ∧ Holds b' o) := by
  refine ⟨fun i f b hi hb => ?_, fun hf => field_run hw cs (o := none) rfl (fun _ h => nomatch h) hcs fun _ => hf⟩
  rw [enc_new hw hi f] at hb
  obtain rfl := Option.some.inj hb
  exact field_run hw cs (o := some (i, f)) rfl (fun x hx => by cases hx; exact hi) hcs (fun h => nomatch h)

example : pairRun none [.setIndex 5, .flip, .setIndex 9] = some (some (9, true)) ∧
    (fieldRun (newNone 16) [.setIndex 5, .flip, .setIndex 9]).bind bfIndex = some 9 ∧
    pairRun none [.setFlag] = none := by decide +kernel

/-- The condition is needed: flipping the flag of an unset field does not panic, unlike the other
setters of the flag, and gives a field with the index `2^(w-1) - 1`, above the maximum. -/
theorem C57_witness_flip_unset :
    ∃ b : BitField 16, fieldCall (newNone 16) .flip = some b ∧ bfIndex b = some 32767 ∧ bitFlag b = some false :=
  ⟨BitVec.ofNat 16 32767, by decide +kernel, by decide +kernel, by decide +kernel⟩

/-- The range is needed: an index made by `new` above the maximum may be the unset value and is
lost when it is stored (release build), and indices that read as the same number differ. -/
theorem C57_witness_out_of_range :
    (∃ b : BitField 32, indexNew 32 (2 ^ 32 - 1) = some b ∧ maybeToOption (maybeNew (some b)) = none) ∧
    ∃ a b : BitField 32, indexNew 32 (2 ^ 31) = some a ∧ indexNew 32 0 = some b ∧ indexOf a = indexOf b ∧ bfCmp a b = .gt :=
  ⟨⟨BitVec.ofNat 32 (2 ^ 32 - 1), by decide +kernel, by decide +kernel⟩,
    ⟨BitVec.ofNat 32 (2 ^ 31), BitVec.ofNat 32 0, by decide +kernel, by decide +kernel, by decide +kernel, by decide +kernel⟩⟩

/-- C57. Directions are the numbers 0 and 1; every other number is refused and reported. The
defaults are the first outgoing offset and the port 0. -/
theorem C57_direction (i : Nat) :
    (∀ d, directionTryFrom i = .ok d ↔ i = directionToNat d) ∧
    (2 ≤ i → directionTryFrom i = .error i) ∧
    (∀ d : Direction, d.reverse ≠ d ∧ d.reverse.reverse = d ∧
      directionToNat d.reverse + directionToNat d = 1) ∧
    (offsetDefault 16).bind offsetIndex = some 0 ∧ (offsetDefault 16).bind offsetDirection = some .outgoing ∧
    (indexDefault 32).map indexOf = some 0 := by
  refine ⟨?_, ?_, ?_, by decide +kernel, by decide +kernel, by decide +kernel⟩
  · intro d
    match i with
    | 0 => cases d <;> simp [directionTryFrom, directionToNat]
    | 1 => cases d <;> simp [directionTryFrom, directionToNat]
    | n + 2 => cases d <;> simp [directionTryFrom, directionToNat]
  · intro h
    match i, h with
    | n + 2, _ => rfl
  · intro d
    cases d <;> simp [Direction.reverse, directionToNat]

end Verif.Index

#print axioms Verif.Index.C57_maybe_history
#print axioms Verif.Index.C57_maybe_eq
#print axioms Verif.Index.C57_index_order
#print axioms Verif.Index.C57_offset_order
#print axioms Verif.Index.C57_field_partial
#print axioms Verif.Index.C57_witness_flip_unset
#print axioms Verif.Index.C57_witness_out_of_range
#print axioms Verif.Index.C57_direction
