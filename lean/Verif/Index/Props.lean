import Verif.Index.Lemmas

/-!
# Properties C01, C02, C03: indices and offsets

The specification is plain arithmetic: an index is a natural number, an offset a pair
of a direction and a natural number.
-/

namespace Verif.Index

/-- C01. `try_from` accepts exactly the indices up to `2^(w-1) - 2`; the result reads
back as the same number through `index()` and `usize::from`, and survives the packed
optional representation. -/
theorem C01_try_from (w : Nat) (hw : 2 ≤ w) (i : Nat) :
    (i ≤ 2 ^ (w - 1) - 2 →
      ∃ b, bfTryFrom w i = some (.ok b) ∧ indexNew w i = some b ∧ indexOf b = i ∧
        usizeFrom b = some i ∧ maybeToOption (maybeNew (some b)) = some b) ∧
    (2 ^ (w - 1) - 2 < i → bfTryFrom w i = some (.error i)) := by
  have ⟨h1, h2⟩ := half_lt w hw
  constructor
  · intro hi
    have hlt : i < 2 ^ w := by omega
    have hn : isNone (BitVec.ofNat w i) = false := by
      rw [isNone_false_iff, BitVec.toNat_ofNat, Nat.mod_eq_of_lt hlt]; omega
    have hidx : indexUnchecked (BitVec.ofNat w i) = i := by
      rw [indexUnchecked_eq w (by omega), BitVec.toNat_ofNat, Nat.mod_eq_of_lt hlt,
        Nat.mod_eq_of_lt (by omega)]
    refine ⟨BitVec.ofNat w i, ?_, ?_, hidx, ?_, ?_⟩
    · simp [bfTryFrom, bfNew, maxIndex_eq w hw, hlt, Nat.not_lt.mpr hi]
    · simp [indexNew, bfNew, hlt]
    · simp [usizeFrom, bfIndex, hn, hidx]
    · simp [maybeToOption, maybeNew, hn]
  · intro hi
    simp [bfTryFrom, maxIndex_eq w hw, hi]

/-- C01 has content at width 32: the largest admissible index. -/
example : ∃ b : BitField 32, bfTryFrom 32 2147483646 = some (.ok b) ∧ indexOf b = 2147483646 :=
  ⟨_, ((C01_try_from 32 (by decide) 2147483646).1 (by decide)).choose_spec.1,
    ((C01_try_from 32 (by decide) 2147483646).1 (by decide)).choose_spec.2.2.1⟩

/-- C01. The packed `None` reads back as `None`, and two admissible indices are
represented by the same bits only if they are equal. -/
theorem C01_maybe_none_and_injective (w : Nat) (hw : 2 ≤ w) :
    maybeToOption (maybeNew (none : Option (BitField w))) = none ∧
    ∀ i j, i ≤ 2 ^ (w - 1) - 2 → j ≤ 2 ^ (w - 1) - 2 →
      bfTryFrom w i = bfTryFrom w j → i = j := by
  refine ⟨by simp [maybeToOption, maybeNew, isNone], ?_⟩
  intro i j hi hj h
  obtain ⟨b, hb, _, hbi, _⟩ := (C01_try_from w hw i).1 hi
  obtain ⟨c, hc, _, hcj, _⟩ := (C01_try_from w hw j).1 hj
  rw [hb, hc] at h
  simp only [Option.some.injEq, Except.ok.injEq] at h
  subst h; omega

example := C01_maybe_none_and_injective 16 (by decide)

/-- C02 fails: `NodeIndex::new(2^31)` (default width 32) does not panic and yields
index 0. -/
theorem C02_index_new_false :
    ∃ b : BitField 32, indexNew 32 (2 ^ 31) = some b ∧ indexOf b = 0 :=
  ⟨BitVec.ofNat 32 (2 ^ 31), by decide, by decide⟩

/-- C02 fails for offsets: `PortOffset::<u16>::new_incoming(32768)` is read as an
outgoing offset 0. -/
theorem C02_offset_new_false :
    ∃ b : BitField 16, offsetNew 16 .incoming 32768 = some b ∧
      offsetDirection b = some .outgoing ∧ offsetIndex b = some 0 :=
  ⟨BitVec.ofNat 16 32768, by decide, by decide, by decide⟩

/-- C02 fails for offsets: `PortOffset::<u16>::new_outgoing(32767)` returns a value on
which `index()` and `direction()` panic. -/
theorem C02_offset_new_unreadable :
    ∃ b : BitField 16, offsetNew 16 .outgoing 32767 = some b ∧
      offsetDirection b = none ∧ offsetIndex b = none :=
  ⟨BitVec.ofNat 16 65535, by decide, by decide, by decide⟩

/-- C02, what does hold: `NodeIndex::new(i)` panics exactly from `2^w` on, and otherwise
its index is `i` modulo `2^(w-1)`; so it is right exactly below `2^(w-1)`.
Missing for the full claim: a panic for `2^(w-1) ≤ i < 2^w`. -/
theorem C02_index_new_partial (w : Nat) (hw : 2 ≤ w) (i : Nat) :
    (indexNew w i = none ↔ 2 ^ w ≤ i) ∧
    (∀ b, indexNew w i = some b → indexOf b = i % 2 ^ (w - 1)) ∧
    (∀ b, indexNew w i = some b → (indexOf b = i ↔ i < 2 ^ (w - 1))) := by
  have ⟨h1, h2⟩ := half_lt w hw
  have key : ∀ b, indexNew w i = some b → indexOf b = i % 2 ^ (w - 1) := by
    intro b hb
    simp only [indexNew, bfNew] at hb
    split at hb
    · simp only [Bool.false_eq_true, if_false, Option.some.injEq] at hb
      subst hb
      rw [indexOf, indexUnchecked_eq w (by omega), BitVec.toNat_ofNat, h1]
      exact Nat.mod_mul_left_mod i 2 _
    · simp at hb
  refine ⟨?_, key, ?_⟩
  · simp only [indexNew, bfNew]
    split <;> simp <;> omega
  · intro b hb
    rw [key b hb]
    constructor
    · intro h
      have := Nat.mod_lt i (show 0 < 2 ^ (w - 1) by omega)
      omega
    · intro h; exact Nat.mod_eq_of_lt h

example := (C02_index_new_partial 16 (by decide) 40000).2.2

/-- C03. Offsets up to the maximum are faithful pairs. -/
theorem C03_offset_roundtrip (w : Nat) (hw : 2 ≤ w) (d : Direction) (i : Nat)
    (hi : i ≤ maxIndex w) :
    ∃ b, offsetNew w d i = some b ∧ offsetDirection b = some d ∧ offsetIndex b = some i := by
  rw [maxIndex_eq w hw] at hi
  have ⟨h1, h2⟩ := half_lt w hw
  have hlt : i < 2 ^ w := by omega
  have hn : isNone (BitVec.ofNat w i) = false := by
    rw [isNone_false_iff, BitVec.toNat_ofNat, Nat.mod_eq_of_lt hlt]; omega
  cases d with
  | incoming =>
    refine ⟨BitVec.ofNat w i, by simp [offsetNew, bfNew, hlt], ?_, ?_⟩
    · have hm : ¬ 2 ^ (w - 1) ≤ i := by omega
      simp [offsetDirection, bitFlag, hn, and_msb w (by omega), msb_eq, Nat.mod_eq_of_lt hlt, hm]
    · simp [offsetIndex, bfIndex, hn, indexUnchecked_eq w (by omega : 0 < w),
        Nat.mod_eq_of_lt hlt, Nat.mod_eq_of_lt (show i < 2 ^ (w - 1) by omega)]
  | outgoing =>
    have ht := setFlag_toNat w (by omega) i (by omega)
    have hn2 : isNone (BitVec.ofNat w i ||| msbMask w) = false := by
      rw [isNone_false_iff, ht]; omega
    refine ⟨BitVec.ofNat w i ||| msbMask w, ?_, ?_, ?_⟩
    · simp [offsetNew, bfNew, hlt, setBitFlag, hn]
    · simp only [offsetDirection, bitFlag, hn2, and_msb w (by omega : 0 < w), msb_eq, ht]
      simp
    · simp only [offsetIndex, bfIndex, hn2, indexUnchecked_eq w (by omega : 0 < w), ht]
      simp [Nat.mod_eq_of_lt (show i < 2 ^ (w - 1) by omega)]

/-- The bound in C03 is the documented one: for the default `u16` offsets it is 32766. -/
example : maxIndex 16 = 32766 := by decide

/-- C03. Two offsets are equal exactly when direction and index agree. -/
theorem C03_offset_injective (w : Nat) (hw : 2 ≤ w) (d e : Direction) (i j : Nat)
    (hi : i ≤ maxIndex w) (hj : j ≤ maxIndex w) :
    offsetNew w d i = offsetNew w e j ↔ d = e ∧ i = j := by
  constructor
  · intro h
    obtain ⟨b, hb, hbd, hbi⟩ := C03_offset_roundtrip w hw d i hi
    obtain ⟨c, hc, hcd, hci⟩ := C03_offset_roundtrip w hw e j hj
    rw [hb, hc] at h
    simp only [Option.some.injEq] at h
    subst h
    rw [hbd] at hcd; rw [hbi] at hci
    exact ⟨Option.some.inj hcd, Option.some.inj hci⟩
  · rintro ⟨rfl, rfl⟩; rfl

example := (C03_offset_injective 16 (by decide) .incoming .outgoing 5 5 (by decide) (by decide)).1

/-- C03. `opposite` keeps the index and reverses the direction. -/
theorem C03_offset_opposite (w : Nat) (hw : 2 ≤ w) (d : Direction) (i : Nat)
    (hi : i ≤ maxIndex w) (b : BitField w) (hb : offsetNew w d i = some b) :
    offsetDirection (offsetOpposite b) = some d.reverse ∧
      offsetIndex (offsetOpposite b) = some i := by
  have ⟨h1, h2⟩ := half_lt w hw
  have hwp : 0 < w := by omega
  have hlt : i < 2 ^ w := by rw [maxIndex_eq w hw] at hi; omega
  -- opposite of one direction is the other one
  have hflip : offsetNew w d.reverse i = some (offsetOpposite b) := by
    have hn : isNone (BitVec.ofNat w i) = false := by
      rw [isNone_false_iff, BitVec.toNat_ofNat, Nat.mod_eq_of_lt hlt]
      rw [maxIndex_eq w hw] at hi; omega
    have hor : BitVec.ofNat w i ||| msbMask w = BitVec.ofNat w i ^^^ msbMask w := by
      rw [msbMask_eq w hwp]
      apply BitVec.eq_of_getLsbD_eq
      intro k hk
      simp only [BitVec.getLsbD_or, BitVec.getLsbD_xor, BitVec.getLsbD_twoPow]
      by_cases hkw : k = w - 1
      · subst hkw
        have : (BitVec.ofNat w i).getLsbD (w - 1) = false := by
          rw [← BitVec.msb_eq_getLsbD_last, msb_eq, BitVec.toNat_ofNat, Nat.mod_eq_of_lt hlt]
          rw [maxIndex_eq w hw] at hi
          simp; omega
        simp [this]
      · have : ¬ (w - 1 = k) := fun h => hkw h.symm
        simp [this]
    cases d with
    | incoming =>
      simp only [offsetNew, bfNew, hlt] at hb
      simp at hb
      subst hb
      simp [offsetNew, Direction.reverse, bfNew, hlt, setBitFlag, hn, offsetOpposite,
        flipBitFlag, hor]
    | outgoing =>
      simp only [offsetNew, bfNew, hlt] at hb
      simp [setBitFlag, hn] at hb
      subst hb
      simp only [offsetNew, Direction.reverse, bfNew, hlt, offsetOpposite, flipBitFlag, hor]
      simp [BitVec.xor_assoc]
  obtain ⟨c, hc, hcd, hci⟩ := C03_offset_roundtrip w hw d.reverse i hi
  rw [hflip] at hc
  simp only [Option.some.injEq] at hc
  subst hc
  exact ⟨hcd, hci⟩

example := C03_offset_opposite 16 (by decide) .incoming 5 (by decide) 5#16 (by decide)

/-- The packed port metadata used by the port graph stores node and direction
faithfully for all node indices up to the maximum (used in C04 and C07 as the
justification for modelling it as a pair). -/
theorem C07_port_meta_roundtrip (node : Nat) (d : Direction) (hn : node ≤ 2 ^ 31 - 2) :
    portMetaNode (portMetaNew node d) = some node ∧ portMetaDirection (portMetaNew node d) = d := by
  have hmask : ∀ m : BitVec 32, (m &&& ~~~(1#32 <<< (31 : Nat))).toNat = m.toNat % 2 ^ 31 := by
    intro m
    have h := indexUnchecked_eq 32 (by decide) m
    have e : msbMask 32 = 1#32 <<< (31 : Nat) := by decide
    rw [indexUnchecked, e] at h
    exact h
  have hadd : (BitVec.ofNat 32 node + 1#32) = BitVec.ofNat 32 (node + 1) := by
    apply BitVec.eq_of_toNat_eq; simp [BitVec.toNat_add]
  cases d with
  | incoming =>
    have e : portMetaNew node .incoming = BitVec.ofNat 32 (node + 1) := by
      rw [portMetaNew, hadd, dirBit]; simp
    have ht : (BitVec.ofNat 32 (node + 1)).toNat = node + 1 := by
      rw [BitVec.toNat_ofNat]; omega
    refine ⟨?_, ?_⟩
    · rw [portMetaNode, hmask, e, ht]
      have : (node + 1) % 2 ^ 31 = node + 1 := by omega
      simp [this]
    · rw [portMetaDirection, if_pos]
      apply BitVec.eq_of_toNat_eq
      rw [e, BitVec.toNat_ushiftRight, ht, Nat.shiftRight_eq_div_pow]
      simp; omega
  | outgoing =>
    have e : portMetaNew node .outgoing = BitVec.ofNat 32 (node + 1) ||| msbMask 32 := by
      rw [portMetaNew, hadd, dirBit]; rfl
    have ht := setFlag_toNat 32 (by decide) (node + 1) (by omega)
    refine ⟨?_, ?_⟩
    · rw [portMetaNode, hmask, e, ht]
      have : (node + 1 + 2 ^ (32 - 1)) % 2 ^ 31 = node + 1 := by omega
      simp [this]
    · rw [portMetaDirection, if_neg]
      intro h
      have h := congrArg BitVec.toNat h
      rw [e, BitVec.toNat_ushiftRight, ht, Nat.shiftRight_eq_div_pow] at h
      simp at h

example : portMetaNode (portMetaNew 7 .outgoing) = some 7 := by decide

/-! Axioms used (all are Lean's own). -/
#print axioms C01_try_from
#print axioms C01_maybe_none_and_injective
#print axioms C02_index_new_false
#print axioms C02_offset_new_false
#print axioms C02_offset_new_unreadable
#print axioms C02_index_new_partial
#print axioms C03_offset_roundtrip
#print axioms C03_offset_injective
#print axioms C03_offset_opposite
#print axioms C07_port_meta_roundtrip

end Verif.Index
