import Verif.Serde.Props
import Verif.Index.Props

/-!
# C56: what a port offset is read as
-/

namespace Verif.Serde

open Verif (Direction)
open Verif.Index

theorem readOffset_eq (w : Nat) (named : Bool) {i : Nat} (hi : i < 2 ^ 64) (d : Direction) :
    readOffset w (writeStruct named [("index", .num i), ("direction", writeDirection d)]) =
      match offsetNew w d i with
      | none => .panic
      | some b => .ok b := by
  have hs := readStruct_write named [("index", .num i), ("direction", writeDirection d)] (by simp)
  simp only [List.map_cons, List.map_nil] at hs
  have hd : readDirection (writeDirection d) = .ok d := by cases d <;> rfl
  rw [readOffset, hs]
  simp only [bind_ok]
  have l1 : List.lookup "index" [("index", Data.num i), ("direction", writeDirection d)] = some (Data.num i) := by simp [List.lookup]
  have l2 : List.lookup "direction" [("index", Data.num i), ("direction", writeDirection d)] = some (writeDirection d) := by
    simp [List.lookup]
  rw [l1, l2, required_some, required_some, readUnsigned_num hi, bind_ok, hd, bind_ok]
  cases offsetNew w d i <;> rfl

/-- Data with an index and a direction is read as the offset with this index and direction if the
index is at most the maximum; the reader panics if the index does not fit into the word, and returns
an error only if it does not fit into 64 bits. What is missing: for the indices between these bounds
see `C56_witness_offset_out_of_range`. -/
theorem C56_offset_partial (w : Nat) (hw : 2 ≤ w) (hw64 : w ≤ 64) (named : Bool) (i : Nat) (d : Direction) :
    (i ≤ maxIndex w → ∃ b, readOffset w (writeStruct named [("index", .num i), ("direction", writeDirection d)]) = .ok b ∧
      offsetIndex b = some i ∧ offsetDirection b = some d) ∧
    (2 ^ w ≤ i → i < 2 ^ 64 →
      readOffset w (writeStruct named [("index", .num i), ("direction", writeDirection d)]) = .panic) ∧
    (2 ^ 64 ≤ i → readOffset w (writeStruct named [("index", .num i), ("direction", writeDirection d)]) = .error) := by
  have ⟨h1, h2⟩ := half_lt w hw
  have hpow : 2 ^ w ≤ 2 ^ 64 := Nat.pow_le_pow_right (by decide) hw64
  refine ⟨fun hi => ?_, fun hi hi' => ?_, fun hi => ?_⟩
  · obtain ⟨b, e1, e2, e3⟩ := C03_offset_roundtrip w hw d i hi
    rw [maxIndex_eq w hw] at hi
    refine ⟨b, ?_, e3, e2⟩
    rw [readOffset_eq w named (by omega), e1]
  · have : offsetNew w d i = none := by simp [offsetNew, bfNew, show ¬ i < 2 ^ w by omega]
    rw [readOffset_eq w named hi', this]
  · have hs := readStruct_write named [("index", .num i), ("direction", writeDirection d)] (by simp)
    simp only [List.map_cons, List.map_nil] at hs
    rw [readOffset, hs]
    simp only [bind_ok]
    have l1 : List.lookup "index" [("index", Data.num i), ("direction", writeDirection d)] = some (Data.num i) := by simp [List.lookup]
    rw [l1, required_some]
    simp only [readUnsigned, show ¬ i < 2 ^ 64 by omega, if_false, bind_error]

/-- Between the maximum and the end of the word the data is read as an offset with another index or
direction, or as the unset value. -/
theorem C56_witness_offset_between : ∀ d : Direction, ∀ b,
    readOffset 16 (.obj [("index", .num 40000), ("direction", writeDirection d)]) = .ok b →
    offsetIndex b = some 7232 ∧ offsetDirection b = some .outgoing := by
  intro d b h
  have e : readOffset 16 (.obj [("index", .num 40000), ("direction", writeDirection d)]) = .ok (40000#16) := by
    cases d <;> decide +kernel
  rw [e] at h
  cases h
  decide +kernel

example : ∃ b, readOffset 16 (writeStruct true [("index", .num 7), ("direction", writeDirection .outgoing)]) = .ok b ∧
    offsetIndex b = some 7 ∧ offsetDirection b = some .outgoing :=
  (C56_offset_partial 16 (by decide) (by decide) true 7 .outgoing).1 (by decide)
example : readOffset 16 (writeStruct false [("index", .num 65536), ("direction", writeDirection .incoming)]) = .panic :=
  (C56_offset_partial 16 (by decide) (by decide) false 65536 .incoming).2.1 (by decide) (by decide)

#print axioms C56_offset_partial
#print axioms C56_witness_offset_between

end Verif.Serde
