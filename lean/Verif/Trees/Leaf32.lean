/- The leaf table of a tree regressor: four bytes per leaf, written by numpy and read by the C code through a `float` pointer. -/
import Verif.Float.Bits
namespace Emlearn.Trees
open Emlearn.Flt Emlearn.Flt.Binary32

/-- `leaves_to_bytelist` for `leaf_bits == 32` (`trees.py` 334-341): each leaf value is rounded to `float32`, and the table is the bytes of these numbers in the order of the host, taken to be little-endian.
Simplification: leaf values are finite and not negative zero. -/
noncomputable def leafBytes32 (leaves : List ℚ) : List Nat := leaves.flatMap fun v : ℚ => le4 (toBits (rnd (v : ℝ)))

/-- `const float *leaf_data = (float *)(forest->leaves + leaf_offset); *leaf_data` (`eml_trees.h` 275-278) on a little-endian processor with IEEE `float`, where the table of bytes starts at the address `base`: the
conversion to a pointer to `float` is only defined when the address is a multiple of 4 (C11 6.3.2.3), and the four bytes must be inside the table. Infinities and NaN are not represented. -/
noncomputable def loadLeaf (base : Nat) (bytes : List Nat) (i : Nat) : Option F32 :=
  if (base + 4 * i) % 4 ≠ 0 then none
  else ((ofLe4 ((bytes.drop (4 * i)).take 4)).bind ofBits).map rnd

/-- The same load on a big-endian processor. -/
noncomputable def loadLeafBE (base : Nat) (bytes : List Nat) (i : Nat) : Option F32 :=
  if (base + 4 * i) % 4 ≠ 0 then none
  else ((ofLe4 ((bytes.drop (4 * i)).take 4).reverse).bind ofBits).map rnd

theorem leafBytes32_length (leaves : List ℚ) : (leafBytes32 leaves).length = 4 * leaves.length := by
  unfold leafBytes32
  induction leaves with
  | nil => rfl
  | cons v l ih => rw [List.flatMap_cons, List.length_append, ih, le4_length, List.length_cons]; omega

theorem leafBytes32_byte (leaves : List ℚ) : ∀ b ∈ leafBytes32 leaves, b < 256 := by
  intro b hb
  obtain ⟨v, -, h⟩ := List.mem_flatMap.1 hb
  exact le4_byte _ b h

/-- The four bytes of leaf `i`. -/
theorem leafBytes32_slice (leaves : List ℚ) (i : Nat) (v : ℚ) (h : leaves[i]? = some v) : ((leafBytes32 leaves).drop (4 * i)).take 4 = le4 (toBits (rnd v)) := by
  induction leaves generalizing i with
  | nil => simp at h
  | cons w l ih =>
    unfold leafBytes32 at ih ⊢
    rw [List.flatMap_cons]
    cases i with
    | zero =>
      simp only [List.getElem?_cons_zero, Option.some.injEq] at h
      subst h
      rw [Nat.mul_zero, List.drop_zero, List.take_append_of_le_length (by rw [le4_length]), List.take_of_length_le (by rw [le4_length])]
    | succ i =>
      rw [List.getElem?_cons_succ] at h
      rw [show 4 * (i + 1) = (le4 (toBits (rnd w))).length + 4 * i by rw [le4_length]; omega, ← List.drop_drop, List.drop_left, ih i h]

end Emlearn.Trees
