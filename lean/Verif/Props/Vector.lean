/- C60: vector helpers (`eml_vector.h`). -/
import Verif.Vector.Model
import Mathlib.Data.Rat.Defs
import Mathlib.Algebra.Order.Ring.Rat
import Mathlib.Algebra.Field.Rat
namespace Emlearn.Vector
variable {F : Type}

/-- A vector lies inside the memory. -/
def Inside (mem : List F) (v : Vec) : Prop := 0 ≤ v.data ∧ 0 ≤ v.length ∧ v.data + v.length ≤ mem.length

theorem load_some (mem : List F) (a : Int) (h0 : 0 ≤ a) (h1 : a < mem.length) : ∃ (v : F), load mem a = some v ∧ mem[a.toNat]? = some v := by
  unfold load
  rw [if_pos h0]
  exact ⟨mem[a.toNat]'(by omega), List.getElem?_eq_getElem _, List.getElem?_eq_getElem _⟩

theorem store_some (mem : List F) (a : Int) (v : F) (h0 : 0 ≤ a) (h1 : a < mem.length) : store mem a v = some (mem.set a.toNat v) := by
  unfold store
  rw [if_pos ⟨h0, by omega⟩]

/-- The copy loop, when the destination range starts at or before the source range, or after its end: reads are never from cells already written. -/
theorem setLoop_spec (dest source : Vec) (location : Int) (n k : Nat) (i : Int) (hi : i = location + (n - k)) (hk : k ≤ n) (mem0 mem : List F)
    (hlen : mem.length = mem0.length)
    (hs : 0 ≤ source.data ∧ source.data + n ≤ mem0.length) (hd : 0 ≤ dest.data + location ∧ dest.data + location + n ≤ mem0.length)
    (hov : dest.data + location ≤ source.data ∨ source.data + n ≤ dest.data + location)
    (hinv : ∀ (p : Nat), mem[p]? = if dest.data + location ≤ p ∧ (p : Int) < dest.data + i then mem0[((source.data + (p - (dest.data + location))).toNat)]? else mem0[p]?) :
    ∃ (m : List F), setLoop dest source location k i mem = some m ∧ m.length = mem0.length ∧
      ∀ (p : Nat), m[p]? = if dest.data + location ≤ p ∧ (p : Int) < dest.data + location + n then mem0[((source.data + (p - (dest.data + location))).toNat)]? else mem0[p]? := by
  induction k generalizing i mem with
  | zero =>
    refine ⟨mem, rfl, hlen, fun p => ?_⟩
    rw [hinv p]
    have : dest.data + i = dest.data + location + n := by omega
    rw [this]
  | succ k ih =>
    obtain ⟨v, hv1, hv2⟩ := load_some mem (source.data + (i - location)) (by omega) (by omega)
    simp only [setLoop, hv1, Option.bind_some]
    rw [store_some mem (dest.data + i) v (by omega) (by omega)]
    simp only [Option.bind_some]
    refine ih (i + 1) (by omega) (by omega) _ (by simpa using hlen) (fun p => ?_)
    -- the value read is the original one
    have hv3 : mem0[((source.data + (i - location)).toNat)]? = some v := by
      rw [← hv2, hinv]
      rw [if_neg (by omega)]
    rw [List.getElem?_set]
    by_cases hp : (dest.data + i).toNat = p
    · rw [if_pos hp, if_pos (by omega), if_pos (by omega), ← hv3]
      congr 2
      omega
    · rw [if_neg hp, hinv p]
      by_cases hc : dest.data + location ≤ p ∧ (p : Int) < dest.data + i
      · rw [if_pos hc, if_pos (by omega)]
      · rw [if_neg hc, if_neg (by omega)]

/-- **C60.** `eml_vector_set` on vectors inside memory whose copied ranges do not overlap the wrong way: a placement not inside `dest` is refused (-1 past the end, -2 negative)
with all of memory unchanged; otherwise it returns 0, the cells `dest[location .. location + source.length)` hold the source values, and every other cell is unchanged. -/
theorem C60_vector_set (mem : List F) (dest source : Vec) (location : Int) (hd : Inside mem dest) (hs : Inside mem source) :
    (dest.length < source.length + location → set mem dest source location = some (mem, -1)) ∧
    (source.length + location ≤ dest.length → location < 0 → set mem dest source location = some (mem, -2)) ∧
    (source.length + location ≤ dest.length → 0 ≤ location →
      (dest.data + location ≤ source.data ∨ source.data + source.length ≤ dest.data + location) →
      ∃ (m : List F), set mem dest source location = some (m, 0) ∧ m.length = mem.length ∧
        (∀ (j : Int), 0 ≤ j → j < source.length → load m (dest.data + location + j) = load mem (source.data + j)) ∧
        (∀ (a : Int), ¬ (dest.data + location ≤ a ∧ a < dest.data + location + source.length) → load m a = load mem a)) := by
  obtain ⟨d1, d2, d3⟩ := hd
  obtain ⟨s1, s2, s3⟩ := hs
  refine ⟨fun h => ?_, fun h h2 => ?_, fun h h2 hov => ?_⟩
  · unfold set; simp only []; rw [if_pos h]
  · unfold set; simp only []; rw [if_neg (by omega), if_pos h2]
  · have hn : ((source.length.toNat : Nat) : Int) = source.length := Int.toNat_of_nonneg s2
    obtain ⟨m, hm, hl, hp⟩ := setLoop_spec dest source location source.length.toNat source.length.toNat location (by omega) le_rfl mem mem rfl
      ⟨s1, by omega⟩ ⟨by omega, by omega⟩ (by rw [hn]; exact hov) (fun p => by rw [if_neg (by omega)])
    refine ⟨m, ?_, hl, fun j hj1 hj2 => ?_, fun a ha => ?_⟩
    · unfold set
      simp only []
      rw [if_neg (by omega), if_neg (by omega), show (source.length + location - location).toNat = source.length.toNat by congr 1; omega, hm]
      rfl
    · unfold load
      rw [if_pos (by omega), if_pos (by omega), hp, if_pos (by omega)]
      congr 1
      omega
    · unfold load
      split
      · rw [hp, if_neg (by omega)]
      · rfl

/-- **C60.** `eml_vector_set_value` sets exactly the vector's cells. -/
theorem C60_set_value (mem : List F) (a : Vec) (val : F) (ha : Inside mem a) :
    ∃ (m : List F), setValue mem a val = some m ∧ m.length = mem.length ∧ ∀ (p : Int), load m p = if a.data ≤ p ∧ p < a.data + a.length then some val else load mem p := by
  obtain ⟨a1, a2, a3⟩ := ha
  have key : ∀ (k : Nat) (i : Int) (m : List F), m.length = mem.length → 0 ≤ i → i + k = a.length →
      (∀ p : Int, load m p = if a.data ≤ p ∧ p < a.data + i then some val else load mem p) →
      ∃ (m' : List F), setValueLoop a val k i m = some m' ∧ m'.length = mem.length ∧ ∀ p : Int, load m' p = if a.data ≤ p ∧ p < a.data + a.length then some val else load mem p := by
    intro k
    induction k with
    | zero =>
      intro i m hl hi he hinv
      refine ⟨m, rfl, hl, fun p => ?_⟩
      rw [hinv, show i = a.length by omega]
    | succ k ih =>
      intro i m hl hi he hinv
      simp only [setValueLoop]
      rw [store_some m _ _ (by omega) (by omega)]
      simp only [Option.bind_some]
      refine ih (i + 1) _ (by simpa using hl) (by omega) (by omega) (fun p => ?_)
      have hv := hinv p
      unfold load at hv ⊢
      by_cases hp0 : 0 ≤ p
      · rw [if_pos hp0] at hv ⊢
        rw [List.getElem?_set]
        by_cases he' : p = a.data + i
        · rw [if_pos (by omega), if_pos (by omega), if_pos (by omega)]
        · rw [if_neg (by omega), hv]
          rw [if_pos hp0]
          by_cases hc : a.data ≤ p ∧ p < a.data + i
          · rw [if_pos hc, if_pos (by omega)]
          · rw [if_neg hc, if_neg (by omega)]
      · rw [if_neg hp0, if_neg (by omega), if_neg hp0]
  exact key a.length.toNat 0 mem rfl le_rfl (by omega) (fun p => by rw [if_neg (by omega)])

/-- **C60.** A view of a range inside a vector is inside it, and its elements are the range's. -/
theorem C60_view (mem : List F) (orig : Vec) (start stop : Int) (h : Inside mem orig) (h1 : 0 ≤ start) (h2 : start ≤ stop) (h3 : stop ≤ orig.length) :
    Inside mem (view orig start stop) ∧ (view orig start stop).length = stop - start ∧
    ∀ i : Int, load mem ((view orig start stop).data + i) = load mem (orig.data + (start + i)) := by
  obtain ⟨a1, a2, a3⟩ := h
  refine ⟨⟨?_, ?_, ?_⟩, rfl, fun i => ?_⟩
  · simp only [view]; omega
  · simp only [view]; omega
  · simp only [view]; omega
  · simp only [view]; congr 1; omega

/-- **C60, refuted for views.** `eml_vector_view` does not check its range: any range is accepted, including ones outside the vector or of negative length. -/
theorem C60_view_unchecked : ∃ (mem : List ℚ) (orig : Vec), Inside mem orig ∧ ¬ Inside mem (view orig 2 9) ∧ (view orig 3 1).length = -2 := by
  refine ⟨[1, 2, 3, 4], { data := 0, length := 4 }, ?_, ?_, ?_⟩ <;> simp [Inside, view]

/-- **C60.** `eml_signal_mean` of a non-empty range is the sum of its values over their number. -/
theorem C60_mean [Field F] (mem : List F) (v : Vec) (h : Inside mem v) (hl : 0 < v.length) :
    mean mem v.data v.length = some (((mem.drop v.data.toNat).take v.length.toNat).sum / (v.length : F)) := by
  obtain ⟨a1, a2, a3⟩ := h
  have key : ∀ (k : Nat) (i : Int) (s : F), 0 ≤ i → v.data + i + k ≤ mem.length →
      sumLoop mem v.data k i s = some (s + ((mem.drop (v.data + i).toNat).take k).sum) := by
    intro k
    induction k with
    | zero => intro i s _ _; simp [sumLoop]
    | succ k ih =>
      intro i s hi hk
      obtain ⟨x, hx1, hx2⟩ := load_some mem (v.data + i) (by omega) (by omega)
      simp only [sumLoop, hx1, Option.bind_some]
      rw [ih (i + 1) _ (by omega) (by omega)]
      have hlt : (v.data + i).toNat < mem.length := by omega
      rw [List.drop_eq_getElem_cons hlt, List.take_succ_cons, List.sum_cons, show (v.data + i).toNat + 1 = (v.data + (i + 1)).toNat by omega]
      rw [List.getElem?_eq_getElem hlt] at hx2
      rw [Option.some.inj hx2, add_assoc]
  unfold mean
  rw [key v.length.toNat 0 0 le_rfl (by omega)]
  simp only [Option.bind_some]
  rw [if_neg (by omega), zero_add, show (v.data + 0).toNat = v.data.toNat by simp]

/-- The empty mean divides by zero. -/
theorem C60_mean_empty [Field F] (mem : List F) (d : Int) : mean mem d 0 = none := by simp [mean, sumLoop]

example : set [1, 2, 3, 4, 5, 6, 7, 8] { data := 0, length := 4 } { data := 5, length := 2 } 1 = some ([1, 6, 7, 4, 5, 6, 7, 8], 0) := by decide
example : set [1, 2, 3, 4, 5, 6, 7, 8] { data := 0, length := 4 } { data := 5, length := 2 } 3 = some ([1, 2, 3, 4, 5, 6, 7, 8], -1) := by decide
example : Inside [(1 : Nat), 2, 3, 4, 5, 6, 7, 8] { data := 5, length := 2 } := by simp [Inside]
example : mean [(1 : ℚ), 2, 3, 4] 1 3 = some 3 := by decide +kernel

end Emlearn.Vector
