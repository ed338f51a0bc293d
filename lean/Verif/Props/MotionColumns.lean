/- C109 (columns): the pool of column names of `motion_process`. -/
import Verif.Props.MotionNames
import Verif.Props.MotionOptions
import Verif.Props.Motion
import Verif.Props.MotionRun
import Verif.Props.Csv
namespace Emlearn.Motion

/-! ### The pool of column names -/

/-- Names with their closing NULs, one after the other. -/
def flat (T : List (List Char)) : List Char := T.flatMap (· ++ ['\x00'])

/-- Where each name starts. -/
def offs : Nat → List (List Char) → List Nat
  | _, [] => []
  | o, t :: ts => o :: offs (o + t.length + 1) ts

theorem flat_append (T U : List (List Char)) : flat (T ++ U) = flat T ++ flat U := by simp [flat]

theorem flat_one (t : List Char) : flat [t] = t ++ ['\x00'] := by simp [flat]

theorem offs_append (o : Nat) (T : List (List Char)) (t : List Char) : offs o (T ++ [t]) = offs o T ++ [o + (flat T).length] := by
  induction T generalizing o with
  | nil => rfl
  | cons x xs ih =>
    rw [List.cons_append, offs, offs, ih, List.cons_append]
    congr 3
    rw [show x :: xs = [x] ++ xs from rfl, flat_append, flat_one]
    simp only [List.length_append, List.length_singleton]
    omega

theorem offs_cstr (T : List (List Char)) (hT : ∀ t ∈ T, '\x00' ∉ t) (pre suf : List Char) : (offs pre.length T).map (Csv.cstr (pre ++ flat T ++ suf)) = T := by
  induction T generalizing pre with
  | nil => rfl
  | cons t ts ih =>
    rw [offs, List.map_cons]
    have e : pre ++ flat (t :: ts) ++ suf = pre ++ (t ++ ['\x00']) ++ (flat ts ++ suf) := by simp [flat]
    rw [e, cstr_at _ _ _ (hT t (by simp))]
    have := ih (fun x hx => hT x (by simp [hx])) (pre ++ (t ++ ['\x00']))
    rw [List.length_append, List.length_append, List.length_singleton, ← Nat.add_assoc, List.append_assoc] at this
    rw [this]

/-- The pool holds the names `T` and is `P` characters long. -/
structure Holds (P : Nat) (T : List (List Char)) (s : Pool) : Prop where
  mem : ∃ suf, s.mem = flat T ++ suf
  len : s.mem.length = P
  item : s.item = (flat T).length
  rem : (s.item : Int) + s.remaining = P
  cols : s.cols = offs 0 T

theorem holds_step {P : Nat} {T : List (List Char)} {s : Pool} (h : Holds P T s) (t : List Char) (hfit : (t.length : Int) < s.remaining) :
    ∃ mem', snprintf s.mem s.item s.remaining.toNat t = some (t.length, mem') ∧
      Holds P (T ++ [t]) { mem := mem', item := s.item + (t.length + 1), remaining := s.remaining - (t.length + 1), cols := s.cols ++ [s.item] } := by
  obtain ⟨⟨suf, hm⟩, hl, hi, hr, hc⟩ := h
  refine ⟨_, snprintf_fit s.mem s.item s.remaining.toNat t (by omega) (by omega), ⟨?_, ?_, ?_, ?_, ?_⟩⟩
  · refine ⟨s.mem.drop (s.item + t.length + 1), ?_⟩
    simp only []
    rw [hi, hm, List.take_left, flat_append, flat_one]
  · simp only [List.length_append, List.length_take, List.length_drop, List.length_singleton]
    omega
  · simp only [flat_append, flat_one, List.length_append, List.length_singleton]
    omega
  · simp only []
    push_cast
    omega
  · simp only []
    rw [offs_append, hc, hi, Nat.zero_add]

theorem poolFeatures_ok (p : Pre) (P : Nat) (k i : Nat) (hk : ((i + k : Nat) : Int) ≤ getFeatureLength p) (T : List (List Char)) (s : Pool) (h : Holds P T s)
    (hfit : (flat (T ++ (List.range' i k).map (featureName p))).length < P) :
    ∃ s', poolFeatures p k i s = some (.ok s') ∧ Holds P (T ++ (List.range' i k).map (featureName p)) s' := by
  induction k generalizing i T s with
  | zero => exact ⟨s, rfl, by simpa using h⟩
  | succ k ih =>
    rw [List.range'_succ, List.map_cons] at hfit ⊢
    have e : T ++ featureName p i :: (List.range' (i + 1) k).map (featureName p) = (T ++ [featureName p i]) ++ (List.range' (i + 1) k).map (featureName p) := by simp
    rw [e] at hfit ⊢
    have hfit2 := hfit
    rw [flat_append, flat_append, flat_one] at hfit2
    simp only [List.length_append, List.length_singleton] at hfit2
    have hr := h.rem
    have hi := h.item
    obtain ⟨mem', h1, h2⟩ := holds_step h (featureName p i) (by omega)
    rw [poolFeatures, getFeatureName_eq p i (by push_cast at hk; omega), h1]
    simp only [Option.map_some, Option.bind_some]
    rw [if_neg (by omega : ¬ (featureName p i).length ≥ s.remaining.toNat)]
    simp only []
    rw [if_neg (by omega), if_neg (by omega)]
    have e3 : (((featureName p i).length : Int) + 1).toNat = (featureName p i).length + 1 := by omega
    rw [e3]
    have := ih (i + 1) (by push_cast at hk ⊢; omega) _ _ h2 hfit
    push_cast at this ⊢
    exact this

theorem poolClasses_ok (P : Nat) (k i : Nat) (T : List (List Char)) (s : Pool) (h : Holds P T s)
    (hfit : (flat (T ++ (List.range' i k).map (fun c => "class_".toList ++ showNat c))).length ≤ P) :
    ∃ s', poolClasses k i s = some (.ok s') ∧ Holds P (T ++ (List.range' i k).map (fun c => "class_".toList ++ showNat c)) s' := by
  induction k generalizing i T s with
  | zero => exact ⟨s, rfl, by simpa using h⟩
  | succ k ih =>
    rw [List.range'_succ, List.map_cons] at hfit ⊢
    generalize ht : "class_".toList ++ showNat i = t at hfit ⊢
    have e : T ++ t :: (List.range' (i + 1) k).map (fun c => "class_".toList ++ showNat c) = (T ++ [t]) ++ (List.range' (i + 1) k).map (fun c => "class_".toList ++ showNat c) := by simp
    rw [e] at hfit ⊢
    have hfit2 := hfit
    rw [flat_append, flat_append, flat_one] at hfit2
    simp only [List.length_append, List.length_singleton] at hfit2
    have hr := h.rem
    have hi := h.item
    obtain ⟨mem', h1, h2⟩ := holds_step h t (by omega)
    rw [poolClasses, if_neg (by omega), ht, h1]
    simp only [Option.bind_some]
    rw [if_neg (by omega)]
    have := ih (i + 1) _ _ h2 hfit
    push_cast at this ⊢
    exact this

/-- Specification: the columns of the output file. -/
noncomputable def columns (p : Pre) : List (List Char) :=
  "time".toList :: ((List.range (getFeatureLength p).toNat).map (featureName p) ++ ["class_0".toList, "class_1".toList])

theorem class_names : (List.range' 0 2).map (fun c => "class_".toList ++ showNat c) = ["class_0".toList, "class_1".toList] := by decide +kernel

theorem columnNames_ok (p : Pre) (hn : 0 ≤ getFeatureLength p) (P : Nat)
    (hfit : (flat ((List.range (getFeatureLength p).toNat).map (featureName p))).length + 16 ≤ P) : columnNames p P = some (.ok (columns p)) := by
  unfold columnNames
  rw [if_neg (by omega)]
  have h0 : Holds P [] { mem := List.replicate P '\x00', item := 0, remaining := P, cols := [] } := ⟨⟨_, rfl⟩, by simp, rfl, by simp, rfl⟩
  obtain ⟨s, e1, h1⟩ := poolFeatures_ok p P (getFeatureLength p).toNat 0 (by push_cast; omega) [] _ h0 (by rw [← List.range_eq_range', List.nil_append]; omega)
  rw [List.nil_append, ← List.range_eq_range'] at h1
  obtain ⟨s', e2, h2⟩ := poolClasses_ok P 2 0 _ s h1 (by
    rw [class_names, flat_append, List.length_append]
    have : (flat ["class_0".toList, "class_1".toList]).length = 16 := by decide +kernel
    omega)
  rw [show ((0 : Nat) : Int) = 0 from rfl] at e1
  rw [e1, Option.bind_some]
  simp only []
  rw [e2, Option.map_some]
  simp only []
  rw [class_names] at h2
  obtain ⟨suf, hm⟩ := h2.mem
  have := offs_cstr ((List.range (getFeatureLength p).toNat).map (featureName p) ++ ["class_0".toList, "class_1".toList]) (by
    intro t ht
    rcases List.mem_append.1 ht with ht | ht
    · obtain ⟨i, _, rfl⟩ := List.mem_map.1 ht
      exact fun h => (featureName_clean p i _ h).2.2 rfl
    · clear hm h2; revert ht; generalize t = u; revert u; decide +kernel) [] suf
  rw [h2.cols, hm]
  rw [List.nil_append, List.length_nil] at this
  rw [this, columns]

theorem fftName_length (p : Pre) (index : Int) (h : |((index - 8 + p.fftStart : Int) : ℝ) * ((p.samplerate : ℝ) / p.fftLength)| < 10 ^ 9) : (fftName p index).length ≤ 18 := by
  obtain ⟨h1, h2, h3, _⟩ := C76_name_value p index
  have ha : (fftNameParts p index).1 < 10 ^ 9 := by
    unfold fftNameParts
    simp only []
    exact Int.floor_lt.2 (by exact_mod_cast h)
  have l : ∀ (d : Nat) (z : Int), 0 ≤ z → z < 10 ^ d → 0 < d → (showInt z).length ≤ d := by
    intro d z h0 hz hd
    unfold showInt
    rw [if_neg (by omega)]
    apply showNat_length_le d _ _ hd
    have : ((z.toNat : Nat) : Int) < ((10 ^ d : Nat) : Int) := by push_cast; omega
    exact_mod_cast this
  have l1 := l 9 _ h1 ha (by omega)
  have l2 := l 2 _ h2 (by omega) (by omega)
  unfold fftName
  simp only [List.length_append]
  have e1 : "fft_".toList.length = 4 := rfl
  have e2 : "_".toList.length = 1 := rfl
  have e3 : "hz".toList.length = 2 := rfl
  omega

theorem flat_length_le (T : List (List Char)) (m : Nat) (h : ∀ t ∈ T, t.length ≤ m) : (flat T).length ≤ T.length * (m + 1) := by
  induction T with
  | nil => simp [flat]
  | cons t ts ih =>
    have := ih (fun x hx => h x (by simp [hx]))
    have := h t (by simp)
    rw [show t :: ts = [t] ++ ts from rfl, flat_append, flat_one]
    simp only [List.length_append, List.length_singleton]
    ring_nf at *
    omega

/-- The names of the program's configuration fit its pool. -/
theorem program_columns (p : Pre) (h1 : p.fftStart = 1) (h2 : p.fftEnd = 10) (h3 : p.fftLength = 128) (h4 : -2147483648 ≤ p.samplerate) (h5 : p.samplerate ≤ 2147483647) :
    columnNames p 2800 = some (.ok (columns p)) := by
  have hn : getFeatureLength p = 17 := by unfold getFeatureLength; omega
  apply columnNames_ok p (by omega)
  rw [hn]
  have : (flat ((List.range (17 : Int).toNat).map (featureName p))).length ≤ ((List.range (17 : Int).toNat).map (featureName p)).length * (18 + 1) := by
    apply flat_length_le
    intro t ht
    obtain ⟨i, hi, rfl⟩ := List.mem_map.1 ht
    rw [List.mem_range] at hi
    have hi : i < 17 := hi
    unfold featureName
    split
    · rename_i h
      have hm : fixedNames.getD i [] ∈ fixedNames := by
        rw [getD_fixed h]; exact List.getElem_mem _
      have := (fixedNames_ok _ hm).2.2.2.2.1
      omega
    · apply fftName_length
      rw [h1, h3, abs_mul, abs_div]
      have a1 : |(((i : Int) - 8 + 1 : Int) : ℝ)| ≤ 9 := by
        rw [← Int.cast_abs]
        have : |((i : Int) - 8 + 1)| ≤ 9 := by rw [abs_le]; omega
        exact_mod_cast this
      have a2 : |((p.samplerate : Int) : ℝ)| ≤ 2147483648 := by
        rw [← Int.cast_abs]
        have : |p.samplerate| ≤ 2147483648 := by rw [abs_le]; omega
        exact_mod_cast this
      have a3 : |((128 : Nat) : ℝ)| = 128 := by norm_num
      rw [a3]
      calc |(((i : Int) - 8 + 1 : Int) : ℝ)| * (|(p.samplerate : ℝ)| / 128) ≤ 9 * (2147483648 / 128) := by gcongr
        _ < 10 ^ 9 := by norm_num
  rw [List.length_map, List.length_range] at this
  have e : (17 : Int).toNat = 17 := rfl
  rw [e] at this ⊢
  omega

end Emlearn.Motion
