/- C95: the files that `eml-window-function` and `eml-mel-filterbank` write, read as C. -/
import Verif.Tools.Text
import Verif.Props.Filterbank
import Verif.MiniC.Rounding
import Verif.Exact
import Mathlib.Tactic.FinCases
import Mathlib.Tactic.NormNum
import Mathlib.Data.Matrix.Basic
namespace Emlearn.Tools
open Emlearn.Cgen Emlearn.MiniC Emlearn.Textwrap

/-! ### Wrapping -/

/-- **C95.** `textwrap.wrap` as the tools use it: for every text in which hyphens only begin words (the model is `textwrap.wrap` only there) and every positive width, no line is longer than the width; if no word is longer than the width, the words of the lines are the words of the text, in
the same order. A width that is not positive is an error. -/
theorem C95_wrap (replace : Bool) (text : List Char) (width : Int) (_safe : HyphenSafe text) :
    (width ≤ 0 → wrap replace text width = none) ∧
    (0 < width → ∃ lines, wrap replace text width = some lines ∧ (∀ l ∈ lines, (l.length : Int) ≤ width) ∧
      ((∀ w ∈ words text, (w.length : Int) ≤ width) → words (['\n'].intercalate lines) = words text)) := by
  constructor
  · intro h
    unfold wrap
    rw [if_pos h]
  · intro h
    obtain ⟨n, rfl⟩ : ∃ n : Nat, width = n := ⟨width.toNat, by omega⟩
    refine ⟨wrapLoop n (munge replace text).length (chunks (munge replace text)) [], by unfold wrap; rw [if_neg (by omega), Int.toNat_natCast], ?_, ?_⟩
    · intro l hl
      have := wrapLoop_len n _ _ _ (by simp) l hl
      omega
    · intro hw
      exact wrapped_words replace text n (by omega) (fun w hm => by have := hw w hm; omega) _ (by unfold wrapped wrap; rw [if_neg (by omega), Int.toNat_natCast]; rfl)

/-- The lines of a text with words, blanks and newlines. -/
example : wrap true "static const float hann[4] =\t{ 0.000000f, 0.500000f, -1.000000f };\nstatic const int hann_length = 4; ".toList 24 =
    some (["static const float", "hann[4] =    {", "0.000000f, 0.500000f,", "-1.000000f }; static", "const int hann_length =", "4;"].map String.toList) := by decide +kernel

/-! ### Lengths of words -/

theorem showInt_length {z : Int} (h : z.natAbs ≤ 2147483647) : (showInt z).length ≤ 11 := by
  unfold showInt
  split
  · have := showNat_length_le 10 (-z).toNat (by omega) (by omega)
    simp only [List.length_cons]
    omega
  · have := showNat_length_le 10 z.toNat (by omega) (by omega)
    omega

theorem constant_length {v : ℚ} (h : |v| ≤ 10 ^ 9) {dtype : List Char} (hd : dtype = "float".toList ∨ dtype = "int".toList ∧ (trunc v).natAbs ≤ 2147483647) : (constant (fun _ => []) v dtype).length + 1 ≤ 20 := by
  have hne : "int".toList ≠ "float".toList := by decide +kernel
  rcases hd with rfl | ⟨rfl, hz⟩
  · unfold constant
    rw [if_pos rfl]
    unfold showFixed
    have h0 : 0 ≤ roundHalfEven (|v| * 10 ^ 6) := roundHalfEven_nonneg (by positivity)
    have h1 := (abs_le.1 (roundHalfEven_spec (|v| * 10 ^ 6))).2
    have h2 : (roundHalfEven (|v| * 10 ^ 6) : ℚ) < 10 ^ 15 + 1 := by
      have : |v| * 10 ^ 6 ≤ 10 ^ 9 * 10 ^ 6 := mul_le_mul_of_nonneg_right h (by positivity)
      norm_num at this h1 ⊢
      linarith
    have h3 : roundHalfEven (|v| * 10 ^ 6) < 10 ^ 15 + 1 := by exact_mod_cast h2
    have h4 : (roundHalfEven (|v| * 10 ^ 6)).toNat < 10 ^ 15 + 1 := by
      norm_num at h3 ⊢
      omega
    generalize (roundHalfEven (|v| * 10 ^ 6)).toNat = k at h4 ⊢
    have l1 := showNat_length_le 10 (k / 10 ^ 6) (by norm_num at h4 ⊢; omega) (by omega)
    have l2 := padZeros_length 6 (k % 10 ^ 6) (Nat.mod_lt _ (by norm_num)) (by omega)
    simp only
    split
    · simp only [List.length_append, List.length_cons, List.length_nil, l2]
      omega
    · simp only [List.length_append, List.length_cons, List.length_nil, l2]
      omega
  · unfold constant
    rw [if_neg hne, if_pos (by decide +kernel)]
    have := showInt_length hz
    omega

/-! ### Window functions -/

section
variable {F : Type} (ops : CFloat F) (other : ℚ → List Char)

/-- What the window tool can be used with. -/
structure WindowArgs (name : List Char) (window : List ℚ) (linewrap : Nat) : Prop where
  nameOk : Nm name
  ne : window ≠ []
  len : window.length ≤ 2147483647
  vals : ∀ v ∈ window, |v| ≤ 10 ^ 9
  /-- the longest words: `name[length]` and the numbers -/
  wrap : name.length + 12 ≤ linewrap ∧ 20 ≤ linewrap

theorem windowItems_ok {name : List Char} {window : List ℚ} {linewrap : Nat} (h : WindowArgs name window linewrap) :
    (∀ i ∈ windowItems name window.length window, i.Ok ∧ i.Filled ∧ i.Fits linewrap) ∧ ((windowItems name window.length window).map Item.name).Nodup := by
  have hn : (showNat window.length).length ≤ 10 := showNat_length_le 10 _ (by have := h.len; omega) (by omega)
  have hs : "_length".toList.length = 7 := by decide +kernel
  obtain ⟨w1, w2⟩ := h.wrap
  constructor
  · intro i hi
    unfold windowItems at hi
    simp only [List.mem_cons, List.not_mem_nil, or_false] at hi
    rcases hi with rfl | rfl
    · refine ⟨⟨h.nameOk, rfl, .inl rfl⟩, fun n s d vs e => by cases e; exact h.ne, by omega, by omega, fun v hv => ?_⟩
      have := constant_length (h.vals v hv) (dtype := "float".toList) (.inl rfl)
      omega
    · refine ⟨nm_suffix h.nameOk.1 (by decide +kernel) (by decide +kernel), (by intro n s d vs e; cases e), by omega, by rw [List.length_append]; omega, ?_⟩
      rw [show (((window.length : Int) : Int) : ℚ) = (((window.length : Nat) : Int) : ℚ) from rfl, trunc_intCast]
      have := showInt_length (z := (window.length : Int)) (by have := h.len; omega)
      omega
  · show [name, name ++ "_length".toList].Nodup
    refine List.nodup_cons.2 ⟨?_, List.nodup_singleton _⟩
    rw [List.mem_singleton]
    exact fun e => append_ne_self name "_length".toList (by decide) e.symm

/-- **C95.** Whatever the values of the window, the file that `eml-window-function` writes is read by a C compiler as an array of the window's length with these values, rounded to six decimals, and a constant with its
length, whatever the line width, if the longest word fits on a line. -/
theorem C95_window {name : List Char} {window : List ℚ} {linewrap : Nat} (h : WindowArgs name window linewrap) :
    ∃ text prog, windowFile other name window.length window linewrap = some text ∧ parse text = some prog ∧
      Net.CText.readFloats ops prog name = some (window.map (floatLit ops)) ∧ readConst ops prog (name ++ "_length".toList) = some (window.length : Int) ∧
      (∀ v, ∃ q : ℚ, |q - v| ≤ 1 / (2 * 10 ^ 6) ∧ floatLit ops v = ops.lit (decide (v < 0)) |q|) := by
  obtain ⟨h1, h2⟩ := windowItems_ok h
  obtain ⟨ts, t, e1, e2, -, e4⟩ := file_parse other (windowItems name window.length window) (fun i hi => (h1 i hi).1) (fun i hi => (h1 i hi).2.1) ['\n']
    "// This file was generated with emlearn using eml-window-function\n\n".toList [] (lexes_lits _ _ (by decide) (by decide)) (by decide) (by decide) (by simp)
    (lexes_lits _ _ (by decide +kernel) (by decide +kernel)) (lexes_lits _ _ (by decide) (by decide)) (.inl rfl) true linewrap (by have := h.wrap; omega) (fun i hi => (h1 i hi).2.2)
  rw [List.append_nil] at e4
  refine ⟨_, _, by unfold windowFile windowFunction; rw [e1, Option.bind_some, e2, Option.map_some], e4, ?_, ?_, fun v => ⟨fixedValue 6 v, fixedValue_close 6 v, rfl⟩⟩
  · exact read_floats ops _ h2 name window.length window h.ne (by simp [windowItems])
  · have := read_const ops _ h2 (name ++ "_length".toList) ((window.length : Int) : ℚ) (by simp [windowItems]) (by rw [trunc_intCast]; have := h.len; omega)
    rw [trunc_intCast] at this
    exact this

/-- The window types that the tool knows (`window_function.py` 13-15). -/
def knownWindows : List String := ["boxcar", "triang", "blackman", "hamming", "hann", "bartlett", "flattop", "parzen", "bohman", "blackmanharris", "nuttall", "barthann"]

/-- **C95.** With the default name and the default line width of 70, this is so for every known type of window and every length. -/
theorem C95_window_default (w : String) (hw : w ∈ knownWindows) (window : List ℚ) (h0 : window ≠ []) (hl : window.length ≤ 2147483647) (hv : ∀ v ∈ window, |v| ≤ 10 ^ 9) :
    WindowArgs (windowName [] w.toList window.length) window 70 := by
  have hlen : (showNat window.length).length ≤ 10 := showNat_length_le 10 _ (by omega) (by omega)
  have hn : windowName [] w.toList window.length = w.toList ++ ('_' :: showNat window.length ++ "_lut".toList) := by
    unfold windowName
    rw [if_pos rfl]
    have e1 : showInt (window.length : Int) = showNat window.length := by simp [showInt]
    have e2 : "_lut".toList = '_' :: "lut".toList := by decide +kernel
    rw [e1, e2]
    simp [List.intercalate]
  have hall : knownWindows.all (fun s => isName s.toList && decide (s.toList.length ≤ 14)) = true := by decide +kernel
  have hww := List.all_eq_true.1 hall w hw
  rw [Bool.and_eq_true, decide_eq_true_eq] at hww
  refine ⟨?_, h0, hl, hv, ?_, by omega⟩
  · rw [hn, ← List.append_assoc]
    refine nm_suffix (isName_append hww.1 ?_) (by decide +kernel) (by decide +kernel)
    rw [List.all_eq_true]
    intro c hc
    rcases List.mem_cons.1 hc with rfl | hc
    · decide
    · exact Reader.identRest_digit (showNat_digits hc)
  · rw [hn]
    have : "_lut".toList.length = 4 := by decide +kernel
    simp only [List.length_append, List.length_cons]
    omega

/-- A concrete file: the Hann window of length 4. -/
example : windowFile (fun _ => []) (windowName [] "hann".toList 4) 4 [0, 1/2, 1, 1/2] 70 =
    some "// This file was generated with emlearn using eml-window-function\n\nstatic const float hann_4_lut[4] = { 0.000000f, 0.500000f, 1.000000f,\n0.500000f }; static const int hann_4_lut_length = 4;".toList := by
  decide +kernel

example : WindowArgs (windowName [] "hann".toList 4) [0, 1/2, 1, 1/2] 70 :=
  C95_window_default "hann" (by decide) [0, 1/2, 1, 1/2] (by simp) (by decide) (by intro v hv; simp only [List.mem_cons, List.not_mem_nil, or_false] at hv; rcases hv with rfl | rfl | rfl | rfl <;> norm_num)

/-- **C95** (negation) a line width that is smaller than the longest word makes the tool write a file that is not C: the name of the length constant is cut in two. -/
theorem C95_narrow_refuted : (windowFile (fun _ => []) "window".toList 2 [0, 1] 12).map parse = some none ∧ (windowFile (fun _ => []) "window".toList 2 [0, 1] 13).map (fun t => (parse t).isSome) = some true ∧
    windowFunction (fun _ => []) "window".toList 2 [0, 1] 12 = some "static const\nfloat\nwindow[2] =\n{ 0.000000f,\n1.000000f };\nstatic const\nint window_l\nength = 2;".toList := by decide +kernel

/-- **C95** (negation) the name is not checked: with a reserved word or with something that is not an identifier the file is not C, without a message. -/
theorem C95_names_refuted : (windowFile (fun _ => []) "float".toList 2 [0, 1] 70).map parse = some none ∧ (windowFile (fun _ => []) "2nd".toList 2 [0, 1] 70).map parse = some none := by decide +kernel
end

/-! ### Mel filterbanks -/

/-- What the filterbank tool can be used with: filters of the form `0..0 nonzero..nonzero 0..0`. -/
structure FilterbankArgs {m n : Nat} (M : Matrix (Fin m) (Fin n) ℚ) (name : List Char) (x : Extra) (linewrap : Nat) : Prop where
  bands : ∀ i, Filterbank.BandRow (M i)
  pos : 0 < m
  size : m * n ≤ 2147483647
  vals : ∀ i j, |M i j| ≤ 10 ^ 9
  nameOk : Nm name
  freqs : ∀ fs, x.frequencies = some fs → fs ≠ [] ∧ fs.length ≤ 2147483647 ∧ ∀ f ∈ fs, |f| ≤ 10 ^ 9
  ints : ∀ v, (x.nfft = some v ∨ x.sr = some v ∨ x.fmin = some v ∨ x.fmax = some v) → (trunc v).natAbs ≤ 2147483647
  /-- the longest words: `name_frequencies[length]` and the numbers -/
  wrap : name.length + 24 ≤ linewrap

/-- The suffixes of the variables. -/
def suffixes : List (List Char) := ["_bands".toList, "_starts".toList, "_ends".toList, "_length".toList, "_lut".toList, "_frequencies".toList, "_nfft".toList, "_samplerate".toList, "_fmax".toList, "_fmin".toList]

theorem filterbankItems_names (s : Filterbank.Sparse ℚ) (name : List Char) (x : Extra) : ((filterbankItems s name x).map Item.name).Nodup := by
  have hsub : List.Sublist ((filterbankItems s name x).map Item.name) (suffixes.map (name ++ ·)) := by
    have e : suffixes.map (name ++ ·) = ["_bands".toList, "_starts".toList, "_ends".toList, "_length".toList, "_lut".toList].map (name ++ ·) ++ [name ++ "_frequencies".toList] ++ [name ++ "_nfft".toList] ++
        [name ++ "_samplerate".toList] ++ [name ++ "_fmax".toList] ++ [name ++ "_fmin".toList] := rfl
    rw [e]
    unfold filterbankItems
    simp only [List.map_append]
    have ho : ∀ {α : Type} (o : Option α) (g : α → Item) (nm : List Char), (∀ a, (g a).name = nm) → List.Sublist ((o.map g).toList.map Item.name) [nm] := by
      intro α o g nm h
      cases o with
      | none => exact List.nil_sublist _
      | some a => simp only [Option.map_some, Option.toList_some, List.map_cons, List.map_nil, h a]; exact List.Sublist.refl _
    refine ((((List.Sublist.append ?_ (ho x.frequencies _ (name ++ "_frequencies".toList) fun _ => rfl)).append (ho x.nfft _ (name ++ "_nfft".toList) fun _ => rfl)).append
      (ho x.sr _ (name ++ "_samplerate".toList) fun _ => rfl)).append (ho x.fmax _ (name ++ "_fmax".toList) fun _ => rfl)).append (ho x.fmin _ (name ++ "_fmin".toList) fun _ => rfl)
    exact List.Sublist.refl _
  refine hsub.nodup ?_
  exact List.Nodup.map (fun a b h => List.append_cancel_left h) (by decide +kernel)

theorem fits_const {name : List Char} {w : Nat} {v : ℚ} (s : List Char) (hw : name.length + 24 ≤ w) (hs : s.length ≤ 24) (hv : (trunc v).natAbs ≤ 2147483647) : (Item.const (name ++ s) v).Fits w := by
  refine ⟨by omega, by rw [List.length_append]; omega, ?_⟩
  have := showInt_length hv
  omega

theorem fits_arr {name : List Char} {w : Nat} {vs : List ℚ} {dtype : List Char} (s : List Char) (size : Int) (hw : name.length + 24 ≤ w) (hs : s.length ≤ 12) (hl : vs.length ≤ 2147483647) (hne : name ≠ [])
    (hv : ∀ v ∈ vs, |v| ≤ 10 ^ 9 ∧ (dtype = "float".toList ∨ dtype = "int".toList ∧ (trunc v).natAbs ≤ 2147483647) ∨ (dtype = "int".toList ∧ (trunc v).natAbs ≤ 2147483647)) : (Item.arr (name ++ s) size dtype vs).Fits w := by
  have hn : (showNat vs.length).length ≤ 10 := showNat_length_le 10 _ (by omega) (by omega)
  refine ⟨by omega, by rw [List.length_append]; omega, fun v hm => ?_⟩
  rcases hv v hm with ⟨h1, h2⟩ | ⟨rfl, h2⟩
  · have := constant_length h1 h2
    omega
  · have hne : "int".toList ≠ "float".toList := by decide +kernel
    unfold constant
    rw [if_neg hne, if_pos (by decide +kernel)]
    have := showInt_length h2
    omega

theorem round6_zero : round6 0 = 0 := round6_small 0 (by norm_num)

/-- The written matrix. -/
noncomputable def roundedMatrix {m n : Nat} (M : Matrix (Fin m) (Fin n) ℚ) : Matrix (Fin m) (Fin n) ℝ := Matrix.of fun i j => round6 (M i j)

theorem piece_map {α β : Type} {n : Nat} (g : α → β) (r : Fin n → α) (p : Nat × Nat) : Filterbank.piece (fun j => g (r j)) p = (Filterbank.piece r p).map g := by
  unfold Filterbank.piece
  rw [List.map_filterMap]
  congr 1
  funext j
  rw [List.getElem?_ofFn, List.getElem?_ofFn]
  split <;> rfl

/-- **C95.** The file that `eml-mel-filterbank` writes for a matrix of filters is read by a C compiler as tables: where each filter's nonzero entries start and end, and these entries one filter after the other, as float
constants; and the constants: the number of filters, the number of coefficients, and the arguments (cut to integers). For any float arithmetic. -/
theorem C95_tables {F : Type} {m n : Nat} (M : Matrix (Fin m) (Fin n) ℚ) (name : List Char) (x : Extra) (linewrap : Nat) (h : FilterbankArgs M name x linewrap) (ops : CFloat F) (other : ℚ → List Char) :
    ∃ text prog, ∃ a b : Fin m → Nat, (∀ i, Filterbank.IsBand (M i) (a i, b i)) ∧ filterbankFile other (Filterbank.rows M) name x linewrap = some text ∧ parse text = some prog ∧
      readConst ops prog (name ++ "_bands".toList) = some (m : Int) ∧
      readIntArr ops prog (name ++ "_starts".toList) = some (List.ofFn fun i => (a i : Int)) ∧ readIntArr ops prog (name ++ "_ends".toList) = some (List.ofFn fun i => (b i : Int)) ∧
      Net.CText.readFloats ops prog (name ++ "_lut".toList) = some (List.ofFn fun i => Filterbank.piece (fun j => floatLit ops (M i j)) (a i, b i)).flatten ∧
      readConst ops prog (name ++ "_length".toList) = some ((List.ofFn fun i => Filterbank.piece (M i) (a i, b i)).flatten.length : Int) ∧
      (∀ fs, x.frequencies = some fs → Net.CText.readFloats ops prog (name ++ "_frequencies".toList) = some (fs.map (floatLit ops))) ∧
      (∀ v, x.nfft = some v → readConst ops prog (name ++ "_nfft".toList) = some (trunc v)) ∧ (∀ v, x.sr = some v → readConst ops prog (name ++ "_samplerate".toList) = some (trunc v)) ∧
      (∀ v, x.fmin = some v → readConst ops prog (name ++ "_fmin".toList) = some (trunc v)) ∧ (∀ v, x.fmax = some v → readConst ops prog (name ++ "_fmax".toList) = some (trunc v)) := by
  obtain ⟨hM, hpos, hsize, hvals, hname, hfreq, hints, hwrap⟩ := h
  choose a b hab hb hnz using hM
  obtain ⟨rs, hrsd⟩ : ∃ rs : List ((Fin n → ℚ) × (Nat × Nat)), rs = List.ofFn fun i => (M i, (a i, b i)) := ⟨_, rfl⟩
  have hrs : ∀ q ∈ rs, Filterbank.IsBand q.1 q.2 ∧ ∃ i, q.1 = M i := by
    intro q hq
    rw [hrsd] at hq
    obtain ⟨i, rfl⟩ := List.mem_ofFn.mp hq
    exact ⟨⟨hab i, hb i, hnz i⟩, i, rfl⟩
  have hr : Filterbank.rows M = rs.map fun q => List.ofFn q.1 := by rw [hrsd]; simp [Filterbank.rows, List.map_ofFn, Function.comp_def]
  have hl : rs.length = m := by rw [hrsd]; simp
  obtain ⟨s, hs⟩ : ∃ s : Filterbank.Sparse ℚ, s = ⟨rs.map (fun q => q.2.1), rs.map (fun q => q.2.2), (rs.map fun q => Filterbank.piece q.1 q.2).flatten⟩ := ⟨_, rfl⟩
  have hsp : Filterbank.sparseFilterbank (Filterbank.rows M) = some s := by
    rw [hr, Filterbank.sparseFilterbank, Filterbank.sparseLoop_bands rs fun q hq => (hrs q hq).1, hs]
    simp
  have hss : s.starts.length = m ∧ s.ends.length = m := by rw [hs]; simp [hl]
  have hn1 : m ≤ m * n ∧ n ≤ m * n := by
    have hn0 : 0 < n := by have := hb ⟨0, hpos⟩; omega
    exact ⟨Nat.le_mul_of_pos_right m hn0, Nat.le_mul_of_pos_left n hpos⟩
  have hpl : ∀ q ∈ rs, 1 ≤ (Filterbank.piece q.1 q.2).length ∧ (Filterbank.piece q.1 q.2).length ≤ n := by
    intro q hq
    obtain ⟨⟨h1, h2, -⟩, -⟩ := hrs q hq
    rw [Filterbank.piece_get q.1 q.2 h2 (fun j => if hj : j < n then q.1 ⟨j, hj⟩ else 0) (fun j => by simp)]
    simp only [List.length_map, List.length_range]
    omega
  have hcl : s.coeffs.length ≤ m * n ∧ s.coeffs ≠ [] := by
    rw [hs]
    constructor
    · rw [← hl]
      clear hsp hs hss hl hr hrsd hn1
      induction rs with
      | nil => simp
      | cons q r ih =>
        have := ih (fun q hq => hrs q (by simp [hq])) (fun q hq => hpl q (by simp [hq]))
        have h1 := (hpl q (by simp)).2
        simp only [List.map_cons, List.flatten_cons, List.length_append, List.length_cons]
        rw [Nat.succ_mul]
        simp only at this
        omega
    · cases hrs0 : rs with
      | nil => rw [hrs0] at hl; simp at hl; omega
      | cons q r =>
        have h1 := (hpl q (by rw [hrs0]; simp)).1
        intro hnil
        simp only [List.map_cons, List.flatten_cons, List.append_eq_nil_iff] at hnil
        rw [hnil.1] at h1
        simp at h1
  have hcoef : ∀ v ∈ s.coeffs, |v| ≤ 10 ^ 9 := by
    intro v hv
    rw [hs] at hv
    obtain ⟨p, hp, hv⟩ := List.mem_flatten.1 hv
    obtain ⟨q, hq, rfl⟩ := List.mem_map.1 hp
    obtain ⟨-, i, e⟩ := hrs q hq
    unfold Filterbank.piece at hv
    obtain ⟨j, -, hj⟩ := List.mem_filterMap.1 hv
    obtain ⟨k, rfl⟩ := List.mem_ofFn.1 (List.mem_of_getElem? hj)
    rw [e]
    exact hvals i k
  have hband : ∀ z : Nat, (z ∈ s.starts ∨ z ∈ s.ends) → z < n := by
    intro z hz
    rw [hs] at hz
    rcases hz with hz | hz
    · obtain ⟨q, hq, rfl⟩ := List.mem_map.1 hz
      have := (hrs q hq).1
      have := this.1; have := (hrs q hq).1.2.1
      omega
    · obtain ⟨q, hq, rfl⟩ := List.mem_map.1 hz
      exact (hrs q hq).1.2.1
  have hnm : ∀ {t : List Char}, t.all identRest = true → keyWords.all (fun k => !(t.isSuffixOf k)) = true → Nm (name ++ t) := fun h1 h2 => nm_suffix hname.1 h1 h2
  have hnn : name ≠ [] := by
    intro e
    rw [e] at hname
    exact absurd hname.1 (by decide)
  have htr : ∀ k : Nat, trunc ((k : Nat) : ℚ) = (k : Int) := by
    intro k
    have := trunc_intCast (K := ℚ) (k : Int)
    simpa using this
  have hstarts : s.starts ≠ [] ∧ s.ends ≠ [] := by
    constructor <;> (intro e; have := hss.1; have := hss.2; simp_all)
  have hitems : ∀ i ∈ filterbankItems s name x, i.Ok ∧ i.Filled ∧ i.Fits linewrap := by
    have lens : "_bands".toList.length ≤ 12 ∧ "_starts".toList.length ≤ 12 ∧ "_ends".toList.length ≤ 12 ∧ "_length".toList.length ≤ 12 ∧ "_lut".toList.length ≤ 12 ∧ "_frequencies".toList.length ≤ 12 ∧
      "_nfft".toList.length ≤ 24 ∧ "_samplerate".toList.length ≤ 24 ∧ "_fmax".toList.length ≤ 24 ∧ "_fmin".toList.length ≤ 24 := by decide +kernel
    obtain ⟨l1, l2, l3, l4, l5, l6, l7, l8, l9, l10⟩ := lens
    have hcst : ∀ (n : List Char) (v : ℚ), (Item.const n v).Filled := fun n v a b c d e => by cases e
    have harr : ∀ (n : List Char) (sz : Int) (d : List Char) (vs : List ℚ), vs ≠ [] → (Item.arr n sz d vs).Filled := fun n sz d vs h a b c e eq => by cases eq; exact h
    have hints' : ∀ l : List Nat, (∀ z ∈ l, z < n) → ∀ v ∈ l.map (fun (k : Nat) => (k : ℚ)), |v| ≤ 10 ^ 9 ∧ ("int".toList = "float".toList ∨ "int".toList = "int".toList ∧ (trunc v).natAbs ≤ 2147483647) ∨
        ("int".toList = "int".toList ∧ (trunc v).natAbs ≤ 2147483647) := by
      intro l hl v hv
      obtain ⟨k, hk, rfl⟩ := List.mem_map.1 hv
      refine .inr ⟨rfl, ?_⟩
      rw [htr]
      have := hl k hk
      omega
    intro i hi
    unfold filterbankItems at hi
    simp only [List.mem_append, List.mem_cons, List.not_mem_nil, or_false, Option.mem_toList, Option.map_eq_some_iff] at hi
    rcases hi with (((((rfl | rfl | rfl | rfl | rfl) | ⟨fs, hfs, rfl⟩) | ⟨v, hv, rfl⟩) | ⟨v, hv, rfl⟩) | ⟨v, hv, rfl⟩) | ⟨v, hv, rfl⟩
    · exact ⟨hnm (by decide +kernel) (by decide +kernel), hcst _ _, fits_const _ hwrap (by omega) (by rw [htr]; omega)⟩
    · exact ⟨⟨hnm (by decide +kernel) (by decide +kernel), by simp, .inr rfl⟩, harr _ _ _ _ (by simpa using hstarts.1),
        fits_arr _ _ hwrap l2 (by simp; omega) hnn (hints' _ fun z hz => hband z (.inl hz))⟩
    · exact ⟨⟨hnm (by decide +kernel) (by decide +kernel), by simp, .inr rfl⟩, harr _ _ _ _ (by simpa using hstarts.2),
        fits_arr _ _ hwrap l3 (by simp; omega) hnn (hints' _ fun z hz => hband z (.inr hz))⟩
    · exact ⟨hnm (by decide +kernel) (by decide +kernel), hcst _ _, fits_const _ hwrap (by omega) (by rw [htr]; have := hcl.1; omega)⟩
    · exact ⟨⟨hnm (by decide +kernel) (by decide +kernel), rfl, .inl rfl⟩, harr _ _ _ _ hcl.2, fits_arr _ _ hwrap l5 (by have := hcl.1; omega) hnn fun v hv => .inl ⟨hcoef v hv, .inl rfl⟩⟩
    · obtain ⟨f1, f2, f3⟩ := hfreq fs hfs
      exact ⟨⟨hnm (by decide +kernel) (by decide +kernel), rfl, .inl rfl⟩, harr _ _ _ _ f1, fits_arr _ _ hwrap l6 f2 hnn fun v hv => .inl ⟨f3 v hv, .inl rfl⟩⟩
    · exact ⟨hnm (by decide +kernel) (by decide +kernel), hcst _ _, fits_const _ hwrap l7 (hints v (.inl hv))⟩
    · exact ⟨hnm (by decide +kernel) (by decide +kernel), hcst _ _, fits_const _ hwrap l8 (hints v (.inr (.inl hv)))⟩
    · exact ⟨hnm (by decide +kernel) (by decide +kernel), hcst _ _, fits_const _ hwrap l9 (hints v (.inr (.inr (.inr hv))))⟩
    · exact ⟨hnm (by decide +kernel) (by decide +kernel), hcst _ _, fits_const _ hwrap l10 (hints v (.inr (.inr (.inl hv))))⟩
  obtain ⟨ts, t, e1, e2, -, e4⟩ := file_parse other (filterbankItems s name x) (fun i hi => (hitems i hi).1) (fun i hi => (hitems i hi).2.1) "\n\n".toList
    "// This file was generated with emlearn using eml-mel-filterbank\n\n".toList "\n\n".toList (lexes_lits _ _ (by decide +kernel) (by decide +kernel)) (by decide +kernel) (by decide +kernel) (by decide)
    (lexes_lits _ _ (by decide +kernel) (by decide +kernel)) (lexes_lits _ _ (by decide +kernel) (by decide +kernel)) (.inr ⟨['\n'], by decide⟩) false linewrap (by omega) (fun i hi => (hitems i hi).2.2)
  have hnd := filterbankItems_names s name x
  have hnat : ∀ l : List Nat, ((l.map fun (k : Nat) => (k : ℚ)).map trunc) = l.map fun (k : Nat) => (k : Int) := by
    intro l
    rw [List.map_map]
    exact List.map_congr_left fun k _ => htr k
  have hst : (s.starts.map fun (k : Nat) => (k : Int)) = List.ofFn fun i => (a i : Int) := by
    rw [hs, hrsd]
    simp only [List.map_ofFn, Function.comp_def]
  have hen : (s.ends.map fun (k : Nat) => (k : Int)) = List.ofFn fun i => (b i : Int) := by
    rw [hs, hrsd]
    simp only [List.map_ofFn, Function.comp_def]
  refine ⟨_, _, a, b, fun i => ⟨hab i, hb i, hnz i⟩, ?_, e4, ?_, ?_, ?_, ?_, ?_, ?_, ?_, ?_, ?_, ?_⟩
  · unfold filterbankFile serialize
    rw [hsp, Option.bind_some, if_pos (by rw [hss.1, hss.2]), e1, Option.map_some, Option.bind_some, e2, Option.map_some]
  · have := read_const ops _ hnd (name ++ "_bands".toList) (s.starts.length : ℚ) (by simp [filterbankItems]) (by rw [htr]; omega)
    rw [htr, hss.1] at this
    exact this
  · rw [← hst, ← hnat]
    exact read_ints ops _ hnd _ s.starts.length _ (by simpa using hstarts.1) (by simp [filterbankItems]) (by
      intro v hv
      obtain ⟨k, hk, rfl⟩ := List.mem_map.1 hv
      rw [htr]
      have := hband k (.inl hk)
      omega)
  · rw [← hen, ← hnat]
    exact read_ints ops _ hnd _ s.ends.length _ (by simpa using hstarts.2) (by simp [filterbankItems]) (by
      intro v hv
      obtain ⟨k, hk, rfl⟩ := List.mem_map.1 hv
      rw [htr]
      have := hband k (.inr hk)
      omega)
  · have el : (List.ofFn fun i => Filterbank.piece (fun j => floatLit ops (M i j)) (a i, b i)).flatten = s.coeffs.map (floatLit ops) := by
      rw [hs, hrsd]
      simp only [List.map_ofFn, List.map_flatten, Function.comp_def, piece_map]
    rw [el]
    exact read_floats ops _ hnd _ s.coeffs.length _ hcl.2 (by simp [filterbankItems])
  · have := read_const ops _ hnd (name ++ "_length".toList) (s.coeffs.length : ℚ) (by simp [filterbankItems]) (by rw [htr]; have := hcl.1; omega)
    rw [htr] at this
    have el : (List.ofFn fun i => Filterbank.piece (M i) (a i, b i)).flatten = s.coeffs := by
      rw [hs, hrsd]
      simp only [List.map_ofFn, Function.comp_def]
    rw [el]
    exact this
  · intro fs hfs
    exact read_floats ops _ hnd _ fs.length _ (hfreq fs hfs).1 (by simp [filterbankItems, hfs])
  · intro v hv
    exact read_const ops _ hnd _ v (by simp [filterbankItems, hv]) (hints v (.inl hv))
  · intro v hv
    exact read_const ops _ hnd _ v (by simp [filterbankItems, hv]) (hints v (.inr (.inl hv)))
  · intro v hv
    exact read_const ops _ hnd _ v (by simp [filterbankItems, hv]) (hints v (.inr (.inr (.inl hv))))
  · intro v hv
    exact read_const ops _ hnd _ v (by simp [filterbankItems, hv]) (hints v (.inr (.inr (.inr hv))))

/-- **C95.** The file that `eml-mel-filterbank` writes for a matrix of filters is read by a C compiler as the tables for `eml_sparse_filterbank`: called with the arrays of the file (exact arithmetic), the function
computes the product of the matrix, rounded to six decimals, with the input, for every input. The constants are the number of filters, the number of coefficients, and the arguments (cut to integers). -/
theorem C95_filterbank {m n : Nat} (M : Matrix (Fin m) (Fin n) ℚ) (name : List Char) (x : Extra) (linewrap : Nat) (h : FilterbankArgs M name x linewrap) (ops : CFloat ℝ) (hops : ExactLits ops)
    (other : ℚ → List Char) :
    ∃ text prog starts ends lut, filterbankFile other (Filterbank.rows M) name x linewrap = some text ∧ parse text = some prog ∧
      readConst ops prog (name ++ "_bands".toList) = some (m : Int) ∧
      readIntArr ops prog (name ++ "_starts".toList) = some starts ∧ readIntArr ops prog (name ++ "_ends".toList) = some ends ∧
      Net.CText.readFloats ops prog (name ++ "_lut".toList) = some lut ∧ readConst ops prog (name ++ "_length".toList) = some (lut.length : Int) ∧
      (∀ z ∈ starts ++ ends, 0 ≤ z ∧ z < n) ∧
      (∀ (v : Fin n → ℝ) (junk : List ℝ), junk.length = m →
        Filterbank.cFilterbank (List.ofFn v) junk (starts.map Int.toNat) (ends.map Int.toNat) lut = some (List.ofFn ((roundedMatrix M).mulVec v))) ∧
      (∀ fs, x.frequencies = some fs → Net.CText.readFloats ops prog (name ++ "_frequencies".toList) = some (fs.map round6)) ∧
      (∀ v, x.nfft = some v → readConst ops prog (name ++ "_nfft".toList) = some (trunc v)) ∧ (∀ v, x.sr = some v → readConst ops prog (name ++ "_samplerate".toList) = some (trunc v)) ∧
      (∀ v, x.fmin = some v → readConst ops prog (name ++ "_fmin".toList) = some (trunc v)) ∧ (∀ v, x.fmax = some v → readConst ops prog (name ++ "_fmax".toList) = some (trunc v)) := by
  obtain ⟨text, prog, a, b, hab, h1, h2, h3, h4, h5, h6, h7, h8, h9, h10, h11, h12⟩ := C95_tables M name x linewrap h ops other
  have e : floatLit ops = round6 := funext (floatLit_exact ops hops)
  rw [e] at h6 h8
  refine ⟨text, prog, _, _, _, h1, h2, h3, h4, h5, h6, ?_, ?_, ?_, h8, h9, h10, h11, h12⟩
  · rw [h7]
    simp only [List.length_flatten, List.map_ofFn, Function.comp_def, piece_map, List.length_map]
  · intro z hz
    have : ∃ i, z = (a i : Int) ∨ z = (b i : Int) := by
      rcases List.mem_append.1 hz with hz | hz
      · obtain ⟨i, rfl⟩ := List.mem_ofFn.1 hz
        exact ⟨i, .inl rfl⟩
      · obtain ⟨i, rfl⟩ := List.mem_ofFn.1 hz
        exact ⟨i, .inr rfl⟩
    obtain ⟨i, hi⟩ := this
    have g1 := (hab i).1
    have g2 := (hab i).2.1
    simp only at g1 g2
    omega
  · intro v junk hj
    obtain ⟨rs', hrs'⟩ : ∃ rs' : List ((Fin n → ℝ) × (Nat × Nat)), rs' = List.ofFn fun i => ((fun j => round6 (M i j)), (a i, b i)) := ⟨_, rfl⟩
    have hin : ∀ q ∈ rs', Filterbank.InBand q.1 q.2 := by
      intro q hq
      rw [hrs'] at hq
      obtain ⟨i, rfl⟩ := List.mem_ofFn.1 hq
      obtain ⟨g1, g2, g3⟩ := hab i
      refine ⟨g1, g2, fun j hj => (g3 j).1 fun e => hj ?_⟩
      simp only [e]
      exact round6_zero
    have hc := Filterbank.cLoop_bands v rs' hin [] [] [] [] rfl rfl
    simp only [List.nil_append, List.length_nil] at hc
    have es : (List.ofFn fun i => (a i : Int)).map Int.toNat = rs'.map fun q => q.2.1 := by rw [hrs', List.map_ofFn, List.map_ofFn]; simp [Function.comp_def]
    have ee : (List.ofFn fun i => (b i : Int)).map Int.toNat = rs'.map fun q => q.2.2 := by rw [hrs', List.map_ofFn, List.map_ofFn]; simp [Function.comp_def]
    have el : (List.ofFn fun i => Filterbank.piece (fun j => round6 (M i j)) (a i, b i)).flatten = (rs'.map fun q => Filterbank.piece q.1 q.2).flatten := by
      rw [hrs', List.map_ofFn]
      rfl
    have hlen : junk.length = rs'.length := by rw [hrs', List.length_ofFn, hj]
    have hz : (junk.map fun _ => (0 : ℝ)) = rs'.map fun _ => 0 := by rw [List.map_const', List.map_const', hlen]
    rw [Filterbank.cFilterbank, hz, hlen, es, ee, el, hc, hrs', List.map_ofFn]
    rfl

/-- **C95.** Writing six decimals changes an output by at most `0.5e-6` times the sum of the inputs' magnitudes. -/
theorem C95_filterbank_error {m n : Nat} (M : Matrix (Fin m) (Fin n) ℚ) (v : Fin n → ℝ) (i : Fin m) :
    |(roundedMatrix M).mulVec v i - ∑ j, (M i j : ℝ) * v j| ≤ 1 / (2 * 10 ^ 6) * ∑ j, |v j| := by
  have e : (roundedMatrix M).mulVec v i - ∑ j, (M i j : ℝ) * v j = ∑ j, (round6 (M i j) - (M i j : ℝ)) * v j := by
    show ∑ j, round6 (M i j) * v j - _ = _
    rw [← Finset.sum_sub_distrib]
    exact Finset.sum_congr rfl fun j _ => by ring
  rw [e, Finset.mul_sum]
  refine (Finset.abs_sum_le_sum_abs _ _).trans (Finset.sum_le_sum fun j _ => ?_)
  rw [abs_mul]
  exact mul_le_mul_of_nonneg_right (round6_close _) (abs_nonneg _)

/-- A concrete filterbank: two triangular filters. -/
def exMels : Matrix (Fin 2) (Fin 4) ℚ := !![1/2, 1, 0, 0; 0, 1/4, -1/3, 0]

def exExtra : Extra := ⟨some [100, 5512 + 1/2], some 6, some 11025, some 0, some (11025 / 2)⟩

theorem ex_filterbank : FilterbankArgs exMels "mel".toList exExtra 70 := by
  refine ⟨?_, by decide, by decide, ?_, by constructor <;> decide +kernel, ?_, ?_, by decide⟩
  · intro i
    fin_cases i
    · exact ⟨0, 1, by decide, by decide, by decide +kernel⟩
    · exact ⟨1, 2, by decide, by decide, by decide +kernel⟩
  · decide +kernel
  · intro fs h
    simp only [exExtra, Option.some.injEq] at h
    subst h
    exact ⟨by simp, by decide, by decide +kernel⟩
  · intro v h
    simp only [exExtra, Option.some.injEq] at h
    rcases h with rfl | rfl | rfl | rfl <;> decide +kernel

def exRows : List (List ℚ) := [[1/2, 1, 0, 0], [0, 1/4, -1/3, 0]]

example : Filterbank.rows exMels = exRows := by
  simp [Filterbank.rows, exMels, exRows, List.ofFn_succ]

example : filterbankFile (fun _ => []) exRows "mel".toList exExtra 70 =
    some "// This file was generated with emlearn using eml-mel-filterbank\n\nstatic const int mel_bands = 2; \n\nstatic const int mel_starts[2] = {\n0, 1 };\n\nstatic const int mel_ends[2] = { 1, 2 };\n\nstatic const int\nmel_length = 4; \n\nstatic const float mel_lut[4] = { 0.500000f,\n1.000000f, 0.250000f, -0.333333f };\n\nstatic const float\nmel_frequencies[2] = { 100.000000f, 5512.500000f };\n\nstatic const int\nmel_nfft = 6; \n\nstatic const int mel_samplerate = 11025; \n\nstatic\nconst int mel_fmax = 5512; \n\nstatic const int mel_fmin = 0;\n\n".toList := by
  decide +kernel

def exC : CFloat ℚ := { exactOps ℚ with lit := fun neg q => if neg then -q else q, toInt := fun _ => none }

/-- **C95** (negation) the constant for the highest frequency is an integer: for an odd sample rate, half of it is cut (11025 Hz: 5512 instead of 5512.5). -/
theorem C95_fmax_refuted : ((filterbankFile (fun _ => []) exRows "mel".toList exExtra 70).map fun t => (parse t).map fun p =>
    readConst exC p "mel_fmax".toList) = some (some (some 5512)) ∧ exExtra.fmax = some (5512 + 1 / 2) := by
  constructor
  · decide +kernel
  · decide +kernel

end Emlearn.Tools
