/- C76 (text): the names of the motion features as texts in a buffer. -/
import Verif.Motion.Process
import Verif.Props.MotionPre
import Verif.Csv.Lemmas
import Mathlib.Data.List.Basic
namespace Emlearn.Motion

/-- Specification: the name of a feature, as a text. -/
noncomputable def featureName (p : Pre) (index : Nat) : List Char := if index < 8 then fixedNames.getD index [] else fftName p index

theorem snprintf_fit (buf : List Char) (off len : Nat) (text : List Char) (h : text.length < len) (hb : off + len ≤ buf.length) :
    snprintf buf off len text = some (text.length, buf.take off ++ (text ++ ['\x00']) ++ buf.drop (off + text.length + 1)) := by
  unfold snprintf
  rw [if_neg (by omega), List.take_of_length_le (by omega : text.length ≤ len - 1)]
  simp only [List.length_append, List.length_singleton]
  rw [if_pos (by omega)]
  simp [Nat.add_assoc]

theorem snprintf_short (buf : List Char) (off len : Nat) (text : List Char) (h : len ≤ text.length) (hb : off + len ≤ buf.length) :
    ∃ out, out.length = len ∧ snprintf buf off len text = some (text.length, buf.take off ++ out ++ buf.drop (off + len)) := by
  unfold snprintf
  by_cases h0 : len = 0
  · subst h0
    exact ⟨[], rfl, by simp⟩
  · have hl : (text.take (len - 1) ++ ['\x00']).length = len := by simp; omega
    refine ⟨text.take (len - 1) ++ ['\x00'], hl, ?_⟩
    rw [if_neg h0]
    simp only [hl]
    rw [if_pos (by omega)]

theorem getFeatureName_eq (p : Pre) (index : Nat) (hi : (index : Int) < getFeatureLength p) (buf : List Char) (off len : Nat) :
    getFeatureName p index buf off len = (snprintf buf off len (featureName p index)).map fun r =>
      if r.1 ≥ len then (if index < 8 then -5 else -7, r.2) else ((r.1 : Int) + 1, r.2) := by
  unfold getFeatureName featureName
  simp only []
  rw [if_neg (by omega), if_neg (by omega), if_neg (by omega)]
  by_cases h : index < 8
  · rw [if_pos (by omega : (index : Int) < 8), if_pos h, Int.toNat_natCast]
    simp only [if_pos h]
  · rw [if_neg (by omega : ¬ (index : Int) < 8), if_neg h]
    simp only [if_neg h]

theorem fixedNames_len : fixedNames.length = 8 := rfl

theorem getD_fixed {i : Nat} (h : i < 8) : fixedNames.getD i [] = fixedNames[i]'(by rw [fixedNames_len]; exact h) := by
  rw [List.getD_eq_getElem?_getD, List.getElem?_eq_getElem (by rw [fixedNames_len]; exact h)]; rfl

theorem fixedNames_ok : ∀ n ∈ fixedNames, '\x00' ∉ n ∧ ',' ∉ n ∧ '\n' ∉ n ∧ n ≠ [] ∧ n.length ≤ 14 ∧ n.head? ≠ some 'f' := by decide +kernel

theorem fixedNames_nodup : fixedNames.Nodup := by decide +kernel

theorem fftName_no (p : Pre) (index : Int) {c : Char} (h : c ∈ fftName p index) : c ∈ "fft_hz-".toList ∨ c.isDigit = true := by
  unfold fftName at h
  simp only [List.mem_append] at h
  rcases h with (((h | h) | h) | h) | h
  · left; revert h; revert c; decide +kernel
  · rcases showInt_chars h with h | h
    · exact Or.inr h
    · left; subst h; decide +kernel
  · left; revert h; revert c; decide +kernel
  · rcases showInt_chars h with h | h
    · exact Or.inr h
    · left; subst h; decide +kernel
  · left; revert h; revert c; decide +kernel

theorem featureName_clean (p : Pre) (index : Nat) : Csv.Clean (featureName p index) := by
  intro c hc
  unfold featureName at hc
  split at hc
  · rename_i h
    have hm : fixedNames.getD index [] ∈ fixedNames := by
      rw [getD_fixed h]
      exact List.getElem_mem _
    have := fixedNames_ok _ hm
    refine ⟨?_, ?_, ?_⟩ <;> rintro rfl
    · exact this.2.1 hc
    · exact this.2.2.1 hc
    · exact this.1 hc
  · rcases fftName_no p index hc with h | h
    · refine ⟨?_, ?_, ?_⟩ <;> rintro rfl <;> revert h <;> decide +kernel
    · refine ⟨?_, ?_, ?_⟩ <;> rintro rfl <;> revert h <;> decide +kernel

theorem cstr_at (pre text post : List Char) (h : '\x00' ∉ text) : Csv.cstr (pre ++ (text ++ ['\x00']) ++ post) pre.length = text := by
  unfold Csv.cstr
  rw [List.append_assoc, List.drop_left, List.append_assoc]
  rw [List.takeWhile_append_of_pos]
  · simp
  · intro a ha
    simp only [ne_eq, decide_eq_true_eq]
    rintro rfl
    exact h ha

theorem fftName_inj (p : Pre) (i j : Int) (h : fftName p i = fftName p j) : fftNameParts p i = fftNameParts p j := by
  unfold fftName at h
  have hn : ∀ z : Int, '_' ∉ showInt z := fun z => showInt_not_sep (by decide) (by decide)
  have hn' : ∀ z : Int, 'h' ∉ showInt z := fun z => showInt_not_sep (by decide) (by decide)
  simp only [List.append_assoc, List.append_cancel_left_eq] at h
  have h1 := (List.append_cons_inj_of_notMem (a₁ := '_') (a₂ := '_') (hn (fftNameParts p i).1) (z₁ := showInt (fftNameParts p i).2 ++ "hz".toList) (fun hm => by
    rcases List.mem_append.1 hm with hm | hm
    · exact hn _ hm
    · revert hm; decide +kernel)).1 (show showInt (fftNameParts p i).1 ++ '_' :: (showInt (fftNameParts p i).2 ++ "hz".toList) = showInt (fftNameParts p j).1 ++ '_' :: (showInt (fftNameParts p j).2 ++ "hz".toList) from h)
  have h2 := (List.append_cons_inj_of_notMem (a₁ := 'h') (a₂ := 'h') (hn' (fftNameParts p i).2) (z₁ := ['z']) (by decide)).1 (show showInt (fftNameParts p i).2 ++ 'h' :: ['z'] = showInt (fftNameParts p j).2 ++ 'h' :: ['z'] from h1.2.2)
  have inj : ∀ a b : Int, showInt a = showInt b → a = b := fun a b e => by
    have := congrArg readInt e
    rw [readInt_showInt, readInt_showInt] at this
    exact Option.some.inj this
  exact Prod.ext (inj _ _ h1.1) (inj _ _ h2.1)

/-- **C76 (text).** For every feature index and every buffer, `get_feature_name` writes the name of the feature with a closing NUL if it fits and returns the number of characters written;
if it does not fit it returns an error; an index out of range is an error that writes nothing. No character outside the given part of the buffer changes. -/
theorem C76_name_text (p : Pre) (hn : 0 ≤ getFeatureLength p) (index : Int) (buf : List Char) (off len : Nat) (hb : off + len ≤ buf.length) :
    (index < 0 ∨ getFeatureLength p ≤ index → getFeatureName p index buf off len = some (-2, buf)) ∧
    ∀ k : Nat, index = k → index < getFeatureLength p →
      ((featureName p k).length < len → ∃ buf', getFeatureName p index buf off len = some (((featureName p k).length : Int) + 1, buf') ∧
        Csv.cstr buf' off = featureName p k ∧ buf'.length = buf.length ∧ ∀ i, i < off ∨ off + (featureName p k).length + 1 ≤ i → buf'[i]? = buf[i]?) ∧
      (len ≤ (featureName p k).length → ∃ (e : Int) (buf' : List Char), e < 0 ∧ getFeatureName p index buf off len = some (e, buf') ∧
        buf'.length = buf.length ∧ ∀ i, i < off ∨ off + len ≤ i → buf'[i]? = buf[i]?) := by
  have same : ∀ (out : List Char), off + out.length ≤ buf.length → ∀ i, i < off ∨ off + out.length ≤ i → (buf.take off ++ out ++ buf.drop (off + out.length))[i]? = buf[i]? := by
    intro out ho i hi
    have hl : (buf.take off).length = off := by rw [List.length_take]; omega
    rcases hi with hi | hi
    · rw [List.append_assoc, List.getElem?_append_left (by omega), List.getElem?_take, if_pos hi]
    · rw [List.getElem?_append_right (by rw [List.length_append]; omega), List.getElem?_drop, List.length_append, hl]
      congr 1; omega
  constructor
  · rintro (h | h)
    · unfold getFeatureName; simp only []
      rw [if_neg (by omega), if_pos h]
    · unfold getFeatureName; simp only []
      rw [if_neg (by omega)]
      split
      · rfl
      · rw [if_pos (by omega)]
  · rintro k rfl hk
    rw [getFeatureName_eq p k hk]
    constructor
    · intro hl
      rw [snprintf_fit _ _ _ _ hl hb]
      simp only [Option.map_some]
      rw [if_neg (by omega)]
      refine ⟨_, rfl, ?_, ?_, ?_⟩
      · have hl2 : (buf.take off).length = off := by rw [List.length_take]; omega
        have := cstr_at (buf.take off) (featureName p k) (buf.drop (off + (featureName p k).length + 1)) (fun h => (featureName_clean p k _ h).2.2 rfl)
        rw [hl2] at this
        exact this
      · simp; omega
      · intro i hi
        have := same (featureName p k ++ ['\x00']) (by simp; omega) i (by simp; omega)
        rw [List.length_append, List.length_singleton, ← Nat.add_assoc] at this
        exact this
    · intro hl
      obtain ⟨out, ho, e⟩ := snprintf_short _ _ _ _ hl hb
      rw [e]
      simp only [Option.map_some]
      rw [if_pos hl]
      refine ⟨_, _, ?_, rfl, ?_, ?_⟩
      · split <;> omega
      · simp; omega
      · intro i hi
        have := same out (by omega) i (by omega)
        rw [ho] at this
        exact this

/-- **C76 (value).** The two numbers in the name of an FFT feature give the frequency of its bin to within 0.05 Hz (the tenths can be 10: `C76_refuted`). -/
theorem C76_name_value (p : Pre) (index : Int) :
    0 ≤ (fftNameParts p index).1 ∧ 0 ≤ (fftNameParts p index).2 ∧ (fftNameParts p index).2 ≤ 10 ∧
    |((fftNameParts p index).1 : ℝ) + ((fftNameParts p index).2 : ℝ) / 10 - abs (((index - 8 + p.fftStart : Int) : ℝ) * p.samplerate / p.fftLength)| ≤ 1 / 20 := by
  unfold fftNameParts
  simp only []
  have e : ((index - 8 + p.fftStart : Int) : ℝ) * p.samplerate / p.fftLength = ((index - 8 + p.fftStart : Int) : ℝ) * ((p.samplerate : ℝ) / p.fftLength) := by ring
  rw [e]
  set f := |((index - 8 + p.fftStart : Int) : ℝ) * ((p.samplerate : ℝ) / p.fftLength)| with hf
  have h0 : 0 ≤ f := abs_nonneg _
  have h1 := Int.fract_nonneg f
  have h2 := Int.fract_lt_one f
  have h3 := Int.floor_le (Int.fract f * 10 + 1 / 2)
  have h4 := Int.lt_floor_add_one (Int.fract f * 10 + 1 / 2)
  refine ⟨Int.floor_nonneg.2 h0, Int.floor_nonneg.2 (by linarith), ?_, ?_⟩
  · have : ⌊Int.fract f * 10 + 1 / 2⌋ < 11 := Int.floor_lt.2 (by push_cast; linarith)
    omega
  · have h5 : (⌊f⌋ : ℝ) = f - Int.fract f := by rw [Int.fract]; ring
    rw [h5, abs_le]
    constructor <;> linarith

/-- **C76 (all names).** When the FFT bins are at least 0.1 Hz apart, no two features have the same name. -/
theorem C76_all_names_distinct (p : Pre) (hs : 0 ≤ p.fftStart) (hsp : (1 : ℝ) / 10 ≤ (p.samplerate : ℝ) / p.fftLength) (i j : Nat) (hij : i ≠ j) :
    featureName p i ≠ featureName p j := by
  wlog hlt : i < j generalizing i j
  · exact fun h => this j i (Ne.symm hij) (by omega) h.symm
  intro h
  unfold featureName at h
  by_cases hi : i < 8
  · rw [if_pos hi] at h
    by_cases hj : j < 8
    · rw [if_pos hj, getD_fixed hi, getD_fixed hj] at h
      exact hij (List.Nodup.getElem_inj_iff fixedNames_nodup |>.1 h)
    · rw [if_neg hj] at h
      have hm : fixedNames.getD i [] ∈ fixedNames := by
        rw [getD_fixed hi]
        exact List.getElem_mem _
      have := (fixedNames_ok _ hm).2.2.2.2.2
      rw [h] at this
      exact this rfl
  · rw [if_neg hi, if_neg (by omega)] at h
    exact C76_names_distinct p i j hs (by omega) (by omega) hsp (fftName_inj p i j h)

end Emlearn.Motion
