/- The C header that `examples/motion_recognition/tools/gravity_lowpass.py` writes for a filter, and its macro. The coefficients (`scipy.signal.iirfilter`) are arbitrary numbers. -/
import Verif.Tools.Text
import Verif.Props.Harness
import Verif.Signal.IirRun
namespace Emlearn.Tools
open Emlearn.Cgen Emlearn.MiniC

/-- The header for the flattened coefficients, `gravity_lowpass.py` 45-58 (`--format header`). -/
def gravityHeader (other : ℚ → List Char) (name : List Char) (flat : List ℚ) : Option (List Char) :=
  (arrayDeclare other (name ++ "_values".toList) none "float".toList "static const".toList (some flat) [] []).map fun arr =>
    "// Generated using lowpass.py\n\n".toList ++ ("#define ".toList ++ name ++ "_length ".toList ++ showNat flat.length ++ "\n".toList) ++ arr ++ "\n".toList

/-- `sos.flatten()` of the array of second-order sections, `gravity_lowpass.py` 43. -/
def flatten (cs : List (Iir.Sos ℚ)) : List ℚ := (cs.map Iir.Sos.toList).flatten

/-- What a C preprocessor replaces the macro `x` by: the rest of the line `#define x ...`. (Directives that span lines, or with other spacing, do not occur.) -/
def macroValue (text x : List Char) : Option (List Char) :=
  (Harness.pySplit '\n' text).findSome? fun line => ("#define ".toList ++ x ++ [' ']).isPrefixOf? line

/-- The two things a program takes from the header: the array `<name>_values` and the number `<name>_length`. -/
def loadHeader {F : Type} (ops : CFloat F) (name text : List Char) : Option (List F × Nat) :=
  match (parse text).bind fun prog => Net.CText.readFloats ops prog (name ++ "_values".toList), (macroValue text (name ++ "_length".toList)).bind readNat with
  | some vs, some n => some (vs, n)
  | _, _ => none

/-! ### Reading the header -/

theorem lex_skip (s r : List Char) (h : '\n' ∉ s) : lexFrom (s ++ '\n' :: r) [] true = lex r := by
  induction s with
  | nil => rfl
  | cons c s ih =>
    rw [List.mem_cons, not_or] at h
    have hc : (c != '\n') = true := by simpa using Ne.symm h.1
    rw [List.cons_append, lexFrom, hc]
    exact ih h.2

theorem directive_lexes (s : List Char) (h : '\n' ∉ s) : Lexes ('#' :: s ++ ['\n']) [] := by
  intro r
  rw [List.nil_append, List.append_assoc, List.singleton_append, List.cons_append]
  unfold lex
  rw [lexFrom]
  exact lex_skip s r h

theorem isPrefixOf?_append {α : Type} [BEq α] [LawfulBEq α] (l m : List α) : l.isPrefixOf? (l ++ m) = some m := by
  induction l with
  | nil => rfl
  | cons a l ih => rw [List.cons_append, List.isPrefixOf?]; simp [ih]

theorem noNewline_name {x : List Char} (h : isName x = true) : '\n' ∉ x := by
  intro hm
  cases x with
  | nil => cases hm
  | cons c r =>
    unfold isName at h
    simp only [Bool.and_eq_true, List.all_eq_true] at h
    rcases List.mem_cons.1 hm with rfl | hm
    · exact absurd h.1 (by decide)
    · exact absurd (h.2 _ hm) (by decide)

theorem header_some (other : ℚ → List Char) (name : List Char) (flat : List ℚ) : ∃ arr, arrayDeclare other (name ++ "_values".toList) none "float".toList "static const".toList (some flat) [] [] = some arr ∧
    arrayDeclare other (name ++ "_values".toList) (some (flat.length : Int)) "float".toList "static const".toList (some flat) [] [] = some arr := by
  unfold arrayDeclare
  simp only [Option.getD_none, Option.getD_some, if_true]
  exact ⟨_, rfl, rfl⟩

theorem header_load {F : Type} (ops : CFloat F) (other : ℚ → List Char) (name : List Char) (hn : isName name = true) (flat : List ℚ) (hne : flat ≠ []) :
    ∃ text, gravityHeader other name flat = some text ∧ loadHeader ops name text = some (flat.map (floatLit ops), flat.length) := by
  obtain ⟨arr, h1, h2⟩ := header_some other name flat
  have hv : isName (name ++ "_values".toList) = true := isName_append hn (by decide +kernel)
  have hnl : '\n' ∉ name ++ "_length ".toList ++ showNat flat.length := by
    rw [List.mem_append, List.mem_append, not_or, not_or]
    exact ⟨⟨noNewline_name hn, by decide +kernel⟩, fun h => absurd (showNat_digits h) (by decide)⟩
  have hl : Lexes ("// Generated using lowpass.py\n\n".toList ++ ("#define ".toList ++ name ++ "_length ".toList ++ showNat flat.length ++ "\n".toList) ++ arr ++ "\n".toList) (Net.CText.floatArr (name ++ "_values".toList) flat).print := by
    have a1 : Lexes "// Generated using lowpass.py\n\n".toList [] := lexes_lits _ _ (by decide +kernel) (by decide +kernel)
    have a2 : Lexes ("#define ".toList ++ name ++ "_length ".toList ++ showNat flat.length ++ "\n".toList) [] := by
      have := directive_lexes ("define ".toList ++ (name ++ "_length ".toList ++ showNat flat.length)) (by
        rw [List.mem_append, not_or]
        exact ⟨by decide +kernel, hnl⟩)
      have e : '#' :: ("define ".toList ++ (name ++ "_length ".toList ++ showNat flat.length)) ++ ['\n'] = "#define ".toList ++ name ++ "_length ".toList ++ showNat flat.length ++ "\n".toList := by
        rw [show "#define ".toList = '#' :: "define ".toList by decide +kernel, show "\n".toList = ['\n'] by decide +kernel]
        simp only [List.append_assoc, List.cons_append]
      rwa [e] at this
    have a3 := Mixture.CText.array_lexes hv other flat arr h2
    have a4 : Lexes "\n".toList [] := lexes_lits _ _ (by decide +kernel) (by decide +kernel)
    have := ((a1.append a2).append a3).append a4
    simpa using this
  refine ⟨_, by rw [gravityHeader, h1, Option.map_some], ?_⟩
  have hp := parse_eq _ [.decl (Net.CText.floatArr (name ++ "_values".toList) flat)] (by
    intro t ht
    rw [List.mem_singleton] at ht
    subst ht
    exact Net.CText.floatArr_ok (nm_suffix hn (by decide +kernel) (by decide +kernel)) flat) (by rw [hl.lex]; simp [printProg, Top.print])
  have hr := read_floats ops [.arr (name ++ "_values".toList) flat.length "float".toList flat] (by simp) (name ++ "_values".toList) flat.length flat hne (by simp)
  have hm : ∀ arr, macroValue ("// Generated using lowpass.py\n\n".toList ++ ("#define ".toList ++ name ++ "_length ".toList ++ showNat flat.length ++ "\n".toList) ++ arr) (name ++ "_length".toList) = some (showNat flat.length) := by
    intro arr
    unfold macroValue
    have e : "// Generated using lowpass.py\n\n".toList ++ ("#define ".toList ++ name ++ "_length ".toList ++ showNat flat.length ++ "\n".toList) ++ arr =
        "// Generated using lowpass.py".toList ++ '\n' :: ([] ++ '\n' :: (("#define ".toList ++ (name ++ "_length ".toList ++ showNat flat.length)) ++ '\n' :: arr)) := by
      rw [show "// Generated using lowpass.py\n\n".toList = "// Generated using lowpass.py".toList ++ ['\n', '\n'] by decide +kernel, show "\n".toList = ['\n'] by decide +kernel]
      simp only [List.append_assoc, List.cons_append, List.nil_append]
    rw [e, Harness.pySplit_append _ _ _ (by decide +kernel), Harness.pySplit_append _ _ _ (by simp), Harness.pySplit_append _ _ _ (by
      rw [List.mem_append, not_or]
      exact ⟨by decide +kernel, hnl⟩)]
    rw [List.findSome?_cons, List.findSome?_cons, List.findSome?_cons]
    have n1 : ("#define ".toList ++ (name ++ "_length".toList) ++ [' ']).isPrefixOf? "// Generated using lowpass.py".toList = none := by
      rw [show "#define ".toList = '#' :: "define ".toList by decide +kernel, show "// Generated using lowpass.py".toList = '/' :: "/ Generated using lowpass.py".toList by decide +kernel]
      rfl
    have n2 : ("#define ".toList ++ (name ++ "_length".toList) ++ [' ']).isPrefixOf? ([] : List Char) = none := by
      rw [show "#define ".toList = '#' :: "define ".toList by decide +kernel]
      rfl
    have n3 : ("#define ".toList ++ (name ++ "_length".toList) ++ [' ']).isPrefixOf? ("#define ".toList ++ (name ++ "_length ".toList ++ showNat flat.length)) = some (showNat flat.length) := by
      have := isPrefixOf?_append ("#define ".toList ++ (name ++ "_length".toList) ++ [' ']) (showNat flat.length)
      rw [show "_length ".toList = "_length".toList ++ [' '] by decide +kernel]
      simpa only [List.append_assoc] using this
    rw [n1, n2, n3]
  have hm' := hm (arr ++ "\n".toList)
  rw [← List.append_assoc] at hm'
  unfold loadHeader
  rw [hp, hm', Option.bind_some, Option.bind_some, readNat_showNat]
  have hr' : Net.CText.readFloats ops [.decl (Net.CText.floatArr (name ++ "_values".toList) flat)] (name ++ "_values".toList) = some (flat.map (floatLit ops)) := hr
  rw [hr']

end Emlearn.Tools
