/- The loadable network code (`c_generate_net_loadable`) as text, read as a C program. -/
import Verif.Props.NetCodegen
import Verif.MiniC.Call
namespace Emlearn.Net.CText
open Emlearn.Cgen Emlearn.MiniC Emlearn.Net.Codegen

/-! ### The program -/

def floatArr (name : List Char) (vs : List ℚ) : MiniC.Decl :=
  ⟨["static".toList, "const".toList], "float".toList, name, some (showNat vs.length), some (.flat (vs.map (litExpr · "float".toList)) false)⟩

def layerArrs (pre : List Char) (p : Dense ℚ × Nat) : List MiniC.Decl :=
  [floatArr (formatName pre p.2 "biases".toList) p.1.b, floatArr (formatName pre p.2 "weights".toList) p.1.w.flatten]

def buffer (name : List Char) (n : Nat) : MiniC.Decl := ⟨["static".toList], "float".toList, name, some (showNat n), none⟩

def layerRow (pre : List Char) (p : Dense ℚ × Nat) : List Expr :=
  [.lit (showNat p.1.nOut), .lit (showNat p.1.nIn), .var (formatName pre p.2 "weights".toList), .var (formatName pre p.2 "biases".toList), .var (actText p.1.act)]

def layersArr (pre : List Char) (ds : List (Dense ℚ)) : MiniC.Decl :=
  ⟨["static".toList, "const".toList], "EmlNetLayer".toList, pre ++ "_layers".toList, some (showNat ds.length), some (.nested (ds.zipIdx.map (layerRow pre)))⟩

def netVar (pre : List Char) (ds : List (Dense ℚ)) : MiniC.Decl :=
  ⟨["static".toList], "EmlNet".toList, pre, none, some (.flat [.lit (showNat ds.length), .var (pre ++ "_layers".toList), .var (pre ++ "_buf1".toList), .var (pre ++ "_buf2".toList),
    .lit (showNat (bufferSize ds))] false)⟩

def inParams : List Param := [⟨true, "float".toList, true, "features".toList⟩, ⟨false, "int32_t".toList, false, "n_features".toList⟩]
def outParams : List Param := [⟨false, "float".toList, true, "out".toList⟩, ⟨false, "int32_t".toList, false, "out_length".toList⟩]
def inArgs (pre : List Char) : List Arg := [⟨some '&', pre⟩, ⟨none, "features".toList⟩, ⟨none, "n_features".toList⟩]
def outArgs : List Arg := [⟨none, "out".toList⟩, ⟨none, "out_length".toList⟩]

def predictF (pre : List Char) : Func := ⟨[], "int32_t".toList, pre ++ "_predict".toList, inParams, .ret (.call "eml_net_predict".toList (inArgs pre)) .done⟩
def regressF (pre : List Char) : Func := ⟨[], "int32_t".toList, pre ++ "_regress".toList, inParams ++ outParams, .ret (.call "eml_net_regress".toList (inArgs pre ++ outArgs)) .done⟩
def regress1F (pre : List Char) : Func := ⟨[], "float".toList, pre ++ "_regress1".toList, inParams, .ret (.call "eml_net_regress1".toList (inArgs pre)) .done⟩

/-- The arrays of numbers. -/
def netArrs (pre : List Char) (ds : List (Dense ℚ)) : List MiniC.Decl :=
  ds.zipIdx.flatMap (layerArrs pre) ++ [buffer (pre ++ "_buf1".toList) (bufferSize ds), buffer (pre ++ "_buf2".toList) (bufferSize ds)]

def netProg (pre : List Char) (ds : List (Dense ℚ)) : Prog :=
  (netArrs pre ds).map .decl ++ [.decl (layersArr pre ds), .decl (netVar pre ds), .func (predictF pre), .func (regressF pre), .func (regress1F pre)]

/-! ### Words of the text -/

theorem floatArr_lexes {name : List Char} (hn : isName name = true) (vs : List ℚ) : Lexes ((arrD name vs).body ++ [';']) (floatArr name vs).print := by
  refine arrayDeclare_lexes (fun _ => []) name "float".toList ["static".toList, "const".toList] vs _ hn (by constructor <;> decide +kernel) (.inl rfl) (by
    intro w hw; simp only [List.mem_cons, List.not_mem_nil, or_false] at hw; rcases hw with rfl | rfl <;> constructor <;> decide +kernel) ?_
  have h := arrayDeclareFixedpoint_float (fun _ => []) name vs vs.length rfl
  unfold arrayDeclareFixedpoint at h
  rw [show [' '].intercalate ["static".toList, "const".toList] = "static const".toList by decide +kernel]
  exact h

set_option simprocs false in
theorem buffer_lexes {name : List Char} (hn : isName name = true) (n : Nat) : Lexes ((bufDecl name n).body ++ [';']) (buffer name n).print := by
  have k1 := lexes_word_chain (showNat n) (isWord_showNat n) "];".toList [.sym ']', .sym ';'] (by decide +kernel) Lexes.nil
  have k2 := lexes_word_chain name (isName_word hn) "[".toList [.sym '['] (by decide +kernel) k1
  have k := lexes_lit_chain "static float ".toList [.word "static".toList, .word "float".toList] (by decide +kernel) k2
  refine k.congr ?_ rfl
  unfold bufDecl Reader.Decl.body
  rw [showInt_nat, show "static float ".toList = "static ".toList ++ "float".toList ++ [' '] by decide +kernel, show "];".toList = [']', ';'] by decide +kernel, show "[".toList = ['['] by decide +kernel]
  simp only [List.append_assoc, List.cons_append, List.nil_append, List.append_nil]

theorem isName_format {pre : List Char} (h : isName pre = true) (n : Nat) {v : List Char} (hv : v.all identRest = true) : isName (formatName pre n v) = true := by
  unfold formatName
  refine isName_append (isName_append (isName_append (isName_append h (by decide +kernel)) ?_) (by decide +kernel)) hv
  exact List.all_eq_true.2 fun c hc => Cgen.Reader.identRest_digit (showNat_digits hc)

theorem isWord_actText {a : Act} (h : a ≠ .other) : IsWord (actText a) := isWord_of_word (word_actText h) (by cases a <;> first | decide +kernel | exact absurd rfl h)

set_option simprocs false in
theorem row_lexes {pre : List Char} (hn : isName pre = true) (p : Dense ℚ × Nat) (ha : p.1.act ≠ .other) :
    Lexes ('\n' :: structInit (entryFields pre p)) (.sym '{' :: (printExprs (layerRow pre p) ++ [.sym '}'])) := by
  have k5 := lexes_word_chain (actText p.1.act) (isWord_actText ha) " }".toList [.sym '}'] (by decide +kernel) Lexes.nil
  have k4 := lexes_word_chain (formatName pre p.2 "biases".toList) (isName_word (isName_format hn _ (by decide +kernel))) [',', ' '] [.sym ','] (by decide +kernel) k5
  have k3 := lexes_word_chain (formatName pre p.2 "weights".toList) (isName_word (isName_format hn _ (by decide +kernel))) [',', ' '] [.sym ','] (by decide +kernel) k4
  have k2 := lexes_word_chain (showNat p.1.nIn) (isWord_showNat _) [',', ' '] [.sym ','] (by decide +kernel) k3
  have k1 := lexes_word_chain (showNat p.1.nOut) (isWord_showNat _) [',', ' '] [.sym ','] (by decide +kernel) k2
  have k := lexes_lit_chain "\n{ ".toList [.sym '{'] (by decide +kernel) k1
  refine k.congr ?_ ?_
  · rw [show "\n{ ".toList = '\n' :: "{ ".toList by decide +kernel]
    unfold structInit entryFields
    simp only [List.intercalate, List.intersperse, List.flatten_cons, List.flatten_nil, List.append_assoc, List.cons_append, List.nil_append, List.append_nil]
  · rfl

theorem rows_lexes {pre : List Char} (hn : isName pre = true) (l : List (Dense ℚ × Nat)) (hne : l ≠ []) (ha : ∀ p ∈ l, p.1.act ≠ .other) :
    Lexes ([',', ' '].intercalate (l.map fun p => '\n' :: structInit (entryFields pre p))) (printGroups (l.map (layerRow pre))) := by
  have hsep := lexes_lits [',', ' '] [.sym ','] (by decide +kernel) (by decide +kernel)
  generalize [',', ' '] = sep at hsep ⊢
  induction l with
  | nil => exact absurd rfl hne
  | cons p l ih =>
    have h1 := row_lexes hn p (ha p (by simp))
    cases l with
    | nil => simpa [List.intercalate, printGroups] using h1
    | cons q l =>
      have h2 := ih (by simp) (fun p hp => ha p (by simp [hp]))
      refine (h1.append (hsep.append h2)).congr ?_ ?_
      · simp [List.intercalate]
      · simp [printGroups]

theorem zipIdx_mem {ds : List (Dense ℚ)} {p : Dense ℚ × Nat} (hp : p ∈ ds.zipIdx) : p.1 ∈ ds := by
  obtain ⟨h1, h2, h3⟩ := List.mem_zipIdx (x := p.1) (i := p.2) hp
  rw [h3]; exact List.getElem_mem _

set_option simprocs false in
theorem layers_lexes {pre : List Char} (hn : isName pre = true) (ds : List (Dense ℚ)) (hne : ds ≠ []) (ha : ∀ d ∈ ds, d.act ≠ .other) :
    Lexes ((Reader.arrDecl "static const ".toList "EmlNetLayer".toList (pre ++ "_layers".toList) (showInt ds.length) (ds.zipIdx.map fun p => '\n' :: structInit (entryFields pre p))).body ++ [';'])
      (layersArr pre ds).print := by
  have k3 := (rows_lexes hn ds.zipIdx (by simpa using hne) (fun p hp => ha _ (zipIdx_mem hp))).append (lexes_lit_chain " };".toList [.sym '}', .sym ';'] (by decide +kernel) Lexes.nil)
  have k2 := lexes_word_chain (showNat ds.length) (isWord_showNat _) "] = { ".toList [.sym ']', .sym '=', .sym '{'] (by decide +kernel) k3
  have k1 := lexes_word_chain (pre ++ "_layers".toList) (isName_word (isName_append hn (by decide +kernel))) "[".toList [.sym '['] (by decide +kernel) k2
  have k := lexes_lit_chain "static const EmlNetLayer ".toList [.word "static".toList, .word "const".toList, .word "EmlNetLayer".toList] (by decide +kernel) k1
  refine k.congr ?_ ?_
  · unfold Reader.arrDecl Reader.Decl.body
    rw [showInt_nat, show "static const EmlNetLayer ".toList = "static const ".toList ++ "EmlNetLayer".toList ++ [' '] by decide +kernel, show "] = { ".toList = [']'] ++ " = { ".toList by decide +kernel,
      show " };".toList = " }".toList ++ [';'] by decide +kernel, show "[".toList = ['['] by decide +kernel]
    simp only [List.append_assoc, List.cons_append, List.nil_append, List.append_nil]
  · show Decl.print _ = _
    unfold layersArr Decl.print Init.print
    simp only [List.map_cons, List.map_nil, List.append_assoc, List.cons_append, List.nil_append, List.append_nil]

set_option simprocs false in
theorem netVar_lexes {pre : List Char} (hn : isName pre = true) (ds : List (Dense ℚ)) :
    Lexes ((⟨"static ".toList, "EmlNet".toList, pre, [' '], '=', ' ' :: structInit (netFields pre ds)⟩ : Reader.Decl).body ++ [';']) (netVar pre ds).print := by
  have hb : ∀ {s : List Char}, s.all identRest = true → IsWord (pre ++ s) := fun h => isName_word (isName_append hn h)
  have k5 := lexes_word_chain (showNat (bufferSize ds)) (isWord_showNat _) " };".toList [.sym '}', .sym ';'] (by decide +kernel) Lexes.nil
  have k4 := lexes_word_chain (pre ++ "_buf2".toList) (hb (by decide +kernel)) [',', ' '] [.sym ','] (by decide +kernel) k5
  have k3 := lexes_word_chain (pre ++ "_buf1".toList) (hb (by decide +kernel)) [',', ' '] [.sym ','] (by decide +kernel) k4
  have k2 := lexes_word_chain (pre ++ "_layers".toList) (hb (by decide +kernel)) [',', ' '] [.sym ','] (by decide +kernel) k3
  have k1 := lexes_word_chain (showNat ds.length) (isWord_showNat _) [',', ' '] [.sym ','] (by decide +kernel) k2
  have k0 := lexes_word_chain pre (isName_word hn) " = { ".toList [.sym '=', .sym '{'] (by decide +kernel) k1
  have k := lexes_lit_chain "static EmlNet ".toList [.word "static".toList, .word "EmlNet".toList] (by decide +kernel) k0
  refine k.congr ?_ rfl
  unfold Reader.Decl.body structInit netFields
  rw [showInt_nat, show "static EmlNet ".toList = "static ".toList ++ "EmlNet".toList ++ [' '] by decide +kernel, show " = { ".toList = [' ', '=', ' '] ++ "{ ".toList by decide +kernel,
    show " };".toList = " }".toList ++ [';'] by decide +kernel]
  simp only [List.intercalate, List.intersperse, List.flatten_cons, List.flatten_nil, List.append_assoc, List.cons_append, List.nil_append, List.append_nil]

set_option simprocs false in
theorem predictF_lexes {pre : List Char} (hn : isName pre = true) :
    Lexes ("\n    int32_t\n    ".toList ++ pre ++ "_predict(const float *features, int32_t n_features)\n    {\n        return eml_net_predict(&".toList ++ pre ++ ", features, n_features);\n    }\n    ".toList)
      (predictF pre).print := by
  have k2 := lexes_word_chain pre (isName_word hn) ", features, n_features);\n    }\n    ".toList [.sym ',', .word "features".toList, .sym ',', .word "n_features".toList, .sym ')', .sym ';', .sym '}'] (by decide +kernel) Lexes.nil
  have k1 := lexes_word_chain (pre ++ "_predict".toList) (isName_word (isName_append hn (by decide +kernel))) "(const float *features, int32_t n_features)\n    {\n        return eml_net_predict(&".toList
    [.sym '(', .word "const".toList, .word "float".toList, .sym '*', .word "features".toList, .sym ',', .word "int32_t".toList, .word "n_features".toList, .sym ')', .sym '{', .word "return".toList,
      .word "eml_net_predict".toList, .sym '(', .sym '&'] (by decide +kernel) k2
  have k := lexes_lit_chain "\n    int32_t\n    ".toList [.word "int32_t".toList] (by decide +kernel) k1
  refine k.congr ?_ rfl
  rw [show "_predict(const float *features, int32_t n_features)\n    {\n        return eml_net_predict(&".toList =
    "_predict".toList ++ "(const float *features, int32_t n_features)\n    {\n        return eml_net_predict(&".toList by decide +kernel]
  simp only [List.append_assoc, List.append_nil]

set_option simprocs false in
theorem regress1F_lexes {pre : List Char} (hn : isName pre = true) :
    Lexes ("\n    float\n    ".toList ++ pre ++ "_regress1(const float *features, int32_t n_features)\n    {\n        return eml_net_regress1(&".toList ++ pre ++ ", features, n_features);\n    }\n    ".toList)
      (regress1F pre).print := by
  have k2 := lexes_word_chain pre (isName_word hn) ", features, n_features);\n    }\n    ".toList [.sym ',', .word "features".toList, .sym ',', .word "n_features".toList, .sym ')', .sym ';', .sym '}'] (by decide +kernel) Lexes.nil
  have k1 := lexes_word_chain (pre ++ "_regress1".toList) (isName_word (isName_append hn (by decide +kernel))) "(const float *features, int32_t n_features)\n    {\n        return eml_net_regress1(&".toList
    [.sym '(', .word "const".toList, .word "float".toList, .sym '*', .word "features".toList, .sym ',', .word "int32_t".toList, .word "n_features".toList, .sym ')', .sym '{', .word "return".toList,
      .word "eml_net_regress1".toList, .sym '(', .sym '&'] (by decide +kernel) k2
  have k := lexes_lit_chain "\n    float\n    ".toList [.word "float".toList] (by decide +kernel) k1
  refine k.congr ?_ rfl
  rw [show "_regress1(const float *features, int32_t n_features)\n    {\n        return eml_net_regress1(&".toList =
    "_regress1".toList ++ "(const float *features, int32_t n_features)\n    {\n        return eml_net_regress1(&".toList by decide +kernel]
  simp only [List.append_assoc, List.append_nil]

set_option simprocs false in
theorem regressF_lexes {pre : List Char} (hn : isName pre = true) :
    Lexes ("\n    int32_t\n    ".toList ++ pre ++ "_regress(const float *features, int32_t n_features, float *out, int32_t out_length)\n    {\n        return eml_net_regress(&".toList ++ pre ++
      ", features, n_features, out, out_length);\n    }\n    ".toList) (regressF pre).print := by
  have k2 := lexes_word_chain pre (isName_word hn) ", features, n_features, out, out_length);\n    }\n    ".toList
    [.sym ',', .word "features".toList, .sym ',', .word "n_features".toList, .sym ',', .word "out".toList, .sym ',', .word "out_length".toList, .sym ')', .sym ';', .sym '}'] (by decide +kernel) Lexes.nil
  have k1 := lexes_word_chain (pre ++ "_regress".toList) (isName_word (isName_append hn (by decide +kernel)))
    "(const float *features, int32_t n_features, float *out, int32_t out_length)\n    {\n        return eml_net_regress(&".toList
    [.sym '(', .word "const".toList, .word "float".toList, .sym '*', .word "features".toList, .sym ',', .word "int32_t".toList, .word "n_features".toList, .sym ',', .word "float".toList, .sym '*',
      .word "out".toList, .sym ',', .word "int32_t".toList, .word "out_length".toList, .sym ')', .sym '{', .word "return".toList, .word "eml_net_regress".toList, .sym '(', .sym '&'] (by decide +kernel) k2
  have k := lexes_lit_chain "\n    int32_t\n    ".toList [.word "int32_t".toList] (by decide +kernel) k1
  refine k.congr ?_ rfl
  rw [show "_regress(const float *features, int32_t n_features, float *out, int32_t out_length)\n    {\n        return eml_net_regress(&".toList =
    "_regress".toList ++ "(const float *features, int32_t n_features, float *out, int32_t out_length)\n    {\n        return eml_net_regress(&".toList by decide +kernel]
  simp only [List.append_assoc, List.append_nil]

/-! ### Well-formedness -/

theorem nm_format {pre : List Char} (h : isName pre = true) (n : Nat) {v : List Char} (hv : v.all identRest = true) (hk : keyWords.all (fun k => !(v.isSuffixOf k)) = true) : Nm (formatName pre n v) := by
  unfold formatName
  refine nm_suffix (isName_append (isName_append (isName_append h (by decide +kernel)) ?_) (by decide +kernel)) hv hk
  exact List.all_eq_true.2 fun c hc => Cgen.Reader.identRest_digit (showNat_digits hc)

theorem num_size (n : Nat) : ∀ m, some (showNat n) = some m → isNum m = true := by intro m hm; cases hm; exact isNum_showNat n

theorem floatArr_ok {name : List Char} (hn : Nm name) (vs : List ℚ) : (floatArr name vs).Ok := by
  refine ⟨by show ∀ m ∈ ["static".toList, "const".toList], isMod m = true; decide +kernel, by show isType "float".toList = true; decide +kernel, hn, num_size _, ?_⟩
  intro i hi
  cases hi
  refine ⟨?_, fun _ => rfl⟩
  intro e he
  obtain ⟨v, -, rfl⟩ := List.mem_map.1 he
  exact (litExpr_ok _ _).2

theorem nm_act {a : Act} (h : a ≠ .other) : Nm (actText a) := by
  cases a <;> first | exact absurd rfl h | (unfold actText; constructor <;> decide +kernel)

theorem netProg_ok {pre : List Char} (hn : Nm pre) (ds : List (Dense ℚ)) (hne : ds ≠ []) (ha : ∀ d ∈ ds, d.act ≠ .other) : ∀ t ∈ netProg pre ds, t.Ok := by
  have hs : ∀ {s : List Char}, s.all identRest = true → keyWords.all (fun k => !(s.isSuffixOf k)) = true → Nm (pre ++ s) := fun h1 h2 => nm_suffix hn.1 h1 h2
  have hstat : ∀ m ∈ ["static".toList], isMod m = true := by decide +kernel
  have hf : isType "float".toList = true := by decide +kernel
  have hi : isType "int32_t".toList = true := by decide +kernel
  have hbuf : ∀ {s : List Char} (n : Nat), Nm (pre ++ s) → (buffer (pre ++ s) n).Ok := fun n h => ⟨hstat, hf, h, num_size _, by intro i hi; cases hi⟩
  have hin : ∀ p ∈ inParams, p.Ok := by
    intro p hp
    simp only [inParams, List.mem_cons, List.not_mem_nil, or_false] at hp
    rcases hp with rfl | rfl
    · exact ⟨hf, by show Nm "features".toList; constructor <;> decide +kernel⟩
    · exact ⟨hi, by show Nm "n_features".toList; constructor <;> decide +kernel⟩
  have hout : ∀ p ∈ outParams, p.Ok := by
    intro p hp
    simp only [outParams, List.mem_cons, List.not_mem_nil, or_false] at hp
    rcases hp with rfl | rfl
    · exact ⟨hf, by show Nm "out".toList; constructor <;> decide +kernel⟩
    · exact ⟨hi, by show Nm "out_length".toList; constructor <;> decide +kernel⟩
  intro t ht
  simp only [netProg, List.mem_append, List.mem_map, List.mem_cons, List.not_mem_nil, or_false] at ht
  rcases ht with ⟨d, hd, rfl⟩ | rfl | rfl | rfl | rfl | rfl
  · simp only [netArrs, List.mem_append, List.mem_flatMap, layerArrs, List.mem_cons, List.not_mem_nil, or_false] at hd
    rcases hd with ⟨p, -, rfl | rfl⟩ | rfl | rfl
    · exact floatArr_ok (nm_format hn.1 _ (by decide +kernel) (by decide +kernel)) _
    · exact floatArr_ok (nm_format hn.1 _ (by decide +kernel) (by decide +kernel)) _
    · exact hbuf _ (hs (by decide +kernel) (by decide +kernel))
    · exact hbuf _ (hs (by decide +kernel) (by decide +kernel))
  · refine ⟨by show ∀ m ∈ ["static".toList, "const".toList], isMod m = true; decide +kernel, by show isType "EmlNetLayer".toList = true; decide +kernel, hs (by decide +kernel) (by decide +kernel), num_size _, ?_⟩
    intro i hi
    cases hi
    refine ⟨by simpa using hne, ?_⟩
    intro es hes
    obtain ⟨p, hp, rfl⟩ := List.mem_map.1 hes
    refine ⟨by simp [layerRow], ?_⟩
    intro e he
    simp only [layerRow, List.mem_cons, List.not_mem_nil, or_false] at he
    rcases he with rfl | rfl | rfl | rfl | rfl
    · exact isNum_showNat _
    · exact isNum_showNat _
    · exact nm_format hn.1 _ (by decide +kernel) (by decide +kernel)
    · exact nm_format hn.1 _ (by decide +kernel) (by decide +kernel)
    · exact nm_act (ha _ (zipIdx_mem hp))
  · refine ⟨hstat, by show isType "EmlNet".toList = true; decide +kernel, hn, by simp [netVar], ?_⟩
    intro i hi
    cases hi
    refine ⟨?_, by simp⟩
    intro e he
    simp only [List.mem_cons, List.not_mem_nil, or_false] at he
    rcases he with rfl | rfl | rfl | rfl | rfl
    · exact isNum_showNat _
    · exact hs (by decide +kernel) (by decide +kernel)
    · exact hs (by decide +kernel) (by decide +kernel)
    · exact hs (by decide +kernel) (by decide +kernel)
    · exact isNum_showNat _
  · exact ⟨by simp [predictF], hi, hs (by decide +kernel) (by decide +kernel), by simp [predictF, inParams], hin, ⟨⟨by decide +kernel, by decide +kernel⟩, by simp [inArgs], by simp [inArgs, Arg.Ok]⟩, trivial⟩
  · refine ⟨by simp [regressF], hi, hs (by decide +kernel) (by decide +kernel), by simp [regressF, inParams], ?_, ⟨⟨by decide +kernel, by decide +kernel⟩, by simp [inArgs], by simp [inArgs, outArgs, Arg.Ok]⟩, trivial⟩
    intro p hp
    rcases List.mem_append.1 hp with hp | hp
    · exact hin p hp
    · exact hout p hp
  · exact ⟨by simp [regress1F], hf, hs (by decide +kernel) (by decide +kernel), by simp [regress1F, inParams], hin, ⟨⟨by decide +kernel, by decide +kernel⟩, by simp [inArgs], by simp [inArgs, Arg.Ok]⟩, trivial⟩

/-! ### The whole text -/

theorem lexes_lines (l : List (List Char × List Tok)) (h : ∀ a ∈ l, Lexes a.1 a.2) : Lexes ((l.map fun a => '\n' :: a.1).flatten) (l.flatMap (·.2)) := by
  induction l with
  | nil => exact Lexes.nil
  | cons a l ih =>
    have h1 := h a (by simp)
    have h2 := ih fun b hb => h b (by simp [hb])
    have h0 := lexes_lits ['\n'] [] (by decide +kernel) (by decide +kernel)
    refine (h0.append (h1.append h2)).congr ?_ ?_
    · simp
    · simp

/-- The text of `c_generate_net_loadable` is read as the network program. -/
theorem loadable_parse (other : ℚ → List Char) (pre : List Char) (ds : List (Dense ℚ)) (hv : assertValidIdentifier pre = true) (hnl : '\n' ∉ pre) (hk : isKey pre = false) (hne : ds ≠ [])
    (hds : ∀ d ∈ ds, d.act ≠ .other ∧ ∀ r ∈ d.w, r.length = d.b.length) :
    ∃ text, loadableText other pre ds = some text ∧ parse text = some (netProg pre ds) := by
  have hn := isName_of_valid hv hnl
  have ha : ∀ d ∈ ds, d.act ≠ .other := fun d hd => (hds d hd).1
  have hs : ∀ {s : List Char}, s.all identRest = true → isName (pre ++ s) = true := fun h => isName_append hn h
  refine ⟨_, loadableText_eq other pre ds hv hne hds, parse_eq _ _ (netProg_ok ⟨hn, hk⟩ ds hne ha) ?_⟩
  let pairs : List (List Char × List Tok) :=
    (ds.zipIdx.flatMap fun p => [((arrD (formatName pre p.2 "biases".toList) p.1.b).body ++ [';'], (floatArr (formatName pre p.2 "biases".toList) p.1.b).print),
      ((arrD (formatName pre p.2 "weights".toList) p.1.w.flatten).body ++ [';'], (floatArr (formatName pre p.2 "weights".toList) p.1.w.flatten).print)]) ++
    [((bufDecl (pre ++ "_buf1".toList) (bufferSize ds)).body ++ [';'], (buffer (pre ++ "_buf1".toList) (bufferSize ds)).print),
     ((bufDecl (pre ++ "_buf2".toList) (bufferSize ds)).body ++ [';'], (buffer (pre ++ "_buf2".toList) (bufferSize ds)).print),
     ((Reader.arrDecl "static const ".toList "EmlNetLayer".toList (pre ++ "_layers".toList) (showInt ds.length) (ds.zipIdx.map fun p => '\n' :: structInit (entryFields pre p))).body ++ [';'],
       (layersArr pre ds).print),
     ((⟨"static ".toList, "EmlNet".toList, pre, [' '], '=', ' ' :: structInit (netFields pre ds)⟩ : Reader.Decl).body ++ [';'], (netVar pre ds).print)] 
  let funcs : List (List Char × List Tok) := List.zip (functionsText pre) [(predictF pre).print, (regressF pre).print, (regress1F pre).print]
  have hpairs : ∀ a ∈ pairs, Lexes a.1 a.2 := by
    intro a hm
    simp only [pairs, List.mem_append, List.mem_flatMap, List.mem_cons, List.not_mem_nil, or_false] at hm
    rcases hm with ⟨p, -, rfl | rfl⟩ | rfl | rfl | rfl | rfl
    · exact floatArr_lexes (isName_format hn _ (by decide +kernel)) _
    · exact floatArr_lexes (isName_format hn _ (by decide +kernel)) _
    · exact buffer_lexes (hs (by decide +kernel)) _
    · exact buffer_lexes (hs (by decide +kernel)) _
    · exact layers_lexes hn ds hne ha
    · exact netVar_lexes hn ds
  have hfuncs : ∀ a ∈ funcs, Lexes a.1 a.2 := by
    intro a hm
    unfold funcs functionsText at hm
    simp only [List.zip_cons_cons, List.zip_nil_right, List.mem_cons, List.not_mem_nil, or_false] at hm
    rcases hm with rfl | rfl | rfl
    · exact predictF_lexes hn
    · exact regressF_lexes hn
    · exact regress1F_lexes hn
  have hall := lexes_lines (pairs ++ funcs) (by intro a hm; rcases List.mem_append.1 hm with h | h; exacts [hpairs a h, hfuncs a h])
  have e1 : ((netDecls pre ds).map fun d => '\n' :: (d.body ++ [';'])) = pairs.map fun a => '\n' :: a.1 := by
    unfold netDecls pairs layerDecls
    rw [List.map_append, List.map_append, List.map_flatMap, List.map_flatMap]
    rfl
  have e2 : ((functionsText pre).map fun l => '\n' :: l) = funcs.map fun a => '\n' :: a.1 := by
    unfold funcs functionsText
    rfl
  have e3 : (pairs ++ funcs).flatMap (·.2) = printProg (netProg pre ds) := by
    have ef : funcs.flatMap (·.2) = (predictF pre).print ++ ((regressF pre).print ++ (regress1F pre).print) := by
      unfold funcs functionsText
      simp only [List.zip_cons_cons, List.zip_nil_right, List.flatMap_cons, List.flatMap_nil, List.append_nil]
    unfold netProg netArrs printProg layerArrs
    rw [List.flatMap_append, ef]
    simp only [pairs, List.flatMap_append, List.map_append, List.map_flatMap, List.flatMap_assoc, List.flatMap_cons, List.flatMap_nil, List.map_cons, List.map_nil, Top.print, List.append_assoc,
      List.append_nil]
  rw [e1, e2, List.append_assoc, ← List.flatten_append, ← List.map_append]
  rw [e3] at hall
  cases hc : pairs ++ funcs with
  | nil =>
    simp only [pairs] at hc
    simp at hc
  | cons a l =>
    rw [hc] at hall
    have h0 : lex ("#include <eml_net.h>\n".toList) = [] := by decide +kernel
    have h1 := lexes_lits "#include <eml_net.h>\n".toList [] (by decide +kernel) h0
    have h2 : Lexes (a.1 ++ (l.map fun a => '\n' :: a.1).flatten) (printProg (netProg pre ds)) := by
      have hn0 := lexes_lines l (by intro b hb; have : b ∈ pairs ++ funcs := by rw [hc]; simp [hb]
                                    rcases List.mem_append.1 this with h | h; exacts [hpairs b h, hfuncs b h])
      have ha0 : Lexes a.1 a.2 := by
        have : a ∈ pairs ++ funcs := by rw [hc]; simp
        rcases List.mem_append.1 this with h | h
        exacts [hpairs a h, hfuncs a h]
      refine (ha0.append hn0).congr rfl ?_
      rw [← e3, hc]; simp
    have := (h1.append h2).lex
    rw [List.nil_append] at this
    rw [← this]
    congr 1
end Emlearn.Net.CText
