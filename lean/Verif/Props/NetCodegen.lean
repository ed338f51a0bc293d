/- C86: the generated C source of a network declares that network. C40: the inline generator (`emlearn/net.py`). -/
import Verif.Cgen.Reader
import Verif.Net.Codegen
import Verif.Props.CgenMore
import Verif.Props.Net
namespace Emlearn.Net.Codegen
open Emlearn.Cgen Emlearn.Cgen.Reader

/-! ### Specification: the network a C source declares -/

/-- The activation constants of `eml_net_common.h`. -/
def readAct (s : List Char) : Option Act :=
  if s = "EmlNetActivationIdentity".toList then some .identity
  else if s = "EmlNetActivationRelu".toList then some .relu
  else if s = "EmlNetActivationLogistic".toList then some .logistic
  else if s = "EmlNetActivationSoftmax".toList then some .softmax
  else if s = "EmlNetActivationTanh".toList then some .tanh
  else none

/-- One `EmlNetLayer` initializer: number of outputs, number of inputs, names of the weight and bias arrays, activation. -/
def readLayer (text : List Char) : List (List Char) → Option (Layer ℚ)
  | [o, i, w, b, a] => do
    let o ← readNat o
    let i ← readNat i
    let w ← floatArray text w
    let b ← floatArray text b
    let a ← readAct a
    some { nOutputs := o, nInputs := i, weights := w, biases := b, activation := a }
  | _ => none

/-- The declared number of elements of a `float` array without initializer. -/
def readBuffer (text name : List Char) : Option Nat := do
  let s ← lookup text name
  if declaredType s = "float".toList then readNat (declaredSize s) else none

/-- The `EmlNet` a text declares under a name, and the sizes of its two buffers. -/
def readNet (text name : List Char) : Option (Net ℚ × Nat × Nat) := do
  let s ← lookup text name
  match initializers s with
  | [n, ls, b1, b2, len] => do
    let l ← lookup text ls
    let layers ← (groups l).mapM (readLayer text)
    let len ← readNat len
    let s1 ← readBuffer text b1
    let s2 ← readBuffer text b2
    if declaredType s = "EmlNet".toList ∧ declaredType l = "EmlNetLayer".toList ∧ readNat n = some layers.length ∧ readNat (declaredSize l) = some layers.length then
      some ({ layers := layers, actLen := len }, s1, s2)
    else none
  | _ => none

/-- Every number of a layer changed by a function. -/
def mapDense (r : ℚ → ℚ) (d : Dense ℚ) : Dense ℚ := { act := d.act, w := d.w.map (List.map r), b := d.b.map r }

/-! ### Names -/

theorem showNat_inj {m n : Nat} (h : showNat m = showNat n) : m = n := by
  have := congrArg readNat h
  rw [readNat_showNat, readNat_showNat] at this
  exact Option.some.inj this

theorem formatName_inj {pre v v' : List Char} {m n : Nat} (h : formatName pre m v = formatName pre n v') : m = n ∧ v = v' := by
  unfold formatName at h
  simp only [List.append_assoc, List.append_cancel_left_eq] at h
  have hd : ∀ k, ∀ c ∈ showNat k, c.isDigit = true := fun k c hc => showNat_digits hc
  have t : ∀ k u, (showNat k ++ (['_'] ++ u)).takeWhile Char.isDigit = showNat k := by
    intro k u
    rw [List.takeWhile_append_of_pos (hd k)]
    simp
  have h1 := congrArg (List.takeWhile Char.isDigit) h
  rw [t, t] at h1
  rw [h1, List.append_cancel_left_eq] at h
  exact ⟨showNat_inj h1, by simpa using h⟩

theorem word_formatName {pre : List Char} (h : Word pre) (n : Nat) {v : List Char} (hv : ∀ c ∈ v, identRest c = true) : Word (formatName pre n v) := by
  unfold formatName
  refine Word.append (Word.append (Word.append (h.append ?_) (word_showNat n).2) ?_) hv <;> decide

/-! ### The declarations of the generated text -/

def floatLit (v : ℚ) : List Char := showFixed 6 v ++ ['f']

def arrD (name : List Char) (vs : List ℚ) : Decl := arrDecl "static const ".toList "float".toList name (showInt vs.length) (vs.map floatLit)

def layerDecls (pre : List Char) (p : Dense ℚ × Nat) : List Decl :=
  [arrD (formatName pre p.2 "biases".toList) p.1.b, arrD (formatName pre p.2 "weights".toList) p.1.w.flatten]

def bufDecl (name : List Char) (size : Nat) : Decl := ⟨"static ".toList, "float".toList, name, [], '[', showInt size ++ [']']⟩

def actText : Act → List Char
  | .identity => "EmlNetActivationIdentity".toList
  | .relu => "EmlNetActivationRelu".toList
  | .logistic => "EmlNetActivationLogistic".toList
  | .softmax => "EmlNetActivationSoftmax".toList
  | .tanh => "EmlNetActivationTanh".toList
  | .other => []

def entryFields (pre : List Char) (p : Dense ℚ × Nat) : List (List Char) :=
  [showNat p.1.nOut, showNat p.1.nIn, formatName pre p.2 "weights".toList, formatName pre p.2 "biases".toList, actText p.1.act]

def netFields (pre : List Char) (ds : List (Dense ℚ)) : List (List Char) :=
  [showNat ds.length, pre ++ "_layers".toList, pre ++ "_buf1".toList, pre ++ "_buf2".toList, showInt (bufferSize ds : Nat)]

def netDecls (pre : List Char) (ds : List (Dense ℚ)) : List Decl :=
  ds.zipIdx.flatMap (layerDecls pre) ++
    [bufDecl (pre ++ "_buf1".toList) (bufferSize ds), bufDecl (pre ++ "_buf2".toList) (bufferSize ds),
     arrDecl "static const ".toList "EmlNetLayer".toList (pre ++ "_layers".toList) (showInt ds.length) (ds.zipIdx.map fun p => '\n' :: structInit (entryFields pre p)),
     ⟨"static ".toList, "EmlNet".toList, pre, [' '], '=', ' ' :: structInit (netFields pre ds)⟩]

theorem arrayDeclareFixedpoint_float (other : ℚ → List Char) (name : List Char) (vs : List ℚ) (n : Int) (hn : n = vs.length) :
    arrayDeclareFixedpoint other name none (some vs) (some n) "static const".toList = some ((arrD name vs).body ++ [';']) := by
  subst hn
  simp [arrayDeclareFixedpoint, arrayDeclare, arrD, arrDecl, Decl.body, showSize, constant]
  rfl

theorem flatten_length (w : List (List ℚ)) (k : Nat) (h : ∀ r ∈ w, r.length = k) : w.flatten.length = w.length * k := by
  induction w with
  | nil => simp
  | cons r w ih =>
    rw [List.flatten_cons, List.length_append, ih (fun r hr => h r (by simp [hr])), h r (by simp), List.length_cons, Nat.add_mul]; omega

theorem activationName_some {a : Act} (h : a ≠ .other) : activationName a = some (actText a) := by
  cases a <;> first | rfl | exact absurd rfl h

theorem mapM_map {α β : Type} (f : α → Option β) (g : α → β) (l : List α) (h : ∀ a ∈ l, f a = some (g a)) : l.mapM f = some (l.map g) := Quant.mapM_some f g l h

theorem loadableText_eq (other : ℚ → List Char) (pre : List Char) (ds : List (Dense ℚ)) (hv : assertValidIdentifier pre = true) (hne : ds ≠ [])
    (hds : ∀ d ∈ ds, d.act ≠ .other ∧ ∀ r ∈ d.w, r.length = d.b.length) :
    loadableText other pre ds = some ("#include <eml_net.h>".toList ++ ((netDecls pre ds).map fun d => '\n' :: (d.body ++ [';'])).flatten ++
      ((functionsText pre).map fun l => '\n' :: l).flatten) := by
  have hz : ∀ p ∈ ds.zipIdx, p.1 ∈ ds := fun p hp => by
    obtain ⟨h1, h2, h3⟩ := List.mem_zipIdx (x := p.1) (i := p.2) hp
    rw [h3]; exact List.getElem_mem _
  have h1 : layersData other pre false false ds = some ((ds.zipIdx.map fun p => (layerDecls pre p).map fun d => d.body ++ [';']).flatten) := by
    unfold layersData
    rw [mapM_map _ (fun p => (layerDecls pre p).map fun d => d.body ++ [';'])]
    · rfl
    · intro p hp
      obtain ⟨-, h2⟩ := hds p.1 (hz p hp)
      unfold layerData
      rw [show weightsFormat false = none from rfl, arrayDeclareFixedpoint_float _ _ _ _ rfl,
        arrayDeclareFixedpoint_float _ _ _ _ (by rw [flatten_length _ _ h2]; rfl)]
      rfl
  have h2 : ds.zipIdx.mapM (fun p => layerEntry pre p.2 p.1) = some (ds.zipIdx.map fun p => '\n' :: structInit (entryFields pre p)) := by
    apply mapM_map
    intro p hp
    unfold layerEntry
    rw [activationName_some (hds p.1 (hz p hp)).1]
    rfl
  have hlen : ((ds.zipIdx.map fun p => '\n' :: structInit (entryFields pre p)).map PyVal.str).length = ds.length := by simp
  have h3 : arrayDeclarePy other (pre ++ "_layers".toList) (ds.length : Int) "EmlNetLayer".toList "static const".toList ((ds.zipIdx.map fun p => '\n' :: structInit (entryFields pre p)).map .str) =
      some ((arrDecl "static const ".toList "EmlNetLayer".toList (pre ++ "_layers".toList) (showInt ds.length) (ds.zipIdx.map fun p => '\n' :: structInit (entryFields pre p))).body ++ [';']) := by
    unfold arrayDeclarePy
    rw [if_pos (by rw [hlen]), List.mapM_map, mapM_map _ (fun s => s)]
    · simp [arrDecl, Decl.body, Function.comp_def]
    · intro s _
      simp only [Function.comp_apply, constantPy]
      rw [if_neg (by decide), if_neg (by decide)]
  unfold loadableText
  rw [if_neg (by simp [hv, hne]), h1, h2]
  simp only [Option.bind_eq_bind, Option.bind_some]
  rw [h3]
  simp only [arrayDeclare, Option.bind_some, Option.some.injEq]
  rw [List.append_assoc, List.append_assoc, List.singleton_append, intercalate_newline]
  refine Eq.trans ?_ (List.append_assoc _ _ _).symm
  congr 1
  generalize functionsText pre = ft
  have key : ∀ (A B C : List (List Char)) (D E : List Decl), A = (D.map fun d => d.body ++ [';']) → B = (E.map fun d => d.body ++ [';']) →
      ((A ++ (B ++ C)).map fun l => '\n' :: l).flatten = ((D ++ E).map fun d => '\n' :: (d.body ++ [';'])).flatten ++ (C.map fun l => '\n' :: l).flatten := by
    rintro A B C D E rfl rfl
    simp [Function.comp_def]
  apply key
  · rw [List.map_flatMap, List.flatMap_def]
  · simp [bufDecl, Decl.body, showSize, netFields]

theorem word_actText {a : Act} (h : a ≠ .other) : Word (actText a) := by
  cases a <;> first | exact absurd rfl h | (constructor <;> decide)

theorem mods_const : "static const ".toList = [] ∨ ∃ a c, "static const ".toList = a ++ [c] ∧ blank c = true := Or.inr ⟨"static const".toList, ' ', rfl, rfl⟩
theorem mods_static : "static ".toList = [] ∨ ∃ a c, "static ".toList = a ++ [c] ∧ blank c = true := Or.inr ⟨"static".toList, ' ', rfl, rfl⟩

theorem floatLit_plain (v : ℚ) : Plain (floatLit v) := showFixed_plain 6 v

theorem floatLit_no_semicolon (v : ℚ) : ';' ∉ floatLit v := by
  unfold floatLit
  simp [showFixed_no 6 v (c := ';') (by decide) (by decide) (by decide)]

theorem arrD_ok {name : List Char} (h : Word name) (vs : List ℚ) : (arrD name vs).Ok := by
  refine arrDecl_ok _ _ _ _ _ mods_const (by decide) ⟨by decide, by decide⟩ h (showInt_no _ (by decide) (by decide)) ?_
  intro l hl
  obtain ⟨v, -, rfl⟩ := List.mem_map.1 hl
  exact floatLit_no_semicolon v

theorem bufDecl_ok {name : List Char} (h : Word name) (size : Nat) : (bufDecl name size).Ok := by
  refine ⟨mods_static, by show ∀ c ∈ "static ".toList, _; decide, ⟨by show "float".toList ≠ []; decide, by show ∀ c ∈ "float".toList, _; decide⟩, h, by simp [bufDecl], Or.inl rfl, ?_⟩
  simp [bufDecl, showInt_no (c := ';') (size : Int) (by decide) (by decide)]

theorem structInit_no_semicolon (fs : List (List Char)) (h : ∀ f ∈ fs, ';' ∉ f) : ';' ∉ structInit fs := by
  intro hc
  simp only [structInit, List.mem_append] at hc
  rcases hc with (hc | hc) | hc
  · simp at hc
  · rcases mem_join hc with hc | ⟨l, hl', hc⟩
    · simp at hc
    · exact h l hl' hc
  · simp at hc

theorem entryFields_word {pre : List Char} (h : Word pre) (p : Dense ℚ × Nat) (ha : p.1.act ≠ .other) : ∀ f ∈ entryFields pre p, Word f := by
  intro f hf
  simp only [entryFields, List.mem_cons, List.not_mem_nil, or_false] at hf
  rcases hf with rfl | rfl | rfl | rfl | rfl
  · exact word_showNat _
  · exact word_showNat _
  · exact word_formatName h _ (by decide)
  · exact word_formatName h _ (by decide)
  · exact word_actText ha

theorem showInt_nat (n : Nat) : showInt (n : Int) = showNat n := by
  unfold showInt
  rw [if_neg (by omega)]; rfl

theorem netFields_word {pre : List Char} (h : Word pre) (ds : List (Dense ℚ)) : ∀ f ∈ netFields pre ds, Word f := by
  intro f hf
  simp only [netFields, List.mem_cons, List.not_mem_nil, or_false] at hf
  rcases hf with rfl | rfl | rfl | rfl | rfl
  · exact word_showNat _
  · exact h.append (by decide)
  · exact h.append (by decide)
  · exact h.append (by decide)
  · rw [showInt_nat]; exact word_showNat _

theorem netDecls_ok {pre : List Char} (h : Word pre) (ds : List (Dense ℚ)) (hds : ∀ d ∈ ds, d.act ≠ .other) : ∀ d ∈ netDecls pre ds, d.Ok := by
  intro d hd
  simp only [netDecls, List.mem_append, List.mem_flatMap, layerDecls, List.mem_cons, List.not_mem_nil, or_false] at hd
  rcases hd with ⟨p, -, rfl | rfl⟩ | rfl | rfl | rfl | rfl
  · exact arrD_ok (word_formatName h _ (by decide)) _
  · exact arrD_ok (word_formatName h _ (by decide)) _
  · exact bufDecl_ok (h.append (by decide)) _
  · exact bufDecl_ok (h.append (by decide)) _
  · refine arrDecl_ok _ _ _ _ _ mods_const (by decide) ⟨by decide, by decide⟩ (h.append (by decide)) (showInt_no _ (by decide) (by decide)) ?_
    intro l hl
    obtain ⟨p, hp, rfl⟩ := List.mem_map.1 hl
    obtain ⟨h1, h2, h3⟩ := List.mem_zipIdx (x := p.1) (i := p.2) hp
    have ha : p.1.act ≠ .other := hds p.1 (by rw [h3]; exact List.getElem_mem _)
    have := structInit_no_semicolon (entryFields pre p) (fun f hf => (entryFields_word h p ha f hf).not_mem (by decide))
    simp [this]
  · refine ⟨mods_static, by show ∀ c ∈ "static ".toList, _; decide, ⟨by show "EmlNet".toList ≠ []; decide, by show ∀ c ∈ "EmlNet".toList, _; decide⟩, h, by simp [blank], Or.inr rfl, ?_⟩
    have := structInit_no_semicolon (netFields pre ds) (fun f hf => (netFields_word h ds f hf).not_mem (by decide))
    simp [this]

theorem netDecls_nodup (pre : List Char) (ds : List (Dense ℚ)) : ((netDecls pre ds).map (·.name)).Nodup := by
  have e : (netDecls pre ds).map (·.name) =
      ((List.range' 0 ds.length).flatMap fun i => [formatName pre i "biases".toList, formatName pre i "weights".toList]) ++
        [pre ++ "_buf1".toList, pre ++ "_buf2".toList, pre ++ "_layers".toList, pre] := by
    unfold netDecls
    rw [List.map_append, List.map_flatMap]
    congr 1
    rw [← List.zipIdx_map_snd 0 ds, List.flatMap_map]
    rfl
  rw [e, List.nodup_append]
  refine ⟨?_, ?_, ?_⟩
  · rw [List.nodup_flatMap]
    refine ⟨fun i _ => ?_, ?_⟩
    · simp only [List.nodup_cons, List.mem_singleton, List.not_mem_nil, not_false_eq_true, List.nodup_nil, and_true]
      intro h; exact absurd (formatName_inj h).2 (by decide)
    · refine List.Pairwise.imp ?_ (List.nodup_range' (s := 0) (n := ds.length) (step := 1))
      intro i j hij
      simp only [Function.onFun, List.disjoint_cons_left, List.mem_cons, List.not_mem_nil, or_false, List.disjoint_nil_left, and_true]
      refine ⟨?_, ?_⟩ <;> rintro (h | h) <;> exact hij (formatName_inj h).1
  · have h0 : ∀ a b : List Char, pre ++ a = pre ++ b ↔ a = b := fun a b => List.append_cancel_left_eq .. |>.to_iff
    simp only [List.nodup_cons, List.mem_cons, List.not_mem_nil, or_false, h0, not_false_eq_true, List.nodup_nil, and_true, List.append_right_eq_self]
    decide
  · intro a ha b hb
    obtain ⟨i, -, hi⟩ := List.mem_flatMap.1 ha
    simp only [List.mem_cons, List.not_mem_nil, or_false] at hi hb
    rcases hi with rfl | rfl <;> rcases hb with rfl | rfl | rfl | rfl <;> simp [formatName]

/-! ### C86 -/

theorem readFloat_floatLit (v : ℚ) : readFloat (floatLit v) = some (fixedValue 6 v) := by
  unfold readFloat floatLit
  rw [if_pos (by simp), List.dropLast_concat]
  exact readFixed_showFixed 6 (by norm_num) v

theorem readAct_actText {a : Act} (h : a ≠ .other) : readAct (actText a) = some a := by
  cases a <;> first | exact absurd rfl h | decide

theorem readInt_nat (n : Nat) : readInt (showInt (n : Int)) = some (n : Int) := readInt_showInt _

theorem mapDense_flatten (r : ℚ → ℚ) (w : List (List ℚ)) : (w.map (List.map r)).flatten = w.flatten.map r := by
  rw [List.map_flatten]

theorem foldl_max_map (r : ℚ → ℚ) (ds : List (Dense ℚ)) : bufferSize (ds.map (mapDense r)) = bufferSize ds := by
  simp [bufferSize, mapDense, Dense.nIn, Dense.nOut, Function.comp_def]

/-- **C86.** For every name the generator accepts (without a line break) and every network with at least one layer, supported activations and rectangular weights, the loadable generator returns a C source that,
read back, declares under that name a network of the same shape, wired to its own arrays, with buffers as large as the largest layer, and every weight and bias within `5e-7` of the trained value. -/
theorem C86_generated_source_declares_network (other : ℚ → List Char) (pre : List Char) (ds : List (Dense ℚ)) (hv : assertValidIdentifier pre = true) (hnl : '\n' ∉ pre) (hne : ds ≠ [])
    (hds : ∀ d ∈ ds, d.act ≠ .other ∧ ∀ r ∈ d.w, r.length = d.b.length) :
    ∃ (text : List Char) (r : ℚ → ℚ), loadableText other pre ds = some text ∧ (∀ v, |r v - v| ≤ 1 / (2 * 10 ^ 6)) ∧
      readNet text pre = some (genLoadable (ds.map (mapDense r)), bufferSize ds, bufferSize ds) := by
  obtain ⟨rest, hrest⟩ : ∃ rest, loadableText other pre ds = some ("#include <eml_net.h>".toList ++ ((netDecls pre ds).map fun d => '\n' :: (d.body ++ [';'])).flatten ++ rest) :=
    ⟨_, loadableText_eq other pre ds hv hne hds⟩
  have hw := word_of_valid hv hnl
  refine ⟨_, fixedValue 6, hrest, fixedValue_close 6, ?_⟩
  have look := lookup_decls "#include <eml_net.h>".toList (netDecls pre ds) rest (by decide) (netDecls_ok hw ds (fun d hd => (hds d hd).1)) (netDecls_nodup pre ds)
  generalize "#include <eml_net.h>".toList ++ ((netDecls pre ds).map fun d => '\n' :: (d.body ++ [';'])).flatten ++ rest = text at look
  have hz : ∀ p ∈ ds.zipIdx, p.1 ∈ ds := fun p hp => by
    obtain ⟨h1, h2, h3⟩ := List.mem_zipIdx (x := p.1) (i := p.2) hp
    rw [h3]; exact List.getElem_mem _
  have harr : ∀ name vs, Word name → arrD name vs ∈ netDecls pre ds → floatArray text name = some (vs.map (fixedValue 6)) := by
    intro name vs hn hm
    obtain ⟨P, h1, h2, h3, h4, -⟩ := look _ hm
    obtain ⟨r1, r2⟩ := arrDecl_read P "static const ".toList "float".toList name (showInt vs.length) (vs.map floatLit) h3 h4 (by decide) (by decide) ⟨by decide, by decide⟩ hn
      (showInt_no _ (by decide) (by decide)) (showInt_no _ (by decide) (by decide)) (by intro l hl; obtain ⟨v, -, rfl⟩ := List.mem_map.1 hl; exact floatLit_plain v)
    unfold floatArray
    rw [show lookup text name = some (P ++ (arrD name vs).body) from h1]
    simp only [Option.bind_eq_bind, Option.bind_some]
    rw [show initializers (P ++ (arrD name vs).body) = vs.map floatLit from r2, List.mapM_map, mapM_map (readFloat ∘ floatLit) (fixedValue 6) _ (fun v _ => readFloat_floatLit v)]
    simp only [Option.bind_some]
    rw [show declaredSize (P ++ (arrD name vs).body) = showInt vs.length from r1, if_pos]
    refine ⟨h2, ?_⟩
    rw [readInt_nat, List.length_map]
  have hbuf : ∀ name, Word name → bufDecl name (bufferSize ds) ∈ netDecls pre ds → readBuffer text name = some (bufferSize ds) := by
    intro name hn hm
    obtain ⟨P, h1, h2, h3, -, -⟩ := look _ hm
    unfold readBuffer
    rw [show lookup text name = some (P ++ (bufDecl name (bufferSize ds)).body) from h1]
    simp only [Option.bind_eq_bind, Option.bind_some]
    rw [if_pos (show declaredType (P ++ (bufDecl name (bufferSize ds)).body) = "float".toList from h2)]
    have e : P ++ (bufDecl name (bufferSize ds)).body = (P ++ "static ".toList ++ "float".toList ++ [' '] ++ name) ++ '[' :: (showInt (bufferSize ds : Nat) ++ ']' :: []) := by
      simp [bufDecl, Decl.body]
    rw [e, declaredSize, between_eq _ _ _ _ _ (by simp [h3, hn.not_mem (d := '[') (by decide)]) (showInt_no _ (by decide) (by decide)), showInt_nat, readNat_showNat]
  have hlayer : ∀ p ∈ ds.zipIdx, readLayer text (entryFields pre p) = some (genLayer (mapDense (fixedValue 6) p.1)) := by
    intro p hp
    have ha := (hds p.1 (hz p hp)).1
    unfold entryFields readLayer
    simp only [Option.bind_eq_bind, readNat_showNat, Option.bind_some]
    have m1 : arrD (formatName pre p.2 "weights".toList) p.1.w.flatten ∈ netDecls pre ds := by
      refine List.mem_append_left _ (List.mem_flatMap.2 ⟨p, hp, ?_⟩); simp [layerDecls]
    have m2 : arrD (formatName pre p.2 "biases".toList) p.1.b ∈ netDecls pre ds := by
      refine List.mem_append_left _ (List.mem_flatMap.2 ⟨p, hp, ?_⟩); simp [layerDecls]
    rw [harr _ _ (word_formatName hw _ (by decide)) m1, harr _ _ (word_formatName hw _ (by decide)) m2, readAct_actText ha]
    simp only [genLayer, mapDense, Dense.nIn, Dense.nOut, mapDense_flatten, List.length_map, Option.bind_some]
  -- the layers array
  obtain ⟨PL, l1, l2, l3, l4, -⟩ := look (arrDecl "static const ".toList "EmlNetLayer".toList (pre ++ "_layers".toList) (showInt ds.length) (ds.zipIdx.map fun p => '\n' :: structInit (entryFields pre p)))
    (by simp [netDecls])
  obtain ⟨PN, n1, n2, n3, n4, -⟩ := look ⟨"static ".toList, "EmlNet".toList, pre, [' '], '=', ' ' :: structInit (netFields pre ds)⟩ (by simp [netDecls])
  have hN : initializers (PN ++ (Decl.mk "static ".toList "EmlNet".toList pre [' '] '=' (' ' :: structInit (netFields pre ds))).body) = netFields pre ds := by
    have := initializers_struct (PN ++ "static ".toList ++ "EmlNet".toList ++ [' '] ++ pre ++ " = ".toList) (netFields pre ds)
      (by simp [n4, hw.not_mem (d := '{') (by decide)]) (fun f hf => (netFields_word hw ds f hf).plain) (by simp [netFields]) []
    have e : PN ++ "static ".toList ++ "EmlNet".toList ++ [' '] ++ pre ++ " = ".toList ++ structInit (netFields pre ds) ++ [] =
        PN ++ (Decl.mk "static ".toList "EmlNet".toList pre [' '] '=' (' ' :: structInit (netFields pre ds))).body := by
      simp [Decl.body]
    rw [← e]; exact this
  have hLn : (pre ++ "_layers".toList) = (arrDecl "static const ".toList "EmlNetLayer".toList (pre ++ "_layers".toList) (showInt ds.length) (ds.zipIdx.map fun p => '\n' :: structInit (entryFields pre p))).name := rfl
  have eL : PL ++ (arrDecl "static const ".toList "EmlNetLayer".toList (pre ++ "_layers".toList) (showInt ds.length) (ds.zipIdx.map fun p => '\n' :: structInit (entryFields pre p))).body =
      (PL ++ "static const ".toList ++ "EmlNetLayer".toList ++ [' '] ++ (pre ++ "_layers".toList) ++ ['['] ++ showInt ds.length ++ [']']) ++ " = { ".toList ++
        [',', ' '].intercalate ((ds.zipIdx.map (entryFields pre)).map fun e => '\n' :: structInit e) ++ " }".toList := by
    simp [arrDecl, Decl.body, Function.comp_def]
  have hG : groups (PL ++ (arrDecl "static const ".toList "EmlNetLayer".toList (pre ++ "_layers".toList) (showInt ds.length) (ds.zipIdx.map fun p => '\n' :: structInit (entryFields pre p))).body) =
      ds.zipIdx.map (entryFields pre) := by
    rw [eL]
    apply groups_eq
    · simp [l4, hw.not_mem (d := '{') (by decide), showInt_no (c := '{') (ds.length : Int) (by decide) (by decide)]
    · intro e he
      obtain ⟨p, hp, rfl⟩ := List.mem_map.1 he
      refine ⟨by simp [entryFields], fun f hf => ?_⟩
      have := entryFields_word hw p (hds p.1 (hz p hp)).1 f hf
      exact ⟨this.plain, this.not_mem (by decide)⟩
  have hS : declaredSize (PL ++ (arrDecl "static const ".toList "EmlNetLayer".toList (pre ++ "_layers".toList) (showInt ds.length) (ds.zipIdx.map fun p => '\n' :: structInit (entryFields pre p))).body) =
      showInt ds.length := by
    rw [eL]
    generalize [',', ' '].intercalate ((ds.zipIdx.map (entryFields pre)).map fun e => '\n' :: structInit e) = body
    have e : (PL ++ "static const ".toList ++ "EmlNetLayer".toList ++ [' '] ++ (pre ++ "_layers".toList) ++ ['['] ++ showInt ds.length ++ [']']) ++ " = { ".toList ++ body ++ " }".toList =
        (PL ++ "static const ".toList ++ "EmlNetLayer".toList ++ [' '] ++ (pre ++ "_layers".toList)) ++ '[' :: (showInt ds.length ++ ']' :: (" = { ".toList ++ body ++ " }".toList)) := by simp
    rw [e, declaredSize, between_eq _ _ _ _ _ (by simp [l3, hw.not_mem (d := '[') (by decide)]) (showInt_no _ (by decide) (by decide))]
  replace l1 : lookup text (pre ++ "_layers".toList) = some (PL ++ _) := l1
  replace n1 : lookup text pre = some (PN ++ _) := n1
  replace n2 : declaredType (PN ++ _) = "EmlNet".toList := n2
  replace l2 : declaredType (PL ++ _) = "EmlNetLayer".toList := l2
  clear eL
  generalize PL ++ (arrDecl "static const ".toList "EmlNetLayer".toList (pre ++ "_layers".toList) (showInt ds.length) (ds.zipIdx.map fun p => '\n' :: structInit (entryFields pre p))).body = sl at *
  generalize PN ++ (Decl.mk "static ".toList "EmlNet".toList pre [' '] '=' (' ' :: structInit (netFields pre ds))).body = sn at *
  have hB1 := hbuf _ (hw.append (by decide)) (show bufDecl (pre ++ "_buf1".toList) (bufferSize ds) ∈ _ by simp [netDecls])
  have hB2 := hbuf _ (hw.append (by decide)) (show bufDecl (pre ++ "_buf2".toList) (bufferSize ds) ∈ _ by simp [netDecls])
  unfold readNet
  rw [n1]
  simp only [Option.bind_eq_bind, Option.bind_some]
  rw [hN]
  simp only [netFields]
  rw [l1]
  simp only [Option.bind_some]
  rw [hG, List.mapM_map, mapM_map (readLayer text ∘ entryFields pre) (fun p => genLayer (mapDense (fixedValue 6) p.1)) _ (fun p hp => hlayer p hp)]
  simp only [Option.bind_some]
  rw [hB1, hB2, showInt_nat, readNat_showNat]
  simp only [Option.bind_some]
  rw [hS, showInt_nat, readNat_showNat, if_pos ⟨n2, l2, by simp, by simp⟩]
  rw [genLoadable, foldl_max_map]
  simp only [Option.some.injEq, Prod.mk.injEq, and_true, Net.mk.injEq]
  rw [List.map_map]
  have : ds.zipIdx.map (fun p => genLayer (mapDense (fixedValue 6) p.1)) = (ds.zipIdx.map Prod.fst).map (genLayer ∘ mapDense (fixedValue 6)) := by
    rw [List.map_map]; rfl
  rw [this, List.zipIdx_map_fst]

theorem chained_map (r : ℚ → ℚ) (n : Nat) (ds : List (Dense ℚ)) (h : Spec.Chained n ds) : Spec.Chained n (ds.map (mapDense r)) := by
  induction ds generalizing n with
  | nil => trivial
  | cons d ds ih =>
    obtain ⟨h1, h2, h3, h4⟩ := h
    refine ⟨by simp [mapDense, h1], ?_, h3, by simpa [mapDense] using ih _ h4⟩
    intro row hr
    obtain ⟨q, hq, rfl⟩ := List.mem_map.1 hr
    simpa [mapDense] using h2 q hq

theorem chained_wf (n : Nat) (ds : List (Dense ℚ)) (h : Spec.Chained n ds) : ∀ d ∈ ds, d.act ≠ .other ∧ ∀ r ∈ d.w, r.length = d.b.length := by
  induction ds generalizing n with
  | nil => simp
  | cons d ds ih =>
    obtain ⟨h1, h2, h3, h4⟩ := h
    intro e he
    rcases List.mem_cons.1 he with rfl | he
    · exact ⟨h3, h2⟩
    · exact ih _ h4 e he

/-- **C86 (running it).** The network the source declares, run on buffers of the declared sizes (any contents) and any input of the right length, computes the composition of the layers with the rounded weights,
in any arithmetic. -/
theorem C86_generated_source_runs (ops : NetOps ℚ) (other : ℚ → List Char) (pre : List Char) (ds : List (Dense ℚ)) (hv : assertValidIdentifier pre = true) (hnl : '\n' ∉ pre) (h2 : 2 ≤ ds.length)
    (x : List ℚ) (hc : Spec.Chained x.length ds) :
    ∃ (text : List Char) (net : Net ℚ) (n1 n2 : Nat) (ds' : List (Dense ℚ)), loadableText other pre ds = some text ∧ readNet text pre = some (net, n1, n2) ∧
      List.Forall₂ (fun d d' : Dense ℚ => d'.act = d.act ∧ List.Forall₂ (fun v v' => |v' - v| ≤ 1 / (2 * 10 ^ 6)) d.b d'.b ∧
        List.Forall₂ (List.Forall₂ fun v v' => |v' - v| ≤ 1 / (2 * 10 ^ 6)) d.w d'.w) ds ds' ∧
      ∀ s : Bufs ℚ, s.b1.length = n1 → s.b2.length = n2 → ∃ s', infer ops net s x = some (.ok, s') ∧ s'.b2.take (Spec.nOut ds') = Spec.network ops ds' x := by
  obtain ⟨text, r, h1, hr, h3⟩ := C86_generated_source_declares_network other pre ds hv hnl (by rintro rfl; simp at h2) (chained_wf _ ds hc)
  refine ⟨text, _, _, _, ds.map (mapDense r), h1, h3, ?_, fun s hs1 hs2 => ?_⟩
  · have gen : ∀ {α β : Type} (R : α → β → Prop) (f : α → β) (l : List α), (∀ a ∈ l, R a (f a)) → List.Forall₂ R l (l.map f) := by
      intro α β R f l h
      induction l with
      | nil => exact List.Forall₂.nil
      | cons a l ih => exact List.Forall₂.cons (h a (by simp)) (ih fun b hb => h b (by simp [hb]))
    refine gen _ _ _ fun d _ => ⟨rfl, gen _ _ _ fun v _ => hr v, gen _ _ _ fun row _ => gen _ _ _ fun v _ => hr v⟩
  · obtain ⟨s', a, -, b⟩ := C36_infer_is_composition ops (ds.map (mapDense r)) (by simpa using h2) x (chained_map r _ ds hc) s
      ⟨by rw [foldl_max_map, hs1], by rw [foldl_max_map, hs2]⟩
    exact ⟨s', a, b⟩

/-- **C86 (refusals).** A name the generator does not accept, an empty network and an unsupported activation raise. -/
theorem C86_refusals (other : ℚ → List Char) (pre : List Char) (ds : List (Dense ℚ)) (h : assertValidIdentifier pre = false ∨ ds = [] ∨ ∃ d ∈ ds, d.act = .other) :
    loadableText other pre ds = none := by
  unfold loadableText
  by_cases h0 : assertValidIdentifier pre = false ∨ ds = []
  · rw [if_pos h0]
  · rw [if_neg h0]
    have hex : ∃ d ∈ ds, d.act = .other := by
      rcases h with h | h | h
      · exact absurd (Or.inl h) h0
      · exact absurd (Or.inr h) h0
      · exact h
    obtain ⟨d, hd, ha⟩ := hex
    have hn : ds.zipIdx.mapM (fun p => layerEntry pre p.2 p.1) = none := by
      obtain ⟨i, hi, rfl⟩ := List.getElem_of_mem hd
      have hmem : (ds[i], i) ∈ ds.zipIdx := List.mk_mem_zipIdx_iff_getElem?.2 (by simp [hi])
      have : ∀ (l : List (Dense ℚ × Nat)), (ds[i], i) ∈ l → l.mapM (fun p => layerEntry pre p.2 p.1) = none := by
        intro l
        induction l with
        | nil => simp
        | cons p l ih =>
          intro hp
          rw [List.mapM_cons]
          rcases List.mem_cons.1 hp with rfl | hp
          · simp [layerEntry, ha, activationName]
          · rw [ih hp]
            cases layerEntry pre p.2 p.1 <;> rfl
      exact this _ hmem
    rw [hn]
    cases layersData other pre false false ds <;> rfl

set_option synthInstance.maxSize 512 in
example : (loadableText (fun _ => []) "m".toList [{ act := .relu, w := [[1/3]], b := [-1] }, { act := .identity, w := [[2]], b := [1/2] }]).bind (fun t => (readNet t "m".toList).map
    fun r => (r.1.layers.map fun l => (l.nOutputs, l.nInputs, l.weights, l.biases, l.activation), r.1.actLen, r.2.1, r.2.2)) =
    some ([(1, 1, [333333/1000000], [-1], .relu), (1, 1, [2], [1/2], .identity)], 1, 1, 1) := by decide +kernel

/-! ### C40: the inline generator -/

theorem constantDeclarePy_act (other : ℚ → List Char) (name : List Char) (act : Act) : (activationName act).bind (fun a => constantDeclarePy other name (.str a) "int".toList) = none := by
  have key : ∀ s, constantDeclarePy other name (.str ('E' :: s)) "int".toList = none := fun s => C54_constant_text_refused other name "int".toList 'E' s (Or.inr ⟨[], [], rfl⟩) (by decide)
  cases act
  · exact key _
  · exact key _
  · exact key _
  · exact key _
  · exact key _
  · rfl

theorem layerData_none (other : ℚ → List Char) (pre : List Char) (fx : Bool) (k : Nat) (d : Dense ℚ) : layerData other pre true fx k d = none := by
  have h := constantDeclarePy_act other (formatName pre k "activation".toList) d.act
  unfold layerData
  generalize "int".toList = I at *
  generalize formatName pre k "activation".toList = A at *
  generalize formatName pre k "input_length".toList = A1 at *
  generalize formatName pre k "output_length".toList = A2 at *
  generalize formatName pre k "biases".toList = A3 at *
  generalize formatName pre k "weights".toList = A4 at *
  generalize "static const".toList = A5 at *
  cases ha : activationName d.act with
  | none => simp
  | some a =>
    rw [ha, Option.bind_some] at h
    simp [h]

/-- **C40 (refuted for the generator).** The code of C40 is what the templates contain, but the inline generator never produces it: for every network, name and number type generation raises,
because the name of the activation function is formatted as an integer. -/
theorem C40_inline_generation_refuted (other : ℚ → List Char) (pre : List Char) (fx : Bool) (ds : List (Dense ℚ)) : inlineDeclarations other pre fx ds = none := by
  have hL : ds ≠ [] → layersData other pre true fx ds = none := by
    intro hne
    obtain ⟨d, ds, rfl⟩ := List.exists_cons_of_ne_nil hne
    unfold layersData
    rw [List.zipIdx_cons, List.mapM_cons]
    simp only [layerData_none, Option.bind_eq_bind, Option.bind_none, Option.map_none]
  unfold inlineDeclarations
  generalize "int".toList = A1
  generalize "_activations_length".toList = A2
  generalize "_activations1".toList = A3
  generalize "_activations2".toList = A4
  generalize "_n_outputs".toList = A5
  generalize "eml_fixed32_t".toList = A6
  generalize "float".toList = A7
  generalize "static".toList = A8
  split
  · rfl
  · cases hl : ds.getLast? with
    | none => rfl
    | some last =>
      have hne : ds ≠ [] := by rintro rfl; simp at hl
      rw [hL hne]
      simp only [Option.bind_eq_bind, Option.bind_none, Option.bind_fun_none]

end Emlearn.Net.Codegen
