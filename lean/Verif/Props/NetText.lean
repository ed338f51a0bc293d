/- Property C90: the loadable C code generated for a neural network, read as C, declares the intended `EmlNet`, and its functions pass it to `eml_net.h`. -/
import Verif.Net.TextRun
import Verif.Exact
namespace Emlearn.Net.CText
open Emlearn.Cgen Emlearn.MiniC Emlearn.Net.Codegen
variable {F : Type}

/-- Names that the generated functions use for their own variables, and the prefix of the library. -/
def usedNames : List (List Char) := ["features", "n_features", "out", "out_length", "eml_net"].map String.toList

theorem usedNames_ne {name : List Char} (h : name ∉ usedNames) :
    name ≠ "features".toList ∧ name ≠ "n_features".toList ∧ name ≠ "out".toList ∧ name ≠ "out_length".toList ∧ name ≠ "eml_net".toList := by
  unfold usedNames at h
  rw [List.map_cons, List.map_cons, List.map_cons, List.map_cons, List.map_cons, List.map_nil] at h
  simp only [List.mem_cons, List.not_mem_nil, or_false, not_or] at h
  exact h

/-! ### The functions of the program -/

theorem names_ne (pre : List Char) : pre ++ "_predict".toList ≠ pre ++ "_regress".toList ∧ pre ++ "_predict".toList ≠ pre ++ "_regress1".toList ∧ pre ++ "_regress".toList ≠ pre ++ "_regress1".toList := by
  refine ⟨?_, ?_, ?_⟩ <;> exact fun e => absurd (List.append_cancel_left e) (by decide +kernel)

theorem mem_func (pre : List Char) (ds : List (Dense ℚ)) (g : Func) : Top.func g ∈ netProg pre ds ↔ g = predictF pre ∨ g = regressF pre ∨ g = regress1F pre := by
  rw [netProg_vars]
  unfold netFuncs
  simp

theorem find_func (pre : List Char) (ds : List (Dense ℚ)) (g : Func) (h : g = predictF pre ∨ g = regressF pre ∨ g = regress1F pre) : findFunc (netProg pre ds) g.name = some g := by
  obtain ⟨n1, n2, n3⟩ := names_ne pre
  refine findFunc_eq _ g ((mem_func pre ds g).2 h) ?_
  intro g' hg' hn
  rw [mem_func] at hg'
  rcases h with rfl | rfl | rfl <;> rcases hg' with rfl | rfl | rfl
  · rfl
  · exact absurd (show pre ++ "_regress".toList = pre ++ "_predict".toList from hn) (Ne.symm n1)
  · exact absurd (show pre ++ "_regress1".toList = pre ++ "_predict".toList from hn) (Ne.symm n2)
  · exact absurd (show pre ++ "_predict".toList = pre ++ "_regress".toList from hn) n1
  · rfl
  · exact absurd (show pre ++ "_regress1".toList = pre ++ "_regress".toList from hn) (Ne.symm n3)
  · exact absurd (show pre ++ "_predict".toList = pre ++ "_regress1".toList from hn) n2
  · exact absurd (show pre ++ "_regress".toList = pre ++ "_regress1".toList from hn) n3
  · rfl

theorem append_last_ne (s t : List Char) (h : s.getLast? ≠ t.getLast?) (hs : s ≠ []) (ht : t ≠ []) (x y : List Char) : x ++ s ≠ y ++ t := by
  intro e
  have := congrArg List.getLast? e
  rw [List.getLast?_append, List.getLast?_append] at this
  cases h1 : s.getLast? with
  | none => exact hs (List.getLast?_eq_none_iff.1 h1)
  | some u =>
    cases h2 : t.getLast? with
    | none => exact ht (List.getLast?_eq_none_iff.1 h2)
    | some v =>
      rw [h1, h2] at this
      rw [h1, h2] at h
      exact h (by simpa using this)

theorem find_lib (pre : List Char) (ds : List (Dense ℚ)) (hne : pre ≠ "eml_net".toList) (f : List Char)
    (hf : f = "eml_net_predict".toList ∨ f = "eml_net_regress".toList ∨ f = "eml_net_regress1".toList) : findFunc (netProg pre ds) f = none := by
  unfold findFunc
  rw [List.findSome?_eq_none_iff]
  intro t ht
  cases t with
  | decl d => rfl
  | func g =>
    rw [mem_func] at ht
    show (if g.name = f then some g else none) = none
    rw [if_neg]
    have a1 : "eml_net_predict".toList = "eml_net".toList ++ "_predict".toList := by decide +kernel
    have a2 : "eml_net_regress".toList = "eml_net".toList ++ "_regress".toList := by decide +kernel
    have a3 : "eml_net_regress1".toList = "eml_net".toList ++ "_regress1".toList := by decide +kernel
    have same : ∀ s : List Char, pre ++ s ≠ "eml_net".toList ++ s := fun s e => hne (List.append_cancel_right e)
    rcases ht with rfl | rfl | rfl <;> rcases hf with rfl | rfl | rfl
    · show pre ++ "_predict".toList ≠ _; rw [a1]; exact same _
    · show pre ++ "_predict".toList ≠ _; rw [a2]; exact append_last_ne _ _ (by decide +kernel) (by decide +kernel) (by decide +kernel) _ _
    · show pre ++ "_predict".toList ≠ _; rw [a3]; exact append_last_ne _ _ (by decide +kernel) (by decide +kernel) (by decide +kernel) _ _
    · show pre ++ "_regress".toList ≠ _; rw [a1]; exact append_last_ne _ _ (by decide +kernel) (by decide +kernel) (by decide +kernel) _ _
    · show pre ++ "_regress".toList ≠ _; rw [a2]; exact same _
    · show pre ++ "_regress".toList ≠ _; rw [a3]; exact append_last_ne _ _ (by decide +kernel) (by decide +kernel) (by decide +kernel) _ _
    · show pre ++ "_regress1".toList ≠ _; rw [a1]; exact append_last_ne _ _ (by decide +kernel) (by decide +kernel) (by decide +kernel) _ _
    · show pre ++ "_regress1".toList ≠ _; rw [a2]; exact append_last_ne _ _ (by decide +kernel) (by decide +kernel) (by decide +kernel) _ _
    · show pre ++ "_regress1".toList ≠ _; rw [a3]; exact same _

/-! ### Calls -/

theorem pnames : "n_features".toList ≠ "features".toList ∧ "out".toList ≠ "features".toList ∧ "out".toList ≠ "n_features".toList ∧ "out_length".toList ≠ "features".toList ∧
    "out_length".toList ≠ "n_features".toList ∧ "out_length".toList ≠ "out".toList := by decide +kernel

theorem pnums : isNum "features".toList = false ∧ isNum "n_features".toList = false ∧ isNum "out".toList = false ∧ isNum "out_length".toList = false := by decide +kernel

def envIn (feats : List (Option (Val F))) (len : Int) : Env F :=
  Env.set (Env.set (fun _ => none) "features".toList (some (.array "float".toList feats))) "n_features".toList (some (.scalar "int32_t".toList (.int len)))

def envOut (feats : List (Option (Val F))) (len : Int) (outs : List (Option (Val F))) (n : Int) : Env F :=
  Env.set (Env.set (envIn feats len) "out".toList (some (.array "float".toList outs))) "out_length".toList (some (.scalar "int32_t".toList (.int n)))

theorem envIn_none (feats : List (Option (Val F))) (len : Int) {x : List Char} (h1 : x ≠ "features".toList) (h2 : x ≠ "n_features".toList) : envIn feats len x = none := by
  unfold envIn; rw [Env.set_ne _ _ h2, Env.set_ne _ _ h1]

theorem envIn_features (feats : List (Option (Val F))) (len : Int) : envIn feats len "features".toList = some (.array "float".toList feats) := by
  unfold envIn; rw [Env.set_ne _ _ (Ne.symm pnames.1), Env.set_same]

theorem envIn_len (feats : List (Option (Val F))) (len : Int) : envIn feats len "n_features".toList = some (.scalar "int32_t".toList (.int len)) := by
  unfold envIn; rw [Env.set_same]

variable (ops : CFloat F)

theorem bind_in (feats : List (Option (Val F))) (len : Int) (h1 : -2147483648 ≤ len) (h2 : len ≤ 2147483647) (ps : List Param) (as : List (ArgVal F)) :
    bindParams ops (inParams ++ ps) (.arr "float".toList feats :: .num (.int len) :: as) (fun _ => none) = bindParams ops ps as (envIn feats len) := by
  unfold inParams
  rw [List.cons_append, List.cons_append, List.nil_append, bindParams_ptr ops _ _ _ _ _ _ _ rfl,
    bindParams_num ops _ _ _ _ _ (.int len) _ _ (by rw [Env.set_ne _ _ pnames.1]) (conv_int32 ops (.inr rfl) len h1 h2)]
  rfl

theorem bind_out (feats outs : List (Option (Val F))) (len n : Int) (h1 : -2147483648 ≤ n) (h2 : n ≤ 2147483647) :
    bindParams ops outParams [.arr "float".toList outs, .num (.int n)] (envIn feats len) = some (envOut feats len outs n) := by
  obtain ⟨-, p2, p3, p4, p5, p6⟩ := pnames
  unfold outParams
  rw [bindParams_ptr ops _ _ _ _ _ _ _ (envIn_none feats len p2 p3), bindParams_num ops _ _ _ _ _ (.int n) _ _ (by rw [Env.set_ne _ _ p6, envIn_none feats len p4 p5]) (conv_int32 ops (.inr rfl) n h1 h2),
    bindParams_nil]
  rfl

/-- `return lib(&name, features, n_features);` -/
theorem call_in (ext : List Char → List (ArgVal F) → Option (CallResult F)) (p : Prog) (fuel depth : Nat) (pre fn lib rty : List Char) (hu : pre ∉ usedNames)
    (hfind : findFunc p fn = some ⟨[], rty, fn, inParams, .ret (.call lib (inArgs pre)) .done⟩) (hflib : findFunc p lib = none) (feats : List (Option (Val F))) (len : Int)
    (h1 : -2147483648 ≤ len) (h2 : len ≤ 2147483647) (r : Option (Val F)) (hext : ext lib [.ref pre, .arr "float".toList feats, .num (.int len)] = r.map fun v => (v, []))
    (hr : ∀ v, r = some v → conv ops rty v = some v) :
    callFunc ops ext p fuel (depth + 2) fn [.arr "float".toList feats, .num (.int len)] = r.map fun v => (v, []) := by
  obtain ⟨u1, u2, -⟩ := usedNames_ne hu
  have hb := bind_in ops feats len h1 h2 [] []
  rw [List.append_nil, bindParams_nil] at hb
  have hcall : callFunc ops ext p fuel (depth + 1) lib [.ref pre, .arr "float".toList feats, .num (.int len)] = r.map fun v => (v, []) := by rw [callFunc, hflib]; exact hext
  have hargs : (inArgs pre).mapM (evalArg ops { globals := globalsOf ops p, call := callFunc ops ext p fuel (depth + 1) } (envIn feats len)) = some [.ref pre, .arr "float".toList feats, .num (.int len)] := by
    unfold inArgs
    rw [List.mapM_cons, evalArg_ref ops (envIn_none feats len u1 u2), List.mapM_cons, evalArg_local ops pnums.1 (envIn_features feats len), List.mapM_cons, evalArg_num ops pnums.2.1 (envIn_len feats len)]
    rfl
  cases r with
  | none =>
    refine callFunc_none ops ext p fuel (depth + 1) fn _ _ _ hfind hb ?_
    show exec ops _ fuel (.ret _ _) _ = none
    rw [exec, evalTop_call_none ops _ _ _ _ _ hargs hcall]
    rfl
  | some v =>
    rw [callFunc_eq ops ext p fuel (depth + 1) fn _ _ (envIn feats len) (envIn feats len) v v hfind hb (exec_ret ops _ fuel _ _ v _ (evalTop_call ops _ _ _ _ _ v hargs hcall)) (hr v rfl)]
    show some (v, writes _ 0 inParams) = _
    unfold inParams
    rw [writes_skip _ _ _ _ rfl, writes_skip _ _ _ _ rfl]
    rfl

/-- `return eml_net_regress(&name, features, n_features, out, out_length);` -/
theorem call_out (ext : List Char → List (ArgVal F) → Option (CallResult F)) (p : Prog) (fuel depth : Nat) (pre : List Char) (hu : pre ∉ usedNames)
    (hfind : findFunc p (pre ++ "_regress".toList) = some (regressF pre)) (hflib : findFunc p "eml_net_regress".toList = none) (feats outs : List (Option (Val F))) (len n : Int)
    (h1 : -2147483648 ≤ len) (h2 : len ≤ 2147483647) (h3 : -2147483648 ≤ n) (h4 : n ≤ 2147483647) (r : Option (Int × Option (List (Option (Val F)))))
    (hext : ext "eml_net_regress".toList [.ref pre, .arr "float".toList feats, .num (.int len), .arr "float".toList outs, .num (.int n)] =
      r.map fun q => (.int q.1, match q.2 with | none => [] | some o => [(3, o)])) (hr : ∀ q, r = some q → 0 ≤ q.1 ∧ q.1 ≤ 5) :
    callFunc ops ext p fuel (depth + 2) (pre ++ "_regress".toList) [.arr "float".toList feats, .num (.int len), .arr "float".toList outs, .num (.int n)] =
      r.map fun q => (.int q.1, [(2, q.2.getD outs)]) := by
  obtain ⟨u1, u2, u3, u4, -⟩ := usedNames_ne hu
  obtain ⟨p1, p2, p3, p4, p5, p6⟩ := pnames
  have hb : bindParams ops (inParams ++ outParams) [.arr "float".toList feats, .num (.int len), .arr "float".toList outs, .num (.int n)] (fun _ => none) = some (envOut feats len outs n) := by
    rw [bind_in ops feats len h1 h2 outParams, bind_out ops feats outs len n h3 h4]
  have a1 : envOut feats len outs n pre = none := by unfold envOut; rw [Env.set_ne _ _ u4, Env.set_ne _ _ u3, envIn_none feats len u1 u2]
  have a2 : envOut feats len outs n "features".toList = some (.array "float".toList feats) := by
    unfold envOut; rw [Env.set_ne _ _ (Ne.symm p4), Env.set_ne _ _ (Ne.symm p2), envIn_features]
  have a3 : envOut feats len outs n "n_features".toList = some (.scalar "int32_t".toList (.int len)) := by
    unfold envOut; rw [Env.set_ne _ _ (Ne.symm p5), Env.set_ne _ _ (Ne.symm p3), envIn_len]
  have a4 : envOut feats len outs n "out".toList = some (.array "float".toList outs) := by unfold envOut; rw [Env.set_ne _ _ (Ne.symm p6), Env.set_same]
  have a5 : envOut feats len outs n "out_length".toList = some (.scalar "int32_t".toList (.int n)) := by unfold envOut; rw [Env.set_same]
  generalize hargv : [ArgVal.ref pre, .arr "float".toList feats, .num (.int len), .arr "float".toList outs, .num (.int n)] = argv at hext
  have hcall : callFunc ops ext p fuel (depth + 1) "eml_net_regress".toList argv = r.map fun q => (.int q.1, match q.2 with | none => [] | some o => [(3, o)]) := by
    rw [callFunc, hflib]; exact hext
  have hargs : ∀ ctx : Ctx F, (inArgs pre ++ outArgs).mapM (evalArg ops ctx (envOut feats len outs n)) = some argv := by
    intro ctx
    unfold inArgs outArgs
    rw [List.cons_append, List.cons_append, List.cons_append, List.nil_append, List.mapM_cons, evalArg_ref ops a1, List.mapM_cons, evalArg_local ops pnums.1 a2, List.mapM_cons, evalArg_num ops pnums.2.1 a3,
      List.mapM_cons, evalArg_local ops pnums.2.2.1 a4, List.mapM_cons, evalArg_num ops pnums.2.2.2 a5, ← hargv]
    rfl
  cases r with
  | none =>
    refine callFunc_none ops ext p fuel (depth + 1) _ _ _ _ hfind hb ?_
    show exec ops _ fuel (.ret _ _) _ = none
    rw [exec, evalTop_call_none ops _ _ _ _ _ (hargs _) hcall]
    rfl
  | some q =>
    obtain ⟨z, o⟩ := q
    have hz := hr _ rfl
    simp only at hz
    rw [Option.map_some] at hcall
    obtain ⟨env', htop, hout'⟩ : ∃ env' : Env F, evalTop ops { globals := globalsOf ops p, call := callFunc ops ext p fuel (depth + 1) } (envOut feats len outs n)
        (.call "eml_net_regress".toList (inArgs pre ++ outArgs)) = some (.int z, env') ∧ env' "out".toList = some (.array "float".toList (o.getD outs)) := by
      cases o with
      | none =>
        refine ⟨envOut feats len outs n, ?_, a4⟩
        rw [evalTop, hargs]
        simp only [hcall]
        rfl
      | some o =>
        refine ⟨(envOut feats len outs n).set "out".toList (some (.array "float".toList o)), ?_, by rw [Env.set_same]; rfl⟩
        rw [evalTop, hargs]
        simp only [hcall]
        show (writeBack (envOut feats len outs n) [⟨some '&', pre⟩, ⟨none, "features".toList⟩, ⟨none, "n_features".toList⟩, ⟨none, "out".toList⟩, ⟨none, "out_length".toList⟩] [(3, o)]).map _ = _
        unfold writeBack
        simp only [List.getElem?_cons_succ, List.getElem?_cons_zero, a4]
        rfl
    have hex : exec ops { globals := globalsOf ops p, call := callFunc ops ext p fuel (depth + 1) } fuel (regressF pre).body (envOut feats len outs n) = some (.returned (.int z) env') := by
      show exec ops _ fuel (.ret _ _) _ = _
      rw [exec, htop]
      rfl
    rw [callFunc_eq ops ext p fuel (depth + 1) _ _ _ _ _ (.int z) (.int z) hfind hb hex (conv_int32 ops (.inr rfl) z (by omega) (by omega))]
    show some (_, writes env' 0 (inParams ++ outParams)) = _
    unfold inParams outParams
    rw [List.cons_append, List.cons_append, List.nil_append, writes_skip _ _ _ _ rfl, writes_skip _ _ _ _ rfl, writes_ptr _ _ _ _ _ _ rfl hout', writes_skip _ _ _ _ rfl]
    rfl

/-! ### The theorems -/

/-- What is asked of the arguments of `c_generate_net_loadable`: the name is a valid identifier on one line, not a C keyword or type, and none of the names that the generated functions use themselves; there is
at least one layer; activation functions are supported; weight matrices are rectangular and not empty; sizes fit an `int32_t`. -/
structure NetArgs (pre : List Char) (ds : List (Dense ℚ)) : Prop where
  valid : assertValidIdentifier pre = true
  line : '\n' ∉ pre
  notKey : isKey pre = false
  notUsed : pre ∉ ["features", "n_features", "out", "out_length", "eml_net"].map String.toList
  layers : ds ≠ []
  act : ∀ d ∈ ds, d.act ≠ .other
  rect : ∀ d ∈ ds, ∀ r ∈ d.w, r.length = d.b.length
  pos : ∀ d ∈ ds, d.w ≠ [] ∧ d.b ≠ []
  fit : ∀ d ∈ ds, d.w.length ≤ 2147483647 ∧ d.b.length ≤ 2147483647
  count : ds.length ≤ 2147483647

theorem NetArgs.sizes {pre : List Char} {ds : List (Dense ℚ)} (h : NetArgs pre ds) : Sizes ds := ⟨h.act, h.rect, h.pos, h.fit, h.count⟩

/-- The weights as the generated source writes them: the `float` nearest (for the compiler) to the decimal number with six digits after the point. -/
def written (ops : CFloat F) (ds : List (Dense ℚ)) : List (Dense F) := ds.map (mapD (floatLit ops))

/-- Every weight is written as a literal of its sign whose magnitude is within half of 10⁻⁶. -/
theorem C90_written_close (v : ℚ) : ∃ q : ℚ, |q - v| ≤ 1 / (2 * 10 ^ 6) ∧ floatLit ops v = ops.lit (decide (v < 0)) |q| :=
  ⟨fixedValue 6 v, fixedValue_close 6 v, rfl⟩

theorem flatten_length_rect {w : List (List F)} {n : Nat} (h : ∀ r ∈ w, r.length = n) : w.flatten.length = w.length * n := by
  induction w with
  | nil => simp
  | cons r l ih => rw [List.flatten_cons, List.length_append, h r (by simp), ih fun r hr => h r (by simp [hr]), List.length_cons, Nat.succ_mul, Nat.add_comm]

theorem written_fit {ds : List (Dense ℚ)} (hs : Sizes ds) (s : Bufs F) (h1 : s.b1.length = bufferSize ds) (h2 : s.b2.length = bufferSize ds) : ArraysFit (genLoadable (written ops ds)) s := by
  refine ⟨?_, ?_, ?_⟩
  · intro l hl
    unfold genLoadable written at hl
    simp only [List.map_map, List.mem_map, Function.comp] at hl
    obtain ⟨d, hd, rfl⟩ := hl
    have : (List.map (List.map (floatLit ops)) d.w).flatten.length = d.w.length * d.b.length := by
      rw [flatten_length_rect (n := d.b.length), List.length_map]
      intro r hr
      obtain ⟨r', hr', rfl⟩ := List.mem_map.1 hr
      rw [List.length_map]; exact hs.rect d hd r' hr'
    unfold genLayer mapD Dense.nIn Dense.nOut
    simp only [List.length_map, this]
    exact ⟨le_refl _, le_refl _⟩
  · unfold genLoadable written; rw [bufferSize_map, h1]
  · unfold genLoadable written; rw [bufferSize_map, h2]

theorem predict_int32 (nops : NetOps F) {ds : List (Dense ℚ)} (hs : Sizes ds) (s : Bufs F) (h1 : s.b1.length = bufferSize ds) (h2 : s.b2.length = bufferSize ds) (x : List F) (c : Int) (s' : Bufs F)
    (h : predict nops (genLoadable (written ops ds)) s x = some (c, s')) : -2147483648 ≤ c ∧ c ≤ 2147483647 := by
  obtain ⟨c', s'', hp, e, hexp, hm, hu, hok⟩ := C84_predict_safe nops _ s (written_fit ops hs s h1 h2) x
  rw [h] at hp
  cases hp
  by_cases e1 : e = .sizeMismatch
  · rw [hm e1]; omega
  by_cases e2 : e = .unsupported
  · rw [hu e2]; omega
  by_cases e3 : e = .ok
  · obtain ⟨l, hl, -, -, hc1, hc2⟩ := hok e3
    have hmem := List.mem_of_getLast? hl
    unfold genLoadable written at hmem
    simp only [List.map_map, List.mem_map, Function.comp] at hmem
    obtain ⟨d, hd, rfl⟩ := hmem
    have hf := (hs.fit d hd).2
    have : (genLayer (mapD (floatLit ops) d)).nOutputs = d.b.length := by simp [genLayer, mapD, Dense.nOut]
    rw [this] at hc1
    omega
  · exfalso
    rcases hexp with ⟨-, h⟩ | ⟨-, -, h⟩ | ⟨-, -, -, ⟨-, h⟩ | ⟨-, h⟩⟩
    exacts [e2 h, e1 h, e2 h, e3 h]

section
variable (nops : NetOps F) (nan : F) (other : ℚ → List Char) (pre : List Char) (ds : List (Dense ℚ)) (fuel depth : Nat)

theorem net_prog (ha : NetArgs pre ds) : ∃ text, loadableText other pre ds = some text ∧ parse text = some (netProg pre ds) ∧
    readNetC ops (netProg pre ds) pre = some (genLoadable (written ops ds), bufferSize ds, bufferSize ds) := by
  obtain ⟨text, h1, h2⟩ := loadable_parse other pre ds ha.valid ha.line ha.notKey ha.layers fun d hd => ⟨ha.act d hd, ha.rect d hd⟩
  exact ⟨text, h1, h2, readNetC_netProg ops pre ds ha.sizes⟩

/-- **C90** (data) code is generated, it is a C program, and its variable `<name>` is an `EmlNet` with the layers of the converted model (sizes, activation functions, weights as written) and two different
writable buffers large enough for every layer. -/
theorem C90_net_struct (ha : NetArgs pre ds) : ∃ text prog, loadableText other pre ds = some text ∧ parse text = some prog ∧
    readNetC ops prog pre = some (genLoadable (written ops ds), bufferSize ds, bufferSize ds) ∧ ∀ d ∈ ds, d.w.length ≤ bufferSize ds ∧ d.b.length ≤ bufferSize ds := by
  obtain ⟨text, h1, h2, h3⟩ := net_prog ops other pre ds ha
  exact ⟨text, _, h1, h2, h3, fun d hd => bufferSize_ge ds d hd⟩

theorem netLib_args (s : Bufs F) (hread : readNetC ops (netProg pre ds) pre = some (genLoadable (written ops ds), bufferSize ds, bufferSize ds)) (h1 : s.b1.length = bufferSize ds)
    (h2 : s.b2.length = bufferSize ds) (features : List F) (len : Nat) (hl : len ≤ features.length) (f : List Char) (rest : List (ArgVal F)) :
    netLib ops nops nan s (netProg pre ds) f (.ref pre :: .arr "float".toList (features.map fun z => some (.flt z)) :: .num (.int len) :: rest) =
      match rest with
        | [] =>
          if f = "eml_net_predict".toList then (predict nops (genLoadable (written ops ds)) s (features.take len)).map fun r => (.int r.1, [])
          else if f = "eml_net_regress1".toList then (regress1 nops nan (genLoadable (written ops ds)) s (features.take len)).map fun r => (.flt r.1, [])
          else none
        | [.arr oty outs, .num (.int m)] =>
          if f = "eml_net_regress".toList ∧ oty = "float".toList ∧ 0 ≤ m ∧ m ≤ outs.length then
            (regress nops (genLoadable (written ops ds)) s (features.take len) m.toNat).map fun r =>
              (.int (errCode r.1.1), if r.1.1 = .ok then [(3, r.1.2.map (fun y => some (.flt y)) ++ outs.drop r.1.2.length)] else [])
          else none
        | _ => none := by
  have hc : True ∧ s.b1.length = bufferSize ds ∧ s.b2.length = bufferSize ds ∧ (0 : Int) ≤ (len : Int) ∧ (len : Int) ≤ (features.length : Int) :=
    ⟨trivial, h1, h2, by omega, by omega⟩
  unfold netLib
  simp only [hread, fltsOf_flts]
  refine (if_pos hc).trans ?_
  rw [Int.toNat_natCast]
  rfl

/-- **C90** (class) `<name>_predict(features, length)` of the generated file returns what `eml_net_predict` computes for the converted network with the weights as written; for every input, every length up to
that of the array, every content of the activation buffers and every `float` arithmetic. -/
theorem C90_net_predict (ha : NetArgs pre ds) : ∃ text prog, loadableText other pre ds = some text ∧ parse text = some prog ∧
    ∀ (s : Bufs F), s.b1.length = bufferSize ds → s.b2.length = bufferSize ds → ∀ (features : List F) (len : Nat), len ≤ features.length → len ≤ 2147483647 →
      callFunc ops (netLib ops nops nan s prog) prog fuel (depth + 2) (pre ++ "_predict".toList) [.arr "float".toList (features.map fun z => some (.flt z)), .num (.int len)] =
        (predict nops (genLoadable (written ops ds)) s (features.take len)).map fun r => (.int r.1, []) := by
  obtain ⟨text, h1, h2, hread⟩ := net_prog ops other pre ds ha
  refine ⟨text, _, h1, h2, ?_⟩
  intro s hb1 hb2 features len hl hl2
  have key := call_in ops (netLib ops nops nan s (netProg pre ds)) (netProg pre ds) fuel depth pre (pre ++ "_predict".toList) "eml_net_predict".toList "int32_t".toList ha.notUsed
    (find_func pre ds (predictF pre) (.inl rfl)) (find_lib pre ds (usedNames_ne ha.notUsed).2.2.2.2 _ (.inl rfl)) (features.map fun z => some (.flt z)) len (by omega) (by omega)
    ((predict nops (genLoadable (written ops ds)) s (features.take len)).map fun r => .int r.1) ?_ ?_
  · rw [key, Option.map_map]; rfl
  · rw [netLib_args ops nops nan pre ds s hread hb1 hb2 features len hl]
    refine (if_pos rfl).trans ?_
    rw [Option.map_map]; rfl
  · intro v hv
    obtain ⟨⟨c, s'⟩, hr, rfl⟩ := Option.map_eq_some_iff.1 hv
    obtain ⟨hc1, hc2⟩ := predict_int32 ops nops ha.sizes s hb1 hb2 _ c s' hr
    exact conv_int32 ops (.inr rfl) c hc1 hc2

/-- **C90** (single value) `<name>_regress1(features, length)` returns the first output that `eml_net_regress` computes, or `NAN` if it reports an error. -/
theorem C90_net_regress1 (ha : NetArgs pre ds) : ∃ text prog, loadableText other pre ds = some text ∧ parse text = some prog ∧
    ∀ (s : Bufs F), s.b1.length = bufferSize ds → s.b2.length = bufferSize ds → ∀ (features : List F) (len : Nat), len ≤ features.length → len ≤ 2147483647 →
      callFunc ops (netLib ops nops nan s prog) prog fuel (depth + 2) (pre ++ "_regress1".toList) [.arr "float".toList (features.map fun z => some (.flt z)), .num (.int len)] =
        (regress1 nops nan (genLoadable (written ops ds)) s (features.take len)).map fun r => (.flt r.1, []) := by
  obtain ⟨text, h1, h2, hread⟩ := net_prog ops other pre ds ha
  refine ⟨text, _, h1, h2, ?_⟩
  intro s hb1 hb2 features len hl hl2
  have key := call_in ops (netLib ops nops nan s (netProg pre ds)) (netProg pre ds) fuel depth pre (pre ++ "_regress1".toList) "eml_net_regress1".toList "float".toList ha.notUsed
    (find_func pre ds (regress1F pre) (.inr (.inr rfl))) (find_lib pre ds (usedNames_ne ha.notUsed).2.2.2.2 _ (.inr (.inr rfl))) (features.map fun z => some (.flt z)) len (by omega) (by omega)
    ((regress1 nops nan (genLoadable (written ops ds)) s (features.take len)).map fun r => .flt r.1) ?_ ?_
  · rw [key, Option.map_map]; rfl
  · rw [netLib_args ops nops nan pre ds s hread hb1 hb2 features len hl]
    refine (if_neg (by decide +kernel)).trans ((if_pos rfl).trans ?_)
    rw [Option.map_map]; rfl
  · intro v hv
    obtain ⟨r, hr, rfl⟩ := Option.map_eq_some_iff.1 hv
    exact conv_float ops _

/-- **C90** (outputs) `<name>_regress(features, length, out, n)` returns the error code of `eml_net_regress` for the converted network; it writes the outputs to `out` when that is 0, and leaves `out` alone
otherwise. -/
theorem C90_net_regress (ha : NetArgs pre ds) : ∃ text prog, loadableText other pre ds = some text ∧ parse text = some prog ∧
    ∀ (s : Bufs F), s.b1.length = bufferSize ds → s.b2.length = bufferSize ds → ∀ (features : List F) (len : Nat) (outs : List (Option (Val F))) (n : Nat), len ≤ features.length → len ≤ 2147483647 →
      n ≤ outs.length → n ≤ 2147483647 →
      callFunc ops (netLib ops nops nan s prog) prog fuel (depth + 2) (pre ++ "_regress".toList)
          [.arr "float".toList (features.map fun z => some (.flt z)), .num (.int len), .arr "float".toList outs, .num (.int n)] =
        (regress nops (genLoadable (written ops ds)) s (features.take len) n).map fun r =>
          (.int (errCode r.1.1), [(2, if r.1.1 = .ok then r.1.2.map (fun y => some (.flt y)) ++ outs.drop r.1.2.length else outs)]) := by
  obtain ⟨text, h1, h2, hread⟩ := net_prog ops other pre ds ha
  refine ⟨text, _, h1, h2, ?_⟩
  intro s hb1 hb2 features len outs n hl hl2 hn hn2
  have key := call_out ops (netLib ops nops nan s (netProg pre ds)) (netProg pre ds) fuel depth pre ha.notUsed
    (find_func pre ds (regressF pre) (.inr (.inl rfl))) (find_lib pre ds (usedNames_ne ha.notUsed).2.2.2.2 _ (.inr (.inl rfl))) (features.map fun z => some (.flt z)) outs len n (by omega) (by omega)
    (by omega) (by omega) ((regress nops (genLoadable (written ops ds)) s (features.take len) n).map fun r =>
      (errCode r.1.1, if r.1.1 = .ok then some (r.1.2.map (fun y => some (.flt y)) ++ outs.drop r.1.2.length) else none)) ?_ ?_
  · rw [key, Option.map_map]
    congr 1
    funext r
    simp only [Function.comp]
    split <;> rfl
  · rw [netLib_args ops nops nan pre ds s hread hb1 hb2 features len hl]
    have hc : "eml_net_regress".toList = "eml_net_regress".toList ∧ "float".toList = "float".toList ∧ (0 : Int) ≤ (n : Int) ∧ (n : Int) ≤ (outs.length : Int) := ⟨rfl, rfl, by omega, by omega⟩
    refine (if_pos hc).trans ?_
    rw [Option.map_map, Int.toNat_natCast]
    congr 1
    funext r
    simp only [Function.comp]
    split <;> rfl
  · intro q hq
    obtain ⟨r, hr, rfl⟩ := Option.map_eq_some_iff.1 hq
    cases r.1.1 <;> simp [errCode]

/-! ### From the trained network to the result -/

theorem chained_map (g : ℚ → F) (n : Nat) (h : Spec.Chained n ds) : Spec.Chained n (ds.map (mapD g)) := by
  induction ds generalizing n with
  | nil => trivial
  | cons d ds ih =>
    obtain ⟨h1, h2, h3, h4⟩ := h
    refine ⟨by simpa [mapD] using h1, ?_, h3, by simpa [mapD] using ih d.b.length h4⟩
    intro r hr
    obtain ⟨r', hr', rfl⟩ := List.mem_map.1 hr
    simpa [mapD] using h2 r' hr'

theorem nOut_map (g : ℚ → F) : Spec.nOut (ds.map (mapD g)) = Spec.nOut ds := by
  unfold Spec.nOut
  rw [List.getLast?_map]
  cases ds.getLast? <;> simp [mapD]

/-- **C90** (end to end) a trained network of at least two layers that fit together: the functions of the generated file compute, for every input vector of the right length, whatever the buffers contain, the
network with the weights as written: `_regress` returns 0 and writes exactly its outputs, `_regress1` returns its only output, `_predict` decides the class from its outputs. -/
theorem C90_end_to_end (ha : NetArgs pre ds) (hds : 2 ≤ ds.length) : ∃ text prog, loadableText other pre ds = some text ∧ parse text = some prog ∧
    ∀ (s : Bufs F), s.b1.length = bufferSize ds → s.b2.length = bufferSize ds → ∀ (x : List F), Spec.Chained x.length ds →
      (∀ outs : List (Option (Val F)), outs.length = Spec.nOut ds →
        callFunc ops (netLib ops nops nan s prog) prog fuel (depth + 2) (pre ++ "_regress".toList)
          [.arr "float".toList (x.map fun z => some (.flt z)), .num (.int x.length), .arr "float".toList outs, .num (.int outs.length)] =
        some (.int 0, [(2, (Spec.network nops (written ops ds) x).map fun y => some (.flt y))])) ∧
      (∀ y, Spec.network nops (written ops ds) x = [y] →
        callFunc ops (netLib ops nops nan s prog) prog fuel (depth + 2) (pre ++ "_regress1".toList) [.arr "float".toList (x.map fun z => some (.flt z)), .num (.int x.length)] = some (.flt y, [])) ∧
      ∃ c, decideClass nops (Spec.nOut ds) (Spec.network nops (written ops ds) x) = some c ∧
        callFunc ops (netLib ops nops nan s prog) prog fuel (depth + 2) (pre ++ "_predict".toList) [.arr "float".toList (x.map fun z => some (.flt z)), .num (.int x.length)] = some (.int c, []) := by
  obtain ⟨text, prog, h1, h2, hp⟩ := C90_net_predict ops nops nan other pre ds fuel depth ha
  obtain ⟨text', prog', h1', h2', hr1⟩ := C90_net_regress1 ops nops nan other pre ds fuel depth ha
  obtain ⟨text'', prog'', h1'', h2'', hr⟩ := C90_net_regress ops nops nan other pre ds fuel depth ha
  rw [h1] at h1' h1''
  cases h1'; cases h1''
  rw [h2] at h2' h2''
  cases h2'; cases h2''
  refine ⟨text, prog, h1, h2, ?_⟩
  intro s hb1 hb2 x hc
  have hc' := chained_map ds (floatLit ops) x.length hc
  have hs : BufsOk (written ops ds) s := by unfold BufsOk written; rw [bufferSize_map]; exact ⟨hb1, hb2⟩
  have hlen : 2 ≤ (written ops ds).length := by unfold written; rw [List.length_map]; exact hds
  have hxlen : x.length ≤ 2147483647 := by
    cases ds with
    | nil => simp at hds
    | cons d ds => have := (ha.fit d (by simp)).1; have := hc.1; omega
  have hnout : Spec.nOut ds ≤ 2147483647 := by
    unfold Spec.nOut
    cases hl : ds.getLast? with
    | none => simp
    | some d => exact (ha.fit d (List.mem_of_getLast? hl)).2
  obtain ⟨s1, hreg⟩ := C36_regress_values nops (written ops ds) hlen x hc' s hs
  have hno : Spec.nOut (written ops ds) = Spec.nOut ds := nOut_map ds _
  have hnl : (Spec.network nops (written ops ds) x).length = Spec.nOut ds := by
    rw [length_network nops (written ops ds) (by intro e; rw [e] at hlen; simp at hlen) x, hno]
  refine ⟨?_, ?_, ?_⟩
  · intro outs ho
    rw [hr s hb1 hb2 x x.length outs outs.length (le_refl _) hxlen (le_refl _) (by omega), List.take_length, ho, ← hno, hreg]
    simp only [Option.map_some, if_true, errCode]
    rw [List.drop_of_length_le (by omega), List.append_nil]
  · intro y hy
    rw [hr1 s hb1 hb2 x x.length (le_refl _) hxlen, List.take_length]
    have h1n : Spec.nOut (written ops ds) = 1 := by rw [hno, ← hnl, hy]; rfl
    unfold regress1
    rw [h1n, hy] at hreg
    rw [hreg]
    rfl
  · obtain ⟨c, s2, hd, hpred, -⟩ := predict_spec nops (written ops ds) hlen x hc' s hs
    refine ⟨c, by rw [← hno]; exact hd, ?_⟩
    rw [hp s hb1 hb2 x x.length (le_refl _) hxlen, List.take_length, hpred]
    rfl
end

/-! ### A concrete network -/

/-- Exact arithmetic for the C program. -/
def exC : CFloat ℚ := { exactOps ℚ with lit := fun neg q => if neg then -q else q, toInt := fun x => some (trunc x) }

theorem exNet_args : NetArgs "model".toList exNet := by
  refine ⟨by decide +kernel, by decide +kernel, by decide +kernel, by decide +kernel, by decide +kernel, ?_, ?_, ?_, ?_, ?_⟩ <;> decide +kernel

/-- The generated text of this network, parsed and executed; the buffers are not empty before the call. -/
example : ((loadableText (fun _ => []) "model".toList exNet).bind fun text => (parse text).bind fun prog =>
    callFunc exC (netLib exC ratOps (-7) ⟨[9, 9, 9], [8, 8, 8]⟩ prog) prog 0 2 "model_predict".toList [.arr "float".toList [some (.flt 1), some (.flt 2)], .num (.int 2)]) = some (.int 0, []) := by
  decide +kernel

example : ((loadableText (fun _ => []) "model".toList exNet).bind fun text => (parse text).bind fun prog =>
    callFunc exC (netLib exC ratOps (-7) ⟨[9, 9, 9], [8, 8, 8]⟩ prog) prog 0 2 "model_regress".toList
      [.arr "float".toList [some (.flt 1), some (.flt 2)], .num (.int 2), .arr "float".toList [none, none], .num (.int 2)]) = some (.int 0, [(2, [some (.flt (21/2)), some (.flt 1)])]) := by
  decide +kernel

example : ((loadableText (fun _ => []) "model".toList exNet).bind fun text => (parse text).bind fun prog =>
    callFunc exC (netLib exC ratOps (-7) ⟨[9, 9, 9], [8, 8, 8]⟩ prog) prog 0 2 "model_regress1".toList [.arr "float".toList [some (.flt 1), some (.flt 2)], .num (.int 2)]) = some (.flt (-7), []) := by
  decide +kernel

/-- The example meets the hypotheses of the end-to-end theorem. -/
example : NetArgs "model".toList exNet ∧ 2 ≤ exNet.length ∧ Spec.Chained 2 exNet := by
  refine ⟨exNet_args, by decide, ?_⟩
  simp [Spec.Chained, exNet]

/-- The call of `<name>_predict` in the code generated for `exNet`. -/
def runNamed (name : String) : Option (Option (CallResult ℚ)) :=
  (loadableText (fun _ => []) name.toList exNet).map fun text => (parse text).bind fun prog =>
    callFunc exC (netLib exC ratOps (-7) ⟨[9, 9, 9], [8, 8, 8]⟩ prog) prog 0 9 (name.toList ++ "_predict".toList) [.arr "float".toList [some (.flt 1), some (.flt 2)], .num (.int 2)]

/-- **C90** (negation) a valid identifier is not enough: for the names below, which the generator accepts, code is generated, but the program is not valid C (the name is a type) or does not reach the library
(`features_predict` passes the address of its own parameter, `eml_net_predict` calls itself), while an ordinary name gives class 0. -/
theorem C90_names_refuted : runNamed "model" = some (some (.int 0, [])) ∧
    ∀ name ∈ ["features", "n_features", "eml_net", "int32_t", "EmlNet"], assertValidIdentifier name.toList = true ∧ runNamed name = some none := by
  have h : ∀ name ∈ ["features", "n_features", "eml_net", "int32_t", "EmlNet"], assertValidIdentifier name.toList = true ∧ (runNamed name).isSome = true ∧ (runNamed name).join.isNone = true := by
    decide +kernel
  refine ⟨?_, fun name hn => ⟨(h name hn).1, ?_⟩⟩
  · have : (runNamed "model").map (fun r => r.map fun p => (p.1, p.2.length)) = some (some (.int 0, 0)) := by decide +kernel
    generalize runNamed "model" = r at this
    match r, this with
    | some (some (v, [])), h => simpa using h
    | some (some (v, a :: l)), h => simp at h
    | some none, h => simp at h
    | none, h => simp at h
  · obtain ⟨-, h1, h2⟩ := h name hn
    generalize runNamed name = r at h1 h2
    match r, h1, h2 with
    | some (some _), _, h => simp at h
    | some none, _, _ => rfl
    | none, h, _ => simp at h
end Emlearn.Net.CText
