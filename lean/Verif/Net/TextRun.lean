/- What a C compiler makes of the generated loadable network code: the `EmlNet` structure, and the calls into `eml_net.h`.
`readFloats`, `readBuffer`, `readLayer`, `readNetC`, `netLib` are part of the specification (initialisers of structures, `eml_net.h` 25-47, and the functions modelled in `Net/Model.lean`). -/
import Verif.Net.TextParse
import Verif.Props.NetApi
namespace Emlearn.Net.CText
open Emlearn.Cgen Emlearn.MiniC Emlearn.Net.Codegen
variable {F : Type}

/-- The values of `float` numbers in memory. -/
def fltsOf (vs : List (Option (Val F))) : Option (List F) :=
  vs.mapM fun v => match v with | some (.flt x) => some x | _ => none

/-- The initialised array of `float` numbers `x`. -/
def readFloats (ops : CFloat F) (prog : Prog) (x : List Char) : Option (List F) :=
  match globalsOf ops prog x with
  | some (.array ty vs) => if ty = "float".toList then fltsOf vs else none
  | _ => none

/-- The number of elements of the writable array of `float` numbers `x`. -/
def readBuffer (prog : Prog) (x : List Char) : Option Nat :=
  match findDecl prog x with
  | some d =>
    match d.size, d.init with
    | some n, none => if d.ty = "float".toList ∧ "const".toList ∉ d.mods then readNat n else none
    | _, _ => none
  | none => none

/-- `{ n_outputs, n_inputs, weights, biases, activation }` as an `EmlNetLayer` (`eml_net.h` 25-31). -/
def readLayer (ops : CFloat F) (prog : Prog) (row : List Expr) : Option (Layer F) :=
  match row with
  | [o, i, .var w, .var b, .var a] =>
    match fieldInt ops "int32_t".toList o, fieldInt ops "int32_t".toList i, readFloats ops prog w, readFloats ops prog b, readAct a with
    | some o, some i, some w, some b, some a => if 0 ≤ o ∧ 0 ≤ i then some ⟨o.toNat, i.toNat, w, b, a⟩ else none
    | _, _, _, _, _ => none
  | _ => none

/-- The array of layers `x`; its entries refer to arrays declared before it. -/
def readLayersC (ops : CFloat F) (prog : Prog) (x : List Char) : Option (List (Layer F)) :=
  match findDecl prog x with
  | some d =>
    match d.size, d.init with
    | some n, some (.nested rows) => if d.ty = "EmlNetLayer".toList ∧ readNat n = some rows.length then rows.mapM (readLayer ops (before prog x)) else none
    | _, _ => none
  | none => none

/-- The variable `g` of type `EmlNet` (`eml_net.h` 39-47) with the sizes of its two activation buffers. -/
def readNetC (ops : CFloat F) (prog : Prog) (g : List Char) : Option (Net F × Nat × Nat) :=
  match findDecl prog g with
  | some d =>
    match d.size, d.init with
    | none, some (.flat [nl, .var xs, .var x1, .var x2, al] _) =>
      match readLayersC ops (before prog g) xs, readBuffer (before prog g) x1, readBuffer (before prog g) x2, fieldInt ops "int32_t".toList al with
      | some ls, some n1, some n2, some a =>
        if d.ty = "EmlNet".toList ∧ fieldInt ops "int32_t".toList nl = some (ls.length : Int) ∧ 0 ≤ a ∧ x1 ≠ x2 then some (⟨ls, a.toNat⟩, n1, n2) else none
      | _, _, _, _ => none
    | _, _ => none
  | none => none

/-- `eml_net_regress1`, `eml_net.h` 391-401: the first output, or `NAN` when `eml_net_regress` fails. -/
def regress1 (nops : NetOps F) (nan : F) (n : Net F) (s : Bufs F) (features : List F) : Option (F × Bufs F) :=
  match regress nops n s features 1 with
  | some ((.ok, out), s) => out[0]?.map fun y => (y, s)
  | some ((_, _), s) => some (nan, s)
  | none => none

/-- The functions of `eml_net.h` used by generated code, on the structure that the first argument points to; `s` are the contents of the activation buffers when the function is called, with the sizes that
the program declares. The length passed must not exceed the array. `nan` is `NAN`. -/
def netLib (ops : CFloat F) (nops : NetOps F) (nan : F) (s : Bufs F) (prog : Prog) (f : List Char) (args : List (ArgVal F)) : Option (CallResult F) :=
  match args with
  | .ref g :: .arr ty feats :: .num (.int len) :: rest =>
    match readNetC ops prog g, fltsOf feats with
    | some (n, n1, n2), some xs =>
      if ty = "float".toList ∧ s.b1.length = n1 ∧ s.b2.length = n2 ∧ 0 ≤ len ∧ len ≤ xs.length then
        match rest with
        | [] =>
          if f = "eml_net_predict".toList then (predict nops n s (xs.take len.toNat)).map fun r => (.int r.1, [])
          else if f = "eml_net_regress1".toList then (regress1 nops nan n s (xs.take len.toNat)).map fun r => (.flt r.1, [])
          else none
        | [.arr oty outs, .num (.int m)] =>
          if f = "eml_net_regress".toList ∧ oty = "float".toList ∧ 0 ≤ m ∧ m ≤ outs.length then
            (regress nops n s (xs.take len.toNat) m.toNat).map fun r =>
              (.int (errCode r.1.1), if r.1.1 = .ok then [(3, r.1.2.map (fun y => some (.flt y)) ++ outs.drop r.1.2.length)] else [])
          else none
        | _ => none
      else none
    | _, _ => none
  | _ => none

/-! ### Reading the generated structure -/

theorem fltsOf_flts (xs : List F) : fltsOf (xs.map fun z => (some (.flt z) : Option (Val F))) = some xs := by
  unfold fltsOf
  induction xs with
  | nil => rfl
  | cons x l ih => rw [List.map_cons, List.mapM_cons, ih]; rfl

theorem mapM_eval_floats (ops : CFloat F) (ctx : Ctx F) (env : Env F) (vs : List ℚ) :
    (vs.map (litExpr · "float".toList)).mapM (eval ops ctx env) = some (vs.map fun v => .flt (floatLit ops v)) := by
  induction vs with
  | nil => rfl
  | cons v l ih => rw [List.map_cons, List.mapM_cons, eval_litExpr_float, ih]; rfl

theorem mapM_conv_floats (ops : CFloat F) (xs : List F) : (xs.map fun x => (.flt x : Val F)).mapM (conv ops "float".toList) = some (xs.map fun x => .flt x) := by
  induction xs with
  | nil => rfl
  | cons v l ih => rw [List.map_cons, List.mapM_cons, conv_float, ih]; rfl

theorem litExprs_uses (vs : List ℚ) (x : List Char) : ((vs.map (litExpr · "float".toList)).any fun e => e.uses x) = false := by
  unfold litExpr
  exact sgnExprs_uses _ vs x

theorem declare_floatArr (ops : CFloat F) (ctx : Ctx F) (name : List Char) (vs : List ℚ) (hne : vs ≠ []) (env : Env F) (henv : env name = none) :
    declare ops ctx env (floatArr name vs) = some (env.set name (some (.array "float".toList (vs.map fun v => some (.flt (floatLit ops v)))))) := by
  unfold declare floatArr
  have hc := mapM_conv_floats ops (vs.map (floatLit ops))
  rw [List.map_map] at hc
  simp only [henv, Decl.selfUse, litExprs_uses, Bool.or_self, Option.isSome_none, Bool.false_eq_true, if_false, readNat_showNat, mapM_eval_floats]
  rw [if_pos ⟨by simpa using hne, by simp⟩]
  have hc' : (vs.map fun v => (.flt (floatLit ops v) : Val F)).mapM (conv ops "float".toList) = some (vs.map fun v => .flt (floatLit ops v)) := hc
  rw [hc', conv_float_int]
  simp only [List.length_map, Nat.sub_self, List.replicate_zero, List.append_nil, List.map_map]
  rfl

/-- In a list of variables with different names, a variable is found by its name. -/
theorem findDecl_mem (ds : List MiniC.Decl) (rest : Prog) (hr : ∀ t ∈ rest, ∀ d, t ≠ .decl d) (hn : (ds.map (·.name)).Nodup) (d : MiniC.Decl) (hd : d ∈ ds) :
    findDecl (ds.map .decl ++ rest) d.name = some d := by
  refine findDecl_eq _ d (by simp [hd]) ?_
  intro d' hd' he
  rcases List.mem_append.1 hd' with h | h
  · obtain ⟨d'', h1, h2⟩ := List.mem_map.1 h
    cases h2
    exact List.inj_on_of_nodup_map hn h1 hd he
  · exact absurd rfl (hr _ h d')

theorem before_append (ds : List MiniC.Decl) (d : MiniC.Decl) (rest : Prog) (h : ∀ d' ∈ ds, d'.name ≠ d.name) : before (ds.map .decl ++ .decl d :: rest) d.name = ds.map .decl := by
  unfold before
  induction ds with
  | nil => simp
  | cons e ds ih =>
    rw [List.map_cons, List.cons_append, List.takeWhile_cons]
    have : (e.name != d.name) = true := bne_iff_ne.2 (h e (by simp))
    simp only [this, if_true]
    rw [ih fun d' hd' => h d' (by simp [hd'])]

def netVars (pre : List Char) (ds : List (Dense ℚ)) : List MiniC.Decl := netArrs pre ds ++ [layersArr pre ds, netVar pre ds]

theorem netVars_names (pre : List Char) (ds : List (Dense ℚ)) : (netVars pre ds).map (·.name) = (netDecls pre ds).map (·.name) := by
  unfold netVars netDecls netArrs
  simp only [List.map_append, List.map_cons, List.map_nil, List.append_assoc, List.cons_append, List.nil_append, List.map_flatMap]
  congr 1

theorem netVars_nodup (pre : List Char) (ds : List (Dense ℚ)) : ((netVars pre ds).map (·.name)).Nodup := by
  rw [netVars_names]; exact netDecls_nodup pre ds

def netFuncs (pre : List Char) : Prog := [.func (predictF pre), .func (regressF pre), .func (regress1F pre)]

theorem netProg_vars (pre : List Char) (ds : List (Dense ℚ)) : netProg pre ds = (netVars pre ds).map .decl ++ netFuncs pre := by
  unfold netProg netVars netFuncs
  simp only [List.map_append, List.map_cons, List.map_nil, List.append_assoc, List.cons_append, List.nil_append]

theorem netFuncs_nodecl (pre : List Char) : ∀ t ∈ netFuncs pre, ∀ d, t ≠ .decl d := by
  intro t ht d e
  subst e
  unfold netFuncs at ht
  simp at ht

theorem find_net (pre : List Char) (ds : List (Dense ℚ)) : findDecl (netProg pre ds) pre = some (netVar pre ds) := by
  rw [netProg_vars]
  exact findDecl_mem _ _ (netFuncs_nodecl pre) (netVars_nodup pre ds) (netVar pre ds) (by simp [netVars])

theorem before_net (pre : List Char) (ds : List (Dense ℚ)) : before (netProg pre ds) pre = (netArrs pre ds ++ [layersArr pre ds]).map .decl := by
  have e : netProg pre ds = (netArrs pre ds ++ [layersArr pre ds]).map .decl ++ .decl (netVar pre ds) :: netFuncs pre := by
    unfold netProg netFuncs
    simp only [List.map_append, List.map_cons, List.map_nil, List.append_assoc, List.cons_append, List.nil_append]
  rw [e]
  refine before_append _ (netVar pre ds) _ ?_
  have h := netVars_nodup pre ds
  unfold netVars at h
  rw [show netArrs pre ds ++ [layersArr pre ds, netVar pre ds] = (netArrs pre ds ++ [layersArr pre ds]) ++ [netVar pre ds] by simp, List.map_append, List.nodup_append] at h
  intro d hd he
  exact h.2.2 _ (List.mem_map_of_mem hd) _ (by simp) he

theorem arrsLayers_nodup (pre : List Char) (ds : List (Dense ℚ)) : ((netArrs pre ds ++ [layersArr pre ds]).map (·.name)).Nodup := by
  have h := netVars_nodup pre ds
  unfold netVars at h
  rw [show netArrs pre ds ++ [layersArr pre ds, netVar pre ds] = (netArrs pre ds ++ [layersArr pre ds]) ++ [netVar pre ds] by simp, List.map_append, List.nodup_append] at h
  exact h.1

theorem arrs_nodup (pre : List Char) (ds : List (Dense ℚ)) : ((netArrs pre ds).map (·.name)).Nodup := by
  have h := arrsLayers_nodup pre ds
  rw [List.map_append, List.nodup_append] at h
  exact h.1

theorem find_before (pre : List Char) (ds : List (Dense ℚ)) (d : MiniC.Decl) (hd : d ∈ netArrs pre ds ++ [layersArr pre ds]) :
    findDecl ((netArrs pre ds ++ [layersArr pre ds]).map .decl) d.name = some d := by
  have := findDecl_mem (netArrs pre ds ++ [layersArr pre ds]) [] (by simp) (arrsLayers_nodup pre ds) d hd
  rwa [List.append_nil] at this

theorem before_layers (pre : List Char) (ds : List (Dense ℚ)) : before ((netArrs pre ds ++ [layersArr pre ds]).map .decl) (pre ++ "_layers".toList) = (netArrs pre ds).map .decl := by
  have e : ((netArrs pre ds ++ [layersArr pre ds]).map Top.decl) = (netArrs pre ds).map .decl ++ .decl (layersArr pre ds) :: [] := by
    simp only [List.map_append, List.map_cons, List.map_nil]
  rw [e]
  refine before_append _ (layersArr pre ds) _ ?_
  have h := arrsLayers_nodup pre ds
  rw [List.map_append, List.nodup_append] at h
  intro d hd he
  exact h.2.2 _ (List.mem_map_of_mem hd) _ (by simp) he

theorem readFloats_arr (ops : CFloat F) (pre : List Char) (ds : List (Dense ℚ)) (name : List Char) (vs : List ℚ) (hne : vs ≠ []) (h : floatArr name vs ∈ netArrs pre ds) :
    readFloats ops ((netArrs pre ds).map .decl) name = some (vs.map (floatLit ops)) := by
  have hf := findDecl_mem (netArrs pre ds) [] (by simp) (arrs_nodup pre ds) _ h
  rw [List.append_nil] at hf
  have hf' : findDecl ((netArrs pre ds).map .decl) name = some (floatArr name vs) := hf
  unfold readFloats globalsOf
  rw [hf']
  simp only
  rw [declare_floatArr ops _ name vs hne _ rfl, Option.bind_some, Env.set_same]
  simp only [if_true]
  have := fltsOf_flts (vs.map (floatLit ops))
  rw [List.map_map] at this
  exact this

/-- The layers with every weight replaced. -/
def mapD (g : ℚ → F) (d : Dense ℚ) : Dense F := { act := d.act, w := d.w.map (List.map g), b := d.b.map g }

/-- Sizes that fit an `int32_t`; no empty array. -/
structure Sizes (ds : List (Dense ℚ)) : Prop where
  act : ∀ d ∈ ds, d.act ≠ .other
  rect : ∀ d ∈ ds, ∀ r ∈ d.w, r.length = d.b.length
  pos : ∀ d ∈ ds, d.w ≠ [] ∧ d.b ≠ []
  fit : ∀ d ∈ ds, d.w.length ≤ 2147483647 ∧ d.b.length ≤ 2147483647
  count : ds.length ≤ 2147483647

theorem flatten_ne {w : List (List ℚ)} {n : Nat} (h1 : w ≠ []) (h2 : ∀ r ∈ w, r.length = n) (h3 : n ≠ 0) : w.flatten ≠ [] := by
  cases w with
  | nil => exact absurd rfl h1
  | cons r l =>
    have := h2 r (by simp)
    intro e
    rw [List.flatten_cons, List.append_eq_nil_iff] at e
    rw [e.1] at this
    exact h3 this.symm

theorem readLayer_row (ops : CFloat F) (pre : List Char) (ds : List (Dense ℚ)) (hs : Sizes ds) (p : Dense ℚ × Nat) (hp : p ∈ ds.zipIdx) :
    readLayer ops ((netArrs pre ds).map .decl) (layerRow pre p) = some (genLayer (mapD (floatLit ops) p.1)) := by
  have hm := zipIdx_mem hp
  have hpos := hs.pos _ hm
  have hfit := hs.fit _ hm
  have harr : ∀ d ∈ layerArrs pre p, d ∈ netArrs pre ds := by
    intro d hd
    unfold netArrs
    exact List.mem_append_left _ (List.mem_flatMap.2 ⟨p, hp, hd⟩)
  have e1 := readFloats_arr ops pre ds (formatName pre p.2 "weights".toList) p.1.w.flatten (flatten_ne hpos.1 (hs.rect _ hm) (by simpa using hpos.2)) (harr _ (by simp [layerArrs]))
  have e2 := readFloats_arr ops pre ds (formatName pre p.2 "biases".toList) p.1.b hpos.2 (harr _ (by simp [layerArrs]))
  have e3 := fieldInt_nat ops p.1.nOut hfit.2
  have e4 := fieldInt_nat ops p.1.nIn hfit.1
  unfold readLayer layerRow
  simp only
  rw [e1, e2, e3, e4, readAct_actText (hs.act _ hm)]
  simp only
  rw [if_pos ⟨by omega, by omega⟩]
  unfold genLayer mapD Dense.nOut Dense.nIn
  simp only [List.length_map, Int.toNat_natCast, List.map_flatten]

theorem bufferSize_map (g : ℚ → F) (ds : List (Dense ℚ)) : bufferSize (ds.map (mapD g)) = bufferSize ds := by
  unfold bufferSize
  simp only [List.map_map]
  congr 2
  · exact List.map_congr_left fun d _ => by simp [mapD, Dense.nIn]
  · exact List.map_congr_left fun d _ => by simp [mapD, Dense.nOut]

theorem foldl_max_le (l : List Nat) (a N : Nat) (ha : a ≤ N) (h : ∀ x ∈ l, x ≤ N) : l.foldl max a ≤ N := by
  induction l generalizing a with
  | nil => exact ha
  | cons x l ih => exact ih (max a x) (max_le ha (h x (by simp))) fun y hy => h y (by simp [hy])

theorem bufferSize_le (ds : List (Dense ℚ)) (hs : Sizes ds) : bufferSize ds ≤ 2147483647 := by
  unfold bufferSize
  refine foldl_max_le _ _ _ (by decide) ?_
  intro x hx
  rcases List.mem_append.1 hx with h | h <;> obtain ⟨d, hd, rfl⟩ := List.mem_map.1 h
  · exact (hs.fit d hd).1
  · exact (hs.fit d hd).2

/-- The structure declared by the generated program is the network of `genLoadable`. -/
theorem readNetC_netProg (ops : CFloat F) (pre : List Char) (ds : List (Dense ℚ)) (hs : Sizes ds) :
    readNetC ops (netProg pre ds) pre = some (genLoadable (ds.map (mapD (floatLit ops))), bufferSize ds, bufferSize ds) := by
  have h1 : readLayersC ops ((netArrs pre ds ++ [layersArr pre ds]).map .decl) (pre ++ "_layers".toList) = some (ds.map fun d => genLayer (mapD (floatLit ops) d)) := by
    unfold readLayersC
    have hf := find_before pre ds (layersArr pre ds) (by simp)
    have hf' : findDecl ((netArrs pre ds ++ [layersArr pre ds]).map .decl) (pre ++ "_layers".toList) = some (layersArr pre ds) := hf
    rw [hf', before_layers]
    show (if "EmlNetLayer".toList = "EmlNetLayer".toList ∧ readNat (showNat ds.length) = some (ds.zipIdx.map (layerRow pre)).length then
      (ds.zipIdx.map (layerRow pre)).mapM (readLayer ops ((netArrs pre ds).map .decl)) else none) = _
    rw [if_pos ⟨rfl, by rw [readNat_showNat]; simp⟩, List.mapM_map]
    have := Quant.mapM_some (readLayer ops ((netArrs pre ds).map .decl) ∘ layerRow pre) (fun p => genLayer (mapD (floatLit ops) p.1)) ds.zipIdx fun p hp => readLayer_row ops pre ds hs p hp
    rw [this]
    congr 1
    rw [show (fun p : Dense ℚ × Nat => genLayer (mapD (floatLit ops) p.1)) = (fun d => genLayer (mapD (floatLit ops) d)) ∘ Prod.fst from rfl, ← List.map_map, List.zipIdx_map_fst]
  have hb : ∀ s, buffer (pre ++ s) (bufferSize ds) ∈ netArrs pre ds → readBuffer ((netArrs pre ds ++ [layersArr pre ds]).map .decl) (pre ++ s) = some (bufferSize ds) := by
    intro s hm
    unfold readBuffer
    have hf : findDecl ((netArrs pre ds ++ [layersArr pre ds]).map .decl) (pre ++ s) = some (buffer (pre ++ s) (bufferSize ds)) :=
      find_before pre ds (buffer (pre ++ s) (bufferSize ds)) (List.mem_append_left _ hm)
    rw [hf]
    show (if "float".toList = "float".toList ∧ "const".toList ∉ ["static".toList] then readNat (showNat (bufferSize ds)) else none) = _
    rw [if_pos ⟨rfl, by decide +kernel⟩, readNat_showNat]
  have h2 := hb "_buf1".toList (by simp [netArrs])
  have h3 := hb "_buf2".toList (by simp [netArrs])
  have h4 := fieldInt_nat ops (bufferSize ds) (bufferSize_le ds hs)
  have h5 := fieldInt_nat ops ds.length hs.count
  unfold readNetC
  rw [find_net, before_net]
  show (match readLayersC ops ((netArrs pre ds ++ [layersArr pre ds]).map .decl) (pre ++ "_layers".toList), readBuffer ((netArrs pre ds ++ [layersArr pre ds]).map .decl) (pre ++ "_buf1".toList),
      readBuffer ((netArrs pre ds ++ [layersArr pre ds]).map .decl) (pre ++ "_buf2".toList), fieldInt ops "int32_t".toList (.lit (showNat (bufferSize ds))) with
    | some ls, some n1, some n2, some a =>
      if "EmlNet".toList = "EmlNet".toList ∧ fieldInt ops "int32_t".toList (.lit (showNat ds.length)) = some (ls.length : Int) ∧ 0 ≤ a ∧ pre ++ "_buf1".toList ≠ pre ++ "_buf2".toList then
        some ((⟨ls, a.toNat⟩ : Net F), n1, n2) else none
    | _, _, _, _ => none) = _
  rw [h1, h2, h3, h4]
  have hc : "EmlNet".toList = "EmlNet".toList ∧ fieldInt ops "int32_t".toList (.lit (showNat ds.length)) = some ((ds.map fun d => genLayer (mapD (floatLit ops) d)).length : Int) ∧
      (0 : Int) ≤ (bufferSize ds : Int) ∧ pre ++ "_buf1".toList ≠ pre ++ "_buf2".toList :=
    ⟨rfl, by rw [h5, List.length_map], by omega, fun e => absurd (List.append_cancel_left e) (by decide +kernel)⟩
  refine (if_pos hc).trans ?_
  unfold genLoadable
  rw [bufferSize_map, Int.toNat_natCast, List.map_map]
  rfl
end Emlearn.Net.CText
