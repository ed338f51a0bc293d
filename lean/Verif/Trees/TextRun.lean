/- What a C compiler makes of the generated loadable program: the `EmlTrees` structure, and the calls into `eml_trees.h`.
`readTrees` and `treesLib` are part of the specification (initialisers of structures, `eml_trees.h` 21-48, and the functions modelled in `Trees/CModel.lean`). -/
import Verif.Trees.TextLoad
import Verif.Trees.TextCall
import Verif.MiniC.Call
namespace Emlearn.Trees
open Emlearn.Cgen Emlearn.MiniC
variable {F : Type}

/-! ### The structure that a program declares -/

/-- `{ feature, value, left, right }` as an `EmlTreesNode` (`eml_trees.h` 21-26). -/
def readNode (ops : CFloat F) (row : List Expr) : Option CNode :=
  match row with
  | [a, b, c, d] =>
    match fieldInt ops "int8_t".toList a, fieldInt ops "int16_t".toList b, fieldInt ops "int16_t".toList c, fieldInt ops "int16_t".toList d with
    | some f, some v, some l, some r => some ⟨f, v, l, r⟩
    | _, _, _, _ => none
  | _ => none

/-- The array of nodes `x`. -/
def readNodes (ops : CFloat F) (prog : Prog) (x : List Char) : Option (List CNode) :=
  match findDecl prog x with
  | some d =>
    match d.size, d.init with
    | some n, some (.nested rows) => if d.ty = "EmlTreesNode".toList ∧ readNat n = some rows.length then rows.mapM (readNode ops) else none
    | _, _ => none
  | none => none

/-- The array of integers `x` of the given type. -/
def readInts (ops : CFloat F) (prog : Prog) (ty x : List Char) : Option (List Int) :=
  match globalsOf ops prog x with
  | some (.array ty' vs) => if ty' = ty then intsOf vs else none
  | _ => none

/-- The model whose arrays are called `x1`, `x2` and `x3`; the lengths given in the structure must be the lengths of the arrays. -/
def readModel (ops : CFloat F) (prog : Prog) (x1 x2 x3 : List Char) (nn nt nl lb nf nc : Expr) : Option CModel :=
  match readNodes ops prog x1, readInts ops prog "int32_t".toList x2, readInts ops prog "uint8_t".toList x3 with
  | some nodes, some roots, some leaves =>
    if fieldInt ops "int32_t".toList nn = some (nodes.length : Int) ∧ fieldInt ops "int32_t".toList nt = some (roots.length : Int) ∧ fieldInt ops "int32_t".toList nl = some (leaves.length : Int) then
      match fieldInt ops "int8_t".toList lb, fieldInt ops "int8_t".toList nf, fieldInt ops "int8_t".toList nc with
      | some b, some f, some c => some ⟨nodes, roots, leaves.map Int.toNat, b, f, c⟩
      | _, _, _ => none
    else none
  | _, _, _ => none

/-- The nine fields of an `EmlTrees` (`eml_trees.h` 35-48). -/
def readFields (ops : CFloat F) (prog : Prog) : List Expr → Option CModel
  | [nn, .cast t1 true (.paren (.var x1)), nt, .cast t2 true (.paren (.var x2)), nl, .cast t3 true (.paren (.var x3)), lb, nf, nc] =>
    if t1 = "EmlTreesNode".toList ∧ t2 = "int32_t".toList ∧ t3 = "uint8_t".toList then readModel ops prog x1 x2 x3 nn nt nl lb nf nc else none
  | _ => none

/-- The variable `g` of type `EmlTrees`. -/
def readTrees (ops : CFloat F) (prog : Prog) (g : List Char) : Option CModel :=
  match findDecl prog g with
  | some d =>
    match d.size, d.init with
    | none, some (.flat es _) => if d.ty = "EmlTrees".toList then readFields ops (before prog g) es else none
    | _, _ => none
  | none => none

/-- Number of an error (`eml_common.h` 20-28). -/
def errNum : EmlError → Int
  | .ok => 0 | .sizeMismatch => 1 | .unsupported => 2 | .uninitialized => 3 | .postconditionFailed => 4 | .unknownError => 5

/-- The functions of `eml_trees.h` used by generated code, on the structure that the first argument points to. The length of the features is an `int8_t` there.
`decode leaves i` is the `float` stored in the bytes of leaf `i`; `nan` is `NAN`. Features with an indeterminate value are not looked at when the length is refused (`eml_trees.h` 201-203). -/
def treesLib (ops : CFloat F) (decode : List Nat → Nat → Option F) (nan : F) (prog : Prog) (f : List Char) (args : List (ArgVal F)) : Option (CallResult F) :=
  match args with
  | .ref g :: .arr ty feats :: .num (.int len) :: rest =>
    if ty = "int16_t".toList then
      match readTrees ops prog g, intsOf feats with
      | some m, some features =>
        match rest with
        | [] =>
          if f = "eml_trees_predict".toList then (predict ops.toFOps m features (wrap8 len)).map fun c => (.int c, [])
          else if f = "eml_trees_regress1".toList then
            (regress ops.toFOps m (decode m.leaves) features 1).map fun r => match r with | .ok y => (.flt y, []) | .error _ => (.flt nan, [])
          else none
        | [.arr oty outs, .num (.int n)] =>
          if f = "eml_trees_predict_proba".toList ∧ oty = "float".toList ∧ n = outs.length then
            match predictProba ops.toFOps m features n with
            | some (.ok out) => some (.int 0, [(3, flts out)])
            | some (.error .sizeMismatch) => some (.int (errNum .sizeMismatch), [])
            | some (.error e) => some (.int (errNum e), [(3, flts (List.replicate outs.length ops.zero))])
            | none => none
          else none
        | _ => none
      | some m, none => if f = "eml_trees_predict".toList ∧ rest.isEmpty = true ∧ wrap8 len ≠ m.nFeatures then some (.int (-3), []) else none
      | _, _ => none
    else none
  | _ => none

/-! ### Reading the generated structure -/

theorem fieldInt_nat8 (ops : CFloat F) (n : Nat) (h : n ≤ 2147483647) : fieldInt ops "int8_t".toList (.lit (showNat n)) = some (wrap8 n) :=
  fieldInt_eq ops (by rw [eval, litVal_showNat ops _ h]; rfl) (conv_int8 ops _)

theorem encodeChild_bound {i : Nat} {c l : Int} (h : encodeChild i c = some l) : l.natAbs ≤ 2147483647 := by
  unfold encodeChild assertValidChild at h
  split at h
  · split at h
    · cases h
    · split at h
      · cases h; omega
      · cases h
  · split at h
    · cases h; omega
    · cases h

/-- Values that are written as C `int` constants. -/
structure NodeInts (nodes : List (Node ℚ)) : Prop where
  feature : ∀ n ∈ nodes, n.feature.natAbs ≤ 2147483647
  threshold : ∀ n ∈ nodes, (trunc n.threshold).natAbs ≤ 2147483647

theorem readNode_row (ops : CFloat F) (dtype : List Char) (hd : dtype ≠ "float".toList) (n : Node ℚ) (hf : n.feature.natAbs ≤ 2147483647) (ht : (trunc n.threshold).natAbs ≤ 2147483647) (l r : Int)
    (hl : l.natAbs ≤ 2147483647) (hr : r.natAbs ≤ 2147483647) :
    readNode ops (nodeExprs dtype n l r) = some ⟨wrap8 n.feature, wrap16 (trunc n.threshold), wrap16 l, wrap16 r⟩ := by
  have h1 := fieldInt_eq ops (eval_intSgn ops _ _ n.feature hf) (conv_int8 ops n.feature)
  have h2 := fieldInt_eq ops (eval_litExpr_int ops _ _ n.threshold dtype hd ht) (conv_int16 ops (trunc n.threshold))
  have h3 := fieldInt_eq ops (eval_intSgn ops _ _ l hl) (conv_int16 ops l)
  have h4 := fieldInt_eq ops (eval_intSgn ops _ _ r hr) (conv_int16 ops r)
  unfold readNode nodeExprs
  simp only
  rw [h1, h2, h3, h4]

theorem readNodes_rows (ops : CFloat F) (dtype : List Char) (hd : dtype ≠ "float".toList) (i : Nat) (nodes : List (Node ℚ)) (hn : NodeInts nodes) (rows : List (List Expr))
    (h : nodeRowsFrom dtype i nodes = some rows) : ∃ cs, generateNodesFrom trunc i nodes = some cs ∧ cs.length = rows.length ∧ rows.mapM (readNode ops) = some cs := by
  induction nodes generalizing i rows with
  | nil => simp [nodeRowsFrom] at h; subst h; exact ⟨[], rfl, rfl, rfl⟩
  | cons n rest ih =>
    unfold nodeRowsFrom at h
    cases hl : encodeChild i n.left with
    | none => rw [hl] at h; cases h
    | some l =>
    cases hr : encodeChild i n.right with
    | none => rw [hl, hr] at h; cases h
    | some r =>
    cases hs : nodeRowsFrom dtype (i + 1) rest with
    | none => rw [hl, hr, hs] at h; cases h
    | some us =>
    rw [hl, hr, hs] at h
    cases h
    obtain ⟨cs, h1, h2, h3⟩ := ih (i + 1) ⟨fun n h => hn.1 n (by simp [h]), fun n h => hn.2 n (by simp [h])⟩ us hs
    refine ⟨⟨wrap8 n.feature, wrap16 (trunc n.threshold), wrap16 l, wrap16 r⟩ :: cs, ?_, by simp [h2], ?_⟩
    · simp [generateNodesFrom, makeNode, hl, hr, h1]
    · rw [List.mapM_cons, readNode_row ops dtype hd n (hn.1 n (by simp)) (hn.2 n (by simp)) l r (encodeChild_bound hl) (encodeChild_bound hr), h3]
      rfl

/-! ### The names of a loadable program -/

theorem sfx : "_nodes".toList ≠ [] ∧ "_tree_roots".toList ≠ [] ∧ "_leaves".toList ≠ [] ∧ "_nodes".toList ≠ "_tree_roots".toList ∧ "_nodes".toList ≠ "_leaves".toList ∧ "_tree_roots".toList ≠ "_leaves".toList := by
  decide +kernel

section
variable (ops : CFloat F) (name dtype : List Char) (roots : List Nat) (nFeatures nClasses : Nat) (leafBits : Int) (c ip : Bool) (ws : List (List Char)) (bytes : List Nat) (rows : List (List Expr))

theorem find_struct : findDecl (loadProg name dtype roots nFeatures nClasses leafBits c ip ws bytes rows) name =
    some (structDecl name rows.length roots.length bytes.length (treeBits leafBits) nFeatures nClasses) := by
  obtain ⟨s1, s2, s3, -⟩ := sfx
  refine findDecl_eq _ (structDecl name rows.length roots.length bytes.length (treeBits leafBits) nFeatures nClasses) (by simp [loadProg]) ?_
  intro d hd he
  unfold loadProg at hd
  rw [List.mem_append] at hd
  rcases hd with hd | hd
  · simp only [List.mem_cons, List.not_mem_nil, or_false, Top.decl.injEq] at hd
    rcases hd with rfl | rfl | rfl | rfl
    · exact absurd he (append_ne_self name _ s1)
    · exact absurd he (append_ne_self name _ s2)
    · exact absurd he (append_ne_self name _ s3)
    · rfl
  · obtain ⟨g, -, e⟩ := List.mem_map.1 hd
    cases e

theorem before_struct : before (loadProg name dtype roots nFeatures nClasses leafBits c ip ws bytes rows) name =
    [.decl (nodesDecl name ws rows), .decl (rootsDecl name ws roots), .decl (leavesDecl name ws bytes)] := by
  obtain ⟨s1, s2, s3, -⟩ := sfx
  have e1 : ((nodesDecl name ws rows).name != name) = true := bne_iff_ne.2 (append_ne_self name _ s1)
  have e2 : ((rootsDecl name ws roots).name != name) = true := bne_iff_ne.2 (append_ne_self name _ s2)
  have e3 : ((leavesDecl name ws bytes).name != name) = true := bne_iff_ne.2 (append_ne_self name _ s3)
  have e4 : ((structDecl name rows.length roots.length bytes.length (treeBits leafBits) nFeatures nClasses).name != name) = false := by
    show (name != name) = false
    simp
  unfold before loadProg
  simp only [List.cons_append, List.takeWhile_cons, e1, e2, e3, e4, if_true, Bool.false_eq_true, if_false]

theorem find_nodes : findDecl [.decl (nodesDecl name ws rows), .decl (rootsDecl name ws roots), .decl (leavesDecl name ws bytes)] (name ++ "_nodes".toList) = some (nodesDecl name ws rows) := by
  refine findDecl_eq _ (nodesDecl name ws rows) (by simp) ?_
  intro d hd he
  simp only [List.mem_cons, List.not_mem_nil, or_false, Top.decl.injEq] at hd
  obtain ⟨-, -, -, s4, s5, s6⟩ := sfx
  rcases hd with rfl | rfl | rfl
  · rfl
  · exact absurd (List.append_cancel_left he).symm s4
  · exact absurd (List.append_cancel_left he).symm s5

theorem find_roots : findDecl [.decl (nodesDecl name ws rows), .decl (rootsDecl name ws roots), .decl (leavesDecl name ws bytes)] (name ++ "_tree_roots".toList) = some (rootsDecl name ws roots) := by
  refine findDecl_eq _ (rootsDecl name ws roots) (by simp) ?_
  intro d hd he
  simp only [List.mem_cons, List.not_mem_nil, or_false, Top.decl.injEq] at hd
  obtain ⟨-, -, -, s4, s5, s6⟩ := sfx
  rcases hd with rfl | rfl | rfl
  · exact absurd (List.append_cancel_left he) s4
  · rfl
  · exact absurd (List.append_cancel_left he).symm s6

theorem find_leaves : findDecl [.decl (nodesDecl name ws rows), .decl (rootsDecl name ws roots), .decl (leavesDecl name ws bytes)] (name ++ "_leaves".toList) = some (leavesDecl name ws bytes) := by
  refine findDecl_eq _ (leavesDecl name ws bytes) (by simp) ?_
  intro d hd he
  simp only [List.mem_cons, List.not_mem_nil, or_false, Top.decl.injEq] at hd
  obtain ⟨-, -, -, s4, s5, s6⟩ := sfx
  rcases hd with rfl | rfl | rfl
  · exact absurd (List.append_cancel_left he) s5
  · exact absurd (List.append_cancel_left he) s6
  · rfl

theorem mapM_eval_roots (ctx : Ctx F) (env : Env F) (hr : ∀ r ∈ roots, r ≤ 2147483647) :
    (roots.map fun (r : Nat) => sgnExpr (intSgn r)).mapM (eval ops ctx env) = some (roots.map fun (r : Nat) => .int r) := by
  induction roots with
  | nil => rfl
  | cons r l ih =>
    rw [List.map_cons, List.mapM_cons, eval_intSgn ops ctx env r (by have := hr r (by simp); omega), ih fun r h => hr r (by simp [h])]
    rfl

theorem mapM_conv_roots (hr : ∀ r ∈ roots, r ≤ 2147483647) :
    (roots.map fun (r : Nat) => (.int r : Val F)).mapM (conv ops "int32_t".toList) = some (roots.map fun (r : Nat) => .int r) := by
  induction roots with
  | nil => rfl
  | cons r l ih =>
    rw [List.map_cons, List.mapM_cons, conv_int32 ops (.inr rfl) r (by omega) (by have := hr r (by simp); omega), ih fun r h => hr r (by simp [h])]
    rfl

theorem declare_roots (ctx : Ctx F) (hr : ∀ r ∈ roots, r ≤ 2147483647) (hne : roots ≠ []) (env : Env F) (henv : env (name ++ "_tree_roots".toList) = none) :
    declare ops ctx env (rootsDecl name ws roots) = some (env.set (name ++ "_tree_roots".toList) (some (.array "int32_t".toList (roots.map fun (r : Nat) => some (.int r))))) := by
  unfold declare rootsDecl
  have hu := sgnExprs_uses (fun (r : Nat) => intSgn (r : Int)) roots (name ++ "_tree_roots".toList)
  simp only [henv, Decl.selfUse, hu, Bool.or_self, Option.isSome_none, Bool.false_eq_true, if_false, readNat_showNat, mapM_eval_roots ops roots ctx env hr, mapM_conv_roots ops roots hr]
  rw [if_pos ⟨by simpa using hne, by simp⟩]
  rw [conv_int32 ops (.inr rfl) 0 (by decide) (by decide)]
  simp only [List.length_map, Nat.sub_self, List.replicate_zero, List.append_nil, List.map_map]
  rfl

/-- The structure declared by the loadable program is the model of `generateLoadable`. -/
theorem readTrees_loadProg (hd : dtype ≠ "float".toList) {L : Type} (f : Forest ℚ L) (hn : NodeInts f.nodes) (hnl : f.nodes.length ≤ 2147483647) (hroots : f.roots ≠ [])
    (hr : ∀ r ∈ f.roots, r ≤ 2147483647) (hrl : f.roots.length ≤ 2147483647) (hb : ∀ b ∈ bytes, b < 256) (hbne : bytes ≠ []) (hbl : bytes.length ≤ 2147483647)
    (hf : nFeatures ≤ 2147483647) (hc : nClasses ≤ 2147483647) (h : nodeRowsFrom dtype 0 f.nodes = some rows) (hrows : rows.length = f.nodes.length) :
    ∃ m, generateLoadable trunc f bytes leafBits nFeatures nClasses = some m ∧
      readTrees ops (loadProg name dtype f.roots nFeatures nClasses leafBits c ip ws bytes rows) name = some m := by
  obtain ⟨cs, h1, h2, h3⟩ := readNodes_rows ops dtype hd 0 f.nodes hn rows h
  refine ⟨⟨cs, f.roots.map Int.ofNat, bytes, treeBits leafBits, wrap8 nFeatures, wrap8 nClasses⟩, ?_, ?_⟩
  · unfold generateLoadable generateNodes
    rw [h1]
    rfl
  unfold readTrees
  rw [find_struct, before_struct]
  have e1 : readNodes ops [.decl (nodesDecl name ws rows), .decl (rootsDecl name ws f.roots), .decl (leavesDecl name ws bytes)] (name ++ "_nodes".toList) = some cs := by
    unfold readNodes
    rw [find_nodes]
    show (if "EmlTreesNode".toList = "EmlTreesNode".toList ∧ readNat (showNat rows.length) = some rows.length then rows.mapM (readNode ops) else none) = _
    rw [if_pos ⟨rfl, readNat_showNat _⟩, h3]
  have e2 : readInts ops [.decl (nodesDecl name ws rows), .decl (rootsDecl name ws f.roots), .decl (leavesDecl name ws bytes)] "int32_t".toList (name ++ "_tree_roots".toList) =
      some (f.roots.map Int.ofNat) := by
    unfold readInts globalsOf
    rw [find_roots]
    simp only
    rw [declare_roots ops name f.roots ws _ hr hroots _ rfl, Option.bind_some, Env.set_same]
    simp only [if_true]
    have := intsOf_ints (F := F) (f.roots.map Int.ofNat)
    rw [List.map_map] at this
    exact this
  have e3 : readInts ops [.decl (nodesDecl name ws rows), .decl (rootsDecl name ws f.roots), .decl (leavesDecl name ws bytes)] "uint8_t".toList (name ++ "_leaves".toList) =
      some (bytes.map Int.ofNat) := by
    unfold readInts globalsOf
    rw [find_leaves]
    simp only
    rw [declare_leaves ops _ name ws bytes hb hbne _ rfl, Option.bind_some, Env.set_same]
    simp only [if_true]
    have := intsOf_ints (F := F) (bytes.map Int.ofNat)
    rw [List.map_map] at this
    exact this
  have e4 := fieldInt_nat ops rows.length (by omega)
  have e5 := fieldInt_nat ops f.roots.length hrl
  have e6 := fieldInt_nat ops bytes.length hbl
  have hbits : treeBits leafBits = 0 ∨ treeBits leafBits = 32 ∨ treeBits leafBits = 8 := by
    unfold treeBits
    split <;> omega
  have e7 : fieldInt ops "int8_t".toList (sgnExpr (intSgn (treeBits leafBits))) = some (treeBits leafBits) := by
    refine fieldInt_eq ops (eval_intSgn ops _ _ _ (by omega)) ?_
    rw [conv_int8, wrap8_id (by omega) (by omega)]
  have e8 := fieldInt_nat8 ops nFeatures hf
  have e9 := fieldInt_nat8 ops nClasses hc
  show (if "EmlTrees".toList = "EmlTrees".toList then readFields ops _ _ else none) = _
  rw [if_pos rfl]
  show (if "EmlTreesNode".toList = "EmlTreesNode".toList ∧ "int32_t".toList = "int32_t".toList ∧ "uint8_t".toList = "uint8_t".toList then readModel ops _ _ _ _ _ _ _ _ _ _ else none) = _
  rw [if_pos ⟨rfl, rfl, rfl⟩]
  unfold readModel
  rw [e1, e2, e3]
  simp only [List.length_map]
  rw [if_pos ⟨by rw [e4, h2], e5, e6⟩, e7, e8, e9]
  simp only [List.map_map]
  congr 2
  exact (List.map_congr_left (fun b _ => rfl)).trans (List.map_id bytes)

/-! ### Calls -/

theorem find_loadFunc (g : Func) (h : g ∈ loadFuncs name dtype c ip) : findFunc (loadProg name dtype roots nFeatures nClasses leafBits c ip ws bytes rows) g.name = some g := by
  have hp := predict_ne_proba name
  have key : ∀ g', Top.func g' ∈ loadProg name dtype roots nFeatures nClasses leafBits c ip ws bytes rows ↔ g' ∈ loadFuncs name dtype c ip := by
    intro g'
    unfold loadProg
    simp
  refine findFunc_eq _ g ((key g).2 h) ?_
  intro g' hg' hn
  rw [key] at hg'
  unfold loadFuncs at h hg'
  cases c with
  | false =>
    simp only [Bool.false_eq_true, if_false, List.mem_singleton] at h hg'
    rw [h, hg']
  | true =>
    cases ip with
    | false =>
      simp only [Bool.false_eq_true, if_false, if_true, List.mem_singleton] at h hg'
      rw [h, hg']
    | true =>
      simp only [if_true, List.mem_cons, List.not_mem_nil, or_false] at h hg'
      rcases h with rfl | rfl <;> rcases hg' with rfl | rfl
      · rfl
      · exact absurd hn.symm hp
      · exact absurd hn hp
      · rfl

theorem loadFuncs_name (g : Func) (h : g ∈ loadFuncs name dtype c ip) : g.name = name ++ "_predict".toList ∨ g.name = name ++ "_predict_proba".toList := by
  unfold loadFuncs at h
  cases c <;> cases ip <;> simp at h
  · subst h; exact .inl rfl
  · subst h; exact .inl rfl
  · subst h; exact .inl rfl
  · rcases h with rfl | rfl
    · exact .inl rfl
    · exact .inr rfl

/-- The names that the generated functions use for their own variables, and the prefix of the library. -/
def usedNames : List (List Char) := [nmFeatures, nmLength, "out".toList, "out_length".toList, "err".toList, "eml_trees".toList]

theorem find_lib (hname : name ∉ usedNames) (f : List Char) (hf : f = "eml_trees_predict".toList ∨ f = "eml_trees_predict_proba".toList ∨ f = "eml_trees_regress1".toList) :
    findFunc (loadProg name dtype roots nFeatures nClasses leafBits c ip ws bytes rows) f = none := by
  unfold findFunc
  rw [List.findSome?_eq_none_iff]
  intro t ht
  cases t with
  | decl d => rfl
  | func g =>
    have hg : g ∈ loadFuncs name dtype c ip := by
      unfold loadProg at ht
      simpa using ht
    have hnm := loadFuncs_name name dtype c ip g hg
    have hne : name ≠ "eml_trees".toList := by
      rintro rfl
      exact hname (by unfold usedNames; simp)
    show (if g.name = f then some g else none) = none
    rw [if_neg]
    intro e
    rw [e] at hnm
    have a1 : "eml_trees_predict".toList = "eml_trees".toList ++ "_predict".toList := by decide +kernel
    have a2 : "eml_trees_predict_proba".toList = "eml_trees".toList ++ "_predict_proba".toList := by decide +kernel
    have b : ∀ s t : List Char, s.getLast? ≠ t.getLast? → s ≠ [] → t ≠ [] → ∀ x y : List Char, x ++ s ≠ y ++ t := by
      intro s t h hs ht x y e
      have := congrArg List.getLast? e
      rw [List.getLast?_append, List.getLast?_append] at this
      cases h1 : s.getLast? with
      | none => exact hs (List.getLast?_eq_none_iff.1 h1)
      | some u =>
        cases h2 : t.getLast? with
        | none => exact ht (List.getLast?_eq_none_iff.1 h2)
        | some v =>
          rw [h1, h2] at this
          rw [h1, h2] at h
          exact h (by simpa using this)
    rcases hf with rfl | rfl | rfl <;> rcases hnm with h | h
    · rw [a1] at h; exact hne (List.append_cancel_right h).symm
    · rw [a1] at h; exact b _ _ (by decide +kernel) (by decide +kernel) (by decide +kernel) _ _ h
    · rw [a2] at h; exact b _ _ (by decide +kernel) (by decide +kernel) (by decide +kernel) _ _ h
    · rw [a2] at h; exact hne (List.append_cancel_right h).symm
    · exact b "eml_trees_regress1".toList _ (by decide +kernel) (by decide +kernel) (by decide +kernel) [] _ h
    · exact b "eml_trees_regress1".toList _ (by decide +kernel) (by decide +kernel) (by decide +kernel) [] _ h

theorem isNum_names : isNum nmFeatures = false ∧ isNum nmLength = false ∧ isNum "out".toList = false ∧ isNum "out_length".toList = false := by decide +kernel

theorem usedNames_ne {name : List Char} (h : name ∉ usedNames) :
    name ≠ nmFeatures ∧ name ≠ nmLength ∧ name ≠ "out".toList ∧ name ≠ "out_length".toList ∧ name ≠ "err".toList ∧ name ≠ "eml_trees".toList := by
  unfold usedNames at h
  simp only [List.mem_cons, List.not_mem_nil, or_false, not_or] at h
  exact h

theorem evalArgs_load (ctx : Ctx F) (env : Env F) (feats : List (Option (Val F))) (len : Val F) (lty : List Char) (hn : env name = none) (hf : env nmFeatures = some (.array dtype feats))
    (hl : env nmLength = some (.scalar lty len)) : (callArgs name).mapM (evalArg ops ctx env) = some [.ref name, .arr dtype feats, .num len] := by
  obtain ⟨n1, n2, -, -⟩ := isNum_names
  unfold callArgs
  rw [List.mapM_cons, evalArg_ref ops hn, List.mapM_cons, evalArg_local ops n1 hf, List.mapM_cons, evalArg_num ops n2 hl]
  rfl

/-- A function whose body is `const ty out = lib(&name, features, features_length); return out;`. -/
theorem call_simple (ext : List Char → List (ArgVal F) → Option (CallResult F)) (p : Prog) (fuel depth : Nat) (fn lib ty rty : List Char) (inj : Val F → Prop)
    (hname : name ∉ usedNames) (hty : ∀ v, inj v → conv ops ty v = some v) (hrty : ∀ v, inj v → conv ops rty v = some v) (hlib : lib ≠ "out".toList)
    (hfind : findFunc p fn = some ⟨[], rty, fn, featureParams dtype, .decl ⟨["const".toList], ty, "out".toList, none, some (.one (.call lib (callArgs name)))⟩ (.ret (.var "out".toList) .done)⟩)
    (hflib : findFunc p lib = none) (feats : List (Option (Val F))) (len : Int) (h1 : -2147483648 ≤ len) (h2 : len ≤ 2147483647) (r : Option (Val F))
    (hext : ext lib [.ref name, .arr dtype feats, .num (.int len)] = r.map fun v => (v, [])) (hr : ∀ v, r = some v → inj v) :
    callFunc ops ext p fuel (depth + 2) fn [.arr dtype feats, .num (.int len)] = r.map fun v => (v, []) := by
  obtain ⟨u1, u2, u3, -⟩ := usedNames_ne hname
  have hb := bind_features ops dtype feats len h1 h2
  have hcall : callFunc ops ext p fuel (depth + 1) lib [.ref name, .arr dtype feats, .num (.int len)] = r.map fun v => (v, []) := by rw [callFunc, hflib]; exact hext
  have hargs := evalArgs_load ops name dtype { globals := globalsOf ops p, call := callFunc ops ext p fuel (depth + 1) } (env0 dtype feats len) feats (.int len) "int32_t".toList
    (env0_none dtype feats len u1 u2) (env0_features dtype feats len) (env0_length dtype feats len)
  cases r with
  | none => exact callFunc_none ops ext p fuel (depth + 1) fn _ _ _ hfind hb (exec_decl_none ops _ fuel _ _ _ _ _ _ (evalTop_call_none ops _ _ _ _ _ hargs hcall))
  | some v =>
    have hi := hr v rfl
    have hu : Expr.uses "out".toList (.call lib (callArgs name)) = false := by
      have a : (lib == "out".toList) = false := beq_false_of_ne hlib
      have b : (name == "out".toList) = false := beq_false_of_ne u3
      have c : (nmFeatures == "out".toList) = false := by decide +kernel
      have d : (nmLength == "out".toList) = false := by decide +kernel
      unfold Expr.uses callArgs
      rw [List.any_cons, List.any_cons, List.any_cons, a, b, c, d]
      rfl
    rw [callFunc_eq ops ext p fuel (depth + 1) fn _ _ (env0 dtype feats len) ((env0 dtype feats len).set "out".toList (some (.scalar ty v))) v v hfind hb ?_ (hrty v hi)]
    · show some (v, writes _ 0 (featureParams dtype)) = _
      rw [writes_features]
      rfl
    · show exec ops _ fuel (.decl _ _) _ = _
      rw [exec_decl ops _ fuel _ _ ty "out".toList _ v v _ (env0_none dtype feats len nfl.2.1 nfl.2.2.1) (evalTop_call ops _ _ _ _ _ v hargs hcall) (hty v hi) hu]
      exact exec_ret ops _ fuel _ _ v _ (evalTop_eq ops _ _ _ v (by intro f a; simp) (eval_var ops _ _ _ ty v (Env.set_same _ _ _)))

/-- The function `<name>_predict_proba`. -/
theorem call_proba (ext : List Char → List (ArgVal F) → Option (CallResult F)) (p : Prog) (fuel depth : Nat) (hname : name ∉ usedNames)
    (hfind : findFunc p (name ++ "_predict_proba".toList) = some (loadProbaFunc name dtype)) (hflib : findFunc p "eml_trees_predict_proba".toList = none) (feats outs : List (Option (Val F)))
    (len n : Int) (h1 : -2147483648 ≤ len) (h2 : len ≤ 2147483647) (h3 : -2147483648 ≤ n) (h4 : n ≤ 2147483647) (r : Option (Int × Option (List (Option (Val F)))))
    (hext : ext "eml_trees_predict_proba".toList [.ref name, .arr dtype feats, .num (.int len), .arr "float".toList outs, .num (.int n)] =
      r.map fun q => (.int q.1, match q.2 with | none => [] | some o => [(3, o)])) (hr : ∀ q, r = some q → 0 ≤ q.1 ∧ q.1 ≤ 5) :
    callFunc ops ext p fuel (depth + 2) (name ++ "_predict_proba".toList) [.arr dtype feats, .num (.int len), .arr "float".toList outs, .num (.int n)] =
      r.map fun q => (.int q.1, [(2, q.2.getD outs)]) := by
  obtain ⟨u1, u2, u3, u4, u5, -⟩ := usedNames_ne hname
  obtain ⟨n1, n2, n3, n4, n5, n6⟩ := nfl
  obtain ⟨-, -, m3, m4⟩ := isNum_names
  have hb := bind_proba ops dtype feats outs len n h1 h2 h3 h4
  generalize hargv : [ArgVal.ref name, .arr dtype feats, .num (.int len), .arr "float".toList outs, .num (.int n)] = argv at hext
  have hcall : callFunc ops ext p fuel (depth + 1) "eml_trees_predict_proba".toList argv = r.map fun q => (.int q.1, match q.2 with | none => [] | some o => [(3, o)]) := by
    rw [callFunc, hflib]; exact hext
  have a1 : env1 dtype feats len outs n name = none := by
    unfold env1; rw [Env.set_ne _ _ u4, Env.set_ne _ _ u3, env0_none dtype feats len u1 u2]
  have a2 : env1 dtype feats len outs n nmFeatures = some (.array dtype feats) := by
    unfold env1; rw [Env.set_ne _ _ (Ne.symm n4), Env.set_ne _ _ (Ne.symm n2), env0_features]
  have a3 : env1 dtype feats len outs n nmLength = some (.scalar "int32_t".toList (.int len)) := by
    unfold env1; rw [Env.set_ne _ _ (Ne.symm n5), Env.set_ne _ _ (Ne.symm n3), env0_length]
  have a4 : env1 dtype feats len outs n "out".toList = some (.array "float".toList outs) := by
    unfold env1; rw [Env.set_ne _ _ (Ne.symm n6), Env.set_same]
  have a5 : env1 dtype feats len outs n "out_length".toList = some (.scalar "int".toList (.int n)) := by
    unfold env1; rw [Env.set_same]
  have e1 : "err".toList ≠ nmFeatures ∧ "err".toList ≠ nmLength ∧ "err".toList ≠ "out".toList ∧ "err".toList ≠ "out_length".toList := by decide +kernel
  have a6 : env1 dtype feats len outs n "err".toList = none := by
    unfold env1; rw [Env.set_ne _ _ e1.2.2.2, Env.set_ne _ _ e1.2.2.1, env0_none dtype feats len e1.1 e1.2.1]
  have hargs : ∀ ctx : Ctx F, (callArgs name ++ [(⟨none, "out".toList⟩ : Arg), ⟨none, "out_length".toList⟩]).mapM (evalArg ops ctx (env1 dtype feats len outs n)) = some argv := by
    intro ctx
    have := evalArgs_load ops name dtype ctx (env1 dtype feats len outs n) feats (.int len) "int32_t".toList a1 a2 a3
    rw [List.mapM_append, this, List.mapM_cons, evalArg_local ops m3 a4, List.mapM_cons, evalArg_num ops m4 a5, ← hargv]
    rfl
  have hu : Expr.uses "err".toList (.call "eml_trees_predict_proba".toList (callArgs name ++ [⟨none, "out".toList⟩, ⟨none, "out_length".toList⟩])) = false := by
    have a : ("eml_trees_predict_proba".toList == "err".toList) = false := by decide +kernel
    have b : (name == "err".toList) = false := beq_false_of_ne u5
    have c : (nmFeatures == "err".toList) = false := beq_false_of_ne (Ne.symm e1.1)
    have d : (nmLength == "err".toList) = false := beq_false_of_ne (Ne.symm e1.2.1)
    have e : ("out".toList == "err".toList) = false := beq_false_of_ne (Ne.symm e1.2.2.1)
    have f : ("out_length".toList == "err".toList) = false := beq_false_of_ne (Ne.symm e1.2.2.2)
    unfold Expr.uses callArgs
    rw [List.cons_append, List.cons_append, List.cons_append, List.nil_append, List.any_cons, List.any_cons, List.any_cons, List.any_cons, List.any_cons, a, b, c, d, e, f]
    rfl
  cases r with
  | none => exact callFunc_none ops ext p fuel (depth + 1) _ _ _ _ hfind hb (exec_decl_none ops _ fuel _ _ _ _ _ _ (evalTop_call_none ops _ _ _ _ _ (hargs _) hcall))
  | some q =>
    obtain ⟨z, o⟩ := q
    have hz := hr _ rfl
    simp only at hz
    rw [Option.map_some] at hcall
    have herr : Int32 "int".toList := .inl rfl
    have hconv : conv ops "EmlError".toList (.int z) = some (.int z) := by
      unfold conv
      rw [if_neg (by decide +kernel), show intRange "EmlError".toList = some (-2147483648, 2147483647) by decide +kernel]
      have e : wrapRange (-2147483648, 2147483647) z = z := by
        unfold wrapRange
        norm_num
        omega
      simp only [e]
    obtain ⟨env', htop, herr', hout'⟩ : ∃ env' : Env F, evalTop ops { globals := globalsOf ops p, call := callFunc ops ext p fuel (depth + 1) } (env1 dtype feats len outs n)
        (.call "eml_trees_predict_proba".toList (callArgs name ++ [⟨none, "out".toList⟩, ⟨none, "out_length".toList⟩])) = some (.int z, env') ∧ env' "err".toList = none ∧
        env' "out".toList = some (.array "float".toList (o.getD outs)) := by
      cases o with
      | none =>
        refine ⟨env1 dtype feats len outs n, ?_, a6, a4⟩
        rw [evalTop, hargs]
        simp only [hcall]
        rfl
      | some o =>
        refine ⟨(env1 dtype feats len outs n).set "out".toList (some (.array "float".toList o)), ?_, by rw [Env.set_ne _ _ e1.2.2.1, a6], by rw [Env.set_same]; rfl⟩
        rw [evalTop, hargs]
        simp only [hcall]
        show (writeBack (env1 dtype feats len outs n) [⟨some '&', name⟩, ⟨none, nmFeatures⟩, ⟨none, nmLength⟩, ⟨none, "out".toList⟩, ⟨none, "out_length".toList⟩] [(3, o)]).map _ = _
        unfold writeBack
        simp only [List.getElem?_cons_succ, List.getElem?_cons_zero, a4]
        rfl
    have hex : exec ops { globals := globalsOf ops p, call := callFunc ops ext p fuel (depth + 1) } fuel (loadProbaFunc name dtype).body (env1 dtype feats len outs n) =
        some (.returned (.int z) (env'.set "err".toList (some (.scalar "EmlError".toList (.int z))))) := by
      show exec ops _ fuel (.decl _ _) _ = _
      rw [exec, declare]
      simp only [a6, Decl.selfUse, hu, Option.isSome_none, Bool.or_self, Bool.false_eq_true, if_false, htop, hconv, Option.map_some, Option.bind_some]
      exact exec_ret ops _ fuel _ _ (.int z) _ (evalTop_eq ops _ _ _ _ (by intro f a; simp) (eval_var ops _ _ _ "EmlError".toList (.int z) (Env.set_same _ _ _)))
    rw [callFunc_eq ops ext p fuel (depth + 1) _ _ _ _ _ (.int z) (.int z) hfind hb hex (conv_int32 ops herr z (by omega) (by omega))]
    show some (_, writes _ 0 (probaParams dtype)) = _
    rw [writes_proba dtype _ (o.getD outs) (by rw [Env.set_ne _ _ (Ne.symm e1.2.2.1), hout'])]
    rfl
end
end Emlearn.Trees
