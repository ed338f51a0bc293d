/- Rows of a matrix through the compiled tree program. -/
import Verif.Trees.Python
namespace Emlearn.Trees
open Emlearn.Cgen Emlearn.MiniC Emlearn.Harness
variable {F : Type}

/-- A saved file, as a program all of whose functions are called `mytree...`. -/
structure SavedProg (saved : List Char) (p : Prog) : Prop where
  lexes : Lexes saved (printProg p)
  ok : ∀ t ∈ p, t.Ok
  names : ∀ g, Top.func g ∈ p → ∃ s, g.name = "mytree".toList ++ s

theorem savedProg_parse {saved : List Char} {p : Prog} (h : SavedProg saved p) : parse saved = some p := parse_eq _ _ h.ok h.lexes.lex

theorem wrapFuncs_names (classifier : Bool) (dtype : List Char) (nf : Nat) (g : Func) (h : g ∈ wrapFuncs classifier dtype nf) :
    g.name = "predict_wrapper".toList ∨ g.name = "predict_proba_wrapper".toList ∨ g.name = "regress_wrapper".toList := by
  unfold wrapFuncs at h
  cases classifier with
  | true =>
    rw [if_pos rfl] at h
    simp only [List.mem_cons, List.not_mem_nil, or_false] at h
    rcases h with rfl | rfl
    · exact .inl rfl
    · exact .inr (.inl rfl)
  | false =>
    rw [if_neg (by decide)] at h
    simp only [List.mem_cons, List.not_mem_nil, or_false] at h
    subst h
    exact .inr (.inr rfl)

theorem mytree_ne (s t : List Char) (h : t = "predict_wrapper".toList ∨ t = "predict_proba_wrapper".toList ∨ t = "regress_wrapper".toList) : "mytree".toList ++ s ≠ t := by
  intro e
  have h1 : ("mytree".toList ++ s).head? = some 'm' := by
    rw [show "mytree".toList = 'm' :: "ytree".toList from by decide +kernel]; rfl
  have h2 : t.head? = some 'p' ∨ t.head? = some 'r' := by
    rcases h with rfl | rfl | rfl <;> decide +kernel
  rw [e] at h1
  rcases h2 with h2 | h2 <;> (rw [h2] at h1; revert h1; decide)

theorem wrapped_find {saved : List Char} {p : Prog} (hs : SavedProg saved p) (classifier : Bool) (dtype : List Char) (nf : Nat) (g : Func) (hg : g ∈ wrapFuncs classifier dtype nf) :
    findFunc (p ++ (wrapFuncs classifier dtype nf).map .func) g.name = some g := by
  refine findFunc_eq _ g (by rw [List.mem_append]; exact .inr (List.mem_map_of_mem hg)) ?_
  intro g' hg' he
  rcases List.mem_append.1 hg' with h | h
  · obtain ⟨s, e⟩ := hs.names g' h
    rw [e] at he
    exact absurd he (mytree_ne s _ (wrapFuncs_names classifier dtype nf g hg))
  · obtain ⟨g'', h1, h2⟩ := List.mem_map.1 h
    cases h2
    unfold wrapFuncs at hg h1
    cases classifier with
    | true =>
      rw [if_pos rfl] at hg h1
      simp only [List.mem_cons, List.not_mem_nil, or_false] at hg h1
      have hne : "predict_wrapper".toList ≠ "predict_proba_wrapper".toList := by decide +kernel
      rcases hg with rfl | rfl <;> rcases h1 with rfl | rfl
      · rfl
      · exact absurd he.symm hne
      · exact absurd he hne
      · rfl
    | false =>
      rw [if_neg (by decide)] at hg h1
      simp only [List.mem_cons, List.not_mem_nil, or_false] at hg h1
      rw [hg, h1]

theorem treesLib_wrap (ops : CFloat F) (decode : List Nat → Nat → Option F) (nan : F) (p : Prog) (classifier : Bool) (dtype : List Char) (nf : Nat) :
    ∀ g ∈ wrapFuncs classifier dtype nf, ∀ args, treesLib ops decode nan p g.name args = none := by
  intro g hg args
  refine treesLib_other ops decode nan p _ ?_ args
  rcases wrapFuncs_names classifier dtype nf g hg with h | h | h <;> (rw [h]; decide +kernel)

/-! ### One row -/

theorem mapOpt_some {A B : Type} (f : A → B) (l : List A) : mapOpt (fun a => some (f a)) l = some (l.map f) := by
  induction l with
  | nil => rfl
  | cons a l ih => simp [mapOpt, ih]

theorem given_received (read : ℚ → F) (row : List ℚ) : given read (received row) = some (row.map (seen read)) := by
  unfold given received
  have : ∀ l : List ℚ, mapOpt (fun v : Option ℚ => v.map read) (l.map fun x => some (fixedValue 8 x)) = some (l.map (seen read)) := by
    intro l
    induction l with
    | nil => rfl
    | cons a l ih => simp [mapOpt, ih, seen]
  exact this row

theorem mapOpt_forall₂ {A B : Type} (f : A → Option B) (l : List A) (r : List B) (h : mapOpt f l = some r) : List.Forall₂ (fun a b => f a = some b) l r := by
  induction l generalizing r with
  | nil => cases h; exact .nil
  | cons a l ih =>
    rw [mapOpt] at h
    cases ha : f a with
    | none => rw [ha] at h; cases h
    | some b =>
      rw [ha, Option.bind_some] at h
      obtain ⟨bs, h1, rfl⟩ := Option.map_eq_some_iff.1 h
      exact .cons ha (ih bs h1)

theorem mapOpt_eq_none {A B : Type} (f : A → Option B) (l : List A) (h : mapOpt f l = none) : ∃ a ∈ l, f a = none := by
  induction l with
  | nil => cases h
  | cons a l ih =>
    rw [mapOpt] at h
    cases ha : f a with
    | none => exact ⟨a, by simp, ha⟩
    | some b =>
      rw [ha, Option.bind_some] at h
      obtain ⟨x, h1, h2⟩ := ih (by simpa using h)
      exact ⟨x, by simp [h1], h2⟩

/-- The converted values of a row are the features it stands for. -/
theorem rowInput_some (ops : CFloat F) (read : ℚ → F) (dtype : List Char) (row : List ℚ) (x : Input F) (h : rowInput ops read dtype row = some x) :
    x.length = row.length ∧ (match x with | .ints _ => (intRange dtype).isSome = true | .floats _ => dtype = "float".toList) ∧
      ∃ ws : List (Val F), List.Forall₂ (fun v w => conv ops dtype (.flt v) = some w) (row.map (seen read)) ws ∧ ws.map some = x.array := by
  unfold rowInput at h
  by_cases hd : dtype = "float".toList
  · rw [if_pos hd] at h
    cases h
    refine ⟨by simp [Input.length], hd, (row.map (seen read)).map .flt, ?_, by simp [Input.array]⟩
    rw [List.forall₂_map_right_iff]
    exact List.forall₂_same.2 fun v _ => by rw [hd]; exact conv_float ops v
  · rw [if_neg hd] at h
    cases hr : intRange dtype with
    | none => rw [hr] at h; cases h
    | some r =>
      rw [hr] at h
      obtain ⟨zs, h1, rfl⟩ := Option.map_eq_some_iff.1 h
      have h2 := mapOpt_forall₂ _ _ _ h1
      refine ⟨by simp [Input.length, h2.length_eq], rfl, zs.map .int, ?_, by simp [Input.array]⟩
      rw [List.forall₂_map_left_iff, List.forall₂_map_right_iff]
      refine h2.imp ?_
      intro v z hv
      unfold conv
      rw [if_neg hd, hr]
      simp only
      cases ht : ops.toInt (seen read v) with
      | none => rw [ht] at hv; cases hv
      | some y =>
        rw [ht, Option.bind_some] at hv
        simp only
        split at hv
        · rename_i hy
          cases hv
          rw [if_pos hy]
        · cases hv

/-- A value that is not one of the type. -/
theorem rowInput_none (ops : CFloat F) (read : ℚ → F) (dtype : List Char) (row : List ℚ) (h : rowInput ops read dtype row = none) :
    ¬ (dtype = "float".toList) ∧ (intRange dtype = none ∨ ∃ v ∈ row.map (seen read), conv ops dtype (.flt v) = none) := by
  unfold rowInput at h
  by_cases hd : dtype = "float".toList
  · rw [if_pos hd] at h; cases h
  · refine ⟨hd, ?_⟩
    rw [if_neg hd] at h
    cases hr : intRange dtype with
    | none => exact .inl rfl
    | some r =>
      rw [hr] at h
      obtain ⟨a, h1, h2⟩ := mapOpt_eq_none _ _ (by simpa using h)
      refine .inr ⟨seen read a, List.mem_map_of_mem h1, ?_⟩
      unfold conv
      rw [if_neg hd, hr]
      simp only
      cases ht : ops.toInt (seen read a) with
      | none => rfl
      | some y =>
        rw [ht, Option.bind_some] at h2
        simp only
        split at h2
        · cases h2
        · rename_i hy; rw [if_neg hy]

section
variable (ops : CFloat F) (decode : List Nat → Nat → Option F) (nan : F) (fuel depth : Nat) (read : ℚ → F) (val : F → ℚ) {saved : List Char} {p : Prog} (hs : SavedProg saved p) (dtype : List Char) (nf : Nat)
  (hnf : nf ≤ 2147483647) (hfu : nf < fuel)
include hs hnf hfu

omit hs hnf hfu in
theorem wrapEnv_row (row : List ℚ) (x : Input F) (hlen : row.length = nf) (hx : rowInput ops read dtype row = some x) :
    ∃ ws : List (Val F), List.Forall₂ (fun v w => conv ops dtype (.flt v) = some w) (row.map (seen read)) ws ∧ convArray ws nf = x.array ∧ x.length = (row.map (seen read)).length := by
  obtain ⟨h1, -, ws, h2, h3⟩ := rowInput_some ops read dtype row x hx
  refine ⟨ws, h2, ?_, by simp [h1]⟩
  have : ws.length = nf := by rw [← h2.length_eq]; simp [hlen]
  rw [convArray, this, Nat.sub_self, h3]
  simp

/-- One row of a classifier. -/
theorem predictCall_row (row : List ℚ) (x : Input F) (hlen : row.length = nf) (hx : rowInput ops read dtype row = some x) (z : Int) (hz1 : -2147483648 < z) (hz2 : z ≤ 2147483647)
    (hcall : callFunc ops (treesLib ops decode nan p) p fuel depth ("mytree".toList ++ "_predict".toList) [.arr dtype x.array, .num (.int x.length)] = some (.int z, [])) :
    predictCall ops decode nan fuel (depth + 1) read (p ++ (wrapFuncs true dtype nf).map .func) (received row) = some ((z.natAbs : Int) : ℚ) := by
  obtain ⟨ws, h2, h3, h4⟩ := wrapEnv_row ops read dtype nf row x hlen hx
  have hl : (row.map (seen read)).length = nf := by simp [hlen]
  have h5 := callFunc_funcs ops (treesLib ops decode nan p) p (wrapFuncs true dtype nf) (treesLib_wrap ops decode nan p true dtype nf) fuel depth _ _ _ hcall
  have h6 := call_predictWrap ops (treesLib ops decode nan p) (p ++ (wrapFuncs true dtype nf).map .func) fuel depth "mytree".toList dtype nf (row.map (seen read)) ws (by omega) (by omega) (by omega) h2
    (wrapped_find hs true dtype nf (predictWrapF "mytree".toList dtype nf) (by simp [wrapFuncs])) (by decide +kernel) z hz1 hz2 (by rw [h3, ← h4]; exact h5)
  unfold predictCall
  rw [given_received, treesLib_funcs]
  simp only
  rw [h6]

/-- One row of a regressor. -/
theorem regressCall_row (row : List ℚ) (x : Input F) (hlen : row.length = nf) (hx : rowInput ops read dtype row = some x) (y : F)
    (hcall : callFunc ops (treesLib ops decode nan p) p fuel depth ("mytree".toList ++ "_predict".toList) [.arr dtype x.array, .num (.int x.length)] = some (.flt y, [])) :
    regressCall ops decode nan fuel (depth + 1) read val (p ++ (wrapFuncs false dtype nf).map .func) (received row) = some (val y) := by
  obtain ⟨ws, h2, h3, h4⟩ := wrapEnv_row ops read dtype nf row x hlen hx
  have hl : (row.map (seen read)).length = nf := by simp [hlen]
  have h5 := callFunc_funcs ops (treesLib ops decode nan p) p (wrapFuncs false dtype nf) (treesLib_wrap ops decode nan p false dtype nf) fuel depth _ _ _ hcall
  have h6 := call_regressWrap ops (treesLib ops decode nan p) (p ++ (wrapFuncs false dtype nf).map .func) fuel depth "mytree".toList dtype nf (row.map (seen read)) ws (by omega) (by omega) (by omega) h2
    (wrapped_find hs false dtype nf (regressWrapF "mytree".toList dtype nf) (by simp [wrapFuncs])) (by decide +kernel) y (by rw [h3, ← h4]; exact h5)
  unfold regressCall
  rw [given_received, treesLib_funcs]
  simp only
  rw [h6]

/-- One row of probabilities. -/
theorem probaCall_row (row : List ℚ) (x : Input F) (hlen : row.length = nf) (hx : rowInput ops read dtype row = some x) (outs outs' : List (Option (Val F))) (nc : Nat) (ho : outs.length = nc) (hnc : nc ≤ 2147483647)
    (z : Int) (hz1 : -2147483648 ≤ z) (hz2 : z ≤ 2147483647)
    (hcall : callFunc ops (treesLib ops decode nan p) p fuel depth ("mytree".toList ++ "_predict_proba".toList) [.arr dtype x.array, .num (.int x.length), .arr "float".toList outs, .num (.int nc)] =
      some (.int z, [(2, outs')])) :
    probaCall ops decode nan fuel (depth + 1) read nc (p ++ (wrapFuncs true dtype nf).map .func) (received row) outs = some outs' := by
  subst ho
  obtain ⟨ws, h2, h3, h4⟩ := wrapEnv_row ops read dtype nf row x hlen hx
  have hl : (row.map (seen read)).length = nf := by simp [hlen]
  have h5 := callFunc_funcs ops (treesLib ops decode nan p) p (wrapFuncs true dtype nf) (treesLib_wrap ops decode nan p true dtype nf) fuel depth _ _ _ hcall
  have h6 := call_probaWrap ops (treesLib ops decode nan p) (p ++ (wrapFuncs true dtype nf).map .func) fuel depth "mytree".toList dtype nf (row.map (seen read)) ws (by omega) (by omega) (by omega) h2
    (wrapped_find hs true dtype nf (probaWrapF "mytree".toList dtype nf) (by simp [wrapFuncs])) (by decide +kernel) outs outs' hnc z hz1 hz2 (by rw [h3, ← h4]; exact h5)
  unfold probaCall
  rw [given_received, treesLib_funcs]
  simp only
  rw [h6]

omit hnf hfu in
/-- A row with more values than features, or with a value that is not one of the type: no defined result. -/
theorem predictCall_bad (row : List ℚ) (hne : row ≠ []) (hb : row.length ≤ 2147483647) (hbad : nf < row.length ∨ rowInput ops read dtype row = none) :
    predictCall ops decode nan fuel (depth + 1) read (p ++ (wrapFuncs true dtype nf).map .func) (received row) = none := by
  have hbad' : nf < (row.map (seen read)).length ∨ ∃ v ∈ row.map (seen read), conv ops dtype (.flt v) = none := by
    rcases hbad with h | h
    · exact .inl (by simpa using h)
    · right
      obtain ⟨h1, h2 | h2⟩ := rowInput_none ops read dtype row h
      · obtain ⟨a, ha⟩ := List.exists_mem_of_ne_nil _ hne
        exact ⟨_, List.mem_map_of_mem ha, by unfold conv; rw [if_neg h1, h2]⟩
      · exact h2
  have key := wrap_bad ops (treesLib ops decode nan p) (p ++ (wrapFuncs true dtype nf).map .func) fuel depth dtype nf (row.map (seen read)) (by simpa using hb) (predictWrapF "mytree".toList dtype nf) _ _
    (valueEnv (row.map (seen read))) (wrapped_find hs true dtype nf (predictWrapF "mytree".toList dtype nf) (by simp [wrapFuncs])) rfl (bind_valueParams ops _ (by simpa using hb)) (fun _ _ => rfl) hbad'
  unfold predictCall
  rw [given_received, treesLib_funcs]
  simp only
  rw [show callFunc ops (treesLib ops decode nan p) (p ++ (wrapFuncs true dtype nf).map .func) fuel (depth + 1) "predict_wrapper".toList
    [.arr "float".toList ((row.map (seen read)).map fun x => some (.flt x)), .num (.int (row.map (seen read)).length)] = none from key]

end

/-! ### All rows -/

section
variable (ops : CFloat F) (decode : List Nat → Nat → Option F) (nan : F) (fuel depth : Nat) (read : ℚ → F) (val : F → ℚ) {saved : List Char} {p : Prog} (hs : SavedProg saved p) (dtype : List Char) (hd : isType dtype = true)
  (nf : Nat) (hnf : nf ≤ 2147483647) (hfu : nf < fuel) (hn0 : 1 ≤ nf) (X : List (List ℚ)) (hfit : Fits X)
  (hrow : ∀ row ∈ X, row.length = nf ∧ (rowInput ops read dtype row).isSome = true)
include hs hd hnf hfu hn0 hfit hrow

theorem pyPredict_rows (R : Input F → Int → Prop)
    (hcall : ∀ row ∈ X, ∀ x : Input F, rowInput ops read dtype row = some x → ∃ z : Int, -2147483648 < z ∧ z ≤ 2147483647 ∧ R x z ∧
      callFunc ops (treesLib ops decode nan p) p fuel depth ("mytree".toList ++ "_predict".toList) [.arr dtype x.array, .num (.int x.length)] = some (.int z, [])) :
    ∃ preds, pyPredict ops decode nan fuel (depth + 1) read saved dtype nf X = some preds ∧
      List.Forall₂ (fun row (c : Int) => ∃ x z, rowInput ops read dtype row = some x ∧ R x z ∧ c = z.natAbs) X preds := by
  have hX : ∀ r ∈ X, r ≠ [] := by
    intro r hr h
    have := (hrow r hr).1
    rw [h] at this
    simp at this
    omega
  unfold pyPredict
  rw [wrapCode_parse hd nf true saved p hs.lexes hs.ok]
  simp only
  let g : List (Option ℚ) → Int := fun v => match predictCall ops decode nan fuel (depth + 1) read (p ++ (wrapFuncs true dtype nf).map .func) v with | some q => pyInt q | none => 0
  have hg : ∀ r ∈ X, ∃ x z, rowInput ops read dtype r = some x ∧ R x z ∧ predictCall ops decode nan fuel (depth + 1) read (p ++ (wrapFuncs true dtype nf).map .func) (received r) = some ((z.natAbs : Int) : ℚ) := by
    intro r hr
    obtain ⟨h1, h2⟩ := hrow r hr
    obtain ⟨x, hx⟩ := Option.isSome_iff_exists.1 h2
    obtain ⟨z, z1, z2, hR, hc⟩ := hcall r hr x hx
    exact ⟨x, z, hx, hR, predictCall_row ops decode nan fuel depth read hs dtype nf hnf hfu r x h1 hx z z1 z2 hc⟩
  have hgv : ∀ r ∈ X, ∀ z : Int, predictCall ops decode nan fuel (depth + 1) read (p ++ (wrapFuncs true dtype nf).map .func) (received r) = some (z : ℚ) → g (received r) = z := by
    intro r _ z h
    simp only [g, h]
    simp only [pyInt]
    split
    · rw [← Int.cast_neg, Int.floor_intCast, neg_neg]
    · rw [Int.floor_intCast]
  refine ⟨_, predictIntU_eq _ g X hX hfit ?_, ?_⟩
  · intro r hr
    obtain ⟨x, z, -, -, h⟩ := hg r hr
    rw [h, hgv r hr _ h]
  · rw [List.forall₂_map_right_iff]
    refine List.forall₂_same.2 ?_
    intro r hr
    obtain ⟨x, z, h1, h2, h⟩ := hg r hr
    exact ⟨x, z, h1, h2, hgv r hr _ h⟩

theorem pyRegress_rows (R : Input F → F → Prop)
    (hcall : ∀ row ∈ X, ∀ x : Input F, rowInput ops read dtype row = some x → ∃ y : F, R x y ∧
      callFunc ops (treesLib ops decode nan p) p fuel depth ("mytree".toList ++ "_predict".toList) [.arr dtype x.array, .num (.int x.length)] = some (.flt y, [])) :
    ∃ preds, pyRegress ops decode nan fuel (depth + 1) read val saved dtype nf X = some preds ∧
      List.Forall₂ (fun row (q : ℚ) => ∃ x y, rowInput ops read dtype row = some x ∧ R x y ∧ q = fixedValue 6 (val y)) X preds := by
  have hX : ∀ r ∈ X, r ≠ [] := by
    intro r hr h
    have := (hrow r hr).1
    rw [h] at this
    simp at this
    omega
  unfold pyRegress
  rw [wrapCode_parse hd nf false saved p hs.lexes hs.ok]
  simp only
  let g : List (Option ℚ) → ℚ := fun v => (regressCall ops decode nan fuel (depth + 1) read val (p ++ (wrapFuncs false dtype nf).map .func) v).getD 0
  have hg : ∀ r ∈ X, ∃ x y, rowInput ops read dtype r = some x ∧ R x y ∧ regressCall ops decode nan fuel (depth + 1) read val (p ++ (wrapFuncs false dtype nf).map .func) (received r) = some (val y) := by
    intro r hr
    obtain ⟨h1, h2⟩ := hrow r hr
    obtain ⟨x, hx⟩ := Option.isSome_iff_exists.1 h2
    obtain ⟨y, hR, hc⟩ := hcall r hr x hx
    exact ⟨x, y, hx, hR, regressCall_row ops decode nan fuel depth read val hs dtype nf hnf hfu r x h1 hx y hc⟩
  refine ⟨_, predictU_eq _ g X hX hfit ?_, ?_⟩
  · intro r hr
    obtain ⟨x, y, -, -, h⟩ := hg r hr
    simp only [g, h, Option.getD_some]
  · rw [List.forall₂_map_right_iff]
    refine List.forall₂_same.2 ?_
    intro r hr
    obtain ⟨x, y, h1, h2, h⟩ := hg r hr
    refine ⟨x, y, h1, h2, ?_⟩
    simp only [g, h, Option.getD_some]

theorem pyProba_rows (nc : Nat) (hnc0 : 1 ≤ nc) (hnc : nc ≤ 2147483647) (R : Input F → List F → Prop)
    (hcall : ∀ row ∈ X, ∀ x : Input F, rowInput ops read dtype row = some x → ∃ ps : List F, ps.length = nc ∧ R x ps ∧ ∀ outs : List (Option (Val F)), outs.length = nc →
      callFunc ops (treesLib ops decode nan p) p fuel depth ("mytree".toList ++ "_predict_proba".toList) [.arr dtype x.array, .num (.int x.length), .arr "float".toList outs, .num (.int nc)] =
        some (.int 0, [(2, ps.map fun y => some (.flt y))])) :
    ∃ m, pyProba ops decode nan fuel (depth + 1) read val saved dtype nf nc X = some m ∧
      ∀ (i c : Nat) (row : List ℚ), X[i]? = some row → c < nc → ∃ x ps y, rowInput ops read dtype row = some x ∧ R x ps ∧ ps[c]? = some y ∧ m i c = some (fixedValue 6 (val y)) := by
  have hX : ∀ r ∈ X, r ≠ [] := by
    intro r hr h
    have := (hrow r hr).1
    rw [h] at this
    simp at this
    omega
  unfold pyProba
  rw [wrapCode_parse hd nf true saved p hs.lexes hs.ok]
  simp only
  have hg : ∀ r ∈ X, ∃ x ps, rowInput ops read dtype r = some x ∧ R x ps ∧ ps.length = nc ∧ ∀ outs : List (Option (Val F)), outs.length = nc →
      probaCall ops decode nan fuel (depth + 1) read nc (p ++ (wrapFuncs true dtype nf).map .func) (received r) outs = some (ps.map fun y => some (.flt y)) := by
    intro r hr
    obtain ⟨h1, h2⟩ := hrow r hr
    obtain ⟨x, hx⟩ := Option.isSome_iff_exists.1 h2
    obtain ⟨ps, hl, hR, hc⟩ := hcall r hr x hx
    exact ⟨x, ps, hx, hR, hl, fun outs ho => probaCall_row ops decode nan fuel depth read hs dtype nf hnf hfu r x h1 hx outs _ nc ho hnc 0 (by omega) (by omega) (hc outs ho)⟩
  let g : List (Option ℚ) → List ℚ := fun v =>
    match probaCall ops decode nan fuel (depth + 1) read nc (p ++ (wrapFuncs true dtype nf).map .func) v (List.replicate nc (some (.flt ops.zero))) with
    | some o => if o.length = nc then outputVals val o else List.replicate nc 0
    | none => List.replicate nc 0
  have hgl : ∀ v, (g v).length = nc := by
    intro v
    simp only [g]
    split
    · split
      · rename_i h; simp [outputVals, h]
      · simp
    · simp
  have hgv : ∀ r ∈ X, ∀ ps : List F, ps.length = nc → (∀ outs : List (Option (Val F)), outs.length = nc →
      probaCall ops decode nan fuel (depth + 1) read nc (p ++ (wrapFuncs true dtype nf).map .func) (received r) outs = some (ps.map fun y => some (.flt y))) → g (received r) = ps.map val := by
    intro r _ ps hl h
    simp only [g]
    rw [h _ (by simp)]
    simp only
    rw [if_pos (by simpa using hl)]
    simp [outputVals]
  obtain ⟨m, h1, h2⟩ := predictProbaU_eq (probaCall ops decode nan fuel (depth + 1) read nc (p ++ (wrapFuncs true dtype nf).map .func)) (outputVals val) (List.replicate nc (some (.flt ops.zero)))
    (fun a => a.length = nc) (by simp) nc hnc0 g hgl X hX hfit (by
      intro r hr a ha
      obtain ⟨x, ps, hx, hR, hl, h⟩ := hg r hr
      refine ⟨_, h a ha, by simpa using hl, ?_⟩
      rw [hgv r hr ps hl h]
      simp [outputVals])
  refine ⟨m, h1, ?_⟩
  intro i c row hi hc
  have hr := List.mem_of_getElem? hi
  obtain ⟨x, ps, hx, hR, hl, h⟩ := hg row hr
  obtain ⟨q, h3, h4⟩ := h2 i c row hi hc
  rw [hgv row hr ps hl h, List.getElem?_map] at h3
  obtain ⟨y, h5, rfl⟩ := Option.map_eq_some_iff.1 h3
  exact ⟨x, ps, y, hx, hR, h5, h4⟩

omit hnf hfu hn0 hrow in
/-- A row with too many values or one that is not a value of the type. -/
theorem pyPredict_bad (hX : ∀ r ∈ X, r ≠ []) (hbad : ∃ row ∈ X, row.length ≤ 2147483647 ∧ (nf < row.length ∨ rowInput ops read dtype row = none)) :
    pyPredict ops decode nan fuel (depth + 1) read saved dtype nf X = none := by
  unfold pyPredict
  rw [wrapCode_parse hd nf true saved p hs.lexes hs.ok]
  simp only
  refine predictIntU_bad _ X hX hfit ?_
  obtain ⟨row, hr, hb, h⟩ := hbad
  exact ⟨row, hr, predictCall_bad ops decode nan fuel depth read hs dtype nf row (hX row hr) hb h⟩

end

/-! ### The saved files -/

theorem savedProg_inline {L : Type} (f : Forest ℚ L) (nClasses : Nat) (lb : Int) (dtype : List Char) (c ip : Bool) (ws : List (List Char)) (num : L → ℚ) (bytes : List Nat) (text : List Char) (hd : DType dtype)
    (hws : ∀ w ∈ ws, isMod w = true) (h : generateInlined f "mytree".toList nClasses lb dtype c ip ([' '].intercalate ws) num bytes = some text) : ∃ p, SavedProg (saveText text) p := by
  obtain ⟨codes, -, h1, h2⟩ := inline_lexes f "mytree".toList nClasses lb dtype c ip ws num bytes text (by decide +kernel) hd hws h
  refine ⟨_, ⟨lexes_saveText h1, h2, ?_⟩⟩
  intro g hg
  unfold inlineProg at hg
  rcases List.mem_append.1 hg with hg | hg
  · obtain ⟨g', h3, h4⟩ := List.mem_map.1 hg
    cases h4
    unfold treeFuncs at h3
    obtain ⟨q, h5, rfl⟩ := List.mem_map.1 h3
    have := List.of_mem_zip h5
    unfold treeNames at this
    obtain ⟨i, -, e⟩ := List.mem_map.1 this.1
    refine ⟨"_tree_".toList ++ showNat i, ?_⟩
    show q.1 = _
    rw [← e, treeName, List.append_assoc]
  · rcases List.mem_append.1 hg with hg | hg
    · exfalso
      split at hg
      · simp at hg
      · cases hg
    · obtain ⟨g', h3, h4⟩ := List.mem_map.1 hg
      cases h4
      unfold forestFuncs at h3
      split at h3
      · rcases List.mem_cons.1 h3 with h3 | h3
        · refine ⟨"_predict".toList, ?_⟩
          rw [h3]; split <;> rfl
        · refine ⟨"_predict_proba".toList, ?_⟩
          split at h3
          · rw [List.mem_singleton] at h3
            rw [h3]; split <;> rfl
          · cases h3
      · rw [List.mem_singleton] at h3
        exact ⟨"_predict".toList, by rw [h3]; rfl⟩

theorem savedProg_load {L : Type} (f : Forest ℚ L) (nFeatures nClasses : Nat) (lb : Int) (c ip : Bool) (ws : List (List Char)) (bytes : List Nat) (text : List Char)
    (hws : ∀ w ∈ ws, isMod w = true) (hnodes : f.nodes ≠ []) (hroots : f.roots ≠ [])
    (h : generateLoadableText f "mytree".toList nFeatures nClasses lb "int16_t".toList c ip ([' '].intercalate ws) bytes = some text) : ∃ p, SavedProg (saveText text) p := by
  obtain ⟨rows, -, -, h1, h2⟩ := loadable_lexes f "mytree".toList nFeatures nClasses lb "int16_t".toList c ip ws bytes text (by decide +kernel) (by decide +kernel) ⟨by decide +kernel, by unfold NumType; decide +kernel⟩ hws hnodes hroots h
  refine ⟨_, ⟨lexes_saveText h1, h2, ?_⟩⟩
  intro g hg
  unfold loadProg at hg
  rcases List.mem_append.1 hg with hg | hg
  · simp at hg
  · obtain ⟨g', h3, h4⟩ := List.mem_map.1 hg
    cases h4
    unfold loadFuncs at h3
    split at h3
    · rcases List.mem_cons.1 h3 with h3 | h3
      · exact ⟨"_predict".toList, by rw [h3]; rfl⟩
      · split at h3
        · rw [List.mem_singleton] at h3
          exact ⟨"_predict_proba".toList, by rw [h3]; rfl⟩
        · cases h3
    · rw [List.mem_singleton] at h3
      exact ⟨"_predict".toList, by rw [h3]; rfl⟩

end Emlearn.Trees
