/- Property C96, from the generated text: the C code written for a trained network, read as C and executed with `float` arithmetic, against the trained network in exact arithmetic. -/
import Verif.Props.FloatNet
import Verif.Props.NetText
import Verif.MiniC.Rounding
namespace Emlearn.Flt
open Emlearn.Net Emlearn.MiniC Emlearn.Net.CText Emlearn.Net.Codegen Emlearn.Cgen

variable {F : Type} {R : Format F} {P : Accuracy}

/-- The compiler converts decimal constants with the accuracy of the arithmetic. -/
def LitOk (R : Format F) (P : Accuracy) (ops : CFloat F) : Prop := ∀ (neg : Bool) (q : ℚ), 0 ≤ q → (q : ℝ) ≤ P.M →
  R.fin (ops.lit neg q) ∧ |R.val (ops.lit neg q) - (if neg then -(q : ℝ) else q)| ≤ P.u * q + P.η

/-- The error of a constant of magnitude up to `B`: six decimals, then conversion. -/
noncomputable def constErr (P : Accuracy) (B : ℝ) : ℝ := 1 / (2 * 10 ^ 6) + (P.u * (B + 1 / (2 * 10 ^ 6)) + P.η)

theorem constErr_nonneg {B : ℝ} (hB : 0 ≤ B) : 0 ≤ constErr P B := by
  have := P.hu
  have := P.hη
  unfold constErr
  positivity

theorem floatLit_close {ops : CFloat F} (h : LitOk R P ops) {B : ℝ} (hM : B + 1 / (2 * 10 ^ 6) ≤ P.M) (v : ℚ) (hv : |(v : ℝ)| ≤ B) : Close R (constErr P B) (floatLit ops v) (v : ℝ) := by
  have h6 := round6_close v
  have ha : |round6 v| ≤ B + 1 / (2 * 10 ^ 6) := by
    have := abs_sub_abs_le_abs_sub (round6 v) (v : ℝ)
    linarith
  have hq : ((|fixedValue 6 v| : ℚ) : ℝ) = |round6 v| := by unfold round6; push_cast; rfl
  obtain ⟨f, e⟩ := h (decide (v < 0)) |fixedValue 6 v| (abs_nonneg _) (by rw [hq]; linarith)
  refine ⟨f, ?_⟩
  rw [hq] at e
  have hs : (if decide (v < 0) = true then -|round6 v| else |round6 v|) = round6 v := by
    by_cases hv0 : v < 0
    · rw [if_pos (by simpa using hv0), abs_of_nonpos, neg_neg]
      unfold round6
      exact_mod_cast (fixedValue_sign v).1 hv0
    · rw [if_neg (by simpa using hv0), abs_of_nonneg]
      unfold round6
      exact_mod_cast (fixedValue_sign v).2 hv0
  rw [hs] at e
  have e1 : ∀ a b c : ℝ, a - c = (a - b) + (b - c) := fun a b c => by ring
  show |R.val (ops.lit _ _) - (v : ℝ)| ≤ _
  rw [e1 _ (round6 v)]
  refine (abs_add_le _ _).trans ?_
  have := mul_le_mul_of_nonneg_left ha P.hu
  unfold constErr
  linarith

/-- The trained network as real numbers. -/
noncomputable def realNet (ds : List (Dense ℚ)) : List (Dense ℝ) := ds.map (mapD fun q : ℚ => (q : ℝ))

/-- All weights and biases are at most `B` in magnitude. -/
def Within (B : ℝ) (ds : List (Dense ℚ)) : Prop := ∀ d ∈ ds, (∀ row ∈ d.w, ∀ v ∈ row, |(v : ℝ)| ≤ B) ∧ ∀ v ∈ d.b, |(v : ℝ)| ≤ B

theorem written_close {ops : CFloat F} (h : LitOk R P ops) {B : ℝ} (hM : B + 1 / (2 * 10 ^ 6) ≤ P.M) (ds : List (Dense ℚ)) (hw : Within B ds) : List.Forall₂ (CloseDense R (constErr P B)) (written ops ds) (realNet ds) := by
  unfold written realNet
  rw [List.forall₂_map_left_iff, List.forall₂_map_right_iff, List.forall₂_same]
  intro d hd
  obtain ⟨h1, h2⟩ := hw d hd
  refine ⟨rfl, ?_, ?_⟩
  · show List.Forall₂ _ (d.w.map _) (d.w.map _)
    rw [List.forall₂_map_left_iff, List.forall₂_map_right_iff, List.forall₂_same]
    intro row hrow
    rw [List.forall₂_map_left_iff, List.forall₂_map_right_iff, List.forall₂_same]
    exact fun v hv => floatLit_close h hM v (h1 row hrow v hv)
  · show List.Forall₂ _ (d.b.map _) (d.b.map _)
    rw [List.forall₂_map_left_iff, List.forall₂_map_right_iff, List.forall₂_same]
    exact fun v hv => floatLit_close h hM v (h2 v hv)

theorem decideClass_close {ops : NetOps F} {uf : ℝ} (h : NetArith R P uf ops) {E : ℝ} {out : List F} {out' : List ℝ} (hn : List.Forall₂ (Close R E) out out') :
    (∀ (c : Nat) (y : ℝ), 2 ≤ out'.length → out'[c]? = some y → (∀ (j : Nat) (w : ℝ), j ≠ c → out'[j]? = some w → w + 2 * E < y) → decideClass ops out.length out = some (c : Int)) ∧
    (∀ y : ℝ, out' = [y] → E < |y - 1 / 2| → decideClass ops out.length out = some (if 1 / 2 < y then 1 else 0)) := by
  have hll := hn.length_eq
  have hget := (List.forall₂_iff_get.1 hn).2
  refine ⟨fun k y hk hy hother => ?_, fun y hy hmarg => ?_⟩
  · unfold decideClass
    rw [if_neg (by omega), if_pos (by omega), if_pos le_rfl, List.take_length]
    obtain ⟨hki, rfl⟩ := List.getElem?_eq_some_iff.1 hy
    have hkl : k < out.length := by omega
    have hcl := hget k hkl hki
    have hsplit : out = out.take k ++ out[k] :: out.drop (k + 1) := by
      rw [List.getElem_cons_drop, List.take_append_drop]
    have hlt : ∀ (j : Nat) (hj : j < out.length), j ≠ k → R.fin out[j] ∧ R.val out[j] < R.val out[k] := by
      intro j hj hjk
      have h1 := hget j hj (by omega)
      have h3 := hother j out'[j] hjk (List.getElem?_eq_getElem (by omega))
      refine ⟨h1.1, ?_⟩
      have a1 := abs_le.1 h1.2
      have a2 := abs_le.1 hcl.2
      simp only [List.get_eq_getElem] at a1 a2
      linarith [a1.2, a2.1]
    have hres : argmax ops out = 0 + ((out.take k).length : Int) := by
      unfold argmax
      conv_lhs => rw [hsplit]
      refine argmax_wins h _ hcl.1 _ ?_ _ 0 (-1) _ (.inl rfl) ?_
      · intro a ha
        obtain ⟨i, hi, rfl⟩ := List.mem_iff_getElem.1 ha
        rw [List.getElem_drop]
        exact hlt _ _ (by omega)
      · intro a ha
        obtain ⟨i, hi, rfl⟩ := List.mem_iff_getElem.1 ha
        rw [List.getElem_take]
        rw [List.length_take] at hi
        exact hlt _ _ (by omega)
    rw [hres, List.length_take, min_eq_left hkl.le, zero_add]
  · subst hy
    have hl1 : out.length = 1 := by rw [hll]; rfl
    obtain ⟨a, ha⟩ := List.length_eq_one_iff.1 hl1
    subst ha
    unfold decideClass
    rw [if_pos (show [a].length = 1 from rfl)]
    simp only [List.getElem?_cons_zero, Option.map_some, Option.some.injEq]
    cases hn with
    | cons hab _ =>
      have hlt := h.lt ops.half a h.half.1 hab.1
      rw [h.half.2] at hlt
      have a1 := abs_le.1 hab.2
      by_cases hy : 1 / 2 < y
      · rw [if_pos hy, if_pos]
        rw [hlt]
        rw [abs_of_pos (by linarith)] at hmarg
        linarith [a1.1]
      · rw [if_neg hy, if_neg]
        rw [hlt]
        rw [abs_of_nonpos (by linarith)] at hmarg
        linarith [a1.2]

/-- **C96** (from the text). Train a network (weights up to `B`), write it as C, read the text as C and run it with `float` arithmetic on an input of magnitude `X` that is known up to `e`: `<name>_regress` writes finite
outputs within `netErr` of the exact outputs of the trained network, where the error of each constant is `constErr`; `<name>_predict` returns the class of the trained network if its margin is more than twice that. -/
theorem C96_text (cops : CFloat F) (nops : NetOps F) {uf : ℝ} (h : NetArith R P uf nops) (hlit : LitOk R P cops) (nan : F) (other : ℚ → List Char) (pre : List Char) (ds : List (Dense ℚ)) (fuel depth : Nat)
    (ha : NetArgs pre ds) (hds : 2 ≤ ds.length) {B : ℝ} (hB : 0 ≤ B) (hM : B + 1 / (2 * 10 ^ 6) ≤ P.M) (hw : Within B ds) (m : ℝ) :
    ∃ text prog, loadableText other pre ds = some text ∧ parse text = some prog ∧
      ∀ (s : Bufs F), s.b1.length = bufferSize ds → s.b2.length = bufferSize ds → ∀ (x : List F) (x' : List ℝ) (X e : ℝ), 0 ≤ e → 0 ≤ X → Spec.Chained x'.length ds → List.Forall₂ (Close R e) x x' →
        (∀ v ∈ x', |v| ≤ X) → NetRange P uf (constErr P B) (realNet ds) (X, e) →
        (∀ outs : List (Option (Val F)), outs.length = Spec.nOut ds → ∃ ys : List F,
          callFunc cops (netLib cops nops nan s prog) prog fuel (depth + 2) (pre ++ "_regress".toList)
            [.arr "float".toList (x.map fun z => some (.flt z)), .num (.int x.length), .arr "float".toList outs, .num (.int outs.length)] = some (.int 0, [(2, ys.map fun y => some (.flt y))]) ∧
          List.Forall₂ (Close R (netErr P uf (constErr P B) (realNet ds) (X, e)).2) ys (Spec.network (realOps m) (realNet ds) x')) ∧
        (∀ (c : Nat) (y : ℝ), 2 ≤ Spec.nOut ds → (Spec.network (realOps m) (realNet ds) x')[c]? = some y →
          (∀ (j : Nat) (w : ℝ), j ≠ c → (Spec.network (realOps m) (realNet ds) x')[j]? = some w → w + 2 * (netErr P uf (constErr P B) (realNet ds) (X, e)).2 < y) →
          callFunc cops (netLib cops nops nan s prog) prog fuel (depth + 2) (pre ++ "_predict".toList) [.arr "float".toList (x.map fun z => some (.flt z)), .num (.int x.length)] = some (.int c, [])) ∧
        (∀ y : ℝ, Spec.network (realOps m) (realNet ds) x' = [y] → (netErr P uf (constErr P B) (realNet ds) (X, e)).2 < |y - 1 / 2| →
          callFunc cops (netLib cops nops nan s prog) prog fuel (depth + 2) (pre ++ "_predict".toList) [.arr "float".toList (x.map fun z => some (.flt z)), .num (.int x.length)] =
            some (.int (if 1 / 2 < y then 1 else 0), [])) := by
  obtain ⟨text, prog, h1, h2, h3⟩ := C90_end_to_end cops nops nan other pre ds fuel depth ha hds
  refine ⟨text, prog, h1, h2, fun s hs1 hs2 x x' X e he hX hc hx hb hr => ?_⟩
  obtain ⟨g1, -, c, g3, g4⟩ := h3 s hs1 hs2 x (by rw [hx.length_eq]; exact hc)
  obtain ⟨hn, -⟩ := C96_network h (constErr_nonneg hB) m (written cops ds) (realNet ds) x x' X e he hX (written_close hlit hM ds hw) (chained_map ds _ _ hc) hx hb hr
  have hne : ds ≠ [] := by rintro rfl; simp at hds
  have hlen : (Spec.network nops (written cops ds) x).length = Spec.nOut ds := by
    rw [length_network nops _ (by unfold written; simpa using hne)]
    exact nOut_map ds _
  obtain ⟨k1, k2⟩ := decideClass_close h hn
  rw [hlen] at k1 k2
  have hlen' : (Spec.network (realOps m) (realNet ds) x').length = Spec.nOut ds := by rw [← hn.length_eq, hlen]
  refine ⟨fun outs ho => ⟨_, g1 outs ho, hn⟩, fun k y hk hy hother => ?_, fun y hy hmarg => ?_⟩
  · have := k1 k y (by rw [hlen']; exact hk) hy hother
    rw [g4]
    rw [g3] at this
    rw [Option.some.inj this]
  · have := k2 y hy hmarg
    rw [g4]
    rw [g3] at this
    rw [Option.some.inj this]

/-! ### Binary32 meets the assumptions -/

section
open Binary32

/-- C's `float` as binary32: constants are converted to the nearest number. -/
noncomputable def c32 : CFloat F32 where
  zero := rnd 0
  one := rnd 1
  add := add
  mul := mul
  div := div
  ofInt z := rnd z
  lt a b := decide (a.val < b.val)
  lit neg q := rnd (if neg then -(q : ℝ) else q)
  toInt a := some (if 0 ≤ a.val then ⌊a.val⌋ else ⌈a.val⌉)

theorem lit32 : LitOk fmt acc c32 := by
  intro neg q hq hM
  have ha : |(if neg then -(q : ℝ) else q)| = q := by
    have : (0 : ℝ) ≤ q := by exact_mod_cast hq
    cases neg
    · simpa using this
    · simp [this]
  refine ⟨fl_fin _ (by rw [ha]; exact hM), ?_⟩
  have := fl_error_any (if neg then -(q : ℝ) else q)
  rw [ha] at this
  exact this

/-- The weights of `exReal`, as trained. -/
def exTrained : List (Dense ℚ) := [⟨.relu, [[1, 1 / 10], [-1 / 2, 3]], [1 / 4, 0]⟩, ⟨.identity, [[2], [-1]], [1 / 3]⟩]

theorem realNet_trained : realNet exTrained = exReal := by
  simp [realNet, exTrained, exReal, mapD]

theorem within_trained : Within 3 exTrained := by
  intro d hd
  simp only [exTrained, List.mem_cons, List.not_mem_nil, or_false] at hd
  rcases hd with rfl | rfl <;> simp only [List.mem_cons, List.not_mem_nil, or_false, forall_eq_or_imp, forall_eq] <;> norm_num [abs_le]

theorem constErr_three : constErr acc 3 ≤ 1 / 10 ^ 6 := by
  have hu : acc.u = 1 / 2 ^ 24 := rfl
  have hη : acc.η = 1 / 2 ^ 150 := rfl
  unfold constErr
  rw [hu, hη]
  norm_num

theorem constErr_three_range : NetRange acc (1 / 2 ^ 23) (constErr acc 3) exReal (1, 1 / 10 ^ 6) ∧ (netErr acc (1 / 2 ^ 23) (constErr acc 3) exReal (1, 1 / 10 ^ 6)).2 ≤ 1 / 10 ^ 4 := by
  have hb := big
  have hM : acc.M = maxFinite := rfl
  have hu : acc.u = 1 / 2 ^ 24 := rfl
  have hη : acc.η = 1 / 2 ^ 150 := rfl
  have w1 : wNorm (⟨.relu, [[1, 1 / 10], [-1 / 2, 3]], [1 / 4, 0]⟩ : Dense ℝ) = 31 / 10 := by norm_num [wNorm, maxL, absSum, List.range_succ]
  have b1 : bNorm (⟨.relu, [[1, 1 / 10], [-1 / 2, 3]], [1 / 4, 0]⟩ : Dense ℝ) = 1 / 4 := by norm_num [bNorm, maxL]
  have w2 : wNorm (⟨.identity, [[2], [-1]], [1 / 3]⟩ : Dense ℝ) = 3 := by norm_num [wNorm, maxL, absSum, List.range_succ]
  have b2 : bNorm (⟨.identity, [[2], [-1]], [1 / 3]⟩ : Dense ℝ) = 1 / 3 := by norm_num [bNorm, maxL]
  norm_num at hb
  constructor
  · simp only [exReal, NetRange, LinRange, ActRange, layerErr, linErr, linMag, actMag, actErr, w1, b1, w2, b2, hu, hη, hM, List.length_cons, List.length_nil, constErr]
    norm_num
    constructor <;> linarith
  · simp only [exReal, netErr, List.foldl_cons, List.foldl_nil, layerErr, linErr, linMag, actMag, actErr, w1, b1, w2, b2, hu, hη, List.length_cons, List.length_nil, constErr]
    norm_num

theorem exTrained_args : NetArgs "model".toList exTrained where
  valid := by decide +kernel
  line := by decide +kernel
  notKey := by decide +kernel
  notUsed := by decide +kernel
  layers := by simp [exTrained]
  act := by decide +kernel
  rect := by decide +kernel
  pos := by decide +kernel
  fit := by decide +kernel
  count := by simp [exTrained]

/-- The code generated for a concrete network, run in binary32 on any two inputs of magnitude up to 1: the output is within `1e-4` of that of the trained network. -/
example (nan : F32) (x' : List ℝ) (hx : x'.length = 2) (hb : ∀ v ∈ x', |v| ≤ 1) (s : Bufs F32) (h1 : s.b1.length = bufferSize exTrained) (h2 : s.b2.length = bufferSize exTrained) :
    ∃ text prog, loadableText (fun _ => []) "model".toList exTrained = some text ∧ parse text = some prog ∧ ∃ ys : List F32,
      callFunc c32 (netLib c32 ops32 nan s prog) prog 0 2 "model_regress".toList
        [.arr "float".toList ((x'.map rnd).map fun z => some (.flt z)), .num (.int 2), .arr "float".toList [none], .num (.int 1)] = some (.int 0, [(2, ys.map fun y => some (.flt y))]) ∧
      List.Forall₂ (Close fmt (1 / 10 ^ 4)) ys (Spec.network (realOps 0) exReal x') := by
  obtain ⟨text, prog, t1, t2, h⟩ := C96_text c32 ops32 netArith lit32 nan (fun _ => []) "model".toList exTrained 0 0 exTrained_args (by simp [exTrained]) (B := 3) (by norm_num)
    (by have := big; show _ ≤ maxFinite; norm_num at this ⊢; linarith) within_trained 0
  refine ⟨text, prog, t1, t2, ?_⟩
  have hc : Spec.Chained x'.length exTrained := by
    rw [hx]
    simp only [exTrained, Spec.Chained]
    refine ⟨rfl, by simp, by decide, rfl, by simp, by decide, trivial⟩
  rw [realNet_trained] at h
  obtain ⟨g, -, -⟩ := h s h1 h2 (x'.map rnd) x' 1 (1 / 10 ^ 6) (by norm_num) (by norm_num) hc
    (by rw [List.forall₂_map_left_iff, List.forall₂_same]; exact fun v hv => rnd_close v ((hb v hv).trans (by norm_num))) hb constErr_three_range.1
  obtain ⟨ys, e1, e2⟩ := g [none] rfl
  refine ⟨ys, ?_, e2.imp fun _ _ h => h.mono constErr_three_range.2⟩
  rw [List.length_map, hx] at e1
  exact e1
end

end Emlearn.Flt
