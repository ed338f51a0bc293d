/- C98: the sparse filterbank in `float` arithmetic. -/
import Verif.Float.BinaryOps
import Verif.Props.FloatNetText
import Verif.Props.ToolsText
namespace Emlearn.Flt
open Emlearn.Filterbank Emlearn.MiniC Emlearn.Tools Finset

variable {F : Type} {R : Format F} {P : Accuracy}

/-- The loop over a band, as a sum in order. -/
theorem bandLoop_sum [Zero F] [Add F] [Mul F] [DecidableEq F] (input lut : List F) (x f : Nat → F) : ∀ (k j offset i : Nat) (out : F), (∀ l, i ≤ l → l < i + k → input[j + (l - i)]? = some (x l)) →
    (∀ l, i ≤ l → l < i + k → lut[offset + (l - i)]? = some (f l)) → bandLoop input lut k j offset out = (sumLoop (fun l => some (x l * f l)) k i out).map fun s => (s, offset + k)
  | 0, _, _, _, _, _, _ => rfl
  | k + 1, j, offset, i, out, hx, hf => by
    have h1 := hx i le_rfl (by omega)
    have h2 := hf i le_rfl (by omega)
    rw [Nat.sub_self, Nat.add_zero] at h1 h2
    rw [bandLoop, h2, Option.bind_some, h1, Option.bind_some, sumLoop, Option.bind_some,
      bandLoop_sum input lut x f k (j + 1) (offset + 1) (i + 1) _ (fun l l1 l2 => by rw [show j + 1 + (l - (i + 1)) = j + (l - i) by omega]; exact hx l (by omega) (by omega))
        (fun l l1 l2 => by rw [show offset + 1 + (l - (i + 1)) = offset + (l - i) by omega]; exact hf l (by omega) (by omega))]
    rw [show offset + 1 + k = offset + (k + 1) by omega]

section
variable (P) {n : Nat} (dx dw : ℝ) (v w : Fin n → ℝ)

/-- The contribution of the errors of input and coefficient to a product. -/
noncomputable def tapAbs (j : Fin n) : ℝ := (1 + P.u) * mulAbs P 0 0 |v j| |w j| dx dw + P.η

/-- The error of one filter's output: at most `n + 1` roundings relative to the sum of the absolute products, and what the errors of inputs and coefficients contribute. -/
noncomputable def bankErr : ℝ := ((1 + P.u) ^ (1 + n) - 1) * ∑ j, |v j| * |w j| + (1 + P.u) ^ n * ∑ j, tapAbs P dx dw v w j

/-- Nothing overflows. -/
structure BankRange : Prop where
  tap : ∀ j, (|v j| + dx) * (|w j| + dw) ≤ P.M
  total : (1 + P.u) ^ (1 + n) * ∑ j, |v j| * |w j| + (1 + P.u) ^ n * ∑ j, tapAbs P dx dw v w j ≤ P.M
end

theorem tapAbs_nonneg {n : Nat} {dx dw : ℝ} (hx : 0 ≤ dx) (hw : 0 ≤ dw) (v w : Fin n → ℝ) (j : Fin n) : 0 ≤ tapAbs P dx dw v w j := by
  have := P.hu
  have := P.hη
  unfold tapAbs mulAbs
  positivity

theorem sum_shift (g : Nat → ℝ) (a k : Nat) : ∑ i ∈ range k, g (a + i) = ∑ j ∈ (range k).map (addLeftEmbedding a), g j := by
  rw [sum_map]
  rfl

/-- A sum over a band is at most the sum over the row. -/
theorem sum_band_le {n : Nat} (g : Fin n → ℝ) (hg : ∀ j, 0 ≤ g j) (a b : Nat) (hb : b < n) : ∑ i ∈ range (b + 1 - a), (if h : a + i < n then g ⟨a + i, h⟩ else 0) ≤ ∑ j, g j := by
  have e : ∑ j, g j = ∑ j ∈ range n, (if h : j < n then g ⟨j, h⟩ else 0) := by rw [Finset.sum_range]; simp
  rw [e]
  refine (sum_shift (fun j => if h : j < n then g ⟨j, h⟩ else 0) a (b + 1 - a)).trans_le ?_
  refine sum_le_sum_of_subset_of_nonneg ?_ (fun j _ _ => by split <;> simp [hg])
  intro j hj
  obtain ⟨i, hi, rfl⟩ := mem_map.1 hj
  have := mem_range.1 hi
  simp only [addLeftEmbedding_apply, mem_range]
  omega

/-- One band in rounded arithmetic. -/
theorem band_float [Zero F] [Add F] [Sub F] [Mul F] [DecidableEq F] (h : BasicArith (F := F) R P) {n : Nat} {dx dw : ℝ} (hdx : 0 ≤ dx) (hdw : 0 ≤ dw) (r v : Fin n → F) (r' v' : Fin n → ℝ) (p : Nat × Nat) (hin : InBand r' p)
    (hv : ∀ j, Close R dx (v j) (v' j)) (hr : ∀ j, Close R dw (r j) (r' j)) (hrange : BankRange P dx dw v' r') (pre post : List F) :
    ∃ o, bandLoop (List.ofFn v) (pre ++ (piece r p ++ post)) (p.2 + 1 - p.1) p.1 pre.length 0 = some (o, (pre ++ piece r p).length) ∧ Close R (bankErr P dx dw v' r') o (∑ j, r' j * v' j) := by
  obtain ⟨h1, h2, h3⟩ := hin
  have hpl : piece r p = (List.range (p.2 + 1 - p.1)).map (fun i => if hj : p.1 + i < n then r ⟨p.1 + i, hj⟩ else 0) := by
    unfold piece
    rw [List.range'_eq_map_range, List.filterMap_map, ← List.filterMap_eq_map]
    refine List.filterMap_congr fun i hi => ?_
    have := List.mem_range.1 hi
    simp only [Function.comp]
    rw [List.getElem?_ofFn, dif_pos (by omega), dif_pos (by omega)]
  rw [bandLoop_sum (List.ofFn v) (pre ++ (piece r p ++ post)) (fun l => if hj : p.1 + l < n then v ⟨p.1 + l, hj⟩ else 0) (fun l => if hj : p.1 + l < n then r ⟨p.1 + l, hj⟩ else 0) _ _ _ 0]
  · have hlen : (pre ++ piece r p).length = pre.length + (p.2 + 1 - p.1) := by rw [List.length_append, hpl]; simp
    obtain ⟨o, e, ho⟩ := Apx.sumLoop_zero (R := R) (P := P) h 1 (fun l => some ((if hj : p.1 + l < n then v ⟨p.1 + l, hj⟩ else 0) * (if hj : p.1 + l < n then r ⟨p.1 + l, hj⟩ else 0)))
      (fun l => if hj : p.1 + l < n then v' ⟨p.1 + l, hj⟩ * r' ⟨p.1 + l, hj⟩ else 0) (fun l => if hj : p.1 + l < n then |v' ⟨p.1 + l, hj⟩| * |r' ⟨p.1 + l, hj⟩| else 0)
      (fun l => if hj : p.1 + l < n then tapAbs P dx dw v' r' ⟨p.1 + l, hj⟩ else 0) (p.2 + 1 - p.1)
      (fun l hl => ⟨_, rfl, by
        have hln : p.1 + l < n := by omega
        simp only [dif_pos hln]
        have := Apx.mul h.mul (Apx.of_close (P := P) (hv ⟨p.1 + l, hln⟩)) (Apx.of_close (P := P) (hr ⟨p.1 + l, hln⟩)) (by simpa using hrange.tap ⟨p.1 + l, hln⟩)
        exact this⟩) (by
        refine le_trans (add_le_add (mul_le_mul (pow_u_mono (by omega)) (sum_band_le (fun j => |v' j| * |r' j|) (fun j => by positivity) p.1 p.2 h2) ?_ (pow_u_pos _).le)
          (mul_le_mul (pow_u_mono (by omega)) (sum_band_le (tapAbs P dx dw v' r') (tapAbs_nonneg hdx hdw v' r') p.1 p.2 h2) ?_ (pow_u_pos _).le)) hrange.total
        · exact sum_nonneg fun j _ => by split <;> positivity
        · exact sum_nonneg fun j _ => by split <;> simp [tapAbs_nonneg hdx hdw])
    refine ⟨o, by rw [e, hlen]; rfl, ?_⟩
    have hs : ∑ l ∈ range (p.2 + 1 - p.1), (if hj : p.1 + l < n then v' ⟨p.1 + l, hj⟩ * r' ⟨p.1 + l, hj⟩ else 0) = ∑ j, r' j * v' j := by
      have e : ∑ j, r' j * v' j = ∑ j ∈ range n, (if h : j < n then v' ⟨j, h⟩ * r' ⟨j, h⟩ else 0) := by
        rw [Finset.sum_range]
        exact sum_congr rfl fun j _ => by rw [dif_pos j.2, mul_comm]
      rw [e]
      refine (sum_shift (fun j => if h : j < n then v' ⟨j, h⟩ * r' ⟨j, h⟩ else 0) p.1 (p.2 + 1 - p.1)).trans ?_
      refine sum_subset ?_ ?_
      · intro j hj
        obtain ⟨i, hi, rfl⟩ := mem_map.1 hj
        have := mem_range.1 hi
        simp only [addLeftEmbedding_apply, mem_range]
        omega
      · intro j hj hnot
        have hjn := mem_range.1 hj
        rw [dif_pos hjn]
        by_contra hne
        have hr0 : r' ⟨j, hjn⟩ ≠ 0 := fun e => hne (by rw [e, mul_zero])
        obtain ⟨g1, g2⟩ := h3 ⟨j, hjn⟩ hr0
        simp only at g1 g2
        exact hnot (mem_map.2 ⟨j - p.1, mem_range.2 (by omega), by simp only [addLeftEmbedding_apply]; omega⟩)
    rw [hs] at ho
    refine (ho.mono (q' := 1 + n) (T' := ∑ j, |v' j| * |r' j|) (α' := (1 + P.u) ^ n * ∑ j, tapAbs P dx dw v' r' j) (by omega) (sum_band_le (fun j => |v' j| * |r' j|) (fun j => by positivity) p.1 p.2 h2) ?_).close
    exact mul_le_mul (pow_u_mono (by omega)) (sum_band_le (tapAbs P dx dw v' r') (tapAbs_nonneg hdx hdw v' r') p.1 p.2 h2) (sum_nonneg fun j _ => by split <;> simp [tapAbs_nonneg hdx hdw]) (pow_u_pos _).le
  · intro l _ hl
    rw [Nat.sub_zero, List.getElem?_ofFn, dif_pos (by omega), dif_pos (by omega)]
  · intro l _ hl
    rw [Nat.sub_zero, List.getElem?_append_right (by omega), Nat.add_sub_cancel_left, List.getElem?_append_left (by rw [hpl]; simp; omega), hpl, List.getElem?_map, List.getElem?_range (by omega), Option.map_some]

/-- A filter: its machine coefficients, the coefficients they stand for, and its limits. -/
structure Filt (F : Type) (n : Nat) where
  coef : Fin n → F
  exact : Fin n → ℝ
  lim : Nat × Nat

theorem cLoop_float [Zero F] [Add F] [Sub F] [Mul F] [DecidableEq F] (h : BasicArith (F := F) R P) {n : Nat} {dx dw : ℝ} (hdx : 0 ≤ dx) (hdw : 0 ≤ dw) (v : Fin n → F) (v' : Fin n → ℝ) (hv : ∀ j, Close R dx (v j) (v' j)) :
    ∀ (rs : List (Filt F n)), (∀ q ∈ rs, InBand q.exact q.lim ∧ (∀ j, Close R dw (q.coef j) (q.exact j)) ∧ BankRange P dx dw v' q.exact) → ∀ (s0 e0 : List Nat) (pre done : List F), s0.length = done.length → e0.length = done.length →
    ∃ outs, cLoop (List.ofFn v) (s0 ++ rs.map fun q => q.lim.1) (e0 ++ rs.map fun q => q.lim.2) (pre ++ (rs.map fun q => piece q.coef q.lim).flatten) rs.length done.length pre.length (done ++ rs.map fun _ => 0) = some (done ++ outs) ∧
      List.Forall₂ (fun o q => Close R (bankErr P dx dw v' q.exact) o (∑ j, q.exact j * v' j)) outs rs
  | [], _, s0, e0, pre, done, _, _ => ⟨[], by simp [cLoop], .nil⟩
  | q :: rs, hq, s0, e0, pre, done, hs, he => by
    obtain ⟨q1, q2, q3⟩ := hq q (by simp)
    obtain ⟨o, e, ho⟩ := band_float h hdx hdw q.coef v q.exact v' q.lim q1 hv q2 q3 pre (rs.map fun q => piece q.coef q.lim).flatten
    obtain ⟨outs, e2, hall⟩ := cLoop_float h hdx hdw v v' hv rs (fun q hm => hq q (by simp [hm])) (s0 ++ [q.lim.1]) (e0 ++ [q.lim.2]) (pre ++ piece q.coef q.lim) (done ++ [o]) (by simp [hs]) (by simp [he])
    refine ⟨o :: outs, ?_, .cons ho hall⟩
    simp only [List.map_cons, List.flatten_cons, List.length_cons, cLoop]
    rw [List.getElem?_append_right (by omega), List.getElem?_append_right (by omega), List.getElem?_append_right (by omega), hs, he]
    simp only [Nat.sub_self, List.getElem?_cons_zero, Option.bind_some]
    rw [e, Option.bind_some]
    have hset : (done ++ 0 :: rs.map fun _ => (0 : F)).set done.length o = done ++ [o] ++ rs.map fun _ => (0 : F) := by
      rw [List.set_append_right _ _ (by omega)]
      simp
    rw [hset]
    simp only [List.append_assoc, List.singleton_append, List.length_append, List.length_cons, List.length_nil] at e2 ⊢
    rw [e2]

/-- **C98.** `eml_sparse_filterbank` in rounded arithmetic: with coefficients known up to `dw` and inputs known up to `dx`, every output is finite and within `bankErr` of the exact product of the filter with the input,
whatever the output array contained before. -/
theorem C98_filterbank [Zero F] [Add F] [Sub F] [Mul F] [DecidableEq F] (h : BasicArith (F := F) R P) {m n : Nat} {dx dw : ℝ} (hdx : 0 ≤ dx) (hdw : 0 ≤ dw) (M : Fin m → Fin n → F) (M' : Matrix (Fin m) (Fin n) ℝ) (a b : Fin m → Nat)
    (hin : ∀ i, InBand (M' i) (a i, b i)) (hM : ∀ i j, Close R dw (M i j) (M' i j)) (v : Fin n → F) (v' : Fin n → ℝ) (hv : ∀ j, Close R dx (v j) (v' j)) (hr : ∀ i, BankRange P dx dw v' (M' i)) (junk : List F) (hj : junk.length = m) :
    ∃ out : Fin m → F, cFilterbank (List.ofFn v) junk (List.ofFn a) (List.ofFn b) (List.ofFn fun i => piece (M i) (a i, b i)).flatten = some (List.ofFn out) ∧
      ∀ i, Close R (bankErr P dx dw v' (M' i)) (out i) ((M'.mulVec v') i) := by
  obtain ⟨rs, hrs⟩ : ∃ rs : List (Filt F n), rs = List.ofFn fun i => ⟨M i, M' i, (a i, b i)⟩ := ⟨_, rfl⟩
  obtain ⟨outs, e, hall⟩ := cLoop_float h hdx hdw v v' hv rs (by
    intro q hq
    rw [hrs] at hq
    obtain ⟨i, rfl⟩ := List.mem_ofFn.1 hq
    exact ⟨hin i, hM i, hr i⟩) [] [] [] [] rfl rfl
  simp only [List.nil_append, List.length_nil] at e
  have hl : rs.length = m := by rw [hrs, List.length_ofFn]
  have hol : outs.length = m := by rw [hall.length_eq, hl]
  subst hol
  refine ⟨outs.get, ?_, fun i => ?_⟩
  · have hz : (junk.map fun _ => (0 : F)) = rs.map fun _ => 0 := by rw [List.map_const', List.map_const', hl, hj]
    have e1 : List.ofFn a = rs.map fun q => q.lim.1 := by rw [hrs, List.map_ofFn]; rfl
    have e2 : List.ofFn b = rs.map fun q => q.lim.2 := by rw [hrs, List.map_ofFn]; rfl
    have e3 : (List.ofFn fun i => piece (M i) (a i, b i)) = rs.map fun q => piece q.coef q.lim := by rw [hrs, List.map_ofFn]; rfl
    rw [cFilterbank, hz, e1, e2, e3, hj, List.ofFn_get, ← e, hl]
  · have := (List.forall₂_iff_get.1 hall).2 i.val i.2 (by rw [hl]; exact i.2)
    have hg : rs.get ⟨i.val, by rw [hl]; exact i.2⟩ = ⟨M i, M' i, (a i, b i)⟩ := by
      rw [List.get_eq_getElem]
      have : rs[i.val]? = some ⟨M i, M' i, (a i, b i)⟩ := by rw [hrs, List.getElem?_ofFn, dif_pos i.2]
      exact (List.getElem_eq_iff _).2 this
    rw [hg] at this
    exact this

/-- **C98** (from the text). The tables of the file that `eml-mel-filterbank` writes for filters up to `B` in magnitude, read as C: `eml_sparse_filterbank` with these tables in `float` arithmetic returns, for every input
known up to `dx`, values within `bankErr` of the product with the original matrix, where coefficients are off by at most `constErr`. -/
theorem C98_text [Zero F] [Add F] [Sub F] [Mul F] [DecidableEq F] (h : BasicArith (F := F) R P) (ops : CFloat F) (hlit : LitOk R P ops) {m n : Nat} (M : Matrix (Fin m) (Fin n) ℚ) (name : List Char) (x : Extra) (linewrap : Nat)
    (ha : FilterbankArgs M name x linewrap) (other : ℚ → List Char) {B : ℝ} (hB : 0 ≤ B) (hM : B + 1 / (2 * 10 ^ 6) ≤ P.M) (hW : ∀ i j, |(M i j : ℝ)| ≤ B) :
    ∃ text prog starts ends lut, filterbankFile other (Filterbank.rows M) name x linewrap = some text ∧ parse text = some prog ∧ readConst ops prog (name ++ "_bands".toList) = some (m : Int) ∧
      readIntArr ops prog (name ++ "_starts".toList) = some starts ∧ readIntArr ops prog (name ++ "_ends".toList) = some ends ∧ Net.CText.readFloats ops prog (name ++ "_lut".toList) = some lut ∧
      ∀ (dx : ℝ) (v : Fin n → F) (v' : Fin n → ℝ), 0 ≤ dx → (∀ j, Close R dx (v j) (v' j)) → (∀ i, BankRange P dx (constErr P B) v' fun j => (M i j : ℝ)) → ∀ junk : List F, junk.length = m →
        ∃ out : Fin m → F, cFilterbank (List.ofFn v) junk (starts.map Int.toNat) (ends.map Int.toNat) lut = some (List.ofFn out) ∧
          ∀ i, Close R (bankErr P dx (constErr P B) v' fun j => (M i j : ℝ)) (out i) (∑ j, (M i j : ℝ) * v' j) := by
  obtain ⟨text, prog, a, b, hab, h1, h2, h3, h4, h5, h6, -⟩ := C95_tables M name x linewrap ha ops other
  refine ⟨text, prog, _, _, _, h1, h2, h3, h4, h5, h6, fun dx v v' hdx hv hr junk hj => ?_⟩
  obtain ⟨out, e, ho⟩ := C98_filterbank h hdx (constErr_nonneg hB) (fun i j => floatLit ops (M i j)) (Matrix.of fun i j => (M i j : ℝ)) a b
    (fun i => ⟨(hab i).1, (hab i).2.1, fun j hj => ((hab i).2.2 j).1 fun e => hj (by simp [e])⟩) (fun i j => floatLit_close hlit hM _ (hW i j)) v v' hv hr junk hj
  have hid : ∀ g : Fin m → Nat, (List.ofFn fun i => (g i : Int)).map Int.toNat = List.ofFn g := by
    intro g
    rw [List.map_ofFn]
    simp [Function.comp_def]
  rw [hid, hid]
  exact ⟨out, e, ho⟩

/-! ### A concrete case: binary32, two triangular filters -/

section
open Binary32

noncomputable instance : DecidableEq F32 := Classical.decEq _

noncomputable def exBank : Matrix (Fin 2) (Fin 4) ℝ := !![1 / 2, 1, 0, 0; 0, 1 / 4, -1 / 3, 0]

theorem exBank_range (v' : Fin 4 → ℝ) (hv : ∀ j, |v' j| ≤ 1000) (i : Fin 2) : BankRange acc (1 / 10 ^ 4) (1 / 10 ^ 6) v' (exBank i) ∧ bankErr acc (1 / 10 ^ 4) (1 / 10 ^ 6) v' (exBank i) ≤ 1 / 100 := by
  have hb := big
  have hM : acc.M = maxFinite := rfl
  have hu : acc.u = 1 / 2 ^ 24 := rfl
  have hη : acc.η = 1 / 2 ^ 150 := rfl
  norm_num at hb
  have hw : ∀ j, |exBank i j| ≤ 1 := by
    intro j
    fin_cases i <;> fin_cases j <;> norm_num [exBank, abs_le]
  have hprod : ∀ j, |v' j| * |exBank i j| ≤ 1000 := fun j => by
    have := mul_le_mul (hv j) (hw j) (abs_nonneg _) (by norm_num)
    linarith
  have hsum : ∑ j, |v' j| * |exBank i j| ≤ 4000 := (Finset.sum_le_sum fun j _ => hprod j).trans (by norm_num)
  have hsum0 : 0 ≤ ∑ j, |v' j| * |exBank i j| := Finset.sum_nonneg fun j _ => by positivity
  have htap : ∀ j, tapAbs acc (1 / 10 ^ 4) (1 / 10 ^ 6) v' (exBank i) j ≤ 12 / 10 ^ 4 := by
    intro j
    unfold tapAbs mulAbs
    have h1 := hv j
    have h2 := hw j
    rw [hu, hη]
    norm_num
    linarith
  have htaps : ∑ j, tapAbs acc (1 / 10 ^ 4) (1 / 10 ^ 6) v' (exBank i) j ≤ 48 / 10 ^ 4 := (Finset.sum_le_sum fun j _ => htap j).trans (by norm_num)
  refine ⟨⟨fun j => ?_, ?_⟩, ?_⟩
  · rw [hM]
    have := mul_le_mul (add_le_add_left (hv j) (1 / 10 ^ 4)) (add_le_add_left (hw j) (1 / 10 ^ 6)) (by positivity) (by norm_num)
    norm_num at this ⊢
    linarith
  · rw [hM, hu]
    norm_num at htaps ⊢
    linarith
  · unfold bankErr
    rw [hu]
    norm_num at htaps ⊢
    linarith

/-- For every input up to 1000 the outputs of the two filters in binary32 are within 0.01 of the exact ones. -/
example (v' : Fin 4 → ℝ) (hv : ∀ j, |v' j| ≤ 1000) (junk : List F32) (hj : junk.length = 2) :
    ∃ out : Fin 2 → F32, cFilterbank (List.ofFn fun j => rnd (v' j)) junk [0, 1] [1, 2] [rnd (1 / 2), rnd 1, rnd (1 / 4), rnd (-1 / 3)] = some (List.ofFn out) ∧ ∀ i, Close fmt (1 / 100) (out i) ((exBank.mulVec v') i) := by
  have hb := big
  norm_num at hb
  obtain ⟨out, e, ho⟩ := C98_filterbank basic32 (dx := 1 / 10 ^ 4) (dw := 1 / 10 ^ 6) (by norm_num) (by norm_num) (fun i j => rnd (exBank i j)) exBank ![0, 1] ![1, 2]
    (by intro i; fin_cases i <;> refine ⟨by decide, by decide, fun j hj => ?_⟩ <;> fin_cases j <;> simp_all [exBank]) (by
      intro i j
      refine rnd_close _ ?_
      fin_cases i <;> fin_cases j <;> norm_num [exBank, abs_le])
    (fun j => rnd (v' j)) v' (by
      intro j
      have h := hv j
      refine ⟨fl_fin _ (h.trans (by linarith)), (fl_error_any _).trans ?_⟩
      have := mul_le_mul_of_nonneg_left h (show (0 : ℝ) ≤ 1 / 2 ^ 24 by positivity)
      norm_num at this ⊢
      linarith) (fun i => (exBank_range v' hv i).1) junk hj
  refine ⟨out, ?_, fun i => (ho i).mono (exBank_range v' hv i).2⟩
  rw [← e]
  rfl
end

end Emlearn.Flt
