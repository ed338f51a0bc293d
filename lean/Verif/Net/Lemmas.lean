/- Lemmas about the network model. -/
import Verif.Net.Model
import Mathlib.Data.List.Basic
namespace Emlearn.Net
variable {F : Type} (ops : NetOps F)

theorem flatten_getElem? (W : List (List F)) (m : Nat) (h : ∀ r ∈ W, r.length = m) (i o : Nat) (ho : o < m) :
    W.flatten[o + i * m]? = W[i]?.bind (fun r => r[o]?) := by
  induction W generalizing i with
  | nil => simp
  | cons r W ih =>
    have hr : r.length = m := h r (by simp)
    rw [List.flatten_cons]
    cases i with
    | zero => simp; rw [List.getElem?_append_left (by omega)]
    | succ i =>
      rw [List.getElem?_append_right (by rw [Nat.succ_mul]; omega)]
      have : o + (i + 1) * m - r.length = o + i * m := by rw [Nat.succ_mul]; omega
      rw [this, ih (fun r hr => h r (by simp [hr]))]
      simp

theorem dotLoop_eq (W : List (List F)) (m o : Nat) (h : ∀ r ∈ W, r.length = m) (ho : o < m) (inp : List F)
    (hl : W.length ≤ inp.length) (k i : Nat) (hk : i + k = W.length) (sum : F) :
    dotLoop ops inp W.flatten m o k i sum
      = some (((W.drop i).zip (inp.drop i)).foldl (fun s p => ops.add s (ops.mul (p.1.getD o ops.zero) p.2)) sum) := by
  induction k generalizing i sum with
  | zero => simp [dotLoop, List.drop_eq_nil_of_le (as := W) (i := i) (by omega)]
  | succ k ih =>
    have hi : i < W.length := by omega
    have hi' : i < inp.length := by omega
    have hm : o < (W[i]).length := by rw [h _ (List.getElem_mem hi)]; exact ho
    rw [dotLoop, flatten_getElem? W m h i o ho]
    rw [List.drop_eq_getElem_cons hi, List.drop_eq_getElem_cons hi']
    simp only [List.getElem?_eq_getElem hi, List.getElem?_eq_getElem hi', Option.bind_some, List.getElem?_eq_getElem hm,
      bind, List.zip_cons_cons, List.foldl_cons]
    rw [ih (i+1) (by omega)]
    simp [List.getElem?_eq_getElem hm]

/-- value of one output of the affine part -/
def affine (W : List (List F)) (b x : List F) (o : Nat) : F :=
  ops.add ((W.zip x).foldl (fun s p => ops.add s (ops.mul (p.1.getD o ops.zero) p.2)) ops.zero) (b.getD o ops.zero)

theorem linearLoop_eq (W : List (List F)) (b : List F) (h : ∀ r ∈ W, r.length = b.length) (inp : List F)
    (hl : W.length ≤ inp.length) (k o : Nat) (hk : o + k = b.length) (out : List F) (hout : b.length ≤ out.length) :
    linearLoop ops inp W.length W.flatten b b.length k o out
      = some (out.take o ++ (List.range' o k).map (affine ops W b inp) ++ out.drop (o + k)) := by
  induction k generalizing o out with
  | zero => simp [linearLoop]
  | succ k ih =>
    have ho : o < b.length := by omega
    rw [linearLoop, dotLoop_eq ops W b.length o h ho inp hl W.length 0 (by simp)]
    simp only [bind, Option.bind_some, List.getElem?_eq_getElem ho, List.drop_zero]
    rw [if_pos (by omega), ih (o+1) (by omega) _ (by simpa using hout)]
    congr 1
    have ho2 : o < out.length := by omega
    rw [List.range'_succ, List.map_cons]
    apply List.ext_getElem?
    intro j
    simp only [affine, List.getD_eq_getElem?_getD, List.getElem?_eq_getElem ho, Option.getD_some]
    simp only [List.getElem?_append, List.length_append, List.length_take, List.length_set, List.length_map, List.length_range',
      List.length_cons, List.getElem?_take, List.getElem?_set, List.getElem?_drop]
    by_cases h1 : j < o
    · simp [h1, show j < o + 1 by omega, show j < min (o+1) out.length + k by omega, show j < min (o+1) out.length by omega,
        show j < min o out.length + (k+1) by omega, show j < min o out.length by omega, show ¬ (o = j) by omega]
    · by_cases h2 : j = o
      · subst h2
        simp [show j < min (j+1) out.length + k by omega, show j < min (j+1) out.length by omega,
          show j < min j out.length + (k+1) by omega, show ¬ j < min j out.length by omega, ho2, show j - min j out.length = 0 by omega]
      · by_cases h3 : j < o + 1 + k
        · rw [if_pos (by omega), if_neg (by omega), if_pos (by omega), if_neg (by omega)]
          obtain ⟨t, rfl⟩ : ∃ t, j = o + 1 + t := ⟨j - (o+1), by omega⟩
          rw [show o + 1 + t - min (o+1) out.length = t by omega, show o + 1 + t - min o out.length = t + 1 by omega]
          simp
        · rw [if_neg (by omega), if_neg (by omega), if_neg (by omega)]
          congr 1; omega

theorem map_affine_take (W : List (List F)) (b inp : List F) (n : Nat) (hn : W.length = n) (o : Nat) :
    affine ops W b inp o = affine ops W b (inp.take n) o := by
  subst hn
  unfold affine
  congr 2
  induction W generalizing inp with
  | nil => simp
  | cons r W ih =>
    cases inp with
    | nil => simp
    | cons x xs => simp [ih xs]

theorem length_softmax (xs : List F) : (softmax ops xs).length = xs.length := by simp [softmax]

/-- `activate` on a supported activation. -/
theorem activate_some (a : Act) (h : a ≠ .other) (xs : List F) : ∃ ys, activate ops a xs = some ys ∧ ys.length = xs.length := by
  cases a <;> simp_all [activate, length_softmax]

theorem forward_eq (W : List (List F)) (b : List F) (h : ∀ r ∈ W, r.length = b.length) (inp : List F)
    (hl : W.length ≤ inp.length) (a : Act) (ha : a ≠ .other) (out : List F) (hout : b.length ≤ out.length) :
    forward ops inp W.length W.flatten b a out b.length
      = (activate ops a ((List.range b.length).map (affine ops W b (inp.take W.length)))).map
          (fun ys => (EmlError.ok, ys ++ out.drop b.length)) := by
  have h2 : (List.range b.length).map (affine ops W b inp) = (List.range b.length).map (affine ops W b (inp.take W.length)) :=
    List.map_congr_left (fun o _ => map_affine_take ops W b inp _ rfl o)
  rw [← h2]
  rw [forward, linearLoop_eq ops W b h inp hl b.length 0 (by simp) out hout]
  obtain ⟨ys, hy, hyl⟩ := activate_some ops a ha ((List.range b.length).map (affine ops W b inp))
  have e1 : List.take b.length (List.map (affine ops W b inp) (List.range' 0 b.length) ++ List.drop b.length out) = (List.range b.length).map (affine ops W b inp) := by
    rw [List.take_append_of_le_length (by simp), List.take_of_length_le (by simp), List.range_eq_range']
  simp [hy, e1]

end Emlearn.Net
