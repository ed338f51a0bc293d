/- C103: tree ensembles in `float` arithmetic. -/
import Verif.Float.Calc
import Verif.Float.BinaryOps
import Verif.Props.TreesInfer
import Verif.Props.TreesInline
namespace Emlearn.Flt
open Emlearn.Trees

variable {F : Type} {R : Format F} {P : Accuracy} {B : Nat} {ops : FOps F}

/-- What the voting and averaging code needs of the machine's `float`: rounded addition and division, exact integers up to `B`, exact counting below `B`, comparison by value. -/
structure TreeArith (R : Format F) (P : Accuracy) (B : Nat) (ops : FOps F) : Prop where
  zero : R.fin ops.zero ∧ R.val ops.zero = 0
  one : R.fin ops.one ∧ R.val ops.one = 1
  add : AddOk R P ops.add
  div : DivOk R P ops.div
  ofInt : ∀ k : Nat, k ≤ B → R.fin (ops.ofInt k) ∧ R.val (ops.ofInt k) = k
  count : ∀ (a : F) (k : Nat), R.fin a → R.val a = k → k < B → R.fin (ops.add a ops.one) ∧ R.val (ops.add a ops.one) = (k + 1 : Nat)
  divZero : ∀ k : Nat, 0 < k → k ≤ B → ops.div ops.zero (ops.ofInt k) = ops.zero
  lt : ∀ a b, R.fin a → R.fin b → (ops.lt a b = true ↔ R.val a < R.val b)
  room : 1 ≤ P.M

/-! ### Hard voting -/

/-- The counter after `k` votes. -/
def tally (ops : FOps F) : Nat → F
  | 0 => ops.zero
  | k + 1 => ops.add (tally ops k) ops.one

theorem tally_val (h : TreeArith R P B ops) : ∀ k, k ≤ B → R.fin (tally ops k) ∧ R.val (tally ops k) = k
  | 0, _ => by simpa [tally] using h.zero
  | k + 1, hk => by
    obtain ⟨f, v⟩ := tally_val h k (by omega)
    exact h.count _ k f v (by omega)

/-- A count divided by the number of trees is within one rounding of the fraction. -/
theorem share_close (h : TreeArith R P B ops) {N : Nat} (hN : 0 < N) (hB : N ≤ B) {k : Nat} (hk : k ≤ N) :
    Close R (P.u * (k / N : ℝ) + P.η) (ops.div (tally ops k) (ops.ofInt N)) (k / N : ℝ) := by
  obtain ⟨f, v⟩ := tally_val h k (hk.trans hB)
  obtain ⟨g, w⟩ := h.ofInt N hB
  have hNR : (0 : ℝ) < N := by exact_mod_cast hN
  have hle : (k / N : ℝ) ≤ 1 := by rw [div_le_one hNR]; exact_mod_cast hk
  have h0 : (0 : ℝ) ≤ k / N := by positivity
  obtain ⟨a, b⟩ := h.div _ _ f g (by rw [w]; exact hNR.ne') (by rw [v, w, abs_of_nonneg h0]; exact hle.trans h.room)
  rw [v, w, abs_of_nonneg h0] at b
  exact ⟨a, b⟩

theorem voteLaws (h : TreeArith R P B ops) {N : Nat} (hN : 0 < N) (hB : N ≤ B) (hsep : 2 * (P.u + P.η) * N < 1) : VoteLaws ops N (tally ops) where
  zero := rfl
  succ _ _ := rfl
  divZero := h.divZero N hN hB
  mono := by
    intro a b ha hb
    have hNR : (0 : ℝ) < N := by exact_mod_cast hN
    have bound : ∀ k : Nat, k ≤ N → |R.val (ops.div (tally ops k) (ops.ofInt N)) - (k / N : ℝ)| ≤ P.u + P.η := by
      intro k hk
      refine (share_close h hN hB hk).2.trans ?_
      have : (k / N : ℝ) ≤ 1 := by rw [div_le_one hNR]; exact_mod_cast hk
      have := mul_le_mul_of_nonneg_left this P.hu
      linarith
    have sep : ∀ a b : Nat, a ≤ N → b ≤ N → a < b → R.val (ops.div (tally ops a) (ops.ofInt N)) < R.val (ops.div (tally ops b) (ops.ofInt N)) := by
      intro a b ha hb hab
      have h1 := abs_le.1 (bound a ha)
      have h2 := abs_le.1 (bound b hb)
      have h3 : (a / N : ℝ) + 1 / N ≤ b / N := by
        rw [← add_div]
        exact div_le_div_of_nonneg_right (by exact_mod_cast hab) hNR.le
      have h4 : 2 * (P.u + P.η) < 1 / N := by rwa [lt_div_iff₀ hNR]
      linarith [h1.1, h1.2, h2.1, h2.2]
    rw [Bool.eq_iff_iff, h.lt _ _ (share_close h hN hB ha).1 (share_close h hN hB hb).1, decide_eq_true_eq]
    constructor
    · intro hlt
      by_contra hn
      rcases Nat.lt_or_eq_of_le (Nat.le_of_not_lt hn) with h1 | h1
      · exact absurd (sep b a hb ha h1) (not_lt.2 hlt.le)
      · subst h1; exact absurd hlt (lt_irrefl _)
    · exact sep a b ha hb

/-- **C103** (hard voting) in `float` arithmetic, `eml_trees_predict_proba()` gives for each class its share of the votes up to one rounding, and `eml_trees_predict()` the smallest class with the most votes - exactly, for up to `1/(2u)` trees. -/
theorem C103_hard_vote (h : TreeArith R P B ops) (m : CModel) (features : List Int) (classes : List Nat)
    (hB : m.roots.length ≤ B) (hsep : 2 * (P.u + P.η) * m.roots.length < 1) (hlb : m.leafBits = 0) (hnc : m.nClasses ≤ 30) (hne : m.roots ≠ [])
    (htrees : List.Forall₂ (fun root c => ∃ leaf : Nat, m.tree features root = some (leaf : Int) ∧ m.leaves[leaf]? = some c) m.roots classes)
    (hcls : ∀ c ∈ classes, (c : Int) < m.nClasses) :
    (∃ out, predictProba ops m features m.nClasses = some (.ok out) ∧ out.length = m.nClasses.toNat ∧
      ∀ c p, out[c]? = some p → R.fin p ∧ |R.val p - (classes.count c : ℝ) / classes.length| ≤ P.u * ((classes.count c : ℝ) / classes.length) + P.η) ∧
    ∃ c : Nat, predict ops m features m.nFeatures = some (c : Int) ∧ Plurality classes m.nClasses.toNat c := by
  have hpos : 0 < m.roots.length := List.length_pos_iff.mpr hne
  have hlen : classes.length = m.roots.length := htrees.length_eq.symm
  obtain ⟨h1, _, h2⟩ := predict_hard_core ops (tally ops) m features classes (voteLaws h hpos hB hsep) hlb hnc hne htrees hcls
  refine ⟨⟨_, h1, by simp, ?_⟩, h2⟩
  intro c p hp
  rw [List.getElem?_map] at hp
  obtain ⟨d, hd, rfl⟩ := Option.map_eq_some_iff.1 hp
  obtain ⟨hc, rfl⟩ := List.getElem?_eq_some_iff.1 hd
  rw [List.getElem_range, hlen]
  exact share_close h hpos hB (hlen ▸ List.count_le_length)

/-! ### Averages -/

/-- `s = 0; s += v` for every value of the list, in the machine. -/
theorem total_apx (h : TreeArith R P B ops) : ∀ (l : List F) (s : F) (k : Nat) (S A : ℝ), Apx R P k A 0 s S → (∀ v ∈ l, R.fin v) →
    (1 + P.u) ^ (k + l.length) * (A + absSum (l.map R.val)) ≤ P.M →
    Apx R P (k + l.length) (A + absSum (l.map R.val)) 0 (l.foldl ops.add s) (S + (l.map R.val).sum)
  | [], s, k, S, A, hs, _, _ => by simpa [absSum] using hs
  | v :: l, s, k, S, A, hs, hf, hM => by
    have e : k + (v :: l).length = (k + 1) + l.length := by simp; omega
    have hA := hs.pos
    have hB := absSum_nonneg (l.map R.val)
    have hv := abs_nonneg (R.val v)
    rw [e] at hM ⊢
    rw [List.map_cons, absSum_cons] at hM ⊢
    rw [List.sum_cons, List.foldl_cons, ← add_assoc, ← add_assoc]
    rw [← add_assoc] at hM
    have h1 := Apx.add h.add hs (Apx.self (P := P) (hf v (by simp))) (by
      refine le_trans ?_ hM
      have p1 : (1 + P.u) ^ k ≤ (1 + P.u) ^ (k + 1 + l.length) := pow_u_mono (by omega)
      have p2 : 1 ≤ (1 + P.u) ^ (k + 1 + l.length) := one_le_pow_u _
      rw [pow_zero]
      nlinarith [mul_le_mul_of_nonneg_right p1 hA, mul_le_mul_of_nonneg_right p2 hv, mul_nonneg (pow_u_pos (P := P) (k + 1 + l.length)).le hB])
    have h2 : Apx R P (k + 1) (A + |R.val v|) 0 (ops.add s v) (S + R.val v) := by simpa using h1
    exact total_apx h l _ _ _ _ h2 (fun u hu => hf u (by simp [hu])) hM

/-- Dividing by the number of trees. -/
theorem mean_apx (h : TreeArith R P B ops) {q N : Nat} {T α : ℝ} {s : F} {S : ℝ} (hs : Apx R P q T α s S) (hN : 0 < N) (hB : N ≤ B) (hM : (1 + P.u) ^ q * T + α ≤ P.M) :
    Apx R P (q + 1) (T / N) ((1 + P.u) * (α / N) + P.η) (ops.div s (ops.ofInt N)) (S / N) := by
  obtain ⟨g, w⟩ := h.ofInt N hB
  have hNR : (0 : ℝ) < N := by exact_mod_cast hN
  have hN1 : (1 : ℝ) ≤ N := by exact_mod_cast hN
  have hle : |R.val s / N| ≤ P.M := by
    rw [abs_div, abs_of_pos hNR]
    exact ((div_le_self (abs_nonneg _) hN1).trans hs.abs_le).trans hM
  obtain ⟨a, b⟩ := h.div s _ hs.close.1 g (by rw [w]; exact hNR.ne') (by rw [w]; exact hle)
  rw [w] at b
  refine apx_round (P := P) (x := R.val s / N) ?_ (div_nonneg hs.abs hNR.le) P.hη ?_ a b
  · rw [abs_div, abs_of_pos hNR]
    exact div_le_div_of_nonneg_right hs.mag hNR.le
  · rw [← sub_div, abs_div, abs_of_pos hNR]
    refine (div_le_div_of_nonneg_right hs.close.2 hNR.le).trans ?_
    rw [add_div, mul_div_assoc]

/-- The mean of a list of real numbers, and of their absolute values. -/
noncomputable def meanOf (l : List ℝ) : ℝ := l.sum / l.length
noncomputable def absMean (l : List ℝ) : ℝ := absSum l / l.length

theorem average (h : TreeArith R P B ops) (vals : List F) (hne : vals ≠ []) (hB : vals.length ≤ B) (hf : ∀ v ∈ vals, R.fin v)
    (hM : (1 + P.u) ^ vals.length * absSum (vals.map R.val) ≤ P.M) :
    Close R (((1 + P.u) ^ (vals.length + 1) - 1) * absMean (vals.map R.val) + P.η) (ops.div (vals.foldl ops.add ops.zero) (ops.ofInt vals.length)) (meanOf (vals.map R.val)) := by
  have h0 : Apx R P 0 0 0 ops.zero 0 := ⟨by simp, le_rfl, h.zero.1, by simp [h.zero.2]⟩
  have h1 := total_apx h vals ops.zero 0 0 0 h0 hf (by simpa using hM)
  simp only [zero_add] at h1
  have h2 := mean_apx h h1 (List.length_pos_iff.2 hne) hB (by simpa using hM)
  have := h2.close
  simpa [meanOf, absMean] using this

theorem foldlM_some {α β : Type} (g : β → α → β) : ∀ (l : List α) (s : β), l.foldlM (fun s t => some (g s t)) s = some (l.foldl g s)
  | [], _ => rfl
  | a :: l, s => by rw [List.foldlM_cons]; exact foldlM_some g l (g s a)

/-- **C103** (regression) in `float` arithmetic `eml_trees_regress()` returns the mean of the leaf values up to `T + 1` roundings relative to the mean magnitude. -/
theorem C103_regress (h : TreeArith R P B ops) (m : CModel) (leafFloat : Nat → Option F) (features : List Int) (vals : List F) (n : Int)
    (hn : 1 ≤ n) (hlb : m.leafBits = 32) (hne : m.roots ≠ []) (hB : m.roots.length ≤ B)
    (htrees : List.Forall₂ (fun root v => ∃ leaf : Nat, m.tree features root = some (leaf : Int) ∧ leafFloat leaf = some v) m.roots vals)
    (hf : ∀ v ∈ vals, R.fin v) (hM : (1 + P.u) ^ vals.length * absSum (vals.map R.val) ≤ P.M) :
    ∃ y, regress ops m leafFloat features n = some (.ok y) ∧ R.fin y ∧
      |R.val y - meanOf (vals.map R.val)| ≤ ((1 + P.u) ^ (vals.length + 1) - 1) * absMean (vals.map R.val) + P.η := by
  have hlen : m.roots.length = vals.length := htrees.length_eq
  have hv : vals ≠ [] := by rintro rfl; exact hne (List.length_eq_zero_iff.1 hlen)
  have ha := average h vals hv (hlen ▸ hB) hf hM
  refine ⟨_, ?_, ha.1, ha.2⟩
  unfold regress
  rw [if_neg (by omega), if_neg (by simp [hlb]), forall2_foldlM _ (fun (s : F) (v : F) => some (ops.add s v)) _ _ _ _ _ htrees]
  · rw [foldlM_some, hlen]; rfl
  · rintro s a b ⟨leaf, h1, h2⟩
    simp [h1, h2]

theorem absSum_close {lam : ℝ} : ∀ {l : List F} {r : List ℝ}, List.Forall₂ (Close R lam) l r → |(l.map R.val).sum - r.sum| ≤ l.length * lam ∧ absSum (l.map R.val) ≤ absSum r + l.length * lam
  | [], [], _ => by simp [absSum]
  | a :: l, b :: r, .cons h t => by
    obtain ⟨h1, h2⟩ := absSum_close t
    have h3 := h.2
    have h4 := h.abs_le
    simp only [List.map_cons, List.sum_cons, absSum_cons, List.length_cons, Nat.cast_add, Nat.cast_one]
    constructor
    · rw [show R.val a + (l.map R.val).sum - (b + r.sum) = (R.val a - b) + ((l.map R.val).sum - r.sum) by ring]
      exact (abs_add_le _ _).trans (by linarith)
    · linarith

/-- **C103** (inline regression) the inline regressor, whose leaf values are printed with six decimals, returns the mean of the leaf values up to the error `lam` of the printed constants and the same roundings. -/
theorem C103_inline_regress {Θ : Type} (h : TreeArith R P B ops) (go : Int → Θ → Bool) (trees : List (Stmt Θ F)) (vals : List ℝ) (lam : ℝ)
    (hne : trees ≠ []) (hB : trees.length ≤ B) (hvals : List.Forall₂ (fun t v => Close R lam (t.eval go) v) trees vals)
    (hM : (1 + P.u) ^ vals.length * (absSum vals + vals.length * lam) ≤ P.M) :
    R.fin (inlineRegress ops go trees) ∧
      |R.val (inlineRegress ops go trees) - meanOf vals| ≤ ((1 + P.u) ^ (vals.length + 1) - 1) * (absMean vals + lam) + P.η + lam := by
  have hlen : trees.length = vals.length := hvals.length_eq
  have hc : List.Forall₂ (Close R lam) (trees.map (Stmt.eval go)) vals := by rwa [List.forall₂_map_left_iff]
  obtain ⟨h1, h2⟩ := absSum_close hc
  rw [List.length_map, hlen] at h1 h2
  have hf : ∀ v ∈ trees.map (Stmt.eval go), R.fin v := by
    intro v hv
    obtain ⟨i, hi, rfl⟩ := List.mem_iff_getElem.1 hv
    have := (List.forall₂_iff_get.1 hc).2 i hi (by simpa [hlen] using hi)
    exact this.1
  have ha := average h (trees.map (Stmt.eval go)) (by simpa using hne) (by simpa using hB) hf (by
    rw [List.length_map, hlen]
    exact (mul_le_mul_of_nonneg_left h2 (pow_u_pos _).le).trans hM)
  have e : ops.div ((trees.map (Stmt.eval go)).foldl ops.add ops.zero) (ops.ofInt (trees.map (Stmt.eval go)).length) = inlineRegress ops go trees := by
    unfold inlineRegress
    rw [List.foldl_map, List.length_map]
  rw [e, List.length_map, hlen] at ha
  refine ⟨ha.1, ?_⟩
  have hpos : (0 : ℝ) < vals.length := by rw [← hlen]; exact_mod_cast List.length_pos_iff.2 hne
  have m1 : |meanOf ((trees.map (Stmt.eval go)).map R.val) - meanOf vals| ≤ lam := by
    unfold meanOf
    rw [List.length_map, List.length_map, hlen, ← sub_div, abs_div, abs_of_pos hpos, div_le_iff₀ hpos]
    linarith
  have m2 : absMean ((trees.map (Stmt.eval go)).map R.val) ≤ absMean vals + lam := by
    unfold absMean
    rw [List.length_map, List.length_map, hlen, div_add' _ _ _ hpos.ne']
    exact div_le_div_of_nonneg_right (by linarith) hpos.le
  have m3 := mul_le_mul_of_nonneg_left m2 (sub_nonneg.2 (one_le_pow_u (P := P) (vals.length + 1)))
  rw [show R.val (inlineRegress ops go trees) - meanOf vals = (R.val (inlineRegress ops go trees) - meanOf ((trees.map (Stmt.eval go)).map R.val)) + (meanOf ((trees.map (Stmt.eval go)).map R.val) - meanOf vals) by ring]
  refine (abs_add_le _ _).trans ?_
  have := ha.2
  linarith

/-! ### Soft voting -/

/-- The soft votes of all the trees: every class's counter is the machine sum of the trees' byte fractions. -/
theorem soft_sum_any (ops : FOps F) (leaves : List Nat) (n : Nat) (row : Nat → Nat → Nat) : ∀ (idxs : List Nat) (acc : Nat → F),
    (∀ i ∈ idxs, ∀ c, c < n → leaves[i * n + c]? = some (row i c)) →
      idxs.foldlM (fun o i => (List.range n).foldlM
        (fun o c => (leaves[i * n + c]?).bind (fun b => addAt ops o c (ops.div (ops.ofInt b) (ops.ofInt 255)))) o) ((List.range n).map acc) =
      some ((List.range n).map fun c => (idxs.map fun i => ops.div (ops.ofInt (row i c)) (ops.ofInt 255)).foldl ops.add (acc c))
  | [], acc, _ => by simp
  | i :: idxs, acc, h => by
    have hi := h i (by simp)
    rw [List.foldlM_cons, softVote_row ops leaves (i * n) n _ (row i) (by simp) hi n (Nat.le_refl n)]
    simp only [Option.bind_eq_bind, Option.bind_some]
    have e : ((List.range n).map acc).mapIdx (fun c x => if c < n then ops.add x (ops.div (ops.ofInt (row i c)) (ops.ofInt 255)) else x)
        = (List.range n).map (fun c => ops.add (acc c) (ops.div (ops.ofInt (row i c)) (ops.ofInt 255))) := by
      apply List.ext_getElem?
      intro j
      by_cases hj : j < n
      · simp [hj]
      · simp [hj]
    rw [e, soft_sum_any ops leaves n row idxs _ (fun i' hi' => h i' (by simp [hi']))]
    rfl

theorem replicate_range {α : Type} (n : Nat) (a : α) : List.replicate n a = (List.range n).map fun _ => a := by
  apply List.ext_getElem?; intro j
  by_cases hj : j < n <;> simp [hj]

/-- The exact mean over the trees of a class's byte fractions. -/
noncomputable def softMean (bytes : List Nat) : ℝ := meanOf (bytes.map fun (b : Nat) => (b : ℝ) / 255)

/-- The error of a soft probability, for `N` trees: `N + 2` roundings. -/
noncomputable def softErrAt (P : Accuracy) (N : Nat) (p : ℝ) : ℝ := ((1 + P.u) ^ (N + 2) - 1) * p + ((1 + P.u) ^ (N + 1) + 1) * P.η

theorem absSum_bytes : ∀ l : List Nat, absSum (l.map fun (b : Nat) => (b : ℝ) / 255) = (l.map fun (b : Nat) => (b : ℝ) / 255).sum
  | [] => by simp [absSum]
  | b :: l => by rw [List.map_cons, absSum_cons, List.sum_cons, absSum_bytes l, abs_of_nonneg (by positivity)]

theorem bytes_nonneg (l : List Nat) : 0 ≤ (l.map fun (b : Nat) => (b : ℝ) / 255).sum := by rw [← absSum_bytes]; exact absSum_nonneg _

theorem bytes_le : ∀ l : List Nat, (∀ b ∈ l, b ≤ 255) → (l.map fun (b : Nat) => (b : ℝ) / 255).sum ≤ l.length
  | [], _ => by simp
  | b :: l, h => by
    have h1 := bytes_le l fun c hc => h c (by simp [hc])
    have h2 : (b : ℝ) / 255 ≤ 1 := by rw [div_le_one (by norm_num)]; exact_mod_cast h b (by simp)
    simp only [List.map_cons, List.sum_cons, List.length_cons, Nat.cast_add, Nat.cast_one]
    linarith

theorem softMean_range (l : List Nat) (h : ∀ b ∈ l, b ≤ 255) : 0 ≤ softMean l ∧ softMean l ≤ 1 := by
  unfold softMean meanOf
  rw [List.length_map]
  exact ⟨div_nonneg (bytes_nonneg l) (Nat.cast_nonneg _), div_le_one_of_le₀ (bytes_le l h) (Nat.cast_nonneg _)⟩

/-- The sums fit the format. -/
def SoftFits (P : Accuracy) (N : Nat) : Prop := (1 + P.u) ^ (N + 1) * N + (1 + P.u) ^ N * (N * P.η) ≤ P.M

theorem soft_total (h : TreeArith R P B ops) (hB : 255 ≤ B) (bytes : List Nat) (hb : ∀ b ∈ bytes, b ≤ 255) (hM : SoftFits P bytes.length) :
    Apx R P (bytes.length + 1) (bytes.map fun (b : Nat) => (b : ℝ) / 255).sum ((1 + P.u) ^ bytes.length * (bytes.length * P.η))
      ((bytes.map fun (b : Nat) => ops.div (ops.ofInt (b : Int)) (ops.ofInt 255)).foldl ops.add ops.zero) (bytes.map fun (b : Nat) => (b : ℝ) / 255).sum := by
  have h0 := bytes_nonneg bytes
  have h255 := h.ofInt 255 hB
  have key := foldl_add_error h.add 1 (bytes.map fun (b : Nat) => (ops.div (ops.ofInt (b : Int)) (ops.ofInt 255), (b : ℝ) / 255)) ops.zero 0 0 0 (by simp)
    ⟨h.zero.1, by simp [h.zero.2]⟩ (by
      intro p hp
      obtain ⟨b, hbm, rfl⟩ := List.mem_map.1 hp
      have hb' := hb b hbm
      obtain ⟨f, v⟩ := h.ofInt b (hb'.trans hB)
      have hr : (0 : ℝ) ≤ (b : ℝ) / 255 := by positivity
      have hr1 : (b : ℝ) / 255 ≤ 1 := by rw [div_le_one (by norm_num)]; exact_mod_cast hb'
      have e255 : R.val (ops.ofInt 255) = 255 := by exact_mod_cast h255.2
      obtain ⟨x, y⟩ := h.div (ops.ofInt (b : Int)) (ops.ofInt 255) f h255.1 (by rw [e255]; norm_num) (by rw [v, e255, abs_of_nonneg hr]; exact hr1.trans h.room)
      rw [v, e255] at y
      exact ⟨x, by simpa using y⟩)
  have e1 : (bytes.map fun (b : Nat) => (ops.div (ops.ofInt (b : Int)) (ops.ofInt 255), (b : ℝ) / 255)).map Prod.snd = bytes.map fun (b : Nat) => (b : ℝ) / 255 := by rw [List.map_map]; rfl
  have e2 : (bytes.map fun (b : Nat) => (ops.div (ops.ofInt (b : Int)) (ops.ofInt 255), (b : ℝ) / 255)).map Prod.fst = bytes.map fun (b : Nat) => ops.div (ops.ofInt (b : Int)) (ops.ofInt 255) := by rw [List.map_map]; rfl
  rw [e1, e2, absSum_bytes, List.length_map] at key
  simp only [zero_add] at key
  refine ⟨le_of_eq (abs_of_nonneg h0), mul_nonneg (pow_u_pos _).le (mul_nonneg (Nat.cast_nonneg _) P.hη), ?_⟩
  refine (key ?_)
  refine le_trans ?_ hM
  have := mul_le_mul_of_nonneg_left (bytes_le bytes hb) (pow_u_pos (P := P) (bytes.length + 1)).le
  linarith

theorem soft_mean (h : TreeArith R P B ops) (hB : 255 ≤ B) (bytes : List Nat) (hne : bytes ≠ []) (hN : bytes.length ≤ B) (hb : ∀ b ∈ bytes, b ≤ 255) (hM : SoftFits P bytes.length) :
    Close R (softErrAt P bytes.length (softMean bytes)) (ops.div ((bytes.map fun (b : Nat) => ops.div (ops.ofInt (b : Int)) (ops.ofInt 255)).foldl ops.add ops.zero) (ops.ofInt bytes.length)) (softMean bytes) := by
  have h1 := soft_total h hB bytes hb hM
  have hp : 0 < bytes.length := List.length_pos_iff.2 hne
  have hpR : (0 : ℝ) < bytes.length := by exact_mod_cast hp
  have h2 := (mean_apx h h1 hp hN (by
    refine le_trans ?_ hM
    have := mul_le_mul_of_nonneg_left (bytes_le bytes hb) (pow_u_pos (P := P) (bytes.length + 1)).le
    linarith)).close
  have e : softMean bytes = (bytes.map fun (b : Nat) => (b : ℝ) / 255).sum / bytes.length := by unfold softMean meanOf; rw [List.length_map]
  rw [e]
  refine h2.mono (le_of_eq ?_)
  unfold softErrAt
  rw [show (1 + P.u) ^ bytes.length * (bytes.length * P.η) / bytes.length = (1 + P.u) ^ bytes.length * P.η by field_simp, pow_succ (1 + P.u) bytes.length]
  ring

/-- **C103** (soft voting, probabilities) in `float` arithmetic each class probability is the mean over the trees of (leaf byte)/255 up to `N + 2` roundings. -/
theorem C103_soft_proba (h : TreeArith R P B ops) (hB : 255 ≤ B) (m : CModel) (features : List Int) (idxs : List Nat) (row : Nat → Nat → Nat)
    (hlb : m.leafBits = 8) (hne : m.roots ≠ []) (hN : m.roots.length ≤ B) (hM : SoftFits P m.roots.length)
    (htrees : List.Forall₂ (fun root (leaf : Nat) => m.tree features root = some (leaf : Int)) m.roots idxs)
    (hrows : ∀ i ∈ idxs, ∀ c, c < m.nClasses.toNat → m.leaves[i * m.nClasses.toNat + c]? = some (row i c)) (hbyte : ∀ i c, row i c ≤ 255) :
    ∃ out, predictProba ops m features m.nClasses = some (.ok out) ∧ out.length = m.nClasses.toNat ∧
      ∀ c p, out[c]? = some p → R.fin p ∧ |R.val p - softMean (idxs.map fun i => row i c)| ≤ softErrAt P idxs.length (softMean (idxs.map fun i => row i c)) := by
  have hlen : m.roots.length = idxs.length := htrees.length_eq
  have hi : idxs ≠ [] := by rintro rfl; exact hne (List.length_eq_zero_iff.1 hlen)
  have hf := soft_fold ops m features idxs htrees (List.replicate m.nClasses.toNat ops.zero)
  rw [replicate_range, soft_sum_any ops m.leaves _ row idxs _ hrows] at hf
  refine ⟨((List.range m.nClasses.toNat).map fun c => (idxs.map fun i => ops.div (ops.ofInt (row i c)) (ops.ofInt 255)).foldl ops.add ops.zero).map fun x => ops.div x (ops.ofInt m.roots.length), ?_, by simp, ?_⟩
  · unfold predictProba
    simp only [ne_eq, not_true_eq_false, if_false, hlb, if_true]
    rw [if_neg (by omega), replicate_range, hf]
    rfl
  · intro c p hp
    rw [List.getElem?_map, List.getElem?_map] at hp
    obtain ⟨x, hx, rfl⟩ := Option.map_eq_some_iff.1 hp
    obtain ⟨d, hd, rfl⟩ := Option.map_eq_some_iff.1 hx
    obtain ⟨hc, rfl⟩ := List.getElem?_eq_some_iff.1 hd
    rw [List.getElem_range, hlen]
    have key := soft_mean h hB (idxs.map fun i => row i c) (by simpa using hi) (by simpa [hlen] using hN) (by
      intro b hb
      obtain ⟨i, _, rfl⟩ := List.mem_map.1 hb
      exact hbyte i c) (by simpa [hlen] using hM)
    rw [List.length_map, List.map_map] at key
    exact key

/-- The arg-max loop over machine numbers. -/
theorem argmax_machine (h : TreeArith R P B ops) (vs : List F) (hf : ∀ v ∈ vs, R.fin v) :
    (argmaxLoop ops.lt vs 0 (-1) ops.zero = -1 ∧ ∀ v ∈ vs, R.val v ≤ 0) ∨
    ∃ c v, argmaxLoop ops.lt vs 0 (-1) ops.zero = ((c : Nat) : Int) ∧ vs[c]? = some v ∧ 0 < R.val v ∧ (∀ (j : Nat) (w : F), vs[j]? = some w → R.val w ≤ R.val v) ∧ ∀ (j : Nat) (w : F), j < c → vs[j]? = some w → R.val w < R.val v := by
  have key : ∀ (l : List F), (∀ v ∈ l, R.fin v) → ∀ (i : Nat) (best : Int) (bv : F), R.fin bv →
      argmaxLoop ops.lt l i best bv = argmaxLoop (fun a b => decide (a < b)) (l.map R.val) i best (R.val bv) := by
    intro l
    induction l with
    | nil => intros; rfl
    | cons v l ih =>
      intro hl i best bv hbv
      have hv := hl v (by simp)
      simp only [List.map_cons, argmaxLoop]
      have e := h.lt bv v hbv hv
      by_cases hlt : R.val bv < R.val v
      · rw [if_pos (e.2 hlt), if_pos (by simpa using hlt)]
        exact ih (fun u hu => hl u (by simp [hu])) _ _ _ hv
      · rw [if_neg (fun h' => hlt (e.1 h')), if_neg (by simpa using hlt)]
        exact ih (fun u hu => hl u (by simp [hu])) _ _ _ hbv
  rw [key vs hf 0 (-1) ops.zero h.zero.1, h.zero.2]
  rcases argmaxLoop_spec (vs.map R.val) 0 (-1) 0 with ⟨a, b⟩ | ⟨c, a, v, hv, hpos, hmax, hfirst⟩
  · exact Or.inl ⟨a, fun v hv => b _ (List.mem_map_of_mem hv)⟩
  · right
    rw [List.getElem?_map] at hv
    obtain ⟨w, hw, rfl⟩ := Option.map_eq_some_iff.1 hv
    exact ⟨c, w, by rw [a]; simp, hw, hpos, fun j u hu => hmax j _ (by rw [List.getElem?_map, hu]; rfl), fun j u hj hu => hfirst j _ hj (by rw [List.getElem?_map, hu]; rfl)⟩

/-- The arg-max of approximate scores: the chosen class is within `2δ` of the best; a class that leads by more is chosen; nothing is chosen only if all scores are at most `δ`. -/
theorem argmax_near (h : TreeArith R P B ops) {n : Nat} {δ : ℝ} {vs : List F} {score : Nat → ℝ} (hl : vs.length = n) (hv : ∀ c v, vs[c]? = some v → Close R δ v (score c)) :
    ((argmaxLoop ops.lt vs 0 (-1) ops.zero = -1 ∧ ∀ c, c < n → score c ≤ δ) ∨
      ∃ c : Nat, argmaxLoop ops.lt vs 0 (-1) ops.zero = c ∧ c < n ∧ ∀ d, d < n → score d ≤ score c + 2 * δ) ∧
    ∀ c, c < n → δ < score c → (∀ d, d < n → d ≠ c → score d + 2 * δ < score c) → argmaxLoop ops.lt vs 0 (-1) ops.zero = c := by
  have get : ∀ d, d < n → ∃ w, vs[d]? = some w ∧ Close R δ w (score d) := by
    intro d hd
    have : d < vs.length := by omega
    exact ⟨vs[d], List.getElem?_eq_getElem this, hv d _ (List.getElem?_eq_getElem this)⟩
  have hfin : ∀ v ∈ vs, R.fin v := by
    intro v hm
    obtain ⟨c, hc⟩ := List.mem_iff_getElem?.1 hm
    exact (hv c v hc).1
  rcases argmax_machine h vs hfin with ⟨e, hall⟩ | ⟨c, v, e, hc, hpos, hmax, _⟩
  · have small : ∀ c, c < n → score c ≤ δ := by
      intro c hcn
      obtain ⟨w, hw, hcl⟩ := get c hcn
      have h1 := hall w (List.mem_of_getElem? hw)
      have h2 := abs_le.1 hcl.2
      linarith [h2.1]
    refine ⟨Or.inl ⟨e, small⟩, ?_⟩
    intro c hcn hlt _
    exact absurd (small c hcn) (not_le.2 hlt)
  · have hcn : c < n := by rw [← hl]; exact (List.getElem?_eq_some_iff.1 hc).1
    have best : ∀ d, d < n → score d ≤ score c + 2 * δ := by
      intro d hd
      obtain ⟨w, hw, hcl⟩ := get d hd
      have h1 := hmax d w hw
      have h2 := abs_le.1 hcl.2
      have h3 := abs_le.1 (hv c v hc).2
      linarith [h2.1, h3.2]
    refine ⟨Or.inr ⟨c, e, hcn, best⟩, ?_⟩
    intro d hd _ hlead
    rw [e]
    by_contra hne
    have hcd : c ≠ d := fun h' => hne (by rw [h'])
    have := hlead c hcn hcd
    have := best d hd
    linarith

/-- The error of a soft probability, whatever it is. -/
noncomputable def softErrAll (P : Accuracy) (N : Nat) : ℝ := softErrAt P N 1

theorem softErrAt_le (N : Nat) {p : ℝ} (h1 : p ≤ 1) : softErrAt P N p ≤ softErrAll P N := by
  unfold softErrAll softErrAt
  have := mul_le_mul_of_nonneg_left h1 (sub_nonneg.2 (one_le_pow_u (P := P) (N + 2)))
  linarith

/-- **C103** (soft voting, class) in `float` arithmetic `eml_trees_predict()` chooses a class whose mean byte fraction is within twice the error of the largest; a class that leads by more than that is chosen; it answers -1 only if no class exceeds the error. -/
theorem C103_soft_predict (h : TreeArith R P B ops) (hB : 255 ≤ B) (m : CModel) (features : List Int) (idxs : List Nat) (row : Nat → Nat → Nat)
    (hlb : m.leafBits = 8) (hnc : m.nClasses ≤ 30) (hne : m.roots ≠ []) (hN : m.roots.length ≤ B) (hM : SoftFits P m.roots.length)
    (htrees : List.Forall₂ (fun root (leaf : Nat) => m.tree features root = some (leaf : Int)) m.roots idxs)
    (hrows : ∀ i ∈ idxs, ∀ c, c < m.nClasses.toNat → m.leaves[i * m.nClasses.toNat + c]? = some (row i c)) (hbyte : ∀ i c, row i c ≤ 255) :
    ∃ r, predict ops m features m.nFeatures = some r ∧
      ((r = -1 ∧ ∀ c, c < m.nClasses.toNat → softMean (idxs.map fun i => row i c) ≤ softErrAll P idxs.length) ∨
        ∃ c : Nat, r = c ∧ c < m.nClasses.toNat ∧ ∀ d, d < m.nClasses.toNat → softMean (idxs.map fun i => row i d) ≤ softMean (idxs.map fun i => row i c) + 2 * softErrAll P idxs.length) ∧
      ∀ c : Nat, c < m.nClasses.toNat → softErrAll P idxs.length < softMean (idxs.map fun i => row i c) →
        (∀ d, d < m.nClasses.toNat → d ≠ c → softMean (idxs.map fun i => row i d) + 2 * softErrAll P idxs.length < softMean (idxs.map fun i => row i c)) → r = c := by
  obtain ⟨out, h1, hlen, h2⟩ := C103_soft_proba h hB m features idxs row hlb hne hN hM htrees hrows hbyte
  refine ⟨argmaxLoop ops.lt out 0 (-1) ops.zero, ?_, ?_⟩
  · unfold predict
    rw [if_neg (by simp), if_neg (by omega), h1]
  · refine argmax_near h (score := fun c => softMean (idxs.map fun i => row i c)) hlen ?_
    intro c v hv
    obtain ⟨a, b⟩ := h2 c v hv
    refine ⟨a, b.trans (softErrAt_le _ (softMean_range _ ?_).2)⟩
    intro b hb
    obtain ⟨i, _, rfl⟩ := List.mem_map.1 hb
    exact hbyte i c

/-- The error of an unnormalised soft vote of `N` trees, divided by `N`. -/
noncomputable def sumErrAll (P : Accuracy) (N : Nat) : ℝ := (1 + P.u) ^ (N + 1) - 1 + (1 + P.u) ^ N * P.η

/-- **C103** (inline soft voting, class) the inline classifier compares the sums without dividing; it too chooses a class whose mean is within twice its error of the largest. -/
theorem C103_inline_soft_predict {Θ : Type} (h : TreeArith R P B ops) (hB : 255 ≤ B) (go : Int → Θ → Bool) (trees : List (Stmt Θ Nat)) (leaves : List Nat) (n : Nat) (row : Nat → Nat → Nat)
    (hne : trees ≠ []) (hM : SoftFits P trees.length)
    (hrows : ∀ t ∈ trees, ∀ c, c < n → leaves[t.eval go * n + c]? = some (row (t.eval go) c)) (hbyte : ∀ i c, row i c ≤ 255) :
    ∃ r, inlinePredictSoft ops go trees leaves n = some r ∧
      ((r = -1 ∧ ∀ c, c < n → softMean (trees.map fun t => row (t.eval go) c) ≤ sumErrAll P trees.length) ∨
        ∃ c : Nat, r = c ∧ c < n ∧ ∀ d, d < n → softMean (trees.map fun t => row (t.eval go) d) ≤ softMean (trees.map fun t => row (t.eval go) c) + 2 * sumErrAll P trees.length) ∧
      ∀ c : Nat, c < n → sumErrAll P trees.length < softMean (trees.map fun t => row (t.eval go) c) →
        (∀ d, d < n → d ≠ c → softMean (trees.map fun t => row (t.eval go) d) + 2 * sumErrAll P trees.length < softMean (trees.map fun t => row (t.eval go) c)) → r = c := by
  have hs := soft_sum_any ops leaves n row (trees.map (Stmt.eval go)) (fun _ => ops.zero) (by
    intro i hi c hc
    obtain ⟨t, ht, rfl⟩ := List.mem_map.1 hi
    exact hrows t ht c hc)
  rw [← replicate_range, List.foldlM_map] at hs
  have hpos : (0 : ℝ) < trees.length := by exact_mod_cast List.length_pos_iff.2 hne
  have e1 : trees.foldlM (inlineSoftVote ops go leaves n) (List.replicate n ops.zero) = some ((List.range n).map fun c => ((trees.map (Stmt.eval go)).map fun i => ops.div (ops.ofInt (row i c)) (ops.ofInt 255)).foldl ops.add ops.zero) := by
    rw [← hs]
    refine congrArg (fun f => List.foldlM f (List.replicate n ops.zero) trees) ?_
    funext o t
    unfold inlineSoftVote
    rw [Nat.mul_comm]
    rfl
  unfold inlinePredictSoft
  rw [e1]
  refine ⟨_, rfl, ?_⟩
  have near := argmax_near h (n := n) (δ := trees.length * sumErrAll P trees.length) (vs := (List.range n).map fun c => ((trees.map (Stmt.eval go)).map fun i => ops.div (ops.ofInt (row i c)) (ops.ofInt 255)).foldl ops.add ops.zero)
    (score := fun c => trees.length * softMean (trees.map fun t => row (t.eval go) c)) (by simp) (by
      intro c v hv
      rw [List.getElem?_map] at hv
      obtain ⟨d, hd, rfl⟩ := Option.map_eq_some_iff.1 hv
      obtain ⟨hc, rfl⟩ := List.getElem?_eq_some_iff.1 hd
      rw [List.getElem_range]
      have hb : ∀ b ∈ (trees.map (Stmt.eval go)).map fun i => row i c, b ≤ 255 := by
        intro b hb
        obtain ⟨i, _, rfl⟩ := List.mem_map.1 hb
        exact hbyte i c
      have key := (soft_total h hB ((trees.map (Stmt.eval go)).map fun i => row i c) hb (by simpa using hM)).close
      have el : ((trees.map (Stmt.eval go)).map fun i => row i c).length = trees.length := by simp
      have es : (trees.length : ℝ) * softMean (trees.map fun t => row (t.eval go) c) = (((trees.map (Stmt.eval go)).map fun i => row i c).map fun (b : Nat) => (b : ℝ) / 255).sum := by
        unfold softMean meanOf
        rw [List.length_map, List.length_map, mul_div_cancel₀ _ hpos.ne', List.map_map (l := trees) (f := Stmt.eval go)]
        rfl
      have hle := bytes_le _ hb
      rw [el] at key hle
      rw [es, show ((trees.map (Stmt.eval go)).map fun i => ops.div (ops.ofInt (row i c)) (ops.ofInt 255)) = ((trees.map (Stmt.eval go)).map fun i => row i c).map fun (b : Nat) => ops.div (ops.ofInt (b : Int)) (ops.ofInt 255) by rw [List.map_map (f := fun i => row i c)]; rfl]
      refine key.mono ?_
      unfold sumErrAll
      have := mul_le_mul_of_nonneg_left hle (sub_nonneg.2 (one_le_pow_u (P := P) (trees.length + 1)))
      nlinarith)
  have cancel : ∀ a b c : ℝ, (trees.length : ℝ) * a ≤ trees.length * b + 2 * (trees.length * c) ↔ a ≤ b + 2 * c := by
    intro a b c
    rw [show (trees.length : ℝ) * b + 2 * (trees.length * c) = trees.length * (b + 2 * c) by ring]
    exact mul_le_mul_iff_right₀ hpos
  have cancel2 : ∀ a b c : ℝ, (trees.length : ℝ) * a + 2 * (trees.length * c) < trees.length * b ↔ a + 2 * c < b := by
    intro a b c
    rw [show (trees.length : ℝ) * a + 2 * (trees.length * c) = trees.length * (a + 2 * c) by ring]
    exact mul_lt_mul_iff_right₀ hpos
  have cancel3 : ∀ a b : ℝ, (trees.length : ℝ) * a ≤ trees.length * b ↔ a ≤ b := fun a b => mul_le_mul_iff_right₀ hpos
  have cancel4 : ∀ a b : ℝ, (trees.length : ℝ) * a < trees.length * b ↔ a < b := fun a b => mul_lt_mul_iff_right₀ hpos
  simp only [cancel, cancel2, cancel3, cancel4] at near
  exact near

/-! ### binary32 -/

theorem pow_u_linear (k : Nat) (hk : 2 * k * P.u ≤ 1) : (1 + P.u) ^ k ≤ 1 + 2 * k * P.u := by
  induction k with
  | zero => simp
  | succ k ih =>
    have hu := P.hu
    push_cast at hk ⊢
    have h0 : (0 : ℝ) ≤ k := Nat.cast_nonneg k
    have h1 := ih (by nlinarith)
    rw [pow_succ]
    have h2 := mul_le_mul_of_nonneg_right h1 (show 0 ≤ 1 + P.u by linarith)
    have h3 : 2 * k * P.u * P.u ≤ 1 * P.u := mul_le_mul_of_nonneg_right (by nlinarith) hu
    nlinarith

namespace Binary32

/-- The C operations on `float`. -/
noncomputable def treeOps : FOps F32 where
  zero := rnd 0
  one := rnd 1
  add := add
  mul := mul
  div := div
  ofInt k := rnd k
  lt a b := decide (a.val < b.val)

theorem fl_nat (k : Nat) (hk : k < 2 ^ 24) : fl k = k := by
  have := fl_exact (k : ℤ) 0 (by rw [abs_of_nonneg (by positivity)]; exact_mod_cast hk) (by norm_num)
  simpa using this

theorem nat_fin (k : Nat) (hk : k < 2 ^ 24) : |(k : ℝ)| ≤ maxFinite := by
  rw [abs_of_nonneg (by positivity)]
  refine le_trans ?_ big
  have : (k : ℝ) < 2 ^ 24 := by exact_mod_cast hk
  exact this.le.trans (by norm_num)

theorem treeArith : TreeArith fmt acc (2 ^ 24 - 1) treeOps where
  zero := netArith.zero
  one := netArith.one
  add := addOk
  div := divOk
  ofInt k hk := by
    have e : fl ((k : ℤ) : ℝ) = k := by rw [Int.cast_natCast]; exact fl_nat k (by omega)
    refine ⟨?_, e⟩
    show |fl ((k : ℤ) : ℝ)| ≤ _
    rw [e]
    exact nat_fin k (by omega)
  count a k _ hv hk := by
    have e : fl (a.val + (rnd 1).val) = (k + 1 : Nat) := by
      show fl (a.val + fl 1) = _
      have hv' : a.val = k := hv
      rw [fl_one, hv', ← fl_nat (k + 1) (by omega)]
      push_cast
      rfl
    refine ⟨?_, e⟩
    show |fl (a.val + (rnd 1).val)| ≤ _
    rw [e]
    exact nat_fin (k + 1) (by omega)
  divZero k _ _ := by
    show rnd ((rnd 0).val / (rnd k).val) = rnd 0
    have : (rnd 0).val = 0 := fl_zero
    rw [this, zero_div]
  lt a b _ _ := by
    show decide (a.val < b.val) = true ↔ _
    rw [decide_eq_true_eq]
    rfl
  room := by
    show (1 : ℝ) ≤ maxFinite
    exact le_trans (by norm_num) big

theorem sep32 {N : Nat} (hN : N ≤ 2 ^ 22) : 2 * (acc.u + acc.η) * N < 1 := by
  have h : (N : ℝ) ≤ 2 ^ 22 := by exact_mod_cast hN
  have h0 : (0 : ℝ) ≤ 2 * (acc.u + acc.η) := by have := acc.hu; have := acc.hη; linarith
  refine (mul_le_mul_of_nonneg_left h h0).trans_lt ?_
  show 2 * (1 / 2 ^ 24 + 1 / 2 ^ 150) * 2 ^ 22 < (1 : ℝ)
  norm_num

/-- **C103** (binary32, hard voting) the forest converted from well-formed trees with class leaves, up to four million of them, predicts in binary32 exactly the plurality of the classes its source trees predict. -/
theorem C103_converted_plurality {Θ V : Type} (zero : Θ) (leafVal : V → Nat) (quant : Θ → Int) (trees : List (List (SrcNode Θ V))) (hne : trees ≠ []) (hwf : ∀ src ∈ trees, SrcWF src)
    (hN : trees.length ≤ 2 ^ 22) (features : List Int) (nClasses : Nat) (hnc : nClasses ≤ 30) (hleaf : ∀ src ∈ trees, ∀ row ∈ src, leafVal row.value < nClasses) :
    ∃ f, convertForest zero leafVal trees = some f ∧
      ∀ m, Deployed quant f (leafBytesHard f.leaves) 0 nClasses features m →
        ∃ (classes : List Nat) (c : Nat),
          List.Forall₂ (fun src cls => ∃ v, srcPredict (cmpInt features quant) src = some v ∧ leafVal v = cls) trees classes ∧
          predict treeOps m features features.length = some (c : Int) ∧ Plurality classes nClasses c :=
  C07_converted_plurality treeOps (tally treeOps) zero leafVal quant trees hne hwf (voteLaws treeArith (List.length_pos_iff.2 hne) (by omega) (sep32 hN)) features nClasses hnc hleaf

theorem pow32 {k : Nat} (hk : k ≤ 2 ^ 23) : (1 + acc.u) ^ k ≤ 1 + k / 2 ^ 23 := by
  have h : (k : ℝ) ≤ 2 ^ 23 := by exact_mod_cast hk
  have e : acc.u = 1 / 2 ^ 24 := rfl
  have := pow_u_linear (P := acc) k (by rw [e]; linarith)
  rw [e] at this ⊢
  linarith

/-- **C103** (binary32, regression) with at most four million trees the mean is off by at most `(T+1)/2^23` of the mean magnitude, plus half the smallest subnormal. -/
theorem C103_regress32 (m : CModel) (leafFloat : Nat → Option F32) (features : List Int) (vals : List F32) (n : Int)
    (hn : 1 ≤ n) (hlb : m.leafBits = 32) (hne : m.roots ≠ []) (hN : m.roots.length ≤ 2 ^ 22)
    (htrees : List.Forall₂ (fun root v => ∃ leaf : Nat, m.tree features root = some (leaf : Int) ∧ leafFloat leaf = some v) m.roots vals)
    (hsmall : ∀ v ∈ vals, |v.val| ≤ 2 ^ 70) :
    ∃ y, regress treeOps m leafFloat features n = some (.ok y) ∧
      |y.val - meanOf (vals.map F32.val)| ≤ (vals.length + 1) / 2 ^ 23 * absMean (vals.map F32.val) + 1 / 2 ^ 150 := by
  have hlen : m.roots.length = vals.length := htrees.length_eq
  have hN' : vals.length ≤ 2 ^ 22 := hlen ▸ hN
  have hsum : ∀ l : List F32, (∀ v ∈ l, |v.val| ≤ 2 ^ 70) → absSum (l.map F32.val) ≤ l.length * 2 ^ 70 := by
    intro l
    induction l with
    | nil => simp [absSum]
    | cons v l ih =>
      intro hl
      have := ih fun u hu => hl u (by simp [hu])
      have := hl v (by simp)
      rw [List.map_cons, absSum_cons, List.length_cons]
      push_cast
      linarith
  have hp := pow32 (k := vals.length) (by omega)
  have hp1 := pow32 (k := vals.length + 1) (by omega)
  have hNR : (vals.length : ℝ) ≤ 2 ^ 22 := by exact_mod_cast hN'
  have hl0 : (0 : ℝ) ≤ vals.length := Nat.cast_nonneg _
  obtain ⟨y, h1, _, h2⟩ := C103_regress treeArith m leafFloat features vals n hn hlb hne (by omega) htrees
    (fun v hv => (hsmall v hv).trans (le_trans (by norm_num) big)) (by
      refine (mul_le_mul hp (hsum vals hsmall) (absSum_nonneg _) (by positivity)).trans (le_trans ?_ big)
      have a1 : (1 : ℝ) + vals.length / 2 ^ 23 ≤ 2 := by linarith
      have a2 : (vals.length : ℝ) * 2 ^ 70 ≤ 2 ^ 22 * 2 ^ 70 := mul_le_mul_of_nonneg_right hNR (by positivity)
      refine (mul_le_mul a1 a2 (by positivity) (by norm_num)).trans ?_
      norm_num)
  refine ⟨y, h1, h2.trans ?_⟩
  have h0 : 0 ≤ absMean (vals.map F32.val) := div_nonneg (absSum_nonneg _) (Nat.cast_nonneg _)
  have h3 : (1 + acc.u) ^ (vals.length + 1) - 1 ≤ (vals.length + 1) / 2 ^ 23 := by
    push_cast at hp1
    linarith
  have := mul_le_mul_of_nonneg_right h3 h0
  exact add_le_add this (le_refl acc.η)

theorem softFits32 {N : Nat} (hN : N ≤ 2 ^ 22) : SoftFits acc N := by
  have h : (N : ℝ) ≤ 2 ^ 22 := by exact_mod_cast hN
  have h0 : (0 : ℝ) ≤ N := Nat.cast_nonneg _
  have p1 := pow32 (k := N + 1) (by omega)
  have p2 := pow32 (k := N) (by omega)
  push_cast at p1
  have q1 : (1 + acc.u) ^ (N + 1) ≤ 2 := by linarith
  have q2 : (1 + acc.u) ^ N ≤ 2 := by linarith
  unfold SoftFits
  refine le_trans ?_ big
  have e : acc.η = 1 / 2 ^ 150 := rfl
  rw [e]
  have a1 := mul_le_mul q1 h h0 (by norm_num)
  have a2 := mul_le_mul q2 (mul_le_mul_of_nonneg_right h (show (0 : ℝ) ≤ 1 / 2 ^ 150 by positivity)) (by positivity) (by norm_num)
  refine (add_le_add a1 a2).trans ?_
  norm_num

/-- **C103** (binary32, soft voting) the errors of soft probabilities and of inline sums for up to four million trees; they decide predictions unless two classes are closer than twice that. -/
theorem C103_soft_err32 {N : Nat} (hN : N ≤ 2 ^ 22) : SoftFits acc N ∧ softErrAll acc N ≤ (N + 3) / 2 ^ 23 ∧ sumErrAll acc N ≤ (N + 2) / 2 ^ 23 := by
  have h : (N : ℝ) ≤ 2 ^ 22 := by exact_mod_cast hN
  have p0 := pow32 (k := N) (by omega)
  have p1 := pow32 (k := N + 1) (by omega)
  have p2 := pow32 (k := N + 2) (by omega)
  push_cast at p1 p2
  have e : acc.η = 1 / 2 ^ 150 := rfl
  have q1 : (1 + acc.u) ^ (N + 1) ≤ 2 := by linarith
  have q2 : (1 + acc.u) ^ N ≤ 2 := by linarith
  have z : (0 : ℝ) ≤ 1 / 2 ^ 150 := by positivity
  have s : (3 : ℝ) * (1 / 2 ^ 150) ≤ 1 / 2 ^ 23 := by norm_num
  refine ⟨softFits32 hN, ?_, ?_⟩
  · unfold softErrAll softErrAt
    rw [e, mul_one]
    have := mul_le_mul_of_nonneg_right (add_le_add q1 (le_refl (1 : ℝ))) z
    linarith
  · unfold sumErrAll
    rw [e]
    have := mul_le_mul_of_nonneg_right q2 z
    linarith

/-! ### Examples -/

/-- Two stumps that both ask feature 0 and disagree; two features, three classes, one row of bytes per leaf. -/
def exSoft : CModel := ⟨[⟨0, 10, -1, -2⟩, ⟨0, 3, -1, -2⟩], [0, 1], [255, 0, 0, 51, 204, 0], 8, 2, 3⟩

/-- The hypotheses of the soft-voting claims, met by it: for feature value 5 the trees reach leaves 0 and 1; class 0 has mean 0.6, class 1 0.4, and class 0 is predicted in binary32. -/
example : predict treeOps exSoft [5, 0] 2 = some 0 := by
  obtain ⟨r, h1, _, h2⟩ := C103_soft_predict treeArith (by norm_num) exSoft [5, 0] [0, 1] (fun i c => [255, 0, 0, 51, 204, 0].getD (i * 3 + c) 0) rfl (by decide) (by simp [exSoft]) (by simp [exSoft]) (softFits32 (by simp [exSoft]))
    (.cons (by decide) (.cons (by decide) .nil)) (by decide) (by
      intro i c
      generalize i * 3 + c = k
      rcases k with _ | _ | _ | _ | _ | _ | k <;> simp)
  have e := (C103_soft_err32 (N := 2) (by norm_num)).2.1
  have hs : softErrAll acc 2 ≤ 1 / 1000 := e.trans (by norm_num)
  refine h1.trans (congrArg some (h2 0 (by decide) ?_ ?_))
  · refine lt_of_le_of_lt hs ?_
    simp [softMean, meanOf]
    norm_num
  · intro d hd hne
    have hs' : softErrAll acc [0, 1].length ≤ 1 / 1000 := hs
    have : d = 1 ∨ d = 2 := by have : d < 3 := hd; omega
    rcases this with rfl | rfl
    · simp [softMean, meanOf] at hs' ⊢
      norm_num
      linarith
    · simp [softMean, meanOf] at hs' ⊢
      norm_num
      linarith

/-- Two stumps with `float` leaves 1 and 2. -/
def exReg : CModel := ⟨[⟨0, 10, -1, -2⟩, ⟨0, 3, -1, -2⟩], [0, 1], [], 32, 2, 0⟩

/-- The hypotheses of the regression claim, met by it: the answer is 1.5 up to a few roundings. -/
example : ∃ y, regress treeOps exReg (fun i => [rnd 1, rnd 2][i]?) [5, 0] 1 = some (.ok y) ∧ |y.val - 3 / 2| ≤ 1 / 1000000 := by
  have e1 : fl 1 = 1 := fl_one
  have e2 : fl 2 = 2 := by simpa using fl_nat 2 (by norm_num)
  obtain ⟨y, h1, h2⟩ := C103_regress32 exReg (fun i => [rnd 1, rnd 2][i]?) [5, 0] [rnd 1, rnd 2] 1 (by norm_num) rfl (by simp [exReg]) (by simp [exReg])
    (.cons ⟨0, by decide, rfl⟩ (.cons ⟨1, by decide, rfl⟩ .nil)) (by
      intro v hv
      simp only [List.mem_cons, List.not_mem_nil, or_false] at hv
      rcases hv with rfl | rfl
      · show |fl 1| ≤ _
        rw [e1]; norm_num
      · show |fl 2| ≤ _
        rw [e2]; norm_num)
  refine ⟨y, h1, ?_⟩
  have m1 : meanOf ([rnd 1, rnd 2].map F32.val) = 3 / 2 := by
    show meanOf [fl 1, fl 2] = _
    rw [e1, e2]; norm_num [meanOf]
  have m2 : absMean ([rnd 1, rnd 2].map F32.val) = 3 / 2 := by
    show absMean [fl 1, fl 2] = _
    rw [e1, e2]; norm_num [absMean, absSum]
  rw [m1, m2] at h2
  refine h2.trans ?_
  norm_num

/-- The hypotheses of the hard-voting claim, met by the model of `TreesInfer`: both trees vote for class 7. -/
example : predict treeOps exModel [5, 0] 2 = some 7 := by
  obtain ⟨_, c, h1, hc, h2, _⟩ := C103_hard_vote treeArith exModel [5, 0] [7, 7] (by simp [exModel]) (sep32 (by simp [exModel])) rfl (by decide) (by simp [exModel])
    (.cons ⟨0, by decide, rfl⟩ (.cons ⟨0, by decide, rfl⟩ .nil)) (by decide)
  have hc9 : c < 9 := hc
  have := h2 7 (by decide)
  have e : c = 7 := by
    by_contra hne
    have : List.count c [7, 7] = 0 := by simp [Ne.symm hne]
    rw [this] at h2
    simpa using h2 7 (by decide)
  rw [e] at h1
  exact h1

/-- The hypotheses of the inline claims, met by two one-leaf trees whose printed constants are off by 0.25. -/
example : |(inlineRegress treeOps (fun (_ : Int) (_ : Int) => true) [.ret (rnd 1), .ret (rnd 2)]).val - 3 / 2| ≤ 3 / 10 := by
  have e1 : fl 1 = 1 := fl_one
  have e2 : fl 2 = 2 := by simpa using fl_nat 2 (by norm_num)
  have f1 : fmt.fin (rnd 1) := by show |fl 1| ≤ _; rw [e1]; exact le_trans (by norm_num) big
  have f2 : fmt.fin (rnd 2) := by show |fl 2| ≤ _; rw [e2]; exact le_trans (by norm_num) big
  have p := pow32 (k := 3) (by norm_num)
  have p2 := pow32 (k := 2) (by norm_num)
  have h := (C103_inline_regress treeArith (fun (_ : Int) (_ : Int) => true) [.ret (rnd 1), .ret (rnd 2)] [5 / 4, 7 / 4] (1 / 4) (by simp) (by simp)
    (.cons ⟨f1, by show |fl 1 - 5 / 4| ≤ _; rw [e1]; norm_num⟩ (.cons ⟨f2, by show |fl 2 - 7 / 4| ≤ _; rw [e2]; norm_num⟩ .nil)) (by
      refine le_trans ?_ big
      refine (mul_le_mul_of_nonneg_right p2 (add_nonneg (absSum_nonneg _) (by norm_num))).trans ?_
      norm_num [absSum])).2
  have m1 : meanOf [5 / 4, 7 / 4] = 3 / 2 := by norm_num [meanOf]
  have m2 : absMean [5 / 4, 7 / 4] = 3 / 2 := by norm_num [absMean, absSum]
  rw [m1, m2] at h
  refine h.trans ?_
  have e : acc.η = 1 / 2 ^ 150 := rfl
  have : (1 + acc.u) ^ ([(5 / 4 : ℝ), 7 / 4].length + 1) - 1 ≤ 3 / 2 ^ 23 := by
    have : (1 + acc.u) ^ 3 ≤ 1 + 3 / 2 ^ 23 := by exact_mod_cast p
    show (1 + acc.u) ^ 3 - 1 ≤ _
    linarith
  rw [e]
  have z : (1 : ℝ) / 2 ^ 150 ≤ 1 / 1000 := by norm_num
  have w : (3 : ℝ) / 2 ^ 23 ≤ 1 / 1000 := by norm_num
  linarith

example : ∃ r, inlinePredictSoft treeOps (fun (_ : Int) (_ : Int) => true) [.ret 1, .ret 0] [255, 0, 0, 51, 204, 0] 3 = some r := by
  obtain ⟨r, h, _⟩ := C103_inline_soft_predict treeArith (by norm_num) (fun (_ : Int) (_ : Int) => true) [.ret 1, .ret 0] [255, 0, 0, 51, 204, 0] 3 (fun i c => [255, 0, 0, 51, 204, 0].getD (i * 3 + c) 0)
    (by simp) (softFits32 (by simp)) (by
      intro t ht
      simp only [List.mem_cons, List.not_mem_nil, or_false] at ht
      rcases ht with rfl | rfl <;> decide) (by
      intro i c
      generalize i * 3 + c = k
      rcases k with _ | _ | _ | _ | _ | _ | k <;> simp)
  exact ⟨r, h⟩

end Binary32

end Emlearn.Flt
