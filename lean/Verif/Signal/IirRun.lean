/- Running `emlearn/eml_iir.h` on a sequence, in any arithmetic: the interleaved loop over samples and stages is the same as running one stage after the other over the whole sequence. -/
import Verif.Signal.Iir
import Mathlib.Data.List.Basic
import Mathlib.Tactic.ByContra
namespace Emlearn.Iir
variable {K : Type} [Zero K] [Add K] [Sub K] [Mul K]

/-- A second-order section in scipy's convention `[b0, b1, b2, a0, a1, a2]` (`a0` is 1 after normalisation and not used). -/
structure Sos (K : Type) where
  b0 : K
  b1 : K
  b2 : K
  a0 : K
  a1 : K
  a2 : K

def Sos.toList (c : Sos K) : List K := [c.b0, c.b1, c.b2, c.a0, c.a1, c.a2]

/-- The filter generated for the sections `cs`. -/
def ofSections (cs : List (Sos K)) : Filter K :=
  { nStages := cs.length, statesLength := cs.length * 4, coef := (cs.map Sos.toList).flatten, coefLength := cs.length * 6 }

/-- The two state words of a section before time `n`, in the arithmetic of `K` (`eml_iir.h` 20-24). -/
def st (c : Sos K) (x : Nat → K) : Nat → K × K
  | 0 => (0, 0)
  | n + 1 => ((st c x n).2 + c.b1 * x n - c.a1 * ((st c x n).1 + c.b0 * x n), c.b2 * x n - c.a2 * ((st c x n).1 + c.b0 * x n))

/-- The output of a section at time `n`. -/
def stOut (c : Sos K) (x : Nat → K) (n : Nat) : K := (st c x n).1 + c.b0 * x n

/-- The output of a cascade at time `n`. -/
def stCascade (cs : List (Sos K)) (x : Nat → K) : Nat → K := cs.foldl (fun s c => stOut c s) x

/-- The four state words of a section before time `n`. -/
def words (c : Sos K) (x : Nat → K) (n : Nat) : List K := [(st c x n).1, (st c x n).1, (st c x n).2, (st c x n).2]

/-- One section on its own part of the arrays. -/
theorem biquad_eq (c : Sos K) (x : Nat → K) (n : Nat) (pre post prec postc : List K) (k : Nat) (h1 : pre.length = 4 * k) (h2 : prec.length = 6 * k) :
    biquad (pre ++ words c x n ++ post) (prec ++ c.toList ++ postc) (4 * k) (4 * k + 2) (6 * k + 3) (6 * k) (x n)
      = some (stOut c x n, pre ++ words c x (n + 1) ++ post) := by
  have hc : ∀ j (v : K), c.toList[j]? = some v → (prec ++ c.toList ++ postc)[6 * k + j]? = some v := by
    intro j v hv
    rw [List.append_assoc, List.getElem?_append_right (by omega), show 6 * k + j - prec.length = j by omega, List.getElem?_append_left, hv]
    by_contra hcon
    rw [List.getElem?_eq_none (by omega)] at hv; cases hv
  have hs : ∀ j (v : K), (words c x n)[j]? = some v → (pre ++ words c x n ++ post)[4 * k + j]? = some v := by
    intro j v hv
    rw [List.append_assoc, List.getElem?_append_right (by omega), show 4 * k + j - pre.length = j by omega, List.getElem?_append_left, hv]
    by_contra hcon
    rw [List.getElem?_eq_none (by omega)] at hv; cases hv
  have c0 := hc 0 c.b0 rfl
  have c1 := hc 1 c.b1 rfl
  have c2 := hc 2 c.b2 rfl
  have c4 := hc 4 c.a1 rfl
  have c5 := hc 5 c.a2 rfl
  have s1 := hs 1 ((st c x n).1) rfl
  have s3 := hs 3 ((st c x n).2) rfl
  rw [Nat.add_zero] at c0
  unfold biquad
  rw [show 6 * k + 3 + 1 = 6 * k + 4 by omega, show 6 * k + 3 + 2 = 6 * k + 5 by omega, show 4 * k + 2 + 1 = 4 * k + 3 by omega]
  simp only [c0, c1, c2, c4, c5, s1, s3, bind, Option.bind_some, ]
  congr 2
  rw [← h1]
  have hset : ∀ (l : List K) (j : Nat) (v : K), (pre ++ l ++ post).set (pre.length + j) v = if j < l.length then pre ++ l.set j v ++ post else (pre ++ l ++ post).set (pre.length + j) v := by
    intro l j v
    split
    · rename_i hj
      rw [List.append_assoc, List.set_append_right _ _ (by omega), List.append_assoc]
      congr 1
      rw [show pre.length + j - pre.length = j by omega, List.set_append_left _ _ hj]
    · rfl
  have hw : words c x (n + 1) = [(st c x (n + 1)).1, (st c x (n + 1)).1, (st c x (n + 1)).2, (st c x (n + 1)).2] := rfl
  have t1 : (st c x n).2 + c.b1 * x n - c.a1 * ((st c x n).1 + c.b0 * x n) = (st c x (n + 1)).1 := rfl
  have t2 : c.b2 * x n - c.a2 * ((st c x n).1 + c.b0 * x n) = (st c x (n + 1)).2 := rfl
  rw [t1, t2]
  have e0 := hset (words c x n) 0 (st c x (n+1)).1
  rw [if_pos (by simp [words]), Nat.add_zero] at e0
  rw [e0, hset _ 2, if_pos (by simp [words]), hset _ 1, if_pos (by simp [words]), hset _ 3, if_pos (by simp [words]), hw]
  rfl

/-- State array of the whole cascade before time `n`. -/
def allWords : List (Sos K) → (Nat → K) → Nat → List K
  | [], _, _ => []
  | c :: cs, x, n => words c x n ++ allWords cs (stOut c x) n

theorem stageLoop_eq (cs : List (Sos K)) (x : Nat → K) (n : Nat) (pre prec : List K) (k : Nat) (h1 : pre.length = 4 * k) (h2 : prec.length = 6 * k) :
    stageLoop (prec ++ (cs.map Sos.toList).flatten) cs.length k (pre ++ allWords cs x n) (x n)
      = some (stCascade cs x n, pre ++ allWords cs x (n + 1)) := by
  induction cs generalizing x pre prec k with
  | nil => simp [stageLoop, stCascade, allWords]
  | cons c cs ih =>
    have hb := biquad_eq c x n pre (allWords cs (stOut c x) n) prec ((cs.map Sos.toList).flatten) k h1 h2
    simp only [List.length_cons, stageLoop, List.map_cons, List.flatten_cons, allWords]
    rw [← List.append_assoc, ← List.append_assoc, hb]
    simp only [bind, Option.bind_some]
    rw [ih (stOut c x) (pre ++ words c x (n+1)) (prec ++ c.toList) (k+1) (by simp [words]; omega) (by simp [Sos.toList]; omega)]
    simp [stCascade]

theorem allWords_zero (cs : List (Sos K)) (x : Nat → K) : allWords cs x 0 = List.replicate (4 * cs.length) 0 := by
  induction cs generalizing x with
  | nil => rfl
  | cons c cs ih =>
    rw [allWords, ih, List.length_cons, Nat.mul_succ, Nat.add_comm, ← List.replicate_append_replicate]
    rfl

theorem run_from (cs : List (Sos K)) (x : Nat → K) (N n : Nat) :
    run (ofSections cs) (allWords cs x n) ((List.range' n N).map x) = some ((List.range' n N).map (stCascade cs x), allWords cs x (n + N)) := by
  induction N generalizing n with
  | zero => simp [run]
  | succ N ih =>
    rw [List.range'_succ, List.map_cons, run]
    have := stageLoop_eq cs x n [] [] 0 rfl rfl
    simp only [List.nil_append] at this
    rw [show filter (ofSections cs) (allWords cs x n) (x n) = _ from this]
    simp only [bind, Option.bind_some]
    rw [ih (n+1)]
    simp [Nat.add_comm 1 N, Nat.add_assoc]

theorem allWords_length (cs : List (Sos K)) (x : Nat → K) (n : Nat) : (allWords cs x n).length = 4 * cs.length := by
  induction cs generalizing x with
  | nil => rfl
  | cons c cs ih =>
    rw [allWords, List.length_append, ih, List.length_cons]
    simp [words]
    omega

/-- Running a filter from zero states over any sequence is running one section after the other over the whole sequence. -/
theorem run_sections (cs : List (Sos K)) (x : Nat → K) (N : Nat) :
    ∃ states, run (ofSections cs) (List.replicate (4 * cs.length) 0) ((List.range N).map x) = some ((List.range N).map (stCascade cs x), states) ∧ states.length = 4 * cs.length := by
  have := run_from cs x N 0
  rw [allWords_zero, ← List.range_eq_range', Nat.zero_add] at this
  exact ⟨_, this, allWords_length cs x N⟩

end Emlearn.Iir
