/- C58: overlapped windows of the motion example. -/
import Verif.Motion.Windows
import Mathlib.Tactic.Ring
import Mathlib.Tactic.Linarith
namespace Emlearn.Motion
variable {R : Type}

theorem take_set_append (b : List R) (n : Nat) (r : R) (h : n < b.length) : (b.set n r).take (n + 1) = b.take n ++ [r] := by
  rw [List.take_add_one, List.take_set_of_le (by omega)]
  simp [h]

/-- The read loop appends rows to the filled prefix until the window is full or the input ends. -/
theorem readRows_spec (W : Nat) (k : Nat) (s : Win R) (f : Nat) (hf : s.readIndex = f) (hlt : f < W) (hk : W - f ≤ k) (hb : W ≤ s.buffer.length) :
    (W - f ≤ s.stream.length → ∃ (s' : Win R), readRows W k s = some ((W : Int), s') ∧ s'.readIndex = W ∧ s'.buffer.length = s.buffer.length ∧
      s'.stream = s.stream.drop (W - f) ∧ s'.buffer.take W = s.buffer.take f ++ s.stream.take (W - f)) ∧
    (s.stream.length < W - f → ∃ (s' : Win R), readRows W k s = some (((f + s.stream.length : Nat) : Int), s') ∧ s'.readIndex = (f + s.stream.length : Nat) ∧
      s'.buffer.length = s.buffer.length ∧ s'.stream = [] ∧ s'.buffer.take (f + s.stream.length) = s.buffer.take f ++ s.stream) := by
  induction k generalizing s f with
  | zero => omega
  | succ k ih =>
    unfold readRows
    cases hs : s.stream with
    | nil =>
      refine ⟨fun h => by simp at h; omega, fun _ => ⟨s, by simp [hf], by simp [hf], rfl, hs, by simp⟩⟩
    | cons r rest =>
      have hidx : s.readIndex.toNat = f := by omega
      simp only []
      rw [if_pos ⟨by omega, by omega⟩, hidx]
      by_cases hW : f + 1 = W
      · rw [if_pos (by omega)]
        refine ⟨fun _ => ⟨_, by rw [hf, ← hW]; rfl, by simp only []; omega, by simp, ?_, ?_⟩, fun h => by simp at h; omega⟩
        · rw [show W - f = 1 by omega]; simp
        · simp only []
          rw [← hW, take_set_append _ _ _ (by omega), show f + 1 - f = 1 by omega]; simp
      · rw [if_neg (by omega)]
        have := ih { stream := rest, readIndex := s.readIndex + 1, buffer := s.buffer.set f r } (f + 1) (by simp only []; omega) (by omega) (by omega) (by simpa using hb)
        simp only [List.length_set] at this
        refine ⟨fun h => ?_, fun h => ?_⟩
        · obtain ⟨s', h1, h2, h3, h4, h5⟩ := this.1 (by simp at h; clear this; omega)
          clear this
          refine ⟨s', h1, h2, h3, ?_, ?_⟩
          · rw [h4, show W - f = (W - (f + 1)) + 1 by omega]; rfl
          · rw [h5, take_set_append _ _ _ (by omega), show W - f = (W - (f + 1)) + 1 by omega]; simp
        · obtain ⟨s', h1, h2, h3, h4, h5⟩ := this.2 (by simp at h; clear this; omega)
          clear this
          have e : f + (r :: rest).length = f + 1 + rest.length := by simp; omega
          refine ⟨s', by rw [e]; exact h1, by rw [e]; exact h2, h3, h4, ?_⟩
          rw [e, h5, take_set_append _ _ _ (by omega)]; simp

/-- `n` successive calls of `read_overlapped_windows` on the same stream and buffer: the return codes with the buffer after each call. -/
def calls (windowLength hopLength : Int) : Nat → Win R → Option (List (Int × List R))
  | 0, _ => some []
  | n + 1, s => (readOverlapped 7 (windowLength * 6) windowLength hopLength s).bind fun p => (calls windowLength hopLength n p.2).map fun l => (p.1, p.2.buffer) :: l

/-- Rows `a .. a+n-1` of the input. -/
def slice (rows : List R) (a n : Nat) : List R := (rows.drop a).take n

/-- A call when the buffer holds `f` rows starting at row `a` of the input. -/
theorem call_fill (rows : List R) (W H a f : Nat) (s : Win R) (hf : s.readIndex = f) (hlt : f < W) (hb : W ≤ s.buffer.length) (hst : s.stream = rows.drop (a + f))
    (hpre : s.buffer.take f = slice rows a f) (haf : a + f ≤ rows.length) :
    (a + W ≤ rows.length → ∃ (s' : Win R), readOverlapped 7 (W * 6) W H s = some ((W : Int), s') ∧ s'.readIndex = W ∧ s'.buffer.length = s.buffer.length ∧
      s'.stream = rows.drop (a + W) ∧ s'.buffer.take W = slice rows a W) ∧
    (rows.length < a + W → ∃ (s' : Win R), readOverlapped 7 (W * 6) W H s = some (((rows.length - a : Nat) : Int), s') ∧ s'.readIndex = (rows.length - a : Nat) ∧
      s'.buffer.length = s.buffer.length ∧ s'.stream = [] ∧ s'.buffer.take (rows.length - a) = rows.drop a) := by
  have hcall : readOverlapped 7 (W * 6) W H s = readRows W W s := by
    unfold readOverlapped
    rw [if_neg (by omega), if_neg (by omega), if_neg (by omega), if_neg (by omega), if_neg (by omega), if_neg (by omega)]
    rw [show ((W : Int)).toNat = W by omega]
  have hsl : s.stream.length = rows.length - (a + f) := by rw [hst]; simp
  obtain ⟨h1, h2⟩ := readRows_spec W W s f hf hlt (by omega) hb
  rw [hcall]
  refine ⟨fun h => ?_, fun h => ?_⟩
  · obtain ⟨s', e1, e2, e3, e4, e5⟩ := h1 (by clear h1 h2; omega)
    clear h1 h2
    refine ⟨s', e1, e2, e3, ?_, ?_⟩
    · rw [e4, hst, List.drop_drop]; congr 1; omega
    · rw [e5, hpre, hst]
      unfold slice
      rw [show W = f + (W - f) by omega, List.take_add, List.drop_drop]; simp
  · obtain ⟨s', e1, e2, e3, e4, e5⟩ := h2 (by clear h1 h2; omega)
    clear h1 h2
    have e : f + s.stream.length = rows.length - a := by omega
    rw [e] at e1 e2 e5
    refine ⟨s', e1, e2, e3, e4, ?_⟩
    rw [e5, hpre, hst]
    unfold slice
    rw [← List.drop_drop, List.take_append_drop]

/-- A call right after a full window: the buffer is first moved down by the hop. -/
theorem call_full (rows : List R) (W H a : Nat) (hH : 0 < H) (hHW : H ≤ W) (s : Win R) (hf : s.readIndex = W) (hb : W ≤ s.buffer.length) (hst : s.stream = rows.drop (a + W))
    (hpre : s.buffer.take W = slice rows a W) (haf : a + W ≤ rows.length) :
    (a + H + W ≤ rows.length → ∃ (s' : Win R), readOverlapped 7 (W * 6) W H s = some ((W : Int), s') ∧ s'.readIndex = W ∧ s'.buffer.length = s.buffer.length ∧
      s'.stream = rows.drop (a + H + W) ∧ s'.buffer.take W = slice rows (a + H) W) ∧
    (rows.length < a + H + W → ∃ (s' : Win R), readOverlapped 7 (W * 6) W H s = some (((rows.length - (a + H) : Nat) : Int), s') ∧
      s'.readIndex = (rows.length - (a + H) : Nat) ∧
      s'.buffer.length = s.buffer.length ∧ s'.stream = [] ∧ s'.buffer.take (rows.length - (a + H)) = rows.drop (a + H)) := by
  -- the call equals the call on the moved state
  have hml : ((W : Int) - (H : Int)).toNat = W - H := by omega
  have e2 : ((s.buffer.drop H).take (W - H)).length = W - H := by simp; omega
  have hmoved : (s.buffer.drop H).take (W - H) = slice rows (a + H) (W - H) := by
    have := congrArg (List.drop H) hpre
    unfold slice at this ⊢
    rw [List.drop_take, List.drop_take, List.drop_drop] at this
    exact this
  have hlen : ((s.buffer.drop H).take (W - H) ++ s.buffer.drop (W - H)).length = s.buffer.length := by
    rw [List.length_append, e2]; simp; omega
  have hcall : readOverlapped 7 (W * 6) W H s =
      readOverlapped 7 (W * 6) W H { stream := s.stream, readIndex := ((W - H : Nat) : Int), buffer := (s.buffer.drop H).take (W - H) ++ s.buffer.drop (W - H) } := by
    conv_lhs => unfold readOverlapped
    rw [if_neg (by omega), if_neg (by omega), if_neg (by omega), if_neg (by omega), if_neg (by omega), if_pos (by omega)]
    simp only []
    rw [if_pos ⟨by omega, by omega, by omega⟩, hml, show ((H : Nat) : Int).toNat = H by omega, show s.readIndex - (H : Int) = ((W - H : Nat) : Int) by omega]
    unfold readOverlapped
    simp only []
    rw [if_neg (by omega), if_neg (by omega), if_neg (by omega), if_neg (by omega), if_neg (by omega), if_neg (by omega)]
  rw [hcall, ← hlen]
  exact call_fill rows W H (a + H) (W - H) _ rfl (by omega) (by rw [hlen]; exact hb) (by rw [hst]; congr 1; omega)
    (by simp only []; rw [List.take_append_of_le_length (by omega), List.take_of_length_le (by omega)]; exact hmoved) (by omega)

/-- State after `k` full windows (`k ≥ 1`: the last one starts at `(k-1)*H`). -/
def FullAt (rows : List R) (W H B k : Nat) (s : Win R) : Prop :=
  s.readIndex = W ∧ s.buffer.length = B ∧ s.stream = rows.drop (k * H + W) ∧ s.buffer.take W = slice rows (k * H) W

theorem calls_full (rows : List R) (W H B : Nat) (hH : 0 < H) (hHW : H ≤ W) (hB : W ≤ B) (n k : Nat) (s : Win R) (hs : FullAt rows W H B k s)
    (hn : (k + n) * H + W ≤ rows.length) :
    ∃ (l : List (Int × List R)), calls W H n s = some l ∧ l.length = n ∧ ∀ j < n, ∃ (b : List R), l[j]? = some ((W : Int), b) ∧ b.take W = slice rows ((k + 1 + j) * H) W := by
  induction n generalizing k s with
  | zero => exact ⟨[], rfl, rfl, by omega⟩
  | succ n ih =>
    obtain ⟨h1, h2, h3, h4⟩ := hs
    have m1 : (k + (n + 1)) * H = k * H + H + n * H := by ring
    obtain ⟨s', e1, e2, e3, e4, e5⟩ := (call_full rows W H (k * H) hH hHW s h1 (by omega) h3 h4 (by omega)).1 (by omega)
    have m2 : (k + 1) * H = k * H + H := by ring
    have hf : FullAt rows W H B (k + 1) s' := ⟨e2, by omega, by rw [m2]; exact e4, by rw [m2]; exact e5⟩
    obtain ⟨l, hl, hl2, hl3⟩ := ih (k + 1) s' hf (by rw [show k + 1 + n = k + (n + 1) by omega]; exact hn)
    refine ⟨((W : Int), s'.buffer) :: l, ?_, by simp [hl2], fun j hj => ?_⟩
    · simp only [calls, e1, Option.bind_some, hl, Option.map_some]
    · cases j with
      | zero => exact ⟨s'.buffer, rfl, by rw [Nat.add_zero, m2]; exact e5⟩
      | succ j =>
        obtain ⟨b, hb1, hb2⟩ := hl3 j (by omega)
        exact ⟨b, by simpa using hb1, by rw [hb2]; congr 2; omega⟩

/-- **C58.** For every input stream, window length `W > 0`, hop `0 < H ≤ W` and buffer of at least `W` rows with any contents: the `k`-th call, as long as enough rows are left,
reports a full window and the buffer then holds exactly the input rows `k*H .. k*H + W - 1`, in order. -/
theorem C58_windows (rows init : List R) (W H : Nat) (hH : 0 < H) (hHW : H ≤ W) (hB : W ≤ init.length) (n : Nat) (hn : n * H + W ≤ rows.length) :
    ∃ (l : List (Int × List R)), calls W H (n + 1) { stream := rows, readIndex := 0, buffer := init } = some l ∧
      ∀ k ≤ n, ∃ (b : List R), l[k]? = some ((W : Int), b) ∧ b.take W = (rows.drop (k * H)).take W := by
  obtain ⟨s', e1, e2, e3, e4, e5⟩ := (call_fill rows W H 0 0 { stream := rows, readIndex := 0, buffer := init } rfl (by omega) hB (by simp) (by simp [slice]) (by omega)).1
    (by have := Nat.zero_le (n * H); omega)
  obtain ⟨l, hl, hl2, hl3⟩ := calls_full rows W H init.length hH hHW hB n 0 s' ⟨e2, e3, by simpa using e4, by simpa using e5⟩ (by simpa using hn)
  refine ⟨((W : Int), s'.buffer) :: l, ?_, fun k hk => ?_⟩
  · simp only [calls, e1, Option.bind_some, hl, Option.map_some]
  · cases k with
    | zero => exact ⟨s'.buffer, rfl, by simpa [slice] using e5⟩
    | succ k =>
      obtain ⟨b, hb1, hb2⟩ := hl3 k (by omega)
      exact ⟨b, by simpa using hb1, by rw [hb2, show 0 + 1 + k = k + 1 by omega]; rfl⟩

/-- The windows of a stream: those starting at multiples of the hop that fit entirely. -/
def windows (rows : List R) (W H : Nat) : List (List R) :=
  (List.range (if W ≤ rows.length then (rows.length - W) / H + 1 else 0)).map (fun k => slice rows (k * H) W)

/-- The loop after the input ended with a partial window. -/
theorem process_empty (W H : Nat) (hW : 0 < W) (B : Nat) (hB : W ≤ B) (s : Win R) (hs : s.stream = []) (hi : s.readIndex = 0) (hb : s.buffer.length = B) (done : List (List R))
    (attempts fuel : Nat) (hf : 100 - attempts + 1 ≤ fuel) : processLoop 7 W H fuel attempts s done = some (done, true) := by
  induction fuel generalizing attempts with
  | zero => omega
  | succ fuel ih =>
    unfold processLoop
    by_cases ha : attempts < 100
    · rw [if_pos ha]
      have hcall : readOverlapped 7 (W * 6) W H s = some (0, s) := by
        unfold readOverlapped
        rw [if_neg (by omega), if_neg (by omega), if_neg (by omega), if_neg (by omega), if_neg (by omega), if_neg (by omega)]
        rw [show ((W : Int)).toNat = (W - 1) + 1 by omega]
        unfold readRows
        rw [hs, hi]
      rw [hcall]
      simp only []
      rw [if_neg (by omega), if_neg (by omega), if_neg (by omega)]
      exact ih (attempts + 1) (by omega)
    · rw [if_neg ha]

theorem process_full (rows : List R) (W H B : Nat) (hH : 0 < H) (hHW : H ≤ W) (hB : W ≤ B) (m : Nat) : ∀ (k : Nat) (s : Win R) (done : List (List R)) (fuel : Nat),
    FullAt rows W H B k s → k * H + W ≤ rows.length → (rows.length - W) / H = k + m → m + 102 ≤ fuel →
    processLoop 7 W H fuel 0 s done = some (done ++ (List.range m).map (fun j => slice rows ((k + 1 + j) * H) W), true) := by
  induction m with
  | zero =>
    intro k s done fuel hs hk hm hf
    obtain ⟨h1, h2, h3, h4⟩ := hs
    have hlt : rows.length < k * H + H + W := by
      have h := Nat.lt_div_mul_add (a := rows.length - W) hH
      rw [hm, Nat.add_zero] at h
      omega
    obtain ⟨s', e1, e2, e3, e4, e5⟩ := (call_full rows W H (k * H) hH hHW s h1 (by omega) h3 h4 hk).2 hlt
    obtain ⟨fuel, rfl⟩ : ∃ f, fuel = f + 1 := ⟨fuel - 1, by omega⟩
    unfold processLoop
    rw [if_pos (by omega), e1]
    simp only []
    rw [if_neg (by omega), if_neg (by omega)]
    by_cases h0 : (((rows.length - (k * H + H) : Nat) : Int)) ≠ 0
    · rw [if_pos h0]; simp
    · rw [if_neg h0]
      rw [process_empty W H (by omega) B hB s' e4 (by rw [e2]; push Not at h0; exact h0) (by omega) done _ _ (by omega)]
      simp
  | succ m ih =>
    intro k s done fuel hs hk hm hf
    obtain ⟨h1, h2, h3, h4⟩ := hs
    have m2 : (k + 1) * H = k * H + H := by ring
    have hle : k * H + H + W ≤ rows.length := by
      have h := Nat.div_mul_le_self (rows.length - W) H
      rw [hm] at h
      have m1 : (k + (m + 1)) * H = k * H + H + m * H := by ring
      omega
    obtain ⟨s', e1, e2, e3, e4, e5⟩ := (call_full rows W H (k * H) hH hHW s h1 (by omega) h3 h4 hk).1 hle
    obtain ⟨fuel, rfl⟩ : ∃ f, fuel = f + 1 := ⟨fuel - 1, by omega⟩
    unfold processLoop
    rw [if_pos (by omega), e1]
    simp only []
    rw [if_pos trivial]
    rw [ih (k + 1) s' _ fuel ⟨e2, by omega, by rw [m2]; exact e4, by rw [m2]; exact e5⟩ (by rw [m2]; exact hle) (by omega) (by omega)]
    rw [show ((W : Int)).toNat = W by omega, e5, List.range_succ_eq_map, List.map_cons, List.map_map, List.append_assoc]
    congr 3
    simp only [List.singleton_append]
    congr 1
    · rw [Nat.add_zero, m2]
    · apply List.map_congr_left
      intro j _
      simp only [Function.comp]
      congr 2
      omega

/-- **C58.** The tool's processing loop ends, and hands the preprocessor exactly the windows of the input that fit entirely, in order, each once. -/
theorem C58_process (rows init : List R) (W H : Nat) (hH : 0 < H) (hHW : H ≤ W) (hB : W ≤ init.length) (fuel : Nat) (hf : rows.length + 104 ≤ fuel) :
    processLoop 7 W H fuel 0 { stream := rows, readIndex := 0, buffer := init } [] = some (windows rows W H, true) := by
  obtain ⟨fuel, rfl⟩ : ∃ f, fuel = f + 1 := ⟨fuel - 1, by omega⟩
  have hcall := call_fill rows W H 0 0 { stream := rows, readIndex := 0, buffer := init } rfl (by omega) hB (by simp) (by simp [slice]) (by omega)
  unfold windows processLoop
  rw [if_pos (by omega)]
  by_cases hW : W ≤ rows.length
  · obtain ⟨s', e1, e2, e3, e4, e5⟩ := hcall.1 (by omega)
    rw [e1]
    simp only []
    rw [if_pos trivial]
    have hdiv : (rows.length - W) / H ≤ rows.length := le_trans (Nat.div_le_self _ _) (by omega)
    rw [process_full rows W H init.length hH hHW hB ((rows.length - W) / H) 0 s' _ fuel ⟨e2, e3, by simpa using e4, by simpa using e5⟩ (by omega) (by omega) (by omega)]
    rw [if_pos hW, List.range_succ_eq_map, List.map_cons, List.map_map, show ((W : Int)).toNat = W by omega, e5]
    simp only [List.nil_append, List.singleton_append]
    congr 3
    · rw [Nat.zero_mul]
    · apply List.map_congr_left
      intro j _
      simp only [Function.comp]
      congr 2
      omega
  · obtain ⟨s', e1, e2, e3, e4, e5⟩ := hcall.2 (by omega)
    rw [e1, if_neg hW]
    simp only []
    rw [if_neg (by omega), if_neg (by omega)]
    by_cases h0 : (((rows.length - 0 : Nat) : Int)) ≠ 0
    · rw [if_pos h0]; simp
    · rw [if_neg h0, process_empty W H (by omega) init.length hB s' e4 (by rw [e2]; push Not at h0; exact h0) e3 [] _ _ (by omega)]
      simp

/-- **C58.** Bad arguments are refused before anything is read or moved. -/
theorem C58_checks (nColumns bufferLength W H : Int) (s : Win R) (h : bufferLength ≠ W * 6 ∨ nColumns ≠ 7 ∨ s.readIndex < 0 ∨ W < s.readIndex) :
    ∃ (e : Int), e < 0 ∧ readOverlapped nColumns bufferLength W H s = some (e, s) := by
  unfold readOverlapped
  by_cases h1 : bufferLength ≠ W * 6
  · exact ⟨-12, by omega, by rw [if_pos h1]⟩
  · rw [if_neg h1]
    by_cases h2 : nColumns ≠ 6 + 1
    · exact ⟨-3, by omega, by rw [if_pos h2]⟩
    · rw [if_neg h2]
      by_cases h3 : s.readIndex > W
      · exact ⟨-2, by omega, by rw [if_pos h3]⟩
      · rw [if_neg h3]
        exact ⟨-2, by omega, by rw [if_pos (by omega)]⟩

/-- **C58, refuted outside `0 < hop ≤ window`.** Hops the tool accepts on its command line but that break the window buffer: with `hop > window` the call after the first full window
moves a negative number of rows; with `hop = 0` it writes past the window buffer. -/
theorem C58_bad_hop_faults (W : Nat) (hW : 0 < W) (s : Win R) (hi : s.readIndex = W) (hb : s.buffer.length = W) (r : R) (rest : List R) (hs : s.stream = r :: rest) :
    (∀ H : Nat, W < H → readOverlapped 7 (W * 6) W H s = none) ∧ readOverlapped 7 (W * 6) W 0 s = none := by
  constructor
  · intro H hH
    unfold readOverlapped
    rw [if_neg (by omega), if_neg (by omega), if_neg (by omega), if_neg (by omega), if_neg (by omega), if_pos hi]
    simp only []
    rw [if_neg (by omega)]
  · unfold readOverlapped
    rw [if_neg (by omega), if_neg (by omega), if_neg (by omega), if_neg (by omega), if_neg (by omega), if_pos hi]
    simp only []
    rw [if_pos ⟨by omega, by omega, by omega⟩, show ((W : Int)).toNat = (W - 1) + 1 by omega]
    unfold readRows
    simp only [hs]
    rw [if_neg]
    simp [hi, hb]

example : processLoop 7 4 2 200 0 { stream := [1, 2, 3, 4, 5, 6, 7, 8, 9], readIndex := 0, buffer := [0, 0, 0, 0, 0] } [] = some ([[1, 2, 3, 4], [3, 4, 5, 6], [5, 6, 7, 8]], true) := by
  decide +kernel
example : windows [1, 2, 3, 4, 5, 6, 7, 8, 9] 4 2 = [[1, 2, 3, 4], [3, 4, 5, 6], [5, 6, 7, 8]] := by decide

end Emlearn.Motion
