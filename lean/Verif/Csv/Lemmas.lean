import Verif.Csv.Model
import Init.Data.List.SplitOn.Lemmas
namespace Emlearn.Csv

/-- No separator, end of line or NUL inside. -/
def Clean (s : List Char) : Prop := ∀ c ∈ s, c ≠ ',' ∧ c ≠ '\n' ∧ c ≠ '\x00'

theorem intercalate_cons_cons (s a b : List Char) (l : List (List Char)) :
    s.intercalate (a :: b :: l) = a ++ (s ++ s.intercalate (b :: l)) := by
  simp [List.intercalate]

theorem headerLoop_eq (cols : List (List Char)) (out : List Char) :
    headerLoop cols out = out ++ [','].intercalate cols := by
  induction cols generalizing out with
  | nil => simp [headerLoop, List.intercalate]
  | cons c cs ih =>
    cases cs with
    | nil => simp [headerLoop, List.intercalate]
    | cons d ds =>
      rw [intercalate_cons_cons]
      show headerLoop (d :: ds) (out ++ c ++ [delim]) = _
      rw [ih]; simp [delim]

theorem dataLoop_ok {F : Type} (fmt : F → List Char) (vs : List F) (out : List Char) (h : ∀ v ∈ vs, (fmt v).length < 20) :
    dataLoop fmt vs out = (out ++ [','].intercalate (vs.map fmt), true) := by
  induction vs generalizing out with
  | nil => simp [dataLoop, List.intercalate]
  | cons v vs ih =>
    have hv := h v (by simp)
    unfold dataLoop
    rw [if_neg (by unfold maxSize; omega)]
    cases vs with
    | nil => simp [dataLoop, List.intercalate]
    | cons d ds =>
      rw [if_neg (by simp), ih _ (fun x hx => h x (by simp [hx])), List.map_cons, show (v :: d :: ds).map fmt = fmt v :: fmt d :: ds.map fmt from rfl, intercalate_cons_cons]
      simp [delim]

theorem parse_skip (cl : Nat) (col rest done : List Char) (hc : Clean col) (k : Nat) (p : Parse)
    (hb : p.buffer = done ++ (col ++ rest)) (hlt : p.columns.length < cl) :
    parseLoop cl (col.length + k) done.length p = parseLoop cl k (done.length + col.length) p := by
  induction col generalizing done with
  | nil => simp
  | cons c col ih =>
    have h1 := hc c (by simp)
    rw [show (c :: col).length + k = (col.length + k) + 1 by simp; omega]
    rw [parseLoop, if_neg (by omega)]
    have hg : p.buffer[done.length]? = some c := by rw [hb]; simp
    rw [hg]
    simp only
    rw [if_neg (show ¬ c = delim from h1.1), if_neg (show ¬ c = eol from h1.2.1)]
    have := ih (done ++ [c]) (fun x hx => hc x (by simp [hx])) (by rw [hb]; simp)
    simp only [List.length_append, List.length_singleton] at this
    rw [this]
    congr 1
    simp; omega

theorem takeWhile_clean (col rest : List Char) (hc : Clean col) :
    (col ++ '\x00' :: rest).takeWhile (· ≠ '\x00') = col := by
  induction col with
  | nil => simp
  | cons c col ih =>
    have h1 := hc c (by simp)
    rw [List.cons_append, List.takeWhile_cons, if_pos (by simpa using h1.2.2), ih (fun x hx => hc x (by simp [hx]))]

/-- Parsing one complete line. -/
theorem parse_line (cl : Nat) (cols : List (List Char)) (hne : cols ≠ []) (hc : ∀ c ∈ cols, Clean c) (done rest : List Char) (p : Parse) (k : Nat)
    (hb : p.buffer = done ++ ([','].intercalate cols ++ '\n' :: rest)) (hs : p.start = done.length)
    (hlen : p.columns.length + cols.length ≤ cl) (hk : ([','].intercalate cols).length + 1 ≤ k) :
    ∃ p' offs, parseLoop cl k done.length p = some (p', done.length + ([','].intercalate cols).length) ∧
      p'.buffer = done ++ (['\x00'].intercalate cols ++ '\x00' :: rest) ∧
      p'.columns = p.columns ++ offs ∧ offs.map (cstr p'.buffer) = cols := by
  induction cols generalizing done p k with
  | nil => exact absurd rfl hne
  | cons c cs ih =>
    have hcc := hc c (by simp)
    cases cs with
    | nil =>
      have e1 : [','].intercalate [c] = c := by simp [List.intercalate]
      have e2 : ['\x00'].intercalate [c] = c := by simp [List.intercalate]
      rw [e1] at hb hk ⊢
      rw [e2]
      obtain ⟨k', rfl⟩ : ∃ k', k = c.length + (k' + 1) := ⟨k - c.length - 1, by omega⟩
      rw [parse_skip cl c _ done hcc _ p hb (by simp at hlen; omega), parseLoop, if_neg (by simp at hlen; omega)]
      have hg : p.buffer[done.length + c.length]? = some '\n' := by
        rw [hb, List.getElem?_append_right (by omega), List.getElem?_append_right (by omega)]
        simp
      rw [hg]
      simp only
      rw [if_neg (by decide), if_pos (by rfl)]
      refine ⟨_, [p.start], rfl, ?_, rfl, ?_⟩
      · simp only
        rw [hb, List.set_append_right _ _ (by omega), List.set_append_right _ _ (by omega)]
        simp
      · simp only [List.map_cons, List.map_nil, List.cons.injEq, and_true, cstr]
        rw [hb, List.set_append_right _ _ (by omega), List.set_append_right _ _ (by omega), hs]
        simp only [List.drop_left, Nat.add_sub_cancel_left, Nat.sub_self, List.set_cons_zero]
        exact takeWhile_clean c rest hcc
    | cons d ds =>
      rw [intercalate_cons_cons] at hb hk ⊢
      rw [intercalate_cons_cons]
      obtain ⟨k', rfl⟩ : ∃ k', k = c.length + (k' + 1) := ⟨k - c.length - 1, by simp at hk; omega⟩
      rw [parse_skip cl c (',' :: ([','].intercalate (d :: ds) ++ '\n' :: rest)) done hcc _ p (by rw [hb]; simp) (by simp at hlen; omega), parseLoop, if_neg (by simp at hlen; omega)]
      have hg : p.buffer[done.length + c.length]? = some ',' := by
        rw [hb, List.getElem?_append_right (by omega), List.append_assoc, List.getElem?_append_right (by omega)]
        simp
      rw [hg]
      simp only
      rw [if_pos (by rfl)]
      have hset : p.buffer.set (done.length + c.length) '\x00' = (done ++ (c ++ ['\x00'])) ++ ([','].intercalate (d :: ds) ++ '\n' :: rest) := by
        rw [hb, List.set_append_right _ _ (by omega), List.append_assoc, List.set_append_right _ _ (by omega)]
        simp
      have hl : done.length + c.length + 1 = (done ++ (c ++ ['\x00'])).length := by simp; omega
      rw [hl]
      obtain ⟨p', offs, a1, a2, a3, a4⟩ := ih (by simp) (fun x hx => hc x (by simp [hx])) (done ++ (c ++ ['\x00']))
        { buffer := p.buffer.set (done.length + c.length) '\x00', columns := p.columns ++ [p.start], start := (done ++ (c ++ ['\x00'])).length } k'
        hset rfl (by simp at hlen ⊢; omega) (by simp at hk ⊢; omega)
      refine ⟨p', p.start :: offs, ?_, ?_, ?_, ?_⟩
      · rw [a1]; simp; omega
      · rw [a2]; simp
      · rw [a3]; simp
      · rw [List.map_cons, a4]
        congr 1
        unfold cstr
        rw [a2, hs, List.append_assoc, List.drop_left]
        have := takeWhile_clean c (['\x00'].intercalate (d :: ds) ++ '\x00' :: rest) hcc
        simpa using this

/-- Reading one complete line from the stream. -/
theorem readInternal_line (r : Reader) (buffer : List Char) (cl : Nat) (cols : List (List Char)) (hne : cols ≠ []) (hc : ∀ c ∈ cols, Clean c)
    (rest : List Char) (hf : r.file.drop r.pos = [','].intercalate cols ++ '\n' :: rest) (hcl : cols.length ≤ cl)
    (hbuf : ([','].intercalate cols).length < buffer.length) :
    ∃ r' p, readInternal r buffer cl = (r', some (p, ([','].intercalate cols).length)) ∧ p.strings = cols ∧
      r'.nColumns = r.nColumns ∧ r'.loc = r.loc ∧ r'.file = r.file ∧ r'.seekOk = r.seekOk := by
  unfold readInternal
  rw [hf]
  have htake : ([','].intercalate cols ++ '\n' :: rest).take buffer.length = [','].intercalate cols ++ '\n' :: rest.take (buffer.length - ([','].intercalate cols).length - 1) := by
    rw [List.take_append, List.take_of_length_le (by omega)]
    congr 1
    obtain ⟨n, hn⟩ : ∃ n, buffer.length - ([','].intercalate cols).length = n + 1 := ⟨buffer.length - ([','].intercalate cols).length - 1, by omega⟩
    rw [hn, List.take_succ_cons]; rfl
  rw [htake]
  generalize rest.take (buffer.length - ([','].intercalate cols).length - 1) = rest'
  simp only
  obtain ⟨p', offs, a1, _, a3, a4⟩ := parse_line cl cols hne hc [] (rest' ++ buffer.drop ([','].intercalate cols ++ '\n' :: rest').length)
    { buffer := [','].intercalate cols ++ '\n' :: rest' ++ buffer.drop ([','].intercalate cols ++ '\n' :: rest').length, columns := [], start := 0 }
    ([','].intercalate cols ++ '\n' :: rest').length (by simp) rfl (by simpa using hcl) (by simp)
  simp only [List.length_nil, Nat.zero_add] at a1
  rw [a1]
  refine ⟨_, p', rfl, ?_, rfl, rfl, rfl, rfl⟩
  unfold Parse.strings
  rw [a3]; simpa using a4

end Emlearn.Csv
