/- Properties C25-C27: the CSV writer and reader. -/
import Verif.Csv.Lemmas
namespace Emlearn.Csv

/-- Text of one CSV line: fields joined by commas, then a newline (independent specification of the file format). -/
def csvLine (fields : List (List Char)) : List Char := [','].intercalate fields ++ ['\n']

/-- A reading session: one `read_data` call per buffer (each with its arbitrary old contents), collecting return value and column strings. -/
def session (columnsLength : Nat) : List (List Char) → Reader → List (Int × List (List Char))
  | [], _ => []
  | b :: bs, r => let (r', out) := readData r b columnsLength; out :: session columnsLength bs r'

/-- Writing rows one after the other, stopping at the first call that does not return `EmlOk`. -/
def writeRows {F : Type} (fmt : F → List Char) : Writer → List (List F) → Option Writer
  | w, [] => some w
  | w, r :: rs => match writeData fmt w r with
    | (w', .ok) => writeRows fmt w' rs
    | _ => none

theorem writeData_ok {F : Type} (fmt : F → List Char) (w : Writer) (row : List F) (h1 : row.length = w.nColumns) (h2 : ∀ v ∈ row, (fmt v).length < 20) :
    writeData fmt w row = ({ w with out := w.out ++ csvLine (row.map fmt) }, .ok) := by
  unfold writeData
  rw [if_pos h1.symm, dataLoop_ok fmt row w.out h2]
  simp [csvLine, eol]

theorem writeRows_ok {F : Type} (fmt : F → List Char) (rows : List (List F)) (w : Writer) (h : ∀ r ∈ rows, r.length = w.nColumns ∧ ∀ v ∈ r, (fmt v).length < 20) :
    writeRows fmt w rows = some { w with out := w.out ++ (rows.map (fun r => csvLine (r.map fmt))).flatten } := by
  induction rows generalizing w with
  | nil => simp [writeRows]
  | cons r rs ih =>
    have hr := h r (by simp)
    rw [writeRows, writeData_ok fmt w r hr.1 hr.2]
    simp only
    rw [ih _ (fun x hx => by simpa using h x (by simp [hx]))]
    simp

/-- One successful row read. -/
theorem readData_line (r : Reader) (buffer : List Char) (cl : Nat) (cols : List (List Char)) (hne : cols ≠ []) (hc : ∀ c ∈ cols, Clean c) (hx : ∀ c ∈ cols, c ≠ [])
    (rest : List Char) (hf : r.file.drop r.pos = csvLine cols ++ rest) (hn : r.nColumns = cols.length) (hcl : cols.length ≤ cl)
    (hbuf : ([','].intercalate cols).length < buffer.length) (hloc : r.loc = r.pos) (hseek : ∀ p, r.seekOk p = true) :
    ∃ r', readData r buffer cl = (r', (cols.length : Int), cols) ∧ r'.file.drop r'.pos = rest ∧ r'.nColumns = r.nColumns ∧ r'.loc = r'.pos ∧ r'.seekOk = r.seekOk := by
  have hf' : r.file.drop r.pos = [','].intercalate cols ++ '\n' :: rest := by rw [hf]; simp [csvLine]
  obtain ⟨r', p, a1, a2, a3, a4, a5, a6⟩ := readInternal_line r buffer cl cols hne hc rest hf' hcl hbuf
  have hplen : p.columns.length = cols.length := by rw [← a2]; simp [Parse.strings]
  have hpos : ([','].intercalate cols).length ≠ 0 := by
    cases cols with
    | nil => exact absurd rfl hne
    | cons c cs =>
      cases cs with
      | nil =>
        simpa [List.intercalate] using hx c (by simp)
      | cons d ds => rw [intercalate_cons_cons]; simp
  unfold readData
  rw [if_pos (by omega), a1]
  simp only
  rw [if_neg hpos, if_neg (by rw [hplen, a3]; exact fun h => h hn.symm), a6, if_pos (hseek _)]
  refine ⟨{ r' with loc := r'.loc + ([','].intercalate cols).length + 1, pos := r'.loc + ([','].intercalate cols).length + 1 }, by simp only [hplen, a2, a6], ?_, a3, rfl, a6⟩
  simp only
  rw [a5, a4, hloc, show r.pos + ([','].intercalate cols).length + 1 = r.pos + (([','].intercalate cols).length + 1) by omega, ← List.drop_drop, hf', List.drop_append]
  simp

theorem readData_eof (r : Reader) (buffer : List Char) (cl : Nat) (hn : r.nColumns ≤ cl) (hf : r.file.drop r.pos = []) :
    (readData r buffer cl).2 = (0, []) := by
  unfold readData readInternal
  rw [if_pos hn, hf]
  simp [parseLoop, Parse.strings]

/-- **C25** Writing a header with `names` and any number of rows, then reading the produced file from the start, gives back exactly the header names, then exactly the written fields of each row in
order with return value = number of columns, then 0. `fmt` is any number formatter without separators producing non-empty text; every text shorter than the writer's buffer (the writer rejects longer ones, C27);
the reader's buffers (with arbitrary old contents) hold at least one line; at least as many column pointers as columns. -/
theorem C25_csv_round_trip {F : Type} (fmt : F → List Char) (hfmt : ∀ v, fmt v ≠ [] ∧ Clean (fmt v))
    (names : List (List Char)) (hnames : names ≠ []) (hclean : ∀ c ∈ names, Clean c)
    (rows : List (List F)) (hrows : ∀ r ∈ rows, r.length = names.length ∧ ∀ v ∈ r, (fmt v).length < 20)
    (w0 : Writer) (hw0 : w0.out = []) :
    (writeHeader w0 names).2 = .ok ∧
    ∃ wN, writeRows fmt (writeHeader w0 names).1 rows = some wN ∧
      ∀ (r0 : Reader) (bufH : List Char) (bufs : List (List Char)) (bufE : List Char) (cl : Nat),
        r0.file = wN.out → r0.pos = 0 → (∀ p, r0.seekOk p = true) → names.length ≤ cl →
        (csvLine names).length ≤ bufH.length → bufs.length = rows.length → (∀ b ∈ bufs, ∀ r ∈ rows, (csvLine (r.map fmt)).length ≤ b.length) →
        (readHeader r0 bufH cl).2 = (.ok, names) ∧
        session cl (bufs ++ [bufE]) (readHeader r0 bufH cl).1 = rows.map (fun r => ((names.length : Int), r.map fmt)) ++ [(0, [])] := by
  refine ⟨rfl, ?_⟩
  have hh : (writeHeader w0 names).1 = { nColumns := names.length, out := csvLine names } := by
    simp [writeHeader, headerLoop_eq, hw0, csvLine, eol]
  rw [hh, writeRows_ok fmt rows _ hrows]
  refine ⟨_, rfl, ?_⟩
  intro r0 bufH bufs bufE cl hfile hpos hseek hcl hbufH hlen hbufs
  simp only at hfile
  obtain ⟨r', p, a1, a2, a3, a4, a5, a6⟩ := readInternal_line r0 bufH cl names hnames hclean ((rows.map (fun r => csvLine (r.map fmt))).flatten)
    (by rw [hfile, hpos]; simp [csvLine]) hcl (by simp [csvLine] at hbufH; omega)
  have hplen : p.columns.length = names.length := by rw [← a2]; simp [Parse.strings]
  have hread : readHeader r0 bufH cl = ({ r' with nColumns := names.length, loc := ([','].intercalate names).length + 1, pos := ([','].intercalate names).length + 1 }, .ok, names) := by
    unfold readHeader
    rw [a1]
    simp only
    rw [a6, if_pos (hseek _), hplen, a2]
  rw [hread]
  refine ⟨rfl, ?_⟩
  have main : ∀ (rows : List (List F)) (bufs : List (List Char)) (r : Reader), (∀ row ∈ rows, row.length = names.length) →
      r.file.drop r.pos = (rows.map (fun row => csvLine (row.map fmt))).flatten → r.nColumns = names.length → r.loc = r.pos → (∀ p, r.seekOk p = true) →
      bufs.length = rows.length → (∀ b ∈ bufs, ∀ row ∈ rows, (csvLine (row.map fmt)).length ≤ b.length) →
      session cl (bufs ++ [bufE]) r = rows.map (fun row => ((names.length : Int), row.map fmt)) ++ [(0, [])] := by
    intro rows
    induction rows with
    | nil =>
      intro bufs r _ hf hn _ _ hl _
      have : bufs = [] := List.length_eq_zero_iff.mp hl
      subst this
      have he := readData_eof r bufE cl (by omega) (by simpa using hf)
      simp only [List.nil_append, session, List.map_nil]
      rw [he]
    | cons row rows ih =>
      intro bufs r hr hf hn hloc hsk hl hb
      cases bufs with
      | nil => simp at hl
      | cons b bufs =>
        have hrow := hr row (by simp)
        have hnl : 0 < names.length := List.length_pos_iff.mpr hnames
        have hbl := hb b (by simp) row (by simp)
        obtain ⟨r1, b1, b2, b3, b4, b5⟩ := readData_line r b cl (row.map fmt) (by simp; intro h; subst h; simp at hrow; omega)
          (by simp only [List.mem_map]; rintro c ⟨v, _, rfl⟩; exact (hfmt v).2)
          (by simp only [List.mem_map]; rintro c ⟨v, _, rfl⟩; exact (hfmt v).1)
          ((rows.map (fun row => csvLine (row.map fmt))).flatten) (by rw [hf]; simp) (by simp; omega) (by simp; omega) (by simp [csvLine] at hbl; omega) hloc hsk
        rw [List.cons_append, session, b1]
        simp only [List.map_cons, List.cons_append, List.length_map, hrow]
        rw [ih bufs r1 (fun x hx => hr x (by simp [hx])) b2 (by omega) b4 (by rw [b5]; exact hsk) (by simpa using hl) (fun x hx y hy => hb x (by simp [hx]) y (by simp [hy]))]
  apply main rows bufs _ (fun r hr => (hrows r hr).1) _ rfl rfl (by rw [a6]; exact hseek) hlen hbufs
  simp only
  rw [a5, hfile, List.drop_append, csvLine]
  simp

/-- Non-vacuity of C25: a formatter over booleans, two columns, two rows, small buffers. -/
example :
    let fmt : Bool → List Char := fun b => if b then "1.000000".toList else "-0.500000".toList
    (∀ v, fmt v ≠ [] ∧ Clean (fmt v)) ∧ (∀ v, (fmt v).length < 20) ∧ (csvLine ([true, false].map fmt)).length ≤ 20 := by
  refine ⟨?_, ?_, ?_⟩
  · intro v; cases v <;> (refine ⟨by decide, ?_⟩; unfold Clean; decide)
  · decide
  · decide

/-- The whole pipeline run on a concrete file. -/
example :
    let fmt : Bool → List Char := fun b => if b then "1.000000".toList else "-0.500000".toList
    let w := (writeRows fmt (writeHeader { nColumns := 0, out := [] } ["time".toList, "x".toList]).1 [[true, false], [false, false]])
    w.map (fun w => session 4 [List.replicate 30 'z', List.replicate 25 'q', []]
        (readHeader { nColumns := 0, loc := 0, file := w.out, pos := 0, seekOk := fun _ => true } (List.replicate 12 'k') 4).1)
      = some [(2, ["1.000000".toList, "-0.500000".toList]), (2, ["-0.500000".toList, "-0.500000".toList]), (0, [])] := by
  decide +kernel

/-- **C26 is false as stated**: with fewer column pointers than header columns the call fails (nothing is read), but returns the positive value 1. -/
theorem C26_refuted :
    ∃ (r : Reader) (buffer : List Char) (columnsLength : Nat),
      columnsLength < r.nColumns ∧ (readData r buffer columnsLength).1 = r ∧ (readData r buffer columnsLength).2.2 = [] ∧ 0 < (readData r buffer columnsLength).2.1 :=
  ⟨{ nColumns := 2, loc := 4, file := "a,b\n1,2\n".toList, pos := 4, seekOk := fun _ => true }, List.replicate 10 'z', 1,
    by decide +kernel, rfl, rfl, by decide +kernel⟩

theorem parseLoop_columns (cl k o : Nat) (p p' : Parse) (c : Nat) (h : parseLoop cl k o p = some (p', c)) (hp : p.columns.length ≤ cl) :
    p'.columns.length ≤ cl ∧ p'.buffer.length = p.buffer.length ∧ o ≤ c ∧ c ≤ o + k := by
  induction k generalizing o p with
  | zero => simp only [parseLoop, Option.some.injEq, Prod.mk.injEq] at h; obtain ⟨rfl, rfl⟩ := h; exact ⟨hp, rfl, by omega, by omega⟩
  | succ k ih =>
    rw [parseLoop] at h
    split at h
    · simp at h
    · split at h
      · simp at h
      · split at h
        · have := ih _ _ h (by simp; omega)
          simp only [List.length_set] at this
          exact ⟨this.1, this.2.1, by omega, by omega⟩
        · split at h
          · simp only [Option.some.injEq, Prod.mk.injEq] at h
            obtain ⟨rfl, rfl⟩ := h
            exact ⟨by simp; omega, by simp, by omega, by omega⟩
          · have := ih _ _ h hp
            exact ⟨this.1, this.2.1, by omega, by omega⟩

/-- Reading consumes nothing exactly at end of input, or when the next character ends the line at once, or with an empty buffer. -/
theorem parse_zero (cl : Nat) (k : Nat) (b : List Char) (p' : Parse) (h : parseLoop cl k 0 { buffer := b, columns := [], start := 0 } = some (p', 0)) :
    k = 0 ∨ b.head? = some '\n' := by
  cases k with
  | zero => exact Or.inl rfl
  | succ k =>
    right
    rw [parseLoop] at h
    split at h
    · simp at h
    · rename_i hlt
      split at h
      · simp at h
      · rename_i c hc
        rw [List.head?_eq_getElem?, hc]
        split at h
        · have := parseLoop_columns cl _ _ _ _ _ h (by simp; simp at hlt; omega)
          omega
        · split at h
          · rename_i h2; rw [h2]; rfl
          · have := parseLoop_columns cl _ _ _ _ _ h (by simp)
            omega

/-- **C26 (partial: the caller passes at least as many column pointers as the header has columns)** For every file, position, buffer and behaviour of `seek`: the return value is the number of header
columns (then exactly that many column strings are stored), or 0 (then the stream is at its end, the line is blank, or the buffer has no room), or the negative code -5. At end of input it is 0. Column pointers are
never stored beyond `columns_length`. -/
theorem C26_read_result_partial (r : Reader) (buffer : List Char) (cl : Nat) (h : r.nColumns ≤ cl) :
    let out := (readData r buffer cl).2
    ((out.1 = r.nColumns ∧ out.2.length = r.nColumns) ∨
      (out.1 = 0 ∧ (r.file.drop r.pos = [] ∨ (r.file.drop r.pos).head? = some '\n' ∨ buffer = [])) ∨ out.1 = -5) ∧
    (r.file.drop r.pos = [] → out.1 = 0) ∧ out.2.length ≤ cl := by
  refine ⟨?_, fun he => by rw [readData_eof r buffer cl h he], ?_⟩
  · unfold readData
    rw [if_pos h]
    cases hi : readInternal r buffer cl with
    | mk r' o =>
      cases o with
      | none => simp
      | some pc =>
        obtain ⟨p, c⟩ := pc
        have hr' : r'.nColumns = r.nColumns := by unfold readInternal at hi; simp only [Prod.mk.injEq] at hi; rw [← hi.1]
        simp only
        split
        · rename_i hc
          right; left
          refine ⟨rfl, ?_⟩
          subst hc
          unfold readInternal at hi
          simp only [Prod.mk.injEq] at hi
          rcases parse_zero _ _ _ _ hi.2 with h0 | h0
          · simp only [List.length_take, List.length_drop] at h0
            by_cases hb : buffer = []
            · exact Or.inr (Or.inr hb)
            · left
              have : 0 < buffer.length := List.length_pos_iff.mpr hb
              apply List.drop_eq_nil_of_le; omega
          · by_cases hb : buffer = []
            · exact Or.inr (Or.inr hb)
            · by_cases hd : r.file.drop r.pos = []
              · exact Or.inl hd
              · right; left
                obtain ⟨x, xs, hx⟩ := List.exists_cons_of_ne_nil hd
                obtain ⟨y, ys, hy⟩ := List.exists_cons_of_ne_nil hb
                rw [hx, hy] at h0
                rw [hx]; simpa using h0
        · split
          · right; right; rfl
          · split
            · rename_i h1 h2 _
              left
              simp only [ne_eq, Decidable.not_not] at h2
              rw [h2, hr']
              exact ⟨rfl, by simp only [Parse.strings, List.length_map]; omega⟩
            · right; right; rfl
  · unfold readData
    rw [if_pos h]
    cases hi : readInternal r buffer cl with
    | mk r' o =>
      cases o with
      | none => simp
      | some pc =>
        obtain ⟨p, c⟩ := pc
        unfold readInternal at hi
        simp only [Prod.mk.injEq] at hi
        have := (parseLoop_columns _ _ _ _ _ _ hi.2 (by simp)).1
        have hs : p.strings.length ≤ cl := by simpa [Parse.strings] using this
        simp only
        split
        · exact hs
        · split
          · exact hs
          · split <;> exact hs

/-- Each of the three outcomes of C26 occurs. -/
example :
    let r : Reader := { nColumns := 2, loc := 0, file := "1,2\n3\n".toList, pos := 0, seekOk := fun _ => true }
    (session 2 [List.replicate 9 'z', List.replicate 9 'z'] r).map (·.1) = [2, -5] ∧ (readData { r with pos := 6 } (List.replicate 9 'z') 2).2.1 = 0 := by decide +kernel

theorem parseLoop_starts (cl k o : Nat) (p p' : Parse) (c : Nat) (h : parseLoop cl k o p = some (p', c)) (hs : p.start ≤ o)
    (hp : ∀ x ∈ p.columns, x < p.buffer.length) : ∀ x ∈ p'.columns, x < p.buffer.length := by
  induction k generalizing o p with
  | zero => simp only [parseLoop, Option.some.injEq, Prod.mk.injEq] at h; obtain ⟨rfl, rfl⟩ := h; exact hp
  | succ k ih =>
    rw [parseLoop] at h
    split at h
    · simp at h
    · split at h
      · simp at h
      · rename_i ch hget
        have ho : o < p.buffer.length := (List.getElem?_eq_some_iff.1 hget).1
        have hnew : ∀ x ∈ p.columns ++ [p.start], x < p.buffer.length := by
          intro x hx
          rcases List.mem_append.1 hx with hx | hx
          · exact hp x hx
          · simp at hx; omega
        split at h
        · have := ih _ _ h (by simp) (by simpa using hnew)
          simpa using this
        · split at h
          · simp only [Option.some.injEq, Prod.mk.injEq] at h
            obtain ⟨rfl, rfl⟩ := h
            exact hnew
          · exact ih _ _ h (by omega) hp

/-- **C26 (memory side)** For every file, position, caller buffer and number of column pointers: one read takes at most `buffer_length` bytes from the stream, parsing writes nothing outside the caller's buffer (it still has its length
afterwards), at most `columns_length` column pointers are stored, and each of them points into the buffer. -/
theorem C26_buffer_bounds (r : Reader) (buffer : List Char) (cl : Nat) :
    (readInternal r buffer cl).1.pos ≤ r.pos + buffer.length ∧
    ∀ p n, (readInternal r buffer cl).2 = some (p, n) →
      p.buffer.length = buffer.length ∧ n ≤ buffer.length ∧ p.columns.length ≤ cl ∧ ∀ o ∈ p.columns, o < buffer.length := by
  unfold readInternal
  refine ⟨by simp; omega, fun p n h => ?_⟩
  have hb := parseLoop_columns _ _ _ _ _ _ h (by simp)
  have hs := parseLoop_starts _ _ _ _ _ _ h (by simp) (by simp)
  simp only [List.length_append, List.length_take, List.length_drop] at hb hs
  refine ⟨by omega, by omega, hb.1, fun o ho => ?_⟩
  have := hs o ho
  omega

/-- The buffer is exactly filled by a line without newline: a case in which the bounds are tight. -/
example :
    let r : Reader := { nColumns := 2, loc := 0, file := "1,2\n3,4\n".toList, pos := 0, seekOk := fun _ => true }
    (readInternal r (List.replicate 4 'z') 2).1.pos = 4 ∧ ((readInternal r (List.replicate 4 'z') 2).2.map (fun q => q.1.columns)) = some [0, 2] := by
  decide +kernel

/-- **C27 is false as stated**: the second value does not fit the text buffer; the call reports an error but the first field is already in the file. -/
theorem C27_refuted :
    ∃ (fmt : Nat → List Char) (w : Writer) (row : List Nat),
      (writeData fmt w row).2 = .unsupported ∧ (writeData fmt w row).1.out ≠ w.out :=
  ⟨fun n => List.replicate n '1', { nColumns := 2, out := [] }, [3, 20], by decide +kernel⟩

theorem dataLoop_fail {F : Type} (fmt : F → List Char) (ok : List F) (bad : F) (rest : List F) (out : List Char)
    (h : ∀ v ∈ ok, (fmt v).length < 20) (hb : 20 ≤ (fmt bad).length) :
    dataLoop fmt (ok ++ bad :: rest) out = (out ++ (ok.map (fun v => fmt v ++ [','])).flatten, false) := by
  induction ok generalizing out with
  | nil => rw [List.nil_append, dataLoop, if_pos (show (fmt bad).length ≥ maxSize from hb)]; simp
  | cons v vs ih =>
    have hv := h v (by simp)
    rw [List.cons_append, dataLoop, if_neg (by unfold maxSize; omega), if_neg (by simp), ih _ (fun x hx => h x (by simp [hx]))]
    simp [delim]

/-- **C27 (partial: rejected without output when the row length is wrong or the first value is the one that does not fit)** The exact effect of every call on the file: a row of the wrong length is rejected and
nothing is written; a row whose texts all fit is appended as one line; otherwise `EmlUnsupported` is returned and exactly the fields before the first too long one are appended, so nothing is written exactly when the first value is too long. -/
theorem C27_write_effect_partial {F : Type} (fmt : F → List Char) (w : Writer) (row : List F) :
    (row.length ≠ w.nColumns → writeData fmt w row = (w, .sizeMismatch)) ∧
    (row.length = w.nColumns → (∀ v ∈ row, (fmt v).length < 20) → writeData fmt w row = ({ w with out := w.out ++ csvLine (row.map fmt) }, .ok)) ∧
    (∀ ok bad rest, row = ok ++ bad :: rest → row.length = w.nColumns → (∀ v ∈ ok, (fmt v).length < 20) → 20 ≤ (fmt bad).length →
      writeData fmt w row = ({ w with out := w.out ++ (ok.map (fun v => fmt v ++ [','])).flatten }, .unsupported)) ∧
    ((writeData fmt w row).2 ≠ .ok → ((writeData fmt w row).1.out = w.out ↔ (row.length ≠ w.nColumns ∨ ∃ v vs, row = v :: vs ∧ 20 ≤ (fmt v).length))) := by
  have k1 : row.length ≠ w.nColumns → writeData fmt w row = (w, .sizeMismatch) := by
    intro h; unfold writeData; rw [if_neg (fun e => h e.symm)]
  have k3 : ∀ ok bad rest, row = ok ++ bad :: rest → row.length = w.nColumns → (∀ v ∈ ok, (fmt v).length < 20) → 20 ≤ (fmt bad).length →
      writeData fmt w row = ({ w with out := w.out ++ (ok.map (fun v => fmt v ++ [','])).flatten }, .unsupported) := by
    intro ok bad rest he hl ho hb
    unfold writeData
    rw [if_pos hl.symm, he, dataLoop_fail fmt ok bad rest w.out ho hb]
  refine ⟨k1, fun h1 h2 => writeData_ok fmt w row h1 h2, k3, ?_⟩
  intro herr
  by_cases hl : row.length = w.nColumns
  · by_cases hall : ∀ v ∈ row, (fmt v).length < 20
    · rw [writeData_ok fmt w row hl hall] at herr; exact absurd rfl herr
    · -- first offending value
      have hsplit : ∃ ok bad rest, row = ok ++ bad :: rest ∧ (∀ v ∈ ok, (fmt v).length < 20) ∧ 20 ≤ (fmt bad).length := by
        clear herr k1 k3 hl
        induction row with
        | nil => exact absurd (by simp) hall
        | cons v vs ih =>
          by_cases hv : (fmt v).length < 20
          · have : ¬ ∀ x ∈ vs, (fmt x).length < 20 := fun hx => hall (by simpa [hv] using hx)
            obtain ⟨ok, bad, rest, e, o, b⟩ := ih this
            exact ⟨v :: ok, bad, rest, by rw [e]; rfl, by simpa [hv] using o, b⟩
          · exact ⟨[], v, vs, rfl, by simp, by omega⟩
      obtain ⟨ok, bad, rest, e, o, b⟩ := hsplit
      rw [k3 ok bad rest e hl o b]
      constructor
      · intro h
        right
        cases ok with
        | nil => exact ⟨bad, rest, e, b⟩
        | cons v vs => exfalso; simp at h
      · rintro (h | ⟨v, vs, hr, hv⟩)
        · exact absurd hl h
        · cases ok with
          | nil => simp
          | cons x xs =>
            rw [hr] at e
            simp only [List.cons_append, List.cons.injEq] at e
            have := o x (by simp)
            rw [← e.1] at this
            omega
  · rw [k1 hl]; simp [hl]

example : (writeData (fun n : Nat => List.replicate n '1') { nColumns := 2, out := [] } [20, 3]).1.out = [] := by decide +kernel

end Emlearn.Csv
