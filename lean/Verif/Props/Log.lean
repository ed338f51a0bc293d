/- C105: structured log entries (`eml_log.h`). -/
import Mathlib.Data.List.TakeWhile
import Mathlib.Tactic.FinCases
import Verif.Log.Model
namespace Emlearn.Log

/-! ## Specification: logfmt -/

/-- A value in a log entry. -/
inductive Value where
  | str (s : List Char)
  | int (i : Int)
  | bool (b : Bool)
  | flt (x : ℚ)

/-- An entry: event name, key/value pairs. -/
structure Entry where
  event : List Char
  fields : List (List Char × Value)

/-- The macro uses for an entry: begin, one `ADD` per field, end. -/
def fieldCall : List Char × Value → Call
  | (k, .str s) => .add k s
  | (k, .int i) => .addInteger k i
  | (k, .bool b) => .addBool k b
  | (k, .flt x) => .addFloat k x

def Entry.calls (e : Entry) : List Call := .begin e.event :: (e.fields.map fieldCall ++ [.finish])

/-- A word of a logfmt line: `key=value`, or a key alone. -/
def readWord (w : List Char) : List Char × Option (List Char) :=
  if '=' ∈ w then (w.takeWhile (· ≠ '='), some ((w.dropWhile (· ≠ '=')).drop 1)) else (w, none)

/-- A logfmt line: event name, then words, separated by blanks. -/
def readLine (l : List Char) : List Char × List (List Char × Option (List Char)) := ((l.splitOn ' ').headD [], ((l.splitOn ' ').drop 1).map readWord)

/-- A logfmt file: lines, each ended by a newline. -/
def readLog (t : List Char) : List (List Char × List (List Char × Option (List Char))) := ((t.splitOn '\n').dropLast).map readLine

/-- The text of a value. -/
def Value.text : Value → List Char
  | .str s => s
  | .int i => showInt i
  | .bool b => if b then "true".toList else "false".toList
  | .flt x => showFixed 4 x

/-- Neither blank nor newline. -/
def Plain (s : List Char) : Prop := ' ' ∉ s ∧ '\n' ∉ s

/-- Names that a log line can carry: blanks and newlines nowhere, no `=` in keys, no `%` in the event name. -/
def Entry.Ok (e : Entry) : Prop := Plain e.event ∧ '%' ∉ e.event ∧ ∀ f ∈ e.fields, Plain f.1 ∧ '=' ∉ f.1 ∧ ∀ s, f.2 = .str s → Plain s

/-! ## Proofs -/

theorem printf_plain (s : List Char) (h : '%' ∉ s) (as : List Arg) : printf s as = some s := by
  induction s with
  | nil => rfl
  | cons c s ih =>
    simp only [List.mem_cons, not_or] at h
    have hc : c ≠ '%' := fun e => h.1 e.symm
    rw [printf.eq_7]
    · rw [ih h.2]; rfl
    all_goals intros; exact hc ‹_›

/-- A word `key=value`. -/
def word (f : List Char × Value) : List Char := f.1 ++ '=' :: f.2.text

theorem field_emit (f : List Char × Value) : (fieldCall f).emit true = some (' ' :: word f) := by
  obtain ⟨k, v⟩ := f
  cases v <;> simp [fieldCall, Call.emit, logPrintf, printf, word, Value.text]

theorem fields_emit (fs : List (List Char × Value)) (cs : List Call) (t : List Char) (h : emitAll true cs = some t) :
    emitAll true (fs.map fieldCall ++ cs) = some ((fs.flatMap fun f => ' ' :: word f) ++ t) := by
  induction fs with
  | nil => simpa using h
  | cons f fs ih =>
    rw [List.map_cons, List.cons_append, emitAll, ih, field_emit]
    simp [andThen]

/-- The line of an entry. -/
def line (e : Entry) : List Char := [' '].intercalate (e.event :: e.fields.map word)

theorem line_eq (e : Entry) : line e = e.event ++ e.fields.flatMap fun f => ' ' :: word f := by
  obtain ⟨ev, fs⟩ := e
  unfold line
  dsimp only
  induction fs generalizing ev with
  | nil => simp
  | cons f fs ih =>
    rw [List.map_cons, List.intercalate_cons_cons, ih (word f)]
    simp

theorem emitAll_append (en : Bool) (a b : List Call) : emitAll en (a ++ b) = andThen (emitAll en a) (emitAll en b) := by
  induction a with
  | nil => cases h : emitAll en b <;> simp [emitAll, andThen, h]
  | cons c a ih =>
    rw [List.cons_append, emitAll, ih, emitAll]
    cases c.emit en <;> cases emitAll en a <;> cases emitAll en b <;> simp [andThen]

theorem entry_emit (e : Entry) (h : '%' ∉ e.event) : emitAll true e.calls = some (line e ++ ['\n']) := by
  rw [Entry.calls, emitAll, fields_emit _ [.finish] ['\n'] (by simp [emitAll, Call.emit, logPrintf, printf, andThen])]
  show andThen (printf e.event []) _ = _
  rw [printf_plain _ h, line_eq]
  simp [andThen]

theorem log_emit (es : List Entry) (h : ∀ e ∈ es, '%' ∉ e.event) : emitAll true (es.flatMap Entry.calls) = some (es.flatMap fun e => line e ++ ['\n']) := by
  induction es with
  | nil => rfl
  | cons e es ih =>
    rw [List.flatMap_cons, emitAll_append, entry_emit e (h e (by simp)), ih fun x hx => h x (by simp [hx])]
    simp [andThen]

theorem value_plain (v : Value) (h : ∀ s, v = .str s → Plain s) : Plain v.text := by
  cases v with
  | str s => exact h s rfl
  | int i => exact ⟨showInt_not_sep (by decide) (by decide), showInt_not_sep (by decide) (by decide)⟩
  | bool b => cases b <;> simp [Value.text, Plain]
  | flt x => exact ⟨fun hc => by rcases showFixed_chars hc with h | h | h <;> revert h <;> decide, fun hc => by rcases showFixed_chars hc with h | h | h <;> revert h <;> decide⟩

theorem word_plain (f : List Char × Value) (h1 : Plain f.1) (h2 : ∀ s, f.2 = .str s → Plain s) : Plain (word f) := by
  have := value_plain f.2 h2
  constructor <;> simp [word, h1.1, h1.2, this.1, this.2]

theorem readWord_word (f : List Char × Value) (h : '=' ∉ f.1) : readWord (word f) = (f.1, some f.2.text) := by
  have hk : ∀ c ∈ f.1, (decide (c ≠ '=')) = true := fun c hc => by simp; rintro rfl; exact h hc
  rw [readWord, if_pos (by simp [word]), word, List.takeWhile_append_of_pos hk, List.dropWhile_append_of_pos hk]
  simp

theorem readLine_line (e : Entry) (h : e.Ok) : readLine (line e) = (e.event, e.fields.map fun f => (f.1, some f.2.text)) := by
  have hs : (line e).splitOn ' ' = e.event :: e.fields.map word := by
    rw [line, List.splitOn_intercalate]
    · intro l hl
      rcases List.mem_cons.1 hl with rfl | hl
      · exact h.1.1
      · obtain ⟨f, hf, rfl⟩ := List.mem_map.1 hl
        exact (word_plain f (h.2.2 f hf).1 (h.2.2 f hf).2.2).1
    · simp
  rw [readLine, hs]
  simp only [List.headD_cons, List.drop_succ_cons, List.drop_zero, List.map_map, Prod.mk.injEq, true_and]
  exact List.map_congr_left fun f hf => readWord_word f (h.2.2 f hf).2.1

theorem line_no_newline (e : Entry) (h : e.Ok) : '\n' ∉ line e := by
  rw [line_eq]
  simp only [List.mem_append, List.mem_flatMap, List.mem_cons, not_or, not_exists, not_and]
  exact ⟨h.1.2, fun f hf => ⟨by decide, (word_plain f (h.2.2 f hf).1 (h.2.2 f hf).2.2).2⟩⟩

theorem splitOn_lines (ls : List (List Char)) (h : ∀ l ∈ ls, '\n' ∉ l) : (ls.flatMap fun l => l ++ ['\n']).splitOn '\n' = ls ++ [[]] := by
  have : (ls.flatMap fun l => l ++ ['\n']) = ['\n'].intercalate (ls ++ [[]]) := by
    induction ls with
    | nil => simp
    | cons l ls ih =>
      rw [List.flatMap_cons, ih fun x hx => h x (by simp [hx])]
      cases ls with
      | nil => simp
      | cons l2 ls => simp [List.intercalate_cons_cons]
  rw [this, List.splitOn_intercalate]
  · intro l hl
    rcases List.mem_append.1 hl with hl | hl
    · exact h l hl
    · simp at hl; simp [hl]
  · simp

/-- **C105 (partial).** Any sequence of entries (event name; string, integer, boolean and float fields) gives a log from which a logfmt reader recovers every event name, key and value text, in order, one line per entry. Missing: arrays and event names with `%` (`C105_refuted`). -/
theorem C105_roundtrip_partial (es : List Entry) (h : ∀ e ∈ es, e.Ok) :
    ∃ t, emitAll true (es.flatMap Entry.calls) = some t ∧ readLog t = es.map fun e => (e.event, e.fields.map fun f => (f.1, some f.2.text)) := by
  refine ⟨_, log_emit es fun e he => (h e he).2.1, ?_⟩
  have : (es.flatMap fun e => line e ++ ['\n']) = (es.map line).flatMap fun l => l ++ ['\n'] := by rw [List.flatMap_map]
  rw [readLog, this, splitOn_lines _ (by simp; exact fun e he => line_no_newline e (h e he)), List.dropLast_concat, List.map_map]
  exact List.map_congr_left fun e he => readLine_line e (h e he)

/-- **C105.** The texts of numbers read back: integers exactly, floats up to 0.00005. -/
theorem C105_numbers (i : Int) (x : ℚ) : readInt (Value.int i).text = some i ∧ ∃ y, readFixed (Value.flt x).text = some y ∧ |y - x| ≤ 1 / 20000 :=
  ⟨readInt_showInt i, _, readFixed_showFixed 4 (by norm_num) x, by have := fixedValue_close 4 x; norm_num at this ⊢; exact this⟩

/-- **C105.** With logging disabled no macro writes anything, whatever its arguments. -/
theorem C105_disabled (cs : List Call) : emitAll false cs = some [] := by
  have ha : ∀ fmt len as i, arrayLoop false fmt len i as = some [] := by
    intro fmt len as
    induction as with
    | nil => intro i; rfl
    | cons a as ih => intro i; rw [arrayLoop, ih]; simp [logPrintf, andThen]
  induction cs with
  | nil => rfl
  | cons c cs ih =>
    have : c.emit false = some [] := by cases c <;> simp [Call.emit, logPrintf, printArray, ha, andThen]
    rw [emitAll, this, ih]; rfl

/-- **C105, exact text of arrays.** Elements between brackets, separated by commas (no comma before the first or after the last), directly after the key. -/
theorem C105_array (key : List Char) (arr : List Arg) (fmt : List Char) (texts : List (List Char)) (h : arr.mapM (fun a => printf fmt [a]) = some texts) :
    (Call.addArray key arr fmt).emit true = some (' ' :: key ++ '[' :: [','].intercalate texts ++ [']']) := by
  have hl : ∀ (as : List Arg) (ts : List (List Char)) (i : Nat), as.mapM (fun a => printf fmt [a]) = some ts → i + as.length = arr.length →
      arrayLoop true fmt arr.length i as = some ([','].intercalate ts) := by
    intro as
    induction as with
    | nil => intro ts i h _; cases h; rfl
    | cons a as ih =>
      intro ts i h hi
      rw [List.mapM_cons] at h
      obtain ⟨t, ht, h⟩ := Option.bind_eq_some_iff.1 h
      obtain ⟨ts', hts, h⟩ := Option.bind_eq_some_iff.1 h
      cases h
      rw [arrayLoop, ih ts' (i + 1) hts (by simp at hi; omega)]
      show andThen (printf fmt [a]) _ = _
      rw [ht]
      cases as with
      | nil =>
        cases hts
        rw [if_neg (by simp at hi ⊢; omega)]
        simp [andThen]
      | cons b as =>
        rw [if_pos (by simp at hi ⊢; omega)]
        cases ts' with
        | nil => rw [List.mapM_cons] at hts; obtain ⟨_, _, hts⟩ := Option.bind_eq_some_iff.1 hts; obtain ⟨_, _, hts⟩ := Option.bind_eq_some_iff.1 hts; cases hts
        | cons t2 ts' => simp [andThen, logPrintf, printf, List.intercalate_cons_cons]
  rw [Call.emit, printArray, hl arr texts 0 h (by simp)]
  simp [andThen, logPrintf, printf]

/-- **C105 refuted** for arrays and for `%` in an event name: an array field is printed without `=`, so that a reader finds no key/value pair; an event name is used as a format and a directive in it has no argument. -/
theorem C105_refuted : (∃ t, emitAll true [.begin "ev".toList, .addArray "key".toList [.int 1, .int 2] "%d".toList, .finish] = some t ∧ readLog t = [("ev".toList, [("key[1,2]".toList, none)])]) ∧
    emitAll true [.begin "load-%d".toList, .finish] = none := by
  refine ⟨⟨"ev key[1,2]\n".toList, ?_, ?_⟩, ?_⟩ <;> decide +kernel

/-- Non-vacuity. -/
example : Entry.Ok ⟨"my-event".toList, [("key1".toList, .str "string-value".toList), ("key2".toList, .int 123), ("key3".toList, .bool true), ("key4".toList, .flt 3.14)]⟩ := by
  refine ⟨⟨by decide, by decide⟩, by decide, ?_⟩
  intro f hf
  fin_cases hf <;> refine ⟨⟨by decide, by decide⟩, by decide, ?_⟩ <;> intro s hs <;> cases hs
  exact ⟨by decide, by decide⟩

end Emlearn.Log
