/- Model of `emlearn/eml_csv.h` (writer and reader over a byte stream). Characters stand for bytes. -/
import Verif.Common
namespace Emlearn.Csv

/-- `EML_CSV_DELIMITER`, `eml_csv.h` 14-16. -/
def delim : Char := ','
/-- `EML_CSV_EOL`, `eml_csv.h` 18. -/
def eol : Char := '\n'
/-- `EML_CSV_FLOAT_MAXSIZE`, `eml_csv.h` 20-22. -/
def maxSize : Nat := 20

/-- `EmlCsvWriter`, `eml_csv.h` 40-48; the stream is an append-only file whose `write` callback never fails (the code ignores its result). -/
structure Writer where
  nColumns : Nat
  out : List Char

/-- `eml_csv_writer_write_header`, `eml_csv.h` 52-76; the loop over `columns` with `is_last`. -/
def headerLoop : List (List Char) → List Char → List Char
  | [], out => out
  | [c], out => out ++ c
  | c :: cs, out => headerLoop cs (out ++ c ++ [delim])

def writeHeader (w : Writer) (columns : List (List Char)) : Writer × EmlError :=
  ({ nColumns := columns.length, out := headerLoop columns w.out ++ [eol] }, .ok)

/-- The loop of `eml_csv_writer_write_data`, `eml_csv.h` 87-98. `fmt` is what `snprintf("%.6f")` produces for a value; `written >= max` returns `EmlUnsupported` at once,
keeping what earlier iterations wrote. -/
def dataLoop {F : Type} (fmt : F → List Char) : List F → List Char → List Char × Bool
  | [], out => (out, true)
  | v :: vs, out =>
    if (fmt v).length ≥ maxSize then (out, false)
    else if vs.isEmpty then dataLoop fmt vs (out ++ fmt v)
    else dataLoop fmt vs (out ++ (fmt v ++ [delim]))

/-- `eml_csv_writer_write_data`, `eml_csv.h` 78-102. -/
def writeData {F : Type} (fmt : F → List Char) (w : Writer) (data : List F) : Writer × EmlError :=
  if w.nColumns = data.length then
    match dataLoop fmt data w.out with
    | (out, true) => ({ w with out := out ++ [eol] }, .ok)
    | (out, false) => ({ w with out := out }, .unsupported)
  else (w, .sizeMismatch)

/-- `EmlCsvReader`, `eml_csv.h` 28-37; `file`/`pos` are the stream behind the callbacks: `read` delivers `min size remaining` bytes and advances, `seek` is absolute and
succeeds exactly on the positions in `seekOk` (the environment decides). -/
structure Reader where
  nColumns : Nat
  loc : Nat
  file : List Char
  pos : Nat
  seekOk : Nat → Bool

/-- State of the parse loop: the caller's buffer (mutated), start offsets stored in `columns[]`. -/
structure Parse where
  buffer : List Char
  columns : List Nat
  start : Nat

/-- The loop of `eml_csv_reader_read_internal`, `eml_csv.h` 126-153: `k` iterations remain (`offset + k = read_length`); `none` is the parse-too-many-columns return. -/
def parseLoop (columnsLength : Nat) : Nat → Nat → Parse → Option (Parse × Nat)
  | 0, offset, p => some (p, offset)
  | k + 1, offset, p =>
    if p.columns.length ≥ columnsLength then none
    else
      match p.buffer[offset]? with
      | none => none   -- not reachable: `offset < read_length <= buffer_length`
      | some c =>
        if c = delim then
          parseLoop columnsLength k (offset + 1) { buffer := p.buffer.set offset '\x00', columns := p.columns ++ [p.start], start := offset + 1 }
        else if c = eol then
          some ({ buffer := p.buffer.set offset '\x00', columns := p.columns ++ [p.start], start := offset + 1 }, offset)
        else parseLoop columnsLength k (offset + 1) p

/-- `eml_csv_reader_read_internal`, `eml_csv.h` 106-159: result, the advanced stream. `buffer` is the caller's buffer with its old contents. -/
def readInternal (r : Reader) (buffer : List Char) (columnsLength : Nat) : Reader × Option (Parse × Nat) :=
  let got := (r.file.drop r.pos).take buffer.length
  let r' := { r with pos := r.pos + got.length }
  (r', parseLoop columnsLength got.length 0 { buffer := got ++ buffer.drop got.length, columns := [], start := 0 })

/-- The C string starting at `columns[i]` in the buffer. -/
def cstr (buffer : List Char) (o : Nat) : List Char := (buffer.drop o).takeWhile (· ≠ '\x00')

/-- The column strings the caller sees. -/
def Parse.strings (p : Parse) : List (List Char) := p.columns.map (cstr p.buffer)

/-- `eml_csv_reader_read_header`, `eml_csv.h` 162-184. -/
def readHeader (r : Reader) (buffer : List Char) (columnsLength : Nat) : Reader × EmlError × List (List Char) :=
  match readInternal r buffer columnsLength with
  | (r, none) => (r, .unknownError, [])
  | (r, some (p, chars)) =>
    let r := { r with nColumns := p.columns.length, loc := chars + 1 }
    if r.seekOk r.loc then ({ r with pos := r.loc }, .ok, p.strings) else (r, .unknownError, p.strings)

/-- `eml_csv_reader_read_data`, `eml_csv.h` 188-224: return value and the column strings stored. `EML_PRECONDITION` returns the bare enum value `EmlSizeMismatch` = 1;
`EmlUnknownError` is 5 (`eml_common.h` 20-28). -/
def readData (r : Reader) (buffer : List Char) (columnsLength : Nat) : Reader × Int × List (List Char) :=
  if columnsLength ≥ r.nColumns then
    match readInternal r buffer columnsLength with
    | (r, none) => (r, -5, [])
    | (r, some (p, chars)) =>
      if chars = 0 then (r, 0, p.strings)
      else if p.columns.length ≠ r.nColumns then (r, -5, p.strings)
      else
        let r := { r with loc := r.loc + chars + 1 }
        if r.seekOk r.loc then ({ r with pos := r.loc }, p.columns.length, p.strings) else (r, -5, p.strings)
  else (r, 1, [])

end Emlearn.Csv
