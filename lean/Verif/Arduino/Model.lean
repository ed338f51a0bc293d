/- Model of `emlearn/arduino/install.py` (and `emlearn/utils/fileutils.py`, Python's `glob`/`fnmatch` on POSIX): installing the C library for Arduino.
Paths are absolute and normalised; no symbolic links, no permissions. -/
namespace Emlearn.Arduino

abbrev Name := List Char
abbrev Path := List Name

/-- A file with its bytes, or a directory. -/
inductive Node where
  | file (bytes : List Nat)
  | dir
  deriving DecidableEq

/-- A file system: entries in directory order. -/
abbrev FS := List (Path × Node)

/-- What is at a path; the root always exists. -/
def get (fs : FS) (p : Path) : Option Node := if p = [] then some .dir else (fs.find? fun e => e.1 = p).map (·.2)

/-- `os.path.exists`. -/
def pathExists (fs : FS) (p : Path) : Prop := get fs p ≠ none

instance (fs : FS) (p : Path) : Decidable (pathExists fs p) := inferInstanceAs (Decidable (_ ≠ _))

/-- Create or replace an entry. -/
def put (fs : FS) (p : Path) (n : Node) : FS := (p, n) :: fs.filter fun e => e.1 ≠ p

/-- `os.listdir`, names in directory order. -/
def listdir (fs : FS) (d : Path) : List Name := fs.filterMap fun e => if e.1.dropLast = d then e.1.getLast? else none

/-- `os.mkdir`: `none` is an exception. -/
def mkdir (fs : FS) (p : Path) : Option FS := if get fs p = none ∧ get fs p.dropLast = some .dir then some (put fs p .dir) else none

/-- `ensure_dir_single`, `fileutils.py` 4-11. -/
def ensureDirSingle (fs : FS) (p : Path) : Option FS := if pathExists fs p then some fs else mkdir fs p

/-- A character set `[...]` of a pattern, with ranges. -/
def inSet (c : Char) : List Char → Bool
  | a :: '-' :: b :: s => (a ≤ c && c ≤ b) || inSet c s
  | a :: s => c == a || inSet c s
  | [] => false

/-- The contents of a set after `[`: text up to the closing bracket (a `]` right at the start, or after `!`, belongs to the set), and the rest; `none` if there is no closing bracket. -/
def splitSet (s : List Char) : Option (List Char × List Char) :=
  let neg := if s.head? = some '!' then 1 else 0
  let k := if (s.drop neg).head? = some ']' then neg + 1 else neg
  match (s.drop k).dropWhile (· ≠ ']') with
  | [] => none
  | _ :: r => some (s.take k ++ (s.drop k).takeWhile (· ≠ ']'), r)

/-- Python's `fnmatch`: does the name match the pattern? `fuel` bounds the pattern length plus the name length. -/
def fnmatchF : Nat → List Char → List Char → Bool
  | 0, _, _ => false
  | _ + 1, [], s => s.isEmpty
  | n + 1, '*' :: p, s => fnmatchF n p s || (match s with | [] => false | _ :: s' => fnmatchF n ('*' :: p) s')
  | n + 1, '?' :: p, s => match s with | [] => false | _ :: s' => fnmatchF n p s'
  | n + 1, '[' :: p, s => match s with
    | [] => false
    | c :: s' => match splitSet p with
      | none => c == '[' && fnmatchF n p s'
      | some ('!' :: set, r) => !inSet c set && fnmatchF n r s'
      | some (set, r) => inSet c set && fnmatchF n r s'
  | n + 1, a :: p, s => match s with | [] => false | c :: s' => c == a && fnmatchF n p s'

def fnmatch (pat s : List Char) : Bool := fnmatchF (pat.length + s.length + 1) pat s

/-- `glob.has_magic` of one component. -/
def magic (n : Name) : Bool := n.any fun c => c == '*' || c == '?' || c == '['

/-- `_glob1` and `_glob0`: the paths in directory `d` that match a last component. Hidden names match hidden patterns only. -/
def globIn (fs : FS) (pat : Name) (d : Path) : List Path :=
  if magic pat then ((listdir fs d).filter fun n => (pat.head? == some '.' || n.head? != some '.') && fnmatch pat n).map fun n => d ++ [n]
  else if pathExists fs (d ++ [pat]) then [d ++ [pat]] else []

/-- `glob.glob` of a directory pattern, its components in reverse order. -/
def globRev (fs : FS) : List Name → List Path
  | [] => [[]]
  | c :: up => if (c :: up).any magic then
      (if up.any magic then globRev fs up else [up.reverse]).flatMap (globIn fs c)
    else if pathExists fs (c :: up).reverse then [(c :: up).reverse] else []

/-- `glob.glob(os.path.join(dir, pat))`. -/
def glob (fs : FS) (dir : Path) (pat : Name) : List Path := globRev fs (pat :: dir.reverse)

/-- `shutil.copy(src, dstdir + '/')`: `none` is an exception (source not a file, target a directory, no such directory, or source and target the same file). -/
def copy (fs : FS) (src dstdir : Path) : Option FS :=
  if get fs dstdir = some .dir then
    let dst := dstdir ++ [src.getLastD []]
    if src = dst then none
    else match get fs src with
      | some (.file b) => if get fs dst = some .dir then none else some (put fs dst (.file b))
      | _ => none
  else none

/-- The inner loop of `install_arduino_library`, `install.py` 40-41. The files copied before an exception stay. -/
def copyAll (lib : Path) : List Path → FS → Bool × FS
  | [], fs => (true, fs)
  | f :: rest, fs => match copy fs f lib with
    | some fs' => copyAll lib rest fs'
    | none => (false, fs)

/-- How an installation ends: with the library directory, with the error that asks for `--update`, or with another exception. -/
inductive Outcome where
  | installed (dir : Path)
  | alreadyExists
  | failed
  deriving DecidableEq

def headerPattern : Name := "eml_*.h".toList
def versionFile : Name := "VERSION.txt".toList

/-- `install_arduino_library`, `install.py` 19-43: outcome and file system afterwards. -/
def install (fs : FS) (include_ libs : Path) (update : Bool) : Outcome × FS :=
  let lib := libs ++ ["emlearn".toList]
  if pathExists fs lib ∧ update = false then (.alreadyExists, fs)
  else match ensureDirSingle fs libs with
    | none => (.failed, fs)
    | some fs1 => match ensureDirSingle fs1 lib with
      | none => (.failed, fs1)
      | some fs2 =>
        let r := copyAll lib (glob fs2 include_ headerPattern) fs2
        if r.1 then
          let r2 := copyAll lib (glob r.2 include_ versionFile) r.2
          (if r2.1 then .installed lib else .failed, r2.2)
        else (.failed, r.2)

end Emlearn.Arduino
