/- Model of the `save` methods of the converted models: `trees.py` 848-917, `net.py` 104-129, `distance.py` 135-147, `bayes.py` 126-138, `mixture.py` 365-377, `neighbors.py` 95-107.
The file system is a map from paths to contents (regular files; paths are compared as strings, POSIX rules). A call returns or raises, and leaves a sequence of states of the file system: every state in which the process may
be killed, the last one being the final one. `open(file, 'w')` truncates; the text then reaches the file in pieces of any size. -/
namespace Emlearn.Save

/-- Exceptions: `ValueError` raised by `save`, an exception of the generator of the text (invalid name, failed assertion, ...), `OSError` of `open`. -/
inductive Err where
  | value | generator | os
  deriving DecidableEq, Repr

abbrev Disk := List Char → Option (List Char)

def Disk.write (d : Disk) (path content : List Char) : Disk := fun p => if p = path then some content else d p

/-- What a call did: its result and the states of the file system. -/
structure Outcome where
  result : Except Err (List Char)
  states : List Disk

/-- `os.path.basename` (POSIX): what follows the last slash. -/
def basename (p : List Char) : List Char := (p.reverse.takeWhile (· ≠ '/')).reverse

/-- `os.path.splitext(p)[0]` for a `p` without slashes: cut at the last dot, unless only dots precede it. -/
def splitextRoot (p : List Char) : List Char :=
  match p.reverse.dropWhile (· ≠ '.') with
  | [] => p
  | _ :: r => if r.all (· == '.') then p else r.reverse

/-- `if file: with open(file, 'w') as f: f.write(code)` and `return code`. `writable`: `open` succeeds. -/
def finish (writable : List Char → Bool) (file : Option (List Char)) (disk : Disk) (code : List Char) : Outcome :=
  match file with
  | none => ⟨.ok code, [disk]⟩
  | some [] => ⟨.ok code, [disk]⟩
  | some f =>
    if writable f then ⟨.ok code, disk :: (List.range (code.length + 1)).map (fun k => disk.write f (code.take k))⟩
    else ⟨.error .os, [disk]⟩

/-- The common part: the name, the text, the file. `distance.py` 135-147 and the corresponding lines of the others. -/
def saveWith (gen : List Char → Except Err (List Char)) (writable : List Char → Bool) (name file : Option (List Char)) (disk : Disk) : Outcome :=
  match name, file with
  | none, none => ⟨.error .value, [disk]⟩
  | none, some f => match gen (splitextRoot (basename f)) with
    | .error e => ⟨.error e, [disk]⟩
    | .ok code => finish writable file disk code
  | some n, _ => match gen n with
    | .error e => ⟨.error e, [disk]⟩
    | .ok code => finish writable file disk code

/-- An exception of a generator. -/
def ofGenerator : Option (List Char) → Except Err (List Char)
  | none => .error .generator
  | some t => .ok t

/-- `distance`, `bayes`, `mixture`, `neighbors`: one generator. -/
def saveOne (gen : List Char → Option (List Char)) := saveWith (fun n => ofGenerator (gen n))

/-- The code of `net.py` 111-123. -/
def netCode (loadable inline : List Char → Option (List Char)) (inference : List String) (name : List Char) : Except Err (List Char) :=
  if "loadable" ∈ inference ∧ "inline" ∈ inference then .error .value
  else if "loadable" ∈ inference then ofGenerator ((loadable name).map fun t => '\n' :: t)
  else if "inline" ∈ inference then ofGenerator ((inline name).map fun t => '\n' :: t)
  else .error .value

/-- `net.py` 104-129. -/
def saveNet (loadable inline : List Char → Option (List Char)) (inference : List String) := saveWith (netCode loadable inline inference)

/-- The code of `trees.py` 866-911. -/
def treesCode (loadable inline : List Char → Option (List Char)) (csv : Option (List Char)) (format : String) (inference : List String) (name : List Char) : Except Err (List Char) :=
  if format = "c" then
    if "loadable" ∈ inference then
      match loadable name with
      | none => .error .generator
      | some t => if "inline" ∈ inference then ofGenerator ((inline name).map fun u => "\n\n".toList ++ t ++ ("\n\n".toList ++ u)) else .ok ("\n\n".toList ++ t)
    else if "inline" ∈ inference then ofGenerator ((inline name).map fun u => "\n\n".toList ++ u)
    else .error .value
  else if format = "csv" then ofGenerator csv
  else .error .value

/-- `trees.py` 848-917. `method`: the strategy given to the constructor. -/
def saveTrees (loadable inline : List Char → Option (List Char)) (csv : Option (List Char)) (method : String) (format : String) (inference : Option (List String)) (writable : List Char → Bool)
    (name file : Option (List Char)) (disk : Disk) : Outcome :=
  match inference with
  | none => saveWith (treesCode loadable inline csv format [method]) writable name file disk
  | some l => if l.length ≠ 1 then ⟨.error .value, [disk]⟩ else saveWith (treesCode loadable inline csv format l) writable name file disk

end Emlearn.Save
