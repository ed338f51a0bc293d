/- Model of a Python session: a history of conversions and predictions over the files that `emlearn/common.py` writes below `tmp/` in the working directory. -/
import Verif.Harness.Model
namespace Emlearn.Session
open Emlearn.Harness

/-- The wrapper classes that compile through `CompiledClassifier`. (`mixture.py` 333-362 builds in a fresh temporary directory at each call and is not in this model.) -/
inductive Family where
  | trees | bayes | net | neighbors | distance
  deriving DecidableEq, Repr

/-- The name each wrapper compiles under: `trees.py` 748, `bayes.py` 113, `net.py` 57, `neighbors.py` 48, `distance.py` 105. -/
def Family.name : Family → String
  | .trees => "mytree"
  | .bayes => "mybayes"
  | .net => "mynet"
  | .neighbors => "mymodel"
  | .distance => "my_inline_elliptic"

/-- What a wrapper passes to `CompiledClassifier`, `common.py` 161-165: the generated code, the calls, the number of classes; `isInt` is `out_dtype='int'`. Wrappers without `predict_proba` have no `probaCall`
(`trees.py` 816-823, `net.py` 58-88, `bayes.py` 112-116, `neighbors.py` 84, `distance.py` 108). -/
structure Request where
  family : Family
  code : String
  call : String
  probaCall : Option String
  nClasses : Nat
  isInt : Bool

/-- A file below `tmp/`: text, or an executable. -/
inductive File (E : Type) where
  | text (s : String)
  | exe (e : E)

/-- A file, by the working directory it is seen from and its name below `tmp/` (all paths are relative: `temp_dir='tmp'`, `common.py` 161). Directories are absolute and distinct ones have distinct `tmp`. -/
abbrev Path := String × String

abbrev Disk (E : Type) := Path → Option (File E)

/-- `open(path, 'w')`, or the linker's output: the file is replaced. -/
def Disk.write {E : Type} (d : Disk E) (p : Path) (f : File E) : Disk E := fun q => if q = p then some f else d q

/-- The C program, `common.py` 73-105: `if n_classes:` selects the second form. -/
def mainText (name func : String) (nClasses : Option Nat) : String :=
  match nClasses with
  | some (n + 1) =>
    "\n        #include \"" ++ name ++ ".h\"\n        #include <eml_test.h>\n\n        #define N_CLASSES " ++ toString (n + 1) ++
    "\n        float outputs[N_CLASSES] = {0.0};\n\n        static void classify_proba(const float *values, int length, int row) {\n            " ++ func ++
    "; // TODO: handle error\n            for (int class_no=0; class_no<N_CLASSES; class_no++) {\n                const float prob = outputs[class_no];\n                printf(\"%d,%d,%f\\n\", row, class_no, (double)prob);\n            }\n        }\n        int main() {\n            eml_test_read_csv(stdin, classify_proba);\n        }\n        "
  | _ =>
    "\n        #include \"" ++ name ++ ".h\"\n        #include <eml_test.h>\n\n        static void classify(const float *values, int length, int row) {\n            printf(\"%d,%f\\n\", row, (double)" ++ func ++
    ");\n        }\n        int main() {\n            eml_test_read_csv(stdin, classify);\n        }\n        "

section
variable {E : Type} (cc : String → String → Option E) (run : E → List Char → Option (List Char))

/-- `build_classifier`, `common.py` 38-119: writes the header and the program, compiles and links them (`cc program header`; `none` is a compile error, which raises and leaves an executable that was there). Returns whether it
succeeded; the path it returns is `tmp/` and the name. -/
def build (d : Disk E) (cwd name code func : String) (nClasses : Option Nat) : Disk E × Bool :=
  let d := d.write (cwd, name ++ ".h") (.text code)
  let d := d.write (cwd, name ++ ".c") (.text (mainText name func nClasses))
  match cc (mainText name func nClasses) code with
  | none => (d, false)
  | some e => (d.write (cwd, name) (.exe e), true)

/-- A `CompiledClassifier` object: the two paths (below `tmp/`), the number of classes, the output type. -/
structure Compiled where
  bin : String
  probaBin : Option String
  nClasses : Nat
  isInt : Bool

/-- `CompiledClassifier.__init__`, `common.py` 161-180: `none` is an exception. -/
def construct (d : Disk E) (cwd : String) (r : Request) : Disk E × Option Compiled :=
  let name := r.family.name
  match build cc d cwd name r.code r.call none with
  | (d, false) => (d, none)
  | (d, true) =>
    match r.probaCall with
    | none => (d, some ⟨name, none, r.nClasses, r.isInt⟩)
    | some pc =>
      match build cc d cwd (name ++ "_proba") r.code pc (some r.nClasses) with
      | (d, false) => (d, none)
      | (d, true) => (d, some ⟨name, some (name ++ "_proba"), r.nClasses, r.isInt⟩)

/-- The subprocess of `run_classifier`, `common.py` 121-140: `none` when there is no executable at the path, or it fails. -/
def runFile (d : Disk E) (cwd bin : String) (X : List (List ℚ)) : Option (List Char) :=
  match d (cwd, bin) with
  | some (.exe e) => run e (serialize X)
  | _ => none

/-- The output of the program as predictions, `common.py` 142-158 and 182-187. -/
def readPredictions (isInt : Bool) (X : List (List ℚ)) (out : List Char) : Option (List ℚ) :=
  (mapOpt (fun l => (parsePrediction l).map fun q => if isInt then (pyInt q : ℚ) else q) (outputLines out)).bind fun r => if r.length = X.length then some r else none

/-- The output of the program as probabilities, `common.py` 199-205. -/
def readProba (nClasses : Nat) (X : List (List ℚ)) (out : List Char) : Option (Nat → Nat → Option ℚ) :=
  (mapOpt parseProba (outputLines out)).bind fun r => fillProba X.length nClasses r (fun _ _ => none)

/-- `CompiledClassifier.predict`, `common.py` 182-187. -/
def Compiled.predict (c : Compiled) (d : Disk E) (cwd : String) (X : List (List ℚ)) : Option (List ℚ) := (runFile run d cwd c.bin X).bind (readPredictions c.isInt X)

/-- `CompiledClassifier.predict_proba`, `common.py` 189-205. -/
def Compiled.predictProba (c : Compiled) (d : Disk E) (cwd : String) (X : List (List ℚ)) : Option (Nat → Nat → Option ℚ) :=
  match c.probaBin with
  | none => none
  | some bin => (runFile run d cwd bin X).bind (readProba c.nClasses X)

/-- A converted model held by the user: tree wrappers keep what they compile from (`trees.py` 742: `_classifier` stays `None`), the others a compiled classifier. -/
inductive Wrapper where
  | tree (r : Request)
  | compiled (c : Compiled)

/-- The session: the files, the working directory, the models converted so far in order. -/
structure State (E : Type) where
  disk : Disk E
  cwd : String
  objs : List Wrapper

/-- What the user does. `predict i X` calls `predict` of the `i`-th converted model. -/
inductive Op where
  | convert (r : Request)
  | predict (i : Nat) (X : List (List ℚ))
  | predictProba (i : Nat) (X : List (List ℚ))
  | chdir (dir : String)

/-- `convert(...)`: tree wrappers compile nothing (`trees.py` 682-742); the others compile in their constructor (`bayes.py` 112-116, `net.py` 58-88, `neighbors.py` 53-84, `distance.py` 104-108), and there is no object if that raises. -/
def convertOp (st : State E) (r : Request) : State E :=
  if r.family = .trees then { st with objs := st.objs ++ [.tree r] }
  else
    match construct cc st.disk st.cwd r with
    | (d, none) => { st with disk := d }
    | (d, some c) => { st with disk := d, objs := st.objs ++ [.compiled c] }

/-- `predict(X)` of a wrapper. For trees (`trees.py` 744-746, 829-837): `_build_classifier` compares `self._classifier`, which is never assigned after the constructor, with `None`, and so compiles at every call. -/
def predictOp (st : State E) (i : Nat) (X : List (List ℚ)) : State E × Option (List ℚ) :=
  match st.objs[i]? with
  | none => (st, none)
  | some (.compiled c) => (st, c.predict run st.disk st.cwd X)
  | some (.tree r) =>
    match construct cc st.disk st.cwd r with
    | (d, none) => ({ st with disk := d }, none)
    | (d, some c) => ({ st with disk := d }, c.predict run d st.cwd X)

/-- `predict_proba(X)` of a wrapper (`trees.py` 839-846, `net.py` 92-93). -/
def probaOp (st : State E) (i : Nat) (X : List (List ℚ)) : State E × Option (Nat → Nat → Option ℚ) :=
  match st.objs[i]? with
  | none => (st, none)
  | some (.compiled c) => (st, c.predictProba run st.disk st.cwd X)
  | some (.tree r) =>
    match construct cc st.disk st.cwd r with
    | (d, none) => ({ st with disk := d }, none)
    | (d, some c) => ({ st with disk := d }, c.predictProba run d st.cwd X)

def step (st : State E) : Op → State E
  | .convert r => convertOp cc st r
  | .predict i X => (predictOp cc run st i X).1
  | .predictProba i X => (probaOp cc run st i X).1
  | .chdir dir => { st with cwd := dir }

/-- A whole history, from no files below `tmp/` in any directory. -/
def session (cwd : String) (ops : List Op) : State E := ops.foldl (step cc run) ⟨fun _ => none, cwd, []⟩

end
end Emlearn.Session
