/- Model of the rest of `emlearn/evaluate/size.py` (21-35, 85-95, 97-234) with the two makefiles `emlearn/platforms/avr/Makefile` and `emlearn/platforms/arm-cortex/Makefile`: building a program for a microcontroller
and reporting its size. What the programs of the toolchain do is arbitrary (`World`); every call yields its outcome and the list of what it did, in order. -/
import Verif.Evaluate.Size
import Mathlib.Data.List.Dedup
namespace Emlearn.SizeTool

abbrev Str := List Char

/-- The two platforms: the keys of `PLATFORM_BUILDERS`, `size.py` 167-170. -/
inductive Platform where
  | avr
  | arm
  deriving DecidableEq, Repr

/-- `platform in PLATFORM_BUILDERS`, `size.py` 182-183. -/
def platformOf (s : Str) : Option Platform :=
  if s = "avr".toList then some .avr else if s = "arm".toList then some .arm else none

/-- `PLATFORM_COMPILER_COMMAND`, `size.py` 175-178; also `CC` of the makefiles. -/
def compilerOf : Platform → Str
  | .avr => "avr-gcc".toList
  | .arm => "arm-none-eabi-gcc".toList

/-- `PLATFORM_SIZE_COMMAND`, `size.py` 171-174. -/
def sizeOf : Platform → Str
  | .avr => "avr-size".toList
  | .arm => "arm-none-eabi-size".toList

/-- `OBJCOPY` of the makefiles. -/
def objcopyOf : Platform → Str
  | .avr => "avr-objcopy".toList
  | .arm => "arm-none-eabi-objcopy".toList

/-- `ARM_CORTEX_CFLAGS`, `size.py` 21-26. -/
def armFlags (mcu : Str) : Option Str :=
  if mcu = "Cortex-M0".toList then some "-mthumb -mcpu=cortex-m0".toList
  else if mcu = "Cortex-M0+".toList then some "-mthumb -mcpu=cortex-m0plus".toList
  else if mcu = "Cortex-M3".toList then some "-mthumb -mcpu=cortex-m3".toList
  else if mcu = "Cortex-M4F".toList then some "-mthumb -mcpu=cortex-m4 -mfpu=fpv4-sp-d16 -mfloat-abi=hard".toList
  else none

/-- The surroundings of a call. -/
structure World where
  /-- The program can be found on the path. -/
  installed : Str → Bool
  /-- With this text in `prog.c`, the program with these arguments ends with exit code 0. -/
  succeeds : Str → List Str → Bool
  /-- What it prints. -/
  output : Str → List Str → List Char
  /-- `out.elf` is there after a successful build. -/
  elfExists : Str → Bool
  /-- The makefile that comes with the package is there. -/
  makefileExists : Platform → Bool
  /-- The directory of the makefiles, `platforms_dir`, and the temporary directory. -/
  platforms : Str
  tmp : Str
  /-- The words of a command line that has characters special to make or to the shell. -/
  expand : Str → List Str
  /-- `common.get_include_dir()`. -/
  include_ : Str

/-- The exceptions. -/
inductive Exc where
  | valueError (msg : Str)
  | assertion
  | notFound (program : Str)
  | calledProcess (argv : List Str)
  | badOutput
  deriving DecidableEq, Repr

/-- What is done, in order. A program that make starts is listed after make. -/
inductive Event where
  | mkTemp
  | write (file : Str) (content : Str)
  | exec (argv : List Str)
  | rmTemp
  deriving DecidableEq, Repr

/-- Characters that make or the shell treat specially in a command line. -/
def special (c : Char) : Bool := c ∈ "$#\\\"'`*?[]{}()<>;&|~!\n\r".toList

def blank (c : Char) : Bool := c == ' ' || c == '\t'

/-- The words of a text between blanks; `cur` is the word being read, reversed. -/
def wordsFrom : Str → Str → List Str
  | cur, [] => if cur = [] then [] else [cur.reverse]
  | cur, c :: t => if blank c then (if cur = [] then wordsFrom [] t else cur.reverse :: wordsFrom [] t) else wordsFrom (c :: cur) t

def words (s : Str) : List Str := wordsFrom [] s

/-- The arguments a recipe line of a makefile results in: split at blanks if no character is special. -/
def cmdWords (w : World) (line : Str) : List Str := if line.any special then w.expand line else words line

/-- `' '.join(...)`. -/
def spaced : List Str → Str
  | [] => []
  | [a] => a
  | a :: b :: l => a ++ ' ' :: spaced (b :: l)

/-- `CFLAGS` of the makefiles: `avr/Makefile` 8, `arm-cortex/Makefile` 13. `flags` is `MCU` resp. `ARM_CORTEX_CFLAGS`. -/
def cflags (p : Platform) (flags extra : Str) : Str :=
  match p with
  | .avr => "-Wall -Os -DF_CPU=16000000UL -mmcu=".toList ++ flags ++ ' ' :: extra
  | .arm => "-Wall -Os ".toList ++ flags ++ ' ' :: extra ++ " ".toList

/-- The implicit rule of make for `prog.o`: `$(CC) $(CFLAGS) $(CPPFLAGS) $(TARGET_ARCH) -c -o prog.o prog.c`, the latter two empty. -/
def compileLine (p : Platform) (flags extra : Str) : Str := compilerOf p ++ ' ' :: cflags p flags extra ++ "   -c -o prog.o prog.c".toList

/-- The rule for `out.elf`: `avr/Makefile` 13-14, `arm-cortex/Makefile` 18-19. -/
def linkLine (p : Platform) (flags : Str) : Str :=
  match p with
  | .avr => compilerOf p ++ " -mmcu=".toList ++ flags ++ " -o out.elf prog.o".toList
  | .arm => compilerOf p ++ " --specs=nosys.specs ".toList ++ flags ++ " -o out.elf prog.o".toList

/-- The first rule of the makefiles, which is what make builds when no target is named, `out.hex`: `avr/Makefile` 10-11, `arm-cortex/Makefile` 15-16. -/
def hexLine (p : Platform) : Str := objcopyOf p ++ " -O ihex -R .eeprom out.elf out.hex".toList

/-- The recipe lines make runs, in the order of the dependencies. -/
def recipe (p : Platform) (flags extra : Str) : List Str := [compileLine p flags extra, linkLine p flags, hexLine p]

/-- Running the recipe lines: stop at the first that cannot be started or fails. -/
def runRecipe (w : World) (code : Str) : List Str → Bool × List Event
  | [] => (true, [])
  | line :: rest =>
    match cmdWords w line with
    | [] => runRecipe w code rest
    | prog :: args =>
      if w.installed prog then
        if w.succeeds code (prog :: args) then ((runRecipe w code rest).1, .exec (prog :: args) :: (runRecipe w code rest).2)
        else (false, [.exec (prog :: args)])
      else (false, [])

/-- The path of the makefile, `size.py` 103-104, 135-136. -/
def makefileOf (w : World) : Platform → Str
  | .avr => w.platforms ++ "/avr/Makefile".toList
  | .arm => w.platforms ++ "/arm-cortex/Makefile".toList

/-- The arguments of make, `size.py` 113-120, 150-157. -/
def makeArgs (w : World) (p : Platform) (flags extra : Str) : List Str :=
  match p with
  | .avr => ["make".toList, "-f".toList, makefileOf w p, "OBJS=prog.o".toList, "MCU=".toList ++ flags, "BIN=out".toList, "EXTRA_CFLAGS=".toList ++ extra]
  | .arm => ["make".toList, "-f".toList, makefileOf w p, "OBJS=prog.o".toList, "BIN=out".toList, "ARM_CORTEX_CFLAGS=".toList ++ flags, "EXTRA_CFLAGS=".toList ++ extra]

/-- `os.path.join(work_dir, 'out.elf')`, `size.py` 123, 160. -/
def elfPath (w : World) : Str := w.tmp ++ "/out.elf".toList

/-- From the call of make to the check of its result, `size.py` 121-126, 158-163. -/
def runMake (w : World) (code : Str) (p : Platform) (flags extra : Str) : Except Exc Str × List Event :=
  if w.installed "make".toList then
    if (runRecipe w code (recipe p flags extra)).1 then
      (if w.elfExists code then .ok (elfPath w) else .error .assertion, .exec (makeArgs w p flags extra) :: (runRecipe w code (recipe p flags extra)).2)
    else (.error (.calledProcess (makeArgs w p flags extra)), .exec (makeArgs w p flags extra) :: (runRecipe w code (recipe p flags extra)).2)
  else (.error (.notFound "make".toList), [])

/-- The message of an unknown Cortex type, `size.py` 147. Simplification: the options, which are printed in the order of a set, are left out. -/
def mcuMessage (mcu : Str) : Str := "Unsupported ARM CPU type: '".toList ++ mcu ++ "'.".toList

/-- `build_avr8_code`, `build_arm_cortex_code`, `size.py` 97-163, with the default makefile. -/
def build (w : World) (code mcu : Str) (p : Platform) (extra : Str) : Except Exc Str × List Event :=
  if w.makefileExists p then
    match p with
    | .avr => ((runMake w code p mcu extra).1, .write "prog.c".toList code :: (runMake w code p mcu extra).2)
    | .arm =>
      match armFlags mcu with
      | none => (.error (.valueError (mcuMessage mcu)), [.write "prog.c".toList code])
      | some flags => ((runMake w code p flags extra).1, .write "prog.c".toList code :: (runMake w code p flags extra).2)
  else (.error .assertion, [])

/-- `run_binutils_size`, `size.py` 75-95. -/
def runSize (w : World) (code : Str) (p : Platform) (elf : Str) : Except Exc Size.Sizes × List Event :=
  if w.installed (sizeOf p) then
    if w.succeeds code [sizeOf p, "-A".toList, elf] then
      (match Size.sizes (w.output code [sizeOf p, "-A".toList, elf]) with
       | some r => .ok r
       | none => .error .badOutput, [.exec [sizeOf p, "-A".toList, elf]])
    else (.error (.calledProcess [sizeOf p, "-A".toList, elf]), [.exec [sizeOf p, "-A".toList, elf]])
  else (.error (.notFound (sizeOf p)), [])

/-- The message of `assert_valid_platform`, `size.py` 184: the text is not an f-string, so nothing is filled in. -/
def platformMessage : Str := "Unsupported build platform '{platform}'. Supported: {','.join(supported_platforms)}".toList

/-- `cflags = ' '.join([ f"-I{d}" for d in include_dirs ])`, `size.py` 198-203. -/
def includeFlags (w : World) (dirs : Option (List Str)) : Str := spaced ((dirs.getD [w.include_]).map fun d => "-I".toList ++ d)

/-- The body of the `with`, `size.py` 207-214: the size is asked for only after the build. Printing the output of a failed build is left out. -/
def inTemp (w : World) (code mcu : Str) (p : Platform) (extra : Str) : Except Exc Size.Sizes × List Event :=
  match (build w code mcu p extra).1 with
  | .error e => (.error e, (build w code mcu p extra).2)
  | .ok elf => ((runSize w code p elf).1, (build w code mcu p extra).2 ++ (runSize w code p elf).2)

/-- `get_program_size`, `size.py` 186-216. -/
def getProgramSize (w : World) (code platform mcu : Str) (dirs : Option (List Str)) : Except Exc Size.Sizes × List Event :=
  match platformOf platform with
  | none => (.error (.valueError platformMessage), [])
  | some p => ((inTemp w code mcu p (includeFlags w dirs)).1, .mkTemp :: (inTemp w code mcu p (includeFlags w dirs)).2 ++ [.rmTemp])

/-- `', '.join(...)`. -/
def commas : List Str → Str
  | [] => []
  | [a] => a
  | a :: b :: l => a ++ ", ".toList ++ commas (b :: l)

/-- `check_programs`, `size.py` 28-35. `order` is the order in which the set is listed. -/
def checkPrograms (w : World) (order : List Str → List Str) (programs : List Str) : Option Str :=
  let missing := programs.dedup.filter fun p => !w.installed p
  if missing = [] then none else some ("Missing programs: ".toList ++ commas (order missing))

/-- `check_build_tools`, `size.py` 218-234. -/
def checkBuildTools (w : World) (order : List Str → List Str) (platform : Str) : Except Exc (Option Str) :=
  match platformOf platform with
  | none => .error (.valueError platformMessage)
  | some p => .ok (checkPrograms w order ["make".toList, compilerOf p, sizeOf p])

end Emlearn.SizeTool
