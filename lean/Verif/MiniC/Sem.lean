/- What a program of `MiniC/Syntax.lean` does when one of its functions is called. Part of the specification (C semantics), not a model of code in `/repo`.
`none` stands for undefined behaviour (access outside an array, use of an indeterminate value, signed overflow, ...), for a program that does not compile, or for something outside
the part of C covered here. `float` arithmetic is arbitrary (`CFloat`). `int` has 32 bits. -/
import Verif.Common
import Verif.Decimal
import Verif.MiniC.Syntax
namespace Emlearn.MiniC

/-- Arbitrary `float` arithmetic with literals (sign and magnitude) and conversion to integers (`none`: the value does not fit). -/
structure CFloat (F : Type) extends FOps F where
  lit : Bool → ℚ → F
  toInt : F → Option Int

inductive Val (F : Type) where
  | int (z : Int)
  | flt (x : F)
  deriving DecidableEq, Repr

/-- Smallest and largest value of an integer type; enumerations are `int`. -/
def intRange (ty : List Char) : Option (Int × Int) :=
  if ty = "int".toList ∨ ty = "int32_t".toList ∨ ty = "EmlError".toList ∨ ty = "eml_q16_t".toList ∨ ty = "eml_fixed32_t".toList then some (-2147483648, 2147483647)
  else if ty = "int16_t".toList then some (-32768, 32767)
  else if ty = "uint16_t".toList then some (0, 65535)
  else if ty = "int8_t".toList then some (-128, 127)
  else if ty = "uint8_t".toList then some (0, 255)
  else none

/-- Reduction modulo the width of the type. -/
def wrapRange (r : Int × Int) (z : Int) : Int := (z - r.1) % (r.2 - r.1 + 1) + r.1

variable {F : Type}

/-- Conversion of a value to a type. -/
def conv (ops : CFloat F) (ty : List Char) (v : Val F) : Option (Val F) :=
  if ty = "float".toList then
    match v with
    | .int z => some (.flt (ops.ofInt z))
    | .flt x => some (.flt x)
  else
    match intRange ty with
    | none => none
    | some r =>
      match v with
      | .int z => some (.int (wrapRange r z))
      | .flt x =>
        match ops.toInt x with
        | some z => if r.1 ≤ z ∧ z ≤ r.2 then some (.int z) else none
        | none => none

/-- A variable: a number, or an array whose elements may be indeterminate. -/
inductive Slot (F : Type) where
  | scalar (ty : List Char) (v : Val F)
  | array (ty : List Char) (vs : List (Option (Val F)))

/-- What a call passes: a number, the elements of an array, or the address of a variable of the program. -/
inductive ArgVal (F : Type) where
  | num (v : Val F)
  | arr (ty : List Char) (vs : List (Option (Val F)))
  | ref (g : List Char)

abbrev Env (F : Type) := List Char → Option (Slot F)

def Env.set (env : Env F) (x : List Char) (s : Option (Slot F)) : Env F := fun y => if y = x then s else env y

/-- Value of a number: a decimal number with `f` is a `float`, digits (not octal) are an `int`. Of the numbers of type `double` only zero is covered: as an operand or initial value it acts like the `float` zero. -/
def litVal (ops : CFloat F) (s : List Char) (neg : Bool) : Option (Val F) :=
  if s.getLast? = some 'f' then (readDec s.dropLast).map fun q => .flt (ops.lit neg q)
  else if s.head? = some '0' ∧ 1 < s.length then if readDec s = some 0 then some (.flt (ops.lit neg 0)) else none
  else
    match readNat s with
    | some n => if n ≤ 2147483647 then some (.int (if neg then -(n : Int) else n)) else none
    | none => none

/-- `int` arithmetic: overflow is undefined. -/
def checked (z : Int) : Option (Val F) := if -2147483648 ≤ z ∧ z ≤ 2147483647 then some (.int z) else none

def toFloat (ops : CFloat F) : Val F → F
  | .int z => ops.ofInt z
  | .flt x => x

def boolVal (b : Bool) : Val F := .int (if b then 1 else 0)

def binVal (ops : CFloat F) (op : Char) (a b : Val F) : Option (Val F) :=
  match a, b with
  | .int x, .int y =>
    if op = '+' then checked (x + y) else if op = '-' then checked (x - y) else if op = '*' then checked (x * y)
    else if op = '/' then (if y = 0 then none else checked (x.tdiv y))
    else if op = '<' then some (boolVal (decide (x < y))) else if op = '>' then some (boolVal (decide (y < x)))
    else if op = '!' then some (boolVal (decide (x ≠ y))) else none
  | a, b =>
    let x := toFloat ops a
    let y := toFloat ops b
    if op = '+' then some (.flt (ops.add x y)) else if op = '*' then some (.flt (ops.mul x y)) else if op = '/' then some (.flt (ops.div x y))
    else if op = '<' then some (boolVal (ops.lt x y)) else if op = '>' then some (boolVal (ops.lt y x)) else none

/-- Result of a call: the returned value and the arrays written through pointers (by position of the argument). -/
abbrev CallResult (F : Type) := Val F × List (Nat × List (Option (Val F)))

/-- What an expression can refer to outside the function: variables and functions. -/
structure Ctx (F : Type) where
  globals : Env F
  call : List Char → List (ArgVal F) → Option (CallResult F)

def lookupVar (ctx : Ctx F) (env : Env F) (x : List Char) : Option (Slot F) :=
  match env x with
  | some s => some s
  | none => ctx.globals x

def evalArg (ops : CFloat F) (ctx : Ctx F) (env : Env F) (a : Arg) : Option (ArgVal F) :=
  match a.pre with
  | none =>
    if isNum a.w then (litVal ops a.w false).map .num
    else
      match lookupVar ctx env a.w with
      | some (.scalar _ v) => some (.num v)
      | some (.array ty vs) => some (.arr ty vs)
      | none => none
  | some c =>
    if c = '&' then
      match env a.w with
      | some (.scalar ty v) => some (.arr ty [some v])
      | some (.array _ _) => none
      | none => some (.ref a.w)
    else if c = '-' ∧ isNum a.w then (litVal ops a.w true).map .num
    else none

/-- The constants of the included headers that occur in expressions (`eml_common.h` 19). -/
def constVal (x : List Char) : Option (Val F) := if x = "EmlOk".toList then some (.int 0) else none

/-- Value of an expression. Calls inside expressions must not write through pointers. -/
def eval (ops : CFloat F) (ctx : Ctx F) (env : Env F) : Expr → Option (Val F)
  | .lit s => litVal ops s false
  | .var x =>
    match lookupVar ctx env x with
    | some (.scalar _ v) => some v
    | some (.array _ _) => none
    | none => constVal x
  | .idx a i =>
    match lookupVar ctx env a, eval ops ctx env i with
    | some (.array _ vs), some (.int z) => if 0 ≤ z then (vs[z.toNat]?).join else none
    | _, _ => none
  | .call f args =>
    match args.mapM (evalArg ops ctx env) with
    | some vs =>
      match ctx.call f vs with
      | some (v, []) => some v
      | _ => none
    | none => none
  | .neg (.lit s) => litVal ops s true
  | .neg e =>
    match eval ops ctx env e with
    | some (.int z) => checked (-z)
    | _ => none
  | .cast ty ptr e => if ptr then none else (eval ops ctx env e).bind (conv ops ty)
  | .paren e => eval ops ctx env e
  | .bin op l r =>
    match eval ops ctx env l, eval ops ctx env r with
    | some a, some b => binVal ops op a b
    | _, _ => none

/-- Storing into an array element or a variable, with conversion to its type. -/
def store (ops : CFloat F) (env : Env F) (x : List Char) (i : Option Int) (v : Val F) : Option (Env F) :=
  match env x, i with
  | some (.scalar ty _), none => (conv ops ty v).map fun v => env.set x (some (.scalar ty v))
  | some (.array ty vs), some z =>
    if 0 ≤ z ∧ z.toNat < vs.length then (conv ops ty v).map fun v => env.set x (some (.array ty (vs.set z.toNat (some v)))) else none
  | _, _ => none

/-- Arrays written by a called function. -/
def writeBack (env : Env F) (args : List Arg) : List (Nat × List (Option (Val F))) → Option (Env F)
  | [] => some env
  | (k, vs) :: l =>
    match args[k]? with
    | none => none
    | some a =>
      match env a.w, vs with
      | some (.array ty _), vs => writeBack (env.set a.w (some (.array ty vs))) args l
      | some (.scalar ty _), [some v] => writeBack (env.set a.w (some (.scalar ty v))) args l
      | _, _ => none

/-- Value of an expression that makes up a whole right-hand side; a call there may write through pointers. -/
def evalTop (ops : CFloat F) (ctx : Ctx F) (env : Env F) (e : Expr) : Option (Val F × Env F) :=
  match e with
  | .call f args =>
    match args.mapM (evalArg ops ctx env) with
    | some vs =>
      match ctx.call f vs with
      | some (v, w) => (writeBack env args w).map fun env => (v, env)
      | none => none
    | none => none
  | e => (eval ops ctx env e).map fun v => (v, env)

inductive Outcome (F : Type) where
  | next (env : Env F)
  | returned (v : Val F) (env : Env F)

/-- Whether a name occurs in an expression. -/
def Expr.uses (x : List Char) : Expr → Bool
  | .lit _ => false
  | .var y => y == x
  | .idx a i => a == x || i.uses x
  | .call f args => f == x || args.any fun a => a.w == x
  | .neg e => e.uses x
  | .cast _ _ e => e.uses x
  | .paren e => e.uses x
  | .bin _ l r => l.uses x || r.uses x

/-- An initializer refers to the variable that it initializes (which is in scope there, with an indeterminate value). -/
def Decl.selfUse (d : Decl) : Bool :=
  match d.init with
  | none => false
  | some (.one e) => e.uses d.name
  | some (.flat es _) => es.any fun e => e.uses d.name
  | some (.nested ess) => ess.any fun es => es.any fun e => e.uses d.name

/-- A declaration without shadowing and without use of the variable in its own initializer. Missing elements of an initializer list are 0. -/
def declare (ops : CFloat F) (ctx : Ctx F) (env : Env F) (d : Decl) : Option (Env F) :=
  if (env d.name).isSome || d.selfUse then none
  else
    match d.size, d.init with
    | none, some (.one e) =>
      match evalTop ops ctx env e with
      | some (v, env) => (conv ops d.ty v).map fun v => env.set d.name (some (.scalar d.ty v))
      | none => none
    | some n, none => (readNat n).map fun n => env.set d.name (some (.array d.ty (List.replicate n none)))
    | some n, some (.flat es _) =>
      match readNat n, es.mapM (eval ops ctx env) with
      | some n, some vs =>
        if es ≠ [] ∧ es.length ≤ n then
          match vs.mapM (conv ops d.ty), conv ops d.ty (.int 0) with
          | some vs, some z => some (env.set d.name (some (.array d.ty ((vs.map some) ++ List.replicate (n - vs.length) (some z)))))
          | _, _ => none
        else none
      | _, _ => none
    | _, _ => none

/-- `for (ty i=0; i<bound; i++) body` from the current value of `i`; `fuel` bounds the iterations. -/
def iterate (ops : CFloat F) (ctx : Ctx F) (i : List Char) (bound : Expr) (body : Env F → Option (Outcome F)) : Nat → Env F → Option (Outcome F)
  | 0, _ => none
  | k + 1, env =>
    match eval ops ctx env (.bin '<' (.var i) bound) with
    | some (.int c) =>
      if c = 0 then some (.next (env.set i none))
      else
        match body env with
        | some (.next env) =>
          match eval ops ctx env (.bin '+' (.var i) (.lit ['1'])) with
          | some v => (store ops env i none v).bind (iterate ops ctx i bound body k)
          | none => none
        | o => o
    | _ => none

/-- Execution of statements. -/
def exec (ops : CFloat F) (ctx : Ctx F) (fuel : Nat) : Code → Env F → Option (Outcome F)
  | .done, env => some (.next env)
  | .decl d k, env => (declare ops ctx env d).bind (exec ops ctx fuel k)
  | .assign x i add e k, env =>
    match evalTop ops ctx env e with
    | none => none
    | some (v, env) =>
      let lhs : Expr := match i with | none => .var x | some i => .idx x i
      let v : Option (Val F) := if add then (eval ops ctx env lhs).bind fun old => binVal ops '+' old v else some v
      let i : Option (Option Int) := match i with
        | none => some none
        | some i => match eval ops ctx env i with | some (.int z) => some (some z) | _ => none
      match v, i with
      | some v, some i => (store ops env x i v).bind (exec ops ctx fuel k)
      | _, _ => none
  | .ret e _, env => (evalTop ops ctx env e).map fun p => .returned p.1 p.2
  | .ifThen c t k, env =>
    match eval ops ctx env c with
    | some (.int z) =>
      if z = 0 then exec ops ctx fuel k env
      else
        match exec ops ctx fuel t env with
        | some (.next env) => exec ops ctx fuel k env
        | o => o
    | _ => none
  | .ifElse c t e k, env =>
    match eval ops ctx env c with
    | some (.int z) =>
      match (if z = 0 then exec ops ctx fuel e env else exec ops ctx fuel t env) with
      | some (.next env) => exec ops ctx fuel k env
      | o => o
    | _ => none
  | .loop ty i b body k, env =>
    if (env i).isSome then none
    else
      match iterate ops ctx i b (exec ops ctx fuel body) fuel (env.set i (some (.scalar ty (.int 0)))) with
      | some (.next env) => exec ops ctx fuel k env
      | o => o

/-- The parameters of a function as its first variables. -/
def bindParams (ops : CFloat F) : List Param → List (ArgVal F) → Env F → Option (Env F)
  | [], [], env => some env
  | p :: ps, a :: as, env =>
    if (env p.name).isSome then none
    else
      match p.ptr, a with
      | true, .arr ty vs => if ty = p.ty then bindParams ops ps as (env.set p.name (some (.array ty vs))) else none
      | false, .num v => (conv ops p.ty v).bind fun v => bindParams ops ps as (env.set p.name (some (.scalar p.ty v)))
      | _, _ => none
  | _, _, _ => none

/-- The arrays behind pointer parameters that are not `const`, after a call. -/
def writes (env : Env F) : Nat → List Param → List (Nat × List (Option (Val F)))
  | _, [] => []
  | k, p :: ps =>
    if p.ptr && !p.const then
      match env p.name with
      | some (.array _ vs) => (k, vs) :: writes env (k + 1) ps
      | _ => writes env (k + 1) ps
    else writes env (k + 1) ps

/-- The first function of a name. -/
def findFunc (p : Prog) (f : List Char) : Option Func :=
  p.findSome? fun t => match t with | .func g => if g.name = f then some g else none | .decl _ => none

/-- The first variable of a name. -/
def findDecl (p : Prog) (x : List Char) : Option Decl :=
  p.findSome? fun t => match t with | .decl d => if d.name = x then some d else none | .func _ => none

/-- The arrays of numbers a program declares, as variables. -/
def globalsOf (ops : CFloat F) (p : Prog) : Env F := fun x =>
  match findDecl p x with
  | none => none
  | some d => (declare ops { globals := fun _ => none, call := fun _ _ => none } (fun _ => none) d).bind fun env => env x

/-- Calling a function of a program: `depth` bounds the nesting of calls, `fuel` the iterations of each loop, `ext` are the functions of the included headers. -/
def callFunc (ops : CFloat F) (ext : List Char → List (ArgVal F) → Option (CallResult F)) (p : Prog) (fuel : Nat) : Nat → List Char → List (ArgVal F) → Option (CallResult F)
  | 0, _, _ => none
  | depth + 1, f, args =>
    match findFunc p f with
    | none => ext f args
    | some g =>
      match bindParams ops g.params args (fun _ => none) with
      | none => none
      | some env =>
        match exec ops { globals := globalsOf ops p, call := callFunc ops ext p fuel depth } fuel g.body env with
        | some (.returned v env) => (conv ops g.ty v).map fun v => (v, writes env 0 g.params)
        | _ => none

end Emlearn.MiniC
