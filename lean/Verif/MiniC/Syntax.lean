/- A reader for the part of C that the code generators emit: words and symbols, expressions, statements, declarations and functions.
It is part of the specification (what the C standard says a text means), not a model of code in `/repo`. Texts outside this part of C are refused (`none`), never misread:
an expression holds at most one binary operator per pair of parentheses, so that no rule of precedence is needed. -/
import Verif.Cgen.Model
namespace Emlearn.MiniC
open Emlearn.Cgen (identFirst identRest)

/-! ### Words and symbols -/

inductive Tok where
  | word (s : List Char)
  | sym (c : Char)
  deriving DecidableEq, Repr

/-- Letters, digits, underscore and the decimal point. -/
def wordChar (c : Char) : Bool := identRest c || c == '.'

/-- A number that ends with the letter of an exponent: a sign that follows belongs to the number (C17 6.4.8, preprocessing numbers). -/
def ppExp (cur : List Char) : Bool := (match cur with | c :: _ => c.isDigit | [] => false) && (cur.getLast? == some 'e' || cur.getLast? == some 'E')

/-- `c` continues the word `cur`. -/
def joins (cur : List Char) (c : Char) : Bool := wordChar c || ((c == '+' || c == '-') && ppExp cur)

def white (c : Char) : Bool := c == ' ' || c == '\n' || c == '\t'

def flush (cur : List Char) (ts : List Tok) : List Tok := if cur = [] then ts else .word cur :: ts

/-- Splitting a text: `cur` is the word being read, `skip` that the rest of the line is a comment or a preprocessor directive. -/
def lexFrom : List Char → List Char → Bool → List Tok
  | [], cur, _ => flush cur []
  | c :: r, _, true => lexFrom r [] (c != '\n')
  | c :: r, cur, false =>
    if joins cur c then lexFrom r (cur ++ [c]) false
    else if white c then flush cur (lexFrom r [] false)
    else if c == '#' then flush cur (lexFrom r [] true)
    else if c == '/' && r.head? == some '/' then flush cur (lexFrom r [] true)
    else flush cur (.sym c :: lexFrom r [] false)

def lex (s : List Char) : List Tok := lexFrom s [] false

/-! ### Syntax -/

/-- An argument of a call: `x`, `&x` or `-x` (`x` a name or a number). -/
structure Arg where
  pre : Option Char
  w : List Char
  deriving DecidableEq, Repr

inductive Expr where
  | lit (s : List Char)
  | var (x : List Char)
  | idx (a : List Char) (i : Expr)
  | call (f : List Char) (args : List Arg)
  | neg (e : Expr)
  | cast (ty : List Char) (ptr : Bool) (e : Expr)
  | paren (e : Expr)
  | bin (op : Char) (l r : Expr)
  deriving DecidableEq, Repr

/-- Initializers: one expression, a list in braces (with or without a trailing comma), a list of lists. -/
inductive Init where
  | one (e : Expr)
  | flat (es : List Expr) (trailing : Bool)
  | nested (ess : List (List Expr))
  deriving DecidableEq, Repr

/-- `mods ty name[size] = init;` -/
structure Decl where
  mods : List (List Char)
  ty : List Char
  name : List Char
  size : Option (List Char)
  init : Option Init
  deriving DecidableEq, Repr

/-- Statements up to the end of a block. -/
inductive Code where
  | done
  | decl (d : Decl) (k : Code)
  /-- `x = e;`, `x += e;`, `x[i] = e;`, `x[i] += e;` -/
  | assign (x : List Char) (i : Option Expr) (add : Bool) (e : Expr) (k : Code)
  | ret (e : Expr) (k : Code)
  /-- `if (c) { t }` -/
  | ifThen (c : Expr) (t k : Code)
  /-- `if (c) { t } else { e }` -/
  | ifElse (c : Expr) (t e k : Code)
  /-- `for (ty i=0; i<bound; i++) { body }` -/
  | loop (ty i : List Char) (bound : Expr) (body k : Code)
  deriving DecidableEq, Repr

/-- `const ty *name` and the like; `ty name[]` is a pointer as well. -/
structure Param where
  const : Bool
  ty : List Char
  ptr : Bool
  name : List Char
  deriving DecidableEq, Repr

structure Func where
  mods : List (List Char)
  ty : List Char
  name : List Char
  params : List Param
  body : Code
  deriving DecidableEq, Repr

inductive Top where
  | decl (d : Decl)
  | func (f : Func)
  deriving DecidableEq, Repr

abbrev Prog := List Top

/-! ### Parsing -/

/-- The type names that occur. -/
def typeNames : List String :=
  ["float", "double", "int", "char", "int8_t", "uint8_t", "int16_t", "uint16_t", "int32_t", "uint32_t", "eml_q16_t", "eml_fixed32_t", "EmlError",
   "EmlTrees", "EmlTreesNode", "EmlNet", "EmlNetLayer", "EmlBayesSummary", "EmlBayesModel", "EmlNeighborsModel", "EmlNeighborsDistanceItem", "EmlEllipticEnvelope", "EmlMixtureModel"]

def isType (w : List Char) : Bool := typeNames.any fun t => t.toList == w

def isMod (w : List Char) : Bool := w == "static".toList || w == "const".toList || w == "inline".toList

/-- A number begins with a digit. -/
def isNum (w : List Char) : Bool := match w with | c :: _ => c.isDigit | [] => false

/-- A name is a word without point, not beginning with a digit. -/
def isName (w : List Char) : Bool := match w with | c :: r => identFirst c && r.all identRest | [] => false

/-- The words that begin a statement or a declaration. -/
def isKey (w : List Char) : Bool := w == "if".toList || w == "else".toList || w == "for".toList || w == "return".toList || isMod w || isType w

/-- Binary operators; `!` stands for `!=`. -/
def binOp (c : Char) : Bool := c == '+' || c == '-' || c == '*' || c == '/' || c == '<' || c == '>' || c == '!'

/-- What follows the first character of a binary operator: `=` after `!`. -/
def parseOp (c : Char) (ts : List Tok) : Option (List Tok) :=
  if c = '!' then match ts with | .sym '=' :: r => some r | _ => none else some ts

/-- The arguments of a call up to the closing parenthesis. -/
def parseArgs : List Tok → Option (List Arg × List Tok)
  | .sym c :: .word w :: r =>
    if c = '&' ∨ c = '-' then
      match r with
      | .sym ',' :: r' => (parseArgs r').map fun p => (⟨some c, w⟩ :: p.1, p.2)
      | .sym ')' :: r' => some ([⟨some c, w⟩], r')
      | _ => none
    else none
  | .word w :: .sym ',' :: r => (parseArgs r).map fun p => (⟨none, w⟩ :: p.1, p.2)
  | .word w :: .sym ')' :: r => some ([⟨none, w⟩], r)
  | _ => none

/-- `e` or `e op e` with a parser for the operands. -/
def parseBin (prim : List Tok → Option (Expr × List Tok)) (ts : List Tok) : Option (Expr × List Tok) :=
  match prim ts with
  | none => none
  | some (l, .sym c :: r) =>
    if binOp c then
      match (parseOp c r).bind prim with
      | none => none
      | some (e, r') => some (.bin c l e, r')
    else some (l, .sym c :: r)
  | some (l, r) => some (l, r)

/-- An expression without binary operator at the top. -/
def parsePrim : Nat → List Tok → Option (Expr × List Tok)
  | 0, _ => none
  | k + 1, ts =>
    match ts with
    | .sym '-' :: r => (parsePrim k r).map fun p => (.neg p.1, p.2)
    | .sym '(' :: .word w :: r =>
      if isType w then
        match r with
        | .sym ')' :: r' => (parsePrim k r').map fun p => (.cast w false p.1, p.2)
        | .sym '*' :: .sym ')' :: r' => (parsePrim k r').map fun p => (.cast w true p.1, p.2)
        | _ => none
      else
        match parseBin (parsePrim k) (.word w :: r) with
        | some (e, .sym ')' :: r') => some (.paren e, r')
        | _ => none
    | .sym '(' :: r =>
      match parseBin (parsePrim k) r with
      | some (e, .sym ')' :: r') => some (.paren e, r')
      | _ => none
    | .word w :: r =>
      if isNum w then some (.lit w, r)
      else if isName w && !isKey w then
        match r with
        | .sym '[' :: r' =>
          match parseBin (parsePrim k) r' with
          | some (e, .sym ']' :: r'') => some (.idx w e, r'')
          | _ => none
        | .sym '(' :: r' => (parseArgs r').map fun p => (.call w p.1, p.2)
        | _ => some (.var w, r)
      else none
    | _ => none

def parseExpr (fuel : Nat) (ts : List Tok) : Option (Expr × List Tok) := parseBin (parsePrim fuel) ts

/-- Expressions up to the closing brace; the flag tells whether a comma precedes it. -/
def parseExprs (fuel : Nat) : Nat → List Tok → Option (List Expr × Bool × List Tok)
  | 0, _ => none
  | k + 1, ts =>
    match parseExpr fuel ts with
    | some (e, .sym '}' :: r) => some ([e], false, r)
    | some (e, .sym ',' :: .sym '}' :: r) => some ([e], true, r)
    | some (e, .sym ',' :: r) => (parseExprs fuel k r).map fun p => (e :: p.1, p.2.1, p.2.2)
    | _ => none

/-- Lists in braces up to the closing brace. -/
def parseGroups (fuel : Nat) : Nat → List Tok → Option (List (List Expr) × List Tok)
  | 0, _ => none
  | k + 1, ts =>
    match ts with
    | .sym '{' :: r =>
      match parseExprs fuel fuel r with
      | some (es, false, .sym '}' :: r') => some ([es], r')
      | some (es, false, .sym ',' :: r') => (parseGroups fuel k r').map fun p => (es :: p.1, p.2)
      | _ => none
    | _ => none

def parseInit (fuel : Nat) (ts : List Tok) : Option (Init × List Tok) :=
  match ts with
  | .sym '{' :: .sym '}' :: r => some (.flat [] false, r)
  | .sym '{' :: .sym '{' :: r => (parseGroups fuel fuel (.sym '{' :: r)).map fun p => (.nested p.1, p.2)
  | .sym '{' :: r => (parseExprs fuel fuel r).map fun p => (.flat p.1 p.2.1, p.2.2)
  | r => (parseExpr fuel r).map fun p => (.one p.1, p.2)

/-- The words `static`, `const`, `inline` at the start. -/
def parseMods : List Tok → List (List Char) × List Tok
  | .word w :: r => if isMod w then ((w :: (parseMods r).1), (parseMods r).2) else ([], .word w :: r)
  | ts => ([], ts)

/-- What follows the name in a declaration, up to the semicolon. -/
def parseDeclTail (fuel : Nat) (mods : List (List Char)) (ty name : List Char) (ts : List Tok) : Option (Decl × List Tok) :=
  let tail (size : Option (List Char)) (ts : List Tok) : Option (Decl × List Tok) :=
    match ts with
    | .sym ';' :: r => some (⟨mods, ty, name, size, none⟩, r)
    | .sym '=' :: r =>
      match parseInit fuel r with
      | some (i, .sym ';' :: r') => some (⟨mods, ty, name, size, some i⟩, r')
      | _ => none
    | _ => none
  match ts with
  | .sym '[' :: .word n :: .sym ']' :: r => if isNum n then tail (some n) r else none
  | ts => tail none ts

/-- A type and a name. -/
def parseHead (ts : List Tok) : Option (List (List Char) × List Char × List Char × List Tok) :=
  match parseMods ts with
  | (mods, .word ty :: .word name :: r) => if isType ty && isName name && !isKey name then some (mods, ty, name, r) else none
  | _ => none

def startsDecl (w : List Char) : Bool := isMod w || isType w

/-- Statements up to `}` or the end of the text. -/
def parseCode (fuel : Nat) : Nat → List Tok → Option (Code × List Tok)
  | 0, _ => none
  | k + 1, ts =>
    match ts with
    | [] => some (.done, [])
    | .sym '}' :: r => some (.done, .sym '}' :: r)
    | .word w :: r =>
      if w = "return".toList then
        match parseExpr fuel r with
        | some (e, .sym ';' :: r') => (parseCode fuel k r').map fun p => (.ret e p.1, p.2)
        | _ => none
      else if w = "if".toList then
        match r with
        | .sym '(' :: r =>
          match parseExpr fuel r with
          | some (c, .sym ')' :: .sym '{' :: r) =>
            match parseCode fuel k r with
            | some (t, .sym '}' :: .word e :: r') =>
              if e = "else".toList then
                match r' with
                | .sym '{' :: r' =>
                  match parseCode fuel k r' with
                  | some (e, .sym '}' :: r'') => (parseCode fuel k r'').map fun p => (.ifElse c t e p.1, p.2)
                  | _ => none
                | _ => none
              else (parseCode fuel k (.word e :: r')).map fun p => (.ifThen c t p.1, p.2)
            | some (t, .sym '}' :: r') => (parseCode fuel k r').map fun p => (.ifThen c t p.1, p.2)
            | _ => none
          | _ => none
        | _ => none
      else if w = "for".toList then
        match r with
        | .sym '(' :: .word ty :: .word i :: .sym '=' :: .word z :: .sym ';' :: .word i' :: .sym '<' :: r =>
          if isType ty && isName i && !isKey i && i' == i && z == "0".toList then
            match parsePrim fuel r with
            | some (b, .sym ';' :: .word i'' :: .sym '+' :: .sym '+' :: .sym ')' :: .sym '{' :: r) =>
              if i'' = i then
                match parseCode fuel k r with
                | some (body, .sym '}' :: r') => (parseCode fuel k r').map fun p => (.loop ty i b body p.1, p.2)
                | _ => none
              else none
            | _ => none
          else none
        | _ => none
      else if startsDecl w then
        match parseHead (.word w :: r) with
        | some (mods, ty, name, r') =>
          match parseDeclTail fuel mods ty name r' with
          | some (d, r'') => (parseCode fuel k r'').map fun p => (.decl d p.1, p.2)
          | none => none
        | none => none
      else if isName w && !isKey w then
        let rhs (i : Option Expr) (ts : List Tok) : Option (Code × List Tok) :=
          match ts with
          | .sym '=' :: r' =>
            match parseExpr fuel r' with
            | some (e, .sym ';' :: r'') => (parseCode fuel k r'').map fun p => (.assign w i false e p.1, p.2)
            | _ => none
          | .sym '+' :: .sym '=' :: r' =>
            match parseExpr fuel r' with
            | some (e, .sym ';' :: r'') => (parseCode fuel k r'').map fun p => (.assign w i true e p.1, p.2)
            | _ => none
          | _ => none
        match r with
        | .sym '[' :: r' =>
          match parseExpr fuel r' with
          | some (i, .sym ']' :: r'') => rhs (some i) r''
          | _ => none
        | .sym '=' :: r' => rhs none (.sym '=' :: r')
        | .sym '+' :: r' => rhs none (.sym '+' :: r')
        | _ => none
      else none
    | _ => none

/-- One parameter. -/
def parseParam (ts : List Tok) : Option (Param × List Tok) :=
  let body (const : Bool) (ts : List Tok) : Option (Param × List Tok) :=
    match ts with
    | .word ty :: .sym '*' :: .word x :: r => if isType ty && isName x && !isKey x then some (⟨const, ty, true, x⟩, r) else none
    | .word ty :: .word x :: .sym '[' :: .sym ']' :: r => if isType ty && isName x && !isKey x then some (⟨const, ty, true, x⟩, r) else none
    | .word ty :: .word x :: r => if isType ty && isName x && !isKey x then some (⟨const, ty, false, x⟩, r) else none
    | _ => none
  match ts with
  | .word w :: r => if w = "const".toList then body true r else body false (.word w :: r)
  | _ => none

/-- Parameters up to the closing parenthesis. -/
def parseParams : Nat → List Tok → Option (List Param × List Tok)
  | 0, _ => none
  | k + 1, ts =>
    match parseParam ts with
    | some (p, .sym ')' :: r) => some ([p], r)
    | some (p, .sym ',' :: r) => (parseParams k r).map fun q => (p :: q.1, q.2)
    | _ => none

/-- Declarations and functions up to the end of the text. -/
def parseTops (fuel : Nat) : Nat → List Tok → Option Prog
  | 0, _ => none
  | k + 1, ts =>
    match ts with
    | [] => some []
    | ts =>
      match parseHead ts with
      | none => none
      | some (mods, ty, name, .sym '(' :: r) =>
        match parseParams fuel r with
        | some (ps, .sym '{' :: r) =>
          match parseCode fuel fuel r with
          | some (body, .sym '}' :: r) => (parseTops fuel k r).map fun p => .func ⟨mods, ty, name, ps, body⟩ :: p
          | _ => none
        | _ => none
      | some (mods, ty, name, r) =>
        match parseDeclTail fuel mods ty name r with
        | some (d, r) => (parseTops fuel k r).map fun p => .decl d :: p
        | none => none

/-- The program a text stands for. -/
def parse (text : List Char) : Option Prog :=
  let ts := lex text
  parseTops (ts.length + 1) (ts.length + 1) ts

end Emlearn.MiniC
