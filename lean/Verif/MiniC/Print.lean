/- Printing of programs and the proof that reading the printed words gives the program back. -/
import Verif.MiniC.Syntax
import Mathlib.Tactic.Common
namespace Emlearn.MiniC
open Emlearn.Cgen (identFirst identRest)

/-! ### Printing -/

def Arg.print (a : Arg) : List Tok := match a.pre with | none => [.word a.w] | some c => [.sym c, .word a.w]

def printArgs : List Arg → List Tok
  | [] => []
  | [a] => a.print
  | a :: b :: l => a.print ++ .sym ',' :: printArgs (b :: l)

def Expr.print : Expr → List Tok
  | .lit s => [.word s]
  | .var x => [.word x]
  | .idx a i => .word a :: .sym '[' :: (i.print ++ [.sym ']'])
  | .call f args => .word f :: .sym '(' :: (printArgs args ++ [.sym ')'])
  | .neg e => .sym '-' :: e.print
  | .cast ty ptr e => .sym '(' :: .word ty :: ((if ptr then [.sym '*'] else []) ++ .sym ')' :: e.print)
  | .paren e => .sym '(' :: (e.print ++ [.sym ')'])
  | .bin op l r => l.print ++ .sym op :: ((if op = '!' then [.sym '='] else []) ++ r.print)

def printExprs : List Expr → List Tok
  | [] => []
  | [e] => e.print
  | e :: f :: l => e.print ++ .sym ',' :: printExprs (f :: l)

def printGroups : List (List Expr) → List Tok
  | [] => []
  | [g] => .sym '{' :: (printExprs g ++ [.sym '}'])
  | g :: h :: l => .sym '{' :: (printExprs g ++ .sym '}' :: .sym ',' :: printGroups (h :: l))

def Init.print : Init → List Tok
  | .one e => e.print
  | .flat es trailing => .sym '{' :: (printExprs es ++ ((if trailing then [.sym ','] else []) ++ [.sym '}']))
  | .nested ess => .sym '{' :: (printGroups ess ++ [.sym '}'])

def Decl.print (d : Decl) : List Tok :=
  d.mods.map .word ++ .word d.ty :: .word d.name :: ((match d.size with | none => [] | some n => [.sym '[', .word n, .sym ']']) ++
    ((match d.init with | none => [] | some i => .sym '=' :: i.print) ++ [.sym ';']))

def Code.print : Code → List Tok
  | .done => []
  | .decl d k => d.print ++ k.print
  | .assign x i add e k =>
    .word x :: ((match i with | none => [] | some i => .sym '[' :: (i.print ++ [.sym ']'])) ++ ((if add then [.sym '+'] else []) ++ .sym '=' :: (e.print ++ .sym ';' :: k.print)))
  | .ret e k => .word "return".toList :: (e.print ++ .sym ';' :: k.print)
  | .ifThen c t k => .word "if".toList :: .sym '(' :: (c.print ++ .sym ')' :: .sym '{' :: (t.print ++ .sym '}' :: k.print))
  | .ifElse c t e k =>
    .word "if".toList :: .sym '(' :: (c.print ++ .sym ')' :: .sym '{' :: (t.print ++ .sym '}' :: .word "else".toList :: .sym '{' :: (e.print ++ .sym '}' :: k.print)))
  | .loop ty i b body k =>
    .word "for".toList :: .sym '(' :: .word ty :: .word i :: .sym '=' :: .word "0".toList :: .sym ';' :: .word i :: .sym '<' :: (b.print ++ .sym ';' :: .word i :: .sym '+' :: .sym '+' ::
      .sym ')' :: .sym '{' :: (body.print ++ .sym '}' :: k.print))

def Param.print (p : Param) : List Tok :=
  (if p.const then [.word "const".toList] else []) ++ .word p.ty :: ((if p.ptr then [.sym '*'] else []) ++ [.word p.name])

def printParams : List Param → List Tok
  | [] => []
  | [p] => p.print
  | p :: q :: l => p.print ++ .sym ',' :: printParams (q :: l)

def Func.print (f : Func) : List Tok :=
  f.mods.map .word ++ .word f.ty :: .word f.name :: .sym '(' :: (printParams f.params ++ .sym ')' :: .sym '{' :: (f.body.print ++ [.sym '}']))

def Top.print : Top → List Tok
  | .decl d => d.print
  | .func f => f.print

def printProg (p : Prog) : List Tok := p.flatMap Top.print

/-! ### Well-formed syntax -/

def Nm (x : List Char) : Prop := isName x = true ∧ isKey x = false

def Expr.Prim : Expr → Prop
  | .bin _ _ _ => False
  | _ => True

def Arg.Ok (a : Arg) : Prop := a.pre = none ∨ a.pre = some '&' ∨ a.pre = some '-'

def Expr.Ok : Expr → Prop
  | .lit s => isNum s = true
  | .var x => Nm x
  | .idx a i => Nm a ∧ i.Ok
  | .call f args => Nm f ∧ args ≠ [] ∧ ∀ a ∈ args, a.Ok
  | .neg e => e.Prim ∧ e.Ok
  | .cast ty _ e => isType ty = true ∧ e.Prim ∧ e.Ok
  | .paren e => e.Ok
  | .bin op l r => binOp op = true ∧ l.Prim ∧ l.Ok ∧ r.Prim ∧ r.Ok

def Init.Ok : Init → Prop
  | .one e => e.Ok
  | .flat es trailing => (∀ e ∈ es, e.Ok) ∧ (es = [] → trailing = false)
  | .nested ess => ess ≠ [] ∧ ∀ es ∈ ess, es ≠ [] ∧ ∀ e ∈ es, e.Ok

def Decl.Ok (d : Decl) : Prop :=
  (∀ m ∈ d.mods, isMod m = true) ∧ isType d.ty = true ∧ Nm d.name ∧ (∀ n, d.size = some n → isNum n = true) ∧ (∀ i, d.init = some i → i.Ok)

def Code.Ok : Code → Prop
  | .done => True
  | .decl d k => d.Ok ∧ k.Ok
  | .assign x i _ e k => Nm x ∧ (∀ j, i = some j → j.Ok) ∧ e.Ok ∧ k.Ok
  | .ret e k => e.Ok ∧ k.Ok
  | .ifThen c t k => c.Ok ∧ t.Ok ∧ k.Ok
  | .ifElse c t e k => c.Ok ∧ t.Ok ∧ e.Ok ∧ k.Ok
  | .loop ty i b body k => isType ty = true ∧ Nm i ∧ b.Prim ∧ b.Ok ∧ body.Ok ∧ k.Ok

def Param.Ok (p : Param) : Prop := isType p.ty = true ∧ Nm p.name

def Func.Ok (f : Func) : Prop := (∀ m ∈ f.mods, isMod m = true) ∧ isType f.ty = true ∧ Nm f.name ∧ f.params ≠ [] ∧ (∀ p ∈ f.params, p.Ok) ∧ f.body.Ok

def Top.Ok : Top → Prop
  | .decl d => d.Ok
  | .func f => f.Ok

/-! ### Words -/

theorem isType_cases {w : List Char} (h : isType w = true) : w ∈ typeNames.map String.toList := by
  unfold isType at h
  rw [List.any_eq_true] at h
  obtain ⟨t, ht, h2⟩ := h
  rw [beq_iff_eq] at h2
  exact List.mem_map.2 ⟨t, ht, h2⟩

theorem type_not_mod {w : List Char} (h : isType w = true) : isMod w = false := by
  have := isType_cases h
  revert this
  revert w
  suffices ∀ w ∈ typeNames.map String.toList, isMod w = false from fun w _ h => this w h
  decide +kernel

theorem type_not_num {w : List Char} (h : isType w = true) : isNum w = false := by
  have := isType_cases h
  revert this
  revert w
  suffices ∀ w ∈ typeNames.map String.toList, isNum w = false from fun w _ h => this w h
  decide +kernel

theorem Nm.not_num {x : List Char} (h : Nm x) : isNum x = false := by
  have := h.1
  unfold isName at this
  unfold isNum
  cases x with
  | nil => rfl
  | cons c r =>
    simp only [Bool.and_eq_true] at this
    obtain ⟨h1, -⟩ := this
    show c.isDigit = false
    unfold identFirst at h1
    simp only [Bool.or_eq_true, beq_iff_eq, Bool.and_eq_true, decide_eq_true_eq] at h1
    rw [← Bool.not_eq_true, Char.isDigit]
    simp only [Bool.and_eq_true, decide_eq_true_eq, not_and]
    intro h2 h3
    rcases h1 with (h1 | h1) | h1
    · subst h1; revert h3; decide
    · have := h1.1
      rw [Char.le_def] at this
      have h4 := Nat.le_trans (UInt32.le_iff_toNat_le.1 this) (UInt32.le_iff_toNat_le.1 h3)
      revert h4; decide
    · have := h1.1
      rw [Char.le_def] at this
      have h4 := Nat.le_trans (UInt32.le_iff_toNat_le.1 this) (UInt32.le_iff_toNat_le.1 h3)
      revert h4; decide

theorem Nm.not_type {x : List Char} (h : Nm x) : isType x = false := by
  have := h.2; unfold isKey at this; simp only [Bool.or_eq_false_iff] at this; exact this.2
theorem Nm.not_mod {x : List Char} (h : Nm x) : isMod x = false := by
  have := h.2; unfold isKey at this; simp only [Bool.or_eq_false_iff] at this; exact this.1.2
theorem Nm.not_return {x : List Char} (h : Nm x) : x ≠ "return".toList := by
  have := h.2; unfold isKey at this; simp only [Bool.or_eq_false_iff] at this; simpa using this.1.1.2
theorem Nm.not_for {x : List Char} (h : Nm x) : x ≠ "for".toList := by
  have := h.2; unfold isKey at this; simp only [Bool.or_eq_false_iff] at this; simpa using this.1.1.1.2
theorem Nm.not_else {x : List Char} (h : Nm x) : x ≠ "else".toList := by
  have := h.2; unfold isKey at this; simp only [Bool.or_eq_false_iff] at this; simpa using this.1.1.1.1.2
theorem Nm.not_if {x : List Char} (h : Nm x) : x ≠ "if".toList := by
  have := h.2; unfold isKey at this; simp only [Bool.or_eq_false_iff] at this; simpa using this.1.1.1.1.1
theorem Nm.name {x : List Char} (h : Nm x) : (isName x && !isKey x) = true := by rw [h.1, h.2]; rfl

/-! ### Expressions -/

theorem parseArgs_print (args : List Arg) (hne : args ≠ []) (h : ∀ a ∈ args, a.Ok) (rest : List Tok) :
    parseArgs (printArgs args ++ .sym ')' :: rest) = some (args, rest) := by
  induction args with
  | nil => exact absurd rfl hne
  | cons a l ih =>
    obtain ⟨pre, w⟩ := a
    have ha := h ⟨pre, w⟩ (by simp)
    cases l with
    | nil =>
      rcases ha with ha | ha | ha <;> simp only at ha <;> subst ha <;> simp [printArgs, Arg.print, parseArgs]
    | cons b l =>
      have := ih (by simp) (fun a ha => h a (by simp [ha]))
      rcases ha with ha | ha | ha <;> simp only at ha <;> subst ha <;>
        simp only [printArgs, Arg.print, List.cons_append, List.nil_append] <;>
        simp [parseArgs, this]

/-- What may follow an operand. -/
def PStop (rest : List Tok) : Prop := ∀ c r, rest = .sym c :: r → c ≠ '[' ∧ c ≠ '('

/-- What may follow an expression. -/
def Stop (rest : List Tok) : Prop := ∀ c r, rest = .sym c :: r → c ≠ '[' ∧ c ≠ '(' ∧ binOp c = false

theorem Stop.pstop {rest : List Tok} (h : Stop rest) : PStop rest := fun c r e => ⟨(h c r e).1, (h c r e).2.1⟩

theorem stop_sym (c : Char) (r : List Tok) (h : c ≠ '[' ∧ c ≠ '(' ∧ binOp c = false) : Stop (.sym c :: r) := by
  intro d r' e; cases e; exact h

theorem pstop_sym (c : Char) (r : List Tok) (h : c ≠ '[' ∧ c ≠ '(') : PStop (.sym c :: r) := by
  intro d r' e; cases e; exact h

theorem binOp_pstop {c : Char} (h : binOp c = true) (r : List Tok) : PStop (.sym c :: r) := by
  intro d r' e
  cases e
  constructor <;> rintro rfl <;> simp [binOp] at h

def Expr.depth : Expr → Nat
  | .lit _ => 1
  | .var _ => 1
  | .idx _ i => i.depth + 1
  | .call _ _ => 1
  | .neg e => e.depth + 1
  | .cast _ _ e => e.depth + 1
  | .paren e => e.depth + 1
  | .bin _ l r => max l.depth r.depth

theorem Expr.print_pos (e : Expr) : 1 ≤ e.print.length := by
  cases e <;> simp [Expr.print]
  omega

theorem Expr.depth_le (e : Expr) : e.depth ≤ e.print.length := by
  induction e with
  | lit _ => simp [Expr.depth, Expr.print]
  | var _ => simp [Expr.depth, Expr.print]
  | idx a i ih => simp [Expr.depth, Expr.print]; omega
  | call f args => simp [Expr.depth, Expr.print]
  | neg e ih => simp [Expr.depth, Expr.print]; omega
  | cast ty ptr e ih => simp [Expr.depth, Expr.print]; omega
  | paren e ih => simp [Expr.depth, Expr.print]; omega
  | bin op l r ihl ihr => simp [Expr.depth, Expr.print]; omega

/-- The first word of an expression is not a type. -/
theorem Expr.print_head (e : Expr) (h : e.Ok) : ∃ t r, e.print = t :: r ∧ (∀ w, t = .word w → isType w = false) := by
  induction e with
  | lit s => refine ⟨_, _, rfl, fun w hw => ?_⟩; cases hw; by_contra hc; rw [Bool.not_eq_false] at hc; exact absurd (type_not_num hc) (by rw [show isNum s = true from h]; simp)
  | var x => refine ⟨_, _, rfl, fun w hw => ?_⟩; cases hw; exact Nm.not_type h
  | idx a i _ => refine ⟨_, _, rfl, fun w hw => ?_⟩; cases hw; exact Nm.not_type h.1
  | call f args => refine ⟨_, _, rfl, fun w hw => ?_⟩; cases hw; exact Nm.not_type h.1
  | neg e _ => exact ⟨_, _, rfl, fun w hw => by cases hw⟩
  | cast ty ptr e _ => exact ⟨_, _, rfl, fun w hw => by cases hw⟩
  | paren e _ => exact ⟨_, _, rfl, fun w hw => by cases hw⟩
  | bin op l r ihl _ =>
    obtain ⟨t, r', h1, h2⟩ := ihl h.2.2.1
    exact ⟨t, r' ++ .sym op :: ((if op = '!' then [.sym '='] else []) ++ r.print), by simp [Expr.print, h1], h2⟩

theorem parsePrim_paren (k : Nat) (ts : List Tok) (t : Tok) (r : List Tok) (h : ts = t :: r) (ht : ∀ w, t = .word w → isType w = false) :
    parsePrim (k + 1) (.sym '(' :: ts) = match parseBin (parsePrim k) ts with | some (e, .sym ')' :: r') => some (.paren e, r') | _ => none := by
  subst h
  cases t with
  | word w =>
    simp only [parsePrim]
    rw [if_neg (by rw [ht w rfl]; simp)]; rfl
  | sym c =>
    simp only [parsePrim]; rfl

theorem parse_print_expr (e : Expr) (h : e.Ok) :
    (e.Prim → ∀ fuel, e.depth ≤ fuel → ∀ rest, PStop rest → parsePrim fuel (e.print ++ rest) = some (e, rest)) ∧
    (∀ fuel, e.depth ≤ fuel → ∀ rest, Stop rest → parseBin (parsePrim fuel) (e.print ++ rest) = some (e, rest)) := by
  -- an operand is also an expression
  have lift : ∀ e : Expr, (∀ fuel, e.depth ≤ fuel → ∀ rest, PStop rest → parsePrim fuel (e.print ++ rest) = some (e, rest)) →
      (∀ fuel, e.depth ≤ fuel → ∀ rest, Stop rest → parseBin (parsePrim fuel) (e.print ++ rest) = some (e, rest)) := by
    intro e he fuel hf rest hr
    rw [parseBin, he fuel hf rest hr.pstop]
    cases rest with
    | nil => rfl
    | cons t r =>
      cases t with
      | word w => rfl
      | sym c => simp [(hr c r rfl).2.2]
  induction e with
  | lit s =>
    have key : ∀ fuel, (Expr.lit s).depth ≤ fuel → ∀ rest, PStop rest → parsePrim fuel ((Expr.lit s).print ++ rest) = some (.lit s, rest) := by
      intro fuel hf rest _
      obtain ⟨k, rfl⟩ : ∃ k, fuel = k + 1 := ⟨fuel - 1, by simp [Expr.depth] at hf; omega⟩
      show parsePrim (k + 1) (.word s :: rest) = _
      simp only [parsePrim]
      rw [if_pos (show isNum s = true from h)]
    exact ⟨fun _ => key, lift _ key⟩
  | var x =>
    have key : ∀ fuel, (Expr.var x).depth ≤ fuel → ∀ rest, PStop rest → parsePrim fuel ((Expr.var x).print ++ rest) = some (.var x, rest) := by
      intro fuel hf rest hr
      obtain ⟨k, rfl⟩ : ∃ k, fuel = k + 1 := ⟨fuel - 1, by simp [Expr.depth] at hf; omega⟩
      show parsePrim (k + 1) (.word x :: rest) = _
      simp only [parsePrim]
      rw [if_neg (by rw [Nm.not_num h]; simp), if_pos (Nm.name h)]
      cases rest with
      | nil => rfl
      | cons t r =>
        cases t with
        | word w => rfl
        | sym c =>
          obtain ⟨h1, h2⟩ := hr c r rfl
          split
          · rename_i heq; simp only [List.cons.injEq, Tok.sym.injEq] at heq; exact absurd heq.1 h1
          · rename_i heq; simp only [List.cons.injEq, Tok.sym.injEq] at heq; exact absurd heq.1 h2
          · rfl
    exact ⟨fun _ => key, lift _ key⟩
  | idx a i ih =>
    have key : ∀ fuel, (Expr.idx a i).depth ≤ fuel → ∀ rest, PStop rest → parsePrim fuel ((Expr.idx a i).print ++ rest) = some (.idx a i, rest) := by
      intro fuel hf rest _
      obtain ⟨k, rfl⟩ : ∃ k, fuel = k + 1 := ⟨fuel - 1, by simp [Expr.depth] at hf; omega⟩
      have hi := (ih h.2).2 k (by simp [Expr.depth] at hf; omega) (.sym ']' :: rest) (stop_sym _ _ (by decide))
      show parsePrim (k + 1) (.word a :: .sym '[' :: ((i.print ++ [.sym ']']) ++ rest)) = _
      rw [List.append_assoc]
      simp only [parsePrim]
      rw [if_neg (by rw [Nm.not_num h.1]; simp), if_pos (Nm.name h.1)]
      simp only [List.cons_append, List.nil_append]
      rw [hi]; rfl
    exact ⟨fun _ => key, lift _ key⟩
  | call f args =>
    have key : ∀ fuel, (Expr.call f args).depth ≤ fuel → ∀ rest, PStop rest → parsePrim fuel ((Expr.call f args).print ++ rest) = some (.call f args, rest) := by
      intro fuel hf rest _
      obtain ⟨k, rfl⟩ : ∃ k, fuel = k + 1 := ⟨fuel - 1, by simp [Expr.depth] at hf; omega⟩
      have ha := parseArgs_print args h.2.1 h.2.2 rest
      show parsePrim (k + 1) (.word f :: .sym '(' :: ((printArgs args ++ [.sym ')']) ++ rest)) = _
      rw [List.append_assoc]
      simp only [parsePrim]
      rw [if_neg (by rw [Nm.not_num h.1]; simp), if_pos (Nm.name h.1)]
      simp only [List.cons_append, List.nil_append]
      rw [ha]; rfl
    exact ⟨fun _ => key, lift _ key⟩
  | neg e ih =>
    have key : ∀ fuel, (Expr.neg e).depth ≤ fuel → ∀ rest, PStop rest → parsePrim fuel ((Expr.neg e).print ++ rest) = some (.neg e, rest) := by
      intro fuel hf rest hr
      obtain ⟨k, rfl⟩ : ∃ k, fuel = k + 1 := ⟨fuel - 1, by simp [Expr.depth] at hf; omega⟩
      have he := (ih h.2).1 h.1 k (by simp [Expr.depth] at hf; omega) rest hr
      show parsePrim (k + 1) (.sym '-' :: (e.print ++ rest)) = _
      simp only [parsePrim]
      rw [he]; rfl
    exact ⟨fun _ => key, lift _ key⟩
  | cast ty ptr e ih =>
    have key : ∀ fuel, (Expr.cast ty ptr e).depth ≤ fuel → ∀ rest, PStop rest → parsePrim fuel ((Expr.cast ty ptr e).print ++ rest) = some (.cast ty ptr e, rest) := by
      intro fuel hf rest hr
      obtain ⟨k, rfl⟩ : ∃ k, fuel = k + 1 := ⟨fuel - 1, by simp [Expr.depth] at hf; omega⟩
      have he := (ih h.2.2).1 h.2.1 k (by simp [Expr.depth] at hf; omega) rest hr
      cases ptr with
      | false =>
        show parsePrim (k + 1) (.sym '(' :: .word ty :: .sym ')' :: (e.print ++ rest)) = _
        simp only [parsePrim]
        rw [if_pos h.1, he]; rfl
      | true =>
        show parsePrim (k + 1) (.sym '(' :: .word ty :: .sym '*' :: .sym ')' :: (e.print ++ rest)) = _
        simp only [parsePrim]
        rw [if_pos h.1, he]; rfl
    exact ⟨fun _ => key, lift _ key⟩
  | paren e ih =>
    have key : ∀ fuel, (Expr.paren e).depth ≤ fuel → ∀ rest, PStop rest → parsePrim fuel ((Expr.paren e).print ++ rest) = some (.paren e, rest) := by
      intro fuel hf rest hr
      obtain ⟨k, rfl⟩ : ∃ k, fuel = k + 1 := ⟨fuel - 1, by simp [Expr.depth] at hf; omega⟩
      have he := (ih h).2 k (by simp [Expr.depth] at hf; omega) (.sym ')' :: rest) (stop_sym _ _ (by decide))
      obtain ⟨t, r, h1, h2⟩ := e.print_head h
      show parsePrim (k + 1) (.sym '(' :: ((e.print ++ [.sym ')']) ++ rest)) = _
      rw [List.append_assoc, parsePrim_paren k _ t (r ++ ([.sym ')'] ++ rest)) (by rw [h1]; rfl) h2]
      simp only [List.cons_append, List.nil_append]
      rw [he]; rfl
    exact ⟨fun _ => key, lift _ key⟩
  | bin op l r ihl ihr =>
    refine ⟨fun hp => hp.elim, fun fuel hf rest hr => ?_⟩
    have hl := (ihl h.2.2.1).1 h.2.1 fuel (by simp [Expr.depth] at hf; omega) (.sym op :: (((if op = '!' then [.sym '='] else []) ++ r.print) ++ rest)) (binOp_pstop h.1 _)
    have hop : parseOp op (((if op = '!' then [.sym '='] else []) ++ r.print) ++ rest) = some (r.print ++ rest) := by
      unfold parseOp
      by_cases ho : op = '!'
      · rw [if_pos ho, if_pos ho]; rfl
      · rw [if_neg ho, if_neg ho]; rfl
    have hrr := (ihr h.2.2.2.2).1 h.2.2.2.1 fuel (by simp [Expr.depth] at hf; omega) rest hr.pstop
    show parseBin _ ((l.print ++ .sym op :: ((if op = '!' then [.sym '='] else []) ++ r.print)) ++ rest) = _
    rw [List.append_assoc, List.cons_append, parseBin, hl]
    simp only [h.1, if_true]
    rw [hop, Option.bind_some, hrr]

theorem parseExpr_print (e : Expr) (h : e.Ok) (fuel : Nat) (hf : e.print.length ≤ fuel) (rest : List Tok) (hr : Stop rest) : parseExpr fuel (e.print ++ rest) = some (e, rest) :=
  (parse_print_expr e h).2 fuel (le_trans e.depth_le hf) rest hr

theorem parsePrim_print (e : Expr) (h : e.Ok) (hp : e.Prim) (fuel : Nat) (hf : e.print.length ≤ fuel) (rest : List Tok) (hr : PStop rest) : parsePrim fuel (e.print ++ rest) = some (e, rest) :=
  (parse_print_expr e h).1 hp fuel (le_trans e.depth_le hf) rest hr

/-! ### Initializers and declarations -/

theorem stop_brace (r : List Tok) : Stop (.sym '}' :: r) := stop_sym _ _ (by decide)
theorem stop_comma (r : List Tok) : Stop (.sym ',' :: r) := stop_sym _ _ (by decide)
theorem stop_semi (r : List Tok) : Stop (.sym ';' :: r) := stop_sym _ _ (by decide)
theorem stop_rpar (r : List Tok) : Stop (.sym ')' :: r) := stop_sym _ _ (by decide)
theorem stop_rbrack (r : List Tok) : Stop (.sym ']' :: r) := stop_sym _ _ (by decide)

/-- An expression does not begin with a brace. -/
theorem Expr.head_not_brace (e : Expr) (h : e.Ok) (c : Char) (r : List Tok) (he : e.print = .sym c :: r) : c = '-' ∨ c = '(' := by
  induction e generalizing c r with
  | lit s => cases he
  | var x => cases he
  | idx a i _ => cases he
  | call f args => cases he
  | neg e _ => cases he; exact .inl rfl
  | cast ty ptr e _ => cases he; exact .inr rfl
  | paren e _ => cases he; exact .inr rfl
  | bin op l r' ihl _ =>
    have hp := l.print_pos
    cases hl : l.print with
    | nil => rw [hl] at hp; simp at hp
    | cons t ts =>
      rw [Expr.print, hl] at he
      simp only [List.cons_append, List.cons.injEq] at he
      rw [he.1] at hl
      exact ihl h.2.2.1 c ts hl

theorem printExprs_length (es : List Expr) : es.length ≤ (printExprs es).length := by
  induction es with
  | nil => simp [printExprs]
  | cons e l ih =>
    cases l with
    | nil => simp only [printExprs, List.length_cons, List.length_nil]; have := e.print_pos; omega
    | cons f l =>
      simp only [printExprs, List.length_append, List.length_cons] at *
      have := e.print_pos; omega

theorem parseExprs_print (es : List Expr) (hne : es ≠ []) (h : ∀ e ∈ es, e.Ok) (trailing : Bool) (fuel : Nat) (hf : (printExprs es).length ≤ fuel) (k : Nat) (hk : es.length ≤ k)
    (rest : List Tok) :
    parseExprs fuel k (printExprs es ++ ((if trailing then [.sym ','] else []) ++ .sym '}' :: rest)) = some (es, trailing, rest) := by
  induction es generalizing k with
  | nil => exact absurd rfl hne
  | cons e l ih =>
    obtain ⟨k, rfl⟩ : ∃ j, k = j + 1 := ⟨k - 1, by simp at hk; omega⟩
    cases l with
    | nil =>
      have hl : e.print.length ≤ fuel := by simpa [printExprs] using hf
      cases trailing with
      | false =>
        show parseExprs fuel (k + 1) (e.print ++ .sym '}' :: rest) = _
        rw [parseExprs, parseExpr_print e (h e (by simp)) fuel hl _ (stop_brace _)]
        rfl
      | true =>
        show parseExprs fuel (k + 1) (e.print ++ .sym ',' :: .sym '}' :: rest) = _
        rw [parseExprs, parseExpr_print e (h e (by simp)) fuel hl _ (stop_comma _)]
        rfl
    | cons f l =>
      have hl : e.print.length ≤ fuel := by simp [printExprs] at hf; omega
      have hl2 : (printExprs (f :: l)).length ≤ fuel := by simp only [printExprs, List.length_append, List.length_cons] at hf ⊢; omega
      have ih' := ih (by simp) (fun e he => h e (by simp [he])) hl2 k (by simpa using hk)
      show parseExprs fuel (k + 1) ((e.print ++ .sym ',' :: printExprs (f :: l)) ++ _) = _
      rw [List.append_assoc, List.cons_append, parseExprs, parseExpr_print e (h e (by simp)) fuel hl _ (stop_comma _)]
      have hfo := h f (by simp)
      have hhead : ∀ r, printExprs (f :: l) ++ ((if trailing then [.sym ','] else []) ++ .sym '}' :: rest) ≠ .sym '}' :: r := by
        intro r heq
        have hp := f.print_pos
        cases hfp : f.print with
        | nil => rw [hfp] at hp; simp at hp
        | cons t ts =>
          have e1 : ∃ ts', printExprs (f :: l) = t :: ts' := by
            cases l with
            | nil => exact ⟨ts, by simp [printExprs, hfp]⟩
            | cons g l => exact ⟨ts ++ .sym ',' :: printExprs (g :: l), by simp [printExprs, hfp]⟩
          obtain ⟨ts', e1⟩ := e1
          rw [e1, List.cons_append] at heq
          simp only [List.cons.injEq] at heq
          rw [heq.1] at hfp
          rcases f.head_not_brace hfo _ _ hfp with hc | hc <;> simp at hc
      generalize hT : printExprs (f :: l) ++ ((if trailing then [.sym ','] else []) ++ .sym '}' :: rest) = T at ih' hhead
      split
      · rename_i heq; cases heq
      · rename_i heq; simp only [Option.some.injEq, Prod.mk.injEq, List.cons.injEq] at heq; exact absurd heq.2.2 (hhead _)
      · rename_i heq
        simp only [Option.some.injEq, Prod.mk.injEq, List.cons.injEq, true_and] at heq
        obtain ⟨rfl, rfl⟩ := heq
        rw [ih']; rfl
      · rename_i h3; exact absurd rfl (h3 e T)

theorem parseGroups_print (ess : List (List Expr)) (hne : ess ≠ []) (h : ∀ es ∈ ess, es ≠ [] ∧ ∀ e ∈ es, e.Ok) (fuel : Nat) (hf : (printGroups ess).length ≤ fuel) (k : Nat)
    (hk : ess.length ≤ k) (rest : List Tok) : parseGroups fuel k (printGroups ess ++ .sym '}' :: rest) = some (ess, rest) := by
  induction ess generalizing k with
  | nil => exact absurd rfl hne
  | cons g l ih =>
    obtain ⟨k, rfl⟩ : ∃ j, k = j + 1 := ⟨k - 1, by simp at hk; omega⟩
    obtain ⟨h1, h2⟩ := h g (by simp)
    have hg := printExprs_length g
    cases l with
    | nil =>
      have hl : (printExprs g).length + 2 ≤ fuel := by simpa [printGroups] using hf
      have := parseExprs_print g h1 h2 false fuel (by omega) fuel (by omega) (.sym '}' :: rest)
      show parseGroups fuel (k + 1) (.sym '{' :: ((printExprs g ++ [.sym '}']) ++ .sym '}' :: rest)) = _
      rw [List.append_assoc]
      simp only [Bool.false_eq_true, if_false, List.nil_append] at this
      simp only [List.cons_append, List.nil_append, parseGroups]
      rw [this]; rfl
    | cons g' l =>
      have hl : (printExprs g).length ≤ fuel := by simp [printGroups] at hf; omega
      have hl2 : (printGroups (g' :: l)).length ≤ fuel := by simp only [printGroups, List.length_append, List.length_cons] at hf ⊢; omega
      have := parseExprs_print g h1 h2 false fuel (by omega) fuel (by omega) (.sym ',' :: (printGroups (g' :: l) ++ .sym '}' :: rest))
      show parseGroups fuel (k + 1) (.sym '{' :: ((printExprs g ++ .sym '}' :: .sym ',' :: printGroups (g' :: l)) ++ .sym '}' :: rest)) = _
      rw [List.append_assoc]
      simp only [Bool.false_eq_true, if_false, List.nil_append] at this
      simp only [List.cons_append, parseGroups]
      rw [this]
      simp only
      rw [ih (by simp) (fun es he => h es (by simp [he])) hl2 k (by simpa using hk)]; rfl

theorem parseInit_print (i : Init) (h : i.Ok) (fuel : Nat) (hf : i.print.length ≤ fuel) (rest : List Tok) : parseInit fuel (i.print ++ .sym ';' :: rest) = some (i, .sym ';' :: rest) := by
  cases i with
  | one e =>
    show parseInit fuel (e.print ++ .sym ';' :: rest) = _
    have := parseExpr_print e h fuel hf (.sym ';' :: rest) (stop_semi _)
    cases he : e.print with
    | nil => have hp := e.print_pos; rw [he] at hp; simp at hp
    | cons t ts =>
      rw [he] at this
      have ht : ∀ r, t :: ts ≠ .sym '{' :: r := by
        intro r hr
        rcases e.head_not_brace h '{' r (by rw [he, hr]) with hc | hc <;> simp at hc
      rw [List.cons_append] at this ⊢
      unfold parseInit
      split
      · rename_i heq; simp only [List.cons.injEq] at heq; exact absurd (by rw [heq.1]) (ht ts)
      · rename_i heq; simp only [List.cons.injEq] at heq; exact absurd (by rw [heq.1]) (ht ts)
      · rename_i heq; simp only [List.cons.injEq] at heq; exact absurd (by rw [heq.1]) (ht ts)
      · rw [this]; rfl
  | flat es trailing =>
    obtain ⟨h1, h2⟩ := h
    by_cases hne : es = []
    · subst hne
      have := h2 rfl
      subst this
      rfl
    · have hl : (printExprs es).length ≤ fuel := by simp [Init.print] at hf; omega
      have hg := printExprs_length es
      have := parseExprs_print es hne h1 trailing fuel hl fuel (by omega) (.sym ';' :: rest)
      show parseInit fuel (.sym '{' :: ((printExprs es ++ ((if trailing then [.sym ','] else []) ++ [.sym '}'])) ++ .sym ';' :: rest)) = _
      rw [List.append_assoc, List.append_assoc]
      obtain ⟨e, l, rfl⟩ := List.exists_cons_of_ne_nil hne
      have heo := h1 e (by simp)
      cases hep : e.print with
      | nil => have hp := e.print_pos; rw [hep] at hp; simp at hp
      | cons t ts =>
        have e1 : ∃ ts', printExprs (e :: l) = t :: ts' := by
          cases l with
          | nil => exact ⟨ts, by simp [printExprs, hep]⟩
          | cons g l => exact ⟨ts ++ .sym ',' :: printExprs (g :: l), by simp [printExprs, hep]⟩
        obtain ⟨ts', e1⟩ := e1
        have ht : ∀ c, t = .sym c → c = '-' ∨ c = '(' := fun c hc => e.head_not_brace heo c ts (by rw [hep, hc])
        simp only [List.cons_append, List.nil_append]
        unfold parseInit
        rw [e1] at this ⊢
        rw [List.cons_append] at this ⊢
        split
        · rename_i heq; simp only [List.cons.injEq, true_and] at heq; rcases ht _ heq.1 with hc | hc <;> simp at hc
        · rename_i heq; simp only [List.cons.injEq, true_and] at heq; rcases ht _ heq.1 with hc | hc <;> simp at hc
        · rename_i heq
          simp only [List.cons.injEq, true_and] at heq
          subst heq
          rw [this]; rfl
        · rename_i h3; exact absurd rfl (h3 _)
  | nested ess =>
    obtain ⟨h1, h2⟩ := h
    have hl : (printGroups ess).length ≤ fuel := by simp [Init.print] at hf; omega
    have hg : ess.length ≤ (printGroups ess).length := by
      clear hf hl h1 h2
      induction ess with
      | nil => simp
      | cons g l ih =>
        cases l with
        | nil => simp [printGroups]
        | cons g' l => simp only [printGroups, List.length_cons, List.length_append] at ih ⊢; omega
    have := parseGroups_print ess h1 h2 fuel hl fuel (by omega) (.sym ';' :: rest)
    show parseInit fuel (.sym '{' :: ((printGroups ess ++ [.sym '}']) ++ .sym ';' :: rest)) = _
    rw [List.append_assoc]
    simp only [List.cons_append, List.nil_append]
    have e1 : ∃ ts, printGroups ess = .sym '{' :: ts := by
      obtain ⟨g, l, rfl⟩ := List.exists_cons_of_ne_nil h1
      cases l with
      | nil => exact ⟨_, rfl⟩
      | cons g' l => exact ⟨_, rfl⟩
    obtain ⟨ts, e1⟩ := e1
    rw [e1] at this ⊢
    rw [List.cons_append] at this ⊢
    simp only [parseInit]
    rw [this]; rfl

theorem parseMods_print (ms : List (List Char)) (h : ∀ m ∈ ms, isMod m = true) (w : List Char) (hw : isMod w = false) (rest : List Tok) :
    parseMods (ms.map .word ++ .word w :: rest) = (ms, .word w :: rest) := by
  induction ms with
  | nil => simp [parseMods, hw]
  | cons m ms ih =>
    simp only [List.map_cons, List.cons_append, parseMods]
    rw [if_pos (h m (by simp)), ih (fun m hm => h m (by simp [hm]))]

theorem parseHead_print (ms : List (List Char)) (h : ∀ m ∈ ms, isMod m = true) (ty name : List Char) (ht : isType ty = true) (hn : Nm name) (rest : List Tok) :
    parseHead (ms.map .word ++ .word ty :: .word name :: rest) = some (ms, ty, name, rest) := by
  unfold parseHead
  rw [parseMods_print ms h ty (type_not_mod ht)]
  simp only
  rw [if_pos (by rw [ht, Bool.and_assoc, hn.name]; rfl)]

/-- What follows the name in a declaration. -/
def Decl.tail (d : Decl) : List Tok :=
  (match d.size with | none => [] | some n => [.sym '[', .word n, .sym ']']) ++ ((match d.init with | none => [] | some i => .sym '=' :: i.print) ++ [.sym ';'])

theorem Decl.print_eq (d : Decl) : d.print = d.mods.map .word ++ .word d.ty :: .word d.name :: d.tail := rfl

theorem parseDeclTail_print (d : Decl) (h : d.Ok) (fuel : Nat) (hf : d.tail.length ≤ fuel) (rest : List Tok) :
    parseDeclTail fuel d.mods d.ty d.name (d.tail ++ rest) = some (d, rest) := by
  obtain ⟨mods, ty, name, size, init⟩ := d
  obtain ⟨-, -, -, h4, h5⟩ := h
  simp only [Decl.tail] at hf ⊢
  cases size with
  | none =>
    cases init with
    | none => rfl
    | some i =>
      have := parseInit_print i (h5 i rfl) fuel (by simp at hf; omega) rest
      simp only [List.nil_append, List.append_assoc, List.cons_append]
      change (match parseInit fuel (i.print ++ .sym ';' :: rest) with
        | some (i, .sym ';' :: r') => some ((⟨mods, ty, name, none, some i⟩ : Decl), r')
        | _ => none) = _
      rw [this]; rfl
  | some n =>
    have hn := h4 n rfl
    cases init with
    | none =>
      simp only [List.cons_append, List.nil_append, parseDeclTail]
      rw [if_pos hn]
    | some i =>
      have := parseInit_print i (h5 i rfl) fuel (by simp at hf; omega) rest
      simp only [List.cons_append, List.append_assoc, List.nil_append, parseDeclTail]
      rw [if_pos hn, this]; rfl

/-! ### Statements -/

/-- Nesting and number of statements. -/
def Code.size : Code → Nat
  | .done => 1
  | .decl _ k => k.size + 1
  | .assign _ _ _ _ k => k.size + 1
  | .ret _ k => k.size + 1
  | .ifThen _ t k => max t.size k.size + 1
  | .ifElse _ t e k => max t.size (max e.size k.size) + 1
  | .loop _ _ _ b k => max b.size k.size + 1

theorem Code.size_le (c : Code) : c.size ≤ c.print.length + 1 := by
  induction c with
  | done => simp [Code.size]
  | decl d k ih => simp [Code.size, Code.print, Decl.print]; omega
  | assign x i add e k ih => simp [Code.size, Code.print]; omega
  | ret e k ih => simp [Code.size, Code.print]; omega
  | ifThen c t k iht ihk => simp [Code.size, Code.print]; omega
  | ifElse c t e k iht ihe ihk => simp [Code.size, Code.print]; omega
  | loop ty i b body k ihb ihk => simp [Code.size, Code.print]; omega

/-- What may follow statements: the end or a closing brace. -/
def CStop (rest : List Tok) : Prop := rest = [] ∨ ∃ r, rest = .sym '}' :: r

theorem cstop_brace (r : List Tok) : CStop (.sym '}' :: r) := .inr ⟨r, rfl⟩

theorem mod_cases {w : List Char} (h : isMod w = true) : w = "static".toList ∨ w = "const".toList ∨ w = "inline".toList := by
  simpa [isMod, or_assoc] using h

theorem startsDecl_ne {w : List Char} (h : startsDecl w = true) : w ≠ "return".toList ∧ w ≠ "if".toList ∧ w ≠ "for".toList ∧ w ≠ "else".toList := by
  unfold startsDecl at h
  rw [Bool.or_eq_true] at h
  rcases h with h | h
  · rcases mod_cases h with rfl | rfl | rfl <;> decide
  · have := isType_cases h
    revert this
    revert w
    suffices ∀ w ∈ typeNames.map String.toList, w ≠ "return".toList ∧ w ≠ "if".toList ∧ w ≠ "for".toList ∧ w ≠ "else".toList from fun w _ h => this w h
    decide +kernel

theorem Nm.not_starts {x : List Char} (h : Nm x) : startsDecl x = false := by
  unfold startsDecl; rw [h.not_mod, h.not_type]; rfl

theorem Decl.print_head (d : Decl) (h : d.Ok) : ∃ w r, d.print = .word w :: r ∧ startsDecl w = true := by
  rw [Decl.print_eq]
  cases hm : d.mods with
  | nil => exact ⟨d.ty, _, rfl, by simp [startsDecl, h.2.1]⟩
  | cons m ms => exact ⟨m, _, rfl, by simp [startsDecl, h.1 m (by rw [hm]; simp)]⟩

/-- The first word of statements followed by a closing brace is not `else`. -/
theorem Code.head_not_else (c : Code) (h : c.Ok) (rest : List Tok) (hr : CStop rest) (w : List Char) (r : List Tok) (he : c.print ++ rest = .word w :: r) : w ≠ "else".toList := by
  cases c with
  | done =>
    rcases hr with rfl | ⟨r', rfl⟩
    · simp [Code.print] at he
    · simp [Code.print] at he
  | decl d k =>
    obtain ⟨w', r', h1, h2⟩ := d.print_head h.1
    simp only [Code.print, h1, List.cons_append, List.cons.injEq, Tok.word.injEq] at he
    rw [← he.1]; exact (startsDecl_ne h2).2.2.2
  | assign x i add e k =>
    simp only [Code.print, List.cons_append, List.cons.injEq, Tok.word.injEq] at he
    rw [← he.1]; exact Nm.not_else h.1
  | ret e k =>
    simp only [Code.print, List.cons_append, List.cons.injEq, Tok.word.injEq] at he
    rw [← he.1]; decide
  | ifThen c t k =>
    simp only [Code.print, List.cons_append, List.cons.injEq, Tok.word.injEq] at he
    rw [← he.1]; decide
  | ifElse c t e k =>
    simp only [Code.print, List.cons_append, List.cons.injEq, Tok.word.injEq] at he
    rw [← he.1]; decide
  | loop ty i b body k =>
    simp only [Code.print, List.cons_append, List.cons.injEq, Tok.word.injEq] at he
    rw [← he.1]; decide

theorem parseCode_print (c : Code) (h : c.Ok) (fuel : Nat) (hf : c.print.length ≤ fuel) (k : Nat) (hk : c.size ≤ k) (rest : List Tok) (hr : CStop rest) :
    parseCode fuel k (c.print ++ rest) = some (c, rest) := by
  induction c generalizing k rest with
  | done =>
    obtain ⟨k, rfl⟩ : ∃ j, k = j + 1 := ⟨k - 1, by simp [Code.size] at hk; omega⟩
    rcases hr with rfl | ⟨r, rfl⟩ <;> rfl
  | decl d c ih =>
    obtain ⟨k, rfl⟩ : ∃ j, k = j + 1 := ⟨k - 1, by simp [Code.size] at hk; omega⟩
    obtain ⟨w, r, h1, h2⟩ := d.print_head h.1
    obtain ⟨n1, n2, n3, -⟩ := startsDecl_ne h2
    have hlen : d.tail.length ≤ fuel := by simp [Code.print, Decl.print_eq] at hf; omega
    have hlen2 : c.print.length ≤ fuel := by simp [Code.print] at hf; omega
    have ht := parseDeclTail_print d h.1 fuel hlen (c.print ++ rest)
    have hh := parseHead_print d.mods h.1.1 d.ty d.name h.1.2.1 h.1.2.2.1 (d.tail ++ (c.print ++ rest))
    have hw : .word w :: (r ++ (c.print ++ rest)) = d.mods.map .word ++ .word d.ty :: .word d.name :: (d.tail ++ (c.print ++ rest)) := by
      rw [← List.cons_append, ← h1, Decl.print_eq, List.append_assoc]; rfl
    show parseCode fuel (k + 1) ((d.print ++ c.print) ++ rest) = _
    rw [List.append_assoc, h1, List.cons_append]
    simp only [parseCode]
    rw [if_neg n1, if_neg n2, if_neg n3, if_pos h2, hw, hh]
    simp only
    rw [ht]
    simp only
    rw [ih h.2 hlen2 k (by simp [Code.size] at hk; omega) rest hr]; rfl
  | assign x i add e c ih =>
    obtain ⟨k, rfl⟩ : ∃ j, k = j + 1 := ⟨k - 1, by simp [Code.size] at hk; omega⟩
    obtain ⟨hx, hi, he, hc⟩ := h
    have hlen : e.print.length ≤ fuel := by simp [Code.print] at hf; omega
    have hlen2 : c.print.length ≤ fuel := by simp [Code.print] at hf; omega
    have hE := parseExpr_print e he fuel hlen (.sym ';' :: (c.print ++ rest)) (stop_semi _)
    have hC := ih hc hlen2 k (by simp [Code.size] at hk; omega) rest hr
    cases i with
    | none =>
      cases add with
      | false =>
        show parseCode fuel (k + 1) (.word x :: .sym '=' :: ((e.print ++ .sym ';' :: c.print) ++ rest)) = _
        rw [List.append_assoc, List.cons_append]
        simp only [parseCode]
        rw [if_neg hx.not_return, if_neg hx.not_if, if_neg hx.not_for, if_neg (by rw [hx.not_starts]; simp), if_pos hx.name]
        rw [hE]
        simp only
        rw [hC]; rfl
      | true =>
        show parseCode fuel (k + 1) (.word x :: .sym '+' :: .sym '=' :: ((e.print ++ .sym ';' :: c.print) ++ rest)) = _
        rw [List.append_assoc, List.cons_append]
        simp only [parseCode]
        rw [if_neg hx.not_return, if_neg hx.not_if, if_neg hx.not_for, if_neg (by rw [hx.not_starts]; simp), if_pos hx.name]
        rw [hE]
        simp only
        rw [hC]; rfl
    | some j =>
      have hlen3 : j.print.length ≤ fuel := by simp [Code.print] at hf; omega
      cases add with
      | false =>
        have hJ := parseExpr_print j (hi j rfl) fuel hlen3 (.sym ']' :: .sym '=' :: (e.print ++ .sym ';' :: (c.print ++ rest))) (stop_rbrack _)
        have eq : (Code.assign x (some j) false e c).print ++ rest = .word x :: .sym '[' :: (j.print ++ .sym ']' :: .sym '=' :: (e.print ++ .sym ';' :: (c.print ++ rest))) := by
          simp [Code.print]
        rw [eq]
        simp only [parseCode]
        rw [if_neg hx.not_return, if_neg hx.not_if, if_neg hx.not_for, if_neg (by rw [hx.not_starts]; simp), if_pos hx.name]
        rw [hJ]
        simp only
        rw [hE]
        simp only
        rw [hC]; rfl
      | true =>
        have hJ := parseExpr_print j (hi j rfl) fuel hlen3 (.sym ']' :: .sym '+' :: .sym '=' :: (e.print ++ .sym ';' :: (c.print ++ rest))) (stop_rbrack _)
        have eq : (Code.assign x (some j) true e c).print ++ rest = .word x :: .sym '[' :: (j.print ++ .sym ']' :: .sym '+' :: .sym '=' :: (e.print ++ .sym ';' :: (c.print ++ rest))) := by
          simp [Code.print]
        rw [eq]
        simp only [parseCode]
        rw [if_neg hx.not_return, if_neg hx.not_if, if_neg hx.not_for, if_neg (by rw [hx.not_starts]; simp), if_pos hx.name]
        rw [hJ]
        simp only
        rw [hE]
        simp only
        rw [hC]; rfl
  | ret e c ih =>
    obtain ⟨k, rfl⟩ : ∃ j, k = j + 1 := ⟨k - 1, by simp [Code.size] at hk; omega⟩
    have hlen : e.print.length ≤ fuel := by simp [Code.print] at hf; omega
    have hlen2 : c.print.length ≤ fuel := by simp [Code.print] at hf; omega
    have hE := parseExpr_print e h.1 fuel hlen (.sym ';' :: (c.print ++ rest)) (stop_semi _)
    have hC := ih h.2 hlen2 k (by simp [Code.size] at hk; omega) rest hr
    have eq : (Code.ret e c).print ++ rest = .word "return".toList :: (e.print ++ .sym ';' :: (c.print ++ rest)) := by simp [Code.print]
    rw [eq]
    simp only [parseCode]
    rw [if_pos trivial, hE]
    simp only
    rw [hC]; rfl
  | ifThen c t c' iht ihk =>
    obtain ⟨k, rfl⟩ : ∃ j, k = j + 1 := ⟨k - 1, by simp [Code.size] at hk; omega⟩
    have hlen : c.print.length ≤ fuel := by simp [Code.print] at hf; omega
    have hlen1 : t.print.length ≤ fuel := by simp [Code.print] at hf; omega
    have hlen2 : c'.print.length ≤ fuel := by simp [Code.print] at hf; omega
    have hE := parseExpr_print c h.1 fuel hlen (.sym ')' :: .sym '{' :: (t.print ++ .sym '}' :: (c'.print ++ rest))) (stop_rpar _)
    have hT := iht h.2.1 hlen1 k (by simp [Code.size] at hk; omega) (.sym '}' :: (c'.print ++ rest)) (cstop_brace _)
    have hC := ihk h.2.2 hlen2 k (by simp [Code.size] at hk; omega) rest hr
    have eq : (Code.ifThen c t c').print ++ rest = .word "if".toList :: .sym '(' :: (c.print ++ .sym ')' :: .sym '{' :: (t.print ++ .sym '}' :: (c'.print ++ rest))) := by simp [Code.print]
    have hne := Code.head_not_else c' h.2.2 rest hr
    rw [eq]
    simp only [parseCode]
    rw [if_neg (by decide), if_pos trivial]
    rw [hE]
    simp only
    rw [hT]
    generalize c'.print ++ rest = T at hC hne
    split
    · rename_i heq
      simp only [Option.some.injEq, Prod.mk.injEq, List.cons.injEq, true_and] at heq
      obtain ⟨rfl, rfl⟩ := heq
      rw [if_neg (hne _ _ rfl), hC]; rfl
    · rename_i heq
      simp only [Option.some.injEq, Prod.mk.injEq, List.cons.injEq, true_and] at heq
      obtain ⟨rfl, rfl⟩ := heq
      rw [hC]; rfl
    · rename_i h3; exact absurd rfl (h3 t T)
  | ifElse c t e c' iht ihe ihk =>
    obtain ⟨k, rfl⟩ : ∃ j, k = j + 1 := ⟨k - 1, by simp [Code.size] at hk; omega⟩
    have hlen : c.print.length ≤ fuel := by simp [Code.print] at hf; omega
    have hlen1 : t.print.length ≤ fuel := by simp [Code.print] at hf; omega
    have hlen2 : c'.print.length ≤ fuel := by simp [Code.print] at hf; omega
    have hlen3 : e.print.length ≤ fuel := by simp [Code.print] at hf; omega
    have hE := parseExpr_print c h.1 fuel hlen (.sym ')' :: .sym '{' :: (t.print ++ .sym '}' :: .word "else".toList :: .sym '{' :: (e.print ++ .sym '}' :: (c'.print ++ rest)))) (stop_rpar _)
    have hT := iht h.2.1 hlen1 k (by simp [Code.size] at hk; omega) (.sym '}' :: .word "else".toList :: .sym '{' :: (e.print ++ .sym '}' :: (c'.print ++ rest))) (cstop_brace _)
    have hL := ihe h.2.2.1 hlen3 k (by simp [Code.size] at hk; omega) (.sym '}' :: (c'.print ++ rest)) (cstop_brace _)
    have hC := ihk h.2.2.2 hlen2 k (by simp [Code.size] at hk; omega) rest hr
    have eq : (Code.ifElse c t e c').print ++ rest =
        .word "if".toList :: .sym '(' :: (c.print ++ .sym ')' :: .sym '{' :: (t.print ++ .sym '}' :: .word "else".toList :: .sym '{' :: (e.print ++ .sym '}' :: (c'.print ++ rest)))) := by simp [Code.print]
    rw [eq]
    simp only [parseCode]
    rw [if_neg (by decide), if_pos trivial]
    rw [hE]
    simp only
    rw [hT]
    simp only
    rw [if_pos trivial, hL]
    simp only
    rw [hC]; rfl
  | loop ty i b body c' ihb ihk =>
    obtain ⟨k, rfl⟩ : ∃ j, k = j + 1 := ⟨k - 1, by simp [Code.size] at hk; omega⟩
    obtain ⟨h1, h2, h3, h4, h5, h6⟩ := h
    have hlen : b.print.length ≤ fuel := by simp [Code.print] at hf; omega
    have hlen1 : body.print.length ≤ fuel := by simp [Code.print] at hf; omega
    have hlen2 : c'.print.length ≤ fuel := by simp [Code.print] at hf; omega
    have hE := parsePrim_print b h4 h3 fuel hlen (.sym ';' :: .word i :: .sym '+' :: .sym '+' :: .sym ')' :: .sym '{' :: (body.print ++ .sym '}' :: (c'.print ++ rest)))
      (stop_semi _).pstop
    have hT := ihb h5 hlen1 k (by simp [Code.size] at hk; omega) (.sym '}' :: (c'.print ++ rest)) (cstop_brace _)
    have hC := ihk h6 hlen2 k (by simp [Code.size] at hk; omega) rest hr
    have eq : (Code.loop ty i b body c').print ++ rest =
        .word "for".toList :: .sym '(' :: .word ty :: .word i :: .sym '=' :: .word "0".toList :: .sym ';' :: .word i :: .sym '<' ::
          (b.print ++ .sym ';' :: .word i :: .sym '+' :: .sym '+' :: .sym ')' :: .sym '{' :: (body.print ++ .sym '}' :: (c'.print ++ rest))) := by simp [Code.print]
    rw [eq]
    simp only [parseCode]
    rw [if_neg (by decide), if_neg (by decide), if_pos trivial]
    rw [if_pos (by rw [h1, h2.1, h2.2]; simp), hE]
    simp only
    rw [if_pos trivial, hT]
    simp only
    rw [hC]; rfl

/-! ### Functions and programs -/

theorem parseParam_print (p : Param) (h : p.Ok) (c : Char) (hcb : c ≠ '[') (rest : List Tok) : parseParam (p.print ++ .sym c :: rest) = some (p, .sym c :: rest) := by
  obtain ⟨const, ty, ptr, x⟩ := p
  obtain ⟨h1, h2⟩ := h
  have hc : (isType ty && isName x && !isKey x) = true := by rw [h1, Bool.and_assoc, h2.name]; rfl
  have hty : ty ≠ "const".toList := by
    rintro rfl
    exact absurd (type_not_mod (w := "const".toList) h1) (by decide)
  cases const <;> cases ptr
  · show parseParam (.word ty :: .word x :: .sym c :: rest) = _
    simp only [parseParam]
    rw [if_neg hty]
    split
    · rename_i heq; simp at heq
    · rename_i heq; simp only [List.cons.injEq, Tok.sym.injEq] at heq; exact absurd heq.2.2.1 hcb
    · rename_i heq; simp only [List.cons.injEq, Tok.word.injEq] at heq; obtain ⟨rfl, rfl, rfl⟩ := heq; rw [if_pos hc]
    · rename_i h3 h4 h5; exact absurd rfl (h5 _ _ _)
  · show parseParam (.word ty :: .sym '*' :: .word x :: .sym c :: rest) = _
    simp only [parseParam]
    rw [if_neg hty]; rw [if_pos hc]
  · show parseParam (.word "const".toList :: .word ty :: .word x :: .sym c :: rest) = _
    simp only [parseParam]
    rw [if_pos trivial]
    split
    · rename_i heq; simp at heq
    · rename_i heq; simp only [List.cons.injEq, Tok.sym.injEq] at heq; exact absurd heq.2.2.1 hcb
    · rename_i heq; simp only [List.cons.injEq, Tok.word.injEq] at heq; obtain ⟨rfl, rfl, rfl⟩ := heq; rw [if_pos hc]
    · rename_i h3 h4 h5; exact absurd rfl (h5 _ _ _)
  · show parseParam (.word "const".toList :: .word ty :: .sym '*' :: .word x :: .sym c :: rest) = _
    simp only [parseParam]
    rw [if_pos trivial]; rw [if_pos hc]

theorem parseParams_print (ps : List Param) (hne : ps ≠ []) (h : ∀ p ∈ ps, p.Ok) (k : Nat) (hk : ps.length ≤ k) (rest : List Tok) :
    parseParams k (printParams ps ++ .sym ')' :: rest) = some (ps, rest) := by
  induction ps generalizing k with
  | nil => exact absurd rfl hne
  | cons p l ih =>
    obtain ⟨k, rfl⟩ : ∃ j, k = j + 1 := ⟨k - 1, by simp at hk; omega⟩
    cases l with
    | nil =>
      show parseParams (k + 1) (p.print ++ .sym ')' :: rest) = _
      rw [parseParams, parseParam_print p (h p (by simp)) _ (by decide)]
      rfl
    | cons q l =>
      show parseParams (k + 1) ((p.print ++ .sym ',' :: printParams (q :: l)) ++ .sym ')' :: rest) = _
      rw [List.append_assoc, List.cons_append, parseParams, parseParam_print p (h p (by simp)) _ (by decide)]
      simp only
      rw [ih (by simp) (fun p hp => h p (by simp [hp])) k (by simpa using hk)]; rfl

theorem printParams_length (ps : List Param) : ps.length ≤ (printParams ps).length := by
  induction ps with
  | nil => simp
  | cons p l ih =>
    have hp : 1 ≤ p.print.length := by simp [Param.print]; omega
    cases l with
    | nil => simp only [printParams, List.length_cons, List.length_nil]; omega
    | cons q l => simp only [printParams, List.length_append, List.length_cons] at ih ⊢; omega

theorem Decl.tail_head (d : Decl) (rest : List Tok) : ∀ r, d.tail ++ rest ≠ .sym '(' :: r := by
  obtain ⟨mods, ty, name, size, init⟩ := d
  intro r
  cases size <;> cases init <;> simp [Decl.tail]

/-- Words of a function whose parameters are written as `pt`. -/
def Func.printWith (pt : List Tok) (f : Func) : List Tok :=
  f.mods.map .word ++ .word f.ty :: .word f.name :: .sym '(' :: (pt ++ .sym ')' :: .sym '{' :: (f.body.print ++ [.sym '}']))

/-- `pt` is a way to write the parameters. -/
def ParamsRead (ps : List Param) (pt : List Tok) : Prop := ∀ k, pt.length ≤ k → ∀ rest, parseParams k (pt ++ .sym ')' :: rest) = some (ps, rest)

/-- `ts` is a way to write the declaration or function. -/
def Top.Reads : Top → List Tok → Prop
  | .decl d, ts => d.Ok ∧ ts = d.print
  | .func f, ts => (∀ m ∈ f.mods, isMod m = true) ∧ isType f.ty = true ∧ Nm f.name ∧ f.body.Ok ∧ ∃ pt, ParamsRead f.params pt ∧ ts = f.printWith pt

theorem paramsRead_print (ps : List Param) (hne : ps ≠ []) (h : ∀ p ∈ ps, p.Ok) : ParamsRead ps (printParams ps) :=
  fun k hk rest => parseParams_print ps hne h k (le_trans (printParams_length ps) hk) rest

theorem Top.reads_print (t : Top) (h : t.Ok) : t.Reads t.print := by
  cases t with
  | decl d => exact ⟨h, rfl⟩
  | func f =>
    obtain ⟨h1, h2, h3, h4, h5, h6⟩ := h
    exact ⟨h1, h2, h3, h6, _, paramsRead_print _ h4 h5, rfl⟩

theorem Top.reads_pos {t : Top} {ts : List Tok} (h : t.Reads ts) : 1 ≤ ts.length := by
  cases t with
  | decl d => obtain ⟨-, rfl⟩ := h; simp [Decl.print]; omega
  | func f => obtain ⟨-, -, -, -, pt, -, rfl⟩ := h; simp [Func.printWith]; omega

theorem parseTops_reads (l : List (Top × List Tok)) (h : ∀ a ∈ l, a.1.Reads a.2) (fuel : Nat) (hf : (l.flatMap (·.2)).length < fuel) (k : Nat) (hk : l.length < k) :
    parseTops fuel k (l.flatMap (·.2)) = some (l.map (·.1)) := by
  induction l generalizing k with
  | nil =>
    obtain ⟨k, rfl⟩ : ∃ j, k = j + 1 := ⟨k - 1, by omega⟩
    rfl
  | cons a l ih =>
    obtain ⟨t, ts⟩ := a
    obtain ⟨k, rfl⟩ : ∃ j, k = j + 1 := ⟨k - 1, by omega⟩
    rw [List.flatMap_cons, List.length_append] at hf
    have ih' := ih (fun t ht => h t (by simp [ht])) (by omega) k (by simp at hk; omega)
    have ht : t.Reads ts := h (t, ts) (by simp)
    rw [List.flatMap_cons]
    generalize l.flatMap (·.2) = P at ih' hf ⊢
    cases t with
    | decl d =>
      obtain ⟨ht, rfl⟩ := ht
      have hh := parseHead_print d.mods ht.1 d.ty d.name ht.2.1 ht.2.2.1 (d.tail ++ P)
      have hd := parseDeclTail_print d ht fuel (by simp only [Decl.print_eq, List.length_append, List.length_cons] at hf; omega) P
      have hnp := d.tail_head P
      have e2 : d.print ++ P = d.mods.map .word ++ .word d.ty :: .word d.name :: (d.tail ++ P) := by
        rw [Decl.print_eq, List.append_assoc]; rfl
      rw [e2]
      generalize hT : d.mods.map Tok.word ++ .word d.ty :: .word d.name :: (d.tail ++ P) = T at hh
      cases T with
      | nil => simp at hT
      | cons a T =>
        simp only [parseTops]
        rw [hh]
        generalize d.tail ++ P = S at hd hnp
        split
        · rename_i heq; cases heq
        · rename_i heq
          simp only [Option.some.injEq, Prod.mk.injEq] at heq
          exact absurd heq.2.2.2 (hnp _)
        · rename_i heq
          simp only [Option.some.injEq, Prod.mk.injEq] at heq
          obtain ⟨rfl, rfl, rfl, rfl⟩ := heq
          rw [hd]
          simp only
          rw [ih']; rfl
    | func f =>
      obtain ⟨h1, h2, h3, h6, pt, h5, rfl⟩ := ht
      simp only [Func.printWith, List.length_append, List.length_cons, List.length_map, List.length_nil] at hf
      have hh := parseHead_print f.mods h1 f.ty f.name h2 h3 (.sym '(' :: (pt ++ .sym ')' :: .sym '{' :: (f.body.print ++ .sym '}' :: P)))
      have hP := h5 fuel (by omega) (.sym '{' :: (f.body.print ++ .sym '}' :: P))
      have hC := parseCode_print f.body h6 fuel (by omega) fuel (by have := f.body.size_le; omega) (.sym '}' :: P) (cstop_brace _)
      have e2 : f.printWith pt ++ P =
          f.mods.map .word ++ .word f.ty :: .word f.name :: .sym '(' :: (pt ++ .sym ')' :: .sym '{' :: (f.body.print ++ .sym '}' :: P)) := by
        simp [Func.printWith]
      rw [e2]
      generalize hT : f.mods.map Tok.word ++ .word f.ty :: .word f.name :: .sym '(' :: (pt ++ .sym ')' :: .sym '{' :: (f.body.print ++ .sym '}' :: P)) = T at hh
      cases T with
      | nil => simp at hT
      | cons a T =>
        simp only [parseTops]
        rw [hh]
        simp only
        rw [hP]
        simp only
        rw [hC]
        simp only
        rw [ih']; rfl

/-- A text whose words and symbols are those of declarations and functions, in any way to write them, stands for that program. -/
theorem parse_reads (text : List Char) (l : List (Top × List Tok)) (h : ∀ a ∈ l, a.1.Reads a.2) (ht : lex text = l.flatMap (·.2)) : parse text = some (l.map (·.1)) := by
  unfold parse
  rw [ht]
  refine parseTops_reads l h _ (by omega) _ ?_
  have : l.length ≤ (l.flatMap (·.2)).length := by
    clear ht
    induction l with
    | nil => simp
    | cons a l ih =>
      have h1 := Top.reads_pos (h a (by simp))
      have h2 := ih fun b hb => h b (by simp [hb])
      simp only [List.flatMap_cons, List.length_append, List.length_cons] at h2 ⊢; omega
  omega

/-- A text whose words and symbols are those of a program stands for that program. -/
theorem parse_eq (text : List Char) (p : Prog) (h : ∀ t ∈ p, t.Ok) (ht : lex text = printProg p) : parse text = some p := by
  have := parse_reads text (p.map fun t => (t, t.print)) (by intro a ha; obtain ⟨t, ht, rfl⟩ := List.mem_map.1 ha; exact t.reads_print (h t ht)) (by
    rw [ht, printProg, List.flatMap_map])
  rw [this, List.map_map]
  exact congrArg some (List.map_id p)

end Emlearn.MiniC
