/-!
# Expressions of Liberty files

Pins, parentheses, `'` after an operand for the complement, `^`, `*` or `&`, `+` or `|` for exclusive or, and, or, in this order of
precedence. (The forms with `!` and with a blank for and are not needed.)
-/

namespace TinyGarble.Spec.Liberty

inductive Expr where
  | pin (name : List Char)
  | not (e : Expr)
  | xor (a b : Expr)
  | and (a b : Expr)
  | or (a b : Expr)
deriving DecidableEq

def Expr.eval (i : String → Bool) : Expr → Bool
  | pin n => i (String.ofList n)
  | not e => !e.eval i
  | xor a b => a.eval i ^^ b.eval i
  | and a b => a.eval i && b.eval i
  | or a b => a.eval i || b.eval i

/-- The operators of a level: 0 or, 1 and, 2 exclusive or. -/
def operator (level : Nat) (ch : Char) : Option (Expr → Expr → Expr) :=
  match level with
  | 0 => if ch = '+' ∨ ch = '|' then some .or else none
  | 1 => if ch = '*' ∨ ch = '&' then some .and else none
  | _ => if ch = '^' then some .xor else none

/-- Complements after an operand. -/
def complements : Expr → List Char → Expr × List Char
  | e, '\'' :: l => complements (.not e) l
  | e, l => (e, l)

mutual
/-- An expression of a level; level 3 are operands with their complements. The first argument bounds the depth of the recursion. -/
def parse : Nat → Nat → List Char → Option (Expr × List Char)
  | 0, _, _ => none
  | n + 1, level, l =>
    if level = 3 then
      match l with
      | '(' :: l =>
        match parse n 0 l with
        | some (e, ')' :: l) => some (complements e l)
        | _ => none
      | l => if l.takeWhile Char.isAlphanum = [] then none else some (complements (.pin (l.takeWhile Char.isAlphanum)) (l.dropWhile Char.isAlphanum))
    else
      match parse n (level + 1) l with
      | some (e, l) => operands n level e l
      | none => none
/-- The further operands of a level. -/
def operands : Nat → Nat → Expr → List Char → Option (Expr × List Char)
  | 0, _, _, _ => none
  | _ + 1, _, e, [] => some (e, [])
  | n + 1, level, e, ch :: l =>
    match operator level ch with
    | some op =>
      match parse n (level + 1) l with
      | some (e', l) => operands n level (op e e') l
      | none => none
    | none => some (e, ch :: l)
end

/-- The expression that a text stands for. -/
def read (text : String) : Option Expr :=
  match parse (8 * text.length + 8) 0 text.toList with
  | some (e, []) => some e
  | _ => none

/-- The outputs of a cell with these attributes `function`. -/
def outputs (functions : List (String × String)) (i : String → Bool) : Option (List (String × Bool)) :=
  functions.mapM fun f => (read f.2).map fun e => (f.1, e.eval i)

/-- The next value of a flip-flop with these attributes: `clear` and `preset` act at once, `nextState` at an edge of the clock
(`clock`). When both are active, the value is the one that is given for this case, `L` or `H`; otherwise it is not determined. -/
def next (nextState clear preset : String) (both : Option String) (q clock : Bool) (i : String → Bool) : Option Bool := do
  let c ← read clear
  let p ← read preset
  let d ← read nextState
  match c.eval i, p.eval i with
  | true, true => if both = some "L" then some false else if both = some "H" then some true else none
  | true, false => some false
  | false, true => some true
  | false, false => some (if clock then d.eval i else q)

end TinyGarble.Spec.Liberty
