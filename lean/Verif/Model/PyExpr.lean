import Verif.Py.Basic

/-!
# Reading arithmetic expressions

The equation strings of a model are read by Python's expression grammar: pytensor models hand them to
`eval` (compile/pytensor.py:113-160), sympy models to `sp.parse_expr` (base/cge.py:411-417), which
follows the same precedences.  This file has a tokenizer and a recursive-descent parser for the part of
the grammar that the generators of `production_functions.py` use: names, numbers, `+ - * / **`,
parentheses, calls `x.method()`, `x.sum(axis=k)`, `x.subs({i:j})`, `x.subs({i:0})`, `x.subs([(i, k), (k, j)])`,
slices `x[None]` and `x[:, None]`, items `x[0]`, `Sum(e, (d, lo, hi))` and `Product(e, (d, lo, hi))`.
-/

namespace Verif

inductive Token where
  | name (s : Str)
  | num (s : Str)
  | plus | minus | star | slash | pow | lpar | rpar | comma | eq | dot
  | lbrack | rbrack | lbrace | rbrace | colon
  deriving DecidableEq, Repr

/-! ## Tokenizer -/

/-- What has been read but not yet emitted. -/
inductive Pending where
  | none
  | name (s : Str)
  | num (s : Str)
  | star
  deriving DecidableEq, Repr

def Pending.flush : Pending → List Token
  | .none => []
  | .name s => [.name s]
  | .num s => [.num s]
  | .star => [.star]

/-- First character of a Python identifier (ASCII). -/
def identStart (c : Char) : Bool := c.isAlpha || c == '_'

/-- Operators of one character (except `*` and `.`). -/
def opToken : Char → Option Token
  | '+' => some .plus
  | '-' => some .minus
  | '/' => some .slash
  | '(' => some .lpar
  | ')' => some .rpar
  | ',' => some .comma
  | '=' => some .eq
  | '[' => some .lbrack
  | ']' => some .rbrack
  | '{' => some .lbrace
  | '}' => some .rbrace
  | ':' => some .colon
  | _ => none

/-- One character: the tokens emitted and what is pending, or `none` for a lexical error. -/
def lexStep (p : Pending) (c : Char) : Option (List Token × Pending) :=
  if c == ' ' then some (p.flush, .none)
  else match opToken c with
    | some t => some (p.flush ++ [t], .none)
    | none =>
        if c == '*' then
          match p with
          | .star => some ([.pow], .none)
          | p => some (p.flush, .star)
        else if c == '.' then
          match p with
          | .num s => if s.contains '.' then none else some ([], .num (s ++ [c]))
          | p => some (p.flush ++ [.dot], .none)
        else if identStart c then
          match p with
          | .name s => some ([], .name (s ++ [c]))
          | .num _ => none
          | p => some (p.flush, .name [c])
        else if c.isDigit then
          match p with
          | .name s => some ([], .name (s ++ [c]))
          | .num s => some ([], .num (s ++ [c]))
          | p => some (p.flush, .num [c])
        else none

/-- The tokenizer on a whole string, from a given pending state. -/
def lexRun (p : Pending) : Str → Option (List Token × Pending)
  | [] => some ([], p)
  | c :: s =>
      match lexStep p c with
      | none => none
      | some (ts, p') =>
          match lexRun p' s with
          | none => none
          | some (us, q) => some (ts ++ us, q)

/-- All tokens of a string. -/
def tokens (s : Str) : Option (List Token) := (lexRun .none s).map fun r => r.1 ++ r.2.flush

/-! ## Parser -/

/-- What can be written after a primary. -/
inductive Post where
  | call (m : Str)
  | sumAxis (k : Str)
  | subs (i j : Str)
  | subsNum (i k : Str)
  | subsList (ps : List (Str × Str))
  | newAxis0
  | newAxis1
  | item (k : Str)
  deriving DecidableEq, Repr

inductive PExpr where
  | var (s : Str)
  | num (s : Str)
  | neg (e : PExpr)
  | pos (e : PExpr)
  | add (a b : PExpr)
  | sub (a b : PExpr)
  | mul (a b : PExpr)
  | div (a b : PExpr)
  | pow (a b : PExpr)
  | post (e : PExpr) (q : Post)
  | sumOver (e : PExpr) (d lo hi : Str)
  | prodOver (e : PExpr) (d lo hi : Str)
  deriving DecidableEq, Repr

/-- What the parser is looking for.  `sumRest e`: `e` has been read, look for `+ …` or `- …`. -/
inductive Goal where
  | sum
  | sumRest (e : PExpr)
  | term
  | termRest (e : PExpr)
  | factor
  | power
  | primary
  | primaryRest (e : PExpr)
  | atom

/-- `(i, k), (k, j)])` -/
def subsPairs : List Token → Option (List (Str × Str) × List Token)
  | .lpar :: .name i :: .comma :: .name j :: .rpar :: .rbrack :: .rpar :: r => some ([(i, j)], r)
  | .lpar :: .name i :: .comma :: .name j :: .rpar :: .comma :: r =>
      match subsPairs r with
      | none => none
      | some (ps, r') => some ((i, j) :: ps, r')
  | _ => none

/-- `.m()`, `.sum(axis=k)`, `.subs({i:j})`, `.subs({i:0})`, `.subs([(i, k), (k, j)])`, `[:, None]`, `[None]`,
`[0]`. -/
def postfixOf : List Token → Option (Post × List Token)
  | .dot :: .name m :: .lpar :: .rpar :: r => some (.call m, r)
  | .dot :: .name m :: .lpar :: .name k :: .eq :: .num a :: .rpar :: r =>
      if m = "sum".toList ∧ k = "axis".toList then some (.sumAxis a, r) else none
  | .dot :: .name m :: .lpar :: .lbrace :: .name i :: .colon :: .name j :: .rbrace :: .rpar :: r =>
      if m = "subs".toList then some (.subs i j, r) else none
  | .dot :: .name m :: .lpar :: .lbrace :: .name i :: .colon :: .num k :: .rbrace :: .rpar :: r =>
      if m = "subs".toList then some (.subsNum i k, r) else none
  | .dot :: .name m :: .lpar :: .lbrack :: r =>
      if m = "subs".toList then (subsPairs r).map fun x => (.subsList x.1, x.2) else none
  | .lbrack :: .colon :: .comma :: .name x :: .rbrack :: r =>
      if x = "None".toList then some (.newAxis1, r) else none
  | .lbrack :: .name x :: .rbrack :: r => if x = "None".toList then some (.newAxis0, r) else none
  | .lbrack :: .num k :: .rbrack :: r => some (.item k, r)
  | _ => none

/-- `(` -/
def openCall : List Token → Option (List Token)
  | .lpar :: r => some r
  | _ => none

/-- `)` -/
def closeParen : List Token → Option (List Token)
  | .rpar :: r => some r
  | _ => none

/-- `, (d, lo, hi))` -/
def sumBounds : List Token → Option (Str × Str × Str × List Token)
  | .comma :: .lpar :: .name d :: .comma :: .num lo :: .comma :: .num hi :: .rpar :: .rpar :: r =>
      some (d, lo, hi, r)
  | _ => none

/-- Recursive descent after the Python grammar (`sum`, `term`, `factor`, `power`, `primary`, `atom`); the
first argument bounds the depth of the recursion. -/
def parseGoal : Nat → Goal → List Token → Option (PExpr × List Token)
  | 0, _, _ => none
  | n + 1, .sum, ts =>
      match parseGoal n .term ts with
      | none => none
      | some (e, r) => parseGoal n (.sumRest e) r
  | n + 1, .sumRest e, .plus :: ts =>
      match parseGoal n .term ts with
      | none => none
      | some (e', r) => parseGoal n (.sumRest (.add e e')) r
  | n + 1, .sumRest e, .minus :: ts =>
      match parseGoal n .term ts with
      | none => none
      | some (e', r) => parseGoal n (.sumRest (.sub e e')) r
  | _ + 1, .sumRest e, ts => some (e, ts)
  | n + 1, .term, ts =>
      match parseGoal n .factor ts with
      | none => none
      | some (e, r) => parseGoal n (.termRest e) r
  | n + 1, .termRest e, .star :: ts =>
      match parseGoal n .factor ts with
      | none => none
      | some (e', r) => parseGoal n (.termRest (.mul e e')) r
  | n + 1, .termRest e, .slash :: ts =>
      match parseGoal n .factor ts with
      | none => none
      | some (e', r) => parseGoal n (.termRest (.div e e')) r
  | _ + 1, .termRest e, ts => some (e, ts)
  | n + 1, .factor, .minus :: ts =>
      match parseGoal n .factor ts with
      | none => none
      | some (e, r) => some (.neg e, r)
  | n + 1, .factor, .plus :: ts =>
      match parseGoal n .factor ts with
      | none => none
      | some (e, r) => some (.pos e, r)
  | n + 1, .factor, ts => parseGoal n .power ts
  | n + 1, .power, ts =>
      match parseGoal n .primary ts with
      | none => none
      | some (b, .pow :: r) =>
          match parseGoal n .factor r with
          | none => none
          | some (e, r') => some (.pow b e, r')
      | some (b, r) => some (b, r)
  | n + 1, .primary, ts =>
      match parseGoal n .atom ts with
      | none => none
      | some (e, r) => parseGoal n (.primaryRest e) r
  | n + 1, .primaryRest e, ts =>
      match postfixOf ts with
      | none => some (e, ts)
      | some (q, r) => parseGoal n (.primaryRest (.post e q)) r
  | n + 1, .atom, .name x :: ts =>
      match openCall ts with
      | none => some (.var x, ts)
      | some r =>
          if x = "Sum".toList ∨ x = "Product".toList then
            match parseGoal n .sum r with
            | none => none
            | some (e, r') =>
                match sumBounds r' with
                | none => none
                | some (d, lo, hi, r'') =>
                    some (if x = "Sum".toList then .sumOver e d lo hi else .prodOver e d lo hi, r'')
          else none
  | _ + 1, .atom, .num x :: ts => some (.num x, ts)
  | n + 1, .atom, .lpar :: ts =>
      match parseGoal n .sum ts with
      | none => none
      | some (e, r) =>
          match closeParen r with
          | none => none
          | some r' => some (e, r')
  | _ + 1, .atom, _ => none

/-- The parser accepts the tokens and returns the expression (for some recursion depth, and then for
every larger one, see `Parses.unique`). -/
def Parses (ts : List Token) (e : PExpr) : Prop := ∃ n, parseGoal n .sum ts = some (e, [])

/-- The string is read as the expression. -/
def Reads (s : Str) (e : PExpr) : Prop := ∃ ts, tokens s = some ts ∧ Parses ts e

/-- The string `lhs = rhs` is read as a pair of expressions (see `ReadsEq.unique`: equals signs of keyword
arguments are inside parentheses and do not split it). -/
def ReadsEq (s : Str) (l r : PExpr) : Prop :=
  ∃ ts us, tokens s = some (ts ++ .eq :: us) ∧ Parses ts l ∧ Parses us r

end Verif
