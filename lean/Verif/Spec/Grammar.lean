import Verif.Model.PyExpr

/-!
# The grammar, as a relation

`Derives g ts e`: the tokens `ts` are a phrase of kind `g` with meaning `e`, by the rules of the Python
reference (section "Expressions", full grammar specification):

    sum:     sum '+' term | sum '-' term | term
    term:    term '*' factor | term '/' factor | factor
    factor:  '+' factor | '-' factor | power
    power:   primary '**' factor | primary
    primary: primary '.' NAME '(' ')' | primary '.' 'sum' '(' 'axis' '=' NUMBER ')'
             | primary '.' 'subs' '(' '{' NAME ':' NAME '}' ')' | primary '[' 'None' ']'
             | primary '.' 'subs' '(' '{' NAME ':' NUMBER '}' ')' | primary '[' NUMBER ']'
             | primary '.' 'subs' '(' '[' '(' NAME ',' NAME ')' … ']' ')' | primary '[' ':' ',' 'None' ']' | atom
    atom:    NAME | NUMBER | '(' sum ')' | 'Sum' '(' sum ',' '(' NAME ',' NUMBER ',' NUMBER ')' ')'
             | 'Product' '(' sum ',' '(' NAME ',' NUMBER ',' NUMBER ')' ')'
-/

namespace Verif

inductive Kind where
  | sum | term | factor | power | primary | atom
  deriving DecidableEq, Repr

/-- `(i, k), (k, j)` -/
def pairTokens : List (Str × Str) → List Token
  | [] => []
  | [p] => [.lpar, .name p.1, .comma, .name p.2, .rpar]
  | p :: ps => [.lpar, .name p.1, .comma, .name p.2, .rpar, .comma] ++ pairTokens ps

/-- How a postfix is written. -/
def Post.tokens : Post → List Token
  | .call m => [.dot, .name m, .lpar, .rpar]
  | .sumAxis k => [.dot, .name "sum".toList, .lpar, .name "axis".toList, .eq, .num k, .rpar]
  | .subs i j => [.dot, .name "subs".toList, .lpar, .lbrace, .name i, .colon, .name j, .rbrace, .rpar]
  | .subsNum i k => [.dot, .name "subs".toList, .lpar, .lbrace, .name i, .colon, .num k, .rbrace, .rpar]
  | .subsList ps => [.dot, .name "subs".toList, .lpar, .lbrack] ++ pairTokens ps ++ [.rbrack, .rpar]
  | .newAxis0 => [.lbrack, .name "None".toList, .rbrack]
  | .newAxis1 => [.lbrack, .colon, .comma, .name "None".toList, .rbrack]
  | .item k => [.lbrack, .num k, .rbrack]

/-- A list of substitutions is written with at least one pair. -/
def Post.Written : Post → Prop
  | .subsList ps => ps ≠ []
  | _ => True

inductive Derives : Kind → List Token → PExpr → Prop where
  | add {ts us a b} : Derives .sum ts a → Derives .term us b → Derives .sum (ts ++ .plus :: us) (.add a b)
  | sub {ts us a b} : Derives .sum ts a → Derives .term us b → Derives .sum (ts ++ .minus :: us) (.sub a b)
  | sumTerm {ts a} : Derives .term ts a → Derives .sum ts a
  | mul {ts us a b} : Derives .term ts a → Derives .factor us b → Derives .term (ts ++ .star :: us) (.mul a b)
  | div {ts us a b} : Derives .term ts a → Derives .factor us b → Derives .term (ts ++ .slash :: us) (.div a b)
  | termFactor {ts a} : Derives .factor ts a → Derives .term ts a
  | neg {ts a} : Derives .factor ts a → Derives .factor (.minus :: ts) (.neg a)
  | pos {ts a} : Derives .factor ts a → Derives .factor (.plus :: ts) (.pos a)
  | factorPower {ts a} : Derives .power ts a → Derives .factor ts a
  | pow {ts us a b} : Derives .primary ts a → Derives .factor us b →
      Derives .power (ts ++ .pow :: us) (.pow a b)
  | powerPrimary {ts a} : Derives .primary ts a → Derives .power ts a
  | post {ts a q} : Derives .primary ts a → q.Written → Derives .primary (ts ++ q.tokens) (.post a q)
  | primaryAtom {ts a} : Derives .atom ts a → Derives .primary ts a
  | name {x} : Derives .atom [.name x] (.var x)
  | num {x} : Derives .atom [.num x] (.num x)
  | paren {ts a} : Derives .sum ts a → Derives .atom (.lpar :: ts ++ [.rpar]) a
  | sumOver {ts a d lo hi} : Derives .sum ts a →
      Derives .atom (.name "Sum".toList :: .lpar :: ts ++
        [.comma, .lpar, .name d, .comma, .num lo, .comma, .num hi, .rpar, .rpar]) (.sumOver a d lo hi)
  | prodOver {ts a d lo hi} : Derives .sum ts a →
      Derives .atom (.name "Product".toList :: .lpar :: ts ++
        [.comma, .lpar, .name d, .comma, .num lo, .comma, .num hi, .rpar, .rpar]) (.prodOver a d lo hi)

end Verif
