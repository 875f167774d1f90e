import Mathlib.Analysis.SpecialFunctions.Pow.Real
import Verif.Spec.Grammar

/-!
# The value of an expression

Names stand for arrays over one dimension `ι` (scalars are constant arrays, or `ι` has one element);
operators act elementwise, `.sum()`, `.sum(axis=k)` and `Sum(e, (d, lo, hi))` add up over the dimension,
`.prod()` and `Product(e, (d, lo, hi))` multiply.  Powers are real powers.  Other methods have no meaning here
(value 0).
-/

namespace Verif

open scoped BigOperators

def digitsVal (s : Str) : Nat := s.foldl (fun a c => 10 * a + (c.toNat - '0'.toNat)) 0

/-- The value of a numeral `123` or `12.5`. -/
noncomputable def numVal (s : Str) : ℝ :=
  let ip := s.takeWhile (· != '.')
  let fp := (s.dropWhile (· != '.')).drop 1
  (digitsVal (ip ++ fp) : ℝ) / 10 ^ fp.length

namespace PExpr

noncomputable def value {ι : Type} [Fintype ι] (env : Str → ι → ℝ) : PExpr → ι → ℝ
  | .var s, i => env s i
  | .num s, _ => numVal s
  | .neg e, i => - value env e i
  | .pos e, i => value env e i
  | .add a b, i => value env a i + value env b i
  | .sub a b, i => value env a i - value env b i
  | .mul a b, i => value env a i * value env b i
  | .div a b, i => value env a i / value env b i
  | .pow a b, i => value env a i ^ value env b i
  | .post e q, i => match q with
    | .call m => if m = "sum".toList then ∑ j, value env e j
        else if m = "prod".toList then ∏ j, value env e j else 0
    | .sumAxis _ => ∑ j, value env e j
    | .newAxis0 => value env e i
    | .newAxis1 => value env e i
    | .subs _ _ => 0
    | .subsNum _ _ => 0
    | .item _ => 0
    | .subsList _ => 0
  | .sumOver e _ _ _, _ => ∑ j, value env e j
  | .prodOver e _ _ _, _ => ∏ j, value env e j

end PExpr

/-- Text that is read as a phrase of kind `k` with meaning `e`. -/
def Phrase (k : Kind) (s : Str) (e : PExpr) : Prop := ∃ ts, tokens s = some ts ∧ Derives k ts e

/-- Every equals sign of the text stands directly after the letters `axis`, as in `x.sum(axis=0)`. -/
def OnlyAxisEquals (s : Str) : Prop := ∀ a b, s = a ++ '=' :: b → "axis".toList <:+ a

end Verif
