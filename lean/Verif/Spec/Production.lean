import Verif.Spec.ExprValue

/-!
# The documented production equations

Docstrings of `cobb_douglass`, `CES`, `dixit_stiglitz` and `leontief`
(production_functions.py:110-126, 220-238, 350-366, 611-631), as relations between real numbers.
-/

namespace Verif

/-- The value of a factor, its price and its share. -/
structure FactorVal where
  X : ℝ
  p : ℝ
  a : ℝ

/-- `Y = A ∏ X_i ^ α_i` -/
def CobbDouglasProduction (Y A : ℝ) (fs : List FactorVal) : Prop :=
  Y = A * (fs.map fun f => f.X ^ f.a).prod

/-- `X_i = α_i Y P / P_i` -/
def CobbDouglasDemand (Y P : ℝ) (f : FactorVal) : Prop := f.X = f.a * Y * P / f.p

/-- `Y = A (∑ α_i X_i ^ ((ε-1)/ε)) ^ (ε/(ε-1))` -/
def CESProduction (Y A ε : ℝ) (fs : List FactorVal) : Prop :=
  Y = A * (fs.map fun f => f.a * f.X ^ ((ε - 1) / ε)).sum ^ (ε / (ε - 1))

/-- `X_i = Y/A (α_i P A / P_i) ^ ε` -/
def CESDemand (Y A P ε : ℝ) (f : FactorVal) : Prop :=
  f.X = Y / A * (f.a * P * A / f.p) ^ ε

/-- `Y P = ∑ P_i X_i` -/
def ValueDefinition (Y P : ℝ) (fs : List FactorVal) : Prop :=
  Y * P = (fs.map fun f => f.p * f.X).sum

/-- `X_i = α_i Y` -/
def LeontiefDemand (Y : ℝ) (f : FactorVal) : Prop := f.X = f.a * Y

/-! ## Arguments -/

/-- The strings passed for one factor and the expressions they are read as. -/
structure FactorArg where
  name : Str
  price : Str
  share : Str
  X : PExpr
  p : PExpr
  a : PExpr

/-- The factor is a name (or parenthesised), its price is a product or quotient (such as `P * (1 + tau)`),
the share is any expression (such as `1 - alpha`). -/
def FactorArg.Ok (f : FactorArg) : Prop :=
  Phrase .atom f.name f.X ∧ Phrase .term f.price f.p ∧ Phrase .sum f.share f.a

noncomputable def FactorArg.val {ι : Type} [Fintype ι] (f : FactorArg) (env : Str → ι → ℝ) (i : ι) :
    FactorVal :=
  ⟨f.X.value env i, f.p.value env i, f.a.value env i⟩

/-- The text is read as an equation that holds at a point exactly when `Q` does. -/
def Says (s : Str) (Q : ∀ (ι : Type) [Fintype ι], (Str → ι → ℝ) → ι → Prop) : Prop :=
  ∃ l r, ReadsEq s l r ∧ ∀ (ι : Type) [Fintype ι] (env : Str → ι → ℝ) (i : ι),
    l.value env i = r.value env i ↔ Q ι env i

/-- The text is an equation that holds at a point. -/
def HoldsAt {ι : Type} [Fintype ι] (s : Str) (env : Str → ι → ℝ) (i : ι) : Prop :=
  ∃ l r, ReadsEq s l r ∧ l.value env i = r.value env i

/-- All equations of a list hold at a point. -/
def HoldsAll {ι : Type} [Fintype ι] (l : List Str) (env : Str → ι → ℝ) (i : ι) : Prop :=
  ∀ s ∈ l, HoldsAt s env i

/-- An optional argument and the expression it is read as. -/
def OptArg : Option Str → Option PExpr → Prop
  | none, none => True
  | some s, some e => Phrase .atom s e
  | _, _ => False

/-- The value of an optional parameter, one if omitted. -/
noncomputable def optVal {ι : Type} [Fintype ι] (a : Option PExpr) (env : Str → ι → ℝ) (i : ι) : ℝ :=
  match a with
  | none => 1
  | some e => e.value env i

end Verif
