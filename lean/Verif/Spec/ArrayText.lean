import Mathlib.Data.Real.Basic
import Mathlib.Algebra.BigOperators.Group.Finset.Basic
import Verif.Spec.ExprValue

/-!
# Equations over arrays with several dimensions

The texts of a two-dimensional production process use more of Python than the elementwise ones:
`x[:, None]`, `x[None]`, `.sum(axis=k)`, `.ravel()` (pytensor) and `x.subs({i:j})`, `Sum(e, (d, lo, hi))`
(sympy).  This file has a reader for products and quotients of such terms and the two meanings: arrays with
numpy's broadcasting rules, and indexed symbols evaluated at a choice of the index values.
-/

namespace Verif

open scoped BigOperators

inductive AExpr where
  | var (s : Str)
  | mul (a b : AExpr)
  | div (a b : AExpr)
  | post (e : AExpr) (q : Post)
  | sumOver (e : AExpr) (d lo hi : Str)
  deriving DecidableEq, Repr

/-! ## Reader -/

inductive AGoal where
  | term
  | termRest (e : AExpr)
  | primary
  | primaryRest (e : AExpr)
  | atom

/-- Recursive descent: `*` and `/` associate to the left and bind weaker than what follows a primary. -/
def parseArr : Nat → AGoal → List Token → Option (AExpr × List Token)
  | 0, _, _ => none
  | n + 1, .term, ts =>
      match parseArr n .primary ts with
      | none => none
      | some (e, r) => parseArr n (.termRest e) r
  | n + 1, .termRest e, .star :: ts =>
      match parseArr n .primary ts with
      | none => none
      | some (e', r) => parseArr n (.termRest (.mul e e')) r
  | n + 1, .termRest e, .slash :: ts =>
      match parseArr n .primary ts with
      | none => none
      | some (e', r) => parseArr n (.termRest (.div e e')) r
  | _ + 1, .termRest e, ts => some (e, ts)
  | n + 1, .primary, ts =>
      match parseArr n .atom ts with
      | none => none
      | some (e, r) => parseArr n (.primaryRest e) r
  | n + 1, .primaryRest e, ts =>
      match postfixOf ts with
      | none => some (e, ts)
      | some (q, r) => parseArr n (.primaryRest (.post e q)) r
  | n + 1, .atom, .name x :: .lpar :: ts =>
      if x = "Sum".toList then
        match parseArr n .term ts with
        | none => none
        | some (e, r) =>
            match sumBounds r with
            | none => none
            | some (d, lo, hi, r') => some (.sumOver e d lo hi, r')
      else none
  | _ + 1, .atom, .name x :: ts => some (.var x, ts)
  | n + 1, .atom, .lpar :: ts =>
      match parseArr n .term ts with
      | none => none
      | some (e, r) =>
          match closeParen r with
          | none => none
          | some r' => some (e, r')
  | _ + 1, .atom, _ => none

/-- The whole token list as one expression. -/
def readArr (ts : List Token) : Option AExpr :=
  match parseArr (4 * ts.length + 4) .term ts with
  | some (e, []) => some e
  | _ => none

/-- An equation, split at the first `=`. -/
def readArrEq (s : Str) : Option (AExpr × AExpr) :=
  match tokens s with
  | none => none
  | some ts =>
      match readArr (ts.takeWhile (· != .eq)), readArr ((ts.dropWhile (· != .eq)).drop 1) with
      | some l, some r => some (l, r)
      | _, _ => none

/-! ## Arrays -/

/-- An array: its shape, and the entry at an index list. -/
structure Arr where
  shape : List Nat
  get : List Nat → ℝ

namespace Arr

/-- The common shape of two arrays, dimensions reversed (numpy aligns shapes at the right end; a dimension
of length one is repeated). -/
def broadcastRev : List Nat → List Nat → Option (List Nat)
  | [], s => some s
  | s, [] => some s
  | a :: s, b :: t =>
      if a = b ∨ b = 1 then (broadcastRev s t).map (a :: ·)
      else if a = 1 then (broadcastRev s t).map (b :: ·)
      else none

/-- The entry of an array at an index list of the broadcast shape. -/
def bget (a : Arr) (idx : List Nat) : ℝ :=
  a.get (List.zipWith (fun d k => if d = 1 then 0 else k) a.shape
    (idx.drop (idx.length - a.shape.length)))

/-- An elementwise operation with broadcasting. -/
def op (f : ℝ → ℝ → ℝ) (a b : Arr) : Option Arr :=
  (broadcastRev a.shape.reverse b.shape.reverse).map fun s =>
    ⟨s.reverse, fun idx => f (a.bget idx) (b.bget idx)⟩

/-- `a.sum(axis=k)` -/
def sumAxis (k : Nat) (a : Arr) : Option Arr :=
  match a.shape[k]? with
  | none => none
  | some n => some ⟨a.shape.eraseIdx k, fun idx => ∑ t ∈ Finset.range n, a.get (idx.insertIdx k t)⟩

/-- The index list of position `t` in row-major order. -/
def unravel : List Nat → Nat → List Nat
  | [], _ => []
  | _ :: s, t => (t / s.prod) :: unravel s (t % s.prod)

/-- `a.ravel()` -/
def ravel (a : Arr) : Arr := ⟨[a.shape.prod], fun idx => a.get (unravel a.shape (idx.headD 0))⟩

/-- `a[None]` -/
def newAxis0 (a : Arr) : Arr := ⟨1 :: a.shape, fun idx => a.get idx.tail⟩

/-- `a[:, None]` -/
def newAxis1 (a : Arr) : Option Arr :=
  match a.shape with
  | [] => none
  | d :: s => some ⟨d :: 1 :: s, fun idx => a.get (idx.headD 0 :: idx.drop 2)⟩

/-- `a[k]` -/
def item (k : Nat) (a : Arr) : Option Arr :=
  match a.shape with
  | [] => none
  | n :: s => if k < n then some ⟨s, fun idx => a.get (k :: idx)⟩ else none

end Arr

/-- The value of an expression over arrays; `none` where Python raises. -/
noncomputable def AExpr.arr (env : Str → Arr) : AExpr → Option Arr
  | .var x => some (env x)
  | .mul a b =>
      match a.arr env, b.arr env with
      | some u, some v => u.op (· * ·) v
      | _, _ => none
  | .div a b =>
      match a.arr env, b.arr env with
      | some u, some v => u.op (· / ·) v
      | _, _ => none
  | .post e q =>
      match e.arr env with
      | none => none
      | some u =>
          match q with
          | .call m => if m = "ravel".toList then some u.ravel else none
          | .sumAxis k => u.sumAxis (digitsVal k)
          | .newAxis0 => some u.newAxis0
          | .newAxis1 => u.newAxis1
          | .subs _ _ => none
          | .subsNum _ _ => none
          | .item _ => none
          | .subsList _ => none
  | .sumOver _ _ _ _ => none

/-- The equation holds: left side minus right side can be computed and is zero everywhere. -/
def ArrHolds (env : Str → Arr) (s : Str) : Prop :=
  ∃ l r a b d, readArrEq s = some (l, r) ∧ l.arr env = some a ∧ r.arr env = some b ∧
    a.op (· - ·) b = some d ∧ ∀ idx, List.Forall₂ (· < ·) idx d.shape → d.get idx = 0

/-! ## Indexed symbols -/

/-- The value of an expression over indexed symbols.  A name stands for the entry of its array at the
current values of the dimensions it was declared with.  `none` for operations sympy does not know. -/
noncomputable def AExpr.sym (dims : Str → List Str) (arr : Str → List Nat → ℝ) :
    AExpr → (Str → Nat) → Option ℝ
  | .var x, idx => some (arr x ((dims x).map idx))
  | .mul a b, idx =>
      match a.sym dims arr idx, b.sym dims arr idx with
      | some u, some v => some (u * v)
      | _, _ => none
  | .div a b, idx =>
      match a.sym dims arr idx, b.sym dims arr idx with
      | some u, some v => some (u / v)
      | _, _ => none
  | .post e q, idx =>
      match q with
      | .subs i j => e.sym dims arr (Function.update idx i (idx j))
      | _ => none
  | .sumOver e d lo hi, idx =>
      ((List.range (digitsVal hi + 1 - digitsVal lo)).mapM fun k =>
        e.sym dims arr (Function.update idx d (digitsVal lo + k))).map List.sum

/-- The equation holds for all values of two dimensions `i` (below `n`) and `j` (below `m`). -/
def SymHolds (dims : Str → List Str) (arr : Str → List Nat → ℝ) (i j : Str) (n m : Nat) (s : Str) : Prop :=
  ∃ l r, readArrEq s = some (l, r) ∧ ∀ idx : Str → Nat, idx i < n → idx j < m →
    ∃ v, l.sym dims arr idx = some v ∧ r.sym dims arr idx = some v

/-! ## The documented equations -/

/-- Zero profit: the value of each output is the value of all its inputs (first index: inputs, second
index: outputs). -/
def ZeroProfit2 (n m : Nat) (P X : Nat → Nat → ℝ) (Y PY : Nat → ℝ) : Prop :=
  ∀ t < m, Y t * PY t = ∑ s ∈ Finset.range n, P s t * X s t

/-- Leontief demands: the input of `s` into `t` is proportional to the output of `t`. -/
def LeontiefDemand2 (n m : Nat) (φ X : Nat → Nat → ℝ) (Y : Nat → ℝ) : Prop :=
  ∀ s < n, ∀ t < m, X s t = φ s t * Y t

end Verif
