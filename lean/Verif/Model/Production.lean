import Verif.Py.Str
import Verif.Py.Dict

/-!
# Generators of production equations

`cge_modeling/production_functions.py`, function by function.  A generator returns a tuple of equation
strings; because `_add_second_alpha` appends to the list it is given, the model of a generator also
returns the caller's `factor_shares` argument as it is after the call.
-/

namespace Verif

/-- An argument that is a string or a list of strings. -/
inductive StrArg where
  | str (s : Str)
  | list (l : List Str)
  deriving DecidableEq, Repr

namespace StrArg

/-- `at_least_list` (tools/utils.py:55-72). -/
def atLeastList : StrArg → List Str
  | .str s => [s]
  | .list l => l

/-- What `for x in arg` runs over: the characters of a string, the entries of a list. -/
def iter : StrArg → List Str
  | .str s => s.map fun c => [c]
  | .list l => l

/-- `unwrap_singleton_list` (production_functions.py:22-26). -/
def unwrap : StrArg → StrArg
  | .list [s] => .str s
  | x => x

end StrArg

/-! ## `string.Template` -/

/-- ASCII letters and `_`: first characters of a `Template` placeholder. -/
def phStart (c : Char) : Bool := c.isAlpha || c == '_'

def phChar (c : Char) : Bool := phStart c || c.isDigit

/-- The text for a complete placeholder (or for a lone `$`). -/
def phText (d : Dict Str Str) (acc : Str) : Str :=
  match acc with
  | [] => ['$']
  | _ => (dget d acc).getD ('$' :: acc)

/-- `Template(t).safe_substitute(**d)`, one character at a time: `none` outside a placeholder, `some acc`
after `$acc`.  Simplified: `${name}` is not a placeholder (no template in the repository uses it). -/
def substStep (d : Dict Str Str) (p : Option Str) (c : Char) : Str × Option Str :=
  match p with
  | none => if c == '$' then ([], some []) else ([c], none)
  | some [] =>
      if phStart c then ([], some [c])
      else if c == '$' then (['$'], none)
      else (['$', c], none)
  | some acc =>
      if phChar c then ([], some (acc ++ [c]))
      else if c == '$' then (phText d acc, some [])
      else (phText d acc ++ [c], none)

def substRun (d : Dict Str Str) (p : Option Str) : Str → Str × Option Str
  | [] => ([], p)
  | c :: s =>
      let r := substStep d p c
      let r' := substRun d r.2 s
      (r.1 ++ r'.1, r'.2)

/-- `Template(t).safe_substitute(**d)`. -/
def safeSubst (t : Str) (d : Dict Str Str) : Str :=
  let r := substRun d none t
  r.1 ++ (match r.2 with | none => [] | some acc => phText d acc)

/-! ## Helpers -/

/-- `_check_pairwise_lengths_match` (production_functions.py:13-19) for the three arguments it is always
called with. -/
def checkLengths (a b c : StrArg) : Res Unit :=
  if a.atLeastList.length ≠ b.atLeastList.length then .error .valueError
  else if a.atLeastList.length ≠ c.atLeastList.length then .error .valueError
  else if b.atLeastList.length ≠ c.atLeastList.length then .error .valueError
  else .ok ()

/-- `_add_second_alpha` (production_functions.py:83-95): the shares to use, and the `alpha` object of the
caller afterwards (`alpha.append` changes it when it is a list of length one). -/
def addSecondAlpha (alpha factors : StrArg) : List Str × StrArg :=
  match factors with
  | .str _ => (alpha.atLeastList, alpha)
  | .list fs =>
      if fs.length ≠ 2 then (alpha.atLeastList, alpha)
      else match alpha with
        | .str a => ([a, "1 - ".toList ++ a], .str a)
        | .list [a] => ([a, "1 - ".toList ++ a], .list [a, "1 - ".toList ++ a])
        | .list l => (l, .list l)

/-- The outcome of a generator call. -/
structure GenOut where
  /-- the tuple of equations, or the exception -/
  eqs : Res (List Str)
  /-- the caller's `factor_shares` object after the call -/
  shares : StrArg
  deriving DecidableEq

/-- `zip` of three. -/
def zip3 {α β γ : Type} (a : List α) (b : List β) (c : List γ) : List (α × β × γ) :=
  a.zip (b.zip c)

/-- `" + ".join([f"{price} * {factor}" for price, factor in zip(prices, factors)])`. -/
def totalFactorValue (prices factors : List Str) : Str :=
  joinStr " + ".toList ((prices.zip factors).map fun x => x.1 ++ " * ".toList ++ x.2)

/-- The value definition shared by `cobb_douglass` (178-187) and `CES` (300-309). -/
def valueEquation (prices factors : List Str) (output outputPrice : Str) : Str :=
  safeSubst "$output * $output_price = $total_factor_value".toList
    [("output".toList, output), ("output_price".toList, outputPrice),
     ("total_factor_value".toList, totalFactorValue prices factors)]

/-! ## `cobb_douglass` -/

/-- production_functions.py:167-177 -/
def cobbProduction (factors shares : List Str) (output tfp : Str) : Str :=
  safeSubst ("$output = $TFP * ".toList ++ joinStr " * ".toList
      ((factors.zip shares).map fun x =>
        safeSubst "$factor ** ($factor_share)".toList
          [("factor".toList, x.1), ("factor_share".toList, x.2)]))
    [("output".toList, output), ("TFP".toList, tfp)]

/-- production_functions.py:189-203 -/
def cobbDemand (factor price share output outputPrice tfp : Str) : Str :=
  safeSubst "$factor = ($factor_share) * $output * ($output_price) / ($factor_price)".toList
    [("factor".toList, factor), ("factor_price".toList, price), ("output".toList, output),
     ("output_price".toList, outputPrice), ("factor_share".toList, share), ("TFP".toList, tfp)]

/-- `cobb_douglass` (production_functions.py:98-205). -/
def cobbDouglass (factors factorPrices : StrArg) (output outputPrice : Str) (factorShares : StrArg)
    (tfp : Str) (useValueDefinition : Bool) : GenOut :=
  -- 158-159: a string is wrapped in a new list, so the caller's object is not touched
  let r := addSecondAlpha (.list factorShares.atLeastList) factors
  let after : StrArg := match factorShares with
    | .str s => .str s
    | .list _ => r.2
  let shares := r.1
  { shares := after
    eqs := match checkLengths factors factorPrices (.list shares) with
      | .error e => .error e
      | .ok _ =>
          .ok ((if useValueDefinition then
                valueEquation factorPrices.iter factors.iter output outputPrice
              else cobbProduction factors.iter shares output tfp) ::
            (zip3 factors.iter factorPrices.iter shares).map fun x =>
              cobbDemand x.1 x.2.1 x.2.2 output outputPrice tfp) }

/-! ## `CES` -/

/-- production_functions.py:282-298 -/
def cesProduction (factors shares : List Str) (output tfp epsilon : Str) : Str :=
  safeSubst "$output = $TFP * ($inner) ** ($epsilon / ($epsilon - 1))".toList
    [("output".toList, output),
     ("inner".toList, joinStr " + ".toList ((factors.zip shares).map fun x =>
        safeSubst "($factor_shares) * $factor ** (($epsilon - 1) / $epsilon)".toList
          [("factor".toList, x.1), ("factor_shares".toList, x.2), ("epsilon".toList, epsilon)])),
     ("TFP".toList, tfp), ("epsilon".toList, epsilon)]

/-- production_functions.py:311-332 -/
def cesDemand (factor price share output outputPrice tfp epsilon : Str) : Str :=
  safeSubst ("$factor = $output / $TFP * (($factor_share) * $output_price * $TFP / ($factor_price)) ** "
      ++ "$epsilon" : String).toList
    [("factor".toList, factor), ("factor_price".toList, price), ("output".toList, output),
     ("output_price".toList, outputPrice), ("factor_share".toList, share), ("TFP".toList, tfp),
     ("epsilon".toList, epsilon)]

/-- The option `expand_price_dim` of `CES`. -/
inductive ExpandPrice where
  | no | input | output | both
  deriving DecidableEq, Repr

/-- `CES` (production_functions.py:208-334). -/
def ces (factors factorPrices : StrArg) (output outputPrice tfp : Str) (factorShares : StrArg)
    (epsilon : Str) (expand : ExpandPrice) (useValueDefinition : Bool) : GenOut :=
  let r := addSecondAlpha factorShares factors
  let shares := r.1
  let op := if expand = .output ∨ expand = .both then outputPrice ++ "[:, None]".toList else outputPrice
  let fp := if expand = .input ∨ expand = .both then
      factorPrices.iter.map (· ++ "[:, None]".toList) else factorPrices.iter
  { shares := r.2
    eqs := match checkLengths factors factorPrices (.list shares) with
      | .error e => .error e
      | .ok _ =>
          .ok ((if useValueDefinition then
                valueEquation factorPrices.iter factors.iter output outputPrice
              else cesProduction factors.iter shares output tfp epsilon) ::
            (zip3 factors.iter fp shares).map fun x =>
              cesDemand x.1 x.2.1 x.2.2 output op tfp epsilon) }

/-! ## `dixit_stiglitz` -/

inductive Backend where
  | numba | pytensor
  deriving DecidableEq, Repr

/-- `isinstance(var, list) and len(var) != 1` (production_functions.py:412-420). -/
def StrArg.badSingle : StrArg → Bool
  | .str _ => false
  | .list l => l.length != 1

/-- The string of an argument that has been through `unwrap_singleton_list`; `[]` cannot occur, the
lists of other lengths having been rejected. -/
def StrArg.single : StrArg → Str
  | .str s => s
  | .list (s :: _) => s
  | .list [] => []

/-- `str(n)` for a natural number. -/
def decStr (n : Nat) : Str := (toString n).toList

/-- production_functions.py:426-434 -/
def dsKernel (factor epsilon : Str) (share : Option Str) : Str :=
  safeSubst ((if share.isSome then "$factor_share * ".toList else []) ++
      "$factor ** (($epsilon - 1) / $epsilon)".toList)
    [("factor_share".toList, share.getD "None".toList), ("factor".toList, factor),
     ("epsilon".toList, epsilon)]

/-- production_functions.py:436-453 -/
def dsProduction (kernel output epsilon dims : Str) (dimLen : Str) (tfp : Option Str) (backend : Backend) :
    Str :=
  safeSubst ("$output = ".toList ++ (if tfp.isSome then "$TFP * ".toList else []) ++
      (match backend with
       | .numba => "Sum($kernel, ($dims, 0, $dim_len)) ** ($epsilon / ($epsilon - 1))".toList
       | .pytensor => "($kernel).sum() ** ($epsilon / ($epsilon - 1))".toList))
    [("output".toList, output), ("TFP".toList, tfp.getD "None".toList), ("kernel".toList, kernel),
     ("epsilon".toList, epsilon), ("dims".toList, dims), ("dim_len".toList, dimLen)]

/-- production_functions.py:455-462 -/
def dsValue (factor price output outputPrice : Str) : Str :=
  safeSubst "$output = ($factor_prices * $factors).sum() / ($output_price)".toList
    [("output".toList, output), ("output_price".toList, outputPrice), ("factor_prices".toList, price),
     ("factors".toList, factor)]

/-- production_functions.py:464-474 -/
def dsDemand (factor price output outputPrice epsilon : Str) (tfp share : Option Str) : Str :=
  safeSubst ("$factor = $output / ".toList ++ (if tfp.isSome then "$TFP * ".toList else []) ++
      "(".toList ++ (if tfp.isSome then "$TFP * ".toList else []) ++
      (if share.isSome then "$factor_share * ".toList else []) ++
      "$output_price / $factor_price) ** $epsilon".toList)
    [("factor".toList, factor), ("output".toList, output), ("TFP".toList, tfp.getD "None".toList),
     ("factor_share".toList, share.getD "None".toList), ("output_price".toList, outputPrice),
     ("factor_price".toList, price), ("epsilon".toList, epsilon)]

/-- `dixit_stiglitz` (production_functions.py:337-476), for a single dimension name `dims`.
Simplified: `backend` is one of the two documented values; a dimension without labels (where `dim_len` is
printed as `-1`) is excluded by the theorems. -/
def dixitStiglitz (factors factorPrices : StrArg) (output outputPrice epsilon dims : Str)
    (coords : Dict Str (List Str)) (backend : Backend) (tfp : Option Str) (factorShares : Option StrArg)
    (useValueDefinition : Bool) : Res (List Str) :=
  if factors.badSingle then .error .valueError
  else if factorPrices.badSingle then .error .valueError
  else if (factorShares.map StrArg.badSingle).getD false then .error .valueError
  else
    let f := factors.single
    let p := factorPrices.single
    let sh := factorShares.map StrArg.single
    match dget coords dims with
    | none => .error .keyError
    | some labels =>
        .ok [if useValueDefinition then dsValue f p output outputPrice
             else dsProduction (dsKernel f epsilon sh) output epsilon dims (decStr (labels.length - 1)) tfp
               backend,
             dsDemand f p output outputPrice epsilon tfp sh]

/-! ## `leontief` -/

/-- `_1d_leontief` (production_functions.py:479-499). -/
def leontief1d (factors : List Str) (factorPrices : StrArg) (output outputPrice : Str)
    (factorShares : StrArg) : List Str :=
  (output ++ " = (".toList ++
      joinStr " + ".toList ((factors.zip factorPrices.iter).map fun x => x.2 ++ " * ".toList ++ x.1) ++
      ") / (".toList ++ outputPrice ++ ")".toList) ::
    (factors.zip factorShares.iter).map fun x => x.1 ++ " = ".toList ++ output ++ " * ".toList ++ x.2

/-- `x.subs({i:j})` as text (production_functions.py:556-558). -/
def swapaxesStr (x i j : Str) : Str :=
  safeSubst "$x.subs({$i:$j})".toList [("x".toList, x), ("i".toList, i), ("j".toList, j)]

/-- `_2d_leontief` (production_functions.py:502-594); the three list arguments have been unwrapped.
The numba branch pops the summed dimension and takes the first of those left as the core dimension. -/
def leontief2d (factors factorPrices : Str) (output outputPrice : Str) (factorShares : Str)
    (dims : List Str) (coords : Dict Str (List Str)) (sumDim : Option Str)
    (expandPriceDim transposeOutput : Bool) (backend : Backend) : Res (List Str) :=
  match (match sumDim with | some d => some d | none => dims.getLast?) with
  | none => .error .indexError
  | some sd =>
      if sd ∈ dims then
        let axis := dims.idxOf sd
        match backend with
        | .numba =>
            match (dims.eraseIdx axis)[0]? with
            | none => .error .indexError
            | some core =>
                match dget coords core with
                | none => .error .keyError
                | some _ =>
                    match dget coords sd with
                    | none => .error .keyError
                    | some batchLabels =>
                        let po := if transposeOutput then swapaxesStr output sd core else output
                        let pp := if transposeOutput then swapaxesStr outputPrice sd core else outputPrice
                        .ok [po ++ " = Sum(".toList ++ factorPrices ++ " * ".toList ++ factors ++
                              ", (".toList ++ sd ++ ", 0, ".toList ++ decStr (batchLabels.length - 1) ++
                              ")) / ".toList ++ pp,
                             factors ++ " = ".toList ++ factorShares ++ " * ".toList ++ output]
        | .pytensor =>
            .ok [output ++ " = (".toList ++ factorPrices ++
                  (if expandPriceDim then "[:, None]".toList else []) ++ " * ".toList ++ factors ++
                  ").sum(axis=".toList ++ decStr axis ++ ").ravel() / (".toList ++ outputPrice ++
                  ")".toList,
                 factors ++ " = ".toList ++ factorShares ++ " * ".toList ++ output ++ "[None]".toList]
      else .error .valueError

/-- `leontief` (production_functions.py:597-710); `dims` is a string or a list of strings. -/
def leontief (factors factorPrices : StrArg) (output outputPrice : Str) (factorShares : StrArg)
    (dims : StrArg) (coords : Dict Str (List Str)) (sumDim : Option Str)
    (expandPriceDim transposeOutput : Bool) (backend : Backend) : Res (List Str) :=
  match checkLengths factors factorPrices factorShares with
  | .error e => .error e
  | .ok _ =>
      let fs := factors.atLeastList
      if (match dims with | .str _ => true | .list l => l.length == 1) then
        if fs.length = 1 then .error .valueError
        else .ok (leontief1d fs factorPrices output outputPrice factorShares)
      else
        if fs.length ≠ 1 then .error .valueError
        else leontief2d (StrArg.list fs).single factorPrices.single output outputPrice factorShares.single
          dims.atLeastList coords sumDim expandPriceDim transposeOutput backend

/-- tests/test_production_functions.py, two factors and one share. -/
example : (cobbDouglass (.list ["L".toList, "K".toList]) (.list ["w".toList, "r".toList]) "Y".toList
    "P".toList (.str "alpha".toList) "A".toList false).eqs =
    .ok ["Y = A * L ** (alpha) * K ** (1 - alpha)".toList,
      "L = (alpha) * Y * (P) / (w)".toList, "K = (1 - alpha) * Y * (P) / (r)".toList] := by decide

end Verif
