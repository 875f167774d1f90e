import Verif.Model.SimulateSolve
import Verif.Spec.Scenario
import Verif.Spec.Layout

/-!
# Specification vocabulary for complete simulations
-/

namespace Verif

variable {α : Type _}

/-- The numbers of object `o` at step `k` of a labelled result, in row-major order. -/
def blockAt (k : Nat) (ds : XDataset α) (o : ModelObject) : List α :=
  match dget ds o.name with
  | none => []
  | some v => (v.2.data.drop (k * v.2.shape.tail.prod)).take v.2.shape.tail.prod

/-- The numbers of all objects at step `k` of a result, variables first. -/
def reportedAt (k : Nat) (r : XDataset α × XDataset α) (vars params : List ModelObject) : List α :=
  vars.flatMap (blockAt k r.1) ++ params.flatMap (blockAt k r.2)

/-- What the caller of `simulate` asked for under a name. -/
def wantedValue (add mul : NDArray α → NDArray α → NDArray α) (h : Heap (NDArray α)) (c : SimCall α)
    (n : Str) : Option (NDArray α) :=
  wantedScenario add mul (seen h c.initial) (seen h (c.finalValues.getD []))
    (seen h (c.finalDelta.getD [])) (seen h (c.finalPct.getD [])) n

/-- A simulation request in order: the initial state has exactly the names of the model and arrays of the
right shapes; at least one name is to be changed, none twice and only names of the model; no two initial
values are one array object; the new values have the right sizes. -/
structure RequestOK (coords : Coords) (vars params : List ModelObject)
    (add mul : NDArray α → NDArray α → NDArray α) (h : Heap (NDArray α)) (c : SimCall α) : Prop where
  nodup : (dkeys c.initial).Nodup
  exact : ∀ n, n ∈ dkeys c.initial ↔ n ∈ (vars ++ params).map ModelObject.name
  distinct : (dkeys (c.finalValues.getD []) ++ dkeys (c.finalDelta.getD []) ++
    dkeys (c.finalPct.getD [])).Nodup
  some_change : dkeys (c.finalValues.getD []) ++ dkeys (c.finalDelta.getD []) ++
    dkeys (c.finalPct.getD []) ≠ []
  known : ∀ k ∈ dkeys (c.finalDelta.getD []) ++ dkeys (c.finalPct.getD []), k ∈ dkeys c.initial
  valid : ValidRefs h c.initial ∧ ValidRefs h (c.finalValues.getD []) ∧
    ValidRefs h (c.finalDelta.getD []) ∧ ValidRefs h (c.finalPct.getD [])
  unshared : (refsOf c.initial).Nodup
  shaped : ∀ o ∈ vars ++ params, ∃ a, seen h c.initial o.name = some a ∧ a.shape = specShape coords o ∧
    a.WF
  sized : ∀ p ∈ params, ∃ a, wantedValue add mul h c p.name = some a ∧
    a.data.length = specSize coords p

/-- Called with exactly the model's names and correctly shaped data, `f_euler` returns one array for each
variable and each parameter, with the steps as first axis, unless it raises. -/
def EulerArrays (env : SamEnv α (List (NDArray α))) : Prop :=
  ∀ x0 theta n arrays, (dkeys x0).Perm ((env.variables ++ env.parameters).map ModelObject.name) →
    (∀ o ∈ env.variables ++ env.parameters, DataFor env.coords x0 o) →
    theta.length = totalSize env.coords env.parameters →
    env.euler x0 theta n = .ok arrays → ∃ m : Nat,
      arrays.length = env.variables.length + env.parameters.length ∧
      ∀ (k : Nat) o a, (env.variables ++ env.parameters)[k]? = some o → arrays[k]? = some a →
        a.shape = m :: specShape env.coords o ∧ a.WF

/-- The root finder returns a vector as long as its start; when it reports success, the function it was
given passes the test `accept` at that vector. -/
def RootAccepts (env : SamEnv α (List (NDArray α))) (accept : List α → Prop) : Prop :=
  ∀ f x0 theta useJac r, env.root f x0 theta useJac = .ok r → r.x.length = x0.length ∧
    (r.success = true → ∃ v, f r.x theta = .ok v ∧ accept v)

/-- The same for the minimiser and its objective. -/
def MinimizeAccepts (env : SamEnv α (List (NDArray α))) (accept : α → Prop) : Prop :=
  ∀ f x0 theta flags r, env.minimize f x0 theta flags = .ok r → r.x.length = x0.length ∧
    (r.success = true → ∃ v, f r.x theta = .ok v ∧ accept v)

end Verif
