import Verif.Model.PytensorFns
import Verif.Spec.JaxFns

/-!
# Contract of pytensor's differentiation
-/

namespace Verif

open Filter Topology

/-- Arrays of the given shapes holding the consecutive elements of a vector. -/
def tensorsOf : List (List Nat) → List ℝ → List (NDArray ℝ)
  | [], _ => []
  | s :: ss, x => ⟨s, x.take s.prod⟩ :: tensorsOf ss (x.drop s.prod)

/-- For each array, the array of the entries of all rows that belong to its elements. -/
def columnBlocks {m n : Nat} (A : Fin m → Fin n → ℝ) : List (List Nat) → Nat → List (NDArray ℝ)
  | [], _ => []
  | s :: ss, at_ => ⟨m :: s, (List.ofFn fun i => ((List.ofFn (A i)).drop at_).take s.prod).flatten⟩ ::
      columnBlocks A ss (at_ + s.prod)

/-- pytensor differentiates: where the function of the tensors computes a differentiable function of their
elements, the arrays hold the partial derivatives with respect to the elements. -/
structure PtExact (lib : PtLib) : Prop where
  jacobian : ∀ {n m : Nat} (shapes : List (List Nat)) (_ : (shapes.map List.prod).sum = n)
    (f : List (NDArray ℝ) → Res (List ℝ)) (G : (Fin n → ℝ) → Fin m → ℝ) (v : Fin n → ℝ),
    (∀ᶠ u in 𝓝 v, f (tensorsOf shapes (List.ofFn u)) = .ok (List.ofFn (G u))) → DifferentiableAt ℝ G v →
    lib.jacobian f (tensorsOf shapes (List.ofFn v)) =
      .ok (columnBlocks (fun i k => partialD (fun u => G u i) k v) shapes 0)
  grad : ∀ {n : Nat} (shapes : List (List Nat)) (_ : (shapes.map List.prod).sum = n)
    (f : List (NDArray ℝ) → Res ℝ) (g : (Fin n → ℝ) → ℝ) (v : Fin n → ℝ),
    (∀ᶠ u in 𝓝 v, f (tensorsOf shapes (List.ofFn u)) = .ok (g u)) → DifferentiableAt ℝ g v →
    lib.grad f (tensorsOf shapes (List.ofFn v)) = .ok (tensorsOf shapes (List.ofFn fun k => partialD g k v))

end Verif
