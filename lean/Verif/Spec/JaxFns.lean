import Verif.Model.JaxFns
import Verif.Spec.Layout
import Mathlib.Analysis.Calculus.ContDiff.Basic

/-!
# Contract of JAX's differentiation
-/

namespace Verif

open Filter Topology

/-- The array with the entries of a matrix. -/
def arrayOf {m n : Nat} (A : Fin m → Fin n → ℝ) : NDArray ℝ :=
  ⟨[m, n], (List.ofFn fun i => List.ofFn (A i)).flatten⟩

/-- The partial derivative of a scalar function of a vector with respect to element `k`. -/
noncomputable def partialD {n : Nat} (g : (Fin n → ℝ) → ℝ) (k : Fin n) (v : Fin n → ℝ) : ℝ :=
  fderiv ℝ g v (Pi.single k 1)

/-- Half the sum of the squared residuals. -/
noncomputable def halfSq {n m : Nat} (G : (Fin n → ℝ) → Fin m → ℝ) (u : Fin n → ℝ) : ℝ :=
  1 / 2 * ∑ i, G u i ^ 2

/-- JAX differentiates: where the function it is given computes a differentiable function of its first
argument, the transformations return the derivatives of that function. -/
structure JaxExact (lib : JaxLib) : Prop where
  jacobian : ∀ {n m : Nat} (f : List ℝ → List ℝ → Res (List ℝ)) (theta : List ℝ)
    (G : (Fin n → ℝ) → Fin m → ℝ) (v : Fin n → ℝ),
    (∀ᶠ u in 𝓝 v, f (List.ofFn u) theta = .ok (List.ofFn (G u))) → DifferentiableAt ℝ G v →
    lib.jacobian f 0 (List.ofFn v) theta = .ok (arrayOf fun i k => partialD (fun u => G u i) k v)
  jacfwd : ∀ {n m : Nat} (f : List ℝ → List ℝ → Res (List ℝ)) (theta : List ℝ)
    (G : (Fin n → ℝ) → Fin m → ℝ) (v : Fin n → ℝ),
    (∀ᶠ u in 𝓝 v, f (List.ofFn u) theta = .ok (List.ofFn (G u))) → DifferentiableAt ℝ G v →
    lib.jacfwd f 0 (List.ofFn v) theta = .ok (arrayOf fun i k => partialD (fun u => G u i) k v)
  grad : ∀ {n : Nat} (f : List ℝ → List ℝ → Res ℝ) (theta : List ℝ) (g : (Fin n → ℝ) → ℝ)
    (v : Fin n → ℝ), (∀ᶠ u in 𝓝 v, f (List.ofFn u) theta = .ok (g u)) → DifferentiableAt ℝ g v →
    lib.grad f 0 (List.ofFn v) theta = .ok (List.ofFn fun k => partialD g k v)
  jvp : ∀ {n m : Nat} (f : List ℝ → Res (List ℝ)) (G : (Fin n → ℝ) → Fin m → ℝ) (v p : Fin n → ℝ),
    (∀ᶠ u in 𝓝 v, f (List.ofFn u) = .ok (List.ofFn (G u))) → DifferentiableAt ℝ G v →
    lib.jvp f (List.ofFn v) (List.ofFn p) = .ok (List.ofFn (G v), List.ofFn (fderiv ℝ G v p))

/-- With the parameters `theta`, the functions handed to scipy are the residuals `G`, half the sum of their
squares, the matrix of partial derivatives of the residuals (a row per residual, a column per element of the
flat vector), the gradient of half the sum of squares, its matrix of second derivatives, and that matrix times
a direction. -/
def HandsDerivatives (coords : Coords) (vars params : List ModelObject) (fns : OptimFns) (theta : List ℝ) {m : Nat}
    (G : (Fin (totalSize coords vars) → ℝ) → Fin m → ℝ) : Prop :=
  ∀ v : Fin (totalSize coords vars) → ℝ,
    wrapForScipy fns.system vars params coords (List.ofFn v) theta = .ok (List.ofFn (G v)) ∧
    wrapForScipy fns.resid vars params coords (List.ofFn v) theta = .ok (halfSq G v) ∧
    (DifferentiableAt ℝ G v →
      wrapForScipy fns.jac vars params coords (List.ofFn v) theta =
        .ok (arrayOf fun i k => partialD (fun u => G u i) k v) ∧
      wrapForScipy fns.grad vars params coords (List.ofFn v) theta =
        .ok (List.ofFn fun k => ∑ i, G v i * partialD (fun u => G u i) k v)) ∧
    (ContDiffAt ℝ 2 G v →
      wrapForScipy fns.hess vars params coords (List.ofFn v) theta =
        .ok (arrayOf fun k l => partialD (partialD (halfSq G) k) l v) ∧
      ∀ p : Fin (totalSize coords vars) → ℝ,
        wrapForScipyP fns.hessp vars params coords (List.ofFn v) (List.ofFn p) theta =
          .ok (List.ofFn fun k => ∑ l, partialD (partialD (halfSq G) k) l v * p l))

end Verif
