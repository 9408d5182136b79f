import Verif.Linop.Props2
import Verif.Solver.Exact
import Mathlib.Analysis.InnerProductSpace.PiL2
import Mathlib.Analysis.Matrix.PosDef

/-!
# Operators of the operator layer, as the solvers use them

The solvers compute `op * v` and `op.T * u` for arrays of floats.  Here such a product is the product of the operator model
(`Verif.Linop.run`) on the array with the entries of `v`; the result is read back as a vector.
-/

namespace Verif.Link
open Verif.Linop Verif.Solver

/-- vectors with `n` real entries -/
abbrev RVec (n : ℕ) := EuclideanSpace ℝ (Fin n)

/-- the float array with the entries of a vector -/
noncomputable def toArr {n : ℕ} (v : RVec n) : Arr ℂ := ⟨.real, List.ofFn fun i => (v i : ℂ)⟩

/-- the vector with the entries of an array (real parts) -/
noncomputable def ofArr (m : ℕ) (y : Arr ℂ) : RVec m := WithLp.toLp 2 fun i => (y.data.getD i 0).re

/-- `op * v` as it occurs in the solvers (for example `cg.py:97`, `lsqr.py:213, 244`); a product that raises is counted as not
finite.  `fuel` is Python's recursion limit; the counters do not influence the result, they are in `countsAfter`. -/
noncomputable def apply (h : Heap ℂ) (fuel r n m : ℕ) : Vec (RVec n) → Vec (RVec m)
  | .fin v =>
    match (run h fuel r (toArr v) []).1 with
    | .ok y => .fin (ofArr m y)
    | .error _ => .nan
  | .nan => .nan

/-- the array of a vector handed to the operator (entries that are not numbers are replaced by zeros: the counters do not
depend on the entries) -/
noncomputable def handed {n : ℕ} : Vec (RVec n) → Arr ℂ
  | .fin v => toArr v
  | .nan => toArr (0 : RVec n)

/-- the counters of all operators after the products of operator `r` with the given vectors -/
noncomputable def countsAfter (h : Heap ℂ) (fuel r : ℕ) {n : ℕ} (products : List (Vec (RVec n))) (c : Cnt) : Cnt :=
  products.foldl (fun c v => (run h fuel r (handed v) c).2) c

/-- `A` is the `m x n` real matrix `M` -/
structure IsReal (A : Mat ℂ) {m n : ℕ} (M : Matrix (Fin m) (Fin n) ℝ) : Prop where
  rows : A.rows = m
  cols : A.cols = n
  kind : A.kind ≠ .complex
  entry : ∀ (i : Fin m) (j : Fin n), A.e i j = (M i j : ℂ)

/-- the linear map `x ↦ M x` -/
noncomputable def lin {m n : ℕ} (M : Matrix (Fin m) (Fin n) ℝ) : RVec n →ₗ[ℝ] RVec m := Matrix.toEuclideanLin M

theorem lin_apply {m n : ℕ} (M : Matrix (Fin m) (Fin n) ℝ) (x : RVec n) : lin M x = WithLp.toLp 2 (M.mulVec x.ofLp) := rfl

theorem lin_adj {m n : ℕ} (M : Matrix (Fin m) (Fin n) ℝ) (x : RVec n) (y : RVec m) :
    inner ℝ (lin M x) y = inner ℝ x (lin M.transpose y) := by
  simp only [lin_apply, PiLp.inner_apply, RCLike.inner_apply, conj_trivial, Matrix.mulVec, dotProduct, Matrix.transpose_apply,
    Finset.mul_sum, Finset.sum_mul]
  rw [Finset.sum_comm]
  refine Finset.sum_congr rfl fun j _ => Finset.sum_congr rfl fun i _ => ?_
  ring

theorem toArr_typed {n : ℕ} (v : RVec n) : (toArr v).Typed := by
  intro a ha
  simp only [toArr, List.mem_ofFn] at ha
  obtain ⟨i, rfl⟩ := ha
  exact ⟨v i, rfl⟩

theorem IsReal.T {A : Mat ℂ} {m n : ℕ} {M : Matrix (Fin m) (Fin n) ℝ} (h : IsReal A M) : IsReal A.T M.transpose :=
  ⟨h.cols, h.rows, h.kind, fun i j => h.entry j i⟩

/-- the product of the operator model is the matrix-vector product -/
theorem apply_eq {h : Heap ℂ} {fuel r m n : ℕ} {A : Mat ℂ} {M : Matrix (Fin m) (Fin n) ℝ} (hM : IsReal A M)
    (hT : Total h r A) (hf : h.length ≤ fuel) : apply h fuel r n m = Vec.op (lin M) := by
  funext v
  cases v with
  | nan => rfl
  | fin v =>
    obtain ⟨rows, cols, kind, e⟩ := A
    obtain ⟨h1, h2, h3, h4⟩ := hM
    simp only at h1 h2 h3 h4
    subst h1 h2
    obtain ⟨c', hc⟩ := hT fuel (toArr v) [] hf (toArr_typed v) (by simp [toArr])
    simp only [apply, hc, Vec.op]
    congr 1
    rw [lin_apply, ofArr]
    congr 1
    funext i
    simp only [Mat.app, List.getD_eq_getElem?_getD, List.getElem?_map, List.getElem?_range i.2, Option.map_some, Option.getD_some,
      Matrix.mulVec, dotProduct]
    rw [Finset.sum_range]
    rw [Complex.re_sum]
    refine Finset.sum_congr rfl fun j _ => ?_
    rw [h4]
    simp [toArr]

end Verif.Link
