import Verif.Linop.Core
import Mathlib.Data.Matrix.Mul
import Mathlib.LinearAlgebra.Matrix.ConjTranspose
import Mathlib.Algebra.BigOperators.Fin

/-!
# Specification side for linear operators: plain matrices

Nothing here mentions heaps, closures or pointers.  A `Mat` is a shape, a dtype class and entries; it is
connected to Mathlib's matrices by `Mat.toMatrix`.
-/

set_option linter.unusedSectionVars false

namespace Verif.Linop
open Finset

/-- A matrix with a dtype class.  Only the entries `e i j` with `i < rows`, `j < cols` matter. -/
structure Mat (K : Type) where
  rows : Nat
  cols : Nat
  kind : DKind
  e : Nat → Nat → K

namespace Mat
variable {K : Type}

/-- Same shape, dtype class and entries. -/
structure Eqv (A B : Mat K) : Prop where
  rows : A.rows = B.rows
  cols : A.cols = B.cols
  kind : A.kind = B.kind
  entry : ∀ i < A.rows, ∀ j < A.cols, A.e i j = B.e i j

theorem Eqv.refl (A : Mat K) : A.Eqv A := ⟨rfl, rfl, rfl, fun _ _ _ _ => rfl⟩
theorem Eqv.symm {A B : Mat K} (h : A.Eqv B) : B.Eqv A :=
  ⟨h.rows.symm, h.cols.symm, h.kind.symm, fun i hi j hj =>
    (h.entry i (h.rows ▸ hi) j (h.cols ▸ hj)).symm⟩
theorem Eqv.trans {A B C : Mat K} (h : A.Eqv B) (g : B.Eqv C) : A.Eqv C :=
  ⟨h.rows.trans g.rows, h.cols.trans g.cols, h.kind.trans g.kind, fun i hi j hj =>
    (h.entry i hi j hj).trans (g.entry i (h.rows ▸ hi) j (h.cols ▸ hj))⟩

/-- The Mathlib matrix. -/
def toMatrix (A : Mat K) : Matrix (Fin A.rows) (Fin A.cols) K := fun i j => A.e i j

/-- transpose -/
def T (A : Mat K) : Mat K := ⟨A.cols, A.rows, A.kind, fun i j => A.e j i⟩

variable [CommRing K] [StarRing K]

/-- adjoint -/
def H (A : Mat K) : Mat K := ⟨A.cols, A.rows, A.kind, fun i j => star (A.e j i)⟩
/-- complex conjugate -/
def conj (A : Mat K) : Mat K := ⟨A.rows, A.cols, A.kind, fun i j => star (A.e i j)⟩
/-- sum -/
def add (A B : Mat K) : Mat K := ⟨A.rows, A.cols, A.kind.join B.kind, fun i j => A.e i j + B.e i j⟩
/-- difference -/
def sub (A B : Mat K) : Mat K := ⟨A.rows, A.cols, A.kind.join B.kind, fun i j => A.e i j - B.e i j⟩
/-- product -/
def mul (A B : Mat K) : Mat K :=
  ⟨A.rows, B.cols, A.kind.join B.kind, fun i j => ∑ k ∈ range A.cols, A.e i k * B.e k j⟩
/-- scalar multiple -/
def smul (a : K) (ka : DKind) (A : Mat K) : Mat K :=
  ⟨A.rows, A.cols, A.kind.join ka, fun i j => a * A.e i j⟩
/-- identity -/
def ident (n : Nat) (k : DKind) : Mat K := ⟨n, n, k, fun i j => if i = j then 1 else 0⟩
/-- zero -/
def zero (m n : Nat) (k : DKind) : Mat K := ⟨m, n, k, fun _ _ => 0⟩
/-- diagonal -/
def diag (d : Arr K) : Mat K :=
  ⟨d.data.length, d.data.length, d.kind, fun i j => if i = j then d.data.getD i 0 else 0⟩
/-- a 2-d array as a matrix -/
def ofNd (A : NdArray2 K) : Mat K := ⟨A.rows, A.cols, A.kind, A.get⟩
/-- submatrix with the listed rows and columns -/
def submat (A : Mat K) (rs cs : List Nat) : Mat K :=
  ⟨rs.length, cs.length, A.kind, fun i j => A.e (rs.getD i 0) (cs.getD j 0)⟩
/-- power (exponent 0 gives a float identity, whatever the dtype of `A`) -/
def pow (A : Mat K) : Nat → Mat K
  | 0 => ident A.cols .real
  | 1 => A
  | k + 2 => A.mul (pow A (k + 1))

/-- matrix-vector product on lists -/
def app (A : Mat K) (x : List K) : List K :=
  (List.range A.rows).map fun i => ∑ j ∈ range A.cols, A.e i j * x.getD j 0

/-- Entries representable in the matrix's dtype class. -/
def Typed [DTypes K] (A : Mat K) : Prop := ∀ i < A.rows, ∀ j < A.cols, A.e i j ∈ DTypes.sub A.kind

/-! Bridges to Mathlib. -/

theorem app_eq_mulVec (A : Mat K) (x : List K) :
    A.app x = List.ofFn (A.toMatrix.mulVec fun j => x.getD j 0) := by
  apply List.ext_getElem (by simp [app])
  intro i h1 h2
  simp [app, Matrix.mulVec, dotProduct, toMatrix, Finset.sum_range]

theorem toMatrix_T (A : Mat K) : A.T.toMatrix = A.toMatrix.transpose := rfl
theorem toMatrix_H (A : Mat K) : A.H.toMatrix = A.toMatrix.conjTranspose := rfl
theorem toMatrix_add (A : Mat K) (e : Nat → Nat → K) (k : DKind) :
    (A.add ⟨A.rows, A.cols, k, e⟩).toMatrix = A.toMatrix + (⟨A.rows, A.cols, k, e⟩ : Mat K).toMatrix := rfl
theorem toMatrix_sub (A : Mat K) (e : Nat → Nat → K) (k : DKind) :
    (A.sub ⟨A.rows, A.cols, k, e⟩).toMatrix = A.toMatrix - (⟨A.rows, A.cols, k, e⟩ : Mat K).toMatrix := rfl
theorem toMatrix_mul (A : Mat K) (n : Nat) (e : Nat → Nat → K) (k : DKind) :
    (A.mul ⟨A.cols, n, k, e⟩).toMatrix = A.toMatrix * (⟨A.cols, n, k, e⟩ : Mat K).toMatrix := by
  refine funext fun (i : Fin A.rows) => funext fun (j : Fin n) => ?_
  change ∑ l ∈ range A.cols, A.e i l * e l j = _
  rw [Finset.sum_range]
  rfl
theorem toMatrix_smul (a : K) (ka : DKind) (A : Mat K) : (A.smul a ka).toMatrix = a • A.toMatrix := rfl
theorem toMatrix_ident (n : Nat) (k : DKind) :
    (ident n k : Mat K).toMatrix = (1 : Matrix (Fin n) (Fin n) K) := by
  refine funext fun (i : Fin n) => funext fun (j : Fin n) => ?_
  rw [Matrix.one_apply]
  change (if (i : ℕ) = (j : ℕ) then (1 : K) else 0) = _
  simp only [Fin.ext_iff]

end Mat

/-- An array whose entries are representable in its dtype class. -/
def Arr.Typed {K : Type} [CommRing K] [StarRing K] [DTypes K] (x : Arr K) : Prop :=
  ∀ a ∈ x.data, a ∈ DTypes.sub x.kind

end Verif.Linop
