import Verif.Linop.WrapProps
import Verif.Linop.Examples
import Mathlib.LinearAlgebra.Matrix.Notation

/-!
# Concrete cases meeting the hypotheses of the theorems in `WrapProps.lean`
-/

namespace Verif.Linop.Examples
open Verif.Linop

/-- `[[1, 2, 0], [0, 0, 3]]` -/
def sparseM : Mat G := ⟨2, 3, .real, fun i j => if i = 0 ∧ j = 0 then 1 else if i = 0 ∧ j = 1 then 2 else
  if i = 1 ∧ j = 2 then 3 else 0⟩

/-- a PySparse matrix that has methods only and raises for complex arrays -/
def sparseA : SparseObj G where
  rows := 2
  cols := 3
  issym := none
  isSymmetric := some false
  mul := none
  rmul := none
  matvec := fun x => if x.kind = .complex then .error .typeError else .ok (sparseM.app x.data)
  matvecTransp := fun x => if x.kind = .complex then .error .typeError else .ok (sparseM.T.app x.data)

theorem sparse_holds : sparseA.Holds sparseM := by
  refine ⟨rfl, rfl, rfl, ?_, ⟨false, rfl, by simp⟩, by simp [sparseA], by simp [sparseA], ?_, ?_⟩
  · intro i _ j _
    change (if _ then (1 : G) else _) ∈ (Int.castRingHom GaussianInt).range
    split
    · exact ⟨1, by simp⟩
    split
    · exact ⟨2, by simp⟩
    split
    · exact ⟨3, by simp⟩
    · exact ⟨0, by simp⟩
  · intro x _ _
    by_cases hk : x.kind = .complex <;> simp [sparseA, hk]
  · intro x _ _
    by_cases hk : x.kind = .complex <;> simp [sparseA, hk]

/-- the hypotheses of `C61_pysparse` are met -/
example := C61_pysparse (⟨[], trivial, rfl, rfl⟩ : Reach [] ([] : Heap G) []) sparse_holds

/-- the hypotheses of `C61_no_flag` are met -/
example := C61_no_flag { sparseA with issym := none, isSymmetric := none } rfl rfl []

/-- a matrix that also defines `A*x` and `y*A` -/
def sparseB : SparseObj G := { sparseA with
  issym := some false
  mul := some fun x => .ok ⟨DKind.real.join x.kind, sparseM.app x.data⟩
  rmul := some fun x => .ok ⟨DKind.real.join x.kind, sparseM.T.app x.data⟩ }

theorem sparse_holds' : sparseB.Holds sparseM := by
  refine ⟨rfl, rfl, rfl, sparse_holds.typed, ⟨false, rfl, by simp⟩, ?_, ?_, sparse_holds.matvec, sparse_holds.matvecTransp⟩
  · intro f hf; cases hf
    exact ⟨fun x _ _ y hy => by cases hy; rfl, fun x _ _ _ => ⟨_, rfl⟩⟩
  · intro f hf; cases hf
    exact ⟨fun x _ _ y hy => by cases hy; rfl, fun x _ _ _ => ⟨_, rfl⟩⟩

example := C61_pysparse (⟨[], trivial, rfl, rfl⟩ : Reach [] ([] : Heap G) []) sparse_holds'

/-- `[[2, 1], [1, 1]]` and its inverse -/
def cholM : Matrix (Fin 2) (Fin 2) G := !![2, 1; 1, 1]
def cholN : Matrix (Fin 2) (Fin 2) G := !![1, -1; -1, 2]
/-- `[[1, 1j], [-1j, 2]]`, hermitian and positive definite, and its inverse -/
def chermM : Matrix (Fin 2) (Fin 2) G := !![1, ⟨0, 1⟩; ⟨0, -1⟩, 2]
def chermN : Matrix (Fin 2) (Fin 2) G := !![2, ⟨0, -1⟩; ⟨0, 1⟩, 1]

/-- solving with the help of the inverse -/
def solveWith (N : Matrix (Fin 2) (Fin 2) G) : Fn G := fun x => .ok ⟨.complex, List.ofFn (N.mulVec fun j => x.data.getD j 0)⟩

theorem solveWith_solves {M N : Matrix (Fin 2) (Fin 2) G} (h : M * N = 1) (ks : DKind → Prop) : Solves M ks (solveWith N) := by
  intro x _ _
  refine ⟨?_, fun _ => ⟨_, rfl⟩⟩
  intro y hy
  cases hy
  refine ⟨by simp, ?_⟩
  have : (fun i : Fin 2 => (List.ofFn (N.mulVec fun j => x.data.getD j 0)).getD i 0) = N.mulVec fun j => x.data.getD j 0 := by
    funext i; fin_cases i <;> rfl
  rw [this, Matrix.mulVec_mulVec, h, Matrix.one_mulVec]

theorem chol_inv : cholM * cholN = 1 := by decide
theorem cherm_inv : chermM * chermN = 1 := by decide

theorem cholN_typed : (Mat.of .real cholN).Typed := by
  intro i (hi : i < 2) j (hj : j < 2)
  change (if h : _ then cholN _ _ else 0) ∈ (Int.castRingHom GaussianInt).range
  rw [dif_pos ⟨hi, hj⟩]
  interval_cases i <;> interval_cases j
  · exact ⟨1, rfl⟩
  · exact ⟨-1, rfl⟩
  · exact ⟨-1, rfl⟩
  · exact ⟨2, rfl⟩

/-- the hypotheses of `C62_cholesky_partial` are met -/
example := C62_cholesky_partial (⟨[], trivial, rfl, rfl⟩ : Reach [] ([] : Heap G) []) chol_inv (by decide) cholN_typed (solveWith_solves chol_inv _)

/-- the hypotheses of `C62_complex_transpose` are met by a hermitian positive definite matrix -/
example := C62_complex_transpose [] cherm_inv (by decide) (solveWith_solves cherm_inv _) false

/-- **C62, negative.** For a hermitian positive definite matrix and the default `dtype`, the vector that the operator returns
for `[1, 0]` does not solve the system. -/
theorem C62_complex_float_wrong :
    ∃ r h', CholeskyOperator 2 2 (.ok (solveWith chermN)) false .real ([] : Heap G) = .ok (r, h') ∧
      ∃ y c', run h' 5 r ⟨.real, [1, 0]⟩ [0] = (.ok y, c') ∧
        chermM.mulVec (fun i => y.data.getD i 0) ≠ fun i : Fin 2 => [1, 0].getD i 0 := by
  obtain ⟨r, h', hop, hrun⟩ := C62_complex_float [] cherm_inv (solveWith_solves cherm_inv _) false
  obtain ⟨c', hc⟩ := hrun 4 [1, 0] [0] (by
    intro a ha
    rcases List.mem_cons.1 ha with rfl | ha
    · exact ⟨1, by simp⟩
    · rcases List.mem_cons.1 ha with rfl | ha
      · exact ⟨0, by simp⟩
      · cases ha) rfl
  exact ⟨r, h', hop, _, c', hc, by decide⟩

end Verif.Linop.Examples
