import Verif.Linop.Spec
import Mathlib.NumberTheory.Zsqrtd.GaussianInt
import Mathlib.Analysis.Complex.Basic

/-!
# Number systems the operator theorems apply to

`ℂ` (the intended one) and the Gaussian integers (computable, used in the examples).
-/

namespace Verif.Linop

/-- `ℤ[i]`: int and real are the elements with zero imaginary part. -/
instance : DTypes GaussianInt where
  sub
    | .complex => ⊤
    | _ => (Int.castRingHom GaussianInt).range
  cast
    | .complex, z => z
    | _, z => ⟨z.re, 0⟩
  cast_of_mem := by
    intro k a ha
    cases k with
    | complex => rfl
    | int => obtain ⟨n, rfl⟩ := ha; ext <;> simp
    | real => obtain ⟨n, rfl⟩ := ha; ext <;> simp
  int_le_real := le_rfl
  complex_all := fun _ => trivial
  real_star := by
    intro a ha
    obtain ⟨n, rfl⟩ := ha
    simp

/-- `ℂ`: int = integers, real = real numbers. -/
noncomputable instance : DTypes ℂ where
  sub
    | .complex => ⊤
    | .real => Complex.ofRealHom.range
    | .int => (Int.castRingHom ℂ).range
  cast
    | .complex, z => z
    | .real, z => (z.re : ℂ)
    | .int, z => ((if 0 ≤ z.re then ⌊z.re⌋ else ⌈z.re⌉ : ℤ) : ℂ)
  cast_of_mem := by
    intro k a ha
    cases k with
    | complex => rfl
    | real => obtain ⟨x, rfl⟩ := ha; simp
    | int => obtain ⟨n, rfl⟩ := ha; simp
  int_le_real := by
    rintro _ ⟨n, rfl⟩
    exact ⟨(n : ℝ), by simp⟩
  complex_all := fun _ => trivial
  real_star := by
    intro a ha
    obtain ⟨x, rfl⟩ := ha
    simp

end Verif.Linop
