import Verif.Solver.Exact
import Mathlib.Analysis.InnerProductSpace.Basic

/-!
# Preconditioners as changes of inner product

A symmetric positive definite `M` gives the inner product `⟪u, v⟫_M = ⟪u, M v⟫`.  A preconditioned method on `E` is the method
without preconditioner on `E` with this inner product (`Warp M h`): its residuals are the same vectors, its iterates and search
directions are `M` times those of the other method.
-/

namespace Verif.Solver
open Scalar Vect
open scoped RealInnerProductSpace

/-- Two ways (`P` for iterates and directions, `D` for residuals) of reading vectors of one kind as vectors of another which
respect all operations; the inner product pairs the one with the other. -/
structure DualMap (S V' V : Type) [Scalar S] [Vect S V'] [Vect S V] where
  P : V' → V
  D : V' → V
  P_add : ∀ u v, P (u + v) = P u + P v
  P_sub : ∀ u v, P (u - v) = P u - P v
  P_zeros : P zeros = zeros
  P_smul : ∀ a u, P (smul a u) = smul a (P u)
  P_vdiv : ∀ a u, P (vdiv u a) = vdiv (P u) a
  D_add : ∀ u v, D (u + v) = D u + D v
  D_sub : ∀ u v, D (u - v) = D u - D v
  D_zeros : D zeros = zeros
  D_smul : ∀ a u, D (smul a u) = smul a (D u)
  D_vdiv : ∀ a u, D (vdiv u a) = vdiv (D u) a
  dot_PD : ∀ u v, dot (P u) (D v) = dot u v
  dot_DP : ∀ u v, dot (D u) (P v) = dot u v

variable {E : Type} [NormedAddCommGroup E] [InnerProductSpace ℝ E]

/-- symmetric and positive definite -/
structure Spd (M : E →ₗ[ℝ] E) : Prop where
  symm : ∀ u v, ⟪M u, v⟫ = ⟪u, M v⟫
  pos : ∀ u, u ≠ 0 → 0 < (⟪u, M u⟫ : ℝ)

/-- the identity is one -/
theorem Spd.id : Spd (LinearMap.id : E →ₗ[ℝ] E) :=
  ⟨fun _ _ => rfl, fun u hu => by
    rw [LinearMap.id_apply, real_inner_self_eq_norm_mul_norm]; exact mul_self_pos.2 (norm_ne_zero_iff.2 hu)⟩

theorem Spd.nonneg {M : E →ₗ[ℝ] E} (h : Spd M) (u : E) : 0 ≤ (⟪u, M u⟫ : ℝ) := by
  by_cases hu : u = 0
  · rw [hu, inner_zero_left]
  · exact (h.pos u hu).le

/-- `E` with the inner product `⟪u, M v⟫` -/
def Warp (M : E →ₗ[ℝ] E) (_ : Spd M) : Type := E

namespace Warp
variable {M : E →ₗ[ℝ] E} {h : Spd M}

instance : AddCommGroup (Warp M h) := inferInstanceAs (AddCommGroup E)
instance : Module ℝ (Warp M h) := inferInstanceAs (Module ℝ E)

/-- a vector of `E` as a vector of the other space, and back -/
def mk (M : E →ₗ[ℝ] E) (h : Spd M) : E ≃ₗ[ℝ] Warp M h := LinearEquiv.refl ℝ E

/-- the inner product -/
noncomputable def core (M : E →ₗ[ℝ] E) (h : Spd M) : InnerProductSpace.Core ℝ (Warp M h) where
  inner u v := ⟪(mk M h).symm u, M ((mk M h).symm v)⟫
  conj_inner_symm u v := by
    simp only [conj_trivial]
    rw [real_inner_comm, h.symm]
  re_inner_nonneg u := h.nonneg _
  add_left u v w := by rw [map_add, inner_add_left]
  smul_left u v a := by rw [map_smul, inner_smul_left]
  definite u hu := by
    by_contra hne
    exact (h.pos _ ((LinearEquiv.map_ne_zero_iff _).2 hne)).ne' hu

noncomputable instance : NormedAddCommGroup (Warp M h) := (core M h).toNormedAddCommGroup
noncomputable instance : InnerProductSpace ℝ (Warp M h) := InnerProductSpace.ofCore (core M h).toCore

theorem inner_eq (u v : Warp M h) : (⟪u, v⟫ : ℝ) = ⟪(mk M h).symm u, M ((mk M h).symm v)⟫ := rfl

theorem inner_mk (u v : E) : (⟪mk M h u, mk M h v⟫ : ℝ) = ⟪u, M v⟫ := rfl

theorem norm_mk (u : E) : ‖mk M h u‖ = Real.sqrt ⟪u, M u⟫ := by
  rw [← inner_mk (h := h), real_inner_self_eq_norm_sq, Real.sqrt_sq (norm_nonneg _)]

/-- the change of inner product as a map of exact vectors -/
noncomputable def dual (M : E →ₗ[ℝ] E) (h : Spd M) : DualMap Fl (Vec (Warp M h)) (Vec E) where
  P := Vec.op fun u => M ((mk M h).symm u)
  D := Vec.op (mk M h).symm
  P_add u v := by cases u <;> cases v <;> simp
  P_sub u v := by cases u <;> cases v <;> simp
  P_zeros := by simp
  P_smul a u := by cases a <;> cases u <;> simp
  P_vdiv a u := by
    cases a with
    | nan => simp
    | fin a =>
      cases u with
      | nan => simp
      | fin u =>
        by_cases ha : a = 0
        · subst ha; simp [Vec.vdiv_zero]
        · simp [Vec.fin_vdiv _ ha]
  D_add u v := by cases u <;> cases v <;> simp
  D_sub u v := by cases u <;> cases v <;> simp
  D_zeros := by simp
  D_smul a u := by cases a <;> cases u <;> simp
  D_vdiv a u := by
    cases a with
    | nan => simp
    | fin a =>
      cases u with
      | nan => simp
      | fin u =>
        by_cases ha : a = 0
        · subst ha; simp [Vec.vdiv_zero]
        · simp [Vec.fin_vdiv _ ha]
  dot_PD u v := by
    cases u <;> cases v <;> simp [inner_eq, h.symm]
  dot_DP u v := by
    cases u <;> cases v <;> simp [inner_eq]

end Warp
end Verif.Solver
