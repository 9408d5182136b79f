import Verif.Solver.Warp
import Verif.Solver.LSQR
import Verif.Solver.MinresPreconProps

/-!
# Preconditioned least-squares methods as methods without preconditioners in other inner products

The left preconditioner `M` gives the inner product of the space of the right-hand side, the right preconditioner `N` that of the
space of the unknowns.
-/

namespace Verif.Solver
open Scalar Vect
open scoped RealInnerProductSpace
open MinresMath (krylov)

/-! ### Exceptions -/

theorem except_map_ok {ε α β : Type} (f : α → β) (a : α) : (Except.ok a : Except ε α).map f = .ok (f a) := rfl
theorem except_map_error {ε α β : Type} (f : α → β) (e : ε) : (Except.error e : Except ε α).map f = .error e := rfl
theorem except_error_bind {ε α β : Type} (e : ε) (f : α → Except ε β) : ((Except.error e : Except ε α) >>= f) = .error e := rfl
theorem except_pure {ε α : Type} (a : α) : (pure a : Except ε α) = .ok a := rfl
theorem except_map_map {ε α β γ : Type} (f : α → β) (g : β → γ) (x : Except ε α) : (x.map f).map g = x.map (g ∘ f) := by
  cases x <;> rfl

/-- two loops whose states correspond -/
theorem exceptLoop_map {σ τ ε : Type} {cont : σ → Bool} {cont' : τ → Bool} {step : σ → Except ε σ} {step' : τ → Except ε τ}
    {μ : σ → Nat} {μ' : τ → Nat} {h : ∀ s t, cont s = true → step s = .ok t → cont t = true → μ t < μ s}
    {h' : ∀ s t, cont' s = true → step' s = .ok t → cont' t = true → μ' t < μ' s} (f : τ → σ)
    (hc : ∀ s, cont (f s) = cont' s) (hs : ∀ s, step (f s) = (step' s).map f) (s : τ) :
    exceptLoop cont step μ h (f s) = (exceptLoop cont' step' μ' h' s).map f := by
  induction hm : (if cont' s then μ' s + 1 else 0) using Nat.strongRecOn generalizing s with
  | ind m ih =>
    rcases Bool.eq_false_or_eq_true (cont' s) with hcs | hcs
    · have hcs' := (hc s).trans hcs
      cases hst : step' s with
      | error e =>
        have hst' := hs s
        rw [hst] at hst'
        rw [exceptLoop_of_error hcs hst, exceptLoop_of_error hcs' hst']; rfl
      | ok t =>
        have hst' := hs s
        rw [hst] at hst'
        rw [exceptLoop_of_cont hcs hst, exceptLoop_of_cont hcs' hst']
        refine ih _ ?_ t rfl
        rw [← hm, if_pos hcs]
        split
        · rename_i h2
          have := h' s t hcs hst h2
          omega
        · omega
    · rw [exceptLoop_of_not hcs, exceptLoop_of_not ((hc s).trans hcs)]; rfl

/-! ### The correspondence of operators -/

/-- The operator `A`, its transpose `AT` and the preconditioners `M`, `N` correspond to `A'`, `AT'` without preconditioners. -/
structure PreconSim {S U' V' U V : Type} [Scalar S] [Vect S U'] [Vect S V'] [Vect S U] [Vect S V] (dU : DualMap S U' U)
    (dV : DualMap S V' V) (A : V → U) (AT : U → V) (M : Option (U → U)) (N : Option (V → V)) (A' : V' → U') (AT' : U' → V') :
    Prop where
  hA : ∀ v, A (dV.P v) = dU.D (A' v)
  hAT : ∀ u, AT (dU.P u) = dV.D (AT' u)
  hM : ∀ u, applyPrecon M (dU.D u) = dU.P u
  hN : ∀ v, applyPrecon N (dV.D v) = dV.P v

variable {E F : Type} [NormedAddCommGroup E] [InnerProductSpace ℝ E] [NormedAddCommGroup F] [InnerProductSpace ℝ F]

/-- `A N`, from the one space with a new inner product to the other -/
noncomputable def warpMap (A : E →ₗ[ℝ] F) (N : E →ₗ[ℝ] E) (hN : Spd N) (M : F →ₗ[ℝ] F) (hM : Spd M) : Warp N hN →ₗ[ℝ] Warp M hM :=
  (Warp.mk M hM).toLinearMap ∘ₗ A ∘ₗ N ∘ₗ (Warp.mk N hN).symm.toLinearMap

theorem warpMap_mk (A : E →ₗ[ℝ] F) (N : E →ₗ[ℝ] E) (hN : Spd N) (M : F →ₗ[ℝ] F) (hM : Spd M) (u : E) :
    warpMap A N hN M hM (Warp.mk N hN u) = Warp.mk M hM (A (N u)) := rfl

/-- transposes stay transposes -/
theorem warpMap_adj {A : E →ₗ[ℝ] F} {B : F →ₗ[ℝ] E} (hadj : ∀ x y, ⟪A x, y⟫ = ⟪x, B y⟫) (N : E →ₗ[ℝ] E) (hN : Spd N)
    (M : F →ₗ[ℝ] F) (hM : Spd M) (x : Warp N hN) (y : Warp M hM) :
    ⟪warpMap A N hN M hM x, y⟫ = ⟪x, warpMap B M hM N hN y⟫ := by
  obtain ⟨x, rfl⟩ := (Warp.mk N hN).surjective x
  obtain ⟨y, rfl⟩ := (Warp.mk M hM).surjective y
  rw [warpMap_mk, warpMap_mk, Warp.inner_mk, Warp.inner_mk, hadj, hN.symm]

/-- The preconditioner argument `pre` stands for the symmetric positive definite map `M`: it is an operator that applies `M`, or it
is `None` and `M` is the identity. -/
inductive PreconIs (M : E →ₗ[ℝ] E) : Option (Vec E → Vec E) → Prop where
  | some : PreconIs M (some (Vec.op M))
  | none : M = LinearMap.id → PreconIs M none

theorem PreconIs.apply {M : E →ₗ[ℝ] E} {pre : Option (Vec E → Vec E)} (h : PreconIs M pre) (u : Vec E) :
    applyPrecon pre u = Vec.op M u := by
  cases h with
  | some => rfl
  | none h => subst h; cases u <;> rfl

theorem warp_sim (A : E →ₗ[ℝ] F) (B : F →ₗ[ℝ] E) (N : E →ₗ[ℝ] E) (hN : Spd N) (M : F →ₗ[ℝ] F) (hM : Spd M)
    {preM : Option (Vec F → Vec F)} {preN : Option (Vec E → Vec E)} (hpM : PreconIs M preM) (hpN : PreconIs N preN) :
    PreconSim (Warp.dual M hM) (Warp.dual N hN) (Vec.op A) (Vec.op B) preM preN
      (Vec.op (warpMap A N hN M hM)) (Vec.op (warpMap B M hM N hN)) where
  hA v := by cases v <;> rfl
  hAT v := by cases v <;> rfl
  hM v := by rw [hpM.apply]; cases v <;> rfl
  hN v := by rw [hpN.apply]; cases v <;> rfl

/-- Krylov spaces in the other inner product space -/
theorem krylov_mk {M : E →ₗ[ℝ] E} {h : Spd M} {C : Warp M h →ₗ[ℝ] Warp M h} {B : E →ₗ[ℝ] E}
    (hC : ∀ u, C (Warp.mk M h u) = Warp.mk M h (B u)) (b u : E) (k : ℕ) :
    Warp.mk M h u ∈ krylov C (Warp.mk M h b) k ↔ u ∈ krylov B b k := by
  have hpow : ∀ j, (C ^ j) (Warp.mk M h b) = Warp.mk M h ((B ^ j) b) := by
    intro j
    induction j with
    | zero => rfl
    | succ j ih => rw [pow_succ', pow_succ', Module.End.mul_apply, Module.End.mul_apply, ih, hC]
  have : krylov C (Warp.mk M h b) k = (krylov B b k).map (Warp.mk M h).toLinearMap := by
    unfold krylov
    rw [Submodule.map_span]
    congr 1
    ext z
    constructor
    · rintro ⟨j, hj, rfl⟩
      exact ⟨_, ⟨j, hj, rfl⟩, (hpow j).symm⟩
    · rintro ⟨_, ⟨j, hj, rfl⟩, rfl⟩
      exact ⟨j, hj, (hpow j).symm⟩
  rw [this]
  exact (Submodule.mem_map_equiv _).trans (by rw [LinearEquiv.symm_apply_apply])

end Verif.Solver
