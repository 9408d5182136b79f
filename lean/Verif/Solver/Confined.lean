import Mathlib.Analysis.InnerProductSpace.Spectrum
import Mathlib.LinearAlgebra.FiniteDimensional.Lemmas
import Mathlib.LinearAlgebra.Dimension.Constructions

/-!
# Vectors confined to a small invariant subspace

Specification for C71: no code is modelled here.
-/

namespace Verif.Solver
open scoped RealInnerProductSpace

variable {E : Type} [NormedAddCommGroup E] [InnerProductSpace ℝ E]

/-- `c` lies in a subspace of dimension at most `d` that `B` maps to itself -/
def Confined (B : E →ₗ[ℝ] E) (c : E) (d : ℕ) : Prop :=
  ∃ W : Submodule ℝ E, Module.finrank ℝ W ≤ d ∧ c ∈ W ∧ ∀ w ∈ W, B w ∈ W

/-- `c` is a sum of `d` vectors, each of them an eigenvector of `B` or zero -/
def SumOfEigenvectors (B : E →ₗ[ℝ] E) (c : E) (d : ℕ) : Prop :=
  ∃ (v : Fin d → E) (l : Fin d → ℝ), (∀ i, B (v i) = l i • v i) ∧ c = ∑ i, v i

variable {B : E →ₗ[ℝ] E} {c : E}

theorem confined_of_finrank {d : ℕ} (h : Module.finrank ℝ E ≤ d) : Confined B c d :=
  ⟨⊤, by rwa [finrank_top], trivial, fun _ _ => trivial⟩

theorem Confined.mono {d e : ℕ} (h : Confined B c d) (hde : d ≤ e) : Confined B c e := by
  obtain ⟨W, h1, h2⟩ := h; exact ⟨W, h1.trans hde, h2⟩

theorem Confined.neg {d : ℕ} (h : Confined B c d) : Confined B (-c) d := by
  obtain ⟨W, h1, h2, h3⟩ := h; exact ⟨W, h1, W.neg_mem h2, h3⟩

/-- a shift does not matter -/
theorem Confined.shift {d : ℕ} (h : Confined B c d) (σ : ℝ) : Confined (B - σ • LinearMap.id) c d := by
  obtain ⟨W, h1, h2, h3⟩ := h
  exact ⟨W, h1, h2, fun w hw => W.sub_mem (h3 w hw) (W.smul_mem σ hw)⟩

theorem Confined.pos [FiniteDimensional ℝ E] {d : ℕ} (h : Confined B c d) (hc : c ≠ 0) : 0 < d := by
  obtain ⟨W, h1, h2, -⟩ := h
  have : Nontrivial W := ⟨⟨c, h2⟩, 0, fun e => hc (congrArg Subtype.val e)⟩
  exact lt_of_lt_of_le Module.finrank_pos h1

/-- a linear bijection carries confined vectors to confined vectors -/
theorem Confined.map {E' : Type} [NormedAddCommGroup E'] [InnerProductSpace ℝ E'] {d : ℕ} (h : Confined B c d) (e : E ≃ₗ[ℝ] E')
    {B' : E' →ₗ[ℝ] E'} (hB : ∀ z, B' (e z) = e (B z)) : Confined B' (e c) d := by
  obtain ⟨W, h1, h2, h3⟩ := h
  refine ⟨W.map (e : E →ₗ[ℝ] E'), ?_, ⟨c, h2, rfl⟩, ?_⟩
  · rwa [LinearEquiv.finrank_map_eq]
  · rintro _ ⟨w, hw, rfl⟩
    exact ⟨B w, h3 w hw, (hB w).symm⟩

/-- an independent family in a subspace of dimension at most `d` has at most `d` members -/
theorem card_le_of_mem [FiniteDimensional ℝ E] {W : Submodule ℝ E} {d k : ℕ} (hW : Module.finrank ℝ W ≤ d) {f : Fin k → E}
    (hf : LinearIndependent ℝ f) (hm : ∀ i, f i ∈ W) : k ≤ d := by
  have : LinearIndependent ℝ (fun i => (⟨f i, hm i⟩ : W)) :=
    LinearIndependent.of_comp W.subtype (by simpa [Function.comp_def] using hf)
  simpa using this.fintype_card_le_finrank.trans hW

theorem SumOfEigenvectors.confined {d : ℕ} (h : SumOfEigenvectors B c d) : Confined B c d := by
  obtain ⟨v, l, hv, rfl⟩ := h
  refine ⟨Submodule.span ℝ (Set.range v), (finrank_range_le_card v).trans_eq (Fintype.card_fin d),
    Submodule.sum_mem _ fun i _ => Submodule.subset_span ⟨i, rfl⟩, fun w hw => ?_⟩
  induction hw using Submodule.span_induction with
  | mem x hx =>
    obtain ⟨i, rfl⟩ := hx
    rw [hv]; exact Submodule.smul_mem _ _ (Submodule.subset_span ⟨i, rfl⟩)
  | zero => rw [map_zero]; exact Submodule.zero_mem _
  | add x y _ _ hx hy => rw [map_add]; exact Submodule.add_mem _ hx hy
  | smul a x _ hx => rw [map_smul]; exact Submodule.smul_mem _ _ hx

/-- If a symmetric map has at most `d` distinct eigenvalues, every vector is a sum of `d` eigenvectors. -/
theorem sumOfEigenvectors_of_card [FiniteDimensional ℝ E] (hB : ∀ u v : E, ⟪B u, v⟫ = ⟪u, B v⟫) (L : Finset ℝ)
    (hL : ∀ (l : ℝ) (v : E), B v = l • v → v ≠ 0 → l ∈ L) (c : E) : SumOfEigenvectors B c L.card := by
  have hs : B.IsSymmetric := hB
  have htop : (⨆ μ : ℝ, Module.End.eigenspace B μ) = ⊤ := by
    have := hs.orthogonalComplement_iSup_eigenspaces_eq_bot
    rwa [Submodule.orthogonal_eq_bot_iff] at this
  have htop2 : (⨆ i : Fin L.card, Module.End.eigenspace B ((L.equivFin.symm i : L) : ℝ)) = ⊤ := by
    rw [eq_top_iff, ← htop]
    refine iSup_le fun μ v hv => ?_
    by_cases h0 : v = 0
    · rw [h0]; exact Submodule.zero_mem _
    · have hm := hL μ v (Module.End.mem_eigenspace_iff.1 hv) h0
      refine Submodule.mem_iSup_of_mem (L.equivFin ⟨μ, hm⟩) ?_
      simpa using hv
  have hc : c ∈ ⨆ i : Fin L.card, Module.End.eigenspace B ((L.equivFin.symm i : L) : ℝ) := by rw [htop2]; trivial
  obtain ⟨f, hf⟩ := (Submodule.mem_iSup_iff_exists_finsupp _ _).1 hc
  refine ⟨f, fun i => ((L.equivFin.symm i : L) : ℝ), fun i => Module.End.mem_eigenspace_iff.1 (hf.1 i), ?_⟩
  rw [← hf.2, Finsupp.sum_fintype _ _ (by simp)]

end Verif.Solver
