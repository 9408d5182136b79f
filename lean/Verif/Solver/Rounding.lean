import Verif.Solver.CGLemmas
import Mathlib.Analysis.InnerProductSpace.Basic

/-!
# Rounding errors: what is assumed of the arithmetic

The solver models work over any `Scalar` and `Vect`.  `Rounding` is the standard model of floating-point arithmetic for them: some numbers and
vectors are finite and stand for real ones; an operation whose result is finite had finite arguments, and its result is the exact one
up to a relative error `u` and an absolute error `tiny` (underflow).  `Verif.Solver.FloatFormat` gives the arithmetics of IEEE 754 as instances.
-/

namespace Verif.Solver
open Scalar Vect

/-- **Specification.**  The standard model of floating-point arithmetic, for the operations on vectors. -/
structure Rounding (S V E : Type) [Scalar S] [Vect S V] [NormedAddCommGroup E] [InnerProductSpace ℝ E] where
  /-- the real number a finite number stands for -/
  num : S → ℝ
  /-- the vector a finite array stands for -/
  vec : V → E
  finS : S → Prop
  finV : V → Prop
  /-- relative error of an operation -/
  u : ℝ
  /-- absolute error of an operation on vectors -/
  tiny : ℝ
  /-- relative and absolute error of norms -/
  uNorm : ℝ
  tinyNorm : ℝ
  u_nonneg : 0 ≤ u
  u_le : u ≤ 1 / 4
  tiny_nonneg : 0 ≤ tiny
  zeros_fin : finV zeros
  zeros_eq : vec zeros = 0
  neg_fin : ∀ v, finV (-v) → finV v
  neg_eq : ∀ v, finV (-v) → vec (-v) = -vec v
  add_fin : ∀ v w, finV (v + w) → finV v ∧ finV w
  add_err : ∀ v w, finV (v + w) → ‖vec (v + w) - (vec v + vec w)‖ ≤ u * ‖vec (v + w)‖ + tiny
  sub_fin : ∀ v w, finV (v - w) → finV v ∧ finV w
  sub_err : ∀ v w, finV (v - w) → ‖vec (v - w) - (vec v - vec w)‖ ≤ u * ‖vec (v - w)‖ + tiny
  smul_fin : ∀ a v, finV (smul a v) → finV v
  smul_err : ∀ a v, finV (smul a v) →
    ‖vec (smul a v) - num a • vec v‖ ≤ u * min ‖num a • vec v‖ ‖vec (smul a v)‖ + tiny
  /-- the norm as CG and the first residual norms of the other solvers compute it -/
  root_fin : ∀ v, finS (Scalar.abs (sqrt (dot v v))) → finV v
  root_err : ∀ v, finS (Scalar.abs (sqrt (dot v v))) →
    |num (Scalar.abs (sqrt (dot v v))) - ‖vec v‖| ≤ uNorm * num (Scalar.abs (sqrt (dot v v))) + tinyNorm
  /-- `np.linalg.norm` -/
  norm_fin : ∀ v, finS (Vect.norm v) → finV v
  norm_err : ∀ v, finS (Vect.norm v) → |num (Vect.norm v) - ‖vec v‖| ≤ uNorm * num (Vect.norm v) + tinyNorm
  le_num : ∀ a b, finS a → finS b → le a b = true → num a ≤ num b

/-- **Specification.**  The operator computes products of the vectors in `L` with `A` up to a relative error: where it returns finite numbers,
`|op v - A v| <= c |v|`, and `|A x| <= N |x|`. -/
structure Rounding.Computes {S V E : Type} [Scalar S] [Vect S V] [NormedAddCommGroup E] [InnerProductSpace ℝ E] (F : Rounding S V E)
    (op : V → V) (A : E →ₗ[ℝ] E) (N c : ℝ) (L : List V) : Prop where
  N_nonneg : 0 ≤ N
  c_nonneg : 0 ≤ c
  bound : ∀ x, ‖A x‖ ≤ N * ‖x‖
  err : ∀ v ∈ L, F.finV v → F.finV (op v) → ‖F.vec (op v) - A (F.vec v)‖ ≤ c * ‖F.vec v‖

/-- **Specification.**  The rounding errors of one iteration, if the iterates have norms of at most `theta` and the right-hand side has norm
`beta`. -/
noncomputable def Rounding.local {S V E : Type} [Scalar S] [Vect S V] [NormedAddCommGroup E] [InnerProductSpace ℝ E] (F : Rounding S V E)
    (N c theta beta : ℝ) : ℝ :=
  F.u * (8 * N * theta + beta) + 4 * c * theta + (2 + 4 * N + 4 * c) * F.tiny

/-- **Specification.**  What `k` products can contribute to the difference of the residual that is updated and the residual of the iterate. -/
noncomputable def Rounding.drift {S V E : Type} [Scalar S] [Vect S V] [NormedAddCommGroup E] [InnerProductSpace ℝ E] (F : Rounding S V E)
    (N c theta beta : ℝ) (k : ℕ) : ℝ :=
  (k + 1) * (1 + 2 * F.u) ^ (k + 1) * F.local N c theta beta

section
variable {E : Type} [NormedAddCommGroup E] [InnerProductSpace ℝ E]

/-- One update `x' = x + a p`, `r' = r + a (A p)` in rounded arithmetic, for residuals `r = A x - b`. -/
theorem round_step {u eta N c theta : ℝ} (hu : 0 ≤ u) (hu4 : u ≤ 1 / 4) (heta : 0 ≤ eta) (hN : 0 ≤ N) (hc : 0 ≤ c)
    (A : E →ₗ[ℝ] E) (hA : ∀ x, ‖A x‖ ≤ N * ‖x‖) (b x x' t p q s r r' : E) (a : ℝ)
    (ht : ‖t - a • p‖ ≤ u * ‖t‖ + eta) (hx' : ‖x' - (x + t)‖ ≤ u * ‖x'‖ + eta) (hq : ‖q - A p‖ ≤ c * ‖p‖)
    (hs : ‖s - a • q‖ ≤ u * ‖a • q‖ + eta) (hr' : ‖r' - (r + s)‖ ≤ u * ‖r'‖ + eta) (hx : ‖x‖ ≤ theta) (hxx : ‖x'‖ ≤ theta) :
    ‖r' - (A x' - b)‖ ≤ (1 + 2 * u) * (‖r - (A x - b)‖ +
      (u * (8 * N * theta + ‖b‖) + 4 * c * theta + (2 + 4 * N + 4 * c) * eta)) := by
  have hth : 0 ≤ theta := (norm_nonneg _).trans hx
  -- the step `t`
  have hx'2 : ‖x' - (x + t)‖ ≤ u * theta + eta := hx'.trans (by nlinarith)
  have h1 : ‖t‖ ≤ (2 + u) * theta + eta := by
    have : t = x' - x - (x' - (x + t)) := by abel
    calc ‖t‖ = ‖x' - x - (x' - (x + t))‖ := by rw [← this]
      _ ≤ ‖x'‖ + ‖x‖ + ‖x' - (x + t)‖ := (norm_sub_le _ _).trans (by gcongr; exact norm_sub_le _ _)
      _ ≤ _ := by linarith
  have ht0 := norm_nonneg t
  have h2 : ‖t - a • p‖ ≤ u * ((2 + u) * theta + eta) + eta := ht.trans (by nlinarith)
  have h3 : ‖a • p‖ ≤ 3 * (theta + eta) := by
    have : a • p = t - (t - a • p) := by abel
    have h4 : ‖a • p‖ ≤ ‖t‖ + ‖t - a • p‖ := by
      calc ‖a • p‖ = ‖t - (t - a • p)‖ := by rw [← this]
        _ ≤ _ := norm_sub_le _ _
    nlinarith [mul_nonneg hu hth, mul_nonneg hu heta, mul_nonneg hu (mul_nonneg hu hth), mul_le_mul_of_nonneg_right hu4 hth,
      mul_le_mul_of_nonneg_right hu4 heta, mul_le_mul_of_nonneg_right hu4 (mul_nonneg hu hth)]
  -- the error of the iterate
  have h5 : ‖x' - (x + a • p)‖ ≤ 4 * u * theta + 3 * eta := by
    have : x' - (x + a • p) = (x' - (x + t)) + (t - a • p) := by abel
    rw [this]
    refine (norm_add_le _ _).trans ?_
    nlinarith [mul_nonneg hu hth, mul_nonneg hu heta, mul_nonneg hu (mul_nonneg hu hth), mul_le_mul_of_nonneg_right hu4 hth,
      mul_le_mul_of_nonneg_right hu4 heta, mul_le_mul_of_nonneg_right hu4 (mul_nonneg hu hth)]
  -- the product
  have h6 : ‖a • q - A (a • p)‖ ≤ c * (3 * (theta + eta)) := by
    rw [map_smul, ← smul_sub, norm_smul]
    calc ‖a‖ * ‖q - A p‖ ≤ ‖a‖ * (c * ‖p‖) := by gcongr
      _ = c * ‖a • p‖ := by rw [norm_smul]; ring
      _ ≤ _ := by gcongr
  have h7 : ‖a • q‖ ≤ (N + c) * (3 * (theta + eta)) := by
    have : a • q = (a • q - A (a • p)) + A (a • p) := by abel
    rw [this]
    refine (norm_add_le _ _).trans ?_
    have := (hA (a • p)).trans (mul_le_mul_of_nonneg_left h3 hN)
    linarith
  have h8 : ‖s - A (a • p)‖ ≤ u * ((N + c) * (3 * (theta + eta))) + eta + c * (3 * (theta + eta)) := by
    have : s - A (a • p) = (s - a • q) + (a • q - A (a • p)) := by abel
    rw [this]
    refine (norm_add_le _ _).trans ?_
    have := mul_le_mul_of_nonneg_left h7 hu
    linarith
  -- the residual
  set g := r - (A x - b) with hg
  set g' := r' - (A x' - b) with hg'
  have h9 : ‖r'‖ ≤ ‖g'‖ + N * theta + ‖b‖ := by
    have : r' = g' + A x' - b := by rw [hg']; abel
    rw [this]
    refine (norm_sub_le _ _).trans ?_
    gcongr
    refine (norm_add_le _ _).trans ?_
    gcongr
    exact (hA x').trans (by gcongr)
  have h10 : ‖g'‖ ≤ ‖g‖ + (u * ‖r'‖ + eta) + (u * ((N + c) * (3 * (theta + eta))) + eta + c * (3 * (theta + eta))) +
      N * (4 * u * theta + 3 * eta) := by
    have : g' = g + (r' - (r + s)) + (s - A (a • p)) - A (x' - (x + a • p)) := by
      rw [hg, hg']; simp only [map_sub, map_add]; abel
    rw [this]
    refine (norm_sub_le _ _).trans (add_le_add ((norm_add_le _ _).trans (add_le_add ((norm_add_le _ _).trans ?_) h8)) ?_)
    · gcongr
    · exact (hA _).trans (by gcongr)
  have hb := norm_nonneg b
  have hg0 := norm_nonneg g
  have hg'0 := norm_nonneg g'
  set d := u * (8 * N * theta + ‖b‖) + 4 * c * theta + (2 + 4 * N + 4 * c) * eta with hd
  have h11 : (1 - u) * ‖g'‖ ≤ ‖g‖ + d := by
    have e1 := mul_le_mul_of_nonneg_left h9 hu
    have e2 := mul_le_mul_of_nonneg_right hu4 (mul_nonneg hc hth)
    have e3 := mul_le_mul_of_nonneg_right hu4 (mul_nonneg hc heta)
    have e4 := mul_le_mul_of_nonneg_right hu4 (mul_nonneg hN heta)
    have e5 := mul_nonneg hc heta
    have e6 := mul_nonneg hN heta
    rw [hd]
    nlinarith
  have h12 : 1 ≤ (1 + 2 * u) * (1 - u) := by nlinarith
  have hd0 : 0 ≤ ‖g‖ + d := by
    refine le_trans ?_ h11
    exact mul_nonneg (by linarith) hg'0
  calc ‖g'‖ ≤ (1 + 2 * u) * (1 - u) * ‖g'‖ := le_mul_of_one_le_left hg'0 h12
    _ = (1 + 2 * u) * ((1 - u) * ‖g'‖) := by ring
    _ ≤ _ := by gcongr

/-- The first residual, `-b + A x0`. -/
theorem round_start {u eta N c theta : ℝ} (hu : 0 ≤ u) (hu4 : u ≤ 1 / 4) (heta : 0 ≤ eta) (hN : 0 ≤ N) (hc : 0 ≤ c)
    (A : E →ₗ[ℝ] E) (hA : ∀ x, ‖A x‖ ≤ N * ‖x‖) (b x q r : E) (hq : ‖q - A x‖ ≤ c * ‖x‖)
    (hr : ‖r - (-b + q)‖ ≤ u * ‖r‖ + eta) (hx : ‖x‖ ≤ theta) :
    ‖r - (A x - b)‖ ≤ (1 + 2 * u) * (u * (8 * N * theta + ‖b‖) + 4 * c * theta + (2 + 4 * N + 4 * c) * eta) := by
  have hth : 0 ≤ theta := (norm_nonneg _).trans hx
  set g := r - (A x - b) with hg
  have h9 : ‖r‖ ≤ ‖g‖ + N * theta + ‖b‖ := by
    have : r = g + A x - b := by rw [hg]; abel
    rw [this]
    refine (norm_sub_le _ _).trans ?_
    gcongr
    refine (norm_add_le _ _).trans ?_
    gcongr
    exact (hA x).trans (by gcongr)
  have h10 : ‖g‖ ≤ (u * ‖r‖ + eta) + c * theta := by
    have : g = (r - (-b + q)) + (q - A x) := by rw [hg]; abel
    rw [this]
    exact (norm_add_le _ _).trans (add_le_add hr (hq.trans (by gcongr)))
  have hb := norm_nonneg b
  have hg0 := norm_nonneg g
  set d := u * (8 * N * theta + ‖b‖) + 4 * c * theta + (2 + 4 * N + 4 * c) * eta with hd
  have h11 : (1 - u) * ‖g‖ ≤ d := by
    have e1 := mul_le_mul_of_nonneg_left h9 hu
    have e2 := mul_nonneg hc hth
    have e3 := mul_nonneg hc heta
    have e4 := mul_nonneg hN heta
    have e5 := mul_nonneg hu (mul_nonneg hN hth)
    rw [hd]
    nlinarith
  have h12 : 1 ≤ (1 + 2 * u) * (1 - u) := by nlinarith
  calc ‖g‖ ≤ (1 + 2 * u) * (1 - u) * ‖g‖ := le_mul_of_one_le_left hg0 h12
    _ = (1 + 2 * u) * ((1 - u) * ‖g‖) := by ring
    _ ≤ _ := by gcongr

end

section
variable {S V E : Type} [Scalar S] [Vect S V] [NormedAddCommGroup E] [InnerProductSpace ℝ E] (F : Rounding S V E)

theorem Rounding.local_nonneg {N c theta beta : ℝ} (hN : 0 ≤ N) (hc : 0 ≤ c) (ht : 0 ≤ theta) (hb : 0 ≤ beta) :
    0 ≤ F.local N c theta beta := by
  have := F.u_nonneg
  have := F.tiny_nonneg
  unfold Rounding.local
  positivity

theorem Rounding.drift_nonneg {N c theta beta : ℝ} (hN : 0 ≤ N) (hc : 0 ≤ c) (ht : 0 ≤ theta) (hb : 0 ≤ beta) (k : ℕ) :
    0 ≤ F.drift N c theta beta k := by
  have := F.u_nonneg
  have := F.local_nonneg hN hc ht hb
  unfold Rounding.drift
  positivity

theorem Rounding.drift_start {N c theta beta : ℝ} (hN : 0 ≤ N) (hc : 0 ≤ c) (ht : 0 ≤ theta) (hb : 0 ≤ beta) (k : ℕ) :
    (1 + 2 * F.u) * F.local N c theta beta ≤ F.drift N c theta beta k := by
  have hu := F.u_nonneg
  have h0 := F.local_nonneg hN hc ht hb
  unfold Rounding.drift
  refine mul_le_mul_of_nonneg_right ?_ h0
  have h1 : (1 + 2 * F.u) ^ 1 ≤ (1 + 2 * F.u) ^ (k + 1) := pow_le_pow_right₀ (by linarith) (by omega)
  rw [pow_one] at h1
  refine h1.trans (le_mul_of_one_le_left (by positivity) ?_)
  have : (0:ℝ) ≤ k := Nat.cast_nonneg k
  linarith

theorem Rounding.drift_step {N c theta beta g : ℝ} (hN : 0 ≤ N) (hc : 0 ≤ c) (ht : 0 ≤ theta) (hb : 0 ≤ beta) {k : ℕ}
    (hg : g ≤ F.drift N c theta beta k) : (1 + 2 * F.u) * (g + F.local N c theta beta) ≤ F.drift N c theta beta (k + 1) := by
  have hu := F.u_nonneg
  have h0 := F.local_nonneg hN hc ht hb
  have h1 : 1 ≤ (1 + 2 * F.u) ^ (k + 1) := one_le_pow₀ (by linarith)
  unfold Rounding.drift at hg ⊢
  calc (1 + 2 * F.u) * (g + F.local N c theta beta)
      ≤ (1 + 2 * F.u) * ((k + 1) * (1 + 2 * F.u) ^ (k + 1) * F.local N c theta beta + (1 + 2 * F.u) ^ (k + 1) * F.local N c theta beta) := by
        gcongr
        exact le_mul_of_one_le_left h0 h1
    _ = _ := by push_cast; ring

theorem Rounding.drift_mono {N c theta beta : ℝ} (hN : 0 ≤ N) (hc : 0 ≤ c) (ht : 0 ≤ theta) (hb : 0 ≤ beta) {k l : ℕ} (h : k ≤ l) :
    F.drift N c theta beta k ≤ F.drift N c theta beta l := by
  have hu := F.u_nonneg
  have h0 := F.local_nonneg hN hc ht hb
  unfold Rounding.drift
  gcongr
  linarith

end


theorem Rounding.Computes.mono {S V E : Type} [Scalar S] [Vect S V] [NormedAddCommGroup E] [InnerProductSpace ℝ E] {F : Rounding S V E}
    {op : V → V} {A : E →ₗ[ℝ] E} {N c : ℝ} {L L' : List V} (h : F.Computes op A N c L') (hL : ∀ v ∈ L, v ∈ L') : F.Computes op A N c L :=
  ⟨h.N_nonneg, h.c_nonneg, h.bound, fun v hv => h.err v (hL v hv)⟩

end Verif.Solver
