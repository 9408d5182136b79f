import Verif.Solver.BidiagMath
import Mathlib.Analysis.InnerProductSpace.ProdL2

/-!
# Helper: the LSQR recurrences over the reals

The residual of the damped problem is the vector `(b - A x, -d x)`; it is handled through two isometric embeddings `i1`, `i2`
with orthogonal ranges into an inner product space `H`.
-/

namespace Verif.Solver.LsqrMath
open scoped RealInnerProductSpace
open MinresMath (krylov krylov_mono)
open Bidiag

variable {E F H : Type} [NormedAddCommGroup E] [InnerProductSpace ℝ E] [NormedAddCommGroup F] [InnerProductSpace ℝ F]
  [NormedAddCommGroup H] [InnerProductSpace ℝ H]

/-- two isometric embeddings with orthogonal ranges -/
structure Emb (i1 : F →ₗ[ℝ] H) (i2 : E →ₗ[ℝ] H) : Prop where
  e1 : ∀ x y, ⟪i1 x, i1 y⟫ = ⟪x, y⟫
  e2 : ∀ x y, ⟪i2 x, i2 y⟫ = ⟪x, y⟫
  e12 : ∀ x y, ⟪i1 x, i2 y⟫ = 0

/-- `z ↦ (A z, d z)` -/
def Abar (A : E →ₗ[ℝ] F) (i1 : F →ₗ[ℝ] H) (i2 : E →ₗ[ℝ] H) (d : ℝ) (z : E) : H := i1 (A z) + d • i2 z

theorem Abar_add (A : E →ₗ[ℝ] F) (i1 : F →ₗ[ℝ] H) (i2 : E →ₗ[ℝ] H) (d : ℝ) (y z : E) :
    Abar A i1 i2 d (y + z) = Abar A i1 i2 d y + Abar A i1 i2 d z := by
  simp only [Abar, map_add, smul_add]; abel
theorem Abar_smul (A : E →ₗ[ℝ] F) (i1 : F →ₗ[ℝ] H) (i2 : E →ₗ[ℝ] H) (d t : ℝ) (z : E) :
    Abar A i1 i2 d (t • z) = t • Abar A i1 i2 d z := by
  simp only [Abar, map_smul]; module
theorem Abar_sub (A : E →ₗ[ℝ] F) (i1 : F →ₗ[ℝ] H) (i2 : E →ₗ[ℝ] H) (d : ℝ) (y z : E) :
    Abar A i1 i2 d (y - z) = Abar A i1 i2 d y - Abar A i1 i2 d z := by
  simp only [Abar, map_sub, smul_sub]; abel

/-- invariant after `k` iterations -/
structure Run (A : E →ₗ[ℝ] F) (B : F →ₗ[ℝ] E) (i1 : F →ₗ[ℝ] H) (i2 : E →ₗ[ℝ] H) (d : ℝ) (b : F) (k : ℕ) (x w v : E) (u : F)
    (α ρ φ res2 xx z c2 s2 : ℝ) (Us Us' : Submodule ℝ F) (Vs Vs' : Submodule ℝ E) (p g : H) (X : E) : Prop where
  gk : GK A B b k u v α Us Us' Vs Vs'
  ρ0 : ρ ≠ 0
  hw : Abar A i1 i2 d (w - v) = ρ • p - α • i1 u
  hr : i1 b - Abar A i1 i2 d x = φ • p + g
  pp : ⟪p, p⟫ = 1
  pg : ⟪p, g⟫ = 0
  gg : ⟪g, g⟫ = res2
  pU : ∀ y, (∀ z ∈ Us, ⟪z, y⟫ = 0) → ⟪p, i1 y⟫ = 0
  pV : ∀ y, (∀ z ∈ Vs', ⟪z, y⟫ = 0) → ⟪p, i2 y⟫ = 0
  gU : ∀ y, (∀ z ∈ Us, ⟪z, y⟫ = 0) → ⟪g, i1 y⟫ = 0
  gV : ∀ y, (∀ z ∈ Vs', ⟪z, y⟫ = 0) → ⟪g, i2 y⟫ = 0
  pA : ∀ y, ⟪p, Abar A i1 i2 d y⟫ = ρ * ⟪v, y⟫
  gA : ∀ y, ⟪g, Abar A i1 i2 d y⟫ = 0
  xV : x ∈ Vs'
  wV : w ∈ Vs
  XV : X ∈ Vs
  c20 : c2 ≠ 0
  ww : c2 * c2 * ⟪w, w⟫ = 1
  wX : ⟪w, X⟫ = 0
  XX : ⟪X, X⟫ = xx
  xX : x = X - (s2 * z) • w

/-- the scalars of the two rotations -/
noncomputable def rho1 (d ρ : ℝ) : ℝ := Real.sqrt (ρ * ρ + d * d)
noncomputable def rho (d ρ β : ℝ) : ℝ := Real.sqrt (rho1 d ρ * rho1 d ρ + β * β)

theorem rho1_sq (d ρ : ℝ) : rho1 d ρ * rho1 d ρ = ρ * ρ + d * d :=
  Real.mul_self_sqrt (add_nonneg (mul_self_nonneg _) (mul_self_nonneg _))
theorem rho_sq (d ρ β : ℝ) : rho d ρ β * rho d ρ β = rho1 d ρ * rho1 d ρ + β * β :=
  Real.mul_self_sqrt (add_nonneg (mul_self_nonneg _) (mul_self_nonneg _))
theorem rho1_pos {d ρ : ℝ} (h : ρ ≠ 0) : 0 < rho1 d ρ :=
  Real.sqrt_pos.2 (add_pos_of_pos_of_nonneg (mul_self_pos.2 h) (mul_self_nonneg _))
theorem rho_pos {d ρ : ℝ} (β : ℝ) (h : ρ ≠ 0) : 0 < rho d ρ β :=
  Real.sqrt_pos.2 (add_pos_of_pos_of_nonneg (mul_self_pos.2 (rho1_pos h).ne') (mul_self_nonneg _))

variable {A : E →ₗ[ℝ] F} {B : F →ₗ[ℝ] E} {i1 : F →ₗ[ℝ] H} {i2 : E →ₗ[ℝ] H} {d : ℝ} {b : F} {k : ℕ} {x w v : E} {u : F}
  {α ρ φ res2 xx z c2 s2 : ℝ} {Us Us' : Submodule ℝ F} {Vs Vs' : Submodule ℝ E} {p g : H} {X : E}

/-- the vectors after the first rotation -/
noncomputable def p1 (i2 : E →ₗ[ℝ] H) (d ρ : ℝ) (p : H) (v : E) : H := (ρ / rho1 d ρ) • p + (d / rho1 d ρ) • i2 v
noncomputable def q1 (i2 : E →ₗ[ℝ] H) (d ρ : ℝ) (p : H) (v : E) : H := (d / rho1 d ρ) • p - (ρ / rho1 d ρ) • i2 v
noncomputable def g1 (i2 : E →ₗ[ℝ] H) (d ρ φ : ℝ) (p g : H) (v : E) : H := g + (d / rho1 d ρ * φ) • q1 i2 d ρ p v
/-- the vector after the second rotation -/
noncomputable def p2 (i1 : F →ₗ[ℝ] H) (i2 : E →ₗ[ℝ] H) (d ρ β : ℝ) (p : H) (v : E) (u' : F) : H :=
  (β / rho d ρ β) • p1 i2 d ρ p v - (rho1 d ρ / rho d ρ β) • i1 u'

/-- the new `x` -/
noncomputable def xnew (d ρ β φ : ℝ) (x w : E) : E :=
  x + (rho1 d ρ / rho d ρ β * (ρ / rho1 d ρ * φ) / rho d ρ β) • w

namespace Run

theorem rot1 (h : Run A B i1 i2 d b k x w v u α ρ φ res2 xx z c2 s2 Us Us' Vs Vs' p g X) :
    ρ / rho1 d ρ * (ρ / rho1 d ρ) + d / rho1 d ρ * (d / rho1 d ρ) = 1 := by
  have := (rho1_pos (d := d) h.ρ0).ne'
  have := rho1_sq d ρ
  field_simp; linarith

theorem rot2 (h : Run A B i1 i2 d b k x w v u α ρ φ res2 xx z c2 s2 Us Us' Vs Vs' p g X) (β : ℝ) :
    rho1 d ρ / rho d ρ β * (rho1 d ρ / rho d ρ β) + β / rho d ρ β * (β / rho d ρ β) = 1 := by
  have := (rho_pos (d := d) β h.ρ0).ne'
  have := rho_sq d ρ β
  field_simp; linarith

theorem piv (h : Run A B i1 i2 d b k x w v u α ρ φ res2 xx z c2 s2 Us Us' Vs Vs' p g X) : ⟪p, i2 v⟫ = 0 := h.pV v h.gk.vorth
theorem giv (h : Run A B i1 i2 d b k x w v u α ρ φ res2 xx z c2 s2 Us Us' Vs Vs' p g X) : ⟪g, i2 v⟫ = 0 := h.gV v h.gk.vorth

theorem p1p1 (h : Run A B i1 i2 d b k x w v u α ρ φ res2 xx z c2 s2 Us Us' Vs Vs' p g X) (e : Emb i1 i2) :
    ⟪p1 i2 d ρ p v, p1 i2 d ρ p v⟫ = 1 := by
  unfold p1
  simp only [inner_add_left, inner_add_right, inner_smul_left, inner_smul_right, h.piv, real_inner_comm p (i2 v), h.pp, e.e2,
    h.gk.vv, conj_trivial]
  linarith [h.rot1]

theorem q1q1 (h : Run A B i1 i2 d b k x w v u α ρ φ res2 xx z c2 s2 Us Us' Vs Vs' p g X) (e : Emb i1 i2) :
    ⟪q1 i2 d ρ p v, q1 i2 d ρ p v⟫ = 1 := by
  unfold q1
  simp only [inner_sub_left, inner_sub_right, inner_smul_left, inner_smul_right, h.piv, real_inner_comm p (i2 v), h.pp, e.e2,
    h.gk.vv, conj_trivial]
  linarith [h.rot1]

theorem p1q1 (h : Run A B i1 i2 d b k x w v u α ρ φ res2 xx z c2 s2 Us Us' Vs Vs' p g X) (e : Emb i1 i2) :
    ⟪p1 i2 d ρ p v, q1 i2 d ρ p v⟫ = 0 := by
  unfold p1 q1
  simp only [inner_add_left, inner_sub_right, inner_smul_left, inner_smul_right, h.piv, real_inner_comm p (i2 v), h.pp, e.e2,
    h.gk.vv, conj_trivial]
  ring

theorem gq1 (h : Run A B i1 i2 d b k x w v u α ρ φ res2 xx z c2 s2 Us Us' Vs Vs' p g X) : ⟪g, q1 i2 d ρ p v⟫ = 0 := by
  unfold q1
  rw [inner_sub_right, inner_smul_right, inner_smul_right, h.giv, real_inner_comm p g, h.pg]; ring

theorem p1g1 (h : Run A B i1 i2 d b k x w v u α ρ φ res2 xx z c2 s2 Us Us' Vs Vs' p g X) (e : Emb i1 i2) :
    ⟪p1 i2 d ρ p v, g1 i2 d ρ φ p g v⟫ = 0 := by
  have h1 : ⟪p1 i2 d ρ p v, g⟫ = 0 := by
    unfold p1
    rw [inner_add_left, inner_smul_left, inner_smul_left, h.pg, real_inner_comm g (i2 v), h.giv]; simp
  unfold g1
  rw [inner_add_right, inner_smul_right, h.p1q1 e, h1]; ring

theorem g1g1 (h : Run A B i1 i2 d b k x w v u α ρ φ res2 xx z c2 s2 Us Us' Vs Vs' p g X) (e : Emb i1 i2) :
    ⟪g1 i2 d ρ φ p g v, g1 i2 d ρ φ p g v⟫ = res2 + d / rho1 d ρ * φ * (d / rho1 d ρ * φ) := by
  unfold g1
  rw [inner_add_left, inner_add_right, inner_add_right, inner_smul_left, inner_smul_left, inner_smul_right,
    inner_smul_right, h.q1q1 e, h.gq1, real_inner_comm g (q1 i2 d ρ p v), h.gq1, h.gg]
  simp

theorem p1A (h : Run A B i1 i2 d b k x w v u α ρ φ res2 xx z c2 s2 Us Us' Vs Vs' p g X) (e : Emb i1 i2) (y : E) :
    ⟪p1 i2 d ρ p v, Abar A i1 i2 d y⟫ = rho1 d ρ * ⟪v, y⟫ := by
  have h0 := (rho1_pos (d := d) h.ρ0).ne'
  have h1 : ⟪i2 v, Abar A i1 i2 d y⟫ = d * ⟪v, y⟫ := by
    unfold Abar
    rw [inner_add_right, inner_smul_right, e.e2, real_inner_comm (i1 (A y)) (i2 v), e.e12]; ring
  unfold p1
  rw [inner_add_left, inner_smul_left, inner_smul_left, h.pA, h1]
  have := rho1_sq d ρ
  simp only [conj_trivial]
  field_simp
  rw [pow_two, pow_two, pow_two, ← this]; ring

theorem g1A (h : Run A B i1 i2 d b k x w v u α ρ φ res2 xx z c2 s2 Us Us' Vs Vs' p g X) (e : Emb i1 i2) (y : E) :
    ⟪g1 i2 d ρ φ p g v, Abar A i1 i2 d y⟫ = 0 := by
  have h1 : ⟪i2 v, Abar A i1 i2 d y⟫ = d * ⟪v, y⟫ := by
    unfold Abar
    rw [inner_add_right, inner_smul_right, e.e2, real_inner_comm (i1 (A y)) (i2 v), e.e12]; ring
  unfold g1 q1
  rw [inner_add_left, inner_smul_left, inner_sub_left, inner_smul_left, inner_smul_left, h.pA, h1, h.gA]
  simp only [conj_trivial]
  ring

/-- the image of the direction -/
theorem Aw (h : Run A B i1 i2 d b k x w v u α ρ φ res2 xx z c2 s2 Us Us' Vs Vs' p g X) {β : ℝ} {u' : F}
    (hu : β • u' = A v - α • u) :
    Abar A i1 i2 d w = rho d ρ β • ((rho1 d ρ / rho d ρ β) • p1 i2 d ρ p v + (β / rho d ρ β) • i1 u') := by
  have h0 := (rho1_pos (d := d) h.ρ0).ne'
  have h0' := (rho_pos (d := d) β h.ρ0).ne'
  have e1 : Abar A i1 i2 d w = Abar A i1 i2 d (w - v) + Abar A i1 i2 d v := by rw [← Abar_add]; congr 1; abel
  have e2 : A v = β • u' + α • u := by rw [hu]; abel
  rw [e1, h.hw]
  unfold Abar p1
  rw [e2, map_add, map_smul, map_smul, smul_add, smul_smul, smul_smul, smul_add, smul_smul, smul_smul]
  have c1 : rho d ρ β * (rho1 d ρ / rho d ρ β) * (ρ / rho1 d ρ) = ρ := by field_simp
  have c2 : rho d ρ β * (rho1 d ρ / rho d ρ β) * (d / rho1 d ρ) = d := by field_simp
  have c3 : rho d ρ β * (β / rho d ρ β) = β := by field_simp
  rw [c1, c2, c3]
  abel

/-- the new residual -/
theorem resid (h : Run A B i1 i2 d b k x w v u α ρ φ res2 xx z c2 s2 Us Us' Vs Vs' p g X) {β : ℝ} {u' : F}
    (hu : β • u' = A v - α • u) :
    i1 b - Abar A i1 i2 d (xnew d ρ β φ x w) =
      (β / rho d ρ β * (ρ / rho1 d ρ * φ)) • p2 i1 i2 d ρ β p v u' + g1 i2 d ρ φ p g v := by
  have h0 := (rho1_pos (d := d) h.ρ0).ne'
  have h0' := (rho_pos (d := d) β h.ρ0).ne'
  have e1 : i1 b - Abar A i1 i2 d (xnew d ρ β φ x w) = φ • p + g -
      (rho1 d ρ / rho d ρ β * (ρ / rho1 d ρ * φ)) • ((rho1 d ρ / rho d ρ β) • p1 i2 d ρ p v + (β / rho d ρ β) • i1 u') := by
    unfold xnew
    rw [Abar_add, Abar_smul, h.Aw hu, smul_smul, ← h.hr]
    have : rho1 d ρ / rho d ρ β * (ρ / rho1 d ρ * φ) / rho d ρ β * rho d ρ β = rho1 d ρ / rho d ρ β * (ρ / rho1 d ρ * φ) := by
      field_simp
    rw [this]; abel
  have e2 : φ • p = (ρ / rho1 d ρ * φ) • p1 i2 d ρ p v + (d / rho1 d ρ * φ) • q1 i2 d ρ p v := by
    unfold p1 q1
    have e3 : φ • p = (φ * (ρ / rho1 d ρ * (ρ / rho1 d ρ) + d / rho1 d ρ * (d / rho1 d ρ))) • p := by rw [h.rot1, mul_one]
    rw [e3]; module
  have e4 : (ρ / rho1 d ρ * φ) • p1 i2 d ρ p v =
      (ρ / rho1 d ρ * φ * (rho1 d ρ / rho d ρ β * (rho1 d ρ / rho d ρ β) + β / rho d ρ β * (β / rho d ρ β))) • p1 i2 d ρ p v := by
    rw [h.rot2 β, mul_one]
  rw [e1, e2, e4]
  unfold p2 g1
  module

/-- the norm of the new `x` -/
theorem xnorm (h : Run A B i1 i2 d b k x w v u α ρ φ res2 xx z c2 s2 Us Us' Vs Vs' p g X) (β : ℝ) :
    ⟪xnew d ρ β φ x w, xnew d ρ β φ x w⟫ = xx +
      (rho1 d ρ / rho d ρ β * (ρ / rho1 d ρ * φ) - s2 * rho d ρ β * z) / (-c2 * rho d ρ β) *
      ((rho1 d ρ / rho d ρ β * (ρ / rho1 d ρ * φ) - s2 * rho d ρ β * z) / (-c2 * rho d ρ β)) := by
  have h0' := (rho_pos (d := d) β h.ρ0).ne'
  have hc := h.c20
  set f := rho1 d ρ / rho d ρ β * (ρ / rho1 d ρ * φ) with hf
  have e1 : xnew d ρ β φ x w = X + ((f - s2 * rho d ρ β * z) / rho d ρ β) • w := by
    unfold xnew
    rw [← hf, h.xX]
    have : (f - s2 * rho d ρ β * z) / rho d ρ β = f / rho d ρ β - s2 * z := by field_simp
    rw [this, sub_smul]
    have e : X - (s2 * z) • w + (f / rho d ρ β) • w = X + ((f / rho d ρ β) • w - (s2 * z) • w) := by abel
    exact e
  have e2 : ⟪w, w⟫ = 1 / (c2 * c2) := by
    have := h.ww
    field_simp; rw [pow_two, mul_comm]; exact this
  rw [e1, inner_add_left, inner_add_right, inner_add_right, inner_smul_left, inner_smul_left, inner_smul_right,
    inner_smul_right, h.wX, real_inner_comm w X, h.wX, h.XX, e2]
  simp only [conj_trivial]
  field_simp
  ring

theorem p2A (h : Run A B i1 i2 d b k x w v u α ρ φ res2 xx z c2 s2 Us Us' Vs Vs' p g X) (e : Emb i1 i2)
    (hAB : ∀ x y, ⟪A x, y⟫ = ⟪x, B y⟫) {β α' : ℝ} {u' : F} {v' : E} (hv : α' • v' = B u' - β • v) (y : E) :
    ⟪p2 i1 i2 d ρ β p v u', Abar A i1 i2 d y⟫ = -(rho1 d ρ / rho d ρ β) * α' * ⟪v', y⟫ := by
  have h0' := (rho_pos (d := d) β h.ρ0).ne'
  have e1 : ⟪i1 u', Abar A i1 i2 d y⟫ = α' * ⟪v', y⟫ + β * ⟪v, y⟫ := by
    have e2 : B u' = α' • v' + β • v := by rw [hv]; abel
    unfold Abar
    rw [inner_add_right, inner_smul_right, e.e1, e.e12, real_inner_comm, hAB, e2, inner_add_right, inner_smul_right,
      inner_smul_right, real_inner_comm y v', real_inner_comm y v]; ring
  unfold p2
  rw [inner_sub_left, inner_smul_left, inner_smul_left, h.p1A e, e1]
  simp only [conj_trivial]
  field_simp
  ring

/-- the residual of the normal equations -/
def nres (A : E →ₗ[ℝ] F) (B : F →ₗ[ℝ] E) (d : ℝ) (b : F) (x : E) : E := B (b - A x) - (d * d) • x

theorem inner_nres (e : Emb i1 i2) (hAB : ∀ x y, ⟪A x, y⟫ = ⟪x, B y⟫) (x y : E) :
    ⟪nres A B d b x, y⟫ = ⟪i1 b - Abar A i1 i2 d x, Abar A i1 i2 d y⟫ := by
  have e1 : i1 b - Abar A i1 i2 d x = i1 (b - A x) - d • i2 x := by
    unfold Abar; rw [map_sub]; abel
  rw [e1]
  unfold nres Abar
  rw [inner_sub_left (i1 (b - A x)), inner_add_right, inner_add_right, inner_sub_left]
  simp only [inner_smul_left, inner_smul_right, e.e1, e.e2, e.e12, real_inner_comm (i1 (A y)) (i2 x), conj_trivial]
  rw [real_inner_comm (A y) (b - A x), hAB, real_inner_comm]
  ring

/-- the normal residual after the step, if the next left vector is not zero -/
theorem nres_step (h : Run A B i1 i2 d b k x w v u α ρ φ res2 xx z c2 s2 Us Us' Vs Vs' p g X) (e : Emb i1 i2)
    (hAB : ∀ x y, ⟪A x, y⟫ = ⟪x, B y⟫) {β α' : ℝ} {u' : F} {v' : E} (hu : β • u' = A v - α • u)
    (hv : α' • v' = B u' - β • v) :
    nres A B d b (xnew d ρ β φ x w) =
      (-(β / rho d ρ β * (ρ / rho1 d ρ * φ)) * (rho1 d ρ / rho d ρ β) * α') • v' := by
  refine ext_inner_right ℝ fun y => ?_
  rw [inner_nres e hAB, h.resid hu, inner_add_left, inner_smul_left, h.p2A e hAB hv, h.g1A e, inner_smul_left]
  simp only [conj_trivial]
  ring

/-- the normal residual after the step, if the next left vector is zero -/
theorem nres_last (h : Run A B i1 i2 d b k x w v u α ρ φ res2 xx z c2 s2 Us Us' Vs Vs' p g X) (e : Emb i1 i2)
    (hAB : ∀ x y, ⟪A x, y⟫ = ⟪x, B y⟫) (hu : A v - α • u = 0) : nres A B d b (xnew d ρ 0 φ x w) = 0 := by
  refine ext_inner_right ℝ fun y => ?_
  have := h.resid (β := 0) (u' := 0) (by rw [hu, zero_smul])
  rw [inner_nres e hAB, this]
  simp [h.g1A e]

/-- orthogonality of the residual to the search space gives minimality -/
theorem minimal (hx : ∀ y ∈ Vs, ⟪i1 b - Abar A i1 i2 d x, Abar A i1 i2 d y⟫ = 0) (hxV : x ∈ Vs) (y : E) (hy : y ∈ Vs) :
    ⟪i1 b - Abar A i1 i2 d x, i1 b - Abar A i1 i2 d x⟫ ≤ ⟪i1 b - Abar A i1 i2 d y, i1 b - Abar A i1 i2 d y⟫ := by
  have e1 : i1 b - Abar A i1 i2 d y = (i1 b - Abar A i1 i2 d x) + Abar A i1 i2 d (x - y) := by rw [Abar_sub]; abel
  have h1 := hx (x - y) (Submodule.sub_mem _ hxV hy)
  rw [e1, inner_add_left, inner_add_right, inner_add_right, h1, real_inner_comm (i1 b - Abar A i1 i2 d x) (Abar A i1 i2 d (x - y)), h1]
  have := real_inner_self_nonneg (x := Abar A i1 i2 d (x - y))
  linarith

/-- the squared norm of the long residual -/
theorem inner_resid (e : Emb i1 i2) (x : E) :
    ⟪i1 b - Abar A i1 i2 d x, i1 b - Abar A i1 i2 d x⟫ = ‖b - A x‖ ^ 2 + d ^ 2 * ‖x‖ ^ 2 := by
  have e1 : i1 b - Abar A i1 i2 d x = i1 (b - A x) - d • i2 x := by
    unfold Abar; rw [map_sub]; abel
  rw [e1, inner_sub_left, inner_sub_right, inner_sub_right]
  simp only [inner_smul_left, inner_smul_right, e.e1, e.e2, e.e12, real_inner_comm (i1 (b - A x)) (i2 x), conj_trivial]
  rw [real_inner_self_eq_norm_sq, real_inner_self_eq_norm_sq]
  ring

theorem xnew_mem (h : Run A B i1 i2 d b k x w v u α ρ φ res2 xx z c2 s2 Us Us' Vs Vs' p g X) (β : ℝ) :
    xnew d ρ β φ x w ∈ Vs :=
  Submodule.add_mem _ (h.gk.leV h.xV) (Submodule.smul_mem _ _ h.wV)

/-- the squared norm of the new residual -/
theorem rr (h : Run A B i1 i2 d b k x w v u α ρ φ res2 xx z c2 s2 Us Us' Vs Vs' p g X) (e : Emb i1 i2)
    (β : ℝ) {u' : F} (hu1 : ⟪u', u'⟫ = 1) (huo : ∀ z ∈ Us, ⟪z, u'⟫ = 0) :
    ⟪p2 i1 i2 d ρ β p v u', p2 i1 i2 d ρ β p v u'⟫ = 1 ∧ ⟪p2 i1 i2 d ρ β p v u', g1 i2 d ρ φ p g v⟫ = 0 := by
  have a1 : ⟪p1 i2 d ρ p v, i1 u'⟫ = 0 := by
    unfold p1
    rw [inner_add_left, inner_smul_left, inner_smul_left, h.pU u' huo, real_inner_comm, e.e12]; simp
  have a2 : ⟪g1 i2 d ρ φ p g v, i1 u'⟫ = 0 := by
    unfold g1 q1
    rw [inner_add_left, inner_smul_left, inner_sub_left, inner_smul_left, inner_smul_left, h.pU u' huo, h.gU u' huo,
      real_inner_comm, e.e12]; simp
  constructor
  · unfold p2
    rw [inner_sub_left, inner_sub_right, inner_sub_right]
    simp only [inner_smul_left, inner_smul_right, a1, real_inner_comm (p1 i2 d ρ p v) (i1 u'), h.p1p1 e, e.e1, hu1,
      conj_trivial]
    linarith [h.rot2 β]
  · unfold p2
    rw [inner_sub_left, inner_smul_left, inner_smul_left, h.p1g1 e, real_inner_comm, a2]
    simp

/-- the value of the new residual's norm -/
theorem rnorm_step (h : Run A B i1 i2 d b k x w v u α ρ φ res2 xx z c2 s2 Us Us' Vs Vs' p g X) (e : Emb i1 i2)
    {β : ℝ} {u' : F} (hu : β • u' = A v - α • u) (hu1 : ⟪u', u'⟫ = 1) (huo : ∀ z ∈ Us, ⟪z, u'⟫ = 0) :
    ‖b - A (xnew d ρ β φ x w)‖ ^ 2 + d ^ 2 * ‖xnew d ρ β φ x w‖ ^ 2 =
      β / rho d ρ β * (ρ / rho1 d ρ * φ) * (β / rho d ρ β * (ρ / rho1 d ρ * φ)) +
        (res2 + d / rho1 d ρ * φ * (d / rho1 d ρ * φ)) := by
  obtain ⟨h1, h2⟩ := h.rr e β hu1 huo
  rw [← inner_resid e, h.resid hu, inner_add_left, inner_add_right, inner_add_right]
  simp only [inner_smul_left, inner_smul_right, h1, h2, real_inner_comm (p2 i1 i2 d ρ β p v u') (g1 i2 d ρ φ p g v),
    h.g1g1 e, conj_trivial]
  ring

theorem rnorm_last (h : Run A B i1 i2 d b k x w v u α ρ φ res2 xx z c2 s2 Us Us' Vs Vs' p g X) (e : Emb i1 i2)
    (hu : A v - α • u = 0) :
    ‖b - A (xnew d ρ 0 φ x w)‖ ^ 2 + d ^ 2 * ‖xnew d ρ 0 φ x w‖ ^ 2 =
      (res2 + d / rho1 d ρ * φ * (d / rho1 d ρ * φ)) := by
  have := h.resid (β := 0) (u' := 0) (by rw [hu, zero_smul])
  rw [← inner_resid e, this]
  rw [zero_div, zero_mul, zero_smul, zero_add, h.g1g1 e]

/-- one step of the recurrences, if the process does not end -/
theorem step (h : Run A B i1 i2 d b k x w v u α ρ φ res2 xx z c2 s2 Us Us' Vs Vs' p g X) (e : Emb i1 i2)
    (hAB : ∀ x y, ⟪A x, y⟫ = ⟪x, B y⟫) {β α' : ℝ} {u' : F} {v' : E}
    (hu : β • u' = A v - α • u) (hβ : β ≠ 0) (hu1 : ⟪u', u'⟫ = 1) (hv : α' • v' = B u' - β • v) (hα : 0 < α')
    (hv1 : ⟪v', v'⟫ = 1) {θ γ rhs : ℝ} (hθ : θ = β / rho d ρ β * α')
    (hγ : γ = Real.sqrt (-c2 * rho d ρ β * (-c2 * rho d ρ β) + θ * θ))
    (hrhs : rhs = rho1 d ρ / rho d ρ β * (ρ / rho1 d ρ * φ) - s2 * rho d ρ β * z) :
    Run A B i1 i2 d b (k+1) (xnew d ρ β φ x w) ((-θ / rho d ρ β) • w + v') v' u' α' (-(rho1 d ρ / rho d ρ β) * α')
      (β / rho d ρ β * (ρ / rho1 d ρ * φ)) (res2 + d / rho1 d ρ * φ * (d / rho1 d ρ * φ)) (xx + rhs / γ * (rhs / γ)) (rhs / γ)
      (-c2 * rho d ρ β / γ) (θ / γ)
      (Us ⊔ Submodule.span ℝ {u'}) Us (Vs ⊔ Submodule.span ℝ {v'}) Vs (p2 i1 i2 d ρ β p v u') (g1 i2 d ρ φ p g v)
      (X + (rhs / γ) • ((-c2 * rho d ρ β / γ) • (-c2 • w) + (θ / γ) • v')) := by
  have h0 := rho1_pos (d := d) h.ρ0
  have h0' := rho_pos (d := d) β h.ρ0
  have hc := h.c20
  have hgk := h.gk.step hAB hu hβ hu1 hv hα hv1
  obtain ⟨hpp, hpg⟩ := h.rr e β hu1 hgk.uorth
  have hγ2 : γ * γ = c2 * rho d ρ β * (c2 * rho d ρ β) + θ * θ := by
    rw [hγ, Real.mul_self_sqrt (add_nonneg (mul_self_nonneg _) (mul_self_nonneg _))]; ring
  have hγ0 : 0 < γ := by
    rw [hγ]
    refine Real.sqrt_pos.2 (add_pos_of_pos_of_nonneg (mul_self_pos.2 ?_) (mul_self_nonneg _))
    exact mul_ne_zero (neg_ne_zero.2 hc) h0'.ne'
  have hww : ⟪w, w⟫ = 1 / (c2 * c2) := by
    have := h.ww
    field_simp; rw [pow_two, mul_comm]; exact this
  have hwv : ⟪w, v'⟫ = 0 := hgk.vorth w h.wV
  have hXv : ⟪X, v'⟫ = 0 := hgk.vorth X h.XV
  have hvw : ⟪v', w⟫ = 0 := by rw [real_inner_comm, hwv]
  have hvX : ⟪v', X⟫ = 0 := by rw [real_inner_comm, hXv]
  have hXw : ⟪X, w⟫ = 0 := by rw [real_inner_comm, h.wX]
  have leV : Vs ≤ Vs ⊔ Submodule.span ℝ {v'} := le_sup_left
  have mv : v' ∈ Vs ⊔ Submodule.span ℝ {v'} := Submodule.mem_sup_right (Submodule.mem_span_singleton_self _)
  refine
    { gk := hgk
      ρ0 := mul_ne_zero (neg_ne_zero.2 (div_ne_zero h0.ne' h0'.ne')) hα.ne'
      hw := ?_
      hr := h.resid hu
      pp := hpp
      pg := hpg
      gg := h.g1g1 e
      pU := ?_
      pV := ?_
      gU := ?_
      gV := ?_
      pA := h.p2A e hAB hv
      gA := h.g1A e
      xV := h.xnew_mem β
      wV := Submodule.add_mem _ (Submodule.smul_mem _ _ (leV h.wV)) mv
      XV := Submodule.add_mem _ (leV h.XV) (Submodule.smul_mem _ _ (Submodule.add_mem _
        (Submodule.smul_mem _ _ (Submodule.smul_mem _ _ (leV h.wV))) (Submodule.smul_mem _ _ mv)))
      c20 := div_ne_zero (mul_ne_zero (neg_ne_zero.2 hc) h0'.ne') hγ0.ne'
      ww := ?_
      wX := ?_
      XX := ?_
      xX := ?_ }
  · have e1 : (-θ / rho d ρ β) • w + v' - v' = (-θ / rho d ρ β) • w := by abel
    rw [e1, Abar_smul, h.Aw hu, smul_smul]
    have e2 : -θ / rho d ρ β * rho d ρ β = -θ := by field_simp
    rw [e2, hθ]
    unfold p2
    have e3 : α' • i1 u' = (α' * (rho1 d ρ / rho d ρ β * (rho1 d ρ / rho d ρ β) + β / rho d ρ β * (β / rho d ρ β))) • i1 u' := by
      rw [h.rot2 β, mul_one]
    rw [e3]
    module
  · intro y hy
    have hy1 : ∀ z ∈ Us, ⟪z, y⟫ = 0 := fun z hz => hy z (Submodule.mem_sup_left hz)
    have hy2 : ⟪u', y⟫ = 0 := hy u' (Submodule.mem_sup_right (Submodule.mem_span_singleton_self _))
    unfold p2 p1
    rw [inner_sub_left, inner_smul_left, inner_smul_left, inner_add_left, inner_smul_left, inner_smul_left, h.pU y hy1, e.e1,
      hy2, real_inner_comm, e.e12]
    simp
  · intro y hy
    have hy1 : ∀ z ∈ Vs', ⟪z, y⟫ = 0 := fun z hz => hy z (h.gk.leV hz)
    have hy2 : ⟪v, y⟫ = 0 := hy v h.gk.vVs
    unfold p2 p1
    rw [inner_sub_left, inner_smul_left, inner_smul_left, inner_add_left, inner_smul_left, inner_smul_left, h.pV y hy1, e.e2,
      hy2, e.e12]
    simp
  · intro y hy
    have hy1 : ∀ z ∈ Us, ⟪z, y⟫ = 0 := fun z hz => hy z (Submodule.mem_sup_left hz)
    unfold g1 q1
    rw [inner_add_left, inner_smul_left, inner_sub_left, inner_smul_left, inner_smul_left, h.pU y hy1, h.gU y hy1,
      real_inner_comm, e.e12]
    simp
  · intro y hy
    have hy1 : ∀ z ∈ Vs', ⟪z, y⟫ = 0 := fun z hz => hy z (h.gk.leV hz)
    have hy2 : ⟪v, y⟫ = 0 := hy v h.gk.vVs
    unfold g1 q1
    rw [inner_add_left, inner_smul_left, inner_sub_left, inner_smul_left, inner_smul_left, h.pV y hy1, h.gV y hy1, e.e2, hy2]
    simp
  · simp only [inner_add_left, inner_add_right, inner_smul_left, inner_smul_right, hww, hwv, hvw, hv1, conj_trivial]
    field_simp
    nlinarith [hγ2]
  · simp only [inner_add_left, inner_add_right, inner_smul_left, inner_smul_right, hww, hwv, hvw, hv1, h.wX, hvX, conj_trivial]
    field_simp
    ring
  · simp only [inner_add_left, inner_add_right, inner_smul_left, inner_smul_right, hww, hwv, hvw, hv1, h.wX, hvX, hXv, hXw,
      h.XX, conj_trivial]
    field_simp
    nlinarith [hγ2]
  · have e1 : xnew d ρ β φ x w = X + (rhs / rho d ρ β) • w := by
      unfold xnew
      have : rhs / rho d ρ β = rho1 d ρ / rho d ρ β * (ρ / rho1 d ρ * φ) / rho d ρ β - s2 * z := by rw [hrhs]; field_simp
      rw [this]
      nth_rw 1 [h.xX]
      module
    rw [e1]
    have e2 : rhs / rho d ρ β = rhs / γ * (c2 * rho d ρ β / γ * c2 + θ / γ * θ / rho d ρ β) := by
      field_simp
      linear_combination rhs * hγ2
    rw [e2]
    module

/-- the start -/
theorem start (e : Emb i1 i2) (hAB : ∀ x y, ⟪A x, y⟫ = ⟪x, B y⟫) {β : ℝ} (hu : β • u = b) (hu1 : ⟪u, u⟫ = 1)
    (hv : α • v = B u) (hα : 0 < α) (hv1 : ⟪v, v⟫ = 1) (hβ : β ≠ 0) :
    Run A B i1 i2 d b 0 0 v v u α α β 0 0 0 (-1) 0 (⊥ ⊔ Submodule.span ℝ {u}) ⊥ (⊥ ⊔ Submodule.span ℝ {v}) ⊥
      (i1 u) 0 0 := by
  have hgk := GK.init A B hu hu1 hv hα hv1 hβ
  refine ⟨hgk, hα.ne', ?_, ?_, ?_, ?_, ?_, ?_, ?_, ?_, ?_, ?_, ?_, ?_, hgk.vVs, ?_, by norm_num, ?_, ?_, ?_, ?_⟩
  · simp [Abar]
  · simp [Abar, ← hu]
  · rw [e.e1, hu1]
  · simp
  · simp
  · intro y hy; rw [e.e1]; exact hy u hgk.uUs
  · intro y _; exact e.e12 _ _
  · simp
  · simp
  · intro y
    unfold Abar
    rw [inner_add_right, inner_smul_right, e.e1, e.e12, real_inner_comm, hAB, ← hv, inner_smul_right, real_inner_comm]; ring
  · simp
  · exact Submodule.zero_mem _
  · exact Submodule.zero_mem _
  · rw [hv1]; norm_num
  · simp
  · simp
  · simp

end Run

/-- the standard embeddings -/
theorem emb_exists (E F : Type) [NormedAddCommGroup E] [InnerProductSpace ℝ E] [NormedAddCommGroup F] [InnerProductSpace ℝ F] :
    ∃ (i1 : F →ₗ[ℝ] WithLp 2 (F × E)) (i2 : E →ₗ[ℝ] WithLp 2 (F × E)), Emb i1 i2 := by
  refine ⟨(WithLp.linearEquiv 2 ℝ (F × E)).symm.toLinearMap ∘ₗ LinearMap.inl ℝ F E,
    (WithLp.linearEquiv 2 ℝ (F × E)).symm.toLinearMap ∘ₗ LinearMap.inr ℝ F E, ?_, ?_, ?_⟩ <;>
  · intro x y
    simp [WithLp.prod_inner_apply]

end Verif.Solver.LsqrMath
