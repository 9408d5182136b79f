import Verif.Solver.LSMRExact

/-!
# Properties of LSMR in exact arithmetic: C51, and the rest of C40
-/

namespace Verif.Solver
open Scalar Vect
open scoped RealInnerProductSpace
open MinresMath (krylov krylov_mono)
open LsqrMath LsmrMath

variable {E F H : Type} [NormedAddCommGroup E] [InnerProductSpace ℝ E] [NormedAddCommGroup F] [InnerProductSpace ℝ F]
  [NormedAddCommGroup H] [InnerProductSpace ℝ H]

/-- A loop whose body may raise ends with the invariant, or raises what the body raised. -/
theorem exceptLoop_or {σ ε : Type} {cont : σ → Bool} {step : σ → Except ε σ} {μ : σ → Nat}
    {h : ∀ s t, cont s = true → step s = .ok t → cont t = true → μ t < μ s} (P : σ → Prop) (Q : ε → Prop)
    (hstep : ∀ s, P s → cont s = true → (∃ t, step s = .ok t ∧ P t) ∨ ∃ e, step s = .error e ∧ Q e) (s : σ) (hs : P s) :
    (∃ t, exceptLoop cont step μ h s = .ok t ∧ P t ∧ cont t = false) ∨ ∃ e, exceptLoop cont step μ h s = .error e ∧ Q e := by
  induction hm : (if cont s then μ s + 1 else 0) using Nat.strongRecOn generalizing s with
  | ind m ih =>
    rcases Bool.eq_false_or_eq_true (cont s) with hc | hc
    · rcases hstep s hs hc with ⟨t, ht, hP⟩ | ⟨e, he, hQ⟩
      · rw [exceptLoop_of_cont hc ht]
        refine ih _ ?_ t hP rfl
        rw [← hm, if_pos hc]
        split
        · rename_i h'
          have := h s t hc ht h'
          omega
        · omega
      · exact Or.inr ⟨e, exceptLoop_of_error hc he, hQ⟩
    · exact Or.inl ⟨s, exceptLoop_of_not hc, hs, hc⟩

/-! ### The rotations of LSQR are the first rotations of LSMR -/

/-- `z ↦ (A z, d z)` as a linear map -/
def AbL (A : E →ₗ[ℝ] F) (i1 : F →ₗ[ℝ] H) (i2 : E →ₗ[ℝ] H) (d : ℝ) : E →ₗ[ℝ] H := i1 ∘ₗ A + d • i2

theorem AbL_apply (A : E →ₗ[ℝ] F) (i1 : F →ₗ[ℝ] H) (i2 : E →ₗ[ℝ] H) (d : ℝ) (z : E) : AbL A i1 i2 d z = Abar A i1 i2 d z := rfl

section
variable {A : E →ₗ[ℝ] F} {B : F →ₗ[ℝ] E} {i1 : F →ₗ[ℝ] H} {i2 : E →ₗ[ℝ] H} {d : ℝ} {b : F} {k : ℕ} {x w v : E} {u : F}
  {α ρ φ res2 xx z c2 s2 : ℝ} {Us Us' : Submodule ℝ F} {Vs Vs' : Submodule ℝ E} {p g : H} {X : E}

/-- the vector of the first transformation -/
noncomputable def wvec (i1 : F →ₗ[ℝ] H) (i2 : E →ₗ[ℝ] H) (d ρ β : ℝ) (p : H) (v : E) (u' : F) : H :=
  (rho1 d ρ / rho d ρ β) • p1 i2 d ρ p v + (β / rho d ρ β) • i1 u'

/-- `m` is orthogonal to everything that comes later -/
structure MOrth (i1 : F →ₗ[ℝ] H) (i2 : E →ₗ[ℝ] H) (Us : Submodule ℝ F) (Vs' : Submodule ℝ E) (p g m : H) : Prop where
  mp : ⟪m, p⟫ = 0
  mg : ⟪m, g⟫ = 0
  mU : ∀ y, (∀ z ∈ Us, ⟪z, y⟫ = 0) → ⟪m, i1 y⟫ = 0
  mV : ∀ y, (∀ z ∈ Vs', ⟪z, y⟫ = 0) → ⟪m, i2 y⟫ = 0

/-- the next vectors: either the left vector is zero, or the process goes on -/
def NextUV (B : F →ₗ[ℝ] E) (Us : Submodule ℝ F) (v : E) (β α' : ℝ) (u' : F) (v' : E) : Prop :=
  (β = 0 ∧ u' = 0) ∨ (⟪u', u'⟫ = 1 ∧ (∀ z ∈ Us, ⟪z, u'⟫ = 0) ∧ α' • v' = B u' - β • v)

theorem inp_of_run (h : Run A B i1 i2 d b k x w v u α ρ φ res2 xx z c2 s2 Us Us' Vs Vs' p g X) (e : Emb i1 i2)
    (hAB : ∀ x y, ⟪A x, y⟫ = ⟪x, B y⟫) {m : H} (hm : MOrth i1 i2 Us Vs' p g m) {β α' : ℝ} {u' : F} {v' : E}
    (hu : β • u' = A v - α • u) (h2 : NextUV B Us v β α' u' v') :
    Inp (AbL A i1 i2 d) w v m (φ • p + g) (wvec i1 i2 d ρ β p v u')
      ((β / rho d ρ β * (ρ / rho1 d ρ * φ)) • p2 i1 i2 d ρ β p v u' + g1 i2 d ρ φ p g v) v' (rho d ρ β) (β / rho d ρ β * α')
      (rho1 d ρ / rho d ρ β * (ρ / rho1 d ρ * φ)) := by
  have h0 := rho1_pos (d := d) h.ρ0
  have h0' := rho_pos (d := d) β h.ρ0
  have hsq := rho_sq d ρ β
  have huo : ∀ z ∈ Us, ⟪z, u'⟫ = 0 := by
    rcases h2 with ⟨-, rfl⟩ | ⟨-, h2, -⟩
    · intro z _; exact inner_zero_right _
    · exact h2
  have a1 : ⟪p1 i2 d ρ p v, i1 u'⟫ = 0 := by
    unfold p1
    rw [inner_add_left, inner_smul_left, inner_smul_left, h.pU u' huo, real_inner_comm, e.e12]; simp
  have a1' : ⟪i1 u', p1 i2 d ρ p v⟫ = 0 := by rw [real_inner_comm, a1]
  have a2 : ⟪g1 i2 d ρ φ p g v, i1 u'⟫ = 0 := by
    unfold g1 q1
    rw [inner_add_left, inner_smul_left, inner_sub_left, inner_smul_left, inner_smul_left, h.pU u' huo, h.gU u' huo,
      real_inner_comm, e.e12]; simp
  have a2' : ⟪i1 u', g1 i2 d ρ φ p g v⟫ = 0 := by rw [real_inner_comm, a2]
  have b1 : ⟪m, i2 v⟫ = 0 := hm.mV v h.gk.vorth
  have b2 : ⟪m, p1 i2 d ρ p v⟫ = 0 := by
    unfold p1
    rw [inner_add_right, inner_smul_right, inner_smul_right, hm.mp, b1]; simp
  have b3 : ⟪m, g1 i2 d ρ φ p g v⟫ = 0 := by
    unfold g1 q1
    rw [inner_add_right, inner_smul_right, inner_sub_right, inner_smul_right, inner_smul_right, hm.mp, hm.mg, b1]; simp
  have b4 : ⟪m, i1 u'⟫ = 0 := hm.mU u' huo
  have c1 : ⟪wvec i1 i2 d ρ β p v u', wvec i1 i2 d ρ β p v u'⟫ = 1 := by
    unfold wvec
    simp only [inner_add_left, inner_add_right, inner_smul_left, inner_smul_right, a1, a1', h.p1p1 e, e.e1, conj_trivial]
    rcases h2 with ⟨rfl, rfl⟩ | ⟨h2, -, -⟩
    · have := h.rot2 0
      rw [zero_div, mul_zero, add_zero] at this
      rw [inner_zero_left, zero_div]
      linarith
    · rw [h2]; linarith [h.rot2 β]
  have c2 : (β / rho d ρ β * (ρ / rho1 d ρ * φ)) * ⟪wvec i1 i2 d ρ β p v u', p2 i1 i2 d ρ β p v u'⟫ = 0 := by
    rcases h2 with ⟨rfl, rfl⟩ | ⟨h2, -, -⟩
    · simp
    · unfold wvec p2
      simp only [inner_add_left, inner_sub_right, inner_smul_left, inner_smul_right, a1, a1', h.p1p1 e, e.e1, h2, conj_trivial]
      ring
  refine ⟨h0', h.Aw hu, fun y => ?_, c1, ?_, ?_, ?_, ?_⟩
  · have e1 : β * ⟪i1 u', Abar A i1 i2 d y⟫ = β * (α' * ⟪v', y⟫ + β * ⟪v, y⟫) := by
      rcases h2 with ⟨rfl, rfl⟩ | ⟨-, -, hv⟩
      · simp
      · have e2 : B u' = α' • v' + β • v := by rw [hv]; abel
        unfold Abar
        rw [inner_add_right, inner_smul_right, e.e1, e.e12, real_inner_comm, hAB, e2, inner_add_right, inner_smul_right,
          inner_smul_right, real_inner_comm y v', real_inner_comm y v]; ring
    rw [AbL_apply]
    unfold wvec
    rw [inner_add_left, inner_smul_left, inner_smul_left, h.p1A e]
    simp only [conj_trivial]
    field_simp
    linear_combination e1 - ⟪v, y⟫ * hsq
  · have e2 : φ • p = (ρ / rho1 d ρ * φ) • p1 i2 d ρ p v + (d / rho1 d ρ * φ) • q1 i2 d ρ p v := by
      unfold p1 q1
      have e3 : φ • p = (φ * (ρ / rho1 d ρ * (ρ / rho1 d ρ) + d / rho1 d ρ * (d / rho1 d ρ))) • p := by rw [h.rot1, mul_one]
      rw [e3]; module
    have e4 : (ρ / rho1 d ρ * φ) • p1 i2 d ρ p v =
        (ρ / rho1 d ρ * φ * (rho1 d ρ / rho d ρ β * (rho1 d ρ / rho d ρ β) + β / rho d ρ β * (β / rho d ρ β))) • p1 i2 d ρ p v := by
      rw [h.rot2 β, mul_one]
    rw [e2, e4]
    unfold p2 g1 wvec
    module
  · rw [inner_add_right, inner_smul_right, c2, zero_add]
    unfold wvec
    rw [inner_add_left, inner_smul_left, inner_smul_left, h.p1g1 e, a2']; simp
  · unfold wvec
    rw [inner_add_right, inner_smul_right, inner_smul_right, b2, b4]; simp
  · unfold p2
    rw [inner_add_right, inner_smul_right, inner_sub_right, inner_smul_right, inner_smul_right, b2, b4, b3]; simp

/-- the new `m` is orthogonal to everything that comes later -/
theorem MOrth.next (h : Run A B i1 i2 d b k x w v u α ρ φ res2 xx z c2 s2 Us Us' Vs Vs' p g X) (e : Emb i1 i2)
    {m : H} (hm : MOrth i1 i2 Us Vs' p g m) {β : ℝ} {u' : F} (hu1 : ⟪u', u'⟫ = 1) (huo : ∀ z ∈ Us, ⟪z, u'⟫ = 0) (rd sb : ℝ) :
    MOrth i1 i2 (Us ⊔ Submodule.span ℝ {u'}) Vs (p2 i1 i2 d ρ β p v u') (g1 i2 d ρ φ p g v)
      (MR.mn rd sb (rho d ρ β) m (wvec i1 i2 d ρ β p v u')) := by
  have a1 : ⟪p1 i2 d ρ p v, i1 u'⟫ = 0 := by
    unfold p1
    rw [inner_add_left, inner_smul_left, inner_smul_left, h.pU u' huo, real_inner_comm, e.e12]; simp
  have a1' : ⟪i1 u', p1 i2 d ρ p v⟫ = 0 := by rw [real_inner_comm, a1]
  have a2 : ⟪g1 i2 d ρ φ p g v, i1 u'⟫ = 0 := by
    unfold g1 q1
    rw [inner_add_left, inner_smul_left, inner_sub_left, inner_smul_left, inner_smul_left, h.pU u' huo, h.gU u' huo,
      real_inner_comm, e.e12]; simp
  have a2' : ⟪i1 u', g1 i2 d ρ φ p g v⟫ = 0 := by rw [real_inner_comm, a2]
  have b1 : ⟪m, i2 v⟫ = 0 := hm.mV v h.gk.vorth
  have b2 : ⟪m, p1 i2 d ρ p v⟫ = 0 := by
    unfold p1
    rw [inner_add_right, inner_smul_right, inner_smul_right, hm.mp, b1]; simp
  have b3 : ⟪m, g1 i2 d ρ φ p g v⟫ = 0 := by
    unfold g1 q1
    rw [inner_add_right, inner_smul_right, inner_sub_right, inner_smul_right, inner_smul_right, hm.mp, hm.mg, b1]; simp
  have b4 : ⟪m, i1 u'⟫ = 0 := hm.mU u' huo
  refine ⟨?_, ?_, fun y hy => ?_, fun y hy => ?_⟩
  · unfold MR.mn wvec p2
    simp only [inner_add_left, inner_sub_right, inner_smul_left, inner_smul_right, a1, a1', b2, b4, h.p1p1 e, e.e1, hu1,
      conj_trivial]
    ring
  · unfold MR.mn wvec
    simp only [inner_add_left, inner_smul_left, b3, h.p1g1 e, a2', conj_trivial]
    ring
  · have hy1 : ∀ z ∈ Us, ⟪z, y⟫ = 0 := fun z hz => hy z (Submodule.mem_sup_left hz)
    have hy2 : ⟪u', y⟫ = 0 := hy u' (Submodule.mem_sup_right (Submodule.mem_span_singleton_self _))
    unfold MR.mn wvec p1
    simp only [inner_add_left, inner_smul_left, hm.mU y hy1, h.pU y hy1, e.e1, hy2, real_inner_comm (i1 y) (i2 v), e.e12,
      conj_trivial]
    ring
  · have hy1 : ∀ z ∈ Vs', ⟪z, y⟫ = 0 := fun z hz => hy z (h.gk.leV hz)
    have hy2 : ⟪v, y⟫ = 0 := hy v h.gk.vVs
    unfold MR.mn wvec p1
    simp only [inner_add_left, inner_smul_left, hm.mV y hy1, h.pV y hy1, e.e2, hy2, e.e12, conj_trivial]
    ring

/-- the squared norm of the part of the residual outside the image of the search space -/
theorem gnorm (h : Run A B i1 i2 d b k x w v u α ρ φ res2 xx z c2 s2 Us Us' Vs Vs' p g X) (e : Emb i1 i2) {β α' : ℝ} {u' : F} {v' : E}
    (h2 : NextUV B Us v β α' u' v') :
    ⟪(β / rho d ρ β * (ρ / rho1 d ρ * φ)) • p2 i1 i2 d ρ β p v u' + g1 i2 d ρ φ p g v,
      (β / rho d ρ β * (ρ / rho1 d ρ * φ)) • p2 i1 i2 d ρ β p v u' + g1 i2 d ρ φ p g v⟫ =
    res2 + d / rho1 d ρ * φ * (d / rho1 d ρ * φ) + β / rho d ρ β * (ρ / rho1 d ρ * φ) * (β / rho d ρ β * (ρ / rho1 d ρ * φ)) := by
  rcases h2 with ⟨rfl, rfl⟩ | ⟨hu1, huo, -⟩
  · rw [zero_div, zero_mul, zero_smul, zero_add, h.g1g1 e, mul_zero, add_zero]
  · obtain ⟨h1, h2⟩ := h.rr e β hu1 huo
    rw [inner_add_left, inner_add_right, inner_add_right]
    simp only [inner_smul_left, inner_smul_right, h1, h2, real_inner_comm (p2 i1 i2 d ρ β p v u') (g1 i2 d ρ φ p g v),
      h.g1g1 e, conj_trivial]
    ring

/-- images of orthogonal vectors -/
theorem hTV_of_run (h : Run A B i1 i2 d b k x w v u α ρ φ res2 xx z c2 s2 Us Us' Vs Vs' p g X) (e : Emb i1 i2)
    (hAB : ∀ x y, ⟪A x, y⟫ = ⟪x, B y⟫) :
    ∀ z ∈ Vs', ∀ x, (∀ y ∈ Vs, ⟪x, y⟫ = 0) → ⟪AbL A i1 i2 d x, AbL A i1 i2 d z⟫ = 0 := by
  intro z hz x hx
  rw [AbL_apply, AbL_apply]
  unfold Abar
  rw [inner_add_left, inner_add_right, inner_add_right]
  simp only [inner_smul_left, inner_smul_right, e.e1, e.e2, e.e12, real_inner_comm (i1 (A z)) (i2 x), conj_trivial]
  rw [hAB, hx _ (h.gk.BUs _ (h.gk.AVs' z hz)), hx z (h.gk.leV hz)]
  ring

end

/-! ### Loop invariant -/

/-- `x` is in the `i`-th Krylov space of `A'A` and `A'b` and minimizes the residual of the normal equations over it -/
def LsmrProblem.Best (q : LsmrProblem E F) (i : ℕ) (x : E) : Prop :=
  x ∈ krylov (q.B ∘ₗ q.A) (q.B q.b) i ∧ ∀ y ∈ krylov (q.B ∘ₗ q.A) (q.B q.b) i, q.normal x ≤ q.normal y

/-- the lists describe the iterates `xs` -/
structure LmHist (q : LsmrProblem E F) (ν : E → ℝ) (s : LsmrLoop Fl (Vec F) (Vec E)) (xs : List E) : Prop where
  itn : s.itn = xs.length
  x : s.x = .fin (xs.getLastD 0)
  iterates : s.iterates = if q.storeIterates then (0 :: xs).map Vec.fin else []
  resids : s.resids = if q.storeResids then (0 :: xs).map (fun x => Fl.fin (q.resid x)) else []
  normalEqns : s.normalEqns = if q.storeResids then (0 :: xs).map (fun x => Fl.fin (q.normal x)) else []
  normr : s.normr = .fin (q.resid (xs.getLastD 0))
  normar : s.normar = .fin (q.normal (xs.getLastD 0))
  normx : s.normx = .fin (ν (xs.getLastD 0))
  best : ∀ i (h : i < xs.length), q.Best (i+1) xs[i]
  nz : ∀ x ∈ xs, q.resid x ≠ 0
  done : q.atol = 0 → q.btol = 0 → q.etol ≤ 0 → q.conlim ≤ 0 → s.istop = 0 ∨ s.istop = 7 ∨ q.normal (xs.getLastD 0) = 0

/-- the process has not ended after `k` iterations -/
def LmGood (q : LsmrProblem E F) (i1 : F →ₗ[ℝ] H) (i2 : E →ₗ[ℝ] H) (s : LsmrLoop Fl (Vec F) (Vec E)) (k : ℕ) : Prop :=
  ∃ x h hb v u α σ ρ φ res2 cb sb ζb rd δ ρl ρbl a2 mx mi, LmRel s x h hb v u α σ ρ φ res2 cb sb ζb rd δ ρl ρbl a2 mx mi ∧
  ∃ xr xx z c2 s2 Us Us' Vs Vs' p g X, Run q.A q.B i1 i2 q.damp q.b k xr h v u α ρ φ res2 xx z c2 s2 Us Us' Vs Vs' p g X ∧
  ∃ P qv m W, MR (AbL q.A i1 i2 q.damp) (i1 q.b) Vs Vs' x hb P qv h v m W (φ • p + g) cb sb ζb rd δ ρl ρbl ∧
    MOrth i1 i2 Us Vs' p g m ∧ h - v ∈ Vs'

/-- the loop invariant -/
def LmInv (q : LsmrProblem E F) (ν : E → ℝ) (i1 : F →ₗ[ℝ] H) (i2 : E →ₗ[ℝ] H) (s : LsmrLoop Fl (Vec F) (Vec E)) : Prop :=
  ∃ xs, LmHist q ν s xs ∧ (LmGood q i1 i2 s xs.length ∨ s.istop = 1 ∨ s.istop = 2)

theorem LsmrProblem.normal_eq (q : LsmrProblem E F) (x : E) : q.normal x = ‖Run.nres q.A q.B q.damp q.b x‖ := rfl

/-- orthogonality gives minimality of the residual of the normal equations -/
theorem LsmrProblem.best_of (q : LsmrProblem E F) (hq : q.Valid) {i1 : F →ₗ[ℝ] H} {i2 : E →ₗ[ℝ] H} (e : Emb i1 i2) {i : ℕ} {x : E}
    (hx : x ∈ krylov (q.B ∘ₗ q.A) (q.B q.b) i)
    (h : ∀ y ∈ krylov (q.B ∘ₗ q.A) (q.B q.b) i,
      ⟪AbL q.A i1 i2 q.damp (Run.nres q.A q.B q.damp q.b x), AbL q.A i1 i2 q.damp y⟫ = 0) : q.Best i x := by
  refine ⟨hx, fun y hy => ?_⟩
  rw [q.normal_eq, q.normal_eq]
  set T : E → E := fun z => q.B (q.A z) + (q.damp * q.damp) • z with hT
  have e1 : Run.nres q.A q.B q.damp q.b y = Run.nres q.A q.B q.damp q.b x + T (x - y) := by
    simp only [Run.nres, hT, map_sub, smul_sub]; abel
  have e2 : ⟪Run.nres q.A q.B q.damp q.b x, T (x - y)⟫ = 0 := by
    have h1 := h (x - y) (Submodule.sub_mem _ hx hy)
    rw [AbL_apply, AbL_apply] at h1
    unfold Abar at h1
    rw [inner_add_left, inner_add_right, inner_add_right] at h1
    simp only [inner_smul_left, inner_smul_right, e.e1, e.e2, e.e12,
      real_inner_comm (i1 (q.A (x - y))) (i2 (Run.nres q.A q.B q.damp q.b x)), conj_trivial] at h1
    rw [hq.adj] at h1
    rw [hT]
    simp only
    rw [inner_add_right, inner_smul_right]
    linarith
  have e3 : ‖Run.nres q.A q.B q.damp q.b y‖ ^ 2 = ‖Run.nres q.A q.B q.damp q.b x‖ ^ 2 + ‖T (x - y)‖ ^ 2 := by
    rw [e1, norm_add_sq_real, e2]; ring
  have := norm_nonneg (Run.nres q.A q.B q.damp q.b y)
  have := norm_nonneg (Run.nres q.A q.B q.damp q.b x)
  nlinarith [sq_nonneg ‖T (x - y)‖]

/-- the history grows by the new iterate -/
theorem LmHist.step {q : LsmrProblem E F} {ν : E → ℝ} {s t : LsmrLoop Fl (Vec F) (Vec E)} {xs : List E} (hh : LmHist q ν s xs)
    (he : LsmrStepHist q.kw s t) {x : E} (hx : t.x = .fin x) (h1 : t.normr = .fin (q.resid x))
    (h2 : t.normar = .fin (q.normal x)) (h3 : t.normx = .fin (ν x)) (hb : q.Best (xs.length + 1) x) (hz : q.resid x ≠ 0)
    (hd : q.atol = 0 → q.btol = 0 → q.etol ≤ 0 → q.conlim ≤ 0 → t.istop = 0 ∨ t.istop = 7 ∨ q.normal x = 0) :
    LmHist q ν t (xs ++ [x]) := by
  have hl : (xs ++ [x]).getLastD 0 = x := List.getLastD_concat ..
  refine ⟨?_, ?_, ?_, ?_, ?_, ?_, ?_, ?_, ?_, ?_, ?_⟩
  · rw [he.itn, hh.itn]; simp
  · rw [hl, hx]
  · rw [he.iterates, hh.iterates]
    have : q.kw.storeIterates = q.storeIterates := rfl
    rw [this]
    split <;> simp [hx]
  · rw [he.resids, hh.resids]
    have : q.kw.storeResids = q.storeResids := rfl
    rw [this]
    split <;> simp [h1]
  · rw [he.normalEqns, hh.normalEqns]
    have : q.kw.storeResids = q.storeResids := rfl
    rw [this]
    split <;> simp [h2]
  · rw [hl, h1]
  · rw [hl, h2]
  · rw [hl, h3]
  · intro i hi
    rcases Nat.lt_or_ge i xs.length with h | h
    · rw [List.getElem_append_left h]; exact hh.best i h
    · have hi' : i = xs.length := by simp at hi; omega
      subst hi'
      simpa using hb
  · intro y hy
    rcases List.mem_append.1 hy with h | h
    · exact hh.nz y h
    · rw [List.mem_singleton.1 h]; exact hz
  · rw [hl]; exact hd

/-- what a `ZeroDivisionError` means: the residual of the next iterate is zero -/
def LmRaise (q : LsmrProblem E F) (lim : ℤ) (e : PyError) : Prop :=
  e = .zeroDivision ∧ ∃ (k : ℕ) (x : E), 1 ≤ k ∧ (k : ℤ) ≤ lim ∧ q.Best k x ∧ q.resid x = 0

/-- a step from a state in which the process has not ended -/
theorem LmGood.next {q : LsmrProblem E F} (hq : q.Valid) {nrm : Vec E → Fl} {ν : E → ℝ} (hν : NormOf nrm ν) {i1 : F →ₗ[ℝ] H} {i2 : E →ₗ[ℝ] H} (e : Emb i1 i2) (lim : ℤ) {bn : ℝ}
    (hbn : 0 < bn) {s : LsmrLoop Fl (Vec F) (Vec E)} {xs : List E} (hh : LmHist q ν s xs) (hg : LmGood q i1 i2 s xs.length)
    (hlim : (s.itn : ℤ) < lim) :
    (∃ t, lsmrStepN nrm (Vec.op q.A) (Vec.op q.B) q.kw lim (.fin bn) s = .ok t ∧ LmInv q ν i1 i2 t) ∨
    ∃ er, lsmrStepN nrm (Vec.op q.A) (Vec.op q.B) q.kw lim (.fin bn) s = .error er ∧ LmRaise q lim er := by
  obtain ⟨x, h, hb, v, u, α, σ, ρ, φ, res2, cb, sb, ζb, rd, δ, ρl, ρbl, a2, mx, mi, hr, xr, xx, z, c2, s2, Us, Us', Vs, Vs', p, g, X,
    hrun, P, qv, m, W, hmr, hmo, hhv⟩ := hg
  have hkV : krylov (q.B ∘ₗ q.A) (q.B q.b) (xs.length + 1) = Vs := hrun.gk.kryVs.symm
  -- the next vectors
  obtain ⟨β, α', u', v', p', hu, hnext, hbi, hα', hgo⟩ : ∃ (β α' : ℝ) (u' : F) (v' : E) (p' : ℕ), β • u' = q.A v - α • u ∧
      NextUV q.B Us v β α' u' v' ∧
      lsmrBidiag (Vec.op q.A) (Vec.op q.B) q.kw s = .ok (.fin u', some (.fin v'), .fin v', .fin α', .fin β, p') ∧ 0 ≤ α' ∧
      (β / rho q.damp ρ β * α' ≠ 0 → β ≠ 0 ∧ 0 < α' ∧ ⟪u', u'⟫ = 1 ∧ (∀ z ∈ Us, ⟪z, u'⟫ = 0) ∧ α' • v' = q.B u' - β • v ∧
        ⟪v', v'⟫ = 1 ∧ ∀ z ∈ Vs, ⟪v', z⟫ = 0) := by
    by_cases h0 : q.A v - α • u = 0
    · exact ⟨0, α, 0, v, _, by rw [h0, zero_smul], Or.inl ⟨rfl, rfl⟩, lsmrBidiag_zero q hr.Mu hr.Nv hr.v hr.alpha h0,
        hrun.gk.αpos.le, fun h => absurd (by rw [zero_div, zero_mul]) h⟩
    · obtain ⟨β, α', u', v', hβ, hu, hu1, hv, hα', hv1, hv0, hbi⟩ := lsmrBidiag_ne q hr.Mu hr.Nv hr.v hr.alpha h0
      have huo : ∀ z ∈ Us, ⟪z, u'⟫ = 0 := by
        intro z hz
        have h1 := hrun.gk.q_orth hq.adj z hz
        rw [← hu, inner_smul_right] at h1
        exact (mul_eq_zero.1 h1).resolve_left hβ.ne'
      refine ⟨β, α', u', v', _, hu, Or.inr ⟨hu1, huo, hv⟩, hbi, hα', fun h => ?_⟩
      have hα0 : α' ≠ 0 := fun h' => h (by rw [h', mul_zero])
      refine ⟨hβ.ne', lt_of_le_of_ne hα' (Ne.symm hα0), hu1, huo, hv, hv1 hα0, fun z hz => ?_⟩
      have := hrun.gk.p_orth hq.adj hu hu1 huo z hz
      rw [← hv, inner_smul_right] at this
      rw [real_inner_comm]
      exact (mul_eq_zero.1 this).resolve_left hα0
  have hinp := inp_of_run hrun e hq.adj hmo hu hnext
  have hstep := lsmrStepN_exact q hq hν lim hbn hr hrun.ρ0 hmr.c0 hmr.rd0 hmr.ρl0 hmr.ρbl0 hbi rfl rfl rfl rfl rfl rfl rfl rfl
  set rr := rho q.damp ρ β with hrr
  set θ := β / rr * α' with hθ
  set βh := rho1 q.damp ρ / rr * (ρ / rho1 q.damp ρ * φ) with hβh
  set hb' := MR.hbn ρl ρbl sb rr h hb with hhb'
  set x' := MR.yn cb ζb rr θ x hb' with hx'
  set δ' := MR.δn cb sb ζb rd δ rr θ βh with hδ'
  -- the residual
  have hres : ‖q.b - q.A x'‖ ^ 2 + q.damp ^ 2 * ‖x'‖ ^ 2 = res2 + q.damp / rho1 q.damp ρ * φ * (q.damp / rho1 q.damp ρ * φ) + δ' * δ' +
      β / rr * (ρ / rho1 q.damp ρ * φ) * (β / rr * (ρ / rho1 q.damp ρ * φ)) := by
    have h1 := hmr.rr hinp
    rw [gnorm hrun e hnext] at h1
    rw [← Run.inner_resid (A := q.A) (b := q.b) (d := q.damp) e]
    refine Eq.trans h1 ?_
    ring
  -- the residual of the normal equations
  have hnr : Run.nres q.A q.B q.damp q.b x' = (-(θ / hyp (cb * rr) θ) * ζb) • MR.Pn cb rr θ P v' := by
    refine ext_inner_right ℝ fun y => ?_
    rw [Run.inner_nres e hq.adj, inner_smul_left]
    exact hmr.nresn hinp y
  have hnorm : q.normal x' = |-(θ / hyp (cb * rr) θ) * ζb| := by
    rw [q.normal_eq, hnr, norm_smul, Real.norm_eq_abs]
    by_cases h0 : θ = 0
    · rw [h0]; simp
    · obtain ⟨-, -, -, -, -, hv1, hvo⟩ := hgo h0
      have hPv : ⟪P, v'⟫ = 0 := by rw [real_inner_comm]; exact hvo P hmr.PV
      rw [norm_eq_sqrt_real_inner, hmr.PnPn hinp hPv hv1, Real.sqrt_one, mul_one]
  have hxV : x' ∈ krylov (q.B ∘ₗ q.A) (q.B q.b) (xs.length + 1) := by
    rw [hkV]; exact hmr.ynV hinp hrun.gk.leV hrun.wV
  have hbest : q.Best (xs.length + 1) x' := by
    refine q.best_of hq e hxV fun y hy => ?_
    rw [hkV] at hy
    rw [hnr, map_smul, inner_smul_left]
    by_cases h0 : θ = 0
    · rw [h0]; simp
    · obtain ⟨-, -, -, -, -, hv1, hvo⟩ := hgo h0
      rw [hmr.minn hinp hrun.gk.Vseq hvo hv1 (hTV_of_run hrun e hq.adj) hrun.wV hhv y hy, mul_zero]
  have hresid : q.resid x' = Real.sqrt (res2 + q.damp / rho1 q.damp ρ * φ * (q.damp / rho1 q.damp ρ * φ) + δ' * δ' +
      β / rr * (ρ / rho1 q.damp ρ * φ) * (β / rr * (ρ / rho1 q.damp ρ * φ))) := by
    rw [← hres]; rfl
  by_cases hR : res2 + q.damp / rho1 q.damp ρ * φ * (q.damp / rho1 q.damp ρ * φ) + δ' * δ' +
      β / rr * (ρ / rho1 q.damp ρ * φ) * (β / rr * (ρ / rho1 q.damp ρ * φ)) = 0
  · refine Or.inr ⟨_, hstep.1 hR, rfl, xs.length + 1, x', by omega, ?_, hbest, ?_⟩
    · have := hh.itn
      push_cast; omega
    · rw [hresid, hR, Real.sqrt_zero]
  · obtain ⟨t, a2', mx', mi', hst, hrel, hn1, hn2, hn3, hc12, hdn⟩ := hstep.2 hR
    refine Or.inl ⟨t, hst, xs ++ [x'], hh.step (lsmrStepN_hist hst) hrel.x (by rw [hn1, hresid]) (by rw [hn2, hnorm]) hn3 hbest ?_ ?_, ?_⟩
    · rw [hresid]
      intro h
      have hnn : 0 ≤ res2 + q.damp / rho1 q.damp ρ * φ * (q.damp / rho1 q.damp ρ * φ) + δ' * δ' +
          β / rr * (ρ / rho1 q.damp ρ * φ) * (β / rr * (ρ / rho1 q.damp ρ * φ)) := by rw [← hres]; positivity
      exact hR ((Real.sqrt_eq_zero hnn).1 h)
    · rw [hnorm]; exact hdn
    · by_cases h0 : θ = 0
      · refine Or.inr (hc12 ?_)
        rw [h0]; simp
      · obtain ⟨hβ, hα0, hu1, huo, hv, hv1, hvo⟩ := hgo h0
        refine Or.inl ?_
        have hlen : (xs ++ [x']).length = xs.length + 1 := by simp
        rw [hlen]
        refine ⟨_, _, _, _, _, _, _, _, _, _, _, _, _, _, _, _, _, _, _, _, hrel, _, _, _, _, _, _, _, _, _, _, _, _,
          hrun.step e hq.adj hu hβ hu1 hv hα0 hv1 rfl rfl rfl, _, _, _, _,
          hmr.step hinp hrun.gk.Vseq hvo hv1 (hTV_of_run hrun e hq.adj) hrun.wV hhv, hmo.next hrun e hu1 huo rd sb, ?_⟩
        rw [add_sub_cancel_right]
        exact Submodule.smul_mem _ _ hrun.wV

theorem LmInv.next {q : LsmrProblem E F} (hq : q.Valid) {nrm : Vec E → Fl} {ν : E → ℝ} (hν : NormOf nrm ν) {i1 : F →ₗ[ℝ] H} {i2 : E →ₗ[ℝ] H} (e : Emb i1 i2) (lim : ℤ) {bn : ℝ}
    (hbn : 0 < bn) (s : LsmrLoop Fl (Vec F) (Vec E)) (h : LmInv q ν i1 i2 s) (hc : lsmrCont lim s = true) :
    (∃ t, lsmrStepN nrm (Vec.op q.A) (Vec.op q.B) q.kw lim (.fin bn) s = .ok t ∧ LmInv q ν i1 i2 t) ∨
    ∃ er, lsmrStepN nrm (Vec.op q.A) (Vec.op q.B) q.kw lim (.fin bn) s = .error er ∧ LmRaise q lim er := by
  simp only [lsmrCont, Bool.and_eq_true, decide_eq_true_eq] at hc
  obtain ⟨xs, hh, hg | hg⟩ := h
  · exact hg.next hq hν e lim hbn hh hc.2
  · omega

/-- the variables before the loop -/
theorem lsmrInit_exact {q : LsmrProblem E F} (hq : q.Valid) {ν : E → ℝ} (hν : ν 0 = 0) {i1 : F →ₗ[ℝ] H} {i2 : E →ₗ[ℝ] H} (e : Emb i1 i2) :
    ∃ s, lsmrInit (Vec.op q.B) q.kw (.fin q.b) = .ok s ∧ s.beta = .fin ‖q.b‖ ∧ s.itn = 0 ∧ s.istop = 0 ∧ s.x = .fin 0 ∧
      s.normr = .fin ‖q.b‖ ∧ s.normar = .fin ‖q.B q.b‖ ∧ s.normx = .fin 0 ∧
      s.iterates = (if q.storeIterates then [.fin 0] else []) ∧
      (q.B q.b ≠ 0 → 0 < ‖q.b‖ ∧ LmInv q ν i1 i2 (lsmrFirst q.kw s)) := by
  have hM : ∀ z : Vec F, applyPrecon q.kw.M z = z := fun _ => rfl
  have hN : ∀ z : Vec E, applyPrecon q.kw.N z = z := fun _ => rfl
  have e1 : pysqrt (dot (Vec.fin q.b) (Vec.fin q.b)) = .ok (.fin ‖q.b‖) := by
    rw [Vec.fin_dot, pysqrt_fin real_inner_self_nonneg, real_inner_self_eq_norm_sq, Real.sqrt_sq (norm_nonneg _)]
  have hres : q.resid 0 = ‖q.b‖ := by unfold LsmrProblem.resid; simp
  have hnor : q.normal 0 = ‖q.B q.b‖ := by unfold LsmrProblem.normal; simp
  have hk1 : q.kw.storeIterates = q.storeIterates := rfl
  have hk2 : q.kw.storeResids = q.storeResids := rfl
  have hz : (lit 0 : Fl) = .fin 0 := by simp
  unfold lsmrInit
  simp only [hM, hN, e1, ok_bind]
  by_cases hb : q.b = 0
  · rw [if_neg (by rw [gt_fin_zero, hb, norm_zero]; exact lt_irrefl _)]
    refine ⟨_, rfl, rfl, rfl, rfl, rfl, rfl, ?_, by simp [lsmrStart], rfl, fun h => absurd (by rw [hb, map_zero]) h⟩
    simp [lsmrStart, hb]
  · have hβ : 0 < ‖q.b‖ := norm_pos_iff.2 hb
    rw [if_pos ((gt_fin_zero _).2 hβ)]
    simp only [Vec.fin_vdiv _ hβ.ne', Vec.op_fin]
    set u := ‖q.b‖⁻¹ • q.b with hu
    have e2 : pysqrt (dot (Vec.fin (q.B u)) (Vec.fin (q.B u))) = .ok (.fin ‖q.B u‖) := by
      rw [Vec.fin_dot, pysqrt_fin real_inner_self_nonneg, real_inner_self_eq_norm_sq, Real.sqrt_sq (norm_nonneg _)]
    have hBu : q.B u = ‖q.b‖⁻¹ • q.B q.b := by rw [hu, map_smul]
    have hαβ : ‖q.B u‖ * ‖q.b‖ = ‖q.B q.b‖ := by
      rw [hBu, norm_smul, norm_inv, norm_norm]; field_simp
    simp only [e2, ok_bind]
    by_cases hB : q.B q.b = 0
    · have hBu0 : q.B u = 0 := by rw [hBu, hB, smul_zero]
      rw [if_neg (by rw [gt_fin_zero, hBu0, norm_zero]; exact lt_irrefl _)]
      refine ⟨_, rfl, rfl, rfl, rfl, rfl, rfl, ?_, by simp [lsmrStart], rfl, fun h => absurd hB h⟩
      simp [lsmrStart, hαβ]
    · have hBu0 : q.B u ≠ 0 := by rw [hBu]; exact smul_ne_zero (inv_ne_zero hβ.ne') hB
      have hα : 0 < ‖q.B u‖ := norm_pos_iff.2 hBu0
      rw [if_pos ((gt_fin_zero _).2 hα)]
      simp only [Vec.fin_vdiv _ hα.ne']
      have hu1 : ⟪u, u⟫ = 1 := by
        rw [hu, inner_smul_left, inner_smul_right, real_inner_self_eq_norm_mul_norm]; simp only [conj_trivial]; field_simp
      have hub : ‖q.b‖ • u = q.b := by rw [hu, smul_smul, mul_inv_cancel₀ hβ.ne', one_smul]
      set v := ‖q.B u‖⁻¹ • q.B u with hv
      have hv1 : ⟪v, v⟫ = 1 := by
        rw [hv, inner_smul_left, inner_smul_right, real_inner_self_eq_norm_mul_norm]; simp only [conj_trivial]; field_simp
      have hvα : ‖q.B u‖ • v = q.B u := by rw [hv, smul_smul, mul_inv_cancel₀ hα.ne', one_smul]
      have hBb : q.B q.b = (‖q.B u‖ * ‖q.b‖) • v := by
        rw [mul_comm, mul_smul, hvα, ← map_smul, hub]
      have hrun := Run.start (A := q.A) (B := q.B) (d := q.damp) (b := q.b) (u := u) (v := v) (α := ‖q.B u‖) e hq.adj
        (β := ‖q.b‖) hub hu1 hvα hα hv1 hβ.ne'
      have hmr := MR.start (Ab := AbL q.A i1 i2 q.damp) (bb := i1 q.b) (ζ := ‖q.B u‖ * ‖q.b‖) hv1 (fun z => by
        rw [AbL_apply]
        unfold Abar
        rw [inner_add_right, inner_smul_right, e.e1, e.e12, real_inner_comm, hq.adj, hBb, inner_smul_right, real_inner_comm]
        ring)
      refine ⟨_, rfl, rfl, rfl, rfl, rfl, rfl, ?_, by simp [lsmrStart], rfl, fun _ => ⟨hβ, [], ⟨?_, ?_, ?_, ?_, ?_, ?_, ?_, ?_, ?_, ?_, ?_⟩, Or.inl ?_⟩⟩
      · simp [lsmrStart, hαβ]
      · unfold lsmrFirst; split <;> rfl
      · unfold lsmrFirst; split <;> rfl
      · unfold lsmrFirst; split <;> simp [lsmrStart, hk1]
      · unfold lsmrFirst; rw [hk2]; split <;> simp [lsmrStart, hres]
      · unfold lsmrFirst; rw [hk2]; split <;> simp [lsmrStart, hnor, hαβ]
      · unfold lsmrFirst; split <;> simp [lsmrStart, hres]
      · unfold lsmrFirst; split <;> simp [lsmrStart, hnor, hαβ]
      · unfold lsmrFirst; split <;> simp [lsmrStart, hν]
      · simp
      · simp
      · intro _ _ _ _; left; unfold lsmrFirst; split <;> rfl
      · refine ⟨0, v, 0, v, u, ‖q.B u‖, 1, ‖q.B u‖, ‖q.b‖, 0, 1, 0, ‖q.B u‖ * ‖q.b‖, 1, 0, 1, 1, ‖q.B u‖ * ‖q.B u‖, 0, 10 ^ 100, ?_,
          _, _, _, _, _, _, _, _, _, _, _, _, hrun, v, 0, 0, 0, ?_, ⟨by simp, by simp, by simp, by simp⟩, by simp⟩
        · have hs : ∀ (P : LsmrLoop Fl (Vec F) (Vec E) → Prop) (s : LsmrLoop Fl (Vec F) (Vec E)),
              P s → (P { s with resids := [s.normr], normalEqns := [s.normar] }) → P (lsmrFirst q.kw s) := by
            intro P s h1 h2
            unfold lsmrFirst
            split
            · exact h2
            · exact h1
          refine hs (fun s => LmRel s 0 v 0 v u ‖q.B u‖ 1 ‖q.B u‖ ‖q.b‖ 0 1 0 (‖q.B u‖ * ‖q.b‖) 1 0 1 1 (‖q.B u‖ * ‖q.B u‖) 0 (10 ^ 100)) _ ?_ ?_ <;>
          · refine ⟨by norm_num, le_rfl, mul_pos hα hα, le_rfl, by positivity, rfl, rfl, rfl, rfl, rfl, rfl, rfl, ?_, ?_, ?_, ?_, ?_, ?_,
              ?_, ?_, ?_, ⟨0, 0, 0, 0, ?_, ?_, ?_, ?_, ?_⟩, ?_, ?_, ?_⟩ <;>
            simp [lsmrStart]
        · have : ‖q.b‖ • i1 u + 0 = i1 q.b := by rw [add_zero, ← map_smul, hub]
          rw [this]
          exact hmr

/-- what is known when `solve` ends -/
theorem lsmrSolveN_exact {q : LsmrProblem E F} (hq : q.Valid) {nrm : Vec E → Fl} {ν : E → ℝ} (hν : NormOf nrm ν) {i1 : F →ₗ[ℝ] H} {i2 : E →ₗ[ℝ] H} (e : Emb i1 i2) (selfX : Option (Vec E)) :
    (q.B q.b = 0 → ∃ res s, lsmrSolveN nrm (Vec.op q.A) (Vec.op q.B) q.m q.n (.fin q.b) q.kw selfX = .ok (res, s) ∧
      res.itn = 0 ∧ res.istop = 0 ∧ res.x = .fin 0 ∧ res.normr = .fin ‖q.b‖ ∧ res.normar = .fin 0 ∧ res.normx = .fin 0 ∧
      res.iterates = (if q.storeIterates then [.fin 0] else []) ∧ res.selfX = selfX) ∧
    (q.B q.b ≠ 0 →
      (∃ s xs, lsmrSolveN nrm (Vec.op q.A) (Vec.op q.B) q.m q.n (.fin q.b) q.kw selfX = .ok (lsmrResult (some s.x) s, s) ∧ LmHist q ν s xs ∧
        lsmrCont (lsmrLimit q.m q.n q.itnlim) s = false ∧ (LmGood q i1 i2 s xs.length ∨ s.istop = 1 ∨ s.istop = 2) ∧
        (FiniteDimensional ℝ E → ∀ d, Confined (q.B ∘ₗ q.A) (q.B q.b) d → xs.length ≤ d)) ∨
      ∃ er, lsmrSolveN nrm (Vec.op q.A) (Vec.op q.B) q.m q.n (.fin q.b) q.kw selfX = .error er ∧
        LmRaise q (lsmrLimit q.m q.n q.itnlim) er) := by
  obtain ⟨s0, h0, hbeta, k1, k2, k3, k4, k5, k6, k7, hinv⟩ := lsmrInit_exact hq hν.zero e
  have hsol : lsmrSolveN nrm (Vec.op q.A) (Vec.op q.B) q.m q.n (.fin q.b) q.kw selfX =
      lsmrMainN nrm (Vec.op q.A) (Vec.op q.B) q.kw (lsmrLimit q.m q.n q.itnlim) selfX s0 := by
    unfold lsmrSolveN
    simp only [h0, ok_bind]
    rfl
  rw [hsol]
  unfold lsmrMainN
  constructor
  · intro hB
    rw [hB, norm_zero] at k5
    rw [k5, if_pos ((feq_fin_zero 0).2 rfl)]
    exact ⟨_, _, rfl, k1, k2, k3, k4, k5, k6, k7, rfl⟩
  · intro hB
    obtain ⟨hb, hi⟩ := hinv hB
    rw [k5, if_neg (by rw [feq_fin_zero]; exact norm_ne_zero_iff.2 hB)]
    rcases exceptLoop_or (cont := lsmrCont (lsmrLimit q.m q.n q.itnlim))
      (step := lsmrStepN nrm (Vec.op q.A) (Vec.op q.B) q.kw (lsmrLimit q.m q.n q.itnlim) s0.beta)
      (μ := fun s => (lsmrLimit q.m q.n q.itnlim - s.itn).toNat)
      (h := fun s t h ht h' => by
        have := (lsmrStepN_hist ht).itn
        simp only [lsmrCont, Bool.and_eq_true, decide_eq_true_eq] at h h'
        omega)
      (fun s => LmInv q ν i1 i2 s ∧ (FiniteDimensional ℝ E → ∀ d, Confined (q.B ∘ₗ q.A) (q.B q.b) d → s.itn ≤ d))
      (LmRaise q (lsmrLimit q.m q.n q.itnlim))
      (fun s hs hc => by
        rw [hbeta]
        rcases LmInv.next hq hν e (lsmrLimit q.m q.n q.itnlim) hb s hs.1 hc with ⟨t, ht, hi⟩ | h
        · refine Or.inl ⟨t, ht, hi, fun _ d hd => ?_⟩
          have h0 : s.istop = 0 := by
            simp only [lsmrCont, Bool.and_eq_true, decide_eq_true_eq] at hc; omega
          rw [(lsmrStepN_hist ht).itn]
          obtain ⟨⟨xs, hx1, hg | hg⟩, -⟩ := hs
          · obtain ⟨_, _, _, _, _, _, _, _, _, _, _, _, _, _, _, _, _, _, _, _, -, _, _, _, _, _, _, _, _, _, _, _, _, hrun, -⟩ := hg
            have := hrun.gk.lt_confined hd
            rw [hx1.itn]; omega
          · omega
        · exact Or.inr h) (lsmrFirst q.kw s0) ⟨hi, fun _ _ _ => by
            have : (lsmrFirst q.kw s0).itn = s0.itn := by unfold lsmrFirst; split <;> rfl
            rw [this, k1]; exact Nat.zero_le _⟩ with
      ⟨t, ht, ⟨⟨xs, hx1, hx2⟩, hd⟩, hc⟩ | ⟨er, he, hr⟩
    · refine Or.inl ⟨t, xs, ?_, hx1, hc, hx2, fun hf d h => by rw [← hx1.itn]; exact hd hf d h⟩
      have : lsmrLoopN nrm (Vec.op q.A) (Vec.op q.B) q.kw (lsmrLimit q.m q.n q.itnlim) s0.beta (lsmrFirst q.kw s0) = .ok t := ht
      rw [this]; rfl
    · refine Or.inr ⟨er, ?_, hr⟩
      have : lsmrLoopN nrm (Vec.op q.A) (Vec.op q.B) q.kw (lsmrLimit q.m q.n q.itnlim) s0.beta (lsmrFirst q.kw s0) = .error er := he
      rw [this]; rfl

theorem LsmrProblem.resid_zero {q : LsmrProblem E F} {x : E} (h : q.resid x = 0) : q.A x = q.b ∧ q.damp • x = 0 := by
  unfold LsmrProblem.resid at h
  rw [Real.sqrt_eq_zero (by positivity)] at h
  have h1 : ‖q.b - q.A x‖ ^ 2 = 0 := by nlinarith [sq_nonneg (‖q.b - q.A x‖), sq_nonneg (q.damp * ‖x‖)]
  have h2 : q.damp ^ 2 * ‖x‖ ^ 2 = 0 := by nlinarith
  have h3 : q.b - q.A x = 0 := by simpa using h1
  refine ⟨(sub_eq_zero.1 h3).symm, ?_⟩
  rcases mul_eq_zero.1 h2 with h | h
  · have : q.damp = 0 := by simpa using h
    rw [this]; simp
  · have : x = 0 := by simpa using h
    rw [this]; simp

/-- the case of LSMR without preconditioners -/
theorem lsmrSolve_exact {q : LsmrProblem E F} (hq : q.Valid) {i1 : F →ₗ[ℝ] H} {i2 : E →ₗ[ℝ] H} (e : Emb i1 i2) (selfX : Option (Vec E)) :
    (q.B q.b = 0 → ∃ res s, lsmrSolve (Vec.op q.A) (Vec.op q.B) q.m q.n (.fin q.b) q.kw selfX = .ok (res, s) ∧
      res.itn = 0 ∧ res.istop = 0 ∧ res.x = .fin 0 ∧ res.normr = .fin ‖q.b‖ ∧ res.normar = .fin 0 ∧ res.normx = .fin 0 ∧
      res.iterates = (if q.storeIterates then [.fin 0] else []) ∧ res.selfX = selfX) ∧
    (q.B q.b ≠ 0 →
      (∃ s xs, lsmrSolve (Vec.op q.A) (Vec.op q.B) q.m q.n (.fin q.b) q.kw selfX = .ok (lsmrResult (some s.x) s, s) ∧
        LmHist q (fun x => ‖x‖) s xs ∧
        lsmrCont (lsmrLimit q.m q.n q.itnlim) s = false ∧ (LmGood q i1 i2 s xs.length ∨ s.istop = 1 ∨ s.istop = 2) ∧
        (FiniteDimensional ℝ E → ∀ d, Confined (q.B ∘ₗ q.A) (q.B q.b) d → xs.length ≤ d)) ∨
      ∃ er, lsmrSolve (Vec.op q.A) (Vec.op q.B) q.m q.n (.fin q.b) q.kw selfX = .error er ∧
        LmRaise q (lsmrLimit q.m q.n q.itnlim) er) :=
  lsmrSolveN_exact hq NormOf.norm e selfX

/-! ### The properties -/

/-- **C51.** In exact arithmetic, for every operator `A` with transpose `B` between inner product spaces, right-hand side, damping,
tolerances (`atol` not negative), iteration limit and nonempty window, without preconditioners, one of the following holds.

* `solve` returns, and there is a list of iterates, starting with 0 and ending with the returned `x`, such that (with the options
  that store them) `iterates` is that list, `resids` are the values `sqrt(|b - Ax|^2 + damp^2 |x|^2)` and `normal_eqns_resids`
  the values `|A'(b - Ax) - damp^2 x|` at these iterates (if `A'b` is not zero; otherwise these two lists are empty);
  `normr`, `normar`, `normx` are the values at the returned `x`; the `i`-th iterate minimizes `|A'(b - Ax) - damp^2 x|` over the
  span of `A'b, (A'A)A'b, ..., (A'A)^(i-1)A'b`; and no iterate has a zero residual, unless `b = 0`.
* `solve` raises `ZeroDivisionError`, and within the iteration limit the minimizer `x` over one of these spaces has zero
  residual: `Ax = b` and `damp x = 0`. -/
theorem C51_true_norms (q : LsmrProblem E F) (hq : q.Valid) (selfX : Option (Vec E)) :
    (∃ res s, ∃ xs : List E, lsmrSolve (Vec.op q.A) (Vec.op q.B) q.m q.n (.fin q.b) q.kw selfX = .ok (res, s) ∧
      res.itn = xs.length ∧ res.x = .fin ((0 :: xs).getLast (by simp)) ∧
      (q.storeIterates = true → res.iterates = (0 :: xs).map Vec.fin) ∧
      (q.storeResids = true → q.B q.b ≠ 0 →
        res.resids = (0 :: xs).map (fun x => Fl.fin (Real.sqrt (‖q.b - q.A x‖ ^ 2 + q.damp ^ 2 * ‖x‖ ^ 2))) ∧
        res.normalEqns = (0 :: xs).map (fun x => Fl.fin ‖q.B (q.b - q.A x) - (q.damp * q.damp) • x‖)) ∧
      (∀ x, res.x = .fin x →
        res.normr = .fin (Real.sqrt (‖q.b - q.A x‖ ^ 2 + q.damp ^ 2 * ‖x‖ ^ 2)) ∧
        res.normar = .fin ‖q.B (q.b - q.A x) - (q.damp * q.damp) • x‖ ∧ res.normx = .fin ‖x‖) ∧
      (∀ i (h : i < xs.length), xs[i] ∈ krylov (q.B ∘ₗ q.A) (q.B q.b) (i+1) ∧
        ∀ y ∈ krylov (q.B ∘ₗ q.A) (q.B q.b) (i+1),
          ‖q.B (q.b - q.A xs[i]) - (q.damp * q.damp) • xs[i]‖ ≤ ‖q.B (q.b - q.A y) - (q.damp * q.damp) • y‖) ∧
      (∀ x ∈ xs, ¬ (q.A x = q.b ∧ q.damp • x = 0))) ∨
    (lsmrSolve (Vec.op q.A) (Vec.op q.B) q.m q.n (.fin q.b) q.kw selfX = .error .zeroDivision ∧
      ∃ (k : ℕ) (x : E), 1 ≤ k ∧ (k : ℤ) ≤ q.itnlim.getD (min q.m q.n : ℕ) ∧ x ∈ krylov (q.B ∘ₗ q.A) (q.B q.b) k ∧
        q.A x = q.b ∧ q.damp • x = 0) := by
  obtain ⟨i1, i2, e⟩ := emb_exists E F
  obtain ⟨hz, hnz⟩ := lsmrSolve_exact hq e selfX
  by_cases hB : q.B q.b = 0
  · obtain ⟨res, s, hs, k1, k2, k3, k4, k5, k6, k7, -⟩ := hz hB
    refine Or.inl ⟨res, s, [], hs, k1, k3, fun h => by rw [k7, if_pos h]; rfl, fun _ h => absurd hB h, fun x hx => ?_, by simp, by simp⟩
    have : x = 0 := by rw [k3] at hx; cases hx; rfl
    rw [this, k4, k5, k6]
    simp [hB]
  · rcases hnz hB with ⟨s, xs, hs, hh, -, -⟩ | ⟨er, he, rfl, k, x, h1, h2, h3, h4⟩
    · have hl : (0 :: xs).getLast (by simp) = xs.getLastD 0 := by
        cases xs with
        | nil => rfl
        | cons a l => rw [List.getLast_cons (by simp), List.getLastD_cons, List.getLast_eq_getLastD]
      refine Or.inl ⟨_, s, xs, hs, hh.itn, hh.x.trans (by rw [hl]), fun h => ?_, fun h _ => ⟨?_, ?_⟩, fun x hx => ?_,
        fun i h => hh.best i h, fun x hx h => hh.nz x hx ?_⟩
      · exact hh.iterates.trans (if_pos h)
      · exact hh.resids.trans (if_pos h)
      · exact hh.normalEqns.trans (if_pos h)
      · have : x = xs.getLastD 0 := by
          have h1 : s.x = .fin x := hx
          rw [hh.x] at h1
          cases h1; rfl
        rw [this]
        exact ⟨hh.normr, hh.normar, hh.normx⟩
      · unfold LsmrProblem.resid
        have hd : q.damp ^ 2 * ‖x‖ ^ 2 = 0 := by
          rw [← mul_pow]
          have : |q.damp| * ‖x‖ = 0 := by rw [← Real.norm_eq_abs, ← norm_smul, h.2, norm_zero]
          rcases mul_eq_zero.1 this with h | h
          · rw [abs_eq_zero.1 h]; simp
          · rw [h]; simp
        rw [h.1, sub_self, norm_zero, hd]
        simp
    · obtain ⟨h5, h6⟩ := q.resid_zero h4
      exact Or.inr ⟨he, k, x, h1, h2, h3.1, h5, h6⟩

/-- C51 and C71: `A'b` is confined to `d` dimensions under `A'A` -/
theorem lsmr_confined [FiniteDimensional ℝ E] (q : LsmrProblem E F) (hq : q.Valid) (selfX : Option (Vec E)) (hb : q.B q.b ≠ 0)
    {d : ℕ} (hd : Confined (q.B ∘ₗ q.A) (q.B q.b) d)
    (hl : (d : ℤ) ≤ q.itnlim.getD (min q.m q.n : ℕ)) (hn : ∀ x, ¬ (q.A x = q.b ∧ q.damp • x = 0)) :
    ∃ res s, lsmrSolve (Vec.op q.A) (Vec.op q.B) q.m q.n (.fin q.b) q.kw selfX = .ok (res, s) ∧ 1 ≤ res.istop ∧ res.istop ≤ 8 ∧
      res.istop ≠ 7 ∧ res.itn ≤ d ∧
      (q.atol = 0 → q.btol = 0 → q.etol ≤ 0 → q.conlim ≤ 0 →
        ∃ x, res.x = .fin x ∧ q.B (q.b - q.A x) - (q.damp * q.damp) • x = 0) := by
  obtain ⟨i1, i2, e⟩ := emb_exists E F
  rcases (lsmrSolve_exact hq e selfX).2 hb with ⟨s, xs, hs, hh, hc, hcase, hcount⟩ | ⟨er, he, rfl, k, x, h1, h2, h3, h4⟩
  · have hst := C40_status_partial _ _ _ _ _ _ _ _ _ hs
    have h8 := hst.2.1
    have h7 := hst.2.2.2.2.2.1
    have hlim : lsmrLimit q.m q.n q.itnlim = q.itnlim.getD (min q.m q.n : ℕ) := rfl
    have hne : s.istop ≠ 0 ∧ s.istop ≠ 7 := by
      rcases hcase with hg | hg
      · obtain ⟨_, _, _, _, _, _, _, _, _, _, _, _, _, _, _, _, _, _, _, _, -, _, _, _, _, _, _, _, _, _, _, _, _, hrun, -⟩ := hg
        have := hrun.gk.lt_confined hd
        have hlt : (s.itn : ℤ) < lsmrLimit q.m q.n q.itnlim := by
          rw [hh.itn, hlim]; omega
        constructor
        · intro h0
          simp [lsmrCont, h0] at hc
          omega
        · intro h0
          have : (s.itn : ℤ) = lsmrLimit q.m q.n q.itnlim := h7 h0
          omega
      · omega
    refine ⟨_, s, hs, ?_, h8, hne.2, hh.itn.trans_le (hcount inferInstance d hd), fun ha hb' he hcl => ⟨_, hh.x, ?_⟩⟩
    · exact Nat.one_le_iff_ne_zero.2 hne.1
    · rcases hh.done ha hb' he hcl with h | h | h
      · exact absurd h hne.1
      · exact absurd h hne.2
      · exact norm_eq_zero.1 h
  · exact absurd (q.resid_zero h4) (hn x)

/-- **C51, convergence.** In exact arithmetic, for a right-hand side with `A'b ≠ 0`, an operator on a space of dimension at most the
iteration limit, and no `x` with zero residual (the system is inconsistent, or `damp` is not zero), `solve` returns with one of
the codes 1 to 6 or 8, and for zero tolerances the returned `x` solves the normal equations. -/
theorem C51_converges [FiniteDimensional ℝ E] (q : LsmrProblem E F) (hq : q.Valid) (selfX : Option (Vec E)) (hb : q.B q.b ≠ 0)
    (hl : (Module.finrank ℝ E : ℤ) ≤ q.itnlim.getD (min q.m q.n : ℕ)) (hn : ∀ x, ¬ (q.A x = q.b ∧ q.damp • x = 0)) :
    ∃ res s, lsmrSolve (Vec.op q.A) (Vec.op q.B) q.m q.n (.fin q.b) q.kw selfX = .ok (res, s) ∧ 1 ≤ res.istop ∧ res.istop ≤ 8 ∧
      res.istop ≠ 7 ∧
      (q.atol = 0 → q.btol = 0 → q.etol ≤ 0 → q.conlim ≤ 0 →
        ∃ x, res.x = .fin x ∧ q.B (q.b - q.A x) - (q.damp * q.damp) • x = 0) := by
  obtain ⟨res, s, h1, h2, h3, h4, -, h5⟩ := lsmr_confined q hq selfX hb (confined_of_finrank le_rfl) hl hn
  exact ⟨res, s, h1, h2, h3, h4, h5⟩

/-- **C40, defect.** With zero tolerances, `solve` never solves a consistent system: for every operator on a space of dimension at
most the iteration limit, `damp = 0` and every right-hand side `b = Az ≠ 0`, it raises `ZeroDivisionError` (from
`test2 = normar/(normA*normr)`), in exact arithmetic. -/
theorem C40_consistent_raises [FiniteDimensional ℝ E] (q : LsmrProblem E F) (hq : q.Valid) (selfX : Option (Vec E)) (hd : q.damp = 0)
    (hb : q.b ≠ 0) (z : E) (hz : q.A z = q.b) (ha : q.atol = 0) (hb' : q.btol = 0) (he : q.etol ≤ 0) (hcl : q.conlim ≤ 0)
    (hl : (Module.finrank ℝ E : ℤ) ≤ q.itnlim.getD (min q.m q.n : ℕ)) :
    lsmrSolve (Vec.op q.A) (Vec.op q.B) q.m q.n (.fin q.b) q.kw selfX = .error .zeroDivision := by
  obtain ⟨i1, i2, e⟩ := emb_exists E F
  have hnorm : ∀ x, q.normal x = 0 → q.A x = q.b := by
    intro x hx
    unfold LsmrProblem.normal at hx
    rw [hd] at hx
    simp only [mul_zero, zero_smul, sub_zero, norm_eq_zero] at hx
    have h1 : ⟪q.A (z - x), q.A (z - x)⟫ = 0 := by
      rw [hq.adj, map_sub, hz, hx, inner_zero_right]
    have h2 : q.A (z - x) = 0 := inner_self_eq_zero.1 h1
    rw [map_sub, hz] at h2
    exact (sub_eq_zero.1 h2).symm
  have hBb : q.B q.b ≠ 0 := by
    intro h
    refine hb ?_
    rw [← hnorm 0 (by unfold LsmrProblem.normal; simp [h]), map_zero]
  rcases (lsmrSolve_exact hq e selfX).2 hBb with ⟨s, xs, hs, hh, hc, hcase, hcount⟩ | ⟨er, he, rfl, -⟩
  · exfalso
    have hst := C40_status_partial _ _ _ _ _ _ _ _ _ hs
    have h7 := hst.2.2.2.2.2.1
    have hlim : lsmrLimit q.m q.n q.itnlim = q.itnlim.getD (min q.m q.n : ℕ) := rfl
    have hne : s.istop ≠ 0 ∧ s.istop ≠ 7 := by
      rcases hcase with hg | hg
      · obtain ⟨_, _, _, _, _, _, _, _, _, _, _, _, _, _, _, _, _, _, _, _, -, _, _, _, _, _, _, _, _, _, _, _, _, hrun, -⟩ := hg
        have := hrun.gk.lt_finrank
        have hlt : (s.itn : ℤ) < lsmrLimit q.m q.n q.itnlim := by
          rw [hh.itn, hlim]; omega
        constructor
        · intro h0
          simp [lsmrCont, h0] at hc
          omega
        · intro h0
          have : (s.itn : ℤ) = lsmrLimit q.m q.n q.itnlim := h7 h0
          omega
      · omega
    have h0 := (hh.done ha hb' he hcl).resolve_left hne.1 |>.resolve_left hne.2
    have hA := hnorm _ h0
    have hres : q.resid (xs.getLastD 0) = 0 := by
      unfold LsmrProblem.resid
      rw [hA, hd]; simp
    rcases List.eq_nil_or_concat xs with rfl | ⟨ys, y, rfl⟩
    · have : q.A 0 = q.b := hA
      rw [map_zero] at this
      exact hb this.symm
    · rw [List.concat_eq_append, List.getLastD_concat] at hres
      exact hh.nz y (by simp) hres
  · exact he

/-- **C40, defect.** If `b` is an eigenvector of `AA'` (for example if `A` is the identity or a multiple of an orthogonal matrix), LSMR
without damping finds the solution in the first iteration and raises `ZeroDivisionError`, for all tolerances and limits. -/
theorem C40_identity_raises (q : LsmrProblem E F) (hq : q.Valid) (selfX : Option (Vec E)) (hd : q.damp = 0) (hb : q.B q.b ≠ 0)
    (c : ℝ) (hc : q.A (q.B q.b) = c • q.b) (hl : 1 ≤ q.itnlim.getD (min q.m q.n : ℕ)) :
    lsmrSolve (Vec.op q.A) (Vec.op q.B) q.m q.n (.fin q.b) q.kw selfX = .error .zeroDivision := by
  obtain ⟨i1, i2, e⟩ := emb_exists E F
  rcases (lsmrSolve_exact hq e selfX).2 hb with ⟨s, xs, hs, hh, hcont, -⟩ | ⟨er, he, rfl, -⟩
  · exfalso
    have hst := C40_status_partial _ _ _ _ _ _ _ _ _ hs
    have hitn : s.itn ≠ 0 := by
      intro h0
      have h1 : s.istop = 0 := hst.2.2.1.2 h0
      have hlim : lsmrLimit q.m q.n q.itnlim = q.itnlim.getD (min q.m q.n : ℕ) := rfl
      rw [← hlim] at hl
      simp only [lsmrCont, h0, h1, decide_true, Bool.true_and, decide_eq_false_iff_not] at hcont
      push_cast at hcont
      omega
    have hlen : 0 < xs.length := by rw [← hh.itn]; omega
    obtain ⟨hmem, hmin⟩ := hh.best 0 hlen
    have hk : krylov (q.B ∘ₗ q.A) (q.B q.b) (0+1) = Submodule.span ℝ {q.B q.b} := by
      unfold krylov
      congr 1
      ext z
      constructor
      · rintro ⟨j, hj, rfl⟩
        have : j = 0 := by omega
        subst this; simp
      · intro h
        rw [Set.mem_singleton_iff] at h
        subst h
        exact ⟨0, by omega, by simp⟩
    rw [hk] at hmem hmin
    have hc0 : c ≠ 0 := by
      intro h
      rw [h, zero_smul] at hc
      have h1 : ⟪q.B q.b, q.B q.b⟫ = 0 := by rw [← hq.adj, hc, inner_zero_left]
      exact hb (inner_self_eq_zero.1 h1)
    obtain ⟨t, ht⟩ := Submodule.mem_span_singleton.1 hmem
    have h1 := hmin (c⁻¹ • q.B q.b) (Submodule.smul_mem _ _ (Submodule.mem_span_singleton_self _))
    have h2 : q.normal (c⁻¹ • q.B q.b) = 0 := by
      unfold LsmrProblem.normal
      rw [map_smul, hc, smul_smul, inv_mul_cancel₀ hc0, hd]
      simp
    have h3 : q.normal xs[0] = 0 := le_antisymm (h2 ▸ h1) (norm_nonneg _)
    rw [← ht] at h3
    have h4 : (1 - t * c) • q.B q.b = 0 := by
      unfold LsmrProblem.normal at h3
      rw [hd] at h3
      simp only [mul_zero, zero_smul, zero_mul, sub_zero, norm_eq_zero, map_smul, hc, map_sub, smul_smul] at h3
      rw [sub_smul, one_smul]
      exact h3
    have h5 : t * c = 1 := by
      rcases smul_eq_zero.1 h4 with h | h
      · linarith
      · exact absurd h hb
    refine hh.nz xs[0] (List.getElem_mem _) ?_
    unfold LsmrProblem.resid
    rw [← ht, map_smul, hc, smul_smul, h5, hd]
    simp
  · exact he

/-! ### The hypotheses are met -/

/-- a problem with the diagonal matrix `A = diag(1, a)` -/
noncomputable def lsmrDemo (a damp b0 b1 : ℝ) (itnlim : Option ℤ) : LsmrProblem (EuclideanSpace ℝ (Fin 2)) (EuclideanSpace ℝ (Fin 2)) :=
  { A := Matrix.toEuclideanLin !![1, 0; 0, a], B := Matrix.toEuclideanLin !![1, 0; 0, a], b := !₂[b0, b1], m := 2, n := 2, damp := damp,
    itnlim := itnlim, atol := 0, btol := 0, etol := 0, conlim := 0, storeResids := true, storeIterates := true, window := 5 }

theorem lsmrDemo_valid (a damp b0 b1 : ℝ) (itnlim : Option ℤ) : (lsmrDemo a damp b0 b1 itnlim).Valid := by
  refine ⟨fun x y => ?_, le_rfl, by simp [lsmrDemo]⟩
  simp only [lsmrDemo, PiLp.inner_apply, Fin.sum_univ_two, Matrix.toLpLin_apply, Matrix.mulVec, dotProduct]
  simp
  ring

/-- `A = diag(1, 2)`, `b = (1, 1)`, `damp = 0`: raises -/
example : lsmrSolve (Vec.op (lsmrDemo 2 0 1 1 none).A) (Vec.op (lsmrDemo 2 0 1 1 none).B) 2 2 (.fin (lsmrDemo 2 0 1 1 none).b)
    (lsmrDemo 2 0 1 1 none).kw none = .error .zeroDivision := by
  refine C40_consistent_raises (lsmrDemo 2 0 1 1 none) (lsmrDemo_valid _ _ _ _ _) none rfl ?_ (!₂[1, 1/2]) ?_ rfl rfl le_rfl le_rfl ?_
  · intro h
    have h0 := congrArg (fun x => x 0) h
    simp [lsmrDemo] at h0
  · ext i
    fin_cases i <;> simp [lsmrDemo]
  · simp [lsmrDemo]

/-- the identity, `b = (1, 1)`: raises -/
example : lsmrSolve (Vec.op (lsmrDemo 1 0 1 1 none).A) (Vec.op (lsmrDemo 1 0 1 1 none).B) 2 2 (.fin (lsmrDemo 1 0 1 1 none).b)
    (lsmrDemo 1 0 1 1 none).kw none = .error .zeroDivision := by
  refine C40_identity_raises (lsmrDemo 1 0 1 1 none) (lsmrDemo_valid _ _ _ _ _) none rfl ?_ 1 ?_ ?_
  · intro h
    have h0 := congrArg (fun x => x 0) h
    simp [lsmrDemo] at h0
  · ext i
    fin_cases i <;> simp [lsmrDemo, Matrix.mulVec, dotProduct]
  · simp [lsmrDemo]

/-- `A = diag(1, 2)`, `b = (1, 1)`, `damp = 1`: returns the solution -/
example : ∃ res s, lsmrSolve (Vec.op (lsmrDemo 2 1 1 1 none).A) (Vec.op (lsmrDemo 2 1 1 1 none).B) 2 2 (.fin (lsmrDemo 2 1 1 1 none).b)
    (lsmrDemo 2 1 1 1 none).kw none = .ok (res, s) ∧ 1 ≤ res.istop := by
  suffices hyp : _ ∧ _ ∧ _ by
    obtain ⟨res, s, h, h1, -⟩ := C51_converges (lsmrDemo 2 1 1 1 none) (lsmrDemo_valid _ _ _ _ _) none hyp.1 hyp.2.1 hyp.2.2
    exact ⟨res, s, h, h1⟩
  refine ⟨?_, ?_, ?_⟩
  · intro h
    have h0 := congrArg (fun x => x 0) h
    simp [lsmrDemo] at h0
  · simp [lsmrDemo]
  · rintro x ⟨h1, h2⟩
    have h2' : x = 0 := by simpa [lsmrDemo] using h2
    rw [h2', map_zero] at h1
    have h0 := congrArg (fun x => x 0) h1
    simp [lsmrDemo] at h0

end Verif.Solver
